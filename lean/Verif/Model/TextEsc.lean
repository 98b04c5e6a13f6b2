import Verif.Model.ResNames
/-!
# Model of `grf_compile_string` (`grf/strings.py`)

Texts are lists of characters (without lone surrogates, which have no UTF-8 form). `int16` is Python's `int(..., 16)` and `isAscii` is
`nml.grfstrings.is_ascii_string`.
-/
namespace Grf.TextEsc

/-- A character in UTF-8. For `grf/strings.py:242-256`. -/
def utf8 (c : Char) : Bytes := String.utf8EncodeChar c

/-- `chr(n).encode('utf8')`: surrogates have no UTF-8 form, other numbers no character. For `grf/strings.py:242-256`. -/
def chrUtf8 (n : Int) : Option Bytes := if 0 ≤ n ∧ n.toNat.isValidChar then some (utf8 (Char.ofNat n.toNat)) else none

/-- The loop of `grf_compile_string` (`grf/strings.py:242-256`). `fuel` bounds the iterations, each of which takes a character. -/
def escapes (int16 : List Char → Option Int) : Nat → List Char → Option Bytes
  | _, [] => some []
  | 0, _ :: _ => none
  | fuel + 1, c :: r =>
    if c = '\\' then
      match r with
      | [] => none
      | d :: r' =>
        if d = '\\' ∨ d = '"' then (escapes int16 fuel r').map (utf8 d ++ ·)
        else if d = 'U' then
          ((int16 (r'.take 4)).bind chrUtf8).bind fun b => (escapes int16 fuel (r'.drop 4)).map (b ++ ·)
        else
          ((int16 (r.take 2)).bind byteOf).bind fun b => (escapes int16 fuel (r.drop 2)).map (b :: ·)
    else (escapes int16 fuel r).map (utf8 c ++ ·)

/-- `grf_compile_string` for a `str` (`grf/strings.py:234-257`). -/
def compile (int16 : List Char → Option Int) (isAscii : List Char → Bool) (value : List Char) : Option Bytes :=
  (escapes int16 value.length value).map ((if isAscii value then [] else [0xC3, 0x9E]) ++ ·)

/-- The value of a hexadecimal digit. For `grf/strings.py:234-257`. -/
def hexVal (c : Char) : Option Nat :=
  if '0' ≤ c ∧ c ≤ '9' then some (c.toNat - 48)
  else if 'a' ≤ c ∧ c ≤ 'f' then some (c.toNat - 87)
  else if 'A' ≤ c ∧ c ≤ 'F' then some (c.toNat - 55)
  else none

/-- Digits that may have single underscores between them (`afterUnderscore`: a digit has to follow). For `grf/strings.py:234-257`. -/
def hexDigits : Bool → Nat → List Char → Option Nat
  | afterUnderscore, acc, [] => if afterUnderscore then none else some acc
  | afterUnderscore, acc, c :: cs =>
    if c = '_' then (if afterUnderscore then none else hexDigits true acc cs)
    else (hexVal c).bind fun v => hexDigits false (acc * 16 + v) cs

/-- Whether the text starts with a minus sign, and the text without its sign. For `grf/strings.py:234-257`. -/
def splitSign : List Char → Bool × List Char
  | [] => (false, [])
  | c :: r => if c = '-' then (true, r) else if c = '+' then (false, r) else (false, c :: r)

/-- Digits after an optional `0x`, which may be followed by an underscore. -/
def hexBody (s : List Char) : Option Nat :=
  if s.take 2 = ['0', 'x'] ∨ s.take 2 = ['0', 'X'] then
    hexDigits true 0 (if (s.drop 2).head? = some '_' then s.drop 3 else s.drop 2)
  else hexDigits true 0 s

/-- `int(s, 16)` of Python on ASCII text: spaces around, a sign, a prefix `0x` and underscores are allowed. (Other Unicode digits and
spaces, which Python allows too, are refused here.) -/
def pyInt16 (s : List Char) : Option Int :=
  let t := splitSign ((s.dropWhile ResNames.isSpace).reverse.dropWhile ResNames.isSpace).reverse
  (hexBody t.2).map fun n => if t.1 then -(n : Int) else n

end Grf.TextEsc
