import Verif.Model.Bytes
/-!
# Model of `grf/common.py`
-/
namespace Grf

/-! ## Python integer bit operations (arbitrary precision two's complement) -/

/-- bits of `a` that are not in `b` For `grf/common.py:100-101`. -/
def ldiff (a b : Nat) : Nat := a ^^^ (a &&& b)

/-- Python `a & b` on `int`. For `grf/common.py:100-101`. -/
def pyAnd : Int → Int → Int
  | .ofNat a, .ofNat b => .ofNat (a &&& b)
  | .ofNat a, .negSucc b => .ofNat (ldiff a b)
  | .negSucc a, .ofNat b => .ofNat (ldiff b a)
  | .negSucc a, .negSucc b => .negSucc (a ||| b)

/-- Python `a | b` on `int`. For `grf/common.py:100-101`. -/
def pyOr : Int → Int → Int
  | .ofNat a, .ofNat b => .ofNat (a ||| b)
  | .ofNat a, .negSucc b => .negSucc (ldiff b a)
  | .negSucc a, .ofNat b => .negSucc (ldiff a b)
  | .negSucc a, .negSucc b => .negSucc (a &&& b)

/-! ## Extended bytes -/

/-- `grf/common.py:192-196` `encode_extended_byte`. -/
def encodeExtendedByte (value : Int) : Option Bytes :=
  if value < 255 then packU 1 value
  else cat [packU 1 255, packU 2 value]

/-- `grf/common.py:185-189` `read_extended_byte(data, offset)`; `data[i]` past the end raises
(`offset` is a natural number: no caller passes a negative one). Returns value and new offset. -/
def readExtendedByteAt (data : Bytes) (offset : Nat) : Option (Int × Nat) := do
  let res ← data[offset]?
  if res ≠ 0xff then some (res.toNat, offset + 1)
  else do
    let b1 ← data[offset + 1]?
    let b2 ← data[offset + 2]?
    some (((b1.toNat ||| (b2.toNat <<< 8) : Nat) : Int), offset + 3)

/-- `grf/common.py:218-220` `DataReader.get_extended_byte` on the remaining bytes
(see `readExtendedByteAt_drop` for the connection to the indexed version). -/
def readExt (bs : Bytes) : Option (Int × Bytes) :=
  match bs with
  | [] => none
  | b :: r => if b ≠ 0xff then some (b.toNat, r) else readU 2 r

/-! ## Signed conversions -/

/-- `grf/common.py:100-101` `utoi8`. -/
def utoi8 (v : Int) : Int := pyOr v (-(pyAnd v 0x80))

/-- `grf/common.py:104-105` `utoi32`. -/
def utoi32 (v : Int) : Int := pyOr v (-(pyAnd v 0x80000000))

/-! ## Dates -/

/-- `grf/common.py:237` `DAYS_FOR_MONTH`. -/
def DAYS_FOR_MONTH : List Nat := [31, 29, 31, 30, 31, 30, 31, 31, 30, 31, 30, 31]

/-- `grf/common.py:238` `ACCUM_DAYS_FOR_MONTH[i]`. -/
def accumDays (i : Nat) : Nat := (DAYS_FOR_MONTH.take i).sum

/-- `grf/common.py:241-242` `is_leap_year` (the second definition, which shadows lines 108-109). -/
def isLeapYear (year : Nat) : Bool := year % 4 == 0 && (year % 100 != 0 || year % 400 == 0)

/-- `grf/common.py:245-251` `days_till`. -/
def daysTill (year : Nat) : Nat :=
  365 * year + (if year > 0 then (year - 1) / 4 - (year - 1) / 100 + (year - 1) / 400 + 1 else 0)

/-- `grf/common.py:259-270` `Date(year, month, day).to_days()`. -/
def dateToDays (year month day : Nat) : Nat :=
  let days := accumDays (month - 1) + day - 1
  let days := if !isLeapYear year && days ≥ accumDays 2 then days - 1 else days
  daysTill year + days

/-! ## Hex text -/

/-- One lower-case hex digit of `'{:02x}'`. For `grf/common.py:80-87`. -/
def hexDigit (n : Nat) : Char := if n < 10 then Char.ofNat (48 + n) else Char.ofNat (87 + n)

/-- `'{:02x}'.format(b)` for a byte. For `grf/common.py:80-87`. -/
def hexByte (b : UInt8) : List Char := [hexDigit (b.toNat / 16), hexDigit (b.toNat % 16)]

/-- `grf/common.py:80-87` `hex_str(s)` for `bytes` and `n=None`: `':'.join(...)`. -/
def hexStr : Bytes → List Char
  | [] => []
  | [b] => hexByte b
  | b :: c :: r => hexByte b ++ ':' :: hexStr (c :: r)

/-- `grf/common.py:80-87` `hex_str(s, n)` with a limit: longer strings are cut to `n-3` bytes and
`...` is appended. (`s[:n-3]` for `n < 3` would cut from the end; `n ≥ 3` in every caller.) -/
def hexStrN (s : Bytes) (n : Nat) : List Char :=
  if s.length > n then hexStr (s.take (n - 3)) ++ ['.', '.', '.'] else hexStr s

/-- Value of a hex digit as accepted by `int(x, 16)` (either case). For `grf/common.py:90-91`. -/
def hexVal (c : Char) : Option Nat :=
  let n := c.toNat
  if 48 ≤ n ∧ n ≤ 57 then some (n - 48)
  else if 97 ≤ n ∧ n ≤ 102 then some (n - 87)
  else if 65 ≤ n ∧ n ≤ 70 then some (n - 55)
  else none

/-- `int(x, 16)` restricted to plain digit strings: `int('', 16)` raises `ValueError`.
(Python also accepts signs, `0x`, underscores and spaces; they never occur in `hex_str` output and
are rejected here.) -/
def parseHex (x : List Char) : Option Nat :=
  if x = [] then none
  else x.foldl (fun acc c => do let a ← acc; let d ← hexVal c; some (16 * a + d)) (some 0)

/-- `str.split(':')`: always at least one part. For `grf/common.py:90-91`. -/
def splitColon : List Char → List (List Char)
  | [] => [[]]
  | c :: cs =>
    if c = ':' then [] :: splitColon cs
    else match splitColon cs with
      | [] => [[c]]
      | p :: ps => (c :: p) :: ps

/-- `grf/common.py:90-91` `str_hex`: `bytes(int(x, 16) for x in s.split(':'))`; `bytes` raises for
values above 255. -/
def strHex (s : List Char) : Option Bytes :=
  (splitColon s).mapM (fun x => do
    let v ← parseHex x
    if v < 256 then some (UInt8.ofNat v) else none)

/-! ## Features -/

/-- `grf/common.py:148-177`: the feature ids known to the library, in table order. -/
def featureIds : List Int := (List.range 0x15).map Int.ofNat

end Grf
