import Verif.Model.Actions
/-!
# Model of `SetProperties` (Action 14) and of its reader
-/
namespace Grf.Acts
open PropC

/-- A key of a property dictionary (`grf/actions.py:2420-2424`): a text (its UTF-8 bytes), a number, or bytes which are used as they are. -/
inductive Key where
  | str (b : Bytes)
  | int (n : Int)
  | bytes (b : Bytes)
deriving DecidableEq, Repr

/-- The key's bytes (`grf/actions.py:2420-2424`). -/
def Key.encode : Key → Option Bytes
  | .str b => some b
  | .int n => packU 4 n
  | .bytes b => some b

/-- A value of a property dictionary (`grf/actions.py:2425-2451`): a dictionary, a pair (language, text), a list, a text, a number,
bytes, or a `StringRef` given by what `get_pairs()` returns. -/
inductive PV where
  | dict (l : List (Key × PV))
  | text (lang : Int) (b : Bytes)
  | list (l : List PV)
  | str (b : Bytes)
  | int (n : Int)
  | bytes (b : Bytes)
  | strings (l : List (Int × Bytes))

/-- `b'T' + k + bytes((lang_id,)) + text + b'\0'` (`grf/actions.py:2438`, `2442`, `2450`). -/
def textChunk (k : Bytes) (lang : Int) (t : Bytes) : Option Bytes := do
  let l ← packU 1 lang
  some (0x54 :: (k ++ l ++ t ++ [0]))

mutual
/-- `rec(k, v)` for a key already turned into bytes (`grf/actions.py:2425-2451`): what is appended to `data`. -/
def encV (k : Bytes) : PV → Option Bytes
  | .dict l => do
    let b ← encPairs l
    some (0x43 :: (k ++ b ++ [0]))
  | .text lang t => textChunk k lang t
  | .list l => encList k l
  | .str t => textChunk k 0 t
  | .int n => do
    let v ← packU 4 n
    some (0x42 :: (k ++ [4, 0] ++ v))
  | .bytes b => do
    let n ← packU 2 b.length
    some (0x42 :: (k ++ n ++ b))
  | .strings l => cat (l.map fun p => textChunk k p.1 p.2)
/-- `for x in v: rec(k, x)` (`grf/actions.py:2439-2441`). -/
def encList (k : Bytes) : List PV → Option Bytes
  | [] => some []
  | v :: l => do
    let a ← encV k v
    let b ← encList k l
    some (a ++ b)
/-- `for ck, cv in v.items(): rec(ck, cv)` (`grf/actions.py:2428-2429`). -/
def encPairs : List (Key × PV) → Option Bytes
  | [] => some []
  | (k, v) :: l => do
    let kb ← k.encode
    let a ← encV kb v
    let b ← encPairs l
    some (a ++ b)
end

/-- `SetProperties.get_data` (`grf/actions.py:2413-2457`): the top level dictionary has no key but is closed like the others. -/
def propsData (props : List (Key × PV)) : Option Bytes := do
  let b ← encPairs props
  some (0x14 :: (b ++ [0]))

/-- An element of a list in the decoded dictionary (`grf/decompile.py:960`, `968`). -/
inductive Item where
  | bytes (b : Bytes)
  | text (lang : Int) (b : Bytes)
deriving DecidableEq, Repr

/-- A value in the decoded dictionary: a list or a dictionary. For `grf/decompile.py:958-960`. -/
inductive DV where
  | items (l : List Item)
  | dict (l : List (Bytes × DV))

/-- `if chunk_id not in res: res[chunk_id] = []` and `res[chunk_id].append(x)` (`grf/decompile.py:958-960`, `966-968`): a dictionary
has no `append`. -/
def addItem : List (Bytes × DV) → Bytes → Item → Option (List (Bytes × DV))
  | [], k, x => some [(k, .items [x])]
  | (k', v) :: r, k, x =>
    if k' = k then (match v with
      | .items l => some ((k', .items (l ++ [x])) :: r)
      | .dict _ => none)
    else (addItem r k x).map fun r => (k', v) :: r

/-- `while decode_chunk(res): pass` (`grf/decompile.py:944-974`). A dictionary is stored after it has been read instead of before,
which makes no difference. A text without a NUL makes the Python code start over at the beginning of the data for ever; here this is
`none`. Every iteration uses at least a byte, so `fuel` greater than the number of bytes is never used up. -/
def chunks : Nat → List (Bytes × DV) → Bytes → Option (List (Bytes × DV) × Bytes)
  | 0, _, _ => none
  | _ + 1, _, [] => none
  | fuel + 1, res, ty :: bs =>
    if ty = 0 then some (res, bs)
    else
      let id := bs.take 4
      let bs := bs.drop 4
      if ty = 0x43 then do
        let (sub, bs) ← chunks fuel [] bs
        chunks fuel (dictSet res id (.dict sub)) bs
      else if ty = 0x42 then do
        let (n, bs) ← readU 2 bs
        let res ← addItem res id (.bytes (bs.take n.toNat))
        chunks fuel res (bs.drop n.toNat)
      else if ty = 0x54 then do
        let (lang, bs) ← readU 1 bs
        let (t, bs) ← splitNul bs
        let res ← addItem res id (.text lang t)
        chunks fuel res bs
      else none

/-- `decode_action14` (`grf/decompile.py:940-976`). -/
def decode14 (bs : Bytes) : Option (List (Bytes × DV)) := (chunks (bs.length + 1) [] bs).map (·.1)

/-- A value of a decoded list (`grf/decompile.py:960`, `968`). -/
def Item.value : Item → PV
  | .bytes b => .bytes b
  | .text lang b => .text lang b

mutual
/-- The argument `SetProperties` gets from the decoder (`grf/decompile.py:976`): decoded dictionaries and lists as they are. -/
def DV.value : DV → PV
  | .items l => .list (l.map Item.value)
  | .dict l => .dict (DV.props l)
/-- The entries of a dictionary (`grf/decompile.py:976`). -/
def DV.props : List (Bytes × DV) → List (Key × PV)
  | [] => []
  | (k, v) :: r => (.bytes k, DV.value v) :: DV.props r
end

end Grf.Acts
