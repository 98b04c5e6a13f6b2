import Verif.Model.Compile
import Verif.Model.Decode
/-!
# Model of references and of `Switch` (`grf/actions.py:25-101, 1701-1798`)
-/
namespace Grf

/-- What a switch range, map entry or default may point to (`grf/actions.py:25-57`). -/
inductive Target where
  /-- a `Ref(value)` / `CB(value)` object, lines 25-29, 75-77: `value` is the raw word -/
  | ref (value : Int)
  /-- a Python `int`: callback result -/
  | num (n : Int)
  /-- a `Sound` with its id -/
  | sound (id : Int)
  /-- a referenceable action with its assigned `ref_id` -/
  | action (refId : Int)
deriving DecidableEq, Repr

/-- `get_ref_id`, `grf/actions.py:50-57`. -/
def getRefId : Target → Int
  | .ref v => v
  | .num n => pyOr n 0x8000
  | .sound i => pyOr i 0x8000
  | .action r => r

/-- `CB(value)`, `grf/actions.py:75-77`. -/
def mkCB (v : Int) : Target := .ref (pyOr v 0x8000)

/-- `Ref(ref_id)`, `grf/actions.py:26-29`: raw value, `is_callback`, `ref_id`. -/
structure RefObj where
  value : Int
  isCallback : Bool
  refId : Int
deriving DecidableEq, Repr

/-- `Ref.__init__`, `grf/actions.py:26-29`. -/
def mkRef (v : Int) : RefObj := ⟨v, pyAnd v 0x8000 != 0, pyAnd v 0x7fff⟩

/-- `Range`, `grf/actions.py:80-84`. -/
structure SRange where
  low : Int
  high : Int
  ref : Target
deriving DecidableEq, Repr

/-- `struct.pack('<Hii', ref_id, low, high)` For `grf/actions.py:1786-1793`. -/
def packRange (ref low high : Int) : Option Bytes := cat [packU 2 ref, packS 4 low, packS 4 high]

/-- One user range, `grf/actions.py:1786-1793`: a range from negative to non-negative is split. -/
def encodeRange (r : SRange) : Option Bytes :=
  if r.low < 0 ∧ 0 ≤ r.high then
    cat [packRange (getRefId r.ref) r.low (-1), packRange (getRefId r.ref) 0 r.high]
  else packRange (getRefId r.ref) r.low r.high

/-- `grf/actions.py:1785-1793`: all ranges. -/
def encodeRanges (rs : List SRange) : Option Bytes := cat (rs.map encodeRange)

/-- `Switch`, `grf/actions.py:1703-1728`, after parsing of the code. `featureId` is `feature.id`. -/
structure Switch where
  featureId : Int
  refId : Int
  related : Bool
  code : List Node
  ranges : List SRange
  default : Target
deriving DecidableEq, Repr

/-- `grf/actions.py:1794-1797`: range count, ranges and default. `bytes((n,))` raises for `n > 255`. -/
def encodeTable (rs : List SRange) (dflt : Target) : Option Bytes := do
  let ranges ← encodeRanges rs
  let n ← packU 1 (ranges.length / 10 : Nat)
  let d ← packU 2 (getRefId dflt)
  some (n ++ ranges ++ d)

/-- `Switch.get_data`, `grf/actions.py:1773-1798`. `T` holds the variable table of the (possibly related)
feature and the subroutine ids. -/
def Switch.getData (T : Tables) (s : Switch) : Option Bytes := do
  let hdr ← cat [packU 1 2, packU 1 s.featureId, packU 1 s.refId, packU 1 (if s.related then 0x8a else 0x89)]
  let (code, _) ← compileLines T s.code Ctx.init
  let code ← markEnd code
  let tbl ← encodeTable s.ranges s.default
  some (hdr ++ code ++ tbl)

end Grf
