import Verif.Model.PropCodec
import Verif.Model.Refs
/-!
# Model of Action 0: `DefineMultiple`, `Define` and `decode_action0`
-/
namespace Grf.PropC

/-- `DefineMultiple(feature, first_id, count, props)` (`grf/actions.py:1360-1374`); `Define` (`grf/actions.py:1463-1466`) is the case
`count = 1` with lists of one value. `props` is a dictionary in insertion order; `feature` is the number of the `Feature`. -/
structure Def0 where
  feature : Nat
  firstId : Int
  count : Nat
  props : List (String × List PVal)
deriving DecidableEq, Repr

/-- The constructor's checks (`grf/actions.py:1369-1374`): properties of the feature exist and all names are known. -/
def Def0.accepted (d : Def0) : Bool := (table d.feature).isSome && d.props.all fun p => (byName d.feature p.1).isSome

/-- The bytes of one property (`grf/actions.py:1427-1434`): `value[i]` raises `IndexError` when there are fewer than `count` values;
further values are ignored. -/
def encodeProp (feature count : Nat) (p : String × List PVal) : Option Bytes := do
  let e ← byName feature p.1
  let c ← byteOf e.code
  if p.2.length < count then none
  else
    let b ← cat ((p.2.take count).map (encode e.fmt))
    some (c :: b)

/-- `DefineMultiple.get_data` (`grf/actions.py:1423-1435`). -/
def Def0.getData (d : Def0) : Option Bytes := do
  let h ← cat [packU 1 0, packU 1 d.feature, packU 1 d.props.length, packU 1 d.count, packU 1 255, packU 2 d.firstId]
  let b ← cat (d.props.map (encodeProp d.feature d.count))
  some (h ++ b)

/-- The loop of `decode_action0` (`grf/decompile.py:219-235`). With `num_info == 1` the code stores the value itself and passes it to
`Define`, which wraps it in a list again; both cases are lists here. -/
def decodeProps (feature count : Nat) : Nat → List (String × List PVal) → Bytes → Option (List (String × List PVal) × Bytes)
  | 0, d, bs => some (d, bs)
  | n + 1, d, bs => do
    let (code, bs) ← readU 1 bs
    let e ← byCode feature code.toNat
    let (l, bs) ← readN (read e.fmt) count bs
    decodeProps feature count n (dictSet d e.name l) bs

/-- `decode_action0` (`grf/decompile.py:213-252`); `data` does not contain the action byte. `grf.Feature(n)` raises for unknown
features, and the constructor for features without properties. Bytes after the last property are ignored. -/
def decode0 (data : Bytes) : Option Def0 := do
  let (f, bs) ← readU 1 data
  let (np, bs) ← readU 1 bs
  let (n, bs) ← readU 1 bs
  let (first, bs) ← readExt bs
  if 0x14 < f.toNat then none
  else
    let (ps, _) ← decodeProps f.toNat n.toNat np.toNat [] bs
    if (table f.toNat).isNone then none
    else some ⟨f.toNat, first, n.toNat, ps⟩

end Grf.PropC
