import Verif.Model.IdMap
/-!
# Model of `grf/lib/train.py`: lengths and articulated parts

Graphics (liveries), sounds, texts and the other properties of the parts are left out; ids, `shorten_by` and the articulated-part
callback are kept.
-/
namespace Grf.Train

open Grf.IdMap (Value)

/-- `f'{id}'` (`grf/lib/train.py:81-82`). -/
def showId : Value → String
  | .int i => toString i
  | .str s => s

/-- An entry of `self._articulated_parts` (`grf/lib/train.py:121`): id and property `shorten_by`. -/
structure Part where
  id : Value
  shorten : Option Int
deriving DecidableEq, Repr

/-- A `Train` (`grf/lib/train.py:49-68`): `length` is the argument, `shorten` the property `shorten_by` of the head. -/
structure T where
  id : Value
  length : Option Int
  shorten : Option Int
  dualHeaded : Bool
  parts : List Part
deriving DecidableEq, Repr

/-- `_calc_length_articulation` (`grf/lib/train.py:84-113`): shortening of the visible part and, if the vehicle is split, of each of
the two invisible ones; `none` is an exception (too long, or `self.length % 2` with `self.length` being `None`). -/
def split (selfLength length shortenBy : Option Int) : Option (Option Int × Option Int) :=
  match length with
  | none => some (shortenBy, none)
  | some l =>
    if 24 < l then none
    else if l ≤ 8 then some (some (8 - l), none)
    else
      match selfLength with
      | none => none
      | some sl =>
        let central : Int := if sl % 2 = 1 then 7 else 8
        let art : Int := if sl % 2 = 1 then (l - 7) / 2 else (l - 8) / 2
        some (some (8 - central), some (8 - art))

/-- `_add_auto_articulated_parts` (`grf/lib/train.py:70-82`). -/
def autoParts (id : Value) (mid art : Option Int) : List Part :=
  [⟨.str ("__" ++ showId id ++ "_aa_mid"), mid⟩, ⟨.str ("__" ++ showId id ++ "_aa_tail"), art⟩]

/-- `Train(id=.., length=.., shorten_by=.., is_dual_headed=..)` (`grf/lib/train.py:40-68`). -/
def new (id : Value) (length shortenBy : Option Int) (dual : Bool) : Option T :=
  if length.isSome ∧ shortenBy.isSome then none
  else do
    let (mid, art) ← split length length shortenBy
    match art with
    | some a => some ⟨id, length, some a, dual, autoParts id mid (some a)⟩
    | none => some ⟨id, length, mid, dual, []⟩

/-- The checks of `add_articulated_part` (`grf/lib/train.py:124-160`), except that of the names of the other properties. -/
def partAllowed (t : T) (id : Value) (length shortenBy : Option Int) : Bool :=
  (match id with | .int i => decide (i < 0x4000) | .str _ => true) && !t.dualHeaded && !(length.isSome && shortenBy.isSome)

/-- `add_articulated_part(id=.., length=.., shorten_by=.., skip_props_check=..)` (`grf/lib/train.py:123-174`). -/
def addPart (t : T) (id : Value) (length shortenBy : Option Int) (skip : Bool) : Option T :=
  if !skip && !partAllowed t id length shortenBy then none
  else do
    let (mid, art) ← split t.length length shortenBy
    match art with
    | none => some { t with parts := t.parts ++ [⟨id, mid⟩] }
    | some a => some { t with parts := t.parts ++ ⟨id, some a⟩ :: autoParts id mid (some a) }

/-- The ranges of the articulated-part callback (`grf/lib/train.py:226-231`): `{i + 1: id}`. -/
def ranges (rid : Value → Int) (t : T) : List (Nat × Int) := t.parts.zipIdx.map fun p => (p.2 + 1, rid p.1.id)

/-- The answer of the articulated-part callback: `extra_callback_info1_byte` is the lowest byte of the argument
(`grf/lib/train.py:226-231`). -/
def answer (rid : Value → Int) (t : T) (arg : Nat) : Int := ((ranges rid t).lookup (arg % 256)).getD 0x7fff

/-- The definitions `get_sprites` emits (`grf/lib/train.py:245-301`): id and property `shorten_by` of head and parts; `none` is the
exception for articulated dual-headed engines (`grf/lib/train.py:247-248`). -/
def defines (rid : Value → Int) (t : T) : Option (List (Int × Option Int)) :=
  if t.dualHeaded && !t.parts.isEmpty then none
  else some ((rid t.id, t.shorten) :: t.parts.map fun p => (rid p.id, p.shorten))

/-- `Train.visual_effect_and_powered` (`grf/lib/train.py:36-38`); `True * 0x7f` is 0x7f. -/
def visualEffect (effect position : Nat) (wagonPower : Bool) : Nat := effect ||| position ||| (if wagonPower then 0x7f else 0)

/-- `weight_low` and `weight_high` (`grf/lib/train.py:269-270`). -/
def weightProps (w : Int) : Int × Int := (w % 256, w / 256)

end Grf.Train
