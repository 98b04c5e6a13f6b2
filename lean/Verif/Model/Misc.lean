import Verif.Model.Define
/-!
# Model of `grf/lib/misc.py`: `combine_ranges`, `DisableDefault`, `BaseCosts`
-/
namespace Grf.Misc

open Grf.PropC

/-- Insertion into a sorted list, in front of equal ids; a step of `sorted` (`grf/lib/misc.py:11`). -/
def insertSorted {α : Type} (x : Int × α) : List (Int × α) → List (Int × α)
  | [] => [x]
  | y :: l => if x.1 ≤ y.1 then x :: y :: l else y :: insertSorted x l

/-- `sorted(values)` (`grf/lib/misc.py:11`) on pairs: by id. Python compares the values too when two ids are equal; the callers only
have different ids (keys of a dictionary) or equal values (`None`), where a stable sort by id gives the same list. -/
def sorted {α : Type} (values : List (Int × α)) : List (Int × α) := values.foldr insertSorted []

/-- `res[-1][1].append(value)` (`grf/lib/misc.py:16`). -/
def appendLast {α : Type} (res : List (Int × List α)) (v : α) : List (Int × List α) :=
  res.dropLast ++ (match res.getLast? with | some (i, l) => [(i, l ++ [v])] | none => [])

/-- The loop of `combine_ranges` (`grf/lib/misc.py:11-18`) with its variables `last_id`, `count` and `res`. -/
def combineLoop {α : Type} (chunk : Nat) (last : Option Int) (count : Nat) (res : List (Int × List α)) :
    List (Int × α) → List (Int × List α)
  | [] => res
  | (i, v) :: l =>
    if last ≠ some (i - 1) ∨ chunk ≤ count then combineLoop chunk (some i) 1 (res ++ [(i, [v])]) l
    else combineLoop chunk (some i) (count + 1) (appendLast res v) l

/-- `combine_ranges(values)` with the default `chunk_size=255` (`grf/lib/misc.py:7-19`). -/
def combineRanges {α : Type} (values : List (Int × α)) : List (Int × List α) := combineLoop 255 none 0 [] (sorted values)

/-- `DisableDefault.DISABLE_INFO` (`grf/lib/misc.py:113-150`); `grf.NO_CLIMATE` is 0 (`grf/common.py:9`). -/
def disableInfo : Nat → Option (Nat × List (String × PVal))
  | 0 => some (116, [("climates_available", .int 0)])
  | 1 => some (88, [("climates_available", .int 0)])
  | 2 => some (11, [("climates_available", .int 0)])
  | 3 => some (41, [("climates_available", .int 0)])
  | 7 => some (110, [("substitute", .int 0xff)])
  | 10 => some (37, [("substitute_type", .int 0xff)])
  | 11 => some (27, [("bit_number", .int 0xff), ("label", .label (.int 0))])
  | _ => none

/-- The argument `ids` of `DisableDefault` (`grf/lib/misc.py:152-161`): nothing, one id, a collection that can be iterated again,
or an iterator (such as a generator), which the check `all(isinstance(x, int) ...)` of the constructor consumes. -/
inductive Ids where
  | none
  | one (i : Int)
  | list (l : List Int)
  | iterator (l : List Int)
deriving DecidableEq, Repr

/-- The ids `get_sprites` iterates over (`grf/lib/misc.py:156-161,165`). -/
def Ids.seen (count : Nat) : Ids → List Int
  | .none => (List.range count).map fun (k : Nat) => (k : Int)
  | .one i => [i]
  | .list l => l
  | .iterator _ => []

/-- `DisableDefault(feature, ids).get_sprites(g)` (`grf/lib/misc.py:152-177`); `none` is the constructor's `ValueError`. -/
def disableDefault (feature : Nat) (ids : Ids) : Option (List Def0) := do
  let (count, props) ← disableInfo feature
  some ((combineRanges ((ids.seen count).map fun x => (x, ()))).map fun r =>
    ⟨feature, r.1, r.2.length, props.map fun p => (p.1, List.replicate r.2.length p.2)⟩)

/-- `BaseCosts(costs).get_sprites(g)` (`grf/lib/misc.py:252-265`); `costs` is a dictionary. `grf.GLOBAL_VAR` is feature 8. -/
def baseCosts (costs : List (Int × PVal)) : List Def0 :=
  (combineRanges costs).map fun r => ⟨8, r.1, r.2.length, [("basecost", r.2)]⟩

end Grf.Misc
