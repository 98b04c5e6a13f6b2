import Verif.Model.Container
/-! # What a written container should contain -/
namespace Grf

/-- All data stored under the real sprite id `v`, in file order (one per zoom level / colour depth). -/
def dataOf (reals : List (Nat × Bytes)) (v : Nat) : List Bytes := (reals.filter (fun p => p.1 = v)).map (·.2)

/-- The entry `e` read from the file shows the item: for an action its exact payload (payloads of one byte are
ignored by readers), for a resource a reference to an id under which exactly the item's data are stored. -/
def ShownAs (real : Nat → Option Bytes) (W : ResWorld) (reals : List (Nat × Bytes)) : Item → PEntry → Prop
  | .action d, e => ∃ x, d = some x ∧ (e = .pseudo x ∨ (x.length = 1 ∧ e = .empty))
  | .res o, e => ∃ v, e = .ref v ∧ (W o).resources.mapM real = some (dataOf reals v)

/-- Resource `o` is one of the items. -/
def HasRes (items : List Item) (o : Nat) : Prop := .res o ∈ items

/-- How many entries of the list are resources. -/
def resCount (items : List Item) : Nat := items.countP fun it => match it with | .res _ => true | _ => false

/-- No resource action was added at two places. -/
def ResDistinct (items : List Item) : Prop :=
  ∀ i j : Nat, ∀ o, items[i]? = some (.res o) → items[j]? = some (.res o) → i = j

/-- No two different lists of sprite data of this file have the same hash. -/
def HashDistinguishes (hash : List Bytes → Int) (real : Nat → Option Bytes) (W : ResWorld) (items : List Item) : Prop :=
  ∀ o o', HasRes items o → HasRes items o' → ∀ d d', (W o).resources.mapM real = some d →
    (W o').resources.mapM real = some d' → hash d = hash d' → d = d'

end Grf
