import Verif.Model.Refs
/-!
# What it means for resolved actions to be in a usable order

Only the attributes of the actions (`Act`) are used here, nothing of the algorithm.
-/
namespace Grf

/-- Action `a` refers to action `b` (as an object, not through a raw `Ref`). -/
def Refers (W : World) (a b : Nat) : Prop :=
  (W a).referencing = true ∧ RefArg.obj b ∈ (W a).refs ∧ (W b).referenceable = true

/-- `a` takes part in reference resolution. -/
def IsAction (W : World) (a : Nat) : Prop := (W a).referencing = true ∨ (W a).referenceable = true

/-- `b` is needed by `a`: it is `a` or is reached from it by following references. -/
inductive Needs (W : World) (a : Nat) : Nat → Prop
  | refl : Needs W a a
  | step {b c : Nat} : Needs W a b → Refers W b c → Needs W a c

/-- `b` is reached from the user's action `a` through actions the user did not add himself. -/
inductive Within (W : World) (sprites : List Nat) (a : Nat) : Nat → Prop
  | refl : Within W sprites a a
  | step {b c : Nat} : Within W sprites a b → Refers W b c → c ∉ sprites → Within W sprites a c

/-- `x` occurs in `l`, and `y` does not occur before (some occurrence of) `x`. -/
def Before (l : List Nat) (x y : Nat) : Prop := ∃ l1 l2, l = l1 ++ l2 ∧ x ∈ l1 ∧ y ∉ l1

/-- No chain of references comes back to its start. -/
def Acyclic (W : World) : Prop := ∀ a b, Refers W a b → ¬ Needs W b a

/-- Nobody uses raw (non-callback) `Ref` objects. -/
def NoRawRefs (W : World) : Prop := ∀ a rid, RefArg.ref false rid ∉ (W a).refs

/-- The user adds an action before the actions that refer to it: whatever the user's action `p` needs
(directly or through actions that were not added) among the user's actions is earlier in the list. -/
def AddedBeforeUse (W : World) (sprites : List Nat) : Prop :=
  ∀ p ∈ sprites, ∀ a b, Within W sprites p a → Refers W a b → b ∈ sprites → Before sprites b p

/-- The first of the user's actions that needs `u` is not itself referred to. -/
def FirstUserUnreferenced (W : World) (sprites : List Nat) : Prop :=
  ∀ u, u ∉ sprites → ∀ p ∈ sprites, ∀ q ∈ sprites, Within W sprites p u → Within W sprites q u →
    Before sprites p q → (∀ r ∈ sprites, Within W sprites r u → r = p ∨ Before sprites p r) →
    ∀ x s, s ∈ sprites → Needs W s x → ¬ Refers W x p

/-- None of the user's actions is referred to. -/
def OnlyRootsAdded (W : World) (sprites : List Nat) : Prop :=
  ∀ s ∈ sprites, ∀ x, Needs W s x → ∀ p ∈ sprites, ¬ Refers W x p

/-- What a raw `Ref` with number `rid` means when `earlier` are the user's actions added so far: the last of them that can be
referred to and has this number set by the user. -/
def RawTarget (W : World) (earlier : List Nat) (rid : Int) (p : Nat) : Prop :=
  ∃ l1 l2, earlier = l1 ++ p :: l2 ∧ (W p).referenceable = true ∧ (W p).refId = some rid ∧
    ∀ q ∈ l2, ¬ ((W q).referenceable = true ∧ (W q).refId = some rid)

/-- The references of `c` are looked at when the user's action `s`, added after `earlier`, is resolved: `c` is `s` itself or is
needed by `s` and by none of the earlier ones. -/
def LookedAt (W : World) (earlier : List Nat) (s c : Nat) : Prop :=
  Needs W s c ∧ (c = s ∨ ∀ q ∈ earlier, ¬ Needs W q c)

/-- Some raw `Ref` means the user's action `p`. -/
def RawReferred (W : World) (sprites : List Nat) (p : Nat) : Prop :=
  ∃ earlier s later c rid, sprites = earlier ++ s :: later ∧ LookedAt W earlier s c ∧ (W c).referencing = true ∧
    RefArg.ref false rid ∈ (W c).refs ∧ RawTarget W earlier rid p

/-- `r` is one of the user's actions, and nothing refers to it, neither as an object nor through a raw `Ref`. -/
def Unreferenced (W : World) (sprites : List Nat) (r : Nat) : Prop :=
  r ∈ sprites ∧ IsAction W r ∧ (∀ s ∈ sprites, ∀ c, Needs W s c → ¬ Refers W c r) ∧ ¬ RawReferred W sprites r

/-- `a` is needed by an added action which nothing refers to. -/
def Kept (W : World) (sprites : List Nat) (a : Nat) : Prop := ∃ r, Unreferenced W sprites r ∧ Needs W r a

/-- Every added action stands before the added actions which refer to it, directly or through actions that were not added. -/
def AddedFirst (W : World) (sprites : List Nat) : Prop :=
  ∀ p ∈ sprites, Kept W sprites p → ∀ a b, Within W sprites p a → Refers W a b → b ∈ sprites → Before sprites b p

/-- `p` uses `u`, which was not added: it reaches `u` through actions that were not added. -/
def UserOf (W : World) (sprites : List Nat) (u p : Nat) : Prop := p ∈ sprites ∧ Kept W sprites p ∧ u ∉ sprites ∧ Within W sprites p u

/-- If an action that was not added has several users, the first of them is one nothing refers to. -/
def SharedFirst (W : World) (sprites : List Nat) : Prop :=
  ∀ u p q, UserOf W sprites u p → UserOf W sprites u q → q ≠ p → (∀ r, UserOf W sprites u r → r = p ∨ Before sprites p r) →
    Unreferenced W sprites p

/-- Every action in the list of references `l` is met there for the first time, after the user's actions `earlier`. -/
def FirstMet (W : World) (earlier : List Nat) (l : List RefArg) : Prop :=
  ∀ l1 r l2, l = l1 ++ .obj r :: l2 → (W r).referenceable = true →
    (∀ p ∈ earlier, ¬ Needs W p r) ∧ ∀ q, .obj q ∈ l1 → (W q).referenceable = true → ¬ Needs W q r

/-- How `M`, added after `earlier`, uses `L`: as its first reference, or as the last reference (the default) of the switch that is its
first reference, where the other references of both are met there for the first time. -/
inductive UsesFirst (W : World) (sprites earlier : List Nat) (L M : Nat) : Prop
  | direct (rest : List RefArg) : (W M).refs = .obj L :: rest → UsesFirst W sprites earlier L M
  | default (P : Nat) (rest hs : List RefArg) : (W M).refs = .obj P :: rest → FirstMet W earlier (W M).refs → P ∉ sprites →
      (W P).referenceable = true → (W P).referencing = true → (W P).refs = hs ++ [.obj L] → FirstMet W earlier hs →
      UsesFirst W sprites earlier L M

/-- The user adds `L`, which refers to nothing, for `M`, the next action he adds, which nothing refers to and which uses `L` first. -/
structure AddedFor (W : World) (sprites : List Nat) (L M : Nat) : Prop where
  at_ : ∃ pre mid post, sprites = pre ++ L :: mid ++ M :: post ∧ (∀ x ∈ mid, ¬ IsAction W x) ∧ (∀ p ∈ pre, ¬ Needs W p L) ∧
    UsesFirst W sprites (pre ++ L :: mid) L M
  target : (W L).referenceable = true
  leaf : (W L).referencing = false
  user : Unreferenced W sprites M
  referencing : (W M).referencing = true

/-- Nothing refers to the actions the user adds, except those he adds for the next one. -/
def AddedFine (W : World) (sprites : List Nat) : Prop :=
  ∀ s ∈ sprites, IsAction W s → Unreferenced W sprites s ∨ ∃ M, AddedFor W sprites s M

/-- In the emitted list an id written in the action `c` means `a`: `a` is the last action before `c` with this id. -/
def Selects (W : World) (res : Resolved) (c : Nat) (i : Int) (a : Nat) : Prop :=
  ∃ l1 l2 l3, res.out = l1 ++ a :: l2 ++ c :: l3 ∧ res.refId a = some i ∧ ∀ b ∈ l2, (W b).referenceable = true → res.refId b ≠ some i

end Grf
