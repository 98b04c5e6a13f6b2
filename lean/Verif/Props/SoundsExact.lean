import Verif.Props.Sounds
/-!
# C52: exactly what is emitted

`Yields` (`Props/Sounds.lean`) says in which order nested generators yield items. Here: exactly when adding or generating succeeds, and
what the result then is.
-/
namespace Grf.Sounds

/-! ### Specification -/

/-- What is kept of an item in the list: actions as they are, resources wrapped; sounds go to the sound table; a resource action made by
the user is not kept at all. -/
def kept : Item → List Entry
  | .resource r => [.single r]
  | .action a => [.action a]
  | .sound _ | .soundAction _ | .resourceAction _ => []

/-- The sounds among items. -/
def soundsOf : List Item → List Nat
  | [] => []
  | .sound s :: is => s :: soundsOf is
  | _ :: is => soundsOf is

/-- A sound wrapped in an action by the user. -/
def isSoundAction : Item → Bool
  | .soundAction _ => true
  | _ => false

/-- The sounds are given to the sound table one after the other; the first refusal is an error. -/
def addSounds (fp : Nat → Nat) : St → List Nat → Option St
  | st, [] => some st
  | st, s :: ss => (addSound fp st s).bind fun st' => addSounds fp st' ss

/-- What a file contains: entries stored by `add`, and the items of the generators in between. -/
inductive Contains : List Top → List (Entry ⊕ Item) → Prop where
  | nil : Contains [] []
  | entry {e ts xs} : Contains ts xs → Contains (.entry e :: ts) (.inl e :: xs)
  | gen {g is ts xs} : Yields g is → Contains ts xs → Contains (.gen g :: ts) (is.map .inr ++ xs)

/-- The items of a content. -/
def itemsOf (xs : List (Entry ⊕ Item)) : List Item := xs.filterMap fun x => match x with | .inl _ => none | .inr i => some i

/-- The entries a content leads to. -/
def keptAll (xs : List (Entry ⊕ Item)) : List Entry := xs.flatMap fun x => match x with | .inl e => [e] | .inr i => kept i

/-! ### Proofs -/

theorem soundsOf_append (a b : List Item) : soundsOf (a ++ b) = soundsOf a ++ soundsOf b := by
  induction a with
  | nil => rfl
  | cons i a ih => cases i <;> simp [soundsOf, ih]

theorem addSounds_append (fp : Nat → Nat) (a b : List Nat) : ∀ st, addSounds fp st (a ++ b) = (addSounds fp st a).bind fun st' => addSounds fp st' b := by
  induction a with
  | nil => intro st; rfl
  | cons s a ih =>
    intro st
    simp only [List.cons_append, addSounds, ih]
    cases addSound fp st s <;> rfl

/-- **C52** (`add`) Adding items succeeds exactly when none is a wrapped sound and the sound table takes all their sounds; the list then
grows by what is kept of each item, in order. -/
theorem added_exact (fp : Nat → Nat) (is : List Item) : ∀ (l l' : List Entry) (st st' : St),
    addAll fp l st is = some (l', st') ↔
      (∀ i ∈ is, isSoundAction i = false) ∧ addSounds fp st (soundsOf is) = some st' ∧ l' = l ++ is.flatMap kept := by
  induction is with
  | nil =>
    intro l l' st st'
    simp only [addAll, Option.some.injEq, Prod.mk.injEq, List.not_mem_nil, false_implies, implies_true, soundsOf, addSounds, true_and,
      List.flatMap_nil, List.append_nil]
    constructor
    · rintro ⟨rfl, rfl⟩; exact ⟨rfl, rfl⟩
    · rintro ⟨rfl, rfl⟩; exact ⟨rfl, rfl⟩
  | cons i is ih =>
    intro l l' st st'
    simp only [List.forall_mem_cons, List.flatMap_cons, addAll, Option.bind_eq_bind]
    cases i with
    | soundAction s => simp [add, isSoundAction]
    | resourceAction r => simp [add, isSoundAction, soundsOf, kept, ih]
    | resource r => simp [add, isSoundAction, soundsOf, kept, ih]
    | action a => simp [add, isSoundAction, soundsOf, kept, ih]
    | sound s =>
      have e0 : isSoundAction (.sound s) = false := rfl
      simp only [add, e0, soundsOf, kept, addSounds, List.nil_append, true_and]
      cases addSound fp st s with
      | none => simp
      | some st1 => simp [ih]

theorem addAll_append (fp : Nat → Nat) (a b : List Item) : ∀ (l : List Entry) (st : St),
    addAll fp l st (a ++ b) = (addAll fp l st a).bind fun x => addAll fp x.1 x.2 b := by
  induction a with
  | nil => intro l st; rfl
  | cons i a ih =>
    intro l st
    simp only [List.cons_append, addAll, Option.bind_eq_bind]
    cases add fp l st i with
    | none => rfl
    | some x => simp [ih]

/-- Running generators is adding what they yield. -/
theorem runList_addAll (fp : Nat → Nat) {gs : List Gen} {is : List Item} (hy : Yields gs is) :
    ∀ (l : List Entry) (st : St), runList fp l st gs = addAll fp l st is := by
  induction hy with
  | nil => intro l st; rfl
  | @item i gs is hy ih =>
    intro l st
    simp only [runList, runOne, addAll, Option.bind_eq_bind]
    cases add fp l st i with
    | none => rfl
    | some x => simp [ih]
  | @gen g gs is js h1 h2 ih1 ih2 =>
    intro l st
    rw [addAll_append]
    simp only [runList, runOne, ih1]
    cases addAll fp l st is with
    | none => rfl
    | some x => simp [ih2]

/-- **C52** (generators) The same for what a generator yields, generators in generators to any depth. -/
theorem generators_exact (fp : Nat → Nat) (gs : List Gen) (is : List Item) (hy : Yields gs is) (l l' : List Entry) (st st' : St) :
    runList fp l st gs = some (l', st') ↔
      (∀ i ∈ is, isSoundAction i = false) ∧ addSounds fp st (soundsOf is) = some st' ∧ l' = l ++ is.flatMap kept := by
  rw [runList_addAll fp hy]; exact added_exact fp is l l' st st'

theorem flatMap_inr (is : List Item) : keptAll (is.map .inr) = is.flatMap kept := by
  simp [keptAll, List.flatMap_map]

theorem itemsOf_inr (is : List Item) : itemsOf (is.map .inr) = is := by
  induction is with
  | nil => rfl
  | cons i is ih => simp only [List.map_cons, itemsOf, List.filterMap_cons]; exact congrArg _ ih

theorem itemsOf_append (a b : List (Entry ⊕ Item)) : itemsOf (a ++ b) = itemsOf a ++ itemsOf b := List.filterMap_append

theorem keptAll_append (a b : List (Entry ⊕ Item)) : keptAll (a ++ b) = keptAll a ++ keptAll b := List.flatMap_append

/-- **C52** (whole file) Generating succeeds exactly when no generator yields a wrapped sound and the sound table takes all yielded
sounds; the result then is the stored entries and what is kept of the yielded items, in the order of additions. -/
theorem file_exact (fp : Nat → Nat) (ts : List Top) (xs : List (Entry ⊕ Item)) (hc : Contains ts xs) :
    ∀ (l l' : List Entry) (st st' : St), generate fp l st ts = some (l', st') ↔
      (∀ i ∈ itemsOf xs, isSoundAction i = false) ∧ addSounds fp st (soundsOf (itemsOf xs)) = some st' ∧ l' = l ++ keptAll xs := by
  induction hc with
  | nil =>
    intro l l' st st'
    simp only [generate, Option.some.injEq, Prod.mk.injEq, itemsOf, List.filterMap_nil, List.not_mem_nil, false_implies, implies_true,
      soundsOf, addSounds, true_and, keptAll, List.flatMap_nil, List.append_nil]
    constructor
    · rintro ⟨rfl, rfl⟩; exact ⟨rfl, rfl⟩
    · rintro ⟨rfl, rfl⟩; exact ⟨rfl, rfl⟩
  | @entry e ts xs _ ih =>
    intro l l' st st'
    simp only [generate, ih]
    have e1 : itemsOf (Sum.inl e :: xs) = itemsOf xs := rfl
    have e2 : keptAll (Sum.inl e :: xs) = e :: keptAll xs := rfl
    rw [e1, e2]; simp
  | @gen g is ts xs hy _ ih =>
    intro l l' st st'
    rw [itemsOf_append, itemsOf_inr, keptAll_append, flatMap_inr, soundsOf_append, addSounds_append]
    simp only [generate]
    have hx := fun l' st' => generators_exact fp g is hy l l' st st'
    cases hr : runList fp l st g with
    | none =>
      simp only [reduceCtorEq, false_iff, not_and]
      intro ha hs
      have hn : addSounds fp st (soundsOf is) = none := by
        cases hs2 : addSounds fp st (soundsOf is) with
        | none => rfl
        | some st2 =>
          have := (hx (l ++ is.flatMap kept) st2).2 ⟨fun i hi => ha i (by simp [hi]), hs2, rfl⟩
          rw [hr] at this; cases this
      rw [hn] at hs; cases hs
    | some p =>
      obtain ⟨l1, st1⟩ := p
      obtain ⟨h1, h2, rfl⟩ := (hx l1 st1).1 hr
      simp only [ih, h2, Option.bind_some, List.forall_mem_append, List.append_assoc]
      constructor
      · rintro ⟨a, b, c⟩; exact ⟨⟨h1, a⟩, b, c⟩
      · rintro ⟨⟨_, a⟩, b, c⟩; exact ⟨a, b, c⟩

/-- Every list of generators yields something. -/
theorem yields_exists (gs : List Gen) : ∃ is, Yields gs is := by
  have key : ∀ n (gs : List Gen), sizeOf gs ≤ n → ∃ is, Yields gs is := by
    intro n
    induction n with
    | zero => intro gs h; cases gs <;> simp at h
    | succ n ih =>
      intro gs h
      match gs with
      | [] => exact ⟨[], .nil⟩
      | .item i :: gs =>
        simp only [List.cons.sizeOf_spec] at h
        obtain ⟨is, hi⟩ := ih gs (by omega)
        exact ⟨_, .item hi⟩
      | .gen g :: gs =>
        simp only [List.cons.sizeOf_spec, Gen.gen.sizeOf_spec] at h
        obtain ⟨is, hi⟩ := ih g (by omega)
        obtain ⟨js, hj⟩ := ih gs (by omega)
        exact ⟨_, .gen hi hj⟩
  exact key _ gs (Nat.le_refl _)

/-- Every list of additions has a content: `file_exact` applies to all. -/
theorem contains_exists (ts : List Top) : ∃ xs, Contains ts xs := by
  induction ts with
  | nil => exact ⟨[], .nil⟩
  | cons t ts ih =>
    obtain ⟨xs, hx⟩ := ih
    cases t with
    | entry e => exact ⟨_, .entry hx⟩
    | gen g => obtain ⟨is, hi⟩ := yields_exists g; exact ⟨_, .gen hi hx⟩

theorem addSounds_addMany (fp : Nat → Nat) (ss : List Nat) : ∀ st st', addSounds fp st ss = some st' → addMany fp st ss = st' := by
  induction ss with
  | nil => intro st st' h; exact Option.some.inj h
  | cons s ss ih =>
    intro st st' h
    simp only [addSounds, Option.bind_eq_some_iff] at h
    obtain ⟨s1, h1, h2⟩ := h
    simp only [addMany, h1, Option.getD_some]
    exact ih _ _ h2

theorem distinct_length (seen xs : List Nat) : seen.length ≤ (distinct seen xs).length := by
  obtain ⟨r, hr⟩ := distinct_prefix xs seen
  rw [hr]; simp

/-- **C52** (sounds) Starting from an empty table, all sounds are taken exactly when at most 183 of them have different fingerprints. -/
theorem sounds_taken_iff (fp : Nat → Nat) (ss : List Nat) :
    (addSounds fp {} ss).isSome = true ↔ (distinct [] (ss.map fp)).length ≤ 183 := by
  have key : ∀ (ss : List Nat) (st : St) (seen : List Nat), Inv fp st → st.sounds.map (·.1) = seen → seen.length ≤ 183 →
      ((addSounds fp st ss).isSome = true ↔ (distinct seen (ss.map fp)).length ≤ 183) := by
    intro ss
    induction ss with
    | nil => intro st seen _ _ hl; simp [addSounds, distinct, hl]
    | cons s ss ih =>
      intro st seen I hk hl
      have hlen : st.sounds.length = seen.length := by rw [← hk]; simp
      simp only [addSounds, List.map_cons, distinct]
      cases h : addSound fp st s with
      | none =>
        obtain ⟨h1, h2⟩ := (add_none I).mp h
        rw [hk] at h1
        rw [if_neg h1]
        have := distinct_length (seen ++ [fp s]) (ss.map fp)
        simp only [List.length_append, List.length_singleton] at this
        simp only [Option.bind_none, Option.isSome_none, Bool.false_eq_true, false_iff]
        omega
      | some st' =>
        obtain ⟨I', _, _, hk'⟩ := inv_add I h
        simp only [Option.bind_some]
        rw [hk] at hk'
        by_cases hm : fp s ∈ seen
        · rw [if_pos hm] at hk' ⊢
          exact ih st' seen I' hk' hl
        · rw [if_neg hm] at hk' ⊢
          refine ih st' _ I' hk' ?_
          have : st.sounds.length ≠ 183 := fun e => by
            have := (add_none I).mpr ⟨hk ▸ hm, e⟩
            rw [this] at h; cases h
          simp only [List.length_append, List.length_singleton]; omega
  exact key ss {} [] (inv_init fp) rfl (by simp)

/-- **C52** Nothing is lost exactly when no resource action made by the user is among the items: only those are dropped. -/
theorem nothing_lost_iff (is : List Item) : is.flatMap kept = is.flatMap expected ↔ ∀ r, Item.resourceAction r ∉ is := by
  have hle : ∀ is : List Item, (is.flatMap kept).length ≤ (is.flatMap expected).length := by
    intro is
    induction is with
    | nil => simp
    | cons i is ih => cases i <;> simp [kept, expected] at * <;> omega
  induction is with
  | nil => simp
  | cons i is ih =>
    cases i with
    | resourceAction x =>
      constructor
      · intro h
        have := congrArg List.length h
        simp only [List.flatMap_cons, kept, expected, List.nil_append, List.length_append, List.length_cons, List.length_nil] at this
        have := hle is
        omega
      · intro h; exact absurd (h x) (by simp)
    | _ => simpa [kept, expected] using ih

/-- Non-vacuity: nested generators with a sound, a resource, an action and a lost resource action. -/
example : ∃ xs, Contains [.entry (.action 1), .gen [.item (.resource 5), .gen [.item (.sound 3), .item (.resourceAction 9)], .item (.action 7)]] xs ∧
    keptAll xs = [.action 1, .single 5, .action 7] ∧ soundsOf (itemsOf xs) = [3] ∧ (addSounds id {} [3]).isSome = true :=
  ⟨_, .entry (.gen (.item (.gen (.item (.item .nil)) (.item .nil))) .nil), rfl, rfl, by decide⟩

end Grf.Sounds
