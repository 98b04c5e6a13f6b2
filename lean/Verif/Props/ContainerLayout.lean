import Verif.Props.Container
import Verif.Spec.GameFile
/-!
# C29: the file byte for byte
-/
namespace Grf

theorem word_eq (n : Nat) : leBytes 4 n = Spec.word n := by
  unfold Spec.word
  simp only [leBytes, Nat.div_div_eq_div_mul]

theorem word_inj {m n : Nat} (hm : m < 2 ^ 32) (hn : n < 2 ^ 32) {a b : Bytes} (h : Spec.word m ++ a = Spec.word n ++ b) : m = n ∧ a = b := by
  have hl : (Spec.word m).length = (Spec.word n).length := rfl
  obtain ⟨h1, h2⟩ := List.append_inj h hl
  refine ⟨?_, h2⟩
  rw [← word_eq, ← word_eq] at h1
  have := congrArg leVal h1
  rwa [leVal_leBytes 4 m (by simpa using hm), leVal_leBytes 4 n (by simpa using hn)] at this

/-- The bytes of a section tell its entries and where it ends. -/
theorem entries_inj : ∀ (l l' : List Spec.Entry) (t t' : Bytes), (∀ e ∈ l, e.Ok) → (∀ e ∈ l', e.Ok) →
    l.flatMap Spec.Entry.bytes ++ (Spec.word 0 ++ t) = l'.flatMap Spec.Entry.bytes ++ (Spec.word 0 ++ t') → l = l' ∧ t = t' := by
  intro l
  induction l with
  | nil =>
    intro l' t t' _ h' h
    cases l' with
    | nil => exact ⟨rfl, List.append_cancel_left h⟩
    | cons e l' =>
      rw [List.flatMap_cons, Spec.Entry.bytes, List.append_assoc, List.append_assoc] at h
      have := (word_inj (by omega) (h' e List.mem_cons_self).2 h).1
      have := (h' e List.mem_cons_self).1
      omega
  | cons e l ih =>
    intro l' t t' hl h' h
    have he := hl e List.mem_cons_self
    cases l' with
    | nil =>
      rw [List.flatMap_cons, Spec.Entry.bytes, List.append_assoc, List.append_assoc] at h
      have := (word_inj he.2 (by omega) h).1
      have := he.1
      omega
    | cons e' l' =>
      have he' := h' e' List.mem_cons_self
      rw [List.flatMap_cons, List.flatMap_cons, Spec.Entry.bytes, Spec.Entry.bytes, List.append_assoc, List.append_assoc, List.append_assoc,
        List.append_assoc] at h
      obtain ⟨h1, h2⟩ := word_inj he.2 he'.2 h
      simp only [List.cons_append, List.cons.injEq] at h2
      obtain ⟨h3, h4⟩ := List.append_inj h2.2 h1
      obtain ⟨rfl, rfl⟩ := ih l' t t' (fun e h => hl e (List.mem_cons_of_mem _ h)) (fun e h => h' e (List.mem_cons_of_mem _ h)) h4
      refine ⟨?_, rfl⟩
      obtain ⟨ty, d⟩ := e
      obtain ⟨ty', d'⟩ := e'
      simp only at h2 h3
      rw [h2.1, h3]

theorem reals_inj : ∀ (l l' : List Spec.Real), (∀ e ∈ l, e.Ok) → (∀ e ∈ l', e.Ok) →
    l.flatMap Spec.Real.bytes ++ Spec.word 0 = l'.flatMap Spec.Real.bytes ++ Spec.word 0 → l = l' := by
  intro l
  have nil_ne : ∀ e : Spec.Real, ∀ t : Bytes, e.Ok → Spec.word 0 ++ [] = e.bytes ++ t → False := by
    intro e t he h
    rw [Spec.Real.bytes, List.append_assoc, List.append_assoc] at h
    have := (word_inj (by omega) he.2.1 h).1
    have := he.1
    omega
  induction l with
  | nil =>
    intro l' _ h' h
    cases l' with
    | nil => rfl
    | cons e l' =>
      rw [List.flatMap_cons, List.append_assoc] at h
      exact (nil_ne e _ (h' e List.mem_cons_self) (by simpa using h)).elim
  | cons e l ih =>
    intro l' hl h' h
    have he := hl e List.mem_cons_self
    cases l' with
    | nil =>
      rw [List.flatMap_cons, List.append_assoc] at h
      exact (nil_ne e _ he (by simpa using h.symm)).elim
    | cons e' l' =>
      have he' := h' e' List.mem_cons_self
      rw [List.flatMap_cons, List.flatMap_cons, Spec.Real.bytes, Spec.Real.bytes] at h
      simp only [List.append_assoc] at h
      obtain ⟨h1, h2⟩ := word_inj he.2.1 he'.2.1 h
      obtain ⟨h3, h4⟩ := word_inj he.2.2 he'.2.2 h2
      obtain ⟨h5, h6⟩ := List.append_inj h4 h3
      have := ih l' (fun e h => hl e (List.mem_cons_of_mem _ h)) (fun e h => h' e (List.mem_cons_of_mem _ h)) h6
      subst this
      obtain ⟨i, d⟩ := e
      obtain ⟨i', d'⟩ := e'
      simp only at h1 h5
      rw [h1, h5]

/-- The format can be read in one way only: the bytes of a file tell its entries and its data. -/
theorem fileBytes_inj {off off' : Nat} {l l' : List Spec.Entry} {r r' : List Spec.Real} (ho : off < 2 ^ 32) (ho' : off' < 2 ^ 32)
    (hl : ∀ e ∈ l, e.Ok) (hl' : ∀ e ∈ l', e.Ok) (hr : ∀ e ∈ r, e.Ok) (hr' : ∀ e ∈ r', e.Ok)
    (h : Spec.fileBytes off l r = Spec.fileBytes off' l' r') : off = off' ∧ l = l' ∧ r = r' := by
  unfold Spec.fileBytes at h
  simp only [List.append_assoc] at h
  obtain ⟨h1, h2⟩ := word_inj ho ho' (List.append_cancel_left h)
  obtain ⟨h3, h4⟩ := entries_inj l l' _ _ hl hl' (List.append_cancel_left h2)
  exact ⟨h1, h3, reals_inj r r' hr hr' h4⟩

/-- **C29** The written file, byte for byte: the header of version 2, the distance to the second section, no compression, the entry that
opens the first section, an entry for every item in order, and the data, both sections closed by a zero. If different data have different
hashes, every reference leads to its own data. -/
theorem written_file_bytes (hash : List Bytes → Int) (real : Nat → Option Bytes) (W : ResWorld) (items : List Item)
    (w : Written) (hne : ∀ d, .action (some d) ∈ items → d ≠ []) (hh : HashDistinguishes hash real W items)
    (h : writeFile hash real W items = some w) :
    ∃ off entries reals, w.file = Spec.fileBytes off (⟨0xff, Spec.word 2⟩ :: entries) reals ∧
      Spec.OffsetRight off (⟨0xff, Spec.word 2⟩ :: entries) ∧
      (∀ e ∈ entries, e.Ok) ∧ (∀ r ∈ reals, r.Ok) ∧
      List.Forall₂ (Spec.EntryShows real W reals) items entries := by
  obtain ⟨ids, cur, reals, st, O⟩ := writeFile_ok h
  obtain ⟨off, h1, h2, h3⟩ := O.file
  obtain ⟨f0, done, I, hdone⟩ := O.inv
  have key : ∃ e : Item → Spec.Entry, (∀ it, (e it).bytes = encItem ids cur it) ∧ (∀ d, e (.action (some d)) = ⟨0xff, d⟩) ∧
      (∀ o, e (.res o) = ⟨0xfd, Spec.word (cur ((ids o).getD 0))⟩) := by
    refine ⟨fun it => match it with
      | .action d => ⟨0xff, d.getD []⟩
      | .res o => ⟨0xfd, Spec.word (cur ((ids o).getD 0))⟩, ?_, fun d => rfl, fun o => rfl⟩
    intro it
    cases it with
    | action d => simp [Spec.Entry.bytes, encItem, word_eq]
    | res o =>
      simp only [Spec.Entry.bytes, encItem, word_eq]
      simp [Spec.word]
  obtain ⟨e, he, ha, hr⟩ := key
  have hitems : ∀ l : List Item, (l.map e).flatMap Spec.Entry.bytes = encItems ids cur l := by
    intro l
    induction l with
    | nil => rfl
    | cons it l ih => rw [List.map_cons, List.flatMap_cons, ih, he]; rfl
  have hreals : ∀ l : List (Nat × Bytes), (l.map fun p => (⟨p.1, p.2⟩ : Spec.Real)).flatMap Spec.Real.bytes = encReals l := by
    intro l
    induction l with
    | nil => rfl
    | cons p l ih => rw [List.map_cons, List.flatMap_cons, ih]; simp [Spec.Real.bytes, encReals, encReal, word_eq]
  have hdata : ∀ v, ((reals.map fun p => (⟨p.1, p.2⟩ : Spec.Real)).filter (fun r => r.id = v)).map Spec.Real.data = dataOf reals v := by
    intro v
    unfold dataOf
    rw [List.filter_map, List.map_map]
    rfl
  have hcurPos : ∀ o, HasRes items o → ∀ k, ids o = some k → 1 ≤ cur k := by
    intro o ho k hk
    obtain ⟨n1, _⟩ := ids_spec W items
    rw [← O.idsEq] at n1
    obtain ⟨k', hk', hk1, _⟩ := n1 o ho
    rw [hk] at hk'
    cases hk'
    rw [O.curEq]
    cases hl : st.renum.lookup k with
    | none => simpa using hk1
    | some v =>
      obtain ⟨_, o', ho', e⟩ := I.ren k v hl
      obtain ⟨k', hk', hk1', _⟩ := n1 o' ((hdone o').1 ho')
      rw [e] at hk'
      simp at hk'
      simpa [hk'] using hk1'
  refine ⟨off, items.map e, reals.map fun p => ⟨p.1, p.2⟩, ?_, ?_, ?_, ?_, ?_⟩
  · rw [h3, ← hitems, ← hreals, word_eq]
    simp [Spec.fileBytes, Spec.magic, Spec.Entry.bytes, Spec.word, word_eq]
  · unfold Spec.OffsetRight
    rw [List.flatMap_cons, hitems]
    refine ⟨?_, by simpa using h1⟩
    simp [Spec.Entry.bytes, Spec.word]
    omega
  · intro x hx
    obtain ⟨it, hit, rfl⟩ := List.mem_map.1 hx
    cases it with
    | action d =>
      obtain ⟨x, rfl, hlt⟩ := O.itemsOk _ hit
      rw [ha]
      have := hne x hit
      refine ⟨?_, by simpa using hlt⟩
      simp only
      exact List.length_pos_iff.2 this
    | res o => rw [hr]; exact ⟨by simp [Spec.word], by simp [Spec.word]⟩
  · intro x hx
    obtain ⟨p, hp, rfl⟩ := List.mem_map.1 hx
    exact ⟨(O.realsOk p hp).1, by simpa using (O.realsOk p hp).2.1, by simpa using (O.realsOk p hp).2.2⟩
  · rw [List.forall₂_map_right_iff, List.forall₂_same]
    intro it hit
    cases it with
    | action d =>
      obtain ⟨x, rfl, _⟩ := O.itemsOk _ hit
      rw [ha]
      exact ⟨rfl, rfl⟩
    | res o =>
      have ho : HasRes items o := hit
      obtain ⟨k, d, e1, e2, e3⟩ := I.data (fun a ha => (mem_resOf _ _).2 ((hdone a).1 ha))
        (fun a ha b hb => hh a b ((mem_resOf _ _).1 ha) ((mem_resOf _ _).1 hb)) o
        ((hdone o).2 ho)
      rw [hr, e1]
      refine ⟨rfl, cur k, hcurPos o ho k e1, by simpa using O.curLt o k ho e1, rfl, ?_⟩
      rw [hdata, e2, O.curEq, e3]

/-- The file of the example of `Props.Container` (its hypotheses are shown to hold there): six items, two resources with the same data. -/
example : (writeFile exHash exReal exW exItems).map (·.file) =
    some (Spec.fileBytes 63 [⟨0xff, [2, 0, 0, 0]⟩, ⟨0xff, [8, 8]⟩, ⟨0xfd, [4, 0, 0, 0]⟩, ⟨0xfd, [1, 0, 0, 0]⟩, ⟨0xff, [7]⟩, ⟨0xfd, [1, 0, 0, 0]⟩,
      ⟨0xfd, [3, 0, 0, 0]⟩] [⟨1, [4, 1, 2, 3]⟩, ⟨3, [4, 9]⟩, ⟨4, [4, 9]⟩, ⟨4, [4, 9, 9]⟩]) := by decide +kernel

end Grf
