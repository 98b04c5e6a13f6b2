import Verif.Proofs.Container
import Verif.Spec.ContainerSpec
import Mathlib.Data.List.Nodup
/-! # Deduplication of real sprites and the schedule -/
namespace Grf

theorem mem_resOf (items : List Item) (o : Nat) : o ∈ resOf items ↔ HasRes items o := by
  unfold HasRes
  induction items with
  | nil => simp [resOf]
  | cons it r ih => cases it <;> simp [resOf, ih]

theorem resOf_length (items : List Item) : (resOf items).length = resCount items := by
  unfold resCount
  induction items with
  | nil => rfl
  | cons it r ih => cases it <;> simp [resOf, ih]

theorem resOf_nodup {items : List Item} (h : ResDistinct items) : (resOf items).Nodup := by
  induction items with
  | nil => simp [resOf]
  | cons it r ih =>
    have hr : ResDistinct r := by
      intro i j o hi hj
      have := h (i + 1) (j + 1) o (by simpa using hi) (by simpa using hj)
      omega
    cases it with
    | action d => exact ih hr
    | res o =>
      simp only [resOf, List.nodup_cons]
      refine ⟨?_, ih hr⟩
      intro hm
      rw [mem_resOf] at hm
      obtain ⟨j, hj⟩ := List.getElem?_of_mem hm
      have := h 0 (j + 1) o (by simp) (by simpa using hj)
      omega

theorem assignSeq_not_mem {x : Nat} : ∀ (L : List Nat) (n : Nat) (ids : Nat → Option Nat), x ∉ L →
    assignSeq L n ids x = ids x := by
  intro L
  induction L with
  | nil => intro n ids _; rfl
  | cons a L ih =>
    intro n ids h
    simp only [List.mem_cons, not_or] at h
    rw [assignSeq, ih _ _ h.2, upd_ne _ _ _ _ h.1]

theorem assignSeq_mem {x : Nat} : ∀ (L : List Nat) (n : Nat) (ids : Nat → Option Nat), x ∈ L →
    ∃ j, L[j]? = some x ∧ assignSeq L n ids x = some (n + j) := by
  intro L
  induction L with
  | nil => intro n ids h; simp at h
  | cons a L ih =>
    intro n ids h
    by_cases hx : x ∈ L
    · obtain ⟨j, h1, h2⟩ := ih (n + 1) (upd ids a (some n)) hx
      exact ⟨j + 1, by simpa using h1, by rw [assignSeq, h2]; congr 1; omega⟩
    · have hxa : x = a := by simpa [hx] using h
      subst hxa
      exact ⟨0, by simp, by rw [assignSeq, assignSeq_not_mem L _ _ hx, upd_same]; rfl⟩

theorem assignSeq_inj {L : List Nat} {n : Nat} {ids : Nat → Option Nat} {x y : Nat} (hx : x ∈ L) (hy : y ∈ L)
    (h : assignSeq L n ids x = assignSeq L n ids y) : x = y := by
  obtain ⟨j, h1, h2⟩ := assignSeq_mem L n ids hx
  obtain ⟨k, h3, h4⟩ := assignSeq_mem L n ids hy
  rw [h2, h4] at h
  have : j = k := by simpa using h
  subst this
  rw [h1] at h3
  simpa using h3

/-- Loads and last uses after the loop, also when sprites are repeated. -/
structure LoadOkAny (W : ResWorld) (P : List Nat) (st : SchedSt) : Prop where
  last : ∀ f, st.lastUse.lookup f = P.reverse.find? (fun s => f ∈ (W s).files)
  loadMem : ∀ P1 s P2, P = P1 ++ s :: P2 → s ∉ P1 → ∀ f, f ∈ st.loadFiles s ↔ f ∈ (W s).files ∧ ∀ t ∈ P1, f ∉ (W t).files
  loadOut : ∀ s, s ∉ P → st.loadFiles s = []
  loadNodup : ∀ s, (st.loadFiles s).Nodup
  lastNodup : (st.lastUse.map (·.1)).Nodup

theorem first_occurrence {x : Nat} {l : List Nat} (h : x ∈ l) : ∃ a b, l = a ++ x :: b ∧ x ∉ a :=
  List.eq_append_cons_of_mem h

theorem schedLoop_loads_any {W : ResWorld} {order : List Nat} :
    ∀ (Q P : List Nat) (st : SchedSt), order = P ++ Q → OrdOk order st.ord → LoadOkAny W P st →
    LoadOkAny W order (schedLoop W Q.length P.length st) := by
  intro Q
  induction Q with
  | nil =>
    intro P st e _ h
    simp only [List.append_nil] at e
    subst e
    exact h
  | cons s Q ih =>
    intro P st e ho h
    simp only [List.length_cons, schedLoop]
    have hs : st.ord.order.getD P.length 0 = s := by rw [ho.ordEq, e]; simp
    rw [hs]
    have hseen : ∀ f ∈ st.loadFiles s, (st.lastUse.lookup f).isSome = true := by
      intro f hf
      by_cases hsP : s ∈ P
      · obtain ⟨a, b, e2, hna⟩ := first_occurrence hsP
        have := ((h.loadMem a s b e2 hna f).1 hf).1
        rw [h.last, find_isSome_iff]
        exact ⟨s, hsP, by simpa using this⟩
      · rw [h.loadOut s hsP] at hf; cases hf
    obtain ⟨a1, _, _, _, a5, a6, a7, a8, a9⟩ := schedFile_fold (order := order) P.length s (W s).files
      { st with ordered := st.ordered ++ [s], ids := upd st.ids s (some st.next), next := st.next + 1 } ho
      hseen (h.loadNodup s) h.lastNodup
    have := ih (P ++ [s]) (st := (W s).files.foldl (schedFile P.length s)
      { st with ordered := st.ordered ++ [s], ids := upd st.ids s (some st.next), next := st.next + 1 }) (by simp [e]) a1 ?_
    · simpa using this
    · refine ⟨?_, ?_, ?_, ?_, a9⟩
      · intro f
        rw [a5]
        simp only [List.reverse_append, List.reverse_cons, List.reverse_nil, List.nil_append, List.cons_append,
          List.find?_cons]
        by_cases hf : f ∈ (W s).files
        · simp [hf]
        · simp [hf, h.last]
      · intro P1 t P2 e' hn f
        have hlast : (P2 = [] ∧ P1 = P ∧ t = s) ∨ ∃ P3, P2 = P3 ++ [s] ∧ P = P1 ++ t :: P3 := by
          rcases List.eq_nil_or_concat P2 with r | ⟨r, z, rfl⟩
          · subst r
            have := List.append_inj' e' rfl
            exact .inl ⟨rfl, this.1.symm, by simpa using this.2.symm⟩
          · have e2 : P ++ [s] = (P1 ++ t :: r) ++ [z] := by simpa using e'
            have := List.append_inj' e2 rfl
            simp at this
            exact .inr ⟨r, by simp [this.2], this.1⟩
        rcases hlast with ⟨rfl, rfl, rfl⟩ | ⟨P3, _, hP⟩
        · rw [a7, h.loadOut t hn, h.last]
          simp
        · by_cases ht : t = s
          · subst ht
            rw [a7, h.loadMem P1 t P3 hP hn f]
            constructor
            · rintro (x | ⟨x, y⟩)
              · exact x
              · rw [h.last] at y
                have : ¬ (P.reverse.find? fun s => decide (f ∈ (W s).files)).isSome = true := by rw [y]; simp
                rw [find_isSome_iff] at this
                exact absurd ⟨t, by rw [hP]; simp, by simpa using x⟩ this
            · exact .inl
          · rw [a6 t ht]
            exact h.loadMem P1 t P3 hP hn f
      · intro t ht
        simp only [List.mem_append, List.mem_singleton, not_or] at ht
        rw [a6 t ht.2]
        exact h.loadOut t ht.1
      · intro t
        by_cases ht : t = s
        · subst ht; exact a8
        · rw [a6 t ht]; exact h.loadNodup t

/-- Summary of `enumerateSprites`. -/
structure EnumOk (W : ResWorld) (items : List Item) (order : List Nat) (s : SchedSt) : Prop where
  perm : order.Perm (loaded W (resOf items))
  steps : (enumerateSprites W items).1 =
    (plain W (resOf items) ++ order).map fun sid => ⟨sid, s.loadFiles sid, unloadFiles s.lastUse sid⟩
  ids : (enumerateSprites W items).2 = assignSeq (plain W (resOf items) ++ order) 1 (fun _ => none)
  loads : order.Nodup → LoadOk W order s
  loadsAny : LoadOkAny W order s

theorem enumerate_ok (W : ResWorld) (items : List Item) : ∃ order s, EnumOk W items order s := by
  obtain ⟨o, ho⟩ : ∃ o, o = ((loaded W (resOf items)).map (fun o => (o, (W o).files))).foldl indexSprite {} := ⟨_, rfl⟩
  obtain ⟨order, hord⟩ : ∃ order, order = sortBy o.prio o.order := ⟨_, rfl⟩
  obtain ⟨s, hs⟩ : ∃ s, s = schedLoop W order.length 0
      { ord := { o with order := order, pos := setPos order 0 order o.pos },
        next := 1 + (plain W (resOf items)).length, ordered := plain W (resOf items),
        ids := assignSeq (plain W (resOf items)) 1 (fun _ => none) } := ⟨_, rfl⟩
  obtain ⟨i1, i2⟩ := indexSprite_fold ((loaded W (resOf items)).map (fun o => (o, (W o).files))) {}
  rw [← ho] at i1 i2
  have i1' : o.order = loaded W (resOf items) := by rw [i1]; simp [Function.comp_def]
  have hperm : order.Perm (loaded W (resOf items)) := by rw [hord, i1']; exact sortBy_perm _ _
  have hordok : OrdOk order { o with order := order, pos := setPos order 0 order o.pos } := by
    refine ⟨rfl, ?_, ?_⟩
    · intro x hx
      exact (setPos_spec order order [] o.pos x rfl).2 hx
    · intro f x hx
      rcases i2 f x hx with h | h
      · simp at h
      · rw [hperm.mem_iff]
        simpa using h
  have hok : SchedOk W order order (1 + (plain W (resOf items)).length) (plain W (resOf items))
      (assignSeq (plain W (resOf items)) 1 (fun _ => none)) s := by
    rw [hs]
    exact schedLoop_ids order [] _ rfl ⟨hordok, by simp, by simp, rfl⟩
  have hload : order.Nodup → LoadOk W order s := by
    intro hnd
    rw [hs]
    refine schedLoop_loads hnd order [] _ rfl hordok ⟨?_, ?_, ?_, ?_, ?_⟩
    · intro f; rfl
    · intro P1 s P2 h; simp at h
    · intro s _; rfl
    · intro s; simp
    · simp
  have hany : LoadOkAny W order s := by
    rw [hs]
    refine schedLoop_loads_any order [] _ rfl hordok ⟨?_, ?_, ?_, ?_, ?_⟩
    · intro f; rfl
    · intro P1 s P2 h; simp at h
    · intro s _; rfl
    · intro s; simp
    · simp
  have hE : items.foldl (enumFirst W) {} =
      { next := 1 + (plain W (resOf items)).length,
        unordered := (loaded W (resOf items)).map (fun o => (o, (W o).files)),
        ordered := plain W (resOf items),
        ids := assignSeq (plain W (resOf items)) 1 (fun _ => none) } := by
    rw [enumFirst_fold]; simp
  have hfull : enumerateSprites W items =
      (s.ordered.map fun sid => ⟨sid, s.loadFiles sid, unloadFiles s.lastUse sid⟩, s.ids) := by
    rw [hs, hord, ho]
    unfold enumerateSprites
    simp only [hE]
  refine ⟨order, s, hperm, ?_, ?_, hload, hany⟩
  · rw [hfull, hok.ordered]
  · rw [hfull, hok.ids, assignSeq_append]

theorem plain_loaded_perm (W : ResWorld) (l : List Nat) : (plain W l ++ loaded W l).Perm l := by
  unfold plain loaded
  have h := List.filter_append_perm (fun o => decide ((W o).files = [])) l
  have e : (l.filter fun o => decide ((W o).files ≠ [])) = l.filter fun o => !decide ((W o).files = []) := by
    congr 1; funext o; simp
  rw [e]
  exact h

theorem EnumOk.perm_all {W : ResWorld} {items : List Item} {order : List Nat} {s : SchedSt}
    (h : EnumOk W items order s) : (plain W (resOf items) ++ order).Perm (resOf items) :=
  (h.perm.append_left _).trans (plain_loaded_perm W _)

/-- Sprites are numbered from 1, differently. -/
theorem ids_spec (W : ResWorld) (items : List Item) :
    (∀ o, HasRes items o → ∃ k, (enumerateSprites W items).2 o = some k ∧ 1 ≤ k ∧ k ≤ resCount items) ∧
    (∀ o o', HasRes items o → HasRes items o' → (enumerateSprites W items).2 o = (enumerateSprites W items).2 o' → o = o') := by
  obtain ⟨order, s, h⟩ := enumerate_ok W items
  have hp := h.perm_all
  rw [h.ids]
  refine ⟨?_, ?_⟩
  · intro o ho
    rw [← mem_resOf, ← hp.mem_iff] at ho
    obtain ⟨j, h1, h2⟩ := assignSeq_mem _ 1 (fun _ => none) ho
    refine ⟨1 + j, h2, by omega, ?_⟩
    have := List.getElem?_eq_some_iff.1 h1
    obtain ⟨hj, _⟩ := this
    rw [hp.length_eq, resOf_length] at hj
    omega
  · intro o o' ho ho' e
    rw [← mem_resOf, ← hp.mem_iff] at ho ho'
    exact assignSeq_inj ho ho' e

/-! ### Writing the resources -/

theorem dataOf_append (a b : List (Nat × Bytes)) (v : Nat) : dataOf (a ++ b) v = dataOf a v ++ dataOf b v := by
  simp [dataOf]

theorem dataOf_const (d : List Bytes) (k v : Nat) :
    dataOf (d.map (fun x => (k, x))) v = if k = v then d else [] := by
  unfold dataOf
  by_cases h : k = v
  · subst h
    induction d with
    | nil => simp
    | cons x d ih => simp at ih ⊢; simpa using ih
  · simp [h]

theorem dataOf_none {reals : List (Nat × Bytes)} {v : Nat} (h : ∀ p ∈ reals, p.1 ≠ v) : dataOf reals v = [] := by
  unfold dataOf
  have : reals.filter (fun p => decide (p.1 = v)) = [] := by
    rw [List.filter_eq_nil_iff]
    intro p hp
    simpa using h p hp
  rw [this]; rfl

/-- Invariant of the loop writing the resources. -/
structure WInv (hash : List Bytes → Int) (real : Nat → Option Bytes) (W : ResWorld) (ids : Nat → Option Nat)
    (all : List Nat) (f0 : Bytes) (reals : List (Nat × Bytes)) (done : List Nat) (st : ResSt) : Prop where
  file : st.file = f0 ++ encReals reals
  ok : ∀ p ∈ reals, RealOk p
  written : ∀ o, o ∈ st.written ↔ o ∈ done
  own : ∀ p ∈ reals, st.hashes.lookup (hash (dataOf reals p.1)) = some p.1
  hashes : ∀ h v, st.hashes.lookup h = some v → ∃ o ∈ done, ∃ d, ids o = some v ∧ (W o).resources.mapM real = some d ∧
    hash d = h ∧ st.renum.lookup v = none ∧ dataOf reals v = d
  ren : ∀ k v, st.renum.lookup k = some v → (∃ o ∈ done, ids o = some k) ∧ ∃ o ∈ done, ids o = some v
  renNodup : (st.renum.map (·.1)).Nodup
  shown : ∀ o ∈ done, ∃ k d, ids o = some k ∧ (W o).resources.mapM real = some d ∧
    st.hashes.lookup (hash d) = some ((st.renum.lookup k).getD k)

/-- If different data have different hashes, each sprite's reference leads to its own data. -/
theorem WInv.data {hash : List Bytes → Int} {real : Nat → Option Bytes} {W : ResWorld} {ids : Nat → Option Nat}
    {all : List Nat} {f0 : Bytes} {reals : List (Nat × Bytes)} {done : List Nat} {st : ResSt}
    (I : WInv hash real W ids all f0 reals done st) (hdone : ∀ o ∈ done, o ∈ all)
    (H : ∀ o ∈ all, ∀ o' ∈ all, ∀ d d', (W o).resources.mapM real = some d →
      (W o').resources.mapM real = some d' → hash d = hash d' → d = d') :
    ∀ o ∈ done, ∃ k d, ids o = some k ∧ (W o).resources.mapM real = some d ∧
      dataOf reals ((st.renum.lookup k).getD k) = d := by
  intro o ho
  obtain ⟨k, d, h1, h2, h3⟩ := I.shown o ho
  obtain ⟨o', ho', d', r1, r2, r3, r4, r5⟩ := I.hashes _ _ h3
  exact ⟨k, d, h1, h2, by rw [r5]; exact H o' (hdone o' ho') o (hdone o ho) d' d r2 h2 r3⟩

theorem renNodup_set {d : List (Nat × Nat)} {k v : Nat} (h : (d.map (·.1)).Nodup) :
    ((dictSet d k v).map (·.1)).Nodup := by
  rw [keys_dictSet]
  split
  · exact h
  · rename_i hni
    rw [List.nodup_append]
    refine ⟨h, by simp, ?_⟩
    intro a ha b hb e
    have hb' : b = k := by simpa using hb
    rw [e, hb'] at ha
    exact hni ha

theorem writeStep_inv {hash : List Bytes → Int} {real : Nat → Option Bytes} {W : ResWorld} {ids : Nat → Option Nat}
    {all : List Nat} {f0 : Bytes} {reals : List (Nat × Bytes)} {done : List Nat} {st st' : ResSt} {s : Step}
    (hinj : ∀ o ∈ all, ∀ o' ∈ all, ids o = ids o' → o = o') (hpos : ∀ o ∈ all, ∀ k, ids o = some k → 1 ≤ k)
    (hdone : ∀ o ∈ done, o ∈ all) (hs : s.sid ∈ all)
    (I : WInv hash real W ids all f0 reals done st) (h : writeStep hash real W ids st s = some st') :
    ∃ reals', WInv hash real W ids all f0 reals' (s.sid :: done) st' := by
  unfold writeStep at h
  by_cases hw : s.sid ∈ st.written
  · simp only [hw, if_true] at h
    simp only [Option.some.injEq] at h
    subst h
    have hd : s.sid ∈ done := (I.written _).1 hw
    refine ⟨reals, I.file, I.ok, ?_, I.own, ?_, ?_, I.renNodup, ?_⟩
    · intro o
      rw [I.written]
      simp only [List.mem_cons]
      constructor
      · exact .inr
      · rintro (rfl | h)
        · exact hd
        · exact h
    · intro h v hv
      obtain ⟨o, ho, r⟩ := I.hashes h v hv
      exact ⟨o, by simp [ho], r⟩
    · intro k v hv
      obtain ⟨⟨o, ho, r⟩, o', ho', r'⟩ := I.ren k v hv
      exact ⟨⟨o, by simp [ho], r⟩, o', by simp [ho'], r'⟩
    · intro o ho
      simp only [List.mem_cons] at ho
      rcases ho with rfl | ho
      · exact I.shown _ hd
      · exact I.shown o ho
  · simp only [hw, if_false] at h
    rw [Option.bind_eq_bind, Option.bind_eq_some_iff] at h
    obtain ⟨d, hd, h⟩ := h
    rw [Option.bind_eq_bind, Option.bind_eq_some_iff] at h
    obtain ⟨k, hk, h⟩ := h
    have hnd : s.sid ∉ done := fun hm => hw ((I.written _).2 hm)
    -- the id of this sprite is new
    have hknew : ∀ o ∈ done, ids o ≠ some k := by
      intro o ho e
      have := hinj o (hdone o ho) s.sid hs (by rw [e, hk])
      exact hnd (this ▸ ho)
    have hkren : st.renum.lookup k = none := by
      cases hl : st.renum.lookup k with
      | none => rfl
      | some v =>
        obtain ⟨⟨o, ho, e⟩, _⟩ := I.ren k v hl
        exact absurd e (hknew o ho)
    have hkreal : ∀ p ∈ reals, p.1 ≠ k := by
      intro p hp e
      obtain ⟨o, ho, _, e2, _⟩ := I.hashes _ _ (I.own p hp)
      exact hknew o ho (by rw [e2, e])
    cases hl : st.hashes.lookup (hash d) with
    | some v =>
      rw [hl] at h
      simp only [Option.bind_eq_bind, Option.bind_some, Option.some.injEq] at h
      subst h
      obtain ⟨ov, hov, dv, e1, e2, e3, e4, e5⟩ := I.hashes _ _ hl
      have hvk : v ≠ k := by intro e; exact hknew ov hov (by rw [e1, e])
      refine ⟨reals, I.file, I.ok, ?_, I.own, ?_, ?_, ?_, ?_⟩
      · intro o
        simp only [List.mem_cons, I.written]
      · intro h' v' hv'
        obtain ⟨o, ho, d', r1, r2, r3, r4, r5⟩ := I.hashes h' v' hv'
        refine ⟨o, by simp [ho], d', r1, r2, r3, ?_, r5⟩
        show (dictSet st.renum k v).lookup v' = none
        rw [lookup_dictSet]
        have : v' ≠ k := by intro e; exact hknew o ho (by rw [r1, e])
        rw [if_neg this]
        exact r4
      · intro k' v' hv'
        replace hv' : (dictSet st.renum k v).lookup k' = some v' := hv'
        rw [lookup_dictSet] at hv'
        by_cases e : k' = k
        · rw [if_pos e] at hv'
          simp only [Option.some.injEq] at hv'
          exact ⟨⟨s.sid, by simp, by rw [hk, e]⟩, ov, by simp [hov], by rw [e1, hv']⟩
        · rw [if_neg e] at hv'
          obtain ⟨⟨o, ho, r⟩, o', ho', r'⟩ := I.ren k' v' hv'
          exact ⟨⟨o, by simp [ho], r⟩, o', by simp [ho'], r'⟩
      · exact renNodup_set I.renNodup
      · intro o ho
        simp only [List.mem_cons] at ho
        rcases ho with rfl | ho
        · refine ⟨k, d, hk, hd, ?_⟩
          show st.hashes.lookup (hash d) = some (((dictSet st.renum k v).lookup k).getD k)
          rw [lookup_dictSet, if_pos rfl, hl]
          rfl
        · obtain ⟨k', d', r1, r2, r3⟩ := I.shown o ho
          refine ⟨k', d', r1, r2, ?_⟩
          show st.hashes.lookup (hash d') = some (((dictSet st.renum k v).lookup k').getD k')
          rw [lookup_dictSet]
          have : k' ≠ k := by intro e; exact hknew o ho (by rw [r1, e])
          rw [if_neg this]
          exact r3
    | none =>
      rw [hl] at h
      simp only [] at h
      rw [Option.bind_eq_bind, Option.bind_eq_some_iff] at h
      obtain ⟨f, hf, h⟩ := h
      simp only [Option.bind_eq_bind, Option.bind_some, Option.some.injEq] at h
      obtain ⟨w1, w2⟩ := writeReals_some k d _ _ hf
      subst h
      have hdo : ∀ v, dataOf (reals ++ d.map (fun x => (k, x))) v = if k = v then d else dataOf reals v := by
        intro v
        rw [dataOf_append, dataOf_const]
        by_cases e : k = v
        · subst e
          rw [dataOf_none hkreal]
          simp
        · simp [e]
      refine ⟨reals ++ d.map (fun x => (k, x)), ?_, ?_, ?_, ?_, ?_, ?_, I.renNodup, ?_⟩
      · show f = _
        rw [w1]
        show st.file ++ _ = _
        rw [I.file, encReals_append, List.append_assoc]
      · intro p hp
        rw [List.mem_append, List.mem_map] at hp
        rcases hp with hp | ⟨x, hx, rfl⟩
        · exact I.ok p hp
        · exact ⟨hpos _ hs k hk, (w2 x hx).1, (w2 x hx).2⟩
      · intro o
        simp only [List.mem_cons, I.written]
      · intro p hp
        show (dictSet st.hashes (hash d) k).lookup _ = _
        rw [List.mem_append, List.mem_map] at hp
        rw [lookup_dictSet, hdo]
        rcases hp with hp | ⟨x, hx, rfl⟩
        · have hpk : k ≠ p.1 := fun e => hkreal p hp e.symm
          rw [if_neg hpk]
          have := I.own p hp
          have hne : hash (dataOf reals p.1) ≠ hash d := by
            intro e
            rw [e, hl] at this
            simp at this
          rw [if_neg hne]
          exact this
        · simp
      · intro h' v' hv'
        replace hv' : (dictSet st.hashes (hash d) k).lookup h' = some v' := hv'
        rw [lookup_dictSet] at hv'
        by_cases e : h' = hash d
        · rw [if_pos e] at hv'
          simp only [Option.some.injEq] at hv'
          subst hv'
          exact ⟨s.sid, by simp, d, hk, hd, e.symm, hkren, by rw [hdo, if_pos rfl]⟩
        · rw [if_neg e] at hv'
          obtain ⟨o, ho, d', r1, r2, r3, r4, r5⟩ := I.hashes h' v' hv'
          have : k ≠ v' := by intro e; exact hknew o ho (by rw [r1, e])
          exact ⟨o, by simp [ho], d', r1, r2, r3, r4, by rw [hdo, if_neg this, r5]⟩
      · intro k' v' hv'
        obtain ⟨⟨o, ho, r⟩, o', ho', r'⟩ := I.ren k' v' hv'
        exact ⟨⟨o, by simp [ho], r⟩, o', by simp [ho'], r'⟩
      · intro o ho
        simp only [List.mem_cons] at ho
        rcases ho with rfl | ho
        · refine ⟨k, d, hk, hd, ?_⟩
          show (dictSet st.hashes (hash d) k).lookup (hash d) = some ((st.renum.lookup k).getD k)
          rw [hkren, lookup_dictSet, if_pos rfl]
          rfl
        · obtain ⟨k', d', r1, r2, r3⟩ := I.shown o ho
          refine ⟨k', d', r1, r2, ?_⟩
          show (dictSet st.hashes (hash d) k).lookup (hash d') = some ((st.renum.lookup k').getD k')
          rw [lookup_dictSet, if_neg, r3]
          intro e
          rw [e, hl] at r3
          cases r3

end Grf
