import Verif.Proofs.Refs2
/-! The loop over the roots and the final list. -/
namespace Grf

theorem before_iff {l : List Nat} {x y : Nat} : Before l x y ↔ x ∈ l ∧ l.idxOf x < l.idxOf y := by
  constructor
  · rintro ⟨l1, l2, rfl, h1, h2⟩
    refine ⟨List.mem_append_left _ h1, ?_⟩
    rw [List.idxOf_append, List.idxOf_append, if_pos h1, if_neg h2]
    have := List.idxOf_lt_length_iff.2 h1
    omega
  · rintro ⟨h1, h2⟩
    refine ⟨l.take (l.idxOf y), l.drop (l.idxOf y), (List.take_append_drop _ _).symm, ?_, ?_⟩
    · rw [List.mem_take_iff_getElem]
      have hx := List.idxOf_lt_length_iff.2 h1
      exact ⟨l.idxOf x, by omega, List.getElem_idxOf hx⟩
    · intro hm
      rw [List.mem_take_iff_getElem] at hm
      obtain ⟨i, hi, e⟩ := hm
      have hi' : i < l.length := by omega
      have : l.idxOf y ≤ i := by
        by_cases hle : l.idxOf y ≤ i
        · exact hle
        · exfalso
          have := List.not_of_lt_findIdx (p := (· == y)) (xs := l) (i := i) (by
            rw [List.idxOf] at hle; omega)
          simp [e] at this
      omega

theorem Before.trans {l : List Nat} {x y z : Nat} (h1 : Before l x y) (h2 : Before l y z) : Before l x z := by
  rw [before_iff] at *
  exact ⟨h1.1, by omega⟩

theorem Before.asymm {l : List Nat} {x y : Nat} (h1 : Before l x y) (h2 : Before l y x) : False := by
  rw [before_iff] at *
  omega

theorem list_before_total {l : List Nat} {x y : Nat} (hx : x ∈ l) (hy : y ∈ l) : x = y ∨ Before l x y ∨ Before l y x := by
  by_cases e : l.idxOf x = l.idxOf y
  · left
    have h1 := List.getElem_idxOf (List.idxOf_lt_length_iff.2 hx)
    have h2 := List.getElem_idxOf (List.idxOf_lt_length_iff.2 hy)
    rw [← h1, ← h2]
    congr 1
  · rcases Nat.lt_or_gt_of_ne e with h | h
    · exact .inr (.inl (before_iff.2 ⟨hx, h⟩))
    · exact .inr (.inr (before_iff.2 ⟨hy, h⟩))

/-- The history is closed under following references. -/
theorem Core.closed {W : World} {R : RState} {sp : List Nat} {st : DState} {log : List (Nat × Nat)} {stk : List Nat}
    (h : Core W R sp st log stk) {a b : Nat} (ha : a ∈ names log) (hn : Needs W a b) : b ∈ names log := by
  induction hn with
  | refl => exact ha
  | step _ hr ih =>
    obtain ⟨p, hp, e⟩ := List.mem_map.1 ih
    obtain ⟨l1, l2, el⟩ := List.append_of_mem hp
    have := h.order l1 p l2 el _ (e ▸ hr)
    rw [el, names_append]
    exact List.mem_append_left _ this

/-- What the loop over (some of) the roots has done. -/
structure Segs (W : World) (segs : List (Nat × List (Nat × Nat))) : Prop where
  needs : ∀ s ∈ segs, ∀ p ∈ s.2, Needs W s.1 p.1 ∧ Needs W s.1 p.2

theorem roots_fold {W : World} {sp : List Nat} {R : RState} (hac : Acyclic W) (hR : GraphOk W sp R) (limit : Nat) :
    ∀ (rs : List Nat) (st st' : DState) (log : List (Nat × Nat)), (∀ r ∈ rs, r ∈ R.keys ∧ r ∈ sp) →
      Inv W R sp st log [] → rs.foldlM (dfsRoot W R limit) st = some st' →
      ∃ segs : List (Nat × List (Nat × Nat)), segs.map (·.1) = rs ∧
        Inv W R sp st' (log ++ segs.flatMap (·.2)) [] ∧ Segs W segs ∧
        (∀ r ∈ rs, r ∈ names (log ++ segs.flatMap (·.2))) ∧
        (∀ s1 s s2, segs = s1 ++ s :: s2 → s.1 ∈ names (log ++ s1.flatMap (·.2) ++ s.2)) ∧
        (∀ s1 s s2, segs = s1 ++ s :: s2 → ∀ p z, Lead R s.1 p z → (s.1 :: p).Nodup →
          (∀ y ∈ s.1 :: p, y ∉ names (log ++ s1.flatMap (·.2))) → ∃ o L', s.2 = (z, o) :: L') := by
  intro rs
  induction rs with
  | nil =>
    intro st st' log _ hi hf
    simp only [List.foldlM_nil, Option.pure_def, Option.some.injEq] at hf
    subst hf
    exact ⟨[], rfl, by simpa using hi, ⟨by simp⟩, by simp, by simp, by simp⟩
  | cons r rs ih =>
    intro st st2 log hrs hi hf
    rw [List.foldlM_cons, Option.bind_eq_bind, Option.bind_eq_some_iff] at hf
    obtain ⟨st1, h1, h2⟩ := hf
    have hr := hrs r List.mem_cons_self
    unfold dfsRoot at h1
    split at h1
    · simp at h1
    · rename_i f hf
      obtain ⟨L, d⟩ := dfs_spec hac hR limit r none f st st1 log [] hi hr.1 (by simp) (fun h => absurd hr.2 h) h1
      obtain ⟨segs, e1, i2, s2, p2, q2, l2⟩ := ih st1 st2 (log ++ L) (fun x hx => hrs x (List.mem_cons_of_mem _ hx)) d.inv h2
      refine ⟨(r, L) :: segs, by simp [e1], ?_, ⟨?_⟩, ?_, ?_, ?_⟩
      · simpa using i2
      · intro s hs
        rcases List.mem_cons.1 hs with rfl | hs
        · intro p hp
          refine ⟨d.needs p hp, ?_⟩
          have hp' : p ∈ log ++ L := List.mem_append_right _ hp
          have hov := (d.inv.core.own p hp').2.2.1
          have hw := (d.inv.core.own p hp').2.1
          rw [d.inv.core.vis] at hov
          simp only [List.not_mem_nil, or_false] at hov
          rw [names_append] at hov
          rcases List.mem_append.1 hov with h | h
          · exfalso
            have hin := hi.core.closed h hw.needs
            have hnd := d.inv.core.nodup
            rw [List.append_nil, names_append, List.nodup_append] at hnd
            exact hnd.2.2 p.1 hin p.1 (List.mem_map.2 ⟨p, hp, rfl⟩) rfl
          · obtain ⟨q, hq, e⟩ := List.mem_map.1 h
            rw [← e]
            exact d.needs q hq
        · exact s2.needs s hs
      · intro x hx
        have e : log ++ ((r, L) :: segs).flatMap (·.2) = log ++ L ++ segs.flatMap (·.2) := by simp
        rw [e]
        rcases List.mem_cons.1 hx with rfl | hx
        · rw [names_append]; exact List.mem_append_left _ d.placed
        · exact p2 x hx
      · intro s1 s s3 e
        cases s1 with
        | nil =>
          simp only [List.nil_append, List.cons.injEq] at e
          rw [← e.1]
          simpa using d.placed
        | cons t s1 =>
          simp only [List.cons_append, List.cons.injEq] at e
          have := q2 s1 s s3 e.2
          rw [← e.1]
          simpa using this
      · intro s1 s s3 e p z hl hnd hnv
        cases s1 with
        | nil =>
          simp only [List.nil_append, List.cons.injEq] at e
          rw [← e.1] at hl hnd hnv ⊢
          refine d.lead p z hl hnd (fun y hy hm => hnv y hy ?_)
          rw [hi.core.vis] at hm
          simpa using hm
        | cons t s1 =>
          simp only [List.cons_append, List.cons.injEq] at e
          refine l2 s1 s s3 e.2 p z hl hnd (fun y hy hm => hnv y hy ?_)
          rw [← e.1]
          simpa using hm

theorem initialIds_nodup : initialIds.Nodup := by
  unfold initialIds
  rw [List.nodup_iff_pairwise_ne, List.pairwise_map]
  refine List.Pairwise.imp ?_ (List.nodup_iff_pairwise_ne.1 List.nodup_range)
  intro a b h e
  apply h
  have : (a : Int) - 255 = (b : Int) - 255 := e
  omega

theorem initialIds_range : ∀ x ∈ initialIds, -255 ≤ x ∧ x ≤ -1 := by
  intro x hx
  unfold initialIds at hx
  rw [List.mem_map] at hx
  obtain ⟨k, hk, rfl⟩ := hx
  rw [List.mem_range] at hk
  show -255 ≤ (k : Int) - 255 ∧ (k : Int) - 255 ≤ -1
  omega

theorem init_inv {W : World} {sp : List Nat} {R : RState} : Inv W R sp (dfsInit W R) [] [] := by
  refine ⟨⟨by simp [dfsInit, names], by simp [names], by simp [dfsInit], by simp, by simp, by simp [dfsInit],
    by simp [dfsInit], by simp [dfsInit], by simp, by simp [dfsInit], by simp [dfsInit]⟩, by simp [dfsInit, logCount], ?_⟩
  intro hauto
  exact ⟨rfl, initialIds_nodup, initialIds_range, fun a ha _ => hauto a ha, by simp [dfsInit], by simp [dfsInit],
    by simp [dfsInit]⟩

theorem PhaseOk.needs {W : World} {sp : List Nat} {R : RState} (hR : PhaseOk W sp sp R) {a b : Nat} (ha : a ∈ R.keys)
    (h : Needs W a b) : b ∈ R.keys := by
  induction h with
  | refl => exact ha
  | step _ hr ih => exact hR.closed _ _ ((hR.complete _ ih _).2 hr)

theorem sum_pos_mem (f : Nat → Nat) : ∀ (l : List Nat), (l.map f).sum ≠ 0 → ∃ c ∈ l, 0 < f c := by
  intro l
  induction l with
  | nil => intro h; simp at h
  | cons a l ih =>
    intro h
    by_cases ha : f a = 0
    · rw [List.map_cons, List.sum_cons, ha, Nat.zero_add] at h
      obtain ⟨c, hc, hp⟩ := ih h
      exact ⟨c, List.mem_cons_of_mem _ hc, hp⟩
    · exact ⟨a, List.mem_cons_self, by omega⟩

theorem PhaseOk.count_zero {W : World} {sp : List Nat} {R : RState} (hR : PhaseOk W sp sp R) (a : Nat) :
    R.refCount a = 0 ↔ ∀ c ∈ R.keys, ¬ Refers W c a := by
  rw [hR.count]
  constructor
  · intro h c hc hr
    have := sum_le_of_nodup (cnt W · a) [c] R.keys (by simp) (by simpa using hc)
    have := cnt_pos.2 hr
    simp at *
    omega
  · intro h
    by_cases e : (R.keys.map (cnt W · a)).sum = 0
    · exact e
    · obtain ⟨c, hc, hp⟩ := sum_pos_mem _ _ e
      exact absurd (cnt_pos.1 hp) (h c hc)

theorem roots_spec {W : World} {sp : List Nat} {R : RState} (hR : PhaseOk W sp sp R) (r : Nat) :
    r ∈ roots R ↔ r ∈ R.keys ∧ ∀ c ∈ R.keys, ¬ Refers W c r := by
  unfold roots
  rw [List.mem_filter]
  simp only [decide_eq_true_eq]
  rw [hR.count_zero]
  rfl

theorem roots_in_sp {W : World} {sp : List Nat} {R : RState} (hR : PhaseOk W sp sp R) (r : Nat) (hr : r ∈ roots R) :
    r ∈ R.keys ∧ r ∈ sp := by
  rw [roots_spec hR] at hr
  refine ⟨hr.1, ?_⟩
  obtain ⟨p, hp, ha, hw⟩ := hR.member r hr.1
  cases hw with
  | refl => exact hp
  | step h1 h2 h3 =>
    exact absurd h2 (hr.2 _ (hR.needs (hR.pres p hp ha) h1.needs))

theorem sum_ones (l : List Nat) : (l.map (fun _ => 1)).sum = l.length := by
  induction l with
  | nil => rfl
  | cons a l ih => simp [ih]; omega

open Classical in
/-- Every action is reached from a root. -/
theorem covered {W : World} {sp : List Nat} {R : RState} (hac : Acyclic W) (hR : PhaseOk W sp sp R) (S : Nat → Prop)
    (hroot : ∀ r ∈ roots R, S r) (hcl : ∀ a b, S a → Refers W a b → S b) : ∀ a ∈ R.keys, S a := by
  have key : ∀ (n : Nat) (a : Nat), a ∈ R.keys → (R.keys.filter (fun x => decide (Needs W x a))).length ≤ n → S a := by
    intro n
    induction n with
    | zero =>
      intro a ha h
      have : a ∈ R.keys.filter (fun x => decide (Needs W x a)) := by
        rw [List.mem_filter]; exact ⟨ha, by simpa using Needs.refl⟩
      have := List.length_pos_of_mem this
      omega
    | succ n ih =>
      intro a ha h
      by_cases hr : a ∈ roots R
      · exact hroot a hr
      · rw [roots_spec hR] at hr
        have : ∃ c ∈ R.keys, Refers W c a := by
          by_cases e : ∃ c ∈ R.keys, Refers W c a
          · exact e
          · exact absurd ⟨ha, fun c hc hr => e ⟨c, hc, hr⟩⟩ hr
        obtain ⟨c, hc, hca⟩ := this
        refine hcl c a (ih c hc ?_) hca
        -- fewer ancestors
        have hsub : (a :: R.keys.filter (fun x => decide (Needs W x c))).length ≤
            (R.keys.filter (fun x => decide (Needs W x a))).length := by
          have hnd : (a :: R.keys.filter (fun x => decide (Needs W x c))).Nodup := by
            refine List.nodup_cons.2 ⟨?_, hR.nodup.filter _⟩
            intro hm
            rw [List.mem_filter] at hm
            exact hac c a hca (by simpa using hm.2)
          have := sum_le_of_nodup (fun _ => 1) _ (R.keys.filter (fun x => decide (Needs W x a))) hnd (by
            intro x hx
            rw [List.mem_filter]
            rcases List.mem_cons.1 hx with rfl | hx
            · exact ⟨ha, by simpa using Needs.refl⟩
            · rw [List.mem_filter] at hx
              exact ⟨hx.1, by simpa using Needs.step (by simpa using hx.2) hca⟩)
          rw [sum_ones, sum_ones] at this
          exact this
        simp only [List.length_cons] at hsub
        omega
  intro a ha
  exact key _ a ha (Nat.le_refl _)

/-- Everything known at the end. -/
structure Final (W : World) (sp : List Nat) (R : RState) (res : Resolved) (log : List (Nat × Nat))
    (segs : List (Nat × List (Nat × Nat))) (D : DState) : Prop where
  phase : PhaseOk W sp sp R
  inv : Inv W R sp D log []
  segsOf : log = segs.flatMap (·.2)
  segRoots : segs.map (·.1) = roots R
  segNeeds : Segs W segs
  segPlaced : ∀ s1 s s2, segs = s1 ++ s :: s2 → s.1 ∈ names (s1.flatMap (·.2) ++ s.2)
  all : ∀ a, a ∈ names log ↔ a ∈ R.keys
  uniq : ∀ pre s post, sp = pre ++ s :: post → IsAction W s → s ∉ post
  out : res.out = assemble W D sp
  ids : res.refId = D.refId
  feats : res.feature = D.feature

theorem final {W : World} {sp : List Nat} {limit : Nat} {res : Resolved} (hac : Acyclic W)
    (hraw : NoRawRefs W) (hbu : AddedBeforeUse W sp) (h : resolveRefs W limit sp = some res) :
    ∃ R log segs D, Final W sp R res log segs D := by
  unfold resolveRefs at h
  simp only [Option.bind_eq_bind, Option.bind_eq_some_iff, Option.some.injEq] at h
  obtain ⟨R, hph, D, hD, rfl⟩ := h
  have hR := resolvePhase_ok hac hraw hbu hph
  obtain ⟨segs, e1, i, s, p, q, -⟩ := roots_fold hac hR.graph limit (roots R) _ D [] (fun r hr => roots_in_sp hR r hr) init_inv hD
  simp only [List.nil_append] at i p q
  refine ⟨R, segs.flatMap (·.2), segs, D, hR, i, rfl, e1, s, q, ?_, resolvePhase_nodup sp 0 _ _ hph, rfl, rfl, rfl⟩
  intro a
  constructor
  · intro ha
    exact i.core.inK a ((i.core.vis a).2 (.inl ha))
  · intro ha
    exact covered hac hR (fun a => a ∈ names (segs.flatMap (·.2))) p
      (fun a b ha hr => i.core.closed ha hr.needs) a ha

/-- The actions emitted for the user's action `s`. -/
def block (W : World) (log : List (Nat × Nat)) (s : Nat) : List Nat :=
  if IsAction W s then names (log.filter (fun p => p.2 = s)) else [s]

section
variable {W : World} {sp : List Nat} {R : RState} {res : Resolved} {log : List (Nat × Nat)}
  {segs : List (Nat × List (Nat × Nat))} {D : DState}

theorem Final.nodupLog (F : Final W sp R res log segs D) : (names log).Nodup := by
  have := F.inv.core.nodup
  rwa [List.append_nil] at this

/-- An action has one owner. -/
theorem Final.ownerUnique (F : Final W sp R res log segs D) {a o o' : Nat} (h1 : (a, o) ∈ log) (h2 : (a, o') ∈ log) :
    o = o' := by
  have hnd := F.nodupLog
  clear F
  induction log with
  | nil => simp at h1
  | cons p log ih =>
    simp only [names, List.map_cons, List.nodup_cons] at hnd
    rcases List.mem_cons.1 h1 with e1 | h1
    · rcases List.mem_cons.1 h2 with e2 | h2
      · rw [← e1] at e2
        exact ((Prod.mk.injEq _ _ _ _).mp e2).2.symm
      · exact absurd (List.mem_map.2 ⟨_, h2, by rw [← e1]⟩) hnd.1
    · rcases List.mem_cons.1 h2 with e2 | h2
      · exact absurd (List.mem_map.2 ⟨_, h1, by rw [← e2]⟩) hnd.1
      · exact ih h1 h2 hnd.2

theorem Final.ownerOf (F : Final W sp R res log segs D) {a : Nat} (h : a ∈ R.keys) : ∃ o, (a, o) ∈ log := by
  obtain ⟨p, hp, e⟩ := List.mem_map.1 ((F.all a).2 h)
  exact ⟨p.2, by rw [← e]; exact hp⟩

theorem Final.self (F : Final W sp R res log segs D) {s : Nat} (hs : s ∈ sp) (ha : IsAction W s) : (s, s) ∈ log := by
  obtain ⟨o, ho⟩ := F.ownerOf (F.phase.pres s hs ha)
  have := (F.inv.core.own _ ho).2.2.2 hs
  simp only [] at this
  rw [this] at ho
  exact ho

theorem Final.linked (F : Final W sp R res log segs D) {s : Nat} (hs : s ∈ sp) (ha : IsAction W s) :
    D.linked s = some (names (log.filter (fun p => p.2 = s))) := by
  refine F.inv.core.linked s hs ((F.inv.core.vis s).2 (.inl ?_))
  exact List.mem_map.2 ⟨_, F.self hs ha, rfl⟩

theorem mem_names_filter {log : List (Nat × Nat)} {a s : Nat} :
    a ∈ names (log.filter (fun p => p.2 = s)) ↔ (a, s) ∈ log := by
  unfold names
  rw [List.mem_map]
  constructor
  · rintro ⟨p, hp, rfl⟩
    rw [List.mem_filter] at hp
    simp only [decide_eq_true_eq] at hp
    rw [← hp.2]
    exact hp.1
  · intro h
    exact ⟨_, List.mem_filter.2 ⟨h, by simp⟩, rfl⟩

theorem names_filter_nodup {log : List (Nat × Nat)} (h : (names log).Nodup) (f : Nat × Nat → Bool) :
    (names (log.filter f)).Nodup := by
  unfold names at *
  exact (List.filter_sublist.map _).nodup h

theorem eq_singleton_of_nodup {l : List Nat} {a : Nat} (h1 : l.Nodup) (h2 : ∀ x, x ∈ l ↔ x = a) : l = [a] := by
  cases l with
  | nil => exact absurd ((h2 a).2 rfl) (by simp)
  | cons b l =>
    have hb := (h2 b).1 List.mem_cons_self
    subst hb
    cases l with
    | nil => rfl
    | cons c l =>
      have hc := (h2 c).1 (by simp)
      subst hc
      simp at h1

theorem flatMap_congr' {l : List Nat} {f g : Nat → List Nat} (h : ∀ a ∈ l, f a = g a) : l.flatMap f = l.flatMap g := by
  induction l with
  | nil => rfl
  | cons a l ih =>
    rw [List.flatMap_cons, List.flatMap_cons, h a List.mem_cons_self, ih (fun x hx => h x (List.mem_cons_of_mem _ hx))]

theorem Final.outEq (F : Final W sp R res log segs D) : res.out = sp.flatMap (block W log) := by
  rw [F.out]
  unfold assemble
  apply flatMap_congr'
  intro s hs
  unfold block
  by_cases ha : IsAction W s
  · rw [if_pos ha]
    by_cases hr : (W s).referencing = true
    · rw [if_pos hr, F.linked hs ha]; rfl
    · rw [if_neg hr]
      symm
      apply eq_singleton_of_nodup (names_filter_nodup F.nodupLog _)
      intro x
      rw [mem_names_filter]
      constructor
      · intro hx
        have hw := (F.inv.core.own _ hx).2.1
        simp only [] at hw
        have : ∀ y, Needs W s y → y = s := by
          intro y hy
          induction hy with
          | refl => rfl
          | step _ h ih =>
            rw [ih] at h
            exact absurd h.1 hr
        exact this x hw.needs
      · rintro rfl
        exact F.self hs ha
  · rw [if_neg ha]
    have : ¬ (W s).referencing = true := fun h => ha (.inl h)
    rw [if_neg this]

theorem Final.actionOf (F : Final W sp R res log segs D) {a : Nat} (h : a ∈ R.keys) : IsAction W a := by
  obtain ⟨p, _, ha, hw⟩ := F.phase.member a h
  cases hw with
  | refl => exact ha
  | step _ h2 _ => exact h2.actions.2

/-- An action is in the block of its owner and nowhere else. -/
theorem Final.memBlock (F : Final W sp R res log segs D) {a o s : Nat} (h : (a, o) ∈ log) (hm : a ∈ block W log s) :
    s = o := by
  unfold block at hm
  split at hm
  · rw [mem_names_filter] at hm
    exact F.ownerUnique hm h
  · simp only [List.mem_singleton] at hm
    subst hm
    rename_i hn
    exact absurd (F.actionOf ((F.all a).1 (List.mem_map.2 ⟨_, h, rfl⟩))) hn

theorem Final.inBlock (F : Final W sp R res log segs D) {a o : Nat} (h : (a, o) ∈ log) :
    a ∈ block W log o ∧ o ∈ sp := by
  have hown := F.inv.core.own _ h
  simp only [] at hown
  refine ⟨?_, hown.1⟩
  have ha : IsAction W o := F.actionOf (F.inv.core.inK _ hown.2.2.1)
  unfold block
  rw [if_pos ha, mem_names_filter]
  exact h

theorem Final.uniqAction (F : Final W sp R res log segs D) {pre post : List Nat} {s : Nat} (e : sp = pre ++ s :: post)
    (ha : IsAction W s) : s ∉ pre ∧ s ∉ post := by
  refine ⟨?_, F.uniq pre s post e ha⟩
  intro hm
  obtain ⟨p1, p2, e2⟩ := List.append_of_mem hm
  exact F.uniq p1 s (p2 ++ s :: post) (by rw [e, e2]; simp) ha (by simp)

theorem Final.ownerAction (F : Final W sp R res log segs D) {a o : Nat} (h : (a, o) ∈ log) : IsAction W o :=
  F.actionOf (F.inv.core.inK _ (F.inv.core.own _ h).2.2.1)

/-- Order in the output from order of owners and order in the history. -/
theorem Final.outBefore (F : Final W sp R res log segs D) {x y P Q : Nat} (hx : (x, P) ∈ log) (hy : (y, Q) ∈ log)
    (h : (P = Q ∧ Before (names log) x y) ∨ Before sp P Q) : Before res.out x y := by
  rw [F.outEq]
  rcases h with ⟨rfl, h⟩ | ⟨l1, l2, e, h1, h2⟩
  · have hP := (F.inBlock hx).2
    obtain ⟨pre, post, e⟩ := List.append_of_mem hP
    have hu := F.uniqAction e (F.ownerAction hx)
    have hb : Before (block W log P) x y := by
      have ha := F.ownerAction hx
      unfold block
      rw [if_pos ha]
      obtain ⟨l1, l2, el, h1, h2⟩ := h
      -- split the history where `names log` splits
      have hlen : l1.length ≤ log.length := by
        have := congrArg List.length el
        simp [names] at this
        omega
      have e1 : names (log.take l1.length) = l1 := by
        unfold names at *
        rw [List.map_take, el]; simp
      have es : log = log.take l1.length ++ log.drop l1.length := (List.take_append_drop _ _).symm
      refine ⟨names ((log.take l1.length).filter (fun p => p.2 = P)),
        names ((log.drop l1.length).filter (fun p => p.2 = P)), ?_, ?_, ?_⟩
      · rw [← names_append, ← List.filter_append, ← es]
      · rw [mem_names_filter]
        rw [← e1] at h1
        obtain ⟨p, hp, ep⟩ := List.mem_map.1 h1
        have hpl : p ∈ log := List.mem_of_mem_take hp
        have : p.2 = P := F.ownerUnique (a := x) (by rw [← ep]; exact hpl) hx
        rw [← this, ← ep]
        exact hp
      · intro hm
        rw [mem_names_filter] at hm
        apply h2
        rw [← e1]
        exact List.mem_map.2 ⟨_, hm, rfl⟩
    obtain ⟨b1, b2, eb, hb1, hb2⟩ := hb
    refine ⟨pre.flatMap (block W log) ++ b1, b2 ++ post.flatMap (block W log), ?_, ?_, ?_⟩
    · rw [e]; simp [eb]
    · exact List.mem_append_right _ hb1
    · intro hm
      rcases List.mem_append.1 hm with h | h
      · rw [List.mem_flatMap] at h
        obtain ⟨s, hs, hs2⟩ := h
        exact hu.1 (F.memBlock hy hs2 ▸ hs)
      · exact hb2 h
  · refine ⟨l1.flatMap (block W log), l2.flatMap (block W log), by rw [e]; simp, ?_, ?_⟩
    · rw [List.mem_flatMap]; exact ⟨P, h1, (F.inBlock hx).1⟩
    · intro hm
      rw [List.mem_flatMap] at hm
      obtain ⟨s, hs, hs2⟩ := hm
      exact h2 (F.memBlock hy hs2 ▸ hs)

theorem Final.mem_out (F : Final W sp R res log segs D) (a : Nat) : a ∈ res.out ↔ a ∈ sp ∨ a ∈ R.keys := by
  rw [F.outEq, List.mem_flatMap]
  constructor
  · rintro ⟨s, hs, h⟩
    unfold block at h
    split at h
    · rw [mem_names_filter] at h
      exact .inr ((F.all a).1 (List.mem_map.2 ⟨_, h, rfl⟩))
    · simp only [List.mem_singleton] at h
      exact .inl (h ▸ hs)
  · rintro (h | h)
    · refine ⟨a, h, ?_⟩
      unfold block
      split
      · rw [mem_names_filter]
        exact F.self h (by assumption)
      · simp
    · obtain ⟨o, ho⟩ := F.ownerOf h
      exact ⟨o, (F.inBlock ho).2, (F.inBlock ho).1⟩

theorem Final.count_out (F : Final W sp R res log segs D) {a : Nat} (h : a ∈ R.keys) : res.out.count a = 1 := by
  obtain ⟨o, ho⟩ := F.ownerOf h
  obtain ⟨pre, post, e⟩ := List.append_of_mem (F.inBlock ho).2
  have hu := F.uniqAction e (F.ownerAction ho)
  have z : ∀ l : List Nat, o ∉ l → (l.flatMap (block W log)).count a = 0 := by
    intro l hl
    rw [List.count_eq_zero]
    intro hm
    rw [List.mem_flatMap] at hm
    obtain ⟨s, hs, hs2⟩ := hm
    exact hl (F.memBlock ho hs2 ▸ hs)
  rw [F.outEq, e, List.flatMap_append, List.flatMap_cons, List.count_append, List.count_append, z pre hu.1, z post hu.2]
  have : (block W log o).count a = 1 := by
    have hm := (F.inBlock ho).1
    have hnd : (block W log o).Nodup := by
      unfold block
      split
      · exact names_filter_nodup F.nodupLog _
      · simp
    have h1 := List.nodup_iff_count.1 hnd a
    have h2 := List.count_pos_iff.2 hm
    omega
  omega

theorem Final.user_order (F : Final W sp R res log segs D) : res.out.filter (· ∈ sp) = sp := by
  rw [F.outEq]
  have key : ∀ l : List Nat, (∀ s ∈ l, s ∈ sp) → (l.flatMap (block W log)).filter (· ∈ sp) = l := by
    intro l
    induction l with
    | nil => intro _; rfl
    | cons s l ih =>
      intro hl
      rw [List.flatMap_cons, List.filter_append, ih (fun x hx => hl x (List.mem_cons_of_mem _ hx))]
      have hs := hl s List.mem_cons_self
      have : (block W log s).filter (· ∈ sp) = [s] := by
        unfold block
        split
        · apply eq_singleton_of_nodup ((names_filter_nodup F.nodupLog _).filter _)
          intro x
          rw [List.mem_filter, mem_names_filter]
          simp only [decide_eq_true_eq]
          constructor
          · rintro ⟨h1, h2⟩
            exact ((F.inv.core.own _ h1).2.2.2 h2).symm
          · rintro rfl
            exact ⟨F.self hs (by assumption), hs⟩
        · simp [hs]
      rw [this]; rfl
  exact key sp (fun s hs => hs)

end

end Grf
