import Verif.Proofs.Refs1
/-! Phase 2 of `resolve_refs`: invariants of the traversal. `log` is a history of `(action, owner)`
pairs in the order in which actions are appended to the list of their owner. -/
namespace Grf

def names (log : List (Nat × Nat)) : List Nat := log.map (·.1)

theorem names_append (a b : List (Nat × Nat)) : names (a ++ b) = names a ++ names b := by
  simp [names]

/-- All references to `a` have been emitted (and there was one). -/
def Done (W : World) (K : List Nat) (log : List (Nat × Nat)) (a : Nat) : Prop :=
  (∃ c ∈ K, Refers W c a) ∧ ∀ c ∈ K, Refers W c a → c ∈ names log

/-- All references to `a` are emitted before `b`. -/
def Dead (W : World) (K : List Nat) (log : List (Nat × Nat)) (a b : Nat) : Prop :=
  (∃ c ∈ K, Refers W c a) ∧ ∀ c ∈ K, Refers W c a → Before (names log) c b

theorem Before.append {l : List Nat} {x y : Nat} (h : Before l x y) (m : List Nat) : Before (l ++ m) x y := by
  obtain ⟨l1, l2, rfl, h1, h2⟩ := h
  exact ⟨l1, l2 ++ m, by simp, h1, h2⟩

theorem Done.append {W : World} {K : List Nat} {log : List (Nat × Nat)} {a : Nat} (h : Done W K log a)
    (L : List (Nat × Nat)) : Done W K (log ++ L) a :=
  ⟨h.1, fun c h1 h2 => by rw [names_append]; exact List.mem_append_left _ (h.2 c h1 h2)⟩

theorem Dead.append {W : World} {K : List Nat} {log : List (Nat × Nat)} {a b : Nat} (h : Dead W K log a b)
    (L : List (Nat × Nat)) : Dead W K (log ++ L) a b :=
  ⟨h.1, fun c h1 h2 => by rw [names_append]; exact (h.2 c h1 h2).append _⟩

theorem Dead.done {W : World} {K : List Nat} {log : List (Nat × Nat)} {a b : Nat} (h : Dead W K log a b) :
    Done W K log a := ⟨h.1, fun c h1 h2 => (h.2 c h1 h2).mem⟩

structure IdInv (W : World) (K : List Nat) (st : DState) (log : List (Nat × Nat)) : Prop where
  noRes : st.reserved = []
  poolNodup : st.ids.Nodup
  poolRange : ∀ x ∈ st.ids, -255 ≤ x ∧ x ≤ -1
  unassigned : ∀ a ∈ K, a ∉ st.visited → st.refId a = none
  assigned : ∀ a ∈ st.visited, (W a).referenceable = true → ∃ i, st.refId a = some i ∧ 1 ≤ i ∧ i ≤ 255
  free : ∀ a ∈ st.visited, ∀ i, st.refId a = some i → -i ∈ st.ids → Done W K log a
  pair : ∀ a ∈ st.visited, ∀ b ∈ st.visited, a ≠ b → ∀ i, st.refId a = some i → st.refId b = some i →
    Dead W K log a b ∨ Dead W K log b a

def logCount (W : World) (log : List (Nat × Nat)) (b : Nat) : Nat := (log.map (fun p => cnt W p.1 b)).sum

/-- Invariant that does not depend on counters and ids. -/
structure Core (W : World) (R : RState) (sp : List Nat) (st : DState) (log : List (Nat × Nat)) (stk : List Nat) :
    Prop where
  vis : ∀ v, v ∈ st.visited ↔ v ∈ names log ∨ v ∈ stk
  nodup : (names log ++ stk).Nodup
  inK : ∀ v ∈ st.visited, v ∈ R.keys
  own : ∀ p ∈ log, p.2 ∈ sp ∧ Within W sp p.2 p.1 ∧ p.2 ∈ st.visited ∧ (p.1 ∈ sp → p.2 = p.1)
  order : ∀ L1 p L2, log = L1 ++ p :: L2 → ∀ b, Refers W p.1 b → b ∈ names L1
  linked : ∀ X ∈ sp, X ∈ st.visited → st.linked X = some (names (log.filter (fun p => p.2 = X)))
  linkedNone : ∀ X, X ∉ st.visited → st.linked X = none
  featSome : ∀ v ∈ st.visited, (st.feature v).isSome = true
  feat : ∀ p ∈ log, ∀ b, Refers W p.1 b → st.feature p.1 = st.feature b
  featKeep : ∀ a f, (W a).feature = some f → st.feature a = some f
  refKeep : ∀ a i, (W a).refId = some i → st.refId a = some i

structure Inv (W : World) (R : RState) (sp : List Nat) (st : DState) (log : List (Nat × Nat)) (stk : List Nat) :
    Prop where
  core : Core W R sp st log stk
  count : ∀ b, st.refCount b + logCount W log b = R.refCount b
  ids : (∀ a ∈ R.keys, (W a).refId = none) → IdInv W R.keys st log

theorem heappop_perm : ∀ (l : List Int) (m : Int) (r : List Int), heappop l = some (m, r) → List.Perm l (m :: r) := by
  intro l
  induction l with
  | nil => intro m r h; simp [heappop] at h
  | cons x l ih =>
    intro m r h
    simp only [heappop] at h
    split at h
    · rename_i hn
      simp only [Option.some.injEq, Prod.mk.injEq] at h
      obtain ⟨rfl, rfl⟩ := h
      have : l = [] := by
        cases l with
        | nil => rfl
        | cons y l =>
          simp only [heappop] at hn
          split at hn
          · simp at hn
          · split at hn <;> simp at hn
      rw [this]
    · rename_i m' r' hs
      have hp := ih m' r' hs
      split at h
      · simp only [Option.some.injEq, Prod.mk.injEq] at h
        obtain ⟨rfl, rfl⟩ := h
        exact .refl _
      · simp only [Option.some.injEq, Prod.mk.injEq] at h
        obtain ⟨rfl, rfl⟩ := h
        exact (List.Perm.cons x hp).trans (List.Perm.swap _ _ _)

theorem popId_nil {n : Nat} {ids r : List Int} {i : Int} (h : popId [] n ids = some (i, r)) :
    List.Perm ids (-i :: r) := by
  cases n with
  | zero => simp [popId] at h
  | succ n =>
    simp only [popId] at h
    split at h
    · simp at h
    · rename_i m r' hm
      simp only [List.not_mem_nil, if_false, Option.some.injEq, Prod.mk.injEq] at h
      obtain ⟨rfl, rfl⟩ := h
      simpa using heappop_perm _ _ _ hm

/-- `assignId` changes only ids, and only of `aid` when it had none. -/
theorem assignId_frame {W : World} {aid : Nat} {st st' : DState} (h : assignId W aid st = some st') :
    st'.linked = st.linked ∧ st'.visited = st.visited ∧ st'.refCount = st.refCount ∧ st'.feature = st.feature ∧
    (∀ a, a ≠ aid → st'.refId a = st.refId a) ∧ (∀ i, st.refId aid = some i → st'.refId aid = some i) := by
  unfold assignId at h
  split at h
  · simp only [Option.some.injEq] at h; subst h; simp
  · split at h
    · rename_i hn
      rw [Option.map_eq_some_iff] at h
      obtain ⟨p, _, rfl⟩ := h
      refine ⟨rfl, rfl, rfl, rfl, fun a ha => upd_ne _ _ _ _ ha, fun i hi => ?_⟩
      rw [hn] at hi; simp at hi
    · simp only [Option.some.injEq] at h; subst h; simp

theorem assignId_ids {W : World} {K : List Nat} {aid : Nat} {st st1 : DState} {log : List (Nat × Nat)}
    {fe : Nat → Option Nat} (haK : aid ∈ K) (hnv : aid ∉ st.visited) (hnl : aid ∉ names log) (hinv : IdInv W K st log)
    (h : assignId W aid { st with visited := aid :: st.visited, feature := fe } = some st1) :
    IdInv W K st1 log := by
  unfold assignId at h
  have hna := hinv.unassigned aid haK hnv
  by_cases hr : (W aid).referenceable = false
  · rw [if_pos hr] at h
    simp only [Option.some.injEq] at h
    subst h
    refine ⟨hinv.noRes, hinv.poolNodup, hinv.poolRange, ?_, ?_, ?_, ?_⟩
    · intro a ha hv
      exact hinv.unassigned a ha (fun h => hv (List.mem_cons_of_mem _ h))
    · intro a ha har
      rcases List.mem_cons.1 ha with rfl | ha
      · rw [hr] at har; simp at har
      · exact hinv.assigned a ha har
    · intro a ha i hi
      rcases List.mem_cons.1 ha with rfl | ha
      · simp only [] at hi; rw [hna] at hi; simp at hi
      · exact hinv.free a ha i hi
    · intro a ha b hb hab i hia hib
      rcases List.mem_cons.1 ha with rfl | ha
      · simp only [] at hia; rw [hna] at hia; simp at hia
      · rcases List.mem_cons.1 hb with rfl | hb
        · simp only [] at hib; rw [hna] at hib; simp at hib
        · exact hinv.pair a ha b hb hab i hia hib
  · rw [if_neg hr] at h
    simp only [hna] at h
    rw [Option.map_eq_some_iff] at h
    obtain ⟨⟨i0, rest⟩, hp, rfl⟩ := h
    rw [hinv.noRes] at hp
    have hperm := popId_nil hp
    have hnd : (-i0 :: rest).Nodup := hperm.nodup_iff.1 hinv.poolNodup
    have hmem : ∀ x, x ∈ rest → x ∈ st.ids := fun x hx => hperm.mem_iff.2 (List.mem_cons_of_mem _ hx)
    have hi0 : -i0 ∈ st.ids := hperm.mem_iff.2 List.mem_cons_self
    have hi0r := hinv.poolRange _ hi0
    have dead : ∀ a ∈ st.visited, st.refId a = some i0 → Dead W K log a aid := by
      intro a ha hia
      have hd := hinv.free a ha i0 hia hi0
      exact ⟨hd.1, fun c h1 h2 => ⟨names log, [], by simp, hd.2 c h1 h2, hnl⟩⟩
    refine ⟨hinv.noRes, (List.nodup_cons.1 hnd).2, fun x hx => hinv.poolRange x (hmem x hx), ?_, ?_, ?_, ?_⟩
    · intro a ha hv
      have : a ≠ aid := fun e => hv (e ▸ List.mem_cons_self)
      show upd st.refId aid (some i0) a = none
      rw [upd_ne _ _ _ _ this]
      exact hinv.unassigned a ha (fun h => hv (List.mem_cons_of_mem _ h))
    · intro a ha har
      show ∃ i, upd st.refId aid (some i0) a = some i ∧ _
      by_cases e : a = aid
      · subst e; rw [upd_same]; exact ⟨i0, rfl, by omega, by omega⟩
      · rw [upd_ne _ _ _ _ e]
        exact hinv.assigned a ((List.mem_cons.1 ha).resolve_left e) har
    · intro a ha i hi hfree
      replace hi : upd st.refId aid (some i0) a = some i := hi
      replace hfree : -i ∈ rest := hfree
      by_cases e : a = aid
      · subst e; rw [upd_same] at hi
        simp only [Option.some.injEq] at hi; subst hi
        exact absurd hfree (List.nodup_cons.1 hnd).1
      · rw [upd_ne _ _ _ _ e] at hi
        exact hinv.free a ((List.mem_cons.1 ha).resolve_left e) i hi (hmem _ hfree)
    · intro a ha b hb hab i hia hib
      replace hia : upd st.refId aid (some i0) a = some i := hia
      replace hib : upd st.refId aid (some i0) b = some i := hib
      by_cases e : a = aid
      · subst e
        rw [upd_same] at hia
        rw [upd_ne _ _ _ _ (Ne.symm hab)] at hib
        simp only [Option.some.injEq] at hia; subst hia
        exact .inr (dead b ((List.mem_cons.1 hb).resolve_left (Ne.symm hab)) hib)
      · rw [upd_ne _ _ _ _ e] at hia
        have ha' := (List.mem_cons.1 ha).resolve_left e
        by_cases e' : b = aid
        · subst e'
          rw [upd_same] at hib
          simp only [Option.some.injEq] at hib; subst hib
          exact .inl (dead a ha' hia)
        · rw [upd_ne _ _ _ _ e'] at hib
          exact hinv.pair a ha' b ((List.mem_cons.1 hb).resolve_left e') hab i hia hib

/-- Releasing references changes only counters and the pool. -/
theorem release_frame {W : World} : ∀ (l : List RefArg) (st st' : DState), l.foldlM (releaseRef W) st = some st' →
    st'.linked = st.linked ∧ st'.visited = st.visited ∧ st'.feature = st.feature ∧ st'.refId = st.refId ∧
    ∀ b, st'.refCount b + cntl W l b = st.refCount b := by
  intro l
  induction l with
  | nil =>
    intro st st' h
    simp only [List.foldlM_nil, Option.pure_def, Option.some.injEq] at h
    subst h; simp [cntl]
  | cons x l ih =>
    intro st st2 h
    rw [List.foldlM_cons, Option.bind_eq_bind, Option.bind_eq_some_iff] at h
    obtain ⟨st1, h1, h2⟩ := h
    obtain ⟨e1, e2, e3, e4, e5⟩ := ih st1 st2 h2
    have cons : ∀ b, cntl W (x :: l) b = cntl W [x] b + cntl W l b := by
      intro b; unfold cntl; split
      · rw [← List.count_append]; rfl
      · rfl
    have step : st1.linked = st.linked ∧ st1.visited = st.visited ∧ st1.feature = st.feature ∧ st1.refId = st.refId ∧
        ∀ b, st1.refCount b + cntl W [x] b = st.refCount b := by
      have triv : (∀ b, x = RefArg.obj b → (W b).referenceable = false) → st1 = st →
          st1.linked = st.linked ∧ st1.visited = st.visited ∧ st1.feature = st.feature ∧ st1.refId = st.refId ∧
          ∀ b, st1.refCount b + cntl W [x] b = st.refCount b := by
        intro hc e
        subst e
        refine ⟨rfl, rfl, rfl, rfl, ?_⟩
        intro b
        unfold cntl
        by_cases hr : (W b).referenceable = true
        · have : x ≠ RefArg.obj b := by
            intro e; rw [hc b e] at hr; simp at hr
          simp [hr, this]
        · simp [hr]
      cases x with
      | other => simp only [releaseRef, Option.some.injEq] at h1; exact triv (by simp) h1.symm
      | ref c r => simp only [releaseRef, Option.some.injEq] at h1; exact triv (by simp) h1.symm
      | obj r =>
        simp only [releaseRef] at h1
        by_cases hr : (W r).referenceable = false
        · rw [if_pos hr] at h1
          simp only [Option.some.injEq] at h1
          exact triv (by intro b hb; cases hb; exact hr) h1.symm
        · rw [if_neg hr] at h1
          simp only [Bool.not_eq_false] at hr
          by_cases hz : st.refCount r = 0
          · rw [if_pos hz] at h1; simp at h1
          · rw [if_neg hz] at h1
            have hc : st1.refCount = upd st.refCount r (st.refCount r - 1) ∧ st1.linked = st.linked ∧
                st1.visited = st.visited ∧ st1.feature = st.feature ∧ st1.refId = st.refId := by
              split at h1
              · split at h1
                · simp at h1
                · simp only [Option.some.injEq] at h1; subst h1; simp
              · simp only [Option.some.injEq] at h1; subst h1; simp
            refine ⟨hc.2.1, hc.2.2.1, hc.2.2.2.1, hc.2.2.2.2, ?_⟩
            intro b
            rw [hc.1]
            unfold cntl
            by_cases e : b = r
            · subst e; rw [upd_same]; simp [hr]; omega
            · rw [upd_ne _ _ _ _ e]
              have : RefArg.obj r ≠ RefArg.obj b := by simpa using Ne.symm e
              simp [this]
    refine ⟨e1.trans step.1, e2.trans step.2.1, e3.trans step.2.2.1, e4.trans step.2.2.2.1, ?_⟩
    intro b
    rw [cons]
    have := e5 b
    have := step.2.2.2.2 b
    omega

theorem sum_le_of_nodup (f : Nat → Nat) : ∀ (l K : List Nat), l.Nodup → (∀ x ∈ l, x ∈ K) →
    (l.map f).sum ≤ (K.map f).sum := by
  intro l
  induction l with
  | nil => intro K _ _; simp
  | cons a l ih =>
    intro K hnd hsub
    have haK := hsub a List.mem_cons_self
    have hp := List.perm_cons_erase haK
    have e : (K.map f).sum = f a + ((K.erase a).map f).sum := by
      rw [(hp.map f).sum_nat]; simp
    rw [e, List.map_cons, List.sum_cons]
    have := ih (K.erase a) (List.nodup_cons.1 hnd).2 (by
      intro x hx
      have hxa : x ≠ a := by rintro rfl; exact (List.nodup_cons.1 hnd).1 hx
      exact (List.mem_erase_of_ne hxa).2 (hsub x (List.mem_cons_of_mem _ hx)))
    omega

theorem logCount_eq (W : World) (log : List (Nat × Nat)) (b : Nat) :
    logCount W log b = ((names log).map (cnt W · b)).sum := by
  unfold logCount names; rw [List.map_map]; rfl

theorem logCount_append (W : World) (log L : List (Nat × Nat)) (b : Nat) :
    logCount W (log ++ L) b = logCount W log b + logCount W L b := by
  simp [logCount]

/-- If the history already accounts for all references to `r`, all referrers of `r` are in it. -/
theorem all_done {W : World} {K : List Nat} {log : List (Nat × Nat)} {r : Nat} (hnd : (names log).Nodup)
    (hsub : ∀ x ∈ names log, x ∈ K) (h : (K.map (cnt W · r)).sum ≤ logCount W log r) :
    ∀ c ∈ K, Refers W c r → c ∈ names log := by
  intro c hc hr
  by_cases hm : c ∈ names log
  · exact hm
  · exfalso
    have := sum_le_of_nodup (cnt W · r) (c :: names log) K (List.nodup_cons.2 ⟨hm, hnd⟩) (by
      intro x hx
      rcases List.mem_cons.1 hx with rfl | hx
      · exact hc
      · exact hsub x hx)
    rw [List.map_cons, List.sum_cons, ← logCount_eq] at this
    have := cnt_pos.2 hr
    omega

theorem release_ids {W : World} {K : List Nat} {x o : Nat} {log0 : List (Nat × Nat)} {vis : List Nat}
    {rid : Nat → Option Int} {total : Nat → Nat}
    (hxK : x ∈ K) (href : (W x).referencing = true) (hx0 : x ∉ names log0)
    (hnd : (names (log0 ++ [(x, o)])).Nodup) (hsub : ∀ y ∈ names (log0 ++ [(x, o)]), y ∈ K)
    (htot : ∀ b, (K.map (cnt W · b)).sum ≤ total b)
    (hass : ∀ a ∈ vis, (W a).referenceable = true → ∃ i, rid a = some i ∧ 1 ≤ i ∧ i ≤ 255)
    (hvis : ∀ r, Refers W x r → r ∈ vis)
    (hpair : ∀ a ∈ vis, ∀ b ∈ vis, a ≠ b → ∀ i, rid a = some i → rid b = some i →
      Dead W K log0 a b ∨ Dead W K log0 b a) :
    ∀ (l : List RefArg) (st st' : DState), (∀ y ∈ l, y ∈ (W x).refs) → st.refId = rid → st.reserved = [] →
      st.ids.Nodup → (∀ y ∈ st.ids, -255 ≤ y ∧ y ≤ -1) →
      (∀ a ∈ vis, ∀ i, rid a = some i → -i ∈ st.ids → Done W K (log0 ++ [(x, o)]) a) →
      (∀ b, st.refCount b + logCount W (log0 ++ [(x, o)]) b = total b + cntl W l b) →
      l.foldlM (releaseRef W) st = some st' →
      st'.reserved = [] ∧ st'.ids.Nodup ∧ (∀ y ∈ st'.ids, -255 ≤ y ∧ y ≤ -1) ∧
      (∀ a ∈ vis, ∀ i, rid a = some i → -i ∈ st'.ids → Done W K (log0 ++ [(x, o)]) a) := by
  intro l
  induction l with
  | nil =>
    intro st st' _ _ h1 h2 h3 h4 _ h
    simp only [List.foldlM_nil, Option.pure_def, Option.some.injEq] at h
    subst h; exact ⟨h1, h2, h3, h4⟩
  | cons y l ih =>
    intro st st2 hl hrid hres hpn hpr hfree hcount h
    have hfr := release_frame (W := W) [y] st
    rw [List.foldlM_cons, Option.bind_eq_bind, Option.bind_eq_some_iff] at h
    obtain ⟨st1, h1, h2⟩ := h
    have hfr1 := hfr st1 (by simp [List.foldlM_cons, h1])
    have cons : ∀ b, cntl W (y :: l) b = cntl W [y] b + cntl W l b := by
      intro b; unfold cntl; split
      · rw [← List.count_append]; rfl
      · rfl
    have hcount1 : ∀ b, st1.refCount b + logCount W (log0 ++ [(x, o)]) b = total b + cntl W l b := by
      intro b
      have := hcount b
      have := hfr1.2.2.2.2 b
      have := cons b
      omega
    have step : st1.reserved = [] ∧ st1.ids.Nodup ∧ (∀ y ∈ st1.ids, -255 ≤ y ∧ y ≤ -1) ∧
        (∀ a ∈ vis, ∀ i, rid a = some i → -i ∈ st1.ids → Done W K (log0 ++ [(x, o)]) a) := by
      have triv : st1.ids = st.ids → st1.reserved = st.reserved →
          st1.reserved = [] ∧ st1.ids.Nodup ∧ (∀ y ∈ st1.ids, -255 ≤ y ∧ y ≤ -1) ∧
          (∀ a ∈ vis, ∀ i, rid a = some i → -i ∈ st1.ids → Done W K (log0 ++ [(x, o)]) a) := by
        intro e1 e2
        rw [e1, e2]
        exact ⟨hres, hpn, hpr, hfree⟩
      cases y with
      | other => simp only [releaseRef, Option.some.injEq] at h1; subst h1; exact triv rfl rfl
      | ref c r => simp only [releaseRef, Option.some.injEq] at h1; subst h1; exact triv rfl rfl
      | obj r =>
        simp only [releaseRef] at h1
        by_cases hr : (W r).referenceable = false
        · rw [if_pos hr] at h1
          simp only [Option.some.injEq] at h1; subst h1; exact triv rfl rfl
        · rw [if_neg hr] at h1
          simp only [Bool.not_eq_false] at hr
          by_cases hz : st.refCount r = 0
          · rw [if_pos hz] at h1; simp at h1
          · rw [if_neg hz] at h1
            split at h1
            · rename_i hz1
              have hxr : Refers W x r := ⟨href, hl _ List.mem_cons_self, hr⟩
              have hrv := hvis r hxr
              obtain ⟨i, hi, hi1, hi2⟩ := hass r hrv hr
              have hi' : st.refId r = some i := by rw [hrid]; exact hi
              simp only [hi', Option.some.injEq] at h1
              have hids : st1.ids = if -i ∈ st.ids then st.ids else -i :: st.ids := by subst h1; rfl
              have hres1 : st1.reserved = [] := by subst h1; simp [hres]
              have hc0 : st1.refCount r = 0 := by subst h1; exact hz1
              have hdone : Done W K (log0 ++ [(x, o)]) r := by
                refine ⟨⟨x, hxK, hxr⟩, all_done hnd hsub ?_⟩
                have := hcount1 r
                have := htot r
                omega
              refine ⟨hres1, ?_, ?_, ?_⟩
              · rw [hids]; split
                · exact hpn
                · exact List.nodup_cons.2 ⟨by assumption, hpn⟩
              · intro z hz
                rw [hids] at hz
                split at hz
                · exact hpr z hz
                · rcases List.mem_cons.1 hz with rfl | hz
                  · omega
                  · exact hpr z hz
              · intro a ha j hj hjm
                by_cases hold : -j ∈ st.ids
                · exact hfree a ha j hj hold
                · have hij : j = i := by
                    rw [hids] at hjm
                    split at hjm
                    · exact absurd hjm hold
                    · rcases List.mem_cons.1 hjm with h | h
                      · omega
                      · exact absurd h hold
                  subst hij
                  by_cases har : a = r
                  · subst har; exact hdone
                  · rcases hpair a ha r hrv har j hj hi with h | h
                    · exact h.done.append _
                    · exact absurd (h.2 x hxK hxr).mem hx0
            · simp only [Option.some.injEq] at h1; subst h1; exact triv rfl rfl
    exact ih st1 st2 (fun z hz => hl z (List.mem_cons_of_mem _ hz)) (hfr1.2.2.2.1.trans hrid) step.1 step.2.1
      step.2.2.1 step.2.2.2 hcount1 h2

/-- Following from `a` the child that is visited first leads along `p` to `s`, which has no children. -/
inductive Lead (R : RState) : Nat → List Nat → Nat → Prop
  | leaf {a : Nat} : R.ordered a = [] → R.unordered a = [] → Lead R a [] a
  | step {a x s : Nat} {t p : List Nat} : R.ordered a ++ R.unordered a = x :: t → Lead R x p s → Lead R a (x :: p) s

/-- Result of a call of `dfs` on `aid`: `log` lists what was placed before, `L` what this call places. -/
structure Dfs (W : World) (R : RState) (sp : List Nat) (aid : Nat) (f : Nat) (stk : List Nat) (log : List (Nat × Nat))
    (st st' : DState) (L : List (Nat × Nat)) : Prop where
  inv : Inv W R sp st' (log ++ L) stk
  placed : aid ∈ names (log ++ L)
  feature : st'.feature aid = some f
  same : ∀ v ∈ st.visited, st'.feature v = st.feature v ∧ st'.refId v = st.refId v
  needs : ∀ p ∈ L, Needs W aid p.1
  lead : ∀ p s, Lead R aid p s → (aid :: p).Nodup → (∀ y ∈ aid :: p, y ∉ st.visited) → ∃ o L', L = (s, o) :: L'

/-- What the traversal needs to know about the dictionaries of the first phase. -/
structure GraphOk (W : World) (sp : List Nat) (R : RState) : Prop where
  closed : ∀ a b, b ∈ R.ordered a ∨ b ∈ R.unordered a → b ∈ R.keys
  complete : ∀ a ∈ R.keys, Complete W R a
  count : ∀ b, (R.keys.map (cnt W · b)).sum ≤ R.refCount b
  look : ∀ a ∈ R.keys, ∃ v, R.actions.lookup a = some v ∧ (v.isSome = true ↔ a ∈ sp)

theorem PhaseOk.graph {W : World} {sp : List Nat} {R : RState} (h : PhaseOk W sp sp R) : GraphOk W sp R :=
  ⟨h.closed, h.complete, fun b => Nat.le_of_eq (h.count b).symm, h.look⟩

theorem dfs_spec {W : World} {sp : List Nat} {R : RState} (hac : Acyclic W) (hR : GraphOk W sp R) (limit : Nat) :
    ∀ (aid : Nat) (owner : Option Nat) (f : Nat) (st st' : DState) (log : List (Nat × Nat)) (stk : List Nat),
      Inv W R sp st log stk → aid ∈ R.keys → (∀ v ∈ stk, ∃ r, Refers W v r ∧ Needs W r aid) →
      (aid ∉ sp → ∃ o, owner = some o ∧ o ∈ sp ∧ Within W sp o aid ∧ o ∈ st.visited) →
      dfs W R limit aid owner f st = some st' → ∃ L, Dfs W R sp aid f stk log st st' L := by
  induction limit with
  | zero => intro aid owner f st st' log stk _ _ _ _ h; simp [dfs] at h
  | succ limit ih =>
    intro aid owner f st st' log stk hinv hK hstk hown h
    obtain ⟨ai, hlook, hai⟩ := hR.look aid hK
    have hnstk : aid ∉ stk := by
      intro hm
      obtain ⟨r, h1, h2⟩ := hstk aid hm
      exact hac aid r h1 h2
    simp only [dfs, hlook] at h
    by_cases hfe : (st.feature aid).isSome = true ∧ st.feature aid ≠ some f
    · rw [if_pos hfe] at h; simp at h
    · rw [if_neg hfe] at h
      by_cases hv : aid ∈ st.visited
      · rw [if_pos hv] at h
        simp only [Option.some.injEq] at h
        subst h
        refine ⟨[], by simpa using hinv, ?_, ?_, fun _ _ => ⟨rfl, rfl⟩, by simp,
          fun p _ _ _ hn => absurd hv (hn aid List.mem_cons_self)⟩
        · rw [List.append_nil]
          exact ((hinv.core.vis aid).1 hv).resolve_right hnstk
        · have := hinv.core.featSome aid hv
          by_cases e : st.feature aid = some f
          · exact e
          · exact absurd ⟨this, e⟩ hfe
      · rw [if_neg hv] at h
        simp only [Option.bind_eq_bind, Option.bind_eq_some_iff] at h
        obtain ⟨st1, h1, st2, h2, st3, h3, st4, h4, h5⟩ := h
        have hnl : aid ∉ names log := fun hm => hv ((hinv.core.vis aid).2 (.inl hm))
        have hfr1 := assignId_frame h1
        -- the owner of `aid` and of the actions below it
        obtain ⟨o, ho, hosp, howi, hov, hoeq⟩ : ∃ o, (if ai.isSome = true then some aid else owner) = some o ∧ o ∈ sp ∧
            Within W sp o aid ∧ (o = aid ∨ o ∈ st.visited) ∧ (aid ∈ sp → o = aid) := by
          by_cases hs : aid ∈ sp
          · exact ⟨aid, by rw [if_pos (hai.2 hs)], hs, .refl, .inl rfl, fun _ => rfl⟩
          · obtain ⟨o, e1, e2, e3, e4⟩ := hown hs
            exact ⟨o, by rw [if_neg (fun h => hs (hai.1 h))]; exact e1, e2, e3, .inr e4, fun h => absurd h hs⟩
        rw [ho] at h2 h3 h4
        obtain ⟨s1, hs1⟩ : ∃ s1 : DState, s1 = if ai.isSome = true then
          { st1 with linked := upd st1.linked aid (some []) } else st1 := ⟨_, rfl⟩
        rw [← hs1] at h2
        have s1v : s1.visited = aid :: st.visited := by
          rw [hs1]; split <;> exact hfr1.2.1
        have s1c : s1.refCount = st.refCount := by
          rw [hs1]; split <;> exact hfr1.2.2.1
        have s1f : s1.feature = upd st.feature aid (some f) := by
          rw [hs1]; split <;> exact hfr1.2.2.2.1
        have s1r : s1.refId = st1.refId := by
          rw [hs1]; split <;> rfl
        have s1i : s1.ids = st1.ids ∧ s1.reserved = st1.reserved := by
          rw [hs1]; split <;> exact ⟨rfl, rfl⟩
        have s1l : ∀ X, X ≠ aid → s1.linked X = st.linked X := by
          intro X hX
          rw [hs1]; split
          · show upd st1.linked aid (some []) X = _
            rw [upd_ne _ _ _ _ hX, hfr1.1]
          · rw [hfr1.1]
        have s1la : aid ∈ sp → s1.linked aid = some [] := by
          intro hs
          rw [hs1, if_pos (hai.2 hs)]
          exact upd_same _ _ _
        have hrid1 : ∀ a, a ≠ aid → s1.refId a = st.refId a := by
          intro a ha; rw [s1r]; exact hfr1.2.2.2.2.1 a ha
        have hinv1 : Inv W R sp s1 log (aid :: stk) := by
          refine ⟨⟨?_, ?_, ?_, ?_, hinv.core.order, ?_, ?_, ?_, ?_, ?_, ?_⟩, ?_, ?_⟩
          · intro v
            rw [s1v]
            simp only [List.mem_cons]
            rw [hinv.core.vis v]
            constructor
            · rintro (h | h | h)
              · exact .inr (.inl h)
              · exact .inl h
              · exact .inr (.inr h)
            · rintro (h | h | h)
              · exact .inr (.inl h)
              · exact .inl h
              · exact .inr (.inr h)
          · have h0 := hinv.core.nodup
            rw [List.nodup_append] at h0 ⊢
            refine ⟨h0.1, List.nodup_cons.2 ⟨hnstk, h0.2.1⟩, ?_⟩
            intro a ha b hb
            rcases List.mem_cons.1 hb with rfl | hb
            · intro e; exact hnl (e ▸ ha)
            · exact h0.2.2 a ha b hb
          · intro v hv'
            rw [s1v] at hv'
            rcases List.mem_cons.1 hv' with rfl | hv'
            · exact hK
            · exact hinv.core.inK v hv'
          · intro p hp
            obtain ⟨a1, a2, a3, a4⟩ := hinv.core.own p hp
            exact ⟨a1, a2, by rw [s1v]; exact List.mem_cons_of_mem _ a3, a4⟩
          · intro X hX hXv
            rw [s1v] at hXv
            by_cases e : X = aid
            · subst e
              rw [s1la hX]
              have : log.filter (fun p => p.2 = X) = [] := by
                rw [List.filter_eq_nil_iff]
                intro p hp
                simp only [decide_eq_true_eq]
                intro e
                exact hv (e ▸ (hinv.core.own p hp).2.2.1)
              rw [this]; rfl
            · rw [s1l X e]
              exact hinv.core.linked X hX ((List.mem_cons.1 hXv).resolve_left e)
          · intro X hX
            rw [s1v] at hX
            simp only [List.mem_cons, not_or] at hX
            rw [s1l X hX.1]
            exact hinv.core.linkedNone X hX.2
          · intro v hv'
            rw [s1v] at hv'
            rw [s1f]
            by_cases e : v = aid
            · rw [e, upd_same]; rfl
            · rw [upd_ne _ _ _ _ e]
              exact hinv.core.featSome v ((List.mem_cons.1 hv').resolve_left e)
          · intro p hp b hb
            have hp1 : p.1 ∈ names log := List.mem_map.2 ⟨p, hp, rfl⟩
            have e1 : p.1 ≠ aid := fun e => hnl (e ▸ hp1)
            obtain ⟨l1, l2, el⟩ := List.append_of_mem hp
            have hb1 : b ∈ names log := by
              have := hinv.core.order l1 p l2 el b hb
              rw [el, names_append]; exact List.mem_append_left _ this
            have e2 : b ≠ aid := fun e => hnl (e ▸ hb1)
            rw [s1f, upd_ne _ _ _ _ e1, upd_ne _ _ _ _ e2]
            exact hinv.core.feat p hp b hb
          · intro a g hg
            have hk := hinv.core.featKeep a g hg
            rw [s1f]
            by_cases e : a = aid
            · subst e
              rw [upd_same]
              by_cases e2 : st.feature a = some f
              · rw [← e2]; exact hk
              · exact absurd ⟨by rw [hk]; rfl, e2⟩ hfe
            · rw [upd_ne _ _ _ _ e]; exact hk
          · intro a i hi
            have hk := hinv.core.refKeep a i hi
            by_cases e : a = aid
            · subst e; rw [s1r]; exact hfr1.2.2.2.2.2 i hk
            · rw [hrid1 a e]; exact hk
          · intro b; rw [s1c]; exact hinv.count b
          · intro hauto
            have := assignId_ids hK hv hnl (hinv.ids hauto) h1
            have v1 : s1.visited = st1.visited := s1v.trans hfr1.2.1.symm
            exact ⟨by rw [s1i.2]; exact this.noRes, by rw [s1i.1]; exact this.poolNodup,
              by rw [s1i.1]; exact this.poolRange,
              by rw [v1, s1r]; exact this.unassigned,
              by rw [v1, s1r]; exact this.assigned,
              by rw [v1, s1r, s1i.1]; exact this.free,
              by rw [v1, s1r]; exact this.pair⟩
        have children : ∀ (xs : List Nat), (∀ x ∈ xs, Refers W aid x) → ∀ (s s' : DState) (lg : List (Nat × Nat)),
            Inv W R sp s lg (aid :: stk) → o ∈ s.visited →
            xs.foldlM (fun st x => dfs W R limit x (some o) f st) s = some s' →
            ∃ L, Inv W R sp s' (lg ++ L) (aid :: stk) ∧ (∀ x ∈ xs, x ∈ names (lg ++ L) ∧ s'.feature x = some f) ∧
              (∀ v ∈ s.visited, s'.feature v = s.feature v ∧ s'.refId v = s.refId v ∧ v ∈ s'.visited) ∧
              (∀ p ∈ L, Needs W aid p.1) ∧ (xs = [] → L = []) ∧
              (∀ x t p z, xs = x :: t → Lead R x p z → (x :: p).Nodup → (∀ y ∈ x :: p, y ∉ s.visited) → ∃ o L', L = (z, o) :: L') := by
          intro xs
          induction xs with
          | nil =>
            intro _ s s' lg hi _ hf
            simp only [List.foldlM_nil, Option.pure_def, Option.some.injEq] at hf
            subst hf
            exact ⟨[], by simpa using hi, by simp, fun v hv => ⟨rfl, rfl, hv⟩, by simp, fun _ => rfl, fun _ _ _ _ e => by simp at e⟩
          | cons x xs ihx =>
            intro hxs s s2 lg hi hos hf
            rw [List.foldlM_cons, Option.bind_eq_bind, Option.bind_eq_some_iff] at hf
            obtain ⟨s1, hf1, hf2⟩ := hf
            have hax := hxs x List.mem_cons_self
            have hxK : x ∈ R.keys := hR.closed aid x ((hR.complete aid hK x).2 hax)
            obtain ⟨L1, d1⟩ := ih x (some o) f s s1 lg (aid :: stk) hi hxK (by
                intro v hv'
                rcases List.mem_cons.1 hv' with rfl | hv'
                · exact ⟨x, hax, .refl⟩
                · obtain ⟨r, e1, e2⟩ := hstk v hv'
                  exact ⟨r, e1, .step e2 hax⟩) (by
                intro hxs'
                exact ⟨o, rfl, hosp, .step howi hax hxs', hos⟩) hf1
            have mono : ∀ v ∈ s.visited, v ∈ s1.visited := by
              intro v hv'
              rw [hi.core.vis] at hv'
              rw [d1.inv.core.vis, names_append]
              rcases hv' with h | h
              · exact .inl (List.mem_append_left _ h)
              · exact .inr h
            obtain ⟨L2, i2, p2, m2, n2, -, -⟩ := ihx (fun y hy => hxs y (List.mem_cons_of_mem _ hy)) s1 s2 (lg ++ L1) d1.inv
              (mono o hos) hf2
            refine ⟨L1 ++ L2, by rw [← List.append_assoc]; exact i2, ?_, ?_, ?_, by simp, ?_⟩
            · intro y hy
              rw [← List.append_assoc]
              rcases List.mem_cons.1 hy with rfl | hy
              · refine ⟨by rw [names_append]; exact List.mem_append_left _ d1.placed, ?_⟩
                have : y ∈ s1.visited := (d1.inv.core.vis y).2 (.inl d1.placed)
                rw [(m2 y this).1]; exact d1.feature
              · exact p2 y hy
            · intro v hv'
              have e1 := d1.same v hv'
              have e2 := m2 v (mono v hv')
              exact ⟨e2.1.trans e1.1, e2.2.1.trans e1.2, e2.2.2⟩
            · intro p hp
              rcases List.mem_append.1 hp with h | h
              · exact Needs.trans hax.needs (d1.needs p h)
              · exact n2 p h
            · intro x' t p z e hl hnd hnv
              simp only [List.cons.injEq] at e
              obtain ⟨rfl, rfl⟩ := e
              obtain ⟨o', L', eL⟩ := d1.lead p z hl hnd hnv
              exact ⟨o', L' ++ L2, by rw [eL]; rfl⟩
        have hos1 : o ∈ s1.visited := by
          rw [s1v]
          rcases hov with h | h
          · rw [h]; exact List.mem_cons_self
          · exact List.mem_cons_of_mem _ h
        obtain ⟨L1, i2, p2, m2, n2, k2, l2⟩ := children (R.ordered aid)
          (fun x hx => (hR.complete aid hK x).1 (.inl hx)) s1 st2 log hinv1 hos1 h2
        obtain ⟨L2, i3, p3, m3, n3, k3, l3⟩ := children (R.unordered aid)
          (fun x hx => (hR.complete aid hK x).1 (.inr hx)) st2 st3 (log ++ L1) i2 (m2 o hos1).2.2 h3
        have haid1 : aid ∈ s1.visited := by rw [s1v]; exact List.mem_cons_self
        have hf3 : st3.feature aid = some f := by
          rw [(m3 aid (m2 aid haid1).2.2).1, (m2 aid haid1).1, s1f, upd_same]
        have hos3 : o ∈ st3.visited := (m3 o (m2 o hos1).2.2).2.2
        have hch : ∀ b, Refers W aid b → b ∈ names (log ++ L1 ++ L2) ∧ st3.feature b = some f := by
          intro b hb
          rcases (hR.complete aid hK b).2 hb with h | h
          · have := p2 b h
            refine ⟨by rw [names_append]; exact List.mem_append_left _ this.1, ?_⟩
            rw [(m3 b ((i2.core.vis b).2 (.inl this.1))).1]; exact this.2
          · exact p3 b h
        simp only [appendLinked, Option.some.injEq] at h4
        have h4' := h4.symm
        obtain ⟨log3, elog3⟩ : ∃ log3, log3 = log ++ L1 ++ L2 := ⟨_, rfl⟩
        rw [← elog3] at i3 hch
        have hnl3 : aid ∉ names log3 := by
          intro hm
          have := i3.core.nodup
          rw [List.nodup_append] at this
          exact this.2.2 aid hm aid List.mem_cons_self rfl
        have hcore4 : Core W R sp st4 (log3 ++ [(aid, o)]) stk := by
          have e4l : st4.linked = upd st3.linked o (some ((st3.linked o).getD [] ++ [aid])) := by rw [h4']
          have e4v : st4.visited = st3.visited := by rw [h4']
          have e4f : st4.feature = st3.feature := by rw [h4']
          have e4r : st4.refId = st3.refId := by rw [h4']
          refine ⟨?_, ?_, ?_, ?_, ?_, ?_, ?_, ?_, ?_, ?_, ?_⟩
          · intro v
            rw [e4v, i3.core.vis v, names_append]
            simp only [List.mem_cons, List.mem_append, names, List.map_cons, List.map_nil, List.not_mem_nil, or_false]
            constructor
            · rintro (h | h | h)
              · exact .inl (.inl h)
              · exact .inl (.inr h)
              · exact .inr h
            · rintro ((h | h) | h)
              · exact .inl h
              · exact .inr (.inl h)
              · exact .inr (.inr h)
          · have := i3.core.nodup
            rw [names_append, List.append_assoc]
            exact this
          · intro v hv'
            rw [e4v] at hv'; exact i3.core.inK v hv'
          · intro p hp
            rw [e4v]
            rcases List.mem_append.1 hp with h | h
            · exact i3.core.own p h
            · simp only [List.mem_singleton] at h
              subst h
              exact ⟨hosp, howi, hos3, hoeq⟩
          · intro l1 p l2 e b hb
            rcases List.eq_nil_or_concat l2 with rfl | ⟨l2', q, rfl⟩
            · have := List.append_inj' e rfl
              simp only [List.cons.injEq, and_true] at this
              obtain ⟨e1, e2⟩ := this
              subst e1
              rw [← e2] at hb
              exact (hch b hb).1
            · rw [List.concat_eq_append, ← List.cons_append, ← List.append_assoc] at e
              have := List.append_inj' e rfl
              exact i3.core.order l1 p l2' this.1 b hb
          · intro X hX hXv
            rw [e4v] at hXv
            have hl := i3.core.linked X hX hXv
            rw [e4l, List.filter_append]
            by_cases e : X = o
            · subst e
              rw [upd_same, hl]
              simp [names]
            · rw [upd_ne _ _ _ _ e, hl]
              have e' : ¬ o = X := fun h => e h.symm
              simp [e']
          · intro X hX
            rw [e4v] at hX
            rw [e4l, upd_ne _ _ _ _ (fun h : X = o => hX (h ▸ hos3))]
            exact i3.core.linkedNone X hX
          · intro v hv'
            rw [e4v] at hv'
            rw [e4f]; exact i3.core.featSome v hv'
          · intro p hp b hb
            rw [e4f]
            rcases List.mem_append.1 hp with h | h
            · exact i3.core.feat p h b hb
            · simp only [List.mem_singleton] at h
              subst h
              rw [hf3, (hch b hb).2]
          · rw [e4f]; exact i3.core.featKeep
          · rw [e4r]; exact i3.core.refKeep
        -- releasing references
        have hfr5 : st'.linked = st4.linked ∧ st'.visited = st4.visited ∧ st'.feature = st4.feature ∧
            st'.refId = st4.refId ∧ ∀ b, st'.refCount b + cnt W aid b = st4.refCount b := by
          by_cases hr : (W aid).referencing = true
          · rw [if_pos hr] at h5
            have := release_frame _ _ _ h5
            simp only [cnt, if_pos hr]
            exact this
          · rw [if_neg hr] at h5
            simp only [Option.some.injEq] at h5
            subst h5
            simp [cnt, hr]
        have hcount4 : ∀ b, st4.refCount b + logCount W log3 b = R.refCount b := by
          intro b
          have e : st4.refCount = st3.refCount := by rw [h4']
          rw [e]; exact i3.count b
        have hlc : ∀ b, logCount W (log3 ++ [(aid, o)]) b = logCount W log3 b + cnt W aid b := by
          intro b; rw [logCount_append]; simp [logCount]
        have hsub4 : ∀ y ∈ names (log3 ++ [(aid, o)]), y ∈ R.keys := by
          intro y hy
          exact hcore4.inK y ((hcore4.vis y).2 (.inl hy))
        have hnd4 : (names (log3 ++ [(aid, o)])).Nodup := (List.nodup_append.1 hcore4.nodup).1
        have v43 : st4.visited = st3.visited := by rw [h4']
        have r43 : st4.refId = st3.refId := by rw [h4']
        have hids : (∀ a ∈ R.keys, (W a).refId = none) → IdInv W R.keys st' (log3 ++ [(aid, o)]) := by
          intro hauto
          have I := i3.ids hauto
          have i43 : st4.ids = st3.ids ∧ st4.reserved = st3.reserved := by rw [h4']; exact ⟨rfl, rfl⟩
          have pool : st'.reserved = [] ∧ st'.ids.Nodup ∧ (∀ y ∈ st'.ids, -255 ≤ y ∧ y ≤ -1) ∧
              (∀ a ∈ st3.visited, ∀ i, st3.refId a = some i → -i ∈ st'.ids → Done W R.keys (log3 ++ [(aid, o)]) a) := by
            by_cases hr : (W aid).referencing = true
            · rw [if_pos hr] at h5
              refine release_ids (total := R.refCount) hK hr hnl3 hnd4 hsub4 hR.count I.assigned ?_ I.pair
                (W aid).refs st4 st' (fun y hy => hy) r43 ?_ ?_ ?_ ?_ ?_ h5
              · intro r hr'
                exact (i3.core.vis r).2 (.inl (hch r hr').1)
              · rw [i43.2]; exact I.noRes
              · rw [i43.1]; exact I.poolNodup
              · rw [i43.1]; exact I.poolRange
              · intro a ha i hi him
                rw [i43.1] at him
                exact (I.free a ha i hi him).append _
              · intro b
                have h1 := hcount4 b
                have h2 := hlc b
                have : cnt W aid b = cntl W (W aid).refs b := by unfold cnt; rw [if_pos hr]
                omega
            · rw [if_neg hr] at h5
              simp only [Option.some.injEq] at h5
              subst h5
              rw [i43.1, i43.2]
              exact ⟨I.noRes, I.poolNodup, I.poolRange, fun a ha i hi him => (I.free a ha i hi him).append _⟩
          have hv5 : st'.visited = st3.visited := hfr5.2.1.trans v43
          have hr5 : st'.refId = st3.refId := hfr5.2.2.2.1.trans r43
          refine ⟨pool.1, pool.2.1, pool.2.2.1, ?_, ?_, ?_, ?_⟩
          · rw [hv5, hr5]; exact I.unassigned
          · rw [hv5, hr5]; exact I.assigned
          · rw [hv5, hr5]; exact pool.2.2.2
          · rw [hv5, hr5]
            intro a ha b hb hab i hia hib
            rcases I.pair a ha b hb hab i hia hib with h | h
            · exact .inl (h.append _)
            · exact .inr (h.append _)
        have hfin : Inv W R sp st' (log3 ++ [(aid, o)]) stk := by
          refine ⟨⟨?_, hcore4.nodup, ?_, ?_, hcore4.order, ?_, ?_, ?_, ?_, ?_, ?_⟩, ?_, hids⟩
          · rw [hfr5.2.1]; exact hcore4.vis
          · rw [hfr5.2.1]; exact hcore4.inK
          · rw [hfr5.2.1]; exact hcore4.own
          · rw [hfr5.2.1, hfr5.1]; exact hcore4.linked
          · rw [hfr5.2.1, hfr5.1]; exact hcore4.linkedNone
          · rw [hfr5.2.1, hfr5.2.2.1]; exact hcore4.featSome
          · rw [hfr5.2.2.1]; exact hcore4.feat
          · rw [hfr5.2.2.1]; exact hcore4.featKeep
          · rw [hfr5.2.2.2.1]; exact hcore4.refKeep
          · intro b
            have h1 := hcount4 b
            have h2 := hlc b
            have h3 := hfr5.2.2.2.2 b
            omega
        have f43 : st4.feature = st3.feature := by rw [h4']
        refine ⟨L1 ++ L2 ++ [(aid, o)], ?_, ?_, ?_, ?_, ?_, ?_⟩
        · have : log ++ (L1 ++ L2 ++ [(aid, o)]) = log3 ++ [(aid, o)] := by rw [elog3]; simp
          rw [this]; exact hfin
        · simp [names]
        · rw [hfr5.2.2.1, f43]; exact hf3
        · intro v hv'
          have hne : v ≠ aid := fun e => hv (e ▸ hv')
          have hv1 : v ∈ s1.visited := by rw [s1v]; exact List.mem_cons_of_mem _ hv'
          have e2 := m2 v hv1
          have e3 := m3 v e2.2.2
          rw [hfr5.2.2.1, f43, hfr5.2.2.2.1, r43, e3.1, e2.1, e3.2.1, e2.2.1, s1f, upd_ne _ _ _ _ hne, hrid1 v hne]
          exact ⟨rfl, rfl⟩
        · intro p hp
          simp only [List.mem_append, List.mem_singleton] at hp
          rcases hp with (h | h) | h
          · exact n2 p h
          · exact n3 p h
          · subst h; exact .refl
        · intro p s hl hnd hnv
          cases hl with
          | leaf e1 e2 =>
            rw [k2 e1, k3 e2]
            exact ⟨o, [], rfl⟩
          | @step _ x _ t p e hl =>
            have hnd' := List.nodup_cons.1 hnd
            have hnv1 : ∀ y ∈ x :: p, y ∉ s1.visited := by
              intro y hy hm
              rw [s1v] at hm
              rcases List.mem_cons.1 hm with rfl | hm
              · exact hnd'.1 hy
              · exact hnv y (List.mem_cons_of_mem _ hy) hm
            cases eo : R.ordered aid with
            | nil =>
              rw [eo, List.nil_append] at e
              rw [eo] at h2
              simp only [List.foldlM_nil, Option.pure_def, Option.some.injEq] at h2
              subst h2
              obtain ⟨o', L', eL⟩ := l3 x t p s e hl hnd'.2 hnv1
              exact ⟨o', L' ++ [(aid, o)], by rw [k2 eo, eL]; rfl⟩
            | cons x' t' =>
              rw [eo, List.cons_append, List.cons.injEq] at e
              obtain ⟨rfl, -⟩ := e
              obtain ⟨o', L', eL⟩ := l2 x' t' p s eo hl hnd'.2 hnv1
              exact ⟨o', L' ++ L2 ++ [(aid, o)], by rw [eL]; rfl⟩

end Grf
