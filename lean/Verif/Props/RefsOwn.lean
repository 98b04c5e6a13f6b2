import Verif.Proofs.Refs5
import Verif.Props.RefsIds
/-!
# C90: a layout added for the next action is the one that action selects
-/
namespace Grf

theorem Needs.leaf {W : World} {L x : Nat} (h : (W L).referencing = false) (hn : Needs W L x) : x = L := by
  induction hn with
  | refl => rfl
  | step _ hr ih => subst ih; rw [hr.1] at h; simp at h

/-- Where the traversal goes first from `M`. -/
theorem AddedFor.lead {W : World} {sp : List Nat} {R : RState} {limit : Nat} (hac : Acyclic W) (hrun : resolvePhase W limit sp = some R)
    {L M : Nat} (h : AddedFor W sp L M) : ∃ p, Lead R M p L ∧ (M :: p).Nodup ∧
      ∀ y ∈ M :: p, ∀ q ∈ sp, Unreferenced W sp q → Needs W q y → q = M ∨ Before sp M q := by
  obtain ⟨pre, mid, post, esp, hmid, hpre, huse⟩ := h.at_
  have hM : IsAction W M := .inl h.referencing
  have hL : IsAction W L := .inr h.target
  obtain ⟨st, st1, k, hok, hres, hempty, hend⟩ := phase_at hac hrun (by rw [esp]) hM
  have hR := resolvePhase_okG hac hrun
  have hLk : L ∈ st.keys := hok.pres L (by simp) hL
  have hLM : L ≠ M := by intro e; have a := h.leaf; rw [e, h.referencing] at a; simp at a
  have hMsp : M ∈ sp := h.user.1
  have hMnew : ∀ p ∈ pre ++ L :: mid, ¬ Needs W p M := by
    intro p hp hn
    have hpsp : p ∈ sp := by rw [esp]; exact List.mem_append_left _ hp
    cases hn with
    | refl =>
      obtain ⟨a, b, e⟩ := List.append_of_mem hp
      exact resolvePhase_nodup sp 0 _ _ hrun a M (b ++ M :: post) (by rw [esp, e]; simp) hM (by simp)
    | step h1 h2 => exact h.user.2.2.1 p hpsp _ h1 h2
  have hMe := hempty M hMnew
  have hks := resolve_keys W limit M _ st st1 hres
  have hMf := hend M hks.2.2 (.inl rfl)
  have leafR : R.ordered L = [] ∧ R.unordered L = [] := by
    have : ∀ b, ¬ Child R L b := by
      intro b hb
      have := (hR.ok.sound L b hb).1
      rw [h.leaf] at this; simp at this
    constructor
    · exact List.eq_nil_iff_forall_not_mem.2 (fun b hb => this b (.inl hb))
    · exact List.eq_nil_iff_forall_not_mem.2 (fun b hb => this b (.inr hb))
  have hLl : Lead R L [] L := .leaf leafR.1 leafR.2
  -- unreferenced actions that need something first met at `M`
  have late : ∀ y, (∀ p ∈ pre, ¬ Needs W p y) → (y = M ∨ y = L ∨ (∀ p ∈ pre ++ L :: mid, ¬ Needs W p y)) → ∀ q ∈ sp, Unreferenced W sp q →
      (∃ c, Needs W M c ∧ Refers W c L) → Needs W q y → q = M ∨ Before sp M q := by
    intro y h1 h2 q hq hqu hc hn
    by_cases e : q = M
    · exact .inl e
    · right
      have hqa : IsAction W q := hqu.2.1
      have hqL : q ≠ L := by
        rintro rfl
        obtain ⟨c, hc1, hc2⟩ := hc
        exact hqu.2.2.1 M hMsp c hc1 hc2
      refine ⟨pre ++ L :: mid ++ [M], post, by rw [esp]; simp, by simp, ?_⟩
      intro hm
      simp only [List.mem_append, List.mem_cons, List.not_mem_nil, or_false] at hm
      rcases hm with (hm | hm | hm) | hm
      · exact h1 q hm hn
      · exact hqL hm
      · exact hmid q hm hqa
      · exact e hm
  cases limit with
  | zero => simp [resolve] at hres
  | succ limit =>
  simp only [resolve, if_pos h.referencing, Option.bind_eq_some_iff] at hres
  obtain ⟨sc, hscan, hrec⟩ := hres
  have erec : st1.ordered = sc.ordered ∧ st1.unordered = sc.unordered := by rw [recordPos_some hrec]; exact ⟨rfl, rfl⟩
  cases huse with
  | direct rest er =>
    have hML : Refers W M L := ⟨h.referencing, by rw [er]; simp, h.target⟩
    refine ⟨[L], ?_, by simp [hLM.symm], ?_⟩
    · rw [er, List.foldlM_cons, Option.bind_eq_bind, Option.bind_eq_some_iff] at hscan
      obtain ⟨sa, ha, hscan⟩ := hscan
      have hlk : ¬ (st.actions.lookup L).isNone = true := fun hn => (lookup_isNone _ _).1 hn hLk
      simp only [resolveArg, h.target, if_neg hLM, hlk, hMe.1] at ha
      simp at ha
      obtain ⟨⟨t, et⟩, -⟩ := scan_own W hac limit M h.referencing rest sa sc (by intro y hy; rw [er]; exact List.mem_cons_of_mem _ hy) hscan
      have ea : sa.ordered M = [L] := by rw [← ha]; exact upd_same _ _ _
      have e1 : R.ordered M = L :: t := by rw [hMf.1, erec.1, et, ea]; rfl
      exact .step (t := t ++ R.unordered M) (by rw [e1]; rfl) hLl
    · intro y hy
      simp only [List.mem_cons, List.not_mem_nil, or_false] at hy
      rcases hy with rfl | rfl
      · exact fun q hq hqu => late y (fun p hp => hMnew p (by simp [hp])) (.inl rfl) q hq hqu ⟨_, .refl, hML⟩
      · exact fun q hq hqu => late y hpre (.inr (.inl rfl)) q hq hqu ⟨M, .refl, hML⟩
  | default P rest hs er hfm hPsp hPr hPg eP hfh =>
    have hMP : Refers W M P := ⟨h.referencing, by rw [er]; simp, hPr⟩
    have hPL : Refers W P L := ⟨hPg, by rw [eP]; simp, h.target⟩
    have hPM : P ≠ M := fun e => hPsp (e ▸ hMsp)
    have hLP : L ≠ P := by rintro rfl; rw [h.leaf] at hPg; simp at hPg
    have hPnew := (hfm [] P rest er hPr).1
    have keyOld : ∀ x, x ∈ st.keys → ∃ p ∈ pre ++ L :: mid, Needs W p x := by
      intro x hx
      obtain ⟨p, hp, _, hn⟩ := hok.member x hx
      exact ⟨p, hp, hn⟩
    have hPk : P ∉ st.keys := by
      intro hm
      obtain ⟨p, hp, hn⟩ := keyOld P hm
      exact hPnew p hp hn
    have hPe := hempty P hPnew
    rw [er, List.foldlM_cons, Option.bind_eq_bind, Option.bind_eq_some_iff] at hscan
    obtain ⟨sb, ha, hscan⟩ := hscan
    have hlk : (st.actions.lookup P).isNone = true := (lookup_isNone _ _).2 hPk
    simp only [resolveArg, hPr, if_neg hPM, hlk] at ha
    simp only [Bool.true_eq_false, ↓reduceIte] at ha
    obtain ⟨sa, esa⟩ : ∃ sa : RState, sa = { st with refCount := upd st.refCount P (st.refCount P + 1), actions := dictSet st.actions P none, unordered := upd st.unordered M (st.unordered M ++ [P]) } := ⟨_, rfl⟩
    rw [← esa] at ha
    have ka : ∀ x, x ∈ sa.keys ↔ x ∈ st.keys ∨ x = P := by
      intro x
      rw [esa]
      show x ∈ (dictSet st.actions P (none : Option Nat)).map (·.1) ↔ _
      rw [keys_dictSet, if_neg (show P ∉ st.actions.map (·.1) from hPk)]
      simp [RState.keys]
    have oa : sa.ordered = st.ordered := by rw [esa]
    have ua : sa.unordered M = [P] := by rw [esa]; show upd st.unordered M _ M = _; rw [upd_same, hMe.2]; rfl
    have kb := resolve_keys W limit P none sa sb ha
    have fM := resolve_frozen W M limit P none sa sb ha hPM.symm (.inr (hac M P hMP))
    -- the rest of the references of `M`
    obtain ⟨-, ⟨t, et⟩, -, o4, o5⟩ := scan_own W hac limit M h.referencing rest sb sc (by intro y hy; rw [er]; exact List.mem_cons_of_mem _ hy) hscan
    have oM : sc.ordered M = sb.ordered M := by
      refine o5 (fun l1 r l2 e hr => ?_)
      have := hfm (.obj P :: l1) r l2 (by rw [er, e]; rfl) hr
      refine ⟨fun hm => ?_, fun q hq => this.2 q (List.mem_cons_of_mem _ hq)⟩
      rcases kb.1 r hm with h1 | h1
      · rcases (ka r).1 h1 with h1 | h1
        · obtain ⟨p, hp, hn⟩ := keyOld r h1
          exact this.1 p hp hn
        · exact this.2 P List.mem_cons_self hPr (h1 ▸ .refl)
      · exact this.2 P List.mem_cons_self hPr h1
    have eM : R.ordered M ++ R.unordered M = P :: t := by
      rw [hMf.1, hMf.2, erec.1, erec.2, oM, fM.1, oa, hMe.1, et, fM.2.1, ua]; rfl
    -- the references of `P`
    cases limit with
    | zero => simp [resolve] at ha
    | succ limit =>
    simp only [resolve, if_pos hPg, Option.bind_eq_some_iff] at ha
    obtain ⟨sd, hd, hrd⟩ := ha
    rw [eP, List.foldlM_append, Option.bind_eq_bind, Option.bind_eq_some_iff] at hd
    obtain ⟨se, he, hd⟩ := hd
    obtain ⟨-, -, q3, -, q5⟩ := scan_own W hac limit P hPg hs sa se (by intro y hy; rw [eP]; exact List.mem_append_left _ hy) he
    have oP : se.ordered P = [] := by
      rw [q5, oa, hPe.1]
      intro l1 r l2 e hr
      have := hfh l1 r l2 e hr
      refine ⟨fun hm => ?_, this.2⟩
      rcases (ka r).1 hm with h1 | h1
      · obtain ⟨p, hp, hn⟩ := keyOld r h1
        exact this.1 p hp hn
      · subst h1
        exact hac r r ⟨hPg, by rw [eP, e]; simp, hPr⟩ .refl
    have hLe : L ∈ se.keys := q3 L ((ka L).2 (.inl hLk))
    have hll : ¬ (se.actions.lookup L).isNone = true := fun hn => (lookup_isNone _ _).1 hn hLe
    rw [List.foldlM_cons, Option.bind_eq_bind, Option.bind_eq_some_iff] at hd
    obtain ⟨sf, hf, hd⟩ := hd
    simp only [List.foldlM_nil, Option.pure_def, Option.some.injEq] at hd
    subst hd
    simp only [resolveArg, h.target, if_neg hLP, hll, oP] at hf
    simp at hf
    have eP2 : sb.ordered P = [L] := by
      rw [recordPos_some hrd]
      show sf.ordered P = _
      rw [← hf]; exact upd_same _ _ _
    have hPc : P ∈ st1.keys := by
      have r := resolve_specG W hac (limit + 1 + 1) M (some k) st st1 hok.ok (by
        show resolve W (limit + 1 + 1) M (some k) st = some st1
        rw [resolve, if_pos h.referencing, er]
        rw [List.foldlM_cons]
        simp only [resolveArg, hPr, if_neg hPM, hlk]
        simp only [Bool.true_eq_false, ↓reduceIte]
        rw [← esa]
        have : resolve W (limit + 1) P none sa = some sb := by
          rw [resolve, if_pos hPg, eP, List.foldlM_append, he]
          show Option.bind (List.foldlM _ se [RefArg.obj L]) _ = _
          rw [List.foldlM_cons]
          simp only [resolveArg, h.target, if_neg hLP, hll, oP]
          simp [hf, hrd]
        rw [this]
        show Option.bind (List.foldlM _ sb rest) _ = _
        rw [hscan]
        exact hrec)
      obtain ⟨N, r⟩ := r
      exact r.ok.closed M P (r.done M (.inl rfl) P hMP)
    have hPf := hend P hPc (.inr hPsp)
    have e2 : R.ordered P = [L] := by
      rw [hPf.1, erec.1, o4 P kb.2.2 hPM, eP2]
    refine ⟨[P, L], .step eM (.step (t := R.unordered P) (by rw [e2]; rfl) hLl), by simp [hPM.symm, hLM.symm, hLP.symm], ?_⟩
    intro y hy
    simp only [List.mem_cons, List.not_mem_nil, or_false] at hy
    have hc : ∃ c, Needs W M c ∧ Refers W c L := ⟨P, hMP.needs, hPL⟩
    rcases hy with rfl | rfl | rfl
    · exact fun q hq hqu => late y (fun p hp => hMnew p (by simp [hp])) (.inl rfl) q hq hqu hc
    · exact fun q hq hqu => late y (fun p hp => hPnew p (by simp [hp])) (.inr (.inr hPnew)) q hq hqu hc
    · exact fun q hq hqu => late y hpre (.inr (.inl rfl)) q hq hqu hc


section
variable {W : World} {sp : List Nat} {R : RState} {res : Resolved} {log : List (Nat × Nat)}
  {segs : List (Nat × List (Nat × Nat))} {D : DState}

theorem before_pos {l : List Nat} {a b : Nat} {l1 l2 l3 : List Nat} (e : l = l1 ++ a :: l2 ++ b :: l3) (hb : b ∉ l1 ++ a :: l2) :
    Before l a b := ⟨l1 ++ a :: l2, b :: l3, e, by simp, hb⟩

/-- An action added for `M` stands immediately before it: any other action before `M` is before it too. -/
theorem AddedFor.near (F : FinalG W sp R res log segs D) {L M : Nat} (h : AddedFor W sp L M) :
    Before sp L M ∧ ∀ z, IsAction W z → Before sp z M → z ≠ L → Before sp z L := by
  obtain ⟨pre, mid, post, e, hmid, -, -⟩ := h.at_
  have hM : IsAction W M := .inl h.referencing
  have hL : IsAction W L := .inr h.target
  have hMn : M ∉ pre ++ L :: mid := by
    intro hm
    obtain ⟨a, b, e2⟩ := List.append_of_mem hm
    exact F.uniq a M (b ++ M :: post) (by rw [e, e2]; simp) hM (by simp)
  have hLn : L ∉ pre := by
    intro hm
    obtain ⟨a, b, e2⟩ := List.append_of_mem hm
    exact F.uniq a L (b ++ L :: (mid ++ M :: post)) (by rw [e, e2]; simp) hL (by simp)
  refine ⟨before_pos e hMn, ?_⟩
  intro z hz hb hzL
  rw [e] at hb
  rcases List.mem_append.1 hb.split with hm | hm
  · exact ⟨pre, L :: mid ++ M :: post, by rw [e]; simp, hm, hLn⟩
  · rcases List.mem_cons.1 hm with hm | hm
    · exact absurd hm hzL
    · exact absurd hz (hmid z hm)

theorem AddedFor.refers {L M : Nat} (h : AddedFor W sp L M) : ∃ c, Needs W M c ∧ Refers W c L := by
  obtain ⟨_, _, _, _, _, _, hu⟩ := h.at_
  cases hu with
  | direct rest er => exact ⟨M, .refl, h.referencing, by rw [er]; simp, h.target⟩
  | default P rest hs er _ _ hPr hPg eP _ =>
    exact ⟨P, Refers.needs ⟨h.referencing, by rw [er]; simp, hPr⟩, hPg, by rw [eP]; simp, h.target⟩

theorem AddedFine.kept (h : AddedFine W sp) {s : Nat} (hs : s ∈ sp) (ha : IsAction W s) : Kept W sp s := by
  rcases h s hs ha with h | ⟨M, h⟩
  · exact ⟨s, h, .refl⟩
  · obtain ⟨c, h1, h2⟩ := h.refers
    exact ⟨M, h.user, .step h1 h2⟩

/-- The traversal starting at `M` places first what was added for it. -/
theorem FinalG.leads (F : FinalG W sp R res log segs D) (hac : Acyclic W) {L M : Nat} (h : AddedFor W sp L M) :
    ∃ s ∈ segs, s.1 = M ∧ ∃ L', s.2 = (L, L) :: L' := by
  obtain ⟨limit, hrun⟩ := F.run
  obtain ⟨p, hl, hnd, hlate⟩ := h.lead hac hrun
  have hr : M ∈ roots R := (rootsG F.phase M).2 h.user
  rw [← F.segRoots] at hr
  obtain ⟨s, hs, e⟩ := List.mem_map.1 hr
  obtain ⟨s1, s2, es⟩ := List.append_of_mem hs
  obtain ⟨o, L', eL⟩ := F.segLead s1 s s2 es p L (e.symm ▸ hl) (e.symm ▸ hnd) (by
    intro y hy hm
    rw [e] at hy
    obtain ⟨x, hx, ex⟩ := List.mem_map.1 hm
    obtain ⟨t, ht, hxt⟩ := List.mem_flatMap.1 hx
    have hn := (F.segNeeds.needs t (by rw [es]; simp [ht]) x hxt).1
    rw [ex] at hn
    have htr := (rootsG F.phase t.1).1 (by rw [← F.segRoots]; exact List.mem_map.2 ⟨t, by rw [es]; simp [ht], rfl⟩)
    obtain ⟨a1, a2, ea⟩ := List.append_of_mem ht
    have hb : Before sp t.1 s.1 := F.rootsBefore (d1 := a1.map (·.1)) (d2 := (a2 ++ s :: s2).map (·.1)) (by rw [← F.segRoots, es, ea]; simp) (by simp)
    rw [e] at hb
    rcases hlate y hy t.1 htr.1 htr hn with h1 | h1
    · rw [h1] at hb; exact hb.asymm hb
    · exact hb.asymm h1)
  refine ⟨s, hs, e, L', ?_⟩
  have hm : (L, o) ∈ log := by rw [F.segsOf, List.mem_flatMap]; exact ⟨s, hs, by rw [eL]; simp⟩
  have : L ∈ sp := by
    obtain ⟨pre, mid, post, e, -⟩ := h.at_
    rw [e]; simp
  have e2 : o = L := (F.inv.core.own _ hm).2.2.2 this
  rw [eL, e2]

theorem before_flat {segs s1 s2 : List (Nat × List (Nat × Nat))} {s t : Nat × List (Nat × Nat)} (es : segs = s1 ++ s :: s2)
    (ht : t ∈ s1) {x y P Q : Nat} (hx : (x, P) ∈ s.2) (hy : (y, Q) ∈ t.2) (hnd : (names (segs.flatMap (·.2))).Nodup) :
    Before (names (segs.flatMap (·.2))) y x := by
  refine ⟨names (s1.flatMap (·.2)), names (s.2 ++ s2.flatMap (·.2)), ?_, ?_, ?_⟩
  · rw [es, ← names_append]; simp
  · exact List.mem_map.2 ⟨_, List.mem_flatMap.2 ⟨t, ht, hy⟩, rfl⟩
  · intro hm
    have e : segs.flatMap (·.2) = s1.flatMap (·.2) ++ (s.2 ++ s2.flatMap (·.2)) := by rw [es]; simp
    rw [e, names_append, List.nodup_append] at hnd
    exact hnd.2.2 x hm x (List.mem_map.2 ⟨_, List.mem_append_left _ hx, rfl⟩) rfl

theorem FinalG.ndLog (F : FinalG W sp R res log segs D) : (names log).Nodup := (List.nodup_append.1 F.inv.core.nodup).1

/-- The order of the history is that of the output. -/
theorem FinalG.ownOrder (F : FinalG W sp R res log segs D) (hac : Acyclic W) (hro : AddedFine W sp) {x y : Nat}
    (hx : Kept W sp x) (hy : Kept W sp y) (hb : Before (names log) x y) : Before res.out x y := by
  have same : ∀ s ∈ segs, ∀ t ∈ segs, ∀ a o o', (a, o) ∈ s.2 → (a, o') ∈ t.2 → s = t := by
    intro s hs t ht a o o' h1 h2
    obtain ⟨s1, s2, es⟩ := List.append_of_mem hs
    have hnd := F.ndLog
    rw [F.segsOf] at hnd
    rw [es, List.mem_append, List.mem_cons] at ht
    rcases ht with h | h | h
    · exact absurd (before_flat es h h1 h2 hnd) (fun h => h.asymm h)
    · exact h.symm
    · obtain ⟨t1, t2, et⟩ := List.append_of_mem h
      exact absurd (before_flat (s1 := s1 ++ s :: t1) (s2 := t2) (s := t) (t := s) (by rw [es, et]; simp) (by simp) h2 h1 hnd) (fun h => h.asymm h)
  -- the owner is the root of the segment, or was added for it and is placed first
  have hseg : ∀ s ∈ segs, ∀ p ∈ s.2, p.2 = s.1 ∨ (AddedFor W sp p.2 s.1 ∧ ∃ L', s.2 = (p.2, p.2) :: L') := by
    intro s hs p hp
    have hn := (F.segNeeds.needs s hs p hp).2
    have hpl : p ∈ log := by rw [F.segsOf, List.mem_flatMap]; exact ⟨s, hs, hp⟩
    have hpsp := (F.inv.core.own p hpl).1
    have hsr := (rootsG F.phase s.1).1 (by rw [← F.segRoots]; exact List.mem_map.2 ⟨s, hs, rfl⟩)
    rcases hro p.2 hpsp (F.ownerAction (a := p.1) hpl) with h | ⟨M, h⟩
    · left
      have gen : ∀ x, Needs W s.1 x → Unreferenced W sp x → x = s.1 := by
        intro x hx hxu
        cases hx with
        | refl => rfl
        | step h1 h2 => exact absurd h2 (hxu.2.2.1 s.1 hsr.1 _ h1)
      exact gen _ hn h
    · right
      obtain ⟨t, ht, et, L', eL⟩ := F.leads hac h
      have hpp : p.1 = p.2 := Needs.leaf h.leaf ((F.inv.core.own p hpl).2.1.needs)
      have := same s hs t ht p.2 p.2 p.2 (by rw [show (p.2, p.2) = p from Prod.ext hpp.symm rfl]; exact hp) (by rw [eL]; simp)
      subst this
      exact ⟨et ▸ h, L', eL⟩
  obtain ⟨P, hP⟩ := F.ownerOf hx
  obtain ⟨Q, hQ⟩ := F.ownerOf hy
  refine F.outBefore hP hQ ?_
  have hPl := hP
  have hQl := hQ
  rw [F.segsOf, List.mem_flatMap] at hPl hQl
  obtain ⟨s, hs, hPs⟩ := hPl
  obtain ⟨t, ht, hQt⟩ := hQl
  have eP := hseg s hs _ hPs
  have eQ := hseg t ht _ hQt
  simp only [] at eP eQ
  obtain ⟨s1, s2, es⟩ := List.append_of_mem hs
  have hnd := F.ndLog
  rw [F.segsOf] at hnd
  have ht' := ht
  rw [es, List.mem_append, List.mem_cons] at ht'
  rcases ht' with h | h | h
  · exact absurd (before_flat es h hPs hQt hnd) (fun h => by rw [← F.segsOf] at h; exact hb.asymm h)
  · subst h
    rcases eP with eP | ⟨aP, LP, eP⟩
    · rcases eQ with eQ | ⟨aQ, LQ, eQ⟩
      · exact .inl ⟨eP.trans eQ.symm, hb⟩
      · -- `y` is placed first, so `x` is not before it
        exfalso
        have hQy : y = Q := by
          have hpl : (y, Q) ∈ log := hQ
          exact Needs.leaf aQ.leaf ((F.inv.core.own _ hpl).2.1.needs)
        have hQs : (Q, Q) ∈ t.2 := by rw [eQ]; simp
        rw [hQy] at hb
        have hxQ : x ≠ Q := by rintro rfl; exact hb.asymm hb
        have : Before (names (segs.flatMap (·.2))) Q x := by
          refine ⟨names (s1.flatMap (·.2) ++ [(Q, Q)]), names (LQ ++ s2.flatMap (·.2)), ?_, by simp [names], ?_⟩
          · rw [es, ← names_append]; simp [eQ]
          · intro hm
            rw [names_append] at hm
            rcases List.mem_append.1 hm with hm | hm
            · have e : segs.flatMap (·.2) = s1.flatMap (·.2) ++ (t.2 ++ s2.flatMap (·.2)) := by rw [es]; simp
              rw [e, names_append, List.nodup_append] at hnd
              exact hnd.2.2 x hm x (List.mem_map.2 ⟨_, List.mem_append_left _ hPs, rfl⟩) rfl
            · simp [names] at hm; exact hxQ hm
        rw [← F.segsOf] at this
        exact hb.asymm this
    · rcases eQ with eQ | ⟨aQ, LQ, eQ⟩
      · right; rw [eQ]; exact (aP.near F).1
      · rw [eP] at eQ
        simp only [List.cons.injEq, Prod.mk.injEq] at eQ
        exact .inl ⟨eQ.1.1, hb⟩
  · right
    obtain ⟨t1, t2, et⟩ := List.append_of_mem h
    have hst : Before sp s.1 t.1 := F.rootsBefore (d1 := s1.map (·.1)) (d2 := (t1 ++ t :: t2).map (·.1)) (by rw [← F.segRoots, es, et]; simp) (by simp)
    have hsr := (rootsG F.phase s.1).1 (by rw [← F.segRoots]; exact List.mem_map.2 ⟨s, hs, rfl⟩)
    have hsQ : Before sp s.1 Q := by
      rcases eQ with eQ | ⟨aQ, -, -⟩
      · rw [eQ]; exact hst
      · refine (aQ.near F).2 s.1 hsr.2.1 hst ?_
        rintro rfl
        obtain ⟨c, h1, h2⟩ := aQ.refers
        exact hsr.2.2.1 _ aQ.user.1 c h1 h2
    rcases eP with eP | ⟨aP, -, -⟩
    · rw [eP]; exact hsQ
    · exact (aP.near F).1.trans hsQ

end

/-- **C90** Every reference in the file selects its target, also when the user adds layouts himself, each for the action he adds next
(as the vehicle classes do with the purchase layout). -/
theorem references_select (W : World) (limit : Nat) (sprites : List Nat) (res : Resolved) (hac : Acyclic W) (hadd : AddedFine W sprites)
    (hauto : ∀ s ∈ sprites, ∀ a, Needs W s a → (W a).refId = none) (h : resolveRefs W limit sprites = some res) (c a : Nat)
    (hc : c ∈ res.out) (hr : Refers W c a) : ∃ i, 1 ≤ i ∧ i ≤ 255 ∧ Selects W res c i a := by
  obtain ⟨he, _, _⟩ := emitted_exactly W limit sprites res hac h
  have known : ∀ b ∈ res.out, IsAction W b → Kept W sprites b ∧ res.out.count b = 1 := by
    intro b hb ha
    have hk : Kept W sprites b := by
      by_cases hk : Kept W sprites b
      · exact hk
      · exfalso
        have h0 := (he b ha).2 (by
          rintro (h | ⟨hs, _⟩)
          · exact hk h
          · exact hk (hadd.kept hs ha))
        rw [List.count_eq_zero] at h0
        exact h0 hb
    exact ⟨hk, (he b ha).1 (.inl hk)⟩
  obtain ⟨R, log, segs, D, F⟩ := finalG hac h
  have I := F.inv.ids (F.auto hauto)
  have hca : IsAction W c := .inl hr.1
  have hkc := known c hc hca
  have hka := kept_needs hkc.1 hr.needs
  obtain ⟨o, ho⟩ := F.ownerOf hkc.1
  have hac' : Before res.out a c := F.ownOrder hac hadd hka hkc.1 (F.logBefore ho hr)
  obtain ⟨l, l3, e⟩ := List.append_of_mem hc
  have hal := e ▸ hac'
  obtain ⟨l1, l2, e2⟩ := List.append_of_mem hal.split
  obtain ⟨i, hi, h1, h2⟩ := I.assigned a (F.seen hka) hr.2.2
  refine ⟨i, h1, h2, l1, l2, l3, by rw [e, e2], by rw [F.ids]; exact hi, ?_⟩
  intro b hb hrb hib
  have hbo : b ∈ res.out := by rw [e, e2]; simp [hb]
  have hkb := known b hbo (.inr hrb)
  have hab : Before res.out a b := by
    refine ⟨l1 ++ [a], l2 ++ c :: l3, by rw [e, e2]; simp, by simp, ?_⟩
    intro hm
    have h1 := hkb.2
    rw [show res.out = (l1 ++ [a]) ++ (l2 ++ c :: l3) by rw [e, e2]; simp, List.count_append] at h1
    have := List.count_pos_iff.2 hm
    have : 0 < (l2 ++ c :: l3).count b := List.count_pos_iff.2 (by simp [hb])
    omega
  have hbc : Before res.out b c := by
    refine ⟨l, c :: l3, e, by rw [e2]; simp [hb], ?_⟩
    intro hm
    have h1 := hkc.2
    rw [e, List.count_append, List.count_cons_self] at h1
    have := List.count_pos_iff.2 hm
    omega
  have hne : a ≠ b := by rintro rfl; exact hab.asymm hab
  rw [F.ids] at hib
  rcases I.pair a (F.seen hka) b (F.seen hkb.1) hne i hi hib with h3 | h3
  · exact (F.ownOrder hac hadd hkc.1 hkb.1 (h3.2 c (F.key hkc.1) hr)).asymm hbc
  · obtain ⟨d, hd, hdb⟩ := h3.1
    have hda := h3.2 d hd hdb
    have hdl : d ∈ names log := by obtain ⟨l1, l2, e, hm, -⟩ := hda; rw [e]; simp [hm]
    obtain ⟨o, ho⟩ : ∃ o, (d, o) ∈ log := by
      obtain ⟨p, hp, e⟩ := List.mem_map.1 hdl
      exact ⟨p.2, by rw [← e]; exact hp⟩
    exact hab.asymm (F.ownOrder hac hadd hkb.1 hka ((F.logBefore ho hdb).trans hda))

end Grf
