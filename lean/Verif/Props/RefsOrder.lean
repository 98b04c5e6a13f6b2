import Verif.Props.RefsExact
/-!
# C58: targets are emitted before the actions that refer to them
-/
namespace Grf

section
variable {W : World} {sp : List Nat} {R : RState} {res : Resolved} {log : List (Nat × Nat)}
  {segs : List (Nat × List (Nat × Nat))} {D : DState}

theorem FinalG.memBlk (F : FinalG W sp R res log segs D) {a o s : Nat} (h : (a, o) ∈ log) (hs : s ∈ sp) (hm : a ∈ blk W log s) :
    s = o := by
  rw [F.mem_blk a s hs] at hm
  split at hm
  · exact owner_unique F.nodupLog hm h
  · subst hm
    exact ((F.inv.core.own _ h).2.2.2 hs).symm

theorem FinalG.ownerAction (F : FinalG W sp R res log segs D) {a o : Nat} (h : (a, o) ∈ log) : IsAction W o := by
  have h3 := (F.inv.core.own _ h).2.2.1
  exact F.action (by simpa using (F.inv.core.vis o).1 h3)

theorem FinalG.ownerKept (F : FinalG W sp R res log segs D) {a o : Nat} (h : (a, o) ∈ log) : Kept W sp o := by
  have h3 := (F.inv.core.own _ h).2.2.1
  exact (F.all o).1 (by simpa using (F.inv.core.vis o).1 h3)

theorem FinalG.inBlk (F : FinalG W sp R res log segs D) {a o : Nat} (h : (a, o) ∈ log) : a ∈ blk W log o ∧ o ∈ sp := by
  obtain ⟨h1, h2, _, _⟩ := F.inv.core.own _ h
  simp only at h1 h2
  refine ⟨?_, h1⟩
  rw [F.mem_blk a o h1]
  split
  · exact h
  · rcases within_referencing h2 with e | hr
    · exact e
    · contradiction

/-- Order in the output from order of owners and order in the history. -/
theorem FinalG.outBefore (F : FinalG W sp R res log segs D) {x y P Q : Nat} (hx : (x, P) ∈ log) (hy : (y, Q) ∈ log)
    (h : (P = Q ∧ Before (names log) x y) ∨ Before sp P Q) : Before res.out x y := by
  rw [F.outEq]
  rcases h with ⟨rfl, h⟩ | ⟨l1, l2, e, h1, h2⟩
  · have hP := (F.inBlk hx).2
    obtain ⟨pre, post, e⟩ := List.append_of_mem hP
    have hu := F.uniqAction e (F.ownerAction hx)
    have hb : Before (blk W log P) x y := by
      obtain ⟨l1, l2, el, h1, h2⟩ := h
      by_cases hr : (W P).referencing = true
      · unfold blk
        rw [if_pos hr]
        have e1 : names (log.take l1.length) = l1 := by
          unfold names at *
          rw [List.map_take, el]; simp
        have es : log = log.take l1.length ++ log.drop l1.length := (List.take_append_drop _ _).symm
        refine ⟨names ((log.take l1.length).filter (fun p => p.2 = P)),
          names ((log.drop l1.length).filter (fun p => p.2 = P)), ?_, ?_, ?_⟩
        · rw [← names_append, ← List.filter_append, ← es]
        · rw [mem_names_filter]
          rw [← e1] at h1
          obtain ⟨p, hp, ep⟩ := List.mem_map.1 h1
          have hpl : p ∈ log := List.mem_of_mem_take hp
          have : p.2 = P := owner_unique F.nodupLog (a := x) (by rw [← ep]; exact hpl) hx
          rw [← this, ← ep]
          exact hp
        · intro hm
          rw [mem_names_filter] at hm
          apply h2
          rw [← e1]
          exact List.mem_map.2 ⟨_, hm, rfl⟩
      · exfalso
        have ex : x = P := (within_referencing (F.inv.core.own _ hx).2.1).resolve_right hr
        have ey : y = P := (within_referencing (F.inv.core.own _ hy).2.1).resolve_right hr
        rw [ex] at h1
        rw [ey] at h2
        exact h2 h1
    obtain ⟨b1, b2, eb, hb1, hb2⟩ := hb
    refine ⟨pre.flatMap (blk W log) ++ b1, b2 ++ post.flatMap (blk W log), ?_, ?_, ?_⟩
    · rw [e]; simp [eb]
    · exact List.mem_append_right _ hb1
    · intro hm
      rcases List.mem_append.1 hm with h | h
      · rw [List.mem_flatMap] at h
        obtain ⟨s, hs, hs2⟩ := h
        exact hu.1 (F.memBlk hy (by rw [e]; simp [hs]) hs2 ▸ hs)
      · exact hb2 h
  · refine ⟨l1.flatMap (blk W log), l2.flatMap (blk W log), by rw [e]; simp, ?_, ?_⟩
    · rw [List.mem_flatMap]; exact ⟨P, h1, (F.inBlk hx).1⟩
    · intro hm
      rw [List.mem_flatMap] at hm
      obtain ⟨s, hs, hs2⟩ := hm
      exact h2 (F.memBlk hy (by rw [e]; simp [hs]) hs2 ▸ hs)

theorem FinalG.ownerOf (F : FinalG W sp R res log segs D) {a : Nat} (h : Kept W sp a) : ∃ o, (a, o) ∈ log := by
  obtain ⟨p, hp, e⟩ := List.mem_map.1 ((F.all a).2 h)
  exact ⟨p.2, by rw [← e]; exact hp⟩

/-- Targets come first in the history. -/
theorem FinalG.logBefore (F : FinalG W sp R res log segs D) {a b P : Nat} (hP : (a, P) ∈ log) (hr : Refers W a b) :
    Before (names log) b a := by
  obtain ⟨l1, l2, el⟩ := List.append_of_mem hP
  refine ⟨names l1, names ((a, P) :: l2), by rw [el, names_append], F.inv.core.order l1 _ l2 el b hr, ?_⟩
  intro hm
  have := F.nodupLog
  rw [el, names_append, List.nodup_append] at this
  exact this.2.2 a hm a (by simp [names]) rfl

theorem FinalG.rootsBefore (F : FinalG W sp R res log segs D) {d1 d2 : List Nat} {r q : Nat}
    (e : roots R = d1 ++ r :: d2) (hq : q ∈ d2) : Before sp r q := by
  classical
  have h : (roots R).Sublist sp := by
    have h1 : (roots R).Sublist (R.keys.filter (fun a => decide (NotReferred W sp a))) := by
      have e' : roots R = (roots R).filter (fun a => decide (NotReferred W sp a)) := by
        symm
        rw [List.filter_eq_self]
        intro r hr
        have := (rootsG F.phase r).1 hr
        exact decide_eq_true this.2.2.1
      rw [e']
      exact List.filter_sublist.filter _
    rw [F.phase.order] at h1
    exact h1.trans List.filter_sublist
  rw [e] at h
  have h := (List.sublist_append_right d1 (r :: d2)).trans h
  rw [List.cons_sublist_iff] at h
  obtain ⟨r1, r2, e2, h1, h2⟩ := h
  refine ⟨r1, r2, e2, h1, ?_⟩
  intro hm
  have hq2 : q ∈ r2 := h2.subset hq
  have hqa : IsAction W q := ((rootsG F.phase q).1 (by rw [e]; simp [hq])).2.1
  obtain ⟨p1, p2, ep⟩ := List.append_of_mem hm
  exact F.uniq p1 q (p2 ++ r2) (by rw [e2, ep]; simp) hqa (by simp [hq2])

theorem kept_needs {a b : Nat} (h : Kept W sp a) (hn : Needs W a b) : Kept W sp b := by
  obtain ⟨r, hr, hn'⟩ := h
  exact ⟨r, hr, hn'.trans hn⟩

/-- What the added action `r` needs among the added actions stands before it. -/
theorem kept_backwards (hbu : AddedFirst W sp) {r x : Nat} (hr : r ∈ sp) (hk : Kept W sp r) (hn : Needs W r x) :
    ∃ p ∈ sp, Within W sp p x ∧ Kept W sp p ∧ (p = r ∨ Before sp p r) := by
  induction hn with
  | refl => exact ⟨r, hr, .refl, hk, .inl rfl⟩
  | @step b c hb h ih =>
    obtain ⟨p, hp, hw, hpk, ho⟩ := ih
    by_cases hc : c ∈ sp
    · have h1 := hbu p hp hpk b c hw h hc
      refine ⟨c, hc, .refl, kept_needs hk (hb.trans h.needs), .inr ?_⟩
      rcases ho with rfl | ho
      · exact h1
      · exact h1.trans ho
    · exact ⟨p, hp, .step hw h hc, hpk, ho⟩

/-- The place of an action that was not added is the first of its users. -/
theorem FinalG.firstOwner (F : FinalG W sp R res log segs D) (hbu : AddedFirst W sp) (hfu : SharedFirst W sp) {u P Q : Nat}
    (hP : (u, P) ∈ log) (hQ : UserOf W sp u Q) : P = Q ∨ Before sp P Q := by
  have hown := F.inv.core.own _ hP
  simp only [] at hown
  have hu : u ∉ sp := hQ.2.2.1
  have hPu : UserOf W sp u P := ⟨hown.1, F.ownerKept hP, hu, hown.2.1⟩
  -- the first user of `u`
  have hex : ∃ Q0, UserOf W sp u Q0 ∧ ∀ r, UserOf W sp u r → r = Q0 ∨ Before sp Q0 r := by
    have key : ∀ n q, UserOf W sp u q → sp.idxOf q ≤ n → ∃ Q0, UserOf W sp u Q0 ∧ ∀ r, UserOf W sp u r → r = Q0 ∨ Before sp Q0 r := by
      intro n
      induction n with
      | zero =>
        intro q hq hn
        refine ⟨q, hq, ?_⟩
        intro r hr
        rcases list_before_total hr.1 hq.1 with h | h | h
        · exact .inl h
        · rw [before_iff] at h; omega
        · exact .inr h
      | succ n ih =>
        intro q hq hn
        by_cases hmin : ∃ r, UserOf W sp u r ∧ Before sp r q
        · obtain ⟨r, hr, hb⟩ := hmin
          rw [before_iff] at hb
          exact ih r hr (by omega)
        · refine ⟨q, hq, ?_⟩
          intro r hr
          rcases list_before_total hr.1 hq.1 with h | h | h
          · exact .inl h
          · exact absurd ⟨r, hr, h⟩ hmin
          · exact .inr h
    exact key _ Q hQ (Nat.le_refl _)
  obtain ⟨Q0, hQ0, hmin⟩ := hex
  have hPQ0 : P = Q0 := by
    rcases hmin P hPu with h | hb
    · exact h
    · exfalso
      have hne : P ≠ Q0 := by rintro rfl; exact hb.asymm hb
      have hQroot := (rootsG F.phase Q0).2 (hfu u Q0 P hQ0 hPu hne hmin)
      -- the segment `u` is in
      have hul := hP
      rw [F.segsOf, List.mem_flatMap] at hul
      obtain ⟨s, hs, hus⟩ := hul
      obtain ⟨s1, s2, es⟩ := List.append_of_mem hs
      have hn := F.segNeeds.needs s hs _ hus
      simp only [] at hn
      have hrs : roots R = s1.map (·.1) ++ s.1 :: s2.map (·.1) := by rw [← F.segRoots, es]; simp
      have hsr := (rootsG F.phase s.1).1 (by rw [hrs]; simp)
      -- `P` is not after the root of the segment
      have hPs : P = s.1 ∨ Before sp P s.1 := by
        obtain ⟨p, _, hpw, _, hpo⟩ := kept_backwards hbu hsr.1 ⟨s.1, hsr, .refl⟩ hn.2
        rw [within_sp hpw hown.1]; exact hpo
      -- the segment's root is not after `Q0`
      have hsQ : s.1 = Q0 ∨ Before sp s.1 Q0 := by
        rw [hrs, List.mem_append, List.mem_cons] at hQroot
        rcases hQroot with h | h | h
        · exfalso
          obtain ⟨t, ht, et⟩ := List.mem_map.1 h
          obtain ⟨t1, t2, e1⟩ := List.append_of_mem ht
          have hpl := F.segPlaced t1 t (t2 ++ s :: s2) (by rw [es, e1]; simp)
          have hsplit : log = (t1.flatMap (·.2) ++ t.2) ++ (t2.flatMap (·.2) ++ s.2 ++ s2.flatMap (·.2)) := by
            rw [F.segsOf, es, e1]; simp
          have hcl : ∀ b, Needs W t.1 b → b ∈ names (t1.flatMap (·.2) ++ t.2) := by
            intro b hb
            induction hb with
            | refl => exact hpl
            | step _ hr ih =>
              obtain ⟨p, hp, ep⟩ := List.mem_map.1 ih
              obtain ⟨l1, l2, el⟩ := List.append_of_mem hp
              have := F.inv.core.order l1 p (l2 ++ (t2.flatMap (·.2) ++ s.2 ++ s2.flatMap (·.2)))
                (by rw [hsplit, el]; simp) _ (ep ▸ hr)
              rw [el, names_append]
              exact List.mem_append_left _ this
          have hin := hcl u (et ▸ hQ0.2.2.2.needs)
          have hnd := F.nodupLog
          rw [hsplit, names_append, List.nodup_append] at hnd
          refine hnd.2.2 u hin u ?_ rfl
          simp only [names_append, List.mem_append]
          exact .inl (.inr (List.mem_map.2 ⟨_, hus, rfl⟩))
        · exact .inl h.symm
        · exact .inr (F.rootsBefore hrs h)
      rcases hPs with e1 | h1 <;> rcases hsQ with e2 | h2
      · rw [e1, e2] at hb; exact hb.asymm hb
      · rw [e1] at hb; exact hb.asymm h2
      · rw [← e2] at hb; exact hb.asymm h1
      · exact (h1.trans h2).asymm hb
  subst hPQ0
  rcases hmin Q hQ with h | h
  · exact .inl h.symm
  · exact .inr h

end

/-- **C58** If every added action stands before the added actions which refer to it, and an action that was not added but is used by
several added ones is first used by one nothing refers to, then every emitted action comes after all actions it refers to - in any
acyclic graph, of any size, with raw references or without. -/
theorem targets_first (W : World) (limit : Nat) (sprites : List Nat) (res : Resolved) (hac : Acyclic W)
    (hbu : AddedFirst W sprites) (hfu : SharedFirst W sprites) (h : resolveRefs W limit sprites = some res) (a b : Nat)
    (ha : Kept W sprites a) (hr : Refers W a b) : Before res.out b a ∧ a ∈ res.out := by
  obtain ⟨R, log, segs, D, F⟩ := finalG hac h
  refine ⟨?_, List.count_pos_iff.1 (by rw [F.emitted ((F.all a).2 ha)]; omega)⟩
  obtain ⟨P, hP⟩ := F.ownerOf ha
  obtain ⟨Q, hQ⟩ := F.ownerOf (kept_needs ha hr.needs)
  have hPo := F.inv.core.own _ hP
  have hQo := F.inv.core.own _ hQ
  simp only [] at hPo hQo
  refine F.outBefore hQ hP ?_
  have hlog := F.logBefore hP hr
  by_cases hb : b ∈ sprites
  · have e : Q = b := hQo.2.2.2 hb
    rw [e]
    exact .inr (hbu P hPo.1 (F.ownerKept hP) a b hPo.2.1 hr hb)
  · rcases F.firstOwner hbu hfu hQ ⟨hPo.1, F.ownerKept hP, hb, .step hPo.2.1 hr hb⟩ with e | h
    · exact .inl ⟨e, hlog⟩
    · exact .inr h

/-- **C58** The first condition is necessary: if in the output every target comes before the actions referring to it, then the user had
added every action before the added ones which refer to it. -/
theorem added_first_needed (W : World) (limit : Nat) (sprites : List Nat) (res : Resolved) (hac : Acyclic W)
    (h : resolveRefs W limit sprites = some res)
    (ht : ∀ a b, Kept W sprites a → Refers W a b → Before res.out b a) : AddedFirst W sprites := by
  obtain ⟨R, log, segs, D, F⟩ := finalG hac h
  intro p hp hk a b hw hr hb
  -- what `p` needs is emitted before it
  have key : ∀ x, Needs W p x → x = p ∨ Before res.out x p := by
    intro x hx
    induction hx with
    | refl => exact .inl rfl
    | step hx hr ih =>
      have h1 := ht _ _ (kept_needs hk hx) hr
      rcases ih with rfl | ih
      · exact .inr h1
      · exact .inr (h1.trans ih)
  have hbp : Before res.out b p := by
    rcases key b (hw.needs.trans hr.needs) with e | h1
    · exact absurd (e ▸ hr) (fun h2 => hac a p h2 hw.needs)
    · exact h1
  -- both were added and keep their order
  have hpl : (p, p) ∈ log := by
    obtain ⟨o, ho⟩ := F.ownerOf hk
    have e := (F.inv.core.own _ ho).2.2.2 hp
    simp only at e
    rw [e] at ho
    exact ho
  have hbl : (b, b) ∈ log := by
    obtain ⟨o, ho⟩ := F.ownerOf (kept_needs hk (hw.needs.trans hr.needs))
    have e := (F.inv.core.own _ ho).2.2.2 hb
    simp only at e
    rw [e] at ho
    exact ho
  rcases list_before_total hb hp with e | h1 | h1
  · exact absurd (e ▸ hr) (fun h2 => hac a p h2 hw.needs)
  · exact h1
  · exact absurd (F.outBefore hpl hbl (.inr h1)) hbp.asymm

/-- **C58** If no action that was not added is shared, the order is right exactly when every action was added before its users. -/
theorem targets_first_iff (W : World) (limit : Nat) (sprites : List Nat) (res : Resolved) (hac : Acyclic W)
    (hsh : ∀ u p q, UserOf W sprites u p → UserOf W sprites u q → q = p) (h : resolveRefs W limit sprites = some res) :
    (∀ a b, Kept W sprites a → Refers W a b → Before res.out b a) ↔ AddedFirst W sprites := by
  refine ⟨added_first_needed W limit sprites res hac h, fun hbu a b ha hr => ?_⟩
  exact (targets_first W limit sprites res hac hbu (fun u p q hp hq hne => absurd (hsh u p q hp hq) hne) h a b ha hr).1

/-- **C58** Raw references: the action a raw `Ref` means is emitted before the action with the `Ref`, if both are emitted. -/
theorem raw_target_first (W : World) (limit : Nat) (earlier : List Nat) (s : Nat) (later : List Nat) (res : Resolved) (hac : Acyclic W)
    (h : resolveRefs W limit (earlier ++ s :: later) = some res) (c p : Nat) (rid : Int) (hc : LookedAt W earlier s c)
    (hp : RawTarget W earlier rid p) (hck : Kept W (earlier ++ s :: later) c) (hpk : Kept W (earlier ++ s :: later) p) :
    Before res.out p c := by
  obtain ⟨R, log, segs, D, F⟩ := finalG hac h
  obtain ⟨P, hP⟩ := F.ownerOf hck
  obtain ⟨l1, l2, e, -⟩ := hp
  have hpe : p ∈ earlier := by rw [e]; simp
  obtain ⟨Q, hQ⟩ := F.ownerOf hpk
  have hPo := F.inv.core.own _ hP
  have hQo := (F.inv.core.own _ hQ).2.2.2 (by simp [hpe])
  simp only at hPo hQo
  subst hQo
  refine F.outBefore hQ hP (.inr ⟨earlier, s :: later, rfl, hpe, ?_⟩)
  intro hm
  rcases hc.2 with e2 | h2
  · subst e2
    have e3 : P = c := hPo.2.2.2 (by simp)
    subst e3
    exact (F.uniqAction rfl (F.ownerAction hP)).1 hm
  · exact h2 P hm hPo.2.1.needs

/-! ### The hypotheses are met -/

/-- Switch 1 uses layout 0, action 2 uses switch 1 and layout 3, which is not added. -/
def w3 : List Act := [leafAct, swAct [.obj 0], mapAct [.obj 1, .obj 3], leafAct]

set_option maxRecDepth 100000 in
/-- Layout 0 and switch 1 are added before action 2, and only layout 3 is not added: `AddedFirst` and the sharing condition hold. -/
example : Acyclic (worldOf w3) ∧ AddedFirst (worldOf w3) [0, 1, 2] ∧
    (∀ u p q, UserOf (worldOf w3) [0, 1, 2] u p → UserOf (worldOf w3) [0, 1, 2] u q → q = p) ∧
    (resolveRefs (worldOf w3) 100 [0, 1, 2]).map (·.out) = some [0, 1, 3, 2] := by
  have hd : ∀ a b, Refers (worldOf w3) a b → (a = 1 ∧ b = 0) ∨ (a = 2 ∧ b = 1) ∨ (a = 2 ∧ b = 3) := by
    intro a b h
    obtain ⟨h1, h2⟩ := refers_lt h
    have : ∀ a < 4, ∀ b < 4, Refers (worldOf w3) a b → ((a == 1 && b == 0) || (a == 2 && (b == 1 || b == 3))) = true := by decide
    have := this a h1 b h2 h
    simp at this
    omega
  have hw : ∀ p x, Within (worldOf w3) [0, 1, 2] p x → x = p ∨ (p = 2 ∧ x = 3) := by
    intro p x h
    induction h with
    | refl => exact .inl rfl
    | step _ h1 h2 ih =>
      have := hd _ _ h1
      simp only [List.mem_cons, List.not_mem_nil, or_false] at h2
      omega
  refine ⟨?_, ?_, ?_, by rfl⟩
  · have hn : ∀ a b, Needs (worldOf w3) a b → b = a ∨ (a = 1 ∧ b = 0) ∨ (a = 2 ∧ (b = 0 ∨ b = 1 ∨ b = 3)) := by
      intro a b h
      induction h with
      | refl => exact .inl rfl
      | step _ h1 ih => have := hd _ _ h1; omega
    intro a b h1 h2
    have := hd _ _ h1
    have := hn _ _ h2
    omega
  · intro p hp _ a b h1 h2 _
    have e1 := hw _ _ h1
    have e2 := hd _ _ h2
    have : (b = 0 ∧ p = 1) ∨ (b = 1 ∧ p = 2) ∨ b = 3 := by omega
    rcases this with ⟨rfl, rfl⟩ | ⟨rfl, rfl⟩ | rfl
    · exact ⟨[0], [1, 2], rfl, by simp, by simp⟩
    · exact ⟨[0, 1], [2], rfl, by simp, by simp⟩
    · rename_i h3; simp at h3
  · intro u p q hp hq
    have h1 := hw _ _ hp.2.2.2
    have h2 := hw _ _ hq.2.2.2
    have h3 : u ≠ p := fun e => hp.2.2.1 (e ▸ hp.1)
    have h4 : u ≠ q := fun e => hq.2.2.1 (e ▸ hq.1)
    omega

end Grf
