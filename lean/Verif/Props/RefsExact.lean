import Verif.Proofs.Refs4
import Verif.Props.Refs
import Verif.Props.StringsExact
/-!
# C27, exactly: what reference resolution emits, for any acyclic graph, any order of the user's actions, and raw references
-/
namespace Grf

/-- The actions emitted at the place of the user's action `s`. -/
def blk (W : World) (log : List (Nat × Nat)) (s : Nat) : List Nat :=
  if (W s).referencing then names (log.filter (fun p => p.2 = s)) else [s]

section
variable {W : World} {sp : List Nat} {R : RState} {res : Resolved} {log : List (Nat × Nat)}
  {segs : List (Nat × List (Nat × Nat))} {D : DState}

theorem FinalG.nodupLog (F : FinalG W sp R res log segs D) : (names log).Nodup := by
  have := F.inv.core.nodup
  rwa [List.append_nil] at this

theorem owner_unique {log : List (Nat × Nat)} (hnd : (names log).Nodup) {a o o' : Nat} (h1 : (a, o) ∈ log) (h2 : (a, o') ∈ log) :
    o = o' := by
  induction log with
  | nil => simp at h1
  | cons p log ih =>
    simp only [names, List.map_cons, List.nodup_cons] at hnd
    rcases List.mem_cons.1 h1 with e1 | h1
    · rcases List.mem_cons.1 h2 with e2 | h2
      · rw [← e1] at e2
        exact ((Prod.mk.injEq _ _ _ _).mp e2).2.symm
      · exact absurd (List.mem_map.2 ⟨_, h2, by rw [← e1]⟩) hnd.1
    · rcases List.mem_cons.1 h2 with e2 | h2
      · exact absurd (List.mem_map.2 ⟨_, h1, by rw [← e2]⟩) hnd.1
      · exact ih hnd.2 h1 h2

theorem FinalG.outEq (F : FinalG W sp R res log segs D) : res.out = sp.flatMap (blk W log) := by
  rw [F.out]
  unfold assemble
  apply flatMap_congr'
  intro s hs
  unfold blk
  by_cases hr : (W s).referencing = true
  · rw [if_pos hr, if_pos hr]
    by_cases hv : s ∈ D.visited
    · rw [F.inv.core.linked s hs hv]; rfl
    · rw [F.inv.core.linkedNone s hv]
      have : log.filter (fun p => p.2 = s) = [] := by
        rw [List.filter_eq_nil_iff]
        intro p hp
        simp only [decide_eq_true_eq]
        intro e
        exact hv (e ▸ (F.inv.core.own p hp).2.2.1)
      rw [this]; rfl
  · rw [if_neg hr, if_neg hr]

theorem FinalG.action (F : FinalG W sp R res log segs D) {a : Nat} (h : a ∈ names log) : IsAction W a := by
  obtain ⟨r, hr, hn⟩ := (F.all a).1 h
  cases hn with
  | refl => exact hr.2.1
  | step _ h2 => exact h2.actions.2

/-- Where an action the traversal reached is emitted. -/
theorem FinalG.mem_blk (_F : FinalG W sp R res log segs D) (a s : Nat) (_hs : s ∈ sp) :
    a ∈ blk W log s ↔ if (W s).referencing = true then (a, s) ∈ log else a = s := by
  unfold blk
  by_cases hr : (W s).referencing = true
  · rw [if_pos hr, if_pos hr, mem_names_filter]
  · rw [if_neg hr, if_neg hr]; simp

theorem within_referencing {p x : Nat} (h : Within W sp p x) : x = p ∨ (W p).referencing = true := by
  induction h with
  | refl => exact .inl rfl
  | step _ h2 _ ih =>
    rcases ih with e | h
    · right; rw [← e]; exact h2.1
    · exact .inr h

theorem FinalG.uniqAction (F : FinalG W sp R res log segs D) {pre post : List Nat} {s : Nat} (e : sp = pre ++ s :: post)
    (ha : IsAction W s) : s ∉ pre ∧ s ∉ post := by
  refine ⟨?_, F.uniq pre s post e ha⟩
  intro hm
  obtain ⟨p1, p2, e2⟩ := List.append_of_mem hm
  exact F.uniq p1 s (p2 ++ s :: post) (by rw [e, e2]; simp) ha (by simp)

theorem FinalG.count_one (F : FinalG W sp R res log segs D) {a o : Nat} (ho : o ∈ sp) (hact : IsAction W o)
    (hin : a ∈ blk W log o) (honly : ∀ s ∈ sp, a ∈ blk W log s → s = o) : res.out.count a = 1 := by
  obtain ⟨pre, post, e⟩ := List.append_of_mem ho
  have hu := F.uniqAction e hact
  have z : ∀ l : List Nat, (∀ x ∈ l, x ∈ sp) → o ∉ l → (l.flatMap (blk W log)).count a = 0 := by
    intro l hsub hl
    rw [List.count_eq_zero]
    intro hm
    rw [List.mem_flatMap] at hm
    obtain ⟨s, hs, hs2⟩ := hm
    exact hl (honly s (hsub s hs) hs2 ▸ hs)
  rw [F.outEq, e, List.flatMap_append, List.flatMap_cons, List.count_append, List.count_append,
    z pre (by intro x hx; rw [e]; simp [hx]) hu.1, z post (by intro x hx; rw [e]; simp [hx]) hu.2]
  have : (blk W log o).count a = 1 := by
    have hnd : (blk W log o).Nodup := by
      unfold blk
      split
      · exact names_filter_nodup F.nodupLog _
      · simp
    have h1 := List.nodup_iff_count.1 hnd a
    have h2 := List.count_pos_iff.2 hin
    omega
  omega

theorem FinalG.emitted (F : FinalG W sp R res log segs D) {a : Nat} (h : a ∈ names log) : res.out.count a = 1 := by
  obtain ⟨p, hp, e⟩ := List.mem_map.1 h
  obtain ⟨h1, h2, h3, h4⟩ := F.inv.core.own p hp
  obtain ⟨x, o⟩ := p
  simp only at e h1 h2 h3 h4
  subst e
  have hact : IsAction W o := by
    have : o ∈ names log := by
      have := (F.inv.core.vis o).1 h3
      simpa using this
    exact F.action this
  refine F.count_one h1 hact ?_ ?_
  · rw [F.mem_blk x o h1]
    split
    · exact hp
    · rcases within_referencing h2 with e | hr
      · exact e
      · contradiction
  · intro s hs hm
    rw [F.mem_blk x s hs] at hm
    split at hm
    · exact owner_unique F.nodupLog hm hp
    · rw [← hm]
      exact (h4 (hm ▸ hs)).symm

theorem FinalG.not_emitted (F : FinalG W sp R res log segs D) {a : Nat} (h : a ∉ names log)
    (h2 : ¬ (a ∈ sp ∧ (W a).referencing = false)) : res.out.count a = 0 := by
  rw [List.count_eq_zero, F.outEq, List.mem_flatMap]
  rintro ⟨s, hs, hm⟩
  rw [F.mem_blk a s hs] at hm
  split at hm
  · exact h (List.mem_map.2 ⟨_, hm, rfl⟩)
  · rename_i hr
    subst hm
    exact h2 ⟨hs, by simpa using hr⟩

theorem FinalG.plain (F : FinalG W sp R res log segs D) {a : Nat} (ha : ¬ IsAction W a) : res.out.count a = sp.count a := by
  rw [F.outEq]
  have key : ∀ l : List Nat, (∀ x ∈ l, x ∈ sp) → (l.flatMap (blk W log)).count a = l.count a := by
    intro l
    induction l with
    | nil => intro _; rfl
    | cons s l ih =>
      intro hl
      rw [List.flatMap_cons, List.count_append, ih (fun x hx => hl x (List.mem_cons_of_mem _ hx)), List.count_cons]
      by_cases e : s = a
      · subst e
        have : ¬ (W s).referencing = true := fun h => ha (.inl h)
        simp [blk, this]
        omega
      · have : (blk W log s).count a = 0 := by
          rw [List.count_eq_zero, F.mem_blk a s (hl s List.mem_cons_self)]
          split
          · intro hm
            exact ha (F.action (List.mem_map.2 ⟨_, hm, rfl⟩))
          · exact fun h => e h.symm
        simp [this, e]
  exact key sp (fun x hx => hx)

end

/-- **C27** (what is emitted, exact). In any acyclic graph of actions, with the user's actions in any order, forward
references, shared actions and raw `Ref`s included: if resolution succeeds,
* an action is emitted once if it is needed by a user's action that nothing refers to, or if it is a user's action that
  itself cannot refer to anything; all other actions are not emitted at all;
* whatever is not an action is emitted as often as the user added it;
* the user's actions that are emitted keep their order. -/
theorem emitted_exactly (W : World) (limit : Nat) (sprites : List Nat) (res : Resolved) (hac : Acyclic W)
    (h : resolveRefs W limit sprites = some res) :
    (∀ a, IsAction W a →
      ((∃ r, Unreferenced W sprites r ∧ Needs W r a) ∨ (a ∈ sprites ∧ (W a).referencing = false) → res.out.count a = 1) ∧
      (¬ ((∃ r, Unreferenced W sprites r ∧ Needs W r a) ∨ (a ∈ sprites ∧ (W a).referencing = false)) → res.out.count a = 0)) ∧
    (∀ a, ¬ IsAction W a → res.out.count a = sprites.count a) ∧
    res.out.filter (· ∈ sprites) = sprites.filter (· ∈ res.out) := by
  obtain ⟨R, log, segs, D, F⟩ := finalG hac h
  refine ⟨?_, fun a ha => F.plain ha, ?_⟩
  · intro a ha
    constructor
    · rintro (hn | ⟨hs, hr⟩)
      · exact F.emitted ((F.all a).2 hn)
      · by_cases hl : a ∈ names log
        · exact F.emitted hl
        · have hr' : ¬ (W a).referencing = true := by rw [hr]; simp
          refine F.count_one hs ha ?_ ?_
          · rw [F.mem_blk a a hs, if_neg hr']
          · intro s hss hm
            rw [F.mem_blk a s hss] at hm
            split at hm
            · exact absurd (List.mem_map.2 ⟨_, hm, rfl⟩) hl
            · exact hm.symm
    · intro hn
      simp only [not_or] at hn
      exact F.not_emitted (fun hl => hn.1 ((F.all a).1 hl)) hn.2
  · have hout := F.outEq
    generalize res.out = out at hout
    have key : ∀ l : List Nat, (∀ x ∈ l, x ∈ sprites) →
        (l.flatMap (blk W log)).filter (· ∈ sprites) = l.filter (· ∈ out) := by
      intro l
      induction l with
      | nil => intro _; rfl
      | cons s l ih =>
        intro hl
        rw [List.flatMap_cons, List.filter_append, ih (fun x hx => hl x (List.mem_cons_of_mem _ hx))]
        have hs := hl s List.mem_cons_self
        by_cases hr : (W s).referencing = true
        · by_cases hso : s ∈ names log
          · obtain ⟨⟨x, o⟩, hp, e⟩ := List.mem_map.1 hso
            simp only at e
            subst e
            have hoo : o = x := (F.inv.core.own _ hp).2.2.2 hs
            subst hoo
            have e1 : (blk W log o).filter (· ∈ sprites) = [o] := by
              unfold blk
              rw [if_pos hr]
              apply eq_singleton_of_nodup ((names_filter_nodup F.nodupLog _).filter _)
              intro x
              rw [List.mem_filter, mem_names_filter]
              simp only [decide_eq_true_eq]
              constructor
              · rintro ⟨h1, h2⟩
                exact ((F.inv.core.own _ h1).2.2.2 h2).symm
              · rintro rfl
                exact ⟨hp, hs⟩
            have e2 : o ∈ out := by
              rw [hout, List.mem_flatMap]
              exact ⟨o, hs, by rw [F.mem_blk o o hs, if_pos hr]; exact hp⟩
            rw [e1]
            simp [e2]
          · have e1 : (blk W log s).filter (· ∈ sprites) = [] := by
              rw [List.filter_eq_nil_iff]
              intro x hx
              simp only [decide_eq_true_eq]
              intro hxs
              rw [F.mem_blk x s hs, if_pos hr] at hx
              have := (F.inv.core.own _ hx).2.2.2 hxs
              simp only at this
              subst this
              exact hso (List.mem_map.2 ⟨_, hx, rfl⟩)
            have e2 : s ∉ out := by
              rw [hout, List.mem_flatMap]
              rintro ⟨t, ht, hm⟩
              rw [F.mem_blk s t ht] at hm
              split at hm
              · exact hso (List.mem_map.2 ⟨_, hm, rfl⟩)
              · subst hm; contradiction
            rw [e1]
            simp [e2]
        · have e1 : (blk W log s).filter (· ∈ sprites) = [s] := by
            unfold blk
            rw [if_neg hr]
            simp [hs]
          have e2 : s ∈ out := by
            rw [hout, List.mem_flatMap]
            exact ⟨s, hs, by rw [F.mem_blk s s hs, if_neg hr]⟩
          rw [e1]
          simp [e2]
    rw [hout]
    rw [← hout]
    rw [← key sprites (fun x hx => hx), ← hout]

open Classical in
/-- Every action the user's actions need is needed by one that nothing refers to as an object, in any acyclic graph. -/
theorem covered_by_unreferenced (W : World) (sprites : List Nat) (hac : Acyclic W) (s a : Nat) (hs : s ∈ sprites)
    (hn : Needs W s a) (ha : IsAction W a) :
    ∃ r ∈ sprites, IsAction W r ∧ NotReferred W sprites r ∧ Needs W r a := by
  -- follow references backwards through the user's actions
  have key : ∀ (n : Nat) (s : Nat), s ∈ sprites → IsAction W s → (sprites.eraseDups.filter (fun x => decide (Needs W x s))).length ≤ n →
      ∃ r ∈ sprites, IsAction W r ∧ NotReferred W sprites r ∧ Needs W r s := by
    intro n
    induction n with
    | zero =>
      intro s hs hsa h
      have : s ∈ sprites.eraseDups.filter (fun x => decide (Needs W x s)) := by
        rw [List.mem_filter]; exact ⟨List.mem_eraseDups.2 hs, by simpa using Needs.refl⟩
      have := List.length_pos_of_mem this
      omega
    | succ n ih =>
      intro s hs hsa h
      by_cases hnr : NotReferred W sprites s
      · exact ⟨s, hs, hsa, hnr, .refl⟩
      · simp only [NotReferred, not_forall, Classical.not_not] at hnr
        obtain ⟨t, ht, c, htc, hcs⟩ := hnr
        have hts : Needs W t s := .step htc hcs
        have hst : ¬ Needs W s t := fun h => hac c s hcs (h.trans htc)
        have hta : IsAction W t := htc.action hcs.actions.1
        have hlt : (s :: sprites.eraseDups.filter (fun x => decide (Needs W x t))).length ≤
            (sprites.eraseDups.filter (fun x => decide (Needs W x s))).length := by
          have hndl : sprites.eraseDups.Nodup := Grf.Strings.dedup_nodup sprites
          have hnd : (s :: sprites.eraseDups.filter (fun x => decide (Needs W x t))).Nodup := by
            refine List.nodup_cons.2 ⟨?_, hndl.filter _⟩
            intro hm
            rw [List.mem_filter] at hm
            exact hst (by simpa using hm.2)
          have := sum_le_of_nodup (fun _ => 1) _ (sprites.eraseDups.filter (fun x => decide (Needs W x s))) hnd (by
            intro x hx
            rw [List.mem_filter]
            rcases List.mem_cons.1 hx with rfl | hx
            · exact ⟨List.mem_eraseDups.2 hs, by simpa using Needs.refl⟩
            · rw [List.mem_filter] at hx
              exact ⟨hx.1, by simpa using (by simpa using hx.2 : Needs W x t).trans hts⟩)
          rw [sum_ones, sum_ones] at this
          exact this
        simp only [List.length_cons] at hlt
        obtain ⟨r, h1, h2, h3, h4⟩ := ih t ht hta (by omega)
        exact ⟨r, h1, h2, h3, h4.trans hts⟩
  obtain ⟨r, h1, h2, h3, h4⟩ := key _ s hs (hn.action ha) (Nat.le_refl _)
  exact ⟨r, h1, h2, h3, h4.trans hn⟩

/-- **C27** (nothing lost). Without raw `Ref`s that mean an action the user added, in any acyclic graph and any order: every
action needed by the user's actions is emitted exactly once, nothing else is, and the user's actions keep their order. -/
theorem all_emitted_once (W : World) (limit : Nat) (sprites : List Nat) (res : Resolved) (hac : Acyclic W)
    (hraw : ∀ p, ¬ RawReferred W sprites p) (h : resolveRefs W limit sprites = some res) :
    (∀ s ∈ sprites, IsAction W s → ∀ a, Needs W s a → res.out.count a = 1) ∧
    (∀ a ∈ res.out, ∃ s ∈ sprites, Needs W s a) ∧
    res.out.filter (· ∈ sprites) = sprites := by
  obtain ⟨h1, h2, h3⟩ := emitted_exactly W limit sprites res hac h
  have once : ∀ s ∈ sprites, IsAction W s → ∀ a, Needs W s a → res.out.count a = 1 := by
    intro s hs hsa a hn
    have ha : IsAction W a := by
      cases hn with
      | refl => exact hsa
      | step _ hr => exact hr.actions.2
    obtain ⟨r, hr1, hr2, hr3, hr4⟩ := covered_by_unreferenced W sprites hac s a hs hn ha
    exact (h1 a ha).1 (.inl ⟨r, ⟨hr1, hr2, hr3, hraw r⟩, hr4⟩)
  refine ⟨once, ?_, ?_⟩
  · intro a ha
    by_cases hact : IsAction W a
    · by_cases hc : (∃ r, Unreferenced W sprites r ∧ Needs W r a) ∨ (a ∈ sprites ∧ (W a).referencing = false)
      · rcases hc with ⟨r, hr, hn⟩ | ⟨hs, _⟩
        · exact ⟨r, hr.1, hn⟩
        · exact ⟨a, hs, .refl⟩
      · have := (h1 a hact).2 hc
        rw [List.count_eq_zero] at this
        exact absurd ha this
    · have := h2 a hact
      have hp := List.count_pos_iff.2 ha
      rw [this] at hp
      exact ⟨a, List.count_pos_iff.1 hp, .refl⟩
  · rw [h3, List.filter_eq_self]
    intro s hs
    simp only [decide_eq_true_eq]
    by_cases hact : IsAction W s
    · have := once s hs hact s .refl
      exact List.count_pos_iff.1 (by omega)
    · have := h2 s hact
      exact List.count_pos_iff.1 (by rw [this]; exact List.count_pos_iff.2 hs)

/-- **C27** (features, exact). Every action emitted because of an unreferenced user's action has a feature, the same as that of
the actions it refers to; features the user set are kept, so are ids; all other features stay as they were. -/
theorem features_exactly (W : World) (limit : Nat) (sprites : List Nat) (res : Resolved) (hac : Acyclic W)
    (h : resolveRefs W limit sprites = some res) :
    (∀ r a, Unreferenced W sprites r → Needs W r a → res.feature a = (W r).feature ∧ (W r).feature ≠ none) ∧
    (∀ a f, (W a).feature = some f → res.feature a = some f) ∧
    (∀ a i, (W a).refId = some i → res.refId a = some i) := by
  obtain ⟨R, log, segs, D, F⟩ := finalG hac h
  rw [F.feats, F.ids]
  refine ⟨?_, F.inv.core.featKeep, F.inv.core.refKeep⟩
  intro r a hr hn
  have hrl : r ∈ names log := (F.all r).2 ⟨r, hr, .refl⟩
  have hsome : ∀ x ∈ names log, (D.feature x).isSome = true := by
    intro x hx
    exact F.inv.core.featSome x ((F.inv.core.vis x).2 (.inl hx))
  have hsame : ∀ x, Needs W r x → D.feature x = D.feature r ∧ x ∈ names log := by
    intro x hx
    induction hx with
    | refl => exact ⟨rfl, hrl⟩
    | step _ hr' ih =>
      obtain ⟨p, hp, e⟩ := List.mem_map.1 ih.2
      have := F.inv.core.feat p hp _ (e ▸ hr')
      rw [e] at this
      exact ⟨this ▸ ih.1, F.inv.core.closed ih.2 hr'.needs⟩
  have hne : (W r).feature ≠ none := by
    -- a root without a feature makes the resolution fail
    unfold resolveRefs at h
    simp only [Option.bind_eq_bind, Option.bind_eq_some_iff, Option.some.injEq] at h
    obtain ⟨R', hph, D', hD, _⟩ := h
    have hR' := resolvePhase_okG hac hph
    have hrr := (rootsG hR' r).2 hr
    intro hnone
    have : ∀ (l : List Nat) (st st' : DState), r ∈ l → l.foldlM (dfsRoot W R' limit) st = some st' → False := by
      intro l
      induction l with
      | nil => intro st st' hm; simp at hm
      | cons x l ih =>
        intro st st' hm hf
        rw [List.foldlM_cons, Option.bind_eq_bind, Option.bind_eq_some_iff] at hf
        obtain ⟨st1, hf1, hf2⟩ := hf
        rcases List.mem_cons.1 hm with e | hm
        · rw [← e] at hf1
          simp [dfsRoot, hnone] at hf1
        · exact ih st1 st' hm hf2
    exact this _ _ _ hrr hD
  refine ⟨?_, hne⟩
  rw [(hsame a hn).1]
  cases hf : (W r).feature with
  | none => exact absurd hf hne
  | some f => exact F.inv.core.featKeep r f hf

/-! ### The hypotheses are met -/

/-- Layout 0 is added after the action 3 that uses it, switch 1 is meant by a raw `Ref`, and the text 4 is no action. -/
def w2 : List Act := [leafAct, swAct [] (some 5), swAct [.obj 0], mapAct [.ref false 5, .obj 2, .obj 0]]

set_option maxRecDepth 100000 in
/-- Forward and raw references together: the hypotheses of `emitted_exactly` and `features_exactly` hold, the switch meant by the
raw `Ref` is not emitted, all else is, and the item that is no action is emitted as often as it was added. -/
example : Acyclic (worldOf w2) ∧
    (resolveRefs (worldOf w2) 100 [1, 4, 3, 4, 0]).map (·.out) = some [4, 2, 3, 4, 0] ∧
    Unreferenced (worldOf w2) [1, 4, 3, 4, 0] 3 ∧ RawReferred (worldOf w2) [1, 4, 3, 4, 0] 1 := by
  have hd : ∀ a b, Refers (worldOf w2) a b → b < a := by
    intro a b h
    obtain ⟨h1, h2⟩ := refers_lt h
    have : ∀ a < 4, ∀ b < 4, Refers (worldOf w2) a b → b < a := by decide
    exact this a h1 b h2 h
  refine ⟨acyclic_of_down hd, by rfl, ⟨by simp, .inl rfl, ?_, ?_⟩, ?_⟩
  · intro s _ c _ h
    have := hd _ _ h
    have := (refers_lt h).1
    simp [w2] at this
    omega
  · rintro ⟨_, _, _, _, _, _, _, _, _, l1, l2, _, h, _⟩
    exact absurd h (by decide)
  · exact ⟨[1, 4], 3, [4, 0], 3, 5, rfl, ⟨.refl, .inl rfl⟩, rfl, by decide, [], [4], rfl, rfl, rfl,
      by intro q hq; simp at hq; subst hq; decide⟩

set_option maxRecDepth 100000 in
/-- Forward references without raw ones: the hypotheses of `all_emitted_once` hold. -/
example : Acyclic (worldOf [leafAct, swAct [.obj 0], mapAct [.obj 1, .obj 0]]) ∧
    (∀ p, ¬ RawReferred (worldOf [leafAct, swAct [.obj 0], mapAct [.obj 1, .obj 0]]) [2, 0] p) ∧
    (resolveRefs (worldOf [leafAct, swAct [.obj 0], mapAct [.obj 1, .obj 0]]) 100 [2, 0]).map (·.out) = some [1, 2, 0] := by
  refine ⟨acyclic_of_down ?_, ?_, by rfl⟩
  · intro a b h
    obtain ⟨h1, h2⟩ := refers_lt h
    have : ∀ a < 3, ∀ b < 3, Refers (worldOf [leafAct, swAct [.obj 0], mapAct [.obj 1, .obj 0]]) a b → b < a := by decide
    exact this a h1 b h2 h
  · rintro p ⟨_, _, _, c, rid, _, _, _, h, _⟩
    exact (noRaw_of (l := [leafAct, swAct [.obj 0], mapAct [.obj 1, .obj 0]]) (by
      intro a ha r hr i e
      subst e
      simp [leafAct, swAct, mapAct] at ha
      rcases ha with rfl | rfl | rfl <;> simp at hr)) c rid h

end Grf
