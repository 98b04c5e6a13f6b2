import Verif.Model.Watch
/-!
# C75: the watch command notices every change of a file it watches
-/
namespace Grf.Watch

/-- A file is watched: it is on the list and its directory is observed. -/
def Watched (dir : Nat → Nat) (s : St) (f : Nat) : Prop := ∃ l, s.list = some l ∧ f ∈ l ∧ dir f ∈ s.dirs

theorem run_append (dir : Nat → Nat) (s : St) (a b : List Ev) : run dir s (a ++ b) = (run dir s a).bind fun t => run dir t b := by
  induction a generalizing s with
  | nil => rfl
  | cons e a ih =>
    simp only [List.cons_append, run]
    cases step dir s e with
    | none => rfl
    | some t => exact ih t

theorem snoc_ind {α} {P : List α → Prop} (nil : P []) (snoc : ∀ l a, P l → P (l ++ [a])) : ∀ l, P l := by
  intro l
  rw [← List.reverse_reverse l]
  induction l.reverse with
  | nil => exact nil
  | cons a t ih => rw [List.reverse_cons]; exact snoc _ a ih

/-- What holds between the start of a build and the start of the next. -/
def Inv (dir : Nat → Nat) (f : Nat) (s : St) : Prop :=
  ∃ l, s.list = some l ∧
    ((f ∈ l ∧ dir f ∈ s.dirs ∧ (∀ v, s.looked f = some v → v = s.version f ∨ f ∈ s.modified) ∧
        (s.good = true → (∀ ws, s.phase = .built ws → f ∈ ws → s.looked f ≠ none) ∧ ((∀ ws, s.phase ≠ .built ws) → s.looked f ≠ none)) ∧
        (s.phase = .building → s.good = false) ∧ (∀ ws, s.phase = .built ws → s.good = true)) ∨
     (f ∉ l ∧ s.phase ≠ .building ∧ ∀ ws, s.phase ≠ .built ws))

theorem inv_step (dir : Nat → Nat) (f : Nat) (s t : St) (e : Ev) (hi : Inv dir f s) (he : e ≠ .reset) (hs : step dir s e = some t) : Inv dir f t := by
  obtain ⟨l, hl, hi⟩ := hi
  cases e with
  | touch g =>
    simp only [step, Option.some.injEq] at hs
    subst hs
    refine ⟨l, hl, ?_⟩
    rcases hi with ⟨h1, h2, h3, h4, h5, h6⟩ | h
    · refine Or.inl ⟨h1, h2, ?_, h4, h5, h6⟩
      intro v hv
      simp only
      by_cases hg : g = f
      · subst hg
        right
        have : delivered dir s g = true := by simp [delivered, hl, h1, h2]
        rw [if_pos this]
        simp
      · rw [if_neg (Ne.symm hg)]
        rcases h3 v hv with h | h
        · exact Or.inl h
        · right
          split
          · exact List.mem_cons_of_mem _ h
          · exact h
    · exact Or.inr h
  | check =>
    simp only [step] at hs
    split at hs
    · rename_i hp
      split at hs
      · obtain rfl := Option.some.inj hs
        refine ⟨l, hl, ?_⟩
        rcases hi with ⟨h1, h2, h3, h4, h5, h6⟩ | h
        · refine Or.inl ⟨h1, h2, h3, ?_, by simp, by simp⟩
          intro hg
          exact ⟨by simp, fun _ => (h4 hg).2 (by simp [hp])⟩
        · exact Or.inr ⟨h.1, by simp, by simp⟩
      · obtain rfl := Option.some.inj hs
        exact ⟨l, hl, hi⟩
    · cases hs
  | reset => exact absurd rfl he
  | look g =>
    simp only [step] at hs
    split at hs
    · rename_i hp
      obtain rfl := Option.some.inj hs
      refine ⟨l, hl, ?_⟩
      rcases hi with ⟨h1, h2, h3, h4, h5, h6⟩ | h
      · refine Or.inl ⟨h1, h2, ?_, ?_, h5, h6⟩
        · intro v hv
          simp only at hv ⊢
          split at hv
          · rename_i hfg
            subst hfg
            cases hk : s.looked f with
            | none => rw [hk] at hv; simp at hv; exact Or.inl hv.symm
            | some w => rw [hk] at hv; simp at hv; exact h3 v (by rw [hk, hv])
          · exact h3 v hv
        · intro hg
          simp only at hg
          rw [h5 hp] at hg
          cases hg
      · exact absurd hp h.2.1
    · cases hs
  | finish r =>
    cases r with
    | none =>
      simp only [step] at hs
      split at hs
      · rename_i hp
        obtain rfl := Option.some.inj hs
        refine ⟨l, hl, ?_⟩
        rcases hi with ⟨h1, h2, h3, h4, h5, h6⟩ | h
        · refine Or.inl ⟨h1, h2, h3, ?_, by simp, by simp⟩
          intro hg
          simp only at hg
          rw [h5 hp] at hg
          cases hg
        · exact absurd hp h.2.1
      · cases hs
    | some ws =>
      simp only [step] at hs
      split at hs
      · rename_i hp
        split at hs
        · rename_i hw
          obtain rfl := Option.some.inj hs
          refine ⟨l, hl, ?_⟩
          rcases hi with ⟨h1, h2, h3, h4, h5, h6⟩ | h
          · refine Or.inl ⟨h1, h2, h3, ?_, by simp, by simp⟩
            intro _
            refine ⟨?_, fun h => absurd rfl (h ws)⟩
            intro ws' e hf
            simp only [Phase.built.injEq] at e
            subst e
            have := List.all_eq_true.1 hw f hf
            intro hn
            simp only at hn
            rw [hn] at this
            cases this
          · exact absurd hp h.2.1
        · cases hs
      · cases hs
  | setList =>
    simp only [step] at hs
    split at hs
    · rename_i ws hp
      obtain rfl := Option.some.inj hs
      refine ⟨ws, rfl, ?_⟩
      rcases hi with ⟨h1, h2, h3, h4, h5, h6⟩ | h
      · by_cases hf : f ∈ ws
        · refine Or.inl ⟨hf, h2, h3, ?_, by simp, by simp⟩
          intro hg
          exact ⟨by simp, fun _ => (h4 hg).1 ws hp hf⟩
        · exact Or.inr ⟨hf, by simp, by simp⟩
      · exact absurd hp (h.2.2 ws)
    · cases hs
  | schedule =>
    simp only [step] at hs
    split at hs
    · rename_i hp
      obtain rfl := Option.some.inj hs
      refine ⟨l, hl, ?_⟩
      rcases hi with ⟨h1, h2, h3, h4, h5, h6⟩ | h
      · refine Or.inl ⟨h1, h2, h3, ?_, by simp, by simp⟩
        intro hg
        exact ⟨by simp, fun _ => (h4 hg).2 (by simp [hp])⟩
      · exact Or.inr ⟨h.1, by simp, by simp⟩
    · rename_i g r hp
      obtain rfl := Option.some.inj hs
      refine ⟨l, hl, ?_⟩
      rcases hi with ⟨h1, h2, h3, h4, h5, h6⟩ | h
      · refine Or.inl ⟨h1, List.mem_cons_of_mem _ h2, h3, ?_, by simp, by simp⟩
        intro hg
        exact ⟨by simp, fun _ => (h4 hg).2 (by simp [hp])⟩
      · exact Or.inr ⟨h.1, by simp, by simp⟩
    · cases hs

theorem inv_run (dir : Nat → Nat) (f : Nat) : ∀ (es : List Ev) (s t : St), Inv dir f s → Ev.reset ∉ es → run dir s es = some t → Inv dir f t := by
  intro es
  induction es with
  | nil => intro s t hi _ h; obtain rfl := Option.some.inj h; exact hi
  | cons e es ih =>
    intro s t hi hn h
    simp only [run] at h
    split at h
    · cases h
    · rename_i u hu
      exact ih u t (inv_step dir f s u e hi (fun h => hn (by simp [h])) hu) (fun h => hn (by simp [h])) h

/-- **C75** (nothing is missed). Whatever happens and in whatever order: let a build start while a file is watched, and end well. When the loop waits again, the build has seen the file as it is
now, or the file is among those whose modification starts the next build, or it is no longer on the list. -/
theorem nothing_missed (dir : Nat → Nat) (f : Nat) (s s1 s2 : St) (es : List Ev) (hw : Watched dir s f) (h1 : step dir s .reset = some s1)
    (hes : Ev.reset ∉ es) (h2 : run dir s1 es = some s2) (hp : s2.phase = .waiting) (hg : s2.good = true) (hl : ∃ l, s2.list = some l ∧ f ∈ l) :
    s2.looked f = some (s2.version f) ∨ f ∈ s2.modified := by
  obtain ⟨l, hsl, hf, hd⟩ := hw
  have hi : Inv dir f s1 := by
    simp only [step] at h1
    split at h1
    · obtain rfl := Option.some.inj h1
      exact ⟨l, hsl, Or.inl ⟨hf, hd, by simp, by simp, by simp, by simp⟩⟩
    · cases h1
  obtain ⟨l2, e2, h⟩ := inv_run dir f es s1 s2 hi hes h2
  obtain ⟨l2', e2', hf2⟩ := hl
  rw [e2] at e2'
  obtain rfl := Option.some.inj e2'
  rcases h with ⟨_, _, h3, h4, _, _⟩ | h
  · have hn := (h4 hg).2 (by simp [hp])
    cases hk : s2.looked f with
    | none => exact absurd hk hn
    | some v =>
      rcases h3 v hk with h | h
      · left; rw [h]
      · exact Or.inr h
  · exact absurd hf2 h.1

/-- Steps of the loop itself. -/
def Ev.ofLoop : Ev → Bool
  | .touch _ => false
  | _ => true

/-- **C75** (a modification leads to a build). While modifications are pending the waiting loop has nothing else to do than to notice them and then to start a build, no
matter how many files are modified in between; with none pending and a list it goes on waiting. -/
theorem build_follows (dir : Nat → Nat) (s : St) :
    (s.phase = .waiting → (s.modified ≠ [] ∨ s.list = none) → ∀ e t, e.ofLoop = true → step dir s e = some t →
      e = .check ∧ t.phase = .noticed ∧ t.modified = s.modified) ∧
    (s.phase = .noticed → ∀ e t, e.ofLoop = true → step dir s e = some t → e = .reset ∧ t.phase = .building) ∧
    (s.phase = .waiting → s.modified = [] → s.list ≠ none → ∀ e t, e.ofLoop = true → step dir s e = some t → t = s) ∧
    (∀ f t, step dir s (.touch f) = some t → t.phase = s.phase ∧ t.list = s.list ∧ (∀ g ∈ s.modified, g ∈ t.modified) ∧
      (f ∈ t.modified ↔ f ∈ s.modified ∨ Watched dir s f)) ∧
    (∃ e t, e.ofLoop = true ∧ step dir s e = some t) := by
  refine ⟨?_, ?_, ?_, ?_, ?_⟩
  · intro hp hm e t he h
    cases e with
    | touch f => cases he
    | check =>
      simp only [step, hp] at h
      rw [if_pos hm] at h
      obtain rfl := Option.some.inj h
      exact ⟨rfl, rfl, rfl⟩
    | finish r => cases r <;> simp [step, hp] at h
    | reset | look | setList | schedule => simp [step, hp] at h
  · intro hp e t he h
    cases e with
    | touch f => cases he
    | reset =>
      simp only [step, hp] at h
      obtain rfl := Option.some.inj h
      exact ⟨rfl, rfl⟩
    | finish r => cases r <;> simp [step, hp] at h
    | check | look | setList | schedule => simp [step, hp] at h
  · intro hp hm hl e t he h
    cases e with
    | touch f => cases he
    | check =>
      simp only [step, hp] at h
      rw [if_neg (by simp [hm, hl])] at h
      exact (Option.some.inj h).symm
    | finish r => cases r <;> simp [step, hp] at h
    | reset | look | setList | schedule => simp [step, hp] at h
  · intro f t h
    simp only [step] at h
    obtain rfl := Option.some.inj h
    refine ⟨rfl, rfl, ?_, ?_⟩
    · intro g hg
      simp only
      split
      · exact List.mem_cons_of_mem _ hg
      · exact hg
    · have hd : delivered dir s f = true ↔ Watched dir s f := by
        unfold delivered Watched
        split
        · rename_i hl; simp [hl]
        · rename_i l hl; simp [hl]
      simp only
      by_cases hc : delivered dir s f = true
      · rw [if_pos hc]; simp [hd.1 hc]
      · rw [if_neg hc]; exact ⟨Or.inl, fun h => h.elim id fun h => absurd (hd.2 h) hc⟩
  · cases hp : s.phase with
    | waiting =>
      by_cases hm : s.modified ≠ [] ∨ s.list = none
      · exact ⟨.check, _, rfl, by simp only [step, hp]; rw [if_pos hm]⟩
      · exact ⟨.check, _, rfl, by simp only [step, hp]; rw [if_neg hm]⟩
    | noticed => exact ⟨.reset, _, rfl, by simp only [step, hp]; rfl⟩
    | building => exact ⟨.finish none, _, rfl, by simp only [step, hp]; rfl⟩
    | built ws => exact ⟨.setList, _, rfl, by simp only [step, hp]; rfl⟩
    | scheduling r =>
      cases r with
      | nil => exact ⟨.schedule, _, rfl, by simp only [step, hp]; rfl⟩
      | cons g r => exact ⟨.schedule, _, rfl, by simp only [step, hp]; rfl⟩

/-- **C75** (no build without a reason). In any history from the start, if a build starts, then no build has ended well so far, or a file that was on the list and observed was modified since the last build
started. -/
theorem build_has_reason (dir : Nat → Nat) (version : Nat → Nat) (es : List Ev) (s t : St) (h : run dir (.start version) es = some s)
    (ht : step dir s .reset = some t) :
    (∀ e ∈ es, e ≠ .setList) ∨ ∃ f es1 es2 u, es = es1 ++ .touch f :: es2 ∧ Ev.reset ∉ es2 ∧ run dir (.start version) es1 = some u ∧ Watched dir u f := by
  have key : ∀ (es : List Ev) (s : St), run dir (.start version) es = some s →
      (s.list = none → ∀ e ∈ es, e ≠ .setList) ∧ (s.phase = .noticed → s.modified ≠ [] ∨ s.list = none) ∧
      (∀ f ∈ s.modified, ∃ es1 es2 u, es = es1 ++ .touch f :: es2 ∧ Ev.reset ∉ es2 ∧ run dir (.start version) es1 = some u ∧ Watched dir u f) := by
    intro es
    induction es using snoc_ind with
    | nil =>
      intro s h
      obtain rfl := Option.some.inj h
      exact ⟨by simp, by simp [St.start], by simp [St.start]⟩
    | snoc es e ih =>
      intro s h
      rw [run_append] at h
      cases hu : run dir (.start version) es with
      | none => rw [hu] at h; cases h
      | some u =>
        rw [hu] at h
        simp only [Option.bind_some, run] at h
        cases hv : step dir u e with
        | none => rw [hv] at h; cases h
        | some v =>
          rw [hv] at h
          obtain rfl := Option.some.inj h
          obtain ⟨i1, i2, i3⟩ := ih u hu
          have ext : ∀ f, (∃ es1 es2 w, es = es1 ++ Ev.touch f :: es2 ∧ Ev.reset ∉ es2 ∧ run dir (.start version) es1 = some w ∧ Watched dir w f) → e ≠ .reset →
              ∃ es1 es2 w, es ++ [e] = es1 ++ Ev.touch f :: es2 ∧ Ev.reset ∉ es2 ∧ run dir (.start version) es1 = some w ∧ Watched dir w f := by
            rintro f ⟨es1, es2, w, h1, h2, h3, h4⟩ hne
            refine ⟨es1, es2 ++ [e], w, by simp [h1], ?_, h3, h4⟩
            simp only [List.mem_append, List.mem_singleton, not_or]
            exact ⟨h2, fun h => hne h.symm⟩
          have lst : (v.list = none → u.list = none) → e ≠ .setList → v.list = none → ∀ e' ∈ es ++ [e], e' ≠ .setList := by
            intro h1 h2 h3 e' he'
            rcases List.mem_append.1 he' with h | h
            · exact i1 (h1 h3) e' h
            · rw [List.mem_singleton.1 h]; exact h2
          cases e with
          | touch f =>
            obtain ⟨b1, b2, b3, b4⟩ := (build_follows dir u).2.2.2.1 f v hv
            refine ⟨lst (by rw [b2]; exact id) (by simp), ?_, ?_⟩
            · intro hp
              rw [b1] at hp
              rw [b2]
              rcases i2 hp with h | h
              · left
                obtain ⟨g, hg⟩ := List.exists_mem_of_ne_nil _ h
                exact List.ne_nil_of_mem (b3 g hg)
              · exact Or.inr h
            · intro g hg
              by_cases hgf : g = f
              · subst hgf
                rcases b4.1 hg with h | h
                · exact ext g (i3 g h) (by simp)
                · exact ⟨es, [], u, rfl, by simp, hu, h⟩
              · refine ext g (i3 g ?_) (by simp)
                simp only [step] at hv
                obtain rfl := Option.some.inj hv
                simp only at hg
                split at hg
                · rcases List.mem_cons.1 hg with h | h
                  · exact absurd h hgf
                  · exact h
                · exact hg
          | check =>
            simp only [step] at hv
            split at hv
            · rename_i hp
              split at hv
              · rename_i hc
                obtain rfl := Option.some.inj hv
                exact ⟨lst id (by simp), fun _ => hc, fun f hf => ext f (i3 f hf) (by simp)⟩
              · obtain rfl := Option.some.inj hv
                refine ⟨lst id (by simp), fun h => ?_, fun f hf => ext f (i3 f hf) (by simp)⟩
                rw [hp] at h; cases h
            · cases hv
          | reset =>
            simp only [step] at hv
            split at hv
            · obtain rfl := Option.some.inj hv
              exact ⟨lst id (by simp), by simp, by simp⟩
            · cases hv
          | look g =>
            simp only [step] at hv
            split at hv
            · rename_i hp
              obtain rfl := Option.some.inj hv
              refine ⟨lst id (by simp), fun h => ?_, fun f hf => ext f (i3 f hf) (by simp)⟩
              simp only at h
              rw [hp] at h; cases h
            · cases hv
          | finish r =>
            cases r with
            | none =>
              simp only [step] at hv
              split at hv
              · obtain rfl := Option.some.inj hv
                exact ⟨lst id (by simp), by simp, fun f hf => ext f (i3 f hf) (by simp)⟩
              · cases hv
            | some ws =>
              simp only [step] at hv
              split at hv
              · split at hv
                · obtain rfl := Option.some.inj hv
                  exact ⟨lst id (by simp), by simp, fun f hf => ext f (i3 f hf) (by simp)⟩
                · cases hv
              · cases hv
          | setList =>
            simp only [step] at hv
            split at hv
            · obtain rfl := Option.some.inj hv
              exact ⟨by simp, by simp, fun f hf => ext f (i3 f hf) (by simp)⟩
            · cases hv
          | schedule =>
            simp only [step] at hv
            split at hv
            · obtain rfl := Option.some.inj hv
              exact ⟨lst id (by simp), by simp, fun f hf => ext f (i3 f hf) (by simp)⟩
            · obtain rfl := Option.some.inj hv
              exact ⟨lst id (by simp), by simp, fun f hf => ext f (i3 f hf) (by simp)⟩
            · cases hv
  obtain ⟨k1, k2, k3⟩ := key es s h
  have hp : s.phase = .noticed := by
    simp only [step] at ht
    split at ht
    · assumption
    · cases ht
  rcases k2 hp with h | h
  · right
    obtain ⟨f, hf⟩ := List.exists_mem_of_ne_nil _ h
    obtain ⟨a, b, c, d⟩ := k3 f hf
    exact ⟨f, a, b, c, d⟩
  · exact Or.inl (k1 h)

/-- **C75** (nothing old). What a build has seen of a file is never older than the file was when the build started. -/
theorem nothing_old (dir : Nat → Nat) (f : Nat) (s s1 : St) (h1 : step dir s .reset = some s1) : ∀ (es : List Ev) (s2 : St), Ev.reset ∉ es →
    run dir s1 es = some s2 → ∀ v, s2.looked f = some v → s.version f ≤ v ∧ v ≤ s2.version f := by
  have base : (∀ v, s1.looked f = some v → s.version f ≤ v ∧ v ≤ s1.version f) ∧ s.version f ≤ s1.version f := by
    simp only [step] at h1
    split at h1
    · obtain rfl := Option.some.inj h1
      exact ⟨by simp, Nat.le_refl _⟩
    · cases h1
  have key : ∀ (es : List Ev) (a b : St), Ev.reset ∉ es → run dir a es = some b →
      ((∀ v, a.looked f = some v → s.version f ≤ v ∧ v ≤ a.version f) ∧ s.version f ≤ a.version f) →
      ((∀ v, b.looked f = some v → s.version f ≤ v ∧ v ≤ b.version f) ∧ s.version f ≤ b.version f) := by
    intro es
    induction es with
    | nil => intro a b _ h hi; obtain rfl := Option.some.inj h; exact hi
    | cons e es ih =>
      intro a b hn h hi
      simp only [run] at h
      split at h
      · cases h
      · rename_i c hc
        refine ih c b (fun h => hn (by simp [h])) h ?_
        obtain ⟨i1, i2⟩ := hi
        cases e with
        | touch g =>
          simp only [step] at hc
          obtain rfl := Option.some.inj hc
          simp only
          split
          · exact ⟨fun v hv => by have := i1 v hv; omega, by omega⟩
          · exact ⟨i1, i2⟩
        | reset => exact absurd (by simp) hn
        | look g =>
          simp only [step] at hc
          split at hc
          · obtain rfl := Option.some.inj hc
            refine ⟨?_, i2⟩
            intro v hv
            simp only at hv ⊢
            split at hv
            · cases hk : a.looked f with
              | none => rw [hk] at hv; simp at hv; omega
              | some w => rw [hk] at hv; simp at hv; subst hv; exact i1 w hk
            · exact i1 v hv
          · cases hc
        | finish r =>
          cases r with
          | none =>
            simp only [step] at hc
            split at hc
            · obtain rfl := Option.some.inj hc; exact ⟨i1, i2⟩
            · cases hc
          | some ws =>
            simp only [step] at hc
            split at hc
            · split at hc
              · obtain rfl := Option.some.inj hc; exact ⟨i1, i2⟩
              · cases hc
            · cases hc
        | check =>
          simp only [step] at hc
          split at hc
          · split at hc <;> (obtain rfl := Option.some.inj hc; exact ⟨i1, i2⟩)
          · cases hc
        | setList =>
          simp only [step] at hc
          split at hc
          · obtain rfl := Option.some.inj hc; exact ⟨i1, i2⟩
          · cases hc
        | schedule =>
          simp only [step] at hc
          split at hc
          · obtain rfl := Option.some.inj hc; exact ⟨i1, i2⟩
          · obtain rfl := Option.some.inj hc; exact ⟨i1, i2⟩
          · cases hc
  intro es s2 hn h
  exact (key es s1 s2 hn h base).1

/-- What is known of a state at the end. -/
def stale (s : St) (f : Nat) : Prop := s.phase = .waiting ∧ s.modified = [] ∧ s.looked f ≠ some (s.version f)

/-- **C75** (a fault: the first build). A file modified while the first build is running, after it was read, is not built again: the loop waits, nothing is pending, and the
build has an old version. -/
theorem first_build_window : ∃ s, run (fun _ => 0) (.start fun _ => 0) [.check, .reset, .look 5, .touch 5, .finish (some [5]), .setList, .schedule, .schedule] = some s ∧
    s.good = true ∧ s.list = some [5] ∧ stale s 5 :=
  ⟨_, rfl, rfl, rfl, rfl, rfl, by decide⟩

/-- **C75** (a fault: files that are new to a build). The same for a file that a later build uses for the first time, although all others are watched by then. -/
theorem new_file_window : ∃ s, run (fun _ => 0) (.start fun _ => 0)
      [.check, .reset, .look 5, .finish (some [5]), .setList, .schedule, .schedule, .touch 5, .check, .reset, .look 5, .look 6, .touch 6, .finish (some [5, 6]), .setList,
        .schedule, .schedule, .schedule] = some s ∧ s.good = true ∧ s.list = some [5, 6] ∧ stale s 6 :=
  ⟨_, rfl, rfl, rfl, rfl, rfl, by decide⟩

/-- **C75** (a failed build). After a build that failed, unless none has ended well before, the loop waits for the next modification although the last one has not been built. -/
theorem failed_build_window : ∃ s, run (fun _ => 0) (.start fun _ => 0)
      [.check, .reset, .look 5, .finish (some [5]), .setList, .schedule, .schedule, .touch 5, .check, .reset, .finish none] = some s ∧ s.good = false ∧ stale s 5 ∧
    ∀ t, step (fun _ => 0) s .check = some t → t.phase = .waiting := by
  refine ⟨_, rfl, rfl, ⟨rfl, rfl, by decide⟩, ?_⟩
  intro t h
  simp [step, St.start] at h
  rw [← h]

/-- A modification during the second build leads to a third: the conditions of `nothing_missed` can be met. -/
example : ∃ s s1 s2, run (fun _ => 0) (.start fun _ => 0) [.check, .reset, .look 5, .finish (some [5]), .setList, .schedule, .schedule, .touch 5, .check] = some s ∧
    Watched (fun _ => 0) s 5 ∧ step (fun _ => 0) s .reset = some s1 ∧
    run (fun _ => 0) s1 [.look 5, .touch 5, .finish (some [5]), .setList, .schedule, .schedule] = some s2 ∧ s2.phase = .waiting ∧ s2.good = true ∧ s2.modified = [5] :=
  ⟨_, _, _, rfl, ⟨[5], rfl, by decide, by decide⟩, rfl, rfl, rfl, rfl, rfl⟩

end Grf.Watch
