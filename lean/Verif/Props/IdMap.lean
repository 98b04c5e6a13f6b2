import Verif.Proofs.IdMap
/-!
# C34: item ids are unique and stable

A history is a list of builds over one id map file; each build makes any calls in any order, then saves. The file may be
lost or broken only in ways that make `resolve` raise, which is not the subject here: the file a history starts from is
sound (`Doc.Sound`), as the one made by `init_id_map` and every saved one is.
-/
namespace Grf.IdMap

/-- **C34** (uniqueness and stability). In any history of builds starting from a sound file, every named item gets an id,
two requests for the same feature get the same id if and only if they name the same item, and names the first file already
knew keep the id it says. -/
theorem ids_unique_and_stable {d : Doc} (hd : d.Sound) (builds : List (List Call)) :
    ∀ a ∈ (runBuilds (some d) builds).flatten, ∀ n, a.value = .str n →
      (∃ i, a.result = some i) ∧ (∀ i, d.says a.feature n = some i → a.result = some i) ∧
      ∀ b ∈ (runBuilds (some d) builds).flatten, ∀ m, b.value = .str m → a.feature = b.feature →
        (a.result = b.result ↔ n = m) := by
  obtain ⟨d', s', o', n'⟩ := runBuilds_ok builds d hd
  intro a ha n hn
  obtain ⟨i, h1, h2⟩ := n' a ha n hn
  refine ⟨⟨i, h1⟩, ?_, ?_⟩
  · intro j hj
    have := o' _ _ _ hj
    rw [h2] at this
    rw [h1, this]
  · intro b hb m hm hf
    obtain ⟨j, h3, h4⟩ := n' b hb m hm
    rw [h1, h3]
    constructor
    · intro e
      injection e with e
      subst e
      rw [← hf] at h4
      exact s'.unique _ _ _ _ h2 h4
    · rintro rfl
      rw [← hf, h2] at h4
      rw [h4]

/-- **C34** (the saved file). Saving at the end of a build keeps every assignment of the old file, records every id the
build handed out to a name, invents nothing, and gives a sound file again, so loading it restores all of them. -/
theorem save_then_load_preserves {d : Doc} (hd : d.Sound) (calls : List Call) :
    ∃ d', (runBuild (some d) calls).1 = some d' ∧ d'.Sound ∧
      (∀ f n i, d.says f n = some i → d'.says f n = some i) ∧
      (∀ f n i, ⟨f, .str n, some i⟩ ∈ (runBuild (some d) calls).2 → d'.says f n = some i) ∧
      (∀ f n i, d'.says f n = some i → d.says f n = some i ∨ ⟨f, .str n, some i⟩ ∈ (runBuild (some d) calls).2) := by
  obtain ⟨d', h1, h2, h3, h4, _, h6⟩ := runBuild_ok hd calls
  refine ⟨d', h1, h2, h3, ?_, ?_⟩
  · intro f n i ha
    obtain ⟨j, hj, hs⟩ := h4 _ ha n rfl
    simp only [Option.some.injEq] at hj
    rw [hj]; exact hs
  · intro f n i hi
    cases hL : d.says f n with
    | none => exact .inr (h6 f n i hi hL)
    | some j =>
      left
      have := h3 f n j hL
      rw [hi] at this
      rw [this]

/-- **C34** (numbers chosen by hand). An integer is answered with itself, and within a build it never equals the id of a
name that was not in the file, whichever of the two was asked for first: either the automatic choice avoids the number or
the number is refused.
Partial: for names loaded from the file this fails, see `loaded_id_taken_again`. -/
theorem manual_ids_differ_partial {d : Doc} (hd : d.Sound) (calls : List Call) :
    ∀ a ∈ (runBuild (some d) calls).2, ∀ v i, a.value = .int v → a.result = some i → i = v ∧
      ∀ b ∈ (runBuild (some d) calls).2, ∀ n, b.value = .str n → b.feature = a.feature → d.says b.feature n = none →
        b.result ≠ some v := by
  obtain ⟨d', h1, h2, h3, h4, h5, _⟩ := runBuild_ok hd calls
  intro a ha v i hv hr
  obtain ⟨e, h⟩ := h5 a ha v i hv hr
  refine ⟨e, ?_⟩
  intro b hb n hn hf hnone hbv
  obtain ⟨j, hj, hs⟩ := h4 b hb n hn
  rw [hbv] at hj
  injection hj with hj
  subst hj
  rw [hf] at hs hnone
  rw [h n hs] at hnone
  cases hnone

/-! ## reserved ids -/

theorem runCalls_append (file : Option Doc) (c1 c2 : List Call) : ∀ s,
    runCalls file s (c1 ++ c2) =
      ((runCalls file (runCalls file s c1).1 c2).1, (runCalls file s c1).2 ++ (runCalls file (runCalls file s c1).1 c2).2) := by
  induction c1 with
  | nil => intro s; simp [runCalls]
  | cons c c1 ih =>
    intro s
    cases c with
    | resolve f v => simp only [List.cons_append, runCalls, ih]
    | reserve ids => simp only [List.cons_append, runCalls, ih]

theorem answer_asked (file : Option Doc) (cs : List Call) : ∀ s, ∀ a ∈ (runCalls file s cs).2,
    Call.resolve a.feature a.value ∈ cs := by
  induction cs with
  | nil => intro s a ha; simp [runCalls] at ha
  | cons c cs ih =>
    intro s a ha
    cases c with
    | resolve f v =>
      simp only [runCalls, List.mem_cons] at ha
      rcases ha with rfl | ha
      · simp
      · exact List.mem_cons_of_mem _ (ih _ a ha)
    | reserve ids =>
      simp only [runCalls] at ha
      exact List.mem_cons_of_mem _ (ih _ a ha)

/-- `v` is marked and not the id of `n`. -/
theorem avoid_run (file : Option Doc) (f : Feat) (v : Int) (n : String) (cs : List Call) : ∀ s, s.loaded = true →
    (f, Value.int v) ∈ s.manualIds → s.index.lookup (f, n) ≠ some v →
    ∀ a ∈ (runCalls file s cs).2, a.feature = f → a.value = .str n → a.result ≠ some v := by
  induction cs with
  | nil => intro s _ _ _ a ha; simp [runCalls] at ha
  | cons c cs ih =>
    intro s hl hm hi a ha
    cases c with
    | reserve ids =>
      simp only [runCalls] at ha
      exact ih (reserve s ids) hl (List.mem_append_left _ hm) hi a ha
    | resolve g w =>
      simp only [runCalls, resolve_of_loaded hl, List.mem_cons] at ha
      cases w with
      | int w =>
        simp only [resolveLoaded] at ha
        split at ha
        · rcases ha with rfl | ha
          · intro _ h; cases h
          · exact ih s hl hm hi a ha
        · rcases ha with rfl | ha
          · intro _ h; cases h
          · refine ih { s with manualIds := s.manualIds ++ [(g, .int w)] } ?_ (List.mem_append_left _ hm) ?_ a ha
            · exact hl
            · exact hi
      | str m =>
        simp only [resolveLoaded] at ha
        cases hk : s.index.lookup (g, m) with
        | some j =>
          simp only [hk] at ha
          rcases ha with rfl | ha
          · rintro rfl h
            cases h
            rw [← hk]
            exact hi
          · exact ih s hl hm hi a ha
        | none =>
          simp only [hk] at ha
          generalize hj : skip s.manualIds g s.manualIds.length ((s.nextId.lookup g).getD (minId g)) = j at ha
          have hfree : (g, Value.int j) ∉ s.manualIds := hj ▸ skip_free g _ _ _ (Nat.le_refl _)
          rcases ha with rfl | ha
          · rintro rfl _ e
            injection e with e
            subst e
            exact hfree hm
          · refine ih _ ?_ ?_ ?_ a ha
            · exact hl
            · exact hm
            · simp only [lookup_dictSet, Prod.mk.injEq]
              split
              · rename_i e
                intro e'
                injection e' with e'
                subst e'
                rw [← e.1] at hfree
                exact hfree hm
              · exact hi

theorem avoid_fresh {d : Doc} (hd : d.Sound) (f : Feat) (v : Int) (n : String) (hn : d.says f n = none) (cs : List Call) :
    ∀ s, Fresh s → (f, Value.int v) ∈ s.manualIds →
    ∀ a ∈ (runCalls (some d) s cs).2, a.feature = f → a.value = .str n → a.result ≠ some v := by
  induction cs with
  | nil => intro s _ _ a ha; simp [runCalls] at ha
  | cons c cs ih =>
    intro s hs hm a ha
    cases c with
    | reserve ids =>
      simp only [runCalls] at ha
      exact ih (reserve s ids) ⟨hs.loaded, hs.index, hs.nextId, hs.autoIds⟩ (List.mem_append_left _ hm) a ha
    | resolve g w =>
      obtain ⟨s', h1, I, hm'⟩ := load_ok hd hs
      have e : resolve (some d) s g w = resolve (some d) s' g w := by simp [resolve, h1, load_idem h1]
      have e2 : (runCalls (some d) s (.resolve g w :: cs)) = runCalls (some d) s' (.resolve g w :: cs) := by
        simp only [runCalls, e]
      rw [e2] at ha
      refine avoid_run (some d) f v n _ s' I.loaded (hm' ▸ hm) ?_ a ha
      intro hv
      have := I.asked f n v hv hn
      cases this

/-- **C34** (reserved ids). Ids marked with `reserve_ids` are never chosen afterwards for a name that has no id yet. -/
theorem reserved_ids_avoided {d : Doc} (hd : d.Sound) (before after : List Call) (ids : List (Feat × Value))
    (f : Feat) (v : Int) (n : String) (hv : (f, .int v) ∈ ids) (hfile : d.says f n = none)
    (hbefore : Call.resolve f (.str n) ∉ before) :
    ∀ a ∈ (runBuild (some d) (before ++ .reserve ids :: after)).2, a.feature = f → a.value = .str n →
      a.result ≠ some v := by
  intro a ha hf hn
  simp only [runBuild] at ha
  rw [runCalls_append] at ha
  simp only [runCalls, List.mem_append] at ha
  rcases ha with ha | ha
  · have := answer_asked _ _ _ a ha
    rw [hf, hn] at this
    exact absurd this hbefore
  · rcases runCalls_fresh hd before {} ⟨rfl, rfl, rfl, rfl⟩ with ⟨h1, _⟩ | I
    · refine avoid_fresh hd f v n hfile after (reserve _ ids) ⟨h1.loaded, h1.index, h1.nextId, h1.autoIds⟩ ?_ a ha hf hn
      exact List.mem_append_right _ hv
    · refine avoid_run (some d) f v n after _ ?_ ?_ ?_ a ha hf hn
      · exact I.loaded
      · exact List.mem_append_right _ hv
      · intro h
        have := answer_asked _ _ _ _ (I.asked f n v h hfile)
        exact hbefore this

/-! ## what does not hold -/

/-- The file after `init_id_map` is sound. -/
theorem emptyDoc_sound : emptyDoc.Sound :=
  ⟨rfl, by simp [emptyDoc], by simp [emptyDoc], by simp [emptyDoc], by simp [emptyDoc, Doc.says]⟩

/-- Negative result for C34: the ids loaded from the file do not block numbers chosen by hand. The first build gives the
name `a` an automatic id; the second build accepts the same number for another vehicle and still answers it for `a`. -/
theorem loaded_id_taken_again : ∃ f i, runBuilds (some emptyDoc)
      [[.resolve f (.str "a")], [.resolve f (.str "a"), .resolve f (.int i)]]
    = [[⟨f, .str "a", some i⟩], [⟨f, .str "a", some i⟩, ⟨f, .int i, some i⟩]] :=
  ⟨0, 300, by decide +kernel⟩

/-- In contrast, within the build that made the choice the number is refused. -/
theorem fresh_id_not_taken_again : ∃ f i, runBuilds (some emptyDoc) [[.resolve f (.str "a"), .resolve f (.int i)]]
    = [[⟨f, .str "a", some i⟩, ⟨f, .int i, none⟩]] :=
  ⟨0, 300, by decide +kernel⟩

/-- `NewGRF.reserve_ids` never succeeds. -/
theorem reserve_ids_of_grf_fails (s : St) (f : Feat) (ids : List Int) : baseReserveIds s f ids = none := rfl

/-! Non-vacuity: a sound file with two features, and a history over it with a manual id in the way. -/

def sampleDoc : Doc := { version := 1, index := [("train", [("loco", 300), ("wagon", 305)]), ("industry", [("mine", 37)])] }

example : runBuilds (some sampleDoc)
    [[.resolve 0 (.int 306), .reserve [(0, .int 307)], .resolve 0 (.str "tender"), .resolve 10 (.str "farm")],
     [.resolve 0 (.str "tender"), .resolve 0 (.str "loco"), .resolve 0 (.str "new")]]
    = [[⟨0, .int 306, some 306⟩, ⟨0, .str "tender", some 308⟩, ⟨10, .str "farm", some 38⟩],
       [⟨0, .str "tender", some 308⟩, ⟨0, .str "loco", some 300⟩, ⟨0, .str "new", some 309⟩]] := by decide +kernel

example : sampleDoc.Sound := by
  refine ⟨rfl, ?_, by decide +kernel, by decide +kernel, ?_⟩
  · intro e he
    simp only [sampleDoc, List.mem_cons, List.not_mem_nil, or_false] at he
    rcases he with rfl | rfl
    · exact ⟨0, by decide +kernel⟩
    · exact ⟨10, by decide +kernel⟩
  · intro f n m i h1 h2
    by_cases hf : f = 0
    · subst hf
      have e : ∀ k, sampleDoc.says 0 k = if k = "loco" then some 300 else if k = "wagon" then some 305 else none := by
        intro k
        show ([("loco", (300 : Int)), ("wagon", 305)]).lookup k = _
        rw [lookup_cons_ite, lookup_cons_ite]; rfl
      rw [e] at h1 h2
      grind
    · by_cases hg : f = 10
      · subst hg
        have e : ∀ k, sampleDoc.says 10 k = if k = "mine" then some 37 else none := by
          intro k
          show ([("mine", (37 : Int))]).lookup k = _
          rw [lookup_cons_ite]; rfl
        rw [e] at h1 h2
        grind
      · have e : ∀ f : Feat, f ≠ 0 → f ≠ 10 → sampleDoc.index.lookup f.name = none := by decide +kernel
        simp [Doc.says, e f hf hg] at h1

end Grf.IdMap
