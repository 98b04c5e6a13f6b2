import Verif.Props.IdMap
/-!
# C34, exactly: the answer to every call of every build

`id_answer_exact` says, for any position of any build over a sound file, what `resolve` answers there, in terms of the file and of the calls
and answers before.
-/
namespace Grf.IdMap

/-! ## specification -/

/-- The id a name has after the answers so far: the one in the file, or the one answered. -/
def Known (d : Doc) (as : List Answer) (f : Feat) (n : String) (i : Int) : Prop :=
  d.says f n = some i ∨ (d.says f n = none ∧ ⟨f, .str n, some i⟩ ∈ as)

/-- A number the script used: passed to `reserve_ids`, or resolved before without an error. -/
def ByHand (calls : List Call) (as : List Answer) (f : Feat) (v : Int) : Prop :=
  (∃ ids, Call.reserve ids ∈ calls ∧ (f, .int v) ∈ ids) ∨ ⟨f, .int v, some v⟩ ∈ as

/-- Where the search for a new id begins: after the largest id of a name of the feature, but not below 0; at the feature's first id
if no name has one. -/
def Start (d : Doc) (as : List Answer) (f : Feat) (k : Int) : Prop :=
  ((∀ n i, ¬ Known d as f n i) ∧ k = minId f) ∨
  ((∃ n i, Known d as f n i) ∧ 0 ≤ k ∧ (∀ n i, Known d as f n i → i < k) ∧ (k = 0 ∨ ∃ n, Known d as f n (k - 1)))

/-! ## loading -/

/-- What `nextId` holds after some entries were loaded. -/
def NextOk (p : List (Feat × String × Int)) (nextId : List (Feat × Int)) (f : Feat) : Prop :=
  match nextId.lookup f with
  | none => ∀ n i, (f, n, i) ∉ p
  | some k => (∃ n i, (f, n, i) ∈ p) ∧ 0 ≤ k ∧ (∀ n i, (f, n, i) ∈ p → i < k) ∧ (k = 0 ∨ ∃ n, (f, n, k - 1) ∈ p)

theorem nextOk_entry {p : List (Feat × String × Int)} {t : Tmp} (h : ∀ f, NextOk p t.nextId f) (g : Feat) (e : String × Int) :
    ∀ f, NextOk (p ++ [(g, e.1, e.2)]) (loadEntry g t e).nextId f := by
  intro f
  have hf := h f
  unfold NextOk at hf ⊢
  simp only [loadEntry]
  rw [lookup_dictSet]
  by_cases hg : f = g
  · subst hg
    rw [if_pos rfl]
    simp only
    refine ⟨⟨e.1, e.2, by simp⟩, ?_, ?_, ?_⟩
    · cases hl : t.nextId.lookup f with
      | none => simp only [Option.getD_none]; omega
      | some k =>
        rw [hl] at hf
        have := hf.2.1
        simp only [Option.getD_some]; omega
    · intro n i hm
      rw [List.mem_append] at hm
      rcases hm with hm | hm
      · cases hl : t.nextId.lookup f with
        | none =>
          rw [hl] at hf
          exact absurd hm (hf n i)
        | some k =>
          rw [hl] at hf
          have := hf.2.2.1 n i hm
          simp only [Option.getD_some]; omega
      · simp only [List.mem_singleton, Prod.mk.injEq] at hm
        rw [hm.2.2]; omega
    · cases hl : t.nextId.lookup f with
      | none =>
        simp only [Option.getD_none]
        by_cases h0 : e.2 + 1 ≤ 0
        · left; omega
        · right
          refine ⟨e.1, ?_⟩
          have : max 0 (e.2 + 1) - 1 = e.2 := by omega
          rw [this]; simp
      | some k =>
        rw [hl] at hf
        simp only [Option.getD_some]
        by_cases h0 : e.2 + 1 ≤ k
        · have : max k (e.2 + 1) = k := by omega
          rw [this]
          rcases hf.2.2.2 with h1 | ⟨n, h1⟩
          · exact .inl h1
          · exact .inr ⟨n, by simp [h1]⟩
        · right
          refine ⟨e.1, ?_⟩
          have : max k (e.2 + 1) - 1 = e.2 := by omega
          rw [this]; simp
  · rw [if_neg hg]
    have hmem : ∀ n i, (f, n, i) ∈ p ++ [(g, e.1, e.2)] ↔ (f, n, i) ∈ p := by
      intro n i; simp [hg]
    simp only [hmem]
    exact hf

theorem nextOk_entries (g : Feat) (es : List (String × Int)) : ∀ (p : List (Feat × String × Int)) (t : Tmp), (∀ f, NextOk p t.nextId f) →
    ∀ f, NextOk (p ++ es.map fun e => (g, e.1, e.2)) (es.foldl (loadEntry g) t).nextId f := by
  induction es with
  | nil => intro p t h; simpa using h
  | cons e es ih =>
    intro p t h
    have := ih _ _ (nextOk_entry h g e)
    simpa [List.append_assoc] using this

theorem nextOk_index (ix : List (String × List (String × Int))) : ∀ (p : List (Feat × String × Int)) (t t' : Tmp), (∀ f, NextOk p t.nextId f) →
    loadIndex ix t = some t' →
    ∃ p', (∀ f, NextOk p' t'.nextId f) ∧ ∀ f n i, (f, n, i) ∈ p' ↔ (f, n, i) ∈ p ∨ ∃ e ∈ ix, e.1 = f.name ∧ (n, i) ∈ e.2 := by
  induction ix with
  | nil =>
    intro p t t' h hl
    simp only [loadIndex, Option.some.injEq] at hl
    subst hl
    exact ⟨p, h, by simp⟩
  | cons e ix ih =>
    intro p t t' h hl
    obtain ⟨fname, es⟩ := e
    simp only [loadIndex, Option.bind_eq_bind, Option.bind_eq_some_iff] at hl
    obtain ⟨g, hg, hl⟩ := hl
    have hg := fromName_eq hg
    obtain ⟨p', h1, h2⟩ := ih _ _ _ (nextOk_entries g es p t h) hl
    refine ⟨p', h1, ?_⟩
    intro f n i
    rw [h2]
    simp only [List.mem_append, List.mem_map, List.mem_cons, Prod.mk.injEq]
    constructor
    · rintro ((h | ⟨e, he, rfl, rfl, rfl⟩) | ⟨e, he, h⟩)
      · exact .inl h
      · exact .inr ⟨_, .inl rfl, hg.symm, he⟩
      · exact .inr ⟨e, .inr he, h⟩
    · rintro (h | ⟨e, rfl | he, h1, h3⟩)
      · exact .inl (.inl h)
      · refine .inl (.inr ⟨(n, i), h3, ?_, rfl, rfl⟩)
        exact name_inj _ _ (hg.trans h1)
      · exact .inr ⟨e, he, h1, h3⟩

/-! ## a build -/

/-- What the attributes of a loaded map are, in terms of the file, the calls and the answers. -/
structure Exact (d : Doc) (s : St) (calls : List Call) (as : List Answer) : Prop where
  inv : Inv d.says s as
  auto : ∀ f v, (f, Value.int v) ∈ s.autoIds ↔ ∃ n, d.says f n = none ∧ ⟨f, .str n, some v⟩ ∈ as
  manual : ∀ f v, (f, Value.int v) ∈ s.manualIds ↔ ByHand calls as f v
  next : ∀ f, Start d as f ((s.nextId.lookup f).getD (minId f))

theorem known_iff {d : Doc} {s : St} {as : List Answer} (I : Inv d.says s as) (f : Feat) (n : String) (i : Int) :
    s.index.lookup (f, n) = some i ↔ Known d as f n i := by
  constructor
  · intro h
    cases hd : d.says f n with
    | none => exact .inr ⟨hd, I.asked f n i h hd⟩
    | some j =>
      have := I.old f n j hd
      rw [h] at this
      exact .inl (this ▸ hd)
  · rintro (h | ⟨_, h⟩)
    · exact I.old f n i h
    · obtain ⟨j, h1, h2⟩ := I.named _ h n rfl
      simp only [Option.some.injEq] at h1
      rw [h1]; exact h2

theorem known_mono {d : Doc} {as : List Answer} {a : Answer} (h : ∀ n i, a.value = .str n → a.result = some i → d.says a.feature n = none →
    a ∈ as) (f : Feat) (n : String) (i : Int) : Known d (as ++ [a]) f n i ↔ Known d as f n i := by
  unfold Known
  constructor
  · rintro (h1 | ⟨h1, h2⟩)
    · exact .inl h1
    · simp only [List.mem_append, List.mem_singleton] at h2
      rcases h2 with h2 | h2
      · exact .inr ⟨h1, h2⟩
      · subst h2
        exact .inr ⟨h1, h n i rfl rfl h1⟩
  · rintro (h1 | ⟨h1, h2⟩)
    · exact .inl h1
    · exact .inr ⟨h1, by simp [h2]⟩

theorem start_congr {d : Doc} {as as' : List Answer} {f : Feat} (h : ∀ n i, Known d as f n i ↔ Known d as' f n i) {k : Int}
    (hs : Start d as f k) : Start d as' f k := by
  simp only [Start, h] at hs
  exact hs

theorem exact_reserve {d : Doc} {s : St} {calls : List Call} {as : List Answer} (E : Exact d s calls as) (ids : List (Feat × Value)) :
    Exact d (reserve s ids) (calls ++ [.reserve ids]) as := by
  refine ⟨inv_reserve E.inv ids, E.auto, ?_, E.next⟩
  intro f v
  simp only [reserve, List.mem_append, E.manual, ByHand, List.mem_singleton]
  constructor
  · rintro ((⟨i, h1, h2⟩ | h) | h)
    · exact .inl ⟨i, .inl h1, h2⟩
    · exact .inr h
    · exact .inl ⟨ids, .inr rfl, h⟩
  · rintro (⟨i, h1 | h1, h2⟩ | h)
    · exact .inl (.inl ⟨i, h1, h2⟩)
    · cases h1; exact .inr h2
    · exact .inl (.inr h)

theorem byHand_snoc {calls : List Call} {as : List Answer} {a : Answer} {g : Feat} {w : Value} (h : ∀ f v, a ≠ ⟨f, .int v, some v⟩) (f : Feat) (v : Int) :
    ByHand (calls ++ [.resolve g w]) (as ++ [a]) f v ↔ ByHand calls as f v := by
  unfold ByHand
  have h1 : ∀ ids, Call.reserve ids ∈ calls ++ [.resolve g w] ↔ Call.reserve ids ∈ calls := by intro ids; simp
  have h2 : ⟨f, .int v, some v⟩ ∈ as ++ [a] ↔ (⟨f, .int v, some v⟩ : Answer) ∈ as := by
    simp only [List.mem_append, List.mem_singleton]
    constructor
    · rintro (h' | h')
      · exact h'
      · exact absurd h'.symm (h f v)
    · exact .inl
  simp only [h1, h2]

theorem skip_least (manual : List (Feat × Value)) (f : Feat) : ∀ (n : Nat) (i j : Int), i ≤ j → j < skip manual f n i → (f, Value.int j) ∈ manual := by
  intro n
  induction n with
  | zero => intro i j h1 h2; simp only [skip] at h2; omega
  | succ n ih =>
    intro i j h1 h2
    simp only [skip] at h2
    split at h2
    · rename_i hm
      by_cases e : j = i
      · rw [e]; exact hm
      · exact ih (i + 1) j (by omega) h2
    · omega

/-- What `resolve` answers after the calls and answers before. -/
def RightAnswer (d : Doc) (calls : List Call) (as : List Answer) (f : Feat) : Value → Option Int → Prop
  | .int v, r => ((∃ n, d.says f n = none ∧ ⟨f, .str n, some v⟩ ∈ as) ∧ r = none) ∨
      ((¬ ∃ n, d.says f n = none ∧ ⟨f, .str n, some v⟩ ∈ as) ∧ r = some v)
  | .str n, r => (∃ i, Known d as f n i ∧ r = some i) ∨
      ((∀ i, ¬ Known d as f n i) ∧ ∃ k i, Start d as f k ∧ r = some i ∧ k ≤ i ∧ ¬ ByHand calls as f i ∧ ∀ j, k ≤ j → j < i → ByHand calls as f j)

theorem exact_resolve {d : Doc} {s : St} {calls : List Call} {as : List Answer} (E : Exact d s calls as) (f : Feat) (v : Value) :
    RightAnswer d calls as f v (resolveLoaded s f v).2 ∧
    Exact d (resolveLoaded s f v).1 (calls ++ [.resolve f v]) (as ++ [⟨f, v, (resolveLoaded s f v).2⟩]) := by
  have I' := inv_resolve E.inv f v
  cases v with
  | int v =>
    simp only [resolveLoaded] at I' ⊢
    split
    · rename_i hm
      rw [if_pos hm] at I'
      refine ⟨.inl ⟨(E.auto f v).mp hm, rfl⟩, I', ?_, ?_, ?_⟩
      · intro g w
        rw [E.auto]
        simp
      · intro g w
        rw [E.manual, byHand_snoc (by intro f v h; cases h)]
      · intro g
        exact start_congr (fun n i => (known_mono (by intro n i h; cases h) g n i).symm) (E.next g)
    · rename_i hm
      rw [if_neg hm] at I'
      refine ⟨.inr ⟨fun h => hm ((E.auto f v).mpr h), rfl⟩, I', ?_, ?_, ?_⟩
      · intro g w
        rw [E.auto]
        simp
      · intro g w
        simp only [List.mem_append, E.manual, List.mem_singleton]
        unfold ByHand
        simp only [List.mem_append, List.mem_singleton, Prod.mk.injEq, Value.int.injEq, Answer.mk.injEq, Option.some.injEq]
        constructor
        · rintro ((⟨i, h1, h2⟩ | h) | ⟨rfl, rfl⟩)
          · exact .inl ⟨i, .inl h1, h2⟩
          · exact .inr (.inl h)
          · exact .inr (.inr ⟨rfl, rfl, rfl⟩)
        · rintro (⟨i, h1 | h1, h2⟩ | h | ⟨rfl, rfl, _⟩)
          · exact .inl (.inl ⟨i, h1, h2⟩)
          · cases h1
          · exact .inl (.inr h)
          · exact .inr ⟨rfl, rfl⟩
      · intro g
        exact start_congr (fun n i => (known_mono (by intro n i h; cases h) g n i).symm) (E.next g)
  | str n =>
    have K := known_iff E.inv f n
    simp only [resolveLoaded] at I' ⊢
    cases hl : s.index.lookup (f, n) with
    | some i =>
      simp only [hl] at I' ⊢
      have hk := (K i).mp hl
      have hold : ∀ m j, (⟨f, .str n, some i⟩ : Answer).value = .str m → (⟨f, .str n, some i⟩ : Answer).result = some j → d.says f m = none →
          ⟨f, .str n, some i⟩ ∈ as := by
        intro m j h1 _ h3
        simp only [Value.str.injEq] at h1
        subst h1
        rcases hk with h | ⟨_, h⟩
        · rw [h3] at h; cases h
        · exact h
      refine ⟨.inl ⟨i, hk, rfl⟩, I', ?_, ?_, ?_⟩
      · intro g w
        rw [E.auto]
        constructor
        · rintro ⟨m, h1, h2⟩; exact ⟨m, h1, by simp [h2]⟩
        · rintro ⟨m, h1, h2⟩
          simp only [List.mem_append, List.mem_singleton] at h2
          rcases h2 with h2 | h2
          · exact ⟨m, h1, h2⟩
          · refine ⟨m, h1, ?_⟩
            rw [h2]
            simp only [Answer.mk.injEq, Value.str.injEq] at h2
            exact hold m i (by rw [h2.2.1]) rfl (h2.1 ▸ h1)
      · intro g w
        rw [E.manual, byHand_snoc (by intro f v h; cases h)]
      · intro g
        exact start_congr (fun m j => (known_mono hold g m j).symm) (E.next g)
    | none =>
      simp only [hl] at I' ⊢
      have hun : ∀ i, ¬ Known d as f n i := fun i hk => by rw [(K i).mpr hk] at hl; cases hl
      have hnone : d.says f n = none := by
        cases hd : d.says f n with
        | none => rfl
        | some i => exact absurd (.inl hd) (hun i)
      generalize hi : skip s.manualIds f s.manualIds.length ((s.nextId.lookup f).getD (minId f)) = i at I' ⊢
      have hfree : (f, Value.int i) ∉ s.manualIds := hi ▸ skip_free f _ _ _ (Nat.le_refl _)
      have hge : (s.nextId.lookup f).getD (minId f) ≤ i := hi ▸ skip_ge _ _ _ _
      have hlt : ∀ j, (s.nextId.lookup f).getD (minId f) ≤ j → j < i → ByHand calls as f j := by
        intro j h1 h2
        rw [← hi] at h2
        exact (E.manual f j).mp (skip_least _ _ _ _ _ h1 h2)
      refine ⟨.inr ⟨hun, _, i, E.next f, rfl, hge, fun h => hfree ((E.manual f i).mpr h), hlt⟩, I', ?_, ?_, ?_⟩
      · intro g w
        simp only [List.mem_append, E.auto, List.mem_singleton, Prod.mk.injEq, Value.int.injEq, Answer.mk.injEq, Option.some.injEq, Value.str.injEq]
        constructor
        · rintro (⟨m, h1, h2⟩ | ⟨rfl, rfl⟩)
          · exact ⟨m, h1, .inl h2⟩
          · exact ⟨n, hnone, .inr ⟨rfl, rfl, rfl⟩⟩
        · rintro ⟨m, h1, h2 | ⟨rfl, rfl, rfl⟩⟩
          · exact .inl ⟨m, h1, h2⟩
          · exact .inr ⟨rfl, rfl⟩
      · intro g w
        rw [E.manual, byHand_snoc (by intro f v h; cases h)]
      · intro g
        simp only [lookup_dictSet]
        have hknew : ∀ g m j, Known d (as ++ [⟨f, .str n, some i⟩]) g m j ↔ Known d as g m j ∨ (g = f ∧ m = n ∧ j = i) := by
          intro g m j
          unfold Known
          simp only [List.mem_append, List.mem_singleton, Answer.mk.injEq, Value.str.injEq, Option.some.injEq]
          constructor
          · rintro (h | ⟨h1, h2 | ⟨h2, h3, h4⟩⟩)
            · exact .inl (.inl h)
            · exact .inl (.inr ⟨h1, h2⟩)
            · exact .inr ⟨h2, h3, h4⟩
          · rintro ((h | ⟨h1, h2⟩) | ⟨rfl, rfl, rfl⟩)
            · exact .inl h
            · exact .inr ⟨h1, .inl h2⟩
            · exact .inr ⟨hnone, .inr ⟨rfl, rfl, rfl⟩⟩
        by_cases hg : g = f
        · subst hg
          rw [if_pos rfl]
          simp only [Option.getD_some]
          right
          have hmin : 0 ≤ minId g := by unfold minId; split <;> (try split) <;> omega
          refine ⟨⟨n, i, (hknew _ _ _).mpr (.inr ⟨rfl, rfl, rfl⟩)⟩, ?_, ?_, ?_⟩
          · rcases E.next g with ⟨_, h⟩ | ⟨_, h, _⟩ <;> omega
          · intro m j hj
            rcases (hknew _ _ _).mp hj with hj | ⟨_, _, hj⟩
            · rcases E.next g with ⟨h, _⟩ | ⟨_, _, h, _⟩
              · exact absurd hj (h m j)
              · have := h m j hj; omega
            · omega
          · right
            exact ⟨n, (hknew _ _ _).mpr (.inr ⟨rfl, rfl, by omega⟩)⟩
        · rw [if_neg hg]
          refine start_congr (fun m j => ?_) (E.next g)
          rw [hknew]
          constructor
          · exact .inl
          · rintro (h | ⟨h, _⟩)
            · exact h
            · exact absurd h hg

theorem exact_load {d : Doc} (hd : d.Sound) {s : St} {calls : List Call} (h : Fresh s)
    (hm : ∀ f v, (f, Value.int v) ∈ s.manualIds ↔ ByHand calls [] f v) :
    ∃ s', load (some d) s = some s' ∧ Exact d s' calls [] := by
  obtain ⟨s', h1, I, h3⟩ := load_ok hd h
  refine ⟨s', h1, I, ?_, by rw [h3]; exact hm, ?_⟩
  · obtain ⟨t, e1, e2, _⟩ := loadIndex_ok d.index {} ⟨by simp, by simp, by simp⟩ hd.features hd.names hd.keys
    have : s' = { s with loaded := true, index := t.index, nextId := t.nextId, autoIds := t.used } := by
      have h1' := h1
      simp [load, h.loaded, hd.version, e1] at h1'
      exact h1'.symm
    subst this
    intro f v
    simp only [List.not_mem_nil, and_false, exists_false, iff_false]
    intro hv
    obtain ⟨_, e⟩ := e2.used f _ hv
    cases e
  · obtain ⟨t, e1, e2, _⟩ := loadIndex_ok d.index {} ⟨by simp, by simp, by simp⟩ hd.features hd.names hd.keys
    have : s' = { s with loaded := true, index := t.index, nextId := t.nextId, autoIds := t.used } := by
      have h1' := h1
      simp [load, h.loaded, hd.version, e1] at h1'
      exact h1'.symm
    subst this
    obtain ⟨p, p1, p2⟩ := nextOk_index d.index [] {} t (by intro f; simp [NextOk]) e1
    have hp : ∀ f n i, (f, n, i) ∈ p ↔ Known d [] f n i := by
      intro f n i
      rw [p2]
      simp only [List.not_mem_nil, false_or, Known, and_false, or_false, Doc.says, Option.bind_eq_some_iff]
      constructor
      · rintro ⟨e, he, h1, h2⟩
        exact ⟨e.2, lookup_of_mem hd.keys (h1 ▸ he), lookup_of_mem (hd.names e he) h2⟩
      · rintro ⟨es, h1, h2⟩
        exact ⟨_, lookup_some_key h1, rfl, lookup_some_key h2⟩
    intro f
    have := p1 f
    unfold NextOk at this
    simp only
    cases hl : t.nextId.lookup f with
    | none =>
      simp only [hl, hp] at this
      exact .inl ⟨this, rfl⟩
    | some k =>
      simp only [hl, hp] at this
      exact .inr this

/-- State and answers after some calls of a build. -/
theorem exact_run {d : Doc} (hd : d.Sound) (calls : List Call) :
    (Fresh (runCalls (some d) {} calls).1 ∧ (runCalls (some d) {} calls).2 = [] ∧
      ∀ f v, (f, Value.int v) ∈ (runCalls (some d) {} calls).1.manualIds ↔ ByHand calls [] f v) ∨
    Exact d (runCalls (some d) {} calls).1 calls (runCalls (some d) {} calls).2 := by
  induction h : calls.reverse generalizing calls with
  | nil =>
    have : calls = [] := by simpa using h
    subst this
    exact .inl ⟨⟨rfl, rfl, rfl, rfl⟩, rfl, by simp [runCalls, ByHand]⟩
  | cons c r ih =>
    have : calls = r.reverse ++ [c] := by have := congrArg List.reverse h; simpa using this
    subst this
    rw [runCalls_append]
    rcases ih r.reverse (by simp) with ⟨h1, h2, h3⟩ | E
    · cases c with
      | reserve ids =>
        left
        simp only [runCalls, h2, List.append_nil]
        refine ⟨⟨h1.loaded, h1.index, h1.nextId, h1.autoIds⟩, trivial, ?_⟩
        intro f v
        simp only [reserve, List.mem_append, h3, ByHand, List.not_mem_nil, or_false, List.mem_singleton]
        constructor
        · rintro (⟨i, a, b⟩ | b)
          · exact ⟨i, .inl a, b⟩
          · exact ⟨ids, .inr rfl, b⟩
        · rintro ⟨i, a | a, b⟩
          · exact .inl ⟨i, a, b⟩
          · cases a; exact .inr b
      | resolve f v =>
        right
        obtain ⟨s', e1, E⟩ := exact_load hd h1 h3
        simp only [runCalls, h2, List.nil_append]
        have e : resolve (some d) (runCalls (some d) {} r.reverse).1 f v = resolveLoaded s' f v := by simp [resolve, e1]
        rw [e]
        exact (exact_resolve E f v).2
    · right
      cases c with
      | reserve ids =>
        simp only [runCalls, List.append_nil]
        exact exact_reserve E ids
      | resolve f v =>
        simp only [runCalls]
        rw [resolve_of_loaded E.inv.loaded]
        exact (exact_resolve E f v).2

/-- **C34** (every answer). At any position of any build over a sound file: a number is refused exactly if it was given to a new name
earlier in the build, and answered with itself otherwise; a name that has an id keeps it; a new name gets the first number from the start on
that was not used by hand. -/
theorem id_answer_exact {d : Doc} (hd : d.Sound) (before after : List Call) (f : Feat) (v : Value) :
    ∃ r rest, (runBuild (some d) (before ++ .resolve f v :: after)).2 = (runBuild (some d) before).2 ++ ⟨f, v, r⟩ :: rest ∧
      RightAnswer d before (runBuild (some d) before).2 f v r := by
  simp only [runBuild]
  rw [runCalls_append]
  simp only [runCalls]
  rcases exact_run hd before with ⟨h1, h2, h3⟩ | E
  · obtain ⟨s', e1, E⟩ := exact_load hd h1 h3
    have e : resolve (some d) (runCalls (some d) {} before).1 f v = resolveLoaded s' f v := by simp [resolve, e1]
    rw [e, h2]
    exact ⟨_, _, rfl, (exact_resolve E f v).1⟩
  · rw [resolve_of_loaded E.inv.loaded]
    exact ⟨_, _, rfl, (exact_resolve E f v).1⟩

/-- **C34** (numbers and names). In a build, an accepted number equals the id of a name of the feature exactly if the file has the name
with that id; an automatically chosen one never. -/
theorem manual_collision_iff {d : Doc} (hd : d.Sound) (calls : List Call) (f : Feat) (v : Int) (n : String)
    (h1 : ⟨f, .int v, some v⟩ ∈ (runBuild (some d) calls).2) (hn : Call.resolve f (.str n) ∈ calls) :
    ⟨f, .str n, some v⟩ ∈ (runBuild (some d) calls).2 ↔ d.says f n = some v := by
  constructor
  · intro h2
    cases hs : d.says f n with
    | none => exact absurd rfl ((manual_ids_differ_partial hd calls _ h1 v v rfl rfl).2 _ h2 n rfl rfl hs)
    | some i =>
      obtain ⟨d', _, _, h3, h4, _⟩ := runBuild_ok hd calls
      obtain ⟨j, hj, hj'⟩ := h4 _ h2 n rfl
      simp only [Option.some.injEq] at hj
      have := h3 f n i hs
      rw [hj', ← hj] at this
      exact this.symm
  · intro hs
    obtain ⟨a, b, e, -⟩ := List.eq_append_cons_of_mem hn
    obtain ⟨r, rest, e2, hr⟩ := id_answer_exact hd a b f (.str n)
    rw [e, e2]
    have : r = some v := by
      rcases hr with ⟨i, hk, hr⟩ | ⟨hno, _⟩
      · rcases hk with hk | ⟨hk, _⟩
        · rw [hs] at hk
          rw [hr, hk]
        · rw [hs] at hk; cases hk
      · exact absurd (.inl hs) (hno v)
    rw [this]
    simp

/-! Non-vacuity: in the second build of the example, 300 is the file's, 306 by hand, 308 new. -/

example : (runBuild (some sampleDoc) [.resolve 0 (.int 306), .resolve 0 (.str "a"), .resolve 0 (.int 307), .resolve 0 (.int 308), .resolve 0 (.str "b"), .resolve 0 (.int 300)]).2
    = [⟨0, .int 306, some 306⟩, ⟨0, .str "a", some 307⟩, ⟨0, .int 307, none⟩, ⟨0, .int 308, some 308⟩, ⟨0, .str "b", some 309⟩, ⟨0, .int 300, some 300⟩] := by
  decide +kernel

end Grf.IdMap
