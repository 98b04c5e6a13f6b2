import Verif.Spec.IdMapSpec
import Verif.Proofs.Refs1
/-! Proofs about the id map (C34). -/
namespace Grf.IdMap

theorem name_inj : ∀ f g : Feat, f.name = g.name → f = g := by decide +kernel

theorem fromName_name (f : Feat) : fromName f.name = some f := by
  revert f; decide +kernel

theorem fromName_eq {s : String} {f : Feat} (h : fromName s = some f) : f.name = s := by
  unfold fromName at h
  have := List.find?_some h
  simpa using this

theorem nodup_dictSet {α β : Type} [DecidableEq α] {d : List (α × β)} {k : α} {v : β} (h : (d.map (·.1)).Nodup) :
    ((dictSet d k v).map (·.1)).Nodup := by
  rw [keys_dictSet]
  split
  · exact h
  · rename_i hni
    rw [List.nodup_append]
    refine ⟨h, by simp, ?_⟩
    intro a ha b hb
    simp only [List.mem_singleton] at hb
    subst hb
    intro e
    exact hni (e ▸ ha)

theorem lookup_cons_ite {α β : Type} [DecidableEq α] [BEq α] [LawfulBEq α] (p : α × β) (d : List (α × β)) (k : α) :
    (p :: d).lookup k = if k = p.1 then some p.2 else d.lookup k := by
  rw [List.lookup_cons]
  by_cases h : k = p.1
  · simp [h]
  · rw [if_neg h]
    have : (k == p.1) = false := by simpa using h
    rw [this]

theorem lookup_some_key {α β : Type} [DecidableEq α] [BEq α] [LawfulBEq α] {d : List (α × β)} {k : α} {v : β}
    (h : d.lookup k = some v) : (k, v) ∈ d := by
  induction d with
  | nil => simp at h
  | cons p d ih =>
    rw [lookup_cons_ite] at h
    by_cases e : k = p.1
    · subst e
      rw [if_pos rfl] at h
      injection h with h
      subst h
      simp
    · rw [if_neg e] at h
      exact List.mem_cons_of_mem _ (ih h)

theorem lookup_of_mem {α β : Type} [DecidableEq α] [BEq α] [LawfulBEq α] {d : List (α × β)} {k : α} {v : β}
    (hn : (d.map (·.1)).Nodup) (h : (k, v) ∈ d) : d.lookup k = some v := by
  induction d with
  | nil => simp at h
  | cons p d ih =>
    simp only [List.map_cons, List.nodup_cons] at hn
    rw [lookup_cons_ite]
    simp only [List.mem_cons] at h
    rcases h with rfl | h
    · simp
    · by_cases e : k = p.1
      · subst e
        exact absurd (List.mem_map_of_mem (f := (·.1)) h) hn.1
      · rw [if_neg e]
        exact ih hn.2 h

/-! ## the loop of `resolve` -/

theorem erase_subset_len {α : Type} [BEq α] [LawfulBEq α] {l : List α} {a : α} (h : a ∈ l) :
    (l.erase a).length < l.length := by
  rw [List.length_erase_of_mem h]
  have := List.length_pos_of_mem h
  omega

theorem skip_erase (manual : List (Feat × Value)) (f : Feat) (k : Int) (n : Nat) :
    ∀ i, k < i → skip (manual.erase (f, .int k)) f n i = skip manual f n i := by
  induction n with
  | zero => intro i _; rfl
  | succ n ih =>
    intro i hi
    have hm : (f, Value.int i) ∈ manual.erase (f, .int k) ↔ (f, Value.int i) ∈ manual := by
      rw [List.mem_erase_of_ne]
      intro e
      injection e with _ e
      injection e with e
      omega
    simp only [skip, hm]
    split
    · exact ih _ (by omega)
    · rfl

theorem skip_free (f : Feat) : ∀ (n : Nat) (manual : List (Feat × Value)) (i : Int), manual.length ≤ n →
    (f, Value.int (skip manual f n i)) ∉ manual := by
  intro n
  induction n with
  | zero =>
    intro manual i h
    have : manual = [] := List.length_eq_zero_iff.mp (by omega)
    subst this
    simp
  | succ n ih =>
    intro manual i h
    simp only [skip]
    split
    · rename_i hm
      have h1 := ih (manual.erase (f, .int i)) (i + 1) (by have := erase_subset_len hm; omega)
      rw [skip_erase manual f i n _ (by omega)] at h1
      have hge : ∀ (n : Nat) (j : Int), j ≤ skip manual f n j := by
        intro n
        induction n with
        | zero => intro j; simp [skip]
        | succ n ih => intro j; simp only [skip]; split
                       · have := ih (j + 1); omega
                       · omega
      intro hc
      apply h1
      rw [List.mem_erase_of_ne]
      · exact hc
      · intro e
        injection e with _ e
        injection e with e
        have := hge n (i + 1)
        omega
    · rename_i hm
      exact hm

theorem skip_ge (manual : List (Feat × Value)) (f : Feat) (n : Nat) : ∀ j : Int, j ≤ skip manual f n j := by
  induction n with
  | zero => intro j; simp [skip]
  | succ n ih =>
    intro j
    simp only [skip]
    split
    · have := ih (j + 1); omega
    · omega

/-! ## saving -/

/-- Lookup in the nested dictionary. -/
def says' (ix : List (String × List (String × Int))) (f : Feat) (n : String) : Option Int :=
  (ix.lookup f.name).bind fun e => e.lookup n

theorem says_saveEntry (acc : List (String × List (String × Int))) (e : (Feat × String) × Int) (f : Feat) (n : String) :
    says' (saveEntry acc e) f n = if (f, n) = e.1 then some e.2 else says' acc f n := by
  unfold says' saveEntry
  rw [lookup_dictSet]
  by_cases hf : f.name = e.1.1.name
  · rw [if_pos hf]
    have hf' := name_inj _ _ hf
    simp only [Option.bind_some]
    rw [lookup_dictSet]
    by_cases hn : n = e.1.2
    · rw [if_pos hn, if_pos]
      rw [hf', hn]
    · rw [if_neg hn, if_neg]
      · rw [hf]
        cases acc.lookup e.1.1.name <;> simp
      · intro h
        rw [← h] at hn
        exact hn rfl
  · rw [if_neg hf, if_neg]
    intro h
    rw [← h] at hf
    exact hf rfl

theorem says_save (es : List ((Feat × String) × Int)) : ∀ acc, (es.map (·.1)).Nodup → ∀ f n,
    says' (es.foldl saveEntry acc) f n = (es.lookup (f, n)).or (says' acc f n) := by
  induction es with
  | nil => intro acc _ f n; simp
  | cons e es ih =>
    intro acc hn f n
    simp only [List.map_cons, List.nodup_cons] at hn
    rw [List.foldl_cons, ih _ hn.2, says_saveEntry, lookup_cons_ite]
    by_cases h : (f, n) = e.1
    · rw [if_pos h]
      have h0 : es.lookup (f, n) = none := by
        have := (lookup_isNone es (f, n)).mpr (by rw [h]; exact hn.1)
        simpa using this
      rw [h0]
      simp [h]
    · rw [if_neg h]
      simp [h]

theorem saveEntry_features {acc : List (String × List (String × Int))} (e : (Feat × String) × Int)
    (h1 : ∀ x ∈ acc.map (·.1), ∃ f : Feat, f.name = x) : ∀ x ∈ (saveEntry acc e).map (·.1), ∃ f : Feat, f.name = x := by
  unfold saveEntry
  rw [keys_dictSet]
  split
  · exact h1
  · intro x hx
    simp only [List.mem_append, List.mem_singleton] at hx
    rcases hx with hx | rfl
    · exact h1 x hx
    · exact ⟨_, rfl⟩

theorem mem_dictSet {α β : Type} [DecidableEq α] {d : List (α × β)} {k : α} {v : β} {x : α × β}
    (h : x ∈ dictSet d k v) : x ∈ d ∨ x = (k, v) := by
  induction d with
  | nil => simpa [dictSet] using h
  | cons p d ih =>
    simp only [dictSet] at h
    split at h
    · simp only [List.mem_cons] at h ⊢
      rcases h with h | h
      · exact .inr h
      · exact .inl (.inr h)
    · simp only [List.mem_cons] at h ⊢
      rcases h with h | h
      · exact .inl (.inl h)
      · rcases ih h with h | h
        · exact .inl (.inr h)
        · exact .inr h

theorem saveEntry_names {acc : List (String × List (String × Int))} (e : (Feat × String) × Int)
    (h1 : ∀ x ∈ acc, (x.2.map (·.1)).Nodup) : ∀ x ∈ saveEntry acc e, (x.2.map (·.1)).Nodup := by
  intro x hx
  unfold saveEntry at hx
  rcases mem_dictSet hx with h | rfl
  · exact h1 x h
  · apply nodup_dictSet
    cases hl : acc.lookup e.1.1.name with
    | none => simp
    | some l => exact h1 _ (lookup_some_key hl)

theorem save_shape (es : List ((Feat × String) × Int)) : ∀ acc : List (String × List (String × Int)),
    (acc.map (·.1)).Nodup → (∀ x ∈ acc.map (·.1), ∃ f : Feat, f.name = x) → (∀ x ∈ acc, (x.2.map (·.1)).Nodup) →
    ((es.foldl saveEntry acc).map (·.1)).Nodup ∧ (∀ x ∈ (es.foldl saveEntry acc).map (·.1), ∃ f : Feat, f.name = x) ∧
      (∀ x ∈ es.foldl saveEntry acc, (x.2.map (·.1)).Nodup) := by
  induction es with
  | nil => intro acc a b c; exact ⟨a, b, c⟩
  | cons e es ih =>
    intro acc a b c
    exact ih _ (nodup_dictSet a) (saveEntry_features e b) (saveEntry_names e c)

/-! ## loading -/

/-- What loading has established about the temporaries. -/
structure TmpOk (t : Tmp) : Prop where
  keys : (t.index.map (·.1)).Nodup
  next : ∀ f n i, t.index.lookup (f, n) = some i → ∃ k, t.nextId.lookup f = some k ∧ i < k
  used : ∀ f v, (f, v) ∈ t.used → ∃ s, v = .str s

theorem loadEntry_ok {t : Tmp} (h : TmpOk t) (f : Feat) (e : String × Int) : TmpOk (loadEntry f t e) := by
  refine ⟨nodup_dictSet h.keys, ?_, ?_⟩
  · intro g n i hl
    simp only [loadEntry] at hl ⊢
    rw [lookup_dictSet] at hl
    rw [lookup_dictSet]
    split at hl
    · rename_i he
      injection he with h1 h2
      subst h1
      rw [if_pos rfl]
      injection hl with hl
      exact ⟨_, rfl, by omega⟩
    · obtain ⟨k, hk, hik⟩ := h.next _ _ _ hl
      by_cases hg : g = f
      · subst hg
        rw [if_pos rfl, hk]
        exact ⟨_, rfl, by simp only [Option.getD_some]; omega⟩
      · rw [if_neg hg]
        exact ⟨k, hk, hik⟩
  · intro g v hv
    simp only [loadEntry, List.mem_append, List.mem_singleton] at hv
    rcases hv with hv | hv
    · exact h.used g v hv
    · injection hv with _ hv
      exact ⟨_, hv⟩

theorem loadEntries_ok (f : Feat) (es : List (String × Int)) : ∀ t, TmpOk t → TmpOk (es.foldl (loadEntry f) t) := by
  induction es with
  | nil => intro t h; exact h
  | cons e es ih => intro t h; exact ih _ (loadEntry_ok h f e)

theorem loadEntries_lookup (f : Feat) (es : List (String × Int)) : ∀ t, (es.map (·.1)).Nodup → ∀ g n,
    (es.foldl (loadEntry f) t).index.lookup (g, n) =
      if g = f then (es.lookup n).or (t.index.lookup (g, n)) else t.index.lookup (g, n) := by
  induction es with
  | nil => intro t _ g n; simp
  | cons e es ih =>
    intro t hn g n
    simp only [List.map_cons, List.nodup_cons] at hn
    rw [List.foldl_cons, ih _ hn.2]
    simp only [loadEntry]
    rw [lookup_dictSet, lookup_cons_ite]
    by_cases hg : g = f
    · subst hg
      rw [if_pos rfl, if_pos rfl]
      by_cases he : n = e.1
      · subst he
        have h0 : es.lookup e.1 = none := by
          have := (lookup_isNone es e.1).mpr hn.1
          simpa using this
        rw [h0]
        simp
      · simp [he]
    · rw [if_neg hg, if_neg hg, if_neg]
      intro h
      injection h with h _
      exact hg h

theorem loadIndex_ok (ix : List (String × List (String × Int))) : ∀ t, TmpOk t →
    (∀ e ∈ ix, ∃ f : Feat, f.name = e.1) → (∀ e ∈ ix, (e.2.map (·.1)).Nodup) → (ix.map (·.1)).Nodup →
    ∃ t', loadIndex ix t = some t' ∧ TmpOk t' ∧
      ∀ f n, t'.index.lookup (f, n) = (says' ix f n).or (t.index.lookup (f, n)) := by
  induction ix with
  | nil => intro t ht _ _ _; exact ⟨t, rfl, ht, by intro f n; simp [says']⟩
  | cons e ix ih =>
    intro t ht hf hn hk
    obtain ⟨fname, es⟩ := e
    obtain ⟨f, hfn⟩ := hf (fname, es) (by simp)
    simp only at hfn
    subst hfn
    simp only [List.map_cons, List.nodup_cons] at hk
    obtain ⟨t', h1, h2, h3⟩ := ih (es.foldl (loadEntry f) t) (loadEntries_ok f es t ht)
      (fun e he => hf e (List.mem_cons_of_mem _ he)) (fun e he => hn e (List.mem_cons_of_mem _ he)) hk.2
    refine ⟨t', ?_, h2, ?_⟩
    · simp only [loadIndex, fromName_name, Option.bind_eq_bind, Option.bind_some]
      exact h1
    · intro g n
      rw [h3, loadEntries_lookup f es t (hn (f.name, es) (by simp))]
      by_cases hg : g = f
      · subst hg
        have h0 : ix.lookup g.name = none := by
          have := (lookup_isNone ix g.name).mpr hk.1
          simpa using this
        simp [says', h0, lookup_cons_ite]
      · have hne : ¬ g.name = f.name := fun h => hg (name_inj _ _ h)
        simp [says', lookup_cons_ite, hne, hg]

/-! ## a build -/

/-- Invariant of a loaded map during a build over a file that says `L`; `as` are the answers so far. -/
structure Inv (L : Feat → String → Option Int) (s : St) (as : List Answer) : Prop where
  loaded : s.loaded = true
  keys : (s.index.map (·.1)).Nodup
  inj : ∀ f n m i, s.index.lookup (f, n) = some i → s.index.lookup (f, m) = some i → n = m
  next : ∀ f n i, s.index.lookup (f, n) = some i → ∃ k, s.nextId.lookup f = some k ∧ i < k
  old : ∀ f n i, L f n = some i → s.index.lookup (f, n) = some i
  auto : ∀ f n i, s.index.lookup (f, n) = some i → L f n = none → (f, .int i) ∈ s.autoIds
  named : ∀ a ∈ as, ∀ n, a.value = .str n → ∃ i, a.result = some i ∧ s.index.lookup (a.feature, n) = some i
  manual : ∀ a ∈ as, ∀ v i, a.value = .int v → a.result = some i → i = v ∧ (a.feature, .int v) ∈ s.manualIds ∧
    ∀ n, s.index.lookup (a.feature, n) = some v → L a.feature n ≠ none
  asked : ∀ f n i, s.index.lookup (f, n) = some i → L f n = none → ⟨f, .str n, some i⟩ ∈ as

theorem inv_reserve {L : Feat → String → Option Int} {s : St} {as : List Answer} (I : Inv L s as) (ids : List (Feat × Value)) :
    Inv L (reserve s ids) as := by
  refine ⟨I.loaded, I.keys, I.inj, I.next, I.old, I.auto, I.named, ?_, I.asked⟩
  intro a ha v i h1 h2
  obtain ⟨h, h', h''⟩ := I.manual a ha v i h1 h2
  exact ⟨h, List.mem_append_left _ h', h''⟩

theorem inv_resolve {L : Feat → String → Option Int} {s : St} {as : List Answer} (I : Inv L s as) (f : Feat) (v : Value) :
    Inv L (resolveLoaded s f v).1 (as ++ [⟨f, v, (resolveLoaded s f v).2⟩]) := by
  cases v with
  | int v =>
    simp only [resolveLoaded]
    split
    · rename_i hm
      refine ⟨I.loaded, I.keys, I.inj, I.next, I.old, I.auto, ?_, ?_, ?_⟩
      · intro a ha
        simp only [List.mem_append, List.mem_singleton] at ha
        rcases ha with ha | rfl
        · exact I.named a ha
        · intro n h; cases h
      · intro a ha
        simp only [List.mem_append, List.mem_singleton] at ha
        rcases ha with ha | rfl
        · exact I.manual a ha
        · intro v i _ h; cases h
      · intro g n i h1 h2
        exact List.mem_append_left _ (I.asked g n i h1 h2)
    · rename_i hm
      refine ⟨I.loaded, I.keys, I.inj, I.next, I.old, I.auto, ?_, ?_, ?_⟩
      · intro a ha
        simp only [List.mem_append, List.mem_singleton] at ha
        rcases ha with ha | rfl
        · exact I.named a ha
        · intro n h; cases h
      · intro a ha
        simp only [List.mem_append, List.mem_singleton] at ha
        rcases ha with ha | rfl
        · intro w i h1 h2
          obtain ⟨h, h', h''⟩ := I.manual a ha w i h1 h2
          exact ⟨h, List.mem_append_left _ h', h''⟩
        · intro w i h1 h2
          simp only [Value.int.injEq, Option.some.injEq] at h1 h2
          subst h1 h2
          refine ⟨rfl, by simp, ?_⟩
          intro n hl hL
          exact hm (I.auto f n v hl hL)
      · intro g n i h1 h2
        exact List.mem_append_left _ (I.asked g n i h1 h2)
  | str n =>
    simp only [resolveLoaded]
    cases hl : s.index.lookup (f, n) with
    | some i =>
      simp only
      refine ⟨I.loaded, I.keys, I.inj, I.next, I.old, I.auto, ?_, ?_, ?_⟩
      · intro a ha
        simp only [List.mem_append, List.mem_singleton] at ha
        rcases ha with ha | rfl
        · exact I.named a ha
        · intro m h
          cases h
          exact ⟨i, rfl, hl⟩
      · intro a ha
        simp only [List.mem_append, List.mem_singleton] at ha
        rcases ha with ha | rfl
        · exact I.manual a ha
        · intro v i h; cases h
      · intro g n i h1 h2
        exact List.mem_append_left _ (I.asked g n i h1 h2)
    | none =>
      simp only
      generalize hi : skip s.manualIds f s.manualIds.length ((s.nextId.lookup f).getD (minId f)) = i
      have hfree : (f, Value.int i) ∉ s.manualIds := hi ▸ skip_free f _ _ _ (Nat.le_refl _)
      have hge : (s.nextId.lookup f).getD (minId f) ≤ i := hi ▸ skip_ge _ _ _ _
      have hnew : ∀ m, s.index.lookup (f, m) ≠ some i := by
        intro m hm
        obtain ⟨k, hk, hik⟩ := I.next f m i hm
        rw [hk] at hge
        simp only [Option.getD_some] at hge
        omega
      refine ⟨I.loaded, nodup_dictSet I.keys, ?_, ?_, ?_, ?_, ?_, ?_, ?_⟩
      · intro g a b j h1 h2
        simp only [lookup_dictSet, Prod.mk.injEq] at h1 h2
        split at h1 <;> split at h2
        · rename_i e1 e2; rw [e1.2, e2.2]
        · rename_i e1 e2
          rw [e1.1] at h2
          injection h1 with h1
          subst h1
          exact absurd h2 (hnew b)
        · rename_i e1 e2
          rw [e2.1] at h1
          injection h2 with h2
          subst h2
          exact absurd h1 (hnew a)
        · exact I.inj g a b j h1 h2
      · intro g a j h
        simp only [lookup_dictSet, Prod.mk.injEq] at h ⊢
        split at h
        · rename_i e
          rw [if_pos e.1]
          injection h with h
          exact ⟨_, rfl, by omega⟩
        · obtain ⟨k, hk, hjk⟩ := I.next g a j h
          by_cases hg : g = f
          · subst hg
            rw [if_pos rfl]
            rw [hk] at hge
            simp only [Option.getD_some] at hge
            exact ⟨_, rfl, by omega⟩
          · rw [if_neg hg]
            exact ⟨k, hk, hjk⟩
      · intro g a j h
        simp only [lookup_dictSet, Prod.mk.injEq]
        have h0 := I.old g a j h
        rw [if_neg]
        · exact h0
        · rintro ⟨rfl, rfl⟩
          rw [hl] at h0
          cases h0
      · intro g a j h hL
        simp only [lookup_dictSet, Prod.mk.injEq] at h
        split at h
        · rename_i e
          injection h with h
          subst h
          rw [e.1]
          simp
        · exact List.mem_append_left _ (I.auto g a j h hL)
      · intro a ha
        simp only [List.mem_append, List.mem_singleton] at ha
        rcases ha with ha | rfl
        · intro m hm
          obtain ⟨j, h1, h2⟩ := I.named a ha m hm
          refine ⟨j, h1, ?_⟩
          simp only [lookup_dictSet, Prod.mk.injEq]
          rw [if_neg]
          · exact h2
          · rintro ⟨e1, e2⟩
            rw [e1, e2, hl] at h2
            cases h2
        · intro m hm
          cases hm
          exact ⟨i, rfl, by simp [lookup_dictSet]⟩
      · intro a ha
        simp only [List.mem_append, List.mem_singleton] at ha
        rcases ha with ha | rfl
        · intro v j h1 h2
          obtain ⟨h, h', h''⟩ := I.manual a ha v j h1 h2
          refine ⟨h, h', ?_⟩
          intro m hm
          simp only [lookup_dictSet, Prod.mk.injEq] at hm
          split at hm
          · rename_i e
            injection hm with hm
            subst hm
            rw [e.1] at h'
            exact absurd h' hfree
          · exact h'' m hm
        · intro v j h; cases h
      · intro g m j h hL
        simp only [lookup_dictSet, Prod.mk.injEq] at h
        split at h
        · rename_i e
          injection h with h
          subst h
          rw [e.1, e.2]
          simp
        · exact List.mem_append_left _ (I.asked g m j h hL)

theorem resolve_of_loaded {file : Option Doc} {s : St} (h : s.loaded = true) (f : Feat) (v : Value) :
    resolve file s f v = resolveLoaded s f v := by
  simp [resolve, load, h]

theorem runCalls_inv {L : Feat → String → Option Int} (file : Option Doc) (cs : List Call) : ∀ s as, Inv L s as →
    Inv L (runCalls file s cs).1 (as ++ (runCalls file s cs).2) := by
  induction cs with
  | nil => intro s as I; simpa [runCalls] using I
  | cons c cs ih =>
    intro s as I
    cases c with
    | resolve f v =>
      simp only [runCalls]
      rw [resolve_of_loaded I.loaded]
      have := ih _ _ (inv_resolve I f v)
      simpa using this
    | reserve ids =>
      simp only [runCalls]
      exact ih _ _ (inv_reserve I ids)

/-- State before the first `resolve` of a build. -/
structure Fresh (s : St) : Prop where
  loaded : s.loaded = false
  index : s.index = []
  nextId : s.nextId = []
  autoIds : s.autoIds = []

theorem load_ok {d : Doc} (hd : d.Sound) {s : St} (h : Fresh s) :
    ∃ s', load (some d) s = some s' ∧ Inv d.says s' [] ∧ s'.manualIds = s.manualIds := by
  obtain ⟨t, h1, h2, h3⟩ := loadIndex_ok d.index {} ⟨by simp, by simp, by simp⟩ hd.features hd.names hd.keys
  refine ⟨{ s with loaded := true, index := t.index, nextId := t.nextId, autoIds := t.used }, ?_, ?_, rfl⟩
  · simp [load, h.loaded, hd.version, h1]
  · have hl : ∀ f n, t.index.lookup (f, n) = d.says f n := by
      intro f n; rw [h3]; simp [says', Doc.says]
    refine ⟨rfl, h2.keys, ?_, h2.next, ?_, ?_, by simp, by simp, ?_⟩
    · intro f n m i a b
      rw [hl] at a b
      exact hd.unique f n m i a b
    · intro f n i a
      rw [hl]; exact a
    · intro f n i a b
      rw [hl, b] at a; cases a
    · intro f n i a b
      rw [hl, b] at a; cases a

theorem load_idem {file : Option Doc} {s s' : St} (h : load file s = some s') : load file s' = some s' := by
  unfold load at h
  split at h
  · rename_i hl
    injection h with h
    subst h
    simp [load, hl]
  · cases hf : file with
    | none => simp [hf] at h
    | some d =>
      simp only [hf, Option.bind_eq_bind, Option.bind_some] at h
      split at h
      · cases h
      · rw [Option.bind_eq_some_iff] at h
        obtain ⟨t, _, h⟩ := h
        injection h with h
        subst h
        simp [load]

/-- A build either never resolved anything or ends in a state satisfying the invariant. -/
theorem runCalls_fresh {d : Doc} (hd : d.Sound) (cs : List Call) : ∀ s, Fresh s →
    (Fresh (runCalls (some d) s cs).1 ∧ (runCalls (some d) s cs).2 = []) ∨
      Inv d.says (runCalls (some d) s cs).1 (runCalls (some d) s cs).2 := by
  induction cs with
  | nil => intro s h; exact .inl ⟨h, rfl⟩
  | cons c cs ih =>
    intro s h
    cases c with
    | reserve ids =>
      simp only [runCalls]
      exact ih _ ⟨h.loaded, h.index, h.nextId, h.autoIds⟩
    | resolve f v =>
      right
      obtain ⟨s', h1, I, _⟩ := load_ok hd h
      have e : resolve (some d) s f v = resolveLoaded s' f v := by simp [resolve, h1]
      simp only [runCalls, e]
      have := runCalls_inv (some d) cs _ _ (inv_resolve I f v)
      simpa using this

theorem save_sound {L : Feat → String → Option Int} {s : St} {as : List Answer} {d : Doc} (hd : d.Sound)
    (hL : L = d.says) (I : Inv L s as) :
    ∃ d', save s (some d) = some d' ∧ d'.Sound ∧ ∀ f n, d'.says f n = s.index.lookup (f, n) := by
  unfold save
  by_cases he : s.index.isEmpty = true
  · rw [if_pos he]
    refine ⟨d, rfl, hd, ?_⟩
    have he' : s.index = [] := by simpa using he
    intro f n
    rw [he']
    cases h : d.says f n with
    | none => rfl
    | some i =>
      have := I.old f n i (by rw [hL]; exact h)
      rw [he'] at this
      cases this
  · rw [if_neg he]
    obtain ⟨h1, h2, h3⟩ := save_shape s.index [] (by simp) (by simp) (by simp)
    have hs : ∀ f n, (Doc.mk 1 (s.index.foldl saveEntry [])).says f n = s.index.lookup (f, n) := by
      intro f n
      have := says_save s.index [] I.keys f n
      simpa [says', Doc.says] using this
    refine ⟨_, rfl, ⟨rfl, ?_, h1, h3, ?_⟩, hs⟩
    · intro e he
      exact h2 e.1 (List.mem_map_of_mem he)
    · intro f n m i a b
      rw [hs] at a b
      exact I.inj f n m i a b

/-- What one build does, in terms of the file before and after. -/
theorem runBuild_ok {d : Doc} (hd : d.Sound) (cs : List Call) :
    ∃ d', (runBuild (some d) cs).1 = some d' ∧ d'.Sound ∧ (∀ f n i, d.says f n = some i → d'.says f n = some i) ∧
      (∀ a ∈ (runBuild (some d) cs).2, ∀ n, a.value = .str n →
        ∃ i, a.result = some i ∧ d'.says a.feature n = some i) ∧
      (∀ a ∈ (runBuild (some d) cs).2, ∀ v i, a.value = .int v → a.result = some i → i = v ∧
        ∀ n, d'.says a.feature n = some v → d.says a.feature n = some v) ∧
      (∀ f n i, d'.says f n = some i → d.says f n = none → ⟨f, .str n, some i⟩ ∈ (runBuild (some d) cs).2) := by
  simp only [runBuild]
  rcases runCalls_fresh hd cs {} ⟨rfl, rfl, rfl, rfl⟩ with ⟨h1, h2⟩ | I
  · rw [h2]
    refine ⟨d, ?_, hd, fun _ _ _ h => h, by simp, by simp, ?_⟩
    · simp [save, h1.index]
    · intro f n i a b
      rw [b] at a; cases a
  · obtain ⟨d', e, hs, hl⟩ := save_sound hd rfl I
    refine ⟨d', e, hs, ?_, ?_, ?_, ?_⟩
    · intro f n i h
      rw [hl]; exact I.old f n i h
    · intro a ha n hv
      obtain ⟨i, h1, h2⟩ := I.named a ha n hv
      exact ⟨i, h1, by rw [hl]; exact h2⟩
    · intro a ha v i h1 h2
      obtain ⟨h, _, h'⟩ := I.manual a ha v i h1 h2
      refine ⟨h, ?_⟩
      intro n hn
      rw [hl] at hn
      cases hL : d.says a.feature n with
      | none => exact absurd hL (h' n hn)
      | some j =>
        have := I.old a.feature n j hL
        rw [hn] at this
        exact this ▸ rfl
    · intro f n i h hL
      rw [hl] at h
      exact I.asked f n i h hL

theorem runBuilds_ok (bs : List (List Call)) : ∀ d : Doc, d.Sound →
    ∃ d' : Doc, d'.Sound ∧ (∀ f n i, d.says f n = some i → d'.says f n = some i) ∧
      ∀ a ∈ (runBuilds (some d) bs).flatten, ∀ n, a.value = .str n →
        ∃ i, a.result = some i ∧ d'.says a.feature n = some i := by
  induction bs with
  | nil => intro d hd; exact ⟨d, hd, fun _ _ _ h => h, by simp [runBuilds]⟩
  | cons b bs ih =>
    intro d hd
    obtain ⟨d1, e1, s1, o1, n1, _⟩ := runBuild_ok hd b
    obtain ⟨d2, s2, o2, n2⟩ := ih d1 s1
    refine ⟨d2, s2, fun f n i h => o2 f n i (o1 f n i h), ?_⟩
    simp only [runBuilds]
    rw [e1]
    intro a ha n hv
    simp only [List.flatten_cons, List.mem_append] at ha
    rcases ha with ha | ha
    · obtain ⟨i, h1, h2⟩ := n1 a ha n hv
      exact ⟨i, h1, o2 _ _ _ h2⟩
    · exact n2 a ha n hv

end Grf.IdMap
