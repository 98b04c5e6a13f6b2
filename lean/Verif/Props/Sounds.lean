import Verif.Model.Sounds
import Verif.Proofs.IdMap
/-!
# C35: sound ids are unique and in range; C52: everything added is emitted in order
-/
namespace Grf.Sounds

/-! ## specification -/

/-- The distinct elements of a list in the order of their first occurrence, after those in `seen`. -/
def distinct (seen : List Nat) : List Nat → List Nat
  | [] => seen
  | x :: xs => distinct (if x ∈ seen then seen else seen ++ [x]) xs

/-- The items a list of generators yields, depth first, in order. -/
inductive Yields : List Gen → List Item → Prop where
  | nil : Yields [] []
  | item {i gs is} : Yields gs is → Yields (.item i :: gs) (i :: is)
  | gen {g gs is js} : Yields g is → Yields gs js → Yields (.gen g :: gs) (is ++ js)

/-- The entries an item should lead to: sounds go to the sound table, everything else is kept. -/
def expected : Item → List Entry
  | .sound _ => []
  | .soundAction _ => []
  | .resourceAction r => [.single r]
  | .resource r => [.single r]
  | .action a => [.action a]

/-- What a file should contain: stored entries and what the generators yield, in the order of additions. -/
inductive Emits : List Top → List Entry → Prop where
  | nil : Emits [] []
  | entry {e ts es} : Emits ts es → Emits (.entry e :: ts) (e :: es)
  | gen {g is ts es} : Yields g is → (∀ i ∈ is, ∀ r, i ≠ .resourceAction r) → Emits ts es → Emits (.gen g :: ts) (is.flatMap expected ++ es)

/-! ## proofs -/

structure Inv (fp : Nat → Nat) (st : St) : Prop where
  next : st.next = 73 + st.sounds.length
  bound : st.sounds.length ≤ 183
  keys : (st.sounds.map (·.1)).Nodup
  table : ∀ (k h r : Nat), st.sounds[k]? = some (h, r) → fp r = h ∧ st.ids r = some (73 + k)
  known : ∀ s i, st.ids s = some i → ∃ k r, i = 73 + k ∧ st.sounds[k]? = some (fp s, r)

theorem inv_init (fp : Nat → Nat) : Inv fp {} :=
  ⟨rfl, by simp, by simp, by simp, by simp⟩

theorem dictSet_new {α β : Type} [DecidableEq α] {d : List (α × β)} {k : α} {v : β} (h : k ∉ d.map (·.1)) :
    dictSet d k v = d ++ [(k, v)] := by
  induction d with
  | nil => rfl
  | cons p d ih =>
    simp only [List.map_cons, List.mem_cons, not_or] at h
    simp only [dictSet]
    rw [if_neg (fun e => h.1 e.symm), ih h.2]
    rfl

theorem nodup_getElem_inj {α : Type} {l : List α} (h : l.Nodup) {i j : Nat} {x : α} (hi : l[i]? = some x)
    (hj : l[j]? = some x) : i = j := by
  have h1 : i < l.length := by
    rw [List.getElem?_eq_some_iff] at hi; exact hi.1
  exact (List.getElem?_inj h1 h).mp (hi.trans hj.symm)

theorem inv_add {fp : Nat → Nat} {st st' : St} {s : Nat} (I : Inv fp st) (h : addSound fp st s = some st') :
    Inv fp st' ∧ (∃ i, st'.ids s = some i) ∧ (∀ t i, st.ids t = some i → st'.ids t = some i) ∧
      st'.sounds.map (·.1) = if fp s ∈ st.sounds.map (·.1) then st.sounds.map (·.1) else st.sounds.map (·.1) ++ [fp s] := by
  unfold addSound at h
  cases hl : st.sounds.lookup (fp s) with
  | some r =>
    rw [hl] at h
    injection h with h
    have hm := IdMap.lookup_some_key hl
    obtain ⟨k, hk⟩ := List.getElem?_of_mem hm
    obtain ⟨h1, h2⟩ := I.table k _ _ hk
    have hstable : ∀ t i, st.ids t = some i → st'.ids t = some i := by
      intro t i hi
      subst h
      by_cases e : t = s
      · subst e
        simp only [upd_same]
        obtain ⟨k', r', h3, h4⟩ := I.known t i hi
        have hk1 : (st.sounds.map (·.1))[k]? = some (fp t) := by rw [List.getElem?_map, hk]; rfl
        have hk2 : (st.sounds.map (·.1))[k']? = some (fp t) := by rw [List.getElem?_map, h4]; rfl
        rw [h2, h3, nodup_getElem_inj I.keys hk1 hk2]
      · simp only [upd_ne _ _ _ _ e]; exact hi
    refine ⟨⟨?_, ?_, ?_, ?_, ?_⟩, ⟨73 + k, ?_⟩, hstable, ?_⟩
    · subst h; exact I.next
    · subst h; exact I.bound
    · subst h; exact I.keys
    · intro k' h' r' hk'
      have hk'' : st.sounds[k']? = some (h', r') := by subst h; exact hk'
      obtain ⟨a, b⟩ := I.table k' h' r' hk''
      exact ⟨a, hstable _ _ b⟩
    · intro t i hi
      subst h
      by_cases e : t = s
      · subst e
        simp only [upd_same] at hi
        rw [h2] at hi
        injection hi with hi
        exact ⟨k, r, hi.symm, hk⟩
      · simp only [upd_ne _ _ _ _ e] at hi
        exact I.known t i hi
    · subst h; simp only [upd_same]; exact h2
    · subst h
      rw [if_pos]
      exact List.mem_map_of_mem (f := (·.1)) hm
  | none =>
    rw [hl] at h
    simp only at h
    split at h
    · cases h
    · rename_i hn
      injection h with h
      have hnot : fp s ∉ st.sounds.map (·.1) := (lookup_isNone _ _).mp (by rw [hl]; rfl)
      have hs : st'.sounds = st.sounds ++ [(fp s, s)] := by subst h; exact dictSet_new hnot
      have hids : st'.ids = upd st.ids s (some st.next) := by subst h; rfl
      have hnone : st.ids s = none := by
        cases hi : st.ids s with
        | none => rfl
        | some i =>
          obtain ⟨k, r, _, hk⟩ := I.known s i hi
          have := List.mem_of_getElem? hk
          exact absurd (List.mem_map_of_mem (f := (·.1)) this) hnot
      have hstable : ∀ t i, st.ids t = some i → st'.ids t = some i := by
        intro t i hi
        rw [hids, upd_ne]
        · exact hi
        · rintro rfl
          rw [hnone] at hi; cases hi
      refine ⟨⟨?_, ?_, ?_, ?_, ?_⟩, ⟨st.next, by rw [hids, upd_same]⟩, hstable, ?_⟩
      · have := I.next
        rw [hs]; subst h
        simp only [List.length_append, List.length_singleton]; omega
      · have := I.next
        rw [hs]
        simp only [List.length_append, List.length_singleton]; omega
      · rw [hs, List.map_append, List.nodup_append]
        refine ⟨I.keys, by simp, ?_⟩
        intro a ha b hb
        simp only [List.map_cons, List.map_nil, List.mem_singleton] at hb
        subst hb
        rintro rfl
        exact hnot ha
      · intro k h' r hk
        rw [hs, List.getElem?_append] at hk
        split at hk
        · obtain ⟨a, b⟩ := I.table k h' r hk
          exact ⟨a, hstable _ _ b⟩
        · rename_i hk'
          rw [List.getElem?_singleton] at hk
          split at hk
          · rename_i e
            injection hk with hk
            injection hk with h1 h2
            subst h1 h2
            refine ⟨rfl, ?_⟩
            rw [hids, upd_same, I.next]
            congr 1
            omega
          · cases hk
      · intro t i hi
        rw [hids] at hi
        by_cases e : t = s
        · subst e
          rw [upd_same] at hi
          injection hi with hi
          refine ⟨st.sounds.length, t, by rw [← hi, I.next], ?_⟩
          rw [hs]; simp
        · rw [upd_ne _ _ _ _ e] at hi
          obtain ⟨k, r, h1, h2⟩ := I.known t i hi
          refine ⟨k, r, h1, ?_⟩
          rw [hs, List.getElem?_append_left]
          · exact h2
          · rw [List.getElem?_eq_some_iff] at h2; exact h2.1
      · rw [if_neg hnot, hs]; simp

theorem add_none {fp : Nat → Nat} {st : St} {s : Nat} (I : Inv fp st) :
    addSound fp st s = none ↔ fp s ∉ st.sounds.map (·.1) ∧ st.sounds.length = 183 := by
  unfold addSound
  cases hl : st.sounds.lookup (fp s) with
  | some r =>
    have := List.mem_map_of_mem (f := (·.1)) (IdMap.lookup_some_key hl)
    simp only at this
    constructor
    · intro h; cases h
    · intro h; exact absurd this h.1
  | none =>
    have hnot : fp s ∉ st.sounds.map (·.1) := (lookup_isNone _ _).mp (by rw [hl]; rfl)
    have hn := I.next
    have hb := I.bound
    simp only
    split
    · simp only [true_iff]; exact ⟨hnot, by omega⟩
    · constructor
      · intro h; cases h
      · intro h; omega

theorem inv_many {fp : Nat → Nat} (ss : List Nat) : ∀ st, Inv fp st → Inv fp (addMany fp st ss) ∧
    (∀ t i, st.ids t = some i → (addMany fp st ss).ids t = some i) := by
  induction ss with
  | nil => intro st I; exact ⟨I, fun _ _ h => h⟩
  | cons s ss ih =>
    intro st I
    simp only [addMany]
    cases h : addSound fp st s with
    | none => exact ih st I
    | some st' =>
      obtain ⟨I', _, hst, _⟩ := inv_add I h
      obtain ⟨a, b⟩ := ih st' I'
      exact ⟨a, fun t i hi => b t i (hst t i hi)⟩

theorem distinct_prefix (xs : List Nat) : ∀ seen, ∃ r, distinct seen xs = seen ++ r := by
  induction xs with
  | nil => intro seen; exact ⟨[], by simp [distinct]⟩
  | cons x xs ih =>
    intro seen
    simp only [distinct]
    split
    · exact ih seen
    · obtain ⟨r, hr⟩ := ih (seen ++ [x])
      exact ⟨x :: r, by rw [hr]; simp⟩

theorem keys_many {fp : Nat → Nat} (ss : List Nat) : ∀ st seen, Inv fp st → st.sounds.map (·.1) = seen.take 183 →
    (addMany fp st ss).sounds.map (·.1) = (distinct seen (ss.map fp)).take 183 := by
  induction ss with
  | nil => intro st seen _ h; exact h
  | cons s ss ih =>
    intro st seen I hk
    simp only [addMany, List.map_cons, distinct]
    cases h : addSound fp st s with
    | none =>
      obtain ⟨h1, h2⟩ := (add_none I).mp h
      simp only [Option.getD_none]
      split
      · exact ih st seen I hk
      · refine ih st _ I ?_
        rw [hk, List.take_append_of_le_length]
        have := congrArg List.length hk
        simp only [List.length_map, List.length_take] at this
        omega
    | some st' =>
      obtain ⟨I', _, _, hk'⟩ := inv_add I h
      simp only [Option.getD_some]
      by_cases hm : fp s ∈ st.sounds.map (·.1)
      · rw [if_pos hm] at hk'
        rw [if_pos (List.mem_of_mem_take (hk ▸ hm))]
        exact ih st' seen I' (hk'.trans hk)
      · rw [if_neg hm] at hk'
        have hlt : st.sounds.length ≠ 183 := fun e => by
          have := (add_none I).mpr ⟨hm, e⟩
          rw [this] at h; cases h
        have hlen := congrArg List.length hk
        simp only [List.length_map, List.length_take] at hlen
        have hb := I.bound
        have hsl : seen.length < 183 := by omega
        have htake : seen.take 183 = seen := List.take_of_length_le (by omega)
        rw [htake] at hk
        rw [if_neg (hk ▸ hm)]
        refine ih st' _ I' ?_
        rw [hk', hk, List.take_of_length_le]
        simp only [List.length_append, List.length_singleton]; omega

/-! ## theorems -/

/-- **C35** (range and position). After any sequence of additions, an id given to a sound is between 73 and 255 and is the
number the game gives to the entry of the written sound table holding that very sound (the first entry is number 73); the
table announces as many sounds as follow. -/
theorem sound_id_is_table_position (fp : Nat → Nat) (adds : List Nat) (s i : Nat)
    (h : (addMany fp {} adds).ids s = some i) :
    73 ≤ i ∧ i ≤ 255 ∧ ∃ table r, soundTable (addMany fp {} adds) = some (table.length, table) ∧
      table[i - 73]? = some r ∧ fp r = fp s := by
  obtain ⟨I, _⟩ := inv_many (fp := fp) adds {} (inv_init fp)
  obtain ⟨k, r, h1, h2⟩ := I.known s i h
  have hb := I.bound
  have hk : k < (addMany fp {} adds).sounds.length := by
    rw [List.getElem?_eq_some_iff] at h2; exact h2.1
  refine ⟨by omega, by omega, (addMany fp {} adds).sounds.map (·.2), r, ?_, ?_, (I.table k _ _ h2).1⟩
  · unfold soundTable
    rw [if_neg]
    · simp
    · intro e
      have : (addMany fp {} adds).sounds = [] := by simpa using e
      rw [this] at hk
      simp at hk
  · rw [h1, List.getElem?_map, Nat.add_sub_cancel_left, h2]; rfl

/-- **C35** (uniqueness). Two sounds have the same id if and only if they are the same sound. -/
theorem sound_ids_unique (fp : Nat → Nat) (adds : List Nat) (s t i j : Nat)
    (hs : (addMany fp {} adds).ids s = some i) (ht : (addMany fp {} adds).ids t = some j) : i = j ↔ fp s = fp t := by
  obtain ⟨I, _⟩ := inv_many (fp := fp) adds {} (inv_init fp)
  obtain ⟨k, r, h1, h2⟩ := I.known s i hs
  obtain ⟨k', r', h3, h4⟩ := I.known t j ht
  constructor
  · intro e
    have : k = k' := by omega
    subst this
    rw [h2] at h4
    injection h4 with h4
    injection h4
  · intro e
    have hk1 : ((addMany fp {} adds).sounds.map (·.1))[k]? = some (fp s) := by rw [List.getElem?_map, h2]; rfl
    have hk2 : ((addMany fp {} adds).sounds.map (·.1))[k']? = some (fp s) := by rw [List.getElem?_map, h4, e]; rfl
    rw [h1, h3, nodup_getElem_inj I.keys hk1 hk2]

/-- **C35** (stability). Ids never change as more sounds are added. -/
theorem sound_ids_stable (fp : Nat → Nat) (adds more : List Nat) (s i : Nat)
    (h : (addMany fp {} adds).ids s = some i) : (addMany fp {} (adds ++ more)).ids s = some i := by
  have e : ∀ (a : List Nat) (st : St), addMany fp st (a ++ more) = addMany fp (addMany fp st a) more := by
    intro a
    induction a with
    | nil => intro st; rfl
    | cons x a ih => intro st; simp only [List.cons_append, addMany, ih]
  rw [e]
  obtain ⟨I, _⟩ := inv_many (fp := fp) adds {} (inv_init fp)
  exact (inv_many more _ I).2 s i h

/-- **C35** (acceptance). A sound is refused exactly when 183 other distinct sounds were added before it; otherwise it
gets an id. -/
theorem sound_refused_iff (fp : Nat → Nat) (adds : List Nat) (s : Nat) :
    (addSound fp (addMany fp {} adds) s = none ↔
      183 ≤ (distinct [] (adds.map fp)).length ∧ fp s ∉ (distinct [] (adds.map fp)).take 183) ∧
    ∀ st, addSound fp (addMany fp {} adds) s = some st → ∃ i, st.ids s = some i := by
  obtain ⟨I, _⟩ := inv_many (fp := fp) adds {} (inv_init fp)
  have hk := keys_many (fp := fp) adds {} [] (inv_init fp) rfl
  constructor
  · rw [add_none I, hk]
    have hlen := congrArg List.length hk
    simp only [List.length_map, List.length_take] at hlen
    constructor
    · rintro ⟨a, b⟩; exact ⟨by omega, a⟩
    · rintro ⟨a, b⟩; exact ⟨b, by omega⟩
  · intro st h
    exact (inv_add I h).2.1

/-! ## C52 -/

theorem add_ok {fp : Nat → Nat} {l l' : List Entry} {st st' : St} {i : Item} (h : add fp l st i = some (l', st'))
    (hr : ∀ r, i ≠ .resourceAction r) : l' = l ++ expected i := by
  cases i with
  | soundAction s => simp [add] at h
  | resourceAction r => exact absurd rfl (hr r)
  | sound s =>
    simp only [add, Option.map_eq_some_iff] at h
    obtain ⟨_, _, h⟩ := h
    injection h with h _
    simp [expected, h]
  | resource r => simp only [add, Option.some.injEq, Prod.mk.injEq] at h; simp [expected, h.1]
  | action a => simp only [add, Option.some.injEq, Prod.mk.injEq] at h; simp [expected, h.1]

theorem runList_ok {fp : Nat → Nat} {gs : List Gen} {is : List Item} (hy : Yields gs is) :
    ∀ {l l' : List Entry} {st st' : St}, runList fp l st gs = some (l', st') →
    (∀ i ∈ is, ∀ r, i ≠ .resourceAction r) → l' = l ++ is.flatMap expected := by
  induction hy with
  | nil =>
    intro l l' st st' h _
    simp only [runList, Option.some.injEq, Prod.mk.injEq] at h
    simp [h.1]
  | @item i gs is hy ih =>
    intro l l' st st' h hr
    simp only [runList, runOne] at h
    cases ha : add fp l st i with
    | none => simp [ha] at h
    | some p =>
      obtain ⟨l1, st1⟩ := p
      simp only [ha] at h
      have := ih h (fun j hj => hr j (List.mem_cons_of_mem _ hj))
      rw [this, add_ok ha (hr i (by simp))]
      simp
  | @gen g gs is js hy1 hy2 ih1 ih2 =>
    intro l l' st st' h hr
    simp only [runList, runOne] at h
    cases ha : runList fp l st g with
    | none => simp [ha] at h
    | some p =>
      obtain ⟨l1, st1⟩ := p
      simp only [ha] at h
      have h1 := ih1 ha (fun j hj => hr j (List.mem_append_left _ hj))
      have h2 := ih2 h (fun j hj => hr j (List.mem_append_right _ hj))
      rw [h2, h1]
      simp

/-- **C52** (generators). When generating succeeds, what a list of (arbitrarily nested) generators contributes to the
output is what they yield, depth first and in order, each resource wrapped in its own entry and sounds moved to the sound
table. Partial: items that are themselves `SingleResourceAction`s are lost, see `resource_action_lost`. -/
theorem generators_emitted_in_order_partial (fp : Nat → Nat) (gs : List Gen) (is : List Item) (hy : Yields gs is)
    (hr : ∀ i ∈ is, ∀ r, i ≠ .resourceAction r) (l l' : List Entry) (st st' : St)
    (h : runList fp l st gs = some (l', st')) : l' = l ++ is.flatMap expected :=
  runList_ok hy h hr

/-- **C52** (`add`). The same for `add(...)`. -/
theorem added_kept_in_order_partial (fp : Nat → Nat) (is : List Item) (hr : ∀ i ∈ is, ∀ r, i ≠ .resourceAction r) :
    ∀ (l l' : List Entry) (st st' : St), addAll fp l st is = some (l', st') → l' = l ++ is.flatMap expected := by
  induction is with
  | nil =>
    intro l l' st st' h
    simp only [addAll, Option.some.injEq, Prod.mk.injEq] at h
    simp [h.1]
  | cons i is ih =>
    intro l l' st st' h
    simp only [addAll, Option.bind_eq_bind, Option.bind_eq_some_iff] at h
    obtain ⟨⟨l1, st1⟩, ha, h⟩ := h
    rw [ih (fun j hj => hr j (List.mem_cons_of_mem _ hj)) l1 l' st1 st' h, add_ok ha (hr i (by simp))]
    simp

/-- **C52** (whole file). When generating succeeds, the generated list is exactly what was added (entries, and what generators yield), in
the order of additions. -/
theorem file_emitted_in_order_partial (fp : Nat → Nat) (ts : List Top) (es : List Entry) (he : Emits ts es) :
    ∀ (l l' : List Entry) (st st' : St), generate fp l st ts = some (l', st') → l' = l ++ es := by
  induction he with
  | nil =>
    intro l l' st st' h
    simp only [generate, Option.some.injEq, Prod.mk.injEq] at h
    simp [h.1]
  | @entry e ts es _ ih =>
    intro l l' st st' h
    simp only [generate] at h
    rw [ih _ _ _ _ h]; simp
  | @gen g is ts es hy hr _ ih =>
    intro l l' st st' h
    simp only [generate] at h
    cases hx : runList fp l st g with
    | none => simp [hx] at h
    | some p =>
      obtain ⟨l1, st1⟩ := p
      simp only [hx] at h
      rw [ih _ _ _ _ h, runList_ok hy hx hr]; simp

/-- Non-vacuity: two entries around a generator with a nested generator. -/
example : Emits [.entry (.action 1), .gen [.item (.action 2), .gen [.item (.sound 5), .item (.resource 3)]], .entry (.single 4)]
    [.action 1, .action 2, .single 3, .single 4] ∧
    (generate (fun s => s) [] {} [.entry (.action 1), .gen [.item (.action 2), .gen [.item (.sound 5), .item (.resource 3)]],
      .entry (.single 4)]).map (·.1) = some [.action 1, .action 2, .single 3, .single 4] :=
  ⟨.entry (.gen (is := [.action 2, .sound 5, .resource 3]) (.item (.gen (is := [.sound 5, .resource 3]) (js := []) (.item (.item .nil)) .nil))
    (by simp) (.entry .nil)), by decide +kernel⟩

/-- Negative result for C52: a `SingleResourceAction` passed to `add` or yielded by a generator disappears without an
error, whatever else is there. -/
theorem resource_action_lost (fp : Nat → Nat) (l : List Entry) (st : St) (r : Nat) :
    add fp l st (.resourceAction r) = some (l, st) ∧ runList fp l st [.item (.resourceAction r)] = some (l, st) :=
  ⟨rfl, rfl⟩

/-- Negative result for C35: wrapping a sound in a `SingleResourceAction` before adding it always fails. -/
theorem sound_action_refused (fp : Nat → Nat) (l : List Entry) (st : St) (s : Nat) :
    add fp l st (.soundAction s) = none := rfl

/-! Non-vacuity. -/

example : (addMany (fun s => s / 10) {} [11, 25, 12, 31]).ids 12 = some 73 ∧
    (addMany (fun s => s / 10) {} [11, 25, 12, 31]).ids 31 = some 75 ∧
    soundTable (addMany (fun s => s / 10) {} [11, 25, 12, 31]) = some (3, [11, 25, 31]) := by decide +kernel

set_option maxRecDepth 100000 in
/-- The bound of C35 is reached: the 184th sound is refused. -/
example : addSound id (addMany id {} (List.range 183)) 500 = none ∧
    (addSound id (addMany id {} (List.range 182)) 500).isSome = true := by
  constructor
  · rw [(sound_refused_iff id (List.range 183) 500).1]
    decide +kernel
  · have h := (sound_refused_iff id (List.range 182) 500).1
    cases hh : addSound id (addMany id {} (List.range 182)) 500 with
    | none =>
      rw [hh] at h
      have := (h.mp rfl).1
      revert this
      decide +kernel
    | some _ => rfl

example : Yields [.item (.action 1), .gen [.item (.resource 2), .gen [.item (.sound 3)]], .item (.action 4)]
    [.action 1, .resource 2, .sound 3, .action 4] := by
  have h : Yields [.item (.resource 2), .gen [.item (.sound 3)]] [.resource 2, .sound 3] :=
    .item (.gen (is := [.sound 3]) (js := []) (.item .nil) .nil)
  exact .item (.gen h (.item .nil))

example : (runList id [] {} [.item (.action 1), .gen [.item (.resource 2), .gen [.item (.sound 3)]], .item (.action 4)]).map
    (·.1) = some [.action 1, .single 2, .action 4] := by rfl

end Grf.Sounds
