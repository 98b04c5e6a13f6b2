import Verif.Proofs.Container2
/-!
# C29 container round trip, C30 sharing of identical sprites, C31 numbering, C32 loading of source files
-/
namespace Grf

theorem writeSteps_inv {hash : List Bytes → Int} {real : Nat → Option Bytes} {W : ResWorld} {ids : Nat → Option Nat}
    {all : List Nat} {f0 : Bytes} (hinj : ∀ o ∈ all, ∀ o' ∈ all, ids o = ids o' → o = o')
    (hpos : ∀ o ∈ all, ∀ k, ids o = some k → 1 ≤ k) :
    ∀ (steps : List Step) (reals : List (Nat × Bytes)) (done : List Nat) (st st' : ResSt),
    (∀ o ∈ done, o ∈ all) → (∀ s ∈ steps, s.sid ∈ all) → WInv hash real W ids all f0 reals done st →
    steps.foldlM (writeStep hash real W ids) st = some st' →
    ∃ reals' done', WInv hash real W ids all f0 reals' done' st' ∧ (∀ o, o ∈ done' ↔ o ∈ done ∨ ∃ s ∈ steps, s.sid = o) := by
  intro steps
  induction steps with
  | nil =>
    intro reals done st st' _ _ I h
    simp only [List.foldlM_nil, Option.pure_def, Option.some.injEq] at h
    subst h
    exact ⟨reals, done, I, by simp⟩
  | cons s steps ih =>
    intro reals done st st' hd hs I h
    rw [List.foldlM_cons, Option.bind_eq_bind, Option.bind_eq_some_iff] at h
    obtain ⟨st1, h1, h2⟩ := h
    obtain ⟨reals1, I1⟩ := writeStep_inv hinj hpos hd (hs s (by simp)) I h1
    obtain ⟨reals2, done2, I2, hm⟩ := ih reals1 (s.sid :: done) st1 st'
      (by intro o ho; simp only [List.mem_cons] at ho; rcases ho with rfl | ho
          · exact hs s (by simp)
          · exact hd o ho) (fun x hx => hs x (by simp [hx])) I1 h2
    refine ⟨reals2, done2, I2, ?_⟩
    intro o
    rw [hm]
    simp only [List.mem_cons, exists_eq_or_imp]
    constructor
    · rintro ((rfl | h) | h)
      · exact .inr (.inl rfl)
      · exact .inl h
      · exact .inr (.inr h)
    · rintro (h | h | h)
      · exact .inl (.inr h)
      · exact .inl (.inl h.symm)
      · exact .inr h

/-- Everything known about a successful write. -/
structure WroteOk (hash : List Bytes → Int) (real : Nat → Option Bytes) (W : ResWorld) (items : List Item)
    (w : Written) (ids : Nat → Option Nat) (cur : Nat → Nat) (reals : List (Nat × Bytes)) (st : ResSt) : Prop where
  idsEq : ids = (enumerateSprites W items).2
  file : ∃ off, off < 256 ^ 4 ∧ off = 14 + (encItems ids cur items).length ∧
    w.file = [0, 0, 0x47, 0x52, 0x46, 0x82, 0x0d, 0x0a, 0x1a, 0x0a] ++ (leBytes 4 off ++ ([0] ++ (leBytes 4 4 ++ [0xff] ++ [2, 0, 0, 0]) ++
      (encItems ids cur items ++ ([0, 0, 0, 0] ++ (encReals reals ++ ([0, 0, 0, 0] ++ []))))))
  itemsOk : ∀ it ∈ items, ItemOk ids it
  realsOk : ∀ p ∈ reals, RealOk p
  curEq : ∀ k, cur k = (st.renum.lookup k).getD k
  curLt : ∀ o k, HasRes items o → ids o = some k → cur k < 256 ^ 4
  inv : ∃ f0 done, WInv hash real W ids (resOf items) f0 reals done st ∧ ∀ o, o ∈ done ↔ HasRes items o
  steps : ∃ f, (enumerateSprites W items).1.foldlM (writeStep hash real W ids) { file := f } = some st
  events : w.events = st.events
  start : ∃ f1 p f2 refs done, writePseudo (grfHeader ++ [0, 0, 0, 0] ++ [0]) [2, 0, 0, 0] 0xff = some (f1, p) ∧
    items.foldlM (writeItem ids) (f1, fun _ => []) = some (f2, refs) ∧
    (enumerateSprites W items).1.foldlM (writeStep hash real W ids) { file := f2 ++ [0, 0, 0, 0] } = some st ∧
    WInv hash real W ids (resOf items) (f2 ++ [0, 0, 0, 0]) reals done st ∧ w.file.length = (st.file ++ [0, 0, 0, 0]).length

theorem assoc_mem {d : List (Nat × Nat)} {k v : Nat} (h : d.lookup k = some v) : (k, v) ∈ d := by
  induction d with
  | nil => simp at h
  | cons p d ih =>
    rw [List.lookup_cons] at h
    by_cases e : k = p.1
    · subst e
      simp at h
      simp [← h]
    · have : (k == p.1) = false := by simpa using e
      rw [this] at h
      simp [ih h]

theorem writeFile_ok {hash : List Bytes → Int} {real : Nat → Option Bytes} {W : ResWorld} {items : List Item}
    {w : Written} (h : writeFile hash real W items = some w) :
    ∃ ids cur reals st, WroteOk hash real W items w ids cur reals st := by
  obtain ⟨order, sch, E⟩ := enumerate_ok W items
  have hp := E.perm_all
  unfold writeFile at h
  obtain ⟨steps, ids, hen⟩ : ∃ steps ids, enumerateSprites W items = (steps, ids) := ⟨_, _, rfl⟩
  rw [hen] at h
  simp only [] at h
  rw [Option.bind_eq_bind, Option.bind_eq_some_iff] at h
  obtain ⟨⟨f1, p1⟩, hf1, h⟩ := h
  have hf1' := hf1
  obtain ⟨_, hf1, _⟩ := writePseudo_some hf1
  rw [Option.bind_eq_bind, Option.bind_eq_some_iff] at h
  obtain ⟨⟨f2, refs⟩, hf2, h⟩ := h
  obtain ⟨i1, i2, i3⟩ := writeItems_some items _ _ _ _ hf2
  rw [Option.bind_eq_bind, Option.bind_eq_some_iff] at h
  obtain ⟨st, hst, h⟩ := h
  rw [Option.bind_eq_bind, Option.bind_eq_some_iff] at h
  obtain ⟨b, hb, h⟩ := h
  obtain ⟨hb1, hb2⟩ := packU_nat_some hb
  rw [Option.bind_eq_some_iff] at h
  obtain ⟨f3, hf3, h⟩ := h
  simp only [Option.some.injEq] at h
  subst h
  simp only [] at i1 i2 hst hb1 hb2 hf3
  have hids : ids = (enumerateSprites W items).2 := by rw [hen]
  have hstepsE : steps = (enumerateSprites W items).1 := by rw [hen]
  obtain ⟨n1, n2⟩ := ids_spec W items
  rw [← hids] at n1 n2
  obtain ⟨reals, done, I, hdone⟩ := writeSteps_inv (real := real) (W := W) (all := resOf items) (hash := hash)
    (f0 := f2 ++ [0, 0, 0, 0])
    (fun o ho o' ho' e => n2 o o' ((mem_resOf _ _).1 ho) ((mem_resOf _ _).1 ho') e)
    (by intro o ho k hk
        obtain ⟨k', e1, e2, _⟩ := n1 o ((mem_resOf _ _).1 ho)
        rw [hk] at e1
        simp at e1
        omega)
    steps [] [] { file := f2 ++ [0, 0, 0, 0] } st (by simp)
    (by intro s hs
        rw [hstepsE, E.steps, List.mem_map] at hs
        obtain ⟨sid, h1, rfl⟩ := hs
        rw [← hp.mem_iff]
        exact h1)
    ⟨by simp [encReals], by simp, by simp, by simp, by simp, by simp, by simp, by simp⟩ hst
  -- the file before renumbering
  have hbase : f1 = grfHeader ++ ([0, 0, 0, 0] ++ ([0] ++ (leBytes 4 4 ++ [0xff] ++ [2, 0, 0, 0]))) := by
    rw [hf1]; simp
  have hfile : patch (st.file ++ [0, 0, 0, 0]) 10 b =
      (grfHeader ++ (b ++ ([0] ++ (leBytes 4 4 ++ [0xff] ++ [2, 0, 0, 0])))) ++
        (encItems ids id items ++ ([0, 0, 0, 0] ++ (encReals reals ++ ([0, 0, 0, 0] ++ [])))) := by
    rw [I.file, i1, hbase]
    have := patch_append grfHeader [0, 0, 0, 0] b (([0] ++ (leBytes 4 4 ++ [0xff] ++ [2, 0, 0, 0])) ++
      (encItems ids id items ++ ([0, 0, 0, 0] ++ (encReals reals ++ ([0, 0, 0, 0] ++ [])))))
      (by rw [hb2, leBytes_length]; rfl)
    have e10 : grfHeader.length = 10 := rfl
    rw [e10] at this
    rw [show (grfHeader ++ ([0, 0, 0, 0] ++ ([0] ++ (leBytes 4 4 ++ [0xff] ++ [2, 0, 0, 0]))) ++
      encItems ids id items ++ [0, 0, 0, 0] ++ encReals reals ++ [0, 0, 0, 0]) = grfHeader ++ ([0, 0, 0, 0] ++
      (([0] ++ (leBytes 4 4 ++ [0xff] ++ [2, 0, 0, 0])) ++
      (encItems ids id items ++ ([0, 0, 0, 0] ++ (encReals reals ++ ([0, 0, 0, 0] ++ [])))))) from by simp, this]
    simp
  have hlen : f1.length = (grfHeader ++ (b ++ ([0] ++ (leBytes 4 4 ++ [0xff] ++ [2, 0, 0, 0])))).length := by
    rw [hbase, hb2]; simp [leBytes_length]
  rw [hfile] at hf3
  obtain ⟨r1, r2⟩ := renumber_fold ids items _ _ refs i3 (by intro k; rw [i2 k, hlen]; simp) st.renum id f3 hf3
  obtain ⟨cur, hcur⟩ : ∃ cur, cur = st.renum.foldl (fun c p => upd c p.1 p.2) id := ⟨_, rfl⟩
  rw [← hcur] at r1
  have hcurEq : ∀ k, cur k = (st.renum.lookup k).getD k := by
    intro k
    rw [hcur, upd_fold_lookup _ I.renNodup]
    rfl
  have hitemsLen : ∀ c c' : Nat → Nat, (encItems ids c items).length = (encItems ids c' items).length := by
    intro c c'
    have : ∀ l : List Item, (encItems ids c l).length = (encItems ids c' l).length := by
      intro l
      induction l with
      | nil => rfl
      | cons it l ih => simp [encItems, ih, encItem_length ids c c' it]
    exact this items
  refine ⟨ids, cur, reals, st, hids, ⟨f2.length - 10, hb1, ?_, ?_⟩, i3, I.ok, hcurEq, ?_, ⟨_, done, I, ?_⟩, ⟨f2 ++ [0, 0, 0, 0], ?_⟩, rfl,
    ⟨f1, p1, f2, refs, done, hf1', hf2, hstepsE ▸ hst, I, ?_⟩⟩
  · rw [i1, hbase, hitemsLen cur id]
    have e10 : grfHeader.length = 10 := rfl
    simp [leBytes_length, e10]
    omega
  · rw [r1, hb2]; simp [grfHeader]
  · intro o k ho hk
    rw [hcurEq]
    cases hl : st.renum.lookup k with
    | none =>
      obtain ⟨k', e1, e2⟩ := i3 _ ho
      rw [hk] at e1
      simp at e1
      simpa [e1] using e2
    | some v => exact r2 (k, v) (assoc_mem hl)
  · intro o
    rw [hdone]
    simp only [List.not_mem_nil, false_or]
    rw [hstepsE, E.steps, ← mem_resOf, ← hp.mem_iff]
    constructor
    · rintro ⟨s, hs, rfl⟩
      obtain ⟨a, ha, rfl⟩ := List.mem_map.1 hs
      exact ha
    · intro ho
      exact ⟨_, List.mem_map.2 ⟨o, ho, rfl⟩, rfl⟩
  · rw [← hstepsE]; exact hst
  · rw [r1, I.file, i1, hbase, hb2]
    have := hitemsLen cur id
    simp only [List.length_append, leBytes_length, this]
    simp
    omega

theorem WroteOk.read {hash : List Bytes → Int} {real : Nat → Option Bytes} {W : ResWorld} {items : List Item}
    {w : Written} {ids : Nat → Option Nat} {cur : Nat → Nat} {reals : List (Nat × Bytes)} {st : ResSt}
    (O : WroteOk hash real W items w ids cur reals st) (hne : ∀ d, .action (some d) ∈ items → d ≠ []) :
    readFile w.file = some { offsetOk := true, entries := items.map (entryOf ids cur), reals := reals, rest := [] } := by
  obtain ⟨off, h1, h2, h3⟩ := O.file
  obtain ⟨tail, ht⟩ : ∃ tail, tail = encItems ids cur items ++ ([0, 0, 0, 0] ++ (encReals reals ++ ([0, 0, 0, 0] ++ []))) :=
    ⟨_, rfl⟩
  unfold readFile
  rw [h3, ← ht, takeBytes_append' (k := 10) [0, 0, 0x47, 0x52, 0x46, 0x82, 0x0d, 0x0a, 0x1a, 0x0a] _ rfl]
  simp only [Option.bind_eq_bind, Option.bind_some, readU_leBytes h1]
  simp only [List.cons_append, List.nil_append, List.append_assoc, readU_one, Option.bind_some]
  have h9 : takeBytes 9 (leBytes 4 4 ++ 0xff :: 2 :: 0 :: 0 :: 0 :: tail) =
      some (leBytes 4 4 ++ [0xff, 2, 0, 0, 0], tail) := by
    have := takeBytes_append' (k := 9) (leBytes 4 4 ++ [0xff, 2, 0, 0, 0]) tail (by simp [leBytes_length])
    simpa using this
  rw [h9]
  simp only [Option.bind_some]
  have hr1 := readPseudos_items ids cur items (encReals reals ++ ([0, 0, 0, 0] ++ [])) (tail.length + 1) O.itemsOk hne
    (fun o k ho hk => O.curLt o k ho hk) (by
      have := encItems_length_ge ids cur items
      rw [ht, List.length_append]
      omega)
  rw [← ht] at hr1
  rw [hr1]
  simp only [Option.bind_some]
  rw [readReals_reals reals [] _ O.realsOk (by
    have := encReals_length_ge reals
    rw [List.length_append]
    omega)]
  simp only [Option.bind_some, Option.some.injEq, Parsed.mk.injEq, and_true, decide_eq_true_eq]
  rw [ht, h2]
  simp [leBytes_length]
  omega

/-- C29 + C30: reading the written file gives, in order, exactly the payload of every action and for every resource a
reference to an id under which exactly its data are stored; the declared offset is right and nothing follows the
terminator. Actions must not be empty; different data must have different hashes. -/
theorem written_file_reads_back (hash : List Bytes → Int) (real : Nat → Option Bytes) (W : ResWorld) (items : List Item)
    (w : Written) (hne : ∀ d, .action (some d) ∈ items → d ≠ []) (hh : HashDistinguishes hash real W items)
    (h : writeFile hash real W items = some w) :
    ∃ p, readFile w.file = some p ∧ p.offsetOk = true ∧ p.rest = [] ∧
      List.Forall₂ (ShownAs real W p.reals) items p.entries := by
  obtain ⟨ids, cur, reals, st, O⟩ := writeFile_ok h
  refine ⟨_, O.read hne, rfl, rfl, ?_⟩
  simp only []
  obtain ⟨f0, done, I, hdone⟩ := O.inv
  rw [List.forall₂_map_right_iff, List.forall₂_same]
  intro it hit
  cases it with
  | action d =>
    obtain ⟨x, hx, _⟩ := O.itemsOk _ hit
    refine ⟨x, hx, ?_⟩
    unfold entryOf
    rw [hx]
    simp only [Option.getD_some]
    by_cases h1 : x.length = 1
    · exact .inr ⟨h1, by simp [h1]⟩
    · exact .inl (by simp [h1])
  | res o =>
    have ho : HasRes items o := hit
    obtain ⟨k, d, e1, e2, e3⟩ := I.data (fun a ha => (mem_resOf _ _).2 ((hdone a).1 ha))
      (fun a ha b hb => hh a b ((mem_resOf _ _).1 ha) ((mem_resOf _ _).1 hb)) o
      ((hdone o).2 ho)
    refine ⟨cur k, by simp [entryOf, e1], ?_⟩
    rw [e2, O.curEq, e3]

/-- **C30** Every reference in the written file leads to its own data exactly when no two different lists of sprite data of this file have
the same hash. -/
theorem shown_iff_hash_distinguishes (hash : List Bytes → Int) (real : Nat → Option Bytes) (W : ResWorld) (items : List Item)
    (w : Written) (hne : ∀ d, .action (some d) ∈ items → d ≠ []) (h : writeFile hash real W items = some w) :
    (∃ p, readFile w.file = some p ∧ List.Forall₂ (ShownAs real W p.reals) items p.entries) ↔ HashDistinguishes hash real W items := by
  constructor
  · rintro ⟨p, hp, hsh⟩
    obtain ⟨ids, cur, reals, st, O⟩ := writeFile_ok h
    rw [O.read hne] at hp
    simp only [Option.some.injEq] at hp
    subst hp
    simp only [] at hsh
    obtain ⟨f0, done, I, hdone⟩ := O.inv
    rw [List.forall₂_map_right_iff, List.forall₂_same] at hsh
    intro o o' ho ho' d d' hd hd' e
    obtain ⟨k, x, h1, h2, h3⟩ := I.shown o ((hdone o).2 ho)
    obtain ⟨k', x', h1', h2', h3'⟩ := I.shown o' ((hdone o').2 ho')
    rw [hd] at h2; rw [hd'] at h2'
    cases h2; cases h2'
    rw [← e, h3] at h3'
    obtain ⟨v, e1, e2⟩ := hsh _ ho
    obtain ⟨v', e1', e2'⟩ := hsh _ ho'
    simp only [entryOf, h1, h1', Option.getD_some, PEntry.ref.injEq, O.curEq] at e1 e1'
    have hv : v = v' := by rw [← e1, ← e1']; exact Option.some.inj h3'
    subst hv
    rw [hd] at e2; rw [hd'] at e2'
    rw [← e2'] at e2
    exact Option.some.inj e2
  · intro hh
    obtain ⟨p, h1, _, _, h4⟩ := written_file_reads_back hash real W items w hne hh h
    exact ⟨p, h1, h4⟩

/-- C29 without any assumption on the hash: the framing is right and every action's payload comes back. -/
theorem written_file_well_formed (hash : List Bytes → Int) (real : Nat → Option Bytes) (W : ResWorld) (items : List Item)
    (w : Written) (hne : ∀ d, .action (some d) ∈ items → d ≠ []) (h : writeFile hash real W items = some w) :
    ∃ p, readFile w.file = some p ∧ p.offsetOk = true ∧ p.rest = [] ∧ p.entries.length = items.length ∧
      (∀ (i : Nat) d, items[i]? = some (.action d) → ∃ x, d = some x ∧
        (p.entries[i]? = some (.pseudo x) ∨ (x.length = 1 ∧ p.entries[i]? = some .empty))) ∧
      (∀ (i : Nat) o, items[i]? = some (.res o) → ∃ v, p.entries[i]? = some (.ref v) ∧ 1 ≤ v) := by
  obtain ⟨ids, cur, reals, st, O⟩ := writeFile_ok h
  obtain ⟨f0, done, I, hdone⟩ := O.inv
  refine ⟨_, O.read hne, rfl, rfl, by simp, ?_, ?_⟩
  · intro i d hi
    obtain ⟨x, hx, _⟩ := O.itemsOk _ (List.mem_of_getElem? hi)
    refine ⟨x, hx, ?_⟩
    simp only [List.getElem?_map, hi, Option.map_some, entryOf, hx, Option.getD_some]
    by_cases h1 : x.length = 1
    · exact .inr ⟨h1, by simp [h1]⟩
    · exact .inl (by simp [h1])
  · intro i o hi
    have ho : HasRes items o := List.mem_of_getElem? hi
    obtain ⟨n1, _⟩ := ids_spec W items
    rw [← O.idsEq] at n1
    obtain ⟨k, hk, hk1, _⟩ := n1 o ho
    refine ⟨cur k, by simp [hi, entryOf, hk], ?_⟩
    rw [O.curEq]
    cases hl : st.renum.lookup k with
    | none => simpa using hk1
    | some v =>
      obtain ⟨_, o', ho', e⟩ := I.ren k v hl
      obtain ⟨k', hk', hk1', _⟩ := n1 o' ((hdone o').1 ho')
      rw [e] at hk'
      simp at hk'
      simpa [hk'] using hk1'

/-- C30: no data are stored twice, and nothing is stored that no reference in the file leads to. -/
theorem no_data_stored_twice (hash : List Bytes → Int) (real : Nat → Option Bytes) (W : ResWorld) (items : List Item)
    (w : Written) (hne : ∀ d, .action (some d) ∈ items → d ≠ []) (h : writeFile hash real W items = some w)
    (p : Parsed) (hp : readFile w.file = some p) :
    (∀ a ∈ p.reals, ∀ b ∈ p.reals, a.1 ≠ b.1 → dataOf p.reals a.1 ≠ dataOf p.reals b.1) ∧
    (∀ a ∈ p.reals, .ref a.1 ∈ p.entries) := by
  obtain ⟨ids, cur, reals, st, O⟩ := writeFile_ok h
  obtain ⟨f0, done, I, hdone⟩ := O.inv
  rw [O.read hne] at hp
  simp only [Option.some.injEq] at hp
  subst hp
  refine ⟨?_, ?_⟩
  · intro a ha b hb hab e
    have h1 := I.own a ha
    have h2 := I.own b hb
    simp only [] at e
    rw [e, h2] at h1
    simp at h1
    exact hab h1.symm
  · intro a ha
    obtain ⟨o, ho, d, e1, _, _, e4, _⟩ := I.hashes _ _ (I.own a ha)
    simp only [List.mem_map]
    refine ⟨.res o, (hdone o).1 ho, ?_⟩
    simp [entryOf, e1, O.curEq, e4]

/-- C31: before merging duplicates, every resource has an id of its own between 1 and the number of resource entries. -/
theorem real_ids_distinct (W : ResWorld) (items : List Item) :
    (∀ o, HasRes items o → ∃ k, (enumerateSprites W items).2 o = some k ∧ 1 ≤ k ∧ k ≤ resCount items) ∧
    (∀ o o', HasRes items o → HasRes items o' → (enumerateSprites W items).2 o = (enumerateSprites W items).2 o' → o = o') :=
  ids_spec W items

/-- C31: when no resource is added at two places the ids are exactly 1..n: each is used by exactly one resource. -/
theorem real_ids_bijective (W : ResWorld) (items : List Item) (hd : ResDistinct items) (k : Nat) (h1 : 1 ≤ k)
    (h2 : k ≤ resCount items) :
    ∃ o, HasRes items o ∧ (enumerateSprites W items).2 o = some k ∧
      ∀ o', HasRes items o' → (enumerateSprites W items).2 o' = some k → o' = o := by
  obtain ⟨order, s, E⟩ := enumerate_ok W items
  have hp := E.perm_all
  have hnd := hp.nodup_iff.2 (resOf_nodup hd)
  have hk : k - 1 < (plain W (resOf items) ++ order).length := by rw [hp.length_eq, resOf_length]; omega
  obtain ⟨o, ho⟩ : ∃ o, (plain W (resOf items) ++ order)[k - 1]? = some o := ⟨_, List.getElem?_eq_getElem hk⟩
  have hom : o ∈ plain W (resOf items) ++ order := List.mem_of_getElem? ho
  have hor : HasRes items o := by rw [← mem_resOf, ← hp.mem_iff]; exact hom
  have hid : (enumerateSprites W items).2 o = some k := by
    rw [E.ids]
    obtain ⟨j, e1, e2⟩ := assignSeq_mem _ 1 (fun _ => none) hom
    rw [e2]
    have : j = k - 1 := by
      obtain ⟨hj, ej⟩ := List.getElem?_eq_some_iff.1 e1
      obtain ⟨hk', ek⟩ := List.getElem?_eq_some_iff.1 ho
      exact (List.Nodup.getElem_inj_iff hnd).1 (ej.trans ek.symm)
    congr 1
    omega
  exact ⟨o, hor, hid, fun o' ho' e => (ids_spec W items).2 o' o ho' hor (by rw [e, hid])⟩

/-! ### C32 -/

def stepEvents (s : Step) : List Ev := s.load.map Ev.load ++ [Ev.use s.sid] ++ s.unload.map Ev.unload

theorem writeStep_events {hash : List Bytes → Int} {real : Nat → Option Bytes} {W : ResWorld} {ids : Nat → Option Nat}
    {st st' : ResSt} {s : Step} (hw : s.sid ∉ st.written) (h : writeStep hash real W ids st s = some st') :
    st'.events = st.events ++ stepEvents s ∧ st'.written = s.sid :: st.written := by
  unfold writeStep at h
  simp only [hw, if_false] at h
  rw [Option.bind_eq_bind, Option.bind_eq_some_iff] at h
  obtain ⟨d, hd, h⟩ := h
  rw [Option.bind_eq_bind, Option.bind_eq_some_iff] at h
  obtain ⟨k, hk, h⟩ := h
  cases hl : st.hashes.lookup (hash d) with
  | some v =>
    rw [hl] at h
    simp only [Option.bind_eq_bind, Option.bind_some, Option.some.injEq] at h
    subst h
    simp [stepEvents]
  | none =>
    rw [hl] at h
    simp only [] at h
    rw [Option.bind_eq_bind, Option.bind_eq_some_iff] at h
    obtain ⟨f, hf, h⟩ := h
    simp only [Option.bind_eq_bind, Option.bind_some, Option.some.injEq] at h
    subst h
    simp [stepEvents]

theorem writeSteps_events {hash : List Bytes → Int} {real : Nat → Option Bytes} {W : ResWorld} {ids : Nat → Option Nat} :
    ∀ (steps : List Step) (st st' : ResSt), (steps.map (·.sid)).Nodup → (∀ s ∈ steps, s.sid ∉ st.written) →
    steps.foldlM (writeStep hash real W ids) st = some st' → st'.events = st.events ++ steps.flatMap stepEvents := by
  intro steps
  induction steps with
  | nil =>
    intro st st' _ _ h
    simp only [List.foldlM_nil, Option.pure_def, Option.some.injEq] at h
    simp [h]
  | cons s steps ih =>
    intro st st' hnd hw h
    rw [List.foldlM_cons, Option.bind_eq_bind, Option.bind_eq_some_iff] at h
    obtain ⟨st1, h1, h2⟩ := h
    obtain ⟨e1, e2⟩ := writeStep_events (hw s (by simp)) h1
    simp only [List.map_cons, List.nodup_cons] at hnd
    rw [ih st1 st' hnd.2 ?_ h2, e1]
    · simp
    · intro t ht
      rw [e2]
      simp only [List.mem_cons, not_or]
      refine ⟨?_, hw t (by simp [ht])⟩
      intro e
      exact hnd.1 (by rw [← e]; exact List.mem_map.2 ⟨t, ht, rfl⟩)

/-- First element satisfying a predicate. -/
theorem split_first {p : Nat → Bool} {l : List Nat} (h : ∃ x ∈ l, p x = true) :
    ∃ l1 x l2, l = l1 ++ x :: l2 ∧ p x = true ∧ ∀ y ∈ l1, p y = false := by
  induction l with
  | nil => obtain ⟨x, hx, _⟩ := h; simp at hx
  | cons a l ih =>
    by_cases ha : p a = true
    · exact ⟨[], a, l, rfl, ha, by simp⟩
    · have : ∃ x ∈ l, p x = true := by
        obtain ⟨x, hx, hpx⟩ := h
        simp only [List.mem_cons] at hx
        rcases hx with rfl | hx
        · exact absurd hpx ha
        · exact ⟨x, hx, hpx⟩
      obtain ⟨l1, x, l2, e, h1, h2⟩ := ih this
      refine ⟨a :: l1, x, l2, by simp [e], h1, ?_⟩
      intro y hy
      simp only [List.mem_cons] at hy
      rcases hy with rfl | hy
      · simpa using ha
      · exact h2 y hy

theorem find_reverse_split {p : Nat → Bool} {l : List Nat} {x : Nat} (hnd : l.Nodup) (h : l.reverse.find? p = some x) :
    p x = true ∧ ∀ l1 l2, l = l1 ++ x :: l2 → ∀ y ∈ l2, p y = false := by
  rw [List.find?_eq_some_iff_append] at h
  obtain ⟨h1, as, bs, e, h2⟩ := h
  refine ⟨h1, ?_⟩
  have e' : l = bs.reverse ++ x :: as.reverse := by
    have := congrArg List.reverse e
    simpa using this
  intro l1 l2 el y hy
  have : l2 = as.reverse := by
    rw [el] at e' hnd
    rw [List.nodup_append] at hnd
    have hx1 : x ∉ l1 := fun hm => hnd.2.2 x hm x (by simp) rfl
    have hx2 : x ∉ l2 := (List.nodup_cons.1 hnd.2.1).1
    have := List.append_cons_inj_of_notMem hx1 hx2 |>.1 e'
    exact this.2.2
  rw [this, List.mem_reverse] at hy
  simpa using h2 y hy

/-- Loads and unloads of a schedule over distinct sprites `L`. -/
structure Sched (W : ResWorld) (L : List Nat) (lf uf : Nat → List Nat) : Prop where
  nodup : L.Nodup
  load : ∀ P1 s P2, L = P1 ++ s :: P2 → ∀ f, f ∈ lf s ↔ f ∈ (W s).files ∧ ∀ t ∈ P1, f ∉ (W t).files
  unload : ∀ P1 s P2, L = P1 ++ s :: P2 → ∀ f, f ∈ uf s ↔ f ∈ (W s).files ∧ ∀ t ∈ P2, f ∉ (W t).files
  loadNodup : ∀ s, (lf s).Nodup
  unloadNodup : ∀ s, (uf s).Nodup

theorem mem_unloadFiles {lastUse : List (Nat × Nat)} (hnd : (lastUse.map (·.1)).Nodup) (s f : Nat) :
    f ∈ unloadFiles lastUse s ↔ lastUse.lookup f = some s := by
  unfold unloadFiles
  rw [List.mem_map]
  constructor
  · rintro ⟨p, hp, rfl⟩
    rw [List.mem_filter] at hp
    obtain ⟨h1, h2⟩ := hp
    have h2' : p.2 = s := by simpa using h2
    clear h2
    induction lastUse with
    | nil => simp at h1
    | cons q l ih =>
      simp only [List.map_cons, List.nodup_cons] at hnd
      rw [List.lookup_cons]
      simp only [List.mem_cons] at h1
      rcases h1 with rfl | h1
      · simp [h2']
      · have : p.1 ≠ q.1 := by
          intro e
          exact hnd.1 (by rw [← e]; exact List.mem_map.2 ⟨p, h1, rfl⟩)
        have hb : (p.1 == q.1) = false := by simpa using this
        rw [hb]
        exact ih hnd.2 h1
  · intro h
    exact ⟨(f, s), by rw [List.mem_filter]; exact ⟨assoc_mem h, by simp⟩, rfl⟩

theorem EnumOk.sched {W : ResWorld} {items : List Item} {order : List Nat} {s : SchedSt} (E : EnumOk W items order s)
    (hd : ResDistinct items) :
    Sched W (plain W (resOf items) ++ order) s.loadFiles (unloadFiles s.lastUse) := by
  have hnd := E.perm_all.nodup_iff.2 (resOf_nodup hd)
  have hndo : order.Nodup := (List.nodup_append.1 hnd).2.1
  have LO := E.loads hndo
  have hplain : ∀ x ∈ plain W (resOf items), (W x).files = [] := by
    intro x hx
    unfold plain at hx
    simpa using (List.mem_filter.1 hx).2
  have hsplit : ∀ P1 t P2, plain W (resOf items) ++ order = P1 ++ t :: P2 →
      (t ∈ plain W (resOf items) ∧ t ∉ order ∧ (W t).files = []) ∨
      ∃ Q, P1 = plain W (resOf items) ++ Q ∧ order = Q ++ t :: P2 := by
    intro P1 t P2 e
    by_cases ht : t ∈ plain W (resOf items)
    · exact .inl ⟨ht, fun h => (List.nodup_append.1 hnd).2.2 t ht t h rfl, hplain t ht⟩
    · right
      rcases List.append_eq_append_iff.1 e with ⟨Q, h1, h2⟩ | ⟨Q, h1, h2⟩
      · exact ⟨Q, h1, h2⟩
      · cases Q with
        | nil =>
          simp only [List.append_nil] at h1
          exact ⟨[], by simp [h1], by simpa using h2.symm⟩
        | cons q Q =>
          simp only [List.cons_append, List.cons.injEq] at h2
          exact absurd (by rw [h1, h2.1]; simp) ht
  refine ⟨hnd, ?_, ?_, LO.loadNodup, ?_⟩
  · intro P1 t P2 e f
    rcases hsplit P1 t P2 e with ⟨_, h2, h3⟩ | ⟨Q, rfl, h2⟩
    · simp [LO.loadOut t h2, h3]
    · rw [LO.loadMem Q t P2 h2 f]
      constructor
      · rintro ⟨a, b⟩
        refine ⟨a, ?_⟩
        intro x hx
        rw [List.mem_append] at hx
        rcases hx with hx | hx
        · simp [hplain x hx]
        · exact b x hx
      · rintro ⟨a, b⟩
        exact ⟨a, fun x hx => b x (by simp [hx])⟩
  · intro P1 t P2 e f
    rw [mem_unloadFiles LO.lastNodup, LO.last]
    rcases hsplit P1 t P2 e with ⟨_, h2, h3⟩ | ⟨Q, rfl, h2⟩
    · constructor
      · intro h
        have := List.mem_of_find?_eq_some h
        exact absurd (by simpa using this) h2
      · rintro ⟨h, _⟩
        simp [h3] at h
    · constructor
      · intro h
        obtain ⟨a, b⟩ := find_reverse_split hndo h
        refine ⟨by simpa using a, ?_⟩
        intro x hx
        simpa using b Q P2 h2 x hx
      · rintro ⟨a, b⟩
        rw [h2, List.find?_eq_some_iff_append]
        refine ⟨by simpa using a, P2.reverse, Q.reverse, by simp, ?_⟩
        intro x hx
        simpa using b x (by simpa using hx)
  · intro t
    unfold unloadFiles
    exact (List.filter_sublist.map _).nodup LO.lastNodup

def schedEvents (lf uf : Nat → List Nat) (L : List Nat) : List Ev :=
  L.flatMap fun s => (lf s).map Ev.load ++ [Ev.use s] ++ (uf s).map Ev.unload

theorem schedEvents_append (lf uf : Nat → List Nat) (a b : List Nat) :
    schedEvents lf uf (a ++ b) = schedEvents lf uf a ++ schedEvents lf uf b := by simp [schedEvents]

theorem mem_schedEvents_load {lf uf : Nat → List Nat} {L : List Nat} {f : Nat} :
    Ev.load f ∈ schedEvents lf uf L ↔ ∃ s ∈ L, f ∈ lf s := by simp [schedEvents]
theorem mem_schedEvents_unload {lf uf : Nat → List Nat} {L : List Nat} {f : Nat} :
    Ev.unload f ∈ schedEvents lf uf L ↔ ∃ s ∈ L, f ∈ uf s := by simp [schedEvents]
theorem mem_schedEvents_use {lf uf : Nat → List Nat} {L : List Nat} {o : Nat} :
    Ev.use o ∈ schedEvents lf uf L ↔ o ∈ L := by simp [schedEvents]

theorem count_ev_load (l : List Nat) (f : Nat) : (l.map Ev.load).count (Ev.load f) = l.count f := by
  induction l with
  | nil => rfl
  | cons a l ih =>
    simp only [List.map_cons, List.count_cons, ih]
    congr 1
    by_cases h : a = f <;> simp [h]
theorem count_ev_unload (l : List Nat) (f : Nat) : (l.map Ev.unload).count (Ev.unload f) = l.count f := by
  induction l with
  | nil => rfl
  | cons a l ih =>
    simp only [List.map_cons, List.count_cons, ih]
    congr 1
    by_cases h : a = f <;> simp [h]

theorem split_last {p : Nat → Bool} {l : List Nat} (h : ∃ x ∈ l, p x = true) :
    ∃ l1 x l2, l = l1 ++ x :: l2 ∧ p x = true ∧ ∀ y ∈ l2, p y = false := by
  obtain ⟨l1, x, l2, e, h1, h2⟩ := split_first (p := p) (l := l.reverse) (by simpa using h)
  refine ⟨l2.reverse, x, l1.reverse, ?_, h1, by simpa using h2⟩
  have := congrArg List.reverse e
  simpa using this

theorem Sched.props {W : ResWorld} {L : List Nat} {lf uf : Nat → List Nat} (S : Sched W L lf uf) :
    (∀ o ∈ L, (schedEvents lf uf L).count (.use o) = 1) ∧
    (∀ f, (∃ o ∈ L, f ∈ (W o).files) → (schedEvents lf uf L).count (.load f) = 1 ∧
      (schedEvents lf uf L).count (.unload f) = 1) ∧
    (∀ f, ¬ (∃ o ∈ L, f ∈ (W o).files) → .load f ∉ schedEvents lf uf L ∧ .unload f ∉ schedEvents lf uf L) ∧
    (∀ pre o post, schedEvents lf uf L = pre ++ .use o :: post → ∀ f ∈ (W o).files, .load f ∈ pre ∧ .unload f ∈ post) := by
  have hone : ∀ x, schedEvents lf uf [x] = (lf x).map Ev.load ++ [Ev.use x] ++ (uf x).map Ev.unload := by
    intro x; simp [schedEvents]
  have hcons : ∀ l1 x l2, schedEvents lf uf (l1 ++ x :: l2) = schedEvents lf uf l1 ++
      ((lf x).map Ev.load ++ [Ev.use x] ++ (uf x).map Ev.unload) ++ schedEvents lf uf l2 := by
    intro l1 x l2
    rw [show l1 ++ x :: l2 = l1 ++ ([x] ++ l2) from rfl, schedEvents_append, schedEvents_append, hone]
    simp
  refine ⟨?_, ?_, ?_, ?_⟩
  · intro o ho
    obtain ⟨l1, l2, e⟩ := List.append_of_mem ho
    have hnd := S.nodup
    rw [e, List.nodup_append] at hnd
    rw [e, hcons, List.count_append, List.count_append, List.count_append, List.count_append]
    have c1 : (schedEvents lf uf l1).count (.use o) = 0 := by
      rw [List.count_eq_zero, mem_schedEvents_use]
      intro h
      exact hnd.2.2 o h o (by simp) rfl
    have c2 : (schedEvents lf uf l2).count (.use o) = 0 := by
      rw [List.count_eq_zero, mem_schedEvents_use]
      exact (List.nodup_cons.1 hnd.2.1).1
    have c3 : ((lf o).map Ev.load).count (.use o) = 0 := by rw [List.count_eq_zero]; simp
    have c4 : ((uf o).map Ev.unload).count (.use o) = 0 := by rw [List.count_eq_zero]; simp
    rw [c1, c2, c3, c4]
    simp
  · intro f hf
    have hf' : ∃ o ∈ L, decide (f ∈ (W o).files) = true := by simpa using hf
    refine ⟨?_, ?_⟩
    · obtain ⟨l1, x, l2, e, h1, h2⟩ := split_first hf'
      have h1' : f ∈ (W x).files := by simpa using h1
      rw [e, hcons, List.count_append, List.count_append, List.count_append, List.count_append, count_ev_load]
      have c1 : (schedEvents lf uf l1).count (.load f) = 0 := by
        rw [List.count_eq_zero, mem_schedEvents_load]
        rintro ⟨s, hs, hfs⟩
        obtain ⟨m1, m2, em⟩ := List.append_of_mem hs
        have := (S.load m1 s (m2 ++ x :: l2) (by rw [e, em]; simp) f).1 hfs
        have h3 := h2 s hs
        simp [this.1] at h3
      have c2 : (schedEvents lf uf l2).count (.load f) = 0 := by
        rw [List.count_eq_zero, mem_schedEvents_load]
        rintro ⟨s, hs, hfs⟩
        obtain ⟨m1, m2, em⟩ := List.append_of_mem hs
        have := (S.load (l1 ++ x :: m1) s m2 (by rw [e, em]; simp) f).1 hfs
        exact this.2 x (by simp) h1'
      have c3 : (lf x).count f = 1 := by
        refine List.count_eq_one_of_mem (S.loadNodup x) ?_
        rw [S.load l1 x l2 e f]
        exact ⟨h1', fun t ht => by simpa using h2 t ht⟩
      have c4 : ((uf x).map Ev.unload).count (.load f) = 0 := by rw [List.count_eq_zero]; simp
      rw [c1, c2, c3, c4]
      simp
    · obtain ⟨l1, x, l2, e, h1, h2⟩ := split_last hf'
      have h1' : f ∈ (W x).files := by simpa using h1
      rw [e, hcons, List.count_append, List.count_append, List.count_append, List.count_append, count_ev_unload]
      have c1 : (schedEvents lf uf l1).count (.unload f) = 0 := by
        rw [List.count_eq_zero, mem_schedEvents_unload]
        rintro ⟨s, hs, hfs⟩
        obtain ⟨m1, m2, em⟩ := List.append_of_mem hs
        have := (S.unload m1 s (m2 ++ x :: l2) (by rw [e, em]; simp) f).1 hfs
        exact this.2 x (by simp) h1'
      have c2 : (schedEvents lf uf l2).count (.unload f) = 0 := by
        rw [List.count_eq_zero, mem_schedEvents_unload]
        rintro ⟨s, hs, hfs⟩
        obtain ⟨m1, m2, em⟩ := List.append_of_mem hs
        have := (S.unload (l1 ++ x :: m1) s m2 (by rw [e, em]; simp) f).1 hfs
        have h3 := h2 s hs
        simp [this.1] at h3
      have c3 : (uf x).count f = 1 := by
        refine List.count_eq_one_of_mem (S.unloadNodup x) ?_
        rw [S.unload l1 x l2 e f]
        exact ⟨h1', fun t ht => by simpa using h2 t ht⟩
      have c4 : ((lf x).map Ev.load).count (.unload f) = 0 := by rw [List.count_eq_zero]; simp
      rw [c1, c2, c3, c4]
      simp
  · intro f hf
    rw [mem_schedEvents_load, mem_schedEvents_unload]
    refine ⟨?_, ?_⟩
    · rintro ⟨s, hs, hfs⟩
      obtain ⟨m1, m2, em⟩ := List.append_of_mem hs
      exact hf ⟨s, hs, ((S.load m1 s m2 em f).1 hfs).1⟩
    · rintro ⟨s, hs, hfs⟩
      obtain ⟨m1, m2, em⟩ := List.append_of_mem hs
      exact hf ⟨s, hs, ((S.unload m1 s m2 em f).1 hfs).1⟩
  · intro pre o post e f hf
    have ho : o ∈ L := by
      rw [← mem_schedEvents_use (lf := lf) (uf := uf), e]; simp
    obtain ⟨l1, l2, el⟩ := List.append_of_mem ho
    have hnd := S.nodup
    rw [el, List.nodup_append] at hnd
    have e2 : (schedEvents lf uf l1 ++ (lf o).map Ev.load) ++ Ev.use o :: ((uf o).map Ev.unload ++ schedEvents lf uf l2) =
        pre ++ .use o :: post := by
      rw [← e, el, hcons]; simp
    have hn1 : Ev.use o ∉ schedEvents lf uf l1 ++ (lf o).map Ev.load := by
      rw [List.mem_append, mem_schedEvents_use]
      rintro (h | h)
      · exact hnd.2.2 o h o (by simp) rfl
      · simp at h
    have hn2 : Ev.use o ∉ (uf o).map Ev.unload ++ schedEvents lf uf l2 := by
      rw [List.mem_append, mem_schedEvents_use]
      rintro (h | h)
      · simp at h
      · exact (List.nodup_cons.1 hnd.2.1).1 h
    obtain ⟨e3, _, e4⟩ := (List.append_cons_inj_of_notMem hn1 hn2).1 e2
    have hf' : ∃ x ∈ L, decide (f ∈ (W x).files) = true := ⟨o, ho, by simpa using hf⟩
    rw [← e3, ← e4]
    refine ⟨?_, ?_⟩
    · obtain ⟨m1, x, m2, em, h1, h2⟩ := split_first hf'
      have hx : f ∈ lf x := by
        rw [S.load m1 x m2 em f]
        exact ⟨by simpa using h1, fun t ht => by simpa using h2 t ht⟩
      rw [List.mem_append, mem_schedEvents_load]
      by_cases hxo : x = o
      · right; rw [← hxo]; simpa using hx
      · left
        refine ⟨x, ?_, hx⟩
        have hxL : x ∈ l1 ++ o :: l2 := by rw [← el, em]; simp
        rw [List.mem_append, List.mem_cons] at hxL
        rcases hxL with h | h | h
        · exact h
        · exact absurd h hxo
        · exfalso
          obtain ⟨n1, n2, en⟩ := List.append_of_mem h
          have := (S.load (l1 ++ o :: n1) x n2 (by rw [el, en]; simp) f).1 hx
          exact this.2 o (by simp) hf
    · obtain ⟨m1, x, m2, em, h1, h2⟩ := split_last hf'
      have hx : f ∈ uf x := by
        rw [S.unload m1 x m2 em f]
        exact ⟨by simpa using h1, fun t ht => by simpa using h2 t ht⟩
      rw [List.mem_append, mem_schedEvents_unload]
      by_cases hxo : x = o
      · left; rw [← hxo]; simpa using hx
      · right
        refine ⟨x, ?_, hx⟩
        have hxL : x ∈ l1 ++ o :: l2 := by rw [← el, em]; simp
        rw [List.mem_append, List.mem_cons] at hxL
        rcases hxL with h | h | h
        · exfalso
          obtain ⟨n1, n2, en⟩ := List.append_of_mem h
          have := (S.unload n1 x (n2 ++ o :: l2) (by rw [el, en]; simp) f).1 hx
          exact this.2 o (by simp) hf
        · exact absurd h hxo
        · exact h

/-- C32: when no resource is added at two places, during a successful write every resource is processed once, every
source file is loaded once and unloaded once, and whenever a resource is processed each file it needs has been loaded
and will be unloaded only later. Nothing else is loaded. -/
theorem files_loaded_when_used (hash : List Bytes → Int) (real : Nat → Option Bytes) (W : ResWorld) (items : List Item)
    (w : Written) (hd : ResDistinct items) (h : writeFile hash real W items = some w) :
    (∀ o, HasRes items o → w.events.count (.use o) = 1) ∧
    (∀ f, (∃ o, HasRes items o ∧ f ∈ (W o).files) → w.events.count (.load f) = 1 ∧ w.events.count (.unload f) = 1) ∧
    (∀ f, ¬ (∃ o, HasRes items o ∧ f ∈ (W o).files) → .load f ∉ w.events ∧ .unload f ∉ w.events) ∧
    (∀ pre o post, w.events = pre ++ .use o :: post → ∀ f ∈ (W o).files, .load f ∈ pre ∧ .unload f ∈ post) := by
  obtain ⟨ids, cur, reals, st, O⟩ := writeFile_ok h
  obtain ⟨order, s, E⟩ := enumerate_ok W items
  have S := E.sched hd
  obtain ⟨f0, hst⟩ := O.steps
  rw [E.steps] at hst
  have hev := writeSteps_events _ _ _ (by simpa [Function.comp_def] using S.nodup) (by simp) hst
  have hev' : w.events = schedEvents s.loadFiles (unloadFiles s.lastUse) (plain W (resOf items) ++ order) := by
    rw [O.events, hev, List.nil_append, List.flatMap_map]
    rfl
  have hm : ∀ o, HasRes items o ↔ o ∈ plain W (resOf items) ++ order := by
    intro o; rw [← mem_resOf, E.perm_all.mem_iff]
  rw [hev']
  simp only [hm]
  exact S.props

/-! ### Concrete cases -/

/-- Four resource actions: 10 uses no source file, 11 shares files with 12 and 13. -/
def exW : ResWorld := fun o => match o with
  | 10 => { files := [], resources := [1] }
  | 11 => { files := [100, 101], resources := [2, 3] }
  | 12 => { files := [100], resources := [1] }
  | 13 => { files := [101], resources := [2] }
  | _ => {}

def exReal : Nat → Option Bytes := fun r => match r with
  | 1 => some [4, 1, 2, 3]
  | 2 => some [4, 9]
  | 3 => some [4, 9, 9]
  | _ => none

def exItems : List Item := [.action (some [8, 8]), .res 11, .res 12, .action (some [7]), .res 10, .res 13]

def exHash : List Bytes → Int := fun d => ((d.flatten.map UInt8.toNat).sum : Nat)

/-- The hypotheses of the theorems above hold of a list with shared data and shared source files; the file is
written and read back, the duplicate (12 has the data of 10) is merged. -/
example : ResDistinct exItems ∧ HashDistinguishes exHash exReal exW exItems ∧
    (∀ d, .action (some d) ∈ exItems → d ≠ []) ∧
    ((writeFile exHash exReal exW exItems).bind fun w =>
        (readFile w.file).map (fun p => (p.offsetOk, p.entries, p.reals))) =
        some (true, [.pseudo [8, 8], .ref 4, .ref 1, .empty, .ref 1, .ref 3],
          [(1, [4, 1, 2, 3]), (3, [4, 9]), (4, [4, 9]), (4, [4, 9, 9])]) := by
  refine ⟨?_, ?_, ?_, ?_⟩
  · intro i j o hi hj
    have hi' : i < 6 := by
      obtain ⟨h, _⟩ := List.getElem?_eq_some_iff.1 hi
      exact h
    have hj' : j < 6 := by
      obtain ⟨h, _⟩ := List.getElem?_eq_some_iff.1 hj
      exact h
    have e : exItems[i]? = exItems[j]? := by rw [hi, hj]
    have hres : ∃ o, exItems[i]? = some (.res o) := ⟨o, hi⟩
    clear hi hj
    rcases i with _ | _ | _ | _ | _ | _ | i <;> rcases j with _ | _ | _ | _ | _ | _ | j <;>
      first
        | rfl
        | omega
        | (exfalso; simp [exItems] at e)
  · intro o o' ho ho' d d' hd hd' e
    simp [HasRes, exItems] at ho ho'
    rcases ho with rfl | rfl | rfl | rfl <;> rcases ho' with rfl | rfl | rfl | rfl <;>
      simp [exW, exReal] at hd hd' <;> subst hd <;> subst hd' <;>
      first
        | rfl
        | (exfalso; revert e; decide)
  · intro d hd
    simp [exItems] at hd
    rcases hd with rfl | rfl <;> simp
  · decide +kernel

/-- When two different lists of data have the same hash, the second sprite silently shows the first's data. -/
theorem hash_collision_shows_other_sprite :
    ∃ w, writeFile (fun _ => 0) exReal exW [.res 10, .res 13] = some w ∧
      (readFile w.file).map (fun p => (p.entries, p.reals)) = some ([.ref 1, .ref 1], [(1, [4, 1, 2, 3])]) :=
  ⟨_, rfl, by rfl⟩

/-- An action with no bytes looks like the end of the list of actions: the file cannot be read. -/
theorem empty_action_breaks_file :
    ∃ w, writeFile exHash exReal exW [.action (some [8, 8]), .action (some [])] = some w ∧ (readFile w.file).isNone :=
  ⟨_, rfl, by rfl⟩

/-- A resource action added twice: its file is loaded twice and unloaded once, and id 1 is not used. -/
theorem resource_added_twice :
    ∃ w, writeFile exHash exReal exW [.res 12, .res 12] = some w ∧
      w.events = [.load 100, .use 12, .unload 100, .load 100] ∧
      (readFile w.file).map (fun p => (p.entries, p.reals)) = some ([.ref 2, .ref 2], [(2, [4, 1, 2, 3])]) :=
  ⟨_, rfl, rfl, by rfl⟩

end Grf
