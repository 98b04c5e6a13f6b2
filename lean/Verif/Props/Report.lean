import Verif.Model.Report
import Verif.Props.Container
/-!
# C87: the numbers reported after a build, and the statistics of the decompiler
-/
namespace Grf.Report
open Acts (CtxKind)

/-! ### A build -/

theorem countSprites (got : Nat → Got) : ∀ (l : List Nat) (n : Counts),
    (l.foldl (fun n r => countSprite n (got r)) n).sprites = n.sprites + l.length ∧
    (l.foldl (fun n r => countSprite n (got r)) n).cached = n.cached + l.countP (fun r => got r = .cached) ∧
    (l.foldl (fun n r => countSprite n (got r)) n).uncacheable = n.uncacheable + l.countP (fun r => got r = .uncacheable) ∧
    (l.foldl (fun n r => countSprite n (got r)) n).duplicate = n.duplicate := by
  intro l
  induction l with
  | nil => intro n; simp
  | cons r l ih =>
    intro n
    obtain ⟨a, b, c, d⟩ := ih (countSprite n (got r))
    simp only [List.foldl_cons, a, b, c, d, List.length_cons, List.countP_cons]
    cases got r <;> simp [countSprite] <;> omega

/-- What holds at each iteration of the loop. -/
structure CInv (W : ResWorld) (got : Nat → Nat → Got) (all : List Nat) (f0 : Bytes) (st : ResSt) (n : Counts) : Prop where
  nodup : st.written.Nodup
  sub : ∀ o ∈ st.written, o ∈ all
  sprites : n.sprites = (st.written.map fun o => (W o).resources.length).sum
  cached : n.cached = (st.written.map fun o => (W o).resources.countP (fun r => got o r = .cached)).sum
  uncacheable : n.uncacheable = (st.written.map fun o => (W o).resources.countP (fun r => got o r = .uncacheable)).sum
  file : ∃ reals, st.file = f0 ++ encReals reals ∧ (∀ p ∈ reals, RealOk p) ∧ reals.length + n.duplicate = n.sprites

theorem mapM_length {f : Nat → Option Bytes} : ∀ {l : List Nat} {d : List Bytes}, l.mapM f = some d → d.length = l.length := by
  intro l
  induction l with
  | nil => intro d h; simp at h; simp [h]
  | cons a l ih =>
    intro d h
    simp only [List.mapM_cons, Option.bind_eq_bind, Option.bind_eq_some_iff, Option.pure_def, Option.some.injEq] at h
    obtain ⟨x, _, y, hy, rfl⟩ := h
    simp [ih hy]

theorem countStep_inv {hash : List Bytes → Int} {real : Nat → Option Bytes} {W : ResWorld} {ids : Nat → Option Nat}
    {got : Nat → Nat → Got} {all : List Nat} {f0 : Bytes} {st st' : ResSt} {n : Counts} {s : Step}
    (hpos : ∀ o ∈ all, ∀ k, ids o = some k → 1 ≤ k) (hs : s.sid ∈ all) (I : CInv W got all f0 st n)
    (h : writeStep hash real W ids st s = some st') :
    CInv W got all f0 st' (countStep hash real W got st n s) ∧ ∀ o, o ∈ st'.written ↔ o ∈ st.written ∨ s.sid = o := by
  unfold writeStep at h
  unfold countStep
  by_cases hw : s.sid ∈ st.written
  · simp only [hw, if_true, Option.some.injEq] at h ⊢
    subst h
    refine ⟨⟨I.nodup, I.sub, I.sprites, I.cached, I.uncacheable, I.file⟩, fun o => ⟨.inl, ?_⟩⟩
    rintro (h | rfl)
    · exact h
    · exact hw
  · simp only [hw, if_false] at h ⊢
    rw [Option.bind_eq_bind, Option.bind_eq_some_iff] at h
    obtain ⟨data, hd, h⟩ := h
    rw [Option.bind_eq_bind, Option.bind_eq_some_iff] at h
    obtain ⟨id, hid, h⟩ := h
    have hlen := mapM_length hd
    obtain ⟨a, b, c, d⟩ := countSprites (got s.sid) (W s.sid).resources n
    obtain ⟨reals, hf, hok, hsum⟩ := I.file
    rw [hd]
    generalize (W s.sid).resources.foldl (fun n r => countSprite n (got s.sid r)) n = m at a b c d ⊢
    have hnd : (s.sid :: st.written).Nodup := List.nodup_cons.2 ⟨hw, I.nodup⟩
    have hsub : ∀ o ∈ s.sid :: st.written, o ∈ all := by
      intro o ho
      rcases List.mem_cons.1 ho with rfl | ho
      · exact hs
      · exact I.sub o ho
    have i1 := I.sprites
    have i2 := I.cached
    have i3 := I.uncacheable
    cases hl : st.hashes.lookup (hash data) with
    | some sid =>
      simp only [hl, Option.bind_eq_bind, Option.bind_some, Option.some.injEq] at h
      subst h
      have hc : countDuplicate hash st (W s.sid).resources.length m (some data) =
          { m with duplicate := m.duplicate + (W s.sid).resources.length } := by
        simp [countDuplicate, hl]
      rw [hc]
      refine ⟨⟨hnd, hsub, ?_, ?_, ?_, reals, hf, hok, ?_⟩, ?_⟩
      · simp only [List.map_cons, List.sum_cons]; omega
      · simp only [List.map_cons, List.sum_cons]; omega
      · simp only [List.map_cons, List.sum_cons]; omega
      · simp only []; omega
      · intro o; simp only [List.mem_cons]; constructor
        · rintro (h | h)
          · exact .inr h.symm
          · exact .inl h
        · rintro (h | h)
          · exact .inr h
          · exact .inl h.symm
    | none =>
      simp only [hl, Option.bind_eq_bind, Option.bind_eq_some_iff, Option.some.injEq] at h
      obtain ⟨f, hw2, _, rfl, rfl⟩ := h
      obtain ⟨e1, e2⟩ := writeReals_some id data _ _ hw2
      have hc : countDuplicate hash st (W s.sid).resources.length m (some data) = m := by
        simp [countDuplicate, hl]
      rw [hc]
      refine ⟨⟨hnd, hsub, ?_, ?_, ?_, reals ++ data.map (fun d => (id, d)), ?_, ?_, ?_⟩, ?_⟩
      · simp only [List.map_cons, List.sum_cons]; omega
      · simp only [List.map_cons, List.sum_cons]; omega
      · simp only [List.map_cons, List.sum_cons]; omega
      · simp only [encReals_append, ← List.append_assoc]
        rw [e1]
        simp only [hf]
      · intro p hp
        rcases List.mem_append.1 hp with hp | hp
        · exact hok p hp
        · obtain ⟨d, hd', rfl⟩ := List.mem_map.1 hp
          exact ⟨hpos _ hs id hid, (e2 d hd').1, (e2 d hd').2⟩
      · simp only [List.length_append, List.length_map]; omega
      · intro o; simp only [List.mem_cons]; constructor
        · rintro (h | h)
          · exact .inr h.symm
          · exact .inl h
        · rintro (h | h)
          · exact .inr h
          · exact .inl h.symm

theorem countLoop_inv {hash : List Bytes → Int} {real : Nat → Option Bytes} {W : ResWorld} {ids : Nat → Option Nat}
    {got : Nat → Nat → Got} {all : List Nat} {f0 : Bytes} (hpos : ∀ o ∈ all, ∀ k, ids o = some k → 1 ≤ k) :
    ∀ (steps : List Step) (st st' : ResSt) (n : Counts), (∀ s ∈ steps, s.sid ∈ all) → CInv W got all f0 st n →
    steps.foldlM (writeStep hash real W ids) st = some st' →
    ∃ n', countLoop hash real W ids got (st, n) steps = some (st', n') ∧ CInv W got all f0 st' n' ∧
      ∀ o, o ∈ st'.written ↔ o ∈ st.written ∨ ∃ s ∈ steps, s.sid = o := by
  intro steps
  induction steps with
  | nil =>
    intro st st' n _ I h
    simp only [List.foldlM_nil, Option.pure_def, Option.some.injEq] at h
    subst h
    exact ⟨n, by simp [countLoop], I, by simp⟩
  | cons s steps ih =>
    intro st st' n hs I h
    rw [List.foldlM_cons, Option.bind_eq_bind, Option.bind_eq_some_iff] at h
    obtain ⟨st1, h1, h2⟩ := h
    obtain ⟨I1, m1⟩ := countStep_inv hpos (hs s (by simp)) I h1
    obtain ⟨n', e, I2, m2⟩ := ih st1 st' _ (fun s' h => hs s' (by simp [h])) I1 h2
    refine ⟨n', ?_, I2, ?_⟩
    · unfold countLoop at e ⊢
      rw [List.foldlM_cons, h1]
      simpa using e
    · intro o
      rw [m2, m1]
      simp only [List.mem_cons, exists_eq_or_imp, or_assoc]

/-- The sections for real sprites are told apart by their bytes. -/
theorem encReals_inj {a b : List (Nat × Bytes)} (ha : ∀ p ∈ a, RealOk p) (hb : ∀ p ∈ b, RealOk p) (h : encReals a = encReals b) :
    a = b := by
  have h1 := readReals_reals a [] (a.length + b.length + 1) ha (by omega)
  have h2 := readReals_reals b [] (a.length + b.length + 1) hb (by omega)
  rw [h, h2] at h1
  simpa using h1.symm

/-- **C87**, the build. Whenever a file is written, the reported size is the size of the file, the reported number of sprites is that of
all resources of the different resource actions, those reported as taken from the cache and as uncacheable are the ones got that way, and the
file holds as many real sprites and sounds as the number of sprites less the reported duplicates. -/
theorem report_true {hash : List Bytes → Int} {real : Nat → Option Bytes} {W : ResWorld} {items : List Item} {w : Written}
    (got : Nat → Nat → Got) (h : writeFile hash real W items = some w) :
    ∃ n, report hash real W got items = some (n, w.file.length) ∧
      (∀ os : List Nat, os.Nodup → (∀ o, o ∈ os ↔ Item.res o ∈ items) →
        n.sprites = (os.map fun o => (W o).resources.length).sum ∧
        n.cached = (os.map fun o => (W o).resources.countP (fun r => got o r = .cached)).sum ∧
        n.uncacheable = (os.map fun o => (W o).resources.countP (fun r => got o r = .uncacheable)).sum) ∧
      ((∀ d, .action (some d) ∈ items → d ≠ []) → ∀ p, readFile w.file = some p → p.reals.length + n.duplicate = n.sprites) := by
  obtain ⟨ids, cur, reals, st, O⟩ := writeFile_ok h
  obtain ⟨f1, p, f2, refs, done, h1, h2, h3, I, hlen⟩ := O.start
  obtain ⟨i1, -⟩ := ids_spec W items
  obtain ⟨order, sch, E⟩ := enumerate_ok W items
  have hp := E.perm_all
  have hst : ∀ o, (∃ s ∈ (enumerateSprites W items).1, s.sid = o) ↔ HasRes items o := by
    intro o
    rw [E.steps, ← mem_resOf, ← hp.mem_iff]
    simp only [List.mem_map, exists_exists_and_eq_and, exists_eq_right]
  have hpos : ∀ o ∈ resOf items, ∀ k, ids o = some k → 1 ≤ k := by
    intro o ho k hk
    obtain ⟨k', e, hk', _⟩ := i1 o ((mem_resOf _ _).1 ho)
    rw [O.idsEq, e, Option.some.injEq] at hk
    omega
  obtain ⟨n, e, C, hm⟩ := countLoop_inv (got := got) hpos (enumerateSprites W items).1 _ st {}
    (fun s hs => (mem_resOf _ _).2 ((hst s.sid).1 ⟨s, hs, rfl⟩)) (f0 := f2 ++ [0, 0, 0, 0])
    ⟨by simp, by simp, by simp, by simp, by simp, [], by simp [encReals], by simp, by simp⟩ h3
  refine ⟨n, ?_, ?_, ?_⟩
  · unfold report
    rw [O.idsEq] at h2 e
    simp only [h1, h2, e, Option.bind_eq_bind, Option.bind_some, hlen]
  · intro os hos hmem
    have hperm : st.written.Perm os := by
      refine (List.perm_ext_iff_of_nodup C.nodup hos).2 fun o => ?_
      rw [hmem, hm, hst]
      simp [HasRes]
    exact ⟨C.sprites.trans (hperm.map _).sum_nat, C.cached.trans (hperm.map _).sum_nat, C.uncacheable.trans (hperm.map _).sum_nat⟩
  · intro hne p hr
    rw [O.read hne, Option.some.injEq] at hr
    subst hr
    obtain ⟨reals2, hf, hok, hsum⟩ := C.file
    have := I.file
    rw [hf] at this
    rw [← encReals_inj hok O.realsOk (List.append_cancel_left this)]
    exact hsum

/-! ### The decompiler -/

/-- The number under which an entry is counted: the first byte of an action of at least two bytes; 0xfd for a reference. -/
def numberOf : PEntry → Option Nat
  | .pseudo (a :: _) => some a.toNat
  | .ref _ => some 0xfd
  | _ => none

/-- The bytes counted for it: four more than it takes in the file. -/
def bytesOf : PEntry → Nat
  | .pseudo bs => bs.length + 5 + 4
  | .ref _ => 9 + 4
  | _ => 0

/-- The entries counted under a key, with their bytes, the context being `c` before the first of them. -/
def seen (k : Key) : Extract.Ctx → List PEntry → List Nat
  | _, [] => []
  | c, e :: es =>
    (match numberOf e with
      | some n => if n = k.1 ∧ (if n ≤ 0xfd then .default else c.kind) = k.2 then [bytesOf e] else []
      | none => []) ++ seen k (Extract.step c e) es

/-- The real sprites and sounds counted under a key, with the bytes each takes in the file: its number, its length and its data. -/
def seenReals (k : Key) (c : Extract.Ctx) (reals : List (Nat × Bytes)) : List Nat :=
  (reals.filter fun r => k.1 = 0xff ∧ (c.get r.1).1 = k.2).map fun r => 4 + 4 + r.2.length

/-- How many, and how many bytes. -/
def tally (l : List Nat) : Nat × Nat := (l.length, l.sum)

/-- The statistics hold exactly these events. -/
def Holds (d : Stats) (l : Key → List Nat) : Prop := ∀ k, d.lookup k = if l k = [] then none else some (tally (l k))

theorem bump_holds {d : Stats} {l : Key → List Nat} (h : Holds d l) (k : Key) (n : Nat) :
    Holds (bump d k n) (fun x => l x ++ if x = k then [n] else []) := by
  intro x
  unfold bump
  rw [lookup_dictSet]
  by_cases e : x = k
  · subst e
    rw [if_pos rfl, h x]
    by_cases e : l x = []
    · simp [e, tally]
    · simp [e, tally]
  · simp [e, h x]

theorem countEntry_holds {d : Stats} {l : Key → List Nat} (h : Holds d l) (c : Extract.Ctx) (e : PEntry) :
    Holds (countEntry c d e) (fun k => l k ++ seen k c [e]) := by
  have hb : ∀ id size, Holds (countAction c d id size)
      (fun k => l k ++ if id = k.1 ∧ (if id ≤ 0xfd then CtxKind.default else c.kind) = k.2 then [size] else []) := by
    intro id size x
    unfold countAction
    rw [bump_holds h _ size x]
    have : (x = (id, if 0xfd < id then c.kind else .default)) ↔
        (id = x.1 ∧ (if id ≤ 0xfd then CtxKind.default else c.kind) = x.2) := by
      obtain ⟨a, b⟩ := x
      simp only [Prod.mk.injEq]
      by_cases hid : id ≤ 0xfd
      · rw [if_pos hid, if_neg (by omega)]; exact ⟨fun h => ⟨h.1.symm, h.2.symm⟩, fun h => ⟨h.1.symm, h.2.symm⟩⟩
      · rw [if_neg hid, if_pos (by omega)]; exact ⟨fun h => ⟨h.1.symm, h.2.symm⟩, fun h => ⟨h.1.symm, h.2.symm⟩⟩
    simp only [this]
  cases e with
  | pseudo bs =>
    cases bs with
    | nil => simpa [countEntry, seen, numberOf] using h
    | cons a bs =>
      have := hb a.toNat ((a :: bs).length + 4 * 2 + 1)
      simpa only [countEntry, seen, numberOf, bytesOf, List.append_nil] using this
  | empty => simpa [countEntry, seen, numberOf] using h
  | ref id =>
    have := hb 0xfd (4 + 4 * 2 + 1)
    simpa only [countEntry, seen, numberOf, bytesOf, List.append_nil] using this
  | unknown => simpa [countEntry, seen, numberOf] using h

theorem countEntries_holds : ∀ (es : List PEntry) (c : Extract.Ctx) (d : Stats) (l : Key → List Nat), Holds d l →
    Holds (countEntries c d es).2 (fun k => l k ++ seen k c es) ∧ (countEntries c d es).1 = es.foldl Extract.step c := by
  intro es
  induction es with
  | nil => intro c d l h; simpa [countEntries, seen] using h
  | cons e es ih =>
    intro c d l h
    have h1 := ih (Extract.step c e) _ _ (countEntry_holds h c e)
    refine ⟨?_, by simpa [countEntries] using h1.2⟩
    have h2 := h1.1
    simp only [countEntries]
    intro k
    rw [h2 k]
    simp [seen]

theorem countReals_holds (c : Extract.Ctx) : ∀ (rs : List (Nat × Bytes)) (d : Stats) (l : Key → List Nat), Holds d l →
    Holds (rs.foldl (countReal c) d) (fun k => l k ++ seenReals k c rs) := by
  intro rs
  induction rs with
  | nil => intro d l h; simpa [seenReals] using h
  | cons r rs ih =>
    intro d l h
    rw [List.foldl_cons, countReal]
    intro k
    rw [ih _ _ (bump_holds h (0xff, (c.get r.1).1) (8 + r.2.length)) k]
    have hk : (k = (0xff, (c.get r.1).1)) ↔ (k.1 = 0xff ∧ (c.get r.1).1 = k.2) := by
      obtain ⟨a, b⟩ := k
      simp only [Prod.mk.injEq]
      exact ⟨fun h => ⟨h.1, h.2.symm⟩, fun h => ⟨h.1, h.2.symm⟩⟩
    by_cases e : k = (0xff, (c.get r.1).1)
    · have e' := hk.1 e
      simp [seenReals, e]
    · have e' : ¬ (k.1 = 0xff ∧ (c.get r.1).1 = k.2) := fun h => e (hk.2 h)
      have : seenReals k c (r :: rs) = seenReals k c rs := by simp [seenReals, e']
      simp [this, e]

/-- **C87**, the decompiler. For every file that was read, a line is printed for exactly the keys something was counted under, with the number
of the entries counted and the sum of their bytes. -/
theorem stats_exact (p : Parsed) (k : Key) :
    (stats p).lookup k =
      let l := seen k {} p.entries ++ seenReals k (Extract.context p.entries) p.reals
      if l = [] then none else some (l.length, l.sum) := by
  have h := countEntries_holds p.entries {} [] (fun _ => []) (fun k => by simp)
  have h2 := countReals_holds (countEntries {} [] p.entries).1 p.reals _ _ h.1 k
  unfold stats
  rw [show Extract.context p.entries = (countEntries {} [] p.entries).1 from h.2.symm]
  simpa [tally] using h2

theorem seen_small {k : Nat} (hk : k ≤ 0xfd) : ∀ (es : List PEntry) (c : Extract.Ctx),
    seen (k, .default) c es = (es.filter fun e => numberOf e = some k).map bytesOf := by
  intro es
  induction es with
  | nil => intro c; rfl
  | cons e es ih =>
    intro c
    rw [seen, ih]
    cases hn : numberOf e with
    | none => simp [hn]
    | some n =>
      by_cases e1 : n = k
      · subst e1; simp [hn, hk]
      · simp [hn, e1]

/-- An action of the list by the number it is counted under, when the file is read again. -/
def counts (k : Nat) : Item → Bool
  | .action (some (a :: _ :: _)) => a.toNat = k
  | .res _ => k = 0xfd
  | _ => false

/-- The bytes an entry of the list takes in the file. -/
def bytesIn : Item → Nat
  | .action d => 4 + 1 + (d.getD []).length
  | .res _ => 4 + 1 + 4

theorem numberOf_entryOf (ids : Nat → Option Nat) (cur : Nat → Nat) (k : Nat) (it : Item) :
    (numberOf (entryOf ids cur it) = some k) ↔ counts k it = true := by
  rcases it with d | o
  · rcases d with _ | d
    · simp [entryOf, numberOf, counts]
    · rcases d with _ | ⟨a, _ | ⟨b, d⟩⟩ <;> simp [entryOf, numberOf, counts]
  · simp [entryOf, numberOf, counts, eq_comm]

theorem bytesOf_entryOf (ids : Nat → Option Nat) (cur : Nat → Nat) (it : Item) (h : (numberOf (entryOf ids cur it)).isSome) :
    bytesOf (entryOf ids cur it) = bytesIn it + 4 := by
  rcases it with d | o
  · rcases d with _ | d
    · simp [entryOf, numberOf] at h
    · rcases d with _ | ⟨a, _ | ⟨b, d⟩⟩
      · simp [entryOf, numberOf] at h
      · simp [entryOf, numberOf] at h
      · simp [entryOf, bytesOf, bytesIn]; omega
  · simp [entryOf, bytesOf, bytesIn]

/-- **C87**, a written file decompiled: the line of an action number up to 0xfd tells how many of the actions written start with it (and are
longer than one byte), references being 0xfd, and their bytes, but with four bytes too many for each. -/
theorem stats_written {hash : List Bytes → Int} {real : Nat → Option Bytes} {W : ResWorld} {items : List Item} {w : Written} {p : Parsed}
    (h : writeFile hash real W items = some w) (hne : ∀ d, .action (some d) ∈ items → d ≠ []) (hr : readFile w.file = some p)
    (k : Nat) (hk : k ≤ 0xfd) :
    let mine := items.filter (counts k)
    (stats p).lookup (k, .default) = if mine = [] then none else some (mine.length, (mine.map bytesIn).sum + 4 * mine.length) := by
  obtain ⟨ids, cur, reals, st, O⟩ := writeFile_ok h
  rw [O.read hne, Option.some.injEq] at hr
  subst hr
  rw [stats_exact]
  have h0 : seenReals (k, .default) (Extract.context (items.map (entryOf ids cur))) reals = [] := by
    have : k ≠ 0xff := by omega
    simp [seenReals, this]
  have h1 : (items.map (entryOf ids cur)).filter (fun e => numberOf e = some k) = (items.filter (counts k)).map (entryOf ids cur) := by
    rw [List.filter_map]
    congr 1
    refine List.filter_congr fun it _ => ?_
    simp only [Function.comp_apply]
    rw [Bool.eq_iff_iff, decide_eq_true_iff, numberOf_entryOf]
  simp only [h0, seen_small hk, List.append_nil, h1, List.map_map]
  have h2 : ∀ l : List Item, (∀ it ∈ l, counts k it = true) →
      (l.map (bytesOf ∘ entryOf ids cur)).sum = (l.map bytesIn).sum + 4 * l.length := by
    intro l
    induction l with
    | nil => simp
    | cons it l ih =>
      intro hl
      have a := ih fun x hx => hl x (by simp [hx])
      have b := bytesOf_entryOf ids cur it (by rw [(numberOf_entryOf ids cur k it).2 (hl it (by simp))]; rfl)
      simp only [List.map_cons, List.sum_cons, List.length_cons, Function.comp_apply, a, b]
      omega
  simp only [List.map_eq_nil_iff, List.length_map]
  rw [h2 _ fun it hi => (List.mem_filter.1 hi).2]

/-- All bytes of the lines together. -/
def total (d : Stats) : Nat := (d.map fun x => x.2.2).sum

theorem total_dictSet (k : Key) (v : Nat × Nat) : ∀ d : Stats,
    total (dictSet d k v) + ((d.lookup k).getD (0, 0)).2 = total d + v.2 := by
  intro d
  induction d with
  | nil => simp [dictSet, total]
  | cons x d ih =>
    obtain ⟨k', v'⟩ := x
    unfold dictSet
    by_cases e : k' = k
    · subst e
      rw [if_pos rfl]
      simp only [List.lookup, beq_self_eq_true, Option.getD_some, total, List.map_cons, List.sum_cons]
      omega
    · rw [if_neg e]
      have : (k == k') = false := by simpa using fun h => e h.symm
      simp only [List.lookup, this]
      simp only [total, List.map_cons, List.sum_cons] at ih ⊢
      omega

theorem total_bump (d : Stats) (k : Key) (n : Nat) : total (bump d k n) = total d + n := by
  have := total_dictSet k (((d.lookup k).getD (0, 0)).1 + 1, ((d.lookup k).getD (0, 0)).2 + n) d
  unfold bump
  simp only [] at this ⊢
  omega

theorem total_entries (ids : Nat → Option Nat) (cur : Nat → Nat) : ∀ (items : List Item) (c : Extract.Ctx) (d : Stats),
    (∀ it ∈ items, ItemOk ids it) → (∀ x, .action (some x) ∈ items → x ≠ []) →
    total (countEntries c d (items.map (entryOf ids cur))).2 + 6 * items.countP (fun it => bytesIn it = 6) =
      total d + (encItems ids cur items).length + 4 * items.countP (fun it => bytesIn it ≠ 6) := by
  intro items
  induction items with
  | nil => intro c d _ _; simp [countEntries, encItems]
  | cons it items ih =>
    intro c d hok hne
    have a := ih (Extract.step c (entryOf ids cur it)) (countEntry c d (entryOf ids cur it)) (fun x hx => hok x (by simp [hx]))
      (fun x hx => hne x (by simp [hx]))
    simp only [List.map_cons, countEntries, encItems, List.length_append, List.countP_cons]
    rcases it with x | o
    · obtain ⟨x, rfl, hx⟩ := hok (.action x) (by simp)
      have hx0 := hne x (by simp)
      rcases x with _ | ⟨b, _ | ⟨b', x⟩⟩
      · exact absurd rfl hx0
      · simp [entryOf, countEntry, bytesIn, encItem, leBytes_length] at a ⊢
        omega
      · have hb : bytesIn (.action (some (b :: b' :: x))) ≠ 6 := by simp [bytesIn]; omega
        simp [entryOf, countEntry, countAction, total_bump, encItem, leBytes_length, hb] at a ⊢
        omega
    · have hb : bytesIn (.res o) ≠ 6 := by simp [bytesIn]
      simp [entryOf, countEntry, countAction, total_bump, encItem, leBytes_length, hb] at a ⊢
      omega

theorem total_reals (c : Extract.Ctx) : ∀ (rs : List (Nat × Bytes)) (d : Stats),
    total (rs.foldl (countReal c) d) = total d + (encReals rs).length := by
  intro rs
  induction rs with
  | nil => intro d; simp [encReals]
  | cons r rs ih =>
    intro d
    rw [List.foldl_cons, ih]
    simp [countReal, total_bump, encReals, encReal, leBytes_length]
    omega

/-- **C87**, all lines together: the bytes reported for a written file are those of the file, without the header of 24 bytes, the two end marks of
four bytes and the actions of one byte (six bytes each), but with four bytes too many for each other action or reference. -/
theorem stats_total {hash : List Bytes → Int} {real : Nat → Option Bytes} {W : ResWorld} {items : List Item} {w : Written} {p : Parsed}
    (h : writeFile hash real W items = some w) (hne : ∀ d, .action (some d) ∈ items → d ≠ []) (hr : readFile w.file = some p) :
    total (stats p) + 24 + 2 * 4 + 6 * items.countP (fun it => bytesIn it = 6) =
      w.file.length + 4 * items.countP (fun it => bytesIn it ≠ 6) := by
  obtain ⟨ids, cur, reals, st, O⟩ := writeFile_ok h
  rw [O.read hne, Option.some.injEq] at hr
  subst hr
  obtain ⟨off, _, _, hf⟩ := O.file
  have a := total_entries ids cur items {} [] O.itemsOk hne
  have b := total_reals (countEntries {} [] (items.map (entryOf ids cur))).1 reals (countEntries {} [] (items.map (entryOf ids cur))).2
  have hs : stats { offsetOk := true, entries := items.map (entryOf ids cur), reals := reals, rest := [] } =
      reals.foldl (countReal (countEntries {} [] (items.map (entryOf ids cur))).1) (countEntries {} [] (items.map (entryOf ids cur))).2 := rfl
  rw [hs, b, hf]
  simp only [List.length_append, leBytes_length, List.length_cons, List.length_nil]
  have t0 : total [] = 0 := rfl
  omega

/-! ### Concrete cases -/

/-- The hypotheses are met: five sprites, one of them a duplicate, are written as four; the report and the lines of the decompiler. -/
example : (∀ d, .action (some d) ∈ exItems → d ≠ []) ∧
    report exHash exReal exW (fun o _ => if o = 10 then .cached else if o = 13 then .made else .uncacheable) exItems =
      some ({ sprites := 5, cached := 1, uncacheable := 3, duplicate := 1 }, 124) ∧
    ((writeFile exHash exReal exW exItems).bind fun w => (readFile w.file).map fun p =>
        (p.reals.length, (stats p).map (fun x => (x.1.1, x.2)), w.file.length)) = some (4, [(8, 1, 11), (0xfd, 4, 52), (0xff, 4, 43)], 124) := by
  refine ⟨?_, by decide +kernel, by decide +kernel⟩
  intro d hd
  simp [exItems] at hd
  rcases hd with rfl | rfl <;> simp

/-- The bytes reported by the decompiler can be more than the file has. -/
theorem stats_more_than_file :
    ∃ w p, writeFile exHash exReal exW (List.replicate 9 (.action (some [0, 1]))) = some w ∧ readFile w.file = some p ∧
      w.file.length < total (stats p) := by
  obtain ⟨w, hw⟩ : ∃ w, writeFile exHash exReal exW (List.replicate 9 (.action (some [0, 1]))) = some w := ⟨_, rfl⟩
  have hne : ∀ d, Item.action (some d) ∈ List.replicate 9 (Item.action (some [0, 1])) → d ≠ [] := by
    intro d hd
    have := List.eq_of_mem_replicate hd
    simp only [Item.action.injEq, Option.some.injEq] at this
    simp [this]
  obtain ⟨ids, cur, reals, st, O⟩ := writeFile_ok hw
  have hr := O.read hne
  have t := stats_total hw hne hr
  refine ⟨w, _, hw, hr, ?_⟩
  have e1 : (List.replicate 9 (Item.action (some [0, 1]))).countP (fun it => bytesIn it = 6) = 0 := by decide
  have e2 : (List.replicate 9 (Item.action (some [0, 1]))).countP (fun it => bytesIn it ≠ 6) = 9 := by decide
  rw [e1, e2] at t
  omega

end Grf.Report
