import Verif.Props.Container
/-!
# C32: source files when resource actions are repeated

`files_loaded_when_used` (`Props/Container.lean`) is about lists without repeated resource actions. Here: what happens for every list, and
exactly when the schedule is right.
-/
namespace Grf

/-! ### Specification -/

/-- The first in the processing order to need the file. -/
def FirstUser (W : ResWorld) (order : List Nat) (f x : Nat) : Prop :=
  ∃ a b, order = a ++ x :: b ∧ f ∈ (W x).files ∧ ∀ t ∈ a, f ∉ (W t).files

/-- The last in the processing order to need the file. -/
def LastUser (W : ResWorld) (order : List Nat) (f x : Nat) : Prop :=
  ∃ a b, order = a ++ x :: b ∧ f ∈ (W x).files ∧ ∀ t ∈ b, f ∉ (W t).files

/-- The processing order: the entries of the schedule. -/
def processingOrder (W : ResWorld) (items : List Item) : List Nat := (enumerateSprites W items).1.map (·.sid)

/-- Every file is loaded once and unloaded once, loaded before each use and unloaded after each use. -/
def RightSchedule (W : ResWorld) (items : List Item) (evs : List Ev) : Prop :=
  (∀ f, (∃ o, HasRes items o ∧ f ∈ (W o).files) → evs.count (.load f) = 1 ∧ evs.count (.unload f) = 1) ∧
  (∀ pre o post, evs = pre ++ .use o :: post → ∀ f ∈ (W o).files, .load f ∈ pre ∧ .unload f ∈ post)

/-- In the processing order, the first to need a file is not repeated, and no resource that needs the file comes (for the first time) after
the first occurrence of the one that is last to need it. -/
def RightOrder (W : ResWorld) (order : List Nat) : Prop :=
  (∀ f x, FirstUser W order f x → order.count x = 1) ∧
  (∀ f x, LastUser W order f x → ∀ a b, order = a ++ x :: b → x ∉ a → ∀ o ∈ b, f ∈ (W o).files → o ∈ a ∨ o = x)

/-! ### The schedule -/

/-- Loads and unloads of a schedule over any sprites `L`. -/
structure SchedAny (W : ResWorld) (L : List Nat) (lf uf : Nat → List Nat) : Prop where
  load : ∀ P1 s P2, L = P1 ++ s :: P2 → s ∉ P1 → ∀ f, f ∈ lf s ↔ f ∈ (W s).files ∧ ∀ t ∈ P1, f ∉ (W t).files
  unload : ∀ s f, f ∈ uf s ↔ LastUser W L f s
  loadNodup : ∀ s, (lf s).Nodup
  unloadNodup : ∀ s, (uf s).Nodup

theorem last_find {W : ResWorld} {L : List Nat} {f s : Nat} : (L.reverse.find? fun s => decide (f ∈ (W s).files)) = some s ↔ LastUser W L f s := by
  rw [List.find?_eq_some_iff_append]
  constructor
  · rintro ⟨h1, as, bs, e, h2⟩
    refine ⟨bs.reverse, as.reverse, ?_, by simpa using h1, ?_⟩
    · have := congrArg List.reverse e; simpa using this
    · intro t ht; simpa using h2 t (by simpa using ht)
  · rintro ⟨a, b, rfl, h1, h2⟩
    exact ⟨by simpa using h1, b.reverse, a.reverse, by simp, fun t ht => by simpa using h2 t (by simpa using ht)⟩

theorem LastUser.unique {W : ResWorld} {L : List Nat} {f x y : Nat} (hx : LastUser W L f x) (hy : LastUser W L f y) : x = y := by
  rw [← last_find] at hx hy; rw [hx] at hy; exact Option.some.inj hy

theorem lastUser_exists {W : ResWorld} {L : List Nat} {f : Nat} (h : ∃ o ∈ L, f ∈ (W o).files) : ∃ x, LastUser W L f x := by
  obtain ⟨l1, x, l2, e, h1, h2⟩ := split_last (p := fun o => decide (f ∈ (W o).files)) (by simpa using h)
  exact ⟨x, l1, l2, e, by simpa using h1, fun t ht => by simpa using h2 t ht⟩

theorem firstUser_exists {W : ResWorld} {L : List Nat} {f : Nat} (h : ∃ o ∈ L, f ∈ (W o).files) : ∃ x, FirstUser W L f x := by
  obtain ⟨l1, x, l2, e, h1, h2⟩ := split_first (p := fun o => decide (f ∈ (W o).files)) (by simpa using h)
  exact ⟨x, l1, l2, e, by simpa using h1, fun t ht => by simpa using h2 t ht⟩

theorem FirstUser.notMem {W : ResWorld} {f x : Nat} {a : List Nat} (h1 : f ∈ (W x).files) (h2 : ∀ t ∈ a, f ∉ (W t).files) : x ∉ a :=
  fun h => h2 x h h1

/-- Exactly the first user loads the file. -/
theorem SchedAny.loads {W : ResWorld} {L : List Nat} {lf uf : Nat → List Nat} (S : SchedAny W L lf uf) {f x s : Nat}
    (hx : FirstUser W L f x) (hs : s ∈ L) : f ∈ lf s ↔ s = x := by
  obtain ⟨a, b, e, h1, h2⟩ := hx
  have hxa := FirstUser.notMem h1 h2
  constructor
  · intro h
    obtain ⟨c, d, e2, hn⟩ := first_occurrence hs
    obtain ⟨h3, h4⟩ := (S.load c s d e2 hn f).1 h
    rw [e] at e2
    rcases List.append_eq_append_iff.1 e2 with ⟨Q, q1, q2⟩ | ⟨Q, q1, q2⟩
    · cases Q with
      | nil => simp only [List.nil_append, List.cons.injEq] at q2; exact q2.1.symm
      | cons q Q =>
        simp only [List.cons_append, List.cons.injEq] at q2
        exact absurd h1 (h4 x (by rw [q1, q2.1]; simp))
    · cases Q with
      | nil => simp only [List.nil_append, List.cons.injEq] at q2; exact q2.1
      | cons q Q =>
        simp only [List.cons_append, List.cons.injEq] at q2
        exact absurd h3 (h2 s (by rw [q1, q2.1]; simp))
  · rintro rfl
    exact (S.load a s b e hxa f).2 ⟨h1, h2⟩

/-- Events of processing `L` when `seen` has been processed. -/
def evAny (lf uf : Nat → List Nat) : List Nat → List Nat → List Ev
  | _, [] => []
  | seen, s :: r => (lf s).map Ev.load ++ (if s ∈ seen then [] else Ev.use s :: (uf s).map Ev.unload) ++ evAny lf uf (s :: seen) r

theorem evAny_append (lf uf : Nat → List Nat) (a b : List Nat) : ∀ seen, evAny lf uf seen (a ++ b) =
    evAny lf uf seen a ++ evAny lf uf (a.reverse ++ seen) b := by
  induction a with
  | nil => intro seen; simp [evAny]
  | cons s a ih => intro seen; simp [evAny, ih]

theorem evAny_use (lf uf : Nat → List Nat) (o : Nat) (L : List Nat) : ∀ seen, (evAny lf uf seen L).count (.use o) =
    if o ∈ L ∧ o ∉ seen then 1 else 0 := by
  induction L with
  | nil => intro seen; simp [evAny]
  | cons s L ih =>
    intro seen
    have c1 : ((lf s).map Ev.load).count (.use o) = 0 := by rw [List.count_eq_zero]; simp
    have c2 : ((uf s).map Ev.unload).count (.use o) = 0 := by rw [List.count_eq_zero]; simp
    simp only [evAny, List.count_append, c1, ih, List.mem_cons]
    by_cases hs : s ∈ seen
    · by_cases e : o = s
      · subst e; simp [hs]
      · simp [hs, e]
    · rw [if_neg hs, List.count_cons, c2]
      by_cases e : o = s
      · subst e; simp [hs]
      · have : ¬ (s = o) := fun h => e h.symm
        simp [e, this]

theorem evAny_load_mem {lf uf : Nat → List Nat} {f : Nat} {L : List Nat} : ∀ {seen}, Ev.load f ∈ evAny lf uf seen L ↔ ∃ s ∈ L, f ∈ lf s := by
  induction L with
  | nil => intro seen; simp [evAny]
  | cons s L ih =>
    intro seen
    simp only [evAny, List.mem_append, ih, List.mem_map, Ev.load.injEq, exists_eq_right, List.mem_cons, exists_eq_or_imp]
    split <;> simp

theorem evAny_unload_mem {lf uf : Nat → List Nat} {f : Nat} {L : List Nat} : ∀ {seen}, Ev.unload f ∈ evAny lf uf seen L ↔
    ∃ s ∈ L, s ∉ seen ∧ f ∈ uf s := by
  induction L with
  | nil => intro seen; simp [evAny]
  | cons s L ih =>
    intro seen
    simp only [evAny, List.mem_append, ih, List.mem_cons, exists_eq_or_imp, not_or]
    have c1 : Ev.unload f ∉ (lf s).map Ev.load := by simp
    constructor
    · rintro ((h | h) | ⟨t, h1, ⟨h2, h3⟩, h4⟩)
      · exact absurd h c1
      · split at h
        · cases h
        · next hs => exact .inl ⟨hs, by simpa using h⟩
      · exact .inr ⟨t, h1, h3, h4⟩
    · rintro (⟨h1, h2⟩ | ⟨t, h1, h2, h3⟩)
      · exact .inl (.inr (by rw [if_neg h1]; simpa using h2))
      · by_cases e : t = s
        · subst e; exact .inl (.inr (by rw [if_neg h2]; simpa using h3))
        · exact .inr ⟨t, h1, ⟨e, h2⟩, h3⟩

theorem evAny_load_count {lf uf : Nat → List Nat} {f x : Nat} (hnd : ∀ s, (lf s).Nodup) (L : List Nat) (hx : ∀ s ∈ L, f ∈ lf s ↔ s = x) :
    ∀ seen, (evAny lf uf seen L).count (.load f) = L.count x := by
  induction L with
  | nil => intro seen; simp [evAny]
  | cons s L ih =>
    intro seen
    have c2 : (if s ∈ seen then [] else Ev.use s :: (uf s).map Ev.unload).count (.load f) = 0 := by
      rw [List.count_eq_zero]; split <;> simp
    simp only [evAny, List.count_append, c2, ih (fun t ht => hx t (by simp [ht])), count_ev_load, List.count_cons]
    have h := hx s (by simp)
    by_cases e : s = x
    · rw [List.count_eq_one_of_mem (hnd s) (h.2 e)]; simp [e]; omega
    · rw [List.count_eq_zero.2 (fun m => e (h.1 m))]; simp [e]

theorem evAny_unload_count {lf uf : Nat → List Nat} {f x : Nat} (hnd : ∀ s, (uf s).Nodup) (hx : ∀ s, f ∈ uf s ↔ s = x) (L : List Nat) :
    ∀ seen, (evAny lf uf seen L).count (.unload f) = if x ∈ L ∧ x ∉ seen then 1 else 0 := by
  induction L with
  | nil => intro seen; simp [evAny]
  | cons s L ih =>
    intro seen
    have c1 : ((lf s).map Ev.load).count (.unload f) = 0 := by rw [List.count_eq_zero]; simp
    simp only [evAny, List.count_append, c1, ih, List.mem_cons]
    have h := hx s
    by_cases hs : s ∈ seen
    · by_cases e : x = s
      · subst e; simp [hs]
      · simp [hs, e]
    · rw [if_neg hs, List.count_cons, count_ev_unload]
      by_cases e : x = s
      · subst e
        rw [List.count_eq_one_of_mem (hnd x) (h.2 rfl)]; simp [hs]
      · have e' : ¬ s = x := fun h => e h.symm
        rw [List.count_eq_zero.2 (fun m => e' (h.1 m))]; simp [e]

/-- What the events say about one use. -/
theorem SchedAny.at_use {W : ResWorld} {L : List Nat} {lf uf : Nat → List Nat} (S : SchedAny W L lf uf) {pre post : List Ev} {o : Nat}
    (e : evAny lf uf [] L = pre ++ .use o :: post) {f : Nat} (hf : f ∈ (W o).files) :
    Ev.load f ∈ pre ∧ ∃ a b, L = a ++ o :: b ∧ o ∉ a ∧ (Ev.unload f ∈ post ↔ ∀ x, LastUser W L f x → x ∉ a) := by
  have ho : o ∈ L := by
    have h1 := evAny_use lf uf o L []
    rw [e] at h1
    simp only [List.count_append, List.count_cons_self, List.not_mem_nil, not_false_eq_true, and_true] at h1
    by_cases h : o ∈ L
    · exact h
    · rw [if_neg h] at h1; omega
  obtain ⟨a, b, rfl, hna⟩ := first_occurrence ho
  have e2 : (evAny lf uf [] a ++ (lf o).map Ev.load) ++ Ev.use o :: ((uf o).map Ev.unload ++ evAny lf uf (o :: a.reverse) b) =
      pre ++ .use o :: post := by
    rw [← e, evAny_append]
    simp [evAny, hna]
  have hn1 : Ev.use o ∉ evAny lf uf [] a ++ (lf o).map Ev.load := by
    rw [← List.count_eq_zero, List.count_append, evAny_use]
    have : ((lf o).map Ev.load).count (.use o) = 0 := by rw [List.count_eq_zero]; simp
    simp [this, hna]
  have hn2 : Ev.use o ∉ (uf o).map Ev.unload ++ evAny lf uf (o :: a.reverse) b := by
    rw [← List.count_eq_zero, List.count_append, evAny_use]
    have : ((uf o).map Ev.unload).count (.use o) = 0 := by rw [List.count_eq_zero]; simp
    simp [this]
  obtain ⟨e3, _, e4⟩ := (List.append_cons_inj_of_notMem hn1 hn2).1 e2
  rw [← e3, ← e4]
  have hex : ∃ t ∈ a ++ o :: b, f ∈ (W t).files := ⟨o, by simp, hf⟩
  refine ⟨?_, a, b, rfl, hna, ?_⟩
  · obtain ⟨x, hx⟩ := firstUser_exists hex
    obtain ⟨c, d, e5, h1, h2⟩ := hx
    have hxl : f ∈ lf x := (S.load c x d e5 (FirstUser.notMem h1 h2) f).2 ⟨h1, h2⟩
    rw [List.mem_append, evAny_load_mem]
    by_cases hxo : x = o
    · right; rw [← hxo]; simpa using hxl
    · left
      refine ⟨x, ?_, hxl⟩
      rcases List.append_eq_append_iff.1 e5 with ⟨Q, q1, q2⟩ | ⟨Q, q1, q2⟩
      · cases Q with
        | nil => simp only [List.nil_append, List.cons.injEq] at q2; exact absurd q2.1.symm hxo
        | cons q Q =>
          simp only [List.cons_append, List.cons.injEq] at q2
          exact absurd hf (h2 o (by rw [q1, q2.1]; simp))
      · cases Q with
        | nil => simp only [List.nil_append, List.cons.injEq] at q2; exact absurd q2.1 hxo
        | cons q Q =>
          simp only [List.cons_append, List.cons.injEq] at q2
          rw [q1, q2.1]; simp
  · obtain ⟨x, hx⟩ := lastUser_exists hex
    have hxl : ∀ s, f ∈ uf s ↔ s = x := fun s => (S.unload s f).trans ⟨fun h => h.unique hx, by rintro rfl; exact hx⟩
    have hxm : x ∈ a ++ o :: b := by obtain ⟨c, d, e5, _⟩ := hx; rw [e5]; simp
    have h1 : (∀ y, LastUser W (a ++ o :: b) f y → y ∉ a) ↔ x ∉ a :=
      ⟨fun h => h x hx, fun h y hy => by rw [hy.unique hx]; exact h⟩
    rw [h1, List.mem_append, evAny_unload_mem]
    simp only [List.mem_map, Ev.unload.injEq, exists_eq_right, hxl, List.mem_cons, List.mem_reverse, not_or]
    constructor
    · rintro (h | ⟨s, _, ⟨_, h2⟩, rfl⟩)
      · rw [← h]; exact hna
      · exact h2
    · intro h
      by_cases e5 : o = x
      · exact .inl e5
      · refine .inr ⟨x, ?_, ⟨fun e => e5 e.symm, h⟩, rfl⟩
        simp only [List.mem_append, List.mem_cons] at hxm
        rcases hxm with hxm | hxm | hxm
        · exact absurd hxm h
        · exact absurd hxm.symm e5
        · exact hxm

/-! ### The written file -/

theorem writeStep_events_any {hash : List Bytes → Int} {real : Nat → Option Bytes} {W : ResWorld} {ids : Nat → Option Nat}
    {st st' : ResSt} {s : Step} (h : writeStep hash real W ids st s = some st') :
    st'.events = st.events ++ (s.load.map Ev.load ++ (if s.sid ∈ st.written then [] else Ev.use s.sid :: s.unload.map Ev.unload)) ∧
      ∀ o, o ∈ st'.written ↔ o = s.sid ∨ o ∈ st.written := by
  by_cases hw : s.sid ∈ st.written
  · unfold writeStep at h
    simp only [hw, if_true, Option.some.injEq] at h
    subst h
    refine ⟨by simp [hw], fun o => ⟨.inr, ?_⟩⟩
    rintro (rfl | h)
    · exact hw
    · exact h
  · obtain ⟨h1, h2⟩ := writeStep_events hw h
    refine ⟨by rw [h1]; simp [hw, stepEvents], fun o => by rw [h2]; simp⟩

theorem writeSteps_events_any {hash : List Bytes → Int} {real : Nat → Option Bytes} {W : ResWorld} {ids : Nat → Option Nat}
    {lf uf : Nat → List Nat} : ∀ (L : List Nat) (st st' : ResSt) (seen : List Nat), (∀ o, o ∈ st.written ↔ o ∈ seen) →
    (L.map fun s => Step.mk s (lf s) (uf s)).foldlM (writeStep hash real W ids) st = some st' →
    st'.events = st.events ++ evAny lf uf seen L := by
  intro L
  induction L with
  | nil =>
    intro st st' seen _ h
    simp only [List.map_nil, List.foldlM_nil, Option.pure_def, Option.some.injEq] at h
    simp [h, evAny]
  | cons s L ih =>
    intro st st' seen hs h
    rw [List.map_cons, List.foldlM_cons, Option.bind_eq_bind, Option.bind_eq_some_iff] at h
    obtain ⟨st1, h1, h2⟩ := h
    obtain ⟨e1, e2⟩ := writeStep_events_any h1
    rw [ih st1 st' (s :: seen) (fun o => by rw [e2, hs]; simp) h2, e1]
    simp only [evAny, hs, List.append_assoc]

theorem EnumOk.schedAny {W : ResWorld} {items : List Item} {order : List Nat} {s : SchedSt} (E : EnumOk W items order s) :
    SchedAny W (plain W (resOf items) ++ order) s.loadFiles (unloadFiles s.lastUse) := by
  have LO := E.loadsAny
  have hplain : ∀ x ∈ plain W (resOf items), (W x).files = [] := by
    intro x hx
    unfold plain at hx
    simpa using (List.mem_filter.1 hx).2
  have hord : ∀ x ∈ order, (W x).files ≠ [] := by
    intro x hx
    rw [E.perm.mem_iff] at hx
    unfold loaded at hx
    simpa using (List.mem_filter.1 hx).2
  refine ⟨?_, ?_, LO.loadNodup, ?_⟩
  · intro P1 t P2 e hn f
    rcases List.append_eq_append_iff.1 e with ⟨Q, h1, h2⟩ | ⟨Q, h1, h2⟩
    · subst h1
      rw [LO.loadMem Q t P2 h2 (fun h => hn (by simp [h])) f]
      constructor
      · rintro ⟨a, b⟩
        refine ⟨a, ?_⟩
        intro x hx
        rw [List.mem_append] at hx
        rcases hx with hx | hx
        · simp [hplain x hx]
        · exact b x hx
      · rintro ⟨a, b⟩
        exact ⟨a, fun x hx => b x (by simp [hx])⟩
    · cases Q with
      | nil =>
        simp only [List.append_nil] at h1
        rw [LO.loadMem [] t P2 (by simpa using h2.symm) (by simp) f]
        constructor
        · rintro ⟨a, _⟩
          refine ⟨a, ?_⟩
          intro x hx
          rw [← h1] at hx
          simp [hplain x hx]
        · rintro ⟨a, _⟩
          exact ⟨a, by simp⟩
      | cons q Q =>
        simp only [List.cons_append, List.cons.injEq] at h2
        have ht : t ∈ plain W (resOf items) := by rw [h1, h2.1]; simp
        have hto : t ∉ order := fun h => hord t h (hplain t ht)
        simp [LO.loadOut t hto, hplain t ht]
  · intro t f
    rw [mem_unloadFiles LO.lastNodup, LO.last, last_find]
    constructor
    · rintro ⟨a, b, rfl, h1, h2⟩
      exact ⟨plain W (resOf items) ++ a, b, by simp, h1, h2⟩
    · rintro ⟨a, b, e, h1, h2⟩
      rcases List.append_eq_append_iff.1 e with ⟨Q, h3, h4⟩ | ⟨Q, h3, h4⟩
      · exact ⟨Q, b, h4, h1, h2⟩
      · cases Q with
        | nil => exact ⟨[], b, by simpa using h4.symm, h1, h2⟩
        | cons q Q =>
          simp only [List.cons_append, List.cons.injEq] at h4
          have ht : t ∈ plain W (resOf items) := by rw [h3, h4.1]; simp
          rw [hplain t ht] at h1; cases h1
  · intro t
    unfold unloadFiles
    exact (LO.lastNodup.sublist ((List.filter_sublist (l := s.lastUse)).map _))

/-- The events of a successful write. -/
theorem write_events {hash : List Bytes → Int} {real : Nat → Option Bytes} {W : ResWorld} {items : List Item} {w : Written}
    (h : writeFile hash real W items = some w) : ∃ lf uf, SchedAny W (processingOrder W items) lf uf ∧
      w.events = evAny lf uf [] (processingOrder W items) ∧ ∀ o, HasRes items o ↔ o ∈ processingOrder W items := by
  obtain ⟨ids, cur, reals, st, O⟩ := writeFile_ok h
  obtain ⟨order, s, E⟩ := enumerate_ok W items
  have e0 : processingOrder W items = plain W (resOf items) ++ order := by
    unfold processingOrder; rw [E.steps]; simp [Function.comp_def]
  rw [e0]
  refine ⟨_, _, E.schedAny, ?_, fun o => by rw [← mem_resOf, E.perm_all.mem_iff]⟩
  obtain ⟨f0, hst⟩ := O.steps
  rw [E.steps] at hst
  rw [O.events]
  have := writeSteps_events_any (lf := s.loadFiles) (uf := unloadFiles s.lastUse) _ _ _ [] (by simp) hst
  simpa using this

/-- C32, for every list of items, also when a resource action is added several times: every resource action is processed
exactly once; every file needed is unloaded exactly once, and loaded as many times as the first action to need it occurs; no other file is loaded
or unloaded; whenever a resource action is processed, each file it needs has been loaded, and is unloaded later exactly when the last
action to need the file has not been processed before. -/
theorem file_events (hash : List Bytes → Int) (real : Nat → Option Bytes) (W : ResWorld) (items : List Item)
    (w : Written) (h : writeFile hash real W items = some w) :
    (∀ o, (HasRes items o → w.events.count (.use o) = 1) ∧ (¬ HasRes items o → .use o ∉ w.events)) ∧
    (∀ f x, FirstUser W (processingOrder W items) f x → w.events.count (.load f) = (processingOrder W items).count x) ∧
    (∀ f, (∃ o, HasRes items o ∧ f ∈ (W o).files) → w.events.count (.unload f) = 1) ∧
    (∀ f, ¬ (∃ o, HasRes items o ∧ f ∈ (W o).files) → .load f ∉ w.events ∧ .unload f ∉ w.events) ∧
    (∀ pre o post, w.events = pre ++ .use o :: post → ∀ f ∈ (W o).files, .load f ∈ pre ∧
      ∃ a b, processingOrder W items = a ++ o :: b ∧ o ∉ a ∧
        (.unload f ∈ post ↔ ∀ x, LastUser W (processingOrder W items) f x → x ∉ a)) := by
  obtain ⟨lf, uf, S, e, hm⟩ := write_events h
  simp only [hm]
  generalize processingOrder W items = L at *
  rw [e]
  refine ⟨fun o => ⟨fun h => by rw [evAny_use]; simp [h], fun h => by rw [← List.count_eq_zero, evAny_use]; simp [h]⟩, ?_, ?_, ?_, fun pre o post e' f hf => S.at_use e' hf⟩
  · intro f x hx
    exact evAny_load_count S.loadNodup L (fun s hs => S.loads hx hs) []
  · intro f hf
    obtain ⟨x, hx⟩ := lastUser_exists hf
    have hxm : x ∈ L := by obtain ⟨a, b, rfl, _⟩ := hx; simp
    rw [evAny_unload_count S.unloadNodup (x := x) (fun s => (S.unload s f).trans ⟨fun h => h.unique hx, by rintro rfl; exact hx⟩) L []]
    simp [hxm]
  · intro f hf
    rw [evAny_load_mem, evAny_unload_mem]
    refine ⟨?_, ?_⟩
    · rintro ⟨s, hs, hl⟩
      obtain ⟨a, b, e2, hn⟩ := first_occurrence hs
      exact hf ⟨s, hs, ((S.load a s b e2 hn f).1 hl).1⟩
    · rintro ⟨s, hs, _, hl⟩
      obtain ⟨a, b, _, h1, _⟩ := (S.unload s f).1 hl
      exact hf ⟨s, hs, h1⟩

theorem FirstUser.mem {W : ResWorld} {L : List Nat} {f x : Nat} (h : FirstUser W L f x) : x ∈ L ∧ f ∈ (W x).files := by
  obtain ⟨a, b, rfl, h1, _⟩ := h; exact ⟨by simp, h1⟩

/-- C32: a successful write has the right schedule of source files — each needed file loaded once and unloaded once, loaded before and
unloaded after every use — exactly when in the processing order the first action to need a file is not repeated and no
action needing the file is met for the first time after the one that needs it last. -/
theorem right_schedule_iff (hash : List Bytes → Int) (real : Nat → Option Bytes) (W : ResWorld) (items : List Item)
    (w : Written) (h : writeFile hash real W items = some w) :
    RightSchedule W items w.events ↔ RightOrder W (processingOrder W items) := by
  obtain ⟨hu, hl, hun, _, ha⟩ := file_events hash real W items w h
  obtain ⟨lf, uf, S, e, hm⟩ := write_events h
  unfold RightSchedule
  simp only [hm] at hu hun ⊢
  generalize processingOrder W items = L at *
  constructor
  · rintro ⟨h1, h2⟩
    refine ⟨?_, ?_⟩
    · intro f x hx
      rw [← hl f x hx]
      exact (h1 f ⟨x, hx.mem⟩).1
    · intro f x hx a b e1 hxa o ho hf
      by_cases hoa : o ∈ a
      · exact .inl hoa
      · by_cases hox : o = x
        · exact .inr hox
        · exfalso
          have hoL : o ∈ L := by rw [e1]; simp [ho]
          have : Ev.use o ∈ w.events := by
            rw [← List.count_pos_iff, (hu o).1 hoL]; omega
          obtain ⟨pre, post, e2⟩ := List.append_of_mem this
          obtain ⟨_, c, d, e3, hoc, hiff⟩ := ha pre o post e2 f hf
          have hxc := hiff.1 (h2 pre o post e2 f hf).2 x hx
          rw [e1] at e3
          rcases List.append_eq_append_iff.1 e3 with ⟨Q, q1, q2⟩ | ⟨Q, q1, q2⟩
          · cases Q with
            | nil => simp only [List.nil_append, List.cons.injEq] at q2; exact hox q2.1.symm
            | cons q Q =>
              simp only [List.cons_append, List.cons.injEq] at q2
              exact hxc (by rw [q1, q2.1]; simp)
          · cases Q with
            | nil => simp only [List.nil_append, List.cons.injEq] at q2; exact hox q2.1
            | cons q Q =>
              simp only [List.cons_append, List.cons.injEq] at q2
              exact hoa (by rw [q1, q2.1]; simp)
  · rintro ⟨h1, h2⟩
    refine ⟨?_, ?_⟩
    · intro f hf
      obtain ⟨x, hx⟩ := firstUser_exists hf
      exact ⟨by rw [hl f x hx, h1 f x hx], hun f hf⟩
    · intro pre o post e2 f hf
      obtain ⟨h3, c, d, e3, hoc, hiff⟩ := ha pre o post e2 f hf
      refine ⟨h3, hiff.2 ?_⟩
      intro x hx hxc
      obtain ⟨a, b, e4, hxa⟩ := first_occurrence hxc
      have := h2 f x hx a (b ++ o :: d) (by rw [e3, e4]; simp) hxa o (by simp) hf
      rcases this with h | rfl
      · exact hoc (by rw [e4]; simp [h])
      · exact hoc hxc

/-- A list without repetitions has a right order. -/
theorem right_order_of_nodup {W : ResWorld} {L : List Nat} (h : L.Nodup) : RightOrder W L := by
  refine ⟨?_, ?_⟩
  · intro f x hx
    exact List.count_eq_one_of_mem h hx.mem.1
  · rintro f x ⟨c, d, e1, h1, h2⟩ a b e2 hxa o ho hf
    have hxc : x ∉ c := by
      rw [e1, List.nodup_append] at h
      exact fun hc => h.2.2 x hc x (by simp) rfl
    have e3 : a ++ x :: b = c ++ x :: d := by rw [← e1, ← e2]
    have hd : x ∉ d := by
      rw [e1, List.nodup_append] at h
      exact (List.nodup_cons.1 h.2.1).1
    rw [e2, List.nodup_append] at h
    obtain ⟨_, _, e5⟩ := (List.append_cons_inj_of_notMem hxa (List.nodup_cons.1 h.2.1).1).1 e3
    subst e5
    exact absurd hf (h2 o ho)

/-! ### Concrete cases -/

/-- `files_loaded_when_used` again: lists without repetitions have a right order. -/
example (hash : List Bytes → Int) (real : Nat → Option Bytes) (W : ResWorld) (items : List Item) (w : Written)
    (hn : (processingOrder W items).Nodup) (h : writeFile hash real W items = some w) : RightSchedule W items w.events :=
  (right_schedule_iff hash real W items w h).2 (right_order_of_nodup hn)

/-- Two actions using file 7. -/
def repW : ResWorld := fun o => match o with
  | 1 => { files := [7], resources := [1] }
  | 2 => { files := [7], resources := [2] }
  | _ => {}

/-- An action repeated at the end: fine. -/
example : processingOrder repW [.res 1, .res 2, .res 2] = [1, 2, 2] ∧
    ((writeFile exHash exReal repW [.res 1, .res 2, .res 2]).map (·.events)) = some [.load 7, .use 1, .use 2, .unload 7] := by
  decide +kernel

/-- The first user repeated: the file is loaded twice, and unloaded before the second action uses it. -/
example : processingOrder repW [.res 1, .res 2, .res 1] = [1, 2, 1] ∧
    ((writeFile exHash exReal repW [.res 1, .res 2, .res 1]).map (·.events)) =
      some [.load 7, .use 1, .unload 7, .use 2, .load 7] := by
  decide +kernel


/-- The wrong order is refused by the condition. -/
example : ¬ RightOrder repW [1, 2, 1] := by
  rintro ⟨h, _⟩
  have := h 7 1 ⟨[], [2, 1], rfl, by decide, by simp⟩
  simp at this

end Grf
