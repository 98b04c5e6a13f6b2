import Verif.Props.Strings
import Verif.Props.Sounds
/-!
# C36, exactly: handles, ids and definitions of texts after any history
-/
namespace Grf.Strings

/-! ## specification of handles -/

/-- What a program can do to the table of texts. -/
inductive Call where
  | add (value : String) (name : Option String)
  | importLang (texts : List (String × String))
deriving DecidableEq, Repr

/-- One call: the manager afterwards and the handle returned (`none`: exception, or the call returns nothing). -/
def step (m : Mgr) : Call → Mgr × Option String
  | .add value name => add m value name
  | .importLang texts => (importLang m texts, none)

/-- The manager after a history. -/
def after (cs : List Call) : Mgr := cs.foldl (fun m c => (step m c).1) {}

/-- The text a call asks to be stored without a name. -/
def Call.unnamed : Call → Option String
  | .add v none => some v
  | _ => none

/-- The different texts asked to be stored without a name, in the order of the first requests. -/
def asked (cs : List Call) : List String := (cs.filterMap Call.unnamed).eraseDups

/-- The text a name stands for. -/
def Mgr.text (m : Mgr) (name : String) : Option String := m.strings.lookup name

theorem dedup_snoc {α : Type} [BEq α] [LawfulBEq α] [DecidableEq α] (l : List α) (x : α) :
    (l ++ [x]).eraseDups = if x ∈ l then l.eraseDups else l.eraseDups ++ [x] := by
  rw [List.eraseDups_append]
  have : [x].removeAll l = if x ∈ l then [] else [x] := by
    unfold List.removeAll
    by_cases h : x ∈ l <;> simp [h]
  rw [this]
  by_cases h : x ∈ l
  · rw [if_pos h, if_pos h]; simp
  · rw [if_neg h, if_neg h]; rfl

theorem dedup_nodup {α : Type} [BEq α] [LawfulBEq α] [DecidableEq α] (l : List α) : l.eraseDups.Nodup := by
  induction h : l.reverse generalizing l with
  | nil => simp at h; subst h; simp
  | cons x r ih =>
    have hl : l = r.reverse ++ [x] := by
      have := congrArg List.reverse h
      simpa using this
    subst hl
    rw [dedup_snoc]
    have := ih r.reverse (by simp)
    split
    · exact this
    · rename_i hx
      rw [List.nodup_append]
      refine ⟨this, by simp, ?_⟩
      intro a ha b hb
      simp only [List.mem_singleton] at hb
      subst hb
      rintro rfl
      exact hx (List.mem_eraseDups.mp ha)

theorem after_snoc (cs : List Call) (c : Call) : after (cs ++ [c]) = (step (after cs) c).1 := by
  simp [after, List.foldl_append]

/-- The memory of the manager after a history. -/
structure Memory (m : Mgr) (texts : List String) : Prop where
  next : m.next = texts.length + 1
  named : ∀ v n, m.named.lookup v = some n ↔ ∃ k, texts[k]? = some v ∧ n = autoName (k + 1)

theorem memory (cs : List Call) : Memory (after cs) (asked cs) := by
  induction h : cs.reverse generalizing cs with
  | nil =>
    simp at h
    subst h
    exact ⟨rfl, by simp [after, asked]⟩
  | cons c r ih =>
    have hl : cs = r.reverse ++ [c] := by
      have := congrArg List.reverse h
      simpa using this
    subst hl
    obtain ⟨I1, I2⟩ := ih r.reverse (by simp)
    generalize r.reverse = cs at *
    rw [after_snoc]
    cases c with
    | importLang t =>
      have : asked (cs ++ [.importLang t]) = asked cs := by
        have : [Call.importLang t].filterMap Call.unnamed = [] := rfl
        simp [asked, this]
      rw [this]
      exact ⟨I1, I2⟩
    | add v name =>
      cases name with
      | some n =>
        have : asked (cs ++ [.add v (some n)]) = asked cs := by
          have : [Call.add v (some n)].filterMap Call.unnamed = [] := rfl
          simp [asked, this]
        rw [this]
        simp only [step, add, handleText]
        split <;> rename_i h' <;> split at h' <;> simp at h'
        · subst h'
          exact ⟨I1, I2⟩
        · exact ⟨I1, I2⟩
      | none =>
        have ha : asked (cs ++ [.add v none]) = if v ∈ asked cs then asked cs else asked cs ++ [v] := by
          unfold asked
          have : (cs ++ [Call.add v none]).filterMap Call.unnamed = cs.filterMap Call.unnamed ++ [v] := by
            simp [Call.unnamed]
          rw [this, dedup_snoc]
          simp only [List.mem_eraseDups]
        rw [ha]
        simp only [step, add]
        cases hv : (after cs).named.lookup v with
        | some n =>
          obtain ⟨k, hk, _⟩ := (I2 v n).mp hv
          rw [if_pos (List.mem_of_getElem? hk)]
          exact ⟨I1, I2⟩
        | none =>
          have hnot : v ∉ asked cs := by
            intro hm
            obtain ⟨k, hk⟩ := List.getElem?_of_mem hm
            have := (I2 v _).mpr ⟨k, hk, rfl⟩
            rw [hv] at this
            cases this
          rw [if_neg hnot]
          have fin : ∀ s, Memory { next := (after cs).next + 1, named := dictSet (after cs).named v (autoName (after cs).next), strings := s }
              (asked cs ++ [v]) := by
            intro s
            refine ⟨by simp [I1], ?_⟩
            intro w n
            simp only [lookup_dictSet]
            by_cases e : w = v
            · subst e
              rw [if_pos rfl, I1]
              constructor
              · intro h1
                injection h1 with h1
                exact ⟨(asked cs).length, by simp, h1.symm⟩
              · rintro ⟨k, hk, rfl⟩
                rw [List.getElem?_append] at hk
                split at hk
                · exact absurd (List.mem_of_getElem? hk) hnot
                · rename_i hlt
                  rw [List.getElem?_singleton] at hk
                  split at hk
                  · have : k = (asked cs).length := by omega
                    rw [this]
                  · cases hk
            · rw [if_neg e, I2]
              constructor
              · rintro ⟨k, hk, rfl⟩
                refine ⟨k, ?_, rfl⟩
                have := (List.getElem?_eq_some_iff.mp hk).1
                rw [List.getElem?_append_left this]
                exact hk
              · rintro ⟨k, hk, rfl⟩
                refine ⟨k, ?_, rfl⟩
                rw [List.getElem?_append] at hk
                split at hk
                · exact hk
                · rw [List.getElem?_singleton] at hk
                  split at hk
                  · injection hk with hk
                    exact absurd hk.symm e
                  · cases hk
          simp only [handleText]
          by_cases hf : ((after cs).strings.lookup (autoName (after cs).next)).isSome
          · simp only [hf, if_true]
            exact fin _
          · simp only [hf]
            exact fin _

/-- The table of texts with one more text. -/
def stored (t : String → Option String) (name value : String) : String → Option String :=
  fun n => if n = name then some value else t n

/-- **C36** (handles, exact). After any history of additions and imports, the next call does this and nothing else:
* a text asked for before without a name gets the name made up for it then (`GRFPY_` and its number in the order of first
  requests), whether or not that name still stands for it, and no text is stored;
* a new text without a name gets the next made up name and is stored under it if that name is free, and is refused otherwise;
* a text with a name is stored under it if the name is free, and is refused otherwise;
* an import replaces all texts and leaves the made up names. -/
theorem handles_exact (cs : List Call) :
    (∀ v k, (asked cs)[k]? = some v →
      (step (after cs) (.add v none)).2 = some (autoName (k + 1)) ∧
      (after (cs ++ [.add v none])).text = (after cs).text) ∧
    (∀ v, v ∉ asked cs →
      ((after cs).text (autoName ((asked cs).length + 1)) = none →
        (step (after cs) (.add v none)).2 = some (autoName ((asked cs).length + 1)) ∧
        (after (cs ++ [.add v none])).text = stored (after cs).text (autoName ((asked cs).length + 1)) v) ∧
      ((after cs).text (autoName ((asked cs).length + 1)) ≠ none →
        (step (after cs) (.add v none)).2 = none ∧ (after (cs ++ [.add v none])).text = (after cs).text)) ∧
    (∀ v n,
      ((after cs).text n = none →
        (step (after cs) (.add v (some n))).2 = some n ∧
        (after (cs ++ [.add v (some n)])).text = stored (after cs).text n v) ∧
      ((after cs).text n ≠ none →
        (step (after cs) (.add v (some n))).2 = none ∧ (after (cs ++ [.add v (some n)])).text = (after cs).text)) ∧
    (∀ t n, (after (cs ++ [.importLang t])).text n = t.lookup n) := by
  obtain ⟨I1, I2⟩ := memory cs
  refine ⟨?_, ?_, ?_, ?_⟩
  · intro v k hk
    have hl := (I2 v _).mpr ⟨k, hk, rfl⟩
    rw [after_snoc]
    simp only [step, add, hl]
    exact ⟨trivial, trivial⟩
  · intro v hv
    have hl : (after cs).named.lookup v = none := by
      cases h : (after cs).named.lookup v with
      | none => rfl
      | some n =>
        obtain ⟨k, hk, _⟩ := (I2 v n).mp h
        exact absurd (List.mem_of_getElem? hk) hv
    rw [after_snoc, ← I1]
    simp only [step, add, hl, handleText, Mgr.text]
    constructor
    · intro h
      simp only [h, Option.isSome_none]
      refine ⟨rfl, ?_⟩
      funext n
      exact lookup_dictSet _ _ _ _
    · intro h
      have : ((after cs).strings.lookup (autoName (after cs).next)).isSome = true := Option.isSome_iff_ne_none.mpr h
      simp only [this, if_true]
      exact ⟨trivial, rfl⟩
  · intro v n
    rw [after_snoc]
    simp only [step, add, handleText, Mgr.text]
    constructor
    · intro h
      simp only [h, Option.isSome_none]
      refine ⟨rfl, ?_⟩
      funext x
      exact lookup_dictSet _ _ _ _
    · intro h
      have : ((after cs).strings.lookup n).isSome = true := Option.isSome_iff_ne_none.mpr h
      simp only [this, if_true]
      exact ⟨trivial, trivial⟩
  · intro t n
    rw [after_snoc]
    rfl

/-- The handle a call in a history returned. -/
def Answered (cs : List Call) (c : Call) (h : String) : Prop :=
  ∃ before later, cs = before ++ c :: later ∧ (step (after before) c).2 = some h

theorem asked_prefix (cs ds : List Call) : ∃ r, asked (cs ++ ds) = asked cs ++ r := by
  unfold asked
  rw [List.filterMap_append, List.eraseDups_append]
  exact ⟨_, rfl⟩

theorem unnamed_answer {cs : List Call} {v h : String} (ha : Answered cs (.add v none) h) :
    ∃ k, (asked cs)[k]? = some v ∧ h = autoName (k + 1) := by
  obtain ⟨b, l, rfl, hh⟩ := ha
  have key : ∃ k, (asked (b ++ [Call.add v none]))[k]? = some v ∧ h = autoName (k + 1) := by
    have hsn : asked (b ++ [.add v none]) = if v ∈ asked b then asked b else asked b ++ [v] := by
      unfold asked
      have : (b ++ [Call.add v none]).filterMap Call.unnamed = b.filterMap Call.unnamed ++ [v] := by
        simp [Call.unnamed]
      rw [this, dedup_snoc]
      simp only [List.mem_eraseDups]
    rw [hsn]
    obtain ⟨H1, H2, _, _⟩ := handles_exact b
    by_cases hv : v ∈ asked b
    · rw [if_pos hv]
      obtain ⟨k, hk⟩ := List.getElem?_of_mem hv
      refine ⟨k, hk, ?_⟩
      have := (H1 v k hk).1
      rw [hh] at this
      injection this
    · rw [if_neg hv]
      refine ⟨(asked b).length, by simp, ?_⟩
      by_cases hf : (after b).text (autoName ((asked b).length + 1)) = none
      · have := ((H2 v hv).1 hf).1
        rw [hh] at this
        injection this
      · have := ((H2 v hv).2 hf).1
        rw [hh] at this
        cases this
  obtain ⟨k, hk, e⟩ := key
  refine ⟨k, ?_, e⟩
  have : b ++ Call.add v none :: l = (b ++ [Call.add v none]) ++ l := by simp
  rw [this]
  obtain ⟨r, hr⟩ := asked_prefix (b ++ [.add v none]) l
  rw [hr, List.getElem?_append_left (List.getElem?_eq_some_iff.mp hk).1]
  exact hk

/-- **C36** (handles, exact). In any history, imports and chosen names included, two additions without a name that return a
handle return the same one exactly if they are for the same text. -/
theorem unnamed_handles_iff (cs : List Call) (v w h k : String) (ha : Answered cs (.add v none) h) (hb : Answered cs (.add w none) k) :
    h = k ↔ v = w := by
  obtain ⟨i, hi, rfl⟩ := unnamed_answer ha
  obtain ⟨j, hj, rfl⟩ := unnamed_answer hb
  constructor
  · intro e
    have := autoName_inj e
    have : i = j := by omega
    subst this
    rw [hi] at hj
    injection hj
  · rintro rfl
    have hn : (asked cs).Nodup := dedup_nodup _
    have := Sounds.nodup_getElem_inj hn hi hj
    rw [this]

/-- A text in the table stays there until an import, whatever is added. -/
theorem texts_stay (cs ds : List Call) (n v : String) (h : (after cs).text n = some v)
    (hd : ∀ d ∈ ds, ∀ t, d ≠ .importLang t) : (after (cs ++ ds)).text n = some v := by
  induction ds generalizing cs with
  | nil => simpa using h
  | cons d ds ih =>
    have : cs ++ d :: ds = (cs ++ [d]) ++ ds := by simp
    rw [this]
    refine ih (cs ++ [d]) ?_ (fun x hx => hd x (List.mem_cons_of_mem _ hx))
    obtain ⟨H1, H2, H3, _⟩ := handles_exact cs
    have keep : ∀ m w, (after cs).text m = none → stored (after cs).text m w n = some v := by
      intro m w hm
      unfold stored
      rw [if_neg]
      · exact h
      · rintro rfl
        rw [hm] at h
        cases h
    cases d with
    | importLang t => exact absurd rfl (hd _ (by simp) t)
    | add w name =>
      cases name with
      | some m =>
        by_cases hm : (after cs).text m = none
        · rw [((H3 w m).1 hm).2]
          exact keep m w hm
        · rw [((H3 w m).2 hm).2]
          exact h
      | none =>
        by_cases hw : w ∈ asked cs
        · obtain ⟨k, hk⟩ := List.getElem?_of_mem hw
          rw [(H1 w k hk).2]
          exact h
        · by_cases hm : (after cs).text (autoName ((asked cs).length + 1)) = none
          · rw [((H2 w hw).1 hm).2]
            exact keep _ w hm
          · rw [((H2 w hw).2 hm).2]
            exact h

/-- **C36** (handles). A handle returned for a text that was stored by that very call (a named text, or a text asked for
without a name for the first time) stands for this text until an import. -/
theorem handle_stands_for_text (cs ds : List Call) (v h : String) (name : Option String)
    (hnew : name = none → v ∉ asked cs) (hh : (step (after cs) (.add v name)).2 = some h)
    (hd : ∀ d ∈ ds, ∀ t, d ≠ .importLang t) : (after (cs ++ .add v name :: ds)).text h = some v := by
  have e : cs ++ Call.add v name :: ds = (cs ++ [.add v name]) ++ ds := by simp
  rw [e]
  refine texts_stay _ ds h v ?_ hd
  obtain ⟨_, H2, H3, _⟩ := handles_exact cs
  cases name with
  | some n =>
    by_cases hn : (after cs).text n = none
    · have := (H3 v n).1 hn
      rw [this.1] at hh
      injection hh with hh
      subst hh
      rw [this.2]
      simp [stored]
    · rw [((H3 v n).2 hn).1] at hh
      cases hh
  | none =>
    have hv := hnew rfl
    by_cases hn : (after cs).text (autoName ((asked cs).length + 1)) = none
    · have := (H2 v hv).1 hn
      rw [this.1] at hh
      injection hh with hh
      subst hh
      rw [this.2]
      simp [stored]
    · rw [((H2 v hv).2 hn).1] at hh
      cases hh

/-! ## ids -/

/-- The handles registered for a global id. -/
def globals (rs : List Reg) : List Ref := rs.filterMap fun | .global r => some r | .persistent _ => none

/-- The handles registered for a persistent id. -/
def persistents (rs : List Reg) : List Ref := rs.filterMap fun | .persistent r => some r | .global _ => none

/-- The position of a hash among the different hashes, in the order of the first registrations. -/
def rank (refs : List Ref) (hash : Int) : Nat := (refs.map (·.hash)).eraseDups.idxOf hash

/-- The first handle of each hash. -/
def firsts : List Ref → List Ref
  | [] => []
  | r :: rs => r :: (firsts rs).filter fun q => q.hash ≠ r.hash

theorem firsts_hashes (l : List Ref) : (firsts l).map (·.hash) = (l.map (·.hash)).eraseDups := by
  induction l with
  | nil => simp [firsts]
  | cons r l ih =>
    have comm : ∀ (as : List Int) (x : Int), (as.filter fun b => !(b == x)).eraseDups = as.eraseDups.filter (fun b => !(b == x)) := by
      intro as x
      induction h : as.reverse generalizing as with
      | nil => simp at h; subst h; simp
      | cons y q ih =>
        have hl : as = q.reverse ++ [y] := by
          have := congrArg List.reverse h
          simpa using this
        subst hl
        have ih := ih q.reverse (by simp)
        generalize q.reverse = as at *
        rw [List.filter_append, dedup_snoc]
        by_cases e : y = x
        · subst e
          have : List.filter (fun b => !(b == y)) [y] = [] := by simp
          rw [this, List.append_nil, ih]
          split
          · rfl
          · simp
        · have : List.filter (fun b => !(b == x)) [y] = [y] := by simp [e]
          rw [this, dedup_snoc, ih]
          by_cases hm : y ∈ as
          · rw [if_pos hm, if_pos (by simp [hm, e])]
          · rw [if_neg hm, if_neg (by simp [hm]), List.filter_append, this]
    simp only [firsts, List.map_cons, List.eraseDups_cons, comm, ← ih]
    congr 1
    rw [List.filter_map]
    congr 1
    apply List.filter_congr
    intro q _
    simp only [Function.comp, ne_eq, decide_not]
    congr 1

theorem firsts_snoc (l : List Ref) (r : Ref) : firsts (l ++ [r]) = if r.hash ∈ l.map (·.hash) then firsts l else firsts l ++ [r] := by
  induction l with
  | nil => simp [firsts]
  | cons q l ih =>
    simp only [List.cons_append, firsts, ih, List.map_cons, List.mem_cons]
    by_cases e : r.hash = q.hash
    · have hor : r.hash = q.hash ∨ r.hash ∈ l.map (·.hash) := Or.inl e
      simp only [hor, if_true]
      split
      · rfl
      · simp [e]
    · by_cases hm : r.hash ∈ l.map (·.hash)
      · rw [if_pos hm, if_pos (Or.inr hm)]
      · rw [if_neg hm, if_neg (by simp only [not_or]; exact ⟨e, hm⟩)]
        simp [e]

/-- The table after registering handles. -/
def tab (base : Nat) (refs : List Ref) : Table := (firsts refs).zipIdx.map fun x => (x.1.hash, (x.2 + base, x.1))

theorem zipIdx_lookup (base : Nat) (l : List Ref) (hash : Int) (k : Nat) :
    (hash ∉ l.map (·.hash) → ((l.zipIdx k).map fun x => (x.1.hash, (x.2 + base, x.1))).lookup hash = none) ∧
    (hash ∈ l.map (·.hash) → ∃ r, ((l.zipIdx k).map fun x => (x.1.hash, (x.2 + base, x.1))).lookup hash =
      some ((l.map (·.hash)).idxOf hash + k + base, r)) := by
  induction l generalizing k with
  | nil => simp
  | cons q l ih =>
    simp only [List.map_cons, List.zipIdx_cons, List.mem_cons, List.lookup_cons]
    obtain ⟨h1, h2⟩ := ih (k + 1)
    constructor
    · intro hn
      simp only [not_or] at hn
      have : (hash == q.hash) = false := by simpa using hn.1
      rw [this]
      exact h1 hn.2
    · intro hm
      by_cases e : hash = q.hash
      · subst e
        simp
      · have e' : (hash == q.hash) = false := by simpa using e
        rw [e']
        obtain ⟨r, hr⟩ := h2 (hm.resolve_left e)
        refine ⟨r, ?_⟩
        simp only [hr]
        have : List.idxOf hash (q.hash :: l.map (·.hash)) = List.idxOf hash (l.map (·.hash)) + 1 := by
          rw [List.idxOf_cons]
          have : (q.hash == hash) = false := by
            simp only [beq_eq_false_iff_ne, ne_eq]
            exact fun h => e h.symm
          rw [this]
          simp
        rw [this]
        congr 2
        omega

theorem register_tab (base : Nat) (refs : List Ref) (r : Ref) :
    register base (tab base refs) r = (tab base (refs ++ [r]), base + rank (refs ++ [r]) r.hash) := by
  obtain ⟨h1, h2⟩ := zipIdx_lookup base (firsts refs) r.hash 0
  rw [firsts_hashes] at h1 h2
  unfold register
  by_cases hm : r.hash ∈ refs.map (·.hash)
  · obtain ⟨q, hq⟩ := h2 (List.mem_eraseDups.mpr hm)
    have : (tab base refs).lookup r.hash = _ := hq
    rw [this]
    simp only [Nat.add_zero]
    have e1 : tab base (refs ++ [r]) = tab base refs := by
      unfold tab
      rw [firsts_snoc, if_pos hm]
    have e2 : rank (refs ++ [r]) r.hash = (refs.map (·.hash)).eraseDups.idxOf r.hash := by
      unfold rank
      rw [List.map_append, List.map_singleton, dedup_snoc, if_pos hm]
    rw [e1, e2, Nat.add_comm]
  · have : (tab base refs).lookup r.hash = none := h1 (fun h => hm (List.mem_eraseDups.mp h))
    rw [this]
    simp only
    have hlen : (tab base refs).length = (refs.map (·.hash)).eraseDups.length := by
      unfold tab
      rw [← firsts_hashes]
      simp
    have e1 : tab base (refs ++ [r]) = tab base refs ++ [(r.hash, ((tab base refs).length + base, r))] := by
      unfold tab
      rw [firsts_snoc, if_neg hm, List.zipIdx_append]
      simp
    have e2 : rank (refs ++ [r]) r.hash = (tab base refs).length := by
      unfold rank
      rw [hlen, List.map_append, List.map_singleton, dedup_snoc, if_neg hm, List.idxOf_append,
        if_neg (fun h => hm (List.mem_eraseDups.mp h))]
      simp
    rw [e1, e2, Sounds.dictSet_new, Nat.add_comm base]
    exact (lookup_isNone _ _).mp (by rw [this]; rfl)

theorem rank_append (a b : List Ref) (h : Int) (hm : h ∈ a.map (·.hash)) : rank (a ++ b) h = rank a h := by
  unfold rank
  rw [List.map_append, List.eraseDups_append, List.idxOf_append, if_pos (List.mem_eraseDups.mpr hm)]

/-- The id a registration gets, computed from the whole history. -/
def idOf (gs ps : List Ref) : Reg → Nat
  | .global r => rank gs r.hash
  | .persistent r => 0xdc00 + rank ps r.hash

theorem run_tab (rs : List Reg) : ∀ gs ps : List Ref,
    runRegs (tab 0 gs) (tab 0xdc00 ps) rs =
      ((tab 0 (gs ++ globals rs), tab 0xdc00 (ps ++ persistents rs)), rs.map (idOf (gs ++ globals rs) (ps ++ persistents rs))) := by
  induction rs with
  | nil => intro gs ps; simp [runRegs, globals, persistents]
  | cons c rs ih =>
    intro gs ps
    cases c with
    | global r =>
      have eg : gs ++ globals (.global r :: rs) = (gs ++ [r]) ++ globals rs := by simp [globals]
      have ep : persistents (.global r :: rs) = persistents rs := by simp [persistents]
      rw [eg, ep]
      simp only [runRegs, register_tab, ih, List.map_cons]
      congr 2
      simp only [idOf, Nat.zero_add]
      rw [rank_append (gs ++ [r])]
      simp
    | persistent r =>
      have eg : ps ++ persistents (.persistent r :: rs) = (ps ++ [r]) ++ persistents rs := by simp [persistents]
      have ep : globals (.persistent r :: rs) = globals rs := by simp [globals]
      rw [eg, ep]
      simp only [runRegs, register_tab, ih, List.map_cons]
      congr 2
      simp only [idOf]
      rw [rank_append (ps ++ [r])]
      simp

/-- **C36** (ids, exact). In any history of registrations, every registration gets the position of its hash among the
different hashes registered for the same kind of id, in the order of the first registrations (counted from 0xdc00 for
persistent ids). Nothing registered later changes an id: the right-hand side may be computed from any longer history. -/
theorem ids_exact (rs more : List Reg) :
    (runRegs [] [] rs).2 = rs.map (idOf (globals (rs ++ more)) (persistents (rs ++ more))) := by
  have h := run_tab rs [] []
  have h0 : tab 0 [] = [] := rfl
  have h1 : tab 0xdc00 [] = [] := rfl
  rw [h0, h1] at h
  simp only [List.nil_append] at h
  rw [h]
  apply List.map_congr_left
  intro c hc
  have eg : globals (rs ++ more) = globals rs ++ globals more := by simp [globals]
  have ep : persistents (rs ++ more) = persistents rs ++ persistents more := by simp [persistents]
  rw [eg, ep]
  cases c with
  | global r =>
    simp only [idOf]
    rw [rank_append]
    simp only [globals, List.mem_map, List.mem_filterMap]
    exact ⟨r, ⟨_, hc, rfl⟩, rfl⟩
  | persistent r =>
    simp only [idOf]
    rw [rank_append (persistents rs)]
    simp only [persistents, List.mem_map, List.mem_filterMap]
    exact ⟨r, ⟨_, hc, rfl⟩, rfl⟩

theorem rank_iff (refs : List Ref) (a b : Ref) (ha : a ∈ refs) (hb : b ∈ refs) :
    rank refs a.hash = rank refs b.hash ↔ a.hash = b.hash := by
  constructor
  · intro h
    have m1 : a.hash ∈ (refs.map (·.hash)).eraseDups := List.mem_eraseDups.mpr (List.mem_map.mpr ⟨a, ha, rfl⟩)
    have m2 : b.hash ∈ (refs.map (·.hash)).eraseDups := List.mem_eraseDups.mpr (List.mem_map.mpr ⟨b, hb, rfl⟩)
    have l1 := List.idxOf_lt_length_of_mem m1
    have l2 := List.idxOf_lt_length_of_mem m2
    unfold rank at h
    have g1 := List.getElem_idxOf l1
    have g2 := List.getElem_idxOf l2
    rw [← g1, ← g2]
    congr 1
  · intro h
    rw [h]

/-- **C36** (ids, exact). Two registrations of the same kind get the same id exactly if their hashes are equal. -/
theorem same_id_iff (rs : List Reg) (i j : Nat) (a b : Ref) (kind : Ref → Reg) (hk : kind = .global ∨ kind = .persistent)
    (hi : rs[i]? = some (kind a)) (hj : rs[j]? = some (kind b)) :
    (runRegs [] [] rs).2[i]? = (runRegs [] [] rs).2[j]? ↔ a.hash = b.hash := by
  have h := ids_exact rs []
  rw [List.append_nil] at h
  rw [h, List.getElem?_map, List.getElem?_map, hi, hj]
  have mem : ∀ {i r}, rs[i]? = some (Reg.global r) → r ∈ globals rs := fun h =>
    List.mem_filterMap.mpr ⟨_, List.mem_of_getElem? h, rfl⟩
  have memp : ∀ {i r}, rs[i]? = some (Reg.persistent r) → r ∈ persistents rs := fun h =>
    List.mem_filterMap.mpr ⟨_, List.mem_of_getElem? h, rfl⟩
  rcases hk with rfl | rfl
  · simp only [Option.map_some, Option.some.injEq, idOf]
    exact rank_iff _ a b (mem hi) (mem hj)
  · simp only [Option.map_some, Option.some.injEq, idOf]
    rw [← rank_iff (persistents rs) a b (memp hi) (memp hj)]
    omega

/-! ## definitions -/

/-- The definitions of the ids counted from `base`: the id at position `k` by all translations of the handle first registered
with the hash at position `k`. -/
def definitions (pairs : Ref → List (Nat × Bytes)) (base : Nat) (refs : List Ref) : List Def :=
  (firsts refs).zipIdx.flatMap fun x => (pairs x.1).map fun p => ⟨p.1, base + x.2, p.2⟩

theorem emit_exact (pairs : Ref → List (Nat × Bytes)) (base b : Nat) (l : List Ref) (k : Nat) :
    emit pairs base ((l.zipIdx k).map fun x => (x.1.hash, (x.2 + b, x.1))) =
      let ds := (l.zipIdx k).flatMap fun x => (pairs x.1).map fun p => Def.mk p.1 (base + b + x.2) p.2
      if ∀ d ∈ ds, d.id ≤ 0xffff then some ds else none := by
  induction l generalizing k with
  | nil => simp [emit]
  | cons r l ih =>
    simp only [List.zipIdx_cons, List.map_cons, emit, ih, List.flatMap_cons]
    have ee : base + (k + b) = base + b + k := by omega
    rw [ee]
    generalize hrest : (l.zipIdx (k + 1)).flatMap (fun x => (pairs x.1).map fun p => Def.mk p.1 (base + b + x.2) p.2) = rest
    by_cases h1 : ∀ d ∈ rest, d.id ≤ 0xffff
    · rw [if_pos h1]
      simp only [Option.bind_eq_bind, Option.bind_some]
      by_cases h2 : ((pairs r).map fun p => Def.mk p.1 (base + b + k) p.2).isEmpty = true ∨ base + b + k ≤ 0xffff
      · rw [if_pos h2, if_pos]
        intro d hd
        rw [List.mem_append] at hd
        rcases hd with hd | hd
        · rcases h2 with h2 | h2
          · rw [List.isEmpty_iff] at h2
            rw [h2] at hd
            cases hd
          · obtain ⟨p, _, rfl⟩ := List.mem_map.mp hd
            exact h2
        · exact h1 d hd
      · rw [if_neg h2, if_neg]
        intro hall
        apply h2
        cases hp : pairs r with
        | nil => simp
        | cons p ps =>
          right
          exact hall ⟨p.1, base + b + k, p.2⟩ (by rw [hp]; simp)
    · rw [if_neg h1, if_neg]
      · rfl
      · intro hall
        exact h1 (fun d hd => hall d (List.mem_append_right _ hd))

/-- **C36** (definitions, exact). What is written for the texts after any history of registrations: the persistent ids, counted
from 0xdc00, then the global ones, counted from 0xd000, each defined in every language of the handle first registered with its
hash by the text of that handle, in the order of the ids. Writing fails exactly if a definition has an id over 0xffff. -/
theorem definitions_exact (pairs : Ref → List (Nat × Bytes)) (rs : List Reg) :
    written pairs (runRegs [] [] rs).1 =
      let ds := definitions pairs 0xdc00 (persistents rs) ++ definitions pairs 0xd000 (globals rs)
      if ∀ d ∈ ds, d.id ≤ 0xffff then some ds else none := by
  have h := run_tab rs [] []
  have h0 : tab 0 [] = [] := rfl
  have h1 : tab 0xdc00 [] = [] := rfl
  rw [h0, h1] at h
  simp only [List.nil_append] at h
  rw [h]
  unfold written
  simp only
  unfold tab
  rw [emit_exact pairs 0 0xdc00, emit_exact pairs 0xd000 0]
  simp only [Nat.zero_add, Nat.add_zero]
  have e1 : (firsts (persistents rs)).zipIdx.flatMap (fun x => (pairs x.1).map fun p => Def.mk p.1 (0xdc00 + x.2) p.2) =
    definitions pairs 0xdc00 (persistents rs) := rfl
  have e2 : (firsts (globals rs)).zipIdx.flatMap (fun x => (pairs x.1).map fun p => Def.mk p.1 (0xd000 + x.2) p.2) =
    definitions pairs 0xd000 (globals rs) := rfl
  rw [e1, e2]
  generalize definitions pairs 0xdc00 (persistents rs) = a
  generalize definitions pairs 0xd000 (globals rs) = b
  by_cases ha : ∀ d ∈ a, d.id ≤ 0xffff
  · by_cases hb : ∀ d ∈ b, d.id ≤ 0xffff
    · rw [if_pos ha, if_pos hb, if_pos]
      · rfl
      · intro d hd
        rcases List.mem_append.mp hd with hd | hd
        · exact ha d hd
        · exact hb d hd
    · rw [if_pos ha, if_neg hb, if_neg]
      · rfl
      · exact fun h => hb (fun d hd => h d (List.mem_append_right _ hd))
  · have hab : ¬ ∀ d ∈ a ++ b, d.id ≤ 0xffff := fun h => ha (fun d hd => h d (List.mem_append_left _ hd))
    rw [if_neg ha, if_neg hab]
    rfl

theorem firsts_first (refs : List Ref) (r : Ref) (h : r ∈ refs) :
    ∃ q a b, refs = a ++ q :: b ∧ q.hash = r.hash ∧ (∀ x ∈ a, x.hash ≠ r.hash) ∧
      (firsts refs)[rank refs r.hash]? = some q := by
  induction refs with
  | nil => cases h
  | cons c refs ih =>
    by_cases e : c.hash = r.hash
    · refine ⟨c, [], refs, rfl, e, by simp, ?_⟩
      unfold rank
      simp [List.map_cons, List.eraseDups_cons, e, firsts]
    · have hm : r ∈ refs := by
        rcases List.mem_cons.mp h with rfl | h
        · exact absurd rfl e
        · exact h
      obtain ⟨q, a, b, h1, h2, h3, h4⟩ := ih hm
      refine ⟨q, c :: a, b, by rw [h1]; rfl, h2, ?_, ?_⟩
      · intro x hx
        rcases List.mem_cons.mp hx with rfl | hx
        · exact e
        · exact h3 x hx
      · have hl := firsts_hashes (c :: refs)
        have hn : ((firsts (c :: refs)).map (·.hash)).Nodup := by rw [hl]; exact dedup_nodup _
        have hq : q ∈ firsts (c :: refs) := by
          simp only [firsts, List.mem_cons, List.mem_filter]
          right
          refine ⟨List.mem_of_getElem? h4, ?_⟩
          simp only [ne_eq, decide_not, Bool.not_eq_eq_eq_not, Bool.not_true, decide_eq_false_iff_not]
          rw [h2]
          exact fun h => e h.symm
        obtain ⟨k, hk⟩ := List.getElem?_of_mem hq
        have hk' : ((firsts (c :: refs)).map (·.hash))[k]? = some r.hash := by
          rw [List.getElem?_map, hk, ← h2]; rfl
        have hr : ((firsts (c :: refs)).map (·.hash))[rank (c :: refs) r.hash]? = some r.hash := by
          rw [hl]
          unfold rank
          have m1 : r.hash ∈ ((c :: refs).map (·.hash)).eraseDups :=
            List.mem_eraseDups.mpr (List.mem_map.mpr ⟨r, h, rfl⟩)
          have l1 := List.idxOf_lt_length_of_mem m1
          rw [List.getElem?_eq_getElem l1, List.getElem_idxOf l1]
        have := Sounds.nodup_getElem_inj hn hk' hr
        rw [← this]
        exact hk

/-- **C36** (definitions). The id of a registered handle is defined by the text of the handle registered first with an equal
hash and by nothing else of its kind. -/
theorem defined_by_first (pairs : Ref → List (Nat × Bytes)) (base : Nat) (refs : List Ref) (r : Ref) (h : r ∈ refs) :
    ∃ q a b, refs = a ++ q :: b ∧ q.hash = r.hash ∧ (∀ x ∈ a, x.hash ≠ r.hash) ∧
      ∀ lang text, (⟨lang, base + rank refs r.hash, text⟩ : Def) ∈ definitions pairs base refs ↔ (lang, text) ∈ pairs q := by
  obtain ⟨q, a, b, h1, h2, h3, h4⟩ := firsts_first refs r h
  refine ⟨q, a, b, h1, h2, h3, ?_⟩
  intro lang text
  simp only [definitions, List.mem_flatMap, List.mem_map, Prod.exists, List.mem_zipIdx_iff_getElem?]
  constructor
  · rintro ⟨x, i, hx, l, t, hp, e⟩
    injection e with e1 e2 e3
    have : i = rank refs r.hash := by omega
    subst this
    rw [h4] at hx
    injection hx with hx
    subst hx e1 e3
    exact hp
  · intro hp
    exact ⟨q, _, h4, lang, text, hp, rfl⟩

/-- **C36** (ids, exact). Some id is handed out (as numbered in the file) both as a global and as a persistent one exactly if
more than 3072 different hashes are registered as global and at least one as persistent. -/
theorem kinds_clash_iff (rs : List Reg) :
    (∃ g ∈ globals rs, ∃ p ∈ persistents rs, 0xd000 + idOf (globals rs) (persistents rs) (.global g) =
      idOf (globals rs) (persistents rs) (.persistent p)) ↔
    0xc00 < ((globals rs).map (·.hash)).eraseDups.length ∧ persistents rs ≠ [] := by
  have lt : ∀ (refs : List Ref) (r : Ref), r ∈ refs → rank refs r.hash < (refs.map (·.hash)).eraseDups.length := by
    intro refs r h
    exact List.idxOf_lt_length_of_mem (List.mem_eraseDups.mpr (List.mem_map.mpr ⟨r, h, rfl⟩))
  simp only [idOf]
  constructor
  · rintro ⟨g, hg, p, hp, e⟩
    have := lt _ _ hg
    exact ⟨by omega, List.ne_nil_of_mem hp⟩
  · rintro ⟨hl, hp⟩
    obtain ⟨p, ps, hps⟩ : ∃ p ps, persistents rs = p :: ps := by
      cases h : persistents rs with
      | nil => exact absurd h hp
      | cons p ps => exact ⟨p, ps, rfl⟩
    have hget : ((globals rs).map (·.hash)).eraseDups[0xc00]? = some (((globals rs).map (·.hash)).eraseDups[0xc00]) :=
      List.getElem?_eq_getElem hl
    generalize ((globals rs).map (·.hash)).eraseDups[0xc00] = x at hget
    have hx := List.mem_eraseDups.mp (List.mem_of_getElem? hget)
    obtain ⟨g, hg, rfl⟩ := List.mem_map.mp hx
    refine ⟨g, hg, p, by rw [hps]; simp, ?_⟩
    have hr : rank (globals rs) g.hash = 0xc00 := by
      unfold rank
      have l1 := List.idxOf_lt_length_of_mem (List.mem_of_getElem? hget)
      refine Sounds.nodup_getElem_inj (dedup_nodup ((globals rs).map (·.hash))) (x := g.hash) ?_ hget
      rw [List.getElem?_eq_getElem l1, List.getElem_idxOf l1]
    have hp0 : rank (persistents rs) p.hash = 0 := by
      rw [hps]
      unfold rank
      simp [List.eraseDups_cons]
    rw [hr, hp0]

/-! Non-vacuity. -/

example : (asked [.add "a" none, .importLang [("B", "b")], .add "c" none, .add "a" none, .add "d" (some "D")]) = ["a", "c"] := by
  decide +kernel

example : Answered [.add "a" none, .add "b" none, .add "a" none] (.add "a" none) (autoName 1) :=
  ⟨[.add "a" none, .add "b" none], [], rfl, by
    have := (handles_exact [.add "a" none, .add "b" none]).1 "a" 0 (by decide +kernel)
    exact this.1⟩

example : rank [⟨5, 1⟩, ⟨9, 2⟩, ⟨5, 3⟩] 9 = 1 ∧ firsts [⟨5, 1⟩, ⟨9, 2⟩, ⟨5, 3⟩] = [⟨5, 1⟩, ⟨9, 2⟩] := by decide +kernel

example : definitions (fun r => [(0x7f, [UInt8.ofNat r.expr])]) 0xd000 [⟨5, 1⟩, ⟨9, 2⟩, ⟨5, 3⟩] =
    [⟨0x7f, 0xd000, [1]⟩, ⟨0x7f, 0xd001, [2]⟩] := by decide +kernel

end Grf.Strings
