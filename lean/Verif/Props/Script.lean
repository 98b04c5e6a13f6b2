import Verif.Model.Script
import Verif.Props.RefsSucceed
import Verif.Props.Strings
import Mathlib.Data.List.Basic
import Mathlib.Data.List.Forall2
import Mathlib.Data.List.Induction
/-!
# C63: the script of a decompiled file gives back its references
-/
namespace Grf.Script
open Strings (dec decVal_dec)

/-! ### What is to be shown -/

/-- What a reference of the action at place `i` means: the number of a `Ref` stands for the last action before with this number, and for
nothing if there is none. -/
def Meant (acts : List Act) (i : Nat) (r r' : RefArg) : Prop :=
  match r with
  | .ref false v => (∃ p, RawTarget (worldOf acts) (List.range i) v p ∧ r' = .obj p) ∨
      ((∀ p, ¬ RawTarget (worldOf acts) (List.range i) v p) ∧ r' = .ref false v)
  | r => r' = r

/-- The actions as read from a file: all references are numbers, all ids are bytes. -/
structure Read (acts : List Act) : Prop where
  raw : ∀ a ∈ acts, ∀ n, RefArg.obj n ∉ a.refs
  ids : ∀ a ∈ acts, ∀ i, a.refId = some i → 0 ≤ i

/-! ### Names -/

theorem dec_chars (n : Nat) : ∀ c ∈ dec n, c.isDigit = true := by
  induction n using Nat.strongRecOn with
  | _ n ih =>
    have dig : ∀ k < 10, (Char.ofNat (48 + k)).isDigit = true := by decide
    unfold dec
    split
    · intro c hc
      simp only [List.mem_singleton] at hc
      subst hc
      exact dig n (by assumption)
    · intro c hc
      rcases List.mem_append.1 hc with h | h
      · exact ih (n / 10) (by omega) c h
      · simp only [List.mem_singleton] at h
        subst h
        exact dig _ (by omega)

theorem underscore_not_dec (n : Nat) : '_' ∉ dec n := fun h => absurd (dec_chars n _ h) (by decide)

theorem dec_inj {a b : Nat} (h : dec a = dec b) : a = b := by rw [← decVal_dec a, ← decVal_dec b, h]

theorem pyInt_nat {i : Int} (h : 0 ≤ i) : pyInt i = dec i.toNat := by
  unfold pyInt
  have e : i.natAbs = i.toNat := by omega
  rw [if_neg (by omega), e]

/-- Names are different for different actions. -/
theorem varName_inj {i j : Int} {c d : Nat} (hi : 0 ≤ i) (hj : 0 ≤ j) (h : varName i c = varName j d) : i = j ∧ c = d := by
  unfold varName at h
  rw [pyInt_nat hi, pyInt_nat hj, List.append_assoc, List.append_assoc] at h
  have h := List.append_cancel_left h
  rw [List.append_cons_inj_of_notMem (underscore_not_dec _) (underscore_not_dec _)] at h
  have := dec_inj h.1
  exact ⟨by omega, dec_inj h.2.2⟩

theorem varName_letters {i : Int} (c : Nat) (hi : 0 ≤ i) : (varName i c).all nameLetter = true := by
  have hd : ∀ n, (dec n).all nameLetter = true := by
    intro n
    rw [List.all_eq_true]
    intro x hx
    simp [nameLetter, Char.isAlphanum, dec_chars n x hx]
  unfold varName
  rw [pyInt_nat hi, List.all_append, List.all_append, hd, List.all_cons, hd]
  decide

/-! ### The first loop -/

def newOf (g : Gen) (a : Act) : List RefArg := if a.referencing then a.refs.map (substArg g.refs) else a.refs

def idOf (a : Act) : Option Int := if a.referenceable then a.refId else none

def varOf (g : Gen) (a : Act) : Option (List Char) := (idOf a).map fun rid => varName rid ((g.count.lookup rid).getD 0 + 1)

theorem genStep_new (g : Gen) (a : Act) : (genStep g a).newRefs = g.newRefs ++ [newOf g a] ∧ (genStep g a).vars = g.vars ++ [varOf g a] := by
  unfold genStep varOf newOf idOf
  cases (if a.referenceable then a.refId else none) <;> simp

def rest : Gen → List Act → List (List RefArg × Option (List Char))
  | _, [] => []
  | g, a :: acts => (newOf g a, varOf g a) :: rest (genStep g a) acts

theorem rest_eq : ∀ (acts : List Act) (g : Gen), (acts.foldl genStep g).newRefs = g.newRefs ++ (rest g acts).map (·.1) ∧
    (acts.foldl genStep g).vars = g.vars ++ (rest g acts).map (·.2) := by
  intro acts
  induction acts with
  | nil => intro g; simp [rest]
  | cons a acts ih =>
    intro g
    rw [List.foldl_cons]
    obtain ⟨h1, h2⟩ := ih (genStep g a)
    obtain ⟨h3, h4⟩ := genStep_new g a
    rw [h1, h2, h3, h4]
    simp [rest]

def linesOf (vars : List (Option (List Char))) : Gen → List Act → List Line
  | _, [] => []
  | g, a :: acts => ⟨varOf g a, a, (newOf g a).map (formatRef vars)⟩ :: linesOf vars (genStep g a) acts

theorem lines_eq (vars : List (Option (List Char))) : ∀ (acts : List Act) (g : Gen),
    lines vars acts ((rest g acts).map (·.1)) ((rest g acts).map (·.2)) = linesOf vars g acts := by
  intro acts
  induction acts with
  | nil => intro g; rfl
  | cons a acts ih => intro g; simp only [rest, List.map_cons, lines, linesOf, ih]

theorem script_eq (acts : List Act) : script acts = linesOf ((rest {} acts).map (·.2)) {} acts := by
  obtain ⟨h1, h2⟩ := rest_eq acts {}
  unfold script
  simp only [h1, h2]
  simp only [List.nil_append]
  exact lines_eq _ acts {}

/-! ### Running it -/

/-- After the actions `pre` of `acts`. -/
structure Ran (acts pre : List Act) (g : Gen) (e : Env) : Prop where
  len : g.vars.length = pre.length
  made : e.made.length = pre.length
  refs : ∀ v p, g.refs.lookup v = some p ↔ RawTarget (worldOf acts) (List.range pre.length) v p
  named : ∀ v p, g.refs.lookup v = some p → ∃ n, g.vars[p]? = some (some n) ∧ e.names.lookup n = some p
  old : ∀ n p, e.names.lookup n = some p → ∃ rid c, n = varName rid c ∧ 0 ≤ rid ∧ c ≤ (g.count.lookup rid).getD 0
  done : ∀ (i : Nat) (a : Act), pre[i]? = some a → ∃ r, e.made[i]? = some { a with refs := r } ∧
    (if a.referencing then List.Forall₂ (Meant acts i) a.refs r else r = a.refs)

theorem worldOf_at {acts : List Act} {i : Nat} {a : Act} (h : acts[i]? = some a) : worldOf acts i = a := by
  unfold worldOf; simp [List.getD, h]

theorem mapM_some {α β : Type} (f : α → Option β) (P : α → β → Prop) : ∀ (l : List α), (∀ x ∈ l, ∃ y, f x = some y ∧ P x y) →
    ∃ r, l.mapM f = some r ∧ List.Forall₂ P l r := by
  intro l
  induction l with
  | nil => intro _; exact ⟨[], rfl, .nil⟩
  | cons x l ih =>
    intro h
    obtain ⟨y, hy, hp⟩ := h x List.mem_cons_self
    obtain ⟨r, h1, h2⟩ := ih (fun z hz => h z (List.mem_cons_of_mem _ hz))
    exact ⟨y :: r, by rw [List.mapM_cons, hy, h1]; rfl, .cons hp h2⟩

theorem forall2_same {α : Type} : ∀ {l r : List α}, List.Forall₂ (fun x y => y = x) l r → r = l := by
  intro l r h
  induction h with
  | nil => rfl
  | cons h _ ih => rw [h, ih]

theorem run_lines (acts : List Act) (hread : Read acts) (vars : List (Option (List Char))) :
    ∀ (post pre : List Act) (g : Gen) (e : Env), acts = pre ++ post → vars = g.vars ++ (rest g post).map (·.2) → Ran acts pre g e →
      ∃ e' g', (linesOf vars g post).foldlM runLine e = some e' ∧ Ran acts acts g' e' := by
  intro post
  induction post with
  | nil =>
    intro pre g e hacts _ h
    rw [List.append_nil] at hacts
    subst hacts
    exact ⟨e, g, rfl, h⟩
  | cons a post ih =>
    intro pre g e hacts hvars h
    have hain : a ∈ acts := by rw [hacts]; simp
    have hat : acts[pre.length]? = some a := by rw [hacts]; simp
    -- the references
    have hargs : ∀ r ∈ a.refs, ∃ r', evalArg e.names (formatRef vars (if a.referencing then substArg g.refs r else r)) = some r' ∧
        (if a.referencing then Meant acts pre.length r r' else r' = r) := by
      intro r hr
      cases r with
      | obj n => exact absurd hr (hread.raw a hain n)
      | other => exact ⟨.other, by cases a.referencing <;> rfl, by cases a.referencing <;> simp [Meant]⟩
      | ref cb v =>
        cases cb with
        | true => exact ⟨.ref true v, by cases a.referencing <;> rfl, by cases a.referencing <;> simp [Meant]⟩
        | false =>
          by_cases href : a.referencing = true
          · simp only [href, if_true]
            cases hl : g.refs.lookup v with
            | none =>
              refine ⟨.ref false v, by simp [substArg, hl, formatRef, evalArg], .inr ⟨?_, rfl⟩⟩
              intro p hp
              rw [(h.refs v p).2 hp] at hl; cases hl
            | some p =>
              obtain ⟨n, hn, hlook⟩ := h.named v p hl
              have hv : vars[p]? = some (some n) := by
                rw [hvars, List.getElem?_append_left]
                · exact hn
                · exact (List.getElem?_eq_some_iff.1 hn).1
              exact ⟨.obj p, by simp [substArg, hl, formatRef, hv, evalArg, hlook], .inl ⟨p, (h.refs v p).1 hl, rfl⟩⟩
          · simp only [href]; exact ⟨.ref false v, rfl, rfl⟩
    have hmap : (newOf g a).map (formatRef vars) = a.refs.map fun r => formatRef vars (if a.referencing then substArg g.refs r else r) := by
      unfold newOf
      by_cases href : a.referencing = true
      · simp [href]
      · simp [href]
    obtain ⟨r, hr1, hr2⟩ := mapM_some (fun r => evalArg e.names (formatRef vars (if a.referencing then substArg g.refs r else r)))
      (fun x y => if a.referencing then Meant acts pre.length x y else y = x) a.refs hargs
    have hr3 : (if a.referencing then List.Forall₂ (Meant acts pre.length) a.refs r else r = a.refs) := by
      by_cases href : a.referencing = true
      · simpa [href] using hr2
      · simp only [href] at hr2 ⊢
        exact forall2_same hr2
    have hm : ((newOf g a).map (formatRef vars)).mapM (evalArg e.names) = some r := by
      rw [hmap, List.mapM_map]; exact hr1
    -- the next state
    have hW : worldOf acts pre.length = a := worldOf_at hat
    have hdone : ∀ (i : Nat) (b : Act), (pre ++ [a])[i]? = some b → ∃ q, (e.made ++ [{ a with refs := r }])[i]? = some { b with refs := q } ∧
        (if b.referencing then List.Forall₂ (Meant acts i) b.refs q else q = b.refs) := by
      intro i b hb
      by_cases hi : i < pre.length
      · rw [List.getElem?_append_left hi] at hb
        obtain ⟨q, h1, h2⟩ := h.done i b hb
        exact ⟨q, by rw [List.getElem?_append_left (by rw [h.made]; exact hi)]; exact h1, h2⟩
      · have hlt := (List.getElem?_eq_some_iff.1 hb).1
        have hi : i = pre.length := by simp at hlt; omega
        subst hi
        have : b = a := by simpa using hb.symm
        subst this
        exact ⟨r, by rw [← h.made]; simp, hr3⟩
    have hlast : vars = (genStep g a).vars ++ (rest (genStep g a) post).map (·.2) := by
      rw [(genStep_new g a).2, hvars]; simp [rest]
    have hsplit : acts = (pre ++ [a]) ++ post := by rw [hacts]; simp
    have hrange : List.range (pre ++ [a]).length = List.range pre.length ++ [pre.length] := by
      rw [List.length_append, List.length_singleton, List.range_succ]
    cases hid : idOf a with
    | none =>
      have hg : genStep g a = { g with newRefs := g.newRefs ++ [newOf g a], vars := g.vars ++ [none] } := by
        unfold genStep newOf; unfold idOf at hid; simp only [hid]
      have hno : ∀ v, ¬ ((worldOf acts pre.length).referenceable = true ∧ (worldOf acts pre.length).refId = some v) := by
        rintro v ⟨h1, h2⟩
        rw [hW] at h1 h2
        unfold idOf at hid
        rw [if_pos h1, h2] at hid; cases hid
      have hrun : runLine e ⟨varOf g a, a, (newOf g a).map (formatRef vars)⟩ = some { e with made := e.made ++ [{ a with refs := r }] } := by
        unfold runLine
        simp only [hm, varOf, hid]; rfl
      have hran : Ran acts (pre ++ [a]) (genStep g a) { e with made := e.made ++ [{ a with refs := r }] } := by
        rw [hg]
        refine ⟨by simp [h.len], by simp [h.made], ?_, ?_, h.old, hdone⟩
        · intro v p
          rw [hrange, rawTarget_snoc, if_neg (hno v)]
          exact h.refs v p
        · intro v p hp
          obtain ⟨n, h1, h2⟩ := h.named v p hp
          exact ⟨n, by rw [List.getElem?_append_left (List.getElem?_eq_some_iff.1 h1).1]; exact h1, h2⟩
      obtain ⟨e', g', h1, h2⟩ := ih (pre ++ [a]) _ _ hsplit hlast hran
      refine ⟨e', g', ?_, h2⟩
      rw [linesOf, List.foldlM_cons, hrun]
      exact h1
    | some rid =>
      obtain ⟨c, hc⟩ : ∃ c, c = (g.count.lookup rid).getD 0 + 1 := ⟨_, rfl⟩
      have hab : a.referenceable = true ∧ a.refId = some rid := by
        unfold idOf at hid
        by_cases hx : a.referenceable = true
        · rw [if_pos hx] at hid; exact ⟨hx, hid⟩
        · rw [if_neg hx] at hid; cases hid
      have hpos : 0 ≤ rid := hread.ids a hain rid hab.2
      have hg : genStep g a = ⟨dictSet g.refs rid g.vars.length, dictSet g.count rid c, g.newRefs ++ [newOf g a],
          g.vars ++ [some (varName rid c)]⟩ := by
        unfold genStep newOf; unfold idOf at hid; simp only [hid, hc]
      have hrun : runLine e ⟨varOf g a, a, (newOf g a).map (formatRef vars)⟩ =
          some { names := dictSet e.names (varName rid c) e.made.length, made := e.made ++ [{ a with refs := r }] } := by
        unfold runLine
        simp only [hm, varOf, hid]
        simp [varName_letters _ hpos, hc]
      have hran : Ran acts (pre ++ [a]) (genStep g a)
          { names := dictSet e.names (varName rid c) e.made.length, made := e.made ++ [{ a with refs := r }] } := by
        rw [hg]
        refine ⟨by simp [h.len], by simp [h.made], ?_, ?_, ?_, hdone⟩
        · intro v p
          rw [hrange, rawTarget_snoc, hW, lookup_dictSet]
          by_cases hv : v = rid
          · subst hv
            rw [if_pos rfl, if_pos hab, h.len]
            exact ⟨fun hh => (Option.some.inj hh).symm, fun hh => by rw [hh]⟩
          · rw [if_neg hv, if_neg (fun hh => hv (by have := hh.2; rw [hab.2] at this; exact (Option.some.inj this).symm))]
            exact h.refs v p
        · intro v p hp
          simp only [lookup_dictSet] at hp ⊢
          by_cases hv : v = rid
          · subst hv
            rw [if_pos rfl] at hp
            have hp := Option.some.inj hp
            subst hp
            exact ⟨varName v c, by simp, by rw [if_pos rfl, h.made, h.len]⟩
          · rw [if_neg hv] at hp
            obtain ⟨n, h1, h2⟩ := h.named v p hp
            refine ⟨n, by rw [List.getElem?_append_left (List.getElem?_eq_some_iff.1 h1).1]; exact h1, ?_⟩
            rw [if_neg]
            · exact h2
            · intro hn
              obtain ⟨rid', c', hn', hr', hc'⟩ := h.old n p h2
              rw [hn'] at hn
              obtain ⟨e1, e2⟩ := varName_inj hr' hpos hn
              subst e1
              omega
        · intro n p hp
          simp only [lookup_dictSet] at hp ⊢
          by_cases hn : n = varName rid c
          · exact ⟨rid, c, hn, hpos, by simp⟩
          · rw [if_neg hn] at hp
            obtain ⟨rid', c', hn', hr', hc'⟩ := h.old n p hp
            refine ⟨rid', c', hn', hr', ?_⟩
            by_cases hr : rid' = rid
            · subst hr; simp; omega
            · rw [if_neg hr]; exact hc'
      obtain ⟨e', g', h1, h2⟩ := ih (pre ++ [a]) _ _ hsplit hlast hran
      refine ⟨e', g', ?_, h2⟩
      rw [linesOf, List.foldlM_cons, hrun]
      exact h1

/-- **C63** The script made from actions read from a file runs: every name it uses was assigned before. It makes the same number of actions, in
the same order, each with all it had, and each of its references is the action which its number stood for at that place (the last one before
that can be referred to and has this id), or the number as it was if there is none. -/
theorem script_runs (acts : List Act) (hread : Read acts) : ∃ acts', run (script acts) = some acts' ∧ acts'.length = acts.length ∧
    ∀ (i : Nat) (a : Act), acts[i]? = some a → ∃ r, acts'[i]? = some { a with refs := r } ∧
      (if a.referencing then List.Forall₂ (Meant acts i) a.refs r else r = a.refs) := by
  have h0 : Ran acts [] {} {} := by
    refine ⟨rfl, rfl, ?_, ?_, ?_, ?_⟩
    · intro v p
      constructor
      · intro h; cases h
      · rintro ⟨l1, l2, e, -⟩
        cases l1 <;> cases e
    · intro v p h; cases h
    · intro n p h; cases h
    · intro i a h; cases h
  obtain ⟨e, g, h1, h2⟩ := run_lines acts hread ((rest {} acts).map (·.2)) acts [] {} {} rfl rfl h0
  refine ⟨e.made, ?_, h2.made, h2.done⟩
  unfold run
  rw [script_eq, h1]; rfl

/-! ### Writing it again -/

/-- What is written for a reference: the id of the action, or the number of a `Ref`. -/
def number (res : Resolved) : RefArg → Option Int
  | .obj p => res.refId p
  | .ref _ v => some v
  | .other => none

theorem forall2_mem_right {α β : Type} {P : α → β → Prop} : ∀ {l : List α} {r : List β}, List.Forall₂ P l r → ∀ y ∈ r, ∃ x ∈ l, P x y := by
  intro l r h
  induction h with
  | nil => intro y hy; cases hy
  | cons h _ ih =>
    intro y hy
    rcases List.mem_cons.1 hy with rfl | hy
    · exact ⟨_, List.mem_cons_self, h⟩
    · obtain ⟨x, h1, h2⟩ := ih y hy
      exact ⟨x, List.mem_cons_of_mem _ h1, h2⟩

theorem forall2_mem_left {α β : Type} {P : α → β → Prop} : ∀ {l : List α} {r : List β}, List.Forall₂ P l r → ∀ x ∈ l, ∃ y ∈ r, P x y := by
  intro l r h
  induction h with
  | nil => intro y hy; cases hy
  | cons h _ ih =>
    intro y hy
    rcases List.mem_cons.1 hy with rfl | hy
    · exact ⟨_, List.mem_cons_self, h⟩
    · obtain ⟨x, h1, h2⟩ := ih y hy
      exact ⟨x, List.mem_cons_of_mem _ h1, h2⟩

/-- The number `v` in the action at place `i` stands for the action at place `p`. -/
def StandsFor (acts : List Act) (i : Nat) (v : Int) (p : Nat) : Prop :=
  ∃ a, acts[i]? = some a ∧ a.referencing = true ∧ RefArg.ref false v ∈ a.refs ∧ RawTarget (worldOf acts) (List.range i) v p

theorem target_lt {W : World} {i : Nat} {v : Int} {p : Nat} (h : RawTarget W (List.range i) v p) : p < i := by
  obtain ⟨l1, l2, e, -⟩ := h
  have : p ∈ List.range i := by rw [e]; simp
  exact List.mem_range.1 this

theorem rawTarget_unique {W : World} {e : List Nat} {v : Int} {p q : Nat} (h1 : RawTarget W e v p) (h2 : RawTarget W e v q) : p = q := by
  induction e using List.reverseRecOn generalizing p q with
  | nil => obtain ⟨l1, l2, e, -⟩ := h1; cases l1 <;> cases e
  | append_singleton e s ih =>
    rw [rawTarget_snoc] at h1 h2
    split at h1
    · rename_i hc
      rw [if_pos hc] at h2
      rw [h1, h2]
    · rename_i hc
      rw [if_neg hc] at h2
      exact ih h1 h2

theorem range_split {n s : Nat} {l r : List Nat} (h : List.range n = l ++ s :: r) : l = List.range s := by
  have hlt : l.length < n := by have := congrArg List.length h; simp at this; omega
  have hs : (List.range n)[l.length]? = some s := by rw [h]; simp
  have : l.length = s := by
    rw [List.getElem?_eq_getElem (by simpa using hlt)] at hs
    simpa using hs
  have h2 := congrArg (List.take l.length) h
  rw [List.take_left, List.take_range] at h2
  rw [← h2, this, Nat.min_eq_left (by omega)]

/-- **C63** The actions a script makes, when they are written: if the references in the file are nested less deep than Python's recursion limit,
every action that refers or can be referred to has a feature, and every action that can be referred to has an id, they are accepted exactly when
every reference goes to an action of the same feature; and then exactly the same actions are emitted in the same order, with the ids and features they had,
and every reference is written with the number it had in the file. -/
theorem script_written (acts acts' : List Act) (limit : Nat) (rank : Nat → Nat) (hread : Read acts) (hrun : run (script acts) = some acts')
    (hids : ∀ a ∈ acts, a.referenceable = true → a.refId ≠ none)
    (hfeat : ∀ a ∈ acts, a.referencing = true ∨ a.referenceable = true → a.feature ≠ none)
    (hrank : ∀ i v p, StandsFor acts i v p → rank p < rank i) (hlim : ∀ i < acts.length, rank i < limit) :
    ((resolveRefs (worldOf acts') limit (List.range acts.length)).isSome = true ↔
      ∀ i v p, StandsFor acts i v p → (worldOf acts p).feature = (worldOf acts i).feature) ∧
    ∀ res, resolveRefs (worldOf acts') limit (List.range acts.length) = some res →
      res.out = List.range acts.length ∧
      ∀ (i : Nat) (a : Act), acts[i]? = some a →
        (∀ rid, a.refId = some rid → res.refId i = some rid) ∧ (∀ f, a.feature = some f → res.feature i = some f) ∧
        ∃ a', acts'[i]? = some a' ∧ a'.refs.map (number res) = a.refs.map (number res) := by
  obtain ⟨acts2, hrun2, hlen, hsame⟩ := script_runs acts hread
  have : acts2 = acts' := by rw [hrun] at hrun2; exact (Option.some.inj hrun2).symm
  subst this
  clear hrun2
  -- attributes
  have hattr : ∀ i, (worldOf acts2 i).referencing = (worldOf acts i).referencing ∧ (worldOf acts2 i).referenceable = (worldOf acts i).referenceable ∧
      (worldOf acts2 i).refId = (worldOf acts i).refId ∧ (worldOf acts2 i).feature = (worldOf acts i).feature := by
    intro i
    by_cases hi : i < acts.length
    · obtain ⟨r, h1, -⟩ := hsame i acts[i] (List.getElem?_eq_getElem hi)
      rw [worldOf_at h1, worldOf_at (List.getElem?_eq_getElem hi)]
      exact ⟨rfl, rfl, rfl, rfl⟩
    · rw [worldOf_out (by omega), worldOf_out (by omega)]
      exact ⟨rfl, rfl, rfl, rfl⟩
  have hraw : ∀ e v p, RawTarget (worldOf acts2) e v p ↔ RawTarget (worldOf acts) e v p := by
    intro e v p
    unfold RawTarget
    simp only [(hattr _).2.1, (hattr _).2.2.1]
  -- references
  have href : ∀ i p, Refers (worldOf acts2) i p ↔ ∃ v, StandsFor acts i v p := by
    intro i p
    constructor
    · intro h
      have hi : i < acts.length := by rw [← hlen]; exact (refers_lt h).1
      obtain ⟨r, h1, h2⟩ := hsame i acts[i] (List.getElem?_eq_getElem hi)
      obtain ⟨k1, k2, -⟩ := h
      rw [worldOf_at h1] at k1 k2
      simp only at k1 k2
      rw [if_pos k1] at h2
      obtain ⟨x, hx, hm⟩ := forall2_mem_right h2 _ k2
      cases x with
      | obj n => exact absurd hx (hread.raw _ (List.getElem_mem hi) n)
      | other => cases hm
      | ref cb v =>
        cases cb with
        | true => cases hm
        | false =>
          rcases hm with ⟨q, hq, e⟩ | ⟨-, e⟩
          · cases e
            exact ⟨v, acts[i], List.getElem?_eq_getElem hi, k1, hx, hq⟩
          · cases e
    · rintro ⟨v, a, h1, h2, h3, h4⟩
      obtain ⟨r, k1, k2⟩ := hsame i a h1
      rw [if_pos h2] at k2
      obtain ⟨y, hy, hm⟩ := forall2_mem_left k2 _ h3
      rcases hm with ⟨q, hq, rfl⟩ | ⟨hno, -⟩
      · have : q = p := by
          have e1 := hq
          have e2 := h4
          exact rawTarget_unique e1 e2
        subst this
        refine ⟨by rw [worldOf_at k1]; exact h2, by rw [worldOf_at k1]; exact hy, ?_⟩
        obtain ⟨_, _, _, h5, _⟩ := h4
        rw [(hattr q).2.1]; exact h5
      · exact absurd h4 (hno p)
  have hdown : ∀ i p, Refers (worldOf acts2) i p → p < i := by
    intro i p h
    obtain ⟨v, a, -, -, -, h4⟩ := (href i p).1 h
    exact target_lt h4
  have hrank2 : ∀ i p, Refers (worldOf acts2) i p → rank p < rank i := by
    intro i p h
    obtain ⟨v, h⟩ := (href i p).1 h
    exact hrank i v p h
  have hac := acyclic_of_rank rank hrank2
  have hneeds : ∀ i p, Needs (worldOf acts2) i p → p ≤ i := by
    intro i p h
    induction h with
    | refl => exact Nat.le_refl _
    | step _ h ih => have := hdown _ _ h; omega
  -- no numbers left that stand for anything
  have hnoraw : ∀ p, ¬ RawReferred (worldOf acts2) (List.range acts.length) p := by
    rintro p ⟨earlier, s, later, c, v, e, ⟨l1, l2⟩, k1, k2, k3⟩
    have hs : earlier = List.range s := range_split e
    subst hs
    have hc : c = s := by
      rcases l2 with h | h
      · exact h
      · have := hneeds s c l1
        by_cases hcs : c = s
        · exact hcs
        · exact absurd .refl (h c (List.mem_range.2 (by omega)))
    subst hc
    have hcl : c < acts.length := by
      have : c ∈ List.range acts.length := by rw [e]; simp
      exact List.mem_range.1 this
    obtain ⟨r, h1, h2⟩ := hsame c acts[c] (List.getElem?_eq_getElem hcl)
    rw [worldOf_at h1] at k1 k2
    simp only at k1 k2
    rw [if_pos k1] at h2
    obtain ⟨x, hx, hm⟩ := forall2_mem_right h2 _ k2
    cases x with
    | obj n => exact absurd hx (hread.raw _ (List.getElem_mem hcl) n)
    | other => cases hm
    | ref cb w =>
      cases cb with
      | true => cases hm
      | false =>
        rcases hm with ⟨q, hq, e⟩ | ⟨hno, e⟩
        · cases e
        · cases e
          exact hno p ((hraw _ _ _).1 k3)
  have hin : ∀ i, IsAction (worldOf acts2) i → i < acts.length := by
    intro i h
    apply Classical.byContradiction
    intro hc
    unfold IsAction at h
    rw [worldOf_out (by omega)] at h
    simp at h
  have hfeat2 : ∀ i, IsAction (worldOf acts2) i → (worldOf acts2 i).feature ≠ none := by
    intro i h
    have hi := hin i h
    unfold IsAction at h
    rw [(hattr i).1, (hattr i).2.1, worldOf_at (List.getElem?_eq_getElem hi)] at h
    rw [(hattr i).2.2.2, worldOf_at (List.getElem?_eq_getElem hi)]
    exact hfeat _ (List.getElem_mem hi) h
  have hids2 : ∀ i, (worldOf acts2 i).referenceable = true → (worldOf acts2 i).refId ≠ none := by
    intro i h
    have hi := hin i (.inr h)
    rw [(hattr i).2.1, worldOf_at (List.getElem?_eq_getElem hi)] at h
    rw [(hattr i).2.2.1, worldOf_at (List.getElem?_eq_getElem hi)]
    exact hids _ (List.getElem_mem hi) h
  have hcap : EnoughIds (worldOf acts2) (List.range acts.length) := by
    rintro ⟨a, -, h1, h2⟩
    exact absurd h2 (hids2 a h1)
  refine ⟨?_, ?_⟩
  · rw [resolve_accepted_iff (worldOf acts2) limit (List.range acts.length) rank hrank2
      (fun s hs => hlim s (List.mem_range.1 hs)) hcap]
    constructor
    · rintro ⟨-, hf⟩ i v p hst
      have hr := (href i p).2 ⟨v, hst⟩
      have hia : IsAction (worldOf acts2) i := .inl hr.1
      obtain ⟨r, hr1, hr2, hr3, hr4⟩ := covered_by_unreferenced (worldOf acts2) (List.range acts.length) hac i i
        (List.mem_range.2 (hin i hia)) .refl hia
      have hun : Unreferenced (worldOf acts2) (List.range acts.length) r := ⟨hr1, hr2, hr3, hnoraw r⟩
      have e1 := hf.own r i hun hr4
      have e2 := hf.own r p hun (hr4.step hr)
      have n1 := hfeat2 i hia
      have n2 := hfeat2 p (.inr hr.2.2)
      rw [← (hattr p).2.2.2, ← (hattr i).2.2.2]
      rcases e1 with e1 | e1
      · exact absurd e1 n1
      · rcases e2 with e2 | e2
        · exact absurd e2 n2
        · rw [e1, e2]
    · intro hst
      have hsm : ∀ r a, Needs (worldOf acts2) r a → (worldOf acts2 a).feature = (worldOf acts2 r).feature := by
        intro r a h
        induction h with
        | refl => rfl
        | step _ h ih =>
          obtain ⟨v, hv⟩ := (href _ _).1 h
          have := hst _ v _ hv
          rw [← (hattr _).2.2.2, ← (hattr _).2.2.2] at this
          rw [this, ih]
      refine ⟨?_, ?_, ?_, ?_⟩
      · intro pre s post e _ hs
        have hnd : (List.range acts.length).Nodup := List.nodup_range
        rw [e] at hnd
        have := (List.nodup_append.1 hnd).2.1
        exact (List.nodup_cons.1 this).1 hs
      · intro r hr; exact hfeat2 r hr.2.1
      · intro r a hr hn; exact .inr (hsm r a hn)
      · intro r r' a _ _ h1 h2; rw [← hsm r a h1, ← hsm r' a h2]
  · intro res hres
    obtain ⟨h1, h2, h3⟩ := all_emitted_once (worldOf acts2) limit (List.range acts.length) res hac hnoraw hres
    obtain ⟨f1, f2, f3⟩ := features_exactly (worldOf acts2) limit (List.range acts.length) res hac hres
    refine ⟨?_, ?_⟩
    · rw [← h3, eq_comm, List.filter_eq_self]
      intro a ha
      obtain ⟨s, hs, hn⟩ := h2 a ha
      have := hneeds s a hn
      have := List.mem_range.1 hs
      simp; omega
    · intro i a hi
      obtain ⟨r, k1, k2⟩ := hsame i a hi
      refine ⟨?_, ?_, { a with refs := r }, k1, ?_⟩
      · intro rid h
        exact f3 i rid (by rw [(hattr i).2.2.1, worldOf_at hi]; exact h)
      · intro f h
        exact f2 i f (by rw [(hattr i).2.2.2, worldOf_at hi]; exact h)
      · simp only
        by_cases hra : a.referencing = true
        · rw [if_pos hra] at k2
          have hmem : ∀ x ∈ a.refs, ∀ n, x ≠ RefArg.obj n := by
            intro x hx n e
            subst e
            exact hread.raw a (List.mem_of_getElem? hi) n hx
          have : ∀ (l l' : List RefArg), List.Forall₂ (Meant acts i) l l' → (∀ x ∈ l, ∀ n, x ≠ RefArg.obj n) →
              l'.map (number res) = l.map (number res) := by
            intro l l' h
            induction h with
            | nil => intro _; rfl
            | cons h _ ih =>
              intro hm
              rw [List.map_cons, List.map_cons, ih (fun x hx => hm x (List.mem_cons_of_mem _ hx))]
              congr 1
              rename_i x y _ _ _
              cases x with
              | obj n => exact absurd rfl (hm (.obj n) List.mem_cons_self n)
              | other => rw [h]
              | ref cb v =>
                cases cb with
                | true => rw [h]
                | false =>
                  rcases h with ⟨p, hp, rfl⟩ | ⟨-, rfl⟩
                  · obtain ⟨_, _, _, _, h5, _⟩ := hp
                    exact f3 p v (by rw [(hattr p).2.2.1]; exact h5)
                  · rfl
          exact this _ _ k2 hmem
        · rw [if_neg hra] at k2
          rw [k2]

/-! ### Examples -/

/-- A file as read: a layout with id 1, a switch with id 2 going to 1 and to a number nothing has, then another layout with id 1 (ids are used again),
a switch with id 1 going to id 1 (the second layout) and to a callback result, and a graphics map to the last two. -/
def file1 : List Act :=
  [⟨false, true, [], some 3, some 1⟩, ⟨true, true, [.ref false 1, .ref false 9], some 3, some 2⟩, ⟨false, true, [], some 3, some 1⟩,
   ⟨true, true, [.ref false 1, .ref true 77], some 3, some 1⟩, ⟨true, false, [.ref false 2, .ref false 1], some 3, none⟩]

/-- The script: `ref_1_1 = ...`, `ref_2_1 = Switch(.. ref_1_1 .. Ref(9))`, `ref_1_2 = ...`, `ref_1_3 = Switch(.. ref_1_2 .. CB(77))`,
`Action3(.. ref_2_1 .. ref_1_3)`. -/
example : (script file1).map (fun l => (l.name.map String.ofList, l.args)) =
    [(some "ref_1_1", []), (some "ref_2_1", [.var "ref_1_1".toList, .ref false 9]), (some "ref_1_2", []),
     (some "ref_1_3", [.var "ref_1_2".toList, .ref true 77]), (none, [.var "ref_2_1".toList, .var "ref_1_3".toList])] := by decide +kernel

example : (run (script file1)).map (fun l => l.map (·.refs)) =
    some [[], [.obj 0, .ref false 9], [], [.obj 2, .ref true 77], [.obj 1, .obj 3]] := by decide +kernel

theorem file1_read : Read file1 := by
  constructor
  · intro a ha n hn
    (simp only [file1, List.mem_cons, List.not_mem_nil, or_false] at ha; rcases ha with rfl | rfl | rfl | rfl | rfl) <;> simp at hn
  · intro a ha i hi
    (simp only [file1, List.mem_cons, List.not_mem_nil, or_false] at ha; rcases ha with rfl | rfl | rfl | rfl | rfl) <;> simp at hi <;> omega

/-- The hypotheses of `script_written` hold for it (chains of at most three actions), and it is accepted. -/
example : ∃ acts', run (script file1) = some acts' ∧ ∃ res, resolveRefs (worldOf acts') 1000 (List.range 5) = some res ∧ res.out = [0, 1, 2, 3, 4] := by
  obtain ⟨acts', h, hlen, -⟩ := script_runs file1 file1_read
  refine ⟨acts', h, ?_⟩
  have H := script_written file1 acts' 1000 id file1_read h (by intro a ha; (simp only [file1, List.mem_cons, List.not_mem_nil, or_false] at ha; rcases ha with rfl | rfl | rfl | rfl | rfl) <;> simp) (by intro a ha; (simp only [file1, List.mem_cons, List.not_mem_nil, or_false] at ha; rcases ha with rfl | rfl | rfl | rfl | rfl) <;> simp)
    (by rintro i v p ⟨a, -, -, -, h⟩; exact target_lt h) (by intro i hi; simp [file1] at hi; simp; omega)
  have hf : ∀ i < 5, (worldOf file1 i).feature = some 3 := by decide
  have hs : (resolveRefs (worldOf acts') 1000 (List.range 5)).isSome = true := H.1.2 (by
    rintro i v p ⟨a, h1, -, -, h4⟩
    have hi : i < 5 := (List.getElem?_eq_some_iff.1 h1).1
    have := target_lt h4
    rw [hf i hi, hf p (by omega)])
  obtain ⟨res, hres⟩ := Option.isSome_iff_exists.1 hs
  exact ⟨res, hres, (H.2 res hres).1⟩

end Grf.Script
