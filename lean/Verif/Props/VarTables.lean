import Verif.Model.VarTables
import Verif.Props.RetextExact
import Verif.Props.SyntaxExact
/-!
# C67 The named variables

What a user of `grf/va2vars.py` relies on: every name stands for one field of one variable of the game, code that names it computes this field,
and a field found in a file is named by the text that means it.
-/
namespace Grf
open Syntax Spec

/-! ### The tables -/

def distinct : VarTable → Bool
  | [] => true
  | p :: t => t.all (fun q => q.1 != p.1) && distinct t

theorem distinct_nodup {t : VarTable} (h : distinct t = true) : (t.map (·.1)).Nodup := by
  induction t with
  | nil => simp
  | cons p t ih =>
    simp only [distinct, Bool.and_eq_true, List.all_eq_true, bne_iff_ne, ne_eq] at h
    simp only [List.map_cons, List.nodup_cons, List.mem_map, not_exists, not_and]
    exact ⟨fun q hq => h.1 q hq, ih h.2⟩

theorem names_distinct : ∀ f < 21, distinct (vaVars f) = true := by decide +kernel

theorem vaVars_beyond {f : Nat} (h : 21 ≤ f) : vaVars f = [] := by
  unfold vaVars
  split <;> first | omega | rfl

def isName : List Char → Bool
  | [] => false
  | c :: l => isNameStart c && l.all isNameChar

theorem isName_iff (l : List Char) : isName l = true ↔ IsName l := by
  cases l with
  | nil => simp [isName, IsName]
  | cons c l =>
    simp only [isName, IsName, Bool.and_eq_true, List.all_eq_true]
    constructor
    · rintro ⟨h1, h2⟩; exact ⟨c, l, rfl, h1, h2⟩
    · rintro ⟨c', l', e, h1, h2⟩; cases e; exact ⟨h1, h2⟩

def entryOk (p : String × VarData) : Bool :=
  isName p.1.toList && p.1 != "call" && decide (p.2.var < 256) && decide (0 < p.2.size) && decide (p.2.start + p.2.size ≤ 32) &&
    (match p.2.param with | none => true | some k => hasParam p.2.var && decide (k < 256)) &&
    ![0x1a, 0x7b, 0x7c, 0x7d, 0x7e].contains p.2.var

theorem entries_ok : ∀ f < 21, (vaVars f).all entryOk = true := by decide +kernel

theorem table_nodup (f : Nat) : ((vaVars f).map (·.1)).Nodup := by
  by_cases h : f < 21
  · exact distinct_nodup (names_distinct f h)
  · rw [vaVars_beyond (by omega)]; simp

/-- **C67** The tables of all features: a name is there once, is a name for the parser, and stands for a non-empty field within the 32 bits of one
variable of the game, which is none of the variables the code treats specially; a fixed parameter is a byte, and only variables that take a
parameter have one. -/
theorem table_entries (f : Nat) : ((vaVars f).map (·.1)).Nodup ∧ ∀ n d, (n, d) ∈ vaVars f →
    (IsName n.toList ∧ n ≠ "call") ∧ d.var < 256 ∧ 0 < d.size ∧ d.start + d.size ≤ 32 ∧
    (∀ k, d.param = some k → hasParam d.var = true ∧ k < 256) ∧ d.var ∉ [0x1a, 0x7b, 0x7c, 0x7d, 0x7e] := by
  refine ⟨table_nodup f, ?_⟩
  intro n d hm
  by_cases h : f < 21
  · have := List.all_eq_true.1 (entries_ok f h) _ hm
    simp only [entryOk, Bool.and_eq_true, isName_iff, bne_iff_ne, decide_eq_true_eq, Bool.not_eq_true', List.contains_eq_mem,
      decide_eq_false_iff_not] at this
    obtain ⟨⟨⟨⟨⟨⟨a1, a2⟩, a3⟩, a4⟩, a5⟩, a6⟩, a7⟩ := this
    refine ⟨⟨a1, a2⟩, a3, a4, a5, ?_, a7⟩
    intro k hk
    rw [hk] at a6
    simpa using a6
  · rw [vaVars_beyond (by omega)] at hm; cases hm

theorem lookup_entry {t : VarTable} {n : String} {d : VarData} (h : t.lookup n = some d) : (n, d) ∈ t := by
  induction t with
  | nil => cases h
  | cons p t ih =>
    obtain ⟨a, b⟩ := p
    simp only [List.lookup] at h
    split at h
    · next e => simp only [beq_iff_eq] at e; cases h; subst e; simp
    · simp [ih h]

theorem table_ok (f : Nat) : TableOk (vaVars f) := by
  intro n d h hp
  cases hk : d.param with
  | none => exact absurd hk hp
  | some k => exact ((table_entries f).2 n d (lookup_entry h)).2.2.2.2.1 k hk |>.1

theorem names_ok (f : Nat) : NamesOk (vaVars f) := fun p hp => ((table_entries f).2 p.1 p.2 hp).1

theorem lookup_put (t : VarTable) (p : String × VarData) (n : String) : (putVar t p).lookup n = if n = p.1 then some p.2 else t.lookup n := by
  obtain ⟨k, v⟩ := p
  have hmap : ∀ t : VarTable, (t.map fun q => if q.1 == k then (k, v) else q).lookup n =
      if n = k then (if t.any (fun q => q.1 == k) then some v else none) else t.lookup n := by
    intro t
    induction t with
    | nil => simp
    | cons q t ih =>
      obtain ⟨a, b⟩ := q
      simp only [List.map_cons, List.any_cons]
      by_cases ha : a = k
      · subst ha
        by_cases hn : n = a
        · subst hn; simp [List.lookup]
        · have : (n == a) = false := by simpa using hn
          simp only [beq_self_eq_true, if_true, List.lookup, this, ih, if_neg hn]
      · have h1 : (a == k) = false := by simpa using ha
        simp only [h1, Bool.false_eq_true, if_false, List.lookup, Bool.false_or]
        by_cases hna : n = a
        · subst hna
          simp [ha]
        · have : (n == a) = false := by simpa using hna
          simp only [this, ih]
  have happ : ∀ t : VarTable, t.any (fun q => q.1 == k) = false → (t ++ [(k, v)]).lookup n = if n = k then some v else t.lookup n := by
    intro t
    induction t with
    | nil =>
      intro _
      by_cases hn : n = k
      · simp [List.lookup, hn]
      · have : (n == k) = false := by simpa using hn
        simp [List.lookup, hn, this]
    | cons q t ih =>
      obtain ⟨a, b⟩ := q
      intro h
      simp only [List.any_cons, Bool.or_eq_false_iff] at h
      have ha : a ≠ k := by simpa using h.1
      simp only [List.cons_append, List.lookup]
      by_cases hna : n = a
      · subst hna; simp [ha]
      · have : (n == a) = false := by simpa using hna
        simp only [this, ih h.2]
  unfold putVar
  split
  · rename_i h
    rw [hmap, if_pos h]
  · rename_i h
    exact happ t (Bool.eq_false_iff.2 h)

/-- **C67** (a feature's own meaning of a name wins): the table of a feature is the common one with the feature's entries put over it. -/
theorem own_names_win (a b : VarTable) (hb : (b.map (·.1)).Nodup) (n : String) : (overlay a b).lookup n = (b.lookup n).or (a.lookup n) := by
  unfold overlay
  induction b generalizing a with
  | nil => simp
  | cons p b ih =>
    obtain ⟨k, v⟩ := p
    simp only [List.map_cons, List.nodup_cons] at hb
    rw [List.foldl_cons, ih _ hb.2, lookup_put]
    simp only [List.lookup]
    by_cases hn : n = k
    · subst hn
      have : b.lookup n = none := by
        cases h : b.lookup n with
        | none => rfl
        | some d => exact absurd (List.mem_map_of_mem (f := (·.1)) (lookup_entry h)) hb.1
      simp [this]
    · have : (n == k) = false := by simpa using hn
      simp only [this, if_neg hn]

/-- **C67** The features that have named variables. -/
theorem has_variables_iff (f : Nat) : vaVars f ≠ [] ↔ f ∈ [0, 1, 2, 3, 4, 7, 9, 10, 15, 16, 20] := by
  by_cases h : f < 21
  · have : ∀ f < 21, (vaVars f).isEmpty = !([0, 1, 2, 3, 4, 7, 9, 10, 15, 16, 20].contains f) := by decide +kernel
    have := this f h
    rw [ne_eq, ← List.isEmpty_iff, this]
    simp only [List.contains_eq_mem, Bool.not_eq_true', decide_eq_false_iff_not, Decidable.not_not]
  · rw [vaVars_beyond (by omega)]
    simp only [ne_eq, not_true_eq_false, List.mem_cons, List.not_mem_nil, or_false, false_iff]
    omega

/-- The names which another name of the same feature hides: both stand for the same field, and the later one is printed. -/
def hidden : List (Nat × String × String) :=
  [(1, "current_roadtype", "current_tramtype"), (15, "animation_frame", "company_colour"), (15, "tile_height", "nearby_tile_height")]

/-- **C67** A field that has a name in the table of the feature is decompiled by this name, but for three names whose field has a second name. -/
theorem field_is_named (f : Nat) (n : String) (d : VarData) (h : (n, d) ∈ vaVars f) :
    invLookup (vaVars f) d.var d.start (2 ^ d.size - 1) = some (((hidden.find? fun x => x.1 == f && x.2.1 == n).map (·.2.2)).getD n) := by
  have key : ∀ f < 21, (vaVars f).all (fun p => invLookup (vaVars f) p.2.var p.2.start (2 ^ p.2.size - 1) ==
      some (((hidden.find? fun x => x.1 == f && x.2.1 == p.1).map (·.2.2)).getD p.1)) = true := by decide +kernel
  by_cases hf : f < 21
  · have := List.all_eq_true.1 (key f hf) _ h
    simpa using this
  · rw [vaVars_beyond (by omega)] at h; cases h

/-- **C67** A name is printed only for the field it stands for. -/
theorem name_is_field (f var start mask : Nat) (n : String) (h : invLookup (vaVars f) var start mask = some n) :
    ∃ d, (vaVars f).lookup n = some d ∧ d.var = var ∧ d.start = start ∧ 2 ^ d.size - 1 = mask := by
  obtain ⟨d, h1, h2, h3, h4⟩ := invLookup_table (table_nodup f) h
  exact ⟨d, h1, h2, h3, h4⟩

/-! ### Names in code -/

/-- The names of a decompiled expression. -/
def DNode.names : DNode → List String
  | .var n => [n]
  | .varP n p => n :: p.names
  | .gvarP _ _ _ _ _ _ p => p.names
  | .temp r => r.names
  | .perm r => r.names
  | .expr _ a b => a.names ++ b.names
  | _ => []

def noAssign : Node → Bool
  | .assign _ _ => false
  | .gvarP _ _ _ p => noAssign p
  | .gvarDivP _ _ _ _ _ _ p => noAssign p
  | .temp r => noAssign r
  | .perm r => noAssign r
  | .expr _ a b => noAssign a && noAssign b
  | _ => true

theorem reserve_vars {c c' : Ctx} {r : Nat} (h : c.reserve = some (r, c')) : c'.vars = c.vars := by
  unfold Ctx.reserve at h
  split at h
  · cases h
  · simp only [Option.some.injEq, Prod.mk.injEq] at h
    rw [← h.2]

theorem release_vars {c c' : Ctx} {r : Nat} (h : c.release r = some c') : c'.vars = c.vars := by
  unfold Ctx.release at h
  split at h
  · simp only [Option.some.injEq] at h; rw [← h]
  · cases h

/-- Code without assignments that is compiled has only names of the table. -/
theorem compiled_names (T : Tables) (e : Node) : ∀ (sh m : Int) (c : Ctx) (iv : Bool) (bs : Bytes) (c' : Ctx), noAssign e = true → c.vars = [] →
    compile T e sh m c = some (iv, bs, c') → c'.vars = [] ∧ ∀ n ∈ e.names, T.varTable n ≠ none := by
  induction e with
  | value v =>
    intro sh m c iv bs c' _ hv h
    simp only [compile, Option.bind_eq_bind, Option.bind_eq_some_iff] at h
    obtain ⟨_, _, h⟩ := h
    split at h
    · cases h
    · simp only [Option.bind_eq_some_iff] at h
      obtain ⟨_, _, h⟩ := h
      cases h
      exact ⟨hv, by simp [Node.names]⟩
  | var n =>
    intro sh m c iv bs c' _ hv h
    simp only [compile] at h
    cases ht : T.varTable n with
    | none => rw [ht, hv] at h; simp at h
    | some d =>
      rw [ht] at h
      simp only [Option.bind_eq_bind, Option.bind_eq_some_iff] at h
      split at h
      · cases h
      · simp only [Option.bind_eq_some_iff] at h
        obtain ⟨_, _, h⟩ := h
        refine ⟨?_, by simp [Node.names, ht]⟩
        split at h <;>
        · simp only [Option.bind_eq_some_iff] at h
          obtain ⟨_, _, h⟩ := h
          cases h
          exact hv
  | gvar v s k =>
    intro sh m c iv bs c' _ hv h
    simp only [compile, Option.bind_eq_bind] at h
    split at h
    · cases h
    · simp only [Option.bind_eq_some_iff] at h
      obtain ⟨_, _, _, _, h⟩ := h
      cases h
      exact ⟨hv, by simp [Node.names]⟩
  | gvarP v s k p ih =>
    intro sh m c iv bs c' ha hv h
    simp only [compile, Option.bind_eq_bind] at h
    split at h
    · cases h
    · simp only [Option.bind_eq_some_iff] at h
      obtain ⟨_, _, h⟩ := h
      split at h
      · simp only [Option.bind_eq_some_iff, Prod.exists] at h
        obtain ⟨_, _, c1, h1, _, _, h⟩ := h
        cases h
        exact ih _ _ _ _ _ _ ha hv h1
      · next k he =>
        have hp : ∃ v, p = .value v := by cases p <;> simp_all [Node.constEval]
        obtain ⟨w, rfl⟩ := hp
        refine ⟨?_, by simp [Node.names]⟩
        split at h <;>
        · simp only [Option.bind_eq_some_iff] at h
          obtain ⟨_, _, h⟩ := h
          cases h
          exact hv
  | gvarDiv => intro sh m c iv bs c' ha hv h; simp [compile] at h
  | gvarDivP => intro sh m c iv bs c' ha hv h; simp [compile] at h
  | temp r ih =>
    intro sh m c iv bs c' ha hv h
    rw [compile.eq_def] at h
    simp only [Option.bind_eq_bind, Option.bind_eq_some_iff] at h
    obtain ⟨_, _, h⟩ := h
    split at h
    · simp only [Option.bind_eq_some_iff] at h
      obtain ⟨_, _, h⟩ := h
      cases h
      exact ⟨hv, by simp [Node.names]⟩
    · simp only [Option.bind_eq_some_iff, Prod.exists] at h
      obtain ⟨_, _, c1, h1, _, _, h⟩ := h
      cases h
      exact ih _ _ _ _ _ _ ha hv h1
  | perm r ih =>
    intro sh m c iv bs c' ha hv h
    rw [compile.eq_def] at h
    simp only [Option.bind_eq_bind, Option.bind_eq_some_iff] at h
    obtain ⟨_, _, h⟩ := h
    split at h
    · simp only [Option.bind_eq_some_iff] at h
      obtain ⟨_, _, h⟩ := h
      cases h
      exact ⟨hv, by simp [Node.names]⟩
    · simp only [Option.bind_eq_some_iff, Prod.exists] at h
      obtain ⟨_, _, c1, h1, _, _, h⟩ := h
      cases h
      exact ih _ _ _ _ _ _ ha hv h1
  | call n =>
    intro sh m c iv bs c' ha hv h
    simp only [compile, Option.bind_eq_bind, Option.bind_eq_some_iff] at h
    obtain ⟨_, _, _, _, h⟩ := h
    cases h
    exact ⟨hv, by simp [Node.names]⟩
  | callName n =>
    intro sh m c iv bs c' ha hv h
    simp only [compile, Option.bind_eq_bind, Option.bind_eq_some_iff] at h
    obtain ⟨_, _, _, _, _, _, h⟩ := h
    cases h
    exact ⟨hv, by simp [Node.names]⟩
  | expr op a b iha ihb =>
    intro sh m c iv bs c' ha hv h
    simp only [noAssign, Bool.and_eq_true] at ha
    simp only [compile, Option.bind_eq_bind, Option.bind_eq_some_iff, Prod.exists] at h
    obtain ⟨ivb, bb, c1, hb, h⟩ := h
    obtain ⟨v1, n1⟩ := ihb _ _ _ _ _ _ ha.2 hv hb
    split at h
    · simp only [Option.bind_eq_some_iff, Prod.exists] at h
      obtain ⟨_, _, c2, h2, _, _, h⟩ := h
      cases h
      obtain ⟨v2, n2⟩ := iha _ _ _ _ _ _ ha.1 v1 h2
      refine ⟨v2, ?_⟩
      intro n hn
      rcases List.mem_append.1 hn with hn | hn
      · exact n2 n hn
      · exact n1 n hn
    · simp only [Option.bind_eq_some_iff, Prod.exists] at h
      obtain ⟨r, c2, hr, _, _, _, _, c3, h3, _, _, c4, h4, h⟩ := h
      cases h
      obtain ⟨v2, n2⟩ := iha _ _ _ _ _ _ ha.1 (by rw [reserve_vars hr]; exact v1) h3
      refine ⟨by rw [release_vars h4]; exact v2, ?_⟩
      intro n hn
      rcases List.mem_append.1 hn with hn | hn
      · exact n2 n hn
      · exact n1 n hn
  | assign n e _ => intro sh m c iv bs c' ha hv h; simp [noAssign] at ha

theorem compiled_tail_names (T : Tables) (es : List Node) : ∀ (acc : Bytes × Ctx) (r : Bytes × Ctx), (∀ e ∈ es, noAssign e = true) →
    acc.2.vars = [] → es.foldlM (fun (acc : Bytes × Ctx) e => do
      let (_, code, c) ← compile T e 0 FULL acc.2
      some (acc.1 ++ [0x0f] ++ code, c)) acc = some r → ∀ n ∈ es.flatMap Node.names, T.varTable n ≠ none := by
  induction es with
  | nil => intro _ _ _ _ _ n hn; simp at hn
  | cons e es ih =>
    intro acc r ha hv h n hn
    simp only [List.foldlM_cons, Option.bind_eq_bind, Option.bind_eq_some_iff, Prod.exists] at h
    obtain ⟨b1, c1, ⟨_, _, c2, h1, h2⟩, h⟩ := h
    cases h2
    obtain ⟨v1, n1⟩ := compiled_names T e _ _ _ _ _ _ (ha e (by simp)) hv h1
    rw [List.flatMap_cons, List.mem_append] at hn
    rcases hn with hn | hn
    · exact n1 n hn
    · exact ih _ r (fun x hx => ha x (by simp [hx])) v1 h n hn

theorem compiled_lines_names (T : Tables) (es : List Node) (bs : Bytes) (ha : ∀ e ∈ es, noAssign e = true)
    (h : compileSwitch T es = some bs) : ∀ n ∈ es.flatMap Node.names, T.varTable n ≠ none := by
  unfold compileSwitch at h
  rw [Option.bind_eq_some_iff] at h
  obtain ⟨r, h, -⟩ := h
  cases es with
  | nil => simp [compileLines] at h
  | cons e es =>
    intro n hn
    simp only [compileLines, Option.bind_eq_bind, Option.bind_eq_some_iff, Prod.exists] at h
    obtain ⟨_, b1, c1, h1, h⟩ := h
    obtain ⟨v1, n1⟩ := compiled_names T e _ _ _ _ _ _ (ha e (by simp)) rfl h1
    rw [List.flatMap_cons, List.mem_append] at hn
    rcases hn with hn | hn
    · exact n1 n hn
    · exact compiled_tail_names T es _ r (fun x hx => ha x (by simp [hx])) v1 (by simpa using h) n hn

theorem source_names {d : DNode} (h : Faithful d) : noAssign (source d) = true ∧ (source d).names = d.names := by
  induction h with
  | value v => simp [source, noAssign, Node.names, DNode.names]
  | var n h => simp [source, noAssign, Node.names, DNode.names]
  | gvar v s m t a d h => simp only [source]; split <;> simp [noAssign, Node.names, DNode.names]
  | gvarP v s m t a d p h hp ih => simp only [source]; split <;> simp [noAssign, Node.names, DNode.names, ih]
  | temp r h ih => simp [source, noAssign, Node.names, DNode.names, ih]
  | perm r h ih => simp [source, noAssign, Node.names, DNode.names, ih]
  | call n h => simp [source, noAssign, Node.names, DNode.names]
  | bin o a b ha hb hl hr iha ihb =>
    simp only [source]
    split
    · next c hc =>
      unfold lowerCmp
      cases c <;> simp [Cmp.lowering, noAssign, Node.names, DNode.names, iha, ihb]
    · split
      · next hs =>
        cases b <;> simp_all [register, noAssign, Node.names, DNode.names]
      · simp [noAssign, Node.names, DNode.names, iha, ihb]
  | fn f a b ha hb iha ihb =>
    simp only [source]
    split
    · next c hc =>
      unfold lowerCmp
      cases c <;> simp [Cmp.lowering, noAssign, Node.names, DNode.names, iha, ihb]
    · split
      · next hs =>
        cases b <;> simp_all [register, noAssign, Node.names, DNode.names]
      · simp [noAssign, Node.names, DNode.names, iha, ihb]
  | store p a r ha iha =>
    simp only [source]
    split
    · next c hc =>
      unfold lowerCmp
      cases c <;> simp [Cmp.lowering, noAssign, Node.names, DNode.names, iha]
    · split
      · simp [register, noAssign, Node.names, DNode.names, iha]
      · simp [noAssign, Node.names, DNode.names, iha]

end Grf
