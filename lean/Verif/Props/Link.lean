import Verif.Proofs.LinkSim
import Verif.Props.Compile
/-!
# C21, C22: linked procedures, and the exact meaning of the code of every accepted source
-/
namespace Grf
open Spec

/-! ## The direct meaning -/

theorem evalF_simple (w : SWorld) (ns : Names) (e : Node) (h : Simple e = true) (f : Front) (s : SState) :
    evalF w ns e f s = (evalF w ns e none s).bind (fun p => thread f p.1 p.2) := by
  cases e with
  | value v => rfl
  | var n =>
    simp only [evalF, thread]
    split
    · simp only [Option.bind_eq_bind, Option.bind_assoc, Option.bind_some]
    · simp only [Option.bind_eq_bind, Option.bind_assoc, Option.bind_some]
  | gvar v sh mask => simp only [evalF, thread, Option.bind_eq_bind, Option.bind_assoc, Option.bind_some]
  | gvarP v sh mask p => simp only [evalF, h, if_true, thread, Option.bind_eq_bind, Option.bind_assoc, Option.bind_some]
  | gvarDiv => simp [Simple] at h
  | gvarDivP => simp [Simple] at h
  | temp r => simp only [evalF, h, if_true, thread, Option.bind_eq_bind, Option.bind_assoc, Option.bind_some]
  | perm r => simp only [evalF, h, if_true, thread, Option.bind_eq_bind, Option.bind_assoc, Option.bind_some]
  | call n => simp only [evalF, thread, Option.bind_eq_bind, Option.bind_assoc, Option.bind_some]
  | callName n => simp only [evalF, thread, Option.bind_eq_bind, Option.bind_assoc, Option.bind_some]
  | expr => simp [Simple] at h
  | assign => simp [Simple] at h

/-- The code of a source without computed parameters in right operands means what the source says. -/
theorem code_meaning_is_source_meaning (T : Tables) (w : SWorld) (e : Node) (h : WfNode T e) (s : SState) :
    evalF w T.names e none s = evalS w T.names e s := by
  induction e generalizing s with
  | value v => rfl
  | var n => rfl
  | gvar v sh mask => rfl
  | gvarP v sh mask p ih =>
    simp only [evalF, evalS, ih h.1, thread]
    split <;> rfl
  | gvarDiv => rfl
  | gvarDivP => rfl
  | temp r ih =>
    simp only [evalF, evalS, ih h, thread]
    split <;> rfl
  | perm r ih =>
    simp only [evalF, evalS, ih h, thread]
    split <;> rfl
  | call n => rfl
  | callName n => rfl
  | expr op a b iha ihb =>
    obtain ⟨ha, hb, hd⟩ := h
    have hv : ValueLike b = Simple b := by rw [ValueLike, hd, Bool.or_false]
    simp only [evalF, evalS, hv]
    split
    · next hs =>
      have hb' : ∀ x s, evalF w T.names b (some (op, x)) s =
          (evalF w T.names b none s).bind (fun p => thread (some (op, x)) p.1 p.2) :=
        fun x s => evalF_simple w T.names b hs _ s
      simp only [hb', iha ha, ihb hb, thread, Option.bind_eq_bind]
    · simp only [iha ha, ihb hb, thread, Option.bind_eq_bind]
  | assign n e ih => simp only [evalF, evalS, ih h]

theorem code_lines_meaning (T : Tables) (w : SWorld) (es : List Node) (h : ∀ x ∈ es, WfNode T x) (s : SState) :
    evalLinesF w T.names es s = evalLinesS w T.names es s := by
  induction es generalizing s with
  | nil => rfl
  | cons e es ih =>
    have h1 := code_meaning_is_source_meaning T w e (h e (by simp))
    cases es with
    | nil => simp only [evalLinesF, evalLinesS, h1]
    | cons e2 es =>
      simp only [evalLinesF, evalLinesS, h1] at ih ⊢
      congr 1
      funext p
      exact ih (fun x hx => h x (by simp [hx])) p.2

theorem code_world_is_source_world (var : Nat → Word → Mach → Word) (ps : List Proc)
    (h : ∀ p ∈ ps, ∀ x ∈ p.lines, WfNode p.T x) : codeWorld var ps = srcWorld var ps := by
  induction ps with
  | nil => rfl
  | cons p ps ih =>
    simp only [codeWorld, srcWorld, ih (fun q hq => h q (by simp [hq]))]
    congr 1
    funext n m
    rw [code_lines_meaning p.T _ p.lines (h p (by simp))]

/-- The direct meaning with total procedures is that of `Verif/Spec/ExprSem.lean`. -/
theorem evalS_eval (w : World) (ns : Names) (e : Node) (s : SState) : evalS w.src ns e s = eval w ns e s := by
  induction e generalizing s with
  | value v => rfl
  | var n => rfl
  | gvar v sh mask => rfl
  | gvarP v sh mask p ih => simp only [evalS, eval, ih]; rfl
  | gvarDiv => rfl
  | gvarDivP => rfl
  | temp r ih => simp only [evalS, eval, ih]; rfl
  | perm r ih => simp only [evalS, eval, ih]
  | call n => rfl
  | callName n => simp only [evalS, eval, World.src, Option.bind_eq_bind, Option.bind_some]
  | expr op a b iha ihb => simp only [evalS, eval, iha, ihb]
  | assign n e ih => simp only [evalS, eval, ih]

theorem WfNode.any {T : Tables} {e : Node} (h : WfNode T e) : WfAny T e := by
  induction e with
  | value v => trivial
  | var n => exact h
  | gvar v sh mask => exact h
  | gvarP v sh mask p ih => exact ⟨ih h.1, h.2⟩
  | gvarDiv => trivial
  | gvarDivP => trivial
  | temp r ih => exact ih h
  | perm r ih => exact ih h
  | call n => trivial
  | callName n => trivial
  | expr op a b iha ihb => exact ⟨iha h.1, ihb h.2.1, fun hd => by rw [h.2.2] at hd; cases hd⟩
  | assign n e ih => exact ih h

/-! ## Lines -/

/-- Proof helper: evaluate lines when the previous line had value `v0`. -/
def evalFromF (w : SWorld) (ns : Names) : List Node → Word → SState → Option (Word × SState)
  | [], v0, s => some (v0, s)
  | e :: es, _, s => do
    let (x, s) ← evalF w ns e none s
    evalFromF w ns es x s

theorem evalLinesF_from (w : SWorld) (ns : Names) (e : Node) (es : List Node) (v0 : Word) (s : SState) :
    evalLinesF w ns (e :: es) s = evalFromF w ns (e :: es) v0 s := by
  induction es generalizing e s v0 with
  | nil => simp [evalLinesF, evalFromF]
  | cons e2 es ih =>
    simp only [evalLinesF, evalFromF, Option.bind_eq_bind]
    congr 1
    funext p
    rw [ih e2 p.1]
    rfl

theorem compile_tail_simF (T : Tables) (es : List Node) : ∀ (pre : Bytes) (c c' : Ctx) (bs : Bytes),
    (∀ x ∈ es, WfAny T x) → CtxInv c →
    es.foldlM (fun (acc : Bytes × Ctx) e => do
      let (_, code, c) ← compile T e 0 FULL acc.2
      some (acc.1 ++ [0x0f] ++ code, c)) (pre, c) = some (bs, c') →
    ∃ (l : List (Nat × Access)) (tl : Bytes), bs = pre ++ tl ∧
      (∀ h t, encAll h (t ++ l) = encAll h t ++ tl) ∧ (∀ p ∈ l, p.1 < 256 ∧ WfAcc p.2) ∧
      ((∀ x ∈ es, DecNode T x) → ∀ q ∈ l, q.2.var = 0x7b →
        q.1 = 0x0f ∧ q.2.param ≠ 0x1a ∧ q.2.param ≠ 0x7b ∧ q.2.param ≠ 0x7e) ∧
      ∀ (ws : SWorld) (wm : World) (keeps : Nat → Bool), Link ws wm keeps → ∀ live, CallsOkLines T keeps es live = true →
        (live = false → ∀ r, r ∉ c.used) → ∀ s v0 v s' m, Rel c s m → evalFromF ws T.names es v0 s = some (v, s') →
        ∃ m', exec wm l (v0, m) = (v, m') ∧ Rel c' s' m' ∧
          (es.all (RegFree T keeps) = true → ∀ r, Reserved r → m'.temp r = m.temp r) := by
  induction es with
  | nil =>
    intro pre c c' bs _ _ h
    simp only [List.foldlM_nil, Option.pure_def, Option.some.injEq, Prod.mk.injEq] at h
    obtain ⟨rfl, rfl⟩ := h
    refine ⟨[], [], by simp, by simp, by simp, by simp, ?_⟩
    intro ws wm keeps hl live _ _ s v0 v s' m hr he
    simp only [evalFromF, Option.some.injEq, Prod.mk.injEq] at he
    obtain ⟨rfl, rfl⟩ := he
    exact ⟨m, rfl, hr, fun _ _ _ => rfl⟩
  | cons e es ih =>
    intro pre c c' bs hwf hi h
    rw [List.foldlM_cons] at h
    simp only [Option.bind_eq_bind, Option.bind_eq_some_iff] at h
    obtain ⟨⟨p1, c1⟩, ⟨⟨iv, b1, c1'⟩, hc, h1⟩, h⟩ := h
    simp only [Option.some.injEq, Prod.mk.injEq] at h1
    obtain ⟨rfl, rfl⟩ := h1
    obtain ⟨hi1, _, _, code, hsim⟩ := compile_simF T e c c1' iv b1 (hwf e (by simp)) hi hc
    obtain ⟨l, tl, hl2, hl1, hl3, hld, hl4⟩ :=
      ih (pre ++ [0x0f] ++ b1) c1' c' bs (fun x hx => hwf x (by simp [hx])) hi1 h
    refine ⟨((0x0f, code.1) :: code.2) ++ l, 0x0f :: b1 ++ tl, ?_, ?_, ?_, ?_, ?_⟩
    · rw [hl2]; simp
    · intro hh t
      rw [← List.append_assoc, hl1, encAll_append, ← hsim.bytes]
      simp
    · intro p hp
      simp only [List.cons_append, List.mem_cons, List.mem_append] at hp
      rcases hp with rfl | hp | hp
      · exact ⟨by simp, hsim.wf.1⟩
      · exact hsim.wf.2 p hp
      · exact hl3 p hp
    · intro hd q hq
      simp only [List.cons_append, List.mem_cons, List.mem_append] at hq
      have hd1 := hsim.dec (hd e (by simp))
      rcases hq with rfl | hq | hq
      · exact fun h => absurd h hd1.1
      · exact hd1.2 q hq
      · exact hld (fun x hx => hd x (by simp [hx])) q hq
    · intro ws wm keeps hl live hco hu s v0 v s' m hr he
      simp only [evalFromF, Option.bind_eq_bind, Option.bind_eq_some_iff] at he
      obtain ⟨⟨v1, s1⟩, h1, h2⟩ := he
      simp only [CallsOkLines, Bool.and_eq_true] at hco
      obtain ⟨m1, hx, hr1, _, hk1⟩ := hsim.run ws wm keeps hl live hco.1 hu none s v1 s1 m v0 hr h1
      obtain ⟨m2, hx2, hr2, hk2⟩ := hl4 ws wm keeps hl _ hco.2 (by
        intro hlv r hm
        simp only [Bool.or_eq_false_iff] at hlv
        exact hu hlv.1 r (((hsim.still hlv.2).2 r).1 hm)) s1 v1 v s' m1 hr1 h2
      refine ⟨m2, ?_, hr2, ?_⟩
      · rw [exec_append]
        simp only [fop, facc] at hx
        rw [hx, hx2]
      · intro hrf r hrr
        simp only [List.all_cons, Bool.and_eq_true] at hrf
        rw [hk2 hrf.2 r hrr, hk1 hrf.1 r hrr]

/-- Full result about the code of a switch. -/
theorem compiled_lines_program (T : Tables) (es : List Node) (bs rest : Bytes) (hwf : ∀ x ∈ es, WfAny T x)
    (hc : compileSwitch T es = some bs) :
    ∃ prog : Code, parseProgram (bs ++ rest) = some (prog, rest) ∧ WfCode prog ∧
      ((∀ x ∈ es, DecNode T x) → Plain7B prog) ∧
      ∀ (ws : SWorld) (wm : World) (keeps : Nat → Bool), Link ws wm keeps → CallsOkLines T keeps es false = true →
        ∀ a b v s', Agree a b → evalLinesF ws T.names es ⟨a, fun _ => none⟩ = some (v, s') →
          ∃ m', runProgram wm prog b = (v, m') ∧ Agree s'.mach m' ∧
            (es.all (RegFree T keeps) = true → ∀ r, Reserved r → m'.temp r = b.temp r) := by
  unfold compileSwitch at hc
  rw [Option.bind_eq_some_iff] at hc
  obtain ⟨⟨bs0, c'⟩, h, he⟩ := hc
  cases es with
  | nil => simp [compileLines] at h
  | cons e es =>
    simp only [compileLines, Option.bind_eq_bind, Option.bind_eq_some_iff] at h
    obtain ⟨⟨iv, b1, c1⟩, hc, h⟩ := h
    obtain ⟨hi1, _, _, code, hsim⟩ := compile_simF T e _ c1 iv b1 (hwf e (by simp)) CtxInv.init hc
    obtain ⟨l, tl, hl2, hl1, hl3, hld, hl4⟩ :=
      compile_tail_simF T es b1 c1 c' bs0 (fun x hx => hwf x (by simp [hx])) hi1 h
    have hbs : bs0 = encAll code.1 (code.2 ++ l) := by rw [hl1, ← hsim.bytes]; exact hl2
    have hwc : WfCode (code.1, code.2 ++ l) := by
      refine ⟨hsim.wf.1, ?_⟩
      intro p hp
      rcases List.mem_append.1 hp with hp | hp
      · exact hsim.wf.2 p hp
      · exact hl3 p hp
    rw [hbs, markEnd_encAll _ _ hwc] at he
    simp only [Option.some.injEq] at he
    subst he
    refine ⟨(code.1, code.2 ++ l), parseProgram_encFinal _ _ _ hwc, hwc, ?_, ?_⟩
    · intro hd
      have hd1 := hsim.dec (hd e (by simp))
      refine ⟨hd1.1, ?_⟩
      intro q hq
      rcases List.mem_append.1 hq with hq | hq
      · exact hd1.2 q hq
      · exact hld (fun x hx => hd x (by simp [hx])) q hq
    · intro ws wm keeps hl hco a b v s' hab hev
      rw [evalLinesF_from ws T.names e es 0] at hev
      simp only [evalFromF, Option.bind_eq_bind, Option.bind_eq_some_iff] at hev
      obtain ⟨⟨v0, s0⟩, h1, h2⟩ := hev
      simp only [CallsOkLines, Bool.and_eq_true, Bool.false_or] at hco
      have hu0 : ∀ r, r ∉ Ctx.init.used := by simp [Ctx.init]
      obtain ⟨m1, hx, hr1, _, hk1⟩ := hsim.run ws wm keeps hl false hco.1 (fun _ => hu0) none _ v0 s0 b 0
        ⟨hab, by simp⟩ h1
      obtain ⟨m2, hx2, hr2, hk2⟩ := hl4 ws wm keeps hl _ hco.2 (by
        intro hlv r hm
        exact hu0 r (((hsim.still hlv).2 r).1 hm)) s0 v0 v s' m1 hr1 h2
      refine ⟨m2, ?_, hr2.agree, ?_⟩
      · rw [runProgram, exec_first]
        show exec wm (((0x0f, code.1) :: code.2) ++ l) (0, b) = _
        simp only [fop, facc] at hx
        rw [exec_append, hx, hx2]
      · intro hrf r hrr
        simp only [List.all_cons, Bool.and_eq_true] at hrf
        rw [hk2 hrf.2 r hrr, hk1 hrf.1 r hrr]

/-! ## Linked procedures -/

/-- The game with procedures: calling one runs the bytes emitted for it. The first in the list is the one defined last; the
procedures it calls are those defined before it. -/
def machWorld (var : Nat → Word → Mach → Word) : List Proc → World
  | [] => ⟨var, fun _ m => (0, m)⟩
  | p :: ps => ⟨var, fun n m =>
      if n = p.id then
        match (compileSwitch p.T p.lines).bind parseProgram with
        | some q => (p.res (runProgram (machWorld var ps) q.1 m).1, (runProgram (machWorld var ps) q.1 m).2)
        | none => (0, m)
      else (machWorld var ps).call n m⟩

/-- Every procedure is accepted by the compiler, and calls a procedure that needs registers only while it has no live register
itself. -/
def WellLinked : List Proc → Prop
  | [] => True
  | p :: ps => (∃ bs, compileSwitch p.T p.lines = some bs) ∧ (∀ x ∈ p.lines, WfAny p.T x) ∧
      CallsOkLines p.T (keeper ps) p.lines false = true ∧ WellLinked ps

theorem linked (var : Nat → Word → Mach → Word) (hvar : ∀ v p a b, Agree a b → var v p a = var v p b) (ps : List Proc)
    (h : WellLinked ps) : Link (codeWorld var ps) (machWorld var ps) (keeper ps) := by
  induction ps with
  | nil =>
    refine ⟨hvar, ?_⟩
    intro n a b x a' _ h
    simp [codeWorld] at h
  | cons p ps ih =>
    obtain ⟨⟨bs, hbs⟩, hwf, hco, hrest⟩ := h
    have hl := ih hrest
    refine ⟨hvar, ?_⟩
    intro n a b x a' hab hc
    simp only [codeWorld, machWorld, keeper] at hc ⊢
    by_cases hn : n = p.id
    · rw [if_pos hn] at hc ⊢
      simp only [if_pos hn]
      simp only [Option.bind_eq_bind, Option.bind_eq_some_iff, Option.some.injEq, Prod.mk.injEq] at hc
      obtain ⟨⟨v, s'⟩, hev, rfl, rfl⟩ := hc
      obtain ⟨prog, hp, _, _, hrun⟩ := compiled_lines_program p.T p.lines bs [] hwf hbs
      rw [List.append_nil] at hp
      obtain ⟨m', hm, hag, hk⟩ := hrun _ _ _ hl hco a b v s' hab hev
      simp only [hbs, Option.bind_some, hp]
      rw [hm]
      exact ⟨m', rfl, hag, hk⟩
    · rw [if_neg hn] at hc ⊢
      simp only [if_neg hn]
      exact hl.call n a b x a' hab hc

/-- **C21** (whole programs, exact meaning of the emitted code). Take any procedures, each defined in terms of the earlier ones, and
a switch that can call them, all accepted by the compiler. Calling a procedure runs the bytes emitted for it. Then the
emitted bytes are one well-framed program which computes the value the code means (`evalF`), for every right operand the
compiler accepts. Nothing is assumed of the procedures, except that one needing registers is called only while no register of
the caller is live. -/
theorem compiled_program_meaning (var : Nat → Word → Mach → Word) (hvar : ∀ v p a b, Agree a b → var v p a = var v p b)
    (ps : List Proc) (hps : WellLinked ps) (T : Tables) (es : List Node) (bs rest : Bytes)
    (hwf : ∀ x ∈ es, WfAny T x) (hco : CallsOkLines T (keeper ps) es false = true) (hc : compileSwitch T es = some bs) :
    ∃ prog, parseProgram (bs ++ rest) = some (prog, rest) ∧
      ∀ m v s', evalLinesF (codeWorld var ps) T.names es (SState.start m) = some (v, s') →
        ∃ m', runProgram (machWorld var ps) prog m = (v, m') ∧ Agree s'.mach m' ∧
          (es.all (RegFree T (keeper ps)) = true → ∀ r, Reserved r → m'.temp r = m.temp r) := by
  obtain ⟨prog, h1, _, _, h2⟩ := compiled_lines_program T es bs rest hwf hc
  refine ⟨prog, h1, fun m v s' hev => ?_⟩
  exact h2 _ _ _ (linked var hvar ps hps) hco m m v s' ⟨fun _ => rfl, fun _ _ => rfl⟩ hev

/-- **C21** (whole programs). As `compiled_program_meaning`, for sources in which no right operand is a variable with a computed
parameter: the emitted code computes what the sources of the switch and of its procedures say. -/
theorem compiled_program_computes_source (var : Nat → Word → Mach → Word)
    (hvar : ∀ v p a b, Agree a b → var v p a = var v p b)
    (ps : List Proc) (hps : WellLinked ps) (hpw : ∀ p ∈ ps, ∀ x ∈ p.lines, WfNode p.T x)
    (T : Tables) (es : List Node) (bs rest : Bytes)
    (hwf : ∀ x ∈ es, WfNode T x) (hco : CallsOkLines T (keeper ps) es false = true) (hc : compileSwitch T es = some bs) :
    ∃ prog, parseProgram (bs ++ rest) = some (prog, rest) ∧
      ∀ m v s', evalLinesS (srcWorld var ps) T.names es (SState.start m) = some (v, s') →
        ∃ m', runProgram (machWorld var ps) prog m = (v, m') ∧ Agree s'.mach m' := by
  obtain ⟨prog, h1, h2⟩ := compiled_program_meaning var hvar ps hps T es bs rest (fun x hx => (hwf x hx).any) hco hc
  refine ⟨prog, h1, fun m v s' hev => ?_⟩
  rw [← code_world_is_source_world var ps hpw, ← code_lines_meaning T _ es hwf] at hev
  obtain ⟨m', h3, h4, _⟩ := h2 m v s' hev
  exact ⟨m', h3, h4⟩

/-- **C21** (the exact error). `x op var(v, param=p)`, with a parameter `p` that is a single access or a constant above 255, is
compiled to code that means `var(v, param=(x op p))`. -/
theorem dynamic_parameter_operand_meaning (w : SWorld) (ns : Names) (op v sh mask : Int) (a p : Node)
    (hp : Simple p = true) (hd : DynParam (.gvarP v sh mask p) = true) (f : Front) (s : SState) :
    evalF w ns (.expr op a (.gvarP v sh mask p)) f s = evalF w ns (.gvarP v sh mask (.expr op a p)) f s := by
  have h1 : ValueLike (.gvarP v sh mask p) = true := by rw [ValueLike, hd, Bool.or_true]
  have h2 : ValueLike p = true := by rw [ValueLike, hp, Bool.true_or]
  have h3 : Simple (.gvarP v sh mask p) = false := by
    cases p <;> simp_all [Simple, DynParam]
  have h4 : Simple (.gvarP v sh mask (.expr op a p)) = false := rfl
  have u : ∀ q, Simple (.gvarP v sh mask q) = false → ∀ f s, evalF w ns (.gvarP v sh mask q) f s =
      (evalF w ns q f s).bind (fun r => (readNum w.vars v.toNat r.1 r.2.mach).bind
        (fun x => some (bits x sh.toNat mask, r.2))) := by
    intro q hq f s
    simp only [evalF, hq, Bool.false_eq_true, if_false, Option.bind_eq_bind]
  have e : ∀ b, ValueLike b = true → ∀ f s, evalF w ns (.expr op a b) f s =
      (evalF w ns a f s).bind (fun r => evalF w ns b (some (op, r.1)) r.2) := by
    intro b hb f s
    simp only [evalF, hb, if_true, Option.bind_eq_bind]
  rw [e _ h1, u _ h4, e _ h2]
  simp only [u _ h3, Option.bind_assoc]

/-! ### The hypotheses are met -/

/-- `g = var(0x40) + 3` needs no register; `f = 1 + 2 * 3 + g()` does. -/
def procG : Proc := ⟨1, emptyTables, [.expr 0x00 (.gvar 0x40 0 0xffffffff) (.value 3)], fun v => v &&& 0x7fff⟩

def procF : Proc := ⟨2, ⟨fun _ => none, fun n => if n = "g" then some 1 else none⟩,
  [.expr 0x00 (.expr 0x00 (.value 1) (.expr 0x0a (.value 2) (.value 3))) (.callName "g")], fun v => v &&& 0x7fff⟩

/-- `TEMP[1] = f() - 7; (g() * 2) + (TEMP[1] * 10)`: `g` is called while a register is live. -/
def mainLines : List Node :=
  [.expr 0x0e (.expr 0x01 (.callName "f") (.value 7)) (.value 1),
   .expr 0x00 (.expr 0x0a (.callName "g") (.value 2)) (.expr 0x0a (.temp (.value 1)) (.value 10))]

def mainTables : Tables := ⟨fun _ => none, fun n => if n = "g" then some 1 else if n = "f" then some 2 else none⟩

/-- A program with two procedures meets all hypotheses of `compiled_program_computes_source`. -/
example : WellLinked [procF, procG] ∧ (∀ p ∈ [procF, procG], ∀ x ∈ p.lines, WfNode p.T x) ∧
    (∀ x ∈ mainLines, WfNode mainTables x) ∧ CallsOkLines mainTables (keeper [procF, procG]) mainLines false = true ∧
    (compileSwitch mainTables mainLines).isSome = true ∧
    (evalLinesS (srcWorld exampleWorld.var [procF, procG]) mainTables.names mainLines (SState.start zeroMach)).map (·.1) =
      some 108384 := by
  refine ⟨⟨⟨_, rfl⟩, ?_, by decide, ⟨_, rfl⟩, ?_, by decide, trivial⟩, ?_, ?_, by decide, by decide, by decide⟩
  · simp [procF, WfAny, DynParam]
  · simp [procG, WfAny, DynParam, hasParam]
  · simp [procF, procG, WfNode, DynParam, hasParam]
  · simp [mainLines, WfNode, DynParam]

/-- The condition on calls is needed: `f() + 2 * 5` is refused by it, as `f` needs registers (and would give a wrong result, see
`miscompiles_call_clobbers_spill`). -/
example : CallsOkLines mainTables (keeper [procF, procG]) [.expr 0x00 (.callName "f") (.expr 0x0a (.value 2) (.value 5))] false
    = false := by decide

/-- `5 + var(0x61, param=TEMP[0])` meets the hypotheses of `compiled_program_meaning` and
`dynamic_parameter_operand_meaning`. -/
example : WfAny emptyTables (.expr 0x00 (.value 5) (.gvarP 0x61 0 0xffffffff (.temp (.value 0)))) ∧
    DynParam (.gvarP 0x61 0 0xffffffff (.temp (.value 0))) = true ∧ Simple (.temp (.value 0)) = true ∧
    (compileSwitch emptyTables [.expr 0x00 (.value 5) (.gvarP 0x61 0 0xffffffff (.temp (.value 0)))]).isSome = true ∧
    (evalF exampleWorld.src emptyTables.names (.expr 0x00 (.value 5) (.gvarP 0x61 0 0xffffffff (.temp (.value 0)))) none
      (SState.start zeroMach)).isSome = true := by
  refine ⟨?_, by decide, by decide, by decide, by decide⟩
  simp [WfAny, DynParam, assigns]

end Grf
