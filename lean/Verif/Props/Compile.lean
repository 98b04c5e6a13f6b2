import Mathlib.Tactic.IntervalCases
import Verif.Proofs.CompileSim
/-!
# C21, C22: the expression compiler
-/
namespace Grf
open Spec

/-! ## C21: emitted code computes the value of the source -/

/-- Source state at the start of a switch: no named variable is assigned. -/
def SState.start (m : Mach) : SState := ⟨m, fun _ => none⟩

/-- Proof helper: evaluate lines when the previous line had value `v0`. -/
def evalFrom (w : World) (ns : Names) : List Node → Word → SState → Option (Word × SState)
  | [], v0, s => some (v0, s)
  | e :: es, _, s => do
    let (x, s) ← eval w ns e s
    evalFrom w ns es x s

theorem evalLines_from (w : World) (ns : Names) (e : Node) (es : List Node) (v0 : Word) (s : SState) :
    evalLines w ns (e :: es) s = evalFrom w ns (e :: es) v0 s := by
  induction es generalizing e s v0 with
  | nil => simp [evalLines, evalFrom]
  | cons e2 es ih =>
    simp only [evalLines, evalFrom, Option.bind_eq_bind]
    congr 1
    funext p
    rw [ih e2 p.1]
    rfl

theorem compile_tail_sim (T : Tables) (es : List Node) : ∀ (pre : Bytes) (c c' : Ctx) (bs : Bytes),
    (∀ x ∈ es, WfNode T x) → CtxInv c →
    es.foldlM (fun (acc : Bytes × Ctx) e => do
      let (_, code, c) ← compile T e 0 FULL acc.2
      some (acc.1 ++ [0x0f] ++ code, c)) (pre, c) = some (bs, c') →
    ∃ (l : List (Nat × Access)) (tl : Bytes), bs = pre ++ tl ∧
      (∀ h t, encAll h (t ++ l) = encAll h t ++ tl) ∧ (∀ p ∈ l, p.1 < 256 ∧ WfAcc p.2) ∧
      ((∀ x ∈ es, DecNode T x) → ∀ q ∈ l, q.2.var = 0x7b →
        q.1 = 0x0f ∧ q.2.param ≠ 0x1a ∧ q.2.param ≠ 0x7b ∧ q.2.param ≠ 0x7e) ∧
      ∀ w : World, w.Ok → ∀ s v0 v s' m, Rel c s m → evalFrom w T.names es v0 s = some (v, s') →
        ∃ m', exec w l (v0, m) = (v, m') ∧ Rel c' s' m' := by
  induction es with
  | nil =>
    intro pre c c' bs _ _ h
    simp only [List.foldlM_nil, Option.pure_def, Option.some.injEq, Prod.mk.injEq] at h
    obtain ⟨rfl, rfl⟩ := h
    refine ⟨[], [], by simp, by simp, by simp, by simp, ?_⟩
    intro w hw s v0 v s' m hr he
    simp only [evalFrom, Option.some.injEq, Prod.mk.injEq] at he
    obtain ⟨rfl, rfl⟩ := he
    exact ⟨m, rfl, hr⟩
  | cons e es ih =>
    intro pre c c' bs hwf hi h
    rw [List.foldlM_cons] at h
    simp only [Option.bind_eq_bind, Option.bind_eq_some_iff] at h
    obtain ⟨⟨p1, c1⟩, ⟨⟨iv, b1, c1'⟩, hc, h1⟩, h⟩ := h
    simp only [Option.some.injEq, Prod.mk.injEq] at h1
    obtain ⟨rfl, rfl⟩ := h1
    obtain ⟨hi1, _, _, code, hsim⟩ := compile_sim T e c c1' iv b1 (hwf e (by simp)) hi hc
    obtain ⟨l, tl, hl2, hl1, hl3, hld, hl4⟩ :=
      ih (pre ++ [0x0f] ++ b1) c1' c' bs (fun x hx => hwf x (by simp [hx])) hi1 h
    refine ⟨((0x0f, code.1) :: code.2) ++ l, 0x0f :: b1 ++ tl, ?_, ?_, ?_, ?_, ?_⟩
    · rw [hl2]; simp
    · intro hh t
      rw [← List.append_assoc, hl1, encAll_append, ← hsim.bytes]
      simp
    · intro p hp
      simp only [List.cons_append, List.mem_cons, List.mem_append] at hp
      rcases hp with rfl | hp | hp
      · exact ⟨by simp, hsim.wf.1⟩
      · exact hsim.wf.2 p hp
      · exact hl3 p hp
    · intro hd q hq
      simp only [List.cons_append, List.mem_cons, List.mem_append] at hq
      have hd1 := hsim.dec (hd e (by simp))
      rcases hq with rfl | hq | hq
      · exact fun h => absurd h hd1.1
      · exact hd1.2 q hq
      · exact hld (fun x hx => hd x (by simp [hx])) q hq
    · intro w hw s v0 v s' m hr he
      simp only [evalFrom, Option.bind_eq_bind, Option.bind_eq_some_iff] at he
      obtain ⟨⟨v1, s1⟩, h1, h2⟩ := he
      obtain ⟨m1, hx, hr1, _⟩ := hsim.run w hw s v1 s1 m v0 hr h1
      obtain ⟨m2, hx2, hr2⟩ := hl4 w hw s1 v1 v s' m1 hr1 h2
      exact ⟨m2, by rw [exec_append, hx, hx2], hr2⟩

theorem compileLines_sim (T : Tables) (es : List Node) (c c' : Ctx) (bs : Bytes)
    (hwf : ∀ x ∈ es, WfNode T x) (hi : CtxInv c) (h : compileLines T es c = some (bs, c')) :
    ∃ code : Code, bs = encAll code.1 code.2 ∧ WfCode code ∧ ((∀ x ∈ es, DecNode T x) → Plain7B code) ∧
      ∀ w : World, w.Ok → ∀ s v s' m acc, Rel c s m → evalLines w T.names es s = some (v, s') →
        ∃ m', exec w ((0x0f, code.1) :: code.2) (acc, m) = (v, m') ∧ Rel c' s' m' := by
  cases es with
  | nil => simp [compileLines] at h
  | cons e es =>
    simp only [compileLines, Option.bind_eq_bind, Option.bind_eq_some_iff] at h
    obtain ⟨⟨iv, b1, c1⟩, hc, h⟩ := h
    obtain ⟨hi1, _, _, code, hsim⟩ := compile_sim T e c c1 iv b1 (hwf e (by simp)) hi hc
    obtain ⟨l, tl, hl2, hl1, hl3, hld, hl4⟩ :=
      compile_tail_sim T es b1 c1 c' bs (fun x hx => hwf x (by simp [hx])) hi1 h
    refine ⟨(code.1, code.2 ++ l), ?_, ⟨hsim.wf.1, ?_⟩, ?_, ?_⟩
    · rw [hl1, ← hsim.bytes]; exact hl2
    · intro p hp
      rcases List.mem_append.1 hp with hp | hp
      · exact hsim.wf.2 p hp
      · exact hl3 p hp
    · intro hd
      have hd1 := hsim.dec (hd e (by simp))
      refine ⟨hd1.1, ?_⟩
      intro q hq
      rcases List.mem_append.1 hq with hq | hq
      · exact hd1.2 q hq
      · exact hld (fun x hx => hd x (by simp [hx])) q hq
    · intro w hw s v s' m acc hr he
      rw [evalLines_from w T.names e es acc] at he
      simp only [evalFrom, Option.bind_eq_bind, Option.bind_eq_some_iff] at he
      obtain ⟨⟨v0, s0⟩, h1, h2⟩ := he
      obtain ⟨m1, hx, hr1, _⟩ := hsim.run w hw s v0 s0 m acc hr h1
      obtain ⟨m2, hx2, hr2⟩ := hl4 w hw s0 v0 v s' m1 hr1 h2
      refine ⟨m2, ?_, hr2⟩
      show exec w (((0x0f, code.1) :: code.2) ++ l) (acc, m) = _
      rw [exec_append, hx, hx2]

theorem exec_first (w : World) (a : Access) (t : List (Nat × Access)) (m : Mach) :
    exec w ((0, a) :: t) (0, m) = exec w ((0x0f, a) :: t) (0, m) := by
  simp [exec, evalOp]

/-- Full result about the code of a switch, used for C21 and C26. -/
theorem compiled_switch_program (T : Tables) (es : List Node) (bs bs' rest : Bytes) (c' : Ctx)
    (hwf : ∀ x ∈ es, WfNode T x)
    (hc : compileLines T es Ctx.init = some (bs, c')) (he : markEnd bs = some bs') :
    ∃ prog : Code, parseProgram (bs' ++ rest) = some (prog, rest) ∧ WfCode prog ∧
      ((∀ x ∈ es, DecNode T x) → Plain7B prog) ∧
      ∀ w : World, w.Ok → ∀ m v s', evalLines w T.names es (SState.start m) = some (v, s') →
        ∃ m', runProgram w prog m = (v, m') ∧ Agree s'.mach m' := by
  obtain ⟨code, rfl, hwc, hdec, hrun⟩ := compileLines_sim T es _ _ _ hwf CtxInv.init hc
  rw [markEnd_encAll _ _ hwc] at he
  simp only [Option.some.injEq] at he
  subst he
  refine ⟨code, parseProgram_encFinal _ _ _ hwc, hwc, hdec, ?_⟩
  intro w hw m v s' hev
  obtain ⟨m', hx, hr⟩ := hrun w hw (SState.start m) v s' m 0
    ⟨⟨fun _ => rfl, fun _ _ => rfl⟩, by simp [SState.start]⟩ hev
  exact ⟨m', by rw [runProgram, exec_first]; exact hx, hr.agree⟩

/-- **C21** (partial: see `WfNode` in `Verif/Spec/Supported.lean` and the `miscompiles_*` theorems).
Whenever grf-py accepts the lines of a switch, the emitted bytes are one well-framed VarAction2 program
(whatever follows it) which, run from any machine state, ends with the value the source denotes, and
with persistent storage and all non-reserved temporary registers as the source says. -/
theorem compiled_switch_computes_source_partial (T : Tables) (es : List Node) (bs bs' rest : Bytes) (c' : Ctx)
    (hwf : ∀ x ∈ es, WfNode T x)
    (hc : compileLines T es Ctx.init = some (bs, c')) (he : markEnd bs = some bs') :
    ∃ prog, parseProgram (bs' ++ rest) = some (prog, rest) ∧
      ∀ w : World, w.Ok → ∀ m v s', evalLines w T.names es (SState.start m) = some (v, s') →
        ∃ m', runProgram w prog m = (v, m') ∧ Agree s'.mach m' := by
  obtain ⟨prog, h1, _, _, h2⟩ := compiled_switch_program T es bs bs' rest c' hwf hc he
  exact ⟨prog, h1, h2⟩

theorem pureOp_some {op : Int} {a b z : Word} (h : pureOp op a b = some z) (m : Mach) :
    applyOp op a b m = some (z, m) := by
  unfold pureOp at h
  split at h
  · next hc =>
    obtain ⟨h0, h1, h2, h3, h4⟩ := hc
    simp only [Option.some.injEq] at h
    unfold applyOp
    rw [if_pos ⟨h0, h1, h3⟩, if_neg (fun q => h2 q.1)]
    obtain ⟨n, rfl⟩ := Int.eq_ofNat_of_zero_le h0
    subst h
    simp only [Int.toNat_natCast]
    have h1' : n ≤ 22 := by omega
    have h2' : n ≠ 14 := by omega
    have h3' : n ≠ 15 := by omega
    have h4' : n ≠ 16 := by omega
    congr 1
    interval_cases n <;> first | rfl | contradiction
  · simp at h

theorem eval_of_evalPure (w : World) (ns : Names) (e : Node) : ∀ s x, evalPure w ns e s = some x →
    eval w ns e s = some (x, s) := by
  induction e with
  | value v => intro s x h; simpa [evalPure, eval] using h
  | var n =>
    intro s x h
    simp only [evalPure] at h
    simp only [eval]
    split at h
    · next d hd =>
      simp only [Option.bind_eq_bind, Option.bind_eq_some_iff, Option.some.injEq] at h ⊢
      obtain ⟨a, ha, rfl⟩ := h
      exact ⟨a, ha, rfl⟩
    · next hd => simp [h]
  | gvar v sh mask =>
    intro s x h
    simp only [evalPure, eval, Option.bind_eq_bind, Option.bind_eq_some_iff, Option.some.injEq] at h ⊢
    obtain ⟨a, ha, rfl⟩ := h
    exact ⟨a, ha, rfl⟩
  | gvarP v sh mask p ih =>
    intro s x h
    simp only [evalPure, eval, Option.bind_eq_bind, Option.bind_eq_some_iff, Option.some.injEq] at h ⊢
    obtain ⟨i, hi, a, ha, rfl⟩ := h
    exact ⟨(i, s), ih s i hi, a, ha, rfl⟩
  | temp r ih =>
    intro s x h
    simp only [evalPure, eval, Option.bind_eq_bind, Option.bind_eq_some_iff, Option.some.injEq] at h ⊢
    obtain ⟨i, hi, ha⟩ := h
    exact ⟨(i, s), ih s i hi, x, ha, rfl⟩
  | perm r ih =>
    intro s x h
    simp only [evalPure, eval, Option.bind_eq_bind, Option.bind_eq_some_iff, Option.some.injEq] at h ⊢
    obtain ⟨i, hi, rfl⟩ := h
    exact ⟨(i, s), ih s i hi, rfl⟩
  | expr op a b iha ihb =>
    intro s x h
    simp only [evalPure, Option.bind_eq_bind, Option.bind_eq_some_iff] at h
    obtain ⟨y, hy, z, hz, hop⟩ := h
    simp only [eval, iha s y hy, ihb s z hz, Option.bind_eq_bind, Option.bind_some, pureOp_some hop]
    simp
  | _ => intro s x h; simp [evalPure] at h

/-- **C21**, side-effect free expressions: the emitted code yields the mathematical (order-free) value
of the expression and changes nothing but reserved registers. -/
theorem compiled_expression_value_partial (T : Tables) (e : Node) (bs bs' rest : Bytes) (c' : Ctx)
    (hwf : WfNode T e)
    (hc : compileLines T [e] Ctx.init = some (bs, c')) (he : markEnd bs = some bs') :
    ∃ prog, parseProgram (bs' ++ rest) = some (prog, rest) ∧
      ∀ w : World, w.Ok → ∀ m v, evalPure w T.names e (SState.start m) = some v →
        ∃ m', runProgram w prog m = (v, m') ∧ Agree m m' := by
  obtain ⟨prog, h1, h2⟩ := compiled_switch_computes_source_partial T [e] bs bs' rest c'
    (by simpa using hwf) hc he
  refine ⟨prog, h1, fun w hw m v hv => ?_⟩
  exact h2 w hw m v _ (eval_of_evalPure w T.names e _ v hv)

/-! ### Non-vacuity: a program with nesting, spilling, storage, a variable and assignments -/

/-- `x = var(0x40); TEMP[3] = 1000 - (x & 0xff) * (PERM[2] + 1); x + TEMP[3]` -/
def exampleLines : List Node :=
  [.assign "x" (.gvar 0x40 0 0xffffffff),
   .expr 0x0e (.expr 0x01 (.value 1000) (.expr 0x0a (.expr 0x0b (.var "x") (.value 0xff))
     (.expr 0x00 (.perm (.value 2)) (.value 1)))) (.value 3),
   .expr 0x00 (.var "x") (.temp (.value 3))]

def emptyTables : Tables := ⟨fun _ => none, fun _ => none⟩

/-- A game where variable 0x40 is 0x12345 and everything else 0. -/
def exampleWorld : World := ⟨fun v _ _ => if v = 0x40 then 0x12345 else 0, fun _ m => (0, m)⟩

theorem exampleWorld_ok : exampleWorld.Ok :=
  ⟨fun _ _ _ _ _ => rfl, fun _ _ _ _ => rfl, fun _ _ _ h => h, fun _ _ _ _ => rfl⟩

def zeroMach : Mach := ⟨fun _ => 0, fun i => if i = 2 then 6 else 0⟩

example : (∀ x ∈ exampleLines, WfNode emptyTables x) ∧
    (compileLines emptyTables exampleLines Ctx.init).isSome = true ∧
    (((compileLines emptyTables exampleLines Ctx.init).bind (fun p => markEnd p.1)).isSome = true) ∧
    (evalLines exampleWorld emptyTables.names exampleLines (SState.start zeroMach)).map (·.1)
      = some (0x12345 + (1000 - 0x45 * 7)) := by
  refine ⟨?_, by decide, by decide, by decide⟩
  simp [exampleLines, WfNode, DynParam, hasParam, emptyTables]

/-! ### Where the claim fails

`runBytes` runs emitted bytes. -/

/-- Emitted code of a switch. -/
def compileSwitch (T : Tables) (es : List Node) : Option Bytes :=
  (compileLines T es Ctx.init).bind (fun p => markEnd p.1)

def runBytes (w : World) (bs : Bytes) (m : Mach) : Option Word :=
  (parseProgram bs).map (fun p => (runProgram w p.1 m).1)

/-- **C21 counterexample.** `5 + var(0x61, param=TEMP[0])` is accepted but the emitted program drops
the `5 +`: a variable with a computed parameter reports itself as a simple value
(`grf/parser.py:346`). -/
theorem miscompiles_dynamic_parameter_operand :
    let e : Node := .expr 0x00 (.value 5) (.gvarP 0x61 0 0xffffffff (.temp (.value 0)))
    ∃ bs, compileSwitch emptyTables [e] = some bs ∧
      evalPure exampleWorld emptyTables.names e (SState.start zeroMach) = some 5 ∧
      runBytes exampleWorld bs zeroMach = some 0 := by
  refine ⟨_, rfl, by decide, by decide⟩

/-- The source program of a subroutine: `1 + 2 * 3`. -/
def subSource : Node := .expr 0x00 (.value 1) (.expr 0x0a (.value 2) (.value 3))

/-- A game where procedure 7 is the compiled code of `subSource`. -/
def subWorld : World :=
  ⟨fun _ _ _ => 0, fun _ m => match (compileSwitch emptyTables [subSource]).bind parseProgram with
    | some p => runProgram exampleWorld p.1 m
    | none => (0, m)⟩

/-- **C21/C22 counterexample.** Every switch allocates its intermediate registers from 0x80, so a
subroutine overwrites the live intermediate results of its caller: `f() + 2 * 5` with `f = 1 + 2 * 3`
yields 13 instead of 17. -/
theorem miscompiles_call_clobbers_spill :
    let T : Tables := ⟨fun _ => none, fun n => if n = "f" then some 7 else none⟩
    let e : Node := .expr 0x00 (.callName "f") (.expr 0x0a (.value 2) (.value 5))
    ∃ bs, compileSwitch T [e] = some bs ∧
      (eval subWorld T.names e (SState.start zeroMach)).map (·.1) = some 17 ∧
      runBytes subWorld bs zeroMach = some 13 := by
  refine ⟨_, rfl, by decide, by decide⟩

/-- **C21 counterexample.** A named variable numbered 0x60..0x7f without `param` in its table entry
(e.g. `nearby_tile_slope`, `grf/va2vars.py`) is emitted without the parameter byte the game expects, so
the bytes are not the intended program; here they do not even parse. -/
theorem miscompiles_parametrised_table_variable :
    let T : Tables := ⟨fun n => if n = "nearby_tile_slope" then some ⟨0x62, 0, 5, none⟩ else none, fun _ => none⟩
    ∃ bs, compileSwitch T [.var "nearby_tile_slope"] = some bs ∧ parseProgram bs = none := by
  refine ⟨_, rfl, by decide⟩

/-- **C21/C22 counterexample.** The user may store to register 0x80 himself; the compiler does not
avoid it: after `TEMP[0x80] = 7`, `TEMP[0x80] + 2 * 3` yields 12 instead of 13. -/
theorem miscompiles_user_register_80 :
    let es : List Node := [.expr 0x0e (.value 7) (.value 0x80),
      .expr 0x00 (.temp (.value 0x80)) (.expr 0x0a (.value 2) (.value 3))]
    ∃ bs, compileSwitch emptyTables es = some bs ∧ runBytes exampleWorld bs zeroMach = some 12 := by
  refine ⟨_, rfl, by decide⟩

end Grf
