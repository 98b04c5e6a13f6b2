import Verif.Proofs.SyntaxParse
import Verif.Props.Link
import Verif.Props.Accepts
import Verif.Model.VehicleSprites
/-!
# C68: the code which chooses the livery of an articulated part
-/
namespace Grf.VehicleSprites
open Grf Syntax _root_.Spec

/-- The code of the switch over the liveries of the part at a position (`grf/lib/train.py:194-199`); the trailing comma makes it a tuple
with one text, which `Switch` joins (`grf/actions.py:1722-1723`). -/
def partCode (position : Nat) : List Char :=
  "\n                TEMP[0x10F]=-".toList ++ Strings.dec position ++
    "\n                var(0x61, param=0xF2, shift=0, and=0xFF)\n            ".toList

/-- What the code means. -/
def partLines (position : Nat) : List Node :=
  [.expr 0x0e (.value (-position)) (.value 0x10f), .gvarP 0x61 0 0xff (.value 0xf2)]

theorem part_code_tokens (n : Nat) : lex (partCode n) =
    [.newline, .name "TEMP", .lbracket, .num 271, .rbracket, .assign, .op .sub, .num n, .newline, .name "var", .lparen, .num 97, .comma,
     .name "param", .assign, .num 242, .comma, .name "shift", .assign, .num 0, .comma, .name "and", .assign, .num 255, .rparen, .newline] := by
  have e : partCode n = '\n' :: ("                ".toList ++ ("TEMP".toList ++ '[' :: '0' :: 'x' :: (['1', '0', 'F'] ++ ']' :: '=' ::
      ('-' :: Strings.dec n ++ '\n' :: "                var(0x61, param=0xF2, shift=0, and=0xFF)\n            ".toList)))) := by
    unfold partCode
    simp
  rw [e, lex_newline _ (by simp)]
  have sp : ∀ (k : Nat) (r : List Char), lex (List.replicate k ' ' ++ r) = lex r := by
    intro k r
    induction k with
    | zero => rfl
    | succ k ih => rw [List.replicate_succ, List.cons_append, lex_space, ih]
  rw [show "                ".toList = List.replicate 16 ' ' from by decide +kernel, sp, lex_word "TEMP" (isName_word 'T' ['E', 'M', 'P'] (by decide)) (safe_lb _), lex_lbracket,
    lex_0x (h := ['1', '0', 'F']) (by decide) (by simp) (safe_rb _), lex_rbracket, lex_assign _ (by simp), lex_sub_dec n (safe_nl _)]
  have : lex ('\n' :: "                var(0x61, param=0xF2, shift=0, and=0xFF)\n            ".toList) =
      [.newline, .name "var", .lparen, .num 97, .comma,
     .name "param", .assign, .num 242, .comma, .name "shift", .assign, .num 0, .comma, .name "and", .assign, .num 255, .rparen, .newline] := by
    decide +kernel
  rw [this]
  rfl

/-- **C68** The code of every articulated part is read as what it should mean. -/
theorem part_code_read (n : Nat) : parse (partCode n) = some (partLines n) := by
  unfold parse
  rw [part_code_tokens]
  rfl

/-- **C68** The code of the part at position `n` always compiles, for every set of named variables, and what it computes in the game is:
variable 61 with the parameter F2 (the cargo subtype of another vehicle of the train), asked while register 10F holds `-n` (`n` vehicles towards the front),
cut to a byte. -/
theorem part_code_meaning (T : Tables) (n : Nat) : ∃ bs, compileSwitch T (partLines n) = some bs ∧
    ∀ (var : Nat → Word → Mach → Word), (∀ v p a b, Agree a b → var v p a = var v p b) → ∀ rest : Bytes,
      ∃ prog, parseProgram (bs ++ rest) = some (prog, rest) ∧ ∀ m : Mach, ∃ m',
        runProgram (machWorld var []) prog m =
          (var 0x61 0xf2 { m with temp := fun r => if r = 0x10f then BitVec.ofInt 32 (-n) else m.temp r } &&& 0xff, m') := by
  have hc : ∃ bs, compileSwitch T (partLines n) = some bs := by
    obtain ⟨bs, c', h, -⟩ := compile_accepts T (.expr 0x0e (.value (-n)) (.value 0x10f)) (by simp [Fits]) (by simp [need, Simple])
    simp only [compileLines, Option.bind_eq_bind, Option.bind_eq_some_iff, List.foldlM_nil] at h
    obtain ⟨⟨iv, b1, c1⟩, h1, h⟩ := h
    have h2 : compile T (.gvarP 0x61 0 0xff (.value 0xf2)) 0 FULL c1 = some (true, [0x61, 0xf2, 0x20, 0xff, 0, 0, 0], c1) := rfl
    have h3 : compileLines T (partLines n) Ctx.init = some (b1 ++ [0x0f] ++ [0x61, 0xf2, 0x20, 0xff, 0, 0, 0], c1) := by
      simp only [partLines, compileLines, h1, h2, Option.bind_eq_bind, Option.bind_some, List.foldlM_cons, List.foldlM_nil]
      rfl
    unfold compileSwitch
    rw [h3]
    simp only [Option.bind_some]
    unfold markEnd
    have e : (b1 ++ [0x0f] ++ [0x61, 0xf2, 0x20, 0xff, 0, 0, 0] : Bytes) = (b1 ++ [0x0f, 0x61, 0xf2]) ++ [0x20, 0xff, 0, 0, 0] := by simp
    rw [e, if_neg (by simp)]
    have e2 : ((b1 ++ [0x0f, 0x61, 0xf2]) ++ [0x20, 0xff, 0, 0, 0] : Bytes).length - 5 = (b1 ++ [0x0f, 0x61, 0xf2]).length := by simp
    simp only [e2, List.drop_left]
    exact ⟨_, rfl⟩
  obtain ⟨bs, hbs⟩ := hc
  refine ⟨bs, hbs, ?_⟩
  intro var hvar rest
  obtain ⟨prog, hp, hr⟩ := compiled_program_computes_source var hvar [] (by simp [WellLinked]) (by simp) T (partLines n) bs rest
    (by simp [partLines, WfNode, DynParam, hasParam]) (by simp [partLines, CallsOkLines, CallsOk]) hbs
  refine ⟨prog, hp, fun m => ?_⟩
  have hev : evalLinesS (srcWorld var []) T.names (partLines n) (SState.start m) =
      some (var 0x61 0xf2 { m with temp := fun r => if r = 0x10f then BitVec.ofInt 32 (-n) else m.temp r } &&& 0xff,
        ⟨{ m with temp := fun r => if r = 0x10f then BitVec.ofInt 32 (-n) else m.temp r }, fun _ => none⟩) := by
    have ha : applyOp 0x0e (BitVec.ofInt 32 (-(n : Int))) (BitVec.ofInt 32 0x10f) m =
        some (BitVec.ofInt 32 (-(n : Int)), m.storeTemp 0x10f (BitVec.ofInt 32 (-(n : Int)))) := rfl
    have hst : m.storeTemp 0x10f (BitVec.ofInt 32 (-(n : Int))) =
        { m with temp := fun r => if r = 0x10f then BitVec.ofInt 32 (-n) else m.temp r } := by
      unfold Mach.storeTemp
      rfl
    simp only [partLines, evalLinesS, evalS, SState.start, Simple, if_true, Option.bind_eq_bind, Option.bind_some, ha, hst]
    simp [readNum, getVar, bits, srcWorld, SWorld.vars]
  obtain ⟨m', h, -⟩ := hr m _ _ hev
  exact ⟨m', h⟩

end Grf.VehicleSprites
