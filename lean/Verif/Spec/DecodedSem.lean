import Verif.Model.Decode
import Verif.Spec.VA2
/-!
# Specification: meaning of comparison operators and of decoded expressions
-/
namespace Spec
open Grf

/-- The relation a comparison operator stands for (signed words; bit index for the bit tests). -/
def Cmp.holds : Cmp → Word → Word → Prop
  | .LT, a, b => a.toInt < b.toInt
  | .GT, a, b => b.toInt < a.toInt
  | .LE, a, b => a.toInt ≤ b.toInt
  | .GE, a, b => b.toInt ≤ a.toInt
  | .EQ, a, b => a = b
  | .NEQ, a, b => a ≠ b
  | .HASBIT, a, b => a.getLsbD (b.toNat % 32) = true
  | .NHASBIT, a, b => a.getLsbD (b.toNat % 32) = false

instance : ∀ c a b, Decidable (Cmp.holds c a b)
  | .LT, a, b => inferInstanceAs (Decidable (a.toInt < b.toInt))
  | .GT, a, b => inferInstanceAs (Decidable (b.toInt < a.toInt))
  | .LE, a, b => inferInstanceAs (Decidable (a.toInt ≤ b.toInt))
  | .GE, a, b => inferInstanceAs (Decidable (b.toInt ≤ a.toInt))
  | .EQ, a, b => inferInstanceAs (Decidable (a = b))
  | .NEQ, a, b => inferInstanceAs (Decidable (a ≠ b))
  | .HASBIT, a, b => inferInstanceAs (Decidable (a.getLsbD (b.toNat % 32) = true))
  | .NHASBIT, a, b => inferInstanceAs (Decidable (a.getLsbD (b.toNat % 32) = false))

/-- 1 if the relation holds, else 0. -/
def Cmp.value (c : Cmp) (a b : Word) : Word := if Cmp.holds c a b then 1 else 0

def Cmp.ofCode (op : Int) : Option Cmp :=
  [Cmp.LT, .GT, .LE, .GE, .EQ, .NEQ, .HASBIT, .NHASBIT].find? (fun c => c.code == op)

/-- Operators of decoded expressions: the machine's and the comparisons. -/
def applyD (op : Int) (a b : Word) (m : Mach) : Option (Word × Mach) :=
  if 0 ≤ op then some (evalOp op.toNat a b m)
  else (Cmp.ofCode op).map (fun c => (Cmp.value c a b, m))

/-- Read variable `v` with parameter `p`; `0x7E` calls a procedure. -/
def readAny (w : World) (v : Nat) (p : Word) (m : Mach) : Word × Mach :=
  if v = 0x7e then w.call p.toNat m else (getVar w v p m, m)

/-- Modifiers of a decoded variable. -/
def adjustD (shift mask type : Nat) (add div : Option Nat) (x : Word) : Word :=
  adjust { var := 0, param := 0, shift := shift, mask := BitVec.ofNat 32 mask, type := type,
           add := BitVec.ofNat 32 (add.getD 0), divmod := BitVec.ofNat 32 (div.getD 1) } x

/-- Meaning of a decoded expression; operands are evaluated from left to right. -/
def evalD (w : World) (table : String → Option VarData) : DNode → Mach → Option (Word × Mach)
  | .value v, m => some (BitVec.ofInt 32 v, m)
  | .var n, m => do
    let d ← table n
    let (x, m) := readAny w d.var 0 m
    some (adjustD d.start (2 ^ d.size - 1) 0 none none x, m)
  | .varP n p, m => do
    let (i, m) ← evalD w table p m
    let d ← table n
    let (x, m) := readAny w d.var i m
    some (adjustD d.start (2 ^ d.size - 1) 0 none none x, m)
  | .gvar v s k t a d, m =>
    let (x, m) := readAny w v 0 m
    some (adjustD s k t a d x, m)
  | .gvarP v s k t a d p, m => do
    let (i, m) ← evalD w table p m
    let (x, m) := readAny w v i m
    some (adjustD s k t a d x, m)
  | .temp r, m => do
    let (i, m) ← evalD w table r m
    some (m.readTemp i.toNat, m)
  | .perm r, m => do
    let (i, m) ← evalD w table r m
    some (m.perm i.toNat, m)
  | .call n, m => some (w.call n m)
  | .expr op a b, m => do
    let (x, m) ← evalD w table a m
    let (y, m) ← evalD w table b m
    applyD op x y m

/-- Meaning of decoded lines: the value of the last one. -/
def evalDLines (w : World) (table : String → Option VarData) : List DNode → Mach → Option (Word × Mach)
  | [], _ => none
  | [e], m => evalD w table e m
  | e :: es, m => do
    let (_, m) ← evalD w table e m
    evalDLines w table es m

/-- Programs the decoder represents faithfully: `0x7B` (variable with computed parameter) does not
come first, only follows the "forget the accumulator" operator, has no add/div/mod and does not
name `0x1A`, `0x7B` or `0x7E` (see the negative theorems for what happens otherwise). -/
def Decodable7B (p : Access × List (Nat × Access)) : Prop :=
  p.1.var ≠ 0x7b ∧ ∀ q ∈ p.2, q.2.var = 0x7b → q.1 = 0x0f ∧ q.2.type = 0 ∧
    q.2.param ≠ 0x1a ∧ q.2.param ≠ 0x7b ∧ q.2.param ≠ 0x7e

end Spec
