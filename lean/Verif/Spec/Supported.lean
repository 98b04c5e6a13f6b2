import Verif.Spec.ExprSem
import Verif.Model.Compile
/-!
# Specification: the sources for which the compiler is proved correct (C21)

The restrictions are real: outside them the emitted bytes mean something else, see the `miscompiles_*`
theorems in `Verif/Props/Compile.lean`.
-/
namespace Grf
open Spec

/-- `GenericVar` whose parameter is not a constant byte: compiled to several accesses although
reported as a simple value. -/
def DynParam : Node → Bool
  | .gvarP _ _ _ (.value p) => decide (255 < p)
  | .gvarP .. => true
  | _ => false

/-- Static well-formedness: variable numbers and parameters fit the byte format, and no right operand
is a variable with dynamic parameter. -/
def WfNode (T : Tables) : Node → Prop
  | .value _ => True
  | .var n => ∀ d, T.varTable n = some d → hasParam d.var = d.param.isSome
  | .gvar v _ _ => hasParam v.toNat = false
  | .gvarP v a b p => WfNode T p ∧ (DynParam (.gvarP v a b p) = false → hasParam v.toNat = true)
  | .gvarDiv .. => True
  | .gvarDivP .. => True
  | .temp r => WfNode T r
  | .perm r => WfNode T r
  | .call _ => True
  | .callName _ => True
  | .expr _ a b => WfNode T a ∧ WfNode T b ∧ DynParam b = false
  | .assign _ e => WfNode T e

/-- Sources whose code the decompiler represents: no variable is number `0x7B` itself, and a variable
read with a computed parameter is not `0x1A` (a constant), `0x7B` or `0x7E` (a procedure call). -/
def DecNode (T : Tables) : Node → Prop
  | .value _ => True
  | .var n => ∀ d, T.varTable n = some d → d.var ≠ 0x7b
  | .gvar v _ _ => v.toNat ≠ 0x7b
  | .gvarP v _ _ p => DecNode T p ∧ v.toNat ≠ 0x1a ∧ v.toNat ≠ 0x7b ∧ v.toNat ≠ 0x7e
  | .gvarDiv .. => True
  | .gvarDivP .. => True
  | .temp r => DecNode T r
  | .perm r => DecNode T r
  | .call _ => True
  | .callName _ => True
  | .expr _ a b => DecNode T a ∧ DecNode T b
  | .assign _ e => DecNode T e

/-- Source-level names of the compile-time tables. -/
def Tables.names (T : Tables) : Names := ⟨T.varTable, fun n => (T.subs n).map Int.toNat⟩

end Grf
