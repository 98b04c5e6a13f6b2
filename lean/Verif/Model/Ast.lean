/-!
# Expression trees of `grf/parser.py`
-/
namespace Grf

/-- The node classes of `grf/parser.py:109-467`. `Temp`/`Perm` constructed with a plain integer
register behave as with `Value` (lines 377-383, 409-413), so both are `value` here. `GenericVar`
with `add`/`divmod` values always raises `NotImplementedError` on compilation (line 341) and is
represented by `gvarDiv` (without parameter) and `gvarDivP` (with one). -/
inductive Node where
  /-- `Value(value)`, line 250 -/
  | value (v : Int)
  /-- `Var(feature, name)`, line 270 (the optional `param` is never looked at by `compile`) -/
  | var (name : String)
  /-- `GenericVar(var, shift, and_mask)` without parameter, line 311 -/
  | gvar (var shift mask : Int)
  /-- `GenericVar(var, shift, and_mask, param=...)`, line 311 -/
  | gvarP (var shift mask : Int) (param : Node)
  /-- `GenericVar(...)` with `type`, `add_val`, `divmod_val`, line 311 -/
  | gvarDiv (var shift mask type add divmod : Int)
  /-- `GenericVar(...)` with `type`, `add_val`, `divmod_val` and `param`, line 311 -/
  | gvarDivP (var shift mask type add divmod : Int) (param : Node)
  /-- `Temp(register)`, line 363 -/
  | temp (reg : Node)
  /-- `Perm(register)`, line 397 -/
  | perm (reg : Node)
  /-- `Call(subroutine)`, line 428 -/
  | call (sub : Int)
  /-- `CallByName(subroutine)`, line 442 -/
  | callName (name : String)
  /-- `Expr(op, a, b)`, line 150 -/
  | expr (op : Int) (a b : Node)
  /-- `AssignVariable(variable, expression)`, line 231 -/
  | assign (name : String) (e : Node)
deriving DecidableEq, Repr, Inhabited

/-- An entry of the variable tables of `grf/va2vars.py` (`var`, `start`, `size`, optional `param`). -/
structure VarData where
  var : Nat
  start : Nat
  size : Nat
  param : Option Nat := none
deriving DecidableEq, Repr

end Grf
