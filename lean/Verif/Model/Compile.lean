import Verif.Model.Ast
import Verif.Model.Common
/-!
# Model of the expression compiler: `grf/parser.py` `compile` methods and `CodeContext`
-/
namespace Grf

/-- `grf/actions.py:1666-1671` `CodeContext`: next candidate register, registers in use (a set),
registers of named variables. (`subroutines` is a separate parameter of `compile`.) -/
structure Ctx where
  minReg : Nat
  used : List Nat
  vars : List (String × Nat)
deriving DecidableEq, Repr

/-- `CodeContext(register=0x80, ...)` as created by `Switch.get_data`, `grf/actions.py:1774`. -/
def Ctx.init : Ctx := { minReg := 0x80, used := [], vars := [] }

/-- `grf/actions.py:1673-1683` `reserve_register`: first unused register in `range(min, 256)`;
`RuntimeError` if there is none. -/
def Ctx.reserve (c : Ctx) : Option (Nat × Ctx) :=
  match (List.range' c.minReg (256 - c.minReg)).find? (fun i => decide (i ∉ c.used)) with
  | none => none
  | some r => some (r, { c with minReg := r + 1, used := r :: c.used })

/-- `grf/actions.py:1685-1687` `release_register`: `set.remove` raises if absent. -/
def Ctx.release (c : Ctx) (r : Nat) : Option Ctx :=
  if r ∈ c.used then
    some { c with used := c.used.filter (· ≠ r), minReg := min c.minReg r }
  else none

/-- `grf/actions.py:1689-1695` `reserve_variable`. -/
def Ctx.reserveVariable (c : Ctx) (name : String) : Option (Nat × Ctx) :=
  match c.vars.lookup name with
  | some r => some (r, c)
  | none => do
    let (r, c) ← c.reserve
    some (r, { c with vars := (name, r) :: c.vars })

/-- Compile-time tables: `VA2_VARS[feature]` (`grf/va2vars.py`) and `CodeContext.subroutines` with the
subroutine's reference id. -/
structure Tables where
  varTable : String → Option VarData
  subs : String → Option Int

/-- `(value >> shift) & mask` on Python ints. For `grf/parser.py:178-194`. -/
def pyShr (v : Int) (n : Nat) : Int := v >>> n

/-- The default of `and_mask`, `0xffffffff` (`grf/parser.py:178`). -/
def FULL : Int := 0xffffffff

/-- `grf/parser.py:146-147,226-228,263-264` `const_eval`: only `Value` is constant. -/
def Node.constEval : Node → Option Int
  | .value v => some v
  | _ => none

/-- `struct.pack('<BBBI', var, param, 0x20 | shift, mask)` For `grf/parser.py:178-194`. -/
def packVarP (var param : Int) (shift : Int) (mask : Int) : Option Bytes :=
  cat [packU 1 var, packU 1 param, packU 1 (pyOr 0x20 shift), packU 4 mask]

/-- `struct.pack('<BBI', var, 0x20 | shift, mask)` For `grf/parser.py:178-194`. -/
def packVar (var : Int) (shift : Int) (mask : Int) : Option Bytes :=
  cat [packU 1 var, packU 1 (pyOr 0x20 shift), packU 4 mask]

/-- The `assert shift < 0x20` / `assert and_mask <= 0xffffffff` guards (e.g. `grf/parser.py:258-259`). -/
def guardShift (shift mask : Int) : Option Unit :=
  if shift < 0x20 ∧ mask ≤ 0xffffffff then some () else none

/-- The `compile` methods of all node classes, `grf/parser.py:178-194` (Expr), `241-245`
(AssignVariable), `257-261` (Value), `283-303` (Var), `336-360` (GenericVar), `377-387` (Temp),
`406-418` (Perm), `436-439` (Call), `449-467` (CallByName).
Result: the `is_value` flag, the code bytes and the updated context; `none` = an exception. -/
def compile (T : Tables) : Node → (shift : Int) → (mask : Int) → Ctx → Option (Bool × Bytes × Ctx)
  | .value v, shift, mask, c => do
    guardShift shift mask
    if shift < 0 then none else do      -- negative shift count raises ValueError
    let code ← packVar 0x1a 0 (pyAnd (pyShr v shift.toNat) mask)
    some (true, code, c)
  | .var name, shift, mask, c =>
    match T.varTable name with
    | none =>
      match c.vars.lookup name with
      | none => none
      | some r => do
        let code ← packVarP 0x7d r shift mask
        some (true, code, c)
    | some d => do
      if shift < 0 then none else do
      let varMask : Int := 2 ^ d.size - 1
      let mask := pyAnd mask (pyShr varMask shift.toNat)
      let shift := shift + d.start
      guardShift shift mask
      match d.param with
      | some p => do
        let code ← packVarP d.var p shift mask
        some (true, code, c)
      | none => do
        let code ← packVar d.var shift mask
        some (true, code, c)
  | .gvar var gshift gmask, shift, mask, c => do
    if shift < 0 then none else do
    let mask := pyAnd mask (pyShr gmask shift.toNat)
    let shift := shift + gshift
    guardShift shift mask
    let code ← packVar var shift mask
    some (true, code, c)
  | .gvarP var gshift gmask param, shift, mask, c => do
    if shift < 0 then none else do
    let mask := pyAnd mask (pyShr gmask shift.toNat)
    let shift := shift + gshift
    guardShift shift mask
    match param.constEval with
    | none => do
      let (_, code, c) ← compile T param 0 FULL c
      let tail ← cat [packU 1 0x0f, packU 1 0x7b, packU 1 var, packU 1 (pyOr 0x20 shift), packU 4 mask]
      some (true, code ++ tail, c)
    | some p =>
      if p > 255 then do
        let code ← cat [packU 1 0x1a, packU 1 0x20, packU 4 p, packU 1 0x0f, packU 1 0x7b, packU 1 var,
          packU 1 (pyOr 0x20 shift), packU 4 mask]
        some (true, code, c)
      else do
        let code ← packVarP var p shift mask
        some (true, code, c)
  | .gvarDiv .., _, _, _ => none
  | .gvarDivP .., _, _, _ => none
  | .temp reg, shift, mask, c => do
    guardShift shift mask
    match reg with
    | .value r => do
      let code ← packVarP 0x7d r shift mask
      some (true, code, c)
    | reg => do
      let (_, code, c) ← compile T reg 0 FULL c
      let tail ← cat [packU 1 0x0f, packU 1 0x7b, packU 1 0x7d, packU 1 (pyOr 0x20 shift), packU 4 mask]
      some (false, code ++ tail, c)
  | .perm reg, shift, mask, c => do
    guardShift shift mask
    match reg with
    | .value r => do
      let code ← packVarP 0x7c r shift mask
      some (true, code, c)
    | reg => do
      let (_, code, c) ← compile T reg 0 FULL c
      let tail ← cat [packU 1 0x0f, packU 1 0x7b, packU 1 0x7c, packU 1 (pyOr 0x20 shift), packU 4 mask]
      some (false, code ++ tail, c)
  | .call sub, shift, mask, c => do
    guardShift shift mask
    let code ← packVarP 0x7e sub shift mask
    some (true, code, c)
  | .callName name, shift, mask, c => do
    guardShift shift mask
    let sub ← T.subs name
    let code ← packVarP 0x7e sub shift mask
    some (true, code, c)
  | .expr op a b, shift, mask, c => do
    let (isValue, bCode, c) ← compile T b shift mask c
    if isValue then do
      let (_, aCode, c) ← compile T a shift mask c
      let o ← packU 1 op
      some (false, aCode ++ o ++ bCode, c)
    else do
      let (r, c) ← c.reserve
      let store ← cat [packU 1 0x0e, packU 1 0x1a, packU 1 0x20, packU 4 r, packU 1 0x0f]
      let (_, aCode, c) ← compile T a shift mask c
      let tail ← cat [packU 1 op, packU 1 0x7d, packU 1 r, packU 1 0x20, packU 4 0xffffffff]
      let c ← c.release r
      some (false, bCode ++ store ++ aCode ++ tail, c)
  | .assign name e, shift, mask, c => do
    let (_, code, c) ← compile T e shift mask c
    let (r, c) ← c.reserveVariable name
    let store ← cat [packU 1 0x0e, packU 1 0x1a, packU 1 0x20, packU 4 r]
    some (false, code ++ store, c)

/-- `grf/actions.py:1776-1780`: the lines of a switch joined with `OP_INIT` (`ast[0]` raises
`IndexError` for empty code). -/
def compileLines (T : Tables) : List Node → Ctx → Option (Bytes × Ctx)
  | [], _ => none
  | e :: es, c => do
    let (_, code, c) ← compile T e 0 FULL c
    es.foldlM (fun (acc : Bytes × Ctx) e => do
      let (_, code, c) ← compile T e 0 FULL acc.2
      some (acc.1 ++ [0x0f] ++ code, c)) (code, c)

/-- `grf/actions.py:1781-1783`: clear the continuation bit of the last access
(`code[:-5] + (code[-5] & ~0x20) + code[-4:]`; `IndexError` for fewer than 5 bytes). -/
def markEnd (code : Bytes) : Option Bytes :=
  if code.length < 5 then none
  else
    let n := code.length - 5
    match code.drop n with
    | b :: r => some (code.take n ++ [b &&& ~~~0x20] ++ r)
    | [] => none

end Grf
