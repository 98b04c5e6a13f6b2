import Verif.Model.Ast
import Verif.Model.Common
/-!
# Model of the VarAction2 decoder (`grf/decompile.py:504-603`) and `Expr.simplify` (`grf/parser.py:196-224`)
-/
namespace Grf

/-- Nodes built by the decoder (`grf/parser.py:109-440`); unlike `Node` they keep the parameter of a
named variable and the add/div/mod modifiers, and operators may be the comparison operators
`OPE_* = -1..-8` (`grf/parser.py:35`). -/
inductive DNode where
  | value (v : Int)
  | var (name : String)
  | varP (name : String) (param : DNode)
  | gvar (var shift mask type : Nat) (add div : Option Nat)
  | gvarP (var shift mask type : Nat) (add div : Option Nat) (param : DNode)
  | temp (r : DNode)
  | perm (r : DNode)
  | call (n : Nat)
  | expr (op : Int) (a b : DNode)
deriving DecidableEq, Repr, Inhabited

/-! ## Operators, `grf/parser.py:11-46` -/

/-- For `grf/parser.py:37-46`. -/
def OP_SUB : Int := 0x01
/-- For `grf/parser.py:37-46`. -/
def OP_MIN : Int := 0x02
/-- For `grf/parser.py:37-46`. -/
def OP_MAX : Int := 0x03
/-- For `grf/parser.py:37-46`. -/
def OP_AND : Int := 0x0b
/-- For `grf/parser.py:37-46`. -/
def OP_XOR : Int := 0x0d
/-- For `grf/decompile.py:560-597`. -/
def OP_INIT : Int := 0x0f
/-- For `grf/parser.py:37-46`. -/
def OP_CMP : Int := 0x12
/-- For `grf/parser.py:37-46`. -/
def OP_SHRU : Int := 0x15

/-- The comparison operators of `grf/parser.py:35`. -/
inductive Cmp where
  | LT | GT | LE | GE | EQ | NEQ | HASBIT | NHASBIT
deriving DecidableEq, Repr

/-- `OPE_LT, ..., OPE_NHASBIT = range(-1, -9, -1)`, `grf/parser.py:35`. -/
def Cmp.code : Cmp → Int
  | .LT => -1 | .GT => -2 | .LE => -3 | .GE => -4 | .EQ => -5 | .NEQ => -6 | .HASBIT => -7 | .NHASBIT => -8

/-- `NML_OPE`, `grf/parser.py:37-46`: base operator, then one or two (operator, constant) steps. -/
def Cmp.lowering : Cmp → Int × (Int × Int) × Option (Int × Int)
  | .LT => (OP_CMP, (OP_MIN, 1), some (OP_XOR, 1))
  | .GT => (OP_CMP, (OP_SUB, 1), some (OP_MAX, 0))
  | .LE => (OP_CMP, (OP_XOR, 2), some (OP_MIN, 1))
  | .GE => (OP_CMP, (OP_MIN, 1), none)
  | .EQ => (OP_CMP, (OP_AND, 1), none)
  | .NEQ => (OP_CMP, (OP_AND, 1), some (OP_XOR, 1))
  | .HASBIT => (OP_SHRU, (OP_AND, 1), none)
  | .NHASBIT => (OP_SHRU, (OP_AND, 1), some (OP_XOR, 1))

/-- `p_expression_binop`, `grf/parser.py:625-631`: what the parser builds for a comparison. -/
def lowerCmp (c : Cmp) (a b : Node) : Node :=
  let (o, (p, pv), q) := c.lowering
  let res := Node.expr p (Node.expr o a b) (.value pv)
  match q with
  | some (q, qv) => Node.expr q res (.value qv)
  | none => res

/-- The same for decoded nodes. For `grf/parser.py:625-631`. -/
def lowerCmpD (c : Cmp) (a b : DNode) : DNode :=
  let (o, (p, pv), q) := c.lowering
  let res := DNode.expr p (DNode.expr o a b) (.value pv)
  match q with
  | some (q, qv) => DNode.expr q res (.value qv)
  | none => res

/-! ## `Expr.simplify` -/

/-- A level of the trie `NML_OPE_PARSE`, `grf/parser.py:48-56`: `(op, value)` keys lead to the next
level, plain operator keys to the recognised comparison. -/
inductive Trie where
  | node (sub : List ((Int × Int) × Trie)) (done : List (Int × Cmp))

/-- For `grf/parser.py:205-219`. -/
def Trie.sub : Trie → List ((Int × Int) × Trie)
  | .node s _ => s

/-- For `grf/parser.py:205-219`. -/
def Trie.done : Trie → List (Int × Cmp)
  | .node _ d => d

/-- The trie built by the loop in `grf/parser.py:48-56`, written out. -/
def NML_OPE_PARSE : Trie :=
  .node [((OP_XOR, 1), .node [((OP_MIN, 1), .node [] [(OP_CMP, .LT)]),
                              ((OP_AND, 1), .node [] [(OP_CMP, .NEQ), (OP_SHRU, .NHASBIT)])] []),
         ((OP_MAX, 0), .node [((OP_SUB, 1), .node [] [(OP_CMP, .GT)])] []),
         ((OP_MIN, 1), .node [((OP_XOR, 2), .node [] [(OP_CMP, .LE)])] [(OP_CMP, .GE)]),
         ((OP_AND, 1), .node [] [(OP_CMP, .EQ), (OP_SHRU, .HASBIT)])] []

/-- The `while` loop of `simplify`, `grf/parser.py:205-219`: walk down the left operands while the
`(op, value)` pairs are in the trie; the result is the recognised comparison with its operands.
(The loop always ends because `node` moves to a subterm.) -/
def matchCmp : DNode → Trie → Option (Cmp × DNode × DNode)
  | .expr op (.expr op2 a2 b2) (.value v), root =>
    match root.sub.lookup (op, v) with
    | none => none
    | some root2 =>
      match root2.done.lookup op2 with
      | some c => some (c, a2, b2)
      | none => matchCmp (.expr op2 a2 b2) root2
  | _, _ => none

theorem matchCmp_size : ∀ (e : DNode) (t : Trie) (c : Cmp) (a b : DNode), matchCmp e t = some (c, a, b) →
    sizeOf a < sizeOf e ∧ sizeOf b < sizeOf e := by
  intro e
  induction e with
  | expr op x y ihx ihy =>
    intro t c a b h
    unfold matchCmp at h
    split at h
    · next op' op2 a2 b2 v heq =>
      simp only [DNode.expr.injEq] at heq
      obtain ⟨rfl, rfl, rfl⟩ := heq
      split at h
      · simp at h
      · split at h
        · simp only [Option.some.injEq, Prod.mk.injEq] at h
          obtain ⟨_, rfl, rfl⟩ := h
          simp only [DNode.expr.sizeOf_spec]
          omega
        · next root2 _ _ _ =>
          have := ihx root2 c a b h
          simp only [DNode.expr.sizeOf_spec] at this ⊢
          omega
    · simp at h
  | _ => intro t c a b h; simp [matchCmp] at h

/-- `simplify`, `grf/parser.py:196-224` (Expr), `305-307` (Var), `332-334` (GenericVar), `392-394` (Temp),
`423-425` (Perm); other nodes are left alone (`143-144`). The code mutates nodes in place; here a new tree
is returned. -/
def simplify (e : DNode) : DNode :=
  match e with
  | .expr op a b =>
    match h : matchCmp (.expr op a b) NML_OPE_PARSE with
    | some (c, a', b') =>
      have := matchCmp_size _ _ _ _ _ h
      .expr c.code (simplify a') (simplify b')
    | none => .expr op (simplify a) (simplify b)
  | .varP n p => .varP n (simplify p)
  | .gvarP v s m t a d p => .gvarP v s m t a d (simplify p)
  | .temp r => .temp (simplify r)
  | .perm r => .perm (simplify r)
  | e => e
termination_by sizeOf e
decreasing_by all_goals simp_all <;> omega

/-! ## Decoding -/

theorem ite_none_left_iff {α : Type} {p : Prop} [Decidable p] {x : Option α} {y : α} :
    (if p then none else x) = some y ↔ ¬ p ∧ x = some y := by
  by_cases h : p <;> simp [h]

/-- A table with one variable, for examples (`grf/va2vars.py:6`). -/
def oneVar : List (String × VarData) := [("current_month", ⟨0x02, 0, 8, none⟩)]

/-- `VA2_VARS_INV[feature].get((var, start, mask))`, `grf/va2vars.py:353-356`: the dictionary
comprehension keeps the last name with that key. -/
def invLookup (table : List (String × VarData)) (var start mask : Nat) : Option String :=
  (table.reverse.find? (fun p => p.2.var == var && p.2.start == start && 2 ^ p.2.size - 1 == mask)).map (·.1)

/-- `GenericVar(...)` with optional parameter. For `grf/decompile.py:507-525`. -/
def mkGvar (var shift mask type : Nat) (add div : Option Nat) : Option DNode → DNode
  | none => .gvar var shift mask type add div
  | some p => .gvarP var shift mask type add div p

/-- `get_var_node` for a variable other than `0x7b`, `grf/decompile.py:507-525` (second part). `table` is `VA2_VARS_INV[feature]`; a feature which
is not in `VA2_VARS_INV` has the empty table here (tables in the code are never empty: each has the global variables), and the assertion of
line 520 refuses it. -/
def getVarNodeBase (table : List (String × VarData)) (var : Nat) (param : Option DNode) (shift mask : Nat) :
    Option DNode :=
  if var = 0x1a ∧ shift = 0 then some (.value mask)
  else if var = 0x7c ∧ shift = 0 ∧ mask = 0xffffffff then param.map .perm
  else if var = 0x7d ∧ shift = 0 ∧ mask = 0xffffffff then param.map .temp
  else if var = 0x7e ∧ shift = 0 ∧ mask = 0xffffffff then
    match param with
    | some (.value n) => if 0 ≤ n ∧ n < 256 then some (.call n.toNat) else none
    | _ => none
  else if table.isEmpty then none
  else match invLookup table var shift mask with
    | some n => some (match param with | none => .var n | some p => .varP n p)
    | none => some (mkGvar var shift mask 0 none none param)

/-- `get_var_node`, `grf/decompile.py:504-525`. `0x7b` uses the accumulator (`root`) as parameter of the
variable named by the parameter byte; a second `0x7b` is only possible when the accumulator is a
constant, a third recurses forever. -/
def getVarNode (table : List (String × VarData)) (root : Option DNode) (var : Nat) (param : Option DNode)
    (shift mask type : Nat) (add div : Option Nat) : Option DNode :=
  if add.isSome ∨ div.isSome then some (mkGvar var shift mask type add div param)
  else if var = 0x7b then
    match param with
    | some (.value p) =>
      if p = 0x7b then
        match root with
        | some (.value n) => if n = 0x7b ∨ n < 0 then none else getVarNodeBase table n.toNat root shift mask
        | _ => none
      else if p < 0 then none
      else getVarNodeBase table p.toNat root shift mask
    | _ => none
  else getVarNodeBase table var param shift mask

/-- Unsigned little-endian number of `n` bytes; `DataReader.get_byte`/`get_word`/`get_var`
(`grf/common.py:213-231`). -/
def getU (n : Nat) (bs : Bytes) : Option (Nat × Bytes) := do
  let (x, r) ← takeBytes n bs
  some (leVal x, r)

/-- One access of the loop, `grf/decompile.py:562-580`, without the operator byte: variable, parameter,
adjust byte, mask and optional add/divmod values. -/
structure RawAcc where
  var : Nat
  param : Option Nat
  shift : Nat
  more : Bool
  type : Nat
  mask : Nat
  add : Option Nat
  div : Option Nat
deriving DecidableEq, Repr

/-- `grf/decompile.py:563-580`; `size` = `1 << group_size`. -/
def readAcc (size : Nat) (bs : Bytes) : Option (RawAcc × Bytes) := do
  let (var, bs) ← getU 1 bs
  let (param, bs) ← (if 0x60 ≤ var ∧ var < 0x80 then (getU 1 bs).map (fun p => (some p.1, p.2)) else some (none, bs))
  let (adj, bs) ← getU 1 bs
  let (mask, bs) ← getU size bs
  let shift := adj % 32
  let more := adj / 32 % 2 == 1
  let type := adj / 64
  if type = 0 then some (⟨var, param, shift, more, type, mask, none, none⟩, bs)
  else do
    let (add, bs) ← getU size bs
    let (div, bs) ← getU size bs
    some (⟨var, param, shift, more, type, mask, some add, some div⟩, bs)

/-- Node for an access given the accumulator, `grf/decompile.py:582`. -/
def accNode (table : List (String × VarData)) (root : Option DNode) (a : RawAcc) : Option DNode :=
  getVarNode table root a.var (a.param.map (fun (p : Nat) => DNode.value (p : Int))) a.shift a.mask a.type a.add a.div

/-- The `while True` loop after the first iteration, `grf/decompile.py:560-597`: `code` lists the
finished lines, `acc` is the accumulator. -/
def decodeLoop (table : List (String × VarData)) (size : Nat) :
    Nat → List DNode → DNode → Bytes → Option (List DNode × Bytes)
  | 0, _, _, _ => none
  | fuel + 1, code, acc, bs => do
    let (op, bs) ← getU 1 bs
    let (a, bs) ← readAcc size bs
    let node ← accNode table (some acc) a
    let (code, acc) :=
      if (op : Int) = OP_INIT then ((if a.var ≠ 0x7b then code ++ [acc] else code), node)
      else (code, DNode.expr op acc node)
    if a.more then decodeLoop table size fuel code acc bs
    else some (code ++ [acc], bs)

/-- The whole loop, `grf/decompile.py:556-599`. -/
def decodeCode (table : List (String × VarData)) (size : Nat) (bs : Bytes) : Option (List DNode × Bytes) := do
  let (a, bs) ← readAcc size bs
  let node ← accNode table none a
  if a.more then decodeLoop table size bs.length [] node bs
  else some ([node], bs)

/-- A decoded range: low, high (unsigned) and the group word. For `grf/decompile.py:604-611`. -/
structure DRange where
  low : Nat
  high : Nat
  group : Nat
deriving DecidableEq, Repr

/-- `grf/decompile.py:604-611`. -/
def decodeRanges (size : Nat) : Nat → Bytes → Option (List DRange × Bytes)
  | 0, bs => some ([], bs)
  | n + 1, bs => do
    let (g, bs) ← getU 2 bs
    let (lo, bs) ← getU size bs
    let (hi, bs) ← getU size bs
    let (l, bs) ← decodeRanges size n bs
    some (⟨lo, hi, g⟩ :: l, bs)

/-- A decoded VarAction2 (`grf/decompile.py:618-625`), before the code is turned into text. -/
structure DSwitch where
  feature : Nat
  refId : Nat
  related : Bool
  code : List DNode
  ranges : List DRange
  default : Nat
deriving DecidableEq, Repr

/-- `decode_action2` for the VarAction2 types, `grf/decompile.py:545-625` (the leading action byte has
been consumed by the dispatcher; bytes after the default group are ignored and returned here). -/
def decodeVA2 (table : List (String × VarData)) (bs : Bytes) : Option (DSwitch × Bytes) := do
  let (feature, bs) ← getU 1 bs
  let (refId, bs) ← getU 1 bs
  let (atype, bs) ← getU 1 bs
  if atype ∈ [0x81, 0x82, 0x85, 0x86, 0x89, 0x8a] then do
    let size := 2 ^ (atype / 4 % 4)
    let related := atype / 2 % 2 == 1
    let (code, bs) ← decodeCode table size bs
    let (n, bs) ← getU 1 bs
    let (ranges, bs) ← decodeRanges size n bs
    let (dflt, bs) ← getU 2 bs
    some (⟨feature, refId, related, code.map simplify, ranges, dflt⟩, bs)
  else none

end Grf
