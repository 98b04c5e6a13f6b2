import Verif.Model.Syntax
/-!
# Specification: the expressions whose text is read back, and the tree they stand for (C56)
-/
namespace Grf.Syntax

/-! ### Operators -/

/-- The codes of the infix operators. -/
def Bin.code : Bin → Int
  | .add => 0x00 | .sub => 0x01 | .mul => 0x0a | .div => 0x06 | .mod => 0x07 | .and => 0x0b | .or => 0x0c | .xor => 0x0d
  | .shru => 0x15 | .shr => 0x16 | .shl => 0x14 | .lt => -1 | .gt => -2 | .le => -3 | .ge => -4 | .eq => -5 | .neq => -6

/-- How tightly the infix operators bind in the language: comparisons, shifts, `|`, `^`, `&`, sums, products. -/
def Bin.binds : Bin → Nat
  | .lt | .gt | .le | .ge | .eq | .neq => 1
  | .shru | .shr | .shl => 2
  | .or => 3
  | .xor => 4
  | .and => 5
  | .add | .sub => 6
  | .mul | .div | .mod => 7

/-- The priority and the `bracket` flag the printer uses. -/
def Bin.prio : Bin → Nat
  | .add | .sub => 5
  | .mul | .div | .mod => 6
  | .and | .or | .xor | .shru | .shr | .shl => 4
  | _ => 3

def Bin.brk : Bin → Bool
  | .sub | .and | .or | .xor | .shru | .shr | .shl => true
  | _ => false

/-- The operators printed as functions which the grammar can read. -/
inductive Fn where
  | min | max | minu | maxu | rot | cmp | cmpu
deriving DecidableEq, Repr

def Fn.code : Fn → Int
  | .min => 0x02 | .max => 0x03 | .minu => 0x04 | .maxu => 0x05 | .rot => 0x11 | .cmp => 0x12 | .cmpu => 0x13

def Fn.text : Fn → String
  | .min => "min" | .max => "max" | .minu => "minu" | .maxu => "maxu" | .rot => "rot" | .cmp => "cmp" | .cmpu => "cmpu"

/-- The code and the name of a storage. -/
def storeCode (p : Bool) : Int := if p then 0x10 else 0x0e
def storeText (p : Bool) : String := if p then "PERM" else "TEMP"

/-- The infix operator with a code. -/
def binOf (op : Int) : Option Bin :=
  [Bin.add, .sub, .mul, .div, .mod, .and, .or, .xor, .shru, .shr, .shl, .lt, .gt, .le, .ge, .eq, .neq].find? fun o => o.code == op

/-! ### Expressions which are printed faithfully -/

/-- A name of the language: `[a-zA-Z_][a-zA-Z0-9_]*`. -/
def IsName (cs : List Char) : Prop := ∃ c l, cs = c :: l ∧ isNameStart c = true ∧ ∀ d ∈ l, isNameChar d = true

/-- How tightly the outermost operator of a printed expression binds in the grammar: 8 for operands, function calls and expressions in
brackets, 0 for an assignment. -/
def level (d : DNode) (pp : Nat) : Nat :=
  match d with
  | .expr op _ _ =>
    match binOf op with
    | some o => if o.prio ≤ pp then 8 else o.binds
    | none => if op = storeCode false ∨ op = storeCode true then (if 2 ≤ pp then 8 else 0) else 8
  | _ => 8

/-- The modifiers a variable can have when it is printed completely: none, or `add` with `div` or `mod`. -/
def ModOk (type : Nat) (add div : Option Nat) : Prop :=
  (type = 0 ∧ add = none ∧ div = none) ∨ ((type = 1 ∨ type = 2) ∧ add.isSome ∧ div.isSome)

/-- Expressions as the decoder and the constructors of the node classes make them: names are names (the name `call` is none of a variable
with a parameter), and a `GenericVar` has both modifiers if its type is not 0 and none if it is. -/
inductive Made : DNode → Prop
  | value (v : Int) : Made (.value v)
  | var (n : String) (h : IsName n.toList) : Made (.var n)
  | varP (n : String) (p : DNode) (h : IsName n.toList) (hc : n ≠ "call") (hp : Made p) : Made (.varP n p)
  | gvar (v s m t : Nat) (a d : Option Nat) (h : (t = 0 ∧ a = none ∧ d = none) ∨ (t ≠ 0 ∧ a.isSome ∧ d.isSome)) : Made (.gvar v s m t a d)
  | gvarP (v s m t : Nat) (a d : Option Nat) (p : DNode) (h : (t = 0 ∧ a = none ∧ d = none) ∨ (t ≠ 0 ∧ a.isSome ∧ d.isSome))
      (hp : Made p) : Made (.gvarP v s m t a d p)
  | temp (r : DNode) (h : Made r) : Made (.temp r)
  | perm (r : DNode) (h : Made r) : Made (.perm r)
  | call (n : Nat) : Made (.call n)
  | expr (op : Int) (a b : DNode) (ha : Made a) (hb : Made b) : Made (.expr op a b)

/-- Expressions whose text the grammar reads as they are: names are names, no parameters of named variables, no unsigned division, no bit
tests, no modifier type but 1 and 2, and wherever the printer leaves out brackets the precedences of the grammar agree: the left operand
binds at least as tightly as the operator and the right one more tightly. -/
inductive Faithful : DNode → Prop
  | value (v : Int) : Faithful (.value v)
  | var (n : String) (h : IsName n.toList) : Faithful (.var n)
  | gvar (v s m t : Nat) (a d : Option Nat) (h : ModOk t a d) : Faithful (.gvar v s m t a d)
  | gvarP (v s m t : Nat) (a d : Option Nat) (p : DNode) (h : ModOk t a d) (hp : Faithful p) : Faithful (.gvarP v s m t a d p)
  | temp (r : DNode) (h : Faithful r) : Faithful (.temp r)
  | perm (r : DNode) (h : Faithful r) : Faithful (.perm r)
  | call (n : Nat) (h : n < 256) : Faithful (.call n)
  | bin (o : Bin) (a b : DNode) (ha : Faithful a) (hb : Faithful b) (hl : o.binds ≤ level a (o.prio - 1))
      (hr : o.binds < level b (if o.brk then o.prio else o.prio - 1)) : Faithful (.expr o.code a b)
  | fn (f : Fn) (a b : DNode) (ha : Faithful a) (hb : Faithful b) : Faithful (.expr f.code a b)
  | store (p : Bool) (a : DNode) (r : Nat) (ha : Faithful a) : Faithful (.expr (storeCode p) a (.value (.ofNat r)))

/-! ### The tree of a text -/

/-- The comparison a printed comparison operator stands for. -/
def cmpOf (op : Int) : Option Cmp :=
  [((-1 : Int), Cmp.LT), (-2, .GT), (-3, .LE), (-4, .GE), (-5, .EQ), (-6, .NEQ)].lookup op

/-- The register of an assignment is not made signed. -/
def register : DNode → Node → Node
  | .value r, _ => .value r
  | _, x => x

/-- The expression tree the parser should build: values as signed numbers, comparisons as their sequences of operations. -/
def source : DNode → Node
  | .value v => .value (utoi32 v)
  | .var n => .var n
  | .varP n _ => .var n
  | .gvar v s m t a d => if t = 0 then .gvar v s m else .gvarDiv v s m t (a.getD 0) (d.getD 0)
  | .gvarP v s m t a d p => if t = 0 then .gvarP v s m (source p) else .gvarDivP v s m t (a.getD 0) (d.getD 0) (source p)
  | .temp r => .temp (source r)
  | .perm r => .perm (source r)
  | .call n => .call n
  | .expr op a b =>
    match cmpOf op with
    | some c => lowerCmp c (source a) (source b)
    | none => if op = 0x0e ∨ op = 0x10 then .expr op (source a) (register b (source b))
      else .expr op (source a) (source b)

end Grf.Syntax
