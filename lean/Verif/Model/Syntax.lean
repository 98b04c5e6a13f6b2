import Verif.Model.Decode
import Verif.Model.Strings
/-!
# Text of expressions: `format`, the lexer and the parser (`grf/parser.py:58-106`, `109-467`, `470-786`)

Texts are lists of characters.
-/
namespace Grf.Syntax

/-! ## Tokens -/

/-- The binary operators of the grammar (`grf/parser.py:585-621`). -/
inductive Bin where
  | add | sub | mul | div | mod | and | or | xor | shru | shr | shl | lt | gt | le | ge | eq | neq
deriving DecidableEq, Repr

/-- Tokens (`grf/parser.py:470-477`); numbers carry their value, operators are collected in `op`. -/
inductive Tok where
  | name (s : String)
  | num (n : Nat)
  | newline
  | op (o : Bin)
  | assign | comma | lparen | rparen | lbracket | rbracket
deriving DecidableEq, Repr

/-! ## Lexer -/

/-- `[0-9]` For `grf/parser.py:507-520`. -/
def isDigit (c : Char) : Bool := decide (48 ≤ c.toNat) && decide (c.toNat ≤ 57)

/-- Value of a hexadecimal digit (`[0-9a-fA-F]`). For `grf/parser.py:507-520`. -/
def hexDig (c : Char) : Option Nat :=
  if 48 ≤ c.toNat ∧ c.toNat ≤ 57 then some (c.toNat - 48)
  else if 97 ≤ c.toNat ∧ c.toNat ≤ 102 then some (c.toNat - 87)
  else if 65 ≤ c.toNat ∧ c.toNat ≤ 70 then some (c.toNat - 55)
  else none

/-- `[a-zA-Z_]` For `grf/parser.py:524`. -/
def isNameStart (c : Char) : Bool :=
  (decide (97 ≤ c.toNat) && decide (c.toNat ≤ 122)) || (decide (65 ≤ c.toNat) && decide (c.toNat ≤ 90)) || c.toNat == 95

/-- `[a-zA-Z0-9_]` For `grf/parser.py:524`. -/
def isNameChar (c : Char) : Bool := isNameStart c || isDigit c

/-- The value of digits in a base, given their values. For `grf/parser.py:507-520`. -/
def number (base : Nat) (dig : Char → Nat) (cs : List Char) : Nat := cs.foldl (fun a c => a * base + dig c) 0

/-- `t_NUMBER` (`grf/parser.py:507-520`): `0x[0-9a-fA-F]+|0b[01]+|\d+`, the alternatives in this order. (`\d` also matches decimal
digits outside ASCII; they are not modelled.) -/
def lexNumber (cs : List Char) : Nat × List Char :=
  if cs.take 2 = ['0', 'x'] ∧ (cs[2]?.bind hexDig).isSome then
    let r := cs.drop 2
    (number 16 (fun c => (hexDig c).getD 0) (r.takeWhile fun c => (hexDig c).isSome), r.dropWhile fun c => (hexDig c).isSome)
  else if cs.take 2 = ['0', 'b'] ∧ (cs[2]? = some '0' ∨ cs[2]? = some '1') then
    let r := cs.drop 2
    (number 2 (fun c => c.toNat - 48) (r.takeWhile fun c => c == '0' || c == '1'), r.dropWhile fun c => c == '0' || c == '1')
  else (number 10 (fun c => c.toNat - 48) (cs.takeWhile isDigit), cs.dropWhile isDigit)

/-- Operators and punctuation (`grf/parser.py:481-504`). `ply` tries longer expressions first. `none` is an illegal character. -/
def lexSymbol : List Char → Option (Tok × List Char)
  | '+' :: '>' :: '>' :: r => some (.op .shru, r)
  | '>' :: '>' :: r => some (.op .shr, r)
  | '<' :: '<' :: r => some (.op .shl, r)
  | '<' :: '=' :: r => some (.op .le, r)
  | '>' :: '=' :: r => some (.op .ge, r)
  | '=' :: '=' :: r => some (.op .eq, r)
  | '!' :: '=' :: r => some (.op .neq, r)
  | '+' :: r => some (.op .add, r)
  | '-' :: r => some (.op .sub, r)
  | '*' :: r => some (.op .mul, r)
  | '/' :: r => some (.op .div, r)
  | '%' :: r => some (.op .mod, r)
  | '&' :: r => some (.op .and, r)
  | '|' :: r => some (.op .or, r)
  | '^' :: r => some (.op .xor, r)
  | '<' :: r => some (.op .lt, r)
  | '>' :: r => some (.op .gt, r)
  | '=' :: r => some (.assign, r)
  | ',' :: r => some (.comma, r)
  | '(' :: r => some (.lparen, r)
  | ')' :: r => some (.rparen, r)
  | '[' :: r => some (.lbracket, r)
  | ']' :: r => some (.rbracket, r)
  | _ => none

/-- One token, or nothing for a skipped character: blanks and tabs (`t_ignore`, `grf/parser.py:524`), a number, newlines (`527-530`), a
name (`504`), a symbol; an illegal character is reported on the console and skipped (`t_error`, `533-535`). -/
def lexOne : List Char → Option Tok × List Char
  | [] => (none, [])
  | c :: cs =>
    if c = ' ' ∨ c = '\t' then (none, cs)
    else if isDigit c then let (n, r) := lexNumber (c :: cs); (some (.num n), r)
    else if c = '\n' then (some .newline, cs.dropWhile (· == '\n'))
    else if isNameStart c then
      (some (.name (String.ofList (c :: cs.takeWhile isNameChar))), cs.dropWhile isNameChar)
    else match lexSymbol (c :: cs) with
      | some (t, r) => (some t, r)
      | none => (none, cs)

/-- The lexer with a bound on the number of steps; every step consumes a character. For `grf/parser.py:775`. -/
def lexN : Nat → List Char → List Tok
  | 0, _ => []
  | _ + 1, [] => []
  | n + 1, c :: cs =>
    match lexOne (c :: cs) with
    | (some t, r) => t :: lexN n r
    | (none, r) => lexN n r

/-- The token stream of a text (`ply.lex.lex()`, `grf/parser.py:775`). -/
def lex (cs : List Char) : List Tok := lexN cs.length cs

/-! ## Parser

`ply` builds an LALR(1) automaton whose conflicts are resolved by the table `precedence` (`grf/parser.py:540-550`). It is modelled as a
shift-reduce machine: `Frame`s are the unfinished parts of productions on its stack. Syntax errors are `none`; the error recovery of
`ply` (which reports the error on the console and goes on with the rest of the text) is not modelled. Exceptions raised by the actions of
productions (assertions, `ValueError`, `NotImplementedError`) are `none` as well, whether or not they come before a syntax error. -/

/-- `precedence` (`grf/parser.py:540-550`), a larger number binds more tightly; all these levels are left associative. -/
def Bin.prec : Bin → Nat
  | .lt | .gt | .le | .ge | .eq | .neq => 1
  | .shru | .shr | .shl => 2
  | .or => 3
  | .xor => 4
  | .and => 5
  | .add | .sub => 6
  | .mul | .div | .mod => 7

/-- `p_expression_binop` (`grf/parser.py:584-634`). -/
def Bin.node : Bin → Node → Node → Node
  | .add, a, b => .expr 0x00 a b
  | .sub, a, b => .expr 0x01 a b
  | .mul, a, b => .expr 0x0a a b
  | .div, a, b => .expr 0x06 a b
  | .mod, a, b => .expr 0x07 a b
  | .and, a, b => .expr 0x0b a b
  | .or, a, b => .expr 0x0c a b
  | .xor, a, b => .expr 0x0d a b
  | .shr, a, b => .expr 0x16 a b
  | .shru, a, b => .expr 0x15 a b
  | .shl, a, b => .expr 0x14 a b
  | .lt, a, b => lowerCmp .LT a b
  | .gt, a, b => lowerCmp .GT a b
  | .le, a, b => lowerCmp .LE a b
  | .ge, a, b => lowerCmp .GE a b
  | .eq, a, b => lowerCmp .EQ a b
  | .neq, a, b => lowerCmp .NEQ a b

/-- Unfinished productions. For `grf/parser.py:644-651`. -/
inductive Frame where
  /-- `expression OP .` -/
  | bin (l : Node) (o : Bin)
  /-- `LPAREN .` -/
  | paren
  /-- `NAME LBRACKET .` -/
  | idx (n : String)
  /-- `NAME LBRACKET expression RBRACKET ASSIGN .` with a constant register -/
  | store (op : Int) (reg : Int)
  /-- `NAME ASSIGN .` -/
  | asg (n : String)
  /-- `NAME LPAREN expression COMMA NAME ASSIGN expression COMMA ...`: finished arguments with their keys, and the key of the current one -/
  | args (f : String) (done : List (Option String × Node)) (key : Option String)
deriving DecidableEq, Repr

/-- Reductions before an operator of precedence `p` is shifted: operators which bind at least as tightly are finished. Assignments
have the lowest precedence and are not finished. For `grf/parser.py:553-571`. -/
def reduceFor (p : Nat) (e : Node) : List Frame → Node × List Frame
  | .bin l o :: s => if p ≤ o.prec then reduceFor p (o.node l e) s else (e, .bin l o :: s)
  | s => (e, s)

/-- Reductions before a closing token: operators and assignments are finished (`p_expression_assign_storage`,
`grf/parser.py:644-651`, `p_expression_assign_variable`, `654-656`). -/
def reduceAll (e : Node) : List Frame → Node × List Frame
  | .bin l o :: s => reduceAll (o.node l e) s
  | .store op r :: s => reduceAll (.expr op e (.value r)) s
  | .asg n :: s => reduceAll (.assign n e) s
  | s => (e, s)

/-- `const_eval` (`grf/parser.py:146-147`, `226-228`, `263-264`). -/
def constEval : Node → Option Int
  | .value v => some v
  | _ => none

/-- `p_expression_call_2` (`grf/parser.py:670-682`). -/
def callOp (f : String) : Option Int :=
  [("min", (0x02 : Int)), ("max", 0x03), ("minu", 0x04), ("maxu", 0x05), ("rot", 0x11), ("cmp", 0x12), ("cmpu", 0x13)].lookup f

/-- `GenericVar(...)` with type 0 (`grf/parser.py:311-321`). -/
def genericVar (v s m : Int) : Option Node → Node
  | none => .gvar v s m
  | some p => .gvarP v s m p

/-- The productions for calls with arguments: `p_expression_call_2` (`grf/parser.py:670-682`) and the four forms of `var(...)`
(`685-744`). A second argument `NAME ASSIGN expression` of a call with two arguments is an assignment. -/
def finishCall (f : String) : List (Option String × Node) → Option Node
  | [(none, a), (none, b)] => (callOp f).map fun op => .expr op a b
  | [(none, a), (some k, b)] => (callOp f).map fun op => .expr op a (.assign k b)
  | [(none, v), (some k1, s), (some k2, m)] =>
    if f = "var" ∧ k1 = "shift" ∧ k2 = "and" then do some (.gvar (← constEval v) (← constEval s) (← constEval m)) else none
  | [(none, v), (some k0, p), (some k1, s), (some k2, m)] =>
    if f = "var" ∧ k0 = "param" ∧ k1 = "shift" ∧ k2 = "and" then do some (.gvarP (← constEval v) (← constEval s) (← constEval m) p)
    else none
  | [(none, v), (some k1, s), (some k2, m), (some k3, a), (some k4, d)] =>
    if f = "var" ∧ k1 = "shift" ∧ k2 = "and" ∧ k3 = "add" ∧ (k4 = "div" ∨ k4 = "mod") then do
      some (.gvarDiv (← constEval v) (← constEval s) (← constEval m) (if k4 = "div" then 1 else 2) (← constEval a) (← constEval d))
    else none
  | [(none, v), (some k0, p), (some k1, s), (some k2, m), (some k3, a), (some k4, d)] =>
    if f = "var" ∧ k0 = "param" ∧ k1 = "shift" ∧ k2 = "and" ∧ k3 = "add" ∧ (k4 = "div" ∨ k4 = "mod") then do
      some (.gvarDivP (← constEval v) (← constEval s) (← constEval m) (if k4 = "div" then 1 else 2) (← constEval a) (← constEval d) p)
    else none
  | _ => none

/-- `TEMP` or `PERM` (`grf/parser.py:637-651`). -/
def storage (n : String) (r : Node) : Option Node :=
  if n = "TEMP" then some (.temp r) else if n = "PERM" then some (.perm r) else none

/-- The operator of an assignment to a storage (`grf/parser.py:646-651`). -/
def storeOp (n : String) : Option Int := if n = "TEMP" then some 0x0e else if n = "PERM" then some 0x10 else none

/-- What the machine does next. For `grf/parser.py:574-581`. -/
inductive St where
  /-- an operand must follow -/
  | need (s : List Frame)
  /-- an operand is complete -/
  | got (e : Node) (s : List Frame)
  /-- between lines -/
  | start
deriving DecidableEq, Repr

/-- Start of an operand: the tokens consumed and the new state (`grf/parser.py:574-581`, `637-667`, `747-754`). -/
def operand (s : List Frame) : List Tok → Option (St × List Tok)
  | .num n :: ts => some (.got (.value n) s, ts)
  | .op .sub :: .num n :: ts => some (.got (.value (-n)) s, ts)
  | .lparen :: ts => some (.need (.paren :: s), ts)
  | .name f :: .lparen :: .rparen :: ts => some (.got (.callName f) s, ts)
  | .name f :: .lparen :: .num n :: .rparen :: ts => if f = "call" ∧ n < 256 then some (.got (.call n) s, ts) else none
  | .name f :: .lparen :: ts => some (.need (.args f [] none :: s), ts)
  | .name f :: .lbracket :: ts => some (.need (.idx f :: s), ts)
  | .name f :: .assign :: ts => some (.need (.asg f :: s), ts)
  | .name f :: ts => some (.got (.var f) s, ts)
  | _ => none

/-- The next argument of a call: with a key if `NAME ASSIGN` follows. For `grf/parser.py:553-571`. -/
def nextArg (f : String) (done : List (Option String × Node)) (s : List Frame) : List Tok → St × List Tok
  | .name k :: .assign :: ts => (.need (.args f done (some k) :: s), ts)
  | ts => (.need (.args f done none :: s), ts)

/-- After `NAME LBRACKET expression RBRACKET`. For `grf/parser.py:553-571`. -/
def closeIdx (n : String) (r : Node) (s : List Frame) : List Tok → Option (St × List Tok)
  | .assign :: ts => do some (.need (.store (← storeOp n) (← constEval r) :: s), ts)
  | ts => (storage n r).map fun e => (.got e s, ts)

/-- After an operand. For `grf/parser.py:553-571`. -/
def operator (e : Node) (s : List Frame) : List Tok → Option (St × List Tok)
  | .op o :: ts => let (e, s) := reduceFor o.prec e s; some (.need (.bin e o :: s), ts)
  | .rparen :: ts =>
    match reduceAll e s with
    | (e, .paren :: s) => some (.got e s, ts)
    | (e, .args f done key :: s) => (finishCall f (done ++ [(key, e)])).map fun e => (.got e s, ts)
    | _ => none
  | .rbracket :: ts =>
    match reduceAll e s with
    | (e, .idx n :: s) => closeIdx n e s ts
    | _ => none
  | .comma :: ts =>
    match reduceAll e s with
    | (e, .args f done key :: s) => some (nextArg f (done ++ [(key, e)]) s ts)
    | _ => none
  | _ => none

/-- The machine with a bound on its steps (`lines` productions, `grf/parser.py:553-571`); `acc` are the finished lines. -/
def run : Nat → List Node → St → List Tok → Option (List Node)
  | 0, _, _, _ => none
  | _ + 1, acc, .start, [] => some acc
  | n + 1, acc, .start, .newline :: ts => run n acc .start ts
  | n + 1, acc, .start, ts => run n acc (.need []) ts
  | n + 1, acc, .need s, ts => (operand s ts).bind fun r => run n acc r.1 r.2
  | n + 1, acc, .got e s, [] =>
    match reduceAll e s with
    | (e, []) => some (acc ++ [e])
    | _ => none
  | n + 1, acc, .got e s, .newline :: ts =>
    match reduceAll e s with
    | (e, []) => run n (acc ++ [e]) .start ts
    | _ => none
  | n + 1, acc, .got e s, ts => (operator e s ts).bind fun r => run n acc r.1 r.2

/-- `parse_code(feature, code)` (`grf/parser.py:774-786`). Every step but the first of a line consumes a token. -/
def parse (cs : List Char) : Option (List Node) := run (2 * (lex cs).length + 2) [] .start (lex cs)

/-! ## `format` -/

/-- How an operator is printed. For `grf/parser.py:58-91`. -/
inductive Shape where
  /-- `{a} op {b}` -/
  | infix (o : List Char)
  /-- `f({a}, {b})` -/
  | fn (f : List Char)
  /-- `S[0x{b:02x}] = {a}` -/
  | store (n : List Char)
deriving DecidableEq, Repr

/-- `OPERATORS` (`grf/parser.py:58-91`): shape, priority, `bracket`. `OP_INIT` is never printed (`166`). -/
def opInfo (op : Int) : Option (Shape × Nat × Bool) :=
  [((0x00 : Int), (Shape.infix ['+'], 5, false)), (0x01, (.infix ['-'], 5, true)), (0x02, (.fn "min".toList, 7, false)),
   (0x03, (.fn "max".toList, 7, false)), (0x04, (.fn "minu".toList, 7, false)), (0x05, (.fn "maxu".toList, 7, false)),
   (0x06, (.infix ['/'], 6, false)), (0x07, (.infix ['%'], 6, false)), (0x08, (.infix ['u', '/'], 6, false)),
   (0x09, (.infix ['u', '%'], 6, false)), (0x0a, (.infix ['*'], 6, false)), (0x0b, (.infix ['&'], 4, true)),
   (0x0c, (.infix ['|'], 4, true)), (0x0d, (.infix ['^'], 4, true)), (0x0e, (.store "TEMP".toList, 2, true)),
   (0x10, (.store "PERM".toList, 2, true)), (0x11, (.fn "rot".toList, 7, false)), (0x12, (.fn "cmp".toList, 7, false)),
   (0x13, (.fn "cmpu".toList, 7, false)), (0x14, (.infix ['<', '<'], 4, true)), (0x15, (.infix ['+', '>', '>'], 4, true)),
   (0x16, (.infix ['>', '>'], 4, true)), (-1, (.infix ['<'], 3, false)), (-2, (.infix ['>'], 3, false)),
   (-3, (.infix ['<', '='], 3, false)), (-4, (.infix ['>', '='], 3, false)), (-5, (.infix ['=', '='], 3, false)),
   (-6, (.infix ['!', '='], 3, false)), (-7, (.fn "hasbit".toList, 7, false)), (-8, (.fn "!hasbit".toList, 7, false))].lookup op

/-- Hexadecimal digits of a number, as `'{:x}'`. For `grf/parser.py:157-176`. -/
def hex (n : Nat) : List Char := if n < 16 then [hexDigit n] else hex (n / 16) ++ [hexDigit (n % 16)]
termination_by n
decreasing_by omega

/-- `'{:02x}'` of a number which is not negative. For `grf/parser.py:157-176`. -/
def hex2 (n : Nat) : List Char := if n < 16 then ['0', hexDigit n] else hex n

/-- `str(n)` For `grf/parser.py:157-176`. -/
def decInt (n : Int) : List Char := if n < 0 then '-' :: Strings.dec n.natAbs else Strings.dec n.toNat

/-- The end of the text of a `GenericVar` (`grf/parser.py:323-330`). -/
def modText (type : Nat) (add div : Option Nat) : Option (List Char) :=
  match type, add, div with
  | 1, some a, some d => some (", add=".toList ++ Strings.dec a ++ ", div=".toList ++ Strings.dec d)
  | 2, some a, some d => some (", add=".toList ++ Strings.dec a ++ ", mod=".toList ++ Strings.dec d)
  | 1, _, _ => none
  | 2, _, _ => none
  | _, _, _ => some []

/-- `(res)` if the priority asks for it (`grf/parser.py:174-175`). -/
def bracketed (b : Bool) (s : List Char) : List Char := if b then '(' :: s ++ [')'] else s

/-- `node.format(parent_priority)` (`grf/parser.py:157-176`, `254-255`, `275-281`, `323-330`, `372-375`, `403-404`, `433-434`). `none` is an
exception: an unknown operator, or a storage register which is not a `Value`. Registers of storages are taken to be not negative (the
decoder makes no others). The constructor of `GenericVar` (`311-321`) needs both modifiers for the types 1 and 2. -/
def format : DNode → Nat → Option (List Char)
  | .value v, _ => some (decInt (utoi32 v))
  | .var n, _ => some n.toList
  | .varP n p, _ => (format p 0).map fun s => n.toList ++ '(' :: s ++ [')']
  | .gvar v s m t a d, _ =>
    (modText t a d).map fun x => "var(0x".toList ++ hex2 v ++ ", shift=".toList ++ Strings.dec s ++ ", and=0x".toList ++ hex m ++ x ++ [')']
  | .gvarP v s m t a d p, _ => do
    let x ← modText t a d
    let q ← format p 0
    some ("var(0x".toList ++ hex2 v ++ ", param=(".toList ++ q ++ "), shift=".toList ++ Strings.dec s ++ ", and=0x".toList ++ hex m ++ x ++ [')'])
  | .temp r, _ => (format r 0).map fun s => "TEMP[".toList ++ s ++ [']']
  | .perm r, _ => (format r 0).map fun s => "PERM[".toList ++ s ++ [']']
  | .call n, _ => some ("call(".toList ++ Strings.dec n ++ [')'])
  | .expr op a b, pp => do
    let (sh, prio, br) ← opInfo op
    let x ← format a (prio - 1)
    let res ← match sh with
      | .store n =>
        match b with
        | .value (.ofNat r) => some (n ++ "[0x".toList ++ hex2 r ++ "] = ".toList ++ x)
        | _ => none
      | .infix o => (format b (if br then prio else prio - 1)).map fun y => x ++ ' ' :: o ++ ' ' :: y
      | .fn f => (format b (prio - 1)).map fun y => f ++ '(' :: x ++ [',', ' '] ++ y ++ [')']
    some (bracketed (prio ≤ pp) res)

/-- `'\n'.join(x.format() for x in code)` (`grf/decompile.py:622`). -/
def formatLines : List DNode → Option (List Char)
  | [] => some []
  | [e] => format e 0
  | e :: l => do
    let x ← format e 0
    let y ← formatLines l
    some (x ++ '\n' :: y)

end Grf.Syntax
