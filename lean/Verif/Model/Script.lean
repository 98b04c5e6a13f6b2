import Verif.Model.Refs
import Verif.Model.Strings
/-!
# Model of the script made from actions (`BaseNewGRF.generate_python`, `grf/grf.py:272-317`): names and references

The generators are the actions the decompiler has read, each an object of its own, identified here by its place in the list. Only what
concerns references is modelled: which name a line is given (`ref_1_1 = Switch(...)`), and what is written for each reference. The other
arguments of the calls are those of the action (`Act`) as they are; the texts they are written as are not modelled here. References are
taken one by one as `get_refs` yields them; `set_refs` puts them back in the same places (`grf/actions.py:1736-1743`, `1853-1854`,
`1949-1952`). (Two equal ranges of a switch become one entry of the dictionary that is written, so references are assumed to be kept apart.)
-/
namespace Grf.Script

/-- `str(i)` of a Python integer. For `grf/grf.py:305`. -/
def pyInt (i : Int) : List Char := if i < 0 then '-' :: Strings.dec i.natAbs else Strings.dec i.natAbs

/-- `f'ref_{s.ref_id}_{count}'` (`grf/grf.py:305`). -/
def varName (rid : Int) (count : Nat) : List Char := "ref_".toList ++ pyInt rid ++ '_' :: Strings.dec count

/-- The replacement of a reference (`grf/grf.py:293-299`): a `Ref` that is no callback result by the action its number stands for at this
place. (`r.value` and `r.ref_id` are equal then.) -/
def substArg (refs : List (Int × Nat)) : RefArg → RefArg
  | .ref false v =>
    match refs.lookup v with
    | some p => .obj p
    | none => .ref false v
  | r => r

/-- Variables of the first loop (`grf/grf.py:288-289`); `newRefs` are the references of the actions seen so far, `vars` their
`ref_var`. -/
structure Gen where
  refs : List (Int × Nat) := []
  count : List (Int × Nat) := []
  newRefs : List (List RefArg) := []
  vars : List (Option (List Char)) := []

/-- One step of the first loop (`grf/grf.py:290-305`). -/
def genStep (g : Gen) (a : Act) : Gen :=
  let new := if a.referencing then a.refs.map (substArg g.refs) else a.refs
  match (if a.referenceable then a.refId else none) with
  | none => { g with newRefs := g.newRefs ++ [new], vars := g.vars ++ [none] }
  | some rid =>
    let c := (g.count.lookup rid).getD 0 + 1
    { refs := dictSet g.refs rid g.vars.length, count := dictSet g.count rid c, newRefs := g.newRefs ++ [new],
      vars := g.vars ++ [some (varName rid c)] }

/-- What is written for a reference. For `grf/actions.py:31-34`. -/
inductive Arg where
  /-- a name -/
  | var (n : List Char)
  /-- `CB(..)` or `Ref(..)` -/
  | ref (isCallback : Bool) (id : Int)
  /-- `Ref(None)` -/
  | refNone
  /-- anything else -/
  | other
deriving DecidableEq, Repr

/-- `_format_ref`, `py_ref`, `Ref.__str__` (`grf/actions.py:31-34`, `137-140`, `150-153`); the argument of `Ref(..)` for an action
without a name is its `ref_id`, which is `None` then. -/
def formatRef (vars : List (Option (List Char))) : RefArg → Arg
  | .obj p =>
    match vars[p]? with
    | some (some n) => .var n
    | _ => .refNone
  | .ref cb v => .ref cb v
  | .other => .other

/-- A line of the script: the name it assigns, the action its call makes (apart from the references) and what is written for the
references. For `grf/grf.py:307-314`. -/
structure Line where
  name : Option (List Char)
  act : Act
  args : List Arg

/-- The second loop (`grf/grf.py:307-314`). -/
def lines (vars : List (Option (List Char))) : List Act → List (List RefArg) → List (Option (List Char)) → List Line
  | a :: acts, r :: refs, v :: vs => ⟨v, a, r.map (formatRef vars)⟩ :: lines vars acts refs vs
  | _, _, _ => []

/-- `generate_python` (`grf/grf.py:272-317`). -/
def script (acts : List Act) : List Line :=
  let g := acts.foldl genStep {}
  lines g.vars acts g.newRefs g.vars

/-! ### Running a script

This is Python's, not the project's: a name must be one (letters, digits, underscores), using a name that was not assigned is an error
(`NameError`), assigning replaces, `Ref(None)` is an error (`None & 0x8000`, `grf/actions.py:28`). -/

/-- The characters of names. For `grf/grf.py:272-317`. -/
def nameLetter (c : Char) : Bool := c.isAlphanum || c == '_'

/-- The names assigned so far, and the objects made so far. For `grf/grf.py:272-317`. -/
structure Env where
  names : List (List Char × Nat) := []
  made : List Act := []

/-- Value of what is written for a reference. For `grf/grf.py:272-317`. -/
def evalArg (names : List (List Char × Nat)) : Arg → Option RefArg
  | .var n => (names.lookup n).map .obj
  | .ref cb v => some (.ref cb v)
  | .refNone => none
  | .other => some .other

/-- Running a line. For `grf/grf.py:272-317`. -/
def runLine (e : Env) (l : Line) : Option Env := do
  let refs ← l.args.mapM (evalArg e.names)
  let made := e.made ++ [{ l.act with refs := refs }]
  match l.name with
  | none => some { e with made := made }
  | some n => if n.all nameLetter then some { names := dictSet e.names n e.made.length, made := made } else none

/-- Running a script: the objects it adds, in their order. For `grf/grf.py:272-317`. -/
def run (s : List Line) : Option (List Act) := (s.foldlM runLine {}).map (·.made)

end Grf.Script
