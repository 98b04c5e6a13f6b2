import Verif.Model.Refs
import Verif.Model.Bytes
/-!
# Model of `StringManager` and `StringRef` (`grf/strings.py:260-443`)

nml's language tables are outside the repository. The default language is a dictionary from names to texts; its
`handle_text(name, None, value, None)` is assumed to raise when the name is taken and to store the text otherwise.
Translations (`get_pairs`, `grf/strings.py:403-410`) are a parameter: a function from handles to lists of (language, bytes).
Python's `hash` is a parameter too.
-/
namespace Grf.Strings

/-- Decimal digits of a number, as in the f-string of `grf/strings.py:357`. -/
def dec (n : Nat) : List Char :=
  if n < 10 then [Char.ofNat (48 + n)] else dec (n / 10) ++ [Char.ofNat (48 + n % 10)]
termination_by n
decreasing_by omega

/-- `f'GRFPY_{n}'` (`grf/strings.py:357`). -/
def autoName (n : Nat) : String := String.ofList ("GRFPY_".toList ++ dec n)

/-- The attributes of `StringManager` that `add` uses (`grf/strings.py:261-269`); `prefix` is always empty
(`grf/strings.py:262` ignores its argument). -/
structure Mgr where
  next : Nat := 1
  named : List (String × String) := []
  strings : List (String × String) := []
deriving DecidableEq, Repr

/-- `handle_text(name, None, value, None)` of nml's default language (assumption stated above). For `grf/strings.py:350-364`. -/
def handleText (m : Mgr) (name value : String) : Option Mgr :=
  if (m.strings.lookup name).isSome then none
  else some { m with strings := dictSet m.strings name value }

/-- `add(value, name)` for text values (`grf/strings.py:350-364`): the manager afterwards (also after an exception) and the
name in the handle returned, `none` for an exception. -/
def add (m : Mgr) (value : String) : Option String → Mgr × Option String
  | none =>
    match m.named.lookup value with
    | some n => (m, some n)
    | none =>
      let n := autoName m.next
      let m' := { m with next := m.next + 1, named := dictSet m.named value n }
      match handleText m' n value with
      | some m'' => (m'', some n)
      | none => (m', none)
  | some n =>
    match handleText m n value with
    | some m' => (m', some n)
    | none => (m, none)

/-- `import_lang_dir` (`grf/strings.py:289-295`): the default language is replaced by the one read from files. -/
def importLang (m : Mgr) (strings : List (String × String)) : Mgr := { m with strings := strings }

/-- `__getitem__` (`grf/strings.py:344-348`): the name in the handle; `none` is `KeyError`. -/
def getItem (m : Mgr) (n : String) : Option String := if (m.strings.lookup n).isSome then some n else none

/-- A `StringRef`: its hash and an identification of the expression it stands for (`grf/strings.py:370-374`). -/
structure Ref where
  hash : Int
  expr : Nat
deriving DecidableEq, Repr

/-- `_globals` or `_persistents`: hash to id and handle (`grf/strings.py:263-264`). -/
abbrev Table := List (Int × (Nat × Ref))

/-- `add_global` with `base` 0 (`grf/strings.py:271-278`), `add_persistent` with `base` 0xdc00 (`grf/strings.py:280-287`). -/
def register (base : Nat) (t : Table) (r : Ref) : Table × Nat :=
  match t.lookup r.hash with
  | some e => (t, e.1)
  | none => (dictSet t r.hash (t.length + base, r), t.length + base)

/-- A string definition: language, string id, text (`DefineStrings` with one string and a generic offset,
`grf/strings.py:416-427`). -/
structure Def where
  lang : Nat
  id : Nat
  text : Bytes
deriving DecidableEq, Repr

/-- `get_persistent_actions` with `base` 0, `get_actions` with `base` 0xd000 (`grf/strings.py:309-313`, `333-336`); the language
tables written before are not modelled. `none` is the `ValueError` of `DefineStrings` for ids over 0xffff
(`grf/actions.py:2022-2024`). -/
def emit (pairs : Ref → List (Nat × Bytes)) (base : Nat) : Table → Option (List Def)
  | [] => some []
  | (_, (i, r)) :: t => do
    let ds := (pairs r).map fun p => Def.mk p.1 (base + i) p.2
    let rest ← emit pairs base t
    if ds.isEmpty ∨ base + i ≤ 0xffff then some (ds ++ rest) else none

/-- Calls of `add_global` and `add_persistent` in any order. For `grf/strings.py:309-313`. -/
inductive Reg where
  | global (r : Ref)
  | persistent (r : Ref)

/-- Both tables after a history, and the ids returned. For `grf/strings.py:309-313`. -/
def runRegs : Table → Table → List Reg → (Table × Table) × List Nat
  | g, p, [] => ((g, p), [])
  | g, p, .global r :: rs =>
    let (g', i) := register 0 g r
    let (s, is) := runRegs g' p rs
    (s, i :: is)
  | g, p, .persistent r :: rs =>
    let (p', i) := register 0xdc00 p r
    let (s, is) := runRegs g p' rs
    (s, i :: is)

/-- What is written for the strings: persistent ones first, then global ones (`grf/grf.py:589`). -/
def written (pairs : Ref → List (Nat × Bytes)) (s : Table × Table) : Option (List Def) := do
  let a ← emit pairs 0 s.2
  let b ← emit pairs 0xd000 s.1
  some (a ++ b)

/-- Calls of `add` in any order. For `grf/grf.py:589`. -/
structure AddCall where
  value : String
  name : Option String
deriving DecidableEq, Repr

/-- The manager after a history of `add` calls and the answers. For `grf/grf.py:589`. -/
def runAdds : Mgr → List AddCall → Mgr × List (AddCall × Option String)
  | m, [] => (m, [])
  | m, c :: cs =>
    let (m', r) := add m c.value c.name
    let (m'', rs) := runAdds m' cs
    (m'', (c, r) :: rs)

end Grf.Strings
