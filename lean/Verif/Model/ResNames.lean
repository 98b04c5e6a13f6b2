import Verif.Model.Strings
/-!
# Model of the names of extracted resources (`grf/decompile.py`)

Names are lists of characters.
-/
namespace Grf.ResNames
open Strings (dec)

/-- For `grf/decompile.py:119-122`. -/
abbrev Name := List Char

/-- The name of try `i` (`grf/decompile.py:119-122`). -/
def candidate (name ext : Name) (i : Nat) : Name :=
  if i = 0 then name ++ '.' :: ext else name ++ '_' :: dec (i + 1) ++ '.' :: ext

/-- The loop of `find_unique_resource_name` (`grf/decompile.py:118-126`) from try `i` on, with the tries left. `none` is the
`RuntimeError` (`grf/decompile.py:128`). -/
def findFrom (index : List Name) (name ext : Name) : Nat → Nat → Option Name
  | _, 0 => none
  | i, n + 1 => if candidate name ext i ∈ index then findFrom index name ext (i + 1) n else some (candidate name ext i)

/-- `find_unique_resource_name` (`grf/decompile.py:117-128`): the name and the index with it. -/
def findUnique (index : List Name) (name ext : Name) (tries : Nat) : Option (Name × List Name) :=
  (findFrom index name ext 0 tries).map fun u => (u, u :: index)

/-- `\w` on ASCII. For `grf/decompile.py:136-139`. -/
def isWord (c : Char) : Bool := ('a' ≤ c && c ≤ 'z') || ('A' ≤ c && c ≤ 'Z') || ('0' ≤ c && c ≤ '9') || c == '_'

/-- `\s` on ASCII. For `grf/decompile.py:139`. -/
def isSpace (c : Char) : Bool := (9 ≤ c.toNat && c.toNat ≤ 13) || (28 ≤ c.toNat && c.toNat ≤ 32)

/-- `name.lower()` on ASCII. For `grf/decompile.py:136-139`. -/
def lower (c : Char) : Char := if 'A' ≤ c && c ≤ 'Z' then Char.ofNat (c.toNat + 32) else c

/-- `re.sub(r'[-\s]+', '-', name)` (`grf/decompile.py:139`): every run of dashes and spaces becomes a dash; `inRun` tells whether the
character before belongs to a run. -/
def dashes : Bool → Name → Name
  | _, [] => []
  | inRun, c :: cs =>
    if c == '-' || isSpace c then (if inRun then dashes true cs else '-' :: dashes true cs)
    else c :: dashes false cs

/-- `strip('-_')` (`grf/decompile.py:139`). -/
def strip (n : Name) : Name :=
  ((n.dropWhile (fun c => c == '-' || c == '_')).reverse.dropWhile (fun c => c == '-' || c == '_')).reverse

/-- The safe file name (`grf/decompile.py:136-139`). `norm` is `unicodedata.normalize('NFKD', ...).encode('ascii', 'ignore')`: any function
that gives ASCII text. -/
def clean (norm : Name → Name) (name : Name) : Name :=
  strip (dashes false (((norm name).map lower).filter (fun c => isWord c || isSpace c || c == '-')))

/-- Cutting the extension (`grf/decompile.py:133-134`). -/
def cutExt (name ext : Name) : Name :=
  if ('.' :: ext) <:+ name then name.take (name.length - ext.length - 1) else name

/-- `gen_resource_name` (`grf/decompile.py:131-141`). -/
def genName (norm : Name → Name) (index : List Name) (name ext : Name) (tries : Nat) : Option (Name × List Name) :=
  findUnique index (clean norm (cutExt name ext)) ext tries

/-- Writing a file: the directory maps names to contents. For `grf/decompile.py:1455-1465`. -/
def writeFile (dir : Name → Option Bytes) (n : Name) (d : Bytes) : Name → Option Bytes := fun m => if m = n then some d else dir m

/-- `save_sound_resources` (`grf/decompile.py:1455-1465`): sounds are pairs of a name and data. The result has the files and the file name
written into the code of each sound. -/
def saveSounds (norm : Name → Name) : List Name → (Name → Option Bytes) → List (Name × Bytes) → Option ((Name → Option Bytes) × List Name)
  | _, dir, [] => some (dir, [])
  | index, dir, (n, d) :: rest => do
    let (u, index) ← genName norm index n ['w', 'a', 'v'] 100
    let (dir, names) ← saveSounds norm index (writeFile dir u d) rest
    pure (dir, u :: names)

end Grf.ResNames
