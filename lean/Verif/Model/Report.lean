import Verif.Model.Extract
/-!
# Model of what is reported: the numbers printed after a build (`grf/grf.py:199-212,648-723`) and the statistics of the decompiler
(`grf/decompile.py:83-102`)

Times and the texts around the numbers are not modelled.
-/
namespace Grf.Report
open Acts (CtxKind)

/-! ### A build -/

/-- How `get_sprite_data` got the data of a resource (`grf/grf.py:649-667`): from the cache, made and stored in the cache, or made because
it has no fingerprint (as all sounds). -/
inductive Got where
  | cached
  | made
  | uncacheable
deriving DecidableEq, Repr

/-- The counters of `WriteContext` (`grf/grf.py:161-167`). -/
structure Counts where
  sprites : Nat := 0
  cached : Nat := 0
  uncacheable : Nat := 0
  duplicate : Nat := 0
deriving DecidableEq, Repr

/-- The counters in `get_sprite_data` (`grf/grf.py:661-666`). -/
def countSprite (n : Counts) : Got → Counts
  | .cached => { n with cached := n.cached + 1, sprites := n.sprites + 1 }
  | .made => { n with sprites := n.sprites + 1 }
  | .uncacheable => { n with uncacheable := n.uncacheable + 1, sprites := n.sprites + 1 }

/-- `num_duplicate += len(sprites)` if the data are stored already (`grf/grf.py:688-694`). -/
def countDuplicate (hash : List Bytes → Int) (st : ResSt) (len : Nat) (n : Counts) : Option (List Bytes) → Counts
  | some data => if (st.hashes.lookup (hash data)).isSome then { n with duplicate := n.duplicate + len } else n
  | none => n

/-- The counters in one iteration of the loop writing the resources (`grf/grf.py:679-701`); `st` are its variables before. `got o r` tells
how the data of resource `r` of action `o` are got: each action is looked at once. -/
def countStep (hash : List Bytes → Int) (real : Nat → Option Bytes) (W : ResWorld) (got : Nat → Nat → Got) (st : ResSt) (n : Counts)
    (s : Step) : Counts :=
  if s.sid ∈ st.written then n
  else countDuplicate hash st (W s.sid).resources.length ((W s.sid).resources.foldl (fun n r => countSprite n (got s.sid r)) n)
    ((W s.sid).resources.mapM real)

/-- The loop with its counters (`grf/grf.py:672-707`). -/
def countLoop (hash : List Bytes → Int) (real : Nat → Option Bytes) (W : ResWorld) (ids : Nat → Option Nat) (got : Nat → Nat → Got)
    (sn : ResSt × Counts) (steps : List Step) : Option (ResSt × Counts) :=
  steps.foldlM (fun sn s => (writeStep hash real W ids sn.1 s).map fun st' => (st', countStep hash real W got sn.1 sn.2 s)) sn

/-- What is reported after writing (`grf/grf.py:616-723`): the counters, and the size of the file, taken before the seeks (line 710). -/
def report (hash : List Bytes → Int) (real : Nat → Option Bytes) (W : ResWorld) (got : Nat → Nat → Got) (items : List Item) :
    Option (Counts × Nat) := do
  let e := enumerateSprites W items
  let f ← writePseudo (grfHeader ++ [0, 0, 0, 0] ++ [0]) [2, 0, 0, 0] 0xff
  let f ← items.foldlM (writeItem e.2) (f.1, fun _ => [])
  let sn ← countLoop hash real W e.2 got ({ file := f.1 ++ [0, 0, 0, 0] }, {}) e.1
  some (sn.2, (sn.1.file ++ [0, 0, 0, 0]).length)

/-! ### The decompiler -/

/-- The key of `action_count` and `action_size`: number of the action and kind of the context (`grf/decompile.py:84-85`). -/
abbrev Key := Nat × CtxKind

/-- `action_count` and `action_size` together. For `grf/decompile.py:84-91`. -/
abbrev Stats := List (Key × (Nat × Nat))

/-- `action_count[key] += 1`, `action_size[key] += size` (`grf/decompile.py:84-91`). -/
def bump (d : Stats) (k : Key) (size : Nat) : Stats :=
  let old := (d.lookup k).getD (0, 0)
  dictSet d k (old.1 + 1, old.2 + size)

/-- `count_action` (`grf/decompile.py:83-86`): the context matters only for numbers above 0xfd. -/
def countAction (c : Extract.Ctx) (d : Stats) (id size : Nat) : Stats := bump d (id, if 0xfd < id then c.kind else .default) size

/-- What `read_pseudo_sprite` counts (`grf/decompile.py:1068-1111`, container version 2): `l + size_bytes * 2 + 1` with `size_bytes` 4. Entries of
one byte are not counted. Entries of another type (`unknown`) are, by their first byte, which is not modelled: `write` makes none. -/
def countEntry (c : Extract.Ctx) (d : Stats) : PEntry → Stats
  | .pseudo (a :: bs) => countAction c d a.toNat ((a :: bs).length + 4 * 2 + 1)
  | .pseudo [] => d
  | .empty => d
  | .ref _ => countAction c d 0xfd (4 + 4 * 2 + 1)
  | .unknown => d

/-- The loop over the pseudo sprites (`grf/decompile.py:1493-1499`). -/
def countEntries : Extract.Ctx → Stats → List PEntry → Extract.Ctx × Stats
  | c, d, [] => (c, d)
  | c, d, e :: es => countEntries (Extract.step c e) (countEntry c d e) es

/-- `count_real_sprite(sprite_id, 8 + num)` (`grf/decompile.py:87-91,1233`). -/
def countReal (c : Extract.Ctx) (d : Stats) (r : Nat × Bytes) : Stats := bump d (0xff, (c.get r.1).1) (8 + r.2.length)

/-- The statistics of a file that was read (`grf/decompile.py:1493-1511,1562`). -/
def stats (p : Parsed) : Stats :=
  let (c, d) := countEntries {} [] p.entries
  p.reals.foldl (countReal c) d

end Grf.Report
