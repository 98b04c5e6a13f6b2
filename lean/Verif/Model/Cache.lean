import Verif.Model.Refs
/-!
# Model of the sprite cache (`grf/cache.py`)

Keys are digests; a key is 16 characters of text in the code, any type with decidable equality here. File contents are of any
type. The index file is missing, unreadable or holds a list of keys (its values are all `True`). The warnings printed are not
modelled.
-/
namespace Grf.Cache

variable {K D : Type} [DecidableEq K]

/-- `index.json`. For `grf/cache.py:12-17`. -/
inductive IndexFile (K : Type) where
  | missing
  | broken
  | keys (l : List K)

/-- The cache directory and the `SpriteCache` object (`grf/cache.py:12-17`). `index` is the key set of the dictionary
`_index`. -/
structure St (K D : Type) where
  files : K → Option D
  indexFile : IndexFile K
  index : List K := []
  oldKeys : List K := []
  newKeys : List K := []

/-- `s.add(k)` for a set, `d[k] = True` for a dictionary of which only the keys matter. For `grf/cache.py:68-77`. -/
def addKey (k : K) (l : List K) : List K := if k ∈ l then l else l ++ [k]

/-- `load(clean_build)` (`grf/cache.py:19-35`). -/
def load (clean : Bool) (s : St K D) : St K D :=
  let ix := match s.indexFile with
    | .keys l => l
    | .broken => []
    | .missing => []
  { s with index := if clean then [] else ix, oldKeys := ix, newKeys := [] }

/-- `save()` (`grf/cache.py:37-51`). Deleting a file that exists is assumed to succeed. -/
def save (s : St K D) : St K D :=
  let gone := s.oldKeys.filter fun k => k ∉ s.newKeys
  let ix := s.index.filter fun k => k ∉ gone
  { files := fun k => if k ∈ gone then none else s.files k
    indexFile := .keys ix
    index := ix
    oldKeys := s.newKeys
    newKeys := [] }

/-- `is_cached(hash_key)` (`grf/cache.py:64-66`). -/
def isCached (s : St K D) (k : K) : Bool := k ∈ s.index

/-- `get(hash_key)` (`grf/cache.py:68-77`). -/
def get (s : St K D) (k : K) : St K D × Option D :=
  if k ∉ s.index then (s, none)
  else ({ s with newKeys := addKey k s.newKeys }, s.files k)

/-- `set(hash_key, data)` (`grf/cache.py:79-83`). -/
def set (s : St K D) (k : K) (d : D) : St K D :=
  { s with newKeys := addKey k s.newKeys, files := upd s.files k (some d), index := addKey k s.index }

/-- `set` when writing the file fails after it was opened (`grf/cache.py:81-82`): what got written stays. -/
def setFails (s : St K D) (k : K) (d : D) : St K D :=
  { s with newKeys := addKey k s.newKeys, files := upd s.files k (some d) }

/-- `get_sprite_data` for a sprite with a fingerprint (`grf/grf.py:649-667`): `real` is what `get_real_data` would give. -/
def spriteData (s : St K D) (k : K) (real : D) : St K D × D :=
  match get s k with
  | (s', some d) => (s', d)
  | (s', none) => (set s' k real, real)

/-- One `write` as far as the cache is concerned (`grf/grf.py:730-741`): load, the sprites in order, save. -/
def build (clean : Bool) (s : St K D) (sprites : List (K × D)) : St K D × List D :=
  let rec go (s : St K D) : List (K × D) → St K D × List D
    | [] => (s, [])
    | (k, real) :: r =>
      let (s', d) := spriteData s k real
      let (s'', ds) := go s' r
      (s'', d :: ds)
  let (s', ds) := go (load clean s) sprites
  (save s', ds)

/-- Calls on the object, and things that happen to the directory from outside. For `grf/grf.py:730-741`. -/
inductive Op (K D : Type) where
  | load (clean : Bool)
  | save
  | get (k : K)
  | set (k : K) (d : D)
  | setFails (k : K) (d : D)
  /-- a cache file disappears -/
  | lose (k : K)
  /-- a cache file is overwritten by something else -/
  | damage (k : K) (d : D)
  /-- the index file disappears or becomes unreadable -/
  | loseIndex
  | breakIndex
  /-- a new process starts: a new object -/
  | restart

/-- Effect of an operation and what `get` returned. For `grf/grf.py:730-741`. -/
def step (s : St K D) : Op K D → St K D × Option D
  | .load c => (load c s, none)
  | .save => (save s, none)
  | .get k => get s k
  | .set k d => (set s k d, none)
  | .setFails k d => (setFails s k d, none)
  | .lose k => ({ s with files := upd s.files k none }, none)
  | .damage k d => ({ s with files := upd s.files k (some d) }, none)
  | .loseIndex => ({ s with indexFile := .missing }, none)
  | .breakIndex => ({ s with indexFile := .broken }, none)
  | .restart => ({ files := s.files, indexFile := s.indexFile }, none)

/-- A history. For `grf/grf.py:730-741`. -/
def run (s : St K D) : List (Op K D) → St K D
  | [] => s
  | o :: os => run (step s o).1 os

/-- An empty cache directory. For `grf/sprites.py:681-682`. -/
def empty : St K D := { files := fun _ => none, indexFile := .missing }

end Grf.Cache
