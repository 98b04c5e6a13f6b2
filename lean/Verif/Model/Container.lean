import Verif.Model.Bytes
import Verif.Model.Refs
/-!
# Model of the container: numbering real sprites, writing the file, reading it

`BaseNewGRF._enumerate_sprites`, `_write_pseudo_sprite`, `_do_write` (`grf/grf.py:266-270, 472-549, 576-725`) and
the container loops of `grf.decompile` (`grf/decompile.py:1050-1108, 1226-1260, 1468-1511`).

Not modelled: fingerprints and the sprite cache inside `get_sprite_data` (see `Model/Cache.lean`; a resource has one
`real` data here, or raises), `debug_zoom_levels`, progress output.
-/
namespace Grf

/-- A `ResourceAction` (`grf/sprites.py:132-183`): the `LoadedResourceFile`s among `get_resource_files()`
and the resources `get_resources()`, all by identity. -/
structure ResAct where
  files : List Nat := []
  resources : List Nat := []

/-- Attributes of the resource action with a given identity. For `grf/grf.py:478-490`. -/
abbrev ResWorld := Nat → ResAct

/-- An entry of the list of sprites to write: a `ResourceAction`, or any other action with the result of
its `get_data` (`none`: it raises). For `grf/grf.py:478-490`. -/
inductive Item where
  | action (data : Option Bytes)
  | res (o : Nat)

/-- Variables of the first loop of `_enumerate_sprites` (`grf/grf.py:472-490`). `ids` is the attribute
`sprite_id` of each resource action. -/
structure EnumSt where
  next : Nat := 1
  unordered : List (Nat × List Nat) := []
  ordered : List Nat := []
  ids : Nat → Option Nat := fun _ => none

/-- `grf/grf.py:478-490`. -/
def enumFirst (W : ResWorld) (st : EnumSt) : Item → EnumSt
  | .action _ => st
  | .res o =>
    if (W o).files ≠ [] then { st with unordered := st.unordered ++ [(o, (W o).files)] }
    else { st with ids := upd st.ids o (some st.next), next := st.next + 1, ordered := st.ordered ++ [o] }

/-- Stable insertion used for `list.sort(key=...)`. For `grf/grf.py:512`. -/
def insertBy (key : Nat → Int) (x : Nat) : List Nat → List Nat
  | [] => [x]
  | y :: r => if key x ≤ key y then x :: y :: r else y :: insertBy key x r

/-- `sprite_order.sort(key=lambda x: sprite_priority[x])` (`grf/grf.py:512`): stable sort. -/
def sortBy (key : Nat → Int) : List Nat → List Nat
  | [] => []
  | x :: r => insertBy key x (sortBy key r)

/-- Index dictionaries (`grf/grf.py:494-514`). Dictionaries that are only looked up with keys inserted before
are total functions. -/
structure OrdSt where
  imgIndex : Nat → List Nat := fun _ => []
  prio : Nat → Int := fun _ => 0
  order : List Nat := []
  pos : Nat → Nat := fun _ => 0

/-- `grf/grf.py:501-510`. -/
def indexSprite (st : OrdSt) (sf : Nat × List Nat) : OrdSt :=
  { st with imgIndex := sf.2.foldl (fun d f => upd d f (d f ++ [sf.1])) st.imgIndex,
            order := st.order ++ [sf.1],
            prio := upd st.prio sf.1 sf.2.length }

/-- `for i, sid in enumerate(sprite_order): sprite_pos[sid] = i` (`grf/grf.py:513-514`). -/
def setPos (order : List Nat) : Nat → List Nat → (Nat → Nat) → (Nat → Nat)
  | _, [], pos => pos
  | i, x :: r, pos => setPos order (i + 1) r (upd pos x i)

/-- `while pos > i + 1 and sprite_priority[sprite_order[pos]] > prio: pos -= 1` (`grf/grf.py:534-535`). -/
def findPos (order : List Nat) (prio : Nat → Int) (i : Nat) (p : Int) : Nat → Nat
  | 0 => 0
  | pos + 1 => if pos + 1 > i + 1 ∧ prio (order.getD (pos + 1) 0) > p then findPos order prio i p pos else pos + 1

/-- `grf/grf.py:529-540`: one more file of sprite `x` is loaded. -/
def bump (i : Nat) (st : OrdSt) (x : Nat) : OrdSt :=
  let p := st.prio x - 1
  let prio := upd st.prio x p
  let old := st.pos x
  let pos := findPos st.order prio i p old
  if pos ≠ old then
    let m := st.order.getD pos 0
    { st with prio := prio, order := (st.order.set pos x).set old m, pos := upd (upd st.pos x pos) m old }
  else { st with prio := prio }

/-- Variables of the main loop (`grf/grf.py:516-527`); `lastUse` maps a file to the sprite. -/
structure SchedSt where
  ord : OrdSt
  loadFiles : Nat → List Nat := fun _ => []
  lastUse : List (Nat × Nat) := []
  next : Nat
  ordered : List Nat
  ids : Nat → Option Nat

/-- One file of the sprite at position `i` (`grf/grf.py:524-540`). -/
def schedFile (i sid : Nat) (st : SchedSt) (f : Nat) : SchedSt :=
  let load := if (st.lastUse.lookup f).isNone then upd st.loadFiles sid (st.loadFiles sid ++ [f]) else st.loadFiles
  { st with loadFiles := load, lastUse := dictSet st.lastUse f sid,
            ord := (st.ord.imgIndex f).foldl (bump i) st.ord }

/-- The loop over `enumerate(sprite_order)` (`grf/grf.py:519-540`): the list may be permuted while it is
iterated, so the element is looked up at every step. -/
def schedLoop (W : ResWorld) : Nat → Nat → SchedSt → SchedSt
  | 0, _, st => st
  | n + 1, i, st =>
    let sid := st.ord.order.getD i 0
    let st := { st with ordered := st.ordered ++ [sid], ids := upd st.ids sid (some st.next), next := st.next + 1 }
    schedLoop W n (i + 1) ((W sid).files.foldl (schedFile i sid) st)

/-- `unload_files` (`grf/grf.py:542-544`). -/
def unloadFiles (lastUse : List (Nat × Nat)) (sid : Nat) : List Nat :=
  (lastUse.filter (fun p => p.2 = sid)).map (·.1)

/-- An entry of the processing schedule: sprite, files to load before, files to unload after. For `grf/grf.py:472-549`. -/
structure Step where
  sid : Nat
  load : List Nat
  unload : List Nat

/-- `_enumerate_sprites` (`grf/grf.py:472-549`): the schedule and the `sprite_id`s. -/
def enumerateSprites (W : ResWorld) (items : List Item) : List Step × (Nat → Option Nat) :=
  let e := items.foldl (enumFirst W) {}
  let o := e.unordered.foldl indexSprite {}
  let order := sortBy o.prio o.order
  let o := { o with order := order, pos := setPos order 0 order o.pos }
  let s := schedLoop W order.length 0 { ord := o, next := e.next, ordered := e.ordered, ids := e.ids }
  (s.ordered.map fun sid => ⟨sid, s.loadFiles sid, unloadFiles s.lastUse sid⟩, s.ids)

/-- `_write_pseudo_sprite` (`grf/grf.py:266-270`): the new content and the position of the data. -/
def writePseudo (f : Bytes) (data : Bytes) (ty : UInt8) : Option (Bytes × Nat) := do
  let l ← packU 4 data.length
  some (f ++ l ++ [ty] ++ data, f.length + 5)

/-- `f.seek(ofs); f.write(bs)` on a file already longer than that. For `grf/grf.py:715-718`. -/
def patch (f : Bytes) (ofs : Nat) (bs : Bytes) : Bytes := f.take ofs ++ bs ++ f.drop (ofs + bs.length)

/-- `b'\x00\x00GRF\x82\x0d\x0a\x1a\x0a'`. For `grf/grf.py:616-718`. -/
def grfHeader : Bytes := [0, 0, 0x47, 0x52, 0x46, 0x82, 0x0d, 0x0a, 0x1a, 0x0a]

/-- The loop writing the actions (`grf/grf.py:634-640`): file content and `resource_references`. -/
def writeItem (ids : Nat → Option Nat) (st : Bytes × (Nat → List Nat)) : Item → Option (Bytes × (Nat → List Nat))
  | .action d => do
    let d ← d
    let (f, _) ← writePseudo st.1 d 0xff
    some (f, st.2)
  | .res o => do
    let id ← ids o
    let d ← packU 4 id
    let (f, p) ← writePseudo st.1 d 0xfd
    some (f, upd st.2 id (st.2 id ++ [p]))

/-- What happens while the resources are written; only used to state C32. For `grf/grf.py:668-671`. -/
inductive Ev where
  | load (f : Nat)
  | use (o : Nat)
  | unload (f : Nat)
deriving DecidableEq

/-- Variables of the loop writing the resources (`grf/grf.py:668-671`). -/
structure ResSt where
  file : Bytes
  renum : List (Nat × Nat) := []
  hashes : List (Int × Nat) := []
  written : List Nat := []
  events : List Ev := []

/-- `for d in data: f.write(struct.pack('<II', sl.sprite_id, len(d))); f.write(d)` (`grf/grf.py:697-699`). -/
def writeReal (id : Nat) (f : Bytes) (d : Bytes) : Option Bytes := do
  let a ← packU 4 id
  let b ← packU 4 d.length
  some (f ++ a ++ b ++ d)

/-- One iteration of the loop writing the resources (`grf/grf.py:672-707`). `hash` is Python's
`hash` of a tuple of byte strings: an arbitrary function. -/
def writeStep (hash : List Bytes → Int) (real : Nat → Option Bytes) (W : ResWorld) (ids : Nat → Option Nat)
    (st : ResSt) (s : Step) : Option ResSt := do
  let st := { st with events := st.events ++ s.load.map Ev.load }
  if s.sid ∈ st.written then some st
  else
    let st := { st with events := st.events ++ [Ev.use s.sid] }
    let data ← (W s.sid).resources.mapM real
    let id ← ids s.sid
    let st ← match st.hashes.lookup (hash data) with
      | some sid => some { st with renum := dictSet st.renum id sid }
      | none => do
        let f ← data.foldlM (writeReal id) st.file
        some { st with file := f, hashes := dictSet st.hashes (hash data) id }
    some { st with written := s.sid :: st.written, events := st.events ++ s.unload.map Ev.unload }

/-- Patching the references of shared sprites (`grf/grf.py:715-718`). -/
def renumber (refs : Nat → List Nat) (f : Bytes) (kv : Nat × Nat) : Option Bytes := do
  let b ← packU 4 kv.2
  some ((refs kv.1).foldl (fun f ofs => patch f ofs b) f)

/-- Result of writing: the file, the schedule events. For `grf/grf.py:616-718`. -/
structure Written where
  file : Bytes
  events : List Ev

/-- The part of `_do_write` from `_enumerate_sprites` on (`grf/grf.py:616-718`). -/
def writeFile (hash : List Bytes → Int) (real : Nat → Option Bytes) (W : ResWorld) (items : List Item) :
    Option Written := do
  let (steps, ids) := enumerateSprites W items
  let f := grfHeader ++ [0, 0, 0, 0] ++ [0]
  let (f, _) ← writePseudo f [2, 0, 0, 0] 0xff
  let (f, refs) ← items.foldlM (writeItem ids) (f, fun _ => [])
  let dataOffset := f.length - 10
  let f := f ++ [0, 0, 0, 0]
  let st ← steps.foldlM (writeStep hash real W ids) { file := f }
  let f := st.file ++ [0, 0, 0, 0]
  let b ← packU 4 dataOffset
  let f := patch f 10 b
  let f ← st.renum.foldlM (renumber refs) f
  some { file := f, events := st.events }

/-! ### Reader -/

/-- What the reader makes of one pseudo sprite (`grf/decompile.py:1050-1108`, container version 2). -/
inductive PEntry where
  /-- an action with its payload -/
  | pseudo (data : Bytes)
  /-- one byte long: ignored -/
  | empty
  /-- reference to a real sprite -/
  | ref (id : Nat)
  /-- unknown type: ignored -/
  | unknown
deriving DecidableEq, Repr

/-- `read_pseudo_sprite` for container version 2: `none` is an exception, `some (none, rest)` the end. What the
decoder does with the payload is not part of this model. For `grf/decompile.py:1493-1499`. -/
def readPseudo (bs : Bytes) : Option (Option PEntry × Bytes) := do
  let (l, bs) ← readU 4 bs
  if l = 0 then some (none, bs)
  else
    let (ty, bs) ← readU 1 bs
    -- `f.read(l)` returns less at the end of the file
    let data := bs.take l.toNat
    let bs := bs.drop l.toNat
    if ty = 0xff then
      if l = 1 then some (some .empty, bs)
      else if data = [] then none else some (some (.pseudo data), bs)
    else if ty = 0xfd then
      if data.length = 4 then some (some (.ref (leVal data)), bs) else none
    else if data = [] then none else some (some .unknown, bs)

/-- The loop over pseudo sprites (`grf/decompile.py:1493-1499`); every entry takes at least 4 bytes, so `fuel` more
than the number of bytes is never exhausted. -/
def readPseudos : Nat → Bytes → Option (List PEntry × Bytes)
  | 0, _ => none
  | fuel + 1, bs => do
    let (e, bs) ← readPseudo bs
    match e with
    | none => some ([], bs)
    | some e =>
      let (l, bs) ← readPseudos fuel bs
      some (e :: l, bs)

/-- The loop over real sprites (`grf/decompile.py:1226-1260, 1503-1507`). The reader notes where the data of the sprite are
and skips them with `seek`; here the entry carries the data (type byte included). Reading the type byte makes an
empty entry at the end of the file fail. -/
def readReals : Nat → Bytes → Option (List (Nat × Bytes) × Bytes)
  | 0, _ => none
  | fuel + 1, bs => do
    let (id, bs) ← readU 4 bs
    if id = 0 then some ([], bs)
    else
      let (num, bs) ← readU 4 bs
      let (_, _) ← readU 1 bs
      let (l, r) ← readReals fuel (bs.drop num.toNat)
      some ((id.toNat, bs.take num.toNat) :: l, r)

/-- What reading a container gives. For `grf/decompile.py:1468-1511`. -/
structure Parsed where
  offsetOk : Bool
  entries : List PEntry
  reals : List (Nat × Bytes)
  rest : Bytes

/-- `read` (`grf/decompile.py:1468-1511`) for a version 2 container (first byte 0). -/
def readFile (bs : Bytes) : Option Parsed := do
  let (_, b1) ← takeBytes 10 bs
  let (offset, b2) ← readU 4 b1
  let (_, b3) ← readU 1 b2
  let (_, b4) ← takeBytes 9 b3
  let (entries, b5) ← readPseudos (b4.length + 1) b4
  let (reals, b6) ← readReals (b5.length + 1) b5
  some { offsetOk := decide (offset = (bs.length - b5.length : Nat) - (14 : Int)), entries := entries, reals := reals,
         rest := b6 }

end Grf
