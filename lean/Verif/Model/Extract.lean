import Verif.Model.Container
import Verif.Model.Dispatch
import Verif.Model.Sheet
import Verif.Model.ResNames
/-!
# Model of what the decompiler does with real sprites and sounds (`grf/decompile.py`)

Names and paths are lists of characters. What the decompiler prints, and the statistics it counts, are left out.
-/
namespace Grf.Extract
open Acts (CtxKind decode1 decode5 decodeA decode11 decodeFE)
open ResNames (Name)
open Strings (dec)

/-! ### Which sprites are sounds, and which graphics belong together -/

/-- `ParsingContext` (`grf/decompile.py:38-47`) without the statistics. -/
structure Ctx where
  kind : CtxKind := .default
  group : Option Name := none
  groups : List (Name × Nat) := []
  amount : Int := -1
  sprites : List (Nat × (CtxKind × Option Name)) := []

/-- `reset` (`grf/decompile.py:63-66`). -/
def Ctx.reset (c : Ctx) : Ctx := { c with kind := .default, amount := -1, group := none }

/-- `self.sprites[sprite_id] = (self.type, self.group)` (`grf/decompile.py:53-55`). -/
def Ctx.note (c : Ctx) (id : Nat) : Ctx := { c with sprites := dictSet c.sprites id (c.kind, c.group) }

/-- The rest of `consume` (`grf/decompile.py:57-62`). -/
def Ctx.consume (c : Ctx) : Ctx :=
  if c.kind = .default then c
  else if c.amount - 1 ≤ 0 then c.reset else { c with amount := c.amount - 1 }

/-- `set_sound` (`grf/decompile.py:68-71`). -/
def Ctx.setSound (c : Ctx) (amount : Int) : Ctx := { c with kind := .sound, group := none, amount := amount }

/-- `f'{group}_{count}'` (`grf/decompile.py:78`). -/
def groupName (base : Name) (count : Nat) : Name := base ++ '_' :: dec count

/-- `set_graphics` (`grf/decompile.py:73-78`). -/
def Ctx.setGraphics (c : Ctx) (amount : Int) (base : Name) : Ctx :=
  let count := (c.groups.lookup base).getD 0
  { c with groups := dictSet c.groups base (count + 1), kind := .graphics, amount := amount, group := some (groupName base count) }

/-- `get_sprite_data` (`grf/decompile.py:80-81`). -/
def Ctx.get (c : Ctx) (id : Nat) : CtxKind × Option Name := (c.sprites.lookup id).getD (.default, none)

/-- `Feature(n).name` (`grf/common.py:149-171`). -/
def featureNames : List Name :=
  ["train", "rv", "ship", "aircraft", "station", "canal", "bridge", "house", "global_var", "industry_tile", "industry", "cargo",
    "sound_effect", "airport", "signal", "object", "railtype", "airport_tile", "roadtype", "tramtype", "road_stop"].map String.toList

/-- The name of the group of an Action 1 (`grf/decompile.py:265`). -/
def featureName (f : Nat) : Name := featureNames[f]?.getD []

/-- What the decoders of actions do to the context (`grf/decompile.py:265,750,813,906`): an action that cannot be read that far leaves it as
it is. -/
def announce (c : Ctx) (a : UInt8) (bs : Bytes) : Ctx :=
  if a = 0x01 then
    match decode1 bs with
    | some d => c.setGraphics d.2 (featureName d.1.feature)
    | none => c
  else if a = 0x05 then
    match decode5 bs with
    | some d => c.setGraphics d.2 "action5".toList
    | none => c
  else if a = 0x0a then
    match decodeA bs with
    | some d => c.setGraphics d.2 "action_a".toList
    | none => c
  else if a = 0x11 then
    match decode11 bs with
    | some n => c.setSound n
    | none => c
  else c

/-- `decode_pseudo_sprite` (`grf/decompile.py:1022-1047`): what it does to the context, also if it raises (the exception is caught,
`grf/decompile.py:1080-1086`). -/
def stepPseudo (c : Ctx) : Bytes → Ctx
  | [] => c
  | a :: bs =>
    if c.kind = .sound then
      if a = 0xfe then
        match decodeFE bs with
        | some _ => c.consume
        | none => c
      else if a = 0xff then c
      else announce c.reset a bs
    else announce c a bs

/-- What `read_pseudo_sprite` (`grf/decompile.py:1050-1113`, container version 2, not a base set) does to the context. -/
def step (c : Ctx) : PEntry → Ctx
  | .pseudo bs => stepPseudo c bs
  | .empty => c
  | .ref id => (c.note id).consume
  | .unknown => c.consume

/-- The loop of `read` (`grf/decompile.py:1493-1499`). -/
def context (es : List PEntry) : Ctx := es.foldl step {}

/-! ### Sounds -/

/-- `RAWSound.get_real_data` (`grf/sprites.py:816-821`) for the encoded base name of the file and its contents. `struct.pack` raises if the
length does not fit. -/
def rawSound (name data : Bytes) : Option Bytes :=
  let name := if name.length > 256 then name.take 251 ++ [0x5f] ++ name.drop (name.length - 4) else name
  (packU 1 name.length).map fun l => [0xff, 0xff] ++ l ++ name ++ [0] ++ data

/-- Reading a sound (`grf/decompile.py:1229-1230,1250-1255`, `1462-1463`): `bs` is the file after the field `num`. The result is the name (not
yet decoded) and what is saved as the sound: `size` bytes from the place after the name, all the rest if `size` is negative. -/
def readSound (num : Nat) (bs : Bytes) : Option (Bytes × Bytes) :=
  match bs with
  | _ :: _ :: l :: rest =>
    let size : Int := num - 3 - l.toNat
    let name := (rest.take (l.toNat + 1)).dropLast
    let here := rest.drop (l.toNat + 1)
    some (name, if size < 0 then here else here.take size.toNat)
  | _ => none

/-! ### Graphics -/

/-- `RealGraphicsSprite` (`grf/decompile.py:1185-1204`) with its decoded layers; `xofs` and the other numbers are as read. A layer matters
only if its bit of the type is set. -/
structure Real where
  id : Nat
  type : Nat
  width : Nat
  height : Nat
  xofs : Int
  yofs : Int
  zoom : Nat
  rgb : Nat → Nat → Nat × Nat × Nat
  alpha : Nat → Nat → Nat
  mask : Nat → Nat → Nat

/-- `type & 1` (`grf/decompile.py:1199`). -/
def Real.hasRgb (r : Real) : Bool := r.type.testBit 0
/-- `type & 2` (`grf/decompile.py:1201`). -/
def Real.hasAlpha (r : Real) : Bool := r.type.testBit 1
/-- `type & 4` (`grf/decompile.py:1203`). -/
def Real.hasMask (r : Real) : Bool := r.type.testBit 2

/-- What the layout of sheets uses. For `grf/decompile.py:1359-1360,1405-1414`. -/
def Real.spr (r : Real) : Sheet.Spr := ⟨r.width, r.height, r.type⟩

/-- A colour with its opacity. For `grf/decompile.py:1408-1414`. -/
abbrev Rgba := (Nat × Nat × Nat) × Nat

/-- Pasting an RGB or RGBA picture on the RGBA sheet (`grf/decompile.py:1408-1414`). -/
def Real.pixel (r : Real) (x y : Nat) : Rgba := (r.rgb x y, if r.hasAlpha then r.alpha x y else 255)

/-- A `defaultdict(list)` to which the items are appended under their keys, in the order of the keys' first use. For `grf/decompile.py:1327-1337`. -/
def collect {κ α : Type} [DecidableEq κ] (key : α → κ) (l : List α) : List (κ × List α) :=
  l.foldl (fun d a => dictSet d (key a) ((d.lookup (key a)).getD [] ++ [a])) []

/-- A picture file: its size and its pixels. For `grf/decompile.py:1420-1433`. -/
inductive Image where
  | rgba (w h : Nat) (p : Nat → Nat → Rgba)
  | pal (w h : Nat) (p : Nat → Nat → Nat)

/-- Colours of the outlines of duplicates, by sheet and place (`grf/decompile.py:1380-1391,1399,1406`); whatever they are. -/
structure Outlines where
  rgba : Name → Nat → Option Rgba
  pal : Name → Nat → Option Nat

/-- `any(s.type & 0x03 > 0 ...)` (`grf/decompile.py:1359`). -/
def anyColour (rs : List Real) : Bool := rs.any fun r => r.hasRgb || r.hasAlpha

/-- `any(s.type & 0x04 > 0 ...)` (`grf/decompile.py:1362`). -/
def anyMask (rs : List Real) : Bool := rs.any fun r => r.hasMask

/-- Number `k` of a list of sprites (there always is one where this is used). For `grf/decompile.py:1359-1360,1405-1414`. -/
def pick (rs : List Real) (k : Nat) : Real := rs[k]?.getD ⟨0, 0, 0, 0, 0, 0, 0, fun _ _ => (0, 0, 0), fun _ _ => 0, fun _ _ => 0⟩

/-- The RGBA sheet of a group (`grf/decompile.py:1359-1360,1405-1414`). -/
def rgbaSheet (o : Outlines) (g : Name) (rs : List Real) : Nat → Nat → Rgba :=
  Sheet.sheet (rs.map (·.spr)) ((0, 0, 0), 0) (fun i => (pick rs i).hasRgb) (fun i => (pick rs i).pixel) (o.rgba g)

/-- The palette sheet of a group (`grf/decompile.py:1362-1364,1396-1403`). -/
def palSheet (o : Outlines) (g : Name) (rs : List Real) : Nat → Nat → Nat :=
  Sheet.sheet (rs.map (·.spr)) 0xff (fun i => (pick rs i).hasMask) (fun i => (pick rs i).mask) (o.pal g)

/-- `resource_dir_rel + '/' + f'{group}.png'` (`grf/decompile.py:1422-1424,1524`). -/
def palPath (g : Name) : Name := "resources/".toList ++ g ++ ".png".toList

/-- `resource_dir_rel + '/' + f'{group}_32bpp.png'` (`grf/decompile.py:1429-1431`). -/
def rgbaPath (g : Name) : Name := "resources/".toList ++ g ++ "_32bpp.png".toList

/-- The files saved for a group (`grf/decompile.py:1420-1433`). -/
def filesOf (o : Outlines) (g : Name) (rs : List Real) : List (Name × Image) :=
  let w := Sheet.sheetWidth (rs.map (·.spr))
  let h := Sheet.sheetHeight (rs.map (·.spr))
  (if anyMask rs then [(palPath g, .pal w h (palSheet o g rs))] else []) ++
    (if anyColour rs then [(rgbaPath g, .rgba w h (rgbaSheet o g rs))] else [])

/-- An entry of `by_id` (`grf/decompile.py:1435-1436`): the sprite, its place and the paths of its sheets. -/
structure Placed where
  spr : Real
  x : Nat
  y : Nat
  pal : Option Name
  rgba : Option Name

/-- The entries made for a group (`grf/decompile.py:1366-1436`). -/
def placeGroup (g : Name) (rs : List Real) : List Placed :=
  (Sheet.cells (rs.map (·.spr))).map fun c =>
    ⟨pick rs c.index, c.x, c.y, if anyMask rs then some (palPath g) else none, if anyColour rs then some (rgbaPath g) else none⟩

/-- `context.get_sprite_data(s.id)[1] or 'misc'` (`grf/decompile.py:1333-1336`). -/
def groupOf (c : Ctx) (id : Nat) : Name :=
  match (c.get id).2 with
  | some g => if g = [] then "misc".toList else g
  | none => "misc".toList

/-- `by_group` (`grf/decompile.py:1327-1337`): the sprites, listed by their ids, listed by group. -/
def byGroup (group : Nat → Name) (reals : List Real) : List (Name × List Real) :=
  collect (fun r => group r.id) ((collect (·.id) reals).flatMap (·.2))

/-- All entries of `by_id` in the order they are added (`grf/decompile.py:1343-1436`). -/
def placed (group : Nat → Name) (reals : List Real) : List Placed := (byGroup group reals).flatMap fun g => placeGroup g.1 g.2

/-- All files saved, the last one first (`grf/decompile.py:1343-1433`). (The assertion on the sizes of duplicates, line 1385, is left out: if
it fails nothing is written.) -/
def files (o : Outlines) (group : Nat → Name) (reals : List Real) : List (Name × Image) :=
  ((byGroup group reals).flatMap fun g => filesOf o g.1 g.2).reverse

/-- The generator put in the place of a placeholder, if there is one (`grf/decompile.py:1438-1439,1541-1548`). -/
def generator (group : Nat → Name) (reals : List Real) (id : Nat) : Option (List Placed) :=
  (collect (fun p : Placed => p.spr.id) (placed group reals)).lookup id

/-! ### The code of a graphics sprite -/

/-- `FileSprite(...)` (`grf/decompile.py:1303`) or, without the offsets and the zoom, the mask (`1306`). -/
structure FileCall where
  var : Name
  x : Nat
  y : Nat
  w : Nat
  h : Nat
  offsets : Option (Int × Int × Name)

/-- An argument of `g.add(...)` (`grf/decompile.py:1293-1312`). -/
inductive Call where
  | empty
  | file (s : FileCall)
  | masked (s m : FileCall)

/-- A statement of the script. For `grf/decompile.py:1275-1285`. -/
inductive Stmt where
  /-- `var = ImageFile(path)` -/
  | image (var path : Name)
  /-- `g.add(...)` -/
  | add (calls : List Call)
  /-- a comment -/
  | comment

/-- `path[path.rfind('/') + 1:].replace('.', '_')` (`grf/decompile.py:1283`). -/
def fileVar (path : Name) : Name :=
  ((path.reverse.takeWhile (· != '/')).reverse).map fun c => if c = '.' then '_' else c

/-- `make_file_var` (`grf/decompile.py:1275-1285`): the names by path, and the statement if there is one. -/
def makeVar (res : List (Name × Name)) : Option Name → List (Name × Name) × List Stmt
  | none => (res, [])
  | some path => if (res.lookup path).isSome then (res, []) else (dictSet res path (fileVar path), [.image (fileVar path) path])

/-- The first loop of `py` (`grf/decompile.py:1287-1289`). -/
def makeVars (res : List (Name × Name)) : List Placed → List (Name × Name) × List Stmt
  | [] => (res, [])
  | p :: ps =>
    let (res, s1) := makeVar res p.pal
    let (res, s2) := makeVar res p.rgba
    let (res, s3) := makeVars res ps
    (res, s1 ++ s2 ++ s3)

/-- The names of zooms (`grf/decompile.py:1299`). -/
def zoomNames : List Name :=
  ["ZOOM_NORMAL", "ZOOM_4X", "ZOOM_2X", "ZOOM_OUT_2X", "ZOOM_OUT_4X", "ZOOM_OUT_8X"].map String.toList

/-- `zoom_str` (`grf/decompile.py:1298-1301`). -/
def zoomText (z : Nat) : Name := zoomNames[z]?.getD (dec z)

/-- The second loop of `py` (`grf/decompile.py:1292-1312`); `none` is a `KeyError`. -/
def callOf (res : List (Name × Name)) (p : Placed) : Option Call :=
  let spr (v : Name) : FileCall := ⟨v, p.x, p.y, p.spr.width, p.spr.height, some (p.spr.xofs, p.spr.yofs, zoomText p.spr.zoom)⟩
  match p.rgba, p.pal with
  | none, none => some .empty
  | some path, none => (res.lookup path).map fun v => .file (spr v)
  | none, some path => (res.lookup path).map fun v => .file (spr v)
  | some path, some mpath => do
    let v ← res.lookup path
    let m ← res.lookup mpath
    some (.masked (spr v) ⟨m, p.x, p.y, p.spr.width, p.spr.height, none⟩)

/-- `GraphicsSpriteGen.py` (`grf/decompile.py:1272-1321`). -/
def genCode (res : List (Name × Name)) (ps : List Placed) : Option (List (Name × Name) × List Stmt) := do
  let (res, s) := makeVars res ps
  let calls ← ps.mapM (callOf res)
  some (res, s ++ [.add calls])

/-- The code in the places of the placeholders (`grf/decompile.py:1540-1548`, `grf/grf.py:307-314`); a sprite nothing is known of becomes a
comment. -/
def code (group : Nat → Name) (reals : List Real) : List (Name × Name) → List Nat → Option (List Stmt)
  | _, [] => some []
  | res, id :: ids =>
    match generator group reals id with
    | none => (code group reals res ids).map (.comment :: ·)
    | some ps => do
      let (res, s) ← genCode res ps
      let rest ← code group reals res ids
      some (s ++ rest)

/-! ### Running the code -/

/-- The layers of a sprite and its placement: what is written for it, before cropping (`Sprite.get_data_layers`,
`grf/sprites.py:394-410`). Layers are lists of rows. -/
structure Made where
  w : Nat
  h : Nat
  xofs : Int
  yofs : Int
  zoom : Nat
  rgb : Option (List (List (Nat × Nat × Nat)))
  alpha : Option (List (List Nat))
  mask : Option (List (List Nat))
deriving DecidableEq

/-- Part of a picture (`img.crop`, `grf/sprites.py:781`). -/
def window {α : Type} (p : Nat → Nat → α) (x y w h : Nat) : List (List α) :=
  (List.range h).map fun b => (List.range w).map fun a => p (x + a) (y + b)

/-- The value of the text of a zoom (`grf/common.py:5`: the names are the numbers from 0 on). -/
def zoomValue (t : Name) : Option Nat :=
  match zoomNames.findIdx? (· == t) with
  | some i => some i
  | none => (List.range 256).find? fun n => dec n == t

/-- `FileSprite.get_data_layers` (`grf/sprites.py:775-794`, `394-410`) for a file without colour key: `none` if the area is outside the picture. -/
def fileLayers (img : Image) (c : FileCall) :
    Option (Option (List (List (Nat × Nat × Nat))) × Option (List (List Nat)) × Option (List (List Nat))) :=
  match img with
  | .rgba w h p =>
    if c.x + c.w ≤ w ∧ c.y + c.h ≤ h then
      some (some (window (fun x y => (p x y).1) c.x c.y c.w c.h), some (window (fun x y => (p x y).2) c.x c.y c.w c.h), none)
    else none
  | .pal w h p => if c.x + c.w ≤ w ∧ c.y + c.h ≤ h then some (none, none, some (window p c.x c.y c.w c.h)) else none

/-- The picture a variable stands for: the variable must have been assigned and the file must exist. For `grf/sprites.py:618-666`. -/
def imageOf (fs : List (Name × Image)) (vars : List (Name × Name)) (v : Name) : Option Image :=
  (vars.lookup v).bind (fs.lookup ·)

/-- The sprite a call makes: `FileSprite`, or `WithMask` (`grf/sprites.py:618-666`), whose mask must not have other layers. `EMPTY_SPRITE` is no
name of the script (`grf/grf.py:277-278`). -/
def evalCall (fs : List (Name × Image)) (vars : List (Name × Name)) : Call → Option Made
  | .empty => none
  | .file s => do
    let img ← imageOf fs vars s.var
    let (rgb, alpha, mask) ← fileLayers img s
    let (xofs, yofs, z) ← s.offsets
    let zoom ← zoomValue z
    some ⟨s.w, s.h, xofs, yofs, zoom, rgb, alpha, mask⟩
  | .masked s m => do
    let img ← imageOf fs vars s.var
    let (rgb, alpha, mask) ← fileLayers img s
    let (xofs, yofs, z) ← s.offsets
    let zoom ← zoomValue z
    let mimg ← imageOf fs vars m.var
    let (mrgb, malpha, mmask) ← fileLayers mimg m
    if mrgb = none ∧ malpha = none ∧ mask = none then some ⟨s.w, s.h, xofs, yofs, zoom, rgb, alpha, mmask⟩ else none

/-- Running statements: what is assigned, and the sprites added by each `g.add`. For `grf/sprites.py:618-666`. -/
def run (fs : List (Name × Image)) : List (Name × Name) → List Stmt → Option (List (List Made))
  | _, [] => some []
  | vars, .image v p :: rest => run fs ((v, p) :: vars) rest
  | vars, .comment :: rest => run fs vars rest
  | vars, .add calls :: rest => do
    let ms ← calls.mapM (evalCall fs vars)
    let more ← run fs vars rest
    some (ms :: more)

end Grf.Extract
