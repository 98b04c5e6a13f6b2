import Verif.Model.Bytes
/-!
# Model of voxel files and houses drawn from them (`grf/vox.py:19-206`)

What `srgb_to_oklab` and `oklab_find_best_colour` make of a colour is a parameter. The depth of a voxel is a float in the code; only the
order of depths matters, so it is any integer here, a parameter too. Arrays are functions of the coordinates together with their size.
Train pictures (`VoxTrainFile`) are not modelled.
-/
namespace Grf.Vox

/-! ## Reading -/

/-- A row of `self.voxels` (`grf/vox.py:31-39`). -/
structure Voxel where
  x : Int
  y : Int
  z : Int
  i : Nat
deriving DecidableEq, Repr

/-- `VoxReader` (`grf/vox.py:20-24`). -/
structure Rd where
  size : Option (Nat × Nat × Nat)
  voxels : List Voxel
  palette : Option (List Bytes)
deriving DecidableEq, Repr

/-- `_read_size` (`grf/vox.py:26-28`): the first two numbers change places. -/
def readSize (r : Rd) (f : Bytes) : Option Rd := do
  let (a, f) ← readU 4 f
  let (b, f) ← readU 4 f
  let (c, _) ← readU 4 f
  some { r with size := some (b.toNat, a.toNat, c.toNat) }

/-- Groups of four bytes (`.shape = (n, 4)`, `grf/vox.py:33`). -/
def rows4 : Nat → Bytes → List Bytes
  | 0, _ => []
  | n + 1, f => f.take 4 :: rows4 n (f.drop 4)

/-- The voxel of four bytes (`grf/vox.py:36-38`): `size[1] - y` is stored in a byte, `size[0]` is added to `x` in an array of larger
integers. (With numpy 2 a size over 255 is an error instead.) -/
def voxelOf (s0 s1 : Nat) (b : Bytes) : Voxel :=
  ⟨(b.getD 0 0).toNat + s0, ((s1 : Int) - (b.getD 1 0).toNat) % 256, (b.getD 2 0).toNat, (b.getD 3 0).toNat⟩

/-- `_read_xyzi` (`grf/vox.py:30-39`); `none` is an exception. -/
def readXyzi (r : Rd) (f : Bytes) : Option Rd := do
  let (n, f) ← readU 4 f
  if f.length < n.toNat * 4 then none
  else do
    let (s0, s1, _) ← r.size
    let vs := (rows4 n.toNat f).map (voxelOf s0 s1)
    if vs.all fun v => decide (v.i > 0) then some { r with voxels := vs } else none

/-- `_read_rgba` (`grf/vox.py:41-48`): index 0 is four zeros, the last colour is not used. -/
def readRgba (r : Rd) (f : Bytes) : Option Rd :=
  if f.length < 1020 then none else some { r with palette := some ([0, 0, 0, 0] :: rows4 255 f) }

/-- `XYZI`, `SIZE`, `RGBA` (`grf/vox.py:60-64`). -/
def idXyzi : Bytes := [0x58, 0x59, 0x5a, 0x49]
/-- For `grf/vox.py:60-65`. -/
def idSize : Bytes := [0x53, 0x49, 0x5a, 0x45]
/-- For `grf/vox.py:60-65`. -/
def idRgba : Bytes := [0x52, 0x47, 0x42, 0x41]

/-- What a chunk does (`grf/vox.py:60-65`); `f` is the file from its content on. -/
def readChunk (r : Rd) (id f : Bytes) : Option Rd :=
  if id = idXyzi then readXyzi r f else if id = idSize then readSize r f else if id = idRgba then readRgba r f else some r

/-- The loop of `read` (`grf/vox.py:54-66`). -/
def readChunks (r : Rd) (f : Bytes) : Option Rd :=
  if f = [] then some r
  else if _h : f.length < 12 then none
  else
    match readChunk r (f.take 4) (f.drop 12) with
    | none => none
    | some r => readChunks r (f.drop (12 + leVal ((f.drop 4).take 4)))
termination_by f.length
decreasing_by simp only [List.length_drop]; omega

/-- `read` (`grf/vox.py:50-66`). -/
def read (f : Bytes) : Option Rd := readChunks ⟨none, [], none⟩ (f.drop 8)

/-! ## Drawing a house -/

/-- `voxels @ (1, -1, 0, 0)` and `voxels @ (1, 1, -2, 0)` (`grf/vox.py:93-94`). -/
def Voxel.px (v : Voxel) : Int := v.x - v.y
/-- For `grf/vox.py:114-119`. -/
def Voxel.py (v : Voxel) : Int := v.x + v.y - 2 * v.z

/-- The pixels a voxel covers with its sides, in order (`grf/vox.py:114-119`). -/
def faces : List (Int × Int × Nat) := [(0, 0, 0x000), (1, 0, 0x100), (0, 1, 0x200), (1, 1, 0x300), (0, 2, 0x200), (1, 2, 0x300)]

/-- `zbuf` and `data` at a pixel; `none` is the depth `-1e100` (`grf/vox.py:101-102`). -/
abbrev Buf := Int → Int → Option Int × Nat

/-- `set_pixel` (`grf/vox.py:104-108`). -/
def setPixel (b : Buf) (x y : Int) (z : Int) (c : Nat) : Buf := fun x' y' =>
  if x' = x ∧ y' = y then
    match (b x y).1 with
    | some old => if old ≥ z then b x y else (some z, c)
    | none => (some z, c)
  else b x' y'

/-- One round of the loop (`grf/vox.py:110-119`); `colour` is `ttd_palette`. -/
def drawVoxel (depth : Voxel → Int) (colour : Nat → Nat) (xmin ymin : Int) (b : Buf) (v : Voxel) : Buf :=
  if colour v.i = 1 then b
  else faces.foldl (fun b f => setPixel b (v.px - xmin + f.1) (v.py - ymin + f.2.1) (depth v) (colour v.i ||| f.2.2)) b

/-- The least and greatest value (`np.amin`, `np.amax`, `grf/vox.py:97-98`; `none` for no voxels). -/
def bounds (l : List Int) : Option (Int × Int) :=
  match l with
  | [] => none
  | a :: l => some (l.foldl min a, l.foldl max a)

/-- A picture: width, height, values. For `grf/vox.py:90-121`. -/
structure Pic where
  w : Nat
  h : Nat
  at_ : Nat → Nat → Nat

/-- `_load` up to `self.data` (`grf/vox.py:90-121`). -/
def load (depth : Voxel → Int) (colour : Nat → Nat) (vs : List Voxel) : Option Pic := do
  let (xmin, xmax) ← bounds (vs.map Voxel.px)
  let (ymin, ymax) ← bounds (vs.map Voxel.py)
  let b := vs.foldl (drawVoxel depth colour xmin ymin) fun _ _ => (none, 0)
  some ⟨(xmax - xmin + 2).toNat, (ymax - ymin + 3).toNat, fun y x => (b x y).2⟩

/-- `self.palette` (`grf/vox.py:123-131`): the colours for the sides; the top has two halves. -/
def shade (z x y : Nat → Nat) (v : Nat) : Nat :=
  if v < 512 then z (v % 256) else if v < 768 then x (v % 256) else y (v % 256)

/-- `ZOOM_NORMAL` (`grf/vox.py:137-138`). -/
def zoomNormal (pal : Nat → Nat) (p : Pic) : Pic := ⟨p.w, (p.h + 1) / 2, fun y x => pal (p.at_ (2 * y) x)⟩

/-- `ZOOM_2X` (`grf/vox.py:139-140`). -/
def zoom2 (pal : Nat → Nat) (p : Pic) : Pic := ⟨2 * p.w, p.h, fun y x => pal (p.at_ y (x / 2))⟩

/-- `SIDE_PIXELS` (`grf/vox.py:143-156`), as pairs of `x` and `y`. -/
def sidePixels : Nat → List (Nat × Nat)
  | 0 => [(2, 0), (3, 0), (0, 1), (1, 1), (2, 1), (3, 1), (2, 2), (3, 2)]
  | 1 => [(0, 0), (1, 0), (0, 1), (1, 1), (2, 1), (3, 1), (0, 2), (1, 2)]
  | 2 => [(0, 0), (1, 0), (0, 1), (1, 1), (2, 1), (3, 1), (2, 2), (3, 2)]
  | 3 => [(2, 0), (3, 0), (0, 1), (1, 1), (2, 1), (3, 1), (0, 2), (1, 2)]
  | _ => []

/-- The pattern of a pixel (`grf/vox.py:180-197`). -/
def side (p : Pic) (y x : Nat) : Nat :=
  let v := p.at_ y x
  let s := v / 256
  if v &&& 0x200 > 0 then
    let s := if y + 1 < p.h ∧ p.at_ (y + 1) x ≠ 0 ∧ p.at_ (y + 1) x &&& 0x200 = 0 ∧ p.at_ (y + 1) x &&& 0x100 = v &&& 0x100 then s ^^^ 3 else s
    if y > 0 ∧ p.at_ (y - 1) x ≠ 0 ∧ p.at_ (y - 1) x &&& 0x200 > 0 ∧ p.at_ (y - 1) x &&& 0x100 ≠ v &&& 0x100 then s ^^^ 2 else s
  else s

/-- `data[yy + yo, xx + xo] = colour` for the pixels of the pattern (`grf/vox.py:199-200`). -/
def drawCell (pal : Nat → Nat) (p : Pic) (y : Nat) (b : Nat → Nat → Nat) (x : Nat) : Nat → Nat → Nat :=
  (sidePixels (side p y x)).foldl (fun b o => fun Y X => if Y = 2 * y + o.2 ∧ X = 4 * x + o.1 then pal (p.at_ y x) else b Y X) b

/-- `ZOOM_4X` (`grf/vox.py:141-200`). -/
def zoom4 (pal : Nat → Nat) (p : Pic) : Pic :=
  ⟨4 * p.w, 2 * p.h + 1, (List.range p.h).foldl (fun b y => (List.range p.w).foldl (drawCell pal p y) b) fun _ _ => 0⟩

/-- `make_house_sprite` (`grf/vox.py:133-206`): `ZOOM_NORMAL`, `ZOOM_4X`, `ZOOM_2X` are 0, 1, 2 (`grf/common.py:5`). -/
def house (pal : Nat → Nat) (p : Pic) (zoom : Int) : Option Pic :=
  if zoom = 0 then some (zoomNormal pal p) else if zoom = 2 then some (zoom2 pal p) else if zoom = 1 then some (zoom4 pal p) else none

end Grf.Vox
