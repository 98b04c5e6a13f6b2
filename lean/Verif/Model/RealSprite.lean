import Verif.Model.SpriteData
/-!
# Model of writing graphics (`grf/sprites.py`)

The layers of a picture are lists of rows; a pixel of the RGB layer is the list of its three bytes. The compression is done by the
external library nml and is a parameter.
-/
namespace Grf.RealSprite

open Grf.SpriteData

/-- The layers of a picture (`grf/sprites.py:395-411`). -/
structure Layers where
  rgb : Option (List (List Bytes))
  alpha : Option (List (List UInt8))
  mask : Option (List (List UInt8))
deriving DecidableEq, Repr

/-- The shape of a layer is `(h, w)`. For `grf/sprites.py:418-423`. -/
def shaped {α : Type} (h w : Nat) (l : List (List α)) : Bool := decide (l.length = h) && l.all fun r => decide (r.length = w)

/-- The checks of the shapes (`grf/sprites.py:418-423`). -/
def Layers.shapeOk (h w : Nat) (L : Layers) : Bool :=
  (match L.rgb with | some l => shaped h w l && l.all fun r => r.all fun p => decide (p.length = 3) | none => true) &&
  (match L.alpha with | some l => shaped h w l | none => true) &&
  (match L.mask with | some l => shaped h w l | none => true)

/-- The layer that decides what is visible, with `any` (not zero) for each pixel (`grf/sprites.py:334-343`); `none`: no layer at all. -/
def used (L : Layers) : Option (List (List Bool)) :=
  match L.alpha with
  | some l => some (l.map fun r => r.map fun a => a != 0)
  | none =>
    match L.rgb with
    | some l => some (l.map fun r => r.map fun p => p.any fun b => b != 0)
    | none =>
      match L.mask with
      | some l => some (l.map fun r => r.map fun m => m != 0)
      | none => none

/-- `np.arange(w)[cols_bitset]` (`grf/sprites.py:345`). -/
def colsUsed (w : Nat) (u : List (List Bool)) : List Nat := (List.range w).filter fun x => u.any fun r => r.getD x false

/-- `np.arange(h)[rows_bitset]` (`grf/sprites.py:346`). -/
def rowsUsed (h : Nat) (u : List (List Bool)) : List Nat := (List.range h).filter fun y => (u.getD y []).any id

/-- `layer[y: y + h, x: x + w]` (`grf/sprites.py:353-358`). -/
def window {α : Type} (x y w h : Nat) (l : List (List α)) : List (List α) := ((l.drop y).take h).map fun r => (r.drop x).take w

/-- What `_do_crop` returns (`grf/sprites.py:362`). -/
structure Cropped where
  x : Nat
  y : Nat
  w : Nat
  h : Nat
  layers : Layers
deriving DecidableEq, Repr

/-- `_do_crop` (`grf/sprites.py:330-363`). -/
def doCrop (crop : Bool) (w h : Nat) (L : Layers) : Option Cropped :=
  if crop then
    (used L).map fun u =>
      let x := (colsUsed w u).min?.getD 0
      let y := (rowsUsed h u).min?.getD 0
      let w := (colsUsed w u).max?.getD 0 - x + 1
      let h := (rowsUsed h u).max?.getD 0 - y + 1
      ⟨x, y, w, h, ⟨L.rgb.map (window x y w h), L.alpha.map (window x y w h), L.mask.map (window x y w h)⟩⟩
  else some ⟨0, 0, w, h, L⟩

/-- A sprite's parameters (`grf/sprites.py:293-304`). -/
structure Params where
  xofs : Int
  yofs : Int
  zoom : Int
  crop : Bool
deriving DecidableEq, Repr

/-- Whether the mask is written (`grf/sprites.py:450`). -/
def maskWritten (L : Layers) : Bool :=
  match L.mask with
  | none => false
  | some m => (L.rgb.isNone && L.alpha.isNone) || m.any fun r => r.any fun b => b != 0

/-- `info_byte` (`grf/sprites.py:429-452`). -/
def infoByte (L : Layers) : Nat := 0x40 ||| (if L.rgb.isSome then 1 else 0) ||| (if L.alpha.isSome then 2 else 0) ||| (if maskWritten L then 4 else 0)

/-- The bytes of each pixel in order (`grf/sprites.py:430-458`): colours, alpha, mask. -/
def pixels (L : Layers) : List Bytes :=
  let a : List (List Bytes) := (match L.rgb with | some l => [l.flatten] | none => []) ++ (match L.alpha with | some l => [l.flatten.map fun b => [b]] | none => []) ++
    (if maskWritten L then match L.mask with | some l => [l.flatten.map fun b => [b]] | none => [] else [])
  match a with
  | [] => []
  | l :: ls => ls.foldl (fun acc l => List.zipWith (· ++ ·) acc l) l

/-- `get_real_data` (`grf/sprites.py:414-471`) on the result of `get_data_layers` (`w`, `h` and the layers); `none` is an exception. -/
def getRealData (compress : Bytes → Bytes) (s : Params) (w h : Nat) (L : Layers) : Option Bytes :=
  if !L.shapeOk h w then none
  else do
    let c ← doCrop s.crop w h L
    -- `stack[0]` without layers, `reshape` of a picture without pixels
    if c.layers.rgb.isNone && c.layers.alpha.isNone && c.layers.mask.isNone || !c.layers.shapeOk c.h c.w then none
    else
      cat [packU 1 (infoByte c.layers), packU 1 s.zoom, packU 2 c.h, packU 2 c.w, packS 2 (s.xofs + c.x), packS 2 (s.yofs + c.y),
        some (compress (pixels c.layers).flatten)]

/-- A graphics sprite as read (`grf/decompile.py:1186-1196`), with what follows its header. -/
structure Read where
  info : Info
  zoom : Int
  xofs : Int
  yofs : Int
  rest : Bytes
deriving DecidableEq, Repr

/-- `read_real_sprite` for graphics (`grf/decompile.py:1230-1249`), from the type byte on. -/
def readHeader (f : Bytes) : Option Read := do
  let (t, f) ← readU 1 f
  let (zoom, f) ← readU 1 f
  let (h, f) ← readU 2 f
  let (w, f) ← readU 2 f
  let (xofs, f) ← readS 2 f
  let (yofs, f) ← readS 2 f
  if t.toNat / 8 % 2 = 1 then do
    let (size, f) ← readU 4 f
    some ⟨⟨size.toNat, w.toNat, h.toNat, t.toNat⟩, zoom, xofs, yofs, f⟩
  else
    some ⟨⟨w.toNat * h.toNat * (Info.bpp ⟨0, 0, 0, t.toNat⟩), w.toNat, h.toNat, t.toNat⟩, zoom, xofs, yofs, f⟩

end Grf.RealSprite
