/-!
# Model of `SpriteSheet.make_image` (`grf/grf.py:34-61`)

Sprites are objects (numbers) with a size and a way to draw themselves; `padding` and `columns` are natural numbers. Saving the picture is left out.
-/
namespace Grf.SpriteSheet

/-- The sprite objects: their sizes and pictures (a sprite without one draws nothing, like `EmptySprite`, `grf/sprites.py:684-685`). -/
structure Objs where
  w : Nat → Nat
  h : Nat → Nat
  pic : Nat → Option (Nat → Nat → Nat)

/-- `self._sprites[i: i + columns]` for row `k` (`i = k * columns`). For `grf/grf.py:39-44`. -/
def row (l : List Nat) (columns k : Nat) : List Nat := (l.drop (k * columns)).take columns

/-- `max(..., default=0)`. For `grf/grf.py:39-44`. -/
def maxOf : List Nat → Nat
  | [] => 0
  | a :: r => max a (maxOf r)

/-- The number of rows: `len(range(0, n, columns))`. For `grf/grf.py:38-61`. -/
def rowCount (n columns : Nat) : Nat := (n + columns - 1) / columns

/-- The first loop (`grf/grf.py:39-44`): width of the widest row, next vertical place, and the places of the rows. -/
def measure (o : Objs) (l : List Nat) (padding columns : Nat) : Nat → Nat × Nat × List Nat
  | 0 => (0, padding, [])
  | k + 1 =>
    let (w, h, ofs) := measure o l padding columns k
    (max w ((row l columns k).map o.w).sum, h + (padding + maxOf ((row l columns k).map o.h)), ofs ++ [h])

/-- An image: its size and its pixels. For `grf/grf.py:51-59`. -/
structure Image where
  w : Nat
  h : Nat
  px : Nat → Nat → Nat

/-- `s.draw(im)`: the picture is put at the place of the sprite. For `grf/grf.py:51-59`. -/
def draw (im : Image) (w h : Nat) (pic : Option (Nat → Nat → Nat)) (x y : Nat) : Image :=
  match pic with
  | none => im
  | some p => { im with px := fun a b => if x ≤ a ∧ a < x + w ∧ y ≤ b ∧ b < y + h then p (a - x) (b - y) else im.px a b }

/-- What the second loop keeps: the image, and the places stored in the objects (`s.x`, `s.y`, with `s.file`). For `grf/grf.py:51-59`. -/
structure St where
  im : Image
  place : Nat → Option (Nat × Nat)

/-- The second loop (`grf/grf.py:51-59`) from sprite `i` on with the horizontal place `x`; `none` is an `IndexError`. -/
def loop (o : Objs) (padding columns : Nat) (ofs : List Nat) : List Nat → Nat → Nat → St → Option St
  | [], _, _, st => some st
  | s :: r, i, x, st =>
    match ofs[i / columns]? with
    | none => none
    | some y =>
      let x := if i % columns = 0 then padding else x
      loop o padding columns ofs r (i + 1) (x + (o.w s + padding))
        ⟨draw st.im (o.w s) (o.h s) (o.pic s) x y, fun t => if t = s then some (x, y) else st.place t⟩

/-- `make_image` (`grf/grf.py:38-61`); no columns is an exception (`range` refuses the step 0). -/
def makeImage (o : Objs) (l : List Nat) (padding columns : Nat) : Option St :=
  if columns = 0 then none
  else
    let (w, h, ofs) := measure o l padding columns (rowCount l.length columns)
    loop o padding columns ofs l 0 0 ⟨⟨w + (columns + 1) * padding, h, fun _ _ => 0xff⟩, fun _ => none⟩

end Grf.SpriteSheet
