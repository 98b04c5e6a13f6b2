import Verif.Model.Common
/-!
# Model of the sprite sheets of the decompiler (`grf/decompile.py`)
-/
namespace Grf.Sheet

/-- What the layout uses of a sprite (`grf/decompile.py:1185-1194`). -/
structure Spr where
  width : Nat
  height : Nat
  type : Nat
deriving DecidableEq, Repr

/-- `PADDING` (`grf/decompile.py:1338`). -/
def padding : Nat := 5

/-- `N`, the number of sprites in a line (`grf/decompile.py:1349`). -/
def perLine : Nat := 8

/-- `sprites[i: i + N]` for `i = k * N` (`grf/decompile.py:1350-1352`). -/
def line (ss : List Spr) (k : Nat) : List Spr := (ss.drop (k * perLine)).take perLine

/-- The number of iterations of `range(0, len(sprites), N)` (`grf/decompile.py:1350`). -/
def lineCount (ss : List Spr) : Nat := (ss.length + perLine - 1) / perLine

/-- `lw` (`grf/decompile.py:1351`). -/
def lineWidth (ss : List Spr) (k : Nat) : Nat := ((line ss k).map (·.width)).sum + padding * 2 * perLine

/-- `lh` (`grf/decompile.py:1352`). -/
def lineHeight (ss : List Spr) (k : Nat) : Nat := padding * 2 + ((line ss k).map (·.height)).foldl max 0

/-- `line_ofs[k]`, the sum of the heights before (`grf/decompile.py:1354-1355`). -/
def lineOfs (ss : List Spr) (k : Nat) : Nat := ((List.range k).map (lineHeight ss)).sum

/-- `w`, the width of the sheet (`grf/decompile.py:1345,1353`). -/
def sheetWidth (ss : List Spr) : Nat := ((List.range (lineCount ss)).map (lineWidth ss)).foldl max 0

/-- `h`, the height of the sheet (`grf/decompile.py:1346,1355`). -/
def sheetHeight (ss : List Spr) : Nat := lineOfs ss (lineCount ss)

/-- A sprite with alpha but no colours, which is not extracted (`grf/decompile.py:1372-1374`). -/
def Spr.skipped (s : Spr) : Bool := s.type % 4 == 2

/-- The place of a sprite: its number, `xofs` and `yofs`. For `grf/decompile.py:1367-1416`. -/
structure Cell where
  index : Nat
  x : Nat
  y : Nat
deriving DecidableEq, Repr

/-- The loop of `save_graphic_resources` (`grf/decompile.py:1367-1416`) from sprite `i` on, `rest` being the sprites left. `yofs` is taken
from `line_ofs`, `xofs` starts at every line; decoding is left out. -/
def place (ss : List Spr) : Nat → Nat → List Spr → List Cell
  | _, _, [] => []
  | i, x, s :: rest =>
    let y := padding + lineOfs ss (i / perLine)
    let x := if i % perLine = 0 then padding else x
    if s.skipped then place ss (i + 1) x rest
    else ⟨i, x, y⟩ :: place ss (i + 1) (x + s.width + 2 * padding) rest

/-- The cells of a sheet (`grf/decompile.py:1366-1416`). -/
def cells (ss : List Spr) : List Cell := place ss 0 0 ss

/-- What is drawn for a sprite on one of the two sheets, if it has the sheet's layer: the outline for a duplicate, from `xofs - 2` to
`xofs + width + 1` inclusive, then the picture (`grf/decompile.py:1396-1412`). Pixels of the sheet are numbers from the left and the top;
`pic` has the pixel of the picture in each place. -/
def paint {α : Type} (canvas : Nat → Nat → α) (c : Cell) (s : Spr) (pic : Nat → Nat → α) (outline : Option α) : Nat → Nat → α :=
  let framed := match outline with
    | none => canvas
    | some col => fun x y =>
      if c.x - 2 ≤ x ∧ x ≤ c.x + s.width + 1 ∧ c.y - 2 ≤ y ∧ y ≤ c.y + s.height + 1 ∧
          (x = c.x - 2 ∨ x = c.x + s.width + 1 ∨ y = c.y - 2 ∨ y = c.y + s.height + 1) then col else canvas x y
  fun x y => if c.x ≤ x ∧ x < c.x + s.width ∧ c.y ≤ y ∧ y < c.y + s.height then pic (x - c.x) (y - c.y) else framed x y

/-- All the drawing on one sheet, in order. `drawn i` tells whether sprite `i` has the sheet's layer, `pic i` are its pixels, `outline i`
the colour of its outline if it is a duplicate. For `grf/decompile.py:1358-1416`. -/
def paintAll {α : Type} (ss : List Spr) (drawn : Nat → Bool) (pic : Nat → Nat → Nat → α) (outline : Nat → Option α) :
    (Nat → Nat → α) → List Cell → Nat → Nat → α
  | canvas, [] => canvas
  | canvas, c :: cs =>
    paintAll ss drawn pic outline (if drawn c.index then paint canvas c (ss[c.index]?.getD ⟨0, 0, 0⟩) (pic c.index) (outline c.index) else canvas) cs

/-- A sheet (`grf/decompile.py:1358-1416`) on a blank background. -/
def sheet {α : Type} (ss : List Spr) (blank : α) (drawn : Nat → Bool) (pic : Nat → Nat → Nat → α) (outline : Nat → Option α) : Nat → Nat → α :=
  paintAll ss drawn pic outline (fun _ _ => blank) (cells ss)

end Grf.Sheet
