import Verif.Model.Common
import Verif.Model.Refs
/-!
# Model of the industries of `grf.lib` (`grf/lib/industry.py`)

How a building's sprite is cut into strips for its tiles, and how the buildings of a layout become tiles, sprites and switches.
-/
namespace Grf.Industry

/-- The sprite of a building (`grf/lib/industry.py:19-26`): the image file, the position of the top left pixel in it, height and offsets. The
width `self.sprite.w` is never used by the code. -/
structure Src where
  file : Nat
  x : Int
  y : Int
  h : Nat
  xofs : Int
  yofs : Int
deriving DecidableEq, Repr

/-- A building: its size in tiles and its sprite (`grf/lib/industry.py:17-26`). -/
structure Building where
  w : Int
  h : Int
  src : Src
deriving DecidableEq, Repr

/-- A generated `FileSprite` (`grf/lib/industry.py:46-56`): the file, the part of the image and the offsets; the depth is the building's. -/
structure Strip where
  file : Nat
  x : Int
  y : Int
  w : Nat
  h : Nat
  xofs : Int
  yofs : Int
deriving DecidableEq, Repr

/-- `add_strip` (`grf/lib/industry.py:34-59`): the tiles and sprites in the order they are added, `left` being `ybottom`. The loop ends at
`delta <= 0` or `ybottom = 0`. -/
def addStrip (s : Src) (lx ly x : Int) (w : Nat) (xofs yofs : Int) (left : Nat) : List ((Int × Int) × Strip) :=
  if hz : left = 0 then []
  else
    let delta := min (min (lx - 1) (ly - 1)) 7
    let ytop := if delta = 0 then 0 else left - 231
    ((lx, ly), ⟨s.file, s.x + x, s.y + ytop, w, left - ytop, xofs, s.yofs + yofs + ytop⟩) ::
      if delta > 0 then addStrip s (lx - delta) (ly - delta) x w xofs (yofs + delta * 32) ytop else []
termination_by left
decreasing_by
  split <;> omega

/-- The strips of a building in the order they are added (`grf/lib/industry.py:61-69`). -/
def strips (b : Building) : List ((Int × Int) × Strip) :=
  (List.range (b.h - 1).toNat).flatMap (fun (k : Nat) =>
    let i : Int := k + 1
    addStrip b.src b.w i (-b.src.xofs - 32 * (b.h - i + 1) + 1) 32 (-31) ((b.h - i) * 16) b.src.h) ++
  addStrip b.src b.w b.h (-b.src.xofs - 31) 64 (-31) 0 b.src.h ++
  (List.range (b.w - 1).toNat).flatMap (fun (k : Nat) =>
    let i : Int := k + 1
    addStrip b.src (b.w - i) b.h (-b.src.xofs + i * 32 + 1) 32 1 (i * 16) b.src.h)

/-- `Building.get_sprites` (`grf/lib/industry.py:28-71`): the dictionary from tiles to numbers of sprites, and the sprites. -/
def buildingSprites (b : Building) : List ((Int × Int) × Nat) × List Strip :=
  (strips b).foldl (fun (t, l) e => (dictSet t e.1 l.length, l ++ [e.2])) ([], [])

/-- The state of the loops (`grf/lib/industry.py:125-126`): sprites (`none`: the empty sprite) and the cache, by the identity of the
building objects. -/
structure State where
  sprites : List (Option Strip)
  cache : List (Nat × (List ((Int × Int) × Nat) × Nat))
deriving DecidableEq, Repr

/-- The numbers and the position of the sprites of a building (`grf/lib/industry.py:133-140`). -/
def place (bld : Nat → Building) (st : State) (b : Nat) : State × (List ((Int × Int) × Nat) × Nat) :=
  match st.cache.lookup b with
  | some d => (st, d)
  | none =>
    let r := buildingSprites (bld b)
    (⟨st.sprites ++ r.2.map some, (b, (r.1, st.sprites.length)) :: st.cache⟩, (r.1, st.sprites.length))

/-- The tiles a building is taken to occupy (`grf/lib/industry.py:142-144`): both ranges are over `b.size[0]`. -/
def occupies (b : Building) (x0 y0 : Int) : List (Int × Int) :=
  (List.range b.w.toNat).flatMap fun (i : Nat) => (List.range b.w.toNat).map fun (j : Nat) => ((i : Int) + x0, (j : Int) + y0)

/-- Adding the tiles of a building to the occupied ones (`grf/lib/industry.py:142-147`): `none` is the `RuntimeError`. -/
def occupy : List (Int × Int) → List (Int × Int) → Option (List (Int × Int))
  | occ, [] => some occ
  | occ, k :: ks => if occ.contains k then none else occupy (occ ++ [k]) ks

/-- One layout (`grf/lib/industry.py:130-151`): the state, the numbers of the sprites of the tiles, the occupied tiles. -/
def layoutLoop (bld : Nat → Building) : State → List ((Int × Int) × Nat) → List (Int × Int) → List (Int × Int × Nat) →
    Option (State × List ((Int × Int) × Nat) × List (Int × Int))
  | st, tiles, occ, [] => some (st, tiles, occ)
  | st, tiles, occ, (x0, y0, b) :: l =>
    let p := place bld st b
    match occupy occ (occupies (bld b) x0 y0) with
    | none => none
    | some occ' =>
      layoutLoop bld p.1 (p.2.1.foldl (fun t e => dictSet t (e.1.1 + x0 - 1, e.1.2 + y0 - 1) (e.2 + p.2.2)) tiles) occ' l

/-- All layouts (`grf/lib/industry.py:125-158`). -/
def layoutsLoop (bld : Nat → Building) : State → List (List (Int × Int × Nat)) →
    Option (State × List (List ((Int × Int) × Nat) × List (Int × Int)))
  | st, [] => some (st, [])
  | st, l :: ls =>
    match layoutLoop bld st [] [] l with
    | none => none
    | some (st', r) => (layoutsLoop bld st' ls).map fun q => (q.1, r :: q.2)

/-- `Industry.get_sprites` up to the sprites (`grf/lib/industry.py:125-165`): the sprites of the set, and for every layout the numbers of
its switch and its tiles. -/
def generate (bld : Nat → Building) (layouts : List (List (Int × Int × Nat))) :
    Option (List (Option Strip) × List (List ((Int × Int) × Nat) × List (Int × Int))) :=
  (layoutsLoop bld ⟨[none], []⟩ layouts).map fun q => (q.1.sprites, q.2)

/-- The ranges of the switch of a layout (`grf/lib/industry.py:153-158`): the key is `(y << 8) | x`; a key given twice has its last value. -/
def switchRanges (tiles : List ((Int × Int) × Nat)) : List (Int × Nat) :=
  tiles.foldl (fun d e => dictSet d (pyOr (e.1.2 * 256) e.1.1) e.2) []

/-- `get_sprite_num` (`grf/lib/industry.py:153-158,167-174`): the number of the sprite of a tile, from the number of the layout and the tile's
relative position; without layouts `layout_switches[0]` is an `IndexError`. A layout
without any sprite has a switch without ranges, which gives the position (`empty_layout_gives_position`); here it is 0. -/
def spriteNum (ls : List (List ((Int × Int) × Nat) × List (Int × Int))) (layoutNum pos : Nat) : Option Nat :=
  match ls with
  | [] => none
  | l0 :: _ => some (((switchRanges ((ls[layoutNum]?).getD l0).1).lookup (pos : Int)).getD 0)

end Grf.Industry
