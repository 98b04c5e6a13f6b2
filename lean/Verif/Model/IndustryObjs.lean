import Verif.Model.Industry
import Verif.Model.CallbackObjs
import Verif.Model.Syntax
/-!
# The switches of an industry's tiles as objects of a file (`grf/lib/industry.py:153-203`)

`Model/Industry.lean` computes the number of the sprite of a tile; here are the switches that compute it in the game.
-/
namespace Grf.Chain

/-- The code of the graphics switch (`grf/lib/industry.py:193-195`), with its line breaks and spaces. -/
def graphicsCode : String := "\n                TEMP[0] = get_sprite_num()\n            "

/-- `layout_switches[i]` (`grf/lib/industry.py:153-158`): over the position of the tile in the industry; a number for every tile with a
sprite, otherwise 0. -/
def posSwitch (tiles : List ((Int × Int) × Nat)) (code : List Node) : Sw :=
  { feature := some 9, code := code, ranges := (Industry.switchRanges tiles).map fun p => (p.1, p.1, .result p.2), default := .result 0 }

/-- `get_sprite_num` (`grf/lib/industry.py:167-174`): over the layout of the industry, which is in the related scope of the tile. The
`ref_id` 0 it is given is left out. -/
def layoutSwitch (ks : List Nat) (k0 : Nat) (code : List Node) : Sw :=
  { feature := some 9, related := true, code := code,
    ranges := (List.range ks.length).map fun (i : Nat) => ((i : Int), (i : Int), .obj (ks.getD i 0)), default := .obj k0 }

/-- `tile_callbacks.graphics` (`grf/lib/industry.py:191-201`). -/
def tileGraphics (num layout : Nat) (code : List Node) : Sw :=
  { code := code, subs := [("get_sprite_num", num)], ranges := [(0, 0, .obj layout)], default := .obj layout }

/-- The objects of the tiles of an industry (`grf/lib/industry.py:153-201`): `g` is the graphics of the tile, `q` `get_sprite_num`, `k0 :: ks`
the switches of the layouts, `lay` the sprite layout; the code texts are parsed. -/
structure TilesAt (O : Nat → Obj) (g q lay : Nat) (k0 : Nat) (ks : List Nat) (d : Bytes)
    (ls : List (List ((Int × Int) × Nat) × List (Int × Int))) : Prop where
  graphics : ∃ c, Syntax.parse graphicsCode.toList = some c ∧ O g = .switch (tileGraphics q lay c)
  num : ∃ c, Syntax.parse "layout_num".toList = some c ∧ O q = .switch (layoutSwitch (k0 :: ks) k0 c)
  count : ls.length = (k0 :: ks).length
  each : ∀ (i : Nat) l, ls[i]? = some l →
    ∃ c, Syntax.parse "relative_pos".toList = some c ∧ O ((k0 :: ks).getD i 0) = .switch (posSwitch l.1 c)
  layout : O lay = .sprites (some 9) d

end Grf.Chain
