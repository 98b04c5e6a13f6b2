import Verif.Model.Refs
/-!
# Model of the sprites a vehicle puts into the file (`grf/lib/rv.py:67-124`, `grf/lib/ship.py:55-111`, `grf/lib/train.py:176-301`,
`grf/lib/vehicle.py:72-106`)

Objects are represented by their identities, as in `Model/Refs.lean`.
-/
namespace Grf.VehicleSprites

/-- `Vehicle._validate_liveries` (`grf/lib/vehicle.py:79-88`), the part about the sprites: a livery has eight of them. The checks for
missing dictionary keys are left out: a livery is its list of sprites. -/
def liveriesAccepted (ls : List (List Nat)) : Bool := ls.all (fun l => l.length == 8)

/-- `Vehicle._gen_purchase_sprites` (`grf/lib/vehicle.py:96-106`): a `SpriteSet` with one sprite, the sprite, and the layout that draws
set 0. -/
def purchaseSprites : Option (Nat × Nat × Nat) → List Nat
  | some (set, sprite, layout) => [set, sprite, layout]
  | none => []

/-- An `Action1` with one set for every livery, and their sprites in order (`grf/lib/rv.py:112-121`, `grf/lib/ship.py:100-108`,
`grf/lib/train.py:178-185`). No liveries (`None` or an empty list): nothing. -/
def graphics : Option (Nat × List (List Nat)) → List Nat
  | none => []
  | some (_, []) => []
  | some (action1, l :: ls) => action1 :: (l :: ls).flatten

/-- The cases of the switch over the cargo subtype: livery `i` for the value `i`, the first livery otherwise; a single livery has no
switch, only its layout (`grf/lib/rv.py:70-87`, `grf/lib/ship.py:58-75`, `grf/lib/train.py:191-206`). -/
def liveryCases (layouts : List Nat) : List (Int × Nat) := (List.range layouts.length).map (fun i => (Int.ofNat i, layouts.getD i 0))

/-- `RoadVehicle.get_sprites`, `Ship.get_sprites` (`grf/lib/rv.py:67-124`, `grf/lib/ship.py:55-111`): the order of the sprites. `names`
are the strings, `maps` the result of `make_map_action`. -/
def shipSprites (purchase : Option (Nat × Nat × Nat)) (names : List Nat) (definition : Nat) (liveries : Option (Nat × List (List Nat)))
    (maps : List Nat) : List Nat :=
  purchaseSprites purchase ++ names ++ [definition] ++ graphics liveries ++ maps

/-- An articulated part: its liveries, its definition and its map (`grf/lib/train.py:278-299`). -/
structure Part where
  liveries : Option (Nat × List (List Nat))
  definition : Nat
  maps : List Nat

/-- The sprites of an articulated part (`grf/lib/train.py:284-299`). -/
def Part.sprites (p : Part) : List Nat := graphics p.liveries ++ [p.definition] ++ p.maps

/-- `Train.get_sprites` (`grf/lib/train.py:245-301`): the order of the sprites. -/
def trainSprites (purchase : Option (Nat × Nat × Nat)) (head : Option (Nat × List (List Nat))) (names : List Nat) (definition : Nat)
    (maps : List Nat) (parts : List Part) : List Nat :=
  purchaseSprites purchase ++ graphics head ++ names ++ [definition] ++ maps ++ parts.flatMap Part.sprites

/-- `SpriteTable.add_row` and `VehicleSpriteTable.add_row` (`grf/lib/vehicle.py:15-21`): the row must have the width of the table, if it
is known; the number returned is that of the new row. -/
def addRow (width : Option Nat) (rows : List (List Nat)) (row : List Nat) : Option (Nat × List (List Nat)) :=
  match width with
  | some w => if row.length ≠ w then none else some (rows.length, rows ++ [row])
  | none => some (rows.length, rows ++ [row])

/-- `VehicleSpriteTable.add_purchase_graphics` (`grf/lib/vehicle.py:46-56`): `empty` is `EMPTY_SPRITE`. -/
def purchaseRow (empty : Nat) (sprite : Nat) (secondHead : Option Nat) : List Nat :=
  [empty, empty, secondHead.getD empty, empty, empty, empty, sprite, empty]

/-- `SpriteTable.get_sprites` (`grf/lib/vehicle.py:23-34`): refused without rows. For a `SpriteTable` that is not a
`VehicleSpriteTable` the width stays `None`, which the `Action1` cannot be written with. -/
def tableSprites (action1 : Nat) (rows : List (List Nat)) : Option (List Nat) :=
  if rows.isEmpty then none else some (action1 :: rows.flatten)

end Grf.VehicleSprites
