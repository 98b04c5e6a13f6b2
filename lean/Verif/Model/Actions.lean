import Verif.Model.Define
import Verif.Model.Switch
/-!
# Model of the other actions: writers (`get_data` in `grf/actions.py`) and readers (`decode_actionN` in `grf/decompile.py`)

A reader gets the bytes after the action byte (`data[1:]`, `grf/decompile.py:1044`). `bytes((v,))` and `struct.pack('<B', v)` raise for
the same values, both are `packU 1`. Python `str` texts are given by their UTF-8 bytes. `Feature` objects are given by their number.
Attributes are integers here where the Python code does not check; a value of a wrong type is not modelled.
-/
namespace Grf.Acts
open PropC

/-- `grf.Feature(n)` (`grf/common.py:120-123`, table `148-170`): `KeyError` for a number which is not in the table. -/
def feature (n : Int) : Option Nat := if 0 ≤ n ∧ n ≤ 0x14 then some n.toNat else none

/-- `feature in VEHICLE_FEATURES` (`grf/common.py:182`). -/
def vehicle (f : Nat) : Bool := f ≤ 3

/-! ### Action 1 -/

/-- `Action1` (`grf/actions.py:1484-1491`); `SpriteSet(feature, count)` (`1517-1519`) is the case `setCount = 1`, `firstSet = none`. -/
structure Sets where
  feature : Nat
  setCount : Int
  spriteCount : Int
  firstSet : Option Int
deriving DecidableEq, Repr

/-- `Action1.get_data` (`grf/actions.py:1493-1505`). `self.first_set or 0` is 0 for `None` and for 0. -/
def Sets.getData (a : Sets) : Option Bytes :=
  if a.setCount ≤ 255 ∧ a.firstSet = none then
    cat [packU 1 1, packU 1 a.feature, packU 1 a.setCount, packU 1 0xff, packU 2 a.spriteCount]
  else
    cat [packU 1 1, packU 1 a.feature, packU 1 0, packU 1 0xff, packU 2 (a.firstSet.getD 0), packU 1 0xff, packU 2 a.setCount,
      packU 1 0xff, packU 2 a.spriteCount]

/-- `decode_action1` (`grf/decompile.py:252-278`): the action and the number of sprites announced to the context. -/
def decode1 (bs : Bytes) : Option (Sets × Int) := do
  let (f, bs) ← readU 1 bs
  let f ← feature f
  let (n, bs) ← readU 1 bs
  if n = 0 then
    let (first, bs) ← readExt bs
    let (n, bs) ← readExt bs
    let (k, _) ← readExt bs
    some (⟨f, n, k, some first⟩, n * k)
  else
    let (k, _) ← readExt bs
    some (⟨f, n, k, none⟩, n * k)

/-! ### Action 2 -/

/-- `GenericSpriteLayout` (`grf/actions.py:1531-1549`). -/
structure Generic where
  feature : Nat
  refId : Int
  ent1 : List Int
  ent2 : List Int
deriving DecidableEq, Repr

/-- The constructor's checks (`grf/actions.py:1542-1544`). -/
def Generic.accepted (g : Generic) : Bool :=
  !([0x07, 0x09, 0x0f, 0x11, 0x0a].contains g.feature) && g.ent1.all (fun x => 0 ≤ x && x ≤ 0xffff) &&
    g.ent2.all (fun x => 0 ≤ x && x ≤ 0xffff)

/-- `GenericSpriteLayout.get_data` (`grf/actions.py:1552-1561`). -/
def Generic.getData (g : Generic) : Option Bytes := do
  let h ← cat [packU 1 2, packU 1 g.feature, packU 1 g.refId, packU 1 g.ent1.length, packU 1 g.ent2.length]
  let a ← cat (g.ent1.map (packU 2))
  let b ← cat (g.ent2.map (packU 2))
  some (h ++ a ++ b)

/-- Scope of a random switch (`grf/actions.py:1857`). -/
inductive Scope where
  | self | parent | relative
deriving DecidableEq, Repr

/-- `{'self': 0x80, 'parent': 0x83, 'relative': 0x84}` (`grf/actions.py:1857`, `grf/decompile.py:529`). -/
def Scope.code : Scope → Int
  | .self => 0x80
  | .parent => 0x83
  | .relative => 0x84

/-- `RandomSwitch` (`grf/actions.py:1834-1848`). -/
structure Random where
  feature : Nat
  refId : Int
  scope : Scope
  count : Option Int
  triggers : Int
  cmpAll : Bool
  lowestBit : Int
  groups : List Target
deriving DecidableEq, Repr

/-- The constructor's checks (`grf/actions.py:1836-1839`). -/
def Random.accepted (r : Random) : Bool :=
  if r.scope = .relative ∧ vehicle r.feature = true then r.count.isSome else r.count.isNone

/-- `RandomSwitch.get_data` (`grf/actions.py:1856-1869`). `bytes((None,))` raises. -/
def Random.getData (r : Random) : Option Bytes := do
  let h ← cat [packU 1 2, packU 1 r.feature, packU 1 r.refId, packU 1 r.scope.code]
  let c ← if r.scope = .relative ∧ vehicle r.feature = false then (match r.count with | none => none | some c => packU 1 c) else some []
  let m ← cat [packU 1 (pyOr r.triggers (if r.cmpAll then 0x80 else 0)), packU 1 r.lowestBit, packU 1 r.groups.length]
  let g ← cat (r.groups.map fun t => packU 2 (getRefId t))
  some (h ++ c ++ m ++ g)

/-- `read_random_switch` (`grf/decompile.py:528-548`). -/
def readRandom (f : Nat) (scope : Scope) (refId : Int) (bs : Bytes) : Option Random := do
  let (count, bs) ← if scope = .relative ∧ vehicle f = true then (readU 1 bs).map (fun p => (some p.1, p.2)) else some (none, bs)
  let (t, bs) ← readU 1 bs
  let (low, bs) ← readU 1 bs
  let (n, bs) ← readU 1 bs
  let (gs, _) ← readN (readU 2) n.toNat bs
  some ⟨f, refId, scope, count, pyAnd t 0x7f, pyAnd t 0x80 != 0, low, gs.map Target.ref⟩

/-- `IndustryProductionCallback` (`grf/actions.py:1885-1900`): versions 0 and 1 have numbers, version 2 lists of two numbers. -/
inductive Production where
  | old (version : Nat) (inputs outputs : List Int) (doAgain : Int)
  | new (inputs outputs : List (List Int)) (doAgain : Int)
deriving DecidableEq, Repr

/-- The constructor's checks (`grf/actions.py:1886-1894`). -/
def Production.accepted : Production → Bool
  | .old v i o _ => v < 2 && i.length == 3 && o.length == 2
  | .new i o _ => i.length < 256 && o.length < 256

/-- `IndustryProductionCallback.get_data` (`grf/actions.py:1902-1921`). `'W'` is not a format character of `struct`, so version 0
raises. In version 2 only the total number of items is checked by `struct.pack`. -/
def Production.getData : Production → Option Bytes
  | .old v i o d => if v = 0 then none else
      cat ([packU 1 0x0a, packU 1 v] ++ i.map (packU 1) ++ o.map (packU 1) ++ [packU 1 d])
  | .new i o d => if i.flatten.length + o.flatten.length = 2 * i.length + 2 * o.length then
      cat ([packU 1 0x0a, packU 1 2, packU 1 i.length] ++ i.flatten.map (packU 1) ++ [packU 1 o.length] ++ o.flatten.map (packU 1) ++
        [packU 1 d])
    else none

/-- A pair of bytes. For `grf/decompile.py:650-673`. -/
def readPair (bs : Bytes) : Option (List Int × Bytes) := readN (readU 1) 2 bs

/-- The part of `decode_action2` for industries (`grf/decompile.py:650-673`); `version` is the byte read before. -/
def readProduction (version : Int) (bs : Bytes) : Option Production :=
  if version < 2 then do
    let k := if version = 0 then 2 else 1
    let (i, bs) ← readN (readU k) 3 bs
    let (o, bs) ← readN (readU k) 2 bs
    let (d, _) ← readU 1 bs
    some (.old version.toNat i o d)
  else if version = 2 then do
    let (n, bs) ← readU 1 bs
    let (i, bs) ← readN readPair n.toNat bs
    let (m, bs) ← readU 1 bs
    let (o, bs) ← readN readPair m.toNat bs
    let (d, _) ← readU 1 bs
    some (.new i o d)
  else none

/-! ### Tile layouts -/

/-- `BasicSpriteLayout` (`grf/actions.py:1574-1581`): `ground = {'sprite': ..}`, `building = {'sprite', 'offset', 'extent'}`. -/
structure Basic where
  feature : Nat
  refId : Int
  ground : SpriteRef
  building : SpriteRef
  offset : List Int
  extent : List Int
deriving DecidableEq, Repr

/-- `assert feature in (HOUSE, INDUSTRY_TILE, OBJECT, INDUSTRY, ROAD_STOP)` (`grf/actions.py:1575`, `1602`). -/
def tileFeature (f : Nat) : Bool := [0x07, 0x09, 0x0f, 0x0a, 0x14].contains f

/-- `BasicSpriteLayout.get_data` (`grf/actions.py:1583-1588`): `struct.pack` takes exactly two offsets and three extents in total
eleven values. -/
def Basic.getData (b : Basic) : Option Bytes :=
  match b.offset ++ b.extent with
  | [x, y, e1, e2, e3] =>
    cat [packU 1 2, packU 1 b.feature, packU 1 b.refId, packU 1 0, SpriteRef.encode false b.ground, SpriteRef.encode false b.building,
      packS 1 x, packS 1 y, packU 1 e1, packU 1 e2, packU 1 e3]
  | _ => none

/-- A sprite of an `AdvancedSpriteLayout` (a dictionary; `grf/actions.py:1612-1641`): the keys `sprite`, `offset`, `extent`,
`pixel_offset`, `palette` and those of `SPRITE_FLAGS`. -/
structure LSpr where
  sprite : SpriteRef
  offset : Option (List Int) := none
  extent : Option (List Int) := none
  pixelOffset : Option (List Int) := none
  palette : Option RVal := none
  regs : List (Reg × RVal) := []
deriving DecidableEq, Repr

/-- `'extent' in sprite or 'offset' in sprite` (`grf/actions.py:1614`). -/
def LSpr.isParent (s : LSpr) : Bool := s.extent.isSome || s.offset.isSome

/-- The loop computing `flags` (`grf/actions.py:1613-1619`). -/
def LSpr.flags (s : LSpr) : Nat :=
  Reg.all.foldl (fun fl r => if r.parent.isSome ∧ r.parent ≠ some s.isParent then fl
    else if (s.regs.lookup r).isSome then fl ||| 2 ^ r.bit else fl) 0

/-- `bytes((val,))` for a key of the dictionary, nothing when it is missing (`grf/actions.py:1634-1641`). -/
def regByte (r : Reg) (s : LSpr) : Option Bytes :=
  match s.regs.lookup r with
  | none => some []
  | some v => if r = .add then (match v with | .temp n => bytesOf [n] | _ => none) else v.byte

/-- Offsets and extents of a sprite which is not the ground sprite (`grf/actions.py:1622-1632`). -/
def LSpr.aux (s : LSpr) : Option Bytes :=
  if s.isParent then do
    let o ← match s.offset.getD [0, 0, 0] with | [x, y, z] => cat [packS 1 x, packS 1 y, packU 1 z] | _ => none
    let e ← match s.extent.getD [0, 0, 0] with | [x, y, z] => cat [packU 1 x, packU 1 y, packU 1 z] | _ => none
    some (o ++ e)
  else match s.pixelOffset.getD [0, 0] with
    | x :: y :: _ => cat [packU 1 x, packU 1 y, packU 1 0x80]
    | _ => none

/-- `AdvancedSpriteLayout._encode_sprite` (`grf/actions.py:1612-1641`). -/
def LSpr.encode (aux : Bool) (s : LSpr) : Option Bytes := do
  let h ← cat [SpriteRef.encode false s.sprite, packU 2 s.flags]
  let a ← if aux then s.aux else some []
  let r ← cat [regByte .dodraw s, regByte .add s, (match s.palette with | none => some [] | some v => v.byte), regByte .spriteVar10 s,
    regByte .paletteVar10 s]
  some (h ++ a ++ r)

/-- `AdvancedSpriteLayout` (`grf/actions.py:1600-1610`); `ExtendedSpriteLayout` (`1660-1663`) writes the same bytes (its
`has_flags=False` is not used), so the class is not part of the model. -/
structure Layout where
  feature : Nat
  refId : Int
  ground : LSpr
  buildings : List LSpr
deriving DecidableEq, Repr

/-- The constructor's checks (`grf/actions.py:1602-1603`). -/
def Layout.accepted (l : Layout) : Bool := tileFeature l.feature && l.buildings.length < 64

/-- `AdvancedSpriteLayout.get_data` (`grf/actions.py:1643-1649`). -/
def Layout.getData (l : Layout) : Option Bytes := do
  let h ← cat [packU 1 2, packU 1 l.feature, packU 1 l.refId, packU 1 (l.buildings.length + 0x40)]
  let g ← l.ground.encode false
  let b ← cat (l.buildings.map (LSpr.encode true))
  some (h ++ g ++ b)

/-- `read_sprite()` (`grf/decompile.py:368-371`). -/
def readHead (hasFlags : Bool) (bs : Bytes) : Option ((SpriteRef × Nat) × Bytes) := do
  let (r, bs) ← SpriteRef.read false bs
  if hasFlags then
    let (fl, bs) ← readU 2 bs
    some ((r, fl.toNat), bs)
  else some ((r, 0), bs)

/-- One iteration of the loop over sprites (`grf/decompile.py:377-388`); `z` tells whether there is a z position. -/
def readLSpr (hasFlags z : Bool) (bs : Bytes) : Option (LSpr × Bytes) := do
  let ((r, fl), bs) ← readHead hasFlags bs
  let (ox, bs) ← readU 1 bs
  let (oy, bs) ← readU 1 bs
  let (oz, bs) ← if z then readU 1 bs else some (0, bs)
  if oz ≠ 0x80 then
    let (ext, bs) ← readN (readU 1) 3 bs
    let (regs, bs) ← readRegs fl true Reg.all bs
    some ({ sprite := r, offset := some [ox, oy, oz], extent := some ext, regs := regs }, bs)
  else
    let (regs, bs) ← readRegs fl false Reg.all bs
    some ({ sprite := r, pixelOffset := some [ox, oy], regs := regs }, bs)

/-- What `read_sprite_layout` builds. For `grf/decompile.py:360-404`. -/
inductive TileLayout where
  | basic (b : Basic)
  | advanced (l : Layout)
deriving DecidableEq, Repr

/-- `read_sprite_layout(d, feature, ref_id, max(num, 1), num == 0)` (`grf/decompile.py:360-404`, call `641`). Airport tiles fail the
assertion. -/
def readLayout (f : Nat) (refId : Int) (num : Nat) (bs : Bytes) : Option TileLayout := do
  if f = 0x11 then none
  else
    let n := max num 1
    let hasFlags := n / 64 % 2 == 1
    let ((r, fl), bs) ← readHead hasFlags bs
    let (regs, bs) ← readRegs fl false Reg.all bs
    let (sprs, _) ← readN (readLSpr hasFlags (num != 0)) (n % 64) bs
    if num = 0 then
      match sprs with
      | [s] => some (.basic ⟨f, refId, r, s.sprite, s.offset.getD [], s.extent.getD []⟩)
      | _ => none
    else some (.advanced ⟨f, refId, { sprite := r, regs := regs }, sprs⟩)

/-- Results of `decode_action2`. For `grf/decompile.py:551-689`. -/
inductive Act2 where
  | switch (d : DSwitch)
  | random (r : Random)
  | layout (l : TileLayout)
  | production (p : Production)
  | generic (g : Generic)
deriving Repr

/-- `decode_action2` (`grf/decompile.py:551-689`). `T f` is the table of named variables of feature `f` used for switches
(`decodeVA2` in `Model/Decode.lean`). -/
def decode2 (T : Nat → List (String × VarData)) (data : Bytes) : Option Act2 := do
  let (f, bs) ← readU 1 data
  let f ← feature f
  let (ref, bs) ← readU 1 bs
  let (t, bs) ← readU 1 bs
  if t = 0x81 ∨ t = 0x82 ∨ t = 0x85 ∨ t = 0x86 ∨ t = 0x89 ∨ t = 0x8a then
    let (d, _) ← decodeVA2 (T f) data
    some (.switch d)
  else if t = 0x80 then (readRandom f .self ref bs).map .random
  else if t = 0x83 then (readRandom f .parent ref bs).map .random
  else if t = 0x84 then (readRandom f .relative ref bs).map .random
  else if f = 0x07 ∨ f = 0x09 ∨ f = 0x0f ∨ f = 0x11 then (readLayout f ref t.toNat bs).map .layout
  else if f = 0x0a then (readProduction t bs).map .production
  else
    let (m, bs) ← readU 1 bs
    let (e1, bs) ← readN (readU 2) t.toNat bs
    let (e2, _) ← readN (readU 2) m.toNat bs
    some (.generic ⟨f, ref, e1, e2⟩)

/-! ### Action 3 -/

/-- `Action3` (`grf/actions.py:1935-1943`); `Map(definition, maps, default)` (`1995-2003`) has the single id of the definition.
`maps` is a dictionary from cargo types to targets. -/
structure GMap where
  feature : Nat
  ids : List Int
  maps : List (Int × Target)
  default : Target
  wagonOverride : Bool := false
deriving DecidableEq, Repr

/-- `Action3.get_data` (`grf/actions.py:1954-1971`). Without ids `struct.pack` gets `self.default` itself and accepts only a number. -/
def GMap.getData (a : GMap) : Option Bytes :=
  if a.ids = [] then
    match a.default with
    | .num n => cat [packU 1 3, packU 1 a.feature, packU 1 0, packU 1 0, packU 2 n]
    | _ => none
  else do
    let h ← cat [packU 1 3, packU 1 a.feature, packU 1 a.ids.length]
    let i ← cat (a.ids.map fun x => if a.ids.any (fun y => 0xff ≤ y) then cat [packU 1 0xff, packU 2 x] else packU 1 x)
    let n ← packU 1 a.maps.length
    let m ← cat (a.maps.map fun p => cat [packU 1 p.1, packU 2 (getRefId p.2)])
    let d ← packU 2 (getRefId a.default)
    some (h ++ i ++ n ++ m ++ d)

/-- An entry of the map (`grf/decompile.py:707-709`). -/
def readEntry (bs : Bytes) : Option ((Int × Int) × Bytes) := do
  let (k, bs) ← readU 1 bs
  let (v, bs) ← readU 2 bs
  some ((k, v), bs)

/-- `decode_action3` (`grf/decompile.py:692-717`); `wagon_override` is not passed on. -/
def decode3 (data : Bytes) : Option GMap := do
  let (f, bs) ← readU 1 data
  let f ← feature f
  let (n, bs) ← readU 1 bs
  if n = 0 then
    let (_, bs) ← readU 1 bs
    let (d, _) ← readU 2 bs
    some ⟨f, [], [], .ref d, false⟩
  else
    let (ids, bs) ← readN readExt (n.toNat % 128) bs
    let (c, bs) ← readU 1 bs
    let (es, bs) ← readN readEntry c.toNat bs
    let (d, _) ← readU 2 bs
    some ⟨f, ids, es.foldl (fun m e => dictSet m e.1 (.ref e.2)) [], .ref d, false⟩

/-! ### Action 4 -/

/-- `DefineStrings` (`grf/actions.py:2019-2036`). -/
structure Texts where
  feature : Nat
  lang : Int
  offset : Int
  generic : Bool
  strings : List Bytes
deriving DecidableEq, Repr

/-- The constructor's checks (`grf/actions.py:2021-2029`). -/
def Texts.accepted (s : Texts) : Bool :=
  if vehicle s.feature || s.generic then 0 ≤ s.offset && s.offset ≤ 0xffff else 0 ≤ s.offset && s.offset ≤ 0xff

/-- `b'\0'.join(strings)`. For `grf/actions.py:2038-2045`. -/
def joinNul : List Bytes → Bytes
  | [] => []
  | [s] => s
  | s :: r => s ++ 0 :: joinNul r

/-- The bytes before the strings (`grf/actions.py:2039-2044`). -/
def Texts.header (s : Texts) : Option Bytes :=
  if s.generic then
    cat [packU 1 4, packU 1 s.feature, packU 1 (pyOr s.lang 0x80), packU 1 s.strings.length, packU 2 s.offset]
  else if vehicle s.feature = true ∧ 0xff ≤ s.offset then
    cat [packU 1 4, packU 1 s.feature, packU 1 s.lang, packU 1 s.strings.length, packU 1 0xff, packU 2 s.offset]
  else cat [packU 1 4, packU 1 s.feature, packU 1 s.lang, packU 1 s.strings.length, packU 1 s.offset]

/-- `DefineStrings.get_data` (`grf/actions.py:2038-2045`). -/
def Texts.getData (s : Texts) : Option Bytes := do
  let h ← s.header
  some (h ++ (joinNul s.strings ++ [0]))

/-- `data.split(b'\0')`: always at least one part. For `grf/decompile.py:720-740`. -/
def splitAll : Bytes → List Bytes
  | [] => [[]]
  | b :: r => if b = 0 then [] :: splitAll r else
    match splitAll r with
    | [] => [[b]]
    | p :: ps => (b :: p) :: ps

/-- The id of the first string (`grf/decompile.py:722-729`). -/
def readOffset (generic veh : Bool) (bs : Bytes) : Option (Int × Bytes) :=
  if generic then readU 2 bs
  else do
    let (o, bs') ← readU 1 bs
    if veh = true ∧ o = 0xff then readU 2 bs' else some (o, bs')

/-- `decode_action4` (`grf/decompile.py:720-740`). `[b'']` is also what `split` gives for empty data. -/
def decode4 (data : Bytes) : Option Texts := do
  let (f, bs) ← readU 1 data
  let f ← feature f
  let (l, bs) ← readU 1 bs
  let (n, bs) ← readU 1 bs
  let generic := pyAnd l 0x80 != 0
  let (o, bs) ← readOffset generic (vehicle f) bs
  let strings := splitAll bs.dropLast
  if strings.length = n then some ⟨f, pyAnd l 0x7f, o, generic, strings⟩ else none

/-! ### Actions 5 to 13 -/

/-- `ReplaceNewSprites` (`grf/actions.py:2070-2078`). -/
structure NewSprites where
  setType : Int
  count : Int
  offset : Option Int
deriving DecidableEq, Repr

/-- `ReplaceNewSprites.get_data` (`grf/actions.py:2080-2083`). -/
def NewSprites.getData (a : NewSprites) : Option Bytes :=
  match a.offset with
  | none => cat [packU 1 5, packU 1 a.setType, packU 1 0xff, packU 2 a.count]
  | some o => cat [packU 1 5, packU 1 (pyOr a.setType 0x80), packU 1 0xff, packU 2 a.count, packU 1 0xff, packU 2 o]

/-- `decode_action5` (`grf/decompile.py:743-751`): the action and the number of sprites announced to the context. -/
def decode5 (bs : Bytes) : Option (NewSprites × Int) := do
  let (t, bs) ← readU 1 bs
  let (n, bs) ← readExt bs
  if pyAnd t 0x80 ≠ 0 then
    let (o, _) ← readExt bs
    some (⟨pyAnd t (-129), n, some o⟩, n)
  else some (⟨t, n, none⟩, n)

/-- One parameter of `ModifySprites` (`grf/actions.py:2091-2094`): `num`, `size`, `offset`. -/
structure ModParam where
  num : Int
  size : Int
  offset : Int
deriving DecidableEq, Repr

/-- `ModifySprites.get_data` (`grf/actions.py:2096-2102`). -/
def modifyData (ps : List ModParam) : Option Bytes := do
  let h ← packU 1 6
  let b ← cat (ps.map fun p => cat [packU 1 p.num, packU 1 p.size, packU 1 0xff, packU 2 p.offset])
  some (h ++ b ++ [0xff])

/-- The loop of `decode_action6` (`grf/decompile.py:754-764`); every iteration uses a byte, so as many as there are bytes suffice. -/
def decode6 : Nat → Bytes → Option (List ModParam)
  | 0, _ => none
  | fuel + 1, bs => do
    let (n, bs) ← readU 1 bs
    if n = 0xff then some []
    else
      let (s, bs) ← readU 1 bs
      let (o, bs) ← readExt bs
      let r ← decode6 fuel bs
      some (⟨n, s, o⟩ :: r)

/-- The value of an `If`: bytes or a number. For `grf/actions.py:2110-2120`. -/
inductive IfValue where
  | bytes (b : Bytes)
  | int (n : Int)
deriving DecidableEq, Repr

/-- `If` (`grf/actions.py:2110-2120`). -/
structure If where
  isStatic : Bool
  var : Int
  varsize : Option Int
  condition : Int
  value : IfValue
  skip : Int
deriving DecidableEq, Repr

/-- The constructor's check (`grf/actions.py:2112`). -/
def If.accepted (a : If) : Bool := a.varsize.isSome || (match a.value with | .bytes _ => true | .int _ => false)

/-- `[(value >> (8 * i)) & 0xff for i in range(n)]` (`grf/actions.py:2128-2129`), little-endian bytes of a Python integer. -/
def lowBytes (n : Nat) (v : Int) : Bytes :=
  (List.range n).map fun i => UInt8.ofNat (pyAnd (v >>> (8 * i)) 0xff).toNat

/-- `If.get_data` (`grf/actions.py:2122-2131`). The constructor makes sure there is a size for numbers. -/
def If.getData (a : If) : Option Bytes := do
  let size := a.varsize.getD (match a.value with | .bytes b => b.length | .int _ => 0)
  let h ← cat [packU 1 (if a.isStatic then 9 else 7), packU 1 a.var, packU 1 size, packU 1 a.condition]
  let v := match a.value with | .bytes b => b | .int n => lowBytes size.toNat n
  let s ← packU 1 a.skip
  some (h ++ v ++ s)

/-- `decode_action7or9` (`grf/decompile.py:767-784`). -/
def decode7 (isStatic : Bool) (bs : Bytes) : Option If := do
  let (v, bs) ← readU 1 bs
  let (size, bs) ← readU 1 bs
  let (c, bs) ← readU 1 bs
  let size := if c < 2 then 1 else size
  let (value, bs) ← readU size.toNat bs
  let (skip, _) ← readU 1 bs
  some ⟨isStatic, v, some size, c, .int value, skip⟩

/-- `SetDescription` (`grf/actions.py:2150-2166`). -/
structure Description where
  version : Int
  grfid : Bytes
  name : Bytes
  description : Bytes
deriving DecidableEq, Repr

/-- `SetDescription.__init__`, `get_data` (`grf/actions.py:2165-2166`, `2177-2178`). -/
def Description.getData (a : Description) : Option Bytes := do
  let h ← cat [packU 1 8, packU 1 a.version]
  some (h ++ a.grfid ++ a.name ++ [0] ++ a.description ++ [0])

/-- `decode_action8` (`grf/decompile.py:791-802`). Without a NUL `find` returns -1, then the name is everything but the last byte and
the description everything but the last byte of the whole data. -/
def decode8 (data : Bytes) : Option Description := do
  let (v, _) ← readU 1 data
  let rest := data.drop 5
  match splitNul rest with
  | some (name, d) => some ⟨v, (data.drop 1).take 4, name, d.dropLast⟩
  | none => some ⟨v, (data.drop 1).take 4, rest.dropLast, data.dropLast⟩

/-- `ReplaceOldSprites.get_data` (`grf/actions.py:2193-2205`) for a list of `(first, num)`; the constructor asserts `len ≤ 0xff`. -/
def oldData (sets : List (Int × Int)) : Option Bytes := do
  let h ← cat [packU 1 0xa, packU 1 sets.length]
  let b ← cat (sets.map fun s => cat [packU 1 s.2, packU 2 s.1])
  some (h ++ b)

/-- One set (`grf/decompile.py:811-812`). -/
def readSet (bs : Bytes) : Option ((Int × Int) × Bytes) := do
  let (n, bs) ← readU 1 bs
  let (f, bs) ← readU 2 bs
  some ((f, n), bs)

/-- `decode_actionA` (`grf/decompile.py:809-814`): the sets and the number of sprites announced to the context. -/
def decodeA (bs : Bytes) : Option (List (Int × Int) × Int) := do
  let (n, bs) ← readU 1 bs
  let (sets, _) ← readN readSet n.toNat bs
  some (sets, (sets.map (·.2)).sum)

/-- Message of an error: a number or a text. For `grf/actions.py:2214-2225`. -/
inductive Msg where
  | int (n : Int)
  | bytes (b : Bytes)
deriving DecidableEq, Repr

/-- `ErrorMessage` (`grf/actions.py:2214-2225`). `params=None` (the default) raises in line 2219, so there is always a list. -/
structure Err where
  severity : Int
  lang : Int
  message : Msg
  textParam : Option Bytes
  params : List Int
deriving DecidableEq, Repr

/-- The constructor's checks (`grf/actions.py:2217-2219`; `ANY_LANGUAGE` is 0x7f). -/
def Err.accepted (e : Err) : Bool :=
  (0 ≤ e.severity && e.severity < 256) && (0 ≤ e.lang && e.lang ≤ 0x7f) && e.params.all (fun p => 0 ≤ p && p < 256)

/-- `message_id` (`grf/actions.py:2228`). -/
def Err.id (e : Err) : Int := match e.message with | .int n => n | .bytes _ => 0xff

/-- The text of the message (`grf/actions.py:2230-2231`). The number 0xFF has no `encode`. -/
def Err.text (e : Err) : Option Bytes :=
  match e.message with
  | .int n => if n = 0xff then none else some []
  | .bytes b => some b

/-- The parameters (`grf/actions.py:2233-2236`). -/
def Err.tail (e : Err) : Option Bytes :=
  if e.textParam.isSome ∨ e.params ≠ [] then do
    let ps ← bytesOf e.params
    some (e.textParam.getD [] ++ [0] ++ ps)
  else some []

/-- `ErrorMessage.get_data` (`grf/actions.py:2227-2237`). -/
def Err.getData (e : Err) : Option Bytes := do
  let h ← cat [packU 1 0x0b, packU 1 e.severity, packU 1 e.lang, packU 1 e.id]
  let m ← e.text
  let p ← e.tail
  some (h ++ m ++ [0] ++ p)

/-- The message read and the bytes after it (`grf/decompile.py:824-831`). -/
def readMessage (m : Int) (bs : Bytes) : Msg × Bytes :=
  if m = 0xff then (.int m, bs)
  else match splitNul bs with
    | none => (.int m, bs)
    | some (t, r) => (.bytes t, r)

/-- The text parameter and the parameters read (`grf/decompile.py:832-839`). -/
def readTail (bs : Bytes) : Option Bytes × List Int :=
  if bs = [] then (none, [])
  else match splitNul bs with
    | none => (none, intsOf bs)
    | some (t, r) => (some t, intsOf r)

/-- `decode_actionB` (`grf/decompile.py:817-847`). Missing terminators add a comment to the result, which is not modelled. The
constructor refuses languages above 0x7f (`grf/actions.py:2218`). -/
def decodeB (data : Bytes) : Option Err := do
  let (s, bs) ← readU 1 data
  let (l, bs) ← readU 1 bs
  let (m, bs) ← readU 1 bs
  if 0x7f < l then none
  else some ⟨s, l, (readMessage m bs).1, (readTail (readMessage m bs).2).1, (readTail (readMessage m bs).2).2⟩

/-- `Comment.get_data` (`grf/actions.py:2258-2259`): `bytes((0x0C))` is `bytes(12)`, twelve zero bytes. -/
def commentData (data : Bytes) : Option Bytes := some (List.replicate 12 0 ++ data)

/-- Value of `ComputeParameters`: `None`, bytes or a number. For `grf/actions.py:2268-2276`. -/
inductive PValue where
  | none
  | bytes (b : Bytes)
  | int (n : Int)
deriving DecidableEq, Repr

/-- `ComputeParameters` (`grf/actions.py:2268-2276`). -/
structure Compute where
  target : Int
  operation : Int
  ifUndefined : Bool
  source1 : Int
  source2 : Int
  value : PValue
deriving DecidableEq, Repr

/-- The value at the end (`grf/actions.py:2281-2285`). -/
def Compute.valueData (a : Compute) : Option Bytes :=
  if a.source1 = 0xff ∨ a.source2 = 0xff then (match a.value with
    | .none => none
    | .bytes b => some b
    | .int n => packU 4 n) else some []

/-- `ComputeParameters.get_data` (`grf/actions.py:2278-2286`). -/
def Compute.getData (a : Compute) : Option Bytes := do
  let h ← cat [packU 1 0x0d, packU 1 a.target, packU 1 (pyOr a.operation (if a.ifUndefined then 0x80 else 0)), packU 1 a.source1,
    packU 1 a.source2]
  let v ← a.valueData
  some (h ++ v)

/-- The value at the end (`grf/decompile.py:878-880`). -/
def readValue (s1 s2 : Int) (bs : Bytes) : Option PValue :=
  if s1 = 0xff ∨ s2 = 0xff then (readU 4 bs).map (fun p => PValue.int p.1) else some .none

/-- `decode_actionD` (`grf/decompile.py:871-895`): `OPERATIONS` has the keys 0..0x0C (`854-868`). The comment is not modelled. -/
def decodeD (bs : Bytes) : Option Compute := do
  let (t, bs) ← readU 1 bs
  let (op, bs) ← readU 1 bs
  let (s1, bs) ← readU 1 bs
  let (s2, bs) ← readU 1 bs
  let v ← readValue s1 s2 bs
  if pyAnd op 0x7f ≤ 0x0c then some ⟨t, pyAnd op 0x7f, pyAnd op 0x80 != 0, s1, s2, v⟩ else none

/-- `Label` (`grf/actions.py:2307-2316`): the constructor refuses labels outside 0..255, as `bytes` does. -/
structure Lbl where
  label : Int
  comment : Bytes
deriving DecidableEq, Repr

/-- `Label.get_data` (`grf/actions.py:2315-2316`). -/
def Lbl.getData (a : Lbl) : Option Bytes := do
  let h ← cat [packU 1 0x10, packU 1 a.label]
  some (h ++ a.comment)

/-- `decode_action10` (`grf/decompile.py:898-901`). -/
def decode10 (bs : Bytes) : Option Lbl := do
  let (l, bs) ← readU 1 bs
  some ⟨l, bs⟩

/-- `SoundEffects.get_data` (`grf/actions.py:2324-2330`). -/
def soundsData (count : Int) : Option Bytes := cat [packU 1 0x11, packU 2 count]

/-- `decode_action11` (`grf/decompile.py:904-907`). -/
def decode11 (bs : Bytes) : Option Int := (readU 2 bs).map (·.1)

/-- `ImportSound.get_data` (`grf/actions.py:2336-2343`). -/
def importData (grfid : Bytes) (number : Int) : Option Bytes := do
  let n ← packU 2 number
  some ([0xfe, 0] ++ grfid ++ n)

/-- `decode_sound_actionFE` (`grf/decompile.py:979-982`). -/
def decodeFE (data : Bytes) : Option (Bytes × Int) := do
  let (n, _) ← readU 2 (data.drop 5)
  some ((data.drop 1).take 4, n)

/-- `UnicodeGlyphs` (`grf/actions.py:2351-2361`): the constructor checks the number of glyphs and stores an empty list. -/
def glyphsData (glyphs : List (Int × Int × Int)) : Option Bytes :=
  if glyphs.length < 256 then cat [packU 1 0x12, packU 1 0] else none

end Grf.Acts
