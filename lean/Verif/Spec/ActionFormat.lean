import Verif.Model.Actions
/-!
# The bytes of the actions, as the NewGRF documentation writes them

The documentation describes every action as a sequence of fields: bytes (`B`), words (`W`), double words (`D`), extended bytes (`B*`)
and texts. Here each action is given as such a sequence, with the numbers it holds; a sequence can be written when every number fits
its field, and then its bytes are those of the fields. Nothing of the encoder is used.
-/
namespace Grf.Spec

/-- A field. -/
inductive Field where
  /-- a byte -/
  | B (n : Int)
  /-- a signed byte, in two's complement -/
  | S (n : Int)
  /-- a word, the lower byte first -/
  | W (n : Int)
  /-- a double word, the lowest byte first -/
  | D (n : Int)
  /-- these bytes -/
  | text (b : List UInt8)

/-- The number fits the field. -/
def Field.Fits : Field → Prop
  | .B n => 0 ≤ n ∧ n ≤ 255
  | .S n => -128 ≤ n ∧ n ≤ 127
  | .W n => 0 ≤ n ∧ n ≤ 65535
  | .D n => 0 ≤ n ∧ n ≤ 4294967295
  | .text _ => True

/-- Its bytes. -/
def Field.bytes : Field → List UInt8
  | .B n => [UInt8.ofNat n.toNat]
  | .S n => [UInt8.ofNat (if n < 0 then n + 256 else n).toNat]
  | .W n => [UInt8.ofNat n.toNat, UInt8.ofNat (n.toNat / 256)]
  | .D n => [UInt8.ofNat n.toNat, UInt8.ofNat (n.toNat / 256), UInt8.ofNat (n.toNat / 65536), UInt8.ofNat (n.toNat / 16777216)]
  | .text b => b

/-- These bytes are the fields, and every number fits. -/
def WrittenAs (fs : List Field) (bs : List UInt8) : Prop := (∀ f ∈ fs, f.Fits) ∧ bs = fs.flatMap Field.bytes

/-- A number with its bit `k` set. -/
def withBit (k : Nat) (n : Int) : Int := if n / 2 ^ k % 2 = 0 then n + 2 ^ k else n

/-- With its bit 7 set when `b` is true, the number itself otherwise. -/
def flagged (b : Bool) (n : Int) : Int := if b then withBit 7 n else n

/-- A sprite number with its palette and flags: bits 0 to 13 the sprite, 14 always transparent, 15 recoloured, 16 to 29 the palette,
30 never transparent, 31 a sprite of this file (when flagged by `local`). -/
def spriteNumber (r : SpriteRef) : Int :=
  r.id + (if r.alwaysTransparent then 2 ^ 14 else 0) + (if r.useRecolour then 2 ^ 15 else 0) + 2 ^ 16 * r.pal +
    (if r.noTransparent then 2 ^ 30 else 0) + (if r.isGlobal then 0 else 2 ^ 31)

/-- Both numbers have 14 bits. -/
def SpriteFits (r : SpriteRef) : Prop := 0 ≤ r.id ∧ r.id ≤ 0x3fff ∧ 0 ≤ r.pal ∧ r.pal ≤ 0x3fff

/-- The word for a target: the id of an action, a callback result or the number of a sound with bit 15 set, a given word as it is. -/
def targetNumber : Target → Int
  | .ref w => w
  | .action i => i
  | .num n => withBit 15 n
  | .sound n => withBit 15 n

open Acts PropC

/-! ### The actions -/

/-- Action 1: `01 feature num-sets B*num-ent`, or with a first set `01 feature 00 B*first-set B*num-sets B*num-ent`. -/
def setsFields (a : Sets) : List Field :=
  if a.firstSet = none ∧ a.setCount ≤ 255 then [.B 1, .B a.feature, .B a.setCount, .B 255, .W a.spriteCount]
  else [.B 1, .B a.feature, .B 0, .B 255, .W (a.firstSet.getD 0), .B 255, .W a.setCount, .B 255, .W a.spriteCount]

/-- Action 2 of vehicles and stations: `02 feature set-id num-loaded num-loading W.. W..`. -/
def genericFields (g : Generic) : List Field :=
  [.B 2, .B g.feature, .B g.refId, .B g.ent1.length, .B g.ent2.length] ++ g.ent1.map .W ++ g.ent2.map .W

/-- Random action 2: `02 feature set-id type triggers randbit nrand W..`. -/
def randomFields (r : Random) : List Field :=
  [.B 2, .B r.feature, .B r.refId, .B (match r.scope with | .self => 0x80 | .parent => 0x83 | .relative => 0x84),
    .B (flagged r.cmpAll r.triggers), .B r.lowestBit, .B r.groups.length] ++ r.groups.map fun t => .W (targetNumber t)

/-- What is written for the production of an industry (it begins with 10, the number of the feature, without the 2 of the action and
without an id). -/
def productionFields : Production → List Field
  | .old v i o d => [.B 10, .B v] ++ i.map .B ++ o.map .B ++ [.B d]
  | .new i o d => [.B 10, .B 2, .B i.length] ++ i.flatten.map .B ++ [.B o.length] ++ o.flatten.map .B ++ [.B d]

/-- Action 2 of tiles, the short form: `02 feature set-id 00 D-ground D-building S-x S-y B-x B-y B-z`; offset and extent together must
have five numbers. -/
def basicFields (b : Basic) : List Field :=
  [.B 2, .B b.feature, .B b.refId, .B 0, .D (spriteNumber b.ground), .D (spriteNumber b.building)] ++
    ((b.offset ++ b.extent).take 2).map .S ++ ((b.offset ++ b.extent).drop 2).map .B

/-- A number or a truth value. -/
def numberOf : RVal → Option Int
  | .int n => some n
  | .bool b => some (if b then 1 else 0)
  | .temp _ => none
  | .pair _ _ => none

/-- The byte of a register that may be missing. -/
def optionalB : Option Int → List Field
  | none => []
  | some n => [.B n]

/-- The key is in the dictionary of the sprite. -/
def hasKey (s : LSpr) (r : Reg) : Bool := (s.regs.lookup r).isSome

/-- The flag word of a sprite of a layout: 1 do not draw, 2 add to the sprite, 4 add to the palette, 8 own palette, 16 and 32 registers
for the position (those for parents or those for children, after what the sprite is), 64 and 128 variable 10. -/
def layoutFlags (s : LSpr) (parent : Bool) : Int :=
  (if hasKey s .dodraw then 1 else 0) + (if hasKey s .add then 2 else 0) + (if hasKey s .addPalette then 4 else 0) +
  (if hasKey s .customPalette then 8 else 0) +
  (if hasKey s (if parent then .deltaParentXY else .deltaChildX) then 16 else 0) +
  (if hasKey s (if parent then .deltaParentZ else .deltaChildY) then 32 else 0) +
  (if hasKey s .spriteVar10 then 64 else 0) + (if hasKey s .paletteVar10 then 128 else 0)

/-- A sprite with an offset or an extent has a place of its own, one without is drawn over the one before. -/
def ownPlace (s : LSpr) : Bool := s.offset.isSome || s.extent.isSome

/-- Position: `S-x S-y B-z B-ex B-ey B-ez` of a sprite with its own place, `B-x B-y 80` of the others. -/
def placeFields (s : LSpr) : List Field :=
  if ownPlace s then ((s.offset.getD [0, 0, 0]).take 2).map .S ++ ((s.offset.getD [0, 0, 0]).drop 2).map .B ++ (s.extent.getD [0, 0, 0]).map .B
  else ((s.pixelOffset.getD [0, 0]).take 2).map .B ++ [.B 0x80]

/-- The position has as many numbers as it needs. -/
def PlaceOk (s : LSpr) : Prop :=
  if ownPlace s then (s.offset.getD [0, 0, 0]).length = 3 ∧ (s.extent.getD [0, 0, 0]).length = 3 else 2 ≤ (s.pixelOffset.getD [0, 0]).length

/-- The registers: those written are numbers, except `add`, which is a `Temp`. -/
structure RegsOk (s : LSpr) (dodraw add palette sprite10 palette10 : Option Int) : Prop where
  dodraw : (s.regs.lookup .dodraw).map numberOf = dodraw.map some
  add : s.regs.lookup .add = add.map .temp
  palette : s.palette.map numberOf = palette.map some
  sprite10 : (s.regs.lookup .spriteVar10).map numberOf = sprite10.map some
  palette10 : (s.regs.lookup .paletteVar10).map numberOf = palette10.map some

/-- A sprite of a layout: number, flags, position unless it is the ground, and the registers `dodraw`, `add`, `palette` and the two for
variable 10. (The registers `add_palette`, `custom_palette` and those for the position have flags but are not written.) -/
def layoutSprite (ground : Bool) (s : LSpr) (bs : List UInt8) : Prop :=
  SpriteFits s.sprite ∧ (ground = false → PlaceOk s) ∧ ∃ d a p s10 p10, RegsOk s d a p s10 p10 ∧
    WrittenAs ([.D (spriteNumber s.sprite), .W (layoutFlags s (ownPlace s))] ++ (if ground then [] else placeFields s) ++
      optionalB d ++ optionalB a ++ optionalB p ++ optionalB s10 ++ optionalB p10) bs

/-- Action 3: `03 feature n-ids ids.. num-cargos (cargo W)*.. W-default`; with an id of 255 or more every id is an extended byte with
its marker. -/
def mapFields (a : GMap) : List Field :=
  [.B 3, .B a.feature, .B a.ids.length] ++ (a.ids.flatMap fun i => if ∃ j ∈ a.ids, 255 ≤ j then [.B 255, .W i] else [.B i]) ++
    [.B a.maps.length] ++ (a.maps.flatMap fun m => [.B m.1, .W (targetNumber m.2)]) ++ [.W (targetNumber a.default)]

/-- Action 4: `04 feature language num B*/W-offset texts`, every text ending with a zero. Bit 7 of the language tells that the offset is
a word; for vehicles an offset of 255 and more is an extended byte. (Without any text one zero is written.) -/
def textFields (s : Texts) : List Field :=
  [.B 4, .B s.feature, .B (flagged s.generic s.lang), .B s.strings.length] ++
    (if s.generic then [.W s.offset] else if s.feature ≤ 3 ∧ 255 ≤ s.offset then [.B 255, .W s.offset] else [.B s.offset]) ++
    (if s.strings = [] then [.text [0]] else s.strings.map fun t => .text (t ++ [0]))

/-- Action 5: `05 type B*num [B*offset]`; bit 7 of the type tells that there is an offset. -/
def newSpritesFields (a : NewSprites) : List Field :=
  match a.offset with
  | none => [.B 5, .B a.setType, .B 255, .W a.count]
  | some o => [.B 5, .B (withBit 7 a.setType), .B 255, .W a.count, .B 255, .W o]

/-- Action 6: `06 (param size B*offset).. FF`. -/
def modifyFields (ps : List ModParam) : List Field :=
  [.B 6] ++ (ps.flatMap fun p => [.B p.num, .B p.size, .B 255, .W p.offset]) ++ [.B 255]

/-- The lowest `n` bytes of a number, the lowest first. -/
def littleEndian : Nat → Int → List UInt8
  | 0, _ => []
  | n + 1, v => UInt8.ofNat (v % 256).toNat :: littleEndian n (v / 256)

/-- Actions 7 and 9: `07 variable varsize condition value num-sprites`. -/
def ifFields (a : If) : List Field :=
  match a.value with
  | .bytes b => [.B (if a.isStatic then 9 else 7), .B a.var, .B (a.varsize.getD b.length), .B a.condition, .text b, .B a.skip]
  | .int v => [.B (if a.isStatic then 9 else 7), .B a.var, .B (a.varsize.getD 0), .B a.condition,
      .text (littleEndian (a.varsize.getD 0).toNat v), .B a.skip]

/-- Action 8: `08 version grfid name 00 description 00`. -/
def descriptionFields (a : Description) : List Field :=
  [.B 8, .B a.version, .text a.grfid, .text (a.name ++ [0]), .text (a.description ++ [0])]

/-- Action A: `0A num-sets (num-sprites W-first)..`. -/
def oldFields (sets : List (Int × Int)) : List Field :=
  [.B 10, .B sets.length] ++ sets.flatMap fun s => [.B s.2, .W s.1]

/-- Action B: `0B severity language message-id [message 00 [data 00 params..]]`; own messages have the id 255. -/
def errorFields (e : Err) : List Field :=
  [.B 11, .B e.severity, .B e.lang] ++
    (match e.message with | .int n => [.B n, .text [0]] | .bytes b => [.B 255, .text (b ++ [0])]) ++
    (if e.textParam = none ∧ e.params = [] then [] else .text (e.textParam.getD [] ++ [0]) :: e.params.map .B)

/-- Action D: `0D target operation source1 source2 [D-data]`; bit 7 of the operation tells to keep a value that is there. -/
def computeFields (a : Compute) : List Field :=
  [.B 13, .B a.target, .B (flagged a.ifUndefined a.operation), .B a.source1, .B a.source2] ++
    (if a.source1 = 255 ∨ a.source2 = 255 then (match a.value with | .none => [] | .bytes b => [.text b] | .int n => [.D n]) else [])

/-- Action 10: `10 label comment`. -/
def labelFields (a : Lbl) : List Field := [.B 16, .B a.label, .text a.comment]

/-- Action 11: `11 W-num`. -/
def soundsFields (count : Int) : List Field := [.B 17, .W count]

/-- Sound import: `FE 00 grfid W-number`. -/
def importFields (grfid : List UInt8) (number : Int) : List Field := [.B 254, .B 0, .text grfid, .W number]

end Grf.Spec
