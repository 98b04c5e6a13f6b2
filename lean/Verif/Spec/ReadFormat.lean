import Verif.Spec.ActionFormat
/-!
# What the bytes of an action say, after the NewGRF documentation

`Spec/ActionFormat.lean` describes the bytes of each action as a sequence of fields. A file made by another program may use another form of the
same fields: an extended byte below 255 may be one byte or three. Here a sequence of items is given for each action, and any bytes that have
one of the forms of these items begin with the action. Nothing of the decoder is used.
-/
namespace Grf.Spec
open Acts PropC

/-- An item: a field, or an extended byte. -/
inductive Piece where
  | field (f : Field)
  /-- an extended byte -/
  | E (n : Int)

/-- A byte. -/
def B (n : Int) : Piece := .field (.B n)
/-- A word. -/
def W (n : Int) : Piece := .field (.W n)
/-- A double word. -/
def D (n : Int) : Piece := .field (.D n)
/-- These bytes. -/
def text (b : List UInt8) : Piece := .field (.text b)

/-- These bytes are a form of the item. -/
def Piece.Form : Piece → List UInt8 → Prop
  | .field f, b => f.Fits ∧ b = f.bytes
  | .E n, b => (n ≤ 254 ∧ (Field.B n).Fits ∧ b = (Field.B n).bytes) ∨ ((Field.W n).Fits ∧ b = 255 :: (Field.W n).bytes)

/-- These bytes are forms of these items, one after the other. -/
def Holds : List Piece → List UInt8 → Prop
  | [], b => b = []
  | i :: l, b => ∃ x y, i.Form x ∧ Holds l y ∧ b = x ++ y

/-- The bytes begin with these items (what follows does not matter). -/
def Begins (l : List Piece) (b : List UInt8) : Prop := ∃ x t, Holds l x ∧ b = x ++ t

/-! ### The actions, with the byte of their number -/

/-- Action 1. -/
def setsItems (a : Sets) : List Piece :=
  match a.firstSet with
  | none => [B 1, B a.feature, B a.setCount, .E a.spriteCount]
  | some first => [B 1, B a.feature, B 0, .E first, .E a.setCount, .E a.spriteCount]

/-- Action 2 of vehicles, stations and others. -/
def genericItems (g : Generic) : List Piece :=
  [B 2, B g.feature, B g.refId, B g.ent1.length, B g.ent2.length] ++ g.ent1.map W ++ g.ent2.map W

/-- Random action 2; the count is there for vehicles with the scope "relative". -/
def randomItems (r : Random) : List Piece :=
  [B 2, B r.feature, B r.refId, B (match r.scope with | .self => 0x80 | .parent => 0x83 | .relative => 0x84)] ++
    (match r.count with | none => [] | some c => [B c]) ++
    [B (flagged r.cmpAll r.triggers), B r.lowestBit, B r.groups.length] ++ r.groups.map fun t => W (targetNumber t)

/-- Production of an industry. -/
def productionItems (refId : Int) : Production → List Piece
  | .old v i o d => [B 2, B 10, B refId, B v] ++ (if v = 0 then i.map W ++ o.map W else i.map B ++ o.map B) ++ [B d]
  | .new i o d => [B 2, B 10, B refId, B 2, B i.length] ++ i.flatten.map B ++ [B o.length] ++ o.flatten.map B ++ [B d]

/-- Action 3: `n` is the number of ids, with bit 7 set for wagon overrides; `entries` are the cargos in the order they stand there. -/
def mapItems (feature n : Int) (ids : List Int) (entries : List (Int × Int)) (default : Int) : List Piece :=
  [B 3, B feature, B n] ++ ids.map .E ++ [B entries.length] ++ (entries.flatMap fun e => [B e.1, W e.2]) ++ [W default]

/-- Action 3 without ids. -/
def genericMapItems (feature x default : Int) : List Piece := [B 3, B feature, B 0, B x, W default]

/-- Action 4: bit 7 of the language tells that the offset is a word, for vehicles it is an extended byte. -/
def textItems (s : Texts) : List Piece :=
  [B 4, B s.feature, B (flagged s.generic s.lang), B s.strings.length] ++
    [if s.generic then W s.offset else if s.feature ≤ 3 then .E s.offset else B s.offset]

/-- Action 5. -/
def newSpritesItems (a : NewSprites) : List Piece :=
  match a.offset with
  | none => [B 5, B a.setType, .E a.count]
  | some o => [B 5, B (withBit 7 a.setType), .E a.count, .E o]

/-- Action 6. -/
def modifyItems (ps : List ModParam) : List Piece :=
  [B 6] ++ (ps.flatMap fun p => [B p.num, B p.size, .E p.offset]) ++ [B 255]

/-- Actions 7 and 9; `size` is the size as it is there, `n` the number of bytes of the value. -/
def ifItems (isStatic : Bool) (var size condition : Int) (n : Nat) (value skip : Int) : List Piece :=
  [B (if isStatic then 9 else 7), B var, B size, B condition, text (littleEndian n value), B skip]

/-- Action A. -/
def oldItems (sets : List (Int × Int)) : List Piece :=
  [B 10, B sets.length] ++ sets.flatMap fun s => [B s.2, W s.1]

/-- Action D. -/
def computeItems (a : Compute) : List Piece :=
  [B 13, B a.target, B (flagged a.ifUndefined a.operation), B a.source1, B a.source2] ++
    (match a.value with | .int n => [D n] | _ => [])

/-! ### Layouts of tiles -/

/-- Bit `k` of the flags is set. -/
def bitSet (fl : Int) (k : Nat) : Bool := fl / 2 ^ k % 2 == 1

/-- The registers announced by the flags of a sprite, in the order of their bits; bits 4 and 5 are registers for the position of the
sprite, which are others for a sprite with a place of its own (`parent`) than for one drawn over the one before. -/
def announced (fl : Int) (parent : Bool) : List Reg :=
  (if bitSet fl 0 then [.dodraw] else []) ++ (if bitSet fl 1 then [.add] else []) ++ (if bitSet fl 2 then [.addPalette] else []) ++
  (if bitSet fl 3 then [.customPalette] else []) ++
  (if bitSet fl 4 then [if parent then .deltaParentXY else .deltaChildX] else []) ++
  (if bitSet fl 5 then [if parent then .deltaParentZ else .deltaChildY] else []) ++
  (if bitSet fl 6 then [.spriteVar10] else []) ++ (if bitSet fl 7 then [.paletteVar10] else [])

/-- What a register is: the own palette has no byte, the register for x and y of a parent has two, `add` is a temporary variable. -/
def RegShape : Reg → RVal → Prop
  | .customPalette, v => v = .bool true
  | .deltaParentXY, v => ∃ a b, v = .pair a b
  | .add, v => ∃ n, v = .temp n
  | _, v => ∃ n, v = .int n

/-- The bytes of a register. -/
def regItems : RVal → List Piece
  | .int n => [B n]
  | .temp n => [B n]
  | .pair a b => [B a, B b]
  | .bool _ => []

/-- Where a sprite is: the ground has no place, a sprite with its own place an offset and an extent, the others an offset in pixels,
marked with 128 where the z offset would be. -/
inductive Place : (ground parent : Bool) → LSpr → List Piece → Prop
  | ground (s : LSpr) : s.offset = none → s.extent = none → s.pixelOffset = none → Place true false s []
  | own (s : LSpr) (x y z a b c : Int) : s.offset = some [x, y, z] → s.extent = some [a, b, c] → s.pixelOffset = none → z ≠ 128 →
      Place false true s [B x, B y, B z, B a, B b, B c]
  | over (s : LSpr) (x y : Int) : s.offset = none → s.extent = none → s.pixelOffset = some [x, y] →
      Place false false s [B x, B y, B 128]

/-- A sprite of a layout and its items: number, flags (when the layout has them), place and registers. -/
def TileSprite (withFlags ground : Bool) (s : LSpr) (items : List Piece) : Prop :=
  SpriteFits s.sprite ∧ s.palette = none ∧ ∃ (fl : Int) (parent : Bool) (place : List Piece), (withFlags = false → fl = 0) ∧
    Place ground parent s place ∧ s.regs.map (·.1) = announced fl parent ∧ (∀ p ∈ s.regs, RegShape p.1 p.2) ∧
    items = [D (spriteNumber s.sprite)] ++ (if withFlags then [W fl] else []) ++ place ++ s.regs.flatMap fun p => regItems p.2

/-- The short form of a layout: a ground sprite and one with an offset and an extent. -/
def basicItems (b : Basic) (x y e1 e2 e3 : Int) : List Piece :=
  [B 2, B b.feature, B b.refId, B 0, D (spriteNumber b.ground), D (spriteNumber b.building), B x, B y, B e1, B e2, B e3]

/-- The number of sprites, with bit 6 when there are flags, before the sprites. -/
def layoutItems (l : Layout) (num : Int) (ground : List Piece) (buildings : List (List Piece)) : List Piece :=
  [B 2, B l.feature, B l.refId, B num] ++ ground ++ buildings.flatten

/-- The numbers that make an action 2 a switch or a random switch. -/
def switchNumbers : List Int := [128, 129, 130, 131, 132, 133, 134, 137, 138]

/-- What is known of the entries of a dictionary: keys in the order they come first, with the value that comes last. -/
def DictOf {κ β : Type} [BEq κ] (maps : List (κ × β)) (entries : List (κ × β)) : Prop :=
  (maps.map (·.1)) = (entries.map (·.1)).eraseDups ∧ ∀ k, maps.lookup k = entries.reverse.lookup k

/-- The parameters at the end of an error message: nothing, or a text with a NUL and the numbers of parameters. -/
inductive Params : List UInt8 → Option (List UInt8) → List Int → Prop
  | nothing : Params [] none []
  | numbers (r : List UInt8) : r ≠ [] → 0 ∉ r → Params r none (r.map fun b => (b.toNat : Int))
  | text (t r : List UInt8) : 0 ∉ t → Params (t ++ 0 :: r) (some t) (r.map fun b => (b.toNat : Int))

end Grf.Spec
