import Verif.Model.SpriteRef
import Verif.Model.PropTables
import Verif.Spec.Calendar
/-!
# Model of the property value codecs of Action 0

Writers: `Property.encode` of the classes in `grf/actions.py:212-1153` and `DefineMultiple._encode_value`
(`grf/actions.py:1376-1421`). Readers: `Property.read` of the same classes and `read_property` (`grf/decompile.py:161-210`).
A reader works on the remaining bytes `data[ofs:]` and returns what is left. `validate` is never called by the library.
-/
namespace Grf.PropC

/-- `data[ofs: ofs + n]`, `ofs + n`: slices never raise. For `grf/decompile.py:177`. -/
def slice (n : Nat) (bs : Bytes) : Bytes × Bytes := (bs.take n, bs.drop n)

/-- `[read() for _ in range(n)]`. For `grf/actions.py:1012-1041`. -/
def readN {α : Type} (r : Bytes → Option (α × Bytes)) : Nat → Bytes → Option (List α × Bytes)
  | 0, bs => some ([], bs)
  | n + 1, bs => do
    let (a, bs) ← r bs
    let (l, bs) ← readN r n bs
    some (a :: l, bs)

/-- `bytes(l)` for integers: `ValueError` outside 0..255. For `grf/actions.py:772-776`. -/
def bytesOf (l : List Int) : Option Bytes := l.mapM byteOf

/-- `tuple(map(int, bs))`. For `grf/decompile.py:186-188`. -/
def intsOf (bs : Bytes) : List Int := bs.map fun b => (b.toNat : Int)

/-! ### Labels -/

/-- A label as the user gives it: an integer or bytes. For `grf/actions.py:1376-1380`. -/
inductive Lab where
  | int (n : Int)
  | bytes (b : Bytes)
deriving DecidableEq, Repr

/-- `_encode_label` (`grf/actions.py:1376-1380`). -/
def encodeLabel : Lab → Option Bytes
  | .int n => packU 4 n
  | .bytes b => if b.length = 4 then some b else none

/-- `data[ofs: ofs + 4]` (`grf/decompile.py:177`). -/
def readLabel (bs : Bytes) : Option (Lab × Bytes) := some (.bytes (slice 4 bs).1, (slice 4 bs).2)

/-! ### Dates -/

/-- `days_to_date` (`grf/common.py:115-118`). The standard library's dates are the proleptic Gregorian calendar
(`Spec.nthDay`, counted from year 0); its last day is number 3652424. -/
def daysToDate (days : Nat) : Nat ⊕ Spec.CDate :=
  if days < 366 ∨ days > 3652424 then .inl days else .inr (Spec.nthDay days)

/-! ### Industry layouts -/

/-- An item of an `IndustryLayout` (`grf/actions.py:936-997`). -/
inductive Tile where
  | new (xofs yofs id : Int)
  | old (xofs yofs id : Int)
  | check (xofs yofs : Int)
deriving DecidableEq, Repr

/-- The constructors' checks (`grf/actions.py:938-946`, `955-958`, `969-973`, `982-990`). -/
def Tile.accepted : Tile → Bool
  | .new x y i => 0 ≤ i && i ≤ 0xFFFF && (0 ≤ x && x < 256) && (0 ≤ y && y < 256) && !(x == 0 && y == 0x80)
  | .old x y i => 0 ≤ i && i < 0xFE && (0 ≤ x && x < 256) && (0 ≤ y && y < 256) && !(x == 0 && y == 0x80)
  | .check x y => (-128 ≤ x && x < 128) && (-128 ≤ y && y < 128) && !(x == 0 && y == -128)

/-- `tile.xofs`. For `grf/actions.py:1001-1004`. -/
def Tile.xofs : Tile → Int
  | .new x _ _ => x
  | .old x _ _ => x
  | .check x _ => x

/-- `IndustryLayout(values)` (`grf/actions.py:1001-1004`): the check on the first item, and that items were constructed. -/
def layoutAccepted (l : List Tile) : Bool :=
  l.all Tile.accepted && (match l with | [] => true | t :: _ => t.xofs != 0xFE)

/-- `tile.encode()` (`grf/actions.py:963-964`, `978-979`, `995-996`). -/
def Tile.encode : Tile → Option Bytes
  | .new x y i => cat [packU 1 x, packU 1 y, packU 1 0xFE, packU 2 i]
  | .old x y i => cat [packU 1 x, packU 1 y, packU 1 i]
  | .check x y => cat [packS 1 x, packS 1 y, packU 1 0xFF]

/-- One layout with its terminator (`grf/actions.py:1044-1047`). -/
def encodeLayout (l : List Tile) : Option Bytes := do
  let a ← cat (l.map Tile.encode)
  some (a ++ [0, 0x80])

/-- `IndustryLayoutsProperty.encode` (`grf/actions.py:1042-1048`). -/
def encodeLayouts (ls : List (List Tile)) : Option Bytes := do
  let body ← cat (ls.map encodeLayout)
  let n ← packU 1 ls.length
  let s ← packU 4 body.length
  some (n ++ s ++ body)

/-- The inner loop of `IndustryLayoutsProperty.read` (`grf/actions.py:1018-1039`): `n` iterations left, `first` tells whether
`k == 0`. `none` also stands for the `NotImplementedError` of a borrowed layout, and for the `NameError` of every special check:
`utoi8` (line 1036) is not imported in this file. The constructors called on what is read cannot refuse it (offsets are bytes, `00 80`
has ended the loop, ids are in range). -/
def readTiles : Nat → Bool → Bytes → Option (List Tile × Bytes)
  | 0, _, bs => some ([], bs)
  | n + 1, first, bs => do
    let (x, bs) ← readU 1 bs
    if x = 0xfe ∧ first = true then none
    else
      let (y, bs) ← readU 1 bs
      if x = 0 ∧ y = 0x80 then some ([], bs)
      else
        let (gfx, bs) ← readU 1 bs
        if gfx = 0xfe then
          let (i, bs) ← readU 2 bs
          let (l, bs) ← readTiles n false bs
          some (Tile.new x y i :: l, bs)
        else if gfx = 0xff then
          none
        else
          let (l, bs) ← readTiles n false bs
          some (Tile.old x y gfx :: l, bs)

/-- `IndustryLayoutsProperty.read` (`grf/actions.py:1012-1041`). `IndustryLayout(layout)` (line 1039) checks the first item
again: `xofs == 0xFE` has been excluded by the `NotImplementedError`. -/
def readLayouts (bs : Bytes) : Option (List (List Tile) × Bytes) := do
  let (num, bs) ← readU 1 bs
  let (size, bs) ← readU 4 bs
  readN (readTiles size.toNat true) num.toNat bs

/-! ### Bridge layouts -/

/-- `BridgeLayoutProperty.encode` (`grf/actions.py:772-776`): `struct.pack` raises unless a table has 32 entries. -/
def encodeBridge (tableId : Int) (tables : List (List SpriteRef)) : Option Bytes := do
  let hdr ← bytesOf [tableId, tables.length]
  let body ← cat (tables.map fun t =>
    if t.length = 32 then cat (t.map (SpriteRef.encode false)) else none)
  some (hdr ++ body)

/-- `BridgeLayoutProperty.read` (`grf/actions.py:759-770`). -/
def readBridge (bs : Bytes) : Option ((Int × List (List SpriteRef)) × Bytes) := do
  let (tid, bs) ← readU 1 bs
  let (n, bs) ← readU 1 bs
  let (ts, bs) ← readN (readN (SpriteRef.read false) 32) n.toNat bs
  some ((tid, ts), bs)

/-! ### Dictionaries of texts -/

/-- `MultiDictProperty.encode` (`grf/actions.py:881-891`). A dictionary value is a text or a list of texts; a single text is the
list of that text here (the code wraps it, line 884). Texts are given as bytes (`to_bytes`). -/
def encodeMultiDict (d : List (Int × List Bytes)) : Option Bytes := do
  let parts ← cat (d.flatMap fun kv => kv.2.map fun v => do
    let k ← byteOf kv.1
    some (k :: v ++ [0]))
  some (parts ++ [0])

/-- `data.find(b'\0', 0)`: the bytes before the first NUL and those after it. For `grf/actions.py:866-878`. -/
def splitNul : Bytes → Option (Bytes × Bytes)
  | [] => none
  | b :: r => if b = 0 then some ([], r) else (splitNul r).map fun p => (b :: p.1, p.2)

/-- `res[k] = v`, or one more item of `res[k]` (`grf/actions.py:869-875`). -/
def addText (d : List (Int × List Bytes)) (k : Int) (v : Bytes) : List (Int × List Bytes) :=
  match d with
  | [] => [(k, [v])]
  | (k', l) :: r => if k' = k then (k', l ++ [v]) :: r else (k', l) :: addText r k v

/-- The loop of `MultiDictProperty.read` (`grf/actions.py:866-878`). Without a NUL after a key `find` returns -1 and the loop starts
over at the beginning of the data; that is not modelled (`none`). `fuel` more than the number of bytes is never used up. -/
def readMultiDict : Nat → List (Int × List Bytes) → Bytes → Option (List (Int × List Bytes) × Bytes)
  | 0, _, _ => none
  | fuel + 1, d, bs =>
    match bs with
    | [] => none
    | k :: r =>
      if k = 0 then some (d, r)
      else match splitNul r with
        | none => none
        | some (v, r') => readMultiDict fuel (addText d k.toNat v) r'

/-! ### Advanced station layouts -/

/-- The keys of `SPRITE_FLAGS` (`grf/parser.py:789-800`). -/
inductive Reg where
  | dodraw | add | addPalette | customPalette | deltaParentXY | deltaParentZ | deltaChildX | deltaChildY | spriteVar10 | paletteVar10
deriving DecidableEq, Repr

/-- `SPRITE_FLAGS` in table order. For `grf/actions.py:567-581`. -/
def Reg.all : List Reg :=
  [.dodraw, .add, .addPalette, .customPalette, .deltaParentXY, .deltaParentZ, .deltaChildX, .deltaChildY, .spriteVar10, .paletteVar10]

/-- Where the register may be used (`None`, `True`, `False` in the table). For `grf/actions.py:586-612`. -/
def Reg.parent : Reg → Option Bool
  | .deltaParentXY => some true
  | .deltaParentZ => some true
  | .deltaChildX => some false
  | .deltaChildY => some false
  | _ => none

/-- The bit number of the mask in the table. For `grf/actions.py:586-612`. -/
def Reg.bit : Reg → Nat
  | .dodraw => 0
  | .add => 1
  | .addPalette => 2
  | .customPalette => 3
  | .deltaParentXY => 4
  | .deltaParentZ => 5
  | .deltaChildX => 4
  | .deltaChildY => 5
  | .spriteVar10 => 6
  | .paletteVar10 => 7

/-- The size in the table. For `grf/actions.py:596-609`. -/
def Reg.size : Reg → Nat
  | .customPalette => 0
  | .deltaParentXY => 2
  | _ => 1

/-- A value in the registers dictionary. For `grf/actions.py:603-604`. -/
inductive RVal where
  | int (n : Int)
  | temp (n : Int)
  | pair (a b : Int)
  | bool (b : Bool)
deriving DecidableEq, Repr

/-- `bytes((value,))`, and `value` being usable there (`grf/actions.py:603-604`). -/
def RVal.byte : RVal → Option Bytes
  | .int n => bytesOf [n]
  | .bool b => bytesOf [if b then 1 else 0]
  | _ => none

/-- Truth value of a Python object. For `grf/actions.py:596-609`. -/
def RVal.truthy : RVal → Bool
  | .int n => n != 0
  | .bool b => b
  | _ => true

/-- Bytes of one register, `none` inside for a skipped one (`grf/actions.py:596-609`). -/
def encodeReg (r : Reg) (v : RVal) : Option (Option Bytes) := do
  let v ← if r = .add then (match v with | .temp n => some (RVal.int n) | _ => none) else some v
  match r.size with
  | 0 => some (if v.truthy then some [] else none)
  | 1 => v.byte.map some
  | _ => match v with
    | .pair a b => (bytesOf [a, b]).map some
    | _ => none

/-- `encode_sprite_layout_registers` (`grf/actions.py:586-612`): bytes and flags. Registers come in the order of the dictionary. -/
def encodeRegs (isParent : Bool) : List (Reg × RVal) → Option (Bytes × Nat)
  | [] => some ([], 0)
  | (r, v) :: l => do
    if r.parent.isSome ∧ r.parent ≠ some isParent then none
    else
      let b ← encodeReg r v
      let (bs, fl) ← encodeRegs isParent l
      match b with
      | none => some (bs, fl)
      | some b => some (b ++ bs, (2 ^ r.bit) ||| fl)

/-- One register (`grf/actions.py:533-545`). -/
def readReg (r : Reg) (bs : Bytes) : Option (RVal × Bytes) :=
  match r.size with
  | 0 => some (.bool true, bs)
  | 1 => (readU 1 bs).map fun p => (if r = .add then .temp p.1 else .int p.1, p.2)
  | _ => do
    let (a, bs) ← readU 1 bs
    let (b, bs) ← readU 1 bs
    some (.pair a b, bs)

/-- `read_sprite_layout_registers` (`grf/actions.py:524-546`, and the copy in `grf/decompile.py`): in the order of `l`, which is
`SPRITE_FLAGS`. -/
def readRegs (flags : Nat) (isParent : Bool) : List Reg → Bytes → Option (List (Reg × RVal) × Bytes)
  | [], bs => some ([], bs)
  | r :: l, bs =>
    if flags / 2 ^ r.bit % 2 = 0 then readRegs flags isParent l bs
    else if r.parent.isSome ∧ r.parent ≠ some isParent then readRegs flags isParent l bs
    else do
      let (v, bs) ← readReg r bs
      let (m, bs) ← readRegs flags isParent l bs
      some ((r, v) :: m, bs)

/-- What an element of `SpriteLayout.sprites` is (`grf/actions.py:477-517`). -/
inductive Kind where
  | ground
  | parent (ox oy oz ex ey ez : Int)
  | child (x y : Int)
deriving DecidableEq, Repr

/-- A sprite without children. For `grf/actions.py:615-634`. -/
structure Flat where
  kind : Kind
  sprite : SpriteRef
  regs : List (Reg × RVal)
deriving DecidableEq, Repr

/-- A sprite as the user builds it or the reader returns it: `children` are `ChildSprite`s. The attribute `flags` is not used by
the writer and is derived from the registers; it is not modelled. For `grf/actions.py:615-634`. -/
structure Spr where
  flat : Flat
  children : List Flat := []
deriving DecidableEq, Repr

/-- `encode_sprite` (`grf/actions.py:615-634`): `children` are not written. -/
def encodeSpr (s : Spr) : Option Bytes := do
  let isParent := match s.flat.kind with | .child _ _ => false | _ => true
  let (rb, fl) ← encodeRegs isParent s.flat.regs
  let h ← cat [packU 4 (SpriteRef.toGrf false s.flat.sprite), packU 2 fl]
  let b ← match s.flat.kind with
    | .ground => some []
    | .parent ox oy oz ex ey ez => bytesOf [ox, oy, oz, ex, ey, ez]
    | .child x y => bytesOf [x, y, 0x80]
  some (h ++ b ++ rb)

/-- `encode_sprite_layout(layout, True, False)` (`grf/actions.py:637-650`); `num` is -1 for an empty list, and `-1 | 0x40` is still
-1. -/
def encodeSprs (l : List Spr) : Option Bytes := do
  if l = [] then none
  else if l.length - 1 < 0x40 then
    let n ← packU 1 ((l.length - 1 ||| 0x40 : Nat) : Int)
    let b ← cat (l.map encodeSpr)
    some (n ++ b)
  else none

/-- `NewStationLayoutProperty.encode` (`grf/actions.py:707-712`). -/
def encodeStation (ls : List (List Spr)) : Option Bytes := do
  if ls.length ≤ 0xffff then
    let h ← cat [packU 1 255, packU 2 ls.length]
    let b ← cat (ls.map encodeSprs)
    some (h ++ b)
  else none

/-- `read_sprite()` inside `read_sprite_layout` (`grf/actions.py:554-557`). -/
def readSprHead (hasFlags : Bool) (bs : Bytes) : Option ((SpriteRef × Nat) × Bytes) := do
  let (v, bs) ← readU 4 bs
  let (fl, bs) ← if hasFlags then readU 2 bs else some ((0 : Int), bs)
  some ((SpriteRef.fromGrf false v, fl.toNat), bs)

/-- `cur_parent.add_child(c)`: `cur_parent` is the last element of the list of sprites. For `grf/actions.py:567-581`. -/
def addChild (l : List Spr) (c : Flat) : List Spr :=
  match l with
  | [] => []
  | [s] => [{ s with children := s.children ++ [c] }]
  | s :: r => s :: addChild r c

/-- The loop of `read_sprite_layout` (`grf/actions.py:567-581`), `has_z_position` true. -/
def readSprLoop (hasFlags : Bool) : Nat → List Spr → Bytes → Option (List Spr × Bytes)
  | 0, acc, bs => some (acc, bs)
  | n + 1, acc, bs => do
    let ((s, fl), bs) ← readSprHead hasFlags bs
    let (ox, bs) ← readU 1 bs
    let (oy, bs) ← readU 1 bs
    let (oz, bs) ← readU 1 bs
    if oz = 0x80 then
      let (rs, bs) ← readRegs fl false Reg.all bs
      readSprLoop hasFlags n (addChild acc ⟨.child ox oy, s, rs⟩) bs
    else
      let (ex, bs) ← readU 1 bs
      let (ey, bs) ← readU 1 bs
      let (ez, bs) ← readU 1 bs
      let (rs, bs) ← readRegs fl true Reg.all bs
      readSprLoop hasFlags n (acc ++ [{ flat := ⟨.parent ox oy oz ex ey ez, s, rs⟩ }]) bs

/-- `read_sprite_layout(d, num, False, global_if_flagged=False)` (`grf/actions.py:549-583`). -/
def readSprs (num : Nat) (bs : Bytes) : Option (List Spr × Bytes) := do
  let hasFlags := num / 64 % 2 == 1
  let ((s, fl), bs) ← readSprHead hasFlags bs
  let (rs, bs) ← readRegs fl false Reg.all bs
  readSprLoop hasFlags (num % 64) [{ flat := ⟨.ground, s, rs⟩ }] bs

/-- `NewStationLayoutProperty.read` (`grf/actions.py:696-705`). -/
def readStation (bs : Bytes) : Option (List (List Spr) × Bytes) := do
  let (num, bs) ← readExt bs
  readN (fun bs => do let (n, bs) ← readU 1 bs; readSprs n.toNat bs) num.toNat bs

/-- The inner loop of `OldStationLayoutProperty.read` (`grf/actions.py:672-684`). Sprites have no registers (`None`). `fuel` more than
the number of bytes is never used up: every round takes ten bytes or ends. -/
def readOldLoop : Nat → List Spr → Bytes → Option (List Spr × Bytes)
  | 0, _, _ => none
  | fuel + 1, acc, bs => do
    let (ox, bs) ← readU 1 bs
    if ox = 0x80 then some (acc, bs)
    else
      let (oy, bs) ← readU 1 bs
      let (oz, bs) ← readU 1 bs
      let (ex, bs) ← readU 1 bs
      let (ey, bs) ← readU 1 bs
      let (ez, bs) ← readU 1 bs
      let (s, bs) ← SpriteRef.read false bs
      if oz = 0x80 then readOldLoop fuel (addChild acc ⟨.child ox oy, s, []⟩) bs
      else readOldLoop fuel (acc ++ [{ flat := ⟨.parent ox oy oz ex ey ez, s, []⟩ }]) bs

/-- One layout of `OldStationLayoutProperty.read` (`grf/actions.py:664-685`): `None` for a ground of 0. -/
def readOldLayout (bs : Bytes) : Option (Option (List Spr) × Bytes) := do
  let (v, bs) ← readU 4 bs
  if v = 0 then some (none, bs)
  else
    let (l, bs) ← readOldLoop (bs.length + 1) [{ flat := ⟨.ground, SpriteRef.fromGrf false v, []⟩ }] bs
    some (some l, bs)

/-- `OldStationLayoutProperty.read` (`grf/actions.py:659-687`). -/
def readOldStation (bs : Bytes) : Option (List (Option (List Spr)) × Bytes) := do
  let (num, bs) ← readExt bs
  readN readOldLayout num.toNat bs

/-! ### All formats -/

/-- Property values. Lists and tuples are not distinguished. For `grf/actions.py:1382-1421`. -/
inductive PVal where
  | int (n : Int)
  /-- a `datetime.date` or a `grf.Date` -/
  | date (d : Spec.CDate)
  /-- an object with an `id` -/
  | obj (id : Int)
  | label (l : Lab)
  | ints (l : List Int)
  | labels (l : List Lab)
  | pair (x y : Int)
  | pairs (l : List (Int × Int))
  | bridge (tableId : Int) (tables : List (List SpriteRef))
  | texts (d : List (Int × List Bytes))
  | layouts (ls : List (List Tile))
  | station (ls : List (List Spr))
  /-- the result of reading old station layouts, which cannot be written (`Property.encode` raises) -/
  | oldStation (ls : List (Option (List Spr)))
  /-- the result of reading `n*m*W` -/
  | words (l : List (List Int))
deriving DecidableEq, Repr

/-- `_encode_value` (`grf/actions.py:1382-1421`) and `Property.encode`; `none` is an exception. Values of a type the code does not
handle raise. In `n*B` bytes are the list of their values. For `date` and integer labels see `encodeLabel` and C03. -/
def encode : Fmt → PVal → Option Bytes
  | .B, .int n => packU 1 n
  | .b, .int n => packS 1 n
  | .W, .int n => packU 2 n
  | .D, .int n => packU 4 n
  | .L, .label l => encodeLabel l
  | .Bx, .int n => cat [packU 1 255, packU 2 n]
  | .nB, .ints l => do let n ← packU 1 l.length; let b ← bytesOf l; some (n ++ b)
  | .B8, .ints l => if l.length = 8 then cat (l.map (packU 1)) else none
  | .L2, .labels l => if l.length = 2 then cat (l.map encodeLabel) else none
  | .nL, .labels l => do let n ← bytesOf [l.length]; let b ← cat (l.map encodeLabel); some (n ++ b)
  | .date, .date d => packU 4 (dateToDays d.year d.month d.day)
  | .date, .int n => packU 4 n
  | .id, .int n => packU 2 n
  | .id, .obj n => packU 2 n
  | .idx, .int n => encodeExtendedByte n
  | .idx, .obj n => encodeExtendedByte n
  | .climate, .int n => packU 1 n
  | .byteList, .ints l => do let n ← packU 1 l.length; let b ← bytesOf l; some (n ++ b)
  | .accept, .pairs l => do
    let n ← bytesOf [l.length]
    let b ← cat (l.map fun p => bytesOf [p.1, p.2])
    some (n ++ b)
  | .size, .int n => bytesOf [n]
  | .size, .pair x y => bytesOf [pyOr (y * 16) x]
  | .bridge, .bridge i ts => encodeBridge i ts
  | .multiDict, .texts d => encodeMultiDict d
  | .layouts, .layouts ls => encodeLayouts ls
  | .newStation, .station ls => encodeStation ls
  | _, _ => none

/-- A byte and that many bytes (`grf/decompile.py:186-188`, `grf/actions.py:299-302`): a short slice does not raise. -/
def readCounted (bs : Bytes) : Option (List Int × Bytes) := do
  let (n, bs) ← readU 1 bs
  some (intsOf (bs.take n.toNat), bs.drop n.toNat)

/-- `read_property` (`grf/decompile.py:161-210`) and `Property.read`; `none` is an exception. Formats the reader
does not know (`8*B`, `4*B`, `V`, `0E`, `12*32*B`) are `none`. -/
def read (f : Fmt) (bs : Bytes) : Option (PVal × Bytes) :=
  match f with
  | .B => (readU 1 bs).map fun p => (.int p.1, p.2)
  | .b => (readS 1 bs).map fun p => (.int p.1, p.2)
  | .W => (readU 2 bs).map fun p => (.int p.1, p.2)
  | .D => (readU 4 bs).map fun p => (.int p.1, p.2)
  | .L => (readLabel bs).map fun p => (.label p.1, p.2)
  | .Bx => (readExt bs).map fun p => (.int p.1, p.2)
  | .nB => (readCounted bs).map fun p => (.ints p.1, p.2)
  | .nL => do
    let (n, bs) ← readU 1 bs
    let (l, bs) ← readN readLabel n.toNat bs
    some (.labels l, bs)
  | .B3 => (readN (readU 1) 3 bs).map fun p => (.ints p.1, p.2)
  | .L2 => (readN readLabel 2 bs).map fun p => (.labels p.1, p.2)
  | .nmW => do
    let (n, bs) ← readU 1 bs
    let (m, bs) ← readU 1 bs
    let (l, bs) ← readN (readN (readU 2) m.toNat) n.toNat bs
    some (.words l, bs)
  | .date => (readU 4 bs).map fun p => (match daysToDate p.1.toNat with | .inl n => .int n | .inr d => .date d, p.2)
  | .id => (readU 2 bs).map fun p => (.int p.1, p.2)
  | .idx => (readExt bs).map fun p => (.int p.1, p.2)
  | .climate => (readU 1 bs).map fun p => (.int p.1, p.2)
  | .byteList => (readCounted bs).map fun p => (.ints p.1, p.2)
  | .accept => do
    let (n, bs) ← readU 1 bs
    let (l, bs) ← readN (fun bs => do let (a, bs) ← readU 1 bs; let (b, bs) ← readU 1 bs; some ((a, b), bs)) n.toNat bs
    some (.pairs l, bs)
  | .size => (readU 1 bs).map fun p => (.pair (pyAnd p.1 0xf) (Int.shiftRight p.1 4), p.2)
  | .bridge => (readBridge bs).map fun p => (.bridge p.1.1 p.1.2, p.2)
  | .multiDict => (readMultiDict (bs.length + 1) [] bs).map fun p => (.texts p.1, p.2)
  | .layouts => (readLayouts bs).map fun p => (.layouts p.1, p.2)
  | .newStation => (readStation bs).map fun p => (.station p.1, p.2)
  | .oldStation => (readOldStation bs).map fun p => (.oldStation p.1, p.2)
  | .B8 | .B4 | .V | .zE | .snow => none

end Grf.PropC
