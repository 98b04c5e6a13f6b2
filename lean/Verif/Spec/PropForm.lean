import Mathlib.Data.List.Forall2
import Verif.Spec.ReadFormat
import Verif.Model.Define
/-!
# What the bytes of item properties say, after the NewGRF documentation

For each kind of value: which bytes `b` state the value and leave the bytes `r`. Nothing of the decoder is used; the table of the properties
of each feature (number, name, kind of value) is the one of the library.
-/
namespace Grf.Spec
open Acts PropC

/-- `b` begins with these items, and `r` is what follows. -/
def Then (l : List Piece) (b r : List UInt8) : Prop := ∃ x, Holds l x ∧ b = x ++ r

/-- A sequence of things, one after the other. -/
def Each {α : Type} (P : α → List UInt8 → List UInt8 → Prop) : List α → List UInt8 → List UInt8 → Prop
  | [], b, r => b = r
  | a :: l, b, r => ∃ m, P a b m ∧ Each P l m r

/-- `n` bytes; where the sprite ends before, only those there are. -/
def Cut (n : Nat) (x b r : List UInt8) : Prop := b = x ++ r ∧ (x.length = n ∨ (x.length < n ∧ r = []))

/-- A label: four bytes (fewer at the end of the sprite). -/
def LabelSays (l : Lab) (b r : List UInt8) : Prop := ∃ x, l = .bytes x ∧ Cut 4 x b r

/-- A list of bytes with its length. -/
def BytesSay (l : List Int) (b r : List UInt8) : Prop :=
  ∃ (n : Nat) (m x : List UInt8), Then [B n] b m ∧ Cut n x m r ∧ l = x.map fun c => (c.toNat : Int)

/-! ### Layouts of industries -/

/-- A tile: x, y, and either the number of an old tile, or 254 and the number of a new one. Special checks are not read. -/
def TileItems : Tile → List Piece → Prop
  | .new x y i, l => l = [B x, B y, B 254, W i] ∧ ¬ (x = 0 ∧ y = 128)
  | .old x y i, l => l = [B x, B y, B i] ∧ i < 254 ∧ ¬ (x = 0 ∧ y = 128)
  | .check _ _, _ => False

/-- A layout: tiles, the first one not at x = 254 (a borrowed layout, which is not read), and 0, 128 at the end. The reader stops after as many
tiles as the size in bytes given for all the layouts. -/
def IndustrySays (size : Nat) (l : List Tile) (b r : List UInt8) : Prop :=
  ∃ its, List.Forall₂ TileItems l its ∧ (∀ t, l.head? = some t → t.xofs ≠ 254) ∧
    ((l.length < size ∧ Then (its.flatten ++ [B 0, B 128]) b r) ∨ (l.length = size ∧ Then its.flatten b r))

/-! ### Layouts of stations -/

/-- The sprites of a layout in the order they are drawn: every sprite before its children. -/
def drawn (l : List Spr) : List Flat := l.flatMap fun s => s.flat :: s.children

/-- A layout is a ground sprite and sprites with a place; children are drawn over the sprite they belong to. -/
def Shape (l : List Spr) : Prop :=
  (∃ g r, l = g :: r ∧ g.flat.kind = .ground ∧ ∀ s ∈ r, ∃ x y z a b c, s.flat.kind = .parent x y z a b c) ∧
    ∀ s ∈ l, ∀ c ∈ s.children, ∃ x y, c.kind = .child x y

/-- Where a sprite is. -/
inductive FlatPlace : (parent : Bool) → Kind → List Piece → Prop
  | ground : FlatPlace false .ground []
  | own (x y z a b c : Int) : z ≠ 128 → FlatPlace true (.parent x y z a b c) [B x, B y, B z, B a, B b, B c]
  | over (x y : Int) : FlatPlace false (.child x y) [B x, B y, B 128]

/-- A sprite of a new layout: number, flags (when the layout has them), place and registers. -/
def NewSprite (withFlags : Bool) (s : Flat) (items : List Piece) : Prop :=
  SpriteFits s.sprite ∧ ∃ (fl : Int) (parent : Bool) (place : List Piece), (withFlags = false → fl = 0) ∧
    FlatPlace parent s.kind place ∧ s.regs.map (·.1) = announced fl parent ∧ (∀ p ∈ s.regs, RegShape p.1 p.2) ∧
    items = [D (spriteNumber s.sprite)] ++ (if withFlags then [W fl] else []) ++ place ++ s.regs.flatMap fun p => regItems p.2

/-- A new layout: the number of sprites after the ground (in the six lowest bits), bit 6 set when there are flags, and the sprites. -/
def StationItems (l : List Spr) (items : List Piece) : Prop :=
  Shape l ∧ ∃ (n : Int) (its : List (List Piece)), (drawn l).length = n % 64 + 1 ∧ List.Forall₂ (NewSprite (bitSet n 6)) (drawn l) its ∧
    items = [B n] ++ its.flatten

/-- A sprite of an old layout after the ground: x (not 128, which ends the layout), y, z (128 for a child), three bytes of extent, which a child
has as well but does not use, and the number. -/
inductive OldSprite : Flat → List Piece → Prop
  | own (x y z a b c : Int) (s : SpriteRef) : SpriteFits s → x ≠ 128 → z ≠ 128 →
      OldSprite ⟨.parent x y z a b c, s, []⟩ [B x, B y, B z, B a, B b, B c, D (spriteNumber s)]
  | over (x y a b c : Int) (s : SpriteRef) : SpriteFits s → x ≠ 128 →
      OldSprite ⟨.child x y, s, []⟩ [B x, B y, B 128, B a, B b, B c, D (spriteNumber s)]

/-- An old layout: a ground of 0 is no layout, other layouts are a ground, sprites and 128. -/
def OldItems : Option (List Spr) → List Piece → Prop
  | none, items => items = [D 0]
  | some l, items => Shape l ∧ ∃ (g : SpriteRef) (rest : List Flat) (its : List (List Piece)), drawn l = ⟨.ground, g, []⟩ :: rest ∧
      SpriteFits g ∧ spriteNumber g ≠ 0 ∧ List.Forall₂ OldSprite rest its ∧ items = [D (spriteNumber g)] ++ its.flatten ++ [B 128]

/-! ### Values -/

/-- The bytes `b` state this value of this kind, followed by `r`. -/
def Says : Fmt → PVal → List UInt8 → List UInt8 → Prop
  | .B, v, b, r => ∃ n, v = .int n ∧ Then [B n] b r
  | .b, v, b, r => ∃ n, v = .int n ∧ -128 ≤ n ∧ n < 128 ∧ Then [B (n % 256)] b r
  | .W, v, b, r => ∃ n, v = .int n ∧ Then [W n] b r
  | .D, v, b, r => ∃ n, v = .int n ∧ Then [D n] b r
  | .L, v, b, r => ∃ l, v = .label l ∧ LabelSays l b r
  | .Bx, v, b, r => ∃ n, v = .int n ∧ Then [.E n] b r
  | .nB, v, b, r => ∃ l, v = .ints l ∧ BytesSay l b r
  | .L2, v, b, r => ∃ x y, v = .labels [x, y] ∧ Each LabelSays [x, y] b r
  | .nL, v, b, r => ∃ l m, v = .labels l ∧ Then [B l.length] b m ∧ Each LabelSays l m r
  | .B3, v, b, r => ∃ x y z, v = .ints [x, y, z] ∧ Then [B x, B y, B z] b r
  | .nmW, v, b, r => ∃ (l : List (List Int)) (k : Nat), v = .words l ∧ (∀ x ∈ l, x.length = k) ∧
      Then ([B l.length, B k] ++ l.flatten.map W) b r
  | .date, v, b, r => ∃ n : Nat, Then [D n] b r ∧
      v = if 366 ≤ n ∧ n ≤ 3652424 then .date (_root_.Spec.nthDay n) else .int n
  | .id, v, b, r => ∃ n, v = .int n ∧ Then [W n] b r
  | .idx, v, b, r => ∃ n, v = .int n ∧ Then [.E n] b r
  | .climate, v, b, r => ∃ n, v = .int n ∧ Then [B n] b r
  | .byteList, v, b, r => ∃ l, v = .ints l ∧ BytesSay l b r
  | .accept, v, b, r => ∃ l : List (Int × Int), v = .pairs l ∧ Then ([B l.length] ++ l.flatMap fun p => [B p.1, B p.2]) b r
  | .size, v, b, r => ∃ x y, v = .pair x y ∧ 0 ≤ x ∧ x < 16 ∧ 0 ≤ y ∧ y < 16 ∧ Then [B (16 * y + x)] b r
  | .bridge, v, b, r => ∃ (i : Int) (ts : List (List SpriteRef)), v = .bridge i ts ∧ (∀ t ∈ ts, t.length = 32 ∧ ∀ s ∈ t, SpriteFits s) ∧
      Then ([B i, B ts.length] ++ ts.flatten.map fun s => D (spriteNumber s)) b r
  | .multiDict, v, b, r => ∃ (d : List (Int × List (List UInt8))) (es : List (Int × List UInt8)), v = .texts d ∧
      (∀ e ∈ es, e.1 ≠ 0 ∧ 0 ∉ e.2) ∧ d.map (·.1) = (es.map (·.1)).eraseDups ∧
      (∀ p ∈ d, p.2 = (es.filter fun e => e.1 == p.1).map (·.2)) ∧
      Then ((es.flatMap fun e => [B e.1, text e.2, B 0]) ++ [B 0]) b r
  | .layouts, v, b, r => ∃ (ls : List (List Tile)) (size : Nat) (m : List UInt8), v = .layouts ls ∧ Then [B ls.length, D size] b m ∧
      Each (IndustrySays size) ls m r
  | .newStation, v, b, r => ∃ (ls : List (List Spr)) (its : List (List Piece)), v = .station ls ∧ List.Forall₂ StationItems ls its ∧
      Then ([.E ls.length] ++ its.flatten) b r
  | .oldStation, v, b, r => ∃ (ls : List (Option (List Spr))) (its : List (List Piece)), v = .oldStation ls ∧ List.Forall₂ OldItems ls its ∧
      Then ([.E ls.length] ++ its.flatten) b r
  | .B8, _, _, _ => False
  | .B4, _, _, _ => False
  | .V, _, _, _ => False
  | .zE, _, _, _ => False
  | .snow, _, _, _ => False

/-! ### Definitions -/

/-- One property: its number, and a value for each of the items. -/
def PropertySays (count : Nat) (p : Entry × List PVal) (b r : List UInt8) : Prop :=
  p.2.length = count ∧ ∃ m, Then [B p.1.code] b m ∧ Each (Says p.1.fmt) p.2 m r

/-- A definition: feature, number of properties, number of items, first id, and the properties, each of them one of the feature; a property that
comes twice keeps the last values. -/
def DefineSays (d : Def0) (b : List UInt8) : Prop :=
  ∃ (t : List Entry) (ps : List (Entry × List PVal)) (m r : List UInt8), table d.feature = some t ∧ (∀ p ∈ ps, p.1 ∈ t) ∧
    Then [B 0, B d.feature, B ps.length, B d.count, .E d.firstId] b m ∧ Each (PropertySays d.count) ps m r ∧
    DictOf d.props (ps.map fun p => (p.1.name, p.2))

end Grf.Spec
