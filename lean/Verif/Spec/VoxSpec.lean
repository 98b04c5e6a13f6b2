import Verif.Model.Bytes
/-!
# What a voxel file is and what a house drawn from it should show

The format is MagicaVoxel's: eight bytes, then chunks of an identifier, the length of the content, the length of the children and the
content. The children of the outermost chunk follow it.
-/
namespace Spec.Vox

/-- A chunk. -/
inductive Chunk where
  /-- `SIZE`: width, depth, height -/
  | size (x y z : Nat)
  /-- `XYZI`: the voxels with their colours -/
  | xyzi (vs : List (UInt8 × UInt8 × UInt8 × UInt8))
  /-- `RGBA`: 255 colours and one more that is not used -/
  | rgba (cs : List (UInt8 × UInt8 × UInt8 × UInt8)) (last : UInt8 × UInt8 × UInt8 × UInt8)
  /-- anything else -/
  | other (id content : List UInt8) (children : Nat)

/-- Four bytes. -/
def four (q : UInt8 × UInt8 × UInt8 × UInt8) : List UInt8 := [q.1, q.2.1, q.2.2.1, q.2.2.2]

/-- A number in four bytes, low byte first. -/
def num4 (n : Nat) : List UInt8 := [UInt8.ofNat n, UInt8.ofNat (n / 256), UInt8.ofNat (n / 65536), UInt8.ofNat (n / 16777216)]

/-- A chunk in the file. -/
def chunkBytes (id content : List UInt8) (children : Nat) : List UInt8 := id ++ num4 content.length ++ num4 children ++ content

def Chunk.bytes : Chunk → List UInt8
  | .size x y z => chunkBytes ("SIZE".toUTF8.toList) (num4 x ++ num4 y ++ num4 z) 0
  | .xyzi vs => chunkBytes ("XYZI".toUTF8.toList) (num4 vs.length ++ vs.flatMap four) 0
  | .rgba cs last => chunkBytes ("RGBA".toUTF8.toList) (cs.flatMap four ++ four last) 0
  | .other id content children => chunkBytes id content children

/-- Chunks the format allows. -/
def Chunk.Ok : Chunk → Prop
  | .size x y z => x < 2 ^ 32 ∧ y < 2 ^ 32 ∧ z < 2 ^ 32
  | .xyzi vs => 4 * vs.length + 4 < 2 ^ 32
  | .rgba cs _ => cs.length = 255
  | .other id content children => id.length = 4 ∧ id ∉ ["SIZE".toUTF8.toList, "XYZI".toUTF8.toList, "RGBA".toUTF8.toList] ∧
      content.length < 2 ^ 32 ∧ children < 2 ^ 32

/-! ## The house -/

/-- The pixels a cube of the picture covers, by their distance from its corner, and with which side: 0 the left half of its top, 1 the right
half, 2 the left side, 3 the right side. -/
def coveredBy (dx dy : Int) : Option Nat :=
  if dx = 0 ∧ dy = 0 then some 0 else if dx = 1 ∧ dy = 0 then some 1
  else if dx = 0 ∧ (dy = 1 ∨ dy = 2) then some 2 else if dx = 1 ∧ (dy = 1 ∨ dy = 2) then some 3 else none

/-- Where the corner of the cube at a place is, seen along the diagonal. -/
def corner (x y z : Int) : Int × Int := (x - y, x + y - 2 * z)

end Spec.Vox
