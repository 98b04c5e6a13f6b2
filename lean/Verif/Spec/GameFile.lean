import Verif.Spec.ContainerSpec
/-!
# The container format, version 2, as the game reads it

From the NewGRF documentation ("Container version 2"), independent of the writer and of the decompiler.
-/
namespace Grf.Spec

/-- A number of four bytes, the lowest first. -/
def word (n : Nat) : Bytes := [UInt8.ofNat n, UInt8.ofNat (n / 256), UInt8.ofNat (n / 65536), UInt8.ofNat (n / 16777216)]

/-- The first ten bytes of every container of version 2: two zeros, `GRF`, and seven bytes that break when a file is treated as text. -/
def magic : Bytes := [0x00, 0x00, 0x47, 0x52, 0x46, 0x82, 0x0D, 0x0A, 0x1A, 0x0A]

/-- An entry of the first section: its length, not zero, then its type, then as many bytes. -/
structure Entry where
  type : UInt8
  data : Bytes

/-- Its bytes. -/
def Entry.bytes (e : Entry) : Bytes := word e.data.length ++ e.type :: e.data

/-- It can be told from the end of the section, and its length is a number of four bytes. -/
def Entry.Ok (e : Entry) : Prop := 1 ≤ e.data.length ∧ e.data.length < 2 ^ 32

/-- An entry of the second section: its id, not zero, then its length, then its data. -/
structure Real where
  id : Nat
  data : Bytes

/-- Its bytes. -/
def Real.bytes (r : Real) : Bytes := word r.id ++ word r.data.length ++ r.data

def Real.Ok (r : Real) : Prop := 1 ≤ r.id ∧ r.id < 2 ^ 32 ∧ r.data.length < 2 ^ 32

/-- A file: the magic bytes, the distance from the byte after it to the second section, the kind of compression (0, none), then both
sections, each closed by a zero. -/
def fileBytes (off : Nat) (entries : List Entry) (reals : List Real) : Bytes :=
  magic ++ word off ++ [0] ++ entries.flatMap Entry.bytes ++ word 0 ++ reals.flatMap Real.bytes ++ word 0

/-- The distance stored is the true one: compression byte, entries, the closing zero. -/
def OffsetRight (off : Nat) (entries : List Entry) : Prop :=
  off = 1 + (entries.flatMap Entry.bytes).length + 4 ∧ off < 2 ^ 32

/-- The entry stands for the item: an action's bytes, or the id under which exactly the data of the resource are stored. -/
def EntryShows (real : Nat → Option Bytes) (W : ResWorld) (reals : List Real) : Item → Entry → Prop
  | .action d, e => e.type = 0xff ∧ d = some e.data
  | .res o, e => e.type = 0xfd ∧ ∃ v, 1 ≤ v ∧ v < 2 ^ 32 ∧ e.data = word v ∧
      (W o).resources.mapM real = some ((reals.filter (fun r => r.id = v)).map Real.data)

end Grf.Spec
