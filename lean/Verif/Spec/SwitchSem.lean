import Verif.Spec.VA2
/-!
# Specification: what a switch does

`UserRange`/`choose` is what the user means (signed ranges, first match wins, else the default).
`RangeTable`/`GameResult` is what the game does with the bytes of a dword-sized VarAction2.
-/
namespace Spec

/-- A range written by the user, with the reference word of its target. -/
structure UserRange where
  low : Int
  high : Int
  word : Int

/-- First range containing the signed value, otherwise the default. -/
def choose (rs : List UserRange) (dflt : Int) (v : Int) : Int :=
  match rs.find? (fun r => decide (r.low ≤ v) && decide (v ≤ r.high)) with
  | some r => r.word
  | none => dflt

/-- Result of a switch in the game: continue with the given reference word, or, when there are no
ranges, return the computed value itself. -/
inductive GameResult where
  | goto (word : Nat)
  | computed (v : Word)
deriving DecidableEq, Repr

/-- Range table of the game: entries (reference word, low, high), unsigned. -/
structure RangeTable where
  entries : List (Nat × Word × Word)
  default : Nat

/-- Little-endian word. -/
def word16 : List UInt8 → Option (Nat × List UInt8)
  | a :: b :: r => some (a.toNat + 256 * b.toNat, r)
  | _ => none

def parseEntries : Nat → List UInt8 → Option (List (Nat × Word × Word) × List UInt8)
  | 0, bs => some ([], bs)
  | n + 1, bs => do
    let (g, bs) ← word16 bs
    let (lo, bs) ← dword bs
    let (hi, bs) ← dword bs
    let (l, bs) ← parseEntries n bs
    some ((g, lo, hi) :: l, bs)

/-- Count byte, entries, default. -/
def parseTable : List UInt8 → Option (RangeTable × List UInt8)
  | [] => none
  | n :: bs => do
    let (es, bs) ← parseEntries n.toNat bs
    let (d, bs) ← word16 bs
    some (⟨es, d⟩, bs)

/-- The game compares unsigned; no entries mean "return the value". -/
def select (t : RangeTable) (v : Word) : GameResult :=
  if t.entries.isEmpty then .computed v
  else match t.entries.find? (fun e => decide (e.2.1.toNat ≤ v.toNat) && decide (v.toNat ≤ e.2.2.toNat)) with
    | some e => .goto e.1
    | none => .goto t.default

/-- A parsed VarAction2. -/
structure VarAction2 where
  feature : Nat
  id : Nat
  related : Bool
  prog : Access × List (Nat × Access)
  table : RangeTable

/-- Bytes of a dword-sized VarAction2 (`02 feature id 89/8A code table`), nothing may follow. -/
def parseVA2 : List UInt8 → Option VarAction2
  | a :: f :: i :: t :: bs =>
    if a = 2 ∧ (t = 0x89 ∨ t = 0x8a) then do
      let (p, bs) ← parseProgram bs
      let (tbl, bs) ← parseTable bs
      if bs.isEmpty then some ⟨f.toNat, i.toNat, t == 0x8a, p, tbl⟩ else none
    else none
  | _ => none

/-- Execute it. -/
def VarAction2.run (x : VarAction2) (w : World) (m : Mach) : GameResult × Mach :=
  let (v, m') := runProgram w x.prog m
  (select x.table v, m')

end Spec
