import Verif.Spec.SwitchSem
import Verif.Spec.GameFile
/-!
# The graphics groups of a file, as the game loads and runs them

From the NewGRF documentation of Action 2 and Action 3, independent of grf-py. The game goes through the entries of the file once. An
Action 2 defines the group with the number in it, in place of the one that had the number before. The numbers a switch mentions - targets
and procedures - mean the groups that have them when the switch is loaded.
-/
namespace Spec
open Grf

/-- What the game gets in the end: a number (a callback result), something to draw, or nothing. -/
inductive Outcome where
  | value (n : Nat)
  | shows (data : List UInt8)
  | nothing
deriving DecidableEq, Repr

/-- The result of a procedure call: the number, or 0xFFFF. -/
def Outcome.word : Outcome → Word
  | .value n => BitVec.ofNat 32 n
  | _ => 0xffff#32

/-- A loaded group. A switch keeps the groups the numbers meant when it was loaded. -/
inductive Group where
  | missing
  | sprites (data : List UInt8)
  | switch (va : VarAction2) (known : Nat → Group)
  | random (feature : Nat) (parent : Bool) (lowest : Nat) (words : List Nat) (known : Nat → Group)

/-- The game: its variables, and the random bits of the thing the groups are for, for each feature and scope. -/
structure Game where
  var : Nat → Bool → Nat → Word → Mach → Word
  random : Nat → Bool → Nat

/-- Run a group. A switch computes its value (procedures are groups known to it); without ranges the lower 15 bits are the result,
otherwise the chosen word is a result if its bit 15 is set, else the number of the group to run next. A random group takes the word with
the number in its random bits, of which it uses as many as give all words (the number of words is a power of two). -/
def Group.run (G : Game) : Group → Mach → Outcome × Mach
  | .missing, m => (.nothing, m)
  | .sprites d, m => (.shows d, m)
  | .switch va known, m =>
    let r := va.run ⟨G.var va.feature va.related, fun n m => (((known n).run G m).1.word, ((known n).run G m).2)⟩ m
    match r.1 with
    | .computed v => (.value (v.toNat % 32768), r.2)
    | .goto n => if 32768 ≤ n then (.value (n - 32768), r.2) else (known n).run G r.2
  | .random f p low words known, m =>
    match words[(G.random f p >>> low) &&& (words.length - 1)]? with
    | none => (.nothing, m)
    | some n => if 32768 ≤ n then (.value (n - 32768), m) else (known n).run G m

/-- Follow a word found in a switch or in an Action 3. -/
def runWord (G : Game) (known : Nat → Group) (n : Nat) (m : Mach) : Outcome × Mach :=
  if 32768 ≤ n then (.value (n - 32768), m) else (known n).run G m

/-- Define a group. -/
def define (known : Nat → Group) (i : Nat) (g : Group) : Nat → Group := fun n => if n = i then g else known n

/-- As many words, nothing may follow. -/
def readWords : Nat → List UInt8 → Option (List Nat)
  | 0, bs => if bs.isEmpty then some [] else none
  | n + 1, bs => do
    let (x, bs) ← word16 bs
    let l ← readWords n bs
    some (x :: l)

/-- A random Action 2: `02 feature id 80/83 triggers lowest-bit count words`, type 83 for the related object. The triggers tell when the
bits are drawn again. -/
def parseRandom : List UInt8 → Option (Nat × Bool × Nat × List Nat)
  | a :: f :: _ :: t :: _ :: low :: n :: bs =>
    if a = 2 ∧ (t = 0x80 ∨ t = 0x83) then (readWords n.toNat bs).map fun l => (f.toNat, t == 0x83, low.toNat, l) else none
  | _ => none

/-- The group an Action 2 of type 80 or above defines (only the types 80, 83, 89, 8A are described here). -/
def readGroup (known : Nat → Group) (d : List UInt8) : Group :=
  match parseVA2 d with
  | some va => .switch va known
  | none =>
    match parseRandom d with
    | some r => .random r.1 r.2.1 r.2.2.1 r.2.2.2 known
    | none => .missing

/-- Load an action: `02 feature id type ...` defines the group with the id; with a type below 80 it is something to draw. All other
actions define no group. -/
def loadAction (known : Nat → Group) : List UInt8 → Nat → Group
  | 2 :: f :: i :: t :: r =>
    define known i.toNat (if t.toNat < 0x80 then .sprites (t :: r) else readGroup known (2 :: f :: i :: t :: r))
  | _ => known

/-- Load an entry of the file: type FF is an action. -/
def loadEntry (known : Nat → Group) (e : Grf.Spec.Entry) : Nat → Group :=
  if e.type = 0xff then loadAction known e.data else known

/-- The groups known after these entries. -/
def groupsAfter (es : List Grf.Spec.Entry) : Nat → Group := es.foldl loadEntry (fun _ => .missing)

end Spec
