import Verif.Model.Chain
import Verif.Spec.GameChain
import Verif.Spec.LinkSem
import Verif.Spec.RefsSpec
/-!
# What the user's switches mean (C88)

Nothing of reference resolution, ids, bytes or files is used here: objects point to objects.
-/
namespace Grf.Chain
open _root_.Spec

/-- The target of the first range which contains the value, otherwise the default. -/
def pick : List (Int × Int × Tgt) → Tgt → Int → Tgt
  | [], d, _ => d
  | (lo, hi, t) :: r, d, v => if lo ≤ v ∧ v ≤ hi then t else pick r d v

/-- The group a random switch takes: the random bits from the lowest one on, as a number modulo the number of groups. -/
def drawn (bits : Nat) (lowest : Int) (groups : List Tgt) : Option Tgt := groups[bits / 2 ^ lowest.toNat % groups.length]?

/-- Meaning of a target for a map of feature `f`, in the game `G`, looking at most `depth` objects deep. A number, a `CB`
or a sound is a result of 15 bits. A switch computes the value of its code, where a subroutine gives what the object gives; without ranges the
lower 15 bits of the value are the result, otherwise it goes on with the target picked. A
random switch goes on with the group drawn. Undefined (`none`) where the meaning of the code
is (see `evalS`). -/
def mean (G : Game) (vt : Nat → Bool → String → Option VarData) (O : Nat → Obj) (f : Nat) : Nat → Tgt → Mach → Option (Outcome × Mach)
  | 0, _, _ => none
  | _ + 1, .result n, m => some (.value (n % 32768).toNat, m)
  | _ + 1, .cb n, m => some (.value (n % 32768).toNat, m)
  | _ + 1, .sound n, m => some (.value (n % 32768).toNat, m)
  | depth + 1, .obj k, m =>
    match O k with
    | .sprites _ d => some (.shows d, m)
    | .switch s => do
      let (v, st) ← evalLinesS ⟨G.var f s.related, fun j m => (mean G vt O f depth (.obj j) m).map fun r => (r.1.word, r.2)⟩
        ⟨vt f s.related, fun n => s.subs.lookup n⟩ s.code ⟨m, fun _ => none⟩
      if s.ranges = [] then some (.value (v.toNat % 32768), st.mach)
      else mean G vt O f depth (pick s.ranges s.default v.toInt) st.mach
    | .random _ p _ _ low gs => (drawn (G.random f p) low gs).bind fun t => mean G vt O f depth t m
    | _ => none

/-- Calls are by name only. -/
def NamedCalls : Node → Bool
  | .gvarP _ _ _ p => NamedCalls p
  | .temp r => NamedCalls r
  | .perm r => NamedCalls r
  | .call _ => false
  | .expr _ a b => NamedCalls a && NamedCalls b
  | .assign _ e => NamedCalls e
  | _ => true

/-- The names a switch can use, before any id is known. -/
def Sw.names (vt : Nat → Bool → String → Option VarData) (f : Nat) (s : Sw) : Tables :=
  ⟨vt f s.related, fun n => (s.subs.lookup n).map Int.ofNat⟩

/-- What is asked of an object used by a map of feature `f`. Switches: variables are written with a parameter exactly if they have one
and none with a computed parameter is a right operand (`WfNode`, see C21); subroutines are called by name, are switches or layouts, and are called
only while no intermediate result is kept in a register (`CallsOkLines`, see C21); no range is written backwards across zero. Random switches: the number of groups is a power of two.
Layouts: their data do not look like a switch. -/
def Obj.Ok (vt : Nat → Bool → String → Option VarData) (O : Nat → Obj) (f : Nat) : Obj → Prop
  | .switch s => (∀ e ∈ s.code, WfNode (s.names vt f) e ∧ NamedCalls e = true) ∧
      CallsOkLines (s.names vt f) (fun _ => false) s.code false = true ∧
      (∀ p ∈ s.subs, (world O p.2).referenceable = true) ∧ ∀ r ∈ s.ranges, ¬ (0 ≤ r.1 ∧ r.2.1 < 0)
  | .sprites _ d => ∃ t r, d = t :: r ∧ t.toNat < 0x80
  | .random _ _ _ _ _ gs => ∃ k, gs.length = 2 ^ k
  | .map _ ids _ _ => ids ≠ []
  | .other _ => True

/-- What the user may add himself: maps, and things that take no part in reference resolution and are no Action 2. -/
def Obj.Added : Obj → Prop
  | .map .. => True
  | .other it => ∀ d, it = .action (some d) → d ≠ [] ∧ d.head? ≠ some 2
  | _ => False

/-- What the user may add: the above, and layouts, each for the map he adds next (as the vehicle classes do with the purchase layout). -/
def AddedOk (O : Nat → Obj) (sprites : List Nat) : Prop :=
  ∀ s ∈ sprites, (O s).Added ∨ ((∃ f d, O s = .sprites f d) ∧ ∃ M, AddedFor (world O) sprites s M)

end Grf.Chain
