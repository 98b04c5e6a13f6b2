import Verif.Model.Tables
/-!
# How the game executes the actions of the railtype table (specification for C39)

Only what these actions need: Action D with an immediate value assigns a GRF parameter; Action 9 with condition 0x0E skips the
given number of following actions if the railtype label is defined; Action 6 replaces bytes of the next action by parameters;
Action 0 hands its bytes to the property handler.
-/
namespace Grf.Tables

/-- GRF parameters as four little-endian bytes. -/
abbrev Params := Int → Label

/-- Replace the bytes of `bs` from `ofs` on by `v` (Action 6). -/
def overwrite (bs : Bytes) (ofs : Nat) (v : Label) : Bytes := bs.take ofs ++ v ++ bs.drop (ofs + v.length)

/-- Execute actions one after the other: `skip` actions are to be skipped first, `pending` are the modifications waiting for
the next action. Returns the bytes of every Action 0 reached, as modified. -/
def play (avail : Label → Bool) : List Act → Nat → Params → List (Int × Nat) → List (Option Bytes)
  | [], _, _, _ => []
  | _ :: r, skip + 1, ps, pending => play avail r skip ps pending
  | .setParam p v :: r, 0, ps, _ => play avail r 0 (fun q => if q = p then v else ps q) []
  | .skipIfDefined l n :: r, 0, ps, _ => if avail l then play avail r n ps [] else play avail r 0 ps []
  | .modify ms :: r, 0, ps, _ => play avail r 0 ps ms
  | .defineTable ls :: r, 0, ps, pending =>
    (tableBytes ls).map (fun bs => pending.foldl (fun bs m => overwrite bs m.2 (ps m.1)) bs) :: play avail r 0 ps []

/-- The label the user means by a fallback list: the first one that is available, the last one if none is. -/
def firstAvailable (avail : Label → Bool) : List Label → Label
  | [] => []
  | [l] => l
  | l :: r => if avail l then l else firstAvailable avail r

/-- The table the game should end up with, as bytes of the Action 0. -/
def wantedTable (avail : Label → Bool) (lists : List (List Label)) : Option Bytes :=
  tableBytes (lists.map (firstAvailable avail))

/-- Adding railtypes one after the other; an empty list raises and changes nothing. -/
def railAdds (t : RtTable) (adds : List (List Label)) : RtTable :=
  adds.foldl (fun t l => match addRailtype t l with | some r => r.1 | none => t) t

end Grf.Tables
