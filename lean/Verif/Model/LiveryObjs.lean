import Verif.Model.Chain
/-!
# The switch over the liveries of a vehicle as an object of a file
-/
namespace Grf.Chain

/-- The graphics of a vehicle with more than one livery (`grf/lib/rv.py:79-85`, `grf/lib/ship.py:67-73`: related scope;
`grf/lib/train.py:201-206`: the vehicle itself). `k0 :: ks` are the layouts of the liveries. -/
def liverySwitch (related : Bool) (k0 : Nat) (ks : List Nat) (code : List Node) : Sw :=
  { related := related, code := code, ranges := (List.range (k0 :: ks).length).map fun (i : Nat) => ((i : Int), (i : Int), .obj ((k0 :: ks).getD i 0)),
    default := .obj k0 }

end Grf.Chain
