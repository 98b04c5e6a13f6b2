import Verif.Model.Callbacks
import Verif.Model.Chain
import Verif.Model.VarTables
import Mathlib.Data.List.Forall2
/-!
# The objects the callback manager makes (`grf/lib/callback.py:525-550`, `606-643`)

`Model/Callbacks.lean` has the switches of the manager as trees; here they are objects of a file.
-/
namespace Grf.Chain
open Callbacks (Handler Tree)

/-- The variables by name, for a feature and scope (`Switch.parsed_code`, `grf/actions.py:1745-1764`). -/
def varTable (f : Nat) (related : Bool) (n : String) : Option VarData := (scopeFeature f related).bind fun g => (vaVars g).lookup n

/-- A handler as a target: a number or an object (`grf/actions.py:50-57`). -/
def handlerTgt : Handler → Tgt
  | .int n => .result n
  | .obj o _ => .obj o

/-- A switch over one field with one number for each range (`grf.Switch` with a dict, `grf/actions.py:1709-1721`). -/
def fieldSwitch (code : String) (ranges : List (Nat × Tgt)) (default : Tgt) : Obj :=
  .switch { code := [.var code], ranges := ranges.map fun p => ((p.1 : Int), (p.1 : Int), p.2), default := default }

/-- What a callback is mapped to is this target: the handler itself, or a switch made for the properties
(`grf/lib/callback.py:525-550`). -/
inductive NodeAt (O : Nat → Obj) : Tgt → Callbacks.Node → Prop where
  | handler (h : Handler) : NodeAt O (handlerTgt h) (.handler h)
  | props (k : Nat) (ranges : List (Nat × Handler)) (d : Handler)
      (at_ : O k = fieldSwitch "extra_callback_info1_byte" (ranges.map fun p => (p.1, handlerTgt p.2)) (handlerTgt d)) :
      NodeAt O (.obj k) (.props ranges d)

/-- What an item is mapped to is this target: the graphics, or a switch made for the callbacks (`grf/lib/callback.py:614-632`). -/
inductive TreeAt (O : Nat → Obj) : Tgt → Tree → Prop where
  | plain (h : Handler) : TreeAt O (handlerTgt h) (.plain h)
  | switch (k : Nat) (nodes : List (Nat × Callbacks.Node)) (ranges : List (Nat × Tgt)) (d : Handler)
      (at_ : O k = fieldSwitch "current_callback" ranges (handlerTgt d))
      (each : List.Forall₂ (fun p q => p.1 = q.1 ∧ NodeAt O q.2 p.2) nodes ranges) :
      TreeAt O (.obj k) (.switch nodes d)

/-- The map action of the manager (`make_map_action`, `grf/lib/callback.py:634-643`; `Map`, `grf/actions.py:1995-2003`) is the object `r`:
a map of the item `id`, with the default and the special maps of the manager. -/
def ItemAt (O : Nat → Obj) (r f : Nat) (id : Int) (maps : List (Int × Tgt)) (d : Tgt) (made : Tree × List (Nat × Tree)) : Prop :=
  O r = .map f [id] maps d ∧ TreeAt O d made.1 ∧ List.Forall₂ (fun p q => q.1 = (p.1 : Int) ∧ TreeAt O q.2 p.2) made.2 maps

end Grf.Chain
