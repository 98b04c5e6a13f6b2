import Verif.Model.IdMap
/-!
# Specification for the id map (C34)
-/
namespace Grf.IdMap

/-- What an id map file says about a name: look up the feature's object, then the name. -/
def Doc.says (d : Doc) (f : Feat) (n : String) : Option Int :=
  (d.index.lookup f.name).bind fun e => e.lookup n

/-- A sound id map file: version 1, known feature names, no repeated key in any object (JSON objects loaded by Python have
none) and no id used for two names of one feature. -/
structure Doc.Sound (d : Doc) : Prop where
  version : d.version = 1
  features : ∀ e ∈ d.index, ∃ f : Feat, f.name = e.1
  keys : (d.index.map (·.1)).Nodup
  names : ∀ e ∈ d.index, (e.2.map (·.1)).Nodup
  unique : ∀ f n m i, d.says f n = some i → d.says f m = some i → n = m

/-- The file made by the `init_id_map` command (`grf/utils.py:199-202`). -/
def emptyDoc : Doc := { version := 1, index := [] }

end Grf.IdMap
