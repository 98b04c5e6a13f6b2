/-!
# Model of reference resolution (`BaseNewGRF.resolve_refs`, `grf/grf.py:336-470`)

Python objects are represented by their identity (`id(obj)`), a natural number; a `World` gives the
attributes of the object with that identity. An exception is `none`. The Python recursion limit is
the argument `limit`: running out of it is `RecursionError`, i.e. `none`.
-/
namespace Grf

/-- What an entry of `get_refs()` can be (`grf/actions.py:25-47`, `grf/grf.py:346-361`):
an object (an action or something else), a `Ref` with its `is_callback` and `ref_id`, or anything
that is neither (an `int`, a `Sound`; the sound table is modelled in `Model/Tables.lean`). -/
inductive RefArg where
  | obj (n : Nat)
  | ref (isCallback : Bool) (refId : Int)
  | other
deriving DecidableEq, Repr

/-- Attributes of an action used by `resolve_refs`: which of `ReferencingAction` /
`ReferenceableAction` it is an instance of (`grf/actions.py:128-153` and class headers at 1531-1935),
`get_refs()`, `feature` and the initial `ref_id` (`none` is Python's `None`). -/
structure Act where
  referencing : Bool := false
  referenceable : Bool := false
  refs : List RefArg := []
  feature : Option Nat := none
  refId : Option Int := none
deriving Repr

/-- Object store. For `grf/grf.py:347-376`. -/
abbrev World := Nat → Act

/-- `d[k] = v` on a dict kept as an insertion-ordered association list. For `grf/grf.py:347-376`. -/
def dictSet {α β : Type} [DecidableEq α] (d : List (α × β)) (k : α) (v : β) : List (α × β) :=
  match d with
  | [] => [(k, v)]
  | (k', v') :: r => if k' = k then (k, v) :: r else (k', v') :: dictSet r k v

/-- `d[k] = v` on a `defaultdict`/`dict` used only by key lookup. For `grf/grf.py:347-376`. -/
def upd {α β : Type} [DecidableEq α] (f : α → β) (k : α) (v : β) : α → β :=
  fun x => if x = k then v else f x

/-- Local variables of the first phase (`grf/grf.py:337-341`). `actions` maps a node to its position;
the object stored next to the position is the node itself. -/
structure RState where
  refids : List (Int × Nat) := []
  actions : List (Nat × Option Nat) := []
  ordered : Nat → List Nat := fun _ => []
  unordered : Nat → List Nat := fun _ => []
  refCount : Nat → Nat := fun _ => 0

/-- Body of the loop over `s.get_refs()` (`grf/grf.py:347-376`); `rec` is the recursive call
`resolve(r, None)`. The warning printed for an unresolved `Ref` is not modelled. -/
def resolveArg (W : World) (rec : Nat → RState → Option RState) (s : Nat) (st : RState) :
    RefArg → Option RState
  | .ref true _ => some st
  | .ref false rid =>
    match st.refids.lookup rid with
    | none => some st
    | some r => some { st with refCount := upd st.refCount r (st.refCount r + 1) }
  | .other => some st
  | .obj r =>
    if (W r).referenceable = false then some st
    else if r = s then none
    else
      let st1 := { st with refCount := upd st.refCount r (st.refCount r + 1) }
      if (st1.actions.lookup r).isNone then
        rec r { st1 with actions := dictSet st1.actions r none,
                         unordered := upd st1.unordered s (st1.unordered s ++ [r]) }
      else if r ∈ st1.ordered s then some st1
      else some { st1 with ordered := upd st1.ordered s (st1.ordered s ++ [r]) }

/-- The end of `resolve` (`grf/grf.py:378-381`): refuse a second position, record the position. -/
def recordPos (s : Nat) (i : Option Nat) (st : RState) : Option RState :=
  match (st.actions.lookup s).join, i with
  | some p, some q => if p ≠ q then none else some { st with actions := dictSet st.actions s i }
  | _, _ => some { st with actions := dictSet st.actions s i }

/-- `resolve(s, i)` (`grf/grf.py:343-381`). -/
def resolve (W : World) : Nat → Nat → Option Nat → RState → Option RState
  | 0, _, _, _ => none
  | limit + 1, s, i, st =>
    if (W s).referencing then
      ((W s).refs.foldlM (resolveArg W (fun r st => resolve W limit r none st) s) st).bind
        (recordPos s i)
    else recordPos s i st

/-- One step of the loop over the sprites (`grf/grf.py:383-393`). -/
def resolveTop (W : World) (limit : Nat) (st : RState) (is : Nat × Nat) : Option RState :=
  if (W is.2).referencing = false ∧ (W is.2).referenceable = false then some st
  else (resolve W limit is.2 (some is.1) st).map fun st =>
    if (W is.2).referenceable then
      match (W is.2).refId with
      | none => st
      | some rid => { st with refids := dictSet st.refids rid is.2 }
    else st

/-- `enumerate(sprites)` starting at `k`. For `grf/grf.py:383-393`. -/
def enumFrom (k : Nat) : List Nat → List (Nat × Nat)
  | [] => []
  | s :: r => (k, s) :: enumFrom (k + 1) r

/-- First phase (`grf/grf.py:383-393`). -/
def resolvePhase (W : World) (limit : Nat) (sprites : List Nat) : Option RState :=
  (enumFrom 0 sprites).foldlM (resolveTop W limit) {}

/-- Local variables of the second phase (`grf/grf.py:395-399`) and the attributes it mutates.
`ids` is the heap of negated free ids (a heap is only popped for its minimum, so its internal order
is not modelled). -/
structure DState where
  ids : List Int
  reserved : List Int := []
  linked : Nat → Option (List Nat) := fun _ => none
  visited : List Nat := []
  refCount : Nat → Nat
  feature : Nat → Option Nat
  refId : Nat → Option Int

/-- `heapq.heappop`: the least element and the rest; `IndexError` on an empty heap. For `grf/grf.py:411-416`. -/
def heappop : List Int → Option (Int × List Int)
  | [] => none
  | x :: r =>
    match heappop r with
    | none => some (x, [])
    | some (m, r') => if x ≤ m then some (x, r) else some (m, x :: r')

/-- `while a.ref_id is None or a.ref_id in reserved_ids: a.ref_id = -heapq.heappop(ids)`
(`grf/grf.py:411-416`); `n` bounds the number of iterations by the size of the heap. -/
def popId (reserved : List Int) : Nat → List Int → Option (Int × List Int)
  | 0, _ => none
  | n + 1, ids =>
    match heappop ids with
    | none => none
    | some (m, r) => if -m ∈ reserved then popId reserved n r else some (-m, r)

/-- Id assignment on the first visit (`grf/grf.py:409-418`). -/
def assignId (W : World) (aid : Nat) (st : DState) : Option DState :=
  if (W aid).referenceable = false then some st
  else
    match st.refId aid with
    | none =>
      (popId st.reserved (st.ids.length + 1) st.ids).map fun p =>
        { st with ids := p.2, refId := upd st.refId aid (some p.1) }
    | some rid => some { st with reserved := rid :: st.reserved }

/-- Releasing one reference after the action is placed (`grf/grf.py:434-446`). -/
def releaseRef (W : World) (st : DState) : RefArg → Option DState
  | .obj r =>
    if (W r).referenceable = false then some st
    else if st.refCount r = 0 then none
    else
      let st1 := { st with refCount := upd st.refCount r (st.refCount r - 1) }
      if st1.refCount r = 0 then
        match st1.refId r with
        | none => none
        | some rid =>
          some { st1 with ids := if -rid ∈ st1.ids then st1.ids else -rid :: st1.ids,
                          reserved := st1.reserved.filter (· ≠ rid) }
      else some st1
  | _ => some st

/-- `linked.append(a)` (`grf/grf.py:432`): `linked` is the list owned by the nearest enclosing
ordered action (`none` is Python's `None`, which has no `append`). -/
def appendLinked (owner : Option Nat) (aid : Nat) (st : DState) : Option DState :=
  match owner with
  | none => none
  | some o => some { st with linked := upd st.linked o (some ((st.linked o).getD [] ++ [aid])) }

/-- `dfs(aid, linked, feature)` (`grf/grf.py:401-446`). -/
def dfs (W : World) (R : RState) : Nat → Nat → Option Nat → Nat → DState → Option DState
  | 0, _, _, _, _ => none
  | limit + 1, aid, owner, feature, st =>
    match R.actions.lookup aid with
    | none => none
    | some ai =>
      if (st.feature aid).isSome ∧ st.feature aid ≠ some feature then none
      else if aid ∈ st.visited then some st
      else do
        let st := { st with visited := aid :: st.visited, feature := upd st.feature aid (some feature) }
        let st ← assignId W aid st
        let owner := if ai.isSome then some aid else owner
        let st := if ai.isSome then { st with linked := upd st.linked aid (some []) } else st
        let st ← (R.ordered aid).foldlM (fun st x => dfs W R limit x owner feature st) st
        let st ← (R.unordered aid).foldlM (fun st x => dfs W R limit x owner feature st) st
        let st ← appendLinked owner aid st
        if (W aid).referencing then (W aid).refs.foldlM (releaseRef W) st else some st

/-- `list(range(-255, 0))` (`grf/grf.py:395`). -/
def initialIds : List Int := (List.range 255).map (fun k => Int.ofNat k - 255)

/-- The roots (`grf/grf.py:448`): actions nobody refers to, in dict order. -/
def roots (R : RState) : List Nat := (R.actions.map (·.1)).filter (fun a => R.refCount a = 0)

/-- The loop over the roots (`grf/grf.py:448-457`): `f` was read before the traversal. -/
def dfsRoot (W : World) (R : RState) (limit : Nat) (st : DState) (r : Nat) : Option DState :=
  match (W r).feature with
  | none => none
  | some f => dfs W R limit r none f st

/-- State before the second phase. For `grf/grf.py:336-470`. -/
def dfsInit (W : World) (R : RState) : DState :=
  { ids := initialIds, refCount := R.refCount, feature := fun a => (W a).feature,
    refId := fun a => (W a).refId }

/-- The final list (`grf/grf.py:464-470`). -/
def assemble (W : World) (D : DState) (sprites : List Nat) : List Nat :=
  sprites.flatMap fun s => if (W s).referencing then (D.linked s).getD [] else [s]

/-- Result of `resolve_refs`: the emitted actions, and `ref_id` and `feature` of every object. For `grf/grf.py:336-470`. -/
structure Resolved where
  out : List Nat
  refId : Nat → Option Int
  feature : Nat → Option Nat

/-- `resolve_refs(sprites)` (`grf/grf.py:336-470`). -/
def resolveRefs (W : World) (limit : Nat) (sprites : List Nat) : Option Resolved := do
  let R ← resolvePhase W limit sprites
  let D ← (roots R).foldlM (dfsRoot W R limit) (dfsInit W R)
  some { out := assemble W D sprites, refId := D.refId, feature := D.feature }

end Grf
