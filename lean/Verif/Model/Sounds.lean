import Verif.Model.Refs
/-!
# Model of adding things to a GRF (`grf/grf.py:232-263`, `319-334`, `584-586`)

Python objects are numbers (their identity). The fingerprint of a `RAWSound` is its `SoundFile` object, which has no
`__eq__` (`grf/sprites.py:184-201`, `825-826`): it is compared by identity, so it is a number too. Attributes are assumed not
to be changed by the user behind the library's back.
-/
namespace Grf.Sounds

/-- The state `_add_sound` works on: `_next_sound_id`, `_sounds` (fingerprint to the sound in the `SingleResourceAction`) and
the attribute `id` of the sound objects (`grf/grf.py:218-219`, `grf/sprites.py:227-230`). -/
structure St where
  next : Nat := 73
  sounds : List (Nat × Nat) := []
  ids : Nat → Option Nat := fun _ => none

/-- `_add_sound(s)` (`grf/grf.py:232-243`); `none` is the `RuntimeError`. `fp` is `get_fingerprint`. -/
def addSound (fp : Nat → Nat) (st : St) (s : Nat) : Option St :=
  match st.sounds.lookup (fp s) with
  | some r => some { st with ids := upd st.ids s (st.ids r) }
  | none =>
    if st.next > 0xff then none
    else some { next := st.next + 1, sounds := dictSet st.sounds (fp s) s, ids := upd st.ids s (some st.next) }

/-- What can be passed to `add` or produced by a generator. For `grf/grf.py:245-260`. -/
inductive Item where
  | sound (s : Nat)
  /-- a `SingleResourceAction` made by the user around a `Sound` -/
  | soundAction (s : Nat)
  /-- a `SingleResourceAction` made by the user around another resource -/
  | resourceAction (r : Nat)
  /-- any other `Resource` -/
  | resource (r : Nat)
  /-- any other action -/
  | action (a : Nat)
deriving DecidableEq, Repr

/-- What is in the lists of the GRF. For `grf/grf.py:245-260`. -/
inductive Entry where
  | action (a : Nat)
  | single (r : Nat)
deriving DecidableEq, Repr

/-- `_add(l, sprite)` (`grf/grf.py:245-260`): the list and the state; `none` is an exception. A `SingleResourceAction`
around a sound is passed on to `_add_sound`, whose first assertion is about `Sound`s (`grf/grf.py:233`). -/
def add (fp : Nat → Nat) (l : List Entry) (st : St) : Item → Option (List Entry × St)
  | .soundAction _ => none
  | .resourceAction _ => some (l, st)
  | .sound s => (addSound fp st s).map fun st' => (l, st')
  | .resource r => some (l ++ [.single r], st)
  | .action a => some (l ++ [.action a], st)

/-- `add(*sprites)` (`grf/grf.py:262-264`). -/
def addAll (fp : Nat → Nat) : List Entry → St → List Item → Option (List Entry × St)
  | l, st, [] => some (l, st)
  | l, st, i :: is => do
    let (l', st') ← add fp l st i
    addAll fp l' st' is

/-- A sprite generator: what `get_sprites` yields (`grf/grf.py:322-327`), generators among it. -/
inductive Gen where
  | item (i : Item)
  | gen (g : List Gen)

/-- What the user has added: items already stored as entries, or generators kept as they are (`_add` appends a
`SpriteGenerator` like an action, `grf/grf.py:260`). -/
inductive Top where
  | entry (e : Entry)
  | gen (g : List Gen)

/- `run(g)` (`grf/grf.py:322-327`). -/
mutual
/-- One element of what a generator yields (`grf/grf.py:323-327`). -/
def runOne (fp : Nat → Nat) (l : List Entry) (st : St) : Gen → Option (List Entry × St)
  | .item i => add fp l st i
  | .gen g => runList fp l st g
/-- The loop over what a generator yields (`grf/grf.py:323`). -/
def runList (fp : Nat → Nat) (l : List Entry) (st : St) : List Gen → Option (List Entry × St)
  | [] => some (l, st)
  | g :: gs =>
    match runOne fp l st g with
    | none => none
    | some (l', st') => runList fp l' st' gs
end

/-- `generate_sprites` (`grf/grf.py:319-334`). -/
def generate (fp : Nat → Nat) : List Entry → St → List Top → Option (List Entry × St)
  | l, st, [] => some (l, st)
  | l, st, .entry e :: ts => generate fp (l ++ [e]) st ts
  | l, st, .gen g :: ts =>
    match runList fp l st g with
    | none => none
    | some (l', st') => generate fp l' st' ts

/-- The sound table as written: the argument of `SoundEffects` and the sounds that follow it (`grf/grf.py:584-586`);
`none` when there is none. -/
def soundTable (st : St) : Option (Nat × List Nat) :=
  if st.sounds.isEmpty then none else some (st.sounds.length, st.sounds.map (·.2))

/-- A history of additions: sounds that are refused are skipped by a caller that catches the error. For `grf/grf.py:584-586`. -/
def addMany (fp : Nat → Nat) : St → List Nat → St
  | st, [] => st
  | st, s :: ss => addMany fp ((addSound fp st s).getD st) ss

end Grf.Sounds
