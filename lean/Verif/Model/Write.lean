import Verif.Model.Container
/-!
# Model of `BaseNewGRF.write` (`grf/grf.py:727-750`) as a sequence of file system states

The state holds the target file, the temporary file (identified with its slot: `NamedTemporaryFile` picks a fresh name) and
whether the sprite cache index was saved. The environment decides, through a `Plan`, which call fails and how. Every state
the file system goes through is recorded, so that a crash (power loss, `kill -9`) after any step is covered.
-/
namespace Grf

/-- File system as far as `write` is concerned; `none` is "no such file". For `grf/grf.py:736`. -/
structure FS where
  target : Option Bytes
  tmp : Option Bytes := none
  cacheSaved : Bool := false
deriving DecidableEq, Repr

/-- How a call ends: normally, with an `Exception`, or with a `BaseException` that is not an `Exception`
(`KeyboardInterrupt`, `SystemExit`). For `grf/grf.py:736`. -/
inductive Outcome where
  | ok
  | exc
  | interrupt
deriving DecidableEq, Repr

/-- What the environment does.
`contents` are the successive contents `_do_write` gives to the temporary file; if it ends normally the last one is the
complete file. `sameDevice` tells whether `os.rename` works for the move; otherwise `shutil.move` copies: `copied` are the
successive contents of the target during the copy. For `grf/grf.py:736`. -/
structure Plan where
  create : Outcome
  contents : List Bytes
  doWrite : Outcome
  sameDevice : Bool
  move : Outcome
  copied : List Bytes
  unlink : Outcome
  save : Outcome

/-- `shutil.move(tmp, filename)` (`grf/grf.py:736`): states gone through, last state and outcome. `os.rename` replaces the
target at once or fails without effect; across devices the target is opened for writing, filled, then the source is
unlinked. -/
def moveFile (p : Plan) (s : FS) : List FS × FS × Outcome :=
  if p.sameDevice then
    match p.move with
    | .ok => let s' := { s with target := s.tmp, tmp := none }; ([s'], s', .ok)
    | o => ([], s, o)
  else
    let during := p.copied.map fun c => { s with target := some c }
    match p.move with
    | .ok =>
      let full := { s with target := s.tmp }
      let s' := { full with tmp := none }
      (during ++ [full, s'], s', .ok)
    | o => (during, during.getLastD s, o)

/-- `os.unlink(tmp.name)` in the `except` clause (`grf/grf.py:738`): fails if the file is gone. -/
def unlinkTmp (p : Plan) (s : FS) : List FS × FS × Outcome :=
  if s.tmp.isNone then ([], s, .exc)
  else match p.unlink with
    | .ok => let s' := { s with tmp := none }; ([s'], s', .ok)
    | o => ([], s, o)

/-- `sprite_cache.save()` in the `finally` clause (`grf/grf.py:741`). -/
def saveCache (p : Plan) (s : FS) : List FS × FS × Outcome :=
  match p.save with
  | .ok => let s' := { s with cacheSaved := true }; ([s'], s', .ok)
  | o => ([], s, o)

/-- The body of the `try` (`grf/grf.py:734-736`). -/
def tryBody (p : Plan) (s : FS) : List FS × FS × Outcome :=
  let writes := p.contents.map fun c => { s with tmp := some c }
  let s1 := writes.getLastD s
  match p.doWrite with
  | .ok => let (l, s2, o) := moveFile p s1; (writes ++ l, s2, o)
  | o => (writes, s1, o)

/-- `write` (`grf/grf.py:727-741`): all states gone through (the initial one included), the last state, how the call ends.
Loading the cache before and collecting the watched files after do not touch these files. -/
def runWrite (p : Plan) (old : Option Bytes) : List FS × FS × Outcome :=
  let s0 : FS := { target := old }
  match p.create with
  | .ok =>
    let s1 := { s0 with tmp := some [] }
    let (l, s2, o) := tryBody p s1
    let (l', s3, o') := match o with
      | .exc => let (a, b, c) := unlinkTmp p s2; (a, b, if c = Outcome.ok then Outcome.exc else c)
      | o => ([], s2, o)
    let (l'', s4, o'') := saveCache p s3
    (s0 :: s1 :: l ++ l' ++ l'', s4, if o'' = Outcome.ok then o' else o'')
  | o => ([s0], s0, o)

/-- What `write` returns (`grf/grf.py:743-750`): the paths of the files of the resource actions among `sprites`. In `_do_write`
the name `sprites` is rebound to the resources of the last resource action processed (`grf/grf.py:684`); resources are not
resource actions. Returns the files of the actions found. -/
def watchedFiles (W : ResWorld) (items : List Item) (steps : List Step) : List Nat :=
  -- objects the final loop iterates over: `inl` an item, `inr` a resource
  let sprites : List (Item ⊕ Nat) := match steps.getLast? with
    | none => items.map .inl
    | some s => (W s.sid).resources.map .inr
  sprites.flatMap fun x => match x with
    | .inl (.res o) => (W o).files
    | _ => []

end Grf
