/-!
# Model of the watch command (`grf/utils.py:90-196`)

The loop and the observer's thread take steps in any order. The steps of the loop are as coarse as they may be: each contains at most one access to what the
observer's thread uses. Paths are taken to be resolved, and a modification of a file is reported if and only if its directory is watched (watchdog's
part). Times are left out: sleeping is not taking a step. What a build writes is not modelled here (see `Model.Write`, `Model.SpriteTree`), only which files it
looked at, and in which version.
-/
namespace Grf.Watch

/-- Where the loop is. For `grf/utils.py:160-163`. -/
inductive Phase where
  /-- before the test at `grf/utils.py:167` -/
  | waiting
  /-- the test was true, before `event_handler.reset()` (`grf/utils.py:168-170`) -/
  | noticed
  /-- in `async_compile` (`grf/utils.py:171-177`) -/
  | building
  /-- the build is done, before the new `file_list` is set (`grf/utils.py:183`) -/
  | built (watched : List Nat)
  /-- in the loop that schedules directories (`grf/utils.py:186-189`) -/
  | scheduling (rest : List Nat)
deriving DecidableEq, Repr

/-- Files are numbers. `version` says what is in the files, `looked` which version the last build saw when it first looked at a file. For `grf/utils.py:160-163`. -/
structure St where
  version : Nat → Nat
  looked : Nat → Option Nat
  /-- `event_handler.file_list` (`grf/utils.py:137`) -/
  list : Option (List Nat)
  /-- `event_handler.modified` (`grf/utils.py:138`) -/
  modified : List Nat
  /-- the directories the observer watches -/
  dirs : List Nat
  phase : Phase
  /-- whether the last build ended well -/
  good : Bool

/-- The start (`grf/utils.py:160-163`). -/
def St.start (version : Nat → Nat) : St := ⟨version, fun _ => none, none, [], [], .waiting, false⟩

/-- What can happen. For `grf/grf.py:743-750`. -/
inductive Ev where
  /-- somebody modifies a file; the observer's thread calls `on_modified` (`grf/utils.py:143-147`) -/
  | touch (f : Nat)
  /-- the test of `modified` and `file_list` (`grf/utils.py:167`) -/
  | check
  /-- `reset` and the start of the build (`grf/utils.py:170-177`) -/
  | reset
  /-- the build looks at a file -/
  | look (f : Nat)
  /-- the build ends, with the files to watch or with an exception (`grf/utils.py:106-112`, `177-181`) -/
  | finish (watched : Option (List Nat))
  /-- `file_list` is set (`grf/utils.py:183`) -/
  | setList
  /-- one directory is scheduled, or the loop ends (`grf/utils.py:186-189`). The directory of a file that was watched before is not scheduled again; it is
  watched already (`grf/utils.py:187`). -/
  | schedule
deriving DecidableEq, Repr

/-- Whether `on_modified` is called for a file and adds it (`grf/utils.py:143-147`). -/
def delivered (dir : Nat → Nat) (s : St) (f : Nat) : Bool :=
  match s.list with
  | none => false
  | some l => l.contains f && s.dirs.contains (dir f)

/-- One step; `none` if it cannot happen now. `dir` is the directory of a file. The files a successful build returns are among those it looked
at (`grf/grf.py:743-750`: the resource files of its sprites, each of which enters the fingerprint or is loaded). -/
def step (dir : Nat → Nat) (s : St) : Ev → Option St
  | .touch f =>
    some { s with
      version := fun g => if g = f then s.version g + 1 else s.version g
      modified := if delivered dir s f then f :: s.modified else s.modified }
  | .check =>
    match s.phase with
    | .waiting => if s.modified ≠ [] ∨ s.list = none then some { s with phase := .noticed } else some s
    | _ => none
  | .reset =>
    match s.phase with
    | .noticed => some { s with modified := [], looked := fun _ => none, phase := .building, good := false }
    | _ => none
  | .look f =>
    match s.phase with
    | .building => some { s with looked := fun g => if g = f then some ((s.looked g).getD (s.version g)) else s.looked g }
    | _ => none
  | .finish none =>
    match s.phase with
    | .building => some { s with phase := .waiting }
    | _ => none
  | .finish (some ws) =>
    match s.phase with
    | .building => if ws.all fun f => (s.looked f).isSome then some { s with phase := .built ws, good := true } else none
    | _ => none
  | .setList =>
    match s.phase with
    | .built ws => some { s with list := some ws, phase := .scheduling ws }
    | _ => none
  | .schedule =>
    match s.phase with
    | .scheduling [] => some { s with phase := .waiting }
    | .scheduling (f :: r) => some { s with dirs := dir f :: s.dirs, phase := .scheduling r }
    | _ => none

/-- Any number of steps. For `grf/grf.py:743-750`. -/
def run (dir : Nat → Nat) : St → List Ev → Option St
  | s, [] => some s
  | s, e :: es => match step dir s e with
    | none => none
    | some s => run dir s es

end Grf.Watch
