import Verif.Model.Write
import Verif.Proofs.Container2
/-!
# C33 - a failed write leaves the previous file in place; C51 - files to watch
-/
namespace Grf

theorem getLastD_map_mem {α β : Type} (f : α → β) (l : List α) (d : β) : (l.map f).getLastD d = d ∨ ∃ x ∈ l, (l.map f).getLastD d = f x := by
  cases h : l.getLast? with
  | none =>
    rw [List.getLast?_eq_none_iff] at h
    subst h
    exact .inl rfl
  | some x =>
    right
    refine ⟨x, List.mem_of_getLast? h, ?_⟩
    rw [List.getLastD_eq_getLast?, List.getLast?_map, h]
    rfl

/-- What the temporary file holds when `_do_write` is finished. -/
def finalContent (p : Plan) : Bytes := p.contents.getLastD []

theorem tryBody_start (p : Plan) (old : Option Bytes) (s : FS)
    (hs : s ∈ (p.contents.map fun c => ({ target := old, tmp := some c } : FS)) ∨ s = { target := old, tmp := some [] }) :
    s.target = old ∧ s.tmp.isSome ∧ s.cacheSaved = false := by
  rcases hs with h | rfl
  · obtain ⟨c, _, rfl⟩ := List.mem_map.1 h
    exact ⟨rfl, rfl, rfl⟩
  · exact ⟨rfl, rfl, rfl⟩

theorem writes_last (p : Plan) (old : Option Bytes) :
    (p.contents.map fun c => ({ target := old, tmp := some c } : FS)).getLastD { target := old, tmp := some [] } =
      { target := old, tmp := some (finalContent p) } := by
  unfold finalContent
  rw [List.getLastD_eq_getLast?, List.getLastD_eq_getLast?, List.getLast?_map]
  cases p.contents.getLast? <;> rfl

/-- C33, crash safety: when the temporary directory is on the target's device, at every moment - also when the process is
killed - the target is either the old file or the complete new one, and the new one only if it was completely generated. -/
theorem target_old_or_complete (p : Plan) (old : Option Bytes) (hdev : p.sameDevice = true) (s : FS)
    (hs : s ∈ (runWrite p old).1) :
    s.target = old ∨ (p.doWrite = .ok ∧ s.target = some (finalContent p)) := by
  unfold runWrite at hs
  cases hc : p.create <;> simp only [hc] at hs
  case exc => simp at hs; subst hs; exact .inl rfl
  case interrupt => simp at hs; subst hs; exact .inl rfl
  case ok =>
  unfold tryBody at hs
  simp only [writes_last] at hs
  cases hw : p.doWrite with
  | ok =>
    simp only [hw, moveFile, hdev, if_true] at hs
    cases hm : p.move <;> simp only [hm] at hs <;> cases hu : p.unlink <;> cases hv : p.save <;>
      simp [unlinkTmp, saveCache, hu, hv] at hs <;> grind
  | exc =>
    simp only [hw] at hs
    cases hu : p.unlink <;> cases hv : p.save <;>
      simp [unlinkTmp, saveCache, hu, hv] at hs <;> grind
  | interrupt =>
    simp only [hw] at hs
    cases hv : p.save <;>
      simp [saveCache, hv] at hs <;> grind

/-- C33: if `write` returns normally the target is the complete new file, no temporary file is left and the cache index is
saved; this holds also when the move has to copy. -/
theorem write_success (p : Plan) (old : Option Bytes) (h : (runWrite p old).2.2 = .ok) :
    p.doWrite = .ok ∧ (runWrite p old).2.1 = { target := some (finalContent p), tmp := none, cacheSaved := true } := by
  unfold runWrite at h ⊢
  cases hc : p.create <;> simp only [hc] at h ⊢
  case exc => simp at h
  case interrupt => simp at h
  case ok =>
  unfold tryBody at h ⊢
  simp only [writes_last] at h ⊢
  cases hw : p.doWrite with
  | ok =>
    simp only [hw, moveFile] at h ⊢
    cases hd : p.sameDevice <;> cases hm : p.move <;> cases hu : p.unlink <;> cases hv : p.save <;>
      simp [hd, hm, unlinkTmp, saveCache, hu, hv] at h ⊢ <;> grind
  | exc =>
    simp only [hw] at h ⊢
    cases hu : p.unlink <;> cases hv : p.save <;>
      simp [unlinkTmp, saveCache, hu, hv] at h ⊢
  | interrupt =>
    simp only [hw] at h ⊢
    cases hv : p.save <;>
      simp [saveCache, hv] at h ⊢

/-- C33: when generating or moving the file fails with an `Exception` (temporary directory on the target's device, and the clean-up
calls themselves work), the target is untouched, the temporary file is gone, the cache index is saved. -/
theorem failed_write_keeps_target_partial (p : Plan) (old : Option Bytes) (hdev : p.sameDevice = true)
    (hc : p.create = .ok) (hu : p.unlink = .ok) (hv : p.save = .ok)
    (hf : p.doWrite = .exc ∨ (p.doWrite = .ok ∧ p.move = .exc)) :
    (runWrite p old).2.1 = { target := old, tmp := none, cacheSaved := true } ∧ (runWrite p old).2.2 = .exc := by
  unfold runWrite tryBody
  simp only [hc, writes_last]
  rcases hf with h | ⟨h, hm⟩
  · simp [h, unlinkTmp, saveCache, hu, hv]
  · simp [h, moveFile, hdev, hm, unlinkTmp, saveCache, hu, hv]

/-- A plan in which everything works, writing two chunks. -/
def goodPlan : Plan := { create := .ok, contents := [[1], [1, 2, 3]], doWrite := .ok, sameDevice := true, move := .ok,
                         copied := [], unlink := .ok, save := .ok }

/-- The hypotheses of the theorems above can be met. -/
example : (runWrite goodPlan (some [9])).2.2 = .ok ∧
    (runWrite { goodPlan with doWrite := .exc } (some [9])).2 = ({ target := some [9], cacheSaved := true }, .exc) ∧
    (runWrite { goodPlan with move := .exc } (some [9])).2 = ({ target := some [9], cacheSaved := true }, .exc) := by
  decide

/-- Across devices the move copies: an error (or a crash) in the middle leaves a truncated target, the old file is lost. -/
theorem cross_device_failure_corrupts_target :
    (runWrite { goodPlan with sameDevice := false, copied := [[], [1]], move := .exc } (some [9])).2 =
      ({ target := some [1], cacheSaved := true }, .exc) := by decide

/-- Interrupting the build (`KeyboardInterrupt`) leaves the temporary file behind. -/
theorem interrupt_leaves_temporary_file :
    (runWrite { goodPlan with doWrite := .interrupt } (some [9])).2 =
      ({ target := some [9], tmp := some [1, 2, 3], cacheSaved := true }, .interrupt) := by decide

/-- C51 is false: `write` returns no file to watch, whatever was written. -/
theorem watched_files_always_empty (W : ResWorld) (items : List Item) :
    watchedFiles W items (enumerateSprites W items).1 = [] := by
  unfold watchedFiles
  obtain ⟨order, s, E⟩ := enumerate_ok W items
  cases h : (enumerateSprites W items).1.getLast? with
  | some st => simp
  | none =>
    rw [List.getLast?_eq_none_iff, E.steps, List.map_eq_nil_iff] at h
    have hp := E.perm_all
    rw [h] at hp
    have hn : resOf items = [] := by simpa using hp.symm.eq_nil
    simp only [List.flatMap_map, List.flatMap_eq_nil_iff]
    intro it hit
    cases it with
    | action d => rfl
    | res o =>
      have : o ∈ resOf items := (mem_resOf items o).2 hit
      rw [hn] at this
      simp at this

end Grf
