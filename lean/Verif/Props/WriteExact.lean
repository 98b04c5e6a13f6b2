import Verif.Props.Write
/-!
# C33, C51: what a write leaves behind, for every way each of its steps can end
-/
namespace Grf

/-! ### Specification -/

/-- The new file was completely generated and put in place of the target. -/
def Replaced (p : Plan) : Prop := p.create = .ok ∧ p.doWrite = .ok ∧ p.move = .ok

/-- The move had to copy (another device) and failed after changing the target. -/
def CopyFailed (p : Plan) : Prop := p.create = .ok ∧ p.doWrite = .ok ∧ p.move ≠ .ok ∧ p.sameDevice = false ∧ p.copied ≠ []

/-- Generating or moving was interrupted by something that is not an `Exception`, or failed and so did removing the temporary file. -/
def Litter (p : Plan) : Prop :=
  p.create = .ok ∧ (p.doWrite = .interrupt ∨ (p.doWrite = .ok ∧ p.move = .interrupt) ∨
    ((p.doWrite = .exc ∨ (p.doWrite = .ok ∧ p.move = .exc)) ∧ p.unlink ≠ .ok))

instance (p : Plan) : Decidable (Replaced p) := by unfold Replaced; infer_instance
instance (p : Plan) : Decidable (CopyFailed p) := by unfold CopyFailed; infer_instance
instance (p : Plan) : Decidable (Litter p) := by unfold Litter; infer_instance

set_option maxHeartbeats 4000000 in
/-- **C33** What is left when `write` is over, whatever way each step ended: the target is the complete new file exactly when it was generated
and moved, a partial copy when copying to another device failed, and the old content in every other case; the temporary file
stays behind exactly in the cases of `Litter`; the cache index is saved exactly when a temporary file could be created and saving works;
and the call returns normally exactly when everything worked. -/
theorem write_leaves (p : Plan) (old : Option Bytes) :
    (runWrite p old).2.1 =
      { target := if Replaced p then some (finalContent p) else if CopyFailed p then some (p.copied.getLastD []) else old,
        tmp := if Litter p then some (finalContent p) else none,
        cacheSaved := decide (p.create = .ok ∧ p.save = .ok) } ∧
    ((runWrite p old).2.2 = .ok ↔ Replaced p ∧ p.save = .ok) := by
  obtain ⟨create, contents, doWrite, sameDevice, move, copied, unlink, save⟩ := p
  unfold runWrite tryBody moveFile
  simp only [Replaced, CopyFailed, Litter, saveCache, unlinkTmp]
  rcases List.eq_nil_or_concat contents with rfl | ⟨_, _, rfl⟩ <;> rcases List.eq_nil_or_concat copied with rfl | ⟨_, _, rfl⟩ <;>
  cases create <;> cases doWrite <;> cases sameDevice <;> cases move <;> cases unlink <;> cases save <;>
    simp [finalContent]

/-- **C33** The previous content of the target survives a write that does not replace it, exactly when no copy failed half way
(or the half copy happens to be the old content). -/
theorem failed_write_keeps_target_iff (p : Plan) (old : Option Bytes) (hf : ¬ Replaced p) :
    (runWrite p old).2.1.target = old ↔ ¬ CopyFailed p ∨ some (p.copied.getLastD []) = old := by
  rw [(write_leaves p old).1]
  simp only [hf, if_false]
  by_cases h : CopyFailed p <;> simp [h]

/-- **C33** A temporary file is left behind exactly in the cases of `Litter`. -/
theorem no_temporary_file_iff (p : Plan) (old : Option Bytes) : (runWrite p old).2.1.tmp = none ↔ ¬ Litter p := by
  rw [(write_leaves p old).1]
  by_cases h : Litter p <;> simp [h]

/-- **C33** Killed at any moment, the process leaves the old target, the complete new one, or a state of the copy to another device; -/
theorem target_at_any_moment (p : Plan) (old : Option Bytes) (s : FS) (hs : s ∈ (runWrite p old).1) :
    s.target = old ∨ (p.create = .ok ∧ p.doWrite = .ok ∧ (s.target = some (finalContent p) ∨
      p.sameDevice = false ∧ ∃ c ∈ p.copied, s.target = some c)) := by
  obtain ⟨create, contents, doWrite, sameDevice, move, copied, unlink, save⟩ := p
  unfold runWrite tryBody moveFile at hs
  simp only [saveCache, unlinkTmp] at hs
  cases create <;> cases doWrite <;> cases sameDevice <;> cases move <;> cases unlink <;> cases save <;>
    simp [finalContent] at hs ⊢ <;> grind

/-- and each state of the copy is one in which the process can be killed. -/
theorem copy_is_exposed (p : Plan) (old : Option Bytes) (hc : p.create = .ok) (hw : p.doWrite = .ok) (hd : p.sameDevice = false)
    (c : Bytes) (h : c ∈ p.copied) : ∃ s ∈ (runWrite p old).1, s.target = some c := by
  refine ⟨{ target := some c, tmp := some (finalContent p) }, ?_, rfl⟩
  obtain ⟨create, contents, doWrite, sameDevice, move, copied, unlink, save⟩ := p
  simp only at hc hw hd h
  subst hc hw hd
  unfold runWrite tryBody moveFile
  simp only [saveCache, unlinkTmp]
  cases move <;> cases unlink <;> cases save <;> simp [finalContent] <;> grind

/-- **C51** The set `write` returns contains every source file needed exactly when no source file is needed at all. -/
theorem watched_files_complete_iff (W : ResWorld) (items : List Item) :
    (∀ o, HasRes items o → ∀ f ∈ (W o).files, f ∈ watchedFiles W items (enumerateSprites W items).1) ↔
      ∀ o, HasRes items o → (W o).files = [] := by
  rw [watched_files_always_empty]
  constructor
  · intro h o ho
    rw [List.eq_nil_iff_forall_not_mem]
    exact fun f hf => by simpa using h o ho f hf
  · intro h o ho f hf
    rw [h o ho] at hf; cases hf

/-! ### Concrete cases -/

example : Replaced goodPlan ∧ ¬ Litter goodPlan ∧ ¬ CopyFailed goodPlan ∧
    CopyFailed { goodPlan with sameDevice := false, copied := [[], [1]], move := .exc } ∧
    Litter { goodPlan with doWrite := .interrupt } ∧ Litter { goodPlan with doWrite := .exc, unlink := .exc } := by decide

example : (runWrite { goodPlan with sameDevice := false, copied := [[], [1]], move := .exc, unlink := .exc } (some [9])).2 =
    ({ target := some [1], tmp := some [1, 2, 3], cacheSaved := true }, .exc) := by decide

end Grf
