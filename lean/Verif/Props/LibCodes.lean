import Verif.Props.VarNames
import Verif.Props.CallbacksExact
/-!
# C42, C60, C68: the codes of the switches the library makes itself
-/
namespace Grf
open Syntax _root_.Spec

theorem entry_of_lookup {f : Nat} {n : String} {d : VarData} (h : (vaVars f).lookup n = some d) : (n, d) ∈ vaVars f := by
  generalize vaVars f = l at h
  induction l with
  | nil => cases h
  | cons p l ih =>
    obtain ⟨a, b⟩ := p
    simp only [List.lookup] at h
    by_cases e : n == a
    · rw [e] at h
      simp only [Option.some.injEq] at h
      rw [beq_iff_eq] at e
      subst e; subst h; simp
    · rw [Bool.eq_false_iff.2 e] at h
      exact List.mem_cons_of_mem _ (ih h)

/-- A switch whose code is the name of a variable without a parameter: it can be written, and computes the field of the variable. -/
theorem named_field (f g : Nat) (related : Bool) (n : String) (var start size : Nat) (hg : scopeFeature f related = some g)
    (hl : (vaVars g).lookup n = some ⟨var, start, size, none⟩) (hp : hasParam var = false) (subs : String → Option Int) :
    ∃ bs prog, switchCode f related subs n.toList = some bs ∧ (∀ rest, parseProgram (bs ++ rest) = some (prog, rest)) ∧
      ∀ (w : Spec.World) (m : Mach), runProgram w prog m = (((w.var var 0 m).extractLsb' start size).setWidth 32, m) := by
  obtain ⟨bs, hc, h1, -⟩ := name_computes_field g n _ (entry_of_lookup hl) subs
  obtain ⟨prog, h2, h3⟩ := h1 (by simpa using hp)
  refine ⟨bs, prog, ?_, h2, h3⟩
  unfold switchCode at hc ⊢
  rw [hg]
  exact hc

/-- **C42** The switch over the callbacks of an item can be written exactly for the features with named variables; there it asks the low
word of variable 0C, the number of the callback. -/
theorem callback_code (f : Nat) (subs : String → Option Int) :
    (f ∈ [0, 1, 2, 3, 4, 7, 9, 10, 15, 16, 20] → ∃ bs prog, switchCode f false subs "current_callback".toList = some bs ∧
      (∀ rest, parseProgram (bs ++ rest) = some (prog, rest)) ∧
      ∀ (w : Spec.World) (m : Mach), runProgram w prog m = (((w.var 0x0c 0 m).extractLsb' 0 16).setWidth 32, m)) ∧
    (f ∉ [0, 1, 2, 3, 4, 7, 9, 10, 15, 16, 20] → switchCode f false subs "current_callback".toList = none) := by
  constructor
  · intro h
    refine named_field f f false "current_callback" 0x0c 0 16 rfl ?_ (by decide) subs
    have : ∀ f < 21, f ∈ [0, 1, 2, 3, 4, 7, 9, 10, 15, 16, 20] → (vaVars f).lookup "current_callback" = some ⟨0x0c, 0, 16, none⟩ := by
      decide +kernel
    refine this f ?_ h
    simp only [List.mem_cons, List.not_mem_nil, or_false] at h
    omega
  · intro h
    have he : vaVars f = [] := by
      apply Classical.byContradiction
      intro hne
      exact h ((has_variables_iff f).1 hne)
    have hp : parse "current_callback".toList = some [.var "current_callback"] := by decide +kernel
    unfold switchCode
    simp only [scopeFeature, Bool.false_eq_true, if_false, hp, he, Option.bind_eq_bind, Option.bind_some]
    rfl

/-- **C42** For six of the features that have callbacks in the library no callback can ever be written: canals, cargos, airports, airport
tiles, road types and tram types. -/
theorem callbacks_without_variables (f : Nat) (subs : String → Option Int) (h : Callbacks.cbRows f ≠ []) :
    switchCode f false subs "current_callback".toList = none ↔ f ∈ [5, 11, 13, 17, 18, 19] := by
  have key : ∀ f < 21, Callbacks.cbRows f ≠ [] → (f ∉ [0, 1, 2, 3, 4, 7, 9, 10, 15, 16, 20] ↔ f ∈ [5, 11, 13, 17, 18, 19]) := by decide +kernel
  have hf : f < 21 := by
    apply Classical.byContradiction
    intro hc
    apply h
    match f, hc with
    | f + 21, _ => rfl
  rw [← key f hf h]
  constructor
  · intro hn hm
    obtain ⟨bs, prog, e, -⟩ := (callback_code f subs).1 hm
    rw [hn] at e; cases e
  · exact (callback_code f subs).2

/-- **C68** The code which chooses the livery of a road vehicle or ship (asked of the first vehicle) or train: the low byte of variable F2. -/
theorem livery_code (subs : String → Option Int) (f : Nat) (related : Bool) (h : f < 4) :
    ∃ bs prog, switchCode f related subs "cargo_subtype".toList = some bs ∧ (∀ rest, parseProgram (bs ++ rest) = some (prog, rest)) ∧
      ∀ (w : Spec.World) (m : Mach), runProgram w prog m = (((w.var 0xf2 0 m).extractLsb' 0 8).setWidth 32, m) := by
  have h1 : ∀ f < 4, (vaVars f).lookup "cargo_subtype" = some ⟨0xf2, 0, 8, none⟩ := by decide +kernel
  have h2 : ∀ f < 4, ∀ r : Bool, scopeFeature f r = some f := by decide +kernel
  exact named_field f f related "cargo_subtype" 0xf2 0 8 (h2 f h related) (h1 f h) (by decide) subs

/-- **C60** The codes of the industry switches: the position of the tile in the industry (variable 43 of the tile), and the number of the
layout (variable 44 of the industry). -/
theorem industry_codes (subs : String → Option Int) :
    (∃ bs prog, switchCode 9 false subs "relative_pos".toList = some bs ∧ (∀ rest, parseProgram (bs ++ rest) = some (prog, rest)) ∧
      ∀ (w : Spec.World) (m : Mach), runProgram w prog m = (((w.var 0x43 0 m).extractLsb' 0 16).setWidth 32, m)) ∧
    (∃ bs prog, switchCode 9 true subs "layout_num".toList = some bs ∧ (∀ rest, parseProgram (bs ++ rest) = some (prog, rest)) ∧
      ∀ (w : Spec.World) (m : Mach), runProgram w prog m = (((w.var 0x44 0 m).extractLsb' 0 8).setWidth 32, m)) :=
  ⟨named_field 9 9 false "relative_pos" 0x43 0 16 rfl (by decide +kernel) (by decide) subs,
   named_field 9 10 true "layout_num" 0x44 0 8 rfl (by decide +kernel) (by decide) subs⟩

/-- **C42** The codes of the switches over properties, sounds and articulated parts, and of names in the purchase list: the low byte and the
whole of variable 10. -/
theorem extra_info_codes (subs : String → Option Int) (f : Nat) (h : f < 4) :
    (∃ bs prog, switchCode f false subs "extra_callback_info1_byte".toList = some bs ∧ (∀ rest, parseProgram (bs ++ rest) = some (prog, rest)) ∧
      ∀ (w : Spec.World) (m : Mach), runProgram w prog m = (((w.var 0x10 0 m).extractLsb' 0 8).setWidth 32, m)) ∧
    (∃ bs prog, switchCode f false subs "extra_callback_info1".toList = some bs ∧ (∀ rest, parseProgram (bs ++ rest) = some (prog, rest)) ∧
      ∀ (w : Spec.World) (m : Mach), runProgram w prog m = (w.var 0x10 0 m, m)) := by
  have h1 : ∀ f < 4, (vaVars f).lookup "extra_callback_info1_byte" = some ⟨0x10, 0, 8, none⟩ := by decide +kernel
  have h2 : ∀ f < 4, (vaVars f).lookup "extra_callback_info1" = some ⟨0x10, 0, 32, none⟩ := by decide +kernel
  refine ⟨named_field f f false _ 0x10 0 8 rfl (h1 f h) (by decide) subs, ?_⟩
  obtain ⟨bs, prog, a, b, c⟩ := named_field f f false _ 0x10 0 32 rfl (h2 f h) (by decide) subs
  refine ⟨bs, prog, a, b, fun w m => ?_⟩
  rw [c w m]
  congr 1
  ext i hi
  simp [hi]

end Grf
