import Verif.Model.Dispatch
import Verif.Props.Define
/-!
# Helpers for the action round trips
-/
namespace Grf.Acts
open PropC

/-- The context in which an action that is not a sound is decoded: a sound context is left. -/
def PCtx.enter (c : PCtx) : PCtx := if c.kind = .sound then {} else c

theorem decodePseudo_cons (T : Nat → List (String × VarData)) (ctx : PCtx) (a : UInt8) (bs : Bytes) (h1 : a ≠ 0xfe) (h2 : a ≠ 0xff) :
    decodePseudo T ctx (a :: bs) = decodeAction T ctx.enter a bs := by
  by_cases h : ctx.kind = .sound <;> simp [decodePseudo, PCtx.enter, h, h1, h2]

theorem dp00 (T : Nat → List (String × VarData)) (ctx : PCtx) (bs : Bytes) :
    decodePseudo T ctx (0x00 :: bs) = (decode0 bs).map fun d => (some (.define d), ctx.enter) := by
  rw [decodePseudo_cons _ _ _ _ (by decide) (by decide)]; rfl
theorem dp01 (T : Nat → List (String × VarData)) (ctx : PCtx) (bs : Bytes) :
    decodePseudo T ctx (0x01 :: bs) = (decode1 bs).map fun d => (some (.sets d.1), ⟨.graphics, d.2⟩) := by
  rw [decodePseudo_cons _ _ _ _ (by decide) (by decide)]; rfl
theorem dp02 (T : Nat → List (String × VarData)) (ctx : PCtx) (bs : Bytes) :
    decodePseudo T ctx (0x02 :: bs) = (decode2 T bs).map fun d => (some (.act2 d), ctx.enter) := by
  rw [decodePseudo_cons _ _ _ _ (by decide) (by decide)]; rfl
theorem dp03 (T : Nat → List (String × VarData)) (ctx : PCtx) (bs : Bytes) :
    decodePseudo T ctx (0x03 :: bs) = (decode3 bs).map fun d => (some (.map d), ctx.enter) := by
  rw [decodePseudo_cons _ _ _ _ (by decide) (by decide)]; rfl
theorem dp04 (T : Nat → List (String × VarData)) (ctx : PCtx) (bs : Bytes) :
    decodePseudo T ctx (0x04 :: bs) = (decode4 bs).map fun d => (some (.texts d), ctx.enter) := by
  rw [decodePseudo_cons _ _ _ _ (by decide) (by decide)]; rfl
theorem dp05 (T : Nat → List (String × VarData)) (ctx : PCtx) (bs : Bytes) :
    decodePseudo T ctx (0x05 :: bs) = (decode5 bs).map fun d => (some (.newSprites d.1), ⟨.graphics, d.2⟩) := by
  rw [decodePseudo_cons _ _ _ _ (by decide) (by decide)]; rfl
theorem dp06 (T : Nat → List (String × VarData)) (ctx : PCtx) (bs : Bytes) :
    decodePseudo T ctx (0x06 :: bs) = (decode6 (bs.length + 1) bs).map fun d => (some (.modify d), ctx.enter) := by
  rw [decodePseudo_cons _ _ _ _ (by decide) (by decide)]; rfl
theorem dp07 (T : Nat → List (String × VarData)) (ctx : PCtx) (bs : Bytes) :
    decodePseudo T ctx (0x07 :: bs) = (decode7 false bs).map fun d => (some (.cond d), ctx.enter) := by
  rw [decodePseudo_cons _ _ _ _ (by decide) (by decide)]; rfl
theorem dp08 (T : Nat → List (String × VarData)) (ctx : PCtx) (bs : Bytes) :
    decodePseudo T ctx (0x08 :: bs) = (decode8 bs).map fun d => (some (.description d), ctx.enter) := by
  rw [decodePseudo_cons _ _ _ _ (by decide) (by decide)]; rfl
theorem dp09 (T : Nat → List (String × VarData)) (ctx : PCtx) (bs : Bytes) :
    decodePseudo T ctx (0x09 :: bs) = (decode7 true bs).map fun d => (some (.cond d), ctx.enter) := by
  rw [decodePseudo_cons _ _ _ _ (by decide) (by decide)]; rfl
theorem dp0a (T : Nat → List (String × VarData)) (ctx : PCtx) (bs : Bytes) :
    decodePseudo T ctx (0x0a :: bs) = (decodeA bs).map fun d => (some (.oldSprites d.1), ⟨.graphics, d.2⟩) := by
  rw [decodePseudo_cons _ _ _ _ (by decide) (by decide)]; rfl
theorem dp0b (T : Nat → List (String × VarData)) (ctx : PCtx) (bs : Bytes) :
    decodePseudo T ctx (0x0b :: bs) = (decodeB bs).map fun d => (some (.error d), ctx.enter) := by
  rw [decodePseudo_cons _ _ _ _ (by decide) (by decide)]; rfl
theorem dp0d (T : Nat → List (String × VarData)) (ctx : PCtx) (bs : Bytes) :
    decodePseudo T ctx (0x0d :: bs) = (decodeD bs).map fun d => (some (.compute d), ctx.enter) := by
  rw [decodePseudo_cons _ _ _ _ (by decide) (by decide)]; rfl
theorem dp10 (T : Nat → List (String × VarData)) (ctx : PCtx) (bs : Bytes) :
    decodePseudo T ctx (0x10 :: bs) = (decode10 bs).map fun d => (some (.label d), ctx.enter) := by
  rw [decodePseudo_cons _ _ _ _ (by decide) (by decide)]; rfl
theorem dp11 (T : Nat → List (String × VarData)) (ctx : PCtx) (bs : Bytes) :
    decodePseudo T ctx (0x11 :: bs) = (decode11 bs).map fun d => (some (.sounds d), ⟨.sound, d⟩) := by
  rw [decodePseudo_cons _ _ _ _ (by decide) (by decide)]; rfl
theorem dp12 (T : Nat → List (String × VarData)) (ctx : PCtx) (bs : Bytes) :
    decodePseudo T ctx (0x12 :: bs) = none := by
  rw [decodePseudo_cons _ _ _ _ (by decide) (by decide)]; rfl
theorem dp14 (T : Nat → List (String × VarData)) (ctx : PCtx) (bs : Bytes) :
    decodePseudo T ctx (0x14 :: bs) = (decode14 bs).map fun d => (some (.props d), ctx.enter) := by
  rw [decodePseudo_cons _ _ _ _ (by decide) (by decide)]; rfl
theorem dp0c (T : Nat → List (String × VarData)) (ctx : PCtx) (bs : Bytes) :
    decodePseudo T ctx (0x0c :: bs) = some (some (.comment bs), ctx.enter) := by
  rw [decodePseudo_cons _ _ _ _ (by decide) (by decide)]; rfl

theorem cat_cons_iff {x : Option Bytes} {xs : List (Option Bytes)} {bs : Bytes} :
    cat (x :: xs) = some bs ↔ ∃ a, x = some a ∧ ∃ b, cat xs = some b ∧ a ++ b = bs := by
  simp only [cat, Option.bind_eq_bind, Option.bind_eq_some_iff, Option.some.injEq]

theorem cat_nil_iff {bs : Bytes} : cat [] = some bs ↔ bs = [] := by
  simp [cat, eq_comm]

theorem pk (n : UInt8) : packU 1 (n.toNat : Int) = some [n] := by
  have := n.toNat_lt
  rw [packU, if_pos ⟨by omega, by simpa using by omega⟩]
  simp [leBytes]

/-- A byte value given by a literal. -/
theorem pk' {v : Int} {a : Bytes} (n : UInt8) (hn : v = (n.toNat : Int)) (h : packU 1 v = some a) : a = [n] := by
  rw [hn, pk] at h; simpa using h.symm

theorem feature_ok {f : Nat} (h : f ≤ 0x14) : feature (f : Int) = some f := by
  unfold feature; rw [if_pos ⟨by omega, by omega⟩]; simp

theorem readExt_ff {v : Int} {b : Bytes} (h : packU 2 v = some b) (t : Bytes) : readExt (255 :: (b ++ t)) = some (v, t) := by
  simp [readExt, readU_packU h]

theorem readExt_small {v : Int} {b : Bytes} (h : packU 1 v = some b) (hv : v < 255) (t : Bytes) : readExt (b ++ t) = some (v, t) := by
  obtain ⟨x, rfl, rfl⟩ := packU_one_some h
  have hx : x ≠ 255 := by intro e; subst e; revert hv; decide
  simp [readExt, hx]

/-- Words in a list. -/
theorem readWords (l : List Int) (bs t : Bytes) (h : cat (l.map (packU 2)) = some bs) :
    readN (readU 2) l.length (bs ++ t) = some (l, t) := by
  have := readN_cat (e := packU 2) (r := readU 2) (f := id) l (fun x _ b hb t => readU_packU hb t) bs h t
  simpa using this

theorem readN_length {α : Type} (r : Bytes → Option (α × Bytes)) (n : Nat) : ∀ (bs : Bytes) (l : List α) (t : Bytes),
    readN r n bs = some (l, t) → l.length = n := by
  induction n with
  | zero => intro bs l t h; simp only [readN, Option.some.injEq, Prod.mk.injEq] at h; simp [← h.1]
  | succ n ih =>
    intro bs l t h
    simp only [readN, Option.bind_eq_bind, Option.bind_eq_some_iff, Option.some.injEq, Prod.mk.injEq] at h
    obtain ⟨⟨a, b1⟩, _, ⟨l', b2⟩, h2, rfl, _⟩ := h
    simp [ih _ _ _ h2]

theorem readU_rest {k : Nat} {bs t : Bytes} {v : Int} (h : readU k bs = some (v, t)) : bs.length = k + t.length := by
  simp only [readU, takeBytes, Option.bind_eq_bind, Option.bind_eq_some_iff] at h
  obtain ⟨⟨x, r⟩, h1, h2⟩ := h
  split at h1
  · simp only [Option.some.injEq, Prod.mk.injEq] at h1 h2
    obtain ⟨_, rfl⟩ := h2
    rw [← h1.2]; simp; omega
  · simp at h1

theorem readU_bound {k : Nat} {bs t : Bytes} {v : Int} (h : readU k bs = some (v, t)) : 0 ≤ v ∧ v < (256 ^ k : Nat) := by
  simp only [readU, takeBytes, Option.bind_eq_bind, Option.bind_eq_some_iff] at h
  obtain ⟨⟨x, r⟩, h1, h2⟩ := h
  split at h1
  · simp only [Option.some.injEq, Prod.mk.injEq] at h1 h2
    obtain ⟨rfl, rfl⟩ := h2
    have := leVal_lt x
    have hl : x.length = k := by rw [← h1.1]; simp; omega
    rw [hl] at this
    exact ⟨by omega, by exact_mod_cast this⟩
  · simp at h1

theorem readN_words_rest (n : Nat) : ∀ (bs t : Bytes) (l : List Int), readN (readU 2) n bs = some (l, t) → bs.length = 2 * n + t.length := by
  induction n with
  | zero => intro bs t l h; simp only [readN, Option.some.injEq, Prod.mk.injEq] at h; simp [← h.2]
  | succ n ih =>
    intro bs t l h
    simp only [readN, Option.bind_eq_bind, Option.bind_eq_some_iff, Option.some.injEq, Prod.mk.injEq] at h
    obtain ⟨⟨a, b1⟩, h1, ⟨l', b2⟩, h2, _, rfl⟩ := h
    have := readU_rest h1
    have := ih _ _ _ h2
    simp only at *
    omega

end Grf.Acts
