import Verif.Proofs.CompileSim
import Verif.Spec.LinkSem
/-!
# Simulation proof for linked procedures (support for C21, C22)

The same induction as `Verif/Proofs/CompileSim.lean`, for every accepted right operand, with separate source and machine worlds.
-/
namespace Grf
open Spec

/-- The machine world `wm` runs what the source world `ws` means; procedures in `keeps` change no reserved register. -/
structure Link (ws : SWorld) (wm : World) (keeps : Nat → Bool) : Prop where
  var : ∀ v p a b, Agree a b → ws.var v p a = wm.var v p b
  call : ∀ n a b x a', Agree a b → ws.call n a = some (x, a') → ∃ b', wm.call n b = (x, b') ∧ Agree a' b' ∧
    (keeps n = true → ∀ r, Reserved r → b'.temp r = b.temp r)

/-- Operator byte and accumulator of a front. -/
def fop : Front → Nat
  | none => 0x0f
  | some (op, _) => op.toNat

def facc : Front → Word → Word
  | none, acc => acc
  | some (_, x), _ => x

theorem readNum_link {ws : SWorld} {wm : World} {keeps} (hl : Link ws wm keeps) {v : Nat} {p x : Word} {a m : Mach}
    (h : readNum ws.vars v p a = some x) (ha : Agree a m) :
    v ≠ 0x7b ∧ v ≠ 0x7e ∧ getVar wm v p m = x := by
  unfold readNum at h
  split at h
  · simp at h
  · next h1 =>
    split at h
    · simp at h
    · next h2 =>
      simp only [Option.some.injEq] at h
      refine ⟨fun e => h1 (Or.inl e), fun e => h1 (Or.inr e), ?_⟩
      rw [← h]
      unfold getVar
      split
      · rfl
      · split
        · exact (ha.1 _).symm
        · split
          · next h3 =>
            have : ¬ Reserved p.toNat := fun hr => h2 ⟨h3, hr⟩
            unfold Mach.readTemp
            split
            · exact (ha.2 _ this).symm
            · rfl
          · exact (hl.var _ _ _ _ ha).symm

theorem thread_sim {f : Front} {x v : Word} {s s' : SState} {m : Mach} (acc : Word)
    (h : thread f x s = some (v, s')) (ha : Agree s.mach m) :
    ∃ m', evalOp (fop f) (facc f acc) x m = (v, m') ∧ Agree s'.mach m' ∧ s'.vars = s.vars ∧
      ∀ r, Reserved r → m'.temp r = m.temp r := by
  cases f with
  | none =>
    simp only [thread, Option.some.injEq, Prod.mk.injEq] at h
    obtain ⟨rfl, rfl⟩ := h
    exact ⟨m, rfl, ha, rfl, fun _ _ => rfl⟩
  | some q =>
    obtain ⟨op, a⟩ := q
    simp only [thread, Option.bind_eq_bind, Option.bind_eq_some_iff, Option.some.injEq, Prod.mk.injEq] at h
    obtain ⟨⟨z, mm⟩, hz, rfl, rfl⟩ := h
    obtain ⟨_, _, h1, h2, h3⟩ := applyOp_some hz ha
    exact ⟨(evalOp op.toNat a x m).2, Prod.ext h1 rfl, h2, rfl, h3⟩

/-- What is known about the code of a simple operand. -/
def SimpleF (T : Tables) (e : Node) (c : Ctx) (a : Access) : Prop :=
  ∀ (ws : SWorld) (wm : World) (keeps : Nat → Bool), Link ws wm keeps → ∀ live, CallsOk T keeps e live = true →
    ∀ f s v s' m acc, Rel c s m → evalF ws T.names e f s = some (v, s') →
    ∃ m', exec wm [(fop f, a)] (facc f acc, m) = (v, m') ∧ Agree s'.mach m' ∧ s'.vars = s.vars ∧
      (live = true ∨ RegFree T keeps e = true → ∀ r, Reserved r → m'.temp r = m.temp r)

/-- A fetch that leaves the machine alone, then the operator. -/
theorem simpleF_of_fetch {wm : World} {a : Access} {f : Front} {acc x v : Word} {s s' : SState} {m : Mach}
    (hf : ∀ acc, fetch wm acc a m = (x, m)) (h : thread f x s = some (v, s')) (ha : Agree s.mach m) :
    ∃ m', exec wm [(fop f, a)] (facc f acc, m) = (v, m') ∧ Agree s'.mach m' ∧ s'.vars = s.vars ∧
      ∀ r, Reserved r → m'.temp r = m.temp r := by
  obtain ⟨m', h1, h2, h3, h4⟩ := thread_sim acc h ha
  refine ⟨m', ?_, h2, h3, h4⟩
  simp only [exec, hf, h1]

theorem simpleF_call {ws : SWorld} {wm : World} {keeps : Nat → Bool} (hl : Link ws wm keeps) {a : Access} {n : Nat} {f : Front}
    {acc x v : Word} {s s' : SState} {m mm : Mach} (hf : ∀ acc, fetch wm acc a m = wm.call n m)
    (hc : ws.call n s.mach = some (x, mm)) (h : thread f x { s with mach := mm } = some (v, s')) (ha : Agree s.mach m) :
    ∃ m', exec wm [(fop f, a)] (facc f acc, m) = (v, m') ∧ Agree s'.mach m' ∧ s'.vars = s.vars ∧
      (keeps n = true → ∀ r, Reserved r → m'.temp r = m.temp r) := by
  obtain ⟨m1, h1, h2, h3⟩ := hl.call n s.mach m x mm ha hc
  obtain ⟨m', g1, g2, g3, g4⟩ := thread_sim (m := m1) acc h h2
  refine ⟨m', ?_, g2, g3, ?_⟩
  · simp only [exec, hf, h1, g1]
  · intro hk r hr
    rw [g4 r hr, h3 hk r hr]

theorem simple_simF (T : Tables) (e : Node) (c c' : Ctx) (isv : Bool) (bs : Bytes)
    (hs : Simple e = true) (hwf : WfAny T e) (hi : CtxInv c)
    (h : compile T e 0 FULL c = some (isv, bs, c')) :
    isv = true ∧ c' = c ∧ ∃ a, bs = encAcc a true ∧ WfAcc a ∧ (DecNode T e → a.var ≠ 0x7b) ∧
      SimpleF T e c a := by
  cases e with
  | value v =>
    simp only [compile, Option.bind_eq_bind, Option.bind_eq_some_iff] at h
    obtain ⟨_, hg, h⟩ := h
    rw [if_neg (by decide)] at h
    simp only [Option.bind_eq_some_iff, Option.some.injEq, Prod.mk.injEq] at h
    obtain ⟨code, hc, rfl, rfl, rfl⟩ := h
    obtain ⟨a, ha, hwa, rfl, _⟩ := packVar_some hc (by decide) (by decide)
    refine ⟨rfl, rfl, a, rfl, hwa, by intro; rw [ha]; simp, ?_⟩
    intro ws w keeps hl live hco f s x s' m acc hr he
    simp only [evalF] at he
    obtain ⟨m', k1, k2, k3, k4⟩ := simpleF_of_fetch (wm := w) (a := a) (acc := acc) (m := m) (fun acc => by
      rw [fetch_plain _ _ _ _ (by rw [ha]; simp) (by rw [ha]; simp), ha, adjust_plain]
      simp only [Int.toNat_zero, pyShr_zero, pyAnd_full_right, ofInt_mod]
      have e1 : ((0x1a : Int)).toNat = 0x1a := rfl
      rw [e1, getVar, if_pos rfl, BitVec.ushiftRight_zero, BitVec.allOnes_and]) he hr.agree
    exact ⟨m', k1, k2, k3, fun _ => k4⟩
  | var n =>
    simp only [compile] at h
    split at h
    · next ht =>
      split at h
      · simp at h
      · next r hlk =>
        simp only [Option.bind_eq_bind, Option.bind_eq_some_iff, Option.some.injEq, Prod.mk.injEq] at h
        obtain ⟨code, hc, rfl, rfl, rfl⟩ := h
        obtain ⟨a, ha, hwa, rfl, _⟩ := packVarP_some hc (by decide) (by decide)
        refine ⟨rfl, rfl, a, rfl, hwa, by intro; rw [ha]; simp, ?_⟩
        intro ws w keeps hl live hco f s x s' m acc hr he
        simp only [evalF, Tables.names, ht, Option.bind_eq_bind, Option.bind_eq_some_iff] at he
        obtain ⟨y, hy, he⟩ := he
        have hrr := hi.used_range _ (hi.vars_used _ _ hlk)
        obtain ⟨m', k1, k2, k3, k4⟩ := simpleF_of_fetch (wm := w) (a := a) (acc := acc) (m := m) (fun acc => by
          rw [fetch_plain _ _ _ _ (by rw [ha]; simp) (by rw [ha]; simp), ha]
          simp only [Int.toNat_zero]
          rw [adjust_full]
          have e1 : ((0x7d : Int)).toNat = 0x7d := rfl
          have e2 : (BitVec.ofNat 32 (Int.toNat (r : Int))).toNat = r := by simp; omega
          simp only [e1, getVar]
          simp only [Nat.reduceEqDiff, if_false, if_true, e2]
          rw [Mach.readTemp, if_pos (by unfold numTemp; omega), hr.vars n r y hlk hy]) he hr.agree
        exact ⟨m', k1, k2, k3, fun _ => k4⟩
    · next d ht =>
      rw [if_neg (by decide)] at h
      simp only [Option.bind_eq_bind, Option.bind_eq_some_iff] at h
      obtain ⟨_, hg, h⟩ := h
      have hsh := guardShift_some hg
      have hpar := hwf d ht
      split at h
      · next p hp =>
        simp only [Option.bind_eq_some_iff, Option.some.injEq, Prod.mk.injEq] at h
        obtain ⟨code, hc, rfl, rfl, rfl⟩ := h
        obtain ⟨a, ha, hwa, rfl, _, hp0, _⟩ := packVarP_some hc hsh (by simp [hpar, hp])
        refine ⟨rfl, rfl, a, rfl, hwa, fun hd => by rw [ha]; have := hd d ht; simpa using this, ?_⟩
        intro ws w keeps hl live hco f s x s' m acc hr he
        simp only [evalF, Tables.names, ht, Option.bind_eq_bind, Option.bind_eq_some_iff] at he
        obtain ⟨y, hy, he⟩ := he
        obtain ⟨n1, n2, hg⟩ := readNum_link hl hy hr.agree
        obtain ⟨m', k1, k2, k3, k4⟩ := simpleF_of_fetch (wm := w) (a := a) (acc := acc) (m := m) (fun acc => by
          rw [fetch_plain _ _ _ _ (by rw [ha]; simpa using n2) (by rw [ha]; simpa using n1), ha]
          simp only [Int.toNat_zero, pyShr_zero]
          rw [bits_adjust]
          simp only [hp, Option.getD_some] at hg
          rw [Int.zero_add]
          simp only [Int.toNat_natCast]
          rw [hg]) he hr.agree
        exact ⟨m', k1, k2, k3, fun _ => k4⟩
      · next hp =>
        simp only [Option.bind_eq_some_iff, Option.some.injEq, Prod.mk.injEq] at h
        obtain ⟨code, hc, rfl, rfl, rfl⟩ := h
        obtain ⟨a, ha, hwa, rfl, _⟩ := packVar_some hc hsh (by simp [hpar, hp])
        refine ⟨rfl, rfl, a, rfl, hwa, fun hd => by rw [ha]; have := hd d ht; simpa using this, ?_⟩
        intro ws w keeps hl live hco f s x s' m acc hr he
        simp only [evalF, Tables.names, ht, Option.bind_eq_bind, Option.bind_eq_some_iff] at he
        obtain ⟨y, hy, he⟩ := he
        obtain ⟨n1, n2, hg⟩ := readNum_link hl hy hr.agree
        obtain ⟨m', k1, k2, k3, k4⟩ := simpleF_of_fetch (wm := w) (a := a) (acc := acc) (m := m) (fun acc => by
          rw [fetch_plain _ _ _ _ (by rw [ha]; simpa using n2) (by rw [ha]; simpa using n1), ha]
          simp only [Int.toNat_zero, pyShr_zero]
          rw [bits_adjust]
          simp only [hp, Option.getD_none] at hg
          rw [Int.zero_add]
          simp only [Int.toNat_natCast]
          rw [hg]) he hr.agree
        exact ⟨m', k1, k2, k3, fun _ => k4⟩
  | gvar v sh mask =>
    simp only [compile] at h
    rw [if_neg (by decide)] at h
    simp only [Option.bind_eq_bind, Option.bind_eq_some_iff] at h
    obtain ⟨_, hg, code, hc, h⟩ := h
    simp only [Option.some.injEq, Prod.mk.injEq] at h
    obtain ⟨rfl, rfl, rfl⟩ := h
    have hsh := guardShift_some hg
    obtain ⟨a, ha, hwa, rfl, _⟩ := packVar_some hc hsh hwf
    refine ⟨rfl, rfl, a, rfl, hwa, fun hd => by rw [ha]; exact hd, ?_⟩
    intro ws w keeps hl live hco f s x s' m acc hr he
    simp only [evalF, Option.bind_eq_bind, Option.bind_eq_some_iff] at he
    obtain ⟨y, hy, he⟩ := he
    obtain ⟨n1, n2, hg⟩ := readNum_link hl hy hr.agree
    obtain ⟨m', k1, k2, k3, k4⟩ := simpleF_of_fetch (wm := w) (a := a) (acc := acc) (m := m) (fun acc => by
      rw [fetch_plain _ _ _ _ (by rw [ha]; simpa using n2) (by rw [ha]; simpa using n1), ha]
      simp only [Int.toNat_zero, pyShr_zero]
      rw [bits_adjust]
      have : BitVec.ofNat 32 0 = (0 : Word) := rfl
      rw [this, hg, Int.zero_add]) he hr.agree
    exact ⟨m', k1, k2, k3, fun _ => k4⟩
  | gvarP v sh mask p =>
    cases p with
    | value p =>
      have hs0 := hs
      simp only [Simple, decide_eq_true_eq] at hs
      simp only [compile] at h
      rw [if_neg (by decide)] at h
      simp only [Option.bind_eq_bind, Option.bind_eq_some_iff, Node.constEval] at h
      obtain ⟨_, hg, h⟩ := h
      rw [if_neg (by omega)] at h
      simp only [Option.bind_eq_some_iff, Option.some.injEq, Prod.mk.injEq] at h
      obtain ⟨code, hc, rfl, rfl, rfl⟩ := h
      have hsh := guardShift_some hg
      have hpar : hasParam v.toNat = true := hwf.2 (by simp [DynParam]; omega)
      obtain ⟨a, ha, hwa, rfl, _, hp0, _⟩ := packVarP_some hc hsh hpar
      refine ⟨rfl, rfl, a, rfl, hwa, fun hd => by rw [ha]; exact hd.2.2.1, ?_⟩
      intro ws w keeps hl live hco f s x s' m acc hr he
      simp only [evalF, hs0, if_true, thread, Option.bind_eq_bind, Option.bind_some, Option.bind_eq_some_iff] at he
      obtain ⟨y, hy, he⟩ := he
      obtain ⟨n1, n2, hg⟩ := readNum_link hl hy hr.agree
      obtain ⟨m', k1, k2, k3, k4⟩ := simpleF_of_fetch (wm := w) (a := a) (acc := acc) (m := m) (fun acc => by
        rw [fetch_plain _ _ _ _ (by rw [ha]; simpa using n2) (by rw [ha]; simpa using n1), ha]
        simp only [Int.toNat_zero, pyShr_zero]
        rw [bits_adjust, ofNat_toNat_int p hp0, hg, Int.zero_add]) he hr.agree
      exact ⟨m', k1, k2, k3, fun _ => k4⟩
    | _ => simp [Simple] at hs
  | gvarDiv => simp [compile] at h
  | gvarDivP => simp [compile] at h
  | temp r =>
    cases r with
    | value r =>
      simp only [compile, Option.bind_eq_bind, Option.bind_eq_some_iff] at h
      obtain ⟨_, hg, code, hc, h⟩ := h
      simp only [Option.some.injEq, Prod.mk.injEq] at h
      obtain ⟨rfl, rfl, rfl⟩ := h
      obtain ⟨a, ha, hwa, rfl, _, hp0, _⟩ := packVarP_some hc (by decide) (by decide)
      refine ⟨rfl, rfl, a, rfl, hwa, by intro; rw [ha]; simp, ?_⟩
      intro ws w keeps hl live hco f s x s' m acc hr he
      simp only [evalF, hs, if_true, thread, Option.bind_eq_bind, Option.bind_some, Option.bind_eq_some_iff] at he
      obtain ⟨y, hy, he⟩ := he
      obtain ⟨n1, n2, hg⟩ := readNum_link hl hy hr.agree
      obtain ⟨m', k1, k2, k3, k4⟩ := simpleF_of_fetch (wm := w) (a := a) (acc := acc) (m := m) (fun acc => by
        rw [fetch_plain _ _ _ _ (by rw [ha]; simp) (by rw [ha]; simp), ha]
        simp only [Int.toNat_zero]
        rw [adjust_full, ofNat_toNat_int r hp0]
        have : ((0x7d : Int)).toNat = 0x7d := rfl
        rw [this, hg]) he hr.agree
      exact ⟨m', k1, k2, k3, fun _ => k4⟩
    | _ => simp [Simple] at hs
  | perm r =>
    cases r with
    | value r =>
      simp only [compile, Option.bind_eq_bind, Option.bind_eq_some_iff] at h
      obtain ⟨_, hg, code, hc, h⟩ := h
      simp only [Option.some.injEq, Prod.mk.injEq] at h
      obtain ⟨rfl, rfl, rfl⟩ := h
      obtain ⟨a, ha, hwa, rfl, _, hp0, _⟩ := packVarP_some hc (by decide) (by decide)
      refine ⟨rfl, rfl, a, rfl, hwa, by intro; rw [ha]; simp, ?_⟩
      intro ws w keeps hl live hco f s x s' m acc hr he
      simp only [evalF, hs, if_true, thread, Option.bind_eq_bind, Option.bind_some] at he
      obtain ⟨m', k1, k2, k3, k4⟩ := simpleF_of_fetch (wm := w) (a := a) (acc := acc) (m := m) (fun acc => by
        rw [fetch_plain _ _ _ _ (by rw [ha]; simp) (by rw [ha]; simp), ha]
        simp only [Int.toNat_zero]
        rw [adjust_full, ofNat_toNat_int r hp0]
        have e : ((0x7c : Int)).toNat = 0x7c := rfl
        rw [e]
        simp only [getVar, Nat.reduceEqDiff, if_false, if_true]
        rw [← hr.agree.1]) he hr.agree
      exact ⟨m', k1, k2, k3, fun _ => k4⟩
    | _ => simp [Simple] at hs
  | call n =>
    simp only [compile, Option.bind_eq_bind, Option.bind_eq_some_iff] at h
    obtain ⟨_, hg, code, hc, h⟩ := h
    simp only [Option.some.injEq, Prod.mk.injEq] at h
    obtain ⟨rfl, rfl, rfl⟩ := h
    obtain ⟨a, ha, hwa, rfl, _, hp0, _⟩ := packVarP_some hc (by decide) (by decide)
    refine ⟨rfl, rfl, a, rfl, hwa, by intro; rw [ha]; simp, ?_⟩
    intro ws w keeps hl live hco f s x s' m acc hr he
    simp only [evalF, Option.bind_eq_bind, Option.bind_eq_some_iff] at he
    obtain ⟨⟨y, mm⟩, hy, he⟩ := he
    obtain ⟨m', k1, k2, k3, k4⟩ := simpleF_call hl (acc := acc) (m := m) (a := a) (fun acc => by
      have e1 : ((0x7e : Int)).toNat = 0x7e := rfl
      rw [ha]
      simp only [fetch, e1, if_true, Int.toNat_zero]
      rw [adjust_full]) hy he hr.agree
    refine ⟨m', k1, k2, k3, ?_⟩
    intro hk
    apply k4
    simp only [CallsOk, Bool.or_eq_true, Bool.not_eq_eq_eq_not, Bool.not_true] at hco
    rcases hk with hk | hk
    · rcases hco with h | h
      · rw [hk] at h; cases h
      · exact h
    · exact hk
  | callName n =>
    simp only [compile, Option.bind_eq_bind, Option.bind_eq_some_iff] at h
    obtain ⟨_, hg, sub, hsub, code, hc, h⟩ := h
    simp only [Option.some.injEq, Prod.mk.injEq] at h
    obtain ⟨rfl, rfl, rfl⟩ := h
    obtain ⟨a, ha, hwa, rfl, _, hp0, _⟩ := packVarP_some hc (by decide) (by decide)
    refine ⟨rfl, rfl, a, rfl, hwa, by intro; rw [ha]; simp, ?_⟩
    have hn : T.names.subs n = some sub.toNat := by simp [Tables.names, hsub]
    intro ws w keeps hl live hco f s x s' m acc hr he
    simp only [evalF, hn, Option.bind_eq_bind, Option.bind_some, Option.bind_eq_some_iff] at he
    obtain ⟨⟨y, mm⟩, hy, he⟩ := he
    obtain ⟨m', k1, k2, k3, k4⟩ := simpleF_call hl (acc := acc) (m := m) (a := a) (fun acc => by
      have e1 : ((0x7e : Int)).toNat = 0x7e := rfl
      rw [ha]
      simp only [fetch, e1, if_true, Int.toNat_zero]
      rw [adjust_full]) hy he hr.agree
    refine ⟨m', k1, k2, k3, ?_⟩
    intro hk
    apply k4
    simp only [CallsOk, RegFree, hn, Bool.or_eq_true, Bool.not_eq_eq_eq_not, Bool.not_true] at hco hk
    rcases hk with hk | hk
    · rcases hco with h | h
      · rw [hk] at h; cases h
      · exact h
    · exact hk
  | expr => simp [Simple] at hs
  | assign => simp [Simple] at hs

/-- What is proved about the code of an expression. -/
structure SimF (T : Tables) (e : Node) (c c' : Ctx) (bs : Bytes) (code : Code) : Prop where
  bytes : bs = encAll code.1 code.2
  wf : WfCode code
  dec : DecNode T e → Plain7B code
  still : assigns e = false → c'.vars = c.vars ∧ ∀ r, r ∈ c'.used ↔ r ∈ c.used
  run : ∀ (ws : SWorld) (wm : World) (keeps : Nat → Bool), Link ws wm keeps → ∀ live, CallsOk T keeps e live = true →
    (live = false → ∀ r, r ∉ c.used) →
    ∀ f s v s' m acc, Rel c s m → evalF ws T.names e f s = some (v, s') →
    ∃ m', exec wm ((fop f, code.1) :: code.2) (facc f acc, m) = (v, m') ∧ Rel c' s' m' ∧
      (∀ r, Spill c r → m'.temp r = m.temp r) ∧
      (RegFree T keeps e = true → ∀ r, Reserved r → m'.temp r = m.temp r)

theorem simple_assigns {e : Node} (h : Simple e = true) : assigns e = false := by
  cases e with
  | gvarP v a b p => cases p <;> simp_all [Simple, assigns]
  | temp r => cases r <;> simp_all [Simple, assigns]
  | perm r => cases r <;> simp_all [Simple, assigns]
  | _ => simp_all [Simple, assigns]

theorem simple_SimF (T : Tables) (e : Node) (c c' : Ctx) (isv : Bool) (bs : Bytes)
    (hs : Simple e = true) (hwf : WfAny T e) (hi : CtxInv c)
    (h : compile T e 0 FULL c = some (isv, bs, c')) :
    CtxInv c' ∧ Ext c c' ∧ isv = ValueLike e ∧ ∃ code, SimF T e c c' bs code := by
  obtain ⟨rfl, rfl, a, rfl, hwa, hda, hsc⟩ := simple_simF T e c c' isv bs hs hwf hi h
  refine ⟨hi, Ext.refl _, by simp [ValueLike, hs], (a, []), rfl, ⟨hwa, by simp⟩, fun hd => ⟨hda hd, by simp⟩,
    fun _ => ⟨rfl, fun _ => Iff.rfl⟩, ?_⟩
  intro ws wm keeps hl live hco hu f s v s' m acc hr he
  obtain ⟨m', hf, hag, hv, hk⟩ := hsc ws wm keeps hl live hco f s v s' m acc hr he
  have hkeep : ∀ r, r ∈ c'.used → m'.temp r = m.temp r := by
    intro r hru
    cases hlv : live with
    | false => exact absurd hru (hu hlv r)
    | true => exact hk (.inl hlv) r (hi.used_range r hru)
  refine ⟨m', hf, ⟨hag, ?_⟩, fun r hsp => hkeep r hsp.1, fun hrf => hk (.inr hrf)⟩
  intro n r x hn hx
  rw [hv] at hx
  rw [hkeep r (hi.vars_used n r hn)]
  exact hr.vars n r x hn hx

/-- A computed index followed by a `7b` access. -/
theorem sim_7bF (T : Tables) (e p : Node) (v : Int) (sh mask : Int) (c c' : Ctx) (bs tail : Bytes) (code : Code)
    (hp : SimF T p c c' bs code)
    (ht : cat [packU 1 0x0f, packU 1 0x7b, packU 1 v, packU 1 (pyOr 0x20 sh), packU 4 mask] = some tail)
    (hsh : sh < 32) (hdec : DecNode T e → DecNode T p ∧ v.toNat ≠ 0x1a ∧ v.toNat ≠ 0x7b ∧ v.toNat ≠ 0x7e)
    (has : assigns e = assigns p) (hco : ∀ keeps live, CallsOk T keeps e live = CallsOk T keeps p live)
    (hrf : ∀ keeps, RegFree T keeps e = RegFree T keeps p)
    (hev : ∀ (w : SWorld) f s x s', evalF w T.names e f s = some (x, s') → ∃ i y, evalF w T.names p f s = some (i, s') ∧
      readNum w.vars v.toNat i s'.mach = some y ∧ x = ((y >>> sh.toNat) &&& BitVec.ofInt 32 mask)) :
    ∃ code, SimF T e c c' (bs ++ tail) code := by
  obtain ⟨a, ha, hwa, rfl, _⟩ := pack7b_some ht hsh
  refine ⟨(code.1, code.2 ++ [(0x0f, a)]), ?_, ?_, ?_, ?_, ?_⟩
  · rw [encAll_append, hp.bytes]; rfl
  · refine ⟨hp.wf.1, ?_⟩
    intro q hq
    simp only [List.mem_append, List.mem_singleton] at hq
    rcases hq with hq | rfl
    · exact hp.wf.2 q hq
    · exact ⟨by simp, hwa⟩
  · intro hd
    obtain ⟨hd1, hd2⟩ := hdec hd
    refine ⟨(hp.dec hd1).1, ?_⟩
    intro q hq
    simp only [List.mem_append, List.mem_singleton] at hq
    rcases hq with hq | rfl
    · exact (hp.dec hd1).2 q hq
    · intro _
      refine ⟨rfl, ?_⟩
      rw [ha]
      exact hd2
  · rw [has]; exact hp.still
  · intro ws wm keeps hl live hc hu f s x s' m acc hr he
    obtain ⟨i, y, he1, hy, rfl⟩ := hev ws f s x s' he
    rw [hco] at hc
    rw [hrf]
    obtain ⟨m', hx, hr', hsp, hrk⟩ := hp.run ws wm keeps hl live hc hu f s i s' m acc hr he1
    refine ⟨m', ?_, hr', hsp, hrk⟩
    have : (fop f, code.1) :: (code.2 ++ [(0x0f, a)]) = ((fop f, code.1) :: code.2) ++ [(0x0f, a)] := rfl
    simp only [this]
    rw [exec_append, hx, exec_init1, ha, fetch_7b, (readNum_link hl hy hr'.agree).2.2]

theorem Rel.congr {c c' : Ctx} {s : SState} {m : Mach} (h : Rel c s m) (e : c'.vars = c.vars) : Rel c' s m :=
  ⟨h.agree, fun n r x hn hx => h.vars n r x (by rw [← e]; exact hn) hx⟩

theorem compile_simF (T : Tables) (e : Node) : ∀ (c c' : Ctx) (isv : Bool) (bs : Bytes),
    WfAny T e → CtxInv c → compile T e 0 FULL c = some (isv, bs, c') →
    CtxInv c' ∧ Ext c c' ∧ isv = ValueLike e ∧ ∃ code, SimF T e c c' bs code := by
  induction e with
  | value v =>
    intro c c' isv bs hwf hi h
    exact simple_SimF T _ c c' isv bs rfl hwf hi h
  | var n =>
    intro c c' isv bs hwf hi h
    exact simple_SimF T _ c c' isv bs rfl hwf hi h
  | gvar v sh mask =>
    intro c c' isv bs hwf hi h
    exact simple_SimF T _ c c' isv bs rfl hwf hi h
  | gvarDiv =>
    intro c c' isv bs hwf hi h
    simp [compile] at h
  | gvarDivP =>
    intro c c' isv bs hwf hi h
    simp [compile] at h
  | call n =>
    intro c c' isv bs hwf hi h
    exact simple_SimF T _ c c' isv bs rfl hwf hi h
  | callName n =>
    intro c c' isv bs hwf hi h
    exact simple_SimF T _ c c' isv bs rfl hwf hi h
  | gvarP v sh mask p ih =>
    intro c c' isv bs hwf hi h
    by_cases hs : Simple (.gvarP v sh mask p) = true
    · exact simple_SimF T _ c c' isv bs hs hwf hi h
    · have hev : ∀ (w : SWorld) f s x s', evalF w T.names (.gvarP v sh mask p) f s = some (x, s') →
          ∃ i y, evalF w T.names p f s = some (i, s') ∧
          readNum w.vars v.toNat i s'.mach = some y ∧
          x = ((y >>> sh.toNat) &&& BitVec.ofInt 32 (pyAnd FULL mask)) := by
        intro w f s x s' he
        simp only [evalF, if_neg hs, Option.bind_eq_bind, Option.bind_eq_some_iff, Option.some.injEq,
          Prod.mk.injEq] at he
        obtain ⟨⟨i, s1⟩, he1, y, hy, rfl, rfl⟩ := he
        refine ⟨i, y, he1, hy, ?_⟩
        rw [pyAnd_full_left, ofInt_mod]; rfl
      have hdyn : DynParam (.gvarP v sh mask p) = true := by
        cases p <;> simp_all [Simple, DynParam]
      have hvl : ValueLike (.gvarP v sh mask p) = true := by rw [ValueLike, hdyn, Bool.or_true]
      simp only [compile] at h
      rw [if_neg (by decide)] at h
      simp only [Option.bind_eq_bind, Option.bind_eq_some_iff] at h
      obtain ⟨_, hg, h⟩ := h
      have hsh := guardShift_some hg
      rw [Int.zero_add] at hsh
      split at h
      · next hce =>
        simp only [Option.bind_eq_some_iff] at h
        obtain ⟨⟨iv, code, c1⟩, hc, tail, ht, h⟩ := h
        simp only [Option.some.injEq, Prod.mk.injEq] at h
        obtain ⟨rfl, rfl, rfl⟩ := h
        obtain ⟨hi1, hext, _, code1, hsim⟩ := ih c c1 iv code hwf.1 hi hc
        simp only [Int.zero_add, Int.toNat_zero, pyShr_zero] at ht
        exact ⟨hi1, hext, hvl.symm, sim_7bF T _ p v sh _ c c1 code tail code1 hsim ht hsh (fun hd => hd) rfl
          (fun _ _ => rfl) (fun _ => rfl) hev⟩
      · next pv hce =>
        have hpv : p = .value pv := by
          cases p <;> simp_all [Node.constEval]
        subst hpv
        have hbig : pv > 255 := by simpa [Simple] using hs
        rw [if_pos hbig] at h
        simp only [Option.bind_eq_some_iff] at h
        obtain ⟨code, hc, h⟩ := h
        simp only [Option.some.injEq, Prod.mk.injEq] at h
        obtain ⟨rfl, rfl, rfl⟩ := h
        simp only [Int.zero_add, Int.toNat_zero, pyShr_zero] at hc
        rw [cat, cat, cat] at hc
        simp only [Option.bind_eq_bind, Option.bind_eq_some_iff, Option.some.injEq] at hc
        obtain ⟨b1, h1, _, ⟨b2, h2, _, ⟨b3, h3, tail, ht, rfl⟩, rfl⟩, rfl⟩ := hc
        obtain ⟨hp0, hp1, _⟩ := packU4_some h3
        have hcv : compile T (.value pv) 0 FULL c = some (true, b1 ++ (b2 ++ b3), c) := by
          simp only [compile, Option.bind_eq_bind]
          have hgg : guardShift 0 FULL = some () := by decide
          rw [hgg]
          simp only [Option.bind_some]
          rw [if_neg (by decide)]
          simp only [Int.toNat_zero, pyShr_zero, pyAnd_full_right]
          rw [Int.emod_eq_of_lt hp0 hp1]
          have e20 : pyOr 0x20 0 = 0x20 := by decide
          simp [packVar, cat, h1, h2, h3, e20]
        obtain ⟨_, _, _, code1, hsim⟩ := ih c c true _ hwf.1 hi hcv
        obtain ⟨code2, hsim2⟩ := sim_7bF T (.gvarP v sh mask (.value pv)) _ v sh _ c c _ tail code1 hsim ht hsh
          (fun hd => hd) rfl (fun _ _ => rfl) (fun _ => rfl) hev
        refine ⟨hi, Ext.refl _, hvl.symm, code2, ?_⟩
        simpa [List.append_assoc] using hsim2
  | temp r ih =>
    intro c c' isv bs hwf hi h
    by_cases hs : Simple (.temp r) = true
    · exact simple_SimF T _ c c' isv bs hs hwf hi h
    · have hev : ∀ (w : SWorld) f s x s', evalF w T.names (.temp r) f s = some (x, s') →
          ∃ i y, evalF w T.names r f s = some (i, s') ∧
          readNum w.vars ((0x7d : Int)).toNat i s'.mach = some y ∧
          x = ((y >>> ((0 : Int)).toNat) &&& BitVec.ofInt 32 FULL) := by
        intro w f s x s' he
        simp only [evalF, if_neg hs, Option.bind_eq_bind, Option.bind_eq_some_iff, Option.some.injEq,
          Prod.mk.injEq] at he
        obtain ⟨⟨i, s1⟩, he1, y, hy, rfl, rfl⟩ := he
        refine ⟨i, y, he1, hy, ?_⟩
        rw [ofInt_full, BitVec.and_allOnes]; simp
      have hnv : ∀ k, r ≠ .value k := by rintro k rfl; simp [Simple] at hs
      simp only [compile, Option.bind_eq_bind, Option.bind_eq_some_iff] at h
      obtain ⟨_, hg, h⟩ := h
      obtain ⟨⟨iv, code, c1⟩, hc, tail, ht, h⟩ := h
      simp only [Option.some.injEq, Prod.mk.injEq] at h
      obtain ⟨rfl, rfl, rfl⟩ := h
      obtain ⟨hi1, hext, _, code1, hsim⟩ := ih c c1 iv code hwf hi hc
      have hs' : Simple (.temp r) = false := by simpa using hs
      exact ⟨hi1, hext, by rw [ValueLike, hs']; rfl, sim_7bF T _ _ 0x7d 0 _ c c1 code tail code1 hsim ht (by decide)
        (fun hd => ⟨hd, by decide, by decide, by decide⟩) rfl (fun _ _ => rfl) (fun _ => rfl) hev⟩
  | perm r ih =>
    intro c c' isv bs hwf hi h
    by_cases hs : Simple (.perm r) = true
    · exact simple_SimF T _ c c' isv bs hs hwf hi h
    · have hev : ∀ (w : SWorld) f s x s', evalF w T.names (.perm r) f s = some (x, s') →
          ∃ i y, evalF w T.names r f s = some (i, s') ∧
          readNum w.vars ((0x7c : Int)).toNat i s'.mach = some y ∧
          x = ((y >>> ((0 : Int)).toNat) &&& BitVec.ofInt 32 FULL) := by
        intro w f s x s' he
        simp only [evalF, if_neg hs, Option.bind_eq_bind, Option.bind_eq_some_iff, Option.some.injEq,
          Prod.mk.injEq] at he
        obtain ⟨⟨i, s1⟩, he1, rfl, rfl⟩ := he
        refine ⟨i, s1.mach.perm i.toNat, he1, ?_, ?_⟩
        · simp [readNum, getVar]
        · rw [ofInt_full, BitVec.and_allOnes]; simp
      have hnv : ∀ k, r ≠ .value k := by rintro k rfl; simp [Simple] at hs
      simp only [compile, Option.bind_eq_bind, Option.bind_eq_some_iff] at h
      obtain ⟨_, hg, h⟩ := h
      obtain ⟨⟨iv, code, c1⟩, hc, tail, ht, h⟩ := h
      simp only [Option.some.injEq, Prod.mk.injEq] at h
      obtain ⟨rfl, rfl, rfl⟩ := h
      obtain ⟨hi1, hext, _, code1, hsim⟩ := ih c c1 iv code hwf hi hc
      have hs' : Simple (.perm r) = false := by simpa using hs
      exact ⟨hi1, hext, by rw [ValueLike, hs']; rfl, sim_7bF T _ _ 0x7c 0 _ c c1 code tail code1 hsim ht (by decide)
        (fun hd => ⟨hd, by decide, by decide, by decide⟩) rfl (fun _ _ => rfl) (fun _ => rfl) hev⟩
  | expr op a b iha ihb =>
    intro c c' isv bs hwf hi h
    obtain ⟨hwa, hwb, hdyn⟩ := hwf
    have hvl : ValueLike (.expr op a b) = false := rfl
    simp only [compile, Option.bind_eq_bind, Option.bind_eq_some_iff] at h
    obtain ⟨⟨isb, bCode, cb⟩, hb, h⟩ := h
    obtain ⟨hib, hextb, hisv, codeb, hsimb⟩ := ihb c cb isb bCode hwb hi hb
    subst hisv
    by_cases hs : ValueLike b = true
    · simp only [hs, if_true, Option.bind_eq_some_iff] at h
      obtain ⟨⟨isa, aCode, ca⟩, ha, o, ho, h⟩ := h
      simp only [Option.some.injEq, Prod.mk.injEq] at h
      obtain ⟨rfl, rfl, rfl⟩ := h
      obtain ⟨hia, hexta, _, code, hsim⟩ := iha cb ca isa aCode hwa hib ha
      obtain ⟨ho0, ho1, rfl⟩ := packU1_some ho
      have hasb : assigns b = false := by
        by_cases hsb : Simple b = true
        · exact simple_assigns hsb
        · have : DynParam b = true := by
            simp only [ValueLike, Bool.or_eq_true] at hs
            exact hs.resolve_left hsb
          exact (hdyn this).2
      obtain ⟨hvb, hub⟩ := hsimb.still hasb
      refine ⟨hia, hextb.trans hexta, hvl.symm, (code.1, code.2 ++ ((op.toNat, codeb.1) :: codeb.2)), ?_, ?_, ?_, ?_, ?_⟩
      · rw [encAll_append, hsim.bytes, hsimb.bytes]; simp
      · refine ⟨hsim.wf.1, ?_⟩
        intro q hq
        simp only [List.mem_append, List.mem_cons] at hq
        rcases hq with hq | rfl | hq
        · exact hsim.wf.2 q hq
        · exact ⟨by simp only; omega, hsimb.wf.1⟩
        · exact hsimb.wf.2 q hq
      · intro hd
        refine ⟨(hsim.dec hd.1).1, ?_⟩
        intro q hq
        simp only [List.mem_append, List.mem_cons] at hq
        rcases hq with hq | rfl | hq
        · exact (hsim.dec hd.1).2 q hq
        · exact fun h => absurd h (hsimb.dec hd.2).1
        · exact (hsimb.dec hd.2).2 q hq
      · intro has
        simp only [assigns, Bool.or_eq_false_iff] at has
        obtain ⟨h1, h2⟩ := hsim.still has.1
        exact ⟨h1.trans hvb, fun r => (h2 r).trans (hub r)⟩
      · intro ws wm keeps hl live hco hu f s x s' m acc hr he
        simp only [evalF, hs, if_true, Option.bind_eq_bind, Option.bind_eq_some_iff] at he
        obtain ⟨⟨xa, s1⟩, he1, he2⟩ := he
        simp only [CallsOk, hs, if_true, Bool.and_eq_true] at hco
        obtain ⟨m1, hx1, hr1, hsp1, hk1⟩ := hsim.run ws wm keeps hl live hco.1
          (fun h r hm => hu h r ((hub r).1 hm)) f s xa s1 m acc (hr.congr hvb) he1
        -- the state in which the second operand is computed
        have hr1c : Rel c s1 m1 := (hr1.weaken hexta).congr hvb.symm
        have hexec : ∀ r : Word × Mach, exec wm ((op.toNat, codeb.1) :: codeb.2) (xa, m1) = r →
            exec wm ((fop f, code.1) :: (code.2 ++ (op.toNat, codeb.1) :: codeb.2)) (facc f acc, m) = r := by
          intro r hrr
          have : (fop f, code.1) :: (code.2 ++ (op.toNat, codeb.1) :: codeb.2)
              = ((fop f, code.1) :: code.2) ++ ((op.toNat, codeb.1) :: codeb.2) := rfl
          rw [this, exec_append, hx1, hrr]
        have hrf : RegFree T keeps (.expr op a b) = true → RegFree T keeps a = true ∧ RegFree T keeps b = true := by
          intro h
          simp only [RegFree, Bool.and_eq_true] at h
          exact h.1
        by_cases hsb : Simple b = true
        · -- one access: nothing is stored in registers
          obtain ⟨_, _, ab, hab, hwab, _, hsc⟩ := simple_simF T b c cb _ bCode hsb hwb hi hb
          have hcb : codeb = (ab, []) := by
            have h1 := hsimb.bytes
            rw [hab] at h1
            have e1 : markEnd (encAll codeb.1 codeb.2) = markEnd (encAll ab []) := by
              rw [← h1]; rfl
            rw [markEnd_encAll _ _ hsimb.wf, markEnd_encAll ab [] ⟨hwab, by simp⟩, Option.some.injEq] at e1
            have p1 := parseProgram_encFinal codeb.1 codeb.2 [] hsimb.wf
            have p2 := parseProgram_encFinal ab [] [] ⟨hwab, by simp⟩
            rw [e1, p2] at p1
            simp only [Option.some.injEq, Prod.mk.injEq] at p1
            exact Prod.ext p1.1.1.symm p1.1.2.symm
          subst hcb
          obtain ⟨m2, hf2, hag2, hv2, hk2⟩ := hsc ws wm keeps hl _ hco.2 (some (op, xa)) s1 x s' m1 acc hr1c he2
          have hkeep : ∀ r, r ∈ ca.used → m2.temp r = m1.temp r := by
            intro r hru
            by_cases hlv : (live || assigns a) = true
            · exact hk2 (.inl hlv) r (hia.used_range r hru)
            · simp only [Bool.or_eq_true, not_or, Bool.not_eq_true] at hlv
              exact absurd ((hub r).1 (((hsim.still hlv.2).2 r).1 hru)) (hu hlv.1 r)
          refine ⟨m2, hexec _ hf2, ⟨hag2, ?_⟩, ?_, ?_⟩
          · intro n r y hn hy
            rw [hkeep r (hia.vars_used n r hn)]
            rw [hv2] at hy
            exact hr1.vars n r y hn hy
          · intro r hsp
            rw [hkeep r ((hexta.spill r).2 ((hextb.spill r).2 hsp)).1]
            exact hsp1 r ((hextb.spill r).2 hsp)
          · intro h r hrr
            rw [hk2 (.inr (hrf h).2) r hrr, hk1 (hrf h).1 r hrr]
        · have hdb : DynParam b = true := by
            simp only [ValueLike, Bool.or_eq_true] at hs
            exact hs.resolve_left hsb
          have hasa := (hdyn hdb).1
          obtain ⟨hva, hua⟩ := hsim.still hasa
          have hco2 : CallsOk T keeps b live = true := by
            have := hco.2
            rwa [hasa, Bool.or_false] at this
          obtain ⟨m2, hx2, hr2, hsp2, hk2⟩ := hsimb.run ws wm keeps hl live hco2 hu (some (op, xa)) s1 x s' m1 acc hr1c he2
          refine ⟨m2, hexec _ hx2, hr2.congr hva, ?_, ?_⟩
          · intro r hsp
            rw [hsp2 r hsp]
            exact hsp1 r ((hextb.spill r).2 hsp)
          · intro h r hrr
            rw [hk2 (hrf h).2 r hrr, hk1 (hrf h).1 r hrr]
    · have hs' : ValueLike b = false := by simpa using hs
      simp only [hs', Bool.false_eq_true, if_false, Option.bind_eq_some_iff] at h
      obtain ⟨⟨r, cr⟩, hres, store, hst, ⟨isa, aCode, ca⟩, ha, tail, htl, cf, hrel, h⟩ := h
      simp only [Option.some.injEq, Prod.mk.injEq] at h
      obtain ⟨rfl, rfl, rfl⟩ := h
      obtain ⟨hir, hrnu, hr0, hr1, hrv, hrsp⟩ := reserve_spec hib hres
      obtain ⟨hia, hexta, _, codea, hsima⟩ := iha cr ca isa aCode hwa hir ha
      have hspr : Spill ca r := (hexta.spill r).2 ((hrsp r).2 (Or.inr rfl))
      obtain ⟨hif, hfv, hfsp⟩ := release_spec hia hspr hrel
      have hReserved : Reserved r := ⟨hr0, hr1⟩
      have hst' : ∃ st, cat [packU 1 0x0e, packU 1 0x1a, packU 1 0x20, packU 4 (r : Int)] = some st ∧
          store = st ++ [UInt8.ofNat 0x0f] := by
        simp only [cat, Option.bind_eq_bind, Option.bind_eq_some_iff, Option.some.injEq] at hst ⊢
        obtain ⟨b1, h1, _, ⟨b2, h2, _, ⟨b3, h3, _, ⟨b4, h4, _, ⟨b5, h5, _, rfl, rfl⟩, rfl⟩, rfl⟩, rfl⟩, rfl⟩ := hst
        obtain ⟨_, _, rfl⟩ := packU1_some h5
        exact ⟨_, ⟨b1, h1, _, ⟨b2, h2, _, ⟨b3, h3, _, ⟨b4, h4, _, rfl, rfl⟩, rfl⟩, rfl⟩, rfl⟩, by simp⟩
      obtain ⟨st, hst1, rfl⟩ := hst'
      obtain ⟨hwst, rfl, _⟩ := pack_store hst1
      have htl' : ∃ o rest, packU 1 op = some o ∧ packVarP 0x7d r 0 0xffffffff = some rest ∧
          tail = o ++ rest := by
        rw [cat] at htl
        simp only [Option.bind_eq_bind, Option.bind_eq_some_iff, Option.some.injEq] at htl
        obtain ⟨o, ho, rest, hrest, rfl⟩ := htl
        refine ⟨o, rest, ho, ?_, rfl⟩
        have e20 : pyOr 0x20 0 = 0x20 := by decide
        rw [packVarP, e20]; exact hrest
      obtain ⟨o, rest, ho, hrest, rfl⟩ := htl'
      obtain ⟨ho0, ho1, rfl⟩ := packU1_some ho
      obtain ⟨al, hal, hwal, rfl, _⟩ := packVarP_some hrest (by decide) (by decide)
      let sta : Access := { var := 0x1a, param := 0, shift := 0, mask := BitVec.ofNat 32 r }
      refine ⟨hif, ⟨?_, ?_⟩, hvl.symm,
        (codeb.1, codeb.2 ++ ((0x0e, sta) :: (0x0f, codea.1) :: codea.2) ++ [(op.toNat, al)]), ?_, ?_, ?_, ?_, ?_⟩
      · intro n x hx
        rw [hfv]
        apply hexta.vars
        rw [hrv]
        exact hextb.vars n x hx
      · intro x
        rw [hfsp, hexta.spill, hrsp, hextb.spill]
        constructor
        · rintro ⟨h1 | h1, h2⟩
          · exact h1
          · exact absurd h1 h2
        · intro h1
          refine ⟨Or.inl h1, ?_⟩
          rintro rfl
          exact hrnu ((hextb.spill x).2 h1).1
      · rw [encAll_append]
        show _ = encAll codeb.1 (codeb.2 ++ (0x0e, sta) :: (0x0f, codea.1) :: codea.2) ++ _
        rw [encAll_append]
        rw [hsimb.bytes, hsima.bytes]
        simp [encAll, sta]
      · refine ⟨hsimb.wf.1, ?_⟩
        intro q hq
        simp only [List.mem_append, List.mem_cons, List.not_mem_nil, or_false] at hq
        rcases hq with (hq | rfl | rfl | hq) | rfl
        · exact hsimb.wf.2 q hq
        · exact ⟨by simp, hwst⟩
        · exact ⟨by simp, hsima.wf.1⟩
        · exact hsima.wf.2 q hq
        · exact ⟨by simp only; omega, hwal⟩
      · intro hd
        refine ⟨(hsimb.dec hd.2).1, ?_⟩
        intro q hq
        simp only [List.mem_append, List.mem_cons, List.not_mem_nil, or_false] at hq
        rcases hq with (hq | rfl | rfl | hq) | rfl
        · exact (hsimb.dec hd.2).2 q hq
        · simp [sta]
        · exact fun h => absurd h (hsima.dec hd.1).1
        · exact (hsima.dec hd.1).2 q hq
        · rw [hal]; simp
      · intro has
        simp only [assigns, Bool.or_eq_false_iff] at has
        obtain ⟨hvb, hub⟩ := hsimb.still has.2
        obtain ⟨hva, hua⟩ := hsima.still has.1
        refine ⟨by rw [hfv, hva, hrv, hvb], ?_⟩
        intro q
        have hcr : ∀ q, q ∈ cr.used ↔ q = r ∨ q ∈ cb.used := by
          obtain ⟨_, _, _, rfl⟩ := reserve_some hres
          intro q; simp
        have hcf : q ∈ cf.used ↔ q ∈ ca.used ∧ q ≠ r := by
          unfold Ctx.release at hrel
          rw [if_pos hspr.1] at hrel
          simp only [Option.some.injEq] at hrel
          subst hrel
          simp
        rw [hcf, hua, hcr, ← hub]
        constructor
        · rintro ⟨h1 | h1, h2⟩
          · exact absurd h1 h2
          · exact h1
        · intro h1
          refine ⟨Or.inr h1, ?_⟩
          rintro rfl
          exact hrnu h1
      · intro ws wm keeps hl live hco hu f s x s' m acc hr he
        simp only [evalF, hs', Bool.false_eq_true, if_false, Option.bind_eq_bind, Option.bind_eq_some_iff] at he
        obtain ⟨⟨xb, s1⟩, he1, ⟨xa, s2⟩, he2, hz⟩ := he
        simp only [CallsOk, hs', Bool.false_eq_true, if_false, Bool.and_eq_true] at hco
        obtain ⟨m1, hx1, hrel1, hsp1, _⟩ := hsimb.run ws wm keeps hl live hco.1 hu f s xb s1 m acc hr he1
        let m2 : Mach := { m1 with temp := fun j => if j = r then xb else m1.temp j }
        have hrel2 : Rel cr s1 m2 := by
          refine ⟨⟨hrel1.agree.1, ?_⟩, ?_⟩
          · intro q hq
            show _ = if q = r then xb else m1.temp q
            rw [if_neg]
            · exact hrel1.agree.2 q hq
            · rintro rfl; exact hq hReserved
          · intro n q y hn hy
            rw [hrv] at hn
            show (if q = r then xb else m1.temp q) = y
            rw [if_neg]
            · exact hrel1.vars n q y hn hy
            · rintro rfl; exact hrnu (hib.vars_used n q hn)
        obtain ⟨m3, hx3, hrel3, hsp3, _⟩ := hsima.run ws wm keeps hl true hco.2 (fun h => by cases h) none s1 xa s2 m2 xb
          hrel2 he2
        have hm3r : m3.temp r = xb := by
          rw [hsp3 r ((hrsp r).2 (Or.inr rfl))]
          show (if r = r then xb else m1.temp r) = xb
          simp
        obtain ⟨m4, hze, hzag, hzv, hzk⟩ := thread_sim (m := m3) acc hz hrel3.agree
        simp only [fop, facc] at hze hx3
        refine ⟨m4, ?_, ⟨hzag, ?_⟩, ?_, ?_⟩
        · have : (fop f, codeb.1) :: (codeb.2 ++ ((0x0e, sta) :: (0x0f, codea.1) :: codea.2) ++ [(op.toNat, al)])
              = ((fop f, codeb.1) :: codeb.2) ++ ([(0x0e, sta)] ++ (((0x0f, codea.1) :: codea.2)
                ++ [(op.toNat, al)])) := by simp
          simp only [this]
          rw [exec_append, hx1, exec_append, exec_store wm r xb m1 hr1, exec_append, hx3]
          simp only [exec]
          rw [fetch_plain _ _ _ _ (by rw [hal]; simp) (by rw [hal]; simp), hal]
          simp only [Int.toNat_zero]
          have e1 : ((0x7d : Int)).toNat = 0x7d := rfl
          have e2 : (BitVec.ofNat 32 (Int.toNat (r : Int))).toNat = r := by simp; omega
          rw [show ((0xffffffff : Int)) = FULL from rfl, adjust_full]
          simp only [e1, getVar, Nat.reduceEqDiff, if_false, if_true, e2]
          rw [Mach.readTemp, if_pos (reserved_lt hReserved), hm3r, hze]
        · intro n q y hn hy
          rw [hfv] at hn
          have hq := hia.used_range q (hia.vars_used n q hn)
          rw [hzk q hq]
          rw [hzv] at hy
          exact hrel3.vars n q y hn hy
        · intro q hsp
          have hq := hi.used_range q hsp.1
          rw [hzk q hq]
          have hspb := (hextb.spill q).2 hsp
          rw [hsp3 q ((hrsp q).2 (Or.inl hspb))]
          show (if q = r then xb else m1.temp q) = _
          rw [if_neg]
          · exact hsp1 q hsp
          · rintro rfl; exact hrnu hspb.1
        · intro hrf
          simp [RegFree, hs'] at hrf
  | assign n e ih =>
    intro c c' isv bs hwf hi h
    simp only [compile, Option.bind_eq_bind, Option.bind_eq_some_iff] at h
    obtain ⟨⟨ise, eCode, ce⟩, hce, ⟨r, cr⟩, hres, store, hst, h⟩ := h
    simp only [Option.some.injEq, Prod.mk.injEq] at h
    obtain ⟨rfl, rfl, rfl⟩ := h
    obtain ⟨hie, hexte, _, code, hsim⟩ := ih c ce ise eCode hwf hi hce
    obtain ⟨hir, hextr, hlook, hr0, hr1, hnsp, hother⟩ := reserveVariable_spec hie hres
    obtain ⟨hwst, rfl, _⟩ := pack_store hst
    refine ⟨hir, hexte.trans hextr, rfl,
      (code.1, code.2 ++ [(0x0e, { var := 0x1a, param := 0, shift := 0, mask := BitVec.ofNat 32 r })]), ?_, ?_, ?_, ?_, ?_⟩
    · rw [encAll_append, hsim.bytes]; simp [encAll]
    · refine ⟨hsim.wf.1, ?_⟩
      intro q hq
      simp only [List.mem_append, List.mem_singleton] at hq
      rcases hq with hq | rfl
      · exact hsim.wf.2 q hq
      · exact ⟨by simp, hwst⟩
    · intro hd
      refine ⟨(hsim.dec hd).1, ?_⟩
      intro q hq
      simp only [List.mem_append, List.mem_singleton] at hq
      rcases hq with hq | rfl
      · exact (hsim.dec hd).2 q hq
      · simp
    · intro has; simp [assigns] at has
    · intro ws wm keeps hl live hco hu f s x s' m acc hr he
      simp only [evalF, Option.bind_eq_bind, Option.bind_eq_some_iff, Option.some.injEq,
        Prod.mk.injEq] at he
      obtain ⟨⟨xe, s1⟩, he1, rfl, rfl⟩ := he
      obtain ⟨m1, hx1, hrel1, hsp1, _⟩ := hsim.run ws wm keeps hl live hco hu f s xe s1 m acc hr he1
      refine ⟨{ m1 with temp := fun j => if j = r then xe else m1.temp j }, ?_, ⟨⟨hrel1.agree.1, ?_⟩, ?_⟩, ?_, ?_⟩
      · have : ∀ p, (fop f, code.1) :: (code.2 ++ [p]) = ((fop f, code.1) :: code.2) ++ [p] := fun _ => rfl
        simp only [this]
        rw [exec_append, hx1, exec_store wm r xe m1 hr1]
      · intro q hq
        show _ = if q = r then xe else m1.temp q
        rw [if_neg]
        · exact hrel1.agree.2 q hq
        · rintro rfl; exact hq ⟨hr0, hr1⟩
      · intro k q y hk hy
        simp only at hy ⊢
        by_cases hkn : k = n
        · subst hkn
          rw [hlook] at hk
          simp only [Option.some.injEq] at hk
          subst hk
          simp only [if_true, Option.some.injEq] at hy
          simp [hy]
        · rw [if_neg hkn] at hy
          obtain ⟨hk', hqr⟩ := hother k hkn q hk
          rw [if_neg hqr]
          exact hrel1.vars k q y hk' hy
      · intro q hsp
        show (if q = r then xe else m1.temp q) = _
        have : q ≠ r := by
          rintro rfl
          exact hnsp ((hexte.spill q).2 hsp)
        rw [if_neg this]
        exact hsp1 q hsp
      · intro hrf; simp [RegFree] at hrf

end Grf
