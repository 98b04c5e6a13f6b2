import Mathlib.Data.List.Nodup
import Verif.Props.Compile
/-!
# C22: register allocation
-/
namespace Grf
open Spec

/-! ## Histories of the register allocator

`Hist L V c`: after some sequence of successful allocator calls starting from a fresh context, the
registers handed out and not yet given back are `L`, the named variables are `V` (both kept by the
specification from the *observed results* only), and the allocator's own state is `c`. -/
inductive Hist : List Nat → List (String × Nat) → Ctx → Prop
  | init : Hist [] [] Ctx.init
  | reserve {L V c r c'} : Hist L V c → c.reserve = some (r, c') → Hist (r :: L) V c'
  | release {L V c r c'} : Hist L V c → (∀ p ∈ V, p.2 ≠ r) → c.release r = some c' →
      Hist (L.filter (· ≠ r)) V c'
  | newVar {L V c n r c'} : Hist L V c → V.lookup n = none → c.reserveVariable n = some (r, c') →
      Hist (r :: L) ((n, r) :: V) c'
  | oldVar {L V c n r c'} : Hist L V c → V.lookup n ≠ none → c.reserveVariable n = some (r, c') →
      Hist L V c'

structure HistInv (L : List Nat) (V : List (String × Nat)) (c : Ctx) : Prop where
  used : ∀ r, r ∈ c.used ↔ r ∈ L
  nodup : L.Nodup
  range : ∀ r ∈ L, 0x80 ≤ r ∧ r < 0x100
  min_ge : 0x80 ≤ c.minReg
  full : ∀ r, 0x80 ≤ r → r < c.minReg → r ∈ L
  vars : c.vars = V
  vlive : ∀ p ∈ V, p.2 ∈ L
  vnodup : (V.map (·.2)).Nodup

theorem reserve_first {c c' : Ctx} {r : Nat} (h : c.reserve = some (r, c')) :
    ∀ x, c.minReg ≤ x → x < r → x ∈ c.used := by
  unfold Ctx.reserve at h
  split at h
  · simp at h
  · next y hy =>
    simp only [Option.some.injEq, Prod.mk.injEq] at h
    obtain ⟨rfl, rfl⟩ := h
    intro x h1 h2
    rw [List.find?_eq_some_iff_getElem] at hy
    obtain ⟨_, i, hi, he, hlt⟩ := hy
    simp only [List.getElem_range', List.length_range'] at he hi hlt
    have := hlt (x - c.minReg) (by omega)
    simp only [Nat.one_mul, Bool.not_eq_true', decide_eq_false_iff_not, not_not] at this
    rwa [show c.minReg + (x - c.minReg) = x by omega] at this

theorem reserve_histInv {L V c r c'} (i : HistInv L V c) (h : c.reserve = some (r, c')) :
    r ∉ L ∧ HistInv (r :: L) V c' := by
  obtain ⟨h1, h2, h3, rfl⟩ := reserve_some h
  have hf := reserve_first h
  have hr : r ∉ L := fun q => h1 ((i.used r).2 q)
  have hm := i.min_ge
  refine ⟨hr, ⟨?_, List.nodup_cons.2 ⟨hr, i.nodup⟩, ?_, by simp; omega, ?_, i.vars, ?_, i.vnodup⟩⟩
  · intro x; simp [i.used x]
  · intro x hx
    rcases List.mem_cons.1 hx with rfl | hx
    · omega
    · exact i.range x hx
  · intro x hx1 hx2
    simp only at hx2
    rcases Nat.lt_or_ge x c.minReg with hlt | hge
    · exact List.mem_cons_of_mem _ (i.full x hx1 hlt)
    · rcases Nat.lt_or_ge x r with h4 | h4
      · exact List.mem_cons_of_mem _ ((i.used x).1 (hf x hge h4))
      · have : x = r := by omega
        subst this; exact List.mem_cons_self
  · intro p hp; exact List.mem_cons_of_mem _ (i.vlive p hp)

theorem hist_inv {L V c} (h : Hist L V c) : HistInv L V c := by
  induction h with
  | init => exact ⟨by simp [Ctx.init], List.nodup_nil, by simp, by simp [Ctx.init],
      fun r h1 h2 => absurd h2 (by simp [Ctx.init]; omega), rfl, by simp, by simp⟩
  | reserve _ hr i => exact (reserve_histInv i hr).2
  | @release L V c r c' _ hv hr i =>
    unfold Ctx.release at hr
    split at hr
    · next hu =>
      simp only [Option.some.injEq] at hr
      subst hr
      have hrr := i.range r ((i.used r).1 hu)
      have hm := i.min_ge
      refine ⟨?_, i.nodup.filter _, ?_, ?_, ?_, i.vars, ?_, i.vnodup⟩
      · intro x; simp [i.used x]
      · intro x hx; exact i.range x (List.mem_filter.1 hx).1
      · simp only [Nat.le_min]; omega
      · intro x h1 h2
        simp only [Nat.lt_min] at h2
        rw [List.mem_filter]
        exact ⟨i.full x h1 h2.1, by simp; omega⟩
      · intro p hp
        rw [List.mem_filter]
        exact ⟨i.vlive p hp, by simpa using hv p hp⟩
    · simp at hr
  | @newVar L V c n r c' _ hn hr i =>
    unfold Ctx.reserveVariable at hr
    rw [i.vars, hn] at hr
    simp only [Option.bind_eq_bind, Option.bind_eq_some_iff] at hr
    obtain ⟨⟨r1, c1⟩, h1, h2⟩ := hr
    simp only [Option.some.injEq, Prod.mk.injEq] at h2
    obtain ⟨rfl, rfl⟩ := h2
    obtain ⟨hnr, j⟩ := reserve_histInv i h1
    refine ⟨j.used, j.nodup, j.range, j.min_ge, j.full, by simp [j.vars], ?_, ?_⟩
    · intro p hp
      rcases List.mem_cons.1 hp with rfl | hp
      · exact List.mem_cons_self
      · exact j.vlive p hp
    · rw [List.map_cons, List.nodup_cons]
      refine ⟨?_, i.vnodup⟩
      intro hm
      obtain ⟨p, hp, he⟩ := List.mem_map.1 hm
      simp only at he
      exact hnr (he ▸ i.vlive p hp)
  | @oldVar L V c n r c' _ hn hr i =>
    unfold Ctx.reserveVariable at hr
    rw [i.vars] at hr
    split at hr
    · simp only [Option.some.injEq, Prod.mk.injEq] at hr
      obtain ⟨_, rfl⟩ := hr
      exact i
    · next h => exact absurd h hn

/-- **C22** Over every allocator history: a newly reserved register is one of the compiler's registers
0x80..0xff and is not in use. -/
theorem reserved_register_is_fresh {L V c r c'} (h : Hist L V c) (hr : c.reserve = some (r, c')) :
    Reserved r ∧ r ∉ L := by
  have hi := hist_inv h
  obtain ⟨h1, h2, h3, _⟩ := reserve_some hr
  have := hi.min_ge
  exact ⟨⟨by omega, by omega⟩, fun q => h1 ((hi.used r).2 q)⟩

/-- **C22** Over every allocator history: reservation is refused exactly when all of 0x80..0xff are in
use (so an exhausted allocator never hands out a register twice, and never gives up early). -/
theorem reserve_refused_iff_exhausted {L V c} (h : Hist L V c) :
    c.reserve = none ↔ ∀ r, Reserved r → r ∈ L := by
  have hi := hist_inv h
  unfold Ctx.reserve
  constructor
  · intro hn r hr
    split at hn
    · next hx =>
      rw [List.find?_eq_none] at hx
      unfold Reserved at hr
      rcases Nat.lt_or_ge r c.minReg with hlt | hge
      · exact hi.full r hr.1 hlt
      · have := hx r (by rw [List.mem_range'_1]; omega)
        simp only [decide_eq_true_eq, not_not] at this
        exact (hi.used r).1 this
    · simp at hn
  · intro hall
    split
    · rfl
    · next x hx =>
      exfalso
      have h1 := List.find?_some hx
      have h2 := List.mem_of_find?_eq_some hx
      rw [List.mem_range'_1] at h2
      simp only [decide_eq_true_eq] at h1
      have := hi.min_ge
      exact h1 ((hi.used x).2 (hall x ⟨by omega, by omega⟩))

/-- **C22** Over every allocator history: all live registers are distinct and in 0x80..0xff, so at most
128 are live, and named variables have pairwise different live registers. -/
theorem live_registers_distinct {L V c} (h : Hist L V c) :
    L.Nodup ∧ (∀ r ∈ L, Reserved r) ∧ (∀ p ∈ V, p.2 ∈ L) ∧ (V.map (·.2)).Nodup :=
  let i := hist_inv h
  ⟨i.nodup, fun r hr => i.range r hr, i.vlive, i.vnodup⟩

/-- **C22** A variable keeps its register: asking again returns the register it was first given. -/
theorem variable_register_stable {L V c n r r' c'} (h : Hist L V c) (hn : V.lookup n = some r)
    (hr : c.reserveVariable n = some (r', c')) : r' = r ∧ c' = c := by
  have hi := hist_inv h
  unfold Ctx.reserveVariable at hr
  rw [hi.vars, hn] at hr
  simp only [Option.some.injEq, Prod.mk.injEq] at hr
  exact ⟨hr.1.symm, hr.2.symm⟩

/-- Non-vacuity: a history with two temporaries, one of them given back, and a variable. -/
example : ∃ c, Hist [0x80, 0x81] [("x", 0x80)] c ∧ c.reserve.map (·.1) = some 0x82 := by
  have h0 := Hist.init
  have h1 := Hist.reserve (r := 0x80) (c' := ⟨0x81, [0x80], []⟩) h0 (by decide)
  have h2 := Hist.reserve (r := 0x81) (c' := ⟨0x82, [0x81, 0x80], []⟩) h1 (by decide)
  have h3 := Hist.release (r := 0x80) (c' := ⟨0x80, [0x81], []⟩) h2 (by simp) (by decide)
  have h4 := Hist.newVar (n := "x") (r := 0x80) (c' := ⟨0x81, [0x80, 0x81], [("x", 0x80)]⟩) h3 (by decide) (by decide)
  exact ⟨_, h4, by decide⟩

/-! ## The compiler's use of the allocator -/

/-- Every context the compiler works with arises by an allocator history, in which compilation gives
back all its intermediate registers and only adds named variables. -/
theorem compile_hist (T : Tables) (e : Node) : ∀ (sh mask : Int) (c c' : Ctx) (isv : Bool) (bs : Bytes)
    (L : List Nat) (V : List (String × Nat)),
    Hist L V c → compile T e sh mask c = some (isv, bs, c') →
    ∃ N : List (String × Nat), ∃ L', Hist L' (N ++ V) c' ∧ (∀ r, r ∈ L' ↔ r ∈ L ∨ r ∈ N.map (·.2)) ∧
      ∀ p ∈ N, p.2 ∉ L := by
  have triv : ∀ {L V c}, Hist L V c → ∃ N : List (String × Nat), ∃ L', Hist L' (N ++ V) c ∧
      (∀ r, r ∈ L' ↔ r ∈ L ∨ r ∈ N.map (·.2)) ∧ ∀ p ∈ N, p.2 ∉ L :=
    fun {L _ _} h => ⟨[], L, h, by simp, by simp⟩
  induction e with
  | value v =>
    intro sh mask c c' isv bs L V hh h
    simp only [compile, Option.bind_eq_bind, Option.bind_eq_some_iff] at h
    obtain ⟨_, _, h⟩ := h
    split at h
    · simp at h
    · simp only [Option.bind_eq_some_iff, Option.some.injEq, Prod.mk.injEq] at h
      obtain ⟨_, _, _, _, rfl⟩ := h
      exact triv hh
  | var n =>
    intro sh mask c c' isv bs L V hh h
    simp only [compile] at h
    split at h
    · split at h
      · simp at h
      · simp only [Option.bind_eq_bind, Option.bind_eq_some_iff, Option.some.injEq, Prod.mk.injEq] at h
        obtain ⟨_, _, _, _, rfl⟩ := h
        exact triv hh
    · split at h
      · simp at h
      · simp only [Option.bind_eq_bind, Option.bind_eq_some_iff] at h
        obtain ⟨_, _, h⟩ := h
        split at h <;>
        · simp only [Option.bind_eq_some_iff, Option.some.injEq, Prod.mk.injEq] at h
          obtain ⟨_, _, _, _, rfl⟩ := h
          exact triv hh
  | gvar v a b =>
    intro sh mask c c' isv bs L V hh h
    simp only [compile] at h
    split at h
    · simp at h
    · simp only [Option.bind_eq_bind, Option.bind_eq_some_iff, Option.some.injEq, Prod.mk.injEq] at h
      obtain ⟨_, _, _, _, _, _, rfl⟩ := h
      exact triv hh
  | gvarP v a b p ih =>
    intro sh mask c c' isv bs L V hh h
    simp only [compile] at h
    split at h
    · simp at h
    · simp only [Option.bind_eq_bind, Option.bind_eq_some_iff] at h
      obtain ⟨_, _, h⟩ := h
      split at h
      · simp only [Option.bind_eq_some_iff, Option.some.injEq, Prod.mk.injEq] at h
        obtain ⟨⟨_, _, c1⟩, hc, _, _, _, _, rfl⟩ := h
        exact ih _ _ _ _ _ _ _ _ hh hc
      · split at h <;>
        · simp only [Option.bind_eq_some_iff, Option.some.injEq, Prod.mk.injEq] at h
          obtain ⟨_, _, _, _, rfl⟩ := h
          exact triv hh
  | gvarDiv => intro sh mask c c' isv bs L V hh h; simp [compile] at h
  | gvarDivP => intro sh mask c c' isv bs L V hh h; simp [compile] at h
  | temp r ih =>
    intro sh mask c c' isv bs L V hh h
    by_cases hv : ∃ k, r = .value k
    · obtain ⟨k, rfl⟩ := hv
      simp only [compile, Option.bind_eq_bind, Option.bind_eq_some_iff, Option.some.injEq, Prod.mk.injEq] at h
      obtain ⟨_, _, _, _, _, _, rfl⟩ := h
      exact triv hh
    · have hnv : ∀ k, r ≠ .value k := fun k e => hv ⟨k, e⟩
      simp only [compile, Option.bind_eq_bind, Option.bind_eq_some_iff, Option.some.injEq, Prod.mk.injEq] at h
      obtain ⟨_, _, ⟨_, _, c1⟩, hc, _, _, _, _, rfl⟩ := h
      exact ih _ _ _ _ _ _ _ _ hh hc
  | perm r ih =>
    intro sh mask c c' isv bs L V hh h
    by_cases hv : ∃ k, r = .value k
    · obtain ⟨k, rfl⟩ := hv
      simp only [compile, Option.bind_eq_bind, Option.bind_eq_some_iff, Option.some.injEq, Prod.mk.injEq] at h
      obtain ⟨_, _, _, _, _, _, rfl⟩ := h
      exact triv hh
    · have hnv : ∀ k, r ≠ .value k := fun k e => hv ⟨k, e⟩
      simp only [compile, Option.bind_eq_bind, Option.bind_eq_some_iff, Option.some.injEq, Prod.mk.injEq] at h
      obtain ⟨_, _, ⟨_, _, c1⟩, hc, _, _, _, _, rfl⟩ := h
      exact ih _ _ _ _ _ _ _ _ hh hc
  | call n =>
    intro sh mask c c' isv bs L V hh h
    simp only [compile, Option.bind_eq_bind, Option.bind_eq_some_iff, Option.some.injEq, Prod.mk.injEq] at h
    obtain ⟨_, _, _, _, _, _, rfl⟩ := h
    exact triv hh
  | callName n =>
    intro sh mask c c' isv bs L V hh h
    simp only [compile, Option.bind_eq_bind, Option.bind_eq_some_iff, Option.some.injEq, Prod.mk.injEq] at h
    obtain ⟨_, _, _, _, _, _, _, _, rfl⟩ := h
    exact triv hh
  | expr op a b iha ihb =>
    intro sh mask c c' isv bs L V hh h
    simp only [compile, Option.bind_eq_bind, Option.bind_eq_some_iff] at h
    obtain ⟨⟨isb, bb, cb⟩, hb, h⟩ := h
    obtain ⟨N1, L1, hh1, hm1, hf1⟩ := ihb _ _ _ _ _ _ _ _ hh hb
    split at h
    · simp only [Option.bind_eq_some_iff, Option.some.injEq, Prod.mk.injEq] at h
      obtain ⟨⟨_, _, ca⟩, ha, _, _, _, _, rfl⟩ := h
      obtain ⟨N2, L2, hh2, hm2, hf2⟩ := iha _ _ _ _ _ _ _ _ hh1 ha
      refine ⟨N2 ++ N1, L2, by rw [List.append_assoc]; exact hh2, ?_, ?_⟩
      · intro r; rw [hm2, hm1]; simp only [List.map_append, List.mem_append]; grind
      · intro p hp
        rcases List.mem_append.1 hp with hp | hp
        · exact fun q => hf2 p hp ((hm1 _).2 (Or.inl q))
        · exact hf1 p hp
    · simp only [Option.bind_eq_some_iff, Option.some.injEq, Prod.mk.injEq] at h
      obtain ⟨⟨r, cr⟩, hr, _, _, ⟨_, _, ca⟩, ha, _, _, cf, hrel, _, _, rfl⟩ := h
      have hfr := reserved_register_is_fresh hh1 hr
      have hhr := Hist.reserve hh1 hr
      obtain ⟨N2, L2, hh2, hm2, hf2⟩ := iha _ _ _ _ _ _ _ _ hhr ha
      have hv : ∀ p ∈ N2 ++ (N1 ++ V), p.2 ≠ r := by
        intro p hp
        rcases List.mem_append.1 hp with hp | hp
        · intro e; exact hf2 p hp (by rw [e]; exact List.mem_cons_self)
        · intro e; exact hfr.2 (e ▸ (hist_inv hh1).vlive p hp)
      refine ⟨N2 ++ N1, _, by rw [List.append_assoc]; exact Hist.release hh2 hv hrel, ?_, ?_⟩
      · intro x
        simp only [List.mem_filter, decide_eq_true_eq, hm2, List.mem_cons, hm1, List.map_append, List.mem_append]
        constructor
        · rintro ⟨((rfl | h) | h), hx⟩
          · exact absurd rfl hx
          · grind
          · grind
        · intro h
          refine ⟨by grind, ?_⟩
          rintro rfl
          rcases h with h | h | h
          · exact hfr.2 ((hm1 _).2 (Or.inl h))
          · obtain ⟨p, hp, he⟩ := List.mem_map.1 h
            exact hv p (by simp [hp]) he
          · exact hfr.2 ((hm1 _).2 (Or.inr h))
      · intro p hp
        rcases List.mem_append.1 hp with hp | hp
        · exact fun q => hf2 p hp (List.mem_cons_of_mem _ ((hm1 _).2 (Or.inl q)))
        · exact hf1 p hp
  | assign n e ih =>
    intro sh mask c c' isv bs L V hh h
    simp only [compile, Option.bind_eq_bind, Option.bind_eq_some_iff, Option.some.injEq, Prod.mk.injEq] at h
    obtain ⟨⟨_, _, c1⟩, hc, ⟨r, cr⟩, hr, _, _, _, _, rfl⟩ := h
    obtain ⟨N1, L1, hh1, hm1, hf1⟩ := ih _ _ _ _ _ _ _ _ hh hc
    cases hl : (N1 ++ V).lookup n with
    | some r0 => exact ⟨N1, L1, Hist.oldVar hh1 (by rw [hl]; simp) hr, hm1, hf1⟩
    | none =>
      have hnew := Hist.newVar hh1 hl hr
      have hnd := (live_registers_distinct hnew).1
      rw [List.nodup_cons] at hnd
      refine ⟨(n, r) :: N1, r :: L1, hnew, ?_, ?_⟩
      · intro x; simp only [List.mem_cons, hm1, List.map_cons]; grind
      · intro p hp
        rcases List.mem_cons.1 hp with rfl | hp
        · exact fun q => hnd.1 ((hm1 _).2 (Or.inl q))
        · exact hf1 p hp

/-- **C22** Whatever registers are live before an expression is compiled, compiling it keeps exactly
these live plus one fresh register per newly assigned variable: intermediate results never outlive
their expression and never coincide with live registers. -/
theorem compile_returns_its_registers (T : Tables) (e : Node) (c c' : Ctx) (isv : Bool) (bs : Bytes)
    (L : List Nat) (V : List (String × Nat)) (hh : Hist L V c)
    (h : compile T e 0 FULL c = some (isv, bs, c')) :
    ∃ N : List (String × Nat), ∃ L', Hist L' (N ++ V) c' ∧
      (∀ r, r ∈ L' ↔ r ∈ L ∨ r ∈ N.map (·.2)) ∧ ∀ p ∈ N, p.2 ∉ L :=
  compile_hist T e _ _ _ _ _ _ _ _ hh h

theorem mem_of_lookup {V : List (String × Nat)} {n : String} {r : Nat} (h : V.lookup n = some r) :
    (n, r) ∈ V := by
  induction V with
  | nil => simp at h
  | cons p V ih =>
    obtain ⟨k, x⟩ := p
    rw [lookup_cons'] at h
    split at h
    · next e => simp only [Option.some.injEq] at h; subst e; subst h; exact List.mem_cons_self
    · exact List.mem_cons_of_mem _ (ih h)

theorem hist_ctxInv {L V c} (h : Hist L V c) : CtxInv c := by
  have i := hist_inv h
  refine ⟨fun r hr => i.range r ((i.used r).1 hr), i.min_ge, ?_, ?_⟩
  · intro n r hn
    rw [i.vars] at hn
    exact (i.used r).2 (i.vlive (n, r) (mem_of_lookup hn))
  · intro n n' r h1 h2
    rw [i.vars] at h1 h2
    have m1 := mem_of_lookup h1
    have m2 := mem_of_lookup h2
    have := i.vnodup
    have := (List.inj_on_of_nodup_map this) m1 m2 rfl
    simpa using this

/-- **C22** (machine level; partial: for the sources of C21.) Running the code of an expression compiled while registers
`L` are live leaves every live register that is not a named variable unchanged, leaves all registers
outside 0x80..0xff and persistent storage as the source says, and named variables hold their source
values. -/
theorem compiled_code_keeps_live_registers_partial (T : Tables) (e : Node) (c c' : Ctx) (isv : Bool) (bs : Bytes)
    (L : List Nat) (V : List (String × Nat)) (hh : Hist L V c) (hwf : WfNode T e)
    (h : compile T e 0 FULL c = some (isv, bs, c')) :
    ∃ code : Code, bs = encAll code.1 code.2 ∧
      ∀ w : World, w.Ok → ∀ s v s' m acc, Agree s.mach m →
        (∀ n r x, V.lookup n = some r → s.vars n = some x → m.temp r = x) →
        eval w T.names e s = some (v, s') →
        ∃ m', exec w ((0x0f, code.1) :: code.2) (acc, m) = (v, m') ∧ Agree s'.mach m' ∧
          (∀ n r x, V.lookup n = some r → s'.vars n = some x → m'.temp r = x) ∧
          ∀ r ∈ L, (∀ p ∈ V, p.2 ≠ r) → m'.temp r = m.temp r := by
  have i := hist_inv hh
  obtain ⟨_, hext, _, code, hsim⟩ := compile_sim T e c c' isv bs hwf (hist_ctxInv hh) h
  refine ⟨code, hsim.bytes, ?_⟩
  intro w hw s v s' m acc hag hv he
  obtain ⟨m', hx, hr, hk⟩ := hsim.run w hw s v s' m acc ⟨hag, by rw [i.vars]; exact hv⟩ he
  refine ⟨m', hx, hr.agree, ?_, ?_⟩
  · intro n r x hn hxx
    exact hr.vars n r x (hext.vars n r (by rw [i.vars]; exact hn)) hxx
  · intro r hr hnv
    apply hk r
    refine ⟨(i.used r).2 hr, ?_⟩
    rintro ⟨n, hn⟩
    rw [i.vars] at hn
    exact hnv (n, r) (mem_of_lookup hn) rfl

end Grf
