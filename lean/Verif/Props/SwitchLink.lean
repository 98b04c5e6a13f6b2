import Verif.Props.Link
import Verif.Props.SwitchExact
import Verif.Props.Registers
/-!
# C22, C25, C26: registers, framing and decoding of every accepted switch
-/
set_option linter.unusedSimpArgs false
namespace Spec
open Grf

/-- Variables are written with a parameter exactly if their number is in 0x60..0x7f (a computed parameter can be used with any
number). Nothing else is asked of the source. -/
def Framed (T : Tables) : Node → Prop
  | .var n => ∀ d, T.varTable n = some d → hasParam d.var = d.param.isSome
  | .gvar v _ _ => hasParam v.toNat = false
  | .gvarP v a b p => Framed T p ∧ (DynParam (.gvarP v a b p) = false → hasParam v.toNat = true)
  | .temp r => Framed T r
  | .perm r => Framed T r
  | .expr _ a b => Framed T a ∧ Framed T b
  | .assign _ e => Framed T e
  | _ => True

end Spec

namespace Grf
open Spec

theorem framed_of_any {T : Tables} {e : Node} (h : WfAny T e) : Framed T e := by
  induction e with
  | value v => trivial
  | var n => exact h
  | gvar v sh mask => exact h
  | gvarP v sh mask p ih => exact ⟨ih h.1, h.2⟩
  | gvarDiv => trivial
  | gvarDivP => trivial
  | temp r ih => exact ih h
  | perm r ih => exact ih h
  | call n => trivial
  | callName n => trivial
  | expr op a b iha ihb => exact ⟨iha h.1, ihb h.2.1⟩
  | assign n e ih => exact ih h

/-- The bytes are a sequence of accesses. -/
def Seq (T : Tables) (e : Node) (bs : Bytes) : Prop :=
  ∃ code : Code, bs = encAll code.1 code.2 ∧ WfCode code ∧ (DecNode T e → Plain7B code)

theorem seq_one {T : Tables} {e : Node} (a : Access) (hw : WfAcc a) (hd : DecNode T e → a.var ≠ 0x7b) : Seq T e (encAcc a true) :=
  ⟨(a, []), rfl, ⟨hw, by simp⟩, fun h => ⟨hd h, by simp⟩⟩

theorem seq_7b {T : Tables} {e p : Node} {v sh mask : Int} {bs tail : Bytes} (hp : Seq T p bs)
    (ht : cat [packU 1 0x0f, packU 1 0x7b, packU 1 v, packU 1 (pyOr 0x20 sh), packU 4 mask] = some tail)
    (hsh : sh < 32) (hdec : DecNode T e → DecNode T p ∧ v.toNat ≠ 0x1a ∧ v.toNat ≠ 0x7b ∧ v.toNat ≠ 0x7e) :
    Seq T e (bs ++ tail) := by
  obtain ⟨code, hb, hw, hd⟩ := hp
  obtain ⟨a, ha, hwa, rfl, _⟩ := pack7b_some ht hsh
  refine ⟨(code.1, code.2 ++ [(0x0f, a)]), ?_, ?_, ?_⟩
  · rw [encAll_append, hb]; rfl
  · refine ⟨hw.1, ?_⟩
    intro q hq
    simp only [List.mem_append, List.mem_singleton] at hq
    rcases hq with hq | rfl
    · exact hw.2 q hq
    · exact ⟨by simp, hwa⟩
  · intro hde
    obtain ⟨hd1, hd2⟩ := hdec hde
    refine ⟨(hd hd1).1, ?_⟩
    intro q hq
    simp only [List.mem_append, List.mem_singleton] at hq
    rcases hq with hq | rfl
    · exact (hd hd1).2 q hq
    · intro _
      refine ⟨rfl, ?_⟩
      rw [ha]
      exact hd2


/-- The code of every accepted expression whose variables are written as required is a sequence of accesses. -/
theorem compile_seq (T : Tables) (e : Node) : ∀ (c c' : Ctx) (isv : Bool) (bs : Bytes), Framed T e →
    compile T e 0 FULL c = some (isv, bs, c') → Seq T e bs := by
  induction e with
  | value v =>
    intro c c' isv bs _ h
    simp only [compile, Option.bind_eq_bind, Option.bind_eq_some_iff] at h
    obtain ⟨_, hg, h⟩ := h
    rw [if_neg (by decide)] at h
    simp only [Option.bind_eq_some_iff, Option.some.injEq, Prod.mk.injEq] at h
    obtain ⟨code, hc, rfl, rfl, rfl⟩ := h
    obtain ⟨a, ha, hwa, rfl, _⟩ := packVar_some hc (by decide) (by decide)
    exact seq_one a hwa (fun _ => by rw [ha]; simp)
  | var n =>
    intro c c' isv bs hwf h
    simp only [compile] at h
    split at h
    · split at h
      · simp at h
      · simp only [Option.bind_eq_bind, Option.bind_eq_some_iff, Option.some.injEq, Prod.mk.injEq] at h
        obtain ⟨code, hc, rfl, rfl, rfl⟩ := h
        obtain ⟨a, ha, hwa, rfl, _⟩ := packVarP_some hc (by decide) (by decide)
        exact seq_one a hwa (fun _ => by rw [ha]; simp)
    · next d ht =>
      rw [if_neg (by decide)] at h
      simp only [Option.bind_eq_bind, Option.bind_eq_some_iff] at h
      obtain ⟨_, hg, h⟩ := h
      have hsh := guardShift_some hg
      have hpar := hwf d ht
      split at h
      · next p hp =>
        simp only [Option.bind_eq_some_iff, Option.some.injEq, Prod.mk.injEq] at h
        obtain ⟨code, hc, rfl, rfl, rfl⟩ := h
        obtain ⟨a, ha, hwa, rfl, _⟩ := packVarP_some hc hsh (by simp [hpar, hp])
        exact seq_one a hwa (fun hd => by rw [ha]; have := hd d ht; simpa using this)
      · next hp =>
        simp only [Option.bind_eq_some_iff, Option.some.injEq, Prod.mk.injEq] at h
        obtain ⟨code, hc, rfl, rfl, rfl⟩ := h
        obtain ⟨a, ha, hwa, rfl, _⟩ := packVar_some hc hsh (by simp [hpar, hp])
        exact seq_one a hwa (fun hd => by rw [ha]; have := hd d ht; simpa using this)
  | gvar v sh mask =>
    intro c c' isv bs hwf h
    simp only [compile] at h
    rw [if_neg (by decide)] at h
    simp only [Option.bind_eq_bind, Option.bind_eq_some_iff] at h
    obtain ⟨_, hg, code, hc, h⟩ := h
    simp only [Option.some.injEq, Prod.mk.injEq] at h
    obtain ⟨rfl, rfl, rfl⟩ := h
    obtain ⟨a, ha, hwa, rfl, _⟩ := packVar_some hc (guardShift_some hg) hwf
    exact seq_one a hwa (fun hd => by rw [ha]; exact hd)
  | gvarDiv => intro c c' isv bs _ h; simp [compile] at h
  | gvarDivP => intro c c' isv bs _ h; simp [compile] at h
  | gvarP v sh mask p ih =>
    intro c c' isv bs hwf h
    simp only [compile] at h
    rw [if_neg (by decide)] at h
    simp only [Option.bind_eq_bind, Option.bind_eq_some_iff] at h
    obtain ⟨_, hg, h⟩ := h
    have hsh := guardShift_some hg
    split at h
    · simp only [Option.bind_eq_some_iff] at h
      obtain ⟨⟨iv, code, c1⟩, hc, tail, ht, h⟩ := h
      simp only [Option.some.injEq, Prod.mk.injEq] at h
      obtain ⟨rfl, rfl, rfl⟩ := h
      exact seq_7b (ih c c1 iv code hwf.1 hc) ht hsh (fun hd => hd)
    · next pv hce =>
      have hpv : p = .value pv := by
        cases p <;> simp_all [Node.constEval]
      subst hpv
      split at h
      · next hbig =>
        simp only [Option.bind_eq_some_iff] at h
        obtain ⟨code, hc, h⟩ := h
        simp only [Option.some.injEq, Prod.mk.injEq] at h
        obtain ⟨rfl, rfl, rfl⟩ := h
        rw [cat, cat, cat] at hc
        simp only [Option.bind_eq_bind, Option.bind_eq_some_iff, Option.some.injEq] at hc
        obtain ⟨b1, h1, _, ⟨b2, h2, _, ⟨b3, h3, tail, ht, rfl⟩, rfl⟩, rfl⟩ := hc
        have hcv : packVar 0x1a 0 pv = some (b1 ++ (b2 ++ b3)) := by
          have e20 : pyOr 0x20 0 = 0x20 := by decide
          simp [packVar, cat, h1, h2, h3, e20]
        obtain ⟨a, ha, hwa, hb, _⟩ := packVar_some hcv (by decide) (by decide)
        have hs : Seq T (.value pv) (b1 ++ (b2 ++ b3)) := hb ▸ seq_one a hwa (fun _ => by rw [ha]; simp)
        have := seq_7b (e := .gvarP v sh mask (.value pv)) hs ht hsh (fun hd => hd)
        simpa [List.append_assoc] using this
      · next hsm =>
        simp only [Option.bind_eq_some_iff, Option.some.injEq, Prod.mk.injEq] at h
        obtain ⟨code, hc, rfl, rfl, rfl⟩ := h
        obtain ⟨a, ha, hwa, rfl, _⟩ := packVarP_some hc hsh (hwf.2 (by simp [DynParam]; omega))
        exact seq_one a hwa (fun hd => by rw [ha]; exact hd.2.2.1)
  | temp r ih =>
    intro c c' isv bs hwf h
    by_cases hv : ∃ k, r = .value k
    · obtain ⟨k, rfl⟩ := hv
      simp only [compile, Option.bind_eq_bind, Option.bind_eq_some_iff] at h
      obtain ⟨_, hg, code, hc, h⟩ := h
      simp only [Option.some.injEq, Prod.mk.injEq] at h
      obtain ⟨rfl, rfl, rfl⟩ := h
      obtain ⟨a, ha, hwa, rfl, _⟩ := packVarP_some hc (by decide) (by decide)
      exact seq_one a hwa (fun _ => by rw [ha]; simp)
    · have hnv : ∀ k, r ≠ .value k := fun k hk => hv ⟨k, hk⟩
      simp only [compile, Option.bind_eq_bind, Option.bind_eq_some_iff] at h
      obtain ⟨_, hg, h⟩ := h
      obtain ⟨⟨iv, code, c1⟩, hc, tail, ht, h⟩ := h
      simp only [Option.some.injEq, Prod.mk.injEq] at h
      obtain ⟨rfl, rfl, rfl⟩ := h
      exact seq_7b (ih c c1 iv code hwf hc) ht (by decide) (fun hd => ⟨hd, by decide, by decide, by decide⟩)
  | perm r ih =>
    intro c c' isv bs hwf h
    by_cases hv : ∃ k, r = .value k
    · obtain ⟨k, rfl⟩ := hv
      simp only [compile, Option.bind_eq_bind, Option.bind_eq_some_iff] at h
      obtain ⟨_, hg, code, hc, h⟩ := h
      simp only [Option.some.injEq, Prod.mk.injEq] at h
      obtain ⟨rfl, rfl, rfl⟩ := h
      obtain ⟨a, ha, hwa, rfl, _⟩ := packVarP_some hc (by decide) (by decide)
      exact seq_one a hwa (fun _ => by rw [ha]; simp)
    · have hnv : ∀ k, r ≠ .value k := fun k hk => hv ⟨k, hk⟩
      simp only [compile, Option.bind_eq_bind, Option.bind_eq_some_iff] at h
      obtain ⟨_, hg, h⟩ := h
      obtain ⟨⟨iv, code, c1⟩, hc, tail, ht, h⟩ := h
      simp only [Option.some.injEq, Prod.mk.injEq] at h
      obtain ⟨rfl, rfl, rfl⟩ := h
      exact seq_7b (ih c c1 iv code hwf hc) ht (by decide) (fun hd => ⟨hd, by decide, by decide, by decide⟩)
  | call n =>
    intro c c' isv bs hwf h
    simp only [compile, Option.bind_eq_bind, Option.bind_eq_some_iff] at h
    obtain ⟨_, hg, code, hc, h⟩ := h
    simp only [Option.some.injEq, Prod.mk.injEq] at h
    obtain ⟨rfl, rfl, rfl⟩ := h
    obtain ⟨a, ha, hwa, rfl, _⟩ := packVarP_some hc (by decide) (by decide)
    exact seq_one a hwa (fun _ => by rw [ha]; simp)
  | callName n =>
    intro c c' isv bs hwf h
    simp only [compile, Option.bind_eq_bind, Option.bind_eq_some_iff] at h
    obtain ⟨_, hg, sub, hsub, code, hc, h⟩ := h
    simp only [Option.some.injEq, Prod.mk.injEq] at h
    obtain ⟨rfl, rfl, rfl⟩ := h
    obtain ⟨a, ha, hwa, rfl, _⟩ := packVarP_some hc (by decide) (by decide)
    exact seq_one a hwa (fun _ => by rw [ha]; simp)
  | expr op a b iha ihb =>
    intro c c' isv bs hwf h
    obtain ⟨hwa, hwb⟩ := hwf
    simp only [compile, Option.bind_eq_bind, Option.bind_eq_some_iff] at h
    obtain ⟨⟨isb, bCode, cb⟩, hb, h⟩ := h
    obtain ⟨codeb, hbb, hwcb, hdb⟩ := ihb c cb isb bCode hwb hb
    split at h
    · simp only [Option.bind_eq_some_iff] at h
      obtain ⟨⟨isa, aCode, ca⟩, ha, o, ho, h⟩ := h
      simp only [Option.some.injEq, Prod.mk.injEq] at h
      obtain ⟨rfl, rfl, rfl⟩ := h
      obtain ⟨code, hba, hwca, hda⟩ := iha cb ca isa aCode hwa ha
      obtain ⟨ho0, ho1, rfl⟩ := packU1_some ho
      refine ⟨(code.1, code.2 ++ ((op.toNat, codeb.1) :: codeb.2)), ?_, ?_, ?_⟩
      · rw [encAll_append, hba, hbb]; simp
      · refine ⟨hwca.1, ?_⟩
        intro q hq
        simp only [List.mem_append, List.mem_cons] at hq
        rcases hq with hq | rfl | hq
        · exact hwca.2 q hq
        · exact ⟨by simp only; omega, hwcb.1⟩
        · exact hwcb.2 q hq
      · intro hd
        refine ⟨(hda hd.1).1, ?_⟩
        intro q hq
        simp only [List.mem_append, List.mem_cons] at hq
        rcases hq with hq | rfl | hq
        · exact (hda hd.1).2 q hq
        · exact fun h => absurd h (hdb hd.2).1
        · exact (hdb hd.2).2 q hq
    · simp only [Option.bind_eq_some_iff] at h
      obtain ⟨⟨r, cr⟩, hres, store, hst, ⟨isa, aCode, ca⟩, ha, tail, htl, cf, hrel, h⟩ := h
      simp only [Option.some.injEq, Prod.mk.injEq] at h
      obtain ⟨rfl, rfl, rfl⟩ := h
      obtain ⟨codea, hba, hwca, hda⟩ := iha cr ca isa aCode hwa ha
      have hst' : ∃ st, cat [packU 1 0x0e, packU 1 0x1a, packU 1 0x20, packU 4 (r : Int)] = some st ∧
          store = st ++ [UInt8.ofNat 0x0f] := by
        simp only [cat, Option.bind_eq_bind, Option.bind_eq_some_iff, Option.some.injEq] at hst ⊢
        obtain ⟨b1, h1, _, ⟨b2, h2, _, ⟨b3, h3, _, ⟨b4, h4, _, ⟨b5, h5, _, rfl, rfl⟩, rfl⟩, rfl⟩, rfl⟩, rfl⟩ := hst
        obtain ⟨_, _, rfl⟩ := packU1_some h5
        exact ⟨_, ⟨b1, h1, _, ⟨b2, h2, _, ⟨b3, h3, _, ⟨b4, h4, _, rfl, rfl⟩, rfl⟩, rfl⟩, rfl⟩, by simp⟩
      obtain ⟨st, hst1, rfl⟩ := hst'
      obtain ⟨hwst, rfl, _⟩ := pack_store hst1
      have htl' : ∃ o rest, packU 1 op = some o ∧ packVarP 0x7d r 0 0xffffffff = some rest ∧
          tail = o ++ rest := by
        rw [cat] at htl
        simp only [Option.bind_eq_bind, Option.bind_eq_some_iff, Option.some.injEq] at htl
        obtain ⟨o, ho, rest, hrest, rfl⟩ := htl
        refine ⟨o, rest, ho, ?_, rfl⟩
        have e20 : pyOr 0x20 0 = 0x20 := by decide
        rw [packVarP, e20]; exact hrest
      obtain ⟨o, rest, ho, hrest, rfl⟩ := htl'
      obtain ⟨ho0, ho1, rfl⟩ := packU1_some ho
      obtain ⟨al, hal, hwal, rfl, _⟩ := packVarP_some hrest (by decide) (by decide)
      let sta : Access := { var := 0x1a, param := 0, shift := 0, mask := BitVec.ofNat 32 r }
      refine ⟨(codeb.1, codeb.2 ++ ((0x0e, sta) :: (0x0f, codea.1) :: codea.2) ++ [(op.toNat, al)]), ?_, ?_, ?_⟩
      · rw [encAll_append]
        show _ = encAll codeb.1 (codeb.2 ++ (0x0e, sta) :: (0x0f, codea.1) :: codea.2) ++ _
        rw [encAll_append]
        rw [hbb, hba]
        simp [encAll, sta]
      · refine ⟨hwcb.1, ?_⟩
        intro q hq
        simp only [List.mem_append, List.mem_cons, List.not_mem_nil, or_false] at hq
        rcases hq with (hq | rfl | rfl | hq) | rfl
        · exact hwcb.2 q hq
        · exact ⟨by simp, hwst⟩
        · exact ⟨by simp, hwca.1⟩
        · exact hwca.2 q hq
        · exact ⟨by simp only; omega, hwal⟩
      · intro hd
        refine ⟨(hdb hd.2).1, ?_⟩
        intro q hq
        simp only [List.mem_append, List.mem_cons, List.not_mem_nil, or_false] at hq
        rcases hq with (hq | rfl | rfl | hq) | rfl
        · exact (hdb hd.2).2 q hq
        · simp [sta]
        · exact fun h => absurd h (hda hd.1).1
        · exact (hda hd.1).2 q hq
        · rw [hal]; simp
  | assign n e ih =>
    intro c c' isv bs hwf h
    simp only [compile, Option.bind_eq_bind, Option.bind_eq_some_iff] at h
    obtain ⟨⟨iv, code, c1⟩, hc, ⟨r, c2⟩, hr, store, hst, h⟩ := h
    simp only [Option.some.injEq, Prod.mk.injEq] at h
    obtain ⟨rfl, rfl, rfl⟩ := h
    obtain ⟨code1, hb, hw, hd⟩ := ih c c1 iv code hwf hc
    obtain ⟨hwst, rfl, _⟩ := pack_store hst
    let sta : Access := { var := 0x1a, param := 0, shift := 0, mask := BitVec.ofNat 32 r }
    refine ⟨(code1.1, code1.2 ++ [(0x0e, sta)]), ?_, ?_, ?_⟩
    · rw [encAll_append, hb]; rfl
    · refine ⟨hw.1, ?_⟩
      intro q hq
      simp only [List.mem_append, List.mem_singleton] at hq
      rcases hq with hq | rfl
      · exact hw.2 q hq
      · exact ⟨by simp, hwst⟩
    · intro hde
      refine ⟨(hd hde).1, ?_⟩
      intro q hq
      simp only [List.mem_append, List.mem_singleton] at hq
      rcases hq with hq | rfl
      · exact (hd hde).2 q hq
      · simp [sta]

theorem compile_tail_seq (T : Tables) (es : List Node) : ∀ (pre : Bytes) (c c' : Ctx) (bs : Bytes),
    (∀ x ∈ es, Framed T x) →
    es.foldlM (fun (acc : Bytes × Ctx) e => do
      let (_, code, c) ← compile T e 0 FULL acc.2
      some (acc.1 ++ [0x0f] ++ code, c)) (pre, c) = some (bs, c') →
    ∃ (l : List (Nat × Access)) (tl : Bytes), bs = pre ++ tl ∧
      (∀ h t, encAll h (t ++ l) = encAll h t ++ tl) ∧ (∀ p ∈ l, p.1 < 256 ∧ WfAcc p.2) ∧
      ((∀ x ∈ es, DecNode T x) → ∀ q ∈ l, q.2.var = 0x7b →
        q.1 = 0x0f ∧ q.2.param ≠ 0x1a ∧ q.2.param ≠ 0x7b ∧ q.2.param ≠ 0x7e) := by
  induction es with
  | nil =>
    intro pre c c' bs _ h
    simp only [List.foldlM_nil, Option.pure_def, Option.some.injEq, Prod.mk.injEq] at h
    obtain ⟨rfl, rfl⟩ := h
    exact ⟨[], [], by simp, by simp, by simp, by simp⟩
  | cons e es ih =>
    intro pre c c' bs hwf h
    rw [List.foldlM_cons] at h
    simp only [Option.bind_eq_bind, Option.bind_eq_some_iff] at h
    obtain ⟨⟨p1, c1⟩, ⟨⟨iv, b1, c1'⟩, hc, h1⟩, h⟩ := h
    simp only [Option.some.injEq, Prod.mk.injEq] at h1
    obtain ⟨rfl, rfl⟩ := h1
    obtain ⟨code, hb, hw, hd0⟩ := compile_seq T e c c1' iv b1 (hwf e (by simp)) hc
    obtain ⟨l, tl, hl2, hl1, hl3, hld⟩ := ih (pre ++ [0x0f] ++ b1) c1' c' bs (fun x hx => hwf x (by simp [hx])) h
    refine ⟨((0x0f, code.1) :: code.2) ++ l, 0x0f :: b1 ++ tl, ?_, ?_, ?_, ?_⟩
    · rw [hl2]; simp
    · intro hh t
      rw [← List.append_assoc, hl1, encAll_append, ← hb]
      simp
    · intro p hp
      simp only [List.cons_append, List.mem_cons, List.mem_append] at hp
      rcases hp with rfl | hp | hp
      · exact ⟨by simp, hw.1⟩
      · exact hw.2 p hp
      · exact hl3 p hp
    · intro hd q hq
      simp only [List.cons_append, List.mem_cons, List.mem_append] at hq
      have hd1 := hd0 (hd e (by simp))
      rcases hq with rfl | hq | hq
      · exact fun h => absurd h hd1.1
      · exact hd1.2 q hq
      · exact hld (fun x hx => hd x (by simp [hx])) q hq

/-- The code of every accepted list of lines is one program. -/
theorem compiled_lines_framed (T : Tables) (es : List Node) (bs : Bytes) (hwf : ∀ x ∈ es, Framed T x)
    (hc : compileSwitch T es = some bs) :
    ∃ prog : Code, (∀ rest, parseProgram (bs ++ rest) = some (prog, rest)) ∧ WfCode prog ∧
      ((∀ x ∈ es, DecNode T x) → Plain7B prog) := by
  unfold compileSwitch at hc
  rw [Option.bind_eq_some_iff] at hc
  obtain ⟨⟨bs0, c'⟩, h, he⟩ := hc
  cases es with
  | nil => simp [compileLines] at h
  | cons e es =>
    simp only [compileLines, Option.bind_eq_bind, Option.bind_eq_some_iff] at h
    obtain ⟨⟨iv, b1, c1⟩, hc, h⟩ := h
    obtain ⟨code, hb, hw, hd0⟩ := compile_seq T e _ c1 iv b1 (hwf e (by simp)) hc
    obtain ⟨l, tl, hl2, hl1, hl3, hld⟩ := compile_tail_seq T es b1 c1 c' bs0 (fun x hx => hwf x (by simp [hx])) h
    have hbs : bs0 = encAll code.1 (code.2 ++ l) := by rw [hl1, ← hb]; exact hl2
    have hwc : WfCode (code.1, code.2 ++ l) := by
      refine ⟨hw.1, ?_⟩
      intro p hp
      rcases List.mem_append.1 hp with hp | hp
      · exact hw.2 p hp
      · exact hl3 p hp
    rw [hbs, markEnd_encAll _ _ hwc] at he
    simp only [Option.some.injEq] at he
    subst he
    refine ⟨(code.1, code.2 ++ l), fun rest => parseProgram_encFinal _ _ rest hwc, hwc, ?_⟩
    intro hd
    have hd1 := hd0 (hd e (by simp))
    refine ⟨hd1.1, ?_⟩
    intro q hq
    rcases List.mem_append.1 hq with hq | hq
    · exact hd1.2 q hq
    · exact hld (fun x hx => hd x (by simp [hx])) q hq


/-! ## C26 -/

/-- **C26** (framing) The game reads the bytes of every accepted switch completely: four bytes of header, the accesses up to the first
one without continuation bit, which ends exactly where the range table starts, as many ranges as the count says, and the default.
The table does what C25 says. -/
theorem switch_framed (T : Tables) (sw : Switch) (bs : Bytes) (h : sw.getData T = some bs) (hwf : ∀ x ∈ sw.code, Framed T x) :
    ∃ va hdr code tbl, bs = hdr ++ code ++ tbl ∧ hdr.length = 4 ∧ compileSwitch T sw.code = some code ∧
      parseVA2 bs = some va ∧ (va.feature : Int) = sw.featureId ∧ (va.id : Int) = sw.refId ∧ va.related = sw.related ∧
      parseProgram code = some (va.prog, []) ∧ parseTable tbl = some (va.table, []) ∧
      ∀ v : Word, (sw.ranges = [] → select va.table v = .computed v) ∧
        (sw.ranges ≠ [] → ∃ n : Nat, select va.table v = .goto n ∧
          (n : Int) = caught (sw.ranges.map SRange.user) (getRefId sw.default) v.toInt) := by
  simp only [Switch.getData, Option.bind_eq_bind, Option.bind_eq_some_iff, Option.some.injEq] at h
  obtain ⟨hdr, hh, ⟨code, c'⟩, hc, code', hm, tbl, ht, rfl⟩ := h
  simp only at hm
  have hcs : compileSwitch T sw.code = some code' := by simp [compileSwitch, hc, hm]
  obtain ⟨prog, hp, hwc, _⟩ := compiled_lines_framed T sw.code code' hwf hcs
  obtain ⟨t, htp, hsel⟩ := table_exact sw.ranges sw.default tbl ht
  have htp := htp []
  have hp0 := hp []
  rw [List.append_nil] at htp hp0
  simp only [cat, Option.bind_eq_bind, Option.bind_eq_some_iff, Option.some.injEq] at hh
  obtain ⟨b1, h1, _, ⟨b2, h2, _, ⟨b3, h3, _, ⟨b4, h4, _, rfl, rfl⟩, rfl⟩, rfl⟩, rfl⟩ := hh
  obtain ⟨_, _, rfl⟩ := packU1_some h1
  obtain ⟨f0, f1, rfl⟩ := packU1_some h2
  obtain ⟨i0, i1, rfl⟩ := packU1_some h3
  obtain ⟨_, _, rfl⟩ := packU1_some h4
  refine ⟨⟨sw.featureId.toNat, sw.refId.toNat, sw.related, prog, t⟩, _, _, _, rfl, rfl, hcs, ?_, by simp; omega,
    by simp; omega, rfl, hp0, htp, hsel⟩
  have ef : (UInt8.ofNat sw.featureId.toNat).toNat = sw.featureId.toNat := by
    simp only [UInt8.toNat_ofNat']; omega
  have ei : (UInt8.ofNat sw.refId.toNat).toNat = sw.refId.toNat := by
    simp only [UInt8.toNat_ofNat']; omega
  simp only [List.cons_append, List.nil_append, List.append_assoc, parseVA2]
  cases sw.related <;> simp [hp, htp, ef, ei]

/-- **C26** (decoding) The decoder reads the bytes of every accepted switch completely and returns its feature, id, scope and default;
the decoded lines compute what the game computes when it executes the bytes, in every game and state; and the decoded ranges,
printed as signed numbers, choose the same target for every value as the user's ranges. `table` is the variable table the decoder
uses (a feature that has none is refused). Asked of the source: variables are written with a parameter exactly if they need one (`Framed`), 0x7B is not used as a
variable and 0x1A, 0x7B, 0x7E not with a computed parameter (`DecNode`). -/
theorem switch_decodes (T : Tables) (table : List (String × VarData)) (hne : table ≠ []) (hn : (table.map (·.1)).Nodup)
    (sw : Switch) (bs : Bytes) (h : sw.getData T = some bs)
    (hwf : ∀ x ∈ sw.code, Framed T x) (hdec : ∀ x ∈ sw.code, DecNode T x) :
    ∃ va body d, parseVA2 bs = some va ∧ bs = 2 :: body ∧ decodeVA2 table body = some (d, []) ∧
      (d.feature : Int) = sw.featureId ∧ (d.refId : Int) = sw.refId ∧ d.related = sw.related ∧
      (d.default : Int) = getRefId sw.default ∧
      (∀ v : Int, choose (d.ranges.map DRange.printed) d.default v =
        choose (sw.ranges.map SRange.user) (getRefId sw.default) v) ∧
      ∀ (w : World) (m : Mach), evalDLines w (fun n => table.lookup n) d.code m = some (runProgram w va.prog m) := by
  obtain ⟨va, hdr0, code0, tbl0, hb0, hl0, hcs0, hva, _, _, _, hpa, _⟩ := switch_framed T sw bs h hwf
  simp only [Switch.getData, Option.bind_eq_bind, Option.bind_eq_some_iff, Option.some.injEq] at h
  obtain ⟨hdr, hh, ⟨code, c'⟩, hc, code', hm, tbl, ht, rfl⟩ := h
  simp only at hm
  have hcs : compileSwitch T sw.code = some code' := by simp [compileSwitch, hc, hm]
  rw [hcs] at hcs0
  simp only [Option.some.injEq] at hcs0
  subst hcs0
  obtain ⟨prog, hp, hwc, hpl⟩ := compiled_lines_framed T sw.code code' hwf hcs
  have hp0 := hp []
  rw [List.append_nil, hpa] at hp0
  simp only [Option.some.injEq, Prod.mk.injEq, and_true] at hp0
  have hp := hp tbl
  have hpl := hpl hdec
  have hok : Decodable7B prog :=
    ⟨hpl.1, fun q hq h7 => ⟨(hpl.2 q hq h7).1, (hwc.2 q hq).2.type, (hpl.2 q hq h7).2⟩⟩
  obtain ⟨lines, hl⟩ := parseProgram_decode table hne hp hok
  obtain ⟨prog', hp', hsem⟩ := decoded_code_keeps_meaning table hn _ _ _ hl
  rw [hp] at hp'
  simp only [Option.some.injEq, Prod.mk.injEq, and_true] at hp'
  subst hp'
  have hsem := hsem hok
  obtain ⟨hir, hid, htp⟩ := encodeTable_some ht
  have htp := htp []
  rw [List.append_nil] at htp
  have htd : ∃ nb b1, tbl = nb :: b1 ∧ ∃ b2, decodeRanges 4 nb.toNat b1 =
      some ((sw.ranges.flatMap ents).map (fun e => ⟨e.2.1.toNat, e.2.2.toNat, e.1⟩), b2) ∧
      getU 2 b2 = some ((getRefId sw.default).toNat, []) := by
    cases tbl with
    | nil => simp [parseTable] at htp
    | cons nb b1 =>
      simp only [parseTable, Option.bind_eq_bind, Option.bind_eq_some_iff] at htp
      obtain ⟨⟨es, b2⟩, h2, ⟨d, b3⟩, h3, h⟩ := htp
      simp only [Option.some.injEq, Prod.mk.injEq, RangeTable.mk.injEq] at h h2 h3
      obtain ⟨⟨rfl, rfl⟩, rfl⟩ := h
      exact ⟨nb, b1, rfl, b2, parseEntries_decode _ _ _ _ h2, word16_getU h3⟩
  obtain ⟨nb, b1, rfl, b2, hdr2, hdf⟩ := htd
  simp only [cat, Option.bind_eq_bind, Option.bind_eq_some_iff, Option.some.injEq] at hh
  obtain ⟨c1, h1, _, ⟨c2, h2, _, ⟨c3, h3, _, ⟨c4, h4, _, rfl, rfl⟩, rfl⟩, rfl⟩, rfl⟩ := hh
  obtain ⟨_, _, rfl⟩ := packU1_some h1
  obtain ⟨f0, f1, rfl⟩ := packU1_some h2
  obtain ⟨i0, i1, rfl⟩ := packU1_some h3
  obtain ⟨_, _, rfl⟩ := packU1_some h4
  have ef : (UInt8.ofNat sw.featureId.toNat).toNat = sw.featureId.toNat := by
    simp only [UInt8.toNat_ofNat']; omega
  have ei : (UInt8.ofNat sw.refId.toNat).toNat = sw.refId.toNat := by
    simp only [UInt8.toNat_ofNat']; omega
  refine ⟨va, _, ⟨sw.featureId.toNat, sw.refId.toNat, sw.related, lines.map simplify,
    (sw.ranges.flatMap ents).map (fun e => ⟨e.2.1.toNat, e.2.2.toNat, e.1⟩), (getRefId sw.default).toNat⟩,
    hva, rfl, ?_, by simp; omega, by simp; omega, rfl, by simp; omega, ?_, ?_⟩
  · simp only [List.cons_append, List.nil_append, List.append_assoc, decodeVA2, getU_cons, Option.bind_eq_bind,
      Option.bind_some, ef, ei]
    cases sw.related <;>
      simp [hl, getU_cons, hdr2, hdf, f1, i1]
  · intro v
    have : (((getRefId sw.default).toNat : Nat) : Int) = getRefId sw.default := by omega
    simp only [this]
    exact printed_choose sw.ranges hir _ v
  · intro w m
    rw [hp0]
    exact hsem w m

/-! ## C21 with C25: the whole switch -/

/-- **C21/C25** For every accepted switch, with any linked procedures: the game reads the bytes as one VarAction2 with the feature, id
and scope of the switch; executing it computes the value the code means (see `compiled_program_meaning`) and continues with the
target of the first range that catches it, or with the default; without ranges the value is the result. -/
theorem switch_runs_code (var : Nat → Word → Mach → Word) (hvar : ∀ v p a b, Agree a b → var v p a = var v p b)
    (ps : List Proc) (hps : WellLinked ps) (T : Tables) (sw : Switch) (bs : Bytes) (h : sw.getData T = some bs)
    (hwf : ∀ x ∈ sw.code, WfAny T x) (hco : CallsOkLines T (keeper ps) sw.code false = true) :
    ∃ va, parseVA2 bs = some va ∧ (va.feature : Int) = sw.featureId ∧ (va.id : Int) = sw.refId ∧ va.related = sw.related ∧
      ∀ m v s', evalLinesF (codeWorld var ps) T.names sw.code (SState.start m) = some (v, s') →
        ∃ r m', va.run (machWorld var ps) m = (r, m') ∧ Agree s'.mach m' ∧ (sw.ranges = [] → r = .computed v) ∧
          (sw.ranges ≠ [] → ∃ n : Nat, r = .goto n ∧
            (n : Int) = caught (sw.ranges.map SRange.user) (getRefId sw.default) v.toInt) := by
  obtain ⟨va, hdr, code, tbl, _, _, hcs, hva, hf, hi, hr, hp, _, hsel⟩ := switch_framed T sw bs h
    (fun x hx => framed_of_any (hwf x hx))
  obtain ⟨prog, hp', hrun⟩ := compiled_program_meaning var hvar ps hps T sw.code code [] hwf hco hcs
  rw [List.append_nil, hp] at hp'
  simp only [Option.some.injEq, Prod.mk.injEq, and_true] at hp'
  subst hp'
  refine ⟨va, hva, hf, hi, hr, fun m v s' hev => ?_⟩
  obtain ⟨m', hm, hag, _⟩ := hrun m v s' hev
  refine ⟨select va.table v, m', by simp [VarAction2.run, hm], hag, (hsel v).1, (hsel v).2⟩

/-- **C21/C25** The same in terms of the source, when no right operand is a variable with a computed parameter. -/
theorem switch_runs_source (var : Nat → Word → Mach → Word) (hvar : ∀ v p a b, Agree a b → var v p a = var v p b)
    (ps : List Proc) (hps : WellLinked ps) (hpw : ∀ p ∈ ps, ∀ x ∈ p.lines, WfNode p.T x)
    (T : Tables) (sw : Switch) (bs : Bytes) (h : sw.getData T = some bs)
    (hwf : ∀ x ∈ sw.code, WfNode T x) (hco : CallsOkLines T (keeper ps) sw.code false = true) :
    ∃ va, parseVA2 bs = some va ∧ (va.feature : Int) = sw.featureId ∧ (va.id : Int) = sw.refId ∧ va.related = sw.related ∧
      ∀ m v s', evalLinesS (srcWorld var ps) T.names sw.code (SState.start m) = some (v, s') →
        ∃ r m', va.run (machWorld var ps) m = (r, m') ∧ Agree s'.mach m' ∧ (sw.ranges = [] → r = .computed v) ∧
          (sw.ranges ≠ [] → ∃ n : Nat, r = .goto n ∧
            (n : Int) = caught (sw.ranges.map SRange.user) (getRefId sw.default) v.toInt) := by
  obtain ⟨va, h1, h2, h3, h4, h5⟩ := switch_runs_code var hvar ps hps T sw bs h (fun x hx => (hwf x hx).any) hco
  refine ⟨va, h1, h2, h3, h4, fun m v s' hev => ?_⟩
  rw [← code_world_is_source_world var ps hpw, ← code_lines_meaning T _ sw.code hwf] at hev
  exact h5 m v s' hev

/-! ## C22 -/

/-- **C22** Running the code of an expression that was compiled while the registers `L` are live, `V` of them holding named variables:
every live register that is not a named variable is unchanged, named variables hold their source values, persistent storage and the
registers outside 0x80..0xff are as the source says. Procedures that change reserved registers may be called only if `live` is
false, that is if no register is live. -/
theorem compiled_code_keeps_live_registers (T : Tables) (e : Node) (c c' : Ctx) (isv : Bool) (bs : Bytes)
    (L : List Nat) (V : List (String × Nat)) (hh : Hist L V c) (hwf : WfAny T e)
    (h : compile T e 0 FULL c = some (isv, bs, c')) :
    ∃ code : Code, bs = encAll code.1 code.2 ∧
      ∀ (ws : SWorld) (w : World) (keeps : Nat → Bool), Link ws w keeps → CallsOk T keeps e (!L.isEmpty) = true →
        ∀ s v s' m acc, Agree s.mach m → (∀ n r x, V.lookup n = some r → s.vars n = some x → m.temp r = x) →
        evalF ws T.names e none s = some (v, s') →
        ∃ m', exec w ((0x0f, code.1) :: code.2) (acc, m) = (v, m') ∧ Agree s'.mach m' ∧
          (∀ n r x, V.lookup n = some r → s'.vars n = some x → m'.temp r = x) ∧
          ∀ r ∈ L, (∀ p ∈ V, p.2 ≠ r) → m'.temp r = m.temp r := by
  have i := hist_inv hh
  obtain ⟨_, hext, _, code, hsim⟩ := compile_simF T e c c' isv bs hwf (hist_ctxInv hh) h
  refine ⟨code, hsim.bytes, ?_⟩
  intro ws w keeps hl hco s v s' m acc hag hv he
  obtain ⟨m', hx, hr, hk, _⟩ := hsim.run ws w keeps hl _ hco (by
    intro hL r hm
    cases L with
    | nil => exact absurd ((i.used r).1 hm) (by simp)
    | cons a l => simp at hL) none s v s' m acc ⟨hag, by rw [i.vars]; exact hv⟩ he
  refine ⟨m', hx, hr.agree, ?_, ?_⟩
  · intro n r x hn hxx
    exact hr.vars n r x (hext.vars n r (by rw [i.vars]; exact hn)) hxx
  · intro r hr hnv
    apply hk r
    refine ⟨(i.used r).2 hr, ?_⟩
    rintro ⟨n, hn⟩
    rw [i.vars] at hn
    exact hnv (n, r) (mem_of_lookup hn) rfl


/-! ### The hypotheses are met, and needed -/

/-- A switch with procedures, a computed parameter as right operand and ranges. -/
def linkSwitch : Switch :=
  { featureId := 4, refId := 200, related := true,
    code := mainLines ++ [.expr 0x00 (.callName "f") (.gvarP 0x61 0 0xffffffff (.expr 0x00 (.temp (.value 1)) (.value 300)))],
    ranges := [⟨-5, 5, .num 3⟩, ⟨6, 6, .action 7⟩], default := .action 9 }

example : (linkSwitch.getData mainTables).isSome = true ∧ (∀ x ∈ linkSwitch.code, WfAny mainTables x) ∧
    (∀ x ∈ linkSwitch.code, Framed mainTables x) ∧ (∀ x ∈ linkSwitch.code, DecNode mainTables x) ∧
    CallsOkLines mainTables (keeper [procF, procG]) linkSwitch.code false = true ∧
    (evalLinesF (codeWorld exampleWorld.var [procF, procG]) mainTables.names linkSwitch.code (SState.start zeroMach)).isSome = true
    := by
  refine ⟨by decide, ?_, ?_, ?_, by decide, by decide⟩
  · simp [linkSwitch, mainLines, WfAny, DynParam, assigns]
  · simp [linkSwitch, mainLines, Framed, DynParam]
  · simp [linkSwitch, mainLines, DecNode]

/-- **C21/C22 counterexample.** An assignment before a computed parameter that needs a register: after
`(x = 5) + var(0x61, param=(1 + 2 * 3))`, `x` is 21. The parameter is compiled first, its register is given to `x`, but it runs
last. -/
theorem miscompiles_assignment_before_parameter :
    let es : List Node := [.expr 0x00 (.assign "x" (.value 5))
      (.gvarP 0x61 0 0xffffffff (.expr 0x00 (.value 1) (.expr 0x0a (.value 2) (.value 3)))), .var "x"]
    ∃ bs, compileSwitch emptyTables es = some bs ∧
      (evalLinesF exampleWorld.src emptyTables.names es (SState.start zeroMach)).map (·.1) = some 5 ∧
      (evalLinesS exampleWorld.src emptyTables.names es (SState.start zeroMach)).map (·.1) = some 5 ∧
      runBytes exampleWorld bs zeroMach = some 21 := by
  refine ⟨_, rfl, by decide, by decide, by decide⟩

/-- **C26 counterexample.** `var(0x1A, param=(TEMP[1] = 5)); TEMP[1]` computes 5; the decoder drops the store, and its lines compute
0. -/
theorem decoder_loses_parameter_of_constant :
    let es : List Node := [.gvarP 0x1a 0 0xffffffff (.expr 0x0e (.value 5) (.value 1)), .temp (.value 1)]
    ∃ bs lines, compileSwitch emptyTables es = some bs ∧ runBytes exampleWorld bs zeroMach = some 5 ∧
      decodeCode oneVar 4 bs = some (lines, []) ∧ (evalDLines exampleWorld (fun _ => none) lines zeroMach).map (·.1) = some 0 := by
  refine ⟨_, _, rfl, by decide, rfl, by decide⟩

/-- **C26 counterexample.** A call with a computed number is accepted by the compiler and refused by the decoder. -/
theorem decoder_refuses_computed_call :
    ∃ bs, compileSwitch emptyTables [.gvarP 0x7e 0 0xffffffff (.temp (.value 1))] = some bs ∧ decodeCode oneVar 4 bs = none := by
  refine ⟨_, rfl, by decide⟩

end Grf
