import Verif.Model.Compile
import Verif.Spec.VA2
import Verif.Props.Common
/-!
# Encoding of access chains (proof support for C21, C22, C26)
-/
namespace Grf
open Spec

abbrev Code := Access × List (Nat × Access)

/-- Byte form of one access (type 0). -/
def encAcc (a : Access) (cont : Bool) : Bytes :=
  [UInt8.ofNat a.var] ++ (if hasParam a.var then [UInt8.ofNat a.param] else []) ++
  [UInt8.ofNat ((if cont then 32 else 0) + a.shift)] ++ leBytes 4 a.mask.toNat

/-- Accesses that have a byte form. -/
structure WfAcc (a : Access) : Prop where
  var : a.var < 256
  param : a.param < 256
  noparam : hasParam a.var = false → a.param = 0
  shift : a.shift < 32
  type : a.type = 0
  add : a.add = 0
  divmod : a.divmod = 1

def WfCode (c : Code) : Prop := WfAcc c.1 ∧ ∀ p ∈ c.2, p.1 < 256 ∧ WfAcc p.2

/-- All accesses with continuation bit. -/
def encAll : Access → List (Nat × Access) → Bytes
  | h, [] => encAcc h true
  | h, (op, a) :: t => encAcc h true ++ UInt8.ofNat op :: encAll a t

/-- Continuation bit on all accesses but the last. -/
def encFinal : Access → List (Nat × Access) → Bytes
  | h, [] => encAcc h false
  | h, (op, a) :: t => encAcc h true ++ UInt8.ofNat op :: encFinal a t

theorem encAll_append (h : Access) (t : List (Nat × Access)) (op : Nat) (a : Access)
    (t' : List (Nat × Access)) :
    encAll h (t ++ (op, a) :: t') = encAll h t ++ UInt8.ofNat op :: encAll a t' := by
  induction t generalizing h with
  | nil => simp [encAll]
  | cons x t ih =>
    obtain ⟨o, b⟩ := x
    simp [encAll, ih]

theorem dword_leBytes (m : Word) (r : Bytes) : dword (leBytes 4 m.toNat ++ r) = some (m, r) := by
  have hm := m.isLt
  simp only [leBytes, List.cons_append, List.nil_append, dword, UInt8.toNat_ofNat']
  have : m.toNat % 2 ^ 8 + 256 * (m.toNat / 256 % 2 ^ 8) + 65536 * (m.toNat / 256 / 256 % 2 ^ 8) +
      16777216 * (m.toNat / 256 / 256 / 256 % 2 ^ 8) = m.toNat := by omega
  rw [this]
  simp

theorem parseAccess_encAcc (a : Access) (cont : Bool) (r : Bytes) (h : WfAcc a) :
    parseAccess (encAcc a cont ++ r) = some (a, cont, r) := by
  obtain ⟨hv, hp, hnp, hs, ht, ha, hd⟩ := h
  have hv' : (UInt8.ofNat a.var).toNat = a.var := by simp; omega
  have hp' : (UInt8.ofNat a.param).toNat = a.param := by simp; omega
  have hadj : (UInt8.ofNat ((if cont then 32 else 0) + a.shift)).toNat
      = (if cont then 32 else 0) + a.shift := by simp; split <;> omega
  obtain ⟨v, p, sh, mask, ty, ad, dm⟩ := a
  simp only at *
  subst ht ha hd
  unfold encAcc parseAccess
  simp only [List.cons_append, List.nil_append, List.append_assoc]
  rw [hv']
  cases hpar : hasParam v
  · simp only [Bool.false_eq_true, if_false, List.nil_append,
      Option.bind_eq_bind, Option.bind_some]
    rw [dword_leBytes]
    simp only [Option.bind_some, hadj, hnp hpar]
    have e1 : sh / 64 = 0 := by omega
    have e2 : (32 + sh) / 64 = 0 := by omega
    have e3 : sh / 32 % 2 = 0 := by omega
    have e4 : (sh / 32 + 1) % 2 = 1 := by omega
    have e5 : sh % 32 = sh := by omega
    cases cont <;> simp [e1, e2, e3, e4, e5]
  · simp only [if_true, List.cons_append, List.nil_append,
      Option.bind_eq_bind, Option.bind_some]
    rw [dword_leBytes]
    simp only [Option.bind_some, hadj, hp']
    have e1 : sh / 64 = 0 := by omega
    have e2 : (32 + sh) / 64 = 0 := by omega
    have e3 : sh / 32 % 2 = 0 := by omega
    have e4 : (sh / 32 + 1) % 2 = 1 := by omega
    have e5 : sh % 32 = sh := by omega
    cases cont <;> simp [e1, e2, e3, e4, e5]

theorem encAcc_length_pos (a : Access) (c : Bool) : 0 < (encAcc a c).length := by
  simp [encAcc]

theorem encFinal_length_pos (h : Access) (t) : 0 < (encFinal h t).length := by
  cases t with
  | nil => exact encAcc_length_pos _ _
  | cons x t => simp [encFinal]; omega

theorem parseRest_encFinal (op : Nat) (h : Access) (t : List (Nat × Access)) (r : Bytes) (fuel : Nat)
    (hop : op < 256) (hw : WfCode (h, t)) (hf : t.length < fuel) :
    parseRest fuel (UInt8.ofNat op :: encFinal h t ++ r) = some ((op, h) :: t, r) := by
  induction t generalizing fuel op h with
  | nil =>
    cases fuel with
    | zero => simp at hf
    | succ fuel =>
      have ho : (UInt8.ofNat op).toNat = op := by simp; omega
      simp only [parseRest, encFinal, List.cons_append, parseAccess_encAcc h false r hw.1,
        Option.bind_eq_bind, Option.bind_some, ho]
      simp
  | cons x t ih =>
    obtain ⟨o, a⟩ := x
    cases fuel with
    | zero => simp at hf
    | succ fuel =>
      have ho : (UInt8.ofNat op).toNat = op := by simp; omega
      have hx := hw.2 (o, a) (by simp)
      have hw' : WfCode (a, t) := ⟨hx.2, fun p hp => hw.2 p (by simp [hp])⟩
      simp only [parseRest, encFinal, List.cons_append, List.append_assoc]
      rw [parseAccess_encAcc h true _ hw.1]
      simp only [Option.bind_eq_bind, Option.bind_some, if_true]
      have := ih o a fuel hx.1 hw' (by simpa using hf)
      simp only [List.cons_append] at this
      rw [this]
      simp [ho]

theorem encFinal_length (h : Access) (t) : t.length < (encFinal h t).length := by
  induction t generalizing h with
  | nil => simpa using encFinal_length_pos h []
  | cons x t ih =>
    obtain ⟨o, a⟩ := x
    have := ih a
    simp [encFinal]; omega

theorem parseProgram_encFinal (h : Access) (t : List (Nat × Access)) (r : Bytes)
    (hw : WfCode (h, t)) : parseProgram (encFinal h t ++ r) = some ((h, t), r) := by
  cases t with
  | nil =>
    simp only [parseProgram, encFinal, parseAccess_encAcc h false r hw.1, Option.bind_eq_bind,
      Option.bind_some]
    simp
  | cons x t =>
    obtain ⟨o, a⟩ := x
    have hx := hw.2 (o, a) (by simp)
    have hw' : WfCode (a, t) := ⟨hx.2, fun p hp => hw.2 p (by simp [hp])⟩
    simp only [parseProgram, encFinal, List.append_assoc, List.cons_append]
    rw [parseAccess_encAcc h true _ hw.1]
    simp only [Option.bind_eq_bind, Option.bind_some, if_true]
    have hl := encFinal_length a t
    have := parseRest_encFinal o a t r ((UInt8.ofNat o :: (encFinal a t ++ r)).length) hx.1 hw'
      (by simp; omega)
    simp only [List.cons_append] at this
    rw [this]
    simp

/-! ## `markEnd` -/

theorem markEnd_append (x y : Bytes) (hy : 5 ≤ y.length) :
    markEnd (x ++ y) = (markEnd y).map (x ++ ·) := by
  unfold markEnd
  rw [if_neg (by simp; omega), if_neg (by omega)]
  have h1 : (x ++ y).length - 5 = x.length + (y.length - 5) := by simp; omega
  simp only [h1]
  rw [List.drop_append, List.take_append]
  have : x.drop (x.length + (y.length - 5)) = [] := by simp
  rw [this]
  have h2 : x.length + (y.length - 5) - x.length = y.length - 5 := by omega
  have h3 : x.take (x.length + (y.length - 5)) = x := List.take_of_length_le (by omega)
  rw [h2, h3]
  simp only [List.nil_append]
  cases y.drop (y.length - 5) <;> simp

theorem clearBit (s : Nat) (h : s < 32) :
    UInt8.ofNat (32 + s) &&& ~~~0x20 = UInt8.ofNat s := by
  have : ∀ s : Fin 32, UInt8.ofNat (32 + s.val) &&& ~~~0x20 = UInt8.ofNat s.val := by decide
  exact this ⟨s, h⟩

theorem encAcc_ge5 (a : Access) (c : Bool) : 5 ≤ (encAcc a c).length := by
  simp [encAcc, leBytes_length]

theorem markEnd_encAcc (a : Access) (h : WfAcc a) : markEnd (encAcc a true) = some (encAcc a false) := by
  have e : encAcc a true = ([UInt8.ofNat a.var] ++ (if hasParam a.var then [UInt8.ofNat a.param] else []))
      ++ ([UInt8.ofNat (32 + a.shift)] ++ leBytes 4 a.mask.toNat) := by simp [encAcc]
  have e' : encAcc a false = ([UInt8.ofNat a.var] ++ (if hasParam a.var then [UInt8.ofNat a.param] else []))
      ++ ([UInt8.ofNat a.shift] ++ leBytes 4 a.mask.toNat) := by simp [encAcc]
  rw [e, e', markEnd_append _ _ (by simp [leBytes_length])]
  generalize [UInt8.ofNat a.var] ++ (if hasParam a.var then [UInt8.ofNat a.param] else []) = pre
  unfold markEnd
  rw [if_neg (by simp [leBytes_length])]
  simp only [List.length_append, List.length_cons, List.length_nil, leBytes_length]
  simp only [Nat.zero_add, Nat.reduceAdd, Nat.sub_self, List.drop_zero, List.cons_append,
    List.nil_append, List.take_zero, Option.map_some, clearBit _ h.shift]

theorem encAll_ge5 (h : Access) (t) : 5 ≤ (encAll h t).length := by
  have := encAcc_ge5 h true
  cases t with
  | nil => exact this
  | cons x t => obtain ⟨o, a⟩ := x; simp [encAll]; omega

theorem markEnd_encAll (h : Access) (t : List (Nat × Access)) (hw : WfCode (h, t)) :
    markEnd (encAll h t) = some (encFinal h t) := by
  induction t generalizing h with
  | nil => exact markEnd_encAcc h hw.1
  | cons x t ih =>
    obtain ⟨o, a⟩ := x
    have hx := hw.2 (o, a) (by simp)
    have hw' : WfCode (a, t) := ⟨hx.2, fun p hp => hw.2 p (by simp [hp])⟩
    have e : encAll h ((o, a) :: t) = (encAcc h true ++ [UInt8.ofNat o]) ++ encAll a t := by simp [encAll]
    rw [e, markEnd_append _ _ (encAll_ge5 a t), ih a hw']
    simp [encFinal]

/-! ## `struct.pack` results are encodings -/

theorem packU1_some {v : Int} {bs : Bytes} (h : packU 1 v = some bs) :
    0 ≤ v ∧ v < 256 ∧ bs = [UInt8.ofNat v.toNat] := by
  obtain ⟨h0, h1, rfl⟩ := packU_some h
  exact ⟨h0, by omega, rfl⟩

theorem packU4_some {v : Int} {bs : Bytes} (h : packU 4 v = some bs) :
    0 ≤ v ∧ v < 4294967296 ∧ bs = leBytes 4 (BitVec.ofInt 32 v).toNat := by
  obtain ⟨h0, h1, rfl⟩ := packU_some h
  refine ⟨h0, by omega, ?_⟩
  congr 1
  rw [BitVec.toNat_ofInt]
  have : v % ((2 ^ 32 : Nat) : Int) = v := Int.emod_eq_of_lt h0 (by omega)
  rw [this]

theorem pyOr32_neg (s : Int) (h : s < 0) : pyOr 0x20 s < 0 := by
  obtain ⟨n, rfl⟩ := Int.eq_negSucc_of_lt_zero h
  show Int.negSucc _ < 0
  exact Int.negSucc_lt_zero _

theorem pyOr32_nat (n : Nat) (h : n < 32) : pyOr 0x20 (n : Int) = ((32 + n : Nat) : Int) := by
  show ((0x20 ||| n : Nat) : Int) = _
  congr 1
  have : ∀ s : Fin 32, 0x20 ||| s.val = 32 + s.val := by decide
  exact this ⟨n, h⟩

/-- Fields of a `'<BBBI'` access pack. -/
theorem packVarP_some {var param shift mask : Int} {bs : Bytes}
    (h : packVarP var param shift mask = some bs) (hs : shift < 32)
    (hpar : hasParam var.toNat = true) :
    ∃ a : Access, a = { var := var.toNat, param := param.toNat, shift := shift.toNat, mask := BitVec.ofInt 32 mask } ∧ WfAcc a ∧ bs = encAcc a true ∧ 0 ≤ var ∧ 0 ≤ param ∧ param < 256 ∧
        0 ≤ shift ∧ 0 ≤ mask ∧ mask < 4294967296 := by
  simp only [packVarP, cat, Option.bind_eq_bind, Option.bind_eq_some_iff, Option.some.injEq] at h
  obtain ⟨b1, h1, _, ⟨b2, h2, _, ⟨b3, h3, _, ⟨b4, h4, _, rfl, rfl⟩, rfl⟩, rfl⟩, rfl⟩ := h
  obtain ⟨v0, v1, rfl⟩ := packU1_some h1
  obtain ⟨p0, p1, rfl⟩ := packU1_some h2
  have hs0 : 0 ≤ shift := by
    rcases Int.lt_or_le shift 0 with hn | hn
    · have := pyOr32_neg shift hn
      have := (packU1_some h3).1
      omega
    · exact hn
  obtain ⟨n, rfl⟩ := Int.eq_ofNat_of_zero_le hs0
  rw [pyOr32_nat n (by omega)] at h3
  obtain ⟨_, _, rfl⟩ := packU1_some h3
  obtain ⟨m0, m1, rfl⟩ := packU4_some h4
  refine ⟨_, rfl, ⟨by simp; omega, by simp; omega, by simp [hpar], by simp; omega, rfl, rfl, rfl⟩, ?_,
    v0, p0, p1, hs0, m0, m1⟩
  have e : (((32 + n : Nat) : Int)).toNat = 32 + n := by omega
  rw [e]
  simp [encAcc, hpar]

/-- Fields of a `'<BBI'` access pack. -/
theorem packVar_some {var shift mask : Int} {bs : Bytes}
    (h : packVar var shift mask = some bs) (hs : shift < 32)
    (hpar : hasParam var.toNat = false) :
    ∃ a : Access, a = { var := var.toNat, param := 0, shift := shift.toNat, mask := BitVec.ofInt 32 mask } ∧ WfAcc a ∧ bs = encAcc a true ∧ 0 ≤ var ∧
        0 ≤ shift ∧ 0 ≤ mask ∧ mask < 4294967296 := by
  simp only [packVar, cat, Option.bind_eq_bind, Option.bind_eq_some_iff, Option.some.injEq] at h
  obtain ⟨b1, h1, _, ⟨b3, h3, _, ⟨b4, h4, _, rfl, rfl⟩, rfl⟩, rfl⟩ := h
  obtain ⟨v0, v1, rfl⟩ := packU1_some h1
  have hs0 : 0 ≤ shift := by
    rcases Int.lt_or_le shift 0 with hn | hn
    · have := pyOr32_neg shift hn
      have := (packU1_some h3).1
      omega
    · exact hn
  obtain ⟨n, rfl⟩ := Int.eq_ofNat_of_zero_le hs0
  rw [pyOr32_nat n (by omega)] at h3
  obtain ⟨_, _, rfl⟩ := packU1_some h3
  obtain ⟨m0, m1, rfl⟩ := packU4_some h4
  refine ⟨_, rfl, ⟨by simp; omega, by simp, by simp, by simp; omega, rfl, rfl, rfl⟩, ?_,
    v0, hs0, m0, m1⟩
  have e : (((32 + n : Nat) : Int)).toNat = 32 + n := by omega
  rw [e]
  simp [encAcc, hpar]

/-- A `7b` access packed after `OP_INIT`. -/
theorem pack7b_some {var shift mask : Int} {bs : Bytes}
    (h : cat [packU 1 0x0f, packU 1 0x7b, packU 1 var, packU 1 (pyOr 0x20 shift), packU 4 mask] = some bs)
    (hs : shift < 32) :
    ∃ a : Access, a = { var := 0x7b, param := var.toNat, shift := shift.toNat, mask := BitVec.ofInt 32 mask } ∧ WfAcc a ∧ bs = UInt8.ofNat 0x0f :: encAcc a true ∧ 0 ≤ var ∧
        0 ≤ shift ∧ 0 ≤ mask ∧ mask < 4294967296 := by
  rw [cat] at h
  simp only [Option.bind_eq_bind, Option.bind_eq_some_iff, Option.some.injEq] at h
  obtain ⟨b0, h0, r, hr, rfl⟩ := h
  obtain ⟨_, _, rfl⟩ := packU1_some h0
  obtain ⟨a, rfl, hw, rfl, _, h1, _, h2⟩ := packVarP_some (var := 0x7b) (param := var) hr hs (by decide)
  exact ⟨_, rfl, hw, rfl, h1, h2⟩

end Grf
