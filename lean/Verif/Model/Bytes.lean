/-!
# Byte strings, `struct.pack` and little-endian readers

Python `bytes` are `List UInt8`, Python `int` is `Int`, a raised exception is `none`.
`struct.pack` raises `struct.error` when a value is out of range of its format character;
reading past the end raises (`IndexError` or `struct.error`).
-/
namespace Grf

/-- Python `bytes`. For `grf/common.py:199-234`. -/
abbrev Bytes := List UInt8

/-- `k` little-endian bytes of a natural number (what `struct.pack('<B'/'<H'/'<I')` emits for an
in-range value). For `grf/common.py:192-196`. -/
def leBytes : Nat → Nat → Bytes
  | 0, _ => []
  | k + 1, n => UInt8.ofNat n :: leBytes k (n / 256)

/-- Value of little-endian bytes. For `grf/common.py:199-234`. -/
def leVal : Bytes → Nat
  | [] => 0
  | b :: bs => b.toNat + 256 * leVal bs

/-- `struct.pack` of one unsigned field of `k` bytes (`B`, `H`, `I`): raises unless `0 ≤ v < 256^k`. -/
def packU (k : Nat) (v : Int) : Option Bytes :=
  if 0 ≤ v ∧ v < (256 ^ k : Nat) then some (leBytes k v.toNat) else none

/-- `struct.pack` of one signed field of `k` bytes (`b`, `h`, `i`): raises unless
`-256^k/2 ≤ v < 256^k/2`; emits two's complement. For `grf/common.py:192-196`. -/
def packS (k : Nat) (v : Int) : Option Bytes :=
  if -(256 ^ k / 2 : Nat) ≤ v ∧ v < (256 ^ k / 2 : Nat) then
    some (leBytes k (v % (256 ^ k : Nat)).toNat) else none

/-- Take exactly `k` bytes, or raise. For `grf/common.py:199-234`. -/
def takeBytes (k : Nat) (bs : Bytes) : Option (Bytes × Bytes) :=
  if k ≤ bs.length then some (bs.take k, bs.drop k) else none

/-- Unsigned little-endian read of `k` bytes: `grf/common.py:199-234`
(`read_word`, `read_dword`, `DataReader.get_byte/get_word/get_dword/get_var`). The reader's state
(`data`, `offset`) is represented by the remaining bytes `data[offset:]`. -/
def readU (k : Nat) (bs : Bytes) : Option (Int × Bytes) := do
  let (x, r) ← takeBytes k bs
  some ((leVal x : Int), r)

/-- Signed little-endian read (`struct.unpack('<b'/'<h'/'<i')`). For `grf/common.py:192-196`. -/
def readS (k : Nat) (bs : Bytes) : Option (Int × Bytes) := do
  let (x, r) ← takeBytes k bs
  let n := leVal x
  some (if n < 256 ^ k / 2 then (n : Int) else (n : Int) - (256 ^ k : Nat), r)

/-- `bytes((v,))`: `ValueError` unless `0 ≤ v ≤ 255`. -/
def byteOf (v : Int) : Option UInt8 :=
  if 0 ≤ v ∧ v < 256 then some (UInt8.ofNat v.toNat) else none

/-- Concatenate the results of several `struct` fields, raising if any raises. For `grf/common.py:192-196`. -/
def cat : List (Option Bytes) → Option Bytes
  | [] => some []
  | x :: xs => do let a ← x; let b ← cat xs; some (a ++ b)

theorem leBytes_length (k n : Nat) : (leBytes k n).length = k := by
  induction k generalizing n with
  | zero => rfl
  | succ k ih => simp [leBytes, ih]

theorem leVal_leBytes (k n : Nat) (h : n < 256 ^ k) : leVal (leBytes k n) = n := by
  induction k generalizing n with
  | zero => simp [leBytes, leVal]; simp at h; omega
  | succ k ih =>
    have hk : n / 256 < 256 ^ k := by
      rw [Nat.div_lt_iff_lt_mul (by decide)]; rw [Nat.pow_succ] at h; exact h
    simp only [leBytes, leVal, ih _ hk, UInt8.toNat_ofNat']
    omega

theorem leVal_lt (bs : Bytes) : leVal bs < 256 ^ bs.length := by
  induction bs with
  | nil => simp [leVal]
  | cons b bs ih =>
    simp only [leVal, List.length_cons, Nat.pow_succ]
    have := b.toNat_lt
    omega

theorem leBytes_leVal (bs : Bytes) : leBytes bs.length (leVal bs) = bs := by
  induction bs with
  | nil => rfl
  | cons b bs ih =>
    simp only [leVal, List.length_cons, leBytes]
    have hb := b.toNat_lt
    have h1 : (b.toNat + 256 * leVal bs) / 256 = leVal bs := by omega
    rw [h1, ih]
    congr 1
    apply UInt8.toNat.inj
    rw [UInt8.toNat_ofNat']
    omega

theorem takeBytes_append (a t : Bytes) : takeBytes a.length (a ++ t) = some (a, t) := by
  simp [takeBytes]

theorem takeBytes_append' {k : Nat} (a t : Bytes) (h : a.length = k) :
    takeBytes k (a ++ t) = some (a, t) := by
  subst h; exact takeBytes_append a t

theorem packU_some {k : Nat} {v : Int} {bs : Bytes} (h : packU k v = some bs) :
    0 ≤ v ∧ v < (256 ^ k : Nat) ∧ bs = leBytes k v.toNat := by
  unfold packU at h
  split at h
  · simp at h; exact ⟨‹_ ∧ _›.1, ‹_ ∧ _›.2, h.symm⟩
  · simp at h

theorem packU_length {k : Nat} {v : Int} {bs : Bytes} (h : packU k v = some bs) : bs.length = k := by
  obtain ⟨_, _, rfl⟩ := packU_some h
  exact leBytes_length _ _

theorem readU_packU {k : Nat} {v : Int} {bs : Bytes} (h : packU k v = some bs) (t : Bytes) :
    readU k (bs ++ t) = some (v, t) := by
  have hl := packU_length h
  obtain ⟨h0, h1, rfl⟩ := packU_some h
  have hv : v.toNat < 256 ^ k := by omega
  simp only [readU, takeBytes_append' _ _ hl, Option.bind_eq_bind, Option.bind_some,
    leVal_leBytes k _ hv]
  simp only [Option.some.injEq, Prod.mk.injEq, and_true]
  omega

theorem packS_some {k : Nat} {v : Int} {bs : Bytes} (h : packS k v = some bs) :
    -(256 ^ k / 2 : Nat) ≤ v ∧ v < (256 ^ k / 2 : Nat) ∧ bs = leBytes k (v % (256 ^ k : Nat)).toNat := by
  unfold packS at h
  split at h
  · simp at h; exact ⟨‹_ ∧ _›.1, ‹_ ∧ _›.2, h.symm⟩
  · simp at h

theorem packS_length {k : Nat} {v : Int} {bs : Bytes} (h : packS k v = some bs) : bs.length = k := by
  obtain ⟨_, _, rfl⟩ := packS_some h
  exact leBytes_length _ _

theorem readS_packS {k : Nat} {v : Int} {bs : Bytes} (h : packS k v = some bs) (t : Bytes) :
    readS k (bs ++ t) = some (v, t) := by
  have hl := packS_length h
  obtain ⟨h0, h1, rfl⟩ := packS_some h
  have hpos : 0 < 256 ^ k := Nat.pow_pos (by decide)
  have hpos' : (0:Int) < ((256 ^ k : Nat) : Int) := by exact_mod_cast hpos
  have hm0 := Int.emod_nonneg v (Int.ne_of_gt hpos')
  have hm1 := Int.emod_lt_of_pos v hpos'
  have hv : (v % (256 ^ k : Nat)).toNat < 256 ^ k := by omega
  simp only [readS, takeBytes_append' _ _ hl, Option.bind_eq_bind, Option.bind_some,
    leVal_leBytes k _ hv]
  simp only [Option.some.injEq, Prod.mk.injEq, and_true]
  generalize 256 ^ k = m at *
  by_cases hneg : 0 ≤ v
  · have : v % (m:Int) = v := Int.emod_eq_of_lt hneg (by omega)
    rw [this]; split <;> omega
  · have : v % (m:Int) = v + m := by
      rw [← Int.add_emod_right v m]
      exact Int.emod_eq_of_lt (by omega) (by omega)
    rw [this]; split <;> omega

end Grf
