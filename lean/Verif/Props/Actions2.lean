import Verif.Props.Actions
/-!
# C15, C16, C17: strings, control actions, description and errors
-/
namespace Grf.Acts
open PropC

/-! ### C15 -/

theorem splitAll_nulfree (s : Bytes) (h : (0 : UInt8) ∉ s) : splitAll s = [s] := by
  induction s with
  | nil => rfl
  | cons b s ih =>
    simp only [List.mem_cons, not_or] at h
    rw [splitAll, if_neg (fun e => h.1 e.symm), ih h.2]

theorem splitAll_cons (s : Bytes) (h : (0 : UInt8) ∉ s) (t : Bytes) : splitAll (s ++ 0 :: t) = s :: splitAll t := by
  induction s with
  | nil => simp [splitAll]
  | cons b s ih =>
    simp only [List.mem_cons, not_or] at h
    rw [List.cons_append, splitAll, if_neg (fun e => h.1 e.symm), ih h.2]

theorem splitAll_join (l : List Bytes) (hl : l ≠ []) (h : ∀ s ∈ l, (0 : UInt8) ∉ s) : splitAll (joinNul l) = l := by
  induction l with
  | nil => exact absurd rfl hl
  | cons s l ih =>
    cases l with
    | nil => exact splitAll_nulfree s (h s (by simp))
    | cons s' l =>
      rw [joinNul, splitAll_cons s (h s (by simp)), ih (by simp) (fun x hx => h x (by simp [hx]))]
      simp

/-- **C15** A string definition the constructor accepts, with at least one string, NUL-free strings and a language 0..0x7f, is read back:
feature, language, first id, kind of offset and the strings in order. -/
theorem strings_roundtrip_partial (T : Nat → List (String × VarData)) (ctx : PCtx) (s : Texts) (bs : Bytes) (hf : s.feature ≤ 0x14)
    (hacc : s.accepted = true) (hl : 0 ≤ s.lang ∧ s.lang < 0x80) (hs : s.strings ≠ []) (hn : ∀ x ∈ s.strings, (0 : UInt8) ∉ x)
    (h : s.getData = some bs) : decodePseudo T ctx bs = some (some (.texts s), ctx.enter) := by
  obtain ⟨f, lang, off, gen, strs⟩ := s
  simp only at hf hl hs hn
  obtain ⟨ln, rfl⟩ := Int.eq_ofNat_of_zero_le hl.1
  have hln : ln < 128 := by omega
  have hsp := splitAll_join strs hs hn
  simp only [Texts.getData, Option.bind_eq_bind, Option.bind_eq_some_iff, Option.some.injEq] at h
  obtain ⟨hd, hh, rfl⟩ := h
  simp only [Texts.header] at hh
  have q0 : (pyAnd (ln : Int) 0x80 != 0) = false := by simpa using and80 ln hln false
  have q1 : pyAnd (ln : Int) 0x7f = ln := by simpa using and7f ln hln false
  split at hh
  · next hg =>
    subst hg
    simp only [cat_cons_iff, cat_nil_iff] at hh
    obtain ⟨a1, h1, _, ⟨a2, h2, _, ⟨a3, h3, _, ⟨a4, h4, _, ⟨a5, h5, _, rfl, rfl⟩, rfl⟩, rfl⟩, rfl⟩, rfl⟩ := hh
    rw [pk' 4 (by decide) h1]
    have ho := or80 ln hln true
    have r0 := and80 ln hln true
    have r1 := and7f ln hln true
    simp only [if_true] at ho r0 r1
    rw [ho] at h3
    simp only [List.nil_append, List.cons_append, List.append_assoc, List.append_nil]
    rw [dp04]
    simp only [decode4, readOffset, readU_packU h2, readU_packU h3, readU_packU h4, readU_packU h5, feature_ok hf, r0, r1, if_true,
      Option.bind_eq_bind, Option.bind_some, List.dropLast_concat, hsp, Option.map_some]
  · next hg =>
    have hg : gen = false := by simpa using hg
    subst hg
    split at hh
    · next hv =>
      simp only [cat_cons_iff, cat_nil_iff] at hh
      obtain ⟨a1, h1, _, ⟨a2, h2, _, ⟨a3, h3, _, ⟨a4, h4, _, ⟨a5, h5, _, ⟨a6, h6, _, rfl, rfl⟩, rfl⟩, rfl⟩, rfl⟩, rfl⟩, rfl⟩ := hh
      rw [pk' 4 (by decide) h1]
      simp only [List.nil_append, List.cons_append, List.append_assoc, List.append_nil]
      rw [dp04]
      simp only [decode4, readOffset, readU_packU h2, readU_packU h3, readU_packU h4, readU_packU h5, readU_packU h6, feature_ok hf, q0, q1, hv.1,
        Bool.false_eq_true, if_false, and_self, if_true,
        Option.bind_eq_bind, Option.bind_some, List.dropLast_concat, hsp, Option.map_some]
    · next hv =>
      simp only [cat_cons_iff, cat_nil_iff] at hh
      obtain ⟨a1, h1, _, ⟨a2, h2, _, ⟨a3, h3, _, ⟨a4, h4, _, ⟨a5, h5, _, rfl, rfl⟩, rfl⟩, rfl⟩, rfl⟩, rfl⟩ := hh
      rw [pk' 4 (by decide) h1]
      simp only [List.nil_append, List.cons_append, List.append_assoc, List.append_nil]
      rw [dp04]
      have hv' : ¬ (vehicle f = true ∧ off = 0xff) := by rintro ⟨e1, e2⟩; exact hv ⟨e1, by omega⟩
      simp only [decode4, readOffset, readU_packU h2, readU_packU h3, readU_packU h4, readU_packU h5, feature_ok hf, q0, q1, if_neg hv',
        Bool.false_eq_true, if_false,
        Option.bind_eq_bind, Option.bind_some, List.dropLast_concat, hsp, if_true, Option.map_some]

/-- A definition without strings is written but reading it fails. -/
theorem no_strings_unreadable :
    (Texts.mk 0 0x7f 5 false []).accepted = true ∧ (Texts.mk 0 0x7f 5 false []).getData = some [4, 0, 0x7f, 0, 5, 0] ∧
      ∀ T ctx, decodePseudo T ctx [4, 0, 0x7f, 0, 5, 0] = none :=
  ⟨by decide, by decide +kernel, fun T ctx => by rw [dp04]; simp only [show decode4 [0, 0x7f, 0, 5, 0] = none by decide +kernel, Option.map_none]⟩

/-- The language read back is always below 0x80, so languages from 0x80 on never come back. -/
theorem decoded_language_small (bs : Bytes) (s : Texts) (h : decode4 bs = some s) : 0 ≤ s.lang ∧ s.lang < 0x80 := by
  simp only [decode4, Option.bind_eq_bind, Option.bind_eq_some_iff] at h
  obtain ⟨⟨f, b1⟩, _, f', _, ⟨l, b2⟩, hl, ⟨n, b3⟩, _, ⟨o, b4⟩, _, h⟩ := h
  split at h
  · simp only [Option.some.injEq] at h
    subst h
    simp only
    have hb := (readU_bound hl).1
    obtain ⟨m, rfl⟩ := Int.eq_ofNat_of_zero_le hb
    have : pyAnd (m : Int) 0x7f = ((m % 2 ^ 7 : Nat) : Int) := SpriteRef.and_mask 7 m
    rw [this]; omega
  · simp at h

/-- A non-generic string id for vehicles from 0xff on uses the extended form; the other forms. -/
example : (Texts.mk 0 0x7f 300 false [[65], [], [66, 67]]).getData = some [4, 0, 0x7f, 3, 255, 0x2c, 1, 65, 0, 0, 66, 67, 0] := by
  decide +kernel
example : (Texts.mk 7 0 0xd001 true [[65]]).getData = some [4, 7, 0x80, 1, 1, 0xd0, 65, 0] := by decide +kernel
example : (Texts.mk 7 0 0xd001 true [[65]]).accepted = true := by decide
example : (Texts.mk 7 0 255 false [[]]).getData = some [4, 7, 0, 1, 255, 0] := by decide +kernel

/-! ### C16 -/

theorem strip80 (t : Nat) (h : t < 128) : pyAnd ((t + 128 : Nat) : Int) (-129) = t := by
  show Int.ofNat (ldiff (t + 128) 128) = _
  have : ∀ x : Fin 128, ldiff (x.val + 128) 128 = x.val := by decide +kernel
  rw [this ⟨t, h⟩]; rfl

/-- **C16** Replacing new sprites: set types 0..0x7f, any count and offset, come back, and the context expects the sprites. -/
theorem replace_new_roundtrip_partial (T : Nat → List (String × VarData)) (ctx : PCtx) (a : NewSprites) (bs : Bytes)
    (ht : 0 ≤ a.setType ∧ a.setType < 0x80) (h : a.getData = some bs) :
    decodePseudo T ctx bs = some (some (.newSprites a), ⟨.graphics, a.count⟩) := by
  obtain ⟨t, n, o⟩ := a
  simp only at ht
  obtain ⟨tn, rfl⟩ := Int.eq_ofNat_of_zero_le ht.1
  have htn : tn < 128 := by omega
  cases o with
  | none =>
    simp only [NewSprites.getData, cat_cons_iff, cat_nil_iff] at h
    obtain ⟨a1, h1, _, ⟨a2, h2, _, ⟨a3, h3, _, ⟨a4, h4, _, rfl, rfl⟩, rfl⟩, rfl⟩, rfl⟩ := h
    rw [pk' 5 (by decide) h1, pk' 0xff (by decide) h3]
    have q0 : (pyAnd (tn : Int) 0x80 != 0) = false := by simpa using and80 tn htn false
    have q0 : ¬ (pyAnd (tn : Int) 0x80 ≠ 0) := by simpa using q0
    simp only [List.nil_append, List.cons_append, List.append_assoc]
    rw [dp05]
    simp only [decode5, readU_packU h2, readExt_ff h4, if_neg q0, Option.bind_eq_bind, Option.bind_some, Option.map_some]
  | some o =>
    simp only [NewSprites.getData, cat_cons_iff, cat_nil_iff] at h
    obtain ⟨a1, h1, _, ⟨a2, h2, _, ⟨a3, h3, _, ⟨a4, h4, _, ⟨a5, h5, _, ⟨a6, h6, _, rfl, rfl⟩, rfl⟩, rfl⟩, rfl⟩, rfl⟩, rfl⟩ := h
    rw [pk' 5 (by decide) h1, pk' 0xff (by decide) h3, pk' 0xff (by decide) h5]
    have ho := or80 tn htn true
    have r0 := and80 tn htn true
    have r1 := strip80 tn htn
    simp only [if_true] at ho r0
    rw [ho] at h2
    have r0 : pyAnd ((tn + 128 : Nat) : Int) 0x80 ≠ 0 := by simpa using r0
    simp only [List.nil_append, List.cons_append, List.append_assoc]
    rw [dp05]
    simp only [decode5, readU_packU h2, readExt_ff h4, if_pos r0, readExt_ff h6, r1, Option.bind_eq_bind, Option.bind_some, Option.map_some]

/-- A set type with bit 7 set never comes back: the type read is below 0x80. -/
theorem decoded_set_type_small (bs : Bytes) (a : NewSprites) (n : Int) (h : decode5 bs = some (a, n)) : a.setType < 0x80 := by
  simp only [decode5, Option.bind_eq_bind, Option.bind_eq_some_iff] at h
  obtain ⟨⟨t, b1⟩, ht, ⟨k, b2⟩, hk, h⟩ := h
  have hb := readU_bound ht
  obtain ⟨m, rfl⟩ := Int.eq_ofNat_of_zero_le hb.1
  have hm : m < 256 := by have := hb.2; simp at this; omega
  have key : ∀ x : Fin 256, (pyAnd (x.val : Int) 0x80 = 0 → (x.val : Int) < 0x80) ∧ pyAnd (x.val : Int) (-129) < 0x80 := by decide +kernel
  have := key ⟨m, hm⟩
  simp only at h
  split at h
  · simp only [Option.bind_eq_some_iff, Option.some.injEq, Prod.mk.injEq] at h
    obtain ⟨_, _, h, _⟩ := h
    rw [← h]; exact this.2
  · next h0 =>
    simp only [Option.some.injEq, Prod.mk.injEq] at h
    rw [← h.1]; exact this.1 (by simpa using h0)

/-- **C16** Modifying the next sprites: parameters other than 0xff come back in order. -/
theorem modify_roundtrip_partial (T : Nat → List (String × VarData)) (ctx : PCtx) (ps : List ModParam) (bs : Bytes)
    (hn : ∀ p ∈ ps, p.num ≠ 0xff) (h : modifyData ps = some bs) :
    decodePseudo T ctx bs = some (some (.modify ps), ctx.enter) := by
  simp only [modifyData, Option.bind_eq_bind, Option.bind_eq_some_iff, Option.some.injEq] at h
  obtain ⟨a1, h1, b, hb, rfl⟩ := h
  rw [pk' 6 (by decide) h1]
  simp only [List.nil_append, List.cons_append, List.append_assoc]
  rw [dp06]
  have key : ∀ (ps : List ModParam) (b : Bytes), (∀ p ∈ ps, p.num ≠ 0xff) →
      cat (ps.map fun p => cat [packU 1 p.num, packU 1 p.size, packU 1 0xff, packU 2 p.offset]) = some b →
      ∀ fuel, b.length < fuel → decode6 fuel (b ++ [0xff]) = some ps := by
    intro ps
    induction ps with
    | nil =>
      intro b _ hb fuel hf
      rw [cat_nil hb]
      cases fuel with
      | zero => simp at hf
      | succ n => simp [decode6, readU_one]
    | cons p ps ih =>
      intro b hn hb fuel hf
      obtain ⟨x, y, hx, hy, rfl⟩ := cat_cons hb
      simp only [cat_cons_iff, cat_nil_iff] at hx
      obtain ⟨a1, h1, _, ⟨a2, h2, _, ⟨a3, h3, _, ⟨a4, h4, _, rfl, rfl⟩, rfl⟩, rfl⟩, rfl⟩ := hx
      have l1 := packU_length h1
      cases fuel with
      | zero => simp at hf
      | succ n =>
        rw [pk' 0xff (by decide) h3]
        have := ih y (fun q hq => hn q (by simp [hq])) hy n (by simp only [List.length_append] at hf; omega)
        have hne := hn p (by simp)
        simp only [decode6, List.append_assoc, List.nil_append, List.cons_append, readU_packU h1, readU_packU h2, readExt_ff h4, this,
          if_neg hne, Option.bind_eq_bind, Option.bind_some]
  rw [key ps b hn hb _ (by simp; omega)]
  rfl

/-- A parameter 0xff ends the list when it is read: everything from it on is lost. -/
theorem modify_parameter_255_lost : modifyData [⟨1, 2, 3⟩, ⟨0xff, 1, 0⟩, ⟨2, 2, 2⟩] =
      some [6, 1, 2, 255, 3, 0, 255, 1, 255, 0, 0, 2, 2, 255, 2, 0, 255] ∧
    decode6 17 [1, 2, 255, 3, 0, 255, 1, 255, 0, 0, 2, 2, 255, 2, 0, 255] = some [⟨1, 2, 3⟩] := by decide +kernel

theorem pyAnd_255 (v : Int) : pyAnd v 0xff = v % 256 := by
  cases v with
  | ofNat n =>
    have : pyAnd (n : Int) 0xff = ((n % 2 ^ 8 : Nat) : Int) := SpriteRef.and_mask 8 n
    show pyAnd (n : Int) 0xff = (n : Int) % 256
    rw [this]; omega
  | negSucc a =>
    show Int.ofNat (ldiff 255 a) = _
    have h1 : ldiff 255 a = 255 - a % 256 := by
      unfold ldiff
      have h2 : 255 &&& a = a % 256 := by
        rw [Nat.and_comm]; exact Nat.and_two_pow_sub_one_eq_mod a 8
      rw [h2]
      have : ∀ m : Fin 256, 255 ^^^ m.val = 255 - m.val := by decide +kernel
      exact this ⟨a % 256, Nat.mod_lt _ (by decide)⟩
    rw [h1]
    show ((255 - a % 256 : Nat) : Int) = Int.negSucc a % 256
    rw [Int.negSucc_eq]
    omega

theorem lowBytes_succ (n : Nat) (v : Int) : lowBytes (n + 1) v = UInt8.ofNat (v % 256).toNat :: lowBytes n (v / 256) := by
  unfold lowBytes
  rw [List.range_succ_eq_map, List.map_cons, List.map_map]
  congr 1
  · simp only [Nat.mul_zero, pyAnd_255]
    rw [show v >>> (0:Nat) = v by simp]
  · apply List.map_congr_left
    intro i _
    simp only [Function.comp_apply, pyAnd_255]
    have : v >>> (8 * (i + 1)) = (v / 256) >>> (8 * i) := by
      rw [Int.shiftRight_eq_div_pow, Int.shiftRight_eq_div_pow, Int.ediv_ediv_of_nonneg (by decide)]
      congr 1
      have : 2 ^ (8 * (i + 1)) = 256 * 2 ^ (8 * i) := by rw [Nat.mul_add, Nat.pow_add, Nat.mul_comm]
      rw [this]; simp
    rw [this]

theorem leVal_lowBytes (n : Nat) : ∀ v : Int, ((leVal (lowBytes n v) : Nat) : Int) = v % ((256 ^ n : Nat) : Int) := by
  induction n with
  | zero => intro v; simp [lowBytes, leVal, Int.emod_one]
  | succ n ih =>
    intro v
    rw [lowBytes_succ, leVal]
    have h0 : (UInt8.ofNat (v % 256).toNat).toNat = (v % 256).toNat := by
      rw [UInt8.toNat_ofNat']; omega
    rw [h0]
    have := ih (v / 256)
    have hp : (0 : Int) < ((256 ^ n : Nat) : Int) := by exact_mod_cast Nat.pow_pos (by decide)
    have e : ((256 ^ (n + 1) : Nat) : Int) = 256 * ((256 ^ n : Nat) : Int) := by rw [Nat.pow_succ]; omega
    rw [e]
    generalize ((256 ^ n : Nat) : Int) = m at *
    have hs : v % (256 * m) = v % 256 + 256 * (v / 256 % m) := by
      rw [Int.emod_def v (256 * m), Int.emod_def v 256, Int.emod_def (v / 256) m, Int.ediv_ediv_of_nonneg (by decide), Int.mul_sub, Int.mul_assoc]
      omega
    rw [hs]
    omega

theorem lowBytes_length (n : Nat) (v : Int) : (lowBytes n v).length = n := by simp [lowBytes]

theorem readU_append {k : Nat} (b t : Bytes) (h : b.length = k) : readU k (b ++ t) = some ((leVal b : Int), t) := by
  simp [readU, takeBytes_append' _ _ h]

/-- **C16** Conditional skip. For conditions other than the bit tests 0 and 1 (which always use one byte), and for those with one byte:
variable, size, condition, number of sprites to skip and kind come back, and the value, a number, as the unsigned number of that many
bytes. -/
theorem skip_number_roundtrip_partial (T : Nat → List (String × VarData)) (ctx : PCtx) (a : If) (bs : Bytes) (size : Nat) (v : Int)
    (hs : a.varsize = some (size : Int)) (hv : a.value = .int v) (hc : 2 ≤ a.condition ∨ size = 1) (h : a.getData = some bs) :
    decodePseudo T ctx bs = some (some (.cond { a with value := .int (v % ((256 ^ size : Nat) : Int)) }), ctx.enter) := by
  obtain ⟨st, var, vs, c, val, skip⟩ := a
  simp only at hs hv hc
  subst hs hv
  simp only [If.getData, Option.getD_some, Option.bind_eq_bind, Option.bind_eq_some_iff, Option.some.injEq, Int.toNat_natCast] at h
  obtain ⟨hd, hh, sk, hsk, rfl⟩ := h
  simp only [cat_cons_iff, cat_nil_iff] at hh
  obtain ⟨a1, h1, _, ⟨a2, h2, _, ⟨a3, h3, _, ⟨a4, h4, _, rfl, rfl⟩, rfl⟩, rfl⟩, rfl⟩ := hh
  have hsz : (if c < 2 then (1 : Int) else (size : Int)) = size := by split <;> omega
  have hrd : ∀ t, readU size (lowBytes size v ++ t) = some (v % ((256 ^ size : Nat) : Int), t) := by
    intro t; rw [readU_append _ _ (lowBytes_length _ _), leVal_lowBytes]
  have hr := readU_packU hsk []
  rw [List.append_nil] at hr
  have hd7 : decode7 st (a2 ++ (a3 ++ (a4 ++ (lowBytes size v ++ sk)))) =
      some ⟨st, var, some size, c, .int (v % ((256 ^ size : Nat) : Int)), skip⟩ := by
    simp only [decode7, readU_packU h2, readU_packU h3, readU_packU h4, hsz, Int.toNat_natCast, hrd, hr, Option.bind_eq_bind,
      Option.bind_some]
  cases st with
  | true =>
    rw [pk' 9 (by rfl) h1]
    simp only [List.nil_append, List.cons_append, List.append_assoc, List.append_nil]
    rw [dp09, hd7]; rfl
  | false =>
    rw [pk' 7 (by rfl) h1]
    simp only [List.nil_append, List.cons_append, List.append_assoc, List.append_nil]
    rw [dp07, hd7]; rfl

/-- A value that fits comes back unchanged: the whole action does. -/
theorem skip_fitting_roundtrip_partial (T : Nat → List (String × VarData)) (ctx : PCtx) (a : If) (bs : Bytes) (size : Nat) (v : Int)
    (hs : a.varsize = some (size : Int)) (hv : a.value = .int v) (hc : 2 ≤ a.condition ∨ size = 1)
    (h0 : 0 ≤ v ∧ v < ((256 ^ size : Nat) : Int)) (h : a.getData = some bs) :
    decodePseudo T ctx bs = some (some (.cond a), ctx.enter) := by
  rw [skip_number_roundtrip_partial T ctx a bs size v hs hv hc h, Int.emod_eq_of_lt h0.1 h0.2, ← hv]

/-- The same for a value given as bytes (of the given size, if one is given): it comes back as the number with these little-endian
bytes. -/
theorem skip_bytes_roundtrip_partial (T : Nat → List (String × VarData)) (ctx : PCtx) (a : If) (bs : Bytes) (b : Bytes)
    (hs : a.varsize = some (b.length : Int) ∨ a.varsize = none) (hv : a.value = .bytes b) (hc : 2 ≤ a.condition ∨ b.length = 1)
    (h : a.getData = some bs) :
    decodePseudo T ctx bs = some (some (.cond { a with varsize := some (b.length : Int), value := .int (leVal b) }), ctx.enter) := by
  obtain ⟨st, var, vs, c, val, skip⟩ := a
  simp only at hs hv hc
  subst hv
  have hg : vs.getD (b.length : Int) = b.length := by rcases hs with e | e <;> subst e <;> rfl
  simp only [If.getData, hg, Option.bind_eq_bind, Option.bind_eq_some_iff, Option.some.injEq] at h
  obtain ⟨hd, hh, sk, hsk, rfl⟩ := h
  simp only [cat_cons_iff, cat_nil_iff] at hh
  obtain ⟨a1, h1, _, ⟨a2, h2, _, ⟨a3, h3, _, ⟨a4, h4, _, rfl, rfl⟩, rfl⟩, rfl⟩, rfl⟩ := hh
  have hsz : (if c < 2 then (1 : Int) else (b.length : Int)) = b.length := by split <;> omega
  have hr := readU_packU hsk []
  rw [List.append_nil] at hr
  have hd7 : decode7 st (a2 ++ (a3 ++ (a4 ++ (b ++ sk)))) =
      some ⟨st, var, some b.length, c, .int (leVal b), skip⟩ := by
    simp only [decode7, readU_packU h2, readU_packU h3, readU_packU h4, hsz, Int.toNat_natCast, readU_append b sk rfl, hr,
      Option.bind_eq_bind, Option.bind_some]
  cases st with
  | true =>
    rw [pk' 9 (by rfl) h1]
    simp only [List.nil_append, List.cons_append, List.append_assoc, List.append_nil]
    rw [dp09, hd7]; rfl
  | false =>
    rw [pk' 7 (by rfl) h1]
    simp only [List.nil_append, List.cons_append, List.append_assoc, List.append_nil]
    rw [dp07, hd7]; rfl

/-- A bit test written with four bytes is read with one: the number of sprites to skip comes from the value. -/
theorem bit_test_misread : (If.mk false 0x88 (some 4) 0 (.int 0x01020304) 7).getData = some [7, 0x88, 4, 0, 4, 3, 2, 1, 7] ∧
    decode7 false [0x88, 4, 0, 4, 3, 2, 1, 7] = some (If.mk false 0x88 (some 1) 0 (.int 4) 3) := by decide +kernel

/-- **C16** Replacing base sprites: all sets come back in order and the context expects the total number of sprites. -/
theorem replace_old_roundtrip (T : Nat → List (String × VarData)) (ctx : PCtx) (sets : List (Int × Int)) (bs : Bytes)
    (h : oldData sets = some bs) :
    decodePseudo T ctx bs = some (some (.oldSprites sets), ⟨.graphics, (sets.map (·.2)).sum⟩) := by
  simp only [oldData, Option.bind_eq_bind, Option.bind_eq_some_iff, Option.some.injEq] at h
  obtain ⟨hd, hh, b, hb, rfl⟩ := h
  simp only [cat_cons_iff, cat_nil_iff] at hh
  obtain ⟨a1, h1, _, ⟨a2, h2, _, rfl, rfl⟩, rfl⟩ := hh
  rw [pk' 0xa (by decide) h1]
  have hr : readN readSet sets.length (b ++ []) = some (sets.map id, []) := by
    refine readN_cat (e := fun s : Int × Int => cat [packU 1 s.2, packU 2 s.1]) sets ?_ b hb []
    intro p _ b hb t
    simp only [cat_cons_iff, cat_nil_iff] at hb
    obtain ⟨c1, k1, _, ⟨c2, k2, _, rfl, rfl⟩, rfl⟩ := hb
    simp [readSet, readU_packU k1, readU_packU k2]
  rw [List.append_nil, List.map_id] at hr
  simp only [List.nil_append, List.cons_append, List.append_assoc]
  rw [dp0a]
  simp only [decodeA, readU_packU h2, Int.toNat_natCast, hr, Option.bind_eq_bind, Option.bind_some, Option.map_some]

/-- **C16** Computing parameters: the operations 0..0x0C, with a number as value exactly when a source is 0xff, come back completely. -/
theorem compute_roundtrip_partial (T : Nat → List (String × VarData)) (ctx : PCtx) (a : Compute) (bs : Bytes)
    (hop : 0 ≤ a.operation ∧ a.operation ≤ 0x0c)
    (hv : if a.source1 = 0xff ∨ a.source2 = 0xff then ∃ n, a.value = .int n else a.value = .none) (h : a.getData = some bs) :
    decodePseudo T ctx bs = some (some (.compute a), ctx.enter) := by
  obtain ⟨t, op, iu, s1, s2, v⟩ := a
  simp only at hop hv
  obtain ⟨on, rfl⟩ := Int.eq_ofNat_of_zero_le hop.1
  have hon : on < 128 := by omega
  simp only [Compute.getData, Option.bind_eq_bind, Option.bind_eq_some_iff, Option.some.injEq] at h
  obtain ⟨hd, hh, vb, hvb, rfl⟩ := h
  simp only [cat_cons_iff, cat_nil_iff] at hh
  obtain ⟨a1, h1, _, ⟨a2, h2, _, ⟨a3, h3, _, ⟨a4, h4, _, ⟨a5, h5, _, rfl, rfl⟩, rfl⟩, rfl⟩, rfl⟩, rfl⟩ := hh
  rw [pk' 0x0d (by decide) h1]
  rw [or80 on hon iu] at h3
  have q0 := and80 on hon iu
  have q1 := and7f on hon iu
  simp only [List.nil_append, List.cons_append, List.append_assoc, List.append_nil]
  rw [dp0d]
  split at hv
  · next hff =>
    obtain ⟨n, rfl⟩ := hv
    rw [Compute.valueData, if_pos hff] at hvb
    have hr := readU_packU hvb []
    rw [List.append_nil] at hr
    simp only [decodeD, readValue, readU_packU h2, readU_packU h3, readU_packU h4, readU_packU h5, if_pos hff, hr, q0, q1, if_pos hop.2,
      Option.map_some, Option.bind_eq_bind, Option.bind_some]
  · next hff =>
    subst hv
    rw [Compute.valueData, if_neg hff] at hvb
    simp only [Option.some.injEq] at hvb
    subst hvb
    simp only [decodeD, readValue, readU_packU h2, readU_packU h3, readU_packU h4, readU_packU h5, if_neg hff, q0, q1, if_pos hop.2,
      Option.map_some, Option.bind_eq_bind, Option.bind_some]

/-- A value without a source 0xff is not written; an operation above 0x0C is written but cannot be read. -/
theorem compute_value_dropped (t op s1 s2 n : Int) (iu : Bool) (h1 : s1 ≠ 0xff) (h2 : s2 ≠ 0xff) :
    (Compute.mk t op iu s1 s2 (.int n)).getData = (Compute.mk t op iu s1 s2 .none).getData := by
  simp [Compute.getData, Compute.valueData, h1, h2]

theorem compute_unknown_operation_unreadable : (Compute.mk 1 0x0e false 2 3 .none).getData = some [0x0d, 1, 0x0e, 2, 3] ∧
    decodeD [1, 0x0e, 2, 3] = none := by decide +kernel

/-- **C16** Labels. -/
theorem label_roundtrip (T : Nat → List (String × VarData)) (ctx : PCtx) (a : Lbl) (bs : Bytes) (h : a.getData = some bs) :
    decodePseudo T ctx bs = some (some (.label a), ctx.enter) := by
  simp only [Lbl.getData, Option.bind_eq_bind, Option.bind_eq_some_iff, Option.some.injEq] at h
  obtain ⟨hd, hh, rfl⟩ := h
  simp only [cat_cons_iff, cat_nil_iff] at hh
  obtain ⟨a1, h1, _, ⟨a2, h2, _, rfl, rfl⟩, rfl⟩ := hh
  rw [pk' 0x10 (by decide) h1]
  simp only [List.nil_append, List.cons_append, List.append_assoc]
  rw [dp10]
  simp only [decode10, readU_packU h2, Option.bind_eq_bind, Option.bind_some, Option.map_some]

/-- **C16** Number of sounds; the context then expects that many sounds. -/
theorem sounds_roundtrip (T : Nat → List (String × VarData)) (ctx : PCtx) (n : Int) (bs : Bytes) (h : soundsData n = some bs) :
    decodePseudo T ctx bs = some (some (.sounds n), ⟨.sound, n⟩) := by
  simp only [soundsData, cat_cons_iff, cat_nil_iff] at h
  obtain ⟨a1, h1, _, ⟨a2, h2, _, rfl, rfl⟩, rfl⟩ := h
  rw [pk' 0x11 (by decide) h1]
  simp only [List.nil_append, List.cons_append]
  rw [dp11]
  simp only [decode11, readU_packU h2, Option.map_some]

/-- **C16** Imported sounds, where they are allowed (in the sound table), with a four byte GRF id. -/
theorem import_sound_roundtrip_partial (T : Nat → List (String × VarData)) (ctx : PCtx) (grfid : Bytes) (n : Int) (bs : Bytes)
    (hc : ctx.kind = .sound) (hg : grfid.length = 4) (h : importData grfid n = some bs) :
    decodePseudo T ctx bs = some (some (.importSound grfid n), ctx.consume) := by
  simp only [importData, Option.bind_eq_bind, Option.bind_eq_some_iff, Option.some.injEq] at h
  obtain ⟨b, hb, rfl⟩ := h
  have h1 : (0 :: (grfid ++ b)).drop 5 = b := by simp [← hg]
  have h2 : (grfid ++ b).take 4 = grfid := by simp [← hg]
  have hr := readU_packU hb []
  rw [List.append_nil] at hr
  simp only [List.nil_append, List.cons_append, decodePseudo, hc, if_true, decodeFE, h1, hr, Option.bind_eq_bind, Option.bind_some,
    Option.map_some, List.drop_succ_cons, List.drop_zero, h2]

/-- The whole sound table is read back: after announcing `n` imported sounds, all of them are read as imported sounds and the context is
left exactly after the last one. -/
theorem sound_table_roundtrip_partial (T : Nat → List (String × VarData)) (l : List (Bytes × Int)) (hl : ∀ p ∈ l, p.1.length = 4) :
    ∀ (c : PCtx) (bss : List Bytes), c.kind = .sound → c.amount = l.length → l ≠ [] →
    l.mapM (fun p => importData p.1 p.2) = some bss →
    bss.foldlM (fun (s : PCtx × List Decoded) bs => (decodePseudo T s.1 bs).bind fun r => r.1.map fun d => (r.2, s.2 ++ [d])) (c, []) =
      some ({}, l.map fun p => .importSound p.1 p.2) := by
  have key : ∀ (l : List (Bytes × Int)), (∀ p ∈ l, p.1.length = 4) → ∀ (c : PCtx) (acc : List Decoded) (bss : List Bytes), c.kind = .sound →
      c.amount = l.length → l ≠ [] → l.mapM (fun p => importData p.1 p.2) = some bss →
      bss.foldlM (fun (s : PCtx × List Decoded) bs => (decodePseudo T s.1 bs).bind fun r => r.1.map fun d => (r.2, s.2 ++ [d])) (c, acc) =
        some ({}, acc ++ l.map fun p => .importSound p.1 p.2) := by
    intro l
    induction l with
    | nil => intro _ _ _ _ _ _ h; exact absurd rfl h
    | cons p l ih =>
      intro hl c acc bss hk ha _ hb
      simp only [List.mapM_cons, Option.bind_eq_bind, Option.bind_eq_some_iff, Option.pure_def, Option.some.injEq] at hb
      obtain ⟨b, h1, r, h2, rfl⟩ := hb
      have hd := import_sound_roundtrip_partial T c p.1 p.2 b hk (hl p (by simp)) h1
      simp only [List.foldlM_cons, hd, Option.bind_eq_bind, Option.bind_some, Option.map_some]
      cases hl0 : l with
      | nil =>
        subst hl0
        simp only [List.mapM_nil, Option.pure_def, Option.some.injEq] at h2
        subst h2
        simp only [List.length_cons, List.length_nil] at ha
        have : c.consume = {} := by
          unfold PCtx.consume
          rw [if_neg (by rw [hk]; decide), if_pos (by omega)]
        simp [this]
      | cons q l' =>
        rw [← hl0]
        have hne : l ≠ [] := by rw [hl0]; simp
        have hlen : 1 ≤ l.length := by rw [hl0]; simp
        simp only [List.length_cons] at ha
        have hc : c.consume = { c with amount := c.amount - 1 } := by
          unfold PCtx.consume
          rw [if_neg (by rw [hk]; decide), if_neg (by omega)]
        rw [hc, ih (fun x hx => hl x (by simp [hx])) { c with amount := c.amount - 1 } _ r hk (by simp only; omega) hne h2]
        simp
  intro c bss hk ha hne hb
  simpa using key l hl c [] bss hk ha hne hb

/-- Glyphs given to the constructor are forgotten: every list leads to the same bytes. -/
theorem glyphs_lost (a b : List (Int × Int × Int)) (ha : a.length < 256) (hb : b.length < 256) : glyphsData a = glyphsData b := by
  simp [glyphsData, ha, hb]

example : (NewSprites.mk 4 300 (some 5)).getData = some [5, 0x84, 255, 0x2c, 1, 255, 5, 0] := by decide +kernel
example : modifyData [⟨1, 2, 300⟩, ⟨5, 1, 0⟩] = some [6, 1, 2, 255, 0x2c, 1, 5, 1, 255, 0, 0, 255] := by decide +kernel
example : (If.mk true 0x88 (some 4) 3 (.int 0x01020304) 7).getData = some [9, 0x88, 4, 3, 4, 3, 2, 1, 7] := by decide +kernel
example : (If.mk false 0x88 none 3 (.bytes [1, 2]) 7).getData = some [7, 0x88, 2, 3, 1, 2, 7] := by decide +kernel
example : oldData [(300, 2), (7, 1)] = some [10, 2, 2, 0x2c, 1, 1, 7, 0] := by decide +kernel
example : (Compute.mk 1 3 true 0xff 2 (.int 258)).getData = some [0x0d, 1, 0x83, 255, 2, 2, 1, 0, 0] := by decide +kernel
example : (Lbl.mk 5 [65, 66]).getData = some [16, 5, 65, 66] := by decide +kernel
example : soundsData 300 = some [17, 0x2c, 1] := by decide +kernel
example : importData [1, 2, 3, 4] 300 = some [0xfe, 0, 1, 2, 3, 4, 0x2c, 1] := by decide +kernel

/-! ### C17 -/

/-- **C17** The GRF description: version, a four byte id, a NUL-free name and any description come back. -/
theorem description_roundtrip_partial (T : Nat → List (String × VarData)) (ctx : PCtx) (a : Description) (bs : Bytes)
    (hg : a.grfid.length = 4) (hn : (0 : UInt8) ∉ a.name) (h : a.getData = some bs) :
    decodePseudo T ctx bs = some (some (.description a), ctx.enter) := by
  obtain ⟨v, g, n, d⟩ := a
  simp only at hg hn
  simp only [Description.getData, Option.bind_eq_bind, Option.bind_eq_some_iff, Option.some.injEq] at h
  obtain ⟨hd, hh, rfl⟩ := h
  simp only [cat_cons_iff, cat_nil_iff] at hh
  obtain ⟨a1, h1, _, ⟨a2, h2, _, rfl, rfl⟩, rfl⟩ := hh
  rw [pk' 8 (by decide) h1]
  obtain ⟨x, rfl, hx⟩ := packU_one_some h2
  simp only [List.nil_append, List.cons_append, List.append_assoc]
  rw [dp08]
  have e1 : (x :: (g ++ (n ++ 0 :: (d ++ [0])))).drop 5 = n ++ 0 :: (d ++ [0]) := by simp [← hg]
  have e2 : (g ++ (n ++ 0 :: (d ++ [0]))).take 4 = g := by simp [← hg]
  simp only [decode8, readU_one, Option.bind_eq_bind, Option.bind_some, e1, splitNul_append n hn, List.drop_succ_cons, List.drop_zero, e2,
    List.dropLast_concat, Option.map_some, hx]

/-- A GRF id of another length moves the other fields: the id read back has at most four bytes. -/
theorem decoded_grfid_short (bs : Bytes) (a : Description) (h : decode8 bs = some a) : a.grfid.length ≤ 4 := by
  simp only [decode8, Option.bind_eq_bind, Option.bind_eq_some_iff] at h
  obtain ⟨p, _, h⟩ := h
  split at h <;> simp only [Option.some.injEq] at h <;> rw [← h] <;> simp <;> omega

/-- What is read from a written error: severity and language come back; the message and the rest are read by the reader's rules. -/
theorem decodeB_written (T : Nat → List (String × VarData)) (ctx : PCtx) (e : Err) (bs : Bytes) (hl : e.lang ≤ 0x7f)
    (h : e.getData = some bs) : ∃ m p, e.text = some m ∧ e.tail = some p ∧
    decodePseudo T ctx bs = some (some (.error ⟨e.severity, e.lang, (readMessage e.id (m ++ 0 :: p)).1,
      (readTail (readMessage e.id (m ++ 0 :: p)).2).1, (readTail (readMessage e.id (m ++ 0 :: p)).2).2⟩), ctx.enter) := by
  simp only [Err.getData, Option.bind_eq_bind, Option.bind_eq_some_iff, Option.some.injEq] at h
  obtain ⟨hd, hh, m, hm, p, hp, rfl⟩ := h
  refine ⟨m, p, hm, hp, ?_⟩
  simp only [cat_cons_iff, cat_nil_iff] at hh
  obtain ⟨a1, h1, _, ⟨a2, h2, _, ⟨a3, h3, _, ⟨a4, h4, _, rfl, rfl⟩, rfl⟩, rfl⟩, rfl⟩ := hh
  rw [pk' 0x0b (by decide) h1]
  simp only [List.nil_append, List.cons_append, List.append_assoc]
  rw [dp0b]
  simp only [decodeB, readU_packU h2, readU_packU h3, readU_packU h4, if_neg (Int.not_lt.mpr hl), Option.bind_eq_bind, Option.bind_some,
    Option.map_some]

theorem readTail_written (e : Err) (p : Bytes) (hp : e.tail = some p) (ht : ∀ t, e.textParam = some t → (0 : UInt8) ∉ t) :
    readTail p = (if e.params = [] then e.textParam else some (e.textParam.getD []), e.params) := by
  unfold Err.tail at hp
  split at hp
  · next hc =>
    simp only [Option.bind_eq_bind, Option.bind_eq_some_iff, Option.some.injEq] at hp
    obtain ⟨pb, hpb, rfl⟩ := hp
    have hnul : (0 : UInt8) ∉ e.textParam.getD [] := by
      cases h : e.textParam with
      | none => simp
      | some t => exact ht t h
    have hne : ¬ (e.textParam.getD [] ++ [0] ++ pb = []) := by simp
    unfold readTail
    rw [if_neg hne]
    simp only [List.append_assoc, List.cons_append, List.nil_append, splitNul_append _ hnul, ← bytesOf_some hpb]
    cases h : e.textParam with
    | none =>
      rw [h] at hc
      have : e.params ≠ [] := by simpa using hc
      simp [this]
    | some t => simp
  · next hc =>
    simp only [Option.some.injEq] at hp
    subst hp
    simp only [not_or, Bool.not_eq_true, Option.isSome_eq_false_iff, Option.isNone_iff_eq_none, Decidable.not_not] at hc
    simp [readTail, hc.1, hc.2]

/-- **C17** (part) What does come back of an error with a built-in message (number): severity, language, the parameters and, when there
are no parameters, the text parameter (with parameters a missing one becomes empty). The message number is lost: it becomes an empty
text. -/
theorem builtin_error_fields (T : Nat → List (String × VarData)) (ctx : PCtx) (e : Err) (bs : Bytes) (n : Int)
    (hacc : e.accepted = true) (hm : e.message = .int n) (hn : n ≠ 0xff) (ht : ∀ t, e.textParam = some t → (0 : UInt8) ∉ t)
    (h : e.getData = some bs) :
    decodePseudo T ctx bs = some (some (.error ⟨e.severity, e.lang, .bytes [],
      if e.params = [] then e.textParam else some (e.textParam.getD []), e.params⟩), ctx.enter) := by
  have hl : e.lang ≤ 0x7f := by simp [Err.accepted] at hacc; omega
  obtain ⟨m, p, h1, h2, h3⟩ := decodeB_written T ctx e bs hl h
  have hid : e.id = n := by simp [Err.id, hm]
  have hm' : m = [] := by simpa [Err.text, hm, hn, eq_comm] using h1
  subst hm'
  rw [h3, hid, readMessage, if_neg hn]
  simp only [List.nil_append, splitNul, if_true]
  rw [readTail_written e p h2 ht]

/-- **C17** (part) An error with a text message is read as the message number 0xff with the text as text parameter. -/
theorem text_error_fields (T : Nat → List (String × VarData)) (ctx : PCtx) (e : Err) (bs : Bytes) (b : Bytes)
    (hacc : e.accepted = true) (hm : e.message = .bytes b) (hb : (0 : UInt8) ∉ b) (ht : e.textParam = none) (hp : e.params = [])
    (h : e.getData = some bs) :
    decodePseudo T ctx bs = some (some (.error ⟨e.severity, e.lang, .int 0xff, some b, []⟩), ctx.enter) := by
  have hl : e.lang ≤ 0x7f := by simp [Err.accepted] at hacc; omega
  obtain ⟨m, p, h1, h2, h3⟩ := decodeB_written T ctx e bs hl h
  have hid : e.id = 0xff := by simp [Err.id, hm]
  have hm' : m = b := by simpa [Err.text, hm, eq_comm] using h1
  have hp' : p = [] := by simpa [Err.tail, ht, hp, eq_comm] using h2
  subst hm' hp'
  rw [h3, hid, readMessage, if_pos rfl, readTail, if_neg (by simp)]
  simp [splitNul_append _ hb, intsOf]

/-- Negative result for C17: no error message whatsoever comes back. A numbered message is read as an empty text, and a text as the number
0xff. -/
theorem error_message_never_returns (T : Nat → List (String × VarData)) (ctx : PCtx) (e d : Err) (bs : Bytes) (c : PCtx)
    (hacc : e.accepted = true) (h : e.getData = some bs) (hd : decodePseudo T ctx bs = some (some (.error d), c)) :
    d.message ≠ e.message := by
  have hl : e.lang ≤ 0x7f := by simp [Err.accepted] at hacc; omega
  obtain ⟨m, p, h1, h2, h3⟩ := decodeB_written T ctx e bs hl h
  rw [h3] at hd
  simp only [Option.some.injEq, Prod.mk.injEq, Decoded.error.injEq] at hd
  rw [← hd.1]
  simp only
  cases hm : e.message with
  | int n =>
    simp only [Err.text, hm] at h1
    split at h1
    · simp at h1
    · next hn =>
      simp only [Option.some.injEq] at h1
      subst h1
      simp [Err.id, hm, readMessage, hn, splitNul]
  | bytes b => simp [Err.id, hm, readMessage]

example : (Description.mk 8 [65, 66, 67, 68] [78] [68, 0, 69]).getData = some [8, 8, 65, 66, 67, 68, 78, 0, 68, 0, 69, 0] := by decide +kernel
example : (Err.mk 1 0x7f (.int 3) (some [65]) [7]).getData = some [11, 1, 0x7f, 3, 0, 65, 0, 7] := by decide +kernel
example : (Err.mk 1 0x7f (.bytes [72, 105]) none []).getData = some [11, 1, 0x7f, 255, 72, 105, 0] := by decide +kernel
example : decodeB [1, 0x7f, 255, 72, 105, 0] = some (Err.mk 1 0x7f (.int 255) (some [72, 105]) []) := by decide +kernel

end Grf.Acts
