import Verif.Model.SpriteData
/-!
# C46: compressed and chunked sprites decode as the format says
-/
namespace Grf.SpriteData

/-! ### Specification of the compression -/

/-- A command of a compressed stream: bytes to output, or a number of bytes to repeat from an offset back in the output. -/
inductive Cmd where
  | literal (bs : Bytes)
  | back (offset size : Nat)
deriving DecidableEq, Repr

/-- The number of bytes a command outputs. -/
def Cmd.size : Cmd → Nat
  | .literal bs => bs.length
  | .back _ size => size

/-- The commands the format has codes for. -/
def Cmd.ok : Cmd → Prop
  | .literal bs => 1 ≤ bs.length ∧ bs.length ≤ 128
  | .back offset size => offset < 2048 ∧ 1 ≤ size ∧ size ≤ 16

/-- How commands are written: a length byte (0 for 128) and the bytes; or the size, negated, in the upper five bits of a byte, followed by
the offset in eleven bits. -/
def Cmd.encode : Cmd → Bytes
  | .literal bs => UInt8.ofNat (bs.length % 128) :: bs
  | .back offset size => [UInt8.ofNat (256 - 8 * size + offset / 256), UInt8.ofNat (offset % 256)]

/-- Repeating bytes one by one, so that a repetition may include what it outputs itself. -/
def copyBack (offset : Nat) : Nat → Bytes → Option Bytes
  | 0, out => some out
  | n + 1, out =>
    if offset = 0 ∨ out.length < offset then none
    else (out[out.length - offset]?).bind fun b => copyBack offset n (out ++ [b])

/-- What a command adds to the output. -/
def Cmd.run (out : Bytes) : Cmd → Option Bytes
  | .literal bs => some (out ++ bs)
  | .back offset size => copyBack offset size out

/-- The output of a stream of commands. -/
def expand : List Cmd → Bytes → Option Bytes
  | [], out => some out
  | c :: cs, out => (c.run out).bind (expand cs)

/-- A command that does not repeat its own output, nor from before the start. -/
def Cmd.direct (n : Nat) : Cmd → Bool
  | .literal _ => true
  | .back offset size => size ≤ offset ∧ offset ≤ n

/-- No command of the stream repeats its own output. -/
def direct : Nat → List Cmd → Bool
  | _, [] => true
  | n, c :: cs => c.direct n && direct (n + c.size) cs

def sizes (cs : List Cmd) : Nat := (cs.map Cmd.size).sum

def encodeAll (cs : List Cmd) : Bytes := cs.flatMap Cmd.encode

/-- No repetition has offset 0, which has no meaning in the format. -/
def NoZero (cs : List Cmd) : Prop := ∀ c ∈ cs, ∀ size, c ≠ .back 0 size

/-! ### Codes -/

theorem toNat_ofNat {n : Nat} (h : n < 256) : (UInt8.ofNat n).toNat = n := by
  rw [UInt8.toNat_ofNat']; omega

theorem literal_code {n : Nat} (h1 : 1 ≤ n) (h2 : n ≤ 128) : (UInt8.ofNat (n % 128)).toNat < 128 ∧ literalSize (UInt8.ofNat (n % 128)) = n := by
  have h : n % 128 < 256 := by omega
  refine ⟨by rw [toNat_ofNat h]; omega, ?_⟩
  unfold literalSize
  rw [toNat_ofNat h]
  split <;> omega

theorem back_code {offset size : Nat} (h : offset < 2048) (h1 : 1 ≤ size) (h2 : size ≤ 16) :
    128 ≤ (UInt8.ofNat (256 - 8 * size + offset / 256)).toNat ∧ backSize (UInt8.ofNat (256 - 8 * size + offset / 256)) = size ∧
    backOffset (UInt8.ofNat (256 - 8 * size + offset / 256)) (UInt8.ofNat (offset % 256)) = offset := by
  have hlt : 256 - 8 * size + offset / 256 < 256 := by omega
  refine ⟨by rw [toNat_ofNat hlt]; omega, ?_, ?_⟩
  · unfold backSize; rw [toNat_ofNat hlt]; omega
  · unfold backOffset
    rw [toNat_ofNat hlt, toNat_ofNat (by omega)]
    have : (256 - 8 * size + offset / 256) % 8 = offset / 256 := by omega
    rw [this, ← Nat.shiftLeft_add_eq_or_of_lt (by omega : offset % 256 < 2 ^ 8), Nat.shiftLeft_eq]
    omega

theorem back_code_inv (code next : UInt8) (h : 128 ≤ code.toNat) :
    (Cmd.back (backOffset code next) (backSize code)).ok ∧ (Cmd.back (backOffset code next) (backSize code)).encode = [code, next] := by
  have hc := code.toNat_lt
  have hn := next.toNat_lt
  have e : backOffset code next = (code.toNat % 8) * 256 + next.toNat := by
    unfold backOffset
    rw [← Nat.shiftLeft_add_eq_or_of_lt (by omega : next.toNat < 2 ^ 8), Nat.shiftLeft_eq]
  have es : backSize code = 32 - code.toNat / 8 := by unfold backSize; omega
  refine ⟨⟨by omega, by omega, by omega⟩, ?_⟩
  simp only [Cmd.encode]
  rw [e, es]
  have e1 : 256 - 8 * (32 - code.toNat / 8) + (code.toNat % 8 * 256 + next.toNat) / 256 = code.toNat := by omega
  have e2 : (code.toNat % 8 * 256 + next.toNat) % 256 = next.toNat := by omega
  rw [e1, e2, UInt8.ofNat_toNat, UInt8.ofNat_toNat]

theorem literal_code_inv (code : UInt8) (h : code.toNat < 128) (bs : Bytes) (hl : bs.length = literalSize code) :
    (Cmd.literal bs).ok ∧ (Cmd.literal bs).encode = code :: bs := by
  unfold literalSize at hl
  refine ⟨?_, ?_⟩
  · unfold Cmd.ok; split at hl <;> omega
  · simp only [Cmd.encode]
    have : bs.length % 128 = code.toNat := by split at hl <;> omega
    rw [this, UInt8.ofNat_toNat]

/-! ### Back references -/

theorem copyBack_direct (offset : Nat) (h0 : 0 < offset) : ∀ (n : Nat) (out : Bytes), offset ≤ out.length → n ≤ offset →
    copyBack offset n out = some (out ++ (out.drop (out.length - offset)).take n) := by
  intro n
  induction n with
  | zero => intro out _ _; simp [copyBack]
  | succ n ih =>
    intro out hle hn
    have hcond : ¬ (offset = 0 ∨ out.length < offset) := by omega
    have hlt : out.length - offset < out.length := by omega
    rw [copyBack, if_neg hcond, List.getElem?_eq_getElem hlt, Option.bind_some, ih _ (by simp; omega) (by omega)]
    congr 1
    rw [List.append_assoc]
    congr 1
    rw [List.length_append, List.length_singleton, List.drop_eq_getElem_cons hlt, List.take_succ_cons, List.singleton_append]
    congr 1
    have e : out.length + 1 - offset = out.length - offset + 1 := by omega
    rw [e, List.drop_append_of_le_length (by omega), List.take_append_of_le_length]
    simp; omega

theorem copyBack_length (offset : Nat) : ∀ (n : Nat) (out d : Bytes), copyBack offset n out = some d → d.length = out.length + n := by
  intro n
  induction n with
  | zero => intro out d h; simp only [copyBack, Option.some.injEq] at h; subst h; rfl
  | succ n ih =>
    intro out d h
    rw [copyBack] at h
    split at h
    · cases h
    · simp only [Option.bind_eq_some_iff] at h
      obtain ⟨b, _, h⟩ := h
      rw [ih _ _ h]; simp; omega

theorem backRef_direct (data : Bytes) (size offset : Nat) (h0 : 0 < size) (h1 : size ≤ offset) (h2 : offset ≤ data.length) :
    backRef data size offset = (data.drop (data.length - offset)).take size := by
  unfold backRef
  split
  · next h =>
    subst h
    have e : pyIndex data.length (-(size : Int)) = data.length - size := by unfold pyIndex; rw [if_pos (by omega)]; omega
    rw [e, List.take_of_length_le]
    simp; omega
  · next h =>
    unfold pySlice
    have e1 : pyIndex data.length (-(offset : Int)) = data.length - offset := by unfold pyIndex; rw [if_pos (by omega)]; omega
    have e2 : pyIndex data.length ((size : Int) - offset) = data.length - offset + size := by unfold pyIndex; rw [if_pos (by omega)]; omega
    rw [e1, e2, List.drop_take]
    congr 1
    omega

/-- A repetition of its own output, or from before the start, gives fewer bytes than its size. -/
theorem backRef_short (data : Bytes) (size offset : Nat) (h0 : 0 < size) (ho : 0 < offset) (h : ¬ (size ≤ offset ∧ offset ≤ data.length)) :
    (backRef data size offset).length < size := by
  unfold backRef
  split
  · next he =>
    subst he
    have e : pyIndex data.length (-(size : Int)) = data.length - size := by unfold pyIndex; rw [if_pos (by omega)]; omega
    rw [e, List.length_drop]; omega
  · next he =>
    unfold pySlice
    rw [List.length_drop, List.length_take]
    have e1 : pyIndex data.length (-(offset : Int)) = data.length - offset := by unfold pyIndex; rw [if_pos (by omega)]; omega
    rw [e1]
    by_cases hlt : size < offset
    · have e2 : pyIndex data.length ((size : Int) - offset) = data.length + size - offset := by unfold pyIndex; rw [if_pos (by omega)]; omega
      rw [e2]; omega
    · have e2 : pyIndex data.length ((size : Int) - offset) = min (size - offset) data.length := by
        unfold pyIndex; rw [if_neg (by omega)]; omega
      rw [e2]; omega

theorem backRef_le (data : Bytes) (size offset : Nat) (h0 : 0 < size) : (backRef data size offset).length ≤ size := by
  by_cases ho : offset = 0
  · subst ho
    unfold backRef
    rw [if_neg (by omega)]
    unfold pySlice
    rw [List.length_drop, List.length_take]
    have e2 : pyIndex data.length ((size : Int) - (0 : Nat)) = min size data.length := by unfold pyIndex; rw [if_neg (by omega)]; omega
    rw [e2]; omega
  · by_cases h : size ≤ offset ∧ offset ≤ data.length
    · rw [backRef_direct data size offset h0 h.1 h.2]; simp; omega
    · exact Nat.le_of_lt (backRef_short data size offset h0 (by omega) h)

/-! ### The loop -/

theorem step_literal (fuel num : Nat) (data bs r : Bytes) (h1 : 1 ≤ bs.length) (h2 : bs.length ≤ 128) (hn : bs.length ≤ num + 1) :
    decompressLoop (fuel + 1) (num + 1) data ((Cmd.literal bs).encode ++ r) = decompressLoop fuel (num + 1 - bs.length) (data ++ bs) r := by
  obtain ⟨e1, e2⟩ := literal_code h1 h2
  simp only [Cmd.encode, List.cons_append, decompressLoop]
  rw [if_pos e1, e2, if_neg (by omega), List.take_left, List.drop_left]

theorem step_back (fuel num : Nat) (data r : Bytes) (offset size : Nat) (h : offset < 2048) (h1 : 1 ≤ size) (h2 : size ≤ 16) (hn : size ≤ num + 1) :
    decompressLoop (fuel + 1) (num + 1) data ((Cmd.back offset size).encode ++ r) =
      decompressLoop fuel (num + 1 - size) (data ++ backRef data size offset) r := by
  obtain ⟨e1, e2, e3⟩ := back_code h h1 h2
  simp only [Cmd.encode, List.cons_append, List.nil_append, decompressLoop]
  rw [if_neg (by omega), e2, e3, if_neg (by omega)]

theorem ok_size {c : Cmd} (h : c.ok) : 1 ≤ c.size := by
  cases c with
  | literal bs => exact h.1
  | back o s => exact h.2.1

theorem sizes_cons (c : Cmd) (cs : List Cmd) : sizes (c :: cs) = c.size + sizes cs := by simp [sizes]

theorem encodeAll_cons (c : Cmd) (cs : List Cmd) : encodeAll (c :: cs) = c.encode ++ encodeAll cs := by simp [encodeAll]

/-- A stream of commands is decoded to its output when no command repeats its own output. -/
theorem loop_direct : ∀ (cs : List Cmd) (fuel : Nat) (data r : Bytes), (∀ c ∈ cs, c.ok) → direct data.length cs = true → sizes cs ≤ fuel →
    ∃ d, expand cs data = some d ∧ decompressLoop fuel (sizes cs) data (encodeAll cs ++ r) = some (d, r) := by
  intro cs
  induction cs with
  | nil => intro fuel data r _ _ _; exact ⟨data, rfl, by cases fuel <;> simp [sizes, encodeAll, decompressLoop]⟩
  | cons c cs ih =>
    intro fuel data r hok hd hf
    have hc := hok c List.mem_cons_self
    have hs := ok_size hc
    simp only [direct, Bool.and_eq_true] at hd
    rw [sizes_cons] at hf ⊢
    obtain ⟨fuel, rfl⟩ : ∃ k, fuel = k + 1 := ⟨fuel - 1, by omega⟩
    obtain ⟨num, hnum⟩ : ∃ k, c.size + sizes cs = k + 1 := ⟨c.size + sizes cs - 1, by omega⟩
    rw [encodeAll_cons, List.append_assoc, hnum]
    cases c with
    | literal bs =>
      simp only [Cmd.size] at *
      rw [step_literal fuel num data bs _ hc.1 hc.2 (by omega)]
      have e : num + 1 - bs.length = sizes cs := by omega
      rw [e]
      obtain ⟨d, h1, h2⟩ := ih fuel (data ++ bs) r (fun c h => hok c (List.mem_cons_of_mem _ h)) (by rw [List.length_append]; exact hd.2) (by omega)
      exact ⟨d, by simp only [expand, Cmd.run, Option.bind_some]; exact h1, h2⟩
    | back offset size =>
      simp only [Cmd.size, Cmd.direct, decide_eq_true_eq] at *
      rw [step_back fuel num data _ offset size hc.1 hc.2.1 hc.2.2 (by omega)]
      have e : num + 1 - size = sizes cs := by omega
      rw [e, backRef_direct data size offset (by omega) hd.1.1 hd.1.2]
      have hcb := copyBack_direct offset (by omega) size data hd.1.2 hd.1.1
      have hlen := copyBack_length _ _ _ _ hcb
      obtain ⟨d, h1, h2⟩ := ih fuel _ r (fun c h => hok c (List.mem_cons_of_mem _ h)) (by rw [hlen]; exact hd.2) (by omega)
      exact ⟨d, by simp only [expand, Cmd.run, hcb, Option.bind_some]; exact h1, h2⟩

/-- Decoding gives at most the declared number of bytes. -/
theorem loop_length : ∀ (fuel num : Nat) (data f d r : Bytes), decompressLoop fuel num data f = some (d, r) → d.length ≤ data.length + num := by
  intro fuel
  induction fuel with
  | zero =>
    intro num data f d r h
    cases num with
    | zero => simp only [decompressLoop, Option.some.injEq, Prod.mk.injEq] at h; rw [h.1]; omega
    | succ n => simp [decompressLoop] at h
  | succ fuel ih =>
    intro num data f d r h
    cases num with
    | zero => simp only [decompressLoop, Option.some.injEq, Prod.mk.injEq] at h; rw [h.1]; omega
    | succ num =>
      rw [decompressLoop.eq_def] at h
      simp only at h
      split at h
      · cases h
      · next code f =>
        split at h
        · split at h
          · cases h
          · have := ih _ _ _ _ _ h
            simp only [List.length_append, List.length_take] at this
            omega
        · split at h
          · cases h
          · next next f =>
            split at h
            · cases h
            · next hc _ _ =>
              have := ih _ _ _ _ _ h
              have h0 : 0 < backSize code := by
                have := code.toNat_lt
                unfold backSize; omega
              have hle := backRef_le data (backSize code) (backOffset code next) h0
              simp only [List.length_append] at this
              omega

/-- Whatever is decoded to the declared number of bytes is the output of the commands in the file. -/
theorem loop_sound : ∀ (fuel num : Nat) (data f d r : Bytes), decompressLoop fuel num data f = some (d, r) → d.length = data.length + num →
    ∃ cs, (∀ c ∈ cs, c.ok) ∧ f = encodeAll cs ++ r ∧ sizes cs = num ∧ (NoZero cs → direct data.length cs = true ∧ expand cs data = some d) := by
  intro fuel
  induction fuel with
  | zero =>
    intro num data f d r h hl
    cases num with
    | zero =>
      simp only [decompressLoop, Option.some.injEq, Prod.mk.injEq] at h
      obtain ⟨rfl, rfl⟩ := h
      exact ⟨[], by simp, rfl, rfl, fun _ => ⟨rfl, rfl⟩⟩
    | succ n => simp [decompressLoop] at h
  | succ fuel ih =>
    intro num data f d r h hl
    cases num with
    | zero =>
      simp only [decompressLoop, Option.some.injEq, Prod.mk.injEq] at h
      obtain ⟨rfl, rfl⟩ := h
      exact ⟨[], by simp, rfl, rfl, fun _ => ⟨rfl, rfl⟩⟩
    | succ num =>
      rw [decompressLoop.eq_def] at h
      simp only at h
      split at h
      · cases h
      · next code f =>
        split at h
        · next hlit =>
          split at h
          · cases h
          · next hnum =>
            have hlen := loop_length _ _ _ _ _ _ h
            simp only [List.length_append, List.length_take] at hlen
            have htk : (f.take (literalSize code)).length = literalSize code := by rw [List.length_take]; omega
            obtain ⟨ok, enc⟩ := literal_code_inv code hlit _ htk
            obtain ⟨cs, h1, h2, h3, h4⟩ := ih _ _ _ _ _ h (by rw [List.length_append, htk]; omega)
            refine ⟨.literal (f.take (literalSize code)) :: cs, ?_, ?_, ?_, ?_⟩
            · intro c hc
              rcases List.mem_cons.mp hc with rfl | hc
              · exact ok
              · exact h1 c hc
            · rw [encodeAll_cons, enc, List.append_assoc, ← h2, List.cons_append, List.take_append_drop]
            · rw [sizes_cons, h3]; simp only [Cmd.size]; omega
            · intro hz
              obtain ⟨i1, i2⟩ := h4 (fun c hc => hz c (List.mem_cons_of_mem _ hc))
              refine ⟨?_, ?_⟩
              · simp only [direct, Cmd.direct, Bool.true_and, Cmd.size]
                rw [← i1, List.length_append]
              · simp only [expand, Cmd.run, Option.bind_some]; exact i2
        · next hlit =>
          split at h
          · cases h
          · next next f =>
            split at h
            · cases h
            · next hnum =>
              have hlen := loop_length _ _ _ _ _ _ h
              obtain ⟨ok, enc⟩ := back_code_inv code next (by omega)
              have h0 : 0 < backSize code := ok.2.1
              have hle := backRef_le data (backSize code) (backOffset code next) h0
              simp only [List.length_append] at hlen
              have hex : (backRef data (backSize code) (backOffset code next)).length = backSize code := by omega
              obtain ⟨cs, h1, h2, h3, h4⟩ := ih _ _ _ _ _ h (by rw [List.length_append]; omega)
              refine ⟨.back (backOffset code next) (backSize code) :: cs, ?_, ?_, ?_, ?_⟩
              · intro c hc
                rcases List.mem_cons.mp hc with rfl | hc
                · exact ok
                · exact h1 c hc
              · rw [encodeAll_cons, enc, List.append_assoc, ← h2]; rfl
              · rw [sizes_cons, h3]; simp only [Cmd.size]; omega
              · intro hz
                obtain ⟨i1, i2⟩ := h4 (fun c hc => hz c (List.mem_cons_of_mem _ hc))
                have ho : 0 < backOffset code next := by
                  apply Nat.pos_of_ne_zero
                  intro h0'
                  exact hz _ List.mem_cons_self (backSize code) (by rw [h0'])
                have hdir : backSize code ≤ backOffset code next ∧ backOffset code next ≤ data.length := by
                  apply Classical.byContradiction
                  intro hno
                  have := backRef_short data _ _ h0 ho hno
                  omega
                have hcb := copyBack_direct (backOffset code next) ho (backSize code) data hdir.2 hdir.1
                rw [backRef_direct data _ _ h0 hdir.1 hdir.2] at i1 i2
                refine ⟨?_, ?_⟩
                · simp only [direct, Cmd.direct, Bool.and_eq_true, decide_eq_true_eq, Cmd.size]
                  refine ⟨hdir, ?_⟩
                  rw [← i1]
                  congr 1
                  rw [List.length_append, List.length_take, List.length_drop]; omega
                · simp only [expand, Cmd.run, hcb, Option.bind_some]; exact i2

/-! ### Streams determine their commands -/

theorem encode_inj {c c' : Cmd} {r r' : Bytes} (h : c.ok) (h' : c'.ok) (e : c.encode ++ r = c'.encode ++ r') : c = c' ∧ r = r' := by
  cases c with
  | literal bs =>
    obtain ⟨a1, a2⟩ := literal_code h.1 h.2
    cases c' with
    | literal bs' =>
      obtain ⟨b1, b2⟩ := literal_code h'.1 h'.2
      simp only [Cmd.encode, List.cons_append, List.cons.injEq] at e
      rw [e.1, b2] at a2
      obtain ⟨rfl, rfl⟩ := List.append_inj e.2 a2.symm
      exact ⟨rfl, rfl⟩
    | back o s =>
      obtain ⟨b1, _⟩ := back_code h'.1 h'.2.1 h'.2.2
      simp only [Cmd.encode, List.cons_append, List.cons.injEq] at e
      rw [e.1] at a1; omega
  | back o s =>
    obtain ⟨a1, a2, a3⟩ := back_code h.1 h.2.1 h.2.2
    cases c' with
    | literal bs' =>
      obtain ⟨b1, b2⟩ := literal_code h'.1 h'.2
      simp only [Cmd.encode, List.cons_append, List.cons.injEq] at e
      rw [e.1] at a1; omega
    | back o' s' =>
      obtain ⟨b1, b2, b3⟩ := back_code h'.1 h'.2.1 h'.2.2
      simp only [Cmd.encode, List.cons_append, List.cons.injEq, List.nil_append] at e
      obtain ⟨e1, e2, e3⟩ := e
      rw [e1, b2] at a2
      rw [e1, e2, b3] at a3
      subst a2; subst a3
      exact ⟨rfl, e3⟩

theorem encodeAll_inj : ∀ (cs cs' : List Cmd) (r r' : Bytes), (∀ c ∈ cs, c.ok) → (∀ c ∈ cs', c.ok) → sizes cs = sizes cs' →
    encodeAll cs ++ r = encodeAll cs' ++ r' → cs = cs' ∧ r = r' := by
  intro cs
  induction cs with
  | nil =>
    intro cs' r r' _ h' hs e
    cases cs' with
    | nil => exact ⟨rfl, e⟩
    | cons c cs' =>
      have := ok_size (h' c List.mem_cons_self)
      rw [sizes_cons] at hs; simp [sizes] at hs; omega
  | cons c cs ih =>
    intro cs' r r' h h' hs e
    cases cs' with
    | nil =>
      have := ok_size (h c List.mem_cons_self)
      rw [sizes_cons] at hs; simp [sizes] at hs; omega
    | cons c' cs' =>
      rw [encodeAll_cons, encodeAll_cons, List.append_assoc, List.append_assoc] at e
      obtain ⟨rfl, e'⟩ := encode_inj (h c List.mem_cons_self) (h' c' List.mem_cons_self) e
      rw [sizes_cons, sizes_cons] at hs
      obtain ⟨rfl, rfl⟩ := ih cs' r r' (fun c hc => h c (List.mem_cons_of_mem _ hc)) (fun c hc => h' c (List.mem_cons_of_mem _ hc)) (by omega) e'
      exact ⟨rfl, rfl⟩

/-! ### Sprites without chunks -/

/-- A plain sprite is decoded to the output of its commands if none repeats its own output, and refused otherwise. Repetitions of
offset 0 are excluded, see `zero_offset_accepted`. -/
theorem plain_exact_partial (s : Info) (container : Nat) (cs : List Cmd) (rest : Bytes) (hp : s.type / 8 % 2 = 0)
    (hd : s.decompSize = s.width * s.height * s.bpp) (hok : ∀ c ∈ cs, c.ok) (hs : sizes cs = s.decompSize) (hz : NoZero cs) :
    decodeSprite s container (encodeAll cs ++ rest) =
      if direct 0 cs then (expand cs []).map fun d => (reshape s.height s.width s.bpp d, rest) else none := by
  have hp' : ¬ s.type / 8 % 2 = 1 := by omega
  by_cases hdir : direct 0 cs = true
  · obtain ⟨d, h1, h2⟩ := loop_direct cs (sizes cs) [] rest hok hdir (Nat.le_refl _)
    rw [if_pos hdir, h1]
    unfold decodeSprite decompress
    rw [← hs, h2]
    simp only [Option.bind_eq_bind, Option.bind_some, if_neg hp', Option.map_some]
    have hlen : d.length = s.width * s.height * s.bpp := by
      have : ∀ (cs : List Cmd) (out d : Bytes), expand cs out = some d → d.length = out.length + sizes cs := by
        intro cs
        induction cs with
        | nil => intro out d h; simp only [expand, Option.some.injEq] at h; subst h; simp [sizes]
        | cons c cs ih =>
          intro out d h
          simp only [expand, Option.bind_eq_some_iff] at h
          obtain ⟨o, h1, h2⟩ := h
          rw [ih _ _ h2, sizes_cons]
          cases c with
          | literal bs => simp only [Cmd.run, Option.some.injEq] at h1; subst h1; simp [Cmd.size]; omega
          | back a b => simp only [Cmd.run] at h1; rw [copyBack_length _ _ _ _ h1]; simp [Cmd.size]; omega
      rw [this _ _ _ h1, hs, hd]; simp
    rw [if_pos hlen]
  · rw [if_neg hdir]
    cases h : decodeSprite s container (encodeAll cs ++ rest) with
    | none => rfl
    | some a =>
      exfalso
      unfold decodeSprite at h
      simp only [Option.bind_eq_bind, Option.bind_eq_some_iff] at h
      obtain ⟨⟨d, r⟩, h1, h2⟩ := h
      simp only [if_neg hp'] at h2
      split at h2
      · next hlen =>
        obtain ⟨cs', a1, a2, a3, a4⟩ := loop_sound _ _ _ _ _ _ h1 (by rw [hlen, hd]; simp)
        obtain ⟨rfl, _⟩ := encodeAll_inj cs cs' _ _ hok a1 (hs.trans a3.symm) a2
        exact hdir (a4 hz).1
      · cases h2

/-- Whatever a plain sprite is decoded to is the output of the commands in the file, and has the declared size. -/
theorem plain_sound (s : Info) (container : Nat) (f rest : Bytes) (a : List (List Bytes)) (hp : s.type / 8 % 2 = 0)
    (hd : s.decompSize = s.width * s.height * s.bpp) (h : decodeSprite s container f = some (a, rest)) :
    ∃ cs, (∀ c ∈ cs, c.ok) ∧ f = encodeAll cs ++ rest ∧ sizes cs = s.width * s.height * s.bpp ∧
      (NoZero cs → ∃ d, expand cs [] = some d ∧ a = reshape s.height s.width s.bpp d) := by
  have hp' : ¬ s.type / 8 % 2 = 1 := by omega
  unfold decodeSprite at h
  simp only [Option.bind_eq_bind, Option.bind_eq_some_iff] at h
  obtain ⟨⟨d, r⟩, h1, h2⟩ := h
  simp only [if_neg hp'] at h2
  split at h2
  · next hlen =>
    simp only [Option.some.injEq, Prod.mk.injEq] at h2
    obtain ⟨rfl, rfl⟩ := h2
    obtain ⟨cs, a1, a2, a3, a4⟩ := loop_sound _ _ _ _ _ _ h1 (by rw [hlen, hd]; simp)
    exact ⟨cs, a1, a2, by rw [a3, hd], fun hz => ⟨d, (a4 hz).2, rfl⟩⟩
  · cases h2

theorem rows_length {α : Type} (k : Nat) : ∀ (n : Nat) (l : List α), (rows k n l).length = n := by
  intro n
  induction n with
  | zero => intro l; rfl
  | succ n ih => intro l; simp [rows, ih]

theorem rows_item {α : Type} (k : Nat) : ∀ (n : Nat) (l : List α), l.length = n * k → ∀ r ∈ rows k n l, r.length = k := by
  intro n
  induction n with
  | zero => intro l _ r hr; simp [rows] at hr
  | succ n ih =>
    intro l hl r hr
    rw [Nat.succ_mul] at hl
    simp only [rows, List.mem_cons] at hr
    rcases hr with rfl | hr
    · rw [List.length_take]; omega
    · exact ih _ (by rw [List.length_drop]; omega) r hr

theorem rows_flatten {α : Type} (k : Nat) : ∀ (n : Nat) (l : List α), l.length = n * k → (rows k n l).flatten = l := by
  intro n
  induction n with
  | zero => intro l hl; simp only [Nat.zero_mul, List.length_eq_zero_iff] at hl; subst hl; rfl
  | succ n ih =>
    intro l hl
    rw [Nat.succ_mul] at hl
    simp only [rows, List.flatten_cons]
    rw [ih _ (by rw [List.length_drop]; omega), List.take_append_drop]

/-- The pixels of a picture are the decoded bytes in order, in rows and pixels of the declared size. -/
theorem reshape_exact (h w bpp : Nat) (d : Bytes) (hd : d.length = w * h * bpp) :
    (reshape h w bpp d).flatten.flatten = d ∧ (reshape h w bpp d).length = h ∧ (∀ row ∈ reshape h w bpp d, row.length = w ∧ ∀ p ∈ row, p.length = bpp) := by
  have e : d.length = h * (w * bpp) := by rw [hd, Nat.mul_comm w h, Nat.mul_assoc]
  have hi := rows_item (w * bpp) h d e
  refine ⟨?_, by rw [reshape, List.length_map, rows_length], ?_⟩
  · have : ∀ l : List Bytes, (∀ r ∈ l, r.length = w * bpp) → (l.map (rows bpp w)).flatten.flatten = l.flatten := by
      intro l
      induction l with
      | nil => intro _; rfl
      | cons r l ih =>
        intro hr
        rw [List.map_cons, List.flatten_cons, List.flatten_append, ih (fun x hx => hr x (List.mem_cons_of_mem _ hx)), List.flatten_cons,
          rows_flatten _ _ _ (hr r List.mem_cons_self)]
    rw [reshape, this _ hi, rows_flatten _ _ _ e]
  · intro row hrow
    obtain ⟨r, hr, rfl⟩ := List.mem_map.mp hrow
    exact ⟨rows_length _ _ _, rows_item _ _ _ (hi r hr)⟩

/-- A repetition of its own output (here of the last byte, the usual way to write a run) makes the decoding fail. -/
theorem overlap_refused : direct 0 [.literal [7], .back 1 3] = false ∧ expand [.literal [7], .back 1 3] [] = some [7, 7, 7, 7] ∧
    decodeSprite ⟨4, 2, 2, 4⟩ 2 (encodeAll [.literal [7], .back 1 3]) = none := by decide +kernel

/-- A repetition of offset 0 is accepted and repeats the start of the output. -/
theorem zero_offset_accepted : expand [.literal [7, 8], .back 0 2] [] = none ∧
    decodeSprite ⟨4, 2, 2, 4⟩ 2 (encodeAll [.literal [7, 8], .back 0 2]) = some ([[[7], [8]], [[7], [8]]], []) := by decide +kernel

example : decodeSprite ⟨12, 4, 3, 4⟩ 2 (encodeAll [.literal [1, 2, 3, 4, 5], .back 4 3, .back 8 4] ++ [99]) =
    some ([[[1], [2], [3], [4]], [[5], [2], [3], [4]], [[1], [2], [3], [4]]], [99]) := by decide +kernel

/-- In chunked sprites, whose decompressed data is not checked, a repetition of its own output is lost without an error. -/
theorem chunked_overlap_lost :
    expand [.literal [2, 0, 0x84], .back 1 2, .literal [9, 9]] [] = some [2, 0, 0x84, 0x84, 0x84, 9, 9] ∧
    (decompress 7 (encodeAll [.literal [2, 0, 0x84], .back 1 2, .literal [9, 9]])) = some ([2, 0, 0x84, 9, 9], []) := by decide +kernel

/-! ### Chunked sprites -/

/-- A chunk of a line: pixels from a position on. -/
structure Chunk where
  skip : Nat
  pixels : List Bytes

/-- The pixel of a line at a position: that of the last chunk that covers it, transparent (zero) if none does. -/
def pixelAt (bpp : Nat) (cs : List Chunk) (x : Nat) : Bytes :=
  cs.foldl (fun p c => if c.skip ≤ x ∧ x < c.skip + c.pixels.length then c.pixels.getD (x - c.skip) [] else p) (List.replicate bpp 0)

/-- A line. -/
def line (w bpp : Nat) (cs : List Chunk) : List Bytes := (List.range w).map (pixelAt bpp cs)

/-- How a chunk is written: its length with the mark of the last chunk of the line, the pixels to skip, in one or two bytes each, and the
pixels. -/
def encodeChunk (long final : Bool) (c : Chunk) : Bytes :=
  (if long then [UInt8.ofNat (c.pixels.length % 256), UInt8.ofNat (c.pixels.length / 256 + if final then 128 else 0),
      UInt8.ofNat (c.skip % 256), UInt8.ofNat (c.skip / 256)]
    else [UInt8.ofNat (c.pixels.length + if final then 128 else 0), UInt8.ofNat c.skip]) ++ c.pixels.flatten

/-- A line has at least one chunk; the last is marked. -/
def encodeLine (long : Bool) : List Chunk → Bytes
  | [] => []
  | [c] => encodeChunk long true c
  | c :: cs => encodeChunk long false c ++ encodeLine long cs

/-- The chunk is inside of the line and its length and position have a code. -/
def Chunk.fits (long : Bool) (w bpp : Nat) (c : Chunk) : Prop :=
  c.skip + c.pixels.length ≤ w ∧ c.pixels.length < (if long then 32768 else 128) ∧ c.skip < (if long then 65536 else 256) ∧ ∀ p ∈ c.pixels, p.length = bpp

theorem chunkHeader_encode (long final : Bool) (c : Chunk) (w bpp : Nat) (h : c.fits long w bpp) (r : Bytes) :
    chunkHeader long (encodeChunk long final c ++ r) = some (final, c.pixels.length, c.skip, c.pixels.flatten ++ r) := by
  obtain ⟨_, h1, h2, _⟩ := h
  cases long with
  | true =>
    simp only [if_true] at h1 h2
    have hf : (if final then 128 else 0 : Nat) = if final = true then 128 else 0 := rfl
    simp only [encodeChunk, if_true, List.cons_append, List.nil_append, chunkHeader]
    have l1 : c.pixels.length / 256 + (if final then 128 else 0 : Nat) < 256 := by split <;> omega
    rw [toNat_ofNat l1, toNat_ofNat (by omega), toNat_ofNat (by omega), toNat_ofNat (by omega)]
    congr 1
    refine Prod.ext ?_ (Prod.ext ?_ (Prod.ext ?_ rfl))
    · cases final
      · simp; omega
      · simp
    · simp only
      have : (c.pixels.length / 256 + (if final then 128 else 0 : Nat)) % 128 = c.pixels.length / 256 := by split <;> omega
      rw [this, ← Nat.shiftLeft_add_eq_or_of_lt (by omega : c.pixels.length % 256 < 2 ^ 8), Nat.shiftLeft_eq]
      omega
    · simp only
      rw [← Nat.shiftLeft_add_eq_or_of_lt (by omega : c.skip % 256 < 2 ^ 8), Nat.shiftLeft_eq]
      omega
  | false =>
    simp only [Bool.false_eq_true, if_false] at h1 h2
    simp only [encodeChunk, Bool.false_eq_true, if_false, List.cons_append, List.nil_append, chunkHeader]
    have l1 : c.pixels.length + (if final then 128 else 0 : Nat) < 256 := by split <;> omega
    rw [toNat_ofNat l1, toNat_ofNat (by omega)]
    congr 1
    refine Prod.ext ?_ (Prod.ext ?_ rfl)
    · cases final
      · simp; omega
      · simp
    · simp only; split <;> omega

theorem rows_of_flatten (bpp : Nat) : ∀ (ps : List Bytes) (r : Bytes), (∀ p ∈ ps, p.length = bpp) → rows bpp ps.length (ps.flatten ++ r) = ps := by
  intro ps
  induction ps with
  | nil => intro r _; rfl
  | cons p ps ih =>
    intro r h
    have hp := h p List.mem_cons_self
    simp only [List.length_cons, rows, List.flatten_cons, List.append_assoc]
    rw [List.take_left' hp, List.drop_left' hp, ih r (fun q hq => h q (List.mem_cons_of_mem _ hq))]

theorem flatten_length (bpp : Nat) : ∀ (ps : List Bytes), (∀ p ∈ ps, p.length = bpp) → ps.flatten.length = ps.length * bpp := by
  intro ps
  induction ps with
  | nil => intro _; simp
  | cons p ps ih =>
    intro h
    rw [List.flatten_cons, List.length_append, ih (fun q hq => h q (List.mem_cons_of_mem _ hq)), h p List.mem_cons_self, List.length_cons, Nat.succ_mul]
    omega

/-- Painting a chunk over a line. -/
theorem paint_line (w bpp : Nat) (cs : List Chunk) (c : Chunk) (hc : c.skip + c.pixels.length ≤ w) :
    paint (line w bpp cs) c.skip c.pixels = some (line w bpp (cs ++ [c])) := by
  have hl : (line w bpp cs).length = w := by simp [line]
  unfold paint
  rw [if_pos (by rw [hl]; exact hc)]
  congr 1
  apply List.ext_getElem
  · simp [line]; omega
  · intro i h1 h2
    have hi : i < w := by simpa [line] using h2
    have e : (line w bpp (cs ++ [c]))[i] = pixelAt bpp (cs ++ [c]) i := by simp [line]
    have e' : ∀ (h : i < (line w bpp cs).length), (line w bpp cs)[i] = pixelAt bpp cs i := by intro h; simp [line]
    rw [e]
    have ep : pixelAt bpp (cs ++ [c]) i = if c.skip ≤ i ∧ i < c.skip + c.pixels.length then c.pixels.getD (i - c.skip) [] else pixelAt bpp cs i := by
      simp only [pixelAt, List.foldl_append, List.foldl_cons, List.foldl_nil]
    rw [ep]
    rw [List.getElem_append]
    split
    · next hlt =>
      rw [List.getElem_append]
      split
      · next hlt' =>
        simp only [List.length_take] at hlt'
        rw [if_neg (by omega), List.getElem_take, e']
      · next hge =>
        simp only [List.length_take, List.length_append] at hlt hge
        rw [if_pos (by omega)]
        simp only [List.length_take]
        have : min c.skip (line w bpp cs).length = c.skip := by omega
        rw [List.getD_eq_getElem?_getD, List.getElem?_eq_getElem (by omega)]
        simp only [this, Option.getD_some]
    · next hge =>
      simp only [List.length_take, List.length_append] at hge
      rw [if_neg (by omega), List.getElem_drop]
      simp only [List.length_append, List.length_take]
      have : c.skip + c.pixels.length + (i - (min c.skip (line w bpp cs).length + c.pixels.length)) = i := by omega
      simp only [this]
      exact e' (by omega)

theorem chunkLoop_line (long : Bool) (w bpp : Nat) : ∀ (cs : List Chunk) (done : List Chunk) (fuel : Nat) (r : Bytes), cs ≠ [] →
    (∀ c ∈ cs, c.fits long w bpp) → cs.length ≤ fuel →
    chunkLoop long bpp fuel (encodeLine long cs ++ r) (line w bpp done) = some (line w bpp (done ++ cs)) := by
  intro cs
  induction cs with
  | nil => intro _ _ _ h; exact absurd rfl h
  | cons c cs ih =>
    intro done fuel r _ hfit hf
    obtain ⟨fuel, rfl⟩ : ∃ k, fuel = k + 1 := ⟨fuel - 1, by simp at hf; omega⟩
    have hc := hfit c List.mem_cons_self
    have hfl := flatten_length bpp c.pixels hc.2.2.2
    cases cs with
    | nil =>
      simp only [encodeLine, chunkLoop]
      rw [chunkHeader_encode long true c w bpp hc]
      simp only [Option.bind_eq_bind, Option.bind_some, if_true]
      rw [if_neg (by rw [List.length_append, hfl]; omega), rows_of_flatten _ _ _ hc.2.2.2, paint_line w bpp done c hc.1]
      rfl
    | cons c' cs =>
      simp only [encodeLine, chunkLoop, List.append_assoc]
      rw [chunkHeader_encode long false c w bpp hc]
      simp only [Option.bind_eq_bind, Option.bind_some, Bool.false_eq_true, if_false]
      rw [if_neg (by rw [List.length_append, hfl]; omega), rows_of_flatten _ _ _ hc.2.2.2, paint_line w bpp done c hc.1]
      simp only [Option.bind_some]
      rw [List.drop_left' hfl]
      rw [ih (done ++ [c]) fuel r (by simp) (fun x hx => hfit x (List.mem_cons_of_mem _ hx)) (by simp at hf ⊢; omega)]
      simp

theorem line_nil (w bpp : Nat) : emptyRow w bpp = line w bpp [] := by
  simp only [emptyRow, line]
  apply List.ext_getElem
  · simp
  · intro i h1 h2; simp [pixelAt]

theorem readOffsets_table (k : Nat) (tail : Bytes) : ∀ (ofs : List Nat), (∀ o ∈ ofs, o < 256 ^ k) →
    readOffsets k ofs.length (ofs.flatMap (leBytes k) ++ tail) = some ofs := by
  intro ofs
  induction ofs with
  | nil => intro _; rfl
  | cons o ofs ih =>
    intro h
    have hl := leBytes_length k o
    simp only [List.length_cons, readOffsets, List.flatMap_cons, List.append_assoc]
    rw [if_pos (by rw [List.length_append, hl]; omega), List.take_left' hl, List.drop_left' hl, ih (fun x hx => h x (List.mem_cons_of_mem _ hx)),
      leVal_leBytes _ _ (h o List.mem_cons_self)]
    rfl

theorem encodeLine_length (long : Bool) : ∀ (cs : List Chunk), 2 * cs.length ≤ (encodeLine long cs).length := by
  have one : ∀ f c, 2 ≤ (encodeChunk long f c).length := by
    intro f c; unfold encodeChunk; cases long <;> simp <;> omega
  intro cs
  induction cs with
  | nil => simp
  | cons c cs ih =>
    cases cs with
    | nil => simp only [encodeLine, List.length_singleton]; exact one true c
    | cons c' cs =>
      simp only [encodeLine, List.length_append, List.length_cons] at ih ⊢
      have := one false c
      omega

/-- Chunked data is decoded to the picture its chunks describe: a table of line offsets is followed by the lines, in any order and
possibly shared. -/
theorem chunked_exact (s : Info) (container : Nat) (ls : List (Nat × List Chunk)) (tail : Bytes)
    (hh : ls.length = s.height)
    (hfit : ∀ l ∈ ls, l.2 ≠ [] ∧ ∀ c ∈ l.2, c.fits (decide (2 ≤ container ∧ 256 < s.width)) s.width s.bpp)
    (ho : ∀ l ∈ ls, l.1 < 256 ^ (if 2 ≤ container ∧ 65535 < s.decompSize then 4 else 2))
    (hd : ∀ l ∈ ls, encodeLine (decide (2 ≤ container ∧ 256 < s.width)) l.2 <+:
      ((ls.flatMap fun l => leBytes (if 2 ≤ container ∧ 65535 < s.decompSize then 4 else 2) l.1) ++ tail).drop l.1) :
    decodeChunked s container ((ls.flatMap fun l => leBytes (if 2 ≤ container ∧ 65535 < s.decompSize then 4 else 2) l.1) ++ tail) =
      some (ls.map fun l => line s.width s.bpp l.2) := by
  unfold decodeChunked
  generalize hk : (if 2 ≤ container ∧ 65535 < s.decompSize then 4 else 2 : Nat) = k at *
  generalize decide (2 ≤ container ∧ 256 < s.width) = long at *
  have e : (ls.flatMap fun l => leBytes k l.1) = (ls.map (·.1)).flatMap (leBytes k) := by rw [List.flatMap_map]
  have hr := readOffsets_table k tail (ls.map (·.1)) (by intro o h; obtain ⟨l, hl, rfl⟩ := List.mem_map.mp h; exact ho l hl)
  rw [List.length_map, hh, ← e] at hr
  rw [hr]
  simp only [Option.bind_eq_bind, Option.bind_some]
  generalize hdata : (ls.flatMap fun l => leBytes k l.1) ++ tail = data at *
  clear hr e hdata hh ho
  induction ls with
  | nil => rfl
  | cons l ls ih =>
    obtain ⟨h1, h2⟩ := hfit l List.mem_cons_self
    obtain ⟨r, hr⟩ := hd l List.mem_cons_self
    have hlen := congrArg List.length hr
    rw [List.length_append, List.length_drop] at hlen
    have hcl := encodeLine_length long l.2
    simp only [List.map_cons, List.mapM_cons, Option.bind_eq_bind]
    rw [← hr]
    rw [ih (fun x hx => hfit x (List.mem_cons_of_mem _ hx))
      (fun x hx => hd x (List.mem_cons_of_mem _ hx)), line_nil, chunkLoop_line long s.width s.bpp l.2 [] _ r h1 h2 (by omega)]
    rfl

theorem paint_length {row b row' : List Bytes} {skip bpp : Nat} (h : paint row skip b = some row') (hr : ∀ p ∈ row, p.length = bpp) (hb : ∀ p ∈ b, p.length = bpp) :
    row'.length = row.length ∧ ∀ p ∈ row', p.length = bpp := by
  unfold paint at h
  split at h
  · simp only [Option.some.injEq] at h
    subst h
    refine ⟨by simp; omega, ?_⟩
    intro p hp
    simp only [List.mem_append] at hp
    rcases hp with (hp | hp) | hp
    · exact hr p (List.mem_of_mem_take hp)
    · exact hb p hp
    · exact hr p (List.mem_of_mem_drop hp)
  · split at h
    · simp only [Option.some.injEq] at h
      subst h; exact ⟨rfl, hr⟩
    · cases h

theorem rows_item' {α : Type} (k : Nat) : ∀ (n : Nat) (l : List α), n * k ≤ l.length → ∀ r ∈ rows k n l, r.length = k := by
  intro n
  induction n with
  | zero => intro l _ r hr; simp [rows] at hr
  | succ n ih =>
    intro l hl r hr
    rw [Nat.succ_mul] at hl
    simp only [rows, List.mem_cons] at hr
    rcases hr with rfl | hr
    · rw [List.length_take]; omega
    · exact ih _ (by rw [List.length_drop]; omega) r hr

theorem chunkLoop_shape (long : Bool) (bpp : Nat) : ∀ (fuel : Nat) (data : Bytes) (row row' : List Bytes),
    chunkLoop long bpp fuel data row = some row' → (∀ p ∈ row, p.length = bpp) → row'.length = row.length ∧ ∀ p ∈ row', p.length = bpp := by
  intro fuel
  induction fuel with
  | zero => intro data row row' h; simp [chunkLoop] at h
  | succ fuel ih =>
    intro data row row' h hr
    simp only [chunkLoop, Option.bind_eq_bind, Option.bind_eq_some_iff] at h
    obtain ⟨⟨final, length, skip, r⟩, _, h⟩ := h
    simp only at h
    split at h
    · cases h
    · next hlen =>
      simp only [Option.bind_eq_some_iff] at h
      obtain ⟨row1, h1, h2⟩ := h
      obtain ⟨a1, a2⟩ := paint_length (bpp := bpp) h1 hr (rows_item' bpp length r (by omega))
      split at h2
      · simp only [Option.some.injEq] at h2
        subst h2; exact ⟨a1, a2⟩
      · obtain ⟨b1, b2⟩ := ih _ _ _ h2 a2
        exact ⟨b1.trans a1, b2⟩

/-- Whatever chunked data is decoded to has the declared size. -/
theorem chunked_shape (s : Info) (container : Nat) (data : Bytes) (a : List (List Bytes)) (h : decodeChunked s container data = some a) :
    a.length = s.height ∧ ∀ row ∈ a, row.length = s.width ∧ ∀ p ∈ row, p.length = s.bpp := by
  unfold decodeChunked at h
  simp only [Option.bind_eq_bind, Option.bind_eq_some_iff] at h
  obtain ⟨ofs, h1, h2⟩ := h
  have hl : ∀ (n : Nat) (d : Bytes) (k : Nat) (o : List Nat), readOffsets k n d = some o → o.length = n := by
    intro n
    induction n with
    | zero => intro d k o h; simp only [readOffsets, Option.some.injEq] at h; subst h; rfl
    | succ n ih =>
      intro d k o h
      simp only [readOffsets] at h
      split at h
      · simp only [Option.map_eq_some_iff] at h
        obtain ⟨o', h, rfl⟩ := h
        rw [List.length_cons, ih _ _ _ h]
      · cases h
  rw [← hl _ _ _ _ h1]
  clear h1 hl
  induction ofs generalizing a with
  | nil => simp only [List.mapM_nil] at h2; cases h2; simp
  | cons o ofs ih =>
    simp only [List.mapM_cons, Option.bind_eq_bind, Option.bind_eq_some_iff] at h2
    obtain ⟨row, h3, rest, h4, h5⟩ := h2
    cases h5
    obtain ⟨i1, i2⟩ := ih rest h4
    refine ⟨by simp [i1], ?_⟩
    intro r hr
    rcases List.mem_cons.mp hr with rfl | hr
    · obtain ⟨b1, b2⟩ := chunkLoop_shape _ _ _ _ _ _ h3 (by
        intro p hp
        simp only [emptyRow, List.mem_replicate] at hp
        rw [hp.2]; simp)
      exact ⟨by rw [b1]; simp [emptyRow], b2⟩
    · exact i2 r hr

/-- A chunk that runs past the end of the line is reported, except for a single pixel, which is ignored. -/
theorem chunk_past_line (row b : List Bytes) (skip : Nat) (h : row.length < skip + b.length) :
    paint row skip b = if b.length ≤ 1 then some row else none := by
  unfold paint
  rw [if_neg (by omega)]
  by_cases h1 : b.length ≤ 1
  · rw [if_pos (by omega), if_pos h1]
  · rw [if_neg (by omega), if_neg h1]

/-- A chunk that runs past the end of the data is reported. -/
theorem chunk_past_data (long : Bool) (bpp fuel : Nat) (data r : Bytes) (row : List Bytes) (final : Bool) (length skip : Nat)
    (h : chunkHeader long data = some (final, length, skip, r)) (hr : r.length < length * bpp) : chunkLoop long bpp (fuel + 1) data row = none := by
  simp only [chunkLoop, h, Option.bind_eq_bind, Option.bind_some, if_pos hr]

example : decodeSprite ⟨13, 4, 2, 0xc⟩ 2 (encodeAll [.literal [4, 0, 9, 0, 1, 0, 7, 0x82, 2, 8, 9, 0x81, 3, 6]]) = none := by decide +kernel

/-- A picture of two lines, the first with two chunks. -/
example : decodeSprite ⟨14, 4, 2, 0xc⟩ 2 (encodeAll [.literal [4, 0, 11, 0, 1, 0, 7, 0x82, 2, 8, 9, 0x81, 3, 6]]) =
    some ([[[7], [0], [8], [9]], [[0], [0], [0], [6]]], []) := by decide +kernel

end Grf.SpriteData
