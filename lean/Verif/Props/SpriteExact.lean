import Verif.Props.SpriteData
/-!
# C46, exactly: which streams are decoded, and to what

The specification of the format is in `Props/SpriteData.lean` (`expand`, `line`). Here is what the program does for any file, including
malformed ones.
-/
namespace Grf.SpriteData

/-- The bytes the program adds for a repetition: from the offset back (from the start of the output for offset 0), as far as the output
has bytes; if the size is larger than the offset the end is counted from the start of the output instead. -/
def copied (out : Bytes) (offset size : Nat) : Bytes :=
  (out.take (if offset = 0 ∨ offset < size then size - offset else out.length + size - offset)).drop (if offset = 0 then 0 else out.length - offset)

/-- What the program adds for a command. -/
def Cmd.added (out : Bytes) : Cmd → Bytes
  | .literal bs => bs
  | .back offset size => copied out offset size

/-- The output of the program for a stream of commands. -/
def output : List Cmd → Bytes → Bytes
  | [], out => out
  | c :: cs, out => output cs (out ++ c.added out)

theorem backRef_eq (data : Bytes) (size offset : Nat) (h0 : 0 < size) : backRef data size offset = copied data offset size := by
  unfold copied backRef pySlice
  by_cases ho : offset = 0
  · subst ho
    rw [if_neg (by omega), if_pos (Or.inl rfl), if_pos rfl]
    have e1 : pyIndex data.length (-((0 : Nat) : Int)) = 0 := by unfold pyIndex; rw [if_neg (by omega)]; omega
    have e2 : pyIndex data.length ((size : Int) - ((0 : Nat) : Int)) = min size data.length := by unfold pyIndex; rw [if_neg (by omega)]; omega
    rw [e1, e2, List.drop_zero, List.drop_zero, Nat.sub_zero]
    by_cases h : size ≤ data.length
    · rw [Nat.min_eq_left h]
    · rw [Nat.min_eq_right (by omega), List.take_of_length_le (Nat.le_refl _), List.take_of_length_le (by omega)]
  · rw [if_neg ho]
    have e1 : pyIndex data.length (-(offset : Int)) = data.length - offset := by unfold pyIndex; rw [if_pos (by omega)]; omega
    by_cases he : size = offset
    · subst he
      rw [if_pos rfl, if_neg (by omega), e1, List.take_of_length_le (by omega)]
    · rw [if_neg he, e1]
      by_cases hlt : size < offset
      · have e2 : pyIndex data.length ((size : Int) - offset) = data.length + size - offset := by unfold pyIndex; rw [if_pos (by omega)]; omega
        rw [e2, if_neg (by omega)]
      · have e2 : pyIndex data.length ((size : Int) - offset) = min (size - offset) data.length := by
          unfold pyIndex; rw [if_neg (by omega)]; omega
        rw [e2, if_pos (by omega)]
        by_cases h : size - offset ≤ data.length
        · rw [Nat.min_eq_left h]
        · rw [Nat.min_eq_right (by omega), List.take_of_length_le (Nat.le_refl _), List.take_of_length_le (by omega)]

/-- A stream of commands is run as it says, up to the declared size. -/
theorem loop_run : ∀ (cs : List Cmd) (fuel num : Nat) (data r : Bytes), (∀ c ∈ cs, c.ok) → sizes cs + num ≤ fuel →
    decompressLoop fuel (sizes cs + num) data (encodeAll cs ++ r) = decompressLoop (fuel - cs.length) num (output cs data) r := by
  intro cs
  induction cs with
  | nil => intro fuel num data r _ _; simp [sizes, encodeAll, output]
  | cons c cs ih =>
    intro fuel num data r hok hf
    have hc := hok c List.mem_cons_self
    have hs := ok_size hc
    rw [sizes_cons] at hf ⊢
    obtain ⟨fuel, rfl⟩ : ∃ k, fuel = k + 1 := ⟨fuel - 1, by omega⟩
    obtain ⟨n, hn⟩ : ∃ k, c.size + sizes cs + num = k + 1 := ⟨c.size + sizes cs + num - 1, by omega⟩
    rw [encodeAll_cons, List.append_assoc, hn, List.length_cons, Nat.add_sub_add_right]
    have hok' := fun x hx => hok x (List.mem_cons_of_mem c hx)
    cases c with
    | literal bs =>
      simp only [Cmd.size] at *
      rw [step_literal fuel n data bs _ hc.1 hc.2 (by omega)]
      have e : n + 1 - bs.length = sizes cs + num := by omega
      rw [e, ih fuel num _ r hok' (by omega)]
      rfl
    | back offset size =>
      simp only [Cmd.size] at *
      rw [step_back fuel n data _ offset size hc.1 hc.2.1 hc.2.2 (by omega)]
      have e : n + 1 - size = sizes cs + num := by omega
      rw [e, ih fuel num _ r hok' (by omega), backRef_eq _ _ _ (by omega)]
      rfl

theorem loop_inv : ∀ (fuel num : Nat) (data f d r : Bytes), decompressLoop fuel num data f = some (d, r) →
    ∃ cs, (∀ c ∈ cs, c.ok) ∧ ((f = encodeAll cs ++ r ∧ sizes cs = num ∧ d = output cs data) ∨
      ∃ n bs, bs.length < n ∧ n ≤ 128 ∧ f = encodeAll cs ++ UInt8.ofNat (n % 128) :: bs ∧ r = [] ∧ sizes cs + n = num ∧ d = output cs data ++ bs) := by
  intro fuel
  induction fuel with
  | zero =>
    intro num data f d r h
    cases num with
    | zero =>
      simp only [decompressLoop, Option.some.injEq, Prod.mk.injEq] at h
      obtain ⟨rfl, rfl⟩ := h
      exact ⟨[], by simp, Or.inl ⟨rfl, rfl, rfl⟩⟩
    | succ n => simp [decompressLoop] at h
  | succ fuel ih =>
    intro num data f d r h
    cases num with
    | zero =>
      simp only [decompressLoop, Option.some.injEq, Prod.mk.injEq] at h
      obtain ⟨rfl, rfl⟩ := h
      exact ⟨[], by simp, Or.inl ⟨rfl, rfl, rfl⟩⟩
    | succ num =>
      rw [decompressLoop.eq_def] at h
      simp only at h
      split at h
      · cases h
      · next code f =>
        split at h
        · next hlit =>
          split at h
          · cases h
          · next hnum =>
            by_cases hl : literalSize code ≤ f.length
            · have htk : (f.take (literalSize code)).length = literalSize code := by rw [List.length_take]; omega
              obtain ⟨ok, enc⟩ := literal_code_inv code hlit _ htk
              obtain ⟨cs, h1, h2⟩ := ih _ _ _ _ _ h
              refine ⟨.literal (f.take (literalSize code)) :: cs, ?_, ?_⟩
              · intro c hc
                rcases List.mem_cons.mp hc with rfl | hc
                · exact ok
                · exact h1 c hc
              · rcases h2 with ⟨h2, h3, h4⟩ | ⟨n, bs, b1, b2, h2, b4, h3, h4⟩
                · refine Or.inl ⟨?_, ?_, ?_⟩
                  · rw [encodeAll_cons, enc, List.append_assoc, ← h2, List.cons_append, List.take_append_drop]
                  · rw [sizes_cons, h3]; simp only [Cmd.size]; omega
                  · rw [h4]; rfl
                · refine Or.inr ⟨n, bs, b1, b2, ?_, b4, ?_, ?_⟩
                  · rw [encodeAll_cons, enc, List.append_assoc, ← h2, List.cons_append, List.take_append_drop]
                  · rw [sizes_cons]; simp only [Cmd.size]; omega
                  · rw [h4]; rfl
            · rw [List.take_of_length_le (by omega), List.drop_eq_nil_of_le (by omega)] at h
              have hz : num + 1 - literalSize code = 0 := by
                apply Classical.byContradiction
                intro hne
                obtain ⟨k, hk⟩ : ∃ k, num + 1 - literalSize code = k + 1 := ⟨num + 1 - literalSize code - 1, by omega⟩
                rw [hk] at h
                cases fuel <;> simp [decompressLoop] at h
              rw [hz] at h
              have h' : some (data ++ f, ([] : Bytes)) = some (d, r) := by
                cases fuel <;> exact h
              simp only [Option.some.injEq, Prod.mk.injEq] at h'
              refine ⟨[], by simp, Or.inr ⟨literalSize code, f, by omega, ?_, ?_, h'.2.symm, ?_, h'.1.symm⟩⟩
              · unfold literalSize; split <;> omega
              · have : literalSize code % 128 = code.toNat := by unfold literalSize; split <;> omega
                rw [this, UInt8.ofNat_toNat]; rfl
              · simp [sizes]; omega
        · next hlit =>
          split at h
          · cases h
          · next next f =>
            split at h
            · cases h
            · next hnum =>
              obtain ⟨ok, enc⟩ := back_code_inv code next (by omega)
              have h0 : 0 < backSize code := ok.2.1
              obtain ⟨cs, h1, h2⟩ := ih _ _ _ _ _ h
              rw [backRef_eq _ _ _ h0] at h2
              refine ⟨.back (backOffset code next) (backSize code) :: cs, ?_, ?_⟩
              · intro c hc
                rcases List.mem_cons.mp hc with rfl | hc
                · exact ok
                · exact h1 c hc
              · rcases h2 with ⟨h2, h3, h4⟩ | ⟨n, bs, b1, b2, h2, b4, h3, h4⟩
                · refine Or.inl ⟨?_, ?_, ?_⟩
                  · rw [encodeAll_cons, enc, List.append_assoc, ← h2]; rfl
                  · rw [sizes_cons, h3]; simp only [Cmd.size]; omega
                  · rw [h4]; rfl
                · refine Or.inr ⟨n, bs, b1, b2, ?_, b4, ?_, ?_⟩
                  · rw [encodeAll_cons, enc, List.append_assoc, ← h2]; rfl
                  · rw [sizes_cons]; simp only [Cmd.size]; omega
                  · rw [h4]; rfl

/-- Decompression accepts exactly the files that start with commands of the declared total size, or end inside the last literal of such
commands, and gives what the program adds for each. -/
theorem decompress_iff (num : Nat) (f d r : Bytes) : decompress num f = some (d, r) ↔
    ∃ cs, (∀ c ∈ cs, c.ok) ∧ ((f = encodeAll cs ++ r ∧ sizes cs = num ∧ d = output cs []) ∨
      ∃ n bs, bs.length < n ∧ n ≤ 128 ∧ f = encodeAll cs ++ UInt8.ofNat (n % 128) :: bs ∧ r = [] ∧ sizes cs + n = num ∧ d = output cs [] ++ bs) := by
  constructor
  · exact loop_inv _ _ _ _ _ _
  · rintro ⟨cs, hok, ⟨rfl, rfl, rfl⟩ | ⟨n, bs, h1, h2, rfl, rfl, rfl, rfl⟩⟩
    · have := loop_run cs (sizes cs + 0) 0 [] r hok (Nat.le_refl _)
      unfold decompress
      rw [Nat.add_zero] at this
      rw [this]
      cases sizes cs - cs.length <;> rfl
    · unfold decompress
      rw [loop_run cs _ n [] _ hok (Nat.le_refl _)]
      have hlen : cs.length ≤ sizes cs := by
        clear h1
        induction cs with
        | nil => simp
        | cons c cs ih =>
          have := ok_size (hok c List.mem_cons_self)
          have := ih (fun x hx => hok x (List.mem_cons_of_mem _ hx))
          rw [sizes_cons, List.length_cons]; omega
      obtain ⟨e1, e2⟩ := literal_code (n := n) (by omega) h2
      obtain ⟨k, hk⟩ : ∃ k, sizes cs + n - cs.length = k + 1 := ⟨sizes cs + n - cs.length - 1, by omega⟩
      obtain ⟨m, hm⟩ : ∃ m, n = m + 1 := ⟨n - 1, by omega⟩
      rw [hk]
      have : decompressLoop (k + 1) n (output cs []) (UInt8.ofNat (n % 128) :: bs) = decompressLoop k (n - n) (output cs [] ++ bs) [] := by
        generalize hc : UInt8.ofNat (n % 128) = code at *
        subst hm
        simp only [decompressLoop]
        rw [if_pos e1, e2, if_neg (by omega), List.take_of_length_le (by omega), List.drop_eq_nil_of_le (by omega)]
      rw [this, Nat.sub_self]
      cases k <;> rfl

/-! ### Plain sprites -/

/-- The program adds as many bytes for the command as it says. -/
def Cmd.full (n : Nat) : Cmd → Prop
  | .literal _ => True
  | .back offset size => (size ≤ offset ∧ offset ≤ n) ∨ (offset = 0 ∧ size ≤ n)

/-- The program adds as many bytes as every command says. -/
def full : Nat → List Cmd → Prop
  | _, [] => True
  | n, c :: cs => c.full n ∧ full (n + c.size) cs

theorem added_le (c : Cmd) (out : Bytes) (h : c.ok) : (c.added out).length ≤ c.size ∧ ((c.added out).length = c.size ↔ c.full out.length) := by
  cases c with
  | literal bs => simp [Cmd.added, Cmd.size, Cmd.full]
  | back offset size =>
    have h0 : 0 < size := h.2.1
    simp only [Cmd.added, Cmd.size, Cmd.full]
    refine ⟨by rw [← backRef_eq _ _ _ h0]; exact backRef_le _ _ _ h0, ?_⟩
    simp only [copied, List.length_drop, List.length_take]
    split <;> split <;> omega

theorem output_le : ∀ (cs : List Cmd) (out : Bytes), (∀ c ∈ cs, c.ok) → (output cs out).length ≤ out.length + sizes cs ∧
    ((output cs out).length = out.length + sizes cs ↔ full out.length cs) := by
  intro cs
  induction cs with
  | nil => intro out _; simp [output, sizes, full]
  | cons c cs ih =>
    intro out hok
    obtain ⟨a1, a2⟩ := added_le c out (hok c List.mem_cons_self)
    obtain ⟨b1, b2⟩ := ih (out ++ c.added out) (fun x hx => hok x (List.mem_cons_of_mem _ hx))
    rw [List.length_append] at b1 b2
    simp only [output, sizes_cons, full]
    refine ⟨by omega, ?_⟩
    constructor
    · intro h
      have hf := a2.mp (by omega)
      refine ⟨hf, ?_⟩
      have := b2.mp (by omega)
      rwa [a2.mpr hf] at this
    · rintro ⟨hf, hr⟩
      rw [← a2] at hf
      rw [hf] at b2
      have := b2.mpr hr
      omega

/-- A plain sprite is accepted exactly if the file starts with commands of the declared total size whose repetitions are complete, or
of offset 0 and no longer than the output so far; it is decoded to the output, in rows of pixels. -/
theorem plain_iff (s : Info) (container : Nat) (f rest : Bytes) (a : List (List Bytes)) (hp : s.type / 8 % 2 = 0)
    (hd : s.decompSize = s.width * s.height * s.bpp) : decodeSprite s container f = some (a, rest) ↔
      ∃ cs, (∀ c ∈ cs, c.ok) ∧ f = encodeAll cs ++ rest ∧ sizes cs = s.width * s.height * s.bpp ∧ full 0 cs ∧
        a = reshape s.height s.width s.bpp (output cs []) := by
  have hp' : ¬ s.type / 8 % 2 = 1 := by omega
  unfold decodeSprite
  simp only [Option.bind_eq_bind, Option.bind_eq_some_iff, if_neg hp']
  constructor
  · rintro ⟨⟨d, r⟩, h1, h2⟩
    simp only at h2
    split at h2
    · next hlen =>
      simp only [Option.some.injEq, Prod.mk.injEq] at h2
      obtain ⟨rfl, rfl⟩ := h2
      obtain ⟨cs, hok, ⟨h1, h2, h3⟩ | ⟨n, bs, b1, _, _, _, b3, b4⟩⟩ := (decompress_iff _ _ _ _).mp h1
      · refine ⟨cs, hok, h1, by rw [h2, hd], ?_, by rw [h3]⟩
        refine (output_le cs [] hok).2.mp ?_
        rw [← h3, hlen, h2, hd]; simp
      · exfalso
        have := (output_le cs [] hok).1
        rw [b4, List.length_append] at hlen
        simp only [List.length_nil, Nat.zero_add] at this
        omega
    · cases h2
  · rintro ⟨cs, hok, h1, h2, h3, h4⟩
    refine ⟨(output cs [], rest), (decompress_iff _ _ _ _).mpr ⟨cs, hok, Or.inl ⟨h1, by rw [h2, hd], rfl⟩⟩, ?_⟩
    have : (output cs []).length = s.width * s.height * s.bpp := by
      rw [(output_le cs [] hok).2.mpr h3, h2]; simp
    simp only [if_pos this, h4]

theorem copyBack_some (offset : Nat) : ∀ (n : Nat) (out : Bytes), 0 < n → ((copyBack offset n out).isSome ↔ 0 < offset ∧ offset ≤ out.length) := by
  intro n
  induction n with
  | zero => intro _ h; omega
  | succ n ih =>
    intro out _
    rw [copyBack]
    split
    · next h => simp; omega
    · next h =>
      have hlt : out.length - offset < out.length := by omega
      rw [List.getElem?_eq_getElem hlt, Option.bind_some]
      cases n with
      | zero => simp [copyBack]; omega
      | succ n => rw [ih _ (by omega)]; simp; omega

/-- The format gives a meaning to exactly the streams whose repetitions start inside of the output. -/
theorem expand_some : ∀ (cs : List Cmd) (out : Bytes), (∀ c ∈ cs, c.ok) →
    ((expand cs out).isSome ↔ ∀ pre offset size post, cs = pre ++ .back offset size :: post → 0 < offset ∧ offset ≤ out.length + sizes pre) := by
  intro cs
  induction cs with
  | nil => intro out _; simp [expand]
  | cons c cs ih =>
    intro out hok
    have hok' := fun x hx => hok x (List.mem_cons_of_mem c hx)
    have hc := hok c List.mem_cons_self
    cases hr : c.run out with
    | none =>
      simp only [expand, hr, Option.bind_none]
      cases c with
      | literal bs => simp [Cmd.run] at hr
      | back offset size =>
        simp only [Cmd.run] at hr
        constructor
        · intro h; simp at h
        · intro h
          have h1 := h [] offset size cs rfl
          simp only [sizes, List.map_nil, List.sum_nil, Nat.add_zero] at h1
          have := (copyBack_some offset size out hc.2.1).mpr h1
          rw [hr] at this; simp at this
    | some o =>
      simp only [expand, hr, Option.bind_some]
      rw [ih o hok']
      have hlen : o.length = out.length + c.size := by
        cases c with
        | literal bs => simp only [Cmd.run, Option.some.injEq] at hr; subst hr; simp [Cmd.size]
        | back a b => simp only [Cmd.run] at hr; rw [copyBack_length _ _ _ _ hr]; simp [Cmd.size]
      constructor
      · intro h pre offset size post e
        cases pre with
        | nil =>
          simp only [List.nil_append, List.cons.injEq] at e
          obtain ⟨rfl, rfl⟩ := e
          simp only [Cmd.run] at hr
          have := (copyBack_some offset size out hc.2.1).mp (by rw [hr]; rfl)
          simpa [sizes] using this
        | cons p pre =>
          simp only [List.cons_append, List.cons.injEq] at e
          obtain ⟨rfl, e⟩ := e
          have := h pre offset size post e
          rw [sizes_cons]; omega
      · intro h pre offset size post e
        have := h (c :: pre) offset size post (by rw [e]; rfl)
        rw [sizes_cons] at this; omega

theorem full_split : ∀ (cs : List Cmd) (n : Nat), full n cs ↔ ∀ pre c post, cs = pre ++ c :: post → c.full (n + sizes pre) := by
  intro cs
  induction cs with
  | nil => intro n; simp [full]
  | cons c cs ih =>
    intro n
    simp only [full]
    rw [ih]
    constructor
    · rintro ⟨h1, h2⟩ pre c' post e
      cases pre with
      | nil =>
        simp only [List.nil_append, List.cons.injEq] at e
        obtain ⟨rfl, rfl⟩ := e
        simpa [sizes] using h1
      | cons p pre =>
        simp only [List.cons_append, List.cons.injEq] at e
        obtain ⟨rfl, e⟩ := e
        rw [sizes_cons]
        have := h2 pre c' post e
        rwa [Nat.add_assoc] at this
    · intro h
      refine ⟨by simpa [sizes] using h [] c cs rfl, ?_⟩
      intro pre c' post e
      have := h (c :: pre) c' post (by rw [e]; rfl)
      rw [sizes_cons] at this
      rwa [Nat.add_assoc]

theorem direct_split : ∀ (cs : List Cmd) (n : Nat), direct n cs = true ↔
    ∀ pre offset size post, cs = pre ++ .back offset size :: post → size ≤ offset ∧ offset ≤ n + sizes pre := by
  intro cs
  induction cs with
  | nil => intro n; simp [direct]
  | cons c cs ih =>
    intro n
    simp only [direct, Bool.and_eq_true]
    rw [ih]
    constructor
    · rintro ⟨h1, h2⟩ pre o z post e
      cases pre with
      | nil =>
        simp only [List.nil_append, List.cons.injEq] at e
        obtain ⟨rfl, rfl⟩ := e
        simpa [sizes, Cmd.direct] using h1
      | cons p pre =>
        simp only [List.cons_append, List.cons.injEq] at e
        obtain ⟨rfl, e⟩ := e
        rw [sizes_cons]
        have := h2 pre o z post e
        rwa [Nat.add_assoc] at this
    · intro h
      refine ⟨?_, ?_⟩
      · cases c with
        | literal bs => rfl
        | back o z => simpa [sizes, Cmd.direct] using h [] o z cs rfl
      · intro pre o z post e
        have := h (c :: pre) o z post (by rw [e]; rfl)
        rw [sizes_cons] at this
        rwa [Nat.add_assoc]

/-- A plain sprite the format gives a meaning to is decoded to it exactly if no repetition is longer than its offset, and refused
otherwise. -/
theorem wellformed_exact (s : Info) (container : Nat) (cs : List Cmd) (rest d : Bytes) (hp : s.type / 8 % 2 = 0)
    (hd : s.decompSize = s.width * s.height * s.bpp) (hok : ∀ c ∈ cs, c.ok) (hs : sizes cs = s.decompSize) (he : expand cs [] = some d) :
    ((∀ offset size, .back offset size ∈ cs → size ≤ offset) →
      decodeSprite s container (encodeAll cs ++ rest) = some (reshape s.height s.width s.bpp d, rest)) ∧
    (¬ (∀ offset size, .back offset size ∈ cs → size ≤ offset) → decodeSprite s container (encodeAll cs ++ rest) = none) := by
  have hex := (expand_some cs [] hok).mp (by rw [he]; rfl)
  have hz : NoZero cs := by
    intro c hc size e
    subst e
    obtain ⟨pre, post, e, -⟩ := List.eq_append_cons_of_mem hc
    exact absurd (hex pre 0 size post e).1 (by omega)
  rw [plain_exact_partial s container cs rest hp hd hok hs hz, he]
  have : direct 0 cs = true ↔ ∀ offset size, .back offset size ∈ cs → size ≤ offset := by
    rw [direct_split]
    constructor
    · intro h o z hm
      obtain ⟨pre, post, e, -⟩ := List.eq_append_cons_of_mem hm
      exact (h pre o z post e).1
    · intro h pre o z post e
      refine ⟨h o z (by rw [e]; simp), ?_⟩
      have := (hex pre o z post e).2
      simpa using this
  rw [← this]
  exact ⟨fun h => by rw [if_pos h]; rfl, fun h => by rw [if_neg h]⟩

/-- A plain sprite the format gives no meaning to is accepted exactly if what is wrong with it is only that repetitions of at most the
output so far have offset 0. -/
theorem malformed_accepted_iff (s : Info) (container : Nat) (cs : List Cmd) (rest : Bytes) (hp : s.type / 8 % 2 = 0)
    (hd : s.decompSize = s.width * s.height * s.bpp) (hok : ∀ c ∈ cs, c.ok) (hs : sizes cs = s.decompSize) :
    (decodeSprite s container (encodeAll cs ++ rest)).isSome ↔
      ∀ pre offset size post, cs = pre ++ .back offset size :: post → (size ≤ offset ∧ offset ≤ sizes pre) ∨ (offset = 0 ∧ size ≤ sizes pre) := by
  have hfull : full 0 cs ↔ ∀ pre offset size post, cs = pre ++ .back offset size :: post → (size ≤ offset ∧ offset ≤ sizes pre) ∨ (offset = 0 ∧ size ≤ sizes pre) := by
    rw [full_split]
    constructor
    · intro h pre o z post e
      simpa [Cmd.full] using h pre _ post e
    · intro h pre c post e
      cases c with
      | literal bs => trivial
      | back o z => simpa [Cmd.full] using h pre o z post e
  rw [← hfull]
  constructor
  · intro h
    obtain ⟨⟨a, r⟩, ha⟩ := Option.isSome_iff_exists.mp h
    obtain ⟨cs', h1, h2, h3, h4, _⟩ := (plain_iff s container _ r a hp hd).mp ha
    obtain ⟨rfl, -⟩ := encodeAll_inj cs cs' rest r hok h1 (by rw [hs, h3, hd]) h2
    exact h4
  · intro h
    rw [(plain_iff s container _ rest _ hp hd).mpr ⟨cs, hok, rfl, by rw [hs, hd], h, rfl⟩]
    rfl

/-! ### Chunked sprites -/

/-- The chunk has a code and can be stored: it is inside of the line, or has no more than one pixel. -/
def Chunk.storable (long : Bool) (w bpp : Nat) (c : Chunk) : Prop :=
  (c.skip + c.pixels.length ≤ w ∨ c.pixels.length ≤ 1) ∧ c.pixels.length < (if long then 32768 else 128) ∧
    c.skip < (if long then 65536 else 256) ∧ ∀ p ∈ c.pixels, p.length = bpp

theorem storable_header (long final : Bool) (c : Chunk) (w bpp : Nat) (h : c.storable long w bpp) (r : Bytes) :
    chunkHeader long (encodeChunk long final c ++ r) = some (final, c.pixels.length, c.skip, c.pixels.flatten ++ r) :=
  chunkHeader_encode long final c (c.skip + c.pixels.length) bpp ⟨Nat.le_refl _, h.2⟩ r

/-- A chunk past the end of the line leaves the line as it is. -/
theorem paint_storable (w bpp : Nat) (cs : List Chunk) (c : Chunk) (hc : c.skip + c.pixels.length ≤ w ∨ c.pixels.length ≤ 1) :
    paint (line w bpp cs) c.skip c.pixels = some (line w bpp (cs ++ [c])) := by
  by_cases h : c.skip + c.pixels.length ≤ w
  · exact paint_line w bpp cs c h
  · have hl : (line w bpp cs).length = w := by simp [line]
    rw [chunk_past_line _ _ _ (by rw [hl]; omega), if_pos (by omega)]
    congr 1
    apply List.map_congr_left
    intro i hi
    have hi := List.mem_range.mp hi
    have ep : pixelAt bpp (cs ++ [c]) i = if c.skip ≤ i ∧ i < c.skip + c.pixels.length then c.pixels.getD (i - c.skip) [] else pixelAt bpp cs i := by
      simp only [pixelAt, List.foldl_append, List.foldl_cons, List.foldl_nil]
    rw [ep, if_neg (by omega)]

theorem header_inv (long final : Bool) (data r : Bytes) (length skip bpp : Nat) (h : chunkHeader long data = some (final, length, skip, r))
    (hr : length * bpp ≤ r.length) :
    length < (if long then 32768 else 128) ∧ skip < (if long then 65536 else 256) ∧
      data = encodeChunk long final ⟨skip, rows bpp length r⟩ ++ r.drop (length * bpp) := by
  have hrows : (rows bpp length r).length = length := rows_length _ _ _
  have hflat : (rows bpp length r).flatten ++ r.drop (length * bpp) = r := by
    have : rows bpp length r = rows bpp length (r.take (length * bpp)) := by
      clear h hrows
      induction length generalizing r with
      | zero => rfl
      | succ n ih =>
        rw [Nat.succ_mul] at hr ⊢
        simp only [rows]
        rw [List.take_take, Nat.min_eq_left (by omega), List.drop_take, ih (r.drop bpp) (by rw [List.length_drop]; omega)]
        congr 3
        omega
    rw [this, rows_flatten _ _ _ (by rw [List.length_take]; omega), List.take_append_drop]
  cases long with
  | true =>
    simp only [if_true]
    unfold chunkHeader at h
    simp only [if_true] at h
    split at h
    · next a b c d r' =>
      simp only [Option.some.injEq, Prod.mk.injEq] at h
      obtain ⟨h1, h2, h3, rfl⟩ := h
      have ha := a.toNat_lt
      have hb := b.toNat_lt
      have hc := c.toNat_lt
      have hd := d.toNat_lt
      rw [← Nat.shiftLeft_add_eq_or_of_lt (by omega : a.toNat < 2 ^ 8), Nat.shiftLeft_eq] at h2
      rw [← Nat.shiftLeft_add_eq_or_of_lt (by omega : c.toNat < 2 ^ 8), Nat.shiftLeft_eq] at h3
      refine ⟨by omega, by omega, ?_⟩
      simp only [encodeChunk, if_true, hflat, hrows, List.cons_append, List.nil_append]
      have e1 : length % 256 = a.toNat := by omega
      have e2 : length / 256 + (if final then 128 else 0) = b.toNat := by
        rw [← h1]
        by_cases h : 128 ≤ b.toNat
        · rw [if_pos (by simp [h])]; omega
        · rw [if_neg (by simp [h])]; omega
      have e3 : skip % 256 = c.toNat := by omega
      have e4 : skip / 256 = d.toNat := by omega
      rw [e1, e2, e3, e4]
      simp only [UInt8.ofNat_toNat]
    · cases h
  | false =>
    simp only [Bool.false_eq_true, if_false]
    unfold chunkHeader at h
    simp only [Bool.false_eq_true, if_false] at h
    split at h
    · next a b r' =>
      simp only [Option.some.injEq, Prod.mk.injEq] at h
      obtain ⟨h1, h2, h3, rfl⟩ := h
      have ha := a.toNat_lt
      have hb := b.toNat_lt
      refine ⟨by omega, by omega, ?_⟩
      simp only [encodeChunk, Bool.false_eq_true, if_false, hflat, hrows, List.cons_append, List.nil_append]
      have e2 : length + (if final then 128 else 0) = a.toNat := by
        rw [← h1]
        by_cases h : 128 ≤ a.toNat
        · rw [if_pos (by simp [h])]; omega
        · rw [if_neg (by simp [h])]; omega
      rw [e2, ← h3]
      simp only [UInt8.ofNat_toNat]
    · cases h

/-- A line is accepted exactly if its data starts with storable chunks, and is what they describe. -/
theorem chunkLoop_iff (long : Bool) (w bpp : Nat) : ∀ (fuel : Nat) (data : Bytes) (done : List Chunk) (row : List Bytes), data.length < fuel →
    (chunkLoop long bpp fuel data (line w bpp done) = some row ↔
      ∃ cs, cs ≠ [] ∧ (∀ c ∈ cs, c.storable long w bpp) ∧ encodeLine long cs <+: data ∧ row = line w bpp (done ++ cs)) := by
  intro fuel
  induction fuel with
  | zero => intro data _ _ h; omega
  | succ fuel ih =>
    intro data done row hf
    constructor
    · intro h
      simp only [chunkLoop, Option.bind_eq_bind, Option.bind_eq_some_iff] at h
      obtain ⟨⟨final, length, skip, r⟩, h0, h⟩ := h
      simp only at h
      split at h
      · cases h
      · next hlen =>
        simp only [Option.bind_eq_some_iff] at h
        obtain ⟨row1, h1, h2⟩ := h
        have hr : length * bpp ≤ r.length := by omega
        obtain ⟨hl1, hl2, hdata⟩ := header_inv long final data r length skip bpp h0 hr
        have hrows : (rows bpp length r).length = length := rows_length _ _ _
        have hline : (line w bpp done).length = w := by simp [line]
        have hst : Chunk.storable long w bpp ⟨skip, rows bpp length r⟩ := by
          refine ⟨?_, by simp only [hrows]; exact hl1, hl2, rows_item' bpp length r (by omega)⟩
          simp only [hrows]
          apply Classical.byContradiction
          intro hno
          rw [chunk_past_line _ _ _ (by rw [hline, hrows]; omega), if_neg (by rw [hrows]; omega)] at h1
          cases h1
        rw [paint_storable w bpp done ⟨skip, rows bpp length r⟩ hst.1] at h1
        simp only [Option.some.injEq] at h1
        subst h1
        split at h2
        · next hfin =>
          simp only [Option.some.injEq] at h2
          refine ⟨[⟨skip, rows bpp length r⟩], by simp, ?_, ?_, h2.symm⟩
          · intro c hc
            simp only [List.mem_singleton] at hc
            subst hc; exact hst
          · simp only [encodeLine]
            rw [hdata, hfin]
            exact List.prefix_append _ _
        · next hfin =>
          have hfalse : final = false := by simpa using hfin
          have hlt : (r.drop (length * bpp)).length < fuel := by
            have h3 := congrArg List.length hdata
            have : 2 ≤ (encodeChunk long final ⟨skip, rows bpp length r⟩).length := by
              unfold encodeChunk; cases long <;> simp <;> omega
            rw [List.length_append] at h3
            omega
          obtain ⟨cs, c1, c2, c3, c4⟩ := (ih _ _ _ hlt).mp h2
          refine ⟨⟨skip, rows bpp length r⟩ :: cs, by simp, ?_, ?_, by rw [c4]; simp⟩
          · intro c hc
            rcases List.mem_cons.mp hc with rfl | hc
            · exact hst
            · exact c2 c hc
          · obtain ⟨c, cs', rfl⟩ := List.exists_cons_of_ne_nil c1
            rw [hdata, hfalse]
            simp only [encodeLine]
            exact List.prefix_append_right_inj _ |>.mpr c3
    · rintro ⟨cs, h1, h2, ⟨r, rfl⟩, rfl⟩
      obtain ⟨c, cs, rfl⟩ := List.exists_cons_of_ne_nil h1
      have hc := h2 c List.mem_cons_self
      have hfl := flatten_length bpp c.pixels hc.2.2.2
      cases cs with
      | nil =>
        simp only [encodeLine, chunkLoop]
        rw [storable_header long true c w bpp hc]
        simp only [Option.bind_eq_bind, Option.bind_some, if_true]
        rw [if_neg (by rw [List.length_append, hfl]; omega), rows_of_flatten _ _ _ hc.2.2.2, paint_storable w bpp done c hc.1]
        rfl
      | cons c' cs =>
        simp only [encodeLine, chunkLoop, List.append_assoc]
        rw [storable_header long false c w bpp hc]
        simp only [Option.bind_eq_bind, Option.bind_some, Bool.false_eq_true, if_false]
        rw [if_neg (by rw [List.length_append, hfl]; omega), rows_of_flatten _ _ _ hc.2.2.2, paint_storable w bpp done c hc.1]
        simp only [Option.bind_some]
        rw [List.drop_left' hfl]
        have hlt : (encodeLine long (c' :: cs) ++ r).length < fuel := by
          have : 2 ≤ (encodeChunk long false c).length := by
            unfold encodeChunk; cases long <;> simp <;> omega
          simp only [encodeLine, List.length_append] at hf ⊢
          omega
        rw [(ih _ _ _ hlt).mpr ⟨c' :: cs, by simp, fun x hx => h2 x (List.mem_cons_of_mem _ hx), List.prefix_append _ _, rfl⟩]
        simp

theorem readOffsets_iff (k : Nat) : ∀ (n : Nat) (data : Bytes) (ofs : List Nat), readOffsets k n data = some ofs ↔
    ofs.length = n ∧ (∀ o ∈ ofs, o < 256 ^ k) ∧ ofs.flatMap (leBytes k) <+: data := by
  intro n
  induction n with
  | zero =>
    intro data ofs
    simp only [readOffsets, Option.some.injEq]
    constructor
    · rintro rfl; simp
    · rintro ⟨h, -⟩; exact (List.length_eq_zero_iff.mp h).symm
  | succ n ih =>
    intro data ofs
    simp only [readOffsets]
    constructor
    · intro h
      split at h
      · next hk =>
        simp only [Option.map_eq_some_iff] at h
        obtain ⟨o, h, rfl⟩ := h
        obtain ⟨h1, h2, h3⟩ := (ih _ _).mp h
        have hl : (data.take k).length = k := by rw [List.length_take]; omega
        refine ⟨by simp [h1], ?_, ?_⟩
        · intro x hx
          rcases List.mem_cons.mp hx with rfl | hx
          · have := leVal_lt (data.take k)
            rwa [hl] at this
          · exact h2 x hx
        · have e : leBytes k (leVal (data.take k)) = data.take k := by
            have := leBytes_leVal (data.take k)
            rwa [hl] at this
          rw [List.flatMap_cons, e]
          conv => rhs; rw [← List.take_append_drop k data]
          exact List.prefix_append_right_inj _ |>.mpr h3
      · cases h
    · rintro ⟨h1, h2, h3⟩
      cases ofs with
      | nil => simp at h1
      | cons o ofs =>
        obtain ⟨r, rfl⟩ := h3
        have hl := leBytes_length k o
        rw [List.flatMap_cons, List.append_assoc]
        rw [if_pos (by rw [List.length_append, hl]; omega), List.take_left' hl, List.drop_left' hl,
          leVal_leBytes _ _ (h2 o List.mem_cons_self)]
        rw [(ih _ ofs).mpr ⟨by simpa using h1, fun x hx => h2 x (List.mem_cons_of_mem _ hx), List.prefix_append _ _⟩]
        rfl

/-- The size of an entry in the table of line offsets: 4 bytes for large sprites, else 2. -/
def offsetSize (s : Info) (container : Nat) : Nat := if 2 ≤ container ∧ 65535 < s.decompSize then 4 else 2

/-- Lines of wide sprites have two bytes for lengths and positions. -/
def isLong (s : Info) (container : Nat) : Bool := decide (2 ≤ container ∧ 256 < s.width)

/-- Chunked data is accepted exactly if it starts with a table of line offsets at which there are storable chunks, and is decoded to the
picture they describe. -/
theorem chunked_iff (s : Info) (container : Nat) (data : Bytes) (a : List (List Bytes)) : decodeChunked s container data = some a ↔
    ∃ ls : List (Nat × List Chunk), ls.length = s.height ∧ (∀ l ∈ ls, l.1 < 256 ^ offsetSize s container) ∧
      (ls.flatMap fun l => leBytes (offsetSize s container) l.1) <+: data ∧
      (∀ l ∈ ls, l.2 ≠ [] ∧ (∀ c ∈ l.2, c.storable (isLong s container) s.width s.bpp) ∧ encodeLine (isLong s container) l.2 <+: data.drop l.1) ∧
      a = ls.map fun l => line s.width s.bpp l.2 := by
  have key : ∀ (ofs : List Nat) (a : List (List Bytes)),
      (ofs.mapM fun o => chunkLoop (isLong s container) s.bpp (data.length + 1) (data.drop o) (line s.width s.bpp [])) = some a ↔
      ∃ ls : List (Nat × List Chunk), ls.map (·.1) = ofs ∧
        (∀ l ∈ ls, l.2 ≠ [] ∧ (∀ c ∈ l.2, c.storable (isLong s container) s.width s.bpp) ∧ encodeLine (isLong s container) l.2 <+: data.drop l.1) ∧
        a = ls.map fun l => line s.width s.bpp l.2 := by
    intro ofs
    induction ofs with
    | nil =>
      intro a
      simp only [List.mapM_nil, List.map_eq_nil_iff]
      constructor
      · intro h; cases h; exact ⟨[], rfl, by simp, rfl⟩
      · rintro ⟨ls, rfl, -, rfl⟩; rfl
    | cons o ofs ih =>
      intro a
      have hlt : (data.drop o).length < data.length + 1 := by rw [List.length_drop]; omega
      simp only [List.mapM_cons, Option.bind_eq_bind, Option.bind_eq_some_iff, ih]
      constructor
      · rintro ⟨row, h1, rest, ⟨ls, rfl, h2, rfl⟩, h3⟩
        cases h3
        obtain ⟨cs, c1, c2, c3, rfl⟩ := (chunkLoop_iff _ _ _ _ _ _ _ hlt).mp h1
        refine ⟨(o, cs) :: ls, rfl, ?_, by simp⟩
        intro l hl
        rcases List.mem_cons.mp hl with rfl | hl
        · exact ⟨c1, c2, c3⟩
        · exact h2 l hl
      · rintro ⟨ls, h1, h2, rfl⟩
        cases ls with
        | nil => simp at h1
        | cons l ls =>
          simp only [List.map_cons, List.cons.injEq] at h1
          obtain ⟨rfl, rfl⟩ := h1
          refine ⟨line s.width s.bpp l.2, ?_, ls.map fun l => line s.width s.bpp l.2, ⟨ls, rfl, fun x hx => h2 x (List.mem_cons_of_mem _ hx), rfl⟩, rfl⟩
          obtain ⟨c1, c2, c3⟩ := h2 l List.mem_cons_self
          exact (chunkLoop_iff _ _ _ _ _ _ _ hlt).mpr ⟨l.2, c1, c2, c3, rfl⟩
  have e : decodeChunked s container data = (readOffsets (offsetSize s container) s.height data).bind fun ofs =>
      ofs.mapM fun o => chunkLoop (isLong s container) s.bpp (data.length + 1) (data.drop o) (line s.width s.bpp []) := by
    rw [← line_nil]; rfl
  rw [e, Option.bind_eq_some_iff]
  have em : ∀ ls : List (Nat × List Chunk), (ls.flatMap fun l => leBytes (offsetSize s container) l.1) = (ls.map (·.1)).flatMap (leBytes (offsetSize s container)) := by
    intro ls; rw [List.flatMap_map]
  constructor
  · rintro ⟨ofs, h1, h2⟩
    obtain ⟨ls, rfl, h3, h4⟩ := (key _ _).mp h2
    obtain ⟨h5, h6, h7⟩ := (readOffsets_iff _ _ _ _).mp h1
    exact ⟨ls, by simpa using h5, fun l hl => h6 _ (List.mem_map_of_mem hl), by rw [em]; exact h7, h3, h4⟩
  · rintro ⟨ls, h1, h2, h3, h4, h5⟩
    refine ⟨ls.map (·.1), (readOffsets_iff _ _ _ _).mpr ⟨by simpa using h1, ?_, by rw [← em]; exact h3⟩, (key _ _).mpr ⟨ls, rfl, h4, h5⟩⟩
    intro o ho
    obtain ⟨l, hl, rfl⟩ := List.mem_map.mp ho
    exact h2 l hl

/-- A chunked sprite is accepted exactly if its data, decompressed as by the program, is. -/
theorem chunked_sprite_iff (s : Info) (container : Nat) (f rest : Bytes) (a : List (List Bytes)) (hc : s.type / 8 % 2 = 1) :
    decodeSprite s container f = some (a, rest) ↔ ∃ data, decompress s.decompSize f = some (data, rest) ∧ decodeChunked s container data = some a := by
  unfold decodeSprite
  simp only [Option.bind_eq_bind, Option.bind_eq_some_iff, if_pos hc]
  constructor
  · rintro ⟨⟨d, r⟩, h1, a', h2, h3⟩
    simp only [Option.some.injEq, Prod.mk.injEq] at h3
    obtain ⟨rfl, rfl⟩ := h3
    exact ⟨d, h1, h2⟩
  · rintro ⟨d, h1, h2⟩
    exact ⟨(d, rest), h1, a, h2, rfl⟩

theorem output_expand : ∀ (cs : List Cmd) (out d : Bytes), (∀ c ∈ cs, c.ok) → expand cs out = some d →
    (∀ offset size, .back offset size ∈ cs → size ≤ offset) → output cs out = d := by
  intro cs
  induction cs with
  | nil => intro out d _ h _; simpa [expand, output] using h
  | cons c cs ih =>
    intro out d hok h hle
    simp only [expand, Option.bind_eq_some_iff] at h
    obtain ⟨o, h1, h2⟩ := h
    have := ih o d (fun x hx => hok x (List.mem_cons_of_mem _ hx)) h2 (fun a b hm => hle a b (List.mem_cons_of_mem _ hm))
    rw [output, ← this]
    congr 1
    have hc := hok c List.mem_cons_self
    cases c with
    | literal bs => simpa [Cmd.run, Cmd.added] using h1
    | back a b =>
      simp only [Cmd.run] at h1
      have hs := (copyBack_some a b out hc.2.1).mp (by rw [h1]; rfl)
      have hab := hle a b List.mem_cons_self
      rw [copyBack_direct a hs.1 b out hs.2 hab] at h1
      simp only [Option.some.injEq] at h1
      rw [← h1]
      simp only [Cmd.added]
      rw [← backRef_eq _ _ _ hc.2.1, backRef_direct out b a hc.2.1 hab hs.2]

/-- The data of a chunked sprite is decompressed as the format says if no repetition is longer than its offset. -/
theorem chunked_wellformed (num : Nat) (cs : List Cmd) (rest d : Bytes) (hok : ∀ c ∈ cs, c.ok) (hs : sizes cs = num) (he : expand cs [] = some d)
    (hle : ∀ offset size, .back offset size ∈ cs → size ≤ offset) : decompress num (encodeAll cs ++ rest) = some (d, rest) :=
  (decompress_iff _ _ _ _).mpr ⟨cs, hok, Or.inl ⟨rfl, hs, (output_expand cs [] d hok he hle).symm⟩⟩

theorem output_len_lt : ∀ (cs : List Cmd) (out : Bytes), (∀ c ∈ cs, c.ok) → (∃ offset size, .back offset size ∈ cs ∧ 0 < offset ∧ offset < size) →
    (output cs out).length < out.length + sizes cs := by
  intro cs out hok ⟨o, z, hm, h0, hlt⟩
  have h := output_le cs out hok
  apply Nat.lt_of_le_of_ne h.1
  intro he
  have hf := (full_split cs out.length).mp (h.2.mp he)
  obtain ⟨pre, post, e, -⟩ := List.eq_append_cons_of_mem hm
  have := hf pre _ post e
  simp only [Cmd.full] at this
  omega

/-- The data of a chunked sprite the format gives a meaning to is decompressed to it exactly if no repetition is longer than its offset;
otherwise bytes are missing, and no error is raised. -/
theorem chunked_wellformed_iff (num : Nat) (cs : List Cmd) (rest d : Bytes) (hok : ∀ c ∈ cs, c.ok) (hs : sizes cs = num) (he : expand cs [] = some d) :
    decompress num (encodeAll cs ++ rest) = some (output cs [], rest) ∧
      (output cs [] = d ↔ ∀ offset size, .back offset size ∈ cs → size ≤ offset) := by
  refine ⟨(decompress_iff _ _ _ _).mpr ⟨cs, hok, Or.inl ⟨rfl, hs, rfl⟩⟩, ?_, output_expand cs [] d hok he⟩
  intro h o z hm
  apply Classical.byContradiction
  intro hno
  have hex := (expand_some cs [] hok).mp (by rw [he]; rfl)
  obtain ⟨pre, post, e, -⟩ := List.eq_append_cons_of_mem hm
  have hlt := output_len_lt cs [] hok ⟨o, z, hm, (hex pre o z post e).1, by omega⟩
  have hlen : ∀ (cs : List Cmd) (out d : Bytes), expand cs out = some d → d.length = out.length + sizes cs := by
    intro cs
    induction cs with
    | nil => intro out d h; simp only [expand, Option.some.injEq] at h; subst h; simp [sizes]
    | cons c cs ih =>
      intro out d h
      simp only [expand, Option.bind_eq_some_iff] at h
      obtain ⟨o, h1, h2⟩ := h
      rw [ih _ _ h2, sizes_cons]
      cases c with
      | literal bs => simp only [Cmd.run, Option.some.injEq] at h1; subst h1; simp [Cmd.size]; omega
      | back a b => simp only [Cmd.run] at h1; rw [copyBack_length _ _ _ _ h1]; simp [Cmd.size]; omega
  have := hlen cs [] d he
  rw [h] at hlt
  omega

/-- A file that ends inside the last literal of a chunked sprite is accepted. -/
example : decompress 9 [5, 1, 2, 3, 4, 5, 4, 7] = some ([1, 2, 3, 4, 5, 7], []) := by decide +kernel
/-- A single pixel past the end of the line is ignored, two are refused. -/
example : decodeSprite ⟨5, 2, 1, 0xc⟩ 2 (encodeAll [.literal [2, 0, 0x81, 7, 5]]) = some ([[[0], [0]]], []) ∧
    decodeSprite ⟨6, 2, 1, 0xc⟩ 2 (encodeAll [.literal [2, 0, 0x82, 1, 5, 6]]) = none := by decide +kernel
example : full 0 [.literal [7, 8], .back 0 2, .back 3 3] ∧ output [.literal [7, 8], .back 0 2, .back 3 3] [] = [7, 8, 7, 8, 8, 7, 8] := by
  refine ⟨?_, by decide +kernel⟩
  simp [full, Cmd.full, Cmd.size]

end Grf.SpriteData
