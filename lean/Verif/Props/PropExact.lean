import Verif.Props.Define
/-!
# C07 to C11: exactly which property values come back

`PropCodec.lean` shows that well-formed values are read back unchanged. Here: no other value is, because the readers only produce
well-formed values.
-/
set_option linter.unusedSimpArgs false
namespace Grf.PropC

/-! ### What the readers can return -/

theorem readU_nonneg {k : Nat} {bs r : Bytes} {v : Int} (h : readU k bs = some (v, r)) : 0 ≤ v := by
  simp only [readU, Option.bind_eq_bind, Option.bind_eq_some_iff, Option.some.injEq, Prod.mk.injEq] at h
  obtain ⟨_, _, rfl, _⟩ := h
  omega

theorem readU1_lt {bs r : Bytes} {v : Int} (h : readU 1 bs = some (v, r)) : 0 ≤ v ∧ v < 256 := by
  cases bs with
  | nil => simp [readU, takeBytes] at h
  | cons b bs =>
    rw [readU_one] at h
    simp only [Option.some.injEq, Prod.mk.injEq] at h
    have := b.toNat_lt
    omega

theorem readN_all {α : Type} {r : Bytes → Option (α × Bytes)} {P : α → Prop} (hP : ∀ bs a t, r bs = some (a, t) → P a) :
    ∀ (n : Nat) (bs : Bytes) (l : List α) (t : Bytes), readN r n bs = some (l, t) → ∀ a ∈ l, P a := by
  intro n
  induction n with
  | zero => intro bs l t h; simp only [readN, Option.some.injEq, Prod.mk.injEq] at h; rw [← h.1]; simp
  | succ n ih =>
    intro bs l t h
    simp only [readN, Option.bind_eq_bind, Option.bind_eq_some_iff, Option.some.injEq, Prod.mk.injEq, Prod.exists] at h
    obtain ⟨a, b1, h1, l', b2, h2, rfl, _⟩ := h
    intro x hx
    rcases List.mem_cons.1 hx with rfl | hx
    · exact hP _ _ _ h1
    · exact ih _ _ _ h2 x hx

theorem readLabel_bytes (bs : Bytes) (a : Lab) (t : Bytes) (h : readLabel bs = some (a, t)) : ∃ b, a = .bytes b := by
  simp only [readLabel, Option.some.injEq, Prod.mk.injEq] at h
  exact ⟨_, h.1.symm⟩

theorem fromGrf_accepted (g : Bool) (n : Nat) : (SpriteRef.fromGrf g (n : Int)).accepted = true := by
  rw [SpriteRef.fromGrf_nat]
  simp only [SpriteRef.accepted, Bool.and_eq_true, decide_eq_true_eq]
  omega

theorem readRef_accepted (bs : Bytes) (a : SpriteRef) (t : Bytes) (h : SpriteRef.read false bs = some (a, t)) : a.accepted = true := by
  simp only [SpriteRef.read, Option.bind_eq_bind, Option.bind_eq_some_iff, Option.some.injEq, Prod.mk.injEq, Prod.exists] at h
  obtain ⟨v, r, h1, rfl, _⟩ := h
  have := readU_nonneg h1
  obtain ⟨n, rfl⟩ := Int.eq_ofNat_of_zero_le this
  exact fromGrf_accepted false n

/-! Dictionaries -/

/-- What a dictionary of texts read from bytes satisfies. -/
def DictOk (d : List (Int × List Bytes)) : Prop := (d.map (·.1)).Nodup ∧ ∀ kv ∈ d, kv.1 ≠ 0 ∧ kv.2 ≠ [] ∧ ∀ v ∈ kv.2, (0 : UInt8) ∉ v

theorem addText_keys (d : List (Int × List Bytes)) (k : Int) (v : Bytes) :
    (addText d k v).map (·.1) = if k ∈ d.map (·.1) then d.map (·.1) else d.map (·.1) ++ [k] := by
  induction d with
  | nil => simp [addText]
  | cons kv d ih =>
    obtain ⟨k', l⟩ := kv
    simp only [addText]
    by_cases h : k' = k
    · subst h; simp
    · rw [if_neg h]
      simp only [List.map_cons, ih, List.mem_cons]
      by_cases h2 : k ∈ d.map (·.1)
      · rw [if_pos h2, if_pos (Or.inr h2)]
      · rw [if_neg h2, if_neg (by rintro (e | e); exact h e.symm; exact h2 e)]; simp

theorem addText_mem (d : List (Int × List Bytes)) (k : Int) (v : Bytes) (hv : (0 : UInt8) ∉ v) (hk : k ≠ 0)
    (h : ∀ kv ∈ d, kv.1 ≠ 0 ∧ kv.2 ≠ [] ∧ ∀ v ∈ kv.2, (0 : UInt8) ∉ v) :
    ∀ kv ∈ addText d k v, kv.1 ≠ 0 ∧ kv.2 ≠ [] ∧ ∀ v ∈ kv.2, (0 : UInt8) ∉ v := by
  induction d with
  | nil => simp only [addText, List.mem_singleton]; rintro kv rfl; simp [hk, hv]
  | cons kv d ih =>
    obtain ⟨k', l⟩ := kv
    simp only [addText]
    have h1 := h (k', l) (by simp)
    have h2 := ih (fun x hx => h x (by simp [hx]))
    split
    · intro kv hkv
      rcases List.mem_cons.1 hkv with rfl | hkv
      · refine ⟨h1.1, by simp, ?_⟩
        intro x hx
        rcases List.mem_append.1 hx with hx | hx
        · exact h1.2.2 x hx
        · simp at hx; rw [hx]; exact hv
      · exact h kv (by simp [hkv])
    · intro kv hkv
      rcases List.mem_cons.1 hkv with rfl | hkv
      · exact h1
      · exact h2 kv hkv

theorem splitNul_no (bs v r : Bytes) (h : splitNul bs = some (v, r)) : (0 : UInt8) ∉ v := by
  induction bs generalizing v with
  | nil => simp [splitNul] at h
  | cons b bs ih =>
    simp only [splitNul] at h
    split at h
    · simp only [Option.some.injEq, Prod.mk.injEq] at h; rw [← h.1]; simp
    · next hb =>
      simp only [Option.map_eq_some_iff, Prod.mk.injEq, Prod.exists] at h
      obtain ⟨v', r', h1, rfl, rfl⟩ := h
      have := ih _ h1
      simp only [List.mem_cons, not_or]
      exact ⟨fun e => hb e.symm, this⟩

theorem readMultiDict_image : ∀ (fuel : Nat) (d : List (Int × List Bytes)) (bs : Bytes) (d' : List (Int × List Bytes)) (t : Bytes),
    DictOk d → readMultiDict fuel d bs = some (d', t) → DictOk d' := by
  intro fuel
  induction fuel with
  | zero => intro d bs d' t _ h; simp [readMultiDict] at h
  | succ fuel ih =>
    intro d bs d' t hd h
    cases bs with
    | nil => simp [readMultiDict] at h
    | cons k r =>
      simp only [readMultiDict] at h
      split at h
      · simp only [Option.some.injEq, Prod.mk.injEq] at h; rw [← h.1]; exact hd
      · next hk =>
        split at h
        · simp at h
        · next v r' hs =>
          refine ih _ _ _ _ ⟨?_, ?_⟩ h
          · rw [addText_keys]
            split
            · exact hd.1
            · next hn => rw [List.nodup_append]; exact ⟨hd.1, by simp, by intro a ha b hb; simp at hb; rw [hb]; intro e; exact hn (e ▸ ha)⟩
          · refine addText_mem _ _ _ (splitNul_no _ _ _ hs) ?_ hd.2
            intro e
            apply hk
            apply UInt8.toNat_inj.mp
            simpa using e

/-! Industry layouts -/

theorem utoi8_range (x : Int) (h : 0 ≤ x ∧ x < 256) : utoi8 (pyAnd x 0xff) = if x < 128 then x else x - 256 := by
  obtain ⟨n, rfl⟩ := Int.eq_ofNat_of_zero_le h.1
  have e := SpriteRef.and_mask 8 n
  simp only [Nat.reducePow, Nat.reduceSub] at e
  have e' : pyAnd (n : Int) 0xff = ((n % 256 : Nat) : Int) := e
  rw [e']
  have hs := utoi8_spec ((n % 256 : Nat) : Int) (by omega) (by omega)
  refine signedRep_unique _ _ _ _ hs.1 ?_
  unfold IsSignedRep
  refine ⟨by split <;> omega, by split <;> omega, ?_⟩
  by_cases hc : (n : Int) < 128
  · exact ⟨0, by rw [if_pos hc]; omega⟩
  · exact ⟨1, by rw [if_neg hc]; omega⟩

theorem readTiles_image : ∀ (n : Nat) (first : Bool) (bs : Bytes) (l : List Tile) (t : Bytes), readTiles n first bs = some (l, t) →
    (∀ x ∈ l, x.accepted = true) ∧ (first = true → ∀ x ∈ l.head?, x.xofs ≠ 0xfe) ∧ ∀ t ∈ l, ∀ x y, t ≠ .check x y := by
  intro n
  induction n with
  | zero =>
    intro first bs l t h
    simp only [readTiles, Option.some.injEq, Prod.mk.injEq] at h
    rw [← h.1]
    exact ⟨by simp, by simp, by simp⟩
  | succ n ih =>
    intro first bs l t h
    simp only [readTiles, Option.bind_eq_bind, Option.bind_eq_some_iff, Prod.exists] at h
    obtain ⟨x, b1, hx, h⟩ := h
    have hxr := readU1_lt hx
    split at h
    · simp at h
    next hfe =>
    simp only [Option.bind_eq_some_iff, Prod.exists] at h
    obtain ⟨y, b2, hy, h⟩ := h
    have hyr := readU1_lt hy
    split at h
    · simp only [Option.some.injEq, Prod.mk.injEq] at h
      rw [← h.1]
      exact ⟨by simp, by simp, by simp⟩
    next hend =>
    simp only [Option.bind_eq_some_iff, Prod.exists] at h
    obtain ⟨g, b3, hg, h⟩ := h
    have hgr := readU1_lt hg
    split at h
    · simp only [Option.bind_eq_some_iff, Option.some.injEq, Prod.mk.injEq, Prod.exists] at h
      obtain ⟨i, b4, hi, l', b5, hl, rfl, _⟩ := h
      have hil : 0 ≤ i ∧ i < 65536 := by
        have h0 := readU_nonneg hi
        refine ⟨h0, ?_⟩
        simp only [readU, Option.bind_eq_bind, Option.bind_eq_some_iff, Option.some.injEq, Prod.mk.injEq, Prod.exists] at hi
        obtain ⟨a, b, ha, rfl, _⟩ := hi
        have hlen : a.length = 2 := by
          simp only [takeBytes] at ha
          split at ha
          · simp only [Option.some.injEq, Prod.mk.injEq] at ha
            rw [← ha.1, List.length_take]; omega
          · simp at ha
        have := leVal_lt a
        rw [hlen] at this
        omega
      have := ih _ _ _ _ hl
      refine ⟨?_, ?_, ?_⟩
      · intro z hz
        rcases List.mem_cons.1 hz with rfl | hz
        · simp only [Tile.accepted, Bool.and_eq_true, decide_eq_true_eq, Bool.not_eq_true', Bool.and_eq_false_iff, beq_eq_false_iff_ne]
          omega
        · exact this.1 z hz
      · intro hf z hz
        simp only [List.head?_cons, Option.mem_some_iff] at hz
        subst hz
        simp only [Tile.xofs]
        intro e; exact hfe ⟨e, hf⟩
      · intro z hz
        rcases List.mem_cons.1 hz with rfl | hz
        · simp
        · exact this.2.2 z hz
    · split at h
      · simp at h
      · simp only [Option.bind_eq_some_iff, Option.some.injEq, Prod.mk.injEq, Prod.exists] at h
        obtain ⟨l', b5, hl, rfl, _⟩ := h
        have := ih _ _ _ _ hl
        refine ⟨?_, ?_, ?_⟩
        · intro z hz
          rcases List.mem_cons.1 hz with rfl | hz
          · simp only [Tile.accepted, Bool.and_eq_true, decide_eq_true_eq, Bool.not_eq_true', Bool.and_eq_false_iff, beq_eq_false_iff_ne]
            omega
          · exact this.1 z hz
        · intro hf z hz
          simp only [List.head?_cons, Option.mem_some_iff] at hz
          subst hz
          simp only [Tile.xofs]
          intro e; exact hfe ⟨e, hf⟩
        · intro z hz
          rcases List.mem_cons.1 hz with rfl | hz
          · simp
          · exact this.2.2 z hz

theorem layout_image (n : Nat) (bs : Bytes) (l : List Tile) (t : Bytes) (h : readTiles n true bs = some (l, t)) :
    layoutAccepted l = true ∧ ∀ t ∈ l, ∀ x y, t ≠ .check x y := by
  obtain ⟨h1, h2, h3⟩ := readTiles_image _ _ _ _ _ h
  have h2 := h2 rfl
  refine ⟨?_, h3⟩
  simp only [layoutAccepted, Bool.and_eq_true, List.all_eq_true]
  refine ⟨h1, ?_⟩
  cases l with
  | nil => rfl
  | cons x l => simpa using h2 x (by simp)

/-! Station layouts -/

/-- Values as the reader produces them. -/
def ValOk (rv : Reg × RVal) : Prop := match rv.1.size, rv.2 with | 0, v => v = .bool true | _, v => ∀ b, v ≠ .bool b

theorem readReg_image (r : Reg) (bs t : Bytes) (v : RVal) (h : readReg r bs = some (v, t)) : ValOk (r, v) := by
  unfold ValOk
  unfold readReg at h
  split at h
  · next hs => simp only [hs]; simp only [Option.some.injEq, Prod.mk.injEq] at h; exact h.1.symm
  · next hs =>
    simp only [hs]
    simp only [Option.map_eq_some_iff, Prod.mk.injEq] at h
    obtain ⟨_, _, rfl, _⟩ := h
    intro b; split <;> simp
  · next h0 h1 =>
    simp only [Option.bind_eq_bind, Option.bind_eq_some_iff, Option.some.injEq, Prod.mk.injEq, Prod.exists] at h
    obtain ⟨a, b1, _, b, b2, _, rfl, _⟩ := h
    cases r <;> simp_all [Reg.size]

theorem readRegs_image (fl : Nat) (p : Bool) : ∀ (l : List Reg) (bs : Bytes) (rs : List (Reg × RVal)) (t : Bytes),
    readRegs fl p l bs = some (rs, t) → (rs.map (·.1)).Sublist l ∧ (∀ rv ∈ rs, rv.1.allowed p ∧ ValOk rv) := by
  intro l
  induction l with
  | nil =>
    intro bs rs t h
    simp only [readRegs, Option.some.injEq, Prod.mk.injEq] at h
    rw [← h.1]; simp
  | cons r l ih =>
    intro bs rs t h
    simp only [readRegs] at h
    split at h
    · have := ih _ _ _ h; exact ⟨this.1.cons _, this.2⟩
    split at h
    · have := ih _ _ _ h; exact ⟨this.1.cons _, this.2⟩
    next ha =>
    simp only [Option.bind_eq_bind, Option.bind_eq_some_iff, Option.some.injEq, Prod.mk.injEq, Prod.exists] at h
    obtain ⟨v, b1, h1, m, b2, h2, rfl, _⟩ := h
    have := ih _ _ _ h2
    refine ⟨this.1.cons_cons _, ?_⟩
    intro rv hrv
    rcases List.mem_cons.1 hrv with rfl | hrv
    · refine ⟨?_, readReg_image _ _ _ _ h1⟩
      unfold Reg.allowed
      cases hp : r.parent with
      | none => exact Or.inl rfl
      | some b =>
        right
        rw [hp] at ha
        simp only [Option.isSome_some, true_and, Decidable.not_not, ne_eq] at ha
        exact ha
    · exact this.2 rv hrv

/-- A sprite of the list that is read: never a child, registers in table order with the reader's values. -/
structure SprImage (s : Spr) : Prop where
  acc : s.flat.sprite.accepted = true
  regs : (s.flat.regs.map (·.1)).Sublist Reg.all
  vals : ∀ rv ∈ s.flat.regs, ValOk rv

theorem readSprHead_acc (hf : Bool) (bs t : Bytes) (s : SpriteRef) (fl : Nat) (h : readSprHead hf bs = some ((s, fl), t)) : s.accepted = true := by
  simp only [readSprHead, Option.bind_eq_bind, Option.bind_eq_some_iff, Prod.exists] at h
  obtain ⟨v, r, h1, h⟩ := h
  have hs : s = SpriteRef.fromGrf false v := by
    split at h
    · simp only [Option.bind_eq_some_iff, Option.some.injEq, Prod.mk.injEq, Prod.exists] at h
      obtain ⟨_, _, _, ⟨e, _⟩, _⟩ := h; exact e.symm
    · simp only [Option.bind_eq_some_iff, Option.some.injEq, Prod.mk.injEq, Prod.exists] at h
      obtain ⟨_, _, _, ⟨e, _⟩, _⟩ := h; exact e.symm
  subst hs
  obtain ⟨n, rfl⟩ := Int.eq_ofNat_of_zero_le (readU_nonneg h1)
  exact fromGrf_accepted false n

/-- The first is the ground, the others are parents. -/
def LayoutImage (l : List Spr) : Prop :=
  ∃ g rest, l = g :: rest ∧ SprImage g ∧ g.flat.kind = .ground ∧ (∀ rv ∈ g.flat.regs, rv.1.allowed false) ∧
    ∀ s ∈ rest, SprImage s ∧ ∃ ox oy oz ex ey ez, s.flat.kind = .parent ox oy oz ex ey ez ∧ oz ≠ 0x80

theorem addChild_flats (l : List Spr) (c : Flat) : (addChild l c).map (·.flat) = l.map (·.flat) := by
  induction l with
  | nil => rfl
  | cons s r ih =>
    cases r with
    | nil => rfl
    | cons s' r => simp only [addChild, List.map_cons] at ih ⊢; rw [ih]

/-- `LayoutImage` only looks at the sprites without their children. -/
theorem layoutImage_congr {l l' : List Spr} (h : l.map (·.flat) = l'.map (·.flat)) (hi : LayoutImage l) : LayoutImage l' := by
  obtain ⟨g, rest, rfl, hg, hk, hr, hrest⟩ := hi
  cases l' with
  | nil => simp at h
  | cons g' rest' =>
    simp only [List.map_cons, List.cons.injEq] at h
    obtain ⟨e1, e2⟩ := h
    refine ⟨g', rest', rfl, ⟨by rw [← e1]; exact hg.acc, by rw [← e1]; exact hg.regs, by rw [← e1]; exact hg.vals⟩, by rw [← e1]; exact hk,
      by rw [← e1]; exact hr, ?_⟩
    intro s hs
    have : s.flat ∈ rest.map (·.flat) := by rw [e2]; exact List.mem_map_of_mem hs
    obtain ⟨s', hs', e⟩ := List.mem_map.1 this
    obtain ⟨a, b⟩ := hrest s' hs'
    refine ⟨⟨by rw [← e]; exact a.acc, by rw [← e]; exact a.regs, by rw [← e]; exact a.vals⟩, by rw [← e]; exact b⟩

theorem readSprLoop_image (hf : Bool) : ∀ (n : Nat) (acc : List Spr) (bs : Bytes) (l : List Spr) (t : Bytes), LayoutImage acc →
    readSprLoop hf n acc bs = some (l, t) → LayoutImage l := by
  intro n
  induction n with
  | zero =>
    intro acc bs l t hi h
    simp only [readSprLoop, Option.some.injEq, Prod.mk.injEq] at h
    rw [← h.1]; exact hi
  | succ n ih =>
    intro acc bs l t hi h
    simp only [readSprLoop, Option.bind_eq_bind, Option.bind_eq_some_iff, Prod.exists] at h
    obtain ⟨s, fl, b0, hh, ox, b1, _, oy, b2, _, oz, b3, hz, h⟩ := h
    have hacc := readSprHead_acc _ _ _ _ _ hh
    split at h
    · simp only [Option.bind_eq_some_iff, Prod.exists] at h
      obtain ⟨rs, b4, hr, h⟩ := h
      refine ih _ _ _ _ (layoutImage_congr ?_ hi) h
      rw [addChild_flats]
    · next hne =>
      simp only [Option.bind_eq_some_iff, Prod.exists] at h
      obtain ⟨ex, b4, _, ey, b5, _, ez, b6, _, rs, b7, hr, h⟩ := h
      obtain ⟨r1, r2⟩ := readRegs_image _ _ _ _ _ _ hr
      refine ih _ _ _ _ ?_ h
      obtain ⟨g, rest, rfl, hg, hk, hr', hrest⟩ := hi
      refine ⟨g, rest ++ [{ flat := ⟨.parent ox oy oz ex ey ez, s, rs⟩ }], rfl, hg, hk, hr', ?_⟩
      intro x hx
      rcases List.mem_append.1 hx with hx | hx
      · exact hrest x hx
      · simp only [List.mem_singleton] at hx
        subst hx
        exact ⟨⟨hacc, r1, fun rv hrv => (r2 rv hrv).2⟩, ox, oy, oz, ex, ey, ez, rfl, hne⟩

theorem readSprs_image (num : Nat) (bs : Bytes) (l : List Spr) (t : Bytes) (h : readSprs num bs = some (l, t)) : LayoutImage l := by
  simp only [readSprs, Option.bind_eq_bind, Option.bind_eq_some_iff, Prod.exists] at h
  obtain ⟨s, fl, b0, hh, rs, b1, hr, h⟩ := h
  obtain ⟨r1, r2⟩ := readRegs_image _ _ _ _ _ _ hr
  refine readSprLoop_image _ _ _ _ _ _ ?_ h
  exact ⟨_, [], rfl, ⟨readSprHead_acc _ _ _ _ _ hh, r1, fun rv hrv => (r2 rv hrv).2⟩, rfl, fun rv hrv => (r2 rv hrv).1, by simp⟩

/-- The registers the writer accepts. -/
theorem encodeRegs_allowed {p : Bool} (l : List (Reg × RVal)) : ∀ {bs : Bytes} {fl : Nat}, encodeRegs p l = some (bs, fl) →
    ∀ rv ∈ l, rv.1.allowed p := by
  induction l with
  | nil => intro bs fl _; simp
  | cons rv l ih =>
    obtain ⟨r, v⟩ := rv
    intro bs fl h
    simp only [encodeRegs] at h
    split at h
    · simp at h
    · next hp =>
      simp only [Option.bind_eq_bind, Option.bind_eq_some_iff, Prod.exists] at h
      obtain ⟨b, _, bs', fl', h2, _⟩ := h
      intro rv hrv
      rcases List.mem_cons.1 hrv with rfl | hrv
      · unfold Reg.allowed
        cases hq : r.parent with
        | none => exact Or.inl rfl
        | some b =>
          right
          rw [hq] at hp
          simp only [Option.isSome_some, true_and, Decidable.not_not, ne_eq] at hp
          exact hp
      · exact ih h2 rv hrv

/-- A layout the reader may return and the writer accepts is one the reader reads. -/
theorem layoutOk_of_image {l : List Spr} (hi : LayoutImage l) {bs : Bytes} (h : encodeSprs l = some bs) : LayoutOk l := by
  obtain ⟨g, rest, rfl, hg, hk, hr, hrest⟩ := hi
  refine LayoutOk.mk g rest ⟨hg.acc, hg.regs⟩ hk ?_ ?_
  · simp only [encodeSprs, List.cons_ne_nil, if_false] at h
    split at h
    · simp only [Option.bind_eq_bind, Option.bind_eq_some_iff, Option.some.injEq, List.map_cons] at h
      obtain ⟨n, _, body, hb, _⟩ := h
      obtain ⟨a, b, ha, _, _⟩ := cat_cons hb
      simp only [encodeSpr, hk, Option.bind_eq_bind, Option.bind_eq_some_iff, Option.some.injEq, Prod.exists] at ha
      obtain ⟨rb, fl, hregs, _⟩ := ha
      have := encodeRegs_allowed _ hregs
      intro rv hrv
      rcases hr rv hrv with h1 | h1
      · exact h1
      · rcases this rv hrv with h2 | h2
        · exact h2
        · rw [h1] at h2; cases h2
    · simp at h
  · intro s hs
    obtain ⟨a, ox, oy, oz, ex, ey, ez, e, hne⟩ := hrest s hs
    exact ⟨⟨a.acc, a.regs⟩, by rw [e]; exact hne⟩

theorem flatten_length (l : List Spr) : (flatten l).length = l.length + (l.map fun s => s.children.length).sum := by
  induction l with
  | nil => rfl
  | cons s l ih =>
    simp only [flatten, List.flatMap_cons, List.length_append, List.length_cons, List.map_cons, List.sum_cons] at ih ⊢
    omega

theorem layout_unchanged {l : List Spr} (hi : LayoutImage l) (h : normLayout l = l) : ∀ s ∈ l, s.flat.kind.isChild = false ∧ s.children = [] ∧
    normRegs s.flat.regs = s.flat.regs := by
  have hf := flatten_normLayout l
  rw [h] at hf
  have hlen := congrArg List.length hf
  rw [flatten_length, List.length_map] at hlen
  have hsum : (l.map fun s => s.children.length).sum = 0 := by omega
  intro s hs
  refine ⟨?_, ?_, ?_⟩
  · obtain ⟨g, rest, rfl, hg, hk, hr, hrest⟩ := hi
    rcases List.mem_cons.1 hs with rfl | hs
    · rw [hk]; rfl
    · obtain ⟨_, _, _, _, _, _, _, e, _⟩ := hrest s hs
      rw [e]; rfl
  · have : s.children.length = 0 := by
      clear hlen hf h hi
      induction l with
      | nil => cases hs
      | cons x l ih =>
        simp only [List.map_cons, List.sum_cons] at hsum
        rcases List.mem_cons.1 hs with rfl | hs
        · omega
        · exact ih (by omega) hs
    exact List.length_eq_zero_iff.1 this
  · apply normRegs_canonical
    obtain ⟨g, rest, rfl, hg, hk, hr, hrest⟩ := hi
    rcases List.mem_cons.1 hs with rfl | hs
    · exact hg.vals
    · exact (hrest s hs).1.vals

theorem cat_mem {α : Type} {e : α → Option Bytes} {l : List α} {bs : Bytes} (h : cat (l.map e) = some bs) : ∀ a ∈ l, ∃ b, e a = some b := by
  intro a ha
  have h1 : (cat (l.map e)).isSome = true := by rw [h]; rfl
  rw [cat_iff] at h1
  exact Option.isSome_iff_exists.1 (h1 _ (List.mem_map_of_mem ha))

/-! ### All formats -/

/-- What is read in any format is well formed, except that station layouts may contain children, which are not written. -/
theorem read_wellFormed (f : Fmt) (v : PVal) (bs b t : Bytes) (he : encode f v = some b) (h : read f bs = some (v, t))
    (hs : f ≠ .newStation) : WellFormed f v := by
  cases f with
  | newStation => exact absurd rfl hs
  | L =>
    simp only [read, Option.map_eq_some_iff, Prod.mk.injEq, Prod.exists] at h
    obtain ⟨a, r, h1, rfl, _⟩ := h
    exact readLabel_bytes _ _ _ h1
  | L2 =>
    simp only [read, Option.map_eq_some_iff, Prod.mk.injEq, Prod.exists] at h
    obtain ⟨a, r, h1, rfl, _⟩ := h
    exact readN_all readLabel_bytes _ _ _ _ h1
  | nL =>
    simp only [read, Option.bind_eq_bind, Option.bind_eq_some_iff, Option.some.injEq, Prod.mk.injEq, Prod.exists] at h
    obtain ⟨n, b1, _, l, b2, h2, rfl, _⟩ := h
    exact readN_all readLabel_bytes _ _ _ _ h2
  | date =>
    simp only [read, Option.map_eq_some_iff, Prod.mk.injEq, Prod.exists] at h
    obtain ⟨a, r, h1, h2, _⟩ := h
    have h0 := readU_nonneg h1
    unfold daysToDate at h2
    split at h2
    · next n hn =>
      split at hn
      · simp only [Sum.inl.injEq] at hn
        rw [← h2]
        simp only [WellFormed]
        omega
      · simp at hn
    · next d hn =>
      split at hn
      · simp at hn
      · next hc =>
        simp only [Sum.inr.injEq] at hn
        rw [← h2]
        simp only [WellFormed]
        rw [← hn]
        have hv := nthDay_valid a.toNat
        have hr := date_range hv
        rw [to_days_nthDay] at hr
        refine ⟨hv, ?_⟩
        have := (not_congr hr).2 (by omega)
        omega
  | id =>
    simp only [read, Option.map_eq_some_iff, Prod.mk.injEq, Prod.exists] at h
    obtain ⟨a, r, h1, h2, _⟩ := h
    exact ⟨_, h2.symm⟩
  | idx =>
    simp only [read, Option.map_eq_some_iff, Prod.mk.injEq, Prod.exists] at h
    obtain ⟨a, r, h1, h2, _⟩ := h
    exact ⟨_, h2.symm⟩
  | size =>
    simp only [read, Option.map_eq_some_iff, Prod.mk.injEq, Prod.exists] at h
    obtain ⟨a, r, h1, rfl, _⟩ := h
    have hr := readU1_lt h1
    obtain ⟨n, rfl⟩ := Int.eq_ofNat_of_zero_le hr.1
    refine ⟨_, _, rfl, ?_⟩
    rw [and_nibble, shr_nibble]
    omega
  | bridge =>
    simp only [read, Option.map_eq_some_iff, Prod.mk.injEq, Prod.exists] at h
    obtain ⟨i, ts, r, h1, rfl, _⟩ := h
    simp only [readBridge, Option.bind_eq_bind, Option.bind_eq_some_iff, Option.some.injEq, Prod.mk.injEq, Prod.exists] at h1
    obtain ⟨_, _, _, _, _, _, ts', _, h2, ⟨_, rfl⟩, _⟩ := h1
    exact readN_all (fun bs a t h => readN_all readRef_accepted _ _ _ _ h) _ _ _ _ h2
  | multiDict =>
    simp only [read, Option.map_eq_some_iff, Prod.mk.injEq, Prod.exists] at h
    obtain ⟨d, r, h1, rfl, _⟩ := h
    exact readMultiDict_image _ _ _ _ _ ⟨by simp, by simp⟩ h1
  | layouts =>
    simp only [read, Option.map_eq_some_iff, Prod.mk.injEq, Prod.exists] at h
    obtain ⟨ls, r, h1, rfl, _⟩ := h
    simp only [readLayouts, Option.bind_eq_bind, Option.bind_eq_some_iff, Prod.exists] at h1
    obtain ⟨_, _, _, _, _, _, h2⟩ := h1
    exact readN_all (fun bs a t h => layout_image _ _ _ _ h) _ _ _ _ h2
  | _ => trivial

/-- A value that a reader may return and that can be written is read as `norm` says; and if that is the value itself, it is well formed. -/
theorem read_faithful (f : Fmt) (v : PVal) (bs b t : Bytes) (he : encode f v = some b) (h : read f bs = some (v, t)) :
    f ≠ .B8 ∧ Faithful f v ∧ (norm f v = v → WellFormed f v) := by
  refine ⟨by rintro rfl; simp [read] at h, ?_⟩
  by_cases hs : f = .newStation
  · subst hs
    cases v with
    | station ls =>
      simp only [read, Option.map_eq_some_iff, Prod.mk.injEq, Prod.exists] at h
      obtain ⟨ls', r, h1, e, _⟩ := h
      simp only [PVal.station.injEq] at e
      subst e
      simp only [readStation, Option.bind_eq_bind, Option.bind_eq_some_iff, Prod.exists] at h1
      obtain ⟨num, b1, _, h2⟩ := h1
      have him : ∀ l ∈ ls', LayoutImage l := by
        refine readN_all ?_ _ _ _ _ h2
        intro bs a t h
        simp only [Option.bind_eq_bind, Option.bind_eq_some_iff, Prod.exists] at h
        obtain ⟨n, b2, _, h3⟩ := h
        exact readSprs_image _ _ _ _ h3
      have henc : ∀ l ∈ ls', ∃ b, encodeSprs l = some b := by
        simp only [encode, encodeStation] at he
        split at he
        · simp only [Option.bind_eq_bind, Option.bind_eq_some_iff] at he
          obtain ⟨hd, _, body, hb, _⟩ := he
          exact cat_mem hb
        · simp at he
      have hok : ∀ l ∈ ls', LayoutOk l := fun l hl => by
        obtain ⟨b, hb⟩ := henc l hl
        exact layoutOk_of_image (him l hl) hb
      refine ⟨hok, ?_⟩
      intro hread
      simp only [norm, PVal.station.injEq] at hread
      intro l hl
      refine ⟨hok l hl, ?_⟩
      have : normLayout l = l := by
        obtain ⟨i, hi, rfl⟩ := List.mem_iff_getElem.1 hl
        have := congrArg (fun x => x[i]?) hread
        simp only [List.getElem?_map, List.getElem?_eq_getElem hi, Option.map_some, Option.some.injEq] at this
        exact this
      exact layout_unchanged (him l hl) this
    | _ => simp [encode] at he
  · have := read_wellFormed f v _ _ _ he h hs
    exact ⟨faithful_wellFormed f v this, fun _ => this⟩

/-- **C07, C09, C10, C11** A value that the writer accepts is read back unchanged, with exactly its bytes consumed, if and only if its
format has a reader and it is well formed (`WellFormed`). -/
theorem property_value_iff (f : Fmt) (v : PVal) (bs t : Bytes) (he : encode f v = some bs) :
    read f (bs ++ t) = some (v, t) ↔ f ≠ .B8 ∧ WellFormed f v := by
  constructor
  · intro h
    obtain ⟨h8, hf, hn⟩ := read_faithful f v _ _ _ he h
    refine ⟨h8, hn ?_⟩
    have := property_value_read f v bs t he h8 hf
    rw [h] at this
    simp only [Option.some.injEq, Prod.mk.injEq, and_true] at this
    exact this.symm
  · rintro ⟨h8, hw⟩
    exact property_value_roundtrip_partial f v bs t he h8 hw

/-- **C10** A list of industry layouts that is written comes back exactly when the constructors accept its items and no layout has
a special check. -/
theorem industry_layouts_iff (ls : List (List Tile)) (bs t : Bytes) (he : encode .layouts (.layouts ls) = some bs) :
    read .layouts (bs ++ t) = some (.layouts ls, t) ↔ ∀ l ∈ ls, layoutAccepted l = true ∧ ∀ t ∈ l, ∀ x y, t ≠ .check x y := by
  rw [property_value_iff _ _ _ _ he]
  exact ⟨fun h => h.2, fun h => ⟨by decide, h⟩⟩

/-- **C09** A dictionary of texts that is written comes back exactly when its keys are different and not 0, no key has an empty list, and no
text contains NUL. -/
theorem dictionary_iff (d : List (Int × List Bytes)) (bs t : Bytes) (he : encode .multiDict (.texts d) = some bs) :
    read .multiDict (bs ++ t) = some (.texts d, t) ↔
      (d.map (·.1)).Nodup ∧ ∀ kv ∈ d, kv.1 ≠ 0 ∧ kv.2 ≠ [] ∧ ∀ v ∈ kv.2, (0 : UInt8) ∉ v := by
  rw [property_value_iff _ _ _ _ he]
  exact ⟨fun h => h.2, fun h => ⟨by decide, h⟩⟩

/-- **C09** A bridge layout that is written comes back exactly when the constructor of sprite references accepts its sprites. -/
theorem bridge_iff (i : Int) (ts : List (List SpriteRef)) (bs t : Bytes) (he : encode .bridge (.bridge i ts) = some bs) :
    read .bridge (bs ++ t) = some (.bridge i ts, t) ↔ ∀ l ∈ ts, ∀ r ∈ l, SpriteRef.accepted r = true := by
  rw [property_value_iff _ _ _ _ he]
  exact ⟨fun h => h.2, fun h => ⟨by decide, h⟩⟩

/-- **C11** Station layouts that are written come back exactly when each is a ground sprite without bounding box registers followed by
parents not at height 128 (nothing is a child or has children), sprite references are accepted by their constructor, and the registers are in the
order of the table with the values the reader produces. -/
theorem station_iff (ls : List (List Spr)) (bs t : Bytes) (he : encode .newStation (.station ls) = some bs) :
    read .newStation (bs ++ t) = some (.station ls, t) ↔ ∀ l ∈ ls, LayoutOk l ∧ ∀ s ∈ l, s.flat.kind.isChild = false ∧ s.children = [] ∧
      normRegs s.flat.regs = s.flat.regs := by
  rw [property_value_iff _ _ _ _ he]
  exact ⟨fun h => h.2, fun h => ⟨by decide, h⟩⟩

/-- Every value that was read and can be written again in a format other than station layouts is written to bytes that are read as the
same value. -/
theorem read_value_stable (f : Fmt) (v : PVal) (bs b t u : Bytes) (hs : f ≠ .newStation) (h : read f bs = some (v, t))
    (he : encode f v = some b) : read f (b ++ u) = some (v, u) :=
  (property_value_iff f v b u he).2 ⟨by rintro rfl; simp [read] at h, read_wellFormed f v _ _ _ he h hs⟩

/-! ### What is accepted -/

/-- A label of four bytes or a number of 32 bits. -/
def LabelFits : Lab → Prop
  | .int n => 0 ≤ n ∧ n ≤ 4294967295
  | .bytes b => b.length = 4

theorem label_accepts (l : Lab) : (encodeLabel l).isSome = true ↔ LabelFits l := by
  cases l with
  | int n => exact p4 n
  | bytes b => simp only [encodeLabel, LabelFits]; split <;> simp_all

/-- **C07** Label lists: exactly two labels, or at most 255, each fitting. -/
theorem label_list_accepts (l : List Lab) :
    ((encode .L2 (.labels l)).isSome = true ↔ l.length = 2 ∧ ∀ x ∈ l, LabelFits x) ∧
    ((encode .nL (.labels l)).isSome = true ↔ l.length ≤ 255 ∧ ∀ x ∈ l, LabelFits x) := by
  have hc : (cat (l.map encodeLabel)).isSome = true ↔ ∀ x ∈ l, LabelFits x := by
    rw [cat_iff]
    simp only [List.mem_map, forall_exists_index, and_imp, forall_apply_eq_imp_iff₂, label_accepts]
  constructor
  · simp only [encode]
    split
    · next h => rw [hc]; simp [h]
    · next h => simp [h]
  · simp only [encode, bind2_iff, hc, bytesOf_iff, List.mem_cons, List.not_mem_nil, or_false, forall_eq]
    constructor <;> rintro ⟨h1, h2⟩ <;> exact ⟨by omega, h2⟩

/-- **C07** Size pairs: accepted exactly when the combined byte is one. -/
theorem size_pair_accepts (x y : Int) : (encode .size (.pair x y)).isSome = true ↔ 0 ≤ pyOr (y * 16) x ∧ pyOr (y * 16) x ≤ 255 := by
  simp only [encode, bytesOf_iff, List.mem_cons, List.not_mem_nil, or_false, forall_eq]

/-! ### Whole definitions -/

/-- Reading the given properties one after another, each from the bytes the one before has left. -/
def Reads (feature count : Nat) : List (String × List PVal) → Bytes → Bytes → Prop
  | [], bs, t => bs = t
  | p :: l, bs, t => ∃ code bs1 e bs2, readU 1 bs = some (code, bs1) ∧ byCode feature code.toNat = some e ∧ e.name = p.1 ∧
      readN (read e.fmt) count bs1 = some (p.2, bs2) ∧ Reads feature count l bs2 t

theorem dictSet_length {α : Type} (d : List (String × α)) (k : String) (v : α) :
    (dictSet d k v).length = if k ∈ d.map (·.1) then d.length else d.length + 1 := by
  have := congrArg List.length (keys_dictSet d k v)
  rw [List.length_map] at this
  rw [this]
  split <;> simp

theorem decodeProps_grow (feature count : Nat) : ∀ (n : Nat) (acc res : List (String × List PVal)) (bs t : Bytes),
    decodeProps feature count n acc bs = some (res, t) → res.length ≤ acc.length + n ∧
      (res.length = acc.length + n → ∃ l, res = acc ++ l ∧ Reads feature count l bs t) := by
  intro n
  induction n with
  | zero =>
    intro acc res bs t h
    simp only [decodeProps, Option.some.injEq, Prod.mk.injEq] at h
    obtain ⟨rfl, rfl⟩ := h
    exact ⟨by simp, fun _ => ⟨[], by simp, rfl⟩⟩
  | succ n ih =>
    intro acc res bs t h
    simp only [decodeProps, Option.bind_eq_bind, Option.bind_eq_some_iff, Prod.exists] at h
    obtain ⟨code, b1, h1, e, he, l, b2, h2, h3⟩ := h
    obtain ⟨i1, i2⟩ := ih _ _ _ _ h3
    have hl := dictSet_length acc e.name l
    by_cases hm : e.name ∈ acc.map (·.1)
    · rw [if_pos hm] at hl
      exact ⟨by omega, fun hh => by omega⟩
    · rw [if_neg hm] at hl
      refine ⟨by omega, fun hh => ?_⟩
      obtain ⟨l', e1, e2⟩ := i2 (by omega)
      rw [Sounds.dictSet_new hm] at e1
      exact ⟨(e.name, l) :: l', by rw [e1]; simp, code, b1, e, b2, h1, he, rfl, h2, e2⟩

theorem readN_len {α : Type} {r : Bytes → Option (α × Bytes)} : ∀ (n : Nat) (bs : Bytes) (l : List α) (t : Bytes),
    readN r n bs = some (l, t) → l.length = n := by
  intro n
  induction n with
  | zero => intro bs l t h; simp only [readN, Option.some.injEq, Prod.mk.injEq] at h; rw [← h.1]; rfl
  | succ n ih =>
    intro bs l t h
    simp only [readN, Option.bind_eq_bind, Option.bind_eq_some_iff, Option.some.injEq, Prod.mk.injEq, Prod.exists] at h
    obtain ⟨a, b1, h1, l', b2, h2, rfl, _⟩ := h
    simp [ih _ _ _ h2]

/-- Reading back the properties that were written makes them all well formed. -/
theorem reads_written (feature count : Nat) : ∀ (ps : List (String × List PVal)) (bs t u : Bytes),
    cat (ps.map (encodeProp feature count)) = some bs → Reads feature count ps (bs ++ t) u →
    ∀ p ∈ ps, p.2.length = count ∧ ∀ e, byName feature p.1 = some e → ∀ v ∈ p.2, e.fmt ≠ .B8 ∧ WellFormed e.fmt v := by
  intro ps
  induction ps with
  | nil => intro bs t u _ _ p hp; cases hp
  | cons p ps ih =>
    intro bs t u h hr
    obtain ⟨a, b, ha, hb, rfl⟩ := cat_cons h
    obtain ⟨name, vals⟩ := p
    simp only [encodeProp, Option.bind_eq_bind, Option.bind_eq_some_iff] at ha
    obtain ⟨e, he, c, hc, ha⟩ := ha
    obtain ⟨hen, _, hcode⟩ := code_name_agree feature name e he
    split at ha
    · simp at ha
    · next hlen =>
      simp only [Option.bind_eq_some_iff, Option.some.injEq] at ha
      obtain ⟨body, hbody, rfl⟩ := ha
      have hc' : c.toNat = e.code := by have := byteOf_some hc; omega
      obtain ⟨code, b1, e', b2, h1, h2, h3, h4, h5⟩ := hr
      simp only [List.cons_append, readU_one, Option.some.injEq, Prod.mk.injEq] at h1
      obtain ⟨rfl, rfl⟩ := h1
      simp only [Int.toNat_natCast, hc', hcode, Option.some.injEq] at h2
      subst h2
      simp only at h3 h4
      have hlen2 := readN_len _ _ _ _ h4
      rw [← hlen2, List.take_length] at hbody
      have hfa : ∀ v ∈ vals, ∃ b, encode e.fmt v = some b := cat_mem hbody
      have him : ∀ v ∈ vals, e.fmt ≠ .B8 ∧ Faithful e.fmt v ∧ (norm e.fmt v = v → WellFormed e.fmt v) := by
        have hall := readN_all (P := fun v => ∃ bs t, read e.fmt bs = some (v, t)) (fun bs a t h => ⟨bs, t, h⟩) _ _ _ _ h4
        intro v hv
        obtain ⟨x, y, hx⟩ := hall v hv
        obtain ⟨z, hz⟩ := hfa v hv
        exact read_faithful e.fmt v x z y hz hx
      have hrd := readN_cat (e := encode e.fmt) (r := read e.fmt) (f := norm e.fmt) vals
        (fun v hv bs hb t => property_value_read e.fmt v bs t hb (him v hv).1 (him v hv).2.1) body hbody (b ++ t)
      rw [hlen2] at hrd
      rw [List.append_assoc, hrd] at h4
      simp only [Option.some.injEq, Prod.mk.injEq] at h4
      obtain ⟨hn, rfl⟩ := h4
      have hnorm : ∀ v ∈ vals, norm e.fmt v = v := by
        intro v hv
        obtain ⟨i, hi, rfl⟩ := List.mem_iff_getElem.1 hv
        have := congrArg (fun x => x[i]?) hn
        simp only [List.getElem?_map, List.getElem?_eq_getElem hi, Option.map_some, Option.some.injEq] at this
        exact this
      intro p hp
      rcases List.mem_cons.1 hp with rfl | hp
      · refine ⟨hlen2, ?_⟩
        intro e2 he2 v hv
        have he2 : byName feature name = some e2 := he2
        rw [he] at he2
        cases he2
        exact ⟨(him v hv).1, (him v hv).2.2 (hnorm v hv)⟩
      · exact ih b t u hb h5 p hp

/-- **C08** A definition that the constructor accepts and that can be written comes back - feature, first id, count and all values of all
properties - if and only if every property has exactly as many values as there are items, and every value has a format that can be read
and is well formed. `d.props` being a dictionary, its keys are different. -/
theorem define_iff (d : Def0) (bs t : Bytes) (hacc : d.accepted = true) (hd : (d.props.map (·.1)).Nodup) (h : d.getData = some bs) :
    (∃ r, bs = 0 :: r ∧ decode0 (r ++ t) = some d) ↔
      ∀ p ∈ d.props, p.2.length = d.count ∧ ∀ e, byName d.feature p.1 = some e → ∀ v ∈ p.2, e.fmt ≠ .B8 ∧ WellFormed e.fmt v := by
  constructor
  · rintro ⟨r, rfl, hdec⟩
    simp only [Def0.getData, Option.bind_eq_bind, Option.bind_eq_some_iff, Option.some.injEq] at h
    obtain ⟨hd', hh, body, hb, hbs⟩ := h
    obtain ⟨a0, r0, h0, k0, rfl⟩ := cat_cons hh
    obtain ⟨a1, r1, h1, k1, rfl⟩ := cat_cons k0
    obtain ⟨a2, r2, h2, k2, rfl⟩ := cat_cons k1
    obtain ⟨a3, r3, h3, k3, rfl⟩ := cat_cons k2
    obtain ⟨a4, r4, h4, k4, rfl⟩ := cat_cons k3
    obtain ⟨a5, r5, h5, k5, rfl⟩ := cat_cons k4
    rw [cat_nil k5] at hbs
    obtain ⟨x0, rfl, e0⟩ := packU_one_some h0
    obtain ⟨x4, rfl, e4⟩ := packU_one_some h4
    have hx4 : x4 = 255 := by apply UInt8.toNat_inj.mp; show x4.toNat = 255; omega
    subst hx4
    simp only [List.cons_append, List.nil_append, List.cons.injEq, List.append_nil, List.append_assoc] at hbs
    obtain ⟨_, rfl⟩ := hbs
    have hext : ∀ u, readExt (255 :: (a5 ++ u)) = some (d.firstId, u) := by
      intro u; simp [readExt, readU_packU h5]
    simp only [decode0, List.append_assoc, readU_packU h1, readU_packU h2, readU_packU h3, Option.bind_eq_bind, Option.bind_some,
      List.cons_append, List.nil_append, hext, Int.toNat_natCast] at hdec
    split at hdec
    · simp at hdec
    · simp only [Option.bind_eq_some_iff, Prod.exists] at hdec
      obtain ⟨ps, u, hp, hdec⟩ := hdec
      split at hdec
      · simp at hdec
      · have hps : ps = d.props := by
          have hdec := Option.some.inj hdec
          rw [← hdec]
        subst hps
        obtain ⟨_, hg⟩ := decodeProps_grow _ _ _ _ _ _ _ hp
        obtain ⟨l, hl, hreads⟩ := hg (by simp)
        simp only [List.nil_append] at hl
        subst hl
        exact reads_written d.feature d.count d.props body t u hb hreads
  · intro hw
    exact define_roundtrip_exact_partial d bs t hacc hd (fun p hp e he => (hw p hp).2 e he) (fun p hp => (hw p hp).1) h

example : (encode .multiDict (.texts [(1, [[65]]), (2, [])])).isSome = true ∧ ¬ WellFormed .multiDict (.texts [(1, [[65]]), (2, [])]) :=
  ⟨by decide +kernel, by simp [WellFormed]⟩
example : (encode .layouts (.layouts [[.old 0 0 5, .new (-2) 3 7], []])).isSome = false ∧ (encode .layouts (.layouts [[.old 0 0 5, .new 2 3 7], []])).isSome = true ∧
    WellFormed .layouts (.layouts [[.old 0 0 5, .new 2 3 7], []]) :=
  ⟨by decide +kernel, by decide +kernel, by simp [WellFormed, layoutAccepted, Tile.accepted, Tile.xofs]⟩

end Grf.PropC
