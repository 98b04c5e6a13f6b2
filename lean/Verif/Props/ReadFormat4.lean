import Verif.Props.ReadFormat3
/-!
# C64, continued: layouts of tiles
-/
namespace Grf.Acts
open PropC Grf.Spec

theorem read_spriteRef (r : SpriteRef) (b t : Bytes) : SpriteRef.read false b = some (r, t) ↔ SpriteFits r ∧ Upto [D (spriteNumber r)] b t := by
  constructor
  · intro h
    have h0 := h
    simp only [SpriteRef.read, Option.bind_eq_bind, Option.bind_eq_some_iff, Prod.exists, read_dword, Option.some.injEq, Prod.mk.injEq] at h
    obtain ⟨v, t', h1, h2, rfl⟩ := h
    obtain ⟨x, hx, rfl⟩ := (upto_one _ _ _).1 h1
    have hl : x.length = 4 := by
      obtain ⟨_, rfl⟩ := hx
      simp [Field.bytes]
    obtain ⟨r', e1, e2, e3⟩ := SpriteRef.sprite_ref_total false x t' hl
    rw [e1] at h0
    simp only [Option.some.injEq, Prod.mk.injEq, and_true] at h0
    subst h0
    obtain ⟨h3, h4⟩ := (sprite_enc r' x).1 ⟨e2, e3⟩
    exact ⟨h3, (upto_one _ _ _).2 ⟨x, (form_enc _ _).2 h4, rfl⟩⟩
  · rintro ⟨h1, h2⟩
    obtain ⟨x, hx, rfl⟩ := (upto_one _ _ _).1 h2
    obtain ⟨h3, h4⟩ := (sprite_enc r x).2 ⟨h1, (form_enc _ _).1 hx⟩
    exact (SpriteRef.sprite_ref_roundtrip false r x t h3 h4).2

theorem read_reg (g : Reg) (v : RVal) (b r : Bytes) : readReg g b = some (v, r) ↔ RegShape g v ∧ Upto (regItems v) b r := by
  have one : ∀ (mk : Int → RVal), (∀ n, regItems (mk n) = [B n]) →
      ((readU 1 b).map (fun p => (mk p.1, p.2)) = some (v, r) ↔ (∃ n, v = mk n) ∧ Upto (regItems v) b r) := by
    intro mk hmk
    simp only [Option.map_eq_some_iff, Prod.exists, read_byte, Prod.mk.injEq]
    constructor
    · rintro ⟨n, t, h, rfl, rfl⟩; exact ⟨⟨n, rfl⟩, by rw [hmk]; exact h⟩
    · rintro ⟨⟨n, rfl⟩, h⟩
      rw [hmk] at h
      exact ⟨n, r, h, rfl, rfl⟩
  cases g
  case customPalette =>
    show some (RVal.bool true, b) = some (v, r) ↔ v = .bool true ∧ Upto (regItems v) b r
    simp only [Option.some.injEq, Prod.mk.injEq]
    constructor
    · rintro ⟨rfl, rfl⟩; exact ⟨rfl, (upto_nil _ _).2 rfl⟩
    · rintro ⟨rfl, h⟩; exact ⟨rfl, (upto_nil _ _).1 h⟩
  case deltaParentXY =>
    show ((readU 1 b).bind fun p => (readU 1 p.2).bind fun q => some (RVal.pair p.1 q.1, q.2)) = some (v, r) ↔ (∃ a b, v = .pair a b) ∧ Upto (regItems v) b r
    simp only [Option.bind_eq_some_iff, Prod.exists, read_byte, Option.some.injEq, Prod.mk.injEq]
    constructor
    · rintro ⟨x, r1, h1, y, r2, h2, rfl, rfl⟩
      exact ⟨⟨x, y, rfl⟩, (upto_cons2 _ _ _ _ _).2 ⟨r1, h1, h2⟩⟩
    · rintro ⟨⟨x, y, rfl⟩, h⟩
      obtain ⟨r1, h1, h2⟩ := (upto_cons2 _ _ _ _ _).1 h
      exact ⟨x, r1, h1, y, r, h2, rfl, rfl⟩
  case add => exact one .temp (fun _ => rfl)
  all_goals exact one .int (fun _ => rfl)

/-- The register is read for a sprite with these flags. -/
def applies (fl : Nat) (parent : Bool) (g : Reg) : Bool := fl / 2 ^ g.bit % 2 != 0 && (g.parent == none || g.parent == some parent)

theorem read_regs (fl : Nat) (parent : Bool) : ∀ (l : List Reg) (m : List (Reg × RVal)) (b r : Bytes),
    readRegs fl parent l b = some (m, r) ↔ m.map (·.1) = l.filter (applies fl parent) ∧ (∀ p ∈ m, RegShape p.1 p.2) ∧
      Upto (m.flatMap fun p => regItems p.2) b r := by
  intro l
  induction l with
  | nil =>
    intro m b r
    simp only [readRegs, Option.some.injEq, Prod.mk.injEq, List.filter_nil, List.map_eq_nil_iff]
    constructor
    · rintro ⟨rfl, rfl⟩; exact ⟨rfl, by simp, (upto_nil _ _).2 rfl⟩
    · rintro ⟨rfl, -, h⟩; exact ⟨rfl, (upto_nil _ _).1 h⟩
  | cons g l ih =>
    intro m b r
    rw [readRegs]
    by_cases h1 : fl / 2 ^ g.bit % 2 = 0
    · rw [if_pos h1, ih, List.filter_cons_of_neg (by simp [applies, h1])]
    · rw [if_neg h1]
      by_cases h2 : g.parent.isSome ∧ g.parent ≠ some parent
      · have : applies fl parent g = false := by
          obtain ⟨x, hx⟩ := Option.isSome_iff_exists.1 h2.1
          have := h2.2
          rw [hx] at this
          simp only [applies, hx]
          simp at this
          simp [this]
        rw [if_pos h2, ih, List.filter_cons_of_neg (by simp [this])]
      · have : applies fl parent g = true := by
          have h1' : fl / 2 ^ g.bit % 2 = 1 := by omega
          cases hx : g.parent with
          | none => simp [applies, h1', hx]
          | some x =>
            rw [hx] at h2
            simp at h2
            simp [applies, h1', hx, h2]
        rw [if_neg h2, List.filter_cons_of_pos this]
        simp only [Option.bind_eq_bind, Option.bind_eq_some_iff, Prod.exists, read_reg, ih, Option.some.injEq, Prod.mk.injEq]
        constructor
        · rintro ⟨v, r1, ⟨h3, h4⟩, m', r2, ⟨h5, h6, h7⟩, rfl, rfl⟩
          refine ⟨by simp [h5], ?_, ?_⟩
          · intro p hp
            rcases List.mem_cons.1 hp with rfl | hp
            · exact h3
            · exact h6 p hp
          · rw [List.flatMap_cons, upto_append]; exact ⟨r1, h4, h7⟩
        · rintro ⟨h5, h6, h7⟩
          cases m with
          | nil => simp at h5
          | cons p m =>
            obtain ⟨g', v⟩ := p
            simp only [List.map_cons, List.cons.injEq] at h5
            obtain ⟨rfl, h5⟩ := h5
            rw [List.flatMap_cons, upto_append] at h7
            obtain ⟨r1, h4, h7⟩ := h7
            exact ⟨v, r1, ⟨h6 (g', v) (by simp), h4⟩, m, r, ⟨h5, fun p hp => h6 p (by simp [hp]), h7⟩, rfl, rfl⟩

theorem bitSet_nat (fl k : Nat) : bitSet (fl : Int) k = (fl / 2 ^ k % 2 != 0) := by
  unfold bitSet
  rw [show ((fl : Int) / 2 ^ k % 2) = ((fl / 2 ^ k % 2 : Nat) : Int) by simp]
  have : fl / 2 ^ k % 2 = 0 ∨ fl / 2 ^ k % 2 = 1 := by omega
  rcases this with h | h <;> rw [h] <;> rfl

theorem announced_eq (fl : Nat) (parent : Bool) : Reg.all.filter (applies fl parent) = announced fl parent := by
  unfold announced
  simp only [bitSet_nat]
  have h : ∀ (b0 b1 b2 b3 b4 b5 b6 b7 par : Bool), (∀ g : Reg, applies fl parent g = ((match g.bit with | 0 => b0 | 1 => b1 | 2 => b2 | 3 => b3 | 4 => b4 | 5 => b5 | 6 => b6 | _ => b7) &&
      (g.parent == none || g.parent == some par))) → Reg.all.filter (applies fl parent) =
      (if b0 then [.dodraw] else []) ++ (if b1 then [.add] else []) ++ (if b2 then [.addPalette] else []) ++
      (if b3 then [.customPalette] else []) ++ (if b4 then [if par then .deltaParentXY else .deltaChildX] else []) ++
      (if b5 then [if par then .deltaParentZ else .deltaChildY] else []) ++
      (if b6 then [.spriteVar10] else []) ++ (if b7 then [.paletteVar10] else []) := by
    intro b0 b1 b2 b3 b4 b5 b6 b7 par hg
    rw [show applies fl parent = fun g => _ from funext hg]
    have : ∀ (b0 b1 b2 b3 b4 b5 b6 b7 par : Bool), Reg.all.filter (fun g => ((match g.bit with | 0 => b0 | 1 => b1 | 2 => b2 | 3 => b3 | 4 => b4 | 5 => b5 | 6 => b6 | _ => b7) &&
      (g.parent == none || g.parent == some par))) =
      (if b0 then [.dodraw] else []) ++ (if b1 then [.add] else []) ++ (if b2 then [.addPalette] else []) ++
      (if b3 then [.customPalette] else []) ++ (if b4 then [if par then .deltaParentXY else .deltaChildX] else []) ++
      (if b5 then [if par then .deltaParentZ else .deltaChildY] else []) ++
      (if b6 then [.spriteVar10] else []) ++ (if b7 then [.paletteVar10] else []) := by decide +kernel
    exact this b0 b1 b2 b3 b4 b5 b6 b7 par
  exact h _ _ _ _ _ _ _ _ parent (fun g => by cases g <;> rfl)

theorem read_head (hf : Bool) (s : SpriteRef) (fl : Nat) (b r : Bytes) : readHead hf b = some ((s, fl), r) ↔ SpriteFits s ∧ (hf = false → fl = 0) ∧
    Upto ([D (spriteNumber s)] ++ (if hf then [W fl] else [])) b r := by
  unfold readHead
  cases hf with
  | true =>
    simp only [Option.bind_eq_bind, Option.bind_eq_some_iff, Prod.exists, read_spriteRef, if_true, read_word, Option.some.injEq, Prod.mk.injEq]
    constructor
    · rintro ⟨_, r1, ⟨h1, h2⟩, v, r2, h3, ⟨rfl, rfl⟩, rfl⟩
      refine ⟨h1, by simp, ?_⟩
      rw [upto_append]
      refine ⟨r1, h2, ?_⟩
      have : 0 ≤ v := by
        obtain ⟨x, ⟨h, -⟩, -⟩ := (upto_one _ _ _).1 h3
        exact h.1
      rwa [show ((v.toNat : Nat) : Int) = v by omega]
    · rintro ⟨h1, -, h2⟩
      rw [upto_append] at h2
      obtain ⟨r1, h2, h3⟩ := h2
      exact ⟨s, r1, ⟨h1, h2⟩, _, r, h3, ⟨rfl, by simp⟩, rfl⟩
  | false =>
    simp only [Option.bind_eq_bind, Option.bind_eq_some_iff, Prod.exists, read_spriteRef, Bool.false_eq_true, if_false, Option.some.injEq, Prod.mk.injEq,
      List.append_nil]
    constructor
    · rintro ⟨_, r1, ⟨h1, h2⟩, ⟨rfl, rfl⟩, rfl⟩; exact ⟨h1, by simp, h2⟩
    · rintro ⟨h1, h2, h3⟩
      have := h2 trivial
      subst this
      exact ⟨s, r, ⟨h1, h3⟩, ⟨rfl, rfl⟩, rfl⟩

theorem read_tile (hf : Bool) (s : LSpr) (b r : Bytes) : readLSpr hf true b = some (s, r) ↔ ∃ items, TileSprite hf false s items ∧ Upto items b r := by
  unfold readLSpr
  simp only [Option.bind_eq_bind, Option.bind_eq_some_iff, Prod.exists, read_head, read_byte, if_true]
  constructor
  · rintro ⟨sp, fl, r1, ⟨h1, h2, h3⟩, x, r2, h4, y, r3, h5, z, r4, h6, h⟩
    split at h
    · next hz =>
      simp only [Option.bind_eq_some_iff, Prod.exists, read_byteList, read_regs, announced_eq, Option.some.injEq, Prod.mk.injEq] at h
      obtain ⟨ext, r5, ⟨h7, h8⟩, regs, r6, ⟨h9, h10, h11⟩, rfl, rfl⟩ := h
      match ext, h7 with
      | [a, c, d], _ =>
        refine ⟨_, ⟨h1, rfl, (fl : Int), true, [B x, B y, B z, B a, B c, B d], fun e => by rw [h2 e]; rfl,
          .own _ x y z a c d rfl rfl rfl hz, h9, h10, rfl⟩, ?_⟩
        rw [upto_append]; refine ⟨r5, ?_, h11⟩
        rw [upto_append]; refine ⟨r1, h3, ?_⟩
        simp only [List.map_cons, List.map_nil, upto_cons2] at h8 ⊢
        exact ⟨r2, h4, r3, h5, r4, h6, h8⟩
    · next hz =>
      simp only [ne_eq, Decidable.not_not] at hz
      subst hz
      simp only [Option.bind_eq_some_iff, Prod.exists, read_regs, announced_eq, Option.some.injEq, Prod.mk.injEq] at h
      obtain ⟨regs, r6, ⟨h9, h10, h11⟩, rfl, rfl⟩ := h
      refine ⟨_, ⟨h1, rfl, (fl : Int), false, [B x, B y, B 128], fun e => by rw [h2 e]; rfl, .over _ x y rfl rfl rfl, h9, h10, rfl⟩, ?_⟩
      rw [upto_append]; refine ⟨r4, ?_, h11⟩
      rw [upto_append]; refine ⟨r1, h3, ?_⟩
      simp only [upto_cons2]
      exact ⟨r2, h4, r3, h5, h6⟩
  · rintro ⟨_, ⟨h1, hp, fl, parent, place, h2, hplace, h9, h10, rfl⟩, h⟩
    rw [upto_append] at h; obtain ⟨r5, h, h11⟩ := h
    rw [upto_append] at h; obtain ⟨r1, h3, h⟩ := h
    have hfl : 0 ≤ fl := by
      cases hf with
      | false => rw [h2 rfl]; omega
      | true =>
        rw [upto_append] at h3
        obtain ⟨_, _, h3⟩ := h3
        simp only [if_true] at h3
        obtain ⟨x, ⟨h, -⟩, -⟩ := (upto_one _ _ _).1 h3
        exact h.1
    obtain ⟨n, rfl⟩ := Int.eq_ofNat_of_zero_le hfl
    obtain ⟨sp, off, ext, pix, pal, regs⟩ := s
    simp only at h1 hp h9 h10 h11 h3
    subst hp
    cases hplace with
    | own _ x y z a c d e1 e2 e3 hz =>
      simp only at e1 e2 e3
      subst e1 e2 e3
      simp only [upto_cons2] at h
      obtain ⟨r2, h4, r3, h5, r4, h6, h8⟩ := h
      refine ⟨sp, n, r1, ⟨h1, fun e => by have := h2 e; omega, h3⟩, x, r2, h4, y, r3, h5, z, r4, h6, ?_⟩
      rw [if_pos hz]
      simp only [Option.bind_eq_some_iff, Prod.exists, read_byteList, read_regs, announced_eq, Option.some.injEq, Prod.mk.injEq]
      refine ⟨[a, c, d], r5, ⟨rfl, ?_⟩, regs, r, ⟨h9, h10, h11⟩, rfl, rfl⟩
      simp only [List.map_cons, List.map_nil, upto_cons2]
      exact h8
    | over _ x y e1 e2 e3 =>
      simp only at e1 e2 e3
      subst e1 e2 e3
      simp only [upto_cons2] at h
      obtain ⟨r2, h4, r3, h5, h6⟩ := h
      refine ⟨sp, n, r1, ⟨h1, fun e => by have := h2 e; omega, h3⟩, x, r2, h4, y, r3, h5, 128, r5, h6, ?_⟩
      rw [if_neg (by simp)]
      simp only [Option.bind_eq_some_iff, Prod.exists, read_regs, announced_eq, Option.some.injEq, Prod.mk.injEq]
      exact ⟨regs, r, ⟨h9, h10, h11⟩, rfl, rfl⟩

theorem read_listRel {α : Type} (rd : Bytes → Option (α × Bytes)) (R : α → List Piece → Prop)
    (h : ∀ v b r, rd b = some (v, r) ↔ ∃ items, R v items ∧ Upto items b r) :
    ∀ (n : Nat) (l : List α) (b r : Bytes), readN rd n b = some (l, r) ↔ l.length = n ∧ ∃ its, List.Forall₂ R l its ∧ Upto its.flatten b r := by
  intro n
  induction n with
  | zero =>
    intro l b r
    simp only [readN, Option.some.injEq, Prod.mk.injEq]
    constructor
    · rintro ⟨rfl, rfl⟩; exact ⟨rfl, [], .nil, (upto_nil _ _).2 rfl⟩
    · rintro ⟨h1, its, h3, h2⟩
      cases l with
      | nil => cases h3; exact ⟨rfl, (upto_nil _ _).1 h2⟩
      | cons => simp at h1
  | succ n ih =>
    intro l b r
    simp only [readN, Option.bind_eq_bind, Option.bind_eq_some_iff, Prod.exists, Option.some.injEq, Prod.mk.injEq, h, ih]
    constructor
    · rintro ⟨v, m, ⟨i, hv, h1⟩, l', r', ⟨rfl, its, hl, h2⟩, rfl, rfl⟩
      refine ⟨rfl, i :: its, .cons hv hl, ?_⟩
      rw [List.flatten_cons, upto_append]; exact ⟨m, h1, h2⟩
    · rintro ⟨h1, its, hl, h2⟩
      cases hl with
      | nil => simp at h1
      | @cons v i l its hv hl =>
        rw [List.flatten_cons, upto_append] at h2
        obtain ⟨m, h2, h3⟩ := h2
        exact ⟨v, m, ⟨i, hv, h2⟩, l, r, ⟨by simpa using h1, its, hl, h3⟩, rfl, rfl⟩

theorem readN_one {α : Type} (rd : Bytes → Option (α × Bytes)) (l : List α) (b r : Bytes) :
    readN rd 1 b = some (l, r) ↔ ∃ s, rd b = some (s, r) ∧ l = [s] := by
  simp only [readN, Option.bind_eq_bind, Option.bind_eq_some_iff, Prod.exists, Option.some.injEq, Prod.mk.injEq]
  constructor
  · rintro ⟨v, r1, h, _, _, ⟨rfl, rfl⟩, rfl, rfl⟩; exact ⟨v, h, rfl⟩
  · rintro ⟨v, h, rfl⟩; exact ⟨v, r, h, [], r, ⟨rfl, rfl⟩, rfl, rfl⟩

theorem after2_layout (T : Nat → List (String × VarData)) (data : Bytes) (f : Nat) (ref t : Int) (r : Bytes) (l : TileLayout) :
    after2 T data f ref t r = some (.layout l) ↔ t ∉ switchNumbers ∧ f ∈ [7, 9, 15] ∧ readLayout f ref t.toNat r = some l := by
  simp only [switchNumbers, List.mem_cons, List.not_mem_nil, or_false, not_or]
  unfold after2
  constructor
  · intro h
    split at h
    · simp at h
    split at h
    · simp at h
    split at h
    · simp at h
    split at h
    · simp at h
    split at h
    · next hf =>
      simp only [Option.map_eq_some_iff, Act2.layout.injEq, exists_eq_right] at h
      refine ⟨by omega, ?_, h⟩
      have : f ≠ 17 := by
        rintro rfl
        simp [readLayout] at h
      omega
    split at h
    · simp at h
    · simp only [Option.bind_eq_some_iff, Option.map_eq_some_iff] at h
      obtain ⟨_, _, _, _, _, _, e⟩ := h
      cases e
  · rintro ⟨h1, h2, h3⟩
    rw [if_neg (by omega), if_neg (by omega), if_neg (by omega), if_neg (by omega), if_pos (by omega), h3]
    rfl

/-- **C64** The short form of a layout. -/
theorem reads_basic (T : Nat → List (String × VarData)) (ctx : PCtx) (bs : Bytes) (b : Basic) :
    Reads T ctx bs (.act2 (.layout (.basic b))) ↔ ∃ x y e1 e2 e3, Begins (basicItems b x y e1 e2 e3) bs ∧ b.feature ∈ [7, 9, 15] ∧
      SpriteFits b.ground ∧ SpriteFits b.building ∧ b.offset = [x, y, 0] ∧ b.extent = [e1, e2, e3] := by
  have hl : ∀ (f : Nat) (ref : Int) (num : Nat) (r : Bytes), f ∈ [7, 9, 15] → (readLayout f ref num r = some (.basic b) ↔ num = 0 ∧ b.feature = f ∧ b.refId = ref ∧
      ∃ x y e1 e2 e3, SpriteFits b.ground ∧ SpriteFits b.building ∧ b.offset = [x, y, 0] ∧ b.extent = [e1, e2, e3] ∧
        ∃ q, Upto [D (spriteNumber b.ground), D (spriteNumber b.building), B x, B y, B e1, B e2, B e3] r q) := by
    intro f ref num r hf
    have hf' : f ≠ 17 := by intro e; subst e; simp at hf
    unfold readLayout
    rw [if_neg hf']
    by_cases hn : num = 0
    · subst hn
      simp only [show (max 0 1 / 64 % 2 == 1) = false from rfl, show max 0 1 % 64 = 1 from rfl, show ((0 : Nat) != 0) = false from rfl,
        Option.bind_eq_bind, Option.bind_eq_some_iff, Prod.exists, read_head, read_regs, announced_eq, if_true, true_and]
      have hone : ∀ (l : List LSpr) (b' r' : Bytes), readN (readLSpr false false) 1 b' = some (l, r') ↔ ∃ sp x y e1 e2 e3, SpriteFits sp ∧
          l = [{ sprite := sp, offset := some [x, y, 0], extent := some [e1, e2, e3] }] ∧ Upto [D (spriteNumber sp), B x, B y, B e1, B e2, B e3] b' r' := by
        intro l b' r'
        simp only [readN_one, Option.bind_eq_bind, Option.bind_eq_some_iff, Prod.exists, Option.some.injEq, Prod.mk.injEq, readLSpr, read_head, read_byte,
          Bool.false_eq_true, if_false]
        constructor
        · rintro ⟨s, ⟨sp, fl, r1, ⟨h1, h2, h3⟩, x, r2, h4, y, r3, h5, z, r4, h6, h⟩, rfl⟩
          obtain ⟨rfl, rfl⟩ := h6
          have := h2 trivial
          subst this
          rw [if_pos (by simp)] at h
          simp only [Option.bind_eq_some_iff, Prod.exists, read_byteList, read_regs, announced_eq, Option.some.injEq, Prod.mk.injEq] at h
          obtain ⟨ext, r7, ⟨h7, h8⟩, regs, r8, ⟨h9, h10, h11⟩, rfl, rfl⟩ := h
          have hr : regs = [] := by
            rw [show announced ((0 : Nat) : Int) true = [] from by decide] at h9
            simpa using h9
          subst hr
          rw [show (List.flatMap (fun p : Reg × RVal => regItems p.2) []) = [] from rfl, upto_nil] at h11
          subst h11
          match ext, h7 with
          | [a, c, d], _ =>
            refine ⟨sp, x, y, a, c, d, h1, rfl, ?_⟩
            simp only [List.map_cons, List.map_nil, upto_cons2, List.append_nil] at h8 h3 ⊢
            exact ⟨r1, h3, r2, h4, _, h5, h8⟩
        · rintro ⟨sp, x, y, a, c, d, h1, rfl, h⟩
          simp only [upto_cons2] at h
          obtain ⟨r1, h3, r2, h4, r3, h5, r5, h6, r6, h7, h8⟩ := h
          refine ⟨_, ⟨sp, 0, r1, ⟨h1, by simp, by simpa using h3⟩, x, r2, h4, y, r3, h5, 0, r3, ⟨rfl, rfl⟩, ?_⟩, rfl⟩
          rw [if_pos (by simp)]
          simp only [Option.bind_eq_some_iff, Prod.exists, read_byteList, read_regs, announced_eq, Option.some.injEq, Prod.mk.injEq]
          refine ⟨[a, c, d], r', ⟨rfl, ?_⟩, [], r', ⟨by decide, by simp, (upto_nil _ _).2 rfl⟩, rfl, rfl⟩
          simp only [List.map_cons, List.map_nil, upto_cons2]
          exact ⟨r5, h6, r6, h7, h8⟩
      simp only [hone]
      constructor
      · rintro ⟨g, fl, r1, ⟨h1, h2, h3⟩, regs, r2, ⟨h4, h5, h6⟩, l, r3, ⟨sp, x, y, e1, e2, e3, h7, rfl, h8⟩, h⟩
        have := h2 trivial
        subst this
        simp only [Option.some.injEq, TileLayout.basic.injEq] at h
        subst h
        have hr : regs = [] := by
          rw [show announced ((0 : Nat) : Int) false = [] from by decide] at h4
          simpa using h4
        subst hr
        rw [show (List.flatMap (fun p : Reg × RVal => regItems p.2) []) = [] from rfl, upto_nil] at h6
        subst h6
        refine ⟨rfl, rfl, x, y, e1, e2, e3, h1, h7, rfl, rfl, r3, ?_⟩
        rw [upto_cons]
        exact ⟨_, by simpa using h3, h8⟩
      · rintro ⟨rfl, rfl, x, y, e1, e2, e3, h1, h7, h8, h9, q, h⟩
        rw [upto_cons] at h
        obtain ⟨r1, h3, h⟩ := h
        refine ⟨b.ground, 0, r1, ⟨h1, by simp, by simpa using h3⟩, [], r1, ⟨by decide, by simp, (upto_nil _ _).2 rfl⟩, _, q,
          ⟨b.building, x, y, e1, e2, e3, h7, rfl, h⟩, ?_⟩
        obtain ⟨_, _, _, _, o, e⟩ := b
        simp only at h8 h9
        subst h8 h9
        rfl
    · simp only [Option.bind_eq_bind, Option.bind_eq_some_iff, Prod.exists, hn, if_false, Option.some.injEq, false_and, iff_false]
      rintro ⟨_, _, _, _, _, _, _, _, _, _, e⟩
      cases e
  rw [reads2]
  have e0 : ∀ x y e1 e2 e3, basicItems b x y e1 e2 e3 = B 2 :: B b.feature :: B b.refId :: B 0 ::
      [D (spriteNumber b.ground), D (spriteNumber b.building), B x, B y, B e1, B e2, B e3] := fun _ _ _ _ _ => rfl
  simp only [e0, begins2]
  constructor
  · rintro ⟨f, ref, t, r, data, rfl, hf, h1, h2⟩
    have hb := type_bound h1
    obtain ⟨h3, h4, h5⟩ := (after2_layout _ _ _ _ _ _ _).1 h2
    obtain ⟨h6, rfl, rfl, x, y, e1, e2, e3, h7, h8, h9, h10, h11⟩ := (hl _ _ _ _ h4).1 h5
    obtain rfl : t = 0 := by omega
    exact ⟨x, y, e1, e2, e3, ⟨data, r, rfl, h1, h11⟩, h4, h7, h8, h9, h10⟩
  · rintro ⟨x, y, e1, e2, e3, ⟨data, r, rfl, h1, h11⟩, h4, h7, h8, h9, h10⟩
    refine ⟨b.feature, b.refId, 0, r, data, rfl, ?_, h1, (after2_layout _ _ _ _ _ _ _).2 ⟨by decide, h4, (hl _ _ _ _ h4).2
      ⟨rfl, rfl, rfl, x, y, e1, e2, e3, h7, h8, h9, h10, h11⟩⟩⟩
    simp at h4; omega

/-- **C64** Layouts: bit 6 of the number of sprites tells whether there are flags; numbers from 128 on which are not those of switches are
read in the same way. -/
theorem reads_layout (T : Nat → List (String × VarData)) (ctx : PCtx) (bs : Bytes) (l : Layout) :
    Reads T ctx bs (.act2 (.layout (.advanced l))) ↔ ∃ (num : Int) (ground : List Piece) (buildings : List (List Piece)),
      Begins (layoutItems l num ground buildings) bs ∧ num ≠ 0 ∧ num ∉ switchNumbers ∧ l.feature ∈ [7, 9, 15] ∧
      l.buildings.length = num % 64 ∧ TileSprite (bitSet num 6) true l.ground ground ∧
      List.Forall₂ (TileSprite (bitSet num 6) false) l.buildings buildings := by
  have hl : ∀ (f : Nat) (ref t : Int) (r : Bytes), 0 ≤ t → f ∈ [7, 9, 15] → (readLayout f ref t.toNat r = some (.advanced l) ↔ t ≠ 0 ∧ l.feature = f ∧ l.refId = ref ∧
      ∃ ground buildings, l.buildings.length = t % 64 ∧ TileSprite (bitSet t 6) true l.ground ground ∧
        List.Forall₂ (TileSprite (bitSet t 6) false) l.buildings buildings ∧ ∃ q, Upto (ground ++ buildings.flatten) r q) := by
    intro f ref t r ht hf
    have hf' : f ≠ 17 := by intro e; subst e; simp at hf
    obtain ⟨num, rfl⟩ := Int.eq_ofNat_of_zero_le ht
    simp only [Int.toNat_natCast]
    unfold readLayout
    rw [if_neg hf']
    by_cases hn : num = 0
    · subst hn
      simp only [Option.bind_eq_bind, Option.bind_eq_some_iff, Prod.exists, if_true]
      constructor
      · rintro ⟨_, _, _, _, _, _, _, _, _, _, h⟩
        split at h <;> simp at h
      · rintro ⟨h, _⟩; exact absurd rfl h
    · have hmax : max num 1 = num := by omega
      have hbit : bitSet (num : Int) 6 = (num / 64 % 2 == 1) := by
        rw [bitSet_nat, Bool.eq_iff_iff]; simp
      have hz : (num != 0) = true := by simpa using hn
      simp only [hmax, hz, ← hbit, Option.bind_eq_bind, Option.bind_eq_some_iff, Prod.exists, read_head, read_regs, announced_eq, hn, if_false,
        read_listRel _ _ (read_tile (bitSet (num : Int) 6)), Option.some.injEq, TileLayout.advanced.injEq]
      constructor
      · rintro ⟨g, fl, r1, ⟨h1, h2, h3⟩, regs, r2, ⟨h4, h5, h6⟩, sprs, r3, ⟨h7, its, h8, h9⟩, rfl⟩
        refine ⟨by omega, rfl, rfl, _, its, by simp only [h7]; omega, ⟨h1, rfl, (fl : Int), false, [], fun e => by rw [h2 e]; rfl, .ground _ rfl rfl rfl, h4, h5, rfl⟩, h8,
          r3, ?_⟩
        rw [upto_append]; refine ⟨r2, ?_, h9⟩
        rw [upto_append]; exact ⟨r1, by simpa using h3, h6⟩
      · rintro ⟨h0, rfl, rfl, _, its, h7, ⟨h1, hp, fl, parent, place, h2, hplace, h4, h5, rfl⟩, h8, q, h⟩
        obtain ⟨lf, lref, ⟨gsp, goff, gext, gpix, gpal, gregs⟩, sprs⟩ := l
        simp only at h1 hp h4 h5 h7 h8 h
        cases hplace with
        | ground _ e1 e2 e3 =>
          simp only at e1 e2 e3
          subst e1 e2 e3 hp
          rw [upto_append] at h; obtain ⟨r2, h, h9⟩ := h
          rw [upto_append] at h; obtain ⟨r1, h3, h6⟩ := h
          rw [List.append_nil] at h3
          have hfl : 0 ≤ fl := by
            cases hb : bitSet (num : Int) 6 with
            | false => rw [h2 hb]; omega
            | true =>
              rw [upto_append] at h3
              obtain ⟨_, _, h3⟩ := h3
              simp only [hb, if_true] at h3
              obtain ⟨x, ⟨h, -⟩, -⟩ := (upto_one _ _ _).1 h3
              exact h.1
          obtain ⟨n, rfl⟩ := Int.eq_ofNat_of_zero_le hfl
          exact ⟨gsp, n, r1, ⟨h1, fun e => by have := h2 e; omega, h3⟩, gregs, r2, ⟨h4, h5, h6⟩, sprs, q, ⟨by omega, its, h8, h9⟩, rfl⟩
  rw [reads2]
  have e0 : ∀ num g bl, layoutItems l num g bl = B 2 :: B l.feature :: B l.refId :: B num :: (g ++ bl.flatten) := by
    intro num g bl; simp [layoutItems]
  simp only [e0, begins2]
  constructor
  · rintro ⟨f, ref, t, r, data, rfl, hf, h1, h2⟩
    have hb := type_bound h1
    obtain ⟨h3, h4, h5⟩ := (after2_layout _ _ _ _ _ _ _).1 h2
    obtain ⟨h6, rfl, rfl, g, bl, h7, h8, h9, h10⟩ := (hl _ _ _ _ hb.1 h4).1 h5
    exact ⟨t, g, bl, ⟨data, r, rfl, h1, h10⟩, h6, h3, h4, h7, h8, h9⟩
  · rintro ⟨t, g, bl, ⟨data, r, rfl, h1, h10⟩, h6, h3, h4, h7, h8, h9⟩
    have hb := type_bound h1
    refine ⟨l.feature, l.refId, t, r, data, rfl, ?_, h1, (after2_layout _ _ _ _ _ _ _).2 ⟨h3, h4, (hl _ _ _ _ hb.1 h4).2
      ⟨h6, rfl, rfl, g, bl, h7, h8, h9, h10⟩⟩⟩
    simp at h4; omega

/-! ### Examples: bytes as another program may write them, and what they are read as -/

/-- No named variables. -/
def noVars : Nat → List (String × VarData) := fun _ => []

/-- Two sets of eight sprites for trains, with a one-byte count. -/
example : Reads noVars {} [1, 0, 2, 8] (.sets ⟨0, 2, 8, none⟩) := ⟨_, rfl⟩
example : Begins (setsItems ⟨0, 2, 8, none⟩) [1, 0, 2, 8] := ((reads_sets noVars {} _ _ _).1 rfl).1
/-- A three-byte count below 255 is read in the same way. -/
example : Reads noVars {} [1, 0, 2, 255, 8, 0] (.sets ⟨0, 2, 8, none⟩) := ⟨_, rfl⟩
example : Reads noVars {} [5, 132, 3, 20] (.newSprites ⟨4, 3, some 20⟩) := ⟨_, rfl⟩
example : Begins (newSpritesItems ⟨4, 3, some 20⟩) [5, 132, 3, 20] := ((reads_newSprites noVars {} _ _ _).1 rfl).1
example : Reads noVars {} [10, 2, 1, 0, 4, 3, 1, 5] (.oldSprites [(1024, 1), (1281, 3)]) := ⟨_, rfl⟩
example : Begins (oldItems [(1024, 1), (1281, 3)]) [10, 2, 1, 0, 4, 3, 1, 5] := ((reads_old noVars {} _ _ _).1 rfl).1

example : Reads noVars {} [6, 4, 2, 7, 255] (.modify [⟨4, 2, 7⟩]) := ⟨_, rfl⟩
example : Begins (modifyItems [⟨4, 2, 7⟩]) [6, 4, 2, 7, 255] := ((reads_modify noVars {} _ _).1 ⟨_, rfl⟩).1
example : Reads noVars {} [17, 2, 0] (.sounds 2) := ⟨_, rfl⟩
example : Reads noVars {} [12, 65, 66] (.comment [65, 66]) := ⟨_, rfl⟩
example : Reads noVars {} [16, 7, 65, 66] (.label ⟨7, [65, 66]⟩) := ⟨_, rfl⟩
example : Reads noVars {} [13, 3, 129, 4, 255, 1, 2, 0, 0] (.compute ⟨3, 1, true, 4, 255, .int 513⟩) := ⟨_, rfl⟩
example : Begins (computeItems ⟨3, 1, true, 4, 255, .int 513⟩) [13, 3, 129, 4, 255, 1, 2, 0, 0] := ((reads_compute noVars {} _ _).1 ⟨_, rfl⟩).1
/-- A test of a bit has one byte, whatever size is given; a comparison has as many as the size says. -/
example : Reads noVars {} [7, 131, 4, 1, 5, 2] (.cond ⟨false, 131, some 1, 1, .int 5, 2⟩) := ⟨_, rfl⟩
example : Reads noVars {} [9, 131, 2, 2, 5, 1, 2] (.cond ⟨true, 131, some 2, 2, .int 261, 2⟩) := ⟨_, rfl⟩
example : Reads noVars {} [8, 8, 1, 2, 3, 4, 65, 0, 66, 0] (.description ⟨8, [1, 2, 3, 4], [65], [66]⟩) := ⟨_, rfl⟩
/-- Without a NUL. -/
example : Reads noVars {} [8, 8, 1, 2, 3, 4, 65, 66] (.description ⟨8, [1, 2, 3, 4], [65], [8, 1, 2, 3, 4, 65]⟩) := ⟨_, rfl⟩
/-- A built-in message without parameters is read right, one with a text of its own is not. -/
example : Reads noVars {} [11, 2, 127, 3] (.error ⟨2, 127, .int 3, none, []⟩) := ⟨_, rfl⟩
example : Reads noVars {} [11, 2, 127, 255, 65, 66, 0] (.error ⟨2, 127, .int 255, some [65, 66], []⟩) := ⟨_, rfl⟩
example : Reads noVars {} [4, 0, 255, 2, 0, 220, 65, 0, 66, 67, 0] (.texts ⟨0, 127, 56320, true, [[65], [66, 67]]⟩) := ⟨_, rfl⟩
example : ∃ x r, Holds (textItems ⟨0, 127, 56320, true, [[65], [66, 67]]⟩) x ∧ [4, 0, 255, 2, 0, 220, 65, 0, 66, 67, 0] = x ++ r :=
  ((reads_texts noVars {} [4, 0, 255, 2, 0, 220, 65, 0, 66, 67, 0] ⟨0, 127, 56320, true, [[65], [66, 67]]⟩).1 ⟨_, rfl⟩).elim
    fun x ⟨r, h1, h2, _⟩ => ⟨x, r, h1, h2⟩
example : Reads noVars ⟨.sound, 2⟩ [254, 0, 1, 2, 3, 4, 5, 0] (.importSound [1, 2, 3, 4] 5) := ⟨_, rfl⟩
/-- The same cargo twice: the last target is kept; the bit of wagon overrides is lost. -/
example : Reads noVars {} [3, 0, 129, 9, 2, 4, 1, 0, 4, 2, 0, 7, 0] (.map ⟨0, [9], [(4, .ref 2)], .ref 7, false⟩) := ⟨_, rfl⟩
example : Reads noVars {} [3, 2, 0, 0, 7, 0] (.map ⟨2, [], [], .ref 7, false⟩) := ⟨_, rfl⟩
example : Reads noVars {} [2, 0, 9, 1, 1, 3, 0, 4, 0] (.act2 (.generic ⟨0, 9, [3], [4]⟩)) := ⟨_, rfl⟩
example : Begins (genericItems ⟨0, 9, [3], [4]⟩) [2, 0, 9, 1, 1, 3, 0, 4, 0] := ((reads_generic noVars {} _ _).1 ⟨_, rfl⟩).1
example : Reads noVars {} [2, 0, 9, 132, 65, 129, 0, 2, 3, 0, 4, 0] (.act2 (.random ⟨0, 9, .relative, some 65, 1, true, 0, [.ref 3, .ref 4]⟩)) := ⟨_, rfl⟩
example : Begins (randomItems ⟨0, 9, .relative, some 65, 1, true, 0, [.ref 3, .ref 4]⟩) [2, 0, 9, 132, 65, 129, 0, 2, 3, 0, 4, 0] :=
  ((reads_random noVars {} _ _).1 ⟨_, rfl⟩).1
example : Reads noVars {} [2, 10, 9, 0, 1, 0, 2, 0, 3, 0, 4, 0, 5, 0, 6] (.act2 (.production (.old 0 [1, 2, 3] [4, 5] 6))) := ⟨_, rfl⟩
example : Reads noVars {} [2, 10, 9, 2, 1, 1, 2, 1, 3, 4, 6] (.act2 (.production (.new [[1, 2]] [[3, 4]] 6))) := ⟨_, rfl⟩
example : ∃ refId, Begins (productionItems refId (.new [[1, 2]] [[3, 4]] 6)) [2, 10, 9, 2, 1, 1, 2, 1, 3, 4, 6] :=
  ((reads_production noVars {} _ _).1 ⟨_, rfl⟩).1
example : Reads noVars {} [2, 9, 4, 0, 1, 0, 0, 0, 2, 0, 0, 128, 0, 0, 16, 16, 8]
    (.act2 (.layout (.basic ⟨9, 4, { id := 1 }, { id := 2, isGlobal := false }, [0, 0, 0], [16, 16, 8]⟩))) := ⟨_, rfl⟩
/-- A layout with flags: the ground, a sprite with its own place and a register, and one over it. -/
example : Reads noVars {} [2, 9, 4, 66, 1, 0, 0, 0, 0, 0, 2, 0, 0, 128, 2, 0, 0, 0, 0, 16, 16, 8, 5, 3, 0, 0, 128, 0, 0, 1, 2, 128]
    (.act2 (.layout (.advanced ⟨9, 4, { sprite := { id := 1 } },
      [{ sprite := { id := 2, isGlobal := false }, offset := some [0, 0, 0], extent := some [16, 16, 8], regs := [(.add, .temp 5)] },
       { sprite := { id := 3, isGlobal := false }, pixelOffset := some [1, 2] }]⟩))) := ⟨_, rfl⟩

end Grf.Acts
