import Verif.Props.Layouts
import Verif.Props.PropExact
/-!
# C55, exactly: which tile layouts are read back, and which can be written again
-/
namespace Grf.Acts
open PropC

/-! ### How many bytes the reader takes and the writer makes -/

theorem readReg_len {r : Reg} {bs t : Bytes} {v : RVal} (h : readReg r bs = some (v, t)) : bs.length = r.size + t.length := by
  cases r <;>
    simp only [readReg, Reg.size, reduceCtorEq, if_false, if_true, Option.bind_eq_bind, Option.bind_eq_some_iff, Option.map_eq_some_iff, Option.some.injEq, Prod.mk.injEq, Prod.exists] at h ⊢ <;>
    first
    | (obtain ⟨-, rfl⟩ := h; omega)
    | (obtain ⟨a, b, h1, c, d, h2, -, rfl⟩ := h
       have := readU_rest h1
       have := readU_rest h2
       omega)
    | (obtain ⟨a, b, h1, -, rfl⟩ := h
       exact readU_rest h1)

/-- The bytes the reader takes for the modifiers in `regs`. -/
def regBytes (regs : List (Reg × RVal)) (L : List Reg) : Nat := (L.map fun r => if (regs.lookup r).isSome then r.size else 0).sum

theorem readRegs_keys {fl : Nat} {p : Bool} : ∀ (L : List Reg) (bs t : Bytes) (regs : List (Reg × RVal)),
    readRegs fl p L bs = some (regs, t) → ∀ r ∈ regs.map (·.1), r ∈ L := by
  intro L
  induction L with
  | nil => intro bs t regs h; simp only [readRegs, Option.some.injEq, Prod.mk.injEq] at h; simp [← h.1]
  | cons q L ih =>
    intro bs t regs h r hr
    unfold readRegs at h
    split at h
    · exact List.mem_cons_of_mem _ (ih _ _ _ h r hr)
    · split at h
      · exact List.mem_cons_of_mem _ (ih _ _ _ h r hr)
      · simp only [Option.bind_eq_bind, Option.bind_eq_some_iff, Option.some.injEq, Prod.mk.injEq, Prod.exists] at h
        obtain ⟨v, b1, -, m, b2, h2, rfl, rfl⟩ := h
        simp only [List.map_cons, List.mem_cons] at hr ⊢
        exact hr.imp id (ih _ _ _ h2 r)

theorem readRegs_len {fl : Nat} {p : Bool} : ∀ (L : List Reg) (bs t : Bytes) (regs : List (Reg × RVal)), L.Nodup →
    readRegs fl p L bs = some (regs, t) → bs.length = regBytes regs L + t.length := by
  intro L
  induction L with
  | nil => intro bs t regs _ h; simp only [readRegs, Option.some.injEq, Prod.mk.injEq] at h; simp [← h.2, regBytes]
  | cons q L ih =>
    intro bs t regs hn h
    have hq := (List.nodup_cons.mp hn).1
    have skip : readRegs fl p L bs = some (regs, t) → bs.length = regBytes regs (q :: L) + t.length := by
      intro h
      rw [ih _ _ _ (List.nodup_cons.mp hn).2 h]
      have : regs.lookup q = none := by
        rw [List.lookup_eq_none_iff]
        intro a ha
        rw [bne_iff_ne]
        intro hc
        exact hq (hc ▸ readRegs_keys _ _ _ _ h a.1 (List.mem_map.mpr ⟨a, ha, rfl⟩))
      simp [regBytes, this]
    unfold readRegs at h
    split at h
    · exact skip h
    · split at h
      · exact skip h
      · simp only [Option.bind_eq_bind, Option.bind_eq_some_iff, Option.some.injEq, Prod.mk.injEq, Prod.exists] at h
        obtain ⟨v, b1, h1, m, b2, h2, rfl, rfl⟩ := h
        rw [readReg_len h1, ih _ _ _ (List.nodup_cons.mp hn).2 h2]
        have : regBytes ((q, v) :: m) L = regBytes m L := by
          unfold regBytes
          congr 1
          apply List.map_congr_left
          intro r hr
          rw [List.lookup_cons, show (r == q) = false by
            simp only [beq_eq_false_iff_ne]; rintro rfl; exact hq hr]
        have e2 : regBytes ((q, v) :: m) (q :: L) = q.size + regBytes ((q, v) :: m) L := by
          simp [regBytes, List.lookup_cons]
        rw [e2, this]; omega

/-- The modifiers the reader takes bytes for and the writer makes none for. -/
def dropped (regs : List (Reg × RVal)) : Nat := regBytes regs [.addPalette, .deltaParentXY, .deltaParentZ, .deltaChildX, .deltaChildY]

theorem dropped_zero {s : LSpr} (hp : s.palette = none) (h : dropped s.regs = 0) : s.plain := by
  refine ⟨hp, ?_⟩
  simp only [dropped, regBytes, List.map_cons, List.map_nil, List.sum_cons, List.sum_nil, Reg.size] at h
  intro r hr
  simp only [List.mem_cons, List.not_mem_nil, or_false] at hr
  cases hl : s.regs.lookup r with
  | none => rfl
  | some v => rcases hr with rfl | rfl | rfl | rfl | rfl <;> simp [hl] at h

/-- The bytes the writer makes for the modifiers. -/
def kept (regs : List (Reg × RVal)) : Nat := regBytes regs [.dodraw, .add, .spriteVar10, .paletteVar10]

theorem regBytes_all (regs : List (Reg × RVal)) : regBytes regs Reg.all = kept regs + dropped regs := by
  simp only [regBytes, kept, dropped, Reg.all, List.map_cons, List.map_nil, List.sum_cons, List.sum_nil, Reg.size, ite_self]
  omega

theorem regByte_len {r : Reg} {s : LSpr} {bs : Bytes} (hr : r = .dodraw ∨ r = .add ∨ r = .spriteVar10 ∨ r = .paletteVar10)
    (h : regByte r s = some bs) : bs.length = if (s.regs.lookup r).isSome then r.size else 0 := by
  rcases regByte_cases hr h with ⟨h1, rfl⟩ | ⟨v, x, h1, rfl, -⟩
  · simp [h1]
  · rcases hr with rfl | rfl | rfl | rfl <;> simp [h1, Reg.size]

theorem head_len {s : LSpr} {h : Bytes} (hh : cat [SpriteRef.encode false s.sprite, packU 2 s.flags] = some h) : h.length = 6 := by
  simp only [cat_cons_iff, cat_nil_iff] at hh
  obtain ⟨a1, h1, _, ⟨a2, h2, _, rfl, rfl⟩, rfl⟩ := hh
  have e1 : a1.length = 4 := packU_length h1
  have e2 := packU_length h2
  simp [e1, e2]

theorem aux_len {s : LSpr} {h : Bytes} (hh : s.aux = some h) : h.length = if s.isParent then 6 else 3 := by
  unfold LSpr.aux at hh
  by_cases hp : s.isParent
  · rw [if_pos hp] at hh
    rw [if_pos hp]
    simp only [Option.bind_eq_bind] at hh
    split at hh
    case h_2 => simp at hh
    simp only [Option.bind_eq_some_iff] at hh
    obtain ⟨o, ho, hh⟩ := hh
    split at hh
    case h_2 => simp at hh
    simp only [Option.bind_eq_some_iff, Option.some.injEq] at hh
    obtain ⟨e, he, rfl⟩ := hh
    simp only [cat_cons_iff, cat_nil_iff] at ho he
    obtain ⟨_, o1, _, ⟨_, o2, _, ⟨_, o3, _, rfl, rfl⟩, rfl⟩, rfl⟩ := ho
    obtain ⟨_, e1, _, ⟨_, e2, _, ⟨_, e3, _, rfl, rfl⟩, rfl⟩, rfl⟩ := he
    simp [packS_length o1, packS_length o2, packU_length o3, packU_length e1, packU_length e2, packU_length e3]
  · rw [if_neg hp] at hh
    rw [if_neg hp]
    split at hh
    case h_2 => simp at hh
    simp only [cat_cons_iff, cat_nil_iff] at hh
    obtain ⟨_, o1, _, ⟨_, o2, _, ⟨_, o3, _, rfl, rfl⟩, rfl⟩, rfl⟩ := hh
    simp [packU_length o1, packU_length o2, packU_length o3]

/-- The bytes the writer makes for a sprite without the key `palette`. -/
theorem encode_len {s : LSpr} {a : Bool} {bs : Bytes} (hp : s.palette = none) (h : s.encode a = some bs) :
    bs.length = 6 + (if a then (if s.isParent then 6 else 3) else 0) + kept s.regs := by
  have h : ∃ hd x r, cat [SpriteRef.encode false s.sprite, packU 2 s.flags] = some hd ∧ (if a then s.aux else some []) = some x ∧
      cat [regByte .dodraw s, regByte .add s, (match s.palette with | none => some [] | some v => v.byte), regByte .spriteVar10 s,
        regByte .paletteVar10 s] = some r ∧ hd ++ x ++ r = bs := by
    cases a <;> simp only [LSpr.encode, Bool.false_eq_true, if_false, if_true, Option.bind_eq_bind, Option.bind_eq_some_iff, Option.some.injEq] at h <;>
      (obtain ⟨hd, h1, x, haux, r, h2, h3⟩ := h; exact ⟨hd, x, r, h1, by simpa using haux, h2, h3⟩)
  obtain ⟨hd, x, r, h1, haux, h2, rfl⟩ := h
  rw [hp] at h2
  simp only [cat_cons_iff, cat_nil_iff, Option.some.injEq] at h2
  obtain ⟨b1, q1, _, ⟨b2, q2, _, ⟨b0, rfl, _, ⟨b3, q3, _, ⟨b4, q4, _, rfl, rfl⟩, rfl⟩, rfl⟩, rfl⟩, rfl⟩ := h2
  have e1 := head_len h1
  have e2 : x.length = if a then (if s.isParent then 6 else 3) else 0 := by
    cases a
    · simp only [Bool.false_eq_true, if_false, Option.some.injEq] at haux ⊢; simp [← haux]
    · simp only [if_true] at haux ⊢; exact aux_len haux
  simp only [List.length_append, List.length_nil, e1, e2, regByte_len (Or.inl rfl) q1, regByte_len (Or.inr (Or.inl rfl)) q2,
    regByte_len (Or.inr (Or.inr (Or.inl rfl))) q3, regByte_len (Or.inr (Or.inr (Or.inr rfl))) q4, kept, regBytes, List.map_cons,
    List.map_nil, List.sum_cons, List.sum_nil]
  omega

theorem readHead_len {bs t : Bytes} {r : SpriteRef} {fl : Nat} (h : readHead true bs = some ((r, fl), t)) : bs.length = 6 + t.length := by
  simp only [readHead, SpriteRef.read, if_true, Option.bind_eq_bind, Option.bind_eq_some_iff, Option.some.injEq, Prod.mk.injEq,
    Prod.exists] at h
  obtain ⟨r', b1, ⟨v, b0, h1, -, rfl⟩, fl', b2, h2, -, rfl⟩ := h
  have := readU_rest h1
  have := readU_rest h2
  omega

theorem reg_nodup : Reg.all.Nodup := by decide

/-- What the reader returns for a building sprite has no key `palette`, is never at height 128, and takes its bytes. -/
theorem readLSpr_len {bs t : Bytes} {s : LSpr} (h : readLSpr true true bs = some (s, t)) :
    s.palette = none ∧ (∀ x y, s.offset ≠ some [x, y, 0x80]) ∧
      bs.length = 6 + (if s.isParent then 6 else 3) + kept s.regs + dropped s.regs + t.length := by
  simp only [readLSpr, if_true, Option.bind_eq_bind, Option.bind_eq_some_iff, Prod.exists] at h
  obtain ⟨r, fl, b1, h1, ox, b2, h2, oy, b3, h3, oz, b4, h4, h⟩ := h
  have k1 := readHead_len h1
  have k2 := readU_rest h2
  have k3 := readU_rest h3
  have k4 := readU_rest h4
  split at h
  · next hz =>
    simp only [Option.bind_eq_some_iff, Option.some.injEq, Prod.mk.injEq, Prod.exists] at h
    obtain ⟨ext, b5, h5, regs, b6, h6, rfl, rfl⟩ := h
    have k6 := readRegs_len _ _ _ _ reg_nodup h6
    rw [regBytes_all] at k6
    have k5 : b4.length = 3 + b5.length := by
      simp only [readN, Option.bind_eq_bind, Option.bind_eq_some_iff, Option.some.injEq, Prod.mk.injEq, Prod.exists] at h5
      obtain ⟨_, c1, g1, _, c2, ⟨_, c3, g2, _, c4, ⟨_, c5, g3, _, c6, ⟨-, rfl⟩, -, rfl⟩, -, rfl⟩, -, rfl⟩ := h5
      have := readU_rest g1
      have := readU_rest g2
      have := readU_rest g3
      omega
    refine ⟨rfl, ?_, ?_⟩
    · intro x y hc
      simp only [Option.some.injEq, List.cons.injEq, and_true] at hc
      exact hz hc.2.2
    · simp only [LSpr.isParent, Option.isSome_some, Bool.or_self, if_true]
      omega
  · simp only [Option.bind_eq_some_iff, Option.some.injEq, Prod.mk.injEq, Prod.exists] at h
    obtain ⟨regs, b6, h6, rfl, rfl⟩ := h
    have k6 := readRegs_len _ _ _ _ reg_nodup h6
    rw [regBytes_all] at k6
    refine ⟨rfl, by simp, ?_⟩
    simp only [LSpr.isParent, Option.isSome_none, Bool.or_self, Bool.false_eq_true, if_false]
    omega

theorem readLSprs_len : ∀ (n : Nat) (bs t : Bytes) (l : List LSpr), readN (readLSpr true true) n bs = some (l, t) →
    (∀ s ∈ l, s.palette = none ∧ ∀ x y, s.offset ≠ some [x, y, 0x80]) ∧
      bs.length = (l.map fun s => 6 + (if s.isParent then 6 else 3) + kept s.regs).sum + (l.map fun s => dropped s.regs).sum + t.length := by
  intro n
  induction n with
  | zero => intro bs t l h; simp only [readN, Option.some.injEq, Prod.mk.injEq] at h; simp [← h.1, ← h.2]
  | succ n ih =>
    intro bs t l h
    simp only [readN, Option.bind_eq_bind, Option.bind_eq_some_iff, Option.some.injEq, Prod.mk.injEq, Prod.exists] at h
    obtain ⟨s, b1, h1, m, b2, h2, rfl, rfl⟩ := h
    obtain ⟨i1, i2⟩ := ih _ _ _ h2
    obtain ⟨j1, j2, j3⟩ := readLSpr_len h1
    refine ⟨?_, ?_⟩
    · intro q hq
      rcases List.mem_cons.mp hq with rfl | hq
      · exact ⟨j1, j2⟩
      · exact i1 q hq
    · simp only [List.map_cons, List.sum_cons]; omega

theorem encodeLSprs_len : ∀ (l : List LSpr) (bs : Bytes), (∀ s ∈ l, s.palette = none) → cat (l.map (LSpr.encode true)) = some bs →
    bs.length = (l.map fun s => 6 + (if s.isParent then 6 else 3) + kept s.regs).sum := by
  intro l
  induction l with
  | nil => intro bs _ h; rw [List.map_nil, cat_nil_iff] at h; simp [h]
  | cons s l ih =>
    intro bs hp h
    simp only [List.map_cons, cat_cons_iff] at h
    obtain ⟨a, h1, b, h2, rfl⟩ := h
    have e1 := encode_len (hp s (by simp)) h1
    have e2 := ih b (fun q hq => hp q (by simp [hq])) h2
    simp only [if_true] at e1
    simp only [List.length_append, List.map_cons, List.sum_cons]; omega

theorem sum_none {f : LSpr → Nat} {l : List LSpr} (h : (l.map f).sum = 0) : ∀ s ∈ l, f s = 0 := by
  induction l with
  | nil => simp
  | cons a l ih =>
    simp only [List.map_cons, List.sum_cons] at h
    intro s hs
    rcases List.mem_cons.mp hs with rfl | hs
    · omega
    · exact ih (by omega) s hs

/-- **C55** Which layouts are returned unchanged, exactly. Among all layouts the constructors and the writer accept, the decoder
returns the layout itself if and only if it is a layout of houses, industry tiles or objects in the reader's normal form, no sprite
has one of the modifiers for palette offsets and bounding boxes or the key `palette`, and no parent sprite is at height 128. -/
theorem layout_roundtrip_exact (T : Nat → List (String × VarData)) (ctx : PCtx) (l : Layout) (bs : Bytes) (hacc : l.accepted = true)
    (hs : ∀ s ∈ l.ground :: l.buildings, s.sprite.accepted = true) (h : l.getData = some bs) :
    (decodePseudo T ctx bs).map (·.1) = some (some (.act2 (.layout (.advanced l)))) ↔
      (l.feature = 0x07 ∨ l.feature = 0x09 ∨ l.feature = 0x0f) ∧ l.canonical ∧ (∀ s ∈ l.ground :: l.buildings, s.plain) ∧
        ∀ s ∈ l.buildings, ∀ x y, s.offset ≠ some [x, y, 0x80] := by
  refine ⟨fun hd => ?_, fun ⟨hf, hc, hp, hz⟩ =>
    (layout_roundtrip_iff_partial T ctx l bs hf hacc (fun s hm => ⟨hs s hm, hp s hm⟩) hz h).mpr hc⟩
  have hacc' := hacc
  have hdata := h
  obtain ⟨f, ref, g, b⟩ := l
  simp only [Layout.accepted, Bool.and_eq_true, decide_eq_true_eq] at hacc
  simp only [Layout.getData, Option.bind_eq_bind, Option.bind_eq_some_iff, Option.some.injEq] at h
  obtain ⟨hd', h1, gb, hg, bb, hb, rfl⟩ := h
  simp only [cat_cons_iff, cat_nil_iff] at h1
  obtain ⟨_, a1, _, ⟨_, a2, _, ⟨_, a3, _, ⟨_, a4, _, rfl, rfl⟩, rfl⟩, rfl⟩, rfl⟩ := h1
  have hlen : b.length < 64 := hacc.2
  have hff : f = 7 ∨ f = 9 ∨ f = 15 ∨ f = 10 ∨ f = 20 := by
    have := hacc.1; simp only [tileFeature, List.contains_iff_mem, List.mem_cons, List.not_mem_nil, or_false] at this; exact this
  -- what the decoder does
  have key : (f = 7 ∨ f = 9 ∨ f = 15) ∧
      readLayout f ref (b.length + 64) (gb ++ bb) = some (.advanced ⟨f, ref, g, b⟩) := by
    rw [pk' 2 (by decide) a1] at hd
    simp only [List.nil_append, List.cons_append, List.append_assoc, List.append_nil] at hd
    rw [dp02] at hd
    unfold decode2 at hd
    rw [readU_packU a2] at hd
    simp only [Option.bind_eq_bind, Option.bind_some] at hd
    rw [feature_ok (by omega)] at hd
    simp only [Option.bind_some] at hd
    rw [readU_packU a3] at hd
    simp only [Option.bind_some] at hd
    rw [readU_packU a4] at hd
    simp only [Option.bind_some] at hd
    rw [if_neg (by omega), if_neg (by omega), if_neg (by omega), if_neg (by omega)] at hd
    by_cases hf : f = 7 ∨ f = 9 ∨ f = 15
    · refine ⟨hf, ?_⟩
      rw [if_pos (by omega)] at hd
      have hn : (((b.length : Int) + 0x40)).toNat = b.length + 64 := by omega
      rw [hn] at hd
      simpa using hd
    · rw [if_neg (by omega)] at hd
      by_cases h10 : f = 10
      · rw [if_pos h10] at hd; simp at hd
      · rw [if_neg h10] at hd
        simp only [Option.map_eq_some_iff, Option.bind_eq_some_iff, Option.some.injEq, Prod.exists, Prod.mk.injEq] at hd
        obtain ⟨x, y, ⟨z, ⟨_, _, -, _, _, -, _, _, -, rfl⟩, rfl, rfl⟩, hx⟩ := hd
        simp at hx
  obtain ⟨hf, hr⟩ := key
  have hpz : (∀ s ∈ g :: b, s.plain) ∧ ∀ s ∈ b, ∀ x y, s.offset ≠ some [x, y, 0x80] := by
    unfold readLayout at hr
    rw [if_neg (by omega)] at hr
    have e1 : max (b.length + 64) 1 = b.length + 64 := by omega
    have e2 : ((b.length + 64) / 64 % 2 == 1) = true := by
      have : (b.length + 64) / 64 % 2 = 1 := by omega
      rw [this]; rfl
    have e3 : (b.length + 64) % 64 = b.length := by omega
    have e4 : (b.length + 64 != 0) = true := by simp
    simp only [e1, e2, e3, e4, Option.bind_eq_bind, Option.bind_eq_some_iff, Prod.exists] at hr
    obtain ⟨r, fl, b1, r1, regs, b2, r2, sprs, b3, r3, hr⟩ := hr
    rw [if_neg (by omega)] at hr
    simp only [Option.some.injEq, TileLayout.advanced.injEq, Layout.mk.injEq, true_and] at hr
    obtain ⟨rfl, rfl⟩ := hr
    have k1 := readHead_len r1
    have k2 := readRegs_len _ _ _ _ reg_nodup r2
    rw [regBytes_all] at k2
    obtain ⟨k3, k4⟩ := readLSprs_len _ _ _ _ r3
    have w1 := encode_len (s := { sprite := r, regs := regs }) rfl hg
    have w2 := encodeLSprs_len _ _ (fun s hm => (k3 s hm).1) hb
    simp only [List.length_append, Bool.false_eq_true, if_false] at k1 k2 k4 w1 w2
    have z1 : dropped regs = 0 := by omega
    have z2 : (sprs.map fun s => dropped s.regs).sum = 0 := by omega
    refine ⟨?_, fun s hm => (k3 s hm).2⟩
    intro s hm
    rcases List.mem_cons.mp hm with rfl | hm
    · exact dropped_zero rfl z1
    · exact dropped_zero (k3 s hm).1 (by
        exact sum_none z2 s hm)
  exact ⟨hf, (layout_roundtrip_iff_partial T ctx _ _ hf hacc' (fun s hm => ⟨hs s hm, hpz.1 s hm⟩) hpz.2 hdata).mp hd, hpz.1, hpz.2⟩

/-! ### Writing it again -/

/-- No coordinate of a parent sprite is negative. -/
def LSpr.onTile (s : LSpr) : Prop := ∀ x y z, s.offset = some [x, y, z] → 0 ≤ x ∧ 0 ≤ y

theorem seen_isParent (s : LSpr) : s.seen.isParent = s.isParent := by
  by_cases h : s.isParent = true
  · rw [seen_parent h, h]; rfl
  · rw [seen_child h]
    simp only [Bool.not_eq_true] at h
    rw [h]; rfl

theorem seen_regs (s : LSpr) : s.seen.regs = seenRegs s.regs := by
  by_cases h : s.isParent = true
  · rw [seen_parent h]
  · rw [seen_child h]

theorem seen_sprite (s : LSpr) : s.seen.sprite = s.sprite := by
  by_cases h : s.isParent = true
  · rw [seen_parent h]
  · rw [seen_child h]

theorem seen_palette (s : LSpr) : s.seen.palette = none := by
  by_cases h : s.isParent = true
  · rw [seen_parent h]
  · rw [seen_child h]

theorem flags_congr {s t : LSpr} (hp : s.isParent = t.isParent) (hr : ∀ r, (s.regs.lookup r).isSome = (t.regs.lookup r).isSome) :
    s.flags = t.flags := by
  unfold LSpr.flags
  simp only [hp, hr]

theorem regByte_seen {s t : LSpr} (h : t.regs = seenRegs s.regs) {r : Reg}
    (hr : r = .dodraw ∨ r = .add ∨ r = .spriteVar10 ∨ r = .paletteVar10) : regByte r t = regByte r s := by
  unfold regByte
  rw [h, seenRegs_lookup]
  cases s.regs.lookup r with
  | none => rfl
  | some v => rcases hr with rfl | rfl | rfl | rfl <;> cases v <;> rfl

theorem aux_seen {s : LSpr} {a : Bytes} (h : s.aux = some a) (ht : s.onTile) : s.seen.aux = some a := by
  unfold LSpr.aux at h ⊢
  rw [seen_isParent]
  by_cases hp : s.isParent
  · rw [if_pos hp] at h ⊢
    have ht' : ∀ x y z, s.offset.getD [0, 0, 0] = [x, y, z] → 0 ≤ x ∧ 0 ≤ y := by
      intro x y z hz
      cases ho : s.offset with
      | none => rw [ho] at hz; simp at hz; omega
      | some l => rw [ho] at hz; exact ht x y z (by rw [ho]; simpa using hz)
    have eo : s.seen.offset.getD [0, 0, 0] = (s.offset.getD [0, 0, 0]).map fun v => v % 256 := by rw [seen_parent hp]; rfl
    have ee : s.seen.extent.getD [0, 0, 0] = s.extent.getD [0, 0, 0] := by rw [seen_parent hp]; rfl
    rw [eo, ee]
    generalize s.offset.getD [0, 0, 0] = O at h ht' ⊢
    simp only [Option.bind_eq_bind] at h ⊢
    split at h
    case h_2 => simp at h
    rename_i x y z
    have hn := ht' x y z rfl
    simp only [Option.bind_eq_some_iff] at h
    obtain ⟨o, ho, h⟩ := h
    have ho' := ho
    simp only [cat_cons_iff, cat_nil_iff] at ho'
    obtain ⟨_, o1, _, ⟨_, o2, _, ⟨_, o3, _, -, -⟩, -⟩, -⟩ := ho'
    have q1 := (ps1 x).mp (by rw [o1]; rfl)
    have q2 := (ps1 y).mp (by rw [o2]; rfl)
    obtain ⟨z', -, q3⟩ := unsigned_byte o3
    have q4 := z'.toNat_lt
    have e1 : x % 256 = x := by omega
    have e2 : y % 256 = y := by omega
    have e3 : z % 256 = z := by omega
    simp only [List.map_cons, List.map_nil, e1, e2, e3, ho, Option.bind_some]
    exact h
  · rw [if_neg hp] at h ⊢
    have eo : s.seen.pixelOffset.getD [0, 0] = (s.pixelOffset.getD [0, 0]).take 2 := by rw [seen_child hp]; rfl
    rw [eo]
    generalize s.pixelOffset.getD [0, 0] = P at h ⊢
    split at h
    case h_2 => simp at h
    exact h

/-- A sprite which was read back is written to the same bytes unless a coordinate was negative. -/
theorem encode_seen {s : LSpr} {bs : Bytes} (hp : s.plain) (h : s.encode true = some bs) (ht : s.onTile) : s.seen.encode true = some bs := by
  simp only [LSpr.encode, Option.bind_eq_bind, Option.bind_eq_some_iff, Option.some.injEq, if_true] at h ⊢
  obtain ⟨hd, h1, a, haux, r, h2, rfl⟩ := h
  have hf : s.seen.flags = s.flags := flags_congr (seen_isParent s) (by intro r; rw [seen_regs, seenRegs_lookup]; simp)
  refine ⟨hd, by rw [seen_sprite, hf]; exact h1, a, aux_seen haux ht, r, ?_, rfl⟩
  rw [regByte_seen (seen_regs s) (Or.inl rfl), regByte_seen (seen_regs s) (Or.inr (Or.inl rfl)),
    regByte_seen (seen_regs s) (Or.inr (Or.inr (Or.inl rfl))), regByte_seen (seen_regs s) (Or.inr (Or.inr (Or.inr rfl))), seen_palette]
  rw [hp.1] at h2
  exact h2

theorem encode_seenGround {s : LSpr} {bs : Bytes} (hp : s.plain) (h : s.encode false = some bs) : s.seenGround.encode false = some bs := by
  simp only [LSpr.encode, Option.bind_eq_bind, Option.bind_eq_some_iff, Option.some.injEq, Bool.false_eq_true, if_false] at h ⊢
  obtain ⟨hd, h1, a, haux, r, h2, rfl⟩ := h
  have hd0 : s.regs.lookup Reg.deltaParentXY = none ∧ s.regs.lookup Reg.deltaParentZ = none ∧ s.regs.lookup Reg.deltaChildX = none ∧
      s.regs.lookup Reg.deltaChildY = none := ⟨hp.2 _ (by simp), hp.2 _ (by simp), hp.2 _ (by simp), hp.2 _ (by simp)⟩
  have hf : s.seenGround.flags = s.flags := by
    unfold LSpr.flags
    simp only [LSpr.seenGround, seenRegs_lookup, Reg.all, List.foldl_cons, List.foldl_nil, Reg.parent, hd0, Option.isSome_none,
      Bool.false_eq_true, if_false, Option.isSome_some, Option.isSome_map, ite_self, false_and]
  refine ⟨hd, by rw [hf]; exact h1, a, haux, r, ?_, rfl⟩
  have hr : s.seenGround.regs = seenRegs s.regs := rfl
  rw [regByte_seen hr (Or.inl rfl), regByte_seen hr (Or.inr (Or.inl rfl)), regByte_seen hr (Or.inr (Or.inr (Or.inl rfl))),
    regByte_seen hr (Or.inr (Or.inr (Or.inr rfl)))]
  rw [hp.1] at h2
  exact h2

/-- The layout the decoder returns for `l` (`layout_read_partial`). -/
def Layout.seen (l : Layout) : Layout := ⟨l.feature, l.refId, l.ground.seenGround, l.buildings.map LSpr.seen⟩

/-- **C55** What a layout inside the boundary of C55 is read back as: the same feature and id, the ground sprite, and the building
sprites in order, each with its sprite, position, extent and modifiers. -/
theorem layout_read (T : Nat → List (String × VarData)) (ctx : PCtx) (l : Layout) (bs : Bytes)
    (hf : l.feature = 0x07 ∨ l.feature = 0x09 ∨ l.feature = 0x0f) (hacc : l.accepted = true)
    (hs : ∀ s ∈ l.ground :: l.buildings, s.sprite.accepted = true) (hp : ∀ s ∈ l.ground :: l.buildings, s.plain)
    (hz : ∀ s ∈ l.buildings, ∀ x y, s.offset ≠ some [x, y, 0x80]) (h : l.getData = some bs) :
    decodePseudo T ctx bs = some (some (.act2 (.layout (.advanced l.seen))), ctx.enter) :=
  layout_read_partial T ctx l bs hf hacc (fun s hm => ⟨hs s hm, hp s hm⟩) hz h

/-- **C55** Writing again, exactly: what the decoder returns is written to the very bytes it was read from if no parent sprite has a
negative coordinate; if one has, the decompiled layout is refused by the writer. -/
theorem layout_recompile_exact (l : Layout) (bs : Bytes) (hp : ∀ s ∈ l.ground :: l.buildings, s.plain) (h : l.getData = some bs) :
    ((∀ s ∈ l.buildings, s.onTile) → l.seen.getData = some bs) ∧ ((∃ s ∈ l.buildings, ¬ s.onTile) → l.seen.getData = none) := by
  obtain ⟨f, ref, g, b⟩ := l
  simp only [Layout.getData, Option.bind_eq_bind, Option.bind_eq_some_iff, Option.some.injEq] at h
  obtain ⟨hd, h1, gb, hg, bb, hb, rfl⟩ := h
  simp only at hp
  constructor
  · intro ht
    simp only [Layout.getData, Layout.seen, Option.bind_eq_bind, Option.bind_eq_some_iff, Option.some.injEq, List.length_map]
    refine ⟨hd, h1, gb, encode_seenGround (hp g (by simp)) hg, bb, ?_, rfl⟩
    have : ∀ (m : List LSpr) (x : Bytes), (∀ s ∈ m, s.plain ∧ s.onTile) → cat (m.map (LSpr.encode true)) = some x →
        cat ((m.map LSpr.seen).map (LSpr.encode true)) = some x := by
      intro m
      induction m with
      | nil => intro x _ h; exact h
      | cons s m ih =>
        intro x hm h
        simp only [List.map_cons, cat_cons_iff] at h ⊢
        obtain ⟨a, h1, c, h2, rfl⟩ := h
        exact ⟨a, encode_seen (hm s (by simp)).1 h1 (hm s (by simp)).2, c, ih c (fun q hq => hm q (by simp [hq])) h2, rfl⟩
    exact this b bb (fun s hs => ⟨hp s (by simp [hs]), ht s hs⟩) hb
  · rintro ⟨s, hs, hn⟩
    have hn' : ∃ x y z, s.offset = some [x, y, z] ∧ (x < 0 ∨ y < 0) := by
      unfold LSpr.onTile at hn
      simp only [Classical.not_forall] at hn
      obtain ⟨x, y, z, h1, h2⟩ := hn
      exact ⟨x, y, z, h1, by omega⟩
    obtain ⟨x, y, z, ho, hx⟩ := hn'
    obtain ⟨q, hq⟩ := cat_mem hb s hs
    have hnone := negative_offset_not_recompilable s x y z ho hx q hq
    cases hc : (⟨f, ref, g, b⟩ : Layout).seen.getData with
    | none => rfl
    | some c =>
      simp only [Layout.getData, Layout.seen, Option.bind_eq_bind, Option.bind_eq_some_iff, Option.some.injEq] at hc
      obtain ⟨-, -, -, -, cc, hcc, -⟩ := hc
      obtain ⟨q', hq'⟩ := cat_mem hcc s.seen (List.mem_map.mpr ⟨s, hs, rfl⟩)
      rw [hnone] at hq'
      cases hq'

/-- The example of `Layouts.lean` meets all conditions, so it is read back unchanged and is written to the same bytes. -/
example : exLayout.accepted = true ∧ (∀ s ∈ exLayout.ground :: exLayout.buildings, s.sprite.accepted = true ∧ s.plain) ∧
    (∀ s ∈ exLayout.buildings, s.onTile) ∧ exLayout.getData.isSome := by
  refine ⟨by decide +kernel, ?_, ?_, by decide +kernel⟩
  · intro s hs
    simp only [exLayout, List.mem_cons, List.not_mem_nil, or_false] at hs
    unfold LSpr.plain
    rcases hs with rfl | rfl | rfl <;> decide +kernel
  · intro s hs
    simp only [exLayout, List.mem_cons, List.not_mem_nil, or_false] at hs
    rcases hs with rfl | rfl <;> intro x y z h <;> simp at h
    omega

end Grf.Acts
