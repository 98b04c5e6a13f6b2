import Verif.Props.Actions
import Verif.Props.SpriteRef
/-!
# C55: tile sprite layouts (houses, industry tiles, objects)
-/
namespace Grf.Acts
open PropC

/-! ### What is read back -/

/-- A register number or a flag byte as it is read back. -/
def seenVal : Reg × RVal → RVal
  | (.customPalette, _) => .bool true
  | (_, .bool b) => .int (if b then 1 else 0)
  | (_, v) => v

/-- The registers of a sprite in the order of the NewGRF flags. -/
def seenRegs (l : List (Reg × RVal)) : List (Reg × RVal) := Reg.all.filterMap fun r => (l.lookup r).map fun v => (r, seenVal (r, v))

/-- A building sprite as it is read back: missing offsets and extents are 0, offsets are unsigned bytes, registers in table order. -/
def LSpr.seen (s : LSpr) : LSpr :=
  if s.isParent then
    { sprite := s.sprite, offset := some ((s.offset.getD [0, 0, 0]).map fun v => v % 256), extent := some (s.extent.getD [0, 0, 0])
      regs := seenRegs s.regs }
  else { sprite := s.sprite, pixelOffset := some ((s.pixelOffset.getD [0, 0]).take 2), regs := seenRegs s.regs }

/-- The modifiers `_encode_sprite` writes: do-draw, sprite offset, custom palette and the two var10 values. -/
def LSpr.plain (s : LSpr) : Prop :=
  s.palette = none ∧ ∀ r ∈ [Reg.addPalette, .deltaParentXY, .deltaParentZ, .deltaChildX, .deltaChildY], s.regs.lookup r = none

theorem regByte_cases {r : Reg} {s : LSpr} {bs : Bytes} (hr : r = .dodraw ∨ r = .add ∨ r = .spriteVar10 ∨ r = .paletteVar10)
    (h : regByte r s = some bs) :
    (s.regs.lookup r = none ∧ bs = []) ∨
      ∃ v x, s.regs.lookup r = some v ∧ bs = [x] ∧ seenVal (r, v) = (if r = .add then .temp (x.toNat : Int) else .int (x.toNat : Int)) := by
  unfold regByte at h
  cases hl : s.regs.lookup r with
  | none => rw [hl] at h; simp only [Option.some.injEq] at h; exact .inl ⟨rfl, h.symm⟩
  | some v =>
    right
    rw [hl] at h
    simp only at h
    by_cases ha : r = .add
    · subst ha
      rw [if_pos rfl] at h
      cases v with
      | temp n =>
        obtain ⟨x, rfl, hn⟩ := bytesOf_one h
        exact ⟨_, x, rfl, rfl, by rw [hn]; rfl⟩
      | _ => simp at h
    · rw [if_neg ha] at h
      simp only [if_neg ha]
      cases v with
      | int n =>
        obtain ⟨x, rfl, hn⟩ := bytesOf_one h
        exact ⟨_, x, rfl, rfl, by rcases hr with rfl | rfl | rfl | rfl <;> simp [seenVal, hn]⟩
      | bool b =>
        obtain ⟨x, rfl, hn⟩ := bytesOf_one h
        refine ⟨_, x, rfl, rfl, ?_⟩
        have : (RVal.int (if b then 1 else 0)) = .int (x.toNat : Int) := by rw [hn]
        rcases hr with rfl | rfl | rfl | rfl <;> first | exact this | exact absurd rfl ha
      | _ => simp [RVal.byte] at h

/-- The register bytes of a sprite are read back. -/
theorem regs_read {s : LSpr} {b1 b2 b3 b4 : Bytes} (hp : s.plain) (h1 : regByte .dodraw s = some b1) (h2 : regByte .add s = some b2)
    (h3 : regByte .spriteVar10 s = some b3) (h4 : regByte .paletteVar10 s = some b4) (p : Bool) (t : Bytes) :
    readRegs s.flags p Reg.all (b1 ++ (b2 ++ (b3 ++ (b4 ++ t)))) = some (seenRegs s.regs, t) := by
  obtain ⟨-, hp⟩ := hp
  simp only [List.forall_mem_cons, List.not_mem_nil, false_implies, implies_true, and_true] at hp
  obtain ⟨p1, p2, p3, p4, p5⟩ := hp
  have c1 := regByte_cases (by simp) h1
  have c2 := regByte_cases (by simp) h2
  have c3 := regByte_cases (by simp) h3
  have c4 := regByte_cases (by simp) h4
  simp only [reduceCtorEq, if_false, if_true] at c1 c2 c3 c4
  rcases hc : s.regs.lookup Reg.customPalette with _ | vc <;>
  rcases c1 with ⟨l1, rfl⟩ | ⟨v1, x1, l1, rfl, e1⟩ <;>
  rcases c2 with ⟨l2, rfl⟩ | ⟨v2, x2, l2, rfl, e2⟩ <;>
  rcases c3 with ⟨l3, rfl⟩ | ⟨v3, x3, l3, rfl, e3⟩ <;>
  rcases c4 with ⟨l4, rfl⟩ | ⟨v4, x4, l4, rfl, e4⟩ <;>
  simp [LSpr.flags, seenRegs, Reg.all, Reg.parent, Reg.bit, Reg.size, readRegs, readReg, readU_one, *] <;>
  rfl

/-- The ground sprite as it is read back. -/
def LSpr.seenGround (s : LSpr) : LSpr := { sprite := s.sprite, regs := seenRegs s.regs }

theorem signed_byte {v : Int} {bs : Bytes} (h : packS 1 v = some bs) : ∃ x : UInt8, bs = [x] ∧ (x.toNat : Int) = v % 256 := by
  obtain ⟨x, rfl, -, h1, h2, h3⟩ := packS_byte h
  refine ⟨x, rfl, ?_⟩
  rw [h3]; split <;> omega

theorem unsigned_byte {v : Int} {bs : Bytes} (h : packU 1 v = some bs) : ∃ x : UInt8, bs = [x] ∧ (x.toNat : Int) = v := by
  obtain ⟨x, rfl, hx⟩ := packU_one_some h
  exact ⟨x, rfl, hx.symm⟩

theorem head_read {s : LSpr} {h : Bytes} (ha : s.sprite.accepted = true) (hh : cat [SpriteRef.encode false s.sprite, packU 2 s.flags] = some h)
    (t : Bytes) : readHead true (h ++ t) = some ((s.sprite, s.flags), t) := by
  simp only [cat_cons_iff, cat_nil_iff] at hh
  obtain ⟨a1, h1, _, ⟨a2, h2, _, rfl, rfl⟩, rfl⟩ := hh
  simp only [readHead, if_true, List.append_nil, List.append_assoc]
  rw [(SpriteRef.sprite_ref_roundtrip false s.sprite a1 _ ha h1).2]
  simp only [Option.bind_eq_bind, Option.bind_some]
  rw [readU_packU h2]
  simp

/-- A ground sprite the writer accepts is read back. -/
theorem ground_read {s : LSpr} {bs : Bytes} (ha : s.sprite.accepted = true) (hp : s.plain) (h : s.encode false = some bs) (t : Bytes) :
    ∃ b, readHead true (bs ++ t) = some ((s.sprite, s.flags), b) ∧ readRegs s.flags false Reg.all b = some (seenRegs s.regs, t) := by
  simp only [LSpr.encode, Option.bind_eq_bind, Option.bind_eq_some_iff, Option.some.injEq, Bool.false_eq_true, if_false] at h
  obtain ⟨hd, h1, a, rfl, r, h2, rfl⟩ := h
  rw [hp.1] at h2
  simp only [cat_cons_iff, cat_nil_iff, Option.some.injEq] at h2
  obtain ⟨b1, q1, _, ⟨b2, q2, _, ⟨b0, rfl, _, ⟨b3, q3, _, ⟨b4, q4, _, rfl, rfl⟩, rfl⟩, rfl⟩, rfl⟩, rfl⟩ := h2
  refine ⟨_, by rw [List.append_assoc, List.append_assoc, head_read ha h1], ?_⟩
  have := regs_read hp q1 q2 q3 q4 false t
  simpa using this

/-- A building sprite the writer accepts is read back. -/
theorem lspr_read {s : LSpr} {bs : Bytes} (ha : s.sprite.accepted = true) (hp : s.plain) (hz : ∀ x y, s.offset ≠ some [x, y, 0x80])
    (h : s.encode true = some bs) (t : Bytes) : readLSpr true true (bs ++ t) = some (s.seen, t) := by
  simp only [LSpr.encode, Option.bind_eq_bind, Option.bind_eq_some_iff, Option.some.injEq, if_true] at h
  obtain ⟨hd, h1, a, haux, r, h2, rfl⟩ := h
  rw [hp.1] at h2
  simp only [cat_cons_iff, cat_nil_iff, Option.some.injEq] at h2
  obtain ⟨b1, q1, _, ⟨b2, q2, _, ⟨b0, rfl, _, ⟨b3, q3, _, ⟨b4, q4, _, rfl, rfl⟩, rfl⟩, rfl⟩, rfl⟩, rfl⟩ := h2
  unfold readLSpr
  rw [List.append_assoc, List.append_assoc, head_read ha h1]
  simp only [Option.bind_eq_bind, Option.bind_some, if_true]
  unfold LSpr.aux at haux
  by_cases hpar : s.isParent
  · rw [if_pos hpar] at haux
    simp only [Option.bind_eq_bind] at haux
    have hz' : ∀ x y, s.offset.getD [0, 0, 0] ≠ [x, y, 0x80] := by
      intro x y
      cases hoff : s.offset with
      | none => simp
      | some l => rw [hoff] at hz; intro hh; exact hz x y (by simpa using hh)
    generalize hO : s.offset.getD [0, 0, 0] = O at haux hz'
    generalize hE : s.extent.getD [0, 0, 0] = E at haux
    have hOs : s.seen = { sprite := s.sprite, offset := some (O.map fun v => v % 256), extent := some E, regs := seenRegs s.regs } := by
      unfold LSpr.seen; rw [if_pos hpar, hO, hE]
    split at haux
    case h_2 => simp at haux
    rename_i x y z
    simp only [Option.bind_eq_some_iff] at haux
    obtain ⟨o, ho, haux⟩ := haux
    split at haux
    case h_2 => simp at haux
    rename_i u v w
    simp only [Option.bind_eq_some_iff, Option.some.injEq] at haux
    obtain ⟨e, he, rfl⟩ := haux
    simp only [cat_cons_iff, cat_nil_iff] at ho he
    obtain ⟨_, o1, _, ⟨_, o2, _, ⟨_, o3, _, rfl, rfl⟩, rfl⟩, rfl⟩ := ho
    obtain ⟨_, e1, _, ⟨_, e2, _, ⟨_, e3, _, rfl, rfl⟩, rfl⟩, rfl⟩ := he
    obtain ⟨x', rfl, hx⟩ := signed_byte o1
    obtain ⟨y', rfl, hy⟩ := signed_byte o2
    obtain ⟨z', rfl, hz1⟩ := unsigned_byte o3
    obtain ⟨u', rfl, rfl⟩ := unsigned_byte e1
    obtain ⟨v', rfl, rfl⟩ := unsigned_byte e2
    obtain ⟨w', rfl, rfl⟩ := unsigned_byte e3
    subst hz1
    have hz2 : (z'.toNat : Int) ≠ 0x80 := by
      intro hh; exact hz' x y (by rw [hh])
    have hz3 : (z'.toNat : Int) % 256 = z'.toNat := by have := z'.toNat_lt; omega
    have hr := regs_read hp q1 q2 q3 q4 true t
    simp only [List.cons_append, List.nil_append, List.append_assoc, List.append_nil, readU_one, Option.bind_some]
    rw [if_pos hz2]
    simp only [readN, readU_one, Option.bind_eq_bind, Option.bind_some]
    rw [hr, hOs]
    simp [hx, hy, hz3]
  · rw [if_neg hpar] at haux
    have hOs : s.seen = { sprite := s.sprite, pixelOffset := some ((s.pixelOffset.getD [0, 0]).take 2), regs := seenRegs s.regs } := by
      unfold LSpr.seen; rw [if_neg hpar]
    generalize s.pixelOffset.getD [0, 0] = P at haux hOs
    split at haux
    case h_2 => simp at haux
    rename_i x y l
    simp only [cat_cons_iff, cat_nil_iff] at haux
    obtain ⟨_, o1, _, ⟨_, o2, _, ⟨_, o3, _, rfl, rfl⟩, rfl⟩, rfl⟩ := haux
    obtain ⟨x', rfl, rfl⟩ := unsigned_byte o1
    obtain ⟨y', rfl, rfl⟩ := unsigned_byte o2
    rw [pk' 0x80 (by decide) o3]
    have hr := regs_read hp q1 q2 q3 q4 false t
    simp only [List.cons_append, List.nil_append, List.append_assoc, List.append_nil, readU_one, Option.bind_some]
    rw [if_neg (by decide)]
    rw [hr, hOs]
    simp

/-- **C55** A layout with at most 63 building sprites which the writer accepts, of houses, industry tiles or objects, is read back: the
same feature and id, the ground sprite, and the building sprites in order, each with its sprite, position, extent and modifiers. -/
theorem layout_read_partial (T : Nat → List (String × VarData)) (ctx : PCtx) (l : Layout) (bs : Bytes)
    (hf : l.feature = 0x07 ∨ l.feature = 0x09 ∨ l.feature = 0x0f) (hacc : l.accepted = true)
    (hs : ∀ s ∈ l.ground :: l.buildings, s.sprite.accepted = true ∧ s.plain)
    (hz : ∀ s ∈ l.buildings, ∀ x y, s.offset ≠ some [x, y, 0x80]) (h : l.getData = some bs) :
    decodePseudo T ctx bs = some (some (.act2 (.layout (.advanced
      ⟨l.feature, l.refId, l.ground.seenGround, l.buildings.map LSpr.seen⟩))), ctx.enter) := by
  obtain ⟨f, ref, g, b⟩ := l
  simp only at hf hs hz
  simp only [Layout.accepted, Bool.and_eq_true, decide_eq_true_eq] at hacc
  simp only [Layout.getData, Option.bind_eq_bind, Option.bind_eq_some_iff, Option.some.injEq] at h
  obtain ⟨hd, h1, gb, hg, bb, hb, rfl⟩ := h
  simp only [cat_cons_iff, cat_nil_iff] at h1
  obtain ⟨_, a1, _, ⟨_, a2, _, ⟨_, a3, _, ⟨_, a4, _, rfl, rfl⟩, rfl⟩, rfl⟩, rfl⟩ := h1
  rw [pk' 2 (by decide) a1]
  simp only [List.nil_append, List.cons_append, List.append_assoc, List.append_nil]
  rw [dp02]
  unfold decode2
  rw [readU_packU a2]
  simp only [Option.bind_eq_bind, Option.bind_some]
  rw [feature_ok (by omega)]
  simp only [Option.bind_some]
  rw [readU_packU a3]
  simp only [Option.bind_some]
  rw [readU_packU a4]
  simp only [Option.bind_some]
  have hlen : b.length < 64 := hacc.2
  rw [if_neg (by omega), if_neg (by omega), if_neg (by omega), if_neg (by omega), if_pos (by omega)]
  have hn : (((b.length : Int) + 0x40)).toNat = b.length + 64 := by omega
  rw [hn]
  unfold readLayout
  rw [if_neg (by omega)]
  have e1 : max (b.length + 64) 1 = b.length + 64 := by omega
  have e2 : ((b.length + 64) / 64 % 2 == 1) = true := by
    have : (b.length + 64) / 64 % 2 = 1 := by omega
    rw [this]; rfl
  have e3 : (b.length + 64) % 64 = b.length := by omega
  have e4 : (b.length + 64 != 0) = true := by simp
  obtain ⟨rest, r1, r2⟩ := ground_read (hs g (by simp)).1 (hs g (by simp)).2 hg bb
  simp only [e1, e2, e3, e4, r1, Option.bind_eq_bind, Option.bind_some, r2]
  have hrd := readN_cat (e := LSpr.encode true) (r := readLSpr true true) (f := LSpr.seen) b
    (fun s hs' bs hbs t => lspr_read (hs s (by simp [hs'])).1 (hs s (by simp [hs'])).2 (hz s hs') hbs t) bb hb []
  rw [List.append_nil] at hrd
  rw [hrd]
  simp only [Option.bind_some]
  rw [if_neg (by omega)]
  rfl

/-- A layout as the reader returns it: positions of parent sprites are unsigned bytes with all three coordinates, child sprites have
two coordinates, modifiers stand in the order of the flags with plain values. -/
def Layout.canonical (l : Layout) : Prop := l.ground.seenGround = l.ground ∧ ∀ s ∈ l.buildings, s.seen = s

/-- **C55** Such a layout is returned unchanged exactly if it is canonical. -/
theorem layout_roundtrip_iff_partial (T : Nat → List (String × VarData)) (ctx : PCtx) (l : Layout) (bs : Bytes)
    (hf : l.feature = 0x07 ∨ l.feature = 0x09 ∨ l.feature = 0x0f) (hacc : l.accepted = true)
    (hs : ∀ s ∈ l.ground :: l.buildings, s.sprite.accepted = true ∧ s.plain)
    (hz : ∀ s ∈ l.buildings, ∀ x y, s.offset ≠ some [x, y, 0x80]) (h : l.getData = some bs) :
    (decodePseudo T ctx bs).map (·.1) = some (some (.act2 (.layout (.advanced l)))) ↔ l.canonical := by
  rw [layout_read_partial T ctx l bs hf hacc hs hz h]
  obtain ⟨f, ref, g, b⟩ := l
  simp only [Option.map_some, Option.some.injEq, Decoded.act2.injEq, Act2.layout.injEq, TileLayout.advanced.injEq, Layout.mk.injEq,
    true_and, Layout.canonical]
  refine and_congr_right fun _ => ?_
  constructor
  · intro hm s hs
    obtain ⟨i, hi, rfl⟩ := List.mem_iff_getElem.mp hs
    have := congrArg (fun l => l[i]?) hm
    simpa [hi] using this
  · intro hall
    conv => rhs; rw [← List.map_id b]
    exact List.map_congr_left fun s hs => hall s hs

theorem lookup_regs (F : Reg → Option RVal) : ∀ (L : List Reg) (r : Reg),
    (L.filterMap fun q => (F q).map fun v => (q, v)).lookup r = if r ∈ L then F r else none := by
  intro L r
  induction L with
  | nil => rfl
  | cons q L ih =>
    simp only [List.filterMap_cons]
    cases hq : F q with
    | none =>
      simp only [Option.map_none]
      rw [ih]
      by_cases h : r = q
      · subst h; simp [hq]
      · simp [h]
    | some v =>
      simp only [Option.map_some, List.lookup_cons]
      by_cases h : r = q
      · subst h; simp [hq]
      · rw [show (r == q) = false by simpa using h]
        simp only [List.mem_cons, h, false_or]
        exact ih

theorem seenRegs_lookup (l : List (Reg × RVal)) (r : Reg) : (seenRegs l).lookup r = (l.lookup r).map fun v => seenVal (r, v) := by
  have := lookup_regs (fun q => (l.lookup q).map fun v => seenVal (q, v)) Reg.all r
  rw [if_pos (by cases r <;> simp [Reg.all])] at this
  rw [← this]
  simp [seenRegs, Option.map_map, Function.comp_def]

theorem seenVal_idem (r : Reg) (v : RVal) : seenVal (r, seenVal (r, v)) = seenVal (r, v) := by
  cases r <;> cases v <;> rfl

theorem seenRegs_idem (l : List (Reg × RVal)) : seenRegs (seenRegs l) = seenRegs l := by
  have : (fun r => ((seenRegs l).lookup r).map fun v => (r, seenVal (r, v))) = fun r => (l.lookup r).map fun v => (r, seenVal (r, v)) := by
    funext r
    rw [seenRegs_lookup, Option.map_map]
    congr 1
    funext v
    simp only [Function.comp, seenVal_idem]
  show List.filterMap _ Reg.all = List.filterMap _ Reg.all
  rw [this]

theorem seen_parent {s : LSpr} (h : s.isParent) :
    s.seen = { sprite := s.sprite, offset := some ((s.offset.getD [0, 0, 0]).map fun v => v % 256), extent := some (s.extent.getD [0, 0, 0]), regs := seenRegs s.regs } := by
  unfold LSpr.seen; rw [if_pos h]

theorem seen_child {s : LSpr} (h : ¬ s.isParent = true) :
    s.seen = { sprite := s.sprite, pixelOffset := some ((s.pixelOffset.getD [0, 0]).take 2), regs := seenRegs s.regs } := by
  unfold LSpr.seen; rw [if_neg h]

/-- What is read back is canonical: reading it once more would change nothing. -/
theorem seen_canonical (l : Layout) : (⟨l.feature, l.refId, l.ground.seenGround, l.buildings.map LSpr.seen⟩ : Layout).canonical := by
  refine ⟨?_, ?_⟩
  · simp [LSpr.seenGround, seenRegs_idem]
  · intro s hs
    obtain ⟨b, -, rfl⟩ := List.mem_map.mp hs
    by_cases hb : b.isParent
    · have hb' : b.seen.isParent = true := by rw [seen_parent hb]; rfl
      rw [seen_parent hb', seen_parent hb]
      simp [seenRegs_idem]
    · have hb' : ¬ b.seen.isParent = true := by rw [seen_child hb]; simp [LSpr.isParent]
      rw [seen_child hb', seen_child hb]
      simp [seenRegs_idem, List.take_take]

/-! ### Where it goes wrong -/

/-- A parent sprite left or above of the origin (a negative offset) is read back with an offset from 128 on, which the writer refuses:
such a layout cannot be recompiled after decompiling. -/
theorem negative_offset_not_recompilable (s : LSpr) (x y z : Int) (ho : s.offset = some [x, y, z]) (hx : x < 0 ∨ y < 0)
    (bs : Bytes) (h : s.encode true = some bs) : s.seen.encode true = none := by
  have hp : s.isParent = true := by simp [LSpr.isParent, ho]
  have hr : -128 ≤ x ∧ x < 128 ∧ -128 ≤ y ∧ y < 128 := by
    simp only [LSpr.encode, Option.bind_eq_bind, Option.bind_eq_some_iff, if_true] at h
    obtain ⟨-, -, a, haux, -⟩ := h
    simp only [LSpr.aux, hp, if_true, ho, Option.getD_some, Option.bind_eq_bind, Option.bind_eq_some_iff] at haux
    obtain ⟨o, ho', -⟩ := haux
    simp only [cat_cons_iff, cat_nil_iff] at ho'
    obtain ⟨_, o1, _, ⟨_, o2, _, -, -⟩, -⟩ := ho'
    have q1 := (ps1 x).mp (by rw [o1]; rfl)
    have q2 := (ps1 y).mp (by rw [o2]; rfl)
    omega
  have hn : s.seen.aux = none := by
    have hp' : s.seen.isParent = true := by rw [seen_parent hp]; rfl
    have ho' : s.seen.offset = some [x % 256, y % 256, z % 256] := by rw [seen_parent hp, ho]; rfl
    unfold LSpr.aux
    rw [if_pos hp', ho']
    simp only [Option.getD_some, Option.bind_eq_bind]
    have : cat [packS 1 (x % 256), packS 1 (y % 256), packU 1 (z % 256)] = none := by
      cases hc : cat [packS 1 (x % 256), packS 1 (y % 256), packU 1 (z % 256)] with
      | none => rfl
      | some c =>
        simp only [cat_cons_iff, cat_nil_iff] at hc
        obtain ⟨_, o1, _, ⟨_, o2, _, -, -⟩, -⟩ := hc
        have q1 := (ps1 _).mp (by rw [o1]; rfl)
        have q2 := (ps1 _).mp (by rw [o2]; rfl)
        omega
    rw [this]; rfl
  simp only [LSpr.encode, if_true, hn, Option.bind_eq_bind, Option.bind_none]
  cases cat [SpriteRef.encode false s.seen.sprite, packU 2 s.seen.flags] <;> rfl

theorem basic_shape {f : Nat} {ref : Int} {g bd : SpriteRef} {off ext : List Int} {bs : Bytes}
    (hl : off.length = 2) (h : (⟨f, ref, g, bd, off, ext⟩ : Basic).getData = some bs) :
    ∃ x y u v w, off = [x, y] ∧ ext = [u, v, w] := by
  obtain ⟨x, y, rfl⟩ : ∃ x y, off = [x, y] := by
    match off, hl with
    | [x, y], _ => exact ⟨x, y, rfl⟩
  unfold Basic.getData at h
  split at h
  · next heq =>
    simp only [List.cons_append, List.nil_append, List.cons.injEq] at heq
    exact ⟨x, y, _, _, _, rfl, heq.2.2⟩
  · simp at h

/-- A basic layout is read back with its sprites and extents, but with a third coordinate 0 in its offset and unsigned coordinates. -/
theorem basic_layout_read (T : Nat → List (String × VarData)) (ctx : PCtx) (b : Basic) (bs : Bytes)
    (hf : b.feature = 0x07 ∨ b.feature = 0x09 ∨ b.feature = 0x0f) (hg : b.ground.accepted = true) (hb : b.building.accepted = true)
    (hl : b.offset.length = 2) (h : b.getData = some bs) :
    decodePseudo T ctx bs = some (some (.act2 (.layout (.basic { b with offset := b.offset.map (· % 256) ++ [0] }))), ctx.enter) := by
  obtain ⟨f, ref, g, bd, off, ext⟩ := b
  obtain ⟨x, y, u, v, w, rfl, rfl⟩ := basic_shape hl h
  simp only [Basic.getData, List.cons_append, List.nil_append, cat_cons_iff, cat_nil_iff] at h
  obtain ⟨_, a1, _, ⟨_, a2, _, ⟨_, a3, _, ⟨_, a4, _, ⟨_, a5, _, ⟨_, a6, _, ⟨_, a7, _, ⟨_, a8, _, ⟨_, a9, _, ⟨_, a10, _, ⟨_, a11, _,
    rfl, rfl⟩, rfl⟩, rfl⟩, rfl⟩, rfl⟩, rfl⟩, rfl⟩, rfl⟩, rfl⟩, rfl⟩, rfl⟩ := h
  simp only at hf hg hb
  obtain ⟨x', rfl, hx⟩ := signed_byte a7
  obtain ⟨y', rfl, hy⟩ := signed_byte a8
  obtain ⟨u', rfl, rfl⟩ := unsigned_byte a9
  obtain ⟨v', rfl, rfl⟩ := unsigned_byte a10
  obtain ⟨w', rfl, rfl⟩ := unsigned_byte a11
  rw [pk' 2 (by decide) a1, pk' 0 (by decide) a4]
  simp only [List.nil_append, List.cons_append, List.append_nil]
  rw [dp02]
  unfold decode2
  rw [readU_packU a2]
  simp only [Option.bind_eq_bind, Option.bind_some]
  rw [feature_ok (by omega)]
  simp only [Option.bind_some]
  rw [readU_packU a3]
  simp only [Option.bind_some, readU_one]
  rw [if_neg (by decide), if_neg (by decide), if_neg (by decide), if_neg (by decide), if_pos (by omega)]
  unfold readLayout
  rw [if_neg (by omega)]
  have hflag : ∀ p bs, readRegs 0 p Reg.all bs = some ([], bs) := by
    intro p bs; simp [readRegs, Reg.all]
  simp only [show (UInt8.toNat 0 : Int).toNat = 0 from rfl, show max 0 1 = 1 from rfl, show (1 / 64 % 2 == 1) = false from rfl,
    show 1 % 64 = 1 from rfl, show (0 != 0) = false from rfl, readHead]
  rw [(SpriteRef.sprite_ref_roundtrip false g _ _ hg a5).2]
  simp only [Option.bind_eq_bind, Option.bind_some, Bool.false_eq_true, if_false, hflag]
  unfold readN readN readLSpr
  simp only [readHead]
  rw [(SpriteRef.sprite_ref_roundtrip false bd _ _ hb a6).2]
  simp only [Option.bind_eq_bind, Option.bind_some, Bool.false_eq_true, if_false, readU_one]
  rw [if_pos (by decide)]
  simp [readN, readU_one, hflag, hx, hy]

/-- Hence a decompiled basic layout can never be written again. -/
theorem basic_layout_not_recompilable (b : Basic) (bs : Bytes) (hl : b.offset.length = 2) (h : b.getData = some bs) :
    ({ b with offset := b.offset.map (· % 256) ++ [0] } : Basic).getData = none := by
  obtain ⟨f, ref, g, bd, off, ext⟩ := b
  obtain ⟨x, y, u, v, w, rfl, rfl⟩ := basic_shape hl h
  rfl

/-- The layouts of the examples: an object with a parent sprite using registers and a child sprite. -/
def exLayout : Layout :=
  ⟨0x0f, 5, { sprite := { id := 3924, pal := 0 }, regs := [(.dodraw, .int 0x80)] },
    [{ sprite := { id := 0x3d, isGlobal := false }, offset := some [1, 2, 3], extent := some [16, 16, 8]
       regs := [(.add, .temp 0x81), (.customPalette, .bool true), (.spriteVar10, .int 2)] },
     { sprite := { id := 7, pal := 775, useRecolour := true }, pixelOffset := some [4, 5], regs := [(.paletteVar10, .int 1)] }]⟩

example : exLayout.accepted = true ∧ (∀ s ∈ exLayout.ground :: exLayout.buildings, s.sprite.accepted = true ∧ s.palette = none) ∧
    exLayout.canonical := by
  refine ⟨by decide +kernel, by decide +kernel, by decide +kernel, by decide +kernel⟩
example : exLayout.getData = some [2, 15, 5, 66, 84, 15, 0, 0, 1, 0, 128, 61, 0, 0, 128, 74, 0, 1, 2, 3, 16, 16, 8, 129, 2,
    7, 128, 7, 3, 128, 0, 4, 5, 128, 1] := by decide +kernel

/-- An offset register for the palette sets its flag but writes no register: the next byte is taken for it (here, nothing is left and
the layout cannot be read). -/
theorem palette_offset_not_written :
    let l : Layout := ⟨0x0f, 5, { sprite := { id := 3924 }, regs := [(.addPalette, .int 0x80)] }, []⟩
    l.accepted = true ∧ l.getData = some [2, 15, 5, 64, 84, 15, 0, 0, 4, 0] ∧
    decodePseudo (fun _ => []) {} [2, 15, 5, 64, 84, 15, 0, 0, 4, 0] = none := by decide +kernel

/-- Bounding box registers set their flags but are not written either. -/
theorem delta_not_written :
    let l : Layout := ⟨0x0f, 5, { sprite := { id := 3924 } },
      [{ sprite := { id := 1 }, offset := some [0, 0, 0], extent := some [1, 1, 1], regs := [(.deltaParentZ, .int 0x80)] }]⟩
    l.accepted = true ∧ l.getData = some [2, 15, 5, 65, 84, 15, 0, 0, 0, 0, 1, 0, 0, 0, 32, 0, 0, 0, 0, 1, 1, 1] ∧
    decodePseudo (fun _ => []) {}
      [2, 15, 5, 65, 84, 15, 0, 0, 0, 0, 1, 0, 0, 0, 32, 0, 0, 0, 0, 1, 1, 1] = none := by decide +kernel

/-- A key `palette` writes a byte without a flag: the building after it is misread. -/
theorem palette_key_misread :
    let l : Layout := ⟨0x0f, 5, { sprite := { id := 3924 }, palette := some (.int 9) },
      [{ sprite := { id := 1 }, pixelOffset := some [1, 2] }]⟩
    l.accepted = true ∧ l.getData = some [2, 15, 5, 65, 84, 15, 0, 0, 0, 0, 9, 1, 0, 0, 0, 0, 0, 1, 2, 128] ∧
    decodePseudo (fun _ => []) {} [2, 15, 5, 65, 84, 15, 0, 0, 0, 0, 9, 1, 0, 0, 0, 0, 0, 1, 2, 128] = none := by
  decide +kernel

/-- A parent sprite at height 128 is written like a child sprite: both give the same first bytes, and the reader takes the extent for
the next sprite. -/
theorem parent_at_height_128_misread :
    let l : Layout := ⟨0x0f, 5, { sprite := { id := 3924 } }, [{ sprite := { id := 1 }, offset := some [1, 2, 0x80], extent := some [7, 8, 9] }]⟩
    let l' : Layout := ⟨0x0f, 5, { sprite := { id := 3924 } }, [{ sprite := { id := 1 }, pixelOffset := some [1, 2] }]⟩
    l.accepted = true ∧ l.getData = l'.getData.map (· ++ [7, 8, 9]) ∧ l'.getData.isSome ∧
    readLSpr true true [1, 0, 0, 0, 0, 0, 1, 2, 128, 7, 8, 9] = some ({ sprite := { id := 1 }, pixelOffset := some [1, 2] }, [7, 8, 9]) := by
  decide +kernel

end Grf.Acts
