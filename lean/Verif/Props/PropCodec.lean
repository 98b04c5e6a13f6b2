import Verif.Proofs.PropCodec2
/-!
# C07, C09, C10, C11: property values of every format are read back
-/
namespace Grf.PropC

/-- What the values of a format have to satisfy, beyond being accepted by the writer, to be read back *unchanged*.
The constructors' own checks (`Tile.accepted`, `SpriteRef.accepted`) are part of it. Anything else fails in the code,
see the counterexamples below. -/
def WellFormed : Fmt → PVal → Prop
  | .L, .label l => ∃ b, l = .bytes b
  | .L2, .labels ls => ∀ l ∈ ls, ∃ b, l = .bytes b
  | .nL, .labels ls => ∀ l ∈ ls, ∃ b, l = .bytes b
  | .date, .date d => d.Valid ∧ 1 ≤ d.year ∧ d.year ≤ 9999
  | .date, .int n => n < 366 ∨ 3652424 < n
  | .id, v => ∃ n, v = .int n
  | .idx, v => ∃ n, v = .int n
  | .size, v => ∃ x y, v = .pair x y ∧ 0 ≤ x ∧ x < 16 ∧ 0 ≤ y ∧ y < 16
  | .bridge, .bridge _ ts => ∀ l ∈ ts, ∀ r ∈ l, SpriteRef.accepted r = true
  -- keys are different and not 0, no list is empty, texts contain no NUL
  | .multiDict, .texts d => (d.map (·.1)).Nodup ∧ ∀ kv ∈ d, kv.1 ≠ 0 ∧ kv.2 ≠ [] ∧ ∀ v ∈ kv.2, (0 : UInt8) ∉ v
  -- the constructors accept the items; none of them is a special check
  | .layouts, .layouts ls => ∀ l ∈ ls, layoutAccepted l = true ∧ ∀ t ∈ l, ∀ x y, t ≠ .check x y
  -- see `LayoutOk`; registers are in canonical form and sprites have no children of their own
  | .newStation, .station ls => ∀ l ∈ ls, LayoutOk l ∧ ∀ s ∈ l, s.flat.kind.isChild = false ∧ s.children = [] ∧
      normRegs s.flat.regs = s.flat.regs
  | _, _ => True

/-! ### What is read in general -/

/-- What is read back for a value that is written: integer labels come back as bytes, objects as their ids, day numbers as
dates, sizes as pairs, sprites of a station layout grouped by parent. -/
def norm : Fmt → PVal → PVal
  | .L, .label l => .label (normLab l)
  | .L2, .labels ls => .labels (ls.map normLab)
  | .nL, .labels ls => .labels (ls.map normLab)
  | .date, .date d => if d.year = 0 ∨ 9999 < d.year then .int (dateToDays d.year d.month d.day) else .date d
  | .date, .int n => if n < 366 ∨ 3652424 < n then .int n else .date (Spec.nthDay n.toNat)
  | .id, .obj n => .int n
  | .idx, .obj n => .int n
  | .size, .int n => .pair (n % 16) (n / 16)
  | .multiDict, .texts d => .texts (dropEmpty d)
  | .newStation, .station ls => .station (ls.map normLayout)
  | _, v => v

/-- What is needed for `norm` to describe what is read. -/
def Faithful : Fmt → PVal → Prop
  | .date, .date d => d.Valid
  | .size, .pair x y => 0 ≤ x ∧ x < 16 ∧ 0 ≤ y ∧ y < 16
  | .bridge, .bridge _ ts => ∀ l ∈ ts, ∀ r ∈ l, SpriteRef.accepted r = true
  | .multiDict, .texts d => (d.map (·.1)).Nodup ∧ ∀ kv ∈ d, kv.1 ≠ 0 ∧ ∀ v ∈ kv.2, (0 : UInt8) ∉ v
  | .layouts, .layouts ls => ∀ l ∈ ls, layoutAccepted l = true ∧ ∀ t ∈ l, ∀ x y, t ≠ .check x y
  | .newStation, .station ls => ∀ l ∈ ls, LayoutOk l
  | _, _ => True

theorem date_range {d : Spec.CDate} (h : d.Valid) :
    (d.year = 0 ∨ 9999 < d.year) ↔ (dateToDays d.year d.month d.day < 366 ∨ dateToDays d.year d.month d.day > 3652424) := by
  have v1 : (⟨1, 1, 1⟩ : Spec.CDate).Valid := by decide
  have v2 : (⟨9999, 12, 31⟩ : Spec.CDate).Valid := by decide
  have e1 : dateToDays 1 1 1 = 366 := by decide
  have e2 : dateToDays 9999 12 31 = 3652424 := by decide
  constructor
  · rintro (h0 | h0)
    · have := to_days_strict_mono d ⟨1, 1, 1⟩ h v1 (Or.inl (by simp [h0]))
      simp only [e1] at this; exact Or.inl this
    · have := to_days_strict_mono ⟨9999, 12, 31⟩ d v2 h (Or.inl h0)
      simp only [e2] at this; exact Or.inr this
  · intro h0
    apply Classical.byContradiction
    intro hn
    rw [not_or] at hn
    have ⟨hm1, hm2, hd1, hd2⟩ := h
    have hd31 : d.day ≤ 31 := by
      refine Nat.le_trans hd2 ?_
      unfold Spec.monthLength; split <;> split <;> decide
    rcases h0 with h0 | h0
    · rcases before_total d ⟨1, 1, 1⟩ with h1 | h1 | h1
      · rw [h1] at h0; simp only [e1] at h0; omega
      · simp only [Spec.CDate.Before] at h1; omega
      · have := to_days_strict_mono ⟨1, 1, 1⟩ d v1 h h1
        simp only [e1] at this; omega
    · rcases before_total d ⟨9999, 12, 31⟩ with h1 | h1 | h1
      · rw [h1] at h0; simp only [e2] at h0; omega
      · have := to_days_strict_mono d ⟨9999, 12, 31⟩ h v2 h1
        simp only [e2] at this; omega
      · simp only [Spec.CDate.Before] at h1; omega

theorem readCounted_encode {l : List Int} {n b : Bytes} (hn : packU 1 (l.length : Int) = some n) (hb : bytesOf l = some b) (t : Bytes) :
    readCounted (n ++ b ++ t) = some (l, t) := by
  have hl := bytesOf_length hb
  simp only [readCounted, List.append_assoc, readU_packU hn, Option.bind_eq_bind, Option.bind_some, Int.toNat_natCast, ← hl,
    List.take_left, List.drop_left, ← bytesOf_some hb]

theorem or_nibbles (x y : Nat) (hx : x < 16) : pyOr ((y : Int) * 16) (x : Int) = ((16 * y + x : Nat) : Int) := by
  have e : ((y : Int) * 16) = Int.ofNat (2 ^ 4 * y) := by simp; omega
  rw [e]
  show Int.ofNat (2 ^ 4 * y ||| x) = _
  rw [← Nat.two_pow_add_eq_or_of_lt (i := 4) hx]
  simp

theorem and_nibble (n : Nat) : pyAnd (n : Int) 0xf = ((n % 16 : Nat) : Int) := SpriteRef.and_mask 4 n

theorem shr_nibble (n : Nat) : Int.shiftRight (n : Int) 4 = ((n / 16 : Nat) : Int) := by
  show ((n >>> 4 : Nat) : Int) = _
  rw [Nat.shiftRight_eq_div_pow]

theorem notStartsFE {l : List Tile} (hacc : layoutAccepted l = true) : ∀ t ∈ l.head?, t.xofs ≠ 0xfe := by
  intro t ht hs
  cases l with
  | nil => simp at ht
  | cons a l =>
    simp only [List.head?_cons, Option.mem_def, Option.some.injEq] at ht
    subst ht
    simp [layoutAccepted, hs] at hacc

set_option maxRecDepth 4000 in
/-- **C07, C09-C11** (general form): every value the writer accepts, in every format that has a reader, is read back as `norm`
says, and exactly the bytes written are consumed. -/
theorem property_value_read (f : Fmt) (v : PVal) (bs t : Bytes) (he : encode f v = some bs) (h8 : f ≠ .B8) (hf : Faithful f v) :
    read f (bs ++ t) = some (norm f v, t) := by
  cases f <;> cases v <;> simp only [encode, reduceCtorEq] at he
  case B.int n => simp [read, readU_packU he, norm]
  case b.int n => simp [read, readS_packS he, norm]
  case W.int n => simp [read, readU_packU he, norm]
  case D.int n => simp [read, readU_packU he, norm]
  case L.label l => simp [read, readLabel_encode he, norm]
  case Bx.int n =>
    obtain ⟨a, r1, ha, h1, rfl⟩ := cat_cons he
    obtain ⟨c, r2, hc, h2, rfl⟩ := cat_cons h1
    rw [cat_nil h2]
    obtain ⟨x, rfl, hx⟩ := packU_one_some ha
    have hx' : x = 255 := by apply UInt8.toNat_inj.mp; show x.toNat = 255; omega
    subst hx'
    simp only [read, List.append_nil, List.cons_append, List.nil_append, readExt]
    simp [readU_packU hc, norm]
  case nB.ints l =>
    simp only [Option.bind_eq_bind, Option.bind_eq_some_iff, Option.some.injEq] at he
    obtain ⟨n, hn, b, hb, rfl⟩ := he
    simp only [read, readCounted_encode hn hb, norm, Option.map_some]
  case byteList.ints l =>
    simp only [Option.bind_eq_bind, Option.bind_eq_some_iff, Option.some.injEq] at he
    obtain ⟨n, hn, b, hb, rfl⟩ := he
    simp only [read, readCounted_encode hn hb, norm, Option.map_some]
  case B8.ints l => exact absurd rfl h8
  case L2.labels l =>
    split at he
    · next hl =>
      have := readN_cat (e := encodeLabel) (r := readLabel) (f := normLab) l (fun x _ bs hb t => readLabel_encode hb t) bs he t
      rw [hl] at this
      simp [read, this, norm]
    · simp at he
  case nL.labels l =>
    simp only [Option.bind_eq_bind, Option.bind_eq_some_iff, Option.some.injEq] at he
    obtain ⟨n, hn, b, hb, rfl⟩ := he
    obtain ⟨x, rfl, hx⟩ := bytesOf_one hn
    have := readN_cat (e := encodeLabel) (r := readLabel) (f := normLab) l (fun x _ bs hb t => readLabel_encode hb t) b hb t
    have hx' : x.toNat = l.length := by omega
    simp [read, readU_one, hx', this, norm]
  case date.int n =>
    obtain ⟨h0, _, _⟩ := packU_some he
    simp only [read, readU_packU he, Option.map_some, norm, daysToDate]
    obtain ⟨m, rfl⟩ := Int.eq_ofNat_of_zero_le h0
    by_cases hm : m < 366 ∨ m > 3652424
    · rw [if_pos (by simpa using hm), if_pos (by omega)]; simp
    · rw [if_neg (by simpa using hm), if_neg (by omega)]
  case date.date d =>
    simp only [read, readU_packU he, Option.map_some, norm, daysToDate, Int.toNat_natCast]
    have hv : d.Valid := hf
    by_cases hd : d.year = 0 ∨ 9999 < d.year
    · rw [if_pos ((date_range hv).mp hd), if_pos hd]
    · rw [if_neg (fun h => hd ((date_range hv).mpr h)), if_neg hd, nthDay_to_days d hv]
  case id.int n => simp [read, readU_packU he, norm]
  case id.obj n => simp [read, readU_packU he, norm]
  case idx.int n => simp [read, readExt_enc he, norm]
  case idx.obj n => simp [read, readExt_enc he, norm]
  case climate.int n => simp [read, readU_packU he, norm]
  case accept.pairs l =>
    simp only [Option.bind_eq_bind, Option.bind_eq_some_iff, Option.some.injEq] at he
    obtain ⟨n, hn, b, hb, rfl⟩ := he
    obtain ⟨x, rfl, hx⟩ := bytesOf_one hn
    have := readN_cat (e := fun p => bytesOf [p.1, p.2])
      (r := fun bs => do let (a, bs) ← readU 1 bs; let (b, bs) ← readU 1 bs; some ((a, b), bs)) (f := id) l
      (by
        rintro ⟨a, c⟩ _ bs hb t
        obtain ⟨u, w, rfl, hu, hw⟩ := bytesOf_two hb
        simp only at hu hw
        simp [readU_one, hu, hw]) b hb t
    have hx' : x.toNat = l.length := by omega
    simp only [read, List.cons_append, List.nil_append, readU_one, Option.bind_eq_bind, Option.bind_some,
      Int.toNat_natCast, hx']
    simp only [Option.bind_eq_bind] at this
    rw [this]
    simp [norm]
  case size.int n =>
    obtain ⟨x, rfl, hx⟩ := bytesOf_one he
    simp only [read, List.cons_append, List.nil_append, readU_one, Option.map_some, norm, and_nibble, shr_nibble, hx]
    simp
  case size.pair x y =>
    obtain ⟨z, rfl, hz⟩ := bytesOf_one he
    simp only [Faithful] at hf
    obtain ⟨a, rfl⟩ := Int.eq_ofNat_of_zero_le hf.1
    obtain ⟨b, rfl⟩ := Int.eq_ofNat_of_zero_le hf.2.2.1
    rw [or_nibbles a b (by omega)] at hz
    have hz' : z.toNat = 16 * b + a := by omega
    simp only [read, List.cons_append, List.nil_append, readU_one, Option.map_some, norm, and_nibble, shr_nibble, hz']
    have e1 : (16 * b + a) % 16 = a := by omega
    have e2 : (16 * b + a) / 16 = b := by omega
    rw [e1, e2]
  case bridge.bridge i ts => simp [read, readBridge_encode hf he, norm]
  case multiDict.texts d =>
    have := readMultiDict_encode d hf.1 hf.2 he t
    simp only [read, this, Option.map_some, norm]
  case layouts.layouts ls =>
    have := readLayouts_encode ls
      (fun l hl t ht => by
        have := (hf l hl).1
        simp only [layoutAccepted, Bool.and_eq_true, List.all_eq_true] at this
        exact this.1 t ht)
      (fun l hl => notStartsFE (hf l hl).1) (fun l hl => (hf l hl).2) he t
    simp [read, this, norm]
  case newStation.station ls => simp [read, readStation_encode hf he, norm]

theorem regroup_parents (l : List Flat) (h : ∀ f ∈ l, f.kind.isChild = false) : ∀ acc : List Spr,
    regroup acc l = acc ++ l.map fun f => { flat := f } := by
  induction l with
  | nil => simp [regroup]
  | cons f l ih =>
    intro acc
    simp only [regroup, h f (by simp), Bool.false_eq_true, if_false]
    rw [ih (fun g hg => h g (by simp [hg]))]
    simp

theorem norm_wellFormed (f : Fmt) (v : PVal) (h : WellFormed f v) (h0 : f = .date → ∀ n, v = .int n → 0 ≤ n) : norm f v = v := by
  cases f <;> cases v <;> simp only [norm, WellFormed] at h ⊢
  case L.label l => obtain ⟨b, rfl⟩ := h; rfl
  case L2.labels ls =>
    congr 1
    conv => rhs; rw [← List.map_id ls]
    apply List.map_congr_left
    intro l hl; obtain ⟨b, rfl⟩ := h l hl; rfl
  case nL.labels ls =>
    congr 1
    conv => rhs; rw [← List.map_id ls]
    apply List.map_congr_left
    intro l hl; obtain ⟨b, rfl⟩ := h l hl; rfl
  case date.int n => rw [if_pos h]
  case date.date d => rw [if_neg (by omega)]
  case id.obj n => obtain ⟨m, hm⟩ := h; cases hm
  case idx.obj n => obtain ⟨m, hm⟩ := h; cases hm
  case size.int n => obtain ⟨x, y, hm, _⟩ := h; cases hm
  case multiDict.texts d =>
    congr 1
    unfold dropEmpty
    rw [List.filter_eq_self]
    intro kv hkv
    simpa using (h.2 kv hkv).2.1
  case newStation.station ls =>
    congr 1
    conv => rhs; rw [← List.map_id ls]
    apply List.map_congr_left
    intro l hl
    obtain ⟨_, hs⟩ := h l hl
    have hfl : ∀ s ∈ l, s.flat.norm = s.flat := by
      intro s hs'
      obtain ⟨⟨k, sp, rg⟩, ch⟩ := s
      have := (hs _ hs').2.2
      simp only at this
      simp [Flat.norm, this]
    cases l with
    | nil => rfl
    | cons g rest =>
      have hsp : ∀ s ∈ g :: rest, ({ flat := s.flat } : Spr) = s := by
        intro s hs'
        obtain ⟨fl, ch⟩ := s
        have := (hs _ hs').2.1
        simp only at this
        simp [this]
      simp only [normLayout, id_eq]
      rw [regroup_parents _ (by
        intro f hf
        obtain ⟨s, hs', rfl⟩ := List.mem_map.mp hf
        exact (hs s (by simp [hs'])).1)]
      rw [hfl g (by simp), hsp g (by simp), List.map_map]
      simp only [List.singleton_append, List.cons.injEq, true_and]
      conv => rhs; rw [← List.map_id rest]
      apply List.map_congr_left
      intro s hs'
      simp only [Function.comp, hfl s (by simp [hs']), hsp s (by simp [hs']), id_eq]

theorem faithful_wellFormed (f : Fmt) (v : PVal) (h : WellFormed f v) : Faithful f v := by
  cases f <;> cases v <;> simp only [Faithful, WellFormed] at h ⊢
  case date.date d => exact h.1
  case size.pair x y =>
    obtain ⟨a, b, hm, h⟩ := h
    cases hm; exact h
  case bridge.bridge i ts => exact h
  case multiDict.texts d => exact ⟨h.1, fun kv hkv => ⟨(h.2 kv hkv).1, (h.2 kv hkv).2.2⟩⟩
  case layouts.layouts ls => exact h
  case newStation.station ls => exact fun l hl => (h l hl).1

/-- **C07, C09-C11**: a well-formed value that is written is read back unchanged, whatever bytes follow, and exactly the bytes
written are consumed. (Partial: `8*B` has no reader, see `eight_bytes_unreadable`.) -/
theorem property_value_roundtrip_partial (f : Fmt) (v : PVal) (bs t : Bytes) (he : encode f v = some bs) (h8 : f ≠ .B8)
    (hw : WellFormed f v) : read f (bs ++ t) = some (v, t) := by
  rw [property_value_read f v bs t he h8 (faithful_wellFormed f v hw), norm_wellFormed f v hw]
  rintro rfl n rfl
  exact (packU_some (show packU 4 n = some bs from he)).1

/-- Different well-formed values of a format have different encodings. -/
theorem property_value_injective_partial (f : Fmt) (v w : PVal) (bs : Bytes) (h8 : f ≠ .B8) (hv : WellFormed f v) (hw : WellFormed f w)
    (e1 : encode f v = some bs) (e2 : encode f w = some bs) : v = w := by
  have h1 := property_value_roundtrip_partial f v bs [] e1 h8 hv
  have h2 := property_value_roundtrip_partial f w bs [] e2 h8 hw
  rw [h1] at h2
  simpa using h2

/-! ### Values out of range are refused -/

/-- The values a format can hold. -/
def Fits : Fmt → PVal → Prop
  | .B, .int n => 0 ≤ n ∧ n ≤ 255
  | .b, .int n => -128 ≤ n ∧ n ≤ 127
  | .W, .int n => 0 ≤ n ∧ n ≤ 65535
  | .D, .int n => 0 ≤ n ∧ n ≤ 4294967295
  | .L, .label (.int n) => 0 ≤ n ∧ n ≤ 4294967295
  | .L, .label (.bytes b) => b.length = 4
  | .Bx, .int n => 0 ≤ n ∧ n ≤ 65535
  | .nB, .ints l => l.length ≤ 255 ∧ ∀ n ∈ l, 0 ≤ n ∧ n ≤ 255
  | .byteList, .ints l => l.length ≤ 255 ∧ ∀ n ∈ l, 0 ≤ n ∧ n ≤ 255
  | .B8, .ints l => l.length = 8 ∧ ∀ n ∈ l, 0 ≤ n ∧ n ≤ 255
  | .id, .int n => 0 ≤ n ∧ n ≤ 65535
  | .id, .obj n => 0 ≤ n ∧ n ≤ 65535
  | .idx, .int n => 0 ≤ n ∧ n ≤ 65535
  | .idx, .obj n => 0 ≤ n ∧ n ≤ 65535
  | .climate, .int n => 0 ≤ n ∧ n ≤ 255
  | .date, .int n => 0 ≤ n ∧ n ≤ 4294967295
  | .date, .date d => dateToDays d.year d.month d.day ≤ 4294967295
  | .accept, .pairs l => l.length ≤ 255 ∧ ∀ p ∈ l, 0 ≤ p.1 ∧ p.1 ≤ 255 ∧ 0 ≤ p.2 ∧ p.2 ≤ 255
  | .size, .int n => 0 ≤ n ∧ n ≤ 255
  | _, _ => False

/-- The formats `Fits` is about. -/
def Plain (f : Fmt) (v : PVal) : Prop :=
  match f, v with
  | .size, .pair _ _ => False
  | .B, _ | .b, _ | .W, _ | .D, _ | .L, _ | .Bx, _ | .nB, _ | .byteList, _ | .B8, _ | .id, _ | .idx, _ | .climate, _ | .date, _
  | .accept, _ | .size, _ => True
  | _, _ => False

theorem packU_iff (k : Nat) (n : Int) : (packU k n).isSome = true ↔ 0 ≤ n ∧ n < ((256 ^ k : Nat) : Int) := by
  unfold packU
  by_cases h : 0 ≤ n ∧ n < ((256 ^ k : Nat) : Int)
  · simp only [if_pos h, Option.isSome_some, true_iff]; exact h
  · simp only [if_neg h, Option.isSome_none, Bool.false_eq_true, false_iff]; exact h

theorem byteOf_iff (n : Int) : (byteOf n).isSome = true ↔ 0 ≤ n ∧ n ≤ 255 := by
  unfold byteOf
  split
  · next h => simp; omega
  · next h => simp; omega

theorem bytesOf_iff (l : List Int) : (bytesOf l).isSome = true ↔ ∀ n ∈ l, 0 ≤ n ∧ n ≤ 255 := by
  induction l with
  | nil => simp [bytesOf]
  | cons a l ih =>
    have e : bytesOf (a :: l) = (byteOf a).bind fun x => (bytesOf l).bind fun y => some (x :: y) := by
      simp [bytesOf]
    rw [e]
    have ha := byteOf_iff a
    cases h1 : byteOf a with
    | none =>
      rw [h1] at ha
      simp only [Option.isSome_none, Bool.false_eq_true, false_iff] at ha
      simp only [Option.bind_none, Option.isSome_none, Bool.false_eq_true, false_iff]
      intro h; exact ha (h a (by simp))
    | some x =>
      rw [h1] at ha
      cases h2 : bytesOf l with
      | none =>
        rw [h2] at ih
        simp only [Option.isSome_none, Bool.false_eq_true, false_iff] at ih
        simp only [Option.bind_none, Option.bind_some, Option.isSome_none, Bool.false_eq_true, false_iff]
        intro h; exact ih fun n hn => h n (by simp [hn])
      | some y =>
        rw [h2] at ih
        simp only [Option.isSome_some, true_iff] at ih ha
        simp only [Option.bind_some, Option.isSome_some, true_iff, List.mem_cons]
        rintro n (rfl | hn)
        · exact ha
        · exact ih n hn

theorem cat_iff (l : List (Option Bytes)) : (cat l).isSome = true ↔ ∀ x ∈ l, x.isSome = true := by
  induction l with
  | nil => simp [cat]
  | cons a l ih =>
    cases a with
    | none => simp [cat]
    | some a =>
      cases h : cat l with
      | none =>
        rw [h] at ih
        simp only [Option.isSome_none, Bool.false_eq_true, false_iff] at ih
        simp only [cat, h, Option.bind_eq_bind, Option.bind_some, Option.bind_none, Option.isSome_none, Bool.false_eq_true, false_iff]
        intro hx; exact ih fun x hx' => hx x (by simp [hx'])
      | some b =>
        rw [h] at ih
        simp only [Option.isSome_some, true_iff] at ih
        simp only [cat, h, Option.bind_eq_bind, Option.bind_some, Option.isSome_some, true_iff, List.mem_cons]
        rintro x (rfl | hx)
        · rfl
        · exact ih x hx

theorem bind2_iff {a b : Option Bytes} :
    (do let n ← a; let m ← b; some (n ++ m)).isSome = true ↔ a.isSome = true ∧ b.isSome = true := by
  cases a <;> cases b <;> simp

theorem p1 (n : Int) : (packU 1 n).isSome = true ↔ 0 ≤ n ∧ n ≤ 255 := by rw [packU_iff]; omega
theorem p2 (n : Int) : (packU 2 n).isSome = true ↔ 0 ≤ n ∧ n ≤ 65535 := by rw [packU_iff]; omega
theorem p4 (n : Int) : (packU 4 n).isSome = true ↔ 0 ≤ n ∧ n ≤ 4294967295 := by rw [packU_iff]; omega

theorem pext (n : Int) : (encodeExtendedByte n).isSome = true ↔ 0 ≤ n ∧ n ≤ 65535 := by
  rw [extended_byte_accepts]

theorem ps1 (n : Int) : (packS 1 n).isSome = true ↔ -128 ≤ n ∧ n ≤ 127 := by
  unfold packS
  by_cases h : -128 ≤ n ∧ n ≤ 127
  · rw [if_pos ⟨by simpa using h.1, by have := h.2; show n < 128; omega⟩]; simp [h]
  · rw [if_neg (fun h' => h ⟨by simpa using h'.1, by have : n < 128 := h'.2; omega⟩)]; simpa using h

/-- **C07**: in the plain formats exactly the values that fit are written; any other value is refused, never truncated. -/
theorem property_value_accepts (f : Fmt) (v : PVal) (hp : Plain f v) : (encode f v).isSome = true ↔ Fits f v := by
  cases f <;> cases v <;> simp only [Plain] at hp <;>
    simp only [encode, Fits, p1, p2, p4, ps1, pext, bytesOf_iff, bind2_iff, Option.isSome_none, Bool.false_eq_true]
  case L.label l =>
    cases l with
    | int n => exact p4 n
    | bytes b => simp only [encodeLabel]; split <;> simp_all
  case Bx.int n => rw [cat_iff]; simp only [List.mem_cons, List.not_mem_nil, or_false, forall_eq_or_imp, forall_eq, p1, p2]; omega
  case nB.ints l => constructor <;> rintro ⟨h1, h2⟩ <;> exact ⟨by omega, h2⟩
  case byteList.ints l => constructor <;> rintro ⟨h1, h2⟩ <;> exact ⟨by omega, h2⟩
  case B8.ints l =>
    split
    · next h => rw [cat_iff]; simp only [List.mem_map, forall_exists_index, and_imp, forall_apply_eq_imp_iff₂, p1, h, true_and]
    · next h => simp [h]
  case date.date d => omega
  case accept.pairs l =>
    rw [cat_iff]
    simp only [List.mem_cons, List.not_mem_nil, or_false, forall_eq, List.mem_map, forall_exists_index, and_imp,
      forall_apply_eq_imp_iff₂, bytesOf_iff, forall_eq_or_imp, and_assoc]
    constructor
    · rintro ⟨_, h1, h2⟩; exact ⟨by omega, fun p hp => ⟨(h2 p hp).1, (h2 p hp).2⟩⟩
    · rintro ⟨h1, h2⟩; exact ⟨by omega, by omega, fun p hp => ⟨(h2 p hp).1, (h2 p hp).2⟩⟩
  case size.int n =>
    simp only [List.mem_cons, List.not_mem_nil, or_false, forall_eq]

/-! ### C10: structure of industry layouts -/

/-- **C10**: no accepted tile starts with the terminator `00 80`. -/
theorem tile_not_terminator (t : Tile) (h : t.accepted = true) (bs : Bytes) (he : t.encode = some bs) :
    bs.take 2 ≠ [0, 0x80] := by
  cases t with
  | new x y i =>
    simp only [Tile.encode] at he
    obtain ⟨a, r1, ha, h1, rfl⟩ := cat_cons he
    obtain ⟨b, r2, hb, h2, rfl⟩ := cat_cons h1
    obtain ⟨u, rfl, hu⟩ := packU_one_some ha
    obtain ⟨w, rfl, hw⟩ := packU_one_some hb
    simp only [List.cons_append, List.nil_append, List.take_succ_cons, List.take_zero, ne_eq, List.cons.injEq, and_true]
    rintro ⟨rfl, rfl⟩
    subst hu hw; simp [Tile.accepted] at h
  | old x y i =>
    simp only [Tile.encode] at he
    obtain ⟨a, r1, ha, h1, rfl⟩ := cat_cons he
    obtain ⟨b, r2, hb, h2, rfl⟩ := cat_cons h1
    obtain ⟨u, rfl, hu⟩ := packU_one_some ha
    obtain ⟨w, rfl, hw⟩ := packU_one_some hb
    simp only [List.cons_append, List.nil_append, List.take_succ_cons, List.take_zero, ne_eq, List.cons.injEq, and_true]
    rintro ⟨rfl, rfl⟩
    subst hu hw; simp [Tile.accepted] at h
  | check x y =>
    simp only [Tile.encode] at he
    obtain ⟨a, r1, ha, h1, rfl⟩ := cat_cons he
    obtain ⟨b, r2, hb, h2, rfl⟩ := cat_cons h1
    obtain ⟨u, rfl, hu, hu0, hu1, hu2⟩ := packS_byte ha
    obtain ⟨w, rfl, hw, hw0, hw1, hw2⟩ := packS_byte hb
    simp only [List.cons_append, List.nil_append, List.take_succ_cons, List.take_zero, ne_eq, List.cons.injEq, and_true]
    rintro ⟨rfl, rfl⟩
    have e1 : x = 0 := by rw [hu]; decide
    have e2 : y = -128 := by rw [hw]; decide
    subst e1 e2; simp [Tile.accepted] at h

/-- **C10**: every accepted tile can be written. -/
theorem accepted_tile_encodes (t : Tile) (h : t.accepted = true) : (t.encode).isSome = true := by
  cases t <;> simp only [Tile.accepted, Bool.and_eq_true, decide_eq_true_eq] at h <;> simp only [Tile.encode, cat_iff] <;>
    simp only [List.mem_cons, List.not_mem_nil, or_false, forall_eq_or_imp, forall_eq, p1, p2, ps1] <;> omega

/-- **C10**: the written value is the number of layouts, the number of bytes of the layouts, and the layouts. -/
theorem layouts_declared_size (ls : List (List Tile)) (bs : Bytes) (h : encode .layouts (.layouts ls) = some bs) :
    ∃ body, cat (ls.map encodeLayout) = some body ∧ bs = leBytes 1 ls.length ++ leBytes 4 body.length ++ body ∧
      ls.length < 256 ∧ body.length < 256 ^ 4 := by
  simp only [encode, encodeLayouts, Option.bind_eq_bind, Option.bind_eq_some_iff, Option.some.injEq] at h
  obtain ⟨body, hb, n, hn, s, hs, rfl⟩ := h
  obtain ⟨h1, rfl⟩ := packU_nat_some hn
  obtain ⟨h2, rfl⟩ := packU_nat_some hs
  exact ⟨body, hb, rfl, by omega, h2⟩

/-! ### C11: what a station layout is read as -/

/-- **C11**: sprites given one after another (ground, parents, children) come back as the same sequence of sprites, with the
same registers, grouped so that every child follows its parent. -/
theorem station_layouts_read (ls : List (List Spr)) (bs t : Bytes) (h : encode .newStation (.station ls) = some bs)
    (hok : ∀ l ∈ ls, LayoutOk l) : ∃ ls', read .newStation (bs ++ t) = some (.station ls', t) ∧
      ls'.map flatten = ls.map fun l => l.map fun s => s.flat.norm := by
  refine ⟨ls.map normLayout, ?_, ?_⟩
  · exact property_value_read .newStation (.station ls) bs t h (by decide) hok
  · simp only [List.map_map]
    apply List.map_congr_left
    intro l _
    simp only [Function.comp, flatten_normLayout]

/-- Registers with the values the reader itself produces are unchanged by reading. -/
theorem normRegs_canonical (l : List (Reg × RVal))
    (h : ∀ rv ∈ l, match rv.1.size, rv.2 with | 0, v => v = .bool true | _, v => ∀ b, v ≠ .bool b) : normRegs l = l := by
  unfold normRegs
  rw [List.filter_eq_self.mpr]
  · conv => rhs; rw [← List.map_id l]
    apply List.map_congr_left
    rintro ⟨r, v⟩ hrv
    have := h _ hrv
    simp only at this
    cases r <;> cases v <;> simp_all [normReg, Reg.size]
  · rintro ⟨r, v⟩ hrv
    have := h _ hrv
    simp only at this
    cases r <;> cases v <;> simp_all [kept, Reg.size, RVal.truthy]

/-! ### What goes wrong in the code -/

/-- `8*B` (station property `min_bridge_height`) can be written but not read: the reader raises on every input. -/
theorem eight_bytes_unreadable (l : List Int) (h : l.length = 8) (hl : ∀ n ∈ l, 0 ≤ n ∧ n ≤ 255) :
    (encode .B8 (.ints l)).isSome = true ∧ ∀ bs, read .B8 bs = none :=
  ⟨(property_value_accepts .B8 (.ints l) trivial).mpr ⟨h, hl⟩, fun _ => rfl⟩

/-- A size out of range is not refused: width 31 and height 0 is stored as width 15 and height 1. -/
theorem size_out_of_range_accepted :
    (encode .size (.pair 31 0)).bind (read .size) = some (.pair 15 1, []) := by decide +kernel

/-- A gender/case dictionary with key 0 is cut off at that key, and the rest is left to be read as something else. -/
theorem dictionary_key_zero (v : Bytes) (d : List (Int × List Bytes)) (bs : Bytes)
    (h : encode .multiDict (.texts ((0, [v]) :: d)) = some bs) : ∃ r, r ≠ [] ∧ read .multiDict bs = some (.texts [], r) := by
  simp only [encode, encodeMultiDict, Option.bind_eq_bind, Option.bind_eq_some_iff, Option.some.injEq] at h
  obtain ⟨body, hb, rfl⟩ := h
  obtain ⟨a, b, ha, hb', rfl⟩ := cat_cons (show cat ((do let k ← byteOf 0; some (k :: v ++ [0])) :: d.flatMap textParts) = some body from hb)
  have e : a = 0 :: v ++ [0] := by
    have : byteOf 0 = some 0 := by decide
    rw [this] at ha; simpa using ha.symm
  subst e
  exact ⟨v ++ [0] ++ b ++ [0], by simp, by simp [read, readMultiDict]⟩

/-- Reading stops with an error at the first special check. -/
theorem readTiles_check (l : List Tile) (hacc : ∀ t ∈ l, t.accepted = true) (hck : ∃ x y, Tile.check x y ∈ l) :
    ∀ (n : Nat) (first : Bool) (bs : Bytes), l.length < n → cat (l.map Tile.encode) = some bs → ∀ t, readTiles n first (bs ++ t) = none := by
  induction l with
  | nil => obtain ⟨x, y, h⟩ := hck; simp at h
  | cons tl l ih =>
    intro n first bs hn he t
    obtain ⟨a, b, ha, hb, rfl⟩ := cat_cons he
    match n, hn with
    | n + 1, hn =>
      by_cases hc : ∀ x y, tl ≠ .check x y
      · by_cases hf : first = true → tl.xofs ≠ 0xfe
        · rw [List.append_assoc, readTiles_tile tl (hacc tl (by simp)) ha n first hf hc]
          rw [ih (fun x hx => hacc x (by simp [hx])) ?_ n false b (by simp at hn; omega) hb t]
          · rfl
          · obtain ⟨x, y, h⟩ := hck
            rcases List.mem_cons.1 h with h | h
            · exact absurd h.symm (hc x y)
            · exact ⟨x, y, h⟩
        · rw [Classical.not_imp] at hf
          obtain ⟨h1, h2⟩ := hf
          have h2 := Classical.not_not.1 h2
          cases tl with
          | check x y => exact absurd rfl (hc x y)
          | new x y i =>
            simp only [Tile.encode] at ha
            obtain ⟨a1, r1, ha1, _, rfl⟩ := cat_cons ha
            simp only [Tile.xofs] at h2
            simp [readTiles, readU_packU ha1, h1, h2]
          | old x y i =>
            simp only [Tile.encode] at ha
            obtain ⟨a1, r1, ha1, _, rfl⟩ := cat_cons ha
            simp only [Tile.xofs] at h2
            simp [readTiles, readU_packU ha1, h1, h2]
      · have : ∃ x y, tl = .check x y := by
          apply Classical.byContradiction
          intro h; exact hc fun x y e => h ⟨x, y, e⟩
        obtain ⟨x, y, rfl⟩ := this
        simp only [Tile.encode] at ha
        obtain ⟨a1, r1, ha1, he1, rfl⟩ := cat_cons ha
        obtain ⟨a2, r2, ha2, he2, rfl⟩ := cat_cons he1
        obtain ⟨a3, r3, ha3, he3, rfl⟩ := cat_cons he2
        rw [cat_nil he3]
        have hacc := hacc (.check x y) (by simp)
        obtain ⟨u, rfl, hu, hu0, hu1, hu2⟩ := packS_byte ha1
        obtain ⟨w, rfl, hw, hw0, hw1, hw2⟩ := packS_byte ha2
        have hy : ¬ ((u.toNat : Int) = 0 ∧ (w.toNat : Int) = 0x80) := by
          rintro ⟨h1, h2⟩
          rw [hu2] at h1; rw [hw2] at h2
          have hx0 : x = 0 := by split at h1 <;> omega
          have hy0 : y = -128 := by split at h2 <;> omega
          subst hx0 hy0; simp [Tile.accepted] at hacc
        simp only [readTiles, List.append_nil, List.cons_append, List.nil_append, List.append_assoc, readU_one, readU_packU ha3,
          Option.bind_eq_bind, Option.bind_some, if_neg hy]
        split
        · rfl
        · rw [if_neg (by decide), if_pos trivial]

/-- Special checks are accepted and written, but reading any list of layouts that has one raises. -/
theorem special_check_unreadable (ls : List (List Tile)) (bs t : Bytes) (hacc : ∀ l ∈ ls, layoutAccepted l = true)
    (hck : ∃ l ∈ ls, ∃ x y, Tile.check x y ∈ l) (h : encode .layouts (.layouts ls) = some bs) : read .layouts (bs ++ t) = none := by
  have key : ∀ (m : List (List Tile)) (b : Bytes), cat (m.map encodeLayout) = some b → ∀ l ∈ m, l.length < b.length := by
    intro m
    induction m with
    | nil => simp
    | cons x m ih =>
      intro b hb l hl
      obtain ⟨p, q, hp, hq, rfl⟩ := cat_cons hb
      simp only [List.mem_cons] at hl
      rcases hl with rfl | hl
      · simp only [encodeLayout, Option.bind_eq_bind, Option.bind_eq_some_iff, Option.some.injEq] at hp
        obtain ⟨c, hc, rfl⟩ := hp
        have := tiles_length l hc
        simp; omega
      · have := ih q hq l hl
        simp; omega
  have all : ∀ l, layoutAccepted l = true → ∀ t ∈ l, t.accepted = true := by
    intro l hl
    simp only [layoutAccepted, Bool.and_eq_true, List.all_eq_true] at hl
    exact hl.1
  have loop : ∀ (n : Nat) (m : List (List Tile)) (b : Bytes), (∀ l ∈ m, layoutAccepted l = true) → (∀ l ∈ m, l.length < n) →
      (∃ l ∈ m, ∃ x y, Tile.check x y ∈ l) → cat (m.map encodeLayout) = some b → readN (readTiles n true) m.length (b ++ t) = none := by
    intro n m
    induction m with
    | nil => simp
    | cons x m ih =>
      intro b h1 h2 h3 hb
      obtain ⟨p, q, hp, hq, rfl⟩ := cat_cons hb
      simp only [encodeLayout, Option.bind_eq_bind, Option.bind_eq_some_iff, Option.some.injEq] at hp
      obtain ⟨c, hc, rfl⟩ := hp
      by_cases hx : ∃ a b, Tile.check a b ∈ x
      · simp only [List.length_cons, readN, List.append_assoc,
          readTiles_check x (all x (h1 x (by simp))) hx n true c (h2 x (by simp)) hc, Option.bind_eq_bind, Option.bind_none]
      · have hnc : ∀ t ∈ x, ∀ a b, t ≠ .check a b := by
          rintro t ht a b rfl; exact hx ⟨a, b, ht⟩
        have e := readTiles_layout x (all x (h1 x (by simp))) hnc n true c (h2 x (by simp)) (fun _ => notStartsFE (h1 x (by simp))) hc (q ++ t)
        have e2 : c ++ [0, 0x80] ++ q ++ t = c ++ ([0, 0x80] ++ (q ++ t)) := by simp
        rw [e2]
        simp only [List.length_cons, readN, e, Option.bind_eq_bind, Option.bind_some]
        rw [ih q (fun l hl => h1 l (by simp [hl])) (fun l hl => h2 l (by simp [hl])) ?_ hq]
        · rfl
        · obtain ⟨l, hl, h⟩ := h3
          rcases List.mem_cons.1 hl with rfl | hl
          · exact absurd h hx
          · exact ⟨l, hl, h⟩
  simp only [encode, encodeLayouts, Option.bind_eq_bind, Option.bind_eq_some_iff, Option.some.injEq] at h
  obtain ⟨body, hbody, n, hn, s, hs, rfl⟩ := h
  simp only [read, readLayouts, List.append_assoc, readU_packU hn, readU_packU hs, Option.bind_eq_bind, Option.bind_some,
    Int.toNat_natCast]
  rw [loop body.length ls body hacc (key ls body hbody) hck hbody]
  rfl

example : (encode .layouts (.layouts [[.old 1 2 3], [.old 0 1 0, .check (-1) (-128)]])).isSome = true ∧
    layoutAccepted [.old 0 1 0, .check (-1) (-128)] = true := by decide +kernel

/-- Children of station sprites are not written: what is written does not depend on them. In particular decompiling a file
and compiling it again loses them. -/
theorem children_not_written (ls ls' : List (List Spr)) (h : ls.map (fun l => l.map (·.flat)) = ls'.map fun l => l.map (·.flat)) :
    encode .newStation (.station ls) = encode .newStation (.station ls') := by
  have e1 : ∀ s : Spr, encodeSpr s = encodeSpr ⟨s.flat, []⟩ := fun s => rfl
  have e2 : ∀ l : List Spr, encodeSprs l = encodeSprs ((l.map (·.flat)).map fun f => ⟨f, []⟩) := by
    intro l
    unfold encodeSprs
    simp only [List.map_map, List.length_map, List.map_eq_nil_iff]
    congr 1
  have e3 : ∀ ls : List (List Spr), encodeStation ls =
      encodeStation ((ls.map fun l => l.map (·.flat)).map fun l => l.map fun f => ⟨f, []⟩) := by
    intro ls
    unfold encodeStation
    simp only [List.map_map, List.length_map]
    have : (ls.map encodeSprs) = ls.map (encodeSprs ∘ (fun l => l.map fun f => (⟨f, []⟩ : Spr)) ∘ fun l => l.map (·.flat)) := by
      apply List.map_congr_left
      intro l _
      rw [e2 l]; rfl
    rw [this]
  simp only [encode]
  rw [e3 ls, e3 ls', h]

def ref0 : SpriteRef := ⟨0x420, 0, true, false, false, false⟩

/-- Registers not in table order are read into the wrong registers. -/
theorem register_order_matters :
    (encode .newStation (.station [[{ flat := ⟨.ground, ref0, [(.spriteVar10, .int 1), (.dodraw, .int 2)]⟩ }]])).bind (read .newStation) =
      some (.station [[{ flat := ⟨.ground, ref0, [(.dodraw, .int 1), (.spriteVar10, .int 2)]⟩ }]], []) := by decide +kernel

/-- Bounding box registers of a ground sprite are accepted by the writer; the reader takes them for child registers. -/
theorem ground_delta_misread :
    (encode .newStation (.station [[{ flat := ⟨.ground, ref0, [(.deltaParentZ, .int 7)]⟩ }]])).bind (read .newStation) =
      some (.station [[{ flat := ⟨.ground, ref0, [(.deltaChildY, .int 7)]⟩ }]], []) := by decide +kernel

/-- A parent sprite at z offset 128 is read as a child, and its extent as the following data. -/
theorem parent_at_128_misread :
    (encode .newStation (.station [[{ flat := ⟨.ground, ref0, []⟩ }, { flat := ⟨.parent 1 2 128 3 4 5, ref0, []⟩ }]])).bind
      (read .newStation) =
      some (.station [[{ flat := ⟨.ground, ref0, []⟩, children := [⟨.child 1 2, ref0, []⟩] }]], [3, 4, 5]) := by decide +kernel

/-! ### Concrete cases -/

example : encode .W (.int 513) = some [1, 2] ∧ read .W [1, 2, 9] = some (.int 513, [9]) := by decide +kernel
example : WellFormed .date (.date ⟨1999, 12, 31⟩) := by simp only [WellFormed]; decide
example : WellFormed .multiDict (.texts [(1, [[65], [66, 67]]), (3, [[]])]) ∧
    encode .multiDict (.texts [(1, [[65], [66, 67]]), (3, [[]])]) = some [1, 65, 0, 1, 66, 67, 0, 3, 0, 0] := by
  refine ⟨?_, by decide +kernel⟩
  simp only [WellFormed]
  decide
example : WellFormed .layouts (.layouts [[.old 1 2 3, .new 0 1 0x100], []]) ∧
    (encode .layouts (.layouts [[.old 1 2 3, .new 0 1 0x100], []])).isSome = true := by
  refine ⟨?_, by decide +kernel⟩
  simp only [WellFormed]
  intro l hl
  simp only [List.mem_cons, List.not_mem_nil, or_false] at hl
  rcases hl with rfl | rfl
  · exact ⟨by decide, by intro t h; simp at h; rcases h with rfl | rfl <;> simp⟩
  · exact ⟨by decide, by intro t h; simp at h⟩
example : Plain .W (.int 70000) ∧ encode .W (.int 70000) = none := ⟨trivial, by decide +kernel⟩

/-- A layout with a ground sprite, a building with a child sprite and registers. -/
def demoLayout : List Spr :=
  [{ flat := ⟨.ground, ref0, [(.dodraw, .int 1), (.customPalette, .bool true)]⟩ },
   { flat := ⟨.parent 0 0 0 16 16 10, ref0, [(.add, .temp 3), (.deltaParentXY, .pair 4 5)]⟩ },
   { flat := ⟨.child 3 4, ref0, [(.deltaChildX, .int 9)]⟩ }]

example : LayoutOk demoLayout ∧ (encode .newStation (.station [demoLayout])).isSome = true := by
  refine ⟨.mk _ _ ⟨by decide, by decide⟩ rfl (by decide) ?_, by decide +kernel⟩
  intro s hs
  simp only [List.mem_cons, List.not_mem_nil, or_false] at hs
  rcases hs with rfl | rfl
  · exact ⟨⟨by decide, by decide⟩, by simp [Later]⟩
  · exact ⟨⟨by decide, by decide⟩, trivial⟩

end Grf.PropC
