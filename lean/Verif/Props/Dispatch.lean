import Verif.Props.Props14
/-!
# C20: the first byte of an action tells its kind
-/
namespace Grf.Acts
open PropC

/-! ### Specification: the NewGRF action numbers -/

/-- The action number of each kind, from the NewGRF specification. -/
def Action.number : Action → UInt8
  | .define _ => 0x00
  | .sets _ => 0x01
  | .generic _ => 0x02
  | .random _ => 0x02
  | .production _ => 0x02
  | .basic _ => 0x02
  | .layout _ => 0x02
  | .switch _ => 0x02
  | .map _ => 0x03
  | .texts _ => 0x04
  | .newSprites _ => 0x05
  | .modify _ => 0x06
  | .cond a => if a.isStatic then 0x09 else 0x07
  | .description _ => 0x08
  | .oldSprites _ => 0x0a
  | .error _ => 0x0b
  | .comment _ => 0x0c
  | .compute _ => 0x0d
  | .label _ => 0x10
  | .sounds _ => 0x11
  | .glyphs _ => 0x12
  | .props _ => 0x14
  | .importSound _ _ => 0xfe

/-- The action number of what a decoder returns. -/
def Decoded.number : Decoded → UInt8
  | .define _ => 0x00
  | .sets _ => 0x01
  | .act2 _ => 0x02
  | .map _ => 0x03
  | .texts _ => 0x04
  | .newSprites _ => 0x05
  | .modify _ => 0x06
  | .cond a => if a.isStatic then 0x09 else 0x07
  | .description _ => 0x08
  | .oldSprites _ => 0x0a
  | .error _ => 0x0b
  | .comment _ => 0x0c
  | .compute _ => 0x0d
  | .label _ => 0x10
  | .sounds _ => 0x11
  | .props _ => 0x14
  | .importSound _ _ => 0xfe

/-- The two classes which do not write their action number, see `comment_is_action_0` and `production_is_action_10`. -/
def Action.misnumbered : Action → Bool
  | .comment _ => true
  | .production _ => true
  | _ => false

/-! ### Proofs -/

theorem cat_first {x : Int} {l : List (Option Bytes)} {bs : Bytes} (n : UInt8) (hx : x = (n.toNat : Int))
    (h : cat (packU 1 x :: l) = some bs) : ∃ r, bs = n :: r := by
  obtain ⟨a, b, h1, _, rfl⟩ := cat_cons h
  exact ⟨b, by rw [pk' n hx h1]; rfl⟩

theorem bind_append_first {α : Type} {h : Option Bytes} {k : Bytes → Option α} {n : UInt8} {P : α → Prop} {r : α}
    (hh : ∀ b, h = some b → ∃ t, b = n :: t) (hk : ∀ t x, k (n :: t) = some x → P x) (e : h.bind k = some r) : P r := by
  cases h with
  | none => simp at e
  | some b =>
    obtain ⟨t, rfl⟩ := hh b rfl
    exact hk t r e

/-- The bytes start with `n`. -/
def Starts (n : UInt8) (bs : Bytes) : Prop := ∃ r, bs = n :: r

theorem Starts.append {n : UInt8} {a : Bytes} (h : Starts n a) (b : Bytes) : Starts n (a ++ b) := by
  obtain ⟨r, rfl⟩ := h; exact ⟨r ++ b, rfl⟩

theorem starts_cat {x : Int} {l : List (Option Bytes)} {bs : Bytes} {n : UInt8} (hx : x = (n.toNat : Int))
    (h : cat (packU 1 x :: l) = some bs) : Starts n bs := cat_first n hx h

theorem number_written (T : Tables) (a : Action) (bs : Bytes) (hm : a.misnumbered = false) (h : a.getData T = some bs) :
    Starts a.number bs := by
  cases a with
  | define d =>
    simp only [Action.getData, Def0.getData, Option.bind_eq_bind, Option.bind_eq_some_iff, Option.some.injEq] at h
    obtain ⟨x, hx, y, _, rfl⟩ := h
    exact (starts_cat (n := 0) rfl hx).append _
  | sets d =>
    simp only [Action.getData, Sets.getData] at h
    split at h <;> exact starts_cat (n := 1) rfl h
  | generic d =>
    simp only [Action.getData, Generic.getData, Option.bind_eq_bind, Option.bind_eq_some_iff, Option.some.injEq] at h
    obtain ⟨x, hx, y, _, z, _, rfl⟩ := h
    exact ((starts_cat (n := 2) rfl hx).append _).append _
  | random d =>
    simp only [Action.getData, Random.getData] at h
    rw [Option.bind_eq_bind, Option.bind_eq_some_iff] at h
    obtain ⟨x, hx, h⟩ := h
    have := starts_cat (n := 2) rfl hx
    split at h
    · simp only [Option.bind_eq_bind, Option.bind_eq_some_iff, Option.some.injEq] at h
      obtain ⟨_, _, _, _, _, _, rfl⟩ := h
      exact ((this.append _).append _).append _
    · simp only [Option.bind_eq_bind, Option.bind_eq_some_iff, Option.some.injEq] at h
      obtain ⟨_, _, _, _, _, _, rfl⟩ := h
      exact ((this.append _).append _).append _
  | production d => simp [Action.misnumbered] at hm
  | basic d =>
    simp only [Action.getData, Basic.getData] at h
    split at h
    · exact starts_cat (n := 2) rfl h
    · simp at h
  | layout d =>
    simp only [Action.getData, Layout.getData, Option.bind_eq_bind, Option.bind_eq_some_iff, Option.some.injEq] at h
    obtain ⟨x, hx, y, _, z, _, rfl⟩ := h
    exact ((starts_cat (n := 2) rfl hx).append _).append _
  | switch d =>
    simp only [Action.getData, Switch.getData, Option.bind_eq_bind, Option.bind_eq_some_iff, Option.some.injEq] at h
    obtain ⟨x, hx, y, _, z, _, w, _, rfl⟩ := h
    exact ((starts_cat (n := 2) rfl hx).append _).append _
  | map d =>
    simp only [Action.getData, GMap.getData] at h
    split at h
    · split at h
      · exact starts_cat (n := 3) rfl h
      · simp at h
    · simp only [Option.bind_eq_bind, Option.bind_eq_some_iff, Option.some.injEq] at h
      obtain ⟨x, hx, _, _, _, _, _, _, _, _, rfl⟩ := h
      exact ((((starts_cat (n := 3) rfl hx).append _).append _).append _).append _
  | texts d =>
    simp only [Action.getData, Texts.getData, Option.bind_eq_bind, Option.bind_eq_some_iff, Option.some.injEq] at h
    obtain ⟨x, hx, rfl⟩ := h
    unfold Texts.header at hx
    refine Starts.append ?_ _
    split at hx
    · exact starts_cat (n := 4) rfl hx
    · split at hx <;> exact starts_cat (n := 4) rfl hx
  | newSprites d =>
    simp only [Action.getData, NewSprites.getData] at h
    split at h <;> exact starts_cat (n := 5) rfl h
  | modify d =>
    simp only [Action.getData, modifyData, Option.bind_eq_bind, Option.bind_eq_some_iff, Option.some.injEq] at h
    obtain ⟨x, hx, y, _, rfl⟩ := h
    rw [pk' 6 rfl hx]
    exact ⟨_, rfl⟩
  | cond d =>
    simp only [Action.getData, If.getData, Option.bind_eq_bind, Option.bind_eq_some_iff, Option.some.injEq] at h
    obtain ⟨x, hx, y, _, rfl⟩ := h
    refine Starts.append (Starts.append ?_ _) _
    refine starts_cat ?_ hx
    cases hs : d.isStatic <;> simp [Action.number, hs]
  | description d =>
    simp only [Action.getData, Description.getData, Option.bind_eq_bind, Option.bind_eq_some_iff, Option.some.injEq] at h
    obtain ⟨x, hx, rfl⟩ := h
    exact (((((starts_cat (n := 8) rfl hx).append _).append _).append _).append _).append _
  | oldSprites d =>
    simp only [Action.getData, oldData, Option.bind_eq_bind, Option.bind_eq_some_iff, Option.some.injEq] at h
    obtain ⟨x, hx, y, _, rfl⟩ := h
    exact (starts_cat (n := 0x0a) rfl hx).append _
  | error d =>
    simp only [Action.getData, Err.getData, Option.bind_eq_bind, Option.bind_eq_some_iff, Option.some.injEq] at h
    obtain ⟨x, hx, y, _, z, _, rfl⟩ := h
    exact (((starts_cat (n := 0x0b) rfl hx).append _).append _).append _
  | comment d => simp [Action.misnumbered] at hm
  | compute d =>
    simp only [Action.getData, Compute.getData, Option.bind_eq_bind, Option.bind_eq_some_iff, Option.some.injEq] at h
    obtain ⟨x, hx, y, _, rfl⟩ := h
    exact (starts_cat (n := 0x0d) rfl hx).append _
  | label d =>
    simp only [Action.getData, Lbl.getData, Option.bind_eq_bind, Option.bind_eq_some_iff, Option.some.injEq] at h
    obtain ⟨x, hx, rfl⟩ := h
    exact (starts_cat (n := 0x10) rfl hx).append _
  | sounds d => exact starts_cat (n := 0x11) rfl h
  | importSound g n =>
    simp only [Action.getData, importData, Option.bind_eq_bind, Option.bind_eq_some_iff, Option.some.injEq] at h
    obtain ⟨x, hx, rfl⟩ := h
    exact ⟨_, rfl⟩
  | glyphs d =>
    simp only [Action.getData, glyphsData] at h
    split at h
    · exact starts_cat (n := 0x12) rfl h
    · simp at h
  | props d =>
    simp only [Action.getData, propsData, Option.bind_eq_bind, Option.bind_eq_some_iff, Option.some.injEq] at h
    obtain ⟨x, hx, rfl⟩ := h
    exact ⟨_, rfl⟩

/-- **C20** The bytes written for an action start with its action number, except for comments and production callbacks. -/
theorem first_byte_is_number_partial (T : Tables) (a : Action) (bs : Bytes) (hm : a.misnumbered = false) (h : a.getData T = some bs) :
    bs.head? = some a.number := by
  obtain ⟨r, rfl⟩ := number_written T a bs hm h
  rfl

theorem decode7_static (st : Bool) (bs : Bytes) (a : If) (h : decode7 st bs = some a) : a.isStatic = st := by
  simp only [decode7, Option.bind_eq_bind, Option.bind_eq_some_iff, Option.some.injEq] at h
  obtain ⟨_, _, _, _, _, _, _, _, _, _, rfl⟩ := h
  rfl

theorem map_number {α : Type} {o : Option α} {g : α → Decoded} {k : α → PCtx} {n : UInt8} {d : Decoded} {c : PCtx}
    (h : (o.map fun x => (some (g x), k x)) = some (some d, c)) (hg : ∀ x, o = some x → (g x).number = n) : d.number = n := by
  simp only [Option.map_eq_some_iff, Prod.mk.injEq, Option.some.injEq] at h
  obtain ⟨x, hx, rfl, _⟩ := h
  exact hg x hx

theorem decodeAction_number (T : Nat → List (String × VarData)) (ctx c : PCtx) (a : UInt8) (bs : Bytes) (d : Decoded)
    (h : decodeAction T ctx a bs = some (some d, c)) : d.number = a := by
  by_cases h0x00 : a = 0x00
  · subst h0x00; exact map_number (o := decode0 bs) h (fun _ _ => rfl)
  by_cases h0x01 : a = 0x01
  · subst h0x01; exact map_number (o := decode1 bs) h (fun _ _ => rfl)
  by_cases h0x02 : a = 0x02
  · subst h0x02; exact map_number (o := decode2 T bs) h (fun _ _ => rfl)
  by_cases h0x03 : a = 0x03
  · subst h0x03; exact map_number (o := decode3 bs) h (fun _ _ => rfl)
  by_cases h0x04 : a = 0x04
  · subst h0x04; exact map_number (o := decode4 bs) h (fun _ _ => rfl)
  by_cases h0x05 : a = 0x05
  · subst h0x05; exact map_number (o := decode5 bs) h (fun _ _ => rfl)
  by_cases h0x06 : a = 0x06
  · subst h0x06; exact map_number (o := decode6 (bs.length + 1) bs) h (fun _ _ => rfl)
  by_cases h0x07 : a = 0x07
  · subst h0x07; exact map_number (o := decode7 false bs) h (fun x hx => by simp [Decoded.number, decode7_static _ _ _ hx])
  by_cases h0x08 : a = 0x08
  · subst h0x08; exact map_number (o := decode8 bs) h (fun _ _ => rfl)
  by_cases h0x09 : a = 0x09
  · subst h0x09; exact map_number (o := decode7 true bs) h (fun x hx => by simp [Decoded.number, decode7_static _ _ _ hx])
  by_cases h0x0a : a = 0x0a
  · subst h0x0a; exact map_number (o := decodeA bs) h (fun _ _ => rfl)
  by_cases h0x0b : a = 0x0b
  · subst h0x0b; exact map_number (o := decodeB bs) h (fun _ _ => rfl)
  by_cases h0x0c : a = 0x0c
  · subst h0x0c
    have h : some (some (Decoded.comment bs), ctx) = some (some d, c) := h
    simp only [Option.some.injEq, Prod.mk.injEq] at h
    rw [← h.1]; rfl
  by_cases h0x0d : a = 0x0d
  · subst h0x0d; exact map_number (o := decodeD bs) h (fun _ _ => rfl)
  by_cases h0x10 : a = 0x10
  · subst h0x10; exact map_number (o := decode10 bs) h (fun _ _ => rfl)
  by_cases h0x11 : a = 0x11
  · subst h0x11; exact map_number (o := decode11 bs) h (fun _ _ => rfl)
  by_cases h0x12 : a = 0x12
  · subst h0x12
    have h : (none : Option (Option Decoded × PCtx)) = some (some d, c) := h
    cases h
  by_cases h0x13 : a = 0x13
  · subst h0x13
    have h : (none : Option (Option Decoded × PCtx)) = some (some d, c) := h
    simp at h
  by_cases h0x14 : a = 0x14
  · subst h0x14; exact map_number (o := decode14 bs) h (fun _ _ => rfl)
  simp only [decodeAction, h0x00, h0x01, h0x02, h0x03, h0x04, h0x05, h0x06, h0x07, h0x08, h0x09, h0x0a, h0x0b, h0x0c, h0x0d, h0x10, h0x11,
    h0x12, h0x13, h0x14, if_false, Option.some.injEq, Prod.mk.injEq, reduceCtorEq, false_and] at h

/-- Dispatching on the first byte: whatever is decoded, in any context, has the number given by the first byte. -/
theorem decoded_kind_is_first_byte (T : Nat → List (String × VarData)) (ctx c : PCtx) (a : UInt8) (bs : Bytes) (d : Decoded)
    (h : decodePseudo T ctx (a :: bs) = some (some d, c)) : d.number = a := by
  rw [decodePseudo] at h
  split at h
  · split at h
    · next ha =>
      subst ha
      simp only [Option.map_eq_some_iff, Prod.mk.injEq, Option.some.injEq] at h
      obtain ⟨x, hx, h, _⟩ := h
      subst h; rfl
    · split at h
      · simp at h
      · exact decodeAction_number T _ c a bs d h
  · exact decodeAction_number T _ c a bs d h

/-- **C20** If the bytes of an action (other than a comment or production callback) are decoded at all, they are decoded as an action with
the same number. -/
theorem decoded_as_same_kind_partial (W : Tables) (T : Nat → List (String × VarData)) (ctx c : PCtx) (a : Action) (bs : Bytes) (d : Decoded)
    (hm : a.misnumbered = false) (h : a.getData W = some bs) (hd : decodePseudo T ctx bs = some (some d, c)) : d.number = a.number := by
  obtain ⟨r, rfl⟩ := number_written W a bs hm h
  exact decoded_kind_is_first_byte T ctx c _ r d hd

/-- **C20** Actions with different numbers never have the same bytes. -/
theorem different_numbers_different_bytes (T : Tables) (a b : Action) (x y : Bytes) (ha : a.misnumbered = false)
    (hb : b.misnumbered = false) (h1 : a.getData T = some x) (h2 : b.getData T = some y) (hne : a.number ≠ b.number) : x ≠ y := by
  obtain ⟨r, rfl⟩ := number_written T a x ha h1
  obtain ⟨s, rfl⟩ := number_written T b y hb h2
  intro e
  exact hne (List.cons.inj e).1

/-! ### The kinds of Action 2 -/

/-- The kind of an action; the classes sharing Action 2 are told apart. -/
def Action.kind : Action → Nat
  | .generic _ => 0x200
  | .random _ => 0x201
  | .basic _ => 0x202
  | .layout _ => 0x203
  | .switch _ => 0x204
  | .production _ => 0x205
  | a => a.number.toNat

/-- The kind told from the bytes only: the first byte, and for Action 2 the feature and the type byte. -/
def kindOf : Bytes → Option Nat
  | 2 :: f :: _ :: t :: _ =>
    if t = 0x80 ∨ t = 0x83 ∨ t = 0x84 then some 0x201
    else if 0x80 ≤ t then some 0x204
    else if tileFeature f.toNat = true then (if t = 0 then some 0x202 else some 0x203)
    else some 0x200
  | a :: _ => some a.toNat
  | [] => none

/-- The sprite groups, layouts and switches a user can build; groups have less than 128 loaded sets and are not of road stops. -/
def Action.regular : Action → Bool
  | .generic g => g.accepted && g.ent1.length < 128 && g.feature != 0x14
  | .basic b => tileFeature b.feature
  | .layout l => l.accepted
  | .comment _ => false
  | .production _ => false
  | _ => true

theorem cat_four {a b c d : Int} {l : List (Option Bytes)} {bs : Bytes} (h : cat (packU 1 a :: packU 1 b :: packU 1 c :: packU 1 d :: l) = some bs) :
    ∃ x y z w r, bs = x :: y :: z :: w :: r ∧ (x.toNat : Int) = a ∧ (y.toNat : Int) = b ∧ (z.toNat : Int) = c ∧ (w.toNat : Int) = d := by
  obtain ⟨a1, r1, h1, hr1, rfl⟩ := cat_cons h
  obtain ⟨a2, r2, h2, hr2, rfl⟩ := cat_cons hr1
  obtain ⟨a3, r3, h3, hr3, rfl⟩ := cat_cons hr2
  obtain ⟨a4, r4, h4, hr4, rfl⟩ := cat_cons hr3
  obtain ⟨x, rfl, hx⟩ := packU_one_some h1
  obtain ⟨y, rfl, hy⟩ := packU_one_some h2
  obtain ⟨z, rfl, hz⟩ := packU_one_some h3
  obtain ⟨w, rfl, hw⟩ := packU_one_some h4
  exact ⟨x, y, z, w, r4, rfl, hx.symm, hy.symm, hz.symm, hw.symm⟩

theorem kindOf_other (n : UInt8) (r : Bytes) (h : n ≠ 2) : kindOf (n :: r) = some n.toNat := by
  unfold kindOf
  split
  · next e => simp only [List.cons.injEq] at e; exact absurd e.1 h
  · next e => simp only [List.cons.injEq] at e; rw [e.1]
  · next e => simp at e

theorem byte_eq {x : UInt8} {n : Nat} (h : (x.toNat : Int) = n) (hn : n < 256) : x = UInt8.ofNat n := by
  apply UInt8.toNat_inj.mp
  rw [UInt8.toNat_ofNat']; omega

theorem kindOf_two (x f r t : UInt8) (l : Bytes) (h : (x.toNat : Int) = 2) : kindOf (x :: f :: r :: t :: l) =
    if t = 0x80 ∨ t = 0x83 ∨ t = 0x84 then some 0x201
    else if 0x80 ≤ t then some 0x204
    else if tileFeature f.toNat = true then (if t = 0 then some 0x202 else some 0x203)
    else some 0x200 := by
  have : x = 2 := byte_eq (n := 2) h (by decide)
  subst this; rfl

theorem byte_lt {t : UInt8} {n : Nat} (h : (t.toNat : Int) = n) (hn : n < 128) :
    ¬ (t = 0x80 ∨ t = 0x83 ∨ t = 0x84) ∧ ¬ (0x80 ≤ t) := by
  have h' : t.toNat = n := by omega
  constructor
  · rintro (e | e | e) <;> (subst e; simp at h'; omega)
  · intro e
    rw [UInt8.le_iff_toNat_le] at e
    simp at e; omega

/-- **C20** The kind of an action, with the classes of Action 2 told apart, can be read from its bytes. -/
theorem kind_in_bytes_partial (T : Tables) (a : Action) (bs : Bytes) (hr : a.regular = true) (h : a.getData T = some bs) :
    kindOf bs = some a.kind := by
  cases a with
  | generic d =>
    simp only [Action.getData, Generic.getData, Option.bind_eq_bind, Option.bind_eq_some_iff, Option.some.injEq] at h
    obtain ⟨x, hx, y, _, z, _, rfl⟩ := h
    obtain ⟨a, f, r, t, l, rfl, h1, h2, h3, h4⟩ := cat_four hx
    simp only [Action.regular, Generic.accepted, Bool.and_eq_true, Bool.not_eq_true', decide_eq_true_eq, bne_iff_ne] at hr
    obtain ⟨⟨⟨⟨hc, _⟩, _⟩, hl⟩, hf⟩ := hr
    have hb := byte_lt h4 hl
    simp only [List.cons_append]
    rw [kindOf_two _ _ _ _ _ h1, if_neg hb.1, if_neg hb.2, if_neg]
    · rfl
    · have : f.toNat = d.feature := by omega
      rw [this]
      simp [tileFeature] at hc ⊢
      omega
  | random d =>
    simp only [Action.getData, Random.getData] at h
    rw [Option.bind_eq_bind, Option.bind_eq_some_iff] at h
    obtain ⟨x, hx, h⟩ := h
    obtain ⟨a, f, r, t, l, rfl, h1, h2, h3, h4⟩ := cat_four hx
    have ht : t = 0x80 ∨ t = 0x83 ∨ t = 0x84 := by
      cases hs : d.scope <;> rw [hs] at h4 <;> simp only [Scope.code] at h4
      · exact .inl (byte_eq (n := 0x80) h4 (by decide))
      · exact .inr (.inl (byte_eq (n := 0x83) h4 (by decide)))
      · exact .inr (.inr (byte_eq (n := 0x84) h4 (by decide)))
    have key : ∀ r', kindOf (a :: f :: r :: t :: r') = some 0x201 := fun r' => by rw [kindOf_two _ _ _ _ _ h1, if_pos ht]
    split at h
    · simp only [Option.bind_eq_some_iff, Option.some.injEq] at h
      obtain ⟨_, _, _, _, _, _, rfl⟩ := h
      exact key _
    · simp only [Option.bind_eq_some_iff, Option.some.injEq] at h
      obtain ⟨_, _, _, _, _, _, rfl⟩ := h
      exact key _
  | production d => simp [Action.regular] at hr
  | comment d => simp [Action.regular] at hr
  | basic d =>
    simp only [Action.getData, Basic.getData] at h
    split at h
    · obtain ⟨a, f, r, t, l, rfl, h1, h2, h3, h4⟩ := cat_four h
      have hb := byte_lt (n := 0) h4 (by decide)
      have : f.toNat = d.feature := by omega
      rw [kindOf_two _ _ _ _ _ h1, if_neg hb.1, if_neg hb.2, this, if_pos (by simpa [Action.regular] using hr),
        if_pos (show t = 0 from byte_eq (n := 0) h4 (by decide))]
      rfl
    · simp at h
  | layout d =>
    simp only [Action.getData, Layout.getData, Option.bind_eq_bind, Option.bind_eq_some_iff, Option.some.injEq] at h
    obtain ⟨x, hx, y, _, z, _, rfl⟩ := h
    obtain ⟨a, f, r, t, l, rfl, h1, h2, h3, h4⟩ := cat_four hx
    simp only [Action.regular, Layout.accepted, Bool.and_eq_true, decide_eq_true_eq] at hr
    have hb := byte_lt (n := d.buildings.length + 64) (by rw [h4]; omega) (by omega)
    have : f.toNat = d.feature := by omega
    simp only [List.cons_append]
    rw [kindOf_two _ _ _ _ _ h1, if_neg hb.1, if_neg hb.2, this, if_pos hr.1, if_neg]
    · rfl
    · intro e; subst e; simp at h4; omega
  | switch d =>
    simp only [Action.getData, Switch.getData, Option.bind_eq_bind, Option.bind_eq_some_iff, Option.some.injEq] at h
    obtain ⟨x, hx, y, _, z, _, w, _, rfl⟩ := h
    obtain ⟨a, f, r, t, l, rfl, h1, h2, h3, h4⟩ := cat_four hx
    have ht : t = 0x8a ∨ t = 0x89 := by
      split at h4
      · exact .inl (byte_eq (n := 0x8a) h4 (by decide))
      · exact .inr (byte_eq (n := 0x89) h4 (by decide))
    simp only [List.cons_append]
    rw [kindOf_two _ _ _ _ _ h1]
    rcases ht with rfl | rfl <;> rfl
  | define d => obtain ⟨r, rfl⟩ := number_written T _ bs rfl h; exact kindOf_other _ _ (by simp [Action.number])
  | sets d => obtain ⟨r, rfl⟩ := number_written T _ bs rfl h; exact kindOf_other _ _ (by simp [Action.number])
  | map d => obtain ⟨r, rfl⟩ := number_written T _ bs rfl h; exact kindOf_other _ _ (by simp [Action.number])
  | texts d => obtain ⟨r, rfl⟩ := number_written T _ bs rfl h; exact kindOf_other _ _ (by simp [Action.number])
  | newSprites d => obtain ⟨r, rfl⟩ := number_written T _ bs rfl h; exact kindOf_other _ _ (by simp [Action.number])
  | modify d => obtain ⟨r, rfl⟩ := number_written T _ bs rfl h; exact kindOf_other _ _ (by simp [Action.number])
  | cond d =>
    obtain ⟨r, rfl⟩ := number_written T _ bs rfl h
    exact kindOf_other _ _ (by cases hs : d.isStatic <;> simp [Action.number, hs])
  | description d => obtain ⟨r, rfl⟩ := number_written T _ bs rfl h; exact kindOf_other _ _ (by simp [Action.number])
  | oldSprites d => obtain ⟨r, rfl⟩ := number_written T _ bs rfl h; exact kindOf_other _ _ (by simp [Action.number])
  | error d => obtain ⟨r, rfl⟩ := number_written T _ bs rfl h; exact kindOf_other _ _ (by simp [Action.number])
  | compute d => obtain ⟨r, rfl⟩ := number_written T _ bs rfl h; exact kindOf_other _ _ (by simp [Action.number])
  | label d => obtain ⟨r, rfl⟩ := number_written T _ bs rfl h; exact kindOf_other _ _ (by simp [Action.number])
  | sounds d => obtain ⟨r, rfl⟩ := number_written T _ bs rfl h; exact kindOf_other _ _ (by simp [Action.number])
  | importSound g n => obtain ⟨r, rfl⟩ := number_written T _ bs rfl h; exact kindOf_other _ _ (by simp [Action.number])
  | glyphs d => obtain ⟨r, rfl⟩ := number_written T _ bs rfl h; exact kindOf_other _ _ (by simp [Action.number])
  | props d => obtain ⟨r, rfl⟩ := number_written T _ bs rfl h; exact kindOf_other _ _ (by simp [Action.number])

/-- **C20** Actions of different kinds, the classes of Action 2 included, never have the same bytes. -/
theorem different_kinds_different_bytes_partial (T : Tables) (a b : Action) (x y : Bytes) (ha : a.regular = true)
    (hb : b.regular = true) (h1 : a.getData T = some x) (h2 : b.getData T = some y) (hne : a.kind ≠ b.kind) : x ≠ y := by
  intro e
  have e1 := kind_in_bytes_partial T a x ha h1
  have e2 := kind_in_bytes_partial T b y hb h2
  rw [e, e2] at e1
  exact hne (Option.some.inj e1).symm

/-- Two different kinds have different `kind`s (the number of a constructor), except that skips and static skips are told apart too. -/
example : [Action.kind (.generic ⟨0, 0, [], []⟩), Action.kind (.random ⟨0, 0, .self, none, 0, true, 0, []⟩),
    Action.kind (.sounds 1), Action.kind (.comment []), Action.kind (.glyphs [])] = [0x200, 0x201, 0x11, 0x0c, 0x12] := by decide

/-! ### Counterexamples -/

/-- A comment is written as twelve zero bytes and the text: its first byte is that of Action 0. -/
theorem comment_is_action_0 (T : Tables) (d bs : Bytes) (h : (Action.comment d).getData T = some bs) :
    bs.head? = some 0x00 ∧ (Action.comment d).number = 0x0c := by
  simp only [Action.getData, commentData, Option.some.injEq] at h
  subst h
  exact ⟨rfl, rfl⟩

/-- It is read as a property definition for trains without properties, whatever the text. -/
theorem comment_decoded_as_definition (T : Tables) (V : Nat → List (String × VarData)) (ctx : PCtx) (d bs : Bytes)
    (h : (Action.comment d).getData T = some bs) :
    ∃ x, decodePseudo V ctx bs = some (some (.define x), ctx.enter) ∧ x.feature = 0 ∧ x.props = [] := by
  simp only [Action.getData, commentData, Option.some.injEq] at h
  subst h
  show ∃ x, decodePseudo V ctx (0 :: (List.replicate 11 0 ++ d)) = _ ∧ _
  rw [dp00]
  have h1 : ∀ (r : Bytes), readU 1 (0 :: r) = some (0, r) := fun r => readU_one 0 r
  refine ⟨⟨0, 0, 0, []⟩, ?_, rfl, rfl⟩
  simp only [List.replicate_succ, List.cons_append, decode0, h1, Option.bind_eq_bind, Option.bind_some]
  simp [readExt, decodeProps]
  decide

/-- A production callback starts with the industry feature instead of Action 2: its bytes are those of Action A. -/
theorem production_is_action_10 (T : Tables) (p : Production) (bs : Bytes) (h : (Action.production p).getData T = some bs) :
    bs.head? = some 0x0a ∧ (Action.production p).number = 0x02 := by
  refine ⟨?_, rfl⟩
  simp only [Action.getData] at h
  cases p with
  | old v i o d =>
    simp only [Production.getData] at h
    split at h
    · simp at h
    · obtain ⟨r, rfl⟩ := starts_cat (n := 0x0a) rfl h; rfl
  | new i o d =>
    simp only [Production.getData] at h
    split at h
    · obtain ⟨r, rfl⟩ := starts_cat (n := 0x0a) rfl h; rfl
    · simp at h

/-- **C20** Exactly: the bytes written for an action start with its action number if and only if it is neither a comment nor a
production callback. -/
theorem first_byte_is_number_iff (T : Tables) (a : Action) (bs : Bytes) (h : a.getData T = some bs) :
    bs.head? = some a.number ↔ (∀ d, a ≠ .comment d) ∧ ∀ p, a ≠ .production p := by
  cases hm : a.misnumbered with
  | false =>
    refine ⟨fun _ => ⟨?_, ?_⟩, fun _ => first_byte_is_number_partial T a bs hm h⟩
    · intro d e; subst e; cases hm
    · intro d e; subst e; cases hm
  | true =>
    constructor
    · intro hh
      cases a with
      | comment d =>
        have := comment_is_action_0 T d bs h
        rw [this.1, this.2] at hh
        exact absurd hh (by decide)
      | production p =>
        have := production_is_action_10 T p bs h
        rw [this.1, this.2] at hh
        exact absurd hh (by decide)
      | _ => cases hm
    · rintro ⟨h1, h2⟩
      cases a with
      | comment d => exact absurd rfl (h1 d)
      | production p => exact absurd rfl (h2 p)
      | _ => cases hm

/-- So no production callback is ever read back. -/
theorem production_never_read (T : Tables) (V : Nat → List (String × VarData)) (ctx c : PCtx) (p q : Production) (bs : Bytes)
    (h : (Action.production p).getData T = some bs) : decodePseudo V ctx bs ≠ some (some (.act2 (.production q)), c) := by
  intro hd
  have h1 := (production_is_action_10 T p bs h).1
  cases bs with
  | nil => simp at h1
  | cons b bs =>
    simp only [List.head?_cons, Option.some.injEq] at h1
    subst h1
    have := decoded_kind_is_first_byte V ctx c _ bs _ hd
    simp [Decoded.number] at this

/-- A sprite group with 128 loaded sets has the bytes of a random switch. -/
theorem group_and_random_switch_collide :
    (Generic.mk 0 7 (0x8000 :: List.replicate 127 0) [0]).getData =
      (Random.mk 0 7 .self none 1 false 0 (List.replicate 128 (.ref 0))).getData ∧
    (Generic.mk 0 7 (0x8000 :: List.replicate 127 0) [0]).getData.isSome = true ∧
    (Generic.mk 0 7 (0x8000 :: List.replicate 127 0) [0]).accepted = true ∧
    (Random.mk 0 7 .self none 1 false 0 (List.replicate 128 (.ref 0))).accepted = true := by decide +kernel

end Grf.Acts
