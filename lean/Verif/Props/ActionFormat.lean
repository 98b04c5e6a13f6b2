import Verif.Spec.ActionFormat
import Verif.Props.Actions2
import Verif.Props.SpriteRef
/-!
# C61: an action is written exactly when its numbers fit, and then as the format says

Every theorem is an equivalence: the constructor accepts the action and `get_data` returns these bytes, if and only if the fields of the
format can be written and are these bytes.
-/
namespace Grf.Acts
open PropC Grf.Spec

/-- The encoder's way of writing a field. -/
def enc : Field → Option Bytes
  | .B n => packU 1 n
  | .S n => packS 1 n
  | .W n => packU 2 n
  | .D n => packU 4 n
  | .text b => some b

theorem enc_iff (f : Field) (bs : Bytes) : enc f = some bs ↔ f.Fits ∧ bs = f.bytes := by
  cases f with
  | text b => simp [enc, Field.Fits, Field.bytes, eq_comm]
  | B n =>
    simp only [enc, Field.Fits, Field.bytes, packU]
    by_cases h : 0 ≤ n ∧ n ≤ 255
    · rw [if_pos (by simp; omega)]; simp [leBytes, h, eq_comm]
    · rw [if_neg (by simp; omega)]; simp [h]
  | W n =>
    simp only [enc, Field.Fits, Field.bytes, packU]
    by_cases h : 0 ≤ n ∧ n ≤ 65535
    · rw [if_pos (by simp; omega)]; simp [leBytes, h, eq_comm]
    · rw [if_neg (by simp; omega)]; simp [h]
  | D n =>
    simp only [enc, Field.Fits, Field.bytes, packU]
    by_cases h : 0 ≤ n ∧ n ≤ 4294967295
    · rw [if_pos (by simp; omega)]; simp [leBytes, h, eq_comm, Nat.div_div_eq_div_mul]
    · rw [if_neg (by simp; omega)]; simp [h]
  | S n =>
    simp only [enc, Field.Fits, Field.bytes, packS]
    by_cases h : -128 ≤ n ∧ n ≤ 127
    · rw [if_pos (by simp; omega)]
      have e : (n % 256).toNat = (if n < 0 then n + 256 else n).toNat := by split <;> omega
      simp [leBytes, h, eq_comm, e]
    · rw [if_neg (by simp; omega)]; simp [h]

theorem written_nil (bs : Bytes) : WrittenAs [] bs ↔ bs = [] := by simp [WrittenAs]

theorem written_append (a b : List Field) (bs : Bytes) : WrittenAs (a ++ b) bs ↔ ∃ x y, WrittenAs a x ∧ WrittenAs b y ∧ bs = x ++ y := by
  constructor
  · rintro ⟨h, rfl⟩
    exact ⟨_, _, ⟨fun f hf => h f (by simp [hf]), rfl⟩, ⟨fun f hf => h f (by simp [hf]), rfl⟩, by simp⟩
  · rintro ⟨x, y, ⟨h1, rfl⟩, ⟨h2, rfl⟩, rfl⟩
    refine ⟨fun f hf => ?_, by simp⟩
    rcases List.mem_append.1 hf with h | h
    · exact h1 f h
    · exact h2 f h

/-- Writing fields one after the other. -/
theorem cat_enc (fs : List Field) (bs : Bytes) : cat (fs.map enc) = some bs ↔ WrittenAs fs bs := by
  induction fs generalizing bs with
  | nil => simp [cat, WrittenAs, eq_comm]
  | cons f fs ih =>
    rw [List.map_cons, cat_cons_iff]
    have e := written_append [f] fs bs
    rw [List.cons_append, List.nil_append] at e
    rw [e]
    constructor
    · rintro ⟨x, h1, y, h2, rfl⟩
      obtain ⟨hf, rfl⟩ := (enc_iff f x).1 h1
      exact ⟨_, _, ⟨by simpa using hf, by simp⟩, (ih y).1 h2, rfl⟩
    · rintro ⟨x, y, h1, h2, rfl⟩
      exact ⟨x, (enc_iff f x).2 ⟨h1.1 f (by simp), by simpa using h1.2⟩, y, (ih y).2 h2, rfl⟩

theorem cat_enc' {l : List (Option Bytes)} (fs : List Field) (h : l = fs.map enc) (bs : Bytes) : cat l = some bs ↔ WrittenAs fs bs := by
  rw [h, cat_enc]

/-- A list of options each of which is the writing of some fields. -/
theorem cat_flat {α : Type} (l : List α) (e : α → Option Bytes) (F : α → List Field) (h : ∀ a ∈ l, ∀ bs, e a = some bs ↔ WrittenAs (F a) bs)
    (bs : Bytes) : cat (l.map e) = some bs ↔ WrittenAs (l.flatMap F) bs := by
  induction l generalizing bs with
  | nil => simp [cat, WrittenAs, eq_comm]
  | cons a l ih =>
    rw [List.map_cons, cat_cons_iff, List.flatMap_cons, written_append]
    constructor
    · rintro ⟨x, h1, y, h2, rfl⟩
      exact ⟨x, y, (h a (by simp) x).1 h1, (ih (fun b hb => h b (by simp [hb])) y).1 h2, rfl⟩
    · rintro ⟨x, y, h1, h2, rfl⟩
      exact ⟨x, (h a (by simp) x).2 h1, y, (ih (fun b hb => h b (by simp [hb])) y).2 h2, rfl⟩

/-- Two parts. -/
theorem written_bind (a b : Option Bytes) (fa fb : List Field) (ha : ∀ bs, a = some bs ↔ WrittenAs fa bs) (hb : ∀ bs, b = some bs ↔ WrittenAs fb bs)
    (bs : Bytes) : (a.bind fun x => b.bind fun y => some (x ++ y)) = some bs ↔ WrittenAs (fa ++ fb) bs := by
  rw [written_append]
  simp only [Option.bind_eq_some_iff, ha, hb, Option.some.injEq]
  constructor
  · rintro ⟨x, h1, y, h2, h⟩; exact ⟨x, y, h1, h2, h.symm⟩
  · rintro ⟨x, y, h1, h2, h⟩; exact ⟨x, h1, y, h2, h.symm⟩

theorem or_two_pow (m k : Nat) : m ||| 2 ^ k = if m / 2 ^ k % 2 = 0 then m + 2 ^ k else m := by
  have hb : m / 2 ^ k % 2 = if m.testBit k then 1 else 0 := by
    rw [Nat.testBit_eq_decide_div_mod_eq]
    have : m / 2 ^ k % 2 < 2 := Nat.mod_lt _ (by decide)
    by_cases h : m / 2 ^ k % 2 = 1
    · simp [h]
    · simp [h]; omega
  cases ht : m.testBit k with
  | true =>
    rw [hb, ht]
    simp only [if_true]
    rw [if_neg (by decide)]
    apply Nat.eq_of_testBit_eq
    intro i
    rw [Nat.testBit_or, Nat.testBit_two_pow]
    by_cases h7 : k = i
    · subst h7; simp [ht]
    · simp [h7]
  | false =>
    rw [hb, ht]
    simp only [Bool.false_eq_true, if_false, if_true]
    have hd := Nat.div_add_mod m (2 ^ k)
    have hm : m % 2 ^ k < 2 ^ k := Nat.mod_lt _ (Nat.two_pow_pos k)
    rw [ht] at hb; simp only [Bool.false_eq_true, if_false] at hb
    have l1 : m + 2 ^ k = 2 ^ k * (m / 2 ^ k + 1) + m % 2 ^ k := by rw [Nat.mul_add]; omega
    apply Nat.eq_of_testBit_eq
    intro i
    rw [l1, Nat.testBit_or, Nat.testBit_two_pow]
    have hmi : m.testBit i = (2 ^ k * (m / 2 ^ k) + m % 2 ^ k).testBit i := by rw [hd]
    rw [hmi]
    rw [Nat.testBit_two_pow_mul_add _ hm, Nat.testBit_two_pow_mul_add _ hm]
    by_cases hi : i < k
    · rw [if_pos hi, if_pos hi]; have : ¬ k = i := by omega
      simp [this]
    · rw [if_neg hi, if_neg hi]
      by_cases h7 : k = i
      · subst h7
        simp only [Nat.sub_self, Nat.testBit_zero, decide_true, Bool.or_true]
        symm; rw [decide_eq_true_eq]; omega
      · simp only [h7, decide_false, Bool.or_false]
        obtain ⟨q, hq⟩ : ∃ q, i - k = q + 1 := ⟨i - k - 1, by omega⟩
        rw [hq, Nat.testBit_succ, Nat.testBit_succ]
        congr 1; omega

/-- Setting a bit of a natural number. -/
theorem pyOr_withBit (k m : Nat) : pyOr (m : Int) ((2 ^ k : Nat) : Int) = withBit k (m : Int) := by
  show ((m ||| 2 ^ k : Nat) : Int) = _
  rw [or_two_pow]
  unfold withBit
  have e : ((m : Int) / 2 ^ k % 2 = 0) ↔ m / 2 ^ k % 2 = 0 := by
    rw [show ((2:Int) ^ k) = ((2 ^ k : Nat) : Int) by simp]
    omega
  by_cases h : m / 2 ^ k % 2 = 0
  · rw [if_pos h, if_pos (e.2 h)]; simp
  · rw [if_neg h, if_neg (fun x => h (e.1 x))]

theorem withBit_neg (k : Nat) (n : Int) (h : n < 0) : withBit k n < 0 := by
  unfold withBit
  split
  · rename_i h0
    by_cases hk : n + 2 ^ k < 0
    · exact hk
    · exfalso
      have hp : (0 : Int) < 2 ^ k := Int.pow_pos (by decide)
      have : n / 2 ^ k = -1 := by
        have h1 : n / 2 ^ k < 0 := Int.ediv_neg_of_neg_of_pos h hp
        have h2 : -1 ≤ n / 2 ^ k := by
          rw [Int.le_ediv_iff_mul_le hp]; omega
        omega
      rw [this] at h0; simp at h0
  · exact h

theorem withBit7_or (n : Int) : enc (.B (pyOr n 0x80)) = enc (.B (withBit 7 n)) := by
  by_cases h : 0 ≤ n
  · obtain ⟨m, rfl⟩ := Int.eq_ofNat_of_zero_le h
    rw [← pyOr_withBit 7 m]; rfl
  · have h1 := SpriteRef.pyOr_neg_left n 0x80 (by omega)
    have h2 := withBit_neg 7 n (by omega)
    simp only [enc, packU]
    rw [if_neg (by omega), if_neg (by omega)]

theorem target_enc (t : Target) : enc (.W (getRefId t)) = enc (.W (targetNumber t)) := by
  have key : ∀ n : Int, enc (.W (pyOr n 0x8000)) = enc (.W (withBit 15 n)) := by
    intro n
    by_cases h : 0 ≤ n
    · obtain ⟨m, rfl⟩ := Int.eq_ofNat_of_zero_le h
      rw [← pyOr_withBit 15 m]; rfl
    · have h1 := SpriteRef.pyOr_neg_left n 0x8000 (by omega)
      have h2 := withBit_neg 15 n (by omega)
      simp only [enc, packU]
      rw [if_neg (by omega), if_neg (by omega)]
  cases t with
  | ref v => rfl
  | action r => rfl
  | num n => exact key n
  | sound n => exact key n

theorem flagged_or (b : Bool) (n : Int) : (enc (.B (pyOr n (if b then 0x80 else 0)))) = enc (.B (flagged b n)) := by
  cases b with
  | true => simpa [flagged] using withBit7_or n
  | false =>
    have e : pyOr n 0 = n := by
      cases n with
      | ofNat m => show Int.ofNat (m ||| 0) = _; simp
      | negSucc m => show Int.negSucc (ldiff m 0) = _; simp [ldiff]
    simp [flagged, e]

theorem sprite_enc (r : SpriteRef) (bs : Bytes) : r.accepted = true ∧ SpriteRef.encode false r = some bs ↔ SpriteFits r ∧ enc (.D (spriteNumber r)) = some bs := by
  by_cases h : SpriteFits r
  · have ha : r.accepted = true := by simp [SpriteRef.accepted, h.2.1, h.2.2.2]
    have e := SpriteRef.toGrf_word false r ha h.1 h.2.2.1
    have e2 : spriteNumber r = SpriteRef.toGrf false r := by
      rw [e]; unfold spriteNumber SpriteRef.word
      cases r.alwaysTransparent <;> cases r.useRecolour <;> cases r.noTransparent <;> cases r.isGlobal <;> simp [Bool.toInt] <;> omega
    simp [ha, h, SpriteRef.encode, enc, e2]
  · constructor
    · rintro ⟨ha, he⟩
      exfalso; apply h
      have := (SpriteRef.sprite_ref_accepts false r ha).1 (by rw [he]; rfl)
      simp only [SpriteRef.accepted, Bool.and_eq_true, decide_eq_true_eq] at ha
      exact ⟨this.1, ha.1, this.2, ha.2⟩
    · rintro ⟨h', _⟩; exact absurd h' h

/-- A list of numbers written with the same kind of field. -/
theorem list_fields {α : Type} (l : List α) (e : α → Option Bytes) (F : α → Field) (h : ∀ a, e a = enc (F a)) (bs : Bytes) :
    cat (l.map e) = some bs ↔ WrittenAs (l.map F) bs := by
  rw [← cat_enc, List.map_map, show e = enc ∘ F from funext h]

theorem bind3 (a b c : Option Bytes) (fa fb fc : List Field) (ha : ∀ bs, a = some bs ↔ WrittenAs fa bs) (hb : ∀ bs, b = some bs ↔ WrittenAs fb bs)
    (hc : ∀ bs, c = some bs ↔ WrittenAs fc bs) (bs : Bytes) :
    (a.bind fun x => b.bind fun y => c.bind fun z => some (x ++ y ++ z)) = some bs ↔ WrittenAs (fa ++ fb ++ fc) bs := by
  simp only [written_append, Option.bind_eq_some_iff, ha, hb, hc, Option.some.injEq]
  constructor
  · rintro ⟨x, h1, y, h2, z, h3, h⟩; exact ⟨_, _, ⟨x, y, h1, h2, rfl⟩, h3, h.symm⟩
  · rintro ⟨_, z, ⟨x, y, h1, h2, rfl⟩, h3, h⟩; exact ⟨x, h1, y, h2, z, h3, h.symm⟩

/-- **C61** Sprite sets. -/
theorem sets_format (a : Sets) (bs : Bytes) : a.getData = some bs ↔ WrittenAs (setsFields a) bs := by
  unfold Sets.getData setsFields
  by_cases h : a.setCount ≤ 255 ∧ a.firstSet = none
  · rw [if_pos h, if_pos ⟨h.2, h.1⟩]; exact cat_enc' _ (by simp only [List.map_cons, List.map_nil, enc]) bs
  · rw [if_neg h, if_neg (fun x => h ⟨x.2, x.1⟩)]; exact cat_enc' _ (by simp only [List.map_cons, List.map_nil, enc]) bs

/-- **C61** Sprite groups of vehicles and stations: refused for tiles and industries. -/
theorem generic_format (g : Generic) (bs : Bytes) :
    g.accepted = true ∧ g.getData = some bs ↔ g.feature ∉ [7, 9, 10, 15, 17] ∧ WrittenAs (genericFields g) bs := by
  have hd : g.getData = some bs ↔ WrittenAs (genericFields g) bs := by
    have h0 : ∀ b, cat [packU 1 2, packU 1 g.feature, packU 1 g.refId, packU 1 g.ent1.length, packU 1 g.ent2.length] = some b ↔
        WrittenAs [.B 2, .B g.feature, .B g.refId, .B g.ent1.length, .B g.ent2.length] b :=
      cat_enc' _ (by simp only [List.map_cons, List.map_nil, enc])
    have h1 : ∀ l : List Int, ∀ b, cat (l.map (packU 2)) = some b ↔ WrittenAs (l.map .W) b := fun l => list_fields _ _ _ (fun _ => rfl)
    exact bind3 _ _ _ _ _ _ h0 (h1 g.ent1) (h1 g.ent2) bs
  rw [hd]
  simp only [Generic.accepted, Bool.and_eq_true, Bool.not_eq_true', List.all_eq_true, decide_eq_true_eq]
  constructor
  · rintro ⟨⟨⟨h1, -⟩, -⟩, hw⟩
    refine ⟨?_, hw⟩
    simp only [List.contains_eq_mem, decide_eq_false_iff_not] at h1
    simp only [List.mem_cons, List.not_mem_nil, or_false, not_or] at h1 ⊢
    omega
  · rintro ⟨h1, hw⟩
    refine ⟨⟨⟨?_, ?_⟩, ?_⟩, hw⟩
    · simp only [List.contains_eq_mem, decide_eq_false_iff_not]
      simp only [List.mem_cons, List.not_mem_nil, or_false, not_or] at h1 ⊢
      omega
    · intro x hx; have := hw.1 (.W x) (by simp [genericFields, hx]); exact this
    · intro x hx; have := hw.1 (.W x) (by simp [genericFields, hx]); exact this

/-- **C61** Random switches. A count is required for vehicles and refused otherwise, but it is not written for vehicles and required in
writing otherwise: with the scope "relative" only vehicles can be written, and without the byte for the count the format has. -/
theorem random_format (r : Random) (bs : Bytes) : r.accepted = true ∧ r.getData = some bs ↔
    (r.scope = .relative → r.feature ≤ 3 ∧ r.count ≠ none) ∧ (r.scope ≠ .relative → r.count = none) ∧ WrittenAs (randomFields r) bs := by
  have hm : ∀ b, cat [packU 1 (pyOr r.triggers (if r.cmpAll then 0x80 else 0)), packU 1 r.lowestBit, packU 1 r.groups.length] = some b ↔
      WrittenAs [.B (flagged r.cmpAll r.triggers), .B r.lowestBit, .B r.groups.length] b := by
    intro b; rw [← cat_enc]; simp only [List.map_cons, List.map_nil, ← flagged_or]; rfl
  have hg : ∀ b, cat (r.groups.map fun t => packU 2 (getRefId t)) = some b ↔ WrittenAs (r.groups.map fun t => .W (targetNumber t)) b := by
    exact list_fields _ _ _ fun t => target_enc t
  have hh : ∀ b, cat [packU 1 2, packU 1 r.feature, packU 1 r.refId, packU 1 r.scope.code] = some b ↔
      WrittenAs [.B 2, .B r.feature, .B r.refId, .B (match r.scope with | .self => 0x80 | .parent => 0x83 | .relative => 0x84)] b := by
    intro b; rw [← cat_enc]
    have e : r.scope.code = (match r.scope with | .self => 0x80 | .parent => 0x83 | .relative => 0x84) := by cases r.scope <;> rfl
    rw [e]; rfl
  have plain : ¬ (r.scope = .relative ∧ vehicle r.feature = false) → (r.getData = some bs ↔ WrittenAs (randomFields r) bs) := by
    intro hc
    unfold Random.getData
    simp only [if_neg hc, Option.bind_eq_bind, Option.bind_some, List.append_nil]
    exact bind3 _ _ _ _ _ _ hh hm hg bs
  by_cases hs : r.scope = .relative
  · by_cases hv : r.feature ≤ 3
    · have ea : r.accepted = r.count.isSome := by simp [Random.accepted, vehicle, hs, hv]
      rw [plain (by simp [vehicle, hv]), ea]
      simp [hs, hv, Option.isSome_iff_ne_none]
    · have ea : r.accepted = r.count.isNone := by simp [Random.accepted, vehicle, hv]
      rw [ea]
      constructor
      · rintro ⟨h1, h2⟩
        unfold Random.getData at h2
        simp only [Option.isNone_iff_eq_none] at h1
        have hc : r.scope = .relative ∧ vehicle r.feature = false := ⟨hs, by simp [vehicle]; omega⟩
        rw [h1] at h2
        simp [hc] at h2
      · rintro ⟨h1, -⟩; exact absurd (h1 hs).1 hv
  · have ea : r.accepted = r.count.isNone := by simp [Random.accepted, hs]
    rw [plain (by simp [hs]), ea]
    simp [hs]

/-- **C61** Production of industries: the oldest version is never written (`struct.error`), version 1 has three inputs and two outputs,
version 2 up to 255 of each with two numbers; only the total of the numbers is checked. -/
theorem production_format (p : Production) (bs : Bytes) : p.accepted = true ∧ p.getData = some bs ↔
    (match p with
      | .old v i o _ => v = 1 ∧ i.length = 3 ∧ o.length = 2
      | .new i o _ => i.flatten.length + o.flatten.length = 2 * (i.length + o.length)) ∧ WrittenAs (productionFields p) bs := by
  cases p with
  | old v i o d =>
    have hd : cat ([packU 1 0x0a, packU 1 v] ++ i.map (packU 1) ++ o.map (packU 1) ++ [packU 1 d]) = some bs ↔
        WrittenAs (productionFields (.old v i o d)) bs := by
      rw [← cat_enc]
      simp only [productionFields, List.map_append, List.map_map]; rfl
    simp only [Production.accepted, Production.getData, Bool.and_eq_true, decide_eq_true_eq, beq_iff_eq]
    by_cases h0 : v = 0
    · rw [if_pos h0]; subst h0; simp
    · rw [if_neg h0, hd]
      constructor
      · rintro ⟨⟨⟨h1, h2⟩, h3⟩, h4⟩; exact ⟨⟨by omega, h2, h3⟩, h4⟩
      · rintro ⟨⟨h1, h2, h3⟩, h4⟩; exact ⟨⟨⟨by omega, h2⟩, h3⟩, h4⟩
  | new i o d =>
    have hd : cat ([packU 1 0x0a, packU 1 2, packU 1 i.length] ++ i.flatten.map (packU 1) ++ [packU 1 o.length] ++ o.flatten.map (packU 1) ++
        [packU 1 d]) = some bs ↔ WrittenAs (productionFields (.new i o d)) bs := by
      rw [← cat_enc]
      simp only [productionFields, List.map_append, List.map_map]; rfl
    simp only [Production.accepted, Production.getData, Bool.and_eq_true, decide_eq_true_eq]
    by_cases h : i.flatten.length + o.flatten.length = 2 * i.length + 2 * o.length
    · rw [if_pos h, hd]
      constructor
      · rintro ⟨-, h4⟩; exact ⟨by omega, h4⟩
      · rintro ⟨h1, h4⟩
        have a := h4.1 (.B i.length) (by simp [productionFields])
        have b := h4.1 (.B o.length) (by simp [productionFields])
        simp only [Field.Fits] at a b
        exact ⟨⟨by omega, by omega⟩, h4⟩
    · rw [if_neg h]
      constructor
      · rintro ⟨-, h4⟩; cases h4
      · rintro ⟨h1, -⟩; exact absurd (by omega) h

theorem bytesOf_fields (l : List Int) (bs : Bytes) : bytesOf l = some bs ↔ WrittenAs (l.map .B) bs := by
  have e : bytesOf l = cat (l.map fun n => enc (.B n)) := by
    induction l with
    | nil => rfl
    | cons a l ih =>
      have : bytesOf (a :: l) = (byteOf a).bind fun x => (bytesOf l).bind fun y => some (x :: y) := by simp [bytesOf]
      rw [this, ih, List.map_cons]
      generalize l.map (fun n => enc (.B n)) = q
      have ec : cat (enc (.B a) :: q) = (enc (.B a)).bind fun x => (cat q).bind fun y => some (x ++ y) := rfl
      rw [ec]
      simp only [enc, packU, byteOf, leBytes]
      by_cases h : 0 ≤ a ∧ a < 256
      · rw [if_pos h, if_pos (by simp; omega)]; rfl
      · rw [if_neg h, if_neg (by simp; omega)]; rfl
  rw [e]
  exact list_fields _ _ _ (fun _ => rfl) bs

theorem sprite_key {r : SpriteRef} (hr : SpriteFits r) : r.accepted = true ∧ SpriteRef.encode false r = enc (.D (spriteNumber r)) := by
  have ha : r.accepted = true := by simp [SpriteRef.accepted, hr.2.1, hr.2.2.2]
  refine ⟨ha, ?_⟩
  apply Option.ext; intro b
  have := sprite_enc r b
  simpa [ha, hr] using this

/-- **C61** Short tile layouts. -/
theorem basic_format (b : Basic) (bs : Bytes) : b.ground.accepted = true ∧ b.building.accepted = true ∧ b.getData = some bs ↔
    SpriteFits b.ground ∧ SpriteFits b.building ∧ (b.offset ++ b.extent).length = 5 ∧ WrittenAs (basicFields b) bs := by
  have conv : ∀ x y e1 e2 e3 : Int, (b.ground.accepted = true ∧ b.building.accepted = true ∧
      cat [packU 1 2, packU 1 b.feature, packU 1 b.refId, packU 1 0, SpriteRef.encode false b.ground, SpriteRef.encode false b.building,
        packS 1 x, packS 1 y, packU 1 e1, packU 1 e2, packU 1 e3] = some bs) ↔ SpriteFits b.ground ∧ SpriteFits b.building ∧
      WrittenAs [.B 2, .B b.feature, .B b.refId, .B 0, .D (spriteNumber b.ground), .D (spriteNumber b.building), .S x, .S y, .B e1, .B e2, .B e3] bs := by
    intro x y e1 e2 e3
    rw [← cat_enc]
    constructor
    · rintro ⟨hg, hb, h⟩
      have h' := h
      simp only [cat_cons_iff] at h'
      obtain ⟨_, _, _, ⟨_, _, _, ⟨_, _, _, ⟨_, _, _, ⟨x5, h5, _, ⟨x6, h6, _⟩, _⟩, _⟩, _⟩, _⟩, _⟩ := h'
      have g1 := ((sprite_enc b.ground _).1 ⟨hg, h5⟩).1
      have g2 := ((sprite_enc b.building _).1 ⟨hb, h6⟩).1
      refine ⟨g1, g2, ?_⟩
      rw [(sprite_key g1).2, (sprite_key g2).2] at h; exact h
    · rintro ⟨g1, g2, h⟩
      refine ⟨(sprite_key g1).1, (sprite_key g2).1, ?_⟩
      rw [(sprite_key g1).2, (sprite_key g2).2]; exact h
  unfold Basic.getData basicFields
  constructor
  · rintro ⟨hg, hb, h⟩
    split at h
    · rename_i x y e1 e2 e3 he
      obtain ⟨a, c, d⟩ := (conv x y e1 e2 e3).1 ⟨hg, hb, h⟩
      rw [he]
      exact ⟨a, c, rfl, d⟩
    · cases h
  · rintro ⟨a, c, hl, d⟩
    match hm : b.offset ++ b.extent, hl with
    | [x, y, e1, e2, e3], _ =>
      rw [hm] at d
      obtain ⟨h1, h2, h3⟩ := (conv x y e1 e2 e3).2 ⟨a, c, d⟩
      exact ⟨h1, h2, h3⟩

/-- Setting a bit or not. -/
def bitStep (k : Nat) (b : Bool) (fl : Nat) : Nat := if b = true then fl ||| 2 ^ k else fl

theorem flags_sum : ∀ a0 a1 a2 a3 a4 a5 a6 a7 : Bool,
    ((bitStep 7 a7 (bitStep 6 a6 (bitStep 5 a5 (bitStep 4 a4 (bitStep 3 a3 (bitStep 2 a2 (bitStep 1 a1 (bitStep 0 a0 0))))))) : Nat) : Int) =
    (if a0 then 1 else 0) + (if a1 then 2 else 0) + (if a2 then 4 else 0) + (if a3 then 8 else 0) + (if a4 then 16 else 0) +
    (if a5 then 32 else 0) + (if a6 then 64 else 0) + (if a7 then 128 else 0) := by decide +kernel

theorem layout_flags (s : LSpr) : (s.flags : Int) = layoutFlags s (ownPlace s) := by
  have hp : s.isParent = ownPlace s := by simp [LSpr.isParent, ownPlace, Bool.or_comm]
  have e : s.flags = bitStep 7 (hasKey s .paletteVar10) (bitStep 6 (hasKey s .spriteVar10)
      (bitStep 5 (hasKey s (if ownPlace s then .deltaParentZ else .deltaChildY)) (bitStep 4 (hasKey s (if ownPlace s then .deltaParentXY else .deltaChildX))
      (bitStep 3 (hasKey s .customPalette) (bitStep 2 (hasKey s .addPalette) (bitStep 1 (hasKey s .add) (bitStep 0 (hasKey s .dodraw) 0))))))) := by
    unfold LSpr.flags
    rw [hp]
    cases ownPlace s <;> rfl
  rw [e, flags_sum]
  rfl

/-- A value that must be a number. -/
theorem value_byte (v : Option RVal) (bs : Bytes) : (match v with | none => some [] | some v => v.byte) = some bs ↔
    ∃ n : Option Int, v.map numberOf = n.map some ∧ WrittenAs (optionalB n) bs := by
  cases v with
  | none =>
    constructor
    · intro h; cases h; exact ⟨none, rfl, by simp [optionalB, WrittenAs]⟩
    · rintro ⟨n, h, hw⟩
      cases n with
      | none => simp [optionalB, written_nil] at hw; simp [hw]
      | some n => cases h
  | some v =>
    have hb : ∀ n, bytesOf [n] = some bs ↔ WrittenAs [.B n] bs := fun n => bytesOf_fields [n] bs
    cases v with
    | int m =>
      simp only [RVal.byte, hb]
      constructor
      · intro h; exact ⟨some m, rfl, h⟩
      · rintro ⟨n, h, hw⟩
        cases n with
        | none => cases h
        | some n => simp [numberOf] at h; subst h; exact hw
    | bool m =>
      simp only [RVal.byte, hb]
      constructor
      · intro h; exact ⟨some _, rfl, h⟩
      · rintro ⟨n, h, hw⟩
        cases n with
        | none => cases h
        | some n => simp only [numberOf, Option.map_some, Option.some.injEq] at h; rw [h]; exact hw
    | temp m =>
      simp only [RVal.byte]
      constructor
      · intro h; cases h
      · rintro ⟨n, h, hw⟩; cases n <;> simp [numberOf] at h
    | pair m k =>
      simp only [RVal.byte]
      constructor
      · intro h; cases h
      · rintro ⟨n, h, hw⟩; cases n <;> simp [numberOf] at h

theorem add_byte (s : LSpr) (bs : Bytes) : regByte .add s = some bs ↔ ∃ n : Option Int, s.regs.lookup .add = n.map .temp ∧ WrittenAs (optionalB n) bs := by
  unfold regByte
  have hb : ∀ n, bytesOf [n] = some bs ↔ WrittenAs [.B n] bs := fun n => bytesOf_fields [n] bs
  cases s.regs.lookup .add with
  | none =>
    constructor
    · intro h; cases h; exact ⟨none, rfl, by simp [optionalB, WrittenAs]⟩
    · rintro ⟨n, h, hw⟩
      cases n with
      | none => simp [optionalB, written_nil] at hw; simp [hw]
      | some n => cases h
  | some v =>
    cases v with
    | temp m =>
      simp only [if_true, hb]
      constructor
      · intro h; exact ⟨some m, rfl, h⟩
      · rintro ⟨n, h, hw⟩
        cases n with
        | none => cases h
        | some n => simp at h; subst h; exact hw
    | int m =>
      simp only [if_true]
      exact ⟨nofun, by rintro ⟨n, h, hw⟩; cases n <;> simp at h⟩
    | bool m =>
      simp only [if_true]
      exact ⟨nofun, by rintro ⟨n, h, hw⟩; cases n <;> simp at h⟩
    | pair m k =>
      simp only [if_true]
      exact ⟨nofun, by rintro ⟨n, h, hw⟩; cases n <;> simp at h⟩

theorem reg_byte (r : Reg) (hr : r ≠ .add) (s : LSpr) (bs : Bytes) : regByte r s = some bs ↔
    ∃ n : Option Int, (s.regs.lookup r).map numberOf = n.map some ∧ WrittenAs (optionalB n) bs := by
  rw [← value_byte]
  unfold regByte
  cases s.regs.lookup r with
  | none => rfl
  | some v => simp [hr]

theorem place_format (s : LSpr) (bs : Bytes) : s.aux = some bs ↔ PlaceOk s ∧ WrittenAs (placeFields s) bs := by
  have hp : s.isParent = ownPlace s := by simp [LSpr.isParent, ownPlace, Bool.or_comm]
  unfold LSpr.aux PlaceOk placeFields
  rw [hp]
  cases ownPlace s with
  | true =>
    simp only [if_true]
    generalize s.offset.getD [0, 0, 0] = o
    generalize s.extent.getD [0, 0, 0] = e
    constructor
    · intro h
      match o, e, h with
      | [x, y, z], [a, b, c], h =>
        refine ⟨⟨rfl, rfl⟩, ?_⟩
        rw [List.append_assoc] 
        exact (written_bind (cat [packS 1 x, packS 1 y, packU 1 z]) (cat [packU 1 a, packU 1 b, packU 1 c]) [.S x, .S y, .B z] [.B a, .B b, .B c]
          (cat_enc' _ (by simp only [List.map_cons, List.map_nil, enc])) (cat_enc' _ (by simp only [List.map_cons, List.map_nil, enc])) bs).1 h
      | [x, y, z], [], h => simp at h
      | [x, y, z], [_], h => simp at h
      | [x, y, z], [_, _], h => simp at h
      | [x, y, z], _ :: _ :: _ :: _ :: _, h => simp at h
      | [], _, h => simp at h
      | [_], _, h => simp at h
      | [_, _], _, h => simp at h
      | _ :: _ :: _ :: _ :: _, _, h => simp at h
    · rintro ⟨⟨h1, h2⟩, hw⟩
      match o, e, h1, h2 with
      | [x, y, z], [a, b, c], _, _ =>
        exact (written_bind (cat [packS 1 x, packS 1 y, packU 1 z]) (cat [packU 1 a, packU 1 b, packU 1 c]) [.S x, .S y, .B z] [.B a, .B b, .B c]
          (cat_enc' _ (by simp only [List.map_cons, List.map_nil, enc])) (cat_enc' _ (by simp only [List.map_cons, List.map_nil, enc])) bs).2 hw
  | false =>
    simp only [Bool.false_eq_true, if_false]
    generalize s.pixelOffset.getD [0, 0] = o
    match o with
    | [] => simp
    | [_] => simp
    | x :: y :: r =>
      have := cat_enc' (l := [packU 1 x, packU 1 y, packU 1 0x80]) [.B x, .B y, .B 0x80] (by simp only [List.map_cons, List.map_nil, enc]) bs
      simp only [this]
      simp

/-- A sprite of a tile layout. -/
theorem lspr_format (aux : Bool) (s : LSpr) (bs : Bytes) : s.sprite.accepted = true ∧ s.encode aux = some bs ↔ layoutSprite (!aux) s bs := by
  have hh : ∀ b, s.sprite.accepted = true ∧ cat [SpriteRef.encode false s.sprite, packU 2 s.flags] = some b ↔
      SpriteFits s.sprite ∧ WrittenAs [.D (spriteNumber s.sprite), .W (layoutFlags s (ownPlace s))] b := by
    intro b
    rw [layout_flags, ← cat_enc]
    constructor
    · rintro ⟨ha, h⟩
      have h' := h
      simp only [cat_cons_iff] at h'
      obtain ⟨x, hx, -⟩ := h'
      have g := ((sprite_enc s.sprite _).1 ⟨ha, hx⟩).1
      refine ⟨g, ?_⟩
      rw [(sprite_key g).2] at h; exact h
    · rintro ⟨g, h⟩
      refine ⟨(sprite_key g).1, ?_⟩
      rw [(sprite_key g).2]; exact h
  have ha : ∀ b, (if aux then s.aux else some []) = some b ↔ ((!aux) = false → PlaceOk s) ∧ WrittenAs (if (!aux) = true then [] else placeFields s) b := by
    intro b
    cases aux with
    | true => simpa using place_format s b
    | false => simp [written_nil, eq_comm]
  have hr : ∀ b, cat [regByte .dodraw s, regByte .add s, (match s.palette with | none => some [] | some v => v.byte), regByte .spriteVar10 s,
      regByte .paletteVar10 s] = some b ↔ ∃ d a p s10 p10, RegsOk s d a p s10 p10 ∧
        WrittenAs (optionalB d ++ optionalB a ++ optionalB p ++ optionalB s10 ++ optionalB p10) b := by
    intro b
    simp only [cat_cons_iff, cat_nil_iff, add_byte, reg_byte .dodraw (by decide), reg_byte .spriteVar10 (by decide), reg_byte .paletteVar10 (by decide),
      value_byte, written_append]
    constructor
    · rintro ⟨b1, ⟨d, hd, wd⟩, _, ⟨b2, ⟨a, ha, wa⟩, _, ⟨b3, ⟨p, hp, wp⟩, _, ⟨b4, ⟨x, hx, wx⟩, _, ⟨b5, ⟨y, hy, wy⟩, _, rfl, rfl⟩, rfl⟩, rfl⟩, rfl⟩, rfl⟩
      exact ⟨d, a, p, x, y, ⟨hd, ha, hp, hx, hy⟩, _, _, ⟨_, _, ⟨_, _, ⟨_, _, wd, wa, rfl⟩, wp, rfl⟩, wx, rfl⟩, wy, by simp⟩
    · rintro ⟨d, a, p, x, y, ⟨hd, ha, hp, hx, hy⟩, _, b5, ⟨_, b4, ⟨_, b3, ⟨b1, b2, wd, wa, rfl⟩, wp, rfl⟩, wx, rfl⟩, wy, rfl⟩
      exact ⟨b1, ⟨d, hd, wd⟩, _, ⟨b2, ⟨a, ha, wa⟩, _, ⟨b3, ⟨p, hp, wp⟩, _, ⟨b4, ⟨x, hx, wx⟩, _, ⟨b5, ⟨y, hy, wy⟩, _, rfl, rfl⟩, rfl⟩, rfl⟩, rfl⟩, by simp⟩
  have e : s.encode aux = (cat [SpriteRef.encode false s.sprite, packU 2 s.flags]).bind fun h => (if aux then s.aux else some []).bind fun a =>
      (cat [regByte .dodraw s, regByte .add s, (match s.palette with | none => some [] | some v => v.byte), regByte .spriteVar10 s,
      regByte .paletteVar10 s]).bind fun r => some (h ++ a ++ r) := by
    unfold LSpr.encode; cases aux <;> rfl
  rw [e]
  unfold layoutSprite
  constructor
  · rintro ⟨hacc, h⟩
    simp only [Option.bind_eq_some_iff, Option.some.injEq] at h
    obtain ⟨b0, h0, b1, h1, b2, h2, rfl⟩ := h
    obtain ⟨f1, w0⟩ := (hh b0).1 ⟨hacc, h0⟩
    obtain ⟨f2, w1⟩ := (ha b1).1 h1
    obtain ⟨d, a, p, x, y, hR, w2⟩ := (hr b2).1 h2
    refine ⟨f1, f2, d, a, p, x, y, hR, ?_⟩
    have := (written_append _ _ _).2 ⟨_, _, (written_append _ _ _).2 ⟨_, _, w0, w1, rfl⟩, w2, rfl⟩
    simpa only [List.append_assoc] using this
  · rintro ⟨f1, f2, d, a, p, x, y, hR, w⟩
    have w' : WrittenAs (([.D (spriteNumber s.sprite), .W (layoutFlags s (ownPlace s))] ++ (if (!aux) = true then [] else placeFields s)) ++
      (optionalB d ++ optionalB a ++ optionalB p ++ optionalB x ++ optionalB y)) bs := by simpa only [List.append_assoc] using w
    obtain ⟨_, b2, w01, w2, rfl⟩ := (written_append _ _ _).1 w'
    obtain ⟨b0, b1, w0, w1, rfl⟩ := (written_append _ _ _).1 w01
    obtain ⟨hacc, h0⟩ := (hh b0).2 ⟨f1, w0⟩
    refine ⟨hacc, ?_⟩
    simp only [Option.bind_eq_some_iff, Option.some.injEq]
    exact ⟨b0, h0, b1, (ha b1).2 ⟨f2, w1⟩, b2, (hr b2).2 ⟨d, a, p, x, y, hR, w2⟩, rfl⟩

theorem sprites_format : ∀ (q : List LSpr) (b : Bytes), (∀ s ∈ q, s.sprite.accepted = true) ∧ cat (q.map (LSpr.encode true)) = some b ↔
    ∃ p : List Bytes, b = p.flatten ∧ p.length = q.length ∧ ∀ x ∈ q.zip p, layoutSprite false x.1 x.2 := by
  intro q
  induction q with
  | nil =>
    intro b
    simp only [List.map_nil, cat_nil_iff, List.length_nil, List.zip_nil_left]
    constructor
    · rintro ⟨-, rfl⟩; exact ⟨[], rfl, rfl, fun x hx => by cases hx⟩
    · rintro ⟨p, rfl, hl, -⟩
      cases p with
      | nil => exact ⟨(fun x hx => by cases hx), rfl⟩
      | cons _ _ => cases hl
  | cons s q ih =>
    intro b
    rw [List.map_cons, cat_cons_iff]
    constructor
    · rintro ⟨hacc, x, hx, y, hy, rfl⟩
      obtain ⟨p, rfl, hl, hz⟩ := (ih y).1 ⟨fun t ht => hacc t (by simp [ht]), hy⟩
      refine ⟨x :: p, by simp, by simp [hl], ?_⟩
      intro z hz'
      rcases List.mem_cons.1 hz' with rfl | hz'
      · exact (lspr_format true s x).1 ⟨hacc s (by simp), hx⟩
      · exact hz z hz'
    · rintro ⟨p, rfl, hl, hz⟩
      cases p with
      | nil => cases hl
      | cons x p =>
        obtain ⟨hacc, hx⟩ := (lspr_format true s x).2 (hz (s, x) (by simp))
        obtain ⟨hall, hy⟩ := (ih p.flatten).2 ⟨p, rfl, by simpa using hl, fun z hz' => hz z (List.mem_cons_of_mem _ hz')⟩
        refine ⟨fun t ht => ?_, x, hx, p.flatten, hy, by simp⟩
        rcases List.mem_cons.1 ht with rfl | ht
        · exact hacc
        · exact hall t ht

/-- **C61** Tile layouts: refused for other features than those with tiles and for 64 sprites or more; a header, the ground, the other
sprites. -/
theorem layout_format (l : Layout) (bs : Bytes) :
    (l.accepted = true ∧ l.ground.sprite.accepted = true ∧ (∀ s ∈ l.buildings, s.sprite.accepted = true)) ∧ l.getData = some bs ↔
    l.feature ∈ [7, 9, 10, 15, 20] ∧ l.buildings.length ≤ 63 ∧ ∃ h g b, bs = h ++ g ++ b.flatten ∧
      WrittenAs [.B 2, .B l.feature, .B l.refId, .B (64 + l.buildings.length)] h ∧ layoutSprite true l.ground g ∧
      b.length = l.buildings.length ∧ ∀ x ∈ l.buildings.zip b, layoutSprite false x.1 x.2 := by
  have hcat := sprites_format
  have hh : ∀ b, cat [packU 1 2, packU 1 l.feature, packU 1 l.refId, packU 1 (l.buildings.length + 0x40)] = some b ↔
      WrittenAs [.B 2, .B l.feature, .B l.refId, .B (64 + l.buildings.length)] b := by
    apply cat_enc'
    rw [show (l.buildings.length : Int) + 0x40 = 64 + l.buildings.length by omega]
    simp only [List.map_cons, List.map_nil, enc]
  have hacc : l.accepted = true ↔ l.feature ∈ [7, 9, 10, 15, 20] ∧ l.buildings.length ≤ 63 := by
    simp only [Layout.accepted, tileFeature, List.contains_eq_mem, Bool.and_eq_true, decide_eq_true_eq, List.mem_cons, List.not_mem_nil, or_false]
    omega
  rw [hacc]
  unfold Layout.getData
  simp only [Option.bind_eq_bind, Option.bind_eq_some_iff, Option.some.injEq]
  constructor
  · rintro ⟨⟨⟨h1, h2⟩, h3, h4⟩, h, hw, g, hg, b, hb, rfl⟩
    obtain ⟨p, rfl, hl, hz⟩ := (hcat _ b).1 ⟨h4, hb⟩
    exact ⟨h1, h2, h, g, p, rfl, (hh h).1 hw, (lspr_format false l.ground g).1 ⟨h3, hg⟩, hl, hz⟩
  · rintro ⟨h1, h2, h, g, p, rfl, hw, hg, hl, hz⟩
    obtain ⟨h4, hb⟩ := (hcat l.buildings p.flatten).2 ⟨p, rfl, hl, hz⟩
    obtain ⟨h3, hg'⟩ := (lspr_format false l.ground g).2 hg
    exact ⟨⟨⟨h1, h2⟩, h3, h4⟩, h, (hh h).2 hw, g, hg', _, hb, rfl⟩

/-- Without ids only a number is accepted as the target, and it is written without bit 15 (so it is not a callback result). -/
theorem map_format (a : GMap) (bs : Bytes) : a.getData = some bs ↔
    (a.ids ≠ [] ∧ WrittenAs (mapFields a) bs) ∨
    (a.ids = [] ∧ ∃ n, a.default = .num n ∧ WrittenAs [.B 3, .B a.feature, .B 0, .B 0, .W n] bs) := by
  unfold GMap.getData
  by_cases h : a.ids = []
  · rw [if_pos h]
    simp only [h, ne_eq, not_true_eq_false, false_and, true_and, false_or]
    cases a.default with
    | num n =>
      simp only [Target.num.injEq]
      constructor
      · intro hh; exact ⟨n, rfl, by rw [← cat_enc]; exact hh⟩
      · rintro ⟨m, rfl, hw⟩; rw [← cat_enc] at hw; exact hw
    | ref v => simp
    | sound v => simp
    | action v => simp
  · rw [if_neg h]
    simp only [ne_eq, h, not_false_eq_true, true_and, false_and, or_false]
    have hany : (a.ids.any (fun y => decide (0xff ≤ y)) = true) ↔ ∃ j ∈ a.ids, 255 ≤ j := by simp
    have h1 : ∀ b, cat (a.ids.map fun x => if a.ids.any (fun y => decide (0xff ≤ y)) = true then cat [packU 1 0xff, packU 2 x] else packU 1 x) = some b ↔
        WrittenAs (a.ids.flatMap fun i => if ∃ j ∈ a.ids, 255 ≤ j then [.B 255, .W i] else [.B i]) b := by
      apply cat_flat
      intro i _ b
      by_cases hj : ∃ j ∈ a.ids, 255 ≤ j
      · rw [if_pos (hany.2 hj), if_pos hj, ← cat_enc]; rfl
      · rw [if_neg (fun x => hj (hany.1 x)), if_neg hj, ← cat_enc]
        simp only [List.map_cons, List.map_nil, cat_cons_iff, cat_nil_iff]
        constructor
        · intro hh; exact ⟨b, hh, [], rfl, by simp⟩
        · rintro ⟨x, hx, y, rfl, rfl⟩; rw [List.append_nil]; exact hx
    have h2 : ∀ b, cat (a.maps.map fun p => cat [packU 1 p.1, packU 2 (getRefId p.2)]) = some b ↔
        WrittenAs (a.maps.flatMap fun m => [.B m.1, .W (targetNumber m.2)]) b := by
      apply cat_flat
      intro m _ b
      rw [← cat_enc]; simp only [List.map_cons, List.map_nil, ← target_enc]; rfl
    have h3 : ∀ b, packU 2 (getRefId a.default) = some b ↔ WrittenAs [.W (targetNumber a.default)] b := by
      intro b
      have e : packU 2 (getRefId a.default) = enc (.W (targetNumber a.default)) := target_enc a.default
      rw [e, enc_iff]; simp [WrittenAs]
    have h4 : ∀ b, packU 1 a.maps.length = some b ↔ WrittenAs [.B a.maps.length] b := by
      intro b
      have e : packU 1 (a.maps.length : Int) = enc (.B a.maps.length) := rfl
      rw [e, enc_iff]; simp [WrittenAs]
    have h0 : ∀ b, cat [packU 1 3, packU 1 a.feature, packU 1 a.ids.length] = some b ↔ WrittenAs [.B 3, .B a.feature, .B a.ids.length] b := by
      intro b; rw [← cat_enc]; rfl
    unfold mapFields
    simp only [written_append, Option.bind_eq_bind, Option.bind_eq_some_iff, h0, h1, h2, h3, h4, Option.some.injEq]
    constructor
    · rintro ⟨x0, w0, x1, w1, x2, w2, x3, w3, x4, w4, e⟩
      exact ⟨_, _, ⟨_, _, ⟨_, _, ⟨_, _, w0, w1, rfl⟩, w2, rfl⟩, w3, rfl⟩, w4, e.symm⟩
    · rintro ⟨_, x4, ⟨_, x3, ⟨_, x2, ⟨x0, x1, w0, w1, rfl⟩, w2, rfl⟩, w3, rfl⟩, w4, e⟩
      exact ⟨x0, w0, x1, w1, x2, w2, x3, w3, x4, w4, e.symm⟩

/-! ### Texts -/

theorem written_cons (f : Field) (fs : List Field) (bs : Bytes) : WrittenAs (f :: fs) bs ↔ f.Fits ∧ ∃ y, WrittenAs fs y ∧ bs = f.bytes ++ y := by
  constructor
  · rintro ⟨h, rfl⟩
    exact ⟨h f (by simp), _, ⟨fun g hg => h g (by simp [hg]), rfl⟩, by simp⟩
  · rintro ⟨h, y, ⟨h2, rfl⟩, rfl⟩
    exact ⟨fun g hg => (List.mem_cons.1 hg).elim (fun e => e ▸ h) (h2 g), by simp⟩

theorem written_text (t bs : Bytes) : WrittenAs [.text t] bs ↔ bs = t := by simp [WrittenAs, Field.Fits, Field.bytes]

theorem written_texts (l : List Bytes) (hl : l ≠ []) (bs : Bytes) : WrittenAs (l.map fun t => .text (t ++ [0])) bs ↔ bs = joinNul l ++ [0] := by
  have e : joinNul l ++ [0] = (l.map fun t => Field.text (t ++ [0])).flatMap Field.bytes := by
    induction l with
    | nil => exact absurd rfl hl
    | cons t l ih =>
      cases l with
      | nil => simp [joinNul, Field.bytes]
      | cons t' l =>
        have ih' := ih (by simp)
        rw [joinNul.eq_def]
        simp only [List.append_assoc, List.cons_append, ih', List.map_cons, List.flatMap_cons, Field.bytes]
        simp
  unfold WrittenAs
  rw [← e]
  constructor
  · exact fun h => h.2
  · intro h
    refine ⟨fun f hf => ?_, h⟩
    obtain ⟨t, -, rfl⟩ := List.mem_map.1 hf
    trivial

/-- **C61** Texts: the offset of vehicles and generic texts is a word, of others a byte. -/
theorem texts_format (s : Texts) (bs : Bytes) : s.accepted = true ∧ s.getData = some bs ↔ WrittenAs (textFields s) bs := by
  have ht : ∀ b, some (joinNul s.strings ++ [0]) = some b ↔
      WrittenAs (if s.strings = [] then [.text [0]] else s.strings.map fun t => .text (t ++ [0])) b := by
    intro b
    by_cases h : s.strings = []
    · rw [if_pos h, h, written_text]; simp [joinNul, eq_comm]
    · rw [if_neg h, written_texts _ h]; simp [eq_comm]
  have hh : ∀ b, s.header = some b ↔ WrittenAs ([.B 4, .B s.feature, .B (flagged s.generic s.lang), .B s.strings.length] ++
      (if s.generic then [.W s.offset] else if s.feature ≤ 3 ∧ 255 ≤ s.offset then [.B 255, .W s.offset] else [.B s.offset])) b := by
    intro b
    unfold Texts.header
    cases hg : s.generic with
    | true =>
      simp only [if_true]
      refine cat_enc' _ ?_ b
      have := withBit7_or s.lang
      simp only [enc] at this
      simp only [List.map_cons, List.map_nil, enc, List.cons_append, List.nil_append, flagged, if_true, this]
    | false =>
      simp only [Bool.false_eq_true, if_false]
      have hv : (vehicle s.feature = true ∧ 0xff ≤ s.offset) ↔ (s.feature ≤ 3 ∧ 255 ≤ s.offset) := by simp [vehicle]
      by_cases hc : s.feature ≤ 3 ∧ 255 ≤ s.offset
      · rw [if_pos (hv.2 hc), if_pos hc]
        exact cat_enc' _ (by simp [enc, flagged]) b
      · rw [if_neg (fun x => hc (hv.1 x)), if_neg hc]
        exact cat_enc' _ (by simp [enc, flagged]) b
  have hd : s.getData = some bs ↔ WrittenAs (textFields s) bs := by
    have := written_bind s.header (some (joinNul s.strings ++ [0])) _ _ hh ht bs
    rw [show textFields s = [.B 4, .B s.feature, .B (flagged s.generic s.lang), .B s.strings.length] ++
      (if s.generic then [.W s.offset] else if s.feature ≤ 3 ∧ 255 ≤ s.offset then [.B 255, .W s.offset] else [.B s.offset]) ++
      (if s.strings = [] then [.text [0]] else s.strings.map fun t => .text (t ++ [0])) from rfl, ← this]
    rfl
  rw [hd]
  constructor
  · exact fun h => h.2
  · intro h
    refine ⟨?_, h⟩
    have hin : ∀ f ∈ (if s.generic then [.W s.offset] else if s.feature ≤ 3 ∧ 255 ≤ s.offset then [.B 255, .W s.offset] else [Field.B s.offset]), f.Fits :=
      fun f hf => h.1 f (by unfold textFields; exact List.mem_append.2 (.inl (List.mem_append.2 (.inr hf))))
    unfold Texts.accepted vehicle
    cases hg : s.generic with
    | true =>
      have := hin (.W s.offset) (by simp [hg])
      simp only [Field.Fits] at this
      simp; omega
    | false =>
      by_cases hc : s.feature ≤ 3
      · by_cases h2 : 255 ≤ s.offset
        · have := hin (.W s.offset) (by simp [hg, hc, h2])
          simp only [Field.Fits] at this
          simp [hc]; omega
        · have := hin (.B s.offset) (by simp [hg, h2])
          simp only [Field.Fits] at this
          simp [hc]; omega
      · have := hin (.B s.offset) (by simp [hg, hc])
        simp only [Field.Fits] at this
        simp [hc]; omega

/-! ### Actions 5 to 13 -/

/-- **C61** Replacement of new graphics. -/
theorem newSprites_format (a : NewSprites) (bs : Bytes) : a.getData = some bs ↔ WrittenAs (newSpritesFields a) bs := by
  unfold NewSprites.getData newSpritesFields
  cases a.offset with
  | none => exact cat_enc' _ (by simp only [List.map_cons, List.map_nil, enc]) bs
  | some o =>
    have := withBit7_or a.setType
    simp only [enc] at this
    exact cat_enc' _ (by simp only [List.map_cons, List.map_nil, enc, this]) bs

/-- **C61** Modification of the next sprite. -/
theorem modify_format (ps : List ModParam) (bs : Bytes) : modifyData ps = some bs ↔ WrittenAs (modifyFields ps) bs := by
  have h1 : ∀ b, cat (ps.map fun p => cat [packU 1 p.num, packU 1 p.size, packU 1 0xff, packU 2 p.offset]) = some b ↔
      WrittenAs (ps.flatMap fun p => [.B p.num, .B p.size, .B 255, .W p.offset]) b :=
    cat_flat _ _ _ fun p _ => cat_enc' _ (by simp only [List.map_cons, List.map_nil, enc])
  have h0 : ∀ b, packU 1 6 = some b ↔ WrittenAs [.B 6] b := by
    intro b; rw [show packU 1 6 = enc (.B 6) from rfl, enc_iff]; simp [WrittenAs]
  have h2 : ∀ b, some [(0xff : UInt8)] = some b ↔ WrittenAs [.B 255] b := by
    intro b; simp [WrittenAs, Field.Fits, Field.bytes, eq_comm]
  have := bind3 _ _ _ _ _ _ h0 h1 h2 bs
  rw [show modifyFields ps = [.B 6] ++ (ps.flatMap fun p => [.B p.num, .B p.size, .B 255, .W p.offset]) ++ [.B 255] from rfl, ← this]
  rfl

theorem littleEndian_low (n : Nat) (v : Int) : lowBytes n v = littleEndian n v := by
  induction n generalizing v with
  | zero => rfl
  | succ n ih => rw [lowBytes_succ, littleEndian, ih]

/-- **C61** Conditional skips: a number needs a size. (With a size, the bytes of a value given as bytes are written whatever their
number.) -/
theorem if_format (a : If) (bs : Bytes) : a.accepted = true ∧ a.getData = some bs ↔
    ((∃ v, a.value = .int v) → a.varsize ≠ none) ∧ WrittenAs (ifFields a) bs := by
  have key : ∀ (size : Int) (v : Bytes), ((cat [packU 1 (if a.isStatic then 9 else 7), packU 1 a.var, packU 1 size, packU 1 a.condition]).bind
      fun h => (packU 1 a.skip).bind fun s => some (h ++ v ++ s)) = some bs ↔
      WrittenAs [.B (if a.isStatic then 9 else 7), .B a.var, .B size, .B a.condition, .text v, .B a.skip] bs := by
    intro size v
    rw [← cat_enc]
    simp only [List.map_cons, List.map_nil, cat_cons_iff, cat_nil_iff, Option.bind_eq_some_iff, enc, Option.some.injEq]
    constructor
    · rintro ⟨h, ⟨x1, g1, _, ⟨x2, g2, _, ⟨x3, g3, _, ⟨x4, g4, _, rfl, rfl⟩, rfl⟩, rfl⟩, rfl⟩, s, hs, rfl⟩
      exact ⟨x1, g1, _, ⟨x2, g2, _, ⟨x3, g3, _, ⟨x4, g4, _, ⟨v, rfl, _, ⟨s, hs, _, rfl, rfl⟩, rfl⟩, rfl⟩, rfl⟩, rfl⟩, by simp⟩
    · rintro ⟨x1, g1, _, ⟨x2, g2, _, ⟨x3, g3, _, ⟨x4, g4, _, ⟨_, rfl, _, ⟨s, hs, _, rfl, rfl⟩, rfl⟩, rfl⟩, rfl⟩, rfl⟩, rfl⟩
      exact ⟨_, ⟨x1, g1, _, ⟨x2, g2, _, ⟨x3, g3, _, ⟨x4, g4, _, rfl, rfl⟩, rfl⟩, rfl⟩, rfl⟩, s, hs, by simp⟩
  cases hv : a.value with
  | bytes b =>
    have e : a.getData = ((cat [packU 1 (if a.isStatic then 9 else 7), packU 1 a.var, packU 1 (a.varsize.getD b.length), packU 1 a.condition]).bind
      fun h => (packU 1 a.skip).bind fun s => some (h ++ b ++ s)) := by unfold If.getData; rw [hv]; rfl
    rw [e, key]
    unfold If.accepted ifFields
    simp [hv]
  | int v =>
    have e : a.getData = ((cat [packU 1 (if a.isStatic then 9 else 7), packU 1 a.var, packU 1 (a.varsize.getD 0), packU 1 a.condition]).bind
      fun h => (packU 1 a.skip).bind fun s => some (h ++ littleEndian (a.varsize.getD 0).toNat v ++ s)) := by
      unfold If.getData; rw [hv, ← littleEndian_low]; rfl
    rw [e, key]
    unfold If.accepted ifFields
    simp [hv, Option.isSome_iff_ne_none]

/-- **C61** Description: nothing is checked but the version. -/
theorem description_format (a : Description) (bs : Bytes) : a.getData = some bs ↔ WrittenAs (descriptionFields a) bs := by
  unfold Description.getData descriptionFields
  rw [← cat_enc]
  simp only [List.map_cons, List.map_nil, cat_cons_iff, cat_nil_iff, Option.bind_eq_bind, Option.bind_eq_some_iff, enc, Option.some.injEq]
  constructor
  · rintro ⟨h, ⟨x1, g1, _, ⟨x2, g2, _, rfl, rfl⟩, rfl⟩, rfl⟩
    exact ⟨x1, g1, _, ⟨x2, g2, _, ⟨_, rfl, _, ⟨_, rfl, _, ⟨_, rfl, _, rfl, rfl⟩, rfl⟩, rfl⟩, rfl⟩, by simp⟩
  · rintro ⟨x1, g1, _, ⟨x2, g2, _, ⟨_, rfl, _, ⟨_, rfl, _, ⟨_, rfl, _, rfl, rfl⟩, rfl⟩, rfl⟩, rfl⟩, rfl⟩
    exact ⟨_, ⟨x1, g1, _, ⟨x2, g2, _, rfl, rfl⟩, rfl⟩, by simp⟩

/-- **C61** Replacement of old sprites. -/
theorem old_format (sets : List (Int × Int)) (bs : Bytes) : oldData sets = some bs ↔ WrittenAs (oldFields sets) bs := by
  have h1 : ∀ b, cat (sets.map fun s => cat [packU 1 s.2, packU 2 s.1]) = some b ↔
      WrittenAs (sets.flatMap fun s => [.B s.2, .W s.1]) b :=
    cat_flat _ _ _ fun p _ => cat_enc' _ (by simp only [List.map_cons, List.map_nil, enc])
  have h0 : ∀ b, cat [packU 1 0xa, packU 1 sets.length] = some b ↔ WrittenAs [.B 10, .B sets.length] b :=
    cat_enc' _ (by simp only [List.map_cons, List.map_nil, enc])
  have := written_bind _ _ _ _ h0 h1 bs
  rw [show oldFields sets = [.B 10, .B sets.length] ++ (sets.flatMap fun s => [.B s.2, .W s.1]) from rfl, ← this]
  rfl

/-- **C61** Error messages: languages up to 127, and 255 is no number of a built-in message. -/
theorem error_format (e : Err) (bs : Bytes) : e.accepted = true ∧ e.getData = some bs ↔
    e.lang ≤ 127 ∧ e.message ≠ .int 255 ∧ WrittenAs (errorFields e) bs := by
  have htail : ∀ b, e.tail = some b ↔ WrittenAs (if e.textParam = none ∧ e.params = [] then [] else .text (e.textParam.getD [] ++ [0]) :: e.params.map .B) b := by
    intro b
    unfold Err.tail
    by_cases h : e.textParam = none ∧ e.params = []
    · rw [if_pos h, if_neg (by simp [h.1, h.2]), written_nil]; simp [eq_comm]
    · rw [if_neg h, if_pos, written_cons]
      · simp only [Option.bind_eq_bind, Option.bind_eq_some_iff, bytesOf_fields, Field.Fits, Field.bytes, true_and, Option.some.injEq]
        constructor
        · rintro ⟨y, h1, h2⟩; exact ⟨y, h1, h2.symm⟩
        · rintro ⟨y, h1, h2⟩; exact ⟨y, h1, h2.symm⟩
      · by_cases ht : e.textParam = none
        · exact .inr fun hp => h ⟨ht, hp⟩
        · exact .inl (Option.isSome_iff_ne_none.2 ht)
  have hh : ∀ (n : Int) b, cat [packU 1 0x0b, packU 1 e.severity, packU 1 e.lang, packU 1 n] = some b ↔
      WrittenAs [.B 11, .B e.severity, .B e.lang, .B n] b := fun n => cat_enc' _ (by simp only [List.map_cons, List.map_nil, enc])
  have hd : e.getData = some bs ↔ e.message ≠ .int 255 ∧ WrittenAs (errorFields e) bs := by
    unfold Err.getData Err.id Err.text errorFields
    cases e.message with
    | int n =>
      by_cases hn : n = 255
      · subst hn; simp
      · have := bind3 (cat [packU 1 0x0b, packU 1 e.severity, packU 1 e.lang, packU 1 n]) (some [0]) e.tail _ [.text [0]] _ (hh n)
          (fun b => by rw [written_text]; simp [eq_comm]) htail bs
        simp only [ne_eq, Msg.int.injEq, hn, not_false_eq_true, true_and]
        rw [show [Field.B 11, .B e.severity, .B e.lang] ++ [.B n, .text [0]] = [.B 11, .B e.severity, .B e.lang, .B n] ++ [.text [0]] from rfl, ← this]
        simp
    | bytes m =>
      have := bind3 (cat [packU 1 0x0b, packU 1 e.severity, packU 1 e.lang, packU 1 0xff]) (some (m ++ [0])) e.tail _ [.text (m ++ [0])] _ (hh 0xff)
          (fun b => by rw [written_text]; simp [eq_comm]) htail bs
      simp only [ne_eq, reduceCtorEq, not_false_eq_true, true_and]
      rw [show [Field.B 11, .B e.severity, .B e.lang] ++ [.B 255, .text (m ++ [0])] = [.B 11, .B e.severity, .B e.lang, .B 255] ++ [.text (m ++ [0])] from rfl, ← this]
      simp
  rw [hd]
  simp only [Err.accepted, Bool.and_eq_true, decide_eq_true_eq, List.all_eq_true]
  constructor
  · rintro ⟨⟨⟨-, h2⟩, h3⟩, h4, h5⟩
    exact ⟨h2.2, h4, h5⟩
  · rintro ⟨h2, h4, h5⟩
    have h3 : ∀ p ∈ e.params, 0 ≤ p ∧ p ≤ 255 := by
      intro p hp
      refine h5.1 (.B p) ?_
      unfold errorFields
      refine List.mem_append.2 (.inr ?_)
      rw [if_neg (by rintro ⟨-, h⟩; rw [h] at hp; cases hp)]
      exact List.mem_cons_of_mem _ (List.mem_map_of_mem hp)
    have a := h5.1 (.B e.severity) (by simp [errorFields])
    have b := h5.1 (.B e.lang) (by simp [errorFields])
    simp only [Field.Fits] at a b
    exact ⟨⟨⟨⟨a.1, by omega⟩, b.1, h2⟩, fun p hp => by have := h3 p hp; omega⟩, h4, h5⟩

/-- **C61** Computations with parameters: a value is needed exactly when a source is 255 (and is ignored otherwise). -/
theorem compute_format (a : Compute) (bs : Bytes) : a.getData = some bs ↔
    ((a.source1 = 255 ∨ a.source2 = 255) → a.value ≠ .none) ∧ WrittenAs (computeFields a) bs := by
  have h0 : ∀ b, cat [packU 1 0x0d, packU 1 a.target, packU 1 (pyOr a.operation (if a.ifUndefined then 0x80 else 0)), packU 1 a.source1,
      packU 1 a.source2] = some b ↔ WrittenAs [.B 13, .B a.target, .B (flagged a.ifUndefined a.operation), .B a.source1, .B a.source2] b := by
    have := flagged_or a.ifUndefined a.operation
    simp only [enc] at this
    exact cat_enc' _ (by simp only [List.map_cons, List.map_nil, enc, this])
  have e : a.getData = (cat [packU 1 0x0d, packU 1 a.target, packU 1 (pyOr a.operation (if a.ifUndefined then 0x80 else 0)), packU 1 a.source1,
      packU 1 a.source2]).bind fun h => a.valueData.bind fun v => some (h ++ v) := rfl
  rw [e]
  by_cases h : a.source1 = 255 ∨ a.source2 = 255
  · by_cases hv : a.value = .none
    · have : a.valueData = none := by unfold Compute.valueData; rw [if_pos h, hv]
      simp [this, hv, h]
    · have hd := written_bind _ a.valueData _ (match a.value with | .none => [] | .bytes b => [.text b] | .int n => [.D n]) h0 (by
        intro b
        unfold Compute.valueData
        rw [if_pos h]
        cases hx : a.value with
        | none => exact absurd hx hv
        | bytes c => simp only [written_text]; simp [eq_comm]
        | int n =>
          simp only
          rw [show packU 4 n = enc (.D n) from rfl, enc_iff]; simp [WrittenAs]) bs
      rw [hd]
      unfold computeFields
      rw [if_pos h]
      exact ⟨fun w => ⟨fun _ => hv, w⟩, fun w => w.2⟩
  · have hd := written_bind _ a.valueData _ [] h0 (by
      intro b
      unfold Compute.valueData
      rw [if_neg h, written_nil]; simp [eq_comm]) bs
    rw [hd]
    unfold computeFields
    rw [if_neg h]
    simp [h]

/-- **C61** Labels. -/
theorem label_format (a : Lbl) (bs : Bytes) : a.getData = some bs ↔ WrittenAs (labelFields a) bs := by
  unfold Lbl.getData labelFields
  rw [← cat_enc]
  simp only [List.map_cons, List.map_nil, cat_cons_iff, cat_nil_iff, Option.bind_eq_bind, Option.bind_eq_some_iff, enc, Option.some.injEq]
  constructor
  · rintro ⟨h, ⟨x1, g1, _, ⟨x2, g2, _, rfl, rfl⟩, rfl⟩, rfl⟩
    exact ⟨x1, g1, _, ⟨x2, g2, _, ⟨_, rfl, _, rfl, rfl⟩, rfl⟩, by simp⟩
  · rintro ⟨x1, g1, _, ⟨x2, g2, _, ⟨_, rfl, _, rfl, rfl⟩, rfl⟩, rfl⟩
    exact ⟨_, ⟨x1, g1, _, ⟨x2, g2, _, rfl, rfl⟩, rfl⟩, by simp⟩

/-- **C61** The number of sound effects. -/
theorem sounds_format (count : Int) (bs : Bytes) : soundsData count = some bs ↔ WrittenAs (soundsFields count) bs :=
  cat_enc' _ (by simp only [soundsFields, List.map_cons, List.map_nil, enc]) bs

/-- **C61** Sound imports. -/
theorem import_format (grfid : Bytes) (number : Int) (bs : Bytes) : importData grfid number = some bs ↔ WrittenAs (importFields grfid number) bs := by
  unfold importData importFields
  rw [← cat_enc]
  simp only [List.map_cons, List.map_nil, cat_cons_iff, cat_nil_iff, Option.bind_eq_bind, Option.bind_eq_some_iff, enc, Option.some.injEq]
  have e1 : packU 1 254 = some [0xfe] := by decide
  have e2 : packU 1 0 = some [0] := by decide
  simp only [e1, e2, Option.some.injEq]
  constructor
  · rintro ⟨n, hn, rfl⟩
    exact ⟨_, rfl, _, ⟨_, rfl, _, ⟨_, rfl, _, ⟨n, hn, _, rfl, rfl⟩, rfl⟩, rfl⟩, by simp⟩
  · rintro ⟨_, rfl, _, ⟨_, rfl, _, ⟨_, rfl, _, ⟨n, hn, _, rfl, rfl⟩, rfl⟩, rfl⟩, rfl⟩
    exact ⟨n, hn, by simp⟩

/-- Production is read back for the versions 0, 1 and 2 only. -/
theorem production_versions (v : Int) (bs : Bytes) (h : readProduction v bs ≠ none) : v ≤ 2 := by
  unfold readProduction at h
  by_cases h1 : v < 2
  · omega
  · by_cases h2 : v = 2
    · omega
    · rw [if_neg h1, if_neg h2] at h; exact absurd rfl h

/-! ### Examples: the conditions are met, and these are the bytes -/

example : WrittenAs (setsFields ⟨0, 3, 8, none⟩) [1, 0, 3, 255, 8, 0] := (sets_format _ _).1 (by decide +kernel)
example : WrittenAs (setsFields ⟨0, 300, 8, some 5⟩) [1, 0, 0, 255, 5, 0, 255, 44, 1, 255, 8, 0] := (sets_format _ _).1 (by decide +kernel)
example : ¬ ∃ bs, WrittenAs (setsFields ⟨0, 70000, 8, none⟩) bs := by
  rintro ⟨bs, h⟩; have := (sets_format _ _).2 h
  have e : (Sets.getData ⟨0, 70000, 8, none⟩) = none := by decide +kernel
  rw [e] at this; cases this
example : WrittenAs (genericFields ⟨1, 7, [0, 1], [258]⟩) [2, 1, 7, 2, 1, 0, 0, 1, 0, 2, 1] :=
  ((generic_format _ _).1 (by decide +kernel)).2
example : WrittenAs (randomFields ⟨0, 9, .parent, none, 3, true, 4, [.action 1, .num 2]⟩) [2, 0, 9, 0x83, 0x83, 4, 2, 1, 0, 2, 0x80] :=
  ((random_format _ _).1 (by decide +kernel)).2.2
example : WrittenAs (productionFields (.old 1 [1, 2, 3] [4, 5] 6)) [10, 1, 1, 2, 3, 4, 5, 6] :=
  ((production_format _ _).1 (by decide +kernel)).2
example : WrittenAs (productionFields (.new [[1, 2]] [[3, 4], [5, 6]] 0)) [10, 2, 1, 1, 2, 2, 3, 4, 5, 6, 0] :=
  ((production_format _ _).1 (by decide +kernel)).2
example : WrittenAs (mapFields ⟨0, [5], [(1, .action 2)], .num 3, false⟩) [3, 0, 1, 5, 1, 1, 2, 0, 3, 0x80] := by
  rcases (map_format ⟨0, [5], [(1, .action 2)], .num 3, false⟩ [3, 0, 1, 5, 1, 1, 2, 0, 3, 0x80]).1 (by decide +kernel) with h | h
  · exact h.2
  · exact absurd h.1 (by decide)
example : WrittenAs (textFields ⟨0, 0x1f, 300, false, [[65], [66]]⟩) [4, 0, 0x1f, 2, 255, 44, 1, 65, 0, 66, 0] :=
  (texts_format _ _).1 (by decide +kernel)
example : WrittenAs (newSpritesFields ⟨4, 48, some 1⟩) [5, 0x84, 255, 48, 0, 255, 1, 0] := (newSprites_format _ _).1 (by decide +kernel)
example : WrittenAs (modifyFields [⟨1, 2, 300⟩]) [6, 1, 2, 255, 44, 1, 255] := (modify_format _ _).1 (by decide +kernel)
example : WrittenAs (ifFields ⟨true, 0x88, some 4, 6, .int (-2), 0⟩) [9, 0x88, 4, 6, 254, 255, 255, 255, 0] :=
  ((if_format _ _).1 (by decide +kernel)).2
example : WrittenAs (descriptionFields ⟨8, [1, 2, 3, 4], [65], [66]⟩) [8, 8, 1, 2, 3, 4, 65, 0, 66, 0] :=
  (description_format _ _).1 (by decide +kernel)
example : WrittenAs (oldFields [(258, 3)]) [10, 1, 3, 2, 1] := (old_format _ _).1 (by decide +kernel)
example : WrittenAs (errorFields ⟨2, 0x7f, .int 3, some [65], [1]⟩) [11, 2, 0x7f, 3, 0, 65, 0, 1] :=
  ((error_format _ _).1 (by decide +kernel)).2.2
example : WrittenAs (computeFields ⟨1, 0, true, 255, 0, .int 258⟩) [13, 1, 0x80, 255, 0, 2, 1, 0, 0] :=
  ((compute_format _ _).1 (by decide +kernel)).2
example : WrittenAs (labelFields ⟨7, [65]⟩) [16, 7, 65] := (label_format _ _).1 (by decide +kernel)
example : WrittenAs (soundsFields 258) [17, 2, 1] := (sounds_format _ _).1 (by decide +kernel)
example : WrittenAs (importFields [1, 2, 3, 4] 5) [254, 0, 1, 2, 3, 4, 5, 0] := (import_format _ _ _).1 (by decide +kernel)

/-- A tile layout: the ground, a sprite with a place of its own and a register, and one drawn over it. -/
def exTile : Layout := ⟨9, 3, ⟨⟨3981, 0, true, false, false, false⟩, none, none, none, none, []⟩,
  [⟨⟨1, 2, false, true, false, false⟩, some [1, -1, 0], some [16, 16, 8], none, none, [(.dodraw, .int 5), (.add, .temp 6)]⟩,
   ⟨⟨7, 0, false, false, true, true⟩, none, none, some [3, 4], none, []⟩]⟩

example : ∃ (h g : Bytes) (b : List Bytes), exTile.getData = some (h ++ g ++ b.flatten) ∧ WrittenAs [.B 2, .B 9, .B 3, .B 66] h ∧ layoutSprite true exTile.ground g ∧ b.length = 2 := by
  have hs : exTile.getData.isSome = true := by decide +kernel
  obtain ⟨bs, hb⟩ := Option.isSome_iff_exists.1 hs
  obtain ⟨-, -, h, g, b, rfl, h1, h2, h3, -⟩ := (layout_format exTile bs).1 ⟨by decide +kernel, hb⟩
  exact ⟨h, g, b, hb, h1, h2, h3⟩

example : WrittenAs (basicFields ⟨9, 3, ⟨3981, 0, true, false, false, false⟩, ⟨1, 2, false, true, false, false⟩, [0, -1], [16, 16, 8]⟩)
    ((Basic.getData ⟨9, 3, ⟨3981, 0, true, false, false, false⟩, ⟨1, 2, false, true, false, false⟩, [0, -1], [16, 16, 8]⟩).getD []) := by
  refine ((basic_format _ _).1 ⟨by decide +kernel, by decide +kernel, ?_⟩).2.2.2
  have hs : (Basic.getData ⟨9, 3, ⟨3981, 0, true, false, false, false⟩, ⟨1, 2, false, true, false, false⟩, [0, -1], [16, 16, 8]⟩).isSome = true := by
    decide +kernel
  obtain ⟨bs, hb⟩ := Option.isSome_iff_exists.1 hs
  rw [hb]; rfl

end Grf.Acts
