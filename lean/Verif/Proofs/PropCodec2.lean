import Verif.Proofs.PropCodec
/-!
# Proofs about the property codecs: bridges, dictionaries, station layouts
-/
namespace Grf.PropC

/-! ### Bridges -/

theorem readSpriteRef_encode {r : SpriteRef} (h : r.accepted = true) {bs : Bytes} (he : SpriteRef.encode false r = some bs) (t : Bytes) :
    SpriteRef.read false (bs ++ t) = some (r, t) := (SpriteRef.sprite_ref_roundtrip false r bs t h he).2

theorem readBridge_encode {i : Int} {ts : List (List SpriteRef)} (hacc : ∀ l ∈ ts, ∀ r ∈ l, SpriteRef.accepted r = true)
    {bs : Bytes} (h : encodeBridge i ts = some bs) (t : Bytes) : readBridge (bs ++ t) = some ((i, ts), t) := by
  simp only [encodeBridge, Option.bind_eq_bind, Option.bind_eq_some_iff, Option.some.injEq] at h
  obtain ⟨hdr, hh, body, hb, rfl⟩ := h
  obtain ⟨x, y, rfl, hx, hy⟩ := bytesOf_two hh
  have hn : y.toNat = ts.length := by omega
  have := readN_cat (e := fun t => if t.length = 32 then cat (t.map (SpriteRef.encode false)) else none)
    (r := readN (SpriteRef.read false) 32) (f := id) ts ?_ body hb t
  · simp only [readBridge, List.cons_append, List.nil_append, readU_one, Option.bind_eq_bind, Option.bind_some,
      Int.toNat_natCast, hn, this, List.map_id, hx]
  · intro l hl bs hbs t
    split at hbs
    · next hlen =>
      have := readN_cat (e := SpriteRef.encode false) (r := SpriteRef.read false) (f := id) l
        (fun r hr bs hb t => readSpriteRef_encode (hacc l hl r hr) hb t) bs hbs t
      rw [hlen] at this
      simpa using this
    · simp at hbs

/-! ### Dictionaries of texts -/

theorem splitNul_append (v : Bytes) (h : (0 : UInt8) ∉ v) (t : Bytes) : splitNul (v ++ 0 :: t) = some (v, t) := by
  induction v with
  | nil => simp [splitNul]
  | cons b v ih =>
    simp only [List.mem_cons, not_or] at h
    simp [splitNul, ih h.2, Ne.symm h.1]

/-- Adding a text to a dictionary whose last key is `k`. -/
theorem addText_last (d : List (Int × List Bytes)) (k : Int) (l : List Bytes) (v : Bytes) (h : k ∉ d.map (·.1)) :
    addText (d ++ [(k, l)]) k v = d ++ [(k, l ++ [v])] := by
  induction d with
  | nil => simp [addText]
  | cons p d ih =>
    simp only [List.map_cons, List.mem_cons, not_or] at h
    simp [addText, Ne.symm h.1, ih h.2]

theorem addText_new (d : List (Int × List Bytes)) (k : Int) (v : Bytes) (h : k ∉ d.map (·.1)) :
    addText d k v = d ++ [(k, [v])] := by
  induction d with
  | nil => simp [addText]
  | cons p d ih =>
    simp only [List.map_cons, List.mem_cons, not_or] at h
    simp [addText, Ne.symm h.1, ih h.2]

/-- The parts of one key. -/
def textParts (kv : Int × List Bytes) : List (Option Bytes) :=
  kv.2.map fun v => do
    let k ← byteOf kv.1
    some (k :: v ++ [0])

theorem readTexts_key (k : Int) (hk : k ≠ 0) (d : List (Int × List Bytes)) (hd : k ∉ d.map (·.1)) :
    ∀ (l pre : List Bytes) (bs : Bytes) (fuel : Nat) (t : Bytes), (∀ v ∈ l, (0 : UInt8) ∉ v) →
      cat (textParts (k, l)) = some bs → pre ≠ [] →
      readMultiDict (fuel + l.length) (d ++ [(k, pre)]) (bs ++ t) = readMultiDict fuel (d ++ [(k, pre ++ l)]) t := by
  intro l
  induction l with
  | nil =>
    intro pre bs fuel t _ hb _
    have : bs = [] := cat_nil hb
    simp [this]
  | cons v l ih =>
    intro pre bs fuel t hv hb hp
    obtain ⟨a, b, ha, hb', rfl⟩ := cat_cons (show cat ((do let k ← byteOf k; some (k :: v ++ [0])) :: textParts (k, l)) = some bs from hb)
    simp only [Option.bind_eq_bind, Option.bind_eq_some_iff, Option.some.injEq] at ha
    obtain ⟨kb, hkb, rfl⟩ := ha
    have hkv := byteOf_some hkb
    have hk0 : kb ≠ 0 := by rintro rfl; exact hk (by simpa using hkv)
    have e : (kb :: v ++ [0]) ++ b ++ t = kb :: (v ++ 0 :: (b ++ t)) := by simp
    rw [e, List.length_cons, ← Nat.add_assoc, readMultiDict]
    simp only [hk0, if_false, splitNul_append v (hv v (by simp)), ← hkv]
    rw [addText_last d k pre v hd, ih (pre ++ [v]) b fuel t (fun x hx => hv x (by simp [hx])) hb' (by simp)]
    simp

/-- A dictionary without empty lists. -/
def dropEmpty (d : List (Int × List Bytes)) : List (Int × List Bytes) := d.filter fun kv => kv.2 ≠ []

/-- The number of texts. -/
def textCount (d : List (Int × List Bytes)) : Nat := (d.map fun kv => kv.2.length).sum

theorem readTexts (d : List (Int × List Bytes)) :
    ∀ (acc : List (Int × List Bytes)) (bs : Bytes) (fuel : Nat) (t : Bytes),
      ((acc ++ d).map (·.1)).Nodup → (∀ kv ∈ d, kv.1 ≠ 0 ∧ ∀ v ∈ kv.2, (0 : UInt8) ∉ v) →
      cat (d.flatMap textParts) = some bs →
      readMultiDict (fuel + textCount d) acc (bs ++ t) = readMultiDict fuel (acc ++ dropEmpty d) t := by
  induction d with
  | nil =>
    intro acc bs fuel t _ _ hb
    have : bs = [] := cat_nil hb
    simp [this, dropEmpty, textCount]
  | cons kv d ih =>
    intro acc bs fuel t hn hd hb
    obtain ⟨k, l⟩ := kv
    simp only [List.flatMap_cons] at hb
    obtain ⟨a, b, ha, hb', rfl⟩ := cat_append hb
    have hk := hd (k, l) (by simp)
    have hd' : ∀ kv ∈ d, kv.1 ≠ 0 ∧ ∀ v ∈ kv.2, (0 : UInt8) ∉ v := fun x hx => hd x (by simp [hx])
    have hkacc : k ∉ acc.map (·.1) := by
      simp only [List.map_append, List.map_cons] at hn
      have := (List.nodup_append.mp hn).2.2
      intro hm
      exact this k hm k (by simp) rfl
    cases l with
    | nil =>
      have : a = [] := cat_nil ha
      subst this
      have hn' : ((acc ++ d).map (·.1)).Nodup := by
        refine hn.sublist (List.Sublist.map _ (List.Sublist.append (List.Sublist.refl _) (List.sublist_cons_self _ _)))
      have := ih acc b fuel t hn' hd' hb'
      simpa [dropEmpty, textCount] using this
    | cons v l =>
      obtain ⟨a1, a2, ha1, ha2, rfl⟩ := cat_cons (show cat ((do let k ← byteOf k; some (k :: v ++ [0])) :: textParts (k, l)) = some a from ha)
      simp only [Option.bind_eq_bind, Option.bind_eq_some_iff, Option.some.injEq] at ha1
      obtain ⟨kb, hkb, rfl⟩ := ha1
      have hkv := byteOf_some hkb
      have hk0 : kb ≠ 0 := by rintro rfl; exact hk.1 (by simpa using hkv)
      have e : (kb :: v ++ [0]) ++ a2 ++ b ++ t = kb :: (v ++ 0 :: (a2 ++ (b ++ t))) := by simp
      have ef : fuel + textCount ((k, v :: l) :: d) = (fuel + textCount d + l.length) + 1 := by
        simp only [textCount, List.map_cons, List.sum_cons, List.length_cons]; omega
      have e2 : (kb :: v ++ [0] ++ a2) ++ b ++ t = kb :: (v ++ 0 :: (a2 ++ (b ++ t))) := by simp
      rw [e2, ef, readMultiDict]
      simp only [hk0, if_false, splitNul_append v (hk.2 v (by simp)), ← hkv]
      rw [addText_new acc k v hkacc,
        readTexts_key k hk.1 acc hkacc l [v] a2 (fuel + textCount d) (b ++ t) (fun x hx => hk.2 x (by simp [hx])) ha2 (by simp)]
      have hn' : (((acc ++ [(k, [v] ++ l)]) ++ d).map (·.1)).Nodup := by simpa using hn
      rw [ih (acc ++ [(k, [v] ++ l)]) b fuel t hn' hd' hb']
      simp [dropEmpty]

theorem textParts_length (d : List (Int × List Bytes)) {bs : Bytes} (h : cat (d.flatMap textParts) = some bs) :
    textCount d ≤ bs.length := by
  induction d generalizing bs with
  | nil => simp [textCount]
  | cons kv d ih =>
    simp only [List.flatMap_cons] at h
    obtain ⟨a, b, ha, hb, rfl⟩ := cat_append h
    have := ih hb
    have key : ∀ (l : List Bytes) (a : Bytes), cat (textParts (kv.1, l)) = some a → l.length ≤ a.length := by
      intro l
      induction l with
      | nil => simp
      | cons v l ih =>
        intro a ha
        obtain ⟨a1, a2, ha1, ha2, rfl⟩ := cat_cons
          (show cat ((do let k ← byteOf kv.1; some (k :: v ++ [0])) :: textParts (kv.1, l)) = some a from ha)
        simp only [Option.bind_eq_bind, Option.bind_eq_some_iff, Option.some.injEq] at ha1
        obtain ⟨kb, _, rfl⟩ := ha1
        have := ih a2 ha2
        simp; omega
    have := key kv.2 a ha
    simp only [textCount, List.map_cons, List.sum_cons, List.length_append] at *
    omega

theorem readMultiDict_encode (d : List (Int × List Bytes)) (hn : (d.map (·.1)).Nodup)
    (hd : ∀ kv ∈ d, kv.1 ≠ 0 ∧ ∀ v ∈ kv.2, (0 : UInt8) ∉ v) {bs : Bytes} (h : encodeMultiDict d = some bs) (t : Bytes) :
    readMultiDict ((bs ++ t).length + 1) [] (bs ++ t) = some (dropEmpty d, t) := by
  simp only [encodeMultiDict, Option.bind_eq_bind, Option.bind_eq_some_iff, Option.some.injEq] at h
  obtain ⟨body, hb, rfl⟩ := h
  have hb' : cat (d.flatMap textParts) = some body := hb
  have hl := textParts_length d hb'
  have ef : (body ++ [0] ++ t).length + 1 = (((body ++ [0] ++ t).length - textCount d) + 1) + textCount d := by
    simp; omega
  rw [ef, List.append_assoc, readTexts d [] body _ ([0] ++ t) (by simpa using hn) hd hb']
  simp [readMultiDict]

/-! ### Registers -/

/-- May the register be used there? -/
def Reg.allowed (isParent : Bool) (r : Reg) : Prop := r.parent = none ∨ r.parent = some isParent

/-- Is the register written? A `custom_palette` with a false value is not. -/
def kept (rv : Reg × RVal) : Bool := !(rv.1 == .customPalette && (rv.2 == .int 0 || rv.2 == .bool false))

/-- What is read for a register. -/
def normReg (rv : Reg × RVal) : Reg × RVal :=
  (rv.1, match rv.1.size, rv.2 with
    | 0, _ => .bool true
    | _, .bool b => .int (if b then 1 else 0)
    | _, v => v)

/-- What is read for a dictionary of registers. -/
def normRegs (l : List (Reg × RVal)) : List (Reg × RVal) := (l.filter kept).map normReg

theorem encodeRegs_cons {p : Bool} {r : Reg} {v : RVal} {l : List (Reg × RVal)} {bs : Bytes} {fl : Nat}
    (h : encodeRegs p ((r, v) :: l) = some (bs, fl)) :
    r.allowed p ∧ ∃ b bs' fl', encodeReg r v = some b ∧ encodeRegs p l = some (bs', fl') ∧
      (b = none → bs = bs' ∧ fl = fl') ∧ (∀ c, b = some c → bs = c ++ bs' ∧ fl = 2 ^ r.bit ||| fl') := by
  simp only [encodeRegs] at h
  split at h
  · simp at h
  · next ha =>
    simp only [Option.bind_eq_bind, Option.bind_eq_some_iff, Prod.exists] at h
    obtain ⟨b, hb, bs', fl', hl, hm⟩ := h
    refine ⟨?_, b, bs', fl', hb, hl, ?_, ?_⟩
    · cases hp : r.parent with
      | none => exact Or.inl hp
      | some q =>
        by_cases hq : q = p
        · subst hq; exact Or.inr hp
        · exact absurd ⟨by simp [hp], by simp [hp, hq]⟩ ha
    · rintro rfl
      simp only [Option.some.injEq, Prod.mk.injEq] at hm
      exact ⟨hm.1.symm, hm.2.symm⟩
    · rintro c rfl
      simp only [Option.some.injEq, Prod.mk.injEq] at hm
      exact ⟨hm.1.symm, hm.2.symm⟩

/-- One register is read back; one that is not written is skipped. -/
theorem encodeReg_spec {r : Reg} {v : RVal} {b : Option Bytes} (h : encodeReg r v = some b) :
    (b = none ↔ kept (r, v) = false) ∧ ∀ c, b = some c → ∀ t, readReg r (c ++ t) = some ((normReg (r, v)).2, t) := by
  have bytev : ∀ (v : RVal) (b : Option Bytes), (v.byte.map some) = some b → b ≠ none ∧ ∀ c, b = some c →
      ∃ x : UInt8, c = [x] ∧ ((∃ n, v = .int n ∧ n = x.toNat) ∨ ∃ q, v = .bool q ∧ (if q = true then (1 : Int) else 0) = x.toNat) := by
    intro v b hb
    simp only [Option.map_eq_some_iff] at hb
    obtain ⟨a, ha, rfl⟩ := hb
    refine ⟨by simp, ?_⟩
    rintro c hc
    simp only [Option.some.injEq] at hc; subst hc
    cases v with
    | int n =>
      obtain ⟨x, rfl, hx⟩ := bytesOf_one (show bytesOf [n] = some a from ha)
      exact ⟨x, rfl, Or.inl ⟨n, rfl, hx⟩⟩
    | bool q =>
      obtain ⟨x, rfl, hx⟩ := bytesOf_one (show bytesOf [if q then 1 else 0] = some a from ha)
      exact ⟨x, rfl, Or.inr ⟨q, rfl, hx⟩⟩
    | temp n => simp [RVal.byte] at ha
    | pair a b => simp [RVal.byte] at ha
  by_cases hs0 : r = .customPalette
  · subst hs0
    simp [encodeReg, Reg.size] at h
    subst h
    refine ⟨by rcases v with _ | _ | _ | (_ | _) <;> simp [kept, RVal.truthy], ?_⟩
    intro c hc t
    split at hc
    · simp only [Option.some.injEq] at hc; subst hc
      simp [readReg, Reg.size, normReg]
    · simp at hc
  · by_cases hs2 : r = .deltaParentXY
    · subst hs2
      simp only [encodeReg, Reg.size] at h
      cases v with
      | pair a b' =>
        simp at h
        obtain ⟨c, hc, rfl⟩ := h
        refine ⟨by simp [kept], ?_⟩
        rintro _ ⟨⟩ t
        obtain ⟨x, y, rfl, hx, hy⟩ := bytesOf_two hc
        simp [readReg, Reg.size, readU_one, normReg, hx, hy]
      | int _ => simp at h
      | temp _ => simp at h
      | bool _ => simp at h
    · have hsz : r.size = 1 := by revert hs0 hs2; cases r <;> simp [Reg.size]
      by_cases hadd : r = .add
      · subst hadd
        cases v with
        | temp n =>
          simp only [encodeReg, hsz, if_true] at h
          obtain ⟨hne, hc⟩ := bytev (.int n) b h
          refine ⟨by simp [hne, kept], ?_⟩
          intro c hcb t
          obtain ⟨x, rfl, hx⟩ := hc c hcb
          rcases hx with ⟨n', hn, hx⟩ | ⟨q, hq, _⟩
          · simp only [RVal.int.injEq] at hn
            simp [readReg, hsz, readU_one, normReg, hn, hx]
          · simp at hq
        | int _ => simp [encodeReg] at h
        | pair _ _ => simp [encodeReg] at h
        | bool _ => simp [encodeReg] at h
      · simp only [encodeReg, hsz, if_neg hadd] at h
        obtain ⟨hne, hc⟩ := bytev v b h
        refine ⟨by simp [hne, kept, hs0], ?_⟩
        intro c hcb t
        obtain ⟨x, rfl, hx⟩ := hc c hcb
        rcases hx with ⟨n', rfl, hx⟩ | ⟨q, rfl, hx⟩
        · simp [readReg, hsz, readU_one, normReg, hx, hadd]
        · simp [readReg, hsz, readU_one, normReg, ← hx, hadd]

theorem encodeRegs_flags {p : Bool} (l : List (Reg × RVal)) : ∀ {bs : Bytes} {fl : Nat}, encodeRegs p l = some (bs, fl) →
    (∀ rv ∈ l, rv.1.allowed p) ∧ (∀ i, fl.testBit i = true ↔ ∃ rv ∈ l, kept rv = true ∧ rv.1.bit = i) ∧ fl < 256 := by
  induction l with
  | nil =>
    intro bs fl h
    simp [encodeRegs] at h
    simp [← h.2]
  | cons rv l ih =>
    intro bs fl h
    obtain ⟨r, v⟩ := rv
    obtain ⟨hal, b, bs', fl', hb, hl, h1, h2⟩ := encodeRegs_cons h
    obtain ⟨hall, hfl, hlt⟩ := ih hl
    obtain ⟨hk, _⟩ := encodeReg_spec hb
    refine ⟨by simpa using ⟨hal, fun a b hab => hall (a, b) hab⟩, ?_, ?_⟩
    · intro i
      cases b with
      | none =>
        obtain ⟨rfl, rfl⟩ := h1 rfl
        have := hk.mp rfl
        rw [hfl]; simp [this]
      | some c =>
        obtain ⟨rfl, rfl⟩ := h2 c rfl
        have hkt : kept (r, v) = true := by
          cases hkk : kept (r, v) with
          | true => rfl
          | false => exact absurd (hk.mpr hkk) (by simp)
        rw [Nat.testBit_or, Nat.testBit_two_pow, Bool.or_eq_true, decide_eq_true_eq, hfl]
        simp [hkt]
    · cases b with
      | none => obtain ⟨rfl, rfl⟩ := h1 rfl; exact hlt
      | some c =>
        obtain ⟨rfl, rfl⟩ := h2 c rfl
        refine Nat.or_lt_two_pow (n := 8) ?_ hlt
        cases r <;> simp [Reg.bit]

theorem testBit_div (a i : Nat) : (a / 2 ^ i % 2 = 0) ↔ a.testBit i = false := by
  rw [Nat.testBit_eq_decide_div_mod_eq]
  simp

/-- Reading with flags that are right for the registers in `l`. -/
theorem readRegs_encode {w p : Bool} (F : Nat) : ∀ (l : List Reg), l.Nodup → ∀ (regs : List (Reg × RVal)) (bs : Bytes) (fl : Nat),
    encodeRegs w regs = some (bs, fl) → (regs.map (·.1)).Sublist l → (∀ rv ∈ regs, rv.1.allowed p) →
    (∀ r ∈ l, r.allowed p → (F.testBit r.bit = true ↔ ∃ rv ∈ regs, kept rv = true ∧ rv.1 = r)) →
    ∀ t, readRegs F p l (bs ++ t) = some (normRegs regs, t) := by
  intro l
  induction l with
  | nil =>
    intro _ regs bs fl he hsub _ _ t
    have : regs = [] := by simpa using hsub
    subst this
    simp [encodeRegs] at he
    simp [readRegs, normRegs, he.1]
  | cons r l ih =>
    intro hnd regs bs fl he hsub hal hF t
    rw [List.nodup_cons] at hnd
    by_cases har : r.allowed p
    · by_cases hhead : ∃ v rest, regs = (r, v) :: rest
      · obtain ⟨v, rest, rfl⟩ := hhead
        obtain ⟨_, b, bs', fl', hb, hl, h1, h2⟩ := encodeRegs_cons he
        have hsub' : (rest.map (·.1)).Sublist l := by simpa using hsub
        have hal' : ∀ rv ∈ rest, rv.1.allowed p := fun x hx => hal x (by simp [hx])
        have hF' : ∀ r' ∈ l, r'.allowed p → (F.testBit r'.bit = true ↔ ∃ rv ∈ rest, kept rv = true ∧ rv.1 = r') := by
          intro r' hr' har'
          rw [hF r' (by simp [hr']) har']
          constructor
          · rintro ⟨rv, hrv, hk, rfl⟩
            simp only [List.mem_cons] at hrv
            rcases hrv with rfl | hrv
            · exact absurd hr' hnd.1
            · exact ⟨rv, hrv, hk, rfl⟩
          · rintro ⟨rv, hrv, hk, rfl⟩
            exact ⟨rv, by simp [hrv], hk, rfl⟩
        have hrec := ih hnd.2 rest bs' fl' hl hsub' hal' hF'
        obtain ⟨hk, hread⟩ := encodeReg_spec hb
        cases b with
        | none =>
          obtain ⟨rfl, rfl⟩ := h1 rfl
          have hkf := hk.mp rfl
          have hbit : F / 2 ^ r.bit % 2 = 0 := by
            rw [testBit_div]
            cases hb : F.testBit r.bit with
            | false => rfl
            | true =>
              obtain ⟨rv, hrv, hkk, hr⟩ := (hF r (by simp) har).mp hb
              simp only [List.mem_cons] at hrv
              rcases hrv with rfl | hrv
              · rw [hkf] at hkk; cases hkk
              · exact absurd (hsub'.subset (List.mem_map.mpr ⟨rv, hrv, hr⟩)) hnd.1
          simp only [readRegs, hbit, if_true, hrec t]
          simp [normRegs, hkf]
        | some c =>
          obtain ⟨rfl, rfl⟩ := h2 c rfl
          have hkt : kept (r, v) = true := by
            cases hkk : kept (r, v) with
            | true => rfl
            | false => exact absurd (hk.mpr hkk) (by simp)
          have hbit : ¬ F / 2 ^ r.bit % 2 = 0 := by
            rw [testBit_div, (hF r (by simp) har).mpr ⟨(r, v), by simp, hkt, rfl⟩]; simp
          have hpar : ¬ (r.parent.isSome = true ∧ r.parent ≠ some p) := by
            rintro ⟨h1, h2⟩
            rcases har with h | h
            · simp [h] at h1
            · exact h2 h
          simp only [readRegs, if_neg hbit, if_neg hpar, List.append_assoc, hread c rfl, hrec t, Option.bind_eq_bind, Option.bind_some]
          simp [normRegs, hkt, normReg]
      · have hsub' : (regs.map (·.1)).Sublist l := by
          cases regs with
          | nil => simp
          | cons rv rest =>
            simp only [List.map_cons] at hsub ⊢
            cases hsub with
            | cons _ h => exact h
            | cons_cons _ h => exact absurd ⟨_, _, rfl⟩ hhead
        have hbit : F / 2 ^ r.bit % 2 = 0 := by
          rw [testBit_div]
          cases hb : F.testBit r.bit with
          | false => rfl
          | true =>
            obtain ⟨rv, hrv, _, hr⟩ := (hF r (by simp) har).mp hb
            exact absurd (hsub'.subset (List.mem_map.mpr ⟨rv, hrv, hr⟩)) hnd.1
        simp only [readRegs, hbit, if_true]
        exact ih hnd.2 regs bs fl he hsub' hal (fun r' hr' => hF r' (by simp [hr'])) t
    · have hsub' : (regs.map (·.1)).Sublist l := by
        cases regs with
        | nil => simp
        | cons rv rest =>
          simp only [List.map_cons] at hsub ⊢
          cases hsub with
          | cons _ h => exact h
          | cons_cons _ h => exact absurd (hal rv (by simp)) har
      have hrec := ih hnd.2 regs bs fl he hsub' hal (fun r' hr' => hF r' (by simp [hr'])) t
      have hpar : r.parent.isSome = true ∧ r.parent ≠ some p := by
        cases hp : r.parent with
        | none => exact absurd (Or.inl hp) har
        | some q => exact ⟨rfl, fun h => har (Or.inr (by rw [hp]; exact h))⟩
      by_cases hbit : F / 2 ^ r.bit % 2 = 0
      · simp only [readRegs, hbit, if_true, hrec]
      · simp only [readRegs, hbit, if_false, if_pos hpar, hrec]

theorem Reg.bit_inj {p : Bool} {r s : Reg} (hr : r.allowed p) (hs : s.allowed p) (h : r.bit = s.bit) : r = s := by
  revert h
  cases r <;> cases s <;> simp [Reg.bit] <;> cases p <;> simp_all [Reg.allowed, Reg.parent]

/-- Registers in table order are read back. `w` is the writer's idea of the sprite, `p` the reader's. -/
theorem readRegs_all {w p : Bool} {regs : List (Reg × RVal)} {bs : Bytes} {fl : Nat} (he : encodeRegs w regs = some (bs, fl))
    (hsub : (regs.map (·.1)).Sublist Reg.all) (hal : ∀ rv ∈ regs, rv.1.allowed p) (t : Bytes) :
    readRegs fl p Reg.all (bs ++ t) = some (normRegs regs, t) := by
  refine readRegs_encode fl Reg.all (by decide) regs bs fl he hsub hal ?_ t
  intro r _ har
  obtain ⟨_, hfl, _⟩ := encodeRegs_flags regs he
  rw [hfl]
  constructor
  · rintro ⟨rv, hrv, hk, hb⟩
    exact ⟨rv, hrv, hk, Reg.bit_inj (hal rv hrv) har hb⟩
  · rintro ⟨rv, hrv, hk, rfl⟩
    exact ⟨rv, hrv, hk, rfl⟩

/-! ### Station layouts -/

/-- Every sprite followed by its children. -/
def flatten (l : List Spr) : List Flat := l.flatMap fun s => s.flat :: s.children

/-- A sprite as it is read back. -/
def Flat.norm (f : Flat) : Flat := { f with regs := normRegs f.regs }

def Kind.isChild : Kind → Bool
  | .child _ _ => true
  | _ => false

/-- A sequence in which children follow their parents, as the reader groups it. -/
def regroup (acc : List Spr) : List Flat → List Spr
  | [] => acc
  | f :: l => if f.kind.isChild then regroup (addChild acc f) l else regroup (acc ++ [{ flat := f }]) l

theorem flatten_addChild (acc : List Spr) (h : acc ≠ []) (c : Flat) : flatten (addChild acc c) = flatten acc ++ [c] := by
  induction acc with
  | nil => exact absurd rfl h
  | cons s r ih =>
    cases r with
    | nil => simp [addChild, flatten]
    | cons s' r =>
      have := ih (by simp)
      simp only [flatten, addChild, List.flatMap_cons] at this ⊢
      rw [this]; simp

theorem addChild_ne (acc : List Spr) (h : acc ≠ []) (c : Flat) : addChild acc c ≠ [] := by
  cases acc with
  | nil => exact absurd rfl h
  | cons s r => cases r <;> simp [addChild]

/-- Grouping neither loses nor reorders sprites. -/
theorem flatten_regroup (l : List Flat) : ∀ (acc : List Spr), acc ≠ [] → flatten (regroup acc l) = flatten acc ++ l := by
  induction l with
  | nil => intro acc _; simp [regroup]
  | cons f l ih =>
    intro acc h
    simp only [regroup]
    split
    · rw [ih _ (addChild_ne acc h f), flatten_addChild acc h f]; simp
    · rw [ih _ (by simp)]
      simp [flatten]

/-- What a station layout has to satisfy to be read back. -/
structure SprOk (s : Spr) : Prop where
  acc : s.flat.sprite.accepted = true
  regs : (s.flat.regs.map (·.1)).Sublist Reg.all

theorem readSprHead_encode {r : SpriteRef} (hacc : r.accepted = true) {fl : Nat} {bs : Bytes}
    (h : cat [packU 4 (SpriteRef.toGrf false r), packU 2 fl] = some bs) (t : Bytes) :
    readSprHead true (bs ++ t) = some ((r, fl), t) := by
  obtain ⟨a, r1, ha, h1, rfl⟩ := cat_cons h
  obtain ⟨b, r2, hb, h2, rfl⟩ := cat_cons h1
  rw [cat_nil h2]
  have := (SpriteRef.sprite_ref_roundtrip false r a (b ++ t) hacc ha).2
  simp only [SpriteRef.read, readU_packU ha, Option.bind_eq_bind, Option.bind_some, Option.some.injEq, Prod.mk.injEq] at this
  simp only [readSprHead, List.append_assoc, List.append_nil, readU_packU ha, readU_packU hb, Option.bind_eq_bind, Option.bind_some,
    if_true, this.1, Int.toNat_natCast]

theorem bytesOf_three {a b c : Int} {bs : Bytes} (h : bytesOf [a, b, c] = some bs) :
    ∃ x y z : UInt8, bs = [x, y, z] ∧ a = x.toNat ∧ b = y.toNat ∧ c = z.toNat := by
  have hl := bytesOf_length h
  match bs, hl with
  | [x, y, z], _ =>
    have := bytesOf_some h
    simp only [intsOf_cons, intsOf_nil, List.cons.injEq, and_true] at this
    exact ⟨x, y, z, rfl, this⟩

theorem bytesOf_six {a b c d e f : Int} {bs : Bytes} (h : bytesOf [a, b, c, d, e, f] = some bs) :
    ∃ x y z u v w : UInt8, bs = [x, y, z, u, v, w] ∧ a = x.toNat ∧ b = y.toNat ∧ c = z.toNat ∧ d = u.toNat ∧ e = v.toNat ∧ f = w.toNat := by
  have hl := bytesOf_length h
  match bs, hl with
  | [x, y, z, u, v, w], _ =>
    have := bytesOf_some h
    simp only [intsOf_cons, intsOf_nil, List.cons.injEq, and_true] at this
    exact ⟨x, y, z, u, v, w, rfl, this⟩

/-- A sprite after the first: a child, or a parent whose z offset is not the marker of a child. -/
def Later (k : Kind) : Prop :=
  match k with
  | .ground => False
  | .parent _ _ oz _ _ _ => oz ≠ 0x80
  | .child _ _ => True

theorem readSprLoop_step {s : Spr} (hok : SprOk s) (hk : Later s.flat.kind) {bs : Bytes} (h : encodeSpr s = some bs) (n : Nat)
    (acc : List Spr) (t : Bytes) :
    readSprLoop true (n + 1) acc (bs ++ t) =
      readSprLoop true n (if s.flat.kind.isChild then addChild acc s.flat.norm else acc ++ [{ flat := s.flat.norm }]) t := by
  obtain ⟨⟨kind, spr, regs⟩, ch⟩ := s
  obtain ⟨hacc, hsub⟩ := hok
  simp only at hacc hsub hk
  cases kind with
  | ground => exact absurd hk id
  | parent ox oy oz ex ey ez =>
    simp only [encodeSpr, Option.bind_eq_bind, Option.bind_eq_some_iff, Option.some.injEq, Prod.exists] at h
    obtain ⟨rb, fl, hr, hd, hh, b, hb, rfl⟩ := h
    obtain ⟨x, y, z, u, v, w, rfl, h1, h2, h3, h4, h5, h6⟩ := bytesOf_six hb
    have hz : ¬ ((z.toNat : Int) = 0x80) := by rw [← h3]; exact hk
    have hregs := readRegs_all hr hsub (encodeRegs_flags regs hr).1 t
    simp only [readSprLoop, List.append_assoc, readSprHead_encode hacc hh, Option.bind_eq_bind, Option.bind_some, List.cons_append,
      List.nil_append, readU_one, if_neg hz, hregs]
    simp [Kind.isChild, Flat.norm, h1, h2, h3, h4, h5, h6]
  | child cx cy =>
    simp only [encodeSpr, Option.bind_eq_bind, Option.bind_eq_some_iff, Option.some.injEq, Prod.exists] at h
    obtain ⟨rb, fl, hr, hd, hh, b, hb, rfl⟩ := h
    obtain ⟨x, y, z, rfl, h1, h2, h3⟩ := bytesOf_three hb
    have hz : (z.toNat : Int) = 0x80 := by rw [← h3]
    have hregs := readRegs_all hr hsub (encodeRegs_flags regs hr).1 t
    simp only [readSprLoop, List.append_assoc, readSprHead_encode hacc hh, Option.bind_eq_bind, Option.bind_some, List.cons_append,
      List.nil_append, readU_one, if_pos hz, hregs]
    simp [Kind.isChild, Flat.norm, h1, h2]

theorem readSprLoop_encode (l : List Spr) : (∀ s ∈ l, SprOk s ∧ Later s.flat.kind) → ∀ (bs : Bytes), cat (l.map encodeSpr) = some bs →
    ∀ (acc : List Spr) (t : Bytes), readSprLoop true l.length acc (bs ++ t) = some (regroup acc (l.map fun s => s.flat.norm), t) := by
  induction l with
  | nil =>
    intro _ bs h acc t
    rw [cat_nil h]; simp [readSprLoop, regroup]
  | cons s l ih =>
    intro hok bs h acc t
    obtain ⟨a, b, ha, hb, rfl⟩ := cat_cons h
    have hs := hok s (by simp)
    rw [List.length_cons, List.append_assoc, readSprLoop_step hs.1 hs.2 ha,
      ih (fun x hx => hok x (by simp [hx])) b hb]
    simp only [List.map_cons, regroup]
    have : s.flat.norm.kind = s.flat.kind := rfl
    rw [this]
    split <;> rfl

/-- A layout that is read back: a ground sprite without bounding-box registers, then parents and children. -/
inductive LayoutOk : List Spr → Prop
  | mk (g : Spr) (rest : List Spr) (hg : SprOk g) (hk : g.flat.kind = .ground) (hr : ∀ rv ∈ g.flat.regs, rv.1.parent = none)
      (hrest : ∀ s ∈ rest, SprOk s ∧ Later s.flat.kind) : LayoutOk (g :: rest)

/-- What is read for a layout. -/
def normLayout : List Spr → List Spr
  | [] => []
  | g :: rest => regroup [{ flat := g.flat.norm }] (rest.map fun s => s.flat.norm)

theorem flatten_normLayout (l : List Spr) : flatten (normLayout l) = l.map fun s => s.flat.norm := by
  cases l with
  | nil => rfl
  | cons g rest => rw [normLayout, flatten_regroup _ _ (by simp)]; simp [flatten]

theorem or64 {n : Nat} (h : n < 64) : (n ||| 0x40) / 64 % 2 = 1 ∧ (n ||| 0x40) % 64 = n ∧ (n ||| 0x40) < 256 := by
  have := Nat.two_pow_add_eq_or_of_lt (i := 6) h 1
  simp only [Nat.mul_one] at this
  have e : n ||| 0x40 = 2 ^ 6 + n := by rw [Nat.or_comm]; exact this.symm
  rw [e]; omega

theorem readSprs_encode {l : List Spr} (hok : LayoutOk l) {bs : Bytes} (h : encodeSprs l = some bs) (t : Bytes) :
    (do let (n, r) ← readU 1 (bs ++ t); readSprs n.toNat r) = some (normLayout l, t) := by
  cases hok with
  | mk g rest hg hk hr hrest =>
  simp only [encodeSprs, List.cons_ne_nil, if_false, List.length_cons, Nat.add_sub_cancel] at h
  split at h
  · next hlt =>
    simp only [Option.bind_eq_bind, Option.bind_eq_some_iff, Option.some.injEq] at h
    obtain ⟨n, hn, body, hb, rfl⟩ := h
    obtain ⟨a, b, ha, hb', rfl⟩ := cat_cons hb
    simp only [encodeSpr, hk, Option.bind_eq_bind, Option.bind_eq_some_iff, Option.some.injEq, Prod.exists] at ha
    obtain ⟨rb, fl, hregs, hd, hh, c, rfl, rfl⟩ := ha
    obtain ⟨e1, e2, _⟩ := or64 hlt
    have hrd := readRegs_all (p := false) hregs hg.regs (fun rv hrv => Or.inl (hr rv hrv)) (b ++ t)
    have hloop := readSprLoop_encode rest hrest b hb' [{ flat := ⟨.ground, g.flat.sprite, normRegs g.flat.regs⟩ }] t
    have ef : ((rest.length ||| 64) / 64 % 2 == 1) = true := by rw [e1]; rfl
    simp only [List.append_assoc, readU_packU hn, Option.bind_eq_bind, Option.bind_some, Int.toNat_natCast, readSprs, ef,
      readSprHead_encode hg.acc hh, List.nil_append, hrd, e2, hloop, normLayout, Flat.norm, hk]
  · simp at h

theorem readStation_encode {ls : List (List Spr)} (hok : ∀ l ∈ ls, LayoutOk l) {bs : Bytes} (h : encodeStation ls = some bs)
    (t : Bytes) : readStation (bs ++ t) = some (ls.map normLayout, t) := by
  simp only [encodeStation] at h
  split at h
  · next hlen =>
    simp only [Option.bind_eq_bind, Option.bind_eq_some_iff, Option.some.injEq] at h
    obtain ⟨hd, hh, body, hb, rfl⟩ := h
    obtain ⟨a, r1, ha, h1, rfl⟩ := cat_cons hh
    obtain ⟨c, r2, hc, h2, rfl⟩ := cat_cons h1
    rw [cat_nil h2]
    obtain ⟨x, rfl, hx⟩ := packU_one_some ha
    have hext : readExt ([x] ++ (c ++ []) ++ body ++ t) = some ((ls.length : Int), body ++ t) := by
      have hx' : x = 255 := by
        apply UInt8.toNat_inj.mp; show x.toNat = 255; omega
      subst hx'
      simp only [List.append_nil, List.append_assoc, List.cons_append, List.nil_append, readExt]
      simp [readU_packU hc]
    simp only [readStation, hext, Option.bind_eq_bind, Option.bind_some, Int.toNat_natCast]
    exact readN_cat (e := encodeSprs) (r := fun bs => do let (n, bs) ← readU 1 bs; readSprs n.toNat bs) (f := normLayout) ls
      (fun l hl bs hb t => readSprs_encode (hok l hl) hb t) body hb t
  · simp at h

end Grf.PropC
