import Verif.Props.Roundtrip
import Verif.Props.PropExact
/-!
# C12 to C17, C19: exactly which actions come back

For each kind of action: the action written is read back as itself if and only if its fields satisfy the stated condition. `Returns` is
the round trip through the bytes and the decompiler's entry point, in any context.
-/
namespace Grf.Acts
open PropC

/-- Decoding `bs` in the context `ctx` gives the action `a`. -/
def Returns (T : Nat → List (String × VarData)) (ctx : PCtx) (a : Action) (bs : Bytes) : Prop :=
  ∃ d c, decodePseudo T ctx bs = some (some d, c) ∧ d.action = some a

theorem returns_of {T : Nat → List (String × VarData)} {ctx c : PCtx} {a : Action} {bs : Bytes} {d : Decoded}
    (h : decodePseudo T ctx bs = some (some d, c)) : Returns T ctx a bs ↔ d.action = some a := by
  unfold Returns
  rw [h]
  constructor
  · rintro ⟨d', c', h1, h2⟩
    simp only [Option.some.injEq, Prod.mk.injEq] at h1
    rw [h1.1]; exact h2
  · intro h2; exact ⟨d, c, rfl, h2⟩

theorem not_returns_of {T : Nat → List (String × VarData)} {ctx : PCtx} {a : Action} {bs : Bytes}
    (h : decodePseudo T ctx bs = none) : ¬ Returns T ctx a bs := by
  rintro ⟨d, c, h1, _⟩; rw [h] at h1; cases h1

/-- The first byte of what the writer produces for these kinds. -/
theorem first_byte {W : Tables} {a : Action} {bs : Bytes} (hm : a.misnumbered = false) (h : a.getData W = some bs) :
    ∃ r, bs = a.number :: r := number_written W a bs hm h

/-! ### C12 -/

/-- **C12** A sprite set header comes back exactly when it has a first set or between 1 and 255 sets. (More than 255 sets without a
first set come back with the first set 0, see `sprite_sets_read`; no sets without a first set cannot be read.) -/
theorem sprite_sets_iff (T : Nat → List (String × VarData)) (ctx : PCtx) (a : Sets) (bs : Bytes) (hf : a.feature ≤ 0x14)
    (h : a.getData = some bs) : Returns T ctx (.sets a) bs ↔ a.firstSet ≠ none ∨ (a.setCount ≠ 0 ∧ a.setCount ≤ 255) := by
  by_cases h0 : a.setCount ≠ 0 ∨ a.firstSet ≠ none
  · rw [returns_of (sprite_sets_read T ctx a bs hf h0 h)]
    obtain ⟨f, n, k, first⟩ := a
    simp only at h0
    simp only [Decoded.action, Option.some.injEq, Action.sets.injEq, Sets.mk.injEq, true_and]
    cases first with
    | none =>
      simp only [ne_eq, not_true_eq_false, or_false] at h0
      by_cases hn : n ≤ 255 <;> simp [hn, h0]
    | some x => by_cases hn : n ≤ 255 <;> simp [hn]
  · have h0' : a.setCount = 0 ∧ a.firstSet = none := by simpa using h0
    constructor
    · intro hr; exact absurd hr (not_returns_of (no_sets_unreadable T ctx a bs hf h0'.1 h0'.2 h))
    · rintro (e | e)
      · exact absurd h0'.2 e
      · exact absurd h0'.1 e.1

/-! ### C13 -/

/-- **C13** A sprite group the constructor accepts comes back exactly when its number of loaded sets is not the type byte of a switch. -/
theorem sprite_group_iff (T : Nat → List (String × VarData)) (ctx : PCtx) (g : Generic) (bs : Bytes) (hf : g.feature ≤ 0x14)
    (hacc : g.accepted = true) (h : g.getData = some bs) : Returns T ctx (.generic g) bs ↔ g.ent1.length ∉ switchTypes := by
  constructor
  · rintro ⟨d, c, h1, h2⟩ hn
    rcases large_group_misread T ctx g bs hf hn h d c h1 with ⟨r, rfl⟩ | ⟨w, rfl⟩
    · simp [Decoded.action] at h2
    · simp [Decoded.action] at h2
  · intro hn
    rw [returns_of (sprite_group_roundtrip_partial T ctx g bs hf hacc hn h)]
    rfl

/-! ### C19 -/

/-- Tables for kinds which do not use them. -/
def noTables : Tables := ⟨fun _ => none, fun _ => none⟩

theorem readRandom_triggers {f : Nat} {sc : Scope} {ref : Int} {bs : Bytes} {r : Random} (h : readRandom f sc ref bs = some r) :
    0 ≤ r.triggers ∧ r.triggers < 128 := by
  have key : ∀ (c : Option Int) (b : Bytes), ((readU 1 b).bind fun x => (readU 1 x.2).bind fun y => (readU 1 y.2).bind fun z =>
      (readN (readU 2) z.1.toNat z.2).bind fun g => some (Random.mk f ref sc c (pyAnd x.1 0x7f) (pyAnd x.1 0x80 != 0) y.1
        (g.1.map Target.ref))) = some r → 0 ≤ r.triggers ∧ r.triggers < 128 := by
    intro c b h
    simp only [Option.bind_eq_some_iff, Option.some.injEq] at h
    obtain ⟨⟨t, b2⟩, ht, ⟨low, b3⟩, _, ⟨n, b4⟩, _, ⟨gs, b5⟩, _, rfl⟩ := h
    obtain ⟨m, rfl⟩ := Int.eq_ofNat_of_zero_le (readU_bound ht).1
    have : pyAnd (m : Int) 0x7f = ((m % 2 ^ 7 : Nat) : Int) := SpriteRef.and_mask 7 m
    simp only [this]
    omega
  simp only [readRandom, Option.bind_eq_bind] at h
  split at h
  · rw [Option.bind_eq_some_iff] at h
    obtain ⟨⟨c, b⟩, _, h⟩ := h
    exact key _ _ h
  · rw [Option.bind_some] at h
    exact key _ _ h

theorem decode2_triggers {T : Nat → List (String × VarData)} {bs : Bytes} {r : Random} (h : decode2 T bs = some (.random r)) :
    0 ≤ r.triggers ∧ r.triggers < 128 := by
  simp only [decode2, Option.bind_eq_bind, Option.bind_eq_some_iff] at h
  obtain ⟨⟨f, b1⟩, _, f', _, ⟨ref, b2⟩, _, ⟨t, b3⟩, _, h⟩ := h
  simp only at h
  split at h
  · simp only [Option.bind_eq_some_iff, Option.some.injEq, reduceCtorEq, and_false, exists_false] at h
  split at h
  · simp only [Option.map_eq_some_iff, Act2.random.injEq] at h
    obtain ⟨r', h, rfl⟩ := h; exact readRandom_triggers h
  split at h
  · simp only [Option.map_eq_some_iff, Act2.random.injEq] at h
    obtain ⟨r', h, rfl⟩ := h; exact readRandom_triggers h
  split at h
  · simp only [Option.map_eq_some_iff, Act2.random.injEq] at h
    obtain ⟨r', h, rfl⟩ := h; exact readRandom_triggers h
  split at h
  · simp only [Option.map_eq_some_iff, reduceCtorEq, and_false, exists_false] at h
  split at h
  · simp only [Option.map_eq_some_iff, reduceCtorEq, and_false, exists_false] at h
  · simp only [Option.bind_eq_some_iff, Option.some.injEq, reduceCtorEq, and_false, exists_false] at h

theorem map_refs_iff (l : List Target) : l.map (fun g => Target.ref (getRefId g)) = l ↔ ∀ t ∈ l, ∃ w, t = .ref w ∧ getRefId t = w := by
  constructor
  · intro h t ht
    rw [← h] at ht
    simp only [List.mem_map] at ht
    obtain ⟨g, _, rfl⟩ := ht
    exact ⟨_, rfl, rfl⟩
  · exact map_refs

/-- **C19** A random switch the constructor accepts comes back exactly when its scope is not relative, its triggers are 0 to 0x7f and its
groups are reference words (a group given as an object comes back as its word). -/
theorem random_switch_iff (T : Nat → List (String × VarData)) (ctx : PCtx) (r : Random) (bs : Bytes) (hf : r.feature ≤ 0x14)
    (hacc : r.accepted = true) (h : r.getData = some bs) :
    Returns T ctx (.random r) bs ↔ r.scope ≠ .relative ∧ (0 ≤ r.triggers ∧ r.triggers < 128) ∧
      ∀ t ∈ r.groups, ∃ w, t = .ref w ∧ getRefId t = w := by
  by_cases hs : r.scope = .relative
  · constructor
    · rintro ⟨d, c, h1, h2⟩
      by_cases hv : vehicle r.feature = true
      · cases d with
        | act2 x =>
          cases x with
          | random d =>
            simp only [Decoded.action, Option.some.injEq, Action.random.injEq] at h2
            subst h2
            exact absurd rfl (relative_vehicle_never_returns T ctx d bs hf hs hv h d c h1)
          | _ => simp [Decoded.action] at h2
        | _ => simp [Decoded.action] at h2
      · rw [relative_other_refused r hacc hs (by simpa using hv)] at h
        cases h
    · intro e; exact absurd hs e.1
  · by_cases ht : 0 ≤ r.triggers ∧ r.triggers < 128
    · rw [returns_of (random_switch_roundtrip_partial T ctx r bs hf hacc hs ht h)]
      obtain ⟨f, ref, sc, cnt, tr, ca, low, gs⟩ := r
      simp only at hs ht
      simp only [Decoded.action, Option.some.injEq, Action.random.injEq, Random.mk.injEq, true_and, map_refs_iff, hs, ht, ne_eq,
        not_false_eq_true, and_self]
    · constructor
      · rintro ⟨d, c, h1, h2⟩
        obtain ⟨rr, hr⟩ := first_byte (W := noTables) (a := .random r) rfl h
        have hr : bs = 2 :: rr := hr
        subst hr
        rw [dp02] at h1
        simp only [Option.map_eq_some_iff, Prod.mk.injEq, Option.some.injEq] at h1
        obtain ⟨x, hx, rfl, _⟩ := h1
        cases x with
        | random d =>
          simp only [Decoded.action, Option.some.injEq, Action.random.injEq] at h2
          subst h2
          exact absurd (decode2_triggers hx) ht
        | _ => simp [Decoded.action] at h2
      · intro e; exact absurd e.2.1 ht

/-! ### C14 -/

theorem pairs_refs_iff (l : List (Int × Target)) : l.map (fun p => (p.1, Target.ref (getRefId p.2))) = l ↔
    ∀ p ∈ l, ∃ w, p.2 = .ref w ∧ getRefId p.2 = w := by
  constructor
  · intro h t ht
    rw [← h] at ht
    simp only [List.mem_map] at ht
    obtain ⟨g, _, rfl⟩ := ht
    exact ⟨_, rfl, rfl⟩
  · intro h
    conv => rhs; rw [← List.map_id l]
    apply List.map_congr_left
    intro p hp
    obtain ⟨w, e1, e2⟩ := h p hp
    rw [e2]
    show (p.1, Target.ref w) = p
    rw [← e1]

/-- The map is read without the wagon override flag, and its default is a reference. -/
theorem decode3_shape {bs : Bytes} {a : GMap} (h : decode3 bs = some a) : a.wagonOverride = false ∧ ∃ w, a.default = .ref w := by
  simp only [decode3, Option.bind_eq_bind, Option.bind_eq_some_iff] at h
  obtain ⟨⟨f, b1⟩, _, f', _, ⟨n, b2⟩, _, h⟩ := h
  simp only at h
  split at h
  · simp only [Option.bind_eq_some_iff, Option.some.injEq] at h
    obtain ⟨_, _, ⟨d, b3⟩, _, rfl⟩ := h
    exact ⟨rfl, _, rfl⟩
  · simp only [Option.bind_eq_some_iff, Option.some.injEq] at h
    obtain ⟨_, _, _, _, _, _, ⟨d, b3⟩, _, rfl⟩ := h
    exact ⟨rfl, _, rfl⟩

/-- **C14** A graphics map (`maps` being a dictionary) comes back exactly when it has 1 to 127 ids, no wagon override and targets that
are reference words. -/
theorem graphics_map_iff (T : Nat → List (String × VarData)) (ctx : PCtx) (a : GMap) (bs : Bytes) (hf : a.feature ≤ 0x14)
    (hk : (a.maps.map (·.1)).Nodup) (h : a.getData = some bs) :
    Returns T ctx (.map a) bs ↔ (1 ≤ a.ids.length ∧ a.ids.length ≤ 127) ∧ a.wagonOverride = false ∧
      (∀ p ∈ a.maps, ∃ w, p.2 = .ref w ∧ getRefId p.2 = w) ∧ ∃ w, a.default = .ref w ∧ getRefId a.default = w := by
  obtain ⟨rr, hr⟩ := first_byte (W := noTables) (a := .map a) rfl h
  have hr : bs = 3 :: rr := hr
  by_cases h1 : a.ids = []
  · constructor
    · rintro ⟨d, c, h2, h3⟩
      subst hr
      rw [dp03] at h2
      simp only [Option.map_eq_some_iff, Prod.mk.injEq, Option.some.injEq] at h2
      obtain ⟨x, hx, rfl, _⟩ := h2
      simp only [Decoded.action, Option.some.injEq, Action.map.injEq] at h3
      subst h3
      obtain ⟨_, w, hw⟩ := decode3_shape hx
      rw [no_ids_reference_refused x h1 w hw] at h
      cases h
    · rintro ⟨⟨e, _⟩, _⟩; rw [h1] at e; simp at e
  · by_cases h2 : a.ids.length < 128
    · rw [returns_of (graphics_map_roundtrip_partial T ctx a bs hf h1 h2 hk h)]
      have hlen : 1 ≤ a.ids.length := by
        cases ha : a.ids with
        | nil => exact absurd ha h1
        | cons => simp
      obtain ⟨f, ids, maps, dflt, wo⟩ := a
      simp only at h1 h2 hk hlen
      simp only [Decoded.action, Option.some.injEq, Action.map.injEq, GMap.mk.injEq, true_and, pairs_refs_iff]
      constructor
      · rintro ⟨e1, e2, e3⟩
        refine ⟨⟨hlen, by omega⟩, e3.symm, e1, getRefId dflt, e2.symm, rfl⟩
      · rintro ⟨_, e1, e2, w, e3, e4⟩
        exact ⟨e2, by rw [e4, e3], e1.symm⟩
    · constructor
      · rintro ⟨d, c, h3, h4⟩
        subst hr
        have h3' := h3
        rw [dp03] at h3
        simp only [Option.map_eq_some_iff, Prod.mk.injEq, Option.some.injEq] at h3
        obtain ⟨x, hx, rfl, _⟩ := h3
        simp only [Decoded.action, Option.some.injEq, Action.map.injEq] at h4
        subst h4
        have := many_ids_misread T ctx x _ hf (by omega) h x c h3'
        omega
      · rintro ⟨⟨_, e⟩, _⟩; omega

/-! ### C15 -/

theorem splitAll_ne (bs : Bytes) : splitAll bs ≠ [] := by
  induction bs with
  | nil => simp [splitAll]
  | cons b r ih =>
    rw [splitAll]
    split
    · simp
    · split <;> simp

theorem splitAll_parts (bs : Bytes) : ∀ s ∈ splitAll bs, (0 : UInt8) ∉ s := by
  induction bs with
  | nil => simp [splitAll]
  | cons b r ih =>
    rw [splitAll]
    split
    · intro s hs
      simp only [List.mem_cons] at hs
      rcases hs with rfl | hs
      · simp
      · exact ih s hs
    · next hb =>
      split
      · intro s hs
        simp only [List.mem_cons, List.not_mem_nil, or_false] at hs
        subst hs
        simpa using fun e => hb e.symm
      · next p ps hp =>
        intro s hs
        rw [hp] at ih
        simp only [List.mem_cons] at hs
        rcases hs with rfl | hs
        · have := ih p (by simp)
          simp only [List.mem_cons, not_or]
          exact ⟨fun e => hb e.symm, this⟩
        · exact ih s (by simp [hs])

theorem decode4_strings {bs : Bytes} {s : Texts} (h : decode4 bs = some s) : s.strings ≠ [] ∧ ∀ x ∈ s.strings, (0 : UInt8) ∉ x := by
  simp only [decode4, Option.bind_eq_bind, Option.bind_eq_some_iff] at h
  obtain ⟨⟨f, b1⟩, _, f', _, ⟨l, b2⟩, hl, ⟨n, b3⟩, _, ⟨o, b4⟩, _, h⟩ := h
  split at h
  · simp only [Option.some.injEq] at h
    subst h
    exact ⟨splitAll_ne _, splitAll_parts _⟩
  · cases h

/-- **C15** A string definition the constructor accepts comes back exactly when the language is 0 to 0x7f, there is a string, and no
string contains NUL. -/
theorem strings_iff (T : Nat → List (String × VarData)) (ctx : PCtx) (s : Texts) (bs : Bytes) (hf : s.feature ≤ 0x14)
    (hacc : s.accepted = true) (h : s.getData = some bs) :
    Returns T ctx (.texts s) bs ↔ (0 ≤ s.lang ∧ s.lang ≤ 0x7f) ∧ s.strings ≠ [] ∧ ∀ x ∈ s.strings, (0 : UInt8) ∉ x := by
  constructor
  · rintro ⟨d, c, h1, h2⟩
    obtain ⟨rr, hr⟩ := first_byte (W := noTables) (a := .texts s) rfl h
    have hr : bs = 4 :: rr := hr
    subst hr
    rw [dp04] at h1
    simp only [Option.map_eq_some_iff, Prod.mk.injEq, Option.some.injEq] at h1
    obtain ⟨x, hx, rfl, _⟩ := h1
    simp only [Decoded.action, Option.some.injEq, Action.texts.injEq] at h2
    subst h2
    have := decoded_language_small _ _ hx
    exact ⟨⟨this.1, by omega⟩, decode4_strings hx⟩
  · rintro ⟨⟨h1, h2⟩, h3, h4⟩
    rw [returns_of (strings_roundtrip_partial T ctx s bs hf hacc ⟨h1, by omega⟩ h3 h4 h)]
    rfl

/-! ### C16 -/

theorem decode5_type {bs : Bytes} {a : NewSprites} {n : Int} (h : decode5 bs = some (a, n)) : 0 ≤ a.setType ∧ a.setType < 0x80 := by
  refine ⟨?_, decoded_set_type_small bs a n h⟩
  simp only [decode5, Option.bind_eq_bind, Option.bind_eq_some_iff] at h
  obtain ⟨⟨t, b1⟩, ht, ⟨k, b2⟩, hk, h⟩ := h
  have hb := readU_bound ht
  obtain ⟨m, rfl⟩ := Int.eq_ofNat_of_zero_le hb.1
  simp only at h
  split at h
  · simp only [Option.bind_eq_some_iff, Option.some.injEq, Prod.mk.injEq] at h
    obtain ⟨_, _, h, _⟩ := h
    rw [← h]
    show 0 ≤ Int.ofNat (ldiff m 128)
    exact Int.natCast_nonneg _
  · simp only [Option.some.injEq, Prod.mk.injEq] at h
    rw [← h.1]; exact Int.natCast_nonneg _

/-- **C16** Replacing new sprites: comes back exactly when the set type is 0 to 0x7f. -/
theorem replace_new_iff (T : Nat → List (String × VarData)) (ctx : PCtx) (a : NewSprites) (bs : Bytes) (h : a.getData = some bs) :
    Returns T ctx (.newSprites a) bs ↔ 0 ≤ a.setType ∧ a.setType ≤ 0x7f := by
  constructor
  · rintro ⟨d, c, h1, h2⟩
    obtain ⟨rr, hr⟩ := first_byte (W := noTables) (a := .newSprites a) rfl h
    have hr : bs = 5 :: rr := hr
    subst hr
    rw [dp05] at h1
    simp only [Option.map_eq_some_iff, Prod.mk.injEq, Option.some.injEq] at h1
    obtain ⟨x, hx, rfl, _⟩ := h1
    simp only [Decoded.action, Option.some.injEq, Action.newSprites.injEq] at h2
    subst h2
    have := decode5_type (n := x.2) hx
    omega
  · rintro ⟨h1, h2⟩
    rw [returns_of (replace_new_roundtrip_partial T ctx a bs ⟨h1, by omega⟩ h)]
    rfl

theorem decode6_params : ∀ (fuel : Nat) (bs : Bytes) (ps : List ModParam), decode6 fuel bs = some ps → ∀ p ∈ ps, p.num ≠ 0xff
  | 0, _, _, h => by simp [decode6] at h
  | fuel + 1, bs, ps, h => by
    simp only [decode6, Option.bind_eq_bind, Option.bind_eq_some_iff] at h
    obtain ⟨⟨n, b1⟩, _, h⟩ := h
    simp only at h
    split at h
    · simp only [Option.some.injEq] at h; subst h; simp
    · next hn =>
      simp only [Option.bind_eq_some_iff, Option.some.injEq] at h
      obtain ⟨_, _, _, _, r, hr, rfl⟩ := h
      intro p hp
      simp only [List.mem_cons] at hp
      rcases hp with rfl | hp
      · exact hn
      · exact decode6_params fuel _ r hr p hp

/-- **C16** Modifying sprites: comes back exactly when no parameter number is 0xff. -/
theorem modify_iff (T : Nat → List (String × VarData)) (ctx : PCtx) (ps : List ModParam) (bs : Bytes) (h : modifyData ps = some bs) :
    Returns T ctx (.modify ps) bs ↔ ∀ p ∈ ps, p.num ≠ 0xff := by
  constructor
  · rintro ⟨d, c, h1, h2⟩
    obtain ⟨rr, hr⟩ := first_byte (W := noTables) (a := .modify ps) rfl h
    have hr : bs = 6 :: rr := hr
    subst hr
    rw [dp06] at h1
    simp only [Option.map_eq_some_iff, Prod.mk.injEq, Option.some.injEq] at h1
    obtain ⟨x, hx, rfl, _⟩ := h1
    simp only [Decoded.action, Option.some.injEq, Action.modify.injEq] at h2
    subst h2
    exact decode6_params _ _ _ hx
  · intro hn
    rw [returns_of (modify_roundtrip_partial T ctx ps bs hn h)]
    rfl

theorem decode7_shape {st : Bool} {bs : Bytes} {a : If} (h : decode7 st bs = some a) :
    ∃ (size : Nat) (v : Int), a.varsize = some (size : Int) ∧ a.value = .int v ∧ (2 ≤ a.condition ∨ size = 1) ∧
      0 ≤ v ∧ v < ((256 ^ size : Nat) : Int) := by
  simp only [decode7, Option.bind_eq_bind, Option.bind_eq_some_iff, Option.some.injEq] at h
  obtain ⟨⟨var, b1⟩, _, ⟨size, b2⟩, hs, ⟨c, b3⟩, _, ⟨v, b4⟩, hv, ⟨sk, b5⟩, _, rfl⟩ := h
  have hs := readU_bound hs
  have hv := readU_bound hv
  simp only at hv ⊢
  by_cases hc : c < 2
  · simp only [if_pos hc] at hv ⊢
    exact ⟨1, v, rfl, rfl, .inr rfl, hv.1, hv.2⟩
  · simp only [if_neg hc] at hv ⊢
    exact ⟨size.toNat, v, by rw [Int.toNat_of_nonneg hs.1], rfl, .inl (by omega), hv.1, hv.2⟩

/-- **C16** Conditional skip: comes back exactly when it has a size (1 for the bit tests 0 and 1) and a number as value that is unsigned
and fits into that size. -/
theorem skip_iff (T : Nat → List (String × VarData)) (ctx : PCtx) (a : If) (bs : Bytes) (h : a.getData = some bs) :
    Returns T ctx (.cond a) bs ↔ ∃ (size : Nat) (v : Int), a.varsize = some (size : Int) ∧ a.value = .int v ∧
      (2 ≤ a.condition ∨ size = 1) ∧ 0 ≤ v ∧ v < ((256 ^ size : Nat) : Int) := by
  constructor
  · rintro ⟨d, c, h1, h2⟩
    obtain ⟨rr, hr⟩ := first_byte (W := noTables) (a := .cond a) rfl h
    cases hst : a.isStatic with
    | true =>
      have hr : bs = 9 :: rr := by rw [hr]; simp [Action.number, hst]
      subst hr
      rw [dp09] at h1
      simp only [Option.map_eq_some_iff, Prod.mk.injEq, Option.some.injEq] at h1
      obtain ⟨x, hx, rfl, _⟩ := h1
      simp only [Decoded.action, Option.some.injEq, Action.cond.injEq] at h2
      subst h2
      exact decode7_shape hx
    | false =>
      have hr : bs = 7 :: rr := by rw [hr]; simp [Action.number, hst]
      subst hr
      rw [dp07] at h1
      simp only [Option.map_eq_some_iff, Prod.mk.injEq, Option.some.injEq] at h1
      obtain ⟨x, hx, rfl, _⟩ := h1
      simp only [Decoded.action, Option.some.injEq, Action.cond.injEq] at h2
      subst h2
      exact decode7_shape hx
  · rintro ⟨size, v, h1, h2, h3, h4⟩
    rw [returns_of (skip_fitting_roundtrip_partial T ctx a bs size v h1 h2 h3 h4 h)]
    rfl

theorem decodeD_shape {bs : Bytes} {a : Compute} (h : decodeD bs = some a) : (0 ≤ a.operation ∧ a.operation ≤ 0x0c) ∧
    (if a.source1 = 0xff ∨ a.source2 = 0xff then ∃ n, a.value = .int n else a.value = .none) := by
  simp only [decodeD, Option.bind_eq_bind, Option.bind_eq_some_iff] at h
  obtain ⟨⟨t, b1⟩, _, ⟨op, b2⟩, hop, ⟨s1, b3⟩, _, ⟨s2, b4⟩, _, v, hv, h⟩ := h
  simp only at h
  split at h
  · next hle =>
    simp only [Option.some.injEq] at h
    subst h
    simp only at hv ⊢
    have hb := readU_bound hop
    obtain ⟨m, rfl⟩ := Int.eq_ofNat_of_zero_le hb.1
    have : pyAnd (m : Int) 0x7f = ((m % 2 ^ 7 : Nat) : Int) := SpriteRef.and_mask 7 m
    refine ⟨⟨by rw [this]; omega, hle⟩, ?_⟩
    unfold readValue at hv
    split at hv
    · next hff =>
      rw [if_pos hff]
      simp only [Option.map_eq_some_iff] at hv
      obtain ⟨p, _, rfl⟩ := hv
      exact ⟨_, rfl⟩
    · next hff =>
      rw [if_neg hff]
      simpa [eq_comm] using hv
  · cases h

/-- **C16** Computing parameters: comes back exactly for the operations 0 to 0x0C with a number as value if a source is 0xff and no value
otherwise. -/
theorem compute_iff (T : Nat → List (String × VarData)) (ctx : PCtx) (a : Compute) (bs : Bytes) (h : a.getData = some bs) :
    Returns T ctx (.compute a) bs ↔ (0 ≤ a.operation ∧ a.operation ≤ 0x0c) ∧
      (if a.source1 = 0xff ∨ a.source2 = 0xff then ∃ n, a.value = .int n else a.value = .none) := by
  constructor
  · rintro ⟨d, c, h1, h2⟩
    obtain ⟨rr, hr⟩ := first_byte (W := noTables) (a := .compute a) rfl h
    have hr : bs = 0x0d :: rr := hr
    subst hr
    rw [dp0d] at h1
    simp only [Option.map_eq_some_iff, Prod.mk.injEq, Option.some.injEq] at h1
    obtain ⟨x, hx, rfl, _⟩ := h1
    simp only [Decoded.action, Option.some.injEq, Action.compute.injEq] at h2
    subst h2
    exact decodeD_shape hx
  · rintro ⟨h1, h2⟩
    rw [returns_of (compute_roundtrip_partial T ctx a bs h1 h2 h)]
    rfl

/-- **C16** Imported sounds, in a sound table: come back exactly when the GRF id has four bytes. -/
theorem import_sound_iff (T : Nat → List (String × VarData)) (ctx : PCtx) (g : Bytes) (n : Int) (bs : Bytes) (hc : ctx.kind = .sound)
    (h : importData g n = some bs) : Returns T ctx (.importSound g n) bs ↔ g.length = 4 := by
  constructor
  · rintro ⟨d, c, h1, h2⟩
    simp only [importData, Option.bind_eq_bind, Option.bind_eq_some_iff, Option.some.injEq] at h
    obtain ⟨b, hb, rfl⟩ := h
    have hl := packU_length hb
    simp only [List.cons_append, List.nil_append, decodePseudo, hc, if_true, decodeFE, Option.bind_eq_bind, Option.map_eq_some_iff,
      Option.bind_eq_some_iff, Option.some.injEq, Prod.mk.injEq] at h1
    obtain ⟨x, ⟨y, _, rfl⟩, rfl, _⟩ := h1
    simp only [Decoded.action, Option.some.injEq, Action.importSound.injEq] at h2
    have := congrArg List.length h2.1
    simp only [List.drop_succ_cons, List.drop_zero, List.length_take, List.length_append] at this
    omega
  · intro hg
    rw [returns_of (import_sound_roundtrip_partial T ctx g n bs hc hg h)]
    rfl

/-- **C16** Glyphs never come back: the decompiler fails on what is written for them. -/
theorem glyphs_never (T : Nat → List (String × VarData)) (ctx : PCtx) (l : List (Int × Int × Int)) (bs : Bytes)
    (h : glyphsData l = some bs) : decodePseudo T ctx bs = none ∧ ¬ Returns T ctx (.glyphs l) bs := by
  have hb : bs = [0x12, 0] := by
    unfold glyphsData at h
    split at h
    · have : (some [0x12, 0] : Option Bytes) = some bs := by rw [← h]; decide +kernel
      exact (Option.some.inj this).symm
    · cases h
  subst hb
  refine ⟨dp12 _ _ _, ?_⟩
  rintro ⟨d, c, h1, -⟩
  rw [dp12] at h1
  cases h1

/-- **C16** Comments never come back. -/
theorem comment_never (T : Nat → List (String × VarData)) (ctx : PCtx) (data bs : Bytes) (h : commentData data = some bs) :
    ¬ Returns T ctx (.comment data) bs := by
  rintro ⟨d, c, h1, h2⟩
  simp only [commentData, Option.some.injEq] at h
  subst h
  rw [List.replicate_succ, List.cons_append, dp00] at h1
  simp only [Option.map_eq_some_iff, Prod.mk.injEq, Option.some.injEq] at h1
  obtain ⟨x, hx, rfl, _⟩ := h1
  simp [Decoded.action] at h2

/-! ### C17 -/

theorem splitNul_isSome : ∀ (b : Bytes), (0 : UInt8) ∈ b → ∃ t r, splitNul b = some (t, r)
  | [], h => by simp at h
  | x :: b, h => by
    rw [splitNul]
    split
    · exact ⟨_, _, rfl⟩
    · next hx =>
      simp only [List.mem_cons] at h
      rcases h with h | h
      · exact absurd h.symm hx
      · obtain ⟨t, r, e⟩ := splitNul_isSome b h
        rw [e]; exact ⟨_, _, rfl⟩

/-- **C17** A GRF description comes back exactly when the id has four bytes and the name no NUL. -/
theorem description_iff (T : Nat → List (String × VarData)) (ctx : PCtx) (a : Description) (bs : Bytes) (h : a.getData = some bs) :
    Returns T ctx (.description a) bs ↔ a.grfid.length = 4 ∧ (0 : UInt8) ∉ a.name := by
  constructor
  · rintro ⟨x, c, h1, h2⟩
    obtain ⟨v, g, n, d⟩ := a
    simp only [Description.getData, Option.bind_eq_bind, Option.bind_eq_some_iff, Option.some.injEq] at h
    obtain ⟨hd, hh, rfl⟩ := h
    simp only [cat_cons_iff, cat_nil_iff] at hh
    obtain ⟨a1, k1, _, ⟨a2, k2, _, rfl, rfl⟩, rfl⟩ := hh
    rw [pk' 8 (by decide) k1] at h1
    obtain ⟨w, rfl, hw⟩ := packU_one_some k2
    simp only [List.nil_append, List.cons_append, List.append_assoc] at h1
    rw [dp08] at h1
    simp only [Option.map_eq_some_iff, Prod.mk.injEq, Option.some.injEq] at h1
    obtain ⟨y, hy, rfl, _⟩ := h1
    simp only [Decoded.action, Option.some.injEq, Action.description.injEq] at h2
    subst h2
    simp only [decode8, readU_one, Option.bind_eq_bind, Option.bind_some, List.drop_succ_cons, List.drop_zero] at hy
    have hg : g = (g ++ (n ++ 0 :: (d ++ [0]))).take 4 := by
      split at hy <;> simp only [Option.some.injEq, Description.mk.injEq] at hy <;> exact hy.2.1.symm
    have hlen : g.length = 4 := by
      have := congrArg List.length hg
      simp only [List.length_take, List.length_append, List.length_cons, List.length_nil] at this
      omega
    refine ⟨hlen, ?_⟩
    have hrest : (g ++ (n ++ 0 :: (d ++ [0]))).drop 4 = n ++ 0 :: (d ++ [0]) := by rw [← hlen]; simp
    rw [hrest] at hy
    obtain ⟨t, r, e⟩ := splitNul_isSome (n ++ 0 :: (d ++ [0])) (by simp)
    rw [e] at hy
    simp only [Option.some.injEq, Description.mk.injEq] at hy
    rw [← hy.2.2.1]
    exact splitNul_front _ _ _ e
  · rintro ⟨h1, h2⟩
    rw [returns_of (description_roundtrip_partial T ctx a bs h1 h2 h)]
    rfl

/-- **C17** No error message comes back. -/
theorem error_never (T : Nat → List (String × VarData)) (ctx : PCtx) (e : Err) (bs : Bytes) (hacc : e.accepted = true)
    (h : e.getData = some bs) : ¬ Returns T ctx (.error e) bs := by
  rintro ⟨d, c, h1, h2⟩
  cases d with
  | error d =>
    simp only [Decoded.action, Option.some.injEq, Action.error.injEq] at h2
    subst h2
    exact error_message_never_returns T ctx d d bs c hacc h h1 rfl
  | act2 x => cases x <;> simp [Decoded.action] at h2
  | _ => simp [Decoded.action] at h2

/-! ### All kinds together -/

/-- What the constructors make sure of (`Feature` objects have a number of the table; `maps` and `props` are dictionaries). -/
def Action.valid : Action → Prop
  | .define d => d.accepted = true ∧ (d.props.map (·.1)).Nodup
  | .sets a => a.feature ≤ 0x14
  | .generic g => g.feature ≤ 0x14 ∧ g.accepted = true
  | .random r => r.feature ≤ 0x14 ∧ r.accepted = true
  | .map a => a.feature ≤ 0x14 ∧ (a.maps.map (·.1)).Nodup
  | .texts s => s.feature ≤ 0x14 ∧ s.accepted = true
  | .error e => e.accepted = true
  | _ => True

/-- The kinds of this file: all but tile layouts (C55), switches (C26) and info trees (C18). -/
def Action.simple : Action → Bool
  | .basic _ | .layout _ | .switch _ | .props _ => false
  | _ => true

/-- **C16** (with C08, C12 to C17 and C19) Exactly the actions satisfying `Action.Exact` come back, for every kind of action but
layouts, switches and info trees. -/
theorem returns_iff_exact (W : Tables) (T : Nat → List (String × VarData)) (a : Action) (bs : Bytes) (hs : a.simple = true)
    (hv : a.valid) (h : a.getData W = some bs) : Returns T a.context a bs ↔ a.Exact := by
  cases a with
  | define d =>
    have h0 : d.getData = some bs := h
    obtain ⟨r, rfl⟩ : ∃ r, bs = 0 :: r := first_byte (W := W) (a := .define d) rfl h
    have hk : Returns T (Action.define d).context (.define d) (0 :: r) ↔ decode0 r = some d := by
      unfold Returns
      rw [dp00]
      cases decode0 r <;> simp [Decoded.action]
    have hi := define_iff d _ [] hv.1 hv.2 h0
    simp only [List.append_nil, List.cons.injEq, true_and, exists_eq_left'] at hi
    rw [hk, hi]
    simp only [Action.Exact]
    exact ⟨fun e => ⟨hv.1, hv.2, fun p hp => (e p hp).1, fun p hp => (e p hp).2⟩, fun e p hp => ⟨e.2.2.1 p hp, e.2.2.2 p hp⟩⟩
  | basic d => cases hs
  | layout d => cases hs
  | switch d => cases hs
  | props d => cases hs
  | sets a =>
    rw [sprite_sets_iff T _ a bs hv h]
    simp only [Action.Exact]
    exact ⟨fun e => ⟨hv, e⟩, fun e => e.2⟩
  | generic a =>
    rw [sprite_group_iff T _ a bs hv.1 hv.2 h]
    exact ⟨fun e => ⟨hv.1, hv.2, e⟩, fun e => e.2.2⟩
  | random a =>
    rw [random_switch_iff T _ a bs hv.1 hv.2 h]
    exact ⟨fun e => ⟨hv.1, hv.2, e⟩, fun e => e.2.2⟩
  | map a =>
    rw [graphics_map_iff T _ a bs hv.1 hv.2 h]
    constructor
    · rintro ⟨⟨e1, e2⟩, e3, e4⟩
      exact ⟨hv.1, by intro e; rw [e] at e1; simp at e1, by omega, hv.2, e3, e4⟩
    · rintro ⟨_, e1, e2, _, e3, e4⟩
      refine ⟨⟨?_, by omega⟩, e3, e4⟩
      cases ha : a.ids with
      | nil => exact absurd ha e1
      | cons => simp
  | texts a =>
    rw [strings_iff T _ a bs hv.1 hv.2 h]
    constructor
    · rintro ⟨⟨e1, e2⟩, e3⟩; exact ⟨hv.1, hv.2, ⟨e1, by omega⟩, e3⟩
    · rintro ⟨_, _, ⟨e1, e2⟩, e3⟩; exact ⟨⟨e1, by omega⟩, e3⟩
  | newSprites a =>
    rw [replace_new_iff T _ a bs h]
    constructor
    · rintro ⟨e1, e2⟩; exact ⟨e1, by omega⟩
    · rintro ⟨e1, e2⟩; exact ⟨e1, by omega⟩
  | modify a => exact modify_iff T _ a bs h
  | cond a => exact skip_iff T _ a bs h
  | description a => exact description_iff T _ a bs h
  | oldSprites a => rw [returns_of (replace_old_roundtrip T _ a bs h)]; simp [Decoded.action, Action.Exact]
  | compute a => exact compute_iff T _ a bs h
  | label a => rw [returns_of (label_roundtrip T _ a bs h)]; simp [Decoded.action, Action.Exact]
  | sounds a => rw [returns_of (sounds_roundtrip T _ a bs h)]; simp [Decoded.action, Action.Exact]
  | importSound g n => exact import_sound_iff T _ g n bs rfl h
  | glyphs l => exact ⟨fun e => (glyphs_never T _ l bs h).2 e, fun e => e.elim⟩
  | comment d => exact ⟨fun e => comment_never T _ d bs h e, fun e => e.elim⟩
  | error e => exact ⟨fun x => error_never T _ e bs hv h x, fun x => x.elim⟩
  | production p =>
    refine ⟨fun x => ?_, fun x => x.elim⟩
    obtain ⟨d, c, h1, h2⟩ := x
    cases d with
    | act2 x => cases x <;> simp [Decoded.action] at h2
    | _ => simp [Decoded.action] at h2

/-- Actions on both sides of each condition. -/
example : (Sets.mk 4 300 2 none).getData.isSome = true ∧ ¬ Action.Exact (.sets ⟨4, 300, 2, none⟩) := ⟨by decide +kernel, by simp [Action.Exact]⟩
example : (Texts.mk 0 0x7f 5 false [[65, 0, 66]]).getData.isSome = true ∧ (Texts.mk 0 0x7f 5 false [[65, 0, 66]]).accepted = true ∧
    ¬ Action.Exact (.texts ⟨0, 0x7f, 5, false, [[65, 0, 66]]⟩) := ⟨by decide +kernel, by decide, by simp [Action.Exact]⟩
example : (Description.mk 8 [65] [66] []).getData.isSome = true ∧ ¬ Action.Exact (.description ⟨8, [65], [66], []⟩) :=
  ⟨by decide +kernel, by simp [Action.Exact]⟩

end Grf.Acts
