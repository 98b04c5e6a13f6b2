import Verif.Props.ReadFormat2
import Mathlib.Data.List.Forall2
/-!
# C64, continued: action 2
-/
namespace Grf.Acts
open PropC Grf.Spec

/-- The part of `decode2` after the three bytes of the head. -/
def after2 (T : Nat → List (String × VarData)) (data : Bytes) (f : Nat) (ref t : Int) (bs : Bytes) : Option Act2 :=
  if t = 0x81 ∨ t = 0x82 ∨ t = 0x85 ∨ t = 0x86 ∨ t = 0x89 ∨ t = 0x8a then
    (decodeVA2 (T f) data).map fun p => .switch p.1
  else if t = 0x80 then (readRandom f .self ref bs).map .random
  else if t = 0x83 then (readRandom f .parent ref bs).map .random
  else if t = 0x84 then (readRandom f .relative ref bs).map .random
  else if f = 0x07 ∨ f = 0x09 ∨ f = 0x0f ∨ f = 0x11 then (readLayout f ref t.toNat bs).map .layout
  else if f = 0x0a then (readProduction t bs).map .production
  else (readU 1 bs).bind fun p => (readN (readU 2) t.toNat p.2).bind fun q => (readN (readU 2) p.1.toNat q.2).map fun s => .generic ⟨f, ref, q.1, s.1⟩

theorem decode2_eq (T : Nat → List (String × VarData)) (data : Bytes) (a : Act2) :
    decode2 T data = some a ↔ ∃ (f : Nat) (ref t : Int) (r : Bytes), f ≤ 20 ∧ Upto [B f, B ref, B t] data r ∧ after2 T data f ref t r = some a := by
  simp only [decode2, Option.bind_eq_bind, Option.bind_eq_some_iff, Prod.exists, read_byte, feature_iff, upto_cons2]
  have e : ∀ (f : Nat) (ref t : Int) (r : Bytes), (if t = 0x81 ∨ t = 0x82 ∨ t = 0x85 ∨ t = 0x86 ∨ t = 0x89 ∨ t = 0x8a then
      (decodeVA2 (T f) data).bind fun x => some (Act2.switch x.1)
    else if t = 0x80 then (readRandom f .self ref r).map .random
    else if t = 0x83 then (readRandom f .parent ref r).map .random
    else if t = 0x84 then (readRandom f .relative ref r).map .random
    else if f = 0x07 ∨ f = 0x09 ∨ f = 0x0f ∨ f = 0x11 then (readLayout f ref t.toNat r).map .layout
    else if f = 0x0a then (readProduction t r).map .production
    else (readU 1 r).bind fun x => (readN (readU 2) t.toNat x.2).bind fun y => (readN (readU 2) x.1.toNat y.2).bind fun z => some (.generic ⟨f, ref, y.1, z.1⟩)) =
      after2 T data f ref t r := by
    intro f ref t r
    unfold after2
    simp only [Option.map_eq_bind]
    rfl
  constructor
  · rintro ⟨_, r1, h1, f, ⟨rfl, hf⟩, ref, r2, h2, t, r3, h3, h⟩
    exact ⟨f, ref, t, r3, hf, ⟨r1, h1, r2, h2, h3⟩, (e f ref t r3) ▸ h⟩
  · rintro ⟨f, ref, t, r3, hf, ⟨r1, h1, r2, h2, h3⟩, h⟩
    exact ⟨f, r1, h1, f, ⟨rfl, hf⟩, ref, r2, h2, t, r3, h3, (e f ref t r3) ▸ h⟩

theorem reads2 (T : Nat → List (String × VarData)) (ctx : PCtx) (bs : Bytes) (a : Act2) :
    Reads T ctx bs (.act2 a) ↔ ∃ (f : Nat) (ref t : Int) (r data : Bytes), bs = 2 :: data ∧ f ≤ 20 ∧ Upto [B f, B ref, B t] data r ∧
      after2 T data f ref t r = some a := by
  constructor
  · rintro ⟨c, h⟩
    obtain ⟨t, rfl, h⟩ := (pseudo_first _ _ _ _ _ 2 rfl).1 h
    rw [dp02] at h
    simp only [Option.map_eq_some_iff, Prod.mk.injEq, Option.some.injEq, Decoded.act2.injEq] at h
    obtain ⟨_, h1, rfl, -⟩ := h
    obtain ⟨f, ref, ty, r, h2, h3, h4⟩ := (decode2_eq _ _ _).1 h1
    exact ⟨f, ref, ty, r, t, rfl, h2, h3, h4⟩
  · rintro ⟨f, ref, ty, r, t, rfl, h2, h3, h4⟩
    exact ⟨ctx.enter, by rw [dp02, (decode2_eq _ _ _).2 ⟨f, ref, ty, r, h2, h3, h4⟩]; rfl⟩

/-- Head and rest of an action 2. -/
theorem begins2 (f : Int) (ref t : Int) (l : List Piece) (bs : Bytes) :
    Begins (B 2 :: B f :: B ref :: B t :: l) bs ↔ ∃ data r, bs = 2 :: data ∧ Upto [B f, B ref, B t] data r ∧ ∃ q, Upto l r q := by
  rw [begins_number 2 2 rfl]
  simp only [begins_iff]
  constructor
  · rintro ⟨data, rfl, q, h⟩
    rw [show B f :: B ref :: B t :: l = [B f, B ref, B t] ++ l from rfl, upto_append] at h
    obtain ⟨r, h1, h2⟩ := h
    exact ⟨data, r, rfl, h1, q, h2⟩
  · rintro ⟨data, r, rfl, h1, q, h2⟩
    refine ⟨data, rfl, q, ?_⟩
    rw [show B f :: B ref :: B t :: l = [B f, B ref, B t] ++ l from rfl, upto_append]
    exact ⟨r, h1, h2⟩

theorem type_bound {f ref t : Int} {d r : Bytes} (h : Upto [B f, B ref, B t] d r) : 0 ≤ t ∧ t ≤ 255 := by
  simp only [upto_cons2] at h
  obtain ⟨_, _, _, _, h⟩ := h
  exact upto_byte_bound h

/-- **C64** Sprites of vehicles, stations and others. -/
theorem reads_generic (T : Nat → List (String × VarData)) (ctx : PCtx) (bs : Bytes) (g : Generic) :
    Reads T ctx bs (.act2 (.generic g)) ↔ Begins (genericItems g) bs ∧ g.feature ≤ 20 ∧ g.feature ∉ [7, 9, 10, 15, 17] ∧
      (g.ent1.length : Int) ∉ switchNumbers := by
  obtain ⟨f, ref, e1, e2⟩ := g
  have e0 : genericItems ⟨f, ref, e1, e2⟩ = B 2 :: B f :: B ref :: B e1.length :: (B e2.length :: (e1.map W ++ e2.map W)) := by
    simp [genericItems]
  rw [e0, reads2, begins2]
  simp only [switchNumbers, List.mem_cons, List.not_mem_nil, or_false, not_or]
  constructor
  · rintro ⟨f', ref', t, r, data, rfl, hf, h1, h2⟩
    have hb := type_bound h1
    unfold after2 at h2
    split at h2
    · simp at h2
    split at h2
    · simp at h2
    split at h2
    · simp at h2
    split at h2
    · simp at h2
    split at h2
    · simp at h2
    split at h2
    · simp at h2
    simp only [Option.bind_eq_some_iff, Option.map_eq_some_iff, Prod.exists, read_byte, read_wordList, Act2.generic.injEq, Generic.mk.injEq] at h2
    obtain ⟨m, r1, h2, l1, r2, ⟨h3, h4⟩, l2, r3, ⟨h5, h6⟩, rfl, rfl, rfl, rfl⟩ := h2
    have hm := upto_byte_bound h2
    obtain rfl : t = l1.length := by omega
    obtain rfl : m = l2.length := by omega
    refine ⟨⟨data, r, rfl, h1, r3, ?_⟩, hf, by omega, by omega⟩
    rw [upto_cons]; refine ⟨r1, h2, ?_⟩
    rw [upto_append]; exact ⟨r2, h4, h6⟩
  · rintro ⟨⟨data, r, rfl, h1, q, h2⟩, hf, hnf, hnt⟩
    refine ⟨f, ref, _, r, data, rfl, hf, h1, ?_⟩
    rw [upto_cons] at h2; obtain ⟨r1, h2, h3⟩ := h2
    rw [upto_append] at h3; obtain ⟨r2, h3, h4⟩ := h3
    unfold after2
    rw [if_neg (by omega), if_neg (by omega), if_neg (by omega), if_neg (by omega), if_neg (by omega), if_neg (by omega)]
    simp only [Option.bind_eq_some_iff, Option.map_eq_some_iff, Prod.exists, read_byte, read_wordList]
    exact ⟨_, r1, h2, e1, r2, ⟨by simp, h3⟩, e2, q, ⟨by simp, h4⟩, rfl⟩

theorem map_ref (l : List Int) (gs : List Target) : l.map Target.ref = gs ↔ (∀ g ∈ gs, ∃ w, g = .ref w) ∧ l = gs.map targetNumber := by
  constructor
  · rintro rfl
    refine ⟨by simp, ?_⟩
    rw [List.map_map]
    have : targetNumber ∘ Target.ref = id := by funext x; rfl
    rw [this, List.map_id]
  · rintro ⟨h, rfl⟩
    rw [List.map_map]
    conv => rhs; rw [← List.map_id gs]
    apply List.map_congr_left
    intro g hg
    obtain ⟨w, rfl⟩ := h g hg
    rfl

theorem read_random (f : Nat) (scope : Scope) (ref : Int) (bs : Bytes) (x : Random) :
    readRandom f scope ref bs = some x ↔ x.feature = f ∧ x.scope = scope ∧ x.refId = ref ∧
      (x.count.isSome ↔ scope = .relative ∧ f ≤ 3) ∧ (0 ≤ x.triggers ∧ x.triggers < 128) ∧ (∀ g ∈ x.groups, ∃ w, g = .ref w) ∧
      ∃ q, Upto ((match x.count with | none => [] | some c => [B c]) ++
        [B (flagged x.cmpAll x.triggers), B x.lowestBit, B x.groups.length] ++ x.groups.map fun t => W (targetNumber t)) bs q := by
  obtain ⟨f', ref', scope', count, tr, all, low, gs⟩ := x
  have rest : ∀ (bs : Bytes), (∃ (t : Int) (r1 : Bytes), Upto [B t] bs r1 ∧ ∃ (l : Int) (r2 : Bytes), Upto [B l] r1 r2 ∧ ∃ (n : Int) (r3 : Bytes), Upto [B n] r2 r3 ∧ ∃ (gl : List Int) (r4 : Bytes),
      (gl.length = n.toNat ∧ Upto (gl.map W) r3 r4) ∧ pyAnd t 0x7f = tr ∧ (pyAnd t 0x80 != 0) = all ∧ l = low ∧ gl.map Target.ref = gs) ↔
      (0 ≤ tr ∧ tr < 128) ∧ (∀ g ∈ gs, ∃ w, g = .ref w) ∧ ∃ q, Upto ([B (flagged all tr), B low, B gs.length] ++ gs.map fun t => W (targetNumber t)) bs q := by
    intro bs
    constructor
    · rintro ⟨t, r1, h1, l, r2, h2, n, r3, h3, gl, r4, ⟨h4, h5⟩, e1, e2, rfl, e3⟩
      obtain ⟨h6, rfl⟩ := (flag_byte t tr all (upto_byte_bound h1)).1 ⟨e1, e2⟩
      obtain ⟨h7, rfl⟩ := (map_ref _ _).1 e3
      have hn := upto_byte_bound h3
      obtain rfl : n = gs.length := by simp only [List.length_map] at h4; omega
      refine ⟨h6, h7, r4, ?_⟩
      rw [upto_append]
      refine ⟨r3, ?_, ?_⟩
      · simp only [upto_cons2]; exact ⟨r1, h1, r2, h2, h3⟩
      · rwa [List.map_map] at h5
    · rintro ⟨h6, h7, r4, h⟩
      rw [upto_append] at h
      obtain ⟨r3, h, h5⟩ := h
      simp only [upto_cons2] at h
      obtain ⟨r1, h1, r2, h2, h3⟩ := h
      have hb := (flag_byte (flagged all tr) tr all (upto_byte_bound h1)).2 ⟨h6, rfl⟩
      refine ⟨_, r1, h1, _, r2, h2, _, r3, h3, gs.map targetNumber, r4, ⟨by simp, ?_⟩, hb.1, hb.2, rfl, (map_ref _ _).2 ⟨h7, rfl⟩⟩
      rw [List.map_map]; exact h5
  unfold readRandom
  by_cases hc : scope = .relative ∧ f ≤ 3
  · have hc' : scope = .relative ∧ vehicle f = true := ⟨hc.1, by simp [vehicle, hc.2]⟩
    simp only [if_pos hc', Option.bind_eq_bind, Option.bind_eq_some_iff, Prod.exists, Option.map_eq_some_iff, read_byte, read_wordList,
      Option.some.injEq, Random.mk.injEq, Prod.mk.injEq]
    constructor
    · rintro ⟨_, _, ⟨c, r0, h0, rfl, rfl⟩, t, r1, h1, l, r2, h2, n, r3, h3, gl, r4, h4, rfl, rfl, rfl, rfl, e1, e2, e3, e4⟩
      obtain ⟨h5, h6, q, h7⟩ := (rest r0).1 ⟨t, r1, h1, l, r2, h2, n, r3, h3, gl, r4, h4, e1, e2, e3, e4⟩
      refine ⟨rfl, rfl, rfl, by simp [hc], h5, h6, q, ?_⟩
      rw [List.append_assoc, upto_append]
      exact ⟨r0, h0, h7⟩
    · rintro ⟨rfl, rfl, rfl, hcount, h5, h6, q, h7⟩
      obtain ⟨c, rfl⟩ := Option.isSome_iff_exists.1 (hcount.2 hc)
      rw [List.append_assoc, upto_append] at h7
      obtain ⟨r0, h0, h7⟩ := h7
      obtain ⟨t, r1, h1, l, r2, h2, n, r3, h3, gl, r4, h4, e1, e2, e3, e4⟩ := (rest r0).2 ⟨h5, h6, q, h7⟩
      exact ⟨_, r0, ⟨c, _, h0, rfl, rfl⟩, t, r1, h1, l, r2, h2, n, r3, h3, gl, r4, h4, rfl, rfl, rfl, rfl, e1, e2, e3, e4⟩
  · have hc' : ¬ (scope = .relative ∧ vehicle f = true) := by simpa [vehicle] using hc
    simp only [if_neg hc', Option.bind_eq_bind, Option.bind_some, Option.bind_eq_some_iff, Prod.exists, read_byte, read_wordList,
      Option.some.injEq, Random.mk.injEq]
    constructor
    · rintro ⟨t, r1, h1, l, r2, h2, n, r3, h3, gl, r4, h4, rfl, rfl, rfl, rfl, e1, e2, e3, e4⟩
      obtain ⟨h5, h6, q, h7⟩ := (rest bs).1 ⟨t, r1, h1, l, r2, h2, n, r3, h3, gl, r4, h4, e1, e2, e3, e4⟩
      exact ⟨rfl, rfl, rfl, by simp [hc], h5, h6, q, h7⟩
    · rintro ⟨rfl, rfl, rfl, hcount, h5, h6, q, h7⟩
      obtain rfl : count = none := by
        cases count with
        | none => rfl
        | some c => exact absurd (hcount.1 rfl) hc
      obtain ⟨t, r1, h1, l, r2, h2, n, r3, h3, gl, r4, h4, e1, e2, e3, e4⟩ := (rest bs).2 ⟨h5, h6, q, h7⟩
      exact ⟨t, r1, h1, l, r2, h2, n, r3, h3, gl, r4, h4, rfl, rfl, rfl, rfl, e1, e2, e3, e4⟩

/-- **C64** Random switches: there is a count exactly for vehicles with the scope "relative". -/
theorem reads_random (T : Nat → List (String × VarData)) (ctx : PCtx) (bs : Bytes) (x : Random) :
    Reads T ctx bs (.act2 (.random x)) ↔ Begins (randomItems x) bs ∧ x.feature ≤ 20 ∧ (x.count.isSome ↔ x.scope = .relative ∧ x.feature ≤ 3) ∧
      (0 ≤ x.triggers ∧ x.triggers < 128) ∧ ∀ g ∈ x.groups, ∃ w, g = .ref w := by
  have e0 : randomItems x = B 2 :: B x.feature :: B x.refId :: B (match x.scope with | .self => 0x80 | .parent => 0x83 | .relative => 0x84) ::
      ((match x.count with | none => [] | some c => [B c]) ++
        [B (flagged x.cmpAll x.triggers), B x.lowestBit, B x.groups.length] ++ x.groups.map fun t => W (targetNumber t)) := by
    simp [randomItems]; exact ⟨rfl, rfl⟩
  rw [e0, reads2, begins2]
  constructor
  · rintro ⟨f, ref, t, r, data, rfl, hf, h1, h2⟩
    unfold after2 at h2
    split at h2
    · simp at h2
    split at h2
    · next ht =>
      simp only [Option.map_eq_some_iff, Act2.random.injEq] at h2
      obtain ⟨_, h2, rfl⟩ := h2
      obtain ⟨rfl, h4, rfl, h6, h7, h8, h9⟩ := (read_random _ _ _ _ _).1 h2
      rw [h4]; subst ht
      exact ⟨⟨data, r, rfl, h1, h9⟩, hf, h6, h7, h8⟩
    split at h2
    · next ht =>
      simp only [Option.map_eq_some_iff, Act2.random.injEq] at h2
      obtain ⟨_, h2, rfl⟩ := h2
      obtain ⟨rfl, h4, rfl, h6, h7, h8, h9⟩ := (read_random _ _ _ _ _).1 h2
      rw [h4]; subst ht
      exact ⟨⟨data, r, rfl, h1, h9⟩, hf, h6, h7, h8⟩
    split at h2
    · next ht =>
      simp only [Option.map_eq_some_iff, Act2.random.injEq] at h2
      obtain ⟨_, h2, rfl⟩ := h2
      obtain ⟨rfl, h4, rfl, h6, h7, h8, h9⟩ := (read_random _ _ _ _ _).1 h2
      rw [h4]; subst ht
      exact ⟨⟨data, r, rfl, h1, h9⟩, hf, h6, h7, h8⟩
    split at h2
    · simp at h2
    split at h2
    · simp at h2
    · simp only [Option.bind_eq_some_iff, Option.map_eq_some_iff] at h2
      obtain ⟨_, _, _, _, _, _, e⟩ := h2
      cases e
  · rintro ⟨⟨data, r, rfl, h1, h9⟩, hf, h6, h7, h8⟩
    have h2 := (read_random x.feature x.scope x.refId r x).2 ⟨rfl, rfl, rfl, h6, h7, h8, h9⟩
    refine ⟨x.feature, x.refId, _, r, data, rfl, hf, h1, ?_⟩
    unfold after2
    cases hs : x.scope with
    | self => rw [hs] at h2; simp [h2]
    | parent => rw [hs] at h2; simp [h2]
    | relative => rw [hs] at h2; simp [h2]

theorem read_pair (p : List Int) (b r : Bytes) : readPair b = some (p, r) ↔ p.length = 2 ∧ Upto (p.map B) b r := read_byteList 2 p b r

theorem read_listIf {α : Type} (rd : Bytes → Option (α × Bytes)) (items : α → List Piece) (P : α → Prop)
    (h : ∀ v b r, rd b = some (v, r) ↔ P v ∧ Upto (items v) b r) :
    ∀ (n : Nat) (l : List α) (b r : Bytes), readN rd n b = some (l, r) ↔ l.length = n ∧ (∀ v ∈ l, P v) ∧ Upto (l.flatMap items) b r := by
  intro n
  induction n with
  | zero =>
    intro l b r
    simp only [readN, Option.some.injEq, Prod.mk.injEq]
    constructor
    · rintro ⟨rfl, rfl⟩; exact ⟨rfl, by simp, (upto_nil _ _).2 rfl⟩
    · rintro ⟨h1, -, h2⟩
      cases l with
      | nil => exact ⟨rfl, (upto_nil _ _).1 h2⟩
      | cons => simp at h1
  | succ n ih =>
    intro l b r
    simp only [readN, Option.bind_eq_bind, Option.bind_eq_some_iff, Prod.exists, Option.some.injEq, Prod.mk.injEq, h, ih]
    constructor
    · rintro ⟨v, m, ⟨hv, h1⟩, l', r', ⟨rfl, hl, h2⟩, rfl, rfl⟩
      refine ⟨rfl, ?_, by rw [List.flatMap_cons, upto_append]; exact ⟨m, h1, h2⟩⟩
      intro x hx
      rcases List.mem_cons.1 hx with rfl | hx
      · exact hv
      · exact hl x hx
    · rintro ⟨h1, hl, h2⟩
      cases l with
      | nil => simp at h1
      | cons v l =>
        rw [List.flatMap_cons, upto_append] at h2
        obtain ⟨m, h2, h3⟩ := h2
        exact ⟨v, m, ⟨hl v (by simp), h2⟩, l, r, ⟨by simpa using h1, fun x hx => hl x (by simp [hx]), h3⟩, rfl, rfl⟩

theorem read_pairList (n : Nat) (l : List (List Int)) (b r : Bytes) :
    readN readPair n b = some (l, r) ↔ l.length = n ∧ (∀ p ∈ l, p.length = 2) ∧ Upto (l.flatten.map B) b r := by
  rw [read_listIf readPair (fun p => p.map B) (fun p => p.length = 2) read_pair, List.map_flatten, List.flatMap_def]

/-- The numbers a production has: three cargos in and two out for the versions 0 and 1, pairs of a cargo and an amount for version 2. -/
def ProductionShape : Production → Prop
  | .old v i o _ => v < 2 ∧ i.length = 3 ∧ o.length = 2
  | .new i o _ => (∀ p ∈ i, p.length = 2) ∧ (∀ p ∈ o, p.length = 2)

theorem readNk (k : Nat) (mk : Int → Piece) (hk : ∀ v b r, readU k b = some (v, r) ↔ Upto [mk v] b r) (n : Nat) (l : List Int) (b r : Bytes) :
    readN (readU k) n b = some (l, r) ↔ l.length = n ∧ Upto (l.map mk) b r := by
  rw [read_list (readU k) (fun v => [mk v]) hk, flatMap_single]

/-- **C64** Production of industries. -/
theorem reads_production (T : Nat → List (String × VarData)) (ctx : PCtx) (bs : Bytes) (p : Production) :
    Reads T ctx bs (.act2 (.production p)) ↔ (∃ refId, Begins (productionItems refId p) bs) ∧ ProductionShape p := by
  have hafter : ∀ (data : Bytes) (f : Nat) (ref t : Int) (r : Bytes), 0 ≤ t → t ≤ 255 → (after2 T data f ref t r = some (.production p) ↔
      f = 10 ∧ t ≤ 2 ∧ readProduction t r = some p) := by
    intro data f ref t r h0 h255
    unfold after2
    constructor
    · intro h
      split at h
      · simp at h
      split at h
      · simp at h
      split at h
      · simp at h
      split at h
      · simp at h
      split at h
      · simp at h
      split at h
      · next hf =>
        simp only [Option.map_eq_some_iff, Act2.production.injEq, exists_eq_right] at h
        refine ⟨hf, ?_, h⟩
        unfold readProduction at h
        split at h
        · omega
        split at h
        · omega
        · cases h
      · simp only [Option.bind_eq_some_iff, Option.map_eq_some_iff] at h
        obtain ⟨_, _, _, _, _, _, e⟩ := h
        cases e
    · rintro ⟨rfl, ht, h⟩
      rw [if_neg (by omega), if_neg (by omega), if_neg (by omega), if_neg (by omega), if_neg (by omega), if_pos rfl, h]
      rfl
  rw [reads2]
  cases p with
  | old v i o d =>
    have hread : ∀ (t : Int) (r : Bytes), 0 ≤ t → (t ≤ 2 ∧ readProduction t r = some (.old v i o d) ↔ t = v ∧ (v < 2 ∧ i.length = 3 ∧ o.length = 2) ∧
        ∃ q, Upto ((if v = 0 then i.map W ++ o.map W else i.map B ++ o.map B) ++ [B d]) r q) := by
      intro t r h0
      have hk : ∀ (k : Nat) (mk : Int → Piece), (∀ v b r, readU k b = some (v, r) ↔ Upto [mk v] b r) →
          ((∃ a b, readN (readU k) 3 r = some (a, b) ∧ ∃ a1 b1, readN (readU k) 2 b = some (a1, b1) ∧ ∃ a2 b2, readU 1 b1 = some (a2, b2) ∧
            t.toNat = v ∧ a = i ∧ a1 = o ∧ a2 = d) ↔ t.toNat = v ∧ i.length = 3 ∧ o.length = 2 ∧ ∃ q, Upto (i.map mk ++ o.map mk ++ [B d]) r q) := by
        intro k mk hmk
        simp only [readNk k mk hmk, read_byte]
        constructor
        · rintro ⟨_, r1, ⟨h1, h2⟩, _, r2, ⟨h3, h4⟩, _, r3, h5, h6, rfl, rfl, rfl⟩
          refine ⟨h6, h1, h3, r3, ?_⟩
          rw [upto_append]; refine ⟨r2, ?_, h5⟩
          rw [upto_append]; exact ⟨r1, h2, h4⟩
        · rintro ⟨h6, h1, h3, r3, h⟩
          rw [upto_append] at h; obtain ⟨r2, h, h5⟩ := h
          rw [upto_append] at h; obtain ⟨r1, h2, h4⟩ := h
          exact ⟨_, r1, ⟨h1, h2⟩, _, r2, ⟨h3, h4⟩, _, r3, h5, h6, rfl, rfl, rfl⟩
      unfold readProduction
      by_cases ht : t < 2
      · rw [if_pos ht]
        simp only [Option.bind_eq_bind, Option.bind_eq_some_iff, Prod.exists, Option.some.injEq, Production.old.injEq]
        by_cases hz : t = 0
        · subst hz
          simp only [if_true]
          rw [hk 2 W read_word]
          constructor
          · rintro ⟨-, h1, h2, h3, h4⟩
            obtain rfl : v = 0 := by omega
            exact ⟨rfl, ⟨by omega, h2, h3⟩, h4⟩
          · rintro ⟨h1, ⟨h2, h3, h4⟩, h5⟩
            obtain rfl : v = 0 := by omega
            exact ⟨by omega, rfl, h3, h4, h5⟩
        · simp only [if_neg hz]
          rw [hk 1 B read_byte]
          constructor
          · rintro ⟨-, h1, h2, h3, h4⟩
            have hv : v ≠ 0 := by omega
            rw [if_neg hv]
            exact ⟨by omega, ⟨by omega, h2, h3⟩, h4⟩
          · rintro ⟨h1, ⟨h2, h3, h4⟩, h5⟩
            have hv : v ≠ 0 := by omega
            rw [if_neg hv] at h5
            exact ⟨by omega, by omega, h3, h4, h5⟩
      · rw [if_neg ht]
        constructor
        · rintro ⟨h1, h⟩
          split at h
          · simp only [Option.bind_eq_bind, Option.bind_eq_some_iff, Prod.exists, Option.some.injEq] at h
            obtain ⟨_, _, _, _, _, _, _, _, _, _, _, _, _, _, _, e⟩ := h
            cases e
          · cases h
        · rintro ⟨h1, ⟨h2, _⟩, _⟩; omega
    have e0 : ∀ refId, productionItems refId (.old v i o d) = B 2 :: B 10 :: B refId :: B v ::
        ((if v = 0 then i.map W ++ o.map W else i.map B ++ o.map B) ++ [B d]) := by
      intro refId; simp [productionItems]
    simp only [e0, begins2, ProductionShape]
    constructor
    · rintro ⟨f, ref, t, r, data, rfl, hf, h1, h2⟩
      have hb := type_bound h1
      obtain ⟨rfl, h3, h4⟩ := (hafter _ _ _ _ _ hb.1 hb.2).1 h2
      obtain ⟨rfl, h5, h6⟩ := (hread t r hb.1).1 ⟨h3, h4⟩
      exact ⟨⟨ref, data, r, rfl, h1, h6⟩, h5⟩
    · rintro ⟨⟨ref, data, r, rfl, h1, h6⟩, h5⟩
      have hb := type_bound h1
      obtain ⟨h3, h4⟩ := (hread v r hb.1).2 ⟨rfl, h5, h6⟩
      exact ⟨10, ref, _, r, data, rfl, by omega, h1, (hafter _ _ _ _ _ hb.1 hb.2).2 ⟨rfl, h3, h4⟩⟩
  | new i o d =>
    have hread : ∀ (t : Int) (r : Bytes), 0 ≤ t → (t ≤ 2 ∧ readProduction t r = some (.new i o d) ↔ t = 2 ∧ ((∀ p ∈ i, p.length = 2) ∧ (∀ p ∈ o, p.length = 2)) ∧
        ∃ q, Upto (B i.length :: (i.flatten.map B ++ [B o.length] ++ o.flatten.map B ++ [B d])) r q) := by
      intro t r h0
      unfold readProduction
      by_cases ht : t < 2
      · rw [if_pos ht]
        constructor
        · rintro ⟨_, h⟩
          simp only [Option.bind_eq_bind, Option.bind_eq_some_iff, Prod.exists, Option.some.injEq] at h
          obtain ⟨_, _, _, _, _, _, _, _, _, e⟩ := h
          cases e
        · rintro ⟨h1, _⟩; omega
      · rw [if_neg ht]
        by_cases h2 : t = 2
        · rw [if_pos h2]
          simp only [Option.bind_eq_bind, Option.bind_eq_some_iff, Prod.exists, Option.some.injEq, Production.new.injEq, read_byte, read_pairList]
          constructor
          · rintro ⟨-, n, r1, h3, _, r2, ⟨h4, h5, h6⟩, m, r3, h7, _, r4, ⟨h8, h9, h10⟩, _, r5, h11, rfl, rfl, rfl⟩
            have b1 := upto_byte_bound h3
            have b2 := upto_byte_bound h7
            refine ⟨h2, ⟨h5, h9⟩, r5, ?_⟩
            rw [upto_cons]; refine ⟨r1, by rwa [show ((List.length _ : Nat) : Int) = n by omega], ?_⟩
            rw [upto_append]; refine ⟨r4, ?_, h11⟩
            rw [upto_append]; refine ⟨r3, ?_, h10⟩
            rw [upto_append]; exact ⟨r2, h6, by rwa [show ((List.length _ : Nat) : Int) = m by omega]⟩
          · rintro ⟨-, ⟨h5, h9⟩, r5, h⟩
            rw [upto_cons] at h; obtain ⟨r1, h3, h⟩ := h
            rw [upto_append] at h; obtain ⟨r4, h, h11⟩ := h
            rw [upto_append] at h; obtain ⟨r3, h, h10⟩ := h
            rw [upto_append] at h; obtain ⟨r2, h6, h7⟩ := h
            exact ⟨by omega, _, r1, h3, _, r2, ⟨by simp, h5, h6⟩, _, r3, h7, _, r4, ⟨by simp, h9, h10⟩, _, r5, h11, rfl, rfl, rfl⟩
        · rw [if_neg h2]
          constructor
          · rintro ⟨_, h⟩; cases h
          · rintro ⟨h, _⟩; exact absurd h h2
    have e0 : ∀ refId, productionItems refId (.new i o d) = B 2 :: B 10 :: B refId :: B 2 ::
        (B i.length :: (i.flatten.map B ++ [B o.length] ++ o.flatten.map B ++ [B d])) := by
      intro refId; simp [productionItems]
    simp only [e0, begins2, ProductionShape]
    constructor
    · rintro ⟨f, ref, t, r, data, rfl, hf, h1, h2⟩
      have hb := type_bound h1
      obtain ⟨rfl, h3, h4⟩ := (hafter _ _ _ _ _ hb.1 hb.2).1 h2
      obtain ⟨rfl, h5, h6⟩ := (hread t r hb.1).1 ⟨h3, h4⟩
      exact ⟨⟨ref, data, r, rfl, h1, h6⟩, h5⟩
    · rintro ⟨⟨ref, data, r, rfl, h1, h6⟩, h5⟩
      have hb := type_bound h1
      obtain ⟨h3, h4⟩ := (hread 2 r hb.1).2 ⟨rfl, h5, h6⟩
      exact ⟨10, ref, _, r, data, rfl, by omega, h1, (hafter _ _ _ _ _ hb.1 hb.2).2 ⟨rfl, h3, h4⟩⟩

end Grf.Acts
