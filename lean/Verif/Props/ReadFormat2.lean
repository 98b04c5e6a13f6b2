import Verif.Props.ReadFormat
import Mathlib.Data.List.Induction
/-!
# C64, continued: texts, errors, imported sounds and maps
-/
namespace Grf.Acts
open PropC Grf.Spec

/-! ### Errors -/

theorem intsOf_eq (r : Bytes) : intsOf r = r.map fun b => (b.toNat : Int) := by
  unfold intsOf; rfl

theorem readTail_iff (r : Bytes) (t : Option Bytes) (ps : List Int) : readTail r = (t, ps) ↔ Params r t ps := by
  unfold readTail
  constructor
  · intro h
    split at h
    · next hr =>
      simp only [Prod.mk.injEq] at h
      obtain ⟨rfl, rfl⟩ := h
      subst hr
      exact .nothing
    · next hr =>
      cases hs : splitNul r with
      | none =>
        rw [hs] at h
        simp only [Prod.mk.injEq] at h
        obtain ⟨rfl, rfl⟩ := h
        exact .numbers r hr ((splitNul_none r).1 hs)
      | some p =>
        obtain ⟨x, y⟩ := p
        rw [hs] at h
        simp only [Prod.mk.injEq] at h
        obtain ⟨rfl, rfl⟩ := h
        obtain ⟨h1, rfl⟩ := (splitNul_iff _ _ _).1 hs
        exact .text x y h1
  · intro h
    cases h with
    | nothing => rfl
    | numbers _ h1 h2 => rw [if_neg h1, (splitNul_none r).2 h2]; rfl
    | text t r h1 => rw [if_neg (by simp), splitNul_append t h1]; rfl

/-- **C64** Errors. The number of the message tells whether a text follows, but the decoder reads one for the numbers of the built-in
messages and not for 255, which is the number of a message with its own text. -/
theorem reads_error (T : Nat → List (String × VarData)) (ctx : PCtx) (bs : Bytes) (e : Err) :
    Reads T ctx bs (.error e) ↔ ∃ (m : Int) (x r : List UInt8), Holds [B 11, B e.severity, B e.lang, B m] x ∧ bs = x ++ r ∧ e.lang ≤ 127 ∧
      ((m = 255 ∧ e.message = .int 255 ∧ Params r e.textParam e.params) ∨
       (m ≠ 255 ∧ 0 ∉ r ∧ e.message = .int m ∧ Params r e.textParam e.params) ∨
       (m ≠ 255 ∧ ∃ t q, r = t ++ 0 :: q ∧ 0 ∉ t ∧ e.message = .bytes t ∧ Params q e.textParam e.params)) := by
  obtain ⟨s, l, msg, tp, ps⟩ := e
  have key : ∀ t, decodeB t = some ⟨s, l, msg, tp, ps⟩ ↔ ∃ m r, Upto [B s, B l, B m] t r ∧ l ≤ 127 ∧
      ((m = 255 ∧ msg = .int 255 ∧ Params r tp ps) ∨ (m ≠ 255 ∧ 0 ∉ r ∧ msg = .int m ∧ Params r tp ps) ∨
       (m ≠ 255 ∧ ∃ t q, r = t ++ 0 :: q ∧ 0 ∉ t ∧ msg = .bytes t ∧ Params q tp ps)) := by
    intro t
    simp only [decodeB, Option.bind_eq_bind, Option.bind_eq_some_iff, Prod.exists, read_byte, upto_cons2]
    have hm : ∀ (m : Int) (r : Bytes), ((readMessage m r).1 = msg ∧ (readTail (readMessage m r).2).1 = tp ∧ (readTail (readMessage m r).2).2 = ps) ↔
        ((m = 255 ∧ msg = .int 255 ∧ Params r tp ps) ∨ (m ≠ 255 ∧ 0 ∉ r ∧ msg = .int m ∧ Params r tp ps) ∨
          (m ≠ 255 ∧ ∃ t q, r = t ++ 0 :: q ∧ 0 ∉ t ∧ msg = .bytes t ∧ Params q tp ps)) := by
      intro m r
      have e : ∀ q, ((readTail q).1 = tp ∧ (readTail q).2 = ps) ↔ Params q tp ps := by
        intro q
        rw [← readTail_iff, Prod.ext_iff]
      rw [e]
      unfold readMessage
      split
      · next h =>
        subst h
        simp only [ne_eq, not_true_eq_false, false_and, or_false, true_and]
        exact ⟨fun ⟨h1, h2⟩ => ⟨h1.symm, h2⟩, fun ⟨h1, h2⟩ => ⟨h1.symm, h2⟩⟩
      · next h =>
        cases hs : splitNul r with
        | none =>
          simp only
          have h0 := (splitNul_none r).1 hs
          constructor
          · rintro ⟨rfl, h2⟩; exact .inr (.inl ⟨h, h0, rfl, h2⟩)
          · rintro (⟨h1, _⟩ | ⟨_, _, rfl, h2⟩ | ⟨_, t, q, rfl, _⟩)
            · exact absurd h1 h
            · exact ⟨rfl, h2⟩
            · simp at h0
        | some p =>
          obtain ⟨t, q⟩ := p
          simp only
          obtain ⟨h1, rfl⟩ := (splitNul_iff _ _ _).1 hs
          constructor
          · rintro ⟨rfl, h2⟩; exact .inr (.inr ⟨h, t, q, rfl, h1, rfl, h2⟩)
          · rintro (⟨h3, _⟩ | ⟨_, h3, _⟩ | ⟨_, t', q', e, h3, rfl, h2⟩)
            · exact absurd h3 h
            · simp at h3
            · have := (splitNul_iff _ _ _).2 ⟨h3, e⟩
              rw [hs] at this
              simp only [Option.some.injEq, Prod.mk.injEq] at this
              obtain ⟨rfl, rfl⟩ := this
              exact ⟨rfl, h2⟩
    constructor
    · rintro ⟨s', r1, h1, l', r2, h2, m, r3, h3, h⟩
      split at h
      · cases h
      · next hl =>
        simp only [Option.some.injEq, Err.mk.injEq] at h
        obtain ⟨rfl, rfl, h4⟩ := h
        exact ⟨m, r3, ⟨r1, h1, r2, h2, h3⟩, by omega, (hm m r3).1 h4⟩
    · rintro ⟨m, r3, ⟨r1, h1, r2, h2, h3⟩, hl, h4⟩
      refine ⟨s, r1, h1, l, r2, h2, m, r3, h3, ?_⟩
      rw [if_neg (by omega)]
      have := (hm m r3).2 h4
      simp only [Option.some.injEq, Err.mk.injEq, true_and]
      exact this
  constructor
  · rintro ⟨c, h⟩
    obtain ⟨t, rfl, h⟩ := (pseudo_first _ _ _ _ _ 11 rfl).1 h
    rw [dp0b] at h
    simp only [Option.map_eq_some_iff, Prod.mk.injEq, Option.some.injEq, Decoded.error.injEq] at h
    obtain ⟨_, h1, rfl, -⟩ := h
    obtain ⟨m, r, h2, h3⟩ := (key t).1 h1
    obtain ⟨x, h4, h5⟩ := (upto_cons (B 11) _ _ _).2 ⟨t, (upto_known 11 _ t).2 rfl, h2⟩
    exact ⟨m, x, r, h4, h5, h3⟩
  · rintro ⟨m, x, r, h4, h5, h3⟩
    obtain ⟨t, h6, h7⟩ := (upto_cons (B 11) _ _ _).1 ⟨x, h4, h5⟩
    have := (upto_known 11 bs t).1 h6
    subst this
    exact ⟨ctx.enter, by rw [dp0b, (key t).2 ⟨m, r, h7, h3⟩]; rfl⟩

/-! ### Texts -/

theorem join_intercalate (l : List Bytes) : joinNul l = List.intercalate [0] l := by
  induction l with
  | nil => rfl
  | cons s l ih =>
    cases l with
    | nil => simp [joinNul, List.intercalate, List.intersperse]
    | cons u l =>
      rw [joinNul, ih]
      · simp [List.intercalate, List.intersperse]
      · simp

theorem splitAll_iff (b : Bytes) (l : List Bytes) : splitAll b = l ↔ b = List.intercalate [0] l ∧ l ≠ [] ∧ ∀ s ∈ l, (0 : UInt8) ∉ s := by
  constructor
  · rintro rfl
    refine ⟨?_, splitAll_ne b, splitAll_parts b⟩
    rw [← join_intercalate]
    induction b with
    | nil => rfl
    | cons x b ih =>
      rw [splitAll]
      split
      · next hx =>
        subst hx
        cases hb : splitAll b with
        | nil => exact absurd hb (splitAll_ne b)
        | cons p ps =>
          rw [joinNul, ← hb, ← ih]
          · rfl
          · simp
      · cases hb : splitAll b with
        | nil => exact absurd hb (splitAll_ne b)
        | cons p ps =>
          simp only
          rw [hb] at ih
          cases ps with
          | nil => simp only [joinNul] at ih ⊢; rw [ih]
          | cons q qs =>
            rw [joinNul] at ih ⊢
            · rw [ih]; rfl
            · simp
            · simp
  · rintro ⟨rfl, h1, h2⟩
    rw [← join_intercalate]
    exact splitAll_join l h1 h2

theorem read_offset (g : Bool) (f : Nat) (o : Int) (b r : Bytes) :
    readOffset g (vehicle f) b = some (o, r) ↔ Upto [if g then W o else if f ≤ 3 then .E o else B o] b r := by
  unfold readOffset
  cases g with
  | true => simp only [if_true]; exact read_word o b r
  | false =>
    simp only [Bool.false_eq_true, if_false]
    by_cases hf : f ≤ 3
    · rw [if_pos hf, ← read_ext]
      have hv : vehicle f = true := by simp [vehicle, hf]
      cases b with
      | nil => rfl
      | cons x b =>
        simp only [Grf.readU_one, Option.bind_eq_bind, Option.bind_some, hv, true_and, readExt]
        by_cases hx : x = 255
        · subst hx; simp
        · have : (x.toNat : Int) ≠ 255 := by
            intro e; exact hx (by rw [← UInt8.toNat_inj]; have : (255 : UInt8).toNat = 255 := rfl; omega)
          rw [if_neg this, if_pos hx]
    · have hv : vehicle f = false := by simp [vehicle]; omega
      rw [if_neg hf, ← read_byte]
      simp only [hv, Bool.false_eq_true, false_and, if_false, Option.bind_eq_bind, Option.bind_eq_some_iff, Prod.exists, Option.some.injEq,
        Prod.mk.injEq]
      constructor
      · rintro ⟨_, _, h, rfl, rfl⟩; exact h
      · intro h; exact ⟨_, _, h, rfl, rfl⟩

/-- **C64** Texts: NUL-free texts, one after the other with a NUL between them and any byte at the end. -/
theorem reads_texts (T : Nat → List (String × VarData)) (ctx : PCtx) (bs : Bytes) (s : Texts) :
    Reads T ctx bs (.texts s) ↔ ∃ x r, Holds (textItems s) x ∧ bs = x ++ r ∧ r.dropLast = List.intercalate [0] s.strings ∧
      s.strings ≠ [] ∧ (∀ t ∈ s.strings, 0 ∉ t) ∧ s.feature ≤ 20 ∧ (0 ≤ s.lang ∧ s.lang < 128) := by
  obtain ⟨f, lang, off, g, strs⟩ := s
  have e0 : textItems ⟨f, lang, off, g, strs⟩ = B 4 :: [B f, B (flagged g lang), B strs.length, if g then W off else if f ≤ 3 then .E off else B off] := rfl
  rw [e0]
  refine reads_rest (dp04 T ctx) ⟨f, lang, off, g, strs⟩ rfl (by simp) _ 4 rfl (fun r => r.dropLast = List.intercalate [0] strs ∧
      strs ≠ [] ∧ (∀ t ∈ strs, 0 ∉ t) ∧ f ≤ 20 ∧ (0 ≤ lang ∧ lang < 128)) (fun t => ?_) bs
  simp only [decode4, Option.bind_eq_bind, Option.bind_eq_some_iff, Prod.exists, read_byte, read_offset, upto_cons2, feature_iff]
  constructor
  · rintro ⟨_, r1, h1, f', ⟨rfl, hf⟩, lb, r2, h2, n, r3, h3, o, r4, h4, h⟩
    split at h
    · next hn =>
      simp only [Option.some.injEq, Texts.mk.injEq] at h
      obtain ⟨rfl, e1, rfl, e2, e3⟩ := h
      obtain ⟨h6, h7⟩ := (flag_byte lb lang g (upto_byte_bound h2)).1 ⟨e1, e2⟩
      obtain ⟨h8, h9, h10⟩ := (splitAll_iff _ _).1 e3
      rw [e2] at h4
      rw [e3] at hn
      subst h7
      rw [← hn] at h3
      exact ⟨r4, ⟨r1, h1, r2, h2, r3, h3, h4⟩, h8, h9, h10, hf, h6⟩
    · cases h
  · rintro ⟨r4, ⟨r1, h1, r2, h2, r3, h3, h4⟩, h8, h9, h10, hf, h6⟩
    have hb := (flag_byte (flagged g lang) lang g (upto_byte_bound h2)).2 ⟨h6, rfl⟩
    refine ⟨f, r1, h1, f, ⟨rfl, hf⟩, _, r2, h2, _, r3, h3, off, r4, ?_, ?_⟩
    · rw [hb.2]; exact h4
    · rw [(splitAll_iff _ _).2 ⟨h8, h9, h10⟩, if_pos rfl, hb.1, hb.2]

/-! ### Imported sounds -/

/-- **C64** Imported sounds are read only where sounds are announced: `FE`, any byte, the id of the file and a word. -/
theorem reads_import (T : Nat → List (String × VarData)) (ctx : PCtx) (bs g : Bytes) (n : Int) :
    Reads T ctx bs (.importSound g n) ↔ ctx.kind = .sound ∧ g.length = 4 ∧ ∃ (x : UInt8), Begins [text ([254, x] ++ g), W n] bs := by
  have hfe : ∀ t, decodeFE t = some (g, n) ↔ g.length = 4 ∧ ∃ x r, ∃ w, t = x :: (g ++ w) ∧ Upto [W n] w r := by
    intro t
    simp only [decodeFE, Option.bind_eq_bind, Option.bind_eq_some_iff, Prod.exists, read_word, Option.some.injEq, Prod.mk.injEq]
    constructor
    · rintro ⟨m, r, h1, rfl, rfl⟩
      cases t with
      | nil => obtain ⟨x, ⟨_, rfl⟩, e⟩ := (upto_one _ _ _).1 h1; simp [Field.bytes] at e
      | cons x t =>
        simp only [List.drop_succ_cons, List.drop_zero] at h1 ⊢
        refine ⟨?_, x, r, t.drop 4, ?_, h1⟩
        · obtain ⟨y, ⟨_, rfl⟩, e⟩ := (upto_one _ _ _).1 h1
          have := congrArg List.length e
          simp [Field.bytes] at this
          simp; omega
        · rw [List.take_append_drop]
    · rintro ⟨hg, x, r, w, rfl, h⟩
      refine ⟨n, r, ?_, ?_, rfl⟩
      · simp only [List.drop_succ_cons]
        rw [List.drop_append_of_le_length (by omega), List.drop_of_length_le (by omega)]
        exact h
      · simp only [List.drop_succ_cons, List.drop_zero]
        rw [List.take_append_of_le_length (by omega), List.take_of_length_le (by omega)]
  have hb : ∀ x : UInt8, Begins [text ([254, x] ++ g), W n] bs ↔ ∃ w r, bs = 254 :: x :: (g ++ w) ∧ Upto [W n] w r := by
    intro x
    rw [begins_iff]
    simp only [upto_cons2]
    constructor
    · rintro ⟨r, m, h1, h2⟩
      obtain ⟨y, ⟨_, rfl⟩, rfl⟩ := (upto_one _ _ _).1 h1
      exact ⟨m, r, by simp [Field.bytes], h2⟩
    · rintro ⟨w, r, rfl, h⟩
      exact ⟨r, w, (upto_one _ _ _).2 ⟨_, ⟨trivial, rfl⟩, by simp [Field.bytes]⟩, h⟩
  simp only [hb]
  constructor
  · rintro ⟨c, h⟩
    obtain ⟨t, rfl, h⟩ := (pseudo_first _ _ _ _ _ 254 rfl).1 h
    by_cases hk : ctx.kind = .sound
    · simp only [decodePseudo, hk, if_true, Option.map_eq_some_iff, Prod.mk.injEq, Option.some.injEq, Decoded.importSound.injEq] at h
      obtain ⟨⟨g', n'⟩, h1, ⟨rfl, rfl⟩, -⟩ := h
      obtain ⟨h2, x, r, w, rfl, h3⟩ := (hfe t).1 h1
      exact ⟨hk, h2, x, w, r, rfl, h3⟩
    · have e : decodePseudo T ctx (254 :: t) = some (none, ctx) := by
        simp only [decodePseudo, hk, if_false]; rfl
      rw [e] at h
      simp at h
  · rintro ⟨hk, hg, x, w, r, rfl, h⟩
    refine ⟨ctx.consume, ?_⟩
    simp only [decodePseudo, hk, if_true]
    rw [(hfe _).2 ⟨hg, x, r, w, rfl, h⟩]
    rfl

/-! ### Maps -/

theorem foldl_dictSet_lookup {κ β : Type} [DecidableEq κ] [BEq κ] [LawfulBEq κ] (es : List (κ × β)) (d : List (κ × β)) (k : κ) :
    (es.foldl (fun m e => dictSet m e.1 e.2) d).lookup k = (es.reverse.lookup k).or (d.lookup k) := by
  induction es generalizing d with
  | nil => simp
  | cons e es ih =>
    obtain ⟨a, b⟩ := e
    rw [List.foldl_cons, ih, lookup_dictSet, List.reverse_cons]
    rw [List.lookup_append]
    cases es.reverse.lookup k with
    | some v => simp
    | none =>
      simp only [Option.none_or, List.lookup_cons, List.lookup_nil]
      by_cases hk : k = a
      · simp [hk]
      · rw [if_neg hk]
        have : (k == a) = false := by simpa using hk
        rw [this]; simp

theorem foldl_dictSet_keys {κ β : Type} [DecidableEq κ] (es : List (κ × β)) (d : List (κ × β)) :
    (es.foldl (fun m e => dictSet m e.1 e.2) d).map (·.1) = es.foldl (fun l e => if e.1 ∈ l then l else l ++ [e.1]) (d.map (·.1)) := by
  induction es generalizing d with
  | nil => rfl
  | cons e es ih => rw [List.foldl_cons, ih, keys_dictSet, List.foldl_cons]

theorem firsts_eraseDups {κ : Type} [DecidableEq κ] [BEq κ] [LawfulBEq κ] (l : List κ) : l.foldl (fun l e => if e ∈ l then l else l ++ [e]) [] = l.eraseDups := by
  induction l using List.reverseRecOn with
  | nil => rfl
  | append_singleton l x ih =>
    rw [List.foldl_append, ih]
    simp only [List.foldl_cons, List.foldl_nil]
    rw [List.eraseDups_append]
    by_cases hx : x ∈ l
    · rw [if_pos (by simpa using hx)]; simp [List.removeAll, hx]
    · rw [if_neg (by simpa using hx)]; simp [List.removeAll, hx]; rfl

theorem dict_unique {κ β : Type} [DecidableEq κ] [BEq κ] [LawfulBEq κ] : ∀ (l m : List (κ × β)), l.map (·.1) = m.map (·.1) → (l.map (·.1)).Nodup → (∀ k, l.lookup k = m.lookup k) → l = m
  | [], [], _, _, _ => rfl
  | [], _ :: _, h, _, _ => by simp at h
  | _ :: _, [], h, _, _ => by simp at h
  | (a, b) :: l, (c, d) :: m, h, hn, hl => by
    simp only [List.map_cons, List.cons.injEq] at h hn
    obtain ⟨rfl, h⟩ := h
    have h1 := hl a
    simp only [List.lookup_cons, beq_self_eq_true, Option.some.injEq] at h1
    subst h1
    rw [List.nodup_cons] at hn
    congr 1
    apply dict_unique l m h hn.2
    intro k
    by_cases hk : k = a
    · subst hk
      have e1 : l.lookup k = none := by
        rw [List.lookup_eq_none_iff]
        intro p hp
        rw [bne_iff_ne]
        intro e
        exact hn.1 (List.mem_map.2 ⟨p, hp, e.symm⟩)
      have e2 : m.lookup k = none := by
        rw [List.lookup_eq_none_iff]
        intro p hp
        rw [bne_iff_ne]
        intro e
        have := List.mem_map.2 ⟨p, hp, e.symm⟩
        rw [← h] at this
        exact hn.1 this
      rw [e1, e2]
    · have := hl k
      simpa [List.lookup_cons, show (k == a) = false by simpa using hk] using this

theorem dictOf_iff {κ β : Type} [DecidableEq κ] [BEq κ] [LawfulBEq κ] (maps es : List (κ × β)) : es.foldl (fun m e => dictSet m e.1 e.2) [] = maps ↔ DictOf maps es := by
  have hk : (es.foldl (fun m e => dictSet m e.1 e.2) []).map (·.1) = (es.map (·.1)).eraseDups := by
    rw [foldl_dictSet_keys, ← firsts_eraseDups, List.foldl_map]
    rw [List.map_nil]
    congr 1
    funext l e
    by_cases h : e.1 ∈ l
    · rw [if_pos h, if_pos h]
    · rw [if_neg h, if_neg h]
  have hl : ∀ k, (es.foldl (fun m e => dictSet m e.1 e.2) []).lookup k = es.reverse.lookup k := by
    intro k; rw [foldl_dictSet_lookup]; simp
  constructor
  · rintro rfl
    exact ⟨hk, hl⟩
  · rintro ⟨h1, h2⟩
    apply dict_unique
    · rw [hk, h1]
    · have : ∀ (es d : List (κ × β)), (d.map (·.1)).Nodup → ((es.foldl (fun m e => dictSet m e.1 e.2) d).map (·.1)).Nodup := by
        intro es
        induction es with
        | nil => intro d h; exact h
        | cons e es ih => intro d h; exact ih _ (IdMap.nodup_dictSet h)
      exact this es [] (by simp)
    · intro k; rw [hl, h2]

/-- **C64** Graphics of an item: the number of ids with bit 7 for wagon overrides (which is lost), the ids, the cargos and their targets (a
cargo that comes twice keeps the last one), the default; without ids a byte that is not used and the default. -/
theorem reads_map (T : Nat → List (String × VarData)) (ctx : PCtx) (bs : Bytes) (a : GMap) :
    Reads T ctx bs (.map a) ↔ a.wagonOverride = false ∧ a.feature ≤ 20 ∧ ∃ d, a.default = .ref d ∧
      ((a.ids = [] ∧ a.maps = [] ∧ ∃ x, Begins (genericMapItems a.feature x d) bs) ∨
       (∃ (n : Int) (entries : List (Int × Int)), n ≠ 0 ∧ n % 128 = a.ids.length ∧ Begins (mapItems a.feature n a.ids entries d) bs ∧
         DictOf a.maps (entries.map fun e => (e.1, Target.ref e.2)))) := by
  obtain ⟨f, ids, maps, dflt, w⟩ := a
  have key : ∀ t, decode3 t = some ⟨f, ids, maps, dflt, w⟩ ↔ w = false ∧ f ≤ 20 ∧ ∃ d, dflt = .ref d ∧
      ((ids = [] ∧ maps = [] ∧ ∃ x r, Upto [B f, B 0, B x, W d] t r) ∨
       (∃ (n : Int) (entries : List (Int × Int)), n ≠ 0 ∧ n % 128 = ids.length ∧
         (∃ r, Upto (B f :: B n :: (ids.map .E ++ [B entries.length] ++ (entries.flatMap fun e => [B e.1, W e.2]) ++ [W d])) t r) ∧
         DictOf maps (entries.map fun e => (e.1, Target.ref e.2)))) := by
    intro t
    have hfold : ∀ es : List (Int × Int), es.foldl (fun m e => dictSet m e.1 (Target.ref e.2)) [] =
        (es.map fun e => (e.1, Target.ref e.2)).foldl (fun m e => dictSet m e.1 e.2) [] := by
      intro es; rw [List.foldl_map]
    simp only [decode3, Option.bind_eq_bind, Option.bind_eq_some_iff, Prod.exists, read_byte, feature_iff]
    constructor
    · rintro ⟨_, r1, h1, f', ⟨rfl, hf⟩, n, r2, h2, h⟩
      split at h
      · next hn =>
        subst hn
        simp only [Option.bind_eq_some_iff, Prod.exists, read_byte, read_word, Option.some.injEq, GMap.mk.injEq] at h
        obtain ⟨x, r3, h3, d, r4, h4, rfl, rfl, rfl, rfl, rfl⟩ := h
        refine ⟨rfl, hf, d, rfl, .inl ⟨rfl, rfl, x, r4, ?_⟩⟩
        simp only [upto_cons2]
        exact ⟨r1, h1, r2, h2, r3, h3, h4⟩
      · next hn =>
        simp only [Option.bind_eq_some_iff, Prod.exists, read_byte, read_word, read_extList, read_list readEntry _ read_entry, Option.some.injEq,
          GMap.mk.injEq] at h
        obtain ⟨i, r3, ⟨hi, h3⟩, c, r4, h4, es, r5, ⟨he, h5⟩, d, r6, h6, rfl, rfl, rfl, rfl, rfl⟩ := h
        have hb := upto_byte_bound h2
        have hb4 := upto_byte_bound h4
        refine ⟨rfl, hf, d, rfl, .inr ⟨n, es, hn, by omega, ⟨r6, ?_⟩, ?_⟩⟩
        · rw [upto_cons]; refine ⟨r1, h1, ?_⟩
          rw [upto_cons]; refine ⟨r2, h2, ?_⟩
          rw [upto_append]; refine ⟨r5, ?_, h6⟩
          rw [upto_append]; refine ⟨r4, ?_, h5⟩
          rw [upto_append]; refine ⟨r3, h3, ?_⟩
          rwa [show (es.length : Int) = c by omega]
        · rw [← dictOf_iff, hfold]
    · rintro ⟨rfl, hf, d, rfl, ⟨rfl, rfl, x, r, h⟩ | ⟨n, es, hn, hi, ⟨r, h⟩, hd⟩⟩
      · simp only [upto_cons2] at h
        obtain ⟨r1, h1, r2, h2, r3, h3, h4⟩ := h
        refine ⟨f, r1, h1, f, ⟨rfl, hf⟩, 0, r2, h2, ?_⟩
        rw [if_pos rfl]
        simp only [Option.bind_eq_some_iff, Prod.exists, read_byte, read_word]
        exact ⟨x, r3, h3, d, r, h4, rfl⟩
      · rw [upto_cons] at h; obtain ⟨r1, h1, h⟩ := h
        rw [upto_cons] at h; obtain ⟨r2, h2, h⟩ := h
        rw [upto_append] at h; obtain ⟨r5, h, h6⟩ := h
        rw [upto_append] at h; obtain ⟨r4, h, h5⟩ := h
        rw [upto_append] at h; obtain ⟨r3, h3, h4⟩ := h
        have hb := upto_byte_bound h2
        refine ⟨f, r1, h1, f, ⟨rfl, hf⟩, n, r2, h2, ?_⟩
        rw [if_neg hn]
        simp only [Option.bind_eq_some_iff, Prod.exists, read_byte, read_word, read_extList, read_list readEntry _ read_entry, Option.some.injEq]
        refine ⟨ids, r3, ⟨by omega, h3⟩, _, r4, h4, es, r5, ⟨by simp, h5⟩, d, r, h6, ?_⟩
        rw [hfold, (dictOf_iff _ _).2 hd]
  constructor
  · rintro ⟨c, h⟩
    obtain ⟨t, rfl, h⟩ := (pseudo_first _ _ _ _ _ 3 rfl).1 h
    rw [dp03] at h
    simp only [Option.map_eq_some_iff, Prod.mk.injEq, Option.some.injEq, Decoded.map.injEq] at h
    obtain ⟨_, h1, rfl, -⟩ := h
    obtain ⟨h2, h3, d, h4, h5⟩ := (key t).1 h1
    refine ⟨h2, h3, d, h4, ?_⟩
    rcases h5 with ⟨h5, h6, x, r, h7⟩ | ⟨n, es, h5, h6, ⟨r, h7⟩, h8⟩
    · exact .inl ⟨h5, h6, x, (begins_number 3 3 rfl _ _).2 ⟨t, rfl, (begins_iff _ _).2 ⟨r, h7⟩⟩⟩
    · exact .inr ⟨n, es, h5, h6, (begins_number 3 3 rfl _ _).2 ⟨t, rfl, (begins_iff _ _).2 ⟨r, h7⟩⟩, h8⟩
  · rintro ⟨h2, h3, d, h4, h5⟩
    have : ∃ t, bs = 3 :: t ∧ decode3 t = some ⟨f, ids, maps, dflt, w⟩ := by
      rcases h5 with ⟨h5, h6, x, h7⟩ | ⟨n, es, h5, h6, h7, h8⟩
      · obtain ⟨t, rfl, h8⟩ := (begins_number 3 3 rfl _ _).1 h7
        obtain ⟨r, h9⟩ := (begins_iff _ _).1 h8
        exact ⟨t, rfl, (key t).2 ⟨h2, h3, d, h4, .inl ⟨h5, h6, x, r, h9⟩⟩⟩
      · obtain ⟨t, rfl, h9⟩ := (begins_number 3 3 rfl _ _).1 h7
        obtain ⟨r, h10⟩ := (begins_iff _ _).1 h9
        exact ⟨t, rfl, (key t).2 ⟨h2, h3, d, h4, .inr ⟨n, es, h5, h6, ⟨r, h10⟩, h8⟩⟩⟩
    obtain ⟨t, rfl, h⟩ := this
    exact ⟨ctx.enter, by rw [dp03, h]; rfl⟩

end Grf.Acts
