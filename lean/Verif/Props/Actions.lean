import Verif.Proofs.Actions
/-!
# C12, C13, C14, C19: sprite sets, sprite groups, graphics maps, random switches

Round trips are stated about `decodePseudo`, the function the decompiler calls for every pseudo sprite, in any context.
-/
namespace Grf.Acts
open PropC

/-! ### C12 -/

/-- **C12** Every header of at least one set (or with a first set) is read back: feature, counts and first set, and the context expects
the right number of real sprites. A first set left out comes back as `some 0` when more than 255 sets force the extended form. -/
theorem sprite_sets_read (T : Nat → List (String × VarData)) (ctx : PCtx) (a : Sets) (bs : Bytes) (hf : a.feature ≤ 0x14)
    (hn : a.setCount ≠ 0 ∨ a.firstSet ≠ none) (h : a.getData = some bs) :
    decodePseudo T ctx bs = some (some (.sets { a with firstSet := if a.setCount ≤ 255 then a.firstSet else some (a.firstSet.getD 0) }),
      ⟨.graphics, a.setCount * a.spriteCount⟩) := by
  obtain ⟨f, n, k, first⟩ := a
  simp only at hf hn
  unfold Sets.getData at h
  split at h
  · next hb =>
    simp only at hb
    obtain ⟨hb1, rfl⟩ := hb
    simp only [cat_cons_iff, cat_nil_iff] at h
    obtain ⟨a1, h1, _, ⟨a2, h2, _, ⟨a3, h3, _, ⟨a4, h4, _, ⟨a5, h5, _, rfl, rfl⟩, rfl⟩, rfl⟩, rfl⟩, rfl⟩ := h
    rw [pk' 1 (by decide) h1, pk' 0xff (by decide) h4]
    have hn0 : n ≠ 0 := by simpa using hn
    rw [List.singleton_append, decodePseudo_cons _ _ _ _ (by decide) (by decide)]
    have hd : decode1 (a2 ++ (a3 ++ ([0xff] ++ (a5 ++ [])))) = some (⟨f, n, k, none⟩, n * k) := by
      simp only [decode1, readU_packU h2, readU_packU h3, feature_ok hf, if_neg hn0, List.singleton_append, readExt_ff h5,
        Option.bind_eq_bind, Option.bind_some]
    simp only [decodeAction, hd]
    simp [hb1]
  · next hb =>
    simp only [cat_cons_iff, cat_nil_iff] at h
    obtain ⟨a1, h1, _, ⟨a2, h2, _, ⟨a3, h3, _, ⟨a4, h4, _, ⟨a5, h5, _, ⟨a6, h6, _, ⟨a7, h7, _, ⟨a8, h8, _, ⟨a9, h9, _, rfl, rfl⟩, rfl⟩,
      rfl⟩, rfl⟩, rfl⟩, rfl⟩, rfl⟩, rfl⟩, rfl⟩ := h
    rw [pk' 1 (by decide) h1, pk' 0 (by decide) h3, pk' 0xff (by decide) h4, pk' 0xff (by decide) h6, pk' 0xff (by decide) h8]
    rw [List.singleton_append, decodePseudo_cons _ _ _ _ (by decide) (by decide)]
    have hfirst : some (first.getD 0) = if n ≤ 255 then first else some (first.getD 0) := by
      cases first with
      | none => simp at hb; rw [if_neg (by omega)]
      | some x => simp
    have hd : decode1 (a2 ++ ([0] ++ ([0xff] ++ (a5 ++ ([0xff] ++ (a7 ++ ([0xff] ++ (a9 ++ [])))))))) =
        some (⟨f, n, k, some (first.getD 0)⟩, n * k) := by
      simp only [decode1, readU_packU h2, feature_ok hf, List.singleton_append, readU_one, readExt_ff h5, readExt_ff h7, readExt_ff h9,
        Option.bind_eq_bind, Option.bind_some, show ((UInt8.toNat 0 : Nat) : Int) = 0 from rfl, if_true]
    simp only [decodeAction, hd, ← hfirst]
    simp

/-- Different headers have different bytes (a first set left out meaning 0). -/
theorem sprite_sets_injective_partial (a b : Sets) (bs : Bytes) (ha : a.feature ≤ 0x14) (hb : b.feature ≤ 0x14)
    (hna : a.setCount ≠ 0 ∨ a.firstSet ≠ none) (hnb : b.setCount ≠ 0 ∨ b.firstSet ≠ none)
    (h1 : a.getData = some bs) (h2 : b.getData = some bs) :
    a.feature = b.feature ∧ a.setCount = b.setCount ∧ a.spriteCount = b.spriteCount ∧ a.firstSet.getD 0 = b.firstSet.getD 0 := by
  have e1 := sprite_sets_read (fun _ => []) {} a bs ha hna h1
  have e2 := sprite_sets_read (fun _ => []) {} b bs hb hnb h2
  rw [e1] at e2
  simp only [Option.some.injEq, Prod.mk.injEq, Decoded.sets.injEq, Sets.mk.injEq] at e2
  obtain ⟨⟨q1, q2, q3, q4⟩, _⟩ := e2
  refine ⟨q1, q2, q3, ?_⟩
  rw [q2] at q4
  split at q4
  · rw [q4]
  · simpa using q4

/-- The case left out: a header of no sets in the short form is taken for the start of an extended header and reading it fails,
whatever the other fields. -/
theorem no_sets_unreadable (T : Nat → List (String × VarData)) (ctx : PCtx) (a : Sets) (bs : Bytes) (hf : a.feature ≤ 0x14)
    (h0 : a.setCount = 0) (h1 : a.firstSet = none) (h : a.getData = some bs) : decodePseudo T ctx bs = none := by
  obtain ⟨f, n, k, first⟩ := a
  simp only at hf h0 h1
  subst h0 h1
  simp only [Sets.getData, show (0:Int) ≤ 255 by decide, and_self, if_true, cat_cons_iff, cat_nil_iff] at h
  obtain ⟨a1, h1, _, ⟨a2, h2, _, ⟨a3, h3, _, ⟨a4, h4, _, ⟨a5, h5, _, rfl, rfl⟩, rfl⟩, rfl⟩, rfl⟩, rfl⟩ := h
  rw [pk' 1 (by decide) h1, pk' 0xff (by decide) h4, pk' 0 (by decide) h3]
  rw [List.singleton_append, decodePseudo_cons _ _ _ _ (by decide) (by decide)]
  have hx := readExt_ff h5 []
  simp only [List.append_nil] at hx
  have hd : decode1 (a2 ++ ([0] ++ ([0xff] ++ (a5 ++ [])))) = none := by
    simp only [decode1, readU_packU h2, feature_ok hf, List.singleton_append, readU_one, readExt_ff h5,
        Option.bind_eq_bind, Option.bind_some, show ((UInt8.toNat 0 : Nat) : Int) = 0 from rfl, if_true]
    simp [readExt]
  simp only [decodeAction, hd]
  simp

example : (Sets.mk 4 300 2 none).getData = some [1, 4, 0, 255, 0, 0, 255, 0x2c, 1, 255, 2, 0] := by decide +kernel
example : (Sets.mk 0 3 8 none).getData = some [1, 0, 3, 255, 8, 0] := by decide +kernel
example : (Sets.mk 0 0 8 none).getData = some [1, 0, 0, 255, 8, 0] := by decide +kernel

/-! ### C13 -/

/-- The type bytes of variational and random switches (NewGRF specification of Action 2). -/
def switchTypes : List Nat := [0x80, 0x81, 0x82, 0x83, 0x84, 0x85, 0x86, 0x89, 0x8a]

/-- **C13** A sprite group the constructor accepts is read back with the same id and the same two lists in order, whenever its number of loaded
sets is not the type byte of a switch. -/
theorem sprite_group_roundtrip_partial (T : Nat → List (String × VarData)) (ctx : PCtx) (g : Generic) (bs : Bytes) (hf : g.feature ≤ 0x14)
    (hacc : g.accepted = true) (hn : g.ent1.length ∉ switchTypes) (h : g.getData = some bs) :
    decodePseudo T ctx bs = some (some (.act2 (.generic g)), ctx.enter) := by
  obtain ⟨f, ref, e1, e2⟩ := g
  simp only [switchTypes, List.mem_cons, List.not_mem_nil, or_false, not_or] at hf hn
  simp only [Generic.getData, Option.bind_eq_bind, Option.bind_eq_some_iff, Option.some.injEq] at h
  obtain ⟨hd, hh, w1, hw1, w2, hw2, rfl⟩ := h
  simp only [cat_cons_iff, cat_nil_iff] at hh
  obtain ⟨a1, h1, _, ⟨a2, h2, _, ⟨a3, h3, _, ⟨a4, h4, _, ⟨a5, h5, _, rfl, rfl⟩, rfl⟩, rfl⟩, rfl⟩, rfl⟩ := hh
  rw [pk' 2 (by decide) h1]
  simp only [Generic.accepted, Bool.and_eq_true, Bool.not_eq_true', List.contains_eq_mem, decide_eq_false_iff_not, List.mem_cons,
    List.not_mem_nil, or_false, not_or] at hacc
  obtain ⟨⟨⟨f7, f9, ff, f11, fa⟩, _⟩, _⟩ := hacc
  have r1 := readWords e1 w1 (w2 ++ []) hw1
  have r2 := readWords e2 w2 [] hw2
  rw [List.append_nil] at r1 r2
  simp only [List.nil_append, List.cons_append, List.append_assoc, List.append_nil]
  rw [dp02]
  simp only [decode2, readU_packU h2, readU_packU h3, readU_packU h4, readU_packU h5, feature_ok hf, Option.bind_eq_bind,
    Option.bind_some]
  rw [if_neg (by omega), if_neg (by omega), if_neg (by omega), if_neg (by omega), if_neg (by omega), if_neg (by omega)]
  simp [r1, r2]

/-- The other groups never come back: a number of loaded sets which is the type of a switch is taken for that type, so the result is a
switch or a random switch, or reading fails. -/
theorem large_group_misread (T : Nat → List (String × VarData)) (ctx : PCtx) (g : Generic) (bs : Bytes) (hf : g.feature ≤ 0x14)
    (hn : g.ent1.length ∈ switchTypes) (h : g.getData = some bs) (d : Decoded) (c : PCtx)
    (hd : decodePseudo T ctx bs = some (some d, c)) : (∃ r, d = .act2 (.random r)) ∨ ∃ w, d = .act2 (.switch w) := by
  obtain ⟨f, ref, e1, e2⟩ := g
  simp only [switchTypes, List.mem_cons, List.not_mem_nil, or_false] at hf hn
  simp only [Generic.getData, Option.bind_eq_bind, Option.bind_eq_some_iff, Option.some.injEq] at h
  obtain ⟨hd', hh, w1, hw1, w2, hw2, rfl⟩ := h
  simp only [cat_cons_iff, cat_nil_iff] at hh
  obtain ⟨a1, h1, _, ⟨a2, h2, _, ⟨a3, h3, _, ⟨a4, h4, _, ⟨a5, h5, _, rfl, rfl⟩, rfl⟩, rfl⟩, rfl⟩, rfl⟩ := hh
  rw [pk' 2 (by decide) h1] at hd
  simp only [List.nil_append, List.cons_append, List.append_assoc, List.append_nil] at hd
  rw [dp02] at hd
  simp only [decode2, readU_packU h2, readU_packU h3, readU_packU h4, feature_ok hf, Option.bind_eq_bind,
    Option.bind_some] at hd
  split at hd
  · right
    simp only [Option.map_eq_some_iff, Option.bind_eq_some_iff, Prod.mk.injEq, Option.some.injEq] at hd
    obtain ⟨_, ⟨w, _, rfl⟩, rfl, _⟩ := hd
    exact ⟨_, rfl⟩
  · left
    next hsw =>
    split at hd
    · simp only [Option.map_eq_some_iff, Prod.mk.injEq, Option.some.injEq] at hd
      obtain ⟨_, ⟨w, _, rfl⟩, rfl, _⟩ := hd
      exact ⟨_, rfl⟩
    · split at hd
      · simp only [Option.map_eq_some_iff, Prod.mk.injEq, Option.some.injEq] at hd
        obtain ⟨_, ⟨w, _, rfl⟩, rfl, _⟩ := hd
        exact ⟨_, rfl⟩
      · rw [if_pos (by omega)] at hd
        simp only [Option.map_eq_some_iff, Prod.mk.injEq, Option.some.injEq] at hd
        obtain ⟨_, ⟨w, _, rfl⟩, rfl, _⟩ := hd
        exact ⟨_, rfl⟩

/-- 200 loaded sets come back, 128 do not. -/
example : 200 ∉ switchTypes ∧ 128 ∈ switchTypes := by decide
example : (Generic.mk 0 7 [0, 1, 300] [2]).getData = some [2, 0, 7, 3, 1, 0, 0, 1, 0, 0x2c, 1, 2, 0] := by decide +kernel
example : (Generic.mk 0 7 [0, 1, 300] [2]).accepted = true := by decide
/-- The misread case happens: 128 sets. -/
example : (Generic.mk 0 7 (List.replicate 128 0) []).getData.isSome = true := by decide +kernel

/-! ### C14 -/

theorem readIds (ids : List Int) (e : Int → Option Bytes) (he : ∀ x ∈ ids, ∀ b, e x = some b → ∀ t, readExt (b ++ t) = some (x, t))
    (bs t : Bytes) (h : cat (ids.map e) = some bs) : readN readExt ids.length (bs ++ t) = some (ids, t) := by
  have := readN_cat (e := e) (r := readExt) (f := id) ids he bs h t
  simpa using this

theorem foldl_dictSet (es : List (Int × Target)) (m : List (Int × Target)) (hn : ((m ++ es).map (·.1)).Nodup) :
    (es.map (fun p => (p.1, getRefId p.2))).foldl (fun m e => dictSet m e.1 (.ref e.2)) m =
      m ++ es.map (fun p => (p.1, .ref (getRefId p.2))) := by
  induction es generalizing m with
  | nil => simp
  | cons e es ih =>
    have hnew : e.1 ∉ m.map (·.1) := by
      simp only [List.map_append, List.map_cons] at hn
      intro hm
      exact (List.nodup_append.mp hn).2.2 _ hm _ (by simp) rfl
    simp only [List.map_cons, List.foldl_cons, Sounds.dictSet_new hnew]
    rw [ih]
    · simp
    · simpa using hn

/-- **C14** For 1 to 127 ids (all short or some needing extended bytes) the ids, the (cargo, target) pairs in order and the default come
back; targets come back as the words written for them. `maps` is a dictionary: its keys are different. -/
theorem graphics_map_roundtrip_partial (T : Nat → List (String × VarData)) (ctx : PCtx) (a : GMap) (bs : Bytes) (hf : a.feature ≤ 0x14)
    (h1 : a.ids ≠ []) (h2 : a.ids.length < 128) (hk : (a.maps.map (·.1)).Nodup) (h : a.getData = some bs) :
    decodePseudo T ctx bs = some (some (.map ⟨a.feature, a.ids, a.maps.map (fun p => (p.1, .ref (getRefId p.2))),
      .ref (getRefId a.default), false⟩), ctx.enter) := by
  obtain ⟨f, ids, maps, dflt, wo⟩ := a
  simp only at hf h1 h2 hk
  unfold GMap.getData at h
  rw [if_neg h1] at h
  simp only [Option.bind_eq_bind, Option.bind_eq_some_iff, Option.some.injEq] at h
  obtain ⟨hd, hh, ib, hi, nb, hn, mb, hm, db, hdf, rfl⟩ := h
  simp only [cat_cons_iff, cat_nil_iff] at hh
  obtain ⟨a1, e1, _, ⟨a2, e2, _, ⟨a3, e3, _, rfl, rfl⟩, rfl⟩, rfl⟩ := hh
  rw [pk' 3 (by decide) e1]
  have hri : ∀ t, readN readExt ids.length (ib ++ t) = some (ids, t) := by
    intro t
    refine readIds ids _ ?_ ib t hi
    intro x hx b hb t
    split at hb
    · simp only [cat_cons_iff, cat_nil_iff] at hb
      obtain ⟨c1, k1, _, ⟨c2, k2, _, rfl, rfl⟩, rfl⟩ := hb
      rw [pk' 0xff (by decide) k1, List.append_nil]
      simpa using readExt_ff k2 t
    · next hs =>
      simp only [List.any_eq_true, decide_eq_true_eq, not_exists, not_and] at hs
      have := hs x hx
      exact readExt_small hb (by omega) t
  have hrm : ∀ t, readN readEntry maps.length (mb ++ t) = some (maps.map (fun p => (p.1, getRefId p.2)), t) := by
    intro t
    refine readN_cat (e := fun p : Int × Target => cat [packU 1 p.1, packU 2 (getRefId p.2)]) maps ?_ mb hm t
    intro p _ b hb t
    simp only [cat_cons_iff, cat_nil_iff] at hb
    obtain ⟨c1, k1, _, ⟨c2, k2, _, rfl, rfl⟩, rfl⟩ := hb
    simp [readEntry, readU_packU k1, readU_packU k2]
  have hlen : ids.length ≠ 0 := by simpa using h1
  simp only [List.nil_append, List.cons_append, List.append_assoc, List.append_nil]
  rw [dp03]
  have hmod : ids.length % 128 = ids.length := by omega
  have hz : ¬ ((ids.length : Int) = 0) := by omega
  have hdd : readU 2 db = some (getRefId dflt, []) := by simpa using readU_packU hdf []
  have hfold := foldl_dictSet maps [] (by simpa using hk)
  rw [List.nil_append] at hfold
  simp only [decode3, readU_packU e2, readU_packU e3, feature_ok hf, if_neg hz, hmod, hri, readU_packU hn, Int.toNat_natCast, hrm, hdd,
    Option.bind_eq_bind, Option.bind_some, hfold, Option.map_some]

/-- Two maps with the same bytes associate the same ids and the same words. -/
theorem graphics_map_injective_partial (a b : GMap) (bs : Bytes) (ha : a.feature ≤ 0x14) (hb : b.feature ≤ 0x14)
    (ha1 : a.ids ≠ []) (ha2 : a.ids.length < 128) (hak : (a.maps.map (·.1)).Nodup)
    (hb1 : b.ids ≠ []) (hb2 : b.ids.length < 128) (hbk : (b.maps.map (·.1)).Nodup)
    (h1 : a.getData = some bs) (h2 : b.getData = some bs) :
    a.feature = b.feature ∧ a.ids = b.ids ∧ a.maps.map (fun p => (p.1, getRefId p.2)) = b.maps.map (fun p => (p.1, getRefId p.2)) ∧
      getRefId a.default = getRefId b.default := by
  have e1 := graphics_map_roundtrip_partial (fun _ => []) {} a bs ha ha1 ha2 hak h1
  have e2 := graphics_map_roundtrip_partial (fun _ => []) {} b bs hb hb1 hb2 hbk h2
  rw [e1] at e2
  simp only [Option.some.injEq, Prod.mk.injEq, Decoded.map.injEq, GMap.mk.injEq, Target.ref.injEq, and_true] at e2
  obtain ⟨q1, q2, q3, q4⟩ := e2
  refine ⟨q1, q2, ?_, q4⟩
  have := congrArg (List.map fun p : Int × Target => (p.1, getRefId p.2)) q3
  simpa [Function.comp_def, getRefId] using this

/-- From 128 ids on, bit 7 of the count is taken for the wagon override: as many ids as remain are read, so the map never comes back. -/
theorem many_ids_misread (T : Nat → List (String × VarData)) (ctx : PCtx) (a : GMap) (bs : Bytes) (hf : a.feature ≤ 0x14)
    (h2 : 128 ≤ a.ids.length) (h : a.getData = some bs) (d : GMap) (c : PCtx) (hd : decodePseudo T ctx bs = some (some (.map d), c)) :
    d.ids.length + 128 = a.ids.length := by
  obtain ⟨f, ids, maps, dflt, wo⟩ := a
  simp only at hf h2
  unfold GMap.getData at h
  have h1 : ids ≠ [] := by intro e; subst e; simp at h2
  rw [if_neg h1] at h
  simp only [Option.bind_eq_bind, Option.bind_eq_some_iff, Option.some.injEq] at h
  obtain ⟨hdr, hh, ib, hi, nb, hn, mb, hm, db, hdf, rfl⟩ := h
  simp only [cat_cons_iff, cat_nil_iff] at hh
  obtain ⟨a1, e1, _, ⟨a2, e2, _, ⟨a3, e3, _, rfl, rfl⟩, rfl⟩, rfl⟩ := hh
  rw [pk' 3 (by decide) e1] at hd
  simp only [List.nil_append, List.cons_append, List.append_assoc, List.append_nil] at hd
  rw [dp03] at hd
  have hlt := (packU_some e3).2.1
  have hz : ¬ ((ids.length : Int) = 0) := by omega
  have hdec : ∃ g, decode3 (a2 ++ (a3 ++ (ib ++ (nb ++ (mb ++ db))))) = some g ∧ g = d := by
    simp at hd
    obtain ⟨g, hg, hx, _⟩ := hd
    exact ⟨g, hg, hx⟩
  obtain ⟨g, hg, rfl⟩ := hdec
  simp only [decode3, readU_packU e2, readU_packU e3, feature_ok hf, Option.bind_eq_bind, Option.bind_some, if_neg hz,
    Option.bind_eq_some_iff, Option.some.injEq] at hg
  obtain ⟨⟨l, b1⟩, hl, _, _, _, _, _, _, rfl⟩ := hg
  have := readN_length _ _ _ _ _ hl
  simp only [this]
  simp at hlt ⊢
  omega

/-- Without ids only a number is accepted as default, and it is written without the callback bit; a `Ref`, which is what the decompiler
prints, is refused. -/
theorem no_ids_reference_refused (a : GMap) (h : a.ids = []) (v : Int) (hd : a.default = .ref v) : a.getData = none := by
  unfold GMap.getData; simp [h, hd]

/-- The wagon override flag is not written: maps differing only in it have the same bytes. -/
theorem wagon_override_lost (a : GMap) (w : Bool) : { a with wagonOverride := w }.getData = a.getData := by
  unfold GMap.getData; rfl

example : (GMap.mk 0 [1, 300] [(0, .action 5), (255, .num 3)] (.ref 9) false).getData =
    some [3, 0, 2, 255, 1, 0, 255, 0x2c, 1, 2, 0, 5, 0, 255, 3, 0x80, 9, 0] := by decide +kernel
/-- 128 ids are accepted by the writer, and the reader takes the first id for the number of entries. -/
example : (GMap.mk 0 (List.replicate 128 0) [] (.ref 9) false).getData.isSome = true ∧
    ((GMap.mk 0 (List.replicate 128 0) [] (.ref 9) false).getData.bind fun b => (decode3 b.tail).map fun g => g.ids) = some [] := by
  decide +kernel

/-! ### C19 -/

theorem or80 (n : Nat) (h : n < 128) (b : Bool) : pyOr (n : Int) (if b then 0x80 else 0) = ((n + (if b then 128 else 0) : Nat) : Int) := by
  cases b with
  | false => simp [pyOr]
  | true =>
    simp only [if_true]
    show Int.ofNat (n ||| 128) = _
    have : n ||| 128 = n + 128 := by
      have h7 : 2 ^ 7 * 1 + n = 2 ^ 7 * 1 ||| n := Nat.two_pow_add_eq_or_of_lt (i := 7) (b := n) (by omega) 1
      rw [Nat.or_comm]; simp only [Nat.mul_one, show (2:Nat) ^ 7 = 128 from rfl] at h7; omega
    rw [this]; rfl

theorem and7f (n : Nat) (h : n < 128) (b : Bool) : pyAnd ((n + (if b then 128 else 0) : Nat) : Int) 0x7f = (n : Int) := by
  have := SpriteRef.and_mask 7 (n + (if b then 128 else 0))
  have e : ((2 ^ 7 - 1 : Nat) : Int) = 0x7f := by decide
  have : pyAnd ((n + (if b then 128 else 0) : Nat) : Int) 0x7f = (((n + (if b then 128 else 0)) % 2 ^ 7 : Nat) : Int) := this
  rw [this]
  split <;> omega

theorem and80 (n : Nat) (h : n < 128) (b : Bool) : (pyAnd ((n + (if b then 128 else 0) : Nat) : Int) 0x80 != 0) = b := by
  have : pyAnd ((n + (if b then 128 else 0) : Nat) : Int) 0x80 = (((n + (if b then 128 else 0)) &&& 128 : Nat) : Int) := rfl
  rw [this]
  have h2 : (n + (if b then 128 else 0)) &&& 128 = if b then 128 else 0 := by
    apply Nat.eq_of_testBit_eq
    intro i
    rw [Nat.testBit_and, show (128:Nat) = 2 ^ 7 from rfl, Nat.testBit_two_pow]
    by_cases hi : 7 = i
    · subst hi
      cases b
      · simp [Nat.testBit_lt_two_pow (x := n) (i := 7) (by omega)]
      · simp only [if_true]
        rw [Nat.add_comm, Nat.testBit_two_pow_add_eq, Nat.testBit_lt_two_pow (by omega)]
        rfl
    · cases b
      · simp [hi]
      · simp only [hi, decide_false, Bool.and_false, if_true]
        rw [Nat.testBit_two_pow]; simp [hi]
  rw [h2]
  cases b <;> rfl

/-- **C19** (self and parent scope) A random switch with triggers 0..0x7f is read back: feature, id, scope, triggers, compare mode,
lowest bit, no count, and the words of its groups in order. -/
theorem random_switch_roundtrip_partial (T : Nat → List (String × VarData)) (ctx : PCtx) (r : Random) (bs : Bytes) (hf : r.feature ≤ 0x14)
    (hacc : r.accepted = true) (hs : r.scope ≠ .relative) (ht : 0 ≤ r.triggers ∧ r.triggers < 128) (h : r.getData = some bs) :
    decodePseudo T ctx bs = some (some (.act2 (.random { r with groups := r.groups.map fun g => .ref (getRefId g) })), ctx.enter) := by
  obtain ⟨f, ref, sc, cnt, tr, ca, low, gs⟩ := r
  simp only at hf hs ht
  simp only [Random.accepted, if_neg (show ¬ (sc = Scope.relative ∧ vehicle f = true) from fun e => hs e.1), Option.isNone_iff_eq_none] at hacc
  subst hacc
  simp only [Random.getData, if_neg (show ¬ (sc = Scope.relative ∧ vehicle f = false) from fun e => hs e.1), Option.bind_eq_bind,
    Option.bind_eq_some_iff, Option.some.injEq] at h
  obtain ⟨hd, hh, c, rfl, m, hm, g, hg, rfl⟩ := h
  simp only [cat_cons_iff, cat_nil_iff] at hh hm
  obtain ⟨a1, h1, _, ⟨a2, h2, _, ⟨a3, h3, _, ⟨a4, h4, _, rfl, rfl⟩, rfl⟩, rfl⟩, rfl⟩ := hh
  obtain ⟨a5, h5, _, ⟨a6, h6, _, ⟨a7, h7, _, rfl, rfl⟩, rfl⟩, rfl⟩ := hm
  rw [pk' 2 (by decide) h1]
  have hg' : cat ((gs.map getRefId).map (packU 2)) = some g := by simpa [Function.comp_def] using hg
  have hr := readWords (gs.map getRefId) g [] hg'
  rw [List.length_map, List.append_nil] at hr
  obtain ⟨tn, rfl⟩ := Int.eq_ofNat_of_zero_le ht.1
  have htn : tn < 128 := by omega
  rw [or80 tn htn ca] at h5
  simp only [List.nil_append, List.cons_append, List.append_assoc, List.append_nil]
  rw [dp02]
  simp only [decode2, readU_packU h2, readU_packU h3, readU_packU h4, feature_ok hf, Option.bind_eq_bind, Option.bind_some]
  cases sc with
  | relative => exact absurd rfl hs
  | self =>
    rw [if_neg (by decide), if_pos (by decide)]
    simp only [readRandom, readU_packU h5, readU_packU h6, readU_packU h7, Option.bind_eq_bind, Option.bind_some, Int.toNat_natCast, hr,
      and7f tn htn, and80 tn htn]
    simp [Function.comp_def]
  | parent =>
    rw [if_neg (by decide), if_neg (by decide), if_pos (by decide)]
    simp only [readRandom, readU_packU h5, readU_packU h6, readU_packU h7, Option.bind_eq_bind, Option.bind_some, Int.toNat_natCast, hr,
      and7f tn htn, and80 tn htn]
    simp [Function.comp_def]

/-- A random switch of relative scope for a feature without vehicles cannot be written at all: the constructor insists on there being
no count and the writer wants one. -/
theorem relative_other_refused (r : Random) (hacc : r.accepted = true) (hs : r.scope = .relative) (hv : vehicle r.feature = false) :
    r.getData = none := by
  have hc : r.count = none := by simpa [Random.accepted, hs, hv] using hacc
  simp [Random.getData, hs, hv, hc]

/-- A random switch of relative scope for vehicles is written without its count and never read back as it was: reading it fails or gives
a different switch. -/
theorem relative_vehicle_never_returns (T : Nat → List (String × VarData)) (ctx : PCtx) (r : Random) (bs : Bytes) (hf : r.feature ≤ 0x14)
    (hs : r.scope = .relative) (hv : vehicle r.feature = true) (h : r.getData = some bs) (d : Random) (c : PCtx)
    (hd : decodePseudo T ctx bs = some (some (.act2 (.random d)), c)) : d.groups.length ≠ r.groups.length := by
  obtain ⟨f, ref, sc, cnt, tr, ca, low, gs⟩ := r
  simp only at hf hs hv
  subst hs
  simp only [Random.getData, hv, Option.bind_eq_bind, Bool.true_eq_false, and_false, if_false,
    Option.bind_eq_some_iff, Option.some.injEq] at h
  obtain ⟨hd', hh, c', rfl, m, hm, g, hg, rfl⟩ := h
  simp only [cat_cons_iff, cat_nil_iff] at hh hm
  obtain ⟨a1, h1, _, ⟨a2, h2, _, ⟨a3, h3, _, ⟨a4, h4, _, rfl, rfl⟩, rfl⟩, rfl⟩, rfl⟩ := hh
  obtain ⟨a5, h5, _, ⟨a6, h6, _, ⟨a7, h7, _, rfl, rfl⟩, rfl⟩, rfl⟩ := hm
  rw [pk' 2 (by decide) h1] at hd
  simp only [List.nil_append, List.cons_append, List.append_assoc, List.append_nil] at hd
  rw [dp02] at hd
  simp only [decode2, readU_packU h2, readU_packU h3, readU_packU h4, feature_ok hf, Option.bind_eq_bind, Option.bind_some] at hd
  rw [if_neg (by decide), if_neg (by decide), if_neg (by decide), if_pos (by decide)] at hd
  simp only [Option.map_eq_some_iff,
    Prod.mk.injEq, Option.some.injEq, Decoded.act2.injEq] at hd
  obtain ⟨_, ⟨d', hd, rfl⟩, hx, _⟩ := hd
  simp only [Act2.random.injEq] at hx
  subst hx
  simp only [readRandom, hv, and_self, if_true, readU_packU h5, readU_packU h6, readU_packU h7, Option.map_some, Option.bind_eq_bind,
    Option.bind_some, Option.bind_eq_some_iff, Option.some.injEq] at hd
  obtain ⟨⟨n, b1⟩, hn, ⟨l, b2⟩, hl, rfl⟩ := hd
  simp only [List.length_map] at *
  have hll := readN_length _ _ _ _ _ hl
  have hrest := readN_words_rest _ _ _ _ hl
  have hr1 := readU_rest hn
  have hglen : g.length = 2 * gs.length := by
    have hg' : cat ((gs.map getRefId).map (packU 2)) = some g := by simpa [Function.comp_def] using hg
    have := readN_words_rest _ _ _ _ (readWords (gs.map getRefId) g [] hg')
    simpa using this
  intro he
  omega

/-- Both cases occur. -/
example : (Random.mk 0 1 .relative (some 2) 1 true 3 [.ref 4, .ref 5]).accepted = true ∧
    (Random.mk 0 1 .relative (some 2) 1 true 3 [.ref 4, .ref 5]).getData = some [2, 0, 1, 0x84, 0x81, 3, 2, 4, 0, 5, 0] := by decide +kernel
example : (Random.mk 7 1 .relative none 1 true 3 [.ref 4]).accepted = true := by decide
example : (Random.mk 7 1 .parent none 1 true 3 [.ref 4, .action 5]).getData = some [2, 7, 1, 0x83, 0x81, 3, 2, 4, 0, 5, 0] := by
  decide +kernel
example : (Random.mk 7 1 .parent none 1 true 3 [.ref 4, .action 5]).accepted = true := by decide

end Grf.Acts
