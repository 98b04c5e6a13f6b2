import Verif.Model.Define
import Verif.Props.PropCodec
import Verif.Props.Sounds
/-!
# C08: definitions of items round trip through Action 0
-/
namespace Grf.PropC

/-- Writing looks properties up by name, reading by code: for every property of every feature they agree. -/
theorem code_name_agree (f : Nat) (n : String) (e : Entry) (h : byName f n = some e) :
    e.name = n ∧ e.code < 256 ∧ byCode f e.code = some e := by
  unfold byName at h
  simp only [Option.bind_eq_some_iff] at h
  obtain ⟨t, ht, hf⟩ := h
  have hn := List.find?_some hf
  have hm := List.mem_of_find?_eq_some hf
  simp only [beq_iff_eq] at hn
  have key : ∀ e ∈ t, e.code < 256 ∧ t.find? (fun x => x.code == e.code) = some e := by
    revert ht
    unfold table
    split <;> intro ht <;> simp only [Option.some.injEq, reduceCtorEq] at ht <;> subst ht <;> decide +kernel
  have := key e (by simpa using hm)
  refine ⟨hn, this.1, ?_⟩
  simp [byCode, ht, this.2]

theorem decodeProps_encode (feature count : Nat) : ∀ (ps : List (String × List PVal)) (acc : List (String × List PVal)) (bs t : Bytes),
    cat (ps.map (encodeProp feature count)) = some bs →
    ((acc ++ ps).map (·.1)).Nodup →
    (∀ p ∈ ps, ∀ e, byName feature p.1 = some e → ∀ v ∈ p.2.take count, e.fmt ≠ .B8 ∧ WellFormed e.fmt v) →
    decodeProps feature count ps.length acc (bs ++ t) = some (acc ++ ps.map fun p => (p.1, p.2.take count), t) := by
  intro ps
  induction ps with
  | nil =>
    intro acc bs t h _ _
    rw [cat_nil h]; simp [decodeProps]
  | cons p ps ih =>
    intro acc bs t h hn hw
    obtain ⟨a, b, ha, hb, rfl⟩ := cat_cons h
    obtain ⟨name, vals⟩ := p
    simp only [encodeProp, Option.bind_eq_bind, Option.bind_eq_some_iff] at ha
    obtain ⟨e, he, c, hc, ha⟩ := ha
    obtain ⟨hen, _, hcode⟩ := code_name_agree feature name e he
    split at ha
    · simp at ha
    · next hlen =>
      simp only [Option.bind_eq_some_iff, Option.some.injEq] at ha
      obtain ⟨body, hbody, rfl⟩ := ha
      have hwf := hw (name, vals) (by simp) e he
      have hc' : c.toNat = e.code := by have := byteOf_some hc; omega
      have hrd := readN_cat (e := encode e.fmt) (r := read e.fmt) (f := id) (vals.take count)
        (fun v hv bs hb t => property_value_roundtrip_partial e.fmt v bs t hb (hwf v hv).1 (hwf v hv).2) body hbody (b ++ t)
      have hl : (vals.take count).length = count := by rw [List.length_take]; omega
      rw [hl] at hrd
      have hnew : name ∉ acc.map (·.1) := by
        simp only [List.map_append, List.map_cons] at hn
        have := (List.nodup_append.mp hn).2.2
        intro hm
        exact this name hm name (by simp) rfl
      have hset : dictSet acc e.name (vals.take count) = acc ++ [(name, vals.take count)] := by
        rw [hen]
        exact Sounds.dictSet_new hnew
      have hrec := ih (acc ++ [(name, vals.take count)]) b t hb (by simpa using hn) (fun q hq => hw q (by simp [hq]))
      simp only [List.length_cons, decodeProps, List.cons_append, readU_one, Option.bind_eq_bind, Option.bind_some, Int.toNat_natCast,
        hc', hcode, List.append_assoc, hrd, List.map_id, hset, hrec]
      simp

/-- **C08**: a definition the constructor accepts, whose properties are all readable and have well-formed values, is read back from
its bytes (also with anything after them) with the same feature, first id, count and, for each item, the same property values,
for any number of properties and items. `d.props` being a dictionary, its keys are different. Values beyond `count` are not written. -/
theorem define_roundtrip_partial (d : Def0) (bs t : Bytes) (hacc : d.accepted = true) (hd : (d.props.map (·.1)).Nodup)
    (hw : ∀ p ∈ d.props, ∀ e, byName d.feature p.1 = some e → ∀ v ∈ p.2.take d.count, e.fmt ≠ .B8 ∧ WellFormed e.fmt v)
    (h : d.getData = some bs) :
    ∃ r, bs = 0 :: r ∧ decode0 (r ++ t) = some { d with props := d.props.map fun p => (p.1, p.2.take d.count) } := by
  simp only [Def0.getData, Option.bind_eq_bind, Option.bind_eq_some_iff, Option.some.injEq] at h
  obtain ⟨hd', hh, body, hb, rfl⟩ := h
  obtain ⟨a0, r0, h0, k0, rfl⟩ := cat_cons hh
  obtain ⟨a1, r1, h1, k1, rfl⟩ := cat_cons k0
  obtain ⟨a2, r2, h2, k2, rfl⟩ := cat_cons k1
  obtain ⟨a3, r3, h3, k3, rfl⟩ := cat_cons k2
  obtain ⟨a4, r4, h4, k4, rfl⟩ := cat_cons k3
  obtain ⟨a5, r5, h5, k5, rfl⟩ := cat_cons k4
  rw [cat_nil k5]
  obtain ⟨x0, rfl, e0⟩ := packU_one_some h0
  have hx0 : x0 = 0 := by apply UInt8.toNat_inj.mp; show x0.toNat = 0; omega
  subst hx0
  refine ⟨a1 ++ (a2 ++ (a3 ++ (a4 ++ a5))) ++ body, by simp, ?_⟩
  obtain ⟨x4, rfl, e4⟩ := packU_one_some h4
  have hx4 : x4 = 255 := by apply UInt8.toNat_inj.mp; show x4.toNat = 255; omega
  subst hx4
  have hext : ∀ u, readExt (255 :: (a5 ++ u)) = some (d.firstId, u) := by
    intro u; simp [readExt, readU_packU h5]
  have hdec := decodeProps_encode d.feature d.count d.props [] body t hb (by simpa using hd) hw
  simp only [Def0.accepted, Bool.and_eq_true] at hacc
  have hfeat : ¬ 0x14 < d.feature := by
    have h1 := hacc.1
    intro hlt
    unfold table at h1
    split at h1 <;> first | omega | simp at h1
  have hnone : ¬ ((table d.feature).isNone = true) := by
    cases ht : table d.feature with
    | none => rw [ht] at hacc; simp at hacc
    | some _ => simp
  simp only [decode0, List.append_assoc, readU_packU h1, readU_packU h2, readU_packU h3, Option.bind_eq_bind, Option.bind_some,
    List.cons_append, List.nil_append, hext, Int.toNat_natCast, if_neg hfeat, hdec, hnone, Bool.false_eq_true, if_false]

/-- When every property has exactly `count` values, the whole definition comes back. -/
theorem define_roundtrip_exact_partial (d : Def0) (bs t : Bytes) (hacc : d.accepted = true) (hd : (d.props.map (·.1)).Nodup)
    (hw : ∀ p ∈ d.props, ∀ e, byName d.feature p.1 = some e → ∀ v ∈ p.2, e.fmt ≠ .B8 ∧ WellFormed e.fmt v)
    (hc : ∀ p ∈ d.props, p.2.length = d.count) (h : d.getData = some bs) :
    ∃ r, bs = 0 :: r ∧ decode0 (r ++ t) = some d := by
  obtain ⟨r, h1, h2⟩ := define_roundtrip_partial d bs t hacc hd
    (fun p hp e he => fun v hv => hw p hp e he v (List.mem_of_mem_take hv)) h
  refine ⟨r, h1, ?_⟩
  rw [h2]
  have : (d.props.map fun p => (p.1, p.2.take d.count)) = d.props := by
    conv => rhs; rw [← List.map_id d.props]
    apply List.map_congr_left
    intro p hp
    rw [← hc p hp, List.take_length]; rfl
  rw [this]

/-- A missing value is refused: with fewer than `count` values for some property nothing is written. -/
theorem missing_value_refused (d : Def0) (p : String × List PVal) (hp : p ∈ d.props) (h : p.2.length < d.count) :
    d.getData = none := by
  have hx : encodeProp d.feature d.count p = none := by
    simp only [encodeProp, h, if_true]
    cases byName d.feature p.1 with
    | none => rfl
    | some e => cases byteOf e.code <;> simp
  cases hg : d.getData with
  | none => rfl
  | some bs =>
    simp only [Def0.getData, Option.bind_eq_bind, Option.bind_eq_some_iff, Option.some.injEq] at hg
    obtain ⟨_, _, b, hb, _⟩ := hg
    have := (cat_iff (d.props.map (encodeProp d.feature d.count))).mp (by rw [hb, Option.isSome_some]) none
      (List.mem_map.mpr ⟨p, hp, hx⟩)
    simp at this

/-- A property that the decompiler shows under a name which stands for another property: industry property 0x12 is read under the
name of property 0x27, and writing the result is refused. -/
theorem industry_multiplier_not_recompilable : ∃ d, decode0 [10, 1, 1, 5, 0x12, 7] = some d ∧ d.accepted = true ∧ d.getData = none :=
  ⟨⟨10, 5, 1, [("produciton_multipliers", [.int 7])]⟩, by decide +kernel, by decide +kernel, by decide +kernel⟩

example : (Def0.mk 0 300 2 [("max_speed", [.int 100, .int 200]), ("climates_available", [.int 1, .int 3])]).getData =
    some [0, 0, 2, 2, 255, 0x2c, 1, 9, 100, 0, 200, 0, 6, 1, 3] := by decide +kernel
example : decode0 [0, 2, 2, 255, 0x2c, 1, 9, 100, 0, 200, 0, 6, 1, 3] =
    some (Def0.mk 0 300 2 [("max_speed", [.int 100, .int 200]), ("climates_available", [.int 1, .int 3])]) := by decide +kernel
example : (Def0.mk 0 300 2 [("max_speed", [.int 100, .int 200]), ("climates_available", [.int 1, .int 3])]).accepted = true := by
  decide +kernel

end Grf.PropC
