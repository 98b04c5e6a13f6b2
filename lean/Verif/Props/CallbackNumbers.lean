import Verif.Props.CallbacksExact
/-!
# C42: handlers are registered under the numbers the game asks for
-/
namespace Grf.Callbacks

open Grf.PropC

/-! ### Tables -/

theorem no_rows {f : Nat} (h : 21 ≤ f) : cbRows f = [] ∧ Spec.callbackNumbers f = [] := by
  unfold cbRows Spec.callbackNumbers
  constructor <;> (split <;> first | omega | rfl)

theorem no_props {f : Nat} (h : 4 ≤ f) : propRows f = [] ∧ Spec.propertyNumbers f = [] := by
  unfold propRows Spec.propertyNumbers
  constructor <;> (split <;> first | omega | rfl)

/-- The manager knows exactly the documented callbacks, under their numbers. -/
theorem callback_numbers (f : Nat) (name : String) (n : Nat) :
    (∃ r ∈ cbRows f, r.name = name ∧ r.id = n) ↔ (name, n) ∈ Spec.callbackNumbers f := by
  have key0 : ∀ f < 21, ∀ l ∈ Spec.callbackNumbers f, ∃ r ∈ cbRows f, (r.name, r.id) = l := by decide +kernel
  have back0 : ∀ f < 21, ∀ r ∈ cbRows f, (r.name, r.id) ∈ Spec.callbackNumbers f := by decide +kernel
  have key : ∀ l ∈ Spec.callbackNumbers f, ∃ r ∈ cbRows f, (r.name, r.id) = l := by
    by_cases h : f < 21
    · exact key0 f h
    · rw [(no_rows (by omega)).2]; intro l hl; cases hl
  have back : ∀ r ∈ cbRows f, (r.name, r.id) ∈ Spec.callbackNumbers f := by
    by_cases h : f < 21
    · exact back0 f h
    · rw [(no_rows (by omega)).1]; intro l hl; cases hl
  constructor
  · rintro ⟨r, hr, rfl, rfl⟩; exact back r hr
  · intro h
    obtain ⟨r, hr, he⟩ := key _ h
    simp only [Prod.mk.injEq] at he
    exact ⟨r, hr, he.1, he.2⟩

/-- The manager knows exactly the documented properties of trains, road vehicles and ships, under their numbers. -/
theorem property_numbers (f : Nat) (hf : f ≠ 3) (name : String) (n : Nat) :
    (∃ r ∈ propRows f, r.name = name ∧ r.id = n) ↔ (name, n) ∈ Spec.propertyNumbers f := by
  have key0 : ∀ f < 3, ∀ l ∈ Spec.propertyNumbers f, ∃ r ∈ propRows f, (r.name, r.id) = l := by decide +kernel
  have back0 : ∀ f < 3, ∀ r ∈ propRows f, (r.name, r.id) ∈ Spec.propertyNumbers f := by decide +kernel
  have key : ∀ l ∈ Spec.propertyNumbers f, ∃ r ∈ propRows f, (r.name, r.id) = l := by
    by_cases h : f < 3
    · exact key0 f h
    · rw [(no_props (by omega)).2]; intro l hl; cases hl
  have back : ∀ r ∈ propRows f, (r.name, r.id) ∈ Spec.propertyNumbers f := by
    by_cases h : f < 3
    · exact back0 f h
    · rw [(no_props (by omega)).1]; intro l hl; cases hl
  constructor
  · rintro ⟨r, hr, rfl, rfl⟩; exact back r hr
  · intro h
    obtain ⟨r, hr, he⟩ := key _ h
    simp only [Prod.mk.injEq] at he
    exact ⟨r, hr, he.1, he.2⟩

/-- **C42 boundary** Of the eight documented properties of aircraft only the loading speed has its number: four have another one, and
`primary_cargo_capacity` and `cargo_age_period` are not known at all. -/
theorem aircraft_property_numbers (name : String) (n : Nat) :
    ((∃ r ∈ propRows 3, r.name = name ∧ r.id = n) ∧ (name, n) ∈ Spec.propertyNumbers 3 ↔ name = "loading_speed" ∧ n = 7) ∧
    ((∃ m, (name, m) ∈ Spec.propertyNumbers 3) ∧ (¬ ∃ r ∈ propRows 3, r.name = name) ↔
      name = "primary_cargo_capacity" ∨ name = "cargo_age_period") := by
  constructor
  · constructor
    · rintro ⟨⟨r, hr, rfl, rfl⟩, h2⟩
      have : ∀ r ∈ propRows 3, (r.name, r.id) ∈ Spec.propertyNumbers 3 → r.name = "loading_speed" ∧ r.id = 7 := by decide +kernel
      exact this r hr h2
    · rintro ⟨rfl, rfl⟩
      exact ⟨⟨_, List.mem_cons_self, rfl, rfl⟩, by decide +kernel⟩
  · constructor
    · rintro ⟨⟨m, h1⟩, h2⟩
      have : ∀ l ∈ Spec.propertyNumbers 3, (∃ r ∈ propRows 3, r.name = l.1) ∨ l.1 = "primary_cargo_capacity" ∨ l.1 = "cargo_age_period" := by
        decide +kernel
      rcases this _ h1 with h | h
      · exact absurd h h2
      · exact h
    · have : ∀ r ∈ propRows 3, r.name ≠ "primary_cargo_capacity" ∧ r.name ≠ "cargo_age_period" := by decide +kernel
      rintro (rfl | rfl)
      · exact ⟨⟨0xf, by decide +kernel⟩, fun ⟨r, hr, he⟩ => (this r hr).1 he⟩
      · exact ⟨⟨0x1c, by decide +kernel⟩, fun ⟨r, hr, he⟩ => (this r hr).2 he⟩

/-- The numbers of the properties are those of Action 0, for every property with a name Action 0 knows too, except for aircraft. -/
theorem property_numbers_action0 (f : Nat) (hf : f ≠ 3) (r : Row) (hr : r ∈ propRows f) (e : Entry) (he : byName f r.name = some e) :
    e.code = r.id := by
  have : ∀ f, f < 3 → ∀ r ∈ propRows f, ∀ e, byName f r.name = some e → e.code = r.id := by
    intro f hf
    have : ∀ r ∈ propRows f, ((byName f r.name).map (·.code)).getD r.id = r.id := by
      have : f = 0 ∨ f = 1 ∨ f = 2 := by omega
      rcases this with rfl | rfl | rfl <;> decide +kernel
    intro r hr e he
    have := this r hr
    rw [he] at this
    exact this
  by_cases h3 : f < 3
  · exact this f h3 r hr e he
  · rw [(no_props (by omega)).1] at hr; cases hr

/-! ### What the game gets -/

theorem registered_named {rows : List Row} (hk : (rows.map Row.id).Nodup) {r : Row} (hr : r ∈ rows) (get : Cls → Val → Option Handler)
    (user : List (String × Val)) : registered rows get user r.id = (user.lookup r.name).bind (get r.cls) := by
  unfold registered
  rw [find_of_mem hk hr]; rfl

/-- **C42** When the game asks for a documented callback (other than number 0) on the map, it gets the handler for the map the user
registered under its name, if there is one. -/
theorem asked_by_name (f : Nat) (graphics : Val) (properties : Option (List (String × Val))) (callbacks : List (String × Val)) (m : Mgr)
    (t : Tree) (maps : List (Nat × Tree))
    (hp : ((properties.getD []).map (·.1)).Nodup) (hc : (callbacks.map (·.1)).Nodup)
    (h : make f graphics properties callbacks = some m) (hmap : makeMap m = some (some (t, maps)))
    (name : String) (cb : Nat) (hn : (name, cb) ∈ Spec.callbackNumbers f) (h0 : cb ≠ 0) (v : Val) (hv : callbacks.lookup name = some v) :
    ∃ cls, ∀ info,
      (∀ x, onMap cls v = some x → t.eval cb info = x) ∧
      (∀ x, Spec.Buyable f → onPurchase cls v = some x → (inPurchaseList (t, maps)).eval cb info = x) ∧
      (∀ c, v = .cb c → c.cls = cls) := by
  obtain ⟨r, hr, rfl, rfl⟩ := (callback_numbers f name cb).2 hn
  refine ⟨r.cls, fun info => ⟨fun x hx => ?_, fun x hb hx => ?_, fun c hc' => ?_⟩⟩
  · rw [map_dispatch_exact f graphics properties callbacks m t maps hp hc h hmap]
    unfold mapAnswer forCallback
    rw [if_neg h0, registered_named (cbRows_ok f).1 hr, hv]
    simp [hx]
  · rw [purchase_dispatch_exact f graphics properties callbacks m t maps hp hc h hmap]
    have e : forCallback onPurchase f callbacks r.id = some x := by
      unfold forCallback
      rw [if_neg h0, registered_named (cbRows_ok f).1 hr, hv]; exact hx
    unfold purchaseAnswer
    rw [if_neg (Classical.not_not.2 hb), if_pos (.inl ⟨r.id, by rw [e]; rfl⟩), e]; rfl
  · have hm := make_spec f graphics properties callbacks m hp hc h
    have := hm.cbsOk r hr v hv
    rw [wrap_isSome, hc'] at this
    exact this

/-- **C42** When the game asks for a documented property of a train, road vehicle or ship (as the low byte of the property callback's
argument) in the purchase list, it gets the handler for the purchase list registered under the property's name; on the map the handler for
the map, if the two are told apart. -/
theorem property_asked_by_name (f : Nat) (hf : f ≠ 3) (graphics : Val) (properties : Option (List (String × Val)))
    (callbacks : List (String × Val)) (m : Mgr) (t : Tree) (maps : List (Nat × Tree))
    (hp : ((properties.getD []).map (·.1)).Nodup) (hc : (callbacks.map (·.1)).Nodup)
    (h : make f graphics properties callbacks = some m) (hmap : makeMap m = some (some (t, maps)))
    (name : String) (n : Nat) (hn : (name, n) ∈ Spec.propertyNumbers f) (v : Val) (hv : (properties.getD []).lookup name = some v) :
    ∃ cls, ∀ info, info % 256 = n →
      (∀ x, onMap cls v = some x → Separated f (properties.getD []) ∨ onPurchase cls v = none ∨ onPurchase cls v = some x →
        t.eval 0x36 info = x) ∧
      (∀ x, onPurchase cls v = some x → (inPurchaseList (t, maps)).eval 0x36 info = x) ∧
      (∀ c, v = .cb c → c.cls = cls) := by
  obtain ⟨r, hr, rfl, rfl⟩ := (property_numbers f hf name n).2 hn
  have hm := make_spec f graphics properties callbacks m hp hc h
  have hok := hm.propsOk r hr v hv
  have hreg := fun get => registered_named (propRows_ok f).1 hr get (properties.getD [])
  have hveh : f < 4 := by
    apply Classical.byContradiction
    intro hge
    rw [(no_props (by omega)).1] at hr; cases hr
  have hbuy : Spec.Buyable f := by
    have : f = 0 ∨ f = 1 ∨ f = 2 ∨ f = 3 := by omega
    rcases this with rfl | rfl | rfl | rfl <;> decide
  -- the property callback itself cannot be registered too
  have hno : ∀ x, (onMap r.cls v = some x ∨ onPurchase r.cls v = some x) →
      forCallback onMap f callbacks 0x36 = none ∧ forCallback onPurchase f callbacks 0x36 = none := by
    intro x hx
    have hnr := mt (refused_iff f graphics properties callbacks m hp hc h).2 (by rw [hmap]; simp)
    have hex : ∃ i, (registered (propRows f) onMap (properties.getD []) i).isSome ∨
        (registered (propRows f) onPurchase (properties.getD []) i).isSome := by
      refine ⟨r.id, ?_⟩
      rw [hreg, hreg, hv]
      rcases hx with hx | hx
      · left; simp [hx]
      · right; simp [hx]
    have hn2 : ¬ ((registered (cbRows f) onMap callbacks 0x36).isSome = true ∨ (registered (cbRows f) onPurchase callbacks 0x36).isSome = true) :=
      fun q => hnr (.inr ⟨hex, q⟩)
    unfold forCallback
    simp only [if_neg (show ¬ (0x36 = 0) by decide)]
    constructor
    · cases hh : registered (cbRows f) onMap callbacks 0x36 with
      | none => rfl
      | some y => exact absurd (.inl (by rw [hh]; rfl)) hn2
    · cases hh : registered (cbRows f) onPurchase callbacks 0x36 with
      | none => rfl
      | some y => exact absurd (.inr (by rw [hh]; rfl)) hn2
  refine ⟨r.cls, fun info hi => ⟨fun x hx hsep => ?_, fun x hx => ?_, fun c hc' => ?_⟩⟩
  · rw [map_dispatch_exact f graphics properties callbacks m t maps hp hc h hmap]
    unfold mapAnswer
    rw [(hno x (.inl hx)).1, if_pos rfl, hi]
    have e : forProperty onMap f (properties.getD []) r.id = some x := by
      have := (property_right_iff f (properties.getD []) r.id).2 (by
        rw [hreg, hreg, hv]
        simp only [Option.bind_some, hx]
        exact hsep)
      rw [this, hreg, hv]; exact hx
    rw [e]; rfl
  · rw [purchase_dispatch_exact f graphics properties callbacks m t maps hp hc h hmap]
    have e : forProperty onPurchase f (properties.getD []) r.id = some x :=
      property_purchase_right f _ _ x (by rw [hreg, hv]; exact hx)
    have hany : ∃ i, (forProperty onPurchase f (properties.getD []) i).isSome := ⟨r.id, by rw [e]; rfl⟩
    unfold purchaseAnswer
    rw [if_neg (Classical.not_not.2 hbuy), if_pos (.inr hany), (hno x (.inr hx)).2, if_pos ⟨rfl, hany⟩, hi, e]; rfl
  · rw [wrap_isSome, hc'] at hok
    exact hok

/-- **C42 boundary** An aircraft that is asked for its price answers with the handler registered for its speed, and asked for its
running costs or range it answers with the graphics, although all three are registered. -/
theorem aircraft_properties_mixed_up (g c s r d : Handler) : ∃ m t maps,
    make 3 (.raw (some g)) (some [("cost_factor", .raw (some c)), ("max_speed", .raw (some s)), ("running_cost_factor", .raw (some r)),
      ("range", .raw (some d))]) [] = some m ∧ makeMap m = some (some (t, maps)) ∧
    t.eval 0x36 0x0b = s ∧ t.eval 0x36 0x0c = g ∧ t.eval 0x36 0x0e = g ∧ t.eval 0x36 0x0f = r ∧ t.eval 0x36 0x1f = g := by
  refine ⟨⟨3, [(0, .graphics (some g) none)], [(0xa, mkDual (some c) none), (0xb, mkDual (some s) none), (0xf, mkDual (some r) none),
    (0x1d, mkDual (some d) none)]⟩, ?_⟩
  have e : makeSwitches [(0xa, mkDual (some c) none), (0xb, mkDual (some s) none), (0xf, mkDual (some r) none), (0x1d, mkDual (some d) none)] g =
      (some (.props [(0xa, c), (0xb, s), (0xf, r), (0x1d, d)] g), some (.props [(0xa, c), (0xb, s), (0xf, r), (0x1d, d)] g)) := by
    simp [makeSwitches, differs, mkDual, CB.isSet, CB.dflt, CB.purch, mergeDict, dictSet]
  have e2 : propertySwitches ⟨3, [(0, .graphics (some g) none)], [(0xa, mkDual (some c) none), (0xb, mkDual (some s) none),
      (0xf, mkDual (some r) none), (0x1d, mkDual (some d) none)]⟩ g =
      some (some (.props [(0xa, c), (0xb, s), (0xf, r), (0x1d, d)] g), some (.props [(0xa, c), (0xb, s), (0xf, r), (0x1d, d)] g)) := by
    rw [← e]; rfl
  refine ⟨.switch [(0x36, .props [(0xa, c), (0xb, s), (0xf, r), (0x1d, d)] g)] g,
    [(255, .switch [(0x36, .props [(0xa, c), (0xb, s), (0xf, r), (0x1d, d)] g)] g)], rfl, ?_, rfl, rfl, rfl, rfl, rfl⟩
  unfold makeMap makeSwitch
  simp only [List.lookup, beq_self_eq_true]
  have e3 : (CB.graphics (some g) none).dflt.getD (.int 0) = g := rfl
  rw [e3, e2]
  rfl

/-! ### Flags -/

/-- The bits of a callback's flag belong to no other callback of the feature, and it has one bit at most. -/
def OwnBit (f : Nat) (r : Row) : Prop :=
  r.flag = 0 ∨ ∃ i, r.flag = 2 ^ i ∧ ∀ s ∈ cbRows f, s.flag.testBit i = true → s = r

/-- Every callback with a flag has a bit of its own, except the callbacks of cargoes (the station rating has the number of the callback as its
flag, which includes the bit of the profit) and of road stops (the animation speed has the bits of the two callbacks before it). -/
theorem own_bit (f : Nat) (r : Row) (hr : r ∈ cbRows f) (h11 : f ≠ 11) (h20 : f ≠ 20) : OwnBit f r := by
  have : ∀ f ∈ (List.range 20), ∀ r ∈ cbRows f, (f == 11) = true ∨ r.flag = 0 ∨
      ((List.range 15).any fun i => r.flag == 2 ^ i && (cbRows f).all fun s => !s.flag.testBit i || s == r) = true := by decide +kernel
  have hlt : f < 21 := by
    apply Classical.byContradiction
    intro hge
    rw [(no_rows (by omega)).1] at hr; cases hr
  rcases this f (List.mem_range.2 (by omega)) r hr with h | h | h
  · exact absurd (by simpa using h) h11
  · exact .inl h
  · rw [List.any_eq_true] at h
    obtain ⟨i, -, h⟩ := h
    simp only [Bool.and_eq_true, beq_iff_eq, List.all_eq_true, Bool.or_eq_true, Bool.not_eq_true'] at h
    refine .inr ⟨i, h.1, fun s hs hb => ?_⟩
    rcases h.2 s hs with q | q
    · rw [q] at hb; cases hb
    · exact q

theorem two_pow_inj {i j : Nat} (h : 2 ^ i = 2 ^ j) : i = j := by
  have := Nat.pow_right_inj (a := 2) (by decide) (m := i) (n := j)
  exact this.1 h

/-- **C42** The bit of a callback is set in the flag properties exactly if the user had set it or the callback is registered. -/
theorem flag_iff_registered (f : Nat) (graphics : Val) (properties : Option (List (String × Val))) (callbacks : List (String × Val)) (m : Mgr)
    (hp : ((properties.getD []).map (·.1)).Nodup) (hc : (callbacks.map (·.1)).Nodup)
    (h : make f graphics properties callbacks = some m) (cb extra : Option Nat)
    (h11 : f ≠ 11) (h20 : f ≠ 20) (r : Row) (hr : r ∈ cbRows f) (i : Nat) (hi : r.flag = 2 ^ i) :
    (i < 8 → (((setFlagProps m cb extra).1.getD 0).testBit i = true ↔ (cb.getD 0).testBit i = true ∨ isRegistered f callbacks r)) ∧
    (8 ≤ i → (((setFlagProps m cb extra).2.getD 0).testBit (i - 8) = true ↔ (extra.getD 0).testBit (i - 8) = true ∨ isRegistered f callbacks r)) := by
  have hown : ∀ s ∈ cbRows f, s.flag.testBit i = true → s = r := by
    rcases own_bit f r hr h11 h20 with h | ⟨j, hj, hs⟩
    · rw [hi] at h; exact absurd h (by have := Nat.two_pow_pos i; omega)
    · have : i = j := two_pow_inj (hi.symm.trans hj)
      rw [this]; exact hs
  have hself : r.flag.testBit i = true := by rw [hi]; exact Nat.testBit_two_pow_self
  have hex : (∃ s ∈ cbRows f, isRegistered f callbacks s ∧ s.flag.testBit i = true) ↔ isRegistered f callbacks r := by
    constructor
    · rintro ⟨s, hs, h1, h2⟩
      rw [← hown s hs h2]; exact h1
    · exact fun h1 => ⟨r, hr, h1, hself⟩
  constructor
  · intro h8
    rw [(flags_exact f graphics properties callbacks m hp hc h cb extra i).1, hex]
    simp [h8]
  · intro h8
    rw [(flags_exact f graphics properties callbacks m hp hc h cb extra (i - 8)).2, Nat.sub_add_cancel h8, hex]

/-- **C42 boundary** Registering only the animation speed of a road stop announces the availability and the next frame callbacks instead of
it (bits 0 and 1). -/
theorem roadstop_anim_speed_flags (g x : Handler) : ∃ m, make 20 (.raw (some g)) none [("anim_speed", .raw (some x))] = some m ∧
    setFlagProps m none none = (some 3, none) ∧
    ¬ ∃ r ∈ cbRows 20, r.name ≠ "anim_speed" ∧ isRegistered 20 [("anim_speed", .raw (some x))] r := by
  refine ⟨_, rfl, by simp [setFlagProps, flagsOf, cbRows, CB.isSet, dictSet, construct], ?_⟩
  rintro ⟨r, hr, hn, h⟩
  simp only [cbRows, List.mem_cons, List.not_mem_nil, or_false] at hr
  rcases hr with rfl | rfl | rfl | rfl
  · rcases h with h | h <;> simp [registered, cbRows, List.lookup] at h
  · rcases h with h | h <;> simp [registered, cbRows, List.lookup] at h
  · rcases h with h | h <;> simp [registered, cbRows, List.lookup] at h
  · exact hn rfl

/-- Trains with the visual effect callback announce it; the same callback of road vehicles and ships is never announced. -/
theorem visual_effect_flag (x g : Handler) :
    (∃ m, make 0 (.raw (some g)) none [("visual_effect_and_powered", .raw (some x))] = some m ∧ setFlagProps m none none = (some 1, none)) ∧
    (∃ m, make 1 (.raw (some g)) none [("visual_effect", .raw (some x))] = some m ∧ setFlagProps m none none = (none, none)) ∧
    (∃ m, make 2 (.raw (some g)) none [("visual_effect", .raw (some x))] = some m ∧ setFlagProps m none none = (none, none)) :=
  ⟨⟨_, rfl, by simp [setFlagProps, flagsOf, cbRows, CB.isSet, dictSet, construct]⟩,
   ⟨_, rfl, by simp [setFlagProps, flagsOf, cbRows, CB.isSet, dictSet, construct]⟩,
   ⟨_, rfl, by simp [setFlagProps, flagsOf, cbRows, CB.isSet, dictSet, construct]⟩⟩

/-- The hypotheses of `property_asked_by_name` are met by a ship. -/
example : ∃ m t maps, make 2 (.raw (some (.int 1))) (some [("max_speed", .raw (some (.int 7)))]) [] = some m ∧
    makeMap m = some (some (t, maps)) ∧ ("max_speed", 0xb) ∈ Spec.propertyNumbers 2 ∧ t.eval 0x36 0x120b = .int 7 ∧
    (inPurchaseList (t, maps)).eval 0x36 0x0b = .int 7 :=
  ⟨_, _, _, rfl, rfl, by decide, rfl, rfl⟩

/-- The hypotheses of `asked_by_name` and `flag_iff_registered` are met by a house. -/
example : ∃ m t maps, make 7 (.raw (some (.int 1))) none [("cargo_type_accept", .raw (some (.int 7)))] = some m ∧
    makeMap m = some (some (t, maps)) ∧ ("cargo_type_accept", 0x2a) ∈ Spec.callbackNumbers 7 ∧ t.eval 0x2a 5 = .int 7 ∧
    setFlagProps m (some 4) none = (some 4, some 1) :=
  ⟨_, _, _, rfl, rfl, by decide, rfl, rfl⟩

end Grf.Callbacks
