import Verif.Model.VehicleNumbers
import Verif.Spec.VehicleNumbers
import Verif.Props.PropCodec
/-!
# C69: the numbers the vehicle classes compute, as the game understands them
-/
namespace Grf.Numbers
open PropC _root_.Spec

/-- The value of a named property of a feature as bytes of the file. -/
def valueBytes (f : Nat) (name : String) (v : Int) : Option Bytes := (byName f name).bind fun e => encode e.fmt (.int v)

/-- The property is written as one byte with the value `n`. -/
def WritesByte (f : Nat) (name : String) (v : Int) (n : Nat) : Prop :=
  n < 256 ∧ valueBytes f name v = some [UInt8.ofNat n]

theorem writesByte_iff (f : Nat) (name : String) (v : Int) (n : Nat) (h : (byName f name).map (·.fmt) = some .B) :
    WritesByte f name v n ↔ v = n ∧ n < 256 := by
  unfold WritesByte valueBytes
  cases hb : byName f name with
  | none => rw [hb] at h; cases h
  | some e =>
    rw [hb] at h
    simp only [Option.map_some, Option.some.injEq] at h
    simp only [Option.bind_some, h, encode]
    constructor
    · rintro ⟨hn, hv⟩
      obtain ⟨x, hx, rfl⟩ := packU_one_some hv
      simp only [List.cons.injEq, and_true] at hx
      subst hx
      rw [UInt8.toNat_ofNat']
      omega
    · rintro ⟨rfl, hn⟩
      refine ⟨hn, ?_⟩
      simp only [packU, Int.toNat_natCast]
      rw [if_pos (by omega)]
      simp [leBytes]

theorem written_iff (f : Nat) (name : String) (v : Int) (h : (byName f name).map (·.fmt) = some .B) :
    (valueBytes f name v).isSome = true ↔ 0 ≤ v ∧ v < 256 := by
  unfold valueBytes
  cases hb : byName f name with
  | none => rw [hb] at h; cases h
  | some e =>
    rw [hb] at h
    simp only [Option.map_some, Option.some.injEq] at h
    simp only [Option.bind_some, h, encode]
    exact packU_iff 1 v

/-! ## Road vehicles -/

/-- The speed the game gives a road vehicle written with `precise`, in units of half a km/h-ish. -/
def RoadSpeed (precise : Int) (speed : Nat) : Prop :=
  ∃ (a b : Nat) (c : Option Nat), WritesByte 1 "precise_max_speed" (rvProps precise).1 a ∧ WritesByte 1 "max_speed" (rvProps precise).2 b ∧
    rvCallback precise = c.map Int.ofNat ∧ speed = roadSpeed a b c

theorem speedValue_nat (p : Nat) : speedValue p = (((p + 2) / 4 : Nat) : Int) := by
  unfold speedValue
  rw [Int.fdiv_eq_ediv_of_nonneg _ (by decide)]
  omega

/-- **C69** The speed of every road vehicle: the properties can be written for every speed which is not negative, and the game takes this
speed from them. -/
theorem road_speed (precise : Int) (speed : Nat) :
    RoadSpeed precise speed ↔ 0 ≤ precise ∧ (speed : Int) =
      if precise ≤ 1 then precise else if precise = 1022 ∨ precise = 1023 then 1020 else 4 * ((precise + 2) / 4) := by
  have hb08 : (byName 1 "precise_max_speed").map (·.fmt) = some .B := by decide
  have hb15 : (byName 1 "max_speed").map (·.fmt) = some .B := by decide
  unfold RoadSpeed
  constructor
  · rintro ⟨a, b, c, ha, hb, hc, rfl⟩
    rw [writesByte_iff _ _ _ _ hb08] at ha
    rw [writesByte_iff _ _ _ _ hb15] at hb
    obtain ⟨ha, ha'⟩ := ha
    obtain ⟨hb, hb'⟩ := hb
    simp only [rvProps] at ha hb
    have h0 : 0 ≤ precise := by omega
    obtain ⟨p, rfl⟩ := Int.eq_ofNat_of_zero_le h0
    refine ⟨h0, ?_⟩
    rw [speedValue_nat] at hb
    cases c with
    | none =>
      simp only [rvCallback] at hc
      have hlt : p < 1024 := by
        apply Classical.byContradiction
        intro hn
        rw [if_pos (by omega)] at hc
        cases hc
      simp only [roadSpeed]
      grind
    | some c =>
      simp only [rvCallback, Option.map_some] at hc
      have hge : 1024 ≤ p := by
        apply Classical.byContradiction
        intro hn
        rw [if_neg (by omega)] at hc
        cases hc
      rw [if_pos (by omega), speedValue_nat] at hc
      simp only [Option.some.injEq, Int.ofNat_eq_natCast] at hc
      simp only [roadSpeed]
      grind
  · rintro ⟨h0, hs⟩
    obtain ⟨p, rfl⟩ := Int.eq_ofNat_of_zero_le h0
    refine ⟨min p 255, min ((p + 2) / 4) 255, if 1024 ≤ p then some ((p + 2) / 4) else none, ?_, ?_, ?_, ?_⟩
    · rw [writesByte_iff _ _ _ _ hb08]; simp only [rvProps]; omega
    · rw [writesByte_iff _ _ _ _ hb15]; simp only [rvProps, speedValue_nat]; omega
    · unfold rvCallback
      rw [speedValue_nat]
      by_cases h : 1024 ≤ p
      · rw [if_pos h, if_pos (by omega)]; rfl
      · rw [if_neg h, if_neg (by omega)]; rfl
    · by_cases h : 1024 ≤ p
      · simp only [if_pos h, roadSpeed]; grind
      · simp only [if_neg h, roadSpeed]; grind

/-- **C69** A road vehicle has exactly the speed asked for in half km/h-ish exactly if that is a multiple of four, or 1. -/
theorem road_speed_exact (precise : Nat) : RoadSpeed precise precise ↔ precise % 4 = 0 ∨ precise = 1 := by
  rw [road_speed]
  grind

/-- **C69** A speed given as a plain number (units of 2 km/h-ish) is the speed of the vehicle. -/
theorem road_plain_exact (speed : Nat) : RoadSpeed (rvPlain speed) (4 * speed) := by
  have := (road_speed_exact (4 * speed)).2 (by omega)
  have e : rvPlain speed = ((4 * speed : Nat) : Int) := by simp only [rvPlain]; omega
  rw [e]; exact this

/-- **C69** A speed given with `kmhish`: even speeds are exact, odd speeds are 1 km/h-ish too fast, except 511, which becomes 510. -/
theorem road_kmhish (speed game : Nat) :
    RoadSpeed (rvKmhish speed) game ↔ game = 2 * (if speed % 2 = 0 then speed else if speed = 511 then 510 else speed + 1) := by
  have e : rvKmhish speed = ((2 * speed : Nat) : Int) := by simp only [rvKmhish]; omega
  rw [e, road_speed]
  grind

/-- **C69** A speed given with `mph`: the speed is at most 1 below and 2.8 above the exact value in half km/h-ish (16/5 of a half km/h-ish
per mph). -/
theorem road_mph (speed game : Nat) (h : RoadSpeed (rvMph speed) game) :
    (16 * speed : Int) - 5 ≤ 5 * game ∧ (5 * game : Int) ≤ 16 * speed + 14 := by
  have e : rvMph speed = (((16 * speed + 4) / 5 : Nat) : Int) := by
    simp only [rvMph]
    rw [Int.fdiv_eq_ediv_of_nonneg _ (by decide)]
    omega
  rw [e, road_speed] at h
  grind

example : RoadSpeed (rvKmhish 100) 200 ∧ RoadSpeed (rvKmhish 101) 204 ∧ RoadSpeed (rvMph 60) 192 := by
  refine ⟨(road_kmhish 100 200).2 (by decide), (road_kmhish 101 204).2 (by decide), ?_⟩
  rw [road_speed]; decide

/-- **C69** The length of a road vehicle: accepted from 1 to 8, and together with the property `shorten_by` never; written as 8 minus the
length. -/
theorem road_length (length given r : Option Int) :
    rvShorten length given = some r ↔
      (length = none ∧ r = given) ∨ ∃ l, length = some l ∧ 1 ≤ l ∧ l ≤ 8 ∧ given = none ∧ r = some (8 - l) := by
  unfold rvShorten
  cases length with
  | none => simp [eq_comm]
  | some l =>
    cases given with
    | none => simp only [Option.isSome_none]; grind
    | some g => simp only [Option.isSome_some]; grind

/-! ## Ships -/

theorem checkSpeed_iff (t : List Nat) (s v : Int) : checkSpeed t s = some v ↔ 0 ≤ s ∧ ∃ n : Nat, t[s.toNat]? = some n ∧ v = n := by
  unfold checkSpeed
  by_cases h0 : s < 0
  · rw [if_pos h0]; simp; omega
  rw [if_neg h0]
  by_cases h1 : (t.length : Int) < s
  · rw [if_pos h1]
    simp only [reduceCtorEq, false_iff]
    rintro ⟨-, n, hn, -⟩
    obtain ⟨h, -⟩ := List.getElem?_eq_some_iff.1 hn
    omega
  rw [if_neg h1]
  simp only [Option.map_eq_some_iff, Int.ofNat_eq_natCast]
  grind

/-- **C69** `Ship.kmh`: accepted from 0 to 255; the value is twice the speed up to 171 km/h and two less than that above. -/
theorem ship_kmh (s v : Int) : shipKmh s = some v ↔ 0 ≤ s ∧ s < 256 ∧ v = if s ≤ 171 then 2 * s else 2 * s - 2 := by
  unfold shipKmh
  rw [checkSpeed_iff]
  have all : ∀ n < 256, shipKmhTable[n]? = some (if n ≤ 171 then 2 * n else 2 * n - 2) := by decide +kernel
  have len : shipKmhTable.length = 256 := by decide +kernel
  constructor
  · rintro ⟨h0, n, hn, rfl⟩
    obtain ⟨hl, -⟩ := List.getElem?_eq_some_iff.1 hn
    rw [len] at hl
    rw [all _ hl] at hn
    simp only [Option.some.injEq] at hn
    grind
  · rintro ⟨h0, h1, rfl⟩
    refine ⟨h0, _, all _ (by omega), ?_⟩
    grind

/-- **C69** `Ship.mph`: accepted from 0 to 255; the value is twice the speed rounded to the nearest km/h-ish (8/5 km/h-ish per mph). -/
theorem ship_mph (s v : Int) : shipMph s = some v ↔ 0 ≤ s ∧ s < 256 ∧ v = 2 * ((8 * s + 4) / 5) := by
  unfold shipMph
  rw [checkSpeed_iff]
  have all : ∀ n < 256, shipMphTable[n]? = some (2 * ((8 * n + 4) / 5)) := by decide +kernel
  have len : shipMphTable.length = 256 := by decide +kernel
  constructor
  · rintro ⟨h0, n, hn, rfl⟩
    obtain ⟨hl, -⟩ := List.getElem?_eq_some_iff.1 hn
    rw [len] at hl
    rw [all _ hl] at hn
    simp only [Option.some.injEq] at hn
    omega
  · rintro ⟨h0, h1, rfl⟩
    exact ⟨h0, _, all _ (by omega), by omega⟩

/-- **C69** Which of these speeds a ship can have: the property is one byte, so the file can be written exactly up to 127 km/h, 79 mph and
`kmhish` 511. -/
theorem ship_writable (s : Int) :
    ((∃ v, shipKmh s = some v ∧ (valueBytes 2 "max_speed" v).isSome = true) ↔ 0 ≤ s ∧ s ≤ 127) ∧
    ((∃ v, shipMph s = some v ∧ (valueBytes 2 "max_speed" v).isSome = true) ↔ 0 ≤ s ∧ s ≤ 79) ∧
    ((valueBytes 2 "max_speed" (shipKmhish s)).isSome = true ↔ 0 ≤ s ∧ s ≤ 511) := by
  have hb : (byName 2 "max_speed").map (·.fmt) = some .B := by decide
  simp only [written_iff _ _ _ hb, ship_kmh, ship_mph]
  refine ⟨⟨?_, ?_⟩, ⟨?_, ?_⟩, ?_⟩
  · rintro ⟨v, ⟨h0, h1, rfl⟩, h2, h3⟩; grind
  · rintro ⟨h0, h1⟩; exact ⟨_, ⟨h0, by omega, rfl⟩, by grind, by grind⟩
  · rintro ⟨v, ⟨h0, h1, rfl⟩, h2, h3⟩; omega
  · rintro ⟨h0, h1⟩; exact ⟨_, ⟨h0, by omega, rfl⟩, by omega, by omega⟩
  · unfold shipKmhish
    rw [Int.fdiv_eq_ediv_of_nonneg _ (by decide)]
    omega

/-- **C69** The two ways to give the speed of a ship in km/h-ish disagree: for every speed a ship can have, from 1 on, `kmh` gives at least
four times the value of `kmhish`, and the same speed only for 0. -/
theorem ship_kmhish_disagrees (s v : Int) (h : shipKmh s = some v) (hs : s ≤ 127) :
    4 * shipKmhish s ≤ v ∧ v ≤ 4 * shipKmhish s + 2 ∧ (v = shipKmhish s ↔ s = 0) := by
  rw [ship_kmh] at h
  unfold shipKmhish
  rw [Int.fdiv_eq_ediv_of_nonneg _ (by decide)]
  grind

example : shipKmh 60 = some 120 ∧ shipMph 30 = some 96 ∧ shipKmhish 60 = 30 := by decide +kernel

/-! ## Trains -/

/-- **C69** `Train.mph` rounds to the nearest km/h-ish, for every speed, and halves never occur. -/
theorem train_mph (s v : Int) : trainMph s = v ↔ 2 * (10 * v - 16 * s).natAbs < 10 := by
  unfold trainMph
  rw [Int.fdiv_eq_ediv_of_nonneg _ (by decide)]
  omega

/-- **C69** The weight of a train: writable exactly from 0 to 65535 tonnes, and the game puts it together again. -/
theorem train_weight (weight : Int) :
    ((∃ lo hi, WritesByte 0 "weight_low" (weightProps weight).1 lo ∧ WritesByte 0 "weight_high" (weightProps weight).2 hi) ↔
      0 ≤ weight ∧ weight < 65536) ∧
    ∀ lo hi, WritesByte 0 "weight_low" (weightProps weight).1 lo → WritesByte 0 "weight_high" (weightProps weight).2 hi →
      (trainWeight lo hi : Int) = weight := by
  have hl : (byName 0 "weight_low").map (·.fmt) = some .B := by decide
  have hh : (byName 0 "weight_high").map (·.fmt) = some .B := by decide
  simp only [writesByte_iff _ _ _ _ hl, writesByte_iff _ _ _ _ hh, weightProps, trainWeight]
  rw [Int.fdiv_eq_ediv_of_nonneg _ (by decide), Int.fmod_eq_emod_of_nonneg _ (by decide)]
  refine ⟨⟨?_, ?_⟩, ?_⟩
  · rintro ⟨lo, hi, ⟨h1, h2⟩, h3, h4⟩; omega
  · rintro ⟨h0, h1⟩
    exact ⟨(weight % 256).toNat, (weight / 256).toNat, by omega, by omega⟩
  · rintro lo hi ⟨h1, h2⟩ ⟨h3, h4⟩; omega

/-- **C69** The weight given to an articulated part never reaches the game: the part gets the weight of the train, whatever was given. -/
theorem part_weight (train given : Int) (lo hi : Nat) (p : Int × Int) (hp : partWeight train (some given) = some p)
    (hl : WritesByte 0 "weight_low" p.1 lo) (hh : WritesByte 0 "weight_high" p.2 hi) : (trainWeight lo hi : Int) = train := by
  simp only [partWeight, Option.map_some, Option.some.injEq] at hp
  subst hp
  exact (train_weight train).2 lo hi hl hh

/-- **C69** The visual effect: without wagon power, the four effects of the library and `DISABLE`, at every position, are what the game
reads. -/
theorem visual_effect (effect : Nat) (position : Nat) (he : effect ∈ [0x00, 0x10, 0x20, 0x30, 0x40]) (hp : position < 16) :
    WritesByte 0 "visual_effect_and_powered" (visualEffect effect position false) (effect + position) ∧
      effectOf (effect + position) = ⟨position, effect / 16 % 4, effect = 0x40, false⟩ := by
  rw [writesByte_iff _ _ _ _ (by decide)]
  have : ∀ p < 16, ∀ e ∈ [0x00, 0x10, 0x20, 0x30, 0x40], visualEffect (e : Nat) (p : Nat) false = ((e + p : Nat) : Int) ∧ e + p < 256 ∧
      effectOf (e + p) = ⟨p, e / 16 % 4, e = 0x40, false⟩ := by decide +kernel
  obtain ⟨h1, h2, h3⟩ := this position hp effect he
  exact ⟨⟨h1, h2⟩, h3⟩

/-- **C69** With wagon power, which is what the library does unless told otherwise, the effect and the position are lost: every one of them
is written as 7F, a disabled effect. -/
theorem visual_effect_lost (effect position : Nat) (he : effect < 128) (hp : position < 128) :
    WritesByte 0 "visual_effect_and_powered" (visualEffect effect position true) 0x7f ∧ (effectOf 0x7f).disabled = true := by
  rw [writesByte_iff _ _ _ _ (by decide)]
  refine ⟨⟨?_, by decide⟩, by decide⟩
  show ((effect ||| position ||| 127 : Nat) : Int) = 127
  have h1 : effect ||| position < 2 ^ 7 := Nat.or_lt_two_pow he hp
  have : (effect ||| position ||| 127) = 127 := by
    apply Nat.eq_of_testBit_eq
    intro i
    rw [Nat.testBit_or]
    by_cases hi : i < 7
    · have : ∀ i < 7, Nat.testBit 127 i = true := by decide
      rw [this i hi]; simp
    · have h2 : 2 ^ 7 ≤ 2 ^ i := Nat.pow_le_pow_right (by decide) (by omega)
      rw [Nat.testBit_lt_two_pow (by omega), Bool.false_or]
  rw [this]; rfl

example : visualEffect 0x10 3 false = 0x13 ∧ visualEffect 0x10 3 true = 0x7f := by decide

/-! ## Objects -/

/-- **C69** The size of an object: every size from 0 to 15 tiles in both directions is written as one byte, which the game reads as that
size, and it is the byte a `Define` with the pair itself writes. -/
theorem object_size (x y : Nat) (hx : x < 16) (hy : y < 16) :
    ∃ b : UInt8, valueBytes 15 "size" (objectSize x y) = some [b] ∧ objectTiles b.toNat = (x, y) ∧
      (byName 15 "size").bind (fun e => encode e.fmt (.pair x y)) = some [b] := by
  have hf : ∃ e, byName 15 "size" = some e ∧ e.fmt = .size := ⟨_, rfl, rfl⟩
  obtain ⟨e, he, hs⟩ := hf
  refine ⟨UInt8.ofNat (16 * y + x), ?_, ?_, ?_⟩
  · unfold valueBytes
    rw [he]
    simp only [Option.bind_some, hs, encode, objectSize]
    rw [or_nibbles x y hx]
    simp only [bytesOf, List.mapM_cons, List.mapM_nil, byteOf]
    rw [if_pos (by omega), Int.toNat_natCast]
    rfl
  · rw [UInt8.toNat_ofNat']
    simp only [objectTiles, Prod.mk.injEq]
    omega
  · rw [he]
    simp only [Option.bind_some, hs, encode]
    rw [or_nibbles x y hx]
    simp only [bytesOf, List.mapM_cons, List.mapM_nil, byteOf]
    rw [if_pos (by omega), Int.toNat_natCast]
    rfl

example : objectSize 2 3 = 0x32 := by decide

end Grf.Numbers
