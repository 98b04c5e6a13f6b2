import Verif.Model.Globals
import Verif.Props.ActionFormat
import Verif.Proofs.Refs1
/-!
# C80: global settings reach the game
-/
namespace Grf.Globals
open Acts (Compute enc enc_iff)
open PropC (Def0 Lab)

/-! ### What the game does -/

/-- The state of the game these actions change: the vertical offset of vehicles in depots (a signed number), the 32 flags, and which file's
engines replace which (source and target by their ids, as four bytes). -/
structure Game where
  offset : Int
  flags : Nat
  overrides : Bytes → Option Bytes

/-- A number of 32 bits taken as signed. -/
def signed32 (n : Nat) : Int := if n < 2147483648 then n else (n : Int) - 4294967296

/-- The value of a variable in an Action D: variable FF is the number at the end of the action. -/
def Game.value (g : Game) (data : Nat) (v : Nat) : Nat :=
  if v = 0xff then data else if v = 0x8e then (g.offset % 4294967296).toNat else if v = 0x9e then g.flags else 0

/-- The result of an operation of an Action D: 0 takes the first source, 8 is a bitwise or. (The others are not used here.) -/
def operate (op a b : Nat) : Option Nat := if op = 0 then some a else if op = 8 then some (a ||| b) else none

/-- A variable is given a value. -/
def Game.assign (g : Game) (v n : Nat) : Game :=
  if v = 0x8e then { g with offset := signed32 n } else if v = 0x9e then { g with flags := n } else g

/-- The game reads an Action D (target, operation, two sources, a number of four bytes), or an Action 0 that sets the replaced file of the global
settings (one property, number 11, one entry: id of the source and of the target); it ignores other actions here. -/
def Game.read (g : Game) : Bytes → Game
  | [0x0d, target, op, s1, s2, a, b, c, d] =>
    let data := a.toNat + 256 * b.toNat + 65536 * c.toNat + 16777216 * d.toNat
    match operate op.toNat (g.value data s1.toNat) (g.value data s2.toNat) with
    | some n => g.assign target.toNat n
    | none => g
  | [0x00, 0x08, 1, 1, 0xff, _, _, 0x11, a, b, c, d, a', b', c', d'] =>
    { g with overrides := fun s => if s = [a, b, c, d] then some [a', b', c', d'] else g.overrides s }
  | _ => g

/-! ### What the settings should do -/

/-- The id of a file as four bytes. -/
def idOf : Lab → Option Bytes
  | .bytes x => if x.length = 4 then some x else none
  | .int n => if 0 ≤ n ∧ n ≤ 4294967295 then
      some [UInt8.ofNat n.toNat, UInt8.ofNat (n.toNat / 256), UInt8.ofNat (n.toNat / 65536), UInt8.ofNat (n.toNat / 16777216)] else none

/-- The setting can be written: an offset is a number of 32 bits without sign, a flag is one of 32, ids are four bytes or a number. -/
def Setting.Ok (grfid : Bytes) : Setting → Prop
  | .depotOffset n => 0 ≤ n ∧ n ≤ 4294967295
  | .miscFlag n => 0 ≤ n ∧ n ≤ 31
  | .engineOverride t s => (idOf t).isSome ∧ (idOf (s.getD (.bytes grfid))).isSome

/-- The last offset among the settings. -/
def lastOffset : List Setting → Option Int
  | [] => none
  | .depotOffset n :: l => (lastOffset l).or (some n)
  | _ :: l => lastOffset l

/-- The target of the last override of a source; without a source given it is the file itself. -/
def lastTarget (grfid src : Bytes) : List Setting → Option Bytes
  | [] => none
  | .engineOverride t s :: l => (lastTarget grfid src l).or (if idOf (s.getD (.bytes grfid)) = some src then idOf t else none)
  | _ :: l => lastTarget grfid src l

/-! ### Proofs -/

theorem id_eq (l : Lab) : PropC.encodeLabel l = idOf l := by
  cases l with
  | bytes x => rfl
  | int n =>
    simp only [PropC.encodeLabel, idOf, packU]
    by_cases h : 0 ≤ n ∧ n ≤ 4294967295
    · rw [if_pos (by simp; omega), if_pos h]
      simp only [leBytes, Nat.div_div_eq_div_mul]
    · rw [if_neg (by simp; omega), if_neg h]

theorem id_length {l : Lab} {b : Bytes} (h : idOf l = some b) : ∃ p q r s, b = [p, q, r, s] := by
  cases l with
  | bytes x =>
    simp only [idOf] at h
    by_cases hl : x.length = 4
    · rw [if_pos hl] at h
      have hx : x = b := Option.some.inj h
      rw [hx] at hl
      match b, hl with
      | [p, q, r, s], _ => exact ⟨p, q, r, s, rfl⟩
    · rw [if_neg hl] at h; cases h
  | int n =>
    simp only [idOf] at h
    split at h
    · cases h; exact ⟨_, _, _, _, rfl⟩
    · cases h

/-- The bytes of an Action D with a number. -/
theorem compute_bytes (t op s1 : Nat) (v : Int) (bs : Bytes) (ht : t < 256) (hop : op < 128) (hs : s1 < 256) :
    (Compute.getData ⟨t, op, false, s1, 0xff, .int v⟩) = some bs ↔ (0 ≤ v ∧ v ≤ 4294967295) ∧
      bs = [0x0d, UInt8.ofNat t, UInt8.ofNat op, UInt8.ofNat s1, 0xff, UInt8.ofNat v.toNat, UInt8.ofNat (v.toNat / 256), UInt8.ofNat (v.toNat / 65536),
        UInt8.ofNat (v.toNat / 16777216)] := by
  rw [Acts.compute_format]
  have hf : Spec.computeFields ⟨t, op, false, s1, 0xff, .int v⟩ = [.B 13, .B t, .B op, .B s1, .B 255, .D v] := by
    simp [Spec.computeFields, Spec.flagged]
  rw [hf]
  unfold Spec.WrittenAs
  simp only [List.mem_cons, List.not_mem_nil, or_false, forall_eq_or_imp, forall_eq, Spec.Field.Fits, List.flatMap_cons, List.flatMap_nil,
    Spec.Field.bytes, List.cons_append, List.nil_append, Int.toNat_natCast]
  constructor
  · rintro ⟨-, ⟨-, -, -, -, -, h1, h2⟩, hb⟩; exact ⟨⟨h1, h2⟩, hb⟩
  · rintro ⟨⟨h1, h2⟩, hb⟩; refine ⟨by simp, ⟨by decide, by omega, by omega, by omega, by decide, h1, h2⟩, hb⟩

theorem depot_bytes (n : Int) (bs : Bytes) : (depotOffset n).getData = some bs ↔ (0 ≤ n ∧ n ≤ 4294967295) ∧
    bs = [0x0d, 0x8e, 0, 0xff, 0xff, UInt8.ofNat n.toNat, UInt8.ofNat (n.toNat / 256), UInt8.ofNat (n.toNat / 65536), UInt8.ofNat (n.toNat / 16777216)] :=
  compute_bytes 0x8e 0 0xff n bs (by decide) (by decide) (by decide)

theorem flag_bytes (n : Int) (bs : Bytes) : (miscFlag n).bind (·.getData) = some bs ↔ (0 ≤ n ∧ n ≤ 31) ∧
    bs = [0x0d, 0x9e, 8, 0x9e, 0xff, UInt8.ofNat (2 ^ n.toNat), UInt8.ofNat (2 ^ n.toNat / 256), UInt8.ofNat (2 ^ n.toNat / 65536),
      UInt8.ofNat (2 ^ n.toNat / 16777216)] := by
  unfold miscFlag
  by_cases h0 : n < 0
  · rw [if_pos h0]
    constructor
    · intro h; cases h
    · rintro ⟨h, -⟩; omega
  rw [if_neg h0, Option.bind_some]
  have hp : (2 : Int) ^ n.toNat = ((2 ^ n.toNat : Nat) : Int) := by simp
  have ht : ((2 : Int) ^ n.toNat).toNat = 2 ^ n.toNat := by rw [hp, Int.toNat_natCast]
  have := compute_bytes 0x9e 8 0x9e (2 ^ n.toNat) bs (by decide) (by decide) (by decide)
  refine Iff.trans this ?_
  rw [ht, hp]
  have hr : (0 ≤ ((2 ^ n.toNat : Nat) : Int) ∧ ((2 ^ n.toNat : Nat) : Int) ≤ 4294967295) ↔ (0 ≤ n ∧ n ≤ 31) := by
    by_cases h : n ≤ 31
    · have hlt : 2 ^ n.toNat < 2 ^ 32 := Nat.pow_lt_pow_right (by decide) (by omega)
      omega
    · have hge : 2 ^ 32 ≤ 2 ^ n.toNat := Nat.pow_le_pow_right (by decide) (by omega)
      omega
  rw [hr]
  rfl

theorem override_bytes (grfid : Bytes) (t : Lab) (s : Option Lab) (bs : Bytes) : (engineOverride grfid t s).getData = some bs ↔
    ∃ a b, idOf (s.getD (.bytes grfid)) = some a ∧ idOf t = some b ∧ bs = [0, 8, 1, 1, 0xff, 0, 0, 0x11] ++ (a ++ b) := by
  have hn : PropC.byName 8 "grfid_overrides" = some ⟨0x11, "grfid_overrides", .L2⟩ := by decide +kernel
  have he : PropC.encodeProp 8 1 ("grfid_overrides", [.labels [s.getD (.bytes grfid), t]]) =
      (cat [idOf (s.getD (.bytes grfid)), idOf t]).map (0x11 :: ·) := by
    unfold PropC.encodeProp
    rw [hn]
    simp only [Option.bind_eq_bind, Option.bind_some]
    rw [show byteOf ((17 : Nat) : Int) = some 0x11 by decide +kernel]
    simp only [Option.bind_some, List.length_singleton, Nat.lt_irrefl, if_false, List.take_succ_cons, List.take_zero, List.map_cons, List.map_nil,
      PropC.encode, List.length_cons, List.length_nil, if_true, id_eq]
    cases cat [idOf (s.getD (.bytes grfid)), idOf t] <;> simp [cat]
  unfold engineOverride Def0.getData
  simp only [List.map_cons, List.map_nil, he]
  rw [show cat [packU 1 0, packU 1 ((8 : Nat) : Int), packU 1 (([("grfid_overrides", [PropC.PVal.labels [s.getD (.bytes grfid), t]])].length : Nat) : Int),
    packU 1 ((1 : Nat) : Int), packU 1 255, packU 2 0] = some [0, 8, 1, 1, 0xff, 0, 0] from by
      rw [show ([("grfid_overrides", [PropC.PVal.labels [s.getD (.bytes grfid), t]])].length) = 1 from rfl]; decide +kernel]
  cases h1 : idOf (s.getD (.bytes grfid)) <;> cases h2 : idOf t <;> simp [cat, eq_comm]

/-- A setting can be written exactly if it is proper. -/
theorem written_iff (grfid : Bytes) (s : Setting) : (s.getData grfid).isSome ↔ s.Ok grfid := by
  rw [Option.isSome_iff_exists]
  cases s with
  | depotOffset n =>
    simp only [Setting.getData, depot_bytes, Setting.Ok]
    exact ⟨fun ⟨_, h, _⟩ => h, fun h => ⟨_, h, rfl⟩⟩
  | miscFlag n =>
    simp only [Setting.getData, flag_bytes, Setting.Ok]
    exact ⟨fun ⟨_, h, _⟩ => h, fun h => ⟨_, h, rfl⟩⟩
  | engineOverride t s =>
    simp only [Setting.getData, override_bytes, Setting.Ok, Option.isSome_iff_exists]
    constructor
    · rintro ⟨_, a, b, h1, h2, -⟩; exact ⟨⟨b, h2⟩, a, h1⟩
    · rintro ⟨⟨b, h2⟩, a, h1⟩; exact ⟨_, a, b, h1, h2, rfl⟩

theorem le_sum (n : Nat) (h : n ≤ 4294967295) : (UInt8.ofNat n).toNat + 256 * (UInt8.ofNat (n / 256)).toNat + 65536 * (UInt8.ofNat (n / 65536)).toNat +
    16777216 * (UInt8.ofNat (n / 16777216)).toNat = n := by
  simp only [UInt8.toNat_ofNat']
  omega

/-- What the game does with one setting. -/
def effect (grfid : Bytes) (g : Game) : Setting → Game
  | .depotOffset n => { g with offset := signed32 n.toNat }
  | .miscFlag n => { g with flags := g.flags ||| 2 ^ n.toNat }
  | .engineOverride t s => { g with overrides := fun src => if idOf (s.getD (.bytes grfid)) = some src then idOf t else g.overrides src }

theorem setting_read (grfid : Bytes) (s : Setting) (bs : Bytes) (h : s.getData grfid = some bs) (g : Game) : g.read bs = effect grfid g s := by
  unfold effect
  cases s with
  | depotOffset n =>
    simp only [Setting.getData, depot_bytes] at h
    obtain ⟨⟨h1, h2⟩, rfl⟩ := h
    have := le_sum n.toNat (by omega)
    simp only [Game.read, this]
    simp [operate, Game.value, Game.assign]
  | miscFlag n =>
    simp only [Setting.getData, flag_bytes] at h
    obtain ⟨⟨h1, h2⟩, rfl⟩ := h
    have hlt : 2 ^ n.toNat < 2 ^ 32 := Nat.pow_lt_pow_right (by decide) (by omega)
    have := le_sum (2 ^ n.toNat) (by omega)
    simp only [Game.read, this]
    simp [operate, Game.value, Game.assign]
  | engineOverride t s =>
    simp only [Setting.getData, override_bytes] at h
    obtain ⟨a, b, h1, h2, rfl⟩ := h
    obtain ⟨p, q, r, u, rfl⟩ := id_length h1
    obtain ⟨p', q', r', u', rfl⟩ := id_length h2
    simp only [List.cons_append, List.nil_append, Game.read, h1, h2, Option.some.injEq, eq_comm]

/-- **C80.** Settings can be written exactly if all are proper, and reading the actions in their order the game has the last offset (as a signed
number), the flags it had and those given, and for each file the last replacement given, all else as before. -/
theorem settings_work (grfid : Bytes) (ss : List Setting) :
    ((ss.mapM (Setting.getData grfid)).isSome ↔ ∀ s ∈ ss, s.Ok grfid) ∧
    ∀ bss, ss.mapM (Setting.getData grfid) = some bss → ∀ g : Game,
      (bss.foldl Game.read g).offset = ((lastOffset ss).map fun n => signed32 n.toNat).getD g.offset ∧
      (∀ i : Nat, (bss.foldl Game.read g).flags.testBit i = true ↔ g.flags.testBit i = true ∨ Setting.miscFlag i ∈ ss) ∧
      ∀ src, (bss.foldl Game.read g).overrides src = (lastTarget grfid src ss).or (g.overrides src) := by
  induction ss with
  | nil =>
    refine ⟨by simp, ?_⟩
    intro bss h g
    cases h
    simp [lastOffset, lastTarget]
  | cons s ss ih =>
    obtain ⟨ih1, ih2⟩ := ih
    constructor
    · rw [List.forall_mem_cons, ← written_iff, ← ih1, List.mapM_cons]
      cases s.getData grfid <;> cases ss.mapM (Setting.getData grfid) <;> simp
    · intro bss h g
      rw [List.mapM_cons] at h
      simp only [Option.bind_eq_bind, Option.bind_eq_some_iff] at h
      obtain ⟨b, hb, r, hr, hh⟩ := h
      cases hh
      have hok := (written_iff grfid s).mp (by rw [hb]; rfl)
      rw [List.foldl_cons, setting_read grfid s b hb]
      unfold effect
      cases s with
      | depotOffset n =>
        obtain ⟨a1, a2, a3⟩ := ih2 r hr { g with offset := signed32 n.toNat }
        refine ⟨?_, ?_, a3⟩
        · rw [a1]; simp only [lastOffset]; cases lastOffset ss <;> simp
        · intro i; rw [a2]; simp
      | miscFlag n =>
        obtain ⟨a1, a2, a3⟩ := ih2 r hr { g with flags := g.flags ||| 2 ^ n.toNat }
        refine ⟨?_, ?_, a3⟩
        · rw [a1]; simp only [lastOffset]
        · intro i
          obtain ⟨o1, o2⟩ := hok
          rw [a2]
          simp only [Nat.testBit_or, Nat.testBit_two_pow, Bool.or_eq_true, decide_eq_true_eq, List.mem_cons, Setting.miscFlag.injEq, or_assoc]
          have : n.toNat = i ↔ (i : Int) = n := by omega
          rw [this]
      | engineOverride t src =>
        obtain ⟨a1, a2, a3⟩ := ih2 r hr { g with overrides := fun x => if idOf (src.getD (.bytes grfid)) = some x then idOf t else g.overrides x }
        refine ⟨?_, ?_, ?_⟩
        · rw [a1]; simp only [lastOffset]
        · intro i; rw [a2]; simp
        · intro x
          rw [a3]
          simp only [lastTarget]
          cases lastTarget grfid x ss with
          | some v => simp
          | none =>
            simp only [Option.none_or]
            obtain ⟨o1, o2⟩ := hok
            obtain ⟨b', hb'⟩ := Option.isSome_iff_exists.mp o1
            split
            · rw [hb']; simp
            · simp

/-- **C80** (a boundary): the depot offset cannot be negative, although the game's is a signed number; the number 2^32 - n stands for -n. -/
theorem negative_offset (grfid : Bytes) (n : Int) (h : n < 0) (h2 : -2147483648 ≤ n) : (Setting.depotOffset n).getData grfid = none ∧
    ∀ g : Game, ∃ b, (Setting.depotOffset (4294967296 + n)).getData grfid = some b ∧ (g.read b).offset = n := by
  constructor
  · cases e : (Setting.depotOffset n).getData grfid with
    | none => rfl
    | some b =>
      have := (written_iff grfid (.depotOffset n)).mp (by rw [e]; rfl)
      simp only [Setting.Ok] at this
      omega
  · intro g
    have := (written_iff grfid (.depotOffset (4294967296 + n))).mpr (by simp only [Setting.Ok]; omega)
    obtain ⟨b, hb⟩ := Option.isSome_iff_exists.mp this
    refine ⟨b, hb, ?_⟩
    rw [setting_read grfid _ b hb]
    simp only [effect, signed32]
    rw [if_neg (by omega)]
    omega

/-- Settings of a file; the second override of the same source wins. -/
example : ∃ bss, [Setting.miscFlag 3, .depotOffset 4, .miscFlag 31, .engineOverride (.bytes [1, 2, 3, 4]) none, .engineOverride (.int 258) (some (.bytes [9, 9, 9, 9])),
      .engineOverride (.int 7) none].mapM (Setting.getData [5, 6, 7, 8]) = some bss ∧
    (bss.foldl Game.read ⟨0, 2, fun _ => none⟩).offset = 4 ∧ (bss.foldl Game.read ⟨0, 2, fun _ => none⟩).flags = 2147483658 ∧
    (bss.foldl Game.read ⟨0, 2, fun _ => none⟩).overrides [5, 6, 7, 8] = some [7, 0, 0, 0] ∧
    (bss.foldl Game.read ⟨0, 2, fun _ => none⟩).overrides [9, 9, 9, 9] = some [2, 1, 0, 0] := by
  refine ⟨[[0x0d, 0x9e, 8, 0x9e, 0xff, 8, 0, 0, 0], [0x0d, 0x8e, 0, 0xff, 0xff, 4, 0, 0, 0], [0x0d, 0x9e, 8, 0x9e, 0xff, 0, 0, 0, 0x80],
    [0, 8, 1, 1, 0xff, 0, 0, 0x11, 5, 6, 7, 8, 1, 2, 3, 4], [0, 8, 1, 1, 0xff, 0, 0, 0x11, 9, 9, 9, 9, 2, 1, 0, 0],
    [0, 8, 1, 1, 0xff, 0, 0, 0x11, 5, 6, 7, 8, 7, 0, 0, 0]], ?_, ?_, ?_, ?_, ?_⟩ <;> decide +kernel

end Grf.Globals
