import Verif.Props.Dispatch
/-!
# All action kinds together: exact round trip and injectivity
-/
namespace Grf.Acts
open PropC

/-- The decoded action as an action of the user (no production callbacks, switches or layouts here, they have their own theorems). -/
def Decoded.action : Decoded → Option Action
  | .define d => some (.define d)
  | .sets a => some (.sets a)
  | .act2 (.generic g) => some (.generic g)
  | .act2 (.random r) => some (.random r)
  | .act2 _ => none
  | .map a => some (.map a)
  | .texts s => some (.texts s)
  | .newSprites a => some (.newSprites a)
  | .modify ps => some (.modify ps)
  | .cond a => some (.cond a)
  | .description a => some (.description a)
  | .oldSprites s => some (.oldSprites s)
  | .error e => some (.error e)
  | .comment d => some (.comment d)
  | .compute a => some (.compute a)
  | .label a => some (.label a)
  | .sounds n => some (.sounds n)
  | .importSound g n => some (.importSound g n)
  | .props l => some (.props (DV.props l))

/-- The field values of each kind for which everything comes back. -/
def Action.Exact : Action → Prop
  | .define d => d.accepted = true ∧ (d.props.map (·.1)).Nodup ∧ (∀ p ∈ d.props, p.2.length = d.count) ∧
      ∀ p ∈ d.props, ∀ e, byName d.feature p.1 = some e → ∀ v ∈ p.2, e.fmt ≠ .B8 ∧ WellFormed e.fmt v
  | .sets a => a.feature ≤ 0x14 ∧ (a.firstSet ≠ none ∨ (a.setCount ≠ 0 ∧ a.setCount ≤ 255))
  | .generic g => g.feature ≤ 0x14 ∧ g.accepted = true ∧ g.ent1.length ∉ switchTypes
  | .random r => r.feature ≤ 0x14 ∧ r.accepted = true ∧ r.scope ≠ .relative ∧ (0 ≤ r.triggers ∧ r.triggers < 128) ∧
      ∀ t ∈ r.groups, ∃ w, t = .ref w ∧ getRefId t = w
  | .map a => a.feature ≤ 0x14 ∧ a.ids ≠ [] ∧ a.ids.length < 128 ∧ (a.maps.map (·.1)).Nodup ∧ a.wagonOverride = false ∧
      (∀ p ∈ a.maps, ∃ w, p.2 = .ref w ∧ getRefId p.2 = w) ∧ ∃ w, a.default = .ref w ∧ getRefId a.default = w
  | .texts s => s.feature ≤ 0x14 ∧ s.accepted = true ∧ (0 ≤ s.lang ∧ s.lang < 0x80) ∧ s.strings ≠ [] ∧ ∀ x ∈ s.strings, (0 : UInt8) ∉ x
  | .newSprites a => 0 ≤ a.setType ∧ a.setType < 0x80
  | .modify ps => ∀ p ∈ ps, p.num ≠ 0xff
  | .cond a => ∃ (size : Nat) (v : Int), a.varsize = some (size : Int) ∧ a.value = .int v ∧ (2 ≤ a.condition ∨ size = 1) ∧
      0 ≤ v ∧ v < ((256 ^ size : Nat) : Int)
  | .description a => a.grfid.length = 4 ∧ (0 : UInt8) ∉ a.name
  | .oldSprites _ => True
  | .compute a => (0 ≤ a.operation ∧ a.operation ≤ 0x0c) ∧
      (if a.source1 = 0xff ∨ a.source2 = 0xff then ∃ n, a.value = .int n else a.value = .none)
  | .label _ => True
  | .sounds _ => True
  | .importSound g _ => g.length = 4
  | _ => False

/-- The context needed: imported sounds are only known inside a sound table. -/
def Action.context : Action → PCtx
  | .importSound _ _ => ⟨.sound, 1⟩
  | _ => {}

theorem map_refs {l : List Target} (h : ∀ t ∈ l, ∃ w, t = .ref w ∧ getRefId t = w) : l.map (fun g => Target.ref (getRefId g)) = l := by
  conv => rhs; rw [← List.map_id l]
  apply List.map_congr_left
  intro t ht
  obtain ⟨w, e1, e2⟩ := h t ht
  rw [e2, e1]; rfl

/-- **C16** (and C12 to C17, C19 together) Every exact action, of any of these kinds, is decoded to itself. -/
theorem exact_roundtrip (W : Tables) (T : Nat → List (String × VarData)) (a : Action) (bs : Bytes) (he : a.Exact) (h : a.getData W = some bs) :
    ∃ d c, decodePseudo T a.context bs = some (some d, c) ∧ d.action = some a := by
  cases a with
  | define d =>
    obtain ⟨h1, h2, h3, h4⟩ := he
    obtain ⟨r, rfl, hd⟩ := define_roundtrip_exact_partial d bs [] h1 h2 h4 h3 h
    rw [List.append_nil] at hd
    rw [dp00, hd]
    exact ⟨_, _, rfl, rfl⟩
  | sets d =>
    obtain ⟨h1, h2⟩ := he
    refine ⟨_, _, sprite_sets_read T _ d bs h1 (by rcases h2 with h2 | h2; exact .inr h2; exact .inl h2.1) h, ?_⟩
    obtain ⟨f, n, k, first⟩ := d
    simp only [Decoded.action, Option.some.injEq, Action.sets.injEq, Sets.mk.injEq, true_and]
    split
    · rfl
    · next hn =>
      rcases h2 with h2 | h2
      · cases first with
        | none => exact absurd rfl h2
        | some x => rfl
      · exact absurd h2.2 hn
  | generic d =>
    obtain ⟨h1, h2, h3⟩ := he
    exact ⟨_, _, sprite_group_roundtrip_partial T _ d bs h1 h2 h3 h, rfl⟩
  | random d =>
    obtain ⟨h1, h2, h3, h4, h5⟩ := he
    refine ⟨_, _, random_switch_roundtrip_partial T _ d bs h1 h2 h3 h4 h, ?_⟩
    rw [map_refs h5]; rfl
  | map d =>
    obtain ⟨h1, h2, h3, h4, h5, h6, w, h7, h8⟩ := he
    refine ⟨_, _, graphics_map_roundtrip_partial T _ d bs h1 h2 h3 h4 h, ?_⟩
    have : d.maps.map (fun p => (p.1, Target.ref (getRefId p.2))) = d.maps := by
      conv => rhs; rw [← List.map_id d.maps]
      apply List.map_congr_left
      intro p hp
      obtain ⟨w, e1, e2⟩ := h6 p hp
      rw [e2]
      show (p.1, Target.ref w) = p
      rw [← e1]
    rw [this, h8, ← h7, ← h5]; rfl
  | texts d =>
    obtain ⟨h1, h2, h3, h4, h5⟩ := he
    exact ⟨_, _, strings_roundtrip_partial T _ d bs h1 h2 h3 h4 h5 h, rfl⟩
  | newSprites d => exact ⟨_, _, replace_new_roundtrip_partial T _ d bs he h, rfl⟩
  | modify d => exact ⟨_, _, modify_roundtrip_partial T _ d bs he h, rfl⟩
  | cond d =>
    obtain ⟨size, v, h1, h2, h3, h4⟩ := he
    exact ⟨_, _, skip_fitting_roundtrip_partial T _ d bs size v h1 h2 h3 h4 h, rfl⟩
  | description d => exact ⟨_, _, description_roundtrip_partial T _ d bs he.1 he.2 h, rfl⟩
  | oldSprites d => exact ⟨_, _, replace_old_roundtrip T _ d bs h, rfl⟩
  | compute d => exact ⟨_, _, compute_roundtrip_partial T _ d bs he.1 he.2 h, rfl⟩
  | label d => exact ⟨_, _, label_roundtrip T _ d bs h, rfl⟩
  | sounds d => exact ⟨_, _, sounds_roundtrip T _ d bs h, rfl⟩
  | importSound g n => exact ⟨_, _, import_sound_roundtrip_partial T _ g n bs rfl he h, rfl⟩
  | glyphs d => exact he.elim
  | production d => exact he.elim
  | basic d => exact he.elim
  | layout d => exact he.elim
  | switch d => exact he.elim
  | error d => exact he.elim
  | comment d => exact he.elim
  | props d => exact he.elim

/-- **C16** Distinct field values, and distinct kinds, produce distinct bytes: two exact actions with the same bytes are equal. -/
theorem exact_injective (W : Tables) (a b : Action) (bs : Bytes) (ha : a.Exact) (hb : b.Exact) (h1 : a.getData W = some bs)
    (h2 : b.getData W = some bs) : a = b := by
  obtain ⟨d, c, e1, e2⟩ := exact_roundtrip W (fun _ => []) a bs ha h1
  obtain ⟨d', c', e1', e2'⟩ := exact_roundtrip W (fun _ => []) b bs hb h2
  have hctx : a.context = b.context := by
    have hm : ∀ x : Action, x.Exact → x.misnumbered = false := by
      intro x hx; cases x <;> first | rfl | exact hx.elim
    obtain ⟨r, hr⟩ := number_written W a bs (hm a ha) h1
    obtain ⟨s, hs⟩ := number_written W b bs (hm b hb) h2
    have hn : a.number = b.number := by rw [hr] at hs; exact (List.cons.inj hs).1
    have key : ∀ x : Action, x.context = if x.number = 0xfe then (⟨.sound, 1⟩ : PCtx) else {} := by
      intro x
      cases x with
      | cond y => cases hs : y.isStatic <;> simp [Action.context, Action.number, hs]
      | _ => rfl
    rw [key a, key b, hn]
  rw [hctx, e1'] at e1
  simp only [Option.some.injEq, Prod.mk.injEq] at e1
  rw [e1.1, e2] at e2'
  exact Option.some.inj e2'

/-- Concrete exact actions of several kinds. -/
example : Action.Exact (.newSprites ⟨4, 300, some 5⟩) := ⟨by decide, by decide⟩
example : Action.Exact (.cond ⟨true, 0x88, some 4, 3, .int 0x01020304, 7⟩) :=
  ⟨4, 0x01020304, rfl, rfl, .inl (by decide), by decide, by decide⟩
example : Action.Exact (.map ⟨0, [5, 300], [(255, .ref 3)], .ref 7, false⟩) :=
  ⟨by decide, by decide, by decide, by decide, rfl, by intro p hp; simp at hp; subst hp; exact ⟨3, rfl, rfl⟩, 7, rfl, rfl⟩
example : Action.Exact (.compute ⟨1, 3, true, 0xff, 2, .int 258⟩) := ⟨by decide, by simp⟩

end Grf.Acts
