import Verif.Props.RefsOwn
import Verif.Props.VehicleSprites
/-!
# C90: the purchase list shows the purchase sprite
-/
namespace Grf.VehicleSprites
open Spec

theorem plain_graphics {W : World} {liveries : Option (Nat × List (List Nat))}
    (h : ∀ a ls, liveries = some (a, ls) → ¬ IsAction W a ∧ ∀ l ∈ ls, ∀ x ∈ l, ¬ IsAction W x) : ∀ x ∈ graphics liveries, ¬ IsAction W x := by
  intro x hx
  cases liveries with
  | none => simp [graphics] at hx
  | some p =>
    obtain ⟨a, ls⟩ := p
    cases ls with
    | nil => simp [graphics] at hx
    | cons l ls =>
      obtain ⟨h1, h2⟩ := h a (l :: ls) rfl
      simp only [graphics] at hx
      rcases List.mem_cons.1 hx with rfl | hx
      · exact h1
      · obtain ⟨m, hm, hxm⟩ := List.mem_flatten.1 hx
        exact h2 m hm x hxm

/-- **C90** The purchase layout of a ship or road vehicle is added for the vehicle's map: nothing in between is an action. -/
theorem ship_purchase_added (W : World) (pre post names : List Nat) (set sprite layout definition M : Nat)
    (liveries : Option (Nat × List (List Nat))) (hnames : ∀ x ∈ names, ¬ IsAction W x) (hdef : ¬ IsAction W definition)
    (hliv : ∀ a ls, liveries = some (a, ls) → ¬ IsAction W a ∧ ∀ l ∈ ls, ∀ x ∈ l, ¬ IsAction W x)
    (hl : (W layout).referenceable = true ∧ (W layout).referencing = false) (hM : (W M).referencing = true)
    (hset : ∀ p ∈ pre ++ [set, sprite], ¬ Needs W p layout) (sprites : List Nat)
    (esp : sprites = pre ++ shipSprites (some (set, sprite, layout)) names definition liveries [M] ++ post)
    (hu : Unreferenced W sprites M)
    (huse : UsesFirst W sprites (pre ++ [set, sprite] ++ layout :: (names ++ [definition] ++ graphics liveries)) layout M) :
    AddedFor W sprites layout M := by
  refine ⟨⟨pre ++ [set, sprite], names ++ [definition] ++ graphics liveries, post, ?_, ?_, hset, huse⟩, hl.1, hl.2, hu, hM⟩
  · rw [esp]; simp [shipSprites, purchaseSprites]
  · intro x hx
    simp only [List.mem_append, List.mem_singleton] at hx
    rcases hx with (hx | rfl) | hx
    · exact hnames x hx
    · exact hdef
    · exact plain_graphics hliv x hx

/-- **C90** The same for a train, whose articulated parts come after the map. -/
theorem train_purchase_added (W : World) (pre post names : List Nat) (set sprite layout definition M : Nat)
    (head : Option (Nat × List (List Nat))) (parts : List Part) (hnames : ∀ x ∈ names, ¬ IsAction W x) (hdef : ¬ IsAction W definition)
    (hliv : ∀ a ls, head = some (a, ls) → ¬ IsAction W a ∧ ∀ l ∈ ls, ∀ x ∈ l, ¬ IsAction W x)
    (hl : (W layout).referenceable = true ∧ (W layout).referencing = false) (hM : (W M).referencing = true)
    (hset : ∀ p ∈ pre ++ [set, sprite], ¬ Needs W p layout) (sprites : List Nat)
    (esp : sprites = pre ++ trainSprites (some (set, sprite, layout)) head names definition [M] parts ++ post)
    (hu : Unreferenced W sprites M)
    (huse : UsesFirst W sprites (pre ++ [set, sprite] ++ layout :: (graphics head ++ names ++ [definition])) layout M) :
    AddedFor W sprites layout M := by
  refine ⟨⟨pre ++ [set, sprite], graphics head ++ names ++ [definition], parts.flatMap Part.sprites ++ post, ?_, ?_, hset, huse⟩,
    hl.1, hl.2, hu, hM⟩
  · rw [esp]; simp [trainSprites, purchaseSprites]
  · intro x hx
    simp only [List.mem_append, List.mem_singleton] at hx
    rcases hx with (hx | hx) | rfl
    · exact plain_graphics hliv x hx
    · exact hnames x hx
    · exact hdef

/-- **C90** The purchase list shows the purchase sprite: every action that refers to the purchase layout of a vehicle (its map, or the
switch over its purchase callbacks) selects this layout, which draws the purchase sprite, if in the whole file nothing refers to the added
actions but those each added for the next. -/
theorem purchase_shown (W : World) (limit : Nat) (pre rest : List Nat) (set sprite layout feature : Nat) (res : Resolved) (hac : Acyclic W)
    (hadd : AddedFine W (pre ++ purchaseSprites (some (set, sprite, layout)) ++ rest))
    (hauto : ∀ s ∈ pre ++ purchaseSprites (some (set, sprite, layout)) ++ rest, ∀ a, Needs W s a → (W a).refId = none)
    (h : resolveRefs W limit (pre ++ purchaseSprites (some (set, sprite, layout)) ++ rest) = some res)
    (kind : Nat → Kind) (hk : ∀ x, kind x ≠ .other → ¬ IsAction W x) (ha : kind set = .sets feature 0 1 1) (hsp : kind sprite = .sprite)
    (c : Nat) (hc : c ∈ res.out) (hr : Refers W c layout) :
    (∃ i, 1 ≤ i ∧ i ≤ 255 ∧ Selects W res c i layout) ∧ Draws kind res.out layout feature 0 [sprite] := by
  have hs := references_select W limit _ res hac hadd hauto h c layout hc hr
  refine ⟨hs, purchase_drawn W limit pre rest set sprite layout feature res hac h kind hk (.inr hr.2.2) ha hsp ?_⟩
  obtain ⟨i, _, _, l1, l2, l3, e, _⟩ := hs
  rw [e]; simp

/-! ### The hypotheses are met -/

theorem exShip_leafs : ∀ p ∈ exFile, p ≠ 4 → ∀ x, Needs exShip p x → x = p := by
  intro p hp hne x hn
  refine Needs.leaf ?_ hn
  have : ∀ p ∈ exFile, p ≠ 4 → (exShip p).referencing = false := by decide
  exact this p hp hne

theorem exShip_plain (x : Nat) (h : 5 ≤ x) : ¬ IsAction exShip x := by
  unfold IsAction
  rw [show exShip x = {} from worldOf_out (by show 5 ≤ x; omega)]
  simp

/-- The ship of C68, whose map takes the purchase layout itself: it is added for the map, and the file is of the kind of the theorem. -/
theorem exShip_fine : AddedFor exShip exFile 2 4 ∧ AddedFine exShip exFile := by
  have h : AddedFor exShip exFile 2 4 := by
    refine ship_purchase_added exShip [] [] [] 5 6 2 7 4 (some (8, exLiveries)) (by simp) (exShip_plain 7 (by omega)) ?_ ⟨rfl, rfl⟩ rfl ?_
      exFile (by simp [exFile]) exShip_unreferenced (.direct [.obj 3] rfl)
    · intro a ls e
      simp only [Option.some.injEq, Prod.mk.injEq] at e
      obtain ⟨rfl, rfl⟩ := e
      refine ⟨exShip_plain 8 (by omega), fun l hl x hx => exShip_plain x ?_⟩
      have : ∀ l ∈ exLiveries, ∀ x ∈ l, 5 ≤ x := by decide
      exact this l hl x hx
    · intro p hp hn
      have hm : p = 5 ∨ p = 6 := by simpa using hp
      have := exShip_leafs p (by rcases hm with rfl | rfl <;> decide) (by omega) 2 hn
      omega
  refine ⟨h, fun s hs ha => ?_⟩
  have key : ∀ s ∈ exFile, s = 2 ∨ s = 4 ∨ 5 ≤ s := by decide
  rcases key s hs with rfl | rfl | hge
  · exact .inr ⟨4, h⟩
  · exact .inl exShip_unreferenced
  · exact absurd ha (exShip_plain s hge)

example : ∃ res, resolveRefs exShip 100 exFile = some res ∧ (∃ i, 1 ≤ i ∧ i ≤ 255 ∧ Selects exShip res 4 i 2) ∧
    Draws exKind res.out 2 2 0 [6] := by
  cases h : resolveRefs exShip 100 exFile with
  | none => have := exShip_resolved; rw [h] at this; simp at this
  | some res =>
    have eo := exShip_resolved
    rw [h] at eo
    simp only [Option.map_some, Option.some.injEq] at eo
    have e : exFile = [] ++ purchaseSprites (some (5, 6, 2)) ++ ([7] ++ graphics (some (8, exLiveries)) ++ [4]) := by
      simp [exFile, shipSprites]
    refine ⟨res, rfl, purchase_shown exShip 100 [] ([7] ++ graphics (some (8, exLiveries)) ++ [4]) 5 6 2 2 res exShip_acyclic
      (e ▸ exShip_fine.2) ?_ (e ▸ h) exKind exKind_plain (by decide) (by decide) 4 (by rw [eo]; simp) (by decide)⟩
    intro s _ a _
    by_cases ha : a < 5
    · have : ∀ a < 5, (exShip a).refId = none := by decide
      exact this a ha
    · rw [show exShip a = {} from worldOf_out (by show 5 ≤ a; omega)]

/-- A vehicle with purchase callbacks: the map (4) refers to the switch over them (3), which falls back to the purchase layout (0) and has
the handler 1, using layout 2; the graphics are layout 5. -/
def exCallback : World := worldOf [leafAct, swAct [.obj 2], leafAct, swAct [.obj 1, .obj 0], mapAct [.obj 3, .obj 5], leafAct]

def exEdge (a b : Nat) : Bool := (a == 1 && b == 2) || (a == 3 && (b == 1 || b == 0)) || (a == 4 && (b == 3 || b == 5))

theorem exCallback_down (a b : Nat) (h : Refers exCallback a b) :
    (a = 1 ∧ b = 2) ∨ (a = 3 ∧ b ≤ 1) ∨ (a = 4 ∧ b = 3) ∨ (a = 4 ∧ b = 5) := by
  obtain ⟨h1, h2⟩ := refers_lt h
  have : ∀ a < 6, ∀ b < 6, Refers exCallback a b → exEdge a b = true := by decide
  have := this a h1 b h2 h
  simp [exEdge] at this
  omega

theorem exCallback_needs {a b : Nat} (h : Needs exCallback a b) : b = a ∨ (a = 1 ∧ b = 2) ∨ (a = 3 ∧ b < 3) ∨ (a = 4 ∧ b ≠ 4) := by
  induction h with
  | refl => exact .inl rfl
  | @step b c _ h1 ih =>
    have := exCallback_down _ _ h1
    omega

theorem exCallback_acyclic : Acyclic exCallback := by
  intro a b h1 h2
  have := exCallback_down _ _ h1
  have := exCallback_needs h2
  omega

/-- The layout of this vehicle is added for its map too: the purchase callbacks are met there for the first time. -/
example : AddedFor exCallback [0, 4] 0 4 := by
  have noraw : ∀ c rid, RefArg.ref false rid ∉ (exCallback c).refs := by
    intro c rid
    by_cases hc : c < 6
    · have : c = 0 ∨ c = 1 ∨ c = 2 ∨ c = 3 ∨ c = 4 ∨ c = 5 := by omega
      rcases this with rfl | rfl | rfl | rfl | rfl | rfl <;> simp [exCallback, worldOf, leafAct, swAct, mapAct]
    · rw [show exCallback c = {} from worldOf_out (by show 6 ≤ c; omega)]; simp
  refine ⟨⟨[], [], [], rfl, by simp, by simp, .default 3 [.obj 5] [.obj 1] rfl ?_ (by decide) rfl rfl rfl ?_⟩, rfl, rfl, ?_, rfl⟩
  · intro l1 r l2 e _
    have e : [RefArg.obj 3, .obj 5] = l1 ++ .obj r :: l2 := e
    refine ⟨?_, ?_⟩
    · intro p hp hn
      have hp : p = 0 := by simpa using hp
      have := exCallback_needs hn
      subst hp
      match l1, e with
      | [], e => simp at e; omega
      | [_], e => simp at e; omega
      | _ :: _ :: _, e => simp at e
    · intro q hq _ hn
      have := exCallback_needs hn
      match l1, e with
      | [], e => simp at hq
      | [_], e =>
        simp only [List.cons_append, List.nil_append, List.cons.injEq, RefArg.obj.injEq] at e
        rw [← e.1] at hq
        simp at hq
        omega
      | _ :: _ :: _, e => simp at e
  · intro l1 r l2 e _
    match l1, e with
    | [], e =>
      simp only [List.nil_append, List.cons.injEq, RefArg.obj.injEq] at e
      refine ⟨?_, by simp⟩
      intro p hp hn
      have hp : p = 0 := by simpa using hp
      have := exCallback_needs hn
      subst hp
      omega
    | _ :: _, e => simp at e
  · refine ⟨by simp, .inl rfl, ?_, ?_⟩
    · intro s _ c _ hr
      have := exCallback_down _ _ hr
      omega
    · rintro ⟨_, _, _, c, rid, -, -, -, hm, -⟩
      exact noraw c rid hm

set_option maxRecDepth 100000 in
/-- **C90** It is not always so: if the same handler (1) is given for two purchase callbacks, the layout it uses (2) gets the id of the
purchase layout (0) and stands between it and the switch (3), so the purchase list shows layout 2. -/
theorem shared_handler_hides_purchase :
    let W := worldOf [leafAct, swAct [.obj 2], leafAct, swAct [.obj 1, .obj 1, .obj 0], mapAct [.obj 3, .obj 5], leafAct]
    (resolveRefs W 100 [0, 4]).map (fun r => (r.out, r.refId 0, r.refId 2)) = some ([0, 2, 1, 3, 5, 4], some 253, some 253) := by rfl

set_option maxRecDepth 100000 in
/-- **C90** Nor if a purchase callback (1) uses the switch (2) that chooses the vehicle's graphics (3 and 4): layout 4 gets the id of the
purchase layout (0) and stands between it and the switch over the purchase callbacks (5). -/
theorem shared_graphics_hide_purchase :
    let W := worldOf [leafAct, swAct [.obj 2], swAct [.obj 3, .obj 4], leafAct, leafAct, swAct [.obj 1, .obj 0], mapAct [.obj 5, .obj 2]]
    (resolveRefs W 100 [0, 6]).map (fun r => (r.out, r.refId 0, r.refId 4)) = some ([0, 3, 4, 2, 1, 5, 6], some 253, some 253) := by rfl

end Grf.VehicleSprites
