import Verif.Props.SpriteSets
import Verif.Model.VehicleSprites
import Verif.Spec.SwitchSem
/-!
# C68: the liveries and purchase sprites of vehicles
-/
namespace Grf.VehicleSprites
open Grf _root_.Spec

theorem flatten_livery : ∀ (ls : List (List Nat)) (i : Nat) (l : List Nat), (∀ x ∈ ls, x.length = 8) → ls[i]? = some l →
    (ls.flatten.drop (i * 8)).take 8 = l := by
  intro ls
  induction ls with
  | nil => intro i l _ h; simp at h
  | cons x ls ih =>
    intro i l h8 h
    have hx := h8 x List.mem_cons_self
    cases i with
    | zero =>
      simp only [List.getElem?_cons_zero, Option.some.injEq] at h
      subst h
      rw [List.flatten_cons, Nat.zero_mul, List.drop_zero, List.take_left' hx]
    | succ i =>
      simp only [List.getElem?_cons_succ] at h
      have e : (i + 1) * 8 = x.length + i * 8 := by omega
      rw [List.flatten_cons, e, List.drop_length_add_append]
      exact ih i l (fun y hy => h8 y (List.mem_cons_of_mem _ hy)) h

theorem flatten_eight : ∀ (ls : List (List Nat)), (∀ x ∈ ls, x.length = 8) → ls.flatten.length = ls.length * 8 := by
  intro ls
  induction ls with
  | nil => intro _; rfl
  | cons x ls ih =>
    intro h
    rw [List.flatten_cons, List.length_append, ih (fun y hy => h y (List.mem_cons_of_mem _ hy)), h x List.mem_cons_self, List.length_cons]
    omega

theorem accepted_eight {ls : List (List Nat)} (h : liveriesAccepted ls = true) : ∀ x ∈ ls, x.length = 8 := by
  intro x hx
  have := List.all_eq_true.1 h x hx
  simpa using this

theorem graphics_some {action1 : Nat} {ls : List (List Nat)} (h : ls ≠ []) : graphics (some (action1, ls)) = action1 :: ls.flatten := by
  cases ls with
  | nil => exact absurd rfl h
  | cons l ls => rfl

theorem not_added_twice {W : World} {limit : Nat} {pre post : List Nat} {m : Nat} {res : Resolved} (hm : IsAction W m)
    (h : resolveRefs W limit (pre ++ m :: post) = some res) : m ∉ pre := by
  intro hp
  obtain ⟨a, b, e⟩ := List.append_of_mem hp
  have := added_twice_refused W limit a b post m hm
  rw [e] at h
  simp only [List.append_assoc, List.cons_append] at h this
  rw [this] at h; cases h

/-- The map added after the graphics sees the sets of these. -/
theorem map_sees (kind : Nat → Kind) (pre mid post : List Nat) (action1 m feature i : Nat) (ls : List (List Nat)) (l : List Nat)
    (hv : liveriesAccepted ls = true) (ha : kind action1 = .sets feature 0 ls.length 8)
    (hsp : ∀ x ∈ ls.flatten, kind x = .sprite) (hmid : ∀ x ∈ mid, kind x = .other)
    (hi : ls[i]? = some l) (hm : m ∉ pre ++ graphics (some (action1, ls)) ++ mid) :
    Draws kind (pre ++ graphics (some (action1, ls)) ++ mid ++ m :: post) m feature i l := by
  have hne : ls ≠ [] := by intro e; rw [e] at hi; simp at hi
  have hlt : i < ls.length := (List.getElem?_eq_some_iff.1 hi).1
  rw [graphics_some hne] at hm ⊢
  refine ⟨_, post, rfl, hm, pre, action1, ls.flatten, mid, 0, ls.length, 8, by simp, ha, by omega, by omega,
    flatten_eight ls (accepted_eight hv), hsp, ?_, ?_⟩
  · rintro y hy ⟨_, _, _, h, -⟩
    rw [hmid y hy] at h; cases h
  · rw [Nat.sub_zero]
    exact (flatten_livery ls i l (accepted_eight hv) hi).symm

/-- **C68** Road vehicles and ships: in the resolved file a layout used only by the vehicle's map, mentioning set `i`, draws the sprites
of livery `i` - whatever stands before and after the vehicle in the file, and whatever else the map refers to. -/
theorem ship_livery_drawn (W : World) (limit : Nat) (pre post names : List Nat) (purchase : Option (Nat × Nat × Nat))
    (definition action1 m feature : Nat) (ls : List (List Nat)) (res : Resolved) (hac : Acyclic W)
    (h : resolveRefs W limit (pre ++ shipSprites purchase names definition (some (action1, ls)) [m] ++ post) = some res)
    (kind : Nat → Kind) (hk : ∀ x, kind x ≠ .other → ¬ IsAction W x) (hm : IsAction W m)
    (hv : liveriesAccepted ls = true) (ha : kind action1 = .sets feature 0 ls.length 8)
    (hsp : ∀ x ∈ ls.flatten, kind x = .sprite) (i : Nat) (l : List Nat) (hi : ls[i]? = some l) (u : Nat)
    (hu : UserOf W (pre ++ shipSprites purchase names definition (some (action1, ls)) [m] ++ post) u m)
    (honly : ∀ q, UserOf W (pre ++ shipSprites purchase names definition (some (action1, ls)) [m] ++ post) u q → q = m) :
    Draws kind res.out u feature i l := by
  have e : pre ++ shipSprites purchase names definition (some (action1, ls)) [m] ++ post =
      (pre ++ purchaseSprites purchase ++ names ++ [definition]) ++ graphics (some (action1, ls)) ++ [] ++ m :: post := by
    simp [shipSprites]
  refine own_action_draws W limit _ res hac h kind hk u m feature i hu honly l ?_
  rw [e] at h ⊢
  refine map_sees kind _ [] post action1 m feature i ls l hv ha hsp (by simp) hi ?_
  exact not_added_twice hm h

/-- **C68** Trains: the same for the liveries of the engine itself, -/
theorem train_livery_drawn (W : World) (limit : Nat) (pre post names : List Nat) (purchase : Option (Nat × Nat × Nat))
    (definition action1 m feature : Nat) (ls : List (List Nat)) (parts : List Part) (res : Resolved) (hac : Acyclic W)
    (h : resolveRefs W limit (pre ++ trainSprites purchase (some (action1, ls)) names definition [m] parts ++ post) = some res)
    (kind : Nat → Kind) (hk : ∀ x, kind x ≠ .other → ¬ IsAction W x) (hm : IsAction W m)
    (hv : liveriesAccepted ls = true) (ha : kind action1 = .sets feature 0 ls.length 8)
    (hsp : ∀ x ∈ ls.flatten, kind x = .sprite) (hn : ∀ x ∈ names, kind x = .other) (hd : kind definition = .other)
    (i : Nat) (l : List Nat) (hi : ls[i]? = some l) (u : Nat)
    (hu : UserOf W (pre ++ trainSprites purchase (some (action1, ls)) names definition [m] parts ++ post) u m)
    (honly : ∀ q, UserOf W (pre ++ trainSprites purchase (some (action1, ls)) names definition [m] parts ++ post) u q → q = m) :
    Draws kind res.out u feature i l := by
  have e : pre ++ trainSprites purchase (some (action1, ls)) names definition [m] parts ++ post =
      (pre ++ purchaseSprites purchase) ++ graphics (some (action1, ls)) ++ (names ++ [definition]) ++
        m :: (parts.flatMap Part.sprites ++ post) := by
    simp [trainSprites]
  refine own_action_draws W limit _ res hac h kind hk u m feature i hu honly l ?_
  rw [e] at h ⊢
  refine map_sees kind _ _ _ action1 m feature i ls l hv ha hsp ?_ hi ?_
  · intro x hx
    rcases List.mem_append.1 hx with hx | hx
    · exact hn x hx
    · rw [List.mem_singleton] at hx; rw [hx]; exact hd
  · exact not_added_twice hm h

/-- **C68** and of every articulated part, which has sets of its own. -/
theorem part_livery_drawn (W : World) (limit : Nat) (pre post names : List Nat) (purchase : Option (Nat × Nat × Nat))
    (head : Option (Nat × List (List Nat))) (definition action1 m feature : Nat) (maps : List Nat) (ls : List (List Nat))
    (parts1 parts2 : List Part) (d : Nat) (res : Resolved) (hac : Acyclic W)
    (h : resolveRefs W limit (pre ++ trainSprites purchase head names definition maps
      (parts1 ++ ⟨some (action1, ls), d, [m]⟩ :: parts2) ++ post) = some res)
    (kind : Nat → Kind) (hk : ∀ x, kind x ≠ .other → ¬ IsAction W x) (hm : IsAction W m)
    (hv : liveriesAccepted ls = true) (ha : kind action1 = .sets feature 0 ls.length 8)
    (hsp : ∀ x ∈ ls.flatten, kind x = .sprite) (hd : kind d = .other)
    (i : Nat) (l : List Nat) (hi : ls[i]? = some l) (u : Nat)
    (hu : UserOf W (pre ++ trainSprites purchase head names definition maps
      (parts1 ++ ⟨some (action1, ls), d, [m]⟩ :: parts2) ++ post) u m)
    (honly : ∀ q, UserOf W (pre ++ trainSprites purchase head names definition maps
      (parts1 ++ ⟨some (action1, ls), d, [m]⟩ :: parts2) ++ post) u q → q = m) :
    Draws kind res.out u feature i l := by
  have e : pre ++ trainSprites purchase head names definition maps (parts1 ++ ⟨some (action1, ls), d, [m]⟩ :: parts2) ++ post =
      (pre ++ purchaseSprites purchase ++ graphics head ++ names ++ [definition] ++ maps ++ parts1.flatMap Part.sprites) ++
        graphics (some (action1, ls)) ++ [d] ++ m :: (parts2.flatMap Part.sprites ++ post) := by
    simp [trainSprites, Part.sprites]
  refine own_action_draws W limit _ res hac h kind hk u m feature i hu honly l ?_
  rw [e] at h ⊢
  refine map_sees kind _ _ _ action1 m feature i ls l hv ha hsp ?_ hi ?_
  · intro x hx
    rw [List.mem_singleton] at hx; rw [hx]; exact hd
  · exact not_added_twice hm h

/-- **C68** The purchase layout, which the vehicle adds itself, draws the purchase sprite: in any file where the vehicle's sprites begin
with it (all three kinds of vehicle), whatever is inserted and whatever sets follow. -/
theorem purchase_drawn (W : World) (limit : Nat) (pre rest : List Nat) (set sprite layout feature : Nat) (res : Resolved) (hac : Acyclic W)
    (h : resolveRefs W limit (pre ++ purchaseSprites (some (set, sprite, layout)) ++ rest) = some res)
    (kind : Nat → Kind) (hk : ∀ x, kind x ≠ .other → ¬ IsAction W x) (hl : IsAction W layout)
    (ha : kind set = .sets feature 0 1 1) (hsp : kind sprite = .sprite) (hout : layout ∈ res.out) :
    Draws kind res.out layout feature 0 [sprite] := by
  have e : pre ++ purchaseSprites (some (set, sprite, layout)) ++ rest = (pre ++ [set, sprite]) ++ layout :: rest := by
    simp [purchaseSprites]
  refine added_action_draws W limit _ res hac h kind hk layout feature 0 hl hout [sprite] ?_
  rw [e] at h ⊢
  refine ⟨_, rest, rfl, not_added_twice hl h, pre, set, [sprite], [], 0, 1, 1, by simp, ha, by omega, by omega, by simp, by simp [hsp], by simp, by simp⟩

theorem ship_begins (purchase : Option (Nat × Nat × Nat)) (names : List Nat) (definition : Nat) (liveries : Option (Nat × List (List Nat)))
    (maps : List Nat) : ∃ rest, shipSprites purchase names definition liveries maps = purchaseSprites purchase ++ rest :=
  ⟨names ++ ([definition] ++ (graphics liveries ++ maps)), by simp only [shipSprites, List.append_assoc]⟩

theorem train_begins (purchase : Option (Nat × Nat × Nat)) (head : Option (Nat × List (List Nat))) (names : List Nat) (definition : Nat)
    (maps : List Nat) (parts : List Part) :
    ∃ rest, trainSprites purchase head names definition maps parts = purchaseSprites purchase ++ rest :=
  ⟨graphics head ++ (names ++ ([definition] ++ (maps ++ parts.flatMap Part.sprites))), by simp only [trainSprites, List.append_assoc]⟩

/-- **C68** The livery is chosen by the cargo subtype: subtype `v` gives the layout of livery `v` if there is one, and the first otherwise.
(The layouts stand for the reference words of the switch.) -/
theorem livery_chosen (first : Nat) (others : List Nat) (v : Int) :
    choose ((liveryCases (first :: others)).map (fun c => ⟨c.1, c.1, Int.ofNat c.2⟩)) (Int.ofNat first) v =
      if 0 ≤ v ∧ v < (first :: others).length then Int.ofNat ((first :: others).getD v.toNat 0) else Int.ofNat first := by
  generalize hL : first :: others = L
  unfold choose liveryCases
  simp only [List.map_map, List.find?_map]
  by_cases hv : 0 ≤ v ∧ v < L.length
  · rw [if_pos hv]
    have : (List.range L.length).find? ((fun r : UserRange => decide (r.low ≤ v) && decide (v ≤ r.high)) ∘
        (fun c : Int × Nat => (⟨c.1, c.1, Int.ofNat c.2⟩ : UserRange)) ∘ fun i => (Int.ofNat i, L.getD i 0)) = some v.toNat := by
      rw [List.find?_range_eq_some]
      refine ⟨?_, ?_, ?_⟩
      · simp [Function.comp_apply]; omega
      · simp; omega
      · intro j hj
        simp [Function.comp_apply]; omega
    rw [this]; rfl
  · rw [if_neg hv]
    have : (List.range L.length).find? ((fun r : UserRange => decide (r.low ≤ v) && decide (v ≤ r.high)) ∘
        (fun c : Int × Nat => (⟨c.1, c.1, Int.ofNat c.2⟩ : UserRange)) ∘ fun i => (Int.ofNat i, L.getD i 0)) = none := by
      rw [List.find?_eq_none]
      intro j hj
      have := List.mem_range.1 hj
      simp [Function.comp_apply]; omega
    rw [this]; rfl

/-- **C68** Sprite tables: a row of the wrong width is refused; the number a row gets is its place, and no row added later changes it. -/
theorem table_row (w : Nat) (rows : List (List Nat)) (row : List Nat) :
    ((addRow (some w) rows row).isSome ↔ row.length = w) ∧
    ∀ (n : Nat) (rows' : List (List Nat)), addRow (some w) rows row = some (n, rows') → rows'[n]? = some row ∧ n = rows.length ∧
      ∀ (j : Nat) (l : List Nat), rows[j]? = some l → rows'[j]? = some l := by
  unfold addRow
  by_cases h : row.length = w
  · simp only [h, ne_eq, not_true_eq_false, if_false]
    refine ⟨by simp, ?_⟩
    intro n rows' e
    simp only [Option.some.injEq, Prod.mk.injEq] at e
    obtain ⟨rfl, rfl⟩ := e
    refine ⟨by simp, rfl, ?_⟩
    intro j l hj
    have := (List.getElem?_eq_some_iff.1 hj).1
    rw [List.getElem?_append_left this]; exact hj
  · simp [h]

/-- **C68** In the file, a layout mentioning row `i` of a vehicle sprite table draws the sprites of that row, if it is emitted at the place
of an action standing after the table with no other sets of the feature in between. -/
theorem table_row_drawn (W : World) (limit : Nat) (pre mid post : List Nat) (action1 m feature : Nat) (rows : List (List Nat))
    (t : List Nat) (ht : tableSprites action1 rows = some t) (res : Resolved) (hac : Acyclic W)
    (h : resolveRefs W limit (pre ++ t ++ mid ++ m :: post) = some res)
    (kind : Nat → Kind) (hk : ∀ x, kind x ≠ .other → ¬ IsAction W x) (hm : IsAction W m)
    (hv : ∀ r ∈ rows, r.length = 8) (ha : kind action1 = .sets feature 0 rows.length 8)
    (hsp : ∀ x ∈ rows.flatten, kind x = .sprite) (hmid : ∀ x ∈ mid, kind x = .other)
    (i : Nat) (l : List Nat) (hi : rows[i]? = some l) (u : Nat)
    (hu : UserOf W (pre ++ t ++ mid ++ m :: post) u m) (honly : ∀ q, UserOf W (pre ++ t ++ mid ++ m :: post) u q → q = m) :
    Draws kind res.out u feature i l := by
  have hne : rows ≠ [] := by intro e; rw [e] at hi; simp at hi
  have et : t = graphics (some (action1, rows)) := by
    unfold tableSprites at ht
    rw [if_neg (by simpa using hne)] at ht
    rw [graphics_some hne]; exact (Option.some.inj ht).symm
  subst et
  refine own_action_draws W limit _ res hac h kind hk u m feature i hu honly l ?_
  exact map_sees kind pre mid post action1 m feature i rows l (by simpa [liveriesAccepted] using hv) ha hsp hmid hi (not_added_twice hm h)

/-- A ship with a purchase sprite and two liveries: the livery layouts 0 and 1 are chosen by the switch 3; the map 4 uses the switch and the
purchase layout 2; 5 and 6 are the purchase set and sprite, 7 the definition, 8 the sets of the liveries, 9-24 their sprites. -/
def exShip : World := worldOf [leafAct, leafAct, leafAct, swAct [.obj 0, .obj 1, .obj 0], mapAct [.obj 2, .obj 3]]

def exKind : Nat → Kind := fun n =>
  if n = 5 then .sets 2 0 1 1 else if n = 8 then .sets 2 0 2 8 else if n = 6 ∨ (9 ≤ n ∧ n ≤ 24) then .sprite else .other

def exLiveries : List (List Nat) := [[9, 10, 11, 12, 13, 14, 15, 16], [17, 18, 19, 20, 21, 22, 23, 24]]

def exFile : List Nat := shipSprites (some (5, 6, 2)) [] 7 (some (8, exLiveries)) [4]

theorem exShip_down (a b : Nat) (h : Refers exShip a b) : b < a ∧ b < 4 := by
  obtain ⟨h1, h2⟩ := refers_lt h
  have : ∀ a < 5, ∀ b < 5, Refers exShip a b → b < a ∧ b < 4 := by decide
  exact this a h1 b h2 h

theorem exShip_acyclic : Acyclic exShip := acyclic_of_down (fun a b h => (exShip_down a b h).1)

theorem exKind_plain (x : Nat) (h : exKind x ≠ .other) : ¬ IsAction exShip x := by
  have hx : 5 ≤ x := by
    by_cases hx : x < 5
    · exact absurd (by unfold exKind; rw [if_neg (by omega), if_neg (by omega), if_neg (by omega)]) h
    · omega
  unfold IsAction
  rw [show exShip x = {} from worldOf_out hx]
  simp

theorem exShip_unreferenced : Unreferenced exShip exFile 4 := by
  refine ⟨by decide, .inl rfl, ?_, ?_⟩
  · intro s _ c _ hr
    exact absurd (exShip_down c 4 hr).2 (by omega)
  · rintro ⟨_, _, _, c, rid, -, -, hc, hm, -⟩
    by_cases h : c < 5
    · have key : ∀ c < 5, ∀ r ∈ (exShip c).refs, ∃ n, r = .obj n := by
        intro c hc
        match c, hc with
        | 0, _ | 1, _ | 2, _ => intro r hr; simp [exShip, worldOf, leafAct] at hr
        | 3, _ => intro r hr; simp [exShip, worldOf, swAct] at hr; rcases hr with rfl | rfl | rfl <;> exact ⟨_, rfl⟩
        | 4, _ => intro r hr; simp [exShip, worldOf, mapAct] at hr; rcases hr with rfl | rfl <;> exact ⟨_, rfl⟩
      obtain ⟨n, e⟩ := key c h _ hm
      cases e
    · rw [show exShip c = {} from worldOf_out (by show 5 ≤ c; omega)] at hc
      exact absurd hc (by decide)

theorem exShip_user (u : Nat) (hu : u < 2) : UserOf exShip exFile u 4 := by
  refine ⟨by decide, ⟨4, exShip_unreferenced, .refl⟩, ?_, ?_⟩
  · have : ∀ u < 2, u ∉ exFile := by decide
    exact this u hu
  · have h3 : Refers exShip 4 3 := by decide
    have h2 : ∀ u < 2, Refers exShip 3 u := by decide
    refine .step (.step .refl h3 (by decide)) (h2 u hu) ?_
    have : ∀ u < 2, u ∉ exFile := by decide
    exact this u hu

theorem exShip_only (u q : Nat) (h : UserOf exShip exFile u q) : q = 4 := by
  have hq := h.1
  have hne : u ≠ q := fun e => h.2.2.1 (e ▸ hq)
  have hw := h.2.2.2
  have hr : (exShip q).referencing = true := by
    rcases within_referencing hw with e | h
    · exact absurd e hne
    · exact h
  have : ∀ q ∈ exFile, (exShip q).referencing = true → q = 4 := by decide
  exact this q hq hr

set_option maxRecDepth 100000 in
/-- The resolved file of this ship: the livery layouts come after the livery sets, the purchase layout stays after the purchase set. -/
theorem exShip_resolved : (resolveRefs exShip 100 exFile).map (·.out) =
    some ([5, 6, 2, 7, 8] ++ exLiveries.flatten ++ [0, 1, 3, 4]) := by rfl

/-- The hypotheses of the theorems hold of this ship: the second livery's layout draws the second livery, the purchase layout the purchase
sprite. -/
example : ∃ res, resolveRefs exShip 100 exFile = some res ∧
    Draws exKind res.out 1 2 1 [17, 18, 19, 20, 21, 22, 23, 24] ∧ Draws exKind res.out 2 2 0 [6] := by
  cases h : resolveRefs exShip 100 exFile with
  | none => have := exShip_resolved; rw [h] at this; simp at this
  | some res =>
    have eo := exShip_resolved
    rw [h] at eo
    simp only [Option.map_some, Option.some.injEq] at eo
    refine ⟨res, rfl, ?_, ?_⟩
    · exact ship_livery_drawn exShip 100 [] [] [] (some (5, 6, 2)) 7 8 4 2 exLiveries res exShip_acyclic (by simpa [exFile] using h) exKind
        exKind_plain (.inl rfl) (by decide) (by decide) (by decide) 1 _ rfl 1 (by simpa [exFile] using exShip_user 1 (by omega))
        (fun q hq => exShip_only 1 q (by simpa [exFile] using hq))
    · have e : exFile = [] ++ purchaseSprites (some (5, 6, 2)) ++ ([7] ++ graphics (some (8, exLiveries)) ++ [4]) := by
        simp [exFile, shipSprites]
      refine purchase_drawn exShip 100 [] ([7] ++ graphics (some (8, exLiveries)) ++ [4]) 5 6 2 2 res exShip_acyclic (e ▸ h) exKind exKind_plain
        (.inr rfl) (by decide) (by decide) ?_
      rw [eo]; simp

set_option maxRecDepth 100000 in
/-- **C68** A layout shared by two vehicles draws the sprites of the first only: here the maps 2 and 5 both use layout 0, the second after
sprites of its own (4), but the file has the layout before these. -/
theorem shared_layout_draws_first :
    let W := worldOf [leafAct, {}, mapAct [.obj 0], {}, {}, mapAct [.obj 0], {}]
    let kind : Nat → Kind := fun n => if n = 1 ∨ n = 3 then .sets 2 0 1 1 else if n = 4 ∨ n = 6 then .sprite else .other
    (resolveRefs W 100 [1, 6, 2, 3, 4, 5]).map (·.out) = some [1, 6, 0, 2, 3, 4, 5] ∧
    Draws kind [1, 6, 0, 2, 3, 4, 5] 0 2 0 [6] ∧ Draws kind [1, 6, 2, 3, 4, 5] 5 2 0 [4] := by
  refine ⟨by rfl, ⟨[1, 6], [2, 3, 4, 5], rfl, by decide, [], 1, [6], [], 0, 1, 1, rfl, rfl, by omega, by omega, rfl, by decide, by simp, rfl⟩,
    ⟨[1, 6, 2, 3, 4], [], rfl, by decide, [1, 6, 2], 3, [4], [], 0, 1, 1, rfl, rfl, by omega, by omega, rfl, by decide, by simp, rfl⟩⟩

end Grf.VehicleSprites
