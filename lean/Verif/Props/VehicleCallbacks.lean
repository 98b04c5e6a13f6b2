import Verif.Model.VehicleCallbacks
import Verif.Props.CallbackNumbers
/-! C85: what vehicles answer when the game asks them. -/
namespace Grf.VehicleCallbacks

open Grf.Callbacks

/-! ### Specification -/

/-- The value a switch of a class depends on. -/
def Var.value (subtype info : Nat) : Var → Nat
  | .subtype => subtype % 256
  | .info => info % 256

/-- The game evaluates a switch. -/
def Sw.eval (w : Sw) (subtype info : Nat) : Handler := (w.cases.lookup (w.var.value subtype info)).getD w.default

/-- The answer to a callback for a handler: the switches made by the class are evaluated, anything else (the user's own handlers, layouts,
results) is the answer itself. -/
def follow (switches : List (Nat × Sw)) (subtype info : Nat) : Handler → Handler
  | .int n => .int n
  | .obj o r => ((switches.lookup o).map fun w => w.eval subtype info).getD (.obj o r)

/-- A dictionary updated with another one. -/
def over (d : List (String × Val)) (l : List (String × Val)) : List (String × Val) := l.foldl (fun d kv => dictSet d kv.1 kv.2) d

/-- The graphics of a vehicle: those made of its liveries and its purchase sprite, otherwise those the user gave. -/
def graphicsOf (v : Veh) (graphics : Val) : Val :=
  .cb (.graphics (v.graphics.or (onMap .graphics graphics)) (v.purchase.or (onPurchase .graphics graphics)))

/-- What the class answers on its own account, on the map; `g` is what the vehicle is drawn with. -/
def ownAnswer (f : Nat) (v : Veh) (g : Handler) (cb subtype info : Nat) : Option Handler :=
  if cb = 0x19 ∧ 2 ≤ v.names.length then some (.int ((v.names[subtype % 256]?).getD 0x400))
  else if f = 0 ∧ cb = 0x33 ∧ v.sounds ≠ [] then some ((v.sounds.lookup (info % 256)).getD g)
  else if f = 0 ∧ cb = 0x16 ∧ v.parts ≠ [] then some (.int (if info % 256 = 0 then 0x7fff else (v.parts[info % 256 - 1]?).getD 0x7fff))
  else if f = 1 ∧ cb = 0x36 then v.speed.map fun s => if info % 256 = 0x15 then .int s else g
  else none

/-- What the class answers in the purchase list: its text, the articulated parts, the speed. -/
def ownPurchase (f : Nat) (v : Veh) (g : Handler) (cb info : Nat) : Option Handler :=
  if cb = 0x23 then v.additional.map .int
  else if f = 0 ∧ cb = 0x16 ∧ v.parts ≠ [] then some (.int (if info % 256 = 0 then 0x7fff else (v.parts[info % 256 - 1]?).getD 0x7fff))
  else if f = 1 ∧ cb = 0x36 then v.speed.map fun s => if info % 256 = 0x15 then .int s else g
  else none

/-- The class registers something for the purchase list. -/
def OwnInPurchase (f : Nat) (v : Veh) : Prop := v.additional ≠ none ∨ (f = 0 ∧ v.parts ≠ []) ∨ (f = 1 ∧ v.speed ≠ none)

/-- What the vehicle is drawn with on the map. -/
def drawn (v : Veh) (graphics : Val) : Handler := (v.graphics.or (onMap .graphics graphics)).getD (.int 0)

/-- The graphics for the purchase list alone: the purchase sprite, or what the user gave. -/
def shown (v : Veh) (graphics : Val) : Option Handler := v.purchase.or (onPurchase .graphics graphics)

/-- The answer on the map: what the class says, otherwise what the user registered. -/
noncomputable def onTheMap (f : Nat) (v : Veh) (o : Objs) (graphics : Val) (ps cs : List (String × Val)) (cb subtype info : Nat) : Handler :=
  (ownAnswer f v (drawn v graphics) cb subtype info).getD
    (follow (switches v o (drawn v graphics)) subtype info (mapAnswer f (graphicsOf v graphics) ps cs cb info))

open Classical in
/-- What the user registered for the purchase list, in a list that has handlers of its own: otherwise the graphics. -/
noncomputable def userInPurchase (f : Nat) (v : Veh) (graphics : Val) (ps cs : List (String × Val)) (cb info : Nat) : Handler :=
  (forCallback onPurchase f cs cb).getD
    (if cb = 0x36 ∧ ∃ i, (forProperty onPurchase f ps i).isSome then (forProperty onPurchase f ps (info % 256)).getD (drawn v graphics)
     else (shown v graphics).getD (drawn v graphics))

/-! ### Setting a callback later -/

theorem dictSet_twice {α β : Type} [DecidableEq α] (d : List (α × β)) (k : α) (a b : β) : dictSet (dictSet d k a) k b = dictSet d k b := by
  induction d with
  | nil => simp [dictSet]
  | cons x d ih =>
    obtain ⟨i, c⟩ := x
    simp only [dictSet]
    by_cases h : i = k
    · simp [h, dictSet]
    · simp [h, dictSet, ih]

theorem dictSet_comm {α β : Type} [DecidableEq α] (d : List (α × β)) (k j : α) (a b : β) (hne : k ≠ j) (hk : k ∈ d.map (·.1)) :
    dictSet (dictSet d j b) k a = dictSet (dictSet d k a) j b := by
  induction d with
  | nil => simp at hk
  | cons x d ih =>
    obtain ⟨i, c⟩ := x
    by_cases h : i = k
    · subst h
      simp [dictSet, hne]
    · have hk' : k ∈ d.map (·.1) := by
        simp only [List.map_cons, List.mem_cons] at hk
        rcases hk with hk | hk
        · exact absurd hk.symm h
        · exact hk
      by_cases h2 : i = j
      · subst h2
        simp [dictSet, h]
      · simp [dictSet, h, h2, ih hk']

theorem mem_dictSet {α β : Type} [DecidableEq α] (d : List (α × β)) (k j : α) (v : β) (h : k ∈ d.map (·.1)) : k ∈ (dictSet d j v).map (·.1) := by
  rw [keys_dictSet]
  split
  · exact h
  · exact List.mem_append_left _ h

/-- A key that none of the assignments touches can be set before or after them. -/
theorem assign_comm (f k : Nat) (c : CB) : ∀ (l : List (String × Val)) (d d' : List (Nat × CB)), k ∈ d.map (·.1) →
    (∀ kv ∈ l, ∀ r ∈ cbRows f, r.name = kv.1 → r.id ≠ k) → assignAll (setCallback f) d l = some d' →
    assignAll (setCallback f) (dictSet d k c) l = some (dictSet d' k c) := by
  intro l
  induction l with
  | nil => intro d d' _ _ h; simp only [assignAll, Option.some.injEq] at h ⊢; rw [h]
  | cons kv l ih =>
    intro d d' hk hno h
    simp only [assignAll, Option.bind_eq_bind, Option.bind_eq_some_iff] at h ⊢
    obtain ⟨d1, h1, h⟩ := h
    simp only [setCallback, Option.bind_eq_bind, Option.bind_eq_some_iff, Option.some.injEq] at h1
    obtain ⟨r, hr, x, hx, rfl⟩ := h1
    have hne : r.id ≠ k := hno kv List.mem_cons_self r (List.mem_of_find?_eq_some hr) (by have := List.find?_some hr; simpa using this)
    refine ⟨dictSet (dictSet d k c) r.id x, ?_, ?_⟩
    · simp [setCallback, hr, hx]
    · rw [← dictSet_comm d k r.id c x (Ne.symm hne) hk]
      exact ih _ _ (mem_dictSet _ _ _ _ hk) (fun kv' h' => hno kv' (List.mem_cons_of_mem _ h')) h

theorem assign_later (f : Nat) (k : String) (v : Val) : ∀ (l : List (String × Val)) (d d1 d2 : List (Nat × CB)), (l.map (·.1)).Nodup →
    assignAll (setCallback f) d l = some d1 → setCallback f d1 (k, v) = some d2 →
    assignAll (setCallback f) d (dictSet l k v) = some d2 := by
  intro l
  induction l with
  | nil =>
    intro d d1 d2 _ h h2
    simp only [assignAll, Option.some.injEq] at h
    subst h
    simp [dictSet, assignAll, h2]
  | cons kv l ih =>
    intro d d1 d2 hn h h2
    obtain ⟨k', v'⟩ := kv
    simp only [List.map_cons, List.nodup_cons] at hn
    simp only [assignAll, Option.bind_eq_bind, Option.bind_eq_some_iff] at h
    obtain ⟨d0, h0, h⟩ := h
    by_cases he : k' = k
    · subst he
      simp only [dictSet, if_true, assignAll, Option.bind_eq_bind, Option.bind_eq_some_iff]
      simp only [setCallback, Option.bind_eq_bind, Option.bind_eq_some_iff, Option.some.injEq] at h0 h2
      obtain ⟨r, hr, x, hx, rfl⟩ := h0
      obtain ⟨r', hr', y, hy, rfl⟩ := h2
      rw [hr] at hr'
      cases hr'
      refine ⟨dictSet d r.id y, by simp [setCallback, hr, hy], ?_⟩
      rw [← dictSet_twice d r.id x y]
      refine assign_comm f r.id y l _ _ ?_ ?_ h
      · rw [keys_dictSet]
        split
        · assumption
        · simp
      · intro kv hkv s hs hsn hid
        have hrm := List.mem_of_find?_eq_some hr
        have hrn : r.name = k' := by have := List.find?_some hr; simpa using this
        have hn' : ((cbRows f).map Row.id).Nodup := (cbRows_ok f).1
        have : s = r := by
          have e1 := find_of_mem hn' hs
          have e2 := find_of_mem hn' hrm
          rw [hid] at e1
          exact Option.some.inj (e1.symm.trans e2)
        subst this
        exact hn.1 (List.mem_map.mpr ⟨kv, hkv, by rw [← hsn, hrn]⟩)
    · simp only [dictSet, if_neg he, assignAll, Option.bind_eq_bind, Option.bind_eq_some_iff]
      exact ⟨d0, h0, ih d0 d1 d2 hn.2 h h2⟩

theorem over_nodup (l : List (String × Val)) : ∀ (d : List (String × Val)), (d.map (·.1)).Nodup → ((over d l).map (·.1)).Nodup := by
  induction l with
  | nil => intro d h; exact h
  | cons kv l ih => intro d h; exact ih _ (IdMap.nodup_dictSet h)

theorem assign_over (f : Nat) : ∀ (sets user : List (String × Val)) (d d1 d2 : List (Nat × CB)), (user.map (·.1)).Nodup →
    assignAll (setCallback f) d user = some d1 → assignAll (setCallback f) d1 sets = some d2 →
    assignAll (setCallback f) d (over user sets) = some d2 := by
  intro sets
  induction sets with
  | nil => intro user d d1 d2 _ h h2; simp only [assignAll, Option.some.injEq] at h2; subst h2; exact h
  | cons kv l ih =>
    intro user d d1 d2 hn h h2
    simp only [assignAll, Option.bind_eq_bind, Option.bind_eq_some_iff] at h2
    obtain ⟨d0, h0, h2⟩ := h2
    exact ih _ d d0 d2 (IdMap.nodup_dictSet hn) (assign_later f kv.1 kv.2 user d d1 d0 hn h h0) h2

theorem vehicle_ids (f : Nat) (hf : f < 4) : ∀ r ∈ cbRows f, r.id ≠ 0 := by
  match f, hf with
  | 0, _ => decide +kernel
  | 1, _ => decide +kernel
  | 2, _ => decide +kernel
  | 3, _ => decide +kernel

theorem make_cbs {f : Nat} {graphics : Val} {properties : Option (List (String × Val))} {callbacks : List (String × Val)} {m : Mgr}
    (h : make f graphics properties callbacks = some m) : ∃ g, wrap .graphics graphics = some g ∧ m.feature = f ∧
      assignAll (setCallback f) [(0, g)] callbacks = some m.cbs := by
  simp only [make, Option.bind_eq_bind, Option.bind_eq_some_iff] at h
  obtain ⟨g, hg, h⟩ := h
  split at h
  · cases h
  · simp only [Option.bind_eq_some_iff, Option.some.injEq] at h
    obtain ⟨ps, hps, cs, hcs, rfl⟩ := h
    exact ⟨g, hg, rfl, hcs⟩

theorem make_of_cbs {f : Nat} {graphics graphics' : Val} {properties : Option (List (String × Val))} {callbacks callbacks' : List (String × Val)}
    {m : Mgr} (h : make f graphics properties callbacks = some m) {g' : CB} (hg' : wrap .graphics graphics' = some g')
    {d : List (Nat × CB)} (hd : assignAll (setCallback f) [(0, g')] callbacks' = some d) :
    make f graphics' properties callbacks' = some { m with cbs := d } := by
  simp only [make, Option.bind_eq_bind, Option.bind_eq_some_iff] at h
  obtain ⟨g, hg, h⟩ := h
  split at h
  · cases h
  · next hc =>
    simp only [Option.bind_eq_some_iff, Option.some.injEq] at h
    obtain ⟨ps, hps, cs, hcs, rfl⟩ := h
    simp only [make, hg', Option.bind_eq_bind, Option.bind_some, if_neg hc, hps, hd]

/-- **C85** Setting callbacks of a manager afterwards is the same as giving them to it at the beginning, instead of what the user gave
under these names. -/
theorem set_later (f : Nat) (graphics : Val) (properties : Option (List (String × Val))) (callbacks sets : List (String × Val)) (m m' : Mgr)
    (hc : (callbacks.map (·.1)).Nodup) (h : make f graphics properties callbacks = some m) (h' : setAttrs m sets = some m') :
    make f graphics properties (over callbacks sets) = some m' := by
  obtain ⟨g, hg, hf, hcs⟩ := make_cbs h
  simp only [setAttrs, Option.map_eq_some_iff] at h'
  obtain ⟨d, hd, rfl⟩ := h'
  rw [hf] at hd
  exact make_of_cbs h hg (assign_over f sets callbacks _ _ d hc hcs hd)

theorem graphics_later (f : Nat) (hf : f < 4) (v : Veh) (graphics : Val) (properties : Option (List (String × Val)))
    (callbacks : List (String × Val)) (m : Mgr) (h : make f graphics properties callbacks = some m) :
    make f (graphicsOf v graphics) properties callbacks = some (setGraphics m v.graphics v.purchase) := by
  obtain ⟨g, hg, hfe, hcs⟩ := make_cbs h
  have hrow : ∀ kv ∈ callbacks, ∀ r ∈ cbRows f, r.name = kv.1 → r.id ≠ 0 := fun _ _ r hr _ => vehicle_ids f hf r hr
  have hcls := wrap_cls hg
  obtain ⟨d, p, rfl⟩ : ∃ d p, g = .graphics d p := by
    cases g with
    | graphics d p => exact ⟨d, p, rfl⟩
    | default => simp [CB.cls] at hcls
    | purchase => simp [CB.cls] at hcls
    | dual => simp [CB.cls] at hcls
  have hd : onMap .graphics graphics = d := (wrap_dflt hg).symm
  have hp : onPurchase .graphics graphics = p := (wrap_purch hg).symm
  have hl : m.cbs.lookup 0 = some (.graphics d p) := by
    have := assign_comm f 0 (.graphics d p) callbacks _ _ (by simp) hrow hcs
    simp only [dictSet, if_true] at this
    have e : m.cbs = dictSet m.cbs 0 (.graphics d p) := Option.some.inj (hcs.symm.trans this)
    rw [e, lookup_dictSet, if_pos rfl]
  have key := assign_comm f 0 (.graphics (v.graphics.or d) (v.purchase.or p)) callbacks _ _ (by simp) hrow hcs
  simp only [dictSet, if_true] at key
  have e : setGraphics m v.graphics v.purchase = { m with cbs := dictSet m.cbs 0 (.graphics (v.graphics.or d) (v.purchase.or p)) } := by
    simp [setGraphics, hl]
  rw [e]
  refine make_of_cbs h ?_ key
  simp only [graphicsOf, hd, hp, wrap, CB.cls, if_true]

/-- **C85** What a train, road vehicle or ship registers is what the user registered, with the entries of the class in place of the
user's of the same names, and the graphics made of the liveries and the purchase sprite. -/
theorem setup_is_make (f : Nat) (hf : f < 4) (v : Veh) (o : Objs) (graphics : Val) (properties : Option (List (String × Val)))
    (callbacks : List (String × Val)) (m m' : Mgr) (hc : (callbacks.map (·.1)).Nodup)
    (h : make f graphics properties callbacks = some m) (h' : setup f v o m = some m') :
    make f (graphicsOf v graphics) properties (over callbacks (sets f v o)) = some m' :=
  set_later f _ properties callbacks _ _ m' hc (graphics_later f hf v graphics properties callbacks m h) h'

/-! ### Names and numbers -/

theorem lookup_over (l : List (String × Val)) : ∀ (d : List (String × Val)) (k : String), (l.map (·.1)).Nodup →
    (over d l).lookup k = (l.lookup k).or (d.lookup k) := by
  induction l with
  | nil => intro d k _; simp [over]
  | cons x l ih =>
    intro d k hn
    obtain ⟨i, c⟩ := x
    simp only [List.map_cons, List.nodup_cons] at hn
    have e : over d ((i, c) :: l) = over (dictSet d i c) l := rfl
    rw [e, ih _ _ hn.2, lookup_dictSet]
    by_cases hk : k = i
    · subst hk
      have : l.lookup k = none := by
        rw [List.lookup_eq_none_iff]
        intro p hp
        have : k ≠ p.1 := fun e => hn.1 (List.mem_map.mpr ⟨p, hp, e.symm⟩)
        simpa using this
      simp [this]
    · have hk' : (k == i) = false := by simpa using hk
      simp only [if_neg hk, List.lookup, hk']

/-- What the class stores under a name. -/
def stored (f : Nat) (v : Veh) (o : Objs) (name : String) : Option Handler :=
  if name = "additional_text" then v.additional.map .int
  else if name = "change_properties" then if f = 1 ∧ v.speed.isSome then some (.obj o.speed none) else none
  else if name = "cargo_subtype_text" then if 1 < v.names.length then some (.obj o.liveries none) else none
  else if name = "sound_effect" then if f = 0 ∧ v.sounds ≠ [] then some (.obj o.sounds none) else none
  else if name = "articulated_part" then if f = 0 ∧ v.parts ≠ [] then some (.obj o.parts none) else none
  else none

theorem sets_nodup (f : Nat) (v : Veh) (o : Objs) : ((sets f v o).map (·.1)).Nodup := by
  unfold sets textSet speedSet liverySet soundSet partSet
  cases v.additional <;> cases v.speed <;> by_cases h1 : f = 1 <;> by_cases h0 : f = 0 <;> by_cases h2 : 1 < v.names.length <;>
    cases v.sounds <;> cases v.parts <;> simp [h1, h0, h2]

theorem sets_lookup (f : Nat) (v : Veh) (o : Objs) (name : String) :
    (sets f v o).lookup name = (stored f v o name).map fun h => .raw (some h) := by
  unfold sets textSet speedSet liverySet soundSet partSet stored
  by_cases n1 : name = "additional_text"
  · subst n1
    cases v.additional <;> cases v.speed <;> by_cases h1 : f = 1 <;> by_cases h0 : f = 0 <;> by_cases h2 : 1 < v.names.length <;>
      cases v.sounds <;> cases v.parts <;> simp [h1, h0, h2, List.lookup]
  by_cases n2 : name = "change_properties"
  · subst n2
    cases v.additional <;> cases v.speed <;> by_cases h1 : f = 1 <;> by_cases h0 : f = 0 <;> by_cases h2 : 1 < v.names.length <;>
      cases v.sounds <;> cases v.parts <;> simp [h1, h0, h2, List.lookup]
  by_cases n3 : name = "cargo_subtype_text"
  · subst n3
    cases v.additional <;> cases v.speed <;> by_cases h1 : f = 1 <;> by_cases h0 : f = 0 <;> by_cases h2 : 1 < v.names.length <;>
      cases v.sounds <;> cases v.parts <;> simp [h1, h0, h2, List.lookup]
  by_cases n4 : name = "sound_effect"
  · subst n4
    cases v.additional <;> cases v.speed <;> by_cases h1 : f = 1 <;> by_cases h0 : f = 0 <;> by_cases h2 : 1 < v.names.length <;>
      cases v.sounds <;> cases v.parts <;> simp [h1, h0, h2, List.lookup]
  by_cases n5 : name = "articulated_part"
  · subst n5
    cases v.additional <;> cases v.speed <;> by_cases h1 : f = 1 <;> by_cases h0 : f = 0 <;> by_cases h2 : 1 < v.names.length <;>
      cases v.sounds <;> cases v.parts <;> simp [h1, h0, h2, List.lookup]
  have b1 : (name == "additional_text") = false := by simpa using n1
  have b2 : (name == "change_properties") = false := by simpa using n2
  have b3 : (name == "cargo_subtype_text") = false := by simpa using n3
  have b4 : (name == "sound_effect") = false := by simpa using n4
  have b5 : (name == "articulated_part") = false := by simpa using n5
  simp only [n1, n2, n3, n4, n5, if_false, Option.map_none]
  cases v.additional <;> cases v.speed <;> by_cases h1 : f = 1 <;> by_cases h0 : f = 0 <;> by_cases h2 : 1 < v.names.length <;>
    cases v.sounds <;> cases v.parts <;> simp [h1, h0, h2, List.lookup, b1, b2, b3, b4, b5]

/-- What the class stores for a number, and for which place. -/
def storedMap (f : Nat) (v : Veh) (o : Objs) (cb : Nat) : Option Handler :=
  if cb = 0x36 then if f = 1 ∧ v.speed.isSome then some (.obj o.speed none) else none
  else if cb = 0x19 then if 1 < v.names.length then some (.obj o.liveries none) else none
  else if cb = 0x33 then if f = 0 ∧ v.sounds ≠ [] then some (.obj o.sounds none) else none
  else if cb = 0x16 then if f = 0 ∧ v.parts ≠ [] then some (.obj o.parts none) else none
  else none

/-- What the class stores for a number for the purchase list. -/
def storedPurchase (f : Nat) (v : Veh) (o : Objs) (cb : Nat) : Option Handler :=
  if cb = 0x23 then v.additional.map .int
  else if cb = 0x36 then if f = 1 ∧ v.speed.isSome then some (.obj o.speed none) else none
  else if cb = 0x16 then if f = 0 ∧ v.parts ≠ [] then some (.obj o.parts none) else none
  else none

theorem rows_named (f : Nat) (hf : f < 3) : ∀ r ∈ cbRows f,
    (r.name = "additional_text" ↔ r.id = 0x23) ∧ (r.name = "change_properties" ↔ r.id = 0x36) ∧
    (r.name = "cargo_subtype_text" ↔ r.id = 0x19) ∧ (r.name = "sound_effect" ↔ r.id = 0x33) ∧
    (r.name = "articulated_part" ↔ r.id = 0x16) ∧
    (r.id = 0x23 → r.cls = .purchase) ∧ (r.id = 0x36 → r.cls = .dual) ∧ (r.id = 0x19 → r.cls = .default) ∧
    (r.id = 0x33 → r.cls = .default) ∧ (r.id = 0x16 → r.cls = .dual) := by
  match f, hf with
  | 0, _ => decide +kernel
  | 1, _ => decide +kernel
  | 2, _ => decide +kernel

theorem rows_there (f : Nat) (hf : f < 3) :
    (∀ cb ∈ [0x23, 0x36, 0x19, 0x33], ((cbRows f).find? fun r => r.id == cb).isSome) ∧
    (f = 0 → ((cbRows f).find? fun r => r.id == 0x16).isSome) := by
  match f, hf with
  | 0, _ => decide +kernel
  | 1, _ => decide +kernel
  | 2, _ => decide +kernel

theorem fits_default {v : Val} (h : (wrap .default v).isSome) : onPurchase .default v = none := by
  cases v with
  | raw x => rfl
  | cb c => cases c <;> simp_all [wrap, CB.cls, onPurchase, CB.purch]

theorem fits_purchase {v : Val} (h : (wrap .purchase v).isSome) : onMap .purchase v = none := by
  cases v with
  | raw x => rfl
  | cb c => cases c <;> simp_all [wrap, CB.cls, onMap, CB.dflt]

theorem registered_map (f : Nat) (hf : f < 3) (v : Veh) (o : Objs) (user : List (String × Val))
    (hok : ∀ r ∈ cbRows f, ∀ x, user.lookup r.name = some x → (wrap r.cls x).isSome) (cb : Nat) :
    registered (cbRows f) onMap (over user (sets f v o)) cb = (storedMap f v o cb).or (registered (cbRows f) onMap user cb) := by
  unfold registered
  cases hr : (cbRows f).find? fun r => r.id == cb with
  | none =>
    have ht := rows_there f hf
    have : storedMap f v o cb = none := by
      unfold storedMap
      by_cases c1 : cb = 0x36
      · have := ht.1 0x36 (by simp); rw [← c1, hr] at this; simp at this
      by_cases c2 : cb = 0x19
      · have := ht.1 0x19 (by simp); rw [← c2, hr] at this; simp at this
      by_cases c3 : cb = 0x33
      · have := ht.1 0x33 (by simp); rw [← c3, hr] at this; simp at this
      by_cases c4 : cb = 0x16
      · by_cases h0 : f = 0
        · have := ht.2 h0; rw [← c4, hr] at this; simp at this
        · simp [c4, h0]
      · simp [c1, c2, c3, c4]
    simp [this]
  | some r =>
    have hm := List.mem_of_find?_eq_some hr
    have hid : r.id = cb := by have := List.find?_some hr; simpa using this
    obtain ⟨n1, n2, n3, n4, n5, c1, c2, c3, c4, c5⟩ := rows_named f hf r hm
    simp only [Option.bind_some, lookup_over _ _ _ (sets_nodup f v o), sets_lookup, stored, n1, n2, n3, n4, n5, storedMap]
    have hu := hok r hm
    rw [hid] at n1 n2 n3 n4 n5 c1 c2 c3 c4 c5 ⊢
    by_cases e1 : cb = 0x23
    · have hc := c1 e1
      rw [hc] at hu ⊢
      subst e1
      simp only [if_true]
      cases v.additional with
      | some n => 
        simp only [Option.map_some, Option.some_or, Option.bind_some, onMap]
        cases hl : user.lookup r.name with
        | none => simp
        | some x => simp [fits_purchase (hu x hl)]
      | none => simp
    · simp only [e1, if_false]
      by_cases e2 : cb = 0x36
      · have hc := c2 e2
        rw [hc]
        simp only [e2, if_true]
        split <;> simp [onMap]
      · simp only [e2, if_false]
        by_cases e3 : cb = 0x19
        · have hc := c3 e3
          rw [hc]
          simp only [e3, if_true]
          split <;> simp [onMap]
        · simp only [e3, if_false]
          by_cases e4 : cb = 0x33
          · have hc := c4 e4
            rw [hc]
            simp only [e4, if_true]
            split <;> simp [onMap]
          · simp only [e4, if_false]
            by_cases e5 : cb = 0x16
            · have hc := c5 e5
              rw [hc]
              simp only [e5, if_true]
              split <;> simp [onMap]
            · simp [e5]

theorem registered_purchase (f : Nat) (hf : f < 3) (v : Veh) (o : Objs) (user : List (String × Val))
    (hok : ∀ r ∈ cbRows f, ∀ x, user.lookup r.name = some x → (wrap r.cls x).isSome) (cb : Nat) :
    registered (cbRows f) onPurchase (over user (sets f v o)) cb = (storedPurchase f v o cb).or (registered (cbRows f) onPurchase user cb) := by
  unfold registered
  cases hr : (cbRows f).find? fun r => r.id == cb with
  | none =>
    have ht := rows_there f hf
    have : storedPurchase f v o cb = none := by
      unfold storedPurchase
      by_cases c1 : cb = 0x36
      · have := ht.1 0x36 (by simp); rw [← c1, hr] at this; simp at this
      by_cases c2 : cb = 0x23
      · have := ht.1 0x23 (by simp); rw [← c2, hr] at this; simp at this
      by_cases c4 : cb = 0x16
      · by_cases h0 : f = 0
        · have := ht.2 h0; rw [← c4, hr] at this; simp at this
        · simp [c4, h0]
      · simp [c1, c2, c4]
    simp [this]
  | some r =>
    have hm := List.mem_of_find?_eq_some hr
    have hid : r.id = cb := by have := List.find?_some hr; simpa using this
    obtain ⟨n1, n2, n3, n4, n5, c1, c2, c3, c4, c5⟩ := rows_named f hf r hm
    simp only [Option.bind_some, lookup_over _ _ _ (sets_nodup f v o), sets_lookup, stored, n1, n2, n3, n4, n5, storedPurchase]
    have hu := hok r hm
    rw [hid] at n1 n2 n3 n4 n5 c1 c2 c3 c4 c5 ⊢
    by_cases e1 : cb = 0x23
    · have hc := c1 e1
      rw [hc]
      simp only [e1, if_true]
      cases v.additional <;> simp [onPurchase]
    · simp only [e1, if_false]
      by_cases e2 : cb = 0x36
      · have hc := c2 e2
        rw [hc]
        simp only [e2, if_true]
        split <;> simp [onPurchase]
      · simp only [e2, if_false]
        by_cases e3 : cb = 0x19
        · have hc := c3 e3
          rw [hc] at hu ⊢
          subst e3
          simp only [if_true]
          split
          · simp only [Option.map_some, Option.some_or, Option.bind_some, onPurchase]
            cases hl : user.lookup r.name with
            | none => simp
            | some x => simp [fits_default (hu x hl)]
          · simp
        · simp only [e3, if_false]
          by_cases e4 : cb = 0x33
          · have hc := c4 e4
            rw [hc] at hu ⊢
            subst e4
            simp only [if_true]
            split
            · simp only [Option.map_some, Option.some_or, Option.bind_some, onPurchase]
              cases hl : user.lookup r.name with
              | none => simp
              | some x => simp [fits_default (hu x hl)]
            · simp
          · simp only [e4, if_false]
            by_cases e5 : cb = 0x16
            · have hc := c5 e5
              rw [hc]
              simp only [e5, if_true]
              split <;> simp [onPurchase]
            · simp [e5]

/-! ### The answers -/

theorem numbered_lookup (k : Nat) (l : List Nat) (i : Nat) :
    (numbered k l).lookup i = if i < k then none else (l[i - k]?).map .int := by
  have gen : ∀ (l : List Nat) (n : Nat), ((l.zipIdx n).map fun p => (p.2 + k, Handler.int p.1)).lookup i =
      if i < n + k then none else (l[i - (n + k)]?).map .int := by
    intro l
    induction l with
    | nil => intro n; simp
    | cons x l ih =>
      intro n
      simp only [List.zipIdx_cons, List.map_cons, List.lookup]
      by_cases h : i = n + k
      · subst h; simp
      · have hb : (i == n + k) = false := by simpa using h
        simp only [hb, ih]
        by_cases h2 : i < n + k
        · have : i < n + 1 + k := by omega
          simp [h2, this]
        · have h3 : ¬ i < n + 1 + k := by omega
          have h4 : i - (n + k) = (i - (n + 1 + k)) + 1 := by omega
          simp [h2, h3, h4]
  have := gen l 0
  simpa [numbered] using this

/-- The switches have different identities. -/
def Objs.Distinct (o : Objs) : Prop := [o.speed, o.liveries, o.sounds, o.parts].Nodup

theorem switch_at (v : Veh) (o : Objs) (ho : o.Distinct) (g : Handler) :
    (switches v o g).lookup o.speed = some ⟨.info, [(0x15, .int (v.speed.getD 0))], g⟩ ∧
    (switches v o g).lookup o.liveries = some ⟨.subtype, numbered 0 v.names, .int 0x400⟩ ∧
    (switches v o g).lookup o.sounds = some ⟨.info, v.sounds, g⟩ ∧
    (switches v o g).lookup o.parts = some ⟨.info, numbered 1 v.parts, .int 0x7fff⟩ := by
  simp only [Objs.Distinct, List.nodup_cons, List.mem_cons, List.not_mem_nil, or_false, not_or] at ho
  obtain ⟨⟨a1, a2, a3⟩, ⟨b1, b2⟩, c1, -⟩ := ho
  have e1 : (o.liveries == o.speed) = false := by simpa using Ne.symm a1
  have e2 : (o.sounds == o.speed) = false := by simpa using Ne.symm a2
  have e3 : (o.parts == o.speed) = false := by simpa using Ne.symm a3
  have e4 : (o.sounds == o.liveries) = false := by simpa using Ne.symm b1
  have e5 : (o.parts == o.liveries) = false := by simpa using Ne.symm b2
  have e6 : (o.parts == o.sounds) = false := by simpa using Ne.symm c1
  simp [switches, List.lookup, e1, e2, e3, e4, e5, e6]

theorem follow_map (f : Nat) (v : Veh) (o : Objs) (ho : o.Distinct) (g : Handler) (cb st info : Nat) :
    ownAnswer f v g cb st info = (storedMap f v o cb).map (follow (switches v o g) st info) := by
  obtain ⟨s1, s2, s3, s4⟩ := switch_at v o ho g
  unfold ownAnswer storedMap
  by_cases c1 : cb = 0x36
  · subst c1
    simp only [if_true]
    by_cases hf : f = 1
    · cases hs : v.speed with
      | none => simp [hf]
      | some x =>
        rw [hs] at s1
        simp only [hf, follow, s1, Option.map_some, Option.isSome_some, and_self, if_true, Option.getD_some, Sw.eval, Var.value, List.lookup]
        by_cases hi : info % 256 = 21
        · simp [hi]
        · have hb : (info % 256 == 21) = false := by simpa using hi
          simp [hi, hb]
    · simp [hf]
  by_cases c2 : cb = 0x19
  · subst c2
    by_cases hn : 1 < v.names.length
    · have hn' : 2 ≤ v.names.length := hn
      have hlk := numbered_lookup 0 v.names (st % 256)
      simp only [Nat.reduceEqDiff, reduceIte, hn, hn', and_self, if_true, follow, s2, Option.map_some, Option.getD_some, Sw.eval, Var.value, hlk]
      cases v.names[st % 256]? <;> simp
    · have hn' : ¬ 2 ≤ v.names.length := by omega
      simp [hn, hn']
  by_cases c3 : cb = 0x33
  · subst c3
    by_cases hf : f = 0 ∧ v.sounds ≠ []
    · simp [hf.1, hf.2, follow, s3, Sw.eval, Var.value]
    · have : ¬ (f = 0 ∧ (51 = 51) ∧ v.sounds ≠ []) := fun h => hf ⟨h.1, h.2.2⟩
      by_cases h0 : f = 0
      · simp_all
      · simp [h0]
  by_cases c4 : cb = 0x16
  · subst c4
    by_cases hf : f = 0 ∧ v.parts ≠ []
    · have hlk := numbered_lookup 1 v.parts (info % 256)
      simp only [Nat.reduceEqDiff, false_and, and_false, if_false, hf.1, hf.2, follow, s4, Sw.eval, Var.value, hlk, ne_eq, not_false_eq_true, and_self, if_true, Option.map_some, Option.getD_some]
      by_cases hi : info % 256 = 0
      · simp [hi]
      · have : ¬ info % 256 < 1 := by omega
        simp only [hi, this, if_false]
        cases v.parts[info % 256 - 1]? <;> simp
    · by_cases h0 : f = 0
      · simp_all
      · simp [h0]
  · simp [c1, c2, c3, c4]

theorem follow_purchase (f : Nat) (v : Veh) (o : Objs) (ho : o.Distinct) (g : Handler) (cb st info : Nat) :
    ownPurchase f v g cb info = (storedPurchase f v o cb).map (follow (switches v o g) st info) := by
  have hm := follow_map f v o ho g cb st info
  unfold ownAnswer storedMap at hm
  unfold ownPurchase storedPurchase
  by_cases c0 : cb = 0x23
  · subst c0
    cases v.additional <;> simp [follow]
  by_cases c1 : cb = 0x36
  · subst c1; simpa using hm
  by_cases c4 : cb = 0x16
  · subst c4; simpa using hm
  · simp [c0, c1, c4]

theorem made_ok {f : Nat} {graphics : Val} {properties : Option (List (String × Val))} {callbacks : List (String × Val)} {m : Mgr}
    (h : make f graphics properties callbacks = some m) (hp : ((properties.getD []).map (·.1)).Nodup) (hc : (callbacks.map (·.1)).Nodup) :
    ∀ r ∈ cbRows f, ∀ x, callbacks.lookup r.name = some x → (wrap r.cls x).isSome := (make_spec f graphics properties callbacks m hp hc h).cbsOk

/-- The map answer of a manager with the class's entries. -/
theorem map_over (f : Nat) (hf : f < 3) (v : Veh) (o : Objs) (ho : o.Distinct) (graphics : Val) (ps user : List (String × Val))
    (hok : ∀ r ∈ cbRows f, ∀ x, user.lookup r.name = some x → (wrap r.cls x).isSome) (cb st info : Nat) :
    follow (switches v o (drawn v graphics)) st info (mapAnswer f (graphicsOf v graphics) ps (over user (sets f v o)) cb info) =
      onTheMap f v o graphics ps user cb st info := by
  have hg : f ≠ 16 ∧ f ≠ 18 ∧ f ≠ 19 := by omega
  unfold onTheMap
  rw [follow_map f v o ho]
  unfold mapAnswer forCallback
  rw [used_given _ f _ _ hg, used_given _ f _ _ hg, registered_map f hf v o user hok]
  by_cases h0 : cb = 0
  · subst h0
    have : storedMap f v o 0 = none := by simp [storedMap]
    simp [this]
  · simp only [h0, if_false]
    cases hsm : storedMap f v o cb with
    | none => simp
    | some x => simp

/-- **C85** On the map a train, road vehicle or ship answers every callback as its class says (the names of the liveries, the sounds, the
articulated parts, the speed of fast road vehicles), and otherwise as the user registered. -/
theorem map_answer (f : Nat) (hf : f < 3) (v : Veh) (o : Objs) (ho : o.Distinct) (graphics : Val) (properties : Option (List (String × Val)))
    (callbacks : List (String × Val)) (m m' : Mgr) (hp : ((properties.getD []).map (·.1)).Nodup) (hc : (callbacks.map (·.1)).Nodup)
    (h : make f graphics properties callbacks = some m) (h' : setup f v o m = some m')
    (t : Tree) (maps : List (Nat × Tree)) (hmap : makeMap m' = some (some (t, maps))) (cb subtype info : Nat) :
    follow (switches v o (drawn v graphics)) subtype info (t.eval cb info) =
      onTheMap f v o graphics (properties.getD []) callbacks cb subtype info := by
  have hmk := setup_is_make f (by omega) v o graphics properties callbacks m m' hc h h'
  rw [map_dispatch_exact f _ properties _ m' t maps hp (over_nodup _ _ hc) hmk hmap cb info]
  exact map_over f hf v o ho graphics _ callbacks (made_ok h hp hc) cb subtype info

theorem any_over (f : Nat) (hf : f < 3) (v : Veh) (o : Objs) (ps user : List (String × Val))
    (hok : ∀ r ∈ cbRows f, ∀ x, user.lookup r.name = some x → (wrap r.cls x).isSome) :
    AnyPurchase f ps (over user (sets f v o)) ↔ OwnInPurchase f v ∨ AnyPurchase f ps user := by
  unfold AnyPurchase forCallback
  have hr := registered_purchase f hf v o user hok
  constructor
  · rintro (⟨cb, h⟩ | h)
    · by_cases h0 : cb = 0
      · simp [h0] at h
      · simp only [h0, if_false, hr] at h
        cases hs : storedPurchase f v o cb with
        | none => rw [hs] at h; exact .inr (.inl ⟨cb, by simpa [h0] using h⟩)
        | some x =>
          left
          unfold storedPurchase at hs
          unfold OwnInPurchase
          split at hs
          · left; intro e; simp [e] at hs
          · split at hs
            · split at hs
              · next h1 => exact .inr (.inr ⟨h1.1, by intro e; simp [e] at h1⟩)
              · cases hs
            · split at hs
              · split at hs
                · next h1 => exact .inr (.inl h1)
                · cases hs
              · cases hs
    · exact .inr (.inr h)
  · rintro (h | ⟨cb, h⟩ | h)
    · left
      rcases h with h | ⟨rfl, h⟩ | ⟨rfl, h⟩
      · refine ⟨0x23, ?_⟩
        rw [if_neg (by decide), hr]
        cases ha : v.additional with
        | none => exact absurd ha h
        | some n => simp [storedPurchase, ha]
      · refine ⟨0x16, ?_⟩
        rw [if_neg (by decide), hr]
        simp [storedPurchase, h]
      · refine ⟨0x36, ?_⟩
        rw [if_neg (by decide), hr]
        cases ha : v.speed with
        | none => exact absurd ha h
        | some n => simp [storedPurchase, ha]
    · left
      refine ⟨cb, ?_⟩
      by_cases h0 : cb = 0
      · simp [h0] at h
      · simp only [h0, if_false, hr] at h ⊢
        cases storedPurchase f v o cb <;> simp_all
    · exact .inr h

open Classical in
/-- **C85** In the purchase list: if the class or the user registered anything for it, what the class says, what the user registered for
the list, and otherwise the graphics; if not, the graphics for the list, or else the same as on the map. -/
theorem purchase_answer (f : Nat) (hf : f < 3) (v : Veh) (o : Objs) (ho : o.Distinct) (graphics : Val)
    (properties : Option (List (String × Val))) (callbacks : List (String × Val)) (m m' : Mgr)
    (hp : ((properties.getD []).map (·.1)).Nodup) (hc : (callbacks.map (·.1)).Nodup)
    (h : make f graphics properties callbacks = some m) (h' : setup f v o m = some m')
    (t : Tree) (maps : List (Nat × Tree)) (hmap : makeMap m' = some (some (t, maps))) (cb subtype info : Nat) :
    follow (switches v o (drawn v graphics)) subtype info ((inPurchaseList (t, maps)).eval cb info) =
      if OwnInPurchase f v ∨ AnyPurchase f (properties.getD []) callbacks then
        (ownPurchase f v (drawn v graphics) cb info).getD
          (follow (switches v o (drawn v graphics)) subtype info (userInPurchase f v graphics (properties.getD []) callbacks cb info))
      else ((shown v graphics).map (follow (switches v o (drawn v graphics)) subtype info)).getD
        (onTheMap f v o graphics (properties.getD []) callbacks cb subtype info) := by
  have hmk := setup_is_make f (by omega) v o graphics properties callbacks m m' hc h h'
  have hok := made_ok h hp hc
  have hg : f ≠ 16 ∧ f ≠ 18 ∧ f ≠ 19 := by omega
  rw [purchase_dispatch_exact f _ properties _ m' t maps hp (over_nodup _ _ hc) hmk hmap cb info]
  have hb : Spec.Buyable f := by
    unfold Spec.Buyable
    have : f = 0 ∨ f = 1 ∨ f = 2 := by omega
    rcases this with rfl | rfl | rfl <;> simp
  unfold purchaseAnswer
  rw [if_neg (not_not_intro hb)]
  simp only [any_over f hf v o _ callbacks hok, used_given _ f _ _ hg]
  by_cases ha : OwnInPurchase f v ∨ AnyPurchase f (properties.getD []) callbacks
  · simp only [if_pos ha]
    rw [follow_purchase f v o ho _ cb subtype info]
    unfold userInPurchase forCallback
    rw [registered_purchase f hf v o callbacks hok]
    have hd : (onMap .graphics (graphicsOf v graphics)).getD (.int 0) = drawn v graphics := rfl
    have hs : ((onPurchase .graphics (graphicsOf v graphics)).or (onMap .graphics (graphicsOf v graphics))).getD (.int 0) =
        (shown v graphics).getD (drawn v graphics) := by
      have e1 : onPurchase .graphics (graphicsOf v graphics) = shown v graphics := rfl
      rw [e1, ← hd]
      cases shown v graphics <;> simp
    rw [hd, hs]
    by_cases h0 : cb = 0
    · subst h0
      have : storedPurchase f v o 0 = none := by simp [storedPurchase]
      simp [this]
    · simp only [h0, if_false]
      cases hsm : storedPurchase f v o cb with
      | none => simp
      | some x => simp
  · simp only [if_neg ha]
    have e1 : onPurchase .graphics (graphicsOf v graphics) = shown v graphics := rfl
    rw [e1, ← map_over f hf v o ho graphics _ callbacks hok cb subtype info]
    cases shown v graphics <;> rfl

/-! ### Acceptance and flags -/

theorem assign_total (f : Nat) : ∀ (l : List (String × Val)) (d : List (Nat × CB)),
    (∀ kv ∈ l, (∃ x, kv.2 = .raw x) ∧ ((cbRows f).find? fun r => r.name == kv.1).isSome) → (assignAll (setCallback f) d l).isSome := by
  intro l
  induction l with
  | nil => intro d _; rfl
  | cons kv l ih =>
    intro d h
    obtain ⟨⟨x, hx⟩, hr⟩ := h kv List.mem_cons_self
    obtain ⟨r, hr⟩ := Option.isSome_iff_exists.1 hr
    have : setCallback f d kv = some (dictSet d r.id (construct r.cls x)) := by simp [setCallback, hr, hx, wrap]
    simp only [assignAll, this, Option.bind_eq_bind, Option.bind_some]
    exact ih _ fun kv' h' => h kv' (List.mem_cons_of_mem _ h')

theorem names_known (f : Nat) (hf : f < 3) :
    (∀ n ∈ ["additional_text", "change_properties", "cargo_subtype_text", "sound_effect"], ((cbRows f).find? fun r => r.name == n).isSome) ∧
    (f = 0 → ((cbRows f).find? fun r => r.name == "articulated_part").isSome) := by
  match f, hf with
  | 0, _ => decide +kernel
  | 1, _ => decide +kernel
  | 2, _ => decide +kernel

/-- **C85** The classes register their callbacks without exceptions, whatever the user registered. -/
theorem setup_total (f : Nat) (hf : f < 3) (v : Veh) (o : Objs) (graphics : Val) (properties : Option (List (String × Val)))
    (callbacks : List (String × Val)) (m : Mgr) (h : make f graphics properties callbacks = some m) : (setup f v o m).isSome := by
  obtain ⟨_, _, hfe, _⟩ := make_cbs h
  have hfe' : (setGraphics m v.graphics v.purchase).feature = f := by unfold setGraphics; split <;> exact hfe
  unfold setup setAttrs
  rw [Option.isSome_map, hfe']
  apply assign_total
  intro kv hkv
  obtain ⟨hk, hk0⟩ := names_known f hf
  have hcases : kv ∈ textSet v ∨ (kv ∈ speedSet v o) ∨ kv ∈ liverySet v o ∨ (f = 0 ∧ (kv ∈ soundSet v o ∨ kv ∈ partSet v o)) := by
    unfold sets at hkv
    simp only [List.mem_append] at hkv
    rcases hkv with ((h | h) | h) | h
    · exact .inl h
    · split at h
      · exact .inr (.inl h)
      · simp at h
    · exact .inr (.inr (.inl h))
    · split at h
      · next h0 => exact .inr (.inr (.inr ⟨h0, by simpa using h⟩))
      · simp at h
  rcases hcases with h | h | h | ⟨h0, h | h⟩
  · unfold textSet at h
    split at h
    · simp only [List.mem_singleton] at h; subst h; exact ⟨⟨_, rfl⟩, hk _ (by simp)⟩
    · simp at h
  · unfold speedSet at h
    split at h
    · simp only [List.mem_singleton] at h; subst h; exact ⟨⟨_, rfl⟩, hk _ (by simp)⟩
    · simp at h
  · unfold liverySet at h
    split at h
    · simp only [List.mem_singleton] at h; subst h; exact ⟨⟨_, rfl⟩, hk _ (by simp)⟩
    · simp at h
  · unfold soundSet at h
    split at h
    · simp at h
    · simp only [List.mem_singleton] at h; subst h; exact ⟨⟨_, rfl⟩, hk _ (by simp)⟩
  · unfold partSet at h
    split at h
    · simp at h
    · simp only [List.mem_singleton] at h; subst h; exact ⟨⟨_, rfl⟩, hk0 h0⟩

theorem stored36 (f : Nat) (v : Veh) (o : Objs) :
    (storedMap f v o 0x36).isSome = decide (f = 1 ∧ v.speed ≠ none) ∧ (storedPurchase f v o 0x36).isSome = decide (f = 1 ∧ v.speed ≠ none) := by
  unfold storedMap storedPurchase
  cases v.speed <;> by_cases h : f = 1 <;> simp [h]

/-- **C85** A vehicle cannot be generated exactly if there is nothing to draw it with, or if handlers of single properties are registered
and the property callback too: by the user, or by the class because it is a fast road vehicle. -/
theorem vehicle_refused_iff (f : Nat) (hf : f < 3) (v : Veh) (o : Objs) (graphics : Val) (properties : Option (List (String × Val)))
    (callbacks : List (String × Val)) (m m' : Mgr) (hp : ((properties.getD []).map (·.1)).Nodup) (hc : (callbacks.map (·.1)).Nodup)
    (h : make f graphics properties callbacks = some m) (h' : setup f v o m = some m') :
    makeMap m' = none ↔ (v.graphics = none ∧ onMap .graphics graphics = none) ∨
      ((∃ i, (registered (propRows f) onMap (properties.getD []) i).isSome ∨ (registered (propRows f) onPurchase (properties.getD []) i).isSome) ∧
       ((f = 1 ∧ v.speed ≠ none) ∨
        (registered (cbRows f) onMap callbacks 0x36).isSome ∨ (registered (cbRows f) onPurchase callbacks 0x36).isSome)) := by
  have hmk := setup_is_make f (by omega) v o graphics properties callbacks m m' hc h h'
  have hok := made_ok h hp hc
  rw [refused_iff f _ properties _ m' hp (over_nodup _ _ hc) hmk, registered_map f hf v o callbacks hok, registered_purchase f hf v o callbacks hok]
  have hd : Spec.Drawn f := by
    unfold Spec.Drawn
    have : f = 0 ∨ f = 1 ∨ f = 2 := by omega
    rcases this with rfl | rfl | rfl <;> simp
  have e1 : onMap .graphics (graphicsOf v graphics) = v.graphics.or (onMap .graphics graphics) := rfl
  obtain ⟨s1, s2⟩ := stored36 f v o
  have e2 : ∀ (a b : Option Handler), (a.or b).isSome = (a.isSome || b.isSome) := by intro a b; cases a <;> simp
  rw [e1, e2, e2, s1, s2]
  have e3 : v.graphics.or (onMap .graphics graphics) = none ↔ v.graphics = none ∧ onMap .graphics graphics = none := by
    cases v.graphics <;> simp
  rw [e3]
  simp only [hd, true_and, Bool.or_eq_true, decide_eq_true_eq]
  constructor
  · rintro (h | ⟨h1, (h | h) | (h | h)⟩)
    · exact .inl h
    · exact .inr ⟨h1, .inl h⟩
    · exact .inr ⟨h1, .inr (.inl h)⟩
    · exact .inr ⟨h1, .inl h⟩
    · exact .inr ⟨h1, .inr (.inr h)⟩
  · rintro (h | ⟨h1, h | h | h⟩)
    · exact .inl h
    · exact .inr ⟨h1, .inl (.inl h)⟩
    · exact .inr ⟨h1, .inl (.inr h)⟩
    · exact .inr ⟨h1, .inr (.inr h)⟩

/-- **C85** The game is told to ask: the bit of a callback is set exactly if the user had set it, or registered the callback, or the class
answers it. -/
theorem asked_exactly (f : Nat) (hf : f < 3) (v : Veh) (o : Objs) (ho : o.Distinct) (graphics : Val) (properties : Option (List (String × Val)))
    (callbacks : List (String × Val)) (m m' : Mgr) (hp : ((properties.getD []).map (·.1)).Nodup) (hc : (callbacks.map (·.1)).Nodup)
    (h : make f graphics properties callbacks = some m) (h' : setup f v o m = some m')
    (cb extra : Option Nat) (r : Row) (hr : r ∈ cbRows f) (i : Nat) (hi : r.flag = 2 ^ i) (hi8 : i < 8) :
    ((setFlagProps m' cb extra).1.getD 0).testBit i = true ↔
      (cb.getD 0).testBit i = true ∨ isRegistered f callbacks r ∨
      (ownAnswer f v (.int 0) r.id 0 0).isSome ∨ (ownPurchase f v (.int 0) r.id 0).isSome := by
  have hmk := setup_is_make f (by omega) v o graphics properties callbacks m m' hc h h'
  have hok := made_ok h hp hc
  rw [(flag_iff_registered f _ properties _ m' hp (over_nodup _ _ hc) hmk cb extra (by omega) (by omega) r hr i hi).1 hi8]
  unfold isRegistered
  rw [registered_map f hf v o callbacks hok, registered_purchase f hf v o callbacks hok, follow_map f v o ho, follow_purchase f v o ho _ _ 0]
  cases storedMap f v o r.id <;> cases storedPurchase f v o r.id <;> simp

/-! ### Examples -/

/-- A train with two liveries, a sound and two articulated parts, and an own callback of the user. -/
def exTrain : Veh := { graphics := some (.obj 1 none), additional := some 7, names := [10, 11], sounds := [(3, .int 60)], parts := [100, 101] }

/-- Identities for the example. -/
def exObjs : Objs := ⟨20, 21, 22, 23⟩

/-- The hypotheses hold of the example, and the answers are those expected. -/
example : exObjs.Distinct ∧ ∃ m m' t maps, make 0 (.raw none) none [("start_stop", .raw (some (.int 5)))] = some m ∧
    setup 0 exTrain exObjs m = some m' ∧ makeMap m' = some (some (t, maps)) ∧
    follow (switches exTrain exObjs (.obj 1 none)) 1 0 (t.eval 0x19 0) = .int 11 ∧
    follow (switches exTrain exObjs (.obj 1 none)) 2 0 (t.eval 0x19 0) = .int 0x400 ∧
    follow (switches exTrain exObjs (.obj 1 none)) 0 2 (t.eval 0x16 2) = .int 101 ∧
    follow (switches exTrain exObjs (.obj 1 none)) 0 3 (t.eval 0x16 3) = .int 0x7fff ∧
    follow (switches exTrain exObjs (.obj 1 none)) 0 3 (t.eval 0x33 3) = .int 60 ∧
    follow (switches exTrain exObjs (.obj 1 none)) 0 4 (t.eval 0x33 4) = .obj 1 none ∧
    t.eval 0x31 0 = .int 5 ∧ (inPurchaseList (t, maps)).eval 0x23 0 = .int 7 ∧ setFlagProps m' none none = (some 0xb0, none) :=
  ⟨by unfold Objs.Distinct; decide, _, _, _, _, rfl, rfl, rfl, rfl, rfl, rfl, rfl, rfl, rfl, rfl, rfl, rfl⟩

/-- **C85 boundary** A fast road vehicle with a handler for any property cannot be generated, though each alone can. -/
theorem fast_road_vehicle_properties (s : Nat) (x : Handler) :
    (∃ m m', make 1 (.raw (some (.int 1))) (some [("power", .raw (some x))]) [] = some m ∧ setup 1 { speed := some s } exObjs m = some m' ∧
      makeMap m' = none) ∧
    (∃ m m', make 1 (.raw (some (.int 1))) none [] = some m ∧ setup 1 { speed := some s } exObjs m = some m' ∧ (makeMap m').isSome) ∧
    ∃ m m', make 1 (.raw (some (.int 1))) (some [("power", .raw (some x))]) [] = some m ∧ setup 1 {} exObjs m = some m' ∧ (makeMap m').isSome :=
  ⟨⟨_, _, rfl, rfl, rfl⟩, ⟨_, _, rfl, rfl, rfl⟩, ⟨_, _, rfl, rfl, rfl⟩⟩

/-- **C85 boundary** The user's own handler of a callback the class registers is lost: here that of the sounds. -/
theorem own_sound_lost (x : Handler) (s : List (Nat × Handler)) (hs : s ≠ []) (g : Handler) : ∃ m m' t maps,
    make 0 (.raw (some g)) none [("sound_effect", .raw (some x))] = some m ∧ setup 0 { sounds := s } exObjs m = some m' ∧
    makeMap m' = some (some (t, maps)) ∧ t.eval 0x33 0 = .obj exObjs.sounds none := by
  have e : s.isEmpty = false := by cases s with | nil => exact absurd rfl hs | cons => rfl
  refine ⟨_, ⟨0, [(0, .graphics (some g) none), (0x33, .default (some (.obj exObjs.sounds none)))], []⟩, _, _, rfl, ?_, rfl, rfl⟩
  have e2 : sets 0 { sounds := s } exObjs = [("sound_effect", .raw (some (.obj exObjs.sounds none)))] := by
    simp [sets, textSet, liverySet, soundSet, partSet, e]
  simp only [setup, e2]
  rfl

end Grf.VehicleCallbacks
