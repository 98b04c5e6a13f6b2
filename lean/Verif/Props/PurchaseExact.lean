import Verif.Props.Purchase
/-!
# C41: which groups are accepted, and whose properties are set
-/
namespace Grf.Purchase
open Grf.PropC

/-- What the documentation asks of a group: two entries or more, the first a vehicle, and the same of the groups in it. -/
inductive Proper : Item → Prop
  | vehicle (v : Nat) : Proper (.veh v)
  | group (name : Option String) (v : Nat) (second : Item) (rest : List Item) (h : Proper second) (hr : ∀ i ∈ rest, Proper i) :
      Proper (.group name (.veh v :: second :: rest))

mutual
theorem proper_iff : ∀ i : Item, i.accepted = true ↔ Proper i
  | .veh v => by simp only [Item.accepted, true_iff]; exact .vehicle v
  | .group name items => by
    have hall := propers_iff items
    rw [Item.accepted]
    simp only [Bool.and_eq_true, decide_eq_true_eq, hall]
    constructor
    · rintro ⟨⟨h1, h2⟩, h3⟩
      match items, h1, h2 with
      | .veh v :: second :: rest, _, _ =>
        exact .group name v second rest (h3 _ (by simp)) (fun i hi => h3 i (by simp [hi]))
    · intro h
      cases h with
      | group _ v second rest h hr =>
        refine ⟨⟨by simp, rfl⟩, ?_⟩
        intro i hi
        simp only [List.mem_cons] at hi
        rcases hi with rfl | rfl | hi
        · exact .vehicle v
        · exact h
        · exact hr i hi
theorem propers_iff : ∀ l : List Item, acceptedAll l = true ↔ ∀ i ∈ l, Proper i
  | [] => by simp [acceptedAll]
  | i :: l => by
    have h1 := proper_iff i
    have h2 := propers_iff l
    rw [acceptedAll]
    simp [h1, h2]
end

/-- **C41** Groups are refused exactly when they have fewer than two entries or begin with a group, at any depth. -/
theorem groups_accepted_iff (order : List Item) : acceptedAll order = true ↔ ∀ i ∈ order, Proper i := propers_iff order

theorem loop_defs (f : Nat) (rid : Nat → Int) (vg : Nat → Option Nat) : ∀ (l : List Nat) (prev : Option Nat), ∀ d ∈ spritesLoop f rid vg prev l,
    d.feature = f ∧ d.count = 1 ∧ (∃ v ∈ l, d.firstId = rid v) ∧
    ∀ p ∈ d.props, (p.1 = "sort_purchase_list" ∨ p.1 = "variant_group") := by
  intro l
  induction l with
  | nil => intro prev d hd; simp [spritesLoop] at hd
  | cons v l ih =>
    intro prev d hd
    rw [spritesLoop, List.mem_append] at hd
    rcases hd with hd | hd
    · unfold defineFor at hd
      cases prev <;> cases hvg : vg v <;>
        simp only [hvg, List.append_nil, List.nil_append, List.cons_append, List.isEmpty_nil, List.isEmpty_cons, Bool.false_eq_true, if_false, if_true,
          List.not_mem_nil, List.mem_singleton] at hd
      all_goals (subst hd; exact ⟨rfl, rfl, ⟨v, by simp, rfl⟩, by simp⟩)
    · obtain ⟨h1, h2, ⟨w, hw, h3⟩, h4⟩ := ih _ d hd
      exact ⟨h1, h2, ⟨w, by simp [hw], h3⟩, h4⟩

/-- **C41** Only the vehicles of the order are touched, one at a time, in the feature of the first of them, and only their place in the
list and their variant group. -/
theorem only_these_vehicles (order : List Item) (ha : ∀ i ∈ order, Proper i) (hn : (vehiclesOf order).Nodup) (first : Nat) (others : List Nat)
    (hv : vehiclesOf order = first :: others) (s : PState) (hs : setPurchaseOrder order = some s) (featureOf : Nat → Nat) (rid : Nat → Int)
    (ds : List Def0) (hd : getSprites featureOf rid true s = some ds) :
    ∀ d ∈ ds, d.feature = featureOf first ∧ d.count = 1 ∧ (∃ v ∈ vehiclesOf order, d.firstId = rid v) ∧
      ∀ p ∈ d.props, (p.1 = "sort_purchase_list" ∨ p.1 = "variant_group") := by
  obtain ⟨s', hs', hflat, -⟩ := setPurchaseOrder_spec order ((groups_accepted_iff order).2 ha) hn (by rw [hv]; simp)
  rw [hs] at hs'
  cases hs'
  simp only [getSprites, if_true, Option.some.injEq] at hd
  subst hd
  intro d hd
  obtain ⟨h1, h2, ⟨v, hv1, h3⟩, h4⟩ := loop_defs _ _ _ _ _ d hd
  refine ⟨?_, h2, ⟨v, ?_, h3⟩, h4⟩
  · rw [h1, feature, hflat, hv]; rfl
  · rw [← hflat]; simpa using hv1

example : (∀ i ∈ sample, Proper i) ∧ ¬ Proper (.group none [.veh 1]) ∧ ¬ Proper (.group none [.group none [.veh 1, .veh 2], .veh 3]) := by
  refine ⟨(groups_accepted_iff _).1 (by decide +kernel), ?_, ?_⟩ <;> (rw [← proper_iff]; decide +kernel)

example : ((setPurchaseOrder sample >>= getSprites (fun v => v) (fun v => v) true).map fun ds => ds.map (·.feature)) = some [1, 1, 1, 1, 1] := by
  decide +kernel

end Grf.Purchase
