import Verif.Model.Purchase
import Verif.Props.Misc
/-!
# C41: the purchase list has the order the user gave
-/
namespace Grf.Purchase

open Grf.PropC Grf.Misc

/-! ### Specification -/

mutual
/-- The vehicles in the order they are written down. -/
def Item.vehicles : Item → List Nat
  | .veh v => [v]
  | .group _ items => vehiclesOf items
def vehiclesOf : List Item → List Nat
  | [] => []
  | i :: l => i.vehicles ++ vehiclesOf l
end

mutual
/-- Who is a variant of whom, inside a group led by `lead` (`none`: in no group): a vehicle is a variant of the leader; the leader of a
nested group, its first vehicle, is a variant of the outer leader, and the rest of the nested group are variants of the nested leader. -/
def Item.parents (lead : Option Nat) : Item → List (Nat × Option Nat)
  | .veh v => [(v, lead)]
  | .group _ items => groupParents lead items
def groupParents (lead : Option Nat) : List Item → List (Nat × Option Nat)
  | .veh f :: rest => (f, lead) :: parentsOf (some f) rest
  | _ => []
def parentsOf (lead : Option Nat) : List Item → List (Nat × Option Nat)
  | [] => []
  | i :: l => i.parents lead ++ parentsOf lead l
end

mutual
/-- The names of the groups around each vehicle, outermost first; `none` for a group without a name. -/
def Item.around (path : List (Option String)) : Item → List (Nat × List (Option String))
  | .veh v => [(v, path)]
  | .group name items => aroundAll (path ++ [name]) items
def aroundAll (path : List (Option String)) : List Item → List (Nat × List (Option String))
  | [] => []
  | i :: l => i.around path ++ aroundAll path l
end

/-- The game's command "insert `v` before `t`" on the purchase list. -/
def moveBefore (l : List Int) (v t : Int) : List Int :=
  let l' := l.filter fun x => x ≠ v
  l'.takeWhile (fun x => x ≠ t) ++ v :: l'.dropWhile (fun x => x ≠ t)

/-- What a definition does to the purchase list: property `sort_purchase_list` moves its item before the given one. -/
def applySort (l : List Int) (d : Def0) : List Int :=
  match d.props.lookup "sort_purchase_list" with
  | some [.int t] => moveBefore l d.firstId t
  | _ => l

/-- What a definition says about variants: item and parent. -/
def variantOf (d : Def0) : Option (Int × Int) :=
  match d.props.lookup "variant_group" with
  | some [.int p] => some (d.firstId, p)
  | _ => none

/-! ### The order -/

theorem takeWhile_all {α : Type} (p : α → Bool) (l m : List α) (x : α) (h : ∀ a ∈ l, p a = true) (hx : p x = false) :
    (l ++ x :: m).takeWhile p = l ∧ (l ++ x :: m).dropWhile p = x :: m := by
  induction l with
  | nil => simp [hx]
  | cons a l ih =>
    obtain ⟨h1, h2⟩ := ih fun b hb => h b (by simp [hb])
    simp [h a (by simp), h1, h2]

theorem applySort_define (f : Nat) (rid : Nat → Int) (vg : Nat → Option Nat) (p v : Nat) (l : List Int) :
    (defineFor f rid vg (some p) v).foldl applySort l = moveBefore l (rid v) (rid p) := by
  simp only [defineFor, List.cons_append, List.isEmpty_cons, Bool.false_eq_true, if_false, List.foldl_cons, List.foldl_nil, applySort,
    List.lookup_cons, beq_self_eq_true]

theorem applySort_first (f : Nat) (rid : Nat → Int) (vg : Nat → Option Nat) (v : Nat) (l : List Int) :
    (defineFor f rid vg none v).foldl applySort l = l := by
  cases h : vg v with
  | none => simp [defineFor, h]
  | some p =>
    have : ("sort_purchase_list" == "variant_group") = false := by decide
    simp [defineFor, h, applySort, List.lookup_cons, this]

/-- The loop from some point: `done` (in the user's order) has been put in place. -/
theorem loop_order (f : Nat) (rid : Nat → Int) (vg : Nat → Option Nat) (A B : List Int) : ∀ (todo : List Nat) (d : Nat) (done : List Nat),
    ((todo.reverse ++ d :: done).map rid).Nodup →
    (spritesLoop f rid vg (some d) todo).foldl applySort
        (A.filter (fun x => x ∉ (d :: done).map rid) ++ (d :: done).map rid ++ B.filter (fun x => x ∉ (d :: done).map rid)) =
      A.filter (fun x => x ∉ (todo.reverse ++ d :: done).map rid) ++ (todo.reverse ++ d :: done).map rid ++
        B.filter (fun x => x ∉ (todo.reverse ++ d :: done).map rid) := by
  intro todo
  induction todo with
  | nil => intro d done _; simp [spritesLoop]
  | cons u todo ih =>
    intro d done hn
    have hn' : ((todo.reverse ++ u :: d :: done).map rid).Nodup := by simpa using hn
    have := ih u (d :: done) hn'
    simp only [spritesLoop, List.foldl_append, applySort_define]
    have hu : rid u ∉ (d :: done).map rid := by
      rw [List.map_append, List.nodup_append] at hn'
      have := hn'.2.1
      rw [List.map_cons, List.nodup_cons] at this
      exact this.1
    have hmove : moveBefore (A.filter (fun x => x ∉ (d :: done).map rid) ++ (d :: done).map rid ++
          B.filter (fun x => x ∉ (d :: done).map rid)) (rid u) (rid d) =
        A.filter (fun x => x ∉ (u :: d :: done).map rid) ++ (u :: d :: done).map rid ++
          B.filter (fun x => x ∉ (u :: d :: done).map rid) := by
      have hfilt : ∀ L : List Int, (L.filter (fun x => x ∉ (d :: done).map rid)).filter (fun x => x ≠ rid u) =
          L.filter (fun x => x ∉ (u :: d :: done).map rid) := by
        intro L
        rw [List.filter_filter]
        apply List.filter_congr
        intro x _
        simp only [List.map_cons, List.mem_cons, not_or, ne_eq, Bool.decide_and, decide_not]
      have hkeep : ((d :: done).map rid).filter (fun x => x ≠ rid u) = (d :: done).map rid := by
        rw [List.filter_eq_self]
        intro x hx
        simp only [ne_eq, decide_eq_true_eq]
        intro he; exact hu (he ▸ hx)
      unfold moveBefore
      simp only [List.filter_append, hfilt, hkeep]
      have := takeWhile_all (fun x => decide (x ≠ rid d)) (A.filter (fun x => x ∉ (u :: d :: done).map rid))
        (done.map rid ++ B.filter (fun x => x ∉ (u :: d :: done).map rid)) (rid d)
        (by
          intro a ha
          have := (List.mem_filter.mp ha).2
          simp only [List.map_cons, List.mem_cons, not_or, decide_eq_true_eq] at this ⊢
          exact this.2.1)
        (by simp)
      simp only [List.map_cons, List.append_assoc, List.cons_append] at this ⊢
      rw [this.1, this.2]
    rw [hmove, this]
    simp

/-! ### What `SetPurchaseOrder` collects -/

/-- The names as the code keeps them: level and name, groups without a name left out. -/
def named (level : Nat) : List (Option String) → List (Nat × String)
  | [] => []
  | none :: l => named (level + 1) l
  | some n :: l => (level, n) :: named (level + 1) l

theorem named_append (p : List (Option String)) (x : Option String) : ∀ k,
    named k (p ++ [x]) = named k p ++ (match x with | some n => [(k + p.length, n)] | none => []) := by
  induction p with
  | nil => intro k; cases x <;> simp [named]
  | cons y p ih =>
    intro k
    have e : k + 1 + p.length = k + (p.length + 1) := by omega
    cases y <;> simp only [List.cons_append, named, ih, List.length_cons, e]

theorem named_keys (p : List (Option String)) : ∀ k, ∀ x ∈ named k p, k ≤ x.1 ∧ x.1 < k + p.length := by
  induction p with
  | nil => simp [named]
  | cons y p ih =>
    intro k x hx
    cases y with
    | none => have := ih (k + 1) x hx; simp only [List.length_cons]; omega
    | some n =>
      simp only [named, List.mem_cons] at hx
      rcases hx with rfl | hx
      · simp
      · have := ih (k + 1) x hx; simp only [List.length_cons]; omega

theorem dictSet_named (p : List (Option String)) (n : String) :
    dictSet (named 0 p) p.length n = named 0 (p ++ [some n]) := by
  rw [named_append, Sounds.dictSet_new]
  · simp
  · intro hm
    obtain ⟨x, hx, he⟩ := List.mem_map.mp hm
    have := named_keys p 0 x hx
    omega

mutual
theorem item_parents_keys : ∀ (i : Item) (lead : Option Nat), ∀ x ∈ i.parents lead, x.1 ∈ i.vehicles
  | .veh v => by intro lead x hx; simp only [Item.parents, List.mem_singleton] at hx; simp [hx, Item.vehicles]
  | .group name items => by
    intro lead x hx
    simp only [Item.parents] at hx
    simp only [Item.vehicles]
    match items, hx with
    | .veh f :: rest, hx =>
      simp only [groupParents, List.mem_cons] at hx
      rcases hx with rfl | hx
      · simp [vehiclesOf, Item.vehicles]
      · have := parents_keys rest (some f) x hx
        simp [vehiclesOf, this]
    | [], hx => simp [groupParents] at hx
    | .group _ _ :: _, hx => simp [groupParents] at hx
theorem parents_keys : ∀ (l : List Item) (lead : Option Nat), ∀ x ∈ parentsOf lead l, x.1 ∈ vehiclesOf l
  | [] => by simp [parentsOf]
  | i :: l => by
    intro lead x hx
    simp only [parentsOf, List.mem_append] at hx
    simp only [vehiclesOf, List.mem_append]
    rcases hx with hx | hx
    · exact Or.inl (item_parents_keys i lead x hx)
    · exact Or.inr (parents_keys l lead x hx)
end

/-- What processing some items does: the vehicles `vs` are appended, their parents and names are recorded, other vehicles are left alone. -/
structure Step (vs : List Nat) (ps : List (Nat × Option Nat)) (ns : List (Nat × List (Option String))) (s s' : PState) : Prop where
  flat : s'.flat = s.flat ++ vs
  other : ∀ v, v ∉ vs → s'.variantGroup v = s.variantGroup v ∧ s'.callbacks v = s.callbacks v
  parent : ∀ x ∈ ps, x.1 ∈ vs ∧ s'.variantGroup x.1 = x.2
  names : ∀ x ∈ ns, x.1 ∈ vs ∧ s'.callbacks x.1 = if named 0 x.2 = [] then none else some (named 0 x.2)

mutual
theorem processItem_step : ∀ (i : Item) (grp : Option Nat) (path : List (Option String)) (s : PState), i.accepted = true → i.vehicles.Nodup →
    (∀ v ∈ i.vehicles, s.variantGroup v = none ∧ s.callbacks v = none) →
    ∃ s', processItem grp path.length (named 0 path) i s = some s' ∧ Step i.vehicles (i.parents grp) (i.around path) s s'
  | .veh v => by
    intro grp path s _ _ hv
    have hv := hv v (by simp [Item.vehicles])
    refine ⟨_, by rw [processItem], ?_, ?_, ?_, ?_⟩
    · simp [addVehicle, Item.vehicles]
    · intro w hw
      simp only [Item.vehicles, List.mem_singleton] at hw
      constructor
      · cases grp with
        | none => simp [addVehicle]
        | some g => simp [addVehicle, upd, hw]
      · simp only [addVehicle]
        split <;> simp [upd, hw]
    · intro x hx
      simp only [Item.parents, List.mem_singleton] at hx
      subst hx
      refine ⟨by simp [Item.vehicles], ?_⟩
      cases grp with
      | none => simpa [addVehicle] using hv.1
      | some g => simp [addVehicle, upd]
    · intro x hx
      simp only [Item.around, List.mem_singleton] at hx
      subst hx
      refine ⟨by simp [Item.vehicles], ?_⟩
      simp only [addVehicle, List.isEmpty_iff]
      split
      · exact hv.2
      · simp [upd]
  | .group name items => by
    intro grp path s ha hn hv
    simp only [Item.accepted, Bool.and_eq_true, decide_eq_true_eq] at ha
    obtain ⟨⟨_, hst⟩, hacc⟩ := ha
    match items, hst, hacc, hn, hv with
    | .veh f :: rest, _, hacc, hn, hv =>
      simp only [Item.vehicles] at hn hv
      obtain ⟨s1, h1, st⟩ := processItems_step (.veh f :: rest) (some f) (path ++ [name]) s hacc hn hv
      have hcb : withName (named 0 path) path.length name = named 0 (path ++ [name]) := by
        cases name with
        | none => simp [named_append, withName]
        | some n => exact dictSet_named path n
      have hlen : path.length + 1 = (path ++ [name]).length := by simp
      have hf : s1.variantGroup f = some f := (st.parent (f, some f) (by simp [parentsOf, Item.parents])).2
      have hproc : processItem grp path.length (named 0 path) (.group name (.veh f :: rest)) s = closeGroup grp f s1 := by
        rw [processItem.eq_def]
        simp only [firstOf, Item.first, Option.bind_eq_bind, Option.bind_some]
        rw [hcb, hlen, h1]
        rfl
      have hclose : closeGroup grp f s1 = some { s1 with variantGroup := upd s1.variantGroup f grp } := by
        cases grp with
        | none => simp [closeGroup, hf]
        | some g => rfl
      refine ⟨_, hproc.trans hclose, ?_, ?_, ?_, ?_⟩
      · simpa [Item.vehicles] using st.flat
      · intro v hv'
        have hne : v ≠ f := by rintro rfl; exact hv' (by simp [Item.vehicles, vehiclesOf])
        simp only [upd, hne, if_false]
        exact st.other v (by simpa [Item.vehicles] using hv')
      · intro x hx
        simp only [Item.parents, groupParents, List.mem_cons] at hx
        rcases hx with rfl | hx
        · exact ⟨by simp [Item.vehicles, vehiclesOf], by simp [upd]⟩
        · obtain ⟨h2, h3⟩ := st.parent x (by simp [parentsOf, hx])
          refine ⟨by simpa [Item.vehicles] using h2, ?_⟩
          have hne : x.1 ≠ f := by
            have hin := parents_keys rest (some f) x hx
            simp only [vehiclesOf, Item.vehicles, List.singleton_append, List.nodup_cons] at hn
            rintro he
            exact hn.1 (he ▸ hin)
          simp only [upd, hne, if_false]
          exact h3
      · intro x hx
        obtain ⟨h2, h3⟩ := st.names x (by simpa [Item.around] using hx)
        exact ⟨by simpa [Item.vehicles] using h2, h3⟩
    | [], hst, _, _, _ => simp [startsWithVehicle] at hst
    | .group _ _ :: _, hst, _, _, _ => simp [startsWithVehicle] at hst
theorem processItems_step : ∀ (l : List Item) (grp : Option Nat) (path : List (Option String)) (s : PState), acceptedAll l = true →
    (vehiclesOf l).Nodup → (∀ v ∈ vehiclesOf l, s.variantGroup v = none ∧ s.callbacks v = none) →
    ∃ s', processItems grp path.length (named 0 path) l s = some s' ∧ Step (vehiclesOf l) (parentsOf grp l) (aroundAll path l) s s'
  | [] => by
    intro grp path s _ _ _
    exact ⟨s, by rw [processItems], ⟨by simp [vehiclesOf], by simp, by simp [parentsOf], by simp [aroundAll]⟩⟩
  | i :: l => by
    intro grp path s ha hn hv
    simp only [acceptedAll, Bool.and_eq_true] at ha
    simp only [vehiclesOf, List.nodup_append] at hn
    simp only [vehiclesOf, List.mem_append] at hv
    obtain ⟨s1, h1, st1⟩ := processItem_step i grp path s ha.1 hn.1 fun v hv' => hv v (Or.inl hv')
    have hdis : ∀ v ∈ vehiclesOf l, v ∉ i.vehicles := fun v h2 h3 => hn.2.2 v h3 v h2 rfl
    obtain ⟨s2, h2, st2⟩ := processItems_step l grp path s1 ha.2 hn.2.1 fun v hv' => by
      obtain ⟨e1, e2⟩ := st1.other v (hdis v hv')
      rw [e1, e2]; exact hv v (Or.inr hv')
    refine ⟨s2, by rw [processItems, h1]; exact h2, ?_, ?_, ?_, ?_⟩
    · rw [st2.flat, st1.flat, vehiclesOf, List.append_assoc]
    · intro v hv'
      simp only [vehiclesOf, List.mem_append, not_or] at hv'
      rw [(st2.other v hv'.2).1, (st2.other v hv'.2).2]
      exact st1.other v hv'.1
    · intro x hx
      simp only [parentsOf, List.mem_append] at hx
      simp only [vehiclesOf, List.mem_append]
      rcases hx with hx | hx
      · obtain ⟨e1, e2⟩ := st1.parent x hx
        refine ⟨Or.inl e1, ?_⟩
        rw [(st2.other x.1 fun h => hdis _ h e1).1]; exact e2
      · obtain ⟨e1, e2⟩ := st2.parent x hx
        exact ⟨Or.inr e1, e2⟩
    · intro x hx
      simp only [aroundAll, List.mem_append] at hx
      simp only [vehiclesOf, List.mem_append]
      rcases hx with hx | hx
      · obtain ⟨e1, e2⟩ := st1.names x hx
        refine ⟨Or.inl e1, ?_⟩
        rw [(st2.other x.1 fun h => hdis _ h e1).2]; exact e2
      · obtain ⟨e1, e2⟩ := st2.names x hx
        exact ⟨Or.inr e1, e2⟩
end

/-- The generated commands, applied in the order they are emitted to any purchase list in which the last vehicle of the
order occurs once (`A ++ last :: B`), put all the vehicles, in the order the user gave, where that last vehicle was; every other
vehicle keeps its place around them. -/
theorem sprites_order (s : PState) (featureOf : Nat → Nat) (rid : Nat → Int) (ds : List Def0)
    (init : List Nat) (last : Nat) (A B : List Int)
    (hd : getSprites featureOf rid true s = some ds)
    (hfl : s.flat = init ++ [last]) (hn : (s.flat.map rid).Nodup) (hlast : rid last ∉ A ∧ rid last ∉ B) :
    ds.foldl applySort (A ++ rid last :: B) =
      A.filter (fun x => x ∉ s.flat.map rid) ++ s.flat.map rid ++ B.filter (fun x => x ∉ s.flat.map rid) := by
  simp only [getSprites, if_true, Option.some.injEq] at hd
  subst hd
  rw [hfl] at hn ⊢
  rw [List.reverse_append, List.reverse_singleton, List.singleton_append, spritesLoop, List.foldl_append, applySort_first]
  have := loop_order (feature featureOf s) rid s.variantGroup A B init.reverse last [] (by simpa using hn)
  rw [List.reverse_reverse] at this
  rw [← this]
  congr 1
  have hself : ∀ L : List Int, rid last ∉ L → L.filter (fun x => x ∉ [rid last]) = L := by
    intro L hL
    rw [List.filter_eq_self]
    intro x hx
    simp only [List.mem_singleton, decide_eq_true_eq]
    intro he; exact hL (he ▸ hx)
  simp only [List.map_cons, List.map_nil, hself A hlast.1, hself B hlast.2]
  simp

/-- Accepted items without repetition are processed as specified. -/
theorem setPurchaseOrder_spec (order : List Item) (ha : acceptedAll order = true) (hn : (vehiclesOf order).Nodup)
    (he : vehiclesOf order ≠ []) : ∃ s, setPurchaseOrder order = some s ∧ s.flat = vehiclesOf order ∧
      (∀ x ∈ parentsOf none order, s.variantGroup x.1 = x.2) ∧
      (∀ x ∈ aroundAll [] order, s.callbacks x.1 = if named 0 x.2 = [] then none else some (named 0 x.2)) := by
  obtain ⟨s, h1, st⟩ := processItems_step order none [] ⟨[], fun _ => none, fun _ => none⟩ ha hn (fun _ _ => ⟨rfl, rfl⟩)
  have hfl : s.flat = vehiclesOf order := by simpa using st.flat
  refine ⟨s, ?_, hfl, fun x hx => (st.parent x hx).2, fun x hx => (st.names x hx).2⟩
  have h1' : processItems none 0 [] order ⟨[], fun _ => none, fun _ => none⟩ = some s := h1
  simp [setPurchaseOrder, h1', hfl, he]

/-- **C41** (order): for every order built from vehicles and accepted variant groups (nested to any depth), no vehicle twice, the
generated commands, applied in the order they are emitted to any purchase list in which the last vehicle of the
order occurs once (`A ++ last :: B`), put all the vehicles, in the order the user wrote them down, where that last vehicle was; every
other vehicle keeps its place around them. -/
theorem purchase_order_applied (order : List Item) (featureOf : Nat → Nat) (rid : Nat → Int)
    (init : List Nat) (last : Nat) (A B : List Int)
    (ha : acceptedAll order = true) (hfl : vehiclesOf order = init ++ [last]) (hn : ((vehiclesOf order).map rid).Nodup)
    (hlast : rid last ∉ A ∧ rid last ∉ B) :
    ∃ ds, (setPurchaseOrder order >>= getSprites featureOf rid true) = some ds ∧
    ds.foldl applySort (A ++ rid last :: B) =
      A.filter (fun x => x ∉ (vehiclesOf order).map rid) ++ (vehiclesOf order).map rid ++
        B.filter (fun x => x ∉ (vehiclesOf order).map rid) := by
  obtain ⟨s, h1, h2, _⟩ := setPurchaseOrder_spec order ha (hn.of_map rid fun _ _ h he => h (he ▸ rfl)) (by simp [hfl])
  refine ⟨_, by rw [h1]; simp only [Option.bind_eq_bind, Option.bind_some, getSprites, if_true]; rfl, ?_⟩
  rw [← h2] at hfl hn ⊢
  exact sprites_order s featureOf rid _ init last A B (by simp [getSprites]) hfl hn hlast

/-- In particular: whatever the list was, afterwards the vehicles stand next to each other in the given order. -/
theorem purchase_order_contiguous (order : List Item) (featureOf : Nat → Nat) (rid : Nat → Int) (l : List Int)
    (ha : acceptedAll order = true) (hne : vehiclesOf order ≠ []) (hn : ((vehiclesOf order).map rid).Nodup)
    (hl : l.Nodup) (hin : ∀ v ∈ vehiclesOf order, rid v ∈ l) :
    ∃ ds A B, (setPurchaseOrder order >>= getSprites featureOf rid true) = some ds ∧
      ds.foldl applySort l = A ++ (vehiclesOf order).map rid ++ B ∧ (ds.foldl applySort l).Perm l := by
  obtain ⟨init, last, hfl⟩ : ∃ init last, vehiclesOf order = init ++ [last] := by
    rcases List.eq_nil_or_concat (vehiclesOf order) with h | ⟨i, x, h⟩
    · exact absurd h hne
    · exact ⟨i, x, by simpa using h⟩
  obtain ⟨A, B, rfl⟩ := List.append_of_mem (hin last (by simp [hfl]))
  have hlast : rid last ∉ A ∧ rid last ∉ B := by
    rw [List.nodup_append, List.nodup_cons] at hl
    exact ⟨fun h => hl.2.2 _ h _ (by simp) rfl, hl.2.1.1⟩
  obtain ⟨ds, h1, h2⟩ := purchase_order_applied order featureOf rid init last A B ha hfl hn hlast
  refine ⟨ds, _, _, h1, h2, ?_⟩
  rw [h2]
  apply (List.perm_ext_iff_of_nodup ?_ hl).mpr
  · intro x
    simp only [List.mem_append, List.mem_filter, decide_eq_true_eq, List.mem_cons]
    constructor
    · rintro ((h | h) | h)
      · exact Or.inl h.1
      · obtain ⟨v, hv, rfl⟩ := List.mem_map.mp h
        simpa using hin v hv
      · exact Or.inr (Or.inr h.1)
    · intro h
      by_cases hx : x ∈ (vehiclesOf order).map rid
      · exact Or.inl (Or.inr hx)
      · rcases h with h | rfl | h
        · exact Or.inl (Or.inl ⟨h, hx⟩)
        · exact absurd (List.mem_map.mpr ⟨last, by simp [hfl], rfl⟩) hx
        · exact Or.inr ⟨h, hx⟩
  · rw [List.nodup_append, List.nodup_cons] at hl
    obtain ⟨hA, ⟨_, hB⟩, hd⟩ := hl
    rw [List.nodup_append, List.nodup_append]
    refine ⟨⟨hA.filter _, hn, ?_⟩, hB.filter _, ?_⟩
    · intro a h3 b h4 he
      have := (List.mem_filter.mp h3).2
      simp only [decide_eq_true_eq] at this
      exact this (he ▸ h4)
    · intro a h3 b h4 he
      have h5 := List.mem_filter.mp h4
      simp only [decide_eq_true_eq] at h5
      rcases List.mem_append.mp h3 with h3 | h3
      · exact hd a (List.mem_filter.mp h3).1 b (by simp [h5.1]) he
      · exact h5.2 (he ▸ h3)

/-! ### Variants -/

mutual
theorem item_parents_map : ∀ (i : Item) (lead : Option Nat), i.accepted = true → (i.parents lead).map (·.1) = i.vehicles
  | .veh v => by intro lead _; simp [Item.parents, Item.vehicles]
  | .group name items => by
    intro lead ha
    simp only [Item.accepted, Bool.and_eq_true, decide_eq_true_eq] at ha
    obtain ⟨⟨_, hst⟩, hacc⟩ := ha
    simp only [Item.parents, Item.vehicles]
    match items, hst, hacc with
    | .veh f :: rest, _, hacc =>
      simp only [acceptedAll, Bool.and_eq_true] at hacc
      simp [groupParents, vehiclesOf, Item.vehicles, parents_map rest (some f) hacc.2]
    | [], hst, _ => simp [startsWithVehicle] at hst
    | .group _ _ :: _, hst, _ => simp [startsWithVehicle] at hst
theorem parents_map : ∀ (l : List Item) (lead : Option Nat), acceptedAll l = true → (parentsOf lead l).map (·.1) = vehiclesOf l
  | [] => by simp [parentsOf, vehiclesOf]
  | i :: l => by
    intro lead ha
    simp only [acceptedAll, Bool.and_eq_true] at ha
    simp [parentsOf, vehiclesOf, item_parents_map i lead ha.1, parents_map l lead ha.2]
end

theorem variantOf_define (f : Nat) (rid : Nat → Int) (vg : Nat → Option Nat) (prev : Option Nat) (v : Nat) :
    (defineFor f rid vg prev v).filterMap variantOf = (match vg v with | some p => [(rid v, rid p)] | none => []) := by
  have hne : ("variant_group" == "sort_purchase_list") = false := by decide
  cases prev <;> cases h : vg v <;> simp [defineFor, h, variantOf, List.lookup_cons, hne]

theorem variantOf_loop (f : Nat) (rid : Nat → Int) (vg : Nat → Option Nat) : ∀ (l : List Nat) (prev : Option Nat),
    (spritesLoop f rid vg prev l).filterMap variantOf = l.filterMap fun v => (vg v).map fun p => (rid v, rid p) := by
  intro l
  induction l with
  | nil => intro prev; simp [spritesLoop]
  | cons v l ih =>
    intro prev
    rw [spritesLoop, List.filterMap_append, ih, variantOf_define]
    cases h : vg v <;> simp [h]

/-- **C41** (variants): the generated definitions attach exactly the vehicles that have a parent to that parent: nothing is attached twice, to
another vehicle or to itself, and vehicles outside of groups and leaders of outermost groups are not attached. -/
theorem variants_attached (order : List Item) (featureOf : Nat → Nat) (rid : Nat → Int)
    (ha : acceptedAll order = true) (hne : vehiclesOf order ≠ []) (hn : (vehiclesOf order).Nodup) :
    ∃ ds, (setPurchaseOrder order >>= getSprites featureOf rid true) = some ds ∧
      ds.filterMap variantOf = (parentsOf none order).reverse.filterMap fun x => x.2.map fun p => (rid x.1, rid p) := by
  obtain ⟨s, h1, h2, h3, _⟩ := setPurchaseOrder_spec order ha hn hne
  refine ⟨_, by rw [h1]; simp only [Option.bind_eq_bind, Option.bind_some, getSprites, if_true]; rfl, ?_⟩
  rw [variantOf_loop, h2, ← parents_map order none ha, ← List.map_reverse, List.filterMap_map]
  have hcongr : ∀ (l : List (Nat × Option Nat)), (∀ x ∈ l, s.variantGroup x.1 = x.2) →
      l.filterMap ((fun v => (s.variantGroup v).map fun p => (rid v, rid p)) ∘ (·.1)) = l.filterMap fun x => x.2.map fun p => (rid x.1, rid p) := by
    intro l
    induction l with
    | nil => intro _; rfl
    | cons x l ih =>
      intro h
      simp only [List.filterMap_cons, Function.comp, h x (by simp)]
      rw [← ih fun y hy => h y (by simp [hy])]
  exact hcongr _ fun x hx => h3 x (List.mem_reverse.mp hx)

/-! ### Names of variant groups -/

theorem key_value (level : Nat) : 0x20 ||| (level <<< 8) = level * 256 + 32 := by
  have := Nat.two_pow_add_eq_or_of_lt (i := 8) (b := 32) (by decide) level
  rw [Nat.shiftLeft_eq, Nat.or_comm, Nat.mul_comm level]
  omega

theorem named_lookup (p : List (Option String)) : ∀ k q, (named k p).lookup q = if k ≤ q then (p[q - k]?).join else none := by
  induction p with
  | nil => intro k q; simp [named]
  | cons y p ih =>
    intro k q
    cases y with
    | none =>
      simp only [named, ih]
      split
      · rw [if_pos (by omega)]
        have : q - k = (q - (k + 1)) + 1 := by omega
        rw [this]; simp
      · split
        · have : q - k = 0 := by omega
          simp [this]
        · rfl
    | some n =>
      simp only [named, List.lookup_cons, ih]
      by_cases hq : q = k
      · subst hq; simp
      · have hb : (q == k) = false := by simpa using hq
        rw [hb]
        simp only
        split
        · rw [if_pos (by omega)]
          have : q - k = (q - (k + 1)) + 1 := by omega
          rw [this]; simp
        · rw [if_neg (by omega)]

theorem foldl_keys (names : List (Nat × String)) : ∀ (acc : List (Nat × String)),
    (acc.map (·.1) ++ names.map (fun p => 0x20 ||| (p.1 <<< 8))).Nodup →
    names.foldl (fun d p => dictSet d (0x20 ||| (p.1 <<< 8)) p.2) acc = acc ++ names.map fun p => (0x20 ||| (p.1 <<< 8), p.2) := by
  induction names with
  | nil => intro acc _; simp
  | cons p l ih =>
    intro acc hn
    rw [List.foldl_cons, Sounds.dictSet_new, ih]
    · simp
    · simpa using hn
    · simp only [List.map_cons] at hn
      intro hm
      exact (List.nodup_append.mp hn).2.2 _ hm _ (by simp) rfl

theorem named_nodup (p : List (Option String)) : ∀ k, ((named k p).map (·.1)).Nodup := by
  induction p with
  | nil => simp [named]
  | cons y p ih =>
    intro k
    cases y with
    | none => exact ih (k + 1)
    | some n =>
      simp only [named, List.map_cons, List.nodup_cons]
      refine ⟨?_, ih (k + 1)⟩
      intro hm
      obtain ⟨x, hx, he⟩ := List.mem_map.mp hm
      have := named_keys p (k + 1) x hx
      omega

/-- **C41** (names): asked (with `0x20 | level << 8` in `extra_callback_info1`) for the name of the group around a vehicle at a level, the
name callback answers with the name the user gave to exactly that group. Unnamed groups, levels at which there is no group and
any other question get the default. -/
theorem group_names_answered (order : List Item) (ha : acceptedAll order = true) (hne : vehiclesOf order ≠ []) (hn : (vehiclesOf order).Nodup)
    (v : Nat) (path : List (Option String)) (hv : (v, path) ∈ aroundAll [] order) :
    ∃ s, setPurchaseOrder order = some s ∧
      (∀ level, (nameRanges s v).lookup (level * 256 + 32) = (path[level]?).join) ∧
      (∀ q, (∀ level, q ≠ level * 256 + 32) → (nameRanges s v).lookup q = none) := by
  obtain ⟨s, h1, _, _, h4⟩ := setPurchaseOrder_spec order ha hn hne
  refine ⟨s, h1, ?_⟩
  have hcb := h4 (v, path) hv
  simp only at hcb
  have hr : nameRanges s v = (named 0 path).map fun p => (p.1 * 256 + 32, p.2) := by
    unfold nameRanges
    rw [hcb]
    by_cases he : named 0 path = []
    · simp [he]
    · simp only [he, if_false]
      rw [foldl_keys]
      · simp only [List.nil_append]
        apply List.map_congr_left
        intro p _; rw [key_value]
      · simp only [List.map_nil, List.nil_append]
        have := named_nodup path 0
        rw [List.nodup_iff_pairwise_ne, List.pairwise_map] at this ⊢
        refine this.imp ?_
        intro a b hab
        rw [key_value, key_value]; omega
  rw [hr]
  have hgen : ∀ (l : List (Nat × String)) (q : Nat), (l.map fun p => (p.1 * 256 + 32, p.2)).lookup (q * 256 + 32) = l.lookup q := by
    intro l q
    induction l with
    | nil => rfl
    | cons p l ih =>
      obtain ⟨a, b⟩ := p
      simp only [List.map_cons, List.lookup_cons, ih]
      by_cases h : q = a
      · simp [h]
      · have h' : (q * 256 + 32 == a * 256 + 32) = false := by simp only [beq_eq_false_iff_ne]; omega
        have h'' : (q == a) = false := by simpa using h
        rw [h', h'']
  refine ⟨fun level => ?_, fun q hq => ?_⟩
  · rw [hgen, named_lookup]; simp
  · rw [List.lookup_eq_none_iff]
    intro p hp
    obtain ⟨x, _, rfl⟩ := List.mem_map.mp hp
    simpa using hq x.1

/-! ### Encoding -/

theorem vehicle_entries (f : Nat) (hf : f < 4) : (table f).isSome ∧
    (∃ e, byName f "sort_purchase_list" = some e ∧ (byteOf e.code).isSome ∧ e.fmt = .idx) ∧
    (∃ e, byName f "variant_group" = some e ∧ (byteOf e.code).isSome ∧ e.fmt = .id) := by
  match f, hf with
  | 0, _ => exact ⟨rfl, ⟨_, rfl, by decide +kernel, rfl⟩, ⟨_, rfl, by decide +kernel, rfl⟩⟩
  | 1, _ => exact ⟨rfl, ⟨_, rfl, by decide +kernel, rfl⟩, ⟨_, rfl, by decide +kernel, rfl⟩⟩
  | 2, _ => exact ⟨rfl, ⟨_, rfl, by decide +kernel, rfl⟩, ⟨_, rfl, by decide +kernel, rfl⟩⟩
  | 3, _ => exact ⟨rfl, ⟨_, rfl, by decide +kernel, rfl⟩, ⟨_, rfl, by decide +kernel, rfl⟩⟩

/-- Every generated definition can be written, for vehicles of the four vehicle features with ids 0..65535. -/
theorem purchase_order_encodable (s : PState) (featureOf : Nat → Nat) (rid : Nat → Int) (ds : List Def0)
    (hf : feature featureOf s < 4) (hr : ∀ v, 0 ≤ rid v ∧ rid v < 65536) (hd : getSprites featureOf rid true s = some ds) :
    ∀ d ∈ ds, d.accepted = true ∧ d.getData.isSome := by
  simp only [getSprites, if_true, Option.some.injEq] at hd
  subst hd
  generalize feature featureOf s = f at hf
  obtain ⟨ht, ⟨e1, he1, hb1, hf1⟩, ⟨e2, he2, hb2, hf2⟩⟩ := vehicle_entries f hf
  have key : ∀ (l : List Nat) (prev : Option Nat), ∀ d ∈ spritesLoop f rid s.variantGroup prev l, d.accepted = true ∧ d.getData.isSome := by
    intro l
    induction l with
    | nil => simp [spritesLoop]
    | cons v l ih =>
      intro prev d hd
      rw [spritesLoop, List.mem_append] at hd
      rcases hd with hd | hd
      · have hs : ∀ p, (encodeProp f 1 ("sort_purchase_list", [.int (rid p)])).isSome := by
          intro p
          refine encodeProp_isSome he1 hb1 (by simp) ?_
          simp only [List.take_succ_cons, List.take_zero, List.mem_singleton, forall_eq, hf1, encode]
          have := hr p
          unfold encodeExtendedByte
          split
          · rw [packU_iff]; omega
          · rw [cat_iff]
            simp only [List.forall_mem_cons, List.not_mem_nil, false_implies, implies_true, and_true]
            constructor <;> rw [packU_iff] <;> omega
        have hv : ∀ p, (encodeProp f 1 ("variant_group", [.int (rid p)])).isSome := by
          intro p
          refine encodeProp_isSome he2 hb2 (by simp) ?_
          simp only [List.take_succ_cons, List.take_zero, List.mem_singleton, forall_eq, hf2, encode]
          have := hr p
          rw [packU_iff]; omega
        unfold defineFor at hd
        cases prev <;> cases hvg : s.variantGroup v <;>
          simp only [hvg, List.append_nil, List.nil_append, List.cons_append, List.isEmpty_nil, List.isEmpty_cons, Bool.false_eq_true, if_false, if_true,
            List.not_mem_nil, List.mem_singleton] at hd
        all_goals
          subst hd
          refine ⟨by simp [Def0.accepted, ht, he1, he2], getData_isSome _ (by simp only; omega) (by simp) (by simp) (hr v) ?_⟩
          simp only [List.forall_mem_cons, List.not_mem_nil, false_implies, implies_true, and_true, hs, hv]
      · exact ih _ d hd
  exact key _ _

/-- Without `set_variant_callbacks` nothing is generated, the build stops. -/
theorem callbacks_required (featureOf : Nat → Nat) (rid : Nat → Int) (s : PState) : getSprites featureOf rid false s = none := rfl

/-! ### A concrete case -/

/-- A train 1, a group "A" led by 2 with a nested group led by 3, and a train 5. -/
def sample : List Item := [.veh 1, .group (some "A") [.veh 2, .group (some "B") [.veh 3, .veh 4], .veh 6], .veh 5]

example : acceptedAll sample = true ∧ vehiclesOf sample = [1, 2, 3, 4, 6] ++ [5] ∧ (vehiclesOf sample).Nodup := by decide +kernel
example : parentsOf none sample = [(1, none), (2, none), (3, some 2), (4, some 3), (6, some 2), (5, none)] := by decide +kernel
example : aroundAll [] sample =
    [(1, []), (2, [some "A"]), (3, [some "A", some "B"]), (4, [some "A", some "B"]), (6, [some "A"]), (5, [])] := by decide +kernel
example : (setPurchaseOrder sample >>= getSprites (fun _ => 0) (fun v => v) true).map (·.foldl applySort [0, 6, 4, 3, 7, 5, 1, 8, 2]) =
    some [0, 7, 1, 2, 3, 4, 6, 5, 8] := by decide +kernel

end Grf.Purchase
