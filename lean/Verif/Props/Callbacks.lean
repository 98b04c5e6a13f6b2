import Verif.Model.Callbacks
import Verif.Props.Sounds
import Verif.Props.Define
/-!
# C42: callback switches dispatch each callback to its handler
-/
namespace Grf.Callbacks

open Grf.PropC

/-! ### Specification -/

/-- What the user registered for the map with a value assigned to a callback of a class. -/
def onMap : Cls → Val → Option Handler
  | .purchase, .raw _ => none
  | _, .raw h => h
  | _, .cb c => c.dflt

/-- What the user registered for the purchase list; a `DualCallback` given one handler uses it for both. -/
def onPurchase : Cls → Val → Option Handler
  | .default, .raw _ => none
  | .graphics, .raw _ => none
  | _, .raw h => h
  | _, .cb c => c.purch

/-- The handler registered for an id: what the user's dictionary has under the name the table gives to the id. -/
def registered (rows : List Row) (get : Cls → Val → Option Handler) (user : List (String × Val)) (id : Nat) : Option Handler :=
  (rows.find? fun r => r.id == id).bind fun r => (user.lookup r.name).bind (get r.cls)

/-- The game evaluates a property switch: the lowest byte of the callback's argument selects. -/
def Node.eval (info : Nat) : Node → Handler
  | .handler h => h
  | .props ranges default => (ranges.lookup (info % 256)).getD default

/-- The game evaluates what an item is mapped to, for a callback and its argument. -/
def Tree.eval (cb info : Nat) : Tree → Handler
  | .plain h => h
  | .switch ranges default => ((ranges.lookup cb).map (Node.eval info)).getD default

/-- In the purchase list the map entry 255 is used, if there is one. -/
def inPurchaseList (a : Tree × List (Nat × Tree)) : Tree := (a.2.lookup 255).getD a.1

/-! ### Tables -/

theorem cbRows_ok (f : Nat) : ((cbRows f).map Row.id).Nodup ∧ ((cbRows f).map Row.name).Nodup := by
  unfold cbRows
  split <;> exact ⟨by decide +kernel, by decide +kernel⟩

theorem propRows_ok (f : Nat) : ((propRows f).map Row.id).Nodup ∧ ((propRows f).map Row.name).Nodup := by
  unfold propRows
  split <;> exact ⟨by decide +kernel, by decide +kernel⟩

theorem cbRows_classes (f : Nat) : ∀ r ∈ cbRows f, r.cls ≠ .graphics := by
  unfold cbRows
  split <;> decide +kernel

theorem propRows_classes (f : Nat) : ∀ r ∈ propRows f, r.cls = .default ∨ r.cls = .dual := by
  unfold propRows
  split <;> decide +kernel

theorem wrap_dflt {cls : Cls} {v : Val} {c : CB} (h : wrap cls v = some c) : c.dflt = onMap cls v := by
  cases v with
  | raw x => simp only [wrap, Option.some.injEq] at h; subst h; cases cls <;> rfl
  | cb c' =>
    simp only [wrap] at h
    split at h
    · simp only [Option.some.injEq] at h; subst h; cases cls <;> rfl
    · cases h

theorem wrap_purch {cls : Cls} {v : Val} {c : CB} (h : wrap cls v = some c) : c.purch = onPurchase cls v := by
  cases v with
  | raw x =>
    simp only [wrap, Option.some.injEq] at h; subst h
    cases cls <;> rfl
  | cb c' =>
    simp only [wrap] at h
    split at h
    · simp only [Option.some.injEq] at h; subst h; cases cls <;> rfl
    · cases h

theorem wrap_cls {cls : Cls} {v : Val} {c : CB} (h : wrap cls v = some c) : c.cls = cls := by
  cases v with
  | raw x => simp only [wrap, Option.some.injEq] at h; subst h; cases cls <;> rfl
  | cb c' =>
    simp only [wrap] at h
    split at h
    · next he => simp only [Option.some.injEq] at h; subst h; exact he
    · cases h

theorem isSet_iff (c : CB) : c.isSet = (c.dflt.isSome || c.purch.isSome) := by cases c <;> simp [CB.isSet, CB.dflt, CB.purch]

/-! ### Assignments -/

/-- The callback object stored for an id. -/
def assigned (rows : List Row) (user : List (String × Val)) (id : Nat) : Option CB :=
  (rows.find? fun r => r.id == id).bind fun r => (user.lookup r.name).bind (wrap r.cls)

theorem find_of_mem {rows : List Row} {r : Row} (hn : (rows.map Row.id).Nodup) (h : r ∈ rows) : rows.find? (fun x => x.id == r.id) = some r := by
  induction rows with
  | nil => simp at h
  | cons x l ih =>
    simp only [List.map_cons, List.nodup_cons] at hn
    rw [List.find?_cons]
    rcases List.mem_cons.mp h with rfl | h
    · simp
    · have : (x.id == r.id) = false := by
        simp only [beq_eq_false_iff_ne]
        intro he; exact hn.1 (he ▸ List.mem_map.mpr ⟨r, h, rfl⟩)
      rw [this]; exact ih hn.2 h

theorem name_inj {rows : List Row} {r s : Row} (hn : (rows.map Row.name).Nodup) (h : r ∈ rows) (h' : s ∈ rows) (he : r.name = s.name) : r = s := by
  induction rows with
  | nil => simp at h
  | cons x l ih =>
    simp only [List.map_cons, List.nodup_cons] at hn
    rcases List.mem_cons.mp h with h1 | h1 <;> rcases List.mem_cons.mp h' with h2 | h2
    · exact h1.trans h2.symm
    · subst h1; exact absurd (he ▸ List.mem_map.mpr ⟨s, h2, rfl⟩) hn.1
    · subst h2; exact absurd (he ▸ List.mem_map.mpr ⟨r, h1, rfl⟩) hn.1
    · exact ih hn.2 h1 h2

theorem assignAll_lookup (rows : List Row) (hid : (rows.map Row.id).Nodup) (hnm : (rows.map Row.name).Nodup)
    (set : List (Nat × CB) → String × Val → Option (List (Nat × CB)))
    (hset : ∀ d kv d', set d kv = some d' → match rows.find? (fun r => r.name == kv.1) with
      | none => d' = d
      | some r => ∃ c, wrap r.cls kv.2 = some c ∧ d' = dictSet d r.id c) :
    ∀ (l : List (String × Val)) (d d' : List (Nat × CB)), (l.map (·.1)).Nodup → assignAll set d l = some d' →
      (∀ id, d'.lookup id = (assigned rows l id).or (d.lookup id)) ∧ ((d.map (·.1)).Nodup → (d'.map (·.1)).Nodup) ∧
      (∀ r ∈ rows, ∀ v, l.lookup r.name = some v → (wrap r.cls v).isSome) := by
  intro l
  induction l with
  | nil =>
    intro d d' _ h
    simp only [assignAll, Option.some.injEq] at h
    subst h
    refine ⟨fun id => ?_, fun h => h, by simp⟩
    have : assigned rows [] id = none := by
      unfold assigned
      cases rows.find? fun r => r.id == id <;> simp
    rw [this]; rfl
  | cons kv l ih =>
    obtain ⟨k, v⟩ := kv
    intro d d' hn h
    simp only [assignAll, Option.bind_eq_bind, Option.bind_eq_some_iff] at h
    obtain ⟨d1, h1, h2⟩ := h
    simp only [List.map_cons, List.nodup_cons] at hn
    obtain ⟨i1, i2, i3⟩ := ih d1 d' hn.2 h2
    have hs := hset d (k, v) d1 h1
    have hlk : ∀ r ∈ rows, l.lookup r.name ≠ none → r.name ≠ k := by
      intro r _ hne he
      apply hne
      rw [he, List.lookup_eq_none_iff]
      intro p hp
      have hp' : k ≠ p.1 := fun hp' => hn.1 (hp' ▸ List.mem_map.mpr ⟨p, hp, rfl⟩)
      simpa using hp'
    cases hf : rows.find? (fun r => r.name == k) with
    | none =>
      rw [hf] at hs
      simp only at hs
      subst hs
      have hno : ∀ r ∈ rows, r.name ≠ k := by
        intro r hr he
        have := List.find?_eq_none.mp hf r hr
        simp [he] at this
      have hnob : ∀ r ∈ rows, (r.name == k) = false := fun r hr => by simpa using hno r hr
      refine ⟨fun id => ?_, i2, ?_⟩
      · rw [i1]
        congr 1
        unfold assigned
        cases hr : rows.find? fun r => r.id == id with
        | none => rfl
        | some r => simp only [Option.bind_some, List.lookup_cons, hnob r (List.mem_of_find?_eq_some hr)]
      · intro r hr w hw
        rw [List.lookup_cons, hnob r hr] at hw
        exact i3 r hr w hw
    | some r =>
      rw [hf] at hs
      simp only at hs
      obtain ⟨c, hc, rfl⟩ := hs
      have hrm := List.mem_of_find?_eq_some hf
      have hrn : r.name = k := by simpa using List.find?_some hf
      have hother : ∀ s ∈ rows, s ≠ r → (s.name == k) = false := by
        intro s hs hne
        simp only [beq_eq_false_iff_ne]
        intro he; exact hne (name_inj hnm hs hrm (he.trans hrn.symm))
      refine ⟨fun id => ?_, fun hd => i2 (IdMap.nodup_dictSet hd), ?_⟩
      · rw [i1, lookup_dictSet]
        by_cases hid' : id = r.id
        · subst hid'
          have e1 : assigned rows l r.id = none := by
            unfold assigned
            rw [find_of_mem hid hrm]
            simp only [Option.bind_some]
            cases hl : l.lookup r.name with
            | none => rfl
            | some w => exact absurd hrn (hlk r hrm (by simp [hl]))
          have e2 : assigned rows ((k, v) :: l) r.id = some c := by
            unfold assigned
            rw [find_of_mem hid hrm]
            simp only [Option.bind_some, List.lookup_cons, hrn, beq_self_eq_true, hc]
          rw [e1, e2]; simp
        · rw [if_neg hid']
          congr 1
          unfold assigned
          cases hr : rows.find? fun r => r.id == id with
          | none => rfl
          | some s =>
            have hsid : s.id = id := by simpa using List.find?_some hr
            have : s ≠ r := by rintro rfl; exact hid' hsid.symm
            simp only [Option.bind_some, List.lookup_cons, hother s (List.mem_of_find?_eq_some hr) this]
      · intro s hs w hw
        by_cases hsr : s = r
        · subst hsr
          rw [List.lookup_cons, hrn, beq_self_eq_true] at hw
          simp only [Option.some.injEq] at hw
          subst hw; rw [hc]; rfl
        · rw [List.lookup_cons, hother s hs hsr] at hw
          exact i3 s hs w hw

theorem setCallback_spec (f : Nat) (d : List (Nat × CB)) (kv : String × Val) (d' : List (Nat × CB)) (h : setCallback f d kv = some d') :
    match (cbRows f).find? (fun r => r.name == kv.1) with
      | none => d' = d
      | some r => ∃ c, wrap r.cls kv.2 = some c ∧ d' = dictSet d r.id c := by
  simp only [setCallback, Option.bind_eq_bind, Option.bind_eq_some_iff, Option.some.injEq] at h
  obtain ⟨r, hr, c, hc, rfl⟩ := h
  rw [hr]; exact ⟨c, hc, rfl⟩

theorem setProperty_spec (f : Nat) (d : List (Nat × CB)) (kv : String × Val) (d' : List (Nat × CB)) (h : setProperty f d kv = some d') :
    match (propRows f).find? (fun r => r.name == kv.1) with
      | none => d' = d
      | some r => ∃ c, wrap r.cls kv.2 = some c ∧ d' = dictSet d r.id c := by
  unfold setProperty at h
  split at h
  · next hr => rw [hr]; simpa using h.symm
  · next r hr =>
    rw [hr]
    simp only [Option.map_eq_some_iff] at h
    obtain ⟨c, hc, rfl⟩ := h
    exact ⟨c, hc, rfl⟩

/-- What a manager contains. -/
structure Made (f : Nat) (graphics : Val) (ps cs : List (String × Val)) (m : Mgr) : Prop where
  feature : m.feature = f
  cbs : ∀ id, m.cbs.lookup id = (assigned (cbRows f) cs id).or (if id = 0 then wrap .graphics graphics else none)
  cbsKeys : (m.cbs.map (·.1)).Nodup
  props : ∀ id, m.props.lookup id = assigned (propRows f) ps id
  propsKeys : (m.props.map (·.1)).Nodup
  graphics : (wrap .graphics graphics).isSome
  vehicle : 3 < f → m.props = []
  cbsOk : ∀ r ∈ cbRows f, ∀ v, cs.lookup r.name = some v → (wrap r.cls v).isSome
  propsOk : ∀ r ∈ propRows f, ∀ v, ps.lookup r.name = some v → (wrap r.cls v).isSome

theorem make_spec (f : Nat) (graphics : Val) (properties : Option (List (String × Val))) (callbacks : List (String × Val)) (m : Mgr)
    (hp : ((properties.getD []).map (·.1)).Nodup) (hc : (callbacks.map (·.1)).Nodup)
    (h : make f graphics properties callbacks = some m) : Made f graphics (properties.getD []) callbacks m := by
  simp only [make, Option.bind_eq_bind, Option.bind_eq_some_iff] at h
  obtain ⟨g, hg, h⟩ := h
  split at h
  · cases h
  · next hcond =>
    simp only [Option.bind_eq_some_iff, Option.some.injEq] at h
    obtain ⟨ps, hps, cs, hcs, rfl⟩ := h
    obtain ⟨a1, a2, a3⟩ := assignAll_lookup (propRows f) (propRows_ok f).1 (propRows_ok f).2 _ (setProperty_spec f) _ _ _ hp hps
    obtain ⟨b1, b2, b3⟩ := assignAll_lookup (cbRows f) (cbRows_ok f).1 (cbRows_ok f).2 _ (setCallback_spec f) _ _ _ hc hcs
    refine ⟨rfl, fun id => ?_, b2 (by simp), fun id => ?_, a2 (by simp), by simp [hg], ?_, b3, a3⟩
    · simp only [b1, List.lookup_cons, List.lookup_nil, hg]
      by_cases h0 : id = 0
      · simp [h0]
      · have : (id == 0) = false := by simpa using h0
        simp [h0, this]
    · rw [a1]; simp
    · intro h3
      have : properties = none := by
        cases properties with
        | none => rfl
        | some x => exact absurd (Or.inr ⟨h3, rfl⟩) hcond
      subst this
      simp only [Option.getD_none, assignAll, Option.some.injEq] at hps
      exact hps.symm

theorem registered_assigned (rows : List Row) (user : List (String × Val)) (id : Nat) (get : Cls → Val → Option Handler) (sel : CB → Option Handler)
    (hw : ∀ cls v c, wrap cls v = some c → sel c = get cls v) (hok : ∀ r ∈ rows, ∀ v, user.lookup r.name = some v → (wrap r.cls v).isSome) :
    (assigned rows user id).bind sel = registered rows get user id := by
  unfold assigned registered
  cases hr : rows.find? fun r => r.id == id with
  | none => rfl
  | some r =>
    simp only [Option.bind_some]
    cases hu : user.lookup r.name with
    | none => rfl
    | some v =>
      simp only [Option.bind_some]
      have := hok r (List.mem_of_find?_eq_some hr) v hu
      cases hc : wrap r.cls v with
      | none => rw [hc] at this; cases this
      | some c => exact hw _ _ _ hc

/-! ### Dictionaries -/

theorem collect_lookup (get : CB → Option Handler) (k : Nat) : ∀ (cbs : List (Nat × CB)) (d : List (Nat × Node)), (cbs.map (·.1)).Nodup →
    (collect get d cbs).lookup k = if k = 0 then d.lookup 0 else (((cbs.lookup k).bind get).map Node.handler).or (d.lookup k) := by
  intro cbs
  induction cbs with
  | nil => intro d _; simp only [collect, List.foldl_nil, List.lookup_nil]; split <;> simp_all
  | cons x l ih =>
    obtain ⟨i, c⟩ := x
    intro d hn
    simp only [List.map_cons, List.nodup_cons] at hn
    have hl : l.lookup i = none := by
      rw [List.lookup_eq_none_iff]
      intro p hp
      have : i ≠ p.1 := fun h => hn.1 (h ▸ List.mem_map.mpr ⟨p, hp, rfl⟩)
      simpa using this
    have e : collect get d ((i, c) :: l) = collect get (if i = 0 then d else match get c with | some h => dictSet d i (.handler h) | none => d) l := rfl
    rw [e, ih _ hn.2, List.lookup_cons]
    by_cases hk : k = 0
    · subst hk
      simp only [if_true]
      by_cases hi : i = 0
      · simp [hi]
      · rw [if_neg hi]
        cases get c with
        | none => rfl
        | some h => simp only [lookup_dictSet]; rw [if_neg (Ne.symm hi)]
    · simp only [if_neg hk]
      by_cases hi : k = i
      · subst hi
        simp only [hl, if_neg hk, beq_self_eq_true, Option.bind_none, Option.map_none, Option.none_or, Option.bind_some]
        cases get c with
        | none => simp
        | some h => simp [lookup_dictSet]
      · have hb : (k == i) = false := by simpa using hi
        simp only [hb]
        congr 1
        by_cases h0 : i = 0
        · simp [h0]
        · rw [if_neg h0]
          cases get c with
          | none => rfl
          | some h => simp only [lookup_dictSet]; rw [if_neg hi]

theorem filterMap_lookup {α β : Type} (g : α → Option β) (k : Nat) : ∀ (l : List (Nat × α)), (l.map (·.1)).Nodup →
    (l.filterMap fun kv => (g kv.2).map fun h => (kv.1, h)).lookup k = (l.lookup k).bind g := by
  intro l
  induction l with
  | nil => intro _; rfl
  | cons x l ih =>
    obtain ⟨i, c⟩ := x
    intro hn
    simp only [List.map_cons, List.nodup_cons] at hn
    have hl : l.lookup i = none := by
      rw [List.lookup_eq_none_iff]
      intro p hp
      have : i ≠ p.1 := fun h => hn.1 (h ▸ List.mem_map.mpr ⟨p, hp, rfl⟩)
      simpa using this
    rw [List.filterMap_cons, List.lookup_cons]
    by_cases hk : k = i
    · subst hk
      simp only [beq_self_eq_true, Option.bind_some]
      cases hg : g c with
      | none => simp only [Option.map_none]; rw [ih hn.2, hl]; rfl
      | some h => simp
    · have hb : (k == i) = false := by simpa using hk
      simp only [hb]
      cases hg : g c with
      | none => simp only [Option.map_none]; exact ih hn.2
      | some h => simp only [Option.map_some, List.lookup_cons, hb]; exact ih hn.2

theorem filterMap_keys {α β : Type} (g : α → Option β) : ∀ (l : List (Nat × α)), (l.map (·.1)).Nodup →
    ((l.filterMap fun kv => (g kv.2).map fun h => (kv.1, h)).map (·.1)).Nodup := by
  intro l hn
  refine List.Sublist.nodup ?_ hn
  clear hn
  induction l with
  | nil => exact .slnil
  | cons x l ih =>
    rw [List.filterMap_cons]
    cases g x.2 with
    | none => exact .cons _ ih
    | some h => exact .cons_cons _ ih

theorem mergeDict_lookup {β : Type} (k : Nat) : ∀ (b a : List (Nat × β)), (b.map (·.1)).Nodup →
    (mergeDict a b).lookup k = (b.lookup k).or (a.lookup k) := by
  intro b
  induction b with
  | nil => intro a _; simp [mergeDict]
  | cons x l ih =>
    obtain ⟨i, c⟩ := x
    intro a hn
    simp only [List.map_cons, List.nodup_cons] at hn
    have e : mergeDict a ((i, c) :: l) = mergeDict (dictSet a i c) l := rfl
    rw [e, ih _ hn.2, lookup_dictSet, List.lookup_cons]
    by_cases hk : k = i
    · subst hk
      have hl : l.lookup k = none := by
        rw [List.lookup_eq_none_iff]
        intro p hp
        have : k ≠ p.1 := fun h => hn.1 (h ▸ List.mem_map.mpr ⟨p, hp, rfl⟩)
        simpa using this
      simp [hl]
    · have hb : (k == i) = false := by simpa using hk
      simp [hb, hk]

/-! ### The switch of the properties -/

/-- Two handlers of a property that have the same reference are the same (in the code, two actions that have no id yet have the same
reference `None`, so the user must not give two of them). -/
def SameRef (c : CB) : Prop := ∀ d p, c.dflt = some d → c.purch = some p → d.ref = p.ref → d = p

theorem sub_lookup (get : CB → Option Handler) (hget : ∀ c, (get c).isSome → c.isSet) {P : List (Nat × CB)} (hn : (P.map (·.1)).Nodup) (k : Nat) :
    ((P.filter fun kv => kv.2.isSet).filterMap fun kv => (get kv.2).map fun h => (kv.1, h)).lookup k = (P.lookup k).bind get := by
  rw [List.filterMap_filter, ← filterMap_lookup get k P hn]
  congr 1
  congr 1
  funext kv
  by_cases h : kv.2.isSet
  · simp [h]
  · have : get kv.2 = none := by
      cases hg : get kv.2 with
      | none => rfl
      | some x => exact absurd (hget kv.2 (by simp [hg])) h
    simp [h, this]

theorem lookup_mem {α : Type} {l : List (Nat × α)} {k : Nat} {v : α} (h : l.lookup k = some v) : (k, v) ∈ l := by
  induction l with
  | nil => simp at h
  | cons x l ih =>
    obtain ⟨i, c⟩ := x
    rw [List.lookup_cons] at h
    split at h
    · next hb =>
      simp only [beq_iff_eq] at hb
      simp only [Option.some.injEq] at h
      subst hb; subst h; exact List.mem_cons_self
    · exact List.mem_cons_of_mem _ (ih h)

theorem isEmpty_lookup {α : Type} {l : List (Nat × α)} (h : l.isEmpty = true) (k : Nat) : l.lookup k = none := by
  have : l = [] := by simpa using h
  simp [this]

theorem switches_map {P : List (Nat × CB)} (hn : (P.map (·.1)).Nodup) (hc : ∀ kv ∈ P, kv.2.cls = .default ∨ kv.2.cls = .dual)
    (hs : ∀ kv ∈ P, SameRef kv.2) (g : Handler) (info : Nat) :
    ((makeSwitches P g).1.map (Node.eval info)).getD g = ((P.lookup (info % 256)).bind CB.dflt).getD g := by
  have hd := sub_lookup CB.dflt (fun c h => by rw [isSet_iff]; simp [h]) hn (info % 256)
  have hp := sub_lookup CB.purch (fun c h => by rw [isSet_iff]; simp [h]) hn (info % 256)
  unfold makeSwitches
  simp only
  split
  · split
    · next he =>
      rw [← hd, isEmpty_lookup he]; rfl
    · simp only [Option.map_some, Option.getD_some, Node.eval, hd]
  · next hany =>
    simp only [Option.map_some, Option.getD_some, Node.eval]
    rw [mergeDict_lookup, hd, hp]
    · congr 1
      cases hl : P.lookup (info % 256) with
      | none => rfl
      | some c =>
        simp only [Option.bind_some]
        have hm := lookup_mem hl
        cases hpu : c.purch with
        | none => simp
        | some p =>
          simp only [Option.some_or]
          have hset : c.isSet := by rw [isSet_iff]; simp [hpu]
          have hdf : ¬ differs c := by
            intro h
            apply hany
            rw [List.any_eq_true]
            exact ⟨(_, c), List.mem_filter.mpr ⟨hm, hset⟩, h⟩
          have hcl := hc _ hm
          simp only at hcl
          cases c with
          | default d => simp [CB.purch] at hpu
          | purchase d => simp [CB.cls] at hcl
          | graphics d q => simp [CB.cls] at hcl
          | dual d q =>
            simp only [CB.purch] at hpu
            subst hpu
            cases d with
            | none => simp [differs] at hdf
            | some d =>
              simp only [differs, bne_iff_ne, ne_eq, Decidable.not_not] at hdf
              rw [hs _ hm d p rfl rfl hdf]
              rfl
    · exact filterMap_keys CB.purch _ ((List.Sublist.map _ List.filter_sublist).nodup hn)

theorem switches_purchase {P : List (Nat × CB)} (hn : (P.map (·.1)).Nodup) (g h : Handler) (info : Nat)
    (hh : (P.lookup (info % 256)).bind CB.purch = some h) :
    ∃ n, (makeSwitches P g).2 = some n ∧ n.eval info = h := by
  have hp := sub_lookup CB.purch (fun c h => by rw [isSet_iff]; simp [h]) hn (info % 256)
  rw [hh] at hp
  unfold makeSwitches
  simp only
  split
  · dsimp only
    rw [if_neg]
    · exact ⟨_, rfl, by simp only [Node.eval, hp, Option.getD_some]⟩
    · intro he; rw [isEmpty_lookup he] at hp; cases hp
  · refine ⟨_, rfl, ?_⟩
    simp only [Node.eval]
    rw [mergeDict_lookup, hp]
    · rfl
    · exact filterMap_keys CB.purch _ ((List.Sublist.map _ List.filter_sublist).nodup hn)

/-- Without a handler for the purchase list, the purchase list has the graphics or what is used on the map. -/
theorem switches_purchase_none {P : List (Nat × CB)} (hn : (P.map (·.1)).Nodup) (g : Handler) (info : Nat) (n : Node)
    (hh : (P.lookup (info % 256)).bind CB.purch = none) (hsw : (makeSwitches P g).2 = some n) :
    n.eval info = g ∨ (P.lookup (info % 256)).bind CB.dflt = some (n.eval info) := by
  have hd := sub_lookup CB.dflt (fun c h => by rw [isSet_iff]; simp [h]) hn (info % 256)
  have hp := sub_lookup CB.purch (fun c h => by rw [isSet_iff]; simp [h]) hn (info % 256)
  rw [hh] at hp
  unfold makeSwitches at hsw
  simp only at hsw
  split at hsw
  · dsimp only at hsw
    by_cases he : (List.filterMap (fun kv => Option.map (fun h => (kv.fst, h)) kv.snd.purch) (List.filter (fun kv => kv.snd.isSet) P)).isEmpty = true
    · rw [if_pos he] at hsw; cases hsw
    · rw [if_neg he] at hsw
      simp only [Option.some.injEq] at hsw
      subst hsw
      left; simp only [Node.eval, hp, Option.getD_none]
  · simp only [Option.some.injEq] at hsw
    subst hsw
    simp only [Node.eval]
    rw [mergeDict_lookup _ _ _ (filterMap_keys CB.purch _ ((List.Sublist.map _ List.filter_sublist).nodup hn)), hp, hd]
    cases (P.lookup (info % 256)).bind CB.dflt with
    | none => left; rfl
    | some x => right; rfl

/-! ### The theorems -/

/-- Features other than rail, road and tram types: no callback of theirs has the id 0, which is kept for the graphics. -/
theorem no_zero {f : Nat} (hf : f ≠ 16 ∧ f ≠ 18 ∧ f ≠ 19) : (cbRows f).find? (fun r => r.id == 0) = none := by
  unfold cbRows
  split <;> first | decide +kernel | omega

/-- The switches of the properties exist only for vehicles, on callback 0x36. -/
theorem only_vehicles {f : Nat} (hf : 3 < f) : propRows f = [] := by
  unfold propRows
  split <;> first | rfl | omega

/-- The graphics on the map. -/
abbrev gfx (graphics : Val) : Option Handler := onMap .graphics graphics

theorem graphics_entry {f : Nat} {graphics : Val} {ps cs : List (String × Val)} {m : Mgr} (hf : f ≠ 16 ∧ f ≠ 18 ∧ f ≠ 19)
    (hm : Made f graphics ps cs m) : ∃ g, m.cbs.lookup 0 = some g ∧ g.dflt = onMap .graphics graphics ∧ g.purch = onPurchase .graphics graphics := by
  have h := hm.cbs 0
  have ha : assigned (cbRows f) cs 0 = none := by unfold assigned; rw [no_zero hf]; rfl
  rw [ha] at h
  simp only [Option.none_or, if_true] at h
  cases hg : wrap .graphics graphics with
  | none => have := hm.graphics; rw [hg] at this; cases this
  | some g => exact ⟨g, by rw [h, hg], wrap_dflt hg, wrap_purch hg⟩

theorem cb_dflt {f : Nat} {graphics : Val} {ps cs : List (String × Val)} {m : Mgr} (hm : Made f graphics ps cs m) {cb : Nat} (h0 : cb ≠ 0) :
    (m.cbs.lookup cb).bind CB.dflt = registered (cbRows f) onMap cs cb := by
  rw [hm.cbs, if_neg h0, Option.or_none]
  exact registered_assigned _ _ _ _ _ (fun _ _ _ => wrap_dflt) hm.cbsOk

theorem cb_purch {f : Nat} {graphics : Val} {ps cs : List (String × Val)} {m : Mgr} (hm : Made f graphics ps cs m) {cb : Nat} (h0 : cb ≠ 0) :
    (m.cbs.lookup cb).bind CB.purch = registered (cbRows f) onPurchase cs cb := by
  rw [hm.cbs, if_neg h0, Option.or_none]
  exact registered_assigned _ _ _ _ _ (fun _ _ _ => wrap_purch) hm.cbsOk

theorem prop_dflt {f : Nat} {graphics : Val} {ps cs : List (String × Val)} {m : Mgr} (hm : Made f graphics ps cs m) (i : Nat) :
    (m.props.lookup i).bind CB.dflt = registered (propRows f) onMap ps i := by
  rw [hm.props]
  exact registered_assigned _ _ _ _ _ (fun _ _ _ => wrap_dflt) hm.propsOk

theorem prop_purch {f : Nat} {graphics : Val} {ps cs : List (String × Val)} {m : Mgr} (hm : Made f graphics ps cs m) (i : Nat) :
    (m.props.lookup i).bind CB.purch = registered (propRows f) onPurchase ps i := by
  rw [hm.props]
  exact registered_assigned _ _ _ _ _ (fun _ _ _ => wrap_purch) hm.propsOk

theorem mem_props {f : Nat} {graphics : Val} {ps cs : List (String × Val)} {m : Mgr} (hm : Made f graphics ps cs m) {kv : Nat × CB} (h : kv ∈ m.props) :
    ∃ r ∈ propRows f, ∃ v, ps.lookup r.name = some v ∧ wrap r.cls v = some kv.2 := by
  have hl := IdMap.lookup_of_mem hm.propsKeys h
  rw [hm.props] at hl
  unfold assigned at hl
  simp only [Option.bind_eq_some_iff] at hl
  obtain ⟨r, hr, v, hv, hw⟩ := hl
  exact ⟨r, List.mem_of_find?_eq_some hr, v, hv, hw⟩

/-- No property has two different handlers with the same reference. -/
def DistinctRefs (f : Nat) (ps : List (String × Val)) : Prop :=
  ∀ r ∈ propRows f, ∀ v, ps.lookup r.name = some v → ∀ d p, onMap r.cls v = some d → onPurchase r.cls v = some p → d.ref = p.ref → d = p

theorem start_lookup (n : Option Node) (k : Nat) : (start n).lookup k = if k = 0x36 then n else none := by
  cases n with
  | none => simp [start]
  | some x =>
    simp only [start, List.lookup_cons, List.lookup_nil]
    by_cases h : k = 0x36
    · simp [h]
    · have : (k == 0x36) = false := by simpa using h
      simp [h, this]

theorem registered_zero {f : Nat} (hf : f ≠ 16 ∧ f ≠ 18 ∧ f ≠ 19) (get : Cls → Val → Option Handler) (cs : List (String × Val)) :
    registered (cbRows f) get cs 0 = none := by
  unfold registered; rw [no_zero hf]; rfl

theorem collect_dflt {f : Nat} {graphics : Val} {ps cs : List (String × Val)} {m : Mgr} (hf : f ≠ 16 ∧ f ≠ 18 ∧ f ≠ 19) (hm : Made f graphics ps cs m)
    (a : Option Node) (cb : Nat) : (collect CB.dflt (start a) m.cbs).lookup cb =
      ((registered (cbRows f) onMap cs cb).map Node.handler).or (if cb = 0x36 then a else none) := by
  rw [collect_lookup CB.dflt cb m.cbs (start a) hm.cbsKeys]
  by_cases h0 : cb = 0
  · subst h0
    rw [registered_zero hf, start_lookup]; rfl
  · rw [if_neg h0, cb_dflt hm h0, start_lookup]

theorem collect_purch {f : Nat} {graphics : Val} {ps cs : List (String × Val)} {m : Mgr} (hf : f ≠ 16 ∧ f ≠ 18 ∧ f ≠ 19) (hm : Made f graphics ps cs m)
    (a : Option Node) (cb : Nat) : (collect CB.purch (start a) m.cbs).lookup cb =
      ((registered (cbRows f) onPurchase cs cb).map Node.handler).or (if cb = 0x36 then a else none) := by
  rw [collect_lookup CB.purch cb m.cbs (start a) hm.cbsKeys]
  by_cases h0 : cb = 0
  · subst h0
    rw [registered_zero hf, start_lookup]; rfl
  · rw [if_neg h0, cb_purch hm h0, start_lookup]

/-- What the pair of switches computed by `propertySwitches` answers. -/
theorem propertySwitches_map {f : Nat} {graphics : Val} {ps cs : List (String × Val)} {m : Mgr} (hm : Made f graphics ps cs m)
    (hs : DistinctRefs f ps) {g : Handler} {a b : Option Node} (h : propertySwitches m g = some (a, b)) (info : Nat) :
    (a.map (Node.eval info)).getD g = (registered (propRows f) onMap ps (info % 256)).getD g ∧
    (a.isSome → (m.cbs.lookup 0x36).bind CB.dflt = none) ∧ (b.isSome → (m.cbs.lookup 0x36).bind CB.purch = none) := by
  unfold propertySwitches at h
  split at h
  · split at h
    · cases h
    · next hset =>
      simp only [Option.some.injEq] at h
      have e := switches_map (P := m.props) hm.propsKeys (fun kv hkv => by
        obtain ⟨r, hr, v, _, hw⟩ := mem_props hm hkv
        rw [wrap_cls hw]; exact propRows_classes f r hr) (fun kv hkv => by
        obtain ⟨r, hr, v, hv, hw⟩ := mem_props hm hkv
        intro d p hd hp
        exact hs r hr v hv d p (by rw [← wrap_dflt hw, hd]) (by rw [← wrap_purch hw, hp])) g info
      rw [h] at e
      refine ⟨by rw [e, prop_dflt hm], fun _ => ?_, fun _ => ?_⟩
      all_goals
        cases hl : m.cbs.lookup 0x36 with
        | none => rfl
        | some c =>
          rw [hl] at hset
          simp only [Option.map_some, Option.getD_some, isSet_iff, Bool.or_eq_true, not_or] at hset
          simp_all
  · next hno =>
    simp only [Option.some.injEq, Prod.mk.injEq] at h
    obtain ⟨rfl, rfl⟩ := h
    refine ⟨?_, by simp, by simp⟩
    rw [← prop_dflt hm]
    cases hl : m.props.lookup (info % 256) with
    | none => rfl
    | some c =>
      have hm' := lookup_mem hl
      have : ¬ c.isSet := fun hc => hno (List.any_eq_true.mpr ⟨_, hm', hc⟩)
      rw [isSet_iff] at this
      simp only [Option.bind_some, Option.map_none, Option.getD_none]
      cases hd : c.dflt with
      | none => rfl
      | some x => simp [hd] at this

/-- On the map, every callback is answered by the handler registered for it, the property callback 0x36 by the handler registered for the
property, and everything else by the graphics (0 if there are none). Rail, road and tram types are not covered, see
`railtype_gui_lost`; neither are properties with two different handlers of the same reference, see `purchase_handler_on_map`. -/
theorem map_dispatch_partial (f : Nat) (graphics : Val) (properties : Option (List (String × Val))) (callbacks : List (String × Val)) (m : Mgr)
    (t : Tree) (maps : List (Nat × Tree))
    (hp : ((properties.getD []).map (·.1)).Nodup) (hc : (callbacks.map (·.1)).Nodup) (hf : f ≠ 16 ∧ f ≠ 18 ∧ f ≠ 19)
    (hs : DistinctRefs f (properties.getD []))
    (h : make f graphics properties callbacks = some m) (hmap : makeMap m = some (some (t, maps))) (cb info : Nat) :
    t.eval cb info =
      (registered (cbRows f) onMap callbacks cb).getD
        (if cb = 0x36 then (registered (propRows f) onMap (properties.getD []) (info % 256)).getD ((gfx graphics).getD (.int 0))
         else (gfx graphics).getD (.int 0)) := by
  have hm := make_spec f graphics properties callbacks m hp hc h
  obtain ⟨g, hg, hgd, hgp⟩ := graphics_entry hf hm
  simp only [makeMap, makeSwitch, hg, Option.bind_eq_bind, Option.bind_eq_some_iff] at hmap
  obtain ⟨⟨d0, maps0⟩, hmap, hr⟩ := hmap
  simp only [Option.some.injEq, Option.map_eq_some_iff, Prod.mk.injEq] at hr
  obtain ⟨t', rfl, rfl, rfl⟩ := hr
  split at hmap
  · cases hmap
  · split at hmap
    · cases hmap
    · next a b hps =>
      simp only [Option.some.injEq, Prod.mk.injEq] at hmap
      obtain ⟨hd, -⟩ := hmap
      obtain ⟨e1, e2, -⟩ := propertySwitches_map hm hs hps info
      have hl := collect_dflt hf hm a cb
      rw [hgd] at e1
      have key : (((collect CB.dflt (start a) m.cbs).lookup cb).map (Node.eval info)).getD ((gfx graphics).getD (.int 0)) =
          (registered (cbRows f) onMap callbacks cb).getD
        (if cb = 0x36 then (registered (propRows f) onMap (properties.getD []) (info % 256)).getD ((gfx graphics).getD (.int 0))
         else (gfx graphics).getD (.int 0)) := by
        rw [hl]
        cases hreg : registered (cbRows f) onMap callbacks cb with
        | some x => simp [Node.eval]
        | none =>
          simp only [Option.map_none, Option.none_or, Option.getD_none]
          by_cases h36 : cb = 0x36
          · simp only [h36, if_true]; exact e1
          · simp [h36]
      split at hd
      · simp only [Option.some.injEq] at hd
        subst hd
        simp only [Tree.eval, hgd]
        exact key
      · next hne =>
        split at hd
        · simp only [Option.map_eq_some_iff] at hd
          obtain ⟨x, hx, rfl⟩ := hd
          simp only [Bool.not_eq_true, Bool.not_eq_false'] at hne
          rw [← key, isEmpty_lookup hne, gfx, ← hgd, hx]
          rfl
        · cases hd

/-- The shape of what is generated. -/
theorem generated {f : Nat} {graphics : Val} {ps cs : List (String × Val)} {m : Mgr} (hf : f ≠ 16 ∧ f ≠ 18 ∧ f ≠ 19) (hm : Made f graphics ps cs m)
    {t : Tree} {maps : List (Nat × Tree)} (hmap : makeMap m = some (some (t, maps))) :
    ∃ a b, propertySwitches m ((gfx graphics).getD (.int 0)) = some (a, b) ∧
      (t = .switch (collect CB.dflt (start a) m.cbs) ((gfx graphics).getD (.int 0)) ∨
        collect CB.dflt (start a) m.cbs = [] ∧ hasGraphics f = true ∧ ∃ x, gfx graphics = some x ∧ t = .plain x) ∧
      maps = (if hasPurchase f then
            if !(collect CB.purch (start b) m.cbs).isEmpty then
              [(255, .switch (collect CB.purch (start b) m.cbs) (((onPurchase .graphics graphics).or (gfx graphics)).getD (.int 0)))]
            else match onPurchase .graphics graphics with
              | some x => [(255, .plain x)]
              | none => []
          else []) := by
  obtain ⟨g, hg, hgd, hgp⟩ := graphics_entry hf hm
  simp only [makeMap, makeSwitch, hg, Option.bind_eq_bind, Option.bind_eq_some_iff] at hmap
  obtain ⟨⟨d0, maps0⟩, hmap, hr⟩ := hmap
  simp only [Option.some.injEq, Option.map_eq_some_iff, Prod.mk.injEq] at hr
  obtain ⟨t', rfl, rfl, rfl⟩ := hr
  split at hmap
  · cases hmap
  · split at hmap
    · cases hmap
    · next a b hps =>
      simp only [Option.some.injEq, Prod.mk.injEq] at hmap
      obtain ⟨hd, hmm⟩ := hmap
      refine ⟨a, b, by rw [gfx, ← hgd]; exact hps, ?_, ?_⟩
      · split at hd
        · simp only [Option.some.injEq] at hd
          subst hd
          left; rw [gfx, ← hgd]
        · next hne =>
          split at hd
          · next hgr =>
            simp only [Option.map_eq_some_iff] at hd
            obtain ⟨x, hx, rfl⟩ := hd
            simp only [Bool.not_eq_true, Bool.not_eq_false'] at hne
            exact .inr ⟨by simpa using hne, by rw [← hm.feature]; exact hgr, x, by rw [gfx, ← hgd, hx], rfl⟩
          · cases hd
      · rw [← hmm, hm.feature, gfx, ← hgd, ← hgp]
        cases g.purch <;> rfl

theorem lookup_ne_nil {α : Type} {l : List (Nat × α)} {k : Nat} {v : α} (h : l.lookup k = some v) : l.isEmpty = false := by
  cases l with
  | nil => simp at h
  | cons x l => rfl

/-- In the purchase list, every callback with a handler for the purchase list is answered by it. -/
theorem purchase_dispatch_partial (f : Nat) (graphics : Val) (properties : Option (List (String × Val))) (callbacks : List (String × Val)) (m : Mgr)
    (t : Tree) (maps : List (Nat × Tree))
    (hp : ((properties.getD []).map (·.1)).Nodup) (hc : (callbacks.map (·.1)).Nodup) (hf : f ≠ 16 ∧ f ≠ 18 ∧ f ≠ 19) (hpu : hasPurchase f = true)
    (h : make f graphics properties callbacks = some m) (hmap : makeMap m = some (some (t, maps))) (cb info : Nat) (x : Handler)
    (hx : registered (cbRows f) onPurchase callbacks cb = some x) : (inPurchaseList (t, maps)).eval cb info = x := by
  have hm := make_spec f graphics properties callbacks m hp hc h
  obtain ⟨a, b, _, _, hmaps⟩ := generated hf hm hmap
  have hl := collect_purch hf hm b cb
  rw [hx] at hl
  simp only [Option.map_some, Option.some_or] at hl
  rw [if_pos hpu, lookup_ne_nil hl] at hmaps
  simp only [Bool.not_false, if_true] at hmaps
  rw [hmaps]
  simp only [inPurchaseList, List.lookup_cons, beq_self_eq_true, Option.getD_some, Tree.eval, hl, Option.map_some, Node.eval]

/-- In the purchase list, every property with a handler for the purchase list is answered by it. -/
theorem purchase_property (f : Nat) (graphics : Val) (properties : Option (List (String × Val))) (callbacks : List (String × Val)) (m : Mgr)
    (t : Tree) (maps : List (Nat × Tree))
    (hp : ((properties.getD []).map (·.1)).Nodup) (hc : (callbacks.map (·.1)).Nodup)
    (h : make f graphics properties callbacks = some m) (hmap : makeMap m = some (some (t, maps))) (info : Nat) (x : Handler)
    (hx : registered (propRows f) onPurchase (properties.getD []) (info % 256) = some x) : (inPurchaseList (t, maps)).eval 0x36 info = x := by
  have hm := make_spec f graphics properties callbacks m hp hc h
  have hv : f < 4 := by
    apply Classical.byContradiction
    intro hv
    rw [only_vehicles (by omega)] at hx
    simp [registered] at hx
  have hf : f ≠ 16 ∧ f ≠ 18 ∧ f ≠ 19 := by omega
  obtain ⟨a, b, hps, _, hmaps⟩ := generated hf hm hmap
  have hset : m.props.any (fun kv => kv.2.isSet) := by
    rw [← prop_purch hm] at hx
    simp only [Option.bind_eq_some_iff] at hx
    obtain ⟨c, hc1, hc2⟩ := hx
    rw [List.any_eq_true]
    exact ⟨_, lookup_mem hc1, by rw [isSet_iff]; simp [hc2]⟩
  unfold propertySwitches at hps
  rw [if_pos hset] at hps
  split at hps
  · cases hps
  · next hno =>
    simp only [Option.some.injEq] at hps
    obtain ⟨n, hn, he⟩ := switches_purchase hm.propsKeys ((gfx graphics).getD (.int 0)) x info (by rw [prop_purch hm]; exact hx)
    rw [hps] at hn
    simp only at hn
    subst hn
    have hl := collect_purch hf hm (some n) 0x36
    have hnone : registered (cbRows f) onPurchase callbacks 0x36 = none := by
      rw [← cb_purch hm (by decide)]
      cases hl : m.cbs.lookup 0x36 with
      | none => rfl
      | some c =>
        rw [hl] at hno
        simp only [Option.map_some, Option.getD_some, isSet_iff, Bool.or_eq_true, not_or] at hno
        simp only [Option.bind_some]
        cases hcp : c.purch with
        | none => rfl
        | some y => simp [hcp] at hno
    rw [hnone] at hl
    simp only [Option.map_none, Option.none_or, if_true] at hl
    rw [if_pos (by simp [hasPurchase, hv]), lookup_ne_nil hl] at hmaps
    simp only [Bool.not_false, if_true] at hmaps
    rw [hmaps]
    simp only [inPurchaseList, List.lookup_cons, beq_self_eq_true, Option.getD_some, Tree.eval, hl, Option.map_some, he]

/-- The purchase list is drawn with the graphics for it, with the graphics of the map if there are none. -/
theorem purchase_graphics (f : Nat) (graphics : Val) (properties : Option (List (String × Val))) (callbacks : List (String × Val)) (m : Mgr)
    (t : Tree) (maps : List (Nat × Tree))
    (hp : ((properties.getD []).map (·.1)).Nodup) (hc : (callbacks.map (·.1)).Nodup) (hf : f ≠ 16 ∧ f ≠ 18 ∧ f ≠ 19) (hpu : hasPurchase f = true)
    (h : make f graphics properties callbacks = some m) (hmap : makeMap m = some (some (t, maps))) (info : Nat) :
    (inPurchaseList (t, maps)).eval 0 info = ((onPurchase .graphics graphics).or (onMap .graphics graphics)).getD (.int 0) := by
  have hm := make_spec f graphics properties callbacks m hp hc h
  obtain ⟨a, b, _, ht, hmaps⟩ := generated hf hm hmap
  have hl := collect_purch hf hm b 0
  rw [registered_zero hf] at hl
  have hl' := collect_dflt hf hm a 0
  rw [registered_zero hf] at hl'
  rw [if_pos hpu] at hmaps
  split at hmaps
  · rw [hmaps]
    simp only [inPurchaseList, List.lookup_cons, beq_self_eq_true, Option.getD_some, Tree.eval, hl]
    rfl
  · split at hmaps
    · next x hx => rw [hmaps, hx]; rfl
    · next hx =>
      rw [hmaps, hx]
      simp only [inPurchaseList, List.lookup_nil, Option.getD_none, Option.none_or]
      rcases ht with rfl | ⟨_, _, x, hx, rfl⟩
      · simp only [Tree.eval, hl']; rfl
      · simp only [Tree.eval]; rw [gfx] at hx; rw [hx]; rfl

/-- What the purchase list answers for a callback (or property) without a handler for the purchase list: the graphics, or the same as on
the map. -/
theorem purchase_unregistered (f : Nat) (graphics : Val) (properties : Option (List (String × Val))) (callbacks : List (String × Val)) (m : Mgr)
    (t : Tree) (maps : List (Nat × Tree))
    (hp : ((properties.getD []).map (·.1)).Nodup) (hc : (callbacks.map (·.1)).Nodup) (hf : f ≠ 16 ∧ f ≠ 18 ∧ f ≠ 19)
    (h : make f graphics properties callbacks = some m) (hmap : makeMap m = some (some (t, maps))) (cb info : Nat)
    (hx : registered (cbRows f) onPurchase callbacks cb = none)
    (hy : cb = 0x36 → registered (propRows f) onPurchase (properties.getD []) (info % 256) = none) :
    (inPurchaseList (t, maps)).eval cb info = ((onPurchase .graphics graphics).or (onMap .graphics graphics)).getD (.int 0) ∨
    (inPurchaseList (t, maps)).eval cb info = (onMap .graphics graphics).getD (.int 0) ∨
    (inPurchaseList (t, maps)).eval cb info = t.eval cb info ∨
    cb = 0x36 ∧ registered (propRows f) onMap (properties.getD []) (info % 256) = some ((inPurchaseList (t, maps)).eval cb info) := by
  have hm := make_spec f graphics properties callbacks m hp hc h
  obtain ⟨a, b, hps, ht, hmaps⟩ := generated hf hm hmap
  have hl := collect_purch hf hm b cb
  rw [hx] at hl
  simp only [Option.map_none, Option.none_or] at hl
  split at hmaps
  · split at hmaps
    · rw [hmaps]
      simp only [inPurchaseList, List.lookup_cons, beq_self_eq_true, Option.getD_some, Tree.eval, hl]
      by_cases h36 : cb = 0x36
      · simp only [h36, if_true]
        cases b with
        | none => left; rfl
        | some n =>
          simp only [Option.map_some, Option.getD_some]
          unfold propertySwitches at hps
          split at hps
          · split at hps
            · cases hps
            · simp only [Option.some.injEq] at hps
              rcases switches_purchase_none hm.propsKeys ((gfx graphics).getD (.int 0)) info n (by rw [prop_purch hm]; exact hy h36) (by rw [hps]) with e | e
              · right; left; exact e
              · right; right; right; rw [prop_dflt hm] at e; exact ⟨trivial, e⟩
          · simp at hps
      · left; simp [h36]
    · split at hmaps
      · next x hx => rw [hmaps, hx]; left; rfl
      · rw [hmaps]; right; right; left; rfl
  · rw [hmaps]; right; right; left; rfl

/-! ### What is refused -/

/-- The generation is refused exactly without graphics (for features that are drawn) or if both the property callback and handlers of
single properties are registered. -/
theorem refused_iff_partial (f : Nat) (graphics : Val) (properties : Option (List (String × Val))) (callbacks : List (String × Val)) (m : Mgr)
    (hp : ((properties.getD []).map (·.1)).Nodup) (hc : (callbacks.map (·.1)).Nodup) (hf : f ≠ 16 ∧ f ≠ 18 ∧ f ≠ 19)
    (h : make f graphics properties callbacks = some m) :
    makeMap m = none ↔ (hasGraphics f = true ∧ onMap .graphics graphics = none) ∨
      ((∃ i, (registered (propRows f) onMap (properties.getD []) i).isSome ∨ (registered (propRows f) onPurchase (properties.getD []) i).isSome) ∧
       ((registered (cbRows f) onMap callbacks 0x36).isSome ∨ (registered (cbRows f) onPurchase callbacks 0x36).isSome)) := by
  have hm := make_spec f graphics properties callbacks m hp hc h
  obtain ⟨g, hg, hgd, hgp⟩ := graphics_entry hf hm
  have hset : (m.props.any fun kv => kv.2.isSet) = true ↔
      ∃ i, (registered (propRows f) onMap (properties.getD []) i).isSome ∨ (registered (propRows f) onPurchase (properties.getD []) i).isSome := by
    rw [List.any_eq_true]
    constructor
    · rintro ⟨kv, hkv, hs⟩
      refine ⟨kv.1, ?_⟩
      rw [← prop_dflt hm, ← prop_purch hm, IdMap.lookup_of_mem hm.propsKeys hkv]
      rw [isSet_iff, Bool.or_eq_true] at hs
      exact hs
    · rintro ⟨i, hi⟩
      rw [← prop_dflt hm, ← prop_purch hm] at hi
      cases hl : m.props.lookup i with
      | none => rw [hl] at hi; simp at hi
      | some c =>
        rw [hl] at hi
        exact ⟨_, lookup_mem hl, by rw [isSet_iff, Bool.or_eq_true]; exact hi⟩
  have hch : ((m.cbs.lookup 0x36).map CB.isSet).getD false = true ↔
      ((registered (cbRows f) onMap callbacks 0x36).isSome ∨ (registered (cbRows f) onPurchase callbacks 0x36).isSome) := by
    rw [← cb_dflt hm (by decide), ← cb_purch hm (by decide)]
    cases m.cbs.lookup 0x36 with
    | none => simp
    | some c => simp [isSet_iff]
  rw [← hset, ← hch]
  simp only [makeMap, makeSwitch, hg, hm.feature, hgd, propertySwitches]
  by_cases h1 : (hasGraphics f && (onMap .graphics graphics).isNone) = true
  · rw [if_pos h1]
    simp only [Bool.and_eq_true, Option.isNone_iff_eq_none] at h1
    simp [h1]
  · rw [if_neg h1]
    have h1' : ¬ (hasGraphics f = true ∧ onMap .graphics graphics = none) := by
      simpa only [Bool.and_eq_true, Option.isNone_iff_eq_none] using h1
    by_cases h2 : (m.props.any fun kv => kv.2.isSet) = true
    · by_cases h3 : ((m.cbs.lookup 0x36).map CB.isSet).getD false = true
      · simp [h2, h3]
      · simp only [if_pos h2, if_neg h3]
        constructor
        · intro hcon; simp at hcon
        · rintro (h | h)
          · exact absurd h h1'
          · exact absurd h.2 h3
    · simp only [if_neg h2]
      constructor
      · intro hcon; simp at hcon
      · rintro (h | h)
        · exact absurd h h1'
        · exact absurd h.1 h2

/-- Nothing is generated only for features that are not drawn and have no callback registered for the map. -/
theorem nothing_generated (f : Nat) (graphics : Val) (properties : Option (List (String × Val))) (callbacks : List (String × Val)) (m : Mgr)
    (hp : ((properties.getD []).map (·.1)).Nodup) (hc : (callbacks.map (·.1)).Nodup) (hf : f ≠ 16 ∧ f ≠ 18 ∧ f ≠ 19)
    (h : make f graphics properties callbacks = some m) (hmap : makeMap m = some none) :
    hasGraphics f = false ∧ ∀ cb, registered (cbRows f) onMap callbacks cb = none := by
  have hm := make_spec f graphics properties callbacks m hp hc h
  obtain ⟨g, hg, hgd, hgp⟩ := graphics_entry hf hm
  simp only [makeMap, makeSwitch, hg, Option.bind_eq_bind, Option.bind_eq_some_iff] at hmap
  obtain ⟨⟨d0, maps0⟩, hmap, hr⟩ := hmap
  simp only [Option.some.injEq, Option.map_eq_none_iff] at hr
  subst hr
  split at hmap
  · cases hmap
  · next hgr =>
    split at hmap
    · cases hmap
    · next a b hps =>
      simp only [Option.some.injEq, Prod.mk.injEq] at hmap
      obtain ⟨hd, -⟩ := hmap
      split at hd
      · cases hd
      · next hne =>
        simp only [Bool.not_eq_true, Bool.not_eq_false'] at hne
        split at hd
        · next hgr' =>
          simp only [Option.map_eq_none_iff] at hd
          simp [hgr', hd] at hgr
        · next hgr' =>
          rw [hm.feature] at hgr'
          refine ⟨by simpa using hgr', fun cb => ?_⟩
          have hl := collect_dflt hf hm a cb
          rw [isEmpty_lookup hne] at hl
          cases hreg : registered (cbRows f) onMap callbacks cb with
          | none => rfl
          | some x => rw [hreg] at hl; simp at hl

/-- A callback name that the feature does not have is refused. -/
theorem unknown_callback_refused (f : Nat) (graphics : Val) (properties : Option (List (String × Val))) (callbacks : List (String × Val))
    (k : String) (v : Val) (hk : (k, v) ∈ callbacks) (hno : ∀ r ∈ cbRows f, r.name ≠ k) : make f graphics properties callbacks = none := by
  cases h : make f graphics properties callbacks with
  | none => rfl
  | some m =>
    exfalso
    simp only [make, Option.bind_eq_bind, Option.bind_eq_some_iff] at h
    obtain ⟨g, hg, h⟩ := h
    split at h
    · cases h
    · simp only [Option.bind_eq_some_iff, Option.some.injEq] at h
      obtain ⟨_, _, cs, hcs, _⟩ := h
      clear hg
      generalize [(0, g)] = d at hcs
      induction callbacks generalizing d with
      | nil => simp at hk
      | cons x l ih =>
        simp only [assignAll, Option.bind_eq_bind, Option.bind_eq_some_iff] at hcs
        obtain ⟨d1, h1, h2⟩ := hcs
        rcases List.mem_cons.mp hk with he | hk
        · simp only [setCallback, Option.bind_eq_bind, Option.bind_eq_some_iff] at h1
          obtain ⟨r, hr, _⟩ := h1
          exact hno r (List.mem_of_find?_eq_some hr) (by rw [← he] at hr; simpa using List.find?_some hr)
        · exact ih hk _ h2

/-! ### Flags -/

/-- A callback of a feature that the user registered a handler for, on the map or in the purchase list. -/
def isRegistered (f : Nat) (callbacks : List (String × Val)) (r : Row) : Prop :=
  (registered (cbRows f) onMap callbacks r.id).isSome ∨ (registered (cbRows f) onPurchase callbacks r.id).isSome

theorem foldl_or_testBit {α : Type} (p : α → Prop) [DecidablePred p] (fl : α → Nat) (i : Nat) : ∀ (l : List α) (s : Nat),
    (l.foldl (fun res x => if p x then res ||| fl x else res) s).testBit i = true ↔ s.testBit i = true ∨ ∃ x ∈ l, p x ∧ (fl x).testBit i = true := by
  intro l
  induction l with
  | nil => intro s; simp
  | cons x l ih =>
    intro s
    rw [List.foldl_cons, ih]
    by_cases hp : p x
    · simp [hp, Nat.testBit_or, or_assoc]
    · simp [hp]

theorem flags_testBit (f : Nat) (graphics : Val) (ps cs : List (String × Val)) (m : Mgr) (hf : f ≠ 16 ∧ f ≠ 18 ∧ f ≠ 19)
    (hm : Made f graphics ps cs m) (i : Nat) :
    (flagsOf m).testBit i = true ↔ ∃ r ∈ cbRows f, isRegistered f cs r ∧ r.flag.testBit i = true := by
  unfold flagsOf
  rw [foldl_or_testBit (fun kv : Nat × CB => kv.1 ≠ 0 ∧ kv.2.isSet = true), hm.feature]
  simp only [Nat.zero_testBit, Bool.false_eq_true, false_or]
  constructor
  · rintro ⟨kv, hkv, ⟨h0, hs⟩, hb⟩
    cases hr : (cbRows f).find? fun r => r.id == kv.1 with
    | none => simp [hr] at hb
    | some r =>
      rw [hr] at hb
      simp only [Option.map_some, Option.getD_some] at hb
      have hid : r.id = kv.1 := by simpa using List.find?_some hr
      refine ⟨r, List.mem_of_find?_eq_some hr, ?_, hb⟩
      unfold isRegistered
      rw [hid, ← cb_dflt hm h0, ← cb_purch hm h0, IdMap.lookup_of_mem hm.cbsKeys hkv]
      rw [isSet_iff, Bool.or_eq_true] at hs
      exact hs
  · rintro ⟨r, hr, hreg, hb⟩
    have h0 : r.id ≠ 0 := by
      intro h0
      have := List.find?_eq_none.mp (no_zero hf) r hr
      simp [h0] at this
    unfold isRegistered at hreg
    rw [← cb_dflt hm h0, ← cb_purch hm h0] at hreg
    cases hl : m.cbs.lookup r.id with
    | none => rw [hl] at hreg; simp at hreg
    | some c =>
      rw [hl] at hreg
      refine ⟨(r.id, c), lookup_mem hl, ⟨h0, by rw [isSet_iff, Bool.or_eq_true]; exact hreg⟩, ?_⟩
      rw [find_of_mem (cbRows_ok f).1 hr]
      exact hb

theorem and_pos_iff (a m : Nat) : a &&& m > 0 ↔ ∃ i, a.testBit i = true ∧ m.testBit i = true := by
  constructor
  · intro h
    apply Classical.byContradiction
    intro hno
    have : a &&& m = 0 := by
      apply Nat.eq_of_testBit_eq
      intro i
      simp only [Nat.testBit_and, Nat.zero_testBit, Bool.and_eq_false_iff]
      cases h1 : a.testBit i with
      | false => exact .inl rfl
      | true =>
        right
        cases h2 : m.testBit i with
        | false => rfl
        | true => exact absurd ⟨i, h1, h2⟩ hno
    omega
  · rintro ⟨i, h1, h2⟩
    apply Nat.pos_of_ne_zero
    intro h0
    have : (a &&& m).testBit i = true := by rw [Nat.testBit_and, h1, h2]; rfl
    rw [h0] at this; simp at this

theorem ff_testBit (i : Nat) : (0xff : Nat).testBit i = decide (i < 8) := Nat.testBit_two_pow_sub_one 8 i

theorem ff00_testBit (i : Nat) : (0xff00 : Nat).testBit i = decide (8 ≤ i ∧ i < 16) := by
  have : (0xff00 : Nat) = 0xff <<< 8 := by decide
  rw [this, Nat.testBit_shiftLeft, ff_testBit]
  by_cases h : 8 ≤ i
  · simp only [h, decide_true, Bool.true_and, true_and, decide_eq_decide]; omega
  · simp [h]

/-- All flags are 16 bits. -/
theorem cbRows_flags (f : Nat) : ∀ r ∈ cbRows f, r.flag < 2 ^ 16 := by
  unfold cbRows
  split <;> decide +kernel

theorem flag_bit_lt {f : Nat} {r : Row} (hr : r ∈ cbRows f) {i : Nat} (h : r.flag.testBit i = true) : i < 16 := by
  apply Classical.byContradiction
  intro hi
  have hlt : r.flag < 2 ^ i := Nat.lt_of_lt_of_le (cbRows_flags f r hr) (Nat.pow_le_pow_right (by decide) (by omega))
  rw [Nat.testBit_lt_two_pow hlt] at h
  cases h

/-- The flag properties get exactly the flags of the registered callbacks in addition to the bits the user had set. -/
theorem flags_exact_partial (f : Nat) (graphics : Val) (properties : Option (List (String × Val))) (callbacks : List (String × Val)) (m : Mgr)
    (hp : ((properties.getD []).map (·.1)).Nodup) (hc : (callbacks.map (·.1)).Nodup) (hf : f ≠ 16 ∧ f ≠ 18 ∧ f ≠ 19)
    (h : make f graphics properties callbacks = some m) (cb extra : Option Nat) (i : Nat) :
    (((setFlagProps m cb extra).1.getD 0).testBit i = true ↔
      (cb.getD 0).testBit i = true ∨ i < 8 ∧ ∃ r ∈ cbRows f, isRegistered f callbacks r ∧ r.flag.testBit i = true) ∧
    (((setFlagProps m cb extra).2.getD 0).testBit i = true ↔
      (extra.getD 0).testBit i = true ∨ ∃ r ∈ cbRows f, isRegistered f callbacks r ∧ r.flag.testBit (i + 8) = true) := by
  have hm := make_spec f graphics properties callbacks m hp hc h
  have hb := flags_testBit f graphics _ callbacks m hf hm
  constructor
  · simp only [setFlagProps]
    rw [← hb]
    split
    · simp only [Option.getD_some, Nat.testBit_or, Nat.testBit_and, ff_testBit, Bool.or_eq_true, Bool.and_eq_true, decide_eq_true_eq]
      rw [and_comm (a := i < 8)]
    · next hno =>
      rw [and_pos_iff] at hno
      constructor
      · exact .inl
      · rintro (h | ⟨h1, h2⟩)
        · exact h
        · exact absurd ⟨i, h2, by rw [ff_testBit]; simpa using h1⟩ hno
  · simp only [setFlagProps]
    rw [← hb]
    split
    · simp only [Option.getD_some, Nat.testBit_or, Nat.testBit_shiftRight, Bool.or_eq_true, Nat.add_comm 8 i]
    · next hno =>
      rw [and_pos_iff] at hno
      constructor
      · exact .inl
      · rintro (h | h2)
        · exact h
        · obtain ⟨r, hr, _, hbit⟩ := (hb (i + 8)).mp h2
          have := flag_bit_lt hr hbit
          exact absurd ⟨i + 8, h2, by rw [ff00_testBit]; simp; omega⟩ hno

/-- The properties the flags are stored in exist for vehicles, stations, industry tiles, industries, cargos, objects and road stops; the
second one for vehicles and industries, and no other feature of these needs it except cargos. -/
theorem flag_properties (f : Nat) (hf : f < 21) (h7 : f ≠ 7) (h17 : f ≠ 17) :
    ((cbRows f).any fun r => r.flag % 256 > 0) = true → (byName f "cb_flags").isSome := by
  revert hf h7 h17
  revert f
  decide +kernel

theorem extra_flag_properties (f : Nat) (hf : f < 21) (h7 : f ≠ 7) (h11 : f ≠ 11) :
    ((cbRows f).any fun r => r.flag / 256 > 0) = true → (byName f "extra_cb_flags").isSome := by
  revert hf h7 h11
  revert f
  decide +kernel

/-! ### What does not hold -/

/-- House and airport tile callbacks with a flag cannot be used: the properties have no `cb_flags` (houses have `cb_flags1` and
`cb_flags2`), so the definition is refused. -/
theorem house_flags_refused (d : Def0) (h : d.feature = 7 ∨ d.feature = 17) (v : List PVal) (hv : ("cb_flags", v) ∈ d.props) : d.accepted = false := by
  unfold Def0.accepted
  rw [Bool.and_eq_false_iff]
  right
  rw [List.all_eq_false]
  refine ⟨_, hv, ?_⟩
  rcases h with h | h <;> rw [h] <;> dsimp only <;> decide +kernel

/-- The cargo's station rating callback sets a second flag property, that cargos do not have. -/
theorem station_rating_flags (g : Val) (v : Handler) (m : Mgr) (h : make 11 g none [("station_rating", .raw (some v))] = some m) :
    setFlagProps m none none = (some 0x45, some 1) ∧ (byName 11 "extra_cb_flags").isNone := by
  refine ⟨?_, by decide +kernel⟩
  cases hg : wrap .graphics g with
  | none => simp [make, hg] at h
  | some c =>
    unfold make at h
    rw [hg] at h
    simp [cbRows, assignAll, setCallback, wrap, construct, dictSet] at h
    subst h
    simp [setFlagProps, flagsOf, cbRows, CB.isSet]

/-- Two switches for one property, both without an id as it is when the manager is used: the purchase handler is used on the map. -/
theorem purchase_handler_on_map : ∃ m t maps, make 0 (.raw (some (.int 1))) (some [("power", .cb (mkDual (some (.obj 1 none)) (some (.obj 2 none))))]) [] = some m ∧
    makeMap m = some (some (t, maps)) ∧ t.eval 0x36 0xb = .obj 2 none :=
  ⟨_, _, _, rfl, rfl, rfl⟩

/-- Different handlers that do have references are told apart. -/
example : ∃ m t maps, make 0 (.raw (some (.int 1))) (some [("power", .cb (mkDual (some (.int 7)) (some (.obj 2 none))))]) [] = some m ∧
    makeMap m = some (some (t, maps)) ∧ t.eval 0x36 0xb = .int 7 ∧ (inPurchaseList (t, maps)).eval 0x36 0xb = .obj 2 none :=
  ⟨_, _, _, rfl, rfl, rfl, rfl⟩

/-- The `gui` graphics of rail types are stored in place of the graphics and are not generated as a callback: without another handler
nothing is generated at all. -/
theorem railtype_gui_lost (h : Handler) : ∃ m, make 16 (.raw none) none [("gui", .raw (some h))] = some m ∧ makeMap m = some none :=
  ⟨_, rfl, rfl⟩

/-- A property name that the feature does not have is ignored: the aircraft's `cargo_age_period` and anything misspelt. -/
theorem unknown_property_ignored (f : Nat) (graphics v : Val) (k : String) (rest : List (String × Val)) (callbacks : List (String × Val))
    (hno : ∀ r ∈ propRows f, r.name ≠ k) : make f graphics (some ((k, v) :: rest)) callbacks = make f graphics (some rest) callbacks := by
  have : (propRows f).find? (fun r => r.name == k) = none := by
    rw [List.find?_eq_none]
    intro r hr
    simpa using hno r hr
  have e : setProperty f [] (k, v) = some [] := by simp [setProperty, this]
  simp only [make, Option.getD_some, assignAll, e, Option.isSome_some]
  rfl

example : ∀ r ∈ propRows 3, r.name ≠ "cargo_age_period" := by decide +kernel

/-- Non-trivial uses of the dispatch theorems: a train with a callback, a property and purchase graphics. -/
example : ∃ m t maps, make 0 (.cb (.graphics (some (.obj 1 none)) (some (.obj 2 none))))
      (some [("power", .raw (some (.int 500))), ("weight", .raw (some (.int 20)))])
      [("cargo_capacity", .raw (some (.obj 3 none))), ("name", .raw (some (.int 5)))] = some m ∧
    makeMap m = some (some (t, maps)) ∧ t.eval 0x15 0 = .obj 3 none ∧ t.eval 0x36 0x16 = .int 20 ∧ t.eval 0 0 = .obj 1 none ∧
    (inPurchaseList (t, maps)).eval 0x161 0 = .int 5 ∧ (inPurchaseList (t, maps)).eval 0x36 0x10b = .int 500 ∧
    (inPurchaseList (t, maps)).eval 0 0 = .obj 2 none ∧ setFlagProps m (some 0x40) none = (some 0x48, some 1) :=
  ⟨_, _, _, rfl, rfl, by decide +kernel, by decide +kernel, by decide +kernel, by decide +kernel, by decide +kernel, by decide +kernel, by decide +kernel⟩

example : DistinctRefs 0 [("power", .raw (some (.int 500))), ("weight", .raw (some (.int 20)))] := by
  intro r hr v hv d p hd hp _
  have hc := propRows_classes 0 r hr
  cases v with
  | cb c =>
    exfalso
    revert hv; simp only [List.lookup_cons, List.lookup_nil]; split
    · simp
    · split <;> simp
  | raw x =>
    rcases hc with hc | hc <;> rw [hc] at hd hp
    · simp [onPurchase] at hp
    · simp only [onMap, onPurchase] at hd hp
      rw [hd] at hp; exact Option.some.inj hp

end Grf.Callbacks
