import Verif.Props.Callbacks
import Verif.Spec.CallbackSpec
/-!
# C42 exactly: what every callback is answered with, for every feature and every registration
-/
namespace Grf.Callbacks

open Grf.PropC

/-! ### Specification -/

/-- What was assigned to the callback with number 0: rail, road and tram types have `gui` there. -/
def gui (f : Nat) (cs : List (String × Val)) : Option Val :=
  ((cbRows f).find? fun r => r.id == 0).bind fun r => cs.lookup r.name

/-- The graphics in use: those the user gave, unless `gui` was assigned, which takes their place. -/
def used (get : Cls → Val → Option Handler) (f : Nat) (graphics : Val) (cs : List (String × Val)) : Option Handler :=
  match gui f cs with
  | some v => get .default v
  | none => get .graphics graphics

/-- The handler registered for a callback other than 0. -/
def forCallback (get : Cls → Val → Option Handler) (f : Nat) (cs : List (String × Val)) (cb : Nat) : Option Handler :=
  if cb = 0 then none else registered (cbRows f) get cs cb

/-- Some property has only one of its two handlers, or two which have different references: only then are there two switches. -/
def Separated (f : Nat) (ps : List (String × Val)) : Prop :=
  ∃ r ∈ propRows f, r.cls = .dual ∧ ∃ v, ps.lookup r.name = some v ∧ ((onMap r.cls v).isSome ∨ (onPurchase r.cls v).isSome) ∧
    ∀ d p, onMap r.cls v = some d → onPurchase r.cls v = some p → d.ref ≠ p.ref

open Classical in
/-- What the property callback answers for a property: with two switches the handler for the situation, otherwise in both situations the
handler for the purchase list, or the one for the map. -/
noncomputable def forProperty (get : Cls → Val → Option Handler) (f : Nat) (ps : List (String × Val)) (i : Nat) : Option Handler :=
  if Separated f ps then registered (propRows f) get ps i
  else (registered (propRows f) onPurchase ps i).or (registered (propRows f) onMap ps i)

/-- What is answered on the map. -/
noncomputable def mapAnswer (f : Nat) (graphics : Val) (ps cs : List (String × Val)) (cb info : Nat) : Handler :=
  ((forCallback onMap f cs cb).or (if cb = 0x36 then forProperty onMap f ps (info % 256) else none)).getD ((used onMap f graphics cs).getD (.int 0))

/-- Anything registered for the purchase list other than graphics. -/
def AnyPurchase (f : Nat) (ps cs : List (String × Val)) : Prop :=
  (∃ cb, (forCallback onPurchase f cs cb).isSome) ∨ ∃ i, (forProperty onPurchase f ps i).isSome

open Classical in
/-- What is answered in the purchase list. -/
noncomputable def purchaseAnswer (f : Nat) (graphics : Val) (ps cs : List (String × Val)) (cb info : Nat) : Handler :=
  if ¬ Spec.Buyable f then mapAnswer f graphics ps cs cb info
  else if AnyPurchase f ps cs then
    (forCallback onPurchase f cs cb).getD
      (if cb = 0x36 ∧ ∃ i, (forProperty onPurchase f ps i).isSome then
        (forProperty onPurchase f ps (info % 256)).getD ((used onMap f graphics cs).getD (.int 0))
      else ((used onPurchase f graphics cs).or (used onMap f graphics cs)).getD (.int 0))
  else (used onPurchase f graphics cs).getD (mapAnswer f graphics ps cs cb info)

/-! ### Proofs -/

theorem buyable_iff (f : Nat) : hasPurchase f = true ↔ Spec.Buyable f := by
  simp only [hasPurchase, Spec.Buyable, Bool.or_eq_true, decide_eq_true_eq, beq_iff_eq, List.mem_cons, List.not_mem_nil, or_false]
  omega

theorem drawn_iff (f : Nat) : hasGraphics f = true ↔ Spec.Drawn f := by
  simp only [hasGraphics, Spec.Drawn, Bool.or_eq_true, decide_eq_true_eq, beq_iff_eq, List.mem_cons, List.not_mem_nil, or_false]
  omega

theorem zero_rows (f : Nat) : ∀ r, (cbRows f).find? (fun r => r.id == 0) = some r → r.cls = .default ∧ r.flag = 0 := by
  unfold cbRows
  split <;> (intro r h; revert h; first | (simp; done) | (rintro ⟨rfl⟩; exact ⟨rfl, rfl⟩) | simp)

theorem used_entry {f : Nat} {graphics : Val} {ps cs : List (String × Val)} {m : Mgr} (hm : Made f graphics ps cs m) :
    ∃ g, m.cbs.lookup 0 = some g ∧ g.dflt = used onMap f graphics cs ∧ g.purch = used onPurchase f graphics cs := by
  have h := hm.cbs 0
  simp only [if_true] at h
  unfold used gui
  unfold assigned at h
  cases hr : (cbRows f).find? fun r => r.id == 0 with
  | none =>
    rw [hr] at h
    simp only [Option.bind_none, Option.none_or] at h ⊢
    cases hg : wrap .graphics graphics with
    | none => have := hm.graphics; rw [hg] at this; cases this
    | some g => exact ⟨g, by rw [h, hg], wrap_dflt hg, wrap_purch hg⟩
  | some r =>
    rw [hr] at h
    simp only [Option.bind_some] at h ⊢
    cases hu : cs.lookup r.name with
    | none =>
      rw [hu] at h
      simp only [Option.bind_none, Option.none_or] at h ⊢
      cases hg : wrap .graphics graphics with
      | none => have := hm.graphics; rw [hg] at this; cases this
      | some g => exact ⟨g, by rw [h, hg], wrap_dflt hg, wrap_purch hg⟩
    | some v =>
      rw [hu] at h
      simp only [Option.bind_some] at h ⊢
      have hok := hm.cbsOk r (List.mem_of_find?_eq_some hr) v hu
      have hc := (zero_rows f r hr).1
      rw [hc] at h hok
      cases hw : wrap .default v with
      | none => rw [hw] at hok; cases hok
      | some c => exact ⟨c, by rw [h, hw]; rfl, wrap_dflt hw, wrap_purch hw⟩

theorem collect_map {f : Nat} {graphics : Val} {ps cs : List (String × Val)} {m : Mgr} (hm : Made f graphics ps cs m)
    (a : Option Node) (cb : Nat) : (collect CB.dflt (start a) m.cbs).lookup cb =
      ((forCallback onMap f cs cb).map Node.handler).or (if cb = 0x36 then a else none) := by
  rw [collect_lookup CB.dflt cb m.cbs (start a) hm.cbsKeys]
  unfold forCallback
  by_cases h0 : cb = 0
  · subst h0
    rw [start_lookup]; rfl
  · rw [if_neg h0, if_neg h0, cb_dflt hm h0, start_lookup]

theorem collect_buy {f : Nat} {graphics : Val} {ps cs : List (String × Val)} {m : Mgr} (hm : Made f graphics ps cs m)
    (a : Option Node) (cb : Nat) : (collect CB.purch (start a) m.cbs).lookup cb =
      ((forCallback onPurchase f cs cb).map Node.handler).or (if cb = 0x36 then a else none) := by
  rw [collect_lookup CB.purch cb m.cbs (start a) hm.cbsKeys]
  unfold forCallback
  by_cases h0 : cb = 0
  · subst h0
    rw [start_lookup]; rfl
  · rw [if_neg h0, if_neg h0, cb_purch hm h0, start_lookup]

theorem nonempty_lookup {α : Type} {l : List (Nat × α)} : l.isEmpty = false ↔ ∃ k, (l.lookup k).isSome := by
  cases l with
  | nil => simp
  | cons x l => simp only [List.isEmpty_cons, true_iff]; exact ⟨x.1, by simp⟩

/-- The two switches of the properties, whatever was registered. -/
theorem switches_exact {P : List (Nat × CB)} (hn : (P.map (·.1)).Nodup) (hset : (P.any fun kv => kv.2.isSet) = true) (g : Handler) (sep : Bool)
    (hsep : ((P.filter fun kv => kv.2.isSet).any fun kv => differs kv.2) = sep) :
    let ansM := fun i => if sep then (P.lookup i).bind CB.dflt else ((P.lookup i).bind CB.purch).or ((P.lookup i).bind CB.dflt)
    let ansP := fun i => if sep then (P.lookup i).bind CB.purch else ((P.lookup i).bind CB.purch).or ((P.lookup i).bind CB.dflt)
    (∀ info, ((makeSwitches P g).1.map (Node.eval info)).getD g = (ansM (info % 256)).getD g) ∧
    ((makeSwitches P g).1.isSome = true ↔ ∃ i, (ansM i).isSome = true) ∧
    (∀ info n, (makeSwitches P g).2 = some n → n.eval info = (ansP (info % 256)).getD g) ∧
    ((makeSwitches P g).2.isSome = true ↔ ∃ i, (ansP i).isSome = true) := by
  have hd := fun k => sub_lookup CB.dflt (fun c h => by rw [isSet_iff]; simp [h]) hn k
  have hp := fun k => sub_lookup CB.purch (fun c h => by rw [isSet_iff]; simp [h]) hn k
  have hk := filterMap_keys CB.purch (P.filter fun kv => kv.2.isSet) ((List.Sublist.map _ List.filter_sublist).nodup hn)
  simp only
  unfold makeSwitches
  simp only [hsep]
  cases sep with
  | true =>
    simp only [if_true]
    refine ⟨fun info => ?_, ?_, fun info n => ?_, ?_⟩
    · split
      · next he => rw [← hd, isEmpty_lookup he]; rfl
      · simp only [Option.map_some, Option.getD_some, Node.eval, hd]
    · split
      · next he =>
        simp only [Option.isSome_none, Bool.false_eq_true, false_iff, not_exists]
        intro i; rw [← hd, isEmpty_lookup he]; simp
      · next he =>
        simp only [Option.isSome_some, true_iff]
        simp only [Bool.not_eq_true] at he
        obtain ⟨k, hk⟩ := nonempty_lookup.1 he
        exact ⟨k, by rw [← hd]; exact hk⟩
    · split
      · simp
      · simp only [Option.some.injEq]
        rintro rfl
        simp only [Node.eval, hp]
    · split
      · next he =>
        simp only [Option.isSome_none, Bool.false_eq_true, false_iff, not_exists]
        intro i; rw [← hp, isEmpty_lookup he]; simp
      · next he =>
        simp only [Option.isSome_some, true_iff]
        simp only [Bool.not_eq_true] at he
        obtain ⟨k, hk⟩ := nonempty_lookup.1 he
        exact ⟨k, by rw [← hp]; exact hk⟩
  | false =>
    simp only [Bool.false_eq_true, if_false]
    have ex : ∃ i, (((P.lookup i).bind CB.purch).or ((P.lookup i).bind CB.dflt)).isSome = true := by
      rw [List.any_eq_true] at hset
      obtain ⟨kv, hkv, hs⟩ := hset
      refine ⟨kv.1, ?_⟩
      rw [IdMap.lookup_of_mem hn hkv]
      rw [isSet_iff, Bool.or_eq_true] at hs
      simp only [Option.bind_some]
      cases hq : kv.2.purch with
      | some x => rfl
      | none => rw [hq] at hs; simpa using hs
    refine ⟨fun info => ?_, by simpa using ex, fun info n => ?_, by simpa using ex⟩
    · simp only [Option.map_some, Option.getD_some, Node.eval]
      rw [mergeDict_lookup _ _ _ hk, hd, hp]
    · simp only [Option.some.injEq]
      rintro rfl
      simp only [Node.eval]
      rw [mergeDict_lookup _ _ _ hk, hd, hp]

theorem differs_iff {c : CB} (hc : c.cls = .default ∨ c.cls = .dual) :
    differs c = true ↔ c.cls = .dual ∧ ∀ d p, c.dflt = some d → c.purch = some p → d.ref ≠ p.ref := by
  cases c with
  | default d => simp [differs, CB.cls]
  | purchase d => simp [CB.cls] at hc
  | graphics d q => simp [CB.cls] at hc
  | dual d q => cases d <;> cases q <;> simp [differs, CB.cls, CB.dflt, CB.purch]

theorem separated_iff {f : Nat} {graphics : Val} {ps cs : List (String × Val)} {m : Mgr} (hm : Made f graphics ps cs m) :
    ((m.props.filter fun kv => kv.2.isSet).any fun kv => differs kv.2) = true ↔ Separated f ps := by
  simp only [List.any_eq_true, List.mem_filter]
  constructor
  · rintro ⟨kv, ⟨hkv, hs⟩, hd⟩
    obtain ⟨r, hr, v, hv, hw⟩ := mem_props hm hkv
    have hcl := wrap_cls hw
    obtain ⟨h1, h2⟩ := (differs_iff (by rw [hcl]; exact propRows_classes f r hr)).1 hd
    rw [isSet_iff, Bool.or_eq_true, wrap_dflt hw, wrap_purch hw] at hs
    rw [wrap_dflt hw, wrap_purch hw] at h2
    exact ⟨r, hr, by rw [← hcl]; exact h1, v, hv, hs, h2⟩
  · rintro ⟨r, hr, hcl, v, hv, hs, h2⟩
    have hok := hm.propsOk r hr v hv
    cases hw : wrap r.cls v with
    | none => rw [hw] at hok; cases hok
    | some c =>
      have hl : m.props.lookup r.id = some c := by
        rw [hm.props]; unfold assigned
        rw [find_of_mem (propRows_ok f).1 hr]
        simp only [Option.bind_some, hv, hw]
      refine ⟨(r.id, c), ⟨lookup_mem hl, ?_⟩, ?_⟩
      · simp only [isSet_iff, Bool.or_eq_true, wrap_dflt hw, wrap_purch hw]; exact hs
      · rw [differs_iff (by rw [wrap_cls hw]; exact propRows_classes f r hr), wrap_cls hw, wrap_dflt hw, wrap_purch hw]
        exact ⟨hcl, h2⟩

/-- No property is registered. -/
theorem unset_props {f : Nat} {graphics : Val} {ps cs : List (String × Val)} {m : Mgr} (hm : Made f graphics ps cs m)
    (h : ¬ (m.props.any fun kv => kv.2.isSet) = true) (i : Nat) :
    registered (propRows f) onMap ps i = none ∧ registered (propRows f) onPurchase ps i = none := by
  rw [← prop_dflt hm, ← prop_purch hm]
  cases hl : m.props.lookup i with
  | none => exact ⟨rfl, rfl⟩
  | some c =>
    have : ¬ c.isSet := fun hc => h (List.any_eq_true.mpr ⟨_, lookup_mem hl, hc⟩)
    rw [isSet_iff] at this
    simp only [Option.bind_some]
    cases hd : c.dflt <;> cases hp : c.purch <;> simp_all

theorem property_switches {f : Nat} {graphics : Val} {ps cs : List (String × Val)} {m : Mgr} (hm : Made f graphics ps cs m) {g : Handler}
    {a b : Option Node} (h : propertySwitches m g = some (a, b)) :
    (∀ info, (a.map (Node.eval info)).getD g = (forProperty onMap f ps (info % 256)).getD g) ∧
    (a.isSome = true ↔ ∃ i, (forProperty onMap f ps i).isSome = true) ∧
    (∀ info n, b = some n → n.eval info = (forProperty onPurchase f ps (info % 256)).getD g) ∧
    (b.isSome = true ↔ ∃ i, (forProperty onPurchase f ps i).isSome = true) := by
  unfold propertySwitches at h
  split at h
  · next hset =>
    split at h
    · cases h
    · simp only [Option.some.injEq] at h
      have e := switches_exact hm.propsKeys hset g _ rfl
      simp only at e
      have es := separated_iff hm
      rw [h] at e
      simp only [prop_dflt hm, prop_purch hm] at e
      unfold forProperty
      by_cases hs : Separated f ps
      · have hb := es.2 hs
        simp only [if_pos hs]
        simp only [hb, if_true] at e
        exact e
      · have hb : ((m.props.filter fun kv => kv.2.isSet).any fun kv => differs kv.2) = false := by
          rw [← Bool.not_eq_true, es]; exact hs
        simp only [if_neg hs]
        simp only [hb, Bool.false_eq_true, if_false] at e
        exact e
  · next hno =>
    simp only [Option.some.injEq, Prod.mk.injEq] at h
    obtain ⟨rfl, rfl⟩ := h
    have u := unset_props hm hno
    have e : ∀ get, (get = onMap ∨ get = onPurchase) → ∀ i, forProperty get f ps i = none := by
      intro get hg i
      unfold forProperty
      rw [(u i).1, (u i).2]
      split
      · rcases hg with rfl | rfl
        · exact (u i).1
        · exact (u i).2
      · rfl
    simp [e]

theorem generated_exact {f : Nat} {graphics : Val} {ps cs : List (String × Val)} {m : Mgr} (hm : Made f graphics ps cs m) :
    makeMap m =
      if hasGraphics f = true ∧ used onMap f graphics cs = none then none else
      (propertySwitches m ((used onMap f graphics cs).getD (.int 0))).map fun ab =>
        let d := collect CB.dflt (start ab.1) m.cbs
        let p := collect CB.purch (start ab.2) m.cbs
        (if !d.isEmpty then some (.switch d ((used onMap f graphics cs).getD (.int 0)))
          else if hasGraphics f then (used onMap f graphics cs).map .plain else none).map fun t => (t,
        if hasPurchase f then
            if !p.isEmpty then
              [(255, .switch p (((used onPurchase f graphics cs).or (used onMap f graphics cs)).getD (.int 0)))]
            else match used onPurchase f graphics cs with
              | some x => [(255, .plain x)]
              | none => []
          else []) := by
  obtain ⟨g, hg, hgd, hgp⟩ := used_entry hm
  rw [← hgd, ← hgp]
  simp only [makeMap, makeSwitch, hg, hm.feature]
  by_cases h1 : hasGraphics f = true ∧ g.dflt = none
  · rw [if_pos (by simp [h1]), if_pos h1]; rfl
  · rw [if_neg (by simpa using h1), if_neg h1]
    cases propertySwitches m (g.dflt.getD (.int 0)) with
    | none => rfl
    | some ab =>
      obtain ⟨a, b⟩ := ab
      cases g.purch <;> rfl

/-- **C42** On the map, for every feature and every registration: what every callback with every argument is answered with. -/
theorem map_dispatch_exact (f : Nat) (graphics : Val) (properties : Option (List (String × Val))) (callbacks : List (String × Val)) (m : Mgr)
    (t : Tree) (maps : List (Nat × Tree))
    (hp : ((properties.getD []).map (·.1)).Nodup) (hc : (callbacks.map (·.1)).Nodup)
    (h : make f graphics properties callbacks = some m) (hmap : makeMap m = some (some (t, maps))) (cb info : Nat) :
    t.eval cb info = mapAnswer f graphics (properties.getD []) callbacks cb info := by
  have hm := make_spec f graphics properties callbacks m hp hc h
  rw [generated_exact hm] at hmap
  split at hmap
  · cases hmap
  · simp only [Option.map_eq_some_iff] at hmap
    obtain ⟨⟨a, b⟩, hps, t', ht, he⟩ := hmap
    simp only [Prod.mk.injEq] at he
    obtain ⟨rfl, -⟩ := he
    obtain ⟨e1, -⟩ := property_switches hm hps
    have hl := collect_map hm a cb
    have key : (((collect CB.dflt (start a) m.cbs).lookup cb).map (Node.eval info)).getD ((used onMap f graphics callbacks).getD (.int 0)) =
        mapAnswer f graphics (properties.getD []) callbacks cb info := by
      rw [hl]
      unfold mapAnswer
      cases hreg : forCallback onMap f callbacks cb with
      | some x => simp [Node.eval]
      | none =>
        simp only [Option.map_none, Option.none_or]
        by_cases h36 : cb = 0x36
        · simp only [h36, if_true]; exact e1 info
        · simp [h36]
    split at ht
    · simp only [Option.some.injEq] at ht
      subst ht
      exact key
    · next hne =>
      split at ht
      · simp only [Option.map_eq_some_iff] at ht
        obtain ⟨x, hx, rfl⟩ := ht
        simp only [Bool.not_eq_true, Bool.not_eq_false'] at hne
        rw [← key, isEmpty_lookup hne, hx]
        rfl
      · cases ht

/-- **C42** In the purchase list, for every feature and every registration. -/
theorem purchase_dispatch_exact (f : Nat) (graphics : Val) (properties : Option (List (String × Val))) (callbacks : List (String × Val)) (m : Mgr)
    (t : Tree) (maps : List (Nat × Tree))
    (hp : ((properties.getD []).map (·.1)).Nodup) (hc : (callbacks.map (·.1)).Nodup)
    (h : make f graphics properties callbacks = some m) (hmap : makeMap m = some (some (t, maps))) (cb info : Nat) :
    (inPurchaseList (t, maps)).eval cb info = purchaseAnswer f graphics (properties.getD []) callbacks cb info := by
  have hmapE := map_dispatch_exact f graphics properties callbacks m t maps hp hc h hmap cb info
  have hm := make_spec f graphics properties callbacks m hp hc h
  rw [generated_exact hm] at hmap
  split at hmap
  · cases hmap
  · simp only [Option.map_eq_some_iff] at hmap
    obtain ⟨⟨a, b⟩, hps, t', -, he⟩ := hmap
    simp only [Prod.mk.injEq] at he
    obtain ⟨rfl, hmaps⟩ := he
    obtain ⟨-, -, e3, e4⟩ := property_switches hm hps
    have hl := collect_buy hm b
    have hany : (collect CB.purch (start b) m.cbs).isEmpty = false ↔ AnyPurchase f (properties.getD []) callbacks := by
      rw [nonempty_lookup]
      unfold AnyPurchase
      rw [← e4]
      constructor
      · rintro ⟨k, hk⟩
        rw [hl] at hk
        cases hf : forCallback onPurchase f callbacks k with
        | some x => exact .inl ⟨k, by rw [hf]; rfl⟩
        | none =>
          rw [hf] at hk
          simp only [Option.map_none, Option.none_or] at hk
          split at hk
          · exact .inr hk
          · cases hk
      · rintro (⟨k, hk⟩ | hb)
        · refine ⟨k, ?_⟩
          rw [hl]
          obtain ⟨x, hx⟩ := Option.isSome_iff_exists.1 hk
          rw [hx]; rfl
        · refine ⟨0x36, ?_⟩
          rw [hl, if_pos rfl]
          cases forCallback onPurchase f callbacks 0x36 with
          | some x => rfl
          | none => simpa using hb
    unfold purchaseAnswer
    rw [← hmapE]
    by_cases hpu : hasPurchase f = true
    · rw [if_neg (Classical.not_not.2 ((buyable_iff f).1 hpu))]
      rw [if_pos hpu] at hmaps
      by_cases hb : AnyPurchase f (properties.getD []) callbacks
      · rw [if_pos hb]
        rw [hany.2 hb] at hmaps
        simp only [Bool.not_false, if_true] at hmaps
        rw [← hmaps]
        simp only [inPurchaseList, List.lookup_cons, beq_self_eq_true, Option.getD_some, Tree.eval, hl]
        cases hf : forCallback onPurchase f callbacks cb with
        | some x => rfl
        | none =>
          simp only [Option.map_none, Option.none_or, Option.getD_none]
          by_cases h36 : cb = 0x36
          · simp only [h36, if_true, true_and]
            rw [← e4]
            cases b with
            | none => rw [if_neg (fun q => by cases q.2)]; rfl
            | some n => rw [if_pos ⟨h36, rfl⟩]; exact e3 info n rfl
          · rw [if_neg h36, if_neg (fun q => h36 q.1)]; rfl
      · rw [if_neg hb]
        have : (collect CB.purch (start b) m.cbs).isEmpty = true := by
          rw [← Bool.not_eq_false]; exact fun q => hb (hany.1 q)
        rw [this] at hmaps
        simp only [Bool.not_true, Bool.false_eq_true, if_false] at hmaps
        cases hx : used onPurchase f graphics callbacks with
        | some x => rw [hx] at hmaps; simp only at hmaps; rw [← hmaps]; rfl
        | none => rw [hx] at hmaps; simp only at hmaps; rw [← hmaps]; rfl
    · rw [if_pos (fun q => hpu ((buyable_iff f).2 q))]
      rw [if_neg hpu] at hmaps
      rw [← hmaps]; rfl

/-- **C42** Generation is refused exactly without graphics, for features that are drawn, or if both the property callback and handlers of
single properties are registered. -/
theorem refused_iff (f : Nat) (graphics : Val) (properties : Option (List (String × Val))) (callbacks : List (String × Val)) (m : Mgr)
    (hp : ((properties.getD []).map (·.1)).Nodup) (hc : (callbacks.map (·.1)).Nodup)
    (h : make f graphics properties callbacks = some m) :
    makeMap m = none ↔ (Spec.Drawn f ∧ onMap .graphics graphics = none) ∨
      ((∃ i, (registered (propRows f) onMap (properties.getD []) i).isSome ∨ (registered (propRows f) onPurchase (properties.getD []) i).isSome) ∧
       ((registered (cbRows f) onMap callbacks 0x36).isSome ∨ (registered (cbRows f) onPurchase callbacks 0x36).isSome)) := by
  rw [← drawn_iff]
  by_cases hf : f ≠ 16 ∧ f ≠ 18 ∧ f ≠ 19
  · exact refused_iff_partial f graphics properties callbacks m hp hc hf h
  · have hm := make_spec f graphics properties callbacks m hp hc h
    have hv : 3 < f := by omega
    have hg : hasGraphics f = false := by
      have : f = 16 ∨ f = 18 ∨ f = 19 := by omega
      rcases this with rfl | rfl | rfl <;> rfl
    have hno : ∀ get i, registered (propRows f) get (properties.getD []) i = none := by
      intro get i; rw [only_vehicles hv]; rfl
    simp only [hno, hg, Option.isSome_none, Bool.false_eq_true, or_self, exists_false, false_and, iff_false]
    rw [generated_exact hm, if_neg (by simp [hg])]
    simp [propertySwitches, hm.vehicle hv]

/-- **C42** Nothing is generated exactly for features that are not drawn, if no callback but number 0 has a handler for the map. -/
theorem nothing_generated_iff (f : Nat) (graphics : Val) (properties : Option (List (String × Val))) (callbacks : List (String × Val)) (m : Mgr)
    (hp : ((properties.getD []).map (·.1)).Nodup) (hc : (callbacks.map (·.1)).Nodup)
    (h : make f graphics properties callbacks = some m) :
    makeMap m = some none ↔ ¬ Spec.Drawn f ∧ ∀ cb, forCallback onMap f callbacks cb = none := by
  have hm := make_spec f graphics properties callbacks m hp hc h
  rw [generated_exact hm, ← drawn_iff, Bool.not_eq_true]
  constructor
  · intro hmap
    split at hmap
    · cases hmap
    · next hgr =>
      simp only [Option.map_eq_some_iff, Option.map_eq_none_iff] at hmap
      obtain ⟨⟨a, b⟩, -, hd⟩ := hmap
      split at hd
      · cases hd
      · next hne =>
        split at hd
        · next hgr' =>
          simp only [Option.map_eq_none_iff] at hd
          exact absurd ⟨hgr', hd⟩ hgr
        · next hgr' =>
          refine ⟨by simpa using hgr', fun cb => ?_⟩
          simp only [Bool.not_eq_true, Bool.not_eq_false'] at hne
          have hl := collect_map hm a cb
          rw [isEmpty_lookup hne] at hl
          cases hreg : forCallback onMap f callbacks cb with
          | none => rfl
          | some x => rw [hreg] at hl; simp at hl
  · rintro ⟨hg, hno⟩
    rw [if_neg (by simp [hg])]
    have hv : 3 < f := by
      rcases Nat.lt_or_ge 3 f with h | h
      · exact h
      · exfalso
        have : f = 0 ∨ f = 1 ∨ f = 2 ∨ f = 3 := by omega
        rcases this with rfl | rfl | rfl | rfl <;> simp [hasGraphics] at hg
    have hps : ∀ g, propertySwitches m g = some (none, none) := by
      intro g; simp [propertySwitches, hm.vehicle hv]
    rw [hps]
    have he : (collect CB.dflt (start none) m.cbs).isEmpty = true := by
      rw [← Bool.not_eq_false]
      intro q
      obtain ⟨k, hk⟩ := nonempty_lookup.1 q
      rw [collect_map hm none k, hno k] at hk
      simp at hk
    simp [List.isEmpty_iff.1 he, hg]

/-- **C42** The flag properties get exactly the flags of the registered callbacks in addition to the bits the user had set. -/
theorem flags_exact (f : Nat) (graphics : Val) (properties : Option (List (String × Val))) (callbacks : List (String × Val)) (m : Mgr)
    (hp : ((properties.getD []).map (·.1)).Nodup) (hc : (callbacks.map (·.1)).Nodup)
    (h : make f graphics properties callbacks = some m) (cb extra : Option Nat) (i : Nat) :
    (((setFlagProps m cb extra).1.getD 0).testBit i = true ↔
      (cb.getD 0).testBit i = true ∨ i < 8 ∧ ∃ r ∈ cbRows f, isRegistered f callbacks r ∧ r.flag.testBit i = true) ∧
    (((setFlagProps m cb extra).2.getD 0).testBit i = true ↔
      (extra.getD 0).testBit i = true ∨ ∃ r ∈ cbRows f, isRegistered f callbacks r ∧ r.flag.testBit (i + 8) = true) := by
  by_cases hf : f ≠ 16 ∧ f ≠ 18 ∧ f ≠ 19
  · exact flags_exact_partial f graphics properties callbacks m hp hc hf h cb extra i
  · have hm := make_spec f graphics properties callbacks m hp hc h
    have hz : ∀ r ∈ cbRows f, r.flag = 0 := by
      have : f = 16 ∨ f = 18 ∨ f = 19 := by omega
      rcases this with rfl | rfl | rfl <;> decide +kernel
    have h0 : flagsOf m = 0 := by
      apply Nat.eq_of_testBit_eq
      intro j
      rw [Nat.zero_testBit, ← Bool.not_eq_true]
      unfold flagsOf
      rw [foldl_or_testBit (fun kv : Nat × CB => kv.1 ≠ 0 ∧ kv.2.isSet = true), hm.feature]
      simp only [Nat.zero_testBit, Bool.false_eq_true, false_or]
      rintro ⟨kv, -, -, hb⟩
      cases hr : (cbRows f).find? fun r => r.id == kv.1 with
      | none => simp [hr] at hb
      | some r =>
        rw [hr] at hb
        simp [hz r (List.mem_of_find?_eq_some hr)] at hb
    have hn : ∀ j, ¬ ∃ r ∈ cbRows f, isRegistered f callbacks r ∧ r.flag.testBit j = true := by
      rintro j ⟨r, hr, -, hb⟩
      rw [hz r hr] at hb; simp at hb
    simp [setFlagProps, h0, hn]

/-! ### What is accepted -/

theorem assignAll_isSome (set : List (Nat × CB) → String × Val → Option (List (Nat × CB))) (ok : String × Val → Prop)
    (hs : ∀ d kv, (set d kv).isSome = true ↔ ok kv) : ∀ (l : List (String × Val)) (d : List (Nat × CB)),
    (assignAll set d l).isSome = true ↔ ∀ kv ∈ l, ok kv := by
  intro l
  induction l with
  | nil => intro d; simp [assignAll]
  | cons kv l ih =>
    intro d
    simp only [assignAll, Option.bind_eq_bind, List.forall_mem_cons, ← hs d kv]
    cases set d kv with
    | none => simp
    | some d1 => simp [ih]

/-- The value fits the class: a handler, or a callback object of that class. -/
def FitsClass (cls : Cls) : Val → Prop
  | .raw _ => True
  | .cb c => c.cls = cls

theorem wrap_isSome (cls : Cls) (v : Val) : (wrap cls v).isSome = true ↔ FitsClass cls v := by
  cases v with
  | raw h => simp [wrap, FitsClass]
  | cb c =>
    simp only [wrap, FitsClass]
    split <;> simp_all

/-- **C42** A manager is made exactly if the feature has callbacks, properties are given for vehicles only, every name of a callback is
known, and every value fits the class of its callback or (if the name is known) property. -/
theorem make_accepted_iff (f : Nat) (graphics : Val) (properties : Option (List (String × Val))) (callbacks : List (String × Val)) :
    (make f graphics properties callbacks).isSome = true ↔
      cbRows f ≠ [] ∧ (properties.isSome → f < 4) ∧ FitsClass .graphics graphics ∧
      (∀ kv ∈ callbacks, ∃ r ∈ cbRows f, r.name = kv.1 ∧ FitsClass r.cls kv.2) ∧
      (∀ kv ∈ properties.getD [], ∀ r ∈ propRows f, r.name = kv.1 → FitsClass r.cls kv.2) := by
  have hcb : ∀ d kv, (setCallback f d kv).isSome = true ↔ ∃ r ∈ cbRows f, r.name = kv.1 ∧ FitsClass r.cls kv.2 := by
    intro d kv
    simp only [setCallback, Option.bind_eq_bind]
    cases hr : (cbRows f).find? fun r => r.name == kv.1 with
    | none =>
      simp only [Option.bind_none, Option.isSome_none, Bool.false_eq_true, false_iff]
      rintro ⟨r, hm, he, -⟩
      have := List.find?_eq_none.1 hr r hm
      simp [he] at this
    | some r =>
      have hrm := List.mem_of_find?_eq_some hr
      have hrn : r.name = kv.1 := by simpa using List.find?_some hr
      simp only [Option.bind_some]
      have e : ((wrap r.cls kv.2).bind fun c => some (dictSet d r.id c)).isSome = true ↔ FitsClass r.cls kv.2 := by
        rw [← wrap_isSome]; cases wrap r.cls kv.2 <;> simp
      rw [e]
      constructor
      · exact fun hw => ⟨r, hrm, hrn, hw⟩
      · rintro ⟨s, hsm, hsn, hw⟩
        rw [name_inj (cbRows_ok f).2 hrm hsm (hrn.trans hsn.symm)]; exact hw
  have hpr : ∀ d kv, (setProperty f d kv).isSome = true ↔ ∀ r ∈ propRows f, r.name = kv.1 → FitsClass r.cls kv.2 := by
    intro d kv
    unfold setProperty
    cases hr : (propRows f).find? fun r => r.name == kv.1 with
    | none =>
      simp only [Option.isSome_some, true_iff]
      intro r hm he
      have := List.find?_eq_none.1 hr r hm
      simp [he] at this
    | some r =>
      have hrm := List.mem_of_find?_eq_some hr
      have hrn : r.name = kv.1 := by simpa using List.find?_some hr
      simp only [Option.isSome_map, wrap_isSome]
      constructor
      · intro hw s hsm hsn
        rw [name_inj (propRows_ok f).2 hsm hrm (hsn.trans hrn.symm)]; exact hw
      · exact fun hw => hw r hrm hrn
  have a1 := assignAll_isSome (setProperty f) _ hpr (properties.getD []) []
  have hcond : ((cbRows f).isEmpty = true ∨ (3 < f ∧ properties.isSome = true)) ↔ ¬ (cbRows f ≠ [] ∧ (properties.isSome = true → f < 4)) := by
    rw [List.isEmpty_iff]
    constructor
    · rintro (h | ⟨h1, h2⟩) ⟨q1, q2⟩
      · exact q1 h
      · have := q2 h2; omega
    · intro h
      by_cases q : cbRows f = []
      · exact .inl q
      · right
        apply Classical.byContradiction
        intro hn
        apply h
        refine ⟨q, fun hp => ?_⟩
        rcases Nat.lt_or_ge f 4 with h4 | h4
        · exact h4
        · exact absurd ⟨by omega, hp⟩ hn
  rw [← wrap_isSome .graphics, ← a1]
  simp only [make, Option.bind_eq_bind]
  cases hg : wrap .graphics graphics with
  | none => simp
  | some g =>
    have a2 := assignAll_isSome (setCallback f) _ hcb callbacks [(0, g)]
    rw [← a2]
    simp only [Option.bind_some, Option.isSome_some, true_and]
    by_cases hq : (cbRows f).isEmpty = true ∨ (3 < f ∧ properties.isSome = true)
    · rw [if_pos hq]
      rw [hcond] at hq
      simp only [Option.isSome_none, Bool.false_eq_true, false_iff]
      rintro ⟨h1, h2, -⟩
      exact hq ⟨h1, h2⟩
    · rw [if_neg hq]
      rw [hcond, Classical.not_not] at hq
      cases assignAll (setProperty f) [] (properties.getD []) with
      | none => simp
      | some ps =>
        cases assignAll (setCallback f) [(0, g)] callbacks with
        | none => simp
        | some cs => simp only [Option.bind_some, Option.isSome_some, and_true, true_iff]; exact hq

/-! ### Where the answer is not what was registered -/

/-- **C42** On the map, a property is answered with the handler registered for the map exactly if some property separates the two
situations, or the property has no handler for the purchase list, or the same one. -/
theorem property_right_iff (f : Nat) (ps : List (String × Val)) (i : Nat) :
    forProperty onMap f ps i = registered (propRows f) onMap ps i ↔
      Separated f ps ∨ registered (propRows f) onPurchase ps i = none ∨
      registered (propRows f) onPurchase ps i = registered (propRows f) onMap ps i := by
  unfold forProperty
  by_cases hs : Separated f ps
  · simp [hs]
  · rw [if_neg hs]
    cases registered (propRows f) onPurchase ps i <;> simp [hs]

/-- In the purchase list it always is answered with the handler for the purchase list, if there is one. -/
theorem property_purchase_right (f : Nat) (ps : List (String × Val)) (i : Nat) (x : Handler)
    (h : registered (propRows f) onPurchase ps i = some x) : forProperty onPurchase f ps i = some x := by
  unfold forProperty
  split
  · exact h
  · rw [h]; rfl

/-- Features other than rail, road and tram types draw with the graphics the user gave. -/
theorem used_given (get : Cls → Val → Option Handler) (f : Nat) (graphics : Val) (cs : List (String × Val)) (hf : f ≠ 16 ∧ f ≠ 18 ∧ f ≠ 19) :
    used get f graphics cs = get .graphics graphics := by
  unfold used gui; rw [no_zero hf]; rfl

/-- **C42 boundary** A rail type's `gui` answers every callback that has no handler, instead of the graphics. -/
theorem railtype_gui_is_graphics (g : Val) (h x : Handler) : ∃ m t maps,
    make 16 g none [("gui", .raw (some h)), ("underlay", .raw (some x))] = (wrap .graphics g).map (fun _ => m) ∧
    makeMap m = some (some (t, maps)) ∧ t.eval 2 0 = x ∧ t.eval 0 0 = h ∧ t.eval 8 0 = h := by
  refine ⟨⟨16, [(0, .default (some h)), (2, .default (some x))], []⟩, _, _, ?_, rfl, rfl, rfl, rfl⟩
  unfold make
  cases wrap .graphics g <;> rfl

/-- The hypotheses of the dispatch theorems are met by a train with a property which has two handlers. -/
example : ∃ m t maps, make 0 (.raw (some (.int 1))) (some [("power", .cb (mkDual (some (.int 7)) (some (.obj 2 none))))])
      [("name", .raw (some (.int 5)))] = some m ∧ makeMap m = some (some (t, maps)) ∧
    Separated 0 [("power", .cb (mkDual (some (.int 7)) (some (.obj 2 none))))] ∧ AnyPurchase 0 [] [("name", .raw (some (.int 5)))] := by
  refine ⟨_, _, _, rfl, rfl, ⟨⟨0xb, "power", 0, .dual⟩, by decide, rfl, _, rfl, .inl rfl, ?_⟩, .inl ⟨0x161, by decide⟩⟩
  intro d p hd hp
  simp only [onMap, onPurchase, mkDual, CB.dflt, CB.purch, Option.some.injEq] at hd hp
  subst hd; subst hp
  decide

end Grf.Callbacks
