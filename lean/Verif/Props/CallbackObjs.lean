import Verif.Model.CallbackObjs
import Verif.Props.Chain
import Verif.Props.CallbackNumbers
/-!
# C89: registered callbacks answer in the game
-/
set_option linter.unusedSimpArgs false
namespace Grf.Chain
open _root_.Spec
open Callbacks (Handler Tree Val Mgr make makeMap mapAnswer purchaseAnswer inPurchaseList CB)

/-! ## Switches are never without ranges -/

/-- There are ranges in the switch. -/
def FullNode : Callbacks.Node → Prop
  | .handler _ => True
  | .props ranges _ => ranges ≠ []

/-- There are ranges in the switches. -/
def FullTree : Tree → Prop
  | .plain _ => True
  | .switch ranges _ => ranges ≠ [] ∧ ∀ p ∈ ranges, FullNode p.2

theorem mem_dictSet' {β : Type} {d : List (Nat × β)} {k : Nat} {v : β} {p : Nat × β} (h : p ∈ dictSet d k v) : p ∈ d ∨ p.2 = v := by
  induction d with
  | nil => simp only [dictSet, List.mem_singleton] at h; exact .inr (by rw [h])
  | cons q d ih =>
    obtain ⟨a, b⟩ := q
    simp only [dictSet] at h
    split at h
    · rcases List.mem_cons.1 h with h | h
      · exact .inr (by rw [h])
      · exact .inl (by simp [h])
    · rcases List.mem_cons.1 h with h | h
      · exact .inl (by simp [h])
      · rcases ih h with h | h
        · exact .inl (by simp [h])
        · exact .inr h

theorem collect_full (get : CB → Option Handler) (cbs : List (Nat × CB)) : ∀ (d : List (Nat × Callbacks.Node)),
    (∀ p ∈ d, FullNode p.2) → ∀ p ∈ Callbacks.collect get d cbs, FullNode p.2 := by
  induction cbs with
  | nil => intro d h; exact h
  | cons c cbs ih =>
    intro d h
    simp only [Callbacks.collect, List.foldl_cons]
    apply ih
    split
    · exact h
    · split
      · intro p hp
        rcases mem_dictSet' hp with hp | hp
        · exact h p hp
        · rw [hp]; trivial
      · exact h

theorem dictSet_ne_nil {β : Type} (d : List (Nat × β)) (k : Nat) (v : β) : dictSet d k v ≠ [] := by
  cases d with
  | nil => simp [dictSet]
  | cons q d => obtain ⟨a, b⟩ := q; simp only [dictSet]; split <;> simp

theorem merge_ne_nil {β : Type} (b : List (Nat × β)) : ∀ a : List (Nat × β), a ≠ [] ∨ b ≠ [] → Callbacks.mergeDict a b ≠ [] := by
  induction b with
  | nil => intro a h; simpa [Callbacks.mergeDict] using h
  | cons x b ih =>
    intro a _
    simp only [Callbacks.mergeDict, List.foldl_cons]
    exact ih _ (.inl (dictSet_ne_nil _ _ _))

theorem props_full {l : List (Nat × Handler)} {g : Handler} {n : Callbacks.Node}
    (h : (if l.isEmpty then none else some (Callbacks.Node.props l g)) = some n) : FullNode n := by
  cases l with
  | nil => simp at h
  | cons x l =>
    simp only [List.isEmpty_cons, Bool.false_eq_true, if_false, Option.some.injEq] at h
    subst h
    intro e
    cases e

theorem selected_ne_nil {P : List (Nat × CB)} {kv : Nat × CB} (h : kv ∈ P) (get : CB → Option Handler) (hs : (get kv.2).isSome = true) :
    (P.filterMap fun kv => (get kv.2).map fun h => (kv.1, h)) ≠ [] := by
  obtain ⟨x, hx⟩ := Option.isSome_iff_exists.1 hs
  intro e
  have hm : (kv.1, x) ∈ P.filterMap fun kv => (get kv.2).map fun h => (kv.1, h) := by
    refine List.mem_filterMap.2 ⟨kv, h, ?_⟩
    rw [hx]; rfl
  rw [e] at hm
  cases hm

theorem switches_full (P : List (Nat × CB)) (g : Handler) (hs : (P.any fun kv => kv.2.isSet) = true) :
    (∀ n, (Callbacks.makeSwitches P g).1 = some n → FullNode n) ∧ ∀ n, (Callbacks.makeSwitches P g).2 = some n → FullNode n := by
  unfold Callbacks.makeSwitches
  simp only
  split
  · exact ⟨fun n h => props_full h, fun n h => props_full h⟩
  · have : Callbacks.mergeDict ((P.filter fun kv => kv.2.isSet).filterMap fun kv => kv.2.dflt.map fun h => (kv.1, h))
        ((P.filter fun kv => kv.2.isSet).filterMap fun kv => kv.2.purch.map fun h => (kv.1, h)) ≠ [] := by
      apply merge_ne_nil
      obtain ⟨kv, hkv, hset⟩ := List.any_eq_true.1 hs
      have hm : kv ∈ P.filter fun kv => kv.2.isSet := List.mem_filter.2 ⟨hkv, hset⟩
      rw [Callbacks.isSet_iff, Bool.or_eq_true] at hset
      rcases hset with h | h
      · exact .inl (selected_ne_nil hm CB.dflt h)
      · exact .inr (selected_ne_nil hm CB.purch h)
    refine ⟨?_, ?_⟩
    all_goals
      intro n h
      simp only [Option.some.injEq] at h
      subst h
      exact this

theorem start_full {o : Option Callbacks.Node} (h : ∀ n, o = some n → FullNode n) : ∀ p ∈ Callbacks.start o, FullNode p.2 := by
  intro p hp
  cases o with
  | none => simp [Callbacks.start] at hp
  | some n =>
    simp only [Callbacks.start, List.mem_singleton] at hp
    rw [hp]; exact h n rfl

theorem made_full {m : Mgr} {t : Tree} {maps : List (Nat × Tree)} (h : makeMap m = some (some (t, maps))) :
    FullTree t ∧ ∀ p ∈ maps, FullTree p.2 := by
  simp only [makeMap, Option.bind_eq_bind, Option.bind_eq_some_iff, Option.some.injEq] at h
  obtain ⟨⟨dd, mm⟩, h, h2⟩ := h
  simp only [Option.map_eq_some_iff, Prod.mk.injEq] at h2
  obtain ⟨t', h2, rfl, rfl⟩ := h2
  unfold Callbacks.makeSwitch at h
  split at h
  · cases h
  · next gcb _ =>
    split at h
    · cases h
    · split at h
      · cases h
      · next ds ps hps =>
        simp only [Option.some.injEq, Prod.mk.injEq] at h
        obtain ⟨hd, hm⟩ := h
        have hfull : (∀ n, ds = some n → FullNode n) ∧ ∀ n, ps = some n → FullNode n := by
          unfold Callbacks.propertySwitches at hps
          split at hps
          · next hset =>
            split at hps
            · cases hps
            · simp only [Option.some.injEq] at hps
              have := switches_full m.props (gcb.dflt.getD (.int 0)) hset
              rw [hps] at this
              exact this
          · simp only [Option.some.injEq, Prod.mk.injEq] at hps
            obtain ⟨rfl, rfl⟩ := hps
            simp
        refine ⟨?_, ?_⟩
        · rw [h2] at hd
          split at hd
          · next hne =>
            simp only [Option.some.injEq] at hd
            subst hd
            refine ⟨fun e => ?_, collect_full _ _ _ (start_full hfull.1)⟩
            rw [e] at hne
            simp at hne
          · split at hd
            · simp only [Option.map_eq_some_iff] at hd
              obtain ⟨x, _, rfl⟩ := hd
              trivial
            · cases hd
        · intro p hp
          rw [← hm] at hp
          split at hp
          · split at hp
            · next hne =>
              simp only [List.mem_singleton] at hp
              subst hp
              refine ⟨fun e => ?_, collect_full _ _ _ (start_full hfull.2)⟩
              rw [e] at hne
              simp at hne
            · split at hp
              · simp only [List.mem_singleton] at hp
                subst hp
                trivial
              · cases hp
          · cases hp

/-! ## What the switches mean -/

theorem pick_single (ranges : List (Nat × Tgt)) (d : Tgt) (v : Nat) :
    pick (ranges.map fun p => ((p.1 : Int), (p.1 : Int), p.2)) d (v : Int) = (ranges.lookup v).getD d := by
  induction ranges with
  | nil => rfl
  | cons p ranges ih =>
    obtain ⟨k, t⟩ := p
    simp only [List.map_cons, pick, List.lookup]
    by_cases h : v = k
    · subst h
      rw [if_pos (by omega)]
      simp
    · rw [if_neg (by omega)]
      have : (v == k) = false := by simpa using h
      rw [this]
      exact ih

theorem low_bits (x : Word) (n : Nat) (h : n ≤ 16) : (bits x 0 (2 ^ n - 1)).toInt = ((x.toNat % 2 ^ n : Nat) : Int) := by
  have hp : (2 : Nat) ^ n ≤ 2 ^ 16 := Nat.pow_le_pow_right (by decide) h
  have h0 : 0 < (2 : Nat) ^ n := Nat.two_pow_pos n
  have e : ((2 : Int) ^ n - 1) = ((2 ^ n - 1 : Nat) : Int) := by
    have e2 : ((2 ^ n : Nat) : Int) = (2 : Int) ^ n := by simp
    omega
  have e1 : (bits x 0 (2 ^ n - 1)).toNat = x.toNat % 2 ^ n := by
    rw [bits, e]
    have : BitVec.ofInt 32 ((2 ^ n - 1 : Nat) : Int) = BitVec.ofNat 32 (2 ^ n - 1) := by
      generalize 2 ^ n - 1 = k
      simp
    rw [this, BitVec.toNat_and, BitVec.toNat_ofNat, Nat.mod_eq_of_lt (by omega)]
    simp only [BitVec.ushiftRight_zero]
    exact Nat.and_two_pow_sub_one_eq_mod _ n
  rw [BitVec.toInt_eq_toNat_of_lt, e1]
  rw [e1]
  have := Nat.mod_lt x.toNat h0
  omega

section
variable {G : Game} {vt : Nat → Bool → String → Option VarData} {O : Nat → Obj} {f : Nat}

/-- What a switch over a field means: what is found under the field's value. -/
theorem field_switch (code : String) (v n : Nat) (hn : n ≤ 16) (hvt : vt f false code = some ⟨v, 0, n, none⟩)
    (hv : v ≠ 0x7b ∧ v ≠ 0x7e ∧ v ≠ 0x7d ∧ v ≠ 0x7c ∧ v ≠ 26) {k : Nat} {ranges : List (Nat × Tgt)} {d : Tgt}
    (hk : O k = fieldSwitch code ranges d) (hr : ranges ≠ []) (depth : Nat) (m : Mach) :
    mean G vt O f (depth + 1) (.obj k) m =
      mean G vt O f depth ((ranges.lookup ((G.var f false v 0 m).toNat % 2 ^ n)).getD d) m := by
  rw [mean, hk]
  simp only [fieldSwitch]
  rw [evalLinesS, evalS]
  simp only [hvt]
  have e : readNum (SWorld.vars ⟨G.var f false, fun j m => (mean G vt O f depth (.obj j) m).map fun r => (r.1.word, r.2)⟩) v
      (BitVec.ofNat 32 ((none : Option Nat).getD 0)) m = some (G.var f false v 0 m) := by
    unfold readNum getVar
    simp only [SWorld.vars]
    rw [if_neg (by omega), if_neg (by rintro ⟨h, _⟩; omega), if_neg (by omega), if_neg (by omega), if_neg (by omega)]
    rfl
  rw [e]
  simp only [Option.bind_eq_bind, Option.bind_some]
  rw [if_neg (by simpa using hr), low_bits _ n hn, pick_single]

theorem forall2_lookup {α β : Type} {R : α → β → Prop} (v : Nat) : ∀ {l : List (Nat × α)} {l' : List (Nat × β)},
    List.Forall₂ (fun p q => p.1 = q.1 ∧ R p.2 q.2) l l' →
    (l.lookup v = none ∧ l'.lookup v = none) ∨ ∃ a b, l.lookup v = some a ∧ l'.lookup v = some b ∧ R a b := by
  intro l l' h
  induction h with
  | nil => exact .inl ⟨rfl, rfl⟩
  | @cons p q l l' hpq _ ih =>
    obtain ⟨k, a⟩ := p
    obtain ⟨k', b⟩ := q
    obtain ⟨rfl, hab⟩ := hpq
    simp only [List.lookup]
    cases v == k with
    | true => exact .inr ⟨a, b, rfl, rfl, hab⟩
    | false => exact ih

theorem map_lookup {α β : Type} (g : α → β) (v : Nat) (l : List (Nat × α)) :
    (l.map fun p => (p.1, g p.2)).lookup v = (l.lookup v).map g := by
  induction l with
  | nil => rfl
  | cons p l ih =>
    simp only [List.map_cons, List.lookup]
    cases v == p.1 with
    | true => rfl
    | false => exact ih

theorem node_means (hinfo : vt f false "extra_callback_info1_byte" = some ⟨0x10, 0, 8, none⟩) {t : Tgt} {n : Callbacks.Node}
    (h : NodeAt O t n) (hf : FullNode n) (depth : Nat) (m : Mach) (r : Outcome × Mach)
    (hm : mean G vt O f depth (handlerTgt (n.eval (G.var f false 0x10 0 m).toNat)) m = some r) :
    mean G vt O f (depth + 1) t m = some r := by
  cases h with
  | handler h => exact meaning_deeper G vt O f depth 1 _ m r hm
  | props k ranges d hk =>
    rw [field_switch _ 0x10 8 (by decide) hinfo (by decide) hk (by
      intro e
      exact hf (List.map_eq_nil_iff.1 e)), map_lookup, ← hm]
    simp only [Callbacks.Node.eval]
    cases ranges.lookup ((G.var f false 0x10 0 m).toNat % 2 ^ 8) with
    | none => rfl
    | some x => rfl

theorem tree_means (hinfo : vt f false "extra_callback_info1_byte" = some ⟨0x10, 0, 8, none⟩)
    (hcb : vt f false "current_callback" = some ⟨0x0c, 0, 16, none⟩) {t : Tgt} {tr : Tree}
    (h : TreeAt O t tr) (hf : FullTree tr) (depth : Nat) (m : Mach) (r : Outcome × Mach)
    (hm : mean G vt O f depth (handlerTgt (tr.eval ((G.var f false 0x0c 0 m).toNat % 65536) (G.var f false 0x10 0 m).toNat)) m = some r) :
    mean G vt O f (depth + 2) t m = some r := by
  cases h with
  | plain h => exact meaning_deeper G vt O f depth 2 _ m r hm
  | switch k nodes ranges d hk each =>
    have hne : ranges ≠ [] := by
      rintro rfl
      cases each
      exact hf.1 rfl
    rw [field_switch _ 0x0c 16 (by decide) hcb (by decide) hk hne]
    show mean G vt O f (depth + 1) ((ranges.lookup ((G.var f false 0x0c 0 m).toNat % 65536)).getD _) m = some r
    simp only [Callbacks.Tree.eval] at hm
    rcases forall2_lookup (R := fun n t => NodeAt O t n) ((G.var f false 0x0c 0 m).toNat % 65536) each with ⟨h1, h2⟩ | ⟨a, b, h1, h2, h3⟩
    · rw [h1] at hm
      rw [h2]
      exact meaning_deeper G vt O f depth 1 _ m r hm
    · rw [h1] at hm
      rw [h2]
      exact node_means hinfo h3 (hf.2 _ (Callbacks.lookup_mem h1)) depth m r hm

end

theorem forall2_lookup_int {R : Tree → Tgt → Prop} (v : Nat) : ∀ {l : List (Nat × Tree)} {l' : List (Int × Tgt)},
    List.Forall₂ (fun p q => q.1 = (p.1 : Int) ∧ R p.2 q.2) l l' →
    (l.lookup v = none ∧ l'.lookup (v : Int) = none) ∨ ∃ a b, l.lookup v = some a ∧ l'.lookup (v : Int) = some b ∧ R a b ∧ ((v : Int), b) ∈ l' := by
  intro l l' h
  induction h with
  | nil => exact .inl ⟨rfl, rfl⟩
  | @cons p q l l' hpq _ ih =>
    obtain ⟨k, a⟩ := p
    obtain ⟨k', b⟩ := q
    obtain ⟨e, hab⟩ := hpq
    simp only at e
    subst e
    simp only [List.lookup]
    by_cases c : v = k
    · subst c
      simp only [beq_self_eq_true]
      exact .inr ⟨a, b, rfl, rfl, hab, by simp⟩
    · have c1 : (v == k) = false := by simpa using c
      have c2 : ((v : Int) == (k : Int)) = false := by simp only [beq_eq_false_iff_ne]; omega
      rw [c1, c2]
      rcases ih with h | ⟨x, y, h1, h2, h3, h4⟩
      · exact .inl h
      · exact .inr ⟨x, y, h1, h2, h3, by simp [h4]⟩

theorem named (f : Nat) (hf : f ∈ [0, 1, 2, 3, 4, 7, 9, 10, 15, 16, 20]) :
    varTable f false "extra_callback_info1_byte" = some ⟨0x10, 0, 8, none⟩ ∧ varTable f false "current_callback" = some ⟨0x0c, 0, 16, none⟩ := by
  have : ∀ f < 21, f ∈ [0, 1, 2, 3, 4, 7, 9, 10, 15, 16, 20] →
      varTable f false "extra_callback_info1_byte" = some ⟨0x10, 0, 8, none⟩ ∧ varTable f false "current_callback" = some ⟨0x0c, 0, 16, none⟩ := by
    decide +kernel
  refine this f ?_ hf
  simp only [List.mem_cons, List.not_mem_nil, or_false] at hf
  omega

/-- The switches the manager makes are as C88 asks. -/
theorem made_ok {f : Nat} {O : Nat → Obj} (hf : f ∈ [0, 1, 2, 3, 4, 7, 9, 10, 15, 16, 20]) {k : Nat} {code : String}
    (hc : code = "current_callback" ∨ code = "extra_callback_info1_byte") {ranges : List (Nat × Tgt)} {d : Tgt}
    (hk : O k = fieldSwitch code ranges d) : (O k).Ok varTable O f := by
  rw [hk]
  obtain ⟨h1, h2⟩ := named f hf
  refine ⟨?_, ?_, by simp, ?_⟩
  · intro e he
    simp only [List.mem_singleton] at he
    subst he
    refine ⟨?_, rfl⟩
    intro v hv
    simp only [Sw.names] at hv
    rcases hc with rfl | rfl
    · rw [h2] at hv; cases hv; decide
    · rw [h1] at hv; cases hv; decide
  · rfl
  · intro r hr
    obtain ⟨p, _, rfl⟩ := List.mem_map.1 hr
    simp only
    omega

/-- **C89** An item's callbacks in the game. The user registers graphics, property handlers and callbacks for an item; the map action the
manager makes for it is one of the maps of C88. In the file written, its entry has a word for the item on the map (`word d`) and one for
the purchase list (that of entry 255, or the same). When the game, in any state, asks callback number `cb` (variable 0C) with argument
`info` (variable 10) and follows the word, it gets what the handler registered means: the one of `mapAnswer` on the map, the one of
`purchaseAnswer` in the purchase list (C42 says exactly which these are). -/
theorem registered_answers_in_game (O : Nat → Obj) (limit : Nat) (sprites : List Nat) (res : Resolved)
    (hac : Acyclic (world O)) (hadd : AddedOk O sprites)
    (hok : ∀ r ∈ sprites, ∀ f ids maps d, O r = .map f ids maps d → ∀ a, Needs (world O) r a → (O a).Ok varTable O f)
    (hres : resolveRefs (world O) limit sprites = some res)
    (hash : List Bytes → Int) (real : Nat → Option Bytes) (RW : ResWorld) (w : Written)
    (hh : HashDistinguishes hash real RW (items varTable O res)) (hw : writeFile hash real RW (items varTable O res) = some w) :
    ∃ off entries reals, w.file = Grf.Spec.fileBytes off (⟨0xff, Grf.Spec.word 2⟩ :: entries) reals ∧
      ∀ (f : Nat) (_ : f ∈ [0, 1, 2, 3, 4, 7, 9, 10, 15, 16, 20]) (graphics : Val) (properties : Option (List (String × Val)))
        (callbacks : List (String × Val)) (m : Mgr) (made : Tree × List (Nat × Tree)) (r : Nat) (id : Int) (maps : List (Int × Tgt)) (d : Tgt),
        ((properties.getD []).map (·.1)).Nodup → (callbacks.map (·.1)).Nodup → make f graphics properties callbacks = some m →
        makeMap m = some (some made) → r ∈ sprites → ItemAt O r f id maps d made →
        ∃ before bs after, entries = before ++ ⟨0xff, bs⟩ :: after ∧ ∃ word : Tgt → Nat,
          Grf.Spec.WrittenAs (Grf.Spec.mapFields ⟨f, [id], maps.map fun p => (p.1, .ref (word p.2)), .ref (word d), false⟩) bs ∧
          ∀ G : Game, (∀ f r v p a b, Agree a b → G.var f r v p a = G.var f r v p b) → ∀ (s : Mach) (cb info : Nat),
            (G.var f false 0x0c 0 s).toNat % 65536 = cb → (G.var f false 0x10 0 s).toNat = info → ∀ depth o s',
              (mean G varTable O f depth (handlerTgt (mapAnswer f graphics (properties.getD []) callbacks cb info)) s = some (o, s') →
                ∃ s2, runWord G (groupsAfter before) (word d) s = (o, s2) ∧ Agree s' s2) ∧
              (mean G varTable O f depth (handlerTgt (purchaseAnswer f graphics (properties.getD []) callbacks cb info)) s = some (o, s') →
                ∃ s2, runWord G (groupsAfter before) (word ((maps.lookup 255).getD d)) s = (o, s2) ∧ Agree s' s2) := by
  obtain ⟨off, entries, reals, h1, _, h3⟩ := game_decides_as_meant varTable O limit sprites res hac hadd hok hres hash real RW w hh hw
  refine ⟨off, entries, reals, h1, ?_⟩
  intro f hf graphics properties callbacks m made r id maps d hp hc hmk hmap hr ⟨hO, hd, hms⟩
  obtain ⟨t, tm⟩ := made
  obtain ⟨before, bs, after, e1, word, hw1, hw2⟩ := h3 r hr f [id] maps d hO
  refine ⟨before, bs, after, e1, word, hw1, ?_⟩
  intro G hG s cb info hcb hinfo depth o s'
  obtain ⟨n1, n2⟩ := named f hf
  obtain ⟨f1, f2⟩ := made_full hmap
  refine ⟨fun hm => ?_, fun hm => ?_⟩
  · rw [← Callbacks.map_dispatch_exact f graphics properties callbacks m t tm hp hc hmk hmap cb info] at hm
    subst hcb hinfo
    exact hw2 d (by simp) G hG _ s o s' (tree_means n1 n2 hd f1 depth s _ hm)
  · rw [← Callbacks.purchase_dispatch_exact f graphics properties callbacks m t tm hp hc hmk hmap cb info] at hm
    subst hcb hinfo
    simp only [inPurchaseList] at hm
    rcases forall2_lookup_int (R := fun tr tg => TreeAt O tg tr) 255 hms with ⟨g1, g2⟩ | ⟨a, b, g1, g2, g3, g4⟩
    · simp only at g1
      rw [g1] at hm
      have g2' : maps.lookup (255 : Int) = none := g2
      rw [g2']
      exact hw2 d (by simp) G hG _ s o s' (tree_means n1 n2 hd f1 depth s _ hm)
    · simp only at g1
      rw [g1] at hm
      have g2' : maps.lookup (255 : Int) = some b := g2
      rw [g2']
      exact hw2 b (List.mem_cons_of_mem _ (List.mem_map.2 ⟨_, g4, rfl⟩)) G hG _ s o s'
        (tree_means n1 n2 g3 (f2 _ (Callbacks.lookup_mem g1)) depth s _ hm)

/-! ## A case -/

/-- A train with graphics, a changed power and a callback. -/
def trainStore : Nat → Obj
  | 0 => .map 0 [7] [(255, .obj 3)] (.obj 1)
  | 1 => fieldSwitch "current_callback" [(0x36, .obj 4), (0x31, .result 5)] (.obj 2)
  | 2 => .sprites none [1, 1, 0, 0, 0, 0]
  | 3 => fieldSwitch "current_callback" [(0x36, .obj 4)] (.obj 2)
  | 4 => fieldSwitch "extra_callback_info1_byte" [(0xb, .result 500)] (.obj 2)
  | _ => .other (.action (some [0]))

/-- What the manager makes of it. -/
def trainMade : Tree × List (Nat × Tree) :=
  (.switch [(0x36, .props [(0xb, .int 500)] (.obj 2 none)), (0x31, .handler (.int 5))] (.obj 2 none),
   [(255, .switch [(0x36, .props [(0xb, .int 500)] (.obj 2 none))] (.obj 2 none))])

example : ((make 0 (.raw (some (.obj 2 none))) (some [("power", .raw (some (.int 500)))]) [("start_stop", .raw (some (.int 5)))]).bind makeMap) =
    some (some trainMade) := by decide +kernel

theorem train_item : ItemAt trainStore 0 0 7 [(255, .obj 3)] (.obj 1) trainMade := by
  have p4 : NodeAt trainStore (.obj 4) (.props [(0xb, .int 500)] (.obj 2 none)) := .props 4 _ _ rfl
  refine ⟨rfl, .switch 1 _ [(0x36, .obj 4), (0x31, .result 5)] _ rfl (.cons ⟨rfl, p4⟩ (.cons ⟨rfl, .handler (.int 5)⟩ .nil)), ?_⟩
  exact .cons ⟨rfl, .switch 3 _ [(0x36, .obj 4)] _ rfl (.cons ⟨rfl, p4⟩ .nil)⟩ .nil

theorem trainStore_acyclic : Acyclic (world trainStore) := by
  apply acyclic_of_rank (fun n => if n = 0 then 3 else if n = 1 ∨ n = 3 then 2 else if n = 4 then 1 else 0)
  intro a b ⟨h1, h2, h3⟩
  match a with
  | 0 =>
    simp [world, trainStore, Obj.act, Tgt.arg] at h2
    rcases h2 with rfl | rfl <;> decide
  | 1 =>
    simp [world, trainStore, fieldSwitch, Obj.act, Tgt.arg] at h2
    rcases h2 with rfl | rfl <;> decide
  | 2 => simp [world, trainStore, Obj.act] at h1
  | 3 =>
    simp [world, trainStore, fieldSwitch, Obj.act, Tgt.arg] at h2
    rcases h2 with rfl | rfl <;> decide
  | 4 =>
    simp [world, trainStore, fieldSwitch, Obj.act, Tgt.arg] at h2
    subst h2; decide
  | n + 5 => simp [world, trainStore, Obj.act] at h1

theorem trainStore_ok (a : Nat) : (trainStore a).Ok varTable trainStore 0 := by
  match a with
  | 0 => simp [trainStore, Obj.Ok]
  | 1 => exact made_ok (k := 1) (by decide) (.inl rfl) rfl
  | 2 => exact ⟨1, _, rfl, by decide⟩
  | 3 => exact made_ok (k := 3) (by decide) (.inl rfl) rfl
  | 4 => exact made_ok (k := 4) (by decide) (.inr rfl) rfl
  | n + 5 => trivial

/-- What the game gets when it asks callback `cb` with argument `info` and follows the word `w` in the entry of the train. -/
def asked (cb info w : Nat) : Option Outcome :=
  (resolveRefs (world trainStore) 100 [0, 5]).map fun res =>
    (runWord ⟨fun _ _ v _ _ => BitVec.ofNat 32 (if v = 0x0c then cb else if v = 0x10 then info else 0), fun _ _ => 0⟩
      (groupsAfter ((res.out.takeWhile (· ≠ 0)).map fun k => ⟨0xff, (bytesOf varTable trainStore res k (trainStore k)).getD []⟩)) w
      ⟨fun _ => 0, fun _ => 0⟩).1

/-- The file is written; the train's entry has the words 255 (purchase list) and 252; the game gets the power 500 on the map and in the purchase list, the
callback's result on the map only, and draws the graphics otherwise. -/
example : ((resolveRefs (world trainStore) 100 [0, 5]).bind fun res =>
      (writeFile (fun _ => 0) (fun _ => none) (fun _ => ⟨[], []⟩) (items varTable trainStore res)).map (·.file)).isSome = true ∧
    ((resolveRefs (world trainStore) 100 [0, 5]).bind fun res => bytesOf varTable trainStore res 0 (trainStore 0)) =
      some [3, 0, 1, 7, 1, 255, 255, 0, 252, 0] ∧
    asked 0x36 0xb 252 = some (.value 500) ∧ asked 0x36 0x10b 255 = some (.value 500) ∧ asked 0x36 9 252 = some (.shows [1, 1, 0, 0, 0, 0]) ∧
    asked 0x31 0 252 = some (.value 5) ∧ asked 0x31 0 255 = some (.shows [1, 1, 0, 0, 0, 0]) ∧
    asked 0 0 252 = some (.shows [1, 1, 0, 0, 0, 0]) := by
  decide +kernel

end Grf.Chain
