import Verif.Props.VehicleCallbacks
import Verif.Props.LiveryMeans
/-!
# C85 in the game: the answers of the vehicle classes, from the bytes
-/
set_option linter.unusedSimpArgs false
namespace Grf.Chain
open _root_.Spec
open Callbacks (purchaseAnswer AnyPurchase onMap onPurchase Handler Tree Val Mgr make makeMap mapAnswer registered cbRows forCallback)
open VehicleCallbacks (ownAnswer ownPurchase userInPurchase OwnInPurchase storedPurchase Veh Objs setup switches follow onTheMap over sets graphicsOf storedMap)

/-- The name of the variable a switch of a class is over (`grf/lib/train.py:216,223,230`, `grf/lib/rv.py:57-63`). -/
def varName : VehicleCallbacks.Var → String
  | .subtype => "cargo_subtype"
  | .info => "extra_callback_info1_byte"

/-- The switches a class makes are in the store under their numbers (`grf/lib/train.py:211-231`, `grf/lib/rv.py:57-63,91-97`,
`grf/lib/ship.py:79-84`); those without cases are not made. -/
def ClassSwitches (O : Nat → Obj) (sws : List (Nat × VehicleCallbacks.Sw)) : Prop :=
  ∀ k w, sws.lookup k = some w → w.cases ≠ [] →
    O k = fieldSwitch (varName w.var) (w.cases.map fun p => (p.1, handlerTgt p.2)) (handlerTgt w.default)

theorem class_switch {G : Game} {O : Nat → Obj} {f : Nat} (hf : f < 4) {k : Nat} {w : VehicleCallbacks.Sw}
    (hk : O k = fieldSwitch (varName w.var) (w.cases.map fun p => (p.1, handlerTgt p.2)) (handlerTgt w.default)) (hne : w.cases ≠ [])
    (depth : Nat) (m : Mach) :
    mean G varTable O f (depth + 1) (.obj k) m =
      mean G varTable O f depth (handlerTgt (w.eval (G.var f false 0xf2 0 m).toNat (G.var f false 0x10 0 m).toNat)) m := by
  have fin : ∀ x, ((w.cases.map fun p => (p.1, handlerTgt p.2)).lookup x).getD (handlerTgt w.default) =
      handlerTgt ((w.cases.lookup x).getD w.default) := by
    intro x
    rw [map_lookup]
    cases w.cases.lookup x <;> rfl
  have hne' : (w.cases.map fun p => (p.1, handlerTgt p.2)) ≠ [] := fun e => hne (List.map_eq_nil_iff.1 e)
  have hn : varTable f false "extra_callback_info1_byte" = some ⟨0x10, 0, 8, none⟩ := by
    have : ∀ f < 4, varTable f false "extra_callback_info1_byte" = some ⟨0x10, 0, 8, none⟩ := by decide +kernel
    exact this f hf
  cases hv : w.var with
  | subtype =>
    rw [hv] at hk
    rw [field_switch "cargo_subtype" 0xf2 8 (by decide) (subtype_var f hf false) (by decide) hk hne', fin]
    simp only [VehicleCallbacks.Sw.eval, hv, VehicleCallbacks.Var.value, Nat.reducePow]
  | info =>
    rw [hv] at hk
    rw [field_switch "extra_callback_info1_byte" 0x10 8 (by decide) hn (by decide) hk hne', fin]
    simp only [VehicleCallbacks.Sw.eval, hv, VehicleCallbacks.Var.value, Nat.reducePow]

/-- What the vehicle's map answers before its switches are followed. -/
theorem stored_first (f : Nat) (hf : f < 3) (v : Veh) (o : Objs) (graphics : Val) (ps user : List (String × Val))
    (hok : ∀ r ∈ cbRows f, ∀ x, user.lookup r.name = some x → (Callbacks.wrap r.cls x).isSome) (cb info : Nat) :
    mapAnswer f (graphicsOf v graphics) ps (over user (sets f v o)) cb info =
      (storedMap f v o cb).getD (mapAnswer f (graphicsOf v graphics) ps user cb info) := by
  have hg : f ≠ 16 ∧ f ≠ 18 ∧ f ≠ 19 := by omega
  unfold mapAnswer forCallback
  rw [Callbacks.used_given _ f _ _ hg, Callbacks.used_given _ f _ _ hg, VehicleCallbacks.registered_map f hf v o user hok]
  by_cases h0 : cb = 0
  · subst h0
    have : storedMap f v o 0 = none := by simp [storedMap]
    simp [this]
  · simp only [h0, if_false]
    cases hsm : storedMap f v o cb with
    | none => simp
    | some x => simp

open Classical in
/-- What the vehicle answers in the purchase list before its switches are followed. -/
theorem stored_purchase (f : Nat) (hf : f < 3) (v : Veh) (o : Objs) (graphics : Val) (ps user : List (String × Val))
    (hok : ∀ r ∈ cbRows f, ∀ x, user.lookup r.name = some x → (Callbacks.wrap r.cls x).isSome) (cb info : Nat) :
    purchaseAnswer f (graphicsOf v graphics) ps (over user (sets f v o)) cb info =
      if OwnInPurchase f v ∨ AnyPurchase f ps user then (storedPurchase f v o cb).getD (userInPurchase f v graphics ps user cb info)
      else (VehicleCallbacks.shown v graphics).getD (mapAnswer f (graphicsOf v graphics) ps (over user (sets f v o)) cb info) := by
  have hg : f ≠ 16 ∧ f ≠ 18 ∧ f ≠ 19 := by omega
  have hb : Spec.Buyable f := by
    unfold Spec.Buyable
    have : f = 0 ∨ f = 1 ∨ f = 2 := by omega
    rcases this with rfl | rfl | rfl <;> simp
  unfold purchaseAnswer
  rw [if_neg (not_not_intro hb)]
  simp only [VehicleCallbacks.any_over f hf v o _ user hok, Callbacks.used_given _ f _ _ hg]
  have e1 : onPurchase .graphics (graphicsOf v graphics) = VehicleCallbacks.shown v graphics := rfl
  by_cases ha : OwnInPurchase f v ∨ AnyPurchase f ps user
  · simp only [if_pos ha]
    unfold userInPurchase forCallback
    rw [VehicleCallbacks.registered_purchase f hf v o user hok]
    have hd : (onMap .graphics (graphicsOf v graphics)).getD (.int 0) = VehicleCallbacks.drawn v graphics := rfl
    have hs : ((onPurchase .graphics (graphicsOf v graphics)).or (onMap .graphics (graphicsOf v graphics))).getD (.int 0) =
        (VehicleCallbacks.shown v graphics).getD (VehicleCallbacks.drawn v graphics) := by
      rw [e1, ← hd]
      cases VehicleCallbacks.shown v graphics <;> simp
    rw [hd, hs]
    by_cases h0 : cb = 0
    · subst h0
      have : storedPurchase f v o 0 = none := by simp [storedPurchase]
      simp [this]
    · simp only [h0, if_false]
      cases hsm : storedPurchase f v o cb with
      | none => simp
      | some x => simp
  · simp only [if_neg ha]
    rw [e1]

theorem numbered_ne {k : Nat} {l : List Nat} (h : l ≠ []) : VehicleCallbacks.numbered k l ≠ [] := by
  cases l with
  | nil => exact absurd rfl h
  | cons a l => simp [VehicleCallbacks.numbered]

/-- What a class stores is a number, or a switch it makes, which has cases. -/
theorem stored_kind {f : Nat} {v : Veh} {o : Objs} (ho : o.Distinct) (g : Handler) {cb : Nat} {x : Handler}
    (h : storedMap f v o cb = some x ∨ storedPurchase f v o cb = some x) :
    (∃ n, x = .int n) ∨ ∃ k w, x = .obj k none ∧ (switches v o g).lookup k = some w ∧ w.cases ≠ [] := by
  obtain ⟨s1, s2, s3, s4⟩ := VehicleCallbacks.switch_at v o ho g
  have speed : ∀ {x}, (if f = 1 ∧ v.speed.isSome then some (Handler.obj o.speed none) else none) = some x →
      (∃ n, x = .int n) ∨ ∃ k w, x = .obj k none ∧ (switches v o g).lookup k = some w ∧ w.cases ≠ [] := by
    intro x h
    by_cases c : f = 1 ∧ v.speed.isSome
    · rw [if_pos c] at h; cases h; exact .inr ⟨_, _, rfl, s1, by simp⟩
    · rw [if_neg c] at h; cases h
  have names : ∀ {x}, (if 1 < v.names.length then some (Handler.obj o.liveries none) else none) = some x →
      (∃ n, x = .int n) ∨ ∃ k w, x = .obj k none ∧ (switches v o g).lookup k = some w ∧ w.cases ≠ [] := by
    intro x h
    by_cases c : 1 < v.names.length
    · rw [if_pos c] at h; cases h
      exact .inr ⟨_, _, rfl, s2, numbered_ne (by rintro e; simp [e] at c)⟩
    · rw [if_neg c] at h; cases h
  have sounds : ∀ {x}, (if f = 0 ∧ v.sounds ≠ [] then some (Handler.obj o.sounds none) else none) = some x →
      (∃ n, x = .int n) ∨ ∃ k w, x = .obj k none ∧ (switches v o g).lookup k = some w ∧ w.cases ≠ [] := by
    intro x h
    by_cases c : f = 0 ∧ v.sounds ≠ []
    · rw [if_pos c] at h; cases h; exact .inr ⟨_, _, rfl, s3, c.2⟩
    · rw [if_neg c] at h; cases h
  have parts : ∀ {x}, (if f = 0 ∧ v.parts ≠ [] then some (Handler.obj o.parts none) else none) = some x →
      (∃ n, x = .int n) ∨ ∃ k w, x = .obj k none ∧ (switches v o g).lookup k = some w ∧ w.cases ≠ [] := by
    intro x h
    by_cases c : f = 0 ∧ v.parts ≠ []
    · rw [if_pos c] at h; cases h; exact .inr ⟨_, _, rfl, s4, numbered_ne c.2⟩
    · rw [if_neg c] at h; cases h
  rcases h with h | h
  · unfold storedMap at h
    by_cases c1 : cb = 0x36
    · rw [if_pos c1] at h; exact speed h
    by_cases c2 : cb = 0x19
    · rw [if_neg c1, if_pos c2] at h; exact names h
    by_cases c3 : cb = 0x33
    · rw [if_neg c1, if_neg c2, if_pos c3] at h; exact sounds h
    by_cases c4 : cb = 0x16
    · rw [if_neg c1, if_neg c2, if_neg c3, if_pos c4] at h; exact parts h
    · rw [if_neg c1, if_neg c2, if_neg c3, if_neg c4] at h; cases h
  · unfold storedPurchase at h
    by_cases c0 : cb = 0x23
    · rw [if_pos c0] at h
      cases ha : v.additional with
      | none => rw [ha] at h; cases h
      | some n => rw [ha] at h; cases h; exact .inl ⟨n, rfl⟩
    by_cases c1 : cb = 0x36
    · rw [if_neg c0, if_pos c1] at h; exact speed h
    by_cases c4 : cb = 0x16
    · rw [if_neg c0, if_neg c1, if_pos c4] at h; exact parts h
    · rw [if_neg c0, if_neg c1, if_neg c4] at h; cases h

/-- What is stored means what it answers. -/
theorem stored_means {G : Game} {O : Nat → Obj} {f : Nat} (hf : f < 3) {v : Veh} {o : Objs} (ho : o.Distinct) (g : Handler)
    (hO : ClassSwitches O (switches v o g)) {cb : Nat} {x : Handler}
    (h : storedMap f v o cb = some x ∨ storedPurchase f v o cb = some x) {depth : Nat} {m : Mach} {r : Outcome × Mach}
    (hm : mean G varTable O f depth
      (handlerTgt (follow (switches v o g) (G.var f false 0xf2 0 m).toNat (G.var f false 0x10 0 m).toNat x)) m = some r) :
    mean G varTable O f (depth + 1) (handlerTgt x) m = some r := by
  rcases stored_kind ho g h with ⟨n, rfl⟩ | ⟨k, w, rfl, hk, hne⟩
  · exact meaning_deeper G varTable O f depth 1 _ m r hm
  · simp only [follow, hk, Option.map_some, Option.getD_some] at hm
    show mean G varTable O f (depth + 1) (.obj k) m = _
    rw [class_switch (by omega) (hO k w hk hne) hne, hm]

open Classical in
/-- What a vehicle answers on the map: what its class says (`ownAnswer`), otherwise what the user registered. -/
noncomputable def saysOnMap (f : Nat) (v : Veh) (graphics : Val) (ps cs : List (String × Val)) (cb subtype info : Nat) : Handler :=
  (ownAnswer f v (VehicleCallbacks.drawn v graphics) cb subtype info).getD (mapAnswer f (graphicsOf v graphics) ps cs cb info)

open Classical in
/-- What a vehicle answers in the purchase list: if the class or the user has anything for it, what the class says or the user registered
there; otherwise the graphics for the list, or the same as on the map. -/
noncomputable def saysInList (f : Nat) (v : Veh) (graphics : Val) (ps cs : List (String × Val)) (cb subtype info : Nat) : Handler :=
  if OwnInPurchase f v ∨ AnyPurchase f ps cs then (ownPurchase f v (VehicleCallbacks.drawn v graphics) cb info).getD (userInPurchase f v graphics ps cs cb info)
  else (VehicleCallbacks.shown v graphics).getD (saysOnMap f v graphics ps cs cb subtype info)

/-- **C85** The vehicle classes in the game. A train, road vehicle or ship with the user's graphics, property handlers and callbacks
registers its own (`setup`); its switches and the map the manager makes are objects of the file written. Whatever the state of the game:
asking callback `cb` with argument `info` and following the word in the map's bytes, the game gets what the class says (the name of the
livery with the number of the cargo subtype, the sounds, the articulated parts, the speed, the text), and otherwise what the user
registered means. -/
theorem class_answers_in_game (O : Nat → Obj) (limit : Nat) (sprites : List Nat) (res : Resolved)
    (hac : Acyclic (world O)) (hadd : AddedOk O sprites)
    (hok : ∀ r ∈ sprites, ∀ f ids maps d, O r = .map f ids maps d → ∀ a, Needs (world O) r a → (O a).Ok varTable O f)
    (hres : resolveRefs (world O) limit sprites = some res)
    (hash : List Bytes → Int) (real : Nat → Option Bytes) (RW : ResWorld) (w : Written)
    (hh : HashDistinguishes hash real RW (items varTable O res)) (hw : writeFile hash real RW (items varTable O res) = some w) :
    ∃ off entries reals, w.file = Grf.Spec.fileBytes off (⟨0xff, Grf.Spec.word 2⟩ :: entries) reals ∧
      ∀ (f : Nat) (_ : f < 3) (v : Veh) (ob : Objs) (_ : ob.Distinct) (graphics : Val) (properties : Option (List (String × Val)))
        (callbacks : List (String × Val)) (m m' : Mgr) (made : Tree × List (Nat × Tree)) (r : Nat) (id : Int) (maps : List (Int × Tgt)) (d : Tgt),
        ((properties.getD []).map (·.1)).Nodup → (callbacks.map (·.1)).Nodup → make f graphics properties callbacks = some m →
        setup f v ob m = some m' → makeMap m' = some (some made) → r ∈ sprites → ItemAt O r f id maps d made →
        ClassSwitches O (switches v ob (VehicleCallbacks.drawn v graphics)) →
        ∃ before bs after, entries = before ++ ⟨0xff, bs⟩ :: after ∧ ∃ word : Tgt → Nat,
          Grf.Spec.WrittenAs (Grf.Spec.mapFields ⟨f, [id], maps.map fun p => (p.1, .ref (word p.2)), .ref (word d), false⟩) bs ∧
          ∀ G : Game, (∀ f r v p a b, Agree a b → G.var f r v p a = G.var f r v p b) → ∀ (s : Mach) (cb info subtype : Nat),
            (G.var f false 0x0c 0 s).toNat % 65536 = cb → (G.var f false 0x10 0 s).toNat = info → (G.var f false 0xf2 0 s).toNat = subtype →
            ∀ depth o s',
              (mean G varTable O f depth (handlerTgt (saysOnMap f v graphics (properties.getD []) callbacks cb subtype info)) s = some (o, s') →
                ∃ s2, runWord G (groupsAfter before) (word d) s = (o, s2) ∧ Agree s' s2) ∧
              (mean G varTable O f depth (handlerTgt (saysInList f v graphics (properties.getD []) callbacks cb subtype info)) s = some (o, s') →
                ∃ s2, runWord G (groupsAfter before) (word ((maps.lookup 255).getD d)) s = (o, s2) ∧ Agree s' s2) := by
  obtain ⟨off, entries, reals, h1, h2⟩ := registered_answers_in_game O limit sprites res hac hadd hok hres hash real RW w hh hw
  refine ⟨off, entries, reals, h1, ?_⟩
  intro f hf v ob ho graphics properties callbacks m m' made r id maps d hp hc hmk hset hmap hr hat hcl
  have hmk' := VehicleCallbacks.setup_is_make f (by omega) v ob graphics properties callbacks m m' hc hmk hset
  have hcok := VehicleCallbacks.made_ok hmk hp hc
  obtain ⟨before, bs, after, e1, word, hw1, hw2⟩ := h2 f (by
    have : f = 0 ∨ f = 1 ∨ f = 2 := by omega
    rcases this with rfl | rfl | rfl <;> decide) _ properties _ m' made r id maps d hp (VehicleCallbacks.over_nodup _ _ hc) hmk' hmap hr hat
  refine ⟨before, bs, after, e1, word, hw1, ?_⟩
  intro G hG s cb info subtype hcb hinfo hsub depth o s'
  have hwd := hw2 G hG s cb info hcb hinfo (depth + 1) o s'
  have onmap : mean G varTable O f depth (handlerTgt (saysOnMap f v graphics (properties.getD []) callbacks cb subtype info)) s = some (o, s') →
      mean G varTable O f (depth + 1)
        (handlerTgt (mapAnswer f (graphicsOf v graphics) (properties.getD []) (over callbacks (sets f v ob)) cb info)) s = some (o, s') := by
    intro hm
    rw [stored_first f hf v ob graphics _ callbacks hcok]
    unfold saysOnMap at hm
    rw [VehicleCallbacks.follow_map f v ob ho] at hm
    cases hsm : storedMap f v ob cb with
    | none =>
      rw [hsm] at hm
      exact meaning_deeper G varTable O f depth 1 _ s _ hm
    | some x =>
      rw [hsm] at hm
      rw [← hsub, ← hinfo] at hm
      exact stored_means hf ho _ hcl (.inl hsm) hm
  refine ⟨fun hm => hwd.1 (onmap hm), fun hm => hwd.2 ?_⟩
  rw [stored_purchase f hf v ob graphics _ callbacks hcok]
  unfold saysInList at hm
  by_cases ha : OwnInPurchase f v ∨ AnyPurchase f (properties.getD []) callbacks
  · rw [if_pos ha] at hm ⊢
    rw [VehicleCallbacks.follow_purchase f v ob ho _ cb subtype info] at hm
    cases hsm : storedPurchase f v ob cb with
    | none =>
      rw [hsm] at hm
      exact meaning_deeper G varTable O f depth 1 _ s _ hm
    | some x =>
      rw [hsm] at hm
      rw [← hsub, ← hinfo] at hm
      exact stored_means hf ho _ hcl (.inr hsm) hm
  · rw [if_neg ha] at hm ⊢
    cases hs : VehicleCallbacks.shown v graphics with
    | none =>
      rw [hs] at hm
      exact onmap hm
    | some x =>
      rw [hs] at hm
      exact meaning_deeper G varTable O f depth 1 _ s _ hm

/-! ### A train with two liveries, a sound and an articulated part -/

/-- The train. -/
def partTrain : Veh := { graphics := some (.obj 2 none), names := [10, 11], sounds := [(3, .int 60)], parts := [100] }

/-- Its switches. -/
def partObjs : Objs := ⟨9, 4, 5, 6⟩

/-- The objects: the map, the two switches of the manager, the graphics and the switches of the class. -/
def partStore : Nat → Obj
  | 0 => .map 0 [7] [(255, .obj 3)] (.obj 1)
  | 1 => fieldSwitch "current_callback" [(49, .result 5), (25, .obj 4), (51, .obj 5), (22, .obj 6)] (.obj 2)
  | 2 => .sprites none [1, 1, 0, 0, 0, 0]
  | 3 => fieldSwitch "current_callback" [(22, .obj 6)] (.obj 2)
  | 4 => fieldSwitch "cargo_subtype" [(0, .result 10), (1, .result 11)] (.result 0x400)
  | 5 => fieldSwitch "extra_callback_info1_byte" [(3, .result 60)] (.obj 2)
  | 6 => fieldSwitch "extra_callback_info1_byte" [(1, .result 100)] (.result 0x7fff)
  | 9 => fieldSwitch "extra_callback_info1_byte" [(0x15, .result 0)] (.obj 2)
  | _ => .other (.action (some [0]))

/-- What the manager makes. -/
def partMade : Tree × List (Nat × Tree) :=
  (.switch [(49, .handler (.int 5)), (25, .handler (.obj 4 none)), (51, .handler (.obj 5 none)), (22, .handler (.obj 6 none))] (.obj 2 none),
   [(255, .switch [(22, .handler (.obj 6 none))] (.obj 2 none))])

example : ((make 0 (.raw none) none [("start_stop", .raw (some (.int 5)))]).bind (setup 0 partTrain partObjs)).bind makeMap =
    some (some partMade) ∧ partObjs.Distinct := ⟨by decide +kernel, by unfold VehicleCallbacks.Objs.Distinct; decide⟩

example : ItemAt partStore 0 0 7 [(255, .obj 3)] (.obj 1) partMade := by
  refine ⟨rfl, .switch 1 _ [(49, .result 5), (25, .obj 4), (51, .obj 5), (22, .obj 6)] _ rfl ?_, ?_⟩
  · exact .cons ⟨rfl, .handler (.int 5)⟩ (.cons ⟨rfl, .handler (.obj 4 none)⟩ (.cons ⟨rfl, .handler (.obj 5 none)⟩ (.cons ⟨rfl, .handler (.obj 6 none)⟩ .nil)))
  · exact .cons ⟨rfl, .switch 3 _ [(22, .obj 6)] _ rfl (.cons ⟨rfl, .handler (.obj 6 none)⟩ .nil)⟩ .nil

example : ClassSwitches partStore (switches partTrain partObjs (VehicleCallbacks.drawn partTrain (.raw none))) := by
  intro k w h _
  have hk := Callbacks.lookup_mem h
  simp only [switches, List.mem_cons, List.not_mem_nil, or_false] at hk
  rcases hk with hk | hk | hk | hk <;> cases hk <;> rfl

/-- The file is written; the game gets the name of livery 1, the sound, the part, the user's result, and in the purchase list the part. -/
example : ((resolveRefs (world partStore) 100 [8, 0]).bind fun res =>
      (writeFile (fun _ => 0) (fun _ => none) (fun _ => ⟨[], []⟩) (items varTable partStore res)).map (·.file)).isSome = true ∧
    ((resolveRefs (world partStore) 100 [8, 0]).bind fun res => bytesOf varTable partStore res 0 (partStore 0)) =
      some [3, 0, 1, 7, 1, 255, 255, 0, 252, 0] ∧
    ([(0x19, 0, 1, 252), (0x19, 0, 2, 252), (0x33, 3, 0, 252), (0x33, 4, 0, 252), (0x16, 1, 0, 252), (0x16, 2, 0, 255), (0x31, 0, 0, 252)].map
      fun q => (resolveRefs (world partStore) 100 [8, 0]).map fun res =>
      (runWord ⟨fun _ _ v _ _ => BitVec.ofNat 32 (if v = 0x0c then q.1 else if v = 0x10 then q.2.1 else if v = 0xf2 then q.2.2.1 else 0), fun _ _ => 0⟩
        (groupsAfter ((res.out.takeWhile (· ≠ 0)).map fun k => ⟨0xff, (bytesOf varTable partStore res k (partStore k)).getD []⟩)) q.2.2.2
        ⟨fun _ => 0, fun _ => 0⟩).1) =
      [some (.value 11), some (.value 0x400), some (.value 60), some (.shows [1, 1, 0, 0, 0, 0]), some (.value 100), some (.value 0x7fff),
       some (.value 5)] := by
  decide +kernel

end Grf.Chain
