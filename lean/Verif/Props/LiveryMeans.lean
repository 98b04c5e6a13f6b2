import Verif.Model.LiveryObjs
import Verif.Props.IndustryObjs
/-!
# C68, C89: the livery shown in the game
-/
set_option linter.unusedSimpArgs false
namespace Grf.Chain
open _root_.Spec
open Callbacks (Handler Tree Val Mgr make makeMap mapAnswer purchaseAnswer)

theorem subtype_code : Syntax.parse "cargo_subtype".toList = some [.var "cargo_subtype"] := by decide +kernel

theorem subtype_var (f : Nat) (hf : f < 4) (related : Bool) : varTable f related "cargo_subtype" = some ⟨0xf2, 0, 8, none⟩ := by
  have : ∀ f < 4, ∀ r : Bool, varTable f r "cargo_subtype" = some ⟨0xf2, 0, 8, none⟩ := by decide +kernel
  exact this f hf related

/-- **C68** What the graphics of a vehicle mean: the layout of the livery whose number is the cargo subtype (of the first vehicle for road
vehicles and ships), of the first livery if there is none; the storage is left as it is. -/
theorem livery_means (G : Game) (O : Nat → Obj) (f : Nat) (hf : f < 4) (related : Bool) (k k0 : Nat) (ks : List Nat) (c : List Node)
    (hc : Syntax.parse "cargo_subtype".toList = some c) (hk : O k = .switch (liverySwitch related k0 ks c))
    (data : Nat → Bytes) (hd : ∀ i < (k0 :: ks).length, ∃ g, O ((k0 :: ks).getD i 0) = .sprites g (data i)) (m : Mach) (depth : Nat) :
    mean G varTable O f (depth + 2) (.obj k) m =
      some (.shows (data (if (G.var f related 0xf2 0 m).toNat % 256 < (k0 :: ks).length then (G.var f related 0xf2 0 m).toNat % 256 else 0)), m) := by
  rw [subtype_code] at hc
  rw [var_switch (liverySwitch related k0 ks c) "cargo_subtype" 0xf2 8 (Option.some.inj hc).symm (by decide) (subtype_var f hf _) (by decide) hk
    (by simp [liverySwitch])]
  simp only [liverySwitch]
  show mean G varTable O f (depth + 1) (pick _ _ (((G.var f related 0xf2 0 m).toNat % 256 : Nat) : Int)) m = _
  rw [pick_range (fun i => Tgt.obj ((k0 :: ks).getD i 0))]
  generalize (G.var f related 0xf2 0 m).toNat % 256 = L
  by_cases hL : L < (k0 :: ks).length
  · rw [if_pos hL, if_pos hL]
    obtain ⟨g, hg⟩ := hd L hL
    rw [mean, hg]
  · rw [if_neg hL, if_neg hL]
    obtain ⟨g, hg⟩ := hd 0 (by simp)
    rw [mean]
    have hg : O k0 = .sprites g (data 0) := hg
    rw [hg]

/-- It is as C88 asks. -/
theorem livery_ok {O : Nat → Obj} {f : Nat} (hf : f < 4) {related : Bool} {k k0 : Nat} {ks : List Nat} {c : List Node}
    (hc : Syntax.parse "cargo_subtype".toList = some c) (hk : O k = .switch (liverySwitch related k0 ks c)) : (O k).Ok varTable O f := by
  rw [subtype_code] at hc
  obtain rfl := Option.some.inj hc
  rw [hk]
  refine ⟨?_, rfl, by simp [liverySwitch], ?_⟩
  · intro e he
    simp only [liverySwitch, List.mem_singleton] at he
    subst he
    refine ⟨?_, rfl⟩
    intro d hd
    simp only [Sw.names, liverySwitch] at hd
    rw [subtype_var f hf] at hd
    cases hd
    rfl
  · intro r hr
    obtain ⟨i, _, rfl⟩ := List.mem_map.1 hr
    simp only
    omega

/-- **C68** The livery of a vehicle in the game: the map of the vehicle is one the callback manager makes (C89), its handler for what the
game asks on the map (callback 0, and whatever has no other handler) is the switch over the liveries. Following the word in the map's
bytes, the game gets the layout of the livery with the number of the cargo subtype, or of the first. -/
theorem livery_in_game (O : Nat → Obj) (limit : Nat) (sprites : List Nat) (res : Resolved)
    (hac : Acyclic (world O)) (hadd : AddedOk O sprites)
    (hok : ∀ r ∈ sprites, ∀ f ids maps d, O r = .map f ids maps d → ∀ a, Needs (world O) r a → (O a).Ok varTable O f)
    (hres : resolveRefs (world O) limit sprites = some res)
    (hash : List Bytes → Int) (real : Nat → Option Bytes) (RW : ResWorld) (w : Written)
    (hh : HashDistinguishes hash real RW (items varTable O res)) (hw : writeFile hash real RW (items varTable O res) = some w) :
    ∃ off entries reals, w.file = Grf.Spec.fileBytes off (⟨0xff, Grf.Spec.word 2⟩ :: entries) reals ∧
      ∀ (f : Nat) (_ : f < 4) (graphics : Val) (properties : Option (List (String × Val)))
        (callbacks : List (String × Val)) (m : Mgr) (made : Tree × List (Nat × Tree)) (r : Nat) (id : Int) (maps : List (Int × Tgt)) (d : Tgt),
        ((properties.getD []).map (·.1)).Nodup → (callbacks.map (·.1)).Nodup → make f graphics properties callbacks = some m →
        makeMap m = some (some made) → r ∈ sprites → ItemAt O r f id maps d made →
        ∃ before bs after, entries = before ++ ⟨0xff, bs⟩ :: after ∧ ∃ word : Tgt → Nat,
          Grf.Spec.WrittenAs (Grf.Spec.mapFields ⟨f, [id], maps.map fun p => (p.1, .ref (word p.2)), .ref (word d), false⟩) bs ∧
          ∀ (related : Bool) (k k0 : Nat) (ks : List Nat) (c : List Node) (data : Nat → Bytes),
            Syntax.parse "cargo_subtype".toList = some c → O k = .switch (liverySwitch related k0 ks c) →
            (∀ i < (k0 :: ks).length, ∃ g, O ((k0 :: ks).getD i 0) = .sprites g (data i)) →
          ∀ G : Game, (∀ f r v p a b, Agree a b → G.var f r v p a = G.var f r v p b) → ∀ (s : Mach) (cb info subtype : Nat),
            (G.var f false 0x0c 0 s).toNat % 65536 = cb → (G.var f false 0x10 0 s).toNat = info →
            (G.var f related 0xf2 0 s).toNat % 256 = subtype →
            (∃ b, mapAnswer f graphics (properties.getD []) callbacks cb info = .obj k b) →
            ∃ s2, runWord G (groupsAfter before) (word d) s = (.shows (data (if subtype < (k0 :: ks).length then subtype else 0)), s2) ∧ Agree s s2 := by
  obtain ⟨off, entries, reals, h1, h2⟩ := registered_answers_in_game O limit sprites res hac hadd hok hres hash real RW w hh hw
  refine ⟨off, entries, reals, h1, ?_⟩
  intro f hf graphics properties callbacks m made r id maps d hp hc hmk hmap hr hat
  obtain ⟨before, bs, after, e1, word, hw1, hw2⟩ := h2 f (by
    have : f = 0 ∨ f = 1 ∨ f = 2 ∨ f = 3 := by omega
    rcases this with rfl | rfl | rfl | rfl <;> decide) graphics properties callbacks m made r id maps d hp hc hmk hmap hr hat
  refine ⟨before, bs, after, e1, word, hw1, ?_⟩
  intro related k k0 ks c data hcode hk hd G hG s cb info subtype hcb hinfo hsub ⟨b, hb⟩
  refine (hw2 G hG s cb info hcb hinfo 2 _ s).1 ?_
  rw [hb, ← hsub]
  exact livery_means G O f hf related k k0 ks c hcode hk data hd s 0

/-! ### A ship with two liveries and a purchase sprite -/

/-- The map, the purchase layout (added by the ship itself), the switch over the liveries and their layouts. -/
def shipStore : Nat → Obj
  | 0 => .map 2 [7] [(255, .obj 1)] (.obj 2)
  | 1 => .sprites none [1, 1, 0, 0, 0, 0]
  | 2 => .switch (liverySwitch true 3 [4] [.var "cargo_subtype"])
  | 3 => .sprites none [1, 1, 0, 0, 0, 0]
  | 4 => .sprites none [1, 1, 1, 0, 1, 0]
  | _ => .other (.action (some [0]))

/-- What the manager makes of its graphics. -/
def shipMade : Tree × List (Nat × Tree) := (.plain (.obj 2 none), [(255, .plain (.obj 1 none))])

example : ((make 2 (.cb (.graphics (some (.obj 2 none)) (some (.obj 1 none)))) none []).bind makeMap) = some (some shipMade) := by decide +kernel

example : ItemAt shipStore 0 2 7 [(255, .obj 1)] (.obj 2) shipMade :=
  ⟨rfl, .plain (.obj 2 none), .cons ⟨rfl, .plain (.obj 1 none)⟩ .nil⟩

example : AddedOk shipStore [1, 5, 0] := by
  intro s hs
  simp only [List.mem_cons, List.not_mem_nil, or_false] at hs
  rcases hs with rfl | rfl | rfl
  · right
    refine ⟨⟨_, _, rfl⟩, 0, ⟨⟨[], [5], [], rfl, ?_, by simp, .direct [.obj 2] rfl⟩, rfl, rfl, map_unref (by simp) rfl, rfl⟩⟩
    intro x hx ha
    simp only [List.mem_singleton] at hx
    subst hx
    rcases ha with h | h <;> simp [world, shipStore, Obj.act] at h
  · left; intro d hd; simp only [Item.action.injEq, Option.some.injEq] at hd; subst hd; decide
  · left; trivial

example : (shipStore 2).Ok varTable shipStore 2 := livery_ok (by decide) subtype_code rfl

/-- The file is written, and the game gets the second livery for subtype 1, the first for subtypes 0 and 9, following the word 254 of the map. -/
example : ((resolveRefs (world shipStore) 100 [1, 5, 0]).bind fun res =>
      (writeFile (fun _ => 0) (fun _ => none) (fun _ => ⟨[], []⟩) (items varTable shipStore res)).map (·.file)).isSome = true ∧
    ((resolveRefs (world shipStore) 100 [1, 5, 0]).bind fun res => bytesOf varTable shipStore res 0 (shipStore 0)) =
      some [3, 2, 1, 7, 1, 255, 255, 0, 254, 0] ∧
    ([0, 1, 9].map fun subtype => (resolveRefs (world shipStore) 100 [1, 5, 0]).map fun res =>
      (runWord ⟨fun _ r v _ _ => if v = 0xf2 ∧ r = true then BitVec.ofNat 32 subtype else 0, fun _ _ => 0⟩
        (groupsAfter ((res.out.takeWhile (· ≠ 0)).map fun k => ⟨0xff, (bytesOf varTable shipStore res k (shipStore k)).getD []⟩)) 254
        ⟨fun _ => 0, fun _ => 0⟩).1) =
      [some (.shows [1, 1, 0, 0, 0, 0]), some (.shows [1, 1, 1, 0, 1, 0]), some (.shows [1, 1, 0, 0, 0, 0])] := by
  decide +kernel

end Grf.Chain
