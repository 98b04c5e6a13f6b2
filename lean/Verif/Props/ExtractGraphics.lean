import Verif.Props.Extract
import Verif.Proofs.IdMap
/-!
# C79: the sprites a decompiled script makes
-/
namespace Grf.Extract
open ResNames (Name)
open Strings (dec)

/-! ### Dictionaries of lists -/

/-- There is one lawful equality test. -/
theorem lawful_eq {α : Type} (i j : BEq α) [hi : @LawfulBEq α i] [hj : @LawfulBEq α j] : i = j := by
  obtain ⟨f⟩ := i
  obtain ⟨g⟩ := j
  congr
  funext a b
  rw [Bool.eq_iff_iff]
  exact ⟨fun h => by have := hi.eq_of_beq h; subst this; exact hj.rfl, fun h => by have := hj.eq_of_beq h; subst this; exact hi.rfl⟩

theorem mem_collect {κ α : Type} [DecidableEq κ] (key : α → κ) (l : List α) :
    ((collect key l).map (·.1)).Nodup ∧ ∀ k, (collect key l).lookup k = if l.filter (fun a => key a = k) = [] then none else
      some (l.filter (fun a => key a = k)) := by
  suffices h : ∀ (l done : List α) (d : List (κ × List α)), (d.map (·.1)).Nodup →
      (∀ k, d.lookup k = if done.filter (fun a => key a = k) = [] then none else some (done.filter (fun a => key a = k))) →
      ((l.foldl (fun d a => dictSet d (key a) ((d.lookup (key a)).getD [] ++ [a])) d).map (·.1)).Nodup ∧
      ∀ k, (l.foldl (fun d a => dictSet d (key a) ((d.lookup (key a)).getD [] ++ [a])) d).lookup k =
        if (done ++ l).filter (fun a => key a = k) = [] then none else some ((done ++ l).filter (fun a => key a = k)) by
    have := h l [] [] (by simp) (by intro k; simp)
    simpa [collect] using this
  intro l
  induction l with
  | nil => intro done d hn hd; rw [List.append_nil]; exact ⟨hn, hd⟩
  | cons a l ih =>
    intro done d hn hd
    rw [List.foldl_cons, show done ++ a :: l = (done ++ [a]) ++ l by simp]
    refine ih (done ++ [a]) _ (IdMap.nodup_dictSet hn) fun k => ?_
    rw [lookup_dictSet, List.filter_append, hd]
    by_cases e : k = key a
    · subst e
      rw [if_pos rfl]
      by_cases e2 : done.filter (fun b => key b = key a) = []
      · simp [e2]
      · simp [e2]
    · rw [if_neg e, hd]
      have e' : ¬ key a = k := fun h => e h.symm
      simp [e']

theorem lookup_of_mem {κ ν : Type} [BEq κ] [LawfulBEq κ] {d : List (κ × ν)} (hn : (d.map (·.1)).Nodup) {k : κ} {v : ν} (h : (k, v) ∈ d) :
    d.lookup k = some v := by
  induction d with
  | nil => simp at h
  | cons p d ih =>
    obtain ⟨a, b⟩ := p
    simp only [List.map_cons, List.nodup_cons] at hn
    simp only [List.lookup]
    rcases List.mem_cons.mp h with h | hm
    · simp only [Prod.mk.injEq] at h
      obtain ⟨rfl, rfl⟩ := h
      simp
    · have : (k == a) = false := by
        simp only [beq_eq_false_iff_ne]
        rintro rfl
        exact hn.1 (List.mem_map.mpr ⟨(_, v), hm, rfl⟩)
      rw [this]
      exact ih hn.2 hm

/-- Everything made from a dictionary that a test selects comes from the one key the test belongs to. -/
theorem flat_filter {κ α β : Type} [BEq κ] [LawfulBEq κ] (d : List (κ × α)) (hn : (d.map (·.1)).Nodup) (f : κ × α → List β) (p : β → Bool) (k : κ)
    (h : ∀ e ∈ d, ∀ b ∈ f e, p b = true → e.1 = k) :
    (d.flatMap f).filter p = match d.lookup k with | some v => (f (k, v)).filter p | none => [] := by
  induction d with
  | nil => rfl
  | cons e d ih =>
    obtain ⟨a, v⟩ := e
    simp only [List.map_cons, List.nodup_cons] at hn
    rw [List.flatMap_cons, List.filter_append, ih hn.2 (fun e he => h e (List.mem_cons_of_mem _ he))]
    simp only [List.lookup]
    by_cases e : k = a
    · subst e
      simp only [BEq.rfl]
      have : d.lookup k = none := by
        cases hl : d.lookup k with
        | none => rfl
        | some w =>
          have hm : (k, w) ∈ d := by
            obtain ⟨l1, l2, hl', -⟩ := List.lookup_eq_some_iff.mp hl
            rw [hl']
            exact List.mem_append_right _ List.mem_cons_self
          exact absurd (List.mem_map_of_mem hm) hn.1
      rw [this]
      simp
    · have e1 : (k == a) = false := by simpa using e
      rw [e1]
      have e2 : (f (a, v)).filter p = [] := by
        rw [List.filter_eq_nil_iff]
        intro b hb hp
        exact e (h (a, v) List.mem_cons_self b hb hp).symm
      rw [e2]
      rfl

theorem collect_flat {κ α : Type} [DecidableEq κ] (key : α → κ) (l : List α) (p : α → Bool) (k : κ) (h : ∀ a, p a = true → key a = k) :
    ((collect key l).flatMap (·.2)).filter p = l.filter p := by
  obtain ⟨hn, hl⟩ := mem_collect key l
  rw [flat_filter _ hn _ p k]
  · rw [hl]
    split
    · next heq =>
      split at heq
      · simp at heq
      · simp only [Option.some.injEq] at heq
        subst heq
        rw [List.filter_filter]
        apply List.filter_congr
        intro a _
        cases hp : p a with
        | false => simp
        | true => simp [h a hp]
    · next heq =>
      split at heq
      · next e =>
        symm
        rw [List.filter_eq_nil_iff] at e ⊢
        intro a ha hp
        exact e a ha (by simpa using h a hp)
      · simp at heq
  · intro e he b hb hp
    have := lookup_of_mem hn (show (e.1, e.2) ∈ collect key l from he)
    rw [hl] at this
    split at this
    · simp at this
    · simp only [Option.some.injEq] at this
      rw [← this, List.mem_filter] at hb
      have hk : key b = e.1 := by simpa using hb.2
      rw [← hk]
      exact h b hp

theorem collect_mem {κ α : Type} [DecidableEq κ] (key : α → κ) (l : List α) (a : α) : a ∈ (collect key l).flatMap (·.2) ↔ a ∈ l := by
  have := collect_flat key l (fun b => decide (key b = key a)) (key a) (by simp)
  have e : a ∈ ((collect key l).flatMap (·.2)).filter (fun b => decide (key b = key a)) ↔ a ∈ l.filter (fun b => decide (key b = key a)) := by rw [this]
  simpa [List.mem_filter] using e

/-! ### Specification -/

/-- The sprite is extracted: it has colours, or no opacity without colours. -/
def Real.extracted (r : Real) : Bool := r.hasRgb || !r.hasAlpha

/-- A layer of a sprite of some size. -/
def layer {α : Type} (r : Real) (p : Nat → Nat → α) : List (List α) := (List.range r.height).map fun y => (List.range r.width).map fun x => p x y

/-- What the script shows for a sprite that was extracted together with the sprites of a group: a colour layer if any of the group has one, a
mask if any of the group has one; invisible colours and the mask 255 where the sprite itself has none. Without opacity of its own it is opaque. -/
def shown (G : List Real) (r : Real) : Made where
  w := r.width
  h := r.height
  xofs := r.xofs
  yofs := r.yofs
  zoom := r.zoom
  rgb := if G.any (fun s => s.hasRgb || s.hasAlpha) then some (layer r fun x y => if r.hasRgb then r.rgb x y else (0, 0, 0)) else none
  alpha := if G.any (fun s => s.hasRgb || s.hasAlpha) then
    some (layer r fun x y => if r.hasRgb then (if r.hasAlpha then r.alpha x y else 255) else 0) else none
  mask := if G.any (fun s => s.hasMask) then some (layer r fun x y => if r.hasMask then r.mask x y else 255) else none

/-- The sprites extracted together with those of an id. -/
def together (group : Nat → Name) (reals : List Real) (id : Nat) : List Real := reals.filter fun r => group r.id = group id

/-- The sprites of an id that are extracted, in the order of the file. -/
def own (reals : List Real) (id : Nat) : List Real := reals.filter fun r => r.id = id && r.extracted

/-- What the script should add for the placeholders: for each one that has sprites one `g.add` with all of them. -/
def expected (group : Nat → Name) (reals : List Real) (ids : List Nat) : List (List Made) :=
  (ids.filter fun id => !(own reals id).isEmpty).map fun id => (own reals id).map (shown (together group reals id))

/-- The name of a group can be part of a variable and cannot be mistaken for a 32bpp sheet. -/
def OkGroup (g : Name) : Prop := g.all Script.nameLetter = true ∧ ¬ "_32bpp".toList <:+ g

/-! ### Sheets -/

theorem extracted_iff (r : Real) : r.spr.skipped = !r.extracted := by
  unfold Sheet.Spr.skipped Real.extracted Real.hasRgb Real.hasAlpha Real.spr
  simp only
  rw [Nat.testBit_eq_decide_div_mod_eq, Nat.testBit_eq_decide_div_mod_eq]
  rw [Nat.pow_zero, Nat.div_one, Nat.pow_one]
  have h : r.type % 4 = 2 ↔ ¬ (r.type % 2 = 1) ∧ r.type / 2 % 2 = 1 := by omega
  by_cases h1 : r.type % 4 = 2
  · obtain ⟨a, b⟩ := h.mp h1
    rw [decide_eq_false a, decide_eq_true b]
    simp [h1]
  · have : (r.type % 4 == 2) = false := by simpa using h1
    rw [this]
    by_cases a : r.type % 2 = 1
    · rw [decide_eq_true a]; rfl
    · have b : ¬ r.type / 2 % 2 = 1 := fun b => h1 (h.mpr ⟨a, b⟩)
      rw [decide_eq_false b]; simp

theorem pick_range (rs : List Real) : (List.range rs.length).map (pick rs) = rs := by
  apply List.ext_getElem?
  intro i
  rw [List.getElem?_map]
  by_cases h : i < rs.length
  · rw [List.getElem?_range h, List.getElem?_eq_getElem h]
    simp [pick, List.getElem?_eq_getElem h]
  · rw [List.getElem?_eq_none (by simpa using h), List.getElem?_eq_none (by omega)]
    rfl

theorem placeGroup_sprites (g : Name) (rs : List Real) : (placeGroup g rs).map (·.spr) = rs.filter (·.extracted) := by
  unfold placeGroup
  rw [List.map_map, Sheet.cells_eq, List.map_map, List.length_map]
  have e : ∀ k ∈ List.range rs.length, (!(((rs.map Real.spr)[k]?.getD (⟨0, 0, 0⟩ : Sheet.Spr)).skipped)) = ((fun r : Real => r.extracted) ∘ pick rs) k := by
    intro k hk
    rw [List.mem_range] at hk
    rw [List.getElem?_map, List.getElem?_eq_getElem hk]
    simp only [Option.map_some, Option.getD_some, extracted_iff, Bool.not_not, Function.comp]
    unfold pick
    rw [List.getElem?_eq_getElem hk]
    rfl
  rw [List.filter_congr e]
  rw [show ((fun p : Placed => p.spr) ∘ (fun c : Sheet.Cell => (⟨pick rs c.index, c.x, c.y, if anyMask rs then some (palPath g) else none,
    if anyColour rs then some (rgbaPath g) else none⟩ : Placed))) ∘ (fun k => (⟨k, Sheet.xAt (rs.map (·.spr)) k,
      Sheet.padding + Sheet.lineOfs (rs.map (·.spr)) (k / Sheet.perLine)⟩ : Sheet.Cell)) = pick rs from rfl]
  rw [← List.filter_map, pick_range]

/-- The group lists, by name. -/
def groupList (group : Nat → Name) (reals : List Real) (g : Name) : List Real :=
  ((collect (·.id) reals).flatMap (·.2)).filter fun r => group r.id = g

theorem byGroup_lookup (group : Nat → Name) (reals : List Real) (g : Name) :
    ((byGroup group reals).map (·.1)).Nodup ∧ (byGroup group reals).lookup g = if groupList group reals g = [] then none else
      some (groupList group reals g) := by
  obtain ⟨h1, h2⟩ := mem_collect (fun r : Real => group r.id) ((collect (·.id) reals).flatMap (·.2))
  refine ⟨h1, Eq.trans ?_ (h2 g)⟩
  have : (List.instBEq : BEq Name) = instBEqOfDecidableEq := lawful_eq _ _
  unfold byGroup
  rw [this]

theorem mem_byGroup {group : Nat → Name} {reals : List Real} {e : Name × List Real} (h : e ∈ byGroup group reals) :
    e.2 = groupList group reals e.1 ∧ e.2 ≠ [] := by
  obtain ⟨h1, h2⟩ := byGroup_lookup group reals e.1
  have := lookup_of_mem h1 (show (e.1, e.2) ∈ _ from h)
  rw [h2] at this
  split at this
  · simp at this
  · next hne => simp only [Option.some.injEq] at this; rw [← this]; exact ⟨rfl, hne⟩

theorem mem_groupList {group : Nat → Name} {reals : List Real} {g : Name} {r : Real} : r ∈ groupList group reals g ↔ r ∈ reals ∧ group r.id = g := by
  unfold groupList
  rw [List.mem_filter, collect_mem]
  simp

theorem any_groupList (group : Nat → Name) (reals : List Real) (id : Nat) (q : Real → Bool) :
    (groupList group reals (group id)).any q = (together group reals id).any q := by
  rw [Bool.eq_iff_iff, List.any_eq_true, List.any_eq_true]
  unfold together
  simp only [mem_groupList, List.mem_filter, decide_eq_true_eq]

theorem placed_spr_mem {g : Name} {rs : List Real} {p : Placed} (h : p ∈ placeGroup g rs) : p.spr ∈ rs := by
  have : p.spr ∈ (placeGroup g rs).map (·.spr) := List.mem_map_of_mem h
  rw [placeGroup_sprites, List.mem_filter] at this
  exact this.1

/-- The entries of an id are those of its group. -/
theorem placed_filter (group : Nat → Name) (reals : List Real) (id : Nat) :
    (placed group reals).filter (fun p => p.spr.id = id) =
      (placeGroup (group id) (groupList group reals (group id))).filter (fun p => p.spr.id = id) := by
  obtain ⟨h1, h2⟩ := byGroup_lookup group reals (group id)
  unfold placed
  rw [flat_filter _ h1 _ _ (group id)]
  · rw [h2]
    by_cases e : groupList group reals (group id) = []
    · rw [if_pos e, e]; rfl
    · rw [if_neg e]
  · intro e he p hp hq
    have hm := placed_spr_mem hp
    rw [(mem_byGroup he).1, mem_groupList] at hm
    have hq : p.spr.id = id := by simpa using hq
    rw [← hm.2, hq]

theorem placed_own (group : Nat → Name) (reals : List Real) (id : Nat) :
    ((placed group reals).filter (fun p => p.spr.id = id)).map (·.spr) = own reals id := by
  rw [placed_filter]
  rw [show (fun p : Placed => decide (p.spr.id = id)) = (fun r : Real => decide (r.id = id)) ∘ (·.spr) from rfl, ← List.filter_map, placeGroup_sprites,
    List.filter_filter]
  unfold groupList own
  rw [List.filter_filter]
  rw [show (fun r : Real => decide (r.id = id) && r.extracted && decide (group r.id = group id)) = (fun r : Real => decide (r.id = id) && r.extracted) by
    funext r
    by_cases e : r.id = id <;> simp [e]]
  exact collect_flat (·.id) reals (fun r : Real => decide (r.id = id) && r.extracted) id
    (by intro r hr; simp only [Bool.and_eq_true, decide_eq_true_eq] at hr; exact hr.1)

theorem generator_eq (group : Nat → Name) (reals : List Real) (id : Nat) :
    generator group reals id = if own reals id = [] then none else some ((placed group reals).filter (fun p => p.spr.id = id)) := by
  unfold generator
  rw [(mem_collect (fun p : Placed => p.spr.id) (placed group reals)).2 id, ← placed_own group reals id]
  simp only [List.map_eq_nil_iff]

/-! ### Names -/

theorem ok_no {g : Name} (h : OkGroup g) (c : Char) (hc : Script.nameLetter c = false) : c ∉ g := by
  intro hm
  have := List.all_eq_true.mp h.1 c hm
  rw [hc] at this
  simp at this

theorem takeWhile_path (a b : Name) (h : '/' ∉ b) : ((a ++ '/' :: b).reverse.takeWhile (· != '/')).reverse = b := by
  rw [List.reverse_append, List.reverse_cons, List.append_assoc, List.takeWhile_append_of_pos]
  · simp
  · intro c hc
    simp only [bne_iff_ne, ne_eq]
    rintro rfl
    exact h (List.mem_reverse.mp hc)

theorem replace_none {g : Name} (h : '.' ∉ g) : g.map (fun c => if c = '.' then '_' else c) = g := by
  conv => rhs; rw [← List.map_id g]
  apply List.map_congr_left
  intro c hc
  rw [if_neg]
  · rfl
  · rintro rfl; exact h hc

theorem fileVar_pal {g : Name} (h : OkGroup g) : fileVar (palPath g) = g ++ "_png".toList := by
  have e : palPath g = "resources".toList ++ '/' :: (g ++ ".png".toList) := by unfold palPath; simp
  unfold fileVar
  rw [e, takeWhile_path, List.map_append, replace_none (ok_no h '.' (by decide))]
  · rfl
  · rw [List.mem_append]
    rintro (h' | h')
    · exact ok_no h '/' (by decide) h'
    · exact absurd h' (by decide)

theorem fileVar_rgba {g : Name} (h : OkGroup g) : fileVar (rgbaPath g) = g ++ "_32bpp_png".toList := by
  have e : rgbaPath g = "resources".toList ++ '/' :: (g ++ "_32bpp.png".toList) := by unfold rgbaPath; simp
  unfold fileVar
  rw [e, takeWhile_path, List.map_append, replace_none (ok_no h '.' (by decide))]
  · rfl
  · rw [List.mem_append]
    rintro (h' | h')
    · exact ok_no h '/' (by decide) h'
    · exact absurd h' (by decide)

/-- Paths of sheets of groups with proper names. -/
def Known (path : Name) : Prop := ∃ g, OkGroup g ∧ (path = palPath g ∨ path = rgbaPath g)

theorem pal_inj {g g' : Name} (h : palPath g = palPath g') : g = g' := by
  unfold palPath at h
  exact List.append_cancel_left (List.append_cancel_right h)

theorem rgba_inj {g g' : Name} (h : rgbaPath g = rgbaPath g') : g = g' := by
  unfold rgbaPath at h
  exact List.append_cancel_left (List.append_cancel_right h)

theorem pal_ne_rgba {g g' : Name} (h : OkGroup g) : palPath g ≠ rgbaPath g' := by
  intro e
  unfold palPath rgbaPath at e
  rw [show "_32bpp.png".toList = "_32bpp".toList ++ ".png".toList from rfl, List.append_assoc, List.append_assoc, ← List.append_assoc g'] at e
  have e := List.append_cancel_right (List.append_cancel_left e)
  exact h.2 ⟨g', e.symm⟩

theorem fileVar_inj {p q : Name} (hp : Known p) (hq : Known q) (h : fileVar p = fileVar q) : p = q := by
  obtain ⟨g, hg, hp⟩ := hp
  obtain ⟨g', hg', hq⟩ := hq
  have sfx : "_32bpp_png".toList = "_32bpp".toList ++ "_png".toList := rfl
  rcases hp with rfl | rfl <;> rcases hq with rfl | rfl
  · rw [fileVar_pal hg, fileVar_pal hg'] at h
    rw [List.append_cancel_right h]
  · rw [fileVar_pal hg, fileVar_rgba hg', sfx, ← List.append_assoc] at h
    exact absurd ⟨g', (List.append_cancel_right h).symm⟩ hg.2
  · rw [fileVar_rgba hg, fileVar_pal hg', sfx, ← List.append_assoc] at h
    exact absurd ⟨g, List.append_cancel_right h⟩ hg'.2
  · rw [fileVar_rgba hg, fileVar_rgba hg'] at h
    rw [List.append_cancel_right h]

/-! ### Files -/

theorem lookup_unique {κ ν : Type} [BEq κ] [LawfulBEq κ] {d : List (κ × ν)} {k : κ} {v : ν} (h : (k, v) ∈ d) (hu : ∀ w, (k, w) ∈ d → w = v) :
    d.lookup k = some v := by
  induction d with
  | nil => simp at h
  | cons p d ih =>
    obtain ⟨a, b⟩ := p
    simp only [List.lookup]
    by_cases e : k = a
    · subst e
      simp only [BEq.rfl]
      rw [hu b List.mem_cons_self]
    · have : (k == a) = false := by simpa using e
      rw [this]
      rcases List.mem_cons.mp h with h | hm
      · simp only [Prod.mk.injEq] at h; exact absurd h.1 e
      · exact ih hm fun w hw => hu w (List.mem_cons_of_mem _ hw)

theorem mem_files {o : Outlines} {group : Nat → Name} {reals : List Real} {e : Name × Image} :
    e ∈ files o group reals ↔ ∃ g rs, (g, rs) ∈ byGroup group reals ∧ e ∈ filesOf o g rs := by
  unfold files
  rw [List.mem_reverse, List.mem_flatMap]
  constructor
  · rintro ⟨⟨g, rs⟩, h1, h2⟩; exact ⟨g, rs, h1, h2⟩
  · rintro ⟨g, rs, h1, h2⟩; exact ⟨(g, rs), h1, h2⟩

theorem mem_filesOf {o : Outlines} {g : Name} {rs : List Real} {e : Name × Image} : e ∈ filesOf o g rs ↔
    (anyMask rs = true ∧ e = (palPath g, .pal (Sheet.sheetWidth (rs.map (·.spr))) (Sheet.sheetHeight (rs.map (·.spr))) (palSheet o g rs))) ∨
    (anyColour rs = true ∧ e = (rgbaPath g, .rgba (Sheet.sheetWidth (rs.map (·.spr))) (Sheet.sheetHeight (rs.map (·.spr))) (rgbaSheet o g rs))) := by
  unfold filesOf
  simp only [List.mem_append]
  cases anyMask rs <;> cases anyColour rs <;> simp

theorem files_pal {o : Outlines} {group : Nat → Name} {reals : List Real} (hok : ∀ r ∈ reals, OkGroup (group r.id)) {g : Name}
    (hne : groupList group reals g ≠ []) (hm : anyMask (groupList group reals g) = true) :
    (files o group reals).lookup (palPath g) = some (.pal (Sheet.sheetWidth ((groupList group reals g).map (·.spr)))
      (Sheet.sheetHeight ((groupList group reals g).map (·.spr))) (palSheet o g (groupList group reals g))) := by
  have hb : (g, groupList group reals g) ∈ byGroup group reals := by
    have h := (byGroup_lookup group reals g).2
    rw [if_neg hne] at h
    obtain ⟨l1, l2, hl', -⟩ := List.lookup_eq_some_iff.mp h
    rw [hl']
    exact List.mem_append_right _ List.mem_cons_self
  have hg : OkGroup g := by
    obtain ⟨r, hr⟩ := List.exists_mem_of_ne_nil _ hne
    rw [mem_groupList] at hr
    rw [← hr.2]
    exact hok r hr.1
  apply lookup_unique
  · rw [mem_files]
    exact ⟨g, _, hb, mem_filesOf.mpr (.inl ⟨hm, rfl⟩)⟩
  · intro w hw
    rw [mem_files] at hw
    obtain ⟨g', rs', hb', hw⟩ := hw
    have e' := (mem_byGroup hb').1
    simp only at e'
    rw [mem_filesOf] at hw
    rcases hw with ⟨-, hw⟩ | ⟨-, hw⟩
    · simp only [Prod.mk.injEq] at hw
      have := pal_inj hw.1
      subst this
      rw [hw.2, e']
    · simp only [Prod.mk.injEq] at hw
      exact absurd hw.1 (pal_ne_rgba hg)

theorem files_rgba {o : Outlines} {group : Nat → Name} {reals : List Real} (hok : ∀ r ∈ reals, OkGroup (group r.id)) {g : Name}
    (hne : groupList group reals g ≠ []) (hm : anyColour (groupList group reals g) = true) :
    (files o group reals).lookup (rgbaPath g) = some (.rgba (Sheet.sheetWidth ((groupList group reals g).map (·.spr)))
      (Sheet.sheetHeight ((groupList group reals g).map (·.spr))) (rgbaSheet o g (groupList group reals g))) := by
  have hb : (g, groupList group reals g) ∈ byGroup group reals := by
    have h := (byGroup_lookup group reals g).2
    rw [if_neg hne] at h
    obtain ⟨l1, l2, hl', -⟩ := List.lookup_eq_some_iff.mp h
    rw [hl']
    exact List.mem_append_right _ List.mem_cons_self
  apply lookup_unique
  · rw [mem_files]
    exact ⟨g, _, hb, mem_filesOf.mpr (.inr ⟨hm, rfl⟩)⟩
  · intro w hw
    rw [mem_files] at hw
    obtain ⟨g', rs', hb', hw⟩ := hw
    have e' := (mem_byGroup hb').1
    simp only at e'
    have hg' : OkGroup g' := by
      obtain ⟨r, hr⟩ := List.exists_mem_of_ne_nil _ (mem_byGroup hb').2
      simp only at hr
      rw [e', mem_groupList] at hr
      rw [← hr.2]
      exact hok r hr.1
    rw [mem_filesOf] at hw
    rcases hw with ⟨-, hw⟩ | ⟨-, hw⟩
    · simp only [Prod.mk.injEq] at hw
      exact absurd hw.1.symm (pal_ne_rgba hg')
    · simp only [Prod.mk.injEq] at hw
      have := rgba_inj hw.1
      subst this
      rw [hw.2, e']

/-! ### What is in the cells -/

theorem sheet_cell {α : Type} (ss : List Sheet.Spr) (blank : α) (drawn : Nat → Bool) (pic : Nat → Nat → Nat → α) (outline : Nat → Option α)
    (c : Sheet.Cell) (hc : c ∈ Sheet.cells ss) (s : Sheet.Spr) (hs : ss[c.index]? = some s) (a b : Nat) (ha : a < s.width) (hb : b < s.height) :
    Sheet.sheet ss blank drawn pic outline (c.x + a) (c.y + b) = if drawn c.index then pic c.index a b else blank := by
  by_cases hd : drawn c.index = true
  · rw [if_pos hd]
    exact Sheet.sheet_has_sprites ss blank drawn pic outline c hc s hs hd a b ha hb
  · rw [if_neg hd]
    have hpos : ∀ c ∈ Sheet.cells ss, 2 ≤ c.x ∧ 2 ≤ c.y := by
      intro c hc
      obtain ⟨_, _, _, hx, hy⟩ := Sheet.mem_cells ss c hc
      have := Sheet.xAt_ge ss c.index
      unfold Sheet.padding at *
      omega
    have drop : ∀ (cs : List Sheet.Cell) (canvas : Nat → Nat → α), Sheet.paintAll ss drawn pic outline canvas cs =
        Sheet.paintAll ss drawn pic outline canvas (cs.filter fun d => d.index != c.index) := by
      intro cs
      induction cs with
      | nil => intro canvas; rfl
      | cons d cs ih =>
        intro canvas
        by_cases e : d.index = c.index
        · rw [List.filter_cons_of_neg (by simp [e])]
          simp only [Sheet.paintAll]
          rw [e, if_neg hd]
          exact ih canvas
        · rw [List.filter_cons_of_pos (by simp [e])]
          simp only [Sheet.paintAll]
          exact ih _
    unfold Sheet.sheet
    rw [drop, Sheet.paintAll_other]
    · intro d hd' hin
      rw [List.mem_filter] at hd'
      have hne : c.index ≠ d.index := by
        have := hd'.2
        simp only [bne_iff_ne, ne_eq] at this
        exact fun e => this e.symm
      obtain ⟨t, ht, _⟩ := Sheet.mem_cells ss d hd'.1
      rw [ht] at hin
      simp only [Option.getD_some] at hin
      apply Sheet.cells_disjoint ss c d hc hd'.1 hne s t hs ht ((c.x + a : Nat) : Int) ((c.y + b : Nat) : Int)
      refine ⟨?_, hin⟩
      unfold Sheet.outlined
      simp only
      omega
    · intro d hd'
      exact hpos d (List.mem_filter.mp hd').1

theorem window_eq {α : Type} (p q : Nat → Nat → α) (x y w h : Nat) (he : ∀ a < w, ∀ b < h, p (x + a) (y + b) = q a b) :
    window p x y w h = (List.range h).map fun b => (List.range w).map fun a => q a b := by
  unfold window
  apply List.map_congr_left
  intro b hb
  apply List.map_congr_left
  intro a ha
  exact he a (List.mem_range.mp ha) b (List.mem_range.mp hb)

/-- An entry of a group: its place is inside the sheets, which show there the layers the specification asks for. -/
theorem placed_shows (o : Outlines) (g : Name) (rs : List Real) (p : Placed) (h : p ∈ placeGroup g rs) :
    p.x + p.spr.width ≤ Sheet.sheetWidth (rs.map (·.spr)) ∧ p.y + p.spr.height ≤ Sheet.sheetHeight (rs.map (·.spr)) ∧
    window (palSheet o g rs) p.x p.y p.spr.width p.spr.height = layer p.spr (fun x y => if p.spr.hasMask then p.spr.mask x y else 255) ∧
    window (fun x y => (rgbaSheet o g rs x y).1) p.x p.y p.spr.width p.spr.height = layer p.spr (fun x y => if p.spr.hasRgb then p.spr.rgb x y else (0, 0, 0)) ∧
    window (fun x y => (rgbaSheet o g rs x y).2) p.x p.y p.spr.width p.spr.height =
      layer p.spr (fun x y => if p.spr.hasRgb then (if p.spr.hasAlpha then p.spr.alpha x y else 255) else 0) := by
  unfold placeGroup at h
  rw [List.mem_map] at h
  obtain ⟨c, hc, rfl⟩ := h
  simp only
  obtain ⟨s, hs, -⟩ := Sheet.mem_cells _ c hc
  have hps : (pick rs c.index).spr = s := by
    rw [List.getElem?_map, Option.map_eq_some_iff] at hs
    obtain ⟨r, hr, rfl⟩ := hs
    unfold pick
    rw [hr]
    rfl
  have hw : s.width = (pick rs c.index).width := by rw [← hps]; rfl
  have hh : s.height = (pick rs c.index).height := by rw [← hps]; rfl
  obtain ⟨-, hi1, -, hi2⟩ := Sheet.cells_inside _ c hc s hs
  unfold Sheet.outlined at hi1 hi2
  simp only at hi1 hi2
  refine ⟨by omega, by omega, ?_, ?_, ?_⟩
  · apply window_eq
    intro a ha b hb
    unfold palSheet
    rw [sheet_cell _ _ _ _ _ c hc s hs a b (by omega) (by omega)]
  · apply window_eq
    intro a ha b hb
    unfold rgbaSheet
    rw [sheet_cell _ _ _ _ _ c hc s hs a b (by omega) (by omega)]
    unfold Real.pixel
    split <;> rfl
  · apply window_eq
    intro a ha b hb
    unfold rgbaSheet
    rw [sheet_cell _ _ _ _ _ c hc s hs a b (by omega) (by omega)]
    unfold Real.pixel
    split <;> rfl

/-! ### Zooms -/

theorem zoom_read (z : Nat) (h : z < 256) : zoomValue (zoomText z) = some z := by
  have : ∀ z ∈ List.range 256, zoomValue (zoomText z) = some z := by decide +kernel
  exact this z (List.mem_range.mpr h)

end Grf.Extract
