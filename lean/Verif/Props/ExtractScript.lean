import Verif.Props.ExtractGraphics
import Verif.Props.ResNames
/-!
# C79: the sprites a decompiled script makes, continued
-/
namespace Grf.Extract
open ResNames (Name)
open Strings (dec)

/-! ### Variables -/

/-- The names given out are those of assigned variables. -/
def Inv (res vars : List (Name × Name)) : Prop :=
  ∀ path v, res.lookup path = some v → v = fileVar path ∧ Known path ∧ vars.lookup v = some path

theorem lookup_set (d : List (Name × Name)) (k v j : Name) : (dictSet d k v).lookup j = if j = k then some v else d.lookup j := lookup_dictSet d k j v

theorem makeVar_ok (fs : List (Name × Image)) (res vars : List (Name × Name)) (o : Option Name) (hi : Inv res vars) (hk : ∀ path, o = some path → Known path) :
    ∃ vars', (∀ rest, run fs vars ((makeVar res o).2 ++ rest) = run fs vars' rest) ∧ Inv (makeVar res o).1 vars' ∧
      (∀ path, o = some path → ((makeVar res o).1.lookup path).isSome) ∧
      (∀ path, (res.lookup path).isSome → ((makeVar res o).1.lookup path).isSome) := by
  cases o with
  | none => exact ⟨vars, fun _ => rfl, hi, by simp, fun _ h => h⟩
  | some path =>
    by_cases e : (res.lookup path).isSome = true
    · have e1 : makeVar res (some path) = (res, []) := by simp only [makeVar]; rw [if_pos e]
      rw [e1]
      exact ⟨vars, fun _ => rfl, hi, fun p hp => by cases hp; exact e, fun _ h => h⟩
    · have e1 : makeVar res (some path) = (dictSet res path (fileVar path), [.image (fileVar path) path]) := by simp only [makeVar]; rw [if_neg e]
      rw [e1]
      refine ⟨(fileVar path, path) :: vars, fun _ => rfl, ?_, ?_, ?_⟩
      · intro q v hq
        simp only [lookup_set] at hq
        by_cases eq : q = path
        · subst eq
          rw [if_pos rfl] at hq
          cases hq
          exact ⟨rfl, hk _ rfl, by simp [List.lookup]⟩
        · rw [if_neg eq] at hq
          obtain ⟨h1, h2, h3⟩ := hi q v hq
          refine ⟨h1, h2, ?_⟩
          have : (v == fileVar path) = false := by
            rw [beq_eq_false_iff_ne]
            intro h
            exact eq (fileVar_inj h2 (hk _ rfl) (h1 ▸ h))
          simp only [List.lookup, this]
          exact h3
      · intro q hq
        cases hq
        simp [lookup_set]
      · intro q hq
        simp only [lookup_set]
        split
        · rfl
        · exact hq

theorem makeVars_ok (fs : List (Name × Image)) (ps : List Placed) : ∀ (res vars : List (Name × Name)), Inv res vars →
    (∀ p ∈ ps, (∀ path, p.pal = some path → Known path) ∧ (∀ path, p.rgba = some path → Known path)) →
    ∃ vars', (∀ rest, run fs vars ((makeVars res ps).2 ++ rest) = run fs vars' rest) ∧ Inv (makeVars res ps).1 vars' ∧
      (∀ p ∈ ps, ∀ path, p.pal = some path ∨ p.rgba = some path → ((makeVars res ps).1.lookup path).isSome) ∧
      (∀ path, (res.lookup path).isSome → ((makeVars res ps).1.lookup path).isSome) := by
  induction ps with
  | nil => intro res vars hi _; exact ⟨vars, fun _ => rfl, hi, by simp, fun _ h => h⟩
  | cons p ps ih =>
    intro res vars hi hk
    obtain ⟨k1, k2⟩ := hk p List.mem_cons_self
    obtain ⟨v1, r1, i1, s1, m1⟩ := makeVar_ok fs res vars p.pal hi k1
    obtain ⟨v2, r2, i2, s2, m2⟩ := makeVar_ok fs (makeVar res p.pal).1 v1 p.rgba i1 k2
    obtain ⟨v3, r3, i3, s3, m3⟩ := ih (makeVar (makeVar res p.pal).1 p.rgba).1 v2 i2 (fun q hq => hk q (List.mem_cons_of_mem _ hq))
    have e : makeVars res (p :: ps) = ((makeVars (makeVar (makeVar res p.pal).1 p.rgba).1 ps).1,
      (makeVar res p.pal).2 ++ (makeVar (makeVar res p.pal).1 p.rgba).2 ++ (makeVars (makeVar (makeVar res p.pal).1 p.rgba).1 ps).2) := rfl
    rw [e]
    refine ⟨v3, ?_, i3, ?_, fun path h => m3 _ (m2 _ (m1 _ h))⟩
    · intro rest
      simp only [List.append_assoc]
      rw [r1, r2, r3]
    · intro q hq path hpath
      rcases List.mem_cons.mp hq with rfl | hq
      · rcases hpath with h | h
        · exact m3 _ (m2 _ (s1 _ h))
        · exact m3 _ (s2 _ h)
      · exact s3 q hq path hpath

/-! ### One sprite -/

theorem placed_paths {g : Name} {rs : List Real} {p : Placed} (h : p ∈ placeGroup g rs) :
    p.pal = (if anyMask rs then some (palPath g) else none) ∧ p.rgba = (if anyColour rs then some (rgbaPath g) else none) := by
  unfold placeGroup at h
  rw [List.mem_map] at h
  obtain ⟨c, -, rfl⟩ := h
  exact ⟨rfl, rfl⟩

/-- Some sprite of the list has a layer. -/
def layered (rs : List Real) : Bool := rs.any fun r => r.hasRgb || r.hasAlpha || r.hasMask

theorem layered_eq (rs : List Real) : layered rs = (anyColour rs || anyMask rs) := by
  unfold layered anyColour anyMask
  induction rs with
  | nil => rfl
  | cons r rs ih =>
    simp only [List.any_cons, ih]
    cases r.hasRgb <;> cases r.hasAlpha <;> cases r.hasMask <;> simp

theorem imageOf_var {fs : List (Name × Image)} {res vars : List (Name × Name)} (hi : Inv res vars) {path : Name} {img : Image}
    (hr : (res.lookup path).isSome) (hf : fs.lookup path = some img) : res.lookup path = some (fileVar path) ∧ imageOf fs vars (fileVar path) = some img := by
  obtain ⟨v, hv⟩ := Option.isSome_iff_exists.mp hr
  obtain ⟨h1, -, h3⟩ := hi _ _ hv
  subst h1
  refine ⟨hv, ?_⟩
  unfold imageOf
  rw [h3]
  exact hf

theorem call_ok (o : Outlines) (group : Nat → Name) (reals : List Real) (hok : ∀ r ∈ reals, OkGroup (group r.id)) (hz : ∀ r ∈ reals, r.zoom < 256)
    (g : Name) (p : Placed) (hp : p ∈ placeGroup g (groupList group reals g)) (res vars : List (Name × Name)) (hi : Inv res vars)
    (hres : ∀ path, p.pal = some path ∨ p.rgba = some path → (res.lookup path).isSome) :
    ∃ c, callOf res p = some c ∧ evalCall (files o group reals) vars c =
      if layered (groupList group reals g) then some (shown (groupList group reals g) p.spr) else none := by
  have hm := placed_spr_mem hp
  have hne : groupList group reals g ≠ [] := List.ne_nil_of_mem hm
  have hzm : zoomValue (zoomText p.spr.zoom) = some p.spr.zoom := zoom_read _ (hz _ (mem_groupList.mp hm).1)
  obtain ⟨h1, h2, h3, h4, h5⟩ := placed_shows o g _ p hp
  obtain ⟨q1, q2⟩ := placed_paths hp
  rw [layered_eq]
  have hc : (groupList group reals g).any (fun s => s.hasRgb || s.hasAlpha) = anyColour (groupList group reals g) := rfl
  have hk : (groupList group reals g).any (fun s => s.hasMask) = anyMask (groupList group reals g) := rfl
  unfold shown
  rw [hc, hk]
  have fp := files_pal (o := o) hok hne
  have fr := files_rgba (o := o) hok hne
  generalize groupList group reals g = rs at *
  cases e1 : anyMask rs <;> cases e2 : anyColour rs <;> rw [e1] at q1 <;> rw [e2] at q2 <;>
    simp only [if_true, if_false, Bool.false_eq_true] at q1 q2
  · exact ⟨.empty, by unfold callOf; rw [q1, q2], by simp [evalCall]⟩
  · obtain ⟨a1, a2⟩ := imageOf_var hi (hres _ (.inr q2)) (fr e2)
    refine ⟨_, by unfold callOf; rw [q1, q2]; simp only; rw [a1]; rfl, ?_⟩
    simp only [evalCall, a2, Option.bind_eq_bind, Option.bind_some, fileLayers]
    rw [if_pos ⟨h1, h2⟩]
    simp only [Option.bind_some, hzm, h4, h5]
    simp
  · obtain ⟨a1, a2⟩ := imageOf_var hi (hres _ (.inl q1)) (fp e1)
    refine ⟨_, by unfold callOf; rw [q1, q2]; simp only; rw [a1]; rfl, ?_⟩
    simp only [evalCall, a2, Option.bind_eq_bind, Option.bind_some, fileLayers]
    rw [if_pos ⟨h1, h2⟩]
    simp only [Option.bind_some, hzm, h3]
    simp
  · obtain ⟨a1, a2⟩ := imageOf_var hi (hres _ (.inl q1)) (fp e1)
    obtain ⟨b1, b2⟩ := imageOf_var hi (hres _ (.inr q2)) (fr e2)
    refine ⟨_, by unfold callOf; rw [q1, q2]; simp only; rw [a1, b1]; rfl, ?_⟩
    simp only [evalCall, a2, b2, Option.bind_eq_bind, Option.bind_some, fileLayers]
    rw [if_pos ⟨h1, h2⟩, if_pos ⟨h1, h2⟩]
    simp only [Option.bind_some, hzm, h3, h4, h5]
    simp

/-! ### The script -/

theorem calls_ok (o : Outlines) (group : Nat → Name) (reals : List Real) (hok : ∀ r ∈ reals, OkGroup (group r.id)) (hz : ∀ r ∈ reals, r.zoom < 256)
    (g : Name) (res vars : List (Name × Name)) (hi : Inv res vars) : ∀ (ps : List Placed), (∀ p ∈ ps, p ∈ placeGroup g (groupList group reals g)) →
    (∀ p ∈ ps, ∀ path, p.pal = some path ∨ p.rgba = some path → (res.lookup path).isSome) →
    ∃ cs, ps.mapM (callOf res) = some cs ∧ cs.mapM (evalCall (files o group reals) vars) =
      if ps = [] ∨ layered (groupList group reals g) = true then some (ps.map fun p => shown (groupList group reals g) p.spr) else none := by
  intro ps
  induction ps with
  | nil => intro _ _; exact ⟨[], rfl, rfl⟩
  | cons p ps ih =>
    intro hp hr
    obtain ⟨c, c1, c2⟩ := call_ok o group reals hok hz g p (hp p List.mem_cons_self) res vars hi (hr p List.mem_cons_self)
    obtain ⟨cs, d1, d2⟩ := ih (fun q hq => hp q (List.mem_cons_of_mem _ hq)) (fun q hq => hr q (List.mem_cons_of_mem _ hq))
    refine ⟨c :: cs, by simp [List.mapM_cons, c1, d1], ?_⟩
    rw [List.mapM_cons, c2, d2]
    by_cases e : layered (groupList group reals g) = true
    · simp [e]
    · simp [e]

theorem shown_congr {G H : List Real} (h : ∀ q : Real → Bool, G.any q = H.any q) : shown G = shown H := by
  funext r
  unfold shown
  rw [h, h]

/-- **C79.** The code always comes out, and it runs exactly if every sprite it adds has a layer, or shares its group with one that has; it then
adds the extracted sprites of the placeholders, with their sizes, offsets, zooms and pixels (see `shown`), whatever the outlines are. -/
theorem script_sprites (o : Outlines) (group : Nat → Name) (reals : List Real) (ids : List Nat) (hok : ∀ r ∈ reals, OkGroup (group r.id))
    (hz : ∀ r ∈ reals, r.zoom < 256) :
    ∃ s, code group reals [] ids = some s ∧ run (files o group reals) [] s =
      if ∀ id ∈ ids, own reals id ≠ [] → layered (together group reals id) = true then some (expected group reals ids) else none := by
  suffices h : ∀ (ids : List Nat) (res vars : List (Name × Name)), Inv res vars →
      ∃ s, code group reals res ids = some s ∧ run (files o group reals) vars s =
        if ∀ id ∈ ids, own reals id ≠ [] → layered (together group reals id) = true then some (expected group reals ids) else none by
    exact h ids [] [] (by intro path v h; simp at h)
  intro ids
  induction ids with
  | nil => intro res vars hi; exact ⟨[], rfl, by simp [run, expected]⟩
  | cons id ids ih =>
    intro res vars hi
    by_cases e : own reals id = []
    · obtain ⟨s, s1, s2⟩ := ih res vars hi
      refine ⟨.comment :: s, ?_, ?_⟩
      · simp only [code]
        rw [generator_eq, if_pos e]
        simp only
        rw [s1]
        rfl
      · simp only [run]
        rw [s2]
        simp [expected, e]
    · have hg : generator group reals id = some ((placed group reals).filter (fun p => p.spr.id = id)) := by rw [generator_eq, if_neg e]
      have hmem : ∀ p ∈ (placed group reals).filter (fun p => p.spr.id = id), p ∈ placeGroup (group id) (groupList group reals (group id)) := by
        intro p hp
        rw [placed_filter] at hp
        exact (List.mem_filter.mp hp).1
      have hG : OkGroup (group id) := by
        obtain ⟨r, hr⟩ := List.exists_mem_of_ne_nil _ e
        unfold own at hr
        rw [List.mem_filter] at hr
        simp only [Bool.and_eq_true, decide_eq_true_eq] at hr
        rw [← hr.2.1]
        exact hok r hr.1
      have hown := placed_own group reals id
      obtain ⟨vars', r1, i1, m1, -⟩ := makeVars_ok (files o group reals) ((placed group reals).filter (fun p => p.spr.id = id)) res vars hi (by
        intro p hp
        obtain ⟨q1, q2⟩ := placed_paths (hmem p hp)
        constructor
        · intro path h; rw [q1] at h; split at h <;> simp only [Option.some.injEq, reduceCtorEq] at h; exact ⟨_, hG, .inl h.symm⟩
        · intro path h; rw [q2] at h; split at h <;> simp only [Option.some.injEq, reduceCtorEq] at h; exact ⟨_, hG, .inr h.symm⟩)
      obtain ⟨cs, c1, c2⟩ := calls_ok o group reals hok hz (group id) _ vars' i1 _ hmem m1
      obtain ⟨s, s1, s2⟩ := ih _ vars' i1
      refine ⟨(makeVars res ((placed group reals).filter (fun p => p.spr.id = id))).2 ++ [.add cs] ++ s, ?_, ?_⟩
      · simp only [code, hg, genCode, c1, Option.bind_eq_bind, Option.bind_some, s1]
      · rw [List.append_assoc, r1]
        simp only [List.cons_append, List.nil_append, run]
        rw [c2, s2]
        have hl : layered (groupList group reals (group id)) = layered (together group reals id) := any_groupList group reals id _
        have hsh : shown (groupList group reals (group id)) = shown (together group reals id) := shown_congr (any_groupList group reals id)
        have hne : (placed group reals).filter (fun p => p.spr.id = id) ≠ [] := by
          intro h0
          rw [h0] at hown
          exact e hown.symm
        have hex : expected group reals (id :: ids) = ((own reals id).map (shown (together group reals id))) :: expected group reals ids := by
          unfold expected
          rw [List.filter_cons_of_pos (by simpa using e)]
          rfl
        have hmap : ((placed group reals).filter (fun p => p.spr.id = id)).map (fun p => shown (groupList group reals (group id)) p.spr) =
            (own reals id).map (shown (together group reals id)) := by
          rw [hsh, ← hown, List.map_map]
          rfl
        rw [hl, hmap, hex]
        by_cases hly : layered (together group reals id) = true
        · by_cases hr : ∀ id ∈ ids, own reals id ≠ [] → layered (together group reals id) = true
          · rw [if_pos (.inr hly), if_pos hr, if_pos]
            · rfl
            · intro i hi'
              rcases List.mem_cons.mp hi' with rfl | hi'
              · exact fun _ => hly
              · exact hr i hi'
          · rw [if_pos (.inr hly), if_neg hr, if_neg]
            · rfl
            · exact fun h => hr fun i hi' => h i (List.mem_cons_of_mem _ hi')
        · have hn : ¬ ((placed group reals).filter (fun p => p.spr.id = id) = [] ∨ layered (together group reals id) = true) := by
            rintro (h | h)
            · exact hne h
            · exact hly h
          rw [if_neg hn, if_neg (c := ∀ i ∈ id :: ids, own reals i ≠ [] → layered (together group reals i) = true)]
          · rfl
          · exact fun h => hly (h id List.mem_cons_self e)

/-! ### The names of groups -/

theorem ok_misc : OkGroup "misc".toList := by
  refine ⟨by decide, ?_⟩
  rintro ⟨t, ht⟩
  have := congrArg (fun l : Name => l.getLast?) ht
  simp at this

theorem ok_name {base : Name} (h : base.all Script.nameLetter = true) (k : Nat) : OkGroup (groupName base k) := by
  unfold groupName
  constructor
  · rw [List.all_append, h, Bool.true_and, List.all_cons, Bool.and_eq_true]
    refine ⟨by decide, ?_⟩
    rw [List.all_eq_true]
    intro c hc
    have := Script.dec_chars k c hc
    simp [Script.nameLetter, Char.isAlphanum, this]
  · rintro ⟨t, ht⟩
    have h1 := congrArg (fun l : Name => l.getLast?) ht
    have hl : ∃ c, (dec k).getLast? = some c ∧ c.isDigit = true := by
      have hn := ResNames.dec_ne_nil k
      exact ⟨_, List.getLast?_eq_some_getLast hn, Script.dec_chars k _ (List.getLast_mem hn)⟩
    obtain ⟨c, hc, hd⟩ := hl
    have h2 : (base ++ '_' :: dec k).getLast? = some c := by
      rw [List.getLast?_append, List.getLast?_cons, hc]
      rfl
    simp only [h2, List.getLast?_append] at h1
    have h3 : 'p' = c := by simpa using h1
    subst h3
    exact absurd hd (by decide)

/-- The group now and those noted have proper names. -/
def Names (c : Ctx) : Prop := (∀ g, c.group = some g → OkGroup g) ∧ ∀ id k g, c.sprites.lookup id = some (k, some g) → OkGroup g

theorem names_reset {c : Ctx} (h : Names c) : Names c.reset := ⟨by simp [Ctx.reset], h.2⟩

theorem names_consume {c : Ctx} (h : Names c) : Names c.consume := by
  unfold Ctx.consume
  split
  · exact h
  · split
    · exact names_reset h
    · exact h

theorem names_note {c : Ctx} (h : Names c) (id : Nat) : Names (c.note id) := by
  refine ⟨h.1, ?_⟩
  intro i k g hl
  simp only [Ctx.note, lookup_dictSet] at hl
  split at hl
  · simp only [Option.some.injEq, Prod.mk.injEq] at hl
    exact h.1 g hl.2
  · exact h.2 i k g hl

theorem names_graphics {c : Ctx} (h : Names c) (n : Int) {base : Name} (hb : base.all Script.nameLetter = true) : Names (c.setGraphics n base) := by
  refine ⟨?_, h.2⟩
  intro g hg
  simp only [Ctx.setGraphics, Option.some.injEq] at hg
  subst hg
  exact ok_name hb _

theorem names_sound {c : Ctx} (h : Names c) (n : Int) : Names (c.setSound n) := ⟨by simp [Ctx.setSound], h.2⟩

theorem feature_letters (f : Nat) : (featureName f).all Script.nameLetter = true := by
  unfold featureName
  cases h : featureNames[f]? with
  | none => rfl
  | some g =>
    have := List.mem_of_getElem? h
    have ha : ∀ g ∈ featureNames, g.all Script.nameLetter = true := by decide
    exact ha g this

theorem names_announce {c : Ctx} (h : Names c) (a : UInt8) (bs : Bytes) : Names (announce c a bs) := by
  unfold announce
  by_cases e1 : a = 0x01
  · rw [if_pos e1]; split
    · exact names_graphics h _ (feature_letters _)
    · exact h
  rw [if_neg e1]
  by_cases e2 : a = 0x05
  · rw [if_pos e2]; split
    · exact names_graphics h _ (by decide)
    · exact h
  rw [if_neg e2]
  by_cases e3 : a = 0x0a
  · rw [if_pos e3]; split
    · exact names_graphics h _ (by decide)
    · exact h
  rw [if_neg e3]
  by_cases e4 : a = 0x11
  · rw [if_pos e4]; split
    · exact names_sound h _
    · exact h
  rw [if_neg e4]
  exact h

theorem names_step {c : Ctx} (h : Names c) (e : PEntry) : Names (step c e) := by
  cases e with
  | empty => exact h
  | ref id => exact names_consume (names_note h id)
  | unknown => exact names_consume h
  | pseudo bs =>
    cases bs with
    | nil => exact h
    | cons a r =>
      simp only [step, stepPseudo]
      split
      · split
        · split
          · exact names_consume h
          · exact h
        · split
          · exact h
          · exact names_announce (names_reset h) a r
      · exact names_announce h a r

/-- The groups of every file have names for which `script_sprites` holds. -/
theorem groups_ok (es : List PEntry) (id : Nat) : OkGroup (groupOf (context es) id) := by
  have hn : Names (context es) := by
    unfold context
    suffices ∀ (es : List PEntry) (c : Ctx), Names c → Names (es.foldl step c) from this es {} ⟨by simp, by simp⟩
    intro es
    induction es with
    | nil => exact fun _ h => h
    | cons e es ih => exact fun c h => ih _ (names_step h e)
  unfold groupOf
  split
  · next g hg =>
    split
    · exact ok_misc
    · unfold Ctx.get at hg
      cases hl : (context es).sprites.lookup id with
      | none => rw [hl] at hg; simp at hg
      | some e =>
        obtain ⟨k, o⟩ := e
        rw [hl] at hg
        simp only [Option.getD_some] at hg
        subst hg
        exact hn.2 id k g hl
  · exact ok_misc

/-- **C79** for whole files: no condition on the names is left. -/
theorem decompiled_sprites (o : Outlines) (es : List PEntry) (reals : List Real) (ids : List Nat) (hz : ∀ r ∈ reals, r.zoom < 256) :
    ∃ s, code (groupOf (context es)) reals [] ids = some s ∧ run (files o (groupOf (context es)) reals) [] s =
      if ∀ id ∈ ids, own reals id ≠ [] → layered (together (groupOf (context es)) reals id) = true then
        some (expected (groupOf (context es)) reals ids) else none :=
  script_sprites o _ reals ids (fun r _ => groups_ok es r.id) hz

/-! ### When the sprites come out as they were -/

/-- What the game shows of a sprite: its layers; colours without opacity are opaque. -/
def original (r : Real) : Made where
  w := r.width
  h := r.height
  xofs := r.xofs
  yofs := r.yofs
  zoom := r.zoom
  rgb := if r.hasRgb then some (layer r r.rgb) else none
  alpha := if r.hasRgb then some (layer r fun x y => if r.hasAlpha then r.alpha x y else 255) else none
  mask := if r.hasMask then some (layer r r.mask) else none

/-- **C79.** A sprite comes out as it was exactly if it has the layers its group has: it has colours if any sprite of the group has a colour layer,
and a mask if any has one. -/
theorem unchanged_iff (G : List Real) (r : Real) (hr : r ∈ G) :
    shown G r = original r ↔ (G.any (fun s => s.hasRgb || s.hasAlpha) = true → r.hasRgb = true) ∧ (G.any (fun s => s.hasMask) = true → r.hasMask = true) := by
  have h1 : r.hasRgb = true → G.any (fun s => s.hasRgb || s.hasAlpha) = true := fun h => List.any_eq_true.mpr ⟨r, hr, by simp [h]⟩
  have h2 : r.hasMask = true → G.any (fun s => s.hasMask) = true := fun h => List.any_eq_true.mpr ⟨r, hr, h⟩
  unfold shown original
  cases e1 : G.any (fun s => s.hasRgb || s.hasAlpha) <;> cases e2 : G.any (fun s => s.hasMask) <;> cases e3 : r.hasRgb <;> cases e4 : r.hasMask <;>
    simp_all

/-- A group of sprites with the same layers comes out as it was. -/
theorem uniform_group (G : List Real) (r : Real) (hr : r ∈ G) (h : ∀ s ∈ G, s.hasRgb = r.hasRgb ∧ s.hasMask = r.hasMask ∧ s.extracted = true) :
    shown G r = original r := by
  rw [unchanged_iff G r hr]
  constructor
  · intro hc
    obtain ⟨s, hs, hv⟩ := List.any_eq_true.mp hc
    obtain ⟨a, -, c⟩ := h s hs
    unfold Real.extracted at c
    rw [← a]
    cases e : s.hasRgb <;> simp_all
  · intro hc
    obtain ⟨s, hs, hv⟩ := List.any_eq_true.mp hc
    rw [← (h s hs).2.1]
    exact hv

/-- **C79.** Alternatives (zooms, depths) of one sprite are added as sprites of their own: the script adds as many sprites as there were placeholders
exactly if each has one. -/
theorem alternatives_apart (group : Nat → Name) (reals : List Real) (ids : List Nat) :
    (expected group reals ids).flatten.length = (ids.filter fun id => !(own reals id).isEmpty).length ↔ ∀ id ∈ ids, (own reals id).length ≤ 1 := by
  unfold expected
  induction ids with
  | nil => simp
  | cons id ids ih =>
    have hge : ∀ ids : List Nat, (ids.filter fun id => !(own reals id).isEmpty).length ≤
        ((ids.filter fun id => !(own reals id).isEmpty).map fun id => (own reals id).map (shown (together group reals id))).flatten.length := by
      intro ids
      induction ids with
      | nil => simp
      | cons id ids ih =>
        by_cases e : own reals id = []
        · simpa [e] using ih
        · have := List.length_pos_of_ne_nil e
          rw [List.filter_cons_of_pos (by simpa using e)]
          simp only [List.map_cons, List.flatten_cons, List.length_append, List.length_map, List.length_cons]
          omega
    have := hge ids
    by_cases e : own reals id = []
    · rw [List.filter_cons_of_neg (by simpa using e), ih]
      simp [e]
    · have hp := List.length_pos_of_ne_nil e
      rw [List.filter_cons_of_pos (by simpa using e)]
      simp only [List.map_cons, List.flatten_cons, List.length_append, List.length_map, List.length_cons, List.forall_mem_cons]
      rw [← ih]
      omega

/-! ### Examples -/

/-- An 8bpp sprite and a 32bpp one of one group, an 8bpp one of another group, one without layers and one with opacity only. -/
def mixed : List Real :=
  [⟨1, 4, 1, 1, -1, -2, 0, fun _ _ => (0, 0, 0), fun _ _ => 0, fun _ _ => 7⟩, ⟨1, 3, 2, 1, 0, 0, 2, fun x _ => (x, 5, 6), fun _ _ => 9, fun _ _ => 0⟩,
   ⟨2, 4, 1, 2, 3, 4, 1, fun _ _ => (0, 0, 0), fun _ _ => 0, fun _ y => y⟩, ⟨3, 0, 1, 1, 0, 0, 0, fun _ _ => (0, 0, 0), fun _ _ => 0, fun _ _ => 7⟩,
   ⟨4, 2, 1, 1, 0, 0, 0, fun _ _ => (0, 0, 0), fun _ _ => 0, fun _ _ => 7⟩]

/-- Their groups. -/
def mixedGroup (id : Nat) : Name := groupName "train".toList id

/-- The hypotheses of `script_sprites` hold of them. -/
example : (∀ r ∈ mixed, OkGroup (mixedGroup r.id)) ∧ (∀ r ∈ mixed, r.zoom < 256) ∧ ∀ id ∈ [2, 1, 4], own mixed id ≠ [] → layered (together mixedGroup mixed id) = true :=
  ⟨fun r _ => ok_name (by decide) r.id, by decide, by decide +kernel⟩

/-- What comes out: the 8bpp alternative of sprite 1 is invisible in its colour layer, the 32bpp one has got a mask of 255; the one with
opacity only is lost. -/
theorem mixed_out : expected mixedGroup mixed [2, 1, 4] =
    [[⟨1, 2, 3, 4, 1, none, none, some [[0], [1]]⟩],
     [⟨1, 1, -1, -2, 0, some [[(0, 0, 0)]], some [[0]], some [[7]]⟩, ⟨2, 1, 0, 0, 2, some [[(0, 5, 6), (1, 5, 6)]], some [[9, 9]], some [[255, 255]]⟩]] := by
  decide +kernel

/-- The condition of `script_sprites` is needed: a sprite without layers gives a script that does not run. -/
theorem no_layers (o : Outlines) : ∃ s, code mixedGroup mixed [] [2, 3] = some s ∧ run (files o mixedGroup mixed) [] s = none := by
  obtain ⟨s, h1, h2⟩ := script_sprites o mixedGroup mixed [2, 3] (fun r _ => ok_name (by decide) r.id) (by decide)
  refine ⟨s, h1, ?_⟩
  rw [h2, if_neg]
  decide +kernel

end Grf.Extract
