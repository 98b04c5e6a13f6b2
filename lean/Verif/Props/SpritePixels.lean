import Verif.Model.SpriteTree
import Verif.Props.RealSprite
import Verif.Props.SpriteTree
/-!
# C72: what a composed sprite shows, pixel by pixel
-/
namespace Grf.Tree
open Grf.RealSprite

/-! ## Pixels -/

theorem zip_at {α β γ : Type} (f : α → β → γ) (m : List (List α)) (a : List (List β)) (y x : Nat) :
    at' (List.zipWith (List.zipWith f) m a) y x = (at' m y x).bind fun k => (at' a y x).map (f k) := by
  unfold at'
  rw [List.getElem?_zipWith]
  cases m[y]? with
  | none => rfl
  | some r =>
    cases a[y]? with
    | none => simp only [Option.bind_some, Option.bind_none, Option.map_none]; cases r[x]? <;> rfl
    | some q =>
      simp only [Option.bind_some]
      rw [List.getElem?_zipWith]
      cases r[x]? with
      | none => rfl
      | some k => cases q[x]? <;> rfl

theorem shaped_same {α β : Type} {h w : Nat} {m : List (List α)} {a : List (List β)} (hm : shaped h w m = true) (ha : shaped h w a = true) : sameShape m a = true := by
  rw [shaped_iff] at hm ha
  simp only [sameShape, decide_eq_true_eq]
  apply List.ext_getElem?
  intro i
  rw [List.getElem?_map, List.getElem?_map]
  by_cases hi : i < h
  · have h1 : i < m.length := by omega
    have h2 : i < a.length := by omega
    rw [List.getElem?_eq_getElem h1, List.getElem?_eq_getElem h2]
    simp [hm.2 _ (List.getElem_mem h1), ha.2 _ (List.getElem_mem h2)]
  · rw [List.getElem?_eq_none (by omega), List.getElem?_eq_none (by omega)]
    rfl

theorem overlay_at {α : Type} {h w : Nat} (v : UInt8 → α) (m : List (List UInt8)) (a : List (List α)) (hm : shaped h w m = true) (ha : shaped h w a = true) :
    ∃ b, overlay v m a = some b ∧ ∀ y x, at' b y x = (at' m y x).bind fun k => (at' a y x).map fun p => if k = 0 then p else v k := by
  refine ⟨_, by unfold overlay; rw [if_pos (shaped_same hm ha)], ?_⟩
  intro y x
  rw [zip_at]

/-- The picture is a rectangle of this size in every layer it has. -/
theorem shape_layers {h w : Nat} {l : Layers} (hs : l.shapeOk h w = true) :
    (∀ r, l.rgb = some r → shaped h w r = true) ∧ (∀ r, l.alpha = some r → shaped h w r = true) ∧ (∀ r, l.mask = some r → shaped h w r = true) := by
  simp only [Layers.shapeOk, Bool.and_eq_true] at hs
  obtain ⟨⟨h1, h2⟩, h3⟩ := hs
  refine ⟨?_, ?_, ?_⟩
  · intro r hr; rw [hr] at h1; simp only [Bool.and_eq_true] at h1; exact h1.1
  · intro r hr; rw [hr] at h2; exact h2
  · intro r hr; rw [hr] at h3; exact h3

/-! ## Masks -/

/-- **C72** (`WithMask` accepts). Two pictures are combined exactly if they have the same size and the second has a palette layer and no
other. -/
theorem mask_accepted_iff (L : Lib) (D : Disk) (a : Attrs) (s m : Sprite) (mode w h w' h' : Int) (ls lm : Layers)
    (hs : layers L D s = some (w, h, ls)) (hm : layers L D m = some (w', h', lm)) (h1 : ls.shapeOk h.toNat w.toNat = true)
    (h2 : lm.shapeOk h'.toNat w'.toNat = true) :
    (layers L D (.masked a s m mode)).isSome ↔ w = w' ∧ h = h' ∧ lm.rgb = none ∧ lm.alpha = none ∧ lm.mask.isSome := by
  simp only [layers, hs, hm, Option.bind_eq_bind, Option.bind_some]
  unfold addMask
  simp only
  split
  · rename_i hc
    constructor
    · intro h; cases h
    · rintro ⟨rfl, rfl, e1, e2, -⟩
      simp [e1, e2] at hc
  · rename_i hc
    simp only [not_or, Classical.not_not, Bool.not_eq_true, Option.isSome_eq_false_iff, Option.isNone_iff_eq_none] at hc
    obtain ⟨rfl, rfl, e1, e2⟩ := hc
    cases hk : lm.mask with
    | none => simp
    | some k =>
      have sk := (shape_layers h2).2.2 k hk
      obtain ⟨s1, s2, s3⟩ := shape_layers h1
      have e3 : ∃ b, (match ls.mask with | some old => overlay id k old | none => some k) = some b := by
        cases ho : ls.mask with
        | none => exact ⟨_, rfl⟩
        | some old =>
          obtain ⟨b, e, -⟩ := overlay_at id k old sk (s3 old ho)
          exact ⟨b, e⟩
      obtain ⟨b, e3⟩ := e3
      simp only
      refine ⟨fun _ => ⟨trivial, trivial, e1, e2, rfl⟩, fun _ => ?_⟩
      cases ho : ls.mask with
      | none =>
        simp only [Option.bind_some]
        split
        · cases hr : ls.rgb with
          | none =>
            cases ha : ls.alpha with
            | none => rfl
            | some al =>
              obtain ⟨b, e, -⟩ := overlay_at (fun _ => (255 : UInt8)) k al sk (s2 al ha)
              simp [overlayOpt, e]
          | some rg =>
            obtain ⟨b, e, -⟩ := overlay_at (fun _ => ([128, 128, 128] : Bytes)) k rg sk (s1 rg hr)
            cases ha : ls.alpha with
            | none => simp [overlayOpt, e]
            | some al =>
              obtain ⟨b', e', -⟩ := overlay_at (fun _ => (255 : UInt8)) k al sk (s2 al ha)
              simp [overlayOpt, e, e']
        · rfl
      | some old =>
        obtain ⟨b0, e0, -⟩ := overlay_at id k old sk (s3 old ho)
        simp only [e0, Option.bind_some]
        split
        · cases hr : ls.rgb with
          | none =>
            cases ha : ls.alpha with
            | none => rfl
            | some al =>
              obtain ⟨b, e, -⟩ := overlay_at (fun _ => (255 : UInt8)) k al sk (s2 al ha)
              simp [overlayOpt, e]
          | some rg =>
            obtain ⟨b, e, -⟩ := overlay_at (fun _ => ([128, 128, 128] : Bytes)) k rg sk (s1 rg hr)
            cases ha : ls.alpha with
            | none => simp [overlayOpt, e]
            | some al =>
              obtain ⟨b', e', -⟩ := overlay_at (fun _ => (255 : UInt8)) k al sk (s2 al ha)
              simp [overlayOpt, e, e']
        · rfl

/-- The palette index of a pixel, 0 where there is no palette layer. -/
def index (l : Layers) (y x : Nat) : UInt8 := match l.mask with | some k => (at' k y x).getD 0 | none => 0

theorem overlayOpt_at {α : Type} {h w : Nat} (v : UInt8 → α) (m : List (List UInt8)) (a : Option (List (List α))) (b : Option (List (List α)))
    (hm : shaped h w m = true) (ha : ∀ r, a = some r → shaped h w r = true) (e : overlayOpt v m a = some b) :
    b.isSome = a.isSome ∧ ∀ y x, y < h → x < w → b.map (at' · y x) = a.map fun r => if (at' m y x).getD 0 = 0 then at' r y x else some (v ((at' m y x).getD 0)) := by
  cases a with
  | none => cases e; exact ⟨rfl, fun _ _ _ _ => rfl⟩
  | some r =>
    obtain ⟨c, ec, hc⟩ := overlay_at v m r hm (ha r rfl)
    simp only [overlayOpt, ec, Option.map_some, Option.some.injEq] at e
    subst e
    refine ⟨rfl, fun y x hy hx => ?_⟩
    obtain ⟨k, hk⟩ := at_some hm hy hx
    obtain ⟨p, hp⟩ := at_some (ha r rfl) hy hx
    simp only [Option.map_some, Option.some.injEq, hc y x, hk, hp, Option.bind_some, Option.getD_some]
    split <;> rfl

/-- **C72** (`WithMask`, every pixel). The result has the size of both. Where the mask has a colour, the palette index is the mask's, elsewhere
the sprite's own, 0 if it has none. The sprite's other layers stay as they are, except with `OVERDRAW` where the mask has a colour: there
the colour becomes the neutral brightness and the pixel opaque. No layer but the palette one appears or disappears. -/
theorem mask_pixels (L : Lib) (D : Disk) (a : Attrs) (s m : Sprite) (mode w h w' h' W H : Int) (ls lm l : Layers)
    (hs : layers L D s = some (w, h, ls)) (hm : layers L D m = some (w', h', lm)) (h1 : ls.shapeOk h.toNat w.toNat = true)
    (h2 : lm.shapeOk h'.toNat w'.toNat = true) (e : layers L D (.masked a s m mode) = some (W, H, l)) :
    W = w ∧ H = h ∧ l.mask.isSome ∧ l.rgb.isSome = ls.rgb.isSome ∧ l.alpha.isSome = ls.alpha.isSome ∧ ∀ y x, y < h.toNat → x < w.toNat →
      index l y x = (if index lm y x = 0 then index ls y x else index lm y x) ∧
      l.rgb.map (at' · y x) = (ls.rgb.map fun r => if mode = 1 ∧ index lm y x ≠ 0 then some [128, 128, 128] else at' r y x) ∧
      l.alpha.map (at' · y x) = (ls.alpha.map fun r => if mode = 1 ∧ index lm y x ≠ 0 then some 255 else at' r y x) := by
  obtain ⟨rfl, rfl, n1, n2, n3⟩ := (mask_accepted_iff L D a s m mode w h w' h' ls lm hs hm h1 h2).1 (by rw [e]; rfl)
  obtain ⟨k, hk⟩ := Option.isSome_iff_exists.1 n3
  have sk := (shape_layers h2).2.2 k hk
  obtain ⟨s1, s2, s3⟩ := shape_layers h1
  simp only [layers, hs, hm, Option.bind_eq_bind, Option.bind_some] at e
  unfold addMask at e
  simp only at e
  rw [if_neg (by simp [n1, n2])] at e
  simp only [hk] at e
  have hidx : ∀ y x, index lm y x = (at' k y x).getD 0 := fun y x => by simp only [index, hk]
  have main : ∀ mask : List (List UInt8), (match ls.mask with | some old => overlay id k old | none => some k) = some mask →
      ∀ y x, y < h.toNat → x < w.toNat → (at' mask y x).getD 0 = (if index lm y x = 0 then index ls y x else index lm y x) := by
    intro mask hmask y x hy hx
    obtain ⟨v, hv⟩ := at_some sk hy hx
    cases ho : ls.mask with
    | none =>
      rw [ho] at hmask
      cases hmask
      simp only [index, hk, ho, hv, Option.getD_some]
      split
      · assumption
      · rfl
    | some old =>
      rw [ho] at hmask
      obtain ⟨b, eb, hb⟩ := overlay_at id k old sk (s3 old ho)
      simp only [eb, Option.some.injEq] at hmask
      subst hmask
      obtain ⟨o, hold⟩ := at_some (s3 old ho) hy hx
      simp only [index, hk, ho, hv, hold, hb y x, Option.getD_some, Option.bind_some, Option.map_some, id]
  cases hmask : (match ls.mask with | some old => overlay id k old | none => some k) with
  | none =>
    exfalso
    cases ho : ls.mask with
    | none => rw [ho] at hmask; cases hmask
    | some old =>
      rw [ho] at hmask
      obtain ⟨b, eb, -⟩ := overlay_at id k old sk (s3 old ho)
      simp only [eb] at hmask
      cases hmask
  | some mask =>
    have hmain := main mask hmask
    have e' : (if mode = 1 then do
        let rgb ← overlayOpt (fun _ => ([128, 128, 128] : Bytes)) k ls.rgb
        let alpha ← overlayOpt (fun _ => (255 : UInt8)) k ls.alpha
        some (w, h, (⟨rgb, alpha, some mask⟩ : Layers))
      else some (w, h, { ls with mask := some mask })) = some (W, H, l) := by
      rw [← e]
      cases ho : ls.mask with
      | none => rw [ho] at hmask; cases hmask; rfl
      | some old => rw [ho] at hmask; simp only at hmask; simp only [hmask]; rfl
    by_cases hmode : mode = 1
    · rw [if_pos hmode] at e'
      simp only [Option.bind_eq_bind, Option.bind_eq_some_iff, Option.some.injEq, Prod.mk.injEq] at e'
      obtain ⟨rgb, er, alpha, ea, rfl, rfl, rfl⟩ := e'
      obtain ⟨r1, r2⟩ := overlayOpt_at _ k ls.rgb rgb sk s1 er
      obtain ⟨a1, a2⟩ := overlayOpt_at _ k ls.alpha alpha sk s2 ea
      refine ⟨rfl, rfl, rfl, r1, a1, fun y x hy hx => ⟨hmain y x hy hx, ?_, ?_⟩⟩
      · rw [r2 y x hy hx]
        congr 1
        funext r
        rw [hidx]
        by_cases hz : (at' k y x).getD 0 = 0
        · rw [if_pos hz, if_neg (by simp [hz])]
        · rw [if_neg hz, if_pos ⟨hmode, hz⟩]
      · rw [a2 y x hy hx]
        congr 1
        funext r
        rw [hidx]
        by_cases hz : (at' k y x).getD 0 = 0
        · rw [if_pos hz, if_neg (by simp [hz])]
        · rw [if_neg hz, if_pos ⟨hmode, hz⟩]
    · rw [if_neg hmode] at e'
      simp only [Option.some.injEq, Prod.mk.injEq] at e'
      obtain ⟨rfl, rfl, rfl⟩ := e'
      refine ⟨rfl, rfl, rfl, rfl, rfl, fun y x hy hx => ⟨hmain y x hy hx, ?_, ?_⟩⟩
      · simp only [hmode, false_and, if_false]
      · simp only [hmode, false_and, if_false]

/-! ## Colour keys -/

/-- How opaque a pixel is: 255 without an alpha layer. -/
def opacity (l : Layers) (y x : Nat) : UInt8 := match l.alpha with | some a => (at' a y x).getD 255 | none => 255

theorem full_at (h w y x : Nat) (hy : y < h) (hx : x < w) : at' (List.replicate h (List.replicate w (255 : UInt8))) y x = some 255 := by
  simp [at', List.getElem?_replicate, hy, hx]

/-- **C72** (colour key). A picture with colours always passes; its colours and palette stay; a pixel of exactly the key colour becomes
invisible and every other pixel keeps its opacity. Without colours the key is an error. -/
theorem colour_key (key : List Int) (w h : Int) (l : Layers) (hl : l.shapeOk h.toNat w.toNat = true) :
    (l.rgb = none → applyKey key w h l = none) ∧
    ∀ rgb, l.rgb = some rgb → ∃ l', applyKey key w h l = some l' ∧ l'.rgb = l.rgb ∧ l'.mask = l.mask ∧ ∀ y x p, y < h.toNat → x < w.toNat → at' rgb y x = some p →
      opacity l' y x = if p.map (fun b => (b.toNat : Int)) = key then 0 else opacity l y x := by
  refine ⟨fun e => by simp [applyKey, e], fun rgb e => ?_⟩
  obtain ⟨s1, s2, -⟩ := shape_layers hl
  unfold applyKey
  rw [e]
  simp only
  split
  · refine ⟨_, rfl, e.symm ▸ rfl, rfl, fun y x p hy hx hp => ?_⟩
    cases ha : l.alpha with
    | none =>
      simp only [opacity, ha, Option.getD_none, zip_at, hp, full_at _ _ y x hy hx, Option.bind_some, Option.map_some, Option.getD_some]
      simp only [isKey, decide_eq_true_eq]
      rfl
    | some al =>
      obtain ⟨v, hv⟩ := at_some (s2 al ha) hy hx
      simp only [opacity, ha, Option.getD_some, zip_at, hp, hv, Option.bind_some, Option.map_some]
      simp only [isKey, decide_eq_true_eq]
      rfl
  · rename_i hn
    refine ⟨l, rfl, e, rfl, fun y x p hy hx hp => ?_⟩
    rw [if_neg]
    intro hk
    apply hn
    obtain ⟨r, hr, hpr⟩ := at_mem hp
    exact List.any_eq_true.2 ⟨r, hr, List.any_eq_true.2 ⟨p, hpr, by simpa [isKey] using hk⟩⟩

/-! ## Parts of pictures -/

/-- **C72** (the part of a picture a sprite shows). A `FileSprite` gets a picture exactly if its area, the whole picture when the size is left
out, is inside the picture; the area's pixel is the picture's at that place. -/
theorem part_of_picture (L : Lib) (D : Disk) (a : Attrs) (path : List Char) (key : Option (List Int)) (x y : Int) (img : Img)
    (hc : D.content path (D.changed path) = some img) (w h : Int)
    (hsize : (a.w = some w ∧ a.h = some h) ∨ (a.w = none ∧ w = img.w ∧ h = img.h) ∨ (a.h = none ∧ x = 0 ∧ y = 0 ∧ w = img.w ∧ h = img.h)) :
    ((getImage L D (.file a path key x y [])).isSome ↔ 0 ≤ x ∧ 0 ≤ y ∧ x + w ≤ img.w ∧ y + h ≤ img.h) ∧
    ∀ W H out, getImage L D (.file a path key x y []) = some (W, H, out) → W = some w ∧ H = some h ∧ out.bpp = img.bpp ∧ out.palette = img.palette ∧
      ∀ i j : Nat, i < h.toNat → j < w.toNat → at' out.px i j = at' img.px (y.toNat + i) (x.toNat + j) := by
  have harea : area a x y img = some (w, h) := by
    unfold area
    rcases hsize with ⟨e1, e2⟩ | ⟨e1, rfl, rfl⟩ | ⟨e1, rfl, rfl, rfl, rfl⟩
    · rw [if_neg (by simp [e1, e2]), e1, e2]
    · rw [if_pos (.inl e1)]
    · rw [if_pos (.inr ⟨e1, rfl, rfl⟩)]
  simp only [getImage, List.length_nil, ne_eq, not_true_eq_false, if_false, hc, harea, Option.bind_eq_bind, Option.bind_some]
  constructor
  · split
    · rename_i hn
      constructor
      · intro h; cases h
      · intro h; omega
    · rename_i hn
      constructor
      · intro _; omega
      · intro _; rfl
  · intro W H out e
    split at e
    · cases e
    · cases e
      refine ⟨rfl, rfl, rfl, rfl, fun i j hi hj => ?_⟩
      exact window_at _ _ _ _ _ i j hi hj

/-- **C72** (sizes that fail): a height left out without the width, at another place than the corner. -/
theorem part_without_height (L : Lib) (D : Disk) (a : Attrs) (path : List Char) (key : Option (List Int)) (x y w : Int)
    (hw : a.w = some w) (hh : a.h = none) (h0 : x ≠ 0 ∨ y ≠ 0) (kw : List (List Char × JV)) : getImage L D (.file a path key x y kw) = none := by
  unfold getImage
  split
  · rfl
  · cases D.content path (D.changed path) with
    | none => rfl
    | some img =>
      have : area a x y img = none := by
        unfold area
        rw [if_neg (by rw [hw, hh]; simp; omega), hw, hh]
      simp [this]

/-! ## Moved sprites -/

theorem header_moved (compress : Bytes → Bytes) (p : Params) (dx dy : Int) (w h : Nat) (l : Layers) (b b' r : Bytes)
    (e : getRealData compress p w h l = some b) (e' : getRealData compress { p with xofs := p.xofs + dx, yofs := p.yofs + dy } w h l = some b') :
    ∃ rd, readHeader (b ++ r) = some rd ∧ readHeader (b' ++ r) = some { rd with xofs := rd.xofs + dx, yofs := rd.yofs + dy } := by
  unfold getRealData at e e'
  split at e
  · cases e
  rename_i hs
  rw [if_neg hs] at e'
  simp only [Option.bind_eq_bind, Option.bind_eq_some_iff] at e e'
  obtain ⟨c, hc, e⟩ := e
  obtain ⟨c', hc', e'⟩ := e'
  rw [hc] at hc'
  cases hc'
  split at e
  · cases e
  rename_i hn
  rw [if_neg hn] at e'
  simp only [Acts.cat_cons_iff, Acts.cat_nil_iff] at e e'
  obtain ⟨b1, h1, _, ⟨b2, h2, _, ⟨b3, h3, _, ⟨b4, h4, _, ⟨b5, h5, _, ⟨b6, h6, _, ⟨b7, h7, _, rfl, rfl⟩, rfl⟩, rfl⟩, rfl⟩, rfl⟩, rfl⟩, rfl⟩ := e
  obtain ⟨c1, g1, _, ⟨c2, g2, _, ⟨c3, g3, _, ⟨c4, g4, _, ⟨c5, g5, _, ⟨c6, g6, _, ⟨c7, g7, _, rfl, rfl⟩, rfl⟩, rfl⟩, rfl⟩, rfl⟩, rfl⟩, rfl⟩ := e'
  rw [h1] at g1; cases g1
  rw [h2] at g2; cases g2
  rw [h3] at g3; cases g3
  rw [h4] at g4; cases g4
  cases h7; cases g7
  obtain ⟨i1, i2, i3, i4, i5, i6⟩ := infoByte_spec c.layers
  have hi : (infoByte c.layers : Int).toNat / 8 % 2 ≠ 1 := by simp [i2]
  simp only [List.append_assoc, List.nil_append, readHeader, readU_packU h1, readU_packU h2, readU_packU h3, readU_packU h4, readS_packS h5, readS_packS h6,
    readS_packS g5, readS_packS g6, Option.bind_eq_bind, Option.bind_some, if_neg hi, Option.some.injEq, exists_eq_left']
  have k1 : p.xofs + dx + (c.x : Int) = p.xofs + c.x + dx := by omega
  have k2 : p.yofs + dy + (c.y : Int) = p.yofs + c.y + dy := by omega
  rw [k1, k2]

/-- **C72** (`MoveSprite`). The moved sprite is read as the same picture with its offsets changed by what was asked for. -/
theorem moved_picture (L : Lib) (D : Disk) (s : Sprite) (dx dy : Int) (b b' r : Bytes) (hs : s ≠ .empty)
    (e : realData L D s = some b) (e' : realData L D (newMove s dx dy) = some b') :
    ∃ rd, readHeader (b ++ r) = some rd ∧ readHeader (b' ++ r) = some { rd with xofs := rd.xofs + dx, yofs := rd.yofs + dy } := by
  have e1 : (do
      let (w, h, l) ← layers L D s
      if w < 0 ∨ h < 0 then none
      else getRealData L.compress ⟨s.attrs.xofs, s.attrs.yofs, s.attrs.zoom, s.attrs.crop⟩ w.toNat h.toNat l) = some b := by
    cases s <;> first | exact absurd rfl hs | exact e
  simp only [newMove, realData, layers, Sprite.attrs, Option.bind_eq_bind, Option.bind_eq_some_iff, Prod.exists] at e' e1
  obtain ⟨w, h, l, hl, e1⟩ := e1
  obtain ⟨w', h', l', hl', e'⟩ := e'
  rw [hl] at hl'
  cases hl'
  split at e1
  · cases e1
  rename_i hw
  rw [if_neg hw] at e'
  exact header_moved L.compress _ dx dy _ _ l b b' r e1 e'

/-- **C72** (moving twice adds up): the bytes are those of one move. -/
theorem moved_twice (L : Lib) (D : Disk) (s : Sprite) (dx dy dx' dy' : Int) :
    realData L D (newMove (newMove s dx dy) dx' dy') = realData L D (newMove s (dx + dx') (dy + dy')) := by
  simp only [newMove, realData, layers, Sprite.attrs, Int.add_assoc]

/-! ## Quantized and empty sprites -/

/-- **C72** (`QuantizeSprite`). Only sprites with a picture of more than 8 bits can be reduced; what is written are the indices the reduction
gives, after the palette is put right. -/
theorem quantized_exact (L : Lib) (D : Disk) (s : Sprite) (w h : Int) (l : Layers) :
    layers L D (newQuantized s) = some (w, h, l) ↔ ∃ ow oh img, getImage L D s = some (ow, oh, img) ∧ img.bpp ≠ 8 ∧
      w = s.attrs.w.getD (L.quantize img).w ∧ h = s.attrs.h.getD (L.quantize img).h ∧
      l = ⟨none, none, some ((L.fixPalette { L.quantize img with bpp := 8 }).px.map (·.map (·.getD 0 0)))⟩ := by
  simp only [layers, newQuantized, baseLayers, getImage, Sprite.attrs]
  cases e : getImage L D s with
  | none => simp
  | some p =>
    obtain ⟨ow, oh, img⟩ := p
    by_cases h8 : img.bpp = 8
    · simp [h8]
    · simp only [Option.bind_eq_bind, Option.bind_some, if_neg h8, convert, split, ne_eq, not_true_eq_false, if_false]
      constructor
      · intro hh
        simp at hh
        obtain ⟨rfl, rfl, rfl⟩ := hh
        exact ⟨ow, oh, img, rfl, h8, rfl, rfl, rfl⟩
      · rintro ⟨a, b, c, hc, -, rfl, rfl, rfl⟩
        simp only [Option.some.injEq, Prod.mk.injEq] at hc
        obtain ⟨-, -, rfl⟩ := hc
        simp

/-- **C72** (`EmptySprite`). What is written for it is read as a sprite of one pixel, which is the one of its layers and is not visible. -/
theorem empty_exact (L : Lib) (D : Disk) (rest : Bytes) : ∃ b l rd px, realData L D .empty = some b ∧ layers L D .empty = some (1, 1, l) ∧
    readHeader (b ++ rest) = some rd ∧ SpriteData.decodeSprite rd.info 2 rd.rest = some ([[[px]]], rest) ∧ l = ⟨none, none, some [[px]]⟩ ∧
    (∀ y x, ¬ Visible l y x) ∧ rd.xofs = 0 ∧ rd.yofs = 0 ∧ rd.zoom = 0 := by
  refine ⟨_, _, ⟨⟨1, 1, 1, 4⟩, 0, 0, 0, 1 :: 0 :: rest⟩, 0, rfl, rfl, ?_, ?_, rfl, ?_, rfl, rfl, rfl⟩
  · simp [readHeader, readU, readS, takeBytes, leVal, SpriteData.Info.bpp]
  · simp [SpriteData.decodeSprite, SpriteData.decompress, SpriteData.decompressLoop, SpriteData.literalSize, SpriteData.Info.bpp, SpriteData.reshape, SpriteData.rows]
  rintro y x ⟨v, hv, hne⟩
  have h1 := at_mem hv
  obtain ⟨r, hr, hv⟩ := h1
  simp only [List.mem_singleton] at hr
  subst hr
  simp only [List.mem_singleton] at hv
  exact hne hv

/-! ## Examples -/

/-- A mask of two pixels over a picture of two. -/
def over (mode : Int) : Sprite :=
  .masked { w := some 2, h := some 1 } (newImage ⟨24, 2, 1, [[[10, 20, 30], [40, 50, 60]]], []⟩ 0 0 0 true) (newImage (row [0, 5]) 0 0 0 true) mode

example : layers plain ⟨growing, atTime "1.0"⟩ (over 0) = some (2, 1, ⟨some [[[10, 20, 30], [40, 50, 60]]], none, some [[0, 5]]⟩) ∧
    layers plain ⟨growing, atTime "1.0"⟩ (over 1) = some (2, 1, ⟨some [[[10, 20, 30], [128, 128, 128]]], none, some [[0, 5]]⟩) := by decide +kernel

example : applyKey [10, 20, 30] 2 1 ⟨some [[[10, 20, 30], [40, 50, 60]]], none, none⟩ = some ⟨some [[[10, 20, 30], [40, 50, 60]]], some [[0, 255]], none⟩ := by
  decide +kernel

example : ((realData plain ⟨growing, atTime "2.0"⟩ whole).isSome = true) ∧ ((realData plain ⟨growing, atTime "2.0"⟩ (newMove whole 3 (-4))).isSome = true) := by
  decide +kernel

end Grf.Tree
