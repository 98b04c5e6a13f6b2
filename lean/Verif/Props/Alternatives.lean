import Verif.Model.Alternatives
/-!
# C84: alternatives of a sprite
-/
namespace Grf.Alternatives

theorem mem_distinct (l : List Spr) (s : Spr) : s ∈ distinct l ↔ s ∈ l := by
  induction l with
  | nil => exact Iff.rfl
  | cons a r ih =>
    unfold distinct
    by_cases h : a ∈ distinct r
    · rw [if_pos h, ih, List.mem_cons]
      constructor
      · exact Or.inr
      · rintro (rfl | h')
        · exact ih.1 h
        · exact h'
    · rw [if_neg h, List.mem_cons, List.mem_cons, ih]

theorem distinct_length (l : List Spr) : (distinct l).length ≤ l.length ∧ ((distinct l).length = l.length ↔ l.Nodup) := by
  induction l with
  | nil => exact ⟨Nat.le_refl _, by simp [distinct]⟩
  | cons a r ih =>
    unfold distinct
    by_cases h : a ∈ distinct r
    · rw [if_pos h, List.length_cons]
      refine ⟨by omega, ⟨fun e => by omega, fun hn => ?_⟩⟩
      rw [List.nodup_cons] at hn
      exact absurd ((mem_distinct r a).1 h) hn.1
    · rw [if_neg h, List.length_cons, List.length_cons, List.nodup_cons]
      refine ⟨by omega, ⟨fun e => ⟨fun hm => h ((mem_distinct r a).2 hm), ih.2.1 (by omega)⟩, fun hn => by rw [ih.2.2 hn.2]⟩⟩

/-- The wishes a sprite meets: what is not asked for does not matter. -/
def Meets (zoom bpp : Option Nat) (s : Spr) : Prop := (∀ z, zoom = some z → s.zoom = z) ∧ ∀ b, bpp = some b → s.bpp = some b

theorem meets_iff (zoom bpp : Option Nat) (s : Spr) : ((zoom.isNone || zoom == some s.zoom) && (bpp.isNone || bpp == s.bpp)) = true ↔ Meets zoom bpp s := by
  unfold Meets
  rw [Bool.and_eq_true]
  apply and_congr
  · cases zoom with
    | none => simp
    | some z => simp [@eq_comm _ z]
  · cases bpp with
    | none => simp
    | some b => simp [@eq_comm _ (some b)]

/-- **C84.** Alternatives are accepted exactly if no two have the same zoom and depth, and are kept as they are. -/
theorem accepted_iff (l l' : List Spr) : make l = some l' ↔ l' = l ∧ ∀ (i j : Nat) (a b : Spr), l[i]? = some a → l[j]? = some b → a.zoom = b.zoom → a.bpp = b.bpp → i = j := by
  have hnd : l.Nodup ↔ ∀ (i j : Nat) (a b : Spr), l[i]? = some a → l[j]? = some b → a.zoom = b.zoom → a.bpp = b.bpp → i = j := by
    rw [List.Nodup, List.pairwise_iff_getElem]
    constructor
    · intro h i j a b ha hb hz hp
      have e : a = b := by cases a; cases b; simp_all
      subst e
      have hi : i < l.length := (List.getElem?_eq_some_iff.1 ha).1
      have hj : j < l.length := (List.getElem?_eq_some_iff.1 hb).1
      rcases Nat.lt_trichotomy i j with hij | hij | hij
      · exact absurd (by rw [List.getElem?_eq_getElem hi] at ha; rw [List.getElem?_eq_getElem hj] at hb; rw [Option.some.inj ha, Option.some.inj hb]) (h i j hi hj hij)
      · exact hij
      · exact absurd (by rw [List.getElem?_eq_getElem hi] at ha; rw [List.getElem?_eq_getElem hj] at hb; rw [Option.some.inj ha, Option.some.inj hb]) (h j i hj hi hij)
    · intro h i j hi hj hij e
      have := h i j _ _ (List.getElem?_eq_getElem hi) (List.getElem?_eq_getElem hj) (by rw [e]) (by rw [e])
      omega
  unfold make
  rw [← hnd, ← (distinct_length l).2]
  by_cases h : (distinct l).length = l.length
  · simp [h, eq_comm]
  · simp [h]

/-- **C84.** The sprite returned is the first that meets the wishes; none is returned exactly if there is none. -/
theorem get_first (l : List Spr) (zoom bpp : Option Nat) (k : Nat) : getSprite l zoom bpp = some k ↔
    (∃ s, l[k]? = some s ∧ Meets zoom bpp s) ∧ ∀ (j : Nat) (s : Spr), j < k → l[j]? = some s → ¬ Meets zoom bpp s := by
  unfold getSprite
  rw [List.findIdx?_eq_some_iff_getElem]
  constructor
  · rintro ⟨h, h1, h2⟩
    refine ⟨⟨l[k], List.getElem?_eq_getElem h, (meets_iff _ _ _).1 h1⟩, fun j s hj hs hm => ?_⟩
    obtain ⟨hjl, rfl⟩ := List.getElem?_eq_some_iff.1 hs
    exact h2 j hj ((meets_iff _ _ _).2 hm)
  · rintro ⟨⟨s, hs, hm⟩, h2⟩
    obtain ⟨hk, rfl⟩ := List.getElem?_eq_some_iff.1 hs
    refine ⟨hk, (meets_iff _ _ _).2 hm, fun j hj hh => ?_⟩
    exact h2 j _ hj (List.getElem?_eq_getElem (by omega)) ((meets_iff _ _ _).1 hh)

theorem get_none (l : List Spr) (zoom bpp : Option Nat) : getSprite l zoom bpp = none ↔ ∀ s ∈ l, ¬ Meets zoom bpp s := by
  unfold getSprite
  rw [List.findIdx?_eq_none_iff]
  constructor
  · intro h s hs hm
    have := h s hs
    rw [(meets_iff _ _ _).2 hm] at this
    cases this
  · intro h s hs
    rw [Bool.eq_false_iff]
    exact fun hh => h s hs ((meets_iff _ _ _).1 hh)

/-- So every accepted alternative whose depth was given is found by its zoom and depth. -/
theorem each_found (l : List Spr) (h : make l = some l) (k : Nat) (s : Spr) (hs : l[k]? = some s) (b : Nat) (hb : s.bpp = some b) :
    getSprite l (some s.zoom) (some b) = some k := by
  obtain ⟨-, hu⟩ := (accepted_iff l l).1 h
  rw [get_first]
  refine ⟨⟨s, hs, fun z hz => by cases hz; rfl, fun b' hb' => by cases hb'; exact hb⟩, fun j t hj ht hm => ?_⟩
  have := hu j k t s ht hs (hm.1 _ rfl) (by rw [hm.2 _ rfl, hb])
  omega

/-- The boundary: one whose depth was left open cannot be asked for by depth, whatever depth its picture has. -/
theorem open_depth_hidden (s : Spr) (hs : s.bpp = none) (zoom : Option Nat) (b : Nat) : getSprite [s] zoom (some b) = none := by
  rw [get_none]
  intro t ht hm
  rw [List.mem_singleton] at ht
  subst ht
  have := hm.2 b rfl
  rw [hs] at this
  cases this

/-- Three zooms, one of them in two depths. -/
example : make [⟨0, some 8⟩, ⟨0, some 32⟩, ⟨1, some 8⟩] = some [⟨0, some 8⟩, ⟨0, some 32⟩, ⟨1, some 8⟩] ∧
    getSprite [⟨0, some 8⟩, ⟨0, some 32⟩, ⟨1, some 8⟩] (some 1) none = some 2 ∧ make [⟨0, none⟩, ⟨0, none⟩] = none := by decide +kernel

end Grf.Alternatives
