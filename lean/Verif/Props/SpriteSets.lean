import Verif.Props.RefsOrder
import Verif.Spec.SpriteSets
/-!
# C68: which sprite sets the layouts of the resolved file draw from
-/
namespace Grf
open _root_.Spec

section
variable {W : World} {sp : List Nat} {R : RState} {res : Resolved} {log : List (Nat × Nat)}
  {segs : List (Nat × List (Nat × Nat))} {D : DState}

/-- Everything at the place of an added action is an action. -/
theorem FinalG.blk_action (F : FinalG W sp R res log segs D) {s x : Nat} (hs : IsAction W s) (hx : x ∈ blk W log s) : IsAction W x := by
  unfold blk at hx
  split at hx
  · rw [mem_names_filter] at hx
    exact F.action (List.mem_map.2 ⟨_, hx, rfl⟩)
  · rw [List.mem_singleton] at hx; exact hx ▸ hs

theorem blk_plain {s : Nat} (h : ¬ IsAction W s) : blk W log s = [s] := by
  unfold blk
  rw [if_neg (fun h2 => h (.inl h2))]

/-- What the items before an added action announce is announced by what the file has at their place. -/
theorem FinalG.setIs (F : FinalG W sp R res log segs D) {kind : Nat → Kind} (hk : ∀ x, kind x ≠ .other → ¬ IsAction W x)
    {before extra : List Nat} {f i : Nat} {s : List Nat} (hex : ∀ x ∈ extra, IsAction W x) (h : SetIs kind before f i s) :
    SetIs kind (before.flatMap (blk W log) ++ extra) f i s := by
  obtain ⟨l1, x, reals, l2, first, count, size, e, hx, h1, h2, hl, hr, hn, es⟩ := h
  have noact : ∀ y, IsAction W y → ¬ Announces kind f i y := by
    rintro y hy ⟨_, _, _, h, -⟩
    exact hk y (by rw [h]; simp) hy
  have hreals : reals.flatMap (blk W log) = reals := by
    clear hl es e
    induction reals with
    | nil => rfl
    | cons r l ih =>
      rw [List.flatMap_cons, ih (fun r hr' => hr r (List.mem_cons_of_mem _ hr')),
        blk_plain (hk r (by rw [hr r List.mem_cons_self]; simp))]
      rfl
  refine ⟨l1.flatMap (blk W log), x, reals, l2.flatMap (blk W log) ++ extra, first, count, size, ?_, hx, h1, h2, hl, hr, ?_, es⟩
  · rw [e, List.flatMap_append, List.flatMap_cons, List.flatMap_append, hreals, blk_plain (hk x (by rw [hx]; simp))]
    simp
  · intro y hy
    rcases List.mem_append.1 hy with hy | hy
    · obtain ⟨z, hz, hyz⟩ := List.mem_flatMap.1 hy
      by_cases hz' : IsAction W z
      · exact noact y (F.blk_action hz' hyz)
      · rw [blk_plain hz', List.mem_singleton] at hyz
        rw [hyz]; exact hn z hz
    · exact noact y (hex y hy)

/-- An action emitted at the place of `p` sees the sets announced before `p`. -/
theorem FinalG.draws (F : FinalG W sp R res log segs D) {kind : Nat → Kind} (hk : ∀ x, kind x ≠ .other → ¬ IsAction W x)
    {u p : Nat} (hp : IsAction W p) (hu : u ∈ blk W log p) (hone : res.out.count u = 1) {f i : Nat} {s : List Nat}
    (h : Draws kind sp p f i s) : Draws kind res.out u f i s := by
  obtain ⟨before, after, e, hnp, hs⟩ := h
  obtain ⟨b1, b2, eb⟩ := List.append_of_mem hu
  have eo : res.out = (before.flatMap (blk W log) ++ b1) ++ u :: (b2 ++ after.flatMap (blk W log)) := by
    rw [F.outEq, e, List.flatMap_append, List.flatMap_cons, eb]; simp
  refine ⟨before.flatMap (blk W log) ++ b1, b2 ++ after.flatMap (blk W log), eo, ?_, F.setIs hk ?_ hs⟩
  · intro hm
    rw [eo, List.count_append, List.count_cons, if_pos (by simp)] at hone
    have := List.count_pos_iff.2 hm
    omega
  · intro x hx
    exact F.blk_action hp (by rw [eb]; simp [hx])

end

/-- **C68** An action the user added himself gets the sprites of the last sets announced before the place where he added it: whatever
actions resolution inserts, in between or elsewhere. -/
theorem added_action_draws (W : World) (limit : Nat) (sprites : List Nat) (res : Resolved) (hac : Acyclic W)
    (h : resolveRefs W limit sprites = some res) (kind : Nat → Kind) (hk : ∀ x, kind x ≠ .other → ¬ IsAction W x)
    (u feature i : Nat) (hu : IsAction W u) (hout : u ∈ res.out) (s : List Nat) (hd : Draws kind sprites u feature i s) :
    Draws kind res.out u feature i s := by
  obtain ⟨R, log, segs, D, F⟩ := finalG hac h
  have hsp : u ∈ sprites := by obtain ⟨a, b, e, -⟩ := hd; rw [e]; simp
  have hin : u ∈ blk W log u := by
    rw [F.outEq, List.mem_flatMap] at hout
    obtain ⟨q, hq, hm⟩ := hout
    have := (F.mem_blk u q hq).1 hm
    by_cases hr : (W q).referencing = true
    · rw [if_pos hr] at this
      have e := (F.inv.core.own _ this).2.2.2 hsp
      simp only at e
      rw [e] at hm; exact hm
    · rw [if_neg hr] at this
      rw [← this] at hm; exact hm
  refine F.draws hk hu hin ?_ hd
  have := (emitted_exactly W limit sprites res hac h).1 u hu
  have hpos := List.count_pos_iff.2 hout
  by_cases hc : (∃ r, Unreferenced W sprites r ∧ Needs W r u) ∨ (u ∈ sprites ∧ (W u).referencing = false)
  · exact this.1 hc
  · rw [this.2 hc] at hpos; omega

/-- **C68** An action that was not added gets the sprites of the last sets announced before its first user. -/
theorem unadded_action_draws (W : World) (limit : Nat) (sprites : List Nat) (res : Resolved) (hac : Acyclic W)
    (hbu : AddedFirst W sprites) (hfu : SharedFirst W sprites)
    (h : resolveRefs W limit sprites = some res) (kind : Nat → Kind) (hk : ∀ x, kind x ≠ .other → ¬ IsAction W x)
    (u p feature i : Nat) (hp : UserOf W sprites u p) (hfirst : ∀ q, UserOf W sprites u q → q = p ∨ Before sprites p q)
    (s : List Nat) (hd : Draws kind sprites p feature i s) : Draws kind res.out u feature i s := by
  obtain ⟨R, log, segs, D, F⟩ := finalG hac h
  have hku : Kept W sprites u := kept_needs hp.2.1 hp.2.2.2.needs
  obtain ⟨P, hP⟩ := F.ownerOf hku
  have hown := F.inv.core.own _ hP
  simp only at hown
  have hPu : UserOf W sprites u P := ⟨hown.1, F.ownerKept hP, hp.2.2.1, hown.2.1⟩
  have e : P = p := by
    rcases hfirst P hPu with e | h1
    · exact e
    · rcases F.firstOwner hbu hfu hP hp with e | h2
      · exact e
      · exact absurd h1 h2.asymm
  subst e
  exact F.draws hk (F.ownerAction hP) (F.inBlk hP).1 (F.emitted ((F.all u).2 hku)) hd

/-- **C68** An action with one user only needs no condition on the order. -/
theorem own_action_draws (W : World) (limit : Nat) (sprites : List Nat) (res : Resolved) (hac : Acyclic W)
    (h : resolveRefs W limit sprites = some res) (kind : Nat → Kind) (hk : ∀ x, kind x ≠ .other → ¬ IsAction W x)
    (u p feature i : Nat) (hp : UserOf W sprites u p) (honly : ∀ q, UserOf W sprites u q → q = p)
    (s : List Nat) (hd : Draws kind sprites p feature i s) : Draws kind res.out u feature i s := by
  obtain ⟨R, log, segs, D, F⟩ := finalG hac h
  have hku : Kept W sprites u := kept_needs hp.2.1 hp.2.2.2.needs
  obtain ⟨P, hP⟩ := F.ownerOf hku
  have hown := F.inv.core.own _ hP
  simp only at hown
  have e : P = p := honly P ⟨hown.1, F.ownerKept hP, hp.2.2.1, hown.2.1⟩
  subst e
  exact F.draws hk (F.ownerAction hP) (F.inBlk hP).1 (F.emitted ((F.all u).2 hku)) hd

end Grf
