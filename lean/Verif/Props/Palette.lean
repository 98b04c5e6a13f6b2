import Verif.Model.Palette
import Verif.Props.Vox
/-!
# C76: pictures with other palettes; C77: pictures for looking at
-/
namespace Grf.Palette

/-! ## The palette of the game -/

theorem game_length : game.length = 256 := by decide +kernel

theorem game_nodup : game.Nodup := by decide +kernel

theorem game_inj {i j : Nat} {c : Rgb} (hi : game[i]? = some c) (hj : game[j]? = some c) : i = j := by
  obtain ⟨h1, h2⟩ := List.getElem?_eq_some_iff.1 hi
  obtain ⟨h3, h4⟩ := List.getElem?_eq_some_iff.1 hj
  exact (List.getElem_inj game_nodup).1 (h2.trans h4.symm)

theorem lookup_iff (c : Rgb) (i : Nat) : lookup c = some i ↔ game[i]? = some c := by
  have key : ∀ n, ∀ r : Option Nat, (List.range n).foldl (fun r i => if game[i]? = some c then some i else r) none = r →
      (∀ i, r = some i → game[i]? = some c) ∧ (r = none → ∀ i, i < n → game[i]? ≠ some c) := by
    intro n
    induction n with
    | zero => rintro r rfl; simp
    | succ n ih =>
      rintro r rfl
      rw [List.range_succ, List.foldl_append, List.foldl_cons, List.foldl_nil]
      obtain ⟨a, b⟩ := ih _ rfl
      split
      · rename_i h
        refine ⟨?_, by simp⟩
        rintro i hi
        obtain rfl := Option.some.inj hi
        exact h
      · rename_i h
        refine ⟨a, ?_⟩
        intro hn i hi
        by_cases e : i = n
        · rw [e]; exact h
        · exact b hn i (by omega)
  obtain ⟨a, b⟩ := key 256 (lookup c) rfl
  constructor
  · exact a i
  · intro h
    cases hl : lookup c with
    | none =>
      have hlt := (List.getElem?_eq_some_iff.1 h).1
      rw [game_length] at hlt
      exact absurd h (b hl i hlt)
    | some j => rw [game_inj (a j hl) h]

/-! ## The nearest colour -/

theorem argmin_iff (l : List Int) (k : Nat) : argmin l = some k ↔
    ∃ v, l[k]? = some v ∧ ∀ j w, l[j]? = some w → v ≤ w ∧ (j < k → v < w) := by
  have key : ∀ (l pre : List Int) (k : Nat) (v : Int), pre[k]? = some v → (∀ j w, pre[j]? = some w → v ≤ w ∧ (j < k → v < w)) →
      ∃ k' v', l.foldl (fun (r : Nat × Int × Nat) x => if x < r.2.1 then (r.2.2, x, r.2.2 + 1) else (r.1, r.2.1, r.2.2 + 1)) (k, v, pre.length) =
        (k', v', (pre ++ l).length) ∧ (pre ++ l)[k']? = some v' ∧ ∀ j w, (pre ++ l)[j]? = some w → v' ≤ w ∧ (j < k' → v' < w) := by
    intro l
    induction l with
    | nil => intro pre k v h1 h2; exact ⟨k, v, by simp, by simpa using h1, by simpa using h2⟩
    | cons x l ih =>
      intro pre k v h1 h2
      have hk := (List.getElem?_eq_some_iff.1 h1).1
      rw [List.foldl_cons]
      simp only
      have e : pre ++ x :: l = (pre ++ [x]) ++ l := by simp
      have el : pre.length + 1 = (pre ++ [x]).length := by simp
      have at_ : ∀ j w, (pre ++ [x])[j]? = some w → pre[j]? = some w ∨ (j = pre.length ∧ w = x) := by
        intro j w h
        by_cases hj : j < pre.length
        · rw [List.getElem?_append_left hj] at h; exact Or.inl h
        · rw [List.getElem?_append_right (by omega)] at h
          have := (List.getElem?_eq_some_iff.1 h).1
          simp at this
          have hj' : j = pre.length := by omega
          subst hj'
          simp at h
          exact Or.inr ⟨rfl, h.symm⟩
      split
      · rename_i hx
        rw [e, el]
        apply ih
        · simp
        · intro j w h
          rcases at_ j w h with h | ⟨rfl, rfl⟩
          · have := h2 j w h
            exact ⟨by omega, fun _ => by omega⟩
          · exact ⟨by omega, fun h => absurd h (Nat.lt_irrefl _)⟩
      · rename_i hx
        rw [e, el]
        apply ih
        · rw [List.getElem?_append_left hk]; exact h1
        · intro j w h
          rcases at_ j w h with h | ⟨rfl, rfl⟩
          · exact h2 j w h
          · exact ⟨by omega, fun h => by omega⟩
  have uniq : ∀ (k k' : Nat) (v v' : Int), l[k]? = some v → l[k']? = some v' → (∀ (j : Nat) (w : Int), l[j]? = some w → v ≤ w ∧ (j < k → v < w)) →
      (∀ (j : Nat) (w : Int), l[j]? = some w → v' ≤ w ∧ (j < k' → v' < w)) → k = k' := by
    intro k k' v v' h1 h2 h3 h4
    have a := h3 k' v' h2
    have b := h4 k v h1
    rcases Nat.lt_trichotomy k k' with h | h | h
    · have := b.2 h; omega
    · exact h
    · have := a.2 h; omega
  cases l with
  | nil => simp [argmin]
  | cons a l =>
    obtain ⟨k', v', h1, h2, h3⟩ := key l [a] 0 a rfl (by
      intro j w h
      cases j with
      | zero => simp at h; subst h; exact ⟨Int.le_refl _, by simp⟩
      | succ j => simp at h)
    have h1' : l.foldl (fun (r : Nat × Int × Nat) x => if x < r.2.1 then (r.2.2, x, r.2.2 + 1) else (r.1, r.2.1, r.2.2 + 1)) (0, a, 1) = _ := h1
    simp only [argmin]
    rw [h1']
    constructor
    · intro h
      obtain rfl := Option.some.inj h
      exact ⟨v', h2, h3⟩
    · rintro ⟨v, g1, g2⟩
      rw [uniq k' k v' v h2 g1 h3 g2]

/-- **C76** (the nearest colour). The colour chosen from a range is the nearest there, the first of the range if several are equally near; there is one unless the range is empty. -/
theorem best_exact (dist : Nat → Int) (range : List Nat) : (best dist range = none ↔ range = []) ∧
    ∀ c, best dist range = some c ↔ ∃ a b, range = a ++ c :: b ∧ (∀ x ∈ a, dist c < dist x) ∧ ∀ x ∈ b, dist c ≤ dist x := by
  have ne : range ≠ [] → ∃ k, argmin (range.map dist) = some k := by
    intro h
    cases range with
    | nil => exact absurd rfl h
    | cons a l => exact ⟨_, rfl⟩
  have atm : ∀ (k : Nat) (v : Int), (range.map dist)[k]? = some v → ∃ c, range[k]? = some c ∧ dist c = v := by
    intro k v h
    rw [List.getElem?_map] at h
    cases hc : range[k]? with
    | none => rw [hc] at h; cases h
    | some c => rw [hc] at h; exact ⟨c, rfl, Option.some.inj h⟩
  constructor
  · constructor
    · intro h
      apply Classical.byContradiction
      intro hn
      obtain ⟨k, hk⟩ := ne hn
      obtain ⟨v, hv, _⟩ := (argmin_iff _ _).1 hk
      obtain ⟨c, hc, _⟩ := atm k v hv
      simp [best, hk, hc] at h
    · rintro rfl; rfl
  · intro c
    constructor
    · intro h
      cases hk : argmin (range.map dist) with
      | none => simp [best, hk] at h
      | some k =>
        simp [best, hk] at h
        obtain ⟨v, hv, hm⟩ := (argmin_iff _ _).1 hk
        obtain ⟨c', hc', hd⟩ := atm k v hv
        rw [h] at hc'
        obtain rfl := Option.some.inj hc'
        obtain ⟨hlt, hget⟩ := List.getElem?_eq_some_iff.1 h
        refine ⟨range.take k, range.drop (k + 1), ?_, ?_, ?_⟩
        · rw [← hget, ← List.drop_eq_getElem_cons hlt, List.take_append_drop]
        · intro x hx
          obtain ⟨j, hj, e⟩ := List.mem_take_iff_getElem.1 hx
          have := hm j (dist x) (by rw [List.getElem?_map, List.getElem?_eq_getElem (by omega), e]; rfl)
          rw [hd]; exact this.2 (by omega)
        · intro x hx
          obtain ⟨j, hj, e⟩ := List.mem_drop_iff_getElem.1 hx
          have := hm (k + 1 + j) (dist x) (by
            rw [List.getElem?_map, List.getElem?_eq_getElem (by omega)]
            simp only [Option.map_some]
            rw [show range[k + 1 + j] = x from e])
          rw [hd]; exact this.1
    · rintro ⟨a, b, rfl, h1, h2⟩
      have : argmin ((a ++ c :: b).map dist) = some a.length := by
        rw [argmin_iff]
        refine ⟨dist c, by simp, ?_⟩
        intro j w hj
        rw [List.getElem?_map] at hj
        cases hx : (a ++ c :: b)[j]? with
        | none => rw [hx] at hj; cases hj
        | some x =>
          rw [hx] at hj
          obtain rfl := Option.some.inj hj
          by_cases hja : j < a.length
          · rw [List.getElem?_append_left hja] at hx
            have := h1 x (List.mem_of_getElem? hx)
            exact ⟨by omega, fun _ => this⟩
          · refine ⟨?_, fun h => absurd h hja⟩
            rw [List.getElem?_append_right (by omega)] at hx
            rcases List.mem_cons.1 (List.mem_of_getElem? hx) with rfl | hm
            · exact Int.le_refl _
            · exact h2 x hm
      rw [best, this]
      simp

/-! ## Fixing palettes -/

theorem colours_flat (p : List Rgb) : colours (flat p) = p := by
  induction p with
  | nil => rfl
  | cons c p ih =>
    have : flat (c :: p) = c.1 :: c.2.1 :: c.2.2 :: flat p := rfl
    rw [this, colours, ih]

/-- What a pixel should become. -/
def Becomes (nearest : Rgb → Nat) (pal : List Nat) (v v' : Nat) : Prop :=
  match (colours pal)[v]? with
  | none => v' = v
  | some c => game[v']? = some c ∨ (c ∉ game ∧ v' = nearest c)

theorem remap_at (nearest : Rgb → Nat) (pal : List Nat) (m : List Nat) (h : makeRemap nearest pal = some m) (v v' : Nat) (hv : v < 256) :
    m[v]? = some v' ↔ Becomes nearest pal v v' := by
  unfold makeRemap at h
  simp only at h
  split at h
  · rename_i hl
    obtain rfl := Option.some.inj h
    unfold Becomes
    by_cases hc : v < (colours pal).length
    · rw [List.getElem?_append_left (by simpa using hc), List.getElem?_map, List.getElem?_eq_getElem hc]
      simp only [Option.map_some, Option.some.injEq]
      generalize (colours pal)[v] = c
      cases hg : lookup c with
      | none =>
        have hn : c ∉ game := by
          intro hm
          obtain ⟨i, hi, e⟩ := List.mem_iff_getElem.1 hm
          have := (lookup_iff c i).2 (by rw [List.getElem?_eq_getElem hi, e])
          rw [hg] at this; cases this
        simp only [Option.getD_none]
        constructor
        · rintro rfl; exact Or.inr ⟨hn, rfl⟩
        · rintro (h | h)
          · exact absurd (List.mem_of_getElem? h) hn
          · exact h.2.symm
      | some i =>
        have hi := (lookup_iff c i).1 hg
        simp only [Option.getD_some]
        constructor
        · rintro rfl; exact Or.inl hi
        · rintro (h | h)
          · exact game_inj hi h
          · exact absurd (List.mem_of_getElem? hi) h.1
    · rw [List.getElem?_append_right (by simp; omega), List.length_map, List.getElem?_drop,
        show (colours pal).length + (v - (colours pal).length) = v by omega, List.getElem?_range hv, List.getElem?_eq_none (show (colours pal).length ≤ v by omega)]
      simp only [Option.some.injEq]
      exact eq_comm
  · cases h

theorem remap_length (nearest : Rgb → Nat) (pal : List Nat) (m : List Nat) (h : makeRemap nearest pal = some m) : m.length = 256 := by
  unfold makeRemap at h
  simp only at h
  split at h
  · obtain rfl := Option.some.inj h
    simp
    omega
  · cases h

/-- Two pictures of the same shape with pixels that correspond. -/
def Pixelwise (R : Nat → Nat → Prop) (a b : List (List Nat)) : Prop :=
  a.length = b.length ∧ ∀ (y : Nat) (r s : List Nat), a[y]? = some r → b[y]? = some s →
    r.length = s.length ∧ ∀ (x : Nat) (v w : Nat), r[x]? = some v → s[x]? = some w → R v w

theorem mapM_row (m : List Nat) : ∀ (r s : List Nat), r.mapM (fun v => m[v]?) = some s ↔
    r.length = s.length ∧ ∀ (x v w : Nat), r[x]? = some v → s[x]? = some w → m[v]? = some w := by
  intro r
  induction r with
  | nil =>
    intro s
    cases s with
    | nil => simp
    | cons a s => simp
  | cons a r ih =>
    intro s
    rw [List.mapM_cons]
    simp only [Option.bind_eq_bind, Option.pure_def]
    cases s with
    | nil =>
      constructor
      · intro h
        cases ha : m[a]? with
        | none => rw [ha] at h; cases h
        | some b =>
          rw [ha] at h
          simp only [Option.bind_some] at h
          cases hr : r.mapM (fun v => m[v]?) with
          | none => rw [hr] at h; cases h
          | some t => rw [hr] at h; simp at h
      · rintro ⟨h, _⟩; simp at h
    | cons b s =>
      constructor
      · intro h
        cases ha : m[a]? with
        | none => rw [ha] at h; cases h
        | some b' =>
          rw [ha] at h
          simp only [Option.bind_some] at h
          cases hr : r.mapM (fun v => m[v]?) with
          | none => rw [hr] at h; cases h
          | some t =>
            rw [hr] at h
            simp only [Option.bind_some, Option.some.injEq, List.cons.injEq] at h
            obtain ⟨rfl, rfl⟩ := h
            obtain ⟨h1, h2⟩ := (ih t).1 hr
            refine ⟨by simp [h1], ?_⟩
            intro x v w hv hw
            cases x with
            | zero => simp at hv hw; rw [← hv, ← hw]; exact ha
            | succ x => simp at hv hw; exact h2 x v w hv hw
      · rintro ⟨h1, h2⟩
        have ha := h2 0 a b rfl rfl
        have hr := (ih s).2 ⟨by simpa using h1, fun x v w hv hw => h2 (x + 1) v w (by simpa using hv) (by simpa using hw)⟩
        rw [ha, Option.bind_some, hr, Option.bind_some]

theorem recolour_iff (m : List Nat) : ∀ (a b : List (List Nat)), recolour m a = some b ↔ Pixelwise (fun v w => m[v]? = some w) a b := by
  unfold recolour Pixelwise
  intro a
  induction a with
  | nil =>
    intro b
    cases b with
    | nil => simp
    | cons x b => simp
  | cons r a ih =>
    intro b
    rw [List.mapM_cons]
    simp only [Option.bind_eq_bind, Option.pure_def]
    cases b with
    | nil =>
      constructor
      · intro h
        cases ha : r.mapM (fun v => m[v]?) with
        | none => rw [ha] at h; cases h
        | some b =>
          rw [ha] at h
          simp only [Option.bind_some] at h
          cases hr : a.mapM (fun (r : List Nat) => r.mapM fun v => m[v]?) with
          | none => rw [hr] at h; cases h
          | some t => rw [hr] at h; simp at h
      · rintro ⟨h, _⟩; simp at h
    | cons s b =>
      constructor
      · intro h
        cases ha : r.mapM (fun v => m[v]?) with
        | none => rw [ha] at h; cases h
        | some b' =>
          rw [ha] at h
          simp only [Option.bind_some] at h
          cases hr : a.mapM (fun (r : List Nat) => r.mapM fun v => m[v]?) with
          | none => rw [hr] at h; cases h
          | some t =>
            rw [hr] at h
            simp only [Option.bind_some, Option.some.injEq, List.cons.injEq] at h
            obtain ⟨rfl, rfl⟩ := h
            obtain ⟨h1, h2⟩ := (ih t).1 hr
            refine ⟨by simp [h1], ?_⟩
            intro y r' s' hr' hs'
            cases y with
            | zero => simp at hr' hs'; rw [← hr', ← hs']; exact (mapM_row m _ _).1 ha
            | succ y => simp at hr' hs'; exact h2 y r' s' hr' hs'
      · rintro ⟨h1, h2⟩
        have ha := (mapM_row m r s).2 (h2 0 r s rfl rfl)
        have hr := (ih b).2 ⟨by simpa using h1, fun y r s hr hs => h2 (y + 1) r s (by simpa using hr) (by simpa using hs)⟩
        rw [ha, Option.bind_some, hr, Option.bind_some]

/-- A cache that was filled from palettes with different hashes. -/
def Sound (nearest : Rgb → Nat) (hash : List Nat → Int) (pals : List (List Nat)) (cache : List (Int × List Nat)) : Prop :=
  ∀ p ∈ pals, ∀ m, cache.lookup (hash p) = some m → makeRemap nearest p = some m

/-- What `fix` gives without a cache. -/
def fresh (nearest : Rgb → Nat) (p : Pic) : Option Pic :=
  if p.pal = flat game then some p else ((makeRemap nearest p.pal).bind fun m => recolour m p.px).map fun px => ⟨flat game, px⟩

theorem fix_sound (nearest : Rgb → Nat) (hash : List Nat → Int) (pals : List (List Nat)) (inj : ∀ p ∈ pals, ∀ q ∈ pals, hash p = hash q → p = q)
    (cache : List (Int × List Nat)) (p : Pic) (hp : p.pal ∈ pals) (hs : Sound nearest hash pals cache) :
    (fix nearest hash cache p).map Prod.fst = fresh nearest p ∧ ∀ q c, fix nearest hash cache p = some (q, c) → Sound nearest hash pals c := by
  unfold fix fresh
  by_cases hg : p.pal = flat game
  · rw [if_pos hg, if_pos hg]
    exact ⟨rfl, by rintro q c h; obtain ⟨rfl, rfl⟩ := Prod.mk.inj (Option.some.inj h); exact hs⟩
  · rw [if_neg hg, if_neg hg]
    cases hl : cache.lookup (hash p.pal) with
    | some m =>
      have hm := hs p.pal hp m hl
      simp only [hm, Option.bind_some, Option.map_map]
      constructor
      · cases recolour m p.px <;> rfl
      · intro q c h
        cases hr : recolour m p.px with
        | none => rw [hr] at h; cases h
        | some px => rw [hr] at h; obtain ⟨rfl, rfl⟩ := Prod.mk.inj (Option.some.inj h); exact hs
    | none =>
      cases hm : makeRemap nearest p.pal with
      | none => exact ⟨rfl, by intro q c h; cases h⟩
      | some m =>
        simp only [Option.bind_some, Option.map_map]
        constructor
        · cases recolour m p.px <;> rfl
        · intro q c h
          cases hr : recolour m p.px with
          | none => rw [hr] at h; cases h
          | some px =>
            rw [hr] at h
            obtain ⟨rfl, rfl⟩ := Prod.mk.inj (Option.some.inj h)
            intro p' hp' m' hm'
            by_cases e : hash p' = hash p.pal
            · have := inj p' hp' p.pal hp e
              subst this
              simp [List.lookup] at hm'
              rw [← hm']; exact hm
            · have : (hash p' == hash p.pal) = false := by simpa using e
              simp only [List.lookup, this] at hm'
              exact hs p' hp' m' hm'

/-- **C76** (the cache of remaps). Pictures converted one after the other come out as if each were the only one, as long as no two of their palettes have the same hash. -/
theorem remap_cache_invisible (nearest : Rgb → Nat) (hash : List Nat → Int) (ps : List Pic)
    (inj : ∀ p ∈ ps, ∀ q ∈ ps, hash p.pal = hash q.pal → p.pal = q.pal) : fixAll nearest hash [] ps = ps.mapM (fresh nearest) := by
  have key : ∀ (l : List Pic) (cache : List (Int × List Nat)), (∀ p ∈ l, p ∈ ps) → Sound nearest hash (ps.map Pic.pal) cache →
      fixAll nearest hash cache l = l.mapM (fresh nearest) := by
    intro l
    induction l with
    | nil => intro cache _ _; rfl
    | cons p l ih =>
      intro cache hm hs
      obtain ⟨h1, h2⟩ := fix_sound nearest hash (ps.map Pic.pal) (by
        intro a ha b hb e
        obtain ⟨a', ha', rfl⟩ := List.mem_map.1 ha
        obtain ⟨b', hb', rfl⟩ := List.mem_map.1 hb
        exact inj a' ha' b' hb' e) cache p (List.mem_map_of_mem (hm p (by simp))) hs
      rw [List.mapM_cons, ← h1]
      simp only [fixAll]
      cases hf : fix nearest hash cache p with
      | none => rfl
      | some qc =>
        obtain ⟨q, c⟩ := qc
        have := ih c (fun p hp => hm p (by simp [hp])) (h2 q c hf)
        simp only [Option.bind_eq_bind, Option.bind_some, Option.map_some, Option.pure_def, this]
  exact key ps [] (fun _ h => h) (by intro p _ m h; cases h)

/-- **C76** (a fault). Two palettes with the same hash are converted alike: the second picture comes out in the colours of the first. -/
theorem hash_collision (hash : List Nat → Int) (h : hash [16, 16, 16] = hash [32, 32, 32]) (nearest : Rgb → Nat) :
    fixAll nearest hash [] [⟨[16, 16, 16], [[0]]⟩, ⟨[32, 32, 32], [[0]]⟩] = some [⟨flat game, [[1]]⟩, ⟨flat game, [[1]]⟩] ∧
    game[1]? = some (16, 16, 16) := by
  have l1 : lookup (16, 16, 16) = some 1 := (lookup_iff _ _).2 (by decide +kernel)
  have n1 : ([16, 16, 16] : List Nat) ≠ flat game := by decide +kernel
  have n2 : ([32, 32, 32] : List Nat) ≠ flat game := by decide +kernel
  refine ⟨?_, by decide +kernel⟩
  simp [fixAll, fix, n1, n2, makeRemap, colours, l1, recolour, h, List.lookup]

/-- **C76** (converting). A picture with at most 256 colours comes out with the palette of the game and pixel by pixel in the same colours, wherever these are colours of the game, and otherwise in the colour
chosen as the nearest; indices without colour stay. -/
theorem colours_kept (nearest : Rgb → Nat) (p : Pic) (hb : ∀ r ∈ p.px, ∀ v ∈ r, v < 256) :
    (fresh nearest p = none ↔ 256 < (colours p.pal).length) ∧
    ∀ q, fresh nearest p = some q → q.pal = flat game ∧ Pixelwise (Becomes nearest p.pal) p.px q.px := by
  unfold fresh
  by_cases hg : p.pal = flat game
  · rw [if_pos hg]
    refine ⟨?_, ?_⟩
    · rw [hg, colours_flat, game_length]; simp
    · intro q h
      obtain rfl := Option.some.inj h
      refine ⟨hg, rfl, ?_⟩
      intro y r s hr hs
      rw [hr] at hs
      obtain rfl := Option.some.inj hs
      refine ⟨rfl, ?_⟩
      intro x v w hv hw
      rw [hv] at hw
      obtain rfl := Option.some.inj hw
      unfold Becomes
      rw [hg, colours_flat]
      split
      · rfl
      · exact Or.inl (by assumption)
  · rw [if_neg hg]
    cases hm : makeRemap nearest p.pal with
    | none =>
      refine ⟨?_, by intro q h; cases h⟩
      simp only [Option.bind_none, Option.map_none, true_iff]
      unfold makeRemap at hm
      simp only at hm
      split at hm
      · cases hm
      · omega
    | some m =>
      have hl := remap_length nearest p.pal m hm
      have hle : (colours p.pal).length ≤ 256 := by
        unfold makeRemap at hm
        simp only at hm
        split at hm
        · assumption
        · cases hm
      have hsome : ∃ px, recolour m p.px = some px := by
        refine ⟨p.px.map fun r => r.map fun v => m.getD v 0, ?_⟩
        rw [recolour_iff]
        refine ⟨by simp, ?_⟩
        intro y r s hr hs
        rw [List.getElem?_map, hr] at hs
        obtain rfl := Option.some.inj hs
        refine ⟨by simp, ?_⟩
        intro x v w hv hw
        rw [List.getElem?_map, hv] at hw
        obtain rfl := Option.some.inj hw
        have := hb r (List.mem_of_getElem? hr) v (List.mem_of_getElem? hv)
        simp only
        rw [List.getD_eq_getElem?_getD, List.getElem?_eq_getElem (by omega)]
        rfl
      obtain ⟨px, hpx⟩ := hsome
      rw [Option.bind_some, hpx]
      refine ⟨by simp; omega, ?_⟩
      intro q h
      obtain rfl := Option.some.inj h
      refine ⟨rfl, ?_⟩
      obtain ⟨h1, h2⟩ := (recolour_iff m _ _).1 hpx
      refine ⟨h1, ?_⟩
      intro y r s hr hs
      obtain ⟨h3, h4⟩ := h2 y r s hr hs
      refine ⟨h3, ?_⟩
      intro x v w hv hw
      exact (remap_at nearest p.pal m hm v w (hb r (List.mem_of_getElem? hr) v (List.mem_of_getElem? hv))).1 (h4 x v w hv hw)

/-- **C76** (what becomes invisible). Index 0, the invisible one, is what the pixels of colour (0, 0, 255) get and no others, as far as the colours are the game's: blue pixels vanish, and
pixels of index 0, invisible before, appear unless they are blue. -/
theorem invisible (nearest : Rgb → Nat) (pal : List Nat) (v v' : Nat) (c : Rgb) (hc : (colours pal)[v]? = some c) (h : Becomes nearest pal v v') :
    v' = 0 ↔ c = (0, 0, 255) ∨ (c ∉ game ∧ nearest c = 0) := by
  have g0 : game[0]? = some (0, 0, 255) := by decide +kernel
  unfold Becomes at h
  rw [hc] at h
  simp only at h
  constructor
  · rintro rfl
    rcases h with h | h
    · rw [g0] at h; exact Or.inl (Option.some.inj h).symm
    · exact Or.inr ⟨h.1, h.2.symm⟩
  · rintro (rfl | ⟨h1, h2⟩)
    · rcases h with h | h
      · exact game_inj h g0
      · exact absurd (List.mem_of_getElem? g0) h.1
    · rcases h with h | h
      · exact absurd (List.mem_of_getElem? h) h1
      · rw [h.2, h2]

/-- A picture whose first colour is grey and which uses it for nothing: it appears. -/
example (nearest : Rgb → Nat) : Becomes nearest [16, 16, 16, 0, 0, 255] 0 1 ∧ Becomes nearest [16, 16, 16, 0, 0, 255] 1 0 :=
  ⟨Or.inl (by decide +kernel), Or.inl (by decide +kernel)⟩

/-- **C76** (the Windows palette). The table turns every index of the Windows palette, except the nine that have no colour of their own, into the index of the same colour, and
different ones into different ones. -/
theorem win_to_dos : winToDos.length = 256 ∧ (∀ i, i < 256 → ¬ (1 ≤ i ∧ i ≤ 9) → (winToDos[i]?).bind (fun j => game[j]?) = windows[i]?) ∧
    (∀ i, i < 256 → ¬ (1 ≤ i ∧ i ≤ 9) → ∀ j, j < 256 → ¬ (1 ≤ j ∧ j ≤ 9) → winToDos[i]? = winToDos[j]? → i = j) ∧
    ∀ i, 1 ≤ i → i ≤ 9 → winToDos[i]? = some i := by
  refine ⟨by decide +kernel, by decide +kernel, ?_, ?_⟩
  · have key : ∀ i, i < 256 → ∀ j, j < 256 → (¬ (1 ≤ i ∧ i ≤ 9) ∧ ¬ (1 ≤ j ∧ j ≤ 9) ∧ winToDos[i]? = winToDos[j]?) → i = j := by decide +kernel
    exact fun i hi ni j hj nj e => key i hi j hj ⟨ni, nj, e⟩
  intro i h1 h2
  have : i = 1 ∨ i = 2 ∨ i = 3 ∨ i = 4 ∨ i = 5 ∨ i = 6 ∨ i = 7 ∨ i = 8 ∨ i = 9 := by omega
  rcases this with rfl | rfl | rfl | rfl | rfl | rfl | rfl | rfl | rfl <;> rfl

/-- **C76** (fewer colours). Converted to 8 bits per pixel, the pixels with an opacity under 128 and no others become invisible; all others get one of the colours that are not animated. -/
theorem quantize_exact (pillow : Rgb → Nat) (hp : ∀ c, pillow c < 215) (c : Rgb) (alpha : Option Nat) :
    ∃ v, quantize pillow c alpha = some v ∧ (v = 0 ↔ ∃ a, alpha = some a ∧ a < 128) ∧ (v ≠ 0 → (1 ≤ v ∧ v ≤ 214) ∨ v = 255) ∧
      (v ≠ 0 → safe[pillow c]? = some v) := by
  have hs : ∀ k, k < 215 → safe[k]? = some (if k < 214 then k + 1 else 255) := by decide +kernel
  have h := hs (pillow c) (hp c)
  refine ⟨_, by rw [quantize, h]; rfl, ?_⟩
  cases alpha with
  | none =>
    simp only [h]
    split <;> simp <;> omega
  | some a =>
    simp only [h, Option.some.injEq, exists_eq_left']
    split
    · rename_i ha; simp [ha]
    · rename_i ha
      split <;> simp [ha] <;> omega

/-! ## Pictures for looking at -/

/-- The brightness as the game applies it: each part times the brightness over 128; what is over 255 in all parts together, halved, is spread over the parts that have room. -/
def bright (c : Rgb) (brightness : Nat) : Rgb :=
  let t := fun v => v * brightness / 128
  let over := ((t c.1 - 255) + (t c.2.1 - 255) + (t c.2.2 - 255)) / 2
  let one := fun v => if t v ≥ 255 then 255 else t v + over * (255 - t v) / 256
  (one c.1, one c.2.1, one c.2.2)

theorem one_le (over v : Nat) (hv : v ≤ 255) (ho : over ≤ 256) : v + over * (255 - v) / 256 ≤ 255 := by
  have : over * (255 - v) ≤ 256 * (255 - v) := Nat.mul_le_mul_right _ ho
  omega

/-- **C77** (brightness). For all colours and all brightnesses of a byte the packed arithmetic gives exactly this. -/
theorem adjust_exact (c : Rgb) (brightness : Nat) (h1 : c.1 < 256) (h2 : c.2.1 < 256) (h3 : c.2.2 < 256) (hb : brightness < 256) :
    adjust c brightness = bright c brightness := by
  obtain ⟨r, g, b⟩ := c
  simp only at h1 h2 h3
  unfold adjust
  by_cases hk : brightness = 128
  · rw [if_pos hk, hk]
    simp only [bright, Nat.mul_div_cancel _ (show 0 < 128 by omega)]
    have o : (r - 255 + (g - 255) + (b - 255)) / 2 = 0 := by omega
    simp only [o, Nat.zero_mul, Nat.zero_div, Nat.add_zero]
    have f : ∀ v : Nat, v < 256 → (if v ≥ 255 then 255 else v) = v := by intro v hv; split <;> omega
    rw [f r h1, f g h2, f b h3]
  · rw [if_neg hk]
    have ec : (r <<< 32 ||| g <<< 16 ||| b) = r * 2 ^ 32 + g * 2 ^ 16 + b := by
      have e1 : r <<< 32 ||| g <<< 16 = r <<< 32 + g <<< 16 := by
        rw [Nat.shiftLeft_add_eq_or_of_lt]
        rw [Nat.shiftLeft_eq]; omega
      have e2 : (r <<< 32 + g <<< 16) = (r * 2 ^ 16 + g) <<< 16 := by simp only [Nat.shiftLeft_eq]; omega
      rw [e1, e2, ← Nat.shiftLeft_add_eq_or_of_lt (by omega), Nat.shiftLeft_eq]
      omega
    have ep : (r * 2 ^ 32 + g * 2 ^ 16 + b) * brightness = (r * brightness) * 2 ^ 32 + (g * brightness) * 2 ^ 16 + b * brightness := by
      rw [Nat.add_mul, Nat.add_mul, Nat.mul_right_comm, Nat.mul_right_comm g]
    have bd : ∀ v : Nat, v < 256 → v * brightness ≤ 65025 := fun v hv => by
      have := Nat.mul_le_mul (show v ≤ 255 by omega) (show brightness ≤ 255 by omega)
      omega
    have br := bd r h1
    have bg := bd g h2
    have bb := bd b h3
    simp only [bright]
    rw [ec, ep]
    generalize r * brightness = R at *
    generalize g * brightness = G at *
    generalize b * brightness = B at *
    have low : ∀ x : Nat, x &&& 0x1ff = x % 512 := fun x => Nat.and_two_pow_sub_one_eq_mod x 9
    simp only [low, Nat.shiftRight_eq_div_pow]
    have er : (R * 2 ^ 32 + G * 2 ^ 16 + B) / 2 ^ 39 % 512 = R / 128 := by omega
    have eg : (R * 2 ^ 32 + G * 2 ^ 16 + B) / 2 ^ 23 % 512 = G / 128 := by omega
    have eb : (R * 2 ^ 32 + G * 2 ^ 16 + B) / 2 ^ 7 % 512 = B / 128 := by omega
    rw [er, eg, eb]
    have em : ((R * 2 ^ 32 + G * 2 ^ 16 + B) &&& 0x800080008000 = 0) ↔ (R / 128 ≤ 255 ∧ G / 128 ≤ 255 ∧ B / 128 ≤ 255) := by
      have e : (0x800080008000 : Nat) = 2 ^ 47 ||| 2 ^ 31 ||| 2 ^ 15 := by decide
      rw [e, Nat.and_or_distrib_left, Nat.and_or_distrib_left, Vox.and_bit, Vox.and_bit, Vox.and_bit, Nat.or_eq_zero_iff, Nat.or_eq_zero_iff]
      omega
    simp only [em]
    split
    · rename_i hs
      have o : (R / 128 - 255 + (G / 128 - 255) + (B / 128 - 255)) / 2 = 0 := by omega
      simp only [o, Nat.zero_mul, Nat.zero_div, Nat.add_zero]
      have f : ∀ v : Nat, v ≤ 255 → (if v ≥ 255 then 255 else v) = v := by intro v hv; split <;> omega
      rw [f _ hs.1, f _ hs.2.1, f _ hs.2.2]
    · have q : ∀ v : Nat, (if v > 255 then v - 255 else 0) = v - 255 := by intro v; split <;> omega
      simp only [q]
      generalize hob : (R / 128 - 255 + (G / 128 - 255) + (B / 128 - 255)) / 2 = ob
      have hob' : ob ≤ 256 ∨ ¬ (R / 128 < 255 ∨ G / 128 < 255 ∨ B / 128 < 255) := by omega
      rcases hob' with ho | hn
      · have f : ∀ v : Nat, (if v ≥ 255 then 255 else min (v + ob * (255 - v) / 256) 255) = if v ≥ 255 then 255 else v + ob * (255 - v) / 256 := by
          intro v
          split
          · rfl
          · have := one_le ob v (by omega) ho; omega
        simp only [f]
      · have f : ∀ v : Nat, 255 ≤ v → ∀ w, (if v ≥ 255 then 255 else w) = 255 := by intro v hv w; rw [if_pos hv]
        simp only [f _ (show 255 ≤ R / 128 by omega), f _ (show 255 ≤ G / 128 by omega), f _ (show 255 ≤ B / 128 by omega)]

/-- **C77** (what comes of it). A brightness of 128 changes nothing, and the result is a colour of bytes. -/
theorem bright_range (c : Rgb) (brightness : Nat) (h1 : c.1 < 256) (h2 : c.2.1 < 256) (h3 : c.2.2 < 256) (hb : brightness < 256) :
    (bright c brightness).1 < 256 ∧ (bright c brightness).2.1 < 256 ∧ (bright c brightness).2.2 < 256 ∧ bright c 128 = c := by
  obtain ⟨r, g, b⟩ := c
  simp only at h1 h2 h3
  have bd : ∀ v : Nat, v < 256 → v * brightness / 128 ≤ 508 := fun v hv => by
    have := Nat.mul_le_mul (show v ≤ 255 by omega) (show brightness ≤ 255 by omega)
    omega
  have br := bd r h1
  have bg := bd g h2
  have bb := bd b h3
  refine ⟨?_, ?_, ?_, ?_⟩
  · simp only [bright]
    generalize r * brightness / 128 = R at *
    generalize g * brightness / 128 = G at *
    generalize b * brightness / 128 = B at *
    split
    · omega
    · have := one_le ((R - 255 + (G - 255) + (B - 255)) / 2) R (by omega) (by omega)
      omega
  · simp only [bright]
    generalize r * brightness / 128 = R at *
    generalize g * brightness / 128 = G at *
    generalize b * brightness / 128 = B at *
    split
    · omega
    · have := one_le ((R - 255 + (G - 255) + (B - 255)) / 2) G (by omega) (by omega)
      omega
  · simp only [bright]
    generalize r * brightness / 128 = R at *
    generalize g * brightness / 128 = G at *
    generalize b * brightness / 128 = B at *
    split
    · omega
    · have := one_le ((R - 255 + (G - 255) + (B - 255)) / 2) B (by omega) (by omega)
      omega
  · rw [← adjust_exact (r, g, b) 128 h1 h2 h3 (by omega)]
    rfl

/-- **C77** (the picture). What `make_rgba_image` shows at a pixel: without a palette layer the colour itself; with a palette layer only, the colour of the game's palette, and nothing where the index is 0;
with both, the palette's colour in the brightness of the brightest part where there is an index, and the colour itself elsewhere. The opacity is the one given; without one, all is opaque but index 0 of a palette layer
on its own. -/
theorem preview_exact (rgb : Option Rgb) (alpha mask : Option Nat) (hm : ∀ m, mask = some m → m < 256) (hc : ∀ c, rgb = some c → c.1 < 256 ∧ c.2.1 < 256 ∧ c.2.2 < 256) :
    (preview rgb alpha mask = none ↔ rgb = none ∧ mask = none) ∧
    (∀ c, preview (some c) alpha none = some (c, alpha.getD 255)) ∧
    (∀ m p, m ≠ 0 → game[m]? = some p → preview none alpha (some m) = some (p, 255)) ∧
    (preview none alpha (some 0) = some ((0, 0, 0), alpha.getD 0)) ∧
    (∀ c m p, rgb = some c → m ≠ 0 → game[m]? = some p → preview (some c) alpha (some m) = some (bright p (brightest c), alpha.getD 255)) ∧
    (∀ c, preview (some c) alpha (some 0) = some (c, alpha.getD 255)) := by
  have hb : ∀ p ∈ game, p.1 < 256 ∧ p.2.1 < 256 ∧ p.2.2 < 256 := by decide +kernel
  have hg : ∀ m, mask = some m → ∃ p, game[m]? = some p := fun m h => ⟨_, List.getElem?_eq_getElem (by rw [game_length]; exact hm m h)⟩
  refine ⟨?_, ?_, ?_, ?_, ?_, ?_⟩
  · cases hk : mask with
    | none => cases rgb <;> simp [preview]
    | some m =>
      obtain ⟨p, hp⟩ := hg m hk
      cases rgb <;> simp only [preview] <;> split <;> simp [hp]
  · intro c; cases alpha <;> rfl
  · intro m p h0 hp
    simp only [preview]
    rw [if_pos (by omega), hp]
    rfl
  · cases alpha <;> rfl
  · intro c m p hrgb h0 hp
    obtain ⟨b1, b2, b3⟩ := hb p (List.mem_of_getElem? hp)
    obtain ⟨c1, c2, c3⟩ := hc c hrgb
    simp only [preview]
    rw [if_pos (by omega), hp, Option.map_some, adjust_exact p (brightest c) b1 b2 b3 (by unfold brightest; omega)]
    cases alpha <;> rfl
  · intro c; cases alpha <;> rfl

example : preview (some (100, 200, 30)) (some 77) (some 200) = some (bright (20, 52, 124) 200, 77) := by decide +kernel

end Grf.Palette
