import Verif.Model.IndustryObjs
import Verif.Props.CallbackObjs
import Verif.Props.IndustryLayout
/-!
# C91: the tiles of an industry in the game
-/
set_option linter.unusedSimpArgs false
namespace Grf.Chain
open _root_.Spec
open Grf.Industry (spriteNum switchRanges)
open Callbacks (Tree)

theorem pick_int {α : Type} (g : α → Tgt) (ranges : List (Int × α)) (d : Tgt) (v : Int) :
    pick (ranges.map fun p => (p.1, p.1, g p.2)) d v = ((ranges.lookup v).map g).getD d := by
  induction ranges with
  | nil => rfl
  | cons p ranges ih =>
    obtain ⟨k, t⟩ := p
    simp only [List.map_cons, pick, List.lookup]
    by_cases h : v = k
    · subst h
      rw [if_pos (by omega)]
      simp
    · rw [if_neg (by omega)]
      have : (v == k) = false := by simpa using h
      rw [this]
      exact ih

theorem pick_range (f : Nat → Tgt) (d : Tgt) (v : Nat) : ∀ n, pick ((List.range n).map fun (i : Nat) => ((i : Int), (i : Int), f i)) d (v : Int) =
    if v < n then f v else d := by
  intro n
  have h := pick_single ((List.range n).map fun i => (i, f i)) d v
  rw [List.map_map] at h
  refine h.trans ?_
  by_cases hv : v < n
  · rw [if_pos hv]
    have : ((List.range n).map fun i => (i, f i)).lookup v = some (f v) :=
      IdMap.lookup_of_mem (by rw [List.map_map]; simpa [Function.comp_def] using List.nodup_range) (List.mem_map.2 ⟨v, by simpa using hv, rfl⟩)
    rw [this]; rfl
  · rw [if_neg hv]
    have : ((List.range n).map fun i => (i, f i)).lookup v = none := by
      rw [List.lookup_eq_none_iff]
      intro p hp
      obtain ⟨i, hi, rfl⟩ := List.mem_map.1 hp
      have := List.mem_range.1 hi
      simp
      omega
    rw [this]; rfl

section
variable {G : Game} {vt : Nat → Bool → String → Option VarData} {O : Nat → Obj} {f : Nat}

/-- A switch over a field, of either scope. -/
theorem var_switch (s : Sw) (code : String) (v n : Nat) (hc : s.code = [.var code]) (hn : n ≤ 16)
    (hvt : vt f s.related code = some ⟨v, 0, n, none⟩) (hv : v ≠ 0x7b ∧ v ≠ 0x7e ∧ v ≠ 0x7d ∧ v ≠ 0x7c ∧ v ≠ 26) {k : Nat}
    (hk : O k = .switch s) (hr : s.ranges ≠ []) (depth : Nat) (m : Mach) :
    mean G vt O f (depth + 1) (.obj k) m =
      mean G vt O f depth (pick s.ranges s.default (((G.var f s.related v 0 m).toNat % 2 ^ n : Nat) : Int)) m := by
  rw [mean, hk]
  simp only [hc]
  rw [evalLinesS, evalS]
  simp only [hvt]
  have e : readNum (SWorld.vars ⟨G.var f s.related, fun j m => (mean G vt O f depth (.obj j) m).map fun r => (r.1.word, r.2)⟩) v
      (BitVec.ofNat 32 ((none : Option Nat).getD 0)) m = some (G.var f s.related v 0 m) := by
    unfold readNum getVar
    simp only [SWorld.vars]
    rw [if_neg (by omega), if_neg (by rintro ⟨h, _⟩; omega), if_neg (by omega), if_neg (by omega), if_neg (by omega)]
    rfl
  rw [e]
  simp only [Option.bind_eq_bind, Option.bind_some]
  rw [if_neg hr, low_bits _ n hn]

end

theorem parsed_codes : Syntax.parse graphicsCode.toList = some [.expr 0x0e (.callName "get_sprite_num") (.value 0)] ∧
    Syntax.parse "layout_num".toList = some [.var "layout_num"] ∧ Syntax.parse "relative_pos".toList = some [.var "relative_pos"] := by
  decide +kernel

theorem tile_vars : varTable 9 true "layout_num" = some ⟨0x44, 0, 8, none⟩ ∧ varTable 9 false "relative_pos" = some ⟨0x43, 0, 16, none⟩ := by
  decide +kernel

/-- The storage with the number `n` in temporary register 0. -/
def withSprite (m : Mach) (n : Nat) : Mach := { m with temp := fun r => if r = 0 then BitVec.ofNat 32 n else m.temp r }

theorem zero_reserved : ¬ Reserved (BitVec.ofInt 32 0).toNat := by decide

theorem ranges_ne (tiles : List ((Int × Int) × Nat)) : ∀ d : List (Int × Nat), tiles ≠ [] ∨ d ≠ [] →
    tiles.foldl (fun d e => dictSet d (pyOr (e.1.2 * 256) e.1.1) e.2) d ≠ [] := by
  induction tiles with
  | nil => intro d h; simpa using h
  | cons t tiles ih =>
    intro d _
    rw [List.foldl_cons]
    refine ih _ (.inr ?_)
    cases d with
    | nil => simp [dictSet]
    | cons q d => obtain ⟨a, b⟩ := q; simp only [dictSet]; split <;> simp

/-- The switch of a layout gives the number of the tile's sprite. -/
theorem pos_means {G : Game} {O : Nat → Obj} {k : Nat} {tiles : List ((Int × Int) × Nat)} {c : List Node}
    (hc : Syntax.parse "relative_pos".toList = some c) (hk : O k = .switch (posSwitch tiles c)) (ht : tiles ≠ [])
    (depth : Nat) (m : Mach) :
    mean G varTable O 9 (depth + 2) (.obj k) m =
      some (.value (((switchRanges tiles).lookup (((G.var 9 false 0x43 0 m).toNat % 65536 : Nat) : Int)).getD 0 % 32768), m) := by
  rw [parsed_codes.2.2] at hc
  have hne : switchRanges tiles ≠ [] := ranges_ne tiles [] (.inl ht)
  rw [var_switch (posSwitch tiles c) "relative_pos" 0x43 16 (by rw [posSwitch]; exact (Option.some.inj hc).symm) (by decide) tile_vars.2 (by decide) hk
    (by simpa [posSwitch] using hne)]
  simp only [posSwitch]
  rw [pick_int (fun n : Nat => Tgt.result n)]
  show mean G varTable O 9 (depth + 1) ((Option.map _ (List.lookup (((G.var 9 false 0x43 0 m).toNat % 65536 : Nat) : Int) _)).getD _) m = _
  cases (switchRanges tiles).lookup (((G.var 9 false 0x43 0 m).toNat % 65536 : Nat) : Int) with
  | none => rfl
  | some n =>
    simp only [Option.map_some, Option.getD_some, mean]
    congr 3

/-- `get_sprite_num` gives the number of the tile's sprite in the layout of the industry. -/
theorem num_means {G : Game} {O : Nat → Obj} {g q lay k0 : Nat} {ks : List Nat} {d : Bytes}
    {ls : List (List ((Int × Int) × Nat) × List (Int × Int))} (h : TilesAt O g q lay k0 ks d ls) (ht : ∀ l ∈ ls, l.1 ≠ [])
    (depth : Nat) (m : Mach) :
    ∃ n, spriteNum ls ((G.var 9 true 0x44 0 m).toNat % 256) ((G.var 9 false 0x43 0 m).toNat % 65536) = some n ∧
      mean G varTable O 9 (depth + 3) (.obj q) m = some (.value (n % 32768), m) := by
  obtain ⟨c, hc, hq⟩ := h.num
  rw [parsed_codes.2.1] at hc
  have hcount := h.count
  cases hls : ls with
  | nil => rw [hls] at hcount; simp at hcount
  | cons l0 rest =>
  rw [← hls]
  refine ⟨_, by rw [hls, spriteNum], ?_⟩
  rw [var_switch (layoutSwitch (k0 :: ks) k0 c) "layout_num" 0x44 8 (by rw [layoutSwitch]; exact (Option.some.inj hc).symm) (by decide) tile_vars.1
    (by decide) hq (by simp [layoutSwitch])]
  simp only [layoutSwitch]
  show mean G varTable O 9 (depth + 2) (pick _ _ (((G.var 9 true 0x44 0 m).toNat % 256 : Nat) : Int)) m = _
  rw [pick_range (fun i => Tgt.obj ((k0 :: ks).getD i 0))]
  generalize (G.var 9 true 0x44 0 m).toNat % 256 = L
  have key : ∀ i l, ls[i]? = some l → mean G varTable O 9 (depth + 2) (.obj ((k0 :: ks).getD i 0)) m =
      some (.value (((switchRanges l.1).lookup (((G.var 9 false 0x43 0 m).toNat % 65536 : Nat) : Int)).getD 0 % 32768), m) := by
    intro i l hl
    obtain ⟨c', hc', hk⟩ := h.each i l hl
    exact pos_means hc' hk (ht l (List.mem_of_getElem? hl)) depth m
  by_cases hL : L < (k0 :: ks).length
  · rw [if_pos hL]
    obtain ⟨l, hl⟩ : ∃ l, ls[L]? = some l := ⟨_, List.getElem?_eq_getElem (by omega)⟩
    rw [key L l hl, ← hls, hl]
    rfl
  · rw [if_neg hL]
    have h0 : ls[0]? = some l0 := by rw [hls]; rfl
    have hn : (l0 :: rest)[L]? = none := by rw [← hls]; exact List.getElem?_eq_none (by omega)
    rw [hn]
    exact key 0 l0 h0

/-- **C91** The tile of an industry in the game, on the level of the switches' meaning: with layout `L` of the industry and the tile at
position `P` in it, the sprite layout is drawn with the number of the tile's sprite (C60) in register 0, which the layout adds to its
sprite; nothing else in the storage changes. -/
theorem tile_draws_its_sprite (G : Game) (O : Nat → Obj) (g q lay k0 : Nat) (ks : List Nat) (d : Bytes)
    (ls : List (List ((Int × Int) × Nat) × List (Int × Int))) (h : TilesAt O g q lay k0 ks d ls) (ht : ∀ l ∈ ls, l.1 ≠ [])
    (m : Mach) (n : Nat) (hn : spriteNum ls ((G.var 9 true 0x44 0 m).toNat % 256) ((G.var 9 false 0x43 0 m).toNat % 65536) = some n)
    (h15 : n < 32768) (depth : Nat) :
    mean G varTable O 9 (depth + 4) (.obj g) m = some (.shows d, withSprite m n) := by
  obtain ⟨n', hn', hq⟩ := num_means h ht depth m
  rw [hn] at hn'
  obtain rfl := Option.some.inj hn'
  rw [Nat.mod_eq_of_lt h15] at hq
  obtain ⟨c, hc, hg⟩ := h.graphics
  rw [parsed_codes.1] at hc
  obtain rfl := Option.some.inj hc
  rw [mean, hg]
  simp only [tileGraphics]
  rw [evalLinesS, evalS, if_pos (by rfl)]
  simp only [evalS, List.lookup, beq_self_eq_true, Option.bind_eq_bind, Option.bind_some, hq, Option.map_some, Outcome.word]
  rw [applyOp, if_pos (by decide), if_neg (fun hh => zero_reserved hh.2)]
  simp only [Option.bind_some]
  refine (if_neg (List.cons_ne_nil _ _)).trans ?_
  have hp : ∀ v, pick [(0, 0, .obj lay)] (.obj lay) v = .obj lay := by
    intro v; simp only [pick]; split <;> rfl
  rw [hp, mean, h.layout]
  rfl

/-- **C91** The same from the map of the tile: `t` is the default of the map the callback manager makes for the tile (`TreeAt`, C89). When
the handler for what the game asks is the graphics of the tile (which it is for callback 0, C42), this is what it gets. -/
theorem industry_tile_means (G : Game) (O : Nat → Obj) (g q lay k0 : Nat) (ks : List Nat) (d : Bytes)
    (ls : List (List ((Int × Int) × Nat) × List (Int × Int))) (h : TilesAt O g q lay k0 ks d ls) (ht : ∀ l ∈ ls, l.1 ≠ [])
    (t : Tgt) (tr : Tree) (htr : TreeAt O t tr) (hf : FullTree tr) (m : Mach)
    (hask : ∃ b, tr.eval ((G.var 9 false 0x0c 0 m).toNat % 65536) (G.var 9 false 0x10 0 m).toNat = .obj g b)
    (n : Nat) (hn : spriteNum ls ((G.var 9 true 0x44 0 m).toNat % 256) ((G.var 9 false 0x43 0 m).toNat % 65536) = some n)
    (h15 : n < 32768) : mean G varTable O 9 6 t m = some (.shows d, withSprite m n) := by
  obtain ⟨b, hb⟩ := hask
  obtain ⟨h1, h2⟩ := named 9 (by decide)
  exact tree_means h1 h2 htr hf 4 m _ (by rw [hb]; exact tile_draws_its_sprite G O g q lay k0 ks d ls h ht m n hn h15 0)

/-- **C91** The tile of an industry shows the strip of the building that stands on it: the game is at a tile of the industry's layout `i`
at position (`x`, `y`) (the two variables say so); the switch draws the sprite layout with a number `n` in register 0, and the sprite of
the set with this number is the strip the building has there, or the empty sprite where no building has one. -/
theorem industry_tile_shows (bld : Nat → Industry.Building) (layouts : List (List (Int × Int × Nat))) (sprites : List (Option Industry.Strip))
    (rs : List (List ((Int × Int) × Nat) × List (Int × Int))) (hgen : Industry.generate bld layouts = some (sprites, rs))
    (hb : ∀ l ∈ layouts, ∀ p ∈ l, 1 ≤ (bld p.2.2).w ∧ 1 ≤ (bld p.2.2).h) (hlen : sprites.length ≤ 32768)
    (i : Nat) (l : List (Int × Int × Nat)) (hl : layouts[i]? = some l) (hp : Industry.Proper bld l)
    (x y : Int) (hxy : 0 ≤ x ∧ x < 256 ∧ 0 ≤ y ∧ y < 256)
    (O : Nat → Obj) (g q lay k0 : Nat) (ks : List Nat) (d : Bytes) (h : TilesAt O g q lay k0 ks d rs) (ht : ∀ r ∈ rs, r.1 ≠ [])
    (G : Game) (m : Mach) (hL : (G.var 9 true 0x44 0 m).toNat % 256 = i)
    (hP : (G.var 9 false 0x43 0 m).toNat % 65536 = y.toNat * 256 + x.toNat) :
    ∃ n, (∀ depth, mean G varTable O 9 (depth + 4) (.obj g) m = some (.shows d, withSprite m n)) ∧
      (∀ p ∈ l, ∀ s, Industry.StripAt bld p (x, y) s → sprites[n]? = some (some s)) ∧
      ((∀ p ∈ l, ∀ s, ¬ Industry.StripAt bld p (x, y) s) → sprites[n]? = some none) := by
  obtain ⟨n, hn, h1, h2⟩ := Industry.tile_sprite bld layouts sprites rs hgen hb i l hl hp x y hxy
  refine ⟨n, ?_, h1, h2⟩
  have hlt : n < sprites.length := by
    by_cases hex : ∃ p ∈ l, ∃ s, Industry.StripAt bld p (x, y) s
    · obtain ⟨p, hpl, s, hs⟩ := hex
      exact (List.getElem?_eq_some_iff.1 (h1 p hpl s hs)).1
    · exact (List.getElem?_eq_some_iff.1 (h2 fun p hpl s hs => hex ⟨p, hpl, s, hs⟩)).1
  intro depth
  refine tile_draws_its_sprite G O g q lay k0 ks d rs h ht m n ?_ (by omega) depth
  rw [hL, hP]
  exact hn

/-- The objects are as C88 asks of what a map uses. -/
theorem tiles_ok {O : Nat → Obj} {g q lay k0 : Nat} {ks : List Nat} {d : Bytes} {ls : List (List ((Int × Int) × Nat) × List (Int × Int))}
    (h : TilesAt O g q lay k0 ks d ls) :
    (O g).Ok varTable O 9 ∧ (O q).Ok varTable O 9 ∧ ∀ i, i < ls.length → (O ((k0 :: ks).getD i 0)).Ok varTable O 9 := by
  have field : ∀ (s : Sw) code v n, s.code = [.var code] → varTable 9 s.related code = some ⟨v, 0, n, none⟩ → hasParam v = false → s.subs = [] →
      (∀ r ∈ s.ranges, r.1 = r.2.1) → (Obj.switch s).Ok varTable O 9 := by
    intro s code v n hc hv hnp hs hr
    refine ⟨?_, ?_, by rw [hs]; simp, ?_⟩
    · intro e he
      rw [hc] at he
      simp only [List.mem_singleton] at he
      subst he
      refine ⟨?_, rfl⟩
      intro dd hdd
      simp only [Sw.names] at hdd
      rw [hv] at hdd
      cases hdd
      exact hnp
    · rw [hc]; rfl
    · intro r hrr
      have := hr r hrr
      omega
  refine ⟨?_, ?_, ?_⟩
  · obtain ⟨c, hc, hg⟩ := h.graphics
    rw [parsed_codes.1] at hc
    obtain rfl := Option.some.inj hc
    rw [hg]
    refine ⟨?_, rfl, ?_, ?_⟩
    · intro e he
      simp only [tileGraphics, List.mem_singleton] at he
      subst he
      exact ⟨by simp [WfNode]; rfl, rfl⟩
    · intro p hp
      simp only [tileGraphics, List.mem_singleton] at hp
      subst hp
      obtain ⟨c, _, hq⟩ := h.num
      simp [world, hq, Obj.act]
    · intro r hr
      simp only [tileGraphics, List.mem_singleton] at hr
      subst hr
      simp
  · obtain ⟨c, hc, hq⟩ := h.num
    rw [parsed_codes.2.1] at hc
    rw [hq]
    refine field _ "layout_num" 0x44 8 (Option.some.inj hc).symm tile_vars.1 (by decide) rfl ?_
    intro r hr
    obtain ⟨i, _, rfl⟩ := List.mem_map.1 hr
    rfl
  · intro i hi
    obtain ⟨c, hc, hk⟩ := h.each i ls[i] (List.getElem?_eq_getElem hi)
    rw [parsed_codes.2.2] at hc
    rw [hk]
    refine field _ "relative_pos" 0x43 16 (Option.some.inj hc).symm tile_vars.2 (by decide) rfl ?_
    intro r hr
    obtain ⟨p, _, rfl⟩ := List.mem_map.1 hr
    rfl

/-! ### An industry with two layouts of the building of C60 -/

/-- What is generated for the layouts. -/
def exGen : List (Option Industry.Strip) × List (List ((Int × Int) × Nat) × List (Int × Int)) :=
  (Industry.generate (fun _ => Industry.square) [[(0, 0, 0), (2, 0, 0)], [(1, 3, 0)]]).getD ([], [])

/-- The objects of its tiles. -/
def exTiles : Nat → Obj
  | 0 => .switch (tileGraphics 1 2 [.expr 0x0e (.callName "get_sprite_num") (.value 0)])
  | 1 => .switch (layoutSwitch [3, 4] 3 [.var "layout_num"])
  | 2 => .sprites (some 9) [0, 1]
  | 3 => .switch (posSwitch ((exGen.2[0]?).getD ([], [])).1 [.var "relative_pos"])
  | 4 => .switch (posSwitch ((exGen.2[1]?).getD ([], [])).1 [.var "relative_pos"])
  | _ => .other (.action (some [0]))

theorem exTiles_at : TilesAt exTiles 0 1 2 3 [4] [0, 1] exGen.2 := by
  refine ⟨⟨_, parsed_codes.1, rfl⟩, ⟨_, parsed_codes.2.1, rfl⟩, by decide +kernel, ?_, rfl⟩
  intro i l hl
  refine ⟨_, parsed_codes.2.2, ?_⟩
  have hlen : exGen.2.length = 2 := by decide +kernel
  have hi := (List.getElem?_eq_some_iff.1 hl).1
  have : i = 0 ∨ i = 1 := by omega
  rcases this with rfl | rfl
  · show Obj.switch (posSwitch ((exGen.2[0]?).getD ([], [])).1 _) = _
    rw [hl]; rfl
  · show Obj.switch (posSwitch ((exGen.2[1]?).getD ([], [])).1 _) = _
    rw [hl]; rfl

/-- The hypotheses hold, and on the tile (1, 1) of the first layout the strip there is shown, which is in the set. -/
example : Industry.generate (fun _ => Industry.square) [[(0, 0, 0), (2, 0, 0)], [(1, 3, 0)]] = some exGen ∧ (∀ r ∈ exGen.2, r.1 ≠ []) ∧
    exGen.1.length ≤ 32768 ∧
    ((mean ⟨fun _ r v _ _ => if v = 0x44 ∧ r = true then 0 else if v = 0x43 then 257 else 0, fun _ _ => 0⟩ varTable exTiles 9 4 (.obj 0)
      ⟨fun _ => 0, fun _ => 0⟩).map fun r => (r.1, (exGen.1[(r.2.temp 0).toNat]?).map fun s => s.isSome)) = some (.shows [0, 1], some true) := by
  refine ⟨?_, ?_, by decide +kernel, by decide +kernel⟩
  · have h : (Industry.generate (fun _ => Industry.square) [[(0, 0, 0), (2, 0, 0)], [(1, 3, 0)]]).isSome = true := by decide +kernel
    cases hh : Industry.generate (fun _ => Industry.square) [[(0, 0, 0), (2, 0, 0)], [(1, 3, 0)]] with
    | none => rw [hh] at h; cases h
    | some v => simp [exGen, hh]
  have : (exGen.2.all fun r => !r.1.isEmpty) = true := by decide +kernel
  intro r hr e
  have := List.all_eq_true.1 this r hr
  rw [e] at this
  simp at this

example : TreeAt exTiles (.obj 0) (.plain (.obj 0 none)) ∧ FullTree (.plain (.obj 0 none)) ∧ (Tree.plain (.obj 0 none)).eval 0 0 = .obj 0 none :=
  ⟨.plain (.obj 0 none), trivial, rfl⟩

/-- **C91 boundary** A layout without buildings has a switch without ranges: it gives the position, not the number 0 of the empty sprite. -/
theorem empty_layout_gives_position (G : Game) (O : Nat → Obj) (k : Nat) (hk : O k = .switch (posSwitch [] [.var "relative_pos"])) (m : Mach)
    (depth : Nat) : mean G varTable O 9 (depth + 1) (.obj k) m = some (.value ((G.var 9 false 0x43 0 m).toNat % 65536 % 32768), m) := by
  rw [mean, hk]
  simp only [posSwitch]
  rw [evalLinesS, evalS]
  simp only [tile_vars.2]
  have e : readNum (SWorld.vars ⟨G.var 9 false, fun j m => (mean G varTable O 9 depth (.obj j) m).map fun r => (r.1.word, r.2)⟩) 0x43
      (BitVec.ofNat 32 ((none : Option Nat).getD 0)) m = some (G.var 9 false 0x43 0 m) := by
    unfold readNum getVar
    simp only [SWorld.vars]
    rw [if_neg (by omega), if_neg (by rintro ⟨h, _⟩; omega), if_neg (by omega), if_neg (by omega), if_neg (by omega)]
    rfl
  rw [e]
  simp only [Option.bind_eq_bind, Option.bind_some]
  refine (if_pos rfl).trans ?_
  have hb := low_bits (G.var 9 false 0x43 0 m) 16 (by decide)
  have hn : (bits (G.var 9 false 0x43 0 m) 0 (2 ^ 16 - 1)).toNat = (G.var 9 false 0x43 0 m).toNat % 65536 := by
    have h1 : (bits (G.var 9 false 0x43 0 m) 0 (2 ^ 16 - 1)).toInt = (((G.var 9 false 0x43 0 m).toNat % 65536 : Nat) : Int) := hb
    rw [BitVec.toInt_eq_toNat_cond] at h1
    have := (bits (G.var 9 false 0x43 0 m) 0 (2 ^ 16 - 1)).isLt
    split at h1 <;> omega
  rw [hn]

end Grf.Chain
