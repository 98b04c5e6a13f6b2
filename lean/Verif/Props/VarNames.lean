import Verif.Props.VarTables
/-!
# C67 What the named variables compute, and code that is decompiled and compiled again
-/
namespace Grf
open Syntax Spec

/-! ### What a name computes -/

theorem field_bits (x : Word) (s k : Nat) : (x >>> s) &&& BitVec.ofNat 32 (2 ^ k - 1) = (x.extractLsb' s k).setWidth 32 := by
  apply BitVec.eq_of_getLsbD_eq
  intro i hi
  simp only [BitVec.getLsbD_and, BitVec.getLsbD_ushiftRight, BitVec.getLsbD_ofNat, BitVec.getLsbD_setWidth, BitVec.getLsbD_extractLsb',
    Nat.testBit_two_pow_sub_one, hi, decide_true, Bool.true_and]
  rw [Bool.and_comm]

theorem parse_name {n : String} (h : IsName n.toList) : parse n.toList = some [.var n] := by
  obtain ⟨s, h1, h2⟩ := format_parse_lines [.var n] (by simpa using Faithful.var n h)
  have : s = n.toList := by simpa [formatLines, format] using h1.symm
  rw [← this, h2]
  rfl

/-- **C67** The code that is just a name of the table of the feature is accepted. If the variable is none of 0x60..0x7f or has a fixed parameter,
the code computes the bits of the field, and changes nothing. For the other variables 0x60..0x7f the parameter is missing: the game
finds no complete program in the bytes of the code. -/
theorem name_computes_field (f : Nat) (n : String) (d : VarData) (h : (n, d) ∈ vaVars f) (subs : String → Option Int) :
    ∃ bs, switchCode f false subs n.toList = some bs ∧
      (hasParam d.var = d.param.isSome → ∃ prog, (∀ rest, parseProgram (bs ++ rest) = some (prog, rest)) ∧
        ∀ (w : Spec.World) (m : Mach), runProgram w prog m =
          (((w.var d.var (BitVec.ofNat 32 (d.param.getD 0)) m).extractLsb' d.start d.size).setWidth 32, m)) ∧
      (hasParam d.var ≠ d.param.isSome → parseProgram bs = none) := by
  obtain ⟨hnd, hall⟩ := table_entries f
  obtain ⟨⟨hname, -⟩, hv, hsz, hbits, hpar, hspec⟩ := hall n d h
  have hl : (vaVars f).lookup n = some d := lookup_of_mem_nodup hnd h
  have hne : (vaVars f).isEmpty = false := by cases e : vaVars f with
    | nil => rw [e] at h; cases h
    | cons => rfl
  have hm : (2 : Nat) ^ d.size - 1 < 4294967296 := by
    have : (2 : Nat) ^ d.size ≤ 2 ^ 32 := Nat.pow_le_pow_right (by decide) (by omega)
    omega
  have hmask : pyAnd FULL (pyShr (2 ^ d.size - 1) 0) = ((2 ^ d.size - 1 : Nat) : Int) := by
    have e : ((2 : Int) ^ d.size - 1) = ((2 ^ d.size - 1 : Nat) : Int) := by
      have h0 : 0 < 2 ^ d.size := Nat.two_pow_pos _
      have e2 : ((2 ^ d.size : Nat) : Int) = (2 : Int) ^ d.size := by simp
      omega
    rw [pyShr_zero, pyAnd_full_left, e]
    omega
  have hofInt : BitVec.ofInt 32 ((2 ^ d.size - 1 : Nat) : Int) = BitVec.ofNat 32 (2 ^ d.size - 1) := by
    generalize 2 ^ d.size - 1 = k
    simp
  have code : ∀ b, (match d.param with
      | some p => packVarP d.var p d.start ((2 ^ d.size - 1 : Nat) : Int)
      | none => packVar d.var d.start ((2 ^ d.size - 1 : Nat) : Int)) = some b →
      switchCode f false subs n.toList = markEnd b := by
    intro b hb
    unfold switchCode
    simp only [scopeFeature, Bool.false_eq_true, if_false, Option.bind_eq_bind, Option.bind_some, parse_name hname, hne, false_and, if_false,
      compileLines, compile, hl, Int.toNat_zero, hmask, Int.zero_add]
    rw [guard_ok (by omega) (by omega)]
    simp only [Option.bind_some, List.foldlM_nil]
    rw [if_neg (by decide)]
    cases hp : d.param with
    | none => rw [hp] at hb; simp only at hb ⊢; rw [hb]; rfl
    | some p => rw [hp] at hb; simp only at hb ⊢; rw [hb]; rfl
  have run : ∀ a : Access, a = ⟨d.var, d.param.getD 0, d.start, BitVec.ofNat 32 (2 ^ d.size - 1), 0, 0, 1⟩ → ∀ (w : Spec.World) (m : Mach), runProgram w (a, []) m =
      (((w.var d.var (BitVec.ofNat 32 (d.param.getD 0)) m).extractLsb' d.start d.size).setWidth 32, m) := by
    intro a ha w m
    subst ha
    simp only [List.mem_cons, List.not_mem_nil, or_false, not_or] at hspec
    simp only [runProgram, exec, fetch, hspec.2.1, hspec.2.2.2.2, if_false, getVar, hspec.1, hspec.2.2.1, hspec.2.2.2.1, adjust, evalOp, if_true,
      field_bits]
    simp
  cases hp : d.param with
  | some p =>
    rw [hp] at code
    obtain ⟨h1, h2⟩ := hpar p hp
    obtain ⟨b, hb⟩ := packVarP_ok (v := d.var) (p := p) (s := d.start) (m := ((2 ^ d.size - 1 : Nat) : Int)) (by omega) (by omega) (by omega) (by omega)
      (by omega) (by omega) (packU_ok (by omega) (by omega))
    obtain ⟨a, ha, hw, rfl, -⟩ := packVarP_some hb (by omega) (by simpa using h1)
    have hfin := markEnd_encAll a [] ⟨hw, by simp⟩
    refine ⟨encFinal a [], by rw [code _ hb]; exact hfin, ?_, ?_⟩
    · intro _
      refine ⟨(a, []), fun rest => parseProgram_encFinal a [] rest ⟨hw, by simp⟩, ?_⟩
      rw [hp] at run
      apply run
      rw [ha, hofInt]
      simp
    · intro q; simp [h1] at q
  | none =>
    rw [hp] at code
    obtain ⟨b, hb⟩ := packVar_ok (v := d.var) (s := d.start) (m := ((2 ^ d.size - 1 : Nat) : Int)) (by omega) (by omega) (by omega) (by omega)
      (packU_ok (by omega) (by omega))
    by_cases hP : hasParam d.var = true
    · simp only [packVar, cat, Option.bind_eq_bind, Option.bind_eq_some_iff, Option.some.injEq] at hb
      obtain ⟨b1, h1, _, ⟨b3, h3, _, ⟨b4, h4, _, rfl, rfl⟩, rfl⟩, rfl⟩ := hb
      obtain ⟨-, -, rfl⟩ := packU1_some h1
      obtain ⟨-, -, rfl⟩ := packU1_some h3
      have hlen := packU_length h4
      match b4, hlen, h4 with
      | [x0, x1, x2, x3], _, h4 =>
        refine ⟨[UInt8.ofNat d.var, UInt8.ofNat (pyOr 0x20 d.start).toNat &&& ~~~0x20, x0, x1, x2, x3], ?_, ?_, ?_⟩
        · rw [code ([UInt8.ofNat d.var, UInt8.ofNat (pyOr 0x20 d.start).toNat, x0, x1, x2, x3]) (by
            simp only [packVar, cat, h1, h3, h4]; rfl)]
          rfl
        · intro q; simp [hP] at q
        · intro _
          have hv2 : (UInt8.ofNat d.var).toNat = d.var := by simp; omega
          simp only [parseProgram, parseAccess, hv2, hP, if_true, Option.bind_eq_bind, Option.bind_some, dword, Option.bind_none]
    · rw [Bool.not_eq_true] at hP
      obtain ⟨a, ha, hw, rfl, -⟩ := packVar_some hb (by omega) (by simpa using hP)
      have hfin := markEnd_encAll a [] ⟨hw, by simp⟩
      refine ⟨encFinal a [], by rw [code _ hb]; exact hfin, ?_, ?_⟩
      · intro _
        refine ⟨(a, []), fun rest => parseProgram_encFinal a [] rest ⟨hw, by simp⟩, ?_⟩
        rw [hp] at run
        apply run
        rw [ha, hofInt]
        simp
      · intro q; simp [hP] at q

/-- **C67** The names whose parameter is missing: exactly those of the variables 0x60..0x7f without a fixed parameter. -/
def needParam (f : Nat) : List String :=
  if f = 4 ∨ f = 20 then ["cargo_amount_waiting", "cargo_time_since_pickup", "cargo_rating", "cargo_time_en_route", "cargo_last_vehicle_speed",
    "cargo_last_vehicle_age", "cargo_accepted", "cargo_accepted_ever", "cargo_accepted_last_month", "cargo_accepted_this_month",
    "cargo_accepted_bigtick"]
  else if f = 9 then ["nearby_tile_slope", "nearby_tile_is_same_industry", "nearby_tile_is_water", "nearby_tile_terrain_type",
    "nearby_tile_water_class", "nearby_tile_height", "nearby_tile_class", "nearby_tile_animation_frame", "nearby_tile_industrytile_id"]
  else if f = 15 then ["nearby_tile_object_type", "nearby_tile_object_view", "nearby_tile_random_bits", "nearby_tile_slope",
    "nearby_tile_is_same_object", "nearby_tile_is_water", "nearby_tile_terrain_type", "nearby_tile_water_class", "nearby_tile_height",
    "nearby_tile_class", "nearby_tile_animation_frame", "object_count", "object_distance"]
  else []

theorem need_param_iff (f : Nat) (n : String) (d : VarData) (h : (n, d) ∈ vaVars f) : hasParam d.var ≠ d.param.isSome ↔ n ∈ needParam f := by
  have key : ∀ f < 21, (vaVars f).all (fun p => (hasParam p.2.var != p.2.param.isSome) == (needParam f).contains p.1) = true := by decide +kernel
  by_cases hf : f < 21
  · have := List.all_eq_true.1 (key f hf) _ h
    simp only [beq_iff_eq] at this
    rw [← bne_iff_ne, this]
    simp
  · rw [vaVars_beyond (by omega)] at h; cases h

/-! ### Decompiled code is compiled again -/

theorem evalD_names (w : Spec.World) (t t' : String → Option VarData) (d : DNode) (h : ∀ n ∈ d.names, t n = t' n) :
    ∀ m, evalD w t d m = evalD w t' d m := by
  induction d with
  | var n => intro m; simp only [evalD, h n (by simp [DNode.names])]
  | varP n p ih =>
    intro m
    simp only [evalD, h n (by simp [DNode.names]), ih (fun x hx => h x (by simp [DNode.names, hx]))]
  | gvarP v s k t a d p ih => intro m; simp only [evalD, ih h]
  | temp r ih => intro m; simp only [evalD, ih h]
  | perm r ih => intro m; simp only [evalD, ih h]
  | expr op a b iha ihb =>
    intro m
    simp only [DNode.names, List.mem_append] at h
    simp only [evalD, iha (fun n hn => h n (.inl hn)), ihb (fun n hn => h n (.inr hn))]
  | value v => intro m; rfl
  | gvar => intro m; rfl
  | call n => intro m; rfl

theorem evalDLines_names (w : Spec.World) (t t' : String → Option VarData) (l : List DNode) (h : ∀ n ∈ l.flatMap DNode.names, t n = t' n) :
    ∀ m, evalDLines w t l m = evalDLines w t' l m := by
  induction l with
  | nil => intro m; rfl
  | cons d l ih =>
    intro m
    have e := evalD_names w t t' d (fun n hn => h n (by simp [hn]))
    cases l with
    | nil => simp only [evalDLines, e]
    | cons d2 l => simp only [evalDLines, e, ih (fun n hn => h n (by rw [List.flatMap_cons, List.mem_append]; exact .inr hn))]

/-- The related features: a name of the feature that is also one of the related feature, and takes no parameter, takes none there. -/
theorem scope_names (f g : Nat) (r : Bool) (hg : scopeFeature f r = some g) (n : String) (d d' : VarData) (h : (vaVars f).lookup n = some d)
    (h' : (vaVars g).lookup n = some d') (hp : d.param = none ∧ hasParam d.var = false) : d'.param = none ∧ hasParam d'.var = false := by
  have key : ∀ f < 21, ∀ r : Bool, (scopeFeature f r).all (fun g => (vaVars f).all fun p => (vaVars g).all fun q =>
      p.1 != q.1 || p.2.param.isSome || hasParam p.2.var || (q.2.param.isNone && !hasParam q.2.var)) = true := by decide +kernel
  by_cases hf : f < 21
  · have := key f hf r
    rw [hg] at this
    simp only [Option.all_some, List.all_eq_true] at this
    have := this _ (lookup_entry h) _ (lookup_entry h')
    simpa [hp.1, hp.2] using this
  · rw [vaVars_beyond (by omega)] at h; cases h

theorem fit_scope (f g : Nat) (r : Bool) (hg : scopeFeature f r = some g) (d : DNode) (h : Fit (fun n => (vaVars f).lookup n) d)
    (hn : ∀ n ∈ d.names, (vaVars g).lookup n ≠ none) : Fit (fun n => (vaVars g).lookup n) d := by
  induction d with
  | var n =>
    obtain ⟨e, h1, h2, h3, -⟩ := h
    cases he : (vaVars g).lookup n with
    | none => exact absurd he (hn n (by simp [DNode.names]))
    | some e' =>
      obtain ⟨q1, q2⟩ := scope_names f g r hg n e e' h1 he ⟨h2, h3⟩
      obtain ⟨-, h4, h5, h6, -⟩ := (table_entries g).2 n e' (lookup_entry he)
      refine ⟨e', he, q1, q2, h4, by omega, ?_⟩
      have : (2 : Nat) ^ e'.size ≤ 2 ^ 32 := Nat.pow_le_pow_right (by decide) (by omega)
      omega
  | gvarP v s k t a d p ih => exact ⟨h.1, h.2.1, h.2.2.1, h.2.2.2.1, ih h.2.2.2.2 hn⟩
  | temp x ih => exact ih h hn
  | perm x ih => exact ih h hn
  | expr op a b iha ihb =>
    simp only [DNode.names, List.mem_append] at hn
    exact ⟨iha h.1 (fun n q => hn n (.inl q)), ihb h.2.1 (fun n q => hn n (.inr q)), h.2.2⟩
  | value v => exact h
  | gvar => exact h
  | call n => exact h
  | varP n p _ => exact h

/-- **C67** Code of a switch that is decompiled and printed faithfully, then given to a switch of the same feature and scope. Let `g` be the feature
of the scope (the feature itself, or that of the related object). The text is accepted exactly if the lines can be compiled (C57) and every
name is a name of `g`. The new program computes the lines with the names of `g`; if all the names mean in `g` what they mean in the
feature, it does exactly what the old program did. -/
theorem decompiled_again (f : Nat) (related : Bool) (g : Nat) (hg : scopeFeature f related = some g) (subs : String → Option Int)
    (bs rest : Bytes) (lines : List DNode) (h : decodeCode (vaVars f) 4 bs = some (lines, rest)) (hf : ∀ d ∈ lines.map simplify, Faithful d) :
    ∃ prog text, parseProgram bs = some (prog, rest) ∧ formatLines (lines.map simplify) = some text ∧
      (Decodable7B prog → TakesParam prog →
        ((switchCode f related subs text).isSome = true ↔
          (∀ d ∈ lines.map simplify, Compilable d) ∧ ∀ n ∈ (lines.map simplify).flatMap DNode.names, (vaVars g).lookup n ≠ none) ∧
        ∀ bs2, switchCode f related subs text = some bs2 → ∃ prog2, (∀ rest2, parseProgram (bs2 ++ rest2) = some (prog2, rest2)) ∧
          (∀ (w : Spec.World) (m : Mach), some (runProgram w prog2 m) = evalDLines w (fun n => (vaVars g).lookup n) (lines.map simplify) m) ∧
          ((∀ n ∈ (lines.map simplify).flatMap DNode.names, (vaVars g).lookup n = (vaVars f).lookup n) →
            ∀ (w : Spec.World) (m : Mach), runProgram w prog2 m = runProgram w prog m)) := by
  obtain ⟨prog, hp, hsem⟩ := decoded_code_keeps_meaning (vaVars f) (table_nodup f) bs rest lines h
  obtain ⟨text, htx, hpt⟩ := format_parse_lines _ hf
  refine ⟨prog, text, hp, htx, ?_⟩
  intro h7 htp
  have hfit := decoded_fit (table_nodup f) (table_ok f) h hp h7 htp
  have hne : lines.map simplify ≠ [] := by
    intro q
    have := hsem h7 ⟨fun _ _ _ => 0, fun _ m => (0, m)⟩ ⟨fun _ => 0, fun _ => 0⟩
    rw [q] at this
    simp [evalDLines] at this
  generalize hds : lines.map simplify = ds at *
  have hnames : (ds.map source).flatMap Node.names = ds.flatMap DNode.names := by
    rw [List.flatMap_map]
    unfold List.flatMap
    congr 1
    exact List.map_congr_left (fun d hd => (source_names (hf d hd)).2)
  have hcode : switchCode f related subs text = if (vaVars g).isEmpty ∧ ds.flatMap DNode.names ≠ [] then none else
      compileSwitch ⟨fun n => (vaVars g).lookup n, subs⟩ (ds.map source) := by
    unfold switchCode compileSwitch
    simp only [hg, hpt, Option.bind_eq_bind, Option.bind_some, hnames]
  have hknown : ∀ b, switchCode f related subs text = some b → (∀ n ∈ ds.flatMap DNode.names, (vaVars g).lookup n ≠ none) ∧
      compileSwitch ⟨fun n => (vaVars g).lookup n, subs⟩ (ds.map source) = some b := by
    intro b hb
    rw [hcode, ite_none_left_iff] at hb
    refine ⟨?_, hb.2⟩
    have := compiled_lines_names _ _ _ (fun e he => by
      obtain ⟨d, hd, rfl⟩ := List.mem_map.1 he
      exact (source_names (hf d hd)).1) hb.2
    rw [hnames] at this
    exact this
  have hd : (∀ n ∈ ds.flatMap DNode.names, (vaVars g).lookup n ≠ none) →
      ∀ d ∈ ds, Faithful d ∧ Fit (fun n => (vaVars g).lookup n) d := fun hk d hd =>
    ⟨hf d hd, fit_scope f g related hg d (hfit d hd) (fun n hn => hk n (List.mem_flatMap.2 ⟨d, hd, hn⟩))⟩
  constructor
  · constructor
    · intro hs
      obtain ⟨b, hb⟩ := Option.isSome_iff_exists.1 hs
      obtain ⟨hk, hc⟩ := hknown b hb
      exact ⟨(lines_accepted _ ds hne (hd hk)).1 (by rw [hc]; rfl), hk⟩
    · rintro ⟨h1, hk⟩
      rw [hcode, if_neg]
      · exact (lines_accepted _ ds hne (hd hk)).2 h1
      · rintro ⟨e, q⟩
        rw [List.isEmpty_iff] at e
        obtain ⟨n, hn⟩ := List.exists_mem_of_ne_nil _ q
        exact hk n hn (by rw [e]; rfl)
  · intro bs2 hb
    obtain ⟨hk, hc⟩ := hknown bs2 hb
    obtain ⟨prog2, hp2, hrun⟩ := lines_run_same _ ds (hd hk) bs2 hc
    refine ⟨prog2, hp2, fun w m => (hrun w m).symm, fun hsame w m => ?_⟩
    have e1 := hrun w m
    have e2 := hsem h7 w m
    simp only at e1
    rw [evalDLines_names w _ _ ds hsame m, e2] at e1
    exact (Option.some.inj e1).symm

theorem decompiled_names_known {f : Nat} {bs rest : Bytes} {lines : List DNode} (h : decodeCode (vaVars f) 4 bs = some (lines, rest))
    (hf : ∀ d ∈ lines.map simplify, Faithful d) {prog : Access × List (Nat × Access)} (hp : parseProgram bs = some (prog, rest))
    (h7 : Decodable7B prog) (htp : TakesParam prog) : ∀ n ∈ (lines.map simplify).flatMap DNode.names, (vaVars f).lookup n ≠ none := by
  have hfit := decoded_fit (table_nodup f) (table_ok f) h hp h7 htp
  intro n hn
  obtain ⟨d, hd, hn⟩ := List.mem_flatMap.1 hn
  have key : ∀ d, Faithful d → Fit (fun n => (vaVars f).lookup n) d → ∀ n ∈ d.names, (vaVars f).lookup n ≠ none := by
    intro d hfd
    induction hfd with
    | value v => intro _ n hn; simp [DNode.names] at hn
    | var x _ =>
      rintro ⟨e, he, -⟩ n hn
      simp only [DNode.names, List.mem_singleton] at hn
      subst hn
      simp [he]
    | gvar => intro _ n hn; simp [DNode.names] at hn
    | gvarP v s m t a d p _ _ ih => intro hfit n hn; exact ih hfit.2.2.2.2 n hn
    | temp r _ ih => intro hfit n hn; exact ih hfit n hn
    | perm r _ ih => intro hfit n hn; exact ih hfit n hn
    | call => intro _ n hn; simp [DNode.names] at hn
    | bin o a b _ _ _ _ iha ihb =>
      intro hfit n hn
      simp only [DNode.names, List.mem_append] at hn
      exact hn.elim (iha hfit.1 n) (ihb hfit.2.1 n)
    | fn o a b _ _ iha ihb =>
      intro hfit n hn
      simp only [DNode.names, List.mem_append] at hn
      exact hn.elim (iha hfit.1 n) (ihb hfit.2.1 n)
    | store p a r _ iha =>
      intro hfit n hn
      simp only [DNode.names, List.mem_append, List.not_mem_nil, or_false] at hn
      exact iha hfit.1 n hn
  exact key d (hf d hd) (hfit d hd) n hn

/-- **C67** For a switch on the object itself, and for every switch of a vehicle, the text is accepted exactly if its lines can be compiled, and
the new program does exactly what the old one did. -/
theorem decompiled_again_own (f : Nat) (related : Bool) (hs : related = false ∨ f < 4) (subs : String → Option Int)
    (bs rest : Bytes) (lines : List DNode) (h : decodeCode (vaVars f) 4 bs = some (lines, rest)) (hf : ∀ d ∈ lines.map simplify, Faithful d) :
    ∃ prog text, parseProgram bs = some (prog, rest) ∧ formatLines (lines.map simplify) = some text ∧
      (Decodable7B prog → TakesParam prog →
        ((switchCode f related subs text).isSome = true ↔ ∀ d ∈ lines.map simplify, Compilable d) ∧
        ∀ bs2, switchCode f related subs text = some bs2 → ∃ prog2, (∀ rest2, parseProgram (bs2 ++ rest2) = some (prog2, rest2)) ∧
          ∀ (w : Spec.World) (m : Mach), runProgram w prog2 m = runProgram w prog m) := by
  have hg : scopeFeature f related = some f := by
    rcases hs with rfl | hs
    · rfl
    · have : ∀ f < 4, ∀ r, scopeFeature f r = some f := by decide
      exact this f hs related
  obtain ⟨prog, text, h1, h2, h3⟩ := decompiled_again f related f hg subs bs rest lines h hf
  refine ⟨prog, text, h1, h2, fun h7 htp => ?_⟩
  obtain ⟨a1, a2⟩ := h3 h7 htp
  have hk := decompiled_names_known h hf h1 h7 htp
  refine ⟨⟨fun q => (a1.1 q).1, fun q => a1.2 ⟨q, hk⟩⟩, fun bs2 hb => ?_⟩
  obtain ⟨prog2, b1, -, b3⟩ := a2 bs2 hb
  exact ⟨prog2, b1, b3 (fun n _ => rfl)⟩

/-- **C67** What a related scope does to names: for houses, industries, objects, bridges and airports (the related object is the town) and airport
tiles every name is refused; for industry tiles the names of global variables mean the same, `random_bits` means sixteen bits in place of eight, and
every other name is refused; stations and the features not listed cannot have a switch on a related object at all. -/
theorem related_names (f : Nat) :
    (f ∈ [6, 7, 10, 13, 15, 17] → ∃ g, scopeFeature f true = some g ∧ ∀ n, (vaVars g).lookup n = none) ∧
    (f = 9 → scopeFeature f true = some 10 ∧ ∀ n d, (n, d) ∈ vaVars 9 →
      (n ∈ globalVars.map (·.1) → (vaVars 10).lookup n = some d) ∧
      (n = "random_bits" → d = ⟨0x5f, 8, 8, none⟩ ∧ (vaVars 10).lookup n = some ⟨0x5f, 8, 16, none⟩) ∧
      (n ∉ globalVars.map (·.1) → n ≠ "random_bits" → (vaVars 10).lookup n = none)) ∧
    (f ∉ [0, 1, 2, 3, 6, 7, 9, 10, 13, 15, 17] → scopeFeature f true = none ∧ ∀ subs text, switchCode f true subs text = none) := by
  refine ⟨?_, ?_, ?_⟩
  · intro h
    simp only [List.mem_cons, List.not_mem_nil, or_false] at h
    rcases h with rfl | rfl | rfl | rfl | rfl | rfl <;> exact ⟨_, rfl, fun n => rfl⟩
  · rintro rfl
    refine ⟨rfl, ?_⟩
    intro n d h
    have key : (vaVars 9).all (fun p => if (globalVars.map (·.1)).contains p.1 then (vaVars 10).lookup p.1 == some p.2 else
        if p.1 == "random_bits" then p.2 == ⟨0x5f, 8, 8, none⟩ && (vaVars 10).lookup p.1 == some ⟨0x5f, 8, 16, none⟩ else
          (vaVars 10).lookup p.1 == none) = true := by decide +kernel
    have nr : "random_bits" ∉ globalVars.map (·.1) := by decide +kernel
    have := List.all_eq_true.1 key _ h
    simp only at this
    by_cases h1 : n ∈ globalVars.map (·.1)
    · rw [if_pos (by simpa using h1)] at this
      refine ⟨fun _ => by simpa using this, fun q => absurd (q ▸ h1) nr, fun q => absurd h1 q⟩
    · rw [if_neg (by simpa using h1)] at this
      by_cases h2 : n = "random_bits"
      · rw [if_pos (by simpa using h2)] at this
        simp only [Bool.and_eq_true, beq_iff_eq] at this
        exact ⟨fun q => absurd q h1, fun _ => this, fun _ q => absurd h2 q⟩
      · rw [if_neg (by simpa using h2)] at this
        exact ⟨fun q => absurd q h1, fun q => absurd q h2, fun _ _ => by simpa using this⟩
  · intro h
    have hn : scopeFeature f true = none := by
      simp only [List.mem_cons, List.not_mem_nil, or_false, not_or] at h
      unfold scopeFeature
      simp only [if_true]
      split <;> first | omega | rfl
    exact ⟨hn, fun subs text => by unfold switchCode; rw [hn]; rfl⟩

/-- **C67 boundary** A switch of an industry tile that reads eight random bits of the industry is decompiled to `random_bits`; compiled again, it
reads sixteen bits. -/
theorem related_random_bits_differ (subs : String → Option Int) :
    decodeCode (vaVars 9) 4 [0x5f, 8, 0xff, 0, 0, 0] = some ([.var "random_bits"], []) ∧
    formatLines [simplify (.var "random_bits")] = some "random_bits".toList ∧
    switchCode 9 true subs "random_bits".toList = some [0x5f, 8, 0xff, 0xff, 0, 0] ∧
    ∃ (w : Spec.World) (m : Mach), (parseProgram [0x5f, 8, 0xff, 0, 0, 0]).map (fun p => (runProgram w p.1 m).1) = some 0 ∧
      (parseProgram [0x5f, 8, 0xff, 0xff, 0, 0]).map (fun p => (runProgram w p.1 m).1) = some 0x100 := by
  refine ⟨by decide +kernel, by simp only [simplify]; decide +kernel, ?_, ⟨fun _ _ _ => 0x10000, fun _ m => (0, m)⟩, ⟨fun _ => 0, fun _ => 0⟩, by decide +kernel, by decide +kernel⟩
  have hl : (vaVars 10).lookup "random_bits" = some ⟨0x5f, 8, 16, none⟩ := by decide +kernel
  have hne : (vaVars 10).isEmpty = false := by decide +kernel
  unfold switchCode
  simp only [scopeFeature, if_true, Option.bind_eq_bind, Option.bind_some, hne, parse_name ((isName_iff "random_bits".toList).1 (by decide +kernel)),
    compileLines, compile, hl, List.foldlM_nil]
  rw [show packVar ((0x5f : Nat) : Int) (0 + ((8 : Nat) : Int)) (pyAnd FULL (pyShr (2 ^ 16 - 1) (Int.toNat 0))) = some [0x5f, 0x28, 0xff, 0xff, 0, 0] by decide +kernel]
  rfl

/-- **C67 boundary** A switch of a house that reads the town (field 0, eight bits, of variable 0x41, called `age` in a house) is decompiled, but its
text is refused. -/
theorem related_town_refused (subs : String → Option Int) :
    decodeCode (vaVars 7) 4 [0x41, 0, 0xff, 0, 0, 0] = some ([.var "age"], []) ∧ switchCode 7 true subs "age".toList = none := by
  refine ⟨by decide +kernel, ?_⟩
  unfold switchCode
  simp only [scopeFeature, if_true, Option.bind_eq_bind, Option.bind_some, parse_name ((isName_iff "age".toList).1 (by decide +kernel))]
  rfl

/-- The bits 8..12 of variable 0x02 of a train: the hypotheses of `decompiled_again_own` and `name_computes_field` are met. -/
example : decodeCode (vaVars 0) 4 [0x02, 8, 0x1f, 0, 0, 0] = some ([.var "current_day_of_month"], []) ∧
    (∀ d ∈ [DNode.var "current_day_of_month"].map simplify, Faithful d) ∧ ("current_day_of_month", ⟨0x02, 8, 5, none⟩) ∈ vaVars 0 ∧
    ("tile_height", ⟨0x62, 16, 8, some 0⟩) ∈ vaVars 15 ∧ ("cargo_accepted", ⟨0x65, 3, 1, none⟩) ∈ vaVars 4 := by
  refine ⟨by decide +kernel, ?_, by decide +kernel, by decide +kernel, by decide +kernel⟩
  simp only [List.map_cons, List.map_nil, List.mem_singleton, simplify]
  rintro d rfl
  exact .var _ ((isName_iff _).1 (by decide +kernel))

end Grf
