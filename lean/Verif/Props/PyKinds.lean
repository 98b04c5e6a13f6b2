import Verif.Props.Py
set_option linter.unusedSimpArgs false
/-!
# C66: the calls of each kind
-/
namespace Grf.Py
open Acts PropC

theorem run_iff (names : String → Option Target) (cls : String) (args : List (String × Ex)) (vs : List (String × Val)) (ps : List Param)
    (m : List (String × Val)) (h1 : evalArgs names args = some vs) (h2 : signature cls = some ps) (h3 : bindArgs ps vs = some m) :
    runCall names ⟨cls, args⟩ = construct cls fun k => m.lookup k := by
  simp only [runCall, h1, h2, h3, Option.bind_eq_bind, Option.bind_some]

theorem sets_runs (names : String → Option Target) (a : Sets) (hf : a.feature ≤ 0x14) :
    ∃ c, py [] (.act (.sets a)) = some c ∧ runCall names c = some (.act (.sets a)) := by
  obtain ⟨f, n, m, o⟩ := a
  simp only at hf
  by_cases h : n = 1 ∧ o = none
  · obtain ⟨rfl, rfl⟩ := h
    refine ⟨_, rfl, ?_⟩
    refine (run_iff names _ _ [("feature", .feature f), ("count", .int m)] _ _ ?_ rfl rfl).trans ?_
    · simp only [evalArgs, eval_feature names f hf, eval, Option.bind_some, Option.map_some]
    · rfl
  · refine ⟨_, if_neg h, ?_⟩
    refine (run_iff names _ _ [("feature", .feature f), ("set_count", .int n), ("sprite_count", .int m), ("first_set", match o with | none => .none | some n => .int n)] _ _ ?_ rfl rfl).trans ?_
    · cases o <;> simp only [evalArgs, eval_feature names f hf, eval, optEx, Option.bind_some, Option.map_some]
    · cases o <;> rfl

/-! ### Kinds without references -/

theorem eval_bool (names : String → Option Target) (b : Bool) : eval names (.bool b) = some (.bool b) := by simp only [eval]
theorem eval_int (names : String → Option Target) (n : Int) : eval names (.int n) = some (.int n) := by simp only [eval]
theorem eval_list (names : String → Option Target) (l : List Ex) : eval names (.list l) = (evalList names l).map .list := by simp only [eval]

/-- A number or nothing. -/
def optV : Option Int → Val
  | none => .none
  | some n => .int n

theorem eval_optEx (names : String → Option Target) (o : Option Int) : eval names (optEx o) = some (optV o) := by
  cases o <;> simp only [optEx, optV, eval]

theorem optInt_back (o : Option Int) : (optV o).optInt? = some o := by
  cases o <;> rfl

theorem generic_runs (names : String → Option Target) (g : Generic) (hf : g.feature ≤ 0x14) (ha : g.accepted = true) :
    ∃ c, py [] (.act (.generic g)) = some c ∧ runCall names c = some (.act (.generic g)) := by
  obtain ⟨f, r, a, b⟩ := g
  simp only at hf
  refine ⟨_, rfl, ?_⟩
  refine (run_iff names _ _ [("feature", .feature f), ("ref_id", .int r), ("ent1", .tuple (a.map .int)), ("ent2", .tuple (b.map .int))] _ _ ?_
    rfl rfl).trans ?_
  · simp only [evalArgs, eval_feature names f hf, eval, eval_ints, Option.bind_some, Option.map_some]
  · have e : construct "GenericSpriteLayout" (fun k => List.lookup k [("ent1", Val.tuple (a.map .int)), ("ent2", .tuple (b.map .int)),
        ("feature", .feature f), ("ref_id", .int r)]) = ((Val.tuple (a.map .int)).ints?.bind fun a => (Val.tuple (b.map .int)).ints?.bind fun b =>
        check (Generic.mk f r a b).accepted (.act (.generic ⟨f, r, a, b⟩))) := rfl
    refine e.trans ?_
    simp only [tuple_ints?, Option.bind_some, ha, check, if_true]

theorem production_runs (names : String → Option Target) (p : Production) (ha : p.accepted = true) :
    ∃ c, py [] (.act (.production p)) = some c ∧ runCall names c = some (.act (.production p)) := by
  cases p with
  | old v i o d =>
    refine ⟨_, rfl, ?_⟩
    refine (run_iff names _ _ [("version", .int v), ("inputs", .list (i.map .int)), ("outputs", .list (o.map .int)), ("do_again", .int d)] _ _ ?_
      rfl rfl).trans ?_
    · simp only [evalArgs, intsEx, eval, eval_ints, Option.bind_some, Option.map_some]
    · have hv : v < 2 := by simp only [Production.accepted, Bool.and_eq_true, decide_eq_true_eq] at ha; exact ha.1.1
      have e : construct "IndustryProductionCallback" (fun k => List.lookup k [("inputs", Val.list (i.map .int)), ("outputs", .list (o.map .int)),
          ("do_again", .int d), ("version", .int v)]) = (if (v : Int) < 2 then ((Val.list (i.map .int)).ints?.bind fun i =>
          (Val.list (o.map .int)).ints?.bind fun o =>
          check (decide ((0 : Int) ≤ v) && (Production.old (v : Int).toNat i o d).accepted) (.act (.production (.old (v : Int).toNat i o d)))) else
          (pairsVal (Val.list (i.map .int))).bind fun i => (pairsVal (Val.list (o.map .int))).bind fun o =>
          check ((v : Int) == 2 && (Production.new i o d).accepted) (.act (.production (.new i o d)))) := rfl
      refine e.trans ?_
      rw [if_pos (by omega)]
      simp only [list_ints?, Option.bind_some, Int.toNat_natCast, ha, check]
      simp
  | new i o d =>
    have pb : ∀ l : List (List Int), pairsVal (.list (l.map fun p => .tuple (p.map .int))) = some l := fun l => by
      have := mapM_back Val.ints? (fun w : List Int => Val.tuple (w.map Val.int)) id l (fun w _ => tuple_ints? w)
      simpa [pairsVal, Val.seq?] using this
    have pe : ∀ l : List (List Int), eval names (pairsEx l) = some (.list (l.map fun p => .tuple (p.map .int))) := fun l => by
      simp only [pairsEx, eval, evalList_map names (fun w : List Int => Ex.tuple (w.map Ex.int)) (fun w => Val.tuple (w.map Val.int)) l
        (fun w _ => by simp only [eval, eval_ints, Option.map_some]), Option.map_some]
    refine ⟨_, rfl, ?_⟩
    refine (run_iff names _ _ [("version", .int 2), ("inputs", .list (i.map fun p => .tuple (p.map .int))),
      ("outputs", .list (o.map fun p => .tuple (p.map .int))), ("do_again", .int d)] _ _ ?_ rfl rfl).trans ?_
    · simp only [evalArgs, pe, eval, Option.bind_some, Option.map_some]
    · have e : construct "IndustryProductionCallback" (fun k => List.lookup k [("inputs", Val.list (i.map fun p => .tuple (p.map .int))),
          ("outputs", .list (o.map fun p => .tuple (p.map .int))), ("do_again", .int d), ("version", .int 2)]) =
          ((pairsVal (Val.list (i.map fun p => .tuple (p.map .int)))).bind fun i =>
          (pairsVal (Val.list (o.map fun p => .tuple (p.map .int)))).bind fun o =>
          check ((2 : Int) == 2 && (Production.new i o d).accepted) (.act (.production (.new i o d)))) := rfl
      refine e.trans ?_
      simp only [pb, Option.bind_some, ha, check]
      simp

theorem texts_runs (names : String → Option Target) (s : Texts) (hf : s.feature ≤ 0x14) (ha : s.accepted = true) :
    ∃ c, py [] (.act (.texts s)) = some c ∧ runCall names c = some (.act (.texts s)) := by
  obtain ⟨f, l, o, g, s⟩ := s
  simp only at hf
  refine ⟨_, rfl, ?_⟩
  refine (run_iff names _ _ [("feature", .feature f), ("lang", .int l), ("offset", .int o), ("is_generic_offset", .bool g),
    ("strings", .list (s.map .bytes))] _ _ ?_ rfl rfl).trans ?_
  · simp only [evalArgs, eval_feature names f hf, eval, eval_bytes, Option.bind_some, Option.map_some]
  · have e : construct "DefineStrings" (fun k => List.lookup k [("feature", Val.feature f), ("offset", .int o), ("is_generic_offset", .bool g),
        ("strings", .list (s.map .bytes)), ("lang", .int l)]) = ((s.map Val.bytes).mapM Val.bytes?).bind fun s =>
        check (Texts.mk f l o g s).accepted (.act (.texts ⟨f, l, o, g, s⟩)) := rfl
    refine e.trans ?_
    simp only [bytes_back, Option.bind_some, ha, check, if_true]

theorem newSprites_runs (names : String → Option Target) (a : NewSprites) :
    ∃ c, py [] (.act (.newSprites a)) = some c ∧ runCall names c = some (.act (.newSprites a)) := by
  obtain ⟨t, n, o⟩ := a
  refine ⟨_, rfl, ?_⟩
  refine (run_iff names _ _ [("set_type", .int t), ("count", .int n), ("offset", optV o)] _ _ ?_
    rfl rfl).trans ?_
  · simp only [evalArgs, eval_optEx, eval, Option.bind_some, Option.map_some]
  · cases o <;> rfl

theorem modify_runs (names : String → Option Target) (ps : List ModParam) :
    ∃ c, py [] (.act (.modify ps)) = some c ∧ runCall names c = some (.act (.modify ps)) := by
  refine ⟨_, rfl, ?_⟩
  have h1 := evalList_map names (fun p : ModParam => Ex.dict [(.str "num", .int p.num), (.str "size", .int p.size), (.str "offset", .int p.offset)])
    (fun p => Val.dict [(.str "num", .int p.num), (.str "size", .int p.size), (.str "offset", .int p.offset)]) ps
    (fun p _ => eval_dict names _ _ (by simp only [evalDict, eval, Option.bind_some, Option.map_some]) (by simp))
  have h2 := mapM_back modVal (fun p : ModParam => Val.dict [(.str "num", .int p.num), (.str "size", .int p.size), (.str "offset", .int p.offset)])
    id ps (fun p _ => rfl)
  refine (run_iff names _ _ [("", .list (ps.map fun p => .dict [(.str "num", .int p.num), (.str "size", .int p.size), (.str "offset", .int p.offset)]))] _ _ ?_
    rfl rfl).trans ?_
  · simp only [evalArgs, eval, h1, Option.bind_some, Option.map_some]
  · have e : construct "ModifySprites" (fun k => List.lookup k [("params", Val.list (ps.map fun p => .dict [(.str "num", .int p.num),
        (.str "size", .int p.size), (.str "offset", .int p.offset)]))]) = ((ps.map fun p => Val.dict [(.str "num", .int p.num),
        (.str "size", .int p.size), (.str "offset", .int p.offset)]).mapM modVal).bind fun l => some (.act (.modify l)) := rfl
    refine e.trans ?_
    simp only [h2, List.map_id_fun, id, Option.bind_some]

theorem cond_runs (names : String → Option Target) (a : If) (n : Int) (hv : a.value = .int n) (hn : 0 ≤ n) (ha : a.accepted = true) :
    ∃ c, py [] (.act (.cond a)) = some c ∧ runCall names c = some (.act (.cond a)) := by
  obtain ⟨st, v, sz, c, x, k⟩ := a
  simp only at hv
  subst hv
  cases sz with
  | none => cases ha
  | some z => exact ⟨_, if_neg (by omega), rfl⟩

theorem description_runs (names : String → Option Target) (a : Description) (ha : a.getData.isSome = true) :
    ∃ c, py [] (.act (.description a)) = some c ∧ runCall names c = some (.act (.description a)) := by
  obtain ⟨v, g, n, d⟩ := a
  refine ⟨_, rfl, ?_⟩
  refine (run_iff names _ _ [("format_version", .int v), ("grfid", .bytes g), ("name", .bytes n), ("description", .bytes d)] _ _ ?_
    rfl rfl).trans ?_
  · simp only [evalArgs, eval, Option.bind_some, Option.map_some]
  · have e : construct "SetDescription" (fun k => List.lookup k [("grfid", Val.bytes g), ("name", .bytes n), ("description", .bytes d),
        ("format_version", .int v)]) = check (Description.mk v g n d).getData.isSome (.act (.description ⟨v, g, n, d⟩)) := rfl
    refine e.trans ?_
    simp only [ha, check, if_true]

theorem old_runs (names : String → Option Target) (s : List (Int × Int)) (hl : s.length ≤ 0xff) :
    ∃ c, py [] (.act (.oldSprites s)) = some c ∧ runCall names c = some (.act (.oldSprites s)) := by
  refine ⟨_, rfl, ?_⟩
  have h1 := evalList_map names (fun p : Int × Int => Ex.tuple [Ex.int p.1, Ex.int p.2]) (fun p => Val.tuple [Val.int p.1, Val.int p.2]) s
    (fun w _ => by simp only [eval, evalList, Option.bind_some, Option.map_some])
  have h2 := mapM_back Val.pair? (fun p : Int × Int => Val.tuple [Val.int p.1, Val.int p.2]) id s (fun w _ => rfl)
  refine (run_iff names _ _ [("sets", .list (s.map fun p => .tuple [.int p.1, .int p.2]))] _ _ ?_ rfl rfl).trans ?_
  · simp only [evalArgs, eval, h1, Option.bind_some, Option.map_some]
  · have e : construct "ReplaceOldSprites" (fun k => List.lookup k [("sets", Val.list (s.map fun p => .tuple [.int p.1, .int p.2]))]) =
        ((s.map fun p => Val.tuple [.int p.1, .int p.2]).mapM Val.pair?).bind fun l => check (l.length ≤ 0xff) (.act (.oldSprites l)) := rfl
    refine e.trans ?_
    simp only [h2, List.map_id_fun, id, Option.bind_some, check, decide_eq_true hl, if_true]

theorem error_runs (names : String → Option Target) (e : Err) (ha : e.accepted = true) :
    ∃ c, py [] (.act (.error e)) = some c ∧ runCall names c = some (.act (.error e)) := by
  obtain ⟨s, l, m, t, p⟩ := e
  refine ⟨_, rfl, ?_⟩
  refine (run_iff names _ _ [("severity", .int s), ("lang", .int l), ("message", match m with | .int n => .int n | .bytes b => .bytes b),
    ("text_param", match t with | none => .none | some b => .bytes b), ("params", .list (p.map .int))] _ _ ?_ rfl rfl).trans ?_
  · cases m <;> cases t <;> simp only [evalArgs, msgEx, intsEx, eval, eval_ints, Option.bind_some, Option.map_some]
  · have hp : ∀ (mv : Val) (m : Msg) (tv : Val) (t : Option Bytes), msgVal mv = some m → tv.optBytes? = some t →
        (Err.mk s l m t p).accepted = true → construct "ErrorMessage" (fun k => List.lookup k [("severity", Val.int s), ("lang", .int l), ("message", mv),
        ("text_param", tv), ("params", .list (p.map .int))]) = some (.act (.error ⟨s, l, m, t, p⟩)) := by
      intro mv m tv t h1 h2 h3
      have e : construct "ErrorMessage" (fun k => List.lookup k [("severity", Val.int s), ("lang", .int l), ("message", mv),
        ("text_param", tv), ("params", .list (p.map .int))]) = (msgVal mv).bind fun m => tv.optBytes?.bind fun t =>
        (Val.list (p.map .int)).ints?.bind fun p => check (Err.mk s l m t p).accepted (.act (.error ⟨s, l, m, t, p⟩)) := rfl
      rw [e]
      simp only [h1, h2, list_ints?, Option.bind_some, h3, check, if_true]
    exact hp _ m _ t (by cases m <;> rfl) (by cases t <;> rfl) ha

theorem comment_runs (names : String → Option Target) (d : Bytes) :
    ∃ c, py [] (.act (.comment d)) = some c ∧ runCall names c = some (.act (.comment d)) :=
  ⟨_, rfl, rfl⟩

theorem compute_runs (names : String → Option Target) (a : Compute) (hv : a.value = .none ∨ ∃ n, a.value = .int n ∧ 0 ≤ n ∧ n < 4294967296) :
    ∃ c, py [] (.act (.compute a)) = some c ∧ runCall names c = some (.act (.compute a)) := by
  obtain ⟨t, o, u, s1, s2, v⟩ := a
  simp only at hv
  rcases hv with rfl | ⟨n, rfl, h1, h2⟩
  · exact ⟨_, rfl, rfl⟩
  · exact ⟨_, if_pos (by simp [h1, h2]), rfl⟩

theorem label_runs (names : String → Option Target) (a : Lbl) (h : 0 ≤ a.label ∧ a.label ≤ 255) :
    ∃ c, py [] (.act (.label a)) = some c ∧ runCall names c = some (.act (.label a)) := by
  obtain ⟨l, c⟩ := a
  refine ⟨_, rfl, ?_⟩
  have e : runCall names ⟨"Label", [("", .int l), ("", .bytes c)]⟩ = check (decide (0 ≤ l) && decide (l ≤ 255)) (.act (.label ⟨l, c⟩)) := rfl
  refine e.trans ?_
  simp only at h
  simp [check, h.1, h.2]

theorem sounds_runs (names : String → Option Target) (n : Int) :
    ∃ c, py [] (.act (.sounds n)) = some c ∧ runCall names c = some (.act (.sounds n)) :=
  ⟨_, rfl, rfl⟩

theorem import_runs (names : String → Option Target) (g : Bytes) (n : Int) :
    ∃ c, py [] (.act (.importSound g n)) = some c ∧ runCall names c = some (.act (.importSound g n)) :=
  ⟨_, rfl, rfl⟩

theorem basic_fails (names : String → Option Target) (b : Basic) (hf : b.feature ≤ 0x14) :
    ∃ c, py [] (.act (.basic b)) = some c ∧ runCall names c = none := by
  refine ⟨_, rfl, ?_⟩
  simp only [runCall, evalArgs, eval_feature names _ hf, eval, evalDict, eval_sprite, Option.bind_some, Option.bind_none, Option.map_none,
    Option.bind_eq_bind]

theorem layout_fails (names : String → Option Target) (l : Layout) (hf : l.feature ≤ 0x14) :
    ∃ c, py [] (.act (.layout l)) = some c ∧ runCall names c = none := by
  refine ⟨_, rfl, ?_⟩
  simp only [runCall, evalArgs, eval_feature names _ hf, eval, evalDict, eval_sprite, Option.bind_some, Option.bind_none, Option.map_none,
    Option.bind_eq_bind]


/-! ### Kinds with references -/

/-- The expressions of references have these values. -/
def Values (names : String → Option Target) (refs : List Ex) (ts : List Target) : Prop := evalList names refs = some (ts.map .target)

theorem targets_back (ts : List Target) : (ts.map Val.target).mapM Val.target? = some ts := by
  have := mapM_back Val.target? Val.target id ts fun _ _ => rfl
  simpa using this

theorem eval_some_length (names : String → Option Target) : ∀ (es : List Ex) (vs : List Val), evalList names es = some vs → es.length = vs.length
  | [], vs, h => by simp only [evalList, Option.some.injEq] at h; subst h; rfl
  | e :: es, vs, h => by
    simp only [evalList, Option.bind_eq_some_iff, Option.map_eq_some_iff] at h
    obtain ⟨v, -, l, hl, rfl⟩ := h
    simp [eval_some_length names es l hl]

/-- The last of several references. -/
theorem values_last (names : String → Option Target) (refs : List Ex) (ts : List Target) (t : Target) (h : Values names refs (ts ++ [t])) :
    ∃ rs r, refs = rs ++ [r] ∧ Values names rs ts ∧ eval names r = some (.target t) := by
  induction ts generalizing refs with
  | nil =>
    match refs, h with
    | [], h => simp [Values, evalList] at h
    | [r], h =>
      simp only [Values, evalList, List.nil_append, List.map_cons, List.map_nil, Option.bind_eq_some_iff, Option.map_some, Option.some.injEq,
        List.cons.injEq, and_true] at h
      obtain ⟨v, hv, rfl⟩ := h
      exact ⟨[], r, rfl, rfl, hv⟩
    | r :: r' :: rs, h => have := eval_some_length names _ _ h; simp at this
  | cons s ts ih =>
    match refs, h with
    | [], h => simp [Values, evalList] at h
    | r :: rs, h =>
      simp only [Values, List.cons_append, evalList, List.map_cons, Option.bind_eq_some_iff, Option.map_eq_some_iff, List.cons.injEq] at h
      obtain ⟨v, hv, l, hl, rfl, rfl⟩ := h
      obtain ⟨rs', r', rfl, h1, h2⟩ := ih rs hl
      refine ⟨r :: rs', r', rfl, ?_, h2⟩
      simp only [Values] at h1
      simp only [Values, evalList, hv, h1, List.map_cons, Option.bind_some, Option.map_some]

theorem dict_refs (names : String → Option Target) (ks : List DKey) (refs : List Ex) (ts : List Target) (h : Values names refs ts)
    (hl : ts.length = ks.length) : evalDict names (ks.zip refs) = some (ks.zip (ts.map .target)) := by
  induction ks generalizing refs ts with
  | nil => simp [evalDict]
  | cons k ks ih =>
    match ts, hl with
    | t :: ts, hl =>
    match refs, h with
    | [], h => simp [Values, evalList] at h
    | r :: rs, h =>
    simp only [Values, evalList, List.map_cons, Option.bind_eq_some_iff, Option.map_eq_some_iff, List.cons.injEq] at h
    obtain ⟨v, hv, l, hl', rfl, rfl⟩ := h
    simp only [List.zip_cons_cons, evalDict, hv, Option.bind_some, ih rs ts hl' (by simpa using hl), Option.map_some, List.map_cons]

theorem random_runs (names : String → Option Target) (r : Random) (hf : r.feature ≤ 0x14) (ha : r.accepted = true) (refs : List Ex)
    (ts : List Target) (hr : Values names refs ts) :
    ∃ c, py refs (.act (.random r)) = some c ∧ runCall names c = some (.act (.random { r with groups := ts })) := by
  obtain ⟨f, i, s, n, t, ca, lb, g⟩ := r
  simp only at hf
  refine ⟨_, rfl, ?_⟩
  refine (run_iff names _ _ [("feature", .feature f), ("ref_id", .int i), ("scope", .str (scopeName s)),
    ("count", optV n), ("triggers", .int t), ("cmp_all", .bool ca), ("lowest_bit", .int lb),
    ("groups", .list (ts.map .target))] _ _ ?_ rfl rfl).trans ?_
  · simp only [Values] at hr
    simp only [evalArgs, eval_feature names f hf, eval_optEx, eval, hr, Option.bind_some, Option.map_some]
  · have hp : ∀ nv : Val, nv.optInt? = some n → construct "RandomSwitch" (fun k => List.lookup k [("scope", Val.str (scopeName s)),
        ("triggers", .int t), ("cmp_all", .bool ca), ("lowest_bit", .int lb), ("groups", .list (ts.map .target)), ("count", nv),
        ("feature", .feature f), ("ref_id", .int i)]) = some (.act (.random ⟨f, i, s, n, t, ca, lb, ts⟩)) := by
      intro nv hn
      have e : construct "RandomSwitch" (fun k => List.lookup k [("scope", Val.str (scopeName s)),
        ("triggers", .int t), ("cmp_all", .bool ca), ("lowest_bit", .int lb), ("groups", .list (ts.map .target)), ("count", nv),
        ("feature", .feature f), ("ref_id", .int i)]) = (scopeVal (.str (scopeName s))).bind fun s => nv.optInt?.bind fun n =>
          ((ts.map Val.target).mapM Val.target?).bind fun g => check (Random.mk f i s n t ca lb g).accepted (.act (.random ⟨f, i, s, n, t, ca, lb, g⟩)) :=
        rfl
      have hs : scopeVal (.str (scopeName s)) = some s := by cases s <;> rfl
      have ha' : (Random.mk f i s n t ca lb ts).accepted = true := ha
      rw [e, hs, hn, targets_back]
      simp only [Option.bind_some, check, ha', if_true]
    exact hp _ (optInt_back n)

theorem map_runs (names : String → Option Target) (a : GMap) (hf : a.feature ≤ 0x14) (hk : (a.maps.map (·.1)).Nodup) (refs : List Ex)
    (ts : List Target) (t : Target) (hl : ts.length = a.maps.length) (hr : Values names refs (ts ++ [t])) :
    ∃ c, py refs (.act (.map a)) = some c ∧
      runCall names c = some (.act (.map { a with maps := (a.maps.map (·.1)).zip ts, default := t })) := by
  obtain ⟨f, ids, m, d, w⟩ := a
  simp only at hf hk hl
  obtain ⟨rs, r, rfl, h1, h2⟩ := values_last names refs ts t hr
  refine ⟨_, rfl, ?_⟩
  have hz : (m.map fun p => DKey.int p.1).zip (rs ++ [r]) = (m.map fun p => DKey.int p.1).zip rs := by
    have : rs.length = (m.map fun p => DKey.int p.1).length := by
      have := eval_some_length names _ _ h1
      simpa [this] using hl
    rw [← List.append_nil (m.map fun p => DKey.int p.1), List.zip_append this.symm]
    simp
  have hd := dict_refs names (m.map fun p => DKey.int p.1) rs ts h1 (by simpa using hl)
  refine (run_iff names _ _ [("feature", .feature f), ("wagon_override", .bool w), ("ids", .list (ids.map .int)),
    ("maps", .dict ((m.map fun p => DKey.int p.1).zip (ts.map .target))), ("default", .target t)] _ _ ?_ rfl rfl).trans ?_
  · have h3 := eval_dict names _ _ hd (by
      rw [List.map_fst_zip (by simpa using hl.ge)]
      have := List.Pairwise.map DKey.int (S := (· ≠ ·)) (fun a b h e => h (by cases e; rfl)) hk
      simpa [Function.comp_def, List.Nodup] using this)
    rw [hz]
    simp only [evalArgs, eval_feature names f hf, intsEx, h3, List.getLastD_concat, h2, eval_bool, eval_list, eval_ints, Option.bind_some, Option.map_some]
  · have e : construct "Action3" (fun k => List.lookup k [("feature", Val.feature f), ("ids", .list (ids.map .int)),
        ("maps", .dict ((m.map fun p => DKey.int p.1).zip (ts.map .target))), ("default", .target t), ("wagon_override", .bool w)]) =
        (Val.list (ids.map .int)).ints?.bind fun ids => (((m.map fun p => DKey.int p.1).zip (ts.map Val.target)).mapM fun (p : DKey × Val) => p.1.int?.bind fun k =>
          p.2.target?.map fun t => (k, t)).bind fun m => some (.act (.map ⟨f, ids, m, t, w⟩)) := rfl
    refine e.trans ?_
    have hb : ∀ (l : List (Int × Target)) (ts : List Target), ts.length = l.length → (((l.map fun p => DKey.int p.1).zip (ts.map Val.target)).mapM fun (p : DKey × Val) => p.1.int?.bind fun k =>
          p.2.target?.map fun t => (k, t)) = some ((l.map (·.1)).zip ts) := by
      intro l
      induction l with
      | nil => intro ts _; rfl
      | cons p l ih =>
        intro ts h
        match ts, h with
        | t :: ts, h =>
        rw [List.map_cons, List.map_cons, List.zip_cons_cons, List.mapM_cons, ih ts (by simpa using h)]
        rfl
    rw [list_ints?, hb m ts hl]
    rfl


/-! ### Definitions of items -/

/-- What the decoder guarantees of a definition. -/
structure SoundDef (d : Def0) : Prop where
  feature : d.feature ≤ 0x14
  table : (table d.feature).isSome = true
  keys : (d.props.map (·.1)).Nodup
  values : ∀ p ∈ d.props, (∃ e, byName d.feature p.1 = some e ∧ ∀ v ∈ p.2, OkVal e.fmt v) ∧ p.2.length = d.count

theorem SoundDef.accepted {d : Def0} (h : SoundDef d) : d.accepted = true := by
  simp only [Def0.accepted, h.table, Bool.true_and, List.all_eq_true]
  intro p hp
  obtain ⟨⟨e, he, -⟩, -⟩ := h.values p hp
  simp [he]

theorem define_runs (names : String → Option Target) (d : Def0) (h : SoundDef d) :
    ∃ c, py [] (.act (.define d)) = some c ∧
      ((∀ p ∈ d.props, ∀ v ∈ p.2, PrintableVal v) → runCall names c = some (.act (.define d))) ∧
      (¬ (∀ p ∈ d.props, ∀ v ∈ p.2, PrintableVal v) → runCall names c = none) := by
  have ha := h.accepted
  obtain ⟨f, i, n, ps⟩ := d
  have hf : f ≤ 0x14 := h.feature
  have hk : (ps.map (·.1)).Nodup := h.keys
  have hv := h.values
  simp only at hv
  by_cases h1 : n = 1
  · subst h1
    obtain ⟨l, hl, hp, hnp⟩ := props_run names f true ps fun p hp => ⟨(hv p hp).1, fun _ => (hv p hp).2⟩
    have hpy : py [] (.act (.define ⟨f, i, 1, ps⟩)) = some ⟨"Define", [("feature", featureEx f), ("id", .int i), ("props", .dict l)]⟩ := by
      have e : propsEx f true ps = some (.dict l) := by unfold propsEx; rw [hl]; rfl
      simp only [py, e, if_true, Option.map_some]
    refine ⟨_, hpy, fun hc => ?_, fun hc => ?_⟩
    · obtain ⟨ws, hw, hkeys, hb⟩ := hp hc
      have hd := eval_dict names l ws hw (by
        rw [hkeys]
        have := List.Pairwise.map DKey.str (S := (· ≠ ·)) (fun a b h e => h (by cases e; rfl)) hk
        simpa [Function.comp_def, List.Nodup] using this)
      refine (run_iff names _ _ [("feature", .feature f), ("id", .int i), ("props", .dict ws)] _ _ ?_ rfl rfl).trans ?_
      · simp only [evalArgs, eval_feature names f hf, eval_int, hd, Option.bind_some, Option.map_some]
      · have e : construct "Define" (fun k => List.lookup k [("feature", Val.feature f), ("id", .int i), ("props", .dict ws)]) =
            (propsVal f true ws).bind fun p => check (Def0.mk f i 1 p).accepted (.act (.define ⟨f, i, 1, p⟩)) := rfl
        refine e.trans ?_
        simp only [hb, Option.bind_some, ha, check, if_true]
    · simp only [runCall, evalArgs, eval_feature names f hf, eval, hnp hc, Option.bind_some, Option.bind_none, Option.map_none,
        Option.bind_eq_bind]
  · obtain ⟨l, hl, hp, hnp⟩ := props_run names f false ps fun p hp => ⟨(hv p hp).1, fun e => Bool.noConfusion e⟩
    have hpy : py [] (.act (.define ⟨f, i, n, ps⟩)) = some ⟨"DefineMultiple", [("feature", featureEx f), ("first_id", .int i), ("count", .int n),
        ("props", .dict l)]⟩ := by
      simp only [py, propsEx, h1, if_false, hl, Option.map_some]
    refine ⟨_, hpy, fun hc => ?_, fun hc => ?_⟩
    · obtain ⟨ws, hw, hkeys, hb⟩ := hp hc
      have hd := eval_dict names l ws hw (by
        rw [hkeys]
        have := List.Pairwise.map DKey.str (S := (· ≠ ·)) (fun a b h e => h (by cases e; rfl)) hk
        simpa [Function.comp_def, List.Nodup] using this)
      refine (run_iff names _ _ [("feature", .feature f), ("first_id", .int i), ("count", .int n), ("props", .dict ws)] _ _ ?_ rfl rfl).trans ?_
      · simp only [evalArgs, eval_feature names f hf, eval_int, hd, Option.bind_some, Option.map_some]
      · have e : construct "DefineMultiple" (fun k => List.lookup k [("feature", Val.feature f), ("first_id", .int i), ("props", .dict ws),
            ("count", .int n)]) =
            (propsVal f false ws).bind fun p => check (decide ((0 : Int) ≤ n) && (Def0.mk f i (n : Int).toNat p).accepted)
              (.act (.define ⟨f, i, (n : Int).toNat, p⟩)) := rfl
        refine e.trans ?_
        simp only [hb, Option.bind_some, Int.toNat_natCast, ha, check]
        simp
    · simp only [runCall, evalArgs, eval_feature names f hf, eval, hnp hc, Option.bind_some, Option.bind_none, Option.map_none,
        Option.bind_eq_bind]

theorem dictSet_mem {α β : Type} [DecidableEq α] (d : List (α × β)) (k : α) (v : β) (p : α × β) (h : p ∈ dictSet d k v) : p = (k, v) ∨ p ∈ d := by
  induction d with
  | nil => simp only [dictSet, List.mem_singleton] at h; exact Or.inl h
  | cons q d ih =>
    obtain ⟨k', v'⟩ := q
    simp only [dictSet] at h
    split at h
    · rcases List.mem_cons.1 h with rfl | h
      · next e => subst e; exact Or.inl rfl
      · exact Or.inr (by simp [h])
    · rcases List.mem_cons.1 h with rfl | h
      · exact Or.inr (by simp)
      · rcases ih h with e | e
        · exact Or.inl e
        · exact Or.inr (by simp [e])

/-- The format under a property's name is that under its number, except for one property of industries. -/
theorem name_fmt (f c : Nat) (e : Entry) (h : byCode f c = some e) :
    ∃ e', byName f e.name = some e' ∧ (e'.fmt = e.fmt ∨ (e.fmt = .B ∧ e'.fmt = .nB)) := by
  obtain ⟨⟨t, ht, hm⟩, -⟩ := (byCode_iff f c e).1 h
  have key : ∀ f < 21, ((table f).getD []).all (fun e => ((byName f e.name).map fun e' =>
      decide (e'.fmt = e.fmt ∨ (e.fmt = .B ∧ e'.fmt = .nB))).getD false) = true := by decide +kernel
  by_cases hf : f < 21
  · have := key f hf
    rw [ht] at this
    have := List.all_eq_true.1 this e hm
    revert this
    cases byName f e.name with
    | none => simp
    | some e' => intro h; exact ⟨e', rfl, by simpa using h⟩
  · have h2 : table f = none := by
      unfold table
      split <;> first | rfl | omega
    rw [h2] at ht; cases ht

theorem props_sound (f n : Nat) : ∀ (np : Nat) (d : List (String × List PVal)) (bs : Bytes) (d' : List (String × List PVal)) (r : Bytes),
    decodeProps f n np d bs = some (d', r) →
    ((d.map (·.1)).Nodup ∧ ∀ p ∈ d, (∃ e, byName f p.1 = some e ∧ ∀ v ∈ p.2, OkVal e.fmt v) ∧ p.2.length = n) →
    (d'.map (·.1)).Nodup ∧ ∀ p ∈ d', (∃ e, byName f p.1 = some e ∧ ∀ v ∈ p.2, OkVal e.fmt v) ∧ p.2.length = n
  | 0, d, bs, d', r, h, hd => by
    simp only [decodeProps, Option.some.injEq, Prod.mk.injEq] at h
    rw [← h.1]; exact hd
  | np + 1, d, bs, d', r, h, hd => by
    simp only [decodeProps, Option.bind_eq_bind, Option.bind_eq_some_iff] at h
    obtain ⟨⟨c, b1⟩, -, e, he, ⟨l, b2⟩, hl, h⟩ := h
    refine props_sound f n np _ _ _ _ h ⟨IdMap.nodup_dictSet hd.1, fun p hp => ?_⟩
    rcases dictSet_mem _ _ _ _ hp with rfl | hp
    · refine ⟨?_, readN_len _ _ _ _ hl⟩
      obtain ⟨e', he', hfmt⟩ := name_fmt f _ e he
      have hv : ∀ v ∈ l, OkVal e.fmt v ∧ (e.fmt = .B → ∃ n, v = .int n) := readN_all (fun bs v t h => ⟨read_ok h, fun hB => by
        rw [hB] at h
        simp only [PropC.read, Option.map_eq_some_iff, Prod.mk.injEq] at h
        obtain ⟨x, -, rfl, -⟩ := h
        exact ⟨_, rfl⟩⟩) _ _ _ _ hl
      refine ⟨e', he', fun v hvm => ?_⟩
      rcases hfmt with h1 | ⟨h1, h2⟩
      · rw [h1]; exact (hv v hvm).1
      · obtain ⟨n, rfl⟩ := (hv v hvm).2 h1
        rw [h2]
        exact ⟨rfl, by simp, by simp⟩
    · exact hd.2 p hp


theorem decode0_sound {bs : Bytes} {d : Def0} (h : decode0 bs = some d) : SoundDef d := by
  simp only [decode0, Option.bind_eq_bind, Option.bind_eq_some_iff] at h
  obtain ⟨⟨f, b1⟩, -, ⟨np, b2⟩, -, ⟨n, b3⟩, -, ⟨first, b4⟩, -, h⟩ := h
  simp only at h
  split at h
  · cases h
  · next hf =>
    simp only [Option.bind_eq_some_iff] at h
    obtain ⟨⟨ps, b5⟩, hp, h⟩ := h
    simp only at h
    split at h
    · cases h
    · next ht =>
      simp only [Option.some.injEq] at h
      subst h
      have := props_sound _ _ _ _ _ _ _ hp ⟨by simp, by simp⟩
      exact ⟨by simp only; omega, by cases hh : table f.toNat <;> simp_all, this.1, this.2⟩


/-! ### Trees of information -/

mutual
/-- Keys are distinct everywhere in the tree. -/
def OkDV : DV → Prop
  | .items _ => True
  | .dict l => OkDVs l
/-- Keys are distinct here and below. -/
def OkDVs : List (Bytes × DV) → Prop
  | [] => True
  | (k, v) :: r => OkDV v ∧ k ∉ r.map (·.1) ∧ OkDVs r
end

theorem okDVs_iff : ∀ l : List (Bytes × DV), OkDVs l ↔ (l.map (·.1)).Nodup ∧ ∀ p ∈ l, OkDV p.2
  | [] => by simp [OkDVs]
  | (k, v) :: r => by
    simp only [OkDVs, okDVs_iff r, List.map_cons, List.nodup_cons, List.mem_cons, forall_eq_or_imp]
    constructor
    · rintro ⟨h1, h2, h3, h4⟩; exact ⟨⟨h2, h3⟩, h1, h4⟩
    · rintro ⟨⟨h2, h3⟩, h1, h4⟩; exact ⟨h1, h2, h3, h4⟩

theorem addItem_ok : ∀ (l : List (Bytes × DV)) (k : Bytes) (x : Acts.Item) (l' : List (Bytes × DV)), addItem l k x = some l' →
    OkDVs l → OkDVs l' ∧ ∀ a, a ∈ l'.map (·.1) → a = k ∨ a ∈ l.map (·.1)
  | [], k, x, l', h, _ => by
    simp only [addItem, Option.some.injEq] at h
    subst h
    simp [OkDVs, OkDV]
  | (k', v) :: r, k, x, l', h, hl => by
    simp only [addItem] at h
    split at h
    · next e =>
      subst e
      cases v with
      | items i =>
        simp only [Option.some.injEq] at h
        subst h
        simp only [OkDVs, OkDV] at hl ⊢
        exact ⟨hl, by simp⟩
      | dict _ => cases h
    · next hk =>
      simp only [Option.map_eq_some_iff] at h
      obtain ⟨r', hr, rfl⟩ := h
      simp only [OkDVs] at hl ⊢
      obtain ⟨h1, h2⟩ := addItem_ok r k x r' hr hl.2.2
      refine ⟨⟨hl.1, fun hc => ?_, h1⟩, ?_⟩
      · rcases h2 _ hc with e | e
        · exact hk e
        · exact hl.2.1 e
      · intro a ha
        rcases List.mem_cons.1 ha with e | e
        · exact Or.inr (by simp [e])
        · rcases h2 a e with e | e
          · exact Or.inl e
          · exact Or.inr (by simp at e ⊢; exact Or.inr e)

theorem chunks_ok : ∀ (fuel : Nat) (res : List (Bytes × DV)) (bs : Bytes) (res' : List (Bytes × DV)) (r : Bytes),
    chunks fuel res bs = some (res', r) → OkDVs res → OkDVs res'
  | 0, _, _, _, _, h, _ => by simp [chunks] at h
  | _ + 1, _, [], _, _, h, _ => by simp [chunks] at h
  | fuel + 1, res, ty :: bs, res', r, h, ho => by
    rw [chunks.eq_def] at h
    simp only at h
    split at h
    · simp only [Option.some.injEq, Prod.mk.injEq] at h; rw [← h.1]; exact ho
    · split at h
      · simp only [Option.bind_eq_bind, Option.bind_eq_some_iff] at h
        obtain ⟨⟨sub, b1⟩, h1, h2⟩ := h
        have hs := chunks_ok fuel [] _ _ _ h1 (by simp [OkDVs])
        refine chunks_ok fuel _ _ _ _ h2 ?_
        rw [okDVs_iff] at ho ⊢
        refine ⟨IdMap.nodup_dictSet ho.1, fun p hp => ?_⟩
        rcases dictSet_mem _ _ _ _ hp with rfl | hp
        · simpa only [OkDV] using hs
        · exact ho.2 p hp
      · split at h
        · simp only [Option.bind_eq_bind, Option.bind_eq_some_iff] at h
          obtain ⟨_, _, _, h1, h2⟩ := h
          exact chunks_ok fuel _ _ _ _ h2 (addItem_ok _ _ _ _ h1 ho).1
        · split at h
          · simp only [Option.bind_eq_bind, Option.bind_eq_some_iff] at h
            obtain ⟨_, _, _, _, _, h1, h2⟩ := h
            exact chunks_ok fuel _ _ _ _ h2 (addItem_ok _ _ _ _ h1 ho).1
          · cases h

theorem decode14_ok {bs : Bytes} {l : List (Bytes × DV)} (h : decode14 bs = some l) : OkDVs l := by
  simp only [decode14, Option.map_eq_some_iff] at h
  obtain ⟨⟨l', r⟩, h1, rfl⟩ := h
  exact chunks_ok _ _ _ _ _ h1 (by simp [OkDVs])

/-- A value of a decoded list. -/
def itemV : Acts.Item → Val
  | .bytes b => .bytes b
  | .text lang b => .tuple [.int lang, .bytes b]

theorem items_run (names : String → Option Target) : ∀ l : List Acts.Item, ∃ es, pvList (l.map Acts.Item.value) = some es ∧
    evalList names es = some (l.map itemV) ∧ valPVl (l.map itemV) = some (l.map Acts.Item.value)
  | [] => ⟨[], rfl, rfl, rfl⟩
  | x :: l => by
    obtain ⟨es, h1, h2, h3⟩ := items_run names l
    cases x with
    | bytes b =>
      refine ⟨.bytes b :: es, ?_, ?_, ?_⟩
      · simp only [List.map_cons, pvList, Acts.Item.value, pvEx, h1, Option.bind_some, Option.map_some]
      · simp only [evalList, eval, h2, Option.bind_some, Option.map_some, List.map_cons, itemV]
      · simp only [List.map_cons, valPVl, itemV, valPV, h3, Option.bind_some, Option.map_some, Acts.Item.value]
    | text n b =>
      refine ⟨.tuple [.int n, .bytes b] :: es, ?_, ?_, ?_⟩
      · simp only [List.map_cons, pvList, Acts.Item.value, pvEx, h1, Option.bind_some, Option.map_some]
      · simp only [evalList, eval, h2, Option.bind_some, Option.map_some, List.map_cons, itemV]
      · simp only [List.map_cons, valPVl, itemV, valPV, h3, Option.bind_some, Option.map_some, Acts.Item.value]

mutual
theorem tree_run (names : String → Option Target) : ∀ v : DV, OkDV v → ∃ e w, pvEx (DV.value v) = some e ∧ eval names e = some w ∧
    valPV w = some (DV.value v)
  | .items l => fun _ => by
    obtain ⟨es, h1, h2, h3⟩ := items_run names l
    refine ⟨.list es, .list (l.map itemV), ?_, ?_, ?_⟩
    · simp only [DV.value, pvEx, h1, Option.map_some]
    · simp only [eval, h2, Option.map_some]
    · simp only [valPV, h3, Option.map_some, DV.value]
  | .dict l => fun h => by
    obtain ⟨es, ws, h1, h2, h3, h4⟩ := trees_run names l (by simpa only [OkDV] using h)
    have hk : (l.map (·.1)).Nodup := ((okDVs_iff l).1 (by simpa only [OkDV] using h)).1
    refine ⟨.dict es, .dict ws, ?_, ?_, ?_⟩
    · simp only [DV.value, pvEx, h1, Option.map_some]
    · refine eval_dict names _ _ h2 ?_
      rw [h4]
      have := List.Pairwise.map DKey.bytes (S := (· ≠ ·)) (fun a b h e => h (by cases e; rfl)) hk
      simpa [Function.comp_def, List.Nodup] using this
    · simp only [valPV, h3, Option.map_some, DV.value]
theorem trees_run (names : String → Option Target) : ∀ l : List (Bytes × DV), OkDVs l → ∃ es ws, pvDict (DV.props l) = some es ∧
    evalDict names es = some ws ∧ valPVs ws = some (DV.props l) ∧ ws.map (·.1) = l.map fun p => DKey.bytes p.1
  | [] => fun _ => ⟨[], [], by simp only [DV.props, pvDict], rfl, by simp only [valPVs, DV.props], rfl⟩
  | (k, v) :: r => fun h => by
    simp only [OkDVs] at h
    obtain ⟨e, w, h1, h2, h3⟩ := tree_run names v h.1
    obtain ⟨es, ws, h4, h5, h6, h7⟩ := trees_run names r h.2.2
    refine ⟨(.bytes k, e) :: es, (.bytes k, w) :: ws, ?_, ?_, ?_, ?_⟩
    · simp only [DV.props, pvDict, h1, h4, Option.bind_some, Option.map_some]
    · simp only [evalDict, h2, h5, Option.bind_some, Option.map_some]
    · simp only [valPVs, h3, h6, Option.bind_some, Option.map_some, DV.props]
    · simp only [List.map_cons, h7]
end

theorem tree_runs (names : String → Option Target) (l : List (Bytes × DV)) (h : OkDVs l) :
    ∃ c, py [] (.act (.props (DV.props l))) = some c ∧ runCall names c = some (.act (.props (DV.props l))) := by
  obtain ⟨es, ws, h1, h2, h3, h4⟩ := trees_run names l h
  have hk : (l.map (·.1)).Nodup := ((okDVs_iff l).1 h).1
  have hpy : py [] (.act (.props (DV.props l))) = some ⟨"SetProperties", [("props", .dict es)]⟩ := by
    simp only [py, h1, Option.map_some]
  refine ⟨_, hpy, ?_⟩
  have hd := eval_dict names es ws h2 (by
    rw [h4]
    have := List.Pairwise.map DKey.bytes (S := (· ≠ ·)) (fun a b h e => h (by cases e; rfl)) hk
    simpa [Function.comp_def, List.Nodup] using this)
  refine (run_iff names _ _ [("props", .dict ws)] _ _ ?_ rfl rfl).trans ?_
  · simp only [evalArgs, hd, Option.bind_some, Option.map_some]
  · have e : construct "SetProperties" (fun k => List.lookup k [("props", Val.dict ws)]) = (valPVs ws).bind fun l => some (.act (.props l)) := rfl
    refine e.trans ?_
    simp only [h3, Option.bind_some]

end Grf.Py
