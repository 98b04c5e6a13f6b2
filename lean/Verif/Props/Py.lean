import Verif.Model.Py
import Verif.Props.Exact
import Verif.Props.PropForm2
import Verif.Props.SyntaxExact
/-!
# C66: running the printed call of a decompiled action makes the same action
-/
set_option linter.unusedSimpArgs false
namespace Grf.Py
open Acts PropC

/-! ### Evaluation -/

theorem evalList_map {α : Type} (names : String → Option Target) (f : α → Ex) (g : α → Val) (l : List α)
    (h : ∀ x ∈ l, eval names (f x) = some (g x)) : evalList names (l.map f) = some (l.map g) := by
  induction l with
  | nil => rfl
  | cons x l ih =>
    simp only [List.map_cons, evalList, h x (by simp), Option.bind_some, ih (fun y hy => h y (by simp [hy])), Option.map_some]

theorem evalList_none {α : Type} (names : String → Option Target) (f : α → Ex) (l : List α)
    (h : ∃ x ∈ l, eval names (f x) = none) : evalList names (l.map f) = none := by
  induction l with
  | nil => obtain ⟨x, hx, -⟩ := h; cases hx
  | cons x l ih =>
    obtain ⟨y, hy, e⟩ := h
    simp only [List.map_cons, evalList]
    rcases List.mem_cons.1 hy with rfl | hy
    · rw [e]; rfl
    · rw [ih ⟨y, hy, e⟩]; cases eval names (f x) <;> rfl

theorem eval_feature (names : String → Option Target) (n : Nat) (h : n ≤ 0x14) : eval names (featureEx n) = some (.feature n) := by
  have : ∀ n < 21, constants.idxOf? (constants.getD n "") = some n := by decide +kernel
  simp only [featureEx, eval, this n (by omega)]

theorem eval_ints (names : String → Option Target) (l : List Int) : evalList names (l.map Ex.int) = some (l.map Val.int) :=
  evalList_map names _ _ l fun _ _ => by simp only [eval]

theorem eval_bytes (names : String → Option Target) (l : List Bytes) : evalList names (l.map Ex.bytes) = some (l.map Val.bytes) :=
  evalList_map names _ _ l fun _ _ => by simp only [eval]

theorem mapM_back {α β γ : Type} (f : β → Option γ) (g : α → β) (k : α → γ) (l : List α) (h : ∀ x ∈ l, f (g x) = some (k x)) :
    (l.map g).mapM f = some (l.map k) := by
  induction l with
  | nil => rfl
  | cons x l ih =>
    simp only [List.map_cons, List.mapM_cons, h x (by simp), Option.bind_eq_bind, Option.bind_some, ih (fun y hy => h y (by simp [hy])),
      Option.pure_def]

theorem ints_back (l : List Int) : (l.map Val.int).mapM Val.int? = some l := by
  have := mapM_back Val.int? Val.int id l fun _ _ => rfl
  simpa using this

theorem bytes_back (l : List Bytes) : (l.map Val.bytes).mapM Val.bytes? = some l := by
  have := mapM_back Val.bytes? Val.bytes id l fun _ _ => rfl
  simpa using this

theorem list_ints? (l : List Int) : (Val.list (l.map Val.int)).ints? = some l := ints_back l
theorem tuple_ints? (l : List Int) : (Val.tuple (l.map Val.int)).ints? = some l := ints_back l

/-- A dictionary whose keys are all different is what its entries say. -/
theorem dict_distinct {κ α : Type} [DecidableEq κ] (l acc : List (κ × α)) (h : ((acc ++ l).map (·.1)).Nodup) :
    l.foldl (fun m p => dictSet m p.1 p.2) acc = acc ++ l := by
  induction l generalizing acc with
  | nil => simp
  | cons p l ih =>
    simp only [List.foldl_cons]
    have hn : p.1 ∉ acc.map (·.1) := by
      intro hc
      simp only [List.map_append, List.map_cons] at h
      exact (List.nodup_append.1 h).2.2 _ hc _ List.mem_cons_self rfl
    rw [Sounds.dictSet_new hn, ih _ (by simpa using h)]
    simp

theorem eval_dict (names : String → Option Target) (l : List (DKey × Ex)) (l' : List (DKey × Val)) (h : evalDict names l = some l')
    (hn : (l'.map (·.1)).Nodup) : eval names (.dict l) = some (.dict l') := by
  simp only [eval, h, Option.map_some]
  rw [dict_distinct l' [] (by simpa using hn)]
  simp

theorem evalDict_map {α : Type} (names : String → Option Target) (k : α → DKey) (f : α → Ex) (g : α → Val) (l : List α)
    (h : ∀ x ∈ l, eval names (f x) = some (g x)) :
    evalDict names (l.map fun x => (k x, f x)) = some (l.map fun x => (k x, g x)) := by
  induction l with
  | nil => rfl
  | cons x l ih =>
    simp only [List.map_cons, evalDict, h x (by simp), Option.bind_some, ih (fun y hy => h y (by simp [hy])), Option.map_some]

theorem evalDict_none {α : Type} (names : String → Option Target) (k : α → DKey) (f : α → Ex) (l : List α)
    (h : ∃ x ∈ l, eval names (f x) = none) : evalDict names (l.map fun x => (k x, f x)) = none := by
  induction l with
  | nil => obtain ⟨x, hx, -⟩ := h; cases hx
  | cons x l ih =>
    obtain ⟨y, hy, e⟩ := h
    simp only [List.map_cons, evalDict]
    rcases List.mem_cons.1 hy with rfl | hy
    · rw [e]; rfl
    · rw [ih ⟨y, hy, e⟩]; cases eval names (f x) <;> rfl

/-! ### Values of properties -/

/-- Values whose print does not name a class the script does not import. -/
def PrintableVal : PVal → Prop
  | .bridge _ ts => ∀ t ∈ ts, t = []
  | .layouts ls => ∀ l ∈ ls, l = []
  | .station _ => False
  | .oldStation _ => False
  | _ => True

theorem eval_climate (names : String → Option Target) (v : Int) : eval names (climateEx v) = some (.int v) := by
  unfold climateEx
  split
  · next h => subst h; rfl
  · split
    · next h => subst h; rfl
    · split
      · simp only [eval]
      · next h =>
        have h1 : ¬ ¬ (0 < v ∧ v < 15) := h
        have : ∃ n : Nat, n < 15 ∧ 0 < n ∧ v = n := ⟨v.toNat, by omega, by omega, by omega⟩
        obtain ⟨n, hn, h0, rfl⟩ := this
        have : ∀ n : Nat, n < 15 → 0 < n → (((climates.filter fun c => 0 < pyAnd c.2 (n : Int)).map (·.1)).mapM grfName).map
            (fun vs => ((vs.foldl (· ||| ·) 0 : Nat) : Int)) = some (n : Int) := by decide +kernel
        simp only [eval]
        have := this n hn h0
        revert this
        cases ((climates.filter fun c => 0 < pyAnd c.2 (n : Int)).map (·.1)).mapM grfName with
        | none => intro h; cases h
        | some vs => intro h; simp only [Option.map_some, Option.some.injEq] at h ⊢; rw [h]

theorem eval_sprite (names : String → Option Target) (s : SpriteRef) : eval names (spriteEx s) = none := by
  simp [spriteEx, eval, evalArgs, callVal]

theorem eval_tile (names : String → Option Target) (t : Tile) : eval names (tileEx t) = none := by
  cases t <;> simp [tileEx, eval, evalArgs, callVal]

theorem eval_lab (names : String → Option Target) (l : Lab) :
    eval names (labEx l) = some (match l with | .int n => .int n | .bytes b => .bytes b) := by
  cases l <;> simp [labEx, eval]

theorem labs_back (names : String → Option Target) (l : List Lab) :
    ∃ vs, evalList names (l.map labEx) = some vs ∧ vs.mapM Val.lab? = some l := by
  refine ⟨_, evalList_map names labEx _ l fun x _ => eval_lab names x, ?_⟩
  have := mapM_back Val.lab? (fun l : Lab => match l with | .int n => Val.int n | .bytes b => Val.bytes b) id l
    (fun x _ => by cases x <;> rfl)
  simpa using this

/-- Values as the readers make them: dates are dates of Python's calendar, and tables of translations are dictionaries. -/
def OkVal (f : Fmt) (v : PVal) : Prop :=
  (propEx f v).isSome = true ∧ (∀ d, v = .date d → 1 ≤ d.year ∧ d.year ≤ 9999 ∧ d.Valid) ∧
    (∀ t, v = .texts t → (t.map (·.1)).Nodup ∧ ∀ p ∈ t, p.2 ≠ [])

theorem eval_date (names : String → Option Target) (d : _root_.Spec.CDate) (h : 1 ≤ d.year ∧ d.year ≤ 9999 ∧ d.Valid) :
    eval names (.call "datetime.date" [("", .int d.year), ("", .int d.month), ("", .int d.day)]) = some (.date d) := by
  obtain ⟨h1, h2, h3, h4, h5, h6⟩ := h
  simp only [eval, evalArgs, Option.bind_some, Option.map_some, callVal]
  simp only [String.reduceEq, if_false, if_true, mkDate]
  rw [if_pos ⟨by omega, by omega, by omega, by omega, by omega, by simpa using h6⟩]
  simp

theorem value_runs (names : String → Option Target) (f : Fmt) (v : PVal) (h : OkVal f v) :
    ∃ e, propEx f v = some e ∧ (PrintableVal v → ∃ w, eval names e = some w ∧ propVal f w = some v) ∧
      (¬ PrintableVal v → eval names e = none) := by
  obtain ⟨h0, hd, ht⟩ := h
  obtain ⟨e, he⟩ := Option.isSome_iff_exists.1 h0
  refine ⟨e, he, ?_⟩
  unfold propEx at he
  split at he
  case h_1 l =>
    simp only [Option.some.injEq] at he; subst he
    exact ⟨fun _ => ⟨_, eval_lab names l, by cases l <;> rfl⟩, fun hp => absurd trivial hp⟩
  case h_2 l =>
    simp only [Option.map_eq_some_iff] at he
    obtain ⟨b, hb, rfl⟩ := he
    refine ⟨fun _ => ⟨.bytes b, by simp only [eval], ?_⟩, fun hp => absurd trivial hp⟩
    simp only [propVal, ← bytesOf_some hb]
  case h_3 l =>
    simp only [Option.some.injEq] at he; subst he
    exact ⟨fun _ => ⟨.tuple (l.map .int), by simp only [eval, eval_ints, Option.map_some], by simp only [propVal, tuple_ints?, Option.map_some]⟩,
      fun hp => absurd trivial hp⟩
  case h_4 l =>
    simp only [Option.some.injEq] at he; subst he
    exact ⟨fun _ => ⟨.tuple (l.map .int), by simp only [eval, eval_ints, Option.map_some], by simp only [propVal, tuple_ints?, Option.map_some]⟩,
      fun hp => absurd trivial hp⟩
  case h_5 l =>
    simp only [Option.some.injEq] at he; subst he
    obtain ⟨vs, h1, h2⟩ := labs_back names l
    exact ⟨fun _ => ⟨.list vs, by simp only [eval, h1, Option.map_some], by simp only [propVal, Val.seq?, Option.bind_some, h2, Option.map_some]⟩,
      fun hp => absurd trivial hp⟩
  case h_6 l =>
    simp only [Option.some.injEq] at he; subst he
    obtain ⟨vs, h1, h2⟩ := labs_back names l
    exact ⟨fun _ => ⟨.tuple vs, by simp only [eval, h1, Option.map_some], by simp only [propVal, Val.seq?, Option.bind_some, h2, Option.map_some]⟩,
      fun hp => absurd trivial hp⟩
  case h_7 l =>
    simp only [Option.some.injEq] at he; subst he
    refine ⟨fun _ => ⟨.list (l.map fun w => .list (w.map .int)), ?_, ?_⟩, fun hp => absurd trivial hp⟩
    · simp only [eval, evalList_map names (fun w : List Int => Ex.list (w.map Ex.int)) (fun w => Val.list (w.map Val.int)) l
        (fun w _ => by simp only [eval, eval_ints, Option.map_some]), Option.map_some]
    · have := mapM_back Val.ints? (fun w : List Int => Val.list (w.map Val.int)) id l (fun w _ => list_ints? w)
      simp only [propVal, Val.seq?, Option.bind_some, this, List.map_id_fun, id, Option.map_some]
  case h_8 d =>
    simp only [Option.some.injEq] at he; subst he
    exact ⟨fun _ => ⟨.date d, eval_date names d (hd d rfl), rfl⟩, fun hp => absurd trivial hp⟩
  case h_9 n =>
    simp only [Option.some.injEq] at he; subst he
    exact ⟨fun _ => ⟨.int n, eval_climate names n, by simp [propVal]⟩, fun hp => absurd trivial hp⟩
  case h_10 l =>
    simp only [Option.some.injEq] at he; subst he
    refine ⟨fun _ => ⟨.list (l.map fun p => .tuple [.int p.1, .int p.2]), ?_, ?_⟩, fun hp => absurd trivial hp⟩
    · simp only [eval, evalList_map names (fun p : Int × Int => Ex.tuple [Ex.int p.1, Ex.int p.2]) (fun p => Val.tuple [Val.int p.1, Val.int p.2]) l
        (fun w _ => by simp only [eval, evalList, Option.bind_some, Option.map_some]), Option.map_some]
    · have := mapM_back Val.pair? (fun p : Int × Int => Val.tuple [Val.int p.1, Val.int p.2]) id l (fun w _ => rfl)
      simp only [propVal, Val.seq?, Option.bind_some, this, List.map_id_fun, id, Option.map_some]
  case h_11 x y =>
    simp only [Option.some.injEq] at he; subst he
    exact ⟨fun _ => ⟨.tuple [.int x, .int y], by simp only [eval, evalList, Option.bind_some, Option.map_some], rfl⟩, fun hp => absurd trivial hp⟩
  case h_12 i ts =>
    simp only [Option.some.injEq] at he; subst he
    constructor
    · intro hp
      have h1 := evalList_map names (fun t : List SpriteRef => Ex.list (t.map spriteEx)) (fun _ => Val.list []) ts
        (fun t ht => by rw [hp t ht]; rfl)
      refine ⟨.dict [(.str "table_id", .int i), (.str "tables", .list (ts.map fun _ => .list []))], ?_, ?_⟩
      · refine eval_dict names _ _ ?_ (by simp)
        simp only [evalDict, eval, h1, Option.bind_some, Option.map_some]
      · have := mapM_back (Val.nil? (α := SpriteRef))
          (fun _ : List SpriteRef => Val.list []) id ts (fun t ht => by rw [hp t ht]; rfl)
        simp only [propVal, this, List.map_id_fun, id, Option.map_some]
    · intro hp
      have : ∃ t ∈ ts, t ≠ [] := by
        apply Classical.byContradiction
        intro hc
        exact hp fun t ht => Classical.byContradiction fun hne => hc ⟨t, ht, hne⟩
      obtain ⟨t, ht, hne⟩ := this
      have h1 := evalList_none names (fun t : List SpriteRef => Ex.list (t.map spriteEx)) ts ⟨t, ht, by
        cases t with
        | nil => exact absurd rfl hne
        | cons s t => simp only [eval, List.map_cons, evalList, eval_sprite, Option.bind_none, Option.map_none]⟩
      simp only [eval, evalDict, h1, Option.bind_some, Option.map_none, Option.bind_none]
  case h_13 d =>
    simp only [Option.some.injEq] at he; subst he
    obtain ⟨hn, hne⟩ := ht d rfl
    refine ⟨fun _ => ⟨.dict (d.map fun p => (.int p.1, match p.2 with | [t] => .bytes t | ts => .list (ts.map .bytes))), ?_, ?_⟩,
      fun hp => absurd trivial hp⟩
    · refine eval_dict names _ _ (evalDict_map names (fun p : Int × List Bytes => DKey.int p.1)
        (fun p => match p.2 with | [t] => Ex.bytes t | ts => Ex.list (ts.map Ex.bytes))
        (fun p => match p.2 with | [t] => Val.bytes t | ts => Val.list (ts.map Val.bytes)) d (fun p _ => ?_)) ?_
      · obtain ⟨k, ts⟩ := p
        match ts with
        | [] => simp only [eval, List.map_nil, evalList, Option.map_some]
        | [t] => simp only [eval]
        | a :: b :: ts => simp only [eval, eval_bytes, Option.map_some]
      · rw [List.map_map]
        have : ((fun x : DKey × Val => x.1) ∘ fun p : Int × List Bytes => (DKey.int p.1, match p.2 with | [t] => Val.bytes t | ts => Val.list (ts.map Val.bytes)))
            = DKey.int ∘ (·.1) := rfl
        rw [this, ← List.map_map]
        exact List.Pairwise.map _ (fun a b h e => h (by cases e; rfl)) hn
    · have := mapM_back (fun (p : DKey × Val) => p.1.int?.bind fun k => p.2.texts?.map fun t => (k, t))
        (fun p : Int × List Bytes => (DKey.int p.1, match p.2 with | [t] => Val.bytes t | ts => Val.list (ts.map Val.bytes))) id d
        (fun p hp => by
          obtain ⟨k, ts⟩ := p
          match ts with
          | [] => exact absurd rfl (hne _ hp)
          | [t] => rfl
          | a :: b :: ts => simp only [DKey.int?, Option.bind_some, Val.texts?, bytes_back, Option.map_some, id])
      simp only [propVal, this, List.map_id_fun, id, Option.map_some]
  case h_14 ls =>
    simp only [Option.some.injEq] at he; subst he
    constructor
    · intro hp
      have h1 := evalList_map names (fun t : List Tile => Ex.list (t.map tileEx)) (fun _ => Val.list []) ls
        (fun t ht => by rw [hp t ht]; rfl)
      refine ⟨.list (ls.map fun _ => .list []), by simp only [eval, h1, Option.map_some], ?_⟩
      have := mapM_back (Val.nil? (α := Tile))
          (fun _ : List Tile => Val.list []) id ls (fun t ht => by rw [hp t ht]; rfl)
      simp only [propVal, this, List.map_id_fun, id, Option.map_some]
    · intro hp
      have : ∃ t ∈ ls, t ≠ [] := by
        apply Classical.byContradiction
        intro hc
        exact hp fun t ht => Classical.byContradiction fun hne => hc ⟨t, ht, hne⟩
      obtain ⟨t, ht, hne⟩ := this
      have h1 := evalList_none names (fun t : List Tile => Ex.list (t.map tileEx)) ls ⟨t, ht, by
        cases t with
        | nil => exact absurd rfl hne
        | cons s t => simp only [eval, List.map_cons, evalList, eval_tile, Option.bind_none, Option.map_none]⟩
      simp only [eval, h1, Option.map_none]
  case h_15 l =>
    simp only [Option.some.injEq] at he; subst he
    exact ⟨fun hp => hp.elim, fun _ => by simp [eval, evalArgs, callVal]⟩
  case h_16 l =>
    simp only [Option.some.injEq] at he; subst he
    exact ⟨fun hp => hp.elim, fun _ => by simp [eval, evalArgs, callVal]⟩
  case h_17 f n hf =>
    split at he
    · next hm =>
      simp only [Option.some.injEq] at he; subst he
      refine ⟨fun _ => ⟨.int n, by simp only [eval], ?_⟩, fun hp => absurd trivial hp⟩
      simp only [List.mem_cons, List.not_mem_nil, or_false] at hm
      rcases hm with rfl | rfl | rfl | rfl | rfl | rfl | rfl | rfl | rfl <;> simp [propVal]
    · cases he
  case h_18 => cases he

/-! ### What the readers make -/

theorem year_range (n : Nat) (h1 : 366 ≤ n) (h2 : n ≤ 3652424) : 1 ≤ (_root_.Spec.nthDay n).year ∧ (_root_.Spec.nthDay n).year ≤ 9999 := by
  have hv := nthDay_valid n
  have e := to_days_nthDay n
  generalize _root_.Spec.nthDay n = d at hv e
  constructor
  · apply Classical.byContradiction
    intro hc
    have := to_days_strict_mono d ⟨1, 1, 1⟩ hv (by decide) (Or.inl (by simp only; omega))
    have h3 : dateToDays (⟨1, 1, 1⟩ : _root_.Spec.CDate).year 1 1 = 366 := by decide
    simp only at this h3
    omega
  · apply Classical.byContradiction
    intro hc
    have := to_days_strict_mono ⟨9999, 12, 31⟩ d (by decide) hv (Or.inl (by simp only; omega))
    have h3 : dateToDays (⟨9999, 12, 31⟩ : _root_.Spec.CDate).year 12 31 = 3652424 := by decide
    simp only at this h3
    omega

theorem bytesOf_intsOf (b : Bytes) : (bytesOf (intsOf b)).isSome = true := by
  rw [bytesOf_iff]
  intro n hn
  simp only [intsOf, List.mem_map] at hn
  obtain ⟨x, -, rfl⟩ := hn
  have := x.toNat_lt
  omega

theorem addText_ne (d : List (Int × List Bytes)) (k : Int) (v : Bytes) (h : ∀ p ∈ d, p.2 ≠ []) : ∀ p ∈ addText d k v, p.2 ≠ [] := by
  induction d with
  | nil => intro p hp; simp only [addText, List.mem_singleton] at hp; subst hp; simp
  | cons q d ih =>
    obtain ⟨k', l⟩ := q
    simp only [addText]
    split
    · intro p hp
      rcases List.mem_cons.1 hp with rfl | hp
      · simp
      · exact h p (by simp [hp])
    · intro p hp
      rcases List.mem_cons.1 hp with rfl | hp
      · exact h _ (by simp)
      · exact ih (fun q hq => h q (by simp [hq])) p hp

theorem multi_ok (fuel : Nat) : ∀ (d : List (Int × List Bytes)) (bs : Bytes) (d' : List (Int × List Bytes)) (r : Bytes),
    readMultiDict fuel d bs = some (d', r) → ((d.map (·.1)).Nodup ∧ ∀ p ∈ d, p.2 ≠ []) → ((d'.map (·.1)).Nodup ∧ ∀ p ∈ d', p.2 ≠ []) := by
  induction fuel with
  | zero => intro d bs d' r h; simp [readMultiDict] at h
  | succ fuel ih =>
    intro d bs d' r h hd
    rw [readMultiDict.eq_def] at h
    simp only at h
    split at h
    · cases h
    · split at h
      · simp only [Option.some.injEq, Prod.mk.injEq] at h; rw [← h.1]; exact hd
      · split at h
        · cases h
        · refine ih _ _ _ _ h ⟨?_, addText_ne _ _ _ hd.2⟩
          rw [addText_keys]
          split
          · exact hd.1
          · next hm =>
            rw [List.nodup_append]
            refine ⟨hd.1, by simp, ?_⟩
            intro a ha b hb e
            simp only [List.mem_singleton] at hb
            subst hb; subst e
            exact hm ha

theorem read_ok {f : Fmt} {bs r : Bytes} {v : PVal} (h : PropC.read f bs = some (v, r)) : OkVal f v := by
  have simple : ∀ {v : PVal}, (propEx f v).isSome = true → (∀ d, v ≠ .date d) → (∀ t, v ≠ .texts t) → OkVal f v :=
    fun h1 h2 h3 => ⟨h1, fun d e => absurd e (h2 d), fun t e => absurd e (h3 t)⟩
  cases f <;> simp only [PropC.read, Option.map_eq_some_iff, Prod.mk.injEq, Option.bind_eq_bind, Option.bind_eq_some_iff, Option.some.injEq,
    reduceCtorEq] at h
  case date =>
    obtain ⟨⟨n, r'⟩, -, rfl, -⟩ := h
    simp only
    unfold daysToDate
    by_cases hc : n.toNat < 366 ∨ n.toNat > 3652424
    · rw [if_pos hc]
      exact simple (by simp [propEx]) (by simp) (by simp)
    · rw [if_neg hc]
      refine ⟨by simp [propEx], fun d e => ?_, by simp⟩
      simp only [PVal.date.injEq] at e
      subst e
      have := year_range n.toNat (by omega) (by omega)
      exact ⟨this.1, this.2, nthDay_valid _⟩
  case multiDict =>
    obtain ⟨⟨d, r'⟩, h1, rfl, -⟩ := h
    refine ⟨by simp [propEx], by simp, fun t e => ?_⟩
    simp only [PVal.texts.injEq] at e
    subst e
    exact multi_ok _ _ _ _ _ h1 (by simp)
  case nB =>
    obtain ⟨⟨d, r'⟩, h1, rfl, -⟩ := h
    refine simple ?_ (by simp) (by simp)
    simp only [readCounted, Option.bind_eq_bind, Option.bind_eq_some_iff, Option.some.injEq, Prod.mk.injEq] at h1
    obtain ⟨⟨n, b⟩, -, e, -⟩ := h1
    obtain ⟨x, hx⟩ := Option.isSome_iff_exists.1 (bytesOf_intsOf (b.take n.toNat))
    simp only at e ⊢
    rw [← e]
    simp only [propEx, hx, Option.map_some, Option.isSome_some]
  case nL => obtain ⟨_, _, _, _, rfl, -⟩ := h; exact simple (by simp [propEx]) (by simp) (by simp)
  case nmW => obtain ⟨_, _, _, _, _, _, rfl, -⟩ := h; exact simple (by simp [propEx]) (by simp) (by simp)
  case accept => obtain ⟨_, _, _, _, rfl, -⟩ := h; exact simple (by simp [propEx]) (by simp) (by simp)
  all_goals obtain ⟨_, _, rfl, -⟩ := h; exact simple (by simp [propEx]) (by simp) (by simp)

theorem values_run (names : String → Option Target) (f : Fmt) (vs : List PVal) (h : ∀ v ∈ vs, OkVal f v) :
    ∃ l, vs.mapM (propEx f) = some l ∧
      ((∀ v ∈ vs, PrintableVal v) → ∃ ws, evalList names l = some ws ∧ ws.mapM (propVal f) = some vs) ∧
      (¬ (∀ v ∈ vs, PrintableVal v) → evalList names l = none) := by
  induction vs with
  | nil => exact ⟨[], rfl, fun _ => ⟨[], rfl, rfl⟩, fun h => absurd (by simp) h⟩
  | cons v vs ih =>
    obtain ⟨e, he, h1, h2⟩ := value_runs names f v (h v (by simp))
    obtain ⟨l, hl, h3, h4⟩ := ih fun x hx => h x (by simp [hx])
    refine ⟨e :: l, by simp [he, hl], ?_, ?_⟩
    · intro hp
      obtain ⟨w, hw, hv⟩ := h1 (hp v (by simp))
      obtain ⟨ws, hws, hvs⟩ := h3 fun x hx => hp x (by simp [hx])
      exact ⟨w :: ws, by simp [evalList, hw, hws], by simp [hv, hvs]⟩
    · intro hp
      simp only [evalList]
      by_cases hv : PrintableVal v
      · have : ¬ ∀ x ∈ vs, PrintableVal x := fun hc => hp fun x hx => by
          rcases List.mem_cons.1 hx with rfl | hx
          · exact hv
          · exact hc x hx
        rw [h4 this]
        cases eval names e <;> rfl
      · rw [h2 hv]; rfl

theorem props_run (names : String → Option Target) (feature : Nat) (one : Bool) (ps : List (String × List PVal))
    (h : ∀ p ∈ ps, (∃ e, byName feature p.1 = some e ∧ ∀ v ∈ p.2, OkVal e.fmt v) ∧ (one = true → p.2.length = 1)) :
    ∃ l, (ps.mapM fun p => (byName feature p.1).bind fun e => (p.2.mapM (propEx e.fmt)).bind fun l =>
        (if one then l.head? else some (.list l)).map fun x => (DKey.str p.1, x)) = some l ∧
      ((∀ p ∈ ps, ∀ v ∈ p.2, PrintableVal v) → ∃ ws, evalDict names l = some ws ∧ ws.map (·.1) = ps.map (fun p => DKey.str p.1) ∧
        propsVal feature one ws = some ps) ∧
      (¬ (∀ p ∈ ps, ∀ v ∈ p.2, PrintableVal v) → evalDict names l = none) := by
  induction ps with
  | nil => exact ⟨[], rfl, fun _ => ⟨[], rfl, rfl, rfl⟩, fun h => absurd (by simp) h⟩
  | cons p ps ih =>
    obtain ⟨⟨e, he, hv⟩, ho⟩ := h p (by simp)
    obtain ⟨xs, hxs, h1, h2⟩ := values_run names e.fmt p.2 hv
    obtain ⟨l, hl, h3, h4⟩ := ih fun x hx => h x (by simp [hx])
    obtain ⟨n, vs⟩ := p
    simp only at he hv ho hxs h1 h2
    cases one with
    | false =>
      refine ⟨(DKey.str n, .list xs) :: l, ?_, ?_, ?_⟩
      · rw [List.mapM_cons, hl]; simp [he, hxs]
      · intro hp
        obtain ⟨ws, hws, hvs⟩ := h1 (hp _ List.mem_cons_self)
        obtain ⟨wl, hw1, hw2, hw3⟩ := h3 fun x hx => hp x (by simp [hx])
        refine ⟨(DKey.str n, .list ws) :: wl, ?_, by simp [hw2], ?_⟩
        · simp only [evalDict, eval, hws, Option.map_some, Option.bind_some, hw1]
        · unfold propsVal at hw3 ⊢
          rw [List.mapM_cons, hw3]
          simp [he, hvs]
      · intro hp
        simp only [evalDict, eval]
        by_cases hv' : ∀ v ∈ vs, PrintableVal v
        · have : ¬ ∀ x ∈ ps, ∀ v ∈ x.2, PrintableVal v := fun hc => hp fun x hx => by
            rcases List.mem_cons.1 hx with rfl | hx
            · exact hv'
            · exact hc x hx
          rw [h4 this]
          cases evalList names xs <;> rfl
        · rw [h2 hv']; rfl
    | true =>
      have hlen := ho rfl
      match vs, hlen with
      | [v], _ =>
      simp only [List.mapM_cons, List.mapM_nil, Option.bind_eq_bind, Option.pure_def, Option.bind_eq_some_iff, Option.some.injEq] at hxs
      obtain ⟨x, hx, y, rfl, rfl⟩ := hxs
      refine ⟨(DKey.str n, x) :: l, ?_, ?_, ?_⟩
      · rw [List.mapM_cons, hl]; simp [he, hx]
      · intro hp
        obtain ⟨ws, hws, hvs⟩ := h1 (hp _ List.mem_cons_self)
        obtain ⟨wl, hw1, hw2, hw3⟩ := h3 fun x hx => hp x (by simp [hx])
        simp only [evalList, Option.bind_eq_some_iff, Option.map_eq_some_iff, Option.some.injEq] at hws
        obtain ⟨w, hw, y, rfl, rfl⟩ := hws
        refine ⟨(DKey.str n, w) :: wl, ?_, by simp [hw2], ?_⟩
        · simp only [evalDict, hw, Option.bind_some, hw1, Option.map_some]
        · unfold propsVal at hw3 ⊢
          rw [List.mapM_cons, hw3]
          simp only [if_true, Option.bind_some, he, hvs, Option.map_some, Option.bind_eq_bind, Option.pure_def]
      · intro hp
        simp only [evalDict]
        by_cases hv' : ∀ v' ∈ [v], PrintableVal v'
        · have : ¬ ∀ x ∈ ps, ∀ v ∈ x.2, PrintableVal v := fun hc => hp fun x hx => by
            rcases List.mem_cons.1 hx with rfl | hx
            · exact hv'
            · exact hc x hx
          rw [h4 this]
          cases eval names x <;> rfl
        · have := h2 hv'
          simp only [evalList, Option.bind_eq_none_iff, Option.map_eq_none_iff, reduceCtorEq, imp_false] at this
          have hx : eval names x = none := by
            cases hh : eval names x with
            | none => rfl
            | some w => exact absurd hh (this w)
          rw [hx]; rfl

end Grf.Py
