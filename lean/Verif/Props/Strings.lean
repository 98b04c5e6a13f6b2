import Verif.Model.Strings
import Verif.Props.Sounds
/-!
# C36: text ids are stable and unique
-/
namespace Grf.Strings

/-! ## names of texts -/

/-- Value of decimal digits. -/
def decVal (cs : List Char) : Nat := cs.foldl (fun a c => a * 10 + (c.toNat - 48)) 0

theorem digit_val (n : Nat) (h : n < 10) : (Char.ofNat (48 + n)).toNat - 48 = n := by
  have : ∀ n : Fin 10, (Char.ofNat (48 + n.val)).toNat - 48 = n.val := by decide +kernel
  exact this ⟨n, h⟩

theorem decVal_dec (n : Nat) : decVal (dec n) = n := by
  induction n using Nat.strongRecOn with
  | _ n ih =>
    unfold dec
    split
    · rename_i h
      simp [decVal, digit_val n h]
    · rename_i h
      have := ih (n / 10) (by omega)
      unfold decVal at this ⊢
      rw [List.foldl_append, this]
      simp only [List.foldl_cons, List.foldl_nil]
      rw [digit_val (n % 10) (by omega)]
      omega

theorem autoName_inj {a b : Nat} (h : autoName a = autoName b) : a = b := by
  unfold autoName at h
  have h1 := congrArg String.toList h
  simp only [String.toList_ofList] at h1
  have h2 := List.append_cancel_left h1
  rw [← decVal_dec a, ← decVal_dec b, h2]

/-- A name the user may not choose: one of those the manager makes up. -/
def Reserved (n : String) : Prop := ∃ k, n = autoName k

/-! ## handles -/

structure Inv (m : Mgr) (as : List (AddCall × Option String)) : Prop where
  namedAuto : ∀ v n, m.named.lookup v = some n → ∃ k, k < m.next ∧ n = autoName k
  namedText : ∀ v n, m.named.lookup v = some n → m.strings.lookup n = some v
  fresh : ∀ k, m.next ≤ k → m.strings.lookup (autoName k) = none
  answered : ∀ a ∈ as, ∀ h, a.2 = some h → m.strings.lookup h = some a.1.value
  unnamed : ∀ a ∈ as, a.1.name = none → ∃ h, a.2 = some h ∧ m.named.lookup a.1.value = some h
  namedAs : ∀ a ∈ as, ∀ n h, a.1.name = some n → a.2 = some h → h = n

theorem lookup_new {m : Mgr} {n v : String} (h : m.strings.lookup n = none) :
    handleText m n v = some { m with strings := dictSet m.strings n v } := by
  simp [handleText, h]

theorem inv_add {m : Mgr} {as : List (AddCall × Option String)} (I : Inv m as) (c : AddCall)
    (hc : ∀ n, c.name = some n → ¬ Reserved n) :
    Inv (add m c.value c.name).1 (as ++ [(c, (add m c.value c.name).2)]) := by
  obtain ⟨value, name⟩ := c
  cases name with
  | none =>
    simp only [add]
    cases hl : m.named.lookup value with
    | some n =>
      simp only
      refine ⟨I.namedAuto, I.namedText, I.fresh, ?_, ?_, ?_⟩
      · intro a ha h hh
        simp only [List.mem_append, List.mem_singleton] at ha
        rcases ha with ha | rfl
        · exact I.answered a ha h hh
        · injection hh with hh
          subst hh
          exact I.namedText value n hl
      · intro a ha hn
        simp only [List.mem_append, List.mem_singleton] at ha
        rcases ha with ha | rfl
        · exact I.unnamed a ha hn
        · exact ⟨n, rfl, hl⟩
      · intro a ha n' h hn hh
        simp only [List.mem_append, List.mem_singleton] at ha
        rcases ha with ha | rfl
        · exact I.namedAs a ha n' h hn hh
        · cases hn
    | none =>
      simp only
      have hnew : m.strings.lookup (autoName m.next) = none := I.fresh m.next (Nat.le_refl _)
      rw [lookup_new (m := { m with next := m.next + 1, named := dictSet m.named value (autoName m.next) }) hnew]
      simp only
      refine ⟨?_, ?_, ?_, ?_, ?_, ?_⟩
      · intro v n h
        simp only [lookup_dictSet] at h
        split at h
        · injection h with h
          exact ⟨m.next, by simp, h.symm⟩
        · obtain ⟨k, h1, h2⟩ := I.namedAuto v n h
          exact ⟨k, by simp only; omega, h2⟩
      · intro v n h
        simp only [lookup_dictSet] at h ⊢
        split at h
        · rename_i e
          injection h with h
          rw [if_pos h.symm, e]
        · obtain ⟨k, h1, h2⟩ := I.namedAuto v n h
          rw [if_neg]
          · exact I.namedText v n h
          · rw [h2]
            intro e
            have := autoName_inj e
            omega
      · intro k hk
        simp only at hk ⊢
        rw [lookup_dictSet, if_neg]
        · exact I.fresh k (by omega)
        · intro e
          have := autoName_inj e
          omega
      · intro a ha h hh
        simp only [List.mem_append, List.mem_singleton] at ha
        rw [lookup_dictSet]
        rcases ha with ha | rfl
        · have := I.answered a ha h hh
          rw [if_neg]
          · exact this
          · rintro rfl
            rw [hnew] at this
            cases this
        · injection hh with hh
          rw [if_pos hh.symm]
      · intro a ha hn
        simp only [List.mem_append, List.mem_singleton] at ha
        simp only [lookup_dictSet]
        rcases ha with ha | rfl
        · obtain ⟨h, h1, h2⟩ := I.unnamed a ha hn
          refine ⟨h, h1, ?_⟩
          rw [if_neg]
          · exact h2
          · intro e
            rw [e, hl] at h2
            cases h2
        · exact ⟨_, rfl, by rw [if_pos rfl]⟩
      · intro a ha n' h hn hh
        simp only [List.mem_append, List.mem_singleton] at ha
        rcases ha with ha | rfl
        · exact I.namedAs a ha n' h hn hh
        · cases hn
  | some n =>
    have hres := hc n rfl
    simp only [add]
    cases hl : m.strings.lookup n with
    | some x =>
      have : handleText m n value = none := by simp [handleText, hl]
      rw [this]
      simp only
      refine ⟨I.namedAuto, I.namedText, I.fresh, ?_, ?_, ?_⟩
      · intro a ha h hh
        simp only [List.mem_append, List.mem_singleton] at ha
        rcases ha with ha | rfl
        · exact I.answered a ha h hh
        · cases hh
      · intro a ha hn
        simp only [List.mem_append, List.mem_singleton] at ha
        rcases ha with ha | rfl
        · exact I.unnamed a ha hn
        · cases hn
      · intro a ha n' h hn hh
        simp only [List.mem_append, List.mem_singleton] at ha
        rcases ha with ha | rfl
        · exact I.namedAs a ha n' h hn hh
        · cases hh
    | none =>
      rw [lookup_new hl]
      simp only
      refine ⟨I.namedAuto, ?_, ?_, ?_, ?_, ?_⟩
      · intro v n' h
        obtain ⟨k, _, h2⟩ := I.namedAuto v n' h
        simp only [lookup_dictSet]
        rw [if_neg]
        · exact I.namedText v n' h
        · rintro rfl
          exact hres ⟨k, h2⟩
      · intro k hk
        simp only [lookup_dictSet]
        rw [if_neg]
        · exact I.fresh k hk
        · rintro rfl
          exact hres ⟨k, rfl⟩
      · intro a ha h hh
        simp only [List.mem_append, List.mem_singleton] at ha
        rw [lookup_dictSet]
        rcases ha with ha | rfl
        · have := I.answered a ha h hh
          rw [if_neg]
          · exact this
          · rintro rfl
            rw [hl] at this
            cases this
        · injection hh with hh
          rw [if_pos hh.symm]
      · intro a ha hn
        simp only [List.mem_append, List.mem_singleton] at ha
        rcases ha with ha | rfl
        · exact I.unnamed a ha hn
        · cases hn
      · intro a ha n' h hn hh
        simp only [List.mem_append, List.mem_singleton] at ha
        rcases ha with ha | rfl
        · exact I.namedAs a ha n' h hn hh
        · injection hh with hh
          injection hn with hn
          rw [← hh, ← hn]

theorem inv_runAdds (cs : List AddCall) : ∀ m as, Inv m as → (∀ c ∈ cs, ∀ n, c.name = some n → ¬ Reserved n) →
    Inv (runAdds m cs).1 (as ++ (runAdds m cs).2) := by
  induction cs with
  | nil => intro m as I _; simpa [runAdds] using I
  | cons c cs ih =>
    intro m as I hc
    simp only [runAdds]
    have := ih _ _ (inv_add I c (hc c (by simp))) (fun d hd => hc d (List.mem_cons_of_mem _ hd))
    simpa using this

/-- **C36** (handles). In any history of `add` calls in which the user never picks a name of the form `GRFPY_<number>`:
a handle once returned stands for the text it was given for, now and after all later calls; adding a text without a name
always works, gives the same handle for the same text and different handles for different texts; adding under a name gives
the handle of that name.
Partial: the restriction on names is needed, see `made_up_name_taken`; and importing a language directory must come before the
first `add`, see `import_forgets_texts`. -/
theorem handles_stable_and_unique_partial (calls : List AddCall) (hc : ∀ c ∈ calls, ∀ n, c.name = some n → ¬ Reserved n) :
    let m := (runAdds {} calls).1
    let answers := (runAdds {} calls).2
    (∀ a ∈ answers, ∀ h, a.2 = some h → m.strings.lookup h = some a.1.value) ∧
    (∀ a ∈ answers, a.1.name = none → a.2 ≠ none) ∧
    (∀ a ∈ answers, ∀ b ∈ answers, a.1.name = none → b.1.name = none → (a.2 = b.2 ↔ a.1.value = b.1.value)) ∧
    (∀ a ∈ answers, ∀ n h, a.1.name = some n → a.2 = some h → h = n) := by
  have I := inv_runAdds calls {} [] ⟨by simp, by simp, by simp, by simp, by simp, by simp⟩ hc
  simp only [List.nil_append] at I
  refine ⟨I.answered, ?_, ?_, I.namedAs⟩
  · intro a ha hn
    obtain ⟨h, h1, _⟩ := I.unnamed a ha hn
    rw [h1]; simp
  · intro a ha b hb hn hm
    obtain ⟨h, h1, h2⟩ := I.unnamed a ha hn
    obtain ⟨k, h3, h4⟩ := I.unnamed b hb hm
    rw [h1, h3]
    constructor
    · intro e
      injection e with e
      subst e
      have e1 := I.answered a ha h h1
      have e2 := I.answered b hb h h3
      rw [e1] at e2
      injection e2
    · intro e
      rw [e, h4] at h2
      injection h2 with h2
      rw [h2]

/-- Negative result for C36: if the user's own name is one the manager makes up, adding another text fails once, and from
then on returns a handle standing for the user's text. -/
theorem made_up_name_taken :
    (runAdds {} [⟨"x", some "GRFPY_1"⟩, ⟨"y", none⟩, ⟨"y", none⟩]).2.map (·.2) = [some "GRFPY_1", none, some "GRFPY_1"] ∧
    (runAdds {} [⟨"x", some "GRFPY_1"⟩, ⟨"y", none⟩, ⟨"y", none⟩]).1.strings.lookup "GRFPY_1" = some "x" := by
  have e : autoName 1 = "GRFPY_1" := by decide +kernel
  constructor
  · simp [runAdds, add, handleText, e, dictSet]
  · simp [runAdds, add, handleText, e, dictSet]

/-- Negative result for C36: importing a language directory replaces the table of texts but not the memory of handed out
names, so a text added before and after gets a handle without any text. -/
theorem import_forgets_texts (value : String) (file : List (String × String))
    (hf : file.lookup (autoName 1) = none) :
    let m := importLang (add {} value none).1 file
    (add m value none).2 = some (autoName 1) ∧ (add m value none).1.strings.lookup (autoName 1) = none := by
  have h1 : add {} value none = ({ next := 2, named := [(value, autoName 1)], strings := [(autoName 1, value)] },
      some (autoName 1)) := by
    simp [add, handleText, dictSet]
  intro m
  have hm : m = { next := 2, named := [(value, autoName 1)], strings := file } := by
    show importLang (add {} value none).1 file = _
    rw [h1]; rfl
  rw [hm]
  simp [add, hf]

/-! ## ids -/

/-- A table filled by `register`. -/
structure TInv (base : Nat) (t : Table) (known : List (Ref × Nat)) : Prop where
  keys : (t.map (·.1)).Nodup
  pos : ∀ (k h i : Nat) hash r, t[k]? = some (hash, (i, r)) → i = k + base ∧ r.hash = hash
  entry : ∀ x ∈ known, ∃ r, t.lookup x.1.hash = some (x.2, r) ∧ (x.1 = r ∨ ∃ y ∈ known, y.1 = r)
  fromKnown : ∀ h i r, t.lookup h = some (i, r) → (r, i) ∈ known

theorem tinv_register {base : Nat} {t : Table} {known : List (Ref × Nat)} (I : TInv base t known) (r : Ref) :
    TInv base (register base t r).1 (known ++ [(r, (register base t r).2)]) := by
  unfold register
  cases hl : t.lookup r.hash with
  | some e =>
    obtain ⟨i, r'⟩ := e
    simp only
    refine ⟨I.keys, I.pos, ?_, ?_⟩
    · intro x hx
      simp only [List.mem_append, List.mem_singleton] at hx
      rcases hx with hx | rfl
      · obtain ⟨q, h1, h2⟩ := I.entry x hx
        refine ⟨q, h1, ?_⟩
        rcases h2 with h2 | ⟨y, hy, h2⟩
        · exact .inl h2
        · exact .inr ⟨y, List.mem_append_left _ hy, h2⟩
      · refine ⟨r', hl, .inr ⟨(r', i), List.mem_append_left _ (I.fromKnown _ _ _ hl), rfl⟩⟩
    · intro h j q hq
      exact List.mem_append_left _ (I.fromKnown h j q hq)
  | none =>
    simp only
    have hnot : r.hash ∉ t.map (·.1) := (lookup_isNone _ _).mp (by rw [hl]; rfl)
    refine ⟨IdMap.nodup_dictSet I.keys, ?_, ?_, ?_⟩
    · intro k h i hash q hk
      rw [Sounds.dictSet_new hnot, List.getElem?_append] at hk
      split at hk
      · exact I.pos k h i hash q hk
      · rw [List.getElem?_singleton] at hk
        split at hk
        · rename_i h1 h2
          injection hk with hk
          injection hk with e1 e2
          injection e2 with e2 e3
          subst e1 e2 e3
          exact ⟨by omega, rfl⟩
        · cases hk
    · intro x hx
      simp only [List.mem_append, List.mem_singleton] at hx
      rcases hx with hx | rfl
      · obtain ⟨q, h1, h2⟩ := I.entry x hx
        refine ⟨q, ?_, ?_⟩
        · rw [lookup_dictSet, if_neg]
          · exact h1
          · intro e
            rw [e, hl] at h1
            cases h1
        · rcases h2 with h2 | ⟨y, hy, h2⟩
          · exact .inl h2
          · exact .inr ⟨y, List.mem_append_left _ hy, h2⟩
      · exact ⟨r, by rw [lookup_dictSet, if_pos rfl], .inl rfl⟩
    · intro h j q hq
      rw [lookup_dictSet] at hq
      split at hq
      · injection hq with hq
        injection hq with e1 e2
        subst e1 e2
        simp
      · exact List.mem_append_left _ (I.fromKnown h j q hq)

/-- The answers of a history, with the handles they answer. -/
def answersG : List Reg → List Nat → List (Ref × Nat)
  | .global r :: rs, i :: is => (r, i) :: answersG rs is
  | .persistent _ :: rs, _ :: is => answersG rs is
  | _, _ => []

def answersP : List Reg → List Nat → List (Ref × Nat)
  | .persistent r :: rs, i :: is => (r, i) :: answersP rs is
  | .global _ :: rs, _ :: is => answersP rs is
  | _, _ => []

theorem tinv_run (rs : List Reg) : ∀ g p kg kp, TInv 0 g kg → TInv 0xdc00 p kp →
    TInv 0 (runRegs g p rs).1.1 (kg ++ answersG rs (runRegs g p rs).2) ∧
    TInv 0xdc00 (runRegs g p rs).1.2 (kp ++ answersP rs (runRegs g p rs).2) := by
  induction rs with
  | nil => intro g p kg kp I J; simpa [runRegs, answersG, answersP] using ⟨I, J⟩
  | cons c rs ih =>
    intro g p kg kp I J
    cases c with
    | global r =>
      have := ih _ p _ kp (tinv_register I r) J
      simpa [runRegs, answersG, answersP] using this
    | persistent r =>
      have := ih g _ kg _ I (tinv_register J r)
      simpa [runRegs, answersG, answersP] using this

theorem tinv_nil (base : Nat) : TInv base [] [] := ⟨by simp, by simp, by simp, by simp⟩

theorem ids_by_hash {base : Nat} {t : Table} {known : List (Ref × Nat)} (I : TInv base t known) :
    ∀ x ∈ known, ∀ y ∈ known, x.2 = y.2 ↔ x.1.hash = y.1.hash := by
  intro x hx y hy
  obtain ⟨q, h1, _⟩ := I.entry x hx
  obtain ⟨q', h2, _⟩ := I.entry y hy
  constructor
  · intro e
    obtain ⟨k, hk⟩ := List.getElem?_of_mem (IdMap.lookup_some_key h1)
    obtain ⟨k', hk'⟩ := List.getElem?_of_mem (IdMap.lookup_some_key h2)
    obtain ⟨a, _⟩ := I.pos k 0 _ _ _ hk
    obtain ⟨b, _⟩ := I.pos k' 0 _ _ _ hk'
    have : k = k' := by omega
    subst this
    rw [hk] at hk'
    injection hk' with hk'
    injection hk'
  · intro e
    rw [e, h2] at h1
    injection h1 with h1
    injection h1 with h1
    exact h1.symm

/-- **C36** (ids of texts). In any history of requests for global and persistent ids in which different handles have
different hashes: the same handle always gets the same id, different handles get different ids, and persistent ids start at
0xdc00. Partial: two handles with equal hashes share an id, see `hash_collision_shares_id`. -/
theorem text_ids_stable_and_unique_partial (rs : List Reg) :
    let out := runRegs [] [] rs
    (∀ x ∈ answersG rs out.2, ∀ y ∈ answersG rs out.2, (x.1.hash = y.1.hash → x.1 = y.1) → (x.2 = y.2 ↔ x.1 = y.1)) ∧
    (∀ x ∈ answersP rs out.2, ∀ y ∈ answersP rs out.2, (x.1.hash = y.1.hash → x.1 = y.1) → (x.2 = y.2 ↔ x.1 = y.1)) ∧
    (∀ x ∈ answersP rs out.2, 0xdc00 ≤ x.2) := by
  obtain ⟨I, J⟩ := tinv_run rs [] [] [] [] (tinv_nil 0) (tinv_nil 0xdc00)
  simp only [List.nil_append] at I J
  refine ⟨?_, ?_, ?_⟩
  · intro x hx y hy hinj
    rw [ids_by_hash I x hx y hy]
    exact ⟨hinj, fun e => by rw [e]⟩
  · intro x hx y hy hinj
    rw [ids_by_hash J x hx y hy]
    exact ⟨hinj, fun e => by rw [e]⟩
  · intro x hx
    obtain ⟨q, h1, _⟩ := J.entry x hx
    obtain ⟨k, hk⟩ := List.getElem?_of_mem (IdMap.lookup_some_key h1)
    obtain ⟨a, _⟩ := J.pos k 0 _ _ _ hk
    omega

theorem emit_mem (pairs : Ref → List (Nat × Bytes)) (base : Nat) : ∀ (t : Table) (ds : List Def), emit pairs base t = some ds →
    ∀ d, d ∈ ds ↔ ∃ e ∈ t, ∃ p ∈ pairs e.2.2, d = ⟨p.1, base + e.2.1, p.2⟩ := by
  intro t
  induction t with
  | nil =>
    intro ds h d
    simp only [emit, Option.some.injEq] at h
    subst h
    simp
  | cons e t ih =>
    intro ds h d
    obtain ⟨hash, i, r⟩ := e
    simp only [emit, Option.bind_eq_bind, Option.bind_eq_some_iff] at h
    obtain ⟨rest, h1, h2⟩ := h
    split at h2
    · injection h2 with h2
      subst h2
      simp only [List.mem_append, List.mem_map, ih rest h1 d, List.mem_cons, exists_eq_or_imp]
      constructor
      · rintro (⟨p, hp, rfl⟩ | h)
        · exact .inl ⟨p, hp, rfl⟩
        · exact .inr h
      · rintro (⟨p, hp, rfl⟩ | h)
        · exact .inl ⟨p, hp, rfl⟩
        · exact .inr h
    · cases h2

/-- **C36** (definitions). When the strings are written, every id handed out is defined, in every language the text of the
handle has, by the text of that handle; and nothing else is defined. (Global ids count from 0xd000 in the file.) -/
theorem texts_defined_as_registered_partial (pairs : Ref → List (Nat × Bytes)) (rs : List Reg) (ds : List Def)
    (hw : written pairs (runRegs [] [] rs).1 = some ds)
    (hinj : ∀ x ∈ answersG rs (runRegs [] [] rs).2 ++ answersP rs (runRegs [] [] rs).2,
      ∀ y ∈ answersG rs (runRegs [] [] rs).2 ++ answersP rs (runRegs [] [] rs).2, x.1.hash = y.1.hash → x.1 = y.1) :
    ∀ d, d ∈ ds ↔
      (∃ x ∈ answersG rs (runRegs [] [] rs).2, ∃ p ∈ pairs x.1, d = ⟨p.1, 0xd000 + x.2, p.2⟩) ∨
      (∃ x ∈ answersP rs (runRegs [] [] rs).2, ∃ p ∈ pairs x.1, d = ⟨p.1, x.2, p.2⟩) := by
  obtain ⟨I, J⟩ := tinv_run rs [] [] [] [] (tinv_nil 0) (tinv_nil 0xdc00)
  simp only [List.nil_append] at I J
  simp only [written, Option.bind_eq_bind, Option.bind_eq_some_iff, Option.some.injEq] at hw
  obtain ⟨a, ha, b, hb, rfl⟩ := hw
  have key : ∀ {base base' : Nat} {t : Table} {known : List (Ref × Nat)} {out : List Def}, TInv base t known →
      (∀ x ∈ known, ∀ y ∈ known, x.1.hash = y.1.hash → x.1 = y.1) → emit pairs base' t = some out →
      ∀ d, d ∈ out ↔ ∃ x ∈ known, ∃ p ∈ pairs x.1, d = ⟨p.1, base' + x.2, p.2⟩ := by
    intro base base' t known out T hi he d
    rw [emit_mem pairs base' t out he]
    constructor
    · rintro ⟨⟨hash, i, r⟩, h1, p, hp, rfl⟩
      have := T.fromKnown hash i r (IdMap.lookup_of_mem T.keys h1)
      exact ⟨(r, i), this, p, hp, rfl⟩
    · rintro ⟨x, hx, p, hp, rfl⟩
      obtain ⟨q, h1, h2⟩ := T.entry x hx
      have h3 := IdMap.lookup_some_key h1
      have h4 := T.fromKnown _ _ _ h1
      obtain ⟨k, hk⟩ := List.getElem?_of_mem h3
      have h5 := (T.pos k 0 _ _ _ hk).2
      have h6 := hi (q, x.2) h4 x hx h5
      simp only at h6
      exact ⟨_, h3, p, by simpa [h6] using hp, rfl⟩
  intro d
  rw [List.mem_append, key J (fun x hx y hy => hinj x (List.mem_append_right _ hx) y (List.mem_append_right _ hy)) ha,
    key I (fun x hx y hy => hinj x (List.mem_append_left _ hx) y (List.mem_append_left _ hy)) hb, or_comm]
  simp

/-- Negative result for C36: equal hashes of different texts mean equal ids, and the second text is never written. -/
theorem hash_collision_shares_id :
    let a : Ref := ⟨5, 1⟩
    let b : Ref := ⟨5, 2⟩
    (runRegs [] [] [.global a, .global b]).2 = [0, 0] ∧
    written (fun r => [(0x7f, [UInt8.ofNat r.expr])]) (runRegs [] [] [.global a, .global b]).1 = some [⟨0x7f, 0xd000, [1]⟩] := by
  decide +kernel

theorem length_globals (n : Nat) : ∀ (t : Table) (k : Nat), (∀ h ∈ t.map (·.1), h < (k : Int)) →
    (runRegs t [] ((List.range n).map fun (i : Nat) => Reg.global ⟨(k + i : Nat), k + i⟩)).1.1 =
      t ++ (List.range n).map fun (i : Nat) => (((k + i : Nat) : Int), (t.length + i, (⟨(k + i : Nat), k + i⟩ : Ref))) := by
  induction n with
  | zero => intro t k _; simp [runRegs]
  | succ n ih =>
    intro t k hk
    rw [List.range_succ_eq_map]
    simp only [List.map_cons, List.map_map, runRegs, Nat.add_zero]
    have hnot : (k : Int) ∉ t.map (·.1) := fun h => by have := hk _ h; omega
    have hl : t.lookup (k : Int) = none := by
      have := (lookup_isNone t (k : Int)).mpr hnot
      simpa using this
    have hr : (register 0 t ⟨(k : Int), k⟩).1 = t ++ [((k : Int), (t.length, (⟨(k : Int), k⟩ : Ref)))] := by
      simp only [register, hl, Nat.add_zero]
      exact Sounds.dictSet_new hnot
    have hcomp : (Reg.global ∘ fun (i : Nat) => (⟨((k + (i + 1) : Nat) : Int), k + (i + 1)⟩ : Ref)) =
        fun (i : Nat) => Reg.global ⟨((k + 1 + i : Nat) : Int), k + 1 + i⟩ := by
      funext i
      simp only [Function.comp]
      have : k + (i + 1) = k + 1 + i := by omega
      rw [this]
    have ih' := ih (register 0 t ⟨(k : Int), k⟩).1 (k + 1) (by
      rw [hr]
      intro h hh
      simp only [List.map_append, List.map_cons, List.map_nil, List.mem_append, List.mem_singleton] at hh
      rcases hh with hh | rfl
      · have := hk h hh; omega
      · omega)
    have hcomp2 : ((fun (i : Nat) => Reg.global ⟨((k + i : Nat) : Int), k + i⟩) ∘ Nat.succ) =
        fun (i : Nat) => Reg.global ⟨((k + 1 + i : Nat) : Int), k + 1 + i⟩ := by
      funext i
      simp only [Function.comp, Nat.succ_eq_add_one]
      have : k + (i + 1) = k + 1 + i := by omega
      rw [this]
    rw [hcomp2, ih', hr]
    simp only [List.append_assoc, List.singleton_append, List.length_append, List.length_singleton]
    congr 2
    apply List.map_congr_left
    intro i _
    simp only [Function.comp, Nat.succ_eq_add_one]
    have e1 : k + 1 + i = k + (i + 1) := by omega
    have e2 : t.length + 1 + i = t.length + (i + 1) := by omega
    rw [e1, e2]

/-- Negative result for C36: the ranges of global and persistent ids are not kept apart. With 3073 global texts the last one
is defined under 0xdc00, the id of the first persistent text. -/
theorem global_runs_into_persistent :
    ∃ rs i, (i ∈ (runRegs [] [] rs).1.1.map fun e => 0xd000 + e.2.1) ∧ i ∈ (runRegs [] [] (rs ++ [.persistent ⟨-1, 0⟩])).2 := by
  refine ⟨(List.range 3073).map fun (i : Nat) => Reg.global ⟨((0 + i : Nat) : Int), 0 + i⟩, 0xdc00, ?_, ?_⟩
  · rw [length_globals 3073 [] 0 (by simp)]
    simp only [List.nil_append, List.map_map, List.mem_map, List.mem_range, Function.comp]
    exact ⟨3072, by omega, rfl⟩
  · have : ∀ (rs : List Reg) (g : Table), (∀ r ∈ rs, ∃ q, r = .global q) →
        0xdc00 ∈ (runRegs g [] (rs ++ [.persistent ⟨-1, 0⟩])).2 := by
      intro rs
      induction rs with
      | nil => intro g _; simp [runRegs, register]
      | cons r rs ih =>
        intro g h
        obtain ⟨q, rfl⟩ := h r (by simp)
        simp only [List.cons_append, runRegs, List.mem_cons]
        exact .inr (ih _ (fun x hx => h x (List.mem_cons_of_mem _ hx)))
    refine this _ [] ?_
    intro r hr
    simp only [List.mem_map] at hr
    obtain ⟨i, _, rfl⟩ := hr
    exact ⟨_, rfl⟩

/-! Non-vacuity. -/

example : (runRegs [] [] [.global ⟨5, 1⟩, .persistent ⟨5, 1⟩, .global ⟨9, 2⟩, .global ⟨5, 1⟩]).2 = [0, 0xdc00, 1, 0] := by
  decide +kernel

example : written (fun r => [(0x7f, [UInt8.ofNat r.expr]), (2, [7])])
    (runRegs [] [] [.global ⟨5, 1⟩, .persistent ⟨5, 1⟩, .global ⟨9, 2⟩]).1 =
    some [⟨0x7f, 0xdc00, [1]⟩, ⟨2, 0xdc00, [7]⟩, ⟨0x7f, 0xd000, [1]⟩, ⟨2, 0xd000, [7]⟩, ⟨0x7f, 0xd001, [2]⟩, ⟨2, 0xd001, [7]⟩] := by
  decide +kernel

example : (runAdds {} [⟨"a", none⟩, ⟨"b", some "B"⟩, ⟨"c", none⟩, ⟨"a", none⟩, ⟨"d", some "B"⟩]).2.map (·.2)
    = [some "GRFPY_1", some "B", some "GRFPY_2", some "GRFPY_1", none] := by
  have e : autoName 1 = "GRFPY_1" := by decide +kernel
  have e2 : autoName 2 = "GRFPY_2" := by decide +kernel
  simp [runAdds, add, handleText, e, e2, dictSet]

end Grf.Strings
