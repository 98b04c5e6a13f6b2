import Verif.Props.ResNames
/-!
# C48: the names themselves
-/
namespace Grf.ResNames
open Strings (dec)

/-! ### Specification -/

/-- A tidy name: small letters, digits, single dashes and underscores, with neither a dash nor an underscore at the ends. -/
structure Tidy (p : Name) : Prop where
  safe : ∀ c ∈ p, Safe c
  single : ¬ ['-', '-'] <:+: p
  first : ∀ c, p.head? = some c → c ≠ '-' ∧ c ≠ '_'
  last : ∀ c, p.getLast? = some c → c ≠ '-' ∧ c ≠ '_'

/-- The letters and digits of a text, in small letters. -/
def letters (p : Name) : Name := (p.map Char.toLower).filter Char.isAlphanum

/-- `p.ext`, `p_2.ext`, `p_3.ext`, ... -/
def numbered (p ext : Name) (k : Nat) : Name := if k = 1 then p ++ '.' :: ext else p ++ '_' :: (toString k).toList ++ '.' :: ext

/-! ### Lemmas -/

theorem dec_digits (n : Nat) : dec n = (toString n).toList := by
  have e : ∀ n, dec n = Nat.toDigits 10 n := by
    intro n
    induction n using Nat.strongRecOn with
    | _ n ih =>
      have hd : ∀ k : Fin 10, Char.ofNat (48 + k.val) = Nat.digitChar k.val := by decide
      unfold dec
      rw [Nat.toDigits_eq_if (by decide)]
      split
      · next h => rw [hd ⟨n, h⟩]
      · next h => rw [ih _ (by omega), hd ⟨n % 10, Nat.mod_lt _ (by decide)⟩]
  rw [e]
  simp [toString, Nat.repr]

theorem candidate_eq (p ext : Name) (k : Nat) : candidate p ext k = numbered p ext (k + 1) := by
  unfold candidate numbered
  rw [dec_digits]
  by_cases h : k = 0
  · rw [if_pos h, if_pos (by omega)]
  · rw [if_neg h, if_neg (by omega)]

theorem char_of_nat {c : Char} {n : Nat} (h : c.toNat = n) : c = Char.ofNat n := by rw [← h, Char.ofNat_toNat]

theorem lower_eq (c : Char) : lower c = c.toLower := by
  by_cases h : 'A' ≤ c ∧ c ≤ 'Z'
  · have h1 : 65 ≤ c.toNat ∧ c.toNat ≤ 90 := h
    have key : ∀ k : Fin 26, lower (Char.ofNat (65 + k.val)) = (Char.ofNat (65 + k.val)).toLower := by decide
    have := key ⟨c.toNat - 65, by omega⟩
    rwa [show 65 + (c.toNat - 65) = c.toNat by omega, Char.ofNat_toNat] at this
  · have h' : ¬ (c.val ≥ 'A'.val ∧ c.val ≤ 'Z'.val) := h
    unfold lower Char.toLower
    rw [if_neg (by simpa using h), dif_neg h']

theorem alphanum_iff (c : Char) : c.isAlphanum = true ↔ (65 ≤ c.toNat ∧ c.toNat ≤ 90) ∨ (97 ≤ c.toNat ∧ c.toNat ≤ 122) ∨ (48 ≤ c.toNat ∧ c.toNat ≤ 57) := by
  simp only [Char.isAlphanum, Char.isAlpha, Char.isUpper, Char.isLower, Char.isDigit, Bool.or_eq_true, decide_eq_true_eq, Bool.and_eq_true]
  change ((65 ≤ c.toNat ∧ c.toNat ≤ 90) ∨ (97 ≤ c.toNat ∧ c.toNat ≤ 122)) ∨ (48 ≤ c.toNat ∧ c.toNat ≤ 57) ↔ _
  omega

theorem safe_iff (c : Char) : Safe c ↔ (97 ≤ c.toNat ∧ c.toNat ≤ 122) ∨ (48 ≤ c.toNat ∧ c.toNat ≤ 57) ∨ c.toNat = 45 ∨ c.toNat = 95 := by
  have e1 : ('a' ≤ c ↔ 97 ≤ c.toNat) := Iff.rfl
  have e2 : (c ≤ 'z' ↔ c.toNat ≤ 122) := Iff.rfl
  have e3 : ('0' ≤ c ↔ 48 ≤ c.toNat) := Iff.rfl
  have e4 : (c ≤ '9' ↔ c.toNat ≤ 57) := Iff.rfl
  have e5 : (c = '-' ↔ c.toNat = 45) := ⟨fun h => by rw [h]; rfl, fun h => char_of_nat h⟩
  have e6 : (c = '_' ↔ c.toNat = 95) := ⟨fun h => by rw [h]; rfl, fun h => char_of_nat h⟩
  unfold Safe
  rw [e1, e2, e3, e4, e5, e6]

theorem word_of_alphanum {c : Char} (h : c.isAlphanum = true) : isWord c = true ∧ isSpace c = false ∧ c ≠ '-' ∧ c ≠ '_' := by
  rw [alphanum_iff] at h
  have e1 : ('a' ≤ c ↔ 97 ≤ c.toNat) := Iff.rfl
  have e2 : (c ≤ 'z' ↔ c.toNat ≤ 122) := Iff.rfl
  have e3 : ('0' ≤ c ↔ 48 ≤ c.toNat) := Iff.rfl
  have e4 : (c ≤ '9' ↔ c.toNat ≤ 57) := Iff.rfl
  have e5 : ('A' ≤ c ↔ 65 ≤ c.toNat) := Iff.rfl
  have e6 : (c ≤ 'Z' ↔ c.toNat ≤ 90) := Iff.rfl
  refine ⟨?_, ?_, ?_, ?_⟩
  · simp only [isWord, Bool.or_eq_true, Bool.and_eq_true, decide_eq_true_eq, e1, e2, e3, e4, e5, e6]
    omega
  · simp only [isSpace, Bool.or_eq_false_iff, Bool.and_eq_false_iff, decide_eq_false_iff_not]
    omega
  · rintro rfl; revert h; decide
  · rintro rfl; revert h; decide

theorem letters_dashes (b : Bool) (l : Name) : (dashes b l).filter Char.isAlphanum = l.filter Char.isAlphanum := by
  induction l generalizing b with
  | nil => rfl
  | cons c l ih =>
    unfold dashes
    by_cases h : (c == '-' || isSpace c) = true
    · have hc : c.isAlphanum = false := by
        cases e : c.isAlphanum with
        | false => rfl
        | true => have := word_of_alphanum e; simp [this.2.1, this.2.2.1] at h
      have hd : ('-' : Char).isAlphanum = false := by decide
      rw [if_pos h, List.filter_cons_of_neg (by simp [hc])]
      cases b with
      | true => simp only [if_true]; exact ih _
      | false => simp only [Bool.false_eq_true, if_false]; rw [List.filter_cons_of_neg (by simp [hd])]; exact ih _
    · rw [if_neg h, List.filter_cons, List.filter_cons, ih]

theorem letters_dropWhile (q : Char → Bool) (hq : ∀ c, q c = true → c.isAlphanum = false) (l : Name) :
    (l.dropWhile q).filter Char.isAlphanum = l.filter Char.isAlphanum := by
  induction l with
  | nil => rfl
  | cons c l ih =>
    rw [List.dropWhile_cons]
    split
    · next h => rw [ih, List.filter_cons_of_neg (by simp [hq c h])]
    · rfl

theorem strip_letters (l : Name) : (strip l).filter Char.isAlphanum = l.filter Char.isAlphanum := by
  have hq : ∀ c : Char, (c == '-' || c == '_') = true → c.isAlphanum = false := by
    intro c h
    rw [Bool.or_eq_true, beq_iff_eq, beq_iff_eq] at h
    rcases h with rfl | rfl <;> decide
  unfold strip
  rw [List.filter_reverse, letters_dropWhile _ hq, List.filter_reverse, List.reverse_reverse, letters_dropWhile _ hq]

theorem clean_letters (norm : Name → Name) (name : Name) : (clean norm name).filter Char.isAlphanum = letters (norm name) := by
  unfold clean letters
  rw [strip_letters, letters_dashes, List.filter_filter]
  have e : (norm name).map lower = (norm name).map Char.toLower := List.map_congr_left fun c _ => lower_eq c
  rw [e]
  apply List.filter_congr
  intro c _
  cases h : c.isAlphanum with
  | false => simp
  | true => simp [(word_of_alphanum h).1]

theorem dashes_single (l : Name) : (∀ b, ¬ ['-', '-'] <:+: dashes b l) ∧ (dashes true l).head? ≠ some '-' := by
  induction l with
  | nil => exact ⟨(fun b => by simp [dashes]), by simp [dashes]⟩
  | cons c l ih =>
    obtain ⟨h1, h2⟩ := ih
    by_cases h : (c == '-' || isSpace c) = true
    · refine ⟨?_, by unfold dashes; rw [if_pos h]; simpa using h2⟩
      intro b
      unfold dashes
      rw [if_pos h]
      cases b with
      | true => simpa using h1 true
      | false =>
        simp only [Bool.false_eq_true, if_false]
        rw [List.infix_cons_iff]
        rintro (hp | hi)
        · obtain ⟨t, ht⟩ := hp
          simp only [List.cons_append, List.nil_append, List.cons.injEq, true_and] at ht
          exact h2 (by rw [← ht]; rfl)
        · exact h1 true hi
    · refine ⟨?_, ?_⟩
      · intro b
        unfold dashes
        rw [if_neg h, List.infix_cons_iff]
        rintro (hp | hi)
        · obtain ⟨t, ht⟩ := hp
          simp only [List.cons_append, List.nil_append, List.cons.injEq] at ht
          exact h (by rw [← ht.1]; rfl)
        · exact h1 false hi
      · unfold dashes
        rw [if_neg h]
        simp only [List.head?_cons, ne_eq, Option.some.injEq]
        rintro rfl
        exact h rfl

theorem strip_infix (l : Name) : strip l <:+: l := by
  unfold strip
  have h1 := List.dropWhile_suffix (fun c => c == '-' || c == '_') (l := l)
  have h2 := List.dropWhile_suffix (fun c => c == '-' || c == '_') (l := (l.dropWhile (fun c => c == '-' || c == '_')).reverse)
  have h3 := List.reverse_prefix.2 h2
  rw [List.reverse_reverse] at h3
  exact h3.isInfix.trans h1.isInfix

theorem head_dropWhile (q : Char → Bool) (l : Name) (c : Char) (h : (l.dropWhile q).head? = some c) : q c = false := by
  induction l with
  | nil => simp at h
  | cons x l ih =>
    rw [List.dropWhile_cons] at h
    split at h
    · exact ih h
    · next hx => simp only [List.head?_cons, Option.some.injEq] at h; subst h; simpa using hx

theorem strip_last (l : Name) (c : Char) (h : (strip l).getLast? = some c) : c ≠ '-' ∧ c ≠ '_' := by
  unfold strip at h
  rw [List.getLast?_reverse] at h
  have := head_dropWhile _ _ _ h
  simpa using this

theorem strip_first (l : Name) (c : Char) (h : (strip l).head? = some c) : c ≠ '-' ∧ c ≠ '_' := by
  unfold strip at h
  rw [List.head?_reverse] at h
  have h2 := List.dropWhile_suffix (fun c => c == '-' || c == '_') (l := (l.dropWhile (fun c => c == '-' || c == '_')).reverse)
  obtain ⟨t, ht⟩ := h2
  have hl : (l.dropWhile (fun c => c == '-' || c == '_')).reverse.getLast? = some c := by
    rw [← ht, List.getLast?_append, h]; rfl
  rw [List.getLast?_reverse] at hl
  have := head_dropWhile _ _ _ hl
  simpa using this

theorem clean_safe (norm : Name → Name) (name : Name) : ∀ c ∈ clean norm name, Safe c := by
  intro c hc
  rcases dashes_mem _ _ c (strip_mem _ c hc) with rfl | ⟨hm, hs⟩
  · exact Or.inr (Or.inr (Or.inl rfl))
  · rw [List.mem_filter, List.mem_map] at hm
    obtain ⟨⟨d, _, rfl⟩, hw⟩ := hm
    rw [hs] at hw
    simp only [Bool.or_false, Bool.or_eq_true, beq_iff_eq] at hw
    rcases hw with hw | hw
    · exact lower_word d hw
    · exact Or.inr (Or.inr (Or.inl hw))

theorem clean_tidy (norm : Name → Name) (name : Name) : Tidy (clean norm name) where
  safe := clean_safe norm name
  single := fun h => (dashes_single _).1 _ (h.trans (strip_infix _))
  first := strip_first _
  last := strip_last _

/-! ### Tidy names are kept -/

theorem dashes_kept (l : Name) (hs : ∀ c ∈ l, isSpace c = false) (h : ¬ ['-', '-'] <:+: l) :
    dashes false l = l ∧ (l.head? ≠ some '-' → dashes true l = l) := by
  induction l with
  | nil => exact ⟨rfl, fun _ => rfl⟩
  | cons c l ih =>
    rw [List.infix_cons_iff, not_or] at h
    obtain ⟨i1, i2⟩ := ih (fun d hd => hs d (List.mem_cons_of_mem _ hd)) h.2
    have hc := hs c List.mem_cons_self
    by_cases hd : c = '-'
    · subst hd
      refine ⟨?_, fun hn => absurd rfl hn⟩
      have : l.head? ≠ some '-' := by
        intro e
        cases l with
        | nil => simp at e
        | cons x l => simp only [List.head?_cons, Option.some.injEq] at e; subst e; exact h.1 ⟨l, rfl⟩
      unfold dashes
      simp [i2 this]
    · unfold dashes
      simp [hd, hc, i1]

theorem strip_kept (l : Name) (h1 : ∀ c, l.head? = some c → c ≠ '-' ∧ c ≠ '_') (h2 : ∀ c, l.getLast? = some c → c ≠ '-' ∧ c ≠ '_') : strip l = l := by
  have key : ∀ m : Name, (∀ c, m.head? = some c → c ≠ '-' ∧ c ≠ '_') → m.dropWhile (fun c => c == '-' || c == '_') = m := by
    intro m hm
    cases m with
    | nil => rfl
    | cons x m => rw [List.dropWhile_cons, if_neg]; have := hm x rfl; simp [this]
  unfold strip
  rw [key l h1, key l.reverse (fun c hc => h2 c (by rwa [List.head?_reverse] at hc)), List.reverse_reverse]

theorem safe_facts {c : Char} (h : Safe c) : lower c = c ∧ isSpace c = false ∧ (isWord c || isSpace c || c == '-') = true := by
  have h' := (safe_iff c).1 h
  refine ⟨?_, ?_, ?_⟩
  · unfold lower
    have e5 : ('A' ≤ c ↔ 65 ≤ c.toNat) := Iff.rfl
    have e6 : (c ≤ 'Z' ↔ c.toNat ≤ 90) := Iff.rfl
    rw [if_neg]
    simp only [Bool.and_eq_true, decide_eq_true_eq, e5, e6]
    omega
  · simp only [isSpace, Bool.or_eq_false_iff, Bool.and_eq_false_iff, decide_eq_false_iff_not]
    omega
  · have e1 : ('a' ≤ c ↔ 97 ≤ c.toNat) := Iff.rfl
    have e2 : (c ≤ 'z' ↔ c.toNat ≤ 122) := Iff.rfl
    have e3 : ('0' ≤ c ↔ 48 ≤ c.toNat) := Iff.rfl
    have e4 : (c ≤ '9' ↔ c.toNat ≤ 57) := Iff.rfl
    simp only [isWord, Bool.or_eq_true, Bool.and_eq_true, decide_eq_true_eq, beq_iff_eq]
    rcases h with h | h | h | h <;> simp [h]

theorem clean_kept (norm : Name → Name) (p : Name) (hn : norm p = p) (ht : Tidy p) : clean norm p = p := by
  unfold clean
  rw [hn]
  have e1 : p.map lower = p := by
    conv => rhs; rw [← List.map_id p]
    exact List.map_congr_left fun c hc => (safe_facts (ht.safe c hc)).1
  have e2 : p.filter (fun c => isWord c || isSpace c || c == '-') = p := by
    rw [List.filter_eq_self]
    exact fun c hc => (safe_facts (ht.safe c hc)).2.2
  rw [e1, e2, (dashes_kept p (fun c hc => (safe_facts (ht.safe c hc)).2.1) ht.single).1, strip_kept p ht.first ht.last]

/-! ### The claims -/

/-- The name without its extension, if it has it. -/
def Stem (name ext q : Name) : Prop := name = q ++ '.' :: ext ∨ (q = name ∧ ¬ ('.' :: ext) <:+ name)

theorem cutExt_iff (name ext q : Name) : cutExt name ext = q ↔ Stem name ext q := by
  unfold cutExt Stem
  by_cases h : ('.' :: ext) <:+ name
  · rw [if_pos h]
    obtain ⟨t, rfl⟩ := h
    have e : (t ++ '.' :: ext).take ((t ++ '.' :: ext).length - ext.length - 1) = t := by
      rw [show (t ++ '.' :: ext).length - ext.length - 1 = t.length by simp; omega]
      simp
    rw [e]
    constructor
    · rintro rfl; exact .inl rfl
    · rintro (h | ⟨-, h⟩)
      · exact List.append_cancel_right h
      · exact absurd ⟨t, rfl⟩ h
  · rw [if_neg h]
    constructor
    · rintro rfl; exact .inr ⟨rfl, h⟩
    · rintro (h' | ⟨h', -⟩)
      · exact absurd ⟨q, h'.symm⟩ h
      · exact h'.symm

/-- **C48** Every name asked for has a tidy form with the same letters and digits; what is handed out is the first of `p.ext`, `p_2.ext`,
`p_3.ext`, ... that is not used, and the request is refused exactly if all those tried are used. -/
theorem name_exact (norm : Name → Name) (name ext : Name) : ∃ p q, Stem name ext q ∧ Tidy p ∧ p.filter Char.isAlphanum = letters (norm q) ∧
    (norm q = q → Tidy q → p = q) ∧
    ∀ index tries, (∀ u index', genName norm index name ext tries = some (u, index') ↔
        index' = u :: index ∧ ∃ k, 1 ≤ k ∧ k ≤ tries ∧ u = numbered p ext k ∧ u ∉ index ∧ ∀ j, 1 ≤ j → j < k → numbered p ext j ∈ index) ∧
      (genName norm index name ext tries = none ↔ ∀ k, 1 ≤ k → k ≤ tries → numbered p ext k ∈ index) := by
  refine ⟨clean norm (cutExt name ext), cutExt name ext, (cutExt_iff _ _ _).1 rfl, clean_tidy _ _, clean_letters _ _, clean_kept norm _, ?_⟩
  intro index tries
  have hnone : genName norm index name ext tries = none ↔ ∀ k, 1 ≤ k → k ≤ tries → numbered (clean norm (cutExt name ext)) ext k ∈ index := by
    unfold genName
    rw [refused_iff_all_used]
    constructor
    · intro h k h1 h2
      have := h (k - 1) (by omega)
      rwa [candidate_eq, show k - 1 + 1 = k by omega] at this
    · intro h k hk
      rw [candidate_eq]
      exact h (k + 1) (by omega) (by omega)
  refine ⟨fun u index' => ⟨?_, ?_⟩, hnone⟩
  · intro h
    have hi : index' = u :: index := by
      unfold genName findUnique at h
      rw [Option.map_eq_some_iff] at h
      obtain ⟨v, -, hv⟩ := h
      simp only [Prod.mk.injEq] at hv
      rw [← hv.1, ← hv.2]
    unfold genName at h
    obtain ⟨h1, -, k, hk, rfl, hj⟩ := name_is_new _ _ _ _ _ _ h
    refine ⟨hi, k + 1, by omega, by omega, candidate_eq _ _ _, h1, ?_⟩
    intro j h1 h2
    have := hj (j - 1) (by omega)
    rwa [candidate_eq, show j - 1 + 1 = j by omega] at this
  · rintro ⟨rfl, k, h1, h2, rfl, h3, h4⟩
    cases hg : genName norm index name ext tries with
    | none => exact absurd (hnone.1 hg k h1 h2) h3
    | some r =>
      obtain ⟨u', i'⟩ := r
      have hi : i' = u' :: index := by
        unfold genName findUnique at hg
        rw [Option.map_eq_some_iff] at hg
        obtain ⟨v, -, hv⟩ := hg
        simp only [Prod.mk.injEq] at hv
        rw [← hv.1, ← hv.2]
      subst hi
      unfold genName at hg
      obtain ⟨g1, -, k', hk', rfl, hj⟩ := name_is_new _ _ _ _ _ _ hg
      rw [candidate_eq] at g1 ⊢
      have : k' + 1 = k := by
        rcases Nat.lt_trichotomy (k' + 1) k with h | h | h
        · exact absurd (h4 (k' + 1) (by omega) h) g1
        · exact h
        · have := hj (k - 1) (by omega)
          rw [candidate_eq, show k - 1 + 1 = k by omega] at this
          exact absurd this h3
      rw [this]

/-- A tidy name with or without its extension is handed out as it is while it is free. -/
example : Tidy "train-horn_2".toList ∧ genName id ["a.wav".toList] "train-horn_2.wav".toList "wav".toList 100 =
    some ("train-horn_2.wav".toList, ["train-horn_2.wav".toList, "a.wav".toList]) := by
  refine ⟨⟨?_, by decide +kernel, ?_, ?_⟩, by decide +kernel⟩
  · intro c hc
    have : ∀ c ∈ "train-horn_2".toList, (97 ≤ c.toNat ∧ c.toNat ≤ 122) ∨ (48 ≤ c.toNat ∧ c.toNat ≤ 57) ∨ c.toNat = 45 ∨ c.toNat = 95 := by decide +kernel
    exact (safe_iff c).2 (this c hc)
  · intro c hc
    have : c = 't' := by have : some c = some 't' := by rw [← hc]; rfl
                         exact Option.some.inj this
    subst this; decide
  · intro c hc
    have : c = '2' := by have : some c = some '2' := by rw [← hc]; rfl
                         exact Option.some.inj this
    subst this; decide

end Grf.ResNames
