import Verif.Props.HexExact
import Verif.Props.StringsExact
import Verif.Props.TrainExact
import Verif.Props.Decode
import Verif.Proofs.Enumerate
/-!
# Cases found by mutation: limited hex texts, texts asked for by name, parts given by their shortening, nested computed variables, the order of
sprites
-/
namespace Grf

/-! ### C04: `hex_str(s, n)` -/

theorem foldl_none (p : List Char) : p.foldl (fun (acc : Option Nat) c => do let a ← acc; let d ← hexVal c; some (16 * a + d)) none = none := by
  induction p with
  | nil => rfl
  | cons c p ih => exact ih

theorem parseHex_dot (p : List Char) (h : '.' ∈ p) : parseHex p = none := by
  unfold parseHex
  split
  · rfl
  · have key : ∀ (p : List Char) (acc : Option Nat), '.' ∈ p →
        p.foldl (fun (acc : Option Nat) c => do let a ← acc; let d ← hexVal c; some (16 * a + d)) acc = none := by
      intro p
      induction p with
      | nil => intro _ h; cases h
      | cons c p ih =>
        intro acc h
        rcases List.mem_cons.1 h with rfl | h
        · simp only [List.foldl_cons]
          have : (do let a ← acc; let d ← hexVal '.'; some (16 * a + d) : Option Nat) = none := by
            cases acc with
            | none => rfl
            | some a => rfl
          rw [this, foldl_none]
        · exact ih _ h
    exact key p _ h

theorem splitColon_mem (x : List Char) (c : Char) (hc : c ≠ ':') (h : c ∈ x) : ∃ p ∈ splitColon x, c ∈ p := by
  induction x with
  | nil => cases h
  | cons d x ih =>
    simp only [splitColon]
    rcases List.mem_cons.1 h with rfl | h
    · rw [if_neg hc]
      split
      · exact ⟨[c], by simp, by simp⟩
      · exact ⟨_, List.mem_cons_self, List.mem_cons_self⟩
    · obtain ⟨p, hp, hcp⟩ := ih h
      split
      · exact ⟨p, by simp [hp], hcp⟩
      · split
        · next e => rw [e] at hp; cases hp
        · next q qs e =>
          rw [e] at hp
          rcases List.mem_cons.1 hp with rfl | hp
          · exact ⟨_, List.mem_cons_self, by simp [hcp]⟩
          · exact ⟨p, by simp [hp], hcp⟩

theorem mapM_none {α β : Type} (f : α → Option β) (l : List α) (x : α) (hx : x ∈ l) (h : f x = none) : l.mapM f = none := by
  induction l with
  | nil => cases hx
  | cons a l ih =>
    rcases List.mem_cons.1 hx with rfl | hx
    · simp [h]
    · simp only [List.mapM_cons, ih hx]
      cases f a <;> rfl

/-- **C04** The text limited to `n` bytes (`n ≥ 3`) is the whole text, and is read back as the bytes, exactly if there are at most `n` bytes;
otherwise it is the text of the first `n - 3` bytes with `...` after it, which `str_hex` refuses. -/
theorem hex_limited_iff (s : Bytes) (n : Nat) :
    (strHex (hexStrN s n) = some s ↔ s ≠ [] ∧ s.length ≤ n) ∧
    (s.length ≤ n → hexStrN s n = hexStr s) ∧
    (n < s.length → (∃ a b, s = a ++ b ∧ a.length = n - 3 ∧ hexStrN s n = hexStr a ++ "...".toList) ∧ strHex (hexStrN s n) = none) := by
  have h1 : s.length ≤ n → hexStrN s n = hexStr s := fun h => by unfold hexStrN; rw [if_neg (by omega)]
  have h2 : n < s.length → (∃ a b, s = a ++ b ∧ a.length = n - 3 ∧ hexStrN s n = hexStr a ++ "...".toList) ∧ strHex (hexStrN s n) = none := by
    intro h
    have e : hexStrN s n = hexStr (s.take (n - 3)) ++ ['.', '.', '.'] := by unfold hexStrN; rw [if_pos (by omega)]
    refine ⟨⟨s.take (n - 3), s.drop (n - 3), (List.take_append_drop _ _).symm, by rw [List.length_take]; omega, e⟩, ?_⟩
    obtain ⟨p, hp, hd⟩ := splitColon_mem (hexStrN s n) '.' (by decide) (by rw [e]; simp)
    unfold strHex
    exact mapM_none _ _ p hp (by rw [parseHex_dot p hd]; rfl)
  refine ⟨?_, h1, h2⟩
  by_cases h : s.length ≤ n
  · rw [h1 h, hex_roundtrip_iff]
    simp [h]
  · rw [(h2 (by omega)).2]
    simp [h]

example : hexStrN [1, 2, 0xab, 4] 4 = "01:02:ab:04".toList ∧ hexStrN [1, 2, 0xab, 4, 5] 4 = "01...".toList := by decide

end Grf

namespace Grf.Strings

/-! ### C36: asking for a text by its name -/

/-- The name was put into the table after the last import, or by it. -/
def Stored (cs : List Call) (n : String) : Prop :=
  ∃ pre c post, cs = pre ++ c :: post ∧ (∀ d ∈ post, ∀ t, d ≠ .importLang t) ∧
    ((∃ t, c = .importLang t ∧ n ∈ t.map (·.1)) ∨
     (∃ v name, c = .add v name ∧ (step (after pre) c).2 = some n ∧ (name = none → v ∉ asked pre)))

theorem lookup_names (t : List (String × String)) (n : String) : t.lookup n ≠ none ↔ n ∈ t.map (·.1) := by
  induction t with
  | nil => simp
  | cons p t ih =>
    obtain ⟨a, b⟩ := p
    simp only [List.lookup, List.map_cons, List.mem_cons]
    by_cases h : n = a
    · subst h; simp
    · have : (n == a) = false := by simp [h]
      rw [this]
      simp only [h, false_or]
      exact ih

/-- **C36** After any history, a text can be asked for by a name exactly if the name was given to a text that was stored, or made up for one, after
the last import of languages, or is in that import; the handle has this name. -/
theorem item_found_iff (cs : List Call) (n : String) :
    (getItem (after cs) n = some n ↔ Stored cs n) ∧ (getItem (after cs) n = none ↔ ¬ Stored cs n) := by
  have hg : ∀ m : Mgr, (getItem m n = some n ↔ m.text n ≠ none) ∧ (getItem m n = none ↔ ¬ m.text n ≠ none) := by
    intro m
    unfold getItem Mgr.text
    cases m.strings.lookup n <;> simp
  have key : ∀ r : List Call, (after r.reverse).text n ≠ none ↔ Stored r.reverse n := by
    intro r
    induction r with
    | nil =>
      simp only [List.reverse_nil]
      constructor
      · intro h; exact absurd rfl h
      · rintro ⟨pre, c, post, e, -⟩; simp at e
    | cons c r ih =>
      simp only [List.reverse_cons]
      generalize r.reverse = cs at ih ⊢
      obtain ⟨H1, H2, H3, H4⟩ := handles_exact cs
      have old : Stored cs n → (∀ t, c ≠ .importLang t) → Stored (cs ++ [c]) n := by
        rintro ⟨pre, d, post, rfl, h1, h2⟩ hc
        refine ⟨pre, d, post ++ [c], by simp, ?_, h2⟩
        intro x hx
        rcases List.mem_append.1 hx with hx | hx
        · exact h1 x hx
        · simp only [List.mem_singleton] at hx; subst hx; exact hc
      have last : Stored (cs ++ [c]) n → (Stored cs n ∧ ∀ t, c ≠ .importLang t) ∨ ((∃ t, c = .importLang t ∧ n ∈ t.map (·.1)) ∨
          (∃ v name, c = .add v name ∧ (step (after cs) c).2 = some n ∧ (name = none → v ∉ asked cs))) := by
        rintro ⟨pre, d, post, e, h1, h2⟩
        rcases List.eq_nil_or_concat post with rfl | ⟨q, x, rfl⟩
        · have := List.append_inj' (s₁ := cs) (s₂ := pre) (t₁ := [c]) (t₂ := [d]) e rfl
          obtain ⟨rfl, he⟩ := this
          simp only [List.cons.injEq, and_true] at he
          subst he
          exact Or.inr h2
        · have e' : cs ++ [c] = (pre ++ d :: q) ++ [x] := by simpa using e
          obtain ⟨rfl, he⟩ := List.append_inj' e' rfl
          simp only [List.cons.injEq, and_true] at he
          subst he
          exact Or.inl ⟨⟨pre, d, q, rfl, fun y hy => h1 y (by simp [hy]), h2⟩, h1 c (by simp)⟩
      cases c with
      | importLang t =>
        have e : (after (cs ++ [.importLang t])).text n = t.lookup n := by
          rw [after_snoc]; rfl
        rw [e, lookup_names]
        constructor
        · intro h; exact ⟨cs, _, [], rfl, by simp, Or.inl ⟨t, rfl, h⟩⟩
        · intro h
          rcases last h with ⟨-, h⟩ | ⟨t', e, h⟩ | ⟨_, _, e, -⟩
          · exact absurd rfl (h t)
          · cases e; exact h
          · cases e
      | add v name =>
        have noimp : ∀ t, Call.add v name ≠ .importLang t := fun t e => by cases e
        have hst : ∀ m w, (stored (after cs).text m w n ≠ none ↔ (after cs).text n ≠ none ∨ n = m) := by
          intro m w
          unfold stored
          by_cases hm : n = m
          · simp [hm]
          · simp [hm]
        have fin : ∀ P : Prop, ((after (cs ++ [.add v name])).text n ≠ none ↔ (after cs).text n ≠ none ∨ P) →
            (P ∨ (after cs).text n ≠ none ↔ ((step (after cs) (.add v name)).2 = some n ∧ (name = none → v ∉ asked cs)) ∨ (after cs).text n ≠ none) →
            ((after (cs ++ [.add v name])).text n ≠ none ↔ Stored (cs ++ [.add v name]) n) := by
          intro P h1 h2
          rw [h1, or_comm, h2]
          constructor
          · rintro (⟨h, h'⟩ | h)
            · exact ⟨cs, _, [], rfl, by simp, Or.inr ⟨v, name, rfl, h, h'⟩⟩
            · exact old (ih.1 h) noimp
          · intro h
            rcases last h with ⟨h, -⟩ | ⟨t', e, -⟩ | ⟨_, _, e, h, h'⟩
            · exact Or.inr (ih.2 h)
            · cases e
            · cases e; exact Or.inl ⟨h, h'⟩
        cases name with
        | some m =>
          by_cases hm : (after cs).text m = none
          · have := (H3 v m).1 hm
            refine fin (n = m) (by rw [this.2]; exact hst m v) ?_
            rw [this.1]
            simp [eq_comm]
          · have := (H3 v m).2 hm
            refine fin False (by rw [this.2]; simp) ?_
            rw [this.1]
            simp
        | none =>
          by_cases hw : v ∈ asked cs
          · obtain ⟨k, hk⟩ := List.getElem?_of_mem hw
            have := H1 v k hk
            refine fin False (by rw [this.2]; simp) ?_
            simp [hw]
          · by_cases hm : (after cs).text (autoName ((asked cs).length + 1)) = none
            · have := (H2 v hw).1 hm
              refine fin (n = autoName ((asked cs).length + 1)) (by rw [this.2]; exact hst _ v) ?_
              rw [this.1]
              simp [eq_comm, hw]
            · have := (H2 v hw).2 hm
              refine fin False (by rw [this.2]; simp) ?_
              rw [this.1]
              simp
  have k := key cs.reverse
  rw [List.reverse_reverse] at k
  exact ⟨(hg _).1.trans k, (hg _).2.trans (not_congr k)⟩

end Grf.Strings

namespace Grf.Train

/-! ### C43: parts given by their shortening -/

open Classical in
/-- **C43** A part that is not given by a length is accepted exactly when its id is a text or below 0x4000 and the train is not dual-headed (or the
checks are switched off), and is added as it is: with this shortening, alone. A part given by both is refused unless the checks are switched off;
then the length alone counts. -/
theorem add_part_by_shortening (t : T) (id : IdMap.Value) (s : Option Int) (skip : Bool) :
    (addPart t id none s skip = if skip = true ∨ ((∀ i, id = .int i → i < 0x4000) ∧ t.dualHeaded = false) then
      some { t with parts := t.parts ++ [⟨id, s⟩] } else none) ∧
    ∀ l x, addPart t id (some l) (some x) skip = if skip = true then addPart t id (some l) none true else none := by
  constructor
  · unfold addPart partAllowed
    cases skip <;> cases hd : t.dualHeaded <;> cases id <;> simp [split]
    · next i =>
      by_cases h : i < 0x4000
      · rw [if_neg (by omega), if_pos h]
      · rw [if_pos (by omega), if_neg h]
  · intro l x
    unfold addPart partAllowed
    cases skip <;> cases hd : t.dualHeaded <;> cases id <;> simp [split]

example : addPart ⟨.int 1, none, some 2, false, []⟩ (.int 7) none (some 3) false = some ⟨.int 1, none, some 2, false, [⟨.int 7, some 3⟩]⟩ ∧
    addPart ⟨.int 1, none, some 2, false, []⟩ (.int 7) (some 3) (some 3) false = none := by decide

end Grf.Train

namespace Grf

/-! ### C24: a computed variable that computes a computed variable -/

/-- **C24** An access to variable 0x7b with the parameter 0x7b takes its variable from the number computed before. It is read exactly if this is a
known number, not negative, and not 0x7b once more (the code would recurse without end); it is then read as an access to the variable of this number
whose parameter is the number. -/
theorem nested_7b (table : List (String × VarData)) (root : Option DNode) (shift mask type : Nat) (n : DNode) :
    getVarNode table root 0x7b (some (.value 0x7b)) shift mask type none none = some n ↔
      ∃ v : Nat, v ≠ 0x7b ∧ root = some (.value v) ∧ getVarNode table root v (some (.value v)) shift mask type none none = some n := by
  constructor
  · intro h
    unfold getVarNode at h
    simp only [Option.isSome_none, Bool.false_eq_true, or_self, if_false, if_true] at h
    split at h
    · next v =>
      split at h
      · cases h
      · next hv =>
        refine ⟨v.toNat, by omega, by congr 2; omega, ?_⟩
        unfold getVarNode
        rw [if_neg (by simp), if_neg (by omega)]
        rw [show ((v.toNat : Nat) : Int) = v by omega]
        exact h
    · cases h
  · rintro ⟨v, hv, rfl, h⟩
    unfold getVarNode at h ⊢
    rw [if_neg (by simp), if_neg hv] at h
    rw [if_neg (by simp), if_pos rfl]
    simp only
    rw [if_pos trivial, if_neg (by omega)]
    exact h

example : getVarNode oneVar (some (.value 0x40)) 0x7b (some (.value 0x7b)) 0 255 0 none none = some (.gvarP 0x40 0 255 0 none none (.value 0x40)) := by decide

/-! ### C32: the order of sprites -/

/-- The order of sprites is that of their priorities, and sprites of one priority keep the order in which they were added. -/
theorem sortBy_stable (key : Nat → Int) (l : List Nat) :
    (sortBy key l).Pairwise (fun a b => key a ≤ key b) ∧ ∀ k, (sortBy key l).filter (fun a => key a = k) = l.filter (fun a => key a = k) := by
  induction l with
  | nil => simp [sortBy]
  | cons x l ih =>
    simp only [sortBy]
    generalize sortBy key l = m at ih
    obtain ⟨h1, h2⟩ := ih
    have key1 : ∀ m : List Nat, m.Pairwise (fun a b => key a ≤ key b) → (insertBy key x m).Pairwise (fun a b => key a ≤ key b) ∧
        ∀ k, (insertBy key x m).filter (fun a => key a = k) = (x :: m).filter (fun a => key a = k) := by
      intro m
      induction m with
      | nil => intro _; simp [insertBy]
      | cons y m ih =>
        intro h
        obtain ⟨hy, hm⟩ := List.pairwise_cons.1 h
        simp only [insertBy]
        split
        · next hxy =>
          refine ⟨List.pairwise_cons.2 ⟨?_, h⟩, fun k => rfl⟩
          intro a ha
          rcases List.mem_cons.1 ha with rfl | ha
          · exact hxy
          · have := hy a ha; omega
        · next hxy =>
          obtain ⟨i1, i2⟩ := ih hm
          refine ⟨List.pairwise_cons.2 ⟨?_, i1⟩, fun k => ?_⟩
          · intro a ha
            rcases (mem_insertBy key x a m).1 ha with rfl | ha
            · omega
            · exact hy a ha
          · rw [List.filter_cons, i2 k]
            simp only [List.filter_cons]
            by_cases e1 : key x = k <;> by_cases e2 : key y = k <;> simp [e1, e2] <;> omega
    obtain ⟨k1, k2⟩ := key1 m h1
    refine ⟨k1, fun k => ?_⟩
    rw [k2 k, List.filter_cons, List.filter_cons, h2 k]

end Grf
