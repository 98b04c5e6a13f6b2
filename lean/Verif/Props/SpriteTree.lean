import Verif.Model.SpriteTree
import Verif.Props.Cache
import Verif.Props.Script
/-!
# C71: a sprite from the cache is the sprite that would be drawn
-/
namespace Grf.Tree
open Grf.RealSprite

/-! ## The text of a fingerprint says which it is -/

/-- The characters of numbers. -/
def numChar (c : Char) : Bool := c.isDigit || decide (c ∈ ['.', 'e', '+', '-'])

/-- A float in Python's notation: it has a point or an exponent, so it does not look like an integer. -/
def TimeOk (t : MTime) : Prop := (∀ c ∈ t, numChar c = true) ∧ ('.' ∈ t ∨ 'e' ∈ t)

mutual
/-- The times in a value are floats in Python's notation. -/
def JV.Ok : JV → Prop
  | .time t => TimeOk t
  | .list l => JV.OkList l
  | .dict l => JV.OkPairs l
  | _ => True
def JV.OkList : List JV → Prop
  | [] => True
  | v :: l => v.Ok ∧ JV.OkList l
def JV.OkPairs : List (List Char × JV) → Prop
  | [] => True
  | p :: l => p.2.Ok ∧ JV.OkPairs l
end

/-- No number goes on here. -/
def Stops (r : List Char) : Prop := ∀ c ∈ r.head?, numChar c = false

theorem run_unique {a b r r' : List Char} (ha : ∀ c ∈ a, numChar c = true) (hb : ∀ c ∈ b, numChar c = true) (hr : Stops r) (hr' : Stops r')
    (h : a ++ r = b ++ r') : a = b ∧ r = r' := by
  induction a generalizing b with
  | nil =>
    cases b with
    | nil => exact ⟨rfl, h⟩
    | cons y b =>
      simp only [List.nil_append, List.cons_append] at h
      subst h
      have := hr y (by simp)
      rw [hb y (by simp)] at this
      cases this
  | cons x a ih =>
    cases b with
    | nil =>
      simp only [List.nil_append, List.cons_append] at h
      subst h
      have := hr' x (by simp)
      rw [ha x (by simp)] at this
      cases this
    | cons y b =>
      simp only [List.cons_append, List.cons.injEq] at h
      obtain ⟨rfl, h⟩ := h
      obtain ⟨rfl, rfl⟩ := ih (fun c hc => ha c (by simp [hc])) (fun c hc => hb c (by simp [hc])) h
      exact ⟨rfl, rfl⟩

theorem int_digits (i : Int) : (∀ c ∈ intText i, numChar c = true) ∧ '.' ∉ intText i ∧ 'e' ∉ intText i := by
  have hd : ∀ c ∈ Strings.dec i.natAbs, c.isDigit = true := Script.dec_chars _
  have h1 : '.' ∉ Strings.dec i.natAbs := fun h => absurd (hd _ h) (by decide)
  have h2 : 'e' ∉ Strings.dec i.natAbs := fun h => absurd (hd _ h) (by decide)
  unfold intText
  split
  · refine ⟨?_, by simp [h1], by simp [h2]⟩
    intro c hc
    rcases List.mem_cons.1 hc with rfl | hc
    · decide
    · simp [numChar, hd c hc]
  · exact ⟨fun c hc => by simp [numChar, hd c hc], h1, h2⟩

theorem int_text_inj {i j : Int} (h : intText i = intText j) : i = j := by
  have hd : ∀ n : Nat, '-' ∉ Strings.dec n := fun n h => absurd (Script.dec_chars n _ h) (by decide)
  unfold intText at h
  split at h
  · split at h
    · simp only [List.cons.injEq, true_and] at h
      have := Script.dec_inj h
      omega
    · exact absurd (h ▸ List.mem_cons_self) (hd _)
  · split at h
    · exact absurd (h.symm ▸ List.mem_cons_self) (hd _)
    · have := Script.dec_inj h
      omega

theorem int_ne (i : Int) : ∃ c l, intText i = c :: l ∧ numChar c = true := by
  cases h : intText i with
  | nil =>
    unfold intText at h
    split at h
    · cases h
    · rw [Strings.dec] at h
      split at h <;> simp at h
  | cons c l => exact ⟨c, l, rfl, (int_digits i).1 c (by simp [h])⟩

theorem hex_inj : ∀ n < 16, ∀ m < 16, hexDigit n = hexDigit m → n = m := by decide

theorem escape_cases (c : Char) :
    (∃ x, escape c = ['\\', x] ∧ ((c = '"' ∧ x = '"') ∨ (c = '\\' ∧ x = '\\') ∨ (c = '\n' ∧ x = 'n') ∨ (c = '\r' ∧ x = 'r') ∨ (c = '\t' ∧ x = 't') ∨
      (c = Char.ofNat 8 ∧ x = 'b') ∨ (c = Char.ofNat 12 ∧ x = 'f'))) ∨
    (c.toNat < 32 ∧ escape c = ['\\', 'u', '0', '0', hexDigit (c.toNat / 16), hexDigit (c.toNat % 16)]) ∨
    (c ≠ '"' ∧ c ≠ '\\' ∧ escape c = [c]) := by
  unfold escape
  split
  · exact .inl ⟨_, rfl, by simp_all⟩
  split
  · exact .inl ⟨_, rfl, by simp_all⟩
  split
  · exact .inl ⟨_, rfl, by simp_all⟩
  split
  · exact .inl ⟨_, rfl, by simp_all⟩
  split
  · exact .inl ⟨_, rfl, by simp_all⟩
  split
  · exact .inl ⟨_, rfl, by simp_all⟩
  split
  · exact .inl ⟨_, rfl, by simp_all⟩
  split
  · exact .inr (.inl ⟨by assumption, rfl⟩)
  · exact .inr (.inr ⟨by assumption, by assumption, rfl⟩)

theorem escape_unique (c d : Char) (r r' : List Char) (h : escape c ++ r = escape d ++ r') : c = d ∧ r = r' := by
  rcases escape_cases c with ⟨x, e, hc⟩ | ⟨lc, e⟩ | ⟨n1, n2, e⟩ <;>
    rcases escape_cases d with ⟨y, e', hd⟩ | ⟨ld, e'⟩ | ⟨m1, m2, e'⟩ <;>
    rw [e, e'] at h <;> simp only [List.cons_append, List.nil_append, List.cons.injEq, true_and] at h
  · obtain ⟨rfl, rfl⟩ := h
    refine ⟨?_, rfl⟩
    rcases hc with ⟨rfl, rfl⟩ | ⟨rfl, rfl⟩ | ⟨rfl, rfl⟩ | ⟨rfl, rfl⟩ | ⟨rfl, rfl⟩ | ⟨rfl, rfl⟩ | ⟨rfl, rfl⟩ <;> (simp at hd; exact hd.symm)
  · obtain ⟨rfl, -⟩ := h
    rcases hc with ⟨-, h⟩ | ⟨-, h⟩ | ⟨-, h⟩ | ⟨-, h⟩ | ⟨-, h⟩ | ⟨-, h⟩ | ⟨-, h⟩ <;> exact absurd h (by decide)
  · exact absurd h.1.symm m2
  · obtain ⟨rfl, -⟩ := h
    rcases hd with ⟨-, h⟩ | ⟨-, h⟩ | ⟨-, h⟩ | ⟨-, h⟩ | ⟨-, h⟩ | ⟨-, h⟩ | ⟨-, h⟩ <;> exact absurd h (by decide)
  · obtain ⟨h1, h2, rfl⟩ := h
    have a := hex_inj _ (by omega) _ (by omega) h1
    have b := hex_inj _ (by omega) _ (by omega) h2
    exact ⟨Char.toNat_inj.1 (by omega), rfl⟩
  · exact absurd h.1.symm m2
  · exact absurd h.1 n2
  · exact absurd h.1 n2
  · exact h

theorem escape_head (c : Char) : ∃ x l, escape c = x :: l ∧ x ≠ '"' := by
  rcases escape_cases c with ⟨x, e, hc⟩ | ⟨lc, e⟩ | ⟨n1, n2, e⟩
  · exact ⟨_, _, e, by decide⟩
  · exact ⟨_, _, e, by decide⟩
  · exact ⟨_, _, e, n1⟩

theorem quote_unique (s t r r' : List Char) (h : quote s ++ r = quote t ++ r') : s = t ∧ r = r' := by
  simp only [quote, List.cons_append, List.append_assoc, List.cons.injEq, true_and, List.nil_append] at h
  induction s generalizing t with
  | nil =>
    cases t with
    | nil => simpa using h
    | cons d t =>
      obtain ⟨x, l, e, hx⟩ := escape_head d
      simp only [List.flatMap_nil, List.nil_append, List.flatMap_cons, e, List.cons_append, List.cons.injEq] at h
      exact absurd h.1.symm hx
  | cons c s ih =>
    cases t with
    | nil =>
      obtain ⟨x, l, e, hx⟩ := escape_head c
      simp only [List.flatMap_nil, List.nil_append, List.flatMap_cons, e, List.cons_append, List.cons.injEq] at h
      exact absurd h.1 hx
    | cons d t =>
      simp only [List.flatMap_cons, List.append_assoc] at h
      have h0 := escape_unique _ _ _ _ h
      clear h
      obtain ⟨rfl, h⟩ := h0
      obtain ⟨rfl, rfl⟩ := ih t h
      exact ⟨rfl, rfl⟩

/-- The first character tells the kind. -/
def Starts (v : JV) (l : List Char) : Prop :=
  match v with
  | .null => l.head? = some 'n'
  | .bool b => l.head? = some (if b then 't' else 'f')
  | .num _ => ∃ c ∈ l.head?, numChar c = true
  | .time _ => ∃ c ∈ l.head?, numChar c = true
  | .str _ => l.head? = some '"'
  | .list _ => l.head? = some '['
  | .dict _ => l.head? = some '{'

theorem dumps_starts (v : JV) (hv : v.Ok) (r : List Char) : Starts v (dumps v ++ r) := by
  cases v with
  | null => simp [Starts, dumps]
  | bool b => cases b <;> simp [Starts, dumps]
  | num n =>
    obtain ⟨c, l, e, hc⟩ := int_ne n
    exact ⟨c, by simp [dumps, e], hc⟩
  | time t =>
    simp only [JV.Ok] at hv
    cases t with
    | nil => simp [TimeOk] at hv
    | cons c t => exact ⟨c, by simp [dumps], hv.1 c (by simp)⟩
  | str s => simp [Starts, dumps, quote]
  | list l => simp [Starts, dumps]
  | dict l => simp [Starts, dumps]

theorem stops_of {c : Char} {r : List Char} (h : numChar c = false) : Stops (c :: r) := by
  intro x hx
  simp only [List.head?_cons, Option.mem_def, Option.some.injEq] at hx
  subst hx; exact h

/-- Not a closing bracket. -/
theorem starts_ne {v : JV} {l : List Char} (h : Starts v l) : l.head? ≠ some ']' ∧ l.head? ≠ some '}' := by
  cases v <;> simp only [Starts] at h
  all_goals first
    | (obtain ⟨c, hc, hn⟩ := h
       rw [hc]
       constructor <;> (intro e; cases e; exact absurd hn (by decide)))
    | (split at h <;> simp_all)
    | (rw [h]; decide)

mutual
theorem dumps_unique : (v v' : JV) → (r r' : List Char) → v.Ok → v'.Ok → Stops r → Stops r' → dumps v ++ r = dumps v' ++ r' → v = v' ∧ r = r' := fun v => by
  intro v' r r' hv hv' hr hr' h
  have s1 := dumps_starts v hv r
  have s2 := dumps_starts v' hv' r'
  rw [h] at s1
  match v, v' with
  | .null, .null => simpa [dumps] using h
  | .bool a, .bool b => cases a <;> cases b <;> simp [dumps] at h ⊢ <;> exact h
  | .num n, .num m =>
    simp only [dumps] at h
    obtain ⟨e, rfl⟩ := run_unique (int_digits n).1 (int_digits m).1 hr hr' h
    exact ⟨by rw [int_text_inj e], rfl⟩
  | .num n, .time t =>
    simp only [dumps] at h
    simp only [JV.Ok] at hv'
    obtain ⟨e, rfl⟩ := run_unique (int_digits n).1 hv'.1 hr hr' h
    rcases hv'.2 with h | h
    · exact absurd (e ▸ h) (int_digits n).2.1
    · exact absurd (e ▸ h) (int_digits n).2.2
  | .time t, .num n =>
    simp only [dumps] at h
    simp only [JV.Ok] at hv
    obtain ⟨e, rfl⟩ := run_unique hv.1 (int_digits n).1 hr hr' h
    rcases hv.2 with h | h
    · exact absurd (e ▸ h) (int_digits n).2.1
    · exact absurd (e ▸ h) (int_digits n).2.2
  | .time t, .time t' =>
    simp only [dumps] at h
    simp only [JV.Ok] at hv hv'
    obtain ⟨rfl, rfl⟩ := run_unique hv.1 hv'.1 hr hr' h
    exact ⟨rfl, rfl⟩
  | .str s, .str t =>
    simp only [dumps] at h
    obtain ⟨rfl, rfl⟩ := quote_unique _ _ _ _ h
    exact ⟨rfl, rfl⟩
  | .list l, .list l' =>
    simp only [dumps, List.cons_append, List.cons.injEq, true_and] at h
    simp only [JV.Ok] at hv hv'
    obtain ⟨rfl, rfl⟩ := dumpsList_unique l l' r r' hv hv' h
    exact ⟨rfl, rfl⟩
  | .dict l, .dict l' =>
    simp only [dumps, List.cons_append, List.cons.injEq, true_and] at h
    simp only [JV.Ok] at hv hv'
    obtain ⟨rfl, rfl⟩ := dumpsPairs_unique l l' r r' hv hv' h
    exact ⟨rfl, rfl⟩
  | .null, .bool b => cases b <;> simp only [Starts] at s1 s2 <;> rw [s1] at s2 <;> simp at s2
  | .bool b, .null => cases b <;> simp only [Starts] at s1 s2 <;> rw [s1] at s2 <;> simp at s2
  | .null, .num _ | .null, .time _ | .num _, .null | .time _, .null
  | .str _, .num _ | .str _, .time _ | .num _, .str _ | .time _, .str _
  | .list _, .num _ | .list _, .time _ | .num _, .list _ | .time _, .list _
  | .dict _, .num _ | .dict _, .time _ | .num _, .dict _ | .time _, .dict _ =>
    simp only [Starts] at s1 s2
    first
      | (obtain ⟨c, hc, hn⟩ := s1
         rw [hc] at s2
         cases s2
         exact absurd hn (by decide))
      | (obtain ⟨c, hc, hn⟩ := s2
         rw [hc] at s1
         cases s1
         exact absurd hn (by decide))
  | .bool b, .num _ | .bool b, .time _ | .num _, .bool b | .time _, .bool b =>
    simp only [Starts] at s1 s2
    first
      | (obtain ⟨c, hc, hn⟩ := s1
         rw [hc] at s2
         cases b <;> cases s2 <;> exact absurd hn (by decide))
      | (obtain ⟨c, hc, hn⟩ := s2
         rw [hc] at s1
         cases b <;> cases s1 <;> exact absurd hn (by decide))
  | .null, .str _ | .null, .list _ | .null, .dict _ | .str _, .null | .list _, .null | .dict _, .null
  | .str _, .list _ | .str _, .dict _ | .list _, .str _ | .list _, .dict _ | .dict _, .str _ | .dict _, .list _ =>
    simp only [Starts] at s1 s2
    rw [s1] at s2
    cases s2
  | .bool b, .str _ | .bool b, .list _ | .bool b, .dict _ | .str _, .bool b | .list _, .bool b | .dict _, .bool b =>
    simp only [Starts] at s1 s2
    rw [s1] at s2
    cases b <;> cases s2
theorem dumpsList_unique : (l l' : List JV) → (r r' : List Char) → JV.OkList l → JV.OkList l' → dumpsList l ++ r = dumpsList l' ++ r' → l = l' ∧ r = r' := fun l => by
  intro l' r r' hl hl' h
  match l, l' with
  | [], [] => simpa [dumpsList] using h
  | [], v :: l' =>
    exfalso
    simp only [JV.OkList] at hl'
    cases l' with
    | nil =>
      simp only [dumpsList, List.append_assoc] at h
      have := starts_ne (dumps_starts v hl'.1 ([']'] ++ r'))
      rw [← h] at this
      exact this.1 rfl
    | cons w l' =>
      simp only [dumpsList, List.append_assoc] at h
      have := starts_ne (dumps_starts v hl'.1 (',' :: dumpsList (w :: l') ++ r'))
      rw [← h] at this
      exact this.1 rfl
  | v :: l, [] =>
    exfalso
    simp only [JV.OkList] at hl
    cases l with
    | nil =>
      simp only [dumpsList, List.append_assoc] at h
      have := starts_ne (dumps_starts v hl.1 ([']'] ++ r))
      rw [h] at this
      exact this.1 rfl
    | cons w l =>
      simp only [dumpsList, List.append_assoc] at h
      have := starts_ne (dumps_starts v hl.1 (',' :: dumpsList (w :: l) ++ r))
      rw [h] at this
      exact this.1 rfl
  | [v], [v'] =>
    simp only [dumpsList, List.append_assoc, List.cons_append, List.nil_append] at h
    simp only [JV.OkList] at hl hl'
    have h0 := dumps_unique v v' _ _ hl.1 hl'.1 (stops_of (by decide)) (stops_of (by decide)) h
    clear h
    obtain ⟨rfl, h⟩ := h0
    simpa using h
  | [v], v' :: w' :: l' =>
    simp only [dumpsList, List.append_assoc, List.cons_append, List.nil_append] at h
    simp only [JV.OkList] at hl hl'
    have h0 := dumps_unique v v' _ _ hl.1 hl'.1 (stops_of (by decide)) (stops_of (by decide)) h
    clear h
    obtain ⟨rfl, h⟩ := h0
    simp at h
  | v :: w :: l, [v'] =>
    simp only [dumpsList, List.append_assoc, List.cons_append, List.nil_append] at h
    simp only [JV.OkList] at hl hl'
    have h0 := dumps_unique v v' _ _ hl.1 hl'.1 (stops_of (by decide)) (stops_of (by decide)) h
    clear h
    obtain ⟨rfl, h⟩ := h0
    simp at h
  | v :: w :: l, v' :: w' :: l' =>
    simp only [dumpsList, List.append_assoc, List.cons_append, List.nil_append] at h
    simp only [JV.OkList] at hl hl'
    have h0 := dumps_unique v v' _ _ hl.1 hl'.1 (stops_of (by decide)) (stops_of (by decide)) h
    clear h
    obtain ⟨rfl, h⟩ := h0
    simp only [List.cons.injEq, true_and] at h
    obtain ⟨e, rfl⟩ := dumpsList_unique (w :: l) (w' :: l') _ _ hl.2 hl'.2 h
    exact ⟨by rw [e], rfl⟩
theorem dumpsPairs_unique : (l l' : List (List Char × JV)) → (r r' : List Char) → JV.OkPairs l → JV.OkPairs l' → dumpsPairs l ++ r = dumpsPairs l' ++ r' → l = l' ∧ r = r' := fun l => by
  intro l' r r' hl hl' h
  match l, l' with
  | [], [] => simpa [dumpsPairs] using h
  | [], [_] => simp [dumpsPairs, quote] at h
  | [], _ :: _ :: _ => simp [dumpsPairs, quote] at h
  | [_], [] => simp [dumpsPairs, quote] at h
  | _ :: _ :: _, [] => simp [dumpsPairs, quote] at h
  | [(k, v)], [(k', v')] =>
    simp only [dumpsPairs, List.append_assoc, List.cons_append, List.nil_append] at h
    simp only [JV.OkPairs] at hl hl'
    have h0 := quote_unique _ _ _ _ h
    clear h
    obtain ⟨rfl, h⟩ := h0
    simp only [List.cons.injEq, true_and] at h
    have h0 := dumps_unique v v' _ _ hl.1 hl'.1 (stops_of (by decide)) (stops_of (by decide)) h
    clear h
    obtain ⟨rfl, h⟩ := h0
    simpa using h
  | [(k, v)], (k', v') :: w' :: l' =>
    simp only [dumpsPairs, List.append_assoc, List.cons_append, List.nil_append] at h
    simp only [JV.OkPairs] at hl hl'
    have h0 := quote_unique _ _ _ _ h
    clear h
    obtain ⟨rfl, h⟩ := h0
    simp only [List.cons.injEq, true_and] at h
    have h0 := dumps_unique v v' _ _ hl.1 hl'.1 (stops_of (by decide)) (stops_of (by decide)) h
    clear h
    obtain ⟨rfl, h⟩ := h0
    simp at h
  | (k, v) :: w :: l, [(k', v')] =>
    simp only [dumpsPairs, List.append_assoc, List.cons_append, List.nil_append] at h
    simp only [JV.OkPairs] at hl hl'
    have h0 := quote_unique _ _ _ _ h
    clear h
    obtain ⟨rfl, h⟩ := h0
    simp only [List.cons.injEq, true_and] at h
    have h0 := dumps_unique v v' _ _ hl.1 hl'.1 (stops_of (by decide)) (stops_of (by decide)) h
    clear h
    obtain ⟨rfl, h⟩ := h0
    simp at h
  | (k, v) :: w :: l, (k', v') :: w' :: l' =>
    simp only [dumpsPairs, List.append_assoc, List.cons_append, List.nil_append] at h
    simp only [JV.OkPairs] at hl hl'
    have h0 := quote_unique _ _ _ _ h
    clear h
    obtain ⟨rfl, h⟩ := h0
    simp only [List.cons.injEq, true_and] at h
    have h0 := dumps_unique v v' _ _ hl.1 hl'.1 (stops_of (by decide)) (stops_of (by decide)) h
    clear h
    obtain ⟨rfl, h⟩ := h0
    simp only [List.cons.injEq, true_and] at h
    obtain ⟨e, rfl⟩ := dumpsPairs_unique (w :: l) (w' :: l') _ _ hl.2 hl'.2 h
    exact ⟨by rw [e], rfl⟩
end

/-- Values with the same text are the same. -/
theorem dumps_injective {v v' : JV} (hv : v.Ok) (hv' : v'.Ok) (h : dumps v = dumps v') : v = v' :=
  (dumps_unique v v' [] [] hv hv' (by simp [Stops]) (by simp [Stops]) (by simpa using h)).1

/-! ## Sprites as the constructors make them -/

/-- A sprite made by calls of the constructors, its attributes not changed afterwards. -/
inductive Made : Sprite → Prop
  | file (a : Attrs) (path : List Char) (key : Option (List Int)) (x y : Int) (kw : List (List Char × JV)) (s : Sprite) :
      JV.OkPairs kw → newFile a path key x y kw = some s → Made s
  | empty : Made .empty
  | image (img : Img) (xofs yofs zoom : Int) (crop : Bool) : Made (newImage img xofs yofs zoom crop)
  | masked (s m r : Sprite) (mode : Int) : Made s → Made m → newMasked s m mode = some r → Made r
  | move (s : Sprite) (dx dy : Int) : Made s → Made (newMove s dx dy)
  | quantized (s : Sprite) : Made s → Made (newQuantized s)
  | debug (s : Sprite) : Made s → Made (newDebug s)

/-- The same, by the outermost call. -/
theorem made_cases {s : Sprite} (h : Made s) :
    (∃ a path key x y kw, s = .file a path key x y kw ∧ JV.OkPairs kw) ∨ s = .empty ∨ (∃ a img, s = .image a img) ∨
    (∃ u m mode, Made u ∧ Made m ∧ s = .masked { u.attrs with crop := u.attrs.crop && m.attrs.crop } u m mode) ∨
    (∃ u dx dy, Made u ∧ s = newMove u dx dy) ∨ (∃ u, Made u ∧ s = newQuantized u) ∨ (∃ u, Made u ∧ s = newDebug u) := by
  cases h with
  | file a path key x y kw s hk h =>
    unfold newFile at h
    split at h
    · cases h
    · cases h
      exact .inl ⟨a, path, key, x, y, kw, rfl, hk⟩
  | empty => exact .inr (.inl rfl)
  | image => exact .inr (.inr (.inl ⟨_, _, rfl⟩))
  | masked u m r mode hu hm h =>
    unfold newMasked at h
    split at h
    · cases h
    · cases h
      exact .inr (.inr (.inr (.inl ⟨u, m, mode, hu, hm, rfl⟩)))
  | move u dx dy hu => exact .inr (.inr (.inr (.inr (.inl ⟨u, dx, dy, hu, rfl⟩))))
  | quantized u hu => exact .inr (.inr (.inr (.inr (.inr (.inl ⟨u, hu, rfl⟩)))))
  | debug u hu => exact .inr (.inr (.inr (.inr (.inr (.inr ⟨u, hu, rfl⟩)))))

theorem opt_inj {a b : Option Int} (h : JV.opt a = JV.opt b) : a = b := by
  cases a <;> cases b <;> simp_all [JV.opt]

/-- The colour key in a fingerprint. -/
theorem key_inj {k k' : Option (List Int)}
    (h : (match k with | some k => JV.list (k.map .num) | none => .null) = (match k' with | some k => JV.list (k.map .num) | none => .null)) : k = k' := by
  cases k with
  | none => cases k' <;> simp_all
  | some k =>
    cases k' with
    | none => simp at h
    | some k' =>
      simp only [JV.list.injEq] at h
      congr 1
      exact List.map_injective_iff.2 (fun a b h => by injection h) h

/-- Sprites with the same description and files are the same sprite; `r` and `r'` are the files of what comes after. -/
theorem same_sprite (this : List Char) : ∀ (s : Sprite), Made s → ∀ s', Made s' → ∀ f, fingerprint s = some f → fingerprint s' = some f →
    ∀ r r', resourceFiles this s ++ r = resourceFiles this s' ++ r' → s = s' ∧ r = r' := by
  intro s
  induction s with
  | file a path key x y kw =>
    intro _ s' h' f e e' r r' hr
    cases s' with
    | file a' path' key' x' y' kw' =>
      simp only [fingerprint, Option.some.injEq] at e e'
      rw [← e'] at e
      simp only [JV.dict.injEq, List.cons.injEq, Prod.mk.injEq, true_and, and_true, JV.bool.injEq, JV.num.injEq] at e
      obtain ⟨e1, e2, e3, e4, e5, e6, e7, e8, e9, e10, e11⟩ := e
      simp only [resourceFiles, List.cons_append, List.nil_append, List.cons.injEq, true_and] at hr
      obtain ⟨rfl, rfl⟩ := hr
      have k := key_inj e2
      have b := opt_inj e1
      have hh := opt_inj e4
      have w := opt_inj e6
      subst k e5 e7 e9
      refine ⟨?_, rfl⟩
      cases a; cases a'
      simp_all
    | empty => simp [fingerprint] at e e'; rw [← e'] at e; simp at e
    | image => simp [fingerprint] at e'
    | masked => simp [fingerprint, Option.bind_eq_some_iff] at e e'; grind
    | move => simp [fingerprint, Option.bind_eq_some_iff] at e e'; grind
    | quantized => simp [fingerprint, Option.bind_eq_some_iff] at e e'; grind
    | debug => simp [fingerprint, Option.bind_eq_some_iff] at e e'; grind
  | empty =>
    intro _ s' h' f e e' r r' hr
    cases s' with
    | empty => exact ⟨rfl, by simpa using hr⟩
    | file => simp [fingerprint] at e e'; rw [← e'] at e; simp at e
    | image => simp [fingerprint] at e'
    | masked => simp [fingerprint, Option.bind_eq_some_iff] at e e'; grind
    | move => simp [fingerprint, Option.bind_eq_some_iff] at e e'; grind
    | quantized => simp [fingerprint, Option.bind_eq_some_iff] at e e'; grind
    | debug => simp [fingerprint, Option.bind_eq_some_iff] at e e'; grind
  | image => intro _ s' h' f e; simp [fingerprint] at e
  | masked a u m mode ihu ihm =>
    intro hs s' h' f e e' r r' hr
    simp only [fingerprint, Option.bind_eq_bind, Option.bind_eq_some_iff, Option.some.injEq] at e
    obtain ⟨fu, eu, fm, em, rfl⟩ := e
    cases s' with
    | masked a' u' m' mode' =>
      simp only [fingerprint, Option.bind_eq_bind, Option.bind_eq_some_iff, Option.some.injEq] at e'
      obtain ⟨fu', eu', fm', em', e'⟩ := e'
      simp only [JV.dict.injEq, List.cons.injEq, Prod.mk.injEq, true_and, and_true, JV.num.injEq] at e'
      obtain ⟨rfl, rfl, rfl⟩ := e'
      rcases made_cases hs with ⟨_, _, _, _, _, _, c, _⟩ | c | ⟨_, _, c⟩ | ⟨_, _, _, hu, hm, c⟩ | ⟨_, _, _, _, c⟩ | ⟨_, _, c⟩ | ⟨_, _, c⟩ <;> cases c
      rcases made_cases h' with ⟨_, _, _, _, _, _, c, _⟩ | c | ⟨_, _, c⟩ | ⟨_, _, _, hu', hm', c⟩ | ⟨_, _, _, _, c⟩ | ⟨_, _, c⟩ | ⟨_, _, c⟩ <;> cases c
      simp only [resourceFiles, List.cons_append, List.append_assoc, List.cons.injEq, true_and] at hr
      obtain ⟨rfl, hr2⟩ := ihu hu _ hu' _ eu eu' _ _ hr
      obtain ⟨rfl, hr3⟩ := ihm hm _ hm' _ em em' _ _ hr2
      exact ⟨rfl, hr3⟩
    | file => simp [fingerprint] at e'
    | empty => simp [fingerprint] at e'
    | image => simp [fingerprint] at e'
    | move => simp [fingerprint, Option.bind_eq_some_iff] at e'
    | quantized => simp [fingerprint, Option.bind_eq_some_iff] at e'
    | debug => simp [fingerprint, Option.bind_eq_some_iff] at e'
  | move a u ih =>
    intro hs s' h' f e e' r r' hr
    simp only [fingerprint, Option.bind_eq_bind, Option.bind_eq_some_iff, Option.some.injEq] at e
    obtain ⟨fu, eu, rfl⟩ := e
    cases s' with
    | move a' u' =>
      simp only [fingerprint, Option.bind_eq_bind, Option.bind_eq_some_iff, Option.some.injEq] at e'
      obtain ⟨fu', eu', e'⟩ := e'
      simp only [JV.dict.injEq, List.cons.injEq, Prod.mk.injEq, true_and, and_true, JV.num.injEq, JV.list.injEq] at e'
      obtain ⟨rfl, e1, e2⟩ := e'
      rcases made_cases hs with ⟨_, _, _, _, _, _, c, _⟩ | c | ⟨_, _, c⟩ | ⟨_, _, _, hu, hm, c⟩ | ⟨v, dx, dy, hu, c⟩ | ⟨_, _, c⟩ | ⟨_, _, c⟩ <;>
        first | (simp [newMove, newQuantized, newDebug] at c; done) | skip
      rcases made_cases h' with ⟨_, _, _, _, _, _, c', _⟩ | c' | ⟨_, _, c'⟩ | ⟨_, _, _, hu', hm', c'⟩ | ⟨v', dx', dy', hu', c'⟩ | ⟨_, _, c'⟩ | ⟨_, _, c'⟩ <;>
        first | (simp [newMove, newQuantized, newDebug] at c'; done) | skip
      simp only [newMove, Sprite.move.injEq] at c c'
      obtain ⟨ca, rfl⟩ := c
      obtain ⟨ca', rfl⟩ := c'
      simp only [resourceFiles, List.cons_append, List.cons.injEq, true_and] at hr
      obtain ⟨rfl, hr2⟩ := ih hu _ hu' _ eu eu' _ _ hr
      refine ⟨?_, hr2⟩
      subst ca ca'
      simp only at e1 e2
      rw [e1, e2]
    | file => simp [fingerprint] at e'
    | empty => simp [fingerprint] at e'
    | image => simp [fingerprint] at e'
    | masked => simp [fingerprint, Option.bind_eq_some_iff] at e'
    | quantized => simp [fingerprint, Option.bind_eq_some_iff] at e'
    | debug => simp [fingerprint, Option.bind_eq_some_iff] at e'
  | quantized a u ih =>
    intro hs s' h' f e e' r r' hr
    simp only [fingerprint, Option.bind_eq_bind, Option.bind_eq_some_iff, Option.some.injEq] at e
    obtain ⟨fu, eu, rfl⟩ := e
    cases s' with
    | quantized a' u' =>
      simp only [fingerprint, Option.bind_eq_bind, Option.bind_eq_some_iff, Option.some.injEq] at e'
      obtain ⟨fu', eu', e'⟩ := e'
      simp only [JV.dict.injEq, List.cons.injEq, Prod.mk.injEq, true_and, and_true, JV.num.injEq, JV.list.injEq] at e'
      subst e'
      rcases made_cases hs with ⟨_, _, _, _, _, _, c, _⟩ | c | ⟨_, _, c⟩ | ⟨_, _, _, hu, hm, c⟩ | ⟨v, dx, dy, hu, c⟩ | ⟨_, hu, c⟩ | ⟨_, _, c⟩ <;>
        first | (simp [newMove, newQuantized, newDebug] at c; done) | skip
      rcases made_cases h' with ⟨_, _, _, _, _, _, c', _⟩ | c' | ⟨_, _, c'⟩ | ⟨_, _, _, hu', hm', c'⟩ | ⟨v', dx', dy', hu', c'⟩ | ⟨_, hu', c'⟩ | ⟨_, _, c'⟩ <;>
        first | (simp [newMove, newQuantized, newDebug] at c'; done) | skip
      simp only [newQuantized, Sprite.quantized.injEq] at c c'
      obtain ⟨ca, rfl⟩ := c
      obtain ⟨ca', rfl⟩ := c'
      simp only [resourceFiles, List.cons_append, List.cons.injEq, true_and] at hr
      obtain ⟨rfl, hr2⟩ := ih hu _ hu' _ eu eu' _ _ hr
      exact ⟨by rw [ca, ca'], hr2⟩
    | file => simp [fingerprint] at e'
    | empty => simp [fingerprint] at e'
    | image => simp [fingerprint] at e'
    | masked => simp [fingerprint, Option.bind_eq_some_iff] at e'
    | move => simp [fingerprint, Option.bind_eq_some_iff] at e'
    | debug => simp [fingerprint, Option.bind_eq_some_iff] at e'
  | debug a u ih =>
    intro hs s' h' f e e' r r' hr
    simp only [fingerprint, Option.bind_eq_bind, Option.bind_eq_some_iff, Option.some.injEq] at e
    obtain ⟨fu, eu, rfl⟩ := e
    cases s' with
    | debug a' u' =>
      simp only [fingerprint, Option.bind_eq_bind, Option.bind_eq_some_iff, Option.some.injEq] at e'
      obtain ⟨fu', eu', e'⟩ := e'
      simp only [JV.dict.injEq, List.cons.injEq, Prod.mk.injEq, true_and, and_true, JV.num.injEq, JV.list.injEq] at e'
      subst e'
      rcases made_cases hs with ⟨_, _, _, _, _, _, c, _⟩ | c | ⟨_, _, c⟩ | ⟨_, _, _, hu, hm, c⟩ | ⟨v, dx, dy, hu, c⟩ | ⟨_, _, c⟩ | ⟨_, hu, c⟩ <;>
        first | (simp [newMove, newQuantized, newDebug] at c; done) | skip
      rcases made_cases h' with ⟨_, _, _, _, _, _, c', _⟩ | c' | ⟨_, _, c'⟩ | ⟨_, _, _, hu', hm', c'⟩ | ⟨v', dx', dy', hu', c'⟩ | ⟨_, _, c'⟩ | ⟨_, hu', c'⟩ <;>
        first | (simp [newMove, newQuantized, newDebug] at c'; done) | skip
      simp only [newDebug, Sprite.debug.injEq] at c c'
      obtain ⟨ca, rfl⟩ := c
      obtain ⟨ca', rfl⟩ := c'
      simp only [resourceFiles, List.cons_append, List.cons.injEq, true_and] at hr
      obtain ⟨rfl, hr2⟩ := ih hu _ hu' _ eu eu' _ _ hr
      exact ⟨by rw [ca, ca'], hr2⟩
    | file => simp [fingerprint] at e'
    | empty => simp [fingerprint] at e'
    | image => simp [fingerprint] at e'
    | masked => simp [fingerprint, Option.bind_eq_some_iff] at e'
    | move => simp [fingerprint, Option.bind_eq_some_iff] at e'
    | quantized => simp [fingerprint, Option.bind_eq_some_iff] at e'

theorem opt_ok (a : Option Int) : (JV.opt a).Ok := by cases a <;> simp [JV.opt, JV.Ok]

theorem nums_ok (k : List Int) : JV.OkList (k.map .num) := by induction k <;> simp_all [JV.OkList, JV.Ok]

theorem fingerprint_ok : ∀ (s : Sprite), Made s → ∀ f, fingerprint s = some f → f.Ok := by
  intro s
  induction s with
  | file a path key x y kw =>
    intro hs f e
    rcases made_cases hs with ⟨_, _, _, _, _, _, c, hk⟩ | c | ⟨_, _, c⟩ | ⟨_, _, _, hu, hm, c⟩ | ⟨v, dx, dy, hu, c⟩ | ⟨_, _, c⟩ | ⟨_, hu, c⟩ <;> cases c
    simp only [fingerprint, Option.some.injEq] at e
    subst e
    cases key <;> simp [JV.Ok, JV.OkPairs, opt_ok, nums_ok, hk]
  | empty =>
    intro _ f e
    simp only [fingerprint, Option.some.injEq] at e
    subst e
    simp [JV.Ok, JV.OkPairs]
  | image => intro _ f e; simp [fingerprint] at e
  | masked a u m mode ihu ihm =>
    intro hs f e
    simp only [fingerprint, Option.bind_eq_bind, Option.bind_eq_some_iff, Option.some.injEq] at e
    obtain ⟨fu, eu, fm, em, rfl⟩ := e
    rcases made_cases hs with ⟨_, _, _, _, _, _, c, _⟩ | c | ⟨_, _, c⟩ | ⟨_, _, _, hu, hm, c⟩ | ⟨_, _, _, _, c⟩ | ⟨_, _, c⟩ | ⟨_, _, c⟩ <;> cases c
    simp [JV.Ok, JV.OkPairs, ihu hu _ eu, ihm hm _ em]
  | move a u ih =>
    intro hs f e
    simp only [fingerprint, Option.bind_eq_bind, Option.bind_eq_some_iff, Option.some.injEq] at e
    obtain ⟨fu, eu, rfl⟩ := e
    have hu : Made u := by
      rcases made_cases hs with ⟨_, _, _, _, _, _, c, _⟩ | c | ⟨_, _, c⟩ | ⟨_, _, _, hu, hm, c⟩ | ⟨v, dx, dy, hu, c⟩ | ⟨_, hu, c⟩ | ⟨_, hu, c⟩ <;>
        simp [newMove, newQuantized, newDebug] at c
      exact c.2 ▸ hu
    simp [JV.Ok, JV.OkPairs, JV.OkList, ih hu _ eu]
  | quantized a u ih =>
    intro hs f e
    simp only [fingerprint, Option.bind_eq_bind, Option.bind_eq_some_iff, Option.some.injEq] at e
    obtain ⟨fu, eu, rfl⟩ := e
    have hu : Made u := by
      rcases made_cases hs with ⟨_, _, _, _, _, _, c, _⟩ | c | ⟨_, _, c⟩ | ⟨_, _, _, hu, hm, c⟩ | ⟨v, dx, dy, hu, c⟩ | ⟨_, hu, c⟩ | ⟨_, hu, c⟩ <;>
        simp [newMove, newQuantized, newDebug] at c
      exact c.2 ▸ hu
    simp [JV.Ok, JV.OkPairs, JV.OkList, ih hu _ eu]
  | debug a u ih =>
    intro hs f e
    simp only [fingerprint, Option.bind_eq_bind, Option.bind_eq_some_iff, Option.some.injEq] at e
    obtain ⟨fu, eu, rfl⟩ := e
    have hu : Made u := by
      rcases made_cases hs with ⟨_, _, _, _, _, _, c, _⟩ | c | ⟨_, _, c⟩ | ⟨_, _, _, hu, hm, c⟩ | ⟨v, dx, dy, hu, c⟩ | ⟨_, hu, c⟩ | ⟨_, hu, c⟩ <;>
        simp [newMove, newQuantized, newDebug] at c
      exact c.2 ▸ hu
    simp [JV.Ok, JV.OkPairs, JV.OkList, ih hu _ eu]

theorem files_ok (D : Disk) (ht : ∀ p, TimeOk (D.changed p)) (l : List (List Char)) :
    JV.OkList (l.map fun p => .list [.dict [("path".toList, .str p)], .time (D.changed p)]) := by
  induction l with
  | nil => simp [JV.OkList]
  | cons p l ih =>
    rw [List.map_cons, JV.OkList]
    exact ⟨by simp [JV.Ok, JV.OkList, JV.OkPairs, ht p], ih⟩

theorem files_inj (D D' : Disk) (l l' : List (List Char))
    (h : (l.map fun p => JV.list [.dict [("path".toList, .str p)], .time (D.changed p)]) =
      l'.map fun p => JV.list [.dict [("path".toList, .str p)], .time (D'.changed p)]) :
    l = l' ∧ ∀ p ∈ l, D.changed p = D'.changed p := by
  induction l generalizing l' with
  | nil => cases l' <;> simp_all
  | cons p l ih =>
    cases l' with
    | nil => simp at h
    | cons p' l' =>
      simp only [List.map_cons, List.cons.injEq, JV.list.injEq, JV.dict.injEq, Prod.mk.injEq, JV.str.injEq, JV.time.injEq, true_and, and_true] at h
      obtain ⟨⟨rfl, e⟩, h⟩ := h
      obtain ⟨rfl, h2⟩ := ih _ h
      refine ⟨rfl, fun q hq => ?_⟩
      rcases List.mem_cons.1 hq with rfl | hq
      · exact e
      · exact h2 q hq

/-- **C71** (the text of the fingerprint says which sprite it is and when its files were changed). -/
theorem fingerprint_identifies (this : List Char) (D D' : Disk) (ht : ∀ p, TimeOk (D.changed p)) (ht' : ∀ p, TimeOk (D'.changed p)) (s s' : Sprite)
    (hs : Made s) (hs' : Made s') (f f' : JV) (e : spriteFingerprint this D s = some f) (e' : spriteFingerprint this D' s' = some f')
    (h : dumps f = dumps f') : s = s' ∧ ∀ p ∈ resourceFiles this s, D.changed p = D'.changed p := by
  simp only [spriteFingerprint, Option.bind_eq_bind, Option.bind_eq_some_iff, Option.some.injEq] at e e'
  obtain ⟨g, eg, rfl⟩ := e
  obtain ⟨g', eg', rfl⟩ := e'
  have k := dumps_injective
    (by simp only [JV.Ok, JV.OkPairs]; exact ⟨fingerprint_ok s hs g eg, files_ok D ht _, trivial⟩)
    (by simp only [JV.Ok, JV.OkPairs]; exact ⟨fingerprint_ok s' hs' g' eg', files_ok D' ht' _, trivial⟩) h
  simp only [JV.dict.injEq, List.cons.injEq, Prod.mk.injEq, true_and, and_true, JV.list.injEq] at k
  obtain ⟨rfl, k⟩ := k
  obtain ⟨k1, k2⟩ := files_inj _ _ _ _ k
  exact ⟨(same_sprite this s hs s' hs' g eg eg' [] [] (by rw [k1])).1, k2⟩

/-! ## What a sprite looks like depends on its files only -/

theorem image_congr (L : Lib) (this : List Char) (D D' : Disk) (hc : D.content = D'.content) : ∀ s : Sprite,
    (∀ p ∈ resourceFiles this s, D.changed p = D'.changed p) → getImage L D s = getImage L D' s := by
  intro s
  induction s with
  | file a path key x y kw =>
    intro h
    have := h path (by simp [resourceFiles])
    simp only [getImage, hc, this]
  | quantized a u ih =>
    intro h
    simp only [getImage, ih (fun p hp => h p (by simp [resourceFiles, hp]))]
  | _ => intros; simp only [getImage]

theorem base_congr (L : Lib) (this : List Char) (D D' : Disk) (hc : D.content = D'.content) (s : Sprite)
    (h : ∀ p ∈ resourceFiles this s, D.changed p = D'.changed p) : baseLayers L D s = baseLayers L D' s := by
  simp only [baseLayers, image_congr L this D D' hc s h]

theorem layers_congr (L : Lib) (this : List Char) (D D' : Disk) (hc : D.content = D'.content) : ∀ s : Sprite,
    (∀ p ∈ resourceFiles this s, D.changed p = D'.changed p) → layers L D s = layers L D' s := by
  intro s
  induction s with
  | file a path key x y kw =>
    intro h
    cases key <;> simp only [layers] <;> rw [base_congr L this D D' hc _ h]
  | empty => intro _; simp only [layers]
  | image a img =>
    intro h
    simp only [layers]
    exact base_congr L this D D' hc _ h
  | masked a u m mode ihu ihm =>
    intro h
    simp only [layers, ihu (fun p hp => h p (by simp [resourceFiles, hp])), ihm (fun p hp => h p (by simp [resourceFiles, hp]))]
  | move a u ih => intro h; simp only [layers, ih (fun p hp => h p (by simp [resourceFiles, hp]))]
  | quantized a u ih =>
    intro h
    simp only [layers]
    exact base_congr L this D D' hc _ h
  | debug a u ih => intro h; simp only [layers, ih (fun p hp => h p (by simp [resourceFiles, hp]))]

/-- **C71** (a sprite's data depend on its attributes and on the files it names). -/
theorem data_congr (L : Lib) (this : List Char) (D D' : Disk) (hc : D.content = D'.content) (s : Sprite)
    (h : ∀ p ∈ resourceFiles this s, D.changed p = D'.changed p) : realData L D s = realData L D' s := by
  cases s <;> simp only [realData] <;> rw [layers_congr L this D D' hc _ h]

/-! ## Builds -/

variable {K : Type} [DecidableEq K]

/-- What happens to the cache directory between two builds: files or the index are lost, a new process starts. -/
def harmless : Cache.Op K Bytes → Bool
  | .lose _ | .loseIndex | .breakIndex | .restart => true
  | _ => false

/-- One build: what happened to the cache before, `clean_build`, when the picture files were last changed, the sprites. -/
structure Run (K : Type) where
  before : List (Cache.Op K Bytes)
  clean : Bool
  changed : List Char → MTime
  sprites : List Sprite

/-- Builds one after the other: what each put into the file, `none` if it failed. -/
def runs (L : Lib) (digest : List Char → K) (this : List Char) (content : List Char → MTime → Option Img) (c : Cache.St K Bytes) : List (Run K) → List (Option (List Bytes))
  | [] => []
  | r :: rs =>
    let (c, out) := cachedBuild L digest this r.clean ⟨content, r.changed⟩ (Cache.run c r.before) r.sprites
    out :: runs L digest this content c rs

/-- The text that is digested for a sprite in a build. -/
def textOf (this : List Char) (content : List Char → MTime → Option Img) (changed : List Char → MTime) (s : Sprite) : Option (List Char) :=
  (spriteFingerprint this ⟨content, changed⟩ s).map dumps

/-- Every cache file holds what drawing gives for every sprite of the pool with that key. -/
def Sound (L : Lib) (digest : List Char → K) (this : List Char) (content : List Char → MTime → Option Img) (pool : (List Char → MTime) → Sprite → Prop)
    (files : K → Option Bytes) : Prop :=
  ∀ k d, files k = some d → ∀ ch s, pool ch s → spriteKey digest this ⟨content, ch⟩ s = some k → realData L ⟨content, ch⟩ s = some d

section
variable {L : Lib} {digest : List Char → K} {this : List Char} {content : List Char → MTime → Option Img} {pool : (List Char → MTime) → Sprite → Prop}

theorem sound_run (os : List (Cache.Op K Bytes)) (hos : ∀ o ∈ os, harmless o = true) : ∀ c : Cache.St K Bytes, Sound L digest this content pool c.files →
    Sound L digest this content pool (Cache.run c os).files := by
  induction os with
  | nil => intro c h; exact h
  | cons o os ih =>
    intro c h
    simp only [Cache.run]
    apply ih (fun o ho => hos o (by simp [ho]))
    have := hos o (by simp)
    cases o with
    | lose k =>
      intro k' d hk
      simp only [Cache.step] at hk
      by_cases e : k' = k
      · subst e; rw [upd_same] at hk; cases hk
      · rw [upd_ne _ _ _ _ e] at hk
        exact h k' d hk
    | loseIndex => exact h
    | breakIndex => exact h
    | restart => exact h
    | _ => simp [harmless] at this

theorem sound_data (hp : ∀ ch s, pool ch s → (∀ p, TimeOk (ch p)) ∧ Made s)
    (hd : ∀ ch s ch' s' t t', pool ch s → pool ch' s' → textOf this content ch s = some t → textOf this content ch' s' = some t' → digest t = digest t' → t = t')
    (c : Cache.St K Bytes) (h : Sound L digest this content pool c.files) (ch : List Char → MTime) (s : Sprite) (hs : pool ch s) :
    Sound L digest this content pool (cachedData L digest this ⟨content, ch⟩ c s).1.files ∧
      (cachedData L digest this ⟨content, ch⟩ c s).2 = realData L ⟨content, ch⟩ s := by
  unfold cachedData
  cases hk : spriteKey digest this ⟨content, ch⟩ s with
  | none => exact ⟨h, rfl⟩
  | some k =>
    have hget : (Cache.get c k).1.files = c.files ∧ ∀ d, (Cache.get c k).2 = some d → c.files k = some d := by
      unfold Cache.get
      split
      · exact ⟨rfl, by simp⟩
      · exact ⟨rfl, fun d h => h⟩
    simp only
    rcases hg : Cache.get c k with ⟨c', o⟩
    rw [hg] at hget
    simp only at hget
    cases o with
    | some d =>
      simp only
      exact ⟨by rw [hget.1]; exact h, (h k d (hget.2 d rfl) ch s hs hk).symm⟩
    | none =>
      simp only
      cases hr : realData L ⟨content, ch⟩ s with
      | none => exact ⟨by simp only; rw [hget.1]; exact h, rfl⟩
      | some d =>
        refine ⟨?_, rfl⟩
        intro k' d' hk'
        simp only [Cache.set, hget.1] at hk'
        by_cases e : k' = k
        · subst e
          rw [upd_same] at hk'
          cases hk'
          intro ch' s' hs' hkey'
          simp only [spriteKey, Option.map_eq_some_iff] at hk hkey'
          obtain ⟨f, ef, ed⟩ := hk
          obtain ⟨f', ef', ed'⟩ := hkey'
          have ht := hd ch s ch' s' (dumps f) (dumps f') hs hs' (by simp [textOf, ef]) (by simp [textOf, ef']) (by rw [ed, ed'])
          obtain ⟨rfl, hch⟩ := fingerprint_identifies this ⟨content, ch⟩ ⟨content, ch'⟩ (hp ch s hs).1 (hp ch' s' hs').1 s s' (hp ch s hs).2 (hp ch' s' hs').2 f f' ef ef' ht
          rw [← data_congr L this ⟨content, ch⟩ ⟨content, ch'⟩ rfl s hch, hr]
        · rw [upd_ne _ _ _ _ e] at hk'
          exact h k' d' hk'

theorem sound_all (hp : ∀ ch s, pool ch s → (∀ p, TimeOk (ch p)) ∧ Made s)
    (hd : ∀ ch s ch' s' t t', pool ch s → pool ch' s' → textOf this content ch s = some t → textOf this content ch' s' = some t' → digest t = digest t' → t = t')
    (ch : List Char → MTime) (ss : List Sprite) : (∀ s ∈ ss, pool ch s) → ∀ c : Cache.St K Bytes, Sound L digest this content pool c.files →
    Sound L digest this content pool (cachedAll L digest this ⟨content, ch⟩ c ss).1.files ∧
      (cachedAll L digest this ⟨content, ch⟩ c ss).2 = ss.mapM (realData L ⟨content, ch⟩) := by
  induction ss with
  | nil => intro _ c h; exact ⟨h, rfl⟩
  | cons s ss ih =>
    intro hs c h
    obtain ⟨h1, h2⟩ := sound_data hp hd c h ch s (hs s (by simp))
    unfold cachedAll
    rcases hg : cachedData L digest this ⟨content, ch⟩ c s with ⟨c', o⟩
    rw [hg] at h1 h2
    simp only at h1 h2
    rw [List.mapM_cons, ← h2]
    cases o with
    | none => exact ⟨h1, rfl⟩
    | some d =>
      obtain ⟨h3, h4⟩ := ih (fun s hs' => hs s (by simp [hs'])) c' h1
      simp only
      refine ⟨h3, ?_⟩
      rw [h4]
      cases ss.mapM (realData L ⟨content, ch⟩) <;> rfl
end

/-- **C71** (a sprite from the cache is the sprite that would be drawn). From an empty cache, any number of builds of sprites made by the
constructors, with any picture files changed and any cache files lost in between, clean or not: each build gives what it would give
without a cache, and fails when it would fail without one. A file with the same path and time of change is the same picture
(`content`), times are floats, and the digests of the texts that occur do not collide. -/
theorem cache_is_invisible (L : Lib) (digest : List Char → K) (this : List Char) (content : List Char → MTime → Option Img) (rs : List (Run K))
    (hr : ∀ r ∈ rs, (∀ o ∈ r.before, harmless o = true) ∧ (∀ p, TimeOk (r.changed p)) ∧ ∀ s ∈ r.sprites, Made s)
    (hd : ∀ r ∈ rs, ∀ s ∈ r.sprites, ∀ r' ∈ rs, ∀ s' ∈ r'.sprites, ∀ t t', textOf this content r.changed s = some t →
      textOf this content r'.changed s' = some t' → digest t = digest t' → t = t') :
    runs L digest this content Cache.empty rs = rs.map fun r => r.sprites.mapM (realData L ⟨content, r.changed⟩) := by
  let pool : (List Char → MTime) → Sprite → Prop := fun ch s => ∃ r ∈ rs, ch = r.changed ∧ s ∈ r.sprites
  have hp : ∀ ch s, pool ch s → (∀ p, TimeOk (ch p)) ∧ Made s := by
    rintro _ s ⟨r, h, rfl, hs⟩
    exact ⟨(hr r h).2.1, (hr r h).2.2 s hs⟩
  have hd' : ∀ ch s ch' s' t t', pool ch s → pool ch' s' → textOf this content ch s = some t → textOf this content ch' s' = some t' → digest t = digest t' → t = t' := by
    rintro _ s _ s' t t' ⟨r, h, rfl, hs⟩ ⟨r', h', rfl, hs'⟩ e e' k
    exact hd r h s hs r' h' s' hs' t t' e e' k
  have main : ∀ (l : List (Run K)), (∀ r ∈ l, r ∈ rs) → ∀ c : Cache.St K Bytes, Sound L digest this content pool c.files →
      runs L digest this content c l = l.map fun r => r.sprites.mapM (realData L ⟨content, r.changed⟩) := by
    intro l
    induction l with
    | nil => intro _ c _; rfl
    | cons r l ih =>
      intro hl c hc
      have h1 := sound_run r.before (hr r (hl r (by simp))).1 c hc
      have h2 : Sound L digest this content pool (Cache.load r.clean (Cache.run c r.before)).files := h1
      obtain ⟨h3, h4⟩ := sound_all hp hd' r.changed r.sprites (fun s hs => ⟨r, hl r (by simp), rfl, hs⟩) _ h2
      simp only [runs, cachedBuild, List.map_cons]
      rw [h4, ih (fun r hr => hl r (by simp [hr]))]
      intro k d hk
      simp only [Cache.save] at hk
      split at hk
      · cases hk
      · exact h3 k d hk
  refine main rs (fun _ h => h) _ ?_
  intro k d h
  cases h

/-! ## Drawing twice -/

theorem settle_attrs (D : Disk) (s : Sprite) : (settle D s).attrs.xofs = s.attrs.xofs ∧ (settle D s).attrs.yofs = s.attrs.yofs ∧
    (settle D s).attrs.zoom = s.attrs.zoom ∧ (settle D s).attrs.bpp = s.attrs.bpp ∧ (settle D s).attrs.crop = s.attrs.crop := by
  cases s with
  | file a path key x y kw =>
    unfold settle
    split
    · exact ⟨rfl, rfl, rfl, rfl, rfl⟩
    · split
      · exact ⟨rfl, rfl, rfl, rfl, rfl⟩
      · split <;> exact ⟨rfl, rfl, rfl, rfl, rfl⟩
  | _ => exact ⟨rfl, rfl, rfl, rfl, rfl⟩

theorem settle_image (L : Lib) (D : Disk) : ∀ s : Sprite, getImage L D (settle D s) = getImage L D s := by
  intro s
  induction s with
  | file a path key x y kw =>
    unfold settle
    split
    · rfl
    · rename_i hk
      split
      · rfl
      · rename_i img hi
        split
        · rename_i ha
          have e1 : area { a with w := some (img.w : Int), h := some (img.h : Int) } x y img = some ((img.w : Int), (img.h : Int)) := by
            simp [area]
          have e2 : area a x y img = some ((img.w : Int), (img.h : Int)) := by
            unfold area
            rw [if_pos ha]
          simp only [getImage, hi, Option.bind_eq_bind, Option.bind_some, e1, e2]
        · rfl
  | quantized a u ih => simp only [settle, getImage, ih]
  | _ => simp only [settle, getImage]

theorem settle_base (L : Lib) (D : Disk) (s : Sprite) : baseLayers L D (settle D s) = baseLayers L D s := by
  simp only [baseLayers, settle_image, (settle_attrs D s).2.2.2.1]

theorem settle_layers (L : Lib) (D : Disk) : ∀ s : Sprite, layers L D (settle D s) = layers L D s := by
  intro s
  induction s with
  | file a path key x y kw =>
    have h := settle_base L D (.file a path key x y kw)
    have hs : ∃ a', settle D (.file a path key x y kw) = .file a' path key x y kw := by
      unfold settle
      split
      · exact ⟨_, rfl⟩
      · split
        · exact ⟨_, rfl⟩
        · split <;> exact ⟨_, rfl⟩
    obtain ⟨a', e⟩ := hs
    rw [e] at h ⊢
    cases key <;> simp only [layers] <;> rw [h]
  | masked a u m mode ihu ihm => simp only [settle, layers, ihu, ihm]
  | move a u ih => simp only [settle, layers, ih]
  | quantized a u ih =>
    have h := settle_base L D (.quantized a u)
    simp only [settle, layers] at h ⊢
    exact h
  | debug a u ih => simp only [settle, layers, ih, (settle_attrs D u).2.2.1]
  | _ => simp only [settle]

/-- **C71** (drawing a sprite again gives the same): an object keeps the size it found, which changes nothing while the files stay. -/
theorem drawn_again (L : Lib) (D : Disk) (s : Sprite) : realData L D (settle D s) = realData L D s := by
  cases s with
  | empty => rfl
  | file a path key x y kw =>
    have h := settle_layers L D (.file a path key x y kw)
    have hs : ∃ a', settle D (.file a path key x y kw) = .file a' path key x y kw ∧ a'.xofs = a.xofs ∧ a'.yofs = a.yofs ∧ a'.zoom = a.zoom ∧ a'.crop = a.crop := by
      unfold settle
      split
      · exact ⟨_, rfl, rfl, rfl, rfl, rfl⟩
      · split
        · exact ⟨_, rfl, rfl, rfl, rfl, rfl⟩
        · split <;> exact ⟨_, rfl, rfl, rfl, rfl, rfl⟩
    obtain ⟨a', e, e1, e2, e3, e4⟩ := hs
    rw [e] at h ⊢
    simp only [realData, h, Sprite.attrs, e1, e2, e3, e4]
  | image => rfl
  | masked a u m mode =>
    have h := settle_layers L D (.masked a u m mode)
    simp only [settle] at h ⊢
    simp only [realData, h, Sprite.attrs]
  | move a u =>
    have h := settle_layers L D (.move a u)
    simp only [settle] at h ⊢
    simp only [realData, h, Sprite.attrs]
  | quantized a u =>
    have h := settle_layers L D (.quantized a u)
    simp only [settle] at h ⊢
    simp only [realData, h, Sprite.attrs]
  | debug a u =>
    have h := settle_layers L D (.debug a u)
    simp only [settle] at h ⊢
    simp only [realData, h, Sprite.attrs]

/-! ## Recolouring by zoom level -/

/-- **C71** (`debug_zoom_levels` never works). The recoloured sprites are kept under themselves and looked for under the originals: with
any sprite at all the build ends in a `KeyError`. Without the option every sprite is drawn as it is. -/
theorem debug_zoom_fails (fresh : Nat → Nat) (objects : List (Nat × Sprite)) (hf : ∀ o ∈ objects, ∀ o' ∈ objects, fresh o.1 ≠ o'.1) :
    (drawnSprites true fresh objects = none ↔ objects ≠ []) ∧
    ((objects.map (·.1)).Nodup → drawnSprites false fresh objects = some (objects.map (·.2))) := by
  constructor
  · cases objects with
    | nil => simp [drawnSprites]
    | cons o l =>
      simp only [ne_eq, reduceCtorEq, not_false_eq_true, iff_true]
      unfold drawnSprites
      rw [List.mapM_cons]
      have : (spriteMap true fresh (o :: l)).reverse.find? (fun d => d.key == o.1) = none := by
        rw [List.find?_eq_none]
        intro d hd
        simp only [List.mem_reverse, spriteMap, List.mem_map, if_true] at hd
        obtain ⟨o', ho', rfl⟩ := hd
        simpa using hf o' ho' o (by simp)
      rw [this]
      rfl
  · intro hn
    unfold drawnSprites
    have key : ∀ l : List (Nat × Sprite), (∀ o ∈ l, o ∈ objects) →
        (l.mapM fun o => ((spriteMap false fresh objects).reverse.find? fun d => d.key == o.1).map (·.sprite)) = some (l.map (·.2)) := by
      intro l
      induction l with
      | nil => intro _; rfl
      | cons o l ih =>
        intro hl
        have : ((spriteMap false fresh objects).reverse.find? fun d => d.key == o.1).map (·.sprite) = some o.2 := by
          have hm : o ∈ objects := hl o (by simp)
          cases hfind : (spriteMap false fresh objects).reverse.find? fun d => d.key == o.1 with
          | none =>
            rw [List.find?_eq_none] at hfind
            have := hfind ⟨o.1, o.2⟩ (by simp only [List.mem_reverse, spriteMap, List.mem_map]; exact ⟨o, hm, rfl⟩)
            simp at this
          | some d =>
            have h1 := List.mem_of_find?_eq_some hfind
            have h2 := List.find?_some hfind
            simp only [List.mem_reverse, spriteMap, List.mem_map, Bool.false_eq_true, if_false] at h1
            obtain ⟨o', ho', rfl⟩ := h1
            simp only [beq_iff_eq] at h2
            have : o' = o := by
              clear hfind hf ih hl
              induction objects with
              | nil => cases hm
              | cons q r ihr =>
                simp only [List.map_cons, List.nodup_cons] at hn
                rcases List.mem_cons.1 hm with e | hm' <;> rcases List.mem_cons.1 ho' with e' | ho''
                · rw [e, e']
                · exfalso; apply hn.1; rw [← e, ← h2]; exact List.mem_map_of_mem ho''
                · exfalso; apply hn.1; rw [← e', h2]; exact List.mem_map_of_mem hm'
                · exact ihr hn.2 hm' ho''
            simp [this]
        rw [List.mapM_cons, this, ih (fun o ho => hl o (by simp [ho]))]
        rfl
    exact key objects (fun _ h => h)

/-! ## The conditions are needed; examples -/

/-- A library that leaves pictures as they are. -/
def plain : Lib := ⟨id, id, id, id, fun _ => some, fun _ => some, id⟩

/-- A picture of one row. -/
def row (l : List UInt8) : Img := ⟨8, l.length, 1, [l.map fun b => [b]], []⟩

/-- A picture that gets wider at time `2.0`. -/
def growing : List Char → MTime → Option Img := fun _ t => some (if t = "1.0".toList then row [7] else row [7, 9])

/-- All files were changed at this time. -/
def atTime (t : String) : List Char → MTime := fun _ => t.toList

/-- A sprite of the whole picture. -/
def whole : Sprite := .file { w := none, h := none } "a.png".toList none 0 0 []

theorem whole_made : Made whole := .file { w := none, h := none } "a.png".toList none 0 0 [] _ (by simp [JV.OkPairs]) (by rfl)

/-- **C71** (boundary: attributes changed by hand). `WithMask` does not put its own attributes into the fingerprint: a change after
construction is not noticed. -/
theorem changed_by_hand : ∃ s s' : Sprite, (∀ this D, spriteFingerprint this D s = spriteFingerprint this D s') ∧
    realData plain ⟨growing, atTime "1.0"⟩ s ≠ realData plain ⟨growing, atTime "1.0"⟩ s' :=
  ⟨.masked { w := some 1, h := some 1, crop := false } .empty .empty 0, .masked { w := some 1, h := some 1, xofs := 5, crop := false } .empty .empty 0,
    fun _ _ => rfl, by decide +kernel⟩

/-- **C71** (boundary: an object kept while its file changes). The size found first stays, so the sprite is not the one a new process
would draw. -/
theorem kept_object : realData plain ⟨growing, atTime "2.0"⟩ (settle ⟨growing, atTime "1.0"⟩ whole) ≠ realData plain ⟨growing, atTime "2.0"⟩ whole := by
  decide +kernel

/-- **C71** (boundary: a picture changed with its time kept): the old sprite comes from the cache. -/
theorem time_kept :
    let c := (cachedBuild plain id "sprites.py".toList false ⟨fun _ _ => some (row [7]), atTime "1.0"⟩ Cache.empty [whole]).1
    let D : Disk := ⟨fun _ _ => some (row [9]), atTime "1.0"⟩
    (cachedBuild plain id "sprites.py".toList false D c [whole]).2 ≠ [whole].mapM (realData plain D) := by
  decide +kernel

/-- Two builds: a sprite with a mask, moved, then the picture changes. -/
def twoRuns : List (Run (List Char)) :=
  let m : Sprite := .masked { w := none, h := none } whole whole 0
  [⟨[], false, atTime "1.0", [whole, newMove m 1 2, .empty]⟩, ⟨[.lose "x".toList], false, atTime "2.0", [whole, newMove m 1 2]⟩]

theorem timesOk (t : String) (h : TimeOk t.toList) : ∀ p, TimeOk (atTime t p) := fun _ => h

example : runs plain id "sprites.py".toList growing Cache.empty twoRuns = twoRuns.map fun r => r.sprites.mapM (realData plain ⟨growing, r.changed⟩) := by
  have hm : Made (newMove (.masked { w := none, h := none } whole whole 0) 1 2) := .move _ _ _ (.masked whole whole _ 0 whole_made whole_made rfl)
  apply cache_is_invisible
  · intro r hr
    simp only [twoRuns, List.mem_cons, List.not_mem_nil, or_false] at hr
    rcases hr with rfl | rfl
    · refine ⟨by simp, timesOk _ ⟨by decide, .inl (by decide)⟩, ?_⟩
      intro s hs
      simp only [List.mem_cons, List.not_mem_nil, or_false] at hs
      rcases hs with rfl | rfl | rfl
      · exact whole_made
      · exact hm
      · exact .empty
    · refine ⟨by simp [harmless], timesOk _ ⟨by decide, .inl (by decide)⟩, ?_⟩
      intro s hs
      simp only [List.mem_cons, List.not_mem_nil, or_false] at hs
      rcases hs with rfl | rfl
      · exact whole_made
      · exact hm
  · intro r _ s _ r' _ s' _ t t' _ _ h
    exact h

/-- The two builds draw something, and the change is seen. -/
example : (twoRuns.map fun r => (r.sprites.mapM (realData plain ⟨growing, r.changed⟩)).isSome) = [true, true] ∧
    realData plain ⟨growing, atTime "1.0"⟩ whole ≠ realData plain ⟨growing, atTime "2.0"⟩ whole := by decide +kernel

example : dumps (.dict [("a\"b".toList, .list [.num (-12), .null]), ("c".toList, .bool true)]) = "{\"a\\\"b\":[-12,null],\"c\":true}".toList := by
  decide +kernel

end Grf.Tree
