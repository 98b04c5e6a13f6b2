import Verif.Model.Extract
import Verif.Props.Script
import Verif.Props.Dispatch
import Verif.Props.Sheet
import Verif.Proofs.Refs1
/-!
# C78: which real sprites of a file are sounds and which belong together; extracted sounds

A file is taken as a sequence of blocks: an announcing action (sprite sets, replaced new or old sprites, a number of sounds) followed by
entries up to the announced number, or any other entry.
-/
namespace Grf.Extract
open Acts (CtxKind Decoded decodePseudo decodeAction decode1 decode5 decodeA decode11 decodeFE)
open ResNames (Name)
open Strings (dec)

/-- What an action announces, from the documentation of the actions: how many real sprites follow, and for graphics the name of the kind of
graphics. -/
def announced : Decoded → Option (Int × Option Name)
  | .sets a => some (a.setCount * a.spriteCount, some (featureName a.feature))
  | .newSprites a => some (a.count, some "action5".toList)
  | .oldSprites sets => some ((sets.map (·.2)).sum, some "action_a".toList)
  | .sounds n => some (n, none)
  | _ => none

/-- The bytes are read as an action that makes this announcement. (Which bytes are read as which action is the subject of C64.) -/
def Says (T : Nat → List (String × VarData)) (bs : Bytes) (n : Int) (base : Option Name) : Prop :=
  ∃ d c, decodePseudo T {} bs = some (some d, c) ∧ announced d = some (n, base)

/-- The bytes are not read as an announcement (they may be unreadable). -/
def Quiet (T : Nat → List (String × VarData)) (bs : Bytes) : Prop :=
  ∀ d c, decodePseudo T {} bs = some (some d, c) → announced d = none

/-- Part of a file. -/
inductive Block where
  | plain (e : PEntry)
  | graphics (base : Name) (n : Int) (head : Bytes) (body : List PEntry)
  | sounds (n : Int) (head : Bytes) (body : List PEntry)

/-- The entries of a part. -/
def Block.entries : Block → List PEntry
  | .plain e => [e]
  | .graphics _ _ head body => .pseudo head :: body
  | .sounds _ head body => .pseudo head :: body

/-- The real sprites mentioned. -/
def refs : List PEntry → List Nat
  | [] => []
  | .ref id :: es => id :: refs es
  | _ :: es => refs es

/-- A part as it should be: sprites stand only after an announcement, graphics possibly mixed with other actions (recolourings, for example),
sounds only with imported ones, and there are not more than announced. -/
def Block.Good (T : Nat → List (String × VarData)) : Block → Prop
  | .plain e => e = .empty ∨ e = .unknown ∨ ∃ bs, e = .pseudo bs ∧ Quiet T bs
  | .graphics base n head body => Says T head n (some base) ∧ (refs body).length ≤ n ∧
      ∀ e ∈ body, e = .empty ∨ (∃ id, e = .ref id) ∨ ∃ bs, e = .pseudo bs ∧ Quiet T bs
  | .sounds n head body => Says T head n none ∧ body.length ≤ n ∧
      ∀ e ∈ body, (∃ id, e = .ref id) ∨ ∃ bs g k c, e = .pseudo bs ∧ decodePseudo T ⟨.sound, n⟩ bs = some (some (.importSound g k), c)

/-- What each mention of a real sprite says about it: the kind, and for graphics the kind of graphics with the number of earlier parts of this
kind. -/
def noted : List Name → List Block → List (Nat × (CtxKind × Option Name))
  | _, [] => []
  | seen, .plain _ :: rest => noted seen rest
  | seen, .graphics base _ _ body :: rest =>
    (refs body).map (fun id => (id, (.graphics, some (groupName base (seen.count base))))) ++ noted (seen ++ [base]) rest
  | seen, .sounds _ _ body :: rest => (refs body).map (fun id => (id, (.sound, none))) ++ noted seen rest

/-! ### Steps of the reader -/

/-- What an announcement does to the context. -/
def Ctx.told (c : Ctx) (n : Int) : Option Name → Ctx
  | some b => c.setGraphics n b
  | none => c.setSound n

theorem says_cases {T : Nat → List (String × VarData)} {a : UInt8} {r : Bytes} {d : Decoded} {c0 : Acts.PCtx} {n : Int} {base : Option Name}
    (hd : decodePseudo T {} (a :: r) = some (some d, c0)) (ha : announced d = some (n, base)) :
    (a ≠ 0xfe ∧ a ≠ 0xff) ∧ ∀ c : Ctx, announce c a r = c.told n base := by
  have hd1 : decodeAction T {} a r = some (some d, c0) := by simpa [decodePseudo] using hd
  clear hd
  have hn := Acts.decodeAction_number T {} c0 a r d hd1
  cases d with
  | sets A =>
    have e : a = 0x01 := hn.symm
    subst e
    have h : ((decode1 r).map fun d => (some (Decoded.sets d.1), (⟨.graphics, d.2⟩ : Acts.PCtx))) = some (some (.sets A), c0) := hd1
    simp only [Option.map_eq_some_iff, Prod.mk.injEq, Option.some.injEq, Decoded.sets.injEq] at h
    obtain ⟨x, hx, rfl, -⟩ := h
    simp only [announced, Option.some.injEq, Prod.mk.injEq] at ha
    obtain ⟨rfl, rfl⟩ := ha
    refine ⟨by decide, fun c => ?_⟩
    have e2 : x.2 = x.1.setCount * x.1.spriteCount := by
      simp only [Acts.decode1, Option.bind_eq_bind, Option.bind_eq_some_iff] at hx
      obtain ⟨_, _, _, _, _, _, hx⟩ := hx
      split at hx
      · simp only [Option.bind_eq_some_iff] at hx
        obtain ⟨_, _, _, _, _, _, hx⟩ := hx
        simp only [Option.some.injEq] at hx
        rw [← hx]
      · simp only [Option.bind_eq_some_iff] at hx
        obtain ⟨_, _, hx⟩ := hx
        simp only [Option.some.injEq] at hx
        rw [← hx]
    unfold announce
    rw [if_pos rfl, hx, ← e2]
    rfl
  | newSprites A =>
    have e : a = 0x05 := hn.symm
    subst e
    have h : ((decode5 r).map fun d => (some (Decoded.newSprites d.1), (⟨.graphics, d.2⟩ : Acts.PCtx))) = some (some (.newSprites A), c0) := hd1
    simp only [Option.map_eq_some_iff, Prod.mk.injEq, Option.some.injEq, Decoded.newSprites.injEq] at h
    obtain ⟨x, hx, rfl, -⟩ := h
    simp only [announced, Option.some.injEq, Prod.mk.injEq] at ha
    obtain ⟨rfl, rfl⟩ := ha
    refine ⟨by decide, fun c => ?_⟩
    have e2 : x.2 = x.1.count := by
      simp only [Acts.decode5, Option.bind_eq_bind, Option.bind_eq_some_iff] at hx
      obtain ⟨_, _, _, _, hx⟩ := hx
      split at hx
      · simp only [Option.bind_eq_some_iff] at hx
        obtain ⟨_, _, hx⟩ := hx
        simp only [Option.some.injEq] at hx
        rw [← hx]
      · simp only [Option.some.injEq] at hx
        rw [← hx]
    unfold announce
    rw [if_neg (by decide), if_pos rfl, hx, ← e2]
    rfl
  | oldSprites A =>
    have e : a = 0x0a := hn.symm
    subst e
    have h : ((decodeA r).map fun d => (some (Decoded.oldSprites d.1), (⟨.graphics, d.2⟩ : Acts.PCtx))) = some (some (.oldSprites A), c0) := hd1
    simp only [Option.map_eq_some_iff, Prod.mk.injEq, Option.some.injEq, Decoded.oldSprites.injEq] at h
    obtain ⟨x, hx, rfl, -⟩ := h
    simp only [announced, Option.some.injEq, Prod.mk.injEq] at ha
    obtain ⟨rfl, rfl⟩ := ha
    refine ⟨by decide, fun c => ?_⟩
    have e2 : x.2 = (x.1.map (·.2)).sum := by
      simp only [Acts.decodeA, Option.bind_eq_bind, Option.bind_eq_some_iff] at hx
      obtain ⟨_, _, _, _, hx⟩ := hx
      simp only [Option.some.injEq] at hx
      rw [← hx]
    unfold announce
    rw [if_neg (by decide), if_neg (by decide), if_pos rfl, hx, ← e2]
    rfl
  | sounds A =>
    have e : a = 0x11 := hn.symm
    subst e
    have h : ((decode11 r).map fun d => (some (Decoded.sounds d), (⟨.sound, d⟩ : Acts.PCtx))) = some (some (.sounds A), c0) := hd1
    simp only [Option.map_eq_some_iff, Prod.mk.injEq, Option.some.injEq, Decoded.sounds.injEq] at h
    obtain ⟨x, hx, rfl, -⟩ := h
    simp only [announced, Option.some.injEq, Prod.mk.injEq] at ha
    obtain ⟨rfl, rfl⟩ := ha
    refine ⟨by decide, fun c => ?_⟩
    unfold announce
    rw [if_neg (by decide), if_neg (by decide), if_neg (by decide), if_pos rfl, hx]
    rfl
  | _ => simp [announced] at ha

theorem says_graphics {T : Nat → List (String × VarData)} {bs : Bytes} {n : Int} {base : Name} (h : Says T bs n (some base)) (c : Ctx) :
    stepPseudo c bs = c.setGraphics n base := by
  obtain ⟨d, c0, hd, ha⟩ := h
  cases bs with
  | nil => simp [decodePseudo] at hd
  | cons a r =>
    obtain ⟨⟨h1, h2⟩, h3⟩ := says_cases hd ha
    simp only [stepPseudo]
    split
    · first | (rw [h3]; rfl) | (rw [if_neg h1, if_neg h2, h3]; rfl)
    · rw [h3]; rfl

theorem says_sounds {T : Nat → List (String × VarData)} {bs : Bytes} {n : Int} (h : Says T bs n none) (c : Ctx) :
    stepPseudo c bs = c.setSound n := by
  obtain ⟨d, c0, hd, ha⟩ := h
  cases bs with
  | nil => simp [decodePseudo] at hd
  | cons a r =>
    obtain ⟨⟨h1, h2⟩, h3⟩ := says_cases hd ha
    simp only [stepPseudo]
    split
    · first | (rw [h3]; rfl) | (rw [if_neg h1, if_neg h2, h3]; rfl)
    · rw [h3]; rfl

theorem quiet_announce {T : Nat → List (String × VarData)} {a : UInt8} {r : Bytes} (h : Quiet T (a :: r)) (c : Ctx) : announce c a r = c := by
  have h : ∀ d c, decodeAction T {} a r = some (some d, c) → announced d = none := by simpa [Quiet, decodePseudo] using h
  unfold announce
  split
  · next e =>
    subst e
    cases hx : decode1 r with
    | none => rfl
    | some x => exact absurd (h (.sets x.1) ⟨.graphics, x.2⟩ (by simp [decodeAction, hx])) (by simp [announced])
  · split
    · next e =>
      subst e
      cases hx : decode5 r with
      | none => rfl
      | some x => exact absurd (h (.newSprites x.1) ⟨.graphics, x.2⟩ (by simp [decodeAction, hx])) (by simp [announced])
    · split
      · next e =>
        subst e
        cases hx : decodeA r with
        | none => rfl
        | some x => exact absurd (h (.oldSprites x.1) ⟨.graphics, x.2⟩ (by simp [decodeAction, hx])) (by simp [announced])
      · split
        · next e =>
          subst e
          cases hx : decode11 r with
          | none => rfl
          | some x => exact absurd (h (.sounds x) ⟨.sound, x⟩ (by simp [decodeAction, hx])) (by simp [announced])
        · rfl

theorem quiet_step {T : Nat → List (String × VarData)} {bs : Bytes} (h : Quiet T bs) (c : Ctx) (hk : c.kind ≠ .sound) : stepPseudo c bs = c := by
  cases bs with
  | nil => rfl
  | cons a r => simp only [stepPseudo]; rw [if_neg hk, quiet_announce h]

theorem consume_keeps (c : Ctx) : c.consume.groups = c.groups ∧ c.consume.sprites = c.sprites := by
  unfold Ctx.consume Ctx.reset
  split
  · exact ⟨rfl, rfl⟩
  · split <;> exact ⟨rfl, rfl⟩

theorem quiet_keeps {T : Nat → List (String × VarData)} {bs : Bytes} (h : Quiet T bs) (c : Ctx) :
    (stepPseudo c bs).groups = c.groups ∧ (stepPseudo c bs).sprites = c.sprites := by
  cases bs with
  | nil => exact ⟨rfl, rfl⟩
  | cons a r =>
    simp only [stepPseudo]
    split
    · split
      · split
        · exact consume_keeps c
        · exact ⟨rfl, rfl⟩
      · split
        · exact ⟨rfl, rfl⟩
        · rw [quiet_announce h]; exact ⟨rfl, rfl⟩
    · rw [quiet_announce h]; exact ⟨rfl, rfl⟩

/-- Looking up in the notes, the last ones first, and then in what was noted before. -/
def lookupAfter (ns : List (Nat × (CtxKind × Option Name))) (c : Ctx) (id : Nat) : Option (CtxKind × Option Name) :=
  (ns.reverse.lookup id).or (c.sprites.lookup id)

theorem lookup_append {α β : Type} [BEq α] (l₁ l₂ : List (α × β)) (k : α) : (l₁ ++ l₂).lookup k = (l₁.lookup k).or (l₂.lookup k) := by
  induction l₁ with
  | nil => rfl
  | cons p l ih =>
    obtain ⟨a, b⟩ := p
    simp only [List.cons_append, List.lookup]
    cases k == a with
    | true => rfl
    | false => exact ih

theorem note_lookup (c : Ctx) (i id : Nat) (ns : List (Nat × (CtxKind × Option Name))) (c' : Ctx) (h : c'.sprites = (c.note i).sprites) :
    lookupAfter ns c' id = lookupAfter ((i, (c.kind, c.group)) :: ns) c id := by
  unfold lookupAfter
  rw [List.reverse_cons, lookup_append, h]
  unfold Ctx.note
  simp only
  rw [lookup_dictSet]
  by_cases e : id = i
  · subst e; rw [if_pos rfl]; simp [List.lookup]
  · rw [if_neg e]
    have : (id == i) = false := by simpa using e
    simp [List.lookup, this]

theorem graphics_body {T : Nat → List (String × VarData)} (g : Name) (id : Nat) : ∀ (body : List PEntry) (c : Ctx),
    (∀ e ∈ body, e = .empty ∨ (∃ id, e = .ref id) ∨ ∃ bs, e = .pseudo bs ∧ Quiet T bs) → c.kind ≠ .sound →
    (refs body = [] ∨ (c.kind = .graphics ∧ c.group = some g ∧ (refs body).length ≤ c.amount)) →
    (body.foldl step c).groups = c.groups ∧
      (body.foldl step c).sprites.lookup id = lookupAfter ((refs body).map fun i => (i, (.graphics, some g))) c id := by
  intro body
  induction body with
  | nil => intro c _ _ _; simp [lookupAfter, refs]
  | cons e body ih =>
    intro c hb hk hr
    have hb' := fun e he => hb e (List.mem_cons_of_mem _ he)
    rw [List.foldl_cons]
    rcases hb e List.mem_cons_self with rfl | ⟨i, rfl⟩ | ⟨bs, rfl, hq⟩
    · exact ih c hb' hk hr
    · simp only [refs, List.length_cons, reduceCtorEq, false_or] at hr
      obtain ⟨h1, h2, h3⟩ := hr
      obtain ⟨g1, g2⟩ := consume_keeps (c.note i)
      have hnk : (c.note i).kind = .graphics := h1
      have hna : (c.note i).amount = c.amount := rfl
      have hng : (c.note i).group = some g := h2
      have hk' : (step c (.ref i)).kind ≠ .sound := by
        simp only [step, Ctx.consume]
        rw [hnk]
        simp only [reduceCtorEq, if_false]
        split
        · simp [Ctx.reset]
        · simp
      have hr' : refs body = [] ∨ ((step c (.ref i)).kind = .graphics ∧ (step c (.ref i)).group = some g ∧
          (refs body).length ≤ (step c (.ref i)).amount) := by
        simp only [step, Ctx.consume]
        rw [hnk, hna]
        simp only [reduceCtorEq, if_false]
        split
        · exact .inl (List.length_eq_zero_iff.mp (by omega))
        · refine .inr ⟨rfl, hng, ?_⟩
          show ((refs body).length : Int) ≤ (c.amount - 1)
          omega
      obtain ⟨r1, r2⟩ := ih _ hb' hk' hr'
      refine ⟨r1.trans g1, ?_⟩
      rw [r2, note_lookup c i id _ (step c (.ref i)) g2, h1, h2]
      rfl
    · have e : step c (.pseudo bs) = c := quiet_step hq c hk
      rw [e]
      exact ih c hb' hk hr

theorem import_step {T : Nat → List (String × VarData)} {n : Int} {bs g : Bytes} {k : Int} {p : Acts.PCtx}
    (h : decodePseudo T ⟨.sound, n⟩ bs = some (some (.importSound g k), p)) (c : Ctx) (hk : c.kind = .sound) : stepPseudo c bs = c.consume := by
  cases bs with
  | nil => simp [decodePseudo] at h
  | cons a r =>
    simp only [decodePseudo, if_true] at h
    simp only [stepPseudo]
    rw [if_pos hk]
    by_cases e : a = 0xfe
    · rw [if_pos e] at h ⊢
      rw [Option.map_eq_some_iff] at h
      obtain ⟨d, hd, -⟩ := h
      rw [hd]
    · rw [if_neg e] at h
      by_cases e2 : a = 0xff
      · rw [if_pos e2] at h; simp at h
      · rw [if_neg e2] at h
        have hn := Acts.decodeAction_number T _ p a r _ h
        exact absurd hn.symm e

theorem sounds_body {T : Nat → List (String × VarData)} {n : Int} (id : Nat) : ∀ (body : List PEntry) (c : Ctx),
    (∀ e ∈ body, (∃ id, e = .ref id) ∨ ∃ bs g k c, e = .pseudo bs ∧ decodePseudo T ⟨.sound, n⟩ bs = some (some (.importSound g k), c)) →
    (body = [] ∨ (c.kind = .sound ∧ c.group = none ∧ body.length ≤ c.amount)) →
    (body.foldl step c).groups = c.groups ∧
      (body.foldl step c).sprites.lookup id = lookupAfter ((refs body).map fun i => (i, (.sound, none))) c id := by
  intro body
  induction body with
  | nil => intro c _ _; simp [lookupAfter, refs]
  | cons e body ih =>
    intro c hb hr
    have hb' := fun e he => hb e (List.mem_cons_of_mem _ he)
    simp only [List.length_cons, reduceCtorEq, false_or] at hr
    obtain ⟨h1, h2, h3⟩ := hr
    have next : ∀ c' : Ctx, c'.kind = .sound → c'.group = none → c'.amount = c.amount →
        (body = [] ∨ (c'.consume.kind = .sound ∧ c'.consume.group = none ∧ body.length ≤ c'.consume.amount)) := by
      intro c' k1 k2 k3
      unfold Ctx.consume
      rw [k1, k3]
      simp only [reduceCtorEq, if_false]
      split
      · exact .inl (List.length_eq_zero_iff.mp (by omega))
      · refine .inr ⟨rfl, k2, ?_⟩
        show ((body.length : Nat) : Int) ≤ c.amount - 1
        omega
    rw [List.foldl_cons]
    rcases hb e List.mem_cons_self with ⟨i, rfl⟩ | ⟨bs, g, k, p, rfl, hi⟩
    · obtain ⟨g1, g2⟩ := consume_keeps (c.note i)
      obtain ⟨r1, r2⟩ := ih (step c (.ref i)) hb' (next (c.note i) h1 h2 rfl)
      refine ⟨r1.trans g1, ?_⟩
      rw [r2, note_lookup c i id _ (step c (.ref i)) g2, h1, h2]
      rfl
    · have e : step c (.pseudo bs) = c.consume := import_step hi c h1
      obtain ⟨g1, g2⟩ := consume_keeps c
      rw [e]
      obtain ⟨r1, r2⟩ := ih c.consume hb' (next c h1 h2 rfl)
      refine ⟨r1.trans g1, ?_⟩
      rw [r2]
      unfold lookupAfter
      rw [g2]
      rfl

theorem lookupAfter_append (a b : List (Nat × (CtxKind × Option Name))) (c c' : Ctx) (id : Nat)
    (h : c'.sprites.lookup id = lookupAfter a c id) : lookupAfter b c' id = lookupAfter (a ++ b) c id := by
  unfold lookupAfter at *
  rw [h, List.reverse_append, lookup_append, Option.or_assoc]

theorem blocks_noted {T : Nat → List (String × VarData)} (id : Nat) : ∀ (blocks : List Block) (seen : List Name) (c : Ctx),
    (∀ b ∈ blocks, b.Good T) → (∀ base, (c.groups.lookup base).getD 0 = seen.count base) →
    ((blocks.flatMap Block.entries).foldl step c).sprites.lookup id = lookupAfter (noted seen blocks) c id := by
  intro blocks
  induction blocks with
  | nil => intro seen c _ _; simp [lookupAfter, noted]
  | cons b blocks ih =>
    intro seen c hg hs
    have hg' := fun b hb => hg b (List.mem_cons_of_mem _ hb)
    rw [List.flatMap_cons, List.foldl_append]
    have h0 := hg b List.mem_cons_self
    cases b with
    | plain e =>
      have keep : (step c e).groups = c.groups ∧ (step c e).sprites = c.sprites := by
        rcases h0 with rfl | rfl | ⟨bs, rfl, hq⟩
        · exact ⟨rfl, rfl⟩
        · exact consume_keeps c
        · exact quiet_keeps hq c
      simp only [Block.entries, List.foldl_cons, List.foldl_nil, noted]
      rw [ih seen (step c e) hg' (by intro base; rw [keep.1]; exact hs base)]
      unfold lookupAfter
      rw [keep.2]
    | graphics base n head body =>
      obtain ⟨hsay, hlen, hb⟩ := h0
      simp only [Block.entries, List.foldl_cons, noted]
      have e : step c (.pseudo head) = c.setGraphics n base := says_graphics hsay c
      rw [e]
      have hgrp : (c.setGraphics n base).group = some (groupName base (seen.count base)) := by
        unfold Ctx.setGraphics
        simp only
        rw [hs]
      obtain ⟨r1, r2⟩ := graphics_body (T := T) (groupName base (seen.count base)) id body (c.setGraphics n base) hb (by simp [Ctx.setGraphics])
        (.inr ⟨rfl, hgrp, hlen⟩)
      rw [ih (seen ++ [base]) _ hg' ?_]
      · exact lookupAfter_append _ _ c _ id r2
      · intro base'
        rw [r1]
        unfold Ctx.setGraphics
        simp only
        rw [lookup_dictSet, List.count_append, ← hs base']
        by_cases e : base' = base
        · subst e; rw [if_pos rfl]; simp
        · rw [if_neg e]
          have : (base == base') = false := by simpa using fun h => e h.symm
          simp [List.count_cons, this]
    | sounds n head body =>
      obtain ⟨hsay, hlen, hb⟩ := h0
      simp only [Block.entries, List.foldl_cons, noted]
      have e : step c (.pseudo head) = c.setSound n := says_sounds hsay c
      rw [e]
      obtain ⟨r1, r2⟩ := sounds_body (T := T) (n := n) id body (c.setSound n) hb (.inr ⟨rfl, rfl, hlen⟩)
      rw [ih seen _ hg' (by intro base; rw [r1]; exact hs base)]
      exact lookupAfter_append _ _ c _ id r2

/-- C78: in every file in which real sprites stand only after announcements and are not more than announced, the reader takes each real sprite
for what the last mention of it says: a sound, or graphics belonging to that announcement, the `k`-th of its kind. -/
theorem kinds {T : Nat → List (String × VarData)} (blocks : List Block) (h : ∀ b ∈ blocks, b.Good T) (id : Nat) :
    (context (blocks.flatMap Block.entries)).get id = ((noted [] blocks).reverse.lookup id).getD (.default, none) := by
  unfold context Ctx.get
  rw [blocks_noted id blocks [] {} h (by intro base; rfl)]
  unfold lookupAfter
  rw [show ({} : Ctx).sprites.lookup id = none from rfl, Option.or_none]

/-- A sprite mentioned only among sounds is taken for a sound. -/
theorem sound_kind {T : Nat → List (String × VarData)} (blocks : List Block) (h : ∀ b ∈ blocks, b.Good T) (id : Nat)
    (hm : id ∈ refs (blocks.flatMap Block.entries)) (ho : ∀ base n head body, .graphics base n head body ∈ blocks → id ∉ refs body) :
    (context (blocks.flatMap Block.entries)).get id = (.sound, none) := by
  rw [kinds blocks h]
  have app : ∀ a b : List PEntry, refs (a ++ b) = refs a ++ refs b := by
    intro a b
    induction a with
    | nil => rfl
    | cons e a ih => cases e <;> simp [refs, ih]
  have all : ∀ (bl : List Block) (seen : List Name), (∀ b ∈ bl, b.Good T) → (∀ base n head body, .graphics base n head body ∈ bl → id ∉ refs body) →
      (id ∈ refs (bl.flatMap Block.entries) → ∃ v, (id, v) ∈ noted seen bl) ∧ ∀ v, (id, v) ∈ noted seen bl → v = (.sound, none) := by
    intro bl
    induction bl with
    | nil => intro seen _ _; simp [refs, noted]
    | cons b bl ih =>
      intro seen hg ho
      have hg' := fun b hb => hg b (List.mem_cons_of_mem _ hb)
      have ho' := fun base n head body hb => ho base n head body (List.mem_cons_of_mem _ hb)
      rw [List.flatMap_cons, app]
      cases b with
      | plain e =>
        obtain ⟨i1, i2⟩ := ih seen hg' ho'
        have : refs [e] = [] := by
          rcases hg _ List.mem_cons_self with rfl | rfl | ⟨bs, rfl, -⟩ <;> rfl
        simp only [Block.entries, this, noted, List.nil_append]
        exact ⟨i1, i2⟩
      | graphics base n head body =>
        obtain ⟨i1, i2⟩ := ih (seen ++ [base]) hg' ho'
        have hn := ho base n head body List.mem_cons_self
        simp only [Block.entries, refs, noted, List.mem_append, List.mem_map, Prod.mk.injEq]
        constructor
        · rintro (h | h)
          · exact absurd h hn
          · obtain ⟨v, hv⟩ := i1 h
            exact ⟨v, .inr hv⟩
        · rintro v (⟨a, ha, rfl, -⟩ | h)
          · exact absurd ha hn
          · exact i2 v h
      | sounds n head body =>
        obtain ⟨i1, i2⟩ := ih seen hg' ho'
        simp only [Block.entries, refs, noted, List.mem_append, List.mem_map, Prod.mk.injEq]
        constructor
        · rintro (h | h)
          · exact ⟨_, .inl ⟨id, h, rfl, rfl⟩⟩
          · obtain ⟨v, hv⟩ := i1 h
            exact ⟨v, .inr hv⟩
        · rintro v (⟨a, ha, -, rfl⟩ | h)
          · rfl
          · exact i2 v h
  obtain ⟨a1, a2⟩ := all blocks [] h ho
  obtain ⟨v, hv⟩ := a1 hm
  have look : ∀ l : List (Nat × (CtxKind × Option Name)), (∃ v, (id, v) ∈ l) → (∀ v, (id, v) ∈ l → v = (.sound, none)) →
      l.lookup id = some (.sound, none) := by
    intro l
    induction l with
    | nil => rintro ⟨v, hv⟩; simp at hv
    | cons p l ih =>
      intro hex hall
      obtain ⟨k, w⟩ := p
      simp only [List.lookup]
      by_cases e : id = k
      · subst e
        simp only [BEq.rfl]
        exact congrArg some (hall w List.mem_cons_self)
      · have : (id == k) = false := by simpa using e
        rw [this]
        refine ih ?_ (fun v hv => hall v (List.mem_cons_of_mem _ hv))
        obtain ⟨v, hv⟩ := hex
        rcases List.mem_cons.mp hv with hv | hv
        · simp only [Prod.mk.injEq] at hv; exact absurd hv.1 e
        · exact ⟨v, hv⟩
  rw [look (noted [] blocks).reverse ⟨v, List.mem_reverse.mpr hv⟩ (fun v hv => a2 v (List.mem_reverse.mp hv))]
  rfl

/-! ### Names of groups -/

theorem last_underscore {a b x y : Name} (hx : '_' ∉ x) (hy : '_' ∉ y) (h : a ++ '_' :: x = b ++ '_' :: y) : a = b ∧ x = y := by
  rw [List.append_eq_append_iff] at h
  rcases h with ⟨z, hz, hz2⟩ | ⟨z, hz, hz2⟩
  · cases z with
    | nil => simp only [List.append_nil, List.nil_append, List.cons.injEq] at hz hz2; exact ⟨hz.symm, hz2.2⟩
    | cons c z =>
      simp only [List.cons_append, List.cons.injEq] at hz2
      exact absurd (hz2.2 ▸ List.mem_append_right _ List.mem_cons_self) hx
  · cases z with
    | nil => simp only [List.append_nil, List.nil_append, List.cons.injEq] at hz hz2; exact ⟨hz, hz2.2.symm⟩
    | cons c z =>
      simp only [List.cons_append, List.cons.injEq] at hz2
      exact absurd (hz2.2 ▸ List.mem_append_right _ List.mem_cons_self) hy

theorem dec_plain (k : Nat) : '_' ∉ dec k := fun h => absurd (Script.dec_chars k '_' h) (by decide)

theorem groupName_inj {a b : Name} {j k : Nat} (h : groupName a j = groupName b k) : a = b ∧ j = k := by
  obtain ⟨h1, h2⟩ := last_underscore (dec_plain j) (dec_plain k) h
  exact ⟨h1, Script.dec_inj h2⟩

/-- The names of the groups of graphics, one for each announcement of graphics. -/
def groupNames : List Name → List Block → List Name
  | _, [] => []
  | seen, .graphics base _ _ _ :: rest => groupName base (seen.count base) :: groupNames (seen ++ [base]) rest
  | seen, _ :: rest => groupNames seen rest

/-- C78: two announcements of graphics never share a group. -/
theorem groups_differ (blocks : List Block) : (groupNames [] blocks).Nodup := by
  have main : ∀ (bl : List Block) (seen : List Name), (groupNames seen bl).Nodup ∧
      ∀ n ∈ groupNames seen bl, ∃ base k, n = groupName base k ∧ seen.count base ≤ k := by
    intro bl
    induction bl with
    | nil => intro seen; simp [groupNames]
    | cons b bl ih =>
      intro seen
      cases b with
      | plain e => exact ih seen
      | sounds n head body => exact ih seen
      | graphics base n head body =>
        obtain ⟨i1, i2⟩ := ih (seen ++ [base])
        simp only [groupNames, List.nodup_cons, List.mem_cons]
        refine ⟨⟨?_, i1⟩, ?_⟩
        · intro hm
          obtain ⟨b', k, e, hk⟩ := i2 _ hm
          obtain ⟨rfl, rfl⟩ := groupName_inj e
          rw [List.count_append] at hk
          simp at hk
          omega
        · rintro n (rfl | hn)
          · exact ⟨base, _, rfl, Nat.le_refl _⟩
          · obtain ⟨b', k, e, hk⟩ := i2 n hn
            refine ⟨b', k, e, ?_⟩
            rw [List.count_append] at hk
            omega
  exact (main blocks []).1

/-! ### Sounds -/

/-- C78: a sound can be written exactly if the name of its file has at most 255 bytes. -/
theorem sound_written_iff (name data : Bytes) : (rawSound name data).isSome ↔ name.length ≤ 255 := by
  unfold rawSound
  simp only [Option.isSome_map]
  rw [Option.isSome_iff_exists]
  have key : ∀ k : Nat, (∃ l, packU 1 (k : Int) = some l) ↔ k ≤ 255 := by
    intro k
    constructor
    · rintro ⟨l, hl⟩
      have := (packU_some hl)
      omega
    · intro h
      exact ⟨leBytes 1 k, by unfold packU; rw [if_pos (by omega)]; rfl⟩
  rw [key]
  split
  · simp only [List.length_append, List.length_take, List.length_drop, List.length_cons, List.length_nil]
    omega
  · exact Iff.rfl

/-- C78: reading a sound that was written gives its name, and its data with one byte more: the first byte of what follows in the file. -/
theorem sound_gains_byte (name data d : Bytes) (h : rawSound name data = some d) (next : UInt8) (rest : Bytes) :
    readSound d.length (d ++ next :: rest) = some (name, data ++ [next]) := by
  have hn : name.length ≤ 255 := (sound_written_iff name data).mp (by rw [h]; rfl)
  unfold rawSound at h
  rw [if_neg (by omega)] at h
  simp only [Option.map_eq_some_iff] at h
  obtain ⟨l, hl, rfl⟩ := h
  obtain ⟨x, rfl, hx⟩ := PropC.packU_one_some hl
  have hb : x.toNat = name.length := by omega
  simp only [List.cons_append, List.nil_append, readSound]
  rw [hb]
  simp only [List.append_assoc, List.length_append, List.length_cons, List.length_nil]
  rw [if_neg (by omega)]
  have e1 : (name ++ ([0] ++ (data ++ next :: rest))).take (name.length + 1) = name ++ [0] := by
    rw [List.take_append, List.take_of_length_le (by omega)]
    simp
  have e2 : (name ++ ([0] ++ (data ++ next :: rest))).drop (name.length + 1) = data ++ next :: rest := by
    rw [List.drop_append, List.drop_of_length_le (by omega)]
    simp
  rw [e1, e2]
  simp only [List.dropLast_concat]
  rw [show (((name.length + (0 + 1 + data.length) + 1 + 1 + 1 : Nat) : Int) - 3 - (name.length : Int)).toNat = data.length + 1 by omega]
  rw [List.take_append, List.take_of_length_le (by omega)]
  simp

/-- A sound of three bytes in a file `a.wav`, the entry of the sprite with id 7 following. -/
example : (rawSound [0x61, 0x2e, 0x77, 0x61, 0x76] [1, 2, 3]).bind (fun d => readSound d.length (d ++ [7, 0, 0, 0])) =
    some ([0x61, 0x2e, 0x77, 0x61, 0x76], [1, 2, 3, 7]) := by decide +kernel

/-! ### Limits -/

/-- The table of variables plays no part in what follows. -/
def noVars : Nat → List (String × VarData) := fun _ => []

/-- Two sprite sets for trains with one sprite each, a number of sounds (one sprite and one imported sound), another sprite set. -/
def sample : List Block :=
  [.plain (.pseudo [0x0c, 1]), .graphics "train".toList 2 [1, 0, 2, 1] [.ref 1, .pseudo [0x00], .ref 2],
   .sounds 2 [0x11, 2, 0] [.pseudo [0xfe, 0, 1, 2, 3, 4, 5, 0], .ref 3], .graphics "train".toList 1 [1, 0, 1, 1] [.ref 4]]

/-- The hypotheses of `kinds` hold of the sample. -/
example : ∀ b ∈ sample, b.Good noVars := by
  intro b hb
  simp only [sample, List.mem_cons, List.not_mem_nil, or_false] at hb
  have q1 : Quiet noVars [0x0c, 1] := by
    intro d c h
    have h : some (some (Decoded.comment [1]), ({} : Acts.PCtx)) = some (some d, c) := h
    simp only [Option.some.injEq, Prod.mk.injEq] at h
    rw [← h.1]; rfl
  have q2 : Quiet noVars [0x00] := by
    intro d c h
    have h : (none : Option (Option Decoded × Acts.PCtx)) = some (some d, c) := h
    simp at h
  rcases hb with rfl | rfl | rfl | rfl
  · exact .inr (.inr ⟨_, rfl, q1⟩)
  · refine ⟨⟨.sets ⟨0, 2, 1, none⟩, ⟨.graphics, 2⟩, by rfl, by rfl⟩, by decide, ?_⟩
    intro e he
    simp only [List.mem_cons, List.not_mem_nil, or_false] at he
    rcases he with rfl | rfl | rfl
    · exact .inr (.inl ⟨_, rfl⟩)
    · exact .inr (.inr ⟨_, rfl, q2⟩)
    · exact .inr (.inl ⟨_, rfl⟩)
  · refine ⟨⟨.sounds 2, ⟨.sound, 2⟩, by rfl, by rfl⟩, by decide, ?_⟩
    intro e he
    simp only [List.mem_cons, List.not_mem_nil, or_false] at he
    rcases he with rfl | rfl
    · exact .inr ⟨_, [1, 2, 3, 4], 5, ⟨.sound, 1⟩, rfl, by rfl⟩
    · exact .inl ⟨_, rfl⟩
  · refine ⟨⟨.sets ⟨0, 1, 1, none⟩, ⟨.graphics, 1⟩, by rfl, by rfl⟩, by decide, ?_⟩
    intro e he
    simp only [List.mem_cons, List.not_mem_nil, or_false] at he
    subst he
    exact .inl ⟨_, rfl⟩ |> .inr

/-- What is found about its sprites. -/
example : (List.range 6).map (context (sample.flatMap Block.entries)).get =
    [(.default, none), (.graphics, some "train_0".toList), (.graphics, some "train_0".toList), (.sound, none), (.graphics, some "train_1".toList),
      (.default, none)] := by decide +kernel

/-- The boundary of `kinds`: after an announcement of no sounds a sprite still is taken for a sound; a sprite beyond the announced number of sounds
is not. -/
theorem beyond_announced : (context [.pseudo [0x11, 0, 0], .ref 1]).get 1 = (.sound, none) ∧
    (context [.pseudo [0x11, 1, 0], .ref 1, .ref 2]).get 2 = (.default, none) := by decide +kernel

end Grf.Extract
