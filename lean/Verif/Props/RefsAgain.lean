import Verif.Props.RefsSucceed
/-!
# C86: writing again

After `write` the action objects keep the ids and features that reference resolution gave them. The same objects can be written again:
those that are kept by the user come with their ids, those made afresh by generators without.
-/
namespace Grf

/-! ### Specification -/

/-- `W'` is the store when the file is written again: every object has kept its id, or (if it is made again by a generator) has the one it
started with; the same for its feature. Nothing else has changed. -/
def Remembers (W W' : World) (res : Resolved) : Prop :=
  ∀ n, (W' n).referencing = (W n).referencing ∧ (W' n).referenceable = (W n).referenceable ∧ (W' n).refs = (W n).refs ∧
    ((W' n).refId = (W n).refId ∨ (W' n).refId = res.refId n) ∧ ((W' n).feature = (W n).feature ∨ (W' n).feature = res.feature n)

/-! ### The first phase does not look at ids -/

/-- The states of two first phases: only the index of raw ids may differ. -/
structure SameR (a b : RState) : Prop where
  actions : b.actions = a.actions
  ordered : b.ordered = a.ordered
  unordered : b.unordered = a.unordered
  refCount : b.refCount = a.refCount

/-- Results of two phases: both fail, or both give the same up to the index. -/
def SameOpt (a b : Option RState) : Prop :=
  match a, b with
  | some x, some y => SameR x y
  | none, none => True
  | _, _ => False

theorem SameOpt.bind {a b : Option RState} {f g : RState → Option RState} (h : SameOpt a b)
    (hf : ∀ x y, SameR x y → SameOpt (f x) (g y)) : SameOpt (a.bind f) (b.bind g) := by
  cases a <;> cases b
  · trivial
  · exact h.elim
  · exact h.elim
  · exact hf _ _ h

theorem same_fold {α : Type} (f g : RState → α → Option RState) : ∀ (l : List α) (a b : RState), SameR a b →
    (∀ x ∈ l, ∀ a b, SameR a b → SameOpt (f a x) (g b x)) → SameOpt (l.foldlM f a) (l.foldlM g b) := by
  intro l
  induction l with
  | nil => intro a b h _; exact h
  | cons x l ih =>
    intro a b h hf
    simp only [List.foldlM_cons, Option.bind_eq_bind]
    exact (hf x List.mem_cons_self a b h).bind fun c d hcd => ih c d hcd fun y hy => hf y (List.mem_cons_of_mem _ hy)

theorem same_record (s : Nat) (i : Option Nat) (a b : RState) (h : SameR a b) : SameOpt (recordPos s i a) (recordPos s i b) := by
  unfold recordPos
  rw [h.actions]
  split
  · split
    · trivial
    · exact ⟨by simp [h.actions], h.ordered, h.unordered, h.refCount⟩
  · exact ⟨by simp [h.actions], h.ordered, h.unordered, h.refCount⟩

theorem same_resolve {W W' : World} {res : Resolved} (hW : Remembers W W' res) (hraw : NoRawRefs W) (limit : Nat) :
    ∀ (s : Nat) (i : Option Nat) (a b : RState), SameR a b → SameOpt (resolve W limit s i a) (resolve W' limit s i b) := by
  induction limit with
  | zero => intro s i a b _; trivial
  | succ limit ih =>
    intro s i a b h
    unfold resolve
    obtain ⟨e1, e2, e3, -, -⟩ := hW s
    rw [e1, e3]
    split
    · refine (same_fold _ _ _ a b h ?_).bind fun c d hcd => same_record s i c d hcd
      intro r hr a b h
      cases r with
      | other => exact h
      | ref cb rid =>
        cases cb with
        | true => exact h
        | false => exact absurd hr (hraw s rid)
      | obj r =>
        simp only [resolveArg, (hW r).2.1]
        split
        · exact h
        · split
          · trivial
          · simp only [h.refCount, h.actions, h.ordered, h.unordered]
            split
            · exact ih _ _ _ _ ⟨by simp, by simp, by simp, by simp⟩
            · split
              · exact ⟨rfl, rfl, rfl, rfl⟩
              · exact ⟨rfl, rfl, rfl, rfl⟩
    · exact same_record s i a b h

theorem same_phase {W W' : World} {res : Resolved} (hW : Remembers W W' res) (hraw : NoRawRefs W) (limit : Nat) (sp : List Nat) :
    SameOpt (resolvePhase W limit sp) (resolvePhase W' limit sp) := by
  unfold resolvePhase
  refine same_fold _ _ _ _ _ ⟨rfl, rfl, rfl, rfl⟩ ?_
  intro is _ a b h
  unfold resolveTop
  rw [(hW is.2).1, (hW is.2).2.1]
  split
  · exact h
  · have hr := same_resolve hW hraw limit is.2 (some is.1) a b h
    cases h1 : resolve W limit is.2 (some is.1) a <;> cases h2 : resolve W' limit is.2 (some is.1) b <;> rw [h1, h2] at hr
    · trivial
    · exact hr.elim
    · exact hr.elim
    · rename_i x y
      have hr : SameR x y := hr
      simp only [Option.map_some]
      split
      · split <;> split <;> exact ⟨hr.actions, hr.ordered, hr.unordered, hr.refCount⟩
      · exact hr

/-! ### What the second phase keeps -/

/-- From one state of the second phase to a later one. -/
structure Later (a b : DState) : Prop where
  id : ∀ x i, a.refId x = some i → b.refId x = some i
  feat : ∀ x f, a.feature x = some f → b.feature x = some f
  visited : ∀ x ∈ a.visited, x ∈ b.visited
  idVisited : ∀ x ∈ a.visited, b.refId x = a.refId x
  featVisited : ∀ x ∈ a.visited, b.feature x = a.feature x
  idOther : ∀ x, x ∉ b.visited → b.refId x = a.refId x
  featOther : ∀ x, x ∉ b.visited → b.feature x = a.feature x

theorem Later.refl (a : DState) : Later a a := ⟨fun _ _ h => h, fun _ _ h => h, fun _ h => h, fun _ _ => rfl, fun _ _ => rfl, fun _ _ => rfl, fun _ _ => rfl⟩

theorem Later.trans {a b c : DState} (h : Later a b) (k : Later b c) : Later a c where
  id := fun x i hx => k.id x i (h.id x i hx)
  feat := fun x i hx => k.feat x i (h.feat x i hx)
  visited := fun x hx => k.visited x (h.visited x hx)
  idVisited := fun x hx => by rw [k.idVisited x (h.visited x hx), h.idVisited x hx]
  featVisited := fun x hx => by rw [k.featVisited x (h.visited x hx), h.featVisited x hx]
  idOther := fun x hx => by rw [k.idOther x hx, h.idOther x fun hv => hx (k.visited x hv)]
  featOther := fun x hx => by rw [k.featOther x hx, h.featOther x fun hv => hx (k.visited x hv)]

theorem later_fold {α : Type} (f : DState → α → Option DState) : ∀ (l : List α) (a b : DState),
    (∀ x ∈ l, ∀ a b, f a x = some b → Later a b) → l.foldlM f a = some b → Later a b := by
  intro l
  induction l with
  | nil => intro a b _ h; simp only [List.foldlM_nil, Option.pure_def, Option.some.injEq] at h; subst h; exact .refl _
  | cons x l ih =>
    intro a b hf h
    simp only [List.foldlM_cons, Option.bind_eq_bind, Option.bind_eq_some_iff] at h
    obtain ⟨c, h1, h2⟩ := h
    exact (hf x List.mem_cons_self a c h1).trans (ih c b (fun y hy => hf y (List.mem_cons_of_mem _ hy)) h2)

/-- Same ids, features and visited actions. -/
theorem later_of_eq {a b : DState} (h1 : b.refId = a.refId) (h2 : b.visited = a.visited) (h3 : b.feature = a.feature) : Later a b :=
  ⟨fun x i h => by rw [h1]; exact h, fun x i h => by rw [h3]; exact h, fun x h => by rw [h2]; exact h, fun x _ => by rw [h1], fun x _ => by rw [h3], fun x _ => by rw [h1],
    fun x _ => by rw [h3]⟩

theorem later_release (W : World) (a b : DState) (r : RefArg) (h : releaseRef W a r = some b) : Later a b := by
  cases r with
  | other => simp only [releaseRef, Option.some.injEq] at h; subst h; exact .refl _
  | ref c i => simp only [releaseRef, Option.some.injEq] at h; subst h; exact .refl _
  | obj r =>
    simp only [releaseRef] at h
    split at h
    · simp only [Option.some.injEq] at h; subst h; exact .refl _
    · split at h
      · cases h
      · split at h
        · split at h
          · cases h
          · simp only [Option.some.injEq] at h; subst h; exact later_of_eq rfl rfl rfl
        · simp only [Option.some.injEq] at h; subst h; exact later_of_eq rfl rfl rfl

/-- Entering an action: marking it, then giving it an id. -/
def entered (aid feature : Nat) (st : DState) : DState :=
  { st with visited := aid :: st.visited, feature := upd st.feature aid (some feature) }

/-- The part of `dfs` after the id is given. -/
def inside (W : World) (R : RState) (limit aid : Nat) (owner : Option Nat) (feature : Nat) (ai : Option Nat) (st : DState) : Option DState := do
  let own := if ai.isSome then some aid else owner
  let st := if ai.isSome then { st with linked := upd st.linked aid (some []) } else st
  let st ← (R.ordered aid).foldlM (fun st x => dfs W R limit x own feature st) st
  let st ← (R.unordered aid).foldlM (fun st x => dfs W R limit x own feature st) st
  let st ← appendLinked own aid st
  if (W aid).referencing then (W aid).refs.foldlM (releaseRef W) st else some st

theorem dfs_step (W : World) (R : RState) (limit aid : Nat) (owner : Option Nat) (feature : Nat) (st : DState) :
    dfs W R (limit + 1) aid owner feature st =
      match R.actions.lookup aid with
      | none => none
      | some ai =>
        if (st.feature aid).isSome ∧ st.feature aid ≠ some feature then none
        else if aid ∈ st.visited then some st
        else (assignId W aid (entered aid feature st)).bind (inside W R limit aid owner feature ai) := rfl

theorem later_append {owner : Option Nat} {aid : Nat} {a b : DState} (h : appendLinked owner aid a = some b) : Later a b := by
  cases owner with
  | none => simp [appendLinked] at h
  | some o => simp only [appendLinked, Option.some.injEq] at h; subst h; exact later_of_eq rfl rfl rfl

theorem later_enter {W : World} {aid feature : Nat} {a b : DState} (hv : aid ∉ a.visited)
    (hfa : ¬ ((a.feature aid).isSome ∧ a.feature aid ≠ some feature)) (h : assignId W aid (entered aid feature a) = some b) :
    Later a b ∧ b.visited = aid :: a.visited ∧ b.feature aid = some feature := by
  unfold assignId at h
  have hne : ∀ x ∈ a.visited, x ≠ aid := fun x hx e => hv (e ▸ hx)
  have hft : ∀ x f, a.feature x = some f → upd a.feature aid (some feature) x = some f := by
    intro x f hx
    by_cases e : x = aid
    · subst e
      simp only [upd, if_true]
      have : ¬ (a.feature x ≠ some feature) := fun hn => hfa ⟨by rw [hx]; rfl, hn⟩
      rw [← Classical.not_not.1 this, hx]
    · simp [upd, e, hx]
  split at h
  · simp only [Option.some.injEq] at h
    subst h
    refine ⟨⟨fun x i hx => hx, hft, fun x hx => List.mem_cons_of_mem _ hx, fun _ _ => rfl, fun x hx => ?_, fun _ _ => rfl, fun x hx => ?_⟩, rfl, ?_⟩
    · simp [entered, upd, hne x hx]
    · have : x ≠ aid := fun e => hx (by simp [entered, e])
      simp [entered, upd, this]
    · simp [entered, upd]
  · split at h
    · next hid =>
      simp only [Option.map_eq_some_iff] at h
      obtain ⟨p, -, rfl⟩ := h
      have hid : a.refId aid = none := hid
      refine ⟨⟨fun x i hx => ?_, hft, fun x hx => List.mem_cons_of_mem _ hx, fun x hx => ?_, fun x hx => ?_, fun x hx => ?_, fun x hx => ?_⟩, rfl, ?_⟩
      · have : x ≠ aid := fun e => by rw [e, hid] at hx; cases hx
        simp [entered, upd, this, hx]
      · simp [entered, upd, hne x hx]
      · simp [entered, upd, hne x hx]
      · have : x ≠ aid := fun e => hx (by simp [entered, e])
        simp [entered, upd, this]
      · have : x ≠ aid := fun e => hx (by simp [entered, e])
        simp [entered, upd, this]
      · simp [entered, upd]
    · simp only [Option.some.injEq] at h
      subst h
      refine ⟨⟨fun x i hx => hx, hft, fun x hx => List.mem_cons_of_mem _ hx, fun _ _ => rfl, fun x hx => ?_, fun _ _ => rfl, fun x hx => ?_⟩, rfl, ?_⟩
      · simp [entered, upd, hne x hx]
      · have : x ≠ aid := fun e => hx (by simp [entered, e])
        simp [entered, upd, this]
      · simp [entered, upd]

theorem later_dfs (W : World) (R : RState) (limit : Nat) : ∀ (aid : Nat) (owner : Option Nat) (feature : Nat) (a b : DState),
    dfs W R limit aid owner feature a = some b → Later a b := by
  induction limit with
  | zero => intro aid owner feature a b h; simp [dfs] at h
  | succ limit ih =>
    intro aid owner feature a b h
    rw [dfs_step] at h
    split at h
    · cases h
    · split at h
      · cases h
      · next hfa =>
        split at h
        · simp only [Option.some.injEq] at h; subst h; exact .refl _
        · next hv =>
          rw [Option.bind_eq_some_iff] at h
          obtain ⟨c, hc, h⟩ := h
          refine (later_enter hv hfa hc).1.trans ?_
          simp only [inside, Option.bind_eq_bind, Option.bind_eq_some_iff] at h
          obtain ⟨d, hd, e, he, g, hg, h⟩ := h
          have l0 : Later c (if (‹Option Nat›).isSome then { c with linked := upd c.linked aid (some []) } else c) := by
            split
            · exact later_of_eq rfl rfl rfl
            · exact .refl _
          refine l0.trans ((later_fold _ _ _ _ (fun x _ a b => ih x _ _ a b) hd).trans
            ((later_fold _ _ _ _ (fun x _ a b => ih x _ _ a b) he).trans ((later_append hg).trans ?_)))
          split at h
          · exact later_fold _ _ _ _ (fun x _ a b => later_release W a b x) h
          · simp only [Option.some.injEq] at h; subst h; exact .refl _

/-! ### The second phase, twice -/

/-- The ids that can be given: free and not reserved. -/
def Free (st : DState) (i : Int) : Prop := -i ∈ st.ids ∧ i ∉ st.reserved

theorem popId_free (reserved : List Int) : ∀ (n : Nat) (ids r : List Int) (i : Int), ids.Nodup → popId reserved n ids = some (i, r) →
    r.Nodup ∧ ∀ x, (-x ∈ r ∧ x ∉ reserved) ↔ (-x ∈ ids ∧ x ∉ reserved) ∧ x ≠ i := by
  intro n
  induction n with
  | zero => intro ids r i _ h; simp [popId] at h
  | succ n ih =>
    intro ids r i hn h
    simp only [popId] at h
    split at h
    · cases h
    · rename_i m r' hm
      have hp := heappop_perm _ _ _ hm
      have hn' := hp.nodup_iff.1 hn
      rw [List.nodup_cons] at hn'
      split at h
      · next hres =>
        obtain ⟨h1, h2⟩ := ih r' r i hn'.2 h
        refine ⟨h1, fun x => ?_⟩
        rw [h2 x, hp.mem_iff, List.mem_cons]
        constructor
        · rintro ⟨⟨a, b⟩, c⟩; exact ⟨⟨.inr a, b⟩, c⟩
        · rintro ⟨⟨a | a, b⟩, c⟩
          · rw [← a, Int.neg_neg] at hres; exact absurd hres b
          · exact ⟨⟨a, b⟩, c⟩
      · next hres =>
        simp only [Option.some.injEq, Prod.mk.injEq] at h
        obtain ⟨rfl, rfl⟩ := h
        refine ⟨hn'.2, fun x => ?_⟩
        rw [hp.mem_iff, List.mem_cons]
        constructor
        · rintro ⟨a, b⟩
          refine ⟨⟨.inr a, b⟩, fun e => ?_⟩
          rw [e, Int.neg_neg] at a
          exact hn'.1 a
        · rintro ⟨⟨a | a, b⟩, c⟩
          · exact absurd (by omega) c
          · exact ⟨a, b⟩

/-- The highest free id is taken, if there is any. -/
theorem popId_best (st : DState) : (popId st.reserved (st.ids.length + 1) st.ids = none ∧ ∀ i, ¬ Free st i) ∨
    ∃ i r, popId st.reserved (st.ids.length + 1) st.ids = some (i, r) ∧ Free st i ∧ ∀ j, Free st j → j ≤ i := by
  rcases popId_spec st.reserved (st.ids.length + 1) st.ids (by omega) with ⟨h, hn⟩ | ⟨i, r, h, h1, h2, h3, -⟩
  · refine .inl ⟨h, fun i hi => hi.2 ?_⟩
    have := hn _ hi.1
    rwa [Int.neg_neg] at this
  · refine .inr ⟨i, r, h, ⟨h1, h2⟩, fun j hj => ?_⟩
    have := h3 _ hj.1 (by rw [Int.neg_neg]; exact hj.2)
    rwa [Int.neg_neg] at this

/-- The states of the two second phases at the same moment. `W'` is the store of the second one. -/
structure Twin (W W' : World) (a b : DState) : Prop where
  linked : b.linked = a.linked
  visited : b.visited = a.visited
  refCount : b.refCount = a.refCount
  id : ∀ x ∈ a.visited, b.refId x = a.refId x
  feature : ∀ x ∈ a.visited, b.feature x = a.feature x
  idA : ∀ x, x ∉ a.visited → a.refId x = (W x).refId
  idB : ∀ x, x ∉ a.visited → b.refId x = (W' x).refId
  featA : ∀ x, x ∉ a.visited → a.feature x = (W x).feature
  featB : ∀ x, x ∉ a.visited → b.feature x = (W' x).feature
  nodupA : a.ids.Nodup
  nodupB : b.ids.Nodup
  free : ∀ i, Free b i ↔ Free a i

variable {W W' : World} {res : Resolved}

/-- What is known of the later states: ids and features of visited actions are the final ones, as are the ids set by the user. -/
structure Ends (W : World) (res : Resolved) (a : DState) : Prop where
  id : ∀ x ∈ a.visited, a.refId x = res.refId x
  feature : ∀ x ∈ a.visited, a.feature x = res.feature x
  kept : ∀ x i, (W x).refId = some i → res.refId x = some i

theorem Ends.before {a b : DState} (h : Later a b) (e : Ends W res b) : Ends W res a where
  id := fun x hx => by rw [← h.idVisited x hx]; exact e.id x (h.visited x hx)
  feature := fun x hx => by rw [← h.featVisited x hx]; exact e.feature x (h.visited x hx)
  kept := e.kept

theorem twin_id (hW : Remembers W W' res) {a b : DState} (t : Twin W W' a b) (e : Ends W res a) (x : Nat) (i : Int)
    (h : a.refId x = some i) : b.refId x = some i := by
  by_cases hv : x ∈ a.visited
  · rw [t.id x hv]; exact h
  · rw [t.idA x hv] at h
    rw [t.idB x hv]
    rcases (hW x).2.2.2.1 with h1 | h1
    · rw [h1]; exact h
    · rw [h1]; exact e.kept x i h

theorem twin_release (hW : Remembers W W' res) {a b a2 : DState} (t : Twin W W' a b) (e : Ends W res a) (r : RefArg)
    (h : releaseRef W a r = some a2) : ∃ b2, releaseRef W' b r = some b2 ∧ Twin W W' a2 b2 := by
  cases r with
  | other => simp only [releaseRef, Option.some.injEq] at h; subst h; exact ⟨b, rfl, t⟩
  | ref c i => simp only [releaseRef, Option.some.injEq] at h; subst h; exact ⟨b, rfl, t⟩
  | obj r =>
    simp only [releaseRef, (hW r).2.1, t.refCount] at h ⊢
    split at h
    · next hr => simp only [Option.some.injEq] at h; subst h; exact ⟨b, by rw [if_pos hr], t⟩
    · next hr =>
      rw [if_neg hr]
      split at h
      · cases h
      · next h0 =>
        rw [if_neg h0]
        split at h
        · next h1 =>
          rw [if_pos h1]
          split at h
          · cases h
          · next rid hid =>
            simp only [Option.some.injEq] at h
            subst h
            have hid' : b.refId r = some rid := twin_id hW t e r rid hid
            simp only [hid']
            refine ⟨_, rfl, ⟨t.linked, t.visited, by simp, t.id, t.feature, t.idA, t.idB, t.featA, t.featB, ?_, ?_, ?_⟩⟩
            · show (if -rid ∈ a.ids then a.ids else -rid :: a.ids).Nodup
              split
              · exact t.nodupA
              · next hm => exact List.nodup_cons.2 ⟨hm, t.nodupA⟩
            · show (if -rid ∈ b.ids then b.ids else -rid :: b.ids).Nodup
              split
              · exact t.nodupB
              · next hm => exact List.nodup_cons.2 ⟨hm, t.nodupB⟩
            · have gen : ∀ (ids reserved : List Int) (i : Int),
                  (-i ∈ (if -rid ∈ ids then ids else -rid :: ids) ∧ i ∉ reserved.filter (· ≠ rid)) ↔
                    (-i ∈ ids ∧ i ∉ reserved) ∨ i = rid := by
                intro ids reserved i
                have e1 : -i ∈ (if -rid ∈ ids then ids else -rid :: ids) ↔ -i ∈ ids ∨ i = rid := by
                  split
                  · next hm =>
                    constructor
                    · exact .inl
                    · rintro (h | rfl)
                      · exact h
                      · exact hm
                  · rw [List.mem_cons]
                    constructor
                    · rintro (h | h)
                      · exact .inr (by omega)
                      · exact .inl h
                    · rintro (h | rfl)
                      · exact .inr h
                      · exact .inl rfl
                have e2 : i ∉ reserved.filter (· ≠ rid) ↔ i ∉ reserved ∨ i = rid := by
                  rw [List.mem_filter]
                  by_cases he : i = rid
                  · simp [he]
                  · simp [he]
                rw [e1, e2]
                by_cases he : i = rid <;> simp [he]
              intro i
              have k := t.free i
              unfold Free at k ⊢
              rw [gen b.ids b.reserved i, gen a.ids a.reserved i, k]
        · next h1 =>
          rw [if_neg h1]
          simp only [Option.some.injEq] at h
          subst h
          exact ⟨_, rfl, ⟨t.linked, t.visited, by simp, t.id, t.feature, t.idA, t.idB, t.featA, t.featB, t.nodupA, t.nodupB, t.free⟩⟩

theorem twin_fold {α : Type} (f g : DState → α → Option DState) : ∀ (l : List α) (a b a2 : DState),
    (∀ x ∈ l, ∀ a a2, f a x = some a2 → Later a a2) →
    (∀ x ∈ l, ∀ a b a2, Twin W W' a b → Ends W res a2 → f a x = some a2 → ∃ b2, g b x = some b2 ∧ Twin W W' a2 b2) →
    Twin W W' a b → Ends W res a2 → l.foldlM f a = some a2 → ∃ b2, l.foldlM g b = some b2 ∧ Twin W W' a2 b2 := by
  intro l
  induction l with
  | nil => intro a b a2 _ _ t _ h; simp only [List.foldlM_nil, Option.pure_def, Option.some.injEq] at h; subst h; exact ⟨b, rfl, t⟩
  | cons x l ih =>
    intro a b a2 hl hf t e h
    simp only [List.foldlM_cons, Option.bind_eq_bind, Option.bind_eq_some_iff] at h
    obtain ⟨c, h1, h2⟩ := h
    have hl' : ∀ y ∈ l, ∀ a a2, f a y = some a2 → Later a a2 := fun y hy => hl y (List.mem_cons_of_mem _ hy)
    have lc : Later c a2 := later_fold f l c a2 hl' h2
    obtain ⟨d, hd, td⟩ := hf x List.mem_cons_self a b c t (e.before lc) h1
    obtain ⟨b2, hb, tb⟩ := ih c d a2 hl' (fun y hy => hf y (List.mem_cons_of_mem _ hy)) td e h2
    exact ⟨b2, by simp only [List.foldlM_cons, Option.bind_eq_bind, hd, Option.bind_some, hb], tb⟩

theorem twin_enter (hW : Remembers W W' res) {a b c : DState} {aid feature : Nat} (t : Twin W W' a b) (hv : aid ∉ a.visited)
    (hc : assignId W aid (entered aid feature a) = some c) (e : Ends W res c) :
    ∃ d, assignId W' aid (entered aid feature b) = some d ∧ Twin W W' c d := by
  have hvis : ∀ x, x ∈ aid :: a.visited ↔ x = aid ∨ x ∈ a.visited := fun x => List.mem_cons
  have tb : ∀ x, x ∉ aid :: a.visited → x ≠ aid ∧ x ∉ a.visited := fun x hx => ⟨fun e => hx (by simp [e]), fun h => hx (by simp [h])⟩
  -- the parts that do not depend on the ids
  have fin : ∀ (c d : DState), c.linked = a.linked → d.linked = b.linked → c.visited = aid :: a.visited → d.visited = aid :: b.visited →
      c.refCount = a.refCount → d.refCount = b.refCount →
      c.feature = upd a.feature aid (some feature) → d.feature = upd b.feature aid (some feature) →
      (∀ x, x ≠ aid → c.refId x = a.refId x) → (∀ x, x ≠ aid → d.refId x = b.refId x) → d.refId aid = c.refId aid →
      c.ids.Nodup → d.ids.Nodup → (∀ i, Free d i ↔ Free c i) → Twin W W' c d := by
    intro c d h1 h2 h3 h4 h5 h6 h7 h8 h9 h10 h11 h12 h13 h14
    refine ⟨by rw [h1, h2, t.linked], by rw [h3, h4, t.visited], by rw [h5, h6, t.refCount], ?_, ?_, ?_, ?_, ?_, ?_, h12, h13, h14⟩
    · intro x hx
      rw [h3, hvis] at hx
      by_cases hxa : x = aid
      · rw [hxa, h11]
      · rw [h9 x hxa, h10 x hxa]
        exact t.id x (hx.resolve_left hxa)
    · intro x hx
      rw [h3, hvis] at hx
      rw [h7, h8]
      by_cases hxa : x = aid
      · simp [upd, hxa]
      · simp only [upd, hxa, if_false]
        exact t.feature x (hx.resolve_left hxa)
    · intro x hx
      rw [h3] at hx
      obtain ⟨hxa, hxv⟩ := tb x hx
      rw [h9 x hxa]; exact t.idA x hxv
    · intro x hx
      rw [h3] at hx
      obtain ⟨hxa, hxv⟩ := tb x hx
      rw [h10 x hxa]; exact t.idB x hxv
    · intro x hx
      rw [h3] at hx
      obtain ⟨hxa, hxv⟩ := tb x hx
      rw [h7]; simp only [upd, hxa, if_false]; exact t.featA x hxv
    · intro x hx
      rw [h3] at hx
      obtain ⟨hxa, hxv⟩ := tb x hx
      rw [h8]; simp only [upd, hxa, if_false]; exact t.featB x hxv
  have hWa := hW aid
  have ha : a.refId aid = (W aid).refId := t.idA aid hv
  have hb : b.refId aid = (W' aid).refId := t.idB aid hv
  unfold assignId at hc ⊢
  rw [hWa.2.1]
  split at hc
  · next hr =>
    rw [if_pos hr]
    simp only [Option.some.injEq] at hc
    subst hc
    refine ⟨_, rfl, fin _ _ rfl rfl rfl rfl rfl rfl rfl rfl (fun _ _ => rfl) (fun _ _ => rfl) ?_ t.nodupA t.nodupB t.free⟩
    show b.refId aid = a.refId aid
    have he : a.refId aid = res.refId aid := e.id aid (by simp [entered])
    rcases hWa.2.2.2.1 with h | h
    · rw [hb, h, ha]
    · rw [hb, h, he]
  · next hr =>
    rw [if_neg hr]
    split at hc
    · next hid =>
      have hid : a.refId aid = none := hid
      simp only [Option.map_eq_some_iff] at hc
      obtain ⟨p, hp, rfl⟩ := hc
      obtain ⟨i, r⟩ := p
      have hp : popId a.reserved (a.ids.length + 1) a.ids = some (i, r) := hp
      obtain ⟨hnr, hfr⟩ := popId_free _ _ _ _ _ t.nodupA hp
      have hfin : res.refId aid = some i := by
        have := e.id aid (by simp [entered])
        simp only [upd, if_true] at this
        exact this.symm
      have hbest : Free a i ∧ ∀ j, Free a j → j ≤ i := by
        rcases popId_best a with ⟨h0, -⟩ | ⟨i', r', h0, h1, h2⟩
        · rw [hp] at h0; cases h0
        · rw [hp] at h0
          simp only [Option.some.injEq, Prod.mk.injEq] at h0
          obtain ⟨rfl, rfl⟩ := h0
          exact ⟨h1, h2⟩
      cases hWb : (W' aid).refId with
      | none =>
        -- a new id is taken again: the same one
        have hbn : (entered aid feature b).refId aid = none := by show b.refId aid = none; rw [hb, hWb]
        simp only [hbn]
        obtain ⟨r', hp', -⟩ : ∃ r', popId b.reserved (b.ids.length + 1) b.ids = some (i, r') ∧ True := by
          rcases popId_best b with ⟨-, hno⟩ | ⟨i', r', h0, h1, h2⟩
          · exact absurd ((t.free i).2 hbest.1) (hno i)
          · have : i' = i := by
              have q1 := hbest.2 i' ((t.free i').1 h1)
              have q2 := h2 i ((t.free i).2 hbest.1)
              omega
            exact ⟨r', by rw [h0, this], trivial⟩
        obtain ⟨hnr', hfr'⟩ := popId_free _ _ _ _ _ t.nodupB hp'
        have hp'' : popId (entered aid feature b).reserved ((entered aid feature b).ids.length + 1) (entered aid feature b).ids = some (i, r') := hp'
        refine ⟨{ entered aid feature b with ids := r', refId := upd b.refId aid (some i) }, by rw [hp'']; rfl, fin _ _ rfl rfl rfl rfl rfl rfl rfl rfl (fun x hx => by simp [upd, hx, entered])
          (fun x hx => by simp [upd, hx, entered]) (by simp [upd]) hnr hnr' ?_⟩
        intro j
        have q1 := hfr j
        have q2 := hfr' j
        have q3 := t.free j
        unfold Free at q3
        show (-j ∈ r' ∧ j ∉ b.reserved) ↔ (-j ∈ r ∧ j ∉ a.reserved)
        rw [q1, q2, q3]
      | some k =>
        -- the id is remembered
        have hk : k = i := by
          rcases hWa.2.2.2.1 with h | h
          · rw [hWb, ← ha, hid] at h; cases h
          · rw [hWb, hfin] at h; exact Option.some.inj h
        subst hk
        have hbn : (entered aid feature b).refId aid = some k := by show b.refId aid = some k; rw [hb, hWb]
        simp only [hbn]
        refine ⟨_, rfl, fin _ _ rfl rfl rfl rfl rfl rfl rfl rfl (fun x hx => by simp [upd, hx, entered])
          (fun x hx => rfl) (by show b.refId aid = _; simp [upd, hb, hWb]) hnr t.nodupB ?_⟩
        intro j
        have q1 := hfr j
        have q3 := t.free j
        unfold Free at q3
        show (-j ∈ b.ids ∧ j ∉ k :: b.reserved) ↔ (-j ∈ r ∧ j ∉ a.reserved)
        rw [q1, ← q3, List.mem_cons, not_or]
        constructor
        · rintro ⟨x, y, z⟩; exact ⟨⟨x, z⟩, y⟩
        · rintro ⟨⟨x, z⟩, y⟩; exact ⟨x, y, z⟩
    · next rid hid =>
      have hid : a.refId aid = some rid := hid
      simp only [Option.some.injEq] at hc
      subst hc
      have hbn : (entered aid feature b).refId aid = some rid := by
        show b.refId aid = some rid
        rw [hb]
        rcases hWa.2.2.2.1 with h | h
        · rw [h, ← ha, hid]
        · rw [h]; exact e.kept aid rid (by rw [← ha, hid])
      simp only [hbn]
      refine ⟨_, rfl, fin _ _ rfl rfl rfl rfl rfl rfl rfl rfl (fun x hx => rfl) (fun x hx => rfl) (by show b.refId aid = a.refId aid; rw [hid]; exact hbn)
        t.nodupA t.nodupB ?_⟩
      intro j
      have q3 := t.free j
      unfold Free at q3
      show (-j ∈ b.ids ∧ j ∉ rid :: b.reserved) ↔ (-j ∈ a.ids ∧ j ∉ rid :: a.reserved)
      simp only [List.mem_cons, not_or]
      constructor
      · rintro ⟨x, y, z⟩; exact ⟨(q3.1 ⟨x, z⟩).1, y, (q3.1 ⟨x, z⟩).2⟩
      · rintro ⟨x, y, z⟩; exact ⟨(q3.2 ⟨x, z⟩).1, y, (q3.2 ⟨x, z⟩).2⟩

theorem twin_dfs (hW : Remembers W W' res) {R R' : RState} (hR : SameR R R') (limit : Nat) :
    ∀ (aid : Nat) (owner : Option Nat) (feature : Nat) (a b a2 : DState), Twin W W' a b → Ends W res a2 →
      dfs W R limit aid owner feature a = some a2 → ∃ b2, dfs W' R' limit aid owner feature b = some b2 ∧ Twin W W' a2 b2 := by
  induction limit with
  | zero => intro aid owner feature a b a2 _ _ h; simp [dfs] at h
  | succ limit ih =>
    intro aid owner feature a b a2 t e h
    have hl := later_dfs W R (limit + 1) aid owner feature a a2 h
    rw [dfs_step] at h ⊢
    rw [hR.actions]
    split at h
    · cases h
    · next ai hai =>
      split at h
      · cases h
      · next hfa =>
        by_cases hv : aid ∈ a.visited
        · rw [if_pos hv] at h
          simp only [Option.some.injEq] at h
          subst h
          rw [t.feature aid hv, if_neg hfa, t.visited, if_pos hv]
          exact ⟨b, rfl, t⟩
        · rw [if_neg hv] at h
          rw [Option.bind_eq_some_iff] at h
          obtain ⟨c, hc, h⟩ := h
          simp only [inside, Option.bind_eq_bind, Option.bind_eq_some_iff] at h
          obtain ⟨d, hd, f, hf, g, hg, h⟩ := h
          obtain ⟨lc, hcv, hcf⟩ := later_enter hv hfa hc
          have l0 : Later c (if ai.isSome then { c with linked := upd c.linked aid (some []) } else c) := by
            split
            · exact later_of_eq rfl rfl rfl
            · exact .refl _
          have lg : Later g a2 := by
            split at h
            · exact later_fold _ _ _ _ (fun x _ a b => later_release W a b x) h
            · simp only [Option.some.injEq] at h; subst h; exact .refl _
          have lfg := later_append hg
          have ldf := later_fold _ _ _ _ (fun x _ a b => later_dfs W R limit x _ _ a b) hf
          have l1d := later_fold _ _ _ _ (fun x _ a b => later_dfs W R limit x _ _ a b) hd
          have eg := e.before lg
          have ef := eg.before lfg
          have ed := ef.before ldf
          have ec := (ed.before l1d).before l0
          -- the feature is accepted again
          have hfb : ¬ ((b.feature aid).isSome ∧ b.feature aid ≠ some feature) := by
            rw [t.featB aid hv]
            rcases (hW aid).2.2.2.2 with h1 | h1
            · rw [h1, ← t.featA aid hv]; exact hfa
            · have : res.feature aid = some feature := by rw [← ec.feature aid (by rw [hcv]; simp), hcf]
              rw [h1, this]; simp
          rw [if_neg hfb, t.visited, if_neg hv]
          obtain ⟨c', hc', tc⟩ := twin_enter hW t hv hc ec
          simp only [hc', Option.bind_some]
          have t1 : Twin W W' (if ai.isSome then { c with linked := upd c.linked aid (some []) } else c)
              (if ai.isSome then { c' with linked := upd c'.linked aid (some []) } else c') := by
            split
            · exact ⟨by simp [tc.linked], tc.visited, tc.refCount, tc.id, tc.feature, tc.idA, tc.idB, tc.featA, tc.featB, tc.nodupA, tc.nodupB, tc.free⟩
            · exact tc
          obtain ⟨d', hd', td⟩ := twin_fold _ (fun st x => dfs W' R' limit x (if ai.isSome then some aid else owner) feature st) _ _ _ _
            (fun x _ a b => later_dfs W R limit x _ _ a b) (fun x _ a b a2 t e h => ih x _ _ a b a2 t e h) t1 ed hd
          obtain ⟨f', hf', tf⟩ := twin_fold _ (fun st x => dfs W' R' limit x (if ai.isSome then some aid else owner) feature st) _ _ _ _
            (fun x _ a b => later_dfs W R limit x _ _ a b) (fun x _ a b a2 t e h => ih x _ _ a b a2 t e h) td ef hf
          obtain ⟨g', hg', tg⟩ : ∃ g', appendLinked (if ai.isSome then some aid else owner) aid f' = some g' ∧ Twin W W' g g' := by
            revert hg
            generalize (if ai.isSome then some aid else owner) = own
            intro hg
            cases own with
            | none => simp [appendLinked] at hg
            | some o =>
              simp only [appendLinked, Option.some.injEq] at hg ⊢
              subst hg
              exact ⟨_, rfl, ⟨by simp [tf.linked], tf.visited, tf.refCount, tf.id, tf.feature, tf.idA, tf.idB, tf.featA, tf.featB, tf.nodupA, tf.nodupB, tf.free⟩⟩
          have last : ∃ b2, (if (W aid).referencing then (W aid).refs.foldlM (releaseRef W') g' else some g') = some b2 ∧ Twin W W' a2 b2 := by
            split at h
            · next hr =>
              rw [if_pos hr]
              exact twin_fold _ (releaseRef W') _ _ _ _ (fun x _ a b => later_release W a b x)
                (fun x _ a b a2 t e h => twin_release hW t (e.before (later_release W a a2 x h)) x h) tg e h
            · next hr =>
              rw [if_neg hr]
              simp only [Option.some.injEq] at h
              subst h
              exact ⟨g', rfl, tg⟩
          obtain ⟨b2, hb2, tb2⟩ := last
          refine ⟨b2, ?_, tb2⟩
          simp only [inside, Option.bind_eq_bind, hR.ordered, hR.unordered, (hW aid).1, (hW aid).2.2.1]
          rw [hd']
          simp only [Option.bind_some]
          rw [hf']
          simp only [Option.bind_some]
          rw [hg']
          simp only [Option.bind_some]
          exact hb2

/-- **C86** Writing again gives the same file: the same actions in the same order with the same ids and features, whichever of the objects
remember what they got the first time. -/
theorem write_again (W W' : World) (limit : Nat) (sprites : List Nat) (res : Resolved) (hraw : NoRawRefs W)
    (h : resolveRefs W limit sprites = some res) (hW : Remembers W W' res) : resolveRefs W' limit sprites = some res := by
  have hW0 := hW
  unfold resolveRefs at h ⊢
  simp only [Option.bind_eq_bind, Option.bind_eq_some_iff, Option.some.injEq] at h
  obtain ⟨R, hR, D, hD, rfl⟩ := h
  have hs := same_phase hW hraw limit sprites
  rw [hR] at hs
  cases hR' : resolvePhase W' limit sprites with
  | none => rw [hR'] at hs; exact hs.elim
  | some R' =>
    rw [hR'] at hs
    have hs : SameR R R' := hs
    have hl : ∀ x ∈ roots R, ∀ a a2, dfsRoot W R limit a x = some a2 → Later a a2 := by
      intro x _ a a2 h
      unfold dfsRoot at h
      split at h
      · cases h
      · exact later_dfs W R limit _ _ _ _ _ h
    have lD := later_fold _ _ _ _ hl hD
    have e : Ends W { out := assemble W D sprites, refId := D.refId, feature := D.feature } D :=
      ⟨fun _ _ => rfl, fun _ _ => rfl, fun x i hx => lD.id x i hx⟩
    have t0 : Twin W W' (dfsInit W R) (dfsInit W' R') := by
      refine ⟨rfl, rfl, hs.refCount, by simp [dfsInit], by simp [dfsInit], fun _ _ => rfl, fun _ _ => rfl, fun _ _ => rfl, fun _ _ => rfl,
        initialIds_nodup, initialIds_nodup, fun _ => Iff.rfl⟩
    have hroots : roots R' = roots R := by unfold roots; rw [hs.actions, hs.refCount]
    obtain ⟨D', hD', t⟩ := twin_fold _ (dfsRoot W' R' limit) _ _ _ _ hl (fun x hx a b a2 t e h => by
      unfold dfsRoot at h ⊢
      cases hf : (W x).feature with
      | none => rw [hf] at h; cases h
      | some f =>
        rw [hf] at h
        have hfx : (W' x).feature = some f := by
          rcases (hW x).2.2.2.2 with h1 | h1
          · rw [h1, hf]
          · rw [h1]; exact lD.feat x f hf
        rw [hfx]
        exact twin_dfs hW hs limit x none f a b a2 t e h) t0 e hD
    simp only [Option.bind_eq_bind, Option.bind_some, hroots]
    rw [hD']
    simp only [Option.bind_some]
    congr 1
    have e1 : assemble W' D' sprites = assemble W D sprites := by
      unfold assemble
      congr 1
      funext s
      rw [(hW s).1, t.linked]
    have e2 : D'.refId = D.refId := by
      funext x
      by_cases hv : x ∈ D.visited
      · exact t.id x hv
      · rw [t.idB x hv]
        rcases (hW x).2.2.2.1 with h1 | h1
        · rw [h1, t.idA x hv]
        · exact h1
    have e3 : D'.feature = D.feature := by
      funext x
      by_cases hv : x ∈ D.visited
      · exact t.feature x hv
      · rw [t.featB x hv]
        rcases (hW x).2.2.2.2 with h1 | h1
        · rw [h1, t.featA x hv]
        · exact h1
    rw [e1, e2, e3]

/-- Writing the same objects again, all of which remember their ids and features. -/
theorem write_twice (W : World) (limit : Nat) (sprites : List Nat) (res : Resolved) (hraw : NoRawRefs W)
    (h : resolveRefs W limit sprites = some res) :
    resolveRefs (fun n => { W n with refId := res.refId n, feature := res.feature n }) limit sprites = some res :=
  write_again W _ limit sprites res hraw h fun _ => ⟨rfl, rfl, rfl, .inr rfl, .inr rfl⟩

/-- A third write, and any number of further ones: after `k` writes of the same objects the file is the first one. -/
theorem write_repeatedly (W : World) (limit : Nat) (sprites : List Nat) (res : Resolved) (hraw : NoRawRefs W)
    (h : resolveRefs W limit sprites = some res) (Ws : Nat → World) (h0 : Ws 0 = W)
    (hs : ∀ k r, resolveRefs (Ws k) limit sprites = some r → Remembers (Ws k) (Ws (k + 1)) r) :
    ∀ k, resolveRefs (Ws k) limit sprites = some res := by
  have key : ∀ k, resolveRefs (Ws k) limit sprites = some res ∧ NoRawRefs (Ws k) := by
    intro k
    induction k with
    | zero => rw [h0]; exact ⟨h, hraw⟩
    | succ k ih =>
      have hr := hs k res ih.1
      refine ⟨write_again _ _ _ _ _ ih.2 ih.1 hr, fun a rid hm => ih.2 a rid ?_⟩
      rw [← (hr a).2.2.1]
      exact hm
  exact fun k => (key k).1

/-! ### Non-vacuity and the conditions -/

/-- A switch with two results, one of them shared with the action 3 that uses the switch, then another action 3 that reuses ids. -/
def againWorld : World :=
  worldOf [leafAct, leafAct, swAct [.obj 0, .obj 1], mapAct [.obj 2, .obj 0], leafAct, mapAct [.obj 4]]

theorem againWorld_noRaw : NoRawRefs againWorld := by
  intro a rid h
  by_cases ha : a < 6
  · match a, ha with
    | 0, _ | 1, _ | 4, _ => simp [againWorld, worldOf, leafAct] at h
    | 2, _ => simp [againWorld, worldOf, swAct] at h
    | 3, _ | 5, _ => simp [againWorld, worldOf, mapAct] at h
  · rw [show againWorld a = {} from worldOf_out (by show 6 ≤ a; omega)] at h
    simp at h

/-- The first write of it: ids are given to four objects, and id 255 is used twice. -/
example : (resolveRefs againWorld 100 [3, 5]).map (fun r => (r.out, (List.range 6).map r.refId)) =
    some ([0, 1, 2, 3, 4, 5], [some 255, some 253, some 254, none, some 255, none]) := by decide +kernel

example : ∃ res, resolveRefs againWorld 100 [3, 5] = some res ∧ res.refId 4 = some 255 ∧
    resolveRefs (fun n => if n = 2 then againWorld n else { againWorld n with refId := res.refId n, feature := res.feature n }) 100 [3, 5] = some res := by
  cases h : resolveRefs againWorld 100 [3, 5] with
  | none => exact absurd (show (resolveRefs againWorld 100 [3, 5]).isSome = true by decide +kernel) (by simp [h])
  | some res =>
    refine ⟨res, rfl, ?_, write_again _ _ _ _ _ againWorld_noRaw h fun n => ?_⟩
    · have : (resolveRefs againWorld 100 [3, 5]).bind (·.refId 4) = some 255 := by decide +kernel
      rw [h] at this
      exact this
    · by_cases e : n = 2
      · simp [e]
      · simp [e]

/-- The graph must be the same: object 0 got the id 255 in a file where an action 3 uses it. Written in another file after a new object it
keeps this id, which the new object gets as well, although one action uses both. -/
theorem remembered_ids_clash :
    (resolveRefs (worldOf [leafAct, mapAct [.obj 0]]) 100 [1]).bind (·.refId 0) = some 255 ∧
    (resolveRefs (worldOf [leafAct (some 255), {}, leafAct, mapAct [.obj 2, .obj 0]]) 100 [3]).map (fun r => (r.out, r.refId 2, r.refId 0)) =
      some ([2, 0, 3], some 255, some 255) := by
  exact ⟨by decide +kernel, by decide +kernel⟩

/-- Raw `Ref`s must be absent: object 0 gets the id 255 that a `Ref` names. In the second write the `Ref` counts as a use of it, and an
object made again gets another id. -/
theorem raw_refs_change_the_second_write :
    (resolveRefs (worldOf [leafAct, mapAct [.ref false 255, .obj 0], leafAct, mapAct [.obj 2]]) 100 [0, 1, 3]).map
      (fun r => (r.refId 0, r.refId 2)) = some (some 255, some 255) ∧
    (resolveRefs (worldOf [leafAct (some 255), mapAct [.ref false 255, .obj 0], leafAct, mapAct [.obj 2]]) 100 [0, 1, 3]).map
      (fun r => (r.refId 0, r.refId 2)) = some (some 255, some 254) := by
  exact ⟨by decide +kernel, by decide +kernel⟩

end Grf
