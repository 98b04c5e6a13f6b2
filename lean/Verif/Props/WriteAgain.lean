import Verif.Props.Strings
/-!
# C86: writing again (sounds and texts)

The sound table and the tables of texts stay in the GRF object after a write; a later write evaluates the generators again.
-/
namespace Grf.Sounds

/-! ### Sounds -/

/-- A sound that has an id is found in the table: adding it again changes nothing. -/
theorem add_known {fp : Nat → Nat} {st : St} {s i : Nat} (I : Inv fp st) (h : st.ids s = some i) : addSound fp st s = some st := by
  obtain ⟨k, r, rfl, hk⟩ := I.known s i h
  have hl : st.sounds.lookup (fp s) = some r := by
    have hn := I.keys
    have : ∀ (d : List (Nat × Nat)), (d.map (·.1)).Nodup → d[k]? = some (fp s, r) → d.lookup (fp s) = some r := by
      clear hk hn h
      induction k with
      | zero =>
        intro d _ hd
        cases d with
        | nil => simp at hd
        | cons p d =>
          simp only [List.getElem?_cons_zero, Option.some.injEq] at hd
          subst hd
          simp [List.lookup]
      | succ k ih =>
        intro d hn hd
        cases d with
        | nil => simp at hd
        | cons p d =>
          obtain ⟨a, b⟩ := p
          simp only [List.map_cons, List.nodup_cons] at hn
          simp only [List.getElem?_cons_succ] at hd
          have hm : fp s ∈ d.map (·.1) := List.mem_map.2 ⟨_, List.mem_of_getElem? hd, rfl⟩
          have hne : (fp s == a) = false := by
            simp only [beq_eq_false_iff_ne, ne_eq]
            rintro rfl
            exact hn.1 hm
          simp only [List.lookup, hne]
          exact ih d hn.2 hd
    exact this _ hn hk
  unfold addSound
  rw [hl]
  have hr := (I.table k (fp s) r hk).2
  simp only [Option.some.injEq]
  have : upd st.ids s (st.ids r) = st.ids := by
    funext x
    unfold upd
    split
    · next e => rw [e, hr, h]
    · rfl
  rw [this]

/-- Everything with an id in `a` has it in `b`. -/
def Knows (a b : St) : Prop := ∀ t i, a.ids t = some i → b.ids t = some i

theorem again_add {fp : Nat → Nat} {l l' : List Entry} {st st' : St} {i : Item} (I : Inv fp st) (h : add fp l st i = some (l', st')) :
    Inv fp st' ∧ Knows st st' ∧ ∀ st2, Inv fp st2 → Knows st' st2 → add fp l st2 i = some (l', st2) := by
  cases i with
  | sound s =>
    simp only [add, Option.map_eq_some_iff, Prod.mk.injEq] at h
    obtain ⟨st1, h1, rfl, rfl⟩ := h
    obtain ⟨a, ⟨i, b⟩, c, -⟩ := inv_add I h1
    refine ⟨a, c, fun st2 I2 k => ?_⟩
    simp only [add, add_known I2 (k s i b), Option.map_some]
  | soundAction s => simp [add] at h
  | resourceAction r | resource r | action r =>
    simp only [add, Option.some.injEq, Prod.mk.injEq] at h
    obtain ⟨rfl, rfl⟩ := h
    exact ⟨I, fun _ _ h => h, fun _ _ _ => rfl⟩

mutual
theorem again_one {fp : Nat → Nat} : ∀ (g : Gen) {l l' : List Entry} {st st' : St}, Inv fp st → runOne fp l st g = some (l', st') →
    Inv fp st' ∧ Knows st st' ∧ ∀ st2, Inv fp st2 → Knows st' st2 → runOne fp l st2 g = some (l', st2)
  | .item _, _, _, _, _, I, h => again_add I h
  | .gen g, _, _, _, _, I, h => again_list g I h

theorem again_list {fp : Nat → Nat} : ∀ (gs : List Gen) {l l' : List Entry} {st st' : St}, Inv fp st → runList fp l st gs = some (l', st') →
    Inv fp st' ∧ Knows st st' ∧ ∀ st2, Inv fp st2 → Knows st' st2 → runList fp l st2 gs = some (l', st2)
  | [], l, l', st, st', I, h => by
    simp only [runList, Option.some.injEq, Prod.mk.injEq] at h
    obtain ⟨rfl, rfl⟩ := h
    exact ⟨I, fun _ _ h => h, fun _ _ _ => rfl⟩
  | g :: gs, l, l', st, st', I, h => by
    simp only [runList] at h
    cases h1 : runOne fp l st g with
    | none => rw [h1] at h; cases h
    | some p =>
      obtain ⟨l1, st1⟩ := p
      rw [h1] at h
      obtain ⟨I1, k1, a1⟩ := again_one g I h1
      obtain ⟨I2, k2, a2⟩ := again_list gs I1 h
      refine ⟨I2, fun t i ht => k2 t i (k1 t i ht), fun st2 J k => ?_⟩
      simp only [runList]
      rw [a1 st2 J (fun t i ht => k t i (k2 t i ht))]
      exact a2 st2 J k
end

theorem again_generate {fp : Nat → Nat} : ∀ (ts : List Top) {l l' : List Entry} {st st' : St}, Inv fp st →
    generate fp l st ts = some (l', st') →
    Inv fp st' ∧ Knows st st' ∧ ∀ st2, Inv fp st2 → Knows st' st2 → generate fp l st2 ts = some (l', st2) := by
  intro ts
  induction ts with
  | nil =>
    intro l l' st st' I h
    simp only [generate, Option.some.injEq, Prod.mk.injEq] at h
    obtain ⟨rfl, rfl⟩ := h
    exact ⟨I, fun _ _ h => h, fun _ _ _ => rfl⟩
  | cons t ts ih =>
    intro l l' st st' I h
    cases t with
    | entry e => exact ih I h
    | gen g =>
      simp only [generate] at h
      cases h1 : runList fp l st g with
      | none => rw [h1] at h; cases h
      | some p =>
        obtain ⟨l1, st1⟩ := p
        rw [h1] at h
        obtain ⟨I1, k1, a1⟩ := again_list g I h1
        obtain ⟨I2, k2, a2⟩ := ih I1 h
        refine ⟨I2, fun t i ht => k2 t i (k1 t i ht), fun st2 J k => ?_⟩
        simp only [generate]
        rw [a1 st2 J (fun t i ht => k t i (k2 t i ht))]
        exact a2 st2 J k

theorem inv_adds {fp : Nat → Nat} (adds : List Nat) : Inv fp (addMany fp {} adds) := (inv_many adds _ (inv_init fp)).1

/-- **C86** (sounds). After any additions of sounds, when the list of a file has been made once, making it again, after further additions
`more` that take place in between, gives the same list, and the sound table, with the ids of all sounds, is not changed by it. -/
theorem generate_again (fp : Nat → Nat) (adds more : List Nat) (ts : List Top) (es : List Entry) (st : St)
    (h : generate fp [] (addMany fp {} adds) ts = some (es, st)) :
    generate fp [] (addMany fp st more) ts = some (es, addMany fp st more) := by
  obtain ⟨I, -, a⟩ := again_generate ts (inv_adds adds) h
  obtain ⟨J, k⟩ := inv_many more st I
  exact a _ J k

/-- Between two writes nothing need be added: the same list, the same sounds. -/
theorem generate_twice (fp : Nat → Nat) (adds : List Nat) (ts : List Top) (es : List Entry) (st : St)
    (h : generate fp [] (addMany fp {} adds) ts = some (es, st)) : generate fp [] st ts = some (es, st) :=
  generate_again fp adds [] ts es st h

example : ∃ es st, generate (fun n => n) [] (addMany (fun n => n) {} [7]) [.gen [.item (.sound 1), .gen [.item (.resource 5), .item (.sound 7)]]] =
    some (es, st) ∧ es = [.single 5] ∧ st.sounds.map (·.2) = [7, 1] ∧ st.ids 1 = some 74 := ⟨_, _, rfl, rfl, rfl, rfl⟩

/-- The sound objects (or their file objects) must be the same: a generator that makes the sound of a file anew each time stores it again
in the next write, with another id. -/
theorem new_sound_stored_again :
    ∃ st, generate (fun n => n) [] {} [.gen [.item (.sound 1)]] = some ([], st) ∧ st.ids 1 = some 73 ∧ (soundTable st).map (·.1) = some 1 ∧
    ∃ st2, generate (fun n => n) [] st [.gen [.item (.sound 2)]] = some ([], st2) ∧ st2.ids 2 = some 74 ∧
      (soundTable st2).map (·.1) = some 2 := ⟨_, rfl, rfl, rfl, _, rfl, rfl, rfl⟩

end Grf.Sounds

namespace Grf.Strings

/-! ### Texts -/

/-- Every entry of `a` is one of `b`. -/
def Has (a b : Table) : Prop := ∀ h e, a.lookup h = some e → b.lookup h = some e

theorem register_has (base : Nat) (t : Table) (r : Ref) : Has t (register base t r).1 ∧ ∀ t2, Has (register base t r).1 t2 →
    register base t2 r = (t2, (register base t r).2) := by
  unfold register
  cases h : t.lookup r.hash with
  | some e =>
    refine ⟨fun _ _ h => h, fun t2 k => ?_⟩
    simp only [k _ _ h]
  | none =>
    refine ⟨fun g e hg => ?_, fun t2 k => ?_⟩
    · simp only [lookup_dictSet]
      rw [if_neg]
      · exact hg
      · rintro rfl
        rw [h] at hg
        cases hg
    · have := k r.hash (t.length + base, r) (by simp only [lookup_dictSet]; simp)
      simp only [this]

theorem runRegs_again : ∀ (rs : List Reg) (g p : Table), Has g (runRegs g p rs).1.1 ∧ Has p (runRegs g p rs).1.2 ∧
    ∀ g2 p2, Has (runRegs g p rs).1.1 g2 → Has (runRegs g p rs).1.2 p2 → runRegs g2 p2 rs = ((g2, p2), (runRegs g p rs).2) := by
  intro rs
  induction rs with
  | nil => intro g p; exact ⟨fun _ _ h => h, fun _ _ h => h, fun _ _ _ _ => rfl⟩
  | cons r rs ih =>
    intro g p
    cases r with
    | global r =>
      obtain ⟨a, b⟩ := register_has 0 g r
      obtain ⟨c, d, e⟩ := ih (register 0 g r).1 p
      refine ⟨fun h x hx => c h x (a h x hx), d, fun g2 p2 hg hp => ?_⟩
      have hg : Has (runRegs (register 0 g r).1 p rs).1.1 g2 := hg
      simp only [runRegs, b g2 (fun h x hx => hg h x (c h x hx)), e g2 p2 hg hp]
    | persistent r =>
      obtain ⟨a, b⟩ := register_has 0xdc00 p r
      obtain ⟨c, d, e⟩ := ih g (register 0xdc00 p r).1
      refine ⟨c, fun h x hx => d h x (a h x hx), fun g2 p2 hg hp => ?_⟩
      have hp : Has (runRegs g (register 0xdc00 p r).1 rs).1.2 p2 := hp
      simp only [runRegs, b p2 (fun h x hx => hp h x (d h x hx)), e g2 p2 hg hp]

/-- **C86** (texts). When the requests for ids of texts of a write are made again in a later one, after any other requests, they get the
same ids, and no further texts are written. -/
theorem texts_again (before rs between : List Reg) :
    let s := (runRegs [] [] before).1
    let first := runRegs s.1 s.2 rs
    let t := (runRegs first.1.1 first.1.2 between).1
    runRegs t.1 t.2 rs = (t, first.2) := by
  obtain ⟨-, -, a⟩ := runRegs_again rs (runRegs [] [] before).1.1 (runRegs [] [] before).1.2
  obtain ⟨b, c, -⟩ := runRegs_again between (runRegs (runRegs [] [] before).1.1 (runRegs [] [] before).1.2 rs).1.1
    (runRegs (runRegs [] [] before).1.1 (runRegs [] [] before).1.2 rs).1.2
  exact a _ _ b c

example : runRegs [] [] [.global ⟨5, 1⟩, .persistent ⟨6, 2⟩, .global ⟨7, 3⟩] =
    (([(5, (0, ⟨5, 1⟩)), (7, (1, ⟨7, 3⟩))], [(6, (0xdc00, ⟨6, 2⟩))]), [0, 0xdc00, 1]) := rfl

end Grf.Strings
