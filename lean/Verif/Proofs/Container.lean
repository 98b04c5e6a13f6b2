import Verif.Proofs.Enumerate
/-! # The written file as a concatenation of entries, and how the reader splits it -/
namespace Grf

/-- Bytes of one entry of the pseudo sprite section when the real sprite numbered `k` is stored as `cur k`. -/
def encItem (ids : Nat → Option Nat) (cur : Nat → Nat) : Item → Bytes
  | .action d => leBytes 4 (d.getD []).length ++ [0xff] ++ d.getD []
  | .res o => leBytes 4 4 ++ [0xfd] ++ leBytes 4 (cur ((ids o).getD 0))

def encItems (ids : Nat → Option Nat) (cur : Nat → Nat) : List Item → Bytes
  | [] => []
  | it :: r => encItem ids cur it ++ encItems ids cur r

/-- Positions of the references to the real sprite numbered `k`, the section starting at `b`. -/
def offs (ids : Nat → Option Nat) (k : Nat) : Nat → List Item → List Nat
  | _, [] => []
  | b, .action d :: r => offs ids k (b + (encItem ids id (.action d)).length) r
  | b, .res o :: r => if ids o = some k then (b + 5) :: offs ids k (b + 9) r else offs ids k (b + 9) r

/-- The entry can be written. -/
def ItemOk (ids : Nat → Option Nat) : Item → Prop
  | .action d => ∃ x, d = some x ∧ x.length < 256 ^ 4
  | .res o => ∃ k, ids o = some k ∧ k < 256 ^ 4

theorem encItem_length_res (ids : Nat → Option Nat) (cur : Nat → Nat) (o : Nat) :
    (encItem ids cur (.res o)).length = 9 := by
  simp [encItem, leBytes_length]

theorem encItem_length (ids : Nat → Option Nat) (cur cur' : Nat → Nat) (it : Item) :
    (encItem ids cur it).length = (encItem ids cur' it).length := by
  cases it with
  | action d => rfl
  | res o => rw [encItem_length_res, encItem_length_res]

theorem encItems_length_ge (ids : Nat → Option Nat) (cur : Nat → Nat) (items : List Item) :
    items.length ≤ (encItems ids cur items).length := by
  induction items with
  | nil => simp [encItems]
  | cons it r ih =>
    simp only [encItems, List.length_append, List.length_cons]
    have : 1 ≤ (encItem ids cur it).length := by
      cases it <;> simp [encItem, leBytes_length] <;> omega
    omega

theorem packU_of_lt {k : Nat} {n : Nat} (h : n < 256 ^ k) : packU k (n : Int) = some (leBytes k n) := by
  unfold packU
  rw [if_pos ⟨by omega, by exact_mod_cast h⟩]
  simp

theorem packU_nat_some {k n : Nat} {bs : Bytes} (h : packU k (n : Int) = some bs) : n < 256 ^ k ∧ bs = leBytes k n := by
  obtain ⟨_, h1, h2⟩ := packU_some h
  exact ⟨by exact_mod_cast h1, by simpa using h2⟩

theorem writePseudo_some {f data f' : Bytes} {ty : UInt8} {p : Nat} (h : writePseudo f data ty = some (f', p)) :
    data.length < 256 ^ 4 ∧ f' = f ++ (leBytes 4 data.length ++ [ty] ++ data) ∧ p = f.length + 5 := by
  unfold writePseudo at h
  rw [Option.bind_eq_bind, Option.bind_eq_some_iff] at h
  obtain ⟨l, h1, h2⟩ := h
  obtain ⟨h3, h4⟩ := packU_nat_some h1
  simp only [Option.some.injEq, Prod.mk.injEq] at h2
  refine ⟨h3, ?_, h2.2.symm⟩
  rw [← h2.1, h4]
  simp

theorem leBytes4_4 : leBytes 4 4 = [4, 0, 0, 0] := by decide

theorem writeItems_some {ids : Nat → Option Nat} : ∀ (items : List Item) (f : Bytes) (refs : Nat → List Nat)
    (f' : Bytes) (refs' : Nat → List Nat), items.foldlM (writeItem ids) (f, refs) = some (f', refs') →
    f' = f ++ encItems ids id items ∧ (∀ k, refs' k = refs k ++ offs ids k f.length items) ∧
    ∀ it ∈ items, ItemOk ids it := by
  intro items
  induction items with
  | nil =>
    intro f refs f' refs' h
    simp only [List.foldlM_nil, Option.pure_def, Option.some.injEq, Prod.mk.injEq] at h
    simp [encItems, offs, h]
  | cons it r ih =>
    intro f refs f' refs' h
    rw [List.foldlM_cons, Option.bind_eq_bind, Option.bind_eq_some_iff] at h
    obtain ⟨⟨f1, refs1⟩, h1, h2⟩ := h
    obtain ⟨a, b, c⟩ := ih _ _ _ _ h2
    cases it with
    | action d =>
      simp only [writeItem] at h1
      rw [Option.bind_eq_bind, Option.bind_eq_some_iff] at h1
      obtain ⟨x, hx, h1⟩ := h1
      rw [Option.bind_eq_bind, Option.bind_eq_some_iff] at h1
      obtain ⟨⟨f2, p⟩, h3, h1⟩ := h1
      simp only [Option.some.injEq, Prod.mk.injEq] at h1
      obtain ⟨e1, e2⟩ := h1
      obtain ⟨h4, h5, _⟩ := writePseudo_some h3
      rw [← e1] at a b
      rw [← e2] at b
      have e3 : f2 = f ++ encItem ids id (.action d) := by rw [h5, hx]; rfl
      refine ⟨by rw [a, e3, encItems, List.append_assoc], ?_, ?_⟩
      · intro k
        rw [b k, e3]
        simp [offs]
      · intro it hit
        simp only [List.mem_cons] at hit
        rcases hit with rfl | hit
        · exact ⟨x, hx, h4⟩
        · exact c it hit
    | res o =>
      simp only [writeItem] at h1
      rw [Option.bind_eq_bind, Option.bind_eq_some_iff] at h1
      obtain ⟨n, hn, h1⟩ := h1
      rw [Option.bind_eq_bind, Option.bind_eq_some_iff] at h1
      obtain ⟨d, hd, h1⟩ := h1
      rw [Option.bind_eq_bind, Option.bind_eq_some_iff] at h1
      obtain ⟨⟨f2, p⟩, h3, h1⟩ := h1
      simp only [Option.some.injEq, Prod.mk.injEq] at h1
      obtain ⟨e1, e2⟩ := h1
      obtain ⟨h4, h5, h6⟩ := writePseudo_some h3
      obtain ⟨h7, h8⟩ := packU_nat_some hd
      rw [← e1] at a b
      rw [← e2] at b
      have e3 : f2 = f ++ encItem ids id (.res o) := by
        rw [h5, h8, encItem, hn, leBytes_length]; rfl
      refine ⟨by rw [a, e3, encItems, List.append_assoc], ?_, ?_⟩
      · intro k
        rw [b k, e3, List.length_append, encItem_length_res]
        simp only [offs, hn, Option.some.injEq]
        by_cases hk : k = n
        · subst hk
          rw [upd_same]
          simp [h6]
        · rw [upd_ne _ _ _ _ hk]
          rw [if_neg (fun e => hk e.symm)]
      · intro it hit
        simp only [List.mem_cons] at hit
        rcases hit with rfl | hit
        · exact ⟨n, hn, h7⟩
        · exact c it hit

theorem patch_append (a b c d : Bytes) (h : b.length = c.length) : patch (a ++ (b ++ d)) a.length c = a ++ (c ++ d) := by
  unfold patch
  simp [← h]

theorem patch_item (ids : Nat → Option Nat) (cur : Nat → Nat) (base tail : Bytes) (o k v : Nat) (hk : ids o = some k) :
    patch (base ++ (encItem ids cur (.res o) ++ tail)) (base.length + 5) (leBytes 4 v) =
      base ++ (encItem ids (upd cur k v) (.res o) ++ tail) := by
  have h1 : base.length + 5 = (base ++ (leBytes 4 4 ++ [0xfd])).length := by simp [leBytes_length]
  have h2 : base ++ (encItem ids cur (.res o) ++ tail) =
      (base ++ (leBytes 4 4 ++ [0xfd])) ++ (leBytes 4 (cur ((ids o).getD 0)) ++ tail) := by simp [encItem]
  rw [h1, h2, patch_append _ _ _ _ (by simp [leBytes_length])]
  simp [encItem, hk, upd_same]

theorem encItem_other (ids : Nat → Option Nat) (cur : Nat → Nat) (k v : Nat) (it : Item) (hok : ItemOk ids it)
    (h : ∀ o, it = .res o → ids o ≠ some k) : encItem ids (upd cur k v) it = encItem ids cur it := by
  cases it with
  | action d => rfl
  | res o =>
    obtain ⟨n, hn, _⟩ := hok
    have : n ≠ k := by intro e; exact h o rfl (by rw [hn, e])
    simp [encItem, hn, upd_ne _ _ _ _ this]

theorem patch_refs (ids : Nat → Option Nat) (k v : Nat) : ∀ (items : List Item) (cur : Nat → Nat) (base tail : Bytes),
    (∀ it ∈ items, ItemOk ids it) →
    (offs ids k base.length items).foldl (fun f ofs => patch f ofs (leBytes 4 v)) (base ++ (encItems ids cur items ++ tail)) =
      base ++ (encItems ids (upd cur k v) items ++ tail) := by
  intro items
  induction items with
  | nil => intro cur base tail _; simp [offs, encItems]
  | cons it r ih =>
    intro cur base tail hok
    have hr : ∀ it ∈ r, ItemOk ids it := fun x hx => hok x (by simp [hx])
    cases it with
    | action d =>
      have := ih cur (base ++ encItem ids id (.action d)) tail hr
      simp only [List.length_append] at this
      simp only [offs, encItems]
      have e : ∀ c, encItem ids c (.action d) = encItem ids id (.action d) := fun c => rfl
      rw [e cur, e (upd cur k v)]
      simpa using this
    | res o =>
      simp only [offs, encItems]
      by_cases hk : ids o = some k
      · rw [if_pos hk, List.foldl_cons]
        have h1 := patch_item ids cur base (encItems ids cur r ++ tail) o k v hk
        have := ih cur (base ++ encItem ids (upd cur k v) (.res o)) tail hr
        rw [List.length_append, encItem_length_res] at this
        rw [List.append_assoc (encItem ids cur (.res o)), h1]
        rw [List.append_assoc, List.append_assoc] at this
        rw [List.append_assoc]
        exact this
      · rw [if_neg hk]
        have he := encItem_other ids cur k v (.res o) (hok _ (by simp)) (by intro o' e; cases e; exact hk)
        have := ih cur (base ++ encItem ids cur (.res o)) tail hr
        rw [List.length_append, encItem_length_res] at this
        rw [he]
        rw [List.append_assoc, List.append_assoc] at this
        rw [List.append_assoc, List.append_assoc]
        exact this

theorem renumber_fold (ids : Nat → Option Nat) (items : List Item) (base tail : Bytes) (refs : Nat → List Nat)
    (hok : ∀ it ∈ items, ItemOk ids it) (hrefs : ∀ k, refs k = offs ids k base.length items) :
    ∀ (ren : List (Nat × Nat)) (cur : Nat → Nat) (f : Bytes),
    ren.foldlM (renumber refs) (base ++ (encItems ids cur items ++ tail)) = some f →
    f = base ++ (encItems ids (ren.foldl (fun c p => upd c p.1 p.2) cur) items ++ tail) ∧
    ∀ p ∈ ren, p.2 < 256 ^ 4 := by
  intro ren
  induction ren with
  | nil =>
    intro cur f h
    simp only [List.foldlM_nil, Option.pure_def, Option.some.injEq] at h
    simp [h]
  | cons p ren ih =>
    intro cur f h
    rw [List.foldlM_cons, Option.bind_eq_bind, Option.bind_eq_some_iff] at h
    obtain ⟨f1, h1, h2⟩ := h
    unfold renumber at h1
    rw [Option.bind_eq_bind, Option.bind_eq_some_iff] at h1
    obtain ⟨b, hb, h1⟩ := h1
    obtain ⟨h3, h4⟩ := packU_nat_some hb
    rw [hrefs, h4, patch_refs ids p.1 p.2 items cur base tail hok] at h1
    simp only [Option.some.injEq] at h1
    rw [← h1] at h2
    obtain ⟨a, b⟩ := ih _ _ h2
    refine ⟨by rw [a, List.foldl_cons], ?_⟩
    intro q hq
    simp only [List.mem_cons] at hq
    rcases hq with rfl | hq
    · exact h3
    · exact b q hq

theorem upd_fold_lookup (ren : List (Nat × Nat)) (hnd : (ren.map (·.1)).Nodup) (cur : Nat → Nat) (k : Nat) :
    (ren.foldl (fun c p => upd c p.1 p.2) cur) k = (ren.lookup k).getD (cur k) := by
  induction ren generalizing cur with
  | nil => rfl
  | cons p ren ih =>
    simp only [List.map_cons, List.nodup_cons] at hnd
    rw [List.foldl_cons, ih hnd.2, List.lookup_cons]
    by_cases e : k = p.1
    · subst e
      have : ren.lookup p.1 = none := by
        have := (lookup_isNone ren p.1).2 hnd.1
        simpa using this
      simp [this, upd_same]
    · have : (k == p.1) = false := by simpa using e
      simp [this, upd_ne _ _ _ _ e]

/-! ### Real sprites -/

def encReal (p : Nat × Bytes) : Bytes := leBytes 4 p.1 ++ leBytes 4 p.2.length ++ p.2

def encReals : List (Nat × Bytes) → Bytes
  | [] => []
  | p :: r => encReal p ++ encReals r

theorem encReals_append (a b : List (Nat × Bytes)) : encReals (a ++ b) = encReals a ++ encReals b := by
  induction a with
  | nil => rfl
  | cons p a ih => simp [encReals, ih]

theorem encReals_length_ge (l : List (Nat × Bytes)) : l.length ≤ (encReals l).length := by
  induction l with
  | nil => simp
  | cons p l ih =>
    simp only [encReals, encReal, List.length_append, List.length_cons, leBytes_length]
    omega

/-- An entry the reader can find again. -/
def RealOk (p : Nat × Bytes) : Prop := 1 ≤ p.1 ∧ p.1 < 256 ^ 4 ∧ p.2.length < 256 ^ 4

theorem writeReals_some (id : Nat) : ∀ (data : List Bytes) (f f' : Bytes), data.foldlM (writeReal id) f = some f' →
    f' = f ++ encReals (data.map (fun d => (id, d))) ∧ ∀ d ∈ data, id < 256 ^ 4 ∧ d.length < 256 ^ 4 := by
  intro data
  induction data with
  | nil =>
    intro f f' h
    simp only [List.foldlM_nil, Option.pure_def, Option.some.injEq] at h
    simp [encReals, h]
  | cons d data ih =>
    intro f f' h
    rw [List.foldlM_cons, Option.bind_eq_bind, Option.bind_eq_some_iff] at h
    obtain ⟨f1, h1, h2⟩ := h
    unfold writeReal at h1
    rw [Option.bind_eq_bind, Option.bind_eq_some_iff] at h1
    obtain ⟨a, ha, h1⟩ := h1
    rw [Option.bind_eq_some_iff] at h1
    obtain ⟨b, hb, h1⟩ := h1
    obtain ⟨ha1, ha2⟩ := packU_nat_some ha
    obtain ⟨hb1, hb2⟩ := packU_nat_some hb
    simp only [Option.some.injEq] at h1
    obtain ⟨e1, e2⟩ := ih _ _ h2
    refine ⟨?_, ?_⟩
    · rw [e1, ← h1, ha2, hb2]
      simp [encReals, encReal]
    · intro x hx
      simp only [List.mem_cons] at hx
      rcases hx with rfl | hx
      · exact ⟨ha1, hb1⟩
      · exact e2 x hx

/-! ### Reading -/

theorem readU_leBytes {k n : Nat} (h : n < 256 ^ k) (t : Bytes) : readU k (leBytes k n ++ t) = some ((n : Int), t) :=
  readU_packU (packU_of_lt h) t

theorem readU_one (b : UInt8) (t : Bytes) : readU 1 (b :: t) = some ((b.toNat : Int), t) := by
  simp [readU, takeBytes, leVal]

/-- How an entry is read back. -/
def entryOf (ids : Nat → Option Nat) (cur : Nat → Nat) : Item → PEntry
  | .action d => if (d.getD []).length = 1 then .empty else .pseudo (d.getD [])
  | .res o => .ref (cur ((ids o).getD 0))

theorem readPseudo_item (ids : Nat → Option Nat) (cur : Nat → Nat) (it : Item) (t : Bytes) (hok : ItemOk ids it)
    (hne : ∀ d, it = .action (some d) → d ≠ []) (hcur : ∀ o k, it = .res o → ids o = some k → cur k < 256 ^ 4) :
    readPseudo (encItem ids cur it ++ t) = some (some (entryOf ids cur it), t) := by
  cases it with
  | action d =>
    obtain ⟨x, rfl, hx⟩ := hok
    have hx0 : x ≠ [] := hne x rfl
    have hl : x.length ≠ 0 := by simpa using hx0
    simp only [encItem, Option.getD_some, List.append_assoc, readPseudo, readU_leBytes hx, Option.bind_eq_bind,
      Option.bind_some]
    rw [if_neg (by omega)]
    simp only [List.singleton_append, readU_one, Option.bind_some]
    rw [if_pos (by decide)]
    simp only [Int.toNat_natCast, List.drop_left, List.take_left]
    by_cases h1 : x.length = 1
    · simp [h1, entryOf]
    · rw [if_neg (by omega), if_neg hx0]
      simp [entryOf, h1]
  | res o =>
    obtain ⟨k, hk, _⟩ := hok
    have hc := hcur o k rfl hk
    have h4 : (4 : Nat) < 256 ^ 4 := by decide
    simp only [encItem, hk, Option.getD_some, List.append_assoc, readPseudo, readU_leBytes h4, Option.bind_eq_bind,
      Option.bind_some]
    rw [if_neg (by omega)]
    simp only [List.singleton_append, readU_one, Option.bind_some]
    rw [if_neg (by decide), if_pos (by decide)]
    have e1 : (leBytes 4 (cur k) ++ t).take (((4 : Nat) : Int).toNat) = leBytes 4 (cur k) := by
      rw [Int.toNat_natCast, List.take_left' (leBytes_length _ _)]
    have e2 : (leBytes 4 (cur k) ++ t).drop (((4 : Nat) : Int).toNat) = t := by
      rw [Int.toNat_natCast, List.drop_left' (leBytes_length _ _)]
    rw [e1, e2, if_pos (leBytes_length _ _), leVal_leBytes _ _ hc]
    simp [entryOf, hk]

theorem readU4_zero (t : Bytes) : readU 4 ([0, 0, 0, 0] ++ t) = some (0, t) := by
  have : ([0, 0, 0, 0] : Bytes) = leBytes 4 0 := by decide
  rw [this]
  exact readU_leBytes (by decide) t

theorem readPseudos_items (ids : Nat → Option Nat) (cur : Nat → Nat) : ∀ (items : List Item) (t : Bytes) (fuel : Nat),
    (∀ it ∈ items, ItemOk ids it) → (∀ d, .action (some d) ∈ items → d ≠ []) →
    (∀ o k, .res o ∈ items → ids o = some k → cur k < 256 ^ 4) → items.length < fuel →
    readPseudos fuel (encItems ids cur items ++ ([0, 0, 0, 0] ++ t)) = some (items.map (entryOf ids cur), t) := by
  intro items
  induction items with
  | nil =>
    intro t fuel _ _ _ hf
    obtain ⟨n, rfl⟩ : ∃ n, fuel = n + 1 := ⟨fuel - 1, by simp at hf; omega⟩
    simp only [readPseudos, readPseudo, encItems, List.nil_append, readU4_zero, Option.bind_eq_bind, Option.bind_some,
      if_true, List.map_nil]
  | cons it r ih =>
    intro t fuel hok hne hcur hf
    obtain ⟨n, rfl⟩ : ∃ n, fuel = n + 1 := ⟨fuel - 1, by simp at hf; omega⟩
    simp only [readPseudos, encItems, List.append_assoc]
    rw [readPseudo_item ids cur it _ (hok it (by simp)) (fun d e => hne d (by simp [e]))
      (fun o k e hk => hcur o k (by simp [e]) hk)]
    simp only [Option.bind_eq_bind, Option.bind_some]
    rw [ih t n (fun x hx => hok x (by simp [hx])) (fun d hd => hne d (by simp [hd]))
      (fun o k ho hk => hcur o k (by simp [ho]) hk) (by simp at hf; omega)]
    simp

theorem readReals_reals : ∀ (l : List (Nat × Bytes)) (t : Bytes) (fuel : Nat), (∀ p ∈ l, RealOk p) → l.length < fuel →
    readReals fuel (encReals l ++ ([0, 0, 0, 0] ++ t)) = some (l, t) := by
  intro l
  induction l with
  | nil =>
    intro t fuel _ hf
    obtain ⟨n, rfl⟩ : ∃ n, fuel = n + 1 := ⟨fuel - 1, by simp at hf; omega⟩
    simp only [readReals, encReals, List.nil_append, readU4_zero, Option.bind_eq_bind, Option.bind_some, if_true]
  | cons p l ih =>
    intro t fuel hok hf
    obtain ⟨n, rfl⟩ : ∃ n, fuel = n + 1 := ⟨fuel - 1, by simp at hf; omega⟩
    obtain ⟨h1, h2, h3⟩ := hok p (by simp)
    simp only [readReals, encReals, encReal, List.append_assoc, readU_leBytes h2, Option.bind_eq_bind, Option.bind_some]
    rw [if_neg (by omega)]
    simp only [readU_leBytes h3, Option.bind_some]
    have hne : p.2 ++ (encReals l ++ ([0, 0, 0, 0] ++ t)) ≠ [] := by simp
    obtain ⟨b, u, hbu⟩ := List.exists_cons_of_ne_nil hne
    have hr : readU 1 (p.2 ++ (encReals l ++ ([0, 0, 0, 0] ++ t))) = some ((b.toNat : Int), u) := by
      rw [hbu, readU_one]
    rw [hr]
    simp only [Option.bind_some, Int.toNat_natCast, List.drop_left, List.take_left]
    rw [ih t n (fun x hx => hok x (by simp [hx])) (by simp at hf; omega)]
    simp

end Grf
