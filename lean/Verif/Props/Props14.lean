import Verif.Props.Actions2
/-!
# C18: the GRF information tree (Action 14)

The specification is the tree a dictionary of properties stands for (`Info.tree`): the format only knows dictionaries and, per key, a list of
binary values and (language, text) pairs.
-/
namespace Grf.Acts
open PropC

/-! ### Specification -/

mutual
/-- The values a non-dictionary value stands for: a number is its four bytes, lowest first; a text without language is in language 0. -/
def Info.items : PV → List Item
  | .text lang b => [.text lang b]
  | .list l => Info.itemsList l
  | .str b => [.text 0 b]
  | .int n => [.bytes (leBytes 4 n.toNat)]
  | .bytes b => [.bytes b]
  | .strings l => l.map fun p => .text p.1 p.2
  | .dict _ => []
def Info.itemsList : List PV → List Item
  | [] => []
  | v :: l => Info.items v ++ Info.itemsList l
end

/-- The four bytes of a key. -/
def Info.key : Key → Bytes
  | .str b => b
  | .int n => leBytes 4 n.toNat
  | .bytes b => b

mutual
/-- The tree a dictionary stands for; a key with an empty list leaves no trace. -/
def Info.tree : List (Key × PV) → List (Bytes × DV)
  | [] => []
  | (k, v) :: r => Info.entry k v ++ Info.tree r
def Info.entry (k : Key) : PV → List (Bytes × DV)
  | .dict l => [(Info.key k, .dict (Info.tree l))]
  | v => if Info.items v = [] then [] else [(Info.key k, .items (Info.items v))]
end

mutual
/-- No dictionary inside and every text NUL-free. -/
def Info.Plain : PV → Prop
  | .text _ b => (0 : UInt8) ∉ b
  | .list l => Info.PlainList l
  | .str b => (0 : UInt8) ∉ b
  | .int _ => True
  | .bytes _ => True
  | .strings l => ∀ p ∈ l, (0 : UInt8) ∉ p.2
  | .dict _ => False
def Info.PlainList : List PV → Prop
  | [] => True
  | v :: l => Info.Plain v ∧ Info.PlainList l
end

mutual
/-- At every level: keys of four bytes, no two keys with the same bytes (only counting keys which leave a trace), and values which are
dictionaries or `Plain`. -/
def Info.Good : List (Key × PV) → Prop
  | [] => True
  | (k, v) :: r => (Info.entry k v ≠ [] → (Info.key k).length = 4 ∧ Info.key k ∉ (Info.tree r).map (·.1)) ∧ Info.GoodValue v ∧ Info.Good r
def Info.GoodValue : PV → Prop
  | .dict l => Info.Good l
  | v => Info.Plain v
end

/-! ### The reader's fuel -/

theorem splitNul_length : ∀ (b t r : Bytes), splitNul b = some (t, r) → r.length < b.length
  | [], _, _, h => by simp [splitNul] at h
  | x :: b, t, r, h => by
    rw [splitNul] at h
    split at h
    · simp only [Option.some.injEq, Prod.mk.injEq] at h; rw [← h.2]; simp
    · simp only [Option.map_eq_some_iff, Prod.mk.injEq] at h
      obtain ⟨⟨t', r'⟩, h1, _, h2⟩ := h
      have := splitNul_length b t' r' h1
      simp only at h2; subst h2
      simp only [List.length_cons]; omega

theorem readU_length {k : Nat} {b r : Bytes} {v : Int} (h : readU k b = some (v, r)) : r.length ≤ b.length := by
  simp only [readU, takeBytes] at h
  split at h
  · simp only [Option.bind_eq_bind, Option.bind_some, Option.some.injEq, Prod.mk.injEq] at h
    rw [← h.2]; simp
  · simp at h

theorem chunks_shrink : ∀ (f : Nat) (res : List (Bytes × DV)) (b : Bytes) (r : List (Bytes × DV)) (t : Bytes),
    chunks f res b = some (r, t) → t.length < b.length := by
  intro f
  induction f with
  | zero => intro _ _ _ _ h; simp [chunks] at h
  | succ f ih =>
    intro res b r t h
    cases b with
    | nil => simp [chunks] at h
    | cons ty b =>
      have hd : (b.drop 4).length ≤ b.length := by simp
      simp only [List.length_cons]
      rw [chunks] at h
      split at h
      · simp only [Option.some.injEq, Prod.mk.injEq] at h; rw [← h.2]; omega
      · simp only at h
        split at h
        · simp only [Option.bind_eq_bind, Option.bind_eq_some_iff] at h
          obtain ⟨⟨s, b'⟩, h1, h2⟩ := h
          have := ih _ _ _ _ h1
          have := ih _ _ _ _ h2
          simp only at *
          omega
        · split at h
          · simp only [Option.bind_eq_bind, Option.bind_eq_some_iff] at h
            obtain ⟨⟨n, b'⟩, h1, res', h2, h3⟩ := h
            have := readU_length h1
            have := ih _ _ _ _ h3
            have : (b'.drop n.toNat).length ≤ b'.length := by simp
            simp only at *
            omega
          · split at h
            · simp only [Option.bind_eq_bind, Option.bind_eq_some_iff] at h
              obtain ⟨⟨n, b'⟩, h1, ⟨t', b''⟩, h0, res', h2, h3⟩ := h
              have := readU_length h1
              have := splitNul_length _ _ _ h0
              have := ih _ _ _ _ h3
              simp only at *
              omega
            · simp at h

theorem chunks_enough : ∀ (f : Nat) (res : List (Bytes × DV)) (b : Bytes) (r), chunks f res b = some r →
    ∀ g, b.length < g → chunks g res b = some r := by
  intro f
  induction f with
  | zero => intro _ _ _ h; simp [chunks] at h
  | succ f ih =>
    intro res b r h g hg
    cases b with
    | nil => simp [chunks] at h
    | cons ty b =>
      cases g with
      | zero => simp at hg
      | succ g =>
      simp only [List.length_cons] at hg
      have hd : (b.drop 4).length ≤ b.length := by simp
      rw [chunks] at h ⊢
      split at h
      · next h0 => rw [if_pos h0]; exact h
      · next h0 =>
        rw [if_neg h0]
        simp only at h ⊢
        split at h
        · next h1 =>
          rw [if_pos h1]
          simp only [Option.bind_eq_bind, Option.bind_eq_some_iff] at h ⊢
          obtain ⟨⟨s, b'⟩, e1, e2⟩ := h
          have := chunks_shrink _ _ _ _ _ e1
          exact ⟨(s, b'), ih _ _ _ e1 g (by omega), ih _ _ _ e2 g (by simp only; omega)⟩
        · next h1 =>
          rw [if_neg h1]
          split at h
          · next h2 =>
            rw [if_pos h2]
            simp only [Option.bind_eq_bind, Option.bind_eq_some_iff] at h ⊢
            obtain ⟨⟨n, b'⟩, e1, res', e2, e3⟩ := h
            have := readU_length e1
            have : (b'.drop n.toNat).length ≤ b'.length := by simp
            exact ⟨(n, b'), e1, res', e2, ih _ _ _ e3 g (by simp only at *; omega)⟩
          · next h2 =>
            rw [if_neg h2]
            split at h
            · next h3 =>
              rw [if_pos h3]
              simp only [Option.bind_eq_bind, Option.bind_eq_some_iff] at h ⊢
              obtain ⟨⟨n, b'⟩, e1, ⟨t', b''⟩, e0, res', e2, e3⟩ := h
              have := readU_length e1
              have := splitNul_length _ _ _ e0
              exact ⟨(n, b'), e1, (t', b''), e0, res', e2, ih _ _ _ e3 g (by simp only at *; omega)⟩
            · simp at h

/-! ### Adding values under a new key -/

/-- Values added one after another. -/
def adds (res : List (Bytes × DV)) (k : Bytes) : List Item → Option (List (Bytes × DV))
  | [] => some res
  | x :: l => (addItem res k x).bind fun res => adds res k l

theorem adds_append (k : Bytes) (a b : List Item) : ∀ res, adds res k (a ++ b) = (adds res k a).bind fun r => adds r k b := by
  induction a with
  | nil => intro res; rfl
  | cons x a ih =>
    intro res
    simp only [List.cons_append, adds, Option.bind_assoc]
    congr 1; funext r; exact ih r

theorem addItem_new (k : Bytes) (x : Item) (res : List (Bytes × DV)) (h : k ∉ res.map (·.1)) :
    addItem res k x = some (res ++ [(k, .items [x])]) := by
  induction res with
  | nil => rfl
  | cons p res ih =>
    obtain ⟨k', v⟩ := p
    simp only [List.map_cons, List.mem_cons, not_or] at h
    simp only [addItem, if_neg (fun e => h.1 (Eq.symm e)), ih h.2]; rfl

theorem addItem_last (k : Bytes) (x : Item) (l : List Item) (res : List (Bytes × DV)) (h : k ∉ res.map (·.1)) :
    addItem (res ++ [(k, .items l)]) k x = some (res ++ [(k, .items (l ++ [x]))]) := by
  induction res with
  | nil => simp [addItem]
  | cons p res ih =>
    obtain ⟨k', v⟩ := p
    simp only [List.map_cons, List.mem_cons, not_or] at h
    simp only [List.cons_append, addItem, if_neg (fun e => h.1 (Eq.symm e)), ih h.2]; rfl

theorem adds_last (k : Bytes) (b : List Item) (res : List (Bytes × DV)) (h : k ∉ res.map (·.1)) : ∀ a,
    adds (res ++ [(k, .items a)]) k b = some (res ++ [(k, .items (a ++ b))]) := by
  induction b with
  | nil => intro a; simp [adds]
  | cons x b ih =>
    intro a
    rw [adds, addItem_last k x a res h, Option.bind_some, ih]
    simp

theorem adds_new (k : Bytes) (l : List Item) (res : List (Bytes × DV)) (h : k ∉ res.map (·.1)) :
    adds res k l = some (res ++ if l = [] then [] else [(k, .items l)]) := by
  cases l with
  | nil => simp [adds]
  | cons x l =>
    rw [adds, addItem_new k x res h, Option.bind_some, adds_last k l res h]
    simp

/-! ### The chunks written are read -/

theorem read_text (k : Bytes) (hk : k.length = 4) (lang : Int) (b : Bytes) (hb : (0 : UInt8) ∉ b) (bs : Bytes)
    (h : textChunk k lang b = some bs) (res res' : List (Bytes × DV)) (ha : addItem res k (.text lang b) = some res') (t : Bytes) (f : Nat)
    (r) (hr : chunks f res' t = some r) : ∃ f', chunks f' res (bs ++ t) = some r := by
  simp only [textChunk, Option.bind_eq_bind, Option.bind_eq_some_iff, Option.some.injEq] at h
  obtain ⟨l, hl, rfl⟩ := h
  refine ⟨f + 1, ?_⟩
  simp only [List.cons_append, List.append_assoc, List.nil_append]
  rw [chunks, if_neg (by decide)]
  simp only [← hk, List.take_left, List.drop_left]
  rw [if_neg (by decide), if_neg (by decide), if_pos trivial]
  simp only [readU_packU hl, splitNul_append b hb, ha, Option.bind_eq_bind, Option.bind_some, hr]

theorem read_bytes (k : Bytes) (hk : k.length = 4) (b n : Bytes) (hn : packU 2 (b.length : Int) = some n)
    (res res' : List (Bytes × DV)) (ha : addItem res k (.bytes b) = some res') (t : Bytes) (f : Nat)
    (r) (hr : chunks f res' t = some r) : ∃ f', chunks f' res (0x42 :: (k ++ n ++ b) ++ t) = some r := by
  refine ⟨f + 1, ?_⟩
  simp only [List.cons_append, List.append_assoc]
  rw [chunks, if_neg (by decide)]
  simp only [← hk, List.take_left, List.drop_left]
  rw [if_neg (by decide), if_pos trivial]
  simp only [readU_packU hn, Int.toNat_natCast, List.take_left, List.drop_left, ha, Option.bind_eq_bind, Option.bind_some, hr]

theorem read_strings (k : Bytes) (hk : k.length = 4) : ∀ (l : List (Int × Bytes)) (_ : ∀ p ∈ l, (0 : UInt8) ∉ p.2) (bs : Bytes)
    (_ : cat (l.map fun p => textChunk k p.1 p.2) = some bs) (res res' : List (Bytes × DV))
    (_ : adds res k (l.map fun p => .text p.1 p.2) = some res') (t : Bytes) (f : Nat)
    (r) (_ : chunks f res' t = some r), ∃ f', chunks f' res (bs ++ t) = some r := by
  intro l
  induction l with
  | nil =>
    intro _ bs h res res' ha t f r hr
    rw [cat_nil h]
    simp only [List.map_nil, adds, Option.some.injEq] at ha
    subst ha
    exact ⟨f, hr⟩
  | cons p l ih =>
    intro hp bs h res res' ha t f r hr
    obtain ⟨a, b, h1, h2, rfl⟩ := cat_cons h
    simp only [List.map_cons, adds, Option.bind_eq_some_iff] at ha
    obtain ⟨r1, ha1, ha2⟩ := ha
    obtain ⟨f', hf'⟩ := ih (fun q hq => hp q (by simp [hq])) b h2 r1 res' ha2 t f r hr
    rw [List.append_assoc]
    exact read_text k hk p.1 p.2 (hp p (by simp)) a h1 res r1 ha1 _ f' r hf'

mutual
theorem read_plain (k : Bytes) (hk : k.length = 4) : ∀ (v : PV) (_ : Info.Plain v) (bs : Bytes) (_ : encV k v = some bs)
    (res res' : List (Bytes × DV)) (_ : adds res k (Info.items v) = some res') (t : Bytes) (f : Nat)
    (r) (_ : chunks f res' t = some r), ∃ f', chunks f' res (bs ++ t) = some r
  | .dict l => by
    intro hp; simp [Info.Plain] at hp
  | .text lang b => by
    intro hp bs h res res' ha t f r hr
    simp only [encV] at h
    simp only [Info.items, adds, Option.bind_some, Option.bind_fun_some] at ha
    exact read_text k hk lang b (by simpa [Info.Plain] using hp) bs h res res' ha t f r hr
  | .str b => by
    intro hp bs h res res' ha t f r hr
    simp only [encV] at h
    simp only [Info.items, adds, Option.bind_some, Option.bind_fun_some] at ha
    exact read_text k hk 0 b (by simpa [Info.Plain] using hp) bs h res res' ha t f r hr
  | .int n => by
    intro hp bs h res res' ha t f r hr
    simp only [encV, Option.bind_eq_bind, Option.bind_eq_some_iff, Option.some.injEq] at h
    obtain ⟨v, hv, rfl⟩ := h
    simp only [Info.items, adds, Option.bind_some, Option.bind_fun_some] at ha
    have hv' : v = leBytes 4 n.toNat := by
      exact (packU_some hv).2.2
    subst hv'
    have h4 : packU 2 (((leBytes 4 n.toNat).length : Nat) : Int) = some [4, 0] := by rw [leBytes_length]; decide +kernel
    exact read_bytes k hk _ _ h4 res res' ha t f r hr
  | .bytes b => by
    intro hp bs h res res' ha t f r hr
    simp only [encV, Option.bind_eq_bind, Option.bind_eq_some_iff, Option.some.injEq] at h
    obtain ⟨v, hv, rfl⟩ := h
    simp only [Info.items, adds, Option.bind_some, Option.bind_fun_some] at ha
    exact read_bytes k hk _ _ hv res res' ha t f r hr
  | .strings l => by
    intro hp bs h res res' ha t f r hr
    simp only [encV] at h
    simp only [Info.items] at ha
    simp only [Info.Plain] at hp
    exact read_strings k hk l hp bs h res res' ha t f r hr
  | .list l => by
    intro hp bs h res res' ha t f r hr
    simp only [encV] at h
    simp only [Info.items] at ha
    simp only [Info.Plain] at hp
    exact read_plain_list k hk l hp bs h res res' ha t f r hr
theorem read_plain_list (k : Bytes) (hk : k.length = 4) : ∀ (l : List PV) (_ : Info.PlainList l) (bs : Bytes) (_ : encList k l = some bs)
    (res res' : List (Bytes × DV)) (_ : adds res k (Info.itemsList l) = some res') (t : Bytes) (f : Nat)
    (r) (_ : chunks f res' t = some r), ∃ f', chunks f' res (bs ++ t) = some r
  | [] => by
    intro _ bs h res res' ha t f r hr
    simp only [encList, Option.some.injEq] at h
    simp only [Info.itemsList, adds, Option.some.injEq] at ha
    subst ha h
    exact ⟨f, hr⟩
  | v :: l => by
    intro hp bs h res res' ha t f r hr
    simp only [encList, Option.bind_eq_bind, Option.bind_eq_some_iff, Option.some.injEq] at h
    obtain ⟨a, h1, b, h2, rfl⟩ := h
    simp only [Info.PlainList] at hp
    simp only [Info.itemsList, adds_append, Option.bind_eq_some_iff] at ha
    obtain ⟨r1, ha1, ha2⟩ := ha
    obtain ⟨f', hf'⟩ := read_plain_list k hk l hp.2 b h2 r1 res' ha2 t f r hr
    rw [List.append_assoc]
    exact read_plain k hk v hp.1 a h1 res r1 ha1 _ f' r hf'
end

theorem key_encode {k : Key} {kb : Bytes} (h : k.encode = some kb) : kb = Info.key k := by
  cases k with
  | str b => simpa [Key.encode, Info.key, eq_comm] using h
  | bytes b => simpa [Key.encode, Info.key, eq_comm] using h
  | int n =>
    simp only [Key.encode] at h
    exact (packU_some h).2.2

theorem encList_append (k : Bytes) (a b : List PV) :
    encList k (a ++ b) = (encList k a).bind fun x => (encList k b).map fun y => x ++ y := by
  induction a with
  | nil => simp [encList]
  | cons v a ih =>
    simp only [List.cons_append, encList, ih, Option.bind_eq_bind]
    cases encV k v with
    | none => rfl
    | some x =>
      cases encList k a with
      | none => rfl
      | some y =>
        cases encList k b with
        | none => rfl
        | some z => simp

theorem packU4_length (n : Int) (v : Bytes) (h : packU 4 n = some v) : v = leBytes 4 n.toNat := (packU_some h).2.2

mutual
theorem reencode_plain (k : Bytes) : ∀ (v : PV) (_ : Info.Plain v) (bs : Bytes) (_ : encV k v = some bs),
    encList k ((Info.items v).map Item.value) = some bs
  | .dict l => by
    intro hp; simp [Info.Plain] at hp
  | .text lang b => by
    intro _ bs h
    simp only [encV] at h
    simp [Info.items, Item.value, encList, encV, h]
  | .str b => by
    intro _ bs h
    simp only [encV] at h
    simp [Info.items, Item.value, encList, encV, h]
  | .int n => by
    intro _ bs h
    simp only [encV, Option.bind_eq_bind, Option.bind_eq_some_iff, Option.some.injEq] at h
    obtain ⟨v, hv, rfl⟩ := h
    have hv' := packU4_length n v hv
    subst hv'
    have h4 : packU 2 (((leBytes 4 n.toNat).length : Nat) : Int) = some [4, 0] := by rw [leBytes_length]; decide +kernel
    simp only [Info.items, Item.value, encList, encV, List.map_cons, List.map_nil, h4, Option.bind_eq_bind, Option.bind_some,
      List.append_nil]
  | .bytes b => by
    intro _ bs h
    simp only [encV] at h
    simp only [Info.items, Item.value, encList, encV, h, List.map_cons, List.map_nil, Option.bind_eq_bind, Option.bind_some, List.append_nil]
  | .strings l => by
    intro _ bs h
    simp only [encV] at h
    simp only [Info.items, List.map_map]
    have : ∀ (l : List (Int × Bytes)) bs, cat (l.map fun p => textChunk k p.1 p.2) = some bs →
        encList k (l.map (Item.value ∘ fun p => .text p.1 p.2)) = some bs := by
      intro l
      induction l with
      | nil => intro bs h; rw [cat_nil h]; rfl
      | cons p l ih =>
        intro bs h
        obtain ⟨a, b, h1, h2, rfl⟩ := cat_cons h
        simp only [List.map_cons, Function.comp_apply, Item.value, encList, encV, h1, Option.bind_eq_bind, Option.bind_some]
        rw [ih b h2]; rfl
    exact this l bs h
  | .list l => by
    intro hp bs h
    simp only [encV] at h
    simp only [Info.Plain] at hp
    simp only [Info.items]
    exact reencode_list k l hp bs h
theorem reencode_list (k : Bytes) : ∀ (l : List PV) (_ : Info.PlainList l) (bs : Bytes) (_ : encList k l = some bs),
    encList k ((Info.itemsList l).map Item.value) = some bs
  | [] => by
    intro _ bs h
    simp only [encList] at h
    simp [Info.itemsList, encList, h]
  | v :: l => by
    intro hp bs h
    simp only [Info.PlainList] at hp
    simp only [encList, Option.bind_eq_bind, Option.bind_eq_some_iff, Option.some.injEq] at h
    obtain ⟨a, h1, b, h2, rfl⟩ := h
    simp only [Info.itemsList, List.map_append, encList_append, reencode_plain k v hp.1 a h1, reencode_list k l hp.2 b h2,
      Option.bind_some, Option.map_some]
end

/-- A value that leaves no trace is written as nothing. -/
theorem traceless_written (k : Key) (v : PV) (he : Info.entry k v = []) (hg : Info.GoodValue v) (bs : Bytes)
    (h : encV (Info.key k) v = some bs) : bs = [] := by
  have key : Info.Plain v → Info.items v = [] → bs = [] := by
    intro hp h0
    have hr := reencode_plain (Info.key k) v hp bs h
    rw [h0] at hr
    simpa [encList, eq_comm] using hr
  cases v with
  | dict l => simp [Info.entry] at he
  | text lang b => simp [Info.entry, Info.items] at he
  | str b => simp [Info.entry, Info.items] at he
  | int b => simp [Info.entry, Info.items] at he
  | bytes b => simp [Info.entry, Info.items] at he
  | strings l => exact key hg (by simpa [Info.entry] using he)
  | list l => exact key hg (by simpa [Info.entry] using he)

mutual
theorem read_pairs : ∀ (l : List (Key × PV)) (_ : Info.Good l) (bs : Bytes) (_ : encPairs l = some bs) (res : List (Bytes × DV))
    (_ : ∀ p ∈ Info.tree l, p.1 ∉ res.map (·.1)) (t : Bytes) (f : Nat) (r) (_ : chunks f (res ++ Info.tree l) t = some r),
    ∃ f', chunks f' res (bs ++ t) = some r
  | [] => by
    intro _ bs h res _ t f r hr
    simp only [encPairs, Option.some.injEq] at h
    simp only [Info.tree, List.append_nil] at hr
    subst h
    exact ⟨f, hr⟩
  | (k, v) :: l => by
    intro hg bs h res hd t f r hr
    simp only [Info.Good] at hg
    simp only [encPairs, Option.bind_eq_bind, Option.bind_eq_some_iff, Option.some.injEq] at h
    obtain ⟨kb, hk, a, h1, b, h2, rfl⟩ := h
    have hkb := key_encode hk
    subst hkb
    have hkeys : ∀ p ∈ Info.entry k v, p.1 = Info.key k := by
      intro p hp
      cases v <;> simp only [Info.entry] at hp <;> first | (simp at hp; rw [hp]) | (split at hp <;> simp at hp; rw [hp])
    simp only [Info.tree, ← List.append_assoc] at hr
    by_cases he : Info.entry k v = []
    · have ha := traceless_written k v he hg.2.1 a h1
      subst ha
      rw [he, List.append_nil] at hr
      exact read_pairs l hg.2.2 b h2 res (fun p hp => hd p (by rw [Info.tree]; simp [hp])) t f r hr
    obtain ⟨hk4, hknew⟩ := hg.1 he
    have hkd : Info.key k ∉ res.map (·.1) := by
      obtain ⟨p, hp⟩ := List.exists_mem_of_ne_nil _ he
      rw [← hkeys p hp]
      exact hd p (by rw [Info.tree]; simp [hp])
    obtain ⟨f', hf'⟩ := read_pairs l hg.2.2 b h2 (res ++ Info.entry k v) (by
      intro p hp
      simp only [List.map_append, List.mem_append, not_or]
      refine ⟨hd p (by rw [Info.tree]; simp [hp]), ?_⟩
      intro hm
      obtain ⟨q, hq, e⟩ := List.mem_map.mp hm
      rw [hkeys q hq] at e
      exact hknew (List.mem_map.mpr ⟨p, hp, e.symm⟩)) t f r hr
    rw [List.append_assoc]
    exact read_value k hk4 v hg.2.1 a h1 res hkd _ f' r hf'
theorem read_value (k : Key) (hk : (Info.key k).length = 4) : ∀ (v : PV) (_ : Info.GoodValue v) (bs : Bytes)
    (_ : encV (Info.key k) v = some bs) (res : List (Bytes × DV)) (_ : Info.key k ∉ res.map (·.1)) (t : Bytes) (f : Nat) (r)
    (_ : chunks f (res ++ Info.entry k v) t = some r), ∃ f', chunks f' res (bs ++ t) = some r
  | .dict l => by
    intro hg bs h res hd t f r hr
    simp only [Info.GoodValue] at hg
    simp only [encV, Option.bind_eq_bind, Option.bind_eq_some_iff, Option.some.injEq] at h
    obtain ⟨b, hb, rfl⟩ := h
    obtain ⟨f1, hf1⟩ := read_pairs l hg b hb [] (by simp) (0 :: t) 1 (Info.tree l, t) (by simp [chunks])
    simp only [Info.entry] at hr
    have hset : dictSet res (Info.key k) (DV.dict (Info.tree l)) = res ++ [(Info.key k, .dict (Info.tree l))] := Sounds.dictSet_new hd
    refine ⟨max ((b ++ 0 :: t).length + 1) (t.length + 1) + 1, ?_⟩
    simp only [List.cons_append, List.append_assoc, List.nil_append]
    rw [chunks, if_neg (by decide)]
    simp only [← hk, List.take_left, List.drop_left]
    rw [if_pos trivial, chunks_enough _ _ _ _ hf1 _ (by omega)]
    simp only [Option.bind_eq_bind, Option.bind_some, hset]
    exact chunks_enough _ _ _ _ hr _ (by omega)
  | .text lang b => by
    intro hg bs h res hd t f r hr
    exact
    read_plain _ hk _ hg bs h res _ (adds_new _ _ res hd) t f r hr
  | .str b => by
    intro hg bs h res hd t f r hr
    exact
    read_plain _ hk _ hg bs h res _ (adds_new _ _ res hd) t f r hr
  | .int n => by
    intro hg bs h res hd t f r hr
    exact
    read_plain _ hk _ hg bs h res _ (adds_new _ _ res hd) t f r hr
  | .bytes b => by
    intro hg bs h res hd t f r hr
    exact
    read_plain _ hk _ hg bs h res _ (adds_new _ _ res hd) t f r hr
  | .strings l => by
    intro hg bs h res hd t f r hr
    exact
    read_plain _ hk _ hg bs h res _ (adds_new _ _ res hd) t f r hr
  | .list l => by
    intro hg bs h res hd t f r hr
    exact
    read_plain _ hk _ hg bs h res _ (adds_new _ _ res hd) t f r hr
end

/-- **C18** Every information tree of any depth and width with four byte keys that are distinct at each level, NUL-free texts and lists of
plain values is read back as the same tree. -/
theorem info_roundtrip_partial (T : Nat → List (String × VarData)) (ctx : PCtx) (l : List (Key × PV)) (bs : Bytes) (hg : Info.Good l)
    (h : propsData l = some bs) : decodePseudo T ctx bs = some (some (.props (Info.tree l)), ctx.enter) := by
  simp only [propsData, Option.bind_eq_bind, Option.bind_eq_some_iff, Option.some.injEq] at h
  obtain ⟨b, hb, rfl⟩ := h
  rw [dp14]
  obtain ⟨f, hf⟩ := read_pairs l hg b hb [] (by simp) [0] 1 (Info.tree l, []) (by simp [chunks])
  have := chunks_enough _ _ _ _ hf ((b ++ [0]).length + 1) (by omega)
  simp only [decode14, this, Option.map_some]

/-- Two such dictionaries with the same bytes stand for the same tree. -/
theorem info_injective_partial (l l' : List (Key × PV)) (bs : Bytes) (hg : Info.Good l) (hg' : Info.Good l')
    (h : propsData l = some bs) (h' : propsData l' = some bs) : Info.tree l = Info.tree l' := by
  have e1 := info_roundtrip_partial (fun _ => []) {} l bs hg h
  have e2 := info_roundtrip_partial (fun _ => []) {} l' bs hg' h'
  rw [e1] at e2
  simpa using e2

/-! ### Recompiling -/

theorem encPairs_append (a b : List (Key × PV)) :
    encPairs (a ++ b) = (encPairs a).bind fun x => (encPairs b).map fun y => x ++ y := by
  induction a with
  | nil => simp [encPairs]
  | cons p a ih =>
    obtain ⟨k, v⟩ := p
    simp only [List.cons_append, encPairs, ih, Option.bind_eq_bind]
    cases k.encode with
    | none => rfl
    | some kb =>
      simp only [Option.bind_some]
      cases encV kb v with
      | none => rfl
      | some x =>
        cases encPairs a with
        | none => rfl
        | some y =>
          cases encPairs b with
          | none => rfl
          | some z => simp

theorem props_append (a b : List (Bytes × DV)) : DV.props (a ++ b) = DV.props a ++ DV.props b := by
  induction a with
  | nil => rfl
  | cons p a ih => obtain ⟨k, v⟩ := p; simp [DV.props, ih]

theorem reencode_entry_plain (k : Key) (v : PV) (he : Info.entry k v = if Info.items v = [] then [] else [(Info.key k, .items (Info.items v))])
    (hp : Info.Plain v) (bs : Bytes) (h : encV (Info.key k) v = some bs) : encPairs (DV.props (Info.entry k v)) = some bs := by
  have hr := reencode_plain (Info.key k) v hp bs h
  rw [he]
  split
  · next h0 =>
    rw [h0] at hr
    simpa [DV.props, encPairs, encList] using hr
  · simp only [DV.props, DV.value, encPairs, Key.encode, encV, hr, Option.bind_eq_bind, Option.bind_some, List.append_nil]

mutual
theorem reencode_pairs : ∀ (l : List (Key × PV)) (_ : Info.Good l) (bs : Bytes) (_ : encPairs l = some bs),
    encPairs (DV.props (Info.tree l)) = some bs
  | [] => by
    intro _ bs h
    simp only [encPairs] at h
    simp [Info.tree, DV.props, encPairs, h]
  | (k, v) :: l => by
    intro hg bs h
    simp only [Info.Good] at hg
    simp only [encPairs, Option.bind_eq_bind, Option.bind_eq_some_iff, Option.some.injEq] at h
    obtain ⟨kb, hk, a, h1, b, h2, rfl⟩ := h
    have hkb := key_encode hk
    subst hkb
    simp only [Info.tree, props_append, encPairs_append, reencode_pairs l hg.2.2 b h2, reencode_value k v hg.2.1 a h1,
      Option.bind_some, Option.map_some]
theorem reencode_value (k : Key) : ∀ (v : PV) (_ : Info.GoodValue v) (bs : Bytes) (_ : encV (Info.key k) v = some bs),
    encPairs (DV.props (Info.entry k v)) = some bs
  | .dict l => by
    intro hg bs h
    simp only [Info.GoodValue] at hg
    simp only [encV, Option.bind_eq_bind, Option.bind_eq_some_iff, Option.some.injEq] at h
    obtain ⟨b, hb, rfl⟩ := h
    simp only [Info.entry, DV.props, DV.value, encPairs, Key.encode, encV, reencode_pairs l hg b hb, Option.bind_eq_bind, Option.bind_some,
      List.append_nil]
  | .text lang b => reencode_entry_plain k _ rfl
  | .str b => reencode_entry_plain k _ rfl
  | .int n => reencode_entry_plain k _ rfl
  | .bytes b => reencode_entry_plain k _ rfl
  | .strings l => reencode_entry_plain k _ rfl
  | .list l => reencode_entry_plain k _ rfl
end

/-- **C18** Decoding and encoding again gives the same bytes. -/
theorem info_recompiles_partial (T : Nat → List (String × VarData)) (ctx : PCtx) (l : List (Key × PV)) (bs : Bytes) (hg : Info.Good l)
    (h : propsData l = some bs) : ∃ t c, decodePseudo T ctx bs = some (some (.props t), c) ∧ propsData (DV.props t) = some bs := by
  refine ⟨_, _, info_roundtrip_partial T ctx l bs hg h, ?_⟩
  simp only [propsData, Option.bind_eq_bind, Option.bind_eq_some_iff, Option.some.injEq] at h ⊢
  obtain ⟨b, hb, rfl⟩ := h
  exact ⟨b, reencode_pairs l hg b hb, rfl⟩

/-- A concrete tree: `{'INFO': {'NAME': 'A', 'VRSN': 7, 'PARA': {0: {'MASK': b'\x01\x00'}}}}`. -/
def exampleInfo : List (Key × PV) :=
  [(.str [73, 78, 70, 79], .dict [(.str [78, 65, 77, 69], .str [65]), (.str [86, 82, 83, 78], .int 7),
    (.str [80, 65, 82, 65], .dict [(.int 0, .dict [(.str [77, 65, 83, 75], .bytes [1, 0])])])])]

example : Info.Good exampleInfo := by
  simp [exampleInfo, Info.Good, Info.GoodValue, Info.Plain, Info.key, Info.tree, Info.entry, Info.items, leBytes]
example : propsData exampleInfo = some ([0x14, 67, 73, 78, 70, 79, 84, 78, 65, 77, 69, 0, 65, 0, 66, 86, 82, 83, 78, 4, 0, 7, 0, 0, 0,
    67, 80, 65, 82, 65, 67, 0, 0, 0, 0, 66, 77, 65, 83, 75, 2, 0, 1, 0, 0, 0, 0, 0]) := by decide +kernel
example : Info.tree exampleInfo = [([73, 78, 70, 79], .dict [([78, 65, 77, 69], .items [.text 0 [65]]),
    ([86, 82, 83, 78], .items [.bytes [7, 0, 0, 0]]),
    ([80, 65, 82, 65], .dict [([0, 0, 0, 0], .dict [([77, 65, 83, 75], .items [.bytes [1, 0]])])])])] := by
  simp [exampleInfo, Info.tree, Info.entry, Info.items, Info.key, leBytes]

/-! ### Exactness -/

mutual
/-- What every tree read satisfies: keys of four bytes, different at every level, and texts without NUL. -/
def Info.TreeOk : List (Bytes × DV) → Prop
  | [] => True
  | (k, v) :: r => k.length = 4 ∧ k ∉ r.map (·.1) ∧ Info.ValueOk v ∧ Info.TreeOk r
def Info.ValueOk : DV → Prop
  | .dict l => Info.TreeOk l
  | .items l => ∀ lang b, Item.text lang b ∈ l → (0 : UInt8) ∉ b
end

mutual
/-- Lists contain no dictionaries. -/
def Info.Flat : PV → Prop
  | .list l => Info.FlatList l
  | .dict _ => False
  | _ => True
def Info.FlatList : List PV → Prop
  | [] => True
  | v :: l => Info.Flat v ∧ Info.FlatList l
end

mutual
/-- At every level values are dictionaries or `Flat`. -/
def Info.Shaped : List (Key × PV) → Prop
  | [] => True
  | (_, v) :: r => Info.ShapedValue v ∧ Info.Shaped r
def Info.ShapedValue : PV → Prop
  | .dict l => Info.Shaped l
  | v => Info.Flat v
end

mutual
theorem plain_iff : ∀ v : PV, Info.Plain v ↔ Info.Flat v ∧ ∀ lang b, Item.text lang b ∈ Info.items v → (0 : UInt8) ∉ b
  | .dict l => by simp [Info.Plain, Info.Flat]
  | .text lang b => by simp [Info.Plain, Info.Flat, Info.items]
  | .str b => by simp [Info.Plain, Info.Flat, Info.items]
  | .int n => by simp [Info.Plain, Info.Flat, Info.items]
  | .bytes b => by simp [Info.Plain, Info.Flat, Info.items]
  | .strings l => by
    simp only [Info.Plain, Info.Flat, Info.items, List.mem_map, true_and]
    constructor
    · rintro h lang b ⟨p, hp, e⟩
      simp only [Item.text.injEq] at e
      rw [← e.2]; exact h p hp
    · intro h p hp; exact h p.1 p.2 ⟨p, hp, rfl⟩
  | .list l => by
    simp only [Info.Plain, Info.Flat, Info.items]
    exact plainList_iff l
theorem plainList_iff : ∀ l : List PV, Info.PlainList l ↔ Info.FlatList l ∧ ∀ lang b, Item.text lang b ∈ Info.itemsList l → (0 : UInt8) ∉ b
  | [] => by simp [Info.PlainList, Info.FlatList, Info.itemsList]
  | v :: l => by
    simp only [Info.PlainList, Info.FlatList, Info.itemsList, List.mem_append]
    rw [plain_iff v, plainList_iff l]
    constructor
    · rintro ⟨⟨a1, a2⟩, b1, b2⟩
      exact ⟨⟨a1, b1⟩, fun lang b h => h.elim (a2 lang b) (b2 lang b)⟩
    · rintro ⟨⟨a1, b1⟩, c⟩
      exact ⟨⟨a1, fun lang b h => c lang b (.inl h)⟩, b1, fun lang b h => c lang b (.inr h)⟩
end

theorem treeOk_append (a b : List (Bytes × DV)) : Info.TreeOk (a ++ b) ↔
    Info.TreeOk a ∧ Info.TreeOk b ∧ ∀ p ∈ a, p.1 ∉ b.map (·.1) := by
  induction a with
  | nil => simp [Info.TreeOk]
  | cons p a ih =>
    obtain ⟨k, v⟩ := p
    simp only [List.cons_append, Info.TreeOk, ih, List.map_append, List.mem_append, not_or, List.mem_cons]
    constructor
    · rintro ⟨h1, ⟨h2, h3⟩, h4, h5, h6, h7⟩
      exact ⟨⟨h1, h2, h4, h5⟩, h6, fun p hp => hp.elim (fun e => by rw [e]; exact h3) (h7 p)⟩
    · rintro ⟨⟨h1, h2, h4, h5⟩, h6, h7⟩
      exact ⟨h1, ⟨h2, h7 (k, v) (.inl rfl)⟩, h4, h5, h6, fun p hp => h7 p (.inr hp)⟩

theorem entry_ok_plain (k : Key) (v : PV) (he : Info.entry k v = if Info.items v = [] then [] else [(Info.key k, .items (Info.items v))]) :
    (∀ lang b, Item.text lang b ∈ Info.items v → (0 : UInt8) ∉ b) ∧ (Info.entry k v ≠ [] → (Info.key k).length = 4) ↔
      Info.TreeOk (Info.entry k v) := by
  rw [he]
  by_cases h : Info.items v = []
  · simp [h, Info.TreeOk]
  · simp only [if_neg h, Info.TreeOk, Info.ValueOk, ne_eq, List.cons_ne_self, not_false_eq_true, true_imp_iff, List.map_nil, List.not_mem_nil,
      true_and, and_true, reduceCtorEq]
    exact And.comm

mutual
theorem good_iff : ∀ l : List (Key × PV), Info.Good l ↔ Info.Shaped l ∧ Info.TreeOk (Info.tree l)
  | [] => by simp [Info.Good, Info.Shaped, Info.tree, Info.TreeOk]
  | (k, v) :: r => by
    have hkeys : ∀ p ∈ Info.entry k v, p.1 = Info.key k := by
      intro p hp
      cases v <;> simp only [Info.entry] at hp <;> first | (simp at hp; rw [hp]) | (split at hp <;> simp at hp; rw [hp])
    have hv := goodValue_iff k v
    simp only [Info.Good, Info.Shaped, Info.tree, treeOk_append]
    rw [good_iff r]
    constructor
    · rintro ⟨h1, h2, h3, h4⟩
      have := hv.mp ⟨h2, fun e => (h1 e).1⟩
      refine ⟨⟨this.1, h3⟩, this.2, h4, ?_⟩
      intro p hp
      rw [hkeys p hp]
      exact (h1 (List.ne_nil_of_mem hp)).2
    · rintro ⟨⟨h1, h2⟩, h3, h4, h5⟩
      have := hv.mpr ⟨h1, h3⟩
      refine ⟨fun e => ⟨this.2 e, ?_⟩, this.1, h2, h4⟩
      obtain ⟨p, hp⟩ := List.exists_mem_of_ne_nil _ e
      rw [← hkeys p hp]
      exact h5 p hp
theorem goodValue_iff (k : Key) : ∀ v : PV, (Info.GoodValue v ∧ (Info.entry k v ≠ [] → (Info.key k).length = 4)) ↔
    (Info.ShapedValue v ∧ Info.TreeOk (Info.entry k v))
  | .dict l => by
    simp only [Info.GoodValue, Info.ShapedValue, Info.entry, Info.TreeOk, Info.ValueOk]
    rw [good_iff l]
    simp only [ne_eq, List.cons_ne_self, not_false_eq_true, true_imp_iff, List.map_nil, List.not_mem_nil, true_and, and_true, reduceCtorEq]
    constructor
    · rintro ⟨⟨a, b⟩, c⟩; exact ⟨a, c, b⟩
    · rintro ⟨a, c, b⟩; exact ⟨⟨a, b⟩, c⟩
  | .text lang b => by rw [← entry_ok_plain k _ rfl]; simp only [Info.GoodValue, Info.ShapedValue, plain_iff, and_assoc]
  | .str b => by rw [← entry_ok_plain k _ rfl]; simp only [Info.GoodValue, Info.ShapedValue, plain_iff, and_assoc]
  | .int n => by rw [← entry_ok_plain k _ rfl]; simp only [Info.GoodValue, Info.ShapedValue, plain_iff, and_assoc]
  | .bytes b => by rw [← entry_ok_plain k _ rfl]; simp only [Info.GoodValue, Info.ShapedValue, plain_iff, and_assoc]
  | .strings l => by rw [← entry_ok_plain k _ rfl]; simp only [Info.GoodValue, Info.ShapedValue, plain_iff, and_assoc]
  | .list l => by rw [← entry_ok_plain k _ rfl]; simp only [Info.GoodValue, Info.ShapedValue, plain_iff, and_assoc]
end

theorem addItem_ok (k : Bytes) (x : Item) (hk : k.length = 4) (hx : ∀ lang b, x = .text lang b → (0 : UInt8) ∉ b) :
    ∀ (res res' : List (Bytes × DV)), addItem res k x = some res' → Info.TreeOk res → Info.TreeOk res' ∧
      ∀ k', k' ∈ res'.map (·.1) → k' = k ∨ k' ∈ res.map (·.1)
  | [], res', h, _ => by
    simp only [addItem, Option.some.injEq] at h
    subst h
    refine ⟨?_, ?_⟩
    · simp only [Info.TreeOk, Info.ValueOk, List.mem_cons, List.not_mem_nil, or_false, List.map_nil, not_false_eq_true, and_true, true_and]
      exact ⟨hk, fun lang b e => hx lang b e.symm⟩
    · intro k' h'; simpa using h'
  | (k0, v) :: r, res', h, hok => by
    simp only [Info.TreeOk] at hok
    rw [addItem.eq_def] at h
    simp only at h
    split at h
    · next he =>
      cases v with
      | dict l => simp at h
      | items l =>
        simp only [Option.some.injEq] at h
        subst h
        refine ⟨?_, fun k' h' => .inr (by simpa using h')⟩
        simp only [Info.TreeOk, Info.ValueOk] at hok ⊢
        refine ⟨hok.1, hok.2.1, ?_, hok.2.2.2⟩
        intro lang b hb
        simp only [List.mem_append, List.mem_cons, List.not_mem_nil, or_false] at hb
        rcases hb with hb | hb
        · exact hok.2.2.1 lang b hb
        · exact hx lang b hb.symm
    · next he =>
      simp only [Option.map_eq_some_iff] at h
      obtain ⟨r', h1, rfl⟩ := h
      obtain ⟨i1, i2⟩ := addItem_ok k x hk hx r r' h1 hok.2.2.2
      refine ⟨?_, ?_⟩
      · simp only [Info.TreeOk]
        refine ⟨hok.1, ?_, hok.2.2.1, i1⟩
        intro hm
        rcases i2 k0 hm with e | e
        · exact he e
        · exact hok.2.1 e
      · intro k' h'
        simp only [List.map_cons, List.mem_cons] at h' ⊢
        rcases h' with h' | h'
        · exact .inr (.inl h')
        · rcases i2 k' h' with e | e
          · exact .inl e
          · exact .inr (.inr e)

theorem dictSet_ok (k : Bytes) (v : DV) (hk : k.length = 4) (hv : Info.ValueOk v) :
    ∀ (res : List (Bytes × DV)), Info.TreeOk res → Info.TreeOk (dictSet res k v) ∧
      ∀ k', k' ∈ (dictSet res k v).map (·.1) → k' = k ∨ k' ∈ res.map (·.1)
  | [], _ => by
    refine ⟨?_, ?_⟩
    · simp only [dictSet, Info.TreeOk, List.map_nil, List.not_mem_nil, not_false_eq_true, and_true, true_and]
      exact ⟨hk, hv⟩
    · intro k' h'; simpa [dictSet] using h'
  | (k0, v0) :: r, hok => by
    simp only [Info.TreeOk] at hok
    rw [dictSet]
    split
    · next he =>
      subst he
      refine ⟨?_, fun k' h' => .inr (by simpa using h')⟩
      simp only [Info.TreeOk]
      exact ⟨hok.1, hok.2.1, hv, hok.2.2.2⟩
    · next he =>
      obtain ⟨i1, i2⟩ := dictSet_ok k v hk hv r hok.2.2.2
      refine ⟨?_, ?_⟩
      · simp only [Info.TreeOk]
        refine ⟨hok.1, ?_, hok.2.2.1, i1⟩
        intro hm
        rcases i2 k0 hm with e | e
        · exact he e
        · exact hok.2.1 e
      · intro k' h'
        simp only [List.map_cons, List.mem_cons] at h' ⊢
        rcases h' with h' | h'
        · exact .inr (.inl h')
        · rcases i2 k' h' with e | e
          · exact .inl e
          · exact .inr (.inr e)

theorem splitNul_front : ∀ (b t r : Bytes), splitNul b = some (t, r) → (0 : UInt8) ∉ t
  | [], _, _, h => by simp [splitNul] at h
  | x :: b, t, r, h => by
    rw [splitNul] at h
    split at h
    · simp only [Option.some.injEq, Prod.mk.injEq] at h; rw [← h.1]; simp
    · next hx =>
      simp only [Option.map_eq_some_iff, Prod.mk.injEq] at h
      obtain ⟨⟨t', r'⟩, h1, h2, _⟩ := h
      have := splitNul_front b t' r' h1
      rw [← h2]
      simp only [List.mem_cons, not_or]
      exact ⟨fun e => hx e.symm, this⟩

theorem take_of_drop {b : Bytes} (h : b.drop 4 ≠ []) : (b.take 4).length = 4 := by
  have : 4 < b.length := by
    apply Classical.byContradiction
    intro hn
    exact h (List.drop_eq_nil_of_le (by omega))
  simp; omega

theorem chunks_ne {f : Nat} {res : List (Bytes × DV)} {b : Bytes} {r} (h : chunks f res b = some r) : b ≠ [] := by
  intro e; subst e
  cases f <;> simp [chunks] at h

theorem readU_ne {k : Nat} {b : Bytes} {r} (hk : 0 < k) (h : readU k b = some r) : b ≠ [] := by
  intro e; subst e
  obtain ⟨v, t⟩ := r
  have := readU_rest h
  simp at this; omega

/-- Whatever is read, keys have four bytes and differ, and texts contain no NUL. -/
theorem chunks_ok : ∀ (f : Nat) (res : List (Bytes × DV)) (b : Bytes) (r : List (Bytes × DV)) (t : Bytes),
    chunks f res b = some (r, t) → Info.TreeOk res → Info.TreeOk r := by
  intro f
  induction f with
  | zero => intro _ _ _ _ h; simp [chunks] at h
  | succ f ih =>
    intro res b r t h hok
    cases b with
    | nil => simp [chunks] at h
    | cons ty b =>
      rw [chunks] at h
      split at h
      · simp only [Option.some.injEq, Prod.mk.injEq] at h; rw [← h.1]; exact hok
      · simp only at h
        split at h
        · simp only [Option.bind_eq_bind, Option.bind_eq_some_iff] at h
          obtain ⟨⟨s, b'⟩, h1, h2⟩ := h
          have hs := ih _ _ _ _ h1 (by simp [Info.TreeOk])
          exact ih _ _ _ _ h2 (dictSet_ok _ _ (take_of_drop (chunks_ne h1)) (by simpa [Info.ValueOk] using hs) res hok).1
        · split at h
          · simp only [Option.bind_eq_bind, Option.bind_eq_some_iff] at h
            obtain ⟨⟨n, b'⟩, h1, res', h2, h3⟩ := h
            exact ih _ _ _ _ h3 (addItem_ok _ _ (take_of_drop (readU_ne (by decide) h1)) (by intro _ _ e; cases e) _ _ h2 hok).1
          · split at h
            · simp only [Option.bind_eq_bind, Option.bind_eq_some_iff] at h
              obtain ⟨⟨n, b'⟩, h1, ⟨t', b''⟩, h0, res', h2, h3⟩ := h
              refine ih _ _ _ _ h3 (addItem_ok _ _ (take_of_drop (readU_ne (by decide) h1)) ?_ _ _ h2 hok).1
              intro lang b e
              simp only [Item.text.injEq] at e
              rw [← e.2]
              exact splitNul_front _ _ _ h0
            · simp at h

/-- **C18** A dictionary (without dictionaries inside lists) is read back as the tree it stands for exactly when, in that tree, at every
level the keys have four bytes and are different, and no text contains NUL. -/
theorem info_iff (T : Nat → List (String × VarData)) (ctx : PCtx) (l : List (Key × PV)) (bs : Bytes) (hs : Info.Shaped l)
    (h : propsData l = some bs) :
    decodePseudo T ctx bs = some (some (.props (Info.tree l)), ctx.enter) ↔ Info.TreeOk (Info.tree l) := by
  constructor
  · intro hd
    simp only [propsData, Option.bind_eq_bind, Option.bind_eq_some_iff, Option.some.injEq] at h
    obtain ⟨b, hb, rfl⟩ := h
    rw [dp14] at hd
    simp only [Option.map_eq_some_iff, Prod.mk.injEq, Option.some.injEq, Decoded.props.injEq] at hd
    obtain ⟨t, ht, rfl, _⟩ := hd
    simp only [decode14, Option.map_eq_some_iff] at ht
    obtain ⟨⟨r, t'⟩, hr, he⟩ := ht
    simp only at he
    rw [← he]
    exact chunks_ok _ _ _ _ _ hr (by simp [Info.TreeOk])
  · intro ht
    exact info_roundtrip_partial T ctx l bs ((good_iff l).mpr ⟨hs, ht⟩) h

example : Info.Shaped exampleInfo := by simp [exampleInfo, Info.Shaped, Info.ShapedValue, Info.Flat]
/-- A key without values does not matter: `{'X': [], 'NAME': 'A'}` comes back (without `'X'`). -/
example : Info.Good [(.str [88], .list []), (.str [78, 65, 77, 69], .str [65])] := by
  simp [Info.Good, Info.GoodValue, Info.Plain, Info.PlainList, Info.key, Info.tree, Info.entry, Info.items, Info.itemsList]

/-! ### Counterexamples -/

/-- A key of three bytes takes the next byte with it: `{'ABC': 'x'}` is written, reading gives the key `b'ABC\0'` and the language 120. -/
theorem short_key_misread : propsData [(.str [65, 66, 67], .str [120])] = some [0x14, 84, 65, 66, 67, 0, 120, 0, 0] ∧
    decode14 [84, 65, 66, 67, 0, 120, 0, 0] = some [([65, 66, 67, 0], .items [.text 120 []])] := by
  constructor
  · decide +kernel
  · simp [decode14, chunks, readU, takeBytes, leVal, splitNul, addItem]

/-- The keys `'ABCD'` and `b'ABCD'` are different for Python but have the same bytes: the first dictionary is lost. -/
theorem same_key_bytes_lost : propsData [(.str [65, 66, 67, 68], .dict [(.int 1, .bytes [])]), (.bytes [65, 66, 67, 68], .dict [])] =
      some [0x14, 67, 65, 66, 67, 68, 66, 1, 0, 0, 0, 0, 0, 0, 67, 65, 66, 67, 68, 0, 0] ∧
    decode14 [67, 65, 66, 67, 68, 66, 1, 0, 0, 0, 0, 0, 0, 67, 65, 66, 67, 68, 0, 0] = some [([65, 66, 67, 68], .dict [])] := by
  constructor
  · decide +kernel
  · simp [decode14, chunks, readU, takeBytes, leVal, addItem, dictSet]

/-- A text containing NUL is cut there and the rest is taken for chunks. -/
theorem nul_in_text_misread : propsData [(.int 0, .str [65, 0])] = some [0x14, 84, 0, 0, 0, 0, 0, 65, 0, 0, 0] ∧
    decode14 [84, 0, 0, 0, 0, 0, 65, 0, 0, 0] = some [([0, 0, 0, 0], .items [.text 0 [65]])] := by
  constructor
  · decide +kernel
  · simp [decode14, chunks, readU, takeBytes, leVal, splitNul, addItem]

end Grf.Acts
