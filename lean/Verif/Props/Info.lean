import Verif.Spec.InfoSpec
import Verif.Model.Info
import Verif.Props.Props14
/-!
# C70: what a NewGRF says about itself is what the game learns
-/
namespace Spec

theorem splitAt_first_zero {t t' r r' : List UInt8} (h : t ++ 0 :: r = t' ++ 0 :: r') (ht : (0 : UInt8) ∉ t) (ht' : (0 : UInt8) ∉ t') :
    t = t' ∧ r = r' := by
  induction t generalizing t' with
  | nil =>
    cases t' with
    | nil => simpa using h
    | cons x t' => simp at h; simp [← h.1] at ht'
  | cons x t ih =>
    cases t' with
    | nil => simp at h; simp [h.1] at ht
    | cons y t' =>
      simp only [List.cons_append, List.cons.injEq] at h
      obtain ⟨a, b⟩ := ih h.2 (fun e => ht (List.mem_cons_of_mem _ e)) (fun e => ht' (List.mem_cons_of_mem _ e))
      exact ⟨by rw [h.1, a], b⟩

/-- Bytes are read as one list of nodes only. -/
theorem ReadsNodes.unique {bs : List UInt8} {n n' : List InfoNode} {r r' : List UInt8} (h : ReadsNodes bs n r) (h' : ReadsNodes bs n' r') :
    n = n' ∧ r = r' := by
  induction h generalizing n' r' with
  | stop rest => cases h' with | stop => exact ⟨rfl, rfl⟩
  | branch id bs sub mid more rest h4 _ _ ih1 ih2 =>
    generalize hb : (67 : UInt8) :: (id ++ bs) = B at h'
    cases h' with
    | stop => simp at hb
    | text => simp at hb
    | binary => simp at hb
    | branch id' bs' sub' mid' more' rest' h4' a b =>
      simp only [List.cons.injEq, true_and] at hb
      obtain ⟨rfl, rfl⟩ := List.append_inj hb (by rw [h4, h4'])
      obtain ⟨rfl, rfl⟩ := ih1 a
      obtain ⟨rfl, rfl⟩ := ih2 b
      exact ⟨rfl, rfl⟩
  | text id lang t bs more rest h4 ht _ ih =>
    generalize hb : (84 : UInt8) :: (id ++ lang :: (t ++ 0 :: bs)) = B at h'
    cases h' with
    | stop => simp at hb
    | branch => simp at hb
    | binary => simp at hb
    | text id' lang' t' bs' more' rest' h4' ht' a =>
      simp only [List.cons.injEq, true_and] at hb
      obtain ⟨rfl, e⟩ := List.append_inj hb (by rw [h4, h4'])
      simp only [List.cons.injEq] at e
      obtain ⟨rfl, e⟩ := e
      obtain ⟨rfl, rfl⟩ := splitAt_first_zero e ht ht'
      obtain ⟨rfl, rfl⟩ := ih a
      exact ⟨rfl, rfl⟩
  | binary id d bs more rest h4 hd _ ih =>
    generalize hb : (66 : UInt8) :: (id ++ UInt8.ofNat (d.length % 256) :: UInt8.ofNat (d.length / 256) :: (d ++ bs)) = B at h'
    cases h' with
    | stop => simp at hb
    | branch => simp at hb
    | text => simp at hb
    | binary id' d' bs' more' rest' h4' hd' a =>
      simp only [List.cons.injEq, true_and] at hb
      obtain ⟨rfl, e⟩ := List.append_inj hb (by rw [h4, h4'])
      simp only [List.cons.injEq] at e
      obtain ⟨e1, e2, e⟩ := e
      have l1 := congrArg UInt8.toNat e1
      have l2 := congrArg UInt8.toNat e2
      rw [UInt8.toNat_ofNat', UInt8.toNat_ofNat'] at l1 l2
      obtain ⟨rfl, rfl⟩ := List.append_inj e (by omega)
      obtain ⟨rfl, rfl⟩ := ih a
      exact ⟨rfl, rfl⟩

end Spec

namespace Grf.Info14
open Acts _root_.Spec

/-! ## The nodes of a tree of properties -/

mutual
/-- The nodes a value is written as. -/
def nodesV (k : Bytes) : PV → List InfoNode
  | .dict l => [.branch k (nodesP l)]
  | .text lang b => [.text k (UInt8.ofNat lang.toNat) b]
  | .list l => nodesL k l
  | .str b => [.text k 0 b]
  | .int n => [.binary k (leBytes 4 n.toNat)]
  | .bytes b => [.binary k b]
  | .strings l => l.map fun p => .text k (UInt8.ofNat p.1.toNat) p.2
def nodesL (k : Bytes) : List PV → List InfoNode
  | [] => []
  | v :: l => nodesV k v ++ nodesL k l
def nodesP : List (Key × PV) → List InfoNode
  | [] => []
  | (k, v) :: l => nodesV (Info.key k) v ++ nodesP l
end

mutual
/-- All ids have four bytes, and no text contains a zero byte. -/
def CleanV : PV → Prop
  | .dict l => CleanP l
  | .text _ b => (0 : UInt8) ∉ b
  | .list l => CleanL l
  | .str b => (0 : UInt8) ∉ b
  | .int _ => True
  | .bytes _ => True
  | .strings l => ∀ p ∈ l, (0 : UInt8) ∉ p.2
def CleanL : List PV → Prop
  | [] => True
  | v :: l => CleanV v ∧ CleanL l
def CleanP : List (Key × PV) → Prop
  | [] => True
  | (k, v) :: l => (Info.key k).length = 4 ∧ CleanV v ∧ CleanP l
end

theorem reads_text (k : Bytes) (hk : k.length = 4) (lang : Int) (t : Bytes) (ht : (0 : UInt8) ∉ t) (b : Bytes)
    (h : textChunk k lang t = some b) (rest : Bytes) (more : List InfoNode) (r : Bytes) (hr : ReadsNodes rest more r) :
    ReadsNodes (b ++ rest) (.text k (UInt8.ofNat lang.toNat) t :: more) r := by
  simp only [textChunk, Option.bind_eq_bind, Option.bind_eq_some_iff, Option.some.injEq] at h
  obtain ⟨l, hl, rfl⟩ := h
  obtain ⟨x, rfl, rfl⟩ := PropC.packU_one_some hl
  simp only [List.cons_append, List.append_assoc, List.nil_append, Int.toNat_natCast, UInt8.ofNat_toNat]
  exact .text k x t rest more r hk ht hr

theorem packU2_eq {n : Nat} {b : Bytes} (h : packU 2 (n : Int) = some b) :
    n < 65536 ∧ b = [UInt8.ofNat (n % 256), UInt8.ofNat (n / 256)] := by
  obtain ⟨h0, h1, rfl⟩ := packU_some h
  have hn : n < 65536 := by omega
  refine ⟨hn, ?_⟩
  have e2 : UInt8.ofNat n = UInt8.ofNat (n % 256) := by
    apply UInt8.toNat_inj.1
    rw [UInt8.toNat_ofNat', UInt8.toNat_ofNat']
    omega
  simp only [Int.toNat_natCast, leBytes]
  rw [e2]

theorem reads_binary (k : Bytes) (hk : k.length = 4) (d n : Bytes) (h : packU 2 (d.length : Int) = some n) (rest : Bytes)
    (more : List InfoNode) (r : Bytes) (hr : ReadsNodes rest more r) :
    ReadsNodes (0x42 :: (k ++ n ++ d) ++ rest) (.binary k d :: more) r := by
  obtain ⟨hl, rfl⟩ := packU2_eq h
  simp only [List.cons_append, List.append_assoc, List.nil_append]
  exact .binary k d rest more r hk hl hr

mutual
theorem readsV (k : Bytes) (hk : k.length = 4) : ∀ (v : PV) (b : Bytes), encV k v = some b → CleanV v → ∀ (rest : Bytes)
    (more : List InfoNode) (r : Bytes), ReadsNodes rest more r → ReadsNodes (b ++ rest) (nodesV k v ++ more) r
  | .dict l => by
    intro b h hc rest more r hr
    simp only [encV, Option.bind_eq_bind, Option.bind_eq_some_iff, Option.some.injEq] at h
    obtain ⟨c, hb, rfl⟩ := h
    have := readsP l c hb hc (0 :: rest) [] rest (.stop rest)
    simp only [nodesV, List.cons_append, List.append_assoc, List.nil_append]
    rw [List.append_nil] at this
    exact .branch k _ _ rest more r hk this hr
  | .text lang t => by
    intro b h hc rest more r hr
    exact reads_text k hk lang t hc b h rest more r hr
  | .list l => by
    intro b h hc rest more r hr
    exact readsL k hk l b h hc rest more r hr
  | .str t => by
    intro b h hc rest more r hr
    exact reads_text k hk 0 t hc b h rest more r hr
  | .int n => by
    intro b h hc rest more r hr
    simp only [encV, Option.bind_eq_bind, Option.bind_eq_some_iff, Option.some.injEq] at h
    obtain ⟨v, hv, rfl⟩ := h
    obtain ⟨-, -, rfl⟩ := packU_some hv
    have := ReadsNodes.binary k (leBytes 4 n.toNat) rest more r hk (by rw [leBytes_length]; omega) hr
    rw [leBytes_length] at this
    simp only [nodesV, List.cons_append, List.append_assoc, List.nil_append]
    exact this
  | .bytes d => by
    intro b h hc rest more r hr
    simp only [encV, Option.bind_eq_bind, Option.bind_eq_some_iff, Option.some.injEq] at h
    obtain ⟨n, hn, rfl⟩ := h
    exact reads_binary k hk d n hn rest more r hr
  | .strings l => by
    intro b h hc rest more r hr
    simp only [encV] at h
    simp only [nodesV]
    simp only [CleanV] at hc
    induction l generalizing b with
    | nil =>
      simp only [List.map_nil, cat_nil_iff] at h
      subst h; exact hr
    | cons p l ih =>
      simp only [List.map_cons, cat_cons_iff] at h
      obtain ⟨x, hx, y, hy, rfl⟩ := h
      simp only [List.map_cons, List.cons_append, List.append_assoc]
      exact reads_text k hk p.1 p.2 (hc p (by simp)) x hx _ _ r (ih y hy (fun q hq => hc q (by simp [hq])))
theorem readsL (k : Bytes) (hk : k.length = 4) : ∀ (l : List PV) (b : Bytes), encList k l = some b → CleanL l → ∀ (rest : Bytes)
    (more : List InfoNode) (r : Bytes), ReadsNodes rest more r → ReadsNodes (b ++ rest) (nodesL k l ++ more) r
  | [] => by
    intro b h hc rest more r hr
    simp only [encList, Option.some.injEq] at h
    subst h; exact hr
  | v :: l => by
    intro b h hc rest more r hr
    simp only [encList, Option.bind_eq_bind, Option.bind_eq_some_iff, Option.some.injEq] at h
    obtain ⟨x, hx, y, hy, rfl⟩ := h
    simp only [nodesL, List.append_assoc]
    exact readsV k hk v x hx hc.1 _ _ r (readsL k hk l y hy hc.2 rest more r hr)
theorem readsP : ∀ (l : List (Key × PV)) (b : Bytes), encPairs l = some b → CleanP l → ∀ (rest : Bytes)
    (more : List InfoNode) (r : Bytes), ReadsNodes rest more r → ReadsNodes (b ++ rest) (nodesP l ++ more) r
  | [] => by
    intro b h hc rest more r hr
    simp only [encPairs, Option.some.injEq] at h
    subst h; exact hr
  | (k, v) :: l => by
    intro b h hc rest more r hr
    simp only [encPairs, Option.bind_eq_bind, Option.bind_eq_some_iff, Option.some.injEq] at h
    obtain ⟨kb, hkb, x, hx, y, hy, rfl⟩ := h
    rw [key_encode hkb] at hx
    simp only [nodesP, List.append_assoc]
    exact readsV _ hc.1 v x hx hc.2.1 _ _ r (readsP l y hy hc.2.2 rest more r hr)
end

/-- **C70** Every tree of properties with ids of four bytes and without zero bytes in its texts is written as exactly the nodes it stands
for: nothing lost, nothing merged, in the order given. -/
theorem props_nodes (l : List (Key × PV)) (bs : Bytes) (h : propsData l = some bs) (hc : CleanP l) :
    ∃ body, bs = 0x14 :: body ∧ ReadsNodes body (nodesP l) [] := by
  simp only [propsData, Option.bind_eq_bind, Option.bind_eq_some_iff, Option.some.injEq] at h
  obtain ⟨b, hb, rfl⟩ := h
  refine ⟨_, rfl, ?_⟩
  have := readsP l b hb hc [0] [] [] (.stop [])
  rwa [List.append_nil] at this

/-! ## What the game learns -/

/-- A text with its languages: a plain text has language 0, a translated text begins with the default, language 7F. -/
def Text.pairs : Text → List (UInt8 × Bytes)
  | .str b => [(0, b)]
  | .ref d o => (0x7f, d) :: o.map fun p => (UInt8.ofNat p.1.toNat, p.2)

/-- No zero byte in it. -/
def Text.Clean (t : Text) : Prop := ∀ p ∈ t.pairs, (0 : UInt8) ∉ p.2

/-- The parameter as it was declared. -/
def Param.told : Param → GameParam
  | .bool n d dflt => { names := n.pairs, descs := d.pairs, type := 1, default := if dflt = some true then 1 else 0 }
  | .int n d dflt limits enum =>
    { names := n.pairs, descs := d.pairs, type := 0, min := (limits.map (·.1.toNat)).getD 0,
      max := (limits.map (·.2.toNat)).getD 4294967295, default := (dflt.getD 0).toNat,
      values := (enum.getD []).flatMap fun e => e.2.pairs.map fun p => (e.1.toNat, p.1, p.2) }

/-- The texts of a parameter have no zero byte. -/
def Param.Clean : Param → Prop
  | .bool n d _ => n.Clean ∧ d.Clean
  | .int n d _ _ enum => n.Clean ∧ d.Clean ∧ ∀ e ∈ enum.getD [], e.2.Clean

/-- The texts about the NewGRF have no zero byte. -/
def Args.Clean (a : Args) : Prop := a.name.Clean ∧ a.description.Clean ∧ ∀ u, a.url = some u → (0 : UInt8) ∉ u

theorem nodesP_append (a b : List (Key × PV)) : nodesP (a ++ b) = nodesP a ++ nodesP b := by
  induction a with
  | nil => rfl
  | cons p a ih => obtain ⟨k, v⟩ := p; simp only [List.cons_append, nodesP, ih, List.append_assoc]

theorem cleanP_append (a b : List (Key × PV)) : CleanP (a ++ b) ↔ CleanP a ∧ CleanP b := by
  induction a with
  | nil => simp [CleanP]
  | cons p a ih => obtain ⟨k, v⟩ := p; simp only [List.cons_append, CleanP, ih, and_assoc]

theorem text_nodes (k : Bytes) (t : Text) : nodesV k t.value = t.pairs.map fun p => .text k p.1 p.2 := by
  cases t with
  | str b => rfl
  | ref d o => simp [Text.value, nodesV, Text.pairs]

theorem text_clean (t : Text) (h : t.Clean) : CleanV t.value := by
  cases t with
  | str b => simpa [Text.value, CleanV, Text.Clean, Text.pairs] using h
  | ref d o =>
    simp only [Text.value, CleanV]
    intro p hp
    rcases List.mem_cons.1 hp with rfl | hp
    · exact h (0x7f, d) (by simp [Text.pairs])
    · exact h (UInt8.ofNat p.1.toNat, p.2) (by simp only [Text.pairs, List.mem_cons, List.mem_map]; exact .inr ⟨p, hp, rfl⟩)

theorem dword_bytes {n : Nat} (h : n < 4294967296) : long4 (leBytes 4 n) = some n := by
  simp only [leBytes, long4, UInt8.toNat_ofNat', Option.some.injEq]
  omega

theorem dword_packed {n : Int} {b : Bytes} (h : packU 4 n = some b) : long4 b = some n.toNat ∧ b.length = 4 := by
  obtain ⟨h0, h1, rfl⟩ := packU_some h
  exact ⟨dword_bytes (by omega), leBytes_length 4 _⟩

theorem param_names (g : GameParam) (l : List (UInt8 × Bytes)) :
    (l.map fun p => InfoNode.text [0x4e, 0x41, 0x4d, 0x45] p.1 p.2).foldl paramNode g = { g with names := g.names ++ l } := by
  induction l generalizing g with
  | nil => simp
  | cons p l ih =>
    rw [List.map_cons, List.foldl_cons, ih]
    have : tag "NAME" = [0x4e, 0x41, 0x4d, 0x45] := by decide
    simp [paramNode, this]

theorem param_descs (g : GameParam) (l : List (UInt8 × Bytes)) :
    (l.map fun p => InfoNode.text [0x44, 0x45, 0x53, 0x43] p.1 p.2).foldl paramNode g = { g with descs := g.descs ++ l } := by
  induction l generalizing g with
  | nil => simp
  | cons p l ih =>
    rw [List.map_cons, List.foldl_cons, ih]
    have h1 : tag "NAME" = [0x4e, 0x41, 0x4d, 0x45] := by decide
    have h2 : tag "DESC" = [0x44, 0x45, 0x53, 0x43] := by decide
    simp [paramNode, h1, h2]

theorem param_type (g : GameParam) (t : UInt8) (h : t.toNat < 2) :
    paramNode g (.binary [0x54, 0x59, 0x50, 0x45] [t]) = { g with type := t.toNat } := by
  have h1 : tag "TYPE" = [0x54, 0x59, 0x50, 0x45] := by decide
  simp [paramNode, h1, h]

theorem param_default (g : GameParam) (d : Bytes) (n : Nat) (h : long4 d = some n) :
    paramNode g (.binary [0x44, 0x46, 0x4c, 0x54] d) = { g with default := n } := by
  have h1 : tag "TYPE" = [0x54, 0x59, 0x50, 0x45] := by decide
  have h2 : tag "LIMI" = [0x4c, 0x49, 0x4d, 0x49] := by decide
  have h3 : tag "DFLT" = [0x44, 0x46, 0x4c, 0x54] := by decide
  simp [paramNode, h1, h2, h3, h]

theorem param_limits (g : GameParam) (a b : Bytes) (m n : Nat) (ha : long4 a = some m) (hl : a.length = 4) (hb : long4 b = some n)
    (ht : g.type = 0) : paramNode g (.binary [0x4c, 0x49, 0x4d, 0x49] (a ++ b)) = { g with min := m, max := n } := by
  have h1 : tag "TYPE" = [0x54, 0x59, 0x50, 0x45] := by decide
  have h2 : tag "LIMI" = [0x4c, 0x49, 0x4d, 0x49] := by decide
  simp only [paramNode, h1, h2, ht]
  rw [List.take_left' hl, List.drop_left' hl, ha, hb]
  simp

theorem param_values (g : GameParam) (sub : List InfoNode) :
    paramNode g (.branch [0x56, 0x41, 0x4c, 0x55] sub) = { g with values := g.values ++ sub.filterMap valueName } := by
  have h1 : tag "VALU" = [0x56, 0x41, 0x4c, 0x55] := by decide
  simp [paramNode, h1]

theorem value_names (e : List (Int × Text)) (b : Bytes) (h : encPairs (e.map fun p => (Key.int p.1, p.2.value)) = some b) :
    (nodesP (e.map fun p => (Key.int p.1, p.2.value))).filterMap valueName =
      e.flatMap fun e => e.2.pairs.map fun p => (e.1.toNat, p.1, p.2) := by
  induction e generalizing b with
  | nil => rfl
  | cons p e ih =>
    simp only [List.map_cons, encPairs, Option.bind_eq_bind, Option.bind_eq_some_iff, Option.some.injEq] at h
    obtain ⟨kb, hk, x, -, y, hy, -⟩ := h
    simp only [List.map_cons, nodesP, List.filterMap_append, List.flatMap_cons, ih y hy]
    congr 1
    rw [text_nodes]
    obtain ⟨h1, -⟩ := dword_packed hk
    have e : Info.key (.int p.1) = kb := (key_encode hk).symm
    rw [e, List.filterMap_map]
    induction p.2.pairs with
    | nil => rfl
    | cons q l ih2 => simp [valueName, h1, ih2]

/-- What the game makes of the nodes of a parameter. -/
theorem param_told (p : Param) (l : List (Key × PV)) (h : paramData p = some l) (b : Bytes) (hb : encPairs l = some b) :
    (nodesP l).foldl paramNode {} = p.told := by
  cases p with
  | bool n d dflt =>
    simp only [paramData, Option.some.injEq] at h
    subst h
    simp only [nodesP_append, paramHead, nodesP, text_nodes, List.foldl_append, List.append_nil, Info.key, key]
    rw [param_names, param_descs]
    simp only [nodesV, List.foldl_cons, List.foldl_nil]
    rw [param_type _ 1 (by decide)]
    cases dflt with
    | none => simp [nodesP, Param.told, defaultEntries]
    | some v =>
      simp only [Option.map_some, defaultEntries, nodesP, defaultEntry, nodesV, Info.key, key, List.append_nil, List.foldl_cons, List.foldl_nil]
      rw [param_default _ _ (if v then 1 else 0) (by cases v <;> decide)]
      cases v <;> simp [Param.told]
  | int n d dflt limits enum =>
    simp only [paramData, Option.bind_eq_bind, Option.bind_eq_some_iff, Option.some.injEq] at h
    obtain ⟨lim, hl, rfl⟩ := h
    rw [encPairs_append, Option.bind_eq_some_iff] at hb
    obtain ⟨b1, hb1, hb⟩ := hb
    rw [Option.map_eq_some_iff] at hb
    obtain ⟨b2, hb2, -⟩ := hb
    rw [encPairs_append, Option.bind_eq_some_iff] at hb1
    obtain ⟨b3, hb3, -⟩ := hb1
    rw [encPairs_append, Option.bind_eq_some_iff] at hb3
    obtain ⟨b5, hb5, hb6⟩ := hb3
    rw [Option.map_eq_some_iff] at hb6
    obtain ⟨b6, hb6, -⟩ := hb6
    simp only [nodesP_append, paramHead, nodesP, text_nodes, List.foldl_append, List.append_nil, Info.key, key]
    rw [param_names, param_descs]
    simp only [nodesV, List.foldl_cons, List.foldl_nil]
    rw [param_type _ 0 (by decide)]
    -- the default
    have e1 : ∀ g : GameParam, g.default = 0 → (nodesP (defaultEntries dflt)).foldl paramNode g =
        { g with default := (dflt.getD 0).toNat } := by
      intro g hg
      cases dflt with
      | none => simp [nodesP, defaultEntries, ← hg]
      | some v =>
        simp only [defaultEntries, encPairs, defaultEntry, Option.bind_eq_bind, Option.bind_eq_some_iff, Option.some.injEq, encV] at hb6
        obtain ⟨_, -, _, ⟨w, hw, -⟩, -⟩ := hb6
        obtain ⟨hd, -⟩ := dword_packed hw
        obtain ⟨-, -, rfl⟩ := packU_some hw
        simp only [defaultEntries, nodesP, defaultEntry, nodesV, Info.key, key, List.append_nil, List.foldl_cons, List.foldl_nil]
        rw [param_default _ _ _ hd]
        rfl
    have e2 : ∀ g : GameParam, g.type = 0 → g.min = 0 → g.max = 4294967295 → (nodesP lim).foldl paramNode g =
        { g with min := (limits.map (·.1.toNat)).getD 0, max := (limits.map (·.2.toNat)).getD 4294967295 } := by
      intro g ht h0 h1
      cases limits with
      | none =>
        simp only [limitsEntry, Option.some.injEq] at hl
        subst hl
        simp [nodesP, ← h0, ← h1]
      | some q =>
        simp only [limitsEntry, Option.map_eq_some_iff, packLimits, Option.bind_eq_bind, Option.bind_eq_some_iff, Option.some.injEq] at hl
        obtain ⟨_, ⟨x, hx, y, hy, rfl⟩, rfl⟩ := hl
        simp only [nodesP, nodesV, Info.key, key, List.append_nil, List.foldl_cons, List.foldl_nil]
        obtain ⟨h2, h3⟩ := dword_packed hx
        rw [param_limits _ _ _ _ _ h2 h3 (dword_packed hy).1 ht]
        rfl
    have e3 : ∀ g : GameParam, g.values = [] →
        (nodesP (enumEntry enum)).foldl
          paramNode g = { g with values := (enum.getD []).flatMap fun e => e.2.pairs.map fun p => (e.1.toNat, p.1, p.2) } := by
      intro g hg
      cases enum with
      | none => simp [nodesP, enumEntry, ← hg]
      | some e =>
        simp only [enumEntry, encPairs, Option.bind_eq_bind, Option.bind_eq_some_iff, Option.some.injEq, encV] at hb2
        obtain ⟨_, -, _, ⟨w, hw, -⟩, -⟩ := hb2
        simp only [enumEntry, nodesP, nodesV, Info.key, key, List.append_nil, List.foldl_cons, List.foldl_nil]
        rw [param_values, value_names e w hw, hg]
        rfl
    rw [e1 _ rfl, e2 _ rfl rfl rfl]
    rw [e3 _ rfl]
    simp [Param.told]

/-! ## The whole block -/

theorem info_names (g : GameInfo) (l : List (UInt8 × Bytes)) :
    (l.map fun p => InfoNode.text [0x4e, 0x41, 0x4d, 0x45] p.1 p.2).foldl infoNode g = { g with names := g.names ++ l } := by
  induction l generalizing g with
  | nil => simp
  | cons p l ih =>
    rw [List.map_cons, List.foldl_cons, ih]
    have : tag "NAME" = [0x4e, 0x41, 0x4d, 0x45] := by decide
    simp [infoNode, this]

theorem info_descs (g : GameInfo) (l : List (UInt8 × Bytes)) :
    (l.map fun p => InfoNode.text [0x44, 0x45, 0x53, 0x43] p.1 p.2).foldl infoNode g = { g with descs := g.descs ++ l } := by
  induction l generalizing g with
  | nil => simp
  | cons p l ih =>
    rw [List.map_cons, List.foldl_cons, ih]
    have h1 : tag "NAME" = [0x4e, 0x41, 0x4d, 0x45] := by decide
    have h2 : tag "DESC" = [0x44, 0x45, 0x53, 0x43] := by decide
    simp [infoNode, h1, h2]

theorem tags : tag "NAME" = [0x4e, 0x41, 0x4d, 0x45] ∧ tag "DESC" = [0x44, 0x45, 0x53, 0x43] ∧ tag "URL_" = [0x55, 0x52, 0x4c, 0x5f] ∧
    tag "PALS" = [0x50, 0x41, 0x4c, 0x53] ∧ tag "BLTR" = [0x42, 0x4c, 0x54, 0x52] ∧ tag "VRSN" = [0x56, 0x52, 0x53, 0x4e] ∧
    tag "MINV" = [0x4d, 0x49, 0x4e, 0x56] ∧ tag "NPAR" = [0x4e, 0x50, 0x41, 0x52] ∧ tag "PARA" = [0x50, 0x41, 0x52, 0x41] ∧
    tag "INFO" = [0x49, 0x4e, 0x46, 0x4f] := by decide

theorem pair_written {k : Key} {v : PV} {l : List (Key × PV)} {b : Bytes} (h : encPairs ((k, v) :: l) = some b) :
    ∃ x y, encV (Info.key k) v = some x ∧ encPairs l = some y ∧ b = x ++ y := by
  simp only [encPairs, Option.bind_eq_bind, Option.bind_eq_some_iff, Option.some.injEq] at h
  obtain ⟨kb, hk, x, hx, y, hy, rfl⟩ := h
  rw [key_encode hk] at hx
  exact ⟨x, y, hx, hy, rfl⟩

theorem key_written {k : Int} {v : PV} {l : List (Key × PV)} {b : Bytes} (h : encPairs ((.int k, v) :: l) = some b) :
    long4 (Info.key (.int k)) = some k.toNat := by
  simp only [encPairs, Option.bind_eq_bind, Option.bind_eq_some_iff, Option.some.injEq] at h
  obtain ⟨kb, hk, -⟩ := h
  rw [← key_encode hk]
  exact (dword_packed hk).1

theorem same_params (g : GameInfo) (f : Nat → Option GameParam) (h : ∀ i, f i = g.params i) : { g with params := f } = g := by
  have : f = g.params := funext h
  rw [this]

theorem params_congr (g : GameInfo) (f f' : Nat → Option GameParam) (h : ∀ i, f i = f' i) :
    { g with params := f } = { g with params := f' } := by
  have : f = f' := funext h
  rw [this]

/-- What the game makes of the list of parameters. -/
theorem params_told (ps : List Param) (ds : List (List (Key × PV))) (h : ps.mapM paramData = some ds) (k : Nat) (b : Bytes)
    (hb : encPairs (numbered k ds) = some b) (g : GameInfo) (hg : ∀ i, k ≤ i → g.params i = none) :
    (nodesP (numbered k ds)).foldl paramsNode g =
      { g with params := fun i => if k ≤ i ∧ i < g.count then ps[i - k]?.map Param.told else g.params i } := by
  induction ps generalizing ds k b g with
  | nil =>
    simp only [List.mapM_nil, Option.pure_def, Option.some.injEq] at h
    subst h
    simp only [numbered, nodesP, List.foldl_nil, List.getElem?_nil, Option.map_none]
    refine (same_params g _ fun i => ?_).symm
    split
    · rename_i e; rw [hg i e.1]
    · rfl
  | cons p ps ih =>
    simp only [List.mapM_cons, Option.pure_def, Option.bind_eq_bind, Option.bind_eq_some_iff, Option.some.injEq] at h
    obtain ⟨d, hd, ds, hds, rfl⟩ := h
    simp only [numbered] at hb ⊢
    have hk := key_written hb
    obtain ⟨x, y, hx, hy, -⟩ := pair_written hb
    simp only [encV, Option.bind_eq_bind, Option.bind_eq_some_iff, Option.some.injEq] at hx
    obtain ⟨z, hz, -⟩ := hx
    have e1 := param_told p d hd z hz
    simp only [nodesP, nodesV, List.cons_append, List.nil_append, List.foldl_cons]
    have e2 : paramsNode g (.branch (Info.key (.int (k : Int))) (nodesP d)) =
        { g with params := fun i => if i = k ∧ i < g.count then some p.told else g.params i } := by
      simp only [paramsNode, hk, Int.toNat_natCast, hg k (Nat.le_refl _), Option.getD_none, e1]
      by_cases c : k < g.count
      · rw [if_pos c]
        refine params_congr g _ _ fun i => ?_
        by_cases e : i = k
        · subst e; simp [c]
        · simp [e]
      · rw [if_neg c]
        refine (same_params g _ fun i => ?_).symm
        rw [if_neg]
        rintro ⟨rfl, e⟩
        exact c e
    rw [e2, ih ds hds (k + 1) y hy _ (by intro i hi; simp only; rw [if_neg (by omega)]; exact hg i (by omega))]
    refine params_congr g _ _ fun i => ?_
    simp only
    by_cases c1 : i < g.count
    · by_cases c2 : i = k
      · subst c2
        simp [c1, Nat.not_succ_le_self]
      · by_cases c3 : k ≤ i
        · rw [if_pos ⟨by omega, c1⟩, if_pos ⟨c3, c1⟩]
          obtain ⟨j, rfl⟩ : ∃ j, i = k + 1 + j := ⟨i - (k + 1), by omega⟩
          rw [show k + 1 + j - (k + 1) = j by omega, show k + 1 + j - k = j + 1 by omega, List.getElem?_cons_succ]
        · rw [if_neg (by omega), if_neg (by omega), if_neg (by omega)]
    · rw [if_neg (by omega), if_neg (by omega), if_neg (by omega)]

theorem params_clean (ps : List Param) (ds : List (List (Key × PV))) (h : ps.mapM paramData = some ds) (hc : ∀ p ∈ ps, p.Clean) (k : Nat) :
    CleanP (numbered k ds) := by
  induction ps generalizing ds k with
  | nil =>
    simp only [List.mapM_nil, Option.pure_def, Option.some.injEq] at h
    subst h
    trivial
  | cons p ps ih =>
    simp only [List.mapM_cons, Option.pure_def, Option.bind_eq_bind, Option.bind_eq_some_iff, Option.some.injEq] at h
    obtain ⟨d, hd, ds, hds, rfl⟩ := h
    refine ⟨leBytes_length 4 _, ?_, ih ds hds (fun q hq => hc q (by simp [hq])) (k + 1)⟩
    simp only [CleanV]
    have hp := hc p (by simp)
    have hdef : ∀ o, CleanP (defaultEntries o) := by
      intro o; cases o <;> simp [defaultEntries, defaultEntry, CleanP, CleanV, Info.key, key]
    cases p with
    | bool n e dflt =>
      simp only [paramData, Option.some.injEq] at hd
      subst hd
      rw [cleanP_append]
      refine ⟨?_, hdef _⟩
      simp only [paramHead, CleanP, CleanV, Info.key, key, List.length_cons, List.length_nil, true_and, and_true]
      exact ⟨text_clean n hp.1, text_clean e hp.2⟩
    | int n e dflt limits enum =>
      simp only [paramData, Option.bind_eq_bind, Option.bind_eq_some_iff, Option.some.injEq] at hd
      obtain ⟨lim, hl, rfl⟩ := hd
      rw [cleanP_append, cleanP_append, cleanP_append]
      refine ⟨⟨⟨?_, hdef _⟩, ?_⟩, ?_⟩
      · simp only [paramHead, CleanP, CleanV, Info.key, key, List.length_cons, List.length_nil, true_and, and_true]
        exact ⟨text_clean n hp.1, text_clean e hp.2.1⟩
      · cases limits with
        | none => simp only [limitsEntry, Option.some.injEq] at hl; subst hl; trivial
        | some q =>
          simp only [limitsEntry, Option.map_eq_some_iff] at hl
          obtain ⟨_, -, rfl⟩ := hl
          simp [CleanP, CleanV, Info.key, key]
      · cases enum with
        | none => trivial
        | some l =>
          simp only [enumEntry, CleanP, CleanV, Info.key, key, List.length_cons, List.length_nil, true_and, and_true]
          have := hp.2.2
          simp only [Option.getD_some] at this
          clear hl hp hc
          induction l with
          | nil => trivial
          | cons q l ih2 =>
            refine ⟨leBytes_length 4 _, text_clean q.2 (this q (by simp)), ih2 (fun r hr => this r (by simp [hr]))⟩

/-- What the game makes of the number of parameters and their list. -/
theorem params_block (ps : List Param) (ds : List (List (Key × PV))) (h : ps.mapM paramData = some ds) (hlen : ps.length = ds.length)
    (n : Bytes) (hn : packU 1 (ds.length : Int) = some n) (b : Bytes)
    (hb : encPairs [(key 0x4e 0x50 0x41 0x52, .bytes n), (key 0x50 0x41 0x52 0x41, .dict (numbered 0 ds))] = some b) (g : GameInfo)
    (hg : g.params = fun _ => none) :
    (nodesP [(key 0x4e 0x50 0x41 0x52, .bytes n), (key 0x50 0x41 0x52 0x41, .dict (numbered 0 ds))]).foldl infoNode g =
      { g with count := Nat.min ps.length 128, params := fun i => if i < 128 then ps[i]?.map Param.told else none } := by
  obtain ⟨tN, tD, tU, tP, tB, tV, tM, tNP, tPA, tI⟩ := tags
  obtain ⟨c, rfl, hc⟩ := PropC.packU_one_some hn
  obtain ⟨x, y, -, hy, -⟩ := pair_written hb
  have hz : ∃ z, encPairs (numbered 0 ds) = some z := by
    generalize numbered 0 ds = N at hy
    simp only [encPairs, encV, Option.bind_eq_bind, Option.bind_eq_some_iff] at hy
    obtain ⟨_, -, _, ⟨z, hz, -⟩, -⟩ := hy
    exact ⟨z, hz⟩
  obtain ⟨z, hz⟩ := hz
  have hcn : c.toNat = ps.length := by omega
  have hf : (fun i => if i < Nat.min ps.length 128 then ps[i]?.map Param.told else none) =
      fun i => if i < 128 then ps[i]?.map Param.told else none := by
    funext i
    by_cases e : i < 128
    · rw [if_pos e]
      by_cases e2 : i < ps.length
      · rw [if_pos (Nat.lt_min.2 ⟨e2, e⟩)]
      · rw [if_neg (fun q => e2 (Nat.lt_min.1 q).1), List.getElem?_eq_none (Nat.le_of_not_lt e2)]; rfl
    · rw [if_neg e, if_neg (fun q => e (Nat.lt_min.1 q).2)]
  have p6 : ∀ g : GameInfo, infoNode g (.binary [0x4e, 0x50, 0x41, 0x52] [c]) = { g with count := Nat.min c.toNat 128 } := by
    intro g; simp [infoNode, tP, tB, tV, tM, tNP]
  have p7 : ∀ (g : GameInfo) sub, infoNode g (.branch [0x50, 0x41, 0x52, 0x41] sub) = sub.foldl paramsNode g := by
    intro g sub; simp [infoNode, tPA]
  simp only [nodesP, nodesV, Info.key, key, List.append_nil, List.cons_append, List.nil_append, List.foldl_cons, List.foldl_nil]
  rw [p6, p7, params_told ps ds h 0 z hz _ (fun i _ => by simp only [hg])]
  simp only [hcn, Nat.zero_le, true_and, Nat.sub_zero, hg]
  rw [hf]

/-- What the arguments of `NewGRF` and the parameters added to it mean. -/
def told (a : Args) (ps : List Param) : GameInfo :=
  { names := a.name.pairs
    descs := a.description.pairs
    urls := (a.url.map fun u => [((0 : UInt8), u)]).getD []
    palette := some 0x44
    blitter := a.blitter.bind List.head?
    version := (a.version.getD 0).toNat
    minVersion := Nat.min (a.minVersion.getD 0).toNat (a.version.getD 0).toNat
    count := if ps = [] then 128 else Nat.min ps.length 128
    params := fun i => if i < 128 then ps[i]?.map Param.told else none }

/-- **C70** What the game learns from the block of information of a NewGRF is what the arguments of `NewGRF` and the added
parameters mean, whatever they are: names and descriptions in all their languages, the link, the palette, the blitter, the versions, and
every parameter with its texts, type, limits, default and names of values, in the order they were added, up to the 128 the game has. -/
theorem info_told (a : Args) (ps : List Param) (bs : Bytes) (h : infoBytes a ps = some bs) (ha : a.Clean) (hp : ∀ p ∈ ps, p.Clean) :
    ∃ body nodes, bs = 0x14 :: body ∧ ReadsNodes body nodes [] ∧ gameInfo nodes = told a ps := by
  simp only [infoBytes, Option.bind_eq_bind, Option.bind_eq_some_iff] at h
  obtain ⟨en, hen, ds, hds, more, hmore, hb⟩ := h
  obtain ⟨tN, tD, tU, tP, tB, tV, tM, tNP, tPA, tI⟩ := tags
  unfold newGrf at hen
  split at hen
  · cases hen
  rename_i hgrf
  split at hen
  · cases hen
  rename_i hblt
  simp only [Option.some.injEq] at hen
  subst hen
  have hlen : ps.length = ds.length := by
    clear hmore hb
    induction ps generalizing ds with
    | nil => simp only [List.mapM_nil, Option.pure_def, Option.some.injEq] at hds; subst hds; rfl
    | cons p ps ih =>
      simp only [List.mapM_cons, Option.pure_def, Option.bind_eq_bind, Option.bind_eq_some_iff, Option.some.injEq] at hds
      obtain ⟨d, hd, ds', hds', rfl⟩ := hds
      simp [ih (fun q hq => hp q (by simp [hq])) ds' hds']
  have hcl : CleanP [(key 0x49 0x4e 0x46 0x4f, .dict ([(key 0x50 0x41 0x4c 0x53, .bytes [0x44]),
      (key 0x4e 0x41 0x4d 0x45, a.name.value),
      (key 0x44 0x45 0x53 0x43, a.description.value)] ++
    optional (key 0x42 0x4c 0x54 0x52) (a.blitter.map .bytes) ++
    optional (key 0x56 0x52 0x53 0x4e) (a.version.map .int) ++
    optional (key 0x4d 0x49 0x4e 0x56) (a.minVersion.map .int) ++
    optional (key 0x55 0x52 0x4c 0x5f) (a.url.map .str) ++ more))] := by
    simp only [CleanP, CleanV, Info.key, key, List.length_cons, List.length_nil, true_and, and_true, cleanP_append]
    refine ⟨⟨⟨⟨⟨⟨text_clean _ ha.1, text_clean _ ha.2.1⟩, ?_⟩, ?_⟩, ?_⟩, ?_⟩, ?_⟩
    · cases a.blitter <;> simp [optional, CleanP, CleanV, Info.key]
    · cases a.version <;> simp [optional, CleanP, CleanV, Info.key]
    · cases a.minVersion <;> simp [optional, CleanP, CleanV, Info.key]
    · cases e : a.url with
      | none => simp [optional, CleanP]
      | some u => simpa [optional, CleanP, CleanV, Info.key] using ha.2.2 u e
    · unfold paramEntries at hmore
      split at hmore
      · simp only [Option.some.injEq] at hmore; subst hmore; trivial
      · simp only [Option.bind_eq_bind, Option.bind_eq_some_iff, Option.some.injEq] at hmore
        obtain ⟨n, hn, rfl⟩ := hmore
        simp only [CleanP, CleanV, Info.key, key, List.length_cons, List.length_nil, true_and, and_true]
        exact params_clean ps ds hds hp 0
  obtain ⟨body, rfl, hr⟩ := props_nodes _ bs hb hcl
  refine ⟨body, _, rfl, hr, ?_⟩
  simp only [propsData, Option.bind_eq_bind, Option.bind_eq_some_iff] at hb
  obtain ⟨b, hb, -⟩ := hb
  obtain ⟨x, y, hx, -, -⟩ := pair_written hb
  simp only [encV, Option.bind_eq_bind, Option.bind_eq_some_iff] at hx
  obtain ⟨w, hw, -⟩ := hx
  simp only [encPairs_append, Option.bind_eq_some_iff, Option.map_eq_some_iff] at hw
  obtain ⟨w4, ⟨w3, ⟨w2, ⟨w1, ⟨w0, h0, w1', h1, -⟩, w2', h2, -⟩, w3', h3, -⟩, w4', h4, -⟩, w5', h5, -⟩ := hw
  simp only [nodesP, nodesV, List.append_nil, gameInfo, List.foldl_cons, List.foldl_nil, topNode, Info.key]
  rw [show key 0x49 0x4e 0x46 0x4f = Key.str [0x49, 0x4e, 0x46, 0x4f] from rfl]
  simp only [tI, if_true]
  simp only [nodesP_append, List.foldl_append, nodesP, nodesV, text_nodes, Info.key, key, List.cons_append,
    List.nil_append, List.foldl_cons]
  have p1 : infoNode {} (.binary [0x50, 0x41, 0x4c, 0x53] [0x44]) = ({ palette := some 0x44 } : GameInfo) := by simp [infoNode, tP]
  rw [p1, info_names, info_descs]
  have p2 : ∀ g : GameInfo, g.blitter = none → (nodesP (optional (.str [0x42, 0x4c, 0x54, 0x52]) (a.blitter.map .bytes))).foldl infoNode g =
      { g with blitter := a.blitter.bind List.head? } := by
    intro g hg
    cases hbl : a.blitter with
    | none => simp [optional, nodesP, ← hg]
    | some c =>
      have : c = [0x38] ∨ c = [0x33] := by
        rw [hbl] at hblt
        simp only [Option.any_some, decide_eq_true_eq] at hblt
        by_cases e : c = [0x38]
        · exact .inl e
        · exact .inr (Classical.byContradiction fun e2 => hblt ⟨e, e2⟩)
      rcases this with rfl | rfl <;> simp [optional, nodesP, nodesV, Info.key, infoNode, tP, tB]
  have p3 : ∀ g : GameInfo, g.version = 0 → (nodesP (optional (.str [0x56, 0x52, 0x53, 0x4e]) (a.version.map .int))).foldl infoNode g =
      { g with version := (a.version.getD 0).toNat } := by
    intro g hg
    cases hv : a.version with
    | none => simp [optional, nodesP, ← hg]
    | some v =>
      rw [hv] at h2
      simp only [Option.map_some, optional] at h2
      obtain ⟨x, y, hx, -, -⟩ := pair_written h2
      simp only [encV, Option.bind_eq_bind, Option.bind_eq_some_iff] at hx
      obtain ⟨z, hz, -⟩ := hx
      have hd := (dword_packed hz).1
      rw [(packU_some hz).2.2] at hd
      simp [optional, nodesP, nodesV, Info.key, infoNode, tP, tB, tV, hd]
  have p4 : ∀ g : GameInfo, g.minVersion = 0 → g.version = (a.version.getD 0).toNat →
      (nodesP (optional (.str [0x4d, 0x49, 0x4e, 0x56]) (a.minVersion.map .int))).foldl infoNode g =
      { g with minVersion := Nat.min (a.minVersion.getD 0).toNat (a.version.getD 0).toNat } := by
    intro g hg hgv
    cases hv : a.minVersion with
    | none =>
      simp only [Option.map_none, optional, nodesP, List.foldl_nil, Option.getD_none]
      rw [show Nat.min (Int.toNat 0) (a.version.getD 0).toNat = g.minVersion by rw [hg]; simp]
    | some v =>
      rw [hv] at h3
      simp only [Option.map_some, optional] at h3
      obtain ⟨x, y, hx, -, -⟩ := pair_written h3
      simp only [encV, Option.bind_eq_bind, Option.bind_eq_some_iff] at hx
      obtain ⟨z, hz, -⟩ := hx
      have hd := (dword_packed hz).1
      rw [(packU_some hz).2.2] at hd
      simp only [Option.map_some, optional, nodesP, nodesV, Info.key, List.append_nil, List.foldl_cons, List.foldl_nil, infoNode, tP, tB, tV, tM, hd]
      simp only [Option.getD_some, ← hgv]
      by_cases e : g.version = 0 <;> simp [e]
  have p5 : ∀ g : GameInfo, g.urls = [] → (nodesP (optional (.str [0x55, 0x52, 0x4c, 0x5f]) (a.url.map .str))).foldl infoNode g =
      { g with urls := (a.url.map fun u => [((0 : UInt8), u)]).getD [] } := by
    intro g hg
    cases hv : a.url with
    | none => simp [optional, nodesP, ← hg]
    | some v => simp [optional, nodesP, nodesV, Info.key, infoNode, tN, tD, tU, hg]
  rw [p2 _ rfl, p3 _ rfl, p4 _ rfl rfl, p5 _ rfl]
  unfold paramEntries at hmore
  split at hmore
  · rename_i hemp
    simp only [Option.some.injEq] at hmore
    subst hmore
    have : ps = [] := by
      rw [List.isEmpty_iff] at hemp
      subst hemp
      exact List.length_eq_zero_iff.1 hlen
    subst this
    simp [nodesP, told]
  · rename_i hemp
    simp only [Option.bind_eq_bind, Option.bind_eq_some_iff, Option.some.injEq] at hmore
    obtain ⟨n, hn, rfl⟩ := hmore
    have hne : ps ≠ [] := by
      rintro rfl
      simp only [List.length_nil] at hlen
      exact hemp (List.isEmpty_iff.2 (List.length_eq_zero_iff.1 hlen.symm))
    refine (params_block ps ds hds hlen n hn w5' h5 _ rfl).trans ?_
    simp only [told, if_neg hne, List.nil_append]

/-- So whoever reads the block learns this, and only this. -/
theorem info_learnt (a : Args) (ps : List Param) (body : Bytes) (nodes : List InfoNode) (rest : Bytes)
    (h : infoBytes a ps = some (0x14 :: body)) (ha : a.Clean) (hp : ∀ p ∈ ps, p.Clean) (hr : ReadsNodes body nodes rest) :
    rest = [] ∧ gameInfo nodes = told a ps := by
  obtain ⟨body', nodes', e, hr', hg⟩ := info_told a ps _ h ha hp
  simp only [List.cons.injEq, true_and] at e
  subst e
  obtain ⟨rfl, rfl⟩ := hr.unique hr'
  exact ⟨rfl, hg⟩

/-! ## When it is written -/

/-- The languages of a text are bytes. -/
def Text.Fits : Text → Prop
  | .str _ => True
  | .ref _ o => ∀ p ∈ o, 0 ≤ p.1 ∧ p.1 < 256

/-- A number of four bytes. -/
def Long (n : Int) : Prop := 0 ≤ n ∧ n < 4294967296

/-- The numbers of a parameter fit. -/
def Param.Fits : Param → Prop
  | .bool n d _ => n.Fits ∧ d.Fits
  | .int n d dflt limits enum => n.Fits ∧ d.Fits ∧ (∀ v ∈ dflt, Long v) ∧ (∀ l ∈ limits, Long l.1 ∧ Long l.2) ∧
    ∀ l ∈ enum, ∀ e ∈ l, Long e.1 ∧ e.2.Fits

theorem long_iff (n : Int) : (∃ b, packU 4 n = some b) ↔ Long n := by
  constructor
  · rintro ⟨b, h⟩
    obtain ⟨h0, h1, -⟩ := packU_some h
    exact ⟨h0, by omega⟩
  · rintro ⟨h0, h1⟩
    exact Option.isSome_iff_exists.1 ((PropC.packU_iff 4 n).2 ⟨h0, by omega⟩)

theorem byte_iff (n : Int) : (∃ b, packU 1 n = some b) ↔ 0 ≤ n ∧ n < 256 := by
  constructor
  · rintro ⟨b, h⟩
    obtain ⟨h0, h1, -⟩ := packU_some h
    exact ⟨h0, by omega⟩
  · rintro ⟨h0, h1⟩
    exact Option.isSome_iff_exists.1 ((PropC.packU_iff 1 n).2 ⟨h0, by omega⟩)

theorem chunk_iff (k : Bytes) (lang : Int) (t : Bytes) : (∃ b, textChunk k lang t = some b) ↔ 0 ≤ lang ∧ lang < 256 := by
  rw [← byte_iff]
  unfold textChunk
  constructor
  · rintro ⟨b, h⟩
    simp only [Option.bind_eq_bind, Option.bind_eq_some_iff] at h
    exact ⟨_, h.choose_spec.1⟩
  · rintro ⟨b, h⟩
    exact ⟨_, by rw [h]; rfl⟩

theorem text_fits (k : Bytes) (t : Text) : (∃ b, encV k t.value = some b) ↔ t.Fits := by
  cases t with
  | str b =>
    simp only [Text.value, encV, Text.Fits, iff_true]
    exact (chunk_iff k 0 b).2 (by omega)
  | ref d o =>
    simp only [Text.value, encV, Text.Fits, List.map_cons]
    have h0 := (chunk_iff k 0x7f d).2 (by omega)
    obtain ⟨x, hx⟩ := h0
    constructor
    · rintro ⟨b, h⟩ p hp
      rw [cat_cons_iff] at h
      obtain ⟨_, -, y, hy, -⟩ := h
      have := (PropC.cat_iff _).1 (by rw [hy]; rfl) (textChunk k p.1 p.2) (List.mem_map.2 ⟨p, hp, rfl⟩)
      obtain ⟨z, hz⟩ := Option.isSome_iff_exists.1 this
      exact (chunk_iff k p.1 p.2).1 ⟨z, hz⟩
    · intro h
      have : ∃ y, cat (o.map fun p => textChunk k p.1 p.2) = some y := by
        induction o with
        | nil => exact ⟨[], rfl⟩
        | cons p o ih =>
          obtain ⟨y, hy⟩ := ih (fun q hq => h q (by simp [hq]))
          obtain ⟨z, hz⟩ := (chunk_iff k p.1 p.2).2 (h p (by simp))
          exact ⟨z ++ y, by rw [List.map_cons, cat_cons_iff]; exact ⟨z, hz, y, hy, rfl⟩⟩
      obtain ⟨y, hy⟩ := this
      exact ⟨x ++ y, by rw [cat_cons_iff]; exact ⟨x, hx, y, hy, rfl⟩⟩

theorem pairs_cons_fits (k : Key) (v : PV) (l : List (Key × PV)) : (∃ b, encPairs ((k, v) :: l) = some b) ↔
    (∃ b, k.encode = some b) ∧ (∃ b, encV (Info.key k) v = some b) ∧ ∃ b, encPairs l = some b := by
  simp only [encPairs, Option.bind_eq_bind, Option.bind_eq_some_iff, Option.some.injEq]
  constructor
  · rintro ⟨b, kb, hk, x, hx, y, hy, -⟩
    rw [key_encode hk] at hx
    exact ⟨⟨kb, hk⟩, ⟨x, hx⟩, ⟨y, hy⟩⟩
  · rintro ⟨⟨kb, hk⟩, ⟨x, hx⟩, ⟨y, hy⟩⟩
    rw [← key_encode hk] at hx
    exact ⟨_, kb, hk, x, hx, y, hy, rfl⟩

theorem pairs_fits : ∀ l : List (Key × PV), (∃ b, encPairs l = some b) ↔
    ∀ e ∈ l, (∃ b, e.1.encode = some b) ∧ ∃ b, encV (Info.key e.1) e.2 = some b
  | [] => by simp [encPairs]
  | (k, v) :: l => by
    rw [pairs_cons_fits, pairs_fits l]
    simp only [List.mem_cons, forall_eq_or_imp, and_assoc]

theorem key_fits (a b c d : UInt8) : ∃ x, (key a b c d).encode = some x := ⟨_, rfl⟩

theorem bytes_fits (k b : Bytes) (h : b.length < 65536) : ∃ x, encV k (.bytes b) = some x := by
  obtain ⟨n, hn⟩ := Option.isSome_iff_exists.1 ((PropC.packU_iff 2 b.length).2 ⟨by omega, by omega⟩)
  exact ⟨_, by rw [encV, hn]; rfl⟩

theorem int_fits (k : Bytes) (n : Int) : (∃ x, encV k (.int n) = some x) ↔ Long n := by
  rw [← long_iff]
  simp only [encV, Option.bind_eq_bind, Option.bind_eq_some_iff, Option.some.injEq]
  constructor
  · rintro ⟨_, b, h, -⟩; exact ⟨b, h⟩
  · rintro ⟨b, h⟩; exact ⟨_, b, h, rfl⟩

theorem dict_fits (k : Bytes) (l : List (Key × PV)) : (∃ x, encV k (.dict l) = some x) ↔ ∃ b, encPairs l = some b := by
  simp only [encV, Option.bind_eq_bind, Option.bind_eq_some_iff, Option.some.injEq]
  constructor
  · rintro ⟨_, b, h, -⟩; exact ⟨b, h⟩
  · rintro ⟨b, h⟩; exact ⟨_, b, h, rfl⟩

theorem head_fits (n d : Text) (t : UInt8) : (∃ b, encPairs (paramHead n d t) = some b) ↔ n.Fits ∧ d.Fits := by
  rw [paramHead, pairs_cons_fits, pairs_cons_fits, pairs_cons_fits, text_fits, text_fits]
  have := bytes_fits (Info.key (key 0x54 0x59 0x50 0x45)) [t] (by simp)
  have k1 := key_fits
  exact ⟨fun h => ⟨h.2.1, h.2.2.2.1⟩, fun h => ⟨k1 .., h.1, k1 .., h.2, k1 .., this, ⟨[], rfl⟩⟩⟩

theorem append_fits (a b : List (Key × PV)) : (∃ x, encPairs (a ++ b) = some x) ↔ (∃ x, encPairs a = some x) ∧ ∃ x, encPairs b = some x := by
  simp only [pairs_fits, List.mem_append]
  exact ⟨fun h => ⟨fun e he => h e (.inl he), fun e he => h e (.inr he)⟩, fun h e he => he.elim (h.1 e) (h.2 e)⟩

theorem default_fits (o : Option Int) : (∃ b, encPairs (defaultEntries o) = some b) ↔ ∀ v ∈ o, Long v := by
  cases o with
  | none => simp [defaultEntries, encPairs]
  | some v =>
    simp only [defaultEntries, defaultEntry, pairs_fits, List.mem_singleton, forall_eq, int_fits, Option.mem_def, Option.some.injEq]
    exact ⟨fun h w e => e ▸ h.2, fun h => ⟨key_fits .., h v rfl⟩⟩

theorem param_fits (p : Param) : (∃ l, paramData p = some l ∧ ∃ b, encPairs l = some b) ↔ p.Fits := by
  cases p with
  | bool n d dflt =>
    simp only [paramData, Option.some.injEq, exists_eq_left', append_fits, head_fits, default_fits, Param.Fits]
    constructor
    · exact fun h => h.1
    · refine fun h => ⟨h, ?_⟩
      intro v hv
      cases dflt with
      | none => simp at hv
      | some b => cases b <;> simp at hv <;> subst hv <;> simp [Long]
  | int n d dflt limits enum =>
    simp only [paramData, Option.bind_eq_bind, Option.bind_eq_some_iff, Option.some.injEq, Param.Fits]
    have hen : (∃ b, encPairs (enumEntry enum) = some b) ↔ ∀ l ∈ enum, ∀ e ∈ l, Long e.1 ∧ e.2.Fits := by
      cases enum with
      | none => simp [enumEntry, encPairs]
      | some l =>
        simp only [enumEntry, pairs_cons_fits, dict_fits, pairs_fits, List.mem_map, Option.mem_def, Option.some.injEq]
        constructor
        · rintro ⟨-, h, -⟩ l' rfl e he
          obtain ⟨h1, h2⟩ := h _ ⟨e, he, rfl⟩
          exact ⟨(long_iff e.1).1 h1, (text_fits _ e.2).1 h2⟩
        · intro h
          refine ⟨key_fits .., ?_, by simp⟩
          rintro _ ⟨e, he, rfl⟩
          obtain ⟨h1, h2⟩ := h l rfl e he
          exact ⟨(long_iff e.1).2 h1, (text_fits _ e.2).2 h2⟩
    have hli : ∀ lim, limitsEntry limits = some lim → ∃ b, encPairs lim = some b := by
      intro lim hl
      cases limits with
      | none => simp only [limitsEntry, Option.some.injEq] at hl; subst hl; exact ⟨[], rfl⟩
      | some q =>
        simp only [limitsEntry, Option.map_eq_some_iff, packLimits, Option.bind_eq_bind, Option.bind_eq_some_iff, Option.some.injEq] at hl
        obtain ⟨_, ⟨x, hx, y, hy, rfl⟩, rfl⟩ := hl
        rw [pairs_cons_fits]
        refine ⟨key_fits .., bytes_fits _ _ ?_, ⟨[], rfl⟩⟩
        rw [List.length_append, (dword_packed hx).2, (dword_packed hy).2]
        omega
    have hlw : (∃ lim, limitsEntry limits = some lim) ↔ ∀ l ∈ limits, Long l.1 ∧ Long l.2 := by
      cases limits with
      | none => simp [limitsEntry]
      | some q =>
        simp only [limitsEntry, Option.map_eq_some_iff, packLimits, Option.bind_eq_bind, Option.bind_eq_some_iff, Option.some.injEq,
          Option.mem_def]
        constructor
        · rintro ⟨_, _, ⟨x, hx, y, hy, rfl⟩, -⟩ l rfl
          exact ⟨(long_iff _).1 ⟨x, hx⟩, (long_iff _).1 ⟨y, hy⟩⟩
        · intro h
          obtain ⟨h1, h2⟩ := h q rfl
          obtain ⟨x, hx⟩ := (long_iff _).2 h1
          obtain ⟨y, hy⟩ := (long_iff _).2 h2
          exact ⟨_, _, ⟨x, hx, y, hy, rfl⟩, rfl⟩
    constructor
    · rintro ⟨_, ⟨lim, hl, rfl⟩, hb⟩
      rw [append_fits, append_fits, append_fits, head_fits, default_fits, hen] at hb
      exact ⟨hb.1.1.1.1, hb.1.1.1.2, hb.1.1.2, hlw.1 ⟨lim, hl⟩, hb.2⟩
    · rintro ⟨h1, h2, h3, h4, h5⟩
      obtain ⟨lim, hl⟩ := hlw.2 h4
      refine ⟨_, ⟨lim, hl, rfl⟩, ?_⟩
      rw [append_fits, append_fits, append_fits, head_fits, default_fits, hen]
      exact ⟨⟨⟨⟨h1, h2⟩, h3⟩, hli lim hl⟩, h5⟩

theorem numbered_fits (ps : List Param) (k : Nat) (hk : k + ps.length ≤ 4294967296) :
    (∃ ds, ps.mapM paramData = some ds ∧ ∃ b, encPairs (numbered k ds) = some b) ↔ ∀ p ∈ ps, p.Fits := by
  induction ps generalizing k with
  | nil => simp [numbered, encPairs]
  | cons p ps ih =>
    simp only [List.length_cons] at hk
    simp only [List.mem_cons, forall_eq_or_imp, ← ih (k + 1) (by omega), ← param_fits p]
    simp only [List.mapM_cons, Option.pure_def, Option.bind_eq_bind, Option.bind_eq_some_iff, Option.some.injEq]
    constructor
    · rintro ⟨_, ⟨d, hd, ds, hds, rfl⟩, hb⟩
      rw [numbered, pairs_cons_fits, dict_fits] at hb
      exact ⟨⟨d, hd, hb.2.1⟩, ds, hds, hb.2.2⟩
    · rintro ⟨⟨d, hd, hb⟩, ds, hds, hb2⟩
      refine ⟨_, ⟨d, hd, ds, hds, rfl⟩, ?_⟩
      rw [numbered, pairs_cons_fits, dict_fits]
      exact ⟨(long_iff k).2 ⟨by omega, by omega⟩, hb, hb2⟩

/-- **C70** Exactly these arguments are written; everything else is refused. -/
theorem info_written_iff (a : Args) (ps : List Param) : (∃ bs, infoBytes a ps = some bs) ↔
    a.grfid.length = 4 ∧ (∀ b ∈ a.blitter, b = [0x38] ∨ b = [0x33]) ∧ a.name.Fits ∧ a.description.Fits ∧
    (∀ v ∈ a.version, Long v) ∧ (∀ v ∈ a.minVersion, Long v) ∧ ps.length < 256 ∧ ∀ p ∈ ps, p.Fits := by
  have hlen : ∀ ds, ps.mapM paramData = some ds → ps.length = ds.length := by
    clear a
    induction ps with
    | nil => intro ds h; simp only [List.mapM_nil, Option.pure_def, Option.some.injEq] at h; subst h; rfl
    | cons p ps ih =>
      intro ds h
      simp only [List.mapM_cons, Option.pure_def, Option.bind_eq_bind, Option.bind_eq_some_iff, Option.some.injEq] at h
      obtain ⟨d, hd, ds', hds', rfl⟩ := h
      simp [ih ds' hds']
  have h1 : ∀ en, newGrf a = some en → ((∃ b, encPairs en = some b) ↔ a.name.Fits ∧ a.description.Fits ∧
      (∀ v ∈ a.version, Long v) ∧ (∀ v ∈ a.minVersion, Long v)) := by
    intro en hen
    unfold newGrf at hen
    split at hen
    · cases hen
    split at hen
    · cases hen
    rename_i hblt
    simp only [Option.some.injEq] at hen
    subst hen
    simp only [append_fits, pairs_cons_fits, text_fits]
    have o1 : ∃ b, encPairs (optional (key 0x42 0x4c 0x54 0x52) (a.blitter.map .bytes)) = some b := by
      cases hb : a.blitter with
      | none => exact ⟨[], rfl⟩
      | some c =>
        simp only [Option.map_some, optional, pairs_cons_fits]
        refine ⟨key_fits .., bytes_fits _ _ ?_, ⟨[], rfl⟩⟩
        rw [hb] at hblt
        simp only [Option.any_some, decide_eq_true_eq] at hblt
        by_cases e : c = [0x38]
        · simp [e]
        · by_cases e2 : c = [0x33]
          · simp [e2]
          · exact absurd ⟨e, e2⟩ hblt
    have o2 : ∀ (k : Key) (v : Option Int), (∃ b, k.encode = some b) →
        ((∃ b, encPairs (optional k (v.map .int)) = some b) ↔ ∀ x ∈ v, Long x) := by
      intro k v hk
      cases v with
      | none => simp [optional, encPairs]
      | some v =>
        simp only [Option.map_some, optional, pairs_cons_fits, int_fits, Option.mem_def, Option.some.injEq]
        exact ⟨fun h w e => e ▸ h.2.1, fun h => ⟨hk, h v rfl, ⟨[], rfl⟩⟩⟩
    have o3 : ∃ b, encPairs (optional (key 0x55 0x52 0x4c 0x5f) (a.url.map .str)) = some b := by
      cases a.url with
      | none => exact ⟨[], rfl⟩
      | some u =>
        simp only [Option.map_some, optional, pairs_cons_fits]
        exact ⟨key_fits .., (chunk_iff _ 0 u).2 (by omega), ⟨[], rfl⟩⟩
    rw [o2 _ _ (key_fits ..), o2 _ _ (key_fits ..)]
    constructor
    · rintro ⟨⟨⟨⟨⟨-, -, -, h1, -, h2, -⟩, -⟩, h3⟩, h4⟩, -⟩
      exact ⟨h1, h2, h3, h4⟩
    · rintro ⟨h1, h2, h3, h4⟩
      exact ⟨⟨⟨⟨⟨key_fits .., bytes_fits _ _ (by decide), key_fits .., h1, key_fits .., h2, [], rfl⟩, o1⟩, h3⟩, h4⟩, o3⟩
  have h2 : (∃ ds, ps.mapM paramData = some ds ∧ ∃ more, paramEntries ds = some more ∧ ∃ b, encPairs more = some b) ↔
      ps.length < 256 ∧ ∀ p ∈ ps, p.Fits := by
    constructor
    · rintro ⟨ds, hds, more, hm, hb⟩
      have hl := hlen ds hds
      unfold paramEntries at hm
      split at hm
      · rename_i he
        rw [List.isEmpty_iff] at he
        subst he
        have : ps = [] := List.length_eq_zero_iff.1 hl
        subst this
        simp
      · simp only [Option.bind_eq_bind, Option.bind_eq_some_iff, Option.some.injEq] at hm
        obtain ⟨n, hn, rfl⟩ := hm
        rw [pairs_cons_fits, pairs_cons_fits, dict_fits] at hb
        have := (byte_iff _).1 ⟨n, hn⟩
        have hlt : ps.length < 256 := by omega
        exact ⟨hlt, (numbered_fits ps 0 (by omega)).1 ⟨ds, hds, hb.2.2.2.1⟩⟩
    · rintro ⟨hl, hp⟩
      obtain ⟨ds, hds, hb⟩ := (numbered_fits ps 0 (by omega)).2 hp
      have hl2 := hlen ds hds
      unfold paramEntries
      refine ⟨ds, hds, ?_⟩
      split
      · exact ⟨[], rfl, [], rfl⟩
      · obtain ⟨n, hn⟩ := (byte_iff (ds.length : Int)).2 (by omega)
        refine ⟨_, by rw [hn]; rfl, ?_⟩
        rw [pairs_cons_fits, pairs_cons_fits, dict_fits]
        refine ⟨key_fits .., bytes_fits _ _ ?_, key_fits .., hb, [], rfl⟩
        rw [packU_length hn]; omega
  have h3 : (∃ en, newGrf a = some en) ↔ a.grfid.length = 4 ∧ ∀ b ∈ a.blitter, b = [0x38] ∨ b = [0x33] := by
    unfold newGrf
    by_cases c1 : a.grfid.length = 4
    · rw [if_neg (by simp [c1])]
      cases a.blitter with
      | none => simp [c1]
      | some b =>
        by_cases e : b = [0x38]
        · simp [c1, e]
        · by_cases e2 : b = [0x33]
          · simp [c1, e2]
          · simp [c1, e, e2]
    · rw [if_pos c1]; simp [c1]
  simp only [infoBytes, Option.bind_eq_bind, Option.bind_eq_some_iff, propsData, Option.some.injEq]
  constructor
  · rintro ⟨bs, en, hen, ds, hds, more, hm, b, hb, -⟩
    have hb' := (pairs_cons_fits _ _ _).1 ⟨b, hb⟩
    rw [dict_fits, append_fits, h1 en hen] at hb'
    obtain ⟨-, ⟨⟨g1, g2, g3, g4⟩, g5⟩, -⟩ := hb'
    obtain ⟨f1, f2⟩ := h3.1 ⟨en, hen⟩
    obtain ⟨f3, f4⟩ := h2.1 ⟨ds, hds, more, hm, g5⟩
    exact ⟨f1, f2, g1, g2, g3, g4, f3, f4⟩
  · rintro ⟨f1, f2, g1, g2, g3, g4, f3, f4⟩
    obtain ⟨en, hen⟩ := h3.2 ⟨f1, f2⟩
    obtain ⟨ds, hds, more, hm, hb⟩ := h2.2 ⟨f3, f4⟩
    have : ∃ b, encPairs [(key 0x49 0x4e 0x46 0x4f, .dict (en ++ more))] = some b := by
      rw [pairs_cons_fits, dict_fits, append_fits, h1 en hen]
      exact ⟨key_fits .., ⟨⟨g1, g2, g3, g4⟩, hb⟩, [], rfl⟩
    obtain ⟨b, hb⟩ := this
    exact ⟨_, en, hen, ds, hds, more, hm, b, hb, rfl⟩

/-- **C70** The action that follows: the id, and the default name and description, in the documented form. -/
theorem description_told (a : Args) (bs : Bytes) : descriptionBytes a = some bs ↔
    a.grfid.length = 4 ∧ (∀ b ∈ a.blitter, b = [0x38] ∨ b = [0x33]) ∧ 0 ≤ a.formatVersion ∧ a.formatVersion < 256 ∧
    bs = [8, UInt8.ofNat a.formatVersion.toNat] ++ a.grfid ++ a.name.default ++ [0] ++ a.description.default ++ [0] := by
  have h3 : (∃ en, newGrf a = some en) ↔ a.grfid.length = 4 ∧ ∀ b ∈ a.blitter, b = [0x38] ∨ b = [0x33] := by
    unfold newGrf
    by_cases c1 : a.grfid.length = 4
    · rw [if_neg (by simp [c1])]
      cases a.blitter with
      | none => simp [c1]
      | some b =>
        by_cases e : b = [0x38]
        · simp [c1, e]
        · by_cases e2 : b = [0x33]
          · simp [c1, e2]
          · simp [c1, e, e2]
    · rw [if_pos c1]; simp [c1]
  rw [← and_assoc, ← h3]
  simp only [descriptionBytes, Option.bind_eq_some_iff, Description.getData, cat_cons_iff, cat_nil_iff, Option.bind_eq_bind, Option.some.injEq]
  constructor
  · rintro ⟨en, hen, h, ⟨x, hx, y, ⟨z, hz, w, rfl, rfl⟩, rfl⟩, rfl⟩
    obtain ⟨h0, h1, rfl⟩ := packU_some hz
    obtain ⟨-, -, rfl⟩ := packU_some hx
    refine ⟨⟨en, hen⟩, h0, by omega, ?_⟩
    simp [leBytes]
  · rintro ⟨⟨en, hen⟩, h0, h1, rfl⟩
    obtain ⟨x, hx⟩ := (byte_iff a.formatVersion).2 ⟨h0, h1⟩
    refine ⟨en, hen, _, ⟨[8], by decide, _, ⟨x, hx, _, rfl, rfl⟩, rfl⟩, ?_⟩
    obtain ⟨-, -, rfl⟩ := packU_some hx
    simp [leBytes]

/-- A NewGRF with a translated name and two parameters. -/
def exArgs : Args where
  grfid := [0x54, 0x45, 0x00, 0x01]
  name := .ref [65] [(1, [66]), (2, [67, 68])]
  description := .str [69]
  version := some 7
  minVersion := some 9
  url := some [104]
  blitter := some [0x38]

def exParams : List Param :=
  [.bool (.str [70]) (.str [71]) (some true), .int (.str [72]) (.str []) (some 5) (some (1, 300)) (some [(1, .str [73]), (2, .ref [74] [(2, [75])])])]

example : (infoBytes exArgs exParams).isSome = true := by decide +kernel
example : exArgs.Clean ∧ (∀ p ∈ exParams, p.Clean) := by
  refine ⟨⟨?_, ?_, ?_⟩, ?_⟩
  · simp [exArgs, Text.Clean, Text.pairs]
  · simp [exArgs, Text.Clean, Text.pairs]
  · intro u hu; simp only [exArgs, Option.some.injEq] at hu; subst hu; decide
  · intro p hp
    simp only [exParams, List.mem_cons, List.not_mem_nil, or_false] at hp
    rcases hp with rfl | rfl
    · simp [Param.Clean, Text.Clean, Text.pairs]
    · refine ⟨by simp [Text.Clean, Text.pairs], by simp [Text.Clean, Text.pairs], ?_⟩
      intro e he
      simp only [Option.getD_some, List.mem_cons, List.not_mem_nil, or_false] at he
      rcases he with rfl | rfl <;> simp [Text.Clean, Text.pairs]
example : ((told exArgs exParams).version, (told exArgs exParams).minVersion, (told exArgs exParams).count) = (7, 7, 2) := by decide
example : (told exArgs exParams).params 1 =
    some ⟨[(0, [72])], [(0, [])], 0, 1, 300, 5, [(1, 0, [73]), (2, 0x7f, [74]), (2, 2, [75])]⟩ := by decide

/-- A zero byte ends a text too early: what follows is read as other nodes, or not at all. -/
theorem zero_in_name : ∃ (a : Args) (body : Bytes), infoBytes a [] = some (0x14 :: body) ∧ ¬ ∃ nodes, ReadsNodes body nodes [] := by
  refine ⟨{ grfid := [1, 2, 3, 4], name := .str [65, 0, 66], description := .str [67] },
    [67, 73, 78, 70, 79, 66, 80, 65, 76, 83, 1, 0, 68, 84, 78, 65, 77, 69, 0, 65, 0, 66, 0, 84, 68, 69, 83, 67, 0, 67, 0, 0, 0], by decide +kernel, ?_⟩
  rintro ⟨nodes, h⟩
  generalize hB : ([67, 73, 78, 70, 79, 66, 80, 65, 76, 83, 1, 0, 68, 84, 78, 65, 77, 69, 0, 65, 0, 66, 0, 84, 68, 69, 83, 67, 0, 67, 0, 0, 0] : Bytes) = B at h
  cases h with
  | stop => simp at hB
  | text => simp at hB
  | binary => simp at hB
  | branch id bs sub mid more rest h4 h1 h2 =>
    match id, h4 with
    | [a, b, c, d], _ =>
    simp only [List.cons_append, List.nil_append, List.cons.injEq] at hB
    obtain ⟨-, -, -, -, -, hB⟩ := hB
    cases h1 with
    | stop => simp at hB
    | branch => simp at hB
    | text => simp at hB
    | binary id data bs more rest h4 hd h1 =>
      match id, h4 with
      | [a, b, c, d], _ =>
      simp only [List.cons_append, List.nil_append, List.cons.injEq] at hB
      obtain ⟨-, -, -, -, -, e1, e2, hB⟩ := hB
      have hl : data.length = 1 := by
        have l1 := congrArg UInt8.toNat e1
        have l2 := congrArg UInt8.toNat e2
        rw [UInt8.toNat_ofNat'] at l1 l2
        simp only [UInt8.reduceToNat] at l1 l2
        omega
      match data, hl with
      | [x], _ =>
      simp only [List.cons_append, List.nil_append, List.cons.injEq] at hB
      obtain ⟨-, hB⟩ := hB
      cases h1 with
      | stop => simp at hB
      | branch => simp at hB
      | binary => simp at hB
      | text id lang t bs more rest h4 ht h1 =>
        match id, h4 with
        | [a, b, c, d], _ =>
        simp only [List.cons_append, List.nil_append, List.cons.injEq] at hB
        obtain ⟨-, -, -, -, -, -, hB⟩ := hB
        obtain ⟨rfl, rfl⟩ := splitAt_first_zero (t := [65]) (t' := t) (r := [66, 0, 84, 68, 69, 83, 67, 0, 67, 0, 0, 0]) (by simpa using hB)
          (by decide) ht
        generalize hB : ([66, 0, 84, 68, 69, 83, 67, 0, 67, 0, 0, 0] : Bytes) = B at h1
        cases h1 with
        | stop => simp at hB
        | branch => simp at hB
        | text => simp at hB
        | binary id data bs more rest h4 hd h1 =>
          match id, h4 with
          | [a, b, c, d], _ =>
          simp only [List.cons_append, List.nil_append, List.cons.injEq] at hB
          obtain ⟨-, -, -, -, -, e1, e2, hB⟩ := hB
          have l1 := congrArg UInt8.toNat e1
          have l2 := congrArg UInt8.toNat e2
          rw [UInt8.toNat_ofNat'] at l1 l2
          simp only [UInt8.reduceToNat] at l1 l2
          have := congrArg List.length hB
          simp only [List.length_append, List.length_cons, List.length_nil] at this
          omega

end Grf.Info14
