import Verif.Model.Packets
import Verif.Proofs.PropCodec2
import Verif.Proofs.Actions
/-!
# C49: admin packets are framed with their length

The reader of the other side is specified here: packets are cut by their length, fields are read by their format.
-/
namespace Grf.Packets
open PropC (splitNul splitNul_append)

/-! ### The other side -/

/-- Cutting the first packet off a stream: its length is in the first two bytes and counts them. -/
def firstPacket (f : Bytes) : Option (Bytes × Bytes) :=
  match f with
  | lo :: hi :: r =>
    let size := lo.toNat + 256 * hi.toNat
    if 3 ≤ size ∧ size ≤ f.length then some (f.take size, f.drop size) else (fun _ => none) r
  | _ => none

/-- Cutting a stream into packets. -/
def packets : Nat → Bytes → Option (List Bytes)
  | _, [] => some []
  | 0, _ => none
  | n + 1, f => (firstPacket f).bind fun p => (packets n p.2).map (p.1 :: ·)

/-- Reading fields by their formats. -/
def readFields : List Fmt → Bytes → Option (List Arg × Bytes)
  | [], f => some ([], f)
  | .u k :: fs, f => do let (v, f) ← readU k f; let (as, f) ← readFields fs f; pure (.int v :: as, f)
  | .s k :: fs, f => do let (v, f) ← readS k f; let (as, f) ← readFields fs f; pure (.int v :: as, f)
  | .z :: fs, f => do let (v, f) ← splitNul f; let (as, f) ← readFields fs f; pure (.text v :: as, f)

/-- An argument without zero byte if it is a text. -/
def Arg.plain : Arg → Prop
  | .int _ => True
  | .text b => (0 : UInt8) ∉ b

/-! ### Lemmas -/

theorem byteOf_iff (v : Int) (b : UInt8) : byteOf v = some b ↔ 0 ≤ v ∧ v < 256 ∧ b = UInt8.ofNat v.toNat := by
  unfold byteOf
  split
  · next h => simp only [Option.some.injEq]; exact ⟨fun e => ⟨h.1, h.2, e.symm⟩, fun e => e.2.2.symm⟩
  · next h => simp only [reduceCtorEq, false_iff]; intro e; exact h ⟨e.1, e.2.1⟩

theorem makePacket_iff (type : Int) (fmt : List Fmt) (args : List Arg) (p : Bytes) : makePacket type fmt args = some p ↔
    ∃ data, ttdPack fmt args = some data ∧ 0 ≤ type ∧ type < 256 ∧ data.length + 3 < 65536 ∧
      p = UInt8.ofNat ((data.length + 3) % 256) :: UInt8.ofNat ((data.length + 3) / 256) :: UInt8.ofNat type.toNat :: data := by
  unfold makePacket
  have e : (if fmt.isEmpty then some [] else ttdPack fmt args) = ttdPack fmt args := by
    cases fmt <;> rfl
  rw [e]
  simp only [Option.bind_eq_bind, Option.bind_eq_some_iff, Option.pure_def, Option.some.injEq, byteOf_iff]
  constructor
  · rintro ⟨data, h, lo, ⟨_, _, rfl⟩, hi, ⟨_, h2, rfl⟩, t, ⟨h3, h4, rfl⟩, rfl⟩
    refine ⟨data, h, h3, h4, by omega, ?_⟩
    simp only [Int.toNat_natCast]
  · rintro ⟨data, h, h3, h4, h5, rfl⟩
    refine ⟨data, h, _, ⟨by omega, by omega, rfl⟩, _, ⟨by omega, by omega, rfl⟩, _, ⟨h3, h4, rfl⟩, ?_⟩
    simp only [Int.toNat_natCast]

/-! ### The claims -/

/-- A packet starts with its total length, then its type. -/
theorem packet_framed (type : Int) (fmt : List Fmt) (args : List Arg) (p : Bytes) (h : makePacket type fmt args = some p) :
    ∃ lo hi t data, p = lo :: hi :: t :: data ∧ lo.toNat + 256 * hi.toNat = p.length ∧ (t.toNat : Int) = type ∧ ttdPack fmt args = some data := by
  obtain ⟨data, h1, h2, h3, h4, rfl⟩ := (makePacket_iff _ _ _ _).mp h
  refine ⟨_, _, _, _, rfl, ?_, ?_, h1⟩
  · simp only [UInt8.toNat_ofNat', List.length_cons]; omega
  · rw [UInt8.toNat_ofNat']; omega

/-- A packet is refused exactly if a field does not fit its format, the type does not fit a byte or the packet is longer than 65535. -/
theorem packet_refused_iff (type : Int) (fmt : List Fmt) (args : List Arg) :
    makePacket type fmt args = none ↔ (∃ p ∈ fmt.zip args, packField p.1 p.2 = none) ∨ ¬ (0 ≤ type ∧ type < 256) ∨
      ∃ data, ttdPack fmt args = some data ∧ 65536 ≤ data.length + 3 := by
  have hcat : ∀ (l : List (Option Bytes)), cat l = none ↔ ∃ x ∈ l, x = none := by
    intro l
    induction l with
    | nil => simp [cat]
    | cons x l ih =>
      cases x with
      | none => simp [cat]
      | some a => cases hc : cat l <;> rw [hc] at ih <;> simp [cat, hc] at ih ⊢ <;> exact ih
  have ht : ttdPack fmt args = none ↔ ∃ p ∈ fmt.zip args, packField p.1 p.2 = none := by
    unfold ttdPack
    rw [hcat]
    constructor
    · rintro ⟨x, hx, rfl⟩
      rw [List.mem_map] at hx
      exact hx
    · rintro ⟨p, hp, e⟩
      exact ⟨_, List.mem_map.mpr ⟨p, hp, e⟩, rfl⟩
  rw [← ht]
  cases hd : ttdPack fmt args with
  | none =>
    simp only [true_or, iff_true]
    cases hm : makePacket type fmt args with
    | none => rfl
    | some p => obtain ⟨data, h, _⟩ := (makePacket_iff _ _ _ _).mp hm; rw [hd] at h; cases h
  | some data =>
    simp only [reduceCtorEq, false_or, Option.some.injEq, exists_eq_left']
    cases hm : makePacket type fmt args with
    | none =>
      simp only [true_iff]
      by_cases h : 0 ≤ type ∧ type < 256
      · right
        apply Nat.le_of_not_lt
        intro hl
        have := (makePacket_iff type fmt args _).mpr ⟨data, hd, h.1, h.2, hl, rfl⟩
        rw [hm] at this
        cases this
      · exact Or.inl h
    | some p =>
      obtain ⟨data', h, h1, h2, h3, _⟩ := (makePacket_iff _ _ _ _).mp hm
      rw [hd] at h
      cases h
      simp only [reduceCtorEq, false_iff, not_or, Decidable.not_not]
      exact ⟨⟨h1, h2⟩, by omega⟩

/-- The first packet can be cut off a stream. -/
theorem first_packet (type : Int) (fmt : List Fmt) (args : List Arg) (p r : Bytes) (h : makePacket type fmt args = some p) :
    firstPacket (p ++ r) = some (p, r) := by
  obtain ⟨lo, hi, t, data, rfl, h1, _⟩ := packet_framed type fmt args p h
  simp only [List.length_cons] at h1
  unfold firstPacket
  simp only [List.cons_append, h1]
  rw [if_pos (by simp only [List.length_cons, List.length_append]; omega)]
  simp

/-- A stream of packets splits into the same packets. -/
theorem stream_splits (ps : List Bytes) (h : ∀ p ∈ ps, ∃ type fmt args, makePacket type fmt args = some p) (n : Nat) (hn : ps.length ≤ n) :
    packets n ps.flatten = some ps := by
  induction ps generalizing n with
  | nil => cases n <;> rfl
  | cons p ps ih =>
    cases n with
    | zero => simp at hn
    | succ n =>
      obtain ⟨type, fmt, args, hp⟩ := h p List.mem_cons_self
      obtain ⟨lo, hi, t, data, hpe, _⟩ := packet_framed type fmt args p hp
      have hf := first_packet type fmt args p ps.flatten hp
      rw [List.flatten_cons]
      have hne : p ++ ps.flatten ≠ [] := by rw [hpe]; simp
      have e : packets (n + 1) (p ++ ps.flatten) = (firstPacket (p ++ ps.flatten)).bind fun q => (packets n q.2).map (q.1 :: ·) := by
        cases hq : p ++ ps.flatten with
        | nil => exact absurd hq hne
        | cons a b => rfl
      rw [e, hf]
      simp only [Option.bind_some]
      rw [ih (fun q hq => h q (List.mem_cons_of_mem _ hq)) n (by simp at hn; omega)]
      rfl

/-- The fields of a packet can be read back, if there is an argument for each format and no text has a zero byte. -/
theorem fields_read_back (fmt : List Fmt) (args : List Arg) (data r : Bytes) (hl : fmt.length = args.length) (hp : ∀ a ∈ args, a.plain)
    (h : ttdPack fmt args = some data) : readFields fmt (data ++ r) = some (args, r) := by
  induction fmt generalizing args data with
  | nil =>
    cases args with
    | nil => simp only [ttdPack, List.zip_nil_left, List.map_nil, cat, Option.some.injEq] at h; subst h; rfl
    | cons a as => simp at hl
  | cons f fmt ih =>
    cases args with
    | nil => simp at hl
    | cons a args =>
      have h : cat (packField f a :: (fmt.zip args).map fun p => packField p.1 p.2) = some data := h
      rw [Acts.cat_cons_iff] at h
      obtain ⟨x, hx, y, hy, rfl⟩ := h
      have hrec := ih args y (by simpa using hl) (fun b hb => hp b (List.mem_cons_of_mem _ hb)) hy
      have hpa := hp a List.mem_cons_self
      rw [List.append_assoc]
      cases f with
      | u k =>
        cases a with
        | int v =>
          simp only [packField] at hx
          simp only [readFields]
          rw [readU_packU hx]
          simp only [Option.bind_eq_bind, Option.bind_some]
          rw [hrec]; rfl
        | text b => simp [packField] at hx
      | s k =>
        cases a with
        | int v =>
          simp only [packField] at hx
          simp only [readFields]
          rw [readS_packS hx]
          simp only [Option.bind_eq_bind, Option.bind_some]
          rw [hrec]; rfl
        | text b => simp [packField] at hx
      | z =>
        cases a with
        | int v => simp [packField] at hx
        | text b =>
          simp only [packField, Option.some.injEq] at hx
          subst hx
          simp only [readFields, List.append_assoc, List.cons_append, List.nil_append]
          rw [splitNul_append b hpa]
          simp only [Option.bind_eq_bind, Option.bind_some]
          rw [hrec]; rfl

/-- Arguments without format, or formats without argument, are dropped without a word. -/
theorem extra_arguments_dropped (fmt fmt' : List Fmt) (args args' : List Arg) (hl : fmt.length = args.length) (h : fmt' = [] ∨ args' = []) :
    ttdPack (fmt ++ fmt') (args ++ args') = ttdPack fmt args := by
  unfold ttdPack
  rw [List.zip_append hl]
  rcases h with rfl | rfl <;> simp

/-- A text with a zero byte runs into the next field. -/
theorem zero_in_text_misread : ∃ (fmt : List Fmt) (args args' : List Arg) (data : Bytes), ttdPack fmt args = some data ∧
    readFields fmt data = some (args', [66, 0]) ∧ args ≠ args' :=
  ⟨[.z], [.text [65, 0, 66]], [.text [65]], _, rfl, rfl, by decide⟩

/-! ### The log session -/

/-- What the messages of the log say: those up to one that ends with a newline make one text, without the newlines at its end. Text after
the last newline is not said. -/
def said : Bytes → List Bytes → List Bytes
  | _, [] => []
  | prev, msg :: msgs => if endsNewline msg then (prev ++ rstrip msg) :: said [] msgs else said (prev ++ msg) msgs

/-- The texts said, with what was cut off at their ends, are all the messages in order, up to an unfinished rest: nothing is lost, repeated
or reordered but newlines at the ends. -/
theorem said_everything (msgs : List Bytes) : ∀ prev, ∃ (cut : List Bytes) (rest : Bytes), cut.length = (said prev msgs).length ∧
    (∀ c ∈ cut, c ≠ [] ∧ ∀ b ∈ c, b = 10) ∧ prev ++ msgs.flatten = (List.zipWith (· ++ ·) (said prev msgs) cut).flatten ++ rest := by
  have hr : ∀ msg : Bytes, ∃ c : Bytes, msg = rstrip msg ++ c ∧ (∀ b ∈ c, b = 10) ∧ (endsNewline msg = true → c ≠ []) := by
    intro msg
    refine ⟨(msg.reverse.takeWhile (· == 10)).reverse, ?_, ?_, ?_⟩
    · unfold rstrip
      rw [← List.reverse_append, List.takeWhile_append_dropWhile, List.reverse_reverse]
    · intro b hb
      rw [List.mem_reverse] at hb
      have := List.all_eq_true.mp (List.all_takeWhile (l := msg.reverse) (p := (· == 10))) b hb
      simpa using this
    · intro he
      unfold endsNewline at he
      rw [← List.head?_reverse] at he
      cases hm : msg.reverse with
      | nil => rw [hm] at he; simp at he
      | cons a l =>
        rw [hm] at he
        simp at he
        subst he
        simp
  induction msgs with
  | nil => intro prev; exact ⟨[], prev, rfl, by simp, by simp [said]⟩
  | cons msg msgs ih =>
    intro prev
    simp only [said]
    split
    · next he =>
      obtain ⟨c, h1, h2, h3⟩ := hr msg
      obtain ⟨cut, rest, l, a, e⟩ := ih []
      refine ⟨c :: cut, rest, by simp [l], ?_, ?_⟩
      · intro x hx
        rcases List.mem_cons.mp hx with rfl | hx
        · exact ⟨h3 he, h2⟩
        · exact a x hx
      · simp only [List.nil_append] at e
        rw [List.flatten_cons, e, List.zipWith_cons_cons, List.flatten_cons]
        conv => lhs; rw [h1]
        simp only [List.append_assoc]
    · obtain ⟨cut, rest, l, a, e⟩ := ih (prev ++ msg)
      refine ⟨cut, rest, l, a, ?_⟩
      rw [← e, List.flatten_cons, List.append_assoc]

/-- The other side receives the packet to join, a chat packet for every text said, in order, and the command to reload. -/
theorem session_received (password : Bytes) (msgs : List Bytes) (out : Bytes) (h : session password msgs = some out) (n : Nat) (hn : msgs.length + 2 ≤ n) :
    ∃ join chats reload, packets n out = some (join :: chats ++ [reload]) ∧
      makePacket 0 [.z, .z, .z] [.text password, .text (utf8 "grf-py live reload"), .text (utf8 "1.0")] = some join ∧
      makePacket 5 [.z] [.text (utf8 "reload_newgrfs")] = some reload ∧
      chats.map some = (said [] msgs).map fun t => makePacket 8 [.z, .u 2, .z, .z] [.text (utf8 "grf-py"), .int 1, .text [], .text t] := by
  change ∃ join chats reload, packets n out = some (join :: chats ++ [reload]) ∧ joinPacket password = some join ∧ reloadPacket = some reload ∧
    chats.map some = (said [] msgs).map chatPacket
  unfold session at h
  simp only [Acts.cat_cons_iff, Acts.cat_nil_iff] at h
  obtain ⟨join, hj, _, ⟨log, hlog, _, ⟨reload, hre, _, rfl, rfl⟩, rfl⟩, rfl⟩ := h
  have key : ∀ (msgs : List Bytes) (prev log : Bytes), logLoop prev msgs = some log → ∃ chats : List Bytes, log = chats.flatten ∧
      chats.map some = (said prev msgs).map chatPacket := by
    intro msgs
    induction msgs with
    | nil => intro prev log h; simp only [logLoop, Option.some.injEq] at h; subst h; exact ⟨[], rfl, by simp [said]⟩
    | cons msg msgs ih =>
      intro prev log h
      simp only [logLoop] at h
      simp only [said]
      split at h
      · next he =>
        simp only [Option.bind_eq_bind, Option.bind_eq_some_iff, Option.pure_def, Option.some.injEq] at h
        obtain ⟨p, hp, r, hr, rfl⟩ := h
        obtain ⟨chats, rfl, hc⟩ := ih [] r hr
        rw [if_pos he]
        exact ⟨p :: chats, rfl, by rw [List.map_cons, List.map_cons, hc, hp]⟩
      · next he =>
        rw [if_neg he]
        exact ih _ _ h
  obtain ⟨chats, rfl, hc⟩ := key msgs [] log hlog
  have hlen : (said [] msgs).length ≤ msgs.length := by
    have : ∀ (msgs : List Bytes) (prev : Bytes), (said prev msgs).length ≤ msgs.length := by
      intro msgs
      induction msgs with
      | nil => intro prev; simp [said]
      | cons m ms ih =>
        intro prev
        simp only [said]
        split
        · have := ih []; simp only [List.length_cons]; omega
        · have := ih (prev ++ m); simp only [List.length_cons]; omega
    exact this msgs []
  have hlc : chats.length = (said [] msgs).length := by
    have := congrArg List.length hc
    simpa using this
  refine ⟨join, chats, reload, ?_, hj, hre, hc⟩
  have e : join ++ (chats.flatten ++ (reload ++ [])) = (join :: chats ++ [reload]).flatten := by simp
  rw [e]
  apply stream_splits
  · intro p hp
    simp only [List.cons_append, List.mem_cons, List.mem_append, List.not_mem_nil, or_false] at hp
    rcases hp with rfl | hp | rfl
    · exact ⟨_, _, _, hj⟩
    · have : some p ∈ chats.map some := List.mem_map_of_mem hp
      rw [hc, List.mem_map] at this
      obtain ⟨t, _, ht⟩ := this
      exact ⟨_, _, _, ht⟩
    · exact ⟨_, _, _, hre⟩
  · simp only [List.cons_append, List.length_cons, List.length_append, List.length_nil]; omega

/-- Text after the last newline is never sent. -/
theorem unfinished_text_lost (msgs : List Bytes) (h : ∀ m ∈ msgs, endsNewline m = false) (prev : Bytes) : logLoop prev msgs = some [] := by
  induction msgs generalizing prev with
  | nil => rfl
  | cons m ms ih =>
    simp only [logLoop]
    rw [if_neg (by rw [h m List.mem_cons_self]; decide)]
    exact ih (fun x hx => h x (List.mem_cons_of_mem _ hx)) _

/-- A packet with numbers and texts. -/
example : makePacket 8 [.z, .u 2, .z] [.text [65], .int 258, .text []] = some [8, 0, 8, 65, 0, 2, 1, 0] ∧
    readFields [.z, .u 2, .z] [65, 0, 2, 1, 0, 7] = some ([.text [65], .int 258, .text []], [7]) := by decide +kernel

/-- A session: a text in two messages, and a text that is not finished. -/
example : said [] [[65, 46], [46, 10], [66, 67, 10, 10], [68]] = [[65, 46, 46], [66, 67]] ∧
    (session [112, 119] [[65, 46], [46, 10], [66, 67, 10, 10], [68]]).isSome := by decide +kernel

end Grf.Packets
