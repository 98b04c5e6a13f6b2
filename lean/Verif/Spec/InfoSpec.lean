/-!
# What the game learns from the information block of a NewGRF (Action 14)

The documented format of the block and what the game (OpenTTD) makes of its nodes. Nothing here uses the model.
-/
namespace Spec

/-- A node of the block. -/
inductive InfoNode where
  | branch (id : List UInt8) (sub : List InfoNode)
  | text (id : List UInt8) (lang : UInt8) (t : List UInt8)
  | binary (id : List UInt8) (data : List UInt8)

/-- `ReadsNodes bytes nodes rest`: the bytes begin with these nodes and the zero byte that ends them. -/
inductive ReadsNodes : List UInt8 → List InfoNode → List UInt8 → Prop where
  | stop (rest) : ReadsNodes (0 :: rest) [] rest
  | branch (id bs sub mid more rest) : id.length = 4 → ReadsNodes bs sub mid → ReadsNodes mid more rest →
      ReadsNodes (0x43 :: (id ++ bs)) (.branch id sub :: more) rest
  | text (id lang t bs more rest) : id.length = 4 → (0 : UInt8) ∉ t → ReadsNodes bs more rest →
      ReadsNodes (0x54 :: (id ++ lang :: (t ++ 0 :: bs))) (.text id lang t :: more) rest
  | binary (id data bs more rest) : id.length = 4 → data.length < 65536 → ReadsNodes bs more rest →
      ReadsNodes (0x42 :: (id ++ UInt8.ofNat (data.length % 256) :: UInt8.ofNat (data.length / 256) :: (data ++ bs)))
        (.binary id data :: more) rest

/-- A four letter id. -/
def tag (s : String) : List UInt8 := s.toList.map fun c => UInt8.ofNat c.toNat

/-- Four bytes as a number. -/
def long4 : List UInt8 → Option Nat
  | [a, b, c, d] => some (a.toNat + 256 * b.toNat + 65536 * c.toNat + 16777216 * d.toNat)
  | _ => none

/-- A parameter as the game knows it. -/
structure GameParam where
  names : List (UInt8 × List UInt8) := []
  descs : List (UInt8 × List UInt8) := []
  /-- 0: a number, 1: on or off -/
  type : Nat := 0
  min : Nat := 0
  max : Nat := 4294967295
  default : Nat := 0
  /-- names of values: value, language, text -/
  values : List (Nat × UInt8 × List UInt8) := []
deriving DecidableEq, Repr

/-- The name of a value. -/
def valueName : InfoNode → Option (Nat × UInt8 × List UInt8)
  | .text id lang t => (long4 id).map fun n => (n, lang, t)
  | _ => none

/-- A node inside the description of a parameter. Limits only count for numbers, so the type has to come first. -/
def paramNode (p : GameParam) : InfoNode → GameParam
  | .text id lang t =>
    if id = tag "NAME" then { p with names := p.names ++ [(lang, t)] }
    else if id = tag "DESC" then { p with descs := p.descs ++ [(lang, t)] }
    else p
  | .binary id d =>
    if id = tag "TYPE" then (match d with | [t] => if t.toNat < 2 then { p with type := t.toNat } else p | _ => p)
    else if id = tag "LIMI" then
      (if p.type ≠ 0 then p else match long4 (d.take 4), long4 (d.drop 4) with
        | some a, some b => { p with min := a, max := b }
        | _, _ => p)
    else if id = tag "DFLT" then (match long4 d with | some n => { p with default := n } | none => p)
    else p
  | .branch id sub => if id = tag "VALU" then { p with values := p.values ++ sub.filterMap valueName } else p

/-- What the game knows about a NewGRF. -/
structure GameInfo where
  names : List (UInt8 × List UInt8) := []
  descs : List (UInt8 × List UInt8) := []
  urls : List (UInt8 × List UInt8) := []
  palette : Option UInt8 := none
  blitter : Option UInt8 := none
  version : Nat := 0
  minVersion : Nat := 0
  /-- how many parameters can be used -/
  count : Nat := 128
  params : Nat → Option GameParam := fun _ => none

/-- A node of the list of parameters: those beyond the usable ones are skipped. -/
def paramsNode (g : GameInfo) : InfoNode → GameInfo
  | .branch id sub =>
    match long4 id with
    | some n => if n < g.count then
        { g with params := fun i => if i = n then some (sub.foldl paramNode ((g.params n).getD {})) else g.params i } else g
    | none => g
  | _ => g

/-- A node of the branch `INFO`. A lowest compatible version needs a version before it and is limited by it. -/
def infoNode (g : GameInfo) : InfoNode → GameInfo
  | .text id lang t =>
    if id = tag "NAME" then { g with names := g.names ++ [(lang, t)] }
    else if id = tag "DESC" then { g with descs := g.descs ++ [(lang, t)] }
    else if id = tag "URL_" then { g with urls := g.urls ++ [(lang, t)] }
    else g
  | .binary id d =>
    if id = tag "PALS" then (match d with | [p] => { g with palette := some p } | _ => g)
    else if id = tag "BLTR" then (match d with | [p] => { g with blitter := some p } | _ => g)
    else if id = tag "VRSN" then (match long4 d with | some n => { g with version := n } | none => g)
    else if id = tag "MINV" then (match long4 d with
      | some n => { g with minVersion := if g.version = 0 then 0 else Nat.min n g.version }
      | none => g)
    else if id = tag "NPAR" then (match d with | [n] => { g with count := Nat.min n.toNat 128 } | _ => g)
    else g
  | .branch id sub => if id = tag "PARA" then sub.foldl paramsNode g else g

/-- A node at the top. -/
def topNode (g : GameInfo) : InfoNode → GameInfo
  | .branch id sub => if id = tag "INFO" then sub.foldl infoNode g else g
  | _ => g

/-- What the game learns from the nodes of the block. -/
def gameInfo (nodes : List InfoNode) : GameInfo := nodes.foldl topNode {}

end Spec
