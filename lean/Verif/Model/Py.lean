import Verif.Model.Dispatch
import Verif.Model.Syntax
/-!
# Model of the calls in the script made from actions: what `py()` prints, and what running it makes

`py()` of the actions (`grf/actions.py:1266-2559`) gives a text of Python; here it gives the expression this text is of. That Python reads
`repr` of a number, a truth value, `None`, bytes, a text, a list, a tuple or a dictionary as an equal value, and that adding white space
between the parts of an expression (`textwrap`, `pprint`) changes nothing, is Python's, not the project's; the white space the code adds
*inside* a text (that of a switch) is modelled. References are printed as described in `Model/Script.lean`; here their expressions are
given in the order of `get_refs`.
-/
namespace Grf.Py
open Acts PropC

/-- A key of a dictionary. For `grf/actions.py:1437-1443`. -/
inductive DKey where
  | int (n : Int)
  | pair (a b : Int)
  | str (s : String)
  | bytes (b : Bytes)
deriving DecidableEq, Repr

/-- Python expressions as they occur in scripts. For `grf/actions.py:271-291`. -/
inductive Ex where
  | none
  | bool (b : Bool)
  | int (n : Int)
  | bytes (b : Bytes)
  | str (s : String)
  /-- a text between `'''`; reading quotes and backslashes in it is not modelled -/
  | block (s : List Char)
  | list (l : List Ex)
  | tuple (l : List Ex)
  | dict (l : List (DKey × Ex))
  /-- a name alone -/
  | name (n : String)
  /-- `grf.N` -/
  | grf (n : String)
  /-- `grf.A | grf.B ..` -/
  | flags (l : List String)
  /-- a call; arguments without a keyword have the empty one -/
  | call (f : String) (args : List (String × Ex))

/-- Python values. For `grf/grf.py:274-279`. -/
inductive Val where
  | none
  | bool (b : Bool)
  | int (n : Int)
  | bytes (b : Bytes)
  | str (s : String)
  | list (l : List Val)
  | tuple (l : List Val)
  | dict (l : List (DKey × Val))
  /-- a `Feature` -/
  | feature (n : Nat)
  /-- a `Ref`, or an action used as a reference -/
  | target (t : Target)
  | date (d : _root_.Spec.CDate)

/-! ### Names -/

/-- `feature.constant`, which is also its `repr` (`grf/common.py:129-136`, table `148-170`). -/
def constants : List String :=
  ["TRAIN", "RV", "SHIP", "AIRCRAFT", "STATION", "CANAL", "BRIDGE", "HOUSE", "GLOBAL_VAR", "INDUSTRY_TILE", "INDUSTRY", "CARGO",
   "SOUND_EFFECT", "AIRPORT", "SIGNAL", "OBJECT", "RAILTYPE", "AIRPORT_TILE", "ROADTYPE", "TRAMTYPE", "ROAD_STOP"]

/-- `repr(Feature(n))`. For `grf/decompile.py:237-250`. -/
def featureEx (n : Nat) : Ex := .name (constants.getD n "")

/-- The climates (`grf/common.py:8-9`). -/
def climates : List (String × Nat) := [("TEMPERATE", 1), ("ARCTIC", 2), ("TROPICAL", 4), ("TOYLAND", 8)]

/-- Names of the package used in scripts (`grf/common.py:8-9`). -/
def grfName (n : String) : Option Nat :=
  if n = "NO_CLIMATE" then some 0 else if n = "ALL_CLIMATES" then some 15 else climates.lookup n

/-! ### Running expressions -/

/-- `datetime.date(y, m, d)`: refuses what is no date of its calendar. For `grf/grf.py:274-279`. -/
def mkDate (y m d : Int) : Option Val :=
  if 1 ≤ y ∧ y ≤ 9999 ∧ 1 ≤ m ∧ m ≤ 12 ∧ 1 ≤ d ∧ d ≤ (_root_.Spec.monthLength y.toNat m.toNat : Nat) then
    some (.date ⟨y.toNat, m.toNat, d.toNat⟩) else Option.none

/-- What a call of something that is no action makes. The header of a script (`grf/grf.py:274-279`) imports `datetime`, `grf`, the feature
constants, `Ref`, `CB` and things not used in the calls of actions: other names (`SpriteRef`, `Temp`, `SpriteLayoutList`, `IndustryLayout`,
..) are unknown, which is a `NameError`. `CB` and `Ref` are as in `grf/actions.py:25-29`, `75-77`. -/
def callVal (f : String) (args : List (String × Val)) : Option Val :=
  if f = "Ref" then (match args with | [("", .int v)] => some (.target (.ref v)) | _ => Option.none)
  else if f = "CB" then (match args with | [("", .int v)] => some (.target (mkCB v)) | _ => Option.none)
  else if f = "datetime.date" then (match args with | [("", .int y), ("", .int m), ("", .int d)] => mkDate y m d | _ => Option.none)
  else Option.none

mutual
/-- Value of an expression; `names` are the variables assigned by the lines before. A later entry of a dictionary replaces an earlier one
with the same key, which keeps its place. For `grf/grf.py:280-285`. -/
def eval (names : String → Option Target) : Ex → Option Val
  | .none => some .none
  | .bool b => some (.bool b)
  | .int n => some (.int n)
  | .bytes b => some (.bytes b)
  | .str s => some (.str s)
  | .block s => if s.any (fun c => c = '\\' || c = '\'') then Option.none else some (.str (String.ofList s))
  | .list l => (evalList names l).map .list
  | .tuple l => (evalList names l).map .tuple
  | .dict l => (evalDict names l).map fun d => .dict (d.foldl (fun m p => dictSet m p.1 p.2) [])
  | .name n =>
    match constants.idxOf? n with
    | some k => some (.feature k)
    | Option.none => (names n).map .target
  | .grf n => (grfName n).map fun v => .int v
  | .flags l => (l.mapM grfName).map fun vs => .int ((vs.foldl (· ||| ·) 0 : Nat) : Int)
  | .call f args => (evalArgs names args).bind (callVal f)
/-- Elements of a list, from left to right. For `grf/grf.py:274-279`. -/
def evalList (names : String → Option Target) : List Ex → Option (List Val)
  | [] => some []
  | e :: l => (eval names e).bind fun v => (evalList names l).map (v :: ·)
/-- Entries of a dictionary. For `grf/grf.py:274-279`. -/
def evalDict (names : String → Option Target) : List (DKey × Ex) → Option (List (DKey × Val))
  | [] => some []
  | (k, e) :: l => (eval names e).bind fun v => (evalDict names l).map ((k, v) :: ·)
/-- Arguments of a call. For `grf/grf.py:280-285`. -/
def evalArgs (names : String → Option Target) : List (String × Ex) → Option (List (String × Val))
  | [] => some []
  | (k, e) :: l => (eval names e).bind fun v => (evalArgs names l).map ((k, v) :: ·)
end

/-! ### Values of properties -/

/-- `SpriteRef.py` (`grf/actions.py:190-195`). -/
def spriteEx (s : SpriteRef) : Ex :=
  .call "SpriteRef" [("id", .int s.id), ("pal", .int s.pal), ("is_global", .bool s.isGlobal), ("use_recolour", .bool s.useRecolour),
    ("always_transparent", .bool s.alwaysTransparent), ("no_transparent", .bool s.noTransparent)]

/-- `ClimateProperty.format` (`grf/actions.py:271-291`). -/
def climateEx (v : Int) : Ex :=
  if v = 0 then .grf "NO_CLIMATE"
  else if v = 15 then .grf "ALL_CLIMATES"
  else if ¬ (0 < v ∧ v < 15) then .int v
  else .flags ((climates.filter fun c => 0 < pyAnd c.2 v).map (·.1))

/-- `repr` of the items of an industry layout (`grf/actions.py:960-961`, `975-976`, `992-993`). -/
def tileEx : Tile → Ex
  | .new x y i => .call "IndustryLayout.NewTile" [("xofs", .int x), ("yofs", .int y), ("id", .int i)]
  | .old x y i => .call "IndustryLayout.OldTile" [("xofs", .int x), ("yofs", .int y), ("id", .int i)]
  | .check x y => .call "IndustryLayout.SpecialCheck" [("xofs", .int x), ("yofs", .int y)]

/-- Label. For `grf/actions.py:1266-1270`. -/
def labEx : Lab → Ex
  | .int n => .int n
  | .bytes b => .bytes b

/-- `py_property` (`grf/actions.py:1266-1270`): `Property.format`, or `repr` of what `read_property` (`grf/decompile.py:161-210`) and
`Property.read` make: bytes for labels and `n*B`, a tuple for `3*B`, `2*L`, cargo lists and sizes, a list otherwise; a dictionary for
bridge layouts and tables of translations, whose values are bytes or, if there are several, lists of bytes (`grf/actions.py:869-875`). An
industry layout is a list (`999`, `1050`); a station layout is printed with its class (`2499-2540`, its parts are left out here: the name
of the class alone makes the script fail). The industry property 0x12 is a number under a name which is that of the list 0x27
(`1068`, `1089`), so a number is also printed for `n*B`. `none`: not a value the reader makes for this format. -/
def propEx : Fmt → PVal → Option Ex
  | .L, .label l => some (labEx l)
  | .nB, .ints l => (bytesOf l).map .bytes
  | .B3, .ints l => some (.tuple (l.map .int))
  | .byteList, .ints l => some (.tuple (l.map .int))
  | .nL, .labels l => some (.list (l.map labEx))
  | .L2, .labels l => some (.tuple (l.map labEx))
  | .nmW, .words l => some (.list (l.map fun w => .list (w.map .int)))
  | .date, .date d => some (.call "datetime.date" [("", .int d.year), ("", .int d.month), ("", .int d.day)])
  | .climate, .int n => some (climateEx n)
  | .accept, .pairs l => some (.list (l.map fun p => .tuple [.int p.1, .int p.2]))
  | .size, .pair x y => some (.tuple [.int x, .int y])
  | .bridge, .bridge i ts => some (.dict [(.str "table_id", .int i), (.str "tables", .list (ts.map fun t => .list (t.map spriteEx)))])
  | .multiDict, .texts d => some (.dict (d.map fun p => (.int p.1, match p.2 with | [t] => .bytes t | ts => .list (ts.map .bytes))))
  | .layouts, .layouts ls => some (.list (ls.map fun l => .list (l.map tileEx)))
  | .newStation, .station _ => some (.call "SpriteLayoutList" [])
  | .oldStation, .oldStation _ => some (.call "SpriteLayoutList" [])
  | f, .int n => if f ∈ [.B, .b, .W, .D, .Bx, .nB, .date, .id, .idx] then some (.int n) else Option.none
  | _, _ => Option.none

/-! ### Reading values back as fields

The constructors take Python values as they are; these functions say which field value (of `Model/PropCodec.lean`, `Model/Actions.lean`) a
Python value is. `none`: a value of a type that is not modelled. -/

/-- For `grf/grf.py:280-285`. -/
def Val.int? : Val → Option Int
  | .int n => some n
  | _ => Option.none

/-- For `grf/grf.py:280-285`. -/
def Val.optInt? : Val → Option (Option Int)
  | .none => some Option.none
  | .int n => some (some n)
  | _ => Option.none

/-- For `grf/grf.py:280-285`. -/
def Val.bool? : Val → Option Bool
  | .bool b => some b
  | _ => Option.none

/-- For `grf/grf.py:280-285`. -/
def Val.bytes? : Val → Option Bytes
  | .bytes b => some b
  | _ => Option.none

/-- For `grf/grf.py:280-285`. -/
def Val.str? : Val → Option String
  | .str s => some s
  | _ => Option.none

/-- For `grf/grf.py:280-285`. -/
def Val.feature? : Val → Option Nat
  | .feature n => some n
  | _ => Option.none

/-- For `grf/actions.py:1712-1722`. -/
def Val.target? : Val → Option Target
  | .target t => some t
  | .int n => some (.num n)
  | _ => Option.none

/-- The elements of a list or tuple. For `grf/grf.py:280-285`. -/
def Val.seq? : Val → Option (List Val)
  | .list l => some l
  | .tuple l => some l
  | _ => Option.none

/-- For `grf/grf.py:280-285`. -/
def Val.dict? : Val → Option (List (DKey × Val))
  | .dict l => some l
  | _ => Option.none

/-- For `grf/grf.py:280-285`. -/
def Val.ints? (v : Val) : Option (List Int) := v.seq?.bind fun l => l.mapM Val.int?

/-- For `grf/grf.py:280-285`. -/
def Val.lab? : Val → Option Lab
  | .int n => some (.int n)
  | .bytes b => some (.bytes b)
  | _ => Option.none

/-- For `grf/grf.py:280-285`. -/
def Val.pair? (v : Val) : Option (Int × Int) :=
  v.ints?.bind fun l => match l with | [a, b] => some (a, b) | _ => Option.none

/-- A value of a table of translations. For `grf/grf.py:280-285`. -/
def Val.texts? : Val → Option (List Bytes)
  | .bytes b => some [b]
  | .list l => l.mapM Val.bytes?
  | _ => Option.none

/-- For `grf/grf.py:280-285`. -/
def DKey.int? : DKey → Option Int
  | .int n => some n
  | _ => Option.none

/-- An empty list. For `grf/grf.py:280-285`. -/
def Val.nil? {α : Type} : Val → Option (List α)
  | .list [] => some []
  | _ => Option.none

/-- A property value. For `grf/grf.py:280-285`. -/
def propVal : Fmt → Val → Option PVal
  | .L, v => v.lab?.map .label
  | .nB, .bytes b => some (.ints (intsOf b))
  | .nB, .list l => (l.mapM Val.int?).map .ints
  | .B3, v => v.ints?.map .ints
  | .byteList, v => v.ints?.map .ints
  | .nL, v => (v.seq?.bind fun l => l.mapM Val.lab?).map .labels
  | .L2, v => (v.seq?.bind fun l => l.mapM Val.lab?).map .labels
  | .nmW, v => (v.seq?.bind fun l => l.mapM Val.ints?).map .words
  | .date, .date d => some (.date d)
  | .accept, v => (v.seq?.bind fun l => l.mapM Val.pair?).map .pairs
  | .size, v => v.pair?.map fun p => .pair p.1 p.2
  | .bridge, .dict [(.str "table_id", .int i), (.str "tables", .list l)] =>
    (l.mapM Val.nil?).map (.bridge i)
  | .multiDict, .dict l => (l.mapM fun (p : DKey × Val) => p.1.int?.bind fun k => p.2.texts?.map fun t => (k, t)).map .texts
  | .layouts, .list l => (l.mapM Val.nil?).map .layouts
  | f, .int n => if f ∈ [.B, .b, .W, .D, .Bx, .nB, .date, .id, .idx, .climate, .size] then some (.int n) else Option.none
  | _, _ => Option.none

/-! ### Objects -/

/-- A `Switch` before its code is parsed (`grf/actions.py:1703-1728`). -/
structure SwitchT where
  feature : Nat
  refId : Int
  related : Bool
  code : List Char
  ranges : List SRange
  default : Target
deriving DecidableEq, Repr

/-- An action object. For `grf/decompile.py:612-622`. -/
inductive Obj where
  | act (a : Action)
  | switch (s : SwitchT)

/-- The object the decoder makes (`grf/decompile.py:612-622` for switches; `none` if formatting the code raises). -/
def ofDecoded : Decoded → Option Obj
  | .define d => some (.act (.define d))
  | .sets a => some (.act (.sets a))
  | .act2 (.switch d) => (Syntax.formatLines d.code).map fun t =>
      .switch ⟨d.feature, d.refId, d.related, t, d.ranges.map fun r => ⟨r.low, r.high, .ref r.group⟩, .ref d.default⟩
  | .act2 (.random r) => some (.act (.random r))
  | .act2 (.layout (.basic b)) => some (.act (.basic b))
  | .act2 (.layout (.advanced l)) => some (.act (.layout l))
  | .act2 (.production p) => some (.act (.production p))
  | .act2 (.generic g) => some (.act (.generic g))
  | .map a => some (.act (.map a))
  | .texts s => some (.act (.texts s))
  | .newSprites a => some (.act (.newSprites a))
  | .modify ps => some (.act (.modify ps))
  | .cond a => some (.act (.cond a))
  | .description a => some (.act (.description a))
  | .oldSprites s => some (.act (.oldSprites s))
  | .error e => some (.act (.error e))
  | .comment d => some (.act (.comment d))
  | .compute a => some (.act (.compute a))
  | .label a => some (.act (.label a))
  | .sounds n => some (.act (.sounds n))
  | .importSound g n => some (.act (.importSound g n))
  | .props l => some (.act (.props (DV.props l)))

/-! ### Printing a call -/

/-- A call of a constructor: the class and the arguments. For `grf/decompile.py:237-250`. -/
structure Call where
  cls : String
  args : List (String × Ex)

/-- `repr` of a number or `None`. For `grf/decompile.py:237-250`. -/
def optEx : Option Int → Ex
  | Option.none => .none
  | some n => .int n

/-- `repr` of a list or tuple of numbers. For `grf/decompile.py:237-250`. -/
def intsEx (l : List Int) : Ex := .list (l.map .int)

/-- Printing the properties of a definition (`grf/actions.py:1437-1443`, `1473`): `one` for `Define`, which prints the only value. -/
def propsEx (feature : Nat) (one : Bool) (props : List (String × List PVal)) : Option Ex :=
  (props.mapM fun p => (byName feature p.1).bind fun e => (p.2.mapM (propEx e.fmt)).bind fun l =>
    (if one then l.head? else some (.list l)).map fun x => (DKey.str p.1, x)).map .dict

mutual
/-- `repr` of a value of an info tree as far as the decoder makes it (`grf/actions.py:2459-2463`, `grf/decompile.py:951-970`). -/
def pvEx : PV → Option Ex
  | .dict l => (pvDict l).map .dict
  | .text lang b => some (.tuple [.int lang, .bytes b])
  | .list l => (pvList l).map .list
  | .int n => some (.int n)
  | .bytes b => some (.bytes b)
  | .str _ => Option.none
  | .strings _ => Option.none
/-- Elements. For `grf/actions.py:2459-2463`. -/
def pvList : List PV → Option (List Ex)
  | [] => some []
  | v :: l => (pvEx v).bind fun x => (pvList l).map (x :: ·)
/-- Entries. For `grf/decompile.py:237-250`. -/
def pvDict : List (Key × PV) → Option (List (DKey × Ex))
  | [] => some []
  | (k, v) :: l => (match k with
      | .bytes b => some (DKey.bytes b)
      | .int n => some (DKey.int n)
      | .str _ => Option.none).bind fun k => (pvEx v).bind fun x => (pvDict l).map ((k, x) :: ·)
end

/-- `scope!r` (`grf/actions.py:1857`, `1877`). -/
def scopeName : Scope → String
  | .self => "self"
  | .parent => "parent"
  | .relative => "relative"

/-- `repr` of the inputs or outputs of a production callback of version 2: tuples (`grf/decompile.py:661-665`). -/
def pairsEx (l : List (List Int)) : Ex := .list (l.map fun p => .tuple (p.map .int))

/-- `repr` of an `If`'s value. For `grf/decompile.py:661-665`. -/
def ifValueEx : IfValue → Ex
  | .bytes b => .bytes b
  | .int n => .int n

/-- `repr` of a value of `ComputeParameters`. For `grf/decompile.py:237-250`. -/
def valueEx : PValue → Ex
  | .none => .none
  | .bytes b => .bytes b
  | .int n => .int n

/-- `repr` of a message. For `grf/decompile.py:237-250`. -/
def msgEx : Msg → Ex
  | .int n => .int n
  | .bytes b => .bytes b

/-- Lines of a text (`splitlines` for texts whose only line boundary is `'\n'`, keeping a last empty line). For `grf/actions.py:1801-1804`. -/
def splitLines : List Char → List (List Char)
  | [] => [[]]
  | c :: r => if c = '\n' then [] :: splitLines r else
    match splitLines r with
    | [] => [[c]]
    | p :: ps => (c :: p) :: ps

/-- The lines of a text between `'''` after `textwrap.indent` by 16 (`grf/actions.py:1804`), which leaves blank lines alone, and
`textwrap.dedent` (`grf/grf.py:310`), which removes the eight blanks before `Switch(` from all lines and makes blank lines empty. The last
line has `'''` in it, so it is never blank. -/
def indentLines : List (List Char) → List Char
  | [] => []
  | [l] => List.replicate 8 ' ' ++ l
  | l :: r => (if l.all (fun c => c = ' ') then [] else List.replicate 8 ' ' ++ l) ++ '\n' :: indentLines r

/-- `code_str` (`grf/actions.py:1801-1804`). -/
def codeEx (code : List Char) : Ex :=
  if '\n' ∈ code then .block ('\n' :: indentLines (splitLines code)) else .str (String.ofList code)

/-- A key of the dictionary of ranges (`grf/actions.py:117-122`). -/
def rangeKey (low high : Int) : DKey := if low = high then .int (utoi32 low) else .pair (utoi32 low) (utoi32 high)

/-- Number of references (`get_refs`: `grf/actions.py:1730-1734`, `1850-1851`, `1945-1947`). -/
def Obj.refs : Obj → List Target
  | .switch s => s.ranges.map (·.ref) ++ [s.default]
  | .act (.random r) => r.groups
  | .act (.map a) => a.maps.map (·.2) ++ [a.default]
  | .act _ => []

/-- `py()` of the classes (line numbers with each), given the texts of the references in the order of `get_refs`. The class of an object the
decoder made follows from its fields: `Define` if the count is one (`grf/decompile.py:237-250`), `SpriteSet` for one set in the short
format (`252-278`). The arguments `ground` and `building` of layouts contain `SpriteRef(..)` (`grf/actions.py:1591-1597`), the rest of them
is left out. `none`: printing raises. -/
def py (refs : List Ex) : Obj → Option Call
  /- 1445-1452, 1472-1479 -/
  | .act (.define d) => if d.count = 1 then (propsEx d.feature true d.props).map fun p =>
        ⟨"Define", [("feature", featureEx d.feature), ("id", .int d.firstId), ("props", p)]⟩
      else (propsEx d.feature false d.props).map fun p =>
        ⟨"DefineMultiple", [("feature", featureEx d.feature), ("first_id", .int d.firstId), ("count", .int d.count), ("props", p)]⟩
  /- 1508-1514, 1521-1526 -/
  | .act (.sets a) => if a.setCount = 1 ∧ a.firstSet = Option.none then
        some ⟨"SpriteSet", [("feature", featureEx a.feature), ("count", .int a.spriteCount)]⟩
      else some ⟨"Action1", [("feature", featureEx a.feature), ("set_count", .int a.setCount), ("sprite_count", .int a.spriteCount),
        ("first_set", optEx a.firstSet)]⟩
  /- 1563-1571 -/
  | .act (.generic g) => some ⟨"GenericSpriteLayout", [("feature", featureEx g.feature), ("ref_id", .int g.refId),
      ("ent1", .tuple (g.ent1.map .int)), ("ent2", .tuple (g.ent2.map .int))]⟩
  /- 1871-1882 -/
  | .act (.random r) => some ⟨"RandomSwitch", [("feature", featureEx r.feature), ("ref_id", .int r.refId), ("scope", .str (scopeName r.scope)),
      ("count", optEx r.count), ("triggers", .int r.triggers), ("cmp_all", .bool r.cmpAll), ("lowest_bit", .int r.lowestBit),
      ("groups", .list refs)]⟩
  /- 1923-1930 -/
  | .act (.production (.old v i o d)) => some ⟨"IndustryProductionCallback", [("version", .int v), ("inputs", intsEx i),
      ("outputs", intsEx o), ("do_again", .int d)]⟩
  | .act (.production (.new i o d)) => some ⟨"IndustryProductionCallback", [("version", .int 2), ("inputs", pairsEx i),
      ("outputs", pairsEx o), ("do_again", .int d)]⟩
  /- 1590-1597 -/
  | .act (.basic b) => some ⟨"BasicSpriteLayout", [("feature", featureEx b.feature), ("ref_id", .int b.refId),
      ("ground", .dict [(.str "sprite", spriteEx b.ground)]), ("building", .dict [(.str "sprite", spriteEx b.building)])]⟩
  /- 1652-1662 -/
  | .act (.layout l) => some ⟨"AdvancedSpriteLayout", [("feature", featureEx l.feature), ("ref_id", .int l.refId),
      ("ground", .dict [(.str "sprite", spriteEx l.ground.sprite)])]⟩
  /- 1973-1982 -/
  | .act (.map a) => some ⟨"Action3", [("feature", featureEx a.feature), ("wagon_override", .bool a.wagonOverride), ("ids", intsEx a.ids),
      ("maps", .dict ((a.maps.map fun p => DKey.int p.1).zip refs)), ("default", refs.getLastD .none)]⟩
  /- 2051-2060 -/
  | .act (.texts s) => some ⟨"DefineStrings", [("feature", featureEx s.feature), ("lang", .int s.lang), ("offset", .int s.offset),
      ("is_generic_offset", .bool s.generic), ("strings", .list (s.strings.map .bytes))]⟩
  /- 2085-2086 -/
  | .act (.newSprites a) => some ⟨"ReplaceNewSprites", [("set_type", .int a.setType), ("count", .int a.count), ("offset", optEx a.offset)]⟩
  /- 2104-2105 -/
  | .act (.modify ps) => some ⟨"ModifySprites", [("", .list (ps.map fun p => .dict [(.str "num", .int p.num), (.str "size", .int p.size),
      (.str "offset", .int p.offset)]))]⟩
  /- 2133-2143: a comparison of bytes with a number, or packing a negative number, raises -/
  | .act (.cond a) =>
    match a.value with
    | .bytes _ => Option.none
    | .int n => if n < 0 then Option.none else some ⟨"If", [("is_static", .bool a.isStatic), ("variable", .int a.var),
        ("varsize", optEx a.varsize), ("condition", .int a.condition), ("value", .int n), ("skip", .int a.skip)]⟩
  /- 2180-2187 -/
  | .act (.description a) => some ⟨"SetDescription", [("format_version", .int a.version), ("grfid", .bytes a.grfid), ("name", .bytes a.name),
      ("description", .bytes a.description)]⟩
  /- 2207-2208 -/
  | .act (.oldSprites s) => some ⟨"ReplaceOldSprites", [("sets", .list (s.map fun p => .tuple [.int p.1, .int p.2]))]⟩
  /- 2239-2247 -/
  | .act (.error e) => some ⟨"ErrorMessage", [("severity", .int e.severity), ("lang", .int e.lang), ("message", msgEx e.message),
      ("text_param", match e.textParam with | Option.none => .none | some b => .bytes b), ("params", intsEx e.params)]⟩
  /- 2261-2262 -/
  | .act (.comment d) => some ⟨"Comment", [("", .bytes d)]⟩
  /- 2288-2302: the value is packed for a comment -/
  | .act (.compute a) => if (match a.value with | .none => true | .bytes _ => false | .int n => 0 ≤ n && n < 4294967296) then
        some ⟨"ComputeParameters", [("target", .int a.target), ("operation", .int a.operation), ("if_undefined", .bool a.ifUndefined),
          ("source1", .int a.source1), ("source2", .int a.source2), ("value", valueEx a.value)]⟩
      else Option.none
  /- 2318-2319 -/
  | .act (.label a) => some ⟨"Label", [("", .int a.label), ("", .bytes a.comment)]⟩
  /- 2332-2333 -/
  | .act (.sounds n) => some ⟨"SoundEffects", [("", .int n)]⟩
  /- 2345-2346 -/
  | .act (.importSound g n) => some ⟨"ImportSound", [("", .bytes g), ("", .int n)]⟩
  /- 2459-2463 -/
  | .act (.props l) => (pvDict l).map fun d => ⟨"SetProperties", [("props", .dict d)]⟩
  /- not made by the decoder -/
  | .act (.glyphs _) => Option.none
  | .act (.switch _) => Option.none
  /- 1800-1814 -/
  | .switch s => some ⟨"Switch", [("feature", featureEx s.feature), ("ref_id", .int s.refId), ("related_scope", .bool s.related),
      ("code", codeEx s.code), ("ranges", .dict ((s.ranges.map fun r => rangeKey r.low r.high).zip refs)), ("default", refs.getLastD .none)]⟩

/-! ### Running a call -/

/-- A parameter of a constructor: its name, whether it can be given by place, and its default. For `grf/actions.py:1361`. -/
structure Param where
  name : String
  pos : Bool
  dflt : Option Val

/-- A parameter by place or keyword without a default. For `grf/actions.py:1361`. -/
def byPlace (n : String) : Param := ⟨n, true, Option.none⟩

/-- A parameter by keyword without a default. For `grf/actions.py:1361`. -/
def byKey (n : String) : Param := ⟨n, false, Option.none⟩

/-- A parameter by keyword with a default. For `grf/actions.py:1361`. -/
def orElse (n : String) (v : Val) : Param := ⟨n, false, some v⟩

/-- The parameters of the constructors (`grf/actions.py:1361`, `1464`, `1485`, `1518`, `1533-1540`, `1703`, `1835`, `1886`, `1936`, `2021`,
`2071`, `2092`, `2111`, `2151`, `2194`, `2215`, `2254`, `2269`, `2308`, `2325`, `2337`, `2403`). The layout classes need no entry: their
arguments cannot be evaluated. -/
def signature (cls : String) : Option (List Param) :=
  if cls = "DefineMultiple" then some [byKey "feature", byKey "first_id", byKey "props", orElse "count" .none]
  else if cls = "Define" then some [byKey "feature", byKey "id", byKey "props"]
  else if cls = "Action1" then some [byPlace "feature", byPlace "set_count", byPlace "sprite_count", orElse "first_set" .none]
  else if cls = "SpriteSet" then some [byPlace "feature", byPlace "count"]
  else if cls = "GenericSpriteLayout" then some [byKey "ent1", byKey "ent2", orElse "feature" .none, orElse "ref_id" .none]
  else if cls = "Switch" then some [byPlace "code", byPlace "ranges", byPlace "default", orElse "feature" .none, orElse "ref_id" .none,
    orElse "related_scope" (.bool false), orElse "subroutines" .none]
  else if cls = "RandomSwitch" then some [byKey "scope", byKey "triggers", byKey "cmp_all", byKey "lowest_bit", byKey "groups",
    orElse "count" .none, orElse "feature" .none, orElse "ref_id" .none]
  else if cls = "IndustryProductionCallback" then some [byKey "inputs", byKey "outputs", byKey "do_again", orElse "version" (.int 2)]
  else if cls = "Action3" then some [byKey "feature", byKey "ids", byKey "maps", byKey "default", orElse "wagon_override" (.bool false)]
  else if cls = "DefineStrings" then some [byKey "feature", byKey "offset", byKey "is_generic_offset", byKey "strings",
    orElse "lang" (.int 0x7f)]
  else if cls = "ReplaceNewSprites" then some [byPlace "set_type", byPlace "count", orElse "offset" .none]
  else if cls = "ModifySprites" then some [byPlace "params"]
  else if cls = "If" then some [byKey "is_static", byKey "variable", byKey "condition", byKey "value", byKey "skip", orElse "varsize" .none]
  else if cls = "SetDescription" then some [byKey "grfid", byKey "name", byKey "description", orElse "format_version" (.int 8)]
  else if cls = "ReplaceOldSprites" then some [byPlace "sets"]
  else if cls = "ErrorMessage" then some [byKey "severity", byKey "lang", byKey "message", orElse "text_param" .none,
    orElse "params" .none]
  else if cls = "Comment" then some [byPlace "data"]
  else if cls = "ComputeParameters" then some [byKey "target", byKey "operation", byKey "if_undefined", byKey "source1", byKey "source2",
    orElse "value" .none]
  else if cls = "Label" then some [byPlace "label", byPlace "comment"]
  else if cls = "SoundEffects" then some [byPlace "count"]
  else if cls = "ImportSound" then some [byPlace "grfid", byPlace "number"]
  else if cls = "SetProperties" then some [byPlace "props"]
  else Option.none

/-- Python's binding of arguments to parameters: arguments without a keyword by place, the others by name, no parameter twice, none that
does not exist, and defaults for those not given; otherwise a `TypeError`. For `grf/grf.py:280-285`. -/
def bindArgs (ps : List Param) (args : List (String × Val)) : Option (List (String × Val)) :=
  let places := (ps.filter (·.pos)).map (·.name)
  let byPlace := args.filter fun a => a.1 = ""
  let named := places.zip (byPlace.map (·.2)) ++ args.filter fun a => a.1 ≠ ""
  if byPlace.length ≤ places.length ∧ (named.map (·.1)).Nodup ∧ (named.all fun a => (ps.map (·.name)).contains a.1) = true then
    ps.mapM fun p => match named.lookup p.name with
      | some v => some (p.name, v)
      | Option.none => p.dflt.map fun v => (p.name, v)
  else Option.none

/-- The entries of a dictionary of properties, all values of `n` items. For `grf/grf.py:280-285`. -/
def propsVal (feature : Nat) (one : Bool) (d : List (DKey × Val)) : Option (List (String × List PVal)) :=
  d.mapM fun p => match p.1 with
    | .str n => (byName feature n).bind fun e =>
        (if one then some [p.2] else match p.2 with | .list l => some l | _ => Option.none).bind fun l =>
          (l.mapM (propVal e.fmt)).map fun l => (n, l)
    | _ => Option.none

mutual
/-- A value of an info tree. For `grf/grf.py:280-285`. -/
def valPV : Val → Option PV
  | .dict l => (valPVs l).map .dict
  | .list l => (valPVl l).map .list
  | .tuple l => match l with
    | [.int n, .bytes b] => some (.text n b)
    | _ => Option.none
  | .int n => some (.int n)
  | .bytes b => some (.bytes b)
  | _ => Option.none
/-- Elements. For `grf/actions.py:1361`. -/
def valPVl : List Val → Option (List PV)
  | [] => some []
  | v :: l => (valPV v).bind fun x => (valPVl l).map (x :: ·)
/-- Entries. For `grf/grf.py:280-285`. -/
def valPVs : List (DKey × Val) → Option (List (Key × PV))
  | [] => some []
  | (k, v) :: l => (match k with
      | .bytes b => some (Key.bytes b)
      | .int n => some (Key.int n)
      | _ => Option.none).bind fun k => (valPV v).bind fun x => (valPVs l).map ((k, x) :: ·)
end

/-- A range of a switch (`grf/actions.py:1712-1722`). -/
def rangeVal (p : DKey × Val) : Option SRange :=
  match p.1 with
  | .int n => p.2.target?.map fun t => ⟨n, n, t⟩
  | .pair a b => p.2.target?.map fun t => ⟨a, b, t⟩
  | _ => Option.none

/-- One of the dictionaries given to `ModifySprites`. For `grf/grf.py:280-285`. -/
def modVal : Val → Option ModParam
  | .dict d => do
    let n ← (← d.lookup (.str "num")).int?
    let s ← (← d.lookup (.str "size")).int?
    let o ← (← d.lookup (.str "offset")).int?
    some ⟨n, s, o⟩
  | _ => Option.none

/-- Inputs or outputs of a production callback of version 2. For `grf/grf.py:280-285`. -/
def pairsVal (v : Val) : Option (List (List Int)) := v.seq?.bind fun l => l.mapM Val.ints?

/-- A message. For `grf/grf.py:280-285`. -/
def msgVal : Val → Option Msg
  | .int n => some (.int n)
  | .bytes b => some (.bytes b)
  | _ => Option.none

/-- A value of `If`. For `grf/grf.py:280-285`. -/
def ifVal : Val → Option IfValue
  | .int n => some (.int n)
  | .bytes b => some (.bytes b)
  | _ => Option.none

/-- A value of `ComputeParameters`. For `grf/grf.py:280-285`. -/
def computeVal : Val → Option PValue
  | .none => some .none
  | .int n => some (.int n)
  | .bytes b => some (.bytes b)
  | _ => Option.none

/-- Bytes or nothing. For `grf/grf.py:280-285`. -/
def Val.optBytes? : Val → Option (Option Bytes)
  | .none => some Option.none
  | .bytes b => some (some b)
  | _ => Option.none

/-- The names of scopes. For `grf/grf.py:280-285`. -/
def scopeVal : Val → Option Scope
  | .str s => if s = "self" then some .self else if s = "parent" then some .parent else if s = "relative" then some .relative
    else Option.none
  | _ => Option.none

/-- `if c then x else raise`. For `grf/grf.py:280-285`. -/
def check (c : Bool) (x : Obj) : Option Obj := if c then some x else Option.none

/-- `__init__` of the classes: their checks and the fields (line numbers with each); `arg` gives the arguments. Values of a type that is not
modelled give `none`. For `grf/grf.py:280-285`. -/
def construct (cls : String) (arg : String → Option Val) : Option Obj :=
  /- 1361-1374 -/
  if cls = "DefineMultiple" then do
    let f ← (← arg "feature").feature?
    let i ← (← arg "first_id").int?
    let n ← (← arg "count").int?
    let p ← propsVal f false (← (← arg "props").dict?)
    check (0 ≤ n && (Def0.mk f i n.toNat p).accepted) (.act (.define ⟨f, i, n.toNat, p⟩))
  /- 1464-1466 -/
  else if cls = "Define" then do
    let f ← (← arg "feature").feature?
    let i ← (← arg "id").int?
    let p ← propsVal f true (← (← arg "props").dict?)
    check (Def0.mk f i 1 p).accepted (.act (.define ⟨f, i, 1, p⟩))
  /- 1485-1491 -/
  else if cls = "Action1" then do
    let f ← (← arg "feature").feature?
    let n ← (← arg "set_count").int?
    let m ← (← arg "sprite_count").int?
    let o ← (← arg "first_set").optInt?
    some (.act (.sets ⟨f, n, m, o⟩))
  /- 1518-1519 -/
  else if cls = "SpriteSet" then do
    let f ← (← arg "feature").feature?
    let m ← (← arg "count").int?
    some (.act (.sets ⟨f, 1, m, Option.none⟩))
  /- 1541-1550 -/
  else if cls = "GenericSpriteLayout" then do
    let f ← (← arg "feature").feature?
    let r ← (← arg "ref_id").int?
    let a ← (← arg "ent1").ints?
    let b ← (← arg "ent2").ints?
    check (Generic.mk f r a b).accepted (.act (.generic ⟨f, r, a, b⟩))
  /- 1703-1728 -/
  else if cls = "Switch" then do
    let f ← (← arg "feature").feature?
    let r ← (← arg "ref_id").int?
    let rel ← (← arg "related_scope").bool?
    let c ← (← arg "code").str?
    let rs ← (← (← arg "ranges").dict?).mapM rangeVal
    let d ← (← arg "default").target?
    some (.switch ⟨f, r, rel, c.toList, rs, d⟩)
  /- 1835-1848 -/
  else if cls = "RandomSwitch" then do
    let f ← (← arg "feature").feature?
    let r ← (← arg "ref_id").int?
    let s ← scopeVal (← arg "scope")
    let n ← (← arg "count").optInt?
    let t ← (← arg "triggers").int?
    let ca ← (← arg "cmp_all").bool?
    let lb ← (← arg "lowest_bit").int?
    let g ← (← (← arg "groups").seq?).mapM Val.target?
    check (Random.mk f r s n t ca lb g).accepted (.act (.random ⟨f, r, s, n, t, ca, lb, g⟩))
  /- 1886-1900 -/
  else if cls = "IndustryProductionCallback" then do
    let v ← (← arg "version").int?
    let d ← (← arg "do_again").int?
    if v < 2 then do
      let i ← (← arg "inputs").ints?
      let o ← (← arg "outputs").ints?
      check (0 ≤ v && (Production.old v.toNat i o d).accepted) (.act (.production (.old v.toNat i o d)))
    else do
      let i ← pairsVal (← arg "inputs")
      let o ← pairsVal (← arg "outputs")
      check (v == 2 && (Production.new i o d).accepted) (.act (.production (.new i o d)))
  /- 1936-1943 -/
  else if cls = "Action3" then do
    let f ← (← arg "feature").feature?
    let ids ← (← arg "ids").ints?
    let m ← (← (← arg "maps").dict?).mapM fun p => p.1.int?.bind fun k => p.2.target?.map fun t => (k, t)
    let d ← (← arg "default").target?
    let w ← (← arg "wagon_override").bool?
    some (.act (.map ⟨f, ids, m, d, w⟩))
  /- 2021-2037 -/
  else if cls = "DefineStrings" then do
    let f ← (← arg "feature").feature?
    let l ← (← arg "lang").int?
    let o ← (← arg "offset").int?
    let g ← (← arg "is_generic_offset").bool?
    let s ← (← (← arg "strings").seq?).mapM Val.bytes?
    check (Texts.mk f l o g s).accepted (.act (.texts ⟨f, l, o, g, s⟩))
  /- 2071-2078 -/
  else if cls = "ReplaceNewSprites" then do
    let t ← (← arg "set_type").int?
    let n ← (← arg "count").int?
    let o ← (← arg "offset").optInt?
    some (.act (.newSprites ⟨t, n, o⟩))
  /- 2092-2094 -/
  else if cls = "ModifySprites" then do
    let l ← (← (← arg "params").seq?).mapM modVal
    some (.act (.modify l))
  /- 2111-2120 -/
  else if cls = "If" then do
    let s ← (← arg "is_static").bool?
    let v ← (← arg "variable").int?
    let n ← (← arg "varsize").optInt?
    let c ← (← arg "condition").int?
    let x ← ifVal (← arg "value")
    let k ← (← arg "skip").int?
    check (If.mk s v n c x k).accepted (.act (.cond ⟨s, v, n, c, x, k⟩))
  /- 2151-2166: the bytes are made here, so a version that is no byte raises -/
  else if cls = "SetDescription" then do
    let v ← (← arg "format_version").int?
    let g ← (← arg "grfid").bytes?
    let n ← (← arg "name").bytes?
    let d ← (← arg "description").bytes?
    check (Description.mk v g n d).getData.isSome (.act (.description ⟨v, g, n, d⟩))
  /- 2194-2202 -/
  else if cls = "ReplaceOldSprites" then do
    let l ← (← (← arg "sets").seq?).mapM Val.pair?
    check (l.length ≤ 0xff) (.act (.oldSprites l))
  /- 2215-2225 -/
  else if cls = "ErrorMessage" then do
    let s ← (← arg "severity").int?
    let l ← (← arg "lang").int?
    let m ← msgVal (← arg "message")
    let t ← (← arg "text_param").optBytes?
    let p ← (← arg "params").ints?
    check (Err.mk s l m t p).accepted (.act (.error ⟨s, l, m, t, p⟩))
  /- 2254-2256 -/
  else if cls = "Comment" then do
    let d ← (← arg "data").bytes?
    some (.act (.comment d))
  /- 2269-2276 -/
  else if cls = "ComputeParameters" then do
    let t ← (← arg "target").int?
    let o ← (← arg "operation").int?
    let u ← (← arg "if_undefined").bool?
    let a ← (← arg "source1").int?
    let b ← (← arg "source2").int?
    let v ← computeVal (← arg "value")
    some (.act (.compute ⟨t, o, u, a, b, v⟩))
  /- 2308-2313 -/
  else if cls = "Label" then do
    let l ← (← arg "label").int?
    let c ← (← arg "comment").bytes?
    check (0 ≤ l && l ≤ 255) (.act (.label ⟨l, c⟩))
  /- 2325-2327 -/
  else if cls = "SoundEffects" then do
    let n ← (← arg "count").int?
    some (.act (.sounds n))
  /- 2337-2340 -/
  else if cls = "ImportSound" then do
    let g ← (← arg "grfid").bytes?
    let n ← (← arg "number").int?
    some (.act (.importSound g n))
  /- 2403-2405 -/
  else if cls = "SetProperties" then do
    let d ← (← arg "props").dict?
    let l ← valPVs d
    some (.act (.props l))
  else Option.none

/-- Running a call: the arguments are evaluated, bound and given to the constructor. The header of the script binds every class that is
used (`grf/grf.py:280-285`), and the bound class adds the object to the file (`grf/grf.py:759-771`). -/
def runCall (names : String → Option Target) (c : Call) : Option Obj := do
  let vs ← evalArgs names c.args
  let ps ← signature c.cls
  let m ← bindArgs ps vs
  construct c.cls fun k => m.lookup k

end Grf.Py
