import Verif.Model.Props14
/-!
# Model of all actions and of `decode_pseudo_sprite`
-/
namespace Grf.Acts
open PropC

/-- An action as the user builds it: one constructor for each class of `grf/actions.py` with a `get_data` that is written into a pseudo
sprite. `Translations` (`grf/actions.py:2366-2381`) has no instances: its constructor uses an undefined name. -/
inductive Action where
  | define (d : Def0)
  | sets (a : Sets)
  | generic (g : Generic)
  | random (r : Random)
  | production (p : Production)
  | basic (b : Basic)
  | layout (l : Layout)
  | switch (s : Switch)
  | map (a : GMap)
  | texts (s : Texts)
  | newSprites (a : NewSprites)
  | modify (ps : List ModParam)
  | cond (a : If)
  | description (a : Description)
  | oldSprites (sets : List (Int × Int))
  | error (e : Err)
  | comment (data : Bytes)
  | compute (a : Compute)
  | label (a : Lbl)
  | sounds (count : Int)
  | importSound (grfid : Bytes) (number : Int)
  | glyphs (l : List (Int × Int × Int))
  | props (l : List (Key × PV))

/-- `get_data(context)` of each class; line numbers are with the functions used here. `T` are the tables used by switches. For `grf/grf.py:280-285`. -/
def Action.getData (T : Tables) : Action → Option Bytes
  | .define d => d.getData
  | .sets a => a.getData
  | .generic g => g.getData
  | .random r => r.getData
  | .production p => p.getData
  | .basic b => b.getData
  | .layout l => l.getData
  | .switch s => s.getData T
  | .map a => a.getData
  | .texts s => s.getData
  | .newSprites a => a.getData
  | .modify ps => modifyData ps
  | .cond a => a.getData
  | .description a => a.getData
  | .oldSprites s => oldData s
  | .error e => e.getData
  | .comment d => commentData d
  | .compute a => a.getData
  | .label a => a.getData
  | .sounds n => soundsData n
  | .importSound g n => importData g n
  | .glyphs l => glyphsData l
  | .props l => propsData l

/-- What the decoders return. For `grf/decompile.py:992-1012`. -/
inductive Decoded where
  | define (d : Def0)
  | sets (a : Sets)
  | act2 (a : Act2)
  | map (a : GMap)
  | texts (s : Texts)
  | newSprites (a : NewSprites)
  | modify (ps : List ModParam)
  | cond (a : If)
  | description (a : Description)
  | oldSprites (sets : List (Int × Int))
  | error (e : Err)
  | comment (data : Bytes)
  | compute (a : Compute)
  | label (a : Lbl)
  | sounds (count : Int)
  | importSound (grfid : Bytes) (number : Int)
  | props (l : List (Bytes × DV))

/-- `ParsingContext.type` (`grf/decompile.py:34-36`). -/
inductive CtxKind where
  | default | graphics | sound
deriving DecidableEq, Repr

/-- `ParsingContext` (`grf/decompile.py:38-47`) without the group names and statistics. -/
structure PCtx where
  kind : CtxKind := .default
  amount : Int := -1
deriving DecidableEq, Repr

/-- `consume` (`grf/decompile.py:53-62`). -/
def PCtx.consume (c : PCtx) : PCtx :=
  if c.kind = .default then c
  else if c.amount - 1 ≤ 0 then {} else { c with amount := c.amount - 1 }

/-- `ACTIONS.get(data[0])` (`grf/decompile.py:992-1012`) applied to `data[1:]`. `decode_action12` and `decode_action13` always raise: they use
`grf.UnicodeGlyphs` and `grf.Transtations` (lines 920, 932), names the package does not have. `some none` is an unknown action, for which a comment is printed. -/
def decodeAction (T : Nat → List (String × VarData)) (ctx : PCtx) (a : UInt8) (bs : Bytes) : Option (Option Decoded × PCtx) :=
  if a = 0x00 then (decode0 bs).map fun d => (some (.define d), ctx)
  else if a = 0x01 then (decode1 bs).map fun d => (some (.sets d.1), ⟨.graphics, d.2⟩)
  else if a = 0x02 then (decode2 T bs).map fun d => (some (.act2 d), ctx)
  else if a = 0x03 then (decode3 bs).map fun d => (some (.map d), ctx)
  else if a = 0x04 then (decode4 bs).map fun d => (some (.texts d), ctx)
  else if a = 0x05 then (decode5 bs).map fun d => (some (.newSprites d.1), ⟨.graphics, d.2⟩)
  else if a = 0x06 then (decode6 (bs.length + 1) bs).map fun d => (some (.modify d), ctx)
  else if a = 0x07 then (decode7 false bs).map fun d => (some (.cond d), ctx)
  else if a = 0x08 then (decode8 bs).map fun d => (some (.description d), ctx)
  else if a = 0x09 then (decode7 true bs).map fun d => (some (.cond d), ctx)
  else if a = 0x0a then (decodeA bs).map fun d => (some (.oldSprites d.1), ⟨.graphics, d.2⟩)
  else if a = 0x0b then (decodeB bs).map fun d => (some (.error d), ctx)
  else if a = 0x0c then some (some (.comment bs), ctx)
  else if a = 0x0d then (decodeD bs).map fun d => (some (.compute d), ctx)
  else if a = 0x10 then (decode10 bs).map fun d => (some (.label d), ctx)
  else if a = 0x11 then (decode11 bs).map fun d => (some (.sounds d), ⟨.sound, d⟩)
  else if a = 0x12 then none
  else if a = 0x13 then none
  else if a = 0x14 then (decode14 bs).map fun d => (some (.props d), ctx)
  else some (none, ctx)

/-- `decode_pseudo_sprite` (`grf/decompile.py:1022-1047`). The second test for the sound context (line 1033) is never reached.
`decode_sound_actionFF` always raises (it uses two undefined names). -/
def decodePseudo (T : Nat → List (String × VarData)) (ctx : PCtx) : Bytes → Option (Option Decoded × PCtx)
  | [] => none
  | a :: bs =>
    if ctx.kind = .sound then
      if a = 0xfe then (decodeFE bs).map fun d => (some (.importSound d.1 d.2), ctx.consume)
      else if a = 0xff then none
      else decodeAction T {} a bs
    else decodeAction T ctx a bs

end Grf.Acts
