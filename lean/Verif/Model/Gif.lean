import Verif.Model.Palette
import Verif.Model.SpriteData
/-!
# Model of `Sprite.save_gif` (`grf/sprites.py:476-577`)

How Pillow stores the pictures is not modelled: the result is the list of pictures with their palettes handed over to it. It is saved with
index 0 transparent and each picture drawn over the one before (`transparency=0, dispose=1`), forever (`loop=0`).
-/
namespace Grf.Gif
open Palette (Rgb)

/-- One animated range of the palette (`grf/sprites.py:541-546`). -/
structure Anim where
  start : Nat
  size : Nat
  colours : List Rgb
  func : Nat → Nat
  cycle : Nat
  step : Nat

/-- `extr` (`grf/sprites.py:504-505`). -/
def extr (p q : Nat) (c : Nat) : Nat := (c * p) % 65536 * q / 65536

/-- `extr2` (`grf/sprites.py:507-508`): `~counter` is `-counter - 1`. -/
def extr2 (p q : Nat) (c : Nat) : Nat := (((-(c : Int) - 1) * p) % 65536).toNat * q / 65536

/-- `FIZZY_DRINKS` (`grf/sprites.py:485`). -/
def fizzy : List Rgb := [(76, 24, 8), (108, 44, 24), (144, 72, 52), (176, 108, 84), (212, 148, 128)]
/-- `OIL_REFINERY_AND_FIRE` (`grf/sprites.py:483`). -/
def fire : List Rgb := [(252, 60, 0), (252, 84, 0), (252, 108, 0), (252, 124, 0), (252, 148, 0), (252, 172, 0), (252, 196, 0)]
/-- `LIGHTHOUSE_AND_STADIUM` (`grf/sprites.py:482`). -/
def lighthouse : List Rgb := [(240, 208, 0), (0, 0, 0), (0, 0, 0), (0, 0, 0)]
/-- `DARK_BLUE_WATER` (`grf/sprites.py:480`). -/
def darkWater : List Rgb := [(32, 68, 112), (36, 72, 116), (40, 76, 120), (44, 80, 124), (48, 84, 128)]
/-- `GLITTERY_WATER` (`grf/sprites.py:487-491`). -/
def glitter : List Rgb := [
  (216, 244, 252), (172, 208, 224), (132, 172, 196), (100, 132, 168), (72, 100, 144), (72, 100, 144), (72, 100, 144), (72, 100, 144),
  (72, 100, 144), (72, 100, 144), (72, 100, 144), (72, 100, 144), (100, 132, 168), (132, 172, 196), (172, 208, 224)]

/-- The table of the loop (`grf/sprites.py:541-546`). -/
def anims : List Anim := [
  ⟨0xE3, 5, fizzy, extr2 512 5, 16, 1⟩,
  ⟨0xE8, 7, fire, extr2 512 7, 16, 1⟩,
  ⟨0xF1, 4, lighthouse, extr 256 4, 32, 1⟩,
  ⟨0xF5, 5, darkWater, extr 320 5, 128, 1⟩,
  ⟨0xFA, 5, glitter, extr 128 15, 64, 3⟩]

/-- The indices of `l[a:b:step]` for `a, b` up to the length. For `grf/sprites.py:519`. -/
def indices (a b step : Nat) : List Nat := (List.range ((b - a + step - 1) / step)).map fun k => a + k * step

/-- `indexed[j::step] + indexed[j % step:j:step]` (`grf/sprites.py:519`). -/
def turned (l : List Nat) (j step : Nat) : List Nat := (indices j l.length step ++ indices (j % step) j step).map fun k => l.getD k 0

/-- A range whose colours change: first index, size and the indices shown in each picture. For `grf/sprites.py:510-520`. -/
structure Cyc where
  start : Nat
  size : Nat
  frames : List (List Nat)

/-- `pal[start: start + len(l)] = l`. For `grf/sprites.py:510-520`. -/
def patch {α : Type} (pal : List α) (start : Nat) (l : List α) : List α := pal.take start ++ l ++ pal.drop (start + l.length)

/-- `init_cycle` (`grf/sprites.py:510-520`): the palette with the colours of the range, and the range. `order` lists a set of colours in some order. -/
def initCycle (order : List Rgb → List Rgb) (pal : List Rgb) (a : Anim) : Option (List Rgb × Cyc) :=
  let cset := order a.colours
  if cset.length ≤ a.size then
    some (patch pal a.start cset, ⟨a.start, a.size, (List.range a.cycle).map fun i =>
      turned (a.colours.map fun x => cset.idxOf x + a.start) (a.func (8 * i)) a.step⟩)
  else none

/-- All ranges that occur (`grf/sprites.py:541-548`). -/
def setup (order : List Rgb → List Rgb) (pal : List Rgb) : List Anim → Option (List Rgb × List Cyc)
  | [] => some (pal, [])
  | a :: r => (initCycle order pal a).bind fun (p, c) => (setup order p r).map fun (q, cs) => (q, c :: cs)

/-- A picture of the animation. For `grf/sprites.py:552-570`. -/
structure Frame where
  px : List (List Nat)
  palette : List Rgb

/-- `remap[start:start + size] = values`; another number of values is refused by numpy (except one, which does not occur). For `grf/sprites.py:554-556`. -/
def setRange (remap : List Nat) (start size : Nat) (vals : List Nat) : Option (List Nat) :=
  if vals.length = size then some (patch remap start vals) else none

/-- The remapping of the first picture (`grf/sprites.py:554-556`). -/
def firstRemap (i : Nat) : List Cyc → List Nat → Option (List Nat)
  | [], r => some r
  | c :: cs, r => (c.frames[i % c.frames.length]?).bind fun v => (setRange r c.start c.size v).bind fun r' => firstRemap i cs r'

/-- The remapping and palette of the others (`grf/sprites.py:559-567`). -/
def nextRemap (pal : List Rgb) (i : Nat) : List Cyc → Nat → List Nat → List Rgb → Option (List Nat × List Rgb)
  | [], _, r, p => some (r, p)
  | c :: cs, cur, r, p =>
    (setRange r c.start c.size ((List.range c.size).map (cur + ·))).bind fun r' =>
    (c.frames[i % c.frames.length]?).bind fun v => (v.mapM fun x => pal[x]?).bind fun more => nextRemap pal i cs (cur + c.size) r' (p ++ more)

/-- `remap[mask]`. For `grf/sprites.py:552-570`. -/
def remapped (remap : List Nat) (mask : List (List UInt8)) : Option (List (List Nat)) := mask.mapM fun row => row.mapM fun v => remap[v.toNat]?

/-- Picture `i` (`grf/sprites.py:552-570`). -/
def frame (pal : List Rgb) (cs : List Cyc) (mask : List (List UInt8)) (i : Nat) : Option Frame :=
  if i = 0 then (firstRemap 0 cs (List.range 256)).bind fun r => (remapped r mask).map fun px => ⟨px, pal⟩
  else (nextRemap pal i cs 1 (List.replicate 256 0) [(0, 0, 0)]).bind fun (r, p) => (remapped r mask).map fun px => ⟨px, p⟩

/-- `max` of the lengths; `none` for no ranges. For `grf/sprites.py:533-571`. -/
def maxCycle : List Cyc → Option Nat
  | [] => none
  | [c] => some c.frames.length
  | c :: cs => (maxCycle cs).map (max c.frames.length)

/-- Does the sprite use colour `v`? (`np.isin(np.arange(0xE8, 0xFF), mask)`) For `grf/sprites.py:533-571`. -/
def hasColours (mask : List (List UInt8)) : List Bool := (List.range 23).map fun k => mask.any fun row => row.any fun v => v.toNat == 0xE8 + k

/-- `any(has_colors[start - 0xE8: start + size - 0xE8])`, with Python's meaning of negative indices. For `grf/sprites.py:533-571`. -/
def occurs (mask : List (List UInt8)) (start size : Nat) : Bool :=
  (SpriteData.pySlice (hasColours mask) ((start : Int) - 0xE8) ((start : Int) + size - 0xE8)).any id

/-- `save_gif` (`grf/sprites.py:533-571`) after the layers are known: `none` is an exception. Without a mask no range occurs. For the radio tower,
`init_radio_tower` (522-535) makes a pair that the unpacking in line 550 refuses, before anything is written. -/
def saveGif (order : List Rgb → List Rgb) (img alpha : Bool) (mask : Option (List (List UInt8))) : Option (List Frame) :=
  if img ∨ alpha then none
  else match mask with
    | none => none
    | some m =>
      if occurs m 0xEF 2 then none
      else (setup order Palette.game (anims.filter fun a => occurs m a.start a.size)).bind fun (pal, cs) =>
        (maxCycle cs).bind fun n => (List.range n).mapM (frame pal cs m)

end Grf.Gif
