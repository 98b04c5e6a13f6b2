import Verif.Model.Gif
/-!
# What the game shows, and what a viewer shows of an animated picture

From the description of the palette animation of the game (`DoPaletteAnimations`): the counter grows by 8 each tick; for each range the position
of the first colour in a table is computed from the counter, the further ones follow at a distance, around the end of the table.
-/
namespace Spec.Animation
open Grf.Palette (Rgb)

/-- An upward position: the counter times `p` in 16 bits, scaled to `q` places. -/
def up (p q counter : Nat) : Nat := (counter * p % 65536) * q / 65536

/-- A downward position: the inverted 32 bits of the counter times `p` in 16 bits, scaled. -/
def down (p q counter : Nat) : Nat := ((4294967295 - counter % 4294967296) * p % 65536) * q / 65536

/-- The colour at position `k` of a table shown from position `j` on at distance `step`. -/
def around (table : List Rgb) (j step k : Nat) : Option Rgb := table[(j + k * step) % table.length]?

/-- Fizzy drinks. -/
def fizzyTable : List Rgb := [(76, 24, 8), (108, 44, 24), (144, 72, 52), (176, 108, 84), (212, 148, 128)]
/-- Fire of the oil refinery. -/
def fireTable : List Rgb := [(252, 60, 0), (252, 84, 0), (252, 108, 0), (252, 124, 0), (252, 148, 0), (252, 172, 0), (252, 196, 0)]
/-- Lighthouse and stadium. -/
def lightTable : List Rgb := [(240, 208, 0), (0, 0, 0), (0, 0, 0), (0, 0, 0)]
/-- Dark blue water. -/
def waterTable : List Rgb := [(32, 68, 112), (36, 72, 116), (40, 76, 120), (44, 80, 124), (48, 84, 128)]
/-- Glittery water. -/
def glitterTable : List Rgb := [
  (216, 244, 252), (172, 208, 224), (132, 172, 196), (100, 132, 168), (72, 100, 144), (72, 100, 144), (72, 100, 144), (72, 100, 144),
  (72, 100, 144), (72, 100, 144), (72, 100, 144), (72, 100, 144), (100, 132, 168), (132, 172, 196), (172, 208, 224)]

/-- The blinking of the radio tower. -/
def tower (i : Nat) : Rgb := if i < 0x3F then (255, 0, 0) else if i < 0x4A ∨ 0x75 ≤ i then (128, 0, 0) else (20, 0, 0)

/-- The colour of value `v` of the game's palette when the counter is `c`; value 0 is transparent. -/
def gameColour (v c : Nat) : Option Rgb :=
  if v = 0 then none
  else if 227 ≤ v ∧ v ≤ 231 then around fizzyTable (down 512 5 c) 1 (v - 227)
  else if 232 ≤ v ∧ v ≤ 238 then around fireTable (down 512 7 c) 1 (v - 232)
  else if v = 239 then some (tower (c / 2 % 128))
  else if v = 240 then some (tower ((c / 2 % 128 + 64) % 128))
  else if 241 ≤ v ∧ v ≤ 244 then around lightTable (up 256 4 c) 1 (v - 241)
  else if 245 ≤ v ∧ v ≤ 249 then around waterTable (up 320 5 c) 1 (v - 245)
  else if 250 ≤ v ∧ v ≤ 254 then around glitterTable (up 128 15 c) 3 (v - 250)
  else Grf.Palette.game[v]?

/-- A viewer draws a picture over what is there: index 0 is transparent, the others have the colours of the picture's palette. -/
def draw (f : Grf.Gif.Frame) (y x : Nat) (before : Option Rgb) : Option Rgb :=
  match f.px[y]?.bind (·[x]?) with
  | none => before
  | some 0 => before
  | some i => f.palette[i]?

/-- What a viewer shows at a point at time `t`, repeating the pictures forever. -/
def seen (g : List Grf.Gif.Frame) (y x : Nat) : Nat → Option Rgb
  | 0 => (g[0]?).bind fun f => draw f y x none
  | t + 1 => (g[(t + 1) % g.length]?).bind fun f => draw f y x (seen g y x t)

end Spec.Animation
