import Verif.Model.Remap
/-!
# Model of palettes (`grf/colour.py`, `grf/sprites.py:14-66, 581-603`)

The distance of colours in `oklab` and Pillow's `quantize` are parameters. Pictures are rows of pixels.
-/
namespace Grf.Palette

/-- For `grf/colour.py:7`. -/
abbrev Rgb := Nat × Nat × Nat

/-- `PALETTE` (`grf/colour.py:7, 14`). -/
def game : List Rgb := [
  (0, 0, 255), (16, 16, 16), (32, 32, 32), (48, 48, 48), (64, 64, 64), (80, 80, 80), (100, 100, 100), (116, 116, 116), (132, 132, 132), (148, 148, 148),
  (168, 168, 168), (184, 184, 184), (200, 200, 200), (216, 216, 216), (232, 232, 232), (252, 252, 252), (52, 60, 72), (68, 76, 92), (88, 96, 112), (108, 116, 132),
  (132, 140, 152), (156, 160, 172), (176, 184, 196), (204, 208, 220), (48, 44, 4), (64, 60, 12), (80, 76, 20), (96, 92, 28), (120, 120, 64), (148, 148, 100),
  (176, 176, 132), (204, 204, 168), (72, 44, 4), (88, 60, 20), (104, 80, 44), (124, 104, 72), (152, 132, 92), (184, 160, 120), (212, 188, 148), (244, 220, 176),
  (64, 0, 4), (88, 4, 16), (112, 16, 32), (136, 32, 52), (160, 56, 76), (188, 84, 108), (204, 104, 124), (220, 132, 144), (236, 156, 164), (252, 188, 192),
  (252, 208, 0), (252, 232, 60), (252, 252, 128), (76, 40, 0), (96, 60, 8), (116, 88, 28), (136, 116, 56), (156, 136, 80), (176, 156, 108), (196, 180, 136),
  (68, 24, 0), (96, 44, 4), (128, 68, 8), (156, 96, 16), (184, 120, 24), (212, 156, 32), (232, 184, 16), (252, 212, 0), (252, 248, 128), (252, 252, 192),
  (32, 4, 0), (64, 20, 8), (84, 28, 16), (108, 44, 28), (128, 56, 40), (148, 72, 56), (168, 92, 76), (184, 108, 88), (196, 128, 108), (212, 148, 128),
  (8, 52, 0), (16, 64, 0), (32, 80, 4), (48, 96, 4), (64, 112, 12), (84, 132, 20), (104, 148, 28), (128, 168, 44), (28, 52, 24), (44, 68, 32),
  (60, 88, 48), (80, 104, 60), (104, 124, 76), (128, 148, 92), (152, 176, 108), (180, 204, 124), (16, 52, 24), (32, 72, 44), (56, 96, 72), (76, 116, 88),
  (96, 136, 108), (120, 164, 136), (152, 192, 168), (184, 220, 200), (32, 24, 0), (56, 28, 0), (72, 40, 4), (88, 52, 12), (104, 64, 24), (124, 84, 44),
  (140, 108, 64), (160, 128, 88), (76, 40, 16), (96, 52, 24), (116, 68, 40), (136, 84, 56), (164, 96, 64), (184, 112, 80), (204, 128, 96), (212, 148, 112),
  (224, 168, 128), (236, 188, 148), (80, 28, 4), (100, 40, 20), (120, 56, 40), (140, 76, 64), (160, 100, 96), (184, 136, 136), (36, 40, 68), (48, 52, 84),
  (64, 64, 100), (80, 80, 116), (100, 100, 136), (132, 132, 164), (172, 172, 192), (212, 212, 224), (40, 20, 112), (64, 44, 144), (88, 64, 172), (104, 76, 196),
  (120, 88, 224), (140, 104, 252), (160, 136, 252), (188, 168, 252), (0, 24, 108), (0, 36, 132), (0, 52, 160), (0, 72, 184), (0, 96, 212), (24, 120, 220),
  (56, 144, 232), (88, 168, 240), (128, 196, 252), (188, 224, 252), (16, 64, 96), (24, 80, 108), (40, 96, 120), (52, 112, 132), (80, 140, 160), (116, 172, 192),
  (156, 204, 220), (204, 240, 252), (172, 52, 52), (212, 52, 52), (252, 52, 52), (252, 100, 88), (252, 144, 124), (252, 184, 160), (252, 216, 200), (252, 244, 236),
  (72, 20, 112), (92, 44, 140), (112, 68, 168), (140, 100, 196), (168, 136, 224), (200, 176, 248), (208, 184, 255), (232, 208, 252), (60, 0, 0), (92, 0, 0),
  (128, 0, 0), (160, 0, 0), (196, 0, 0), (224, 0, 0), (252, 0, 0), (252, 80, 0), (252, 108, 0), (252, 136, 0), (252, 164, 0), (252, 192, 0),
  (252, 220, 0), (252, 252, 0), (204, 136, 8), (228, 144, 4), (252, 156, 0), (252, 176, 48), (252, 196, 100), (252, 216, 152), (8, 24, 88), (12, 36, 104),
  (20, 52, 124), (28, 68, 140), (40, 92, 164), (56, 120, 188), (72, 152, 216), (100, 172, 224), (92, 156, 52), (108, 176, 64), (124, 200, 76), (144, 224, 92),
  (224, 244, 252), (200, 236, 248), (180, 220, 236), (132, 188, 216), (88, 152, 172), (244, 0, 244), (245, 0, 245), (246, 0, 246), (247, 0, 247), (248, 0, 248),
  (249, 0, 249), (250, 0, 250), (251, 0, 251), (252, 0, 252), (253, 0, 253), (254, 0, 254), (255, 0, 255), (76, 24, 8), (108, 44, 24), (144, 72, 52),
  (176, 108, 84), (210, 146, 126), (252, 60, 0), (252, 84, 0), (252, 104, 0), (252, 124, 0), (252, 148, 0), (252, 172, 0), (252, 196, 0), (64, 0, 0),
  (255, 0, 0), (48, 48, 0), (64, 64, 0), (80, 80, 0), (255, 255, 0), (32, 68, 112), (36, 72, 116), (40, 76, 120), (44, 80, 124), (48, 84, 128),
  (72, 100, 144), (100, 132, 168), (216, 244, 252), (96, 128, 164), (68, 96, 140), (255, 255, 255)]

/-- `PIL_PALETTE_WIN` (`grf/colour.py:8`), as colours. -/
def windows : List Rgb := [
  (0, 0, 255), (238, 0, 238), (239, 0, 239), (240, 0, 240), (241, 0, 241), (242, 0, 242), (243, 0, 243), (244, 0, 244), (245, 0, 245), (246, 0, 246),
  (168, 168, 168), (184, 184, 184), (200, 200, 200), (216, 216, 216), (232, 232, 232), (252, 252, 252), (52, 60, 72), (68, 76, 92), (88, 96, 112), (108, 116, 132),
  (132, 140, 152), (156, 160, 172), (176, 184, 196), (204, 208, 220), (48, 44, 4), (64, 60, 12), (80, 76, 20), (96, 92, 28), (120, 120, 64), (148, 148, 100),
  (176, 176, 132), (204, 204, 168), (100, 100, 100), (116, 116, 116), (104, 80, 44), (124, 104, 72), (152, 132, 92), (184, 160, 120), (212, 188, 148), (244, 220, 176),
  (132, 132, 132), (88, 4, 16), (112, 16, 32), (136, 32, 52), (160, 56, 76), (188, 84, 108), (204, 104, 124), (220, 132, 144), (236, 156, 164), (252, 188, 192),
  (252, 208, 0), (252, 232, 60), (252, 252, 128), (76, 40, 0), (96, 60, 8), (116, 88, 28), (136, 116, 56), (156, 136, 80), (176, 156, 108), (196, 180, 136),
  (68, 24, 0), (96, 44, 4), (128, 68, 8), (156, 96, 16), (184, 120, 24), (212, 156, 32), (232, 184, 16), (252, 212, 0), (252, 248, 128), (252, 252, 192),
  (32, 4, 0), (64, 20, 8), (84, 28, 16), (108, 44, 28), (128, 56, 40), (148, 72, 56), (168, 92, 76), (184, 108, 88), (196, 128, 108), (212, 148, 128),
  (8, 52, 0), (16, 64, 0), (32, 80, 4), (48, 96, 4), (64, 112, 12), (84, 132, 20), (104, 148, 28), (128, 168, 44), (64, 64, 64), (44, 68, 32),
  (60, 88, 48), (80, 104, 60), (104, 124, 76), (128, 148, 92), (152, 176, 108), (180, 204, 124), (16, 52, 24), (32, 72, 44), (56, 96, 72), (76, 116, 88),
  (96, 136, 108), (120, 164, 136), (152, 192, 168), (184, 220, 200), (32, 24, 0), (56, 28, 0), (80, 80, 80), (88, 52, 12), (104, 64, 24), (124, 84, 44),
  (140, 108, 64), (160, 128, 88), (76, 40, 16), (96, 52, 24), (116, 68, 40), (136, 84, 56), (164, 96, 64), (184, 112, 80), (204, 128, 96), (212, 148, 112),
  (224, 168, 128), (236, 188, 148), (80, 28, 4), (100, 40, 20), (120, 56, 40), (140, 76, 64), (160, 100, 96), (184, 136, 136), (36, 40, 68), (48, 52, 84),
  (64, 64, 100), (80, 80, 116), (100, 100, 136), (132, 132, 164), (172, 172, 192), (212, 212, 224), (48, 48, 48), (64, 44, 144), (88, 64, 172), (104, 76, 196),
  (120, 88, 224), (140, 104, 252), (160, 136, 252), (188, 168, 252), (0, 24, 108), (0, 36, 132), (0, 52, 160), (0, 72, 184), (0, 96, 212), (24, 120, 220),
  (56, 144, 232), (88, 168, 240), (128, 196, 252), (188, 224, 252), (16, 64, 96), (24, 80, 108), (40, 96, 120), (52, 112, 132), (80, 140, 160), (116, 172, 192),
  (156, 204, 220), (204, 240, 252), (172, 52, 52), (212, 52, 52), (252, 52, 52), (252, 100, 88), (252, 144, 124), (252, 184, 160), (252, 216, 200), (252, 244, 236),
  (72, 20, 112), (92, 44, 140), (112, 68, 168), (140, 100, 196), (168, 136, 224), (200, 176, 248), (208, 184, 255), (232, 208, 252), (60, 0, 0), (92, 0, 0),
  (128, 0, 0), (160, 0, 0), (196, 0, 0), (224, 0, 0), (252, 0, 0), (252, 80, 0), (252, 108, 0), (252, 136, 0), (252, 164, 0), (252, 192, 0),
  (252, 220, 0), (252, 252, 0), (204, 136, 8), (228, 144, 4), (252, 156, 0), (252, 176, 48), (252, 196, 100), (252, 216, 152), (8, 24, 88), (12, 36, 104),
  (20, 52, 124), (28, 68, 140), (40, 92, 164), (56, 120, 188), (72, 152, 216), (100, 172, 224), (92, 156, 52), (108, 176, 64), (124, 200, 76), (144, 224, 92),
  (224, 244, 252), (200, 236, 248), (180, 220, 236), (132, 188, 216), (88, 152, 172), (16, 16, 16), (32, 32, 32), (32, 68, 112), (36, 72, 116), (40, 76, 120),
  (44, 80, 124), (48, 84, 128), (72, 100, 144), (100, 132, 168), (216, 244, 252), (96, 128, 164), (68, 96, 140), (76, 24, 8), (108, 44, 24), (144, 72, 52),
  (176, 108, 84), (210, 146, 126), (252, 60, 0), (252, 84, 0), (252, 104, 0), (252, 124, 0), (252, 148, 0), (252, 172, 0), (252, 196, 0), (64, 0, 0),
  (255, 0, 0), (48, 48, 0), (64, 64, 0), (80, 80, 0), (255, 255, 0), (148, 148, 148), (247, 0, 247), (248, 0, 248), (249, 0, 249), (250, 0, 250),
  (251, 0, 251), (252, 0, 252), (253, 0, 253), (254, 0, 254), (255, 0, 255), (255, 255, 255)]

/-- `WIN_TO_DOS` (`grf/colour.py:41-74`). -/
def winToDos : List Nat := [
  0, 1, 2, 3, 4, 5, 6, 7, 8, 9, 10, 11, 12, 13, 14, 15, 16, 17, 18, 19, 20, 21, 22, 23,
  24, 25, 26, 27, 28, 29, 30, 31, 6, 7, 34, 35, 36, 37, 38, 39, 8, 41, 42, 43, 44, 45, 46, 47,
  48, 49, 50, 51, 52, 53, 54, 55, 56, 57, 58, 59, 60, 61, 62, 63, 64, 65, 66, 67, 68, 69, 70, 71,
  72, 73, 74, 75, 76, 77, 78, 79, 80, 81, 82, 83, 84, 85, 86, 87, 4, 89, 90, 91, 92, 93, 94, 95,
  96, 97, 98, 99, 100, 101, 102, 103, 104, 105, 5, 107, 108, 109, 110, 111, 112, 113, 114, 115, 116, 117, 118, 119,
  120, 121, 122, 123, 124, 125, 126, 127, 128, 129, 130, 131, 132, 133, 134, 135, 3, 137, 138, 139, 140, 141, 142, 143,
  144, 145, 146, 147, 148, 149, 150, 151, 152, 153, 154, 155, 156, 157, 158, 159, 160, 161, 162, 163, 164, 165, 166, 167,
  168, 169, 170, 171, 172, 173, 174, 175, 176, 177, 178, 179, 180, 181, 182, 183, 184, 185, 186, 187, 188, 189, 190, 191,
  192, 193, 194, 195, 196, 197, 198, 199, 200, 201, 202, 203, 204, 205, 206, 207, 208, 209, 210, 211, 212, 213, 214, 1,
  2, 245, 246, 247, 248, 249, 250, 251, 252, 253, 254, 227, 228, 229, 230, 231, 232, 233, 234, 235, 236, 237, 238, 239,
  240, 241, 242, 243, 244, 9, 218, 219, 220, 221, 222, 223, 224, 225, 226, 255]

/-- `SAFE_COLOURS` (`grf/colour.py:16`). -/
def safe : List Nat := (List.range 214).map (· + 1) ++ [255]

/-- `ALL_COLOURS` (`grf/colour.py:17`). -/
def all : List Nat := List.range 256

/-- `_FIX_PALETTE_LOOKUP.get` (`grf/sprites.py:17`): of equal colours the last counts. -/
def lookup (c : Rgb) : Option Nat := (List.range 256).foldl (fun r i => if game[i]? = some c then some i else r) none

/-- `np.argmin`: the place of the first least number. For `grf/colour.py:149-152`. -/
def argmin : List Int → Option Nat
  | [] => none
  | a :: l => some ((l.foldl (fun (r : Nat × Int × Nat) x => if x < r.2.1 then (r.2.2, x, r.2.2 + 1) else (r.1, r.2.1, r.2.2 + 1)) (0, a, 1)).1)

/-- `oklab_find_best_colour` for one colour (`grf/colour.py:149-152`): `dist i` is the distance from entry `i` of the palette. -/
def best (dist : Nat → Int) (range : List Nat) : Option Nat := (argmin (range.map dist)).bind fun k => range[k]?

/-- The flat palette of a picture, as colours: `pal[3 * i], ...` for `i < len(pal) // 3` (`grf/sprites.py:33-34`). -/
def colours : List Nat → List Rgb
  | r :: g :: b :: l => (r, g, b) :: colours l
  | _ => []

/-- The remap for a palette (`grf/sprites.py:32-38`); `nearest` is `srgb_find_best_colour` in all colours; more than 256 colours are an
`IndexError`. -/
def makeRemap (nearest : Rgb → Nat) (pal : List Nat) : Option (List Nat) :=
  let cs := colours pal
  if cs.length ≤ 256 then some (cs.map (fun c => (lookup c).getD (nearest c)) ++ (List.range 256).drop cs.length) else none

/-- `PIL_PALETTE` as a flat tuple (`grf/colour.py:7`). -/
def flat (p : List Rgb) : List Nat := p.flatMap fun c => [c.1, c.2.1, c.2.2]

/-- A picture with a palette. For `grf/sprites.py:20-42`. -/
structure Pic where
  pal : List Nat
  px : List (List Nat)
deriving DecidableEq, Repr

/-- `remap_image` (`grf/sprites.py:268-274`). -/
def recolour (remap : List Nat) (px : List (List Nat)) : Option (List (List Nat)) :=
  px.mapM fun (r : List Nat) => r.mapM fun v => remap[v]?

/-- `fix_palette` (`grf/sprites.py:20-42`) with `_remap_cache` as a list of entries, the last one first; `hash` is Python's `hash`. -/
def fix (nearest : Rgb → Nat) (hash : List Nat → Int) (cache : List (Int × List Nat)) (p : Pic) : Option (Pic × List (Int × List Nat)) :=
  if p.pal = flat game then some (p, cache)
  else
    match cache.lookup (hash p.pal) with
    | some remap => (recolour remap p.px).map fun px => (⟨flat game, px⟩, cache)
    | none => (makeRemap nearest p.pal).bind fun remap =>
      (recolour remap p.px).map fun px => (⟨flat game, px⟩, (hash p.pal, remap) :: cache)

/-- One picture after the other. For `grf/sprites.py:20-42`. -/
def fixAll (nearest : Rgb → Nat) (hash : List Nat → Int) : List (Int × List Nat) → List Pic → Option (List Pic)
  | _, [] => some []
  | cache, p :: ps => do
    let (q, cache) ← fix nearest hash cache p
    let qs ← fixAll nearest hash cache ps
    some (q :: qs)

/-- `quantize` (`grf/sprites.py:45-66`) at a pixel with an opacity if the picture has them; `pillow` is what Pillow's `quantize` gives for the colour, a place in the
palette of safe colours. -/
def quantize (pillow : Rgb → Nat) (c : Rgb) (alpha : Option Nat) : Option Nat :=
  (safe[pillow c]?).map fun v =>
    match alpha with
    | some a => if a < 128 then 0 else v
    | none => v

/-! ## Pictures with all layers as colours -/

/-- `openttd_adjust_brightness` (`grf/colour.py:185-213`). -/
def adjust (c : Rgb) (brightness : Nat) : Rgb :=
  if brightness = 128 then c
  else
    let combined := ((c.1 <<< 32) ||| (c.2.1 <<< 16) ||| c.2.2) * brightness
    let r := (combined >>> 39) &&& 0x1ff
    let g := (combined >>> 23) &&& 0x1ff
    let b := (combined >>> 7) &&& 0x1ff
    if combined &&& 0x800080008000 = 0 then (r, g, b)
    else
      let ob := (if r > 255 then r - 255 else 0) + (if g > 255 then g - 255 else 0) + (if b > 255 then b - 255 else 0)
      let ob := ob / 2
      let one := fun v => if v ≥ 255 then 255 else min (v + ob * (255 - v) / 256) 255
      (one r, one g, one b)

/-- The greatest of the three (`max(c)`). For `grf/sprites.py:581-603`. -/
def brightest (c : Rgb) : Nat := max c.1 (max c.2.1 c.2.2)

/-- `make_rgba_image` (`grf/sprites.py:581-603`) at a pixel, from the layers there are; `none` is an exception. -/
def preview (rgb : Option Rgb) (alpha mask : Option Nat) : Option (Rgb × Nat) :=
  match mask, rgb with
  | none, none => none
  | none, some c => some (c, match alpha with | none => 255 | some a => a)
  | some m, none =>
    if m > 0 then (game[m]?).map fun c => (c, 255) else some ((0, 0, 0), match alpha with | none => 0 | some a => a)
  | some m, some c =>
    if m > 0 then (game[m]?).map fun p => (adjust p (brightest c), match alpha with | none => 255 | some a => a)
    else some (c, match alpha with | none => 255 | some a => a)

end Grf.Palette
