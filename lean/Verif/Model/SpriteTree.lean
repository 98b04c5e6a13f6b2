import Verif.Model.RealSprite
import Verif.Model.Cache
import Verif.Model.Strings
/-!
# Model of the sprite classes and their fingerprints (`grf/sprites.py:292-306`, `365-471`, `601-985`, `grf/grf.py:551-574`, `649-667`,
`grf/cache.py:53-62`)

What Pillow and numpy do to pictures (conversion of modes, quantisation, replacing palettes, blending) and the compression are
parameters: functions of the picture alone. The names of sprites only go into messages and are left out, as are timers and messages. A
picture file is what Pillow makes of it, given its path and the time of its last change.
-/
namespace Grf.Tree
open Grf.RealSprite

/-- A time of change, as the text `repr` gives for the float. For `grf/cache.py:53-62`. -/
abbrev MTime := List Char

/-- A value that goes into the index of the cache (`grf/cache.py:53-62`). The keys of a dictionary are listed in the order `json.dumps`
sorts them into (`sort_keys=True`). -/
inductive JV where
  | null
  | bool (b : Bool)
  | num (n : Int)
  | time (t : MTime)
  | str (s : List Char)
  | list (l : List JV)
  | dict (l : List (List Char × JV))

/-- A picture: its depth, its pixels (rows of the bytes of each pixel) and its palette. For `grf/sprites.py:715-717`. -/
structure Img where
  bpp : Int
  w : Nat
  h : Nat
  px : List (List Bytes)
  palette : List Nat

/-- What the libraries do. For `grf/sprites.py:321-322`. -/
structure Lib where
  /-- `img.convert('RGB')` -/
  toRGB : Img → Img
  /-- `img.convert('RGBA')` -/
  toRGBA : Img → Img
  /-- `quantize` (`grf/sprites.py:45-66`) -/
  quantize : Img → Img
  /-- `fix_palette` (`grf/sprites.py:20-42`) -/
  fixPalette : Img → Img
  /-- `rgb *= ZOOM_DEBUG_COLOURS[zoom]` (`grf/sprites.py:968-969`); `none` is the `KeyError` -/
  debugRGB : Int → List (List Bytes) → Option (List (List Bytes))
  /-- `_get_debug_recolour(zoom)[mask]` (`grf/sprites.py:970-971`) -/
  debugMask : Int → List (List UInt8) → Option (List (List UInt8))
  /-- `context.sprite_compress` -/
  compress : Bytes → Bytes

/-- The attributes of a sprite (`grf/sprites.py:293-303`). -/
structure Attrs where
  w : Option Int
  h : Option Int
  xofs : Int := 0
  yofs : Int := 0
  zoom : Int := 0
  bpp : Option Int := none
  crop : Bool := true
deriving DecidableEq

/-- A sprite: `FileSprite` of an `ImageFile` with a colour key, `EmptySprite`, `ImageSprite`, `WithMask`, `MoveSprite`,
`QuantizeSprite`, `ZoomDebugRecolourSprite`. Wrappers have attributes of their own, set by their constructors. For `grf/sprites.py:681-682`. -/
inductive Sprite where
  | file (a : Attrs) (path : List Char) (colourkey : Option (List Int)) (x y : Int) (kw : List (List Char × JV))
  | empty
  | image (a : Attrs) (img : Img)
  | masked (a : Attrs) (sprite mask : Sprite) (mode : Int)
  | move (a : Attrs) (sprite : Sprite)
  | quantized (a : Attrs) (sprite : Sprite)
  | debug (a : Attrs) (sprite : Sprite)

/-- The attributes of an object; `EmptySprite` calls `super().__init__(1, 1)` (`grf/sprites.py:681-682`). -/
def Sprite.attrs : Sprite → Attrs
  | .file a .. => a
  | .empty => { w := some 1, h := some 1 }
  | .image a _ => a
  | .masked a .. => a
  | .move a _ => a
  | .quantized a _ => a
  | .debug a _ => a

/-! ## Constructors -/

/-- `assert bpp in (None, BPP_8, BPP_24, BPP_32)` (`grf/sprites.py:294`). -/
def depthOk (bpp : Option Int) : Bool := decide (bpp = none ∨ bpp = some 8 ∨ bpp = some 24 ∨ bpp = some 32)

/-- `FileSprite(ImageFile(path, colourkey), x, y, w, h, ..)` (`grf/sprites.py:759-766`). -/
def newFile (a : Attrs) (path : List Char) (colourkey : Option (List Int)) (x y : Int) (kw : List (List Char × JV)) : Option Sprite :=
  if ¬ (colourkey = none ∨ a.bpp ≠ some 8) ∨ !depthOk a.bpp then none else some (.file a path colourkey x y kw)

/-- `ImageSprite(image, ..)` (`grf/sprites.py:715-717`). -/
def newImage (img : Img) (xofs yofs zoom : Int) (crop : Bool) : Sprite :=
  .image ⟨some img.w, some img.h, xofs, yofs, zoom, some img.bpp, crop⟩ img

/-- `WithMask(sprite, mask, mode=..)` (`grf/sprites.py:619-634`). -/
def newMasked (s m : Sprite) (mode : Int) : Option Sprite :=
  if m.attrs.bpp ≠ none ∧ m.attrs.bpp ≠ some 8 then none
  else some (.masked { s.attrs with crop := s.attrs.crop && m.attrs.crop } s m mode)

/-- `MoveSprite(sprite, xofs=.., yofs=..)` (`grf/sprites.py:853-860`, `904-908`). -/
def newMove (s : Sprite) (dx dy : Int) : Sprite := .move { s.attrs with xofs := s.attrs.xofs + dx, yofs := s.attrs.yofs + dy } s

/-- `QuantizeSprite(sprite)` (`grf/sprites.py:853-860`, `922-925`). -/
def newQuantized (s : Sprite) : Sprite := .quantized { s.attrs with bpp := some 8 } s

/-- `ZoomDebugRecolourSprite(sprite)` (`grf/sprites.py:959-961`): `crop` is not handed on. -/
def newDebug (s : Sprite) : Sprite := .debug { s.attrs with crop := true } s

/-! ## Drawing -/

/-- The files as they are: what is found at a path depends on when it was last changed. For `grf/sprites.py:321-322`. -/
structure Disk where
  content : List Char → MTime → Option Img
  changed : List Char → MTime

/-- The area of a `FileSprite` (`grf/sprites.py:777-778`): `self.w is None or self.h is None and self.x == 0 and self.y == 0` takes the
size of the picture for both. A height left out otherwise is a `TypeError` (`none`). -/
def area (a : Attrs) (x y : Int) (img : Img) : Option (Int × Int) :=
  if a.w = none ∨ (a.h = none ∧ x = 0 ∧ y = 0) then some (img.w, img.h)
  else match a.w, a.h with
    | some w, some h => some (w, h)
    | _, _ => none

/-- `get_image` (`grf/sprites.py:321-322`, `722-723`, `775-782`, `927-932`); `none` is an exception. `ImageFile.get_image` has no
parameters, so keyword arguments are refused (`grf/sprites.py:753-755`). The result has the size attributes after the call. -/
def getImage (L : Lib) (D : Disk) : Sprite → Option (Option Int × Option Int × Img)
  | .file a path _ x y kw =>
    if kw.length ≠ 0 then none
    else do
      let img ← D.content path (D.changed path)
      let (w, h) ← area a x y img
      if x < 0 ∨ y < 0 ∨ x + w > img.w ∨ y + h > img.h then none
      else some (some w, some h, { img with w := w.toNat, h := h.toNat, px := window x.toNat y.toNat w.toNat h.toNat img.px })
  | .image a img => some (a.w, a.h, img)
  | .quantized a s => do
    let (_, _, img) ← getImage L D s
    if img.bpp = 8 then none else some (a.w, a.h, { L.quantize img with bpp := 8 })
  | _ => none

/-- `_do_get_image` after `get_image` (`grf/sprites.py:369-390`). -/
def convert (L : Lib) (bpp : Option Int) (img : Img) : Img :=
  match bpp with
  | some b =>
    if img.bpp ≠ b then
      { (if b = 24 then L.toRGB img else if b = 32 then L.toRGBA img else if b = 8 then L.quantize img else img) with bpp := b }
    else if img.bpp = 8 then { L.fixPalette img with bpp := 8 } else img
  | none => if img.bpp = 8 then { L.fixPalette img with bpp := 8 } else img

/-- `Sprite.get_data_layers` on a picture (`grf/sprites.py:394-411`). -/
def split (img : Img) : Option Layers :=
  if img.bpp = 32 then some ⟨some (img.px.map (·.map (·.take 3))), some (img.px.map (·.map (·.getD 3 0))), none⟩
  else if img.bpp = 24 then some ⟨some img.px, none, none⟩
  else if img.bpp = 8 then some ⟨none, none, some (img.px.map (·.map (·.getD 0 0)))⟩
  else none

/-- `Sprite.get_data_layers` (`grf/sprites.py:394-411`): width, height and layers. -/
def baseLayers (L : Lib) (D : Disk) (s : Sprite) : Option (Int × Int × Layers) := do
  let (w, h, img) ← getImage L D s
  let l ← split (convert L s.attrs.bpp img)
  some (w.getD img.w, h.getD img.h, l)

/-- Whether a pixel has the key colour (`grf/sprites.py:787`). -/
def isKey (key : List Int) (p : Bytes) : Bool := decide (p.map (fun b => Int.ofNat b.toNat) = key)

/-- The colour key (`grf/sprites.py:786-793`); without colours `np.all(.., axis=2)` fails. -/
def applyKey (key : List Int) (w h : Int) (l : Layers) : Option Layers :=
  match l.rgb with
  | none => none
  | some rgb =>
    if rgb.any (·.any (isKey key)) then
      let alpha := l.alpha.getD (List.replicate h.toNat (List.replicate w.toNat 255))
      some { l with alpha := some (List.zipWith (List.zipWith fun p a => if isKey key p then 0 else a) rgb alpha) }
    else some l

/-- The same shape. For `grf/sprites.py:650-654`. -/
def sameShape {α β : Type} (a : List (List α)) (b : List (List β)) : Bool := decide (a.map List.length = b.map List.length)

/-- `a[has_mask] = v`, with a value for each pixel (`grf/sprites.py:650-654`, `657-662`); numpy refuses another shape. -/
def overlay {α : Type} (v : UInt8 → α) (m : List (List UInt8)) (a : List (List α)) : Option (List (List α)) :=
  if sameShape m a then some (List.zipWith (List.zipWith fun k p => if k = 0 then p else v k) m a) else none

/-- As `overlay`, for a layer that may be missing. For `grf/sprites.py:642-666`. -/
def overlayOpt {α : Type} (v : UInt8 → α) (m : List (List UInt8)) : Option (List (List α)) → Option (Option (List (List α)))
  | none => some none
  | some a => (overlay v m a).map some

/-- The composition in `WithMask.get_data_layers` (`grf/sprites.py:642-666`); `DEFAULT_BRIGHTNESS` is 128 (`grf/colour.py:19`). -/
def addMask (mode : Int) (s m : Int × Int × Layers) : Option (Int × Int × Layers) :=
  if s.1 ≠ m.1 ∨ s.2.1 ≠ m.2.1 ∨ m.2.2.rgb.isSome ∨ m.2.2.alpha.isSome then none
  else match m.2.2.mask with
    | none => none
    | some k => do
      let mask ← match s.2.2.mask with
        | some old => overlay id k old
        | none => some k
      if mode = 1 then do
        let rgb ← overlayOpt (fun _ => [128, 128, 128]) k s.2.2.rgb
        let alpha ← overlayOpt (fun _ => 255) k s.2.2.alpha
        some (s.1, s.2.1, ⟨rgb, alpha, some mask⟩)
      else some (s.1, s.2.1, { s.2.2 with mask := some mask })

/-- `f(layer)` for a layer that may be missing. For `grf/sprites.py:394-411`. -/
def onLayer {α : Type} (f : α → Option α) : Option α → Option (Option α)
  | none => some none
  | some a => (f a).map some

/-- `get_data_layers` (`grf/sprites.py:394-411`, `636-666`, `700-701`, `784-794`, `910-911`, `963-976`). -/
def layers (L : Lib) (D : Disk) : Sprite → Option (Int × Int × Layers)
  | .file a path key x y kw =>
    match key with
    | none => baseLayers L D (.file a path none x y kw)
    | some k => do
      let (w, h, l) ← baseLayers L D (.file a path (some k) x y kw)
      let l ← applyKey k w h l
      some (w, h, l)
  | .empty => some (1, 1, ⟨none, none, some [[0]]⟩)
  | .image a img => baseLayers L D (.image a img)
  | .masked _ s m mode => do
    let s ← layers L D s
    let m ← layers L D m
    addMask mode s m
  | .move _ s => layers L D s
  | .quantized a s => baseLayers L D (.quantized a s)
  | .debug _ s => do
    let (w, h, l) ← layers L D s
    let rgb ← onLayer (L.debugRGB s.attrs.zoom) l.rgb
    let mask ← onLayer (L.debugMask s.attrs.zoom) l.mask
    some (w, h, ⟨rgb, l.alpha, mask⟩)

/-- `get_real_data` (`grf/sprites.py:414-471`; the constant of `EmptySprite` in `687-698`). -/
def realData (L : Lib) (D : Disk) (s : Sprite) : Option Bytes :=
  match s with
  | .empty => some [4, 0, 1, 0, 1, 0, 0, 0, 0, 0, 1, 0]
  | s => do
    let (w, h, l) ← layers L D s
    if w < 0 ∨ h < 0 then none
    else getRealData L.compress ⟨s.attrs.xofs, s.attrs.yofs, s.attrs.zoom, s.attrs.crop⟩ w.toNat h.toNat l

/-- The objects after they were drawn: `FileSprite.get_image` keeps the size it took from the picture (`grf/sprites.py:777-778`). -/
def settle (D : Disk) : Sprite → Sprite
  | .file a path key x y kw =>
    if kw.length ≠ 0 then .file a path key x y kw
    else match D.content path (D.changed path) with
      | none => .file a path key x y kw
      | some img =>
        if a.w = none ∨ (a.h = none ∧ x = 0 ∧ y = 0) then .file { a with w := some img.w, h := some img.h } path key x y kw
        else .file a path key x y kw
  | .masked a s m mode => .masked a (settle D s) (settle D m) mode
  | .move a s => .move a (settle D s)
  | .quantized a s => .quantized a (settle D s)
  | .debug a s => .debug a (settle D s)
  | s => s

/-! ## Fingerprints -/

/-- A number or `None`. For `grf/sprites.py:605-615`. -/
def JV.opt : Option Int → JV
  | some n => .num n
  | none => .null

/-- `get_fingerprint` (`grf/sprites.py:605-615`, `671-677`, `706-708`, `719-720`, `799-806`, `878-896`, `913-918`, `981-985`), keys
sorted; `none` is `Uncacheable`. -/
def fingerprint : Sprite → Option JV
  | .file a _ key x y kw => some (.dict [
      ("bpp".toList, .opt a.bpp), ("class".toList, .str "FileSprite".toList),
      ("colourkey".toList, match key with | some k => .list (k.map .num) | none => .null),
      ("crop".toList, .bool a.crop), ("h".toList, .opt a.h), ("kw".toList, .dict kw), ("w".toList, .opt a.w),
      ("x".toList, .num x), ("xofs".toList, .num a.xofs), ("y".toList, .num y), ("yofs".toList, .num a.yofs), ("zoom".toList, .num a.zoom)])
  | .empty => some (.dict [("class".toList, .str "EmptySprite".toList)])
  | .image _ _ => none
  | .masked _ s m mode => do
    let s ← fingerprint s
    let m ← fingerprint m
    some (.dict [("class".toList, .str "WithMask".toList), ("mask".toList, m), ("mode".toList, .num mode), ("sprite".toList, s)])
  | .move a s => do
    let s ← fingerprint s
    some (.dict [("class".toList, .str "MoveSprite".toList), ("sprites".toList, .list [s]), ("xofs".toList, .num a.xofs), ("yofs".toList, .num a.yofs)])
  | .quantized _ s => do
    let s ← fingerprint s
    some (.dict [("class".toList, .str "QuantizeSprite".toList), ("sprites".toList, .list [s])])
  | .debug _ s => do
    let s ← fingerprint s
    some (.dict [("class".toList, .str "ZoomDebugRecolourSprite".toList), ("sprite".toList, s)])

/-- `get_resource_files` (`grf/sprites.py:473-474`, `668-669`, `703-704`, `796-797`, `871-876`, `978-979`): the paths; `this` is
`sprites.py`. -/
def resourceFiles (this : List Char) : Sprite → List (List Char)
  | .file _ path .. => [this, path, this]
  | .empty => [this]
  | .image _ _ => [this]
  | .masked _ s m _ => this :: this :: (resourceFiles this s ++ resourceFiles this m)
  | .move _ s => this :: this :: resourceFiles this s
  | .quantized _ s => this :: this :: resourceFiles this s
  | .debug _ s => this :: this :: resourceFiles this s

/-- `get_sprite_fingerprint` (`grf/grf.py:551-574`): `files_data` is a list of pairs of the file's fingerprint (`grf/sprites.py:188-189`)
and its time. All files exist. -/
def spriteFingerprint (this : List Char) (D : Disk) (s : Sprite) : Option JV := do
  let f ← fingerprint s
  some (.dict [("data".toList, f), ("files".toList, .list ((resourceFiles this s).map fun p =>
    .list [.dict [("path".toList, .str p)], .time (D.changed p)]))])

/-! ## The text of a fingerprint -/

/-- A hexadecimal digit of an escape. For `grf/cache.py:55-61`. -/
def hexDigit (n : Nat) : Char := "0123456789abcdef".toList.getD n '0'

/-- A character in a text (`json.dumps` with `ensure_ascii=False`). For `grf/cache.py:55-61`. -/
def escape (c : Char) : List Char :=
  if c = '"' then ['\\', '"'] else if c = '\\' then ['\\', '\\'] else if c = '\n' then ['\\', 'n'] else if c = '\r' then ['\\', 'r']
  else if c = '\t' then ['\\', 't'] else if c = Char.ofNat 8 then ['\\', 'b'] else if c = Char.ofNat 12 then ['\\', 'f']
  else if c.toNat < 32 then ['\\', 'u', '0', '0', hexDigit (c.toNat / 16), hexDigit (c.toNat % 16)]
  else [c]

/-- A text in quotes. For `grf/cache.py:55-61`. -/
def quote (s : List Char) : List Char := '"' :: (s.flatMap escape ++ ['"'])

/-- `str(i)` of a Python integer. For `grf/cache.py:55-61`. -/
def intText (i : Int) : List Char := if i < 0 then '-' :: Strings.dec i.natAbs else Strings.dec i.natAbs

mutual
/-- `json.dumps(.., ensure_ascii=False, sort_keys=True, separators=(',', ':'))` (`grf/cache.py:55-61`). -/
def dumps : JV → List Char
  | .null => "null".toList
  | .bool b => if b then "true".toList else "false".toList
  | .num n => intText n
  | .time t => t
  | .str s => quote s
  | .list l => '[' :: dumpsList l
  | .dict l => '{' :: dumpsPairs l
/-- The items of a list with the closing bracket. For `grf/cache.py:55-61`. -/
def dumpsList : List JV → List Char
  | [] => [']']
  | [v] => dumps v ++ [']']
  | v :: w :: l => dumps v ++ ',' :: dumpsList (w :: l)
/-- The items of a dictionary with the closing brace. For `grf/cache.py:55-61`. -/
def dumpsPairs : List (List Char × JV) → List Char
  | [] => ['}']
  | [p] => quote p.1 ++ ':' :: (dumps p.2 ++ ['}'])
  | p :: q :: l => quote p.1 ++ ':' :: (dumps p.2 ++ ',' :: dumpsPairs (q :: l))
end

/-! ## Building with a cache -/

variable {K : Type} [DecidableEq K]

/-- The key of a sprite: `sprite_cache.hexdigest(fpdict)` (`grf/grf.py:607-611`); `digest` is the beginning of the md5 sum. -/
def spriteKey (digest : List Char → K) (this : List Char) (D : Disk) (s : Sprite) : Option K :=
  (spriteFingerprint this D s).map fun f => digest (dumps f)

/-- `get_sprite_data` (`grf/grf.py:649-667`); `none` is an exception of `get_real_data`. -/
def cachedData (L : Lib) (digest : List Char → K) (this : List Char) (D : Disk) (c : Cache.St K Bytes) (s : Sprite) :
    Cache.St K Bytes × Option Bytes :=
  match spriteKey digest this D s with
  | none => (c, realData L D s)
  | some k =>
    match Cache.get c k with
    | (c, some d) => (c, some d)
    | (c, none) =>
      match realData L D s with
      | some d => (Cache.set c k d, some d)
      | none => (c, none)

/-- The sprites in order; an exception ends it. For `grf/grf.py:727-741`. -/
def cachedAll (L : Lib) (digest : List Char → K) (this : List Char) (D : Disk) : Cache.St K Bytes → List Sprite → Cache.St K Bytes × Option (List Bytes)
  | c, [] => (c, some [])
  | c, s :: r =>
    match cachedData L digest this D c s with
    | (c, none) => (c, none)
    | (c, some d) => let (c, ds) := cachedAll L digest this D c r; (c, ds.map (d :: ·))

/-- One `write` (`grf/grf.py:727-741`): the cache is loaded, the sprites are drawn, the cache is saved in any case. -/
def cachedBuild (L : Lib) (digest : List Char → K) (this : List Char) (clean : Bool) (D : Disk) (c : Cache.St K Bytes) (ss : List Sprite) :
    Cache.St K Bytes × Option (List Bytes) :=
  let (c, ds) := cachedAll L digest this D (Cache.load clean c) ss
  (Cache.save c, ds)

/-! ## The sprites that are really drawn -/

/-- An entry of `sprite_map`: the objects themselves are the keys (no class defines `__eq__` or `__hash__`), so a key is the place of an
object in memory. For `grf/grf.py:593-600`. -/
structure Drawn where
  key : Nat
  sprite : Sprite

/-- `sprite_map` (`grf/grf.py:593-600`); `fresh` gives the place of a new object for each sprite. -/
def spriteMap (debug : Bool) (fresh : Nat → Nat) (objects : List (Nat × Sprite)) : List Drawn :=
  objects.map fun o => if debug then ⟨fresh o.1, newDebug o.2⟩ else ⟨o.1, o.2⟩

/-- `s = sprite_map[s]` for all sprites (`grf/grf.py:606-613`); `none` is the `KeyError`. -/
def drawnSprites (debug : Bool) (fresh : Nat → Nat) (objects : List (Nat × Sprite)) : Option (List Sprite) :=
  objects.mapM fun o => ((spriteMap debug fresh objects).reverse.find? fun d => d.key == o.1).map (·.sprite)

end Grf.Tree
