import Verif.Model.Common
/-!
# Model of reading graphics (`grf/decompile.py`)

A file is the list of its remaining bytes. A decoded picture is the list of its rows, a row the list of its pixels, a pixel the list of
its `bpp` bytes (a numpy array of shape `(height, width, bpp)`).
-/
namespace Grf.SpriteData

/-- A Python slice bound for a sequence of a length. For `grf/decompile.py:1162-1165`. -/
def pyIndex (len : Nat) (i : Int) : Nat := if i < 0 then (len + i).toNat else min i.toNat len

/-- `data[a:b]`. For `grf/decompile.py:1162-1165`. -/
def pySlice {α : Type} (l : List α) (a b : Int) : List α := (l.take (pyIndex l.length b)).drop (pyIndex l.length a)

/-- The bytes copied by a back reference (`grf/decompile.py:1162-1165`). -/
def backRef (data : Bytes) (size offset : Nat) : Bytes :=
  if size = offset then data.drop (pyIndex data.length (-(size : Int)))
  else pySlice data (-(offset : Int)) ((size : Int) - offset)

/-- The number of literal bytes (`grf/decompile.py:1153`). -/
def literalSize (code : UInt8) : Nat := if code.toNat = 0 then 0x80 else code.toNat

/-- The size of a back reference: `-(code >> 3)` of the signed code (`grf/decompile.py:1150,1160`). -/
def backSize (code : UInt8) : Nat := (-(((code.toNat : Int) - 256) / 8)).toNat

/-- The offset of a back reference (`grf/decompile.py:1158`); `code & 7` of the signed code is that of the byte. -/
def backOffset (code next : UInt8) : Nat := ((code.toNat % 8) <<< 8) ||| next.toNat

/-- The loop of `decode_sprite` (`grf/decompile.py:1146-1166`): `fuel` bounds the iterations (each lowers `num`), `num` is the number of
bytes to go, `data` what is decoded. The result has the rest of the file. A read at the end of the file gives fewer bytes; no byte is an
`IndexError`. -/
def decompressLoop : Nat → Nat → Bytes → Bytes → Option (Bytes × Bytes)
  | _, 0, data, f => some (data, f)
  | 0, _ + 1, _, _ => none
  | fuel + 1, num + 1, data, f =>
    match f with
    | [] => none
    | code :: f =>
      if code.toNat < 128 then
        if num + 1 < literalSize code then none
        else decompressLoop fuel (num + 1 - literalSize code) (data ++ f.take (literalSize code)) (f.drop (literalSize code))
      else
        match f with
        | [] => none
        | next :: f =>
          if num + 1 < backSize code then none
          else decompressLoop fuel (num + 1 - backSize code) (data ++ backRef data (backSize code) (backOffset code next)) f

/-- Decompression of `decode_sprite` (`grf/decompile.py:1146-1166`). -/
def decompress (num : Nat) (f : Bytes) : Option (Bytes × Bytes) := decompressLoop num num [] f

/-- The parameters of a sprite (`grf/decompile.py:1186-1206`). -/
structure Info where
  decompSize : Nat
  width : Nat
  height : Nat
  type : Nat
deriving DecidableEq, Repr

/-- `_set_bpp` (`grf/decompile.py:1198-1206`). -/
def Info.bpp (s : Info) : Nat := (if s.type % 2 = 1 then 3 else 0) + (if s.type / 2 % 2 = 1 then 1 else 0) + (if s.type / 4 % 2 = 1 then 1 else 0)

/-- Splitting a list into `n` parts of `k` items, as a numpy reshape does. For `grf/decompile.py:1172`. -/
def rows {α : Type} (k : Nat) : Nat → List α → List (List α)
  | 0, _ => []
  | n + 1, l => l.take k :: rows k n (l.drop k)

/-- `a.shape = (height, width, bpp)` (`grf/decompile.py:1172`). -/
def reshape (h w bpp : Nat) (data : Bytes) : List (List Bytes) := (rows (w * bpp) h data).map (rows bpp w)

/-- A row of zeroes (`grf/decompile.py:1124`). -/
def emptyRow (w bpp : Nat) : List Bytes := List.replicate w (List.replicate bpp 0)

/-- `a[y, skip:skip+length, :] = b` (`grf/decompile.py:1141`) on one row: numpy raises if the slice, cut at the width, does not have the
length, but a single pixel is broadcast to no pixel. -/
def paint (row : List Bytes) (skip : Nat) (b : List Bytes) : Option (List Bytes) :=
  if skip + b.length ≤ row.length then some (row.take skip ++ b ++ row.drop (skip + b.length))
  else if b.length = 1 ∨ (b.length = 0) then some row
  else none

/-- The chunk header (`grf/decompile.py:1128-1137`): last chunk, length, pixels to skip, and what follows. -/
def chunkHeader (long : Bool) (data : Bytes) : Option (Bool × Nat × Nat × Bytes) :=
  if long then
    match data with
    | a :: b :: c :: d :: r => some (decide (128 ≤ b.toNat), ((b.toNat % 128) <<< 8) ||| a.toNat, (d.toNat <<< 8) ||| c.toNat, r)
    | _ => none
  else
    match data with
    | a :: b :: r => some (decide (128 ≤ a.toNat), a.toNat % 128, b.toNat, r)
    | _ => none

/-- The chunks of a line (`grf/decompile.py:1126-1142`); `fuel` bounds the iterations (each reads at least two bytes), `data` is
`data[ofs:]`. -/
def chunkLoop (long : Bool) (bpp : Nat) : Nat → Bytes → List Bytes → Option (List Bytes)
  | 0, _, _ => none
  | fuel + 1, data, row => do
    let (final, length, skip, r) ← chunkHeader long data
    if r.length < length * bpp then none
    else do
      let row ← paint row skip (rows bpp length r)
      if final then some row else chunkLoop long bpp fuel (r.drop (length * bpp)) row

/-- The line offsets (`grf/decompile.py:1121-1122`): 4 bytes each for large sprites, else 2. -/
def readOffsets (k : Nat) : Nat → Bytes → Option (List Nat)
  | 0, _ => some []
  | n + 1, data =>
    if k ≤ data.length then (readOffsets k n (data.drop k)).map (leVal (data.take k) :: ·) else none

/-- `decode_chunked` (`grf/decompile.py:1119-1143`). -/
def decodeChunked (s : Info) (container : Nat) (data : Bytes) : Option (List (List Bytes)) := do
  let offsets ← readOffsets (if 2 ≤ container ∧ 65535 < s.decompSize then 4 else 2) s.height data
  offsets.mapM fun ofs => chunkLoop (decide (2 ≤ container ∧ 256 < s.width)) s.bpp (data.length + 1) (data.drop ofs) (emptyRow s.width s.bpp)

/-- `decode_sprite` (`grf/decompile.py:1146-1177`): the picture and the rest of the file. -/
def decodeSprite (s : Info) (container : Nat) (f : Bytes) : Option (List (List Bytes) × Bytes) := do
  let (data, rest) ← decompress s.decompSize f
  if s.type / 8 % 2 = 1 then do
    let a ← decodeChunked s container data
    some (a, rest)
  else if data.length = s.width * s.height * s.bpp then some (reshape s.height s.width s.bpp data, rest)
  else none

end Grf.SpriteData
