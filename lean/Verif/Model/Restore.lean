import Verif.Model.SpriteData
/-!
# Model of the composition of colours and opacity in `get_real_data` (`grf/sprites.py:79-117`, `427-466`)

Arrays of numpy are views on memory. All arrays hold bytes (`dtype` and the other metadata agree).
-/
namespace Grf.Restore
open SpriteData (pyIndex)

/-- An array: the address of its first element, and for each dimension the step in bytes and the size (`__array_interface__`). For `grf/sprites.py:117`. -/
structure Arr where
  addr : Int
  strides : List Int
  shape : List Nat
deriving DecidableEq

/-- The test of numpy for "C-contiguous", from the last dimension on: dimensions of size 1 do not matter. For `grf/sprites.py:80-117`. -/
def contiguousFrom (step : Int) : List (Nat × Int) → Bool
  | [] => true
  | (n, s) :: r => if n = 1 then contiguousFrom step r else decide (s = step) && contiguousFrom (step * n) r

/-- An array is contiguous. Those without elements are. For `grf/sprites.py:80-117`. -/
def Arr.contiguous (a : Arr) : Bool := decide (0 ∈ a.shape) || contiguousFrom 1 (a.shape.zip a.strides).reverse

/-- `__array_interface__['strides']`: `None` for contiguous arrays. For `grf/sprites.py:80-117`. -/
def Arr.reported (a : Arr) : Option (List Int) := if a.contiguous then none else some a.strides

/-- One dimension of `base[i: i + n]`: the first index and the size (`grf/sprites.py:117`). -/
def sliceDim (size : Nat) (i : Int) (n : Nat) : Nat × Nat := (pyIndex size i, pyIndex size (i + n) - pyIndex size i)

/-- `base[ox:ox + sx, oy:oy + sy, oz:oz + 4]` (`grf/sprites.py:117`). -/
def slice3 (addr : Int) (x y z : Int) (n0 n1 n2 : Nat) (ox oy oz : Int) (sx sy : Nat) : Arr :=
  let a := sliceDim n0 ox sx
  let b := sliceDim n1 oy sy
  let c := sliceDim n2 oz 4
  ⟨addr + a.1 * x + b.1 * y + c.1 * z, [x, y, z], [a.2, b.2, c.2]⟩

/-- `restore_rgba_image` (`grf/sprites.py:80-117`): `same` says that both layers have the same `base` object, `base` is `None` (`none`) if they
own their memory. The result `none` is an exception. (Python's `//` and `%` are `fdiv` and `fmod`.) -/
def restore (same : Bool) (base : Option Arr) (rgb alpha : Arr) : Option (Option Arr) :=
  if !same then some none
  else if rgb.addr + 3 ≠ alpha.addr then some none
  else match rgb.reported with
    | none => some none
    | some st =>
      if some (st.take 2) ≠ alpha.reported ∨ st[2]? ≠ some 1 then some none
      else if rgb.shape.take 2 ≠ alpha.shape ∨ rgb.shape[2]? ≠ some 3 then some none
      else match base with
        | none => none
        | some b =>
          if b.shape.take 2 = alpha.shape then some (some b)
          else match alpha.shape, b.strides, b.shape with
            | [sx, sy], [x, y, z], [n0, n1, n2] =>
              let flat := rgb.addr - b.addr
              if x = 0 ∨ y = 0 ∨ z = 0 then none
              else some (some (slice3 b.addr x y z n0 n1 n2 (flat.fdiv x) ((flat.fmod x).fdiv y) ((flat.fmod y).fdiv z) sx sy))
            | _, _, _ => none

/-- The elements in the order `reshape` takes them. For `grf/sprites.py:441-451,459-463`. -/
def elems (M : Int → UInt8) : Int → List (Nat × Int) → Bytes
  | a, [] => [M a]
  | a, (n, s) :: r => (List.range n).flatMap fun (i : Nat) => elems M (a + i * s) r

/-- The elements of an array. For `grf/sprites.py:441-451,459-463`. -/
def Arr.elems (M : Int → UInt8) (a : Arr) : Bytes := Restore.elems M a.addr (a.shape.zip a.strides)

/-- Columns of an array with two dimensions joined (`np.concatenate(stack, axis=1)`). For `grf/sprites.py:441-451,459-463`. -/
def joinColumns (a b : List Bytes) : List Bytes := List.zipWith (· ++ ·) a b

/-- Colours and opacity as they are joined in `get_real_data` (`grf/sprites.py:441-451,459-463`), without a mask: `w * h` pixels of four bytes.
`reshape` refuses another number of elements. -/
def composed (M : Int → UInt8) (same : Bool) (base : Option Arr) (rgb alpha : Arr) (h w : Nat) : Option (List Bytes) :=
  match restore same base rgb alpha with
  | none => none
  | some none => some (joinColumns (SpriteData.rows 3 (h * w) (rgb.elems M)) (SpriteData.rows 1 (h * w) (alpha.elems M)))
  | some (some a) => if (a.elems M).length = h * w * 4 then some (SpriteData.rows 4 (h * w) (a.elems M)) else none

end Grf.Restore
