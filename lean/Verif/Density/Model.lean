import Mathlib.Data.Rat.Defs
import Mathlib.Algebra.Order.Ring.Rat

/-! # Model of ImageBasedDensityProvider

Outcomes: `none` is undefined behaviour. Integers are unbounded, and doubles are rational numbers. Reading the file of the
image is not modelled. -/

namespace Verif.Density

/-- An image, as `stbi_load` gives it: ImageBasedDensityProvider.cpp:24-25. -/
structure Image where
  width : ℕ
  height : ℕ
  channels : ℕ
  data : List (BitVec 8)
  deriving Repr

/-- An image has as many bytes as it has channels of pixels, and at least one: what
`stbi_load` guarantees, ImageBasedDensityProvider.cpp:24. -/
def Image.Valid (im : Image) : Prop :=
  0 < im.width ∧ 0 < im.height ∧ 0 < im.channels ∧ im.data.length = im.width * im.height * im.channels

/-- `AABB`, two corners. -/
structure Box where
  minX : ℤ
  minY : ℤ
  maxX : ℤ
  maxY : ℤ
  deriving DecidableEq, Repr

/-- The box over which the image is printed, ImageBasedDensityProvider.cpp:36-52. A model without depth has an infinite
aspect ratio in the code; here, it is not modelled (`none`). -/
def printBox (width height : ℕ) (model : Box) : Option Box :=
  let middleX := (model.minX + model.maxX).tdiv 2
  let middleY := (model.minY + model.maxY).tdiv 2
  let modelX := model.maxX - model.minX
  let modelY := model.maxY - model.minY
  if width = 0 ∨ height = 0 ∨ modelY = 0 then none else
  let size : ℤ × ℤ :=
    if (width : ℚ) / height < (modelX : ℚ) / modelY then
      ((width * modelX).tdiv width, (height * modelX).tdiv width)
    else ((width * modelY).tdiv height, (height * modelY).tdiv height)
  some ⟨middleX - size.1.tdiv 2, middleY - size.2.tdiv 2, middleX + size.1.tdiv 2, middleY + size.2.tdiv 2⟩

/-- The reading of one byte, ImageBasedDensityProvider.cpp:78 and 93. -/
def Image.read (im : Image) (x y : ℤ) (z : ℕ) : Option ℕ :=
  let index : ℤ := ((im.height - 1 - y) * im.width + x) * im.channels + z
  if index < 0 then none else (im.data[index.toNat]?).map BitVec.toNat

/-- A loop over some integers that changes the total lightness and the number of values. -/
def loop (body : ℤ → ℕ × ℕ → Option (ℕ × ℕ)) : List ℤ → ℕ × ℕ → Option (ℕ × ℕ)
  | [], s => some s
  | i :: rest, s => (body i s).bind (loop body rest)

/-- The integers from `a` up to and including `b`. -/
def ints (a b : ℤ) : List ℤ := (List.range (b + 1 - a).toNat).map fun (n : ℕ) => a + (n : ℤ)

/-- The loop over the channels, ImageBasedDensityProvider.cpp:76-80 and 91-95. -/
def addPixel (im : Image) (x y : ℤ) : ℕ × ℕ → Option (ℕ × ℕ) :=
  loop (fun z s => (im.read x y z.toNat).map fun v => (s.1 + v, s.2 + 1)) (ints 0 ((im.channels : ℤ) - 1))

/-- The first pixel, ImageBasedDensityProvider.cpp:67, one coordinate: both are scaled by the width. -/
def imgMin (im : Image) (print : Box) (queryMin printMin : ℤ) : ℤ :=
  ((queryMin - printMin - 1) * im.width).tdiv (print.maxX - print.minX)

/-- The last pixel, ImageBasedDensityProvider.cpp:68, one coordinate: both are scaled by the height. -/
def imgMax (im : Image) (print : Box) (queryMax printMin : ℤ) : ℤ :=
  ((queryMax - printMin + 1) * im.height).tdiv (print.maxY - print.minY)

/-- One coordinate of the closest pixel, ImageBasedDensityProvider.cpp:87-89. -/
def closest (size : ℕ) (lo hi : ℤ) : ℤ := max 0 (min ((size : ℤ) - 1) ((lo + hi).tdiv 2))

/-- `ImageBasedDensityProvider::operator()`, ImageBasedDensityProvider.cpp:64-98. -/
def density (im : Image) (print query : Box) : Option ℚ :=
  if print.maxX - print.minX = 0 ∨ print.maxY - print.minY = 0 then none else
  let minX := imgMin im print query.minX print.minX
  let minY := imgMin im print query.minY print.minY
  let maxX := imgMax im print query.maxX print.minX
  let maxY := imgMax im print query.maxY print.minY
  let xs := ints (max 0 minX) (min ((im.width : ℤ) - 1) maxX)
  let ys := ints (max 0 minY) (min ((im.height : ℤ) - 1) maxY)
  (loop (fun x => loop (fun y => addPixel im x y) ys) xs (0, 0)).bind fun s =>
    (if s.2 = 0 then addPixel im (closest im.width minX maxX) (closest im.height minY maxY) s else some s).bind fun t =>
      if t.2 = 0 then none else some (1 - (t.1 : ℚ) / t.2 / 255)

end Verif.Density
