import Mathlib.Data.Rat.Floor

/-! # Model of textures: include/mesh.h (Image) and src/TextureDataProvider.cpp

Outcomes: `none` is undefined behaviour. Coordinates are rational. -/

namespace Verif.Paint

/-- `Image`, mesh.h:65-121. -/
structure Image where
  width : ℕ
  height : ℕ
  bytesPerPixel : ℕ
  data : List (BitVec 8)
  deriving Repr

/-- The loop of `Image::getPixel`, mesh.h:97-100, over the bytes that are left. -/
def pixelLoop : List (BitVec 8) → BitVec 32 → BitVec 32
  | [], result => result
  | b :: rest, result => pixelLoop rest (result ||| (b.setWidth 32 <<< (rest.length * 8)))

/-- `Image::getPixel`, mesh.h:93-102. Undefined beyond the data, and for more than four bytes per pixel (the shift is too
large for an int). -/
def Image.getPixel (im : Image) (x y : ℕ) : Option (BitVec 32) :=
  let index := y * (im.bytesPerPixel * im.width) + x * im.bytesPerPixel
  if index + im.bytesPerPixel ≤ im.data.length ∧ im.bytesPerPixel ≤ 4 then
    some (pixelLoop ((im.data.drop index).take im.bytesPerPixel) 0)
  else none

/-- One coordinate of `Image::getPixelCoordinates`, mesh.h:104-108. The conversion of a negative number to `size_t` is
undefined; an image without pixels is not modelled. -/
def pixelCoordinate (count : ℕ) (u : ℚ) : Option ℕ :=
  if u < 0 ∨ count = 0 then none else some (min (max ⌊u * count⌋₊ 0) (count - 1))

/-- `TextureBitField`, TextureDataMapping.h:17-21. -/
structure BitField where
  start : ℕ
  stop : ℕ
  deriving DecidableEq, Repr

/-- The bits of a pixel, TextureDataProvider.cpp:33-34. Undefined if a shift is negative or too large. -/
def extract (pixel : BitVec 32) (f : BitField) : Option (BitVec 32) :=
  if f.stop ≤ 31 ∧ f.start ≤ f.stop then
    some ((pixel <<< (32 - 1 - f.stop)) >>> (32 - 1 - (f.stop - f.start)))
  else none

/-- `TextureDataMapping`, TextureDataMapping.h:26. -/
abbrev Mapping := List (String × BitField)

/-- `TextureDataProvider::getValue` for a pixel, TextureDataProvider.cpp:22-35: the inner `none` if the texture does not
have the feature. -/
def valueOfPixel (im : Image) (mapping : Mapping) (x y : ℕ) (feature : String) : Option (Option (BitVec 32)) :=
  match mapping.lookup feature with
  | none => some none
  | some f => (im.getPixel x y).bind fun pixel => (extract pixel f).map some

/-- `TextureDataProvider::getValue` for texture coordinates, TextureDataProvider.cpp:37-41. -/
def valueAt (im : Image) (mapping : Mapping) (u v : ℚ) (feature : String) : Option (Option (BitVec 32)) :=
  (pixelCoordinate im.width u).bind fun x =>
    (pixelCoordinate im.height v).bind fun y => valueOfPixel im mapping x y feature

end Verif.Paint
