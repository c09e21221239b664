import Verif.Paint.Lemmas

/-! # Textures: the properties -/

namespace Verif.Paint

/-- **C138.** Each range of bits that fits in a pixel is read as it is stored. -/
theorem C138_bits (pixel : BitVec 32) (f : BitField) (h1 : f.start ≤ f.stop) (h2 : f.stop ≤ 31) :
    ∃ value, extract pixel f = some value ∧ value.toNat = Spec.bits pixel.toNat f.start f.stop := by
  refine ⟨_, if_pos ⟨h2, h1⟩, ?_⟩
  rw [BitVec.toNat_ushiftRight, BitVec.toNat_shiftLeft, Nat.shiftLeft_eq, Nat.shiftRight_eq_div_pow]
  exact extract_nat _ _ _ h1 h2

/-- **C138.** Features do not disturb each other: two pixels give the same value for a feature exactly if they agree in
its bits, whatever the other bits are. -/
theorem C138_independent (pixel other : BitVec 32) (f : BitField) (h1 : f.start ≤ f.stop) (h2 : f.stop ≤ 31) :
    extract pixel f = extract other f ↔
      ∀ k, f.start ≤ k → k ≤ f.stop → pixel.toNat.testBit k = other.toNat.testBit k := by
  rw [← bits_testBit _ _ _ _ h1]
  obtain ⟨a, ha, ha'⟩ := C138_bits pixel f h1 h2
  obtain ⟨b, hb, hb'⟩ := C138_bits other f h1 h2
  rw [ha, hb, ← ha', ← hb', Option.some.injEq]
  exact ⟨fun h => by rw [h], fun h => BitVec.eq_of_toNat_eq h⟩

/-- **C138.** A pixel in an image of at most four bytes per pixel is read without leaving the data, and is the number
that its own bytes write. -/
theorem C138_pixel (im : Image) (hb : im.bytesPerPixel ≤ 4)
    (hd : im.data.length = im.width * im.height * im.bytesPerPixel) (x y : ℕ) (hx : x < im.width) (hy : y < im.height) :
    ∃ pixel, im.getPixel x y = some pixel ∧ pixel.toNat =
      Spec.number ((im.data.drop ((y * im.width + x) * im.bytesPerPixel)).take im.bytesPerPixel) := by
  have hi : y * (im.bytesPerPixel * im.width) + x * im.bytesPerPixel = (y * im.width + x) * im.bytesPerPixel := by ring
  have hfit : y * (im.bytesPerPixel * im.width) + x * im.bytesPerPixel + im.bytesPerPixel ≤ im.data.length := by
    rw [hi, hd]
    have h1 : y * im.width + x + 1 ≤ im.width * im.height := by
      have : (y + 1) * im.width ≤ im.height * im.width := Nat.mul_le_mul_right _ hy
      nlinarith
    calc (y * im.width + x) * im.bytesPerPixel + im.bytesPerPixel
        = (y * im.width + x + 1) * im.bytesPerPixel := by ring
      _ ≤ _ := Nat.mul_le_mul_right _ h1
  refine ⟨_, if_pos ⟨hfit, hb⟩, ?_⟩
  rw [hi]
  exact pixelLoop_nat _ _ 0 (by simp; omega) (by simp)

/-- **C138.** The pixel for a texture coordinate is the one whose cell contains it; coordinates of 1 and more give the
last one. -/
theorem C138_coordinate (count : ℕ) (hc : 0 < count) (u : ℚ) (hu : 0 ≤ u) :
    ∃ i, pixelCoordinate count u = some i ∧ Spec.InCell count u i := by
  refine ⟨_, if_neg (by rintro (h | h); exacts [absurd h (not_lt.2 hu), by omega]), ?_⟩
  have hq : (0 : ℚ) < count := by exact_mod_cast hc
  rw [Nat.max_zero]
  by_cases h1 : u < 1
  · have hlt : ⌊u * count⌋₊ < count := by
      rw [Nat.floor_lt (by positivity)]
      nlinarith
    rw [Nat.min_eq_left (by omega)]
    refine ⟨hlt, Or.inl ⟨?_, ?_⟩⟩
    · rw [div_le_iff₀ hq]
      exact Nat.floor_le (by positivity)
    · rw [lt_div_iff₀ hq]
      exact Nat.lt_floor_add_one _
  · have h1 := not_lt.1 h1
    have hle : count ≤ ⌊u * count⌋₊ := by
      rw [Nat.le_floor_iff (by positivity)]
      nlinarith
    rw [Nat.min_eq_right (by omega)]
    exact ⟨by omega, Or.inr ⟨rfl, h1⟩⟩

/-- **C138.** All together: with texture coordinates that are not negative, nothing undefined happens, and the value of a
feature is that of its bits in the bytes of the pixel that contains the coordinates. -/
theorem C138_value (im : Image) (hb : im.bytesPerPixel ≤ 4) (hw : 0 < im.width) (hh : 0 < im.height)
    (hd : im.data.length = im.width * im.height * im.bytesPerPixel) (mapping : Mapping) (feature : String)
    (f : BitField) (hf : mapping.lookup feature = some f) (h1 : f.start ≤ f.stop) (h2 : f.stop ≤ 31) (u v : ℚ)
    (hu : 0 ≤ u) (hv : 0 ≤ v) : ∃ x y value, Spec.InCell im.width u x ∧ Spec.InCell im.height v y ∧
      valueAt im mapping u v feature = some (some value) ∧ value.toNat = Spec.bits (Spec.number
        ((im.data.drop ((y * im.width + x) * im.bytesPerPixel)).take im.bytesPerPixel)) f.start f.stop := by
  obtain ⟨x, hx, hx'⟩ := C138_coordinate im.width hw u hu
  obtain ⟨y, hy, hy'⟩ := C138_coordinate im.height hh v hv
  obtain ⟨pixel, hp, hp'⟩ := C138_pixel im hb hd x y hx'.1 hy'.1
  obtain ⟨value, hval, hval'⟩ := C138_bits pixel f h1 h2
  refine ⟨x, y, value, hx', hy', ?_, by rw [hval', hp']⟩
  unfold valueAt valueOfPixel
  rw [hx, hy]
  simp only [Option.bind_some, hf, hp, hval, Option.map_some]

/-- **C138.** A feature that the texture does not have gives no value. -/
theorem C138_no_feature (im : Image) (hw : 0 < im.width) (hh : 0 < im.height) (mapping : Mapping) (feature : String)
    (hf : mapping.lookup feature = none) (u v : ℚ) (hu : 0 ≤ u) (hv : 0 ≤ v) :
    valueAt im mapping u v feature = some none := by
  obtain ⟨x, hx, _⟩ := C138_coordinate im.width hw u hu
  obtain ⟨y, hy, _⟩ := C138_coordinate im.height hh v hv
  unfold valueAt valueOfPixel
  rw [hx, hy]
  simp only [Option.bind_some, hf]

/-! ## The hypotheses are met -/

/-- Two by two pixels of two bytes. -/
def sample : Image := ⟨2, 2, 2, [0x01, 0x02, 0x10, 0x20, 0xAB, 0xCD, 0xFF, 0x00]⟩

example : sample.data.length = sample.width * sample.height * sample.bytesPerPixel := by decide
example : valueAt sample [("seam", ⟨0, 1⟩), ("extruder", ⟨4, 11⟩)] (1 / 4) (3 / 4) "extruder" = some (some 0xBC) := by
  decide +kernel
example : valueAt sample [("seam", ⟨0, 1⟩), ("extruder", ⟨4, 11⟩)] (1 / 4) (3 / 4) "seam" = some (some 1) := by
  decide +kernel
example : valueAt sample [("seam", ⟨0, 1⟩)] 1 0 "extruder" = some none := by decide +kernel
example : extract 0xFFFFFFFF ⟨31, 31⟩ = some 1 := by decide

end Verif.Paint
