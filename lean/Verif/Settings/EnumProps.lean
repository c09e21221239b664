import Verif.Settings.EnumModel
import Verif.Settings.EnumSpec

/-! # Properties of enumeration settings: C45 -/

namespace Verif.Settings

theorem hashStep_injective (c : BitVec 8) (x y : BitVec 64) (h : hashStep x c = hashStep y c) : x = y := by
  unfold hashStep at h
  have h' : (x <<< 5) + x = (y <<< 5) + y := by
    have := congrArg (· ^^^ c.setWidth 64) h
    simpa [BitVec.xor_assoc] using this
  have e : ∀ z : BitVec 64, (z <<< 5) + z = z * 33#64 := by
    intro z
    rw [BitVec.shiftLeft_eq_mul_twoPow]
    have : z * 33#64 = z * (BitVec.twoPow 64 5 + 1#64) := rfl
    rw [this, BitVec.mul_add, BitVec.mul_one]
  rw [e, e] at h'
  have := congrArg (· * 1117984489315730401#64) h'
  simp only [BitVec.mul_assoc] at this
  have k : 33#64 * 1117984489315730401#64 = 1#64 := by decide
  simpa [k] using this

theorem foldl_injective (suffix : List (BitVec 8)) (x y : BitVec 64)
    (h : suffix.foldl hashStep x = suffix.foldl hashStep y) : x = y := by
  induction suffix generalizing x y with
  | nil => exact h
  | cons c s ih => exact hashStep_injective c _ _ (ih _ _ h)

theorem hashStep_char (x : BitVec 64) (c d : BitVec 8) (h : hashStep x c = hashStep x d) : c = d := by
  unfold hashStep at h
  have h' : c.setWidth 64 = d.setWidth 64 := by
    have := congrArg (((x <<< 5) + x) ^^^ ·) h
    simpa [← BitVec.xor_assoc] using this
  have := congrArg (BitVec.setWidth 8) h'
  simpa using this

/-- **C45.** Replacing exactly one character of a setting value never makes it hash like the original: a
one-character misspelling of an enumeration value is not taken for it (unless a colon at index 6 makes either of them
a plugin value). -/
theorem C45_one_typo_detected (pre suf : List (BitVec 8)) (c d : BitVec 8) (hcd : c ≠ d)
    (hp : ∀ v ∈ [pre ++ c :: suf, pre ++ d :: suf], v[6]? ≠ some (BitVec.ofNat 8 ':'.toNat)) :
    hashEnum (pre ++ c :: suf) ≠ hashEnum (pre ++ d :: suf) := by
  have h1 := hp _ (by simp : pre ++ c :: suf ∈ _)
  have h2 := hp _ (by simp : pre ++ d :: suf ∈ _)
  unfold hashEnum
  rw [if_neg fun h => h1 h.2, if_neg fun h => h2 h.2]
  unfold hashDjb2a
  rw [List.foldl_append, List.foldl_append]
  intro h
  exact hcd (hashStep_char _ _ _ (foldl_injective suf _ _ h))

/-- **C45.** If the hashes of the case labels are distinct (the compiler insists on it), each label selects its own
enumerator. -/
theorem C45_named_value_selected {α : Type} (cases : List (String × α)) (default : α)
    (hd : cases.Pairwise fun x y => hashEnum (bytes x.1) ≠ hashEnum (bytes y.1)) (name : String) (a : α)
    (h : (name, a) ∈ cases) : enumSetting cases default (bytes name) = a := by
  unfold enumSetting
  induction cases with
  | nil => cases h
  | cons x xs ih =>
    rw [List.pairwise_cons] at hd
    rw [List.find?_cons]
    rcases List.mem_cons.1 h with he | hm
    · rw [← he]; simp
    · have := hd.1 _ hm
      simp only [this, decide_false]
      exact ih hd.2 hm

/-- **C45.** A value whose hash is none of the labels' selects the default. -/
theorem C45_unknown_hash_default {α : Type} (cases : List (String × α)) (default : α) (value : List (BitVec 8))
    (h : ∀ x ∈ cases, hashEnum (bytes x.1) ≠ hashEnum value) : enumSetting cases default value = default := by
  unfold enumSetting
  have : cases.find? (fun c => hashEnum (bytes c.1) = hashEnum value) = none := by
    rw [List.find?_eq_none]
    intro x hx
    simpa using h x hx
  rw [this]

theorem getter_case (g : Getter) (hg : g ∈ getters) (name enumerator : String) (h : (name, enumerator) ∈ g.cases) :
    g.read (bytes name) = enumerator := by
  have hd : ∀ g ∈ getters, g.cases.Pairwise fun x y => hashEnum (bytes x.1) ≠ hashEnum (bytes y.1) := by
    decide +kernel
  exact C45_named_value_selected g.cases g.default (hd g hg) name enumerator h

/-- **C45.** For each enumeration, each of its words selects the enumerator that it names: no two words collide. -/
theorem C45_getters (g : Getter) (hg : g ∈ getters) (word : String) (h : word ∈ EnumSpec.words g.name) :
    g.read (bytes word) = EnumSpec.named word := by
  have hd : ∀ g ∈ getters, ∀ w ∈ EnumSpec.words g.name, (w, EnumSpec.named w) ∈ g.cases := by decide +kernel
  exact getter_case g hg _ _ (hd g hg word h)

/-- **C45.** What an enumeration returns is always named by one of its words, or is the plugin enumerator. -/
theorem C45_getters_range (g : Getter) (hg : g ∈ getters) (value : List (BitVec 8)) :
    g.read value = "PLUGIN" ∨ ∃ word ∈ EnumSpec.words g.name, g.read value = EnumSpec.named word := by
  have hc : ∀ g ∈ getters, ∀ x ∈ g.cases, x.2 = "PLUGIN" ∨ ∃ w ∈ EnumSpec.words g.name, x.2 = EnumSpec.named w := by
    decide +kernel
  have hdef : ∀ g ∈ getters, ∃ w ∈ EnumSpec.words g.name, g.default = EnumSpec.named w := by decide +kernel
  unfold Getter.read enumSetting
  cases hf : g.cases.find? fun c => hashEnum (bytes c.1) = hashEnum value with
  | none => exact Or.inr (hdef g hg)
  | some x => exact hc g hg x (List.mem_of_find?_eq_some hf)

/-- **C45.** Every text with a colon after six characters names a plugin, for every getter. -/
theorem C45_plugin_values (g : Getter) (hg : g ∈ getters) (pre rest : List (BitVec 8)) (hp : pre.length = 6) :
    g.read (pre ++ BitVec.ofNat 8 ':'.toNat :: rest) = "PLUGIN" := by
  have hpl : ∀ g ∈ getters, ("plugin", "PLUGIN") ∈ g.cases := by decide +kernel
  rw [← getter_case g hg _ _ (hpl g hg)]
  have h1 : hashEnum (pre ++ BitVec.ofNat 8 ':'.toNat :: rest) = hashEnum (bytes "plugin") := by
    have h2 : 6 < (pre ++ BitVec.ofNat 8 ':'.toNat :: rest).length := by simp [hp]
    have h3 : (pre ++ BitVec.ofNat 8 ':'.toNat :: rest)[6]? = some (BitVec.ofNat 8 ':'.toNat) := by
      rw [List.getElem?_append_right (by omega), hp]; rfl
    unfold hashEnum
    rw [if_pos ⟨h2, h3⟩]
    decide +kernel
  unfold Getter.read enumSetting
  rw [h1]

/-- **C45.** A text without a colon after six characters that differs in one character from a word of an enumeration
is never taken for that word: it gives the default, or is taken for another word (by a collision). -/
theorem C45_getters_typo (g : Getter) (hg : g ∈ getters) (word : String) (hn : word ∈ EnumSpec.words g.name)
    (pre suf : List (BitVec 8)) (c d : BitVec 8) (hcd : c ≠ d) (hname : bytes word = pre ++ c :: suf)
    (hcol : (pre ++ d :: suf)[6]? ≠ some (BitVec.ofNat 8 ':'.toNat)) :
    g.read (pre ++ d :: suf) = g.default ∨ g.read (pre ++ d :: suf) = "PLUGIN" ∨
      ∃ other ∈ EnumSpec.words g.name, other ≠ word ∧ g.read (pre ++ d :: suf) = EnumSpec.named other := by
  have hw : ∀ g ∈ getters, ∀ w ∈ EnumSpec.words g.name, (w, EnumSpec.named w) ∈ g.cases := by decide +kernel
  have hc : ∀ g ∈ getters, ∀ x ∈ g.cases, x.2 = "PLUGIN" ∨ (x.1 ∈ EnumSpec.words g.name ∧ x.2 = EnumSpec.named x.1) := by
    decide +kernel
  have hn := hw g hg word hn
  have hcn : ∀ g ∈ getters, ∀ x ∈ g.cases, (bytes x.1)[6]? ≠ some (BitVec.ofNat 8 ':'.toNat) := by decide +kernel
  have hne := C45_one_typo_detected pre suf c d hcd (by
    intro v hv
    rcases List.mem_cons.1 hv with rfl | hv
    · rw [← hname]; exact hcn g hg _ hn
    · rw [List.mem_singleton.1 hv]; exact hcol)
  rw [← hname] at hne
  unfold Getter.read enumSetting
  cases hf : g.cases.find? fun c => hashEnum (bytes c.1) = hashEnum (pre ++ d :: suf) with
  | none => exact Or.inl rfl
  | some x =>
    right
    rcases hc g hg x (List.mem_of_find?_eq_some hf) with h | ⟨h1, h2⟩
    · exact Or.inl h
    · refine Or.inr ⟨x.1, h1, ?_, h2⟩
      rintro rfl
      have := List.find?_some hf
      simp only [decide_eq_true_eq] at this
      exact hne this

/-- **C45.** The documented defaults: what is returned for a text whose hash is none of the words'. -/
theorem C45_defaults : getters.map (fun g => (g.name, g.default)) =
    [("DraftShieldHeightLimitation", "FULL"), ("EGCodeFlavor", "MARLIN"), ("EFillMethod", "NONE"),
      ("EPlatformAdhesion", "SKIRT"), ("ESupportType", "NONE"), ("ESupportStructure", "NORMAL"),
      ("EZSeamType", "SHORTEST"), ("EZSeamCornerPrefType", "Z_SEAM_CORNER_PREF_INNER"), ("ESurfaceMode", "NORMAL"),
      ("FillPerimeterGapMode", "NOWHERE"), ("BuildPlateShape", "RECTANGULAR"), ("CombingMode", "ALL"),
      ("SupportDistPriority", "XY_OVERRIDES_Z"), ("SlicingTolerance", "MIDDLE"), ("InsetDirection", "INSIDE_OUT")] ∧
    ∀ g ∈ getters, ∀ value : List (BitVec 8), (∀ x ∈ g.cases, hashEnum (bytes x.1) ≠ hashEnum value) →
      g.read value = g.default := by
  refine ⟨by decide, fun g _ value h => ?_⟩
  unfold Getter.read enumSetting
  rw [List.find?_eq_none.2 (fun x hx => by simpa using h x hx)]

/-- **C45.** Counterexample to the full property: a text that is no word, no plugin and not close to any, is taken for
a plugin because of a colon after six characters. -/
theorem C45_colon_counterexample (g : Getter) (hg : g ∈ getters) : g.read (bytes "a brim: yes") = "PLUGIN" :=
  C45_plugin_values g hg (bytes "a brim") (bytes " yes") (by decide +kernel)

/-- The getters name their enumerations: 15 of them. -/
example : (getters.map fun g => g.cases.length) = [3, 11, 18, 5, 4, 3, 5, 5, 4, 3, 3, 6, 3, 4, 3] := by decide
example : ∃ g ∈ getters, ("quarter_cubic", "QUARTER_CUBIC") ∈ g.cases ∧ g.read (bytes "quarter_cubic") = "QUARTER_CUBIC" ∧
    g.read (bytes "quarter-cubic") = "NONE" ∧ g.read (bytes "MyPlug:infill") = "PLUGIN" := by decide +kernel

example : [("skirt", 0), ("brim", 1), ("raft", 2), ("none", 3), ("plugin", 4)].Pairwise
    fun (x y : String × Nat) => hashEnum (bytes x.1) ≠ hashEnum (bytes y.1) := by decide
example : asPlatformAdhesion (bytes "raft") = .RAFT := by decide
example : hashEnum (bytes "rafu") ≠ hashEnum (bytes "raft") :=
  C45_one_typo_detected (bytes "raf") [] _ _ (by decide) (by decide)

/-- **C45, violated for two changed characters**: the unknown value `rayK` selects the raft, and `inclutNve` the
inclusive slicing tolerance, instead of the default. -/
theorem C45_unknown_value_selects_enumerator :
    asPlatformAdhesion (bytes "rayK") = .RAFT ∧ asSlicingTolerance (bytes "inclutNve") = .INCLUSIVE := by decide

end Verif.Settings
