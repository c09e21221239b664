import Verif.Comb.Props

/-! # Combing: cases that meet the hypotheses -/

namespace Verif.Comb

open Spec

theorem narrow_len (g : Int) (p q : P2) : 0 ≤ (narrow g).len p q := by
  show 0 ≤ |p.1 - q.1| + |p.2 - q.2|
  positivity

theorem narrow_sym (g : Int) (p q : P2) : (narrow g).len p q = (narrow g).len q p := by
  show |p.1 - q.1| + |p.2 - q.2| = |q.1 - p.1| + |q.2 - p.2|
  rw [abs_sub_comm p.1, abs_sub_comm p.2]

/-- A move around a square: by the shorter way, and the last corner is moved. -/
example : comb (narrow 8) false true = some (some ([(0, 0), (7, 13), (19, 13), (30, 0)], false)) := by decide +kernel

/-- **C123_path** has a case: it is not the direct move. -/
example : ([(0, 0), (7, 13), (19, 13), (30, 0)] : List P2).getLast? = some (30, 0) :=
  (C123_path (narrow 8) false true _ false (narrow_len 8) (narrow_sym 8) (by decide +kernel)).2.1

/-- **C123_path** for a short move. -/
example : ([(0, 0), (30, 0)] : List P2).head? = some (0, 0) :=
  (C123_path (narrow 8) true true _ false (narrow_len 8) (narrow_sym 8) (by decide +kernel)).1

/-- The basic path is clear. -/
theorem narrow_clear : ∀ a b, Next ((narrow 8).start :: [(7, 0), (7, 13), (23, 13), (23, 0), (30, 0)]) a b → (narrow 8).hits a b = false := by
  have h : ((narrow 8).start :: [(7, 0), (7, 13), (23, 13), (23, 0), (30, 0)]).IsChain fun a b => (narrow 8).hits a b = false := by decide +kernel
  rintro a b ⟨x, y, e⟩
  rw [e, List.isChain_append] at h
  exact (List.isChain_cons_cons.1 h.2.1).1

/-- **C123_clear** has a case. -/
example : (optimize (narrow 8) [(7, 0), (7, 13), (23, 13), (23, 0), (30, 0)]).1.head? = some (0, 0) :=
  (C123_clear (narrow 8) _ (by simp) narrow_clear).1

/-- A move into the square. -/
def into : Env := { narrow 8 with stop := (15, 0) }

/-- **C123_refused** has a case: the move into the square is refused, that to the other side is not. -/
example : comb into false true = some none :=
  (C123_refused into (by decide) (narrow_len 8) (narrow_sym 8) rfl (by decide) (by decide +kernel)).1.2 ⟨_, List.mem_cons_self, by unfold Inside; decide +kernel⟩

example : ∃ r, comb (narrow 8) false true = some (some r) :=
  (C123_refused (narrow 8) (by decide) (narrow_len 8) (narrow_sym 8) rfl (by decide) (by decide +kernel)).2.1 (by decide +kernel)

end Verif.Comb
