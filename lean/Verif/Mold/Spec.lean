import Verif.Mold.Model

/-! # Specification of molds and conical overhang (C88, C89)

The theorems speak of points, and of the points within a distance of an area or a point (`Near` and `Disk` of
Verif/Support/Spec.lean). -/

namespace Verif.Mold

open Verif.Volumes (Point Region)
open Verif.Support (Ops Near Disk)

/-- What is assumed of an offset outwards with round corners: it is what is within the distance, but the corners are made of
straight lines, which cut off up to `tol`. -/
structure RoundOk (ops : Ops) (tol : Rat) : Prop where
  nonneg : 0 ≤ tol
  grow : ∀ (d : Int) r, tol ≤ d → Near (d - tol) r ⊆ ops.round d r
  grown : ∀ (d : Int) r, 0 ≤ d → ops.round d r ⊆ Near d r

end Verif.Mold
