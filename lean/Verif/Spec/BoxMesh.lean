import Mathlib.Algebra.BigOperators.Group.Finset.Basic
import Mathlib.Algebra.Order.Ring.Defs
import Mathlib.Data.Real.Basic

/-! What a tetrahedral mesh of a box is. -/
namespace Verif.Spec.BoxMesh

/-- `p` lies in the convex hull of the nodes `S` with the places `pos`. -/
def InHull {ι : Type} (pos : ι → Fin 3 → ℝ) (S : Finset ι) (p : Fin 3 → ℝ) : Prop :=
  ∃ w : ι → ℝ, (∀ v ∈ S, 0 ≤ w v) ∧ ∑ v ∈ S, w v = 1 ∧ ∀ c, p c = ∑ v ∈ S, w v * pos v c

/-- `p` lies inside: all weights are positive. -/
def Inside {ι : Type} (pos : ι → Fin 3 → ℝ) (S : Finset ι) (p : Fin 3 → ℝ) : Prop :=
  ∃ w : ι → ℝ, (∀ v ∈ S, 0 < w v) ∧ ∑ v ∈ S, w v = 1 ∧ ∀ c, p c = ∑ v ∈ S, w v * pos v c

/-- `p` lies in the box between `O` and `A`. -/
def InBox (A O p : Fin 3 → ℝ) : Prop := ∀ c, O c ≤ p c ∧ p c ≤ A c

/-- Six times the signed volume of the tetrahedron `a b c d`. -/
def det3 (a b c d : Fin 3 → ℝ) : ℝ :=
  (b 0 - a 0) * ((c 1 - a 1) * (d 2 - a 2) - (c 2 - a 2) * (d 1 - a 1)) - (b 1 - a 1) * ((c 0 - a 0) * (d 2 - a 2) - (c 2 - a 2) * (d 0 - a 0))
    + (b 2 - a 2) * ((c 0 - a 0) * (d 1 - a 1) - (c 1 - a 1) * (d 0 - a 0))

end Verif.Spec.BoxMesh
