import Verif.Spec.Decomp
import Mathlib.LinearAlgebra.Matrix.Determinant.Basic

/-!
Vocabulary of the property about the metric at the nodes (C63): quadratic forms, bounds of them and determinants of 3x3 matrices.
-/
namespace Verif.Metric

open Verif.Dense

/-- `x' M x`. -/
noncomputable def quad (M x : Nat → ℝ) : ℝ := dotp 3 x (mulV 3 3 M x)

/-- `M` is symmetric, all its eigenvalues are at least `lo` and at most `hi`, and the largest is at most `R` times the smallest; said by the values of
the quadratic form. -/
structure Metric (lo hi R : ℝ) (M : Nat → ℝ) : Prop where
  symm : Symm 3 M
  lower : ∀ x, lo * len2 3 x ≤ quad M x
  upper : ∀ x, quad M x ≤ hi * len2 3 x
  ratio : ∀ x y, len2 3 x = len2 3 y → quad M x ≤ R * quad M y

/-- The determinant of a 3x3 matrix stored column by column. -/
noncomputable def det3 (M : Nat → ℝ) : ℝ := Matrix.det (Matrix.of fun i j : Fin 3 => ent 3 M i j)

/-- The trace. -/
noncomputable def trace3 (M : Nat → ℝ) : ℝ := ent 3 M 0 0 + ent 3 M 1 1 + ent 3 M 2 2

/-- The entries of `A B`. -/
noncomputable def mul3 (A B : Nat → ℝ) (i j : Nat) : ℝ := ∑ t ∈ Finset.range 3, ent 3 A i t * ent 3 B t j

/-- The symmetric part. -/
noncomputable def symPart (A : Nat → ℝ) (i j : Nat) : ℝ := (ent 3 A i j + ent 3 A j i) / 2

/-- The numbers are in ascending order. -/
def Asc (e : Nat → ℝ) : Prop := e 0 ≤ e 1 ∧ e 1 ≤ e 2

end Verif.Metric
