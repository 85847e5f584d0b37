import Mathlib.LinearAlgebra.Matrix.Determinant.Basic
import Mathlib.LinearAlgebra.Matrix.Trace
import Verif.Spec.AutoDiff

/-!
# Specification of the strain invariants

The invariants of the Cauchy–Green tensor `C = 1 + 2E` as functions of the nine entries of a matrix `E`,
of which only the symmetric part counts: `C = 1 + E + Eᵀ`.  On symmetric matrices this is the tensor of
the code, and the gradient of a function extended in this way is the symmetric matrix `S` with
`dW = ∑ S_ij dE_ij` for symmetric `dE`.
-/

namespace Verif.Strain

open Matrix

/-- The Cauchy–Green tensor of a strain. -/
def specC (y : Fin 3 × Fin 3 → ℝ) : Matrix (Fin 3) (Fin 3) ℝ :=
  1 + Matrix.of fun i j => y (i, j) + y (j, i)

/-- I1 = tr C. -/
def specI1 (y : Fin 3 × Fin 3 → ℝ) : ℝ := (specC y).trace

/-- I2 = (tr(C)² − tr(C²)) / 2. -/
noncomputable def specI2 (y : Fin 3 × Fin 3 → ℝ) : ℝ :=
  ((specC y).trace ^ 2 - (specC y * specC y).trace) / 2

/-- I3 = det C. -/
noncomputable def specI3 (y : Fin 3 × Fin 3 → ℝ) : ℝ := (specC y).det

/-- J = √det C. -/
noncomputable def specJ (y : Fin 3 × Fin 3 → ℝ) : ℝ := Real.sqrt (specC y).det

/-- I4fs = fᵀ C s. -/
def specI4 (f s : Fin 3 → ℝ) (y : Fin 3 × Fin 3 → ℝ) : ℝ := f ⬝ᵥ (specC y *ᵥ s)

/-- I5fs = fᵀ C² s. -/
def specI5 (f s : Fin 3 → ℝ) (y : Fin 3 × Fin 3 → ℝ) : ℝ := f ⬝ᵥ ((specC y * specC y) *ᵥ s)

/-- I0fs = fᵀ s. -/
def specI0 (f s : Fin 3 → ℝ) (_ : Fin 3 × Fin 3 → ℝ) : ℝ := f ⬝ᵥ s

/-- The strain of a deformation gradient, E = (FᵀF − 1)/2. -/
noncomputable def specE (F : Matrix (Fin 3) (Fin 3) ℝ) : Matrix (Fin 3) (Fin 3) ℝ :=
  (1 / 2 : ℝ) • (Fᵀ * F - 1)

end Verif.Strain
