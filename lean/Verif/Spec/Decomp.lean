import Mathlib.Data.Real.Basic
import Mathlib.Algebra.BigOperators.Group.Finset.Basic
import Verif.Spec.Dense

/-!
Vocabulary of the property about QR, eigenvalue and singular value decompositions (C59): orthonormal columns, triangular
matrices, products and distances of matrices stored column by column.
-/
namespace Verif.Dense

/-- The scalar product of two vectors of length `N`. -/
noncomputable def dotp (N : Nat) (x y : Nat → ℝ) : ℝ := ∑ i ∈ Finset.range N, x i * y i

/-- The square of the length of a vector. -/
noncomputable def len2 (N : Nat) (x : Nat → ℝ) : ℝ := ∑ i ∈ Finset.range N, x i ^ 2

/-- The first `M` columns of a matrix with `N` rows are orthonormal. -/
def Orthonormal (N M : Nat) (Q : Nat → ℝ) : Prop :=
  ∀ a, a < M → ∀ b, b < M → dotp N (fun i => ent N Q i a) (fun i => ent N Q i b) = if a = b then 1 else 0

/-- The entry `(i, j)` of the product `Q[1:N, 1:M] * R[1:M, 1:M]` of the documentation. (geometry.h:408) -/
noncomputable def prodQR (N M : Nat) (Q R : Nat → ℝ) (i j : Nat) : ℝ :=
  ∑ t ∈ Finset.range M, ent N Q i t * ent M R t j

/-- `A x` for a matrix `A` with `N` rows and `M` columns. -/
noncomputable def mulV (N M : Nat) (A x : Nat → ℝ) (i : Nat) : ℝ := ∑ t ∈ Finset.range M, ent N A i t * x t

/-- The entry `(i, t)` of `U * diag(S) * V^T` with `K` singular values. (geometry.h:637) -/
noncomputable def prodUSV (N M K : Nat) (U S V : Nat → ℝ) (i t : Nat) : ℝ :=
  ∑ j ∈ Finset.range K, ent N U i j * S j * ent M V t j

end Verif.Dense
