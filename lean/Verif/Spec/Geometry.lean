import Mathlib.LinearAlgebra.Matrix.Determinant.Basic
import Mathlib.Data.Matrix.Basic
import Mathlib.Algebra.Order.Field.Basic

/-!
Vocabulary of the properties about small dense geometry (C18, C42): matrices of Mathlib read from column-major
memory, scalar products, the exact square root.
-/
namespace Verif.Geometry

/-- The 3x3 matrix stored column by column in memory. -/
def toMat {K : Type} (m : Nat → K) : Matrix (Fin 3) (Fin 3) K := Matrix.of fun i j => m (i.val + 3 * j.val)

/-- The scalar product of the first three entries. -/
def dot {K : Type} [Semiring K] (a b : Nat → K) : K := a 0 * b 0 + a 1 * b 1 + a 2 * b 2

/-- The vector from the second point to the first. -/
def diff {K : Type} [Ring K] (a b : Nat → K) : Nat → K := fun i => a i - b i

/-- Equality of two vectors of three entries. -/
def Same3 {K : Type} (a b : Nat → K) : Prop := ∀ i, i < 3 → a i = b i

/-- Six times the signed volume of a tetrahedron, as a determinant of its edge vectors. -/
def vol6 {K : Type} [CommRing K] (p0 p1 p2 p3 : Nat → K) : K :=
  (Matrix.of fun (i j : Fin 3) =>
    (if j = 0 then p1 i.val else if j = 1 then p2 i.val else p3 i.val) - p0 i.val).det

/-- `sqrt` is an exact square root on nonnegative numbers. -/
def IsSqrt {K : Type} [Semiring K] [LE K] (sqrt : K → K) : Prop := ∀ x, 0 ≤ x → 0 ≤ sqrt x ∧ sqrt x * sqrt x = x

/-- `l0 .. l3` are barycentric coordinates of `x` with respect to the tetrahedron. -/
def IsBary {K : Type} [Semiring K] (p0 p1 p2 p3 x l : Nat → K) : Prop :=
  l 0 + l 1 + l 2 + l 3 = 1 ∧ ∀ i, i < 3 → l 0 * p0 i + l 1 * p1 i + l 2 * p2 i + l 3 * p3 i = x i

end Verif.Geometry
