import Mathlib.Algebra.MvPolynomial.Degrees
import Mathlib.MeasureTheory.Integral.IntervalIntegral.Basic
import Mathlib.Analysis.Real.Sqrt
import Verif.Model.Quadrature

/-! What a quadrature rule promises, independently of how the tables are built. -/
namespace Verif.Quad

/-- All points of a formula with `np` points, read one after another; `none` if one of them cannot be read. -/
def points (get : Nat → Option (Spaces.QPoint ℚ)) (np : Nat) : Option (List (Spaces.QPoint ℚ)) := (List.range np).mapM get

/-- The value of the rule for the function `g` of the barycentric coordinates. -/
noncomputable def apply (R : List (Spaces.QPoint ℚ)) (g : (Nat → ℝ) → ℝ) : ℝ :=
  (R.map fun q => (q.w : ℝ) * g fun k => (q.p k : ℝ)).sum

/-- The mean value of a function on the unit segment. -/
noncomputable def meanSeg (g : ℝ → ℝ) : ℝ := ∫ x in (0 : ℝ)..1, g x
/-- The mean value of a function on the unit triangle (area 1/2). -/
noncomputable def meanTri (g : ℝ → ℝ → ℝ) : ℝ := 2 * ∫ x in (0 : ℝ)..1, ∫ y in (0 : ℝ)..(1 - x), g x y
/-- The mean value of a function on the unit tetrahedron (volume 1/6). -/
noncomputable def meanTet (g : ℝ → ℝ → ℝ → ℝ) : ℝ :=
  6 * ∫ x in (0 : ℝ)..1, ∫ y in (0 : ℝ)..(1 - x), ∫ z in (0 : ℝ)..(1 - x - y), g x y z

/-- The sum of the absolute values of the coefficients of a polynomial. -/
noncomputable def size {n : Nat} (P : MvPolynomial (Fin n) ℝ) : ℝ := ∑ m ∈ P.support, |P.coeff m|

/-- A rule with `d + 1` barycentric coordinates has positive weights, points strictly inside, coordinates summing to one,
and weights summing to one up to `tol`. -/
structure Proper (d : Nat) (tol : ℚ) (R : List (Spaces.QPoint ℚ)) : Prop where
  nonempty : R ≠ []
  weight : ∀ q ∈ R, 0 < q.w
  inside : ∀ q ∈ R, ∀ k ≤ d, 0 < q.p k
  one : ∀ q ∈ R, ((List.range (d + 1)).map q.p).sum = 1
  total : |(R.map Spaces.QPoint.w).sum - 1| ≤ tol

/-- After renumbering the vertices by `s` the rule has the same points up to `tol` in every coordinate, with the same
weights, in some order. -/
def Invariant (d : Nat) (tol : ℚ) (R : List (Spaces.QPoint ℚ)) (s : Equiv.Perm (Fin (d + 1))) : Prop :=
  ∃ R' : List (Spaces.QPoint ℚ), R'.Perm R ∧
    List.Forall₂ (fun q q' => q'.w = q.w ∧ ∀ k : Fin (d + 1), |q'.p k - q.p (s k)| ≤ tol) R R'

/-- The lengths of the orbits of a rule: `c` orbits of length `m` for each pair of a length and a number of `sym`. -/
def orbitSizes (mult : List Nat) (sym : List Int) : List Nat := (mult.zip sym).flatMap fun x => List.replicate x.2.toNat x.1

/-- The points come in consecutive groups of the lengths `sizes`; a group has one weight and goes to itself under every
permutation of the vertices. -/
def Grouped (d : Nat) (tol : ℚ) (sizes : List Nat) (R : List (Spaces.QPoint ℚ)) : Prop :=
  ∃ B : List (List (Spaces.QPoint ℚ)), B.flatten = R ∧ B.map List.length = sizes ∧
    ∀ b ∈ B, (∀ q ∈ b, ∀ q' ∈ b, q.w = q'.w) ∧ ∀ s, Invariant d tol b s

end Verif.Quad
