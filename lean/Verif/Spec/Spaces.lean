import Verif.Spec.Geometry
import Verif.Model.Spaces
import Mathlib.Analysis.Calculus.Deriv.Basic

/-!
Vocabulary of the properties about the finite element spaces (C34, C35, C36): what the memory of an operator holds for a
tetrahedron and for a point, the basis function computed by an operator, moments of quadrature rules.
-/
namespace Verif.Spaces
open Verif.Geometry

variable {K : Type}

/-- The memory `m` describes, in place `r`, the tetrahedron with nodes `T 0 .. T 3`: edge vectors, determinant and the
inverse of the matrix of edge vectors. -/
def AtTet [CommRing K] (m : Mem K) (r : Nat) (T : Nat → Nat → K) : Prop :=
  (∀ a k, a < 4 → k < 3 → m.xyp (12 * r + (k + 3 * a)) = T a k - T 0 k) ∧
  m.det r = vol6 (T 0) (T 1) (T 2) (T 3) ∧
  ∀ j b, j < 3 → b < 3 → dot (fun k => m.psi (9 * r + (j + 3 * k))) (diff (T (b + 1)) (T 0)) = if j = b then 1 else 0

/-- The point number `n` of the memory `m` is, in the tetrahedron `T`, the physical point `x`. -/
def AtPoint [Semiring K] (m : Mem K) (n : Nat) (T : Nat → Nat → K) (x : Nat → K) : Prop :=
  IsBary (T 0) (T 1) (T 2) (T 3) x fun a => m.xyl (a + 4 * n)

/-- The place of component `k` of function `i` at point `n` of tetrahedron `r` in the result of an operator: a matrix with
`dim * q` rows and `nfa * f` columns, column by column. -/
def place (m : Mem K) (dim nfa r i n k : Nat) : Nat := (dim * n + k) + (dim * m.q) * (nfa * r + i)

/-- `v` are the `dim` components of function `i` computed by the operator `op` (with `nfa` functions) at the point `x` of
the tetrahedron `T`: in some memory, for some numbers of points and of fused tetrahedrons, at some place of it. -/
def Computed [CommRing K] (op : Mem K → (Nat → K) → Nat → K) (dim nfa i : Nat) (T : Nat → Nat → K) (x v : Nat → K) : Prop :=
  ∃ (m : Mem K) (U : Nat → K) (r n : Nat), r < m.f ∧ n < m.q ∧ AtTet m r T ∧ AtPoint m n T x ∧
    ∀ k, k < dim → v k = op m U (place m dim nfa r i n k)

/-- `φ` is the function `i` computed by the operator on the tetrahedron `T`: at every point of space its value is a value
computed there. -/
def IsBasis [CommRing K] (op : Mem K → (Nat → K) → Nat → K) (dim nfa i : Nat) (T : Nat → Nat → K)
    (φ : (Nat → K) → Nat → K) : Prop := ∀ x, Computed op dim nfa i T x (φ x)

/-- The signed volume of the tetrahedron does not vanish. -/
def Nondeg [CommRing K] (T : Nat → Nat → K) : Prop := vol6 (T 0) (T 1) (T 2) (T 3) ≠ 0

/-- The Kronecker symbol. -/
def delta [Zero K] [One K] (i j : Nat) : K := if i = j then 1 else 0

/-- The sum of the weights of a rule. -/
def weight [Semiring K] (rule : List (QPoint K)) : K := (rule.map fun q => q.w).sum
/-- The integral of a barycentric coordinate by the rule. -/
def moment [Semiring K] (rule : List (QPoint K)) (c : Nat) : K := (rule.map fun q => q.w * q.p c).sum
/-- The first `d` coordinates of every point sum to one. -/
def OnPlane [Semiring K] (rule : List (QPoint K)) (d : Nat) : Prop :=
  ∀ q ∈ rule, ((List.range d).map fun c => q.p c).sum = 1

/-- The numbers `G 0`, `G 1`, `G 2` are the derivatives of `F` at the point `x` with respect to the three coordinates: the
derivative along every direction `v` is their product with `v`. -/
def HasGradient (F : (Nat → ℝ) → ℝ) (x G : Nat → ℝ) : Prop :=
  ∀ v : Nat → ℝ, HasDerivAt (fun t => F fun k => x k + t * v k) (dot G v) 0

/-- The number `d` is the derivative of `F` at the point `x` with respect to the coordinate `c`. -/
def HasPartial (F : (Nat → ℝ) → ℝ) (x : Nat → ℝ) (c : Nat) (d : ℝ) : Prop :=
  HasDerivAt (fun t => F fun k => x k + t * if k = c then 1 else 0) d 0

end Verif.Spaces
