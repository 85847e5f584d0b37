import Verif.Spec.Dense
import Mathlib.Algebra.BigOperators.Group.Finset.Basic
import Mathlib.Algebra.BigOperators.Ring.Finset

/-!
Vocabulary of the property about interpolation on a region (C48).
-/
namespace Verif.Region

variable {K : Type} [Field K]

/-- The combination with the coefficients `c` of the functions numbered in `l`, at the point `n`, component `k`. -/
def comb (l : List Nat) (phi : Nat → Nat → Nat → K) (c : Nat → K) (n k : Nat) : K := (l.map fun j => c j * phi n j k).sum

/-- The square of the discrete distance between the function with the values `fx` and the combination. -/
def err (dim q : Nat) (w : Nat → K) (l : List Nat) (phi : Nat → Nat → Nat → K) (fx : Nat → Nat → K) (c : Nat → K) : K :=
  ∑ n ∈ Finset.range q, w n * ∑ k ∈ Finset.range dim, (fx n k - comb l phi c n k) ^ 2

/-- The functions numbered in `l` are linearly independent on the points: a combination vanishing at all of them has zero
coefficients. -/
def Indep (dim q : Nat) (l : List Nat) (phi : Nat → Nat → Nat → K) : Prop :=
  ∀ c : Nat → K, (∀ n, n < q → ∀ k, k < dim → comb l phi c n k = 0) → ∀ j ∈ l, c j = 0

end Verif.Region
