import Verif.Spec.Spaces

/-!
Vocabulary of the property about positions of degrees of freedom (C50).
-/
namespace Verif.DofCoord

variable {K : Type}

/-- A function of a point of the space: it depends on three coordinates only. -/
def Pointwise (f : (Nat → K) → Nat → K) : Prop := ∀ x y : Nat → K, (∀ k, k < 3 → x k = y k) → ∀ r, f x r = f y r

/-- A linear function with a constant. -/
def Affine [CommRing K] (f : (Nat → K) → Nat → K) : Prop :=
  ∃ c : Nat → Nat → K, ∀ x r, f x r = c r 3 + c r 0 * x 0 + c r 1 * x 1 + c r 2 * x 2

end Verif.DofCoord
