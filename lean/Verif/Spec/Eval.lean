import Verif.Model.Eval
import Verif.Spec.Driver

/-!
Vocabulary of C55: finite element functions and the values of operators on them.
-/
namespace Verif.Eval

open Verif.Spaces Verif.Order Verif.SpaceOp

/-- The finite element function with the basis functions `φ` and the degrees of freedom `c`. -/
def comb (nf : Nat) (φ : Nat → Field) (c : Nat → ℝ) : Field := fun x k => ∑ i ∈ Finset.range nf, c i * φ i x k

/-- The fields `φ` are the basis functions of the space on the tetrahedron. -/
def Basis (T : Nat → Nat → ℝ) (F : Fem) (φ : Nat → Field) : Prop := ∀ i, i < nfa F → Nth T F i (φ i)

/-- The numbers `R`, one column of the operator after another, are the entries of the operator applied to the field `u` at the points `x n`. -/
def Values (op : OpT) (F : Fem) (q : Nat) (u : Field) (x : Nat → Nat → ℝ) (R : Nat → ℝ) : Prop :=
  ∀ l, l < opDim op (dim F) → ∀ n, n < q → Entry op u (x n) l (R (l + opDim op (dim F) * n))

/-- The numbers `R` are the tensor with `nb` rows times the entries of the operator applied to the field. -/
def TensorValues (op : OpT) (F : Fem) (nb : Nat) (fn : Elemental.UserD ℝ) (q : Nat) (u : Field) (x : Nat → Nat → ℝ) (R : Nat → ℝ) : Prop :=
  ∀ n, n < q → ∀ g : Nat → ℝ, (∀ l, l < opDim op (dim F) → Entry op u (x n) l (g l)) → ∀ k, k < nb →
    R (k + nb * n) = ∑ l ∈ Finset.range (opDim op (dim F)), Driver.tensorAt nb (opDim op (dim F)) fn 0 (x n) k l * g l

/-- The call ends with a result for which `p` holds. -/
def Ends {α : Type} (o : Outcome α) (p : α → Prop) : Prop := ∃ a, o = .ok a ∧ p a

end Verif.Eval
