import Verif.Spec.Dense

/-!
Vocabulary of the properties about Dirichlet conditions (C39, C40): linear systems with one right-hand side,
orthonormal rows.
-/
namespace Verif.Dirichlet

open Verif.Dense

variable {K : Type} [Field K]

/-- The left-hand side of equation `i` of a matrix with `n` rows and `m` columns at the vector `x`. -/
def lhs (n m : Nat) (A x : Nat → K) (i : Nat) : K := ∑ j ∈ Finset.range m, ent n A i j * x j

/-- `x` solves all `n` equations `A x = F`. -/
def Sol (n m : Nat) (A F x : Nat → K) : Prop := ∀ i, i < n → lhs n m A x i = F i

/-- The rows of the matrix `V` of order `d` are orthonormal. -/
def Orthonormal (d : Nat) (V : Nat → K) : Prop :=
  ∀ a, a < d → ∀ b, b < d → ∑ p ∈ Finset.range d, ent d V a p * ent d V b p = if a = b then 1 else 0

/-- Row `a` of `V` applied to the values of `x` at the d.o.f.s of the vector variable. -/
def along (d : Nat) (V : Nat → K) (dof : Nat → Nat) (x : Nat → K) (a : Nat) : K :=
  ∑ p ∈ Finset.range d, ent d V a p * x (dof p)

/-- `d` distinct positions below `n`. -/
def Places (d n : Nat) (dof : Nat → Nat) : Prop :=
  (∀ q, q < d → dof q < n) ∧ ∀ q, q < d → ∀ r, r < d → dof q = dof r → q = r

/-- Row `i` of the system is one of the equations of the d.o.f.s of the vector variable. -/
def IsDof (d : Nat) (dof : Nat → Nat) (i : Nat) : Prop := ∃ q, q < d ∧ dof q = i

end Verif.Dirichlet
