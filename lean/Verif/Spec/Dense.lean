import Mathlib.Algebra.BigOperators.Group.Finset.Basic
import Mathlib.Algebra.Order.Field.Basic
import Verif.Spec.Geometry

/-!
Vocabulary of the properties about dense linear systems (C19, C20): matrices stored column by column, linear systems,
positive definiteness.
-/
namespace Verif.Dense

/-- The entry `(i, j)` of a matrix with `N` rows stored column by column. -/
def ent {K : Type} (N : Nat) (A : Nat → K) (i j : Nat) : K := A (i + j * N)

/-- `A X = B` for a matrix `A` of order `N` and right-hand sides with `M` columns. -/
def Solves {K : Type} [Semiring K] (N M : Nat) (A X B : Nat → K) : Prop :=
  ∀ i, i < N → ∀ k, k < M → ∑ j ∈ Finset.range N, ent N A i j * ent N X j k = ent N B i k

/-- `A` is symmetric. -/
def Symm {K : Type} (N : Nat) (A : Nat → K) : Prop := ∀ i, i < N → ∀ j, j < N → ent N A i j = ent N A j i

/-- The quadratic form of `A` is positive on nonzero vectors. -/
def PosDef {K : Type} [Semiring K] [LT K] (N : Nat) (A : Nat → K) : Prop :=
  ∀ x : Nat → K, (∃ i, i < N ∧ x i ≠ 0) →
    0 < ∑ i ∈ Finset.range N, ∑ j ∈ Finset.range N, x i * ent N A i j * x j

/-- `I` is the identity matrix of order `N`. -/
def IsId {K : Type} [Semiring K] (N : Nat) (I : Nat → K) : Prop :=
  ∀ i, i < N → ∀ j, j < N → ent N I i j = if i = j then 1 else 0

end Verif.Dense

namespace Verif.Dense

/-- `A` has no nonzero null vector. -/
def NonSing {K : Type} [Semiring K] (N : Nat) (A : Nat → K) : Prop :=
  ∀ x : Nat → K, (∀ i, i < N → ∑ j ∈ Finset.range N, ent N A i j * x j = 0) → ∀ j, j < N → x j = 0

/-- `p` permutes `0 .. N-1`. -/
def PermOn (N : Nat) (p : Nat → Nat) : Prop :=
  ∃ p' : Nat → Nat, ∀ i, i < N → p i < N ∧ p' i < N ∧ p' (p i) = i ∧ p (p' i) = i

end Verif.Dense
