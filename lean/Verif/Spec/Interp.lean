import Verif.Model.Interp
import Verif.Spec.Dense
import Verif.Spec.Spaces
import Mathlib.Algebra.BigOperators.Group.Finset.Basic
import Mathlib.Algebra.BigOperators.Ring.Finset

/-!
Vocabulary of the property about interpolation (C47).
-/
namespace Verif.Interp

variable {K : Type} [Field K]

/-- The functionals `L 0, L 1, ...` are what the interpolation of the space computes on the tetrahedron `T`: for every function,
d.o.f., number of fused functions and arrays, the d.o.f. of each fused function is the value of the functional on that function,
nothing else is written; the functionals are linear and look only at the components of the space. -/
structure Dofs (s : Space K) (T : Tet K) (L : Nat → Fn K → K) : Prop where
  run : ∀ f i fusion u, i < s.nfa → ∀ r j, s.interp T f i fusion u r j =
    if r < fusion ∧ j = i then L i (fun x k => f x (s.dim * r + k)) else u r j
  loc : ∀ i, i < s.nfa → ∀ g h : Fn K, (∀ x k, k < s.dim → g x k = h x k) → L i g = L i h
  add : ∀ i, i < s.nfa → ∀ g h : Fn K, L i (fun x k => g x k + h x k) = L i g + L i h
  smul : ∀ i, i < s.nfa → ∀ (c : K) (g : Fn K), L i (fun x k => c * g x k) = c * L i g

/-- The functionals of the space are dual to its basis functions. -/
def Unisolvent (s : Space K) (T : Tet K) : Prop :=
  ∃ L, Dofs s T L ∧ ∀ i, i < s.nfa → ∀ j, j < s.nfa → L i (fun x k => s.val T x j k) = if i = j then 1 else 0

/-- **The property.**  Interpolation of members of the space returns their coefficients: whenever the `fusion` functions are
combinations of the basis functions of the space on `T` with the coefficients `c r`, the d.o.f. `i` of function `r` becomes
`c r i` and nothing else is written. -/
def Recovers (s : Space K) (T : Tet K) : Prop :=
  ∀ (c : Nat → Nat → K) (f : Fn K) (i fusion : Nat) (u : Nat → Nat → K), i < s.nfa →
    (∀ r, r < fusion → ∀ x k, k < s.dim → f x (s.dim * r + k) = ∑ j ∈ Finset.range s.nfa, c r j * s.val T x j k) →
    ∀ r j, s.interp T f i fusion u r j = if r < fusion ∧ j = i then c r i else u r j

/-- The point with the given barycentric coordinates. -/
def ptAt (T : Tet K) (b : Nat → K) : Nat → K := fun k => b 0 * T 0 k + b 1 * T 1 k + b 2 * T 2 k + b 3 * T 3 k

/-- The space is built on barycentric coordinates: every d.o.f. is a weighted sum of components of the function at points given
by their barycentric coordinates (weight, coordinates, component: the list `A i`), the basis functions are functions `v` of the
barycentric coordinates, both the same for all tetrahedra. -/
structure Affine (s : Space K) (A : Nat → List (K × (Nat → K) × Nat)) (v : (Nat → K) → Nat → Nat → K) : Prop where
  pts : ∀ i, i < s.nfa → ∀ a ∈ A i, a.2.1 0 + a.2.1 1 + a.2.1 2 + a.2.1 3 = 1 ∧ a.2.2 < s.dim
  dofs : ∀ T, Verif.Spaces.Nondeg T → Dofs s T (fun i g => ((A i).map fun a => a.1 * g (ptAt T a.2.1) a.2.2).sum)
  vals : ∀ T, Verif.Spaces.Nondeg T → ∀ b : Nat → K, b 0 + b 1 + b 2 + b 3 = 1 → ∀ j, j < s.nfa → ∀ k, k < s.dim →
    s.val T (ptAt T b) j k = v b j k

/-- The number `i` of a concatenation of blocks of the sizes `ns` is number `p.2` of block `p.1`. -/
def IsPlace (ns : List Nat) (i : Nat) (p : Nat × Nat) : Prop :=
  p.1 < ns.length ∧ p.2 < ns.getD p.1 0 ∧ i = (ns.take p.1).sum + p.2

end Verif.Interp
