import Verif.Model.Order
import Verif.Spec.Spaces
import Mathlib.Algebra.MvPolynomial.Degrees
import Mathlib.Data.Real.Sqrt
import Mathlib.Order.Bounds.Basic

/-!
Vocabulary of C52: polynomial functions of bounded degree, the basis functions of a composed space as functions of the point, the
entries of an operator applied to them as derivatives.
-/
namespace Verif.Order

open Verif.Spaces

/-- The function is a polynomial of degree at most `n` in the three coordinates of the point. -/
def PolyLE (n : Nat) (ψ : (Nat → ℝ) → ℝ) : Prop :=
  ∃ p : MvPolynomial (Fin 3) ℝ, p.totalDegree ≤ n ∧ ∀ x : Nat → ℝ, ψ x = MvPolynomial.eval (fun i : Fin 3 => x i) p

/-- All functions of the set are polynomials of degree at most `n`. -/
def Suffices (S : Set ((Nat → ℝ) → ℝ)) (n : Nat) : Prop := ∀ ψ ∈ S, PolyLE n ψ

/-- `n` is the least degree that suffices for all functions of the set. -/
def Degree (S : Set ((Nat → ℝ) → ℝ)) (n : Nat) : Prop := IsLeast {m | Suffices S m} n

/-- A field: values of the components at every point. -/
abbrev Field := (Nat → ℝ) → Nat → ℝ

/-- The fields computed by the operator IDEN of a simple space on the tetrahedron `T`. -/
def leafFns (T : Nat → Nat → ℝ) : Space → Set Field
  | .p0 => {φ | ∃ i, i < 1 ∧ IsBasis p0Iden 1 1 i T φ}
  | .p1 => {φ | ∃ i, i < 4 ∧ IsBasis p1Iden 1 4 i T φ}
  | .p2 => {φ | ∃ i, i < 10 ∧ IsBasis p2Iden 1 10 i T φ}
  | .p3 => {φ | ∃ i, i < 20 ∧ IsBasis p3Iden 1 20 i T φ}
  | .b2 => {φ | ∃ i, i < 6 ∧ IsBasis b2Iden 1 6 i T φ}
  | .b4 => {φ | ∃ i, i < 1 ∧ IsBasis b4Iden 1 1 i T φ}
  | .cr1 => {φ | ∃ i, i < 4 ∧ IsBasis cr1Iden 1 4 i T φ}
  | .rt0 => {φ | ∃ i, i < 4 ∧ IsBasis (rt0Iden Real.sqrt) 3 4 i T φ}
  | .nd0 => {φ | ∃ i, i < 6 ∧ IsBasis (nd0Iden Real.sqrt) 3 6 i T φ}

mutual
/-- The basis fields of a composed space: of a vector, a field of the base in one copy and zero in the others; of a product, a field
of one member in its components and zero in the others; of a sum, the fields of the members. -/
def Fns (T : Nat → Nat → ℝ) : Fem → Set Field
  | .leaf s => leafFns T s
  | .vec n b => {φ | ∃ ψ ∈ Fns T b, ∃ j, j < n ∧ ∀ x k, k < n * dim b →
      φ x k = if k / dim b = j then ψ x (k % dim b) else 0}
  | .com l => comFns T 0 l
  | .union l => unionFns T l
/-- The fields of a product whose first member starts at component `d`. -/
def comFns (T : Nat → Nat → ℝ) (d : Nat) : Fems → Set Field
  | .nil => ∅
  | .cons h t => {φ | (∃ ψ ∈ Fns T h, ∀ x k, φ x k = if d ≤ k ∧ k < d + dim h then ψ x (k - d) else 0)} ∪ comFns T (d + dim h) t
/-- The fields of a sum. -/
def unionFns (T : Nat → Nat → ℝ) : Fems → Set Field
  | .nil => ∅
  | .cons h t => Fns T h ∪ unionFns T t
end

/-- `g` is everywhere the derivative of component `k` of the field with respect to the coordinate `c`. -/
def IsDer (φ : Field) (k c : Nat) (g : (Nat → ℝ) → ℝ) : Prop := ∀ x, HasPartial (fun y => φ y k) x c (g x)

/-- The entries of an operator on the basis fields of a space: the components, all derivatives, the derivatives with respect to one
coordinate; for DIV and CURL the sums and differences of derivatives of every three components. -/
def Entries (op : OpT) (F : Fem) (T : Nat → Nat → ℝ) : Set ((Nat → ℝ) → ℝ) :=
  match op with
  | .iden => {g | ∃ φ ∈ Fns T F, ∃ k, k < dim F ∧ g = fun x => φ x k}
  | .grad => {g | ∃ φ ∈ Fns T F, ∃ k c, k < dim F ∧ c < 3 ∧ IsDer φ k c g}
  | .dudx c => {g | ∃ φ ∈ Fns T F, ∃ k, k < dim F ∧ c < 3 ∧ IsDer φ k c g}
  | .div => {g | ∃ φ ∈ Fns T F, ∃ b g0 g1 g2, 3 * b + 2 < dim F ∧ IsDer φ (3 * b) 0 g0 ∧ IsDer φ (3 * b + 1) 1 g1 ∧
      IsDer φ (3 * b + 2) 2 g2 ∧ g = fun x => g0 x + g1 x + g2 x}
  | .curl => {g | ∃ φ ∈ Fns T F, ∃ b i j g1 g2, 3 * b + 2 < dim F ∧ i < 3 ∧ j < 3 ∧ i ≠ j ∧ IsDer φ (3 * b + i) j g1 ∧
      IsDer φ (3 * b + j) i g2 ∧ g = fun x => g1 x - g2 x}

mutual
/-- A space with functions: vectors of positive dimension, products and sums with members, sums of spaces of the same dimension. -/
def Wf : Fem → Prop
  | .leaf _ => True
  | .vec n b => 0 < n ∧ Wf b
  | .com .nil => False
  | .com (.cons h t) => Wf h ∧ WfAll t
  | .union .nil => False
  | .union (.cons h t) => Wf h ∧ WfAll t ∧ SameDim (dim h) t
/-- Every space of the list is. -/
def WfAll : Fems → Prop
  | .nil => True
  | .cons h t => Wf h ∧ WfAll t
/-- Every space of the list has `d` components. -/
def SameDim (d : Nat) : Fems → Prop
  | .nil => True
  | .cons h t => dim h = d ∧ SameDim d t
end

mutual
/-- At every product the declared orders of the members after the first do not exceed the order declared for the product. -/
def ComOk (op : OpT) : Fem → Prop
  | .leaf _ => True
  | .vec _ b => ComOk op b
  | .com .nil => True
  | .com (.cons h t) => ComOk op h ∧ ∃ n, ctOrder op (.com (.cons h t)) = some n ∧ TailOk op n t
  | .union l => AllOk op l
/-- The members are so and declare at most `n`. -/
def TailOk (op : OpT) (n : Nat) : Fems → Prop
  | .nil => True
  | .cons h t => ComOk op h ∧ (∃ o, ctOrder op h = some o ∧ o ≤ n) ∧ TailOk op n t
/-- The members are so. -/
def AllOk (op : OpT) : Fems → Prop
  | .nil => True
  | .cons h t => ComOk op h ∧ AllOk op t
end

mutual
/-- There is no product in the space. -/
def NoCom : Fem → Prop
  | .leaf _ => True
  | .vec _ b => NoCom b
  | .com _ => False
  | .union l => NoComAll l
/-- In no space of the list. -/
def NoComAll : Fems → Prop
  | .nil => True
  | .cons h t => NoCom h ∧ NoComAll t
end

end Verif.Order
