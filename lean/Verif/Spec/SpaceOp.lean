import Verif.Model.SpaceOp
import Verif.Spec.Order
import Verif.Spec.CtOp

/-!
Vocabulary of C53: the basis fields of a composed space in their order, the entries of an operator applied to a field as derivatives.
-/
namespace Verif.SpaceOp

open Verif.Spaces Verif.Order

/-- The number of basis functions of a simple space. -/
def leafNfa : Space → Nat
  | .p0 => 1
  | .p1 => 4
  | .p2 => 10
  | .p3 => 20
  | .b2 => 6
  | .b4 => 1
  | .cr1 => 4
  | .rt0 => 4
  | .nd0 => 6

mutual
/-- The number of basis functions of a composed space. -/
def nfa : Fem → Nat
  | .leaf s => leafNfa s
  | .vec n b => n * nfa b
  | .com l => nfaSum l
  | .union l => nfaSum l
/-- The sum over a list of spaces. -/
def nfaSum : Fems → Nat
  | .nil => 0
  | .cons h t => nfa h + nfaSum t
end

/-- The field `φ` is the basis function number `i` of a simple space on the tetrahedron `T` (those of C34, dual to the degrees of
freedom). -/
def leafNth (T : Nat → Nat → ℝ) : Space → Nat → Field → Prop
  | .p0, i, φ => IsBasis p0Iden 1 1 i T φ
  | .p1, i, φ => IsBasis p1Iden 1 4 i T φ
  | .p2, i, φ => IsBasis p2Iden 1 10 i T φ
  | .p3, i, φ => IsBasis p3Iden 1 20 i T φ
  | .b2, i, φ => IsBasis b2Iden 1 6 i T φ
  | .b4, i, φ => IsBasis b4Iden 1 1 i T φ
  | .cr1, i, φ => IsBasis cr1Iden 1 4 i T φ
  | .rt0, i, φ => IsBasis (rt0Iden Real.sqrt) 3 4 i T φ
  | .nd0, i, φ => IsBasis (nd0Iden Real.sqrt) 3 6 i T φ

mutual
/-- The field `φ` is the basis function number `i` of a composed space on the tetrahedron `T`.  Vectors: the functions of the first copy,
then of the second, ...; products and sums: the functions of the first member, then of the second, ... -/
def Nth (T : Nat → Nat → ℝ) : Fem → Nat → Field → Prop
  | .leaf s, i, φ => leafNth T s i φ
  | .vec n b, i, φ => ∃ j ψ, j < nfa b ∧ Nth T b j ψ ∧ ∃ c, c < n ∧ i = nfa b * c + j ∧
      ∀ x k, k < n * dim b → φ x k = if k / dim b = c then ψ x (k % dim b) else 0
  | .com l, i, φ => NthCom T l i φ
  | .union l, i, φ => NthUnion T l i φ
/-- The fields of a product. -/
def NthCom (T : Nat → Nat → ℝ) : Fems → Nat → Field → Prop
  | .nil, _, _ => False
  | .cons h t, i, φ => (i < nfa h ∧ ∃ ψ, Nth T h i ψ ∧ ∀ x k, φ x k = if k < dim h then ψ x k else 0) ∨
      ∃ j ψ, i = nfa h + j ∧ NthCom T t j ψ ∧ ∀ x k, φ x k = if k < dim h then 0 else ψ x (k - dim h)
/-- The fields of a sum. -/
def NthUnion (T : Nat → Nat → ℝ) : Fems → Nat → Field → Prop
  | .nil, _, _ => False
  | .cons h t, i, φ => (i < nfa h ∧ Nth T h i φ) ∨ ∃ j, i = nfa h + j ∧ NthUnion T t j φ
end

/-- The number `w` is the entry `l` of the operator applied to the field `φ` at the point `x`: a component, a derivative of a component
(entry `3*k + c` of GRAD is the derivative of component `k` with respect to the coordinate `c`), the divergence, a component of the
curl of a field of three components. -/
def Entry (op : OpT) (φ : Field) (x : Nat → ℝ) (l : Nat) (w : ℝ) : Prop :=
  match op with
  | .iden => w = φ x l
  | .grad => HasPartial (fun y => φ y (l / 3)) x (l % 3) w
  | .dudx c => HasPartial (fun y => φ y l) x c w
  | .div => ∃ d : Nat → ℝ, (∀ j, j < 3 → HasPartial (fun y => φ y j) x j (d j)) ∧ w = d 0 + d 1 + d 2
  | .curl => ∃ a b, HasPartial (fun y => φ y ((l + 2) % 3)) x ((l + 1) % 3) a ∧
      HasPartial (fun y => φ y ((l + 1) % 3)) x ((l + 2) % 3) b ∧ w = a - b

/-- The values `v` are those of the operator on the basis functions of the space: on the tetrahedron `T r` at the points `x r n`. -/
def Applied (q f : Nat) (T : Nat → Nat → Nat → ℝ) (x : Nat → Nat → Nat → ℝ) (op : OpT) (F : Fem) (v : OpStack.Vals ℝ) : Prop :=
  ∀ l, l < opDim op (dim F) → ∀ n, n < q → ∀ i, i < nfa F → ∀ r, r < f → ∀ φ, Nth (T r) F i φ → Entry op φ (x r n) l (v l n i r)

/-- The memory describes the tetrahedrons `T r`, none degenerate, and the points `x r n` in them. -/
structure Geo (m : Mem ℝ) (T : Nat → Nat → Nat → ℝ) (x : Nat → Nat → Nat → ℝ) : Prop where
  q : 0 < m.q
  f : 0 < m.f
  nondeg : ∀ r, r < m.f → Nondeg (T r)
  tet : ∀ r, r < m.f → AtTet m r (T r)
  point : ∀ r, r < m.f → ∀ n, n < m.q → AtPoint m n (T r) (x r n)

mutual
/-- A space as the library wants it: vectors of positive dimension, products with members, sums of at least two spaces, all of the same
dimension. -/
def Proper : Fem → Prop
  | .leaf _ => True
  | .vec n b => 0 < n ∧ Proper b
  | .com .nil => False
  | .com (.cons h t) => Proper h ∧ ProperAll t
  | .union .nil => False
  | .union (.cons _ .nil) => False
  | .union (.cons h (.cons k t)) => Proper h ∧ ProperAll (.cons k t) ∧ SameDim (dim h) (.cons k t)
/-- Every space of the list is. -/
def ProperAll : Fems → Prop
  | .nil => True
  | .cons h t => Proper h ∧ ProperAll t
end

end Verif.SpaceOp
