import Verif.Model.Driver
import Verif.Spec.SpaceOp
import Verif.Spec.Quadrature
import Verif.Spec.Elemental
import Mathlib.Algebra.MvPolynomial.Monad

/-!
Vocabulary of C54: what the drivers have to prepare, operators applied to functions, bilinear forms and integrals over the parts of a
tetrahedron.
-/
namespace Verif.Driver

open Verif.Spaces Verif.Order Verif.SpaceOp

/-- The point with the weights `l` at the nodes of the tetrahedron. -/
def mix (T : Nat → Nat → ℝ) (l : Nat → ℝ) (k : Nat) : ℝ := l 0 * T 0 k + l 1 * T 1 k + l 2 * T 2 k + l 3 * T 3 k

/-- The arrays describe the tetrahedrons `T r`, the points `x r n` in them, by barycentric and by cartesian coordinates, the measures `vol r`
and the weights `w n`. -/
structure Prepared (a : Arr ℝ) (q f : Nat) (T : Nat → Nat → Nat → ℝ) (x : Nat → Nat → Nat → ℝ) (vol w : Nat → ℝ) : Prop where
  points : a.q = q
  tetras : a.f = f
  geo : Geo a.mem T x
  xyg : ∀ r, r < f → ∀ n, n < q → Elemental.xpt a.xyg q n r = (x r n 0, x r n 1, x r n 2)
  mes : ∀ r, r < f → a.mes r = vol r
  wg : ∀ n, n < q → a.wg n = w n

/-- The functions `a l` are the entries of the operator applied to the field `φ`, at every point of space. -/
def AppliedTo (op : OpT) (F : Fem) (φ : Field) (a : Nat → (Nat → ℝ) → ℝ) : Prop :=
  ∀ l, l < opDim op (dim F) → ∀ y, Entry op φ y l (a l y)

/-- The bilinear form `∑ b_k(y) D_kl(y) a_l(y)` at the point `y`. -/
def form (na nb : Nat) (D : (Nat → ℝ) → Nat → Nat → ℝ) (a b : Nat → (Nat → ℝ) → ℝ) (y : Nat → ℝ) : ℝ :=
  ∑ k ∈ Finset.range nb, b k y * ∑ l ∈ Finset.range na, D y k l * a l y

/-- The tensor of the user at a point, as a matrix with `nb` rows and `na` columns, on the tetrahedron `r`. -/
def tensorAt (nb na : Nat) (fn : Elemental.UserD ℝ) (r : Nat) (y : Nat → ℝ) (k l : Nat) : ℝ :=
  Elemental.tensor nb na (fn (y 0, y 1, y 2) r) k l

/-- The convolution of a tensor of `3 * nb` rows with a vector. -/
def dotNormal (D : (Nat → ℝ) → Nat → Nat → ℝ) (ν : Nat → ℝ) (y : Nat → ℝ) (k l : Nat) : ℝ :=
  D y (3 * k) l * ν 0 + D y (3 * k + 1) l * ν 1 + D y (3 * k + 2) l * ν 2

/-- The tensor that acts in the form: that of the user, or its convolution with the normal. -/
def actingAt (normal : Bool) (nb na : Nat) (fn : Elemental.UserD ℝ) (ν : Nat → Nat → ℝ) (r : Nat) (y : Nat → ℝ) (k l : Nat) : ℝ :=
  if normal then dotNormal (tensorAt (nb * 3) na fn r) (ν r) y k l else tensorAt nb na fn r y k l

/-- The type of the tensor fits at all points of the element. -/
def FitsAt (normal : Bool) (nb na nfa q f : Nat) (fn : Elemental.UserD ℝ) (x : Nat → Nat → Nat → ℝ) : Prop :=
  ∀ r, r < f → ∀ n, n < q → Elemental.Fits (nb * (if normal then 3 else 1)) na nfa (fn (x r n 0, x r n 1, x r n 2) r)

/-- The volume of a tetrahedron. -/
noncomputable def volume (T : Nat → Nat → ℝ) : ℝ := |Geometry.vol6 (T 0) (T 1) (T 2) (T 3)| / 6

/-- The number is the area of the triangle: not negative, and twice its square is half of the Gram determinant of two sides. -/
def IsArea (A : ℝ) (p0 p1 p2 : Nat → ℝ) : Prop :=
  0 ≤ A ∧ 4 * (A * A) = Geometry.dot (Geometry.diff p1 p0) (Geometry.diff p1 p0) * Geometry.dot (Geometry.diff p2 p0) (Geometry.diff p2 p0) -
    Geometry.dot (Geometry.diff p1 p0) (Geometry.diff p2 p0) * Geometry.dot (Geometry.diff p1 p0) (Geometry.diff p2 p0)

/-- The number is the length of the segment. -/
def IsLength (A : ℝ) (p0 p1 : Nat → ℝ) : Prop := 0 ≤ A ∧ A * A = Geometry.dot (Geometry.diff p1 p0) (Geometry.diff p1 p0)

/-- The unit normal of the plane of `p0 p1 p2` on the side away from `p3`. -/
def IsNormal (ν p0 p1 p2 p3 : Nat → ℝ) : Prop :=
  Geometry.dot ν (Geometry.diff p1 p0) = 0 ∧ Geometry.dot ν (Geometry.diff p2 p0) = 0 ∧ Geometry.dot ν ν = 1 ∧
    Geometry.dot ν (Geometry.diff p3 p0) < 0

/-- The nodes of the edge `e`: the pairs of nodes in lexicographic order. -/
def edgeNodes : Nat → Nat × Nat
  | 0 => (0, 1)
  | 1 => (0, 2)
  | 2 => (0, 3)
  | 3 => (1, 2)
  | 4 => (1, 3)
  | _ => (2, 3)

/-- Spaces, operators, the basis functions `φ`, `ψ` of the spaces on the tetrahedrons and the entries `α`, `β` of the operators on them. -/
structure Setting (f : Nat) (T : Nat → Nat → Nat → ℝ) (opa opb : OpT) (F H : Fem) (φ ψ : Nat → Nat → Field)
    (α β : Nat → Nat → Nat → (Nat → ℝ) → ℝ) : Prop where
  coordA : ∀ c, opa = .dudx c → c < 3
  coordB : ∀ c, opb = .dudx c → c < 3
  spaceA : Wf F
  spaceB : Wf H
  some : 0 < nfa F
  tetras : 0 < f
  nondeg : ∀ r, r < f → Nondeg (T r)
  basisA : ∀ r, r < f → ∀ i, i < nfa F → Nth (T r) F i (φ r i)
  basisB : ∀ r, r < f → ∀ j, j < nfa H → Nth (T r) H j (ψ r j)
  entryA : ∀ r, r < f → ∀ i, i < nfa F → AppliedTo opa F (φ r i) (α r i)
  entryB : ∀ r, r < f → ∀ j, j < nfa H → AppliedTo opb H (ψ r j) (β r j)

/-- The tensor of the user fits the operators everywhere and its traits keep their promise. -/
structure Tensor (normal : Bool) (nb na nfa f : Nat) (tr : Elemental.Traits) (fn : Elemental.UserD ℝ) : Prop where
  traits : tr ≠ .perSelection
  promise : ∀ arg : Elemental.Args ℝ, tr.Holds fn arg
  fits : ∀ r, r < f → ∀ y, Elemental.Fits (nb * (if normal then 3 else 1)) na nfa (fn y r)

/-- The degree of the entries of an operator on a space: that declared by the space (C52), one less for derivatives. -/
def degree (op : OpT) (F : Fem) : Nat := if op = .iden then rtIden F else rtIden F - 1

/-- Coordinate `c` of the point with given barycentric coordinates in a simplex of `d + 1` vertices, as a polynomial of the first `d` of them. -/
noncomputable def bary (d : Nat) (V : Nat → Nat → ℝ) (c : Fin 3) : MvPolynomial (Fin d) ℝ :=
  (∑ i : Fin d, MvPolynomial.C (V i c) * MvPolynomial.X i) + MvPolynomial.C (V d c) * (1 - ∑ i : Fin d, MvPolynomial.X i)

/-- The number `s` is the integral `I` of the function `g` over a simplex with the measure `A` and the vertices `V`, up to the accuracy of the
tables: `g` is a polynomial of degree at most `n` and the error is at most 10⁻⁴⁸ of the measure and of its coefficients in barycentric
coordinates. -/
def Near (d n : Nat) (A : ℝ) (V : Nat → Nat → ℝ) (g : (Nat → ℝ) → ℝ) (s I : ℝ) : Prop :=
  ∃ Q : MvPolynomial (Fin 3) ℝ, Q.totalDegree ≤ n ∧ (∀ y : Nat → ℝ, g y = MvPolynomial.eval (fun i : Fin 3 => y i) Q) ∧
    |s - I| ≤ 1 / 10 ^ 48 * A * Quad.size (MvPolynomial.bind₁ (bary d V) Q)

/-- The integral over a tetrahedron: its volume times the mean over the unit tetrahedron. -/
noncomputable def overTet (T : Nat → Nat → ℝ) (g : (Nat → ℝ) → ℝ) : ℝ :=
  volume T * Quad.meanTet fun x y z => g fun k => x * T 0 k + y * T 1 k + z * T 2 k + (1 - x - y - z) * T 3 k

/-- The integral over a triangle of the area `A`. -/
noncomputable def overTri (A : ℝ) (p0 p1 p2 : Nat → ℝ) (g : (Nat → ℝ) → ℝ) : ℝ :=
  A * Quad.meanTri fun x y => g fun k => x * p0 k + y * p1 k + (1 - x - y) * p2 k

/-- The integral over a segment of the length `A`. -/
noncomputable def overSeg (A : ℝ) (p0 p1 : Nat → ℝ) (g : (Nat → ℝ) → ℝ) : ℝ :=
  A * Quad.meanSeg fun x => g fun k => x * p0 k + (1 - x) * p1 k

end Verif.Driver
