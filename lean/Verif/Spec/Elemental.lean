import Verif.Model.Elemental
import Mathlib.Algebra.BigOperators.Ring.Finset
import Mathlib.Algebra.BigOperators.Intervals

/-!
Specification of elemental matrices: what the block storage of an operator means, what the coefficient tensor of the user
means, and what the traits promise about the tensor function.
-/
namespace Verif.Elemental

variable {K : Type} [CommRing K]

/-- The parts tile the diagonal of a `dim × nf` matrix and every part is stored for `q` points. -/
structure Band.Ok (U : Band K) (q dim nf : Nat) : Prop where
  row0 : U.stRow 0 = 0
  rowN : U.stRow U.nparts = dim
  rowMono : ∀ d, d < U.nparts → U.stRow d ≤ U.stRow (d + 1)
  col0 : U.stCol 0 = 0
  colN : U.stCol U.nparts = nf
  colMono : ∀ d, d < U.nparts → U.stCol d ≤ U.stCol (d + 1)
  rows : ∀ d, d < U.nparts → U.nRow d = q * (U.stRow (d + 1) - U.stRow d)

/-- The value of component `l` of the operator applied to the basis function `i` at point `n` of tetrahedron `r`: parts on the
diagonal, zero elsewhere. -/
def Band.val (U : Band K) (q l n i r : Nat) : K :=
  ∑ d ∈ Finset.range U.nparts,
    if (U.stRow d ≤ l ∧ l < U.stRow (d + 1)) ∧ (U.stCol d ≤ i ∧ i < U.stCol (d + 1)) then
      U.data d ((l - U.stRow d) + (U.stRow (d + 1) - U.stRow d) * n +
        q * (U.stRow (d + 1) - U.stRow d) * ((i - U.stCol d) + (U.stCol (d + 1) - U.stCol d) * r))
    else 0

/-- The `jd × id` matrix meant by the user's tensor: identity, scalar times identity (a column of equal values when the
trial operator is one number), or the matrix stored by columns. -/
def tensor (jd id : Nat) (t : TT × (Nat → K)) (k l : Nat) : K :=
  match t.1 with
  | .null => if jd = id then (if k = l then 1 else 0) else 1
  | .scalar => if jd = id then (if k = l then t.2 0 else 0) else t.2 0
  | .symmetric => t.2 (k + jd * l)
  | .general => t.2 (k + jd * l)

/-- The type of the tensor is admissible for the dimensions. -/
def Fits (jd id nfa : Nat) (t : TT × (Nat → K)) : Prop :=
  match t.1 with
  | .null => jd = id ∨ (nfa = 1 ∧ id = 1)
  | .scalar => jd = id ∨ (nfa = 1 ∧ id = 1)
  | .symmetric => jd = id ∧ ∀ k, k < jd → ∀ l, l < jd → t.2 (k + jd * l) = t.2 (l + jd * k)
  | .general => True

/-- The same kind of storage. -/
def SameKind (t t' : TT) : Prop := t.full = t'.full ∧ (t'.full = false → t = t')

/-- The point `n` of the tetrahedron `r`: `XYG` holds the points one after another, three numbers each, `q` points for every
tetrahedron (fem_memory.h:202).  Independent of the `point` of the model. -/
def xpt (xyg : Nat → K) (q n r : Nat) : K × K × K :=
  let c : Nat → K := fun k => xyg (3 * q * r + 3 * n + k)
  (c 0, c 1, c 2)

/-- What the traits promise about the tensor function at the points of the element. -/
def Traits.Holds (tr : Traits) (f : UserD K) (a : Args K) : Prop :=
  match tr with
  | .constAny => ∀ r, r < a.f → ∀ n, n < a.q → f (xpt a.xyg a.q n r) r = f (0, 0, 0) 0
  | .constNull => ∀ r, r < a.f → ∀ n, n < a.q → (f (xpt a.xyg a.q n r) r).1 = .null
  | .constScalar => ∀ r, r < a.f → ∀ n, n < a.q → f (xpt a.xyg a.q n r) r = f (0, 0, 0) 0 ∧ (f (0, 0, 0) 0).1 = .scalar
  | .constFull => ∀ r, r < a.f → ∀ n, n < a.q → f (xpt a.xyg a.q n r) r = f (0, 0, 0) 0 ∧ (f (0, 0, 0) 0).1.full = true
  | .perPoint => True
  | .perTetra => ∀ r, r < a.f → ∀ n, n < a.q → SameKind (f (xpt a.xyg a.q n r) r).1 (f (xpt a.xyg a.q 0 r) r).1
  | .perSelection => ∀ r, r < a.f → ∀ n, n < a.q → SameKind (f (xpt a.xyg a.q n r) r).1 (f (xpt a.xyg a.q 0 0) 0).1
  | .full => ∀ r, r < a.f → ∀ n, n < a.q → (f (xpt a.xyg a.q n r) r).1.full = true
  | .scalar => ∀ r, r < a.f → ∀ n, n < a.q → (f (xpt a.xyg a.q n r) r).1 = .scalar
  | .null => ∀ r, r < a.f → ∀ n, n < a.q → (f (xpt a.xyg a.q n r) r).1 = .null

/-- Position of component `k` at point `n` for basis function `i` of tetrahedron `r` in `DU`. -/
def addr (jd q nf k n i r : Nat) : Nat := k + jd * (n + q * (i + nf * r))

/-- The memory `DU` holds the weighted product of the tensor `M` (a matrix for every point and tetrahedron) with the
operator. -/
def IsDU (a : Args K) (M : Nat → Nat → Nat → Nat → K) (DU : Nat → K) : Prop :=
  ∀ r, r < a.f → ∀ i, i < a.nfa → ∀ n, n < a.q → ∀ k, k < a.jdim →
    DU (addr a.jdim a.q a.nfa k n i r) =
      a.w n * a.mes r * ∑ l ∈ Finset.range a.idim, M n r k l * a.U.val a.q l n i r

/-- What `DU` must hold before: zeros when the operator has several parts. -/
def Cleared (a : Args K) (DU : Nat → K) : Prop :=
  a.U.nparts = 1 ∨ ∀ r, r < a.f → ∀ i, i < a.nfa → ∀ n, n < a.q → ∀ k, k < a.jdim →
    DU (addr a.jdim a.q a.nfa k n i r) = 0

end Verif.Elemental
