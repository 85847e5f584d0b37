import Verif.Model.CtOp
import Verif.Spec.OpStack

/-!
Specification of the operators of compile-time spaces.  The values of vectors, compositions and unions, of the divergence, the
curl and the partial derivative are those of `Verif.Spec.OpStack`, which know nothing of how the matrices are stored.
-/
namespace Verif.CtOp

open Verif.OpStack (Vals)

variable {K : Type} [CommRing K]

/-- The block matrix in the memory. -/
def Bnd.band (B : Bnd) (m : Nat → K) : Elemental.Band K where
  nparts := B.nparts
  data d p := m ((B.data d).1 + p)
  nRow d := (B.data d).2
  stRow := B.stRow
  stCol := B.stCol

/-- The block matrix `B` in the memory `m'` is a right result of an operator with values `v` started in the memory `m` with
`U = [u, u+usz)`, `extraR = [ex, ex+es)`: it is well formed, lies in `U`, has the values `v`, and the memory outside of `U` and
`extraR` is unchanged. -/
structure Good (q f dim nfa u usz ex es : Nat) (v : Vals K) (m m' : Nat → K) (B : Bnd) : Prop where
  ok : (B.band m').Ok q dim nfa
  val : ∀ l, l < dim → ∀ n, n < q → ∀ i, i < nfa → ∀ r, r < f → (B.band m').val q l n i r = v l n i r
  inU : ∀ d, d < B.nparts → u ≤ (B.data d).1 ∧
    (B.data d).1 + q * (B.stRow (d + 1) - B.stRow d) * ((B.stCol (d + 1) - B.stCol d) * f) ≤ u + usz
  re : ∀ p, (p < u ∨ u + usz ≤ p) → (p < ex ∨ ex + es ≤ p) → m' p = m p

/-- The operator has the values `v`: from every memory, with `U` and `extraR` as large as demanded and disjoint, it ends with a
right result of at least one part. -/
def Correct (q f : Nat) (op : Op K) (v : Vals K) : Prop :=
  ∀ (m : Nat → K) (u ex es : Nat), op.exr ≤ es → (u + op.usz ≤ ex ∨ ex + es ≤ u) →
    ∃ m' mx, op.apply u ex es m = some (m', mx) ∧ 1 ≤ (conv mx op.dim op.nfa).nparts ∧
      Good q f op.dim op.nfa u op.usz ex es v m m' (conv mx op.dim op.nfa)

/-- The operator returns a `DenseMatrix` at `U`. -/
def IsDense (q : Nat) (op : Op K) : Prop :=
  ∀ u ex es m m' mx, op.apply u ex es m = some (m', mx) → mx = .dense (u, q * op.dim)

end Verif.CtOp
