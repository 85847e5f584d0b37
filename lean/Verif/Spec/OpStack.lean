import Verif.Model.OpStack
import Verif.Spec.Elemental

/-!
Specification of the operators of run-time spaces: what a block matrix on the stack means, what a correct operator does to
the memory and the stack, and the values of the operators of vector, product and union spaces, of the divergence and the
curl in terms of those of the parts.
-/
namespace Verif.OpStack

variable {K : Type} [CommRing K]

/-- Values of an operator: component, point, basis function, tetrahedron. -/
abbrev Vals (K : Type) := Nat → Nat → Nat → Nat → K

/-- The block matrix behind a reference. -/
def St.band (st : St K) (ref : Ref) : Elemental.Band K where
  nparts := ref.nparts
  data d p := st.re ((st.mtx (ref.data + d)).1 + p)
  nRow d := (st.mtx (ref.data + d)).2
  stRow d := st.row (ref.idx + d)
  stCol d := st.col (ref.idx + d)

/-- The stack `st'` with the block matrix `ref` on top is a right result of an operator with values `v` started on `st` with
`U = [u, u+usz)`, `extraR = [ex, ex+es)`: the block matrix sits on top of the stack within the demanded number of parts, is well
formed, lies in `U`, has the values `v`, and nothing else is changed: neither the memory outside of `U` and `extraR`, nor what
was on the stack, nor what lies behind the demanded part of the arrays. -/
structure Good (q f dim nfa parts u usz ex es : Nat) (v : Vals K) (st st' : St K) (ref : Ref) : Prop where
  data : ref.data = st.busy
  idx : ref.idx = st.busy + (if st.busy = 0 then 0 else 1)
  pos : 1 ≤ ref.nparts
  nparts : ref.nparts ≤ parts
  busy : st'.busy = st.busy + ref.nparts
  ok : (st'.band ref).Ok q dim nfa
  val : ∀ l, l < dim → ∀ n, n < q → ∀ i, i < nfa → ∀ r, r < f → (st'.band ref).val q l n i r = v l n i r
  inU : ∀ d, d < ref.nparts → u ≤ (st'.mtx (st.busy + d)).1 ∧
    (st'.mtx (st.busy + d)).1 + q * (st'.row (ref.idx + (d + 1)) - st'.row (ref.idx + d)) *
      ((st'.col (ref.idx + (d + 1)) - st'.col (ref.idx + d)) * f) ≤ u + usz
  re : ∀ p, (p < u ∨ u + usz ≤ p) → (p < ex ∨ ex + es ≤ p) → st'.re p = st.re p
  mtxLow : ∀ d, d < st.busy → st'.mtx d = st.mtx d
  mtxHigh : ∀ d, st.busy + parts ≤ d → st'.mtx d = st.mtx d
  rowLow : ∀ j, j < ref.idx → st'.row j = st.row j
  rowHigh : ∀ j, st.busy + 1 + parts < j → st'.row j = st.row j
  colLow : ∀ j, j < ref.idx → st'.col j = st.col j
  colHigh : ∀ j, st.busy + 1 + parts < j → st'.col j = st.col j

/-- The operator has the values `v`: from every stack and memory, with `U` and `extraR` as large as demanded and disjoint, it
ends and leaves a right result. -/
def Correct (q f : Nat) (op : Op K) (v : Vals K) : Prop :=
  ∀ (st : St K) (u ex es : Nat), op.exr ≤ es → (u + op.usz ≤ ex ∨ ex + es ≤ u) →
    ∃ st' ref, op.apply u ex es st = some (st', ref) ∧
      Good q f op.dim op.nfa op.parts u op.usz ex es v st st' ref

/-- What is required of the operator of a simple finite element: the values at their places in `U`, nothing written outside of
`U` and `extraR`. -/
def LeafOk (q f dim nfa usz exr : Nat) (run : Nat → Nat → Nat → (Nat → K) → (Nat → K)) (v : Vals K) : Prop :=
  q * dim * (nfa * f) ≤ usz ∧
  ∀ u ex es m, exr ≤ es → (u + usz ≤ ex ∨ ex + es ≤ u) →
    (∀ l, l < dim → ∀ n, n < q → ∀ i, i < nfa → ∀ r, r < f →
      run u ex es m (u + (l + dim * n + q * dim * (i + nfa * r))) = v l n i r) ∧
    ∀ p, (p < u ∨ u + usz ≤ p) → (p < ex ∨ ex + es ≤ p) → run u ex es m p = m p

/-- `vdim` copies of a space: component `l` of basis function `i` belongs to copy `l / dim` respectively `i / nfa`. -/
def vecVals (dim nfa : Nat) (v : Vals K) : Vals K := fun l n i r =>
  if l / dim = i / nfa then v (l % dim) n (i % nfa) r else 0

/-- Two operators side by side: block diagonal. -/
def joinVals (dim nfa : Nat) (v w : Vals K) : Vals K := fun l n i r =>
  if l < dim ∧ i < nfa then v l n i r
  else if dim ≤ l ∧ nfa ≤ i then w (l - dim) n (i - nfa) r
  else 0

/-- A product of spaces, given by dimension, number of basis functions and values of the factors. -/
def prodVals : List (Nat × Nat × Vals K) → Vals K
  | [] => fun _ _ _ _ => 0
  | a :: as => joinVals a.1 a.2.1 a.2.2 (prodVals as)

/-- A union of spaces of functions of the same dimension: the basis functions one after another. -/
def unionVals : List (Nat × Vals K) → Vals K
  | [] => fun _ _ _ _ => 0
  | a :: as => fun l n i r => if i < a.1 then a.2 l n i r else unionVals as l n (i - a.1) r

/-- The divergence from the gradient `g` (component `3*c + d` is `∂u_c/∂x_d`). -/
def divVals (g : Vals K) : Vals K := fun _ n i r => g 0 n i r + g 4 n i r + g 8 n i r

/-- The curl from the gradient `g`. -/
def curlVals (g : Vals K) : Vals K := fun l n i r =>
  match l with
  | 0 => g 7 n i r - g 5 n i r
  | 1 => g 2 n i r - g 6 n i r
  | _ => g 3 n i r - g 1 n i r

/-- The partial derivative `∂/∂x_k` from the gradient `g`. -/
def dudxVals (k : Nat) (g : Vals K) : Vals K := fun l => g (3 * l + k)

/-- The operator of an element whose values are the table `V`, stored as the code stores them. -/
def table (n : Nat) (V : Nat → K) : Nat → Nat → Nat → (Nat → K) → (Nat → K) := fun u _ _ m p =>
  if u ≤ p ∧ p < u + n then V (p - u) else m p

/-- The values of the table. -/
def tableVals (q dim nfa : Nat) (V : Nat → K) : Vals K := fun l n i r => V (l + dim * n + q * dim * (i + nfa * r))

end Verif.OpStack
