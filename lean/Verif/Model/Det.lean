import Mathlib.Algebra.Order.Field.Basic
import Mathlib.Algebra.Order.Group.Abs
import Verif.Model.LU

/-!
Model of the determinants of square and of symmetric matrices of any size, `PhysMtx<N>::Det` and `SymMtx<N>::Det`
(`/repo/anifem++/autodiff/physical_tensors.inl:329-390`).  The scalars are an ordered field; `u` stands for `numeric_limits<FT>::epsilon()`.
A division by zero gives zero here (in the code it can occur for the zero matrix only, where nothing depends on it).
-/
namespace Verif.Det

variable {K : Type} [Field K] [LinearOrder K]

/-- physical_tensors.inl:332, 362: the largest absolute value of the given entries -/
def maxAbs (l : List K) : K := l.foldl (fun m x => max m |x|) 0

/-- physical_tensors.inl:333, 363: `eps` -/
def tol (u : K) (l : List K) : K := 100 * maxAbs l * u

/-- physical_tensors.inl:345-349, 375-379: from row `r` on the first row which is neither visited nor small in the column, `left` rows follow;
the sign changes with every row that was not visited -/
def search (vis small : Nat → Bool) : Nat → Nat → K → Option (Nat × K)
  | 0, r, s => if vis r || small r then none else some (r, s)
  | left + 1, r, s => if vis r || small r then search vis small left (r + 1) (if vis r then s else -s) else some (r, s)

/-- physical_tensors.inl:352-357: row `r` is subtracted from all rows not visited (different rows do not influence each other, nor do the entries of one
row) -/
def sweep (eps : K) (N r d : Nat) (vis : Nat → Bool) (A : Nat → Nat → K) : Nat → Nat → K := fun i j =>
  if i < N ∧ j < N ∧ vis i = false ∧ eps < |A i d / A r d| then A i j - A i d / A r d * A r j else A i j

/-- physical_tensors.inl:340-358: the loop over the columns from column `d` on, `left` of them -/
def loop (eps : K) (N : Nat) : Nat → Nat → (Nat → Bool) → (Nat → Nat → K) → K → K
  | 0, _, _, _, ret => ret
  | left + 1, d, vis, A, ret =>
    match search vis (fun i => decide (|A i d| < eps)) (N - 1) 0 (1 : K) with
    | none => 0
    | some (r, s) =>
      let vis' := fun i => decide (i = r) || vis i
      loop eps N left (d + 1) vis' (sweep eps N r d vis' A) (ret * (s * A r d))

/-- physical_tensors.inl:329-360 `PhysMtx<N>::Det` -/
def det (u : K) (N : Nat) (A : Nat → Nat → K) : K :=
  loop (tol u ((List.range N).flatMap fun i => (List.range N).map fun j => A i j)) N N 0 (fun _ => false) A 1

/-- the packed matrix: the entry `(i, j)` is that of the sorted pair (C57) (physical_tensors.inl:362-390 `A(i, j)`) -/
def get (A : Nat × Nat → K) (i j : Nat) : K := A (min i j, max i j)

/-- physical_tensors.inl:382-387, one row: `A(i, j) = A(i, j) - coef * A(r, j)` for `j = i, .., N - 1` one after another -/
def symRow (N r i : Nat) (coef : K) (A : Nat × Nat → K) : Nat × Nat → K :=
  (List.range' i (N - i)).foldl (fun A j => fun p => if p = (i, j) then get A i j - coef * get A r j else A p) A

/-- physical_tensors.inl:382-387: all rows not visited, one after another -/
def symSweep (eps : K) (N r d : Nat) (vis : Nat → Bool) (A : Nat × Nat → K) : Nat × Nat → K :=
  (List.range N).foldl (fun A i => if vis i = false ∧ eps < |get A i d / get A r d| then symRow N r i (get A i d / get A r d) A else A) A

/-- physical_tensors.inl:370-388: the loop over the columns from column `d` on, `left` of them -/
def symLoop (eps : K) (N : Nat) : Nat → Nat → (Nat → Bool) → (Nat × Nat → K) → K → K
  | 0, _, _, _, ret => ret
  | left + 1, d, vis, A, ret =>
    match search vis (fun i => decide (|get A i d| < eps)) (N - 1) 0 (1 : K) with
    | none => 0
    | some (r, s) =>
      let vis' := fun i => decide (i = r) || vis i
      symLoop eps N left (d + 1) vis' (symSweep eps N r d vis' A) (ret * (s * get A r d))

/-- physical_tensors.inl:359-390 `SymMtx<N>::Det`; the stored entries are those with `i ≤ j` -/
def symDet (u : K) (N : Nat) (A : Nat × Nat → K) : K :=
  symLoop (tol u ((List.range N).flatMap fun i => (List.range' i (N - i)).map fun j => get A i j)) N N 0 (fun _ => false) A 1

/-- physical_tensors.inl:319-326 `PhysMtx<N>::Inv`: the rows of the array are the columns of `fullPivLU_inverse`; `r` is the memory of the result -/
def inv (eps : K) (N : Nat) (a r : Nat → K) : Option (Nat → K) := Dense.luInverse eps N a r

end Verif.Det
