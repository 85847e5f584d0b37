import Verif.Model.Cholesky

/-!
Storage of elemental matrices: `MatSparsityView` of anifem++/inmost_interface/func_wrap.{h,inl}.

Arrays are regions of one memory `Nat → R`, pointers are addresses, so that source and destination may coincide.  The
integers are unbounded natural numbers (the code: `Int`, values of a pattern are non-negative and small).
-/
namespace Verif.Csc
open Verif.Dense (wr loop loopDown)

/-- func_wrap.h:17-29 `MatSparsityView`: `dense` is `m_tp == DENSE`. -/
structure View where
  dense : Bool
  nnz : Nat
  sz1 : Nat
  sz2 : Nat
  colind : Nat → Nat
  row : Nat → Nat

/-- func_wrap.h:47 `MatSparsityView::make_as_dense` (null pointers are never read and are zero functions here). -/
def makeDense (sz1 sz2 : Nat) : View := ⟨true, sz1 * sz2, sz1, sz2, fun _ => 0, fun _ => 0⟩

/-- func_wrap.h:48 `MatSparsityView::make_as_sparse`; the argument `nnz` is not used by the code. -/
def makeSparse (_nnz sz1 sz2 : Nat) (colind row : Nat → Nat) : View := ⟨false, sz1 * sz2, sz1, sz2, colind, row⟩

/-- func_wrap.h:78-79 `MatSparsity::make_as_sparse` followed by `getView` (61-62). -/
def makeSparseOwned (nnz sz1 sz2 : Nat) (colind row : Nat → Nat) : View := ⟨false, nnz, sz1, sz2, colind, row⟩

/-- `std::copy(from, from + n, to)` element by element upwards. (func_wrap.inl:15, 37, 53-56) -/
def copy {R : Type} (f t n : Nat) (m : Nat → R) : Nat → R := loop 0 n (fun p m => wr m (t + p) (m (f + p))) m

/-- func_wrap.inl:18-25: one column of `densify`; the state holds `k + 1` and the memory.  When `k` would drop below
`-1` it stays there (both values make all later comparisons fail). -/
def densifyCol {R : Type} (v : View) (f t : Nat) (fill : R) (i : Nat) (m : Nat → R) : Nat → R :=
  let s := loopDown (v.colind i) (v.colind (i + 1)) (fun j (s : Nat × (Nat → R)) =>
    let m := loopDown (v.row j + 1) s.1 (fun k m => wr m (t + i * v.sz1 + k) fill) s.2
    (min s.1 (v.row j + 1) - 1, wr m (t + i * v.sz1 + v.row j) (m (f + j)))) (v.sz1, m)
  loopDown 0 s.1 (fun k m => wr m (t + i * v.sz1 + k) fill) s.2

/-- func_wrap.inl:11-31 `MatSparsityView::densify` from address `f` to address `t`. -/
def densify {R : Type} (v : View) (f t : Nat) (fill : R) (m : Nat → R) : Nat → R :=
  if v.dense ∨ v.nnz = v.sz1 * v.sz2 then (if t = f then m else copy f t v.nnz m)
  else loopDown 0 v.sz2 (fun i m => densifyCol v f t fill i m) m

/-- func_wrap.inl:33-45 `MatSparsityView::sparsify` from address `f` to address `t`. -/
def sparsify {R : Type} (v : View) (f t : Nat) (m : Nat → R) : Nat → R :=
  if v.dense ∨ v.nnz = v.sz1 * v.sz2 then (if t = f then m else copy f t v.nnz m)
  else loop 0 v.sz2 (fun i m => loop (v.colind i) (v.colind (i + 1))
    (fun j m => wr m (t + j) (m (f + (i * v.sz1 + v.row j)))) m) m

/-- func_wrap.inl:47-58 `MatSparsityView::copyCSC` into arrays `ci`, `rw` (regions of their own). -/
def copyCSC (v : View) (ci rw : Nat → Nat) : (Nat → Nat) × (Nat → Nat) :=
  if v.dense then
    let ci := loop 0 (v.sz2 + 1) (fun i m => wr m i (i * v.sz1)) ci
    let rw := if 0 < v.sz2 then loop 0 v.sz1 (fun i m => wr m i i) rw else rw
    let rw := loop 1 v.sz2 (fun i m => loop 0 v.sz1 (fun p m => wr m (v.sz1 * i + p) (m p)) m) rw
    (ci, rw)
  else (loop 0 (v.sz2 + 1) (fun i m => wr m i (v.colind i)) ci, loop 0 v.nnz (fun i m => wr m i (v.row i)) rw)

/-- func_wrap.inl:60-71 `MatSparsityView::fillTemplate` with boolean elements. -/
def fillTemplate (v : View) (m : Nat → Bool) : Nat → Bool :=
  if v.dense then loop 0 (v.sz1 * v.sz2) (fun p m => wr m p true) m
  else
    let m := loop 0 (v.sz1 * v.sz2) (fun p m => wr m p false) m
    loop 0 v.sz2 (fun i m => loop (v.colind i) (v.colind (i + 1)) (fun j m => wr m (i * v.sz1 + v.row j) true) m) m

end Verif.Csc
