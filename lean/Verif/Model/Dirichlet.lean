import Verif.Model.Cholesky

/-!
Model of the imposition of Dirichlet conditions on elemental systems, `anifem++/fem/operations/dc_on_dof.h` and
`dc_on_dof.inl`.

Scalars are an arbitrary field (no rounding).  Memory is a function from positions to values, a `for` loop is a fold
over its index range.  `DenseMatrix::operator()(i, j)` is the position `i + nRow * j` (fem_memory.h:66-67), written
`i + j * n` here.  An elemental system is the pair of the memory of `A` (`n` rows, `m` columns) and that of `F`.
-/
namespace Verif.Dirichlet

open Verif.Dense

variable {K : Type} [Field K]

/-- dc_on_dof.h:14-17 `applyDirNonExists(A, k)`. -/
def dirNonExists (n m : Nat) (A : Nat → K) (k : Nat) : Nat → K :=
  let A := loop (k * n) ((k + 1) * n) (fun p A => wr A p 0) A
  loop 0 m (fun i A => wr A (k + i * n) 0) A

/-- dc_on_dof.h:20-23 `applyDirNonExists(A, F, k)`. -/
def dirNonExistsSys (n m : Nat) (s : (Nat → K) × (Nat → K)) (k : Nat) : (Nat → K) × (Nat → K) :=
  (dirNonExists n m s.1 k, wr s.2 k 0)

/-- dc_on_dof.h:27-31 `applyDirMatrix(A, k)`. -/
def dirMatrix (n m : Nat) (A : Nat → K) (k : Nat) : Nat → K :=
  let A := loop (k * n) ((k + 1) * n) (fun p A => wr A p 0) A
  let A := loop 0 m (fun i A => wr A (k + i * n) 0) A
  wr A (k + k * n) 1

/-- dc_on_dof.h:39-45 `applyDir(A, F, k, bc)`; the condition is the pair of `k` and `bc`. -/
def dir (n m : Nat) (s : (Nat → K) × (Nat → K)) (c : Nat × K) : (Nat → K) × (Nat → K) :=
  let F := loop 0 n (fun i F => wr F i (F i - s.1 (i + c.1 * n) * c.2)) s.2
  let F := wr F c.1 c.2
  (dirMatrix n m s.1 c.1, F)

/-- dc_on_dof.h:50-52 `applyDirResidual(F, k)`. -/
def dirResidual (F : Nat → K) (k : Nat) : Nat → K := wr F k 0

/-! ### Conditions along directions of a vector variable -/

/-- dc_on_dof.inl:3-4 `get_id_base`, `get_id_dat`: the number of the `k`-th direction; `none` is the null pointer. -/
def getId (dc : Option (Nat → Nat)) (k : Nat) : Nat :=
  match dc with
  | none => k
  | some f => f k

/-- dc_on_dof.inl:6-22 `performMatrixReorthogonalization`: the work memory and the matrix afterwards; `none` is the
exception of line 9 (`size` is the length of the work memory). -/
def reorthMat (n m d size : Nat) (dof : Nat → Nat) (V : Nat → K) (s : (Nat → K) × (Nat → K)) :
    Option ((Nat → K) × (Nat → K)) :=
  if size < d * max m n then none
  else
    let R := loop 0 m (fun j R => loop 0 d (fun i R => wr R (i + j * d) (s.2 (dof i + j * n))) R) s.1
    let A := loop 0 m (fun j A => loop 0 d (fun q A =>
      wr A (dof q + j * n) (loop 0 d (fun p t => t + R (p + j * d) * V (q + p * d)) 0)) A) s.2
    some (R, A)

/-- dc_on_dof.inl:24-36 `performRhsReorthogonalization`; `none` is the exception of line 27. -/
def reorthRhs (d size : Nat) (dof : Nat → Nat) (V : Nat → K) (s : (Nat → K) × (Nat → K)) :
    Option ((Nat → K) × (Nat → K)) :=
  if size < d then none
  else
    let R := loop 0 d (fun q R => wr R q (s.2 (dof q))) s.1
    let F := loop 0 d (fun q F =>
      let F := wr F (dof q) 0
      loop 0 d (fun p F => wr F (dof q) (F (dof q) + R p * V (q + p * d))) F) s.2
    some (R, F)

/-- dc_on_dof.inl:38-57 `setVectorDirMtxExtraCol`: the work memory and the extra column afterwards. -/
def extraCol (d : Nat) (dof : Nat → Nat) (V : Nat → K) (ndc : Nat) (id : Nat → Nat) (s : (Nat → K) × (Nat → K)) :
    (Nat → K) × (Nat → K) :=
  let C := loop 0 d (fun q C => wr C q (s.2 (dof q))) s.1
  let A := loop 0 d (fun q A => wr A (dof q) (loop 0 d (fun p t => t + C p * V (q + p * d)) 0)) s.2
  (C, loop 0 ndc (fun k A => wr A (dof (id k)) 0) A)

/-- dc_on_dof.inl:59-71 `setVectorDirMtxExtraRow`: the extra row afterwards. -/
def extraRow (d : Nat) (dof : Nat → Nat) (V : Nat → K) (ndc : Nat) (id : Nat → Nat) (A : Nat → K) : Nat → K :=
  loop 0 ndc (fun k A =>
    let c := loop 0 d (fun p c => c + A (dof p) * V (id k + p * d)) 0
    loop 0 d (fun l A => wr A (dof l) (A (dof l) - c * V (id k + l * d))) A) A

/-- dc_on_dof.inl:81-93, the body of the loop over `k` of `setVectorDirMtx`, on the work memory and the matrix.  The
column `C` has `n` rows and one column but is addressed as `C(j, 1)`, the positions `n .. 2n-1`. -/
def setMtxStep (n m d : Nat) (dof : Nat → Nat) (V : Nat → K) (v : Nat) (s : (Nat → K) × (Nat → K)) :
    (Nat → K) × (Nat → K) :=
  let C := loop 0 n (fun j C => wr C (j + 1 * n) (loop 0 d (fun p t => t + s.2 (j + dof p * n) * V (v + p * d)) 0)) s.1
  let A := loop 0 d (fun l A => loop 0 n (fun j A =>
    wr A (j + dof l * n) (A (j + dof l * n) - C (j + 1 * n) * V (v + l * d))) A) s.2
  let A := loop 0 m (fun j A => wr A (dof v + j * n) 0) A
  let A := loop 0 d (fun q A => wr A (dof v + dof q * n) (V (v + q * d))) A
  (C, A)

/-- dc_on_dof.inl:73-95 `setVectorDirMtx`; `none`: undefined behaviour, `C(j, 1)` lies outside the work memory of
length `size`. -/
def setMtx (n m d size : Nat) (dof : Nat → Nat) (V : Nat → K) (ndc : Nat) (id : Nat → Nat)
    (s : (Nat → K) × (Nat → K)) : Option ((Nat → K) × (Nat → K)) :=
  if 0 < ndc ∧ 0 < n ∧ size < n + n then none
  else some (loop 0 ndc (fun k s => setMtxStep n m d dof V (id k) s) s)

/-- dc_on_dof.inl:97-112 `setVectorDirRhs`. -/
def setRhs (n d : Nat) (A : Nat → K) (dof : Nat → Nat) (V bc : Nat → K) (ndc : Nat) (id : Nat → Nat) (F : Nat → K) :
    Nat → K :=
  loop 0 ndc (fun k F =>
    let F := loop 0 d (fun q F => loop 0 n (fun j F =>
      wr F j (F j - A (j + dof q * n) * V (id k + q * d) * bc k)) F) F
    wr F (dof (id k)) (bc k)) F

/-- dc_on_dof.inl:114-118 `setVectorDirResidual`. -/
def setResidual (dof : Nat → Nat) (ndc : Nat) (id : Nat → Nat) (F : Nat → K) : Nat → K :=
  loop 0 ndc (fun k F => wr F (dof (id k)) 0) F

/-- dc_on_dof.inl:122-133 `applyVectorDirMatrix`: the matrix afterwards. -/
def vecDirMatrix (n m d size : Nat) (dof : Nat → Nat) (V : Nat → K) (ndc : Nat) (dc : Option (Nat → Nat))
    (mem A : Nat → K) : Option (Nat → K) :=
  (reorthMat n m d size dof V (mem, A)).bind fun s =>
    (setMtx n m d size dof V ndc (getId dc) s).map Prod.snd

/-- dc_on_dof.inl:136-146 `applyVectorDirMatrixExtCol`: the column afterwards. -/
def vecDirExtCol (d : Nat) (dof : Nat → Nat) (V : Nat → K) (ndc : Nat) (dc : Option (Nat → Nat)) (mem B : Nat → K) :
    Nat → K := (extraCol d dof V ndc (getId dc) (mem, B)).2

/-- dc_on_dof.inl:148-157 `applyVectorDirMatrixExtRow`: the row afterwards. -/
def vecDirExtRow (d : Nat) (dof : Nat → Nat) (V : Nat → K) (ndc : Nat) (dc : Option (Nat → Nat)) (C : Nat → K) :
    Nat → K := extraRow d dof V ndc (getId dc) C

/-- dc_on_dof.inl:160-173 `applyVectorDir`: the matrix and the right-hand side afterwards. -/
def vecDir (n m d size : Nat) (dof : Nat → Nat) (V bc : Nat → K) (ndc : Nat) (dc : Option (Nat → Nat))
    (mem A F : Nat → K) : Option ((Nat → K) × (Nat → K)) :=
  (reorthMat n m d size dof V (mem, A)).bind fun s =>
    (reorthRhs d size dof V (s.1, F)).bind fun t =>
      let F := setRhs n d s.2 dof V bc ndc (getId dc) t.2
      (setMtx n m d size dof V ndc (getId dc) (t.1, s.2)).map fun u => (u.2, F)

/-- dc_on_dof.inl:176-186 `applyVectorDirResidual`: the right-hand side afterwards. -/
def vecDirResidual (d size : Nat) (dof : Nat → Nat) (V : Nat → K) (ndc : Nat) (dc : Option (Nat → Nat))
    (mem F : Nat → K) : Option (Nat → K) :=
  (reorthRhs d size dof V (mem, F)).map fun s => setResidual dof ndc (getId dc) s.2

end Verif.Dirichlet
