import Verif.Model.Cholesky
import Mathlib.Algebra.Order.Group.Unbundled.Abs

/-!
Model of `fullPivLU`, `LU_solve`, `fullPivLU_solve` and `fullPivLU_inverse`, `anifem++/fem/geometry.h:269-406`, in the
build without Eigen.  Scalars are an arbitrary linearly ordered field (no rounding); the machine epsilon is a
parameter.  `none` is an access outside of the arrays (undefined behaviour).
-/
namespace Verif.Dense

variable {K : Type} [Field K] [LinearOrder K]

/-- The matrix and the two index arrays of `fullPivLU`. (geometry.h:276) -/
structure LUState (K : Type) where
  A : Nat → K
  p : Nat → Nat
  q : Nat → Nat

/-- geometry.h:279-288: the search of the pivot in rows and columns `k .. N-1`; `none` is `pi = pj = -1`. -/
def luPivot (N k : Nat) (A : Nat → K) : Option (Nat × Nat) × K :=
  loop k N (fun i s => loop k N (fun j s =>
    if |A (i + j * N)| > s.2 then (some (i, j), |A (i + j * N)|) else s) s) (none, 0)

/-- `std::swap(a[x], a[y])`. (geometry.h:290-296) -/
def swapAt {T : Type} (a : Nat → T) (x y : Nat) : Nat → T :=
  Function.update (Function.update a x (a y)) y (a x)

/-- geometry.h:291-292: exchange of two rows. -/
def swapRows (N k pi : Nat) (A : Nat → K) : Nat → K :=
  loop 0 N (fun j A => swapAt A (k + j * N) (pi + j * N)) A

/-- geometry.h:295-296: exchange of two columns. -/
def swapCols (N k pj : Nat) (A : Nat → K) : Nat → K :=
  loop 0 N (fun i A => swapAt A (i + k * N) (i + pj * N)) A

/-- geometry.h:297-299: the largest absolute value below the pivot. -/
def luMax1 (N k : Nat) (A : Nat → K) : K :=
  loop (k + 1) N (fun i m => max m |A (i + k * N)|) 0

/-- geometry.h:304-311: elimination below the pivot. -/
def luElim (N k : Nat) (A : Nat → K) : Nat → K :=
  loop (k + 1) N (fun i A =>
    let A := wr A (i + k * N) (A (i + k * N) / A (k + k * N))
    let tmp := A (i + k * N)
    loop (k + 1) N (fun j A => wr A (i + j * N) (A (i + j * N) - tmp * A (k + j * N))) A) A

/-- geometry.h:278-313: step `k`.  When all remaining entries are zero the code accesses `p[-1]` (line 290): `none`. -/
def luStep (eps : K) (N k : Nat) (s : LUState K) : Option (LUState K) :=
  match luPivot N k s.A with
  | (none, _) => none
  | (some (pi, pj), mx) =>
    let p := swapAt s.p k pi
    let A := swapRows N k pi s.A
    let q := swapAt s.q k pj
    let A := swapCols N k pj A
    let max1 := luMax1 N k A
    if mx > 0 ∧ max1 > 0 ∧ max1 / mx > eps then some ⟨luElim N k A, p, q⟩ else some ⟨A, p, q⟩

/-- geometry.h:275-316 `fullPivLU`. -/
def fullPivLU (eps : K) (N : Nat) (s : LUState K) : Option (LUState K) :=
  (List.range N).foldlM (fun s k => luStep eps N k s) s

/-- geometry.h:327-329: rows of the right-hand side are exchanged. -/
def luPerm (N M : Nat) (p : Nat → Nat) (B X : Nat → K) : Nat → K :=
  loop 0 M (fun l X => loop 0 N (fun i X => wr X (i + N * l) (B (p i + N * l))) X) X

/-- geometry.h:332-333: the first nonzero entry of column `l`. -/
def luFirst (N l : Nat) (X : Nat → K) : Nat :=
  ((List.range N).find? (fun i => decide (X (i + N * l) ≠ 0))).getD N

/-- geometry.h:331-340: forward substitution with the unit lower triangle. -/
def luFwd (N M : Nat) (LU X : Nat → K) : Nat → K :=
  loop 0 M (fun l X => loop (luFirst N l X) N (fun i X =>
    wr X (i + N * l) (loop 0 i (fun j v => v - LU (i + j * N) * X (j + N * l)) (X (i + N * l)))) X) X

/-- geometry.h:342-350: backward substitution with the upper triangle (`N ≥ 1`: for `N = 0` the code accesses
`X[-1]`). -/
def luBwd (N M : Nat) (LU X : Nat → K) : Nat → K :=
  loop 0 M (fun l X =>
    let X := wr X ((N - 1) + N * l) (X ((N - 1) + N * l) / LU ((N - 1) + N * (N - 1)))
    loopDown 0 (N - 1) (fun i X =>
      let v := loop (i + 1) N (fun j v => v - LU (i + N * j) * X (j + N * l)) (X (i + N * l))
      wr X (i + N * l) (v / LU (i + N * i))) X) X

/-- geometry.h:325-357 `LU_solve`: the memory `X` afterwards.  The last loop (353-356) is the same exchange as the
first one with `q` instead of `p`. -/
def luSolve (N M : Nat) (LU : Nat → K) (p q : Nat → Nat) (B X : Nat → K) : Nat → K :=
  let X := luPerm N M p B X
  let X := luFwd N M LU X
  let X := luBwd N M LU X
  let B := fun t => if t < N * M then X t else B t
  luPerm N M q B X

/-- geometry.h:367-384 `fullPivLU_solve`: copies of `A` and `B` are used, so `X` may be the memory of `B`. -/
def luSolveFull (eps : K) (N M : Nat) (A B X : Nat → K) : Option (Nat → K) :=
  (fullPivLU eps N ⟨A, id, id⟩).map fun s => luSolve N M s.A s.p s.q B X

/-- geometry.h:399-401: the identity matrix is written to `Inv`. -/
def luIdentity (N : Nat) (Inv : Nat → K) : Nat → K :=
  loop 0 N (fun i Inv => wr Inv (i + i * N) 1) (fun t => if t < N * N then 0 else Inv t)

/-- geometry.h:391-405 `fullPivLU_inverse` with `Inv` and `A` different memory. -/
def luInverse (eps : K) (N : Nat) (A Inv : Nat → K) : Option (Nat → K) :=
  luSolveFull eps N N A (luIdentity N Inv) (luIdentity N Inv)

/-- geometry.h:391-405 `fullPivLU_inverse` with `Inv` the memory of `A`, as the comment geometry.h:387 allows: `A` is
overwritten by the identity before it is used. -/
def luInverseInPlace (eps : K) (N : Nat) (A : Nat → K) : Option (Nat → K) :=
  luSolveFull eps N N (luIdentity N A) (luIdentity N A) (luIdentity N A)

end Verif.Dense
