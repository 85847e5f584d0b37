import Mathlib.Algebra.Order.Field.Basic
import Mathlib.Logic.Function.Basic

/-!
Model of `cholesky_solve` and `cholesky_inverse`, `anifem++/fem/geometry.h:203-267`, in the build without Eigen.

Scalars are an arbitrary linearly ordered field with a square root as a parameter (no rounding).  Memory is a function
from positions to values; a `for` loop is a fold over its index range.  A thrown exception is `none`.
-/
namespace Verif.Dense

/-- A write `mem[p] = v`. (used for the assignments of geometry.h:211-267) -/
def wr {K : Type} (mem : Nat → K) (p : Nat) (v : K) : Nat → K := Function.update mem p v

/-- The loop `for (i = a; i < b; ++i) s = f(i, s)`. (the `for` loops of geometry.h:211-267) -/
def loop {S : Type} (a b : Nat) (f : Nat → S → S) (s : S) : S := (List.range' a (b - a)).foldl (fun s i => f i s) s

/-- The loop `for (i = b - 1; i >= a; --i) s = f(i, s)` with signed `i`. (geometry.h:247) -/
def loopDown {S : Type} (a b : Nat) (f : Nat → S → S) (s : S) : S :=
  (List.range' a (b - a)).reverse.foldl (fun s i => f i s) s

variable {K : Type} [Field K] [LinearOrder K]

/-- geometry.h:220 macro `ID(i, j)`: position of the entry `i ≥ j` of the lower triangle stored by columns. -/
def cid (N i j : Nat) : Nat := (i - j) + (2 * N + 1 - j) * j / 2

/-- geometry.h:221-223: the lower triangle of `A` is copied to `mem`. -/
def cholFill (N : Nat) (A L : Nat → K) : Nat → K :=
  loop 0 N (fun k L => loop k N (fun i L => wr L (cid N i k) (A (i + k * N))) L) L

/-- geometry.h:221-223 when `mem` coincides with `A` (allowed by the comment geometry.h:209). -/
def cholFillInPlace (N : Nat) (A : Nat → K) : Nat → K :=
  loop 0 N (fun k L => loop k N (fun i L => wr L (cid N i k) (L (i + k * N))) L) A

/-- geometry.h:226-233, the body of the loop over `k`; `none`: the exception of line 227. -/
def cholStep (sqrt : K → K) (N k : Nat) (L : Nat → K) : Option (Nat → K) :=
  if L (cid N k k) ≤ 0 then none
  else
    let L := wr L (cid N k k) (sqrt (L (cid N k k)))
    let L := loop (k + 1) N (fun i L => wr L (cid N i k) (L (cid N i k) / L (cid N k k))) L
    some (loop (k + 1) N (fun j L => loop j N (fun i L =>
      wr L (cid N i j) (L (cid N i j) - L (cid N i k) * L (cid N j k))) L) L)

/-- geometry.h:225-234: all steps, in order, until an exception. -/
def cholFactor (sqrt : K → K) (N : Nat) (L : Nat → K) : Option (Nat → K) :=
  (List.range N).foldlM (fun L k => cholStep sqrt N k L) L

/-- geometry.h:240-245: forward substitution `L Y = B`, in place. -/
def cholFwd (N M : Nat) (L Y : Nat → K) : Nat → K :=
  loop 0 N (fun i Y => loop 0 M (fun k Y =>
    let Y := loop 0 i (fun j Y => wr Y (i + N * k) (Y (i + N * k) - Y (j + N * k) * L (cid N i j))) Y
    wr Y (i + k * N) (Y (i + k * N) / L (cid N i i))) Y) Y

/-- geometry.h:247-252: backward substitution `L^T X = Y`, in place. -/
def cholBwd (N M : Nat) (L X : Nat → K) : Nat → K :=
  loopDown 0 N (fun i X => loop 0 M (fun k X =>
    let X := loopDown (i + 1) N (fun j X => wr X (i + k * N) (X (i + k * N) - X (j + k * N) * L (cid N j i))) X
    wr X (i + k * N) (X (i + k * N) / L (cid N i i))) X) X

/-- geometry.h:211-254 `cholesky_solve`: the memory `X` afterwards, or `none` for the exception.  The copy
geometry.h:237-238 is `X := B` (whether or not they are the same memory). -/
def cholSolve (sqrt : K → K) (N M : Nat) (A B mem : Nat → K) : Option (Nat → K) :=
  (cholFactor sqrt N (cholFill N A mem)).map fun L => cholBwd N M L (cholFwd N M L B)

/-- `cholesky_solve` with `mem` coinciding with `A`. (geometry.h:211-254, called with `mem == A`) -/
def cholSolveInPlace (sqrt : K → K) (N M : Nat) (A B : Nat → K) : Option (Nat → K) :=
  (cholFactor sqrt N (cholFillInPlace N A)).map fun L => cholBwd N M L (cholFwd N M L B)

/-- geometry.h:261-267 `cholesky_inverse`: the identity matrix is written to `Inv`, which is then both right-hand side
and solution. -/
def cholInverse (sqrt : K → K) (N : Nat) (A Inv mem : Nat → K) : Option (Nat → K) :=
  let Inv := fun p => if p < N * N then 0 else Inv p
  let Inv := loop 0 N (fun i Inv => wr Inv (i + i * N) 1) Inv
  cholSolve sqrt N N A Inv mem

end Verif.Dense
