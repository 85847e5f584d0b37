import Verif.Model.Cholesky
import Verif.Model.Spaces
import Mathlib.Algebra.BigOperators.Group.Finset.Basic

/-!
Model of `BaseFemSpace::interpolateOnRegion` (fem_space.cpp:125-224): the degrees of freedom of the closure of an edge, a face or
the cell are found by a least-squares fit at the points of a quadrature formula.
-/
namespace Verif.Region

open Verif.Dense

variable {K : Type} [Field K]

/-- fem_space.cpp:161-166, the points on the edge `ielem`: `xyl` is the piece of the work memory given to the barycentric
coordinates, `p i a` the coordinate `a` of the point `i` of the formula. -/
def edgePts (p : Nat → Nat → K) (ielem q : Nat) (xyl : Nat → K) : Nat → K :=
  loop 0 q (fun i m =>
    wr (wr m (4 * i + Spaces.lookup (2 * ielem)) (p i 0)) (4 * i + Spaces.lookup (2 * ielem + 1)) (p i 1)) xyl

/-- fem_space.cpp:174-180, the points on the face `ielem`. -/
def facePts (p : Nat → Nat → K) (ielem q : Nat) (xyl : Nat → K) : Nat → K :=
  loop 0 q (fun i m =>
    wr (wr (wr m (4 * i + (ielem + 0) % 4) (p i 0)) (4 * i + (ielem + 1) % 4) (p i 1)) (4 * i + (ielem + 2) % 4) (p i 2)) xyl

/-- fem_space.cpp:189, the points of the cell: `std::copy(pp, pp + 4 * nquads, xyl)`. -/
def cellPts (pp : Nat → K) (q : Nat) (xyl : Nat → K) : Nat → K := loop 0 (4 * q) (fun i m => wr m i (pp i)) xyl

/-- core.inl:257-263, the coordinate `k` of the point `n`: the coordinate zero is not read (`XYP` are the differences with the
vertex zero). -/
def xyg (T : Nat → Nat → K) (xyl : Nat → K) (n k : Nat) : K :=
  loop 0 3 (fun l s => s + xyl (l + 1 + 4 * n) * (T (l + 1) k - T 0 k)) (T 0 k)

/-- fem_space.cpp:198, the matrix written by `fem3DpntL` with the values of the basis on both sides, the identity tensor and
the measure one (int_pnt.inl:186-205).  `phi n j k` is the component `k` of the basis function `j` at the point `n`.
Simplified: the sums of `internalFem3Dtet` (Verif.Elemental, C44) are written as sums. -/
def gram (nfa dim q : Nat) (w : Nat → K) (phi : Nat → Nat → Nat → K) : Nat → K := fun p =>
  ∑ n ∈ Finset.range q, w n * ∑ k ∈ Finset.range dim, phi n (p / nfa) k * phi n (p % nfa) k

/-- fem_space.cpp:199-204, the vector written by `fem3DpntL` with the constant one on one side; `fx n k` is the component `k`
of the function at the point `n`.  Simplified as `gram`. -/
def moments (dim q : Nat) (w : Nat → K) (phi : Nat → Nat → Nat → K) (fx : Nat → Nat → K) : Nat → K := fun i =>
  ∑ n ∈ Finset.range q, w n * ∑ k ∈ Finset.range dim, fx n k * phi n i k

/-- fem_space.cpp:212-213: `F(k, 0) = F(ids[k], 0)`, in place. -/
def compactF (ids : List Nat) (F : Nat → K) : Nat → K :=
  loop 0 ids.length (fun k F => wr F k (F (ids.getD k 0))) F

/-- fem_space.cpp:214-216: `A[i + j * nids] = A(ids[i], ids[j])`, in place. -/
def compactA (nfa : Nat) (ids : List Nat) (A : Nat → K) : Nat → K :=
  loop 0 ids.length (fun j A => loop 0 ids.length (fun i A =>
    wr A (i + j * ids.length) (A (ids.getD i 0 + ids.getD j 0 * nfa))) A) A

/-- fem_space.cpp:222-223 (`udofs[ids[k]] = F[k]`). -/
def writeBack (ids : List Nat) (X udofs : Nat → K) : Nat → K :=
  loop 0 ids.length (fun k u => wr u (ids.getD k 0) (X k)) udofs

/-- fem_space.cpp:205-223 from the numbers `l` in the order the iteration over the closure gives them: sorting, selecting the rows
and columns, solving, writing.  `none`: the exception of `cholesky_solve`.  Simplified: the check of the work memory
(fem_space.cpp:219-220), which `interpolateOnRegion_mem_req` (fem_space.cpp:120) meets, is left out. -/
def solve [LinearOrder K] (sqrt : K → K) (nfa : Nat) (l : List Nat) (A F mem udofs : Nat → K) : Option (Nat → K) :=
  if l.length = 0 then some udofs
  else
    let ids := l.mergeSort (fun a b => decide (a ≤ b))
    let F := compactF ids F
    let A := compactA nfa ids A
    (cholSolve sqrt ids.length 1 A F mem).map fun X => writeBack ids X udofs

/-- fem_space.cpp:196-223: from the barycentric coordinates `xyl` of the points and the weights.  `val b j k` is the component `k` of the
basis function `j` at the barycentric coordinates `b`, `f` the function. -/
def region [LinearOrder K] (sqrt : K → K) (nfa dim q : Nat) (w : Nat → K) (T : Nat → Nat → K) (xyl : Nat → K)
    (val : (Nat → K) → Nat → Nat → K) (f : (Nat → K) → Nat → K) (l : List Nat) (mem udofs : Nat → K) : Option (Nat → K) :=
  let phi := fun n j k => val (fun a => xyl (4 * n + a)) j k
  solve sqrt nfa l (gram nfa dim q w phi) (moments dim q w phi fun n => f (xyg T xyl n)) mem udofs

end Verif.Region
