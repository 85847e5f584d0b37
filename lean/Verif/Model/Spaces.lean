import Verif.Model.Geometry
import Verif.Model.Cholesky

/-!
Model of the primitive finite element spaces `anifem++/fem/spaces/*.h`: the operators IDEN, GRAD, DIV, CURL, DUDX
(memory level, all fused tetrahedrons and all points), the degrees of freedom (`Dof::interpolate`) and the symbolic
evaluation (`Basis::eval`).

Scalars are an arbitrary field (rounding is not modelled), the square root is a parameter.  The decimal constants
`4.5`, `13.5`, `0.5` are the exact fractions.  Sizes are natural numbers (no overflow).  Memory is a function from
positions to values; the assertions about the size of the memory are not modelled (they are `memoryRequirements`).
A nest of loops with independent iterations is a fold over the list of index tuples in the order of the loops.
-/
namespace Verif.Spaces
open Verif.Dense (wr)

variable {K : Type}

/-- The part of `AniMemory` (fem_memory.h) read by the operators: the number of points `q`, the number of fused
tetrahedrons `f`, barycentric coordinates of the points (4 x q), `PSI` (3 x 3f), `XYP` (3 x 4f), `DET` (f).
(fem_memory.h:196-212) -/
structure Mem (K : Type) where
  q : Nat
  f : Nat
  xyl : Nat → K
  psi : Nat → K
  xyp : Nat → K
  det : Nat → K

/-- A loop nest whose iteration `x` does `U[g x] = v x`. (the loop nests of spaces/*.h, first used for poly_0.h:75-81) -/
def put {ι : Type} (L : List ι) (g : ι → Nat) (v : ι → K) (U : Nat → K) : Nat → K :=
  L.foldl (fun U x => wr U (g x) (v x)) U

/-- A loop nest whose iteration `x` does `U[g x] = U[s x]`. (the loop nests of spaces/*.h, first used for poly_0.h:75-81) -/
def cp {ι : Type} (L : List ι) (g s : ι → Nat) (U : Nat → K) : Nat → K :=
  L.foldl (fun U x => wr U (g x) (U (s x))) U

/-- `std::fill(U.data, U.data + n, c)`. (the loop nests of spaces/*.h, first used for poly_0.h:75-81) -/
def fill (n : Nat) (c : K) (U : Nat → K) : Nat → K := put (List.range n) id (fun _ => c) U

/-- `for i < a: for j < b`. (the loop nests of spaces/*.h, first used for poly_0.h:75-81) -/
def box2 (a b : Nat) : List (Nat × Nat) := (List.range a).flatMap fun i => (List.range b).map fun j => (i, j)

/-- `for i < a: for j < b: for k < c`. (the loop nests of spaces/*.h, first used for poly_0.h:75-81) -/
def box3 (a b c : Nat) : List (Nat × Nat × Nat) :=
  (List.range a).flatMap fun i => (box2 b c).map fun y => (i, y.1, y.2)

/-- `for i < a: for j < b: for k < c: for l < d`. (the loop nests of spaces/*.h, first used for poly_0.h:75-81) -/
def box4 (a b c d : Nat) : List (Nat × Nat × Nat × Nat) :=
  (List.range a).flatMap fun i => (box3 b c d).map fun y => (i, y.1, y.2.1, y.2.2)

/-- `for i = a; i < b`. (the loop nests of spaces/*.h, first used for poly_0.h:75-81) -/
def from' (a b : Nat) : List Nat := List.range' a (b - a)

/-- `for i = a; i < b: for j < c`. (the loop nests of spaces/*.h, first used for poly_0.h:75-81) -/
def from2 (a b c : Nat) : List (Nat × Nat) := (from' a b).flatMap fun i => (List.range c).map fun j => (i, j)

/-- `for i = a; i < b: for j < c: for k < d`. (the loop nests of spaces/*.h, first used for poly_0.h:75-81) -/
def from3 (a b c d : Nat) : List (Nat × Nat × Nat) := (from' a b).flatMap fun i => (box2 c d).map fun y => (i, y.1, y.2)

/-- The copy of the first block of `N` numbers into the blocks `1 .. f-1`, `for r = 1..f-1: std::copy(U, U + N, U + N*r)`
(poly_1.h:35-36, crouzeix_raviart_1.h:38-39, bubble_4.h:33-34). -/
def copyBlocks (f N : Nat) (U : Nat → K) : Nat → K := cp (from2 1 f N) (fun x => N * x.1 + x.2) (fun x => x.2) U

/-- The copy `for r = 1..f-1, i < nfa, n < q: U(n, i + r*nfa) = U(n, i)` of a matrix with `q` rows (poly_2.h:42-45,
poly_3.h:48-51, bubble_2.h:39-42). -/
def copyCols (f nfa q : Nat) (U : Nat → K) : Nat → K :=
  cp (from3 1 f nfa q) (fun x => x.2.2 + q * (x.2.1 + x.1 * nfa)) (fun x => x.2.2 + q * x.2.1) U

/-- The table `GRAD_P1[d + 3*i]` (poly_2.h:75, poly_3.h:84, crouzeix_raviart_1.h:68, nedelec_0.h:107,
raviant_thomas_0.h:79, bubble_2.h:72, bubble_4.h:63). -/
def gradP1 [Ring K] (k : Nat) : K := ([-1, -1, -1, 1, 0, 0, 0, 1, 0, 0, 0, 1] : List K).getD k 0

/-- The tables `I`, `J` of the edges (poly_2.h:34, poly_3.h:34, bubble_2.h:34). -/
def tI (e : Nat) : Nat := [0, 0, 0, 1, 1, 2].getD e 0
/-- See `tI`. (poly_2.h:34, poly_3.h:34, bubble_2.h:34) -/
def tJ (e : Nat) : Nat := [1, 2, 3, 2, 3, 3].getD e 0
/-- The table `IPF` (poly_3.h:33, raviant_thomas_0.h:34): `IPF[k + 4*i]`. -/
def ipf (k : Nat) : Nat := [0, 1, 2, 3, 1, 2, 3, 0, 0, 2, 3, 1, 0, 1, 3, 2].getD k 0
/-- The table `IPF3` (crouzeix_raviart_1.h:34). -/
def ipf3 (i : Nat) : Nat := [3, 0, 1, 2].getD i 0
/-- The table `IPR` (nedelec_0.h:33): `IPR[4*i + k]`. -/
def ipr (k : Nat) : Nat := [0, 1, 2, 3, 0, 2, 3, 1, 0, 3, 1, 2, 1, 2, 0, 3, 1, 3, 2, 0, 2, 3, 0, 1].getD k 0
/-- The table `lookup_nds` (poly_2.h:121, poly_3.h:140, nedelec_0.h:193, bubble_2.h:105). -/
def lookup (k : Nat) : Nat := [0, 1, 0, 2, 0, 3, 1, 2, 1, 3, 2, 3].getD k 0

section Scalar
variable [Field K]

/-! ### P0 -/

/-- poly_0.h:75-81 IDEN. -/
def p0Iden (m : Mem K) (U : Nat → K) : Nat → K := fill (1 * m.q * (1 * m.f)) 1 U
/-- poly_0.h:24-30 GRAD. -/
def p0Grad (m : Mem K) (U : Nat → K) : Nat → K := fill (3 * m.q * (1 * m.f)) 0 U
/-- poly_0.h:48-54 DUDX, DUDY, DUDZ. -/
def p0Dudx (_ : Nat) (m : Mem K) (U : Nat → K) : Nat → K := fill (1 * m.q * (1 * m.f)) 0 U

/-! ### P1 -/

/-- poly_1.h:25-39 IDEN. -/
def p1Iden (m : Mem K) (U : Nat → K) : Nat → K :=
  copyBlocks m.f (4 * m.q) (put (box2 4 m.q) (fun x => x.2 + 1 * m.q * x.1) (fun x => m.xyl (x.1 + 4 * x.2)) U)

/-- poly_1.h:62-76, 109-123, the table `s[12]` of the tetrahedron `r`. -/
def p1S (m : Mem K) (r : Nat) (k : Nat) : K :=
  let P := fun k => m.psi (9 * r + k)
  [-P (0 + 3 * 0) - P (1 + 3 * 0) - P (2 + 3 * 0), -P (0 + 3 * 1) - P (1 + 3 * 1) - P (2 + 3 * 1),
    -P (0 + 3 * 2) - P (1 + 3 * 2) - P (2 + 3 * 2), P (0 + 3 * 0), P (0 + 3 * 1), P (0 + 3 * 2),
    P (1 + 3 * 0), P (1 + 3 * 1), P (1 + 3 * 2), P (2 + 3 * 0), P (2 + 3 * 1), P (2 + 3 * 2)].getD k 0

/-- poly_1.h:57-83 DUDX (`c = 0`), DUDY (`1`), DUDZ (`2`). -/
def p1Dudx (c : Nat) (m : Mem K) (U : Nat → K) : Nat → K :=
  put (box3 m.f 4 m.q) (fun x => x.2.2 + m.q * (x.2.1 + 4 * x.1)) (fun x => p1S m x.1 (c + 3 * x.2.1)) U

/-- poly_1.h:104-131 GRAD. -/
def p1Grad (m : Mem K) (U : Nat → K) : Nat → K :=
  put (box4 m.f 4 m.q 3) (fun x => x.2.2.2 + 3 * (x.2.2.1 + m.q * (x.2.1 + 4 * x.1)))
    (fun x => p1S m x.1 (x.2.2.2 + 3 * x.2.1)) U

/-! ### Gradients through a table of reference gradients -/

/-- The second stage of GRAD (poly_2.h:89-97, poly_3.h:107-115, bubble_2.h:81-89, bubble_4.h:76-83 with `nfa = 1`):
`U[k + 3*(n + q*(i + nfa*r))] = sum_j PSI[j + 3*(k + 3*r)] * G[j + 3*(i + nfa*n)]`. -/
def pullback (m : Mem K) (nfa : Nat) (G : Nat → K) (U : Nat → K) : Nat → K :=
  put (box4 m.f nfa m.q 3) (fun x => x.2.2.2 + 3 * (x.2.2.1 + m.q * (x.2.1 + nfa * x.1)))
    (fun x => (List.range 3).foldl
      (fun s j => s + m.psi (j + 3 * (x.2.2.2 + 3 * x.1)) * G (j + 3 * (x.2.1 + nfa * x.2.2.1))) 0) U

/-! ### P2 -/

/-- poly_2.h:25-48 IDEN. -/
def p2Iden (m : Mem K) (U : Nat → K) : Nat → K :=
  let L := fun i n => m.xyl (i + 4 * n)
  let U := put (box2 4 m.q) (fun x => x.2 + 1 * m.q * x.1) (fun x => L x.1 x.2 * (2 * L x.1 x.2 - 1)) U
  let U := put (from2 4 10 m.q) (fun x => x.2 + 1 * m.q * x.1)
    (fun x => 4 * L (tI (x.1 - 4)) x.2 * L (tJ (x.1 - 4)) x.2) U
  copyCols m.f 10 (1 * m.q) U

/-- poly_2.h:77-88, the table `GRAD_P2` in the memory `extraR` (`E` before).  The two inner loops treat different columns,
they are folded one after another. -/
def p2Table (m : Mem K) (E : Nat → K) : Nat → K :=
  let L := fun i n => m.xyl (i + 4 * n)
  let E := put (box3 m.q 4 3) (fun x => x.2.2 + 3 * (x.2.1 + 10 * x.1))
    (fun x => gradP1 (x.2.2 + 3 * x.2.1) * (4 * L x.2.1 x.1 - 1)) E
  put (box3 m.q 6 3) (fun x => x.2.2 + 3 * (x.2.1 + 4 + 10 * x.1))
    (fun x => 4 * (gradP1 (x.2.2 + 3 * tJ x.2.1) * L (tI x.2.1) x.1 + gradP1 (x.2.2 + 3 * tI x.2.1) * L (tJ x.2.1) x.1)) E

/-- poly_2.h:66-100 GRAD. -/
def p2Grad (E : Nat → K) (m : Mem K) (U : Nat → K) : Nat → K := pullback m 10 (p2Table m E) U

/-! ### P3 -/

/-- poly_3.h:24-54 IDEN.  The two assignments 41 and 42 of one pass are the values 0 and 1 of the last index. -/
def p3Iden (m : Mem K) (U : Nat → K) : Nat → K :=
  let L := fun i n => m.xyl (i + 4 * n)
  let U := put (box2 4 m.q) (fun x => x.2 + 1 * m.q * x.1)
    (fun x => L x.1 x.2 * (3 * L x.1 x.2 - 1) * (3 * L x.1 x.2 - 2) / 2) U
  let U := put (from3 4 10 m.q 2) (fun x => x.2.1 + 1 * m.q * (4 + (x.1 - 4) * 2 + x.2.2))
    (fun x => let s1 := L (tI (x.1 - 4)) x.2.1
      let s2 := L (tJ (x.1 - 4)) x.2.1
      if x.2.2 = 0 then s1 * (3 * s1 - 1) * s2 * (9 / 2) else s1 * (3 * s2 - 1) * s2 * (9 / 2)) U
  let U := put (from2 16 20 m.q) (fun x => x.2 + 1 * m.q * x.1)
    (fun x => 27 * L (ipf (0 + 4 * (x.1 - 16))) x.2 * L (ipf (1 + 4 * (x.1 - 16))) x.2 * L (ipf (2 + 4 * (x.1 - 16))) x.2) U
  copyCols m.f 20 (1 * m.q) U

/-- poly_3.h:88-106, the table `GRAD_P3` (see `p2Table`; the assignments 97 and 98 are the values 0 and 1 of the last
index). -/
def p3Table (m : Mem K) (E : Nat → K) : Nat → K :=
  let L := fun i n => m.xyl (i + 4 * n)
  let E := put (box3 m.q 4 3) (fun x => x.2.2 + 3 * (x.2.1 + 20 * x.1))
    (fun x => gradP1 (x.2.2 + 3 * x.2.1) * ((27 / 2 * L x.2.1 x.1 - 9) * L x.2.1 x.1 + 1)) E
  let E := put (box4 m.q 6 3 2) (fun x => x.2.2.1 + 3 * (4 + x.2.1 * 2 + x.2.2.2 + 20 * x.1))
    (fun x => let d := x.2.2.1
      let s1 := L (tI x.2.1) x.1
      let s2 := L (tJ x.2.1) x.1
      if x.2.2.2 = 0 then
        (gradP1 (d + 3 * tI x.2.1) * (6 * s1 - 1) * s2 + gradP1 (d + 3 * tJ x.2.1) * (3 * s1 - 1) * s1) * (9 / 2)
      else (gradP1 (d + 3 * tJ x.2.1) * (6 * s2 - 1) * s1 + gradP1 (d + 3 * tI x.2.1) * (3 * s2 - 1) * s2) * (9 / 2)) E
  put (box3 m.q 4 3) (fun x => x.2.2 + 3 * (x.2.1 + 16 + 20 * x.1))
    (fun x => let d := x.2.2
      let s1 := L (ipf (4 * x.2.1)) x.1
      let s2 := L (ipf (1 + 4 * x.2.1)) x.1
      let s3 := L (ipf (2 + 4 * x.2.1)) x.1
      27 * (gradP1 (d + 3 * ipf (4 * x.2.1)) * s2 * s3 + s1 * gradP1 (d + 3 * ipf (1 + 4 * x.2.1)) * s3 +
        s1 * s2 * gradP1 (d + 3 * ipf (2 + 4 * x.2.1)))) E

/-- poly_3.h:72-118 GRAD. -/
def p3Grad (E : Nat → K) (m : Mem K) (U : Nat → K) : Nat → K := pullback m 20 (p3Table m E) U

/-! ### B2, B4 -/

/-- bubble_2.h:25-45 IDEN. -/
def b2Iden (m : Mem K) (U : Nat → K) : Nat → K :=
  let L := fun i n => m.xyl (i + 4 * n)
  copyCols m.f 6 (1 * m.q)
    (put (box2 6 m.q) (fun x => x.2 + 1 * m.q * x.1) (fun x => 4 * L (tI x.1) x.2 * L (tJ x.1) x.2) U)

/-- bubble_2.h:74-80, the table `GRAD_B2`. -/
def b2Table (m : Mem K) (E : Nat → K) : Nat → K :=
  let L := fun i n => m.xyl (i + 4 * n)
  put (box3 m.q 6 3) (fun x => x.2.2 + 3 * (x.2.1 + 6 * x.1))
    (fun x => 4 * (gradP1 (x.2.2 + 3 * tJ x.2.1) * L (tI x.2.1) x.1 + gradP1 (x.2.2 + 3 * tI x.2.1) * L (tJ x.2.1) x.1)) E

/-- bubble_2.h:63-92 GRAD. -/
def b2Grad (E : Nat → K) (m : Mem K) (U : Nat → K) : Nat → K := pullback m 6 (b2Table m E) U

/-- bubble_4.h:24-37 IDEN. -/
def b4Iden (m : Mem K) (U : Nat → K) : Nat → K :=
  let L := fun i n => m.xyl (i + 4 * n)
  copyBlocks m.f m.q (put (List.range m.q) id (fun n => 256 * L 0 n * L 1 n * L 2 n * L 3 n) U)

/-- bubble_4.h:66-75, the table `GRAD_B4`. -/
def b4Table (m : Mem K) (E : Nat → K) : Nat → K :=
  let L := fun i n => m.xyl (i + 4 * n)
  put (box2 m.q 3) (fun x => x.2 + 3 * x.1)
    (fun x => let n := x.1
      let d := x.2
      256 * (gradP1 (d + 3 * 0) * (L 1 n * L 2 n * L 3 n) + gradP1 (d + 3 * 1) * (L 0 n * L 2 n * L 3 n) +
        gradP1 (d + 3 * 2) * (L 0 n * L 1 n * L 3 n) + gradP1 (d + 3 * 3) * (L 0 n * L 1 n * L 2 n))) E

/-- bubble_4.h:55-85 GRAD. -/
def b4Grad (E : Nat → K) (m : Mem K) (U : Nat → K) : Nat → K := pullback m 1 (b4Table m E) U

/-! ### CR1 -/

/-- crouzeix_raviart_1.h:26-42 IDEN. -/
def cr1Iden (m : Mem K) (U : Nat → K) : Nat → K :=
  copyBlocks m.f (4 * m.q)
    (put (box2 4 m.q) (fun x => x.2 + 1 * m.q * x.1) (fun x => 1 - 3 * m.xyl (ipf3 x.1 + 4 * x.2)) U)

/-- crouzeix_raviart_1.h:59-85 GRAD: for every `(r, i)` the first point is computed and copied to the others. -/
def cr1Grad (m : Mem K) (U : Nat → K) : Nat → K :=
  (box2 m.f 4).foldl (fun U x =>
    let c := 3 * m.q * (x.2 + 4 * x.1)
    let U := put (List.range 3) (fun k => k + c)
      (fun k => -3 * (List.range 3).foldl (fun s j => s + m.psi (j + 3 * (k + 3 * x.1)) * gradP1 (j + 3 * ipf3 x.2)) 0) U
    cp (from2 1 m.q 3) (fun y => y.2 + 3 * y.1 + c) (fun y => y.2 + c) U) U

end Scalar

section Vector
variable [Field K]

/-- The gradients `V(j, i)` of the barycentric coordinates (nedelec_0.h:115-121, raviant_thomas_0.h:87-93, 148-154): the
derivative of coordinate `j` along axis `i`, on the tetrahedron `r`. -/
def gradL (m : Mem K) (r j i : Nat) : K :=
  (List.range 3).foldl (fun s k => s + gradP1 (k + 3 * j) * m.psi (9 * r + (k + 3 * i))) 0

/-- The node `a` of the tetrahedron `r`, relative to the node 0 (column of `XYP`). (fem_memory.h:200) -/
def node (m : Mem K) (r a : Nat) : Nat → K := fun k => m.xyp (12 * r + (k + 3 * a))

/-! ### ND0 -/

/-- nedelec_0.h:42-51, 125-134: the length of the edge divided by the determinant. -/
def nd0Sqr (sqrt : K → K) (m : Mem K) (r i : Nat) : K :=
  let a := node m r (ipr (4 * i))
  let b := node m r (ipr (4 * i + 1))
  sqrt ((List.range 3).foldl (fun s k => s + (a k - b k) * (a k - b k)) 0) / m.det r

/-- nedelec_0.h:49, 132 `xyn`. -/
def nd0N (m : Mem K) (r i : Nat) : Nat → K :=
  Geometry.cross3 (node m r (ipr (4 * i + 2))) (node m r (ipr (4 * i + 3))) (node m r (ipr (4 * i)))
/-- nedelec_0.h:50, 133 `xym`. -/
def nd0M (m : Mem K) (r i : Nat) : Nat → K :=
  Geometry.cross3 (node m r (ipr (4 * i + 2))) (node m r (ipr (4 * i + 3))) (node m r (ipr (4 * i + 1)))

/-- nedelec_0.h:25-58 IDEN. -/
def nd0Iden (sqrt : K → K) (m : Mem K) (U : Nat → K) : Nat → K :=
  put (box4 m.f 6 m.q 3) (fun x => 3 * m.q * 6 * x.1 + (x.2.2.2 + 3 * x.2.2.1 + 3 * m.q * x.2.1))
    (fun x => let r := x.1
      let i := x.2.1
      let n := x.2.2.1
      let k := x.2.2.2
      nd0Sqr sqrt m r i * (nd0N m r i k * m.xyl (ipr (4 * i) + 4 * n) + nd0M m r i k * m.xyl (ipr (4 * i + 1) + 4 * n))) U

/-- nedelec_0.h:74-80 DIV. -/
def nd0Div (m : Mem K) (U : Nat → K) : Nat → K := fill (1 * m.q * (6 * m.f)) 0 U

/-- nedelec_0.h:136-138: component `k` of the curl of the function `i` on the tetrahedron `r`. -/
def nd0CurlVal (sqrt : K → K) (m : Mem K) (r i k : Nat) : K :=
  let V0 := gradL m r (ipr (4 * i))
  let V1 := gradL m r (ipr (4 * i + 1))
  nd0Sqr sqrt m r i * ((V0 ((k + 1) % 3) * nd0N m r i ((k + 2) % 3) + V1 ((k + 1) % 3) * nd0M m r i ((k + 2) % 3)) -
    (V0 ((k + 2) % 3) * nd0N m r i ((k + 1) % 3) + V1 ((k + 2) % 3) * nd0M m r i ((k + 1) % 3)))

/-- nedelec_0.h:96-146 CURL, writing from the position `off` on: for every `(r, i)` the first point is computed and copied
to the others. -/
def nd0Curl (sqrt : K → K) (off : Nat) (m : Mem K) (U : Nat → K) : Nat → K :=
  (box2 m.f 6).foldl (fun U x =>
    let c := off + 3 * m.q * 6 * x.1 + 3 * m.q * x.2
    let U := put (List.range 3) (fun k => k + 3 * 0 + c) (fun k => nd0CurlVal sqrt m x.1 x.2 k) U
    cp (from2 1 m.q 3) (fun y => y.2 + 3 * y.1 + c) (fun y => y.2 + 3 * 0 + c) U) U

/-- nedelec_0.h:174-178, one pass: the three numbers from `s` on are read and nine numbers from `d` on written. -/
def nd0Skew (s d : Nat) (U : Nat → K) : Nat → K :=
  let a0 := U (s + 0) / 2
  let a1 := U (s + 1) / 2
  let a2 := U (s + 2) / 2
  [(0, 0), (3, a2), (6, -a1), (1, -a2), (4, 0), (7, a0), (2, a1), (5, -a0), (8, 0)].foldl
    (fun U (y : Nat × K) => wr U (d + y.1) y.2) U

/-- nedelec_0.h:161-181 GRAD: the curl is computed into the tail of the result and expanded in place. -/
def nd0Grad (sqrt : K → K) (m : Mem K) (U : Nat → K) : Nat → K :=
  let wsz := 9 * m.q * (6 * m.f)
  let csz := m.q * 6 * m.f * 3
  let U := nd0Curl sqrt (wsz - csz) m U
  (box3 m.f 6 m.q).foldl (fun U x =>
    nd0Skew (wsz - csz + x.2.2 * 3 + m.q * 3 * (x.2.1 + 6 * x.1)) (9 * (x.2.2 + m.q * (x.2.1 + x.1 * 6))) U) U

/-! ### RT0 -/

/-- The node `ip[a]` of the face `i` (raviant_thomas_0.h:40-41). -/
def rtNode (m : Mem K) (r i a : Nat) : Nat → K := node m r (ipf (4 * i + a))

variable [LinearOrder K]

/-- raviant_thomas_0.h:36, 42-43 and 94-100: area of the face divided by half the absolute value of the determinant. -/
def rt0Sqr (sqrt : K → K) (m : Mem K) (r i : Nat) : K :=
  Geometry.triArea sqrt (rtNode m r i 0) (rtNode m r i 1) (rtNode m r i 2) / (|m.det r| / 2)

/-- raviant_thomas_0.h:24-51 IDEN. -/
def rt0Iden (sqrt : K → K) (m : Mem K) (U : Nat → K) : Nat → K :=
  put (box4 m.f 4 m.q 3) (fun x => x.2.2.2 + 3 * x.2.2.1 + 3 * m.q * (x.2.1 + 4 * x.1))
    (fun x => let r := x.1
      let i := x.2.1
      let n := x.2.2.1
      let j := x.2.2.2
      let ix := rtNode m r i
      rt0Sqr sqrt m r i * (m.xyl (ipf (4 * i) + 4 * n) * (ix 0 j - ix 3 j) +
        m.xyl (ipf (4 * i + 1) + 4 * n) * (ix 1 j - ix 3 j) + m.xyl (ipf (4 * i + 2) + 4 * n) * (ix 2 j - ix 3 j))) U

/-- raviant_thomas_0.h:103-104: the derivative of component `j` along axis `k`. -/
def rt0GradVal (sqrt : K → K) (m : Mem K) (r i j k : Nat) : K :=
  let ix := rtNode m r i
  rt0Sqr sqrt m r i * (gradL m r (ipf (4 * i)) k * (ix 0 j - ix 3 j) + gradL m r (ipf (4 * i + 1)) k * (ix 1 j - ix 3 j) +
    gradL m r (ipf (4 * i + 2)) k * (ix 2 j - ix 3 j))

/-- raviant_thomas_0.h:68-113 GRAD. -/
def rt0Grad (sqrt : K → K) (m : Mem K) (U : Nat → K) : Nat → K :=
  let U := fill (9 * m.q * (4 * m.f)) 0 U
  (List.range m.f).foldl (fun U r =>
    let U := put (box3 4 3 3) (fun x => x.2.2 + 3 * x.2.1 + 9 * m.q * (x.1 + 4 * r))
      (fun x => rt0GradVal sqrt m r x.1 x.2.1 x.2.2) U
    cp (from3 1 m.q 4 9) (fun y => y.2.2 + 9 * y.1 + 9 * m.q * (y.2.1 + 4 * r))
      (fun y => y.2.2 + 9 * m.q * (y.2.1 + 4 * r)) U) U

/-- raviant_thomas_0.h:163-166: the divergence of the function `i` on the tetrahedron `r`. -/
def rt0DivVal (sqrt : K → K) (m : Mem K) (r i : Nat) : K :=
  let ix := rtNode m r i
  rt0Sqr sqrt m r i * (List.range 3).foldl (fun s j => s + (gradL m r (ipf (4 * i)) j * (ix 0 j - ix 3 j) +
    gradL m r (ipf (4 * i + 1)) j * (ix 1 j - ix 3 j) + gradL m r (ipf (4 * i + 2)) j * (ix 2 j - ix 3 j))) 0

/-- raviant_thomas_0.h:130-173 DIV. -/
def rt0Div (sqrt : K → K) (m : Mem K) (U : Nat → K) : Nat → K :=
  (box2 m.f 4).foldl (fun U x =>
    let c := 1 * m.q * (x.2 + 4 * x.1)
    let U := put [0] (fun n => n + c) (fun _ => rt0DivVal sqrt m x.1 x.2) U
    cp (from' 1 m.q) (fun n => n + c) (fun _ => 0 + c) U) U

/-- raviant_thomas_0.h:191-197 CURL. -/
def rt0Curl (m : Mem K) (U : Nat → K) : Nat → K := fill (3 * m.q * (4 * m.f)) 0 U

end Vector

/-! ### Degrees of freedom

`Dof::interpolate` of one degree of freedom: `T a` are the coordinates of node `a`, `f X` the numbers written to
`fstorage` by the function at the point `X` (`fusion` functions at once), the result is the number written to
`udofs[r][idof]`.  The error code of the function is ignored by the code and not modelled. -/
section Dof
variable [Field K]

/-- One point of a quadrature rule (quadrature_formulas.h): barycentric coordinates and weight.
(quadrature_formulas.h:28, 88, 150) -/
structure QPoint (K : Type) where
  p : Nat → K
  w : K

/-- The accumulation `udof = 0; for i: udof += q.w * g(q)` over the points of a rule.
(poly_0.h:96-104, crouzeix_raviart_1.h:101-108, nedelec_0.h:209-214) -/
def quad (rule : List (QPoint K)) (g : (Nat → K) → K) : K := rule.foldl (fun s q => s + q.w * g q.p) 0

/-- poly_0.h:90-106. -/
def p0Dof (rule : List (QPoint K)) (T : Nat → Nat → K) (f : (Nat → K) → Nat → K) (r : Nat) : K :=
  quad rule fun p => f (fun k => p 0 * T 0 k + p 1 * T 1 k + p 2 * T 2 k + p 3 * T 3 k) r

/-- poly_1.h:140-149. -/
def p1Dof (T : Nat → Nat → K) (f : (Nat → K) → Nat → K) (i r : Nat) : K := f (T i) r

/-- The middle of an edge, poly_2.h:122-126, bubble_2.h:106-109. -/
def edgeMid (T : Nat → Nat → K) (e k : Nat) : K := (T (lookup (2 * e)) k + T (lookup (2 * e + 1)) k) / 2

/-- poly_2.h:109-132. -/
def p2Dof (T : Nat → Nat → K) (f : (Nat → K) → Nat → K) (i r : Nat) : K :=
  if i < 4 then f (T i) r else f (edgeMid T (i - 4)) r

/-- poly_3.h:127-161. -/
def p3Dof (T : Nat → Nat → K) (f : (Nat → K) → Nat → K) (i r : Nat) : K :=
  if i < 4 then f (T i) r
  else if i < 16 then
    let e := (i - 4) / 2
    let b := (i - 4) % 2
    let l := wr (wr (fun _ => 0) ((b + 0) % 2) (2 / 3 : K)) ((b + 1) % 2) (1 / 3)
    f (fun k => T (lookup (2 * e)) k * l 0 + T (lookup (2 * e + 1)) k * l 1) r
  else
    let j := i - 16
    f (fun k => (T ((j + 0) % 4) k + T ((j + 1) % 4) k + T ((j + 2) % 4) k) / 3) r

/-- bubble_2.h:101-113. -/
def b2Dof (T : Nat → Nat → K) (f : (Nat → K) → Nat → K) (i r : Nat) : K := f (edgeMid T i) r

/-- bubble_4.h:94-107. -/
def b4Dof (T : Nat → Nat → K) (f : (Nat → K) → Nat → K) (r : Nat) : K :=
  f (fun d => ((List.range 4).foldl (fun s i => s + T i d) 0) / 4) r

/-- A point of the face `i` (crouzeix_raviart_1.h:104-105, raviant_thomas_0.h:217-218). -/
def facePoint (T : Nat → Nat → K) (i : Nat) (p : Nat → K) (k : Nat) : K :=
  p 0 * T ((i + 0) % 4) k + p 1 * T ((i + 1) % 4) k + p 2 * T ((i + 2) % 4) k

/-- crouzeix_raviart_1.h:94-110. -/
def cr1Dof (rule : List (QPoint K)) (T : Nat → Nat → K) (f : (Nat → K) → Nat → K) (i r : Nat) : K :=
  quad rule fun p => f (facePoint T i p) r

/-- nedelec_0.h:194-204: the unit tangent of an edge. -/
def tangent (sqrt : K → K) (T : Nat → Nat → K) (e k : Nat) : K :=
  let t := fun k => T (lookup (2 * e + 1)) k - T (lookup (2 * e)) k
  t k / sqrt ((List.range 3).foldl (fun s k => s + t k * t k) 0)

/-- nedelec_0.h:190-216. -/
def nd0Dof (sqrt : K → K) (rule : List (QPoint K)) (T : Nat → Nat → K) (f : (Nat → K) → Nat → K) (i r : Nat) : K :=
  let t := tangent sqrt T i
  quad rule fun p =>
    let F := f fun k => T (lookup (2 * i)) k * p 0 + T (lookup (2 * i + 1)) k * p 1
    F (3 * r + 0) * t 0 + F (3 * r + 1) * t 1 + F (3 * r + 2) * t 2

/-- raviant_thomas_0.h:206-223. -/
def rt0Dof [LinearOrder K] (sqrt : K → K) (rule : List (QPoint K)) (T : Nat → Nat → K) (f : (Nat → K) → Nat → K)
    (i r : Nat) : K :=
  let nrm := (Geometry.faceNormal sqrt (T i) (T ((i + 1) % 4)) (T ((i + 2) % 4)) (T ((i + 3) % 4))).2
  quad rule fun p =>
    let F := f (facePoint T i p)
    F (3 * r + 0) * nrm 0 + F (3 * r + 1) * nrm 1 + F (3 * r + 2) * nrm 2

end Dof

/-! ### Symbolic evaluation of the basis

`Basis::eval`: an `Expr` is a matrix of values (expr_interface.h), here with exact shapes; an operation on wrong shapes
throws, which is `none`. -/
section Eval
variable [Field K]

/-- expr_interface.h: a matrix expression, column by column. (expr_interface.h:108) -/
structure Expr (K : Type) where
  rows : Nat
  cols : Nat
  val : Nat → Nat → K

/-- poly_0.h:120-123. -/
def p0Eval (_ : Nat → K) : List K := [1]
/-- poly_1.h:163-167; `l i` is `lmb(i, 0)`. -/
def p1Eval (l : Nat → K) : List K := (List.range 4).map l
/-- poly_2.h:146-157. -/
def p2Eval (l : Nat → K) : List K :=
  ((List.range 4).map fun i => (2 * l i - 1) * l i) ++
    ((List.range 4).flatMap fun j => (from' (j + 1) 4).map fun k => 4 * l j * l k)
/-- poly_3.h:175-194. -/
def p3Eval (l : Nat → K) : List K :=
  ((List.range 4).map fun i => 1 / 2 * l i * (3 * l i - 1) * (3 * l i - 2)) ++
    ((List.range 4).flatMap fun j => (from' (j + 1) 4).flatMap fun k => (List.range 2).map fun b =>
      9 / 2 * l j * l k * (3 * l (if b = 0 then j else k) - 1)) ++
    ((List.range 4).flatMap fun j => (from' (j + 1) 4).flatMap fun k => (from' (k + 1) 4).map fun i =>
      27 * l j * l k * l i)
/-- bubble_2.h:127-134. -/
def b2Eval (l : Nat → K) : List K :=
  (List.range 4).flatMap fun j => (from' (j + 1) 4).map fun k => 4 * l j * l k
/-- bubble_4.h:121-124. -/
def b4Eval (l : Nat → K) : List K := [256 * l 0 * l 1 * l 2 * l 3]
/-- crouzeix_raviart_1.h:124-128. -/
def cr1Eval (l : Nat → K) : List K := (List.range 4).map fun i => 1 - 3 * l ((i + 3) % 4)

/-- expr_interface.h:177-180, numeric_expr.inl:129-137 `col(j)`: a matrix with one column. -/
def Expr.col (e : Expr K) (j : Nat) : Option (Expr K) := if j < e.cols then some ⟨e.rows, 1, fun i _ => e.val i j⟩ else none

/-- `vertcat` of three expressions (expr_interface.inl:160): the numbers of columns must agree, the rows are stacked. -/
def vertcat3 (a b c : Expr K) : Option (Expr K) :=
  if a.cols = b.cols ∧ a.cols = c.cols then
    some ⟨a.rows + b.rows + c.rows, a.cols, fun i j =>
      if i < a.rows then a.val i j else if i < a.rows + b.rows then b.val (i - a.rows) j
      else c.val (i - a.rows - b.rows) j⟩
  else none

/-- expr_interface.inl:162-166 `det3x3`: the determinant of a 3x3 expression, an exception for other shapes. -/
def Expr.det3x3 (e : Expr K) : Option K :=
  if e.rows = 3 ∧ e.cols = 3 then
    some (Geometry.cross (e.val 1) (e.val 2) 0 * e.val 0 0 + Geometry.cross (e.val 1) (e.val 2) 1 * e.val 0 1 +
      Geometry.cross (e.val 1) (e.val 2) 2 * e.val 0 2)
  else none

/-- The determinant formed by raviant_thomas_0.h:239 and nedelec_0.h:232 from the gradients. -/
def gradDet (g : Expr K) : Option K := do
  let a ← g.col 0
  let b ← g.col 1
  let c ← g.col 2
  let e ← vertcat3 a b c
  e.det3x3

/-- raviant_thomas_0.h:241-245: function `i` from the value `V` of line 239, the coordinates and their gradients
(`g j` is the vector `grad_lmb.col(j)`). -/
def rt0EvalWith [LinearOrder K] (sqrt : K → K) (V : K) (l : Nat → K) (g : Nat → Nat → K) (i k : Nat) : K :=
  let G := fun a => g ((i + a) % 4)
  let N := G 3
  sqrt (N 0 * N 0 + N 1 * N 1 + N 2 * N 2) / V * (l ((i + 0) % 4) * Geometry.cross (G 1) (G 2) k +
    l ((i + 1) % 4) * Geometry.cross (G 2) (G 0) k + l ((i + 2) % 4) * Geometry.cross (G 0) (G 1) k)

/-- raviant_thomas_0.h:239-245: the same from the determinant of the gradients. -/
def rt0EvalDet [LinearOrder K] (sqrt : K → K) (det : K) (l : Nat → K) (g : Nat → Nat → K) (i k : Nat) : K :=
  rt0EvalWith sqrt |det| l g i k

/-- raviant_thomas_0.h:237-246, the four functions (component `k` of function `i`) or an exception. -/
def rt0Eval [LinearOrder K] (sqrt : K → K) (l : Nat → K) (g : Expr K) : Option (Nat → Nat → K) := do
  let V ← gradDet g
  some fun i k => rt0EvalDet sqrt V l (fun j a => g.val a j) i k

/-- `IPR[k]` of nedelec_0.h:233 read with bounds. -/
def iprAt (k : Nat) : Option Nat := [0, 1, 2, 3, 0, 2, 3, 1, 0, 3, 1, 2, 1, 2, 0, 3, 1, 3, 2, 0, 2, 3, 0, 1][k]?

/-- nedelec_0.h:235-240: function `i` from the value `V` of line 232; `none` for a read outside the table `IPR`. -/
def nd0EvalWith (sqrt : K → K) (V : K) (l : Nat → K) (g : Nat → Nat → K) (i k : Nat) : Option K := do
  let a ← iprAt (6 * i + 0)
  let b ← iprAt (6 * i + 1)
  let c ← iprAt (6 * i + 2)
  let d ← iprAt (6 * i + 3)
  let e := fun k => Geometry.cross (g c) (g d) k / V
  some (6 * sqrt (e 0 * e 0 + e 1 * e 1 + e 2 * e 2) * (l a * g b k - l b * g a k))

/-- nedelec_0.h:230-242, or an exception. -/
def nd0Eval (sqrt : K → K) (l : Nat → K) (g : Expr K) : Option (Nat → Nat → Option K) := do
  let V ← gradDet g
  some fun i k => nd0EvalWith sqrt V l (fun j a => g.val a j) i k

end Eval

end Verif.Spaces
