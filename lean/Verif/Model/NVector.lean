import Mathlib.Algebra.Field.Basic
import Mathlib.Algebra.Order.Field.Basic
import Mathlib.Algebra.BigOperators.Group.List.Basic

/-!
Model of `kinsol_interface/SUNNonlinearSolver.cpp`: the vector operations given to KINSOL, the product of a matrix and a vector, the
codes returned by the linear solver and by the assembling functions.

Numbers are elements of an ordered field (no rounding, no infinities, `x / 0 = 0`); the square root at the end of a norm is left out,
so norms are squares of those of the code. The vectors of one process are numbered, the number stands for the pointer `N_Vector`;
indices count from the first index of the process. `MPI_Allreduce` gives every process the sum, the minimum or the maximum of the
values of all processes.
-/
namespace Verif.NVector

/-- the vectors of one process: number of the vector, index, value (`N_VectorContent_Inmost::data`,
`SUNNonlinearSolver.h:17-21`) -/
abbrev Store (K : Type) := Nat → Nat → K

/-- assignment `*it = a` to the entry `i` of the vector `v` (`SUNNonlinearSolver.cpp:276`) -/
def put {K : Type} (s : Store K) (v i : Nat) (a : K) : Store K :=
  fun w j => if w = v ∧ j = i then a else s w j

/-- a loop over the first `n` entries (`SUNNonlinearSolver.cpp:274-275`); `n` is the least of the sizes of the vectors met -/
def loop {K : Type} (n : Nat) (body : Nat → Store K → Store K) (s : Store K) : Store K :=
  (List.range n).foldl (fun s i => body i s) s

section Field
variable {K : Type} [Field K] [LinearOrder K]

/-- `N_VLinearSum_Inmost` (`SUNNonlinearSolver.cpp:272-277`) -/
def linearSum (sz : Nat → Nat) (a : K) (x : Nat) (b : K) (y z : Nat) (s : Store K) : Store K :=
  loop (min (sz x) (min (sz y) (sz z))) (fun i s => put s z i (a * s x i + b * s y i)) s

/-- `N_VConst_Inmost` (`SUNNonlinearSolver.cpp:279-283`) -/
def const (sz : Nat → Nat) (c : K) (z : Nat) (s : Store K) : Store K :=
  loop (sz z) (fun i s => put s z i c) s

/-- `N_VProd_Inmost` (`SUNNonlinearSolver.cpp:285-290`) -/
def prod (sz : Nat → Nat) (x y z : Nat) (s : Store K) : Store K :=
  loop (min (sz x) (min (sz y) (sz z))) (fun i s => put s z i (s x i * s y i)) s

/-- `N_VDiv_Inmost` (`SUNNonlinearSolver.cpp:292-297`) -/
def div (sz : Nat → Nat) (x y z : Nat) (s : Store K) : Store K :=
  loop (min (sz x) (min (sz y) (sz z))) (fun i s => put s z i (s x i / s y i)) s

/-- `N_VScale_Inmost` (`SUNNonlinearSolver.cpp:299-311`) with its three branches -/
def scale (sz : Nat → Nat) (c : K) (x z : Nat) (s : Store K) : Store K :=
  if z = x then loop (sz x) (fun i s => put s x i (s x i * c)) s
  else if c = 1 then loop (min (sz x) (sz z)) (fun i s => put s z i (s x i)) s
  else loop (min (sz x) (sz z)) (fun i s => put s z i (c * s x i)) s

/-- `N_VAbs_Inmost` (`SUNNonlinearSolver.cpp:313-317`) -/
def abs (sz : Nat → Nat) (x z : Nat) (s : Store K) : Store K :=
  loop (min (sz x) (sz z)) (fun i s => put s z i |s x i|) s

/-- `N_VInv_Inmost` (`SUNNonlinearSolver.cpp:319-323`) -/
def inv (sz : Nat → Nat) (x z : Nat) (s : Store K) : Store K :=
  loop (min (sz x) (sz z)) (fun i s => put s z i (1 / s x i)) s

/-- `N_VAddConst_Inmost` (`SUNNonlinearSolver.cpp:325-329`) -/
def addConst (sz : Nat → Nat) (x : Nat) (b : K) (z : Nat) (s : Store K) : Store K :=
  loop (min (sz x) (sz z)) (fun i s => put s z i (s x i + b)) s

/-- `N_VCompare_Inmost` (`SUNNonlinearSolver.cpp:463-467`) -/
def compare (sz : Nat → Nat) (c : K) (x z : Nat) (s : Store K) : Store K :=
  loop (min (sz x) (sz z)) (fun i s => put s z i (if |s x i| ≥ c then 1 else 0)) s

/-- `N_VInvTestLocal_Inmost` (`SUNNonlinearSolver.cpp:469-476`): the vectors and `lval` -/
def invTestLocal (sz : Nat → Nat) (x z : Nat) (s : Store K) : Store K × Bool :=
  (List.range (min (sz x) (sz z))).foldl
    (fun p i => if p.1 x i = 0 then (p.1, false) else (put p.1 z i (1 / p.1 x i), p.2)) (s, true)

/-- the test in `N_VConstrMaskLocal_Inmost` (`SUNNonlinearSolver.cpp:498-506`); `abs` is taken as the absolute value of a real number -/
def violated (c x : K) : Bool :=
  if c = 0 then false
  else decide ((|c| > 3 / 2 ∧ x * c ≤ 0) ∨ (|c| > 1 / 2 ∧ x * c < 0))

/-- `N_VConstrMaskLocal_Inmost` (`SUNNonlinearSolver.cpp:492-512`): the vectors and `temp` -/
def constrMaskLocal (sz : Nat → Nat) (c x m : Nat) (s : Store K) : Store K × Bool :=
  (List.range (min (sz x) (min (sz c) (sz m)))).foldl
    (fun p i =>
      let s0 := put p.1 m i 0
      if violated (s0 c i) (s0 x i) then (put s0 m i 1, true) else (s0, p.2)) (s, false)

/-- one pass `z += c X` of `N_VLinearCombination_Inmost` (`SUNNonlinearSolver.cpp:570-575`) over the interval of `X[0]` -/
def addTo (n : Nat) (c : K) (x z : Nat) (s : Store K) : Store K :=
  loop n (fun i s => put s z i (s z i + c * s x i)) s

/-- `N_VLinearCombination_Inmost` (`SUNNonlinearSolver.cpp:552-577`); `none` for the code `-1` -/
def linearCombination (sz : Nat → Nat) (cx : List (K × Nat)) (z : Nat) (s : Store K) : Option (Store K) :=
  match cx with
  | [] => none
  | [(c, x)] => some (scale sz c x z s)
  | [(a, x), (b, y)] => some (linearSum sz a x b y z s)
  | (c, x) :: rest =>
    let s1 := if z = x then loop (sz x) (fun i s => put s x i (s x i * c)) s
      else loop (min (sz x) (sz z)) (fun i s => put s z i (c * s x i)) s
    some (rest.foldl (fun s p => addTo (sz x) p.1 p.2 z s) s1)

/-- `N_VInvTest_Inmost` (`SUNNonlinearSolver.cpp:478-490`) on all processes: the same loop, then the minimum of `lval`; a process has
its sizes and its vectors -/
def invTest (x z : Nat) (ps : List ((Nat → Nat) × Store K)) : List (Store K) × Bool :=
  (ps.map fun p => (invTestLocal p.1 x z p.2).1, ps.all fun p => (invTestLocal p.1 x z p.2).2)

/-- `N_VConstrMask_Inmost` (`SUNNonlinearSolver.cpp:513-523`) on all processes: the maximum of `temp`; true if there is no violation -/
def constrMask (c x m : Nat) (ps : List ((Nat → Nat) × Store K)) : List (Store K) × Bool :=
  (ps.map fun p => (constrMaskLocal p.1 c x m p.2).1, !(ps.any fun p => (constrMaskLocal p.1 c x m p.2).2))

/-! ### values over all processes: a vector is the list of the parts of the processes -/

/-- `N_VDotProdLocal_Inmost` (`SUNNonlinearSolver.cpp:331-337`) -/
def dotLocal (x y : List K) : K := (x.zip y).foldl (fun l p => l + p.1 * p.2) 0

/-- `N_VDotProd_Inmost` (`SUNNonlinearSolver.cpp:339-347`) -/
def dot (x y : List (List K)) : K := ((x.zip y).map fun p => dotLocal p.1 p.2).sum

/-- `N_VDotProdMulti_Inmost` (`SUNNonlinearSolver.cpp:578-606`); `none` for the code `-1` -/
def dotMulti (x : List (List K)) (ys : List (List (List K))) : Option (List K) :=
  match ys with
  | [] => none
  | [y] => some [dot x y]
  | ys => some (ys.map fun y => ((x.zip y).map fun p => dotLocal p.1 p.2).sum)

/-- `N_VMaxNormLocal_Inmost` (`SUNNonlinearSolver.cpp:349-355`) -/
def maxNormLocal (x : List K) : K := x.foldl (fun l a => max |a| l) 0

/-- `N_VMaxNorm_Inmost` (`SUNNonlinearSolver.cpp:357-365`); the maximum over the processes begins with 0, the least local value -/
def maxNorm (x : List (List K)) : K := (x.map maxNormLocal).foldl max 0

/-- `N_VWSqrSumLocal_Inmost` (`SUNNonlinearSolver.cpp:367-375`), also the loop of `N_VWL2Norm_Inmost` (430-436) -/
def wsqrLocal (x w : List K) : K :=
  (x.zip w).foldl (fun l p => let q := p.1 * p.2; l + q * q) 0

/-- `N_VWL2Norm_Inmost` (`SUNNonlinearSolver.cpp:430-444`) without the square root -/
def wl2Sq (x w : List (List K)) : K := ((x.zip w).map fun p => wsqrLocal p.1 p.2).sum

/-- `N_VGetLength_Inmost` (`SUNNonlinearSolver.cpp:146-148`): `Size()` of the part of the process `p` -/
def getLength (x : List (List K)) (p : Nat) : Nat := (x.getD p []).length

/-- `N_VWrmsNorm_Inmost` (`SUNNonlinearSolver.cpp:377-386`) on the process `p`, without the square root: the sum of all processes is
divided by `xv->Size()` -/
def wrmsSq (x w : List (List K)) (p : Nat) : K := wl2Sq x w / (getLength x p : K)

/-- `N_VMinLocal_Inmost` (`SUNNonlinearSolver.cpp:411-418`) -/
def minLocal (big : K) (x : List K) : K := x.foldl (fun l a => min a l) big

/-- `N_VMin_Inmost` (`SUNNonlinearSolver.cpp:420-428`) -/
def minAll (big : K) (x : List (List K)) : K := (x.map (minLocal big)).foldl min big

/-- `N_VL1NormLocal_Inmost` (`SUNNonlinearSolver.cpp:446-451`) -/
def l1Local (x : List K) : K := x.foldl (fun l a => l + |a|) 0

/-- `N_VL1Norm_Inmost` (`SUNNonlinearSolver.cpp:453-461`) -/
def l1 (x : List (List K)) : K := (x.map l1Local).sum

/-- `N_VMinQuotientLocal_Inmost` (`SUNNonlinearSolver.cpp:525-534`) -/
def minQuotLocal (big : K) (x y : List K) : K :=
  (x.zip y).foldl (fun l p => if p.2 = 0 then l else min l (p.1 / p.2)) big

/-- `N_VMinQuotient_Inmost` (`SUNNonlinearSolver.cpp:536-544`) -/
def minQuot (big : K) (x y : List (List K)) : K :=
  ((x.zip y).map fun p => minQuotLocal big p.1 p.2).foldl min big

/-! ### matrix and linear solver -/

/-- `m.MatVec(alpha, x, beta, y)` of INMOST on one process, used at `SUNNonlinearSolver.cpp:789`: `y = alpha A x + beta y`, rows in
order, with the matrix given by its entries -/
def matVec (n : Nat) (A : Nat → Nat → K) (al : K) (x : Nat) (be : K) (y : Nat) (s : Store K) : Store K :=
  loop n (fun i s => put s y i (al * ((List.range n).map fun j => A i j * s x j).sum + be * s y i)) s

/-- `SUNMatMatvec_Inmost` (`SUNNonlinearSolver.cpp:781-796`) on one process. The declaration at 783
`INMOST::Sparse::Vector& xv = ..., yv = ...;` makes `xv` a reference and `yv` a new vector, here `tmp`, with the contents of `y` -/
def matMatvec (n : Nat) (A : Nat → Nat → K) (x y tmp : Nat) (s : Store K) : Store K :=
  let s1 : Store K := fun w => if w = tmp then s y else s w
  matVec n A 1 x 0 tmp s1

end Field

/-- codes of `SUNLinearSolver` used by the code (`SUNNonlinearSolver.cpp:929-944`) -/
inductive LsCode
  | success | resReduced | convFail | packageFailUnrec | memFail
  deriving DecidableEq

/-- the code returned by `SUNLinSolSolve_Inmost` (`SUNNonlinearSolver.cpp:911-947`): `flag` is the answer of the solver of INMOST,
`init` the norm of the right-hand side, `resid` the residual; printing left out -/
def solveCode {K : Type} [LinearOrder K] (flag : Bool) (init resid tol : K) : LsCode :=
  if !flag then
    let reduce := decide (init ≥ resid)
    let achieve := decide (resid ≤ tol)
    if reduce && achieve then .packageFailUnrec
    else if reduce && !achieve then .resReduced
    else if !reduce && achieve then .packageFailUnrec
    else if !reduce && !achieve then .convFail
    else .memFail
  else if resid ≤ tol then .success
  else if init ≥ resid then .convFail
  else .resReduced

/-- `SUNNonlinearSolver::assmRHS_interface` (`SUNNonlinearSolver.cpp:1280-1293`) and the two branches of `assmMAT_interface`
(1295-1323): the minimum of the codes of the user function on all processes (`stat0` on the first, `stats` on the others), then 1 for
a negative code and `KIN_SUCCESS = 0` otherwise; timers left out -/
def assmCode (stat0 : Int) (stats : List Int) : Int :=
  if stats.foldl min stat0 < 0 then 1 else 0

end Verif.NVector
