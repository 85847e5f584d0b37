import Mathlib.Algebra.Ring.Defs
import Verif.Model.Spaces

/-!
Model of the integration of functions over a mesh, `integrate_vector_func` in two versions and `integrate_scalar_func`
(`/repo/anifem++/utils/utils.inl:44-73`, `/repo/anifem++/utils/utils.cpp:163-232`).  The scalars are a ring: no rounding.
-/
namespace Verif.MeshInt

open Verif.Spaces (QPoint)

variable {K : Type} [CommRing K]

/-- a cell as the loops see it: the coordinates of its four nodes, its volume and whether it is a ghost (utils.inl:49-55, utils.cpp:187-197) -/
structure Cell (K : Type) where
  node : Nat → Nat → K
  vol : K
  ghost : Bool

/-- utils.inl:57-60, utils.cpp:202-208: coordinate `k` of the point with the barycentric coordinates `p`, summed from zero -/
def pointOf (X : Nat → Nat → K) (p : Nat → K) (k : Nat) : K := (List.range 4).foldl (fun s i => s + p i * X i k) 0

/-- utils.inl:44-68 the template `integrate_vector_func` before `Integrate`: component `l` of the result; `cells` are the cells of `BeginCell` -/
def integrateT (R : List (QPoint K)) (cells : List (Cell K)) (f : Cell K → (Nat → K) → Nat → K) (l : Nat) : K :=
  cells.foldl (fun r c => if c.ghost then r else R.foldl (fun r q => r + q.w * c.vol * f c (pointOf c.node q.p) l) r) 0

/-- the function of the second version gets the barycentric coordinates `XYL(i, n)`, the points `X(k, n)` and sets `F(d, n)` (utils.cpp:200-210); the
values it sets are its result here, its memory is not modelled -/
abbrev Func (K : Type) := Cell K → (Nat → Nat → K) → (Nat → Nat → K) → Nat → Nat → K

/-- the matrix `XYL` of a formula (utils.cpp:170) -/
def bary (R : List (QPoint K)) (i n : Nat) : K := (R[n]?.map fun q => q.p i).getD 0

/-- the weights of a formula (utils.cpp:171) -/
def weight (R : List (QPoint K)) (n : Nat) : K := (R[n]?.map fun q => q.w).getD 0

/-- utils.cpp:201-208: the matrix `X` -/
def pts (R : List (QPoint K)) (c : Cell K) (k n : Nat) : K := pointOf c.node (fun i => bary R i n) k

/-- utils.cpp:183-219 `cycle_body`: the results of the threads after the cell with the local id `lid` on the thread `t`; `none` stands for ids which are
not valid and for hidden cells -/
def body (R : List (QPoint K)) (cells : Nat → Option (Cell K)) (func : Func K) (res : Nat → Nat → K) (x : Nat × Nat) : Nat → Nat → K :=
  match cells x.1 with
  | none => res
  | some c =>
    if c.ghost then res
    else fun t d =>
      if t = x.2 then (List.range R.length).foldl (fun s n => s + weight R n * c.vol * func c (bary R) (pts R c) d n) (res t d) else res t d

/-- utils.cpp:163-230 `integrate_vector_func` before `Integrate`.  `sched` lists the local ids with the threads on which they are processed; a thread
writes into its own result only, so that any order of the calls which respects the order of every thread describes the run. -/
def integrateB (nth : Nat) (R : List (QPoint K)) (cells : Nat → Option (Cell K)) (func : Func K) (sched : List (Nat × Nat)) (d : Nat) : K :=
  (List.range nth).foldl (fun o t => o + sched.foldl (body R cells func) (fun _ _ => 0) t d) 0

/-- `Mesh::Integrate` (utils.inl:67, utils.cpp:231): the sum over the processes -/
def reduce (vals : List K) : K := vals.foldl (· + ·) 0

end Verif.MeshInt
