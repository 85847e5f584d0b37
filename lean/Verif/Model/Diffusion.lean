import Verif.Model.Dirichlet
import Verif.Model.GeomIter

/-!
Model of the elemental part of `solve_stationary_diffusion`, `anifem++/utils/utils.cpp:321-493`: which elements of a cell get a
Dirichlet condition, which sides a Neumann condition, and how the elemental system is put together.

The elemental matrix, the load and the loads of the sides are those of the drivers (`Verif.Driver`, C54); here they are inputs, as are
the values of the Dirichlet d.o.f.s (`interpolateOnDOF`, C45-C48).  The work memory shared by `G` and `dof_values` (lines 427, 454) is
not modelled: `G` is not used any more when `dof_values` is written.  The test `!dat.sp.empty()` (line 453) is left out: without marked elements the list of
numbers is empty.  The linear solver and the copy to the tag are not modelled.
-/
namespace Verif.Diffusion

open Verif.Dense Verif.DofMap Verif.Sparsity Verif.GeomIter

/-- utils.cpp:396-398: the nodes. -/
def markNodes (isDir : Nat → Bool) (s : Sp) : Sp := (List.range 4).foldl (fun s i => if isDir i then s.setNode i else s) s

/-- utils.cpp:399-401: the edges. -/
def markEdges (isDir : Nat → Bool) (s : Sp) : Sp := (List.range 6).foldl (fun s i => if isDir i then s.setEdge i false else s) s

/-- utils.cpp:402-408: the sides; the second part is `is_neumann`. -/
def markFaces (isDir bnd : Nat → Bool) (r : Sp × BitVec 8) : Sp × BitVec 8 :=
  (List.range 4).foldl (fun r i => if isDir i then (r.1.setFace i false, r.2) else if bnd i then (r.1, r.2 ||| bit i) else r) r

/-- utils.cpp:388-414 `data_gatherer`: the set of Dirichlet elements and `is_neumann`.  `isDir d i` is `is_dirichlet` of the `i`-th element
of dimension `d`, `bnd i` the mark of the `i`-th side.  The space has d.o.f.s on the elements of dimension `d` (`geom_mask`, line 332) if
`compact o d` is not zero. -/
def gather (o : Obj) (isDir : Nat → Nat → Bool) (bnd : Nat → Bool) : Sp × BitVec 8 :=
  let s := Sp.none
  let s := if compact o 0 ≠ 0 then markNodes (isDir 0) s else s
  let s := if compact o 1 ≠ 0 then markEdges (isDir 1) s else s
  let r := if compact o 2 ≠ 0 then markFaces (isDir 2) bnd (s, 0) else (s, 0)
  if compact o 3 ≠ 0 ∧ isDir 3 0 = true then (r.1.setCell false, r.2) else r

variable {K : Type} [Field K]

/-- `F += G` (utils.cpp:449). -/
def addVec (n : Nat) (G F : Nat → K) : Nat → K := loop 0 n (fun i F => wr F i (F i + G i)) F

/-- utils.cpp:446-450: the Neumann conditions. -/
def addSides (n : Nat) (G : Nat → Nat → K) (neu : BitVec 8) (F : Nat → K) : Nat → K :=
  loop 0 4 (fun k F => if neu.getLsbD k then addVec n (G k) F else F) F

/-- tetdofmap.inl:900-904 `applyDirByDofs`; `gids` are the numbers met by the iteration. -/
def dirByDofs (n : Nat) (gids : List Nat) (val : Nat → K) (s : (Nat → K) × (Nat → K)) : (Nat → K) × (Nat → K) :=
  gids.foldl (fun s g => Dirichlet.dir n n s (g, val g)) s

/-- utils.cpp:416-462 `local_assm` after the calls of the drivers: the matrix `A`, the load `F`, the loads `G k` of the sides. -/
def localSys (n : Nat) (A F : Nat → K) (G : Nat → Nat → K) (neu : BitVec 8) (gids : List Nat) (val : Nat → K) : (Nat → K) × (Nat → K) :=
  dirByDofs n gids val (A, addSides n G neu F)

end Verif.Diffusion
