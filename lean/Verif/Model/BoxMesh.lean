import Mathlib.Data.Fin.VecNotation
import Mathlib.Data.Finset.Basic

/-!
Model of the generation of a tetrahedral mesh of a box, `anifem++/utils/mesh_utils.cpp` (`CreateNWTetElements` and
`GenerateParallelepiped`; `GenerateCube` calls the latter).

A node is given by its place `(i, j, k)` in the grid; nodes of different processes with the same place have the same coordinates
and are identified by `ResolveShared` (INMOST, line 147).  A cell is the list of the faces given to `CreateCell`, a face the list
of its nodes.  The type `unsigned` has 32 bits.  `none`: an index out of range.
-/
namespace Verif.BoxMesh

/-- The place of a node in the grid. (mesh_utils.cpp:114-116) -/
abbrev Lab := Fin 3 → Nat
/-- A cell: faces, given by their nodes. (mesh_utils.cpp:42-47) -/
abbrev Cell := List (List Lab)

/-- mesh_utils.cpp:73-79: the first divisor from 2 on. -/
def firstDiv (d : Nat) : Nat := ((List.range' 2 (d - 1)).find? fun k => d % k = 0).getD d

/-- mesh_utils.cpp:71-80: the loop; `fuel` bounds the number of rounds. -/
def divsLoop : Nat → Nat → List Nat
  | 0, _ => []
  | f + 1, d => if 1 < d then firstDiv d :: divsLoop f (d / firstDiv d) else []

/-- mesh_utils.cpp:69-80 `divs`. -/
def divs (size : Nat) : List Nat := divsLoop size size

/-- mesh_utils.cpp:84 `std::max_element`: the first of the largest. -/
def maxIdx (e : Fin 3 → Nat) : Fin 3 := if e 0 < e 1 then (if e 1 < e 2 then 2 else 1) else if e 0 < e 2 then 2 else 0

/-- mesh_utils.cpp:54, 81: `procs_per_axis`, `elements_per_procs`. -/
structure Grid where
  procs : Fin 3 → Nat
  elems : Fin 3 → Nat

/-- mesh_utils.cpp:84-86. -/
def gridStep (g : Grid) (k : Nat) : Grid :=
  ⟨Function.update g.procs (maxIdx g.elems) (g.procs (maxIdx g.elems) * k),
   Function.update g.elems (maxIdx g.elems) (g.elems (maxIdx g.elems) / k)⟩

/-- mesh_utils.cpp:81-87: `procs_per_axis` after the loop. -/
def procGrid (size : Nat) (sizes : Fin 3 → Nat) : Fin 3 → Nat := ((divs size).reverse.foldl gridStep ⟨fun _ => 1, sizes⟩).procs

/-- mesh_utils.cpp:91 `proc_coords`. -/
def procCoords (P : Fin 3 → Nat) (rank : Nat) : Fin 3 → Nat := ![rank % P 0, rank / P 0 % P 1, rank / (P 0 * P 1)]

/-- The difference of `unsigned` numbers. (mesh_utils.cpp:105) -/
def sub32 (a b : Nat) : Nat := (a + 2 ^ 32 - b % 2 ^ 32) % 2 ^ 32

/-- mesh_utils.cpp:94-99 `avgsize`; the quotient in double precision is exact enough for its ceiling. -/
def avg (s p : Nat) : Nat := (s + p - 1) / p

/-- mesh_utils.cpp:103 `localstart`. -/
def lstart (s p c : Nat) : Nat := avg s p * c % 2 ^ 32

/-- mesh_utils.cpp:104-106 `localsize`. -/
def lsize (s p c : Nat) : Nat := if c = p - 1 then sub32 s (avg s p * (p - 1)) else avg s p

/-- mesh_utils.cpp:107 `localend`. -/
def lend (s p c : Nat) : Nat := (lstart s p c + lsize s p c) % 2 ^ 32

/-- `for (i = a; i <= b; i++)`. (mesh_utils.cpp:114-116, 126-128) -/
def upto (a b : Nat) : List Nat := List.range' a (b + 1 - a)

/-- The triples of three nested loops. (mesh_utils.cpp:114-116, 126-128) -/
def triples (a b : Fin 3 → Nat) : List Lab :=
  (upto (a 0) (b 0)).flatMap fun i => (upto (a 1) (b 1)).flatMap fun j => (upto (a 2) (b 2)).map fun k => ![i, j, k]

/-- mesh_utils.cpp:114-123 `newverts`. -/
def newverts (st en : Fin 3 → Nat) : List Lab := triples st en

/-- mesh_utils.cpp:124 `V_ID`. -/
def vid (st sz : Fin 3 → Nat) (x y z : Nat) : Nat :=
  ((x - st 0) * (sz 1 + 1) * (sz 2 + 1) + (y - st 1) * (sz 2 + 1) + (z - st 2)) % 2 ^ 32

/-- mesh_utils.cpp:133-140 `verts`. -/
def boxVerts (st sz : Fin 3 → Nat) (nv : List Lab) (i j k : Nat) : Option (List Lab) :=
  [vid st sz (i - 1) (j - 1) (k - 1), vid st sz (i - 0) (j - 1) (k - 1), vid st sz (i - 1) (j - 0) (k - 1), vid st sz (i - 0) (j - 0) (k - 1),
   vid st sz (i - 1) (j - 1) (k - 0), vid st sz (i - 0) (j - 1) (k - 0), vid st sz (i - 1) (j - 0) (k - 0), vid st sz (i - 0) (j - 0) (k - 0)].mapM
    fun id => nv[id]?

/-- mesh_utils.cpp:23-40: the faces of the six tetrahedra. -/
def tables : List (List (List Nat)) :=
  [[[0, 1, 5], [5, 1, 3], [1, 0, 3], [3, 0, 5]],
   [[0, 3, 5], [0, 7, 3], [5, 3, 7], [0, 5, 7]],
   [[0, 7, 5], [4, 5, 7], [0, 5, 4], [0, 4, 7]],
   [[0, 3, 7], [2, 7, 3], [0, 7, 2], [0, 2, 3]],
   [[0, 7, 4], [0, 2, 7], [2, 4, 7], [0, 4, 2]],
   [[4, 6, 2], [6, 7, 2], [4, 7, 6], [4, 2, 7]]]

/-- mesh_utils.cpp:20-48 `CreateNWTetElements`. -/
def createTets (verts : List Lab) : Option (List Cell) := tables.mapM fun t => t.mapM fun f => f.mapM fun c => verts[c]?

/-- mesh_utils.cpp:126-144: the loops over the boxes. -/
def cells (st sz en : Fin 3 → Nat) : Option (List Cell) :=
  ((triples (fun c => st c + 1) en).mapM fun b => (boxVerts st sz (newverts st en) (b 0) (b 1) (b 2)).bind createTets).map List.flatten

/-- mesh_utils.cpp:52-150 `GenerateParallelepiped`: the cells made by the process `rank` of `size`. -/
def rankCells (size : Nat) (sizes : Fin 3 → Nat) (rank : Nat) : Option (List Cell) :=
  let P := procGrid size sizes
  let c := procCoords P rank
  cells (fun a => lstart (sizes a) (P a) (c a)) (fun a => lsize (sizes a) (P a) (c a)) (fun a => lend (sizes a) (P a) (c a))

/-- mesh_utils.cpp:119-121: the coordinates of a node. -/
def xyz {K : Type} [Add K] [Sub K] [Mul K] [Div K] [NatCast K] (sizes : Fin 3 → Nat) (A O : Fin 3 → K) (l : Lab) (c : Fin 3) : K :=
  (l c : K) * (A c - O c) / (sizes c : K) + O c

end Verif.BoxMesh
