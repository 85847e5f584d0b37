import Verif.Spec.Ordering
import Verif.Model.Symmetry
import Mathlib.Algebra.Order.Ring.Defs

/-!
Model of `/repo/anifem++/inmost_interface/ordering.inl:8-218` and of the index computation of
`/repo/anifem++/inmost_interface/assembler.inl:139-184`.

Handles of nodes, edges and faces are values of arbitrary types with decidable equality.  The mesh database is given by
functions: the coordinates of a node, the two nodes `LowConn(edge)` and the three edges `LowConn(face)`.
-/
namespace Verif.Ordering

/-- ordering.inl:8-26 `reorderNodesOnTetrahedron`, the determinant of the rows `p0 - p3`, `p1 - p3`, `p2 - p3` -/
def det3 {K : Type} [CommRing K] (p0 p1 p2 p3 : Nat → K) : K :=
  let m := fun (i j : Nat) => (if i = 0 then p0 j else if i = 1 then p1 j else p2 j) - p3 j
  m 0 0 * (m 1 1 * m 2 2 - m 1 2 * m 2 1) + m 0 1 * (m 1 2 * m 2 0 - m 1 0 * m 2 2) +
    m 0 2 * (m 1 0 * m 2 1 - m 1 1 * m 2 0)

/-- ordering.inl:8-26 `reorderNodesOnTetrahedron` (coordinates are exact numbers) -/
def reorderNodes {K N : Type} [CommRing K] [LT K] [DecidableLT K] (crd : N → Nat → K) (n : N × N × N × N) : N × N × N × N :=
  if det3 (crd n.1) (crd n.2.1) (crd n.2.2.1) (crd n.2.2.2) < 0 then (n.1, n.2.1, n.2.2.2, n.2.2.1) else n

/-- ordering.inl:76-79 (and 91-92, 97-98): the position of a node in the array `nds_h`; the last match counts, `none` is
the initial value `-1` -/
def position {N : Type} [DecidableEq N] (nds : List N) (x : N) : Option Nat :=
  (List.range 4).foldl (fun r ni => if some x = nds[ni]? then some ni else r) none

/-- ordering.inl:82-83: the place of the edge with local nodes `k`, `l` -/
def edgeSlot (k l : Nat) : Nat :=
  let (k, l) := if k > l then (l, k) else (k, l)
  l - 1 + (if k > 0 then k + 1 else 0)

/-- ordering.inl:72-112, one pass of the loop: from the nodes of the first two edges of a face compute the places of its
three edges and the number of the face.  `none`: the assertion fails or `id1` is read out of range. -/
def faceSlots {N : Type} [DecidableEq N] (nds : List N) (elc0 elc1 : N × N) : Option (Nat × Nat × Nat × Nat) :=
  match position nds elc0.1, position nds elc0.2 with
  | some k, some l =>
    let id1 := [k, l]
    let s0 := edgeSlot k l
    let sum := k + l
    let comp := (if elc1.1 = elc0.1 then 1 else 0) + (if elc1.1 = elc0.2 then 2 else 0)
    let r : Option (Nat × Nat × Nat × Nat) :=
      if comp ≠ 0 then
        match id1[comp - 1]?, position nds elc1.2, id1[comp % 2]? with
        | some k', some l', some p => some (k', l', p, l')
        | _, _, _ => none
      else
        let comp := (if elc1.2 = elc0.1 then 1 else 0) + (if elc1.2 = elc0.2 then 2 else 0)
        if comp = 0 then none
        else match id1[comp - 1]?, position nds elc1.1, id1[comp % 2]? with
        | some l', some k', some p => some (k', l', p, k')
        | _, _, _ => none
    match r with
    | some (k', l', p, q) =>
      let sum := sum + (k' + l') + (p + q)
      some (s0, edgeSlot k' l', edgeSlot p q, (7 - sum / 2) % 4)
    | none => none
  | _, _ => none

/-- the arrays `edges` and `faces` (`none` entries are not written yet) (ordering.inl:38) -/
structure Conn (E F : Type) where
  edges : Nat → Option E
  faces : Nat → Option F

/-- array write (ordering.inl:85, 104, 109, 113) -/
def put {α : Type} (a : Nat → Option α) (i : Nat) (v : α) : Nat → Option α := fun j => if j = i then some v else a j

/-- ordering.inl:66-115: the loop over the first three faces, `fsum` accumulates the face numbers -/
def connLoop {N E F : Type} [DecidableEq N] (edgeNodes : E → N × N) (faceEdges : F → E × E × E) (nds : List N) :
    List F → Conn E F → Nat → Option (Conn E F × Nat)
  | [], c, fsum => some (c, fsum)
  | f :: fs, c, fsum =>
    let e := faceEdges f
    match faceSlots nds (edgeNodes e.1) (edgeNodes e.2.1) with
    | some (s0, s1, s2, fid) =>
      connLoop edgeNodes faceEdges nds fs
        ⟨put (put (put c.edges s0 e.1) s1 e.2.1) s2 e.2.2, put c.faces fid f⟩ (fsum + fid)
    | none => none

/-- ordering.inl:37-118 `collectConnectivityInfo` with `prepare_edges_and_faces`, after the nodes `nds` are fixed; `fh` are
the faces of the cell.  The last face takes the place `6 - fsum`. -/
def collect {N E F : Type} [DecidableEq N] (edgeNodes : E → N × N) (faceEdges : F → E × E × E) (nds : List N)
    (fh : F × F × F × F) : Option (Conn E F) :=
  match connLoop edgeNodes faceEdges nds [fh.1, fh.2.1, fh.2.2.1] ⟨fun _ => none, fun _ => none⟩ 0 with
  | some (c, fsum) => some ⟨c.edges, put c.faces (6 - fsum) fh.2.2.2⟩
  | none => none

/-- ordering.inl:119-129, overload for arrays of `Node`, `Edge`, `Face`: copies only `hedges .. hedges + 4` -/
def collectPtr {N E F : Type} [DecidableEq N] (edgeNodes : E → N × N) (faceEdges : F → E × E × E) (nds : List N)
    (fh : F × F × F × F) (old : Conn E F) : Option (Conn E F) :=
  (collect edgeNodes faceEdges nds fh).map fun c =>
    ⟨fun i => if i < 4 then c.edges i else old.edges i, fun i => if i < 4 then c.faces i else old.faces i⟩

/-- `lookup_ind`, ordering.inl:146 -/
def lookupInd : List (Fin 4) := [2, 3, 1, 3, 1, 2, 0, 3, 0, 2, 0, 1]

/-- ordering.inl:137-151 `createOrderPermutation`; it only compares the ids, `lt a b` is `gni[a] < gni[b]`.  `qid` is an
`unsigned char`; `none` is a read outside of `lookup_ind`. -/
def createBy (lt : Fin 4 → Fin 4 → Bool) : Option (List Nat) :=
  let ij := ([1, 2, 3] : List (Fin 4)).foldl
    (fun (ij : Fin 4 × Fin 4) k => if lt k ij.1 then (k, ij.2) else if lt ij.2 k then (ij.1, k) else ij) (0, 0)
  let perm := ((List.replicate 4 0).set ij.1 0).set ij.2 3
  let qid := (ij.1.val + ij.2.val + 255 + (if min ij.1.val ij.2.val > 0 then 1 else 0)) % 256
  match lookupInd[2 * qid]?, lookupInd[2 * qid + 1]? with
  | some i, some j => some (if lt i j then (perm.set i 1).set j 2 else (perm.set i 2).set j 1)
  | _, _ => none

/-- ordering.inl:137-151 `createOrderPermutation` -/
def createOrder {T : Type} [LT T] [DecidableLT T] (g : Fin 4 → T) : Option (List Nat) :=
  createBy fun a b => decide (g a < g b)

/-- geometric kind of an element, the branches of ordering.inl:154-168 -/
inductive Kind where
  | node | edge | face | cell
deriving DecidableEq, Repr

/-- ordering.inl:152-171 `isPositivePermutationOrient` -/
def isPositive (k : Kind) (elid : Nat) (p : List Nat) : Bool :=
  match k with
  | .edge => decide (Symmetry.at' p (Symmetry.at' Symmetry.edgeNds (2 * elid)) <
      Symmetry.at' p (Symmetry.at' Symmetry.edgeNds (2 * elid + 1)))
  | .face => ((List.range 3).filter fun k =>
      decide (Symmetry.at' p ((elid + k) % 4) > Symmetry.at' p ((elid + k + 1) % 4))).length == 1
  | .node => true
  | .cell => ((List.range 4).filter fun k => decide (Symmetry.at' p k > Symmetry.at' p ((k + 1) % 4))).length == 1

/-- ordering.inl:183-185, 206-208: `gni[local_node_index[k]] = canonical_node_indexes[k]` -/
def placeNodes (localIdx canon : List Nat) : List Nat := Symmetry.scatter 4 localIdx canon

/-- ordering.inl:172-193 `getDOFLocus`, the position of a d.o.f. in the data of its element (without the shift of the
oriented d.o.f.s): `leid - lsid + index` where `lsid` is renumbered by the node order -/
def locusIndex (dim e : Nat) (ms : List Nat) (p : List Nat) (leid : Nat) : Option Nat := Symmetry.reorder dim e ms p leid

/-- assembler.inl:160-163: the d.o.f. number `leid` of the element is written to the entry `leid - lsid + index` of the
local array (only the part of the array of one element is modelled): the entry of the array where the global number of
`leid` is stored -/
def assembleEntry (dim e : Nat) (ms : List Nat) (p : List Nat) (leid : Nat) : Option Nat := Symmetry.reorder dim e ms p leid

/-- assembler.inl:149-165: the number on the element whose global number is stored in entry `i` of the local array (the
last write counts); `n` is the number of d.o.f.s of the element -/
def assembleAt (dim e : Nat) (ms : List Nat) (p : List Nat) (n i : Nat) : Option Nat :=
  (List.range n).foldl (fun r leid => if assembleEntry dim e ms p leid = some i then some leid else r) none

end Verif.Ordering
