import Verif.Spec.Symmetry

/-!
Model of `DofSymmetries` and of the helpers in namespace `S4`
(`/repo/anifem++/fem/tetdofmap.inl:40-357`, `tetdofmap.h:198-266`).

The dimension `GeomTypeDim(etype)` replaces `etype`; a node permutation (`const uchar*` with four entries) is a list of
naturals, read by `at'` (an out-of-range read gives 255); `uchar` arithmetic of the hash is modulo 256.
-/
namespace Verif.Symmetry

/-- array read; the default is not reached by the reads of the model for valid arguments (tetdofmap.inl:103, 172, 176) -/
def at' (l : List Nat) (i : Nat) : Nat := l.getD i 255

/-- `symmetry_volume_by_geom_num`, tetdofmap.inl:67-72, indexed by dimension -/
def volume : Nat → Nat → Nat
  | 0, 0 => 1
  | 1, 0 => 1 | 1, 1 => 2
  | 2, 0 => 1 | 2, 1 => 3 | 2, 2 => 6
  | 3, 0 => 1 | 3, 1 => 4 | 3, 2 => 6 | 3, 3 => 12 | 3, 4 => 24
  | _, _ => 0

/-- `lookup_nds`, tetdofmap.inl:102 -/
def edgeNds : List Nat := [0, 1, 0, 2, 0, 3, 1, 2, 1, 3, 2, 3]

/-- ordering of the three node numbers of a face, tetdofmap.inl:106-114: the minimum gets 0, the maximum 2 -/
def triaRank (t0 t1 t2 : Nat) : List Nat :=
  let t := [t0, t1, t2]
  let step := fun (ij : Nat × Nat) k =>
    if at' t k < at' t ij.1 then (k, ij.2) else if at' t k > at' t ij.2 then (ij.1, k) else ij
  let ij := [1, 2].foldl step (0, 0)
  ((t.set ij.1 0).set ij.2 2).set (3 - (ij.1 + ij.2)) 1

/-- `lookup_inds`, tetdofmap.inl:118 -/
def s3 : List Nat := [0, 1, 2, 1, 2, 0, 2, 0, 1, 0, 2, 1, 2, 1, 0, 1, 0, 2]
/-- `lookup_inds_s6`, tetdofmap.inl:132-134 -/
def s6 : List Nat := [0, 0, 1, 1, 0, 1, 0, 1, 1, 0, 0, 1, 0, 1, 1, 0, 1, 0, 1, 0, 1, 1, 0, 0]
/-- `lookup_inds_s12`, tetdofmap.inl:136-139 -/
def s12 : List Nat := [1, 2, 0, 0, 2, 0, 1, 0, 0, 1, 2, 0, 1, 0, 2, 0, 0, 2, 1, 0, 2, 1, 0, 0,
  2, 0, 0, 1, 0, 1, 0, 2, 1, 0, 0, 2, 0, 2, 0, 1, 0, 0, 2, 1, 0, 0, 1, 2]
/-- `lookup_inds_s24`, tetdofmap.inl:142-147 -/
def s24 : List Nat := [
  0, 1, 2, 3, 1, 2, 0, 3, 2, 0, 1, 3, 0, 2, 1, 3, 2, 1, 0, 3, 1, 0, 2, 3,
  0, 1, 3, 2, 1, 2, 3, 0, 2, 0, 3, 1, 0, 2, 3, 1, 2, 1, 3, 0, 1, 0, 3, 2,
  0, 3, 1, 2, 1, 3, 2, 0, 2, 3, 0, 1, 0, 3, 2, 1, 2, 3, 1, 0, 1, 3, 0, 2,
  3, 0, 1, 2, 3, 1, 2, 0, 3, 2, 0, 1, 3, 0, 2, 1, 3, 2, 1, 0, 3, 1, 0, 2]
/-- `quick_ind_s6`, tetdofmap.inl:148 -/
def q6 : List Nat := [0, 25, 1, 3, 25, 25, 2, 4, 25, 5]
/-- `quick_ind_s12`, tetdofmap.inl:149 -/
def q12 : List Nat := [5, 0, 1, 25, 4, 3, 2, 6, 25, 9, 25, 25, 25, 10, 25, 8, 7, 25, 11]
/-- `quick_ind_s24`, tetdofmap.inl:150 -/
def q24 : List Nat := [22, 19, 25, 25, 25, 16, 25, 10, 20, 25, 21, 13, 7, 14, 25, 25, 8, 23, 18, 25, 25, 25, 25, 25,
  25, 15, 9, 17, 25, 25, 11, 4, 2, 12, 25, 6, 1, 25, 5, 25, 25, 25, 3, 0]

/-- `for k: to[pos[k]] = from[k]`, tetdofmap.inl:121-122, 155-156 -/
def scatter (n : Nat) (pos frm : List Nat) : List Nat :=
  (List.range n).foldl (fun to k => to.set (at' pos k) (at' frm k)) (List.replicate n 255)

/-- `index_on_reorderd_elem`, tetdofmap.inl:98-166; `none` is an out-of-range read of `quick_ind` -/
def index (dim e s i : Nat) (p : List Nat) : Option Nat :=
  if s = 0 then some i
  else if dim = 1 then
    some (if at' p (at' edgeNds (2 * e)) < at' p (at' edgeNds (2 * e + 1)) then i else (i + 1) % 2)
  else if dim = 2 then
    let tria := triaRank (at' p e) (at' p ((e + 1) % 4)) (at' p ((e + 2) % 4))
    if s = 1 then some (at' tria i)
    else
      let frm := [at' s3 (3 * i), at' s3 (3 * i + 1), at' s3 (3 * i + 2)]
      let to := scatter 3 tria frm
      let change := ((List.range 3).filter fun k => decide (at' to k > at' to ((k + 1) % 3))).length
      some (if change = 1 then at' to 0 else 5 - at' to 1)
  else if s = 1 then some (at' p i)
  else
    let tab := if s = 2 then s6 else if s = 3 then s12 else s24
    let quick := if s = 2 then q6 else if s = 3 then q12 else q24
    let frm := [at' tab (4 * i), at' tab (4 * i + 1), at' tab (4 * i + 2), at' tab (4 * i + 3)]
    let to := scatter 4 p frm
    let hash :=
      if s = 2 then (at' to 3 + at' to 2 * 2 + at' to 1 * 4 + at' to 0 * 8 + 256 - 3) % 256
      else if s = 3 then (at' to 0 + at' to 1 * 2 + at' to 2 * 4 + at' to 3 * 8 + at' to 3 + 256 - 4) % 256
      else (5 * at' to 1 + 6 * at' to 2 + 14 * at' to 3 + 256 - 16) % 256
    quick[hash]?

/-- `GetLocSymOrder_by_geom_num`, tetdofmap.inl:86-97: the loop over the groups of the element kind; `ms` are the multiplicities of
the groups, `start` the number of d.o.f.s in the groups passed so far, `s` the current group.  Returns `(stype, lsid)`. -/
def locSymLoop (dim : Nat) (id : Nat) (s start : Nat) : List Nat → Nat × Nat
  | [] => (s - 1, 0)
  | m :: ms =>
    let vol := volume dim s
    if id < start + vol * m ∨ ms = [] then (s, (id - start) % vol)
    else locSymLoop dim id (s + 1) (start + vol * m) ms

/-- `GetLocSymOrder_by_geom_num`, tetdofmap.inl:86-97 (initialised symmetries; the empty-list case of `locSymLoop` is not met) -/
def locSym (dim : Nat) (ms : List Nat) (id : Nat) : Nat × Nat := locSymLoop dim id 0 0 ms

/-- the use in `assembler.inl:160-163`: the number of a d.o.f. on its element after renumbering of the nodes,
`leid - lsid + index` -/
def reorder (dim e : Nat) (ms : List Nat) (p : List Nat) (id : Nat) : Option Nat :=
  let so := locSym dim ms id
  (index dim e so.1 so.2 p).map fun j => id - so.2 + j

/-! ### namespace S4 -/

/-- `edge_vertex`, tetdofmap.inl:170-173 -/
def edgeVertex (e k : Nat) : Nat := at' edgeNds (2 * e + k)
/-- `face_vertex`, tetdofmap.inl:174-177 -/
def faceVertex (e k : Nat) : Nat := at' [0, 1, 2, 1, 2, 3, 0, 2, 3, 0, 1, 3] (3 * e + k)
/-- `find_edge_elem`, tetdofmap.inl:178-188 -/
def findEdge (a b : Nat) : Nat :=
  if a > 3 ∨ b > 3 then 255 else at' [255, 0, 1, 2, 0, 255, 3, 4, 1, 3, 255, 5, 2, 4, 5, 255] (a * 4 + b)
/-- `find_face_elem`, tetdofmap.inl:189-197 -/
def findFace (a b c : Nat) : Nat :=
  if a > 3 ∨ b > 3 ∨ c > 3 then 255
  else if a = b ∨ a = c ∨ b = c then 255
  else at' [1, 2, 3, 0] (6 - a - b - c)

/-- the element part of `remap_local_order`, tetdofmap.inl:217-231 -/
def remapElem (dim e : Nat) (p : List Nat) : Nat :=
  if dim = 0 then at' p e
  else if dim = 1 then findEdge (at' p (edgeVertex e 0)) (at' p (edgeVertex e 1))
  else if dim = 2 then findFace (at' p (faceVertex e 0)) (at' p (faceVertex e 1)) (at' p (faceVertex e 2))
  else e

/-- swap of two entries (tetdofmap.inl:297-321) -/
def swapAt (l : List Nat) (i j : Nat) : List Nat := (l.set i (at' l j)).set j (at' l i)

/-- the elements different from the given ones, in increasing order (loops tetdofmap.inl:292-293, 309-310, 342-344, 348) -/
def others (vs : List Nat) : List Nat := (List.range 4).filter fun x => decide (x ∉ vs)

/-- `stabilizer_data`, tetdofmap.inl:286-331: the generators -/
def stabilizer (dim e : Nat) : List (List Nat) :=
  if dim = 0 then [swapAt [0, 1, 2, 3] (at' (others [e]) 0) (at' (others [e]) 1),
    swapAt [0, 1, 2, 3] (at' (others [e]) 1) (at' (others [e]) 2)]
  else if dim = 1 then [swapAt [0, 1, 2, 3] (edgeVertex e 0) (edgeVertex e 1),
    swapAt [0, 1, 2, 3] (at' (others [edgeVertex e 0, edgeVertex e 1]) 0) (at' (others [edgeVertex e 0, edgeVertex e 1]) 1)]
  else if dim = 2 then [swapAt [0, 1, 2, 3] (faceVertex e 0) (faceVertex e 1), swapAt [0, 1, 2, 3] (faceVertex e 1) (faceVertex e 2)]
  else [[1, 0, 2, 3], [0, 2, 1, 3]]

/-- `perm_vertex_to_repr`, tetdofmap.inl:332-352 -/
def permToRepr (dim e : Nat) : List Nat :=
  if dim = 0 then swapAt [0, 1, 2, 3] 0 e
  else if dim = 1 then [edgeVertex e 0, edgeVertex e 1] ++ others [edgeVertex e 0, edgeVertex e 1]
  else if dim = 2 then [faceVertex e 0, faceVertex e 1, faceVertex e 2] ++
    others [faceVertex e 0, faceVertex e 1, faceVertex e 2]
  else [0, 1, 2, 3]

end Verif.Symmetry
