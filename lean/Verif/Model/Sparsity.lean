import Verif.Spec.Sparsity

/-!
Model of `TetGeomSparsity` (`/repo/anifem++/fem/tetdofmap.h:143-196`, `tetdofmap.cpp:32-168`, `tetdofmap.inl:7-30`).
An `uchar` mask is a `BitVec 8`.
-/
namespace Verif.Sparsity

/-- `TetGeomSparsity::elems`, tetdofmap.h:146 -/
structure Sp where
  nodes : BitVec 8
  edges : BitVec 8
  faces : BitVec 8
  cells : BitVec 8
deriving DecidableEq, Repr

/-- `elems[elem_dim]` (tetdofmap.h:149-150) -/
def Sp.get (s : Sp) : Nat → BitVec 8
  | 0 => s.nodes | 1 => s.edges | 2 => s.faces | _ => s.cells

/-- `elems[d] & (1 << i)`: is the element selected? (e.g. tetdofmap.cpp:129) -/
def Sp.has (s : Sp) (d i : Nat) : Bool := (s.get d).getLsbD i

/-- default constructor, tetdofmap.h:146 -/
def Sp.none : Sp := ⟨0, 0, 0, 0⟩

/-- `1 << i` (tetdofmap.cpp:33-37) -/
def bit (i : Nat) : BitVec 8 := 1#8 <<< i

/-- `empty(elem_dim)`, tetdofmap.h:150 -/
def Sp.emptyDim (s : Sp) (d : Nat) : Bool := s.get d == 0

/-- `lookup_nds` of faces, tetdofmap.cpp:51, 62 -/
def faceNodes (i k : Nat) : Nat := ([0, 1, 2, 1, 2, 3, 0, 2, 3, 0, 1, 3] : List Nat)[3 * i + k]?.getD 8
/-- `lookup_eds` of faces, tetdofmap.cpp:52, 63 -/
def faceEdges (i k : Nat) : Nat := ([0, 1, 3, 3, 4, 5, 1, 2, 5, 0, 2, 4] : List Nat)[3 * i + k]?.getD 8
/-- `lookup_nds` of edges, tetdofmap.cpp:74, 82 -/
def edgeNodes (i k : Nat) : Nat := ([0, 1, 0, 2, 0, 3, 1, 2, 1, 3, 2, 3] : List Nat)[2 * i + k]?.getD 8

/-- `setCell`, tetdofmap.cpp:32-40 -/
def Sp.setCell (s : Sp) (closure : Bool) : Sp :=
  if closure then ⟨bit 0 ||| bit 1 ||| bit 2 ||| bit 3, bit 0 ||| bit 1 ||| bit 2 ||| bit 3 ||| bit 4 ||| bit 5,
    bit 0 ||| bit 1 ||| bit 2 ||| bit 3, bit 0⟩
  else { s with cells := bit 0 }

/-- `unsetCell`, tetdofmap.cpp:41-46 -/
def Sp.unsetCell (s : Sp) (closure : Bool) : Sp := if !closure then { s with cells := 0 } else Sp.none

/-- `setFace`, tetdofmap.cpp:47-57 -/
def Sp.setFace (s : Sp) (i : Nat) (closure : Bool) : Sp :=
  let s := { s with faces := s.faces ||| bit i }
  if closure then
    { s with nodes := s.nodes ||| (bit (faceNodes i 0) ||| bit (faceNodes i 1) ||| bit (faceNodes i 2)),
             edges := s.edges ||| (bit (faceEdges i 0) ||| bit (faceEdges i 1) ||| bit (faceEdges i 2)) }
  else s

/-- `unsetFace`, tetdofmap.cpp:58-68 -/
def Sp.unsetFace (s : Sp) (i : Nat) (closure : Bool) : Sp :=
  let s := { s with faces := s.faces &&& ~~~ bit i }
  if closure then
    { s with nodes := s.nodes &&& ~~~ (bit (faceNodes i 0) ||| bit (faceNodes i 1) ||| bit (faceNodes i 2)),
             edges := s.edges &&& ~~~ (bit (faceEdges i 0) ||| bit (faceEdges i 1) ||| bit (faceEdges i 2)) }
  else s

/-- `setEdge`, tetdofmap.cpp:71-78 -/
def Sp.setEdge (s : Sp) (i : Nat) (closure : Bool) : Sp :=
  let s := { s with edges := s.edges ||| bit i }
  if closure then { s with nodes := s.nodes ||| (bit (edgeNodes i 0) ||| bit (edgeNodes i 1)) } else s

/-- `unsetEdge`, tetdofmap.cpp:79-86 -/
def Sp.unsetEdge (s : Sp) (i : Nat) (closure : Bool) : Sp :=
  let s := { s with edges := s.edges &&& ~~~ bit i }
  if closure then { s with nodes := s.nodes &&& ~~~ (bit (edgeNodes i 0) ||| bit (edgeNodes i 1)) } else s

/-- `setNode`, tetdofmap.cpp:89-92 -/
def Sp.setNode (s : Sp) (i : Nat) : Sp := { s with nodes := s.nodes ||| bit i }
/-- `unsetNode`, tetdofmap.cpp:93-96 -/
def Sp.unsetNode (s : Sp) (i : Nat) : Sp := { s with nodes := s.nodes &&& ~~~ bit i }

/-- `set(elem_dim, ielem, with_closure)`, tetdofmap.cpp:104-113; `none` is the exception -/
def Sp.set (s : Sp) (d i : Nat) (closure : Bool) : Option Sp :=
  match d with
  | 0 => some (s.setNode i)
  | 1 => some (s.setEdge i closure)
  | 2 => some (s.setFace i closure)
  | 3 => some (s.setCell closure)
  | _ => Option.none

/-- `unset(elem_dim, ielem, with_closure)`, tetdofmap.cpp:114-123 -/
def Sp.unset (s : Sp) (d i : Nat) (closure : Bool) : Option Sp :=
  match d with
  | 0 => some (s.unsetNode i)
  | 1 => some (s.unsetEdge i closure)
  | 2 => some (s.unsetFace i closure)
  | 3 => some (s.unsetCell closure)
  | _ => Option.none

/-- write `elems[elem_dim]` (tetdofmap.cpp:33-101) -/
def Sp.put (s : Sp) (d : Nat) (v : BitVec 8) : Sp :=
  match d with
  | 0 => { s with nodes := v } | 1 => { s with edges := v } | 2 => { s with faces := v } | _ => { s with cells := v }

/-- `set(elem_dim)`, tetdofmap.cpp:99-103 -/
def Sp.setDim (s : Sp) (d : Nat) : Sp := s.put d (match d with | 0 => 0xF#8 | 1 => 0x3F#8 | 2 => 0xF#8 | _ => 0x1#8)
/-- `unset(elem_dim)`, tetdofmap.h:175 -/
def Sp.unsetDim (s : Sp) (d : Nat) : Sp := s.put d 0
/-- `set(sp)`, tetdofmap.h:171 and `operator|`, tetdofmap.inl:13-18 -/
def Sp.union (a b : Sp) : Sp := ⟨a.nodes ||| b.nodes, a.edges ||| b.edges, a.faces ||| b.faces, a.cells ||| b.cells⟩
/-- `unset(sp)`, tetdofmap.h:172 -/
def Sp.diff (a b : Sp) : Sp :=
  ⟨a.nodes &&& ~~~b.nodes, a.edges &&& ~~~b.edges, a.faces &&& ~~~b.faces, a.cells &&& ~~~b.cells⟩
/-- `operator&`, tetdofmap.inl:7-12 -/
def Sp.inter (a b : Sp) : Sp := ⟨a.nodes &&& b.nodes, a.edges &&& b.edges, a.faces &&& b.faces, a.cells &&& b.cells⟩
/-- `operator^`, tetdofmap.inl:19-24 -/
def Sp.xor (a b : Sp) : Sp := ⟨a.nodes ^^^ b.nodes, a.edges ^^^ b.edges, a.faces ^^^ b.faces, a.cells ^^^ b.cells⟩
/-- `operator~`, tetdofmap.inl:25-30 -/
def Sp.compl (a : Sp) : Sp := ⟨~~~a.nodes, ~~~a.edges, ~~~a.faces, ~~~a.cells⟩

/-- `getElemsIds(elem_dim)`, tetdofmap.cpp:124-132 (the first `sz` entries of the returned array) -/
def Sp.elemsIds (s : Sp) (d : Nat) : List Nat := (List.range (count d)).filter (s.has d)

/-- loop `for k in [k0, lookup_sz[d]) if (elems[d] & (1 << k)) return Pos(d, k)`, tetdofmap.cpp:137, 146, 154, 157, 165 -/
def Sp.scan (s : Sp) (d k0 : Nat) : Option (Nat × Nat) :=
  ((List.range' k0 (count d - k0)).find? (s.has d)).map fun k => (d, k)

/-- loop over the dimensions `i ≥ d0` of tetdofmap.cpp:136-139, 156-159 -/
def Sp.scanDims (s : Sp) (d0 : Nat) : Option (Nat × Nat) :=
  (List.range' d0 (4 - d0)).findSome? fun i => if s.emptyDim i then Option.none else s.scan i 0

/-- `beginPos()`, tetdofmap.cpp:134-141; `none` is `endPos()` -/
def Sp.beginPos (s : Sp) : Option (Nat × Nat) := s.scanDims 0

/-- `beginPos(elem_dim)`, tetdofmap.cpp:142-150 -/
def Sp.beginPosDim (s : Sp) (d : Nat) : Option (Nat × Nat) := if s.emptyDim d then Option.none else s.scan d 0

/-- `nextPos(p)`, tetdofmap.cpp:151-161 (valid `p`) -/
def Sp.nextPos (s : Sp) (p : Nat × Nat) : Option (Nat × Nat) :=
  match s.scan p.1 (p.2 + 1) with
  | some q => some q
  | Option.none => s.scanDims (p.1 + 1)

/-- `nextPosOnDim(p)`, tetdofmap.cpp:162-168 (valid `p`) -/
def Sp.nextPosOnDim (s : Sp) (p : Nat × Nat) : Option (Nat × Nat) := s.scan p.1 (p.2 + 1)

end Verif.Sparsity
