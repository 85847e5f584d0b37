import Verif.Model.DofMap
import Verif.Model.Sparsity

/-!
Model of the iteration over the d.o.f.s selected by an element set (`DofSparsedIterator`,
`/repo/anifem++/fem/tetdofmap.h:351-373`, `tetdofmap.cpp:170-241, 362-413, 473-554, 695-785`).

The iterator state `LocalOrder` is a pair (number, place); the end state (`gid = uint(-1)`, tetdofmap.cpp:190-193) is `none`.
Symmetry indices are not modelled.  The argument `preferGeomOrdering` is the boolean `g`.
-/
namespace Verif.GeomIter
open Verif.DofMap Verif.Sparsity

/-- An iterator state: `gid` and `(etype, nelem, leid)`, tetdofmap.h:117-141 -/
abbrev It := Nat × Loc

/-- `GeomTypeDim`, tetdofmap.inl / tetdofmap.h:42-60 -/
def dimOf : Nat → Nat
  | 0 => 0 | 1 => 1 | 2 => 1 | 3 => 2 | 4 => 2 | _ => 3

/-- `ndofs_compact`, tetdofmap.cpp:173 -/
def compact (o : Obj) : Nat → Nat
  | 0 => o.numDof 0 | 1 => o.numDof 1 + o.numDof 2 | 2 => o.numDof 3 + o.numDof 4 | _ => o.numDof 5

/-- choice of `etype` in tetdofmap.cpp:175-180 -/
def kindFor (o : Obj) : Nat → Nat
  | 0 => 0
  | 1 => if o.numDof 1 > 0 then 1 else 2
  | 2 => if o.numDof 3 > 0 then 3 else 4
  | _ => 5

/-- `BaseDofMap::BeginByGeomSparsity`, tetdofmap.cpp:170-189.  The position is not checked there: `endPos()` has number 6. -/
def genBegin (o : Obj) (s : Sp) : Option It :=
  (List.range 4).findSome? fun i =>
    if compact o i ≠ 0 ∧ s.emptyDim i = false then
      let l : Loc := ⟨kindFor o i, (s.beginPosDim i).elim 6 Prod.snd, 0⟩
      some (o.tetId l, l)
    else none

/-- `for (int i = 0; i < n; ++i) sp_new.unset(i)`, tetdofmap.cpp:237, 408, 540, 776 -/
def unsetBelow (s : Sp) (n : Nat) : Sp := (List.range n).foldl Sp.unsetDim s

/-- `for (int i = 0; i < n; ++i) ss.unset(d, i)`, tetdofmap.cpp:541, 777 -/
def unsetElems (s : Sp) (d n : Nat) : Sp := (List.range n).foldl (fun s i => (s.unset d i false).getD s) s

/-- `UniteDofMap::IncrementByGeomSparsity`, tetdofmap.cpp:362-413 (`lo.leid < nloc_dof - 1` with `nloc_dof > 0`) -/
def uniteNext (c : Counts) (s : Sp) (x : It) : Option It :=
  let l := x.2
  if l.leid + 1 < c.get l.num then some (x.1 + 1, { l with leid := l.leid + 1 })
  else if l.num = 1 ∧ c.get 2 > 0 then some (pre c.tetSizes 2 + c.get 2 * l.nelem, ⟨2, l.nelem, 0⟩)
  else if l.num = 3 ∧ c.get 4 > 0 then some (pre c.tetSizes 4 + c.get 4 * l.nelem, ⟨4, l.nelem, 0⟩)
  else
    match s.nextPos (dimOf l.num, l.nelem) with
    | none => none
    | some q =>
      if dimOf l.num = q.1 then
        let k := if q.1 = 1 then (if c.get 1 > 0 then 1 else l.num)
          else if q.1 = 2 then (if c.get 3 > 0 then 3 else l.num) else l.num
        some (pre c.tetSizes k + c.get k * q.2, ⟨k, q.2, 0⟩)
      else genBegin (uniteObj c) (unsetBelow s q.1)

/-- The iteration interface of a map. (tetdofmap.h:351-373) -/
structure IterObj where
  obj : Obj
  /-- `BeginByGeomSparsity(sp, lo, preferGeomOrdering)`, tetdofmap.h:344 -/
  start : Bool → Sp → Option It
  /-- `IncrementByGeomSparsity(sp, lo, preferGeomOrdering)`, tetdofmap.h:346 -/
  next : Bool → Sp → It → Option It

/-- `UniteDofMap` (tetdofmap.cpp:362-413) -/
def uniteIter (c : Counts) : IterObj := ⟨uniteObj c, fun _ s => genBegin (uniteObj c) s, fun _ s x => uniteNext c s x⟩

/-- `LocalOrder(ll.gid + dim*nOdf, …, ll.leid + dim*lOdf, …)`, tetdofmap.cpp:489, 498, 514, 545 -/
def place (b : Obj) (dim : Nat) (x : It) : It :=
  (x.1 + dim * b.numTet, { x.2 with leid := x.2.leid + dim * b.numDof x.2.num })

/-- `VectorDofMap::IncrementByGeomSparsity`, tetdofmap.cpp:473-554 -/
def vectorNext (d : Nat) (b : IterObj) (g : Bool) (s : Sp) (lo : It) : Option It :=
  let nOdf := b.obj.numTet
  let lOdf := b.obj.numDof lo.2.num
  let dim := lo.1 / nOdf
  let ll : It := (lo.1 % nOdf, { lo.2 with leid := lo.2.leid % lOdf })
  if g = false then
    match b.next false s ll with
    | some x => some (place b.obj dim x)
    | none => if dim + 1 ≠ d then (b.start false s).map (place b.obj (dim + 1)) else none
  else
    let gdim := dimOf lo.2.num
    let ss := (Sp.none.set gdim lo.2.nelem false).getD Sp.none
    match b.next true ss ll with
    | some x => some (place b.obj dim x)
    | none =>
      if dim + 1 ≠ d then
        let num := if lo.2.num = 2 ∧ b.obj.numDof 1 > 0 then 1 else if lo.2.num = 4 ∧ b.obj.numDof 3 > 0 then 3 else lo.2.num
        let l : Loc := ⟨num, lo.2.nelem, 0⟩
        some (place b.obj (dim + 1) (b.obj.tetId l, l))
      else
        match s.nextPos (gdim, lo.2.nelem) with
        | none => none
        | some q => (b.start true (unsetElems (unsetBelow s q.1) q.1 q.2)).map (place b.obj 0)

/-- `VectorDofMap`: the start is inherited from `BaseDofMap` (tetdofmap.h:621-650) -/
def vectorIter (d : Nat) (b : IterObj) : IterObj :=
  ⟨vectorObj d b.obj, fun _ s => genBegin (vectorObj d b.obj) s, vectorNext d b⟩

/-- the factor `dim`; the empty map stands for an out-of-range access (does not happen for valid places)
(tetdofmap.h:671-704 `m_spaces[i]`) -/
def ifactor (l : List IterObj) (i : Nat) : IterObj :=
  match l[i]? with
  | some o => o
  | none => ⟨factor [] 0, fun _ _ => none, fun _ _ _ => none⟩

/-- `LocalOrder(ll.gid + m_spaceNumDofsTet[dim], …, ll.leid + m_spaceNumDof[num][dim], …)`, tetdofmap.cpp:702, 736, 746, 762 -/
def cplace (l : List Obj) (dim : Nat) (x : It) : It :=
  (x.1 + pre (l.map (·.numTet)) dim, { x.2 with leid := x.2.leid + pre (l.map fun o => o.numDof x.2.num) dim })

/-- `ComplexDofMap::BeginByGeomSparsity`, tetdofmap.cpp:695-723.  In the second branch `NumToGeomType(num)` is `num` here and
`DefinedOn(etype)` is `NumDof(etype) > 0` (tetdofmap.h:310); the shift of `leid` there uses the loop index `num`. -/
def complexStart (l : List IterObj) (g : Bool) (s : Sp) : Option It :=
  if g = false then
    (List.range l.length).findSome? fun dim => ((ifactor l dim).start false s).map (cplace (l.map (·.obj)) dim)
  else
    (List.range 6).findSome? fun num =>
      match s.beginPosDim (dimOf num) with
      | none => none
      | some _ =>
        match (List.range l.length).find? fun dim => decide ((ifactor l dim).obj.numDof num > 0) with
        | none => none
        | some dim =>
          ((ifactor l dim).start true s).map fun x =>
            (x.1 + pre (l.map (·.obj.numTet)) dim, { x.2 with leid := x.2.leid + pre (l.map (·.obj.numDof num)) dim })

/-- `ComplexDofMap::IncrementByGeomSparsity`, tetdofmap.cpp:724-785 -/
def complexNext (l : List IterObj) (g : Bool) (s : Sp) (lo : It) : Option It :=
  let os := l.map (·.obj)
  let dim := ubIdx (os.map fun o => o.numDof lo.2.num) lo.2.leid
  let ll : It := (lo.1 - pre (os.map (·.numTet)) dim,
    { lo.2 with leid := lo.2.leid - pre (os.map fun o => o.numDof lo.2.num) dim })
  if g = false then
    match (ifactor l dim).next false s ll with
    | some x => some (cplace os dim x)
    | none =>
      if dim + 1 ≠ l.length then ((ifactor l (dim + 1)).start false s).map (cplace os (dim + 1)) else none
  else
    let gdim := dimOf lo.2.num
    let ss := (Sp.none.set gdim lo.2.nelem false).getD Sp.none
    match (ifactor l dim).next true ss ll with
    | some x => some (cplace os dim x)
    | none =>
      match (List.range' (dim + 1) (l.length - (dim + 1))).find? fun k =>
          decide ((ifactor l k).obj.numDof lo.2.num > 0) with
      | some k =>
        let p : Loc := ⟨lo.2.num, lo.2.nelem, 0⟩
        some (cplace os k ((ifactor l k).obj.tetId p, p))
      | none =>
        match s.nextPos (gdim, lo.2.nelem) with
        | none => none
        | some q => complexStart l true (unsetElems (unsetBelow s q.1) q.1 q.2)

/-- `ComplexDofMap` (tetdofmap.cpp:695-785) -/
def complexIter (l : List IterObj) : IterObj := ⟨complexObj (l.map (·.obj)), complexStart l, complexNext l⟩

mutual
/-- The iteration interface of a map built from primitive maps by powers and products. (tetdofmap.h:351-373) -/
def iter : Tree → IterObj
  | .unite c => uniteIter c
  | .vector d b => vectorIter d (iter b)
  | .complex l => complexIter (iters l)
/-- the factors (tetdofmap.h:671) -/
def iters : List Tree → List IterObj
  | [] => []
  | t :: r => iter t :: iters r
end

end Verif.GeomIter
