import Verif.Spec.GeomWalk
import Verif.Model.Enumerator

/-!
Model of the iterator over the d.o.f.s stored on the elements of a mesh (`iteratorByGeom`,
`/repo/anifem++/inmost_interface/global_enumerator.h:139-192, 237-240`, `global_enumerator.cpp:309-442`).

The mesh database of INMOST is not part of the repository; of it `LastLocalID`, `NextLocalID`, `ElementByLocalID(..).isValid()`
and `GetStatus() == Ghost` are used, they are the fields of `Mesh`.  `ANY` is `none`.  The element type is the number of the
kind.  The state `end` is `none`.
-/
namespace Verif.GeomWalk
open Verif.Enumerator

/-- global_enumerator.cpp:332-342 (and 373-381): number of components and of d.o.f.s of a component of variable `v` -/
def sizes (v : Var) (k : Nat) : Nat × Nat :=
  let nd := v.numDof k
  if v.vec then (v.dim, nd / v.dim) else (1, nd)

/-- global_enumerator.cpp:332-342, the conditions of one pass of the loop of `_choose_var` -/
def fits (vars : List Var) (a : Addr) (i : Nat) : Bool :=
  match vars[i]? with
  | none => false
  | some v =>
    if v.numDof a.num > 0 then decide (a.comp < (sizes v a.num).1) && decide (a.dof < (sizes v a.num).2) else false

/-- global_enumerator.cpp:330-347 `_choose_var` -/
def chooseVar (vars : List Var) (a : Addr) (st last : Nat) : Option Addr :=
  ((List.range' st (last - st)).find? (fits vars a)).map fun i => { a with var := i }

/-- global_enumerator.cpp:353, 400: the first variable -/
def loVar (s : Slice) : Nat := s.var.getD 0

/-- global_enumerator.cpp:354, 401: the end of the range of variables -/
def hiVar (s : Slice) (vars : List Var) : Nat := s.var.elim vars.length (· + 1)

/-- global_enumerator.cpp:357-358 and 398-399: from the unoriented kind on to the oriented one -/
def toOriented (s : Slice) (k : Nat) : Bool := (k == 1 && s.mask.testBit 2) || (k == 3 && s.mask.testBit 4)

/-- global_enumerator.cpp:355-363: choice of the kind and the variable on one element -/
def onElement (s : Slice) (vars : List Var) (a : Addr) : Option Addr :=
  match chooseVar vars a (loVar s) (hiVar s vars) with
  | some r => some r
  | none => if toOriented s a.num then chooseVar vars { a with num := a.num + 1 } (loVar s) (hiVar s vars) else none

/-- global_enumerator.cpp:348-367 `_choose_element`; `fuel` bounds the number of passes -/
def chooseElem (s : Slice) (m : Mesh) (vars : List Var) (a : Addr) (d ed : Nat) : Nat → Nat → Option Place
  | 0, _ => none
  | fuel + 1, l =>
    if l < ed then
      if m.valid d l = false ∨ m.ghost d l = true then chooseElem s m vars a d ed fuel (m.next d l)
      else (onElement s vars a).map fun r => ⟨l, r⟩
    else none

/-- global_enumerator.cpp:317-320, 428-431: the kind an element of dimension `d` starts with -/
def firstKind : Nat → Nat
  | 0 => 0 | 1 => 1 | 2 => 3 | _ => 5

/-- global_enumerator.cpp:318, 429 `sid.etype & DimToGeomType(dim)` -/
def wantsDim (s : Slice) (d : Nat) : Bool := (kindsOf d).any s.mask.testBit

/-- global_enumerator.cpp:309-329 `find_begin` -/
def begin (s : Slice) (m : Mesh) (vars : List Var) : Option Place :=
  (List.range 4).findSome? fun d =>
    if wantsDim s d then
      let l := s.loc.getD 0
      let ed := s.loc.elim (m.last d) fun x => min (m.last d) (x + 1)
      chooseElem s m vars ⟨firstKind d, loVar s, s.comp.getD 0, s.dof.getD 0⟩ d ed (ed - l) l
    else none

/-- global_enumerator.cpp:398-408: the next kind on the element; otherwise the kind is set back -/
def stepKind (s : Slice) (vars : List Var) (a : Addr) : Addr × Bool :=
  match (if toOriented s a.num then chooseVar vars { a with num := a.num + 1 } (loVar s) (hiVar s vars) else none) with
  | some r => (r, true)
  | none =>
    let k := if toOriented s a.num then a.num + 1 else a.num
    ({ a with num := if (k = 2 ∧ s.mask.testBit 1) ∨ (k = 4 ∧ s.mask.testBit 3) then k - 1 else k }, false)

/-- global_enumerator.cpp:394-397: the next variable -/
def stepVar (s : Slice) (vars : List Var) (a : Addr) : Addr × Bool :=
  match (if s.var = none then chooseVar vars a (a.var + 1) vars.length else none) with
  | some r => (r, true)
  | none => stepKind s vars a

/-- global_enumerator.cpp:388-393: the next component -/
def stepComp (s : Slice) (vars : List Var) (ndim : Nat) (a : Addr) : Addr × Bool :=
  if s.comp = none then
    if a.comp + 1 < ndim then ({ a with comp := a.comp + 1 }, true) else stepVar s vars { a with comp := 0 }
  else stepVar s vars a

/-- global_enumerator.cpp:373-408: the step on the element; `false` is the state when the element is exhausted -/
def stepIn (s : Slice) (vars : List Var) (a : Addr) : Addr × Bool :=
  match vars[a.var]? with
  | none => (a, false)
  | some v =>
    if s.dof = none then
      if a.dof + 1 < (sizes v a.num).2 then ({ a with dof := a.dof + 1 }, true)
      else stepComp s vars (sizes v a.num).1 { a with dof := 0 }
    else stepComp s vars (sizes v a.num).1 a

/-- global_enumerator.cpp:419-441: the next dimension -/
def stepDim (s : Slice) (m : Mesh) (vars : List Var) (a : Addr) (l : Nat) : Option Place :=
  let g := if a.num = 1 ∨ a.num = 3 then a.num + 1 else a.num
  if s.mask >>> g = 0 ∨ a.num = 5 then none
  else (List.range' (dimOf a.num + 1) (3 - dimOf a.num)).findSome? fun d =>
    if wantsDim s d then
      if s.loc ≠ none ∧ (m.last d ≤ l ∨ m.valid d l = false) then none
      else
        let ed := s.loc.elim (m.last d) fun _ => l + 1
        chooseElem s m vars { a with num := firstKind d } d ed (ed - l) l
    else none

/-- global_enumerator.cpp:410-418: the next element of the same dimension -/
def stepElem (s : Slice) (m : Mesh) (vars : List Var) (a : Addr) (l : Nat) : Option Place :=
  if s.loc = none then
    let d := dimOf a.num
    match chooseElem s m vars a d (m.last d) (m.last d - m.next d l) (m.next d l) with
    | some r => some r
    | none => stepDim s m vars a 0
  else stepDim s m vars a l

/-- global_enumerator.cpp:369-442 `operator++` -/
def step (s : Slice) (m : Mesh) (vars : List Var) (p : Place) : Option Place :=
  let r := stepIn s vars p.addr
  if r.2 then some ⟨p.lid, r.1⟩ else stepElem s m vars r.1 p.lid

/-- the loop `for (auto it = beginByGeom(..); it != endByGeom(); ++it) body`, as in global_enumerator.cpp:13-16, 22-25,
30-34, 48-52, 151-155 -/
def forEach {S : Type} (s : Slice) (m : Mesh) (vars : List Var) (body : S → Place → S) : Nat → Option Place → S → S
  | 0, _, x => x
  | _ + 1, none, x => x
  | fuel + 1, some p, x => forEach s m vars body fuel (step s m vars p) (body x p)

end Verif.GeomWalk
