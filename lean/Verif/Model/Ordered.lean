import Verif.Model.Enumerator
import Verif.Model.ExtEnum

/-!
Model of `OrderedEnumerator`, `/repo/anifem++/inmost_interface/global_enumerator.{h,cpp}`: the numbering of the d.o.f.s of a
process in a lexicographical order of chosen precedence of variable, component, kind, element and d.o.f.

As in `Model/Enumerator.lean` the handles of the mesh database are replaced by (dimension, global id), and `none` stands for
an exception, a failed assertion or undefined behaviour.
-/
namespace Verif.Enumerator

/-- global_enumerator.cpp:624-637 `OrderedEnumerator::setArrangment`: the places of the five values; `none`: an exception -/
def arrange (order : List Nat) : Option (List Nat) :=
  (order.zipIdx.foldl (fun (l : Option (List Nat)) oi => l.bind fun l => if l.length ≤ oi.1 then none else some (l.set oi.1 oi.2))
    (some (List.replicate 5 255))).bind fun l => if 255 ∈ l then none else some l

/-- global_enumerator.cpp:639-649 `OrderedEnumerator::getArrangement` -/
def arrangement (perm : List Nat) : List Nat × Bool :=
  let o := perm.zipIdx.foldl (fun (o : List Nat) pi => if pi.1 < o.length then o.set pi.1 pi.2 else o) (List.replicate 5 255)
  (o, decide (255 ∉ o))

/-- global_enumerator.cpp:769-774: the array `id` of the five values -/
def put5 (perm v : List Nat) : List Nat :=
  [0, 1, 2, 3, 4].foldl (fun (id : List Nat) k => id.set (perm.getD k 0) (v.getD k 0)) (List.replicate 5 0)

/-- global_enumerator.cpp:717, 731-734: the place of the value `k` when the element is left out -/
def shift (perm : List Nat) (k : Nat) : Nat := perm.getD k 0 - if perm.getD 3 0 < perm.getD k 0 then 1 else 0

/-- global_enumerator.cpp:730-734: the array `dof_id` of the four values (the value 3 is not used) -/
def put4 (perm v : List Nat) : List Nat :=
  [0, 1, 2, 4].foldl (fun (id : List Nat) k => id.set (shift perm k) (v.getD k 0)) (List.replicate 4 0)

/-- global_enumerator.cpp:721-736: the values of one variable; no remainder by zero is taken, since a variable without components has no d.o.f.s -/
def baseVar (perm : List Nat) (v : Var) (vi : Nat) : List (List Nat) :=
  (List.range 6).flatMap fun et => (List.range (v.numDof et)).map fun di => put4 perm [vi, di % v.comps, et, 0, di / v.comps]

/-- global_enumerator.cpp:718-737: the array `vals` -/
def baseVals (perm : List Nat) (vars : List Var) : List (List Nat) := vars.zipIdx.flatMap fun vi => baseVar perm vi.1 vi.2

/-- global_enumerator.h:351-357: the fields of `OrderedEnumerator` -/
structure Ordered where
  s : Setup
  perm : List Nat
  reverse : Bool
  emap : ExtEnum.Ext

/-- global_enumerator.cpp:702-739 `OrderedEnumerator::setup` up to the tags; `NumElem[_qid[i]]` is the number of the elements of the kind `i` -/
def orderedSetup (vars : List Var) (s : Setup) (perm : List Nat) (reverse : Bool) : Option Ordered :=
  (ExtEnum.setup 4 (perm.getD 3 0) (shift perm 2) (fun v => s.numElem (dimOf v)) (ExtEnum.baseSet (baseVals perm vars))).map fun E =>
    ⟨s, perm, reverse, E⟩

/-- the five values of a d.o.f.: variable, component, kind, place of the element, number inside the component
(global_enumerator.cpp:770-774) -/
def Ordered.values (o : Ordered) (x : Nat × Addr) : List Nat :=
  [x.2.var, x.2.comp, x.2.num, x.1 - o.s.begElem (dimOf x.2.num), x.2.dof]

/-- global_enumerator.cpp:768-777 `OrderedEnumerator::index_byMap`, for an element `x.1` of the process -/
def Ordered.byMap (o : Ordered) (x : Nat × Addr) : Option Nat :=
  (ExtEnum.rank o.emap (put5 o.perm (o.values x))).map fun i => (if o.reverse then o.emap.size - i - 1 else i) + o.s.begInd

/-- global_enumerator.cpp:748-753: the entry `k` of the tag of the element `gid` of dimension `d` -/
def Ordered.tag (o : Ordered) (vars : List Var) (d gid k : Nat) : Option Nat :=
  (split vars d k).bind fun e => o.byMap (gid, e.addr)

/-- global_enumerator.cpp:758-767 `operator()(NaturalIndex)` and `OrderC`; the exchange of the tags gives the ghost elements the values of their
owners, here `gid` is an element of the process -/
def Ordered.index (o : Ordered) (vars : List Var) (x : Nat × Addr) : Option Nat :=
  (fullIndex vars x.2).bind fun e => o.tag vars (dimOf x.2.num) x.1 e.elemDofId

/-- global_enumerator.cpp:779-795 `operator()(EnumerateIndex)`, for a number of the process; `glob_to_loc` is inverted by adding `BegElemID` as in
`Setup.locate` -/
def Ordered.inverse (o : Ordered) (id : Nat) : Option (Nat × Addr) :=
  if o.s.begInd < id then
    (ExtEnum.unrank o.emap (if o.reverse then o.emap.size - 1 - (id - o.s.begInd) else id - o.s.begInd)).map fun x =>
      let num := x.getD (o.perm.getD 2 0) 0
      (o.s.begElem (dimOf num) + x.getD (o.perm.getD 3 0) 0, ⟨num, x.getD (o.perm.getD 0 0) 0, x.getD (o.perm.getD 1 0) 0, x.getD (o.perm.getD 4 0) 0⟩)
  else none

end Verif.Enumerator
