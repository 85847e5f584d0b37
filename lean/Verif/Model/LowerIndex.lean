import Verif.Model.Ordered
import Verif.Model.ExtBound

/-!
Model of `OrderedEnumerator::getLowerOrderIndex`, `/repo/anifem++/inmost_interface/global_enumerator.cpp:651-669`: the iterator
over the numbers of the process that starts at a given place of the order.  The place need not be a d.o.f. of the process: the
element is given by a number, which may be any, and the address may be any.
-/
namespace Verif.Enumerator
open Verif.ExtEnum

/-- global_enumerator.cpp:654-659: the five values of the place; an element below those of the process is taken for the first -/
def Ordered.lowerValues (o : Ordered) (gid : Int) (a : Addr) : List Nat :=
  [a.var, a.comp, a.num, if (o.s.begElem (dimOf a.num) : Int) ≤ gid then (gid - o.s.begElem (dimOf a.num)).toNat else 0, a.dof]

/-- global_enumerator.cpp:651-669 `getLowerOrderIndex`: the number held by the iterator; `it == loc_emap.end()` compares the
numbers of the iterators (ext_array_enum.h:81), `st + (id - st->GetVecInd().id)` holds `id` -/
def Ordered.lower (o : Ordered) (gid : Int) (a : Addr) : Option Nat :=
  (lowerBound o.emap (put5 o.perm (o.lowerValues gid a))).map fun i =>
    if i = o.emap.size then o.s.endInd else (if o.reverse then o.emap.size - i - 1 else i) + o.s.begInd

end Verif.Enumerator
