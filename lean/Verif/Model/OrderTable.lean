import Verif.Model.Enumerator

/-!
The table of local d.o.f. numbers of the assembler: anifem++/inmost_interface/assembler.inl:245-275 `prepareOrder`.

`uint` arithmetic is over `Nat`; the symmetry indices of a d.o.f. are not part of the table here (they are copied
unchanged).  `none` is a division by zero.
-/
namespace Verif.OrderTable
open Verif.DofMap Verif.Enumerator

/-- assembler.h:279-289 `OrderTempl` without the symmetry indices: variable, component, place of the element, number on
the element. -/
structure Templ where
  var : Nat
  comp : Nat
  num : Nat
  nelem : Nat
  dof : Nat
deriving DecidableEq, Repr

/-- The d.o.f. map of a variable: a power of a map or the map itself. (tetdofmap.h:621, 671) -/
def varObj (vec : Bool) (d : Nat) (b : Obj) : Obj := if vec then vectorObj d b else b

/-- assembler.inl:252-262: the number of components and `nds[type_num]`. -/
def nds (vec : Bool) (d : Nat) (b : Obj) (k : Nat) : Option Nat :=
  let ndim := if vec then d else 1
  if ndim = 0 then none else some ((varObj vec d b).numTetE k / ndim)

/-- assembler.inl:257-266: the entry for the place `l` of a d.o.f. -/
def entry (i : Nat) (vec : Bool) (d : Nat) (b : Obj) (l : Loc) : Option Templ :=
  (nds vec d b l.num).bind fun nd =>
    if nd = 0 then none else some ⟨i, l.leid / nd, l.num, l.nelem, l.leid % nd⟩

/-- assembler.inl:256-267: the entries of variable `i`, by local numbers. -/
def table (i : Nat) (vec : Bool) (d : Nat) (b : Obj) : Option (List Templ) :=
  (List.range (varObj vec d b).numTet).mapM fun g => entry i vec d b ((varObj vec d b).locate g)

/-- assembler.inl:163: the address looked up for an entry. -/
def Templ.addr (t : Templ) : Addr := ⟨t.num, t.var, t.comp, t.dof⟩

end Verif.OrderTable
