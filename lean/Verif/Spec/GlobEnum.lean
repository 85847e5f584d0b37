import Verif.Model.GlobEnum
import Verif.Spec.Ordered

/-!
Specification for C84: the orders documented beside the types of the enumerators (global_enumerator.h:394-399).
-/
namespace Verif.Enumerator

/-- "ordered as VAR DIM ELEM_TYPE ELEM_ID DOF_ID" and so on; `none`: another kind of enumerator. -/
def docKey (t : AType) (x : Nat × Addr) : Option (List Nat) :=
  match t with
  | .natural => some [x.2.var, x.2.comp, x.2.num, x.1, x.2.dof]
  | .dimunion => some [x.2.var, x.2.num, x.1, x.2.dof, x.2.comp]
  | .byelemtype => some [x.2.num, x.2.var, x.2.comp, x.1, x.2.dof]
  | .etdimblocks => some [x.2.num, x.2.var, x.1, x.2.dof, x.2.comp]
  | _ => none

/-- "ordered as ELEM_TYPE VAR DIM DOF_ID ELEM_ID" (global_enumerator.h:394), oriented and not oriented d.o.f.s being of different kinds -/
def aniKey (x : Nat × Addr) : List Nat := [x.2.num, x.2.var, x.2.comp, x.2.dof, x.1]

/-- The same "without distinction of ORDERED and UNORDERED ELEM_TYPEs" (global_enumerator.h:394): only the dimension counts. -/
def aniKeyUnion (x : Nat × Addr) : List Nat := [dimOf x.2.num, x.2.var, x.2.comp, x.2.dof, x.1]

end Verif.Enumerator
