import Verif.Model.Enumerator
import Mathlib.Data.Nat.Digits.Defs

/-!
Model of two functions of `/repo/anifem++/utils/utils.cpp`: `createFemVarTag` (lines 101-124), the tag holding the d.o.f.s of a variable, and
the line printing the number of iterations in `print_linear_solver_status` (lines 92-93).
-/
namespace Verif.VarTag
open Verif.Enumerator

/-- utils.cpp:106-114: the loop over the numbers of d.o.f.s of the elements of the dimensions 1, 2, 3; `none` stands for `ENUMUNDEF`, the size of a
tag with arrays of different lengths -/
def varSize : Nat → List Nat → Option Nat
  | sz, [] => some sz
  | sz, n :: l => if n ≠ 0 then if sz = 0 then varSize n l else if sz ≠ n then none else varSize sz l else varSize sz l

/-- utils.cpp:103-117: `sz`; `nd k` is the number of d.o.f.s of the kind `k`, `DofTNumDofsToInmostNumDofs` is `inmostNumDof` -/
def size (fixed : Bool) (nd : Nat → Nat) : Option Nat :=
  if fixed then some ([inmostNumDof nd 0, inmostNumDof nd 1, inmostNumDof nd 2, inmostNumDof nd 3].foldl max 0)
  else varSize (inmostNumDof nd 0) [inmostNumDof nd 1, inmostNumDof nd 2, inmostNumDof nd 3]

/-- utils.cpp:102, 118-122: the number of values on an element of dimension `d`; `none`: the tag is not defined there.  The mask of the map has the
kinds with d.o.f.s, so that the mask of the tag has the dimensions of `usedDim`. -/
def entries (fixed : Bool) (nd : Nat → Nat) (d : Nat) : Option Nat :=
  if usedDim nd d then
    match size fixed nd with
    | some n => some n
    | none => some (inmostNumDof nd d)
  else none

/-- `std::to_string` of an unsigned number: its decimal digits (utils.cpp:92) -/
def decimal (n : Nat) : List Nat := if n = 0 then [0] else (Nat.digits 10 n).reverse

/-- utils.cpp:92-93: four places, `none` is the blank; the copy starts at the place `3 - size`.  An outer `none`: the copy starts before the string. -/
def itsField (n : Nat) : Option (List (Option Nat)) :=
  let s := decimal n
  if 3 < s.length then none
  else some (List.replicate (3 - s.length) none ++ s.map some ++ List.replicate 1 none)

end Verif.VarTag
