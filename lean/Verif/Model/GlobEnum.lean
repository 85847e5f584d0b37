import Verif.Model.Ordered

/-!
Model of the holder of enumerators `GlobEnumeration`, `/repo/anifem++/inmost_interface/global_enumerator.h:392-428` and
`global_enumerator.cpp:866-889`: the choice of the enumerator by its type, or by the user.

As in `Model/Enumerator.lean` the handles of the mesh database are replaced by (dimension, global id), and `none` stands for
an exception, a failed assertion or undefined behaviour.
-/
namespace Verif.Enumerator

/-- global_enumerator.h:393-401 `ASSEMBLING_TYPE` -/
inductive AType where
  | anitype | miniblocks | natural | dimunion | byelemtype | etdimblocks | nospecified
deriving DecidableEq, Repr

/-- What `m_invoker` (global_enumerator.h:403) points to; an enumerator of the user is the function it numbers with. -/
inductive Base where
  | simple (k : Kind)
  | ordered (perm : List Nat)
  | user (f : Nat × Addr → Option Nat)

/-- global_enumerator.h:403-404: the fields of `GlobEnumeration` with their initial values -/
structure Glob where
  t : AType := .natural
  invoker : Option Base := none

/-- global_enumerator.h:410 `setAssemblingType`, as it stands in the code: the old type is tested -/
def Glob.setType (g : Glob) (t : AType) : Option Glob := if g.t = .nospecified then none else some { g with t := t }

/-- global_enumerator.h:412, 414 `setBaseEnumerator` with a pointer or an enumerator -/
def Glob.setBase (g : Glob) (b : Base) : Glob := { g with invoker := some b }

/-- global_enumerator.h:416 `setBaseEnumerator` with a type only; `b` is the new enumerator -/
def Glob.setBaseNew (_ : Glob) (b : Base) : Glob := { t := .nospecified, invoker := some b }

/-- global_enumerator.h:419 `Clear` -/
def Glob.clear (g : Glob) : Glob := { g with invoker := none }

/-- global_enumerator.cpp:869-879: the enumerator `setup` is called for; the constants VAR .. DOF_ID are those of
global_enumerator.h:323-327.  `none`: the null pointer, or an exception of `setArrangment`. -/
def Glob.invoke (g : Glob) : Option Base :=
  match g.t with
  | .anitype => some (.simple .anitype)
  | .miniblocks => some (.simple .miniblocks)
  | .natural => (arrange [0, 1, 2, 3, 4]).map .ordered
  | .dimunion => (arrange [0, 2, 3, 4, 1]).map .ordered
  | .byelemtype => (arrange [2, 0, 1, 3, 4]).map .ordered
  | .etdimblocks => (arrange [2, 0, 3, 4, 1]).map .ordered
  | .nospecified => g.invoker

/-- `setup` of the enumerator (global_enumerator.cpp:671, 702) and then its `operator()(NaturalIndex)`, for an element of the process -/
def Base.number (vars : List Var) (s : Setup) (b : Base) (x : Nat × Addr) : Option Nat :=
  match b with
  | .simple k => s.index vars k true x.1 x.2
  | .ordered perm => (orderedSetup vars s perm false).bind fun o => o.index vars x
  | .user f => f x

/-- global_enumerator.cpp:866-889 `GlobEnumeration::setup` and then `operator()(NaturalIndex)` (global_enumerator.h:421), for an element of the process -/
def Glob.number (g : Glob) (vars : List Var) (s : Setup) (x : Nat × Addr) : Option Nat :=
  g.invoke.bind fun b => b.number vars s x

end Verif.Enumerator
