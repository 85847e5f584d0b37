import Verif.Model.GeomIter
import Verif.Spec.GeomIter

/-!
Model of the gathering of the d.o.f. values of a variable on a cell (`GatherDataOnElement`,
`/repo/anifem++/inmost_interface/ordering.inl:251-352`).

The value stored for a d.o.f. (`takeElementDOF`, `takeElementDOFifAvailable`, ordering.inl:220-250) is a function `take` of the
`LocalOrder`; `none` means that the tag has no value there.  The container `out` is a function of the position.
Every loop is run for at most `n` steps, the theorems are for all large `n`.
-/
namespace Verif.Gather
open Verif.DofMap Verif.Sparsity Verif.GeomIter

/-- number and place in the enclosing map: `lo.gid += m_shiftOnTet; lo.leid += m_shiftNumDof[…]`, tetdofmap.cpp:980-981, 993-994 -/
def outer (v : View) (x : It) : It := (x.1 + v.shiftTet, x.2.shift v.shiftNum)

/-- `lo.gid -= m_shiftOnTet; lo.leid -= m_shiftNumDof[…]`, tetdofmap.cpp:987-988 -/
def inner (v : View) (x : It) : It := (x.1 - v.shiftTet, { x.2 with leid := x.2.leid - v.shiftNum x.2.num })

/-- `NestedDofMapBase::BeginByGeomSparsity`, tetdofmap.cpp:975-984 -/
def viewStart (v : View) (g : Bool) (s : Sp) : Option It := ((iter v.base).start g s).map (outer v)

/-- `NestedDofMapBase::IncrementByGeomSparsity`, tetdofmap.cpp:985-998 -/
def viewNext (v : View) (g : Bool) (s : Sp) (x : It) : Option It := ((iter v.base).next g s (inner v x)).map (outer v)

/-- `GDOTAssign::assign`, ordering.inl:278-286 -/
def assign {K : Type} (out : Nat → K) (pos : Nat) (v : Option K) : Nat → K :=
  match v with
  | some a => fun j => if j = pos then a else out j
  | none => out

/-- the body for one dimension, ordering.inl:302-311: the set has all elements of the dimension, the geometric order is preferred -/
def gatherDim {K : Type} (n : Nat) (take : It → Option K) (v : View) (out : Nat → K) (dim : Nat) : Nat → K :=
  (visits (viewNext v true (Sp.none.setDim dim)) n (viewStart v true (Sp.none.setDim dim))).foldl
    (fun out lo => assign out (lo.1 - v.shiftTet) (take lo)) out

/-- the loop over the dimensions, ordering.inl:302 -/
def gather {K : Type} (n : Nat) (take : It → Option K) (v : View) (out : Nat → K) : Nat → K :=
  (List.range 4).foldl (gatherDim n take v) out

/-- the map itself as a view without shifts: stands for `ldmap = &dmap`, ordering.inl:294 -/
def wholeView (t : Tree) : View := ⟨fun _ => 0, 0, t⟩

/-- the component `p` of the map, ordering.inl:294-301 (`ncomp == 0`: the map itself).  `none`: the view is cleared and has no
map (tetdofmap.h:613).  The numbers of components are non-negative. -/
def compView (t : Tree) (p : List Nat) : Option View :=
  match p with
  | [] => some (wholeView t)
  | p => nested t (p.map fun i : Nat => (i : Int)) (fun _ => 0) 0

/-- `GatherDataOnElement` with one tag, ordering.inl:287-312 -/
def gatherTag {K : Type} (n : Nat) (take : It → Option K) (t : Tree) (p : List Nat) (out : Nat → K) : Option (Nat → K) :=
  (compView t p).map fun v => gather n take v out

/-- `NestedDim()`, tetdofmap.h:612, 641, 681 -/
def nestedDim : Tree → Nat
  | .unite _ => 0
  | .vector d _ => d
  | .complex l => l.length

/-- writing through the iterator `out + sh`, ordering.inl:340 -/
def writeAt {K : Type} (sh : Nat) (f : (Nat → K) → Option (Nat → K)) (out : Nat → K) : Option (Nat → K) :=
  (f fun j => out (sh + j)).map fun r j => if j < sh then out j else r (j - sh)

/-- the variables `v, v + 1, …` (`k` of them), ordering.inl:336-341 -/
def gatherFrom {K : Type} (n : Nat) (take : Nat → It → Option K) (t : Tree) (p : List Nat) :
    Nat → Nat → (Nat → K) → Option (Nat → K)
  | 0, _, out => some out
  | k + 1, v, out =>
    match compView t [v] with
    | none => none
    | some w =>
      match writeAt w.shiftTet (gatherTag n (take v) w.base p) out with
      | none => none
      | some out' => gatherFrom n take t p k (v + 1) out'

/-- `GatherDataOnElement` with one tag per variable, ordering.inl:323-342 (`none`: the exception or an unusable view) -/
def gatherVars {K : Type} (n : Nat) (ntags : Nat) (take : Nat → It → Option K) (t : Tree) (p : List Nat) (out : Nat → K) :
    Option (Nat → K) :=
  match p with
  | [] => if ntags < nestedDim t then none else gatherFrom n take t [] (nestedDim t) 0 out
  | k :: p' => if ntags < k + 1 then none else gatherFrom n take t p' 1 k out

end Verif.Gather
