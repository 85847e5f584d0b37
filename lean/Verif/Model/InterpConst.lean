import Verif.Model.Gather

/-!
Model of `interpolateConstant` (`/repo/anifem++/fem/operations/interpolate.inl:8-13`, `/repo/anifem++/fem/fem_space.inl:58-65`).

The loops are run for at most `n` steps, the theorems are for all large `n`.  The container `udofs` is a function of the position.
-/
namespace Verif.InterpConst
open Verif.DofMap Verif.Sparsity Verif.GeomIter Verif.Gather

/-- `udofs[it->gid] = val`, interpolate.inl:12, fem_space.inl:60, 64 -/
def put {K : Type} (val : K) (u : Nat → K) (lo : It) : Nat → K := fun j => if j = lo.1 then val else u j

/-- `interpolateConstant(val, udofs, sp)`, interpolate.inl:8-13, fem_space.inl:58-61: the loop over the map of the space -/
def constant {K : Type} (n : Nat) (val : K) (t : Tree) (s : Sp) (u : Nat → K) : Nat → K :=
  (visits ((iter t).next false s) n ((iter t).start false s)).foldl (put val) u

/-- `interpolateConstant(val, udofs, sp, sub_map)`, fem_space.inl:62-65: the loop over a component, `gid` is the number in the
whole space -/
def constantSub {K : Type} (n : Nat) (val : K) (v : View) (s : Sp) (u : Nat → K) : Nat → K :=
  (visits (viewNext v false s) n (viewStart v false s)).foldl (put val) u

end Verif.InterpConst
