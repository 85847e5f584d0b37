import Verif.Model.GidMap

/-! Specification of the maps from global ids to local numbers. -/
namespace Verif.GidMap

/-- the elements of a process: global ids and local numbers are different for different elements of one dimension -/
structure Mesh (es : List Elem) : Prop where
  gid : ∀ e ∈ es, ∀ f ∈ es, e.dim = f.dim → e.gid = f.gid → e = f
  lid : ∀ e ∈ es, ∀ f ∈ es, e.dim = f.dim → e.lid = f.lid → e = f
  small : ∀ e ∈ es, e.gid < Enumerator.longMax

/-- `b` is the smallest global id of the elements of dimension `d` the process owns -/
def Smallest (es : List Elem) (d b : Nat) : Prop :=
  (∃ e ∈ es, e.dim = d ∧ e.ghost = false ∧ e.gid = b) ∧ ∀ e ∈ es, e.dim = d → e.ghost = false → b ≤ e.gid

/-- the array gives the local number of every element of dimension `d` the process owns -/
def Gives (es : List Elem) (d b : Nat) (a : List Nat) : Prop :=
  ∀ e ∈ es, e.dim = d → e.ghost = false → a[e.gid - b]? = some e.lid

/-- the global ids of the elements the process owns, dimension `d` -/
def owned (es : List Elem) (d : Nat) : List Nat := (es.filter fun e => decide (e.dim = d ∧ e.ghost = false)).map Elem.gid

end Verif.GidMap
