import Verif.Spec.GeomWalk

/-!
Specification vocabulary for values stored on the elements of a mesh: an array of numbers is attached to every element.
-/
namespace Verif.TagCopy
open Verif.Enumerator Verif.GeomWalk

/-- the place of a value on the mesh: dimension of the element, its local number, position in its array -/
abbrev Cell := Nat × Nat × Nat

/-- the slice of everything -/
def everything : Slice := ⟨none, none, none, 0xFF, none⟩

/-- the slice of one variable -/
def ofVar (v : Nat) : Slice := ⟨some v, none, none, 0xFF, none⟩

/-- the d.o.f. `p` is stored at `c` if all the variables are stored in one array -/
def StoredAt (vars : List Var) (p : Place) (c : Cell) : Prop :=
  c.1 = dimOf p.addr.num ∧ c.2.1 = p.lid ∧ (addrs vars c.1)[c.2.2]? = some p.addr

/-- the d.o.f. `p` is stored at `c` in the array of its own variable -/
def StoredSingle (vars : List Var) (p : Place) (c : Cell) : Prop :=
  c.1 = dimOf p.addr.num ∧ c.2.1 = p.lid ∧ ∃ v, vars[p.addr.var]? = some v ∧ (addrsSingle v p.addr.var c.1)[c.2.2]? = some p.addr

/-- `idx` gives different numbers to different d.o.f.s of the list -/
structure NumbersOnce (l : List Place) (idx : Place → Option Nat) : Prop where
  total : ∀ p, p ∈ l → ∃ n, idx p = some n
  inj : ∀ p q n, p ∈ l → q ∈ l → idx p = some n → idx q = some n → p = q

/-- the owned elements of dimension `d`, by global id, in the order of the mesh -/
def ownedIds (m : Mesh) (gid : Nat → Nat → Nat) (d : Nat) : List Nat :=
  ((List.range (m.last d)).filter fun l => m.valid d l && !m.ghost d l).map (gid d)

/-- the number of unoriented d.o.f.s on an element fits into an `unsigned char`, or there are no oriented ones -/
def Small (vars : List Var) (d : Nat) : Prop :=
  d = 1 ∨ d = 2 → (addrsKind vars (2 * d - 1)).length < 256 ∨ (addrsKind vars (2 * d)).length = 0

end Verif.TagCopy
