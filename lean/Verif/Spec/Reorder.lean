import Verif.Spec.Symmetry
import Mathlib.Algebra.Group.Defs
import Mathlib.Data.List.Basic

/-!
What the numbers stored on an edge, a face or a cell of a mesh mean.  The values of a symmetry group are stored in the order
of the documented words (`Verif/Spec/Symmetry.lean`), the letters of a word belong to the nodes of the element sorted by a
node enumeration.  So the meaning of a stored value depends on the node enumeration: a value belongs to its group, to the copy
of the group and to the letters at the nodes of the element.
-/
namespace Verif.Reorder
open Verif.Symmetry

/-- the place of a node in the order of a node enumeration -/
def rank {N : Type} (g : N → Int) (nodes : List N) (x : N) : Nat := nodes.countP fun y => decide (g y < g x)

/-- the letters which a word puts on the nodes of an element sorted by the enumeration `g` -/
def letters {N : Type} [DecidableEq N] (g : N → Int) (nodes : List N) (w : List Nat) : N → Option Nat :=
  fun x => if x ∈ nodes then w[rank g nodes x]? else none

/-- the letters which a word puts on nodes listed one after the other -/
def listed {N : Type} [DecidableEq N] (nodes : List N) (w : List Nat) : N → Option Nat :=
  fun x => if x ∈ nodes then w[nodes.idxOf x]? else none

/-- number of values of the groups before group `s`; `ms` are the numbers of copies of the groups -/
def offset (d : Nat) (ms : List Nat) (s : Nat) : Nat := ((List.range s).map fun t => (words d t).length * ms.getD t 0).sum

/-- number of all values of an element of dimension `d` -/
def total (d : Nat) (ms : List Nat) : Nat := offset d ms (groups d)

/-- the value number `a` of the copy `c` of the group `s` -/
def place (d : Nat) (ms : List Nat) (s c a : Nat) : Nat := offset d ms s + (words d s).length * c + a

/-- there is such a value -/
def Valid (d : Nat) (ms : List Nat) (s c a : Nat) : Prop := s < groups d ∧ c < ms.getD s 0 ∧ a < (words d s).length

/-- The stored values `data` on an element with the nodes `nodes` are the values of the function `F` of the group, the copy
and the letters at the nodes, when the nodes are ordered by the enumeration `g`. -/
def Represents {N K : Type} [DecidableEq N] (g : N → Int) (nodes : List N) (ms : List Nat) (data : Nat → K)
    (F : Nat → Nat → (N → Option Nat) → K) : Prop :=
  ∀ s c a, Valid (nodes.length - 1) ms s c a →
    data (place (nodes.length - 1) ms s c a) = F s c (letters g nodes ((words (nodes.length - 1) s).getD a []))

/-- The enumeration `g'` turns the orientation of the element given by `g`: an odd number of pairs of nodes is exchanged. -/
def Turned {N : Type} (g g' : N → Int) (nodes : List N) : Prop :=
  ((nodes.map fun x => nodes.countP fun y => decide (g x < g y ∧ g' y < g' x)).sum) % 2 = 1

instance {N : Type} (g g' : N → Int) (nodes : List N) : Decidable (Turned g g' nodes) := inferInstanceAs (Decidable (_ = _))

/-- what the oriented values have to represent after the change from `g` to `g'`: the function with the sign of the new
orientation -/
def turnedFn {N K : Type} [Neg K] (g g' : N → Int) (nodes : List N) (F : Nat → Nat → (N → Option Nat) → K) :
    Nat → Nat → (N → Option Nat) → K := fun s c w => if Turned g g' nodes then - F s c w else F s c w

/-- a node enumeration as it is used: different nodes of the element have different numbers, which are numbers of type
`long` below the largest one -/
def Numbered {N : Type} (g : N → Int) (nodes : List N) : Prop :=
  (∀ x ∈ nodes, ∀ y ∈ nodes, g x = g y → x = y) ∧ ∀ x ∈ nodes, g x < 2 ^ 63 - 1

end Verif.Reorder
