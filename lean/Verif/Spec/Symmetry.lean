/-!
Specification vocabulary for symmetric d.o.f. positions.  The documentation (`fem_space.h`, items B1, C2, D2) names the
d.o.f.s of a symmetry group on an element by words: the `k`-th letter is attached to the `k`-th vertex of the element;
equal letters mean equal barycentric coordinates.  Letters are numbered a = 0, b = 1, c = 2, d = 3.
-/
namespace Verif.Symmetry

/-- a renumbering of the four nodes: the list of new numbers -/
def IsPerm (p : List Nat) : Prop := p.length = 4 ∧ p.Nodup ∧ ∀ x ∈ p, x < 4

instance (p : List Nat) : Decidable (IsPerm p) := inferInstanceAs (Decidable (_ ∧ _))

/-- the words of the groups on an element of dimension `d` (group `s`), in the documented order:
edge S1, S2 (order ab, ba); face S1, S3 (abb bab bba), S6 (abc bca cab acb cba bac); cell S1, S4 (abbb babb bbab bbba),
S6 (aabb abab baab abba baba bbaa), S12 (abcc bcac cabc acbc cbac bacc bcca cacb accb cbca ccba ccab),
S24 (abcd bcad cabd acbd cbad bacd abdc bcda cadb acdb cbda badc adbc bdca cdab adcb cdba bdac dabc dbca dcab dacb dcba
dbac) -/
def words : Nat → Nat → List (List Nat)
  | 0, 0 => [[0]]
  | 1, 0 => [[0, 0]]
  | 1, 1 => [[0, 1], [1, 0]]
  | 2, 0 => [[0, 0, 0]]
  | 2, 1 => [[0, 1, 1], [1, 0, 1], [1, 1, 0]]
  | 2, 2 => [[0, 1, 2], [1, 2, 0], [2, 0, 1], [0, 2, 1], [2, 1, 0], [1, 0, 2]]
  | 3, 0 => [[0, 0, 0, 0]]
  | 3, 1 => [[0, 1, 1, 1], [1, 0, 1, 1], [1, 1, 0, 1], [1, 1, 1, 0]]
  | 3, 2 => [[0, 0, 1, 1], [0, 1, 0, 1], [1, 0, 0, 1], [0, 1, 1, 0], [1, 0, 1, 0], [1, 1, 0, 0]]
  | 3, 3 => [[0, 1, 2, 2], [1, 2, 0, 2], [2, 0, 1, 2], [0, 2, 1, 2], [2, 1, 0, 2], [1, 0, 2, 2],
             [1, 2, 2, 0], [2, 0, 2, 1], [0, 2, 2, 1], [2, 1, 2, 0], [2, 2, 1, 0], [2, 2, 0, 1]]
  | 3, 4 => [[0, 1, 2, 3], [1, 2, 0, 3], [2, 0, 1, 3], [0, 2, 1, 3], [2, 1, 0, 3], [1, 0, 2, 3],
             [0, 1, 3, 2], [1, 2, 3, 0], [2, 0, 3, 1], [0, 2, 3, 1], [2, 1, 3, 0], [1, 0, 3, 2],
             [0, 3, 1, 2], [1, 3, 2, 0], [2, 3, 0, 1], [0, 3, 2, 1], [2, 3, 1, 0], [1, 3, 0, 2],
             [3, 0, 1, 2], [3, 1, 2, 0], [3, 2, 0, 1], [3, 0, 2, 1], [3, 2, 1, 0], [3, 1, 0, 2]]
  | _, _ => []

/-- number of symmetry groups on elements of dimension `d` -/
def groups : Nat → Nat
  | 0 => 1 | 1 => 2 | 2 => 3 | 3 => 5 | _ => 0

/-- vertices of the elements in the documented order: edges 12 13 14 23 24 34, faces 123 234 341 412 -/
def vertices : Nat → Nat → List Nat
  | 0, e => [e]
  | 1, 0 => [0, 1] | 1, 1 => [0, 2] | 1, 2 => [0, 3] | 1, 3 => [1, 2] | 1, 4 => [1, 3] | 1, 5 => [2, 3]
  | 2, 0 => [0, 1, 2] | 2, 1 => [1, 2, 3] | 2, 2 => [2, 3, 0] | 2, 3 => [3, 0, 1]
  | 3, 0 => [0, 1, 2, 3]
  | _, _ => []

/-- number of elements of dimension `d` -/
def elements : Nat → Nat
  | 0 => 4 | 1 => 6 | 2 => 4 | 3 => 1 | _ => 0

/-- how many of the numbers in `l` are smaller than `x` -/
def rank (l : List Nat) (x : Nat) : Nat := (l.filter (· < x)).length

/-- The letter at the vertex with new number `x` is the letter at the vertex itself: the word `w` on the element's
vertices `vs` and the word `w'` on the vertices sorted by their new numbers `p` describe the same points. -/
def SamePoint (p : List Nat) (vs w w' : List Nat) : Prop :=
  ∀ k, k < vs.length → w'[rank (vs.map fun v => p.getD v 4) (p.getD (vs.getD k 4) 4)]? = w[k]?

instance (p vs w w' : List Nat) : Decidable (SamePoint p vs w w') := inferInstanceAs (Decidable (∀ k, k < _ → _))

/-- the element whose vertices have the numbers `vs` (in any order) -/
def elementOf (d : Nat) (vs : List Nat) : Nat :=
  (List.range (elements d)).findIdx fun e => (List.range 4).all fun v => (vertices d e).contains v == vs.contains v

end Verif.Symmetry
