/-!
Specification vocabulary for local d.o.f. numberings of a tetrahedron.

The six kinds of elements are numbered 0 node, 1 edge (unoriented), 2 edge (oriented), 3 face (unoriented),
4 face (oriented), 5 cell.
-/
namespace Verif.DofMap

/-- How many elements of kind `k` a tetrahedron has: 4 nodes, 6 edges (counted for both edge kinds), 4 faces (for both
face kinds) and 1 cell. -/
def elems : Nat → Nat
  | 0 => 4 | 1 => 6 | 2 => 6 | 3 => 4 | 4 => 4 | 5 => 1 | _ => 0

/-- The place of a d.o.f.: kind of element, number of the element on the tetrahedron, number of the d.o.f. on the
element. -/
structure Loc where
  num : Nat
  nelem : Nat
  leid : Nat
deriving DecidableEq, Repr

/-- A place exists in a space with `cnt k` d.o.f.s on each element of kind `k`. -/
def Loc.Valid (cnt : Nat → Nat) (l : Loc) : Prop := l.num < 6 ∧ l.nelem < elems l.num ∧ l.leid < cnt l.num

/-- Move a place behind `cnt` d.o.f.s already sitting on the same element. -/
def Loc.shift (cnt : Nat → Nat) (l : Loc) : Loc := { l with leid := l.leid + cnt l.num }

/-- `∑_{k < n} f k` -/
def sumTo (n : Nat) (f : Nat → Nat) : Nat := ((List.range n).map f).sum

/-- Number of d.o.f.s on a tetrahedron of a space with `cnt k` d.o.f.s on each element of kind `k`. -/
def total (cnt : Nat → Nat) : Nat := sumTo 6 fun k => elems k * cnt k

/-- A numbering given by the conversions `locate : number → place` and `number : place → number` is a bijection between
`0..n-1` and the places of the space. -/
structure Bijective (n : Nat) (cnt : Nat → Nat) (locate : Nat → Loc) (number : Loc → Nat) : Prop where
  size : n = total cnt
  valid : ∀ g, g < n → (locate g).Valid cnt
  number_lt : ∀ l : Loc, l.Valid cnt → number l < n
  left_inv : ∀ g, g < n → number (locate g) = g
  right_inv : ∀ l : Loc, l.Valid cnt → locate (number l) = l

/-- The conversion number → place alone is a bijection onto the places. -/
structure BijectiveLoc (n : Nat) (cnt : Nat → Nat) (locate : Nat → Loc) : Prop where
  size : n = total cnt
  valid : ∀ g, g < n → (locate g).Valid cnt
  inj : ∀ g h, g < n → h < n → locate g = locate h → g = h
  surj : ∀ l : Loc, l.Valid cnt → ∃ g, g < n ∧ locate g = l

/-- An abstract layout: d.o.f. counts per kind and the list of the places in the order of the local numbers. -/
structure Layout where
  cnt : Nat → Nat
  locs : List Loc

/-- The layout of "first `a`, then `b`". -/
def Layout.append (a b : Layout) : Layout :=
  ⟨fun k => a.cnt k + b.cnt k, a.locs ++ b.locs.map (Loc.shift a.cnt)⟩

/-- The layout of a list of spaces, one after another. -/
def Layout.concat : List Layout → Layout
  | [] => ⟨fun _ => 0, []⟩
  | a :: t => a.append (Layout.concat t)

/-- `d` copies of a layout, one after another. -/
def Layout.copies (d : Nat) (a : Layout) : Layout := Layout.concat (List.replicate d a)

end Verif.DofMap
