import Mathlib.Data.List.Lex
import Mathlib.Data.Finset.Card

/-!
What the enumeration of arrays extended by a ranged value means, without its tables.

The enumerated arrays are the base arrays `a` with a value `s`, smaller than a range depending on the entry `m` of `a`,
inserted at the position `n`.  They are numbered in the lexicographical order.
-/
namespace Verif.Spec.ExtEnum

/-- `a` with `s` inserted at the position `n`. -/
def insertAt (n : Nat) (a : List Nat) (s : Nat) : List Nat := a.take n ++ s :: a.drop n

/-- All enumerated arrays. -/
def arrays (n m : Nat) (rg : Nat → Nat) (A : List (List Nat)) : List (List Nat) :=
  A.flatMap fun a => (List.range (rg (a.getD m 0))).map (insertAt n a)

/-- The number of an array: how many of the enumerated arrays precede it in the lexicographical order. -/
def number (n m : Nat) (rg : Nat → Nat) (A : List (List Nat)) (x : List Nat) : Nat :=
  (arrays n m rg A).countP fun y => decide (y < x)

/-- The set of the enumerated arrays; the base arrays may come in any order and with repetitions. -/
def extSet (n m : Nat) (rg : Nat → Nat) (base : List (List Nat)) : Finset (List Nat) := (arrays n m rg base).toFinset

/-- The place of `x` in the set ordered lexicographically. -/
def place (X : Finset (List Nat)) (x : List Nat) : Nat := (X.filter (· < x)).card

end Verif.Spec.ExtEnum
