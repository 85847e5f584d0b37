/-!
Specification vocabulary for the degrees of freedom stored on the elements of a mesh and for their global numbers.

The kinds of d.o.f.s are numbered 0 node, 1 edge, 2 oriented edge, 3 face, 4 oriented face, 5 cell.
-/
namespace Verif.Enumerator

/-- one variable: is it a vector of `dim` equal components, and how many d.o.f.s of each kind a component has -/
structure Var where
  vec : Bool
  dim : Nat
  base : Nat → Nat

/-- the number of components -/
def Var.comps (v : Var) : Nat := if v.vec then v.dim else 1

/-- the address of a d.o.f. on an element: kind, variable, component, number inside the component -/
structure Addr where
  num : Nat
  var : Nat
  comp : Nat
  dof : Nat
deriving DecidableEq, Repr

/-- the kinds of d.o.f.s stored on an element of dimension `d`, in the order of storage -/
def kindsOf : Nat → List Nat
  | 0 => [0] | 1 => [1, 2] | 2 => [3, 4] | _ => [5]

/-- the dimension of a kind -/
def dimOf : Nat → Nat
  | 0 => 0 | 1 => 1 | 2 => 1 | 3 => 2 | 4 => 2 | _ => 3

/-- the addresses of variable number `i` of kind `k`, component by component -/
def addrsVar (v : Var) (i k : Nat) : List Addr :=
  (List.range v.comps).flatMap fun c => (List.range (v.base k)).map fun j => ⟨k, i, c, j⟩

/-- the addresses of kind `k`, variable by variable -/
def addrsKind (vars : List Var) (k : Nat) : List Addr := vars.zipIdx.flatMap fun vi => addrsVar vi.1 vi.2 k

/-- all the addresses on an element of dimension `d`: the position in this list is the place of storage -/
def addrs (vars : List Var) (d : Nat) : List Addr := (kindsOf d).flatMap fun k => addrsKind vars k

/-- the addresses on an element storing the variable number `i` only -/
def addrsSingle (v : Var) (i d : Nat) : List Addr := (kindsOf d).flatMap fun k => addrsVar v i k

/-- the sum of the first `n` values -/
def sumN (n : Nat) (f : Nat → Nat) : Nat := ((List.range n).map f).sum

/-- the process owns the elements of dimension `d` with the global ids `b d`, `b d + 1`, ..., listed in any order -/
def Contiguous (own : Nat → List Nat) (b : Nat → Nat) : Prop :=
  ∀ d, (own d).Perm ((List.range (own d).length).map (b d + ·))

/-- Elements are distributed over `P` processes: process `p` owns the elements of dimension `d` with the global ids
`own p d`, listed in any order; ids are contiguous on a process and increase with the number of the process. -/
structure Distributed (P : Nat) (own : Nat → Nat → List Nat) (total : Nat → Nat) : Prop where
  perm : ∀ p, Contiguous (own p) fun d => sumN p fun q => (own q d).length
  total : ∀ d, total d = sumN P fun q => (own q d).length

/-- the intervals `[beg p, fin p)` are disjoint and cover exactly `[0, n)` -/
structure Partition (P : Nat) (beg fin : Nat → Nat) (n : Nat) : Prop where
  inside : ∀ p, p < P → beg p ≤ fin p ∧ fin p ≤ n
  cover : ∀ g, g < n → ∃ p, p < P ∧ beg p ≤ g ∧ g < fin p
  unique : ∀ g p q, p < P → q < P → beg p ≤ g → g < fin p → beg q ≤ g → g < fin q → p = q

/-- `f` numbers the things satisfying `S` by exactly the numbers of `[a, b)`, without repetition -/
structure Numbering {α : Type} (S : α → Prop) (f : α → Option Nat) (a b : Nat) : Prop where
  range : ∀ x, S x → ∃ n, f x = some n ∧ a ≤ n ∧ n < b
  inj : ∀ x y n, S x → S y → f x = some n → f y = some n → x = y
  surj : ∀ n, a ≤ n → n < b → ∃ x, S x ∧ f x = some n

/-- the total number of d.o.f.s of a mesh with `total d` elements of dimension `d` and `nd k` d.o.f.s of kind `k` -/
def totalSize (nd total : Nat → Nat) : Nat := sumN 6 fun k => total (dimOf k) * nd k

/-- the d.o.f.s of the process: (global id of an owned element, address on the element) -/
def OwnedDof (vars : List Var) (own : Nat → List Nat) (x : Nat × Addr) : Prop :=
  x.1 ∈ own (dimOf x.2.num) ∧ x.2 ∈ addrs vars (dimOf x.2.num)

end Verif.Enumerator
