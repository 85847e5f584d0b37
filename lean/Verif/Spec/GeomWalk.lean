import Verif.Spec.Enumerator

/-!
Specification vocabulary for the iteration over the degrees of freedom stored on the elements of a mesh.
-/
namespace Verif.GeomWalk
open Verif.Enumerator

/-- What is known of the mesh database: the elements of dimension `d` have local numbers below `last d`; some numbers are
holes left by deleted elements; `next d l` is the number tried after `l`. -/
structure Mesh where
  last : Nat → Nat
  valid : Nat → Nat → Bool
  ghost : Nat → Nat → Bool
  next : Nat → Nat → Nat

/-- `next` moves forward and jumps over holes only -/
def Mesh.Sound (m : Mesh) : Prop :=
  ∀ d l, l < m.next d l ∧ ∀ x, l < x → x < m.next d l → x < m.last d → m.valid d x = false

/-- a slice: `none` stands for "all"; `mask` has the bit `k` if the kind `k` of d.o.f.s is wanted -/
structure Slice where
  var : Option Nat
  comp : Option Nat
  dof : Option Nat
  mask : Nat
  loc : Option Nat

/-- a d.o.f. of the mesh: local number of the element (its dimension is the dimension of the kind) and address on it -/
structure Place where
  lid : Nat
  addr : Addr
deriving DecidableEq, Repr

/-- the address belongs to the slice -/
def Slice.Wants (s : Slice) (a : Addr) : Bool :=
  s.var.all (· == a.var) && s.comp.all (· == a.comp) && s.dof.all (· == a.dof) && s.mask.testBit a.num

/-- the element is stored, belongs to the process and to the slice -/
def Slice.Takes (s : Slice) (m : Mesh) (d l : Nat) : Bool := m.valid d l && !m.ghost d l && s.loc.all (· == l)

/-- the number of d.o.f.s of kind `k` of all variables -/
def kindSize (vars : List Var) (k : Nat) : Nat := (addrsKind vars k).length

/-- The masks for which the iterator is right: if the oriented d.o.f.s of edges (faces) are wanted then the unoriented ones are
wanted, too, or there are none. -/
def Slice.MaskOk (s : Slice) (vars : List Var) : Prop :=
  (s.mask.testBit 2 = true → s.mask.testBit 1 = false → kindSize vars 1 = 0) ∧
  (s.mask.testBit 4 = true → s.mask.testBit 3 = false → kindSize vars 3 = 0)

instance (s : Slice) (vars : List Var) : Decidable (s.MaskOk vars) := by unfold Slice.MaskOk; infer_instance

/-- the d.o.f.s of the slice: by dimension, by element, by place on the element -/
def Slice.places (s : Slice) (m : Mesh) (vars : List Var) : List Place :=
  (List.range 4).flatMap fun d => ((List.range (m.last d)).filter (s.Takes m d)).flatMap fun l =>
    ((addrs vars d).filter s.Wants).map fun a => ⟨l, a⟩

/-- every element of the list is followed by the next one, the last one by `r` -/
def Follows {α : Type} (f : α → Option α) : List α → Option α → Prop
  | [], _ => True
  | x :: xs, r => f x = xs.head?.or r ∧ Follows f xs r

end Verif.GeomWalk
