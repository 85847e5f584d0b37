/-!
Specification vocabulary for the dynamic work memory: parts handed out to users.  A part has a range in each of the three
buffers (0 scalars, 1 integers, 2 matrices) of one chunk; `gen` identifies the buffer to which its pointers point (a buffer is
replaced when the vector is resized, then old pointers dangle).
-/
namespace Verif.DynMem

/-- a handed-out part -/
structure Part where
  chunk : Nat
  id : Nat
  off : Fin 3 → Nat
  size : Fin 3 → Nat
  gen : Fin 3 → Nat

/-- no common cell of any buffer -/
def Apart (p q : Part) : Prop :=
  p.chunk ≠ q.chunk ∨ ∀ k, p.size k = 0 ∨ q.size k = 0 ∨ p.off k + p.size k ≤ q.off k ∨ q.off k + q.size k ≤ p.off k

instance (p q : Part) : Decidable (Apart p q) := inferInstanceAs (Decidable (_ ∨ _))

/-- a request of the user: allocate the three arrays, release the `i`-th live part (the newest has number 0), defragment -/
inductive Op where
  | alloc (req : Fin 3 → Nat)
  | release (i : Nat)
  | defragment

end Verif.DynMem
