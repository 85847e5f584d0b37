import Verif.Spec.Csc

/-!
Vocabulary of C70: what a user function delivers for one element.
-/
namespace Verif.LocalFn

/-- The value which a sequence of assignments `res[k][i] = v` leaves in `res[k][i]`, zero when nothing was assigned. -/
def delivered {K : Type} [Zero K] (writes : List (Nat × Nat × K)) (k i : Nat) : K :=
  ((writes.reverse.find? fun w => decide (w.1 = k ∧ w.2.1 = i)).map fun w => w.2.2).getD 0

/-- `D` is the matrix (by columns) whose stored values are `vals`: all of them in order when the pattern is full, else at the places of the
compressed-column pattern and zero elsewhere. -/
def Represents {K : Type} [Zero K] (nnz sz1 sz2 : Nat) (colind row : Nat → Nat) (vals D : Nat → K) : Prop :=
  (nnz = sz1 * sz2 → ∀ q, q < nnz → D q = vals q) ∧
  (nnz ≠ sz1 * sz2 → Csc.Expands sz1 sz2 colind row vals D 0)

end Verif.LocalFn
