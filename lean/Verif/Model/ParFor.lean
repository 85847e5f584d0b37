/-!
Model of the splitting of a loop over threads, `ParallelFor<Type::STD, ...>::perform`
(`/repo/anifem++/fem/mutex_type.h:76-131`).

The variables `batch_size`, `batch_remainder` are 32-bit `unsigned`, so they and the product `batch_size*i` are taken modulo
2^32; the addition to the iterator is not.  The call of `std::thread` at line 124 omits the argument `f` (the template does not
compile when instantiated); the model is the evident intention, the same `f` as for thread 0.
-/
namespace Verif.ParFor

/-- conversion to `unsigned` (mutex_type.h:119-120) -/
def u32 (x : Nat) : Nat := x % 2 ^ 32

/-- `batch_size`, line 119 -/
def batch (nth n : Nat) : Nat := u32 (n / nth)
/-- `batch_remainder`, line 120 -/
def rest (nth n : Nat) : Nat := u32 (n % nth)

/-- `batch_size*i + (i < batch_remainder ? i : batch_remainder)`, lines 125, 126 (offset from `beg`) -/
def bound (nth n i : Nat) : Nat := u32 (batch nth n * i) + (if i < rest nth n then i else rest nth n)

/-- range of the worker `i` (thread number `i + 1`), lines 123-127 -/
def worker (nth n i : Nat) : Nat × Nat := (bound nth n i, bound nth n (i + 1))

/-- range of the calling thread (thread number 0), line 128 -/
def main (nth n : Nat) : Nat × Nat := (u32 (batch nth n * (nth - 1)) + rest nth n, n)

/-- thread numbers with their ranges; lines 111-115 for a single thread -/
def ranges (nth n : Nat) : List (Nat × Nat × Nat) :=
  if nth = 1 then [(0, 0, n)]
  else (List.range (nth - 1)).map (fun i => (i + 1, worker nth n i)) ++ [(0, main nth n)]

/-- `for (it = beg; it != end; ++it)`, lines 77-78: the visited positions, `none` if the loop runs past `end` -/
def loop (b e : Nat) : Option (List Nat) := if b ≤ e then some (List.range' b (e - b)) else none

end Verif.ParFor
