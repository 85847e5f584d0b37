/-! Specification vocabulary for enumerations of integers stored by intervals. -/
namespace Verif.IntervalEnum

/-- The enumerated values: the interval `(s, n)` stands for `s, s+1, …, s+n-1`. -/
def values (ivs : List (Int × Nat)) : List Int :=
  ivs.flatMap fun p => (List.range p.2).map fun (i : Nat) => p.1 + i

/-- Non-empty intervals, in increasing order, not overlapping (touching is allowed). -/
def Sorted : List (Int × Nat) → Prop
  | [] => True
  | [p] => 0 < p.2
  | p :: q :: rest => 0 < p.2 ∧ p.1 + p.2 ≤ q.1 ∧ Sorted (q :: rest)

end Verif.IntervalEnum
