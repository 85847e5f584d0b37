/-! Abstract specification of an interval map: a partial function on the keys. -/
namespace Verif.IntervalMap

/-- Insertion requests: `[a, b)`, with `none` for an infinite end. -/
structure Op (V : Type) where
  lo : Option Int
  hi : Option Int
  val : V
deriving Repr

/-- The keys covered by a request. -/
def Op.covers {V : Type} (o : Op V) (k : Int) : Prop :=
  (∀ a, o.lo = some a → a ≤ k) ∧ (∀ b, o.hi = some b → k < b)

instance {V : Type} (o : Op V) (k : Int) : Decidable (o.covers k) := by
  unfold Op.covers
  cases o.lo <;> cases o.hi <;> simp <;> infer_instance

/-- A request is acceptable when it covers at least one key and no covered key has a different value. -/
def Acceptable {V : Type} (f : Int → Option V) (o : Op V) : Prop :=
  (∃ k, o.covers k) ∧ ∀ k, o.covers k → f k = none ∨ f k = some o.val

/-- The partial function after an accepted request. -/
def update {V : Type} (f : Int → Option V) (o : Op V) : Int → Option V :=
  fun k => if o.covers k then some o.val else f k

end Verif.IntervalMap

namespace Verif.IntervalMap

/-- The abstract contract of one insertion request: accepted requests update the function, rejected ones do not. -/
noncomputable def specStep {V : Type} (f : Int → Option V) (o : Op V) : Int → Option V :=
  open Classical in if Acceptable f o then update f o else f

/-- The partial function after a history of requests, starting from nowhere defined. -/
noncomputable def specRun {V : Type} (h : List (Op V)) : Int → Option V := h.foldl specStep fun _ => none

/-- A stored list of half-open intervals `(start, end, value)` is in normal form: every interval is non-empty,
they are in increasing order and disjoint, and two intervals which touch have different values. -/
def Normal {V : Type} (l : List (Int × Int × V)) : Prop :=
  (∀ a ∈ l, a.1 < a.2.1) ∧ l.Pairwise (fun a b => a.2.1 ≤ b.1 ∧ (a.2.1 = b.1 → a.2.2 ≠ b.2.2))

/-- A one-sided unbounded request is *careful* when the function is still undefined far out on that side. -/
def Careful {V : Type} (f : Int → Option V) (o : Op V) : Prop :=
  (o.lo ≠ none → o.hi = none → ∃ K, ∀ k, K ≤ k → f k = none) ∧
  (o.lo = none → o.hi ≠ none → ∃ K, ∀ k, k ≤ K → f k = none)

/-- Every request of a history is careful at the moment it is made. -/
def CarefulHist {V : Type} : (Int → Option V) → List (Op V) → Prop
  | _, [] => True
  | f, o :: t => Careful f o ∧ CarefulHist (specStep f o) t

end Verif.IntervalMap
