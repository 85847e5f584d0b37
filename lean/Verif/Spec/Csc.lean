/-!
Vocabulary of C27: compressed-column patterns of elemental matrices and what it means to expand them.
-/
namespace Verif.Csc

/-- `colind`, `row` describe a pattern of a `sz1 × sz2` matrix with `nnz` entries: the columns are consecutive blocks and
the rows of a column are increasing. -/
structure IsCsc (nnz sz1 sz2 : Nat) (colind row : Nat → Nat) : Prop where
  first : colind 0 = 0
  last : colind sz2 = nnz
  mono : ∀ c, c < sz2 → colind c ≤ colind (c + 1)
  bound : ∀ c, c < sz2 → ∀ p, colind c ≤ p → p < colind (c + 1) → row p < sz1
  incr : ∀ c, c < sz2 → ∀ p, colind c ≤ p → p + 1 < colind (c + 1) → row p < row (p + 1)

/-- The entry `(r, c)` belongs to the pattern and is stored at place `p`. -/
def StoredAt (colind row : Nat → Nat) (r c p : Nat) : Prop := colind c ≤ p ∧ p < colind (c + 1) ∧ row p = r

/-- The matrix `D` stored by columns has the values `vals` on the pattern and `fill` elsewhere. -/
def Expands {R : Type} (sz1 sz2 : Nat) (colind row : Nat → Nat) (vals D : Nat → R) (fill : R) : Prop :=
  ∀ c, c < sz2 → ∀ r, r < sz1 →
    (∀ p, StoredAt colind row r c p → D (c * sz1 + r) = vals p) ∧
    ((∀ p, ¬ StoredAt colind row r c p) → D (c * sz1 + r) = fill)

end Verif.Csc
