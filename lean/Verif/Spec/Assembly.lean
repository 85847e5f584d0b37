import Verif.Model.Assembly
import Mathlib.Algebra.BigOperators.Group.Finset.Basic

/-!
Vocabulary of C29-C32: values of sparse rows, sums of signed elemental contributions.
-/
namespace Verif.Assembly

variable {R : Type}

/-- The value a row stores for column `c`. -/
def rowVal [AddCommMonoid R] (row : Row R) (c : Nat) : R := ((row.filter (fun q => q.1 = c)).map (fun q => q.2)).sum

/-- The columns of a row. -/
def colsOf (row : Row R) : List Nat := row.map (fun q => q.1)

/-- Increasing columns. -/
def SortedRow (row : Row R) : Prop := row.Pairwise (fun a b => a.1 < b.1)

/-- `code` means the global number `r`, with either sign. -/
def Means (code : Int) (r : Nat) : Prop := code = (r : Int) + 1 ∨ code = -((r : Int) + 1)

instance (code : Int) (r : Nat) : Decidable (Means code r) := by unfold Means; infer_instance

/-- A number with the product of the signs of two codes. -/
def signed [Neg R] (a b : Int) (x : R) : R := if (a < 0) = (b < 0) then x else -x

/-- The sum of the contributions of the cells to the matrix entry `(r, c)`: all elemental entries of active cells whose
local row and column mean `r` and `c`, that belong to the pattern and pass the threshold. -/
def matSum [AddCommGroup R] (nm : Num R) (n : Nat) (cells : List (Cell R)) (r c : Nat) : R :=
  (cells.map (fun cell => ∑ i ∈ Finset.range n, ∑ j ∈ Finset.range n,
    if cell.active = true ∧ Means (cell.rows.getD i 0) r ∧ Means (cell.cols.getD j 0) c ∧
      cell.Ab (j * n + i) = true ∧ nm.big (cell.A (j * n + i)) = true
    then signed (cell.rows.getD i 0) (cell.cols.getD j 0) (cell.A (j * n + i)) else 0)).sum

/-- The sum of the contributions of the cells to the right-hand side entry `r`. -/
def rhsSum [AddCommGroup R] (n : Nat) (cells : List (Cell R)) (r : Nat) : R :=
  (cells.map (fun cell => ∑ i ∈ Finset.range n,
    if cell.active = true ∧ Means (cell.rows.getD i 0) r then signed (cell.rows.getD i 0) 1 (cell.F i) else 0)).sum

/-- The columns of an elemental matrix are different global columns of a matrix of size `msize`. -/
structure Valid (msize n : Nat) (cell : Cell R) : Prop where
  size : cell.cols.length = n
  means : ∀ code ∈ cell.cols, ∃ c, c < msize ∧ Means code c
  diff : ∀ j j' c, j < n → j' < n → Means (cell.cols.getD j 0) c → Means (cell.cols.getD j' 0) c → j = j'

/-- All values the assembly looks at are finite. -/
def AllFinite (nm : Num R) (withRhs : Bool) (n : Nat) (cell : Cell R) : Prop :=
  ∀ i, i < n → cell.rows.getD i 0 ≠ 0 → (withRhs = true → nm.fin (cell.F i) = true) ∧
    ∀ j, j < n → cell.Ab (j * n + i) = true → nm.fin (cell.A (j * n + i)) = true

/-- Row `r` contains every column that a cell may insert there. -/
def HasTemplate (n : Nat) (cells : List (Cell R)) (mat : Nat → Row R) : Prop :=
  ∀ cell ∈ cells, cell.active = true → ∀ i, i < n → ∀ j, j < n → ∀ r c, Means (cell.rows.getD i 0) r →
    Means (cell.cols.getD j 0) c → cell.Ab (j * n + i) = true → c ∈ colsOf (mat r)

/-- The cells `all` are distributed over `T` threads, in any way and any order. -/
def Split (T : Nat) (cells : Nat → List (Cell R)) (all : List (Cell R)) : Prop :=
  (∀ t, T ≤ t → cells t = []) ∧ ((List.range T).flatMap cells).Perm all

/-- What the options promise about the global matrix before the assembly: rows without repeated columns in the ordered
mode, sorted rows, rows containing the template. -/
structure Ready (opts : Opts) (n : Nat) (cells : List (Cell R)) (mat : Nat → Row R) : Prop where
  nodup : opts.ordered = true → ∀ r, (colsOf (mat r)).Nodup
  sorted : opts.sorted = true → ∀ r, SortedRow (mat r)
  small : opts.ordered = true → opts.incl = true → ∀ r, ∀ c ∈ colsOf (mat r), c < 2 ^ 32
  tmpl : opts.ordered = true → opts.incl = true → HasTemplate n cells mat

/-- Some cell inserts something into entry `(r, c)`. -/
def Touched (nm : Num R) (n : Nat) (cells : List (Cell R)) (r c : Nat) : Prop :=
  ∃ cell ∈ cells, cell.active = true ∧ ∃ i j, i < n ∧ j < n ∧ Means (cell.rows.getD i 0) r ∧
    Means (cell.cols.getD j 0) c ∧ cell.Ab (j * n + i) = true ∧ nm.big (cell.A (j * n + i)) = true

end Verif.Assembly
