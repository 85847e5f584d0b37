import Verif.Lemmas.Assembly
import Verif.Spec.Locking
import Mathlib.Algebra.BigOperators.Intervals

/-!
Lemmas for C29-C32: the work on a row.
-/
set_option linter.unusedSectionVars false
namespace Verif.Assembly
open Verif.Locking (Op)

variable {R : Type}

theorem means_iff (code : Int) (r : Nat) : Means code r ↔ code ≠ 0 ∧ (idOf code).toNat = r := by
  unfold Means idOf
  omega

theorem means_id {code : Int} {r : Nat} (h : Means code r) : idOf code = r := by
  unfold Means at h; unfold idOf; omega

theorem addAt_cols [Add R] [Zero R] (row : Row R) (k : Nat) (v : R) :
    colsOf (addAt row k v) = if k ∈ colsOf row then colsOf row else colsOf row ++ [k] := by
  induction row with
  | nil => rfl
  | cons q qs ih =>
    unfold addAt
    by_cases h : q.1 = k
    · rw [if_pos h]
      subst h
      rw [if_pos (by unfold colsOf; simp)]
      rfl
    · rw [if_neg h]
      show q.1 :: colsOf (addAt qs k v) = _
      rw [ih]
      by_cases h2 : k ∈ colsOf qs
      · rw [if_pos h2, if_pos (by show k ∈ q.1 :: colsOf qs; exact List.mem_cons_of_mem _ h2)]
        rfl
      · rw [if_neg h2, if_neg (by
          show ¬ k ∈ q.1 :: colsOf qs
          rw [List.mem_cons]; rintro (h' | h')
          · exact h h'.symm
          · exact h2 h')]
        rfl

section
variable [AddCommGroup R]

/-- adding the kept entries one by one -/
def addAll (row : Row R) (es : List (Ent R)) : Row R :=
  es.foldl (fun r e => if e.keep then addAt r e.col e.val else r) row

theorem rowVal_addAll (row : Row R) (es : List (Ent R)) (c : Nat) :
    rowVal (addAll row es) c = rowVal row c + entSum es c := by
  induction es generalizing row with
  | nil => unfold addAll entSum; simp
  | cons e es ih =>
    show rowVal (addAll (if e.keep = true then addAt row e.col e.val else row) es) c = _
    rw [ih, entSum_cons]
    by_cases h : e.keep = true
    · rw [if_pos h, rowVal_addAt]; simp only [h, true_and]; abel
    · rw [if_neg h]; simp [h]

theorem mem_addAt_cols (row : Row R) (k : Nat) (v : R) (c : Nat) :
    c ∈ colsOf (addAt row k v) ↔ c ∈ colsOf row ∨ k = c := by
  rw [addAt_cols]
  split
  · rename_i h
    constructor
    · exact Or.inl
    · rintro (h' | h')
      · exact h'
      · exact h' ▸ h
  · rw [List.mem_append, List.mem_singleton]
    exact or_congr_right eq_comm

theorem mem_addAll_cols (row : Row R) (es : List (Ent R)) (c : Nat) :
    c ∈ colsOf (addAll row es) ↔ c ∈ colsOf row ∨ ∃ e ∈ es, e.keep = true ∧ e.col = c := by
  induction es generalizing row with
  | nil => unfold addAll; simp
  | cons e es ih =>
    show c ∈ colsOf (addAll (if e.keep = true then addAt row e.col e.val else row) es) ↔ _
    rw [ih]
    by_cases h : e.keep = true
    · rw [if_pos h, mem_addAt_cols]
      simp only [List.mem_cons, exists_eq_or_imp, h, true_and]
      rw [or_assoc]
    · rw [if_neg h]
      simp [h]

theorem addAll_cols_eq (row : Row R) (es : List (Ent R)) (h : ∀ e ∈ es, e.keep = true → e.col ∈ colsOf row) :
    colsOf (addAll row es) = colsOf row := by
  induction es generalizing row with
  | nil => rfl
  | cons e es ih =>
    show colsOf (addAll (if e.keep = true then addAt row e.col e.val else row) es) = _
    have key : colsOf (if e.keep = true then addAt row e.col e.val else row) = colsOf row := by
      split
      · rename_i hk
        rw [addAt_cols, if_pos (h e List.mem_cons_self hk)]
      · rfl
    rw [ih, key]
    intro e' h1 h2
    rw [key]
    exact h e' (List.mem_cons_of_mem _ h1) h2

/-- all inspected values of row `i` are finite -/
def RowFin (nm : Num R) (n : Nat) (cell : Cell R) (i : Nat) : Prop :=
  ∀ j, j < n → cell.Ab (j * n + i) = true → nm.fin (cell.A (j * n + i)) = true

theorem colLoop_fin (nm : Num R) (opts : Opts) (msize n : Nat) (cell : Cell R) (i : Nat) (rneg : Bool) (js : List Nat)
    (row : Row R) (hv : ∀ j ∈ js, 0 ≤ idOf (cell.cols.getD j 0) ∧ idOf (cell.cols.getD j 0) < msize)
    (hf : ∀ j ∈ js, cell.Ab (j * n + i) = true → nm.fin (cell.A (j * n + i)) = true) :
    colLoop nm opts msize n cell i rneg js row =
      (if opts.ordered then row else addAll row (js.map (entOf nm n cell i rneg)), .ok) := by
  induction js generalizing row with
  | nil => unfold colLoop addAll; simp
  | cons j js ih =>
    unfold colLoop
    have h1 := hv j List.mem_cons_self
    simp only
    rw [if_neg (by omega)]
    have h2 := hf j List.mem_cons_self
    rw [if_neg (by
      intro h
      rw [Bool.and_eq_true, Bool.not_eq_true'] at h
      rw [h2 h.1] at h
      exact Bool.noConfusion h.2)]
    rw [ih _ (fun j' h' => hv j' (List.mem_cons_of_mem _ h')) (fun j' h' => hf j' (List.mem_cons_of_mem _ h'))]
    by_cases ho : opts.ordered = true
    · simp [ho]
    · simp only [ho, Bool.not_false, Bool.true_and, if_false, Bool.false_eq_true]
      rfl

theorem colLoop_nan (nm : Num R) (opts : Opts) (msize n : Nat) (cell : Cell R) (i : Nat) (rneg : Bool) (js : List Nat)
    (row : Row R) (hv : ∀ j ∈ js, 0 ≤ idOf (cell.cols.getD j 0) ∧ idOf (cell.cols.getD j 0) < msize)
    (hf : ¬ ∀ j ∈ js, cell.Ab (j * n + i) = true → nm.fin (cell.A (j * n + i)) = true) :
    (colLoop nm opts msize n cell i rneg js row).2 = .nan ∧
      (opts.ordered = true → (colLoop nm opts msize n cell i rneg js row).1 = row) := by
  induction js generalizing row with
  | nil => exact absurd (by simp) hf
  | cons j js ih =>
    unfold colLoop
    have h1 := hv j List.mem_cons_self
    simp only
    rw [if_neg (by omega)]
    by_cases hj : cell.Ab (j * n + i) && !nm.fin (cell.A (j * n + i))
    · rw [if_pos hj]
      refine ⟨rfl, ?_⟩
      intro ho
      simp [ho]
    · rw [if_neg hj]
      have := ih (if (!opts.ordered && (entOf nm n cell i rneg j).keep) = true
        then addAt row (entOf nm n cell i rneg j).col (entOf nm n cell i rneg j).val else row)
        (fun j' h' => hv j' (List.mem_cons_of_mem _ h')) (by
          intro hall
          apply hf
          intro j' h' hab
          rcases List.mem_cons.1 h' with h'' | h''
          · subst h''
            rw [Bool.and_eq_true, Bool.not_eq_true'] at hj
            cases hfin : nm.fin (cell.A (j' * n + i)) with
            | true => rfl
            | false => exact absurd ⟨hab, hfin⟩ hj
          · exact hall j' h'' hab)
      refine ⟨this.1, ?_⟩
      intro ho
      rw [this.2 ho]
      simp [ho]

theorem valid_ids {msize n : Nat} {cell : Cell R} (h : Valid msize n cell) (j : Nat) (hj : j < n) :
    ∃ c, c < msize ∧ Means (cell.cols.getD j 0) c := by
  have hl : j < cell.cols.length := by rw [h.size]; exact hj
  have : cell.cols.getD j 0 = cell.cols[j] := by rw [List.getD_eq_getElem?_getD, List.getElem?_eq_getElem hl]; rfl
  rw [this]
  exact h.means _ (List.getElem_mem hl)

theorem valid_range {msize n : Nat} {cell : Cell R} (h : Valid msize n cell) (j : Nat) (hj : j < n) :
    0 ≤ idOf (cell.cols.getD j 0) ∧ idOf (cell.cols.getD j 0) < msize := by
  obtain ⟨c, h1, h2⟩ := valid_ids h j hj
  rw [means_id h2]
  omega

theorem sortCols_perm (n : Nat) (cell : Cell R) : (sortCols n cell).Perm (List.range n) := List.mergeSort_perm _ _

theorem sortCols_sorted {msize n : Nat} {cell : Cell R} (h : Valid msize n cell) (nm : Num R) (i : Nat) (rneg : Bool) :
    SortedEnts ((sortCols n cell).map (entOf nm n cell i rneg)) := by
  unfold SortedEnts
  rw [List.pairwise_map]
  have h1 : (sortCols n cell).Pairwise (fun a b => idOf (cell.cols.getD a 0) ≤ idOf (cell.cols.getD b 0)) := by
    have := List.pairwise_mergeSort (le := fun a b => decide (idOf (cell.cols.getD a 0) ≤ idOf (cell.cols.getD b 0)))
      (by intro a b c; simp only [decide_eq_true_eq]; omega)
      (by intro a b; simp only [Bool.or_eq_true, decide_eq_true_eq]; omega) (List.range n)
    refine this.imp ?_
    intro a b h
    simpa using h
  have h2 : (sortCols n cell).Nodup := (sortCols_perm n cell).nodup_iff.2 List.nodup_range
  refine (List.Pairwise.and h1 h2).imp_of_mem ?_
  intro a b ha hb ⟨hab, hne⟩
  have ha' : a < n := by simpa using (sortCols_perm n cell).mem_iff.1 ha
  have hb' : b < n := by simpa using (sortCols_perm n cell).mem_iff.1 hb
  obtain ⟨c, _, hc⟩ := valid_ids h a ha'
  obtain ⟨d, _, hd⟩ := valid_ids h b hb'
  rw [means_id hc, means_id hd] at hab
  show (idOf (cell.cols.getD a 0)).toNat < (idOf (cell.cols.getD b 0)).toNat
  rw [means_id hc, means_id hd]
  have : c ≠ d := by
    intro e
    subst e
    exact hne (h.diff a b c ha' hb' hc hd)
  omega

/-- what row `i` of a cell adds to column `c` -/
def rowTerm (nm : Num R) (n : Nat) (cell : Cell R) (i c : Nat) : R :=
  ∑ j ∈ Finset.range n,
    if Means (cell.cols.getD j 0) c ∧ cell.Ab (j * n + i) = true ∧ nm.big (cell.A (j * n + i)) = true
    then signed (cell.rows.getD i 0) (cell.cols.getD j 0) (cell.A (j * n + i)) else 0

theorem sum_map_range (f : Nat → R) (n : Nat) : ((List.range n).map f).sum = ∑ j ∈ Finset.range n, f j := by
  induction n with
  | zero => rfl
  | succ n ih => rw [List.range_succ, List.map_append, List.sum_append, ih, Finset.sum_range_succ]; simp

theorem entSum_perm {a b : List (Ent R)} (h : a.Perm b) (c : Nat) : entSum a c = entSum b c := by
  unfold entSum
  exact List.Perm.sum_eq (h.map _)

theorem sgn_signed (a b : Int) (x : R) : sgn (negOf a != negOf b) x = signed a b x := by
  unfold sgn signed negOf
  by_cases h1 : a < 0 <;> by_cases h2 : b < 0 <;> simp [h1, h2]

theorem entSum_range {msize n : Nat} {cell : Cell R} (h : Valid msize n cell) (nm : Num R) (i : Nat) (c : Nat) :
    entSum ((List.range n).map (entOf nm n cell i (negOf (cell.rows.getD i 0)))) c = rowTerm nm n cell i c := by
  unfold entSum rowTerm
  rw [List.map_map, sum_map_range]
  refine Finset.sum_congr rfl ?_
  intro j hj
  obtain ⟨d, _, hd⟩ := valid_ids h j (Finset.mem_range.1 hj)
  simp only [Function.comp_apply]
  unfold entOf
  simp only [Bool.and_eq_true]
  rw [sgn_signed]
  have : (idOf (cell.cols.getD j 0)).toNat = c ↔ Means (cell.cols.getD j 0) c := by
    rw [means_iff]
    have h0 := ((means_iff _ _).1 hd).1
    exact ⟨fun h => ⟨h0, h⟩, fun h => h.2⟩
  by_cases h1 : (idOf (cell.cols.getD j 0)).toNat = c
  · have h2 := this.1 h1
    by_cases h3 : cell.Ab (j * n + i) = true ∧ nm.big (cell.A (j * n + i)) = true
    · rw [if_pos ⟨h3, h1⟩, if_pos ⟨h2, h3⟩]
    · rw [if_neg (fun h => h3 h.1), if_neg (fun h => h3 h.2)]
  · rw [if_neg (fun h => h1 h.2), if_neg (fun h => h1 (this.2 h.1))]

end
end Verif.Assembly
