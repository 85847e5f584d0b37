import Verif.Lemmas.Assembly4

/-!
Lemmas for C29-C32: the preparation of rows and the merge of patterns.
-/
set_option linter.unusedSectionVars false
namespace Verif.Assembly

variable {R : Type}

theorem setAt_cols (row : Row R) (k : Nat) (v : R) :
    colsOf (setAt row k v) = if k ∈ colsOf row then colsOf row else colsOf row ++ [k] := by
  induction row with
  | nil => rfl
  | cons q qs ih =>
    unfold setAt
    by_cases h : q.1 = k
    · rw [if_pos h]
      subst h
      rw [if_pos (by unfold colsOf; simp)]
      rfl
    · rw [if_neg h]
      show q.1 :: colsOf (setAt qs k v) = _
      rw [ih]
      by_cases h2 : k ∈ colsOf qs
      · rw [if_pos h2, if_pos (by show k ∈ q.1 :: colsOf qs; exact List.mem_cons_of_mem _ h2)]
        rfl
      · rw [if_neg h2, if_neg (by
          show ¬ k ∈ q.1 :: colsOf qs
          rw [List.mem_cons]; rintro (h' | h')
          · exact h h'.symm
          · exact h2 h')]
        rfl

theorem setAt_zero [AddCommGroup R] (row : Row R) (k : Nat) (h : getSafe row k = 0) :
    setAt row k 0 = row ∨ setAt row k 0 = row ++ [(k, 0)] := by
  induction row with
  | nil => exact Or.inr rfl
  | cons q qs ih =>
    unfold setAt
    unfold getSafe at h
    by_cases hq : q.1 = k
    · rw [if_pos hq]
      rw [List.find?_cons_of_pos (by simpa using hq)] at h
      simp only at h
      left
      rw [← h, ← hq]
    · rw [if_neg hq]
      rw [List.find?_cons_of_neg (by simpa using hq)] at h
      rcases ih h with h1 | h1
      · left; rw [h1]
      · right; rw [h1]; rfl

theorem sortRow_perm (row : Row R) : (sortRow row).Perm row := List.mergeSort_perm _ _

theorem colsOf_sortRow (row : Row R) : (colsOf (sortRow row)).Perm (colsOf row) := (sortRow_perm row).map _

theorem sorted_sortRow (row : Row R) (h : (colsOf row).Nodup) : SortedRow (sortRow row) := by
  rw [sortedRow_iff]
  have h1 : (colsOf (sortRow row)).Nodup := (colsOf_sortRow row).nodup_iff.2 h
  have h2 : (colsOf (sortRow row)).Pairwise (· ≤ ·) := by
    unfold colsOf
    rw [List.pairwise_map]
    have := List.pairwise_mergeSort (le := fun (a b : Nat × R) => decide (a.1 ≤ b.1))
      (by intro a b c; simp only [decide_eq_true_eq]; omega)
      (by intro a b; simp only [Bool.or_eq_true, decide_eq_true_eq]; omega) row
    refine this.imp ?_
    intro a b h
    simpa using h
  refine (List.Pairwise.and h2 h1).imp ?_
  intro a b h
  have := h.1
  have := h.2
  omega

theorem sortRow_sorted (row : Row R) (h : SortedRow row) : sortRow row = row := by
  unfold sortRow
  refine List.mergeSort_of_pairwise ?_
  refine h.imp ?_
  intro a b h
  simp only [decide_eq_true_eq]
  omega

theorem sorted_nodup (row : Row R) (h : SortedRow row) : (colsOf row).Nodup :=
  ((sortedRow_iff _).1 h).imp (fun h => Nat.ne_of_lt h)

theorem append_nodup (row : Row R) (r : Nat) (h : (colsOf row).Nodup) (hr : r ∉ colsOf row) :
    (colsOf row ++ [r]).Nodup := by
  rw [List.nodup_append]
  refine ⟨h, by simp, ?_⟩
  intro a ha b hb
  rw [List.mem_singleton.1 hb]
  exact fun e => hr (e ▸ ha)

section
variable [AddCommGroup R] [DecidableEq R]

/-- the row, possibly with a zero on the diagonal put somewhere -/
inductive DiagAdd (r : Nat) (row : Row R) : Row R → Prop where
  | same : DiagAdd r row row
  | put (a b : Row R) (h : row = a ++ b) (hr : r ∉ colsOf row) : DiagAdd r row (a ++ (r, 0) :: b)

theorem setAt_diag (row : Row R) (r : Nat) :
    DiagAdd r row (if getSafe row r = 0 then setAt row r 0 else row) := by
  split
  · rename_i h
    rcases setAt_zero row r h with h1 | h1
    · rw [h1]; exact .same
    · by_cases hr : r ∈ colsOf row
      · have h2 := setAt_cols row r (0 : R)
        rw [if_pos hr, h1] at h2
        have := congrArg List.length h2
        unfold colsOf at this
        simp at this
      · rw [h1]; exact .put row [] (by simp) hr
  · exact .same

theorem diag_val {r : Nat} {row row' : Row R} (h : DiagAdd r row row') (c : Nat) : rowVal row' c = rowVal row c := by
  cases h with
  | same => rfl
  | put a b h hr =>
    subst h
    rw [rowVal_append, rowVal_append, rowVal_cons]
    simp

theorem diag_nodup {r : Nat} {row row' : Row R} (h : DiagAdd r row row') (hn : (colsOf row).Nodup) :
    (colsOf row').Nodup := by
  cases h with
  | same => exact hn
  | put a b h hr =>
    subst h
    have h1 : (colsOf (a ++ (r, (0 : R)) :: b)).Perm (r :: colsOf (a ++ b)) := by
      unfold colsOf
      rw [List.map_append, List.map_cons, List.map_append]
      exact List.perm_middle
    rw [h1.nodup_iff, List.nodup_cons]
    exact ⟨hr, hn⟩

theorem diag_sub {r : Nat} {row row' : Row R} (h : DiagAdd r row row') : row.Sublist row' := by
  cases h with
  | same => exact List.Sublist.refl _
  | put a b h hr =>
    subst h
    exact List.Sublist.append (List.Sublist.refl _) (List.sublist_cons_self _ _)

/-- the sorted branch of `diagRow` -/
theorem diag_insert (r : Nat) (row : Row R) (hs : SortedRow row) :
    DiagAdd r row (diagInsert r row) ∧ SortedRow (diagInsert r row) ∧ r ∈ colsOf (diagInsert r row) := by
  induction row with
  | nil => exact ⟨.put [] [] rfl (by unfold colsOf; simp), by unfold SortedRow diagInsert; simp, by unfold colsOf diagInsert; simp⟩
  | cons q qs ih =>
    have hq := (sortedRow_cons q qs).1 hs
    have hlater : ∀ c ∈ colsOf qs, q.1 < c := by
      intro c hc
      have := (sortedRow_iff _).1 hs
      exact (List.pairwise_cons.1 this).1 c hc
    unfold diagInsert at ih ⊢
    by_cases h1 : q.1 < r
    · have hf : (q :: qs).findIdx (fun a => !(a.1 < r)) = qs.findIdx (fun a => !(a.1 < r)) + 1 := by
        rw [List.findIdx_cons]; simp [h1]
      rw [hf]
      simp only [List.getElem?_cons_succ]
      have hss : SortedRow qs := (List.pairwise_cons.1 hs).2
      have ih' := ih hss
      have hcons : ∀ row', DiagAdd r qs row' → SortedRow row' → r ∈ colsOf row' →
          DiagAdd r (q :: qs) (q :: row') ∧ SortedRow (q :: row') ∧ r ∈ colsOf (q :: row') := by
        intro row' hd hsr hr
        refine ⟨?_, ?_, List.mem_cons_of_mem _ hr⟩
        · cases hd with
          | same => exact .same
          | put a b h hn =>
            refine .put (q :: a) b (by rw [h]; rfl) ?_
            show r ∉ q.1 :: colsOf qs
            rw [List.mem_cons]
            rintro (h' | h')
            · omega
            · exact hn h'
        · refine List.pairwise_cons.2 ⟨?_, hsr⟩
          intro a ha
          cases hd with
          | same => exact hlater _ (List.mem_map_of_mem ha)
          | put x y h hn =>
            subst h
            rw [List.mem_append, List.mem_cons] at ha
            rcases ha with h | h | h
            · exact hlater _ (List.mem_map_of_mem (List.mem_append_left _ h))
            · rw [h]; exact h1
            · exact hlater _ (List.mem_map_of_mem (List.mem_append_right _ h))
      cases hg : qs[qs.findIdx (fun a => !(a.1 < r))]? with
      | none =>
        simp only [hg] at ih' ⊢
        exact hcons _ ih'.1 ih'.2.1 ih'.2.2
      | some a =>
        simp only [hg] at ih' ⊢
        by_cases ha : a.1 ≠ r
        · rw [if_pos ha] at ih' ⊢
          exact hcons _ ih'.1 ih'.2.1 ih'.2.2
        · rw [if_neg ha] at ih' ⊢
          exact hcons _ ih'.1 ih'.2.1 ih'.2.2
    · have hf : (q :: qs).findIdx (fun a => !(a.1 < r)) = 0 := by
        rw [List.findIdx_cons]; simp [h1]
      rw [hf]
      simp only [List.getElem?_cons_zero, List.take_zero, List.drop_zero, List.nil_append]
      by_cases ha : q.1 ≠ r
      · rw [if_pos ha]
        refine ⟨.put [] (q :: qs) rfl ?_, ?_, List.mem_cons_self⟩
        · show r ∉ q.1 :: colsOf qs
          rw [List.mem_cons]
          rintro (h' | h')
          · exact ha h'.symm
          · have := hlater r h'; omega
        · refine List.pairwise_cons.2 ⟨?_, hs⟩
          intro a h
          rcases List.mem_cons.1 h with h' | h'
          · rw [h']; show r < q.1; omega
          · have := hlater a.1 (List.mem_map_of_mem h'); show r < a.1; omega
      · rw [if_neg ha]
        refine ⟨.same, hs, ?_⟩
        show r ∈ q.1 :: colsOf qs
        rw [List.mem_cons]; left; omega

/-- what the preparation of a row does -/
structure PrepPost (opts : Opts) (r : Nat) (row row' : Row R) : Prop where
  val : ∀ c, rowVal row' c = rowVal row c
  cols : ∀ c ∈ colsOf row, c ∈ colsOf row'
  back : ∀ c ∈ colsOf row', c ∈ colsOf row ∨ c = r
  sorted : opts.ordered = true → (colsOf row).Nodup → (opts.sorted = true → SortedRow row) → SortedRow row'
  keep : SortedRow row → r ∈ colsOf row → row' = row
  incl : opts.incl = true → ∀ c, c ∈ colsOf row' → c ∈ colsOf row

theorem diag_cols {r : Nat} {row row' : Row R} (h : DiagAdd r row row') (c : Nat) :
    (c ∈ colsOf row → c ∈ colsOf row') ∧ (c ∈ colsOf row' → c ∈ colsOf row ∨ c = r) := by
  cases h with
  | same => exact ⟨id, Or.inl⟩
  | put a b h hr =>
    subst h
    unfold colsOf
    simp only [List.map_append, List.map_cons, List.mem_append, List.mem_cons]
    constructor
    · rintro (h | h)
      · exact Or.inl h
      · exact Or.inr (Or.inr h)
    · rintro (h | h | h)
      · exact Or.inl (Or.inl h)
      · exact Or.inr h
      · exact Or.inl (Or.inr h)

theorem diag_keep {r : Nat} {row row' : Row R} (h : DiagAdd r row row') (hr : r ∈ colsOf row) : row' = row := by
  cases h with
  | same => rfl
  | put a b h hn => exact absurd hr hn

/-- `opts.sorted` is only meaningful on sorted rows -/
theorem diagRow_diag (opts : Opts) (r : Nat) (row : Row R) (hs : opts.sorted = true → SortedRow row) :
    DiagAdd r row (diagRow opts r row) := by
  unfold diagRow
  split
  · exact .same
  · split
    · exact setAt_diag row r
    · rename_i h1 h2
      exact (diag_insert r row (hs (by simpa using h2))).1

theorem prepRow_post (opts : Opts) (r : Nat) (row : Row R) (hs : opts.sorted = true → SortedRow row) :
    PrepPost opts r row (prepRow opts r row) := by
  have hd := diagRow_diag opts r row hs
  have hperm : (prepRow opts r row).Perm (diagRow opts r row) := by
    unfold prepRow
    simp only
    split
    · exact sortRow_perm _
    · exact List.Perm.refl _
  have hcols : ∀ c, c ∈ colsOf (prepRow opts r row) ↔ c ∈ colsOf (diagRow opts r row) := fun c => (hperm.map _).mem_iff
  refine ⟨?_, ?_, ?_, ?_, ?_, ?_⟩
  · intro c
    rw [rowVal_perm hperm, diag_val hd]
  · intro c h
    exact (hcols c).2 ((diag_cols hd c).1 h)
  · intro c h
    exact (diag_cols hd c).2 ((hcols c).1 h)
  · intro ho hn _
    unfold prepRow
    simp only [ho, Bool.true_and]
    cases hso : opts.sorted with
    | false =>
      simp only [Bool.not_false, if_true]
      exact sorted_sortRow _ (diag_nodup hd hn)
    | true =>
      simp only [Bool.not_true, Bool.false_eq_true, if_false]
      unfold diagRow
      split
      · exact hs hso
      · simp only [hso, Bool.not_true, Bool.false_eq_true, if_false]
        exact (diag_insert r row (hs hso)).2.1
  · intro h1 h2
    unfold prepRow
    rw [diag_keep hd h2]
    simp only
    split
    · exact sortRow_sorted row h1
    · rfl
  · intro hi c h
    have : diagRow opts r row = row := by unfold diagRow; rw [if_pos hi]
    rw [hcols, this] at h
    exact h

end

section
variable [AddCommGroup R]

/-- a pattern row sorted by columns -/
def SortedPat (es : List (Nat × Bool)) : Prop := es.Pairwise (fun a b => a.1 < b.1)

/-- a pattern row as entries with value zero -/
def patEnts (es : List (Nat × Bool)) : List (Ent R) := es.map (fun e => ⟨e.1, e.2, 0⟩)

theorem tmerge_merge (row : Row R) (es : List (Nat × Bool)) : tmerge row es = merge row (patEnts es) := by
  induction row generalizing es with
  | nil =>
    unfold tmerge merge patEnts
    rw [List.filter_map, List.map_map]
    rfl
  | cons q qs ih =>
    unfold tmerge merge
    induction es with
    | nil => rfl
    | cons e es ih2 =>
      show tmergeStep q qs (tmerge qs) (e :: es) = mergeStep q qs (merge qs) (⟨e.1, e.2, 0⟩ :: patEnts es)
      unfold tmergeStep mergeStep
      simp only
      by_cases h1 : q.1 < e.1
      · rw [if_pos h1, if_pos h1, ih]; rfl
      · rw [if_neg h1, if_neg h1]
        by_cases h2 : q.1 = e.1
        · rw [if_pos h2, if_pos h2, ih]
          congr 1
          obtain ⟨a, b⟩ := q
          split <;> simp
        · rw [if_neg h2, if_neg h2]
          by_cases h3 : e.2 = true
          · rw [if_pos h3, if_pos h3, ih2]
          · rw [if_neg h3, if_neg h3, ih2]

theorem tmerge_sub (row : Row R) (es : List (Nat × Bool)) : row.Sublist (tmerge row es) := by
  induction row generalizing es with
  | nil => exact List.nil_sublist _
  | cons q qs ih =>
    unfold tmerge
    induction es with
    | nil => exact List.Sublist.refl _
    | cons e es ih2 =>
      unfold tmergeStep
      split
      · exact (ih _).cons_cons q
      · split
        · exact (ih _).cons_cons q
        · split
          · exact ih2.cons _
          · exact ih2

/-- the pattern of row `i` of a cell, sorted by columns -/
def patOf (n : Nat) (cell : Cell R) (i : Nat) : List (Nat × Bool) :=
  (sortCols n cell).map (fun j => ((idOf (cell.cols.getD j 0)).toNat, cell.Ab (j * n + i)))

/-- the tests for which every entry counts -/
def allNum : Num R := { big := fun _ => true, fin := fun _ => true }

theorem patEnts_cols {msize n : Nat} {cell : Cell R} (hv : Valid msize n cell) (i : Nat) :
    SortedEnts (patEnts (R := R) (patOf n cell i)) ∧
    ∀ c, (∃ e ∈ patEnts (R := R) (patOf n cell i), e.keep = true ∧ e.col = c) ↔
      ∃ j, j < n ∧ Means (cell.cols.getD j 0) c ∧ cell.Ab (j * n + i) = true := by
  have h1 := sortCols_sorted hv (allNum (R := R)) i false
  constructor
  · unfold SortedEnts at h1 ⊢
    unfold patEnts patOf
    rw [List.map_map, List.pairwise_map]
    rw [List.pairwise_map] at h1
    exact h1
  · intro c
    have h2 := ents_cols hv (allNum (R := R)) i false _ (mem_sortCols n cell) c
    constructor
    · rintro ⟨e, he, hk, hc⟩
      unfold patEnts patOf at he
      rw [List.map_map] at he
      obtain ⟨j, hj, rfl⟩ := List.mem_map.1 he
      have hk' : cell.Ab (j * n + i) = true := hk
      obtain ⟨j', a, b, d, _⟩ := h2.1 ⟨entOf allNum n cell i false j, List.mem_map_of_mem hj, by
        show (cell.Ab (j * n + i) && true) = true
        rw [hk']; rfl, hc⟩
      exact ⟨j', a, b, d⟩
    · rintro ⟨j, a, b, d⟩
      obtain ⟨e, he, hk, hc⟩ := h2.2 ⟨j, a, b, d, rfl⟩
      obtain ⟨j', hj', rfl⟩ := List.mem_map.1 he
      refine ⟨⟨_, _, 0⟩, List.mem_map_of_mem (List.mem_map_of_mem hj'), ?_, hc⟩
      have hk' : (cell.Ab (j' * n + i) && true) = true := hk
      rw [Bool.and_true] at hk'
      exact hk'

theorem entSum_pat (es : List (Nat × Bool)) (c : Nat) : entSum (patEnts (R := R) es) c = 0 := by
  unfold entSum patEnts
  rw [List.map_map]
  refine List.sum_eq_zero ?_
  intro x hx
  obtain ⟨e, _, rfl⟩ := List.mem_map.1 hx
  simp

/-- what merging the pattern of a row does -/
theorem tmplStep_post {msize n : Nat} {cell : Cell R} (hv : Valid msize n cell) (i : Nat) (s : Row R × R)
    (hs : SortedRow s.1) :
    ∃ row', tmplStep n cell i s = ((row', s.2), .ok) ∧ SortedRow row' ∧ s.1.Sublist row' ∧
      (∀ c, rowVal row' c = rowVal s.1 c) ∧
      ∀ c, c ∈ colsOf row' ↔ c ∈ colsOf s.1 ∨ ∃ j, j < n ∧ Means (cell.cols.getD j 0) c ∧ cell.Ab (j * n + i) = true := by
  have h1 := patEnts_cols hv i
  refine ⟨tmerge s.1 (patOf n cell i), rfl, ?_, tmerge_sub _ _, ?_, ?_⟩
  · rw [tmerge_merge]; exact sorted_merge _ _ hs h1.1
  · intro c; rw [tmerge_merge, rowVal_merge, entSum_pat, add_zero]
  · intro c; rw [tmerge_merge, colsOf_merge, h1.2]

end
end Verif.Assembly
