import Verif.Spec.Assembly
import Mathlib.Algebra.BigOperators.Group.List.Basic
import Mathlib.Data.List.Sort
import Mathlib.Data.List.Nodup
import Mathlib.Tactic.Abel

/-!
Lemmas for C29-C32: sparse rows.
-/
set_option linter.unusedSectionVars false
namespace Verif.Assembly

variable {R : Type}

section vals
variable [AddCommGroup R]

theorem rowVal_nil (c : Nat) : rowVal ([] : Row R) c = 0 := rfl

theorem rowVal_cons (q : Nat × R) (qs : Row R) (c : Nat) :
    rowVal (q :: qs) c = (if q.1 = c then q.2 else 0) + rowVal qs c := by
  unfold rowVal
  by_cases h : q.1 = c
  · simp [h]
  · simp [h]

theorem rowVal_append (a b : Row R) (c : Nat) : rowVal (a ++ b) c = rowVal a c + rowVal b c := by
  unfold rowVal; simp

theorem rowVal_perm {a b : Row R} (h : a.Perm b) (c : Nat) : rowVal a c = rowVal b c := by
  unfold rowVal
  exact List.Perm.sum_eq ((h.filter _).map _)

theorem rowVal_addAt (row : Row R) (k : Nat) (v : R) (c : Nat) :
    rowVal (addAt row k v) c = rowVal row c + if k = c then v else 0 := by
  induction row with
  | nil => unfold addAt; rw [rowVal_cons, rowVal_nil]; simp
  | cons q qs ih =>
    unfold addAt
    by_cases h : q.1 = k
    · rw [if_pos h, rowVal_cons, rowVal_cons]
      subst h
      by_cases h2 : q.1 = c
      · simp [h2]; abel
      · simp [h2]
    · rw [if_neg h, rowVal_cons, rowVal_cons, ih]; abel

/-- what a list of entries adds to column `c` -/
def entSum (es : List (Ent R)) (c : Nat) : R := (es.map (fun e => if e.keep = true ∧ e.col = c then e.val else 0)).sum

theorem entSum_cons (e : Ent R) (es : List (Ent R)) (c : Nat) :
    entSum (e :: es) c = (if e.keep = true ∧ e.col = c then e.val else 0) + entSum es c := by
  unfold entSum; simp

theorem rowVal_kept (es : List (Ent R)) (c : Nat) :
    rowVal ((es.filter (fun e => e.keep)).map (fun e => (e.col, e.val))) c = entSum es c := by
  induction es with
  | nil => rfl
  | cons e es ih =>
    rw [entSum_cons]
    by_cases h : e.keep = true
    · rw [List.filter_cons_of_pos h, List.map_cons, rowVal_cons, ih]
      by_cases h2 : e.col = c
      · simp [h, h2]
      · simp [h2]
    · rw [List.filter_cons_of_neg h, ih]
      simp [h]

theorem rowVal_merge (row : Row R) (es : List (Ent R)) (c : Nat) :
    rowVal (merge row es) c = rowVal row c + entSum es c := by
  induction row generalizing es with
  | nil => unfold merge; rw [rowVal_kept, rowVal_nil, zero_add]
  | cons q qs ih =>
    unfold merge
    induction es with
    | nil => unfold mergeStep; unfold entSum; simp
    | cons e es ihe =>
      unfold mergeStep
      by_cases h1 : q.1 < e.col
      · rw [if_pos h1, rowVal_cons, ih, rowVal_cons]; abel
      · rw [if_neg h1]
        by_cases h2 : q.1 = e.col
        · rw [if_pos h2, rowVal_cons, ih, rowVal_cons, entSum_cons]
          by_cases h3 : e.keep = true
          · simp only [h3, if_true, true_and]
            rw [h2]
            by_cases h4 : e.col = c
            · simp [h4]; abel
            · simp [h4]
          · simp [h3, add_assoc]
        · rw [if_neg h2]
          by_cases h3 : e.keep = true
          · rw [if_pos h3, rowVal_cons, ihe, entSum_cons]
            simp only [h3, true_and]
            abel
          · rw [if_neg h3, ihe, entSum_cons]
            simp [h3]

end vals

section cols

theorem mem_colsOf (row : Row R) (c : Nat) : c ∈ colsOf row ↔ ∃ v, (c, v) ∈ row := by
  unfold colsOf
  simp

theorem colsOf_merge [Add R] (row : Row R) (es : List (Ent R)) (c : Nat) :
    c ∈ colsOf (merge row es) ↔ c ∈ colsOf row ∨ ∃ e ∈ es, e.keep = true ∧ e.col = c := by
  induction row generalizing es with
  | nil => unfold merge colsOf; simp [and_assoc]
  | cons q qs ih =>
    unfold merge
    induction es with
    | nil => unfold mergeStep; simp
    | cons e es ihe =>
      unfold mergeStep
      by_cases h1 : q.1 < e.col
      · rw [if_pos h1]
        have := ih (e :: es)
        unfold colsOf at this ⊢
        rw [List.map_cons, List.mem_cons, this, List.map_cons, List.mem_cons, or_assoc]
      · rw [if_neg h1]
        by_cases h2 : q.1 = e.col
        · rw [if_pos h2]
          have := ih es
          unfold colsOf at this ⊢
          rw [List.map_cons, List.mem_cons, this, List.map_cons, List.mem_cons]
          constructor
          · rintro (h | h | ⟨e', h, h'⟩)
            · exact Or.inl (Or.inl h)
            · exact Or.inl (Or.inr h)
            · exact Or.inr ⟨e', List.mem_cons_of_mem _ h, h'⟩
          · rintro ((h | h) | ⟨e', h, h'⟩)
            · exact Or.inl h
            · exact Or.inr (Or.inl h)
            · rcases List.mem_cons.1 h with h | h
              · subst h; exact Or.inl (h'.2 ▸ h2.symm)
              · exact Or.inr (Or.inr ⟨e', h, h'⟩)
        · rw [if_neg h2]
          by_cases h3 : e.keep = true
          · rw [if_pos h3]
            unfold colsOf at ihe ⊢
            rw [List.map_cons, List.mem_cons, ihe]
            constructor
            · rintro (h | h | ⟨e', h, h'⟩)
              · exact Or.inr ⟨e, List.mem_cons_self, h3, h.symm⟩
              · exact Or.inl h
              · exact Or.inr ⟨e', List.mem_cons_of_mem _ h, h'⟩
            · rintro (h | ⟨e', h, h'⟩)
              · exact Or.inr (Or.inl h)
              · rcases List.mem_cons.1 h with h | h
                · subst h; exact Or.inl h'.2.symm
                · exact Or.inr (Or.inr ⟨e', h, h'⟩)
          · rw [if_neg h3, ihe]
            constructor
            · rintro (h | ⟨e', h, h'⟩)
              · exact Or.inl h
              · exact Or.inr ⟨e', List.mem_cons_of_mem _ h, h'⟩
            · rintro (h | ⟨e', h, h'⟩)
              · exact Or.inl h
              · rcases List.mem_cons.1 h with h | h
                · subst h; exact absurd h'.1 h3
                · exact Or.inr ⟨e', h, h'⟩

theorem length_merge [Add R] (row : Row R) (es : List (Ent R)) : (merge row es).length ≤ row.length + es.length := by
  induction row generalizing es with
  | nil => unfold merge; simp only [List.length_map, List.length_nil]; have := List.length_filter_le (fun e : Ent R => e.keep) es; omega
  | cons q qs ih =>
    unfold merge
    induction es with
    | nil => unfold mergeStep; simp
    | cons e es ihe =>
      unfold mergeStep
      split
      · have := ih (e :: es)
        simp only [List.length_cons] at this ⊢; omega
      · split
        · have := ih es
          simp only [List.length_cons] at this ⊢; omega
        · split
          · simp only [List.length_cons] at ihe ⊢; omega
          · simp only [List.length_cons] at ihe ⊢; omega

theorem sortedRow_iff (row : Row R) : SortedRow row ↔ (colsOf row).Pairwise (· < ·) := by
  unfold SortedRow colsOf
  rw [List.pairwise_map]

/-- sorted entries -/
def SortedEnts (es : List (Ent R)) : Prop := es.Pairwise (fun a b => a.col < b.col)

theorem sortedRow_cons (q : Nat × R) (qs : Row R) :
    SortedRow (q :: qs) ↔ (∀ c ∈ colsOf qs, q.1 < c) ∧ SortedRow qs := by
  unfold SortedRow colsOf
  rw [List.pairwise_cons]
  simp

theorem sorted_merge [Add R] (row : Row R) (es : List (Ent R)) (hr : SortedRow row) (he : SortedEnts es) :
    SortedRow (merge row es) := by
  induction row generalizing es with
  | nil =>
    unfold merge SortedRow
    rw [List.pairwise_map]
    exact List.Pairwise.filter _ he
  | cons q qs ih =>
    have hq := (sortedRow_cons q qs).1 hr
    unfold merge
    induction es with
    | nil => unfold mergeStep; exact hr
    | cons e es ihe =>
      have he1 := List.pairwise_cons.1 he
      unfold mergeStep
      by_cases h1 : q.1 < e.col
      · rw [if_pos h1, sortedRow_cons]
        refine ⟨?_, ih _ hq.2 he⟩
        intro c hc
        rcases (colsOf_merge _ _ _).1 hc with h | ⟨e', h, _, h'⟩
        · exact hq.1 c h
        · rcases List.mem_cons.1 h with h | h
          · subst h; omega
          · have := he1.1 e' h; omega
      · rw [if_neg h1]
        by_cases h2 : q.1 = e.col
        · rw [if_pos h2, sortedRow_cons]
          refine ⟨?_, ih _ hq.2 he1.2⟩
          intro c hc
          rcases (colsOf_merge _ _ _).1 hc with h | ⟨e', h, _, h'⟩
          · exact hq.1 c h
          · have := he1.1 e' h
            show q.1 < c
            omega
        · rw [if_neg h2]
          by_cases h3 : e.keep = true
          · rw [if_pos h3, sortedRow_cons]
            refine ⟨?_, ihe he1.2⟩
            intro c hc
            have hc' : c ∈ colsOf (merge (q :: qs) es) := hc
            rcases (colsOf_merge _ _ _).1 hc' with h | ⟨e', h, _, h'⟩
            · have h4 : c = q.1 ∨ c ∈ colsOf qs := List.mem_cons.1 h
              rcases h4 with h4 | h4
              · show e.col < c; omega
              · have := hq.1 c h4; show e.col < c; omega
            · have := he1.1 e' h; show e.col < c; omega
          · rw [if_neg h3]; exact ihe he1.2

/-- a global row below all entries is copied -/
theorem merge_below [Add R] (l r : Row R) (e : Ent R) (es : List (Ent R)) (h : ∀ a ∈ l, a.1 < e.col) :
    merge (l ++ r) (e :: es) = l ++ merge r (e :: es) := by
  induction l with
  | nil => rfl
  | cons a l ih =>
    have h1 := h a List.mem_cons_self
    rw [List.cons_append, List.cons_append, ← ih (fun b hb => h b (List.mem_cons_of_mem _ hb))]
    show mergeStep a (l ++ r) _ (e :: es) = _
    unfold mergeStep
    rw [if_pos h1]

theorem merge_nil [Add R] (row : Row R) : merge row ([] : List (Ent R)) = row := by
  cases row with
  | nil => rfl
  | cons q qs => rfl

/-- a first entry below all entries of the elemental row is copied -/
theorem merge_first [Add R] (q : Nat × R) (qs : Row R) (es : List (Ent R)) (h : ∀ e ∈ es, q.1 < e.col) :
    merge (q :: qs) es = q :: merge qs es := by
  cases es with
  | nil => rw [merge_nil, merge_nil]
  | cons e es =>
    show mergeStep q qs _ (e :: es) = _
    unfold mergeStep
    rw [if_pos (h e List.mem_cons_self)]

/-- entries that are left out have no effect -/
theorem merge_filter [Add R] (row : Row R) (es : List (Ent R)) (he : SortedEnts es) :
    merge row es = merge row (es.filter (fun e => e.keep)) := by
  induction row generalizing es with
  | nil => unfold merge; rw [List.filter_filter]; simp
  | cons q qs ih =>
    induction es with
    | nil => rfl
    | cons e es ihe =>
      have he1 := List.pairwise_cons.1 he
      by_cases h3 : e.keep = true
      · rw [List.filter_cons_of_pos h3]
        show mergeStep q qs _ (e :: es) = mergeStep q qs _ (e :: es.filter _)
        unfold mergeStep
        by_cases h1 : q.1 < e.col
        · rw [if_pos h1, if_pos h1, ih _ he, List.filter_cons_of_pos h3]
        · rw [if_neg h1, if_neg h1]
          by_cases h2 : q.1 = e.col
          · rw [if_pos h2, if_pos h2, ih _ he1.2]
          · rw [if_neg h2, if_neg h2, if_pos h3, if_pos h3]
            congr 1
            exact ihe he1.2
      · rw [List.filter_cons_of_neg h3, ← ihe he1.2]
        show mergeStep q qs _ (e :: es) = _
        unfold mergeStep
        by_cases h1 : q.1 < e.col
        · rw [if_pos h1, merge_first q qs es (fun e' h' => Nat.lt_trans h1 (he1.1 e' h'))]
          congr 1
          rw [ih _ he, List.filter_cons_of_neg h3, ← ih _ he1.2]
        · rw [if_neg h1]
          by_cases h2 : q.1 = e.col
          · rw [if_pos h2, if_neg h3, merge_first q qs es (fun e' h' => h2 ▸ he1.1 e' h')]
          · rw [if_neg h2, if_neg h3]; rfl

/-- places of a sorted row -/
theorem sorted_gap (q : Nat × R) (qs : Row R) (h : SortedRow (q :: qs)) (k : Nat) (a : Nat × R)
    (ha : (q :: qs)[k]? = some a) : q.1 + k ≤ a.1 := by
  induction k generalizing q qs with
  | zero =>
    have : q = a := by simpa using ha
    subst this; omega
  | succ k ih =>
    have hq := (sortedRow_cons q qs).1 h
    cases qs with
    | nil => simp at ha
    | cons q' qs =>
      have h1 := ih q' qs hq.2 (by simpa using ha)
      have h2 := hq.1 q'.1 (by unfold colsOf; simp)
      omega

theorem u32Diff_eq {a b : Nat} (h : b ≤ a) (ha : a < 2 ^ 32) : u32Diff a b = a - b := by
  unfold u32Diff
  rw [show a + 2 ^ 32 - b = (a - b) + 2 ^ 32 by omega, Nat.add_mod_right, Nat.mod_eq_of_lt (by omega)]

/-- a column of a sorted row is found -/
theorem tmplFind_eq (row : Row R) (hr : SortedRow row) (hb : ∀ c ∈ colsOf row, c < 2 ^ 32) (c : Nat) (v : R) (k : Nat)
    (hk : row[k]? = some (c, v)) : tmplFind row c = some (k, (c, v)) := by
  cases row with
  | nil => simp at hk
  | cons q qs =>
    have hgap : q.1 + k ≤ c := sorted_gap q qs hr k _ hk
    have hlen : k < (q :: qs).length := (List.getElem?_eq_some_iff.1 hk).1
    have hcol : c < 2 ^ 32 := hb _ ((mem_colsOf _ _).2 ⟨v, List.mem_of_getElem? hk⟩)
    have hwin : tmplWin (qs.length + 1) c q.1 = if c - q.1 ≥ qs.length + 1 then qs.length + 1 else c - q.1 + 1 := by
      unfold tmplWin
      rw [u32Diff_eq (by omega) hcol]
    unfold tmplFind
    simp only
    generalize tmplWin (qs.length + 1) c q.1 = w at hwin
    have hkw : k < w := by
      rw [hwin]; split
      · exact hlen
      · omega
    have hwl : w ≤ (q :: qs).length := by
      rw [hwin, List.length_cons]; split
      · exact Nat.le_refl _
      · omega
    have hget : (q :: qs)[k] = (c, v) := by
      have := List.getElem?_eq_getElem hlen
      rw [hk] at this
      exact (Option.some.inj this).symm
    have hbelow : ∀ j (hj : j < k), ((q :: qs)[j]'(by omega)).1 < c := by
      intro j hj
      have := (List.pairwise_iff_getElem.1 hr) j k (by omega) hlen hj
      rw [hget] at this
      exact this
    have hfind : ((q :: qs).take w).findIdx (fun a => !(decide (a.1 < c))) = k := by
      rw [List.findIdx_eq (by rw [List.length_take]; omega)]
      constructor
      · rw [List.getElem_take, hget]
        simp
      · intro j hj
        rw [List.getElem_take]
        simpa using hbelow j hj
    rw [hfind, if_pos hkw, hk]
    simp

/-- adding to a row that contains the columns is the merge -/
theorem tmplAdd_eq [Add R] (row : Row R) (es : List (Ent R)) (hr : SortedRow row) (he : SortedEnts es)
    (hb : ∀ c ∈ colsOf row, c < 2 ^ 32) (hc : ∀ e ∈ es, e.keep = true → e.col ∈ colsOf row) :
    tmplAdd row es = some (merge row es) := by
  induction es generalizing row with
  | nil => unfold tmplAdd; rw [merge_nil]
  | cons e es ih =>
    have he1 := List.pairwise_cons.1 he
    unfold tmplAdd
    by_cases h3 : e.keep = true
    · rw [if_pos h3]
      obtain ⟨v, hv⟩ := (mem_colsOf _ _).1 (hc e List.mem_cons_self h3)
      obtain ⟨k, hk⟩ := List.getElem?_of_mem hv
      rw [tmplFind_eq row hr hb e.col v k hk]
      simp only
      have hlen : k < row.length := (List.getElem?_eq_some_iff.1 hk).1
      have hget : row[k] = (e.col, v) := by
        have := List.getElem?_eq_getElem hlen
        rw [hk] at this
        exact (Option.some.inj this).symm
      have hsplit : row = row.take k ++ (e.col, v) :: row.drop (k + 1) := by
        rw [← hget]
        exact (List.take_append_drop k row).symm.trans (by rw [List.drop_eq_getElem_cons hlen])
      generalize row.take k = l at hsplit
      generalize row.drop (k + 1) = r at hsplit
      subst hsplit
      have hr' := List.pairwise_append.1 hr
      have hlb : ∀ a ∈ l, a.1 < e.col := fun a ha => hr'.2.2 a ha _ List.mem_cons_self
      rw [merge_below l _ e es hlb]
      have hm1 : merge ((e.col, v) :: r) (e :: es) = (e.col, v + e.val) :: merge r es := by
        show mergeStep _ _ _ _ = _
        unfold mergeStep
        rw [if_neg (Nat.lt_irrefl _), if_pos rfl, if_pos h3]
      have hm2 : merge ((e.col, v + e.val) :: r) es = (e.col, v + e.val) :: merge r es :=
        merge_first _ _ _ he1.1
      rw [ih ((e.col, v + e.val) :: r) ?_ he1.2 ?_ ?_, hm1, hm2]
      · rfl
      · rw [sortedRow_cons]
        exact (sortedRow_cons (e.col, v) r).1 hr'.2.1
      · intro c h
        refine hb c ?_
        unfold colsOf at h ⊢
        simp only [List.map_cons, List.map_append, List.mem_append, List.mem_cons] at h ⊢
        exact Or.inr h
      · intro e' h1 h2
        have h4 := hc e' (List.mem_cons_of_mem _ h1) h2
        have h5 := he1.1 e' h1
        unfold colsOf at h4 ⊢
        simp only [List.map_cons, List.map_append, List.mem_append, List.mem_cons] at h4 ⊢
        rcases h4 with h4 | h4
        · obtain ⟨a, ha, ha'⟩ := List.mem_map.1 h4
          have := hlb a ha
          omega
        · exact h4
    · rw [if_neg h3, ih row hr he1.2 hb (fun e' h1 h2 => hc e' (List.mem_cons_of_mem _ h1) h2)]
      rw [merge_filter row (e :: es) he, List.filter_cons_of_neg h3, ← merge_filter row es he1.2]

/-- when all kept columns are present the columns stay -/
theorem colsOf_merge_eq [Add R] (row : Row R) (es : List (Ent R)) (hr : SortedRow row) (he : SortedEnts es)
    (hc : ∀ e ∈ es, e.keep = true → e.col ∈ colsOf row) : colsOf (merge row es) = colsOf row := by
  have h1 := (sortedRow_iff _).1 (sorted_merge row es hr he)
  have h2 := (sortedRow_iff _).1 hr
  refine List.Perm.eq_of_pairwise' h1 h2 ?_
  rw [List.perm_ext_iff_of_nodup]
  · intro c
    rw [colsOf_merge]
    constructor
    · rintro (h | ⟨e, h, h', h''⟩)
      · exact h
      · rw [← h'']; exact hc e h h'
    · exact Or.inl
  · exact h1.imp (fun h => Nat.ne_of_lt h)
  · exact h2.imp (fun h => Nat.ne_of_lt h)

end cols
end Verif.Assembly
