import Mathlib.LinearAlgebra.Matrix.Determinant.Basic
import Mathlib.LinearAlgebra.Matrix.Block
import Mathlib.Data.List.GetD
import Mathlib.Tactic.Ring
import Mathlib.Tactic.FieldSimp
import Mathlib.Tactic.Linarith
import Verif.Model.Det
import Verif.Props.LU

/-! C72: the generic determinants. -/
namespace Verif.Det
open Finset

variable {K : Type} [Field K] [LinearOrder K] [IsStrictOrderedRing K]

/-- the determinant of the rows `ρ 0, .., ρ (m - 1)` and the columns `d, .., d + m - 1` -/
def detN (m : Nat) (ρ : Nat → Nat) (d : Nat) (A : Nat → Nat → K) : K := Matrix.det (Matrix.of fun i j : Fin m => A (ρ i) (d + j))

omit [LinearOrder K] [IsStrictOrderedRing K] in
theorem pivot_matrix {m : Nat} (M : Matrix (Fin (m + 1)) (Fin (m + 1)) K) (p : Fin (m + 1)) (hp : M p 0 ≠ 0) :
    M.det = (-1) ^ (p : Nat) * M p 0 *
      Matrix.det (Matrix.of fun i j : Fin m => M (p.succAbove i) j.succ - M (p.succAbove i) 0 / M p 0 * M p j.succ) := by
  let B : Matrix (Fin (m + 1)) (Fin (m + 1)) K := fun i j => if i = p then M p j else M i j - M i 0 / M p 0 * M p j
  have h : M.det = B.det := by
    refine Matrix.det_eq_of_forall_row_eq_smul_add_const (fun i => if i = p then 0 else M i 0 / M p 0) p (by simp) fun i j => ?_
    by_cases hi : i = p
    · subst hi
      simp [B]
    · simp [B, hi]
  rw [h, Matrix.det_succ_column_zero, Finset.sum_eq_single p]
  · have e : B p 0 = M p 0 := by simp [B]
    rw [e]
    congr 2
    funext i j
    simp [B, Matrix.submatrix]
  · intro i _ hi
    have : B i 0 = 0 := by
      simp only [B, if_neg hi]
      field_simp
      ring
    rw [this]
    ring
  · intro h
    exact absurd (Finset.mem_univ p) h

omit [LinearOrder K] [IsStrictOrderedRing K] in
theorem detN_pivot {m : Nat} (ρ : Nat → Nat) (d : Nat) (A A' : Nat → Nat → K) {p : Nat} (hp : p ≤ m) (h : A (ρ p) d ≠ 0)
    (hA : ∀ i, i < m + 1 → i ≠ p → ∀ j, 1 ≤ j → j < m + 1 → A' (ρ i) (d + j) = A (ρ i) (d + j) - A (ρ i) d / A (ρ p) d * A (ρ p) (d + j)) :
    detN (m + 1) ρ d A = (-1) ^ p * A (ρ p) d * detN m (fun i => ρ (if i < p then i else i + 1)) (d + 1) A' := by
  unfold detN
  rw [pivot_matrix _ (⟨p, by omega⟩ : Fin (m + 1)) (by simpa using h)]
  simp only [Matrix.of_apply, Fin.val_zero, Nat.add_zero]
  congr 2
  ext i j
  have e : ((Fin.succAbove (⟨p, by omega⟩ : Fin (m + 1)) i : Fin (m + 1)) : Nat) = if (i : Nat) < p then (i : Nat) else i + 1 := by
    unfold Fin.succAbove
    simp only [Fin.lt_def, Fin.val_castSucc]
    split <;> simp
  simp only [Matrix.of_apply, e, Fin.val_succ]
  have hj : d + 1 + (j : Nat) = d + ((j : Nat) + 1) := by omega
  rw [hj, hA _ (by have := i.2; split <;> omega) (by split <;> omega) _ (by omega) (by have := j.2; omega)]

omit [LinearOrder K] [IsStrictOrderedRing K] in
theorem search_some {vis small : Nat → Bool} : ∀ (left r : Nat) (s : K) {q : Nat} {t : K}, search vis small left r s = some (q, t) →
    r ≤ q ∧ q ≤ r + left ∧ vis q = false ∧ small q = false ∧ t = s * (-1) ^ ((List.range' r (q - r)).filter fun i => !vis i).length := by
  intro left
  induction left with
  | zero =>
    intro r s q t h
    unfold search at h
    split at h
    · exact absurd h (by simp)
    · obtain ⟨rfl, rfl⟩ := Prod.mk.inj (Option.some.inj h)
      rename_i hn
      simp only [Bool.or_eq_true, not_or, Bool.not_eq_true] at hn
      exact ⟨le_rfl, le_rfl, hn.1, hn.2, by simp⟩
  | succ left ih =>
    intro r s q t h
    unfold search at h
    split at h
    · obtain ⟨h1, h2, h3, h4, h5⟩ := ih (r + 1) _ h
      refine ⟨by omega, by omega, h3, h4, ?_⟩
      have e : q - r = (q - (r + 1)) + 1 := by omega
      rw [h5, e, List.range'_succ]
      cases hv : vis r
      · simp only [List.filter_cons, hv, Bool.not_false, if_true, List.length_cons, pow_succ, Bool.false_eq_true, if_false]
        ring
      · simp [hv]
    · obtain ⟨rfl, rfl⟩ := Prod.mk.inj (Option.some.inj h)
      rename_i hn
      simp only [Bool.or_eq_true, not_or, Bool.not_eq_true] at hn
      exact ⟨le_rfl, by omega, hn.1, hn.2, by simp⟩

omit [LinearOrder K] [IsStrictOrderedRing K] in
theorem search_none {vis small : Nat → Bool} : ∀ (left r : Nat) (s : K), search vis small left r s = none →
    ∀ i, r ≤ i → i ≤ r + left → vis i = false → small i = true := by
  intro left
  induction left with
  | zero =>
    intro r s h i h1 h2 hv
    obtain rfl : i = r := by omega
    unfold search at h
    rw [hv] at h
    cases hs : small i
    · simp [hs] at h
    · rfl
  | succ left ih =>
    intro r s h i h1 h2 hv
    unfold search at h
    split at h
    · rename_i hc
      rcases Nat.eq_or_lt_of_le h1 with e | e
      · subst e
        rw [hv] at hc
        simpa using hc
      · exact ih (r + 1) _ h i (by omega) (by omega) hv
    · exact absurd h (by simp)

/-- the rows which are not visited, in their order -/
def rows (N : Nat) (vis : Nat → Bool) : List Nat := (List.range N).filter fun i => !vis i

theorem rows_split {N r : Nat} {vis : Nat → Bool} (hr : r < N) (hv : vis r = false) :
    ∃ l1 l2, rows N vis = l1 ++ r :: l2 ∧ rows N (fun i => decide (i = r) || vis i) = l1 ++ l2 ∧
      l1 = (List.range' 0 r).filter fun i => !vis i := by
  have e : List.range N = List.range r ++ r :: List.range' (r + 1) (N - r - 1) := by
    rw [List.range_eq_range', List.range_eq_range', ← List.range'_succ]
    have := List.range'_append_1 (s := 0) (m := r) (n := N - r - 1 + 1)
    rw [Nat.zero_add] at this
    rw [this]
    congr 1
    omega
  refine ⟨(List.range r).filter fun i => !vis i, (List.range' (r + 1) (N - r - 1)).filter fun i => !vis i, ?_, ?_, ?_⟩
  · unfold rows
    rw [e, List.filter_append, List.filter_cons, hv]
    simp
  · unfold rows
    rw [e, List.filter_append, List.filter_cons]
    simp only [decide_true, Bool.true_or, Bool.not_true, Bool.false_eq_true, if_false]
    congr 1 <;> refine List.filter_congr fun i hi => ?_
    · have := List.mem_range.1 hi
      simp [Nat.ne_of_lt this]
    · have := (List.mem_range'_1.1 hi).1
      simp [Nat.ne_of_gt this]
  · rw [List.range_eq_range']

/-- The tolerance makes no difference: entries it takes for zero, and multipliers it skips, are zero. -/
def Sharp (eps : K) (N : Nat) : Nat → Nat → (Nat → Bool) → (Nat → Nat → K) → Prop
  | 0, _, _, _ => True
  | left + 1, d, vis, A => 0 < eps ∧ (∀ i, i < N → vis i = false → |A i d| < eps → A i d = 0) ∧
    ∀ r s, search vis (fun i => decide (|A i d| < eps)) (N - 1) 0 (1 : K) = some (r, s) →
      (∀ i, i < N → vis i = false → i ≠ r → |A i d / A r d| ≤ eps → A i d = 0) ∧
        Sharp eps N left (d + 1) (fun i => decide (i = r) || vis i) (sweep eps N r d (fun i => decide (i = r) || vis i) A)

theorem loop_det {eps : K} {N : Nat} (hN : 0 < N) : ∀ (left d : Nat) (vis : Nat → Bool) (A : Nat → Nat → K) (ret : K), d + left = N →
    (rows N vis).length = left → Sharp eps N left d vis A →
    loop eps N left d vis A ret = ret * detN left (fun i => (rows N vis).getD i 0) d A := by
  intro left
  induction left with
  | zero =>
    intro d vis A ret _ _ _
    simp [loop, detN]
  | succ left ih =>
    intro d vis A ret hd hl hs
    obtain ⟨he, h1, h2⟩ := hs
    have hmem : ∀ i, i < left + 1 → (rows N vis).getD i 0 < N ∧ vis ((rows N vis).getD i 0) = false := by
      intro i hi
      have hi' : i < (rows N vis).length := by omega
      have : (rows N vis).getD i 0 ∈ rows N vis := by
        rw [List.getD_eq_getElem _ _ hi']
        exact List.getElem_mem hi'
      unfold rows at this ⊢
      obtain ⟨a, b⟩ := List.mem_filter.1 this
      exact ⟨List.mem_range.1 a, by simpa using b⟩
    unfold loop
    cases hsr : search vis (fun i => decide (|A i d| < eps)) (N - 1) 0 (1 : K) with
    | none =>
      have hz : detN (left + 1) (fun i => (rows N vis).getD i 0) d A = 0 := by
        refine Matrix.det_eq_zero_of_column_eq_zero 0 fun i => ?_
        obtain ⟨a, b⟩ := hmem i i.2
        have := search_none _ _ _ hsr _ (Nat.zero_le _) (by omega) b
        exact h1 _ a b (by simpa using this)
      simp only [hz, mul_zero]
    | some x =>
      obtain ⟨r, s⟩ := x
      obtain ⟨g1, g2, g3, g4, g5⟩ := search_some _ _ _ hsr
      obtain ⟨c1, c2⟩ := h2 r s hsr
      have hr : r < N := by omega
      obtain ⟨l1, l2, e1, e2, e3⟩ := rows_split hr g3
      have hp : A r d ≠ 0 := by
        intro e
        rw [e] at g4
        simp at g4
        exact absurd he (not_lt.2 g4)
      have hlen : (l1 ++ l2).length = left := by
        have := hl
        rw [e1] at this
        simp only [List.length_append, List.length_cons] at this ⊢
        omega
      have hgr : (rows N vis).getD l1.length 0 = r := by
        rw [e1]
        simp
      have hpiv := detN_pivot (m := left) (fun i => (rows N vis).getD i 0) d A (sweep eps N r d (fun i => decide (i = r) || vis i) A)
        (p := l1.length) (by rw [List.length_append] at hlen; omega) (by rw [hgr]; exact hp) (by
          intro i hi hne j _ hj
          obtain ⟨a, b⟩ := hmem i hi
          have hir : (rows N vis).getD i 0 ≠ r := by
            intro e
            have nd : (rows N vis).Nodup := List.Nodup.filter _ List.nodup_range
            have hi' : i < (rows N vis).length := by omega
            have hl' : l1.length < (rows N vis).length := by rw [e1]; simp
            rw [← hgr, List.getD_eq_getElem _ _ hi', List.getD_eq_getElem _ _ hl'] at e
            exact hne ((List.Nodup.getElem_inj_iff nd).1 e)
          rw [hgr]
          unfold sweep
          by_cases hc : eps < |A ((rows N vis).getD i 0) d / A r d|
          · rw [if_pos ⟨a, by omega, by beta_reduce; rw [b, Bool.or_false]; exact decide_eq_false hir, hc⟩]
          · rw [if_neg fun h => hc h.2.2.2, c1 _ a b hir (not_lt.1 hc)]
            ring)
      dsimp only
      rw [ih (d + 1) _ _ _ (by omega) (by rw [e2]; exact hlen) c2, hpiv]
      have hs : s = (-1) ^ l1.length := by
        rw [g5, e3]
        simp
      rw [hgr, hs]
      have hfun : detN left (fun i => (rows N fun i => decide (i = r) || vis i).getD i 0) (d + 1) (sweep eps N r d (fun i => decide (i = r) || vis i) A) =
          detN left (fun i => (rows N vis).getD (if i < l1.length then i else i + 1) 0) (d + 1) (sweep eps N r d (fun i => decide (i = r) || vis i) A) := by
        unfold detN
        congr 2
        funext i j
        congr 1
        beta_reduce
        rw [e1, e2]
        by_cases hi : (i : Nat) < l1.length
        · rw [if_pos hi, List.getD_append _ _ _ _ hi, List.getD_append _ _ _ _ hi]
        · rw [if_neg hi, List.getD_append_right _ _ _ _ (by omega), List.getD_append_right _ _ _ _ (by omega),
            show (i : Nat) + 1 - l1.length = (i - l1.length) + 1 by omega, List.getD_cons_succ]
      rw [hfun]
      ring

/-- **C72** (square matrices of any size): the generic determinant is the determinant if the tolerance makes no difference.  Partial: see
`det_scaled_wrong` for entries so large that it does. -/
theorem det_partial (u : K) {N : Nat} (hN : 0 < N) (A : Nat → Nat → K)
    (h : Sharp (tol u ((List.range N).flatMap fun i => (List.range N).map fun j => A i j)) N N 0 (fun _ => false) A) :
    det u N A = Matrix.det (Matrix.of fun i j : Fin N => A i j) := by
  have hr : rows N (fun _ => false) = List.range N := by simp [rows]
  unfold det
  rw [loop_det hN N 0 _ A 1 (by omega) (by rw [hr]; simp) h, one_mul, hr]
  unfold detN
  congr 2
  funext i j
  beta_reduce
  rw [List.getD_eq_getElem _ _ (by simp)]
  simp

omit [LinearOrder K] [IsStrictOrderedRing K] in
theorem search_first {vis small : Nat → Bool} {d : Nat} : ∀ (left r : Nat) (s : K), r ≤ d → d ≤ r + left → (∀ i, i < d → vis i = true) →
    vis d = false → small d = false → search vis small left r s = some (d, s) := by
  intro left
  induction left with
  | zero =>
    intro r s h1 h2 _ h4 h5
    obtain rfl : r = d := by omega
    simp [search, h4, h5]
  | succ left ih =>
    intro r s h1 h2 h3 h4 h5
    unfold search
    rcases Nat.eq_or_lt_of_le h1 with e | e
    · subst e
      simp [h4, h5]
    · rw [h3 r e, Bool.true_or, if_pos rfl, if_pos rfl]
      exact ih (r + 1) s e (by omega) h3 h4 h5

theorem sharp_triangular {eps : K} {N : Nat} {A : Nat → Nat → K} (he : 0 < eps) (hd : ∀ i, i < N → eps ≤ |A i i|)
    (ht : ∀ i j, j < i → i < N → A i j = 0) : ∀ left d, d + left = N → Sharp eps N left d (fun i => decide (i < d)) A := by
  intro left
  induction left with
  | zero => exact fun _ _ => trivial
  | succ left ih =>
    intro d hN
    have hz : ∀ i, i < N → decide (i < d) = false → i ≠ d → A i d = 0 := fun i hi hv hne =>
      ht i d (by have := of_decide_eq_false hv; omega) hi
    refine ⟨he, fun i hi hv hs => ?_, fun r s hs => ?_⟩
    · by_cases h : i = d
      · subst h
        exact absurd hs (not_lt.2 (hd i hi))
      · exact hz i hi hv h
    · have hs' := search_first (K := K) (vis := fun i => decide (i < d)) (small := fun i => decide (|A i d| < eps)) (d := d) (N - 1) 0 1 (Nat.zero_le _)
        (by omega) (by simp) (by simp) (by simpa using hd d (by omega))
      rw [hs'] at hs
      obtain ⟨rfl, -⟩ := Prod.mk.inj (Option.some.inj hs)
      refine ⟨fun i hi hv hne _ => hz i hi hv hne, ?_⟩
      have e1 : (fun i => decide (i = d) || decide (i < d)) = fun i => decide (i < d + 1) := by
        funext i
        rw [← Bool.decide_or]
        exact decide_eq_decide.2 (by omega)
      have e2 : sweep eps N d d (fun i => decide (i < d + 1)) A = A := by
        funext i j
        unfold sweep
        by_cases h : i < N ∧ j < N ∧ decide (i < d + 1) = false ∧ eps < |A i d / A d d|
        · obtain ⟨a, _, b, c⟩ := h
          have := of_decide_eq_false b
          rw [ht i d (by omega) a, zero_div, abs_zero] at c
          exact absurd c (not_lt.2 he.le)
        · rw [if_neg h]
      rw [e1, e2]
      exact ih (d + 1) (by omega)

/-- **C72** (triangular matrices): the product of the diagonal, whatever the size, if no diagonal entry is below the tolerance. -/
theorem triangular (u : K) {N : Nat} (hN : 0 < N) (A : Nat → Nat → K) (ht : ∀ i j, j < i → i < N → A i j = 0)
    (he : 0 < tol u ((List.range N).flatMap fun i => (List.range N).map fun j => A i j))
    (hd : ∀ i, i < N → tol u ((List.range N).flatMap fun i => (List.range N).map fun j => A i j) ≤ |A i i|) :
    det u N A = ∏ i : Fin N, A i i := by
  have := sharp_triangular he hd ht N 0 (by omega)
  rw [det_partial u hN A (by simpa using this)]
  exact Matrix.det_of_isUpperTriangular fun i j hij => ht i j hij i.2

omit [IsStrictOrderedRing K] in
theorem loop_zero (eps : K) (N : Nat) : ∀ (left d : Nat) (vis : Nat → Bool) (A : Nat → Nat → K), loop eps N left d vis A 0 = 0 := by
  intro left
  induction left with
  | zero => intros; rfl
  | succ left ih =>
    intro d vis A
    unfold loop
    split
    · rfl
    · rw [zero_mul]
      exact ih _ _ _

omit [IsStrictOrderedRing K] in
/-- **C72** (zero matrix): here the tolerance is zero and a zero pivot is taken, the result is zero. -/
theorem det_zero (u : K) {N : Nat} (hN : 0 < N) (A : Nat → Nat → K) (h : ∀ i j, i < N → j < N → A i j = 0) : det u N A = 0 := by
  obtain ⟨n, rfl⟩ : ∃ n, N = n + 1 := ⟨N - 1, by omega⟩
  unfold det loop
  split
  · rfl
  · rename_i r s hs
    obtain ⟨-, g2, -, -, -⟩ := search_some _ _ _ hs
    dsimp only
    rw [h r 0 (by omega) (by omega), mul_zero, mul_zero]
    exact loop_zero ..

/-- Entries so large that the tolerance, which grows with them, is not below one: multipliers are compared with the tolerance, too, and those of size
one are skipped.  The determinant of `[[m, m], [m, -m]]` is half of what it should be. -/
theorem det_scaled_wrong (u m : K) (hm : 0 < m) (h1 : 1 ≤ 100 * m * u) (h2 : 100 * u ≤ 1) :
    det u 2 (fun i j => if i = 1 ∧ j = 1 then -m else m) = -(m * m) ∧
      Matrix.det (Matrix.of fun i j : Fin 2 => if (i : Nat) = 1 ∧ (j : Nat) = 1 then -m else m) = -(2 * (m * m)) := by
  refine ⟨?_, ?_⟩
  · have ht : tol u ((List.range 2).flatMap fun i => (List.range 2).map fun j => if i = 1 ∧ j = 1 then -m else m) = 100 * m * u := by
      have : maxAbs [m, m, m, -m] = m := by
        simp [maxAbs, abs_of_pos hm, hm.le]
      show 100 * maxAbs [m, m, m, -m] * u = _
      rw [this]
    have hle : ¬ m < 100 * m * u := by
      rw [not_lt]
      nlinarith
    have h1' : ¬ 100 * m * u < 1 := not_lt.2 h1
    unfold det
    rw [ht]
    simp [loop, search, sweep, abs_of_pos hm, hle, div_self hm.ne', h1']
  · rw [Matrix.det_fin_two]
    simp
    ring

/-! ### Symmetric matrices -/

omit [LinearOrder K] [IsStrictOrderedRing K] in
theorem symRow_apply {N d i : Nat} (hi : d < i) (coef : K) (A : Nat × Nat → K) (p : Nat × Nat) :
    symRow N d i coef A p = if p.1 = i ∧ i ≤ p.2 ∧ p.2 < N then A p - coef * A (d, p.2) else A p := by
  have key : ∀ n a, i ≤ a → ∀ B : Nat × Nat → K, (∀ j, B (d, j) = A (d, j)) →
      (List.range' a n).foldl (fun A j => fun p => if p = (i, j) then get A i j - coef * get A d j else A p) B p =
        if p.1 = i ∧ a ≤ p.2 ∧ p.2 < a + n then B p - coef * A (d, p.2) else B p := by
    intro n
    induction n with
    | zero =>
      intro a _ B _
      rw [if_neg (by omega)]
      rfl
    | succ n ih =>
      intro a ha B hB
      rw [List.range'_succ, List.foldl_cons, ih (a + 1) (by omega) _ (fun j => by
        rw [if_neg (by intro e; have := (Prod.mk.inj e).1; omega), hB])]
      obtain ⟨p1, p2⟩ := p
      have g1 : get B i a = B (i, a) := by unfold get; rw [min_eq_left ha, max_eq_right ha]
      have g2 : get B d a = A (d, a) := by
        unfold get
        rw [min_eq_left (by omega), max_eq_right (by omega), hB]
      dsimp only
      by_cases hp : p1 = i
      · subst hp
        rcases Nat.lt_trichotomy p2 a with h | h | h
        · simp [show ¬ a + 1 ≤ p2 by omega, show ¬ a ≤ p2 by omega, show p2 ≠ a by omega]
        · subst h
          simp [g1, g2]
        · have e : p2 < a + 1 + n ↔ p2 < a + (n + 1) := by omega
          simp only [Prod.mk.injEq, show a + 1 ≤ p2 by omega, show a ≤ p2 by omega, show p2 ≠ a by omega, e, true_and, and_false, if_false]
      · simp [hp]
  unfold symRow
  rw [key (N - i) i le_rfl A fun _ => rfl]
  have : (p.1 = i ∧ i ≤ p.2 ∧ p.2 < i + (N - i)) ↔ (p.1 = i ∧ i ≤ p.2 ∧ p.2 < N) := by omega
  simp only [this]

omit [IsStrictOrderedRing K] in
theorem symSweep_apply {eps : K} {N d : Nat} {vis : Nat → Bool} (hv : ∀ i, vis i = true ↔ i ≤ d) (A : Nat × Nat → K)
    (hs : ∀ i, d < i → i < N → |A (d, i) / A (d, d)| ≤ eps → A (d, i) = 0) {i j : Nat} (hd : d < i) (hij : i ≤ j) (hj : j < N) :
    symSweep eps N d d vis A (i, j) = A (i, j) - A (d, i) / A (d, d) * A (d, j) := by
  have key : ∀ n a, ∀ B : Nat × Nat → K, (∀ j, B (d, j) = A (d, j)) → a + n ≤ N →
      (List.range' a n).foldl (fun A i => if vis i = false ∧ eps < |get A i d / get A d d| then symRow N d i (get A i d / get A d d) A else A) B (i, j) =
        if a ≤ i ∧ i < a + n then B (i, j) - A (d, i) / A (d, d) * A (d, j) else B (i, j) := by
    intro n
    induction n with
    | zero =>
      intro a B _ _
      rw [if_neg (by omega)]
      rfl
    | succ n ih =>
      intro a B hB ha
      rw [List.range'_succ, List.foldl_cons]
      by_cases hva : vis a = false
      · have hda : d < a := by
          by_contra h
          rw [(hv a).2 (by omega)] at hva
          exact absurd hva (by simp)
        have g1 : get B a d = A (d, a) := by unfold get; rw [min_eq_right (by omega), max_eq_left (by omega), hB]
        have g2 : get B d d = A (d, d) := by unfold get; rw [min_self, max_self, hB]
        rw [g1, g2]
        have hB' : ∀ c, ∀ j, (symRow N d a c B) (d, j) = A (d, j) := fun c j => by
          rw [symRow_apply hda, if_neg (by intro h; have := h.1; dsimp only at this; omega), hB]
        by_cases hc : eps < |A (d, a) / A (d, d)|
        · rw [if_pos ⟨hva, hc⟩, ih (a + 1) _ (hB' _) (by omega), symRow_apply hda]
          dsimp only
          by_cases hia : i = a
          · subst hia
            rw [if_neg (by omega), if_pos (by omega), if_pos (by omega), hB]
          · have : (a + 1 ≤ i ∧ i < a + 1 + n) ↔ (a ≤ i ∧ i < a + (n + 1)) := by omega
            simp only [hia, false_and, if_false, this]
        · rw [if_neg (fun h => hc h.2), ih (a + 1) _ hB (by omega)]
          by_cases hia : i = a
          · subst hia
            rw [if_neg (by omega), if_pos (by omega), hs i hd (by omega) (not_lt.1 hc)]
            ring
          · have : (a + 1 ≤ i ∧ i < a + 1 + n) ↔ (a ≤ i ∧ i < a + (n + 1)) := by omega
            simp only [this]
      · rw [if_neg (fun h => hva h.1), ih (a + 1) _ hB (by omega)]
        have hia : i ≠ a := by
          rintro rfl
          have := (hv i).1 (by simpa using hva)
          omega
        have : (a + 1 ≤ i ∧ i < a + 1 + n) ↔ (a ≤ i ∧ i < a + (n + 1)) := by omega
        simp only [this]
  unfold symSweep
  rw [List.range_eq_range', key N 0 A (fun _ => rfl) (by omega), if_pos (by omega)]

/-- The pivots are met in their order and the tolerance makes no difference. -/
def SymSharp (eps : K) (N : Nat) : Nat → Nat → (Nat × Nat → K) → Prop
  | 0, _, _ => True
  | left + 1, d, A => 0 < eps ∧ eps ≤ |A (d, d)| ∧ (∀ i, d < i → i < N → |A (d, i) / A (d, d)| ≤ eps → A (d, i) = 0) ∧
    SymSharp eps N left (d + 1) (symSweep eps N d d (fun i => decide (i ≤ d)) A)

theorem symLoop_det {eps : K} {N : Nat} : ∀ (left d : Nat) (vis : Nat → Bool) (A : Nat × Nat → K) (ret : K), d + left = N →
    (∀ i, vis i = decide (i < d)) → SymSharp eps N left d A → symLoop eps N left d vis A ret = ret * detN left (fun i => d + i) d (get A) := by
  intro left
  induction left with
  | zero =>
    intro d vis A ret _ _ _
    simp [symLoop, detN]
  | succ left ih =>
    intro d vis A ret hd hv hs
    obtain ⟨he, h1, h2, h3⟩ := hs
    have gd : get A d d = A (d, d) := by unfold get; rw [min_self, max_self]
    have hsr : search vis (fun i => decide (|get A i d| < eps)) (N - 1) 0 (1 : K) = some (d, 1) := by
      refine search_first _ _ _ (Nat.zero_le _) (by omega) (fun i hi => by rw [hv]; simpa using hi) (by rw [hv]; simp) ?_
      rw [gd]
      simpa using h1
    have hvis : (fun i => decide (i = d) || vis i) = fun i => decide (i ≤ d) := by
      funext i
      rw [hv, ← Bool.decide_or]
      exact decide_eq_decide.2 (by omega)
    have hp : A (d, d) ≠ 0 := by
      intro e
      rw [e, abs_zero] at h1
      exact absurd he (not_lt.2 h1)
    unfold symLoop
    rw [hsr]
    dsimp only
    rw [hvis, ih (d + 1) _ _ _ (by omega) (fun i => decide_eq_decide.2 (by omega)) h3]
    have hg : ∀ i, get A (d + i) d = A (d, d + i) ∧ get A d (d + i) = A (d, d + i) := fun i => by
      unfold get
      rw [min_eq_right (by omega), max_eq_left (by omega), min_eq_left (by omega), max_eq_right (by omega)]
      exact ⟨rfl, rfl⟩
    have hpiv := detN_pivot (m := left) (fun i => d + i) d (get A) (get (symSweep eps N d d (fun i => decide (i ≤ d)) A)) (p := 0) (Nat.zero_le _)
      (by rw [Nat.add_zero, gd]; exact hp) (by
        intro i hi hne j hj hj'
        rw [Nat.add_zero, gd, (hg i).1, (hg j).2]
        have hsw : ∀ i j, 1 ≤ i → i ≤ j → j < left + 1 → symSweep eps N d d (fun i => decide (i ≤ d)) A (d + i, d + j) =
            A (d + i, d + j) - A (d, d + i) / A (d, d) * A (d, d + j) := fun i j a b c =>
          symSweep_apply (by simp) A h2 (by omega) (by omega) (by omega)
        rcases Nat.le_total i j with hij | hij
        · unfold get
          rw [min_eq_left (by omega), max_eq_right (by omega), hsw i j (by omega) hij hj']
        · unfold get
          rw [min_eq_right (by omega), max_eq_left (by omega), hsw j i hj hij hi]
          ring)
    rw [hpiv]
    have hρ : detN left (fun i => d + 1 + i) (d + 1) (get (symSweep eps N d d (fun i => decide (i ≤ d)) A)) =
        detN left (fun i => d + (if i < 0 then i else i + 1)) (d + 1) (get (symSweep eps N d d (fun i => decide (i ≤ d)) A)) := by
      unfold detN
      congr 2
      funext i j
      beta_reduce
      rw [if_neg (by omega), show d + 1 + (i : Nat) = d + (i + 1) by omega]
    rw [hρ, pow_zero, one_mul, one_mul, mul_assoc]
    rfl

/-- **C72** (symmetric matrices of any size): right if the pivots are met in their order, that is no diagonal entry met is small, and the tolerance makes
no difference.  Partial: see `symDet_wrong` for the rest. -/
theorem symDet_partial (u : K) {N : Nat} (A : Nat × Nat → K)
    (h : SymSharp (tol u ((List.range N).flatMap fun i => (List.range' i (N - i)).map fun j => get A i j)) N N 0 A) :
    symDet u N A = Matrix.det (Matrix.of fun i j : Fin N => get A i j) := by
  unfold symDet
  rw [symLoop_det N 0 _ A 1 (by omega) (fun i => by simp) h, one_mul]
  unfold detN
  congr 2
  funext i j
  simp

/-- the symmetric matrix with the rows `0 1 1`, `1 1 1`, `1 1 0` -/
def exZero : Nat × Nat → ℚ := fun p => if p = (0, 0) ∨ p = (2, 2) then 0 else 1

/-- When the first diagonal entry is zero another row is taken, but only the entries on and above the diagonal are changed, so the other half of the row
is old: the result is `2`, the determinant is `1`. -/
theorem symDet_wrong : symDet (1 / 4503599627370496) 3 exZero = 2 ∧ Matrix.det (Matrix.of fun i j : Fin 3 => get exZero i j) = 1 := by
  refine ⟨by decide +kernel, ?_⟩
  rw [Matrix.det_fin_three]
  simp [get, exZero]

/-! ### The inverse -/

/-- the matrix stored by rows -/
def mat (N : Nat) (a : Nat → K) : Matrix (Fin N) (Fin N) K := Matrix.of fun i j => a (N * i + j)

open Dense in
/-- **C72** (inverse): the generic inverse of a regular matrix is its inverse if the column exchanges of the elimination are their own inverse and the
tolerance makes no difference (C20).  Partial: otherwise the solver is wrong, `Verif.Dense.lu_solve_wrong`. -/
theorem inv_partial (eps : K) {N : Nat} (hN : 0 < N) (a r : Nat → K) (ha : IsUnit (mat N a)) (h0 : 0 ≤ eps)
    (ht : NoTiny eps N (List.range N) ⟨a, id, id⟩ = true)
    (hq : ∀ s, fullPivLU eps N ⟨a, id, id⟩ = some s → ∀ i, i < N → s.q (s.q i) = i) :
    ∃ b, inv eps N a r = some b ∧ mat N b * mat N a = 1 ∧ mat N a * mat N b = 1 := by
  have hns : NonSing N a := by
    intro x hx j hj
    have e : Matrix.vecMul (fun i : Fin N => x i) (mat N a) = Matrix.vecMul 0 (mat N a) := by
      rw [Matrix.zero_vecMul]
      funext i
      have := hx i i.2
      rw [← Fin.sum_univ_eq_sum_range (fun k => ent N a i k * x k)] at this
      rw [Pi.zero_apply, ← this]
      simp only [Matrix.vecMul, dotProduct]
      refine Finset.sum_congr rfl fun k _ => ?_
      simp only [mat, Matrix.of_apply, ent]
      rw [show (i : Nat) + k * N = N * k + i by ring]
      ring
    have := congrFun (Matrix.vecMul_injective_of_isUnit ha e) ⟨j, hj⟩
    simpa using this
  obtain ⟨Y, I, h1, h2, h3⟩ := lu_inverse_partial eps N hN a r hns h0 ht hq
  have hl : mat N Y * mat N a = 1 := by
    ext i j
    have := h3 j j.2 i i.2
    rw [h2 j j.2 i i.2, ← Fin.sum_univ_eq_sum_range (fun k => ent N a j k * ent N Y k i)] at this
    rw [Matrix.mul_apply, Matrix.one_apply]
    have e : (∑ k : Fin N, mat N Y i k * mat N a k j) = ∑ k : Fin N, ent N a j k * ent N Y k i := by
      refine Finset.sum_congr rfl fun k _ => ?_
      simp only [mat, Matrix.of_apply, ent]
      rw [show (j : Nat) + k * N = N * k + j by ring, show (k : Nat) + i * N = N * i + k by ring]
      ring
    rw [e, this]
    by_cases h : i = j
    · subst h
      simp
    · rw [if_neg h, if_neg fun e => h (Fin.ext e.symm)]
  exact ⟨Y, h1, hl, mul_eq_one_comm.1 hl⟩

/-! ### Instances -/

/-- `[[0, 1], [2, 3]]`: the rows are exchanged -/
def exSwap : Nat → Nat → ℚ := fun i j => if i = 0 then (if j = 0 then 0 else 1) else if j = 0 then 2 else 3

theorem exSwap_sharp : Sharp (1 / 100 : ℚ) 2 2 0 (fun _ => false) exSwap := by
  refine ⟨by norm_num, fun i hi _ h => ?_, fun r s hs => ?_⟩
  · have : i = 0 ∨ i = 1 := by omega
    rcases this with rfl | rfl
    · rfl
    · exact absurd h (by norm_num [exSwap])
  · have e : search (fun _ => false) (fun i => decide (|exSwap i 0| < (1 / 100 : ℚ))) (2 - 1) 0 (1 : ℚ) = some (1, -1) := by
      norm_num [search, exSwap]
    rw [e] at hs
    obtain ⟨rfl, -⟩ := Prod.mk.inj (Option.some.inj hs)
    refine ⟨fun i hi _ hne _ => ?_, by norm_num, fun i hi hv h => ?_, fun r s hs => ?_⟩
    · obtain rfl : i = 0 := by omega
      rfl
    · have : i = 0 ∨ i = 1 := by omega
      rcases this with rfl | rfl
      · exact absurd h (by norm_num [exSwap, sweep])
      · exact absurd hv (by simp)
    · obtain ⟨-, g2, g3, -, -⟩ := search_some _ _ _ hs
      refine ⟨fun i hi hv hne _ => ?_, trivial⟩
      simp only [Bool.or_false, decide_eq_false_iff_not] at g3 hv
      omega

example : loop (1 / 100 : ℚ) 2 2 0 (fun _ => false) exSwap 1 = -2 := by decide +kernel

/-- `[[2, 1], [1, 3]]` -/
example : SymSharp (1 / 100 : ℚ) 2 2 0 (fun p => if p = (0, 0) then 2 else if p = (0, 1) then 1 else 3) := by
  refine ⟨by norm_num, by norm_num, fun i h1 h2 h => ?_, by norm_num, ?_, fun i h1 h2 _ => absurd h2 (by omega), trivial⟩
  · obtain rfl : i = 1 := by omega
    exact absurd h (by norm_num)
  · rw [symSweep_apply (by simp) _ (fun i h1 h2 h => ?_) Nat.zero_lt_one le_rfl (by omega)]
    · norm_num
    · obtain rfl : i = 1 := by omega
      exact absurd h (by norm_num)

-- the inverse of a matrix of order two
example : Dense.NoTiny (1 / 2 ^ 52) 2 (List.range 2) ⟨Dense.ofList [2, 1, 1, 3], id, id⟩ = true ∧
    ((Dense.fullPivLU (1 / 2 ^ 52) 2 ⟨Dense.ofList [2, 1, 1, 3], id, id⟩).map fun s => (s.q (s.q 0), s.q (s.q 1))) = some (0, 1) := by decide +kernel

-- a tolerance of the size one: entries of `10 ^ 14` with `u = 10 ^ (-16)`
example : (1 : ℚ) ≤ 100 * 10 ^ 14 * (1 / 10 ^ 16) ∧ 100 * (1 / 10 ^ 16 : ℚ) ≤ 1 := by norm_num

end Verif.Det
