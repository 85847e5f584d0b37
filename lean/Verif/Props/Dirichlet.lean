import Verif.Model.Dirichlet
import Verif.Spec.Dirichlet
import Verif.Lemmas.Loops
import Mathlib.Tactic.NormNum
import Mathlib.Tactic.IntervalCases
import Mathlib.Algebra.Order.Ring.Rat
import Mathlib.Algebra.BigOperators.Fin
import Mathlib.Data.List.Perm.Basic

/-!
C39: imposing Dirichlet values on single d.o.f.s of an elemental system.
-/
set_option linter.unusedSectionVars false

namespace Verif.Dirichlet

open Verif.Dense

variable {K : Type} [Field K]

/-- Entries after `applyDirMatrix`, read at any position of the memory. -/
theorem dirMatrix_ent (n m : Nat) (A : Nat → K) {k : Nat} (hn : k < n) (i j : Nat) (hi : i < n) (hj : j < m) :
    ent n (dirMatrix n m A k) i j = if i = k ∧ j = k then 1 else if i = k ∨ j = k then 0 else ent n A i j := by
  unfold dirMatrix
  simp only
  rw [ent_wr _ _ hn hi]
  by_cases h1 : i = k ∧ j = k
  · rw [if_pos h1, if_pos h1]
  rw [if_neg h1, if_neg h1]
  by_cases h2 : i = k
  · rw [if_pos (Or.inl h2), h2]
    unfold ent
    exact loop_wr_at (fun i => k + i * n) (fun _ _ => 0) (fun _ _ => 0) (fun _ _ _ => rfl)
      (fun a _ b _ e => (pos_inj hn hn e).2) hj
  · have e1 : ∀ s : Nat → K, ent n (loop 0 m (fun i A => wr A (k + i * n) 0) s) i j = ent n s i j := by
      intro s
      unfold ent
      exact loop_wr_off (fun i => k + i * n) (fun _ _ => 0) (fun a _ e => h2 (pos_inj hi hn e.symm).1)
    rw [e1]
    unfold ent
    by_cases h3 : j = k
    · rw [if_pos (Or.inr h3), h3]
      refine loop_at (fun _ => 0) (i := i + k * n) (by omega) ?_ (fun t => wr_same _ _ _)
        (fun q t _ _ hq => wr_ne _ _ (Ne.symm hq))
      rw [Nat.add_mul]; omega
    · rw [if_neg (by tauto)]
      refine loop_off (fun q t h1 h2 => wr_ne _ _ ?_)
      intro e
      apply h3
      have hq : ∃ r, r < n ∧ q = r + k * n := ⟨q - k * n, by rw [Nat.add_mul] at h2; omega, by omega⟩
      obtain ⟨r, hr, rfl⟩ := hq
      exact (pos_inj hi hr e).2

/-- Memory which does not belong to the matrix is left alone. -/
theorem dirMatrix_frame (n m : Nat) (A : Nat → K) {k : Nat} (hn : k < n) (hm : k < m) (p : Nat) (hp : n * m ≤ p) :
    dirMatrix n m A k p = A p := by
  have key : ∀ r c, r < n → c < m → p ≠ r + c * n := by
    intro r c hr hc e
    have : c * n + n ≤ m * n := by rw [← Nat.succ_mul]; exact Nat.mul_le_mul_right _ hc
    rw [Nat.mul_comm n m] at hp
    omega
  unfold dirMatrix
  rw [wr_ne _ _ (key k k hn hm), loop_wr_off (fun i => k + i * n) (fun _ _ => 0) (fun a ha e => key k a hn ha e.symm)]
  refine loop_off (fun q t h1 h2 => wr_ne _ _ ?_)
  have := key (q - k * n) k (by rw [Nat.add_mul] at h2; omega) hm
  omega

/-- Right-hand side after `applyDir`. -/
theorem dir_rhs (n m : Nat) (s : (Nat → K) × (Nat → K)) (c : Nat × K) (i : Nat) :
    (dir n m s c).2 i = if i = c.1 then c.2 else if i < n then s.2 i - ent n s.1 i c.1 * c.2 else s.2 i := by
  unfold dir
  simp only
  rw [wr_apply]
  by_cases h : i = c.1
  · rw [if_pos h, if_pos h]
  rw [if_neg h, if_neg h]
  by_cases hi : i < n
  · rw [if_pos hi]
    exact loop_wr_at (fun i => i) (fun i F => F i - s.1 (i + c.1 * n) * c.2)
      (fun i x => x - s.1 (i + c.1 * n) * c.2) (fun _ _ _ => rfl) (fun _ _ _ _ e => e) hi
  · rw [if_neg hi]
    exact loop_wr_off (fun i => i) _ (fun a ha e => hi (e ▸ ha))

/-- Row `i` of a matrix with column `k` cleared. -/
theorem sum_clear (m k : Nat) (hk : k < m) (f x : Nat → K) :
    (∑ j ∈ Finset.range m, (if j = k then 0 else f j) * x j) = (∑ j ∈ Finset.range m, f j * x j) - f k * x k := by
  have : ∀ j ∈ Finset.range m, (if j = k then 0 else f j) * x j = f j * x j - (if j = k then f k * x k else 0) := by
    intro j _
    by_cases h : j = k
    · subst h; simp
    · rw [if_neg h, if_neg h, sub_zero]
  rw [Finset.sum_congr rfl this, Finset.sum_sub_distrib, Finset.sum_ite_eq', if_pos (Finset.mem_range.2 hk)]

theorem lhs_dirMatrix (n m : Nat) (A x : Nat → K) {k : Nat} (hn : k < n) (hm : k < m) (i : Nat) (hi : i < n) :
    lhs n m (dirMatrix n m A k) x i = if i = k then x k else lhs n m A x i - ent n A i k * x k := by
  unfold lhs
  by_cases h : i = k
  · rw [if_pos h]
    have : ∀ j ∈ Finset.range m, ent n (dirMatrix n m A k) i j * x j = if j = k then x k else 0 := by
      intro j hj
      rw [dirMatrix_ent n m A hn i j hi (Finset.mem_range.1 hj)]
      by_cases hj : j = k
      · rw [if_pos ⟨h, hj⟩, if_pos hj, one_mul, hj]
      · rw [if_neg (by tauto), if_pos (by tauto), if_neg hj, zero_mul]
    rw [Finset.sum_congr rfl this, Finset.sum_ite_eq', if_pos (Finset.mem_range.2 hm)]
  · rw [if_neg h, ← sum_clear m k hm]
    refine Finset.sum_congr rfl (fun j hj => ?_)
    rw [dirMatrix_ent n m A hn i j hi (Finset.mem_range.1 hj), if_neg (by tauto)]
    by_cases hj : j = k
    · rw [if_pos (by tauto), if_pos hj]
    · rw [if_neg (by tauto), if_neg hj]

/-- **C39.** A vector solves the system after `applyDir` exactly if it has the imposed value and satisfies every other
equation of the original system. -/
theorem dir_exact (n m : Nat) (A F : Nat → K) (k : Nat) (b : K) (hn : k < n) (hm : k < m) (x : Nat → K) :
    Sol n m (dir n m (A, F) (k, b)).1 (dir n m (A, F) (k, b)).2 x ↔
      x k = b ∧ ∀ i, i < n → i ≠ k → lhs n m A x i = F i := by
  have key : ∀ i, i < n → (lhs n m (dir n m (A, F) (k, b)).1 x i = (dir n m (A, F) (k, b)).2 i ↔
      if i = k then x k = b else lhs n m A x i - ent n A i k * x k = F i - ent n A i k * b) := by
    intro i hi
    rw [dir_rhs]
    show lhs n m (dirMatrix n m A k) x i = _ ↔ _
    rw [lhs_dirMatrix n m A x hn hm i hi]
    by_cases h : i = k
    · simp only [if_pos h]
    · simp only [if_neg h, if_pos hi]
  constructor
  · intro h
    have hk : x k = b := by have := (key k hn).1 (h k hn); rwa [if_pos rfl] at this
    refine ⟨hk, fun i hi hne => ?_⟩
    have := (key i hi).1 (h i hi)
    rw [if_neg hne, hk] at this
    exact sub_left_inj.1 this
  · rintro ⟨hk, h⟩ i hi
    refine (key i hi).2 ?_
    by_cases hne : i = k
    · rw [if_pos hne]; exact hk
    · rw [if_neg hne, h i hi hne, hk]

/-- A nonsymmetric 2 × 2 system, the value 5 imposed on d.o.f. 1. -/
example : Sol 2 2 (dir 2 2 ((fun p => ([2, 3, 1, 7] : List ℚ).getD p 0), fun p => ([9, 4] : List ℚ).getD p 0) (1, 5)).1
    (dir 2 2 ((fun p => ([2, 3, 1, 7] : List ℚ).getD p 0), fun p => ([9, 4] : List ℚ).getD p 0) (1, 5)).2
    (fun p => ([2, 5] : List ℚ).getD p 0) := by
  rw [dir_exact _ _ _ _ _ _ (by decide) (by decide)]
  refine ⟨rfl, fun i hi hne => ?_⟩
  have : i = 0 := by omega
  subst this
  norm_num [lhs, ent, Finset.sum_range_succ]

/-- **C39.** The matrix stays symmetric. -/
theorem dir_symm (n : Nat) (A F : Nat → K) (k : Nat) (b : K) (hn : k < n) (h : Symm n A) :
    Symm n (dir n n (A, F) (k, b)).1 := by
  intro i hi j hj
  show ent n (dirMatrix n n A k) i j = ent n (dirMatrix n n A k) j i
  rw [dirMatrix_ent n n A hn i j hi hj, dirMatrix_ent n n A hn j i hj hi, h i hi j hj]
  by_cases h1 : i = k <;> by_cases h2 : j = k <;> simp [h1, h2]

example : Symm 2 (fun p => ([2, 3, 3, 7] : List ℚ).getD p 0) := by
  intro i hi j hj
  interval_cases i <;> interval_cases j <;> rfl

/-- **C39.** A positive definite matrix stays positive definite. -/
theorem dir_posDef [LinearOrder K] [IsStrictOrderedRing K] (n : Nat) (A F : Nat → K) (k : Nat) (b : K) (hn : k < n)
    (h : PosDef n A) : PosDef n (dir n n (A, F) (k, b)).1 := by
  intro x hx
  show 0 < ∑ i ∈ Finset.range n, ∑ j ∈ Finset.range n, x i * ent n (dirMatrix n n A k) i j * x j
  let y : Nat → K := fun i => if i = k then 0 else x i
  have hterm : ∀ i ∈ Finset.range n, ∑ j ∈ Finset.range n, x i * ent n (dirMatrix n n A k) i j * x j =
      (if i = k then x k * x k else 0) + ∑ j ∈ Finset.range n, y i * ent n A i j * y j := by
    intro i hi
    have hi := Finset.mem_range.1 hi
    by_cases hik : i = k
    · rw [if_pos hik]
      have e1 : ∀ j ∈ Finset.range n, x i * ent n (dirMatrix n n A k) i j * x j = if j = k then x k * x k else 0 := by
        intro j hj
        rw [dirMatrix_ent n n A hn i j hi (Finset.mem_range.1 hj)]
        by_cases hj : j = k
        · rw [if_pos ⟨hik, hj⟩, if_pos hj, hj, hik, mul_one]
        · rw [if_neg (by tauto), if_pos (by tauto), if_neg hj, mul_zero, zero_mul]
      have e2 : ∀ j ∈ Finset.range n, y i * ent n A i j * y j = 0 := by
        intro j _
        show (if i = k then 0 else x i) * _ * _ = 0
        rw [if_pos hik, zero_mul, zero_mul]
      rw [Finset.sum_congr rfl e1, Finset.sum_congr rfl e2, Finset.sum_ite_eq', if_pos (Finset.mem_range.2 hn),
        Finset.sum_const_zero, add_zero]
    · rw [if_neg hik, zero_add]
      refine Finset.sum_congr rfl (fun j hj => ?_)
      rw [dirMatrix_ent n n A hn i j hi (Finset.mem_range.1 hj)]
      show _ = (if i = k then 0 else x i) * _ * (if j = k then 0 else x j)
      rw [if_neg (by tauto), if_neg hik]
      by_cases hj : j = k
      · rw [if_pos (by tauto), if_pos hj, mul_zero, zero_mul, mul_zero]
      · rw [if_neg (by tauto), if_neg hj]
  rw [Finset.sum_congr rfl hterm, Finset.sum_add_distrib, Finset.sum_ite_eq', if_pos (Finset.mem_range.2 hn)]
  by_cases hy : ∃ i, i < n ∧ y i ≠ 0
  · exact add_pos_of_nonneg_of_pos (mul_self_nonneg _) (h y hy)
  · have hxk : x k ≠ 0 := by
      obtain ⟨i, hi, hne⟩ := hx
      by_cases hik : i = k
      · rwa [hik] at hne
      · refine absurd ⟨i, hi, ?_⟩ hy
        show (if i = k then 0 else x i) ≠ 0
        rwa [if_neg hik]
    have hz : ∀ i ∈ Finset.range n, ∑ j ∈ Finset.range n, y i * ent n A i j * y j = 0 := by
      intro i hi
      have : y i = 0 := by
        by_contra hne
        exact hy ⟨i, Finset.mem_range.1 hi, hne⟩
      refine Finset.sum_eq_zero (fun j _ => ?_)
      rw [this, zero_mul, zero_mul]
    rw [Finset.sum_eq_zero hz, add_zero]
    exact mul_self_pos.2 hxk

example : PosDef 1 (fun _ => (2 : ℚ)) := by
  intro x ⟨i, hi, hne⟩
  have : i = 0 := by omega
  subst this
  simp only [Finset.sum_range_one, ent]
  nlinarith [mul_self_pos.2 hne]

/-- Every position of the matrix memory is an entry or lies behind the matrix. -/
theorem pos_cases (n m p : Nat) : (∃ i j, i < n ∧ j < m ∧ p = i + j * n) ∨ n * m ≤ p := by
  rcases Nat.lt_or_ge p (n * m) with h | h
  · left
    have hn : 0 < n := by
      rcases Nat.eq_zero_or_pos n with h0 | h0
      · rw [h0, Nat.zero_mul] at h; omega
      · exact h0
    refine ⟨p % n, p / n, Nat.mod_lt _ hn, Nat.div_lt_of_lt_mul h, ?_⟩
    rw [Nat.mul_comm]; exact (Nat.mod_add_div p n).symm
  · exact Or.inr h

/-- Two conditions on different d.o.f.s commute. -/
theorem dir_comm (n m : Nat) (s : (Nat → K) × (Nat → K)) (c e : Nat × K) (hcn : c.1 < n) (hcm : c.1 < m)
    (hen : e.1 < n) (hem : e.1 < m) (hne : c.1 ≠ e.1) : dir n m (dir n m s c) e = dir n m (dir n m s e) c := by
  refine Prod.ext ?_ ?_
  · funext p
    show dirMatrix n m (dirMatrix n m s.1 c.1) e.1 p = dirMatrix n m (dirMatrix n m s.1 e.1) c.1 p
    rcases pos_cases n m p with ⟨i, j, hi, hj, rfl⟩ | hp
    · show ent n (dirMatrix n m (dirMatrix n m s.1 c.1) e.1) i j = ent n (dirMatrix n m (dirMatrix n m s.1 e.1) c.1) i j
      rw [dirMatrix_ent n m _ hen i j hi hj, dirMatrix_ent n m _ hcn i j hi hj, dirMatrix_ent n m _ hcn i j hi hj,
        dirMatrix_ent n m _ hen i j hi hj]
      by_cases h1 : i = c.1 <;> by_cases h2 : j = c.1 <;> by_cases h3 : i = e.1 <;> by_cases h4 : j = e.1 <;>
        simp_all
    · rw [dirMatrix_frame n m _ hen hem p hp, dirMatrix_frame n m _ hcn hcm p hp, dirMatrix_frame n m _ hcn hcm p hp,
        dirMatrix_frame n m _ hen hem p hp]
  · funext i
    rw [dir_rhs, dir_rhs, dir_rhs, dir_rhs]
    show (if i = e.1 then e.2 else if i < n then _ - ent n (dirMatrix n m s.1 c.1) i e.1 * e.2 else _) =
      (if i = c.1 then c.2 else if i < n then _ - ent n (dirMatrix n m s.1 e.1) i c.1 * c.2 else _)
    by_cases h1 : i = e.1
    · rw [if_pos h1, if_neg (by omega), if_pos (by omega), if_pos h1, dirMatrix_ent n m _ hen i c.1 (by omega) hcm,
        if_neg (by omega), if_pos (Or.inl h1), zero_mul, sub_zero]
    · rw [if_neg h1]
      by_cases h2 : i = c.1
      · rw [if_pos h2, if_pos (by omega), if_pos h2, dirMatrix_ent n m _ hcn i e.1 (by omega) hem, if_neg (by omega),
          if_pos (Or.inl h2), zero_mul, sub_zero]
      · rw [if_neg h2, if_neg h2, if_neg h1]
        by_cases hi : i < n
        · rw [if_pos hi, if_pos hi, if_pos hi, if_pos hi, dirMatrix_ent n m _ hcn i e.1 hi hem,
            dirMatrix_ent n m _ hen i c.1 hi hcm, if_neg (by tauto), if_neg (by omega), if_neg (by tauto),
            if_neg (by omega), sub_right_comm]
        · rw [if_neg hi, if_neg hi, if_neg hi, if_neg hi]

/-- **C39.** Conditions on different d.o.f.s give the same system (all memory) in every order. -/
theorem dir_order (n m : Nat) (s : (Nat → K) × (Nat → K)) (l l' : List (Nat × K)) (h : List.Perm l l')
    (hd : (l.map Prod.fst).Nodup) (hn : ∀ c ∈ l, c.1 < n ∧ c.1 < m) : l.foldl (dir n m) s = l'.foldl (dir n m) s := by
  refine h.foldl_eq' (fun c hc e he t => ?_) s
  by_cases hce : c = e
  · rw [hce]
  · have hne : c.1 ≠ e.1 := fun e1 => hce (List.inj_on_of_nodup_map hd hc he e1)
    exact dir_comm n m t c e (hn c hc).1 (hn c hc).2 (hn e he).1 (hn e he).2 hne

/-- Three conditions on a system with four d.o.f.s, reversed. -/
example (s : (Nat → ℚ) × (Nat → ℚ)) :
    [(0, (1 : ℚ)), (3, 2), (1, 5)].foldl (dir 4 4) s = [(1, (5 : ℚ)), (3, 2), (0, 1)].foldl (dir 4 4) s := by
  refine dir_order 4 4 s _ _ (List.reverse_perm _).symm (by decide) ?_
  intro c hc
  simp only [List.mem_cons, List.not_mem_nil, or_false] at hc
  rcases hc with rfl | rfl | rfl <;> decide

/-- **C39.** After a list of conditions on different d.o.f.s the solutions are exactly the vectors with all the imposed
values which satisfy every equation of the other d.o.f.s. -/
theorem dir_list_exact (n m : Nat) (l : List (Nat × K)) (A F : Nat → K) (hd : (l.map Prod.fst).Nodup)
    (hn : ∀ c ∈ l, c.1 < n ∧ c.1 < m) (x : Nat → K) :
    Sol n m (l.foldl (dir n m) (A, F)).1 (l.foldl (dir n m) (A, F)).2 x ↔
      (∀ c ∈ l, x c.1 = c.2) ∧ ∀ i, i < n → i ∉ l.map Prod.fst → lhs n m A x i = F i := by
  induction l generalizing A F with
  | nil => simp [Sol]
  | cons c l ih =>
    rw [List.map_cons, List.nodup_cons] at hd
    have hc := hn c (by simp)
    rw [List.foldl_cons, ih _ _ hd.2 (fun e he => hn e (by simp [he]))]
    have key := dir_exact n m A F c.1 c.2 hc.1 hc.2 x
    have hk : ∀ i, i < n → (lhs n m (dir n m (A, F) c).1 x i = (dir n m (A, F) c).2 i ↔
        if i = c.1 then x c.1 = c.2 else lhs n m A x i - ent n A i c.1 * x c.1 = F i - ent n A i c.1 * c.2) := by
      intro i hi
      rw [dir_rhs]
      show lhs n m (dirMatrix n m A c.1) x i = _ ↔ _
      rw [lhs_dirMatrix n m A x hc.1 hc.2 i hi]
      by_cases h : i = c.1
      · simp only [if_pos h]
      · simp only [if_neg h, if_pos hi]
    constructor
    · rintro ⟨h1, h2⟩
      have hx : x c.1 = c.2 := by
        have := (hk c.1 hc.1).1 (h2 c.1 hc.1 hd.1)
        rwa [if_pos rfl] at this
      refine ⟨fun e he => ?_, fun i hi hni => ?_⟩
      · rcases List.mem_cons.1 he with rfl | he
        · exact hx
        · exact h1 e he
      · rw [List.map_cons, List.mem_cons, not_or] at hni
        have := (hk i hi).1 (h2 i hi hni.2)
        rw [if_neg hni.1, hx] at this
        exact sub_left_inj.1 this
    · rintro ⟨h1, h2⟩
      refine ⟨fun e he => h1 e (by simp [he]), fun i hi hni => (hk i hi).2 ?_⟩
      by_cases h : i = c.1
      · rw [if_pos h]; exact h1 c (by simp)
      · rw [if_neg h, h2 i hi (by rw [List.map_cons, List.mem_cons]; tauto), h1 c (by simp)]

/-- Both d.o.f.s of a 2 × 2 system. -/
example : Sol 2 2
    ([(1, 5), (0, 3)].foldl (dir 2 2) ((fun p => ([2, 3, 1, 7] : List ℚ).getD p 0), fun p => ([9, 4] : List ℚ).getD p 0)).1
    ([(1, 5), (0, 3)].foldl (dir 2 2) ((fun p => ([2, 3, 1, 7] : List ℚ).getD p 0), fun p => ([9, 4] : List ℚ).getD p 0)).2
    (fun p => ([3, 5] : List ℚ).getD p 0) := by
  rw [dir_list_exact 2 2 _ _ _ (by decide) (by decide)]
  refine ⟨by decide, fun i hi hne => ?_⟩
  exfalso
  interval_cases i <;> simp at hne

/-- **C39.** Imposing two values on the same d.o.f.: the d.o.f. gets the second, the other equations are those with the
first.  Hence repeating a condition is harmless, changing it is not. -/
theorem dir_twice (n m : Nat) (A F : Nat → K) (k : Nat) (b b' : K) (hn : k < n) (hm : k < m) (x : Nat → K) :
    Sol n m (dir n m (dir n m (A, F) (k, b)) (k, b')).1 (dir n m (dir n m (A, F) (k, b)) (k, b')).2 x ↔
      x k = b' ∧ ∀ i, i < n → i ≠ k → lhs n m A x i - ent n A i k * b' = F i - ent n A i k * b := by
  rw [show dir n m (A, F) (k, b) = ((dir n m (A, F) (k, b)).1, (dir n m (A, F) (k, b)).2) from rfl,
    dir_exact n m _ _ k b' hn hm]
  refine and_congr_right (fun hk => forall_congr' fun i => forall_congr' fun hi => forall_congr' fun hne => ?_)
  rw [dir_rhs]
  show lhs n m (dirMatrix n m A k) x i = _ ↔ _
  rw [lhs_dirMatrix n m A x hn hm i hi, if_neg hne, if_neg hne, if_pos hi, hk]

/-- The value 5 and then the value 6 on d.o.f. 1 of a 2 × 2 system: `x_0` is the one belonging to `x_1 = 5`. -/
example : Sol 2 2
    (dir 2 2 (dir 2 2 ((fun p => ([2, 3, 1, 7] : List ℚ).getD p 0), fun p => ([9, 4] : List ℚ).getD p 0) (1, 5)) (1, 6)).1
    (dir 2 2 (dir 2 2 ((fun p => ([2, 3, 1, 7] : List ℚ).getD p 0), fun p => ([9, 4] : List ℚ).getD p 0) (1, 5)) (1, 6)).2
    (fun p => ([2, 6] : List ℚ).getD p 0) := by
  rw [dir_twice _ _ _ _ _ _ _ (by decide) (by decide)]
  refine ⟨rfl, fun i hi hne => ?_⟩
  have : i = 0 := by omega
  subst this
  norm_num [lhs, ent, Finset.sum_range_succ]

/-- **C39.** A Newton step: with `applyDirMatrix` on the Jacobian and `applyDirResidual` on the residual the step does
not move the d.o.f. and satisfies every other equation. -/
theorem dirResidual_exact (n m : Nat) (A F : Nat → K) (k : Nat) (hn : k < n) (hm : k < m) (x : Nat → K) :
    Sol n m (dirMatrix n m A k) (dirResidual F k) x ↔ x k = 0 ∧ ∀ i, i < n → i ≠ k → lhs n m A x i = F i := by
  have key : ∀ i, i < n → (lhs n m (dirMatrix n m A k) x i = dirResidual F k i ↔
      if i = k then x k = 0 else lhs n m A x i - ent n A i k * x k = F i) := by
    intro i hi
    rw [lhs_dirMatrix n m A x hn hm i hi]
    unfold dirResidual
    rw [wr_apply]
    by_cases h : i = k
    · simp only [if_pos h]
    · simp only [if_neg h]
  constructor
  · intro h
    have hk : x k = 0 := by have := (key k hn).1 (h k hn); rwa [if_pos rfl] at this
    refine ⟨hk, fun i hi hne => ?_⟩
    have := (key i hi).1 (h i hi)
    rwa [if_neg hne, hk, mul_zero, sub_zero] at this
  · rintro ⟨hk, h⟩ i hi
    refine (key i hi).2 ?_
    by_cases hne : i = k
    · rw [if_pos hne]; exact hk
    · rw [if_neg hne, h i hi hne, hk, mul_zero, sub_zero]

example : Sol 2 2 (dirMatrix 2 2 (fun p => ([2, 3, 1, 7] : List ℚ).getD p 0) 1)
    (dirResidual (fun p => ([6, 4] : List ℚ).getD p 0) 1) (fun p => ([3, 0] : List ℚ).getD p 0) := by
  rw [dirResidual_exact _ _ _ _ _ (by decide) (by decide)]
  refine ⟨rfl, fun i hi hne => ?_⟩
  have : i = 0 := by omega
  subst this
  norm_num [lhs, ent, Finset.sum_range_succ]

/-- **C39.** `applyDirNonExists` leaves a system which has no equation for the d.o.f. and in which the d.o.f. has no
effect; all other coefficients and right-hand sides are kept. -/
theorem dirNonExists_exact (n m : Nat) (A F : Nat → K) (k : Nat) (hn : k < n) (i j : Nat) (hi : i < n) (hj : j < m) :
    ent n (dirNonExistsSys n m (A, F) k).1 i j = (if i = k ∨ j = k then 0 else ent n A i j) ∧
      (dirNonExistsSys n m (A, F) k).2 i = if i = k then 0 else F i := by
  constructor
  · have h := dirMatrix_ent n m A hn i j hi hj
    have e : dirMatrix n m A k = wr (dirNonExists n m A k) (k + k * n) 1 := rfl
    show ent n (dirNonExists n m A k) i j = _
    by_cases hk : i = k ∧ j = k
    · rw [if_pos (Or.inl hk.1), hk.1, hk.2]
      unfold dirNonExists
      exact loop_wr_at (fun i => k + i * n) (fun _ _ => 0) (fun _ _ => 0) (fun _ _ _ => rfl)
        (fun a _ b _ e => (pos_inj hn hn e).2) (hk.2 ▸ hj)
    · rw [e, ent_wr _ _ hn hi, if_neg hk, if_neg hk] at h
      exact h
  · show wr F k 0 i = _
    exact wr_apply ..

/-- Entry (0, 1) of a 2 × 2 matrix without d.o.f. 1. -/
example : ent 2 (dirNonExistsSys 2 2 ((fun p => ([2, 3, 1, 7] : List ℚ).getD p 0), fun _ => 4) 1).1 0 1 = 0 :=
  (dirNonExists_exact 2 2 _ _ 1 (by decide) 0 1 (by decide) (by decide)).1

end Verif.Dirichlet
