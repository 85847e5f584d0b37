import Verif.Lemmas.JacobiOff
import Verif.Props.QR
import Mathlib.Analysis.SpecialFunctions.Trigonometric.Deriv

/-!
C59, second part: `jacobi_symmetric_eigen` gives orthonormal vectors that are eigenvectors up to its tolerance.
-/
namespace Verif.Dense

open Finset

/-- What a success means inside: the loop has ended in a state with small entries outside of the diagonal. -/
theorem eigen_state {eps : ℝ} {n : Nat} {A eval evecs e V : Nat → ℝ} (hA : Symm n A)
    (h : jacobiEigen eps n A eval evecs = some (e, V)) :
    ∃ x : JState, JInv n A x ∧ jacobiOff n x.sym ≤ jacobiTol eps n * jacobiTol eps n ∧ V = x.V ∧
      ∀ j, j < n → e j = ent n x.sym j j := by
  unfold jacobiEigen at h
  simp only [] at h
  split at h
  · cases h
  · rename_i hr
    have hr : (jacobiRun (jacobiTol eps n) n 50 ⟨A, identFill n evecs⟩).1 = false := by simpa using hr
    obtain ⟨h1, h2⟩ := JInv.run hA 50 (JInv.start A evecs) hr
    simp only [Option.some.injEq, Prod.mk.injEq] at h
    refine ⟨_, h1, h2, h.2.symm, fun j hj => ?_⟩
    rw [← h.1, seg (Nat.zero_le n) (fun i => (jacobiRun (jacobiTol eps n) n 50 ⟨A, identFill n evecs⟩).2.sym (i + i * n)),
      if_pos ⟨Nat.zero_le j, hj⟩]
    rfl

/-- The vectors of a successful call are orthonormal. -/
theorem eigen_orthonormal {eps : ℝ} {n : Nat} {A eval evecs e V : Nat → ℝ} (hA : Symm n A)
    (h : jacobiEigen eps n A eval evecs = some (e, V)) : Orthonormal n n V := by
  obtain ⟨x, hx, _, rfl, _⟩ := eigen_state hA h
  exact hx.orth

/-- They are eigenvectors up to the tolerance `10 n^2 eps`: `|A v - e v| ≤ tol`. -/
theorem eigen_vectors {eps : ℝ} {n : Nat} {A eval evecs e V : Nat → ℝ} (hA : Symm n A)
    (h : jacobiEigen eps n A eval evecs = some (e, V)) {j : Nat} (hj : j < n) :
    len2 n (fun i => mulV n n A (fun t => ent n V t j) i - e j * ent n V i j) ≤ (10 * n * n * eps) ^ 2 := by
  obtain ⟨x, hx, ho, rfl, he⟩ := eigen_state hA h
  refine le_trans ?_ (le_trans (off_col (hx.symm hA) hj) (le_trans ho (le_of_eq (by unfold jacobiTol; ring))))
  rw [← hx.orth.len, ← add_sum_erase _ _ (mem_range.2 hj)]
  have key : ∀ i, i < n → dotp n (col n x.V i) (fun r => mulV n n A (fun t => ent n x.V t j) r - e j * ent n x.V r j)
      = ent n x.sym i j - e j * if i = j then 1 else 0 := by
    intro i hi
    have ho := hx.orth i hi j hj
    change dotp n (col n x.V i) (col n x.V j) = _ at ho
    rw [← ho, hx.form i hi j hj]
    have := dotp_add_right n (mulV n n A (col n x.V j)) (col n x.V j) (col n x.V i) 1 (-e j)
    rw [show bil n A (col n x.V i) (col n x.V j) - e j * dotp n (col n x.V i) (col n x.V j)
      = 1 * dotp n (col n x.V i) (mulV n n A (col n x.V j)) + -e j * dotp n (col n x.V i) (col n x.V j) by unfold bil; ring,
      ← this]
    refine dotp_congr (fun _ _ => rfl) fun r _ => ?_
    show mulV n n A (col n x.V j) r - e j * col n x.V j r = _
    ring
  rw [key j hj, he j hj, if_pos rfl]
  have z : (ent n x.sym j j - ent n x.sym j j * 1) ^ 2 = 0 := by ring
  rw [z, zero_add]
  refine le_of_eq (sum_congr rfl fun i hi => ?_)
  rw [mem_erase, mem_range] at hi
  rw [← he j hj, key i hi.2, if_neg hi.1]
  ring

/-- Without a tolerance a success means exact eigenvectors. -/
theorem eigen_exact {n : Nat} {A eval evecs e V : Nat → ℝ} (hA : Symm n A)
    (h : jacobiEigen 0 n A eval evecs = some (e, V)) {i j : Nat} (hi : i < n) (hj : j < n) :
    mulV n n A (fun t => ent n V t j) i = e j * ent n V i j := by
  have h0 := eigen_vectors hA h hj
  rw [mul_zero, zero_pow two_ne_zero] at h0
  unfold len2 at h0
  have := (sum_eq_zero_iff_of_nonneg (fun i _ => sq_nonneg _)).1 (le_antisymm h0 (sum_nonneg fun i _ => sq_nonneg _)) i
    (mem_range.2 hi)
  have := pow_eq_zero_iff (two_ne_zero) |>.1 this
  linarith

/-- The sum of the values is the trace. -/
theorem eigen_trace {eps : ℝ} {n : Nat} {A eval evecs e V : Nat → ℝ} (hA : Symm n A)
    (h : jacobiEigen eps n A eval evecs = some (e, V)) : ∑ j ∈ range n, e j = ∑ j ∈ range n, ent n A j j := by
  obtain ⟨x, hx, _, _, he⟩ := eigen_state hA h
  rw [sum_congr rfl fun j hj => he j (mem_range.1 hj)]
  rw [sum_congr rfl fun j hj => hx.form j (mem_range.1 hj) j (mem_range.1 hj)]
  have : ∀ j, bil n A (col n x.V j) (col n x.V j)
      = ∑ r ∈ range n, ∑ t ∈ range n, ent n A r t * (ent n x.V r j * ent n x.V t j) := by
    intro j
    unfold bil dotp mulV col
    refine sum_congr rfl fun r _ => ?_
    rw [mul_sum]
    exact sum_congr rfl fun t _ => by ring
  simp only [this]
  rw [sum_comm]
  refine sum_congr rfl fun r hr => ?_
  rw [sum_comm]
  rw [sum_congr rfl fun t ht => by rw [← mul_sum, hx.orth.rows (mem_range.1 hr) (mem_range.1 ht)]]
  simp only [mul_ite, mul_one, mul_zero, sum_ite_eq, hr, if_true]

/-- The method can fail only with entries that are all small while the sum of their squares is not, or by too many sweeps:
when the tolerance `tol = 10 n^2 eps` is not too small against the matrix, a failure is of the first kind: in some
orthonormal basis every entry of the matrix outside of the diagonal is at most `tol`. -/
theorem eigen_fail {eps : ℝ} (he : 0 ≤ eps) {n : Nat} {A eval evecs : Nat → ℝ} (hA : Symm n A)
    (h : jacobiEigen eps n A eval evecs = none)
    (hs : ∑ p ∈ range n, ∑ q ∈ Ico (p + 1) n, ent n A p q ^ 2 < 50 * (10 * n * n * eps) ^ 2) :
    ∃ V : Nat → ℝ, Orthonormal n n V ∧
      (10 * n * n * eps) ^ 2 < ∑ p ∈ range n, ∑ q ∈ Ico (p + 1) n,
        dotp n (fun i => ent n V i p) (mulV n n A (fun i => ent n V i q)) ^ 2 ∧
      ∀ p, p < n → ∀ q, p < q → q < n →
        |dotp n (fun i => ent n V i p) (mulV n n A (fun i => ent n V i q))| ≤ 10 * n * n * eps := by
  have ht : 0 ≤ jacobiTol eps n := by unfold jacobiTol; positivity
  have htt : (10 * n * n * eps) ^ 2 = jacobiTol eps n * jacobiTol eps n := by unfold jacobiTol; ring
  rw [htt, ← off_eq] at hs
  unfold jacobiEigen at h
  simp only [] at h
  split at h
  · rename_i hr
    have hk := JInv.run_stuck ht hA 50 (JInv.start A evecs) (by exact_mod_cast hs) hr
    have hrun : ∀ f {y : JState}, JInv n A y → JInv n A (jacobiRun (jacobiTol eps n) n f y).2 := by
      intro f
      induction f with
      | zero => intro y hy; exact hy
      | succ f ih =>
        intro y hy
        unfold jacobiRun
        split
        · exact hy
        · exact ih (hy.sweep hA)
    have hx := hrun 50 (JInv.start A evecs)
    generalize (jacobiRun (jacobiTol eps n) n 50 ⟨A, identFill n evecs⟩).2 = x at hk hx
    refine ⟨x.V, hx.orth, ?_, ?_⟩
    · rw [htt]
      refine lt_of_lt_of_eq hk.1 ?_
      rw [off_eq]
      refine sum_congr rfl fun p hp => sum_congr rfl fun q hq => ?_
      rw [mem_Ico] at hq
      rw [hx.form p (mem_range.1 hp) q hq.2]; rfl
    · intro p hp q hpq hq
      have := hk.2 p hp q hpq hq
      rw [hx.form p hp q hq] at this
      exact this
  · cases h

/-- Matrices of order at most two never fail. -/
theorem eigen_two {eps : ℝ} (he : 0 ≤ eps) {n : Nat} (hn : n ≤ 2) {A : Nat → ℝ} (hA : Symm n A) (eval evecs : Nat → ℝ) :
    (jacobiEigen eps n A eval evecs).isSome := by
  have ht : 0 ≤ jacobiTol eps n := by unfold jacobiTol; positivity
  have hrun : (jacobiRun (jacobiTol eps n) n 50 ⟨A, identFill n evecs⟩).1 = false := by
    have hx := JInv.start A evecs (n := n)
    generalize (⟨A, identFill n evecs⟩ : JState) = x at hx
    generalize jacobiTol eps n = tol at ht
    have hone : ∀ f (y : JState), jacobiOff n y.sym ≤ tol * tol → (jacobiRun tol n (f + 1) y).1 = false := by
      intro f y h; unfold jacobiRun; rw [if_pos h]
    unfold jacobiRun
    split
    · rfl
    · rename_i h0
      refine hone 48 _ ?_
      interval_cases n
      · rw [off_eq, range_zero, sum_empty]; positivity
      · rw [off_eq]; simp; positivity
      · have hoff : ∀ m : Nat → ℝ, jacobiOff 2 m = ent 2 m 0 1 ^ 2 := by
          intro m; rw [off_eq]; simp [sum_range_succ]
        rw [hoff] at h0
        have hbig : ¬ |x.sym (0 + 1 * 2)| ≤ tol := by
          intro h
          apply h0
          rw [← sq_abs, ← sq]
          have : |ent 2 x.sym 0 1| ≤ tol := h
          gcongr
        have e := hx.rot_off hA (p := 0) (q := 1) (by omega) (by omega) (by omega) hbig
        have hsw : jacobiSweep tol 2 x = jacobiRot tol 2 0 1 x := by
          simp [jacobiSweep, loop, List.range']
        rw [hsw, e, hoff, sub_self]
        positivity
  unfold jacobiEigen
  simp only [hrun]
  rfl

/-- The test for the end is stricter than the test for a rotation: when every entry outside of the diagonal is at most
`tol` but the sum of their squares is more than `tol^2` no sweep does anything and the code reports a failure.
(geometry.h:512, 520) -/
theorem eigen_idle_wrong {eps : ℝ} {n : Nat} {A : Nat → ℝ} (eval evecs : Nat → ℝ)
    (hs : ∀ p, p < n → ∀ q, p < q → q < n → |ent n A p q| ≤ 10 * n * n * eps)
    (ho : (10 * n * n * eps) ^ 2 < ∑ p ∈ range n, ∑ q ∈ Ico (p + 1) n, ent n A p q ^ 2) :
    jacobiEigen eps n A eval evecs = none := by
  unfold jacobiEigen
  simp only []
  have ho : jacobiTol eps n * jacobiTol eps n < jacobiOff n A := by
    rw [off_eq]; exact lt_of_eq_of_lt (by unfold jacobiTol; ring) ho
  rw [if_pos (run_idle (tol := jacobiTol eps n) (x := ⟨A, identFill n evecs⟩) hs ho 50)]

/-- It happens: a matrix of order three with the tolerance in all entries outside of the diagonal. -/
theorem eigen_idle_case_wrong {eps : ℝ} (he : 0 < eps) (d : ℝ) (eval evecs : Nat → ℝ) :
    let A : Nat → ℝ := fun p => if p % 4 = 0 then d else 90 * eps
    Symm 3 A ∧ jacobiEigen eps 3 A eval evecs = none := by
  intro A
  have ht : 10 * ((3 : Nat) : ℝ) * (3 : Nat) * eps = 90 * eps := by norm_num
  constructor
  · intro i hi j hj
    simp only [ent, A]
    interval_cases i <;> interval_cases j <;> simp
  · refine eigen_idle_wrong eval evecs ?_ ?_
    · intro p hp q hpq hq
      rw [ht]
      have : ent 3 A p q = 90 * eps := by
        simp only [ent, A]
        interval_cases p <;> interval_cases q <;> first | omega | simp
      rw [this, abs_of_pos (by positivity)]
    · rw [ht]
      have : ∑ p ∈ range 3, ∑ q ∈ Ico (p + 1) 3, ent 3 A p q ^ 2 = 3 * (90 * eps) ^ 2 := by
        simp only [sum_range_succ, range_zero, sum_empty, sum_Ico_eq_sum_range, ent, A]
        norm_num
        ring
      rw [this]
      nlinarith [mul_pos he he]

/-! A case: the matrix `(2 1; 1 2)` is treated successfully, so that the theorems apply to its result. -/

example : ∃ e V, jacobiEigen (1/2^52) 2 (fun p => if p % 3 = 0 then 2 else 1) (fun _ => 7) (fun _ => 7) = some (e, V) ∧
    Orthonormal 2 2 V ∧ e 0 + e 1 = 4 := by
  have hA : Symm 2 (fun p => if p % 3 = 0 then (2 : ℝ) else 1) := by
    intro i hi j hj
    interval_cases i <;> interval_cases j <;> simp [ent]
  have := eigen_two (eps := 1/2^52) (by norm_num) le_rfl hA (fun _ => 7) (fun _ => 7)
  obtain ⟨⟨e, V⟩, h⟩ := Option.isSome_iff_exists.1 this
  refine ⟨e, V, h, eigen_orthonormal hA h, ?_⟩
  have := eigen_trace hA h
  simp [sum_range_succ, ent] at this
  linarith

end Verif.Dense
