import Verif.Lemmas.QR
import Mathlib.Tactic.NormNum
import Mathlib.Tactic.IntervalCases

/-!
C59, first part: `householderQR` gives an orthonormal `Q`, an upper triangular `R` and `A = Q R`.
-/
namespace Verif.Dense

open Finset

/-- `Q` is an orthonormal matrix of order `N` for every matrix `A` and whatever the memory held before. -/
theorem qr_orthonormal {eps : ℝ} (he : 0 ≤ eps) {N M : Nat} (hMN : M ≤ N) (A Q R v tau : Nat → ℝ) :
    Orthonormal N N (householderQR eps N M A Q R v tau).1 := by
  intro a ha b hb
  have h := QRInv.final he hMN A v tau
  unfold householderQR
  simp only []
  rw [dotp_congr (fun i hi => qrQ_ent hMN _ Q hi ha) (fun i hi => qrQ_ent hMN _ Q hi hb), bwd_iso h.isR]
  unfold dotp
  simp only [mul_ite, mul_one, mul_zero, sum_ite_eq', mem_range, hb, if_true]
  exact if_congr eq_comm rfl rfl

/-- `R` is upper triangular. -/
theorem qr_upper (eps : ℝ) (N M : Nat) (A Q R v tau : Nat → ℝ) {i j : Nat} (hi : i < M) (hj : j < i) :
    ent M (householderQR eps N M A Q R v tau).2 i j = 0 := by
  unfold householderQR
  simp only []
  rw [qrR_ent _ _ hi (by omega), if_neg (by omega)]

/-- The error of column `j` of `Q R` is the one of the factorisation, turned by the reflections. -/
theorem qr_error {eps : ℝ} (he : 0 ≤ eps) {N M : Nat} (hMN : M ≤ N) (A Q R v tau : Nat → ℝ) {j : Nat} (hj : j < M) :
    ∀ i, i < N → ent N A i j - prodQR N M (householderQR eps N M A Q R v tau).1 (householderQR eps N M A Q R v tau).2 i j =
      bwd N (qrFactor eps N M ⟨A, v, tau⟩).W (qrFactor eps N M ⟨A, v, tau⟩).tau M
        (fun i => fwd N (qrFactor eps N M ⟨A, v, tau⟩).W (qrFactor eps N M ⟨A, v, tau⟩).tau M (fun i => ent N A i j) i
          - up N (qrFactor eps N M ⟨A, v, tau⟩).W j i) i := by
  intro i hi
  have h := QRInv.final he hMN A v tau
  unfold householderQR
  simp only []
  generalize qrFactor eps N M ⟨A, v, tau⟩ = s at *
  have e1 : prodQR N M (qrQ N M s Q) (qrR N M s.W R) i j
      = ∑ t ∈ range M, up N s.W j t * bwd N s.W s.tau M (fun i => if i = t then 1 else 0) i := by
    unfold prodQR
    refine sum_congr rfl fun t ht => ?_
    rw [mem_range] at ht
    rw [qrQ_ent hMN s Q hi (by omega), qrR_ent s.W R ht hj, mul_comm]; rfl
  have e2 := congrFun (bwd_lin N s.W s.tau M (range M) (up N s.W j) fun t i => if i = t then 1 else 0) i
  have e3 : ∀ r, r < N → (∑ a ∈ range M, up N s.W j a * if r = a then (1 : ℝ) else 0) = up N s.W j r := by
    intro r _
    simp only [mul_ite, mul_one, mul_zero, sum_ite_eq, mem_range]
    split
    · rfl
    · unfold up; rw [if_neg (by omega)]
  rw [e1, ← e2]
  have e4 := congrFun (bwd_lin N s.W s.tau M ({0, 1} : Finset Nat) (fun a => if a = 0 then 1 else -1)
    (fun a => if a = 0 then fwd N s.W s.tau M (fun i => ent N A i j) else up N s.W j)) i
  have e5 : ∀ r, r < N → (∑ a ∈ ({0, 1} : Finset Nat), (if a = 0 then (1 : ℝ) else -1) *
      (if a = 0 then fwd N s.W s.tau M (fun i => ent N A i j) else up N s.W j) r)
      = fwd N s.W s.tau M (fun i => ent N A i j) r - up N s.W j r := by
    intro r _
    rw [sum_pair (by omega)]
    simp; ring
  rw [bwd_congr s.W s.tau M e5 i hi, sum_pair (by omega)] at e4
  rw [e4, bwd_congr s.W s.tau M e3 i hi]
  simp only [if_true, one_ne_zero, if_false]
  rw [bwd_fwd h.isR]
  ring

/-- `A = Q R`, column by column: a column is exact, or its diagonal entry in `R` is at most `eps` and the length of the
error is at most `eps`. -/
theorem qr_product {eps : ℝ} (he : 0 ≤ eps) {N M : Nat} (hMN : M ≤ N) (A Q R v tau : Nat → ℝ) {j : Nat} (hj : j < M) :
    (∀ i, i < N → prodQR N M (householderQR eps N M A Q R v tau).1 (householderQR eps N M A Q R v tau).2 i j = ent N A i j) ∨
    (|ent M (householderQR eps N M A Q R v tau).2 j j| ≤ eps ∧
      len2 N (fun i => ent N A i j -
        prodQR N M (householderQR eps N M A Q R v tau).1 (householderQR eps N M A Q R v tau).2 i j) ≤ eps ^ 2) := by
  have h := QRInv.final he hMN A v tau
  have e := qr_error he hMN A Q R v tau hj
  rcases h.done j hj with h1 | ⟨h1, h2⟩
  · left
    intro i hi
    have := e i hi
    rw [bwd_congr (x' := fun i => ∑ a ∈ (∅ : Finset Nat), (0 : ℝ) * (0 : ℝ)) _ _ _ (fun r hr => by rw [h1 r hr]; simp) i hi,
      bwd_lin N _ _ M ∅ (fun _ => 0) (fun _ _ => 0)] at this
    simp only [sum_empty] at this
    linarith
  · right
    constructor
    · show |ent M (qrR N M _ R) j j| ≤ eps
      rw [qrR_ent _ _ hj hj, if_pos le_rfl]; exact h1
    · rw [len2_eq, dotp_congr e e, bwd_iso h.isR, ← len2_eq]; exact h2

/-- When no diagonal entry of `R` is tiny, `A = Q R` exactly. -/
theorem qr_exact {eps : ℝ} (he : 0 ≤ eps) {N M : Nat} (hMN : M ≤ N) (A Q R v tau : Nat → ℝ)
    (hd : ∀ j, j < M → eps < |ent M (householderQR eps N M A Q R v tau).2 j j|) {i j : Nat} (hi : i < N) (hj : j < M) :
    prodQR N M (householderQR eps N M A Q R v tau).1 (householderQR eps N M A Q R v tau).2 i j = ent N A i j := by
  rcases qr_product he hMN A Q R v tau hj with h | h
  · exact h i hi
  · exact absurd h.1 (not_le.2 (hd j hj))

/-- Without a tolerance, `A = Q R` exactly for every matrix. -/
theorem qr_exact_zero {N M : Nat} (hMN : M ≤ N) (A Q R v tau : Nat → ℝ) {i j : Nat} (hi : i < N) (hj : j < M) :
    prodQR N M (householderQR 0 N M A Q R v tau).1 (householderQR 0 N M A Q R v tau).2 i j = ent N A i j := by
  rcases qr_product le_rfl hMN A Q R v tau hj with h | h
  · exact h i hi
  · have h0 : len2 N (fun i => ent N A i j -
        prodQR N M (householderQR 0 N M A Q R v tau).1 (householderQR 0 N M A Q R v tau).2 i j) ≤ 0 := by
      simpa using h.2
    unfold len2 at h0
    have := (sum_eq_zero_iff_of_nonneg (fun i _ => sq_nonneg _)).1 (le_antisymm h0 (sum_nonneg fun i _ => sq_nonneg _)) i
      (mem_range.2 hi)
    have := pow_eq_zero_iff (two_ne_zero) |>.1 this
    linarith

/-- The tolerance is absolute: of a matrix of two rows and one column with the tiny entry `d` in the second row the code
returns `R = 0`, the product `Q R` has lost the entry.  (geometry.h:438) -/
theorem qr_tiny_wrong {eps d : ℝ} (hd : 0 < d) (hde : d ≤ eps) (Q R v tau : Nat → ℝ) :
    let A : Nat → ℝ := fun p => if p = 1 then d else 0
    prodQR 2 1 (householderQR eps 2 1 A Q R v tau).1 (householderQR eps 2 1 A Q R v tau).2 1 0 ≠ ent 2 A 1 0 := by
  intro A
  have hn : qrNorm 2 0 A ≤ eps := by
    unfold qrNorm
    have : loop 0 2 (fun i s => s + A (i + 0 * 2) * A (i + 0 * 2)) 0 = d ^ 2 := by
      rw [loop_sum_ico (fun i => A (i + 0 * 2) * A (i + 0 * 2)) 0 (by omega)]
      simp [A, sum_Ico_eq_sum_range, sum_range_succ]; ring
    rw [this, Real.sqrt_sq hd.le]; exact hde
  have hW : (qrFactor eps 2 1 ⟨A, v, tau⟩).W = A := by
    show (loop 0 1 _ _ : QRState).W = A
    simp only [loop, List.range', List.foldl_cons, List.foldl_nil, Nat.sub_zero]
    unfold qrStep
    simp only []
    rw [if_pos hn]
  unfold prodQR
  rw [sum_range_one]
  have : ent 1 (householderQR eps 2 1 A Q R v tau).2 0 0 = 0 := by
    show ent 1 (qrR 2 1 (qrFactor eps 2 1 ⟨A, v, tau⟩).W R) 0 0 = 0
    rw [qrR_ent _ _ (by omega) (by omega), hW]
    simp [ent, A]
  rw [this, mul_zero]
  simp only [ent, A]
  exact hd.ne

/-! A case: a matrix of three rows and two columns of rank one (its second column is twice the first one). -/

example : Orthonormal 3 3 (householderQR (1/2^52) 3 2 (fun p => if p < 3 then (p : ℝ) + 1 else 2 * (p : ℝ) - 4)
    (fun _ => 7) (fun _ => 7) (fun _ => 7) (fun _ => 7)).1 := 
  qr_orthonormal (by norm_num) (by omega) _ _ _ _ _

/-- The hypothesis of `qr_exact` holds for the column `(3, 4)`: `R` is `(-5)`. -/
theorem qr_case (Q R v tau : Nat → ℝ) :
    ent 1 (householderQR (1/2^52) 2 1 (fun p => if p = 0 then 3 else 4) Q R v tau).2 0 0 = -5 := by
  have hn : qrNorm 2 0 (fun p => if p = 0 then (3 : ℝ) else 4) = 5 := by
    unfold qrNorm
    have : loop 0 2 (fun i s => s + (if i + 0 * 2 = 0 then (3 : ℝ) else 4) * (if i + 0 * 2 = 0 then (3 : ℝ) else 4)) 0
        = 5 ^ 2 := by
      simp [loop, List.range']; norm_num
    rw [this, Real.sqrt_sq (by norm_num)]
  show ent 1 (qrR 2 1 (qrFactor _ 2 1 _).W R) 0 0 = -5
  rw [qrR_ent _ _ (by omega) (by omega), if_pos le_rfl]
  show ent 2 (loop 0 1 _ _ : QRState).W 0 0 = -5
  simp only [loop, List.range', List.foldl_cons, List.foldl_nil, Nat.sub_zero]
  unfold qrStep
  simp only [hn]
  rw [if_neg (by norm_num)]
  simp [loop, List.range', ent, wr]

end Verif.Dense
