import Verif.Model.Decomp
import Verif.Spec.Decomp
import Verif.Lemmas.Dense
import Mathlib.Algebra.Order.BigOperators.Group.Finset
import Mathlib.Tactic.Positivity
import Mathlib.Algebra.BigOperators.Field

/-!
Reflections, and the loops of `householderQR`.
-/
namespace Verif.Dense

open Finset

theorem loop_sum_ico {a b : Nat} (f : Nat → ℝ) (s : ℝ) (h : a ≤ b) :
    loop a b (fun i s => s + f i) s = s + ∑ i ∈ Ico a b, f i := by
  refine loop_ind (fun k t => t = s + ∑ i ∈ Ico a k, f i) h (by simp) ?_
  intro i t h1 _ e
  rw [e, sum_Ico_succ_top h1]; ring

theorem loop_self {S : Type} (a : Nat) (f : Nat → S → S) (s : S) : loop a a f s = s := by
  simp [loop]

theorem dotp_comm (N : Nat) (x y : Nat → ℝ) : dotp N x y = dotp N y x := by
  unfold dotp; exact sum_congr rfl fun i _ => mul_comm _ _

theorem dotp_congr {N : Nat} {x x' y y' : Nat → ℝ} (h : ∀ i, i < N → x i = x' i) (h' : ∀ i, i < N → y i = y' i) :
    dotp N x y = dotp N x' y' := by
  unfold dotp
  exact sum_congr rfl fun i hi => by rw [h i (mem_range.1 hi), h' i (mem_range.1 hi)]

theorem len2_eq (N : Nat) (x : Nat → ℝ) : len2 N x = dotp N x x := by
  unfold len2 dotp; exact sum_congr rfl fun i _ => by ring

theorem dotp_sub_smul (N : Nat) (x y u : Nat → ℝ) (a b : ℝ) :
    dotp N (fun i => x i - a * u i) (fun i => y i - b * u i)
      = dotp N x y - b * dotp N x u - a * dotp N u y + a * b * dotp N u u := by
  unfold dotp
  rw [mul_sum, mul_sum, mul_sum, ← sum_sub_distrib, ← sum_sub_distrib, ← sum_add_distrib]
  exact sum_congr rfl fun i _ => by ring

/-- The reflection `x - t (u, x) u`. -/
noncomputable def refl (N : Nat) (u : Nat → ℝ) (t : ℝ) (x : Nat → ℝ) : Nat → ℝ :=
  fun i => x i - t * dotp N u x * u i

/-- `t = 0` or `t (u, u) = 2`: the reflection is an isometry and its own inverse. -/
def IsRefl (N : Nat) (u : Nat → ℝ) (t : ℝ) : Prop := t = 0 ∨ t * dotp N u u = 2

theorem refl_iso {N : Nat} {u : Nat → ℝ} {t : ℝ} (h : IsRefl N u t) (x y : Nat → ℝ) :
    dotp N (refl N u t x) (refl N u t y) = dotp N x y := by
  unfold refl
  rw [dotp_sub_smul, dotp_comm N x u]
  rcases h with h | h
  · rw [h]; ring
  · linear_combination (t * dotp N u x * dotp N u y) * h

theorem dotp_refl (N : Nat) (u : Nat → ℝ) (t : ℝ) (x : Nat → ℝ) :
    dotp N u (refl N u t x) = dotp N u x - t * dotp N u x * dotp N u u := by
  have : dotp N u (fun i => x i - t * dotp N u x * u i) = dotp N u x - t * dotp N u x * dotp N u u := by
    generalize t * dotp N u x = a
    unfold dotp
    rw [mul_sum, ← sum_sub_distrib]
    exact sum_congr rfl fun i _ => by ring
  exact this

theorem refl_refl {N : Nat} {u : Nat → ℝ} {t : ℝ} (h : IsRefl N u t) (x : Nat → ℝ) :
    refl N u t (refl N u t x) = x := by
  funext i
  show refl N u t x i - t * dotp N u (refl N u t x) * u i = x i
  rw [dotp_refl]
  show x i - t * dotp N u x * u i - t * (dotp N u x - t * dotp N u x * dotp N u u) * u i = x i
  rcases h with h | h
  · rw [h]; ring
  · linear_combination (t * dotp N u x * u i) * h

theorem refl_lin (N : Nat) (u : Nat → ℝ) (t : ℝ) (s : Finset Nat) (c : Nat → ℝ) (x : Nat → Nat → ℝ) :
    refl N u t (fun i => ∑ a ∈ s, c a * x a i) = fun i => ∑ a ∈ s, c a * refl N u t (x a) i := by
  funext i
  unfold refl dotp
  have : ∑ r ∈ range N, u r * ∑ a ∈ s, c a * x a r = ∑ a ∈ s, c a * ∑ r ∈ range N, u r * x a r := by
    simp only [mul_sum]
    rw [sum_comm]
    exact sum_congr rfl fun a _ => sum_congr rfl fun r _ => by ring
  rw [this, mul_sum, sum_mul, ← sum_sub_distrib]
  exact sum_congr rfl fun a _ => by ring

theorem refl_congr {N : Nat} {u u' : Nat → ℝ} {t : ℝ} {x x' : Nat → ℝ} (hu : ∀ i, i < N → u i = u' i)
    (hx : ∀ i, i < N → x i = x' i) {i : Nat} (hi : i < N) : refl N u t x i = refl N u' t x' i := by
  unfold refl
  rw [dotp_congr hu hx, hu i hi, hx i hi]

theorem refl_zero (N : Nat) (u x : Nat → ℝ) : refl N u 0 x = x := by
  funext i; simp [refl]

/-- the reflection vector stored in column `k` -/
def hv (N k : Nat) (W : Nat → ℝ) (i : Nat) : ℝ :=
  if i < k then 0 else if i = k then 1 else ent N W i k

/-- The loops over one column are a reflection. -/
theorem reflectCol_ent {N k : Nat} (hk : k < N) (v : Nat → ℝ) (t : ℝ) (j : Nat) (X : Nat → ℝ) {r c : Nat} (hr : r < N) :
    ent N (reflectCol N k v t j X) r c =
      if c = j then refl N (fun i => if i < k then 0 else v i) t (fun i => ent N X i j) r else ent N X r c := by
  unfold reflectCol
  simp only []
  rw [loop_sum_ico (fun i => v i * X (i + j * N)) _ hk]
  have hd : (v k * X (k + j * N) + ∑ i ∈ Ico (k + 1) N, v i * X (i + j * N))
      = dotp N (fun i => if i < k then 0 else v i) (fun i => ent N X i j) := by
    unfold dotp
    rw [← sum_range_add_sum_Ico _ hk.le, sum_eq_zero (s := range k), zero_add, sum_eq_sum_Ico_succ_bot hk]
    · congr 1
      · simp [ent]
      · refine sum_congr rfl fun i hi => ?_
        rw [mem_Ico] at hi
        have : ¬ i < k := by omega
        simp only [this, if_false]; rfl
    · intro i hi
      rw [mem_range] at hi
      simp [hi]
  rw [hd]
  generalize hD : dotp N (fun i => if i < k then 0 else v i) (fun i => ent N X i j) = D
  have := loop_ind (fun m (Y : Nat → ℝ) => ∀ r, r < N → ∀ c, ent N Y r c =
      if c = j ∧ k ≤ r ∧ r < m then ent N X r c - D * t * v r else ent N X r c)
    (a := k + 1) (b := N)
    (f := fun i Y => wr Y (i + j * N) (Y (i + j * N) - D * t * v i))
    (s := wr X (k + j * N) (X (k + j * N) - D * t * v k)) hk ?_ ?_ r hr c
  · rw [this]
    by_cases hc : c = j
    · subst hc
      simp only [true_and, if_true, hr, and_true]
      unfold refl
      rw [hD]
      by_cases hrk : k ≤ r
      · have h2 : ¬ r < k := by omega
        simp only [hrk, h2, if_true, if_false]; ring
      · have h2 : r < k := by omega
        simp only [hrk, h2, if_true, if_false]; ring
    · simp [hc]
  · intro r hr c
    rw [ent_wr _ _ hk hr]
    by_cases h : r = k ∧ c = j
    · rw [if_pos h, if_pos (by omega), h.1, h.2]; rfl
    · rw [if_neg h, if_neg (by omega)]
  · intro i Y h1 h2 ih r hr c
    rw [ent_wr _ _ h2 hr]
    have e : Y (i + j * N) = ent N X i j := by
      have := ih i h2 j
      rw [if_neg (by omega)] at this
      exact this
    by_cases h : r = i ∧ c = j
    · rw [if_pos h, if_pos (by omega), h.1, h.2, e]
    · rw [if_neg h, ih r hr c]
      by_cases h' : c = j ∧ k ≤ r ∧ r < i
      · rw [if_pos h', if_pos (by omega)]
      · rw [if_neg h', if_neg (by omega)]

/-- several columns -/
theorem reflectCols_ent {N k : Nat} (hk : k < N) (v : Nat → ℝ) (t : ℝ) {a b : Nat} (hab : a ≤ b) (X : Nat → ℝ) {r c : Nat}
    (hr : r < N) :
    ent N (loop a b (fun j X => reflectCol N k v t j X) X) r c =
      if a ≤ c ∧ c < b then refl N (fun i => if i < k then 0 else v i) t (fun i => ent N X i c) r else ent N X r c := by
  refine loop_ind (fun m (Y : Nat → ℝ) => ∀ r, r < N → ∀ c, ent N Y r c =
      if a ≤ c ∧ c < m then refl N (fun i => if i < k then 0 else v i) t (fun i => ent N X i c) r else ent N X r c)
    hab ?_ ?_ r hr c
  · intro r _ c; rw [if_neg (by omega)]
  · intro j Y h1 h2 ih r hr c
    rw [reflectCol_ent hk v t j Y hr]
    by_cases hc : c = j
    · subst hc
      rw [if_pos rfl, if_pos (by omega)]
      refine refl_congr (fun _ _ => rfl) (fun i hi => ?_) hr
      rw [ih i hi c, if_neg (by omega)]
    · rw [if_neg hc, ih r hr c]
      by_cases h : a ≤ c ∧ c < j
      · rw [if_pos h, if_pos (by omega)]
      · rw [if_neg h, if_neg (by omega)]

theorem fill_ent {N : Nat} (f : Nat → Nat → ℝ) {b : Nat} (X : Nat → ℝ) {M r c : Nat} (hr : r < N) (hM : M ≤ N) :
    ent N (loop 0 b (fun j X => loop 0 M (fun i X => wr X (i + j * N) (f i j)) X) X) r c =
      if r < M ∧ c < b then f r c else ent N X r c := by
  refine loop_ind (fun m (Y : Nat → ℝ) => ∀ r, r < N → ∀ c, ent N Y r c =
      if r < M ∧ c < m then f r c else ent N X r c) (Nat.zero_le b) ?_ ?_ r hr c
  · intro r _ c; rw [if_neg (by omega)]
  · intro j Y _ _ ih r hr c
    have := loop_ind (fun m (Z : Nat → ℝ) => ∀ r, r < N → ∀ c, ent N Z r c =
        if r < m ∧ c = j then f r c else ent N Y r c)
      (a := 0) (b := M) (f := fun i Z => wr Z (i + j * N) (f i j)) (s := Y) (Nat.zero_le M) ?_ ?_ r hr c
    · rw [this, ih r hr c]
      by_cases h : r < M ∧ c = j
      · rw [if_pos h, if_pos (by omega)]
      · rw [if_neg h]
        by_cases h' : r < M ∧ c < j
        · rw [if_pos h', if_pos (by omega)]
        · rw [if_neg h', if_neg (by omega)]
    · intro r _ c; rw [if_neg (by omega)]
    · intro i Z _ hi ih r hr c
      rw [ent_wr _ _ (by omega) hr]
      by_cases h : r = i ∧ c = j
      · rw [if_pos h, if_pos (by omega), h.1, h.2]
      · rw [if_neg h, ih r hr c]
        by_cases h' : r < i ∧ c = j
        · rw [if_pos h', if_pos (by omega)]
        · rw [if_neg h', if_neg (by omega)]

theorem ident_ent {N : Nat} (Q : Nat → ℝ) {r c : Nat} (hr : r < N) (hc : c < N) :
    ent N (identFill N Q) r c = if r = c then 1 else 0 := by
  unfold identFill
  rw [fill_ent (fun i j => if i = j then 1 else 0) Q hr le_rfl, if_pos ⟨hr, hc⟩]

/-- a loop that writes a segment of an array -/
theorem seg {a b : Nat} (hab : a ≤ b) (f : Nat → ℝ) (v : Nat → ℝ) (i : Nat) :
    loop a b (fun i v => wr v i (f i)) v i = if a ≤ i ∧ i < b then f i else v i := by
  refine loop_ind (fun m (w : Nat → ℝ) => ∀ i, w i = if a ≤ i ∧ i < m then f i else v i) hab ?_ ?_ i
  · intro i; rw [if_neg (by omega)]
  · intro j w h1 _ ih i
    by_cases h : i = j
    · rw [h, wr_same, if_pos (by omega)]
    · rw [wr_ne _ _ h, ih i]
      by_cases h' : a ≤ i ∧ i < j
      · rw [if_pos h', if_pos (by omega)]
      · rw [if_neg h', if_neg (by omega)]

/-- the reflections of columns `0 .. k-1` in this order -/
noncomputable def fwd (N : Nat) (W tau : Nat → ℝ) : Nat → (Nat → ℝ) → (Nat → ℝ)
  | 0, x => x
  | k + 1, x => refl N (hv N k W) (tau k) (fwd N W tau k x)

/-- the same in the opposite order -/
noncomputable def bwd (N : Nat) (W tau : Nat → ℝ) : Nat → (Nat → ℝ) → (Nat → ℝ)
  | 0, x => x
  | k + 1, x => bwd N W tau k (refl N (hv N k W) (tau k) x)

theorem bwd_fwd {N : Nat} {W tau : Nat → ℝ} {k : Nat} (h : ∀ m, m < k → IsRefl N (hv N m W) (tau m)) (x : Nat → ℝ) :
    bwd N W tau k (fwd N W tau k x) = x := by
  induction k with
  | zero => rfl
  | succ k ih =>
    show bwd N W tau k (refl N (hv N k W) (tau k) (refl N (hv N k W) (tau k) (fwd N W tau k x))) = x
    rw [refl_refl (h k (by omega)), ih fun m hm => h m (by omega)]

theorem bwd_iso {N : Nat} {W tau : Nat → ℝ} {k : Nat} (h : ∀ m, m < k → IsRefl N (hv N m W) (tau m)) (x y : Nat → ℝ) :
    dotp N (bwd N W tau k x) (bwd N W tau k y) = dotp N x y := by
  induction k generalizing x y with
  | zero => rfl
  | succ k ih =>
    show dotp N (bwd N W tau k _) (bwd N W tau k _) = _
    rw [ih fun m hm => h m (by omega), refl_iso (h k (by omega))]

theorem bwd_lin (N : Nat) (W tau : Nat → ℝ) (k : Nat) (s : Finset Nat) (c : Nat → ℝ) (x : Nat → Nat → ℝ) :
    bwd N W tau k (fun i => ∑ a ∈ s, c a * x a i) = fun i => ∑ a ∈ s, c a * bwd N W tau k (x a) i := by
  induction k generalizing x with
  | zero => rfl
  | succ k ih =>
    show bwd N W tau k (refl N (hv N k W) (tau k) _) = _
    rw [refl_lin, ih]; rfl

theorem bwd_congr {N : Nat} (W tau : Nat → ℝ) (k : Nat) {x x' : Nat → ℝ} (h : ∀ i, i < N → x i = x' i) :
    ∀ i, i < N → bwd N W tau k x i = bwd N W tau k x' i := by
  induction k generalizing x x' with
  | zero => exact h
  | succ k ih => exact ih fun i hi => refl_congr (fun _ _ => rfl) h hi

theorem fwd_congr {N : Nat} {W W' tau tau' : Nat → ℝ} {k : Nat}
    (hW : ∀ c, c < k → ∀ r, c < r → r < N → ent N W r c = ent N W' r c) (ht : ∀ c, c < k → tau c = tau' c)
    {x x' : Nat → ℝ} (h : ∀ i, i < N → x i = x' i) : ∀ i, i < N → fwd N W tau k x i = fwd N W' tau' k x' i := by
  induction k with
  | zero => exact h
  | succ k ih =>
    intro i hi
    show refl N (hv N k W) (tau k) _ i = refl N (hv N k W') (tau' k) _ i
    rw [ht k (by omega)]
    refine refl_congr (fun r hr => ?_) (ih (fun c hc => hW c (by omega)) fun c hc => ht c (by omega)) hi
    unfold hv
    by_cases h1 : r < k
    · simp [h1]
    · rw [if_neg h1, if_neg h1]
      by_cases h2 : r = k
      · simp [h2]
      · rw [if_neg h2, if_neg h2, hW k (by omega) r (by omega) hr]

/-- the upper part of column `j` -/
def up (N : Nat) (W : Nat → ℝ) (j i : Nat) : ℝ := if i ≤ j then ent N W i j else 0

/-- What holds before step `k`: the columns from `k` on are the reflected columns of `A`, in the columns before the
upper part is the reflected column up to an error that is present only under a tiny diagonal entry. -/
structure QRInv (eps : ℝ) (N M : Nat) (A : Nat → ℝ) (k : Nat) (s : QRState) : Prop where
  isR : ∀ m, m < k → IsRefl N (hv N m s.W) (s.tau m)
  rest : ∀ j, k ≤ j → j < M → ∀ i, i < N → ent N s.W i j = fwd N s.W s.tau k (fun i => ent N A i j) i
  done : ∀ j, j < k → (∀ i, i < N → fwd N s.W s.tau k (fun i => ent N A i j) i = up N s.W j i) ∨
    (|ent N s.W j j| ≤ eps ∧ len2 N (fun i => fwd N s.W s.tau k (fun i => ent N A i j) i - up N s.W j i) ≤ eps ^ 2)

theorem qrNorm_sq {N k : Nat} (hk : k ≤ N) (W : Nat → ℝ) :
    qrNorm N k W ^ 2 = ∑ i ∈ Ico k N, ent N W i k ^ 2 := by
  unfold qrNorm
  rw [loop_sum_ico (fun i => W (i + k * N) * W (i + k * N)) 0 hk, zero_add, Real.sq_sqrt]
  · exact sum_congr rfl fun i _ => by unfold ent; ring
  · exact sum_nonneg fun i _ => mul_self_nonneg _

theorem refl_up {N k : Nat} {u x : Nat → ℝ} {t : ℝ} (hu : ∀ i, i < k → u i = 0) {j : Nat} (hj : j < k) (W : Nat → ℝ) :
    ∀ i, i < N → refl N u t (fun i => x i - up N W j i) i = refl N u t x i - up N W j i := by
  intro i _
  have : dotp N u (fun i => x i - up N W j i) = dotp N u x := by
    unfold dotp
    refine sum_congr rfl fun i _ => ?_
    by_cases h : i < k
    · rw [hu i h]; ring
    · have h2 : ¬ i ≤ j := by omega
      simp only [up, h2, if_false]; ring
  unfold refl
  rw [this]; ring

theorem QRInv.zero (eps : ℝ) (N M : Nat) (A v tau : Nat → ℝ) : QRInv eps N M A 0 ⟨A, v, tau⟩ where
  isR := fun m hm => by omega
  rest := fun j _ _ i _ => rfl
  done := fun j hj => by omega

theorem QRInv.step {eps : ℝ} (he : 0 ≤ eps) {N M : Nat} (hMN : M ≤ N) {A : Nat → ℝ} {k : Nat} (hk : k < M) {s : QRState}
    (h : QRInv eps N M A k s) : QRInv eps N M A (k + 1) (qrStep eps N M k s) := by
  have hkN : k < N := by omega
  have hn2 := qrNorm_sq hkN.le s.W
  unfold qrStep
  simp only []
  split
  · -- a tiny column
    rename_i hn
    have ht : ∀ c, c < k → wr s.tau k 0 c = s.tau c := fun c hc => wr_ne _ _ (by omega)
    have hf : ∀ x : Nat → ℝ, fwd N s.W (wr s.tau k 0) (k + 1) x = refl N (hv N k s.W) 0 (fwd N s.W (wr s.tau k 0) k x) := by
      intro x
      show refl N (hv N k s.W) (wr s.tau k 0 k) _ = _
      rw [wr_same]
    have hf' : ∀ (x : Nat → ℝ) i, i < N → fwd N s.W (wr s.tau k 0) (k + 1) x i = fwd N s.W s.tau k x i := by
      intro x i hi
      rw [hf, refl_zero]
      exact fwd_congr (fun _ _ _ _ _ => rfl) ht (fun _ _ => rfl) i hi
    have hnn : 0 ≤ qrNorm N k s.W := Real.sqrt_nonneg _
    have hle : qrNorm N k s.W ^ 2 ≤ eps ^ 2 := by gcongr
    refine ⟨?_, ?_, ?_⟩
    · intro m hm
      by_cases hmk : m = k
      · left; show wr s.tau k 0 m = 0; rw [hmk, wr_same]
      · show IsRefl N (hv N m s.W) (wr s.tau k 0 m)
        rw [ht m (by omega)]; exact h.isR m (by omega)
    · intro j h1 h2 i hi
      show ent N s.W i j = _
      rw [hf' _ i hi, h.rest j (by omega) h2 i hi]
    · intro j hj
      show (∀ i, i < N → fwd N s.W (wr s.tau k 0) (k + 1) _ i = up N s.W j i) ∨
        (|ent N s.W j j| ≤ eps ∧ len2 N (fun i => fwd N s.W (wr s.tau k 0) (k + 1) _ i - up N s.W j i) ≤ eps ^ 2)
      by_cases hjk : j = k
      · subst hjk
        right
        constructor
        · refine abs_le_of_sq_le_sq ?_ he
          refine le_trans ?_ hle
          rw [hn2]
          exact single_le_sum (f := fun i => ent N s.W i j ^ 2) (fun i _ => sq_nonneg _) (mem_Ico.2 ⟨le_rfl, hkN⟩)
        · refine le_trans ?_ hle
          rw [hn2]
          unfold len2
          rw [← sum_range_add_sum_Ico _ hkN.le, sum_eq_zero (s := range j), zero_add]
          · refine sum_le_sum fun i hi => ?_
            rw [mem_Ico] at hi
            beta_reduce
            rw [hf' _ i hi.2, ← h.rest j le_rfl hk i hi.2]
            unfold up
            split
            · simp only [sub_self, ne_eq, OfNat.ofNat_ne_zero, not_false_eq_true, zero_pow]; positivity
            · rw [sub_zero]
          · intro i hi
            rw [mem_range] at hi
            beta_reduce
            rw [hf' _ i (by omega), ← h.rest j le_rfl hk i (by omega)]
            unfold up
            rw [if_pos (by omega)]; ring
      · rcases h.done j (by omega) with h1 | ⟨h1, h2⟩
        · left; intro i hi; rw [hf' _ i hi]; exact h1 i hi
        · right
          refine ⟨h1, le_trans (le_of_eq ?_) h2⟩
          unfold len2
          exact sum_congr rfl fun i hi => by beta_reduce; rw [hf' _ i (mem_range.1 hi)]
  · -- a reflection
    rename_i hn
    have hn : eps < qrNorm N k s.W := not_le.1 hn
    have hpos : 0 < qrNorm N k s.W := lt_of_le_of_lt he hn
    have hal : s.W (k + k * N) = ent N s.W k k := rfl
    rw [hal]
    generalize hα : ent N s.W k k = α
    generalize hβ : (if α ≥ 0 then -qrNorm N k s.W else qrNorm N k s.W) = β
    have hβ2 : β ^ 2 = ∑ i ∈ Ico k N, ent N s.W i k ^ 2 := by
      rw [← hn2, ← hβ]; split <;> ring
    have hβ0 : β ≠ 0 := by
      rw [← hβ]; split
      · exact neg_ne_zero.2 hpos.ne'
      · exact hpos.ne'
    have hαβ : α - β ≠ 0 := by
      rw [← hβ]; split
      · rename_i h0; have : 0 < α - -qrNorm N k s.W := by linarith
        exact this.ne'
      · rename_i h0; have : α - qrNorm N k s.W < 0 := by linarith [not_le.1 h0]
        exact this.ne
    generalize hv' : loop (k + 1) N (fun i v => wr v i (s.W (i + k * N) * (1 / (α - β)))) (wr s.v k 1) = v
    have hvk : v k = 1 := by
      rw [← hv', seg hkN (fun i => s.W (i + k * N) * (1 / (α - β))), if_neg (by omega), wr_same]
    have hvi : ∀ i, k < i → i < N → v i = ent N s.W i k / (α - β) := by
      intro i h1 h2
      rw [← hv', seg hkN (fun i => s.W (i + k * N) * (1 / (α - β))), if_pos (by omega)]
      unfold ent; ring
    have ht : ∀ c, c < k → wr s.tau k ((β - α) / β) c = s.tau c := fun c hc => wr_ne _ _ (by omega)
    have htk : wr s.tau k ((β - α) / β) k = (β - α) / β := wr_same ..
    generalize wr s.tau k ((β - α) / β) = tau at ht htk
    -- the memory after storing the vector
    generalize hW1 : loop (k + 1) N (fun i W => wr W (i + k * N) (v i)) (wr s.W (k + k * N) β) = W1
    have hW1e : ∀ r, r < N → ∀ c, ent N W1 r c =
        if c = k ∧ k ≤ r then (if r = k then β else v r) else ent N s.W r c := by
      intro r hr c
      have := loop_ind (fun m (Y : Nat → ℝ) => ∀ r, r < N → ∀ c, ent N Y r c =
          if c = k ∧ k ≤ r ∧ r < m then (if r = k then β else v r) else ent N s.W r c)
        (a := k + 1) (b := N) (f := fun i W => wr W (i + k * N) (v i)) (s := wr s.W (k + k * N) β) hkN ?_ ?_ r hr c
      · rw [← hW1, this]
        simp only [hr, and_true]
      · intro r hr c
        rw [ent_wr _ _ hkN hr]
        by_cases h : r = k ∧ c = k
        · rw [if_pos h, if_pos (by omega), if_pos h.1]
        · rw [if_neg h, if_neg (by omega)]
      · intro i Y h1 h2 ih r hr c
        rw [ent_wr _ _ h2 hr]
        by_cases h : r = i ∧ c = k
        · rw [if_pos h, if_pos (by omega), if_neg (by omega), h.1]
        · rw [if_neg h, ih r hr c]
          by_cases h' : c = k ∧ k ≤ r ∧ r < i
          · have h2 : c = k ∧ k ≤ r ∧ r < i + 1 := by omega
            rw [if_pos h', if_pos h2]
          · rw [if_neg h', if_neg (by omega)]
    -- the memory after the reflections
    generalize hW2 : loop (k + 1) M (fun j W => reflectCol N k v (tau k) j W) W1 = W2
    have hW2e : ∀ r, r < N → ∀ c, ent N W2 r c = if k + 1 ≤ c ∧ c < M then
        refl N (fun i => if i < k then 0 else v i) (tau k) (fun i => ent N W1 i c) r else ent N W1 r c := by
      intro r hr c
      rw [← hW2, reflectCols_ent hkN v (tau k) (by omega) W1 hr]
    have hold : ∀ c, c < k → ∀ r, r < N → ent N W2 r c = ent N s.W r c := by
      intro c hc r hr
      rw [hW2e r hr c, if_neg (by omega), hW1e r hr c, if_neg (by omega)]
    have hcolk : ∀ r, r < N → ent N W2 r k = if k ≤ r then (if r = k then β else v r) else ent N s.W r k := by
      intro r hr
      rw [hW2e r hr k, if_neg (by omega), hW1e r hr k]
      simp
    have hhv : ∀ i, i < N → hv N k W2 i = if i < k then 0 else v i := by
      intro i hi
      unfold hv
      by_cases h1 : i < k
      · simp [h1]
      · rw [if_neg h1, if_neg h1]
        by_cases h2 : i = k
        · rw [if_pos h2, h2, hvk]
        · rw [if_neg h2, hcolk i hi, if_pos (by omega), if_neg h2]
    -- scalar products
    have hsum : ∑ i ∈ Ico (k + 1) N, ent N s.W i k ^ 2 = β ^ 2 - α ^ 2 := by
      rw [hβ2, sum_eq_sum_Ico_succ_bot hkN, hα]; ring
    have hsplit : ∀ f : Nat → ℝ, dotp N (hv N k W2) f = f k + ∑ i ∈ Ico (k + 1) N, ent N s.W i k / (α - β) * f i := by
      intro f
      unfold dotp
      rw [← sum_range_add_sum_Ico _ hkN.le, sum_eq_zero (s := range k), zero_add, sum_eq_sum_Ico_succ_bot hkN]
      · rw [hhv k hkN, if_neg (by omega), hvk, one_mul]
        congr 1
        refine sum_congr rfl fun i hi => ?_
        rw [mem_Ico] at hi
        rw [hhv i hi.2, if_neg (by omega), hvi i (by omega) hi.2]
      · intro i hi
        rw [mem_range] at hi
        rw [hhv i (by omega), if_pos hi, zero_mul]
    have huu : dotp N (hv N k W2) (hv N k W2) = 1 + (β ^ 2 - α ^ 2) / (α - β) ^ 2 := by
      rw [hsplit, hhv k hkN, if_neg (by omega), hvk, ← hsum, sum_div]
      congr 1
      refine sum_congr rfl fun i hi => ?_
      rw [mem_Ico] at hi
      rw [hhv i hi.2, if_neg (by omega), hvi i (by omega) hi.2, div_mul_div_comm, ← sq, ← sq]
    have hisR : IsRefl N (hv N k W2) (tau k) := by
      right
      rw [huu, htk]
      field_simp
      ring
    have hux : dotp N (hv N k W2) (fun i => ent N s.W i k) = -β := by
      rw [hsplit, hα]
      have : ∑ i ∈ Ico (k + 1) N, ent N s.W i k / (α - β) * ent N s.W i k = (β ^ 2 - α ^ 2) / (α - β) := by
        rw [← hsum, sum_div]
        exact sum_congr rfl fun i _ => by ring
      rw [this]
      field_simp
      ring
    have hfw : ∀ (x : Nat → ℝ) i, i < N → fwd N W2 tau (k + 1) x i = refl N (hv N k W2) (tau k) (fwd N s.W s.tau k x) i := by
      intro x i hi
      show refl N (hv N k W2) (tau k) (fwd N W2 tau k x) i = _
      exact refl_congr (fun _ _ => rfl)
        (fwd_congr (fun c hc r _ hr => hold c hc r hr) ht fun _ _ => rfl) hi
    refine ⟨?_, ?_, ?_⟩
    · intro m hm
      show IsRefl N (hv N m W2) (tau m)
      by_cases hmk : m = k
      · rw [hmk]; exact hisR
      · rw [ht m (by omega)]
        have := h.isR m (by omega)
        have e : ∀ i, i < N → hv N m W2 i = hv N m s.W i := by
          intro i hi
          unfold hv
          rw [hold m (by omega) i hi]
        unfold IsRefl at this ⊢
        rw [dotp_congr e e]; exact this
    · intro j h1 h2 i hi
      show ent N W2 i j = fwd N W2 tau (k + 1) _ i
      rw [hfw _ i hi, hW2e i hi j, if_pos ⟨h1, h2⟩]
      refine refl_congr (fun r hr => (hhv r hr).symm) (fun r hr => ?_) hi
      rw [hW1e r hr j, if_neg (by omega), h.rest j (by omega) h2 r hr]
    · intro j hj
      show (∀ i, i < N → fwd N W2 tau (k + 1) _ i = up N W2 j i) ∨
        (|ent N W2 j j| ≤ eps ∧ len2 N (fun i => fwd N W2 tau (k + 1) _ i - up N W2 j i) ≤ eps ^ 2)
      by_cases hjk : j = k
      · subst hjk
        left
        intro i hi
        rw [hfw _ i hi, refl_congr (x' := fun i => ent N s.W i j) (fun _ _ => rfl)
          (fun r hr => (h.rest j le_rfl hk r hr).symm) hi]
        unfold refl
        rw [hux, htk, hhv i hi]
        unfold up
        rw [hcolk i hi]
        by_cases h1 : i < j
        · rw [if_pos h1, if_pos h1.le, if_neg (by omega)]; ring
        · rw [if_neg h1]
          by_cases h2 : i = j
          · subst h2
            rw [if_pos le_rfl, if_pos le_rfl, if_pos rfl, hvk]
            beta_reduce
            rw [hα]
            field_simp
            ring
          · rw [if_neg (by omega : ¬ i ≤ j), hvi i (by omega) hi]
            field_simp
            ring
      · have hjk' : j < k := by omega
        have hu0 : ∀ i, i < k → (fun i => if i < k then 0 else v i : Nat → ℝ) i = 0 := fun i hi => by simp [hi]
        have hup : ∀ i, i < N → up N W2 j i = up N s.W j i := by
          intro i hi; unfold up; rw [hold j hjk' i hi]
        have hre : ∀ i, i < N → fwd N W2 tau (k + 1) (fun i => ent N A i j) i - up N W2 j i =
            refl N (hv N k W2) (tau k) (fun i => fwd N s.W s.tau k (fun i => ent N A i j) i - up N s.W j i) i := by
          intro i hi
          rw [hfw _ i hi, hup i hi, refl_up (k := k) (fun i hi => by unfold hv; rw [if_pos hi]) hjk' s.W i hi]
        rcases h.done j hjk' with h1 | ⟨h1, h2⟩
        · left
          intro i hi
          have := hre i hi
          rw [refl_congr (x' := fun _ => 0) (fun _ _ => rfl) (fun r hr => by rw [h1 r hr]; ring) hi] at this
          have z : refl N (hv N k W2) (tau k) (fun _ => 0) i = 0 := by simp [refl, dotp]
          rw [z] at this
          linarith
        · right
          rw [hold j hjk' j (by omega)]
          refine ⟨h1, le_trans (le_of_eq ?_) h2⟩
          rw [len2_eq, len2_eq, dotp_congr hre hre, refl_iso hisR]

theorem QRInv.final {eps : ℝ} (he : 0 ≤ eps) {N M : Nat} (hMN : M ≤ N) (A v tau : Nat → ℝ) :
    QRInv eps N M A M (qrFactor eps N M ⟨A, v, tau⟩) :=
  loop_ind (fun k s => QRInv eps N M A k s) (Nat.zero_le M) (QRInv.zero eps N M A v tau)
    fun _ _ _ hk h => h.step he hMN hk

/-- The second phase gives the columns of the product of all reflections. -/
theorem qrQ_ent {N M : Nat} (hMN : M ≤ N) (s : QRState) (Q : Nat → ℝ) {r c : Nat} (hr : r < N) (hc : c < N) :
    ent N (qrQ N M s Q) r c = bwd N s.W s.tau M (fun i => if i = c then 1 else 0) r := by
  unfold qrQ
  refine loopDown_ind (fun k (p : (Nat → ℝ) × (Nat → ℝ)) => ∀ c, c < N → ∀ r, r < N →
    bwd N s.W s.tau k (fun i => ent N p.2 i c) r = bwd N s.W s.tau M (fun i => if i = c then 1 else 0) r)
    (Nat.zero_le M) ?_ ?_ c hc r hr
  · intro c hc r hr
    refine bwd_congr _ _ _ (fun i hi => ?_) r hr
    exact ident_ent Q hi hc
  · intro k p _ hk ih c hc r hr
    rw [← ih c hc r hr]
    show _ = bwd N s.W s.tau k (refl N (hv N k s.W) (s.tau k) _) r
    refine bwd_congr _ _ _ (fun i hi => ?_) r hr
    have hkN : k < N := by omega
    split
    · rename_i h0; rw [h0, refl_zero]
    · rw [reflectCols_ent hkN _ _ (Nat.zero_le N) _ hi, if_pos ⟨Nat.zero_le c, hc⟩]
      refine refl_congr (fun j hj => ?_) (fun _ _ => rfl) hi
      unfold hv
      rw [seg hkN (fun i => s.W (i + k * N))]
      by_cases h1 : j < k
      · simp [h1]
      · rw [if_neg h1, if_neg h1]
        by_cases h2 : j = k
        · rw [if_pos h2, if_neg (by omega), h2, wr_same]
        · rw [if_neg h2, if_pos (by omega)]; rfl

theorem qrR_ent {N M : Nat} (W R : Nat → ℝ) {i j : Nat} (hi : i < M) (hj : j < M) :
    ent M (qrR N M W R) i j = if i ≤ j then ent N W i j else 0 := by
  unfold qrR
  rw [fill_ent (fun i j => if i ≤ j then W (i + j * N) else 0) R hi le_rfl, if_pos ⟨hi, hj⟩]
  rfl

end Verif.Dense
