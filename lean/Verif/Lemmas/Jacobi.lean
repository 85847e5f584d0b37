import Verif.Lemmas.QR
import Mathlib.LinearAlgebra.Matrix.NonsingularInverse
import Mathlib.Data.Matrix.Mul

/-!
The loops of `jacobi_symmetric_eigen`.
-/
namespace Verif.Dense

open Finset

/-- the form `(x, A y)` -/
noncomputable def bil (n : Nat) (A x y : Nat → ℝ) : ℝ := dotp n x (mulV n n A y)

theorem dotp_add_left (n : Nat) (x x' y : Nat → ℝ) (a b : ℝ) :
    dotp n (fun i => a * x i + b * x' i) y = a * dotp n x y + b * dotp n x' y := by
  unfold dotp
  rw [mul_sum, mul_sum, ← sum_add_distrib]
  exact sum_congr rfl fun i _ => by ring

theorem dotp_add_right (n : Nat) (x x' y : Nat → ℝ) (a b : ℝ) :
    dotp n y (fun i => a * x i + b * x' i) = a * dotp n y x + b * dotp n y x' := by
  rw [dotp_comm, dotp_add_left, dotp_comm n x, dotp_comm n x']

theorem mulV_add (n : Nat) (A x x' : Nat → ℝ) (a b : ℝ) (i : Nat) :
    mulV n n A (fun i => a * x i + b * x' i) i = a * mulV n n A x i + b * mulV n n A x' i := by
  unfold mulV
  rw [mul_sum, mul_sum, ← sum_add_distrib]
  exact sum_congr rfl fun i _ => by ring

theorem mulV_congr {N M : Nat} (A : Nat → ℝ) {x x' : Nat → ℝ} (h : ∀ i, i < M → x i = x' i) (i : Nat) :
    mulV N M A x i = mulV N M A x' i := by
  unfold mulV
  exact sum_congr rfl fun t ht => by rw [h t (mem_range.1 ht)]

theorem bil_congr {n : Nat} (A : Nat → ℝ) {x x' y y' : Nat → ℝ} (h : ∀ i, i < n → x i = x' i)
    (h' : ∀ i, i < n → y i = y' i) : bil n A x y = bil n A x' y' :=
  dotp_congr h fun i _ => mulV_congr A h' i

theorem bil_add_left (n : Nat) (A x x' y : Nat → ℝ) (a b : ℝ) :
    bil n A (fun i => a * x i + b * x' i) y = a * bil n A x y + b * bil n A x' y := dotp_add_left ..

theorem bil_add_right (n : Nat) (A x x' y : Nat → ℝ) (a b : ℝ) :
    bil n A y (fun i => a * x i + b * x' i) = a * bil n A y x + b * bil n A y x' := by
  unfold bil
  rw [← dotp_add_right]
  exact dotp_congr (fun _ _ => rfl) fun i _ => mulV_add n A x x' a b i

theorem bil_symm {n : Nat} {A : Nat → ℝ} (hA : Symm n A) (x y : Nat → ℝ) : bil n A x y = bil n A y x := by
  unfold bil dotp mulV
  simp only [mul_sum]
  rw [sum_comm]
  refine sum_congr rfl fun i hi => sum_congr rfl fun j hj => ?_
  rw [hA j (mem_range.1 hj) i (mem_range.1 hi)]; ring

/-- a column -/
def col (N : Nat) (V : Nat → ℝ) (j i : Nat) : ℝ := ent N V i j

theorem angle_spec (app aqq apq : ℝ) :
    (Real.cos (jacobiAngle app aqq apq) ^ 2 - Real.sin (jacobiAngle app aqq apq) ^ 2) * apq
      = Real.cos (jacobiAngle app aqq apq) * Real.sin (jacobiAngle app aqq apq) * (aqq - app) := by
  have h2 : 2 * jacobiAngle app aqq apq = Complex.arg ⟨aqq - app, 2 * apq⟩ := by unfold jacobiAngle; ring
  have hc := Complex.norm_mul_cos_arg ⟨aqq - app, 2 * apq⟩
  have hs := Complex.norm_mul_sin_arg ⟨aqq - app, 2 * apq⟩
  rw [← h2, Real.cos_two_mul'] at hc
  rw [← h2, Real.sin_two_mul] at hs
  simp only at hc hs
  generalize Real.cos (jacobiAngle app aqq apq) = c at *
  generalize Real.sin (jacobiAngle app aqq apq) = s at *
  linear_combination (c * s) * hc - (c ^ 2 - s ^ 2) / 2 * hs

theorem rotV_ent {n p q : Nat} (hp : p < n) (hq : q < n) (hpq : p ≠ q) (c s : ℝ) (V : Nat → ℝ) {r j : Nat} (hr : r < n) :
    ent n (rotV n p q c s V) r j = if j = p then c * ent n V r p + -s * ent n V r q else
      if j = q then s * ent n V r p + c * ent n V r q else ent n V r j := by
  unfold rotV
  refine (loop_ind (fun m (Y : Nat → ℝ) => ∀ r, r < n → ∀ j, ent n Y r j =
      if r < m then (if j = p then c * ent n V r p + -s * ent n V r q else
      if j = q then s * ent n V r p + c * ent n V r q else ent n V r j) else ent n V r j) (Nat.zero_le n) ?_ ?_ r hr j).trans
      (by rw [if_pos hr])
  · intro r _ j; rw [if_neg (by omega)]
  · intro k Y _ hk ih r hr j
    rw [ent_wr _ _ hk hr, ent_wr _ _ hk hr]
    have ep : Y (k + p * n) = ent n V k p := by have := ih k hk p; rwa [if_neg (by omega)] at this
    have eq : Y (k + q * n) = ent n V k q := by have := ih k hk q; rwa [if_neg (by omega)] at this
    rw [ep, eq]
    by_cases hrk : r = k
    · subst hrk
      rw [if_pos (Nat.lt_succ_self r)]
      by_cases h1 : j = q
      · rw [if_pos ⟨rfl, h1⟩, if_neg (by omega : ¬ j = p), if_pos h1]
      · rw [if_neg (by omega : ¬ (r = r ∧ j = q))]
        by_cases h2 : j = p
        · rw [if_pos ⟨rfl, h2⟩, if_pos h2]; ring
        · rw [if_neg (by omega : ¬ (r = r ∧ j = p)), if_neg h2, if_neg h1, ih r hr j, if_neg (by omega)]
    · rw [if_neg (by omega : ¬ (r = k ∧ j = q)), if_neg (by omega : ¬ (r = k ∧ j = p)), ih r hr j]
      have e : r < k + 1 ↔ r < k := by omega
      simp only [e]

theorem rotSym_ent {n p q : Nat} (hp : p < n) (hq : q < n) (hpq : p ≠ q) (c s : ℝ) (m0 : Nat → ℝ) {i j : Nat} (hi : i < n)
    (hj : j < n) : ent n (rotSym n p q c s m0) i j =
      if (i = p ∨ i = q) ↔ (j = p ∨ j = q) then ent n m0 i j
      else if j = p then c * ent n m0 i p - s * ent n m0 i q
      else if j = q then s * ent n m0 i p + c * ent n m0 i q
      else if i = p then c * ent n m0 j p - s * ent n m0 j q
      else s * ent n m0 j p + c * ent n m0 j q := by
  unfold rotSym
  have key := loop_ind (fun l (Y : Nat → ℝ) => ∀ i, i < n → ∀ j, j < n → ent n Y i j =
      if (i = p ∨ i = q) ↔ (j = p ∨ j = q) then ent n m0 i j
      else if j = p then (if i < l then c * ent n m0 i p - s * ent n m0 i q else ent n m0 i j)
      else if j = q then (if i < l then s * ent n m0 i p + c * ent n m0 i q else ent n m0 i j)
      else if i = p then (if j < l then c * ent n m0 j p - s * ent n m0 j q else ent n m0 i j)
      else (if j < l then s * ent n m0 j p + c * ent n m0 j q else ent n m0 i j))
    (a := 0) (b := n) (f := fun k m => if k = p ∨ k = q then m
    else
      let gkp := m (k + p * n)
      let gkq := m (k + q * n)
      let m := wr (wr m (p + k * n) (c * gkp - s * gkq)) (k + p * n) (c * gkp - s * gkq)
      wr (wr m (q + k * n) (s * gkp + c * gkq)) (k + q * n) (s * gkp + c * gkq)) (s := m0) (Nat.zero_le n) ?_ ?_ i hi j hj
  · rw [key]; simp only [hi, hj, if_true]
  · intro i _ j _
    simp only [Nat.not_lt_zero, if_false, ite_self]
  · intro k Y _ hk ih i hi j hj
    by_cases hkpq : k = p ∨ k = q
    · rw [if_pos hkpq, ih i hi j hj]
      have e1 : ¬ (i = p ∨ i = q) → (i < k + 1 ↔ i < k) := by intro h; omega
      have e2 : ¬ (j = p ∨ j = q) → (j < k + 1 ↔ j < k) := by intro h; omega
      by_cases hb : (i = p ∨ i = q) ↔ (j = p ∨ j = q)
      · rw [if_pos hb, if_pos hb]
      · rw [if_neg hb, if_neg hb]
        by_cases h1 : j = p ∨ j = q
        · have h2 : ¬ (i = p ∨ i = q) := fun h => hb ⟨fun _ => h1, fun _ => h⟩
          simp only [e1 h2]
          rcases h1 with h1 | h1
          · rw [if_pos h1, if_pos h1]
          · have h3 : ¬ j = p := by omega
            rw [if_neg h3, if_pos h1, if_neg h3, if_pos h1]
        · have h3 : j ≠ p := fun h => h1 (Or.inl h)
          have h4 : j ≠ q := fun h => h1 (Or.inr h)
          simp only [e2 h1, h3, h4, if_false]
    · rw [if_neg hkpq]
      have hkp : k ≠ p := fun h => hkpq (Or.inl h)
      have hkq : k ≠ q := fun h => hkpq (Or.inr h)
      have ep : Y (k + p * n) = ent n m0 k p := by
        have := ih k hk p hp
        rw [if_neg (by omega), if_pos rfl, if_neg (by omega)] at this
        exact this
      have eq : Y (k + q * n) = ent n m0 k q := by
        have := ih k hk q hq
        rw [if_neg (by omega), if_neg (by omega), if_pos rfl, if_neg (by omega)] at this
        exact this
      simp only [ep, eq]
      rw [ent_wr _ _ hk hi, ent_wr _ _ hq hi, ent_wr _ _ hk hi, ent_wr _ _ hp hi, ih i hi j hj]
      by_cases hjp : j = p
      · subst hjp
        by_cases hik : i = k
        · subst hik
          simp [hpq, hkp, hkq]
        · have e : i < k + 1 ↔ i < k := by omega
          simp [hpq, hik, e, Ne.symm hkp]
      · by_cases hjq : j = q
        · subst hjq
          by_cases hik : i = k
          · subst hik
            simp [hpq, hkp, hkq, Ne.symm hpq]
          · have e : i < k + 1 ↔ i < k := by omega
            simp [hpq, hik, e, Ne.symm hkq, Ne.symm hpq]
        · by_cases hip : i = p
          · subst hip
            by_cases hjk : j = k
            · subst hjk
              simp [hpq, hjp, hjq]
            · have e : j < k + 1 ↔ j < k := by omega
              simp [hjp, hjq, hjk, e]
          · by_cases hiq : i = q
            · subst hiq
              by_cases hjk : j = k
              · subst hjk
                simp [hjp, hjq, hip]
              · have e : j < k + 1 ↔ j < k := by omega
                simp [hjp, hjq, hjk, e]
            · simp [hjp, hjq, hip, hiq]

/-- What holds between the rotations: the columns of `V` are orthonormal and `sym` is the matrix of `A` in their basis. -/
structure JInv (n : Nat) (A : Nat → ℝ) (x : JState) : Prop where
  orth : Orthonormal n n x.V
  form : ∀ i, i < n → ∀ j, j < n → ent n x.sym i j = bil n A (col n x.V i) (col n x.V j)

theorem JInv.start {n : Nat} (A evecs : Nat → ℝ) : JInv n A ⟨A, identFill n evecs⟩ where
  orth := by
    intro a ha b hb
    rw [dotp_congr (fun i hi => ident_ent evecs hi ha) (fun i hi => ident_ent evecs hi hb)]
    unfold dotp
    simp only [mul_ite, mul_one, mul_zero, sum_ite_eq', mem_range, hb, if_true]
    exact if_congr eq_comm rfl rfl
  form := by
    intro i hi j hj
    refine Eq.trans ?_ (bil_congr A (fun r hr => ident_ent evecs hr hi) (fun r hr => ident_ent evecs hr hj)).symm
    unfold bil dotp mulV
    simp [hi, hj]

theorem JInv.rot {tol : ℝ} {n : Nat} {A : Nat → ℝ} (hA : Symm n A) {x : JState} (h : JInv n A x) {p q : Nat} (hp : p < n)
    (hq : q < n) (hpq : p ≠ q) : JInv n A (jacobiRot tol n p q x) := by
  unfold jacobiRot
  simp only []
  split
  · exact h
  · have hang := angle_spec (x.sym (p + p * n)) (x.sym (q + q * n)) (x.sym (p + q * n))
    have hcs := Real.cos_sq_add_sin_sq (jacobiAngle (x.sym (p + p * n)) (x.sym (q + q * n)) (x.sym (p + q * n)))
    generalize Real.cos (jacobiAngle (x.sym (p + p * n)) (x.sym (q + q * n)) (x.sym (p + q * n))) = c at *
    generalize Real.sin (jacobiAngle (x.sym (p + p * n)) (x.sym (q + q * n)) (x.sym (p + q * n))) = s at *
    have hV : ∀ j, j < n → ∀ r, r < n → col n (rotV n p q c s x.V) j r =
        (if j = p then fun r => c * col n x.V p r + -s * col n x.V q r else
          if j = q then fun r => s * col n x.V p r + c * col n x.V q r else col n x.V j) r := by
      intro j _ r hr
      unfold col
      rw [rotV_ent hp hq hpq c s x.V hr]
      split
      · rfl
      · split <;> rfl
    have hd : ∀ a, a < n → ∀ b, b < n → dotp n (col n x.V a) (col n x.V b) = if a = b then 1 else 0 := h.orth
    have hb : ∀ a, a < n → ∀ b, b < n → bil n A (col n x.V a) (col n x.V b) = ent n x.sym a b :=
      fun a ha b hb => (h.form a ha b hb).symm
    have hsym : ∀ a, a < n → ∀ b, b < n → ent n x.sym a b = ent n x.sym b a := by
      intro a ha b hb; rw [h.form a ha b hb, h.form b hb a ha, bil_symm hA]
    constructor
    · intro a ha b hb
      show dotp n (col n (rotV n p q c s x.V) a) (col n (rotV n p q c s x.V) b) = _
      rw [dotp_congr (hV a ha) (hV b hb)]
      by_cases ap : a = p
      · subst ap
        by_cases bp : b = a
        · subst bp
          simp only [if_true, dotp_add_left, dotp_add_right, hd _ ha _ ha, hd _ hq _ hq, hd _ ha _ hq, hd _ hq _ ha, hpq,
            Ne.symm hpq, if_false]
          linear_combination hcs
        · by_cases bq : b = q
          · subst bq
            simp only [if_true, dotp_add_left, dotp_add_right, hd _ ha _ ha, hd _ hb _ hb, hd _ ha _ hb, hd _ hb _ ha, hpq,
              Ne.symm hpq, if_false]
            ring
          · simp only [if_true, dotp_add_left, hd _ ha _ hb, hd _ hq _ hb, Ne.symm bp, Ne.symm bq, bp, bq, if_false]
            ring
      · by_cases aq : a = q
        · subst aq
          by_cases bp : b = p
          · subst bp
            simp only [if_true, dotp_add_left, dotp_add_right, hd _ ha _ ha, hd _ hb _ hb, hd _ ha _ hb, hd _ hb _ ha, hpq,
              Ne.symm hpq, if_false]
            ring
          · by_cases bq : b = a
            · subst bq
              simp only [if_true, dotp_add_left, dotp_add_right, hd _ ha _ ha, hd _ hp _ hp, hd _ ha _ hp, hd _ hp _ ha, hpq,
                Ne.symm hpq, if_false]
              linear_combination hcs
            · simp only [if_true, dotp_add_left, hd _ ha _ hb, hd _ hp _ hb, Ne.symm bp, Ne.symm bq, bp, bq, ap, if_false]
              ring
        · by_cases bp : b = p
          · subst bp
            simp only [if_true, dotp_add_right, hd _ ha _ hb, hd _ ha _ hq, ap, aq, if_false]
            ring
          · by_cases bq : b = q
            · subst bq
              simp only [if_true, dotp_add_right, hd _ ha _ hb, hd _ ha _ hp, ap, aq, bp, if_false]
              ring
            · simp only [ap, aq, bp, bq, if_false]
              exact hd a ha b hb
    · intro i hi j hj
      show ent n _ i j = bil n A (col n (rotV n p q c s x.V) i) (col n (rotV n p q c s x.V) j)
      rw [bil_congr A (hV i hi) (hV j hj), ent_wr _ _ hp hi, ent_wr _ _ hq hi, ent_wr _ _ hq hi, ent_wr _ _ hp hi,
        rotSym_ent hp hq hpq c s x.sym hi hj]
      have epp : x.sym (p + p * n) = ent n x.sym p p := rfl
      have eqq : x.sym (q + q * n) = ent n x.sym q q := rfl
      have epq : x.sym (p + q * n) = ent n x.sym p q := rfl
      rw [epp, eqq, epq] at hang ⊢
      have eqp := hsym q hq p hp
      by_cases ip : i = p
      · subst ip
        by_cases jp : j = i
        · subst jp
          simp only [if_true, bil_add_left, bil_add_right, hb _ hi _ hi, hb _ hq _ hq, hb _ hi _ hq, hb _ hq _ hi, hpq,
            and_false, false_and, and_self, if_false, eqp]
          ring
        · by_cases jq : j = q
          · subst jq
            simp only [if_true, bil_add_left, bil_add_right, hb _ hi _ hi, hb _ hj _ hj, hb _ hi _ hj, hb _ hj _ hi, hpq,
              Ne.symm hpq, and_self, if_false, eqp]
            linear_combination -hang
          · simp only [if_true, bil_add_left, hb _ hi _ hj, hb _ hq _ hj, jp, jq, or_self, true_or, if_false, and_false,
              hsym _ hi _ hj, hsym _ hq _ hj]
            simp
            ring
      · by_cases iq : i = q
        · subst iq
          by_cases jp : j = p
          · subst jp
            simp only [if_true, bil_add_left, bil_add_right, hb _ hi _ hi, hb _ hj _ hj, hb _ hi _ hj, hb _ hj _ hi, hpq,
              Ne.symm hpq, and_self, false_and, if_false, eqp]
            linear_combination -hang
          · by_cases jq : j = i
            · subst jq
              simp only [if_true, bil_add_left, bil_add_right, hb _ hi _ hi, hb _ hp _ hp, hb _ hi _ hp, hb _ hp _ hi, hpq,
                Ne.symm hpq, and_self, and_false, false_and, if_false, eqp]
              ring
            · simp only [if_true, bil_add_left, hb _ hi _ hj, hb _ hp _ hj, jp, jq, ip, or_self, or_true, if_false, and_false,
                hsym _ hi _ hj, hsym _ hp _ hj]
              simp
        · by_cases jp : j = p
          · subst jp
            simp only [if_true, bil_add_right, hb _ hi _ hj, hb _ hi _ hq, ip, iq, or_self, true_or, if_false, false_and]
            simp
            ring
          · by_cases jq : j = q
            · subst jq
              simp only [if_true, bil_add_right, hb _ hi _ hj, hb _ hi _ hp, ip, iq, jp, or_self, or_true, if_false, false_and]
              simp
            · simp only [ip, iq, jp, jq, or_self, if_false, false_and, if_true]
              exact h.form i hi j hj

theorem JInv.sweep {tol : ℝ} {n : Nat} {A : Nat → ℝ} (hA : Symm n A) {x : JState} (h : JInv n A x) :
    JInv n A (jacobiSweep tol n x) := by
  unfold jacobiSweep
  refine loop_ind (fun _ x => JInv n A x) (Nat.zero_le n) h ?_
  intro p x _ hp h
  exact loop_ind (fun _ x => JInv n A x) (by omega) h fun q x h1 hq h => h.rot hA hp hq (by omega)

theorem JInv.run {tol : ℝ} {n : Nat} {A : Nat → ℝ} (hA : Symm n A) : ∀ (f : Nat) {x : JState}, JInv n A x →
    (jacobiRun tol n f x).1 = false →
    JInv n A (jacobiRun tol n f x).2 ∧ jacobiOff n (jacobiRun tol n f x).2.sym ≤ tol * tol
  | 0, _, _, h => by simp [jacobiRun] at h
  | f + 1, x, h, hf => by
    unfold jacobiRun at hf ⊢
    split at hf
    · rename_i h0; rw [if_pos h0]; exact ⟨h, h0⟩
    · rename_i h0; rw [if_neg h0]; exact JInv.run hA f (h.sweep hA) hf

theorem off_eq (n : Nat) (m : Nat → ℝ) :
    jacobiOff n m = ∑ p ∈ range n, ∑ q ∈ Ico (p + 1) n, ent n m p q ^ 2 := by
  unfold jacobiOff
  refine loop_ind (fun k o => o = ∑ p ∈ range k, ∑ q ∈ Ico (p + 1) n, ent n m p q ^ 2) (Nat.zero_le n) (by simp) ?_
  intro p o _ hp e
  rw [loop_sum_ico (fun q => m (p + q * n) * m (p + q * n)) o (by omega), e, sum_range_succ]
  congr 1
  exact sum_congr rfl fun q _ => by unfold ent; ring

/-- rows of an orthonormal square matrix are orthonormal too -/
theorem Orthonormal.rows {n : Nat} {V : Nat → ℝ} (h : Orthonormal n n V) {i k : Nat} (hi : i < n) (hk : k < n) :
    ∑ j ∈ range n, ent n V i j * ent n V k j = if i = k then 1 else 0 := by
  let P : Matrix (Fin n) (Fin n) ℝ := fun a b => ent n V a b
  have h1 : P.transpose * P = 1 := by
    ext a b
    rw [Matrix.mul_apply, Matrix.one_apply]
    have := h a a.2 b b.2
    unfold dotp at this
    rw [sum_range] at this
    rw [show (if a = b then (1 : ℝ) else 0) = if (a : Nat) = b then 1 else 0 by simp [Fin.ext_iff], ← this]
    rfl
  have h2 : P * P.transpose = 1 := mul_eq_one_comm.1 h1
  have := congrFun (congrFun h2 ⟨i, hi⟩) ⟨k, hk⟩
  rw [Matrix.mul_apply, Matrix.one_apply] at this
  rw [sum_range]
  simp only [Fin.mk.injEq] at this
  rw [← this]
  rfl

/-- the length in an orthonormal basis -/
theorem Orthonormal.len {n : Nat} {V : Nat → ℝ} (h : Orthonormal n n V) (x : Nat → ℝ) :
    ∑ j ∈ range n, dotp n (col n V j) x ^ 2 = len2 n x := by
  have : ∀ j, dotp n (col n V j) x ^ 2 = ∑ i ∈ range n, ∑ k ∈ range n, x i * x k * (ent n V i j * ent n V k j) := by
    intro j
    unfold dotp col
    rw [sq, sum_mul_sum]
    exact sum_congr rfl fun i _ => sum_congr rfl fun k _ => by ring
  simp only [this]
  rw [sum_comm]
  unfold len2
  refine sum_congr rfl fun i hi => ?_
  rw [sum_comm]
  rw [sum_congr rfl fun k hk => by rw [← mul_sum, h.rows (mem_range.1 hi) (mem_range.1 hk)]]
  simp only [mul_ite, mul_one, mul_zero, sum_ite_eq, hi, if_true]
  ring

/-- the off-diagonal entries of one column are bounded by those above the diagonal -/
theorem off_col {n : Nat} {m : Nat → ℝ} (hs : Symm n m) {j : Nat} (hj : j < n) :
    ∑ i ∈ (range n).erase j, ent n m i j ^ 2 ≤ jacobiOff n m := by
  rw [off_eq, sum_sigma']
  have hinj : Function.Injective (fun i => (⟨min i j, max i j⟩ : Σ _ : Nat, Nat)) := by
    intro a b e
    simp only [Sigma.mk.injEq, heq_eq_eq] at e
    omega
  have : ∑ i ∈ (range n).erase j, ent n m i j ^ 2
      = ∑ x ∈ ((range n).erase j).map ⟨fun i => (⟨min i j, max i j⟩ : Σ _ : Nat, Nat), hinj⟩, ent n m x.1 x.2 ^ 2 := by
    rw [sum_map]
    refine sum_congr rfl fun i hi => ?_
    rw [mem_erase, mem_range] at hi
    simp only [Function.Embedding.coeFn_mk]
    rcases le_total i j with h | h
    · rw [min_eq_left h, max_eq_right h]
    · rw [min_eq_right h, max_eq_left h, hs i hi.2 j hj]
  rw [this]
  refine sum_le_sum_of_subset_of_nonneg ?_ fun x _ _ => sq_nonneg _
  intro x hx
  rw [mem_map] at hx
  obtain ⟨i, hi, rfl⟩ := hx
  rw [mem_erase, mem_range] at hi
  simp only [Function.Embedding.coeFn_mk, mem_sigma, mem_range, mem_Ico]
  omega

end Verif.Dense
