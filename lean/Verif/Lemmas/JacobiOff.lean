import Verif.Lemmas.Jacobi

/-!
The rotations of `jacobi_symmetric_eigen` reduce the entries outside of the diagonal.
-/
namespace Verif.Dense

open Finset

theorem JInv.symm {n : Nat} {A : Nat → ℝ} (hA : Symm n A) {x : JState} (h : JInv n A x) : Symm n x.sym := by
  intro i hi j hj
  rw [h.form i hi j hj, h.form j hj i hi, bil_symm hA]

/-- `|A V|^2 = |A|^2` over the rows -/
theorem Orthonormal.frob {N n : Nat} {V : Nat → ℝ} (h : Orthonormal n n V) (A : Nat → ℝ) :
    ∑ j ∈ range n, len2 N (mulV N n A (col n V j)) = ∑ i ∈ range N, ∑ t ∈ range n, ent N A i t ^ 2 := by
  unfold len2
  rw [sum_comm]
  refine sum_congr rfl fun i _ => ?_
  have := h.len (fun t => ent N A i t)
  unfold len2 at this
  rw [← this]
  refine sum_congr rfl fun j _ => ?_
  congr 1
  unfold mulV dotp
  exact sum_congr rfl fun t _ => mul_comm _ _

/-- the sum of all squares does not change -/
theorem JInv.frob {n : Nat} {A : Nat → ℝ} {x : JState} (h : JInv n A x) :
    ∑ i ∈ range n, ∑ j ∈ range n, ent n x.sym i j ^ 2 = ∑ i ∈ range n, ∑ j ∈ range n, ent n A i j ^ 2 := by
  rw [← h.orth.frob A, sum_comm]
  refine sum_congr rfl fun j hj => ?_
  rw [← h.orth.len]
  refine sum_congr rfl fun i hi => ?_
  rw [h.form i (mem_range.1 hi) j (mem_range.1 hj)]; rfl

theorem sum_symm (n : Nat) {f : Nat → Nat → ℝ} (hf : ∀ i, i < n → ∀ j, j < n → f i j = f j i) :
    ∑ i ∈ range n, ∑ j ∈ range n, f i j
      = ∑ i ∈ range n, f i i + 2 * ∑ i ∈ range n, ∑ j ∈ Ico (i + 1) n, f i j := by
  induction n with
  | zero => simp
  | succ n ih =>
    have ih := ih fun i hi j hj => hf i (by omega) j (by omega)
    simp only [sum_range_succ]
    rw [sum_add_distrib, ih]
    have e : ∑ i ∈ range n, ∑ j ∈ Ico (i + 1) (n + 1), f i j
        = ∑ i ∈ range n, ∑ j ∈ Ico (i + 1) n, f i j + ∑ i ∈ range n, f i n := by
      rw [← sum_add_distrib]
      exact sum_congr rfl fun i hi => by rw [mem_range] at hi; rw [sum_Ico_succ_top (by omega)]
    have e2 : ∑ j ∈ range n, f n j = ∑ i ∈ range n, f i n :=
      sum_congr rfl fun i hi => hf n (by omega) i (by rw [mem_range] at hi; omega)
    rw [e, e2]
    simp
    ring

theorem off_diag {n : Nat} {m : Nat → ℝ} (hs : Symm n m) :
    2 * jacobiOff n m = ∑ i ∈ range n, ∑ j ∈ range n, ent n m i j ^ 2 - ∑ i ∈ range n, ent n m i i ^ 2 := by
  rw [off_eq, sum_symm n (f := fun i j => ent n m i j ^ 2) fun i hi j hj => by rw [hs i hi j hj]]
  ring

/-- the diagonal after a rotation -/
theorem rot_diag {tol : ℝ} {n p q : Nat} (hp : p < n) (hq : q < n) (hpq : p ≠ q) (x : JState)
    (h0 : ¬ |x.sym (p + q * n)| ≤ tol) : ∃ c s : ℝ, c ^ 2 + s ^ 2 = 1 ∧
      (c ^ 2 - s ^ 2) * ent n x.sym p q = c * s * (ent n x.sym q q - ent n x.sym p p) ∧
      ∀ i, i < n → ent n (jacobiRot tol n p q x).sym i i =
        if i = p then c * c * ent n x.sym p p - 2 * s * c * ent n x.sym p q + s * s * ent n x.sym q q
        else if i = q then s * s * ent n x.sym p p + 2 * s * c * ent n x.sym p q + c * c * ent n x.sym q q
        else ent n x.sym i i := by
  refine ⟨_, _, Real.cos_sq_add_sin_sq _, angle_spec (x.sym (p + p * n)) (x.sym (q + q * n)) (x.sym (p + q * n)), ?_⟩
  intro i hi
  unfold jacobiRot
  simp only []
  rw [if_neg h0]
  simp only []
  rw [ent_wr _ _ hp hi, ent_wr _ _ hq hi, ent_wr _ _ hq hi, ent_wr _ _ hp hi, rotSym_ent hp hq hpq _ _ _ hi hi]
  by_cases ip : i = p
  · subst ip; simp [hpq]; rfl
  · by_cases iq : i = q
    · subst iq; simp [ip]; rfl
    · simp [ip, iq]

/-- A rotation takes exactly the square of the entry that it removes. -/
theorem JInv.rot_off {tol : ℝ} {n : Nat} {A : Nat → ℝ} (hA : Symm n A) {x : JState} (h : JInv n A x) {p q : Nat}
    (hp : p < n) (hq : q < n) (hpq : p ≠ q) (h0 : ¬ |x.sym (p + q * n)| ≤ tol) :
    jacobiOff n (jacobiRot tol n p q x).sym = jacobiOff n x.sym - ent n x.sym p q ^ 2 := by
  have h' := h.rot (tol := tol) hA hp hq hpq
  have e1 := off_diag (h.symm hA)
  have e2 := off_diag (h'.symm hA)
  rw [h.frob] at e1
  rw [h'.frob] at e2
  obtain ⟨c, s, hcs, hang, hd⟩ := rot_diag hp hq hpq x h0
  have hsplit : ∀ f : Nat → ℝ, ∑ i ∈ range n, f i = f p + (f q + ∑ i ∈ ((range n).erase p).erase q, f i) := by
    intro f
    rw [add_sum_erase _ f (mem_erase.2 ⟨Ne.symm hpq, mem_range.2 hq⟩), add_sum_erase _ f (mem_range.2 hp)]
  rw [hsplit fun i => ent n x.sym i i ^ 2] at e1
  rw [hsplit fun i => ent n (jacobiRot tol n p q x).sym i i ^ 2] at e2
  have er : ∑ i ∈ ((range n).erase p).erase q, ent n (jacobiRot tol n p q x).sym i i ^ 2
      = ∑ i ∈ ((range n).erase p).erase q, ent n x.sym i i ^ 2 := by
    refine sum_congr rfl fun i hi => ?_
    rw [mem_erase, mem_erase, mem_range] at hi
    rw [hd i hi.2.2, if_neg hi.2.1, if_neg hi.1]
  rw [er, hd p hp, hd q hq, if_pos rfl, if_neg (Ne.symm hpq), if_pos rfl] at e2
  generalize ent n x.sym p p = a at *
  generalize ent n x.sym q q = b at *
  generalize ent n x.sym p q = d at *
  have hs2 : s ^ 2 = 1 - c ^ 2 := by linear_combination hcs
  have key : (c * c * a - 2 * s * c * d + s * s * b) ^ 2 + (s * s * a + 2 * s * c * d + c * c * b) ^ 2
      = a ^ 2 + b ^ 2 + 2 * d ^ 2 := by
    have k1 : (c * c * a - 2 * s * c * d + s * s * b) ^ 2 + (s * s * a + 2 * s * c * d + c * c * b) ^ 2
        + 2 * ((c ^ 2 - s ^ 2) * d - c * s * (b - a)) ^ 2 = (c ^ 2 + s ^ 2) ^ 2 * (a ^ 2 + b ^ 2 + 2 * d ^ 2) := by ring
    rw [hcs, hang] at k1
    linear_combination k1
  linear_combination (e2 - e1) / 2 - key / 2

theorem JInv.rot_off_le {tol : ℝ} {n : Nat} {A : Nat → ℝ} (hA : Symm n A) {x : JState} (h : JInv n A x) {p q : Nat}
    (hp : p < n) (hq : q < n) (hpq : p ≠ q) : jacobiOff n (jacobiRot tol n p q x).sym ≤ jacobiOff n x.sym := by
  by_cases h0 : |x.sym (p + q * n)| ≤ tol
  · unfold jacobiRot; simp only []; rw [if_pos h0]
  · rw [h.rot_off hA hp hq hpq h0]
    linarith [sq_nonneg (ent n x.sym p q)]

/-- A sweep does nothing because all entries are small, or it takes more than `tol^2`. -/
theorem JInv.sweep_off {tol : ℝ} (ht : 0 ≤ tol) {n : Nat} {A : Nat → ℝ} (hA : Symm n A) {x : JState} (h : JInv n A x) :
    (jacobiSweep tol n x = x ∧ ∀ p, p < n → ∀ q, p < q → q < n → |ent n x.sym p q| ≤ tol) ∨
    jacobiOff n (jacobiSweep tol n x).sym < jacobiOff n x.sym - tol * tol := by
  have key : ∀ {p q : Nat} {y : JState}, JInv n A y → p < n → q < n → p < q →
      (jacobiRot tol n p q y = y ∧ |ent n y.sym p q| ≤ tol) ∨
      jacobiOff n (jacobiRot tol n p q y).sym < jacobiOff n y.sym - tol * tol := by
    intro p q y hy hp hq hpq
    by_cases h0 : |y.sym (p + q * n)| ≤ tol
    · left; unfold jacobiRot; simp only []; rw [if_pos h0]; exact ⟨rfl, h0⟩
    · right
      rw [hy.rot_off hA hp hq (by omega) h0]
      have : tol * tol < ent n y.sym p q ^ 2 := by
        rw [← sq_abs, ← sq]
        have : tol < |ent n y.sym p q| := not_le.1 h0
        gcongr
      linarith
  have := loop_ind (fun P (y : JState) => JInv n A y ∧ ((y = x ∧ ∀ p, p < P → ∀ q, p < q → q < n → |ent n x.sym p q| ≤ tol) ∨
      jacobiOff n y.sym < jacobiOff n x.sym - tol * tol))
    (a := 0) (b := n) (f := fun p x => loop (p + 1) n (fun q x => jacobiRot tol n p q x) x) (s := x) (Nat.zero_le n)
    ⟨h, Or.inl ⟨rfl, fun p hp => by omega⟩⟩ ?_
  · exact this.2
  · intro p y _ hp ⟨hy, hc⟩
    have := loop_ind (fun Q (z : JState) => JInv n A z ∧ ((z = x ∧ (∀ p', p' < p → ∀ q, p' < q → q < n → |ent n x.sym p' q| ≤ tol) ∧
        ∀ q, p < q → q < Q → |ent n x.sym p q| ≤ tol) ∨ jacobiOff n z.sym < jacobiOff n x.sym - tol * tol))
      (a := p + 1) (b := n) (f := fun q x => jacobiRot tol n p q x) (s := y) (by omega)
      ⟨hy, hc.imp (fun h => ⟨h.1, h.2, fun q h1 h2 => by omega⟩) id⟩ ?_
    · refine ⟨this.1, this.2.imp ?_ id⟩
      rintro ⟨h1, h2, h3⟩
      refine ⟨h1, fun p' hp' q h4 h5 => ?_⟩
      by_cases e : p' = p
      · subst e; exact h3 q h4 h5
      · exact h2 p' (by omega) q h4 h5
    · intro q z h1 hq ⟨hz, hc⟩
      refine ⟨hz.rot hA hp hq (by omega), ?_⟩
      rcases hc with ⟨e, h2, h3⟩ | hc
      · subst e
        rcases key hz hp hq h1 with ⟨e, h4⟩ | h4
        · left
          refine ⟨e, h2, fun q' h5 h6 => ?_⟩
          by_cases e' : q' = q
          · subst e'; exact h4
          · exact h3 q' h5 (by omega)
        · right; exact h4
      · right
        exact lt_of_le_of_lt (hz.rot_off_le hA hp hq (by omega)) hc

theorem off_nonneg (n : Nat) (m : Nat → ℝ) : 0 ≤ jacobiOff n m := by
  rw [off_eq]; exact sum_nonneg fun _ _ => sum_nonneg fun _ _ => sq_nonneg _

/-- With enough sweeps the method ends, or it is stuck in a state where every entry is small but not the sum of their
squares. -/
theorem JInv.run_stuck {tol : ℝ} (ht : 0 ≤ tol) {n : Nat} {A : Nat → ℝ} (hA : Symm n A) : ∀ (f : Nat) {x : JState},
    JInv n A x → jacobiOff n x.sym < f * (tol * tol) → (jacobiRun tol n f x).1 = true →
    tol * tol < jacobiOff n (jacobiRun tol n f x).2.sym ∧
      ∀ p, p < n → ∀ q, p < q → q < n → |ent n (jacobiRun tol n f x).2.sym p q| ≤ tol
  | 0, x, _, h, _ => by simp at h; exact absurd (off_nonneg n x.sym) (not_le.2 h)
  | f + 1, x, hx, h, hr => by
    unfold jacobiRun at hr ⊢
    split at hr
    · simp at hr
    · rename_i h0
      rw [if_neg h0]
      have h0 := not_le.1 h0
      rcases hx.sweep_off ht hA with ⟨e, hsm⟩ | hlt
      · rw [e]
        have : ∀ f, (jacobiRun tol n f x).2 = x := by
          intro f
          induction f with
          | zero => rfl
          | succ f ih => unfold jacobiRun; rw [if_neg (not_le.2 h0), e, ih]
        rw [this]; exact ⟨h0, hsm⟩
      · refine JInv.run_stuck ht hA f (hx.sweep hA) ?_ hr
        push_cast at h
        linarith

/-- A state where all entries are small stays as it is. -/
theorem run_idle {tol : ℝ} {n : Nat} {x : JState} (hs : ∀ p, p < n → ∀ q, p < q → q < n → |ent n x.sym p q| ≤ tol)
    (ho : tol * tol < jacobiOff n x.sym) (f : Nat) : (jacobiRun tol n f x).1 = true := by
  have hsw : jacobiSweep tol n x = x := by
    unfold jacobiSweep
    refine loop_ind (fun _ y => y = x) (Nat.zero_le n) rfl ?_
    intro p y _ hp e
    refine loop_ind (fun _ y => y = x) (by omega) e ?_
    intro q y h1 hq e
    rw [e]
    unfold jacobiRot
    simp only []
    exact if_pos (hs p hp q h1 hq)
  induction f with
  | zero => rfl
  | succ f ih => unfold jacobiRun; rw [if_neg (not_le.2 ho), hsw, ih]

end Verif.Dense
