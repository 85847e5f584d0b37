import Verif.Lemmas.Elemental2
import Verif.Props.Fused

/-!
Lemmas for the convolution with the normal and the product with the test operator.
-/
set_option linter.unusedSectionVars false
set_option linter.unusedVariables false
namespace Verif.Elemental

open Verif.Dense

variable {K : Type} [CommRing K]

/-- a sum over a product range as a double sum -/
theorem sum_range_rad (A B : Nat) (g : Nat → K) :
    ∑ l ∈ Finset.range (A * B), g l = ∑ n ∈ Finset.range B, ∑ k ∈ Finset.range A, g (k + A * n) := by
  induction B with
  | zero => simp
  | succ B ih =>
    rw [Nat.mul_add, Nat.mul_one, Finset.sum_range_add, ih, Finset.sum_range_succ]
    congr 1
    exact Finset.sum_congr rfl (fun k _ => by rw [Nat.add_comm])

/-- The state of `processNormal` when the positions below `c` are done: those hold the convolution, the others are intact. -/
def Conv (S : Nat) (nrm DU : Nat → K) (c : Nat) (t : Nat → K) : Prop :=
  (∀ p, c ≤ p → t p = DU p) ∧
  (∀ p, p < c → t p = DU (3 * p) * nrm (3 * (p / S)) + DU (3 * p + 1) * nrm (3 * (p / S) + 1) +
    DU (3 * p + 2) * nrm (3 * (p / S) + 2))

theorem conv_step {S r : Nat} {nrm DU t : Nat → K} {c : Nat} (h : Conv S nrm DU c t) (hS : c / S = r) :
    Conv S nrm DU (c + 1) (wr t c (t (3 * c) * nrm (3 * r) + t (3 * c + 1) * nrm (3 * r + 1) +
      t (3 * c + 2) * nrm (3 * r + 2))) := by
  refine ⟨fun p hp => ?_, fun p hp => ?_⟩
  · rw [wr_ne _ _ (by omega)]
    exact h.1 p (by omega)
  · by_cases he : p = c
    · subst he
      rw [wr_same, h.1 _ (by omega), h.1 _ (by omega), h.1 _ (by omega), hS]
    · rw [wr_ne _ _ he]
      exact h.2 p (by omega)

theorem processNormal_conv {jd q nf f : Nat} (hq : 0 < q) (hf : 0 < f) (nrm DU : Nat → K) :
    Conv (jd * (q * nf)) nrm DU (jd * (q * (nf * f))) (processNormal (jd * 3 * q) (nf * f) q f nrm DU) := by
  unfold processNormal
  have e1 : jd * 3 * q / q / 3 = jd := by
    rw [Nat.mul_div_cancel _ hq, Nat.mul_div_cancel _ (by decide)]
  have e2 : nf * f / f = nf := Nat.mul_div_cancel _ hf
  simp only [e1, e2]
  refine loop_ind (P := fun r t => Conv (jd * (q * nf)) nrm DU (jd * (q * (nf * r))) t) (Nat.zero_le f) ?_
    (fun r t _ hr ht => ?_)
  · simp only [Nat.mul_zero]
    exact ⟨fun p _ => rfl, fun p hp => by omega⟩
  have := loop_ind (P := fun i t => Conv (jd * (q * nf)) nrm DU (jd * (q * (i + nf * r))) t)
    (f := fun i DU => loop 0 q (fun n DU => loop 0 jd (fun k DU =>
    wr DU (k + jd * n + jd * q * (i + nf * r))
      (DU (0 + 3 * (k + jd * n) + jd * 3 * q * (i + nf * r)) * nrm (3 * r) +
       DU (1 + 3 * (k + jd * n) + jd * 3 * q * (i + nf * r)) * nrm (3 * r + 1) +
       DU (2 + 3 * (k + jd * n) + jd * 3 * q * (i + nf * r)) * nrm (3 * r + 2))) DU) DU) (s := t) (Nat.zero_le nf)
    (by simpa using ht) (fun i t _ hi ht => by
      have := loop_ind (P := fun n t => Conv (jd * (q * nf)) nrm DU (jd * (n + q * (i + nf * r))) t)
        (f := fun n DU => loop 0 jd (fun k DU =>
          wr DU (k + jd * n + jd * q * (i + nf * r))
            (DU (0 + 3 * (k + jd * n) + jd * 3 * q * (i + nf * r)) * nrm (3 * r) +
             DU (1 + 3 * (k + jd * n) + jd * 3 * q * (i + nf * r)) * nrm (3 * r + 1) +
             DU (2 + 3 * (k + jd * n) + jd * 3 * q * (i + nf * r)) * nrm (3 * r + 2))) DU) (s := t) (Nat.zero_le q)
        (by simpa using ht) (fun n t _ hn ht => by
          have := loop_ind (P := fun k t => Conv (jd * (q * nf)) nrm DU (k + jd * (n + q * (i + nf * r))) t)
            (f := fun k DU => wr DU (k + jd * n + jd * q * (i + nf * r))
              (DU (0 + 3 * (k + jd * n) + jd * 3 * q * (i + nf * r)) * nrm (3 * r) +
               DU (1 + 3 * (k + jd * n) + jd * 3 * q * (i + nf * r)) * nrm (3 * r + 1) +
               DU (2 + 3 * (k + jd * n) + jd * 3 * q * (i + nf * r)) * nrm (3 * r + 2))) (s := t) (Nat.zero_le jd)
            (by simpa using ht) (fun k t _ hk ht => by
              have h1 : k + jd * n + jd * q * (i + nf * r) = k + jd * (n + q * (i + nf * r)) := by ring
              have h2 : ∀ c, c + 3 * (k + jd * n) + jd * 3 * q * (i + nf * r) =
                3 * (k + jd * (n + q * (i + nf * r))) + c := by intro c; ring
              have hdiv : (k + jd * (n + q * (i + nf * r))) / (jd * (q * nf)) = r := by
                have hlt := addr_lt (jd := jd) (q := q) (nf := nf) (f := 1) (r := 0) hk hn hi (by decide)
                unfold addr at hlt
                rw [Nat.mul_one, Nat.mul_zero, Nat.add_zero] at hlt
                have : k + jd * (n + q * (i + nf * r)) = (k + jd * (n + q * i)) + (jd * (q * nf)) * r := by ring
                rw [this, Nat.add_mul_div_left _ _ (by omega), Nat.div_eq_of_lt hlt, Nat.zero_add]
              rw [h1, h2, h2, h2]
              have := conv_step ht hdiv
              rw [Nat.add_right_comm] at this
              simpa using this)
          have e : jd + jd * (n + q * (i + nf * r)) = jd * (n + 1 + q * (i + nf * r)) := by ring
          rw [e] at this
          exact this)
      have e : jd * (q + q * (i + nf * r)) = jd * (q * (i + 1 + nf * r)) := by ring
      rw [e] at this
      exact this)
  have e : jd * (q * (nf + nf * r)) = jd * (q * (nf * (r + 1))) := by ring
  rw [e] at this
  exact this

/-- Reading after `processNormal`. -/
theorem processNormal_at {jd q nf f : Nat} (nrm DU : Nat → K) {k n i r : Nat} (hk : k < jd)
    (hn : n < q) (hi : i < nf) (hr : r < f) :
    processNormal (jd * 3 * q) (nf * f) q f nrm DU (addr jd q nf k n i r) =
      DU (addr (jd * 3) q nf (0 + 3 * k) n i r) * nrm (3 * r) +
      DU (addr (jd * 3) q nf (1 + 3 * k) n i r) * nrm (3 * r + 1) +
      DU (addr (jd * 3) q nf (2 + 3 * k) n i r) * nrm (3 * r + 2) := by
  have h := (processNormal_conv (jd := jd) (nf := nf) (show 0 < q by omega) (show 0 < f by omega) nrm DU).2 _
    (addr_lt hk hn hi hr)
  rw [h]
  have hdiv : addr jd q nf k n i r / (jd * (q * nf)) = r := by
    have hlt := addr_lt (jd := jd) (q := q) (nf := nf) (f := 1) (r := 0) hk hn hi (by decide)
    unfold addr at hlt ⊢
    rw [Nat.mul_one, Nat.mul_zero, Nat.add_zero] at hlt
    have : k + jd * (n + q * (i + nf * r)) = (k + jd * (n + q * i)) + (jd * (q * nf)) * r := by ring
    rw [this, Nat.add_mul_div_left _ _ (by omega), Nat.div_eq_of_lt hlt, Nat.zero_add]
  have h2 : ∀ c, 3 * addr jd q nf k n i r + c = addr (jd * 3) q nf (c + 3 * k) n i r := by
    intro c
    unfold addr
    ring
  rw [hdiv, ← h2, ← h2, ← h2]
  rfl

theorem within_at (off : Nat) (g : (Nat → K) → (Nat → K)) (m : Nat → K) (p : Nat) :
    within off g m (off + p) = g (fun p => m (off + p)) p := by
  unfold within
  rw [if_neg (by omega), Nat.add_sub_cancel_left]

theorem within_lt {off : Nat} (g : (Nat → K) → (Nat → K)) (m : Nat → K) {p : Nat} (h : p < off) :
    within off g m p = m p := by
  unfold within
  rw [if_pos h]

/-- the copy of the rows of one part -/
theorem partCopy_at {V : Band K} {dimB q ncol db sd : Nat} {DU D : Nat → K} {j n k : Nat} (hj : j < ncol) (hn : n < q)
    (hk : k < V.stRow (db + 1) - V.stRow db) :
    loop 0 ncol (fun j D => loop 0 q (fun n D => loop (V.stRow db) (V.stRow (db + 1)) (fun i D =>
      wr D (sd + ((i - V.stRow db + (V.stRow (db + 1) - V.stRow db) * n) + q * (V.stRow (db + 1) - V.stRow db) * j))
        (DU (i + dimB * (n + q * j)))) D) D) D
      (sd + ((k + (V.stRow (db + 1) - V.stRow db) * n) + q * (V.stRow (db + 1) - V.stRow db) * j)) =
    DU (V.stRow db + k + dimB * (n + q * j)) := by
  set L := V.stRow (db + 1) - V.stRow db with hL
  have inj : ∀ {j' n' i'}, V.stRow db ≤ i' → i' < V.stRow (db + 1) → n' < q →
      sd + ((k + L * n) + q * L * j) = sd + ((i' - V.stRow db + L * n') + q * L * j') →
      k = i' - V.stRow db ∧ n = n' ∧ j = j' := by
    intro j' n' i' h1 h2 h3 e
    have e' : k + L * (n + q * j) = (i' - V.stRow db) + L * (n' + q * j') := by
      have : ∀ x n j, x + L * (n + q * j) = (x + L * n) + q * L * j := by intro x n j; ring
      rw [this, this]
      omega
    obtain ⟨a1, a2⟩ := rad2 hk (by omega) e'
    obtain ⟨a3, a4⟩ := rad2 hn h3 a2
    exact ⟨a1, a3, a4⟩
  refine loop_at (fun _ => DU (V.stRow db + k + dimB * (n + q * j))) (Nat.zero_le _) hj (fun t => ?_)
    (fun j' t _ hj' hne => loop_off (fun n' t _ hn' => loop_off (fun i' t h1 h2 =>
      wr_ne _ _ (fun e => hne (inj h1 h2 hn' e).2.2.symm))))
  refine loop_at (fun _ => DU (V.stRow db + k + dimB * (n + q * j))) (Nat.zero_le _) hn (fun t => ?_)
    (fun n' t _ hn' hne => loop_off (fun i' t h1 h2 =>
      wr_ne _ _ (fun e => hne (inj h1 h2 hn' e).2.1.symm)))
  refine loop_at (i := V.stRow db + k) (fun _ => DU (V.stRow db + k + dimB * (n + q * j))) (by omega) (by omega)
    (fun t => ?_) (fun i' t h1 h2 hne => wr_ne _ _ (fun e => hne ?_))
  · rw [Nat.add_sub_cancel_left]
    exact wr_same _ _ _
  · have := (inj h1 h2 hn e).1
    omega

/-- the product with one part of the test operator -/
theorem partMul {V : Band K} {dimB nfA nfB q f db : Nat} (ok : V.Ok q dimB nfB) (hd : db < V.nparts) (DU : Nat → K)
    (s : PartState K) {r i j : Nat} (hr : r < f) (hi : i < nfA) (h1 : V.stCol db ≤ j) (h2 : j < V.stCol (db + 1)) :
    (partStep V dimB nfA q f DU db s).extra (s.stAr + ((j - V.stCol db) +
      (V.stCol (db + 1) - V.stCol db) * (i + nfA * r))) =
    ∑ n ∈ Finset.range q, ∑ k ∈ Finset.range dimB, V.val q k n j r * DU (addr dimB q nfA k n i r) := by
  unfold partStep
  dsimp only
  rw [within_at]
  have hb := Fused.atMulB_exact f (q * (V.stRow (db + 1) - V.stRow db)) (V.data db) (V.stCol (db + 1) - V.stCol db)
    (fun p => loop 0 (nfA * f) (fun j D => loop 0 q (fun n D => loop (V.stRow db) (V.stRow (db + 1)) (fun i D =>
      wr D (s.stDr + ((i - V.stRow db + (V.stRow (db + 1) - V.stRow db) * n) + q * (V.stRow (db + 1) - V.stRow db) * j))
        (DU (i + dimB * (n + q * j)))) D) D) s.diff (s.stDr + p)) nfA (fun p => s.extra (s.stAr + p)) r
    (j - V.stCol db) i hr (by omega) hi
  unfold Fused.blk at hb
  rw [← Fused.addr_eq] at hb
  rw [hb, Nat.mul_comm q, sum_range_rad]
  refine Finset.sum_congr rfl (fun n hn => ?_)
  have hn' := Finset.mem_range.mp hn
  have hs := sum_val ok (n := n) (r := r) hd h1 h2 (fun k => DU (addr dimB q nfA k n i r))
  have : ∑ k ∈ Finset.range dimB, V.val q k n j r * DU (addr dimB q nfA k n i r) =
    ∑ k ∈ Finset.range dimB, DU (addr dimB q nfA k n i r) * V.val q k n j r :=
    Finset.sum_congr rfl (fun k _ => mul_comm _ _)
  rw [this, hs, Finset.sum_Ico_eq_sum_range]
  refine Finset.sum_congr rfl (fun k hk => ?_)
  have hk' := Finset.mem_range.mp hk
  rw [mul_comm]
  congr 1
  · have := partCopy_at (V := V) (dimB := dimB) (q := q) (ncol := nfA * f) (db := db) (sd := s.stDr) (DU := DU) (D := s.diff)
      (rad_lt hi hr) hn' hk'
    have e : r * ((V.stRow (db + 1) - V.stRow db) * q * nfA) + i * ((V.stRow (db + 1) - V.stRow db) * q) +
      (k + (V.stRow (db + 1) - V.stRow db) * n) = k + (V.stRow (db + 1) - V.stRow db) * n +
        q * (V.stRow (db + 1) - V.stRow db) * (i + nfA * r) := by ring
    rw [e]
    simp only [Nat.mul_comm (V.stRow (db + 1) - V.stRow db) q]
    exact this
  · congr 1
    rw [Nat.add_sub_cancel_left]
    ring

theorem partStep_stAr (V : Band K) (dimB nfA q f : Nat) (DU : Nat → K) (db : Nat) (s : PartState K) :
    (partStep V dimB nfA q f DU db s).stAr = s.stAr + (V.stCol (db + 1) - V.stCol db) * nfA * f := rfl

theorem partStep_extra_lt (V : Band K) (dimB nfA q f : Nat) (DU : Nat → K) (db : Nat) (s : PartState K) {p : Nat}
    (h : p < s.stAr) : (partStep V dimB nfA q f DU db s).extra p = s.extra p := within_lt _ _ h

theorem loop_succ {S : Type} (n : Nat) (f : Nat → S → S) (s : S) : loop 0 (n + 1) f s = f n (loop 0 n f s) := by
  unfold loop
  rw [Nat.sub_zero, Nat.sub_zero, List.range'_concat, List.foldl_append]
  simp

theorem stAr_succ (V : Band K) (nfA f db : Nat) :
    stAr V nfA f (db + 1) = stAr V nfA f db + (V.stCol (db + 1) - V.stCol db) * nfA * f := by
  unfold stAr
  rw [loop_succ]

theorem stAr_mono (V : Band K) (nfA f : Nat) {a b : Nat} (h : a ≤ b) : stAr V nfA f a ≤ stAr V nfA f b := by
  induction b, h using Nat.le_induction with
  | base => exact Nat.le_refl _
  | succ b _ ih =>
    rw [stAr_succ]
    omega

/-- The product with the test operator. -/
theorem mulV_at {V : Band K} {dimB nfA nfB q f : Nat} (ok : V.Ok q dimB nfB) (DU DIFF extraR A : Nat → K) {r i j : Nat}
    (hr : r < f) (hi : i < nfA) (hj : j < nfB) :
    mulV V dimB nfA nfB q f DU DIFF extraR A (j + nfB * (i + nfA * r)) =
    ∑ n ∈ Finset.range q, ∑ k ∈ Finset.range dimB, V.val q k n j r * DU (addr dimB q nfA k n i r) := by
  unfold mulV
  obtain ⟨d, hd, h1, h2⟩ := part_of ok hj
  by_cases hp : V.nparts = 1
  · rw [if_pos hp]
    have hd0 : d = 0 := by omega
    subst hd0
    have hb := Fused.atMulB_exact f (q * dimB) (V.data 0) nfB DU nfA A r j i hr hj hi
    unfold Fused.blk at hb
    rw [← Fused.addr_eq] at hb
    rw [hb, Nat.mul_comm q, sum_range_rad]
    refine Finset.sum_congr rfl (fun n hn => Finset.sum_congr rfl (fun k hk => ?_))
    have hk' := Finset.mem_range.mp hk
    have r0 := ok.row0
    have rN := ok.rowN
    have c0 := ok.col0
    have cN := ok.colN
    rw [hp] at rN cN
    rw [val_eq ok hd h1 h2]
    change _ = (if V.stRow 0 ≤ k ∧ k < V.stRow 1 then V.data 0 ((k - V.stRow 0) + (V.stRow 1 - V.stRow 0) * n +
        q * (V.stRow 1 - V.stRow 0) * ((j - V.stCol 0) + (V.stCol 1 - V.stCol 0) * r)) else 0) * _
    rw [r0, rN, c0, cN, if_pos ⟨by omega, hk'⟩, Nat.sub_zero, Nat.sub_zero, Nat.sub_zero, Nat.sub_zero]
    congr 1
    · congr 1
      ring
    · unfold addr
      congr 1
      ring
  · rw [if_neg hp]
    have key := loop_ind (P := fun m (s : PartState K) => s.stAr = stAr V nfA f m ∧ ∀ d, d < m → ∀ r, r < f → ∀ i, i < nfA →
        ∀ j, V.stCol d ≤ j → j < V.stCol (d + 1) →
        s.extra (stAr V nfA f d + ((j - V.stCol d) + (V.stCol (d + 1) - V.stCol d) * (i + nfA * r))) =
        ∑ n ∈ Finset.range q, ∑ k ∈ Finset.range dimB, V.val q k n j r * DU (addr dimB q nfA k n i r))
      (f := partStep V dimB nfA q f DU) (s := ⟨0, 0, DIFF, extraR⟩) (Nat.zero_le V.nparts)
      ⟨rfl, fun d hd => by omega⟩
      (fun m s _ hm hs => by
        refine ⟨by rw [partStep_stAr, stAr_succ, hs.1], fun d hd r hr i hi j h1 h2 => ?_⟩
        by_cases he : d = m
        · subst he
          rw [← hs.1]
          exact partMul ok hm DU s hr hi h1 h2
        · rw [← hs.2 d (by omega) r hr i hi j h1 h2]
          refine partStep_extra_lt _ _ _ _ _ _ _ _ ?_
          have hm1 := stAr_mono V nfA f (show d + 1 ≤ m by omega)
          rw [stAr_succ] at hm1
          have hlt := rad_lt (A := V.stCol (d + 1) - V.stCol d) (B := nfA * f) (a := j - V.stCol d) (b := i + nfA * r)
            (by omega) (rad_lt hi hr)
          rw [← Nat.mul_assoc] at hlt
          rw [hs.1]
          omega)
    set s := loop 0 V.nparts (partStep V dimB nfA q f DU) ⟨0, 0, DIFF, extraR⟩ with hsdef
    clear_value s
    have hval := key.2 d hd r hr i hi j h1 h2
    have hlt : ∀ {d i}, d < V.nparts → i < V.stCol (d + 1) → i < nfB := by
      intro d i hd hi
      have := st_mono ok.colMono (show d + 1 ≤ V.nparts from hd) (Nat.le_refl _)
      rw [ok.colN] at this
      omega
    rw [← hval]
    let c := s.extra (stAr V nfA f d + ((j - V.stCol d) + (V.stCol (d + 1) - V.stCol d) * (i + nfA * r)))
    refine loop_at (fun _ => c) (Nat.zero_le _) (rad_lt hi hr) (fun t => ?_) (fun j' t _ hj' hne => ?_)
    · refine loop_at (fun _ => c) (Nat.zero_le _) hd (fun t => ?_) (fun d' t _ hd' hne => ?_)
      · refine loop_at (fun _ => c) h1 h2 (fun t => wr_same _ _ _) (fun i' t a1 a2 hne => wr_ne _ _ (fun e => hne ?_))
        exact (rad2 hj (hlt hd a2) e).1.symm
      · refine loop_off (fun i' t a1 a2 => wr_ne _ _ (fun e => hne ?_))
        have := (rad2 hj (hlt hd' a2) e).1
        subst this
        exact part_unique ok.colMono hd' hd a1 a2 h1 h2
    · refine loop_off (fun d' t _ hd' => loop_off (fun i' t a1 a2 => wr_ne _ _ (fun e => hne ?_)))
      exact (rad2 hj (hlt hd' a2) e).2.symm

end Verif.Elemental
