import Verif.Model.Dirichlet
import Verif.Spec.Dirichlet
import Verif.Lemmas.Loops

/-!
Entries of the matrices and vectors after each part of `applyVectorDir`.
-/
set_option linter.unusedSectionVars false

namespace Verif.Dirichlet

open Verif.Dense

variable {K : Type} [Field K]

/-- a pair of loops writing to distinct entries, at a written entry -/
theorem loop2_at {m d : Nat} (g : Nat → Nat → Nat) (v : Nat → Nat → (Nat → K) → K) (w : Nat → Nat → K → K) {s : Nat → K}
    (hv : ∀ j i t, j < m → i < d → v j i t = w j i (t (g j i)))
    (hg : ∀ j, j < m → ∀ i, i < d → ∀ j', j' < m → ∀ i', i' < d → g j i = g j' i' → j = j' ∧ i = i') {j i : Nat}
    (hj : j < m) (hi : i < d) :
    loop 0 m (fun j t => loop 0 d (fun i t => wr t (g j i) (v j i t)) t) s (g j i) = w j i (s (g j i)) := by
  refine loop_at (w j i) (Nat.zero_le _) hj (fun t => ?_) (fun j' t _ hj' hne => ?_)
  · exact loop_wr_at (g j) (v j) (w j) (fun i' t' hi' => hv j i' t' hj hi')
      (fun a ha b hb e => (hg j hj a ha j hj b hb e).2) hi
  · exact loop_wr_off (g j') (v j') (fun a ha e => hne (hg j' hj' a ha j hj i hi e).1)

theorem loop2_off {m d : Nat} (g : Nat → Nat → Nat) (v : Nat → Nat → (Nat → K) → K) {s : Nat → K} {p : Nat}
    (h : ∀ j, j < m → ∀ i, i < d → g j i ≠ p) :
    loop 0 m (fun j t => loop 0 d (fun i t => wr t (g j i) (v j i t)) t) s p = s p :=
  loop_off (fun j _ _ hj => loop_wr_off (g j) (v j) (h j hj))

/-- sums over columns of a function which vanishes off the d.o.f.s -/
theorem sum_dof (d m : Nat) (dof : Nat → Nat) (hp : Places d m dof) (f : Nat → K)
    (hf : ∀ j, j < m → ¬ IsDof d dof j → f j = 0) :
    ∑ j ∈ Finset.range m, f j = ∑ q ∈ Finset.range d, f (dof q) := by
  rw [← Finset.sum_image (s := Finset.range d) (g := dof) (f := f)
    (fun a ha b hb e => hp.2 a (Finset.mem_range.1 ha) b (Finset.mem_range.1 hb) e)]
  symm
  refine Finset.sum_subset ?_ ?_
  · intro j hj
    obtain ⟨q, hq, rfl⟩ := Finset.mem_image.1 hj
    exact Finset.mem_range.2 (hp.1 q (Finset.mem_range.1 hq))
  · intro j hj hn
    refine hf j (Finset.mem_range.1 hj) ?_
    rintro ⟨q, hq, rfl⟩
    exact hn (Finset.mem_image.2 ⟨q, Finset.mem_range.2 hq, rfl⟩)

/-! ### Rotation of the equations -/

/-- The rows of the matrix after `performMatrixReorthogonalization`. -/
theorem reorthMat_eq {n m d size : Nat} {dof : Nat → Nat} {V : Nat → K} {s t : (Nat → K) × (Nat → K)}
    (hp : Places d n dof) (h : reorthMat n m d size dof V s = some t) :
    (∀ q, q < d → ∀ j, j < m → ent n t.2 (dof q) j = ∑ p ∈ Finset.range d, ent d V q p * ent n s.2 (dof p) j) ∧
    (∀ i, i < n → ¬ IsDof d dof i → ∀ j, j < m → ent n t.2 i j = ent n s.2 i j) := by
  unfold reorthMat at h
  split at h
  · exact absurd h (by simp)
  · rw [Option.some.injEq] at h
    subst h
    constructor
    · intro q hq j hj
      show loop 0 m (fun j A => loop 0 d (fun q A => wr A (dof q + j * n) _) A) s.2 (dof q + j * n) = _
      rw [loop2_at (fun j q => dof q + j * n) _
        (fun j q _ => ∑ p ∈ Finset.range d, ent d V q p * ent n s.2 (dof p) j) ?_ ?_ hj hq]
      · intro j q t hj hq
        rw [loop_sum, zero_add]
        refine Finset.sum_congr rfl (fun p hp' => ?_)
        have hp'' := Finset.mem_range.1 hp'
        rw [mul_comm]
        congr 1
        exact loop2_at (fun j i => i + j * d) (fun j i _ => s.2 (dof i + j * n)) (fun j i _ => s.2 (dof i + j * n))
          (fun _ _ _ _ _ => rfl) (fun a _ b hb a' _ b' hb' e => ((pos_inj hb hb' e).symm)) hj hp''
      · intro a ha b hb a' ha' b' hb' e
        have := pos_inj (hp.1 b hb) (hp.1 b' hb') e
        exact ⟨this.2, hp.2 b hb b' hb' this.1⟩
    · intro i hi hnd j hj
      refine loop2_off (fun j q => dof q + j * n) _ ?_
      intro a ha b hb e
      exact hnd ⟨b, hb, (pos_inj (hp.1 b hb) hi e).1⟩

/-- The right-hand side after `performRhsReorthogonalization`. -/
theorem reorthRhs_eq {n d size : Nat} {dof : Nat → Nat} {V : Nat → K} {s t : (Nat → K) × (Nat → K)}
    (hp : Places d n dof) (h : reorthRhs d size dof V s = some t) :
    (∀ q, q < d → t.2 (dof q) = ∑ p ∈ Finset.range d, ent d V q p * s.2 (dof p)) ∧
    (∀ i, ¬ IsDof d dof i → t.2 i = s.2 i) := by
  unfold reorthRhs at h
  split at h
  · exact absurd h (by simp)
  · rw [Option.some.injEq] at h
    subst h
    constructor
    · intro q hq
      refine loop_at (fun _ => ∑ p ∈ Finset.range d, ent d V q p * s.2 (dof p)) (i := q) (Nat.zero_le _) hq
        (fun t => ?_) (fun q' t _ hq' hne => ?_)
      · show loop 0 d (fun p F => wr F (dof q) _) (wr t (dof q) 0) (dof q) = _
        rw [loop_add_at d (fun p => ent d V q p * s.2 (dof p)), wr_same, zero_add]
        intro p t' hp'
        rw [wr_same]
        congr 1
        rw [mul_comm]
        congr 1
        exact loop_wr_at (fun q => q) (fun q _ => s.2 (dof q)) (fun q _ => s.2 (dof q)) (fun _ _ _ => rfl)
          (fun _ _ _ _ e => e) hp'
      · have hne' : dof q ≠ dof q' := fun e => hne (hp.2 q hq q' hq' e).symm
        show loop 0 d (fun p F => wr F (dof q') _) (wr t (dof q') 0) (dof q) = _
        rw [loop_wr_off (fun _ => dof q') _ (fun _ _ e => hne' e.symm), wr_ne _ _ hne']
    · intro i hi
      refine loop_off (fun q t _ hq => ?_)
      have hne : i ≠ dof q := fun e => hi ⟨q, hq, e.symm⟩
      show loop 0 d (fun p F => wr F (dof q) _) (wr t (dof q) 0) i = _
      rw [loop_wr_off (fun _ => dof q) _ (fun _ _ e => hne e.symm), wr_ne _ _ hne]

/-! ### The matrix -/

/-- One direction: entries of the matrix. -/
theorem setMtxStep_eq {n m d : Nat} {dof : Nat → Nat} {V : Nat → K} {v : Nat} (s : (Nat → K) × (Nat → K))
    (hn : Places d n dof) (hv : v < d) :
    (∀ q, q < d → ent n (setMtxStep n m d dof V v s).2 (dof v) (dof q) = ent d V v q) ∧
    (∀ j, j < m → ¬ IsDof d dof j → ent n (setMtxStep n m d dof V v s).2 (dof v) j = 0) ∧
    (∀ i, i < n → i ≠ dof v → ∀ q, q < d → ent n (setMtxStep n m d dof V v s).2 i (dof q) =
      ent n s.2 i (dof q) - (∑ p ∈ Finset.range d, ent n s.2 i (dof p) * ent d V v p) * ent d V v q) ∧
    (∀ i, i < n → i ≠ dof v → ∀ j, j < m → ¬ IsDof d dof j → ent n (setMtxStep n m d dof V v s).2 i j = ent n s.2 i j) := by
  have hdv := hn.1 v hv
  refine ⟨fun q hq => ?_, fun j hj hnd => ?_, fun i hi hne q hq => ?_, fun i hi hne j hj hnd => ?_⟩
  · exact loop_wr_at (fun q => dof v + dof q * n) (fun q _ => V (v + q * d)) (fun q _ => V (v + q * d))
      (fun _ _ _ => rfl) (fun a ha b hb e => hn.2 a ha b hb (pos_inj hdv hdv e).2) hq
  · show loop 0 d (fun q A => wr A (dof v + dof q * n) (V (v + q * d))) _ (dof v + j * n) = 0
    rw [loop_wr_off (fun q => dof v + dof q * n) (fun q _ => V (v + q * d))
      (fun a ha e => hnd ⟨a, ha, (pos_inj hdv hdv e).2⟩)]
    exact loop_wr_at (fun j => dof v + j * n) (fun _ _ => 0) (fun _ _ => 0) (fun _ _ _ => rfl)
      (fun a _ b _ e => (pos_inj hdv hdv e).2) hj
  · show loop 0 d (fun q A => wr A (dof v + dof q * n) (V (v + q * d))) _ (i + dof q * n) = _
    rw [loop_wr_off (fun q => dof v + dof q * n) (fun q _ => V (v + q * d))
      (fun a _ e => hne (pos_inj hi hdv e.symm).1),
      loop_wr_off (fun j => dof v + j * n) (fun _ _ => 0) (fun a _ e => hne (pos_inj hi hdv e.symm).1),
      loop2_at (fun l j => j + dof l * n) _ (fun l j x => x -
        (∑ p ∈ Finset.range d, ent n s.2 j (dof p) * ent d V v p) * ent d V v l) ?_ ?_ hq hi]
    · rfl
    · intro l j t hl hj
      congr 1
      refine congrArg (· * ent d V v l) ?_
      rw [loop_wr_at (fun j => j + 1 * n) _ (fun j _ => ∑ p ∈ Finset.range d, ent n s.2 j (dof p) * ent d V v p)
        (fun i t _ => ?_) (fun _ _ _ _ e => by simpa using e) hj]
      rw [loop_sum, zero_add]
      rfl
    · intro a ha b hb a' ha' b' hb' e
      have := pos_inj hb hb' e
      exact ⟨hn.2 a ha a' ha' this.2, this.1⟩
  · show loop 0 d (fun q A => wr A (dof v + dof q * n) (V (v + q * d))) _ (i + j * n) = _
    rw [loop_wr_off (fun q => dof v + dof q * n) (fun q _ => V (v + q * d))
      (fun a _ e => hne (pos_inj hi hdv e.symm).1),
      loop_wr_off (fun j => dof v + j * n) (fun _ _ => 0) (fun a _ e => hne (pos_inj hi hdv e.symm).1),
      loop2_off (fun l j => j + dof l * n) _ (fun a ha b hb e => hnd ⟨a, ha, (pos_inj hb hi e).2⟩)]
    rfl

/-- Coefficient of row `i` along the row `v` of `V`. -/
def coef (n d : Nat) (dof : Nat → Nat) (V A : Nat → K) (i v : Nat) : K :=
  ∑ p ∈ Finset.range d, ent n A i (dof p) * ent d V v p

/-- All directions: entries of the matrix. -/
theorem setMtx_eq {n m d size : Nat} {dof : Nat → Nat} {V : Nat → K} {ndc : Nat} {id : Nat → Nat}
    {s t : (Nat → K) × (Nat → K)} (hV : Orthonormal d V) (hn : Places d n dof)
    (hid : Places ndc d id) (h : setMtx n m d size dof V ndc id s = some t) :
    (∀ k, k < ndc → ∀ q, q < d → ent n t.2 (dof (id k)) (dof q) = ent d V (id k) q) ∧
    (∀ k, k < ndc → ∀ j, j < m → ¬ IsDof d dof j → ent n t.2 (dof (id k)) j = 0) ∧
    (∀ i, i < n → (∀ k, k < ndc → i ≠ dof (id k)) → ∀ q, q < d → ent n t.2 i (dof q) = ent n s.2 i (dof q) -
      ∑ k ∈ Finset.range ndc, coef n d dof V s.2 i (id k) * ent d V (id k) q) ∧
    (∀ i, i < n → (∀ k, k < ndc → i ≠ dof (id k)) → ∀ j, j < m → ¬ IsDof d dof j → ent n t.2 i j = ent n s.2 i j) := by
  unfold setMtx at h
  split at h
  · exact absurd h (by simp)
  rw [Option.some.injEq] at h
  subst h
  refine loop_ind (P := fun c (t : (Nat → K) × (Nat → K)) =>
    (∀ k, k < c → ∀ q, q < d → ent n t.2 (dof (id k)) (dof q) = ent d V (id k) q) ∧
    (∀ k, k < c → ∀ j, j < m → ¬ IsDof d dof j → ent n t.2 (dof (id k)) j = 0) ∧
    (∀ i, i < n → (∀ k, k < c → i ≠ dof (id k)) → ∀ q, q < d → ent n t.2 i (dof q) = ent n s.2 i (dof q) -
      ∑ k ∈ Finset.range c, coef n d dof V s.2 i (id k) * ent d V (id k) q) ∧
    (∀ i, i < n → (∀ k, k < c → i ≠ dof (id k)) → ∀ j, j < m → ¬ IsDof d dof j → ent n t.2 i j = ent n s.2 i j))
    (Nat.zero_le ndc) ?_ ?_
  · refine ⟨fun k hk => absurd hk (by omega), fun k hk => absurd hk (by omega), fun i _ _ q _ => ?_,
      fun i _ _ j _ _ => rfl⟩
    rw [Finset.sum_range_zero, sub_zero]
  · intro c t _ hc ⟨i1, i2, i3, i4⟩
    obtain ⟨s1, s2, s3, s4⟩ := setMtxStep_eq (m := m) (V := V) t hn (hid.1 c hc)
    have hidn : ∀ k, k < ndc → dof (id k) < n := fun k hk => hn.1 _ (hid.1 k hk)
    have hne : ∀ k, k < c → dof (id k) ≠ dof (id c) := by
      intro k hk e
      have := hid.2 k (by omega) c hc (hn.2 _ (hid.1 k (by omega)) _ (hid.1 c hc) e)
      omega
    have hVne : ∀ k, k < c → ∑ p ∈ Finset.range d, ent d V (id k) p * ent d V (id c) p = 0 := by
      intro k hk
      rw [hV _ (hid.1 k (by omega)) _ (hid.1 c hc), if_neg]
      intro e
      have := hid.2 k (by omega) c hc e
      omega
    refine ⟨fun k hk q hq => ?_, fun k hk j hj hnd => ?_, fun i hi hno q hq => ?_, fun i hi hno j hj hnd => ?_⟩
    · by_cases hkc : k = c
      · rw [hkc]; exact s1 q hq
      · have hk' : k < c := by omega
        rw [s3 _ (hidn k (by omega)) (hne k hk') q hq, i1 k hk' q hq]
        rw [Finset.sum_congr rfl (fun p hp => by rw [i1 k hk' p (Finset.mem_range.1 hp)]), hVne k hk', zero_mul,
          sub_zero]
    · by_cases hkc : k = c
      · rw [hkc]; exact s2 j hj hnd
      · have hk' : k < c := by omega
        rw [s4 _ (hidn k (by omega)) (hne k hk') j hj hnd, i2 k hk' j hj hnd]
    · have hno' : ∀ k, k < c → i ≠ dof (id k) := fun k hk => hno k (by omega)
      rw [s3 i hi (hno c (by omega)) q hq, i3 i hi hno' q hq, Finset.sum_range_succ, ← sub_sub]
      congr 1
      rw [mul_eq_mul_right_iff]
      left
      rw [Finset.sum_congr rfl (fun p hp => by rw [i3 i hi hno' p (Finset.mem_range.1 hp), sub_mul]),
        Finset.sum_sub_distrib]
      unfold coef
      rw [sub_eq_self]
      rw [Finset.sum_congr rfl (fun p _ => by rw [Finset.sum_mul]), Finset.sum_comm]
      refine Finset.sum_eq_zero (fun k hk => ?_)
      rw [Finset.sum_congr rfl (fun p _ => by rw [mul_assoc]), ← Finset.mul_sum, hVne k (Finset.mem_range.1 hk), mul_zero]
    · rw [s4 i hi (hno c (by omega)) j hj hnd, i4 i hi (fun k hk => hno k (by omega)) j hj hnd]

/-! ### The right-hand side -/

theorem setRhs_step {n d : Nat} {A : Nat → K} {dof : Nat → Nat} {V : Nat → K} {v : Nat} {b : K} {F : Nat → K} {i : Nat}
    (hi : i < n) :
    loop 0 d (fun q F => loop 0 n (fun j F => wr F j (F j - A (j + dof q * n) * V (v + q * d) * b)) F) F i =
      F i - coef n d dof V A i v * b := by
  rw [loop_sub_at d (fun q => A (i + dof q * n) * V (v + q * d) * b)]
  · unfold coef
    rw [Finset.sum_mul]
    rfl
  · intro q t _
    exact loop_wr_at (fun j => j) (fun j F => F j - A (j + dof q * n) * V (v + q * d) * b)
      (fun j x => x - A (j + dof q * n) * V (v + q * d) * b) (fun _ _ _ => rfl) (fun _ _ _ _ e => e) hi

/-- The right-hand side after `setVectorDirRhs`; the value of a direction is spoilt by the later directions. -/
theorem setRhs_eq {n d : Nat} {A : Nat → K} {dof : Nat → Nat} {V bc : Nat → K} {ndc : Nat} {id : Nat → Nat}
    {F : Nat → K} (hn : Places d n dof) (hid : Places ndc d id) :
    (∀ k, k < ndc → setRhs n d A dof V bc ndc id F (dof (id k)) =
      bc k - ∑ l ∈ Finset.Ico (k + 1) ndc, coef n d dof V A (dof (id k)) (id l) * bc l) ∧
    (∀ i, i < n → (∀ k, k < ndc → i ≠ dof (id k)) → setRhs n d A dof V bc ndc id F i =
      F i - ∑ k ∈ Finset.range ndc, coef n d dof V A i (id k) * bc k) := by
  unfold setRhs
  refine loop_ind (P := fun c (t : Nat → K) =>
    (∀ k, k < c → t (dof (id k)) = bc k - ∑ l ∈ Finset.Ico (k + 1) c, coef n d dof V A (dof (id k)) (id l) * bc l) ∧
    (∀ i, i < n → (∀ k, k < c → i ≠ dof (id k)) → t i =
      F i - ∑ k ∈ Finset.range c, coef n d dof V A i (id k) * bc k)) (Nat.zero_le ndc) ?_ ?_
  · refine ⟨fun k hk => absurd hk (by omega), fun i _ _ => ?_⟩
    rw [Finset.sum_range_zero, sub_zero]
  · intro c t _ hc ⟨i1, i2⟩
    refine ⟨fun k hk => ?_, fun i hi hno => ?_⟩
    · by_cases hkc : k = c
      · rw [hkc, Finset.Ico_self, Finset.sum_empty, sub_zero]
        exact wr_same _ _ _
      · have hne : dof (id k) ≠ dof (id c) := by
          intro e
          exact hkc (hid.2 k (by omega) c hc (hn.2 _ (hid.1 k (by omega)) _ (hid.1 c hc) e))
        show wr _ (dof (id c)) (bc c) (dof (id k)) = _
        rw [wr_ne _ _ hne, setRhs_step (hn.1 _ (hid.1 k (by omega))), i1 k (by omega),
          Finset.sum_Ico_succ_top (by omega), sub_sub]
    · show wr _ (dof (id c)) (bc c) i = _
      rw [wr_ne _ _ (hno c (by omega)), setRhs_step hi, i2 i hi (fun k hk => hno k (by omega)), Finset.sum_range_succ,
        sub_sub]

/-- The right-hand side after `setVectorDirResidual`. -/
theorem setResidual_eq {dof : Nat → Nat} {ndc : Nat} {id : Nat → Nat} {F : Nat → K} :
    (∀ k, k < ndc → setResidual dof ndc id F (dof (id k)) = 0) ∧
    (∀ i, (∀ k, k < ndc → i ≠ dof (id k)) → setResidual dof ndc id F i = F i) := by
  unfold setResidual
  constructor
  · intro k hk
    have := loop_ind (P := fun c (t : Nat → K) => k < c → t (dof (id k)) = 0) (f := fun k F => wr F (dof (id k)) 0)
      (s := F) (Nat.zero_le ndc) (fun h => absurd h (by omega)) (fun c t _ hc ih hk => by
        show wr t (dof (id c)) 0 (dof (id k)) = 0
        rw [wr_apply]
        split
        · rfl
        · rename_i hne
          refine ih ?_
          by_contra hge
          exact hne (by rw [show k = c by omega]))
    exact this hk
  · intro i hi
    exact loop_wr_off (fun k => dof (id k)) (fun _ _ => 0) (fun k hk e => hi k hk e.symm)

end Verif.Dirichlet
