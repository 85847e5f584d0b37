import Verif.Props.Elemental3

/-!
C45: the evaluation of an operator on given degrees of freedom.
-/
set_option linter.unusedSectionVars false
set_option linter.unusedVariables false
namespace Verif.Elemental

open Verif.Dense

variable {K : Type} [CommRing K]

/-- The value of component `k` of the operator at point `n` of tetrahedron `r` for the finite element function with the given
degrees of freedom. -/
def applied (U : Band K) (q nf : Nat) (dofs : Nat → K) (k n r : Nat) : K :=
  ∑ i ∈ Finset.range nf, U.val q k n i r * dofs (i + nf * r)

/-- the value through the part of the row -/
theorem val_row {U : Band K} {q dim nf : Nat} (ok : U.Ok q dim nf) {d l n i r : Nat} (hd : d < U.nparts)
    (h1 : U.stRow d ≤ l) (h2 : l < U.stRow (d + 1)) :
    U.val q l n i r = if U.stCol d ≤ i ∧ i < U.stCol (d + 1) then
      U.data d ((l - U.stRow d) + (U.stRow (d + 1) - U.stRow d) * n +
        q * (U.stRow (d + 1) - U.stRow d) * ((i - U.stCol d) + (U.stCol (d + 1) - U.stCol d) * r)) else 0 := by
  unfold Band.val
  rw [Finset.sum_eq_single d]
  · by_cases h : U.stCol d ≤ i ∧ i < U.stCol (d + 1)
    · rw [if_pos h, if_pos ⟨⟨h1, h2⟩, h⟩]
    · rw [if_neg h, if_neg (fun c => h c.2)]
  · intro d' hd' hne
    rw [if_neg]
    rintro ⟨⟨h3, h4⟩, _⟩
    exact hne (part_unique ok.rowMono (Finset.mem_range.mp hd') hd h3 h4 h1 h2)
  · intro h
    exact absurd (Finset.mem_range.mpr hd) h

theorem applied_row {U : Band K} {q dim nf : Nat} (ok : U.Ok q dim nf) {d l n r : Nat} (hd : d < U.nparts)
    (h1 : U.stRow d ≤ l) (h2 : l < U.stRow (d + 1)) (dofs : Nat → K) :
    applied U q nf dofs l n r = ∑ i ∈ Finset.range (U.stCol (d + 1) - U.stCol d),
      U.data d ((l - U.stRow d) + (U.stRow (d + 1) - U.stRow d) * n +
        q * (U.stRow (d + 1) - U.stRow d) * (i + (U.stCol (d + 1) - U.stCol d) * r)) * dofs (U.stCol d + i + nf * r) := by
  have hsub : Finset.Ico (U.stCol d) (U.stCol (d + 1)) ⊆ Finset.range nf := by
    intro i hi
    rw [Finset.mem_Ico] at hi
    have := st_mono ok.colMono (show d + 1 ≤ U.nparts from hd) (Nat.le_refl _)
    rw [ok.colN] at this
    exact Finset.mem_range.mpr (by omega)
  unfold applied
  rw [← Finset.sum_subset hsub, Finset.sum_Ico_eq_sum_range]
  · refine Finset.sum_congr rfl (fun i hi => ?_)
    have hi' := Finset.mem_range.mp hi
    rw [val_row ok hd h1 h2, if_pos ⟨Nat.le_add_right _ _, by omega⟩, Nat.add_sub_cancel_left]
  · intro i _ hi
    rw [val_row ok hd h1 h2, if_neg (fun h => hi (Finset.mem_Ico.mpr h)), zero_mul]

/-- Memory behind the result of `fusive_A_mul_B` with one block is not touched. -/
theorem aMulB_frame (aCol : Nat) (A : Nat → K) (aRow : Nat) (B R : Nat → K) {p : Nat}
    (hp : aRow ≤ p) : Fused.aMulB 1 aCol A aRow B 1 R p = R p := by
  unfold Fused.aMulB
  rw [loop_off (fun r t _ hr => loop_off (fun l t _ hl => loop_off (fun i t _ hi => loop_off (fun j t _ hj =>
    wr_ne _ _ (by
      have : r = 0 := by omega
      have : j = 0 := by omega
      subst r j
      omega)))))]
  exact loop_off (fun i t _ hi => wr_ne _ _ (by omega))

theorem aMulB_one (aCol : Nat) (A : Nat → K) (aRow : Nat) (B R : Nat → K) {i : Nat} (hi : i < aRow) :
    Fused.aMulB 1 aCol A aRow B 1 R i = ∑ l ∈ Finset.range aCol, A (i + aRow * l) * B l := by
  have := Fused.aMulB_general 1 aCol A aRow B 1 R 0 i 0 (by decide) hi (by decide)
  unfold Fused.blk at this
  simp only [Nat.zero_mul, if_pos, zero_add] at this
  rw [this]
  refine Finset.sum_congr rfl (fun l _ => ?_)
  rw [Nat.mul_comm l aRow, Nat.add_comm]

/-- The products of all parts with the degrees of freedom of one tetrahedron. -/
theorem parts_at {U : Band K} {q dim nf : Nat} (ok : U.Ok q dim nf) (dofs T : Nat → K) {d i : Nat} (hd : d < U.nparts)
    (hi : i < q * (U.stRow (d + 1) - U.stRow d)) :
    loop 0 U.nparts (fun db T => loop 0 1 (fun r T =>
      within (r * dim * q + U.stRow db * q)
        (Fused.aMulB 1 ((U.stCol (db + 1) - U.stCol db) / 1)
          (fun p => U.data db (q * (U.stRow (db + 1) - U.stRow db) * ((U.stCol (db + 1) - U.stCol db) / 1) * r + p))
          (q * (U.stRow (db + 1) - U.stRow db))
          (fun p => dofs (r * nf + U.stCol db + p)) 1) T) T) T (U.stRow d * q + i) =
      ∑ l ∈ Finset.range (U.stCol (d + 1) - U.stCol d), U.data d (i + q * (U.stRow (d + 1) - U.stRow d) * l) *
        dofs (U.stCol d + l) := by
  have hend : ∀ e, e < U.nparts → U.stRow e * q + q * (U.stRow (e + 1) - U.stRow e) = U.stRow (e + 1) * q := by
    intro e he
    have := ok.rowMono e he
    rw [Nat.mul_comm q, ← Nat.add_mul, Nat.add_sub_cancel' this]
  refine loop_at (fun _ => _) (Nat.zero_le _) hd (fun t => ?_) (fun e t _ he hne => ?_)
  · show within (0 * dim * q + U.stRow d * q) _ t (U.stRow d * q + i) = _
    rw [show 0 * dim * q + U.stRow d * q = U.stRow d * q by simp, within_at, aMulB_one _ _ _ _ _ hi, Nat.div_one]
    simp only [Nat.mul_zero, Nat.zero_add, Nat.zero_mul]
  · show within (0 * dim * q + U.stRow e * q) _ t (U.stRow d * q + i) = _
    rw [show 0 * dim * q + U.stRow e * q = U.stRow e * q by simp]
    rcases Nat.lt_or_gt_of_ne hne with h | h
    · have h1 := Nat.mul_le_mul_right q (st_mono ok.rowMono (show e + 1 ≤ d from h) (by omega))
      have h2 := hend e he
      obtain ⟨p, hp⟩ := Nat.exists_eq_add_of_le (show U.stRow e * q ≤ U.stRow d * q + i by omega)
      rw [hp, within_at]
      refine aMulB_frame _ _ _ _ _ ?_
      omega
    · refine within_lt _ _ ?_
      have h1 := Nat.mul_le_mul_right q (st_mono ok.rowMono (show d + 1 ≤ e from h) (by omega))
      have h2 := hend d hd
      omega

/-- **C45** for one tetrahedron: `internalFem3DApply` leaves in `opU` the values of the operator for the function with the
given degrees of freedom, for operators with one part or several, whatever all memory held.

Missing: several tetrahedrons at once, where the property fails (`fem3DApply_wrong`, `fem3DApply_parts_wrong`). -/
theorem fem3DApply_partial (U : Band K) (dim nf q : Nat) (ok : U.Ok q dim nf) (hnf : 0 < nf) (dofs extraR opU : Nat → K)
    (k n : Nat) (hk : k < dim) (hn : n < q) :
    fem3DApply U dim nf q 1 dofs extraR opU (k + dim * n) = applied U q nf dofs k n 0 := by
  unfold fem3DApply
  by_cases h1 : U.nparts = 1
  · rw [if_pos h1]
    have hr1 := ok.rowN
    have hc1 := ok.colN
    rw [h1] at hr1 hc1
    have hr1' : U.stRow (0 + 1) = dim := hr1
    have hc1' : U.stCol (0 + 1) = nf := hc1
    have hlt : k + dim * n < dim * q := rad_lt hk hn
    rw [aMulB_one _ _ _ _ _ hlt, applied_row ok (d := 0) (by omega) (by rw [ok.row0]; omega) (by rw [hr1']; exact hk)]
    rw [hr1', hc1', ok.row0, ok.col0]
    refine Finset.sum_congr rfl (fun i _ => ?_)
    simp only [Nat.sub_zero, Nat.mul_zero, Nat.add_zero, Nat.zero_add]
    rw [Nat.mul_comm q dim]
  · rw [if_neg h1]
    obtain ⟨d, hd, hd1, hd2⟩ := part_exists (st := U.stRow) (N := U.nparts) (i := k) ok.row0 (by rw [ok.rowN]; exact hk)
    have hrow : (k - U.stRow d) + (U.stRow (d + 1) - U.stRow d) * n < q * (U.stRow (d + 1) - U.stRow d) := by
      rw [Nat.mul_comm q]
      exact rad_lt (by omega) hn
    have hval : ∀ T, loop 0 U.nparts (fun db T => loop 0 1 (fun r T =>
      within (r * dim * q + U.stRow db * q)
        (Fused.aMulB 1 ((U.stCol (db + 1) - U.stCol db) / 1)
          (fun p => U.data db (q * (U.stRow (db + 1) - U.stRow db) * ((U.stCol (db + 1) - U.stCol db) / 1) * r + p))
          (q * (U.stRow (db + 1) - U.stRow db))
          (fun p => dofs (r * nf + U.stCol db + p)) 1) T) T) T
          (U.stRow d * q + ((k - U.stRow d) + (U.stRow (d + 1) - U.stRow d) * n)) = applied U q nf dofs k n 0 := by
      intro T
      rw [parts_at ok dofs T hd hrow, applied_row ok hd hd1 hd2]
      refine Finset.sum_congr rfl (fun i _ => ?_)
      simp only [Nat.mul_zero, Nat.add_zero]
    dsimp only
    split
    · rename_i hq
      rw [if_neg (by omega)]
      refine Eq.trans ?_ (hval extraR)
      set tmp := loop 0 U.nparts _ extraR with htmp
      clear_value tmp
      have inj : ∀ {n' e k'}, e < U.nparts → k' < U.stRow (e + 1) - U.stRow e →
          k + dim * n = dim * n' + U.stRow e + k' → n = n' ∧ k = U.stRow e + k' := by
        intro n' e k' he hk' heq
        have := st_mono ok.rowMono (show e + 1 ≤ U.nparts from he) (Nat.le_refl _)
        rw [ok.rowN] at this
        have := rad2 (A := dim) (a := k) (a' := U.stRow e + k') (b := n) (b' := n') hk (by omega) (by omega)
        exact ⟨this.2, this.1⟩
      refine loop_at (fun _ => _) (Nat.zero_le _) hn (fun t => ?_) (fun n' t _ hn' hne => ?_)
      · refine loop_at (fun _ => _) (Nat.zero_le _) hd (fun t => ?_) (fun e t _ he hne => ?_)
        · refine loop_at (fun _ => _) (Nat.zero_le _) (show k - U.stRow d < U.stRow (d + 1) - U.stRow d by omega)
            (fun t => ?_) (fun k' t _ hk' hne => ?_)
          · rw [show k + dim * n = dim * n + U.stRow d + (k - U.stRow d) by omega, wr_same]
            congr 1
            omega
          · exact wr_ne _ _ (fun e => hne (by have := (inj hd hk' e).2; omega))
        · refine loop_off (fun k' t _ hk' => wr_ne _ _ (fun eq => hne ?_))
          have := (inj he hk' eq).2
          exact part_unique ok.rowMono he hd (i := k) (by omega) (by omega) hd1 hd2
      · refine loop_off (fun e t _ he => loop_off (fun k' t _ hk' => wr_ne _ _ (fun eq => hne (inj he hk' eq).1.symm)))
    · rename_i hq
      have hq1 : q = 1 := by omega
      have hn0 : n = 0 := by omega
      have := hval (if q ≤ 1 then opU else extraR)
      have e : k + dim * n = U.stRow d * q + ((k - U.stRow d) + (U.stRow (d + 1) - U.stRow d) * n) := by
        rw [hq1, hn0]
        omega
      rw [e]
      exact this

/-- Two parts, two points (the temporary memory is used), dirty memory. -/
def demoQ : Band ℤ where
  nparts := 2
  data d p := if d = 0 then (p : ℤ) + 1 else 10 * ((p : ℤ) + 1)
  nRow _ := 2
  stRow d := d
  stCol d := 2 * d

theorem demoQ_ok : demoQ.Ok 2 2 4 where
  row0 := rfl
  rowN := rfl
  rowMono d _ := Nat.le_succ d
  col0 := rfl
  colN := rfl
  colMono d _ := by
    show 2 * d ≤ 2 * (d + 1)
    omega
  rows d _ := by
    show 2 = 2 * (d + 1 - d)
    omega

example : (List.range 5).map (fem3DApply demoQ 2 4 2 1 (fun p => (p : ℤ) + 1) (fun _ => 55) (fun _ => 66)) =
    [7, 150, 10, 220, 66] := by decide +kernel

example : fem3DApply demoQ 2 4 2 1 (fun p => (p : ℤ) + 1) (fun _ => 55) (fun _ => 66) (1 + 2 * 1) =
    applied demoQ 2 4 (fun p => (p : ℤ) + 1) 1 1 0 :=
  fem3DApply_partial demoQ 2 4 2 demoQ_ok (by decide) _ _ _ 1 1 (by decide) (by decide)

/-- **C45** for several tetrahedrons and an operator with one part when the result memory of all tetrahedrons but the first
holds zeros. -/
theorem fem3DApply_cleared_partial (U : Band K) (dim nf q f : Nat) (ok : U.Ok q dim nf) (h1 : U.nparts = 1)
    (dofs extraR opU : Nat → K) (hz : ∀ p, dim * q ≤ p → p < dim * q * f → opU p = 0)
    (k n r : Nat) (hk : k < dim) (hn : n < q) (hr : r < f) :
    fem3DApply U dim nf q f dofs extraR opU (k + dim * n + dim * q * r) = applied U q nf dofs k n r := by
  unfold fem3DApply
  rw [if_pos h1]
  have hr1 := ok.rowN
  have hc1 := ok.colN
  rw [h1] at hr1 hc1
  have hr1' : U.stRow (0 + 1) = dim := hr1
  have hc1' : U.stCol (0 + 1) = nf := hc1
  have hlt : k + dim * n < dim * q := rad_lt hk hn
  have := Fused.aMulB_exact_partial f nf (U.data 0) (dim * q) dofs 1 opU (by simpa using hz) r (k + dim * n) 0 hr hlt
    (by decide)
  unfold Fused.blk at this
  simp only [Nat.zero_mul, Nat.add_zero, Nat.mul_one] at this
  rw [show k + dim * n + dim * q * r = r * (dim * q) + (k + dim * n) by ring, this,
    applied_row ok (d := 0) (by omega) (by rw [ok.row0]; omega) (by rw [hr1']; exact hk)]
  rw [hr1', hc1', ok.row0, ok.col0]
  refine Finset.sum_congr rfl (fun i _ => ?_)
  simp only [Nat.sub_zero, Nat.zero_add]
  congr 2 <;> ring

example : fem3DApply (convToBand (fun p => (p : ℤ) + 1) (1 * 2) 2 2) 2 2 1 2 (fun p => (p : ℤ)) (fun _ => 7) (fun _ => 0)
    (1 + 2 * 0 + 2 * 1 * 1) = applied (convToBand (fun p => (p : ℤ) + 1) (1 * 2) 2 2) 1 2 (fun p => (p : ℤ)) 1 0 1 :=
  fem3DApply_cleared_partial _ 2 2 1 2 (convToBand_ok _ 1 2 2) rfl _ _ _ (fun _ _ _ => rfl) 1 0 1 (by decide) (by decide)
    (by decide)

/-- **C45 fails** for several tetrahedrons and an operator with one part: for all operators and degrees of freedom there is a
previous content of the result memory which spoils the values on every tetrahedron but the first. -/
theorem fem3DApply_wrong [Nontrivial K] (U : Band K) (dim nf q f : Nat) (ok : U.Ok q dim nf) (h1 : U.nparts = 1)
    (dofs extraR : Nat → K) (k n r : Nat) (hk : k < dim) (hn : n < q) (h0 : 0 < r) (hr : r < f) :
    ∃ opU, fem3DApply U dim nf q f dofs extraR opU (k + dim * n + dim * q * r) ≠ applied U q nf dofs k n r := by
  refine ⟨fun _ => 1, ?_⟩
  have hz := fem3DApply_cleared_partial U dim nf q f ok h1 dofs extraR (fun _ => 0) (fun _ _ _ => rfl) k n r hk hn hr
  rw [← hz]
  unfold fem3DApply
  rw [if_pos h1, if_pos h1]
  have hlt : k + dim * n < dim * q := rad_lt hk hn
  have e1 := Fused.aMulB_general f nf (U.data 0) (dim * q) dofs 1 (fun _ => 1) r (k + dim * n) 0 hr hlt (by decide)
  have e0 := Fused.aMulB_general f nf (U.data 0) (dim * q) dofs 1 (fun _ => 0) r (k + dim * n) 0 hr hlt (by decide)
  unfold Fused.blk at e1 e0
  simp only [Nat.zero_mul, Nat.add_zero, Nat.mul_one, if_neg (show r ≠ 0 by omega)] at e1 e0
  rw [show k + dim * n + dim * q * r = r * (dim * q) + (k + dim * n) by ring, e1, e0, zero_add]
  intro h
  exact one_ne_zero (add_eq_right.1 h)

/-- **C45 fails** for several tetrahedrons and an operator with several parts: with two parts of one column each and two
tetrahedrons the number of columns is divided by the number of tetrahedrons and every value is zero, whatever the memory
held. -/
theorem fem3DApply_parts_wrong : ∃ (U : Band ℤ) (dofs : Nat → ℤ), U.Ok 1 2 2 ∧ U.nparts = 2 ∧ ∀ extraR opU : Nat → ℤ,
    ∀ r, r < 2 → ∀ k, k < 2 → fem3DApply U 2 2 1 2 dofs extraR opU (k + 2 * 0 + 2 * 1 * r) = 0 ∧
      applied U 1 2 dofs k 0 r ≠ 0 := by
  refine ⟨demoU, fun _ => 1, demoU_ok, rfl, fun extraR opU r hr k hk => ?_⟩
  have hr2 : r = 0 ∨ r = 1 := by omega
  have hk2 : k = 0 ∨ k = 1 := by omega
  rcases hr2 with rfl | rfl <;> rcases hk2 with rfl | rfl <;> exact ⟨rfl, by decide +kernel⟩

/-- The evaluation with a tensor, for any overload of `applyDU` which fills `DU` rightly: the tensor times the values which
`internalFem3DApply` without tensor leaves in `mem.V`. -/
theorem fem3DApplyD_of_isDU (apply : Args K → (Nat → K) → Option (Nat → K)) (U : Band K) (dimA nfA dimB q f : Nat)
    (w mes xyg : Nat → K) (nrm : Option (Nat → K)) (dofs extraR mv DU opU : Nat → K) (M : Nat → Nat → Nat → Nat → K)
    (happ : ∀ A DU, ∃ DU', apply ⟨convToBand A (q * dimA) dimA 1, dimA, dimB * (if nrm.isSome then 3 else 1), q, f, 1, w, mes,
        xyg⟩ DU = some DU' ∧
      IsDU ⟨convToBand A (q * dimA) dimA 1, dimA, dimB * (if nrm.isSome then 3 else 1), q, f, 1, w, mes, xyg⟩ M DU') :
    ∃ R, fem3DApplyD apply U dimA nfA (dimB * (if nrm.isSome then 3 else 1)) q f w mes xyg nrm dofs extraR mv DU opU = some R ∧
      ∀ r, r < f → ∀ n, n < q → ∀ k, k < dimB → R (k + dimB * n + dimB * q * r) =
        w n * mes r * ∑ l ∈ Finset.range dimA, acting nrm M n r k l *
          fem3DApply U dimA nfA q f dofs extraR mv (l + dimA * n + dimA * q * r) := by
  unfold fem3DApplyD
  dsimp only
  rw [Nat.mul_comm dimA q]
  set v := fem3DApply U dimA nfA q f dofs extraR mv with hv
  clear_value v
  obtain ⟨DU', h1, h2⟩ := happ v DU
  rw [h1]
  refine ⟨_, rfl, fun r hr n hn k hk => ?_⟩
  dsimp only
  have hlt : k + dimB * n + dimB * q * r < dimB * q * f := rad_lt (rad_lt hk hn) hr
  have hval : ∀ k', k' < dimB * (if nrm.isSome then 3 else 1) →
      DU' (addr (dimB * (if nrm.isSome then 3 else 1)) q 1 k' n 0 r) =
      w n * mes r * ∑ l ∈ Finset.range dimA, M n r k' l * v (l + dimA * n + q * dimA * r) := by
    intro k' hk'
    have := h2 r hr 0 (show 0 < 1 by decide) n hn k' hk'
    dsimp only at this
    rw [this]
    congr 1
    refine Finset.sum_congr rfl (fun l hl => ?_)
    rw [convToBand_val v q dimA 1 l n 0 r (Finset.mem_range.mp hl) (by decide)]
    congr 2
    ring
  have hcopy : ∀ (S : Nat → K) N p, p < N → loop 0 N (fun p R => wr R p (S p)) opU p = S p := by
    intro S N p hp
    exact loop_at (fun _ => S p) (Nat.zero_le _) hp (fun t => wr_same _ _ _) (fun j t _ _ hne => wr_ne _ _ (fun e => hne e.symm))
  have hsz : dimB * (if nrm.isSome then 3 else 1) * q * f / (if nrm.isSome then 3 else 1) = dimB * q * f := by
    split
    · rw [show dimB * 3 * q * f = dimB * q * f * 3 by ring, Nat.mul_div_cancel _ (by decide)]
    · simp
  rw [hsz, hcopy _ _ _ hlt]
  cases nrm with
  | none =>
    have := hval k (by simpa using hk)
    simp only [Option.isSome_none, Bool.false_eq_true, if_false, Nat.mul_one] at this
    simp only [acting]
    rw [← this]
    unfold addr
    congr 1
    ring
  | some nr =>
    have h3 : ∀ c, c < 3 → DU' (addr (dimB * 3) q 1 (c + 3 * k) n 0 r) =
        w n * mes r * ∑ l ∈ Finset.range dimA, M n r (c + 3 * k) l * v (l + dimA * n + q * dimA * r) := by
      intro c hc
      have := hval (c + 3 * k) (by simp only [Option.isSome_some, if_true]; omega)
      simpa only [Option.isSome_some, if_true] using this
    simp only [Option.isSome_some, if_true]
    rw [show k + dimB * n + dimB * q * r = addr dimB q 1 k n 0 r by unfold addr; ring,
      processNormal_at nr DU' hk hn (show 0 < 1 by decide) hr, h3 0 (by decide), h3 1 (by decide), h3 2 (by decide)]
    simp only [acting, Finset.sum_range_succ, Finset.sum_range_zero, zero_add, Nat.add_zero, add_mul, Finset.sum_add_distrib,
      Finset.mul_sum, Finset.sum_mul, mul_add]
    congr 1
    congr 1
    all_goals exact Finset.sum_congr rfl (fun l _ => by ring)

/-- **C45** for one tetrahedron with a tensor, for all traits: `w n |T|` times the tensor of the user applied to the values of
the operator (`fem3DapplyL`, `fem3DapplyX` set the weights and the measure to one).

Missing: several tetrahedrons at once. -/
theorem fem3DApplyD_partial (tr : Traits) (fn : UserD K) (U : Band K) (dimA nfA dimB q : Nat) (ok : U.Ok q dimA nfA)
    (hnf : 0 < nfA) (hq : 0 < q) (w mes xyg : Nat → K) (nrm : Option (Nat → K)) (D dofs extraR mv DU opU : Nat → K)
    (hfit : ∀ n, n < q → Fits (dimB * (if nrm.isSome then 3 else 1)) dimA 1 (fn (xpt xyg q n 0) 0))
    (hold : ∀ A : Nat → K, tr.Holds fn ⟨convToBand A (q * dimA) dimA 1, dimA, dimB * (if nrm.isSome then 3 else 1), q, 1, 1, w,
      mes, xyg⟩) :
    ∃ R, fem3DApplyD (fun a DU => applyDU tr fn a D DU) U dimA nfA (dimB * (if nrm.isSome then 3 else 1)) q 1 w mes xyg nrm
        dofs extraR mv DU opU = some R ∧
      ∀ n, n < q → ∀ k, k < dimB → R (k + dimB * n) =
        w n * mes 0 * ∑ l ∈ Finset.range dimA, acting nrm (fun n r k l =>
          tensor (dimB * (if nrm.isSome then 3 else 1)) dimA (fn (xpt xyg q n r) r) k l) n 0 k l *
          applied U q nfA dofs l n 0 := by
  have hfit' : ∀ r, r < 1 → ∀ n, n < q →
      Fits (dimB * (if nrm.isSome then 3 else 1)) dimA 1 (fn (xpt xyg q n r) r) := by
    intro r hr n hn
    have : r = 0 := by omega
    subst this
    exact hfit n hn
  obtain ⟨R, h1, h2⟩ := fem3DApplyD_of_isDU (fun a DU => applyDU tr fn a D DU) U dimA nfA dimB q 1 w mes xyg nrm dofs extraR mv
    DU opU (fun n r k l => tensor (dimB * (if nrm.isSome then 3 else 1)) dimA (fn (xpt xyg q n r) r) k l) (fun A DU => by
      by_cases htr : tr = .perSelection
      · subst htr
        refine applyDU_selection_partial fn ⟨convToBand A (q * dimA) dimA 1, dimA, dimB * (if nrm.isSome then 3 else 1), q, 1, 1,
          w, mes, xyg⟩ (convToBand_ok A q dimA 1) hq (show 0 < 1 by decide) hfit' (hold A) (fun _ r hr n hn => ?_) D DU
          (Or.inl rfl)
        have hr' : r < 1 := hr
        have : r = 0 := by omega
        rw [this]
      · exact applyDU_exact tr htr fn ⟨convToBand A (q * dimA) dimA 1, dimA, dimB * (if nrm.isSome then 3 else 1), q, 1, 1,
          w, mes, xyg⟩ (convToBand_ok A q dimA 1) hq (show 0 < 1 by decide) hfit' (hold A) D DU (Or.inl rfl))
  refine ⟨R, h1, fun n hn k hk => ?_⟩
  have := h2 0 (by decide) n hn k hk
  rw [Nat.mul_zero, Nat.add_zero] at this
  rw [this]
  congr 1
  refine Finset.sum_congr rfl (fun l hl => ?_)
  rw [Nat.mul_zero, Nat.add_zero, fem3DApply_partial U dimA nfA q ok hnf dofs extraR mv l n (Finset.mem_range.mp hl) hn]

/-- The tensor `[[1, 3], [2, 4]]` applied to the values of the operator with two parts at two points. -/
example : ∃ R, fem3DApplyD (fun a DU => applyDU .perTetra demoD a (fun _ => 3) DU) demoQ 2 4 2 2 1 (fun _ => 1) (fun _ => 1)
      (fun _ => 0) none (fun p => (p : ℤ) + 1) (fun _ => 55) (fun _ => 56) (fun _ => 57) (fun _ => 58) = some R ∧
    ∀ n, n < 2 → ∀ k, k < 2 → R (k + 2 * n) = 1 * 1 * ∑ l ∈ Finset.range 2, acting none (fun n r k l =>
      tensor 2 2 (demoD (xpt (fun _ => 0) 2 n r) r) k l) n 0 k l * applied demoQ 2 4 (fun p => (p : ℤ) + 1) l n 0 :=
  fem3DApplyD_partial .perTetra demoD demoQ 2 4 2 2 demoQ_ok (by decide) (by decide) _ _ _ none _ _ _ _ _ _
    (fun _ _ => trivial) (fun _ _ _ _ _ => ⟨rfl, fun h => rfl⟩)

example : (fem3DApplyD (fun a DU => applyDU .perTetra demoD a (fun _ => 3) DU) demoQ 2 4 2 2 1 (fun _ => 1) (fun _ => 1)
      (fun _ => 0) none (fun p => (p : ℤ) + 1) (fun _ => 55) (fun _ => 56) (fun _ => 57) (fun _ => 58)).map
      (fun R => (List.range 5).map R) = some [457, 614, 670, 900, 58] := by decide +kernel

end Verif.Elemental
