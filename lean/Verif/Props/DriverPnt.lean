import Verif.Props.Driver

/-!
**C54**: what the drivers for nodes and for points given by the user prepare.
-/
namespace Verif.Driver

open Verif.Dense Verif.Spaces Verif.Geometry Verif.SpaceOp

section
variable (f : Nat) (T : Nat → Nat → Nat → ℝ) (a : Arr ℝ)

/-- **C54** `fem3Dnode`: the point is the node, the weight and the measure are one. -/
theorem setNode_right {node : Nat} (hnode : node < 4) (hf : 0 < f) (hT : ∀ r, r < f → Nondeg (T r)) :
    Prepared (setNode node f T a) 1 f T (fun r _ => T r node) (fun _ => 1) (fun _ => 1) := by
  have e : ∀ c, c < 4 → Dense.wr (fillN 4 0 a.xyl) node 1 c = if c = node then 1 else 0 := by
    intro c hc
    by_cases h : c = node
    · rw [if_pos h, h, Dense.wr_same]
    · rw [if_neg h, Dense.wr_ne _ _ h, fillN_at _ _ hc]
  have h := initGeom_prepared T { a with q := 1, f := f, xyl := Dense.wr (fillN 4 0 a.xyl) node 1, wg := Dense.wr a.wg 0 1 } Nat.one_pos hf hT
    (fun n hn => by
      obtain rfl : n = 0 := Nat.lt_one_iff.mp hn
      change Dense.wr (fillN 4 0 a.xyl) node 1 0 + Dense.wr (fillN 4 0 a.xyl) node 1 1 + Dense.wr (fillN 4 0 a.xyl) node 1 2 +
        Dense.wr (fillN 4 0 a.xyl) node 1 3 = 1
      rw [e 0 (by omega), e 1 (by omega), e 2 (by omega), e 3 (by omega)]
      interval_cases node <;> simp)
  have h' : Prepared (initGeom T { a with q := 1, f := f, xyl := Dense.wr (fillN 4 0 a.xyl) node 1, wg := Dense.wr a.wg 0 1 }) 1 f T
      (fun r _ => T r node) (fun r => volume (T r)) (fun _ => 1) := by
    refine h.congr (fun r hr n hn k hk => ?_) fun n hn => ?_
    · obtain rfl : n = 0 := Nat.lt_one_iff.mp hn
      simp only [mix, Nat.mul_zero, Nat.zero_add]
      rw [e 0 (by omega), e 1 (by omega), e 2 (by omega), e 3 (by omega)]
      interval_cases node <;> simp
    · obtain rfl : n = 0 := Nat.lt_one_iff.mp hn
      exact Dense.wr_same a.wg 0 1
  exact h'.measure fun r hr => fillN_at _ _ hr

/-- **C54** `fem3DpntL`: the points are those with the barycentric coordinates of the user, the measure is one; the versions with stack memory and
with run-time operators take the smaller of the numbers of points and weights, the other one the number of points, for which there have to be
weights. -/
theorem setPntL_right_partial (plain : Bool) (L W : Nat → ℝ) (nl nw : Nat) (hplain : plain = true → nl / 4 ≤ nw) (hq : 0 < min (nl / 4) nw)
    (hf : 0 < f) (hT : ∀ r, r < f → Nondeg (T r))
    (hL : ∀ n, n < min (nl / 4) nw → L (4 * n) + L (4 * n + 1) + L (4 * n + 2) + L (4 * n + 3) = 1) :
    ∃ a', setPntL plain L W nl nw f T a = some a' ∧
      Prepared a' (min (nl / 4) nw) f T (fun r n => mix (T r) fun c => L (4 * n + c)) (fun _ => 1) W := by
  have e : (if plain = true then nl / 4 else min (nl / 4) nw) = min (nl / 4) nw := by
    split
    · next h => rw [min_eq_left (hplain h)]
    · rfl
  unfold setPntL
  simp only [e]
  rw [if_pos (min_le_right _ _)]
  refine ⟨_, rfl, ?_⟩
  have h := initGeom_prepared T { a with q := min (nl / 4) nw, f := f, xyl := L, wg := W } hq hf hT hL
  exact h.measure fun r hr => fillN_at _ _ hr

/-- **C54**: with fewer weights than points the version with memory of the user reads weights outside of their array. -/
theorem setPntL_wrong (L W : Nat → ℝ) {nl nw : Nat} (h : nw < nl / 4) : setPntL true L W nl nw f T a = none := by
  unfold setPntL
  simp only [if_true]
  rw [if_neg (by omega)]

/-- three passes -/
theorem loop_three {β : Type} (g : Nat → β → β) (s : β) : loop 0 3 g s = g 2 (g 1 (g 0 s)) := rfl

/-- one point of `getBaryCoord` -/
theorem bary_step (p0 X psi m : Nat → ℝ) (n : Nat) (hz : ∀ c, c < 3 → m (4 * n + c + 1) = 0) :
    let m' := (fun m => loop 0 3 (fun i m => Dense.wr m (4 * n + 0) (m (4 * n + 0) - m (4 * n + i + 1))) m) (Dense.wr (loop 0 3 (fun j m => loop 0 3
      (fun i m => Dense.wr m (4 * n + i + 1) (m (4 * n + i + 1) + psi (i + 3 * j) * (X (j + 3 * n) - p0 j))) m) m) (4 * n + 0) 1)
    (∀ c, c < 4 → m' (4 * n + c) = baryCoordPsi p0 (fun i => X (i + 3 * n)) psi c) ∧
    ∀ p, p < 4 * n ∨ 4 * n + 4 ≤ p → m' p = m p := by
  intro m'
  have inner : ∀ (j : Nat) (t : Nat → ℝ) (c : Nat), c < 3 → loop 0 3
      (fun i m => Dense.wr m (4 * n + i + 1) (m (4 * n + i + 1) + psi (i + 3 * j) * (X (j + 3 * n) - p0 j))) t (4 * n + c + 1) =
      t (4 * n + c + 1) + psi (c + 3 * j) * (X (j + 3 * n) - p0 j) := by
    intro j t c hc
    exact loop_at (fun v => v + psi (c + 3 * j) * (X (j + 3 * n) - p0 j)) (Nat.zero_le c) hc (fun t => Dense.wr_same ..)
      fun i t _ _ hne => Dense.wr_ne _ _ (by omega)
  have outer : ∀ c, c < 3 → (loop 0 3 (fun j m => loop 0 3
      (fun i m => Dense.wr m (4 * n + i + 1) (m (4 * n + i + 1) + psi (i + 3 * j) * (X (j + 3 * n) - p0 j))) m) m) (4 * n + c + 1) =
      mulVec3 psi (fun i => X (i + 3 * n) - p0 i) c := by
    intro c hc
    rw [loop_three (fun j m => loop 0 3
      (fun i m => Dense.wr m (4 * n + i + 1) (m (4 * n + i + 1) + psi (i + 3 * j) * (X (j + 3 * n) - p0 j))) m), inner _ _ c hc, inner _ _ c hc, inner _ _ c hc, hz c hc]
    rfl
  have after : ∀ c, c < 3 → m' (4 * n + c + 1) = mulVec3 psi (fun i => X (i + 3 * n) - p0 i) c := by
    intro c hc
    refine (loop_off fun i s _ _ => Dense.wr_ne _ _ (by omega)).trans ?_
    rw [Dense.wr_ne _ _ (by omega)]
    exact outer c hc
  have first : m' (4 * n + 0) = 1 - mulVec3 psi (fun i => X (i + 3 * n) - p0 i) 0 - mulVec3 psi (fun i => X (i + 3 * n) - p0 i) 1 -
      mulVec3 psi (fun i => X (i + 3 * n) - p0 i) 2 := by
    refine (congrFun (loop_three (fun i m => Dense.wr m (4 * n + 0) (m (4 * n + 0) - m (4 * n + i + 1))) _) (4 * n + 0)).trans ?_
    have n1 : 4 * n + 0 + 1 ≠ 4 * n + 0 := by omega
    have n2 : 4 * n + 1 + 1 ≠ 4 * n + 0 := by omega
    have n3 : 4 * n + 2 + 1 ≠ 4 * n + 0 := by omega
    simp only [Dense.wr_same, Dense.wr_ne _ _ n1, Dense.wr_ne _ _ n2, Dense.wr_ne _ _ n3]
    rw [outer 0 (by omega), outer 1 (by omega), outer 2 (by omega)]
  refine ⟨fun c hc => ?_, fun p hp => ?_⟩
  · match c, hc with
    | 0, _ => exact first
    | 1, _ => exact after 0 (by omega)
    | 2, _ => exact after 1 (by omega)
    | 3, _ => exact after 2 (by omega)
  · refine (loop_off fun i s _ _ => Dense.wr_ne _ _ (by omega)).trans ?_
    rw [Dense.wr_ne _ _ (by omega)]
    exact loop_off fun j s _ _ => loop_off fun i s _ hi => Dense.wr_ne _ _ (by omega)

/-- the coordinates computed by `getBaryCoord` for the points which have a place in `XYL` -/
theorem baryAll_at (p0 X psi xyl : Nat → ℝ) {nx q cap : Nat} (hcap : 4 * nx ≤ cap) :
    ∃ m, baryAll p0 X nx (4 * q) cap psi xyl = some m ∧
      ∀ n, n < nx → n < q → ∀ c, c < 4 → m (4 * n + c) = baryCoordPsi p0 (fun i => X (i + 3 * n)) psi c := by
  unfold baryAll
  rw [if_pos hcap]
  refine ⟨_, rfl, ?_⟩
  refine (loop_ind (P := fun i (m : Nat → ℝ) => (∀ n, n < i → n < q → ∀ c, c < 4 → m (4 * n + c) = baryCoordPsi p0 (fun i => X (i + 3 * n)) psi c) ∧
    ∀ n, i ≤ n → n < q → ∀ c, c < 4 → m (4 * n + c) = 0) (Nat.zero_le nx) ⟨nofun, fun n _ hn c hc => fillN_at _ _ (by omega)⟩ ?_).1
  intro i m _ hi ⟨h1, h2⟩
  by_cases hq : i < q
  · obtain ⟨s1, s2⟩ := bary_step p0 X psi m i (fun c hc => h2 i (le_refl i) hq (c + 1) (by omega))
    refine ⟨fun n hn hn' c hc => ?_, fun n hn hn' c hc => ?_⟩
    · by_cases e : n = i
      · subst e; exact s1 c hc
      · exact (s2 _ (by omega)).trans (h1 n (by omega) hn' c hc)
    · exact (s2 _ (by omega)).trans (h2 n (by omega) hn' c hc)
  · refine ⟨fun n hn hn' c hc => ?_, fun n hn hn' => absurd hn' (by omega)⟩
    refine Eq.trans ?_ (h1 n (by omega) hn' c hc)
    refine (loop_off fun i s _ _ => Dense.wr_ne _ _ (by omega)).trans ?_
    rw [Dense.wr_ne _ _ (by omega)]
    exact loop_off fun j s _ _ => loop_off fun i s _ hi => Dense.wr_ne _ _ (by omega)

/-- barycentric coordinates depend on nine numbers of the inverse -/
theorem baryCoordPsi_congr {p0 x psi psi' : Nat → ℝ} (h : ∀ t, t < 9 → psi t = psi' t) (c : Nat) :
    baryCoordPsi p0 x psi c = baryCoordPsi p0 x psi' c := by
  have e : ∀ i, i < 3 → mulVec3 psi (fun i => x i - p0 i) i = mulVec3 psi' (fun i => x i - p0 i) i := by
    intro i hi
    simp only [mulVec3]
    rw [h _ (by omega), h _ (by omega), h _ (by omega)]
  match c with
  | 0 => simp only [baryCoordPsi, e 0 (by omega), e 1 (by omega), e 2 (by omega)]
  | 1 => exact e 0 (by omega)
  | 2 => exact e 1 (by omega)
  | c + 3 => exact e 2 (by omega)

/-- **C54** `fem3DpntX`: the points are those of the user, the measure is one; there have to be no more points than weights (with stack memory: no
more than 24 points). -/
theorem setPntX_right_partial (stack : Bool) (X W : Nat → ℝ) {nx nw : Nat} (hq : 0 < min nx nw) (hfew : if stack = true then nx ≤ 24 else nx ≤ nw)
    (hT : Nondeg (T 0)) :
    ∃ a', setPntX stack X W nx nw T a = some a' ∧ Prepared a' (min nx nw) 1 T (fun _ n k => X (3 * n + k)) (fun _ => 1) W := by
  have D := initTet_done T { a with q := min nx nw, f := 1, wg := W }
  generalize hg : initTet T { a with q := min nx nw, f := 1, wg := W } = g at D
  obtain ⟨xyl, hb, hx⟩ := baryAll_at (T 0 0) X g.psi g.xyl (nx := nx) (q := min nx nw) (cap := if stack then 96 else 4 * min nx nw)
    (by split at hfew <;> simp_all; omega)
  have bary : ∀ n, n < min nx nw → IsBary (T 0 0) (T 0 1) (T 0 2) (T 0 3) (fun k => X (3 * n + k)) fun c => xyl (4 * n + c) := by
    intro n hn
    obtain ⟨junk, hj⟩ := D.psi 0 Nat.one_pos
    have h0 : IsBary (T 0 0) (T 0 1) (T 0 2) (T 0 3) (fun k => X (3 * n + k)) _ :=
      baryCoordPsi_correct (T 0 0) (T 0 1) (T 0 2) (T 0 3) (fun k => X (3 * n + k)) junk hT
    have e : ∀ c, c < 4 → xyl (4 * n + c) = baryCoordPsi (T 0 0) (fun k => X (3 * n + k)) (tetGeom (T 0 0) (T 0 1) (T 0 2) (T 0 3) junk).psi c := by
      intro c hc
      rw [hx n (by omega) hn c hc]
      simp only [fun i => Nat.add_comm i (3 * n)]
      exact baryCoordPsi_congr (fun t ht => by have := hj t ht; rwa [Nat.mul_zero, Nat.zero_add] at this) c
    rw [IsBary, e 0 (by omega), e 1 (by omega), e 2 (by omega), e 3 (by omega)]
    exact h0
  refine ⟨{ initXYG T { g with xyl := xyl } with mes := fillN 1 1 g.mes }, ?_, ?_⟩
  · unfold setPntX
    simp only []
    rw [if_neg (by rintro ⟨h1, h2⟩; rw [if_pos h1] at hfew; omega), hg]
    exact (congrArg (Option.map _) hb).trans rfl
  · have key : ∀ n, n < min nx nw → ∀ k, k < 3 → (initXYG T { g with xyl := xyl }).xyg (3 * min nx nw * 0 + 3 * n + k) = X (3 * n + k) := by
      intro n hn k hk
      have h := initXYG_at T { g with xyl := xyl } (r := 0) (n := n) (k := k) (by rw [D.f]; exact Nat.one_pos) (by rw [D.q]; exact hn) hk
      have e0 : 3 * min nx nw * 0 + 3 * n + k = 3 * g.q * 0 + 3 * n + k := by rw [Nat.mul_zero, Nat.mul_zero]
      rw [e0]
      refine h.trans ?_
      obtain ⟨b1, b2⟩ := bary n hn
      rw [D.xyp 0 Nat.one_pos 1 k (by omega) hk, D.xyp 0 Nat.one_pos 2 k (by omega) hk, D.xyp 0 Nat.one_pos 3 k (by omega) hk]
      simp only [fun c => Nat.add_comm c (4 * n)]
      linear_combination b2 k hk - T 0 0 k * b1
    refine ⟨D.q, D.f, ⟨hq.trans_eq D.q.symm, Nat.one_pos.trans_eq D.f.symm, ?_, ?_, ?_⟩, ?_, fun r hr => fillN_at _ _ hr, fun n hn => congrFun D.wg n⟩
    · intro r hr
      obtain rfl : r = 0 := Nat.lt_one_iff.mp (hr.trans_eq D.f)
      exact hT
    · intro r hr
      obtain rfl : r = 0 := Nat.lt_one_iff.mp (hr.trans_eq D.f)
      exact D.atTet Nat.one_pos hT
    · intro r hr n hn
      obtain rfl : r = 0 := Nat.lt_one_iff.mp (hr.trans_eq D.f)
      have hb := bary n (hn.trans_eq D.q)
      have cm : ∀ c, c + 4 * n = 4 * n + c := fun c => Nat.add_comm c (4 * n)
      change IsBary (T 0 0) (T 0 1) (T 0 2) (T 0 3) (fun k => X (3 * n + k)) fun c => xyl (c + 4 * n)
      simp only [cm]
      exact hb
    · intro r hr n hn
      obtain rfl : r = 0 := by omega
      exact Prod.ext (key n hn 0 (by omega)) (Prod.ext (key n hn 1 (by omega)) (key n hn 2 (by omega)))

/-- **C54**: with more points than weights the coordinates of the points without a weight are written past `XYL`; with stack memory past the array
on the stack when there are more than 24 points, though the number that is checked is that of the weights. -/
theorem setPntX_wrong (X W : Nat → ℝ) {nx nw : Nat} : (nw < nx → setPntX false X W nx nw T a = none) ∧
    (nw ≤ 24 → 24 < nx → setPntX true X W nx nw T a = none) := by
  constructor
  · intro h
    unfold setPntX
    simp only [Bool.false_eq_true, false_and, if_false]
    unfold baryAll
    rw [if_neg (by omega)]
    rfl
  · intro h1 h2
    unfold setPntX
    simp only [true_and, if_true]
    rw [if_neg (by omega)]
    unfold baryAll
    rw [if_neg (by omega)]
    rfl

end

end Verif.Driver
