import Verif.Lemmas.Region
import Verif.Model.Sparsity
import Mathlib.Tactic.NormNum
import Mathlib.Tactic.IntervalCases

/-!
**C48**: interpolation on an edge, a face or the cell is the best approximation at the points of the formula.
-/
namespace Verif.Region

open Verif.Dense

variable {K : Type} [Field K] [LinearOrder K] [IsStrictOrderedRing K]

/-- the normal equations, from the solution of the selected system -/
theorem normal {l ids : List Nat} (h : ids.Pairwise (· < ·)) (hp : ids.Perm l) {nfa : Nat} (hb : ∀ j ∈ ids, j < nfa)
    {dim q : Nat} {w : Nat → K} (phi : Nat → Nat → Nat → K) (fx : Nat → Nat → K) {X u : Nat → K}
    (hs : Solves ids.length 1 (compactA nfa ids (gram nfa dim q w phi)) X (compactF ids (moments dim q w phi fx)))
    (y : Nat → K) :
    ∑ n ∈ Finset.range q, w n * ∑ k ∈ Finset.range dim,
      (fx n k - comb l phi (writeBack ids X u) n k) * comb l phi y n k = 0 := by
  have h1 : ∑ i ∈ Finset.range ids.length, ∑ j ∈ Finset.range ids.length,
      y (ids.getD i 0) * ent ids.length (compactA nfa ids (gram nfa dim q w phi)) i j * X j =
      ∑ i ∈ Finset.range ids.length, y (ids.getD i 0) * moments dim q w phi fx (ids.getD i 0) := by
    refine Finset.sum_congr rfl (fun i hi => ?_)
    have hi' := Finset.mem_range.1 hi
    have := hs i hi' 0 (by omega)
    unfold ent at this
    simp only [Nat.zero_mul, Nat.add_zero] at this
    rw [compactF_at h _ hi'] at this
    rw [← this, Finset.mul_sum]
    exact Finset.sum_congr rfl (fun j _ => by unfold ent; ring)
  rw [sel_form h hb dim q w phi] at h1
  have hX : ∀ n k, ∑ j ∈ Finset.range ids.length, X j * phi n (ids.getD j 0) k = comb l phi (writeBack ids X u) n k := by
    intro n k
    rw [comb_ids hp]
    exact Finset.sum_congr rfl (fun i hi => by rw [writeBack_at h X u (Finset.mem_range.1 hi)])
  have hR : ∑ i ∈ Finset.range ids.length, y (ids.getD i 0) * moments dim q w phi fx (ids.getD i 0) =
      ∑ n ∈ Finset.range q, w n * ∑ k ∈ Finset.range dim, fx n k * comb l phi y n k := by
    unfold moments
    simp only [comb_ids hp, Finset.mul_sum]
    rw [Finset.sum_comm]
    refine Finset.sum_congr rfl (fun n _ => ?_)
    rw [Finset.sum_comm]
    exact Finset.sum_congr rfl (fun k _ => Finset.sum_congr rfl (fun i _ => by ring))
  simp only [← comb_ids hp phi y, hX] at h1
  rw [hR] at h1
  have h2 : ∀ n, w n * ∑ k ∈ Finset.range dim, (fx n k - comb l phi (writeBack ids X u) n k) * comb l phi y n k =
      w n * (∑ k ∈ Finset.range dim, fx n k * comb l phi y n k) -
        w n * ∑ k ∈ Finset.range dim, comb l phi y n k * comb l phi (writeBack ids X u) n k := by
    intro n
    rw [← mul_sub, ← Finset.sum_sub_distrib]
    exact congrArg _ (Finset.sum_congr rfl (fun k _ => by ring))
  simp only [h2]
  rw [Finset.sum_sub_distrib, h1, sub_self]

/-- coefficients behave linearly -/
theorem comb_sub (l : List Nat) (phi : Nat → Nat → Nat → K) (x y : Nat → K) (n k : Nat) :
    comb l phi (fun j => x j - y j) n k = comb l phi x n k - comb l phi y n k := by
  unfold comb
  induction l with
  | nil => simp
  | cons a t ih =>
    simp only [List.map_cons, List.sum_cons] at ih ⊢
    rw [ih]
    ring

/-- **C48**: if the weights are positive and the basis functions of the closure are independent on the points of the formula, the
interpolation succeeds, writes the degrees of freedom of the closure only, and these are the coefficients for which the weighted
sum of squared differences to the function at the points is the smallest; no other coefficients are as good.  For every number of
points, components and degrees of freedom, whatever order the iteration delivers the numbers in and whatever the work memory
contains. -/
theorem region_best {sqrt : K → K} (hs : Geometry.IsSqrt sqrt) {nfa dim q : Nat} {w : Nat → K} (hw : ∀ n, n < q → 0 < w n)
    (phi : Nat → Nat → Nat → K) (fx : Nat → Nat → K) {l : List Nat} (hl : l.Nodup) (hb : ∀ j ∈ l, j < nfa)
    (hi : Indep dim q l phi) (mem udofs : Nat → K) :
    ∃ u, solve sqrt nfa l (gram nfa dim q w phi) (moments dim q w phi fx) mem udofs = some u ∧
      (∀ p, p ∉ l → u p = udofs p) ∧
      ∀ y, err dim q w l phi fx u ≤ err dim q w l phi fx y ∧
        (err dim q w l phi fx y ≤ err dim q w l phi fx u → ∀ j ∈ l, y j = u j) := by
  unfold solve
  by_cases h0 : l.length = 0
  · have hnil : l = [] := List.length_eq_zero_iff.1 h0
    subst hnil
    exact ⟨udofs, by simp, fun _ _ => rfl, fun y => ⟨le_of_eq (by simp [err, comb]), fun _ j hj => by simp at hj⟩⟩
  rw [if_neg h0]
  obtain ⟨hsort, hperm⟩ := sorted_ids hl
  generalize l.mergeSort (fun a b => decide (a ≤ b)) = ids at hsort hperm
  have hb' : ∀ j ∈ ids, j < nfa := fun j hj => hb j (hperm.mem_iff.1 hj)
  obtain ⟨X, hX, hsol⟩ := cholesky_solves hs ids.length 1 (compactA nfa ids (gram nfa dim q w phi))
    (compactF ids (moments dim q w phi fx)) mem (sel_symm hsort hb' dim q w phi) ((sel_posDef hsort hperm hb' hw phi).2 hi)
  refine ⟨writeBack ids X udofs, by dsimp only; rw [hX]; rfl,
    fun p hp => writeBack_off X udofs (fun h => hp (hperm.mem_iff.1 h)), fun y => ?_⟩
  have hn := normal hsort hperm hb' phi fx (u := udofs) hsol (fun j => writeBack ids X udofs j - y j)
  generalize hu : writeBack ids X udofs = u at hn
  have key : err dim q w l phi fx y = err dim q w l phi fx u +
      ∑ n ∈ Finset.range q, w n * ∑ k ∈ Finset.range dim, comb l phi (fun j => u j - y j) n k ^ 2 := by
    have h1 : err dim q w l phi fx y = err dim q w l phi fx u +
        ∑ n ∈ Finset.range q, w n * ∑ k ∈ Finset.range dim, comb l phi (fun j => u j - y j) n k ^ 2 +
        2 * ∑ n ∈ Finset.range q, w n * ∑ k ∈ Finset.range dim, (fx n k - comb l phi u n k) * comb l phi (fun j => u j - y j) n k := by
      unfold err
      rw [Finset.mul_sum, ← Finset.sum_add_distrib, ← Finset.sum_add_distrib]
      refine Finset.sum_congr rfl (fun n _ => ?_)
      rw [← mul_assoc, mul_comm 2 (w n), mul_assoc, ← mul_add, ← mul_add, Finset.mul_sum (Finset.range dim) _ (2 : K), ← Finset.sum_add_distrib,
        ← Finset.sum_add_distrib]
      refine congrArg _ (Finset.sum_congr rfl (fun k _ => ?_))
      rw [comb_sub]
      ring
    rw [h1, hn, mul_zero, add_zero]
  have hnn := wsq_nonneg (dim := dim) hw (fun n k => comb l phi (fun j => u j - y j) n k)
  refine ⟨by rw [key]; linarith, fun hle j hj => ?_⟩
  have hz := wsq_zero (dim := dim) hw (e := fun n k => comb l phi (fun j => u j - y j) n k) (by linarith)
  have := hi _ hz j hj
  linarith

/-- **C48**: if the basis functions of the closure are dependent on the points of the formula, the interpolation throws. -/
theorem region_throws {sqrt : K → K} (hs : Geometry.IsSqrt sqrt) {nfa dim q : Nat} {w : Nat → K} (hw : ∀ n, n < q → 0 < w n)
    (phi : Nat → Nat → Nat → K) (F : Nat → K) {l : List Nat} (hl : l.Nodup) (hb : ∀ j ∈ l, j < nfa)
    (hi : ¬ Indep dim q l phi) (mem udofs : Nat → K) :
    solve sqrt nfa l (gram nfa dim q w phi) F mem udofs = none := by
  unfold solve
  have h0 : l.length ≠ 0 := by
    intro h0
    have hnil : l = [] := List.length_eq_zero_iff.1 h0
    subst hnil
    exact hi (fun c _ j hj => by simp at hj)
  rw [if_neg h0]
  obtain ⟨hsort, hperm⟩ := sorted_ids hl
  generalize l.mergeSort (fun a b => decide (a ≤ b)) = ids at hsort hperm
  have hb' : ∀ j ∈ ids, j < nfa := fun j hj => hb j (hperm.mem_iff.1 hj)
  dsimp only
  rw [cholesky_rejects hs ids.length 1 _ _ mem (sel_symm hsort hb' dim q w phi)
    (fun h => hi ((sel_posDef hsort hperm hb' hw phi).1 h))]
  rfl

/-- **C48**: a function equal at the points to a combination of the basis functions of the closure gets its coefficients. -/
theorem region_fits {sqrt : K → K} (hs : Geometry.IsSqrt sqrt) {nfa dim q : Nat} {w : Nat → K} (hw : ∀ n, n < q → 0 < w n)
    (phi : Nat → Nat → Nat → K) (fx : Nat → Nat → K) {l : List Nat} (hl : l.Nodup) (hb : ∀ j ∈ l, j < nfa)
    (hi : Indep dim q l phi) (mem udofs c : Nat → K)
    (hf : ∀ n, n < q → ∀ k, k < dim → fx n k = comb l phi c n k) :
    ∃ u, solve sqrt nfa l (gram nfa dim q w phi) (moments dim q w phi fx) mem udofs = some u ∧
      (∀ j ∈ l, u j = c j) ∧ ∀ p, p ∉ l → u p = udofs p := by
  obtain ⟨u, h1, h2, h3⟩ := region_best hs hw phi fx hl hb hi mem udofs
  refine ⟨u, h1, fun j hj => ?_, h2⟩
  have h0 : err dim q w l phi fx c = 0 := by
    unfold err
    refine Finset.sum_eq_zero (fun n hn => ?_)
    rw [Finset.sum_eq_zero (fun k hk => ?_), mul_zero]
    rw [hf n (Finset.mem_range.1 hn) k (Finset.mem_range.1 hk)]
    simp
  exact ((h3 c).2 (by rw [h0]; exact wsq_nonneg hw _) j hj).symm

/-- **C48**: a function whose values at the points are those of a combination of all the basis functions, those of the degrees
of freedom outside the closure being zero there, gets the coefficients of the combination. -/
theorem region_recovers {sqrt : K → K} (hs : Geometry.IsSqrt sqrt) {nfa dim q : Nat} {w : Nat → K} (hw : ∀ n, n < q → 0 < w n)
    (phi : Nat → Nat → Nat → K) (fx : Nat → Nat → K) {l : List Nat} (hl : l.Nodup) (hb : ∀ j ∈ l, j < nfa)
    (hi : Indep dim q l phi) (mem udofs c : Nat → K)
    (hz : ∀ n, n < q → ∀ k, k < dim → ∀ j, j < nfa → j ∉ l → phi n j k = 0)
    (hf : ∀ n, n < q → ∀ k, k < dim → fx n k = ∑ j ∈ Finset.range nfa, c j * phi n j k) :
    ∃ u, solve sqrt nfa l (gram nfa dim q w phi) (moments dim q w phi fx) mem udofs = some u ∧
      (∀ j ∈ l, u j = c j) ∧ ∀ p, p ∉ l → u p = udofs p := by
  refine region_fits hs hw phi fx hl hb hi mem udofs c (fun n hn k hk => ?_)
  rw [hf n hn k hk]
  have : comb l phi c n k = ∑ j ∈ l.toFinset, c j * phi n j k := by
    unfold comb
    rw [List.sum_toFinset _ hl]
  rw [this]
  symm
  refine Finset.sum_subset (fun j hj => Finset.mem_range.2 (hb j (List.mem_toFinset.1 hj))) (fun j hj hne => ?_)
  rw [hz n hn k hk j (Finset.mem_range.1 hj) (fun h => hne (List.mem_toFinset.2 h)), mul_zero]

/-! ### The points -/

omit [LinearOrder K] [IsStrictOrderedRing K] in
/-- what the points of an edge contain afterwards: the coordinates of the formula at the two nodes of the edge (by the closure of
the edge, `Sp.setEdge`), the previous content of the work memory at the two others -/
theorem edge_at (p : Nat → Nat → K) {e q n a : Nat} (xyl : Nat → K) (he : e < 6) (hn : n < q) (ha : a < 4) :
    edgePts p e q xyl (4 * n + a) =
      if a = Sparsity.edgeNodes e 0 then p n 0 else if a = Sparsity.edgeNodes e 1 then p n 1 else xyl (4 * n + a) := by
  have hlt : ∀ k, k < 12 → Spaces.lookup k < 4 := by decide
  have h0 : Spaces.lookup (2 * e) = Sparsity.edgeNodes e 0 := by
    interval_cases e <;> rfl
  have h1 : Spaces.lookup (2 * e + 1) = Sparsity.edgeNodes e 1 := by
    interval_cases e <;> rfl
  have hne : Sparsity.edgeNodes e 0 ≠ Sparsity.edgeNodes e 1 := by interval_cases e <;> decide
  have hl0 := hlt (2 * e) (by omega)
  have hl1 := hlt (2 * e + 1) (by omega)
  rw [h0] at hl0
  rw [h1] at hl1
  unfold edgePts
  rw [h0, h1]
  refine loop_at (fun v => if a = Sparsity.edgeNodes e 0 then p n 0 else if a = Sparsity.edgeNodes e 1 then p n 1 else v)
    (Nat.zero_le _) hn (fun t => ?_) (fun m t _ hm hmn => ?_)
  · by_cases ha1 : a = Sparsity.edgeNodes e 1
    · rw [← ha1, wr_same, if_neg (by omega), if_pos rfl]
    · rw [wr_ne _ _ (fun h => ha1 (by omega))]
      by_cases ha0 : a = Sparsity.edgeNodes e 0
      · rw [← ha0, wr_same, if_pos rfl]
      · rw [wr_ne _ _ (fun h => ha0 (by omega)), if_neg ha0, if_neg ha1]
  · rw [wr_ne _ _ (fun h => by omega), wr_ne _ _ (fun h => by omega)]

omit [LinearOrder K] [IsStrictOrderedRing K] in
/-- what the points of a face contain afterwards: the fourth coordinate is the previous content of the work memory -/
theorem face_at (p : Nat → Nat → K) {s q n a : Nat} (xyl : Nat → K) (hn : n < q) (ha : a < 4) :
    facePts p s q xyl (4 * n + a) =
      if a = s % 4 then p n 0 else if a = (s + 1) % 4 then p n 1 else if a = (s + 2) % 4 then p n 2 else xyl (4 * n + a) := by
  unfold facePts
  refine loop_at (fun v => if a = s % 4 then p n 0 else if a = (s + 1) % 4 then p n 1 else if a = (s + 2) % 4 then p n 2 else v)
    (Nat.zero_le _) hn (fun t => ?_) (fun m t _ hm hmn => ?_)
  · rw [Nat.add_zero]
    by_cases ha2 : a = (s + 2) % 4
    · rw [← ha2, wr_same, if_neg (by omega), if_neg (by omega), if_pos rfl]
    · rw [wr_ne _ _ (fun h => ha2 (by omega))]
      by_cases ha1 : a = (s + 1) % 4
      · rw [← ha1, wr_same, if_neg (by omega), if_pos rfl]
      · rw [wr_ne _ _ (fun h => ha1 (by omega))]
        by_cases ha0 : a = s % 4
        · rw [← ha0, wr_same, if_pos rfl]
        · rw [wr_ne _ _ (fun h => ha0 (by omega)), if_neg ha0, if_neg ha1, if_neg ha2]
  · rw [wr_ne _ _ (fun h => by omega), wr_ne _ _ (fun h => by omega), wr_ne _ _ (fun h => by omega)]

omit [LinearOrder K] [IsStrictOrderedRing K] in
/-- the nodes of the face `s` are those of its closure (`Sp.setFace`) -/
theorem face_nodes {s : Nat} (hs : s < 4) (a : Nat) :
    (a = s % 4 ∨ a = (s + 1) % 4 ∨ a = (s + 2) % 4) ↔
      (a = Sparsity.faceNodes s 0 ∨ a = Sparsity.faceNodes s 1 ∨ a = Sparsity.faceNodes s 2) := by
  interval_cases s <;> simp [Sparsity.faceNodes] <;> omega

omit [LinearOrder K] [IsStrictOrderedRing K] in
/-- **C48**: the points of the cell are those of the formula, whatever the work memory contains. -/
theorem cell_points (pp : Nat → K) {q n a : Nat} (xyl : Nat → K) (hn : n < q) (ha : a < 4) :
    cellPts pp q xyl (4 * n + a) = pp (4 * n + a) :=
  loop_at (fun _ => pp (4 * n + a)) (Nat.zero_le _) (by omega) (fun _ => wr_same ..)
    (fun _ _ _ _ hj => wr_ne _ _ (fun e => hj e.symm))

omit [LinearOrder K] [IsStrictOrderedRing K] in
/-- the point computed from four coordinates with the sum one -/
theorem xyg_eq (T : Nat → Nat → K) (xyl : Nat → K) (n k : Nat)
    (h : xyl (4 * n) + xyl (4 * n + 1) + xyl (4 * n + 2) + xyl (4 * n + 3) = 1) :
    xyg T xyl n k = ∑ a ∈ Finset.range 4, xyl (4 * n + a) * T a k := by
  have h0 : xyl (4 * n) = 1 - xyl (4 * n + 1) - xyl (4 * n + 2) - xyl (4 * n + 3) := by rw [← h]; ring
  unfold xyg
  rw [loop_sum]
  simp only [Finset.sum_range_succ, Finset.sum_range_zero, Nat.add_zero, Nat.zero_add]
  rw [h0, show 1 + 4 * n = 4 * n + 1 by omega, show 1 + 1 + 4 * n = 4 * n + 2 by omega,
    show 2 + 1 + 4 * n = 4 * n + 3 by omega]
  ring

omit [LinearOrder K] [IsStrictOrderedRing K] in
/-- **C48**: if the work memory was cleared, the points of an edge are the points of the formula between the two nodes of the edge.
Missing for the full statement: the function does not clear it (`edge_points_wrong`). -/
theorem edge_points_partial (T : Nat → Nat → K) (p : Nat → Nat → K) {e q n : Nat} (xyl : Nat → K) (he : e < 6) (hn : n < q)
    (h0 : ∀ i, i < 4 * q → xyl i = 0) (hp : p n 0 + p n 1 = 1) (k : Nat) :
    xyg T (edgePts p e q xyl) n k = p n 0 * T (Sparsity.edgeNodes e 0) k + p n 1 * T (Sparsity.edgeNodes e 1) k := by
  have hv := fun a (ha : a < 4) => edge_at p xyl he hn ha
  have h3 := fun a (ha : a < 4) => h0 (4 * n + a) (by omega)
  have hp' : p n 0 = 1 - p n 1 := by rw [← hp]; ring
  rw [xyg_eq]
  · simp only [Finset.sum_range_succ, Finset.sum_range_zero, hv 0 (by omega), hv 1 (by omega), hv 2 (by omega), hv 3 (by omega),
      h3 0 (by omega), h3 1 (by omega), h3 2 (by omega), h3 3 (by omega)]
    interval_cases e <;> simp [Sparsity.edgeNodes]
  · have h4 := hv 0 (by omega)
    rw [Nat.add_zero] at h4
    have h5 := h3 0 (by omega)
    rw [Nat.add_zero] at h5
    rw [h4, hv 1 (by omega), hv 2 (by omega), hv 3 (by omega), h5, h3 1 (by omega), h3 2 (by omega), h3 3 (by omega)]
    interval_cases e <;> simp [Sparsity.edgeNodes, hp]

omit [LinearOrder K] [IsStrictOrderedRing K] in
/-- **C48**: the same on a face. -/
theorem face_points_partial (T : Nat → Nat → K) (p : Nat → Nat → K) {s q n : Nat} (xyl : Nat → K) (hs : s < 4) (hn : n < q)
    (h0 : ∀ i, i < 4 * q → xyl i = 0) (hp : p n 0 + p n 1 + p n 2 = 1) (k : Nat) :
    xyg T (facePts p s q xyl) n k = p n 0 * T (s % 4) k + p n 1 * T ((s + 1) % 4) k + p n 2 * T ((s + 2) % 4) k := by
  have hv := fun a (ha : a < 4) => face_at p (s := s) xyl hn ha
  have h3 := fun a (ha : a < 4) => h0 (4 * n + a) (by omega)
  rw [xyg_eq]
  · simp only [Finset.sum_range_succ, Finset.sum_range_zero, hv 0 (by omega), hv 1 (by omega), hv 2 (by omega), hv 3 (by omega),
      h3 0 (by omega), h3 1 (by omega), h3 2 (by omega), h3 3 (by omega)]
    interval_cases s <;> simp <;> ring
  · have h4 := hv 0 (by omega)
    rw [Nat.add_zero] at h4
    have h5 := h3 0 (by omega)
    rw [Nat.add_zero] at h5
    rw [h4, hv 1 (by omega), hv 2 (by omega), hv 3 (by omega), h5, h3 1 (by omega), h3 2 (by omega), h3 3 (by omega)]
    rw [← hp]
    interval_cases s <;> simp <;> ring

omit [LinearOrder K] [IsStrictOrderedRing K] in
/-- **C48 (the code disagrees)**: the coordinates of the points with respect to the nodes outside the edge are not written: they are
what the work memory contained. -/
theorem edge_points_wrong (p : Nat → Nat → K) {e q n a : Nat} (xyl : Nat → K) (he : e < 6) (hn : n < q) (ha : a < 4)
    (h0 : a ≠ Sparsity.edgeNodes e 0) (h1 : a ≠ Sparsity.edgeNodes e 1) : edgePts p e q xyl (4 * n + a) = xyl (4 * n + a) := by
  rw [edge_at p xyl he hn ha, if_neg h0, if_neg h1]

omit [LinearOrder K] [IsStrictOrderedRing K] in
/-- **C48 (the code disagrees)**: the coordinate with respect to the node opposite to the face is what the work memory contained. -/
theorem face_points_wrong (p : Nat → Nat → K) {s q n a : Nat} (xyl : Nat → K) (hs : s < 4) (hn : n < q) (ha : a < 4)
    (h : ∀ k, k < 3 → a ≠ Sparsity.faceNodes s k) : facePts p s q xyl (4 * n + a) = xyl (4 * n + a) := by
  have hno : ¬ (a = s % 4 ∨ a = (s + 1) % 4 ∨ a = (s + 2) % 4) := by
    rw [face_nodes hs]
    exact fun h3 => h3.elim (h 0 (by omega)) (fun h3 => h3.elim (h 1 (by omega)) (h 2 (by omega)))
  rw [face_at p xyl hn ha, if_neg (fun h => hno (Or.inl h)), if_neg (fun h => hno (Or.inr (Or.inl h))),
    if_neg (fun h => hno (Or.inr (Or.inr h)))]

/-- the unit tetrahedron -/
def unitTet : Nat → Nat → K := fun i k => if i = k + 1 then 1 else 0

/-- the two barycentric coordinates are independent on two different points of an edge -/
theorem p1_edge_indep {q : Nat} {p : Nat → Nat → K} (hp : ∀ n, n < q → p n 0 + p n 1 = 1) {n m : Nat} (hn : n < q) (hm : m < q)
    (hne : p n 0 ≠ p m 0) (phi : Nat → Nat → Nat → K) (h0 : ∀ n, n < q → phi n 0 0 = p n 0) (h1 : ∀ n, n < q → phi n 1 0 = p n 1) :
    Indep 1 q [0, 1] phi := by
  intro c hc
  have e1 := hc n hn 0 (by omega)
  have e2 := hc m hm 0 (by omega)
  simp only [comb, List.map_cons, List.map_nil, List.sum_cons, List.sum_nil, add_zero] at e1 e2
  rw [h0 n hn, h1 n hn, eq_sub_of_add_eq' (hp n hn)] at e1
  rw [h0 m hm, h1 m hm, eq_sub_of_add_eq' (hp m hm)] at e2
  have h3 : (c 0 - c 1) * (p n 0 - p m 0) = 0 := by linear_combination e1 - e2
  have h4 : c 0 = c 1 := sub_eq_zero.1 ((mul_eq_zero.1 h3).resolve_right (sub_ne_zero.2 hne))
  have h5 : c 1 = 0 := by rw [h4] at e1; linear_combination e1
  intro j hj
  simp only [List.mem_cons, List.not_mem_nil, or_false] at hj
  rcases hj with rfl | rfl
  · rw [h4, h5]
  · exact h5

/-- **C48 (the code disagrees)**: the property "a member of the space gets its coefficients" fails on edges.  For the linear
elements on the unit tetrahedron and its edge zero, for every formula with positive weights and at least two different points, there is
a content of the work memory for which the basis function of node zero gets the coefficients `0, -1` instead of `1, 0`. -/
theorem region_edge_wrong {sqrt : K → K} (hs : Geometry.IsSqrt sqrt) {q : Nat} {w : Nat → K} (hw : ∀ n, n < q → 0 < w n)
    {p : Nat → Nat → K} (hp : ∀ n, n < q → p n 0 + p n 1 = 1) {n m : Nat} (hn : n < q) (hm : m < q) (hne : p n 0 ≠ p m 0)
    (mem udofs : Nat → K) :
    ∃ (xyl : Nat → K) (u : Nat → K),
      region sqrt 4 1 q w unitTet (edgePts p 0 q xyl) (fun b j _ => b j) (fun x _ => 1 - x 0 - x 1 - x 2) [0, 1] mem udofs = some u ∧
        u 0 = 0 ∧ u 1 = -1 := by
  refine ⟨fun i => if i % 4 = 2 then 1 else 0, ?_⟩
  have hv := fun n (hn : n < q) a (ha : a < 4) => edge_at p (e := 0) (fun i => if i % 4 = 2 then 1 else 0) (by omega) hn ha
  have h0 : ∀ n, n < q → edgePts p 0 q (fun i => if i % 4 = 2 then 1 else 0) (4 * n + 0) = p n 0 := by
    intro n hn; rw [hv n hn 0 (by omega)]; simp [Sparsity.edgeNodes]
  have h1 : ∀ n, n < q → edgePts p 0 q (fun i => if i % 4 = 2 then 1 else 0) (4 * n + 1) = p n 1 := by
    intro n hn; rw [hv n hn 1 (by omega)]; simp [Sparsity.edgeNodes]
  have h2 : ∀ n, n < q → edgePts p 0 q (fun i => if i % 4 = 2 then 1 else 0) (4 * n + 2) = 1 := by
    intro n hn; rw [hv n hn 2 (by omega)]; simp [Sparsity.edgeNodes]
  have h3 : ∀ n, n < q → edgePts p 0 q (fun i => if i % 4 = 2 then 1 else 0) (4 * n + 3) = 0 := by
    intro n hn; rw [hv n hn 3 (by omega)]
    simp [Sparsity.edgeNodes]
  generalize edgePts p 0 q (fun i => if i % 4 = 2 then 1 else 0) = xyl at h0 h1 h2 h3
  have hfx : ∀ n, n < q → 1 - xyg unitTet xyl n 0 - xyg unitTet xyl n 1 - xyg unitTet xyl n 2 = -p n 1 := by
    intro n hn
    have e1 := h1 n hn
    have e2 := h2 n hn
    have e3 := h3 n hn
    unfold xyg unitTet
    simp only [loop_sum, Finset.sum_range_succ, Finset.sum_range_zero]
    rw [show 0 + 1 + 4 * n = 4 * n + 1 by omega, show 1 + 1 + 4 * n = 4 * n + 2 by omega, show 2 + 1 + 4 * n = 4 * n + 3 by omega,
      e1, e2, e3]
    norm_num
  obtain ⟨u, hu1, hu2, -⟩ := region_fits hs hw (nfa := 4) (dim := 1) (fun n j (_ : Nat) => xyl (4 * n + j))
    (fun n (_ : Nat) => 1 - xyg unitTet xyl n 0 - xyg unitTet xyl n 1 - xyg unitTet xyl n 2) (l := [0, 1]) (by decide) (by decide)
    (p1_edge_indep hp hn hm hne _ h0 h1) mem udofs (fun j => if j = 0 then 0 else -1) (fun n hn k _ => by
      rw [hfx n hn]
      simp only [comb, List.map_cons, List.map_nil, List.sum_cons, List.sum_nil, h1 n hn]
      norm_num)
  exact ⟨u, hu1, by rw [hu2 0 (by simp)]; simp, by rw [hu2 1 (by simp)]; simp⟩

/-- **C48**: a member of the space gets its coefficients, provided that the four coordinates of every point have the sum one.
Missing for the full statement: on edges and faces the coordinates have it only if the work memory was cleared
(`edge_points_partial`, `face_points_partial`, `region_edge_wrong`); on the cell see `region_cell_recovers`. -/
theorem region_members_partial {sqrt : K → K} (hs : Geometry.IsSqrt sqrt) {nfa dim q : Nat} {w : Nat → K}
    (hw : ∀ n, n < q → 0 < w n) (T : Nat → Nat → K) (xyl : Nat → K) (val : (Nat → K) → Nat → Nat → K) (f : (Nat → K) → Nat → K)
    {l : List Nat} (hl : l.Nodup) (hb : ∀ j ∈ l, j < nfa)
    (hx : ∀ n, n < q → xyl (4 * n) + xyl (4 * n + 1) + xyl (4 * n + 2) + xyl (4 * n + 3) = 1)
    (hi : Indep dim q l (fun n => val fun a => xyl (4 * n + a)))
    (hz : ∀ n, n < q → ∀ k, k < dim → ∀ j, j < nfa → j ∉ l → val (fun a => xyl (4 * n + a)) j k = 0)
    (c : Nat → K)
    (hf : ∀ b : Nat → K, b 0 + b 1 + b 2 + b 3 = 1 → ∀ k, k < dim →
      f (fun k => ∑ a ∈ Finset.range 4, b a * T a k) k = ∑ j ∈ Finset.range nfa, c j * val b j k)
    (mem udofs : Nat → K) :
    ∃ u, region sqrt nfa dim q w T xyl val f l mem udofs = some u ∧ (∀ j ∈ l, u j = c j) ∧ ∀ p, p ∉ l → u p = udofs p := by
  refine region_recovers hs hw _ _ hl hb hi mem udofs c hz (fun n hn k hk => ?_)
  rw [← hf _ (hx n hn) k hk]
  exact congrArg (fun x => f x k) (funext fun k => xyg_eq T xyl n k (hx n hn))

/-- **C48**: on the cell a member of the space gets all its coefficients, whatever the work memory contained. -/
theorem region_cell_recovers {sqrt : K → K} (hs : Geometry.IsSqrt sqrt) {nfa dim q : Nat} {w : Nat → K}
    (hw : ∀ n, n < q → 0 < w n) (T : Nat → Nat → K) (pp xyl : Nat → K) {val : (Nat → K) → Nat → Nat → K}
    (hval : ∀ b b' : Nat → K, (∀ a, a < 4 → b a = b' a) → val b = val b') (f : (Nat → K) → Nat → K)
    {l : List Nat} (hl : l.Nodup) (hb : ∀ j, j ∈ l ↔ j < nfa)
    (hx : ∀ n, n < q → pp (4 * n) + pp (4 * n + 1) + pp (4 * n + 2) + pp (4 * n + 3) = 1)
    (hi : Indep dim q l (fun n => val fun a => pp (4 * n + a))) (c : Nat → K)
    (hf : ∀ b : Nat → K, b 0 + b 1 + b 2 + b 3 = 1 → ∀ k, k < dim →
      f (fun k => ∑ a ∈ Finset.range 4, b a * T a k) k = ∑ j ∈ Finset.range nfa, c j * val b j k)
    (mem udofs : Nat → K) :
    ∃ u, region sqrt nfa dim q w T (cellPts pp q xyl) val f l mem udofs = some u ∧ ∀ j, j < nfa → u j = c j := by
  have hpt : ∀ n, n < q → val (fun a => cellPts pp q xyl (4 * n + a)) = val (fun a => pp (4 * n + a)) :=
    fun n hn => hval _ _ (fun a ha => cell_points pp xyl hn ha)
  obtain ⟨u, h1, h2, -⟩ := region_members_partial hs hw T (cellPts pp q xyl) val f hl (fun j hj => (hb j).1 hj)
    (fun n hn => by
      have h0 := cell_points pp xyl hn (show 0 < 4 by omega)
      rw [Nat.add_zero] at h0
      rw [h0, cell_points pp xyl hn (by omega), cell_points pp xyl hn (by omega), cell_points pp xyl hn (by omega)]
      exact hx n hn)
    (fun c hc => hi c (fun n hn k hk => by
      have := hc n hn k hk
      unfold comb at this ⊢
      dsimp only at this ⊢
      rwa [hpt n hn] at this))
    (fun n _ k _ j hj hjl => absurd ((hb j).2 hj) hjl) c hf mem udofs
  exact ⟨u, h1, fun j hj => h2 j ((hb j).2 hj)⟩

/-! ### Concrete cases -/

section examples

/-- the points of the two-point formula `(1/4, 3/4), (3/4, 1/4)` -/
def exP : Nat → Nat → Rat := fun n a => if n = a then 1 / 4 else 3 / 4

/-- the selection of nodes 1 and 3 of four: sources and destinations overlap -/
example : compactA 4 [1, 3] (fun i => (i : Rat)) 1 = 7 := by
  simpa using compactA_at (K := Rat) (ids := [1, 3]) (by decide) (nfa := 4) (by decide) (fun i => (i : Rat)) (i := 1) (j := 0)
    (by decide) (by decide)

/-- linear elements on edge 0 are independent on the two points -/
example : Indep 1 2 [0, 1] (fun n j _ => edgePts exP 0 2 (fun _ => 7) (4 * n + j)) := by
  refine p1_edge_indep (p := exP) (q := 2) (fun n hn => ?_) (n := 0) (m := 1) (by omega) (by omega) (by norm_num [exP]) _ ?_ ?_
  · interval_cases n <;> norm_num [exP]
  · intro n hn; exact edge_at exP (e := 0) (fun _ => 7) (by omega) hn (a := 0) (by omega)
  · intro n hn; exact edge_at exP (e := 0) (fun _ => 7) (by omega) hn (a := 1) (by omega)

/-- ... and dependent on one point: the interpolation throws there -/
example : ¬ Indep 1 1 [0, 1] (fun _ _ _ => (1 / 2 : Rat)) := by
  intro h
  have := h (fun j => if j = 0 then 1 else -1) (fun n _ k _ => by norm_num [comb]) 0 (by simp)
  norm_num at this

/-- linear elements on the cell, with points at distances from the vertices -/
example : Indep 1 4 [2, 0, 3, 1] (fun n j _ => if n = j then (7 / 10 : Rat) else 1 / 10) := by
  intro c hc
  have e0 := hc 0 (by omega) 0 (by omega)
  have e1 := hc 1 (by omega) 0 (by omega)
  have e2 := hc 2 (by omega) 0 (by omega)
  have e3 := hc 3 (by omega) 0 (by omega)
  norm_num [comb] at e0 e1 e2 e3
  intro j hj
  simp only [List.mem_cons, List.not_mem_nil, or_false] at hj
  rcases hj with rfl | rfl | rfl | rfl <;> linarith

/-- edge 4 of the unit tetrahedron in cleared memory: nodes 1 and 3 -/
example : xyg (K := Rat) unitTet (edgePts exP 4 2 (fun _ => 0)) 1 0 = 3 / 4 := by
  rw [edge_points_partial unitTet exP (fun _ => 0) (by omega) (by omega) (fun _ _ => rfl) (by norm_num [exP])]
  norm_num [exP, unitTet, Sparsity.edgeNodes]

/-- face 2 has the nodes 2, 3, 0; the coordinate of node 1 is not written -/
example : facePts (K := Rat) exP 2 2 (fun _ => 7) (4 * 1 + 1) = 7 :=
  face_points_wrong exP (fun _ => 7) (by omega) (by omega) (by omega) (by decide)

end examples

end Verif.Region
