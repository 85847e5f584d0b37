import Verif.Lemmas.SVD
import Verif.Props.Jacobi

/-!
C59, third part: `jacobiSVD`.
-/
namespace Verif.Dense

open Finset

/-- The result of the four steps after the Gram matrix, for the matrix `a` with `N` rows and `M` columns. -/
structure SVDFacts (eps : ℝ) (N M : Nat) (a : Nat → Nat → ℝ) (U S V : Nat → ℝ) : Prop where
  orthV : Orthonormal M M V
  nonneg : ∀ j, j < M → 0 ≤ S j
  decr : ∀ i j, i ≤ j → j < M → S j ≤ S i
  /-- `|A v|` is the singular value -/
  len : ∀ j, j < M → S j ^ 2 = ∑ i ∈ range N, (∑ t ∈ range M, a i t * ent M V t j) ^ 2
  big : ∀ j, j < M → eps < S j → ∀ i, i < N → ent N U i j * S j = ∑ t ∈ range M, a i t * ent M V t j
  small : ∀ j, j < M → S j ≤ eps → ∀ i, i < N → ent N U i j = 0
  /-- the images of two vectors are orthogonal up to the tolerance -/
  cross : ∀ j k, j < M → k < M → j ≠ k →
    (∑ i ∈ range N, (∑ t ∈ range M, a i t * ent M V t j) * (∑ t ∈ range M, a i t * ent M V t k)) ^ 2 ≤ (10 * M * M * eps) ^ 2
  compl : ∀ c, M ≤ c → c < N → len2 N (col N U c) = 1 ∨ len2 N (col N U c) ≤ eps ^ 2
  orthU : Orthonormal N M U → (∀ c, M ≤ c → c < N → eps ^ 2 < len2 N (col N U c)) → Orthonormal N N U

theorem gram_bil {N M : Nat} {a : Nat → Nat → ℝ} {g : Nat → ℝ}
    (hg : ∀ j, j < M → ∀ k, k < M → ent M g j k = ∑ i ∈ range N, a i j * a i k) (x y : Nat → ℝ) :
    bil M g x y = ∑ i ∈ range N, (∑ t ∈ range M, a i t * x t) * (∑ t ∈ range M, a i t * y t) := by
  unfold bil dotp mulV
  simp only [sum_mul_sum]
  rw [sum_comm]
  simp only [mul_sum]
  refine sum_congr rfl fun j hj => ?_
  rw [sum_comm]
  refine sum_congr rfl fun k hk => ?_
  rw [hg j (mem_range.1 hj) k (mem_range.1 hk), sum_mul, mul_sum]
  exact sum_congr rfl fun i _ => by ring

theorem svd_facts {eps : ℝ} (he : 0 ≤ eps) {N M : Nat} (hMN : M ≤ N) {a : Nat → Nat → ℝ} {g : Nat → ℝ}
    (hg : ∀ j, j < M → ∀ k, k < M → ent M g j k = ∑ i ∈ range N, a i j * a i k) {e0 V0 : Nat → ℝ} {r : (Nat → ℝ) × (Nat → ℝ)}
    (h : jacobiEigen eps M g e0 V0 = some r) (S0 U0 : Nat → ℝ) :
    SVDFacts eps N M a
      (completeCols eps N M (svdImages eps N M a (svdValues M (sortDesc M r).1 S0) (sortDesc M r).2 U0))
      (svdValues M (sortDesc M r).1 S0) (sortDesc M r).2 := by
  have hA : Symm M g := by
    intro j hj k hk
    rw [hg j hj k hk, hg k hk j hj]
    exact sum_congr rfl fun i _ => mul_comm _ _
  obtain ⟨x, hx, ho, hV, hval⟩ := eigen_state hA h
  obtain ⟨⟨π, ⟨π', hπ⟩, hs⟩, hdec⟩ := sortDesc_spec M r
  generalize sortDesc M r = w at *
  -- the columns
  have hcol : ∀ j, j < M → ∀ i, i < M → col M w.2 j i = col M x.V (π j) i := by
    intro j hj i hi
    unfold col
    rw [(hs j hj).2 i hi, ← hV]
  have hπi : ∀ j, j < M → ∀ k, k < M → (π j = π k ↔ j = k) := by
    intro j hj k hk
    constructor
    · intro e; rw [← (hπ j hj).2.2.1, ← (hπ k hk).2.2.1, e]
    · rintro rfl; rfl
  have horth : Orthonormal M M w.2 := by
    intro p hp q hq
    have := hx.orth (π p) (hπ p hp).1 (π q) (hπ q hq).1
    change dotp M (col M x.V (π p)) (col M x.V (π q)) = _ at this
    rw [if_congr (hπi p hp q hq) rfl rfl] at this
    rw [← this]
    exact dotp_congr (hcol p hp) (hcol q hq)
  have hbil : ∀ j, j < M → ∀ k, k < M → bil M g (col M w.2 j) (col M w.2 k) = ent M x.sym (π j) (π k) := by
    intro j hj k hk
    rw [hx.form _ (hπ j hj).1 _ (hπ k hk).1]
    exact bil_congr g (hcol j hj) (hcol k hk)
  have heval : ∀ j, j < M → w.1 j = ∑ i ∈ range N, (∑ t ∈ range M, a i t * ent M w.2 t j) ^ 2 := by
    intro j hj
    rw [(hs j hj).1, hval _ (hπ j hj).1, ← hbil j hj j hj, gram_bil hg]
    exact sum_congr rfl fun i _ => by rw [sq]; rfl
  have hnn : ∀ j, j < M → 0 ≤ w.1 j := by
    intro j hj; rw [heval j hj]; exact sum_nonneg fun _ _ => sq_nonneg _
  have hS : ∀ j, j < M → svdValues M w.1 S0 j = Real.sqrt (w.1 j) := by
    intro j hj; rw [svdValues_eq _ _ hj, max_eq_right (hnn j hj)]
  have hS2 : ∀ j, j < M → svdValues M w.1 S0 j ^ 2 = w.1 j := by
    intro j hj; rw [hS j hj, Real.sq_sqrt (hnn j hj)]
  have hc := completeCols_spec he hMN (svdImages eps N M a (svdValues M w.1 S0) w.2 U0)
  refine ⟨horth, ?_, ?_, ?_, ?_, ?_, ?_, ?_, ?_⟩
  · intro j hj; rw [hS j hj]; exact Real.sqrt_nonneg _
  · intro i j hij hj
    rw [hS j hj, hS i (by omega)]
    exact Real.sqrt_le_sqrt (hdec i j hij hj)
  · intro j hj; rw [hS2 j hj, heval j hj]
  · intro j hj hb i hi
    rw [hc.1 i hi j hj, svdImages_ent a _ _ _ hi hj, if_pos hb, div_mul_cancel₀]
    exact (lt_of_le_of_lt he hb).ne'
  · intro j hj hb i hi
    rw [hc.1 i hi j hj, svdImages_ent a _ _ _ hi hj, if_neg (not_lt.2 hb)]
  · intro j k hj hk hjk
    have e1 := gram_bil hg (col M w.2 j) (col M w.2 k)
    rw [hbil j hj k hk] at e1
    have e2 : ∑ i ∈ range N, (∑ t ∈ range M, a i t * ent M w.2 t j) * (∑ t ∈ range M, a i t * ent M w.2 t k)
        = ent M x.sym (π j) (π k) := e1.symm
    rw [e2]
    have := off_col (hx.symm hA) (hπ k hk).1
    refine le_trans ?_ (le_trans this (le_trans ho (le_of_eq (by unfold jacobiTol; ring))))
    refine single_le_sum (f := fun i => ent M x.sym i (π k) ^ 2) (fun _ _ => sq_nonneg _) ?_
    rw [mem_erase, mem_range]
    exact ⟨fun h => hjk ((hπi j hj k hk).1 h), (hπ j hj).1⟩
  · exact hc.2.1
  · intro hU hl
    exact hc.2.2 (orthonormal_congr (fun r hr c hc' => hc.1 r hr c hc') hU) hl

/-- The columns of `U` with singular values above `eps` have length one. -/
theorem SVDFacts.unit {eps : ℝ} (he : 0 ≤ eps) {N M : Nat} {a : Nat → Nat → ℝ} {U S V : Nat → ℝ} (h : SVDFacts eps N M a U S V)
    {j : Nat} (hj : j < M) (hb : eps < S j) : len2 N (fun i => ent N U i j) = 1 := by
  have hpos := lt_of_le_of_lt he hb
  have e := h.len j hj
  have : S j ^ 2 * len2 N (fun i => ent N U i j) = S j ^ 2 := by
    conv_rhs => rw [e]
    unfold len2
    rw [mul_sum]
    refine sum_congr rfl fun i hi => ?_
    rw [← h.big j hj hb i (mem_range.1 hi)]; ring
  exact mul_left_cancel₀ (pow_pos hpos 2).ne' (by rw [this, mul_one])

/-- `|A V - U S| ≤ eps` in every column. -/
theorem SVDFacts.column {eps : ℝ} {N M : Nat} {a : Nat → Nat → ℝ} {U S V : Nat → ℝ} (h : SVDFacts eps N M a U S V)
    {j : Nat} (hj : j < M) :
    ∑ i ∈ range N, (∑ t ∈ range M, a i t * ent M V t j - ent N U i j * S j) ^ 2 ≤ eps ^ 2 := by
  by_cases hb : eps < S j
  · rw [sum_eq_zero]
    · positivity
    · intro i hi
      rw [h.big j hj hb i (mem_range.1 hi), sub_self, zero_pow two_ne_zero]
  · have hb := not_lt.1 hb
    have : ∑ i ∈ range N, (∑ t ∈ range M, a i t * ent M V t j - ent N U i j * S j) ^ 2 = S j ^ 2 := by
      rw [h.len j hj]
      refine sum_congr rfl fun i hi => ?_
      rw [h.small j hj hb i (mem_range.1 hi), zero_mul, sub_zero]
    rw [this]
    have := h.nonneg j hj
    gcongr

/-- `A = U S V^T` up to an error with the sum of squares at most `M eps^2`. -/
theorem SVDFacts.product {eps : ℝ} {N M : Nat} {a : Nat → Nat → ℝ} {U S V : Nat → ℝ} (h : SVDFacts eps N M a U S V) :
    ∑ i ∈ range N, ∑ t ∈ range M, (a i t - ∑ j ∈ range M, ent N U i j * S j * ent M V t j) ^ 2 ≤ M * eps ^ 2 := by
  have key : ∀ i, ∑ t ∈ range M, (a i t - ∑ j ∈ range M, ent N U i j * S j * ent M V t j) ^ 2
      = ∑ j ∈ range M, (∑ t ∈ range M, a i t * ent M V t j - ent N U i j * S j) ^ 2 := by
    intro i
    have := h.orthV.len (fun t => a i t - ∑ j ∈ range M, ent N U i j * S j * ent M V t j)
    unfold len2 at this
    rw [← this]
    refine sum_congr rfl fun j hj => ?_
    congr 1
    unfold dotp col
    have e1 : ∀ t, ent M V t j * (a i t - ∑ k ∈ range M, ent N U i k * S k * ent M V t k)
        = a i t * ent M V t j - ∑ k ∈ range M, ent N U i k * S k * (ent M V t j * ent M V t k) := by
      intro t
      rw [mul_sub, mul_sum]
      congr 1
      · ring
      · exact sum_congr rfl fun k _ => by ring
    simp only [e1, sum_sub_distrib]
    congr 1
    rw [sum_comm]
    have e2 : ∀ k ∈ range M, ∑ t ∈ range M, ent N U i k * S k * (ent M V t j * ent M V t k)
        = ent N U i k * S k * if j = k then 1 else 0 := by
      intro k hk
      rw [← mul_sum]
      congr 1
      exact h.orthV j (mem_range.1 hj) k (mem_range.1 hk)
    rw [sum_congr rfl e2]
    simp only [mul_ite, mul_one, mul_zero, sum_ite_eq, hj, if_true]
  simp only [key]
  rw [sum_comm]
  calc _ ≤ ∑ _j ∈ range M, eps ^ 2 := sum_le_sum fun j hj => h.column (mem_range.1 hj)
    _ = M * eps ^ 2 := by rw [sum_const, card_range, nsmul_eq_mul]

/-- The facts about `U`, `S` and `V` when there are at least as many rows as columns. -/
theorem svd_tall {eps : ℝ} (he : 0 ≤ eps) {N M : Nat} (hMN : M ≤ N) {A : Nat → ℝ} {x r : SVD} {g e : Nat → ℝ}
    (h : jacobiSVD eps A N M x g e = some r) : SVDFacts eps N M (fun i t => ent N A i t) r.U r.S r.V := by
  unfold jacobiSVD at h
  rw [if_pos hMN, Option.map_eq_some_iff] at h
  obtain ⟨w, hw, rfl⟩ := h
  exact svd_facts he hMN (fun j hj k hk => gramAta_ent A N M g hj hk) hw x.S x.U

/-- The same with `U` and `V` exchanged and `A` transposed when there are more columns. -/
theorem svd_wide {eps : ℝ} (he : 0 ≤ eps) {N M : Nat} (hNM : N < M) {A : Nat → ℝ} {x r : SVD} {g e : Nat → ℝ}
    (h : jacobiSVD eps A N M x g e = some r) : SVDFacts eps M N (fun i t => ent N A t i) r.V r.S r.U := by
  unfold jacobiSVD at h
  rw [if_neg (by omega), Option.map_eq_some_iff] at h
  obtain ⟨w, hw, rfl⟩ := h
  exact svd_facts he hNM.le (fun j hj k hk => gramAat_ent A N M g hj hk) hw x.S x.V

/-- The singular values are not negative and decrease. -/
theorem svd_values {eps : ℝ} (he : 0 ≤ eps) {N M : Nat} {A : Nat → ℝ} {x r : SVD} {g e : Nat → ℝ}
    (h : jacobiSVD eps A N M x g e = some r) :
    (∀ j, j < min N M → 0 ≤ r.S j) ∧ ∀ i j, i ≤ j → j < min N M → r.S j ≤ r.S i := by
  by_cases hMN : M ≤ N
  · have f := svd_tall he hMN h
    rw [min_eq_right hMN]; exact ⟨f.nonneg, f.decr⟩
  · have f := svd_wide he (not_le.1 hMN) h
    rw [min_eq_left (not_le.1 hMN).le]; exact ⟨f.nonneg, f.decr⟩

/-- `A = U diag(S) V^T` up to an error with the sum of squares at most `K eps^2`, `K` the number of singular values. -/
theorem svd_product {eps : ℝ} (he : 0 ≤ eps) {N M : Nat} {A : Nat → ℝ} {x r : SVD} {g e : Nat → ℝ}
    (h : jacobiSVD eps A N M x g e = some r) :
    ∑ i ∈ range N, ∑ t ∈ range M, (ent N A i t - prodUSV N M (min N M) r.U r.S r.V i t) ^ 2 ≤ (min N M : Nat) * eps ^ 2 := by
  by_cases hMN : M ≤ N
  · have f := (svd_tall he hMN h).product
    rw [min_eq_right hMN]; exact f
  · have f := (svd_wide he (not_le.1 hMN) h).product
    rw [min_eq_left (not_le.1 hMN).le]
    refine le_trans (le_of_eq ?_) f
    rw [sum_comm]
    refine sum_congr rfl fun i _ => sum_congr rfl fun t _ => ?_
    congr 2
    unfold prodUSV
    exact sum_congr rfl fun j _ => by ring

/-- The product of two columns of `U` with singular values above `eps`. -/
theorem SVDFacts.inner {eps : ℝ} (he : 0 ≤ eps) {N M : Nat} {a : Nat → Nat → ℝ} {U S V : Nat → ℝ} (f : SVDFacts eps N M a U S V)
    {j k : Nat} (hj : j < M) (hk : k < M) (hjk : j ≠ k) (hb : eps < S j) (hb' : eps < S k) :
    |dotp N (fun i => ent N U i j) (fun i => ent N U i k)| ≤ 10 * M * M * eps / (S j * S k) := by
  have hc := f.cross j k hj hk hjk
  have e : ∑ i ∈ range N, (∑ t ∈ range M, a i t * ent M V t j) * (∑ t ∈ range M, a i t * ent M V t k)
      = S j * S k * dotp N (fun i => ent N U i j) (fun i => ent N U i k) := by
    unfold dotp
    rw [mul_sum]
    refine sum_congr rfl fun i hi => ?_
    rw [← f.big j hj hb i (mem_range.1 hi), ← f.big k hk hb' i (mem_range.1 hi)]; ring
  have hp : 0 < S j * S k := mul_pos (lt_of_le_of_lt he hb) (lt_of_le_of_lt he hb')
  rw [e] at hc
  have h2 := abs_le_of_sq_le_sq hc (by positivity)
  rw [abs_mul, abs_of_pos hp] at h2
  rw [le_div_iff₀ hp]
  linarith

/-- With at least as many rows as columns `V` is orthonormal; the columns of `U` of singular values above `eps` have
length one and the product of two of them is at most `tol` over the product of the singular values.  Missing: the
orthonormality of `U`, which does not hold (`svd_rank_wrong`, `svd_completion_wrong`). -/
theorem svd_orthonormal_partial {eps : ℝ} (he : 0 ≤ eps) {N M : Nat} {A : Nat → ℝ} {x r : SVD} {g e : Nat → ℝ}
    (h : jacobiSVD eps A N M x g e = some r) (hMN : M ≤ N) :
    Orthonormal M M r.V ∧ (∀ j, j < M → eps < r.S j → len2 N (fun i => ent N r.U i j) = 1) ∧
    ∀ j k, j < M → k < M → j ≠ k → eps < r.S j → eps < r.S k →
      |dotp N (fun i => ent N r.U i j) (fun i => ent N r.U i k)| ≤ 10 * M * M * eps / (r.S j * r.S k) := by
  have f := svd_tall he hMN h
  exact ⟨f.orthV, fun j hj hb => f.unit he hj hb, fun j k hj hk hjk hb hb' => f.inner he hj hk hjk hb hb'⟩

/-- With more columns than rows the same holds with `U` and `V` exchanged.  Missing: the orthonormality of `V`. -/
theorem svd_orthonormal_wide_partial {eps : ℝ} (he : 0 ≤ eps) {N M : Nat} {A : Nat → ℝ} {x r : SVD} {g e : Nat → ℝ}
    (h : jacobiSVD eps A N M x g e = some r) (hNM : N < M) :
    Orthonormal N N r.U ∧ (∀ j, j < N → eps < r.S j → len2 M (fun i => ent M r.V i j) = 1) ∧
    ∀ j k, j < N → k < N → j ≠ k → eps < r.S j → eps < r.S k →
      |dotp M (fun i => ent M r.V i j) (fun i => ent M r.V i k)| ≤ 10 * N * N * eps / (r.S j * r.S k) := by
  have f := svd_wide he hNM h
  exact ⟨f.orthV, fun j hj hb => f.unit he hj hb, fun j k hj hk hjk hb hb' => f.inner he hj hk hjk hb hb'⟩

/-- The completed columns: when the first columns are orthonormal and no completed column has vanished, all of them are. -/
theorem svd_completion_partial {eps : ℝ} (he : 0 ≤ eps) {N M : Nat} {A : Nat → ℝ} {x r : SVD} {g e : Nat → ℝ}
    (h : jacobiSVD eps A N M x g e = some r) (hMN : M ≤ N) (hU : Orthonormal N M r.U)
    (hl : ∀ c, M ≤ c → c < N → eps ^ 2 < len2 N (fun i => ent N r.U i c)) : Orthonormal N N r.U :=
  (svd_tall he hMN h).orthU hU hl

/-- Two rows or columns: the method never fails. -/
theorem svd_two {eps : ℝ} (he : 0 ≤ eps) {N M : Nat} (hK : min N M ≤ 2) (A : Nat → ℝ) (x : SVD) (g e : Nat → ℝ) :
    (jacobiSVD eps A N M x g e).isSome := by
  unfold jacobiSVD
  split
  · rename_i h
    rw [Option.isSome_map]
    refine eigen_two he (by omega) ?_ _ _
    intro j hj k hk
    rw [gramAta_ent A N M g hj hk, gramAta_ent A N M g hk hj]
    exact sum_congr rfl fun i _ => mul_comm _ _
  · rename_i h
    rw [Option.isSome_map]
    refine eigen_two he (by omega) ?_ _ _
    intro j hj k hk
    rw [gramAat_ent A N M g hj hk, gramAat_ent A N M g hk hj]
    exact sum_congr rfl fun i _ => mul_comm _ _

/-- A singular value of at most `eps` leaves a zero column in `U`, which is then not orthogonal. (geometry.h:694-697) -/
theorem svd_rank_wrong {eps : ℝ} (he : 0 ≤ eps) {N M : Nat} {A : Nat → ℝ} {x r : SVD} {g e : Nat → ℝ}
    (h : jacobiSVD eps A N M x g e = some r) (hMN : M ≤ N) {j : Nat} (hj : j < M) (hs : r.S j ≤ eps) :
    ¬ Orthonormal N N r.U := by
  intro ho
  have f := svd_tall he hMN h
  have := ho j (by omega) j (by omega)
  rw [if_pos rfl] at this
  unfold dotp at this
  rw [sum_eq_zero] at this
  · exact zero_ne_one this
  · intro i hi
    beta_reduce
    rw [f.small j hj hs i (mem_range.1 hi), zero_mul]

/-- It happens for the zero matrix of order two: the call succeeds and `U` is not orthogonal. -/
theorem svd_zero_wrong {eps : ℝ} (he : 0 ≤ eps) (x : SVD) (g e : Nat → ℝ) :
    ∃ r, jacobiSVD eps (fun _ => 0) 2 2 x g e = some r ∧ ¬ Orthonormal 2 2 r.U := by
  obtain ⟨r, hr⟩ := Option.isSome_iff_exists.1 (svd_two he (N := 2) (M := 2) (by omega) (fun _ => 0) x g e)
  refine ⟨r, hr, svd_rank_wrong he hr le_rfl (j := 0) (by omega) ?_⟩
  have f := svd_tall he le_rfl hr
  have := f.len 0 (by omega)
  simp [ent] at this
  rw [this]; exact he

/-- With one more row than columns both candidates for the last column of `U` are the first unit vector: of the column
`(d, 0)` the code completes `U` by a zero column. (geometry.h:578, 592) -/
theorem svd_completion_wrong {eps d : ℝ} (he : 0 ≤ eps) (hd : eps < d) (x : SVD) (g e : Nat → ℝ) :
    ∃ r, jacobiSVD eps (fun p => if p = 0 then d else 0) 2 1 x g e = some r ∧ r.S 0 = d ∧ ¬ Orthonormal 2 2 r.U := by
  obtain ⟨r, hr⟩ := Option.isSome_iff_exists.1 (svd_two he (N := 2) (M := 1) (by omega) (fun p => if p = 0 then d else 0) x g e)
  have hd0 : 0 < d := lt_of_le_of_lt he hd
  have f := svd_tall he (by omega) hr
  have hV : ent 1 r.V 0 0 ^ 2 = 1 := by
    have := f.orthV 0 (by omega) 0 (by omega)
    simpa [dotp, sq] using this
  have hS2 : r.S 0 ^ 2 = d ^ 2 := by
    rw [f.len 0 (by omega)]
    simp [sum_range_succ, ent]
    rw [mul_pow]
    unfold ent at hV
    simp only [Nat.zero_mul, Nat.add_zero] at hV
    rw [hV, mul_one]
  have hS : r.S 0 = d := by
    have h0 := f.nonneg 0 (by omega)
    nlinarith [sq_nonneg (r.S 0 - d)]
  refine ⟨r, hr, hS, fun ho => ?_⟩
  -- the first column of `U` is `(±1, 0)`
  have hb : eps < r.S 0 := by rw [hS]; exact hd
  have hU1 : ent 2 r.U 1 0 = 0 := by
    have := f.big 0 (by omega) hb 1 (by omega)
    rw [hS] at this
    simp [ent] at this
    rcases this with h | h
    · exact h
    · exact absurd h hd0.ne'
  have hU0 : ent 2 r.U 0 0 ^ 2 = 1 := by
    have := f.unit he (by omega) hb
    simp only [len2, sum_range_succ, range_zero, sum_empty, zero_add] at this
    rw [hU1] at this
    simpa using this
  -- the last column vanishes
  unfold jacobiSVD at hr
  rw [if_pos (by omega), Option.map_eq_some_iff] at hr
  obtain ⟨w, _, hw⟩ := hr
  simp only [] at hw
  have hU : r.U = completeCols eps 2 1 (svdImages eps 2 1 (fun i t => (fun p => if p = 0 then d else 0) (i + t * 2))
      (svdValues 1 (sortDesc 1 w).1 x.S) (sortDesc 1 w).2 x.U) := by rw [← hw]
  generalize svdImages eps 2 1 (fun i t => (fun p => if p = 0 then d else 0) (i + t * 2))
      (svdValues 1 (sortDesc 1 w).1 x.S) (sortDesc 1 w).2 x.U = q at hU
  have hq := (completeCols_spec he (n := 2) (done := 1) (by omega) q).1
  have hq0 : ent 2 q 0 0 ^ 2 = 1 := by rw [← hq 0 (by omega) 0 (by omega), ← hU]; exact hU0
  have hq1 : ent 2 q 1 0 = 0 := by rw [← hq 1 (by omega) 0 (by omega), ← hU]; exact hU1
  have hone : completeCols eps 2 1 q = completeCol eps 2 1 1 q := by simp [completeCols, loop]
  -- a candidate is reduced to zero
  have hzero : ∀ q' : Nat → ℝ, ent 2 q' 0 0 ^ 2 = 1 → ent 2 q' 1 0 = 0 →
      (∀ i, i < 2 → ent 2 (gramSchmidt 2 1 (unitCol 2 1 0 q')) i 1 = 0) ∧
      (∀ i, i < 2 → ent 2 (gramSchmidt 2 1 (unitCol 2 1 0 q')) i 0 = ent 2 q' i 0) := by
    intro q' h0 h1
    have hs := gramSchmidt_spec (n := 2) (j := 1) (unitCol 2 1 0 q')
    have hu : ∀ i, i < 2 → ent 2 (unitCol 2 1 0 q') i 0 = ent 2 q' i 0 := fun i hi => by rw [unitCol_ent _ hi]; simp
    refine ⟨?_, fun i hi => by rw [hs.1 i hi 0 (by omega), hu i hi]⟩
    have hu1 : ∀ i, i < 2 → ent 2 (unitCol 2 1 0 q') i 1 = if i = 0 then 1 else 0 := fun i hi => by rw [unitCol_ent _ hi]; simp
    generalize unitCol 2 1 0 q' = u at hu hu1
    have hu00 := hu 0 (by omega)
    have hu10 := hu 1 (by omega)
    have hu01 := hu1 0 (by omega)
    have hu11 := hu1 1 (by omega)
    rw [← hu00] at h0
    rw [← hu10] at h1
    change u 0 ^ 2 = 1 at h0
    change u 1 = 0 at h1
    change u 2 = 1 at hu01
    change u 3 = 0 at hu11
    have hg : gramSchmidt 2 1 u = wr (wr u 2 (u 2 - (0 + u 0 * u 2 + u 1 * u 3) * u 0)) 3
        (wr u 2 (u 2 - (0 + u 0 * u 2 + u 1 * u 3) * u 0) 3
          - (0 + u 0 * u 2 + u 1 * u 3) * wr u 2 (u 2 - (0 + u 0 * u 2 + u 1 * u 3) * u 0) 1) := rfl
    rw [hg]
    intro i hi
    have : i = 0 ∨ i = 1 := by omega
    rcases this with rfl | rfl
    · show wr _ 3 _ 2 = 0
      rw [wr_ne _ _ (by omega), wr_same, hu01, hu11]
      linear_combination -h0
    · show wr _ 3 _ 3 = 0
      rw [wr_same, wr_ne _ _ (by omega), wr_ne _ _ (by omega), hu11, h1]
      ring
  have h1 := hzero q hq0 hq1
  have hn1 : ∀ q' : Nat → ℝ, (∀ i, i < 2 → ent 2 q' i 1 = 0) → colNorm 2 1 q' = 0 := by
    intro q' h
    rw [colNorm_eq]
    have : len2 2 (col 2 q' 1) = 0 := by
      unfold len2 col
      exact sum_eq_zero fun i hi => by rw [h i (mem_range.1 hi)]; ring
    rw [this, Real.sqrt_zero]
  have h2 := hzero (gramSchmidt 2 1 (unitCol 2 1 0 q)) (by rw [h1.2 0 (by omega)]; exact hq0)
    (by rw [h1.2 1 (by omega)]; exact hq1)
  have hfin : completeCol eps 2 1 1 q = gramSchmidt 2 1 (unitCol 2 1 0 (gramSchmidt 2 1 (unitCol 2 1 0 q))) := by
    unfold completeCol
    simp only [Nat.sub_self, Nat.zero_mod, Nat.reduceAdd, Nat.mod_self]
    have p1 : colNorm 2 1 (gramSchmidt 2 1 (unitCol 2 1 0 q)) ≤ eps := by rw [hn1 _ h1.1]; exact he
    have p2 : ¬ colNorm 2 1 (gramSchmidt 2 1 (unitCol 2 1 0 (gramSchmidt 2 1 (unitCol 2 1 0 q)))) > eps := by
      rw [hn1 _ h2.1]; exact not_lt.2 he
    simp only [p1, p2, if_true, if_false]
  have := ho 1 (by omega) 1 (by omega)
  rw [if_pos rfl, hU, hone, hfin] at this
  unfold dotp at this
  rw [sum_eq_zero] at this
  · exact zero_ne_one this
  · intro i hi
    beta_reduce
    rw [h2.1 i (mem_range.1 hi), zero_mul]

/-! A case: a matrix of three rows and two columns. -/

example : ∃ r, jacobiSVD (1/2^52) (fun p => (p : ℝ) ^ 2 - 3) 3 2 ⟨fun _ => 7, fun _ => 7, fun _ => 7⟩ (fun _ => 7) (fun _ => 7)
    = some r ∧ Orthonormal 2 2 r.V ∧ r.S 1 ≤ r.S 0 := by
  obtain ⟨r, hr⟩ := Option.isSome_iff_exists.1 (svd_two (eps := 1/2^52) (by norm_num) (N := 3) (M := 2) (by omega)
    (fun p => (p : ℝ) ^ 2 - 3) ⟨fun _ => 7, fun _ => 7, fun _ => 7⟩ (fun _ => 7) (fun _ => 7))
  exact ⟨r, hr, (svd_orthonormal_partial (by norm_num) hr (by omega)).1,
    (svd_values (by norm_num) hr).2 0 1 (by omega) (by simp)⟩

example : ∃ r, jacobiSVD (1/2^52) (fun p => (p : ℝ) ^ 2 - 3) 2 3 ⟨fun _ => 7, fun _ => 7, fun _ => 7⟩ (fun _ => 7) (fun _ => 7)
    = some r ∧ Orthonormal 2 2 r.U := by
  obtain ⟨r, hr⟩ := Option.isSome_iff_exists.1 (svd_two (eps := 1/2^52) (by norm_num) (N := 2) (M := 3) (by omega)
    (fun p => (p : ℝ) ^ 2 - 3) ⟨fun _ => 7, fun _ => 7, fun _ => 7⟩ (fun _ => 7) (fun _ => 7))
  exact ⟨r, hr, (svd_orthonormal_wide_partial (by norm_num) hr (by omega)).1⟩

end Verif.Dense
