import Verif.Lemmas.JacobiOff
import Verif.Lemmas.LU2

/-!
The loops of `sort_eigen_desc`, `complete_orthonormal_cols`, `gram_ata`, `gram_aat` and `jacobiSVD`.
-/
namespace Verif.Dense

open Finset

/-! ## Sorting -/

theorem sortBest_spec {n i : Nat} (hi : i < n) (e : Nat → ℝ) :
    i ≤ sortBest n i e ∧ sortBest n i e < n ∧ ∀ j, i ≤ j → j < n → e j ≤ e (sortBest n i e) := by
  unfold sortBest
  refine loop_ind (fun m b => i ≤ b ∧ b < n ∧ ∀ j, i ≤ j → j < m → e j ≤ e b) hi ?_ ?_
  · exact ⟨le_rfl, hi, fun j h1 h2 => by rw [show j = i by omega]⟩
  · intro j b h1 h2 ⟨h3, h4, h5⟩
    split
    · rename_i h
      refine ⟨by omega, h2, fun j' h6 h7 => ?_⟩
      by_cases e' : j' = j
      · rw [e']
      · exact (h5 j' h6 (by omega)).trans h.le
    · rename_i h
      refine ⟨h3, h4, fun j' h6 h7 => ?_⟩
      by_cases e' : j' = j
      · rw [e']; exact not_lt.1 h
      · exact h5 j' h6 (by omega)

/-- The pairs of values and columns are permuted; the values become decreasing. -/
theorem sortDesc_spec (n : Nat) (x : (Nat → ℝ) × (Nat → ℝ)) :
    (∃ π, PermOn n π ∧ ∀ j, j < n → (sortDesc n x).1 j = x.1 (π j) ∧
      ∀ i, i < n → ent n (sortDesc n x).2 i j = ent n x.2 i (π j)) ∧
    ∀ a b, a ≤ b → b < n → (sortDesc n x).1 b ≤ (sortDesc n x).1 a := by
  have := loop_ind (fun k (y : (Nat → ℝ) × (Nat → ℝ)) =>
      (∃ π, PermOn n π ∧ ∀ j, j < n → y.1 j = x.1 (π j) ∧ ∀ i, i < n → ent n y.2 i j = ent n x.2 i (π j)) ∧
      ∀ a b, a < k → a ≤ b → b < n → y.1 b ≤ y.1 a)
    (a := 0) (b := n) (f := fun i x =>
    let best := sortBest n i x.1
    if best = i then x
    else (swapAt x.1 i best, loop 0 n (fun k e => swapAt e (k + i * n) (k + best * n)) x.2)) (s := x) (Nat.zero_le n)
    ⟨⟨id, PermOn.id n, fun j _ => ⟨rfl, fun _ _ => rfl⟩⟩, fun a b h => by omega⟩ ?_
  · exact ⟨this.1, fun a b h1 h2 => this.2 a b (by omega) h1 h2⟩
  · intro i y _ hi ⟨⟨π, hπ, hy⟩, hd⟩
    have hb := sortBest_spec hi y.1
    simp only []
    generalize sortBest n i y.1 = best at hb
    obtain ⟨h1, h2, h3⟩ := hb
    split
    · rename_i e
      subst e
      refine ⟨⟨π, hπ, hy⟩, fun a b h4 h5 h6 => ?_⟩
      by_cases e : a = best
      · rw [e]; exact h3 b (by omega) h6
      · exact hd a b (by omega) h5 h6
    · refine ⟨⟨swapAt π i best, hπ.swap hi h2, fun j hj => ?_⟩, fun a b h4 h5 h6 => ?_⟩
      · have hs := sw_lt hi h2 hj
        rw [swapAt_sw]
        refine ⟨?_, fun r hr => ?_⟩
        · show swapAt y.1 i best j = _
          rw [swapAt_sw]; exact (hy _ hs).1
        · have : ent n (loop 0 n (fun k e => swapAt e (k + i * n) (k + best * n)) y.2) r j = ent n y.2 r (sw i best j) :=
            swapCols_ent hi h2 y.2 hr hj
          rw [this]
          exact (hy _ hs).2 r hr
      · show swapAt y.1 i best b ≤ swapAt y.1 i best a
        rw [swapAt_sw, swapAt_sw]
        by_cases e : a = i
        · subst e
          have : sw a best a = best := by unfold sw; rw [if_pos rfl]
          rw [this]
          exact h3 _ ((sw_ge h1).2 h5) (sw_lt hi h2 h6)
        · have ha : a < i := by omega
          rw [sw_of_lt h1 ha]
          refine hd a _ ha ?_ (sw_lt hi h2 h6)
          by_cases hb : b < i
          · rw [sw_of_lt h1 hb]; exact h5
          · have := (sw_ge h1 (z := b)).2 (by omega); omega

/-! ## Gram matrices -/

theorem gram_ent {m : Nat} (f : Nat → Nat → ℝ) (hf : ∀ j k, f j k = f k j) (g : Nat → ℝ) {r c : Nat} (hr : r < m)
    (hc : c < m) : ent m (loop 0 m (fun j g => loop j m (fun k g => wr (wr g (k + j * m) (f j k)) (j + k * m) (f j k)) g) g) r c
      = f r c := by
  have := loop_ind (fun l (G : Nat → ℝ) => ∀ r, r < m → ∀ c, c < m → (r < l ∨ c < l) → ent m G r c = f r c)
    (a := 0) (b := m) (f := fun j g => loop j m (fun k g => wr (wr g (k + j * m) (f j k)) (j + k * m) (f j k)) g) (s := g)
    (Nat.zero_le m) (fun r _ c _ h => by omega) ?_
  · exact this r hr c hc (Or.inl hr)
  · intro j G _ hj ih r hr c hc h
    refine loop_ind (fun l (G : Nat → ℝ) => ∀ r, r < m → ∀ c, c < m → (r < j ∨ c < j ∨ (r = j ∧ c < l) ∨ (c = j ∧ r < l)) →
      ent m G r c = f r c) hj.le (fun r hr c hc h => ih r hr c hc (by omega)) ?_ r hr c hc (by omega)
    intro k G h1 hk ih r hr c hc h
    rw [ent_wr _ _ hj hr, ent_wr _ _ hk hr]
    split
    · rename_i e; rw [e.1, e.2]
    · split
      · rename_i e; rw [e.1, e.2, hf]
      · exact ih r hr c hc (by omega)

theorem gramAta_ent (a : Nat → ℝ) (n m : Nat) (g : Nat → ℝ) {j k : Nat} (hj : j < m) (hk : k < m) :
    ent m (gramAta a n m g) j k = ∑ i ∈ range n, ent n a i j * ent n a i k := by
  unfold gramAta
  have hs : ∀ j k, loop 0 n (fun i s => s + a (i + j * n) * a (i + k * n)) 0 = ∑ i ∈ range n, ent n a i j * ent n a i k := by
    intro j k
    rw [loop_sum_ico (fun i => a (i + j * n) * a (i + k * n)) 0 (Nat.zero_le n), zero_add, ← range_eq_Ico]; rfl
  simp only [hs]
  exact gram_ent (fun j k => ∑ i ∈ range n, ent n a i j * ent n a i k)
    (fun j k => sum_congr rfl fun i _ => mul_comm _ _) g hj hk

theorem gramAat_ent (a : Nat → ℝ) (n m : Nat) (g : Nat → ℝ) {j k : Nat} (hj : j < n) (hk : k < n) :
    ent n (gramAat a n m g) j k = ∑ i ∈ range m, ent n a j i * ent n a k i := by
  unfold gramAat
  have hs : ∀ j k, loop 0 m (fun i s => s + a (j + i * n) * a (k + i * n)) 0 = ∑ i ∈ range m, ent n a j i * ent n a k i := by
    intro j k
    rw [loop_sum_ico (fun i => a (j + i * n) * a (k + i * n)) 0 (Nat.zero_le m), zero_add, ← range_eq_Ico]; rfl
  simp only [hs]
  exact gram_ent (fun j k => ∑ i ∈ range m, ent n a j i * ent n a k i)
    (fun j k => sum_congr rfl fun i _ => mul_comm _ _) g hj hk

/-! ## Completion -/

theorem writeCol_ent {n j : Nat} (f : Nat → ℝ) (q : Nat → ℝ) {r c : Nat} (hr : r < n) :
    ent n (loop 0 n (fun i q => wr q (i + j * n) (f i)) q) r c = if c = j then f r else ent n q r c := by
  have := loop_ind (fun m (Y : Nat → ℝ) => ∀ r, r < n → ∀ c, ent n Y r c =
      if c = j ∧ r < m then f r else ent n q r c)
    (a := 0) (b := n) (f := fun i q => wr q (i + j * n) (f i)) (s := q) (Nat.zero_le n)
    (fun r _ c => by rw [if_neg (by omega)]) ?_ r hr c
  · rw [this]; simp [hr]
  · intro i Y _ hi ih r hr c
    rw [ent_wr _ _ hi hr]
    by_cases h : r = i ∧ c = j
    · rw [if_pos h, if_pos (by omega), h.1]
    · rw [if_neg h, ih r hr c]
      by_cases h' : c = j ∧ r < i
      · rw [if_pos h', if_pos (by omega)]
      · rw [if_neg h', if_neg (by omega)]

theorem mapCol_ent {n j : Nat} (F : Nat → ℝ → (Nat → ℝ) → ℝ)
    (hF : ∀ i x q q', (∀ r, r < n → ∀ c, c ≠ j → ent n q r c = ent n q' r c) → F i x q = F i x q') (q : Nat → ℝ)
    {r c : Nat} (hr : r < n) : ent n (loop 0 n (fun i q => wr q (i + j * n) (F i (q (i + j * n)) q)) q) r c =
      if c = j then F r (ent n q r j) q else ent n q r c := by
  have := loop_ind (fun m (Y : Nat → ℝ) => ∀ r, r < n → ∀ c, ent n Y r c =
      if c = j ∧ r < m then F r (ent n q r j) q else ent n q r c)
    (a := 0) (b := n) (f := fun i q => wr q (i + j * n) (F i (q (i + j * n)) q)) (s := q) (Nat.zero_le n)
    (fun r _ c => by rw [if_neg (by omega)]) ?_ r hr c
  · rw [this]; simp [hr]
  · intro i Y _ hi ih r hr c
    rw [ent_wr _ _ hi hr]
    have e : Y (i + j * n) = ent n q i j := by have := ih i hi j; rwa [if_neg (by omega)] at this
    rw [e, hF i _ Y q (fun r hr c hc => by rw [ih r hr c, if_neg (by omega)])]
    by_cases h : r = i ∧ c = j
    · rw [if_pos h, if_pos (by omega), h.1]
    · rw [if_neg h, ih r hr c]
      by_cases h' : c = j ∧ r < i
      · rw [if_pos h', if_pos (by omega)]
      · rw [if_neg h', if_neg (by omega)]

/-- other columns stay; the column is orthogonal to the columns before when these are orthonormal -/
theorem gramSchmidt_spec {n j : Nat} (q : Nat → ℝ) :
    (∀ r, r < n → ∀ c, c ≠ j → ent n (gramSchmidt n j q) r c = ent n q r c) ∧
    (Orthonormal n j q → ∀ a, a < j → dotp n (col n q a) (col n (gramSchmidt n j q) j) = 0) := by
  unfold gramSchmidt
  refine loop_ind (fun m (y : Nat → ℝ) => (∀ r, r < n → ∀ c, c ≠ j → ent n y r c = ent n q r c) ∧
    (Orthonormal n j q → ∀ a, a < m → dotp n (col n q a) (col n y j) = 0)) (Nat.zero_le j)
    ⟨fun _ _ _ _ => rfl, fun _ a h => by omega⟩ ?_
  intro c y _ hc ⟨h1, h2⟩
  have hdot : loop 0 n (fun i d => d + y (i + c * n) * y (i + j * n)) 0 = dotp n (col n q c) (col n y j) := by
    rw [loop_sum_ico (fun i => y (i + c * n) * y (i + j * n)) 0 (Nat.zero_le n), zero_add, ← range_eq_Ico]
    unfold dotp col
    refine sum_congr rfl fun i hi => ?_
    rw [← h1 i (mem_range.1 hi) c (by omega)]; rfl
  simp only [hdot]
  have hent : ∀ r, r < n → ∀ b, ent n (loop 0 n (fun i q_1 => wr q_1 (i + j * n)
      (q_1 (i + j * n) - dotp n (col n q c) (col n y j) * q_1 (i + c * n))) y) r b =
      if b = j then ent n y r j - dotp n (col n q c) (col n y j) * ent n q r c else ent n y r b := by
    intro r hr b
    have := mapCol_ent (n := n) (j := j)
      (fun i x q' => if i < n then x - dotp n (col n q c) (col n y j) * q' (i + c * n) else 0) (by
      intro i x q1 q2 h
      by_cases hi : i < n
      · have := h i hi c (by omega)
        simp only [hi, if_true]
        unfold ent at this
        rw [this]
      · simp only [hi, if_false]) y hr (c := b)
    have e : loop 0 n (fun i q_1 => wr q_1 (i + j * n)
        (q_1 (i + j * n) - dotp n (col n q c) (col n y j) * q_1 (i + c * n))) y =
        loop 0 n (fun i q_1 => wr q_1 (i + j * n)
          (if i < n then q_1 (i + j * n) - dotp n (col n q c) (col n y j) * q_1 (i + c * n) else 0)) y :=
      loop_congr fun i s _ hi => by simp only [hi, if_true]
    rw [e, this]
    by_cases hb : b = j
    · rw [if_pos hb, if_pos hb, if_pos hr, ← h1 r hr c (by omega)]; rfl
    · rw [if_neg hb, if_neg hb]
  refine ⟨fun r hr b hb => by rw [hent r hr b, if_neg hb, h1 r hr b hb], fun ho a ha => ?_⟩
  have e : dotp n (col n q a) (col n _ j) = dotp n (col n q a) (fun r => 1 * col n y j r + -dotp n (col n q c) (col n y j) * col n q c r) :=
    dotp_congr (fun _ _ => rfl) fun r hr => by
      show ent n _ r j = _
      rw [hent r hr j, if_pos rfl]; unfold col; ring
  rw [e, dotp_add_right]
  have ho' := ho a (by omega) c hc
  change dotp n (col n q a) (col n q c) = _ at ho'
  rw [ho']
  by_cases hac : a = c
  · subst hac; simp
  · rw [h2 ho a (by omega), if_neg hac]; ring

theorem unitCol_ent {n j e : Nat} (q : Nat → ℝ) {r c : Nat} (hr : r < n) :
    ent n (unitCol n j e q) r c = if c = j then (if r = e then 1 else 0) else ent n q r c := by
  unfold unitCol
  exact writeCol_ent (fun i => if i = e then 1 else 0) q hr

theorem colNorm_eq (n j : Nat) (q : Nat → ℝ) : colNorm n j q = Real.sqrt (len2 n (col n q j)) := by
  unfold colNorm len2
  rw [loop_sum_ico (fun i => q (i + j * n) * q (i + j * n)) 0 (Nat.zero_le n), zero_add, ← range_eq_Ico]
  congr 1
  exact sum_congr rfl fun i _ => by unfold col ent; ring

theorem len2_nonneg (n : Nat) (x : Nat → ℝ) : 0 ≤ len2 n x := sum_nonneg fun _ _ => sq_nonneg _

theorem colNorm_sq (n j : Nat) (q : Nat → ℝ) : colNorm n j q ^ 2 = len2 n (col n q j) := by
  rw [colNorm_eq, Real.sq_sqrt (len2_nonneg _ _)]

theorem orthonormal_congr {n m : Nat} {q q' : Nat → ℝ} (h : ∀ r, r < n → ∀ c, c < m → ent n q r c = ent n q' r c) :
    Orthonormal n m q → Orthonormal n m q' := by
  intro ho a ha b hb
  rw [← ho a ha b hb]
  exact dotp_congr (fun r hr => (h r hr a ha).symm) fun r hr => (h r hr b hb).symm

/-- a completed column: other columns stay; it has length one or at most `eps`; it is orthogonal to the columns before
when these are orthonormal -/
theorem completeCol_spec {eps : ℝ} (he : 0 ≤ eps) {n done j : Nat} (q : Nat → ℝ) :
    (∀ r, r < n → ∀ c, c ≠ j → ent n (completeCol eps n done j q) r c = ent n q r c) ∧
    (len2 n (col n (completeCol eps n done j q) j) = 1 ∨ len2 n (col n (completeCol eps n done j q) j) ≤ eps ^ 2) ∧
    (Orthonormal n j q → ∀ a, a < j → dotp n (col n q a) (col n (completeCol eps n done j q) j) = 0) := by
  -- one candidate
  have cand : ∀ e (q' : Nat → ℝ), (∀ r, r < n → ∀ c, c ≠ j → ent n q' r c = ent n q r c) →
      (∀ r, r < n → ∀ c, c ≠ j → ent n (gramSchmidt n j (unitCol n j e q')) r c = ent n q r c) ∧
      (Orthonormal n j q → ∀ a, a < j → dotp n (col n q a) (col n (gramSchmidt n j (unitCol n j e q')) j) = 0) := by
    intro e q' h
    have hg := gramSchmidt_spec (n := n) (j := j) (unitCol n j e q')
    have hu : ∀ r, r < n → ∀ c, c ≠ j → ent n (unitCol n j e q') r c = ent n q r c := by
      intro r hr c hc; rw [unitCol_ent _ hr, if_neg hc, h r hr c hc]
    refine ⟨fun r hr c hc => by rw [hg.1 r hr c hc, hu r hr c hc], fun ho a ha => ?_⟩
    rw [← hg.2 (orthonormal_congr (fun r hr c hc => (hu r hr c (by omega)).symm) ho) a ha]
    exact dotp_congr (fun r hr => (hu r hr a (by omega)).symm) fun _ _ => rfl
  unfold completeCol
  simp only []
  generalize hq1 : gramSchmidt n j (unitCol n j ((j - done) % n) q) = q1
  have c1 := cand ((j - done) % n) q (fun _ _ _ _ => rfl)
  rw [hq1] at c1
  have c2 := cand ((j + 1) % n) q1 c1.1
  generalize hq2 : (if colNorm n j q1 ≤ eps then gramSchmidt n j (unitCol n j ((j + 1) % n) q1) else q1) = q2
  have c3 : (∀ r, r < n → ∀ c, c ≠ j → ent n q2 r c = ent n q r c) ∧
      (Orthonormal n j q → ∀ a, a < j → dotp n (col n q a) (col n q2 j) = 0) := by
    rw [← hq2]; split
    · exact c2
    · exact c1
  split
  · rename_i hn
    have hpos : 0 < colNorm n j q2 := lt_of_le_of_lt he hn
    have hent := fun r hr c => mapCol_ent (n := n) (j := j) (fun _ x _ => x / colNorm n j q2) (fun _ _ _ _ _ => rfl) q2 (r := r) (c := c) hr
    refine ⟨fun r hr c hc => by rw [hent r hr c, if_neg hc, c3.1 r hr c hc], Or.inl ?_, fun ho a ha => ?_⟩
    · have : len2 n (col n q2 j) / colNorm n j q2 ^ 2 = 1 := by
        rw [← colNorm_sq, div_self (pow_pos hpos 2).ne']
      rw [← this]
      unfold len2
      rw [sum_div]
      refine sum_congr rfl fun r hr => ?_
      unfold col
      rw [hent r (mem_range.1 hr) j, if_pos rfl, div_pow]
    · have h0 := c3.2 ho a ha
      have : dotp n (col n q a) (col n (loop 0 n (fun i q => wr q (i + j * n) (q (i + j * n) / colNorm n j q2)) q2) j)
          = dotp n (col n q a) (col n q2 j) / colNorm n j q2 := by
        unfold dotp
        rw [sum_div]
        refine sum_congr rfl fun r hr => ?_
        unfold col
        rw [hent r (mem_range.1 hr) j, if_pos rfl, mul_div_assoc]
      rw [this, h0, zero_div]
  · rename_i hn
    refine ⟨c3.1, Or.inr ?_, c3.2⟩
    have hn := not_lt.1 hn
    have h0 : 0 ≤ colNorm n j q2 := Real.sqrt_nonneg _
    rw [← colNorm_sq]
    gcongr

/-- all completed columns -/
theorem completeCols_spec {eps : ℝ} (he : 0 ≤ eps) {n done : Nat} (hd : done ≤ n) (q : Nat → ℝ) :
    (∀ r, r < n → ∀ c, c < done → ent n (completeCols eps n done q) r c = ent n q r c) ∧
    (∀ c, done ≤ c → c < n → len2 n (col n (completeCols eps n done q) c) = 1 ∨
      len2 n (col n (completeCols eps n done q) c) ≤ eps ^ 2) ∧
    (Orthonormal n done q → (∀ c, done ≤ c → c < n → eps ^ 2 < len2 n (col n (completeCols eps n done q) c)) →
      Orthonormal n n (completeCols eps n done q)) := by
  unfold completeCols
  refine loop_ind (fun m (y : Nat → ℝ) => (∀ r, r < n → ∀ c, c < done → ent n y r c = ent n q r c) ∧
    (∀ c, done ≤ c → c < m → len2 n (col n y c) = 1 ∨ len2 n (col n y c) ≤ eps ^ 2) ∧
    (Orthonormal n done q → (∀ c, done ≤ c → c < m → eps ^ 2 < len2 n (col n y c)) → Orthonormal n m y)) hd
    ⟨fun _ _ _ _ => rfl, fun c h1 h2 => by omega, fun h _ => h⟩ ?_
  intro j y h1 hj ⟨h2, h3, h4⟩
  have hc := completeCol_spec he (n := n) (done := done) (j := j) y
  generalize completeCol eps n done j y = z at hc
  have hcol : ∀ c, c ≠ j → ∀ r, r < n → col n z c r = col n y c r := fun c h r hr => hc.1 r hr c h
  have hlen : ∀ c, c ≠ j → len2 n (col n z c) = len2 n (col n y c) := by
    intro c h; rw [len2_eq, len2_eq, dotp_congr (hcol c h) (hcol c h)]
  refine ⟨fun r hr c h => by rw [hc.1 r hr c (by omega), h2 r hr c h], fun c h5 h6 => ?_, fun ho hl => ?_⟩
  · by_cases e : c = j
    · rw [e]; exact hc.2.1
    · rw [hlen c e]; exact h3 c h5 (by omega)
  · have hy := h4 ho fun c h5 h6 => by rw [← hlen c (by omega)]; exact hl c h5 (by omega)
    have hu : len2 n (col n z j) = 1 := by
      rcases hc.2.1 with h | h
      · exact h
      · exact absurd h (not_le.2 (hl j h1 (by omega)))
    intro a ha b hb
    show dotp n (col n z a) (col n z b) = _
    by_cases aj : a = j
    · subst aj
      by_cases ba : b = a
      · subst ba; rw [← len2_eq, hu, if_pos rfl]
      · rw [if_neg (Ne.symm ba), dotp_comm, dotp_congr (hcol b ba) (fun _ _ => rfl)]
        exact hc.2.2 hy b (by omega)
    · by_cases bj : b = j
      · subst bj
        rw [if_neg aj, dotp_congr (hcol a aj) (fun _ _ => rfl)]
        exact hc.2.2 hy a (by omega)
      · rw [dotp_congr (hcol a aj) (hcol b bj)]
        exact hy a (by omega) b (by omega)

/-! ## Images -/

theorem svdValues_eq {K : Nat} (e S : Nat → ℝ) {j : Nat} (hj : j < K) : svdValues K e S j = Real.sqrt (max 0 (e j)) := by
  unfold svdValues
  rw [seg (Nat.zero_le K) (fun i => Real.sqrt (max 0 (e i))), if_pos ⟨Nat.zero_le j, hj⟩]

theorem svdImages_ent {eps : ℝ} {N M : Nat} (row : Nat → Nat → ℝ) (S V U : Nat → ℝ) {r c : Nat} (hr : r < N) (hc : c < M) :
    ent N (svdImages eps N M row S V U) r c =
      if S c > eps then (∑ t ∈ range M, row r t * ent M V t c) / S c else 0 := by
  unfold svdImages
  refine loop_ind (fun m (Y : Nat → ℝ) => ∀ r, r < N → ∀ c, c < m → ent N Y r c =
      if S c > eps then (∑ t ∈ range M, row r t * ent M V t c) / S c else 0) (Nat.zero_le M)
    (fun r _ c h => by omega) ?_ r hr c hc
  intro j Y _ _ ih r hr c hc
  split
  · rename_i h
    rw [writeCol_ent (fun i => loop 0 M (fun t s => s + row i t * V (t + j * M)) 0 / S j) Y hr]
    by_cases e : c = j
    · subst e
      rw [if_pos rfl, if_pos h, loop_sum_ico (fun t => row r t * V (t + c * M)) 0 (Nat.zero_le M), zero_add, ← range_eq_Ico]; rfl
    · rw [if_neg e]; exact ih r hr c (by omega)
  · rename_i h
    rw [writeCol_ent (fun _ => 0) Y hr]
    by_cases e : c = j
    · subst e; rw [if_pos rfl, if_neg h]
    · rw [if_neg e]; exact ih r hr c (by omega)

end Verif.Dense
