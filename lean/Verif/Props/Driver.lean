import Verif.Lemmas.Driver

/-!
**C54**: what the drivers prepare: the tetrahedrons, the points on the part integrated over, the weights, the measure of the part, the normal.
-/
namespace Verif.Driver

open Verif.Dense Verif.Spaces Verif.Geometry Verif.SpaceOp

section
variable {a : Arr ℝ} {q f : Nat} {T x x' : Nat → Nat → Nat → ℝ} {vol vol' w w' : Nat → ℝ}

theorem Prepared.congr (h : Prepared a q f T x vol w) (hx : ∀ r, r < f → ∀ n, n < q → ∀ k, k < 3 → x r n k = x' r n k)
    (hw : ∀ n, n < q → w n = w' n) : Prepared a q f T x' vol w' := by
  refine ⟨h.points, h.tetras, { h.geo with point := fun r hr n hn => ?_ }, fun r hr n hn => ?_, h.mes, fun n hn => (h.wg n hn).trans (hw n hn)⟩
  · obtain ⟨h1, h2⟩ := h.geo.point r hr n hn
    exact ⟨h1, fun i hi => (h2 i hi).trans (hx r (hr.trans_eq h.tetras) n (hn.trans_eq h.points) i hi)⟩
  · rw [h.xyg r hr n hn, hx r hr n hn 0 (by omega), hx r hr n hn 1 (by omega), hx r hr n hn 2 (by omega)]

theorem Prepared.measure (h : Prepared a q f T x vol w) {m ν : Nat → ℝ} (hm : ∀ r, r < f → m r = vol' r) :
    Prepared { a with mes := m, nrm := ν } q f T x vol' w := ⟨h.points, h.tetras, h.geo, h.xyg, hm, h.wg⟩

/-- the edge vectors that were prepared -/
theorem Prepared.xyp (h : Prepared a q f T x vol w) {r : Nat} (hr : r < f) {v i : Nat} (hv : v < 4) (hi : i < 3) :
    a.xyp (12 * r + (i + 3 * v)) = T r v i - T r 0 i := (h.geo.tet r (hr.trans_eq h.tetras.symm)).1 v i hv hi
end

section
variable (F : Rule ℝ) (f : Nat) (T : Nat → Nat → Nat → ℝ) (a : Arr ℝ)

/-- **C54** `fem3Dtet`: the points are those of the formula, the weights too, the measure is the volume. -/
theorem setTet_right (hq : 0 < F.q) (hf : 0 < f) (hT : ∀ r, r < f → Nondeg (T r))
    (hp : ∀ n, n < F.q → F.p (4 * n) + F.p (4 * n + 1) + F.p (4 * n + 2) + F.p (4 * n + 3) = 1) :
    Prepared (setTet F f T a) F.q f T (fun r n => mix (T r) fun c => F.p (4 * n + c)) (fun r => volume (T r)) F.w := by
  have e : ∀ n, n < F.q → ∀ c, c < 4 → copyN (4 * F.q) F.p a.xyl (4 * n + c) = F.p (4 * n + c) := fun n hn c hc => copyN_at _ _ (by omega)
  have h := initGeom_prepared T { a with q := F.q, f := f, xyl := copyN (4 * F.q) F.p a.xyl, wg := copyN F.q F.w a.wg } hq hf hT
    (fun n hn => by
      have h0 := e n hn 0 (by omega)
      have h1 := e n hn 1 (by omega)
      have h2 := e n hn 2 (by omega)
      have h3 := e n hn 3 (by omega)
      rw [Nat.add_zero] at h0
      change copyN _ _ _ _ + copyN _ _ _ _ + copyN _ _ _ _ + copyN _ _ _ _ = 1
      rw [h0, h1, h2, h3]
      exact hp n hn)
  refine h.congr (fun r hr n hn k hk => ?_) fun n hn => copyN_at _ _ hn
  simp only [mix]
  rw [e n hn 0 (by omega), e n hn 1 (by omega), e n hn 2 (by omega), e n hn 3 (by omega)]

/-- the four coordinates of a point of a face -/
theorem faceXYL_at {face : Nat} (hface : face < 4) (xyl : Nat → ℝ) {n j : Nat} (hn : n < F.q) (hj : j < 4) :
    faceXYL F face xyl (4 * n + (face + j) % 4) = if j < 3 then F.p (3 * n + j) else 0 := by
  refine loop_at (fun _ => _) (Nat.zero_le n) hn (fun t => ?_) fun i t _ _ hne => ?_
  · match j, hj with
    | 0, _ =>
      rw [Dense.wr_ne _ _ (by omega), Dense.wr_ne _ _ (by omega), Dense.wr_ne _ _ (by omega),
        show 4 * n + (face + 0) % 4 = 4 * n + face by omega, Dense.wr_same]
      rfl
    | 1, _ => rw [Dense.wr_ne _ _ (by omega), Dense.wr_ne _ _ (by omega), Dense.wr_same]; rfl
    | 2, _ => rw [Dense.wr_ne _ _ (by omega), Dense.wr_same]; rfl
    | 3, _ => rw [Dense.wr_same]; rfl
  · rw [Dense.wr_ne _ _ (by omega), Dense.wr_ne _ _ (by omega), Dense.wr_ne _ _ (by omega), Dense.wr_ne _ _ (by omega)]

theorem setFace0_right {face : Nat} (hface : face < 4) (hq : 0 < F.q) (hf : 0 < f) (hT : ∀ r, r < f → Nondeg (T r))
    (hp : ∀ n, n < F.q → F.p (3 * n) + F.p (3 * n + 1) + F.p (3 * n + 2) = 1) :
    Prepared (setFace0 F face f T a) F.q f T (fun r n k => F.p (3 * n) * T r face k + F.p (3 * n + 1) * T r ((face + 1) % 4) k +
      F.p (3 * n + 2) * T r ((face + 2) % 4) k) (fun r => volume (T r)) F.w := by
  have e : ∀ n, n < F.q → ∀ j, j < 4 → faceXYL F face a.xyl (4 * n + (face + j) % 4) = if j < 3 then F.p (3 * n + j) else 0 :=
    fun n hn j hj => faceXYL_at F hface a.xyl hn hj
  have h := initGeom_prepared T { a with q := F.q, f := f, xyl := faceXYL F face a.xyl, wg := copyN F.q F.w a.wg } hq hf hT
    (fun n hn => by
      have h0 := e n hn 0 (by omega)
      have h1 := e n hn 1 (by omega)
      have h2 := e n hn 2 (by omega)
      have h3 := e n hn 3 (by omega)
      have hs := hp n hn
      change faceXYL _ _ _ _ + faceXYL _ _ _ _ + faceXYL _ _ _ _ + faceXYL _ _ _ _ = 1
      interval_cases face <;> simp at h0 h1 h2 h3 <;> rw [h0, h1, h2, h3] <;> linear_combination hs)
  refine h.congr (fun r hr n hn k hk => ?_) fun n hn => copyN_at _ _ hn
  have h0 := e n hn 0 (by omega)
  have h1 := e n hn 1 (by omega)
  have h2 := e n hn 2 (by omega)
  have h3 := e n hn 3 (by omega)
  simp only [mix]
  interval_cases face <;> simp at h0 h1 h2 h3 ⊢ <;> rw [h0, h1, h2, h3] <;> ring

end

/-- the area does not change when the triangle is moved -/
theorem triArea_moved (o p0 p1 p2 y0 y1 y2 : Nat → ℝ) (h0 : ∀ i, i < 3 → y0 i = p0 i - o i) (h1 : ∀ i, i < 3 → y1 i = p1 i - o i)
    (h2 : ∀ i, i < 3 → y2 i = p2 i - o i) : IsArea (triArea Real.sqrt y0 y1 y2) p0 p1 p2 := by
  obtain ⟨h, e⟩ := triArea_correct (sqrt := Real.sqrt) (fun x hx => ⟨Real.sqrt_nonneg x, Real.mul_self_sqrt hx⟩) y0 y1 y2
  refine ⟨h, ?_⟩
  rw [e]
  simp only [dot, cross, diff]
  rw [h0 0 (by omega), h0 1 (by omega), h0 2 (by omega), h1 0 (by omega), h1 1 (by omega), h1 2 (by omega), h2 0 (by omega), h2 1 (by omega),
    h2 2 (by omega)]
  ring

section
variable (F : Rule ℝ) (f : Nat) (T : Nat → Nat → Nat → ℝ) (a : Arr ℝ)

/-- **C54** `fem3Dface`: the points are those of the formula on the face of the nodes `face`, `face + 1`, `face + 2` counted around, the measure is
the area of the face. -/
theorem setFace_right {face : Nat} (hface : face < 4) (hq : 0 < F.q) (hf : 0 < f) (hT : ∀ r, r < f → Nondeg (T r))
    (hp : ∀ n, n < F.q → F.p (3 * n) + F.p (3 * n + 1) + F.p (3 * n + 2) = 1) :
    ∃ A : Nat → ℝ, (∀ r, r < f → IsArea (A r) (T r face) (T r ((face + 1) % 4)) (T r ((face + 2) % 4))) ∧
      Prepared (setFace Real.sqrt F face f T a) F.q f T (fun r n k => F.p (3 * n) * T r face k + F.p (3 * n + 1) * T r ((face + 1) % 4) k +
        F.p (3 * n + 2) * T r ((face + 2) % 4) k) A F.w := by
  have h := setFace0_right F f T a hface hq hf hT hp
  refine ⟨(setFace Real.sqrt F face f T a).mes, fun r hr => ?_, h.measure fun r hr => rfl⟩
  have e : (setFace Real.sqrt F face f T a).mes r = triArea Real.sqrt (fun i => (setFace0 F face f T a).xyp (3 * face + i + 12 * r))
      (fun i => (setFace0 F face f T a).xyp (3 * ((face + 1) % 4) + i + 12 * r))
      (fun i => (setFace0 F face f T a).xyp (3 * ((face + 2) % 4) + i + 12 * r)) :=
    loop_at (fun _ => _) (Nat.zero_le r) hr (fun t => Dense.wr_same ..) fun j t _ _ hj => Dense.wr_ne _ _ (Ne.symm hj)
  rw [e]
  have x : ∀ v, v < 4 → ∀ i, i < 3 → (setFace0 F face f T a).xyp (3 * v + i + 12 * r) = T r v i - T r 0 i := by
    intro v hv i hi
    rw [← h.xyp hr hv hi]
    exact congrArg _ (by omega)
  exact triArea_moved (T r 0) _ _ _ _ _ _ (x _ hface) (x _ (by omega)) (x _ (by omega))

/-- the volume does not change when the tetrahedron is moved -/
theorem vol6_moved {o p0 p1 p2 p3 y0 y1 y2 y3 : Nat → ℝ} (h0 : ∀ i, i < 3 → y0 i = p0 i - o i) (h1 : ∀ i, i < 3 → y1 i = p1 i - o i)
    (h2 : ∀ i, i < 3 → y2 i = p2 i - o i) (h3 : ∀ i, i < 3 → y3 i = p3 i - o i) : vol6 y0 y1 y2 y3 = vol6 p0 p1 p2 p3 := by
  rw [vol6_eq, vol6_eq]
  simp only [dot, cross, diff]
  rw [h0 0 (by omega), h0 1 (by omega), h0 2 (by omega), h1 0 (by omega), h1 1 (by omega), h1 2 (by omega), h2 0 (by omega), h2 1 (by omega),
    h2 2 (by omega), h3 0 (by omega), h3 1 (by omega), h3 2 (by omega)]
  ring

/-- a tetrahedron is not degenerate whatever node is counted first -/
theorem nondeg_rot {T : Nat → Nat → ℝ} (h : Nondeg T) {face : Nat} (hface : face < 4) :
    vol6 (T face) (T ((face + 1) % 4)) (T ((face + 2) % 4)) (T ((face + 3) % 4)) ≠ 0 := by
  rw [Nondeg, vol6_eq] at h
  rw [vol6_eq]
  intro e
  refine h ?_
  interval_cases face
  · simpa using e
  all_goals
    simp only [dot, cross, diff, Nat.reduceAdd, Nat.reduceMod] at e ⊢
    first | linear_combination e | linear_combination -e

theorem dot_diff_moved {ν o p q y z : Nat → ℝ} (hp : ∀ i, i < 3 → y i = p i - o i) (hq : ∀ i, i < 3 → z i = q i - o i) :
    dot ν (diff y z) = dot ν (diff p q) := by
  simp only [dot, diff]
  rw [hp 0 (by omega), hp 1 (by omega), hp 2 (by omega), hq 0 (by omega), hq 1 (by omega), hq 2 (by omega)]
  ring

/-- **C54** `fem3DfaceN`: as `fem3Dface`, and `NRM` is the unit normal of the face directed out of the tetrahedron. -/
theorem setFaceN_right {face : Nat} (hface : face < 4) (hq : 0 < F.q) (hf : 0 < f) (hT : ∀ r, r < f → Nondeg (T r))
    (hp : ∀ n, n < F.q → F.p (3 * n) + F.p (3 * n + 1) + F.p (3 * n + 2) = 1) :
    ∃ A : Nat → ℝ, (∀ r, r < f → IsArea (A r) (T r face) (T r ((face + 1) % 4)) (T r ((face + 2) % 4))) ∧
      (∀ r, r < f → IsNormal (fun i => (setFaceN Real.sqrt F face f T a).nrm (3 * r + i)) (T r face) (T r ((face + 1) % 4))
        (T r ((face + 2) % 4)) (T r ((face + 3) % 4))) ∧
      Prepared (setFaceN Real.sqrt F face f T a) F.q f T (fun r n k => F.p (3 * n) * T r face k + F.p (3 * n + 1) * T r ((face + 1) % 4) k +
        F.p (3 * n + 2) * T r ((face + 2) % 4) k) A F.w := by
  have h := setFace0_right F f T a hface hq hf hT hp
  have x : ∀ r, r < f → ∀ v, v < 4 → ∀ i, i < 3 → (setFace0 F face f T a).xyp (3 * v + i + 12 * r) = T r v i - T r 0 i := by
    intro r hr v hv i hi
    rw [← h.xyp hr hv hi]
    exact congrArg _ (by omega)
  let d : Nat → ℝ × (Nat → ℝ) := fun r => faceNormal Real.sqrt (fun i => (setFace0 F face f T a).xyp (3 * face + i + 12 * r))
      (fun i => (setFace0 F face f T a).xyp (3 * ((face + 1) % 4) + i + 12 * r))
      (fun i => (setFace0 F face f T a).xyp (3 * ((face + 2) % 4) + i + 12 * r))
      (fun i => (setFace0 F face f T a).xyp (3 * ((face + 3) % 4) + i + 12 * r))
  have key : ∀ r, r < f → (setFaceN Real.sqrt F face f T a).mes r = (d r).1 ∧
      ∀ i, i < 3 → (setFaceN Real.sqrt F face f T a).nrm (3 * r + i) = (d r).2 i := by
    have := loop_ind (P := fun i (s : (Nat → ℝ) × (Nat → ℝ)) => ∀ r, r < i → s.1 r = (d r).1 ∧ ∀ i, i < 3 → s.2 (3 * r + i) = (d r).2 i)
      (a := 0) (b := f) (f := fun r s => (Dense.wr s.1 r (d r).1, loop 0 3 (fun i m => Dense.wr m (i + 3 * r) ((d r).2 i)) s.2))
      (s := ((setFace0 F face f T a).mes, (setFace0 F face f T a).nrm)) (Nat.zero_le f) nofun
      (fun i s _ hi ih r hr => by
        by_cases e : r = i
        · subst e
          exact ⟨Dense.wr_same .., fun j hj => by rw [Nat.add_comm]; exact three_at _ _ _ hj⟩
        · obtain ⟨h1, h2⟩ := ih r (by omega)
          exact ⟨(Dense.wr_ne _ _ e).trans h1, fun j hj => (three_off _ _ _ (by omega)).trans (h2 j hj)⟩)
    exact this
  have good := fun r (hr : r < f) => faceNormal_correct (sqrt := Real.sqrt) (fun x hx => ⟨Real.sqrt_nonneg x, Real.mul_self_sqrt hx⟩)
    (fun i => (setFace0 F face f T a).xyp (3 * face + i + 12 * r))
    (fun i => (setFace0 F face f T a).xyp (3 * ((face + 1) % 4) + i + 12 * r))
    (fun i => (setFace0 F face f T a).xyp (3 * ((face + 2) % 4) + i + 12 * r))
    (fun i => (setFace0 F face f T a).xyp (3 * ((face + 3) % 4) + i + 12 * r))
    (by
      rw [vol6_moved (x r hr _ hface) (x r hr _ (by omega)) (x r hr _ (by omega)) (x r hr _ (by omega))]
      exact nondeg_rot (hT r hr) hface)
  refine ⟨(setFaceN Real.sqrt F face f T a).mes, fun r hr => ?_, fun r hr => ?_, h.measure fun r hr => rfl⟩
  · obtain ⟨-, -, -, -, g5, g6⟩ := good r hr
    rw [(key r hr).1]
    refine ⟨g5.le, g6.trans ?_⟩
    simp only [dot, diff]
    rw [x r hr face hface 0 (by omega), x r hr face hface 1 (by omega), x r hr face hface 2 (by omega),
      x r hr ((face + 1) % 4) (by omega) 0 (by omega), x r hr ((face + 1) % 4) (by omega) 1 (by omega), x r hr ((face + 1) % 4) (by omega) 2 (by omega),
      x r hr ((face + 2) % 4) (by omega) 0 (by omega), x r hr ((face + 2) % 4) (by omega) 1 (by omega), x r hr ((face + 2) % 4) (by omega) 2 (by omega)]
    ring
  · obtain ⟨g1, g2, g3, g4, -, -⟩ := good r hr
    have hν : ∀ u : Nat → ℝ, dot (fun i => (setFaceN Real.sqrt F face f T a).nrm (3 * r + i)) u = dot (d r).2 u := by
      intro u
      simp only [dot]
      rw [(key r hr).2 0 (by omega), (key r hr).2 1 (by omega), (key r hr).2 2 (by omega)]
    rw [dot_diff_moved (x r hr _ (by omega)) (x r hr _ hface)] at g1 g2 g4
    refine ⟨(hν _).trans g1, (hν _).trans g2, ?_, (hν _).trans_lt g4⟩
    rw [← g3, hν]
    simp only [dot]
    rw [(key r hr).2 0 (by omega), (key r hr).2 1 (by omega), (key r hr).2 2 (by omega)]

/-- **C54** `fem3Dedge`: the points are those of the formula on the edge, the measure is its length. -/
theorem setEdge_right {edge : Nat} (hedge : edge < 6) (hq : 0 < F.q) (hf : 0 < f) (hT : ∀ r, r < f → Nondeg (T r))
    (hp : ∀ n, n < F.q → F.p (2 * n) + F.p (2 * n + 1) = 1) :
    ∃ A : Nat → ℝ, (∀ r, r < f → IsLength (A r) (T r (edgeNodes edge).1) (T r (edgeNodes edge).2)) ∧
      Prepared (setEdge Real.sqrt F edge f T a) F.q f T (fun r n k => F.p (2 * n) * T r (edgeNodes edge).1 k +
        F.p (2 * n + 1) * T r (edgeNodes edge).2 k) A F.w := by
  have l1 : lookup1 edge = (edgeNodes edge).1 := by interval_cases edge <;> rfl
  have l2 : lookup2 edge = (edgeNodes edge).2 := by interval_cases edge <;> rfl
  have b1 : (edgeNodes edge).1 < (edgeNodes edge).2 ∧ (edgeNodes edge).2 < 4 := by interval_cases edge <;> decide
  have e : ∀ n, n < F.q → ∀ c, c < 4 → edgeXYL F edge a.xyl (4 * n + c) =
      if c = (edgeNodes edge).2 then F.p (2 * n + 1) else if c = (edgeNodes edge).1 then F.p (2 * n) else 0 := by
    intro n hn c hc
    unfold edgeXYL
    rw [l1, l2]
    refine loop_at (fun t => if c = (edgeNodes edge).2 then F.p (2 * n + 1) else if c = (edgeNodes edge).1 then F.p (2 * n) else t)
      (Nat.zero_le n) hn (fun t => ?_) (fun i t _ _ hne => ?_) |>.trans ?_
    · by_cases h2 : c = (edgeNodes edge).2
      · rw [if_pos h2, h2, Dense.wr_same]
      · rw [if_neg h2, Dense.wr_ne _ _ (by omega)]
        by_cases h1 : c = (edgeNodes edge).1
        · rw [if_pos h1, h1, Dense.wr_same, Nat.add_zero]
        · rw [if_neg h1, Dense.wr_ne _ _ (by omega)]
    · rw [Dense.wr_ne _ _ (by omega), Dense.wr_ne _ _ (by omega)]
    · rw [fillN_at _ _ (by omega)]
  have h := initGeom_prepared T { a with q := F.q, f := f, xyl := edgeXYL F edge a.xyl, wg := copyN F.q F.w a.wg } hq hf hT
    (fun n hn => by
      have h0 := e n hn 0 (by omega)
      have h1 := e n hn 1 (by omega)
      have h2 := e n hn 2 (by omega)
      have h3 := e n hn 3 (by omega)
      have hs := hp n hn
      change edgeXYL _ _ _ _ + edgeXYL _ _ _ _ + edgeXYL _ _ _ _ + edgeXYL _ _ _ _ = 1
      rw [Nat.add_zero] at h0
      rw [h0, h1, h2, h3]
      interval_cases edge <;> simp [edgeNodes] <;> linear_combination hs)
  have h' : Prepared (initGeom T { a with q := F.q, f := f, xyl := edgeXYL F edge a.xyl, wg := copyN F.q F.w a.wg }) F.q f T
      (fun r n k => F.p (2 * n) * T r (edgeNodes edge).1 k + F.p (2 * n + 1) * T r (edgeNodes edge).2 k) (fun r => volume (T r)) F.w := by
    refine h.congr (fun r hr n hn k hk => ?_) fun n hn => copyN_at _ _ hn
    simp only [mix]
    rw [e n hn 0 (by omega), e n hn 1 (by omega), e n hn 2 (by omega), e n hn 3 (by omega)]
    interval_cases edge <;> simp [edgeNodes]
  refine ⟨(setEdge Real.sqrt F edge f T a).mes, fun r hr => ?_, h'.measure fun r hr => rfl⟩
  generalize hg : initGeom T { a with q := F.q, f := f, xyl := edgeXYL F edge a.xyl, wg := copyN F.q F.w a.wg } = g at h'
  have em : (setEdge Real.sqrt F edge f T a).mes r = Real.sqrt (
      (g.xyp (12 * r + (3 * lookup1 edge + 0)) - g.xyp (12 * r + (3 * lookup2 edge + 0))) *
      (g.xyp (12 * r + (3 * lookup1 edge + 0)) - g.xyp (12 * r + (3 * lookup2 edge + 0))) +
      (g.xyp (12 * r + (3 * lookup1 edge + 1)) - g.xyp (12 * r + (3 * lookup2 edge + 1))) *
      (g.xyp (12 * r + (3 * lookup1 edge + 1)) - g.xyp (12 * r + (3 * lookup2 edge + 1))) +
      (g.xyp (12 * r + (3 * lookup1 edge + 2)) - g.xyp (12 * r + (3 * lookup2 edge + 2))) *
      (g.xyp (12 * r + (3 * lookup1 edge + 2)) - g.xyp (12 * r + (3 * lookup2 edge + 2)))) := by
    rw [← hg]
    exact loop_at (fun _ => _) (Nat.zero_le r) hr (fun t => Dense.wr_same ..) fun j t _ _ hj => Dense.wr_ne _ _ (Ne.symm hj)
  have x : ∀ v, v < 4 → ∀ i, i < 3 → g.xyp (12 * r + (3 * v + i)) = T r v i - T r 0 i := by
    intro v hv i hi
    rw [← h'.xyp hr hv hi]
    exact congrArg _ (by omega)
  rw [l1, l2, x _ (by omega) 0 (by omega), x _ (by omega) 1 (by omega), x _ (by omega) 2 (by omega), x _ (by omega) 0 (by omega),
    x _ (by omega) 1 (by omega), x _ (by omega) 2 (by omega)] at em
  rw [em]
  refine ⟨Real.sqrt_nonneg _, ?_⟩
  rw [Real.mul_self_sqrt (add_nonneg (add_nonneg (mul_self_nonneg _) (mul_self_nonneg _)) (mul_self_nonneg _))]
  simp only [dot, diff]
  ring

end

end Verif.Driver
