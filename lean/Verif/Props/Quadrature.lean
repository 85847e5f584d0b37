import Mathlib.Algebra.MvPolynomial.Monad
import Mathlib.Algebra.MvPolynomial.CommRing
import Verif.Lemmas.QuadCore
import Verif.Lemmas.QuadOrbit1
import Verif.Lemmas.QuadOrbit2
import Verif.Lemmas.QuadOrbit3

/-!
C37 and C38: the quadrature rules of `segment_quadrature_formulas`, `triangle_quadrature_formulas` and
`tetrahedron_quadrature_formulas`, for all orders.
-/
namespace Verif.Quad

/-- What is to be shown about the rule for a segment. -/
def SegGood (order : Int) : Prop :=
    ∃ f R, segment order = some f ∧ points (segPoint f) f.np = some R ∧ Fine 1 0 (orbitSizes [1, 2] f.sym) f R ∧
      ∀ P : MvPolynomial (Fin 1) ℝ, P.totalDegree ≤ order.toNat →
        |apply R (fun p => P.eval ![p 0]) - meanSeg (fun x => P.eval ![x])| ≤ 1 / 10 ^ 48 * size P

/-- The rule for a segment, all together. -/
theorem segment_all {order : Int} (h0 : 0 ≤ order) (h1 : order ≤ 21) : SegGood order := by
  have key : ∀ (n S W : Nat) (s : Int) (fs : List (Seg Lit)) (ws : List (Nat × Lit)), order.toNat ≤ n →
      segment order = some (segRule fs ws s) →
      sane 2 S W (fs.flatMap Seg.args) (ws.map Prod.snd) (segInt S fs) (wInt W ws) = true →
      moments1 n S W ((rows1 0 (wInt W ws) (segInt S fs)).map Row.nat) = true →
      orbitsOk 1 0 (orbitSizes [1, 2] [s, ((segMem fs).length / 2 / 2 : Nat)])
        ((rows1 0 (wInt W ws) (segInt S fs)).map (Row.pt1 S)) = true →
      ws.map Prod.fst ≠ [] → (∀ k ∈ ws.map Prod.fst, 0 < k) → SegGood order := by
    intro n S W s fs ws hn e a b c hne hpos
    obtain ⟨R, x, y, z⟩ := seg_core (s := s) (le_refl 0) a b c hne hpos
    exact ⟨_, R, e, x, y.mono (by simp [unit]), fun P hP => z P (hP.trans hn)⟩
  open SegTab in
  interval_cases order
  · exact key 1 S1 W1 1 fs1 ws1 (by decide) rfl saneOk1 momOk1 orbOk1 (by decide) (by decide)
  · exact key 1 S1 W1 1 fs1 ws1 (by decide) rfl saneOk1 momOk1 orbOk1 (by decide) (by decide)
  · exact key 3 S3 W3 0 fs3 ws3 (by decide) rfl saneOk3 momOk3 orbOk3 (by decide) (by decide)
  · exact key 3 S3 W3 0 fs3 ws3 (by decide) rfl saneOk3 momOk3 orbOk3 (by decide) (by decide)
  · exact key 5 S5 W5 1 fs5 ws5 (by decide) rfl saneOk5 momOk5 orbOk5 (by decide) (by decide)
  · exact key 5 S5 W5 1 fs5 ws5 (by decide) rfl saneOk5 momOk5 orbOk5 (by decide) (by decide)
  · exact key 7 S7 W7 0 fs7 ws7 (by decide) rfl saneOk7 momOk7 orbOk7 (by decide) (by decide)
  · exact key 7 S7 W7 0 fs7 ws7 (by decide) rfl saneOk7 momOk7 orbOk7 (by decide) (by decide)
  · exact key 9 S9 W9 1 fs9 ws9 (by decide) rfl saneOk9 momOk9 orbOk9 (by decide) (by decide)
  · exact key 9 S9 W9 1 fs9 ws9 (by decide) rfl saneOk9 momOk9 orbOk9 (by decide) (by decide)
  · exact key 11 S11 W11 0 fs11 ws11 (by decide) rfl saneOk11 momOk11 orbOk11 (by decide) (by decide)
  · exact key 11 S11 W11 0 fs11 ws11 (by decide) rfl saneOk11 momOk11 orbOk11 (by decide) (by decide)
  · exact key 13 S13 W13 1 fs13 ws13 (by decide) rfl saneOk13 momOk13 orbOk13 (by decide) (by decide)
  · exact key 13 S13 W13 1 fs13 ws13 (by decide) rfl saneOk13 momOk13 orbOk13 (by decide) (by decide)
  · exact key 15 S15 W15 0 fs15 ws15 (by decide) rfl saneOk15 momOk15 orbOk15 (by decide) (by decide)
  · exact key 15 S15 W15 0 fs15 ws15 (by decide) rfl saneOk15 momOk15 orbOk15 (by decide) (by decide)
  · exact key 17 S17 W17 1 fs17 ws17 (by decide) rfl saneOk17 momOk17 orbOk17 (by decide) (by decide)
  · exact key 17 S17 W17 1 fs17 ws17 (by decide) rfl saneOk17 momOk17 orbOk17 (by decide) (by decide)
  · exact key 19 S19 W19 0 fs19 ws19 (by decide) rfl saneOk19 momOk19 orbOk19 (by decide) (by decide)
  · exact key 19 S19 W19 0 fs19 ws19 (by decide) rfl saneOk19 momOk19 orbOk19 (by decide) (by decide)
  · exact key 21 S21 W21 1 fs21 ws21 (by decide) rfl saneOk21 momOk21 orbOk21 (by decide) (by decide)
  · exact key 21 S21 W21 1 fs21 ws21 (by decide) rfl saneOk21 momOk21 orbOk21 (by decide) (by decide)

/-- What is to be shown about the rule for a triangle. -/
def TriGood (order : Int) : Prop :=
    ∃ f R, triangle order = some f ∧ points (triPoint f) f.np = some R ∧ Fine 2 0 (orbitSizes [1, 3, 6] f.sym) f R ∧
      ∀ P : MvPolynomial (Fin 2) ℝ, P.totalDegree ≤ order.toNat →
        |apply R (fun p => P.eval ![p 0, p 1]) - meanTri (fun x y => P.eval ![x, y])| ≤ 1 / 10 ^ 48 * size P

/-- The rule for a triangle, all together. -/
theorem triangle_all {order : Int} (h0 : 0 ≤ order) (h1 : order ≤ 20) : TriGood order := by
  have key : ∀ (n S W : Nat) (s : List Int) (fs : List (Tri Lit)) (ws : List (Nat × Lit)), order.toNat ≤ n →
      triangle order = some (triRule fs ws s) →
      sane 3 S W (fs.flatMap Tri.args) (ws.map Prod.snd) (triInt S fs) (wInt W ws) = true →
      moments2 n S W ((rows2 0 (wInt W ws) (triInt S fs)).map Row.nat) = true →
      orbitsOk 2 0 (orbitSizes [1, 3, 6] s) ((rows2 0 (wInt W ws) (triInt S fs)).map (Row.pt2 S)) = true →
      ws.map Prod.fst ≠ [] → (∀ k ∈ ws.map Prod.fst, 0 < k) → TriGood order := by
    intro n S W s fs ws hn e a b c hne hpos
    obtain ⟨R, x, y, z⟩ := tri_core (s := s) (le_refl 0) a b c hne hpos
    exact ⟨_, R, e, x, y.mono (by simp [unit]), fun P hP => z P (hP.trans hn)⟩
  open TriTab in
  interval_cases order
  · exact key 1 S1 W1 s1 fs1 ws1 (by decide) rfl saneOk1 momOk1 orbOk1 (by decide) (by decide)
  · exact key 1 S1 W1 s1 fs1 ws1 (by decide) rfl saneOk1 momOk1 orbOk1 (by decide) (by decide)
  · exact key 2 S2 W2 s2 fs2 ws2 (by decide) rfl saneOk2 momOk2 orbOk2 (by decide) (by decide)
  · exact key 3 S3 W3 s3 fs3 ws3 (by decide) rfl saneOk3 momOk3 orbOk3 (by decide) (by decide)
  · exact key 4 S4 W4 s4 fs4 ws4 (by decide) rfl saneOk4 momOk4 orbOk4 (by decide) (by decide)
  · exact key 5 S5 W5 s5 fs5 ws5 (by decide) rfl saneOk5 momOk5 orbOk5 (by decide) (by decide)
  · exact key 6 S6 W6 s6 fs6 ws6 (by decide) rfl saneOk6 momOk6 orbOk6 (by decide) (by decide)
  · exact key 7 S7 W7 s7 fs7 ws7 (by decide) rfl saneOk7 momOk7 orbOk7 (by decide) (by decide)
  · exact key 8 S8 W8 s8 fs8 ws8 (by decide) rfl saneOk8 momOk8 orbOk8 (by decide) (by decide)
  · exact key 9 S9 W9 s9 fs9 ws9 (by decide) rfl saneOk9 momOk9 orbOk9 (by decide) (by decide)
  · exact key 10 S10 W10 s10 fs10 ws10 (by decide) rfl saneOk10 momOk10 orbOk10 (by decide) (by decide)
  · exact key 11 S11 W11 s11 fs11 ws11 (by decide) rfl saneOk11 momOk11 orbOk11 (by decide) (by decide)
  · exact key 12 S12 W12 s12 fs12 ws12 (by decide) rfl saneOk12 momOk12 orbOk12 (by decide) (by decide)
  · exact key 13 S13 W13 s13 fs13 ws13 (by decide) rfl saneOk13 momOk13 orbOk13 (by decide) (by decide)
  · exact key 14 S14 W14 s14 fs14 ws14 (by decide) rfl saneOk14 momOk14 orbOk14 (by decide) (by decide)
  · exact key 15 S15 W15 s15 fs15 ws15 (by decide) rfl saneOk15 momOk15 orbOk15 (by decide) (by decide)
  · exact key 16 S16 W16 s16 fs16 ws16 (by decide) rfl saneOk16 momOk16 orbOk16 (by decide) (by decide)
  · exact key 17 S17 W17 s17 fs17 ws17 (by decide) rfl saneOk17 momOk17 orbOk17 (by decide) (by decide)
  · exact key 18 S18 W18 s18 fs18 ws18 (by decide) rfl saneOk18 momOk18 orbOk18 (by decide) (by decide)
  · exact key 19 S19 W19 s19 fs19 ws19 (by decide) rfl saneOk19 momOk19 orbOk19 (by decide) (by decide)
  · exact key 20 S20 W20 s20 fs20 ws20 (by decide) rfl saneOk20 momOk20 orbOk20 (by decide) (by decide)

/-- How exactly the tetrahedron rules are symmetric: the points of the orders 2 to 12 are tabulated as decimals. -/
def tetTol (order : Int) : ℚ := if order ≤ 1 ∨ 13 ≤ order then 0 else 1 / 10 ^ 119

/-- What is to be shown about the rule for a tetrahedron. -/
def TetGood (order : Int) : Prop :=
    ∃ f R, tetrahedron order = some f ∧ points (tetPoint f) f.np = some R ∧
      Fine 3 (tetTol order) (orbitSizes [1, 4, 6, 12, 24] f.sym) f R ∧
      ∀ P : MvPolynomial (Fin 3) ℝ, P.totalDegree ≤ order.toNat →
        |apply R (fun p => P.eval ![p 0, p 1, p 2]) - meanTet (fun x y z => P.eval ![x, y, z])| ≤ 1 / 10 ^ 48 * size P

/-- The rule for a tetrahedron, all together. -/
theorem tetrahedron_all {order : Int} (h0 : 0 ≤ order) (h1 : order ≤ 20) : TetGood order := by
  have key : ∀ (n S W : Nat) (t : Int) (s : List Int) (fs : List (Tet Lit)) (ws : List (Nat × Lit)), order.toNat ≤ n →
      tetrahedron order = some (tetRule fs ws s) → 6 * unit S t ≤ tetTol order → 0 ≤ t →
      sane 4 S W (fs.flatMap Tet.args) (ws.map Prod.snd) (tetInt S fs) (wInt W ws) = true →
      (∀ a ≤ n, moments3 n S W ((rows3 (wInt W ws) (tetInt S fs)).map Row.nat) a = true) →
      orbitsOk 3 t (orbitSizes [1, 4, 6, 12, 24] s) ((rows3 (wInt W ws) (tetInt S fs)).map (Row.pt3 S)) = true →
      ws.map Prod.fst ≠ [] → (∀ k ∈ ws.map Prod.fst, 0 < k) → TetGood order := by
    intro n S W t s fs ws hn e ht ht0 a b c hne hpos
    obtain ⟨R, x, y, z⟩ := tet_core (s := s) ht0 a b c hne hpos
    exact ⟨_, R, e, x, y.mono ht, fun P hP => z P (hP.trans hn)⟩
  have z0 : ∀ S o, o ≤ 1 ∨ 13 ≤ o → 6 * unit S 0 ≤ tetTol o := by
    intro S o ho
    rw [tetTol, if_pos ho]
    simp [unit]
  have z1 : ∀ S o, 1 ≤ S → ¬ (o ≤ 1 ∨ 13 ≤ o) → 6 * unit S ((S / 10 ^ 120 : Nat) : Int) ≤ tetTol o := by
    intro S o hS ho
    rw [tetTol, if_neg ho]
    exact unit_tol hS
  open TetTab in
  interval_cases order
  · exact key 1 S1 W1 0 s1 fs1 ws1 (by decide) rfl (z0 _ _ (by decide)) (le_refl 0) saneOk1
      (fun a => momOk1) orbOk1 (by decide) (by decide)
  · exact key 1 S1 W1 0 s1 fs1 ws1 (by decide) rfl (z0 _ _ (by decide)) (le_refl 0) saneOk1
      (fun a => momOk1) orbOk1 (by decide) (by decide)
  · exact key 2 S2 W2 (S2 / 10 ^ 120 : Nat) s2 fs2 ws2 (by decide) rfl (z1 _ _ (sane_iff saneOk2).hS (by decide)) (Int.natCast_nonneg _) saneOk2
      (fun a => momOk2) orbOk2 (by decide) (by decide)
  · exact key 3 S3 W3 (S3 / 10 ^ 120 : Nat) s3 fs3 ws3 (by decide) rfl (z1 _ _ (sane_iff saneOk3).hS (by decide)) (Int.natCast_nonneg _) saneOk3
      (fun a => momOk3) orbOk3 (by decide) (by decide)
  · exact key 5 S5 W5 (S5 / 10 ^ 120 : Nat) s5 fs5 ws5 (by decide) rfl (z1 _ _ (sane_iff saneOk5).hS (by decide)) (Int.natCast_nonneg _) saneOk5
      (fun a => momOk5) orbOk5 (by decide) (by decide)
  · exact key 5 S5 W5 (S5 / 10 ^ 120 : Nat) s5 fs5 ws5 (by decide) rfl (z1 _ _ (sane_iff saneOk5).hS (by decide)) (Int.natCast_nonneg _) saneOk5
      (fun a => momOk5) orbOk5 (by decide) (by decide)
  · exact key 6 S6 W6 (S6 / 10 ^ 120 : Nat) s6 fs6 ws6 (by decide) rfl (z1 _ _ (sane_iff saneOk6).hS (by decide)) (Int.natCast_nonneg _) saneOk6
      (fun a => momOk6) orbOk6 (by decide) (by decide)
  · exact key 7 S7 W7 (S7 / 10 ^ 120 : Nat) s7 fs7 ws7 (by decide) rfl (z1 _ _ (sane_iff saneOk7).hS (by decide)) (Int.natCast_nonneg _) saneOk7
      (fun a => momOk7) orbOk7 (by decide) (by decide)
  · exact key 8 S8 W8 (S8 / 10 ^ 120 : Nat) s8 fs8 ws8 (by decide) rfl (z1 _ _ (sane_iff saneOk8).hS (by decide)) (Int.natCast_nonneg _) saneOk8
      (fun a => momOk8) orbOk8 (by decide) (by decide)
  · exact key 9 S9 W9 (S9 / 10 ^ 120 : Nat) s9 fs9 ws9 (by decide) rfl (z1 _ _ (sane_iff saneOk9).hS (by decide)) (Int.natCast_nonneg _) saneOk9
      (fun a => momOk9) orbOk9 (by decide) (by decide)
  · exact key 10 S10 W10 (S10 / 10 ^ 120 : Nat) s10 fs10 ws10 (by decide) rfl (z1 _ _ (sane_iff saneOk10).hS (by decide)) (Int.natCast_nonneg _) saneOk10
      (fun a => momOk10) orbOk10 (by decide) (by decide)
  · exact key 11 S11 W11 (S11 / 10 ^ 120 : Nat) s11 fs11 ws11 (by decide) rfl (z1 _ _ (sane_iff saneOk11).hS (by decide)) (Int.natCast_nonneg _) saneOk11
      (fun a => momOk11) orbOk11 (by decide) (by decide)
  · exact key 12 S12 W12 (S12 / 10 ^ 120 : Nat) s12 fs12 ws12 (by decide) rfl (z1 _ _ (sane_iff saneOk12).hS (by decide)) (Int.natCast_nonneg _) saneOk12
      (fun a => momOk12) orbOk12 (by decide) (by decide)
  · exact key 13 S13 W13 0 s13 fs13 ws13 (by decide) rfl (z0 _ _ (by decide)) (le_refl 0) saneOk13
      (fun a => momOk13) orbOk13 (by decide) (by decide)
  · exact key 14 S14 W14 0 s14 fs14 ws14 (by decide) rfl (z0 _ _ (by decide)) (le_refl 0) saneOk14
      (fun a => momOk14) orbOk14 (by decide) (by decide)
  · exact key 15 S15 W15 0 s15 fs15 ws15 (by decide) rfl (z0 _ _ (by decide)) (le_refl 0) saneOk15
      (fun a => momOk15) orbOk15 (by decide) (by decide)
  · exact key 16 S16 W16 0 s16 fs16 ws16 (by decide) rfl (z0 _ _ (by decide)) (le_refl 0) saneOk16
      (fun a => momOk16) orbOk16 (by decide) (by decide)
  · exact key 17 S17 W17 0 s17 fs17 ws17 (by decide) rfl (z0 _ _ (by decide)) (le_refl 0) saneOk17
      (fun a => momOk17) orbOk17 (by decide) (by decide)
  · exact key 18 S18 W18 0 s18 fs18 ws18 (by decide) rfl (z0 _ _ (by decide)) (le_refl 0) saneOk18
      (fun a => momOk18) orbOk18 (by decide) (by decide)
  · exact key 19 S19 W19 0 s19 fs19 ws19 (by decide) rfl (z0 _ _ (by decide)) (le_refl 0) saneOk19
      (fun a => momOk19) orbOk19 (by decide) (by decide)
  · exact key 20 S20 W20 0 s20 fs20 ws20 (by decide) rfl (z0 _ _ (by decide)) (le_refl 0) saneOk20
      (fun a => momOk20) orbOk20 (by decide) (by decide)

/-! ### C37 -/

/-- **C37**, segments: the rule for an order integrates every polynomial of at most this degree, up to `10^-48` times the
sum of the absolute values of the coefficients. -/
theorem segment_exact {order : Int} (h0 : 0 ≤ order) (h1 : order ≤ 21) :
    ∃ f R, segment order = some f ∧ points (segPoint f) f.np = some R ∧
      ∀ P : MvPolynomial (Fin 1) ℝ, P.totalDegree ≤ order.toNat →
        |apply R (fun p => P.eval ![p 0]) - meanSeg (fun x => P.eval ![x])| ≤ 1 / 10 ^ 48 * size P := by
  obtain ⟨f, R, a, b, -, c⟩ := segment_all h0 h1
  exact ⟨f, R, a, b, c⟩

/-- **C37**, triangles. -/
theorem triangle_exact {order : Int} (h0 : 0 ≤ order) (h1 : order ≤ 20) :
    ∃ f R, triangle order = some f ∧ points (triPoint f) f.np = some R ∧
      ∀ P : MvPolynomial (Fin 2) ℝ, P.totalDegree ≤ order.toNat →
        |apply R (fun p => P.eval ![p 0, p 1]) - meanTri (fun x y => P.eval ![x, y])| ≤ 1 / 10 ^ 48 * size P := by
  obtain ⟨f, R, a, b, -, c⟩ := triangle_all h0 h1
  exact ⟨f, R, a, b, c⟩

/-- **C37**, tetrahedra. -/
theorem tetrahedron_exact {order : Int} (h0 : 0 ≤ order) (h1 : order ≤ 20) :
    ∃ f R, tetrahedron order = some f ∧ points (tetPoint f) f.np = some R ∧
      ∀ P : MvPolynomial (Fin 3) ℝ, P.totalDegree ≤ order.toNat →
        |apply R (fun p => P.eval ![p 0, p 1, p 2]) - meanTet (fun x y z => P.eval ![x, y, z])| ≤ 1 / 10 ^ 48 * size P := by
  obtain ⟨f, R, a, b, -, c⟩ := tetrahedron_all h0 h1
  exact ⟨f, R, a, b, c⟩

/-- The hypotheses of `tetrahedron_exact` for the order 20 and a polynomial of the degree 20 whose mean is not zero. -/
example : ∃ f R, tetrahedron 20 = some f ∧ points (tetPoint f) f.np = some R ∧
    |apply R (fun p => ((MvPolynomial.X 0 : MvPolynomial (Fin 3) ℝ) ^ 20).eval ![p 0, p 1, p 2]) -
      meanTet (fun x y z => ((MvPolynomial.X 0 : MvPolynomial (Fin 3) ℝ) ^ 20).eval ![x, y, z])| ≤
      1 / 10 ^ 48 * size ((MvPolynomial.X 0 : MvPolynomial (Fin 3) ℝ) ^ 20) := by
  obtain ⟨f, R, a, b, c⟩ := tetrahedron_exact (order := 20) (by decide) (by decide)
  refine ⟨f, R, a, b, c _ ?_⟩
  exact (MvPolynomial.totalDegree_pow _ _).trans (by simp [MvPolynomial.totalDegree_X])

/-- Coordinate `c` of the point with given barycentric coordinates in the tetrahedron with the vertices `V`, as a
polynomial of the first three of them. -/
noncomputable def affine (V : Fin 4 → Fin 3 → ℝ) (c : Fin 3) : MvPolynomial (Fin 3) ℝ :=
  MvPolynomial.C (V 0 c) * MvPolynomial.X 0 + MvPolynomial.C (V 1 c) * MvPolynomial.X 1 +
    MvPolynomial.C (V 2 c) * MvPolynomial.X 2 + MvPolynomial.C (V 3 c) * (1 - MvPolynomial.X 0 - MvPolynomial.X 1 - MvPolynomial.X 2)

theorem deg_sub_le {p q : MvPolynomial (Fin 3) ℝ} {n : Nat} (hp : p.totalDegree ≤ n) (hq : q.totalDegree ≤ n) :
    (p - q).totalDegree ≤ n := (MvPolynomial.totalDegree_sub p q).trans (max_le hp hq)
theorem deg_add_le {p q : MvPolynomial (Fin 3) ℝ} {n : Nat} (hp : p.totalDegree ≤ n) (hq : q.totalDegree ≤ n) :
    (p + q).totalDegree ≤ n := (MvPolynomial.totalDegree_add p q).trans (max_le hp hq)
theorem deg_C_mul_le {a : ℝ} {p : MvPolynomial (Fin 3) ℝ} {n : Nat} (hp : p.totalDegree ≤ n) :
    (MvPolynomial.C a * p).totalDegree ≤ n :=
  (MvPolynomial.totalDegree_mul _ _).trans (by rw [MvPolynomial.totalDegree_C]; omega)

theorem affine_degree (V : Fin 4 → Fin 3 → ℝ) (c : Fin 3) : (affine V c).totalDegree ≤ 1 := by
  have hX : ∀ i : Fin 3, (MvPolynomial.X i : MvPolynomial (Fin 3) ℝ).totalDegree ≤ 1 := fun i =>
    (MvPolynomial.totalDegree_X i).le
  have h1 : (1 : MvPolynomial (Fin 3) ℝ).totalDegree ≤ 1 := by rw [MvPolynomial.totalDegree_one]; omega
  exact deg_add_le (deg_add_le (deg_add_le (deg_C_mul_le (hX 0)) (deg_C_mul_le (hX 1))) (deg_C_mul_le (hX 2)))
    (deg_C_mul_le (deg_sub_le (deg_sub_le (deg_sub_le h1 (hX 0)) (hX 1)) (hX 2)))

theorem bind_degree {L : Fin 3 → MvPolynomial (Fin 3) ℝ} (hL : ∀ c, (L c).totalDegree ≤ 1) (Q : MvPolynomial (Fin 3) ℝ) :
    (MvPolynomial.bind₁ L Q).totalDegree ≤ Q.totalDegree := by
  rw [MvPolynomial.bind₁, MvPolynomial.aeval_def, MvPolynomial.eval₂_eq']
  refine MvPolynomial.totalDegree_finsetSum_le fun m hm => ?_
  refine deg_C_mul_le ?_
  refine (MvPolynomial.totalDegree_finsetProd _ _).trans ?_
  have h := deg_le (le_refl Q.totalDegree) hm
  refine (Finset.sum_le_sum fun i _ => ?_).trans h
  exact (MvPolynomial.totalDegree_pow _ _).trans (by have := Nat.mul_le_mul_left (m i) (hL i); omega)

/-- **C37** on the tetrahedron with arbitrary vertices `V` (degenerate or not): the rule applied at the points
`Σ λ_i V_i` gives the mean value of every polynomial of at most the degree `order` over the tetrahedron; the bound is
relative to the coefficients of the polynomial in barycentric coordinates. -/
theorem tetrahedron_exact_affine {order : Int} (h0 : 0 ≤ order) (h1 : order ≤ 20) :
    ∃ f R, tetrahedron order = some f ∧ points (tetPoint f) f.np = some R ∧
      ∀ (V : Fin 4 → Fin 3 → ℝ) (Q : MvPolynomial (Fin 3) ℝ), Q.totalDegree ≤ order.toNat →
        |apply R (fun p => Q.eval fun c => p 0 * V 0 c + p 1 * V 1 c + p 2 * V 2 c + p 3 * V 3 c) -
          meanTet (fun x y z => Q.eval fun c => x * V 0 c + y * V 1 c + z * V 2 c + (1 - x - y - z) * V 3 c)| ≤
          1 / 10 ^ 48 * size (MvPolynomial.bind₁ (affine V) Q) := by
  obtain ⟨f, R, a, b, h⟩ := tetrahedron_all h0 h1
  refine ⟨f, R, a, b, fun V Q hQ => ?_⟩
  have key := h.2 (MvPolynomial.bind₁ (affine V) Q) ((bind_degree (affine_degree V) Q).trans hQ)
  have ev : ∀ x y z : ℝ, (MvPolynomial.bind₁ (affine V) Q).eval ![x, y, z] =
      Q.eval fun c => x * V 0 c + y * V 1 c + z * V 2 c + (1 - x - y - z) * V 3 c := by
    intro x y z
    rw [← MvPolynomial.coe_aeval_eq_eval, ← MvPolynomial.coe_aeval_eq_eval]
    simp only [RingHom.coe_coe, MvPolynomial.aeval_bind₁]
    congr 2
    funext c
    simp [affine]
    ring
  have e1 : apply R (fun p => (MvPolynomial.bind₁ (affine V) Q).eval ![p 0, p 1, p 2]) =
      apply R (fun p => Q.eval fun c => p 0 * V 0 c + p 1 * V 1 c + p 2 * V 2 c + p 3 * V 3 c) := by
    unfold apply
    refine congrArg List.sum (List.map_congr_left fun q hq => ?_)
    simp only [ev]
    have h1 := h.1.proper.one q hq
    simp only [List.range_succ, List.range_zero, List.nil_append, List.map_append, List.map_cons, List.map_nil, List.sum_append,
      List.sum_cons, List.sum_nil, add_zero] at h1
    have h2 : (1 : ℝ) - (q.p 0 : ℝ) - (q.p 1 : ℝ) - (q.p 2 : ℝ) = (q.p 3 : ℝ) := by
      have : ((q.p 0 + q.p 1 + q.p 2 + q.p 3 : ℚ) : ℝ) = 1 := by
        rw [show q.p 0 + q.p 1 + q.p 2 + q.p 3 = 1 by linarith]
        norm_num
      push_cast at this
      linarith
    rw [h2]
  simp only [ev] at key
  simp only [ev] at e1
  rwa [e1] at key

/-! ### C38 -/

/-- **C38**, segments: every point can be read; positive weights with the sum one up to `10^-48`, points strictly inside
with coordinates summing to one; the stored coordinates are the ones returned; the points come in groups of 1 and 2 as
`sym` says, and the groups and the rule are invariant under every permutation of the vertices. -/
theorem segment_proper {order : Int} (h0 : 0 ≤ order) (h1 : order ≤ 21) :
    ∃ f R, segment order = some f ∧ points (segPoint f) f.np = some R ∧ Proper 1 (1 / 10 ^ 48) R ∧
      (∀ i q, R[i]? = some q → ∀ k ≤ 1, f.p[2 * i + k]? = some (q.p k)) ∧
      Grouped 1 0 (orbitSizes [1, 2] f.sym) R ∧ ∀ s, Invariant 1 0 R s := by
  obtain ⟨f, R, a, b, c, -⟩ := segment_all h0 h1
  exact ⟨f, R, a, b, c.proper, c.stored, c.grouped, c.grouped.invariant⟩

/-- **C38**, triangles. -/
theorem triangle_proper {order : Int} (h0 : 0 ≤ order) (h1 : order ≤ 20) :
    ∃ f R, triangle order = some f ∧ points (triPoint f) f.np = some R ∧ Proper 2 (1 / 10 ^ 48) R ∧
      (∀ i q, R[i]? = some q → ∀ k ≤ 2, f.p[3 * i + k]? = some (q.p k)) ∧
      Grouped 2 0 (orbitSizes [1, 3, 6] f.sym) R ∧ ∀ s, Invariant 2 0 R s := by
  obtain ⟨f, R, a, b, c, -⟩ := triangle_all h0 h1
  exact ⟨f, R, a, b, c.proper, c.stored, c.grouped, c.grouped.invariant⟩

/-- **C38**, tetrahedra; the symmetry is exact for the orders 0, 1 and 13 to 20, and up to `10^-119` in every coordinate
for the others. -/
theorem tetrahedron_proper {order : Int} (h0 : 0 ≤ order) (h1 : order ≤ 20) :
    ∃ f R, tetrahedron order = some f ∧ points (tetPoint f) f.np = some R ∧ Proper 3 (1 / 10 ^ 48) R ∧
      (∀ i q, R[i]? = some q → ∀ k ≤ 3, f.p[4 * i + k]? = some (q.p k)) ∧
      Grouped 3 (if order ≤ 1 ∨ 13 ≤ order then 0 else 1 / 10 ^ 119) (orbitSizes [1, 4, 6, 12, 24] f.sym) R ∧
      ∀ s, Invariant 3 (if order ≤ 1 ∨ 13 ≤ order then 0 else 1 / 10 ^ 119) R s := by
  obtain ⟨f, R, a, b, c, -⟩ := tetrahedron_all h0 h1
  exact ⟨f, R, a, b, c.proper, c.stored, c.grouped, c.grouped.invariant⟩

/-- **C38**: orders outside the tables are rejected, and only those. -/
theorem segment_rejects (order : Int) : segment order = none ↔ order < 0 ∨ 21 < order := by
  by_cases h : order < 0 ∨ 21 < order
  · simp only [segment, h, iff_true]
    rw [if_pos h.symm]
  · obtain ⟨f, R, a, -⟩ := segment_exact (order := order) (by omega) (by omega)
    simp [a, h]

/-- **C38**, triangles. -/
theorem triangle_rejects (order : Int) : triangle order = none ↔ order < 0 ∨ 20 < order := by
  by_cases h : order < 0 ∨ 20 < order
  · simp only [triangle, h, iff_true]
    rw [if_pos h.symm]
  · obtain ⟨f, R, a, -⟩ := triangle_exact (order := order) (by omega) (by omega)
    simp [a, h]

/-- **C38**, tetrahedra. -/
theorem tetrahedron_rejects (order : Int) : tetrahedron order = none ↔ order < 0 ∨ 20 < order := by
  by_cases h : order < 0 ∨ 20 < order
  · simp only [tetrahedron, h, iff_true]
    rw [if_pos h.symm]
  · obtain ⟨f, R, a, -⟩ := tetrahedron_exact (order := order) (by omega) (by omega)
    simp [a, h]

/-- The hypotheses of `tetrahedron_proper` for the order 12 and a cyclic permutation. -/
example : ∃ f R, tetrahedron 12 = some f ∧ points (tetPoint f) f.np = some R ∧ Invariant 3 (1 / 10 ^ 119) R (finRotate 4) := by
  obtain ⟨f, R, a, b, -, -, -, c⟩ := tetrahedron_proper (order := 12) (by decide) (by decide)
  exact ⟨f, R, a, b, c _⟩

end Verif.Quad
