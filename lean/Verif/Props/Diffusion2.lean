import Verif.Props.Diffusion

/-!
C66, continued: if the elemental integrals are exact, an exact solution of the diffusion problem that lies in the discrete space solves the
assembled system (the patch test).
-/
namespace Verif.Diffusion

open Verif.Dense Verif.Spaces Verif.Order Verif.Driver Verif.Dirichlet Verif.Diverge Finset

/-- the derivative of a product -/
theorem partial_mul {f g : (Nat → ℝ) → ℝ} {x : Nat → ℝ} {c : Nat} {a b : ℝ} (hf : HasPartial f x c a) (hg : HasPartial g x c b) :
    HasPartial (fun y => f y * g y) x c (a * g x + f x * b) := by
  have h := HasDerivAt.fun_mul hf hg
  simpa [HasPartial] using h

/-- **C66**: the balance of a cell.  With the flux `q`, the load `f = -div q` and a test function `φ`: the form minus the load is the flux through the
sides, weighted with `φ`. -/
theorem cell_balance {T : Nat → Nat → ℝ} (hv : Nondeg T) {n m : Nat} {φ : (Nat → ℝ) → ℝ} {dφ q dq : Nat → (Nat → ℝ) → ℝ} (hφ : PolyLE n φ)
    (hdφ : ∀ a, a < 3 → ∀ x, HasPartial φ x a (dφ a x)) (hq : ∀ a, a < 3 → PolyLE m (q a)) (hdq : ∀ a, a < 3 → ∀ x, HasPartial (q a) x a (dq a x))
    {A : Nat → ℝ} {ν : Nat → Nat → ℝ} (hA : ∀ f, f < 4 → IsArea (A f) (T f) (T ((f + 1) % 4)) (T ((f + 2) % 4)))
    (hν : ∀ f, f < 4 → IsNormal (ν f) (T f) (T ((f + 1) % 4)) (T ((f + 2) % 4)) (T ((f + 3) % 4))) :
    overTet T (fun y => ∑ a ∈ range 3, dφ a y * q a y) - overTet T (fun y => φ y * -∑ a ∈ range 3, dq a y) =
      ∑ s ∈ range 4, overTri (A s) (T s) (T ((s + 1) % 4)) (T ((s + 2) % 4)) fun y => φ y * through q (ν s) y := by
  have hdφp : ∀ a, a < 3 → PolyLE n (dφ a) := fun a ha => (hφ.der ha (hdφ a ha)).mono (by omega)
  have hdqp : ∀ a, a < 3 → PolyLE m (dq a) := fun a ha => ((hq a ha).der ha (hdq a ha)).mono (by omega)
  have h1 : ∀ a, a < 3 → ∑ s ∈ range 4, ν s a * overTri (A s) (T s) (T ((s + 1) % 4)) (T ((s + 2) % 4)) (fun y => φ y * q a y) =
      overTet T fun y => dφ a y * q a y + φ y * dq a y := fun a ha =>
    divergence hv (hφ.mul (hq a ha)) ha (fun x => partial_mul (hdφ a ha x) (hdq a ha x)) hA hν
  have h2 : ∀ s, overTri (A s) (T s) (T ((s + 1) % 4)) (T ((s + 2) % 4)) (fun y => φ y * through q (ν s) y) =
      ∑ a ∈ range 3, ν s a * overTri (A s) (T s) (T ((s + 1) % 4)) (T ((s + 2) % 4)) (fun y => φ y * q a y) := by
    intro s
    rw [← overTri_sum (A s) _ _ _ 3 (ν s) (fun a ha => hφ.mul (hq a ha))]
    congr 1
    funext y
    unfold through
    rw [mul_sum]
    exact sum_congr rfl fun a _ => by ring
  simp only [h2]
  rw [sum_comm]
  rw [sum_congr rfl fun a ha => h1 a (mem_range.1 ha)]
  have e1 : PolyLE (n + m) fun y => ∑ a ∈ range 3, dφ a y * q a y := polySum 3 fun a ha => (hdφp a ha).mul (hq a ha)
  have e2 : PolyLE (n + m) fun y => φ y * -∑ a ∈ range 3, dq a y := by
    refine hφ.mul (PolyLE.congr (fun x => ?_) ((polySum 3 hdqp).smul (-1)))
    ring
  have e3 := overTet_add T e1 (e2.smul (-1))
  have e4 := overTet_smul T e2 (-1)
  have e5 := overTet_sum T 3 (fun _ => 1) (f := fun a y => dφ a y * q a y + φ y * dq a y) (m := n + m)
    fun a ha => ((hdφp a ha).mul (hq a ha)).add (hφ.mul (hdqp a ha))
  simp only [one_mul] at e5
  rw [← e5]
  have : (fun y => ∑ a ∈ range 3, (dφ a y * q a y + φ y * dq a y)) = fun y => ∑ a ∈ range 3, dφ a y * q a y + -1 * (φ y * -∑ a ∈ range 3, dq a y) := by
    funext y
    rw [sum_add_distrib, ← mul_sum]
    ring
  rw [this, e3, e4]
  ring

variable {C γ : Type} [DecidableEq γ]

/-- **C66**, the patch test: a discrete function whose flux has the divergence `-f` in the cells, is continuous across the inner sides in the normal direction and
has the given values on the Neumann sides solves the equations of all free d.o.f.s. -/
theorem patch_free [Fintype C] [DecidableEq C] (M : Disc C γ) (κ : C → (Nat → ℝ) → Nat → Nat → ℝ) {δ : Nat} (hκ : ∀ c a b, a < 3 → b < 3 → PolyLE δ fun y => κ c y a b)
    (x : γ → ℝ) (D : γ → Prop) (dq : C → Nat → (Nat → ℝ) → ℝ) (hdq : ∀ c a, a < 3 → ∀ y, HasPartial (M.flux κ x c a) y a (dq c a y))
    (g : C → Nat → (Nat → ℝ) → ℝ) {A F : C → Nat → ℝ} {G : C → Nat → Nat → ℝ} (hex : M.Exact κ (fun c y => -∑ a ∈ range 3, dq c a y) g A F G)
    (neu : C → BitVec 8) (dir : C → Nat → Prop)
    (hneu : ∀ c s, s < 4 → (neu c).getLsbD s = true → M.Agree c s (through (M.flux κ x c) (M.ν c s)) (g c s))
    (hdir : ∀ c s, s < 4 → (neu c).getLsbD s = false → dir c s → ∀ i, ¬ D i → M.Agree c s (M.psi c i) fun _ => 0)
    (σ : C → Nat → C × Nat) (hσ : ∀ c s, s < 4 → (neu c).getLsbD s = false → ¬ dir c s →
      (σ c s).2 < 4 ∧ (neu (σ c s).1).getLsbD (σ c s).2 = false ∧ ¬ dir (σ c s).1 (σ c s).2 ∧ σ (σ c s).1 (σ c s).2 = (c, s) ∧
        M.Glued κ x (fun i => ¬ D i) c s (σ c s).1 (σ c s).2) {i : γ} (hi : ¬ D i) :
    Diffusion.total M.n M.loc (fun c k => lhs M.n M.n (A c) (fun j => x (M.loc c j)) k) i =
      Diffusion.total M.n M.loc (fun c k => F c k + ∑ s ∈ range 4, if (neu c).getLsbD s then G c s k else 0) i := by
  classical
  -- polynomials
  have hdφ : ∀ c k, k < M.n → ∀ a, a < 3 → PolyLE M.deg (M.dφ c k a) := fun c k hk a ha => ((M.poly c k hk).der ha (M.der c k hk a ha)).mono (by omega)
  have hq : ∀ c a, a < 3 → PolyLE (δ + M.deg) (M.flux κ x c a) := fun c a ha =>
    polySum 3 fun b hb => (hκ c a b ha hb).mul (polySum M.n fun k hk => (hdφ c k hk b hb).smul _)
  have hthr : ∀ c ν, PolyLE (δ + M.deg) (through (M.flux κ x c) ν) := fun c ν => polySum 3 fun a ha => (hq c a ha).smul _
  have hpsi : ∀ c, PolyLE M.deg (M.psi c i) := fun c => polySum M.n fun k hk => (M.poly c k hk).smul _
  -- the balance of a cell
  have hbal : ∀ c k, k < M.n → lhs M.n M.n (A c) (fun j => x (M.loc c j)) k - F c k =
      ∑ s ∈ range 4, M.overSide c s fun y => M.φ c k y * through (M.flux κ x c) (M.ν c s) y := by
    intro c k hk
    have h := cell_balance (M.nondeg c) (M.poly c k hk) (fun a ha => M.der c k hk a ha) (fun a ha => hq c a ha) (fun a ha => hdq c a ha) (M.isArea c) (M.isNormal c)
    rw [hex.load c k hk]
    refine Eq.trans ?_ h
    congr 1
    unfold lhs
    rw [sum_congr rfl fun j hj => by rw [hex.mat c k j hk (mem_range.1 hj), mul_comm]]
    have hfp : ∀ j, j < M.n → PolyLE (M.deg + (δ + M.deg)) (form 3 3 (κ c) (M.dφ c j) (M.dφ c k)) := fun j hj =>
      polySum 3 fun a ha => (hdφ c k hk a ha).mul (polySum 3 fun b hb => (hκ c a b ha hb).mul (hdφ c j hj b hb))
    rw [← overTet_sum (M.T c) M.n (fun j => x (M.loc c j)) hfp]
    congr 1
    funext y
    unfold form Disc.flux
    simp only [mul_sum]
    rw [sum_comm]
    refine sum_congr rfl fun a _ => ?_
    rw [sum_comm]
    exact sum_congr rfl fun b _ => sum_congr rfl fun j _ => by ring
  -- the sum over the cells and sides
  have hcell : ∀ c, ∑ k ∈ range M.n, (if M.loc c k = i then lhs M.n M.n (A c) (fun j => x (M.loc c j)) k -
      (F c k + ∑ s ∈ range 4, if (neu c).getLsbD s then G c s k else 0) else 0) =
      ∑ s ∈ range 4, if (neu c).getLsbD s then 0 else M.overSide c s fun y => M.psi c i y * through (M.flux κ x c) (M.ν c s) y := by
    intro c
    have h1 : ∀ k ∈ range M.n, (if M.loc c k = i then lhs M.n M.n (A c) (fun j => x (M.loc c j)) k -
        (F c k + ∑ s ∈ range 4, if (neu c).getLsbD s then G c s k else 0) else 0) =
        ∑ s ∈ range 4, (if M.loc c k = i then 1 else 0) * (if (neu c).getLsbD s then 0 else M.overSide c s fun y => M.φ c k y * through (M.flux κ x c) (M.ν c s) y) := by
      intro k hk
      rw [← mul_sum]
      split_ifs with hki
      · rw [one_mul, ← sub_sub, hbal c k (mem_range.1 hk), ← sum_sub_distrib]
        refine sum_congr rfl fun s hs => ?_
        split_ifs with hs'
        · rw [hex.side c s k (mem_range.1 hs) (mem_range.1 hk), sub_eq_zero]
          refine overTri_agree _ fun a b => ?_
          try dsimp only
          rw [hneu c s (mem_range.1 hs) hs' a b]
        · rw [sub_zero]
      · rw [zero_mul]
    rw [sum_congr rfl h1, sum_comm]
    refine sum_congr rfl fun s _ => ?_
    split_ifs with hs'
    · simp
    · have := overTri_sum (M.area c s) (M.T c s) (M.T c ((s + 1) % 4)) (M.T c ((s + 2) % 4)) M.n (fun k => if M.loc c k = i then (1 : ℝ) else 0)
        (fun k hk => (M.poly c k hk).mul (hthr c (M.ν c s)))
      unfold Disc.overSide
      rw [← this]
      congr 1
      funext y
      unfold Disc.psi
      rw [sum_mul]
      exact sum_congr rfl fun k _ => by ring
  rw [← sub_eq_zero]
  have e : Diffusion.total M.n M.loc (fun c k => lhs M.n M.n (A c) (fun j => x (M.loc c j)) k) i -
      Diffusion.total M.n M.loc (fun c k => F c k + ∑ s ∈ range 4, if (neu c).getLsbD s then G c s k else 0) i =
      ∑ c, ∑ s ∈ range 4, if (neu c).getLsbD s then 0 else M.overSide c s fun y => M.psi c i y * through (M.flux κ x c) (M.ν c s) y := by
    unfold Diffusion.total
    rw [← sum_sub_distrib]
    refine sum_congr rfl fun c _ => ?_
    rw [← hcell c, ← sum_sub_distrib]
    exact sum_congr rfl fun k _ => by split_ifs <;> simp
  rw [e, ← sum_product' univ (range 4) fun c s => if (neu c).getLsbD s then 0 else M.overSide c s fun y => M.psi c i y * through (M.flux κ x c) (M.ν c s) y]
  -- Dirichlet sides give nothing
  have hz : ∀ c s, s < 4 → (neu c).getLsbD s = false → dir c s → (M.overSide c s fun y => M.psi c i y * through (M.flux κ x c) (M.ν c s) y) = 0 := by
    intro c s hs h1 h2
    refine (overTri_agree _ fun a b => ?_).trans (overTri_zero _ _ _ _)
    try dsimp only
    rw [hdir c s hs h1 h2 i hi a b, zero_mul]
  -- inner sides cancel
  have hpair : ∀ c s, s < 4 → (neu c).getLsbD s = false → ¬ dir c s → (M.overSide c s fun y => M.psi c i y * through (M.flux κ x c) (M.ν c s) y) +
      (M.overSide (σ c s).1 (σ c s).2 fun y => M.psi (σ c s).1 i y * through (M.flux κ x (σ c s).1) (M.ν (σ c s).1 (σ c s).2) y) = 0 := by
    intro c s hs h1 h2
    obtain ⟨h3, -, -, -, h4⟩ := hσ c s hs h1 h2
    obtain ⟨π, hπ⟩ := h4.same
    set c' := (σ c s).1
    set s' := (σ c s).2
    have a0 : M.T c' s' = corner (M.T c) s (π 0) := by rw [← hπ 0]; unfold corner; rw [show (s' + ((0 : Fin 3) : Nat)) % 4 = s' from Nat.mod_eq_of_lt h3]
    have a1 : M.T c' ((s' + 1) % 4) = corner (M.T c) s (π 1) := (hπ 1)
    have a2 : M.T c' ((s' + 2) % 4) = corner (M.T c) s (π 2) := (hπ 2)
    have b0 : M.T c s = corner (M.T c) s 0 := by unfold corner; rw [show (s + ((0 : Fin 3) : Nat)) % 4 = s from Nat.mod_eq_of_lt hs]
    have b1 : M.T c ((s + 1) % 4) = corner (M.T c) s 1 := rfl
    have b2 : M.T c ((s + 2) % 4) = corner (M.T c) s 2 := rfl
    have hA : M.area c s = M.area c' s' := by
      refine area_perm (p := corner (M.T c) s) π ?_ ?_
      · rw [← b0, ← b1, ← b2]; exact M.isArea c s hs
      · rw [← a0, ← a1, ← a2]; exact M.isArea c' s' h3
    have hp : PolyLE (M.deg + (δ + M.deg)) fun y => M.psi c' i y * through (M.flux κ x c') (M.ν c' s') y := (hpsi c').mul (hthr c' _)
    have e1 : (M.overSide c' s' fun y => M.psi c' i y * through (M.flux κ x c') (M.ν c' s') y) =
        M.overSide c s fun y => M.psi c' i y * through (M.flux κ x c') (M.ν c' s') y := by
      unfold Disc.overSide
      rw [a0, a1, a2, b0, b1, b2, ← hA]
      exact overTri_perm _ (corner (M.T c) s) π hp
    have e2 : (M.overSide c s fun y => M.psi c i y * through (M.flux κ x c) (M.ν c s) y) =
        M.overSide c s fun y => -1 * (M.psi c' i y * through (M.flux κ x c') (M.ν c' s') y) := by
      refine overTri_agree _ fun a b => ?_
      try dsimp only
      rw [h4.cont i hi a b, h4.normal a b]
      ring
    have e3 := overTri_add (M.area c s) (M.T c s) (M.T c ((s + 1) % 4)) (M.T c ((s + 2) % 4)) hp (PolyLE.const 0 (0 : ℝ)) (-1) 0
    simp only [mul_zero, add_zero, zero_mul] at e3
    rw [e1, e2]
    unfold Disc.overSide
    rw [e3]
    ring
  refine sum_involution (fun p _ => if (neu p.1).getLsbD p.2 then p else if dir p.1 p.2 then p else σ p.1 p.2) ?_ ?_ ?_ ?_
  · rintro ⟨c, s⟩ hcs
    have hs : s < 4 := mem_range.1 (mem_product.1 hcs).2
    dsimp only
    by_cases h1 : (neu c).getLsbD s = true
    · rw [if_pos h1, if_pos h1, zero_add]; dsimp only; rw [if_pos h1]
    rw [if_neg h1, if_neg h1]
    have h1' : (neu c).getLsbD s = false := by simpa using h1
    by_cases h2 : dir c s
    · rw [if_pos h2]; dsimp only; rw [if_neg h1, hz c s hs h1' h2, zero_add]
    · rw [if_neg h2, if_neg (by simp [(hσ c s hs h1' h2).2.1])]
      exact hpair c s hs h1' h2
  · rintro ⟨c, s⟩ hcs hne
    have hs : s < 4 := mem_range.1 (mem_product.1 hcs).2
    dsimp only at hne ⊢
    by_cases h1 : (neu c).getLsbD s = true
    · rw [if_pos h1] at hne; exact absurd rfl hne
    rw [if_neg h1] at hne ⊢
    have h1' : (neu c).getLsbD s = false := by simpa using h1
    by_cases h2 : dir c s
    · exact absurd (hz c s hs h1' h2) hne
    · rw [if_neg h2]
      exact (hσ c s hs h1' h2).2.2.2.2.other
  · rintro ⟨c, s⟩ hcs
    have hs : s < 4 := mem_range.1 (mem_product.1 hcs).2
    dsimp only
    split_ifs with h1 h2
    · exact hcs
    · exact hcs
    · exact mem_product.2 ⟨mem_univ _, mem_range.2 (hσ c s hs (by simpa using h1) h2).1⟩
  · rintro ⟨c, s⟩ hcs
    have hs : s < 4 := mem_range.1 (mem_product.1 hcs).2
    dsimp only
    by_cases h1 : (neu c).getLsbD s = true
    · simp only [if_pos h1]
    by_cases h2 : dir c s
    · simp only [if_neg h1, if_pos h2]
    · simp only [if_neg h1, if_neg h2]
      obtain ⟨-, q1, q2, q3, -⟩ := hσ c s hs (by simpa using h1) h2
      rw [if_neg (by simp [q1]), if_neg q2, q3]

/-- **C66**: the solver solves the problem it is given when it can.  If the discrete function with the values `x` satisfies the Dirichlet conditions, has the Neumann data as normal flux, a
continuous normal flux and the load as divergence of its flux, then `x` solves the system assembled from the elemental systems. -/
theorem patch_test [Fintype C] [DecidableEq C] (M : Disc C γ) (κ : C → (Nat → ℝ) → Nat → Nat → ℝ) {δ : Nat} (hκ : ∀ c a b, a < 3 → b < 3 → PolyLE δ fun y => κ c y a b)
    (x : γ → ℝ) (D : γ → Prop) [DecidablePred D] (dq : C → Nat → (Nat → ℝ) → ℝ) (hdq : ∀ c a, a < 3 → ∀ y, HasPartial (M.flux κ x c a) y a (dq c a y))
    (g : C → Nat → (Nat → ℝ) → ℝ) {A F : C → Nat → ℝ} {G : C → Nat → Nat → ℝ} (hex : M.Exact κ (fun c y => -∑ a ∈ range 3, dq c a y) g A F G)
    (neu : C → BitVec 8) (dir : C → Nat → Prop)
    (hneu : ∀ c s, s < 4 → (neu c).getLsbD s = true → M.Agree c s (through (M.flux κ x c) (M.ν c s)) (g c s))
    (hdir : ∀ c s, s < 4 → (neu c).getLsbD s = false → dir c s → ∀ i, ¬ D i → M.Agree c s (M.psi c i) fun _ => 0)
    (σ : C → Nat → C × Nat) (hσ : ∀ c s, s < 4 → (neu c).getLsbD s = false → ¬ dir c s →
      (σ c s).2 < 4 ∧ (neu (σ c s).1).getLsbD (σ c s).2 = false ∧ ¬ dir (σ c s).1 (σ c s).2 ∧ σ (σ c s).1 (σ c s).2 = (c, s) ∧
        M.Glued κ x (fun i => ¬ D i) c s (σ c s).1 (σ c s).2)
    (gids : C → List Nat) (hnd : ∀ c, (gids c).Nodup) (hlt : ∀ c, ∀ k ∈ gids c, k < M.n) (hD : ∀ c k, k < M.n → (k ∈ gids c ↔ D (M.loc c k)))
    (val : C → Nat → ℝ) (hval : ∀ c k, k < M.n → D (M.loc c k) → val c k = x (M.loc c k)) (i : γ) :
    Diffusion.total M.n M.loc (fun c k => lhs M.n M.n (localSys M.n (A c) (F c) (G c) (neu c) (gids c) (val c)).1 (fun j => x (M.loc c j)) k) i =
      Diffusion.total M.n M.loc (fun c k => (localSys M.n (A c) (F c) (G c) (neu c) (gids c) (val c)).2 k) i :=
  (assembled_iff M.n M.loc D x A F G neu gids val hnd hlt hD hval x).2
    ⟨fun _ _ _ => rfl, fun _ hi => patch_free M κ hκ x D dq hdq g hex neu dir hneu hdir σ hσ hi⟩ i

/-! ### Two tetrahedrons with a common side -/

/-- the sign of the first coordinate of the first node -/
def sgn : Bool → ℝ
  | false => 1
  | true => -1

theorem sgn_sq (c : Bool) : sgn c * sgn c = 1 := by cases c <;> norm_num [sgn]

/-- the nodes -/
def exT (c : Bool) (v k : Nat) : ℝ := if v = 0 then (if k = 0 then sgn c else 0) else if v = k + 1 ∧ 0 < k then 1 else 0

/-- the places of the local numbers -/
def exLoc (c : Bool) : Nat → Fin 5
  | 0 => if c then 4 else 0 | 1 => 1 | 2 => 2 | _ => 3

/-- the basis functions of P1 -/
def exφ (c : Bool) : Nat → (Nat → ℝ) → ℝ
  | 0, y => sgn c * y 0 | 1, y => 1 - sgn c * y 0 - y 1 - y 2 | 2, y => y 1 | _, y => y 2

/-- their derivatives -/
def exd (c : Bool) : Nat → Nat → ℝ
  | 0, 0 => sgn c | 0, _ => 0 | 1, 0 => -sgn c | 1, _ => -1 | 2, 1 => 1 | 2, _ => 0 | _, 2 => 1 | _, _ => 0

/-- areas of the sides -/
noncomputable def exA : Nat → ℝ
  | 2 => √3 / 2 | _ => 1 / 2

/-- outer normals -/
noncomputable def exν (c : Bool) : Nat → Nat → ℝ
  | 0, 2 => -1 | 1, 0 => -sgn c | 2, 0 => sgn c / √3 | 2, _ => 1 / √3 | 3, 1 => -1 | _, _ => 0

theorem exφ_poly (c : Bool) (k : Nat) (hk : k < 4) : PolyLE 1 (exφ c k) := by
  have h := fun j (hj : j < 3) => PolyLE.coord hj
  interval_cases k
  · exact (h 0 (by omega)).smul _
  · exact (((PolyLE.const 1 (1 : ℝ)).sub ((h 0 (by omega)).smul _)).sub (h 1 (by omega))).sub (h 2 (by omega))
  · exact h 1 (by omega)
  · exact h 2 (by omega)

theorem exφ_der (c : Bool) (k : Nat) (hk : k < 4) (a : Nat) (ha : a < 3) (x : Nat → ℝ) : HasPartial (exφ c k) x a (exd c k a) := by
  have h : ∀ j, HasPartial (fun y => y j) x a (if j = a then 1 else 0) := fun j => by
    unfold HasPartial
    simpa using ((hasDerivAt_id (0 : ℝ)).mul_const (if j = a then (1 : ℝ) else 0)).const_add (x j)
  have h0 := HasDerivAt.const_mul (sgn c) (h 0)
  have h1 := ((HasDerivAt.fun_sub (HasDerivAt.const_sub (1 : ℝ) h0) (h 1))).fun_sub (h 2)
  interval_cases k
  · interval_cases a <;> simpa [exd, HasPartial, exφ] using h0
  · interval_cases a <;> simpa [exd, HasPartial, exφ] using h1
  · interval_cases a <;> simpa [exd, HasPartial, exφ] using h 1
  · interval_cases a <;> simpa [exd, HasPartial, exφ] using h 2

/-- the mesh -/
noncomputable def exM : Disc Bool (Fin 5) where
  T := exT
  n := 4
  loc := exLoc
  φ := exφ
  dφ c k a _ := exd c k a
  area _ := exA
  ν := exν
  deg := 1
  nondeg c := by cases c <;> simp [Nondeg, Geometry.vol6, Matrix.det_fin_three, exT, sgn]
  poly := exφ_poly
  der := exφ_der
  isArea c s hs := by
    have h3 : √3 * √3 = 3 := Real.mul_self_sqrt (by norm_num)
    have h4 := sgn_sq c
    interval_cases s <;> refine ⟨by simp only [exA]; positivity, ?_⟩ <;> simp [exA, exT, Geometry.dot, Geometry.diff] <;> nlinarith
  isNormal c s hs := by
    have h3 : √3 * √3 = 3 := Real.mul_self_sqrt (by norm_num)
    have hp : 0 < √3 := by positivity
    have h4 := sgn_sq c
    interval_cases s <;> refine ⟨?_, ?_, ?_, ?_⟩ <;> simp [exν, exT, Geometry.dot, Geometry.diff] <;> try (field_simp <;> nlinarith)
    all_goals exact fun h => by rw [h] at h4; norm_num at h4

theorem ex_flux (c : Bool) (a : Nat) (ha : a < 3) (y : Nat → ℝ) :
    exM.flux (fun _ _ a b => if a = b then 1 else 0) ![1, 0, 0, 0, -1] c a y = if a = 0 then 1 else 0 := by
  cases c <;> interval_cases a <;> simp [Disc.flux, exM, exLoc, sum_range_succ, exd, sgn]

theorem ex_through (c : Bool) (ν : Nat → ℝ) (y : Nat → ℝ) :
    through (exM.flux (fun _ _ a b => if a = b then 1 else 0) ![1, 0, 0, 0, -1] c) ν y = ν 0 := by
  simp [through, sum_range_succ, ex_flux]

/-- the hypotheses of the patch test hold for `u = x_0` with the value 1 prescribed at the first node and Neumann conditions on all outer sides -/
example (i : Fin 5) :
    let A := fun c t => overTet (exT c) (form 3 3 (fun _ a b => if a = b then 1 else 0) (fun a _ => exd c (t / 4) a) (fun a _ => exd c (t % 4) a))
    let F := fun c k => overTet (exT c) fun y => exφ c k y * -∑ _a ∈ range 3, 0
    let G := fun c s k => exM.overSide c s fun y => exφ c k y * exν c s 0
    let L := fun c => localSys 4 (A c) (F c) (G c) 13#8 (if c then [] else [0]) (fun _ => 1)
    Diffusion.total 4 exM.loc (fun c k => lhs 4 4 (L c).1 (fun j => (![1, 0, 0, 0, -1] : Fin 5 → ℝ) (exM.loc c j)) k) i =
      Diffusion.total 4 exM.loc (fun c k => (L c).2 k) i := by
  intro A F G L
  refine patch_test exM (fun _ _ a b => if a = b then 1 else 0) (δ := 0) (fun c a b _ _ => PolyLE.const 0 _) ![1, 0, 0, 0, -1] (fun i => i = 0) (fun _ _ _ => 0) ?_
    (fun c s _ => exν c s 0) (A := A) (F := F) (G := G) ⟨?_, fun _ _ _ => rfl, fun _ _ _ _ _ => rfl⟩ (fun _ => 13#8) (fun _ _ => False) ?_ (fun _ _ _ _ h => h.elim)
    (fun c s => (!c, s)) ?_ (fun c => if c then [] else [0]) ?_ ?_ ?_ (fun _ _ => 1) ?_ i
  · intro c a ha y
    have : exM.flux (fun _ _ a b => if a = b then 1 else 0) ![1, 0, 0, 0, -1] c a = fun _ => if a = 0 then 1 else 0 := funext fun y => ex_flux c a ha y
    rw [this]
    exact hasDerivAt_const _ _
  · intro c k j hk hj
    have e1 : (k + j * 4) / 4 = j := by change k < 4 at hk; omega
    have e2 : (k + j * 4) % 4 = k := by change k < 4 at hk; omega
    show overTet (exT c) (form 3 3 (fun _ a b => if a = b then 1 else 0) (fun a _ => exd c ((k + j * 4) / 4) a) (fun a _ => exd c ((k + j * 4) % 4) a)) = _
    rw [e1, e2]
    rfl
  · intro c s hs _ a b
    exact ex_through c _ _
  · intro c s hs h13 _
    have h1 : s = 1 := by interval_cases s <;> first | rfl | (exact absurd h13 (by decide))
    subst h1
    refine ⟨by simp, by simp, id, by simp, ⟨by simp, ⟨1, fun j => ?_⟩, fun i hi a b => ?_, fun a b => ?_⟩⟩
    · funext k
      fin_cases j <;> cases c <;> simp [corner, exM, exT]
    · have hz : onTri (exT c 1) (exT c 2) (exT c 3) a b 0 = 0 := by cases c <;> simp [onTri, exT]
      change exM.psi c i (onTri (exT c 1) (exT c 2) (exT c 3) a b) = exM.psi (!c) i (onTri (exT c 1) (exT c 2) (exT c 3) a b)
      cases c <;> fin_cases i <;> simp [Disc.psi, exM, exLoc, sum_range_succ, exφ, hz] at hi ⊢
    · rw [ex_through]
      dsimp only
      rw [ex_through]
      cases c <;> simp [exM, exν, sgn]
  · intro c; cases c <;> simp
  · intro c k hk; cases c <;> simp at hk; subst hk; decide
  · intro c k hk
    change k < 4 at hk
    cases c <;> interval_cases k <;> simp [exM, exLoc]
  · intro c k hk h
    rw [h]; rfl

end Verif.Diffusion
