import Verif.Lemmas.StrainChain
import Verif.Props.Strain

/-!
# C58: strains, stresses and their derivatives

`E = (FᵀF − 1)/2` and its directional derivative, `P = F S` and `D = dP/dF`, and the chain rule that
makes them the gradient and the Hessian of the energy with respect to the displacement gradient.
-/

namespace Verif.Strain

open Verif.Tensor Verif.AutoDiff Matrix Filter

/-- The matrix that a packed array stands for. -/
def full (a : Store ℝ) : Matrix (Fin 3) (Fin 3) ℝ := Matrix.of fun i j => mtxGet 3 a i j

/-- `F_to_E` is (FᵀF − 1)/2. -/
theorem fToE_spec (F : Store ℝ) (i j : Fin 3) : symGet 3 (fToE F) i j = specE (full F) i j := by
  fin_cases i <;> fin_cases j <;>
    simp [fToE, symGet, symAt, List.range_succ, writes, Function.update, specE, full, Matrix.mul_apply,
      Fin.sum_univ_three, zeros] <;> ring

/-- `grU_to_E` is the strain of `F = 1 + ∇u`. -/
theorem gradToE_spec (g : Store ℝ) (i j : Fin 3) :
    symGet 3 (gradToE g) i j = specE (1 + full g) i j := by
  fin_cases i <;> fin_cases j <;>
    simp [gradToE, upper, symGet, symAt, List.range_succ, List.range', writes, Function.update, specE, full,
      Matrix.mul_apply, Fin.sum_univ_three, zeros, Matrix.add_apply] <;> ring

/-- The Cauchy–Green tensor of the strain of `F` is FᵀF. -/
theorem cauchy_of_F (F : Store ℝ) : specC (entries (fToE F)) = (full F)ᵀ * full F := by
  ext i j
  rw [specC_apply]
  simp only [entries, fToE_spec, specE, Matrix.smul_apply, Matrix.sub_apply, smul_eq_mul, Matrix.mul_apply,
    Matrix.transpose_apply, Matrix.one_apply, eq_comm (a := j) (b := i)]
  have : ∑ k, full F k j * full F k i = ∑ k, full F k i * full F k j :=
    Finset.sum_congr rfl fun k _ => mul_comm _ _
  rw [this]
  ring

/-- `J` of the strain of `F` is |det F|. -/
theorem J_of_F (F : Store ℝ) : cJ (fToE F) = |(full F).det| := by
  rw [cJ, cI3_eq, specI3, cauchy_of_F, Matrix.det_mul, Matrix.det_transpose, Real.sqrt_mul_self_eq_abs]

/-- `F_and_dF_to_dE` is the derivative of the strain in the direction `dF`. -/
theorem fToDE_deriv (F dF : Store ℝ) (i j : Fin 3) :
    HasDerivAt (fun t : ℝ => specE (full F + t • full dF) i j) (symGet 3 (fToDE F dF) i j) 0 := by
  have h : ∀ a b : Fin 3, HasDerivAt (fun t : ℝ => (full F + t • full dF) a b) (full dF a b) 0 := fun a b => by
    simp only [Matrix.add_apply, Matrix.smul_apply, smul_eq_mul]
    simpa using ((hasDerivAt_id (0 : ℝ)).mul_const (full dF a b)).const_add (full F a b)
  have h2 := (((((h 0 i).mul (h 0 j)).add ((h 1 i).mul (h 1 j))).add ((h 2 i).mul (h 2 j))).sub_const
    ((1 : Matrix (Fin 3) (Fin 3) ℝ) i j)).const_mul (1 / 2 : ℝ)
  have e : (fun t : ℝ => specE (full F + t • full dF) i j) = fun t : ℝ => (1 / 2 : ℝ) *
      ((full F + t • full dF) 0 i * (full F + t • full dF) 0 j
        + (full F + t • full dF) 1 i * (full F + t • full dF) 1 j
        + (full F + t • full dF) 2 i * (full F + t • full dF) 2 j
        - (1 : Matrix (Fin 3) (Fin 3) ℝ) i j) := by
    funext t
    simp only [specE, Matrix.smul_apply, Matrix.sub_apply, smul_eq_mul, Matrix.mul_apply,
      Matrix.transpose_apply, Fin.sum_univ_three]
  rw [e]
  refine HasDerivAt.congr_deriv h2 ?_
  clear h h2 e
  fin_cases i <;> fin_cases j <;>
    simp [fToDE, upper, symGet, symAt, List.range_succ, List.range', writes, Function.update, full] <;> ring

/-- `grU_and_dgrU_to_dE` is the derivative of the strain in the direction `d∇u`. -/
theorem gradToDE_deriv (g dg : Store ℝ) (i j : Fin 3) :
    HasDerivAt (fun t : ℝ => specE (1 + full g + t • full dg) i j) (symGet 3 (gradToDE g dg) i j) 0 := by
  have e1 : full (plus (mtxIdentity 3 1) g) = 1 + full g := by
    ext a b
    have := mtxIdentity_get (1 : ℝ) a.2 b.2
    simp only [full, Matrix.of_apply, mtxGet, plus, Matrix.add_apply, Matrix.one_apply] at this ⊢
    rw [this]; simp [Fin.ext_iff]
  have h := fToDE_deriv (plus (mtxIdentity 3 1) g) dg i j
  rw [e1] at h
  refine HasDerivAt.congr_deriv h ?_
  have e2 : ∀ a b : Fin 3, mtxGet 3 (plus (mtxIdentity 3 1) g) a b
      = (1 : Matrix (Fin 3) (Fin 3) ℝ) a b + mtxGet 3 g a b := fun a b => congrFun (congrFun e1 a) b
  have e3 := fun a b : Fin 3 => e2 a b
  have e00 := e2 0 0; have e01 := e2 0 1; have e02 := e2 0 2; have e10 := e2 1 0; have e11 := e2 1 1
  have e12 := e2 1 2; have e20 := e2 2 0; have e21 := e2 2 1; have e22 := e2 2 2
  simp at e00 e01 e02 e10 e11 e12 e20 e21 e22
  fin_cases i <;> fin_cases j <;>
    simp [fToDE, gradToDE, upper, symGet, symAt, List.range_succ, List.range', writes, Function.update,
      e00, e01, e02, e10, e11, e12, e20, e21, e22] <;> ring

/-! ## The Piola stress -/

/-- `S_to_P` is P = F S. -/
theorem sToP_get (g S : Store ℝ) (i j : Fin 3) :
    mtxGet 3 (sToP g S) i j = ∑ m, (1 + full g) i m * symGet 3 S m j := by
  rw [sToP, mtxAddSym, mixed_get _ i.2 j.2, mtxProdSym_get _ _ i.2 j.2, Finset.sum_range]
  simp only [Matrix.add_apply, add_mul, Finset.sum_add_distrib, full, Matrix.of_apply, Matrix.one_apply,
    ite_mul, one_mul, zero_mul, Finset.sum_ite_eq, Finset.mem_univ, if_true]
  rw [add_comm]; rfl

theorem plus_one (g : Store ℝ) (i j : Fin 3) :
    mtxGet 3 (plus (mtxIdentity 3 1) g) i j = (1 + full g) i j := by
  have := mtxIdentity_get (1 : ℝ) i.2 j.2
  simp only [mtxGet] at this
  simp only [full, Matrix.of_apply, mtxGet, plus, Matrix.add_apply, Matrix.one_apply, this]
  simp [Fin.ext_iff]

/-- Where the entry of a quadruple is stored, the quadruple is found up to the symmetry. -/
theorem st3_index (i j k l : Fin 3) :
    stIndex 3 (stPos 3 (stSort 3 i j k l)) = (↑i, ↑j, ↑k, ↑l) ∨
      stIndex 3 (stPos 3 (stSort 3 i j k l)) = (↑k, ↑l, ↑i, ↑j) := by
  revert i j k l; decide +kernel

/-- The positions written by the first loop of `dS_to_dP`. -/
theorem dp_pos1 (i j k l : Fin 3) :
    stPos 3 (stSort 3 i j k l) ∈ ((upper 3).flatMap fun q => (List.range 3).map fun i =>
      stPos 3 (stSort 3 i q.1 i q.2)) ↔ i = k := by
  revert i j k l; decide +kernel

/-- The positions of the second loop. -/
theorem dp_pos2 (i j k l : Fin 3) :
    stPos 3 (stSort 3 i j k l) ∈ ((square 3).map fun q => stPos 3 (stSort 3 q.1 q.2 q.1 q.2)) ↔
      i = k ∧ j = l := by
  revert i j k l; decide +kernel

/-- The positions of the third loop. -/
theorem dp_pos3 (i j k l : Fin 3) :
    stPos 3 (stSort 3 i j k l) ∈ ((square 3).flatMap fun q =>
      (List.range' (q.1 + 3 * q.2 + 1) (9 - (q.1 + 3 * q.2 + 1))).map fun kl =>
        stPos 3 (stSort 3 q.1 q.2 (kl % 3) (kl / 3))) ↔ ¬(i = k ∧ j = l) := by
  revert i j k l; decide +kernel

theorem dp_nodup2 : ((square 3).map fun q => stPos 3 (stSort 3 q.1 q.2 q.1 q.2)).Nodup := by
  decide +kernel

theorem dp_nodup3 : ((square 3).flatMap fun q =>
    (List.range' (q.1 + 3 * q.2 + 1) (9 - (q.1 + 3 * q.2 + 1))).map fun kl =>
      stPos 3 (stSort 3 q.1 q.2 (kl % 3) (kl / 3))).Nodup := by
  decide +kernel

/-- A function of quadruples that is symmetric, read back from the position. -/
theorem via_index {V : Nat → Nat → Nat → Nat → ℝ} (hV : ∀ i j k l : Fin 3, V i j k l = V k l i j)
    {i j k l : Nat} (hi : i < 3) (hj : j < 3) (hk : k < 3) (hl : l < 3) :
    V i j k l = (fun q : Nat × Nat × Nat × Nat => V q.1 q.2.1 q.2.2.1 q.2.2.2)
      (stIndex 3 (stPos 3 (stSort 3 i j k l))) := by
  rcases st3_index ⟨i, hi⟩ ⟨j, hj⟩ ⟨k, hk⟩ ⟨l, hl⟩ with h | h
  · simp only at h; rw [h]
  · simp only at h; rw [h]; exact hV ⟨i, hi⟩ ⟨j, hj⟩ ⟨k, hk⟩ ⟨l, hl⟩

/-- `dS_to_dP` is `D_ijkl = δ_ik S_lj + ∑ F_in F_km dS_njml`. -/
theorem dsToDP_get (g S dS : Store ℝ) (i j k l : Fin 3) :
    stGet 3 (dsToDP g S dS) i j k l = (if i = k then symGet 3 S l j else 0)
      + ∑ n : Fin 3, ∑ m : Fin 3, (1 + full g) i n * (1 + full g) k m * bs3Get dS n j m l := by
  set f := mtxGet 3 (plus (mtxIdentity 3 1) g) with hf
  set s := bs3Get dS with hs
  let W : Nat → Nat → Nat → Nat → ℝ := fun i j k l =>
    total ((square 3).map fun nm => s nm.1 j nm.2 l * f i nm.1 * f k nm.2)
  have hW0 : ∀ i j k l, W i j k l = ∑ n : Fin 3, ∑ m : Fin 3, s n j m l * f i n * f k m := fun i j k l => by
    simp only [W, total_eq, sum_square, Finset.sum_range]
  have hsym : ∀ n j m l : Fin 3, s n j m l = s m l n j := fun n j m l => (bs3Get_symm dS n j m l).2
  have hW : ∀ i j k l : Fin 3, W i j k l = W k l i j := fun i j k l => by
    rw [hW0, hW0, Finset.sum_comm]
    refine Finset.sum_congr rfl fun n _ => Finset.sum_congr rfl fun m _ => ?_
    rw [hsym m j n l]; ring
  have hV1 : ∀ i j k l : Fin 3, (fun _ b _ d : Nat => symGet 3 S d b) i j k l
      = (fun _ b _ d : Nat => symGet 3 S d b) k l i j := fun i j k l => symGet_comm 3 S l j
  rw [stGet, dsToDP]
  simp only []
  rw [adds_once _ _ (fun p => (fun q : Nat × Nat × Nat × Nat => W q.1 q.2.1 q.2.2.1 q.2.2.2) (stIndex 3 p)),
    adds_once _ _ (fun p => (fun q : Nat × Nat × Nat × Nat => W q.1 q.2.1 q.2.2.1 q.2.2.2) (stIndex 3 p)),
    dpFirst, writes_apply _ _ (fun p => (fun q : Nat × Nat × Nat × Nat =>
      (fun _ b _ d : Nat => symGet 3 S d b) q.1 q.2.1 q.2.2.1 q.2.2.2) (stIndex 3 p))]
  · simp only [List.map_flatMap, List.map_map, Function.comp_def, dp_pos1, dp_pos2, dp_pos3]
    have a1 := via_index (V := fun _ b _ d => symGet 3 S d b) hV1 i.2 j.2 k.2 l.2
    have a2 := via_index hW i.2 j.2 k.2 l.2
    simp only at a1 a2
    rw [← a1, ← a2, hW0]
    have : ∀ x : ℝ, (if i = k ∧ j = l then x else 0) + (if ¬(i = k ∧ j = l) then x else 0) = x := fun x => by
      by_cases h : i = k ∧ j = l <;> simp [h]
    rw [add_assoc, this]
    congr 1
    refine Finset.sum_congr rfl fun n _ => Finset.sum_congr rfl fun m _ => ?_
    rw [hf, plus_one, plus_one]; ring
  · intro w hw
    simp only [List.mem_flatMap, List.mem_map, List.mem_range] at hw
    obtain ⟨q, hq, a, ha, rfl⟩ := hw
    obtain ⟨h1, h2⟩ := mem_upper.mp hq
    exact via_index (V := fun _ b _ d => symGet 3 S d b) hV1 ha (by omega) ha h2
  · intro w hw
    simp only [List.mem_map] at hw
    obtain ⟨q, hq, rfl⟩ := hw
    obtain ⟨h1, h2⟩ := mem_square.mp hq
    refine Eq.trans ?_ (via_index hW h1 h2 h1 h2)
    rw [hW0]
    obtain ⟨a, b⟩ := q
    have s10 := hsym 1 ⟨b, h2⟩ 0 ⟨b, h2⟩
    have s20 := hsym 2 ⟨b, h2⟩ 0 ⟨b, h2⟩
    have s21 := hsym 2 ⟨b, h2⟩ 1 ⟨b, h2⟩
    simp [Fin.sum_univ_three] at s10 s20 s21 ⊢
    rw [s10, s20, s21]
    ring
  · simp only [List.map_map, Function.comp_def]; exact dp_nodup2
  · intro w hw
    simp only [List.mem_flatMap, List.mem_map, List.mem_range'_1] at hw
    obtain ⟨q, hq, a, ha, rfl⟩ := hw
    obtain ⟨h1, h2⟩ := mem_square.mp hq
    exact via_index hW h1 h2 (by omega) (by omega)
  · simp only [List.map_flatMap, List.map_map, Function.comp_def]; exact dp_nodup3

/-! ## The chain rule -/

/-- The strain of a displacement gradient, as a function of the nine entries. -/
noncomputable def strainOf (y : Ix → ℝ) : Ix → ℝ :=
  fun q => specE (1 + Matrix.of fun i j => y (i, j)) q.1 q.2

theorem strainOf_apply (y : Ix → ℝ) (a b : Fin 3) :
    strainOf y (a, b) = 1 / 2 * (y (a, b) + y (b, a)
      + (y (0, a) * y (0, b) + y (1, a) * y (1, b) + y (2, a) * y (2, b))) := by
  fin_cases a <;> fin_cases b <;>
    simp [strainOf, specE, Matrix.mul_apply, Fin.sum_univ_three] <;> ring

/-- Kronecker's symbol. -/
def dl (i j : Fin 3) : ℝ := if i = j then 1 else 0

theorem dl_pair (i j a b : Fin 3) : (if ((i, j) : Ix) = (a, b) then (1 : ℝ) else 0) = dl i a * dl j b := by
  simp only [dl, Prod.mk.injEq]
  by_cases h1 : i = a <;> by_cases h2 : j = b <;> simp [h1, h2]

theorem dl_num : dl 0 0 = 1 ∧ dl 0 1 = 0 ∧ dl 0 2 = 0 ∧ dl 1 0 = 0 ∧ dl 1 1 = 1 ∧ dl 1 2 = 0 ∧ dl 2 0 = 0 ∧
    dl 2 1 = 0 ∧ dl 2 2 = 1 := by simp [dl]

theorem jet_strain (k : Nat) (x : Ix → ℝ) (a b : Fin 3) :
    Jet k (fun y => strainOf y (a, b)) x
      (fun q => 1 / 2 * (dl q.2 a * (dl q.1 b + x (q.1, b)) + dl q.2 b * (dl q.1 a + x (q.1, a))))
      (fun q r => 1 / 2 * (dl q.1 r.1 * (dl q.2 a * dl r.2 b + dl r.2 a * dl q.2 b))) := by
  have v := fun i j => jet_var k ((i, j) : Ix) x
  have h := (jet_const k (1 / 2) x).mul (((v a b).add (v b a)).add
    ((((v 0 a).mul (v 0 b)).add ((v 1 a).mul (v 1 b))).add ((v 2 a).mul (v 2 b))))
  obtain ⟨h00, h01, h02, h10, h11, h12, h20, h21, h22⟩ := dl_num
  refine (h.congr (Eventually.of_forall fun y => ?_)).cast (fun _ => ?_) (fun _ => ?_)
  · exact strainOf_apply y a b
  · clear h v
    funext q; obtain ⟨i, j⟩ := q
    simp only [dl_pair]
    fin_cases i <;>
      simp only [Fin.zero_eta, Fin.mk_one, Fin.reduceFinMk, h00, h01, h02, h10, h11, h12, h20, h21, h22] <;> ring
  · clear h v
    funext q r; obtain ⟨i, j⟩ := q; obtain ⟨i', j'⟩ := r
    simp only [dl_pair]
    fin_cases i <;> fin_cases i' <;>
      simp only [Fin.zero_eta, Fin.mk_one, Fin.reduceFinMk, h00, h01, h02, h10, h11, h12, h20, h21, h22] <;> ring

theorem dl_sum (j : Fin 3) (X : Fin 3 → ℝ) : ∑ a, dl j a * X a = X j := by simp [dl]

theorem sum_ix (X : Ix → ℝ) : ∑ q, X q = ∑ a, ∑ b, X (a, b) := Fintype.sum_prod_type X

/-- Contraction of a symmetric matrix with the derivative of the strain. -/
theorem collapse (X : Fin 3 → Fin 3 → ℝ) (hX : ∀ a b, X a b = X b a) (F : Matrix (Fin 3) (Fin 3) ℝ)
    (i j : Fin 3) : ∑ a, ∑ b, X a b * (1 / 2 * (dl j a * F i b + dl j b * F i a)) = ∑ m, F i m * X m j := by
  have h1 : ∑ a, ∑ b, X a b * (dl j a * F i b) = ∑ m, F i m * X m j := by
    rw [Finset.sum_comm]
    refine Finset.sum_congr rfl fun b _ => ?_
    rw [← dl_sum j fun a => F i b * X b a]
    refine Finset.sum_congr rfl fun a _ => ?_
    rw [hX a b]; ring
  have h2 : ∑ a, ∑ b, X a b * (dl j b * F i a) = ∑ m, F i m * X m j := by
    refine Finset.sum_congr rfl fun a _ => ?_
    rw [← dl_sum j fun b => F i a * X a b]
    exact Finset.sum_congr rfl fun b _ => by ring
  calc _ = 1 / 2 * (∑ a, ∑ b, X a b * (dl j a * F i b) + ∑ a, ∑ b, X a b * (dl j b * F i a)) := by
        rw [← Finset.sum_add_distrib, Finset.mul_sum]
        refine Finset.sum_congr rfl fun a _ => ?_
        rw [← Finset.sum_add_distrib, Finset.mul_sum]
        exact Finset.sum_congr rfl fun b _ => by ring
    _ = _ := by rw [h1, h2]; ring

/-- If `S` and `dS` are the gradient and the Hessian of an energy with respect to the strain, `S_to_P` and
`dS_to_dP` are its gradient and Hessian with respect to the displacement gradient. -/
theorem piola {W : (Ix → ℝ) → ℝ} {g S dS : Store ℝ} (hS : IsGrad W (entries (gradToE g)) (entries S)) :
    IsGrad (fun y => W (strainOf y)) (fun q => mtxGet 3 g q.1 q.2)
      (fun q => mtxGet 3 (sToP g S) q.1 q.2) ∧
    (IsHess W (entries (gradToE g)) (entries4 dS) →
      IsHess (fun y => W (strainOf y)) (fun q => mtxGet 3 g q.1 q.2)
        (fun q r => stGet 3 (dsToDP g S dS) q.1 q.2 r.1 r.2)) := by
  have e0 : entries (gradToE g) = strainOf fun q => mtxGet 3 g q.1 q.2 := by
    funext q; exact gradToE_spec g q.1 q.2
  rw [e0] at hS ⊢
  set x : Ix → ℝ := fun q => mtxGet 3 g q.1 q.2 with hx
  have eF : ∀ a b : Fin 3, dl a b + x (a, b) = (1 + full g) a b := fun a b => by
    simp [dl, hx, full, Matrix.one_apply]
  have hsym : ∀ a b : Fin 3, entries S (a, b) = entries S (b, a) := fun a b => symGet_comm 3 S a b
  have cg : ∀ i j : Fin 3, ∑ q : Ix, entries S q * (1 / 2 * (dl j q.1 * (dl i q.2 + x (i, q.2))
      + dl j q.2 * (dl i q.1 + x (i, q.1)))) = mtxGet 3 (sToP g S) i j := fun i j => by
    rw [sum_ix, sToP_get]
    simp only [eF]
    exact collapse (fun a b => entries S (a, b)) hsym (1 + full g) i j
  constructor
  · have h := hS.comp fun q => (jet_strain 1 x q.1 q.2).1 le_rfl
    refine (congrArg _ ?_).mp h
    funext q
    exact cg q.1 q.2
  · intro hH
    have h := (jet_of (k := 2) (fun _ => hS) fun _ => hH).comp fun q => jet_strain 2 x q.1 q.2
    refine (congrArg _ ?_).mp (h.hess le_rfl)
    funext q r
    obtain ⟨i, j⟩ := q; obtain ⟨k, l⟩ := r
    rw [dsToDP_get, Finset.sum_add_distrib, add_comm]
    have b1 := fun n j m l => (bs3Get_symm dS n j m l).1
    have b2 := fun n j m l => (bs3Get_symm dS n j m l).2
    congr 1
    · rw [sum_ix]
      have : ∀ a b : Fin 3, entries S (a, b) * (1 / 2 * (dl i k * (dl j a * dl l b + dl l a * dl j b)))
          = dl i k * (entries S (a, b) * (1 / 2 * (dl j a * dl l b + dl j b * dl l a))) := fun a b => by ring
      simp only [this, ← Finset.mul_sum]
      have c := collapse (fun a b => entries S (a, b)) hsym (Matrix.of dl) l j
      simp only [Matrix.of_apply] at c
      rw [c, dl_sum]
      simp only [dl, ite_mul, one_mul, zero_mul, entries]
    · simp only [sum_ix, eF]
      have c1 : ∀ a b : Fin 3, ∑ c, ∑ d, entries4 dS (a, b) (c, d)
          * (1 / 2 * (dl l c * (1 + full g) k d + dl l d * (1 + full g) k c))
          = ∑ m, (1 + full g) k m * entries4 dS (a, b) (m, l) := fun a b =>
        collapse (fun c d => entries4 dS (a, b) (c, d)) (fun c d => by
          simp only [entries4]; rw [b2, b1, b2]) (1 + full g) k l
      simp only [c1]
      have c2 := collapse (fun a b => ∑ m, (1 + full g) k m * entries4 dS (a, b) (m, l)) (fun a b => by
          refine Finset.sum_congr rfl fun m _ => ?_
          simp only [entries4]; rw [b1]) (1 + full g) i j
      simp only [mul_comm (∑ m, (1 + full g) k m * entries4 dS _ (m, l))] at c2
      rw [c2]
      refine Finset.sum_congr rfl fun n _ => ?_
      rw [Finset.mul_sum]
      exact Finset.sum_congr rfl fun m _ => by simp only [entries4]; ring

/-- A displacement gradient that does not flatten the body has a positive Cauchy–Green determinant. -/
theorem cauchy_pos {g : Store ℝ} (hg : (1 + full g).det ≠ 0) :
    0 < (specC (entries (gradToE g))).det := by
  have e : specC (entries (gradToE g)) = (1 + full g)ᵀ * (1 + full g) := by
    ext i j
    rw [specC_apply]
    simp only [entries, gradToE_spec, specE, Matrix.smul_apply, Matrix.sub_apply, smul_eq_mul,
      Matrix.mul_apply, Matrix.transpose_apply, Matrix.one_apply, eq_comm (a := j) (b := i)]
    have : ∑ k, (1 + full g) k j * (1 + full g) k i = ∑ k, (1 + full g) k i * (1 + full g) k j :=
      Finset.sum_congr rfl fun k _ => mul_comm _ _
    rw [this]
    ring
  rw [e, Matrix.det_mul, Matrix.det_transpose]
  exact mul_self_pos.mpr hg

/-- The stress and the tangent of an energy given by an expression: its gradient and Hessian, turned by
`S_to_P` and `dS_to_dP`, are those of the energy of the displacement gradient. -/
theorem energy_partial (e : Expr Ix) {g S dS : Store ℝ} (hg : e.Given 2 (entries (gradToE g)))
    (hs : e.Smooth 2 (entries (gradToE g))) (hq : e.Sound 2 (entries (gradToE g)))
    (hS : entries S = (e.run (entries (gradToE g))).d)
    (hD : entries4 dS = (e.run (entries (gradToE g))).dd) :
    (e.run (entries (gradToE g))).v = e.fn (strainOf fun q => mtxGet 3 g q.1 q.2) ∧
    IsGrad (fun y => e.fn (strainOf y)) (fun q => mtxGet 3 g q.1 q.2)
      (fun q => mtxGet 3 (sToP g S) q.1 q.2) ∧
    IsHess (fun y => e.fn (strainOf y)) (fun q => mtxGet 3 g q.1 q.2)
      (fun q r => stGet 3 (dsToDP g S dS) q.1 q.2 r.1 r.2) := by
  have h := run_right_partial 2 _ e hg hs hq
  have e0 : entries (gradToE g) = strainOf fun q => mtxGet 3 g q.1 q.2 := by
    funext q; exact gradToE_spec g q.1 q.2
  have hP := piola (dS := dS) (hS ▸ h.grad (by omega))
  exact ⟨by rw [← e0]; exact h.val, hP.1, hP.2 (hD ▸ h.hess le_rfl)⟩

/-- A function has one Hessian. -/
theorem hess_unique {ι : Type} [Fintype ι] {f : (ι → ℝ) → ℝ} {x : ι → ℝ} {dd ee : ι → ι → ℝ}
    (h : IsHess f x dd) (h' : IsHess f x ee) : dd = ee := by
  obtain ⟨g, hg1, hg2⟩ := h
  obtain ⟨g', hg1', hg2'⟩ := h'
  funext i
  have : ∀ᶠ y in nhds x, g y i = g' y i := by
    filter_upwards [hg1, hg1'] with y a b
    exact congrFun (IsGrad.unique a b) i
  exact (hg2 i).unique ((hg2' i).congr this)

/-- An energy divided by I1 never gets its Hessian, unless it is zero there: the rule for quotients drops
the term of the first derivatives of a denominator without second derivatives. -/
theorem over_I1_wrong {f : (Ix → ℝ) → ℝ} {a : Ex Ix} (E : Store ℝ) (ha : Right 2 f (entries E) a)
    (hf : f (entries E) ≠ 0) (h1 : specI1 (entries E) ≠ 0) :
    ¬ IsHess (fun y => f y / specI1 y) (entries E) (div a (objI1 2 E)).dd := by
  intro h
  have hw := div_wrong ha (I1_right (k := 2) (n := 2) le_rfl (by omega) E) h1
    (le_max_of_le_right (by simp [objI1, u8])) rfl
  have e := congrFun (congrFun (hess_unique h hw) (0, 0)) (0, 0)
  have hd : (objI1 2 E).d (0, 0) = 2 := by
    simp [objI1, entries, symGet, symAt, cI1dE, sym3Identity, writes, Function.update]
  rw [hd] at e
  have : 2 * f (entries E) / specI1 (entries E) ^ 3 * (2 * 2) = 0 := by linarith
  simp [hf, h1] at this

example : Right 2 specJ (entries zeros) (objJ 2 zeros) ∧ specJ (entries zeros) ≠ 0 ∧
    specI1 (entries zeros) ≠ 0 := by
  have e : specC (entries (zeros : Store ℝ)) = 1 := by
    ext i j; simp [specC, entries, symGet, zeros]
  have hp : 0 < (specC (entries (zeros : Store ℝ))).det := by rw [e]; simp
  exact ⟨J_right le_rfl (by omega) _ hp, (Real.sqrt_pos.mpr hp).ne', by simp [specI1, e]⟩

/-- The energy `μ/2 (I1 J^(-2/3) − 3) + κ/2 (J − 1)²` as a program. -/
noncomputable def neoHooke (μ κ : ℝ) (E : Store ℝ) : Expr Ix :=
  .add (.mul (.const (μ / 2)) (.sub (.mul (.ext (objI1 2 E) specI1) (.powR (.ext (objJ 2 E) specJ) (-2 / 3)))
    (.const 3))) (.mul (.const (κ / 2)) (.sq (.sub (.ext (objJ 2 E) specJ) (.const 1))))

/-- It is differentiated right at every displacement gradient with `det(1 + ∇u) ≠ 0`. -/
theorem neoHooke_right (μ κ : ℝ) {g : Store ℝ} (hg : (1 + full g).det ≠ 0) :
    Right 2 (neoHooke μ κ (gradToE g)).fn (entries (gradToE g))
      ((neoHooke μ κ (gradToE g)).run (entries (gradToE g))) := by
  have hp := cauchy_pos hg
  have h1 := I1_right (k := 2) (n := 2) le_rfl (by omega) (gradToE g)
  have hJ := J_right (k := 2) (n := 2) le_rfl (by omega) (gradToE g) hp
  have hJ0 : 0 < specJ (entries (gradToE g)) := Real.sqrt_pos.mpr hp
  refine run_right_partial 2 _ _ ?_ ?_ ?_
  · exact ⟨⟨trivial, ⟨h1, hJ⟩, trivial⟩, trivial, hJ, trivial⟩
  · exact ⟨⟨trivial, ⟨trivial, trivial, Or.inr hJ0⟩, trivial⟩, trivial, trivial, trivial⟩
  · exact ⟨⟨trivial, ⟨trivial, trivial⟩, trivial⟩, trivial, trivial, trivial⟩

/-- A shear with a stretch. -/
example : (1 + full fun c => [1, 2, 0, 0, 0, 0, 0, 0, 1].getD c (0 : ℝ)).det ≠ 0 := by
  rw [Matrix.det_fin_three]
  simp [full, mtxGet]

/-- Its strain has the shear entry 2. -/
example : symGet 3 (gradToE fun c => [1, 2, 0, 0, 0, 0, 0, 0, 1].getD c (0 : ℚ)) 0 1 = 2 := by
  simp [gradToE, upper, symGet, symAt, List.range_succ, List.range', writes, Function.update, mtxGet]

end Verif.Strain
