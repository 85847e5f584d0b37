import Verif.Lemmas.Strain
import Verif.Props.Tensor4
import Verif.Props.AutoDiff

/-! # C58: the strain invariants carry true values, gradients and Hessians -/

namespace Verif.Strain

open Verif.Tensor Verif.AutoDiff Matrix Filter

/-! ## Gradients and Hessians of the invariants -/

theorem jetI1 (k : Nat) (E : Store ℝ) :
    Jet k specI1 (entries E) (entries cI1dE) (entries4 cI1ddE) := by
  have c := jetC k (entries E)
  have h := ((c 0 0).add (c 1 1)).add (c 2 2)
  clear c
  refine (h.congr (Eventually.of_forall fun y => ?_)).cast (fun _ => ?_) (fun _ => ?_)
  · simp [specI1, Matrix.trace_fin_three]
  · clear h
    funext q; rw [entries_tab]
    generalize T3 q.1 q.2 = b
    fin_cases b <;> simp [D6, w6, T3, cI1dE, sym3Identity, writes, Function.update, zeros]
  · funext q r; simp [entries4, bs3Get, cI1ddE, zeros]

theorem jetI2 (k : Nat) (E : Store ℝ) :
    Jet k specI2 (entries E) (entries (cI2dE E)) (entries4 cI2ddE) := by
  have c := jetC k (entries E)
  have h := ((((c 0 0).mul (c 1 1)).add ((c 0 0).mul (c 2 2))).add ((c 1 1).mul (c 2 2))).sub
    ((((c 0 1).mul (c 1 0)).add ((c 0 2).mul (c 2 0))).add ((c 1 2).mul (c 2 1)))
  clear c
  simp only [specC_tab] at h
  refine (h.congr (Eventually.of_forall fun y => ?_)).cast (fun _ => ?_) (fun _ => ?_)
  · simp [specI2, Matrix.trace_fin_three, Matrix.mul_apply, Fin.sum_univ_three]; ring
  · clear h
    funext q; rw [entries_tab]
    generalize T3 q.1 q.2 = b
    fin_cases b <;>
      simp [D6, w6, T3, c6, cI2dE, scale, minus, sym3Trace, sym3Identity, writes, Function.update,
        zeros] <;> ring
  · clear h
    funext q r; rw [entries4_tab]
    generalize T3 q.1 q.2 = b; generalize T3 r.1 r.2 = c
    fin_cases b <;> fin_cases c <;>
      simp [D6, w6, T3, T6, cI2ddE, bs3Pos, bsSort, symSort, writes, Function.update, zeros] <;> norm_num

theorem jetI3 (k : Nat) (E : Store ℝ) :
    Jet k specI3 (entries E) (entries (cI3dE E)) (entries4 (cI3ddE E)) := by
  have c := jetC k (entries E)
  have h := ((((((c 0 0).mul (c 1 1)).mul (c 2 2)).sub (((c 0 0).mul (c 1 2)).mul (c 2 1))).sub
    (((c 0 1).mul (c 1 0)).mul (c 2 2))).add (((c 0 1).mul (c 1 2)).mul (c 2 0))).add
    (((c 0 2).mul (c 1 0)).mul (c 2 1)) |>.sub (((c 0 2).mul (c 1 1)).mul (c 2 0))
  clear c
  simp only [specC_tab] at h
  refine (h.congr (Eventually.of_forall fun y => ?_)).cast (fun _ => ?_) (fun _ => ?_)
  · rw [specI3, Matrix.det_fin_three]
  · clear h
    funext q; rw [entries_tab]
    generalize T3 q.1 q.2 = b
    fin_cases b <;>
      simp [D6, w6, T3, c6, symGet, symAt, cI3dE, scale, sym3Adj, cauchy, plus, sym3Identity,
        writes, Function.update, zeros] <;> ring
  · clear h
    funext q r; rw [entries4_tab]
    generalize T3 q.1 q.2 = b; generalize T3 r.1 r.2 = c
    fin_cases b <;> fin_cases c <;>
      simp [D6, w6, T3, T6, c6, symGet, symAt, cI3ddE, bs3Pos, bsSort, symSort, sym3Trace,
        writes, Function.update, zeros] <;> ring

theorem jetI4 (k : Nat) (E f s : Store ℝ) :
    Jet k (specI4 (fun i => f i) fun i => s i) (entries E) (entries (cI4dE f s)) (entries4 cI4ddE) := by
  have c := fun i j : Fin 3 => (jet_const k (f i * s j) (entries E)).mul (jetC k (entries E) i j)
  have h := (((c 0 0).add (c 0 1)).add (c 0 2)).add ((((c 1 0).add (c 1 1)).add (c 1 2)).add
    (((c 2 0).add (c 2 1)).add (c 2 2)))
  clear c
  refine (h.congr (Eventually.of_forall fun y => ?_)).cast (fun _ => ?_) (fun _ => ?_)
  · simp [specI4, dotProduct, Matrix.mulVec, Fin.sum_univ_three]; ring
  · clear h
    funext q; rw [entries_tab]
    generalize T3 q.1 q.2 = b
    fin_cases b <;>
      simp [D6, w6, T3, cI4dE, symAt, List.range_succ, writes, Function.update, zeros] <;> ring
  · clear h
    funext q r; simp [entries4, bs3Get, cI4ddE, zeros]

theorem jetI5 (k : Nat) (E f s : Store ℝ) :
    Jet k (specI5 (fun i => f i) fun i => s i) (entries E) (entries (cI5dE E f s))
      (entries4 (cI5ddE f s)) := by
  have c := fun (g : Store ℝ) (i j : Fin 3) =>
    (jet_const k (g i) (entries E)).mul (jetC k (entries E) i j)
  have u := fun m => ((c f 0 m).add (c f 1 m)).add (c f 2 m)
  have v := fun m => ((c s 0 m).add (c s 1 m)).add (c s 2 m)
  have h := (((u 0).mul (v 0)).add ((u 1).mul (v 1))).add ((u 2).mul (v 2))
  clear c u v
  simp only [specC_tab] at h
  refine (h.congr (Eventually.of_forall fun y => ?_)).cast (fun _ => ?_) (fun _ => ?_)
  · simp [specI5, dotProduct, Matrix.mulVec, Matrix.mul_apply, Fin.sum_univ_three]
    have hs : ∀ i j, specC y i j = specC y j i := fun i j => by
      rw [specC_apply, specC_apply, add_comm (y (i, j))]; simp only [eq_comm]
    rw [hs 1 0, hs 2 0, hs 2 1]
    ring
  · clear h
    funext q; rw [entries_tab]
    generalize T3 q.1 q.2 = b
    fin_cases b <;>
      simp [D6, w6, T3, c6, cI5dE, sym3Mul, symGet, symAt, upper, List.range_succ, List.range', writes,
        Function.update, zeros] <;> ring
  · clear h
    funext q r; rw [entries4_tab]
    generalize T3 q.1 q.2 = b; generalize T3 r.1 r.2 = c
    fin_cases b <;> fin_cases c <;>
      simp [D6, w6, T3, T6, cI5ddE, sym3TensorSymMul2, symGet, symAt, bs3Pos, bsSort, symSort, writes,
        Function.update, zeros] <;> ring

theorem cI3_eq (E : Store ℝ) : cI3 E = specI3 (entries E) := by
  rw [specI3, Matrix.det_fin_three]
  simp only [specC_tab]
  simp [cI3, sym3Det, cauchy, plus, scale, sym3Identity, writes, Function.update, zeros, c6, T3]
  ring

theorem jetJ (k : Nat) (E : Store ℝ) (hE : 0 < (specC (entries E)).det) :
    Jet k specJ (entries E) (entries (cJdE E)) (entries4 (cJddE E)) := by
  have hJ : cJ E = Real.sqrt (specI3 (entries E)) := by rw [cJ, cI3_eq]
  have hE' : 0 < specI3 (entries E) := hE
  have hp : 0 < cJ E := by rw [hJ]; exact Real.sqrt_pos.mpr hE'
  have hsq : cJ E * cJ E = specI3 (entries E) := by rw [hJ]; exact Real.mul_self_sqrt hE'.le
  have h1 : ∀ᶠ t in nhds (specI3 (entries E)), HasDerivAt Real.sqrt (1 / (2 * Real.sqrt t)) t := by
    filter_upwards [lt_mem_nhds hE'] with t ht using Real.hasDerivAt_sqrt ht.ne'
  have h2 : HasDerivAt (fun t => 1 / (2 * Real.sqrt t)) (-1 / (4 * (cJ E * cJ E * cJ E)))
      (specI3 (entries E)) := by
    have hd := ((Real.hasDerivAt_sqrt hE'.ne').const_mul 2).inv
      (by rw [← hJ]; exact (mul_pos two_pos hp).ne')
    simp only [one_div]
    refine hd.congr_deriv ?_
    rw [← hJ]
    field_simp
    ring
  have h := (jetI3 k E).un h1 h2
  refine h.cast (fun _ => ?_) (fun _ => ?_)
  · funext q
    rw [← hJ]
    simp only [entries, symGet, cJdE, over, cI3dE, scale]
    field_simp
  · funext q r
    have e := bs3Square_get (sym3Adj (cauchy E)) q.1 q.2 r.1 r.2
    simp only [bs3Get] at e
    rw [← hJ]
    simp only [entries4, bs3Get, entries, symGet, cJddE, minus, over, cI3dE, scale, e]
    field_simp
    ring

/-! ## The objects of the automatic differentiation are right -/

section
variable {k : Nat} {n : Int} (hk : (k : Int) ≤ n) (hn : n ≤ 255)
include hk hn

theorem dif_le : k ≤ u8 n := by simp only [u8]; omega

/-- `I0fs` is fᵀs. -/
theorem I0_right (E f s : Store ℝ) :
    Right k (specI0 (fun i => f i) fun i => s i) (entries E) (objI0 n f s) where
  val := by simp [objI0, cI0, specI0, dotProduct, Fin.sum_univ_three]
  grad _ := by
    have h := isGrad_const (specI0 (fun i => f i) (fun i => s i) (entries E)) (entries E)
    refine (congrArg _ ?_).mp h
    funext q; simp [objI0, entries, symGet, cI0dE, zeros]
  hess _ := by
    refine (congrArg _ ?_).mp ((jet_const 2 (specI0 (fun i => f i) (fun i => s i) (entries E))
      (entries E)).hess le_rfl)
    funext q r; simp [objI0, entries4, bs3Get, cI0ddE, zeros]
  dif := Or.inl (dif_le hk hn)
  state := ⟨rfl, fun _ => ⟨rfl, rfl⟩, fun _ => rfl⟩

/-- `I1` is tr C. -/
theorem I1_right (E : Store ℝ) : Right k specI1 (entries E) (objI1 n E) where
  val := by
    simp [objI1, cI1, specI1, Matrix.trace_fin_three, specC_tab, c6, T3, sym3Trace]; ring
  grad := (jetI1 k E).1
  hess := (jetI1 k E).hess
  dif := Or.inl (dif_le hk hn)
  state := ⟨rfl, nofun, fun _ => rfl⟩

/-- `I2` is (tr(C)² − tr(C²))/2. -/
theorem I2_right (E : Store ℝ) : Right k specI2 (entries E) (objI2 n E) where
  val := by
    simp [objI2, cI2, specI2, Matrix.trace_fin_three, Matrix.mul_apply, Fin.sum_univ_three, specC_tab,
      c6, T3, sym3Trace, sym3Frob]; ring
  grad h := by
    have : (1 : Int) ≤ n := by omega
    simp only [objI2, this, if_true]; exact (jetI2 k E).1 h
  hess := (jetI2 k E).hess
  dif := Or.inl (dif_le hk hn)
  state := ⟨rfl, nofun, nofun⟩

/-- `I3` is det C. -/
theorem I3_right (E : Store ℝ) : Right k specI3 (entries E) (objI3 n E) where
  val := cI3_eq E
  grad h := by
    have : (1 : Int) ≤ n := by omega
    simp only [objI3, this, if_true]; exact (jetI3 k E).1 h
  hess h := by
    have : (2 : Int) ≤ n := by omega
    simp only [objI3, this, if_true]; exact (jetI3 k E).hess h
  dif := Or.inl (dif_le hk hn)
  state := ⟨rfl, nofun, nofun⟩

/-- `J` is √det C where det C is positive. -/
theorem J_right (E : Store ℝ) (hE : 0 < (specC (entries E)).det) :
    Right k specJ (entries E) (objJ n E) where
  val := by simp only [objJ, cJ, cI3_eq]; rfl
  grad h := by
    have : (1 : Int) ≤ n := by omega
    simp only [objJ, this, if_true]; exact (jetJ k E hE).1 h
  hess h := by
    have : (2 : Int) ≤ n := by omega
    simp only [objJ, this, if_true]; exact (jetJ k E hE).hess h
  dif := Or.inl (dif_le hk hn)
  state := ⟨rfl, nofun, nofun⟩

/-- `I4fs` is fᵀCs. -/
theorem I4_right (E f s : Store ℝ) :
    Right k (specI4 (fun i => f i) fun i => s i) (entries E) (objI4 n E f s) where
  val := by
    simp [objI4, cI4, specI4, dotProduct, Matrix.mulVec, Fin.sum_univ_three, specC_tab, c6, T3, sym3DotVec,
      cauchy, plus, scale, sym3Identity, writes, Function.update, zeros]; ring
  grad h := by
    have : (1 : Int) ≤ n := by omega
    simp only [objI4, this, if_true]; exact (jetI4 k E f s).1 h
  hess := (jetI4 k E f s).hess
  dif := Or.inl (dif_le hk hn)
  state := ⟨rfl, nofun, fun _ => rfl⟩

/-- `I5fs` is fᵀC²s. -/
theorem I5_right (E f s : Store ℝ) :
    Right k (specI5 (fun i => f i) fun i => s i) (entries E) (objI5 n E f s) where
  val := by
    simp [objI5, cI5, specI5, dotProduct, Matrix.mulVec, Matrix.mul_apply, Fin.sum_univ_three, specC_tab, c6,
      T3, sym3Mul, symGet, symAt, writes, Function.update]; ring
  grad h := by
    have : (1 : Int) ≤ n := by omega
    simp only [objI5, this, if_true]; exact (jetI5 k E f s).1 h
  hess h := by
    have : (2 : Int) ≤ n := by omega
    simp only [objI5, this, if_true]; exact (jetI5 k E f s).hess h
  dif := Or.inl (dif_le hk hn)
  state := ⟨rfl, nofun, nofun⟩

end

example : 0 < (specC (entries fun c => [1, 1, 0, 2, 0, 0].getD c (0 : ℝ))).det := by
  rw [Matrix.det_fin_three]
  simp only [specC_tab]
  simp [c6, T3]
  norm_num

end Verif.Strain
