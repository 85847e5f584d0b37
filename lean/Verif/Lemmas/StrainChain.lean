import Verif.Lemmas.AutoDiff
import Verif.Lemmas.Tensor

/-! # The second-order chain rule, and loops that write every position once -/

namespace Verif.AutoDiff

open Filter Topology

variable {ι κ : Type} [Fintype ι] [Fintype κ]

theorem IsGrad.comp {W : (κ → ℝ) → ℝ} {φ : (ι → ℝ) → κ → ℝ} {x : ι → ℝ} {d : κ → ℝ} {P : κ → ι → ℝ}
    (hW : IsGrad W (φ x) d) (hφ : ∀ q, IsGrad (fun y => φ y q) x (P q)) :
    IsGrad (fun y => W (φ y)) x (fun i => ∑ q, d q * P q i) := by
  have hφ' : HasFDerivAt φ (ContinuousLinearMap.pi fun q => lin (P q)) x := hasFDerivAt_pi.mpr hφ
  have h := HasFDerivAt.comp x hW hφ'
  refine HasFDerivAt.congr_fderiv h ?_
  ext v
  simp only [ContinuousLinearMap.comp_apply, lin_apply, ContinuousLinearMap.pi_apply, Finset.mul_sum,
    Finset.sum_mul]
  rw [Finset.sum_comm]
  simp only [mul_assoc]

theorem IsGrad.sum {s : Finset κ} {f : κ → (ι → ℝ) → ℝ} {x : ι → ℝ} {d : κ → ι → ℝ}
    (h : ∀ q, IsGrad (f q) x (d q)) : IsGrad (fun y => ∑ q ∈ s, f q y) x (fun i => ∑ q ∈ s, d q i) := by
  classical
  induction s using Finset.induction_on with
  | empty => simpa using isGrad_const 0 x
  | insert a s ha ih => simp only [Finset.sum_insert ha]; exact (h a).add ih

theorem Jet.comp {k : Nat} {W : (κ → ℝ) → ℝ} {φ : (ι → ℝ) → κ → ℝ} {x : ι → ℝ} {d : κ → ℝ}
    {dd : κ → κ → ℝ} {P : κ → ι → ℝ} {PP : κ → ι → ι → ℝ}
    (hW : Jet k W (φ x) d dd) (hφ : ∀ q, Jet k (fun y => φ y q) x (P q) (PP q)) :
    Jet k (fun y => W (φ y)) x (fun i => ∑ q, d q * P q i)
      (fun i j => ∑ q, (P q i * ∑ r, dd q r * P r j + d q * PP q i j)) := by
  refine ⟨fun hk => (hW.1 hk).comp fun q => (hφ q).1 hk, fun hk => ?_⟩
  obtain ⟨g, hg, g0, hd⟩ := hW.2 hk
  choose G hG G0 hGd using fun q => (hφ q).2 hk
  have hc : ContinuousAt φ x := continuousAt_pi.mpr fun q => (hφ q).cont (by omega)
  refine ⟨fun y i => ∑ q, g (φ y) q * G q y i, ?_, ?_, fun i => ?_⟩
  · filter_upwards [hc.eventually hg, eventually_all.mpr hG] with y h1 h2 using h1.comp h2
  · simp only [g0, G0]
  · refine IsGrad.sum fun q => ?_
    have h1 : IsGrad (fun y => g (φ y) q) x _ := (hd q).comp fun r => (hφ r).1 (by omega)
    have h := h1.mul (hGd q i)
    simp only [g0, G0] at h
    exact h

end Verif.AutoDiff

namespace Verif.Tensor

variable {K : Type} [AddCommMonoid K]

/-- Adding at pairwise different positions. -/
theorem adds_once (L : List (Nat × K)) (d V : Store K) (h : ∀ w ∈ L, w.2 = V w.1)
    (hn : (L.map Prod.fst).Nodup) (p : Nat) :
    adds L d p = d p + if p ∈ L.map Prod.fst then V p else 0 := by
  rw [adds_apply]
  congr 1
  induction L with
  | nil => simp
  | cons w L ih =>
    rw [List.map_cons, List.nodup_cons] at hn
    rw [List.map_cons, List.sum_cons, ih (fun v hv => h v (List.mem_cons_of_mem _ hv)) hn.2,
      List.map_cons]
    by_cases hw : w.1 = p
    · subst hw
      rw [if_pos rfl, if_neg hn.1, add_zero, if_pos (by simp), h w (by simp)]
    · rw [if_neg hw, zero_add]
      by_cases hp : p ∈ L.map Prod.fst
      · rw [if_pos hp, if_pos (List.mem_cons_of_mem _ hp)]
      · rw [if_neg hp, if_neg (by rw [List.mem_cons]; exact not_or.mpr ⟨Ne.symm hw, hp⟩)]

end Verif.Tensor
