import Mathlib.Analysis.Calculus.FDeriv.Mul
import Mathlib.Analysis.Calculus.Deriv.Comp
import Mathlib.Analysis.Calculus.FDeriv.Comp
import Verif.Spec.AutoDiff

/-!
# The calculus of value, gradient and Hessian
-/

namespace Verif.AutoDiff

open Filter Topology

variable {ι : Type} [Fintype ι]

theorem lin_apply (d : ι → ℝ) (h : ι → ℝ) : lin d h = ∑ i, d i * h i := by
  simp [lin, ContinuousLinearMap.sum_apply]

theorem lin_inj {d e : ι → ℝ} (h : lin d = lin e) : d = e := by
  classical
  funext i
  have := congrArg (fun L => L (Pi.single i 1)) h
  simpa [lin_apply, Pi.single_apply] using this

theorem lin_smul (c : ℝ) (d : ι → ℝ) : c • lin d = lin fun i => c * d i := by
  ext h; simp [lin_apply, Finset.mul_sum, mul_assoc]

theorem lin_add (d e : ι → ℝ) : lin d + lin e = lin fun i => d i + e i := by
  ext h; simp [lin_apply, add_mul, Finset.sum_add_distrib]

theorem lin_sub (d e : ι → ℝ) : lin d - lin e = lin fun i => d i - e i := by
  ext h; simp [lin_apply, sub_mul, Finset.sum_sub_distrib]

theorem lin_neg (d : ι → ℝ) : -lin d = lin fun i => -d i := by
  ext h; simp [lin_apply]

theorem lin_zero : lin (fun _ : ι => (0 : ℝ)) = 0 := by
  ext h; simp [lin_apply]

/-- Gradient and Hessian to the order `k`. -/
def Jet (k : Nat) (f : (ι → ℝ) → ℝ) (x : ι → ℝ) (d : ι → ℝ) (dd : ι → ι → ℝ) : Prop :=
  (1 ≤ k → IsGrad f x d) ∧
  (2 ≤ k → ∃ g : (ι → ℝ) → ι → ℝ, (∀ᶠ y in 𝓝 x, IsGrad f y (g y)) ∧ g x = d ∧
    ∀ i, IsGrad (fun y => g y i) x (dd i))

theorem IsGrad.unique {f : (ι → ℝ) → ℝ} {x d e} (h : IsGrad f x d) (h' : IsGrad f x e) : d = e :=
  lin_inj (HasFDerivAt.unique h h')

theorem jet_of {k : Nat} {f : (ι → ℝ) → ℝ} {x d dd} (h1 : 1 ≤ k → IsGrad f x d)
    (h2 : 2 ≤ k → IsHess f x dd) : Jet k f x d dd := by
  refine ⟨h1, fun hk => ?_⟩
  obtain ⟨g, hg, hd⟩ := h2 hk
  exact ⟨g, hg, hg.self_of_nhds.unique (h1 (by omega)), hd⟩

theorem Jet.hess {k : Nat} {f : (ι → ℝ) → ℝ} {x d dd} (h : Jet k f x d dd) :
    2 ≤ k → IsHess f x dd := fun hk => by
  obtain ⟨g, hg, -, hd⟩ := h.2 hk
  exact ⟨g, hg, hd⟩

theorem Right.jet {k : Nat} {f : (ι → ℝ) → ℝ} {x} {a : Ex ι} (h : Right k f x a) :
    Jet k f x a.d a.dd := jet_of h.grad h.hess

theorem IsGrad.congr {f g : (ι → ℝ) → ℝ} {x d} (h : IsGrad f x d) (e : g =ᶠ[𝓝 x] f) :
    IsGrad g x d := HasFDerivAt.congr_of_eventuallyEq h e

theorem Jet.congr {k : Nat} {f g : (ι → ℝ) → ℝ} {x d dd} (h : Jet k f x d dd)
    (e : g =ᶠ[𝓝 x] f) : Jet k g x d dd := by
  refine ⟨fun hk => (h.1 hk).congr e, fun hk => ?_⟩
  obtain ⟨G, hG, h0, hd⟩ := h.2 hk
  refine ⟨G, ?_, h0, hd⟩
  filter_upwards [hG, eventually_eventually_nhds.mpr e] with y hy he using hy.congr he

theorem Jet.cast {k : Nat} {f : (ι → ℝ) → ℝ} {x d dd d' dd'} (h : Jet k f x d dd)
    (h1 : 1 ≤ k → d' = d) (h2 : 2 ≤ k → dd' = dd) : Jet k f x d' dd' := by
  refine ⟨fun hk => (h1 hk) ▸ h.1 hk, fun hk => ?_⟩
  rw [h1 (by omega), h2 hk]; exact h.2 hk

theorem isGrad_const (c : ℝ) (x : ι → ℝ) : IsGrad (fun _ => c) x (fun _ => 0) := by
  unfold IsGrad; rw [lin_zero]; exact hasFDerivAt_const c x

theorem jet_const (k : Nat) (c : ℝ) (x : ι → ℝ) :
    Jet k (fun _ => c) x (fun _ => 0) (fun _ _ => 0) :=
  ⟨fun _ => isGrad_const c x, fun _ => ⟨fun _ _ => 0, Eventually.of_forall fun y => isGrad_const c y, rfl,
    fun _ => isGrad_const 0 x⟩⟩

theorem isGrad_var [DecidableEq ι] (i : ι) (x : ι → ℝ) :
    IsGrad (fun y : ι → ℝ => y i) x (fun j => if j = i then 1 else 0) := by
  unfold IsGrad
  have : lin (fun j => if j = i then (1 : ℝ) else 0) = ContinuousLinearMap.proj i := by
    ext h; simp [lin_apply]
  rw [this]; exact (ContinuousLinearMap.proj (R := ℝ) (φ := fun _ : ι => ℝ) i).hasFDerivAt

theorem jet_var [DecidableEq ι] (k : Nat) (i : ι) (x : ι → ℝ) :
    Jet k (fun y : ι → ℝ => y i) x (fun j => if j = i then 1 else 0) (fun _ _ => 0) :=
  ⟨fun _ => isGrad_var i x, fun _ => ⟨fun _ j => if j = i then 1 else 0,
    Eventually.of_forall fun y => isGrad_var i y, rfl, fun _ => isGrad_const _ x⟩⟩

theorem IsGrad.add {f g : (ι → ℝ) → ℝ} {x d e} (hf : IsGrad f x d) (hg : IsGrad g x e) :
    IsGrad (fun y => f y + g y) x (fun i => d i + e i) := by
  unfold IsGrad; rw [← lin_add]; exact HasFDerivAt.add hf hg

theorem IsGrad.sub {f g : (ι → ℝ) → ℝ} {x d e} (hf : IsGrad f x d) (hg : IsGrad g x e) :
    IsGrad (fun y => f y - g y) x (fun i => d i - e i) := by
  unfold IsGrad; rw [← lin_sub]; exact HasFDerivAt.sub hf hg

theorem IsGrad.neg {f : (ι → ℝ) → ℝ} {x d} (hf : IsGrad f x d) :
    IsGrad (fun y => -f y) x (fun i => -d i) := by
  unfold IsGrad; rw [← lin_neg]; exact HasFDerivAt.neg hf

theorem IsGrad.mul {f g : (ι → ℝ) → ℝ} {x d e} (hf : IsGrad f x d) (hg : IsGrad g x e) :
    IsGrad (fun y => f y * g y) x (fun i => g x * d i + f x * e i) := by
  have := HasFDerivAt.mul hf hg
  rw [lin_smul, lin_smul, lin_add] at this
  have e0 : (fun i => g x * d i + f x * e i) = fun i => f x * e i + g x * d i := by
    funext i; ring
  unfold IsGrad
  rw [e0]; exact this

theorem IsGrad.un {f : (ι → ℝ) → ℝ} {x d} {h : ℝ → ℝ} {h' : ℝ} (hh : HasDerivAt h h' (f x))
    (hf : IsGrad f x d) : IsGrad (fun y => h (f y)) x (fun i => h' * d i) := by
  have := HasDerivAt.comp_hasFDerivAt x hh hf
  rw [lin_smul] at this
  exact this

theorem IsGrad.cont {f : (ι → ℝ) → ℝ} {x d} (hf : IsGrad f x d) : ContinuousAt f x :=
  HasFDerivAt.continuousAt hf

theorem Jet.cont {k : Nat} {f : (ι → ℝ) → ℝ} {x d dd} (h : Jet k f x d dd) (hk : 1 ≤ k) :
    ContinuousAt f x := (h.1 hk).cont

theorem Jet.add {k : Nat} {f g : (ι → ℝ) → ℝ} {x d dd e ee} (hf : Jet k f x d dd)
    (hg : Jet k g x e ee) :
    Jet k (fun y => f y + g y) x (fun i => d i + e i) (fun i j => dd i j + ee i j) := by
  refine ⟨fun hk => (hf.1 hk).add (hg.1 hk), fun hk => ?_⟩
  obtain ⟨F, hF, F0, hd⟩ := hf.2 hk
  obtain ⟨G, hG, G0, he⟩ := hg.2 hk
  exact ⟨fun y i => F y i + G y i, by filter_upwards [hF, hG] with y a b using a.add b,
    by simp only [F0, G0], fun i => (hd i).add (he i)⟩

theorem Jet.neg {k : Nat} {f : (ι → ℝ) → ℝ} {x d dd} (hf : Jet k f x d dd) :
    Jet k (fun y => -f y) x (fun i => -d i) (fun i j => -dd i j) := by
  refine ⟨fun hk => (hf.1 hk).neg, fun hk => ?_⟩
  obtain ⟨F, hF, F0, hd⟩ := hf.2 hk
  exact ⟨fun y i => -F y i, by filter_upwards [hF] with y a using a.neg,
    by simp only [F0], fun i => (hd i).neg⟩

theorem Jet.sub {k : Nat} {f g : (ι → ℝ) → ℝ} {x d dd e ee} (hf : Jet k f x d dd)
    (hg : Jet k g x e ee) :
    Jet k (fun y => f y - g y) x (fun i => d i - e i) (fun i j => dd i j - ee i j) := by
  refine ⟨fun hk => (hf.1 hk).sub (hg.1 hk), fun hk => ?_⟩
  obtain ⟨F, hF, F0, hd⟩ := hf.2 hk
  obtain ⟨G, hG, G0, he⟩ := hg.2 hk
  exact ⟨fun y i => F y i - G y i, by filter_upwards [hF, hG] with y a b using a.sub b,
    by simp only [F0, G0], fun i => (hd i).sub (he i)⟩

theorem Jet.mul {k : Nat} {f g : (ι → ℝ) → ℝ} {x d dd e ee} (hf : Jet k f x d dd)
    (hg : Jet k g x e ee) :
    Jet k (fun y => f y * g y) x (fun i => g x * d i + f x * e i)
      (fun i j => d i * e j + d j * e i + g x * dd i j + f x * ee i j) := by
  refine ⟨fun hk => (hf.1 hk).mul (hg.1 hk), fun hk => ?_⟩
  obtain ⟨F, hF, F0, hd⟩ := hf.2 hk
  obtain ⟨G, hG, G0, he⟩ := hg.2 hk
  refine ⟨fun y i => g y * F y i + f y * G y i,
    by filter_upwards [hF, hG] with y a b using a.mul b, by simp only [F0, G0], fun i => ?_⟩
  have h1 := (hg.1 (by omega)).mul (hd i)
  have h2 := (hf.1 (by omega)).mul (he i)
  convert h1.add h2 using 1
  funext j; rw [F0, G0]; ring

theorem Jet.un {k : Nat} {f : (ι → ℝ) → ℝ} {x d dd} {h h' : ℝ → ℝ} {h'' : ℝ}
    (hh : ∀ᶠ t in 𝓝 (f x), HasDerivAt h (h' t) t) (hh' : HasDerivAt h' h'' (f x))
    (hf : Jet k f x d dd) :
    Jet k (fun y => h (f y)) x (fun i => h' (f x) * d i)
      (fun i j => h'' * (d i * d j) + h' (f x) * dd i j) := by
  refine ⟨fun hk => (hf.1 hk).un hh.self_of_nhds, fun hk => ?_⟩
  obtain ⟨F, hF, F0, hd⟩ := hf.2 hk
  have hc := hf.cont (by omega)
  refine ⟨fun y i => h' (f y) * F y i, ?_, by simp only [F0], fun i => ?_⟩
  · filter_upwards [hF, hc.eventually hh] with y a b using a.un b
  · have h1 := ((hf.1 (by omega)).un hh').mul (hd i)
    convert h1 using 1
    funext j; rw [F0]; ring

theorem Jet.sum {k n : Nat} {f : Fin n → (ι → ℝ) → ℝ} {x} {d : Fin n → ι → ℝ}
    {dd : Fin n → ι → ι → ℝ} (h : ∀ m, Jet k (f m) x (d m) (dd m)) :
    Jet k (fun y => ∑ m, f m y) x (fun i => ∑ m, d m i) (fun i j => ∑ m, dd m i j) := by
  induction n with
  | zero => simpa using jet_const k 0 x
  | succ n ih =>
    simp only [Fin.sum_univ_castSucc]
    exact (ih fun m => h m.castSucc).add (h (Fin.last n))

end Verif.AutoDiff
