import Verif.Lemmas.AutoDiffUn

/-!
# Each operation keeps value, gradient and Hessian right
-/

namespace Verif.AutoDiff

open Filter Topology

variable {ι : Type} [Fintype ι]

theorem right_mk {k : Nat} {f : (ι → ℝ) → ℝ} {x} {a : Ex ι} (hv : a.v = f x)
    (hj : Jet k f x a.d a.dd) (hd : k ≤ a.dif ∨ (a.d = 0 ∧ a.dd = 0)) (hs : StateOk a) :
    Right k f x a := ⟨hv, hj.1, hj.hess, hd, hs⟩

theorem Right.congr {k : Nat} {f g : (ι → ℝ) → ℝ} {x} {a : Ex ι} (h : Right k f x a)
    (e : g =ᶠ[𝓝 x] f) : Right k g x a :=
  right_mk (h.val.trans e.self_of_nhds.symm) (h.jet.congr e) h.dif h.state

theorem param_right (k : Nat) (c : ℝ) (x : ι → ℝ) : Right k (fun _ => c) x (param c) :=
  right_mk rfl (jet_const k c x) (Or.inr ⟨rfl, rfl⟩) ⟨rfl, fun _ => ⟨rfl, rfl⟩, fun _ => rfl⟩

theorem var_right [DecidableEq ι] {k : Nat} (i : ι) (x : ι → ℝ) (n : Int) (h : k ≤ u8 n) :
    Right k (fun y => y i) x (var i (x i) n) :=
  right_mk rfl (jet_var k i x) (Or.inl h) ⟨rfl, nofun, fun _ => rfl⟩

theorem makeADVal_right {k : Nat} {f : (ι → ℝ) → ℝ} {x} {a : Ex ι} (h : Right k f x a) :
    Right k f x (makeADVal a) := by
  have e : makeADVal a = a := by
    rcases a with ⟨nv, nd, ns, dif, v, d, dd⟩
    have h1 := h.state.nd
    have h2 := h.state.ns
    cases nd <;> cases ns <;> simp_all [makeADVal, gt0, ht0, funext_iff]
  rw [e]; exact h

theorem makeShell_right {k : Nat} {f : (ι → ℝ) → ℝ} {x} {a : Ex ι} (h : Right k f x a) :
    Right k f x (makeShell a) := by
  have h1 := h.state.nd
  have h2 := h.state.ns
  have hz : a.d = 0 ∧ a.dd = 0 → (makeShell a).d = 0 ∧ (makeShell a).dd = 0 := by
    rintro ⟨e1, e2⟩
    constructor
    · simp only [makeShell, e1]; split <;> rfl
    · simp only [makeShell, e2]; split <;> rfl
  refine right_mk h.val (h.jet.cast (fun hk => ?_) fun hk => ?_) ?_ ⟨rfl, nofun, nofun⟩
  · rcases h.dif with hd | hd
    · simp only [makeShell]; split
      · rfl
      · cases hn : a.nd
        · rw [(h1 hn).1]; rfl
        · exfalso; simp_all <;> omega
    · rw [(hz hd).1, hd.1]
  · rcases h.dif with hd | hd
    · simp only [makeShell]; split
      · rfl
      · cases hn : a.nd
        · rw [(h1 hn).2]; rfl
        · cases hs : a.ns
          · rw [h2 hs]; rfl
          · exfalso; simp_all <;> omega
    · rw [(hz hd).2, hd.2]
  · rcases h.dif with hd | hd
    · exact Or.inl hd
    · exact Or.inr (hz hd)

theorem neg_right {k : Nat} {f : (ι → ℝ) → ℝ} {x} {a : Ex ι} (h : Right k f x a) :
    Right k (fun y => -f y) x (neg a) := by
  have h1 := h.state.nd
  have h2 := h.state.ns
  have hz : a.d = 0 ∧ a.dd = 0 → (neg a).d = 0 ∧ (neg a).dd = 0 := by
    rintro ⟨e1, e2⟩
    constructor
    · simp only [neg, e1]; split <;> funext i <;> simp [gt0]
    · simp only [neg, e2]; split <;> funext i j <;> simp [ht0]
  refine right_mk (by simp [neg, h.val]) (h.jet.neg.cast (fun hk => ?_) fun hk => ?_) ?_
    ⟨h.state.nv, fun hn => hz (h1 hn), fun hn => ?_⟩
  · rcases h.dif with hd | hd
    · simp only [neg]; split
      · rfl
      · cases hn : a.nd
        · rw [(h1 hn).1]; funext i; simp [gt0]
        · exfalso; simp_all <;> omega
    · rw [(hz hd).1, hd.1]; funext i; simp
  · rcases h.dif with hd | hd
    · simp only [neg]; split
      · rfl
      · cases hs : a.ns
        · rw [h2 hs]; funext i j; simp [ht0]
        · exfalso; simp_all <;> omega
    · rw [(hz hd).2, hd.2]; funext i j; simp
  · rcases h.dif with hd | hd
    · exact Or.inl hd
    · exact Or.inr (hz hd)
  · have hn : a.ns = false := hn
    simp [neg, hn]; rfl

/-- The two sides of a binary operation: it computes the orders up to `k`, or both arguments are
constants. -/
theorem both_dif {k : Nat} {f g : (ι → ℝ) → ℝ} {x} {a b : Ex ι} (ha : Right k f x a)
    (hb : Right k g x b) :
    k ≤ Max.max a.dif b.dif ∨ ((a.d = 0 ∧ a.dd = 0) ∧ (b.d = 0 ∧ b.dd = 0)) := by
  rcases ha.dif with h | h
  · exact Or.inl (le_trans h (le_max_left _ _))
  · rcases hb.dif with h' | h'
    · exact Or.inl (le_trans h' (le_max_right _ _))
    · exact Or.inr ⟨h, h'⟩

theorem add_d {a b : Ex ι} (ha : StateOk a) (hb : StateOk b) (h : 1 ≤ Max.max a.dif b.dif) :
    (add a b).d = fun i => a.d i + b.d i := by
  have h1 := ha.nd
  have h2 := hb.nd
  have hv := hb.nv
  simp only [add]
  cases hn : a.nd <;> cases hm : b.nd <;> simp_all [gt0, funext_iff]

theorem add_dd {a b : Ex ι} (ha : StateOk a) (hb : StateOk b) (h : 2 ≤ Max.max a.dif b.dif) :
    (add a b).dd = fun i j => a.dd i j + b.dd i j := by
  have h1 := ha.ns
  have h2 := hb.ns
  simp only [add]
  cases hn : a.ns <;> cases hm : b.ns <;> simp_all [ht0, funext_iff]

theorem add_zero' {a b : Ex ι} (ha : a.d = 0 ∧ a.dd = 0) (hb : b.d = 0 ∧ b.dd = 0) :
    (add a b).d = 0 ∧ (add a b).dd = 0 := by
  simp only [add, ha.1, ha.2, hb.1, hb.2]
  constructor
  · split_ifs <;> funext i <;> simp [gt0]
  · split_ifs <;> funext i j <;> simp [ht0]

theorem add_right {k : Nat} {f g : (ι → ℝ) → ℝ} {x} {a b : Ex ι} (ha : Right k f x a)
    (hb : Right k g x b) : Right k (fun y => f y + g y) x (add a b) := by
  have hz := both_dif ha hb
  refine right_mk (by simp [add, ha.val, hb.val])
    ((ha.jet.add hb.jet).cast (fun hk => ?_) fun hk => ?_) ?_ ⟨?_, ?_, ?_⟩
  · rcases hz with hd | hd
    · exact add_d ha.state hb.state (le_trans hk hd)
    · rw [(add_zero' hd.1 hd.2).1, hd.1.1, hd.2.1]; funext i; simp
  · rcases hz with hd | hd
    · exact add_dd ha.state hb.state (le_trans hk hd)
    · rw [(add_zero' hd.1 hd.2).2, hd.1.2, hd.2.2]; funext i j; simp
  · exact hz.imp id fun hd => add_zero' hd.1 hd.2
  · simp [add, ha.state.nv]
  · intro h
    have h : (a.nd || b.nd) = false := h
    rw [Bool.or_eq_false_iff] at h
    exact add_zero' (ha.state.nd h.1) (hb.state.nd h.2)
  · intro h
    have h : (a.ns || b.ns) = false := h
    simp [add, h]; rfl

theorem sub_d {a b : Ex ι} (ha : StateOk a) (hb : StateOk b) (h : 1 ≤ Max.max a.dif b.dif) :
    (sub a b).d = fun i => a.d i - b.d i := by
  have h1 := ha.nd
  have h2 := hb.nd
  have hv := hb.nv
  simp only [sub]
  cases hn : a.nd <;> cases hm : b.nd <;> simp_all [gt0, funext_iff]

theorem sub_dd {a b : Ex ι} (ha : StateOk a) (hb : StateOk b) (h : 2 ≤ Max.max a.dif b.dif) :
    (sub a b).dd = fun i j => a.dd i j - b.dd i j := by
  have h1 := ha.ns
  have h2 := hb.ns
  simp only [sub]
  cases hn : a.ns <;> cases hm : b.ns <;> simp_all [ht0, funext_iff]

theorem sub_zero' {a b : Ex ι} (ha : a.d = 0 ∧ a.dd = 0) (hb : b.d = 0 ∧ b.dd = 0) :
    (sub a b).d = 0 ∧ (sub a b).dd = 0 := by
  simp only [sub, ha.1, ha.2, hb.1, hb.2]
  constructor
  · split_ifs <;> funext i <;> simp [gt0]
  · split_ifs <;> funext i j <;> simp [ht0]

theorem sub_right {k : Nat} {f g : (ι → ℝ) → ℝ} {x} {a b : Ex ι} (ha : Right k f x a)
    (hb : Right k g x b) : Right k (fun y => f y - g y) x (sub a b) := by
  have hz := both_dif ha hb
  refine right_mk (by simp [sub, ha.val, hb.val])
    ((ha.jet.sub hb.jet).cast (fun hk => ?_) fun hk => ?_) ?_ ⟨?_, ?_, ?_⟩
  · rcases hz with hd | hd
    · exact sub_d ha.state hb.state (le_trans hk hd)
    · rw [(sub_zero' hd.1 hd.2).1, hd.1.1, hd.2.1]; funext i; simp
  · rcases hz with hd | hd
    · exact sub_dd ha.state hb.state (le_trans hk hd)
    · rw [(sub_zero' hd.1 hd.2).2, hd.1.2, hd.2.2]; funext i j; simp
  · exact hz.imp id fun hd => sub_zero' hd.1 hd.2
  · simp [sub, ha.state.nv]
  · intro h
    have h : (a.nd || b.nd) = false := h
    rw [Bool.or_eq_false_iff] at h
    exact sub_zero' (ha.state.nd h.1) (hb.state.nd h.2)
  · intro h
    have h : (a.ns || b.ns) = false := h
    simp [sub, h]; rfl

theorem mul_d {a b : Ex ι} (ha : StateOk a) (hb : StateOk b) (h : 1 ≤ Max.max a.dif b.dif) :
    (mul a b).d = fun i => b.v * a.d i + a.v * b.d i := by
  have h1 := ha.nd
  have h2 := hb.nd
  have hv := hb.nv
  simp only [mul]
  cases hn : a.nd <;> cases hm : b.nd <;> simp_all [gt0, funext_iff]

theorem mul_dd {a b : Ex ι} (ha : StateOk a) (hb : StateOk b) (h : 2 ≤ Max.max a.dif b.dif) :
    (mul a b).dd = fun i j =>
      a.d i * b.d j + a.d j * b.d i + b.v * a.dd i j + a.v * b.dd i j := by
  have h1 := ha.nd
  have h2 := hb.nd
  have h3 := ha.ns
  have h4 := hb.ns
  have hv := hb.nv
  have h0 : 1 ≤ Max.max a.dif b.dif := by omega
  simp only [mul, hv, h, h0, tensorSymMul2]
  cases hn : a.nd <;> cases hm : b.nd <;> cases hs : a.ns <;> cases ht : b.ns <;>
    simp only [hn, hm, hs, ht] at h1 h2 h3 h4 <;> simp_all [gt0, ht0, funext_iff]

theorem mul_zero' {a b : Ex ι} (ha : a.d = 0 ∧ a.dd = 0) (hb : b.d = 0 ∧ b.dd = 0) :
    (mul a b).d = 0 ∧ (mul a b).dd = 0 := by
  simp only [mul, ha.1, ha.2, hb.1, hb.2]
  constructor
  · split_ifs <;> funext i <;> simp [gt0]
  · split_ifs <;> funext i j <;> simp [ht0, gt0, tensorSymMul2]

theorem mul_right {k : Nat} {f g : (ι → ℝ) → ℝ} {x} {a b : Ex ι} (ha : Right k f x a)
    (hb : Right k g x b) : Right k (fun y => f y * g y) x (mul a b) := by
  have hz := both_dif ha hb
  refine right_mk (by simp [mul, ha.val, hb.val])
    ((ha.jet.mul hb.jet).cast (fun hk => ?_) fun hk => ?_) ?_ ⟨?_, ?_, ?_⟩
  · rcases hz with hd | hd
    · rw [mul_d ha.state hb.state (le_trans hk hd), ha.val, hb.val]
    · rw [(mul_zero' hd.1 hd.2).1, hd.1.1, hd.2.1]; funext i; simp
  · rcases hz with hd | hd
    · rw [mul_dd ha.state hb.state (le_trans hk hd), ha.val, hb.val]
    · rw [(mul_zero' hd.1 hd.2).2, hd.1.1, hd.2.1, hd.1.2, hd.2.2]; funext i j; simp
  · exact hz.imp id fun hd => mul_zero' hd.1 hd.2
  · simp [mul, ha.state.nv]
  · intro h
    have h : (a.nd || b.nd) = false := h
    rw [Bool.or_eq_false_iff] at h
    exact mul_zero' (ha.state.nd h.1) (hb.state.nd h.2)
  · intro h
    have h : (a.ns || b.ns || (a.nd && b.nd)) = false := h
    simp only [Bool.or_eq_false_iff, Bool.and_eq_false_iff] at h
    obtain ⟨⟨hs, ht⟩, hn⟩ := h
    have h1 := ha.state.nd
    have h2 := hb.state.nd
    simp only [mul, hs, ht, tensorSymMul2]
    rcases hn with hn | hn
    · simp [hn]; rfl
    · funext i j
      simp only [hn]
      split_ifs <;> simp_all [ht0, gt0]

theorem div_d {a b : Ex ι} (ha : StateOk a) (hb : StateOk b) (h : 1 ≤ Max.max a.dif b.dif) :
    (div a b).d = fun i => a.d i / b.v - a.v / (b.v * b.v) * b.d i := by
  have h1 := ha.nd
  have h2 := hb.nd
  have hv := hb.nv
  simp only [div]
  cases hn : a.nd <;> cases hm : b.nd <;> simp_all [gt0, funext_iff]

/-- The Hessian of the quotient as it is computed; the square of the gradient of the denominator is
there only if the State of the denominator declares a second derivative. -/
theorem div_dd {a b : Ex ι} (ha : StateOk a) (hb : StateOk b) (h : 2 ≤ Max.max a.dif b.dif) :
    (div a b).dd = fun i j =>
      -((1 / (b.v * b.v)) * (a.d i * b.d j + a.d j * b.d i)) + a.dd i j / b.v
        + a.v / (b.v * b.v) *
          ((if b.ns then (2 / b.v) * (b.d i * b.d j) else 0) - b.dd i j) := by
  have h1 := ha.nd
  have h2 := hb.nd
  have h3 := ha.ns
  have h4 := hb.ns
  have hv := hb.nv
  have h0 : 1 ≤ Max.max a.dif b.dif := by omega
  simp only [div, hv, h, h0, tensorSymMul2, tensorSquare]
  cases hn : a.nd <;> cases hm : b.nd <;> cases hs : a.ns <;> cases ht : b.ns <;>
    simp only [hn, hm, hs, ht] at h1 h2 h3 h4 <;> simp_all [gt0, ht0, funext_iff]

theorem div_zero' {a b : Ex ι} (ha : a.d = 0 ∧ a.dd = 0) (hb : b.d = 0 ∧ b.dd = 0) :
    (div a b).d = 0 ∧ (div a b).dd = 0 := by
  simp only [div, ha.1, ha.2, hb.1, hb.2]
  constructor
  · split_ifs <;> funext i <;> simp [gt0]
  · split_ifs <;> funext i j <;> simp [ht0, gt0, tensorSymMul2, tensorSquare]

/-- The quotient with the right Hessian. -/
theorem jet_div {k : Nat} {f g : (ι → ℝ) → ℝ} {x d dd e ee} (hf : Jet k f x d dd)
    (hg : Jet k g x e ee) (h : g x ≠ 0) :
    Jet k (fun y => f y / g y) x (fun i => d i / g x - f x / (g x * g x) * e i)
      (fun i j => -((1 / (g x * g x)) * (d i * e j + d j * e i)) + dd i j / g x
        + f x / (g x * g x) * ((2 / g x) * (e i * e j) - ee i j)) := by
  have hi : Jet k (fun y => (g y)⁻¹) x _ _ :=
    Jet.un (h := fun t => t⁻¹) (h' := fun t => -(t ^ 2)⁻¹) (h'' := 2 * (g x ^ 3)⁻¹)
      (by filter_upwards [isOpen_ne.mem_nhds h] with t ht using hasDerivAt_inv ht)
      (by
        have := ((hasDerivAt_pow 2 (g x)).inv (pow_ne_zero 2 h)).neg
        refine this.congr_deriv ?_
        field_simp; norm_num; ring) hg
  have := hf.mul hi
  simp only [div_eq_mul_inv]
  refine this.cast (fun _ => ?_) fun _ => ?_
  · funext i; field_simp; ring
  · funext i j; field_simp; ring

theorem div_right_flat {k : Nat} {f g : (ι → ℝ) → ℝ} {x} {a b : Ex ι} (ha : Right k f x a)
    (hb : Right k g x b) (h0 : g x ≠ 0) (hq : 2 ≤ k → b.nd = true → b.ns = true) :
    Right k (fun y => f y / g y) x (div a b) := by
  have hz := both_dif ha hb
  refine right_mk (by simp [div, ha.val, hb.val])
    ((jet_div ha.jet hb.jet h0).cast (fun hk => ?_) fun hk => ?_) ?_ ⟨?_, ?_, ?_⟩
  · rcases hz with hd | hd
    · rw [div_d ha.state hb.state (le_trans hk hd), ha.val, hb.val]
    · rw [(div_zero' hd.1 hd.2).1, hd.1.1, hd.2.1]; funext i; simp
  · rcases hz with hd | hd
    · rw [div_dd ha.state hb.state (le_trans hk hd), ha.val, hb.val]
      cases hn : b.nd
      · have := (hb.state.nd hn)
        simp [this.1]
      · simp [hq hk hn]
    · rw [(div_zero' hd.1 hd.2).2, hd.1.1, hd.2.1, hd.1.2, hd.2.2]; funext i j; simp
  · exact hz.imp id fun hd => div_zero' hd.1 hd.2
  · simp [div, ha.state.nv]
  · intro h
    have h : (a.nd || b.nd) = false := h
    rw [Bool.or_eq_false_iff] at h
    exact div_zero' (ha.state.nd h.1) (hb.state.nd h.2)
  · intro h
    have h : (a.ns || b.ns || (a.nd && b.nd)) = false := h
    simp only [Bool.or_eq_false_iff, Bool.and_eq_false_iff] at h
    obtain ⟨⟨hs, ht⟩, hn⟩ := h
    have h1 := ha.state.nd
    have h2 := hb.state.nd
    simp only [div, hs, ht, tensorSymMul2]
    rcases hn with hn | hn
    · simp [hn]; rfl
    · funext i j
      simp only [hn]
      split_ifs <;> simp_all [ht0, gt0]

end Verif.AutoDiff
