import Mathlib.Analysis.Calculus.Deriv.ZPow
import Mathlib.Analysis.SpecialFunctions.Complex.LogDeriv
import Verif.Lemmas.AutoDiffOps

/-!
# Each function keeps value, gradient and Hessian right
-/

namespace Verif.AutoDiff

open Filter Topology

variable {ι : Type} [Fintype ι]

theorem jet_zero {f : (ι → ℝ) → ℝ} {x d dd} : Jet 0 f x d dd :=
  ⟨fun h => absurd h (by omega), fun h => absurd h (by omega)⟩

/-- A result of type `FuncVal` whose derivatives are `c1 · a.d` and `c2 · a.d ⊗ a.d + c1 · a.dd`. -/
theorem func_right {k : Nat} {f : (ι → ℝ) → ℝ} {x} {a r : Ex ι} {h h' : ℝ → ℝ} {h'' : ℝ}
    (ha : Right k f x a)
    (hh : 1 ≤ k → ∀ᶠ t in 𝓝 (f x), HasDerivAt h (h' t) t)
    (hh' : 1 ≤ k → HasDerivAt h' h'' (f x))
    (hv : r.v = h (f x)) (rnv : r.nv = true) (rnd : r.nd = a.nd) (rns : r.ns = a.nd)
    (rdif : r.dif = a.dif)
    (hd : a.nd = true → 1 ≤ a.dif → r.d = fun i => h' (f x) * a.d i)
    (hdd : a.nd = true → 2 ≤ a.dif →
      r.dd = fun i j => h'' * (a.d i * a.d j) + h' (f x) * a.dd i j)
    (h0 : a.nd = false → r.d = 0 ∧ r.dd = 0)
    (hz : a.d = 0 ∧ a.dd = 0 → r.d = 0 ∧ r.dd = 0) :
    Right k (fun y => h (f y)) x r := by
  refine right_mk hv ?_ ?_ ⟨rnv, fun hn => h0 (rnd ▸ hn), fun hn => (h0 (rns ▸ hn)).2⟩
  · rcases Nat.eq_zero_or_pos k with rfl | hk
    · exact jet_zero
    · refine (Jet.un (hh hk) (hh' hk) ha.jet).cast (fun h1 => ?_) fun h2 => ?_
      · rcases ha.dif with hD | hD
        · cases hn : a.nd
          · rw [(h0 hn).1, (ha.state.nd hn).1]; funext i; simp
          · exact hd hn (le_trans h1 hD)
        · rw [(hz hD).1, hD.1]; funext i; simp
      · rcases ha.dif with hD | hD
        · cases hn : a.nd
          · rw [(h0 hn).2, (ha.state.nd hn).1, (ha.state.nd hn).2]; funext i j; simp
          · exact hdd hn (le_trans h2 hD)
        · rw [(hz hD).2, hD.1, hD.2]; funext i j; simp
  · rw [rdif]
    exact ha.dif.imp id hz

theorem unary_right {k : Nat} {f : (ι → ℝ) → ℝ} {x} {a : Ex ι} (u : Un) (ha : Right k f x a)
    (hx : u.dom (f x)) : Right k (fun y => u.fn (f y)) x (unary a u.op) := by
  have hv := ha.val
  refine func_right (h := u.fn) (h' := fun s => (u.op 2 s).2.1) (h'' := (u.op 2 (f x)).2.2) ha
    (fun _ => (dom_open u hx).mono fun t ht => fn_deriv u ht) (fun _ => fn_deriv2 u hx)
    ?_ ?_ ?_ ?_ ?_ ?_ ?_ ?_ ?_
  · simp only [unary]; split <;> simp only [op_val, hv]
  · simp only [unary]; split <;> rfl
  · simp only [unary]; split <;> rfl
  · simp only [unary]; split <;> rfl
  · simp only [unary]; split <;> rfl
  · intro hn h1
    simp only [unary, hn, h1, if_true, op_d1 u h1, hv, Bool.true_eq_false, if_false]
  · intro hn h2
    have h1 : 1 ≤ a.dif := by omega
    have hs := ha.state.ns
    simp only [unary, hn, h1, h2, if_true, op_d1 u h1, op_d2 u h2, hv, Bool.true_eq_false, if_false,
      tensorSquare, true_and]
    cases h : a.ns
    · simp [hs h]
    · simp
  · intro hn
    simp only [unary, hn, if_true]; exact ⟨rfl, rfl⟩
  · rintro ⟨e1, e2⟩
    constructor
    · simp only [unary, e1]; split_ifs <;> funext i <;> simp [gt0]
    · simp only [unary, e1, e2]; split_ifs <;> funext i j <;> simp [ht0, gt0, tensorSquare]

theorem sq_right {k : Nat} {f : (ι → ℝ) → ℝ} {x} {a : Ex ι} (ha : Right k f x a) :
    Right k (fun y => f y ^ 2) x (sq a) := by
  have hv := ha.val
  refine func_right (h := fun t => t ^ 2) (h' := fun t => 2 * t) (h'' := 2) ha
    (fun _ => Eventually.of_forall fun t => ?_) (fun _ => ?_) ?_ ?_ ?_ ?_ ?_ ?_ ?_ ?_ ?_
  · simpa using hasDerivAt_pow 2 t
  · simpa using (hasDerivAt_id (f x)).const_mul 2
  · simp only [sq]; split <;> simp only [hv] <;> ring
  · simp only [sq]; split <;> rfl
  · simp only [sq]; split <;> rfl
  · simp only [sq]; split <;> rfl
  · simp only [sq]; split <;> rfl
  · intro hn h1
    simp only [sq, hn, h1, if_true, hv, Bool.true_eq_false, if_false]
  · intro hn h2
    have h1 : 1 ≤ a.dif := by omega
    have hs := ha.state.ns
    simp only [sq, hn, h1, h2, if_true, hv, Bool.true_eq_false, if_false,
      tensorSquare, true_and]
    cases h : a.ns
    · simp [hs h, ht0]
    · simp [ht0]
  · intro hn
    simp only [sq, hn, if_true]; exact ⟨rfl, rfl⟩
  · rintro ⟨e1, e2⟩
    constructor
    · simp only [sq, e1]; split_ifs <;> funext i <;> simp [gt0]
    · simp only [sq, e1, e2]; split_ifs <;> funext i j <;> simp [ht0, gt0, tensorSquare]

/-- A constant result of type `FuncVal`. -/
theorem const_right {k : Nat} {f : (ι → ℝ) → ℝ} {x} {a : Ex ι} (c : ℝ) (hf : ∀ y, f y = c)
    (hv : a.v = c) (h1 : a.d = 0) (h2 : a.dd = 0) (hn : a.nv = true) : Right k f x a := by
  have : f = fun _ => c := funext hf
  subst this
  refine right_mk hv ?_ (Or.inr ⟨h1, h2⟩) ⟨hn, fun _ => ⟨h1, h2⟩, fun _ => h2⟩
  rw [h1, h2]; exact jet_const k c x

theorem powR_right {k : Nat} {f : (ι → ℝ) → ℝ} {x} {a : Ex ι} (q : ℝ) (ha : Right k f x a)
    (hx : q = 0 ∨ 0 < f x) : Right k (fun y => f y ^ q) x (powR a q) := by
  have hv := ha.val
  by_cases hq : q = 0
  · subst hq
    apply const_right 1 <;> simp [powR] <;> rfl
  have hp : 0 < f x := hx.resolve_left hq
  have hne := hp.ne'
  refine func_right (h := fun t => t ^ q) (h' := fun t => q * t ^ (q - 1))
    (h'' := q * ((q - 1) * f x ^ (q - 1 - 1))) ha
    (fun _ => ?_) (fun _ => ?_) ?_ ?_ ?_ ?_ ?_ ?_ ?_ ?_ ?_
  · filter_upwards [lt_mem_nhds hp] with t ht
    exact Real.hasDerivAt_rpow_const (Or.inl ht.ne')
  · exact (Real.hasDerivAt_rpow_const (Or.inl hne)).const_mul q
  · simp only [powR, if_neg hq]; split <;> simp only [hv]
  · simp only [powR, if_neg hq]; split <;> rfl
  · simp only [powR, if_neg hq]; split <;> rfl
  · simp only [powR, if_neg hq]; split <;> rfl
  · simp only [powR, if_neg hq]; split <;> rfl
  · intro hn h1
    simp only [powR, if_neg hq, hn, h1, if_true, hv, Bool.true_eq_false, if_false]
    funext i
    rw [Real.rpow_sub_one hne]; ring
  · intro hn h2
    have h1 : 1 ≤ a.dif := by omega
    have hs := ha.state.ns
    simp only [powR, if_neg hq, hn, h1, h2, if_true, hv, Bool.true_eq_false, if_false,
      tensorSquare, true_and]
    rw [Real.rpow_sub_one hne, Real.rpow_sub_one hne]
    cases h : a.ns
    · simp only [hs h, ht0]
      funext i j; simp only [Pi.zero_apply, if_pos hne, Bool.false_eq_true, if_false]; field_simp; ring
    · funext i j; simp only [ht0, if_pos hne, if_true]; field_simp; ring
  · intro hn
    simp only [powR, if_neg hq, hn, if_true]; exact ⟨rfl, rfl⟩
  · rintro ⟨e1, e2⟩
    constructor
    · simp only [powR, e1]; split_ifs <;> funext i <;> simp [gt0]
    · simp only [powR, e1, e2]; split_ifs <;> funext i j <;> simp [ht0, gt0, tensorSquare]

omit [Fintype ι] in
theorem powLoop_eq (p : ℝ) (n m : Nat) :
    powLoop p n (p ^ (m + 2), p ^ (m + 1), p ^ m) = (p ^ (n + m + 2), p ^ (n + m + 1), p ^ (n + m)) := by
  induction n generalizing m with
  | zero => simp [powLoop]
  | succ n ih =>
    have : powLoop p (n + 1) (p ^ (m + 2), p ^ (m + 1), p ^ m)
        = powLoop p n (p ^ ((m + 1) + 2), p ^ ((m + 1) + 1), p ^ (m + 1)) := by
      simp only [powLoop]; congr 2
    rw [this, ih (m + 1)]
    have e1 : n + (m + 1) = n + 1 + m := by ring
    rw [e1]

omit [Fintype ι] in
/-- The loop of `pow` gives the powers `q`, `q - 1` and, for `q` not one, `q - 2`. -/
theorem powTriple_eq {t : ℝ} {q : Int} (hq : q ≠ 0) (ht : q < 0 → t ≠ 0) :
    (powTriple t q).1 = t ^ q ∧ (powTriple t q).2.1 = t ^ (q - 1) ∧
      (q ≠ 1 → (powTriple t q).2.2 = t ^ (q - 2)) := by
  rcases lt_or_gt_of_ne hq with hn | hp
  · have h0 := ht hn
    obtain ⟨n, rfl⟩ : ∃ n : Nat, q = -(n : Int) := ⟨q.natAbs, by omega⟩
    have hn1 : -(n : Int) ≠ 1 := by omega
    have hnp : ¬ (0 : Int) < -(n : Int) := by omega
    simp only [powTriple, if_neg hnp, hn1, ne_eq, not_false_iff, if_true, if_pos hn, neg_neg, Int.toNat_natCast]
    have e : ((1 / t) * (1 / t), 1 / t, (1 : ℝ)) =
        ((1 / t) ^ (0 + 2), (1 / t) ^ (0 + 1), (1 / t) ^ 0) := by simp [pow_two]
    rw [e, powLoop_eq]
    simp only [add_zero]
    have key : ∀ m : Nat, (1 / t) ^ m = t ^ (-(m : Int)) := by
      intro m; rw [zpow_neg, zpow_natCast, one_div, inv_pow]
    refine ⟨key n, ?_, fun _ => ?_⟩
    · rw [key]; congr 1; push_cast; ring
    · rw [key]; congr 1; push_cast; ring
  · by_cases h1 : q = 1
    · subst h1; simp [powTriple, powLoop]
    · obtain ⟨n, rfl⟩ : ∃ n : Nat, q = (n : Int) + 2 := ⟨(q - 2).toNat, by omega⟩
      have hnn : ¬ ((n : Int) + 2 < 0) := by omega
      simp only [powTriple, if_pos hp, h1, ne_eq, not_false_iff, if_true, if_neg hnn, add_sub_cancel_right,
        Int.toNat_natCast]
      have e : (t * t, t, (1 : ℝ)) = (t ^ (0 + 2), t ^ (0 + 1), t ^ 0) := by simp [pow_two]
      rw [e, powLoop_eq]
      simp only [add_zero]
      refine ⟨by rw [← zpow_natCast]; congr 1, ?_, fun _ => by rw [← zpow_natCast]⟩
      rw [← zpow_natCast]; congr 1; push_cast; ring

theorem powZ_right {k : Nat} {f : (ι → ℝ) → ℝ} {x} {a : Ex ι} (q : Int) (ha : Right k f x a)
    (hx : q < 0 → f x ≠ 0) : Right k (fun y => f y ^ q) x (powZ a q) := by
  have hv := ha.val
  by_cases hq : q = 0
  · subst hq
    apply const_right 1 <;> simp [powZ] <;> rfl
  obtain ⟨t1, t2, t3⟩ := powTriple_eq (t := f x) hq hx
  have hor : f x ≠ 0 ∨ 0 ≤ q := by
    by_cases h : q < 0
    · exact Or.inl (hx h)
    · exact Or.inr (by omega)
  refine func_right (h := fun t => t ^ q) (h' := fun t => (q : ℝ) * t ^ (q - 1))
    (h'' := (q : ℝ) * (((q - 1 : Int) : ℝ) * f x ^ (q - 1 - 1))) ha
    (fun _ => ?_) (fun _ => ?_) ?_ ?_ ?_ ?_ ?_ ?_ ?_ ?_ ?_
  · rcases hor with h | h
    · filter_upwards [isOpen_ne.mem_nhds h] with t ht
      exact hasDerivAt_zpow q t (Or.inl ht)
    · exact Eventually.of_forall fun t => hasDerivAt_zpow q t (Or.inr h)
  · refine (hasDerivAt_zpow (q - 1) (f x) ?_).const_mul (q : ℝ)
    rcases hor with h | h
    · exact Or.inl h
    · exact Or.inr (by omega)
  · simp only [powZ, if_neg hq]; split <;> simp only [hv, t1]
  · simp only [powZ, if_neg hq]; split <;> rfl
  · simp only [powZ, if_neg hq]; split <;> rfl
  · simp only [powZ, if_neg hq]; split <;> rfl
  · simp only [powZ, if_neg hq]; split <;> rfl
  · intro hn h1
    simp only [powZ, if_neg hq, hn, h1, if_true, hv, Bool.true_eq_false, if_false, t2]
    by_cases h : q = 1
    · subst h; simp
    · simp [h]
  · intro hn h2
    have h1 : 1 ≤ a.dif := by omega
    have hs := ha.state.ns
    simp only [powZ, if_neg hq, hn, h1, h2, if_true, hv, Bool.true_eq_false, if_false,
      tensorSquare, true_and, t2]
    have e : q - 1 - 1 = q - 2 := by ring
    rw [e]
    by_cases h : q = 1
    · subst h
      cases h : a.ns
      · simp [hs h, ht0]; rfl
      · simp [ht0]
    · rw [t3 h]
      cases h' : a.ns
      · simp only [hs h', ht0]
        funext i j; simp [h, -mul_eq_mul_right_iff, -mul_eq_mul_left_iff]; ring
      · funext i j; simp [h, ht0, -mul_eq_mul_right_iff, -mul_eq_mul_left_iff]; ring
  · intro hn
    simp only [powZ, if_neg hq, hn, if_true]; exact ⟨rfl, rfl⟩
  · rintro ⟨e1, e2⟩
    constructor
    · simp only [powZ, e1]; split_ifs <;> funext i <;> simp [gt0]
    · simp only [powZ, e1, e2]; split_ifs <;> funext i j <;> simp [ht0, gt0, tensorSquare]

theorem cube_right {k : Nat} {f : (ι → ℝ) → ℝ} {x} {a : Ex ι} (ha : Right k f x a) :
    Right k (fun y => f y ^ 3) x (cube a) := by
  have := powZ_right 3 ha (by omega)
  exact this.congr (Eventually.of_forall fun y => by norm_cast)

theorem Jet.unique {k : Nat} {f : (ι → ℝ) → ℝ} {x d dd d' dd'} (h : Jet k f x d dd)
    (h' : Jet k f x d' dd') : (1 ≤ k → d = d') ∧ (2 ≤ k → dd = dd') := by
  refine ⟨fun hk => (h.1 hk).unique (h'.1 hk), fun hk => ?_⟩
  obtain ⟨g, hg, -, hd⟩ := h.2 hk
  obtain ⟨g', hg', -, hd'⟩ := h'.2 hk
  funext i
  refine (hd i).unique ((hd' i).congr ?_)
  filter_upwards [hg, hg'] with y h1 h2
  rw [h1.unique h2]

theorem jet_pow {k : Nat} {f g : (ι → ℝ) → ℝ} {x d dd e ee} (hf : Jet k f x d dd)
    (hg : Jet k g x e ee) (h : 0 < f x) :
    Jet k (fun y => f y ^ g y) x
      (fun i => f x ^ g x * (Real.log (f x) * e i + (g x / f x) * d i))
      (fun i j => f x ^ g x * Real.log (f x) * Real.log (f x) * e i * e j
        + f x ^ g x * (g x * Real.log (f x) + 1) / f x * (e i * d j + d i * e j)
        + f x ^ g x * g x * (g x - 1) / (f x * f x) * d i * d j
        + f x ^ g x * Real.log (f x) * ee i j + f x ^ g x * g x / f x * dd i j) := by
  rcases Nat.eq_zero_or_pos k with rfl | hk
  · exact jet_zero
  have hl := Jet.un (h := Real.log) (h' := fun t => 1 / t) (h'' := -1 / (f x * f x))
    (by filter_upwards [lt_mem_nhds h] with t ht using fn_deriv .log ht)
    (fn_deriv2 .log h) hf
  have he := Jet.un (h := Real.exp) (h' := Real.exp) (h'' := Real.exp (Real.log (f x) * g x))
    (Eventually.of_forall fun t => Real.hasDerivAt_exp t) (Real.hasDerivAt_exp _) (hl.mul hg)
  have hp : Real.exp (Real.log (f x) * g x) = f x ^ g x := by rw [Real.rpow_def_of_pos h]
  have hev : (fun y => f y ^ g y) =ᶠ[𝓝 x] fun y => Real.exp (Real.log (f y) * g y) := by
    filter_upwards [(hf.cont hk).eventually (lt_mem_nhds h)] with y hy
    rw [Real.rpow_def_of_pos hy]
  have h0 := h.ne'
  refine (he.congr hev).cast (fun _ => ?_) fun _ => ?_
  · funext i; rw [hp]; field_simp; ring
  · funext i j; rw [hp]; field_simp; ring

/-- An object that is right for a power is right for every power whose base and exponent have the
same value, gradient and Hessian. -/
theorem pow_transfer {k : Nat} {f g f0 g0 : (ι → ℝ) → ℝ} {x d dd e ee} {r : Ex ι}
    (h : Right k (fun y => f0 y ^ g0 y) x r) (hf : Jet k f x d dd) (hg : Jet k g x e ee)
    (hf0 : Jet k f0 x d dd) (hg0 : Jet k g0 x e ee) (ef : f0 x = f x) (eg : g0 x = g x)
    (hp : 0 < f x) : Right k (fun y => f y ^ g y) x r := by
  refine right_mk (by rw [h.val, ef, eg]) ?_ h.dif h.state
  have h0 := jet_pow hf0 hg0 (ef ▸ hp)
  rw [ef, eg] at h0
  have u := h.jet.unique h0
  exact (jet_pow hf hg hp).cast u.1 u.2

theorem powGen_right {k : Nat} {f g : (ι → ℝ) → ℝ} {x} {a b : Ex ι} (ha : Right k f x a)
    (hb : Right k g x b) (hp : 0 < f x) : Right k (fun y => f y ^ g y) x (powGen a b) := by
  have hz := both_dif ha hb
  have hs := ha.state.ns
  have ht := hb.state.ns
  have zz : ((a.d = 0 ∧ a.dd = 0) ∧ (b.d = 0 ∧ b.dd = 0)) →
      (powGen a b).d = 0 ∧ (powGen a b).dd = 0 := by
    rintro ⟨⟨e1, e2⟩, e3, e4⟩
    constructor
    · simp only [powGen, e1, e3]; split_ifs <;> funext i <;> simp [gt0]
    · simp only [powGen, e1, e2, e3, e4]; split_ifs <;> funext i j <;> simp [ht0]
  refine right_mk ?_ ((jet_pow ha.jet hb.jet hp).cast (fun hk => ?_) fun hk => ?_) ?_ ⟨?_, ?_, ?_⟩
  · simp only [powGen]; split <;> simp only [ha.val, hb.val]
  · rcases hz with hd | hd
    · have : ¬ Max.max a.dif b.dif = 0 := by omega
      simp only [powGen, if_neg this, ha.val, hb.val]
    · rw [(zz hd).1, hd.1.1, hd.2.1]; funext i; simp
  · rcases hz with hd | hd
    · have : ¬ Max.max a.dif b.dif = 0 := by omega
      have h2 : 2 ≤ Max.max a.dif b.dif := by omega
      simp only [powGen, if_neg this, if_pos h2, ha.val, hb.val]
      cases h : a.ns <;> cases h' : b.ns <;>
        (first | rw [hs h] | skip) <;> (first | rw [ht h'] | skip) <;> funext i j <;> simp [ht0]
    · rw [(zz hd).2, hd.1.1, hd.2.1, hd.1.2, hd.2.2]; funext i j; simp
  · refine hz.imp (fun h => ?_) zz
    simp only [powGen]; split
    · rename_i h0; rw [h0] at h; exact h
    · exact h
  · simp only [powGen]; split <;> rfl
  · simp only [powGen]; split <;> nofun
  · simp only [powGen]; split <;> nofun

theorem pow_right {k : Nat} {f g : (ι → ℝ) → ℝ} {x} {a b : Ex ι} (ha : Right k f x a)
    (hb : Right k g x b) (hp : 0 < f x) : Right k (fun y => f y ^ g y) x (pow a b) := by
  have ja := ha.jet
  have jb := hb.jet
  cases hn : a.nd <;> cases hm : b.nd <;> simp only [pow, hn, hm]
  · have e1 := ha.state.nd hn
    have e2 := hb.state.nd hm
    rw [e1.1, e1.2] at ja
    rw [e2.1, e2.2] at jb
    rw [ha.val, hb.val]
    exact pow_transfer (f0 := fun _ => f x) (g0 := fun _ => g x) (param_right k _ x) ja jb
      (jet_const k _ x) (jet_const k _ x) rfl rfl hp
  · have e1 := ha.state.nd hn
    rw [e1.1, e1.2] at ja
    have h1 := unary_right .exp (mul_right (param_right k (Real.log a.v) x) hb) trivial
    refine pow_transfer (f0 := fun _ => f x) (g0 := g) (h1.congr ?_) ja jb (jet_const k _ x) jb
      rfl rfl hp
    refine Eventually.of_forall fun y => ?_
    simp only [Un.fn, ha.val]
    rw [Real.rpow_def_of_pos hp]
  · have e2 := hb.state.nd hm
    rw [e2.1, e2.2] at jb
    rw [hb.val]
    exact pow_transfer (f0 := f) (g0 := fun _ => g x) (powR_right (g x) ha (Or.inr hp)) ja jb
      ja (jet_const k _ x) rfl rfl hp
  · exact powGen_right ha hb hp

theorem isGrad_arg {f g : (ι → ℝ) → ℝ} {x d e} (hf : IsGrad f x d) (hg : IsGrad g x e)
    (h : 0 < f x ∨ g x ≠ 0) :
    IsGrad (fun y => Complex.arg ⟨f y, g y⟩) x
      (fun i => f x / (g x * g x + f x * f x) * e i - g x / (g x * g x + f x * f x) * d i) := by
  have hz : (⟨f x, g x⟩ : ℂ) ∈ Complex.slitPlane := h
  have h1 : HasFDerivAt (fun y => (⟨f y, g y⟩ : ℂ))
      ((lin d).smulRight (1 : ℂ) + (lin e).smulRight Complex.I) x := by
    have a1 := HasFDerivAt.smul_const hf (1 : ℂ)
    have a2 := HasFDerivAt.smul_const hg Complex.I
    have := a1.add a2
    refine this.congr_of_eventuallyEq (Eventually.of_forall fun y => ?_)
    apply Complex.ext <;> simp
  have h2 := (Complex.hasStrictDerivAt_log hz).hasDerivAt.hasFDerivAt.restrictScalars ℝ
  have h3 := h2.comp x h1
  have h4 := Complex.imCLM.hasFDerivAt.comp x h3
  have e0 : (fun y => Complex.arg ⟨f y, g y⟩)
      = (Complex.imCLM ∘ Complex.log ∘ fun y => (⟨f y, g y⟩ : ℂ)) := by
    funext y; simp [Complex.log_im]
  unfold IsGrad
  rw [e0]
  refine h4.congr_fderiv ?_
  ext v
  have hn : Complex.normSq ⟨f x, g x⟩ = g x * g x + f x * f x := by
    rw [Complex.normSq_mk]; ring
  have hs : (∑ i, (f x / (g x * g x + f x * f x) * e i - g x / (g x * g x + f x * f x) * d i) * v i)
      = f x / (g x * g x + f x * f x) * (∑ i, e i * v i)
        - g x / (g x * g x + f x * f x) * ∑ i, d i * v i := by
    rw [Finset.mul_sum, Finset.mul_sum, ← Finset.sum_sub_distrib]
    exact Finset.sum_congr rfl fun i _ => by ring
  simp only [ContinuousLinearMap.comp_apply, ContinuousLinearMap.add_apply,
    ContinuousLinearMap.smulRight_apply, ContinuousLinearMap.coe_restrictScalars',
    ContinuousLinearMap.toSpanSingleton_apply, lin_apply, hs]
  generalize (∑ i, d i * v i) = A
  generalize (∑ i, e i * v i) = B
  simp [hn]
  ring

theorem jet_arg {k : Nat} {f g : (ι → ℝ) → ℝ} {x d dd e ee} (hf : Jet k f x d dd)
    (hg : Jet k g x e ee) (h : 0 < f x ∨ g x ≠ 0) :
    Jet k (fun y => Complex.arg ⟨f y, g y⟩) x
      (fun i => f x / (g x * g x + f x * f x) * e i - g x / (g x * g x + f x * f x) * d i)
      (fun i j => f x / (g x * g x + f x * f x) * ee i j - g x / (g x * g x + f x * f x) * dd i j
        + (g x * g x - f x * f x) / ((g x * g x + f x * f x) * (g x * g x + f x * f x))
            * (d i * e j + e i * d j)
        - 2 * f x * g x / ((g x * g x + f x * f x) * (g x * g x + f x * f x))
            * (e i * e j - d i * d j)) := by
  have hr : g x * g x + f x * f x ≠ 0 := by
    rcases h with h | h
    · nlinarith [mul_self_nonneg (g x), mul_pos h h]
    · have := mul_self_pos.mpr h
      nlinarith [mul_self_nonneg (f x)]
  refine ⟨fun hk => isGrad_arg (hf.1 hk) (hg.1 hk) h, fun hk => ?_⟩
  obtain ⟨F, hF, F0, hd⟩ := hf.2 hk
  obtain ⟨G, hG, G0, he⟩ := hg.2 hk
  have gf := hf.1 (by omega)
  have gg := hg.1 (by omega)
  refine ⟨fun y i => f y / (g y * g y + f y * f y) * G y i - g y / (g y * g y + f y * f y) * F y i,
    ?_, by simp only [F0, G0], fun i => ?_⟩
  · have hev : ∀ᶠ y in 𝓝 x, 0 < f y ∨ g y ≠ 0 := by
      rcases h with h | h
      · exact (gf.cont.eventually (lt_mem_nhds h)).mono fun y hy => Or.inl hy
      · exact (gg.cont.eventually_ne h).mono fun y hy => Or.inr hy
    filter_upwards [hF, hG, hev] with y a b c using isGrad_arg a b c
  · have q := (gg.mul gg).add (gf.mul gf)
    have jf : Jet 1 f x d dd := ⟨fun _ => gf, fun h => absurd h (by omega)⟩
    have jg : Jet 1 g x e ee := ⟨fun _ => gg, fun h => absurd h (by omega)⟩
    have j1 := jet_div jf ((jg.mul jg).add (jf.mul jf)) hr
    have j2 := jet_div jg ((jg.mul jg).add (jf.mul jf)) hr
    have r1 := ((j1.1 le_rfl).mul (he i)).sub ((j2.1 le_rfl).mul (hd i))
    convert r1 using 1
    funext j
    rw [F0, G0]
    field_simp
    ring

theorem atan2_d {y x : Ex ι} (hy : StateOk y) (hx : StateOk x) (h : 1 ≤ Max.max y.dif x.dif) :
    (atan2 y x).d = fun i => x.v / (y.v * y.v + x.v * x.v) * y.d i
      - y.v / (y.v * y.v + x.v * x.v) * x.d i := by
  have h1 := hy.nd
  have h2 := hx.nd
  have hv := hx.nv
  simp only [atan2, hv, h, Bool.or_true, Bool.and_true]
  cases hn : y.nd <;> cases hm : x.nd <;> simp only [hn, hm] at h1 h2 <;>
    simp_all [gt0, funext_iff]

theorem atan2_dd {y x : Ex ι} (hy : StateOk y) (hx : StateOk x) (h : 2 ≤ Max.max y.dif x.dif) :
    (atan2 y x).dd = fun i j => x.v / (y.v * y.v + x.v * x.v) * y.dd i j
        - y.v / (y.v * y.v + x.v * x.v) * x.dd i j
        + (y.v * y.v - x.v * x.v) / ((y.v * y.v + x.v * x.v) * (y.v * y.v + x.v * x.v))
            * (x.d i * y.d j + y.d i * x.d j)
        - 2 * x.v * y.v / ((y.v * y.v + x.v * x.v) * (y.v * y.v + x.v * x.v))
            * (y.d i * y.d j - x.d i * x.d j) := by
  have h1 := hy.nd
  have h2 := hx.nd
  have h3 := hy.ns
  have h4 := hx.ns
  have hv := hx.nv
  have h0 : 1 ≤ Max.max y.dif x.dif := by omega
  have ey : (if y.nd = true then y.d else gt0) = y.d := by
    cases hn : y.nd
    · rw [(h1 hn).1]; rfl
    · rfl
  have ex : (if x.nd = true then x.d else gt0) = x.d := by
    cases hn : x.nd
    · rw [(h2 hn).1]; rfl
    · rfl
  have ey2 : (if y.ns = true then y.dd else ht0) = y.dd := by
    cases hn : y.ns
    · rw [h3 hn]; rfl
    · rfl
  have ex2 : (if x.ns = true then x.dd else ht0) = x.dd := by
    cases hn : x.ns
    · rw [h4 hn]; rfl
    · rfl
  simp only [atan2, hv, h, h0, Bool.or_true, true_and, and_self, if_true, ey, ex, ey2, ex2]

theorem atan2_zero' {y x : Ex ι} (hy : y.d = 0 ∧ y.dd = 0) (hx : x.d = 0 ∧ x.dd = 0) :
    (atan2 y x).d = 0 ∧ (atan2 y x).dd = 0 := by
  simp only [atan2, hy.1, hy.2, hx.1, hx.2]
  constructor
  · split_ifs <;> funext i <;> simp [gt0]
  · split_ifs <;> funext i j <;> simp [gt0, ht0]

theorem atan2_right {k : Nat} {f g : (ι → ℝ) → ℝ} {x} {a b : Ex ι} (hb : Right k g x b)
    (ha : Right k f x a) (h : 0 < f x ∨ g x ≠ 0) :
    Right k (fun y => Complex.arg ⟨f y, g y⟩) x (atan2 b a) := by
  have hz := both_dif hb ha
  refine right_mk (by simp only [atan2, ha.val, hb.val])
    ((jet_arg ha.jet hb.jet h).cast (fun hk => ?_) fun hk => ?_) ?_ ⟨rfl, ?_, ?_⟩
  · rcases hz with hd | hd
    · rw [atan2_d hb.state ha.state (le_trans hk hd), ha.val, hb.val]
    · rw [(atan2_zero' hd.1 hd.2).1, hd.1.1, hd.2.1]; funext i; simp
  · rcases hz with hd | hd
    · rw [atan2_dd hb.state ha.state (le_trans hk hd), ha.val, hb.val]
    · rw [(atan2_zero' hd.1 hd.2).2, hd.1.1, hd.2.1, hd.1.2, hd.2.2]; funext i j; simp
  · exact hz.imp id fun hd => atan2_zero' hd.1 hd.2
  · intro hn
    have hn : (b.nd || a.nd) = false := hn
    rw [Bool.or_eq_false_iff] at hn
    exact atan2_zero' (hb.state.nd hn.1) (ha.state.nd hn.2)
  · intro hn
    have hn : (b.nd || a.nd) = false := hn
    rw [Bool.or_eq_false_iff] at hn
    exact (atan2_zero' (hb.state.nd hn.1) (ha.state.nd hn.2)).2

omit [Fintype ι] in
theorem accum_eq {n : Nat} (f : Fin n → ℝ) : accum n f = ∑ i, f i := by
  have key : ∀ (l : List (Fin n)) (s : ℝ),
      l.foldl (fun s i => s + f i) s = s + (l.map f).sum := by
    intro l
    induction l with
    | nil => intro s; simp
    | cons a l ih => intro s; simp [ih, add_assoc]
  rw [accum, key, zero_add, Fin.sum_univ_def]

theorem hypot_right {k n : Nat} {f : Fin n → (ι → ℝ) → ℝ} {x} {e : Fin n → Ex ι} {nd ns : Bool}
    (he : ∀ m, Right k (f m) x (e m)) (hnd : ∀ m, (e m).nd = nd) (hns : ∀ m, (e m).ns = ns)
    (h1 : n = 1 → ∀ m, 0 < f m x) (h2 : 2 ≤ n → 0 < ∑ m, f m x ^ 2)
    (hdif : 2 ≤ n → nd = true → ∀ m : Fin n, m.val = 0 → k ≤ (e m).dif) :
    Right k (fun y => Real.sqrt (∑ m, f m y ^ 2)) x (hypot nd ns n e) := by
  match n, f, e, he, hnd, hns, h1, h2, hdif with
  | 0, f, e, he, hnd, hns, h1, h2, hdif =>
    apply const_right 0 <;> simp [hypot] <;> rfl
  | 1, f, e, he, hnd, hns, h1, h2, hdif =>
    have hp := h1 rfl 0
    have h := he 0
    have r : Right k (f 0) x (hypot nd ns 1 e) := by
      refine right_mk h.val h.jet h.dif ⟨rfl, fun hn => ?_, fun hn => ?_⟩
      · exact h.state.nd (by rw [hnd 0]; exact hn)
      · exact (h.state.nd (by rw [hnd 0]; exact hn)).2
    rcases Nat.eq_zero_or_pos k with rfl | hk
    · refine right_mk ?_ jet_zero (Or.inl (Nat.zero_le _)) r.state
      rw [r.val]; simp [Real.sqrt_sq hp.le]
    · refine r.congr ?_
      filter_upwards [(h.jet.cont hk).eventually (lt_mem_nhds hp)] with y hy
      simp [Real.sqrt_sq (le_of_lt hy)]
  | n + 2, f, e, he, hnd, hns, h1, h2, hdif =>
    have hp : 0 < ∑ m, f m x * f m x := by
      have := h2 (by omega)
      simpa only [pow_two] using this
    have hq : 0 < Real.sqrt (∑ m, f m x * f m x) := Real.sqrt_pos.mpr hp
    have hsq := Real.mul_self_sqrt hp.le
    have hv2 : (if n = 0 then (e 0).v * (e 0).v + (e 1).v * (e 1).v
        else accum (n + 2) fun k => (e k).v * (e k).v) = ∑ m, f m x * f m x := by
      split
      · rename_i h0; subst h0
        simp [Fin.sum_univ_two, (he 0).val, (he 1).val]
      · rw [accum_eq]; simp only [(he _).val]
    have hj : Jet k (fun y => Real.sqrt (∑ m, f m y * f m y)) x _ _ :=
      Jet.un (h := Real.sqrt) (h' := fun t => 1 / (2 * Real.sqrt t))
        (h'' := -1 / (4 * Real.sqrt (∑ m, f m x * f m x) * ∑ m, f m x * f m x))
        (by filter_upwards [lt_mem_nhds hp] with t ht using fn_deriv .sqrt ht)
        (fn_deriv2 .sqrt hp) (Jet.sum fun m => (he m).jet.mul (he m).jet)
    have hfun : (fun y => Real.sqrt (∑ m, f m y ^ 2)) = fun y => Real.sqrt (∑ m, f m y * f m y) := by
      funext y; simp only [pow_two]
    rw [hfun]
    have hz : nd = false → (hypot nd ns (n + 2) e).d = 0 ∧ (hypot nd ns (n + 2) e).dd = 0 := by
      rintro rfl
      constructor
      · simp only [hypot, Bool.false_eq_true, false_and, if_false]; rfl
      · simp only [hypot, Bool.false_eq_true, false_and, if_false]; rfl
    refine right_mk ?_ (hj.cast (fun hk => ?_) fun hk => ?_) ?_ ⟨rfl, hz, fun h => (hz h).2⟩
    · simp only [hypot, hv2]
    · cases hn : nd
      · subst hn
        rw [(hz rfl).1]
        have : ∀ m, (e m).d = 0 := fun m => ((he m).state.nd (hnd m)).1
        funext i; simp [this]
      · subst hn
        have hd := hdif (by omega) rfl 0 rfl
        have h1' : 1 ≤ (e 0).dif := by omega
        simp only [hypot, h1', and_self, if_true, hv2]
        simp only [accum_eq, (he _).val]
        funext i
        have hq' := hq.ne'
        have e2 : (∑ m, (f m x * (e m).d i + f m x * (e m).d i)) = 2 * ∑ m, f m x * (e m).d i := by
          rw [Finset.mul_sum]; exact Finset.sum_congr rfl fun m _ => by ring
        rw [e2]
        field_simp
    · cases hn : nd
      · subst hn
        rw [(hz rfl).2]
        have : ∀ m, (e m).d = 0 := fun m => ((he m).state.nd (hnd m)).1
        have h' : ∀ m, (e m).dd = 0 := fun m => ((he m).state.nd (hnd m)).2
        funext i j; simp [this, h']
      · subst hn
        have hd := hdif (by omega) rfl 0 rfl
        have h1' : 1 ≤ (e 0).dif := by omega
        have h2' : 2 ≤ (e 0).dif := by omega
        have hr0 : (if ns = true then fun i j => accum (n + 2) fun k => (e k).v * (e k).dd i j
            else ht0) = fun i j => ∑ m, f m x * (e m).dd i j := by
          cases hs : ns
          · subst hs
            have : ∀ m, (e m).dd = 0 := fun m => (he m).state.ns (hns m)
            funext i j; simp [this, ht0]
          · funext i j; simp [accum_eq, (he _).val]
        simp only [hypot, h1', h2', and_self, if_true, hv2, hr0]
        simp only [accum_eq, (he _).val, tensorSquare]
        funext i j
        have hq' := hq.ne'
        have e2 : ∀ i, (∑ m, (f m x * (e m).d i + f m x * (e m).d i)) = 2 * ∑ m, f m x * (e m).d i := by
          intro i; rw [Finset.mul_sum]; exact Finset.sum_congr rfl fun m _ => by ring
        have e3 : (∑ m, ((e m).d i * (e m).d j + (e m).d j * (e m).d i + f m x * (e m).dd i j
            + f m x * (e m).dd i j)) = 2 * ((∑ m, f m x * (e m).dd i j) + ∑ m, (e m).d i * (e m).d j) := by
          rw [← Finset.sum_add_distrib, Finset.mul_sum]
          exact Finset.sum_congr rfl fun m _ => by ring
        rw [e2, e2, e3]
        generalize (∑ m, f m x * (e m).d i) = A
        generalize (∑ m, f m x * (e m).d j) = B
        generalize (∑ m, f m x * (e m).dd i j) + ∑ m, (e m).d i * (e m).d j = C
        generalize hS : Real.sqrt (∑ m, f m x * f m x) = S at *
        rw [← hsq]
        field_simp
        ring
    · cases hn : nd
      · subst hn; exact Or.inr (hz rfl)
      · subst hn; exact Or.inl (hdif (by omega) rfl 0 rfl)

theorem abs_right {k : Nat} {f : (ι → ℝ) → ℝ} {x} {a : Ex ι} (ha : Right k f x a)
    (hx : f x ≠ 0) : Right k (fun y => |f y|) x (abs a) := by
  have hv := ha.val
  rcases Nat.eq_zero_or_pos k with rfl | hk
  · unfold abs
    split
    · rename_i h
      have r := makeADVal_right ha
      exact right_mk (by rw [r.val, abs_of_nonneg (hv ▸ h)]) jet_zero r.dif r.state
    · rename_i h
      have r := neg_right ha
      exact right_mk (by rw [r.val, abs_of_neg (by rw [← hv]; exact not_le.mp h)]) jet_zero
        r.dif r.state
  · have hc := ha.jet.cont hk
    unfold abs
    rcases lt_or_gt_of_ne hx with h | h
    · rw [if_neg (by rw [hv]; exact not_le.mpr h)]
      refine (neg_right ha).congr ?_
      filter_upwards [hc.eventually (gt_mem_nhds h)] with y hy using abs_of_neg hy
    · rw [if_pos (by rw [hv]; exact h.le)]
      refine (makeADVal_right ha).congr ?_
      filter_upwards [hc.eventually (lt_mem_nhds h)] with y hy using abs_of_pos hy

theorem sign_right {k : Nat} {f : (ι → ℝ) → ℝ} {x} {a : Ex ι} (ha : Right k f x a)
    (hx : f x ≠ 0) : Right k (fun y => Real.sign (f y)) x (sign a) := by
  have hv := ha.val
  have e : (sign a).v = Real.sign (f x) := by
    simp only [sign, hv]
    rcases lt_or_gt_of_ne hx with h | h
    · rw [Real.sign_of_neg h, if_neg (not_lt.mpr h.le), if_pos h]; norm_num
    · rw [Real.sign_of_pos h, if_pos h, if_neg (not_lt.mpr h.le)]; norm_num
  have st : StateOk (sign a) := ⟨rfl, fun _ => ⟨rfl, rfl⟩, fun _ => rfl⟩
  refine right_mk e ?_ (Or.inr ⟨rfl, rfl⟩) st
  rcases Nat.eq_zero_or_pos k with rfl | hk
  · exact jet_zero
  · have hc := ha.jet.cont hk
    refine (jet_const k (Real.sign (f x)) x).congr ?_
    rcases lt_or_gt_of_ne hx with h | h
    · filter_upwards [hc.eventually (gt_mem_nhds h)] with y hy
      rw [Real.sign_of_neg hy, Real.sign_of_neg h]
    · filter_upwards [hc.eventually (lt_mem_nhds h)] with y hy
      rw [Real.sign_of_pos hy, Real.sign_of_pos h]

theorem take_right {k : Nat} {f : (ι → ℝ) → ℝ} {x} {a s : Ex ι} (ha : Right k f x a)
    (hs : s.nv = true) (h1 : s.nd = false → a.nd = false) (h2 : s.ns = false → a.ns = false) :
    Right k f x (take s a) := by
  have hz : a.d = 0 ∧ a.dd = 0 → (take s a).d = 0 ∧ (take s a).dd = 0 := by
    rintro ⟨e1, e2⟩
    constructor
    · simp only [take, e1]; split <;> rfl
    · simp only [take, e2]; split <;> rfl
  refine right_mk ha.val (ha.jet.cast (fun hk => ?_) fun hk => ?_) (ha.dif.imp id hz)
    ⟨hs, fun hn => hz (ha.state.nd (h1 hn)), fun hn => ?_⟩
  · rcases ha.dif with hd | hd
    · have : 1 ≤ a.dif := by omega
      cases hn : a.nd
      · simp only [take, hn, (ha.state.nd hn).1]; split <;> rfl
      · simp only [take, hn, this, and_self, if_true]
    · rw [(hz hd).1, hd.1]
  · rcases ha.dif with hd | hd
    · have : 2 ≤ a.dif := by omega
      cases hn : a.ns
      · simp only [take, hn, ha.state.ns hn]; split <;> rfl
      · simp only [take, hn, this, and_self, if_true]
    · rw [(hz hd).2, hd.2]
  · have := h2 hn
    simp only [take, this, Bool.false_eq_true, false_and, if_false]; rfl

theorem union_flags {a b : Ex ι} (ha : StateOk a) :
    (union a b).nv = true ∧ ((union a b).nd = false → a.nd = false ∧ b.nd = false) ∧
      ((union a b).ns = false → a.ns = false ∧ b.ns = false) := by
  refine ⟨by simp [union, ha.nv], fun h => ?_, fun h => ?_⟩ <;> simpa [union] using h

theorem min_right {k : Nat} {f g : (ι → ℝ) → ℝ} {x} {a b : Ex ι} (ha : Right k f x a)
    (hb : Right k g x b) (hx : f x ≠ g x) :
    Right k (fun y => Min.min (f y) (g y)) x (min a b) := by
  obtain ⟨u0, u1, u2⟩ := union_flags (b := b) ha.state
  have ra := take_right (s := union a b) ha u0 (fun h => (u1 h).1) fun h => (u2 h).1
  have rb := take_right (s := union a b) hb u0 (fun h => (u1 h).2) fun h => (u2 h).2
  unfold min
  rw [ha.val, hb.val]
  rcases lt_or_gt_of_ne hx with h | h
  · rw [if_pos h.le]
    rcases Nat.eq_zero_or_pos k with rfl | hk
    · exact right_mk (by rw [ra.val, min_eq_left h.le]) jet_zero ra.dif ra.state
    · refine ra.congr ?_
      filter_upwards [(ha.jet.cont hk).eventually_lt (hb.jet.cont hk) h] with y hy
        using min_eq_left (le_of_lt hy)
  · rw [if_neg (not_le.mpr h)]
    rcases Nat.eq_zero_or_pos k with rfl | hk
    · exact right_mk (by rw [rb.val, min_eq_right h.le]) jet_zero rb.dif rb.state
    · refine rb.congr ?_
      filter_upwards [(hb.jet.cont hk).eventually_lt (ha.jet.cont hk) h] with y hy
        using min_eq_right (le_of_lt hy)

theorem max_right {k : Nat} {f g : (ι → ℝ) → ℝ} {x} {a b : Ex ι} (ha : Right k f x a)
    (hb : Right k g x b) (hx : f x ≠ g x) :
    Right k (fun y => Max.max (f y) (g y)) x (max a b) := by
  obtain ⟨u0, u1, u2⟩ := union_flags (b := b) ha.state
  have ra := take_right (s := union a b) ha u0 (fun h => (u1 h).1) fun h => (u2 h).1
  have rb := take_right (s := union a b) hb u0 (fun h => (u1 h).2) fun h => (u2 h).2
  unfold max
  rw [ha.val, hb.val]
  rcases lt_or_gt_of_ne hx with h | h
  · rw [if_neg (not_le.mpr h)]
    rcases Nat.eq_zero_or_pos k with rfl | hk
    · exact right_mk (by rw [rb.val, max_eq_right h.le]) jet_zero rb.dif rb.state
    · refine rb.congr ?_
      filter_upwards [(ha.jet.cont hk).eventually_lt (hb.jet.cont hk) h] with y hy
        using max_eq_right (le_of_lt hy)
  · rw [if_pos h.le]
    rcases Nat.eq_zero_or_pos k with rfl | hk
    · exact right_mk (by rw [ra.val, max_eq_left h.le]) jet_zero ra.dif ra.state
    · refine ra.congr ?_
      filter_upwards [(hb.jet.cont hk).eventually_lt (ha.jet.cont hk) h] with y hy
        using max_eq_left (le_of_lt hy)

end Verif.AutoDiff
