import Verif.Lemmas.OrderLeaf

/-!
**C52**: the polynomial orders declared by the spaces and operators are the degrees of what the operators compute.
-/
namespace Verif.Order

open Verif.Spaces Verif.Geometry

/-! ### The functions of composed spaces -/

section
variable {T : Nat → Nat → ℝ} (hv : Nondeg T)
include hv

mutual
theorem fns_upper : ∀ F : Fem, Wf F → ∀ φ ∈ Fns T F, ∀ k, k < dim F → PolyLE (rtIden F) fun x => φ x k
  | .leaf s, _, φ, hφ, k, hk => by
    rw [Fns] at hφ
    rw [dim] at hk
    rw [rtIden]
    exact leaf_upper hv s hφ hk
  | .vec n b, hw, φ, hφ, k, hk => by
    rw [Wf] at hw
    rw [Fns] at hφ
    obtain ⟨ψ, hψ, j, hj, e⟩ := hφ
    rw [dim] at hk
    rw [rtIden]
    have hd : 0 < dim b := by
      rcases Nat.eq_zero_or_pos (dim b) with h | h
      · rw [h, Nat.mul_zero] at hk; omega
      · exact h
    by_cases hkj : k / dim b = j
    · exact (fns_upper b hw.2 ψ hψ (k % dim b) (Nat.mod_lt _ hd)).congr fun x => by rw [e x k hk, if_pos hkj]
    · exact (PolyLE.const _ 0).congr fun x => by rw [e x k hk, if_neg hkj]
  | .com .nil, hw, φ, hφ, k, hk => by rw [Wf] at hw; exact hw.elim
  | .com (.cons h t), hw, φ, hφ, k, hk => by
    rw [Wf] at hw
    rw [Fns] at hφ
    rw [rtIden]
    exact com_upper (.cons h t) 0 (by rw [WfAll]; exact hw) φ hφ k
  | .union .nil, hw, φ, hφ, k, hk => by rw [Wf] at hw; exact hw.elim
  | .union (.cons h t), hw, φ, hφ, k, hk => by
    rw [Wf] at hw
    rw [Fns] at hφ
    rw [rtIden]
    rw [dim, dimFirst] at hk
    exact union_upper (.cons h t) (dim h) (by rw [WfAll]; exact ⟨hw.1, hw.2.1⟩) (by rw [SameDim]; exact ⟨rfl, hw.2.2⟩) φ hφ k hk
theorem com_upper : ∀ (l : Fems) (d : Nat), WfAll l → ∀ φ ∈ comFns T d l, ∀ k, PolyLE (rtIdenMax l) fun x => φ x k
  | .nil, d, _, φ, hφ, k => by rw [comFns] at hφ; exact hφ.elim
  | .cons h t, d, hw, φ, hφ, k => by
    rw [WfAll] at hw
    rw [comFns] at hφ
    rw [rtIdenMax]
    rcases hφ with ⟨ψ, hψ, e⟩ | hφ
    · by_cases hk : d ≤ k ∧ k < d + dim h
      · exact ((fns_upper h hw.1 ψ hψ (k - d) (by omega)).congr fun x => by rw [e x k, if_pos hk]).mono (le_max_left _ _)
      · exact (PolyLE.const _ 0).congr fun x => by rw [e x k, if_neg hk]
    · exact (com_upper t _ hw.2 φ hφ k).mono (le_max_right _ _)
theorem union_upper : ∀ (l : Fems) (d : Nat), WfAll l → SameDim d l → ∀ φ ∈ unionFns T l, ∀ k, k < d →
    PolyLE (rtIdenMax l) fun x => φ x k
  | .nil, d, _, _, φ, hφ, k, _ => by rw [unionFns] at hφ; exact hφ.elim
  | .cons h t, d, hw, hs, φ, hφ, k, hk => by
    rw [WfAll] at hw
    rw [SameDim] at hs
    rw [unionFns] at hφ
    rw [rtIdenMax]
    rcases hφ with hφ | hφ
    · exact (fns_upper h hw.1 φ hφ k (by omega)).mono (le_max_left _ _)
    · exact (union_upper t d hw.2 hs.2 φ hφ k hk).mono (le_max_right _ _)
end

mutual
theorem fns_lower : ∀ (F : Fem) (m : Nat), Wf F → (∀ φ ∈ Fns T F, ∀ k, k < dim F → PolyLE m fun x => φ x k) → rtIden F ≤ m
  | .leaf s, m, _, h => by
    rw [Fns, dim] at h
    rw [rtIden]
    exact leaf_lower hv s h
  | .vec n b, m, hw, h => by
    rw [Wf] at hw
    rw [Fns, dim] at h
    rw [rtIden]
    refine fns_lower b m hw.2 fun ψ hψ k hk => ?_
    have hk' : k < n * dim b := lt_of_lt_of_le hk (Nat.le_mul_of_pos_left _ hw.1)
    have := h (fun x k => if k / dim b = 0 then ψ x (k % dim b) else 0) ⟨ψ, hψ, 0, hw.1, fun _ _ _ => rfl⟩ k hk'
    exact this.congr fun x => by rw [if_pos (Nat.div_eq_of_lt hk), Nat.mod_eq_of_lt hk]
  | .com .nil, m, hw, h => by rw [Wf] at hw; exact hw.elim
  | .com (.cons a t), m, hw, h => by
    rw [Wf] at hw
    rw [Fns, dim] at h
    rw [rtIden]
    exact com_lower (.cons a t) 0 m (by rw [WfAll]; exact hw) fun φ hφ k hk1 hk2 => h φ hφ k (by omega)
  | .union .nil, m, hw, h => by rw [Wf] at hw; exact hw.elim
  | .union (.cons a t), m, hw, h => by
    rw [Wf] at hw
    rw [Fns, dim, dimFirst] at h
    rw [rtIden]
    exact union_lower (.cons a t) (dim a) m (by rw [WfAll]; exact ⟨hw.1, hw.2.1⟩) (by rw [SameDim]; exact ⟨rfl, hw.2.2⟩) h
theorem com_lower : ∀ (l : Fems) (d m : Nat), WfAll l →
    (∀ φ ∈ comFns T d l, ∀ k, d ≤ k → k < d + dimSum l → PolyLE m fun x => φ x k) → rtIdenMax l ≤ m
  | .nil, d, m, _, _ => by rw [rtIdenMax]; exact Nat.zero_le m
  | .cons a t, d, m, hw, h => by
    rw [WfAll] at hw
    rw [comFns, dimSum] at h
    rw [rtIdenMax]
    refine max_le ?_ ?_
    · refine fns_lower a m hw.1 fun ψ hψ k hk => ?_
      have := h (fun x k => if d ≤ k ∧ k < d + dim a then ψ x (k - d) else 0) (Or.inl ⟨ψ, hψ, fun _ _ => rfl⟩) (d + k)
        (by omega) (by omega)
      exact this.congr fun x => by rw [if_pos ⟨by omega, by omega⟩, Nat.add_sub_cancel_left]
    · exact com_lower t (d + dim a) m hw.2 fun φ hφ k hk1 hk2 => h φ (Or.inr hφ) k (by omega) (by omega)
theorem union_lower : ∀ (l : Fems) (d m : Nat), WfAll l → SameDim d l →
    (∀ φ ∈ unionFns T l, ∀ k, k < d → PolyLE m fun x => φ x k) → rtIdenMax l ≤ m
  | .nil, d, m, _, _, _ => by rw [rtIdenMax]; exact Nat.zero_le m
  | .cons a t, d, m, hw, hs, h => by
    rw [WfAll] at hw
    rw [SameDim] at hs
    rw [unionFns] at h
    rw [rtIdenMax]
    refine max_le ?_ ?_
    · exact fns_lower a m hw.1 fun φ hφ k hk => h φ (Or.inl hφ) k (by omega)
    · exact union_lower t d m hw.2 hs.2 fun φ hφ k hk => h φ (Or.inr hφ) k hk
end

/-- the entries of a differential operator have degree less by one -/
theorem entries_upper {F : Fem} (hw : Wf F) {op : OpT} (hop : op ≠ .iden) : Suffices (Entries op F T) (rtIden F - 1) := by
  have hu := fns_upper hv F hw
  intro g hg
  cases op with
  | iden => exact (hop rfl).elim
  | grad =>
    obtain ⟨φ, hφ, k, c, hk, hc, hd⟩ := hg
    exact (hu φ hφ k hk).der hc hd
  | dudx c =>
    obtain ⟨φ, hφ, k, hk, hc, hd⟩ := hg
    exact (hu φ hφ k hk).der hc hd
  | div =>
    obtain ⟨φ, hφ, b, g0, g1, g2, hb, h0, h1, h2, e⟩ := hg
    rw [e]
    exact (((hu φ hφ _ (by omega)).der (by omega) h0).add ((hu φ hφ _ (by omega)).der (by omega) h1)).add
      ((hu φ hφ _ hb).der (by omega) h2)
  | curl =>
    obtain ⟨φ, hφ, b, i, j, g1, g2, hb, hi, hj, -, h1, h2, e⟩ := hg
    rw [e]
    exact ((hu φ hφ _ (by omega)).der hj h1).sub ((hu φ hφ _ (by omega)).der hi h2)

/-! ### Run-time spaces -/

/-- **C52** `order()` of a run-time space, composed in any way, is the least degree of its functions on every nondegenerate
tetrahedron. -/
theorem rt_iden_degree {F : Fem} (hw : Wf F) : Degree (Entries .iden F T) (rtOrder .iden F) := by
  refine ⟨?_, fun m hm => ?_⟩
  · rintro g ⟨φ, hφ, k, hk, rfl⟩
    exact fns_upper hv F hw φ hφ k hk
  · exact fns_lower hv F m hw fun φ hφ k hk => hm _ ⟨φ, hφ, k, hk, rfl⟩

omit hv in
theorem orderDiff_eq (n : Nat) : orderDiff n = n - 1 := by
  unfold orderDiff
  split <;> omega

/-- **C52** `orderGRAD()` is the least degree of the derivatives of its functions. -/
theorem rt_grad_degree {F : Fem} (hw : Wf F) : Degree (Entries .grad F T) (rtOrder .grad F) := by
  rw [rtOrder, orderDiff_eq]
  refine ⟨entries_upper hv hw (by simp), fun m hm => ?_⟩
  have := fns_lower hv F (m + 1) hw fun φ hφ k hk =>
    (fns_upper hv F hw φ hφ k hk).ofDer fun c hc g hg => hm g ⟨φ, hφ, k, c, hk, hc, hg⟩
  omega

omit hv in
mutual
theorem rtDudx_eq : ∀ F : Fem, rtDudx F = rtIden F - 1
  | .leaf s => by rw [rtDudx, rtIden, orderDiff_eq]
  | .vec n b => by rw [rtDudx, rtIden, rtDudx_eq b]
  | .com l => by rw [rtDudx, rtIden, rtDudxMax_eq l]
  | .union l => by rw [rtDudx, rtIden, rtDudxMax_eq l]
theorem rtDudxMax_eq : ∀ l : Fems, rtDudxMax l = rtIdenMax l - 1
  | .nil => by rw [rtDudxMax, rtIdenMax]
  | .cons h t => by rw [rtDudxMax, rtIdenMax, rtDudx_eq h, rtDudxMax_eq t]; omega
end

/-- **C52** `orderDUDX(c)` suffices for the derivatives with respect to each coordinate. -/
theorem rt_dudx_suffices {F : Fem} (hw : Wf F) (c : Nat) : Suffices (Entries (.dudx c) F T) (rtOrder (.dudx c) F) := by
  rw [rtOrder, rtDudx_eq]
  exact entries_upper hv hw (by simp)

omit hv in
theorem Suffices.mono {S : Set ((Nat → ℝ) → ℝ)} {n m : Nat} (h : Suffices S n) (hm : n ≤ m) : Suffices S m :=
  fun ψ hψ => (h ψ hψ).mono hm

/-- **C52** `orderDIV()` and `orderCURL()` suffice for spaces of functions of degree at most one. -/
theorem rt_div_partial {F : Fem} (hw : Wf F) (h1 : rtOrder .iden F ≤ 1) : Suffices (Entries .div F T) (rtOrder .div F) ∧
    Suffices (Entries .curl F T) (rtOrder .curl F) := by
  rw [rtOrder] at h1
  exact ⟨(entries_upper hv hw (by simp)).mono (by omega), (entries_upper hv hw (by simp)).mono (by omega)⟩

omit hv in
theorem zero_der (x : Nat → ℝ) (c : Nat) : HasPartial (fun _ => (0 : ℝ)) x c 0 := hasDerivAt_const 0 0

omit hv in
theorem vec3_rtDiv {s : Space} (hs : leafDim s = 1) : rtDiv (.vec 3 (.leaf s)) = 0 := by
  rw [rtDiv, rtDiv, hs]; rfl

omit hv in
/-- the field with a function of a scalar space in component `j` -/
theorem vec3_fn {s : Space} (hs : leafDim s = 1) {φ : Field} (hφ : φ ∈ leafFns T s) {j : Nat} (hj : j < 3) :
    (fun x k => if k = j then φ x 0 else 0) ∈ Fns T (.vec 3 (.leaf s)) := by
  rw [Fns]
  refine ⟨φ, by rw [Fns]; exact hφ, j, hj, fun x k hk => ?_⟩
  rw [dim, hs, Nat.div_one, Nat.mod_one]

/-- **C52** The vector of three copies of a scalar space of degree two or more declares degree zero for its divergence and its curl,
which are not constant. -/
theorem rt_div_wrong {s : Space} (hs : leafDim s = 1) (h2 : 2 ≤ idenOrder s) :
    ¬ Suffices (Entries .div (.vec 3 (.leaf s)) T) (rtOrder .div (.vec 3 (.leaf s))) ∧
    ¬ Suffices (Entries .curl (.vec 3 (.leaf s)) T) (rtOrder .curl (.vec 3 (.leaf s))) := by
  have hd : dim (.vec 3 (.leaf s)) = 3 := by rw [dim, dim, hs]
  have key : (∀ φ ∈ leafFns T s, ∀ c, c < 3 → ∀ g : (Nat → ℝ) → ℝ, (∀ x, HasPartial (fun y => φ y 0) x c (g x)) → PolyLE 0 g) → False := by
    intro h
    have := leaf_lower hv s (m := 1) fun φ hφ k hk => by
      obtain rfl : k = 0 := by omega
      exact (leaf_upper hv s hφ hk).ofDer (h φ hφ)
    omega
  constructor
  · intro h
    rw [rtOrder, vec3_rtDiv hs] at h
    refine key fun φ hφ c hc g hg => h g ?_
    refine ⟨_, vec3_fn hs hφ hc, 0, fun x => if c = 0 then g x else 0, fun x => if c = 1 then g x else 0,
      fun x => if c = 2 then g x else 0, by omega, ?_, ?_, ?_, ?_⟩
    · intro x
      interval_cases c
      · simpa using hg x
      · simpa using zero_der x 0
      · simpa using zero_der x 0
    · intro x
      interval_cases c
      · simpa using zero_der x 1
      · simpa using hg x
      · simpa using zero_der x 1
    · intro x
      interval_cases c
      · simpa using zero_der x 2
      · simpa using zero_der x 2
      · simpa using hg x
    · funext x
      interval_cases c <;> simp
  · intro h
    rw [rtOrder, vec3_rtDiv hs] at h
    refine key fun φ hφ c hc g hg => h g ?_
    have hne : (c + 1) % 3 ≠ c := by interval_cases c <;> decide
    refine ⟨_, vec3_fn hs hφ (Nat.mod_lt (c + 1) (by omega : 0 < 3)), 0, (c + 1) % 3, c, g, fun _ => 0, by omega,
      Nat.mod_lt _ (by omega), hc, hne, ?_, ?_, ?_⟩
    · intro x
      simpa using hg x
    · intro x
      rw [Nat.mul_zero, Nat.zero_add]
      simp only [if_neg (fun e : c = (c + 1) % 3 => hne e.symm)]
      exact zero_der x _
    · funext x; simp

/-! ### Compile-time spaces -/

omit hv in
theorem grad_iden (s : Space) : gradOrder s = idenOrder s - 1 := by cases s <;> rfl

/-- **C52** The constants `Order` of the simple spaces: those of IDEN and GRAD are the degrees, those of the other operators suffice. -/
theorem fix_order {s : Space} : Degree (Entries .iden (.leaf s) T) (idenOrder s) ∧ Degree (Entries .grad (.leaf s) T) (gradOrder s) ∧
    ∀ op n, fixOrder op s = some n → Suffices (Entries op (.leaf s) T) n := by
  have hw : Wf (.leaf s) := by rw [Wf]; trivial
  have h1 := rt_iden_degree hv hw
  have h2 := rt_grad_degree hv hw
  rw [rtOrder, rtIden] at h1
  rw [rtOrder, rtIden, orderDiff_eq, ← grad_iden] at h2
  refine ⟨h1, h2, fun op n hn => ?_⟩
  by_cases hop : op = .iden
  · subst hop
    rw [fixOrder, Option.some.injEq] at hn
    rw [← hn]; exact h1.1
  · refine (entries_upper hv hw hop).mono ?_
    rw [rtIden]
    cases s <;> cases op <;> simp_all [fixOrder, gradOrder, idenOrder] <;> omega

omit hv in
/-- how much less the degree of the entries is -/
def less (op : OpT) : Nat := if op = .iden then 0 else 1

omit hv in
theorem fix_less {op : OpT} {s : Space} {n : Nat} (h : fixOrder op s = some n) : idenOrder s - less op ≤ n := by
  cases s <;> cases op <;> simp_all [fixOrder, gradOrder, idenOrder, less] <;> omega

omit hv in
mutual
theorem ct_less (op : OpT) : ∀ (F : Fem) (n : Nat), ComOk op F → ctOrder op F = some n → rtIden F - less op ≤ n
  | .leaf s, n, _, h => by rw [ctOrder] at h; rw [rtIden]; exact fix_less h
  | .vec d (.leaf s), n, _, h => by
    rw [ctOrder] at h
    rw [rtIden, rtIden]
    split at h
    · next hop =>
      split at h
      · have := fix_less h
        have e : less op = 1 := by rcases hop with rfl | rfl <;> rfl
        rw [e]
        exact this
      · simp at h
    · exact fix_less h
  | .vec d (.vec e b), n, hc, h => by
    rw [ctOrder] at h
    split at h
    · simp at h
    · rw [ComOk] at hc
      rw [rtIden]
      exact ct_less op (.vec e b) n hc h
    · exact fun s => by simp
  | .vec d (.com l), n, hc, h => by
    rw [ctOrder] at h
    split at h
    · simp at h
    · rw [ComOk] at hc
      rw [rtIden]
      exact ct_less op (.com l) n hc h
    · exact fun s => by simp
  | .vec d (.union l), n, hc, h => by
    rw [ctOrder] at h
    split at h
    · simp at h
    · rw [ComOk] at hc
      rw [rtIden]
      exact ct_less op (.union l) n hc h
    · exact fun s => by simp
  | .com .nil, n, _, _ => by rw [rtIden, rtIdenMax]; omega
  | .com (.cons a t), n, hc, h => by
    rw [ComOk] at hc
    obtain ⟨ha, n', hn', ht⟩ := hc
    rw [h, Option.some.injEq] at hn'
    subst hn'
    have h2 := tail_less op t n ht
    rw [ctOrder] at h
    split at h
    · simp at h
    · rw [Option.map_eq_some_iff] at h
      obtain ⟨o, ho, e⟩ := h
      have h1 := ct_less op a o ha ho
      rw [rtIden, rtIdenMax]
      have := le_max_left o (dimCounter op t)
      omega
  | .union l, n, hc, h => by
    rw [ComOk] at hc
    rw [ctOrder] at h
    rw [rtIden]
    exact union_less op l n hc h
theorem tail_less (op : OpT) : ∀ (l : Fems) (n : Nat), TailOk op n l → rtIdenMax l - less op ≤ n
  | .nil, n, _ => by rw [rtIdenMax]; omega
  | .cons h t, n, hc => by
    rw [TailOk] at hc
    obtain ⟨hh, ⟨o, ho, hle⟩, ht⟩ := hc
    have h1 := ct_less op h o hh ho
    have h2 := tail_less op t n ht
    rw [rtIdenMax]
    omega
theorem union_less (op : OpT) : ∀ (l : Fems) (n : Nat), AllOk op l → ctUnion op l = some n → rtIdenMax l - less op ≤ n
  | .nil, n, _, _ => by rw [rtIdenMax]; omega
  | .cons h t, n, hc, hu => by
    rw [AllOk] at hc
    rw [ctUnion] at hu
    simp only [Option.bind_eq_bind, Option.bind_eq_some_iff, Option.some.injEq] at hu
    obtain ⟨a, ha, b, hb, e⟩ := hu
    have h1 := ct_less op h a hc.1 ha
    have h2 := union_less op t b hc.2 hb
    rw [rtIdenMax]
    omega
end

/-- **C52** The constants `Order` of compile-time spaces suffice, whatever the composition, if no member of a product after the
first exceeds the order declared for the product.  Missing: products in general, see `ct_com_wrong`. -/
theorem ct_order_partial {op : OpT} {F : Fem} (hw : Wf F) (hc : ComOk op F) {n : Nat} (h : ctOrder op F = some n) :
    Suffices (Entries op F T) n := by
  have hle := ct_less op F n hc h
  by_cases hop : op = .iden
  · subst hop
    have := (rt_iden_degree hv hw).1
    rw [rtOrder] at this
    exact Suffices.mono this (by simpa [less] using hle)
  · rw [less, if_neg hop] at hle
    exact (entries_upper hv hw hop).mono hle

omit hv in
theorem fix_eq {op : OpT} (hop : op = .iden ∨ op = .grad) {s : Space} {n : Nat} (h : fixOrder op s = some n) :
    n = idenOrder s - less op := by
  rcases hop with rfl | rfl <;> cases s <;> simp_all [fixOrder, gradOrder, idenOrder, less] <;> omega

omit hv in
mutual
theorem ct_eq {op : OpT} (hop : op = .iden ∨ op = .grad) : ∀ (F : Fem) (n : Nat), NoCom F → ctOrder op F = some n →
    n = rtIden F - less op
  | .leaf s, n, _, h => by rw [ctOrder] at h; rw [rtIden]; exact fix_eq hop h
  | .vec d (.leaf s), n, _, h => by
    rw [ctOrder, if_neg (by rcases hop with rfl | rfl <;> simp)] at h
    rw [rtIden, rtIden]
    exact fix_eq hop h
  | .vec d (.vec e b), n, hc, h => by
    rw [ctOrder, if_neg (by rcases hop with rfl | rfl <;> simp)] at h
    · rw [NoCom] at hc
      rw [rtIden]
      exact ct_eq hop (.vec e b) n hc h
    · exact fun s => by simp
  | .vec d (.com l), n, hc, h => by rw [NoCom, NoCom] at hc; exact hc.elim
  | .vec d (.union l), n, hc, h => by
    rw [ctOrder, if_neg (by rcases hop with rfl | rfl <;> simp)] at h
    · rw [NoCom] at hc
      rw [rtIden]
      exact ct_eq hop (.union l) n hc h
    · exact fun s => by simp
  | .com l, n, hc, _ => by rw [NoCom] at hc; exact hc.elim
  | .union l, n, hc, h => by
    rw [NoCom] at hc
    rw [ctOrder] at h
    rw [rtIden]
    exact union_eq hop l n hc h
theorem union_eq {op : OpT} (hop : op = .iden ∨ op = .grad) : ∀ (l : Fems) (n : Nat), NoComAll l → ctUnion op l = some n →
    n = rtIdenMax l - less op
  | .nil, n, _, h => by rw [ctUnion, Option.some.injEq] at h; rw [rtIdenMax]; omega
  | .cons a t, n, hc, h => by
    rw [NoComAll] at hc
    rw [ctUnion] at h
    simp only [Option.bind_eq_bind, Option.bind_eq_some_iff, Option.some.injEq] at h
    obtain ⟨o, ha, b, hb, e⟩ := h
    have h1 := ct_eq hop a o hc.1 ha
    have h2 := union_eq hop t b hc.2 hb
    rw [rtIdenMax]
    omega
end

/-- **C52** The constants `Order` of IDEN and GRAD of compile-time spaces without products are the least degrees.  Missing: products,
whose declared order may be too small (`ct_com_wrong`) and too great. -/
theorem ct_degree_partial {F : Fem} (hw : Wf F) (hc : NoCom F) {n : Nat} :
    (ctOrder .iden F = some n → Degree (Entries .iden F T) n) ∧ (ctOrder .grad F = some n → Degree (Entries .grad F T) n) := by
  refine ⟨fun h => ?_, fun h => ?_⟩
  · rw [ct_eq (Or.inl rfl) F n hc h]
    exact rt_iden_degree hv hw
  · rw [ct_eq (Or.inr rfl) F n hc h]
    have := rt_grad_degree hv hw
    rwa [rtOrder, orderDiff_eq] at this

/-- **C52** The order declared for a product of a simple space and a simple scalar space is too small whenever the degree of the second is greater
than that of the first and than one. -/
theorem ct_com_wrong {a b : Space} (hb : leafDim b = 1) (h1 : idenOrder a < idenOrder b) (h2 : 1 < idenOrder b) :
    ∃ n, ctOrder .iden (.com (.cons (.leaf a) (.cons (.leaf b) .nil))) = some n ∧
      ¬ Suffices (Entries .iden (.com (.cons (.leaf a) (.cons (.leaf b) .nil))) T) n := by
  have hw : Wf (.com (.cons (.leaf a) (.cons (.leaf b) .nil))) := by simp [Wf, WfAll]
  refine ⟨max (idenOrder a) 1, ?_, fun h => ?_⟩
  · simp [ctOrder, fixOrder, dimCounter, opDim, dim, hb]
  · have := (rt_iden_degree hv hw).2 h
    rw [rtOrder, rtIden, rtIdenMax, rtIdenMax, rtIdenMax, rtIden, rtIden] at this
    omega

end

/-! ### Cases meeting the hypotheses -/

/-- the MINI space: vector of P1 enriched by the cell bubble, with the pressure P1 -/
def mini : Fem := .com (.cons (.vec 3 (.union (.cons (.leaf .p1) (.cons (.leaf .b4) .nil)))) (.cons (.leaf .p1) .nil))

theorem mini_wf : Wf mini := by simp [mini, Wf, WfAll, SameDim, dim, leafDim]

example : rtOrder .iden mini = 4 ∧ rtOrder .grad mini = 3 ∧ rtOrder (.dudx 1) mini = 3 ∧ rtOrder .div mini = 0 := by
  simp [mini, rtOrder, rtIden, rtIdenMax, idenOrder, orderDiff, rtDudx, rtDudxMax, rtDiv, rtDivMax, leafDim]

example : Degree (Entries .iden mini sampleT) 4 := by
  have := rt_iden_degree sampleT_nondeg mini_wf
  rwa [show rtOrder .iden mini = 4 by simp [mini, rtOrder, rtIden, rtIdenMax, idenOrder]] at this

example : ComOk .grad mini ∧ ctOrder .grad mini = some 3 := by
  simp [mini, ComOk, TailOk, AllOk, ctOrder, ctUnion, fixOrder, gradOrder, dimCounter, opDim, dim, leafDim]

example : NoCom (.vec 3 (.union (.cons (.leaf .p1) (.cons (.leaf .b4) .nil)))) ∧
    ctOrder .iden (.vec 3 (.union (.cons (.leaf .p1) (.cons (.leaf .b4) .nil)))) = some 4 := by
  simp [NoCom, NoComAll, ctOrder, ctUnion, fixOrder, idenOrder]

example : rtOrder .iden (.union (.cons (.leaf .rt0) (.cons (.vec 3 (.leaf .p0)) .nil))) ≤ 1 ∧
    Wf (.union (.cons (.leaf .rt0) (.cons (.vec 3 (.leaf .p0)) .nil))) := by
  simp [rtOrder, rtIden, rtIdenMax, idenOrder, Wf, WfAll, SameDim, dim, leafDim]

example : leafDim .p2 = 1 ∧ 2 ≤ idenOrder .p2 ∧ leafDim .p1 = 1 ∧ idenOrder .p1 < idenOrder .p2 := by decide

example : fixOrder .div .nd0 = some 0 ∧ fixOrder (.dudx 2) .b4 = some 3 := by decide

/-- two spaces of degree one whose product declares degree three -/
example : ctOrder .iden (.com (.cons (.leaf .p1) (.cons (.vec 3 (.leaf .p1)) .nil))) = some 3 := by
  simp [ctOrder, fixOrder, dimCounter, opDim, dim, leafDim, idenOrder]

end Verif.Order
