import Verif.Spec.Eval
import Verif.Props.Driver2
import Verif.Props.ElementalApply

/-!
**C55**: the evaluation drivers give the values of operators on finite element functions.
-/
namespace Verif.Eval

open Verif.Dense Verif.Spaces Verif.Order Verif.SpaceOp Verif.Driver

/-! ### Operators are linear -/

theorem partial_comb {nf : Nat} {φ : Nat → (Nat → ℝ) → ℝ} {c d : Nat → ℝ} {x : Nat → ℝ} {j : Nat}
    (h : ∀ i, i < nf → HasPartial (φ i) x j (d i)) :
    HasPartial (fun y => ∑ i ∈ Finset.range nf, c i * φ i y) x j (∑ i ∈ Finset.range nf, c i * d i) := by
  have := HasDerivAt.fun_sum (u := Finset.range nf) (A := fun i t => c i * φ i fun k => x k + t * if k = j then 1 else 0) (A' := fun i => c i * d i)
    (x := (0 : ℝ)) fun i hi => (h i (Finset.mem_range.1 hi)).const_mul (c i)
  exact this

theorem entry_comb {op : OpT} {nf : Nat} {φ : Nat → Field} {c w : Nat → ℝ} {x : Nat → ℝ} {l : Nat} (h : ∀ i, i < nf → Entry op (φ i) x l (w i)) :
    Entry op (comb nf φ c) x l (∑ i ∈ Finset.range nf, c i * w i) := by
  cases op with
  | iden =>
    exact Finset.sum_congr rfl fun i hi => by rw [show w i = φ i x l from h i (Finset.mem_range.1 hi)]
  | grad => exact partial_comb (φ := fun i y => φ i y (l / 3)) h
  | dudx k => exact partial_comb (φ := fun i y => φ i y l) h
  | div =>
    have h' : ∀ i, ∃ d : Nat → ℝ, i < nf → (∀ j, j < 3 → HasPartial (fun y => φ i y j) x j (d j)) ∧ w i = d 0 + d 1 + d 2 := by
      intro i
      by_cases hi : i < nf
      · obtain ⟨d, hd⟩ := h i hi
        exact ⟨d, fun _ => hd⟩
      · exact ⟨fun _ => 0, fun hi' => absurd hi' hi⟩
    choose d hd using h'
    refine ⟨fun j => ∑ i ∈ Finset.range nf, c i * d i j, fun j hj => partial_comb fun i hi => (hd i hi).1 j hj, ?_⟩
    rw [← Finset.sum_add_distrib, ← Finset.sum_add_distrib]
    exact Finset.sum_congr rfl fun i hi => by rw [(hd i (Finset.mem_range.1 hi)).2]; ring
  | curl =>
    have h' : ∀ i, ∃ a b : ℝ, i < nf → HasPartial (fun y => φ i y ((l + 2) % 3)) x ((l + 1) % 3) a ∧
        HasPartial (fun y => φ i y ((l + 1) % 3)) x ((l + 2) % 3) b ∧ w i = a - b := by
      intro i
      by_cases hi : i < nf
      · obtain ⟨a, b, hab⟩ := h i hi
        exact ⟨a, b, fun _ => hab⟩
      · exact ⟨0, 0, fun hi' => absurd hi' hi⟩
    choose a b hab using h'
    refine ⟨∑ i ∈ Finset.range nf, c i * a i, ∑ i ∈ Finset.range nf, c i * b i, partial_comb fun i hi => (hab i hi).1,
      partial_comb fun i hi => (hab i hi).2.1, ?_⟩
    rw [← Finset.sum_sub_distrib]
    exact Finset.sum_congr rfl fun i hi => by rw [(hab i (Finset.mem_range.1 hi)).2.2]; ring

/-! ### From the matrix of an operator to the values -/

section
variable {m : Mem ℝ} {T x : Nat → Nat → Nat → ℝ} {op : OpT} {F : Fem} {v : OpStack.Vals ℝ}

/-- the values of the operator for the degrees of freedom of tetrahedron `r` -/
theorem applied_entry {U : Elemental.Band ℝ} {q f : Nat} (hv : ∀ l, l < opDim op (dim F) → ∀ n, n < q → ∀ i, i < nfa F → ∀ r, r < f → U.val q l n i r = v l n i r)
    (ha : Applied q f T x op F v) {r : Nat} (hr : r < f) {φ : Nat → Field} (hφ : Basis (T r) F φ) (dofs : Nat → ℝ) {l n : Nat}
    (hl : l < opDim op (dim F)) (hn : n < q) :
    Entry op (comb (nfa F) φ fun i => dofs (i + nfa F * r)) (x r n) l (Elemental.applied U q (nfa F) dofs l n r) := by
  have h := entry_comb (c := fun i => dofs (i + nfa F * r)) fun i hi => ha l hl n hn i hi r hr (φ i) (hφ i hi)
  convert h using 1
  unfold Elemental.applied
  refine Finset.sum_congr rfl fun i hi => ?_
  rw [hv l hl n hn i (Finset.mem_range.1 hi) r hr, mul_comm]

end

/-! ### What the drivers prepare -/

section
variable (T : Nat → Nat → Nat → ℝ) (a : Arr ℝ)

/-- **C55** `fem3DapplyL`: the points are those with the barycentric coordinates of the user. -/
theorem setL_right (tensor : Bool) (L : Nat → ℝ) {nl f : Nat} (hq : 0 < nl / 4) (hf : 0 < f) (hT : ∀ r, r < f → Nondeg (T r))
    (hL : ∀ n, n < nl / 4 → L (4 * n) + L (4 * n + 1) + L (4 * n + 2) + L (4 * n + 3) = 1) :
    ∃ vol w, Prepared (setL tensor L nl f T a) (nl / 4) f T (fun r n => mix (T r) fun c => L (4 * n + c)) vol w ∧
      (tensor = true → (∀ r, r < f → vol r = 1) ∧ ∀ n, n < nl / 4 → w n = 1) := by
  have h := initGeom_prepared T { a with q := nl / 4, f := f, xyl := L, wg := if tensor then fillN (nl / 4) 1 a.wg else a.wg } hq hf hT hL
  cases tensor with
  | false => exact ⟨_, _, h, nofun⟩
  | true =>
    exact ⟨fun _ => 1, _, h.measure fun r hr => fillN_at _ _ hr, fun _ => ⟨fun _ _ => rfl, fun n hn => fillN_at _ _ hn⟩⟩

/-- **C55** `fem3DapplyX`: the points are those of the user, if `XYL` has place for them. -/
theorem setX_right (tensor again : Bool) (X : Nat → ℝ) {q cap : Nat} (hq : 0 < q) (hcap : 4 * q ≤ cap) (hT : Nondeg (T 0)) :
    ∃ a' vol w, setX tensor again cap X q T a = .ok a' ∧ Prepared a' q 1 T (fun _ n k => X (3 * n + k)) vol w ∧
      (tensor = true → vol 0 = 1 ∧ ∀ n, n < q → w n = 1) := by
  have D := initTet_done T { a with q := q, f := 1 }
  unfold setX
  simp only []
  generalize hg : initTet T { a with q := q, f := 1 } = g at D
  obtain ⟨xyl, hb, hx⟩ := baryAll_at (T 0 0) X g.psi g.xyl (nx := q) (q := q) hcap
  rw [hb]
  have bary : ∀ n, n < q → Geometry.IsBary (T 0 0) (T 0 1) (T 0 2) (T 0 3) (fun k => X (3 * n + k)) fun c => xyl (4 * n + c) := by
    intro n hn
    obtain ⟨junk, hj⟩ := D.psi 0 Nat.one_pos
    have h0 : Geometry.IsBary (T 0 0) (T 0 1) (T 0 2) (T 0 3) (fun k => X (3 * n + k)) _ :=
      Geometry.baryCoordPsi_correct (T 0 0) (T 0 1) (T 0 2) (T 0 3) (fun k => X (3 * n + k)) junk hT
    have e : ∀ c, c < 4 → xyl (4 * n + c) = Geometry.baryCoordPsi (T 0 0) (fun k => X (3 * n + k))
        (Geometry.tetGeom (T 0 0) (T 0 1) (T 0 2) (T 0 3) junk).psi c := by
      intro c hc
      rw [hx n (by omega) hn c hc]
      simp only [fun i => Nat.add_comm i (3 * n)]
      exact baryCoordPsi_congr (fun t ht => by have := hj t ht; rwa [Nat.mul_zero, Nat.zero_add] at this) c
    rw [Geometry.IsBary, e 0 (by omega), e 1 (by omega), e 2 (by omega), e 3 (by omega)]
    exact h0
  -- the arrays before the measure is set
  have key : ∀ wg : Nat → ℝ, Prepared (initXYG T { g with xyl := xyl, wg := wg }) q 1 T (fun _ n k => X (3 * n + k)) (fun r => volume (T r)) wg := by
    intro wg
    have xyg : ∀ n, n < q → ∀ k, k < 3 → (initXYG T { g with xyl := xyl, wg := wg }).xyg (3 * q * 0 + 3 * n + k) = X (3 * n + k) := by
      intro n hn k hk
      have h := initXYG_at T { g with xyl := xyl, wg := wg } (r := 0) (n := n) (k := k) (by rw [D.f]; exact Nat.one_pos) (by rw [D.q]; exact hn) hk
      have e0 : 3 * q * 0 + 3 * n + k = 3 * g.q * 0 + 3 * n + k := by rw [Nat.mul_zero, Nat.mul_zero]
      rw [e0]
      refine h.trans ?_
      obtain ⟨b1, b2⟩ := bary n hn
      rw [D.xyp 0 Nat.one_pos 1 k (by omega) hk, D.xyp 0 Nat.one_pos 2 k (by omega) hk, D.xyp 0 Nat.one_pos 3 k (by omega) hk]
      simp only [fun c => Nat.add_comm c (4 * n)]
      linear_combination b2 k hk - T 0 0 k * b1
    refine ⟨D.q, D.f, ⟨hq.trans_eq D.q.symm, Nat.one_pos.trans_eq D.f.symm, ?_, ?_, ?_⟩, ?_, fun r hr => D.mes r hr, fun _ _ => rfl⟩
    · intro r hr
      obtain rfl : r = 0 := Nat.lt_one_iff.mp (hr.trans_eq D.f)
      exact hT
    · intro r hr
      obtain rfl : r = 0 := Nat.lt_one_iff.mp (hr.trans_eq D.f)
      exact D.atTet Nat.one_pos hT
    · intro r hr n hn
      obtain rfl : r = 0 := Nat.lt_one_iff.mp (hr.trans_eq D.f)
      have hb := bary n (hn.trans_eq D.q)
      have cm : ∀ c, c + 4 * n = 4 * n + c := fun c => Nat.add_comm c (4 * n)
      change Geometry.IsBary (T 0 0) (T 0 1) (T 0 2) (T 0 3) (fun k => X (3 * n + k)) fun c => xyl (c + 4 * n)
      simp only [cm]
      exact hb
    · intro r hr n hn
      obtain rfl : r = 0 := by omega
      exact Prod.ext (xyg n hn 0 (by omega)) (Prod.ext (xyg n hn 1 (by omega)) (xyg n hn 2 (by omega)))
  -- after the geometry is initialised once more
  have key2 : ∀ wg : Nat → ℝ, Prepared (if again then initGeom T (initXYG T { g with xyl := xyl, wg := wg }) else
      initXYG T { g with xyl := xyl, wg := wg }) q 1 T (fun _ n k => X (3 * n + k)) (fun r => volume (T r)) wg := by
    intro wg
    cases again with
    | false => exact key wg
    | true =>
      have eq : (initXYG T { g with xyl := xyl, wg := wg }).q = q := D.q
      have ef : (initXYG T { g with xyl := xyl, wg := wg }).f = 1 := D.f
      have h := initGeom_prepared T (initXYG T { g with xyl := xyl, wg := wg }) (hq.trans_eq eq.symm) (Nat.one_pos.trans_eq ef.symm)
        (fun r hr => by
          obtain rfl : r = 0 := Nat.lt_one_iff.mp (hr.trans_eq ef)
          exact hT) (fun n hn => (bary n (hn.trans_eq eq)).1)
      rw [eq, ef] at h
      refine h.congr (fun r hr n hn k hk => ?_) fun n hn => rfl
      obtain rfl : r = 0 := Nat.lt_one_iff.mp hr
      exact (bary n hn).2 k hk
  cases tensor with
  | false => exact ⟨_, _, _, rfl, key2 g.wg, nofun⟩
  | true =>
    refine ⟨_, fun _ => 1, _, rfl, (key2 (fillN q 1 g.wg)).measure fun r hr => fillN_at _ _ hr, fun _ => ⟨rfl, fun n hn => fillN_at _ _ hn⟩⟩

end

/-! ### The operators on the prepared arrays -/

section
variable {a : Arr ℝ} {q : Nat} {T x : Nat → Nat → Nat → ℝ} {vol w : Nat → ℝ} {op : OpT} {F : Fem}

/-- the operator of a simple space has one part -/
theorem leaf_one {m : Mem ℝ} (G : Geo m T x) (hop : ∀ c, op = .dudx c → c < 3) {s : Space} {A : CtOp.Op ℝ}
    (h : ctOp Real.sqrt m op (.leaf s) = some A) {u ex es : Nat} {mem m' : Nat → ℝ} {M : CtOp.Mx} (hM : A.apply u ex es mem = some (m', M))
    (d n : Nat) : (CtOp.conv M d n).nparts = 1 := by
  rw [ctOp] at h
  rw [(ctLeaf_right G hop h).1 u ex es mem m' M hM]
  rfl

/-- **C55** for a compile-time operator on one tetrahedron in the prepared arrays, with place enough. -/
theorem runCt_right (P : Prepared a q 1 T x vol w) (hop : ∀ c, op = .dudx c → c < 3) (hF : Proper F) (hn : 0 < nfa F) {A : CtOp.Op ℝ}
    (hA : ctOp Real.sqrt a.mem op F = some A) {base capU es capR : Nat} (hU : A.usz ≤ capU) (hE : A.exr ≤ es) (hR : es ≤ capR)
    (hroom : (∃ s, F = .leaf s) ∨ q ≤ 1 ∨ A.dim * q ≤ capR) (mem dofs opU : Nat → ℝ) {φ : Nat → Field} (hφ : Basis (T 0) F φ) :
    Ends (runCt a op F base capU es capR mem dofs opU) (Values op F q (comb (nfa F) φ dofs) (x 0)) := by
  obtain ⟨v, hc, hd, hnf, ha⟩ := ctOp_right P.geo hop F A hF hA
  have e1 : a.mem.q = q := P.points
  have e2 : a.mem.f = 1 := P.tetras
  rw [e1, e2] at hc ha
  obtain ⟨m', M, hM, -, g⟩ := hc mem base (base + capU) es hE (Or.inl (by omega))
  unfold runCt
  rw [hA]
  simp only []
  rw [if_pos ⟨hU, hE, hR⟩, hM]
  simp only []
  rw [if_neg, P.points, P.tetras]
  · refine ⟨_, rfl, fun l hl n hn' => ?_⟩
    have h := applied_entry (v := v) (fun l hl n hn i hi r hr => g.val l (hl.trans_eq hd.symm) n hn i (hi.trans_eq hnf.symm) r hr) ha Nat.one_pos hφ
      dofs hl hn'
    have h2 := Elemental.fem3DApply_partial _ A.dim A.nfa q g.ok (hnf ▸ hn) dofs (fun p => m' (base + capU + p)) opU l n (hl.trans_eq hd.symm) hn'
    rw [← hd, h2]
    rw [← hnf] at h ⊢
    simpa only [Nat.mul_zero, Nat.add_zero] using h
  · rintro ⟨h1, h2, h3⟩
    rw [P.points] at h2 h3
    rw [P.tetras, Nat.mul_one] at h3
    rcases hroom with ⟨s, rfl⟩ | h | h
    · exact h1 (leaf_one P.geo hop hA hM _ _)
    · omega
    · omega

end

end Verif.Eval
