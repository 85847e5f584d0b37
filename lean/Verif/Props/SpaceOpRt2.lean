import Verif.Props.SpaceOpRt

/-!
**C53** for run-time spaces: on which spaces the operators are defined, the elemental matrices, and the divergence of products.
-/
namespace Verif.SpaceOp

open Verif.Spaces Verif.Order Verif.OpStack Verif.Geometry

section
variable {m : Mem ℝ} {T : Nat → Nat → Nat → ℝ} {x : Nat → Nat → Nat → ℝ}

theorem rtLeaf_defined {op : OpT} {s : Space} (h : Local op ∨ leafDim s = 3) : ∃ A, rtLeaf Real.sqrt m op s = some A := by
  have : ∃ A, ctLeaf Real.sqrt m op s = some A := by
    rcases h with h | h
    · exact ctLeaf_defined h s
    · cases s <;> first | (cases h; done) | (cases op <;> exact ⟨_, rfl⟩)
  obtain ⟨A, hA⟩ := this
  exact ⟨_, by rw [rtLeaf, hA, Option.map_some]⟩

theorem local_or (op : OpT) : Local op ∨ op = .div ∨ op = .curl := by
  cases op with
  | div => exact Or.inr (Or.inl rfl)
  | curl => exact Or.inr (Or.inr rfl)
  | iden => exact Or.inl ⟨nofun, nofun⟩
  | grad => exact Or.inl ⟨nofun, nofun⟩
  | dudx c => exact Or.inl ⟨nofun, nofun⟩

theorem cplxOf_defined {op : OpT} {k : Fem} {t : Fems} {As : List (OpStack.Op ℝ)} (h : rtOps Real.sqrt m (.cons k t) op = some As) :
    ∃ A, (rtOps Real.sqrt m (.cons k t) op).bind cplxOf = some A := by
  rw [h]
  rw [rtOps] at h
  simp only [Option.bind_eq_bind, Option.bind_eq_some_iff, Option.some.injEq] at h
  obtain ⟨A, -, B, -, rfl⟩ := h
  exact ⟨_, rfl⟩

mutual
/-- **C53**: the identity, the gradient and the partial derivatives are defined on every run-time space, the divergence and the curl on
every space of three components. -/
theorem rtOp_defined (m : Mem ℝ) : ∀ (F : Fem) (op : OpT), Wf F → (Local op ∨ dim F = 3) → ∃ A, rtOp Real.sqrt m F op = some A
  | .leaf s, op, _, h => by
    rw [rtOp]
    exact rtLeaf_defined h
  | .vec n b, op, hw, h => by
    rw [Wf] at hw
    have cases3 : ∀ g : OpStack.Op ℝ → OpStack.Op ℝ, ∀ op, dim (.vec n b) = 3 → ∃ A,
        (if n * dim b = 3 then if n = 3 then (rtOp Real.sqrt m b .grad).map g else if n = 1 then rtOp Real.sqrt m b op else none
          else none) = some A := by
      intro g op h3
      rw [Order.dim] at h3
      rw [if_pos h3]
      by_cases hn : n = 3
      · obtain ⟨B, hB⟩ := rtOp_defined m b .grad hw.2 (Or.inl ⟨nofun, nofun⟩)
        rw [if_pos hn, hB]
        exact ⟨_, rfl⟩
      · have hn1 : n = 1 := by
          have : n ∣ 3 := ⟨_, h3.symm⟩
          have := (Nat.dvd_prime Nat.prime_three).1 this
          omega
        subst hn1
        rw [if_neg hn, if_pos rfl]
        exact rtOp_defined m b op hw.2 (Or.inr (by omega))
    rcases local_or op with hl | rfl | rfl
    · obtain ⟨B, hB⟩ := rtOp_defined m b op hw.2 (Or.inl hl)
      exact ⟨_, by rw [rtOp, hB, Option.map_some]; exacts [hl.1, hl.2]⟩
    · rw [rtOp]
      exact cases3 _ _ (h.resolve_left fun c => c.1 rfl)
    · rw [rtOp]
      exact cases3 _ _ (h.resolve_left fun c => c.2 rfl)
  | .com .nil, op, hw, h => by
    rw [Wf] at hw
    exact hw.elim
  | .com (.cons k t), op, hw, h => by
    rw [Wf] at hw
    have hw' : WfAll (.cons k t) := by rw [WfAll]; exact hw
    rcases local_or op with hl | rfl | rfl
    · obtain ⟨As, hA⟩ := rtOps_defined m (.cons k t) op hw' (Or.inl hl)
      obtain ⟨B, hB⟩ := cplxOf_defined hA
      exact ⟨B, by rw [rtOp, hB]; exacts [hl.2, hl.1]⟩
    · have h3 := h.resolve_left fun c => c.1 rfl
      rw [Order.dim] at h3
      rw [rtOp, if_pos h3]
      match t, hw, h3 with
      | .nil, hw, h3 =>
        rw [rtDiv]
        rw [dimSum, dimSum, Nat.add_zero] at h3
        exact rtOp_defined m k .div hw.1 (Or.inr h3)
      | .cons b .nil, hw, h3 =>
        rw [WfAll] at hw
        obtain ⟨A0, e0⟩ := rtOp_defined m k (.dudx 0) hw.1 (Or.inl ⟨nofun, nofun⟩)
        obtain ⟨A1, e1⟩ := rtOp_defined m k .grad hw.1 (Or.inl ⟨nofun, nofun⟩)
        obtain ⟨A2, e2⟩ := rtOp_defined m b (.dudx 2) hw.2.1 (Or.inl ⟨nofun, nofun⟩)
        obtain ⟨A3, e3⟩ := rtOp_defined m b .grad hw.2.1 (Or.inl ⟨nofun, nofun⟩)
        rw [rtDiv, e0, e1, e2, e3]
        by_cases h1 : dim k = 1 <;> by_cases h2 : dim b = 1 <;> simp [h1, h2]
      | .cons b (.cons c .nil), hw, h3 =>
        rw [WfAll, WfAll] at hw
        obtain ⟨A0, e0⟩ := rtOp_defined m k (.dudx 0) hw.1 (Or.inl ⟨nofun, nofun⟩)
        obtain ⟨A1, e1⟩ := rtOp_defined m b (.dudx 1) hw.2.1 (Or.inl ⟨nofun, nofun⟩)
        obtain ⟨A2, e2⟩ := rtOp_defined m c (.dudx 2) hw.2.2.1 (Or.inl ⟨nofun, nofun⟩)
        exact ⟨_, by rw [rtDiv, e0, e1, e2]; rfl⟩
      | .cons b (.cons c (.cons d t)), hw, h3 =>
        rw [WfAll, WfAll] at hw
        have h1 := dim_pos k hw.1
        have h2 := dim_pos b hw.2.1
        have h4 := dim_pos c hw.2.2.1
        have h5 := dimSum_pos hw.2.2.2
        rw [dimSum, dimSum, dimSum] at h3
        omega
    · have h3 := h.resolve_left fun c => c.2 rfl
      rw [Order.dim] at h3
      obtain ⟨As, hA⟩ := rtOps_defined m (.cons k t) .grad hw' (Or.inl ⟨nofun, nofun⟩)
      obtain ⟨B, hB⟩ := cplxOf_defined hA
      exact ⟨_, by rw [rtOp, if_pos h3, hB, Option.map_some]⟩
  | .union .nil, op, hw, h => by
    rw [Wf] at hw
    exact hw.elim
  | .union (.cons k t), op, hw, h => by
    rw [Wf] at hw
    rw [Order.dim, dimFirst] at h
    obtain ⟨As, hA⟩ := rtOps_defined m (.cons k t) op (by rw [WfAll]; exact ⟨hw.1, hw.2.1⟩)
      (h.imp_right fun h3 => by rw [SameDim]; exact ⟨h3, h3 ▸ hw.2.2⟩)
    exact ⟨_, by rw [rtOp, hA, Option.map_some]⟩
/-- the members -/
theorem rtOps_defined (m : Mem ℝ) : ∀ (F : Fems) (op : OpT), WfAll F → (Local op ∨ SameDim 3 F) → ∃ As, rtOps Real.sqrt m F op = some As
  | .nil, op, _, _ => ⟨[], by rw [rtOps]⟩
  | .cons h t, op, hw, hd => by
    rw [WfAll] at hw
    rw [SameDim] at hd
    obtain ⟨A, hA⟩ := rtOp_defined m h op hw.1 (hd.imp_right And.left)
    obtain ⟨B, hB⟩ := rtOps_defined m t op hw.2 (hd.imp_right And.right)
    exact ⟨A :: B, by rw [rtOps, hA, hB]; rfl⟩
end

/-- **C53**: the divergence and the curl of a space that has not three components are refused. -/
theorem rtOp_refused (m : Mem ℝ) {op : OpT} (hl : ¬ Local op) : ∀ F : Fem, Wf F → dim F ≠ 3 → rtOp Real.sqrt m F op = none
  | .leaf s, _, hd => by
    rcases local_or op with h | rfl | rfl
    · exact absurd h hl
    · rw [rtOp]
      cases s <;> first | rfl | exact absurd rfl hd
    · rw [rtOp]
      cases s <;> first | rfl | exact absurd rfl hd
  | .vec n b, _, hd => by
    rw [Order.dim] at hd
    rcases local_or op with h | rfl | rfl
    · exact absurd h hl
    · rw [rtOp, if_neg hd]
    · rw [rtOp, if_neg hd]
  | .com l, _, hd => by
    rw [Order.dim] at hd
    rcases local_or op with h | rfl | rfl
    · exact absurd h hl
    · rw [rtOp, if_neg hd]
    · rw [rtOp, if_neg hd]
  | .union .nil, hw, _ => by
    rw [Wf] at hw
    exact hw.elim
  | .union (.cons k t), hw, hd => by
    rw [Wf] at hw
    rw [Order.dim, dimFirst] at hd
    rw [rtOp, rtOps, rtOp_refused m hl k hw.1 hd]
    rfl

/-- **C53**: the basis function of a run-time space is determined by its number. -/
theorem nth_unique_rt {T : Nat → Nat → ℝ} (hv : Nondeg T) {F : Fem} (hp : Wf F) {i : Nat} (hi : i < nfa F) {φ ψ : Field}
    (hφ : Nth T F i φ) (hψ : Nth T F i ψ) (y : Nat → ℝ) {k : Nat} (hk : k < dim F) : φ y k = ψ y k := by
  have G := single_geo hv y
  obtain ⟨A, hA⟩ := rtOp_defined (single T (baryCoord (T 0) (T 1) (T 2) (T 3) y fun _ => 0) fun _ => 0) F .iden hp (Or.inl ⟨nofun, nofun⟩)
  obtain ⟨v, -, -, -, h⟩ := rtOp_right_partial G F .iden A hp nofun (sound_of (op := .iden) nofun F) hA
  have h1 : _ = φ y k := h k hk 0 Nat.one_pos i hi 0 Nat.one_pos φ hφ
  have h2 : _ = ψ y k := h k hk 0 Nat.one_pos i hi 0 Nat.one_pos ψ hψ
  exact h1.symm.trans h2

/-- **C53**: the elemental matrix assembled with operators of two run-time spaces is, entry by entry, the quadrature sum of the
bilinear form with the tensor of the user and the entries `a`, `b` of the operators on the basis functions `φ`, `ψ` of the spaces,
whatever the memory and the stack held; missing: divergences of products of several spaces. -/
theorem elemental_rt_partial (G : Geo m T x) {opa opb : OpT} (hopa : ∀ c, opa = .dudx c → c < 3) (hopb : ∀ c, opb = .dudx c → c < 3)
    {F H : Fem} (hF : Wf F) (hH : Wf H) (sF : Sound F opa) (sH : Sound H opb) {A B : OpStack.Op ℝ} (hA : rtOp Real.sqrt m F opa = some A)
    (hB : rtOp Real.sqrt m H opb = some B) (same : Bool) (hsame : same = true → opa = opb ∧ F = H)
    {φ ψ : Nat → Nat → Field} (hφ : ∀ r, r < m.f → ∀ i, i < nfa F → Nth (T r) F i (φ r i))
    (hψ : ∀ r, r < m.f → ∀ j, j < nfa H → Nth (T r) H j (ψ r j)) {a b : Nat → Nat → Nat → Nat → ℝ}
    (ha : ∀ l n i r, l < opDim opa (dim F) → n < m.q → i < nfa F → r < m.f → Entry opa (φ r i) (x r n) l (a l n i r))
    (hb : ∀ k n j r, k < opDim opb (dim H) → n < m.q → j < nfa H → r < m.f → Entry opb (ψ r j) (x r n) k (b k n j r))
    (st : St ℝ) (hempty : st.busy = 0) (u v ex es : Nat) (hesa : A.exr ≤ es) (hesb : B.exr ≤ es)
    (hu : u + A.usz ≤ ex ∨ ex + es ≤ u) (hv : v + B.usz ≤ ex ∨ ex + es ≤ v) (huv : u + A.usz ≤ v ∨ v + B.usz ≤ u)
    (tr : Elemental.Traits) (htr : tr ≠ .perSelection) (fn : Elemental.UserD ℝ) (w mes xyg : Nat → ℝ) (nrm : Option (Nat → ℝ))
    (D DU DIFF extraR E : Nat → ℝ) (hn : 0 < nfa F)
    (hfit : ∀ r, r < m.f → ∀ n, n < m.q →
      Elemental.Fits (opDim opb (dim H) * (if nrm.isSome then 3 else 1)) (opDim opa (dim F)) (nfa F) (fn (Elemental.xpt xyg m.q n r) r))
    (hold : ∀ U, tr.Holds fn ⟨U, opDim opa (dim F), opDim opb (dim H) * (if nrm.isSome then 3 else 1), m.q, m.f, nfa F, w, mes, xyg⟩) :
    ∃ st2 refU refV E', OpStack.applyTwo same A B u v ex es st = some (st2, refU, refV) ∧
      Elemental.fem3Dtet (fun a DU => Elemental.applyDU tr fn a D DU) (st2.band refU) (st2.band refV) A.dim B.dim A.nfa B.nfa m.q m.f w mes
        xyg nrm DU DIFF extraR E = some E' ∧
      ∀ r, r < m.f → ∀ i, i < nfa F → ∀ j, j < nfa H → E' (j + nfa H * (i + nfa F * r)) =
        ∑ n ∈ Finset.range m.q, w n * mes r * ∑ k ∈ Finset.range (opDim opb (dim H)), b k n j r *
          ∑ l ∈ Finset.range (opDim opa (dim F)),
            Elemental.acting nrm (fun n r k l => Elemental.tensor (opDim opb (dim H) * (if nrm.isSome then 3 else 1)) (opDim opa (dim F))
              (fn (Elemental.xpt xyg m.q n r) r) k l) n r k l * a l n i r := by
  obtain ⟨va, hca, hda, hna, haa⟩ := rtOp_right_partial G F opa A hF hopa sF hA
  obtain ⟨vb, ⟨hcb, hdb, hnb, hbb⟩, hs⟩ : ∃ vb, RtRight m T x opb H B vb ∧ (same = true → A = B ∧ va = vb) := by
    cases hsm : same with
    | false =>
      obtain ⟨vb, h⟩ := rtOp_right_partial G H opb B hH hopb sH hB
      exact ⟨vb, h, nofun⟩
    | true =>
      obtain ⟨rfl, rfl⟩ := hsame hsm
      rw [hA] at hB
      cases hB
      exact ⟨va, ⟨hca, hda, hna, haa⟩, fun _ => ⟨rfl, rfl⟩⟩
  rw [← hda, ← hna, ← hdb] at hold hfit
  obtain ⟨m2, U, V, E', h1, h2, h3⟩ := OpStack.fem3DtetX_exact hca hcb same hs st hempty u v ex es hesa hesb hu hv huv tr htr fn w mes xyg
    nrm D DU DIFF extraR E (hna ▸ hn) G.q G.f hfit hold
  refine ⟨m2, U, V, E', h1, h2, fun r hr i hi j hj => ?_⟩
  rw [← hna, ← hnb, h3 r hr i (hna ▸ hi) j (hnb ▸ hj), ← hda, ← hdb]
  refine Finset.sum_congr rfl fun n hn' => ?_
  have hn' := Finset.mem_range.1 hn'
  congr 1
  refine Finset.sum_congr rfl fun k hk => ?_
  have hk := hdb ▸ Finset.mem_range.1 hk
  rw [entry_unique (hbb k hk n hn' j hj r hr _ (hψ r hr j hj)) (hb k n j r hk hn' hj hr)]
  congr 1
  refine Finset.sum_congr rfl fun l hl => ?_
  have hl := hda ▸ Finset.mem_range.1 hl
  rw [entry_unique (haa l hl n hn' i hi r hr _ (hφ r hr i hi)) (ha l n i r hl hn' hi hr)]

/-- **C53**: the divergence of a product of three spaces of one component is never right: no values make it correct, and the operator applied
next, whatever it is, puts its matrix in the place of the divergence. -/
theorem rtDiv_three_wrong (G : Geo m T x) {a b c : Fem} (ha : Wf a) (hb : Wf b) (hc : Wf c) (h3 : dim a + dim b + dim c = 3)
    {A : OpStack.Op ℝ} (hA : rtOp Real.sqrt m (.com (.cons a (.cons b (.cons c .nil)))) .div = some A) :
    (∀ v, ¬ OpStack.Correct m.q m.f A v) ∧
    ∀ next w, OpStack.Correct m.q m.f next w → ∀ (st : St ℝ) (u ex es u2 ex2 es2 : Nat), A.exr ≤ es → (u + A.usz ≤ ex ∨ ex + es ≤ u) →
      next.exr ≤ es2 → (u2 + next.usz ≤ ex2 ∨ ex2 + es2 ≤ u2) →
      ∃ st1 ref1 st2 ref2, A.apply u ex es st = some (st1, ref1) ∧ next.apply u2 ex2 es2 st1 = some (st2, ref2) ∧
        ref2.data = ref1.data ∧ ref2.idx = ref1.idx ∧
        u2 ≤ (st2.mtx ref1.data).1 ∧ (st2.mtx ref1.data).1 ≤ u2 + next.usz := by
  have p1 := dim_pos a ha
  have p2 := dim_pos b hb
  have p3 := dim_pos c hc
  have d1 : dim a = 1 := by omega
  have d2 : dim b = 1 := by omega
  have d3 : dim c = 1 := by omega
  rw [rtOp] at hA
  split at hA
  · rw [rtDiv] at hA
    simp only [Option.bind_eq_bind, Option.bind_eq_some_iff, Option.some.injEq] at hA
    obtain ⟨X, hX, Y, hY, Z, hZ, rfl⟩ := hA
    have one : ∀ (F : Fem) (k : Nat) (B : OpStack.Op ℝ), k < 3 → Wf F → dim F = 1 → rtOp Real.sqrt m F (.dudx k) = some B →
        B.dim = 1 ∧ OnePart B ∧ ∃ g : Vals ℝ, OpStack.Correct m.q m.f B (fun _ => g k) := by
      intro F k B hk hF hd h
      obtain ⟨v, hv, hd', -, -⟩ := rtOp_right_partial G F (.dudx k) B hF (fun c e => by cases e; exact hk) (sound_of (op := .dudx k) nofun F) h
      have hB : B.dim = 1 := by rw [hd']; exact hd
      refine ⟨hB, rtOp_onePart (op := .dudx k) ⟨nofun, nofun⟩ F B hF hd h, fun _ => v 0, ?_⟩
      intro st u ex es h1 h2
      obtain ⟨st', ref, e, g⟩ := hv st u ex es h1 h2
      refine ⟨st', ref, e, { g with val := fun l hl n hn i hi r hr => ?_ }⟩
      obtain rfl : l = 0 := by omega
      exact g.val 0 hl n hn i hi r hr
    obtain ⟨x1, x2, ga, hga⟩ := one a 0 X (by omega) ha d1 hX
    obtain ⟨y1, y2, gb, hgb⟩ := one b 1 Y (by omega) hb d2 hY
    obtain ⟨z1, z2, gc, hgc⟩ := one c 2 Z (by omega) hc d3 hZ
    exact ⟨(div111_busy_wrong hga hgb hgc x1 y1 z1 x2 y2 z2 hga).1,
      fun next w hn => (div111_busy_wrong hga hgb hgc x1 y1 z1 x2 y2 z2 hn).2⟩
  · exact nomatch hA

end

section Examples

/-- the spaces of the examples as run-time spaces: velocity and pressure, P1 with the bubble, a sum with the space of Raviart and Thomas, the
product of three scalar spaces -/
example : Wf stokes ∧ Wf mini ∧ Wf (.union (.cons (.vec 3 (.leaf .p1)) (.cons (.leaf .rt0) .nil))) := by
  simp [Wf, WfAll, SameDim, stokes, mini, Order.dim, leafDim]

-- the divergence and the curl of the sum of P1 to the third and RT0
example (y : Nat → ℝ) : ∃ A v, rtOp Real.sqrt (sampleM y) (.union (.cons (.vec 3 (.leaf .p1)) (.cons (.leaf .rt0) .nil))) .div = some A ∧
    RtRight (sampleM y) (fun _ => sampleT) (fun _ _ => y) .div (.union (.cons (.vec 3 (.leaf .p1)) (.cons (.leaf .rt0) .nil))) A v := by
  have hw : Wf (.union (.cons (.vec 3 (.leaf .p1)) (.cons (.leaf .rt0) .nil))) := by simp [Wf, WfAll, SameDim, Order.dim, leafDim]
  obtain ⟨A, hA⟩ := rtOp_defined (sampleM y) _ .div hw (Or.inr (by simp [Order.dim, dimFirst, leafDim]))
  obtain ⟨v, hv⟩ := rtOp_right_partial (sampleM_geo y) _ .div A hw nofun (by simp [Sound, SoundAll]) hA
  exact ⟨A, v, hA, hv⟩

-- the curl of the product of P2 to the second and P1
example (y : Nat → ℝ) : ∃ A v, rtOp Real.sqrt (sampleM y) (.com (.cons (.vec 2 (.leaf .p2)) (.cons (.leaf .p1) .nil))) .curl = some A ∧
    RtRight (sampleM y) (fun _ => sampleT) (fun _ _ => y) .curl (.com (.cons (.vec 2 (.leaf .p2)) (.cons (.leaf .p1) .nil))) A v := by
  have hw : Wf (.com (.cons (.vec 2 (.leaf .p2)) (.cons (.leaf .p1) .nil))) := by simp [Wf, WfAll]
  obtain ⟨A, hA⟩ := rtOp_defined (sampleM y) _ .curl hw (Or.inr (by simp [Order.dim, dimSum, leafDim]))
  obtain ⟨v, hv⟩ := rtOp_right_partial (sampleM_geo y) _ .curl A hw nofun (sound_of (op := .curl) nofun _) hA
  exact ⟨A, v, hA, hv⟩

-- the divergence of the product of three P1 spaces
example (y : Nat → ℝ) : ∃ A, rtOp Real.sqrt (sampleM y) (.com (.cons (.leaf .p1) (.cons (.leaf .p1) (.cons (.leaf .p1) .nil)))) .div = some A ∧
    ∀ v, ¬ OpStack.Correct (sampleM y).q (sampleM y).f A v := by
  have hw : Wf (.com (.cons (.leaf .p1) (.cons (.leaf .p1) (.cons (.leaf .p1) .nil)))) := by simp [Wf, WfAll]
  obtain ⟨A, hA⟩ := rtOp_defined (sampleM y) _ .div hw (Or.inr (by simp [Order.dim, dimSum, leafDim]))
  exact ⟨A, hA, (rtDiv_three_wrong (sampleM_geo y) (by simp [Wf]) (by simp [Wf]) (by simp [Wf]) (by simp [Order.dim, leafDim]) hA).1⟩

end Examples

end Verif.SpaceOp
