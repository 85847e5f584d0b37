import Verif.Props.Eval

/-!
**C55**: run-time operators, and the drivers as a whole.
-/
namespace Verif.Eval

open Verif.Dense Verif.Spaces Verif.Order Verif.SpaceOp Verif.Driver

section
variable {a : Arr ℝ} {q : Nat} {T x : Nat → Nat → Nat → ℝ} {vol w : Nat → ℝ} {op : OpT} {F : Fem}

/-- the demanded size of `extraR` covers that of the operator -/
theorem exr_le (exr parts nfa dim q f : Nat) : exr ≤ rtExr exr parts nfa dim q f := by
  unfold rtExr
  split
  · exact (le_max_left _ _).trans (le_max_left _ _)
  · exact le_max_left _ _

/-- the demanded size of `extraR` covers the values of an operator with several parts at several points -/
theorem tmp_le {exr parts nfa dim q f : Nat} (h1 : 1 < parts) (h2 : 1 < q) : dim * q * f ≤ rtExr exr parts nfa dim q f := by
  unfold rtExr
  rw [if_pos ⟨h1, h2⟩]
  exact le_max_right _ _

/-- **C55** for a run-time operator on one tetrahedron in the prepared arrays; as much memory as demanded is enough. -/
theorem runRt_right_partial (P : Prepared a q 1 T x vol w) (hop : ∀ c, op = .dudx c → c < 3) (hF : Wf F) (hs : Sound F op) (hn : 0 < nfa F)
    {A : OpStack.Op ℝ} (hA : rtOp Real.sqrt a.mem F op = some A) {head size : Nat}
    (hsize : head + A.usz + rtExr A.exr A.parts A.nfa A.dim q 1 ≤ size) (st : OpStack.St ℝ) (dofs opU : Nat → ℝ) {φ : Nat → Field}
    (hφ : Basis (T 0) F φ) : Ends (runRt a op F head size st dofs opU) (Values op F q (comb (nfa F) φ dofs) (x 0)) := by
  obtain ⟨v, hc, hd, hnf, ha⟩ := rtOp_right_partial P.geo F op A hF hop hs hA
  have e1 : a.mem.q = q := P.points
  have e2 : a.mem.f = 1 := P.tetras
  rw [e1, e2] at hc ha
  obtain ⟨st', ref, hM, g⟩ := hc st head (head + A.usz) A.exr (le_refl _) (Or.inl (le_refl _))
  have hE := exr_le A.exr A.parts A.nfa A.dim q 1
  unfold runRt
  rw [hA]
  simp only []
  rw [hM]
  simp only []
  rw [if_neg (by omega), if_neg, P.points, P.tetras]
  · refine ⟨_, rfl, fun l hl n hn' => ?_⟩
    have h := applied_entry (v := v) (fun l hl n hn i hi r hr => g.val l (hl.trans_eq hd.symm) n hn i (hi.trans_eq hnf.symm) r hr) ha Nat.one_pos hφ
      dofs hl hn'
    have h2 := Elemental.fem3DApply_partial _ A.dim A.nfa q g.ok (hnf ▸ hn) dofs (fun p => st'.re (head + A.usz + p)) opU l n (hl.trans_eq hd.symm) hn'
    rw [← hd, h2]
    rw [← hnf] at h ⊢
    simpa only [Nat.mul_zero, Nat.add_zero] using h
  · rintro ⟨h1, h2, h3⟩
    rw [P.points] at h2 h3
    rw [P.tetras] at h3
    have := tmp_le (exr := A.exr) (nfa := A.nfa) (dim := A.dim) (f := 1) (show 1 < A.parts by have := g.pos; have := g.nparts; omega) h2
    omega

/-- **C55** for a run-time operator and a tensor on one tetrahedron in the prepared arrays with weights and measure one; as much memory as demanded is
enough. -/
theorem runRtD_right_partial (P : Prepared a q 1 T x vol w) (hvol : vol 0 = 1) (hw : ∀ n, n < q → w n = 1) (hop : ∀ c, op = .dudx c → c < 3) (hF : Wf F)
    (hs : Sound F op) (hn : 0 < nfa F) {A : OpStack.Op ℝ} (hA : rtOp Real.sqrt a.mem F op = some A) {ddim head size : Nat}
    (hsize : head + ddim * q * 1 * 1 + ddim * A.dim * q * 1 + A.usz + A.dim * q * 1 + rtExr A.exr A.parts A.nfa A.dim q 1 ≤ size)
    {tr : Elemental.Traits} {fn : Elemental.UserD ℝ} (hfit : ∀ y, Elemental.Fits ddim (opDim op (dim F)) 1 (fn y 0))
    (hold : ∀ arg : Elemental.Args ℝ, tr.Holds fn arg) (st : OpStack.St ℝ) (D DU dofs opU : Nat → ℝ) {φ : Nat → Field} (hφ : Basis (T 0) F φ) :
    Ends (runRtD a op F ddim head size tr fn st D DU dofs opU) (TensorValues op F ddim fn q (comb (nfa F) φ dofs) (x 0)) := by
  obtain ⟨v, hc, hd, hnf, ha⟩ := rtOp_right_partial P.geo F op A hF hop hs hA
  have e1 : a.mem.q = q := P.points
  have e2 : a.mem.f = 1 := P.tetras
  rw [e1, e2] at hc ha
  unfold runRtD
  rw [hA]
  simp only []
  rw [P.points, P.tetras]
  generalize hu : head + ddim * q * 1 * 1 + ddim * A.dim * q * 1 = u at hsize
  obtain ⟨st', ref, hM, g⟩ := hc st u (u + A.usz + A.dim * q * 1) A.exr (le_refl _) (Or.inl (by omega))
  have hE := exr_le A.exr A.parts A.nfa A.dim q 1
  rw [hM]
  simp only []
  rw [if_neg (by omega), if_neg]
  · obtain ⟨R, h1, h2⟩ := Elemental.fem3DApplyD_partial tr fn (st'.band ref) A.dim A.nfa ddim q g.ok (hnf ▸ hn) (P.points ▸ P.geo.q) a.wg a.mes a.xyg none D dofs
      (fun p => st'.re (u + A.usz + A.dim * q * 1 + p)) (fun p => st'.re (u + A.usz + p)) DU opU
      (fun n _ => by
        simp only [Option.isSome_none, Bool.false_eq_true, if_false, Nat.mul_one, hd]
        exact hfit _) (fun _ => hold _)
    simp only [Option.isSome_none, Bool.false_eq_true, if_false, Nat.mul_one] at h1 h2
    simp only [Nat.mul_one] at h1 ⊢
    rw [h1]
    refine ⟨R, rfl, fun n hn' y hy k hk => ?_⟩
    rw [h2 n hn' k hk, P.wg n hn', hw n hn', P.mes 0 Nat.one_pos, hvol, one_mul, one_mul, hd]
    refine Finset.sum_congr rfl fun l hl => ?_
    have hl := Finset.mem_range.1 hl
    have h := applied_entry (v := v) (fun l hl n hn i hi r hr => g.val l (hl.trans_eq hd.symm) n hn i (hi.trans_eq hnf.symm) r hr) ha Nat.one_pos hφ
      dofs hl hn'
    rw [← hnf] at h hy
    simp only [Nat.mul_zero, Nat.add_zero] at h
    rw [entry_unique (hy l hl) h]
    congr 1
    simp only [Elemental.acting]
    rw [P.xyg 0 Nat.one_pos n hn', tensorAt]
  · rintro ⟨h1, h2, h3⟩
    have := tmp_le (exr := A.exr) (nfa := A.nfa) (dim := A.dim) (f := 1) (show 1 < A.parts by have := g.pos; have := g.nparts; omega) h2
    omega

end

/-! ### The drivers -/

section
variable (T : Nat → Nat → Nat → ℝ) (a : Arr ℝ) {op : OpT} {F : Fem} {φ : Nat → Field}

/-- **C55** `fem3DapplyX` with arrays on the stack for at most `P` points: the values of the operator on the finite element function at the points of the
user, if the matrix of the operator fits into the arrays.  Missing: more points, which are let in and written outside of the arrays
(`applyXStack_wrong`). -/
theorem applyXStack_right_partial (hop : ∀ c, op = .dudx c → c < 3) (hF : Proper F) (hn : 0 < nfa F) (hT : Nondeg (T 0)) (hφ : Basis (T 0) F φ)
    (X : Nat → ℝ) {q P : Nat} (hq : 0 < q) (hP : q ≤ P) (hdef : ∀ m : Mem ℝ, (ctOp Real.sqrt m op F).isSome)
    (hfits : ∀ m : Mem ℝ, m.q = q → m.f = 1 → ∀ A, ctOp Real.sqrt m op F = some A → A.usz ≤ 9 * P * 30 ∧ A.exr ≤ 3 * 20 * P ∧ A.dim * q ≤ 3 * 20 * P)
    (mem dofs opU : Nat → ℝ) :
    Ends (applyXStack P X q T op F a mem dofs opU) (Values op F q (comb (nfa F) φ dofs) fun n k => X (3 * n + k)) := by
  obtain ⟨a', vol, w, h1, h2, -⟩ := setX_right T a false false X hq (show 4 * q ≤ 4 * P by omega) hT
  unfold applyXStack
  rw [if_neg (by omega), h1]
  simp only [Outcome.bind]
  rw [if_neg (by omega)]
  obtain ⟨A, hA⟩ := Option.isSome_iff_exists.1 (hdef a'.mem)
  obtain ⟨f1, f2, f3⟩ := hfits a'.mem h2.points h2.tetras A hA
  exact runCt_right h2 hop hF hn hA f1 f2 (le_refl _) (Or.inr (Or.inr f3)) mem dofs opU hφ

/-- **C55 fails**: the check of the number of points compares with four times the number for which the arrays are made; with more points `XYL` is
written past its end on the stack. -/
theorem applyXStack_wrong (X : Nat → ℝ) {q P : Nat} (h1 : P < q) (h2 : q ≤ P * 4) (mem dofs opU : Nat → ℝ) :
    applyXStack P X q T op F a mem dofs opU = .overrun := by
  unfold applyXStack
  rw [if_neg (by omega)]
  unfold setX baryAll
  simp only []
  rw [if_neg (by omega)]
  rfl

/-- **C55** `fem3DapplyL` with arrays on the stack, for one tetrahedron. -/
theorem applyLStack_right_partial (hop : ∀ c, op = .dudx c → c < 3) (hF : Proper F) (hn : 0 < nfa F) (hT : Nondeg (T 0)) (hφ : Basis (T 0) F φ)
    (L : Nat → ℝ) {nl P FU : Nat} (hq : 0 < nl / 4) (hP : nl / 4 ≤ P) (hFU : 1 ≤ FU)
    (hL : ∀ n, n < nl / 4 → L (4 * n) + L (4 * n + 1) + L (4 * n + 2) + L (4 * n + 3) = 1) (hdef : ∀ m : Mem ℝ, (ctOp Real.sqrt m op F).isSome)
    (hfits : ∀ m : Mem ℝ, m.q = nl / 4 → m.f = 1 → ∀ A, ctOp Real.sqrt m op F = some A → A.usz ≤ 9 * P * 30 * FU ∧ A.exr ≤ 3 * 20 * P * FU ∧
      A.dim * (nl / 4) ≤ 3 * 20 * P * FU) (mem dofs opU : Nat → ℝ) :
    Ends (applyLStack P FU L nl 1 T op F a mem dofs opU)
      (Values op F (nl / 4) (comb (nfa F) φ dofs) fun n => mix (T 0) fun c => L (4 * n + c)) := by
  obtain ⟨vol, w, h2, -⟩ := setL_right T a false L hq Nat.one_pos (fun r hr => by obtain rfl : r = 0 := Nat.lt_one_iff.mp hr; exact hT) hL
  unfold applyLStack
  have : 3 * (nl / 4) * 1 ≤ 3 * P * FU := by
    calc 3 * (nl / 4) * 1 ≤ 3 * P * 1 := by omega
      _ ≤ 3 * P * FU := Nat.mul_le_mul_left _ hFU
  rw [if_neg (by omega), if_neg (by omega)]
  obtain ⟨A, hA⟩ := Option.isSome_iff_exists.1 (hdef (setL false L nl 1 T a).mem)
  obtain ⟨f1, f2, f3⟩ := hfits _ h2.points h2.tetras A hA
  exact runCt_right h2 hop hF hn hA f1 f2 (le_refl _) (Or.inr (Or.inr f3)) mem dofs opU hφ

/-- **C55 fails**: the same check in `fem3DapplyL`; the points are written past the end of `XYG` on the stack. -/
theorem applyLStack_wrong (L : Nat → ℝ) {nl f P FU : Nat} (hf : 0 < f) (h0 : f ≤ FU) (h1 : P * FU < nl / 4 * f) (h2 : nl / 4 ≤ P * 4)
    (mem dofs opU : Nat → ℝ) : applyLStack P FU L nl f T op F a mem dofs opU = .overrun := by
  unfold applyLStack
  rw [if_neg (by omega), if_pos (by rw [Nat.mul_assoc, Nat.mul_assoc]; omega)]

/-- **C55** `fem3DapplyX` in memory of the user, of at least the demanded size: the values of the operator at the points of the user, if the space is
simple, or there is one point, or the memory is larger than demanded by what the values need.  Missing: memory of the demanded size
(`applyXPlain_wrong`). -/
theorem applyXPlain_right_partial (hop : ∀ c, op = .dudx c → c < 3) (hF : Proper F) (hn : 0 < nfa F) (hT : Nondeg (T 0)) (hφ : Basis (T 0) F φ)
    (X : Nat → ℝ) {q size : Nat} (hq : 0 < q) (hdef : ∀ m : Mem ℝ, (ctOp Real.sqrt m op F).isSome)
    (hsize : ∀ m : Mem ℝ, m.q = q → m.f = 1 → ∀ A, ctOp Real.sqrt m op F = some A → reqX A.usz A.exr A.nfa q 1 ≤ size ∧
      ((∃ s, F = .leaf s) ∨ q ≤ 1 ∨ reqX A.usz A.exr A.nfa q 1 - exrSize A.exr A.nfa 1 + A.dim * q ≤ size)) (mem dofs opU : Nat → ℝ) :
    Ends (applyXPlain size X q T op F a mem dofs opU) (Values op F q (comb (nfa F) φ dofs) fun n k => X (3 * n + k)) := by
  obtain ⟨a', vol, w, h1, h2, -⟩ := setX_right T a false false X hq (le_refl (4 * q)) hT
  unfold applyXPlain
  rw [h1]
  simp only [Outcome.bind]
  obtain ⟨A, hA⟩ := Option.isSome_iff_exists.1 (hdef a'.mem)
  rw [hA]
  simp only []
  obtain ⟨f1, f2⟩ := hsize a'.mem h2.points h2.tetras A hA
  unfold reqX reqL at f1 f2
  rw [if_neg (by omega)]
  refine runCt_right h2 hop hF hn hA (le_refl _) (show A.exr ≤ exrSize A.exr A.nfa 1 from le_max_left _ _) (by omega) ?_ mem dofs opU hφ
  rcases f2 with h | h | h
  · exact Or.inl h
  · exact Or.inr (Or.inl h)
  · exact Or.inr (Or.inr (by omega))

/-- **C55** `fem3DapplyL` in memory of the user, for one tetrahedron. -/
theorem applyLPlain_right_partial (hop : ∀ c, op = .dudx c → c < 3) (hF : Proper F) (hn : 0 < nfa F) (hT : Nondeg (T 0)) (hφ : Basis (T 0) F φ)
    (L : Nat → ℝ) {nl size : Nat} (hq : 0 < nl / 4) (hL : ∀ n, n < nl / 4 → L (4 * n) + L (4 * n + 1) + L (4 * n + 2) + L (4 * n + 3) = 1)
    (hdef : ∀ m : Mem ℝ, (ctOp Real.sqrt m op F).isSome)
    (hsize : ∀ m : Mem ℝ, m.q = nl / 4 → m.f = 1 → ∀ A, ctOp Real.sqrt m op F = some A → reqL A.usz A.exr A.nfa (nl / 4) 1 ≤ size ∧
      ((∃ s, F = .leaf s) ∨ nl / 4 ≤ 1 ∨ reqL A.usz A.exr A.nfa (nl / 4) 1 - exrSize A.exr A.nfa 1 + A.dim * (nl / 4) ≤ size))
    (mem dofs opU : Nat → ℝ) :
    Ends (applyLPlain size L nl 1 T op F a mem dofs opU)
      (Values op F (nl / 4) (comb (nfa F) φ dofs) fun n => mix (T 0) fun c => L (4 * n + c)) := by
  obtain ⟨vol, w, h2, -⟩ := setL_right T a false L hq Nat.one_pos (fun r hr => by obtain rfl : r = 0 := Nat.lt_one_iff.mp hr; exact hT) hL
  unfold applyLPlain
  simp only []
  obtain ⟨A, hA⟩ := Option.isSome_iff_exists.1 (hdef (setL false L nl 1 T a).mem)
  rw [hA]
  simp only []
  obtain ⟨f1, f2⟩ := hsize _ h2.points h2.tetras A hA
  unfold reqL at f1 f2
  rw [if_neg (by omega), if_neg (by omega)]
  refine runCt_right h2 hop hF hn hA (le_refl _) (show A.exr ≤ exrSize A.exr A.nfa 1 from le_max_left _ _) (by omega) ?_ mem dofs opU hφ
  rcases f2 with h | h | h
  · exact Or.inl h
  · exact Or.inr (Or.inl h)
  · exact Or.inr (Or.inr (by omega))

/-- **C55** `fem3DapplyL` for a run-time operator on one tetrahedron: enough memory or an exception. -/
theorem applyLRt_right_partial (hop : ∀ c, op = .dudx c → c < 3) (hF : Wf F) (hs : Sound F op) (hn : 0 < nfa F) (hT : Nondeg (T 0))
    (hφ : Basis (T 0) F φ) (L : Nat → ℝ) {nl : Nat} (hq : 0 < nl / 4)
    (hL : ∀ n, n < nl / 4 → L (4 * n) + L (4 * n + 1) + L (4 * n + 2) + L (4 * n + 3) = 1) (size : Nat) (st : OpStack.St ℝ) (dofs opU : Nat → ℝ) :
    (applyLRt size L nl 1 T op F a st dofs opU = .refused ∧
      ∃ m : Mem ℝ, m.q = nl / 4 ∧ m.f = 1 ∧ ∀ A, rtOp Real.sqrt m F op = some A → size < reqND false A.usz A.exr A.parts A.nfa A.dim (nl / 4) 1) ∨
    Ends (applyLRt size L nl 1 T op F a st dofs opU)
      (Values op F (nl / 4) (comb (nfa F) φ dofs) fun n => mix (T 0) fun c => L (4 * n + c)) := by
  obtain ⟨vol, w, h2, -⟩ := setL_right T a false L hq Nat.one_pos (fun r hr => by obtain rfl : r = 0 := Nat.lt_one_iff.mp hr; exact hT) hL
  unfold applyLRt
  simp only []
  split
  · next hA =>
    exact Or.inl ⟨rfl, (setL false L nl 1 T a).mem, h2.points, h2.tetras, fun A h => nomatch hA.symm.trans h⟩
  · next A hA =>
    split
    · next h =>
      refine Or.inl ⟨rfl, (setL false L nl 1 T a).mem, h2.points, h2.tetras, fun B hB => ?_⟩
      rw [hA, Option.some.injEq] at hB
      exact hB ▸ h
    · next h =>
      unfold reqND at h
      simp only [Bool.false_eq_true, if_false] at h
      exact Or.inr (runRt_right_partial h2 hop hF hs hn hA (by omega) st dofs opU hφ)

/-- **C55** `fem3DapplyX` for a run-time operator: enough memory or an exception. -/
theorem applyXRt_right_partial (hop : ∀ c, op = .dudx c → c < 3) (hF : Wf F) (hs : Sound F op) (hn : 0 < nfa F) (hT : Nondeg (T 0))
    (hφ : Basis (T 0) F φ) (X : Nat → ℝ) {q : Nat} (hq : 0 < q) (size : Nat) (st : OpStack.St ℝ) (dofs opU : Nat → ℝ) :
    (applyXRt size X q T op F a st dofs opU = .refused ∧
      ∃ m : Mem ℝ, m.q = q ∧ m.f = 1 ∧ ∀ A, rtOp Real.sqrt m F op = some A → size < reqND true A.usz A.exr A.parts A.nfa A.dim q 1) ∨
    Ends (applyXRt size X q T op F a st dofs opU) (Values op F q (comb (nfa F) φ dofs) fun n k => X (3 * n + k)) := by
  obtain ⟨a', vol, w, h1, h2, -⟩ := setX_right T a false true X hq (le_refl (4 * q)) hT
  unfold applyXRt
  rw [h1]
  simp only [Outcome.bind]
  split
  · next hA =>
    exact Or.inl ⟨rfl, a'.mem, h2.points, h2.tetras, fun A h => nomatch hA.symm.trans h⟩
  · next A hA =>
    split
    · next h =>
      refine Or.inl ⟨rfl, a'.mem, h2.points, h2.tetras, fun B hB => ?_⟩
      rw [hA, Option.some.injEq] at hB
      exact hB ▸ h
    · next h =>
      unfold reqND at h
      simp only [if_true] at h
      exact Or.inr (runRt_right_partial h2 hop hF hs hn hA (by omega) st dofs opU hφ)

/-- **C55** `fem3DapplyL` for a run-time operator and a tensor on one tetrahedron. -/
theorem applyLRtD_right_partial (hop : ∀ c, op = .dudx c → c < 3) (hF : Wf F) (hs : Sound F op) (hn : 0 < nfa F) (hT : Nondeg (T 0))
    (hφ : Basis (T 0) F φ) (L : Nat → ℝ) {nl ddim func : Nat} (hq : 0 < nl / 4)
    (hL : ∀ n, n < nl / 4 → L (4 * n) + L (4 * n + 1) + L (4 * n + 2) + L (4 * n + 3) = 1) (size : Nat)
    {tr : Elemental.Traits} {fn : Elemental.UserD ℝ} (hfit : ∀ y, Elemental.Fits ddim (opDim op (dim F)) 1 (fn y 0))
    (hold : ∀ arg : Elemental.Args ℝ, tr.Holds fn arg) (st : OpStack.St ℝ) (D DU dofs opU : Nat → ℝ) :
    (applyLRtD size func L nl 1 T op F ddim tr fn a st D DU dofs opU = .refused ∧
      ∃ m : Mem ℝ, m.q = nl / 4 ∧ m.f = 1 ∧ ∀ A, rtOp Real.sqrt m F op = some A → size < reqD A.usz A.exr A.parts A.nfa A.dim ddim func (nl / 4) 1) ∨
    Ends (applyLRtD size func L nl 1 T op F ddim tr fn a st D DU dofs opU)
      (TensorValues op F ddim fn (nl / 4) (comb (nfa F) φ dofs) fun n => mix (T 0) fun c => L (4 * n + c)) := by
  obtain ⟨vol, w, h2, h3⟩ := setL_right T a true L hq Nat.one_pos (fun r hr => by obtain rfl : r = 0 := Nat.lt_one_iff.mp hr; exact hT) hL
  obtain ⟨hvol, hw⟩ := h3 rfl
  unfold applyLRtD
  simp only []
  split
  · next hA =>
    exact Or.inl ⟨rfl, (setL true L nl 1 T a).mem, h2.points, h2.tetras, fun A h => nomatch hA.symm.trans h⟩
  · next A hA =>
    split
    · next h =>
      refine Or.inl ⟨rfl, (setL true L nl 1 T a).mem, h2.points, h2.tetras, fun B hB => ?_⟩
      rw [hA, Option.some.injEq] at hB
      exact hB ▸ h
    · next h =>
      unfold reqD at h
      exact Or.inr (runRtD_right_partial h2 (hvol 0 Nat.one_pos) hw hop hF hs hn hA (by omega) hfit hold st D DU dofs opU hφ)

/-- **C55** `fem3DapplyX` for a run-time operator and a tensor. -/
theorem applyXRtD_right_partial (hop : ∀ c, op = .dudx c → c < 3) (hF : Wf F) (hs : Sound F op) (hn : 0 < nfa F) (hT : Nondeg (T 0))
    (hφ : Basis (T 0) F φ) (X : Nat → ℝ) {q ddim func : Nat} (hq : 0 < q) (size : Nat)
    {tr : Elemental.Traits} {fn : Elemental.UserD ℝ} (hfit : ∀ y, Elemental.Fits ddim (opDim op (dim F)) 1 (fn y 0))
    (hold : ∀ arg : Elemental.Args ℝ, tr.Holds fn arg) (st : OpStack.St ℝ) (D DU dofs opU : Nat → ℝ) :
    (applyXRtD size func X q T op F ddim tr fn a st D DU dofs opU = .refused ∧
      ∃ m : Mem ℝ, m.q = q ∧ m.f = 1 ∧ ∀ A, rtOp Real.sqrt m F op = some A → size < reqD A.usz A.exr A.parts A.nfa A.dim ddim func q 1) ∨
    Ends (applyXRtD size func X q T op F ddim tr fn a st D DU dofs opU)
      (TensorValues op F ddim fn q (comb (nfa F) φ dofs) fun n k => X (3 * n + k)) := by
  obtain ⟨a', vol, w, h1, h2, h3⟩ := setX_right T a true false X hq (le_refl (4 * q)) hT
  obtain ⟨hvol, hw⟩ := h3 rfl
  unfold applyXRtD
  rw [h1]
  simp only [Outcome.bind]
  split
  · next hA =>
    exact Or.inl ⟨rfl, a'.mem, h2.points, h2.tetras, fun A h => nomatch hA.symm.trans h⟩
  · next A hA =>
    split
    · next h =>
      refine Or.inl ⟨rfl, a'.mem, h2.points, h2.tetras, fun B hB => ?_⟩
      rw [hA, Option.some.injEq] at hB
      exact hB ▸ h
    · next h =>
      unfold reqD at h
      exact Or.inr (runRtD_right_partial h2 hvol hw hop hF hs hn hA (by omega) hfit hold st D DU dofs opU hφ)

end

end Verif.Eval
