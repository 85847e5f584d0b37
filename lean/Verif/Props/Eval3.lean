import Verif.Props.Eval2

/-!
**C55**: memory of the demanded size, several tetrahedrons at once, and examples.
-/
namespace Verif.Eval

open Verif.Dense Verif.Spaces Verif.Order Verif.SpaceOp Verif.Driver

section
variable (T : Nat → Nat → Nat → ℝ) (a : Arr ℝ) {op : OpT}

/-- the operator of several copies of a simple space has as many parts -/
theorem vec_parts {m : Mem ℝ} {x : Nat → Nat → Nat → ℝ} (G : Geo m T x) (hop : ∀ c, op = .dudx c → c < 3) (hl : Local op) {s : Space} {k : Nat}
    {A : CtOp.Op ℝ} (h : ctOp Real.sqrt m op (.vec k (.leaf s)) = some A) {u ex es : Nat} (hE : A.exr ≤ es) (hu : u + A.usz ≤ ex)
    (mem : Nat → ℝ) : ∃ m' M, A.apply u ex es mem = some (m', M) ∧ ∀ d n, (CtOp.conv M d n).nparts = k := by
  have h' : (ctLeaf Real.sqrt m op s).map (CtOp.vec k) = some A := by
    cases op with
    | div => exact absurd rfl hl.1
    | curl => exact absurd rfl hl.2
    | iden => rw [ctOp] at h; exact h; all_goals nofun
    | grad => rw [ctOp] at h; exact h; all_goals nofun
    | dudx c => rw [ctOp] at h; exact h; all_goals nofun
  obtain ⟨B, hB⟩ := ctLeaf_defined (m := m) hl s
  rw [hB, Option.map_some, Option.some.injEq] at h'
  subst h'
  have hd := (ctLeaf_right G hop hB).1
  obtain ⟨-, v, hc, -⟩ := ctLeaf_right G hop hB
  obtain ⟨m', M, hM, -⟩ := hc mem u ex es hE (Or.inl hu)
  have := hd u ex es mem m' M hM
  subst this
  have e : (CtOp.vec k B).apply u ex es mem = some (m', .band ⟨k, fun _ => (u, m.q * B.dim), fun i => if i < k then B.dim * i else k * B.dim,
        fun i => if i < k then B.nfa * i else k * B.nfa⟩) := by
    simp only [CtOp.vec, hM]
  exact ⟨m', _, e, fun _ _ => rfl⟩

/-- **C55 fails** for several copies of a simple space in memory of exactly the demanded size: the values at several points are put together in `extraR`,
for which the demanded size does not leave the place (`reqX` has `max(extraR, Nfa)` numbers, `Dim * q` are written), and the memory of the user is
overrun. -/
theorem applyXPlain_wrong (hop : ∀ c, op = .dudx c → c < 3) (hl : Local op) {s : Space} {k : Nat} (hk : 2 ≤ k) (hT : Nondeg (T 0)) (X : Nat → ℝ)
    {q size : Nat} (hq : 2 ≤ q)
    (hsize : ∀ m : Mem ℝ, m.q = q → m.f = 1 → ∀ A, ctOp Real.sqrt m op (.vec k (.leaf s)) = some A → reqX A.usz A.exr A.nfa q 1 ≤ size ∧
      size < reqX A.usz A.exr A.nfa q 1 - exrSize A.exr A.nfa 1 + A.dim * q) (mem dofs opU : Nat → ℝ) :
    applyXPlain size X q T op (.vec k (.leaf s)) a mem dofs opU = .overrun := by
  obtain ⟨a', vol, w, h1, h2, -⟩ := setX_right T a false false X (show 0 < q by omega) (le_refl (4 * q)) hT
  unfold applyXPlain
  rw [h1]
  simp only [Outcome.bind]
  obtain ⟨A, hA⟩ := ctOp_defined a'.mem hl (.vec k (.leaf s))
  rw [hA]
  simp only []
  obtain ⟨f1, f2⟩ := hsize a'.mem h2.points h2.tetras A hA
  have hE : A.exr ≤ exrSize A.exr A.nfa 1 := le_max_left _ _
  unfold reqX reqL at f1 f2
  rw [if_neg (by omega)]
  obtain ⟨m', M, hM, hp⟩ := vec_parts T h2.geo hop hl hA (u := 4 * q + (3 * q * 1 + 3 * 4 * 1 + 3 * 3 * 1 + 1 + 1)) hE (le_refl _) mem
  unfold runCt
  rw [hA]
  simp only []
  rw [if_pos ⟨le_refl _, hE, by omega⟩, hM]
  simp only []
  rw [if_pos]
  rw [hp, h2.points, h2.tetras]
  exact ⟨by omega, by omega, by omega⟩

/-- Three copies of P1, their values at five points in memory of exactly the demanded size. -/
example (hT : Nondeg (T 0)) (X mem dofs opU : Nat → ℝ) :
    applyXPlain (reqX 20 0 12 5 1) X 5 T .iden (.vec 3 (.leaf .p1)) a mem dofs opU = .overrun := by
  refine applyXPlain_wrong T a (op := .iden) nofun ⟨nofun, nofun⟩ (k := 3) (by decide) hT X (q := 5) (by decide) ?_ mem dofs opU
  intro m hq hf A hA
  simp only [ctOp, ctLeaf, simple, Option.map_some, Option.some.injEq] at hA
  subst hA
  simp [CtOp.vec, CtOp.fix, direct, hq, hf, reqX, reqL, exrSize]

end

/-! ### Several tetrahedrons -/

section
variable (T : Nat → Nat → Nat → ℝ) (a : Arr ℝ) {op : OpT} {s : Space} {φ : Nat → Nat → Field}

/-- **C55** `fem3DapplyL` in memory of the user for several tetrahedrons and a simple space: the values on every tetrahedron, if the memory for the
result held zeros.  Missing: other contents (`applyLPlain_wrong`), spaces with several parts (C45). -/
theorem applyLPlain_cleared_partial (hop : ∀ c, op = .dudx c → c < 3) {f : Nat} (hf : 0 < f) (hT : ∀ r, r < f → Nondeg (T r))
    (hφ : ∀ r, r < f → Basis (T r) (.leaf s) (φ r)) (L : Nat → ℝ) {nl size : Nat} (hq : 0 < nl / 4)
    (hL : ∀ n, n < nl / 4 → L (4 * n) + L (4 * n + 1) + L (4 * n + 2) + L (4 * n + 3) = 1)
    (hdef : ∀ m : Mem ℝ, (ctOp Real.sqrt m op (.leaf s)).isSome)
    (hsize : ∀ m : Mem ℝ, m.q = nl / 4 → m.f = f → ∀ A, ctOp Real.sqrt m op (.leaf s) = some A → reqL A.usz A.exr A.nfa (nl / 4) f ≤ size)
    (mem dofs opU : Nat → ℝ) (hz : ∀ p, opU p = 0) :
    Ends (applyLPlain size L nl f T op (.leaf s) a mem dofs opU) fun R => ∀ r, r < f →
      Values op (.leaf s) (nl / 4) (comb (nfa (.leaf s)) (φ r) fun i => dofs (i + nfa (.leaf s) * r)) (fun n => mix (T r) fun c => L (4 * n + c))
        fun p => R (p + opDim op (dim (.leaf s)) * (nl / 4) * r) := by
  obtain ⟨vol, w, P, -⟩ := setL_right T a false L hq hf hT hL
  unfold applyLPlain
  simp only []
  obtain ⟨A, hA⟩ := Option.isSome_iff_exists.1 (hdef (setL false L nl f T a).mem)
  rw [hA]
  simp only []
  have f1 := hsize _ P.points P.tetras A hA
  unfold reqL at f1
  rw [if_neg (by omega), if_neg (by omega)]
  generalize hh : 3 * (nl / 4) * f + 3 * 4 * f + 3 * 3 * f + f + f = head at *
  have hE : A.exr ≤ exrSize A.exr A.nfa f := le_max_left _ _
  obtain ⟨v, hc, hd, hnf, ha⟩ := ctOp_right P.geo hop (.leaf s) A trivial hA
  have e1 : (setL false L nl f T a).mem.q = nl / 4 := P.points
  have e2 : (setL false L nl f T a).mem.f = f := P.tetras
  rw [e1, e2] at hc ha
  obtain ⟨m', M, hM, -, g⟩ := hc mem head (head + A.usz) (exrSize A.exr A.nfa f) hE (Or.inl (by omega))
  have hone := leaf_one P.geo hop hA hM A.dim A.nfa
  unfold runCt
  rw [hA]
  simp only []
  rw [if_pos ⟨le_refl _, hE, by omega⟩, hM]
  simp only []
  rw [if_neg (fun h => h.1 hone), P.points, P.tetras]
  refine ⟨_, rfl, fun r hr l hl n hn => ?_⟩
  have h := applied_entry (v := v) (fun l hl n hn i hi r hr => g.val l (hl.trans_eq hd.symm) n hn i (hi.trans_eq hnf.symm) r hr) ha hr (hφ r hr)
    dofs hl hn
  have h2 := Elemental.fem3DApply_cleared_partial _ A.dim A.nfa (nl / 4) f g.ok hone dofs (fun p => m' (head + A.usz + p)) opU (fun p _ _ => hz p) l n r
    (hl.trans_eq hd.symm) hn hr
  rw [← hd]
  show Entry _ _ _ _ (Elemental.fem3DApply _ A.dim A.nfa (nl / 4) f dofs _ opU (l + A.dim * n + A.dim * (nl / 4) * r))
  rw [h2]
  rw [← hnf] at h ⊢
  exact h

/-- **C55 fails** for several tetrahedrons and every simple space: there is a content of the memory for the result with which the values on every
tetrahedron but the first are wrong. -/
theorem applyLPlain_wrong (hop : ∀ c, op = .dudx c → c < 3) {f : Nat} (hf : 0 < f) (hT : ∀ r, r < f → Nondeg (T r))
    (hφ : ∀ r, r < f → Basis (T r) (.leaf s) (φ r)) (L : Nat → ℝ) {nl size : Nat} (hq : 0 < nl / 4)
    (hL : ∀ n, n < nl / 4 → L (4 * n) + L (4 * n + 1) + L (4 * n + 2) + L (4 * n + 3) = 1)
    (hdef : ∀ m : Mem ℝ, (ctOp Real.sqrt m op (.leaf s)).isSome)
    (hsize : ∀ m : Mem ℝ, m.q = nl / 4 → m.f = f → ∀ A, ctOp Real.sqrt m op (.leaf s) = some A → reqL A.usz A.exr A.nfa (nl / 4) f ≤ size)
    (mem dofs : Nat → ℝ) {r : Nat} (h0 : 0 < r) (hr : r < f) (hdim : 0 < opDim op (dim (.leaf s))) :
    ∃ opU, Ends (applyLPlain size L nl f T op (.leaf s) a mem dofs opU) fun R =>
      ¬ Values op (.leaf s) (nl / 4) (comb (nfa (.leaf s)) (φ r) fun i => dofs (i + nfa (.leaf s) * r)) (fun n => mix (T r) fun c => L (4 * n + c))
        fun p => R (p + opDim op (dim (.leaf s)) * (nl / 4) * r) := by
  obtain ⟨vol, w, P, -⟩ := setL_right T a false L hq hf hT hL
  unfold applyLPlain
  simp only []
  obtain ⟨A, hA⟩ := Option.isSome_iff_exists.1 (hdef (setL false L nl f T a).mem)
  rw [hA]
  simp only []
  have f1 := hsize _ P.points P.tetras A hA
  unfold reqL at f1
  simp only [if_neg (show ¬ f = 0 by omega), if_neg (show ¬ size < 3 * (nl / 4) * f + 3 * 4 * f + 3 * 3 * f + f + f + A.usz by omega)]
  generalize hh : 3 * (nl / 4) * f + 3 * 4 * f + 3 * 3 * f + f + f = head at *
  have hE : A.exr ≤ exrSize A.exr A.nfa f := le_max_left _ _
  obtain ⟨v, hc, hd, hnf, ha⟩ := ctOp_right P.geo hop (.leaf s) A trivial hA
  have e1 : (setL false L nl f T a).mem.q = nl / 4 := P.points
  have e2 : (setL false L nl f T a).mem.f = f := P.tetras
  rw [e1, e2] at hc ha
  obtain ⟨m', M, hM, -, g⟩ := hc mem head (head + A.usz) (exrSize A.exr A.nfa f) hE (Or.inl (by omega))
  have hone := leaf_one P.geo hop hA hM A.dim A.nfa
  unfold runCt
  simp only [hA, if_pos (show A.usz ≤ A.usz ∧ A.exr ≤ exrSize A.exr A.nfa f ∧ exrSize A.exr A.nfa f ≤ size - (head + A.usz) from ⟨le_refl _, hE, by omega⟩),
    hM, hone, ne_eq, not_true_eq_false, false_and, if_false, P.points, P.tetras]
  obtain ⟨opU, hw⟩ := Elemental.fem3DApply_wrong _ A.dim A.nfa (nl / 4) f g.ok hone dofs (fun p => m' (head + A.usz + p)) 0 0 r (hdim.trans_eq hd.symm) hq h0 hr
  refine ⟨opU, _, rfl, fun hV => hw ?_⟩
  have h := applied_entry (v := v) (fun l hl n hn i hi r hr => g.val l (hl.trans_eq hd.symm) n hn i (hi.trans_eq hnf.symm) r hr) ha hr (hφ r hr)
    dofs hdim hq
  have h1 := hV 0 hdim 0 hq
  rw [← hd] at h1
  rw [← hnf] at h h1
  exact entry_unique h1 h

end

/-! ### Examples -/

section
variable (a : Arr ℝ)

/-- every space has basis functions on a tetrahedron of volume not zero -/
theorem basis_exists {T : Nat → Nat → ℝ} (hT : Nondeg T) (F : Fem) : ∃ φ, Basis T F φ := by
  have : ∀ i, ∃ φ, i < nfa F → Nth T F i φ := fun i => by
    by_cases hi : i < nfa F
    · obtain ⟨φ, h⟩ := nth_exists hT F i hi
      exact ⟨φ, fun _ => h⟩
    · exact ⟨fun _ _ => 0, fun h => absurd h hi⟩
  choose φ h using this
  exact ⟨φ, h⟩

-- the gradient of three copies of P2 at seven points of a tetrahedron, for run-time operators: with ten thousand numbers of memory it is not refused
example (X : Nat → ℝ) (st : OpStack.St ℝ) (dofs opU : Nat → ℝ) : ∃ φ, Basis sampleT (.vec 3 (.leaf .p2)) φ ∧
    Ends (applyXRt 10000 X 7 (fun _ => sampleT) .grad (.vec 3 (.leaf .p2)) a st dofs opU)
      (Values .grad (.vec 3 (.leaf .p2)) 7 (comb 30 φ dofs) fun n k => X (3 * n + k)) := by
  obtain ⟨φ, hφ⟩ := basis_exists sampleT_nondeg (.vec 3 (.leaf .p2))
  refine ⟨φ, hφ, (applyXRt_right_partial (fun _ => sampleT) a (op := .grad) nofun (by simp [Wf]) (sound_of (op := .grad) nofun _)
    (by simp [nfa, leafNfa]) sampleT_nondeg hφ X (q := 7) (by decide) 10000 st dofs opU).resolve_left ?_⟩
  rintro ⟨-, m, h1, h2, h3⟩
  obtain ⟨A, hA⟩ := rtOp_defined m (.vec 3 (.leaf .p2)) .grad (by simp [Wf]) (Or.inl ⟨nofun, nofun⟩)
  have := h3 A hA
  simp only [rtOp, rtLeaf, ctLeaf, simple, Option.map_some, Option.some.injEq] at hA
  subst hA
  simp [OpStack.vec, OpStack.leaf, CtOp.fix, byTable, h1, h2, reqND, rtExr] at this

-- the same on the stack, in arrays for seven points
example (X mem dofs opU : Nat → ℝ) : ∃ φ, Basis sampleT (.vec 3 (.leaf .p2)) φ ∧
    Ends (applyXStack 7 X 7 (fun _ => sampleT) .grad (.vec 3 (.leaf .p2)) a mem dofs opU)
      (Values .grad (.vec 3 (.leaf .p2)) 7 (comb (nfa (.vec 3 (.leaf .p2))) φ dofs) fun n k => X (3 * n + k)) := by
  obtain ⟨φ, hφ⟩ := basis_exists sampleT_nondeg (.vec 3 (.leaf .p2))
  refine ⟨φ, hφ, applyXStack_right_partial (fun _ => sampleT) a (op := .grad) nofun (by simp [Proper]) (by simp [nfa, leafNfa]) sampleT_nondeg hφ X
    (q := 7) (P := 7) (by decide) (by decide) (fun m => ?_) ?_ mem dofs opU⟩
  · obtain ⟨A, hA⟩ := ctOp_defined m (op := .grad) ⟨nofun, nofun⟩ (.vec 3 (.leaf .p2))
    rw [hA]
    rfl
  · intro m h1 h2 A hA
    simp only [ctOp, ctLeaf, simple, Option.map_some, Option.some.injEq] at hA
    subst hA
    simp [CtOp.vec, CtOp.fix, byTable, h1, h2]

-- eight points in arrays for seven: not refused and written behind the arrays
example (X mem dofs opU : Nat → ℝ) : applyXStack 7 X 8 (fun _ => sampleT) .grad (.vec 3 (.leaf .p2)) a mem dofs opU = .overrun :=
  applyXStack_wrong (fun _ => sampleT) a X (by decide) (by decide) mem dofs opU

-- the values of a function of P1 at two points given by barycentric coordinates, on the stack
example (mem dofs opU : Nat → ℝ) : ∃ φ, Basis sampleT (.leaf .p1) φ ∧
    Ends (applyLStack 24 1 (fun _ => 1 / 4) 8 1 (fun _ => sampleT) .iden (.leaf .p1) a mem dofs opU)
      (Values .iden (.leaf .p1) 2 (comb (nfa (.leaf .p1)) φ dofs) fun _ => mix sampleT fun _ => 1 / 4) := by
  obtain ⟨φ, hφ⟩ := basis_exists sampleT_nondeg (.leaf .p1)
  refine ⟨φ, hφ, applyLStack_right_partial (fun _ => sampleT) a (op := .iden) nofun (by simp [Proper]) (by simp [nfa, leafNfa]) sampleT_nondeg hφ
    (fun _ => 1 / 4) (nl := 8) (P := 24) (FU := 1) (by decide) (by decide) (by decide) (fun _ _ => by norm_num) (fun _ => rfl) ?_ mem dofs opU⟩
  intro m h1 h2 A hA
  simp only [ctOp, ctLeaf, simple, Option.some.injEq] at hA
  subst hA
  simp [CtOp.fix, direct, h1, h2]

-- ten points of three tetrahedrons in arrays for eight points of three
example (L mem dofs opU : Nat → ℝ) : applyLStack 8 3 L 40 3 (fun _ => sampleT) .iden (.leaf .p1) a mem dofs opU = .overrun :=
  applyLStack_wrong (fun _ => sampleT) a L (by decide) (by decide) (by decide) (by decide) mem dofs opU

-- three copies of P1 at five points with three numbers more than demanded
example (X mem dofs opU : Nat → ℝ) : ∃ φ, Basis sampleT (.vec 3 (.leaf .p1)) φ ∧
    Ends (applyXPlain (reqX 20 0 12 5 1 + 3) X 5 (fun _ => sampleT) .iden (.vec 3 (.leaf .p1)) a mem dofs opU)
      (Values .iden (.vec 3 (.leaf .p1)) 5 (comb (nfa (.vec 3 (.leaf .p1))) φ dofs) fun n k => X (3 * n + k)) := by
  obtain ⟨φ, hφ⟩ := basis_exists sampleT_nondeg (.vec 3 (.leaf .p1))
  refine ⟨φ, hφ, applyXPlain_right_partial (fun _ => sampleT) a (op := .iden) nofun (by simp [Proper]) (by simp [nfa, leafNfa]) sampleT_nondeg hφ X
    (q := 5) (by decide) (fun m => ?_) ?_ mem dofs opU⟩
  · obtain ⟨A, hA⟩ := ctOp_defined m (op := .iden) ⟨nofun, nofun⟩ (.vec 3 (.leaf .p1))
    rw [hA]
    rfl
  · intro m h1 h2 A hA
    simp only [ctOp, ctLeaf, simple, Option.map_some, Option.some.injEq] at hA
    subst hA
    simp [CtOp.vec, CtOp.fix, direct, h1, h2, reqX, reqL, exrSize]

-- the values of a function of P1 at two points of two tetrahedrons in memory of the demanded size: right in cleared memory, wrong in other memory
example (mem dofs : Nat → ℝ) : ∃ φ, Basis sampleT (.leaf .p1) φ ∧
    (Ends (applyLPlain (reqL 16 0 4 2 2) (fun _ => 1 / 4) 8 2 (fun _ => sampleT) .iden (.leaf .p1) a mem dofs fun _ => 0) fun R => ∀ r, r < 2 →
      Values .iden (.leaf .p1) 2 (comb (nfa (.leaf .p1)) φ fun i => dofs (i + nfa (.leaf .p1) * r)) (fun _ => mix sampleT fun _ => 1 / 4)
        fun p => R (p + opDim .iden (dim (.leaf .p1)) * 2 * r)) ∧
    ∃ opU, Ends (applyLPlain (reqL 16 0 4 2 2) (fun _ => 1 / 4) 8 2 (fun _ => sampleT) .iden (.leaf .p1) a mem dofs opU) fun R =>
      ¬ Values .iden (.leaf .p1) 2 (comb (nfa (.leaf .p1)) φ fun i => dofs (i + nfa (.leaf .p1) * 1)) (fun _ => mix sampleT fun _ => 1 / 4)
        fun p => R (p + opDim .iden (dim (.leaf .p1)) * 2 * 1) := by
  obtain ⟨φ, hφ⟩ := basis_exists sampleT_nondeg (.leaf .p1)
  have hs : ∀ m : Mem ℝ, m.q = 2 → m.f = 2 → ∀ A, ctOp Real.sqrt m .iden (.leaf .p1) = some A → reqL A.usz A.exr A.nfa 2 2 ≤ reqL 16 0 4 2 2 := by
    intro m h1 h2 A hA
    simp only [ctOp, ctLeaf, simple, Option.some.injEq] at hA
    subst hA
    simp [CtOp.fix, direct, h1, h2]
  refine ⟨φ, hφ, ?_, ?_⟩
  · exact applyLPlain_cleared_partial (fun _ => sampleT) a (φ := fun _ => φ) (op := .iden) nofun (f := 2) (by decide) (fun _ _ => sampleT_nondeg)
      (fun _ _ => hφ) (fun _ => 1 / 4) (nl := 8) (by decide) (fun _ _ => by norm_num) (fun _ => rfl) hs mem dofs _ fun _ => rfl
  · exact applyLPlain_wrong (fun _ => sampleT) a (φ := fun _ => φ) (op := .iden) nofun (f := 2) (by decide) (fun _ _ => sampleT_nondeg)
      (fun _ _ => hφ) (fun _ => 1 / 4) (nl := 8) (by decide) (fun _ _ => by norm_num) (fun _ => rfl) hs mem dofs (r := 1) (by decide) (by decide)
      (by simp [opDim, dim, leafDim])

-- the gradient of a function of P1 multiplied by a matrix that depends on the point
example (X : Nat → ℝ) (st : OpStack.St ℝ) (D DU dofs opU : Nat → ℝ) : ∃ φ, Basis sampleT (.leaf .p1) φ ∧
    Ends (applyXRtD 1000 0 X 3 (fun _ => sampleT) .grad (.leaf .p1) 2 .perPoint (fun y _ => (.general, fun p => y.1 + p)) a st D DU dofs opU)
      (TensorValues .grad (.leaf .p1) 2 (fun y _ => (.general, fun p => y.1 + p)) 3 (comb (nfa (.leaf .p1)) φ dofs) fun n k => X (3 * n + k)) := by
  obtain ⟨φ, hφ⟩ := basis_exists sampleT_nondeg (.leaf .p1)
  refine ⟨φ, hφ, (applyXRtD_right_partial (fun _ => sampleT) a (op := .grad) nofun (by simp [Wf]) (sound_of (op := .grad) nofun _)
    (by simp [nfa, leafNfa]) sampleT_nondeg hφ X (q := 3) (ddim := 2) (func := 0) (by decide) 1000 (tr := .perPoint)
    (fn := fun y _ => (.general, fun p => y.1 + p)) (fun _ => trivial) (fun _ => trivial) st D DU dofs
    opU).resolve_left ?_⟩
  rintro ⟨-, m, h1, h2, h3⟩
  obtain ⟨A, hA⟩ := rtOp_defined m (.leaf .p1) .grad (by simp [Wf]) (Or.inl ⟨nofun, nofun⟩)
  have := h3 A hA
  simp only [rtOp, rtLeaf, ctLeaf, simple, Option.map_some, Option.some.injEq] at hA
  subst hA
  simp [OpStack.leaf, CtOp.fix, direct, h1, h2, reqD, rtExr] at this

-- the same at a point given by barycentric coordinates
example (st : OpStack.St ℝ) (D DU dofs opU : Nat → ℝ) : ∃ φ, Basis sampleT (.leaf .p1) φ ∧
    Ends (applyLRtD 1000 0 (fun _ => 1 / 4) 4 1 (fun _ => sampleT) .grad (.leaf .p1) 2 .perPoint (fun y _ => (.general, fun p => y.1 + p)) a st D DU dofs opU)
      (TensorValues .grad (.leaf .p1) 2 (fun y _ => (.general, fun p => y.1 + p)) 1 (comb (nfa (.leaf .p1)) φ dofs) fun _ => mix sampleT fun _ => 1 / 4) := by
  obtain ⟨φ, hφ⟩ := basis_exists sampleT_nondeg (.leaf .p1)
  refine ⟨φ, hφ, (applyLRtD_right_partial (fun _ => sampleT) a (op := .grad) nofun (by simp [Wf]) (sound_of (op := .grad) nofun _)
    (by simp [nfa, leafNfa]) sampleT_nondeg hφ (fun _ => 1 / 4) (nl := 4) (ddim := 2) (func := 0) (by decide) (fun _ _ => by norm_num) 1000
    (tr := .perPoint) (fn := fun y _ => (.general, fun p => y.1 + p)) (fun _ => trivial) (fun _ => trivial) st D DU dofs opU).resolve_left ?_⟩
  rintro ⟨-, m, h1, h2, h3⟩
  obtain ⟨A, hA⟩ := rtOp_defined m (.leaf .p1) .grad (by simp [Wf]) (Or.inl ⟨nofun, nofun⟩)
  have := h3 A hA
  simp only [rtOp, rtLeaf, ctLeaf, simple, Option.map_some, Option.some.injEq] at hA
  subst hA
  simp [OpStack.leaf, CtOp.fix, direct, h1, h2, reqD, rtExr] at this

-- without a tensor, for run-time and for compile-time operators
example (st : OpStack.St ℝ) (mem dofs opU : Nat → ℝ) : ∃ φ, Basis sampleT (.leaf .p1) φ ∧
    Ends (applyLRt 1000 (fun _ => 1 / 4) 8 1 (fun _ => sampleT) .grad (.leaf .p1) a st dofs opU)
      (Values .grad (.leaf .p1) 2 (comb (nfa (.leaf .p1)) φ dofs) fun _ => mix sampleT fun _ => 1 / 4) ∧
    Ends (applyLPlain 1000 (fun _ => 1 / 4) 8 1 (fun _ => sampleT) .grad (.leaf .p1) a mem dofs opU)
      (Values .grad (.leaf .p1) 2 (comb (nfa (.leaf .p1)) φ dofs) fun _ => mix sampleT fun _ => 1 / 4) := by
  obtain ⟨φ, hφ⟩ := basis_exists sampleT_nondeg (.leaf .p1)
  refine ⟨φ, hφ, (applyLRt_right_partial (fun _ => sampleT) a (op := .grad) nofun (by simp [Wf]) (sound_of (op := .grad) nofun _)
    (by simp [nfa, leafNfa]) sampleT_nondeg hφ (fun _ => 1 / 4) (nl := 8) (by decide) (fun _ _ => by norm_num) 1000 st dofs opU).resolve_left ?_,
    applyLPlain_right_partial (fun _ => sampleT) a (op := .grad) nofun (by simp [Proper]) (by simp [nfa, leafNfa]) sampleT_nondeg hφ
    (fun _ => 1 / 4) (nl := 8) (by decide) (fun _ _ => by norm_num) (fun _ => rfl) ?_ mem dofs opU⟩
  · rintro ⟨-, m, h1, h2, h3⟩
    obtain ⟨A, hA⟩ := rtOp_defined m (.leaf .p1) .grad (by simp [Wf]) (Or.inl ⟨nofun, nofun⟩)
    have := h3 A hA
    simp only [rtOp, rtLeaf, ctLeaf, simple, Option.map_some, Option.some.injEq] at hA
    subst hA
    simp [OpStack.leaf, CtOp.fix, direct, h1, h2, reqND, rtExr] at this
  · intro m h1 h2 A hA
    simp only [ctOp, ctLeaf, simple, Option.some.injEq] at hA
    subst hA
    simp [CtOp.fix, direct, h1, h2, reqL, exrSize]

end

end Verif.Eval
