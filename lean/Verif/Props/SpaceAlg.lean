import Verif.Lemmas.SpaceAlg
import Verif.Props.DofMap
import Verif.Props.SpaceOpRt2

/-!
**C61**: sums, products and powers of run-time spaces.
-/
namespace Verif.SpaceAlg

open Verif.Order Verif.SpaceOp

/-! ### Basis functions -/

theorem sameFns_of {F H : Fem} (h1 : dim F = dim H) (h2 : nfa F = nfa H) (h3 : ∀ T i φ, Nth T F i φ ↔ Nth T H i φ) : SameFns F H :=
  ⟨h1, h2, fun T i => ⟨fun φ h => ⟨φ, (h3 T i φ).1 h, fun _ _ _ => rfl⟩, fun χ h => ⟨χ, (h3 T i χ).2 h, fun _ _ _ => rfl⟩⟩⟩

/-- **C61**: joining spaces into a product with simplification gives the basis functions of the plain product, in the same order. -/
theorem complexSimplified_same (l : Fems) : SameFns (complexSimplified l) (complexRaw l) := by
  obtain ⟨h1, h2, h3⟩ := joinFactors_same l
  refine sameFns_of ?_ ?_ fun T i φ => ?_
  · rw [complexSimplified, complexRaw, dim, dim, h1]
  · rw [complexSimplified, complexRaw, nfa, nfa, h2]
  · rw [complexSimplified, complexRaw, Nth, Nth, h3]

/-- **C61**: `a * b` has the basis functions of the product of the two spaces: those of `a` in the first components, then those of `b` in
the last components. -/
theorem mul_same (a b : Fem) : SameFns (mulS a b) (.com (.cons a (.cons b .nil))) := by
  rw [mulS_join]
  exact complexSimplified_same _

/-- **C61**: the product is associative: the space does not depend on the brackets. -/
theorem mul_assoc (a b c : Fem) : mulS (mulS a b) c = mulS a (mulS b c) := by
  simp only [mulS, factors, append_assoc]

-- a product of a product and a power: 3 members, 12 + 1 + 20 functions in 3 + 1 + 1 components, another tree than the plain product
example : mulS (.com (.cons (.vec 3 (.leaf .p1)) (.cons (.leaf .b4) .nil))) (.leaf .p3) =
      .com (.cons (.vec 3 (.leaf .p1)) (.cons (.leaf .b4) (.cons (.leaf .p3) .nil))) ∧
    nfa (mulS (.com (.cons (.vec 3 (.leaf .p1)) (.cons (.leaf .b4) .nil))) (.leaf .p3)) = 33 ∧
    dim (mulS (.com (.cons (.vec 3 (.leaf .p1)) (.cons (.leaf .b4) .nil))) (.leaf .p3)) = 5 := by
  refine ⟨rfl, ?_, ?_⟩
  · simp [mulS, factors, append, nfa, nfaSum, leafNfa]
  · simp [mulS, factors, append, dim, dimSum, leafDim]

theorem dimFirst_joinTerms {l : Fems} (h : WfAll l) : dimFirst (joinTerms l) = dimFirst l := by
  cases l with
  | nil => rfl
  | cons a t =>
    rw [WfAll] at h
    obtain ⟨-, h2, h3⟩ := terms_wf h.1
    rw [joinTerms, dimFirst]
    cases ht : terms a with
    | nil => exact absurd ht h2
    | cons b r =>
      rw [ht, SameDim] at h3
      rw [append, dimFirst, h3.1]

theorem sameDim_joinTerms {d : Nat} : ∀ {l : Fems}, WfAll l → (SameDim d (joinTerms l) ↔ SameDim d l)
  | .nil, _ => Iff.rfl
  | .cons a t, h => by
    rw [WfAll] at h
    obtain ⟨-, h2, h3⟩ := terms_wf h.1
    rw [joinTerms, sameDim_append, sameDim_joinTerms h.2, SameDim]
    refine and_congr_left fun _ => ⟨fun h4 => ?_, fun h4 => h4 ▸ h3⟩
    rw [← dimFirst_of_sameDim h2 h3, dimFirst_of_sameDim h2 h4]

/-- **C61**: joining spaces into a sum with simplification is possible exactly when the plain sum is, and gives its basis functions. -/
theorem unionSimplified_same (l : Fems) (hl : WfAll l) : (unionSimplified l).isSome = (unionRaw l).isSome ∧
    ∀ F, unionSimplified l = some F → SameFns F (.union l) := by
  have hd := dimFirst_joinTerms hl
  have ho : oneDim (joinTerms l) = oneDim l := by
    rw [Bool.eq_iff_iff, oneDim_iff, oneDim_iff, hd, sameDim_joinTerms hl]
  refine ⟨?_, fun F hF => ?_⟩
  · rw [unionSimplified, unionRaw, mkUnion, mkUnion, ho]
    split <;> rfl
  · rw [unionSimplified, mkUnion] at hF
    split at hF
    · cases hF
      obtain ⟨h2, h3⟩ := joinTerms_same l
      refine sameFns_of ?_ ?_ fun T i φ => ?_
      · rw [dim, dim, hd]
      · rw [nfa, nfa, h2]
      · rw [Nth, Nth, h3]
    · cases hF

/-- **C61**: `a + b` exists exactly when the spaces have the same number of components, and has the basis functions of `a`, then those of
`b`. -/
theorem add_same {a b : Fem} (ha : Wf a) (hb : Wf b) : ((addS a b).isSome ↔ dim a = dim b) ∧
    ∀ F, addS a b = some F → SameFns F (.union (.cons a (.cons b .nil))) := by
  have hl : WfAll (.cons a (.cons b .nil)) := by
    rw [WfAll, WfAll, WfAll]
    exact ⟨ha, hb, trivial⟩
  obtain ⟨h1, h2⟩ := unionSimplified_same _ hl
  rw [addS_join]
  refine ⟨?_, h2⟩
  rw [h1, unionRaw, mkUnion, oneDim, oneDim.go, oneDim.go, Bool.and_true]
  by_cases h : dim b = dim a
  · simp [h]
  · rw [if_neg (by simpa using h)]
    simp only [Option.isSome_none, Bool.false_eq_true, false_iff]
    exact fun e => h e.symm

/-- **C61**: the sum is associative: neither the space nor its existence depends on the brackets. -/
theorem add_assoc {a b c : Fem} (ha : Wf a) (hb : Wf b) (hc : Wf c) :
    ((addS a b).bind fun s => addS s c) = (addS b c).bind fun s => addS a s := by
  obtain ⟨-, na, da⟩ := terms_wf ha
  obtain ⟨-, nb, db⟩ := terms_wf hb
  obtain ⟨-, nc, dc⟩ := terms_wf hc
  have key : ∀ {x y : Fem} {d e : Nat}, terms x ≠ .nil → SameDim d (terms x) → SameDim e (terms y) → terms y ≠ .nil →
      (oneDim (append (terms x) (terms y)) = true ↔ d = e) := by
    intro x y d e h1 h2 h3 h4
    rw [oneDim_iff]
    have : dimFirst (append (terms x) (terms y)) = d := by
      cases hx : terms x with
      | nil => exact absurd hx h1
      | cons u v => rw [hx, SameDim] at h2; rw [append, dimFirst, h2.1]
    rw [this, sameDim_append]
    refine ⟨fun h => ?_, fun h => ⟨h2, h ▸ h3⟩⟩
    rw [← dimFirst_of_sameDim h4 h.2, dimFirst_of_sameDim h4 h3]
  have kab := key na da db nb
  have kbc := key nb db dc nc
  have three : ∀ d e g, SameDim d (terms a) → SameDim e (terms b) → SameDim g (terms c) →
      (oneDim (append (terms a) (append (terms b) (terms c))) = true ↔ d = e ∧ d = g) := by
    intro d e g h1 h2 h3
    rw [oneDim_iff]
    have : dimFirst (append (terms a) (append (terms b) (terms c))) = d := by
      cases hx : terms a with
      | nil => exact absurd hx na
      | cons u v => rw [hx, SameDim] at h1; rw [append, dimFirst, h1.1]
    rw [this, sameDim_append, sameDim_append]
    refine ⟨fun h => ⟨?_, ?_⟩, fun h => ⟨h1, h.1 ▸ h2, h.2 ▸ h3⟩⟩
    · rw [← dimFirst_of_sameDim nb h.2.1, dimFirst_of_sameDim nb h2]
    · rw [← dimFirst_of_sameDim nc h.2.2, dimFirst_of_sameDim nc h3]
  have t3 := three _ _ _ da db dc
  unfold addS mkUnion
  by_cases h1 : dim a = dim b
  · rw [if_pos (kab.2 h1), Option.bind_some, terms, append_assoc]
    by_cases h2 : dim b = dim c
    · rw [if_pos (kbc.2 h2), Option.bind_some, terms]
    · rw [if_neg fun h => h2 (kbc.1 h), Option.bind_none, if_neg fun h => h2 (h1.symm.trans (t3.1 h).2)]
  · rw [if_neg fun h => h1 (kab.1 h), Option.bind_none]
    by_cases h2 : dim b = dim c
    · rw [if_pos (kbc.2 h2), Option.bind_some, terms, if_neg fun h => h1 (t3.1 h).1]
    · rw [if_neg fun h => h2 (kbc.1 h), Option.bind_none]

-- P1 + B4 + P0 in both orders of brackets; P1 + P1³ does not exist
example : ((addS (.leaf .p1) (.leaf .b4)).bind fun s => addS s (.leaf .p0)) =
      some (.union (.cons (.leaf .p1) (.cons (.leaf .b4) (.cons (.leaf .p0) .nil)))) ∧
    addS (.leaf .p1) (.vec 3 (.leaf .p1)) = none := by
  constructor
  · simp [addS, terms, append, mkUnion, oneDim, oneDim.go, dim, leafDim]
  · simp [addS, terms, append, mkUnion, oneDim, oneDim.go, dim, leafDim]

/-! ### The members of a product -/

theorem nfaSum_eq : ∀ {l : Fems} {m : Nat} {h : Fem}, member l m = some h → nfaBefore l m + nfa h ≤ nfaSum l ∧ dimBefore l m + dim h ≤ dimSum l
  | .nil, _, _, h => by rw [member] at h; cases h
  | .cons a t, 0, b, h => by
    rw [member] at h
    cases h
    rw [nfaSum, dimSum, nfaBefore, dimBefore]
    · omega
    · nofun
    · nofun
  | .cons a t, m + 1, b, h => by
    rw [member] at h
    have := nfaSum_eq h
    rw [nfaSum, dimSum, nfaBefore, dimBefore]
    omega

theorem nthCom_iff {T : Nat → Nat → ℝ} : ∀ (l : Fems) (i : Nat) (φ : Field), NthCom T l i φ ↔ ∃ m h j ψ, member l m = some h ∧ j < nfa h ∧
    i = nfaBefore l m + j ∧ Nth T h j ψ ∧
    ∀ x k, φ x k = if dimBefore l m ≤ k ∧ k < dimBefore l m + dim h then ψ x (k - dimBefore l m) else 0
  | .nil, i, φ => by
    rw [NthCom]
    refine ⟨False.elim, ?_⟩
    rintro ⟨m, h, j, ψ, e, -⟩
    rw [member] at e
    cases e
  | .cons a t, i, φ => by
    rw [NthCom]
    constructor
    · rintro (⟨h1, ψ, h2, e⟩ | ⟨j, ψ, rfl, h2, e⟩)
      · refine ⟨0, a, i, ψ, rfl, h1, by simp [nfaBefore], h2, fun x k => ?_⟩
        rw [e]
        simp [dimBefore]
      · obtain ⟨m, h, j', χ, h3, h4, rfl, h5, e2⟩ := (nthCom_iff t j ψ).1 h2
        refine ⟨m + 1, h, j', χ, h3, h4, by rw [nfaBefore]; omega, h5, fun x k => ?_⟩
        rw [e, e2, dimBefore]
        split_ifs <;> first | rfl | omega | rw [Nat.sub_sub]
    · rintro ⟨m, h, j, ψ, h1, h2, rfl, h3, e⟩
      cases m with
      | zero =>
        rw [member] at h1
        cases h1
        refine Or.inl ⟨by simpa [nfaBefore] using h2, ψ, by simpa [nfaBefore] using h3, fun x k => ?_⟩
        rw [e]
        simp [dimBefore]
      | succ m =>
        rw [member] at h1
        refine Or.inr ⟨nfaBefore t m + j, _, by rw [nfaBefore]; omega, (nthCom_iff t _ _).2 ⟨m, h, j, ψ, h1, h2, rfl, h3, fun x k => rfl⟩, fun x k => ?_⟩
        rw [e, dimBefore]
        split_ifs <;> first | rfl | omega | rw [Nat.sub_sub]

theorem nthUnion_iff {T : Nat → Nat → ℝ} : ∀ (l : Fems) (i : Nat) (φ : Field), NthUnion T l i φ ↔ ∃ m h j, member l m = some h ∧ j < nfa h ∧
    i = nfaBefore l m + j ∧ Nth T h j φ
  | .nil, i, φ => by
    rw [NthUnion]
    refine ⟨False.elim, ?_⟩
    rintro ⟨m, h, j, e, -⟩
    rw [member] at e
    cases e
  | .cons a t, i, φ => by
    rw [NthUnion]
    constructor
    · rintro (⟨h1, h2⟩ | ⟨j, rfl, h2⟩)
      · exact ⟨0, a, i, rfl, h1, by simp [nfaBefore], h2⟩
      · obtain ⟨m, h, j', h3, h4, rfl, h5⟩ := (nthUnion_iff t j φ).1 h2
        exact ⟨m + 1, h, j', h3, h4, by rw [nfaBefore]; omega, h5⟩
    · rintro ⟨m, h, j, h1, h2, rfl, h3⟩
      cases m with
      | zero =>
        rw [member] at h1
        cases h1
        exact Or.inl ⟨by simpa [nfaBefore] using h2, by simpa [nfaBefore] using h3⟩
      | succ m =>
        rw [member] at h1
        exact Or.inr ⟨nfaBefore t m + j, by rw [nfaBefore]; omega, (nthUnion_iff t _ _).2 ⟨m, h, j, h1, h2, rfl, h3⟩⟩

theorem member_copies {b : Fem} : ∀ {n m : Nat} {h : Fem}, member (copies n b) m = some h ↔ m < n ∧ h = b
  | 0, m, h => by rw [copies, member]; simp
  | n + 1, 0, h => by
    rw [copies, member, Option.some.injEq]
    exact ⟨fun e => ⟨by omega, e.symm⟩, fun e => e.2.symm⟩
  | n + 1, m + 1, h => by
    rw [copies, member, member_copies]
    exact and_congr_left fun _ => by omega

theorem before_copies {b : Fem} : ∀ {n m : Nat}, m ≤ n → dimBefore (copies n b) m = dim b * m ∧ nfaBefore (copies n b) m = nfa b * m
  | n, 0, _ => by simp [dimBefore, nfaBefore]
  | 0, m + 1, h => by omega
  | n + 1, m + 1, h => by
    have := before_copies (b := b) (show m ≤ n by omega)
    rw [copies, dimBefore, nfaBefore, this.1, this.2, Nat.mul_succ, Nat.mul_succ]
    omega

theorem sums_copies (b : Fem) : ∀ n, dimSum (copies n b) = n * dim b ∧ nfaSum (copies n b) = n * nfa b
  | 0 => by rw [copies, dimSum, nfaSum]; omega
  | n + 1 => by
    rw [copies, dimSum, nfaSum, (sums_copies b n).1, (sums_copies b n).2, Nat.succ_mul, Nat.succ_mul]
    omega

theorem div_eq_iff' {d k c : Nat} (hd : 0 < d) : k / d = c ↔ d * c ≤ k ∧ k < d * c + d := by
  rw [Nat.div_eq_iff hd]
  constructor <;> intro h <;> constructor <;> have := Nat.mul_comm d c <;> omega

/-- **C61**: the power `a ^ n` has the basis functions of the product of `n` copies. -/
theorem pow_same {a F : Fem} {k : Int} (h : powS a k = some F) : 0 ≤ k ∧ SameFns F (.com (copies k.toNat a)) := by
  unfold powS at h
  split at h
  · cases h
  · cases h
    refine ⟨by omega, ?_, ?_, fun T i => ⟨fun φ h => ?_, fun χ h => ?_⟩⟩
    · rw [dim, dim, (sums_copies a _).1]
    · rw [nfa, nfa, (sums_copies a _).2]
    · rw [Nth] at h
      obtain ⟨j, ψ, h1, h2, c, h3, rfl, e⟩ := h
      have hb := before_copies (b := a) (Nat.le_of_lt h3)
      refine ⟨fun x l => if dim a * c ≤ l ∧ l < dim a * c + dim a then ψ x (l - dim a * c) else 0, ?_, fun x l hl => ?_⟩
      · rw [Nth, nthCom_iff]
        refine ⟨c, a, j, ψ, member_copies.2 ⟨h3, rfl⟩, h1, by rw [hb.2], h2, fun x l => by rw [hb.1]⟩
      · rw [dim] at hl
        have hd : 0 < dim a := Nat.pos_of_ne_zero fun h0 => by rw [h0, Nat.mul_zero] at hl; omega
        rw [e x l hl]
        beta_reduce
        by_cases hc : l / dim a = c
        · rw [if_pos hc, if_pos ((div_eq_iff' hd).1 hc)]
          have := Nat.div_add_mod l (dim a)
          rw [hc] at this
          rw [show l % dim a = l - dim a * c by omega]
        · rw [if_neg hc, if_neg fun h => hc ((div_eq_iff' hd).2 h)]
    · rw [Nth, nthCom_iff] at h
      obtain ⟨c, b, j, ψ, h1, h2, rfl, h3, e⟩ := h
      obtain ⟨hc, rfl⟩ := member_copies.1 h1
      have hb := before_copies (b := b) (Nat.le_of_lt hc)
      refine ⟨fun x l => if l / dim b = c then ψ x (l % dim b) else 0, ?_, fun x l hl => ?_⟩
      · rw [Nth]
        exact ⟨j, ψ, h2, h3, c, hc, by rw [hb.2], fun x l _ => rfl⟩
      · rw [dim] at hl
        have hd : 0 < dim b := Nat.pos_of_ne_zero fun h0 => by rw [h0, Nat.mul_zero] at hl; omega
        rw [e, hb.1]
        beta_reduce
        by_cases hc : l / dim b = c
        · rw [if_pos hc, if_pos ((div_eq_iff' hd).1 hc)]
          have := Nat.div_add_mod l (dim b)
          rw [hc] at this
          rw [show l % dim b = l - dim b * c by omega]
        · rw [if_neg hc, if_neg fun h => hc ((div_eq_iff' hd).2 h)]

-- the third power of P2; a negative exponent is an exception
example : powS (.leaf .p2) 3 = some (.vec 3 (.leaf .p2)) ∧ powS (.leaf .p2) (-1) = none := ⟨rfl, rfl⟩

/-! ### Orders, degrees of freedom, operators -/

/-- **C61**: products and sums of well formed spaces are well formed. -/
theorem mul_wf {a b : Fem} (ha : Wf a) (hb : Wf b) : Wf (mulS a b) ∧ ∀ F, addS a b = some F → Wf F := by
  obtain ⟨h1, h2⟩ := wfAll_factors ha
  obtain ⟨h3, -⟩ := wfAll_factors hb
  refine ⟨?_, fun F hF => ?_⟩
  · rw [mulS, wf_com, wfAll_append]
    exact ⟨append_ne_nil h2, h1, h3⟩
  · obtain ⟨g1, g2, -⟩ := terms_wf ha
    obtain ⟨g3, -⟩ := terms_wf hb
    rw [addS, mkUnion] at hF
    split at hF
    · next ho =>
      cases hF
      rw [wf_union, wfAll_append]
      exact ⟨append_ne_nil g2, ⟨g1, g3⟩, (oneDim_iff _).1 ho⟩
    · cases hF

/-- **C61**: products, sums and the joining functions declare the polynomial orders of the plain composition. -/
theorem join_order (op : OpT) (l : Fems) : rtOrder op (complexSimplified l) = rtOrder op (.com l) ∧
    ∀ F, unionSimplified l = some F → rtOrder op F = rtOrder op (.union l) := by
  obtain ⟨h1, h2, h3⟩ := rt_joinFactors l
  obtain ⟨g1, g2, g3⟩ := rt_joinTerms l
  refine ⟨?_, fun F hF => ?_⟩
  · cases op <;> simp only [rtOrder, complexSimplified, rtIden, Order.rtDiv, rtDudx, h1, h2, h3]
  · rw [unionSimplified, mkUnion] at hF
    split at hF
    · cases hF
      cases op <;> simp only [rtOrder, rtIden, Order.rtDiv, rtDudx, g1, g2, g3]
    · cases hF

/-- **C61**: the d.o.f. map of a space has one d.o.f. for every basis function; those of products and sums made with simplification have
their degrees of freedom at the places and with the numbers of the plain composition. -/
theorem join_dofs (l : Fems) : (∀ F, (dofMap F).obj.numTet = nfa F) ∧
    DofMap.SameLayout (dofMap (complexSimplified l)).obj (dofMap (.com l)).obj ∧
    ∀ F, unionSimplified l = some F → DofMap.SameLayout (dofMap F).obj (dofMap (.union l)).obj := by
  refine ⟨numTet_dofMap, DofMap.sameLayout_of_lay ?_, fun F hF => ?_⟩
  · rw [complexSimplified, dofMap, dofMap, DofMap.merge, DofMap.merge, DofMap.lay_complex, DofMap.lay_complex, lay_joinFactors]
  · rw [unionSimplified, mkUnion] at hF
    split at hF
    · cases hF
      refine DofMap.sameLayout_of_lay ?_
      rw [dofMap, dofMap, DofMap.merge, DofMap.merge, DofMap.lay_complex, DofMap.lay_complex, lay_joinTerms]
    · cases hF

-- (P1 * RT0) * P3: 28 d.o.f., in another tree than the plain product
example : (dofMap (complexSimplified (.cons (.com (.cons (.leaf .p1) (.cons (.leaf .rt0) .nil))) (.cons (.leaf .p3) .nil)))).obj.numTet = 28 := by
  rw [numTet_dofMap]
  simp [complexSimplified, joinFactors, factors, append, nfa, nfaSum, leafNfa]

/-- **C61**: the numbers of d.o.f. of any map given by its symmetric groups: every group has as many members as there are points with
its symmetry.  Groups on edges and faces are listed twice, without and with orientation. -/
theorem sym_orbits (m : List Nat) :
    (symCounts m).node = orbit [0] * m.getD 0 0 ∧
    (symCounts m).eu = orbit [0, 0] * m.getD 1 0 + orbit [0, 1] * m.getD 2 0 ∧
    (symCounts m).eo = orbit [0, 0] * m.getD 3 0 + orbit [0, 1] * m.getD 4 0 ∧
    (symCounts m).fu = orbit [0, 0, 0] * m.getD 5 0 + orbit [0, 0, 1] * m.getD 6 0 + orbit [0, 1, 2] * m.getD 7 0 ∧
    (symCounts m).fo = orbit [0, 0, 0] * m.getD 8 0 + orbit [0, 0, 1] * m.getD 9 0 + orbit [0, 1, 2] * m.getD 10 0 ∧
    (symCounts m).cell = orbit [0, 0, 0, 0] * m.getD 11 0 + orbit [0, 0, 0, 1] * m.getD 12 0 + orbit [0, 0, 1, 1] * m.getD 13 0 +
      orbit [0, 0, 1, 2] * m.getD 14 0 + orbit [0, 1, 2, 3] * m.getD 15 0 := by
  have e1 : orbit [0] = 1 := by decide
  have e2 : orbit [0, 0] = 1 := by decide
  have e3 : orbit [0, 1] = 2 := by decide
  have e4 : orbit [0, 0, 0] = 1 := by decide
  have e5 : orbit [0, 0, 1] = 3 := by decide
  have e6 : orbit [0, 1, 2] = 6 := by decide
  have e7 : orbit [0, 0, 0, 0] = 1 := by decide +kernel
  have e8 : orbit [0, 0, 0, 1] = 4 := by decide +kernel
  have e9 : orbit [0, 0, 1, 1] = 6 := by decide +kernel
  have e10 : orbit [0, 0, 1, 2] = 12 := by decide +kernel
  have e11 : orbit [0, 1, 2, 3] = 24 := by decide +kernel
  rw [e1, e2, e3, e4, e5, e6, e7, e8, e9, e10, e11]
  exact ⟨rfl, rfl, rfl, rfl, rfl, rfl⟩

-- the cubic space with its two numbers on every edge: one group of two
example : (symCounts (leafSym .p3)).eu = orbit [0, 1] := by decide

theorem entry_congr {op : OpT} {φ χ : Field} {d : Nat} (e : ∀ x k, k < d → φ x k = χ x k) (hop : Local op ∨ d = 3) {l : Nat}
    (hl : l < opDim op d) (x : Nat → ℝ) (w : ℝ) : Entry op φ x l w ↔ Entry op χ x l w := by
  have hf : ∀ k, k < d → (fun y => φ y k) = fun y => χ y k := fun k hk => funext fun y => e y k hk
  cases op with
  | iden => rw [Entry, Entry, e x l hl]
  | grad =>
    rw [opDim] at hl
    rw [Entry, Entry, hf (l / 3) (by omega)]
  | dudx c => rw [Entry, Entry, hf l hl]
  | div =>
    have hd : d = 3 := hop.resolve_left fun h => h.1 rfl
    subst hd
    simp only [Entry]
    refine exists_congr fun dd => and_congr_left fun _ => forall_congr' fun j => forall_congr' fun hj => ?_
    rw [hf j hj]
  | curl =>
    have hd : d = 3 := hop.resolve_left fun h => h.2 rfl
    subst hd
    simp only [Entry]
    rw [hf ((l + 1) % 3) (Nat.mod_lt _ (by decide)), hf ((l + 2) % 3) (Nat.mod_lt _ (by decide))]

/-- Spaces with the same functions have the same values of the operators. -/
theorem applied_congr {F H : Fem} (h : SameFns F H) {op : OpT} (hop : Local op ∨ dim F = 3) (q f : Nat) (T : Nat → Nat → Nat → ℝ)
    (x : Nat → Nat → Nat → ℝ) (v : OpStack.Vals ℝ) : Applied q f T x op F v ↔ Applied q f T x op H v := by
  obtain ⟨h1, h2, h3⟩ := h
  constructor
  · intro ha l hl n hn i hi r hr χ hχ
    obtain ⟨φ, hφ, e⟩ := (h3 (T r) i).2 χ hχ
    rw [← h1] at hl
    exact (entry_congr e hop hl _ _).1 (ha l hl n hn i (h2.symm ▸ hi) r hr φ hφ)
  · intro ha l hl n hn i hi r hr φ hφ
    obtain ⟨χ, hχ, e⟩ := (h3 (T r) i).1 φ hφ
    exact (entry_congr e hop hl _ _).2 (ha l (h1 ▸ hl) n hn i (h2 ▸ hi) r hr χ hχ)

/-- **C61**: the operators of `a * b` give the derivatives of the basis functions of the plain product of `a` and `b`.  (Divergences of
products are excluded by `Sound`: they are wrong, C46.) -/
theorem mul_operators_partial {m : Spaces.Mem ℝ} {T : Nat → Nat → Nat → ℝ} {x : Nat → Nat → Nat → ℝ} (G : Geo m T x) {a b : Fem} (ha : Wf a) (hb : Wf b)
    {op : OpT} (hop : ∀ c, op = .dudx c → c < 3) (hl : Local op ∨ dim (mulS a b) = 3) (hs : Sound (mulS a b) op) :
    ∃ A v, rtOp Real.sqrt m (mulS a b) op = some A ∧ OpStack.Correct m.q m.f A v ∧ A.dim = opDim op (dim a + dim b) ∧ A.nfa = nfa a + nfa b ∧
      Applied m.q m.f T x op (.com (.cons a (.cons b .nil))) v := by
  have hw := (mul_wf ha hb).1
  obtain ⟨A, hA⟩ := rtOp_defined m (mulS a b) op hw hl
  obtain ⟨v, h1, h2, h3, h4⟩ := rtOp_right_partial G (mulS a b) op A hw hop hs hA
  have hd := (mul_same a b).1
  have hn := (mul_same a b).2.1
  rw [dim, dimSum, dimSum, dimSum, Nat.add_zero] at hd
  rw [nfa, nfaSum, nfaSum, nfaSum, Nat.add_zero] at hn
  exact ⟨A, v, hA, h1, hd ▸ h2, hn ▸ h3, (applied_congr (mul_same a b) hl _ _ _ _ _).1 h4⟩

/-- **C61**: the operators of `a + b` give the derivatives of the basis functions of `a`, then of those of `b`. -/
theorem add_operators_partial {m : Spaces.Mem ℝ} {T : Nat → Nat → Nat → ℝ} {x : Nat → Nat → Nat → ℝ} (G : Geo m T x) {a b F : Fem} (ha : Wf a) (hb : Wf b)
    (hF : addS a b = some F) {op : OpT} (hop : ∀ c, op = .dudx c → c < 3) (hl : Local op ∨ dim a = 3) (hs : Sound F op) :
    ∃ A v, rtOp Real.sqrt m F op = some A ∧ OpStack.Correct m.q m.f A v ∧ A.dim = opDim op (dim a) ∧ A.nfa = nfa a + nfa b ∧
      Applied m.q m.f T x op (.union (.cons a (.cons b .nil))) v := by
  have hw := (mul_wf ha hb).2 F hF
  have hsame := (add_same ha hb).2 F hF
  have hd := hsame.1
  have hn := hsame.2.1
  rw [dim, dimFirst] at hd
  rw [nfa, nfaSum, nfaSum, nfaSum, Nat.add_zero] at hn
  have hl' : Local op ∨ dim F = 3 := by rw [hd]; exact hl
  obtain ⟨A, hA⟩ := rtOp_defined m F op hw hl'
  obtain ⟨v, h1, h2, h3, h4⟩ := rtOp_right_partial G F op A hw hop hs hA
  exact ⟨A, v, hA, h1, hd ▸ h2, hn ▸ h3, (applied_congr hsame hl' _ _ _ _ _).1 h4⟩

/-! ### Sub-spaces -/

theorem partOf_trans {F B S : Fem} {s1 o1 s2 o2 : Nat} (h1 : PartOf F s1 o1 B) (h2 : PartOf B s2 o2 S) : PartOf F (s1 + s2) (o1 + o2) S := by
  obtain ⟨a1, a2, a3⟩ := h1
  obtain ⟨b1, b2, b3⟩ := h2
  refine ⟨by omega, by omega, fun T i ψ hi hψ => ?_⟩
  obtain ⟨χ, h3, e1⟩ := b3 T i ψ hi hψ
  obtain ⟨φ, h4, e2⟩ := a3 T (s2 + i) χ (by omega) h3
  refine ⟨φ, by rw [Nat.add_assoc]; exact h4, fun x k hk => ?_⟩
  rw [e2 x k hk]
  by_cases hc : o1 ≤ k ∧ k < o1 + dim B
  · rw [if_pos hc, e1 x (k - o1) (by omega)]
    split_ifs <;> first | rfl | omega | rw [Nat.sub_sub]
  · rw [if_neg hc, if_neg (by omega)]

theorem partOf_vec {n c : Nat} {b : Fem} (hc : c < n) : PartOf (.vec n b) (c * nfa b) (dim b * c) b := by
  refine ⟨?_, ?_, fun T i ψ hi hψ => ⟨fun x k => if k / dim b = c then ψ x (k % dim b) else 0, ?_, fun x k hk => ?_⟩⟩
  · rw [nfa, ← Nat.succ_mul]
    exact Nat.mul_le_mul_right _ hc
  · rw [dim, Nat.mul_comm, ← Nat.succ_mul]
    exact Nat.mul_le_mul_right _ hc
  · rw [Nth]
    exact ⟨i, ψ, hi, hψ, c, hc, by rw [Nat.mul_comm], fun x k _ => rfl⟩
  · rw [dim] at hk
    have hd : 0 < dim b := Nat.pos_of_ne_zero fun h0 => by rw [h0, Nat.mul_zero] at hk; omega
    beta_reduce
    by_cases hc : k / dim b = c
    · rw [if_pos hc, if_pos ((div_eq_iff' hd).1 hc)]
      have := Nat.div_add_mod k (dim b)
      rw [hc] at this
      rw [show k % dim b = k - dim b * c by omega]
    · rw [if_neg hc, if_neg fun h => hc ((div_eq_iff' hd).2 h)]

theorem partOf_com {l : Fems} {m : Nat} {b : Fem} (hm : member l m = some b) : PartOf (.com l) (nfaBefore l m) (dimBefore l m) b := by
  have := nfaSum_eq hm
  refine ⟨by rw [nfa]; omega, by rw [dim]; omega, fun T i ψ hi hψ => ⟨_, ?_, fun x k hk => rfl⟩⟩
  rw [Nth, nthCom_iff]
  exact ⟨m, b, i, ψ, hm, hi, rfl, hψ, fun x k => rfl⟩

theorem member_sameDim {d : Nat} : ∀ {l : Fems} {m : Nat} {b : Fem}, SameDim d l → member l m = some b → dim b = d
  | .nil, _, _, _, h => by rw [member] at h; cases h
  | .cons a t, 0, b, hs, h => by
    rw [member] at h
    rw [SameDim] at hs
    cases h
    exact hs.1
  | .cons a t, m + 1, b, hs, h => by
    rw [member] at h
    rw [SameDim] at hs
    exact member_sameDim hs.2 h

theorem partOf_union {l : Fems} (hw : Wf (.union l)) {m : Nat} {b : Fem} (hm : member l m = some b) :
    PartOf (.union l) (nfaBefore l m) 0 b := by
  have hd : dim b = dim (.union l) := by rw [dim]; exact member_sameDim (wf_union.1 hw).2.2 hm
  have := nfaSum_eq hm
  refine ⟨by rw [nfa]; omega, by omega, fun T i ψ hi hψ => ⟨ψ, ?_, fun x k hk => ?_⟩⟩
  · rw [Nth, nthUnion_iff]
    exact ⟨m, b, i, hm, hi, rfl, hψ⟩
  · rw [if_pos (by omega), Nat.sub_zero]

theorem member_wf : ∀ {l : Fems} {m : Nat} {b : Fem}, WfAll l → member l m = some b → Wf b
  | .nil, _, _, _, h => by rw [member] at h; cases h
  | .cons a t, 0, b, hs, h => by
    rw [member] at h
    rw [WfAll] at hs
    cases h
    exact hs.1
  | .cons a t, m + 1, b, hs, h => by
    rw [member] at h
    rw [WfAll] at hs
    exact member_wf hs.2 h

theorem dofMaps_get : ∀ (l : Fems) (m : Nat), (dofMaps l)[m]? = (member l m).map dofMap
  | .nil, m => by rw [dofMaps, member]; rfl
  | .cons a t, 0 => by rw [dofMaps, member]; rfl
  | .cons a t, m + 1 => by rw [dofMaps, member, ← dofMaps_get t m]; rfl

theorem dofMaps_length : ∀ l : Fems, (dofMaps l).length = size l
  | .nil => rfl
  | .cons a t => by rw [dofMaps, size, List.length_cons, dofMaps_length t]

theorem pre_dofMaps : ∀ (l : Fems) (m : Nat), m < size l →
    DofMap.pre ((DofMap.Tree.objs (dofMaps l)).map (·.numTet)) m = nfaBefore l m
  | .nil, m, h => by rw [size] at h; omega
  | .cons a t, 0, _ => by simp [DofMap.pre, nfaBefore]
  | .cons a t, m + 1, h => by
    rw [size] at h
    rw [dofMaps, DofMap.Tree.objs, List.map_cons, DofMap.pre_cons_succ, pre_dofMaps t m (by omega), numTet_dofMap, nfaBefore]

/-- one step of a path -/
theorem step (F : Fem) (hw : Wf F) (i : Int) : match subSpace F [i] with
    | none => DofMap.viewOf (dofMap F) [i] = none
    | some b => ∃ v, DofMap.viewOf (dofMap F) [i] = some v ∧ v.base = dofMap b ∧ PartOf F v.shiftTet (startOf F [i]) b ∧ Wf b := by
  have list : ∀ l : Fems, ∀ r : Option Fem, (if i < size l ∧ 0 ≤ i then member l i.toNat else none) = r →
      match r with
      | none => DofMap.viewOf (.complex (dofMaps l)) [i] = none
      | some b => ∃ v, DofMap.viewOf (.complex (dofMaps l)) [i] = some v ∧ v.base = dofMap b ∧ v.shiftTet = nfaBefore l i.toNat ∧
          member l i.toNat = some b := by
    intro l r hr
    unfold DofMap.viewOf DofMap.nested
    simp only [dofMaps_length, List.isEmpty_nil, if_true, dofMaps_get, Nat.zero_add]
    by_cases hi : i < size l ∧ 0 ≤ i
    · rw [if_pos hi] at hr
      rw [if_neg (by omega)]
      subst hr
      cases hm : member l i.toNat with
      | none => rfl
      | some b => exact ⟨_, rfl, rfl, pre_dofMaps l _ (by omega), rfl⟩
    · rw [if_neg hi] at hr
      subst hr
      rw [if_pos (by omega)]
  cases F with
  | leaf s => rw [subSpace]; rfl
  | vec n b =>
    rw [Wf] at hw
    rw [subSpace, dofMap, DofMap.pow]
    unfold DofMap.viewOf DofMap.nested
    simp only [List.isEmpty_nil, if_true, Nat.zero_add]
    by_cases hi : i < n ∧ 0 ≤ i
    · rw [if_pos hi, if_neg (by omega)]
      refine ⟨_, rfl, rfl, ?_, hw.2⟩
      simp only [startOf, numTet_dofMap, Nat.add_zero]
      exact partOf_vec (by omega)
    · rw [if_neg hi]
      simp only
      rw [if_pos (by omega)]
  | com l =>
    have h := list l _ rfl
    have e : subSpace (.com l) [i] = if i < size l ∧ 0 ≤ i then member l i.toNat else none := by
      rw [subSpace]
      simp only [List.isEmpty_nil, if_true]
      split
      · cases member l i.toNat <;> rfl
      · rfl
    rw [e, dofMap, DofMap.merge]
    split at h
    · exact h
    · next b e2 =>
      obtain ⟨v, h1, h2, h3, h4⟩ := h
      refine ⟨v, h1, h2, ?_, member_wf (wf_com.1 hw).2 h4⟩
      rw [h3, startOf]
      simp only [h4, Option.map_some, Option.getD_some, startOf, Nat.add_zero]
      exact partOf_com h4
  | union l =>
    have h := list l _ rfl
    have e : subSpace (.union l) [i] = if i < size l ∧ 0 ≤ i then member l i.toNat else none := by
      rw [subSpace]
      simp only [List.isEmpty_nil, if_true]
      split
      · cases member l i.toNat <;> rfl
      · rfl
    rw [e, dofMap, DofMap.merge]
    split at h
    · exact h
    · next b e2 =>
      obtain ⟨v, h1, h2, h3, h4⟩ := h
      refine ⟨v, h1, h2, ?_, member_wf (wf_union.1 hw).2.1 h4⟩
      rw [h3, startOf]
      simp only [h4, Option.map_some, Option.getD_some, startOf]
      exact partOf_union hw h4

theorem subSpace_cons (F : Fem) (i : Int) {p : List Int} (hp : p ≠ []) : subSpace F (i :: p) = (subSpace F [i]).bind fun b => subSpace b p := by
  have hpe : ¬ (p.isEmpty = true) := by simpa using hp
  cases F with
  | leaf s => rw [subSpace, subSpace]; rfl
  | vec n b =>
    rw [subSpace, subSpace]
    simp only [List.isEmpty_nil, if_true, if_neg hpe]
    split <;> rfl
  | com l =>
    rw [subSpace, subSpace]
    simp only [List.isEmpty_nil, if_true, if_neg hpe]
    split
    · cases member l i.toNat <;> rfl
    · rfl
  | union l =>
    rw [subSpace, subSpace]
    simp only [List.isEmpty_nil, if_true, if_neg hpe]
    split
    · cases member l i.toNat <;> rfl
    · rfl

theorem startOf_cons {F b : Fem} {i : Int} (h : subSpace F [i] = some b) (p : List Int) : startOf F (i :: p) = startOf F [i] + startOf b p := by
  cases F with
  | leaf s => rw [subSpace] at h; cases h
  | vec n c =>
    rw [subSpace] at h
    simp only [List.isEmpty_nil, if_true] at h
    split at h
    · cases h
      simp only [startOf, Nat.add_zero]
    · cases h
  | com l =>
    rw [subSpace] at h
    simp only [List.isEmpty_nil, if_true] at h
    split at h
    · cases hm : member l i.toNat with
      | none => rw [hm] at h; cases h
      | some c =>
        rw [hm] at h
        cases h
        simp only [startOf, hm, Option.map_some, Option.getD_some, Nat.add_zero]
    · cases h
  | union l =>
    rw [subSpace] at h
    simp only [List.isEmpty_nil, if_true] at h
    split at h
    · cases hm : member l i.toNat with
      | none => rw [hm] at h; cases h
      | some c =>
        rw [hm] at h
        cases h
        simp only [startOf, hm, Option.map_some, Option.getD_some, Nat.zero_add]
    · cases h

/-- **C61**: a path of component numbers leads to a sub-space exactly when it leads to a part of the d.o.f. map, and they belong together: the
part has the map of the sub-space, and the basis function `i` of the sub-space, put into its components, is the basis function of the whole
with the number that the part of the map gives to its d.o.f. `i`. -/
theorem subSpace_part : ∀ (p : List Int) (F : Fem), Wf F → match subSpace F p with
    | none => DofMap.viewOf (dofMap F) p = none
    | some S => ∃ v, DofMap.viewOf (dofMap F) p = some v ∧ v.base = dofMap S ∧ PartOf F v.shiftTet (startOf F p) S ∧
        ∀ i, i < nfa S → (v.locate i).1 = v.shiftTet + i
  | [], F, hw => by rw [subSpace]; rfl
  | [i], F, hw => by
    have h := step F hw i
    split at h
    · exact h
    · next b e =>
      obtain ⟨v, h1, h2, h3, -⟩ := h
      exact ⟨v, h1, h2, h3, fun j _ => Nat.add_comm _ _⟩
  | i :: k :: p, F, hw => by
    have h := step F hw i
    rw [subSpace_cons F i (by simp : k :: p ≠ [])]
    split at h
    · next e =>
      rw [e, Option.bind_none]
      simp only
      rw [Option.eq_none_iff_forall_ne_some]
      intro v hv
      obtain ⟨v1, v2, g1, -⟩ := (DofMap.view_path _ _ _ (by simp) v).1 hv
      rw [h] at g1
      cases g1
    · next b e =>
      rw [e, Option.bind_some]
      obtain ⟨v1, h1, h2, h3, hwb⟩ := h
      have ih := subSpace_part (k :: p) b hwb
      split at ih
      · next e2 =>
        rw [Option.eq_none_iff_forall_ne_some]
        intro v hv
        obtain ⟨w1, w2, g1, g2, -⟩ := (DofMap.view_path _ _ _ (by simp) v).1 hv
        rw [h1] at g1
        cases g1
        rw [h2, ih] at g2
        cases g2
      · next S e2 =>
        obtain ⟨v2, g1, g2, g3, -⟩ := ih
        refine ⟨⟨fun t => v1.shiftNum t + v2.shiftNum t, v1.shiftTet + v2.shiftTet, v2.base⟩, ?_, g2, ?_, fun j _ => Nat.add_comm _ _⟩
        · exact (DofMap.view_path _ _ _ (by simp) _).2 ⟨v1, v2, h1, h2 ▸ g1, rfl, rfl, fun _ => rfl⟩
        · rw [startOf_cons e]
          exact partOf_trans h3 g3

-- the second velocity component of the MINI element (P1 + B4)³ × P1: the functions 5 .. 9 of 19 in the component 1
example : subSpace (.com (.cons (.vec 3 (.union (.cons (.leaf .p1) (.cons (.leaf .b4) .nil)))) (.cons (.leaf .p1) .nil))) [0, 1] =
      some (.union (.cons (.leaf .p1) (.cons (.leaf .b4) .nil))) ∧
    startOf (.com (.cons (.vec 3 (.union (.cons (.leaf .p1) (.cons (.leaf .b4) .nil)))) (.cons (.leaf .p1) .nil))) [0, 1] = 1 ∧
    Wf (.com (.cons (.vec 3 (.union (.cons (.leaf .p1) (.cons (.leaf .b4) .nil)))) (.cons (.leaf .p1) .nil))) := by
  refine ⟨?_, ?_, ?_⟩
  · simp [subSpace, size, member]
  · simp [startOf, member, dimBefore, dim, dimFirst, leafDim]
  · simp [Wf, WfAll, SameDim, dim, leafDim]

end Verif.SpaceAlg
