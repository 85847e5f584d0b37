import Verif.Spec.SpaceAlg
import Verif.Lemmas.DofMap3

/-!
Lemmas of C61 and C62.
-/
namespace Verif.SpaceAlg

open Verif.Order Verif.SpaceOp

theorem append_nil : ∀ l : Fems, append l .nil = l
  | .nil => rfl
  | .cons h t => by rw [append, append_nil t]

theorem append_assoc : ∀ l r s : Fems, append (append l r) s = append l (append r s)
  | .nil, _, _ => rfl
  | .cons h t, r, s => by rw [append, append, append, append_assoc t r s]

theorem dimSum_append : ∀ l r : Fems, dimSum (append l r) = dimSum l + dimSum r
  | .nil, r => by rw [append, dimSum]; omega
  | .cons h t, r => by rw [append, dimSum, dimSum, dimSum_append t r]; omega

theorem nfaSum_append : ∀ l r : Fems, nfaSum (append l r) = nfaSum l + nfaSum r
  | .nil, r => by rw [append, nfaSum]; omega
  | .cons h t, r => by rw [append, nfaSum, nfaSum, nfaSum_append t r]; omega

theorem nthCom_lt {T : Nat → Nat → ℝ} : ∀ {l : Fems} {i : Nat} {φ : Field}, NthCom T l i φ → i < nfaSum l
  | .nil, _, _, h => by rw [NthCom] at h; exact h.elim
  | .cons h t, i, φ, hh => by
    rw [NthCom] at hh
    rw [nfaSum]
    rcases hh with ⟨h1, -⟩ | ⟨j, ψ, rfl, h2, -⟩
    · omega
    · have := nthCom_lt h2
      omega

theorem nthUnion_lt {T : Nat → Nat → ℝ} : ∀ {l : Fems} {i : Nat} {φ : Field}, NthUnion T l i φ → i < nfaSum l
  | .nil, _, _, h => by rw [NthUnion] at h; exact h.elim
  | .cons h t, i, φ, hh => by
    rw [NthUnion] at hh
    rw [nfaSum]
    rcases hh with ⟨h1, -⟩ | ⟨j, rfl, h2⟩
    · omega
    · have := nthUnion_lt h2
      omega

theorem nthCom_congr {T : Nat → Nat → ℝ} : ∀ {l : Fems} {i : Nat} {φ χ : Field}, (∀ x k, φ x k = χ x k) → (NthCom T l i φ ↔ NthCom T l i χ)
  | .nil, _, _, _, _ => by rw [NthCom, NthCom]
  | .cons h t, i, φ, χ, e => by
    rw [NthCom, NthCom]
    simp only [e]

theorem nthCom_append {T : Nat → Nat → ℝ} : ∀ (l r : Fems) (i : Nat) (φ : Field), NthCom T (append l r) i φ ↔
    (i < nfaSum l ∧ ∃ ψ, NthCom T l i ψ ∧ ∀ x k, φ x k = if k < dimSum l then ψ x k else 0) ∨
      ∃ j ψ, i = nfaSum l + j ∧ NthCom T r j ψ ∧ ∀ x k, φ x k = if k < dimSum l then 0 else ψ x (k - dimSum l)
  | .nil, r, i, φ => by
    rw [append, nfaSum, dimSum]
    constructor
    · intro h
      exact Or.inr ⟨i, φ, by omega, h, fun x k => by rw [if_neg (by omega), Nat.sub_zero]⟩
    · rintro (⟨h, -⟩ | ⟨j, ψ, e, h, e2⟩)
      · omega
      · rw [Nat.zero_add] at e
        subst e
        exact (nthCom_congr fun x k => by rw [e2, if_neg (by omega), Nat.sub_zero]).2 h
  | .cons h t, r, i, φ => by
    rw [append, NthCom, nfaSum, dimSum]
    constructor
    · rintro (⟨h1, ψ, h2, e⟩ | ⟨j, ψ, rfl, h2, e⟩)
      · refine Or.inl ⟨by omega, φ, ?_, fun x k => ?_⟩
        · rw [NthCom]
          exact Or.inl ⟨h1, ψ, h2, e⟩
        · split
          · rfl
          · rw [e, if_neg (by omega)]
      · rcases (nthCom_append t r j ψ).1 h2 with ⟨h3, χ, h4, e2⟩ | ⟨j', χ, rfl, h4, e2⟩
        · refine Or.inl ⟨by omega, fun x k => if k < dim h then 0 else χ x (k - dim h), ?_, fun x k => ?_⟩
          · rw [NthCom]
            exact Or.inr ⟨j, χ, rfl, h4, fun x k => rfl⟩
          · rw [e, e2]
            beta_reduce
            split_ifs <;> first | rfl | omega | rw [Nat.sub_sub]
        · refine Or.inr ⟨j', χ, by omega, h4, fun x k => ?_⟩
          rw [e, e2]
          beta_reduce
          split_ifs <;> first | rfl | omega | rw [Nat.sub_sub]
    · rintro (⟨h1, ψ, h2, e⟩ | ⟨j, ψ, rfl, h2, e⟩)
      · rw [NthCom] at h2
        rcases h2 with ⟨h2, χ, h3, e2⟩ | ⟨j, χ, rfl, h3, e2⟩
        · refine Or.inl ⟨h2, χ, h3, fun x k => ?_⟩
          rw [e, e2]
          beta_reduce
          split_ifs <;> first | rfl | omega | rw [Nat.sub_sub]
        · refine Or.inr ⟨j, fun x k => if k < dimSum t then χ x k else 0, rfl, ?_, fun x k => ?_⟩
          · rw [nthCom_append]
            exact Or.inl ⟨nthCom_lt h3, χ, h3, fun x k => rfl⟩
          · rw [e, e2]
            beta_reduce
            split_ifs <;> first | rfl | omega | rw [Nat.sub_sub]
      · refine Or.inr ⟨nfaSum t + j, fun x k => if k < dimSum t then 0 else ψ x (k - dimSum t), by omega, ?_, fun x k => ?_⟩
        · rw [nthCom_append]
          exact Or.inr ⟨j, ψ, rfl, h2, fun x k => rfl⟩
        · rw [e]
          beta_reduce
          split_ifs <;> first | rfl | omega | rw [Nat.sub_sub]

theorem nthUnion_append {T : Nat → Nat → ℝ} : ∀ (l r : Fems) (i : Nat) (φ : Field), NthUnion T (append l r) i φ ↔
    (i < nfaSum l ∧ NthUnion T l i φ) ∨ ∃ j, i = nfaSum l + j ∧ NthUnion T r j φ
  | .nil, r, i, φ => by
    rw [append, nfaSum]
    constructor
    · intro h
      exact Or.inr ⟨i, by omega, h⟩
    · rintro (⟨h, -⟩ | ⟨j, e, h⟩)
      · omega
      · rw [Nat.zero_add] at e
        exact e ▸ h
  | .cons h t, r, i, φ => by
    rw [append, NthUnion, nfaSum, NthUnion]
    constructor
    · rintro (⟨h1, h2⟩ | ⟨j, rfl, h2⟩)
      · exact Or.inl ⟨by omega, Or.inl ⟨h1, h2⟩⟩
      · rcases (nthUnion_append t r j φ).1 h2 with ⟨h3, h4⟩ | ⟨j', rfl, h4⟩
        · exact Or.inl ⟨by omega, Or.inr ⟨j, rfl, h4⟩⟩
        · exact Or.inr ⟨j', by omega, h4⟩
    · rintro (⟨h1, ⟨h2, h3⟩ | ⟨j, rfl, h3⟩⟩ | ⟨j, rfl, h3⟩)
      · exact Or.inl ⟨h2, h3⟩
      · exact Or.inr ⟨j, rfl, (nthUnion_append t r j φ).2 (Or.inl ⟨by omega, h3⟩)⟩
      · exact Or.inr ⟨nfaSum t + j, by omega, (nthUnion_append t r _ φ).2 (Or.inr ⟨j, rfl, h3⟩)⟩

/-! ### The list of members of an argument -/

theorem factors_cases (h : Fem) : (∃ l, h = .com l ∧ factors h = l) ∨ factors h = .cons h .nil := by
  cases h <;> simp [factors]

theorem terms_cases (h : Fem) : (∃ l, h = .union l ∧ terms h = l) ∨ terms h = .cons h .nil := by
  cases h <;> simp [terms]

theorem dimSum_factors (h : Fem) : dimSum (factors h) = dim h := by
  rcases factors_cases h with ⟨l, rfl, e⟩ | e
  · rw [e, dim]
  · rw [e, dimSum, dimSum]; rfl

theorem nfaSum_factors (h : Fem) : nfaSum (factors h) = nfa h := by
  rcases factors_cases h with ⟨l, rfl, e⟩ | e
  · rw [e, nfa]
  · rw [e, nfaSum, nfaSum]; rfl

theorem nfaSum_terms (h : Fem) : nfaSum (terms h) = nfa h := by
  rcases terms_cases h with ⟨l, rfl, e⟩ | e
  · rw [e, nfa]
  · rw [e, nfaSum, nfaSum]; rfl

/-- A member and the list of its factors in its place. -/
theorem nthCom_factors {T : Nat → Nat → ℝ} (h : Fem) (t : Fems) (i : Nat) (φ : Field) :
    NthCom T (append (factors h) t) i φ ↔ NthCom T (.cons h t) i φ := by
  rcases factors_cases h with ⟨l, rfl, e⟩ | e
  · rw [e, nthCom_append, NthCom, nfa, dim]
    simp only [Nth]
  · rw [e, append, append]

theorem nthUnion_terms {T : Nat → Nat → ℝ} (h : Fem) (t : Fems) (i : Nat) (φ : Field) :
    NthUnion T (append (terms h) t) i φ ↔ NthUnion T (.cons h t) i φ := by
  rcases terms_cases h with ⟨l, rfl, e⟩ | e
  · rw [e, nthUnion_append, NthUnion, nfa]
    simp only [Nth]
  · rw [e, append, append]

theorem nthCom_tail {T : Nat → Nat → ℝ} {h : Fem} {s t : Fems} (e : ∀ i φ, NthCom T s i φ ↔ NthCom T t i φ) (i : Nat) (φ : Field) :
    NthCom T (.cons h s) i φ ↔ NthCom T (.cons h t) i φ := by
  rw [NthCom, NthCom]
  simp only [e]

theorem nthUnion_tail {T : Nat → Nat → ℝ} {h : Fem} {s t : Fems} (e : ∀ i φ, NthUnion T s i φ ↔ NthUnion T t i φ) (i : Nat) (φ : Field) :
    NthUnion T (.cons h s) i φ ↔ NthUnion T (.cons h t) i φ := by
  rw [NthUnion, NthUnion]
  simp only [e]

theorem joinFactors_same : ∀ l : Fems, dimSum (joinFactors l) = dimSum l ∧ nfaSum (joinFactors l) = nfaSum l ∧
    ∀ T i φ, NthCom T (joinFactors l) i φ ↔ NthCom T l i φ
  | .nil => ⟨rfl, rfl, fun _ _ _ => Iff.rfl⟩
  | .cons h t => by
    obtain ⟨h1, h2, h3⟩ := joinFactors_same t
    refine ⟨?_, ?_, fun T i φ => ?_⟩
    · rw [joinFactors, dimSum_append, dimSum_factors, h1, dimSum]
    · rw [joinFactors, nfaSum_append, nfaSum_factors, h2, nfaSum]
    · rw [joinFactors, nthCom_factors]
      exact nthCom_tail (h3 T) i φ

theorem joinTerms_same : ∀ l : Fems, nfaSum (joinTerms l) = nfaSum l ∧ ∀ T i φ, NthUnion T (joinTerms l) i φ ↔ NthUnion T l i φ
  | .nil => ⟨rfl, fun _ _ _ => Iff.rfl⟩
  | .cons h t => by
    obtain ⟨h2, h3⟩ := joinTerms_same t
    refine ⟨?_, fun T i φ => ?_⟩
    · rw [joinTerms, nfaSum_append, nfaSum_terms, h2, nfaSum]
    · rw [joinTerms, nthUnion_terms]
      exact nthUnion_tail (h3 T) i φ

theorem mulS_join (a b : Fem) : mulS a b = complexSimplified (.cons a (.cons b .nil)) := by
  rw [mulS, complexSimplified, joinFactors, joinFactors, joinFactors, append_nil]

theorem addS_join (a b : Fem) : addS a b = unionSimplified (.cons a (.cons b .nil)) := by
  rw [addS, unionSimplified, joinTerms, joinTerms, joinTerms, append_nil]

/-! ### Well formed spaces -/

theorem wfAll_append : ∀ l r : Fems, WfAll (append l r) ↔ WfAll l ∧ WfAll r
  | .nil, r => by rw [append, WfAll]; exact ⟨fun h => ⟨trivial, h⟩, fun h => h.2⟩
  | .cons h t, r => by
    rw [append, WfAll, WfAll, wfAll_append t r, and_assoc]

theorem wf_com {l : Fems} : Wf (.com l) ↔ l ≠ .nil ∧ WfAll l := by
  cases l with
  | nil => simp [Wf]
  | cons h t => rw [Wf, WfAll]; simp

theorem wfAll_factors {F : Fem} (h : Wf F) : WfAll (factors F) ∧ factors F ≠ .nil := by
  rcases factors_cases F with ⟨l, rfl, e⟩ | e
  · rw [e]
    exact (wf_com.1 h).symm
  · rw [e, WfAll, WfAll]
    exact ⟨⟨h, trivial⟩, nofun⟩

theorem append_ne_nil {l r : Fems} (h : l ≠ .nil) : append l r ≠ .nil := by
  cases l with
  | nil => exact absurd rfl h
  | cons a t => rw [append]; nofun

theorem sameDim_append (d : Nat) : ∀ l r : Fems, SameDim d (append l r) ↔ SameDim d l ∧ SameDim d r
  | .nil, r => by rw [append, SameDim]; exact ⟨fun h => ⟨trivial, h⟩, fun h => h.2⟩
  | .cons h t, r => by rw [append, SameDim, SameDim, sameDim_append d t r, and_assoc]

theorem go_iff (d : Nat) : ∀ l : Fems, oneDim.go d l = true ↔ SameDim d l
  | .nil => by rw [oneDim.go, SameDim]; simp
  | .cons h t => by
    rw [oneDim.go, SameDim, Bool.and_eq_true, decide_eq_true_eq, go_iff d t]

theorem oneDim_iff (l : Fems) : oneDim l = true ↔ SameDim (dimFirst l) l := by
  cases l with
  | nil => rw [oneDim, SameDim]; simp
  | cons h t => rw [oneDim, go_iff, SameDim, dimFirst]; simp

theorem wf_union {l : Fems} : Wf (.union l) ↔ l ≠ .nil ∧ WfAll l ∧ SameDim (dimFirst l) l := by
  cases l with
  | nil => simp [Wf]
  | cons h t => rw [Wf, WfAll, SameDim, dimFirst]; simp [and_assoc]

theorem terms_wf {F : Fem} (h : Wf F) : WfAll (terms F) ∧ terms F ≠ .nil ∧ SameDim (dim F) (terms F) := by
  rcases terms_cases F with ⟨l, rfl, e⟩ | e
  · rw [e, dim]
    obtain ⟨h1, h2, h3⟩ := wf_union.1 h
    exact ⟨h2, h1, h3⟩
  · rw [e, WfAll, WfAll, SameDim, SameDim]
    exact ⟨⟨h, trivial⟩, nofun, rfl, trivial⟩

theorem dimFirst_of_sameDim {d : Nat} {l : Fems} (hn : l ≠ .nil) (h : SameDim d l) : dimFirst l = d := by
  cases l with
  | nil => exact absurd rfl hn
  | cons a t => rw [SameDim] at h; exact h.1

/-! ### The maps of the degrees of freedom -/

theorem dofMaps_append : ∀ l r : Fems, dofMaps (append l r) = dofMaps l ++ dofMaps r
  | .nil, r => by rw [append, dofMaps]; rfl
  | .cons h t, r => by rw [append, dofMaps, dofMaps, dofMaps_append t r]; rfl

open DofMap in
theorem lay_factors (h : Fem) : Layout.concat ((dofMaps (factors h)).map lay) = lay (dofMap h) := by
  rcases factors_cases h with ⟨l, rfl, e⟩ | e
  · rw [e, dofMap, merge, lay_complex]
  · rw [e, dofMaps, dofMaps, List.map_cons, List.map_nil, concat_single]

open DofMap in
theorem lay_terms (h : Fem) : Layout.concat ((dofMaps (terms h)).map lay) = lay (dofMap h) := by
  rcases terms_cases h with ⟨l, rfl, e⟩ | e
  · rw [e, dofMap, merge, lay_complex]
  · rw [e, dofMaps, dofMaps, List.map_cons, List.map_nil, concat_single]

open DofMap in
theorem lay_joinFactors : ∀ l : Fems, Layout.concat ((dofMaps (joinFactors l)).map lay) = Layout.concat ((dofMaps l).map lay)
  | .nil => rfl
  | .cons h t => by
    rw [joinFactors, dofMaps_append, List.map_append, concat_append, lay_factors, lay_joinFactors t, dofMaps, List.map_cons]
    rfl

open DofMap in
theorem lay_joinTerms : ∀ l : Fems, Layout.concat ((dofMaps (joinTerms l)).map lay) = Layout.concat ((dofMaps l).map lay)
  | .nil => rfl
  | .cons h t => by
    rw [joinTerms, dofMaps_append, List.map_append, concat_append, lay_terms, lay_joinTerms t, dofMaps, List.map_cons]
    rfl

mutual
theorem numTet_dofMap : ∀ F : Fem, (dofMap F).obj.numTet = nfa F
  | .leaf s => by cases s <;> rfl
  | .vec n b => by
    rw [dofMap, DofMap.pow, DofMap.Tree.obj, nfa, ← numTet_dofMap b]
    rfl
  | .com l => by
    rw [dofMap, DofMap.merge, DofMap.Tree.obj, nfa, DofMap.complex_numTet _ (DofMap.trees_counted _), numTet_dofMaps l]
  | .union l => by
    rw [dofMap, DofMap.merge, DofMap.Tree.obj, nfa, DofMap.complex_numTet _ (DofMap.trees_counted _), numTet_dofMaps l]
theorem numTet_dofMaps : ∀ l : Fems, ((DofMap.Tree.objs (dofMaps l)).map (·.numTet)).sum = nfaSum l
  | .nil => rfl
  | .cons h t => by
    rw [dofMaps, DofMap.Tree.objs, List.map_cons, List.sum_cons, numTet_dofMap h, numTet_dofMaps t, nfaSum]
end

/-! ### Declared orders -/

theorem rtIdenMax_append : ∀ l r : Fems, rtIdenMax (append l r) = max (rtIdenMax l) (rtIdenMax r)
  | .nil, r => by rw [append, rtIdenMax, Nat.zero_max]
  | .cons h t, r => by rw [append, rtIdenMax, rtIdenMax, rtIdenMax_append t r, Nat.max_assoc]

theorem rtDivMax_append : ∀ l r : Fems, rtDivMax (append l r) = max (rtDivMax l) (rtDivMax r)
  | .nil, r => by rw [append, rtDivMax, Nat.zero_max]
  | .cons h t, r => by rw [append, rtDivMax, rtDivMax, rtDivMax_append t r, Nat.max_assoc]

theorem rtDudxMax_append : ∀ l r : Fems, rtDudxMax (append l r) = max (rtDudxMax l) (rtDudxMax r)
  | .nil, r => by rw [append, rtDudxMax, Nat.zero_max]
  | .cons h t, r => by rw [append, rtDudxMax, rtDudxMax, rtDudxMax_append t r, Nat.max_assoc]

theorem rt_factors (h : Fem) : rtIdenMax (factors h) = rtIden h ∧ rtDivMax (factors h) = Order.rtDiv h ∧ rtDudxMax (factors h) = rtDudx h := by
  rcases factors_cases h with ⟨l, rfl, e⟩ | e
  · rw [e, rtIden, Order.rtDiv, rtDudx]
    exact ⟨rfl, rfl, rfl⟩
  · rw [e, rtIdenMax, rtIdenMax, rtDivMax, rtDivMax, rtDudxMax, rtDudxMax]
    exact ⟨Nat.max_zero _, Nat.max_zero _, Nat.max_zero _⟩

theorem rt_terms (h : Fem) : rtIdenMax (terms h) = rtIden h ∧ rtDivMax (terms h) = Order.rtDiv h ∧ rtDudxMax (terms h) = rtDudx h := by
  rcases terms_cases h with ⟨l, rfl, e⟩ | e
  · rw [e, rtIden, Order.rtDiv, rtDudx]
    exact ⟨rfl, rfl, rfl⟩
  · rw [e, rtIdenMax, rtIdenMax, rtDivMax, rtDivMax, rtDudxMax, rtDudxMax]
    exact ⟨Nat.max_zero _, Nat.max_zero _, Nat.max_zero _⟩

theorem rt_joinFactors : ∀ l : Fems, rtIdenMax (joinFactors l) = rtIdenMax l ∧ rtDivMax (joinFactors l) = rtDivMax l ∧
    rtDudxMax (joinFactors l) = rtDudxMax l
  | .nil => ⟨rfl, rfl, rfl⟩
  | .cons h t => by
    obtain ⟨h1, h2, h3⟩ := rt_joinFactors t
    obtain ⟨g1, g2, g3⟩ := rt_factors h
    rw [joinFactors, rtIdenMax_append, rtDivMax_append, rtDudxMax_append, rtIdenMax, rtDivMax, rtDudxMax, h1, h2, h3, g1, g2, g3]
    exact ⟨rfl, rfl, rfl⟩

theorem rt_joinTerms : ∀ l : Fems, rtIdenMax (joinTerms l) = rtIdenMax l ∧ rtDivMax (joinTerms l) = rtDivMax l ∧
    rtDudxMax (joinTerms l) = rtDudxMax l
  | .nil => ⟨rfl, rfl, rfl⟩
  | .cons h t => by
    obtain ⟨h1, h2, h3⟩ := rt_joinTerms t
    obtain ⟨g1, g2, g3⟩ := rt_terms h
    rw [joinTerms, rtIdenMax_append, rtDivMax_append, rtDudxMax_append, rtIdenMax, rtDivMax, rtDudxMax, h1, h2, h3, g1, g2, g3]
    exact ⟨rfl, rfl, rfl⟩

end Verif.SpaceAlg
