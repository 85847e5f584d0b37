import Verif.Lemmas.GeomWalk

/-!
Lemmas for `Verif.Props.GeomWalk`: the steps of the iterator on one element.
-/
namespace Verif.GeomWalk
open Verif.Enumerator

/-- the result of a stage of the step: `none` if the element is exhausted -/
def found (r : Addr × Bool) : Option Addr := if r.2 then some r.1 else none

section
variable (s : Slice) (vars : List Var)

theorem found_kind (hvar : ∀ x, s.var = some x → x < vars.length) (a : Addr) (hc : a.comp = s.comp.getD 0)
    (hd : a.dof = s.dof.getD 0) :
    found (stepKind s vars a) = if toOriented s a.num then (kindList s vars (a.num + 1)).head? else none := by
  unfold stepKind
  by_cases ht : toOriented s a.num = true
  · simp only [if_pos ht]
    rw [choose_kind s vars hvar { a with num := a.num + 1 } hc hd]
    cases (kindList s vars (a.num + 1)).head? <;> rfl
  · simp only [if_neg ht]
    rfl

/-- the d.o.f.s of one kind follow each other -/
theorem kind_follows (hvar : ∀ x, s.var = some x → x < vars.length) (k : Nat) :
    Follows (fun a => found (stepIn s vars a)) (kindList s vars k)
      (if toOriented s k then (kindList s vars (k + 1)).head? else none) := by
  show Follows _ (((List.range vars.length).filter fun x => s.var.all fun y => y == x).flatMap fun i => comps s vars k i) _
  refine follows_range_filter _ _ (fun x => s.var.all fun y => y == x) (fun i => comps s vars k i) _ ?_
  intro i hi hvi
  beta_reduce at hvi ⊢
  obtain ⟨v, hv⟩ : ∃ v, vars[i]? = some v := ⟨_, List.getElem?_eq_getElem hi⟩
  have hcs : comps s vars k i = (sel s.comp v.comps).flatMap fun c => dofs s v k i c := by
    unfold comps
    rw [hv]
  -- the d.o.f.s after variable `i`
  generalize hR : ((rest vars.length (fun x => s.var.all fun y => y == x) (fun i => comps s vars k i) i).head?.or
    (if toOriented s k = true then (kindList s vars (k + 1)).head? else none)) = R
  rw [hcs]
  clear hcs
  have hstepVar : found (stepVar s vars ⟨k, i, s.comp.getD 0, s.dof.getD 0⟩) = R := by
    rw [← hR]
    have hk := found_kind s vars hvar ⟨k, i, s.comp.getD 0, s.dof.getD 0⟩ rfl rfl
    simp only at hk
    unfold stepVar rest
    cases hsv : s.var with
    | none =>
      simp only [if_true, Option.all_none, List.filter_true]
      rw [chooseVar_head s vars ⟨k, i, s.comp.getD 0, s.dof.getD 0⟩ rfl rfl, ← Nat.sub_sub]
      cases ((List.range' (i + 1) (vars.length - i - 1)).flatMap fun i => comps s vars k i).head? with
      | none => simpa using hk
      | some r => rfl
    | some x =>
      rw [hsv] at hvi
      simp only [Option.all_some, beq_iff_eq] at hvi
      subst hvi
      simp only [reduceCtorEq, if_false, Option.all_some]
      rw [filter_eq_range', if_neg (by omega)]
      simpa using hk
  clear hR
  by_cases hn : 0 < v.numDof k
  swap
  · have h0 : v.comps * v.base k = 0 := by rw [← numDof_eq]; omega
    have : ((sel s.comp v.comps).flatMap fun c => dofs s v k i c) = [] := by
      rw [List.flatMap_eq_nil_iff]
      intro c hc
      have hc' : c < v.comps := List.mem_range.1 (List.mem_of_mem_filter hc)
      have hb : v.base k = 0 := by
        rcases Nat.mul_eq_zero.1 h0 with h | h
        · omega
        · exact h
      simp [dofs, hb, sel]
    rw [this]
    trivial
  have hsz := sizes_eq v k hn
  have hstepComp : ∀ c, c < v.comps → (s.comp.all fun x => x == c) = true →
      found (stepComp s vars v.comps ⟨k, i, c, s.dof.getD 0⟩) =
        (if s.comp = none ∧ c + 1 < v.comps then some ⟨k, i, c + 1, s.dof.getD 0⟩ else R) := by
    intro c hc hsel
    unfold stepComp
    cases hsc : s.comp with
    | none =>
      simp only [if_true, true_and]
      by_cases h1 : c + 1 < v.comps
      · rw [if_pos h1, if_pos h1]; rfl
      · rw [if_neg h1, if_neg h1]
        rw [hsc] at hstepVar
        exact hstepVar
    | some x =>
      rw [hsc] at hsel
      simp only [Option.all_some, beq_iff_eq] at hsel
      subst hsel
      rw [hsc] at hstepVar
      simpa using hstepVar
  have hdofs : ∀ c, Follows (fun a => found (stepIn s vars a)) (dofs s v k i c)
      (found (stepComp s vars v.comps ⟨k, i, c, s.dof.getD 0⟩)) := by
    intro c
    have hin : ∀ j, found (stepIn s vars ⟨k, i, c, j⟩) = if s.dof = none then
        (if j + 1 < v.base k then some ⟨k, i, c, j + 1⟩ else found (stepComp s vars v.comps ⟨k, i, c, 0⟩))
        else found (stepComp s vars v.comps ⟨k, i, c, j⟩) := by
      intro j
      unfold stepIn
      simp only [hv, hsz]
      split_ifs <;> rfl
    unfold dofs
    cases hsd : s.dof with
    | none =>
      rw [sel_none]
      apply follows_range
      · intro j hj
        rw [hin, if_pos hsd, if_pos hj]
      · intro j hj
        rw [hin, if_pos hsd, if_neg (by omega)]
        rfl
    | some x =>
      rw [sel_some]
      by_cases hx : x < v.base k
      · rw [if_pos hx]
        refine ⟨?_, trivial⟩
        show found (stepIn s vars ⟨k, i, c, x⟩) = _
        rw [hin, if_neg (by rw [hsd]; simp)]
        rfl
      · rw [if_neg hx]; trivial
  show Follows _ (((List.range v.comps).filter fun x => s.comp.all fun y => y == x).flatMap fun c => dofs s v k i c) _
  refine follows_range_filter _ _ (fun x => s.comp.all fun y => y == x) (fun c => dofs s v k i c) _ ?_
  intro c hc hsel
  beta_reduce at hsel ⊢
  have h := hdofs c
  rw [hstepComp c hc hsel] at h
  have hhead : ((rest v.comps (fun x => s.comp.all fun y => y == x) (fun c => dofs s v k i c) c).head?).or R =
      if s.comp = none ∧ c + 1 < v.comps ∧ s.dof.getD 0 < v.base k then some ⟨k, i, c + 1, s.dof.getD 0⟩ else R := by
    have hd : ∀ c, (dofs s v k i c).head? = if s.dof.getD 0 < v.base k then some ⟨k, i, c, s.dof.getD 0⟩ else none := by
      intro c
      unfold dofs
      rw [List.head?_map, sel_head]
      split <;> rfl
    unfold rest
    cases hsc : s.comp with
    | none =>
      simp only [Option.all_none, List.filter_true, true_and]
      by_cases h1 : c + 1 < v.comps
      · rw [show v.comps - c - 1 = (v.comps - c - 2) + 1 by omega, List.range'_succ, List.flatMap_cons, List.head?_append, hd]
        by_cases hb : s.dof.getD 0 < v.base k
        · rw [if_pos hb, if_pos ⟨h1, hb⟩]; rfl
        · rw [if_neg hb, if_neg (fun h => hb h.2)]
          have : ((List.range' (c + 1 + 1) (v.comps - c - 2)).flatMap fun c => dofs s v k i c) = [] := by
            rw [List.flatMap_eq_nil_iff]
            intro c _
            have := hd c
            rw [if_neg hb] at this
            exact List.head?_eq_none_iff.1 this
          rw [this]
          rfl
      · rw [show v.comps - c - 1 = 0 by omega, if_neg (fun h => h1 h.1)]
        rfl
    | some x =>
      rw [hsc] at hsel
      simp only [Option.all_some, beq_iff_eq] at hsel
      subst hsel
      simp only [reduceCtorEq, false_and, if_false, Option.all_some]
      rw [filter_eq_range', if_neg (by omega)]
      rfl
  rw [hhead]
  by_cases hb : s.dof.getD 0 < v.base k
  · simpa [hb] using h
  · have : dofs s v k i c = [] := by
      have := sel_head s.dof (v.base k)
      rw [if_neg hb, List.head?_eq_none_iff] at this
      unfold dofs
      rw [this]
      rfl
    rw [this]
    trivial

/-- the wanted d.o.f.s of an element follow each other -/
theorem elem_follows (hvar : ∀ x, s.var = some x → x < vars.length) (d : Nat) :
    Follows (fun a => found (stepIn s vars a)) ((addrs vars d).filter s.Wants) none := by
  rw [filter_wants]
  have hk := kind_follows s vars hvar
  have one : ∀ k, toOriented s k = false → Follows (fun a => found (stepIn s vars a))
      (([k].filter fun k => s.mask.testBit k).flatMap (kindList s vars)) none := by
    intro k ht
    have := hk k
    rw [if_neg (by rw [ht]; simp)] at this
    by_cases hm : s.mask.testBit k = true
    · rw [List.filter_cons_of_pos hm]
      simpa using this
    · rw [List.filter_cons_of_neg hm]
      trivial
  have two : ∀ k, (toOriented s k = s.mask.testBit (k + 1)) → toOriented s (k + 1) = false →
      Follows (fun a => found (stepIn s vars a))
      (([k, k + 1].filter fun k => s.mask.testBit k).flatMap (kindList s vars)) none := by
    intro k h1 h2
    by_cases hm : s.mask.testBit k = true
    · rw [List.filter_cons_of_pos hm, List.flatMap_cons]
      apply follows_append
      · have := hk k
        rw [h1] at this
        by_cases hm2 : s.mask.testBit (k + 1) = true
        · rw [List.filter_cons_of_pos hm2]
          rw [if_pos hm2] at this
          simpa using this
        · rw [List.filter_cons_of_neg hm2]
          rw [if_neg hm2] at this
          simpa using this
      · exact one (k + 1) h2
    · rw [List.filter_cons_of_neg hm]
      exact one (k + 1) h2
  match d with
  | 0 => exact one 0 rfl
  | 1 => exact two 1 (by simp [toOriented]) rfl
  | 2 => exact two 3 (by simp [toOriented]) rfl
  | n + 3 => exact one 5 rfl

/-- the state of an exhausted element -/
theorem exhausted (a : Addr) (h : (stepIn s vars a).2 = false) (ha : a ∈ (addrs vars (dimOf a.num)).filter s.Wants) :
    (stepIn s vars a).1.comp = s.comp.getD 0 ∧ (stepIn s vars a).1.dof = s.dof.getD 0 ∧
    dimOf (stepIn s vars a).1.num = dimOf a.num ∧
    ((stepIn s vars a).1.num = firstKind (dimOf a.num) ∨
      ((stepIn s vars a).1.num = firstKind (dimOf a.num) + 1 ∧ toOriented s (firstKind (dimOf a.num)) = true ∧
        s.mask.testBit (firstKind (dimOf a.num)) = false)) := by
  obtain ⟨ha, hw⟩ := List.mem_filter.1 ha
  simp only [Slice.Wants, Bool.and_eq_true] at hw
  obtain ⟨⟨⟨hwv, hwc⟩, hwd⟩, hwm⟩ := hw
  have hnum : a.num < 6 := by
    unfold addrs at ha
    rw [List.mem_flatMap] at ha
    obtain ⟨k, hk, hm⟩ := ha
    obtain ⟨rfl, _⟩ := (mem_addrsKind vars k a).1 hm
    generalize a.num = k at *
    match k with
    | 0 | 1 | 2 | 3 | 4 | 5 => all_goals omega
    | n + 6 => simp [dimOf, kindsOf] at hk
  have hK : ∀ b : Addr, b.num = a.num → (stepKind s vars b).2 = false →
      (stepKind s vars b).1.comp = b.comp ∧ (stepKind s vars b).1.dof = b.dof ∧
      dimOf (stepKind s vars b).1.num = dimOf a.num ∧
      ((stepKind s vars b).1.num = firstKind (dimOf a.num) ∨
        ((stepKind s vars b).1.num = firstKind (dimOf a.num) + 1 ∧ toOriented s (firstKind (dimOf a.num)) = true ∧
          s.mask.testBit (firstKind (dimOf a.num)) = false)) := by
    intro b hb hf
    unfold stepKind at hf ⊢
    split at hf
    · cases hf
    · rename_i heq
      rw [hb] at heq
      simp only [hb]
      refine ⟨trivial, trivial, ?_⟩
      generalize a.num = k at *
      match k, hnum with
      | 0, _ => simp [toOriented, dimOf, firstKind]
      | 1, _ => simp [toOriented, dimOf, firstKind, hwm]; cases s.mask.testBit 2 <;> simp
      | 2, _ => simp [toOriented, dimOf, firstKind, hwm]; cases s.mask.testBit 1 <;> simp
      | 3, _ => simp [toOriented, dimOf, firstKind, hwm]; cases s.mask.testBit 4 <;> simp
      | 4, _ => simp [toOriented, dimOf, firstKind, hwm]; cases s.mask.testBit 3 <;> simp
      | 5, _ => simp [toOriented, dimOf, firstKind]
  have hV : ∀ b : Addr, b.num = a.num → (stepVar s vars b).2 = false →
      (stepVar s vars b).1.comp = b.comp ∧ (stepVar s vars b).1.dof = b.dof ∧
      dimOf (stepVar s vars b).1.num = dimOf a.num ∧
      ((stepVar s vars b).1.num = firstKind (dimOf a.num) ∨
        ((stepVar s vars b).1.num = firstKind (dimOf a.num) + 1 ∧ toOriented s (firstKind (dimOf a.num)) = true ∧
          s.mask.testBit (firstKind (dimOf a.num)) = false)) := by
    intro b hb hf
    unfold stepVar at hf ⊢
    generalize (if s.var = none then chooseVar vars b (b.var + 1) vars.length else none) = q at hf ⊢
    cases q with
    | some r => cases hf
    | none => exact hK b hb hf
  have hC : ∀ n (b : Addr), b.num = a.num → (s.comp.all fun x => x == b.comp) = true → (stepComp s vars n b).2 = false →
      (stepComp s vars n b).1.comp = s.comp.getD 0 ∧ (stepComp s vars n b).1.dof = b.dof ∧
      dimOf (stepComp s vars n b).1.num = dimOf a.num ∧
      ((stepComp s vars n b).1.num = firstKind (dimOf a.num) ∨
        ((stepComp s vars n b).1.num = firstKind (dimOf a.num) + 1 ∧ toOriented s (firstKind (dimOf a.num)) = true ∧
          s.mask.testBit (firstKind (dimOf a.num)) = false)) := by
    intro n b hb hcs hf
    unfold stepComp at hf ⊢
    cases hsc : s.comp with
    | none =>
      rw [hsc] at hf
      simp only [if_true] at hf ⊢
      split at hf
      · cases hf
      · rename_i hlt
        rw [if_neg hlt]
        exact hV _ hb hf
    | some x =>
      rw [hsc] at hf hcs
      simp only [reduceCtorEq, if_false] at hf ⊢
      obtain ⟨h1, h2⟩ := hV b hb hf
      simp only [Option.all_some, beq_iff_eq] at hcs
      exact ⟨by rw [h1, hcs]; rfl, h2⟩
  have hav : ∃ v, vars[a.var]? = some v := by
    unfold addrs at ha
    rw [List.mem_flatMap] at ha
    obtain ⟨k, hk, hm⟩ := ha
    obtain ⟨_, v, hv, _⟩ := (mem_addrsKind vars k a).1 hm
    exact ⟨v, hv⟩
  obtain ⟨v, hv⟩ := hav
  unfold stepIn at h ⊢
  simp only [hv] at h ⊢
  cases hsd : s.dof with
  | none =>
    rw [hsd] at h
    simp only [if_true] at h ⊢
    split at h
    · cases h
    · rename_i hlt
      rw [if_neg hlt]
      exact hC _ { a with dof := 0 } rfl hwc h
  | some x =>
    rw [hsd] at h hwd
    simp only [reduceCtorEq, if_false] at h ⊢
    obtain ⟨h1, h2, h3⟩ := hC _ a rfl hwc h
    simp only [Option.all_some, beq_iff_eq] at hwd
    exact ⟨h1, by rw [h2, hwd]; rfl, h3⟩

end

end Verif.GeomWalk
