import Verif.Lemmas.VectorDir
import Mathlib.LinearAlgebra.Matrix.NonsingularInverse
import Mathlib.Tactic.NormNum
import Mathlib.Tactic.IntervalCases
import Mathlib.Algebra.Order.Ring.Rat

/-!
C40: imposing values along directions of a vector variable.
-/
set_option linter.unusedSectionVars false

namespace Verif.Dirichlet

open Verif.Dense

variable {K : Type} [Field K]

theorem and_congr_eq {a b c d : Prop} (h : a ↔ c) (h' : c → (b ↔ d)) : a ∧ b ↔ c ∧ d :=
  ⟨fun x => ⟨h.1 x.1, (h' (h.1 x.1)).1 x.2⟩, fun x => ⟨h.2 x.1, (h' x.1).2 x.2⟩⟩

/-- The columns of a square matrix with orthonormal rows are orthonormal. -/
theorem orth_cols (d : Nat) (V : Nat → K) (h : Orthonormal d V) (a : Nat) (ha : a < d) (b : Nat) (hb : b < d) :
    ∑ q ∈ Finset.range d, ent d V q a * ent d V q b = if a = b then 1 else 0 := by
  let M : Matrix (Fin d) (Fin d) K := Matrix.of fun i j => ent d V i j
  have h1 : M * M.transpose = 1 := by
    ext i j
    rw [Matrix.mul_apply, Matrix.one_apply]
    have := h i i.2 j j.2
    rw [Finset.sum_range] at this
    simp only [Fin.ext_iff]
    exact this
  have h2 : M.transpose * M = 1 := mul_eq_one_comm.1 h1
  have := congrFun (congrFun h2 ⟨a, ha⟩) ⟨b, hb⟩
  rw [Matrix.mul_apply, Matrix.one_apply] at this
  rw [Finset.sum_range]
  simp only [Fin.ext_iff] at this
  exact this

/-- Value of a row of the matrix with the directions removed. -/
theorem lhs_removed {n m d ndc : Nat} {dof id : Nat → Nat} {V A A' x : Nat → K} {i : Nat} (hm : Places d m dof)
    (h1 : ∀ q, q < d → ent n A' i (dof q) = ent n A i (dof q) -
      ∑ k ∈ Finset.range ndc, coef n d dof V A i (id k) * ent d V (id k) q)
    (h2 : ∀ j, j < m → ¬ IsDof d dof j → ent n A' i j = ent n A i j) :
    lhs n m A' x i = lhs n m A x i - ∑ k ∈ Finset.range ndc, coef n d dof V A i (id k) * along d V dof x (id k) := by
  have e : lhs n m A x i - lhs n m A' x i = ∑ j ∈ Finset.range m, (ent n A i j - ent n A' i j) * x j := by
    unfold lhs
    rw [← Finset.sum_sub_distrib]
    exact Finset.sum_congr rfl (fun j _ => (sub_mul _ _ _).symm)
  rw [sum_dof d m dof hm _ (fun j hj hnd => by rw [h2 j hj hnd, sub_self, zero_mul])] at e
  have e2 : ∑ q ∈ Finset.range d, (ent n A i (dof q) - ent n A' i (dof q)) * x (dof q) =
      ∑ k ∈ Finset.range ndc, coef n d dof V A i (id k) * along d V dof x (id k) := by
    have : ∀ q ∈ Finset.range d, (ent n A i (dof q) - ent n A' i (dof q)) * x (dof q) =
        ∑ k ∈ Finset.range ndc, coef n d dof V A i (id k) * (ent d V (id k) q * x (dof q)) := by
      intro q hq
      rw [h1 q (Finset.mem_range.1 hq), sub_sub_cancel, Finset.sum_mul]
      exact Finset.sum_congr rfl (fun k _ => mul_assoc _ _ _)
    rw [Finset.sum_congr rfl this, Finset.sum_comm]
    refine Finset.sum_congr rfl (fun k _ => ?_)
    unfold along
    rw [Finset.mul_sum]
  rw [e2] at e
  rw [← e]
  ring

/-- Value of a row replaced by a direction. -/
theorem lhs_direction {n m d : Nat} {dof : Nat → Nat} {V A' x : Nat → K} {i v : Nat} (hm : Places d m dof)
    (h1 : ∀ q, q < d → ent n A' i (dof q) = ent d V v q) (h2 : ∀ j, j < m → ¬ IsDof d dof j → ent n A' i j = 0) :
    lhs n m A' x i = along d V dof x v := by
  unfold lhs along
  rw [sum_dof d m dof hm _ (fun j hj hnd => by rw [h2 j hj hnd, zero_mul])]
  exact Finset.sum_congr rfl (fun q hq => by rw [h1 q (Finset.mem_range.1 hq)])

/-- Rotated rows. -/
theorem lhs_rotated {n m d : Nat} {dof : Nat → Nat} {V A A' x : Nat → K} {i q : Nat}
    (h : ∀ j, j < m → ent n A' i j = ∑ p ∈ Finset.range d, ent d V q p * ent n A (dof p) j) :
    lhs n m A' x i = ∑ p ∈ Finset.range d, ent d V q p * lhs n m A x (dof p) := by
  unfold lhs
  have : ∀ j ∈ Finset.range m, ent n A' i j * x j = ∑ p ∈ Finset.range d, ent d V q p * (ent n A (dof p) j * x j) := by
    intro j hj
    rw [h j (Finset.mem_range.1 hj), Finset.sum_mul]
    exact Finset.sum_congr rfl (fun p _ => mul_assoc _ _ _)
  rw [Finset.sum_congr rfl this, Finset.sum_comm]
  exact Finset.sum_congr rfl (fun p _ => by rw [Finset.mul_sum])

/-- The matrix part: the value of every row of the new matrix. -/
theorem vecDir_rows {n m d size : Nat} {dof : Nat → Nat} {V : Nat → K} {ndc : Nat} {id : Nat → Nat} {A : Nat → K}
    {R R' : Nat → K} {s t : (Nat → K) × (Nat → K)} (hV : Orthonormal d V) (hn : Places d n dof) (hm : Places d m dof)
    (hid : Places ndc d id) (h1 : reorthMat n m d size dof V (R, A) = some s)
    (h2 : setMtx n m d size dof V ndc id (R', s.2) = some t) (x : Nat → K) :
    (∀ k, k < ndc → lhs n m t.2 x (dof (id k)) = along d V dof x (id k)) ∧
    (∀ q, q < d → (∀ k, k < ndc → q ≠ id k) → lhs n m t.2 x (dof q) =
      ∑ p ∈ Finset.range d, ent d V q p * lhs n m A x (dof p) -
        ∑ k ∈ Finset.range ndc, coef n d dof V s.2 (dof q) (id k) * along d V dof x (id k)) ∧
    (∀ i, i < n → ¬ IsDof d dof i → lhs n m t.2 x i = lhs n m A x i -
        ∑ k ∈ Finset.range ndc, coef n d dof V s.2 i (id k) * along d V dof x (id k)) := by
  obtain ⟨r1, r2⟩ := reorthMat_eq hn h1
  obtain ⟨m1, m2, m3, m4⟩ := setMtx_eq (m := m) hV hn hid h2
  refine ⟨fun k hk => lhs_direction hm (m1 k hk) (m2 k hk), fun q hq hno => ?_, fun i hi hnd => ?_⟩
  · have hq' : ∀ k, k < ndc → dof q ≠ dof (id k) := fun k hk e => hno k hk (hn.2 q hq _ (hid.1 k hk) e)
    rw [lhs_removed (A := s.2) hm (m3 _ (hn.1 q hq) hq') (m4 _ (hn.1 q hq) hq'), lhs_rotated (r1 q hq)]
  · have hi' : ∀ k, k < ndc → i ≠ dof (id k) := fun k hk e => hnd ⟨id k, hid.1 k hk, e.symm⟩
    rw [lhs_removed (A := s.2) hm (m3 _ hi hi') (m4 _ hi hi')]
    congr 1
    exact Finset.sum_congr rfl (fun j hj => by rw [r2 i hi hnd j (Finset.mem_range.1 hj)])

/-- The outcome of `applyVectorDir` taken apart. -/
theorem vecDir_parts {n m d size : Nat} {dof : Nat → Nat} {V bc : Nat → K} {ndc : Nat} {dc : Option (Nat → Nat)}
    {mem A F : Nat → K} {r : (Nat → K) × (Nat → K)} (h : vecDir n m d size dof V bc ndc dc mem A F = some r) :
    ∃ s t u, reorthMat n m d size dof V (mem, A) = some s ∧ reorthRhs d size dof V (s.1, F) = some t ∧
      setMtx n m d size dof V ndc (getId dc) (t.1, s.2) = some u ∧ r.1 = u.2 ∧
      r.2 = setRhs n d s.2 dof V bc ndc (getId dc) t.2 := by
  unfold vecDir at h
  rw [Option.bind_eq_some_iff] at h
  obtain ⟨s, hs, h⟩ := h
  rw [Option.bind_eq_some_iff] at h
  obtain ⟨t, ht, h⟩ := h
  simp only [Option.map_eq_some_iff] at h
  obtain ⟨u, hu, h⟩ := h
  exact ⟨s, t, u, hs, ht, hu, by rw [← h], by rw [← h]⟩

/-- Every row of a system belongs to a direction, to another equation of the d.o.f.s, or to no d.o.f. -/
theorem row_cases {n d ndc : Nat} {dof id : Nat → Nat} {P : Nat → Prop} (hn : Places d n dof) (hid : Places ndc d id) :
    (∀ i, i < n → P i) ↔ (∀ k, k < ndc → P (dof (id k))) ∧ (∀ q, q < d → (∀ k, k < ndc → q ≠ id k) → P (dof q)) ∧
      ∀ i, i < n → ¬ IsDof d dof i → P i := by
  constructor
  · intro h
    exact ⟨fun k hk => h _ (hn.1 _ (hid.1 k hk)), fun q hq _ => h _ (hn.1 q hq), fun i hi _ => h i hi⟩
  · rintro ⟨h1, h2, h3⟩ i hi
    by_cases hd : IsDof d dof i
    · obtain ⟨q, hq, rfl⟩ := hd
      by_cases hk : ∃ k, k < ndc ∧ q = id k
      · obtain ⟨k, hk, rfl⟩ := hk
        exact h1 k hk
      · exact h2 q hq (fun k hk' e => hk ⟨k, hk', e⟩)
    · exact h3 i hi hd

/-- What the system after `applyVectorDir` says, for any number of directions and any values: the equation of direction
`k` has its value changed by the later directions, the other equations are the rotated original ones with the
prescribed part of the vector replaced by the prescribed values. -/
theorem vecDir_general {n m d size : Nat} {dof : Nat → Nat} {V bc : Nat → K} {ndc : Nat} {dc : Option (Nat → Nat)}
    {mem A F : Nat → K} {r : (Nat → K) × (Nat → K)} (hV : Orthonormal d V) (hn : Places d n dof) (hm : Places d m dof)
    (hid : Places ndc d (getId dc)) (h : vecDir n m d size dof V bc ndc dc mem A F = some r) (x : Nat → K) :
    Sol n m r.1 r.2 x ↔
      (∀ k, k < ndc → along d V dof x (getId dc k) = bc k - ∑ l ∈ Finset.Ico (k + 1) ndc,
        (∑ p ∈ Finset.range d, ent d V (getId dc k) p *
          ∑ q ∈ Finset.range d, ent n A (dof p) (dof q) * ent d V (getId dc l) q) * bc l) ∧
      (∀ q, q < d → (∀ k, k < ndc → q ≠ getId dc k) →
        ∑ p ∈ Finset.range d, ent d V q p * (lhs n m A x (dof p) - F (dof p)) = ∑ k ∈ Finset.range ndc,
          (∑ p ∈ Finset.range d, ent d V q p * ∑ p' ∈ Finset.range d, ent n A (dof p) (dof p') * ent d V (getId dc k) p') *
            (along d V dof x (getId dc k) - bc k)) ∧
      (∀ i, i < n → ¬ IsDof d dof i → lhs n m A x i - F i = ∑ k ∈ Finset.range ndc,
        (∑ p ∈ Finset.range d, ent n A i (dof p) * ent d V (getId dc k) p) * (along d V dof x (getId dc k) - bc k)) := by
  obtain ⟨s, t, u, hs, ht, hu, e1, e2⟩ := vecDir_parts h
  obtain ⟨r1, r2⟩ := reorthMat_eq hn hs
  obtain ⟨f1, f2⟩ := reorthRhs_eq hn ht
  obtain ⟨b1, b2⟩ := setRhs_eq (A := s.2) (V := V) (bc := bc) (F := t.2) hn hid
  obtain ⟨l1, l2, l3⟩ := vecDir_rows hV hn hm hid hs hu x
  have hcq : ∀ q, q < d → ∀ v, coef n d dof V s.2 (dof q) v =
      ∑ p ∈ Finset.range d, ent d V q p * ∑ p' ∈ Finset.range d, ent n A (dof p) (dof p') * ent d V v p' := by
    intro q hq v
    unfold coef
    have : ∀ p' ∈ Finset.range d, ent n s.2 (dof q) (dof p') * ent d V v p' =
        ∑ p ∈ Finset.range d, ent d V q p * (ent n A (dof p) (dof p') * ent d V v p') := by
      intro p' hp'
      rw [r1 q hq _ (hm.1 p' (Finset.mem_range.1 hp')), Finset.sum_mul]
      exact Finset.sum_congr rfl (fun p _ => mul_assoc _ _ _)
    rw [Finset.sum_congr rfl this, Finset.sum_comm]
    exact Finset.sum_congr rfl (fun p _ => by rw [Finset.mul_sum])
  have hci : ∀ i, i < n → ¬ IsDof d dof i → ∀ v, coef n d dof V s.2 i v =
      ∑ p ∈ Finset.range d, ent n A i (dof p) * ent d V v p := by
    intro i hi hnd v
    exact Finset.sum_congr rfl (fun p hp => by rw [r2 i hi hnd _ (hm.1 p (Finset.mem_range.1 hp))])
  unfold Sol
  rw [e1, e2, row_cases hn hid]
  refine and_congr ?_ (and_congr ?_ ?_)
  · refine forall_congr' fun k => forall_congr' fun hk => ?_
    rw [l1 k hk, b1 k hk]
    rw [Finset.sum_congr rfl (fun l _ => by rw [hcq _ (hid.1 k hk)])]
  · refine forall_congr' fun q => forall_congr' fun hq => forall_congr' fun hno => ?_
    rw [l2 q hq hno, b2 _ (hn.1 q hq) (fun k hk e => hno k hk (hn.2 q hq _ (hid.1 k hk) e)), f1 q hq]
    simp only [hcq q hq, mul_sub, Finset.sum_sub_distrib]
    constructor <;> intro e <;> linear_combination e
  · refine forall_congr' fun i => forall_congr' fun hi => forall_congr' fun hnd => ?_
    rw [l3 i hi hnd, b2 i hi (fun k hk e => hnd ⟨_, hid.1 k hk, e.symm⟩), f2 i hnd]
    simp only [hci i hi hnd, mul_sub, Finset.sum_sub_distrib]
    constructor <;> intro e <;> linear_combination e

/-- **C40**, for one direction, or any number of directions of which only the first has a nonzero value: the solutions
of the system after `applyVectorDir` are exactly the vectors with `V u = b` which satisfy the equations of the other
d.o.f.s and the remaining rotated equations of the vector variable.

Missing: several directions with nonzero values, where the property fails (`vecDir_wrong`, `vecDir_general`). -/
theorem vecDir_exact_partial {n m d size : Nat} {dof : Nat → Nat} {V bc : Nat → K} {ndc : Nat} {dc : Option (Nat → Nat)}
    {mem A F : Nat → K} {r : (Nat → K) × (Nat → K)} (hV : Orthonormal d V) (hn : Places d n dof) (hm : Places d m dof)
    (hid : Places ndc d (getId dc)) (hb : ∀ k, 0 < k → k < ndc → bc k = 0)
    (h : vecDir n m d size dof V bc ndc dc mem A F = some r) (x : Nat → K) :
    Sol n m r.1 r.2 x ↔ (∀ k, k < ndc → along d V dof x (getId dc k) = bc k) ∧
      (∀ q, q < d → (∀ k, k < ndc → q ≠ getId dc k) →
        along d V dof (lhs n m A x) q = along d V dof F q) ∧
      ∀ i, i < n → ¬ IsDof d dof i → lhs n m A x i = F i := by
  rw [vecDir_general hV hn hm hid h x]
  refine and_congr_eq ?_ ?_
  · refine forall_congr' fun k => forall_congr' fun hk => ?_
    rw [Finset.sum_eq_zero (fun l hl => by
      have := Finset.mem_Ico.1 hl
      rw [hb l (by omega) this.2, mul_zero]), sub_zero]
  · intro hx
    refine and_congr ?_ ?_
    · refine forall_congr' fun q => forall_congr' fun _ => forall_congr' fun _ => ?_
      rw [Finset.sum_eq_zero (s := Finset.range ndc) (fun k hk => by
        rw [hx k (Finset.mem_range.1 hk), sub_self, mul_zero])]
      unfold along
      simp only [mul_sub, Finset.sum_sub_distrib]
      exact sub_eq_zero
    · refine forall_congr' fun i => forall_congr' fun _ => forall_congr' fun _ => ?_
      rw [Finset.sum_eq_zero (s := Finset.range ndc) (fun k hk => by
        rw [hx k (Finset.mem_range.1 hk), sub_self, mul_zero]), sub_eq_zero]

/-- **C40** for any number of directions and any values: at least the value along the last direction is imposed. -/
theorem vecDir_last {n m d size : Nat} {dof : Nat → Nat} {V bc : Nat → K} {ndc : Nat} {dc : Option (Nat → Nat)}
    {mem A F : Nat → K} {r : (Nat → K) × (Nat → K)} (hV : Orthonormal d V) (hn : Places d n dof) (hm : Places d m dof)
    (hid : Places (ndc + 1) d (getId dc)) (h : vecDir n m d size dof V bc (ndc + 1) dc mem A F = some r) (x : Nat → K)
    (hx : Sol n m r.1 r.2 x) : along d V dof x (getId dc ndc) = bc ndc := by
  have := ((vecDir_general hV hn hm hid h x).1 hx).1 ndc (by omega)
  rwa [Finset.Ico_self, Finset.sum_empty, sub_zero] at this

/-- The remaining equations without reference to the rotation: the residual is orthogonal to every vector which the
directions annihilate. -/
theorem rotated_iff {n d ndc : Nat} {dof id : Nat → Nat} {V r : Nat → K} (hV : Orthonormal d V) (hn : Places d n dof)
    (hid : Places ndc d id) :
    ((∀ q, q < d → (∀ k, k < ndc → q ≠ id k) → along d V dof r q = 0) ∧ ∀ i, i < n → ¬ IsDof d dof i → r i = 0) ↔
      ∀ y : Nat → K, (∀ k, k < ndc → along d V dof y (id k) = 0) → ∑ i ∈ Finset.range n, y i * r i = 0 := by
  classical
  have expand : ∀ z : Nat → K, ∀ a, a < d → z (dof a) = ∑ q ∈ Finset.range d, ent d V q a * along d V dof z q := by
    intro z a ha
    unfold along
    rw [Finset.sum_congr rfl (fun q _ => Finset.mul_sum _ _ _), Finset.sum_comm]
    have : ∀ p ∈ Finset.range d, ∑ q ∈ Finset.range d, ent d V q a * (ent d V q p * z (dof p)) =
        if p = a then z (dof a) else 0 := by
      intro p hp
      rw [Finset.sum_congr rfl (fun q _ => (mul_assoc _ _ _).symm), ← Finset.sum_mul,
        orth_cols d V hV a ha p (Finset.mem_range.1 hp)]
      by_cases h : p = a
      · rw [if_pos h.symm, if_pos h, one_mul, h]
      · rw [if_neg (Ne.symm h), if_neg h, zero_mul]
    rw [Finset.sum_congr rfl this, Finset.sum_ite_eq', if_pos (Finset.mem_range.2 ha)]
  constructor
  · rintro ⟨h1, h2⟩ y hy
    rw [sum_dof d n dof hn _ (fun i hi hnd => by rw [h2 i hi hnd, mul_zero])]
    have : ∀ a ∈ Finset.range d, y (dof a) * r (dof a) =
        ∑ q ∈ Finset.range d, along d V dof y q * (ent d V q a * r (dof a)) := by
      intro a ha
      rw [expand y a (Finset.mem_range.1 ha), Finset.sum_mul]
      exact Finset.sum_congr rfl (fun q _ => by ring)
    rw [Finset.sum_congr rfl this, Finset.sum_comm]
    refine Finset.sum_eq_zero (fun q hq => ?_)
    rw [← Finset.mul_sum]
    by_cases hk : ∃ k, k < ndc ∧ q = id k
    · obtain ⟨k, hk, rfl⟩ := hk
      rw [hy k hk, zero_mul]
    · have := h1 q (Finset.mem_range.1 hq) (fun k hk' e => hk ⟨k, hk', e⟩)
      unfold along at this
      rw [this, mul_zero]
  · intro h
    constructor
    · intro q hq hno
      have hy := h (fun i => ∑ p ∈ Finset.range d, if dof p = i then ent d V q p else 0)
      have hval : ∀ a, a < d → (∑ p ∈ Finset.range d, if dof p = dof a then ent d V q p else 0) = ent d V q a := by
        intro a ha
        have : ∀ p ∈ Finset.range d, (if dof p = dof a then ent d V q p else 0) = if p = a then ent d V q a else 0 := by
          intro p hp
          by_cases e : p = a
          · rw [if_pos (by rw [e]), if_pos e, e]
          · rw [if_neg (fun e' => e (hn.2 p (Finset.mem_range.1 hp) a ha e')), if_neg e]
        rw [Finset.sum_congr rfl this, Finset.sum_ite_eq', if_pos (Finset.mem_range.2 ha)]
      have := hy (fun k hk => by
        unfold along
        rw [Finset.sum_congr (g := fun p => ent d V (id k) p * ent d V q p) rfl
          (fun p hp => congrArg _ (hval p (Finset.mem_range.1 hp))), hV _ (hid.1 k hk) q hq, if_neg (fun e => hno k hk e.symm)])
      rw [sum_dof d n dof hn _ (fun i hi hnd => by
        rw [Finset.sum_eq_zero (fun p hp => if_neg (fun e => hnd ⟨p, Finset.mem_range.1 hp, e⟩)), zero_mul])] at this
      rw [Finset.sum_congr rfl (fun a ha => by rw [hval a (Finset.mem_range.1 ha)])] at this
      exact this
    · intro i hi hnd
      have := h (fun j => if j = i then 1 else 0) (fun k hk => by
        unfold along
        refine Finset.sum_eq_zero (fun p hp => ?_)
        show ent d V (id k) p * (if dof p = i then 1 else 0) = 0
        rw [if_neg (fun e => hnd ⟨p, Finset.mem_range.1 hp, e⟩), mul_zero])
      rw [Finset.sum_congr rfl (fun j _ => ite_mul _ _ _ _),
        Finset.sum_congr (s₁ := Finset.range n) (g := fun j => if j = i then r j else 0) rfl
          (fun j _ => by by_cases e : j = i <;> simp [e]),
        Finset.sum_ite_eq', if_pos (Finset.mem_range.2 hi)] at this
      exact this

/-- **C40**, variational form with the same restriction: the solutions are exactly the vectors with `V u = b` whose
residual in the original system is orthogonal to all vectors `y` with `V y = 0`. -/
theorem vecDir_variational_partial {n m d size : Nat} {dof : Nat → Nat} {V bc : Nat → K} {ndc : Nat}
    {dc : Option (Nat → Nat)} {mem A F : Nat → K} {r : (Nat → K) × (Nat → K)} (hV : Orthonormal d V)
    (hn : Places d n dof) (hm : Places d m dof) (hid : Places ndc d (getId dc)) (hb : ∀ k, 0 < k → k < ndc → bc k = 0)
    (h : vecDir n m d size dof V bc ndc dc mem A F = some r) (x : Nat → K) :
    Sol n m r.1 r.2 x ↔ (∀ k, k < ndc → along d V dof x (getId dc k) = bc k) ∧
      ∀ y : Nat → K, (∀ k, k < ndc → along d V dof y (getId dc k) = 0) →
        ∑ i ∈ Finset.range n, y i * (lhs n m A x i - F i) = 0 := by
  rw [vecDir_exact_partial hV hn hm hid hb h x, ← rotated_iff (r := fun i => lhs n m A x i - F i) hV hn hid]
  refine and_congr_right fun _ => and_congr ?_ ?_
  · refine forall_congr' fun q => forall_congr' fun _ => forall_congr' fun _ => ?_
    unfold along
    rw [← sub_eq_zero, ← Finset.sum_sub_distrib]
    rw [Finset.sum_congr rfl (fun p _ => (mul_sub (ent d V q p) (lhs n m A x (dof p)) (F (dof p))).symm)]
  · refine forall_congr' fun i => forall_congr' fun _ => forall_congr' fun _ => ?_
    exact sub_eq_zero.symm

/-- **C40** for a Newton step: the matrix of `applyVectorDirMatrix` with the residual of `applyVectorDirResidual`, any
number of directions: the step does not move along the directions and satisfies all remaining equations. -/
theorem vecDirResidual_exact {n m d size : Nat} {dof : Nat → Nat} {V : Nat → K} {ndc : Nat} {dc : Option (Nat → Nat)}
    {mem mem' A F A' F' : Nat → K} (hV : Orthonormal d V) (hn : Places d n dof) (hm : Places d m dof)
    (hid : Places ndc d (getId dc)) (hA : vecDirMatrix n m d size dof V ndc dc mem A = some A')
    (hF : vecDirResidual d size dof V ndc dc mem' F = some F') (x : Nat → K) :
    Sol n m A' F' x ↔ (∀ k, k < ndc → along d V dof x (getId dc k) = 0) ∧
      ∀ y : Nat → K, (∀ k, k < ndc → along d V dof y (getId dc k) = 0) →
        ∑ i ∈ Finset.range n, y i * (lhs n m A x i - F i) = 0 := by
  unfold vecDirMatrix at hA
  rw [Option.bind_eq_some_iff] at hA
  obtain ⟨s, hs, hA⟩ := hA
  rw [Option.map_eq_some_iff] at hA
  obtain ⟨u, hu, rfl⟩ := hA
  unfold vecDirResidual at hF
  rw [Option.map_eq_some_iff] at hF
  obtain ⟨t, ht, rfl⟩ := hF
  obtain ⟨f1, f2⟩ := reorthRhs_eq hn ht
  obtain ⟨l1, l2, l3⟩ := vecDir_rows hV hn hm hid hs hu x
  obtain ⟨b1, b2⟩ := setResidual_eq (dof := dof) (ndc := ndc) (id := getId dc) (F := t.2)
  unfold Sol
  rw [row_cases hn hid, ← rotated_iff (r := fun i => lhs n m A x i - F i) hV hn hid]
  refine and_congr_eq ?_ ?_
  · exact forall_congr' fun k => forall_congr' fun hk => by rw [l1 k hk, b1 k hk]
  · intro hx
    refine and_congr ?_ ?_
    · refine forall_congr' fun q => forall_congr' fun hq => forall_congr' fun hno => ?_
      rw [l2 q hq hno, b2 _ (fun k hk e => hno k hk (hn.2 q hq _ (hid.1 k hk) e)), f1 q hq,
        Finset.sum_eq_zero (s := Finset.range ndc) (fun k hk => by rw [hx k (Finset.mem_range.1 hk), mul_zero]),
        sub_zero]
      unfold along
      rw [← sub_eq_zero, ← Finset.sum_sub_distrib]
      rw [Finset.sum_congr rfl (fun p _ => (mul_sub (ent d V q p) (lhs n m A x (dof p)) (F (dof p))).symm)]
    · refine forall_congr' fun i => forall_congr' fun hi => forall_congr' fun hnd => ?_
      rw [l3 i hi hnd, b2 i (fun k hk e => hnd ⟨_, hid.1 k hk, e.symm⟩), f2 i hnd,
        Finset.sum_eq_zero (s := Finset.range ndc) (fun k hk => by rw [hx k (Finset.mem_range.1 hk), mul_zero]),
        sub_zero]
      exact sub_eq_zero.symm

/-! ### Extra columns and rows -/

/-- **C40**: an extra column of the matrix (coefficients of another variable in the equations) after
`applyVectorDirMatrixExtCol`: the equations of the directions lose it, the other equations of the d.o.f.s are rotated. -/
theorem extCol_exact {n d : Nat} {dof : Nat → Nat} {V : Nat → K} {ndc : Nat} {dc : Option (Nat → Nat)} {mem B : Nat → K}
    (hn : Places d n dof) (hid : Places ndc d (getId dc)) :
    (∀ k, k < ndc → vecDirExtCol d dof V ndc dc mem B (dof (getId dc k)) = 0) ∧
    (∀ q, q < d → (∀ k, k < ndc → q ≠ getId dc k) → vecDirExtCol d dof V ndc dc mem B (dof q) = along d V dof B q) ∧
    (∀ i, ¬ IsDof d dof i → vecDirExtCol d dof V ndc dc mem B i = B i) := by
  obtain ⟨z1, z2⟩ := setResidual_eq (K := K) (dof := dof) (ndc := ndc) (id := getId dc)
    (F := loop 0 d (fun q A => wr A (dof q) (loop 0 d (fun p t => t +
      loop 0 d (fun q C => wr C q (B (dof q))) mem p * V (q + p * d)) 0)) B)
  refine ⟨fun k hk => z1 k hk, fun q hq hno => ?_, fun i hi => ?_⟩
  · refine (z2 (dof q) (fun k hk e => hno k hk (hn.2 q hq _ (hid.1 k hk) e))).trans ?_
    rw [loop_wr_at dof _ (fun q _ => along d V dof B q) (fun q t _ => ?_) hn.2 hq]
    rw [loop_sum, zero_add]
    refine Finset.sum_congr rfl (fun p hp => ?_)
    rw [mul_comm]
    congr 1
    exact loop_wr_at (fun q => q) (fun q _ => B (dof q)) (fun q _ => B (dof q)) (fun _ _ _ => rfl)
      (fun _ _ _ _ e => e) (Finset.mem_range.1 hp)
  · refine (z2 i (fun k hk e => hi ⟨_, hid.1 k hk, e.symm⟩)).trans ?_
    exact loop_wr_off dof _ (fun q hq e => hi ⟨q, hq, e⟩)

/-- Entries of an extra row. -/
theorem extRow_ent {m d : Nat} {dof : Nat → Nat} {V : Nat → K} {ndc : Nat} {id : Nat → Nat} {C : Nat → K}
    (hV : Orthonormal d V) (hm : Places d m dof) (hid : Places ndc d id) :
    (∀ q, q < d → extraRow d dof V ndc id C (dof q) = C (dof q) -
      ∑ k ∈ Finset.range ndc, along d V dof C (id k) * ent d V (id k) q) ∧
    (∀ j, ¬ IsDof d dof j → extraRow d dof V ndc id C j = C j) := by
  unfold extraRow
  refine loop_ind (P := fun c (t : Nat → K) =>
    (∀ q, q < d → t (dof q) = C (dof q) - ∑ k ∈ Finset.range c, along d V dof C (id k) * ent d V (id k) q) ∧
    (∀ j, ¬ IsDof d dof j → t j = C j)) (Nat.zero_le ndc) ?_ ?_
  · exact ⟨fun q _ => by rw [Finset.sum_range_zero, sub_zero], fun _ _ => rfl⟩
  · intro c t _ hc ⟨i1, i2⟩
    have hsum : loop 0 d (fun p s => s + t (dof p) * V (id c + p * d)) 0 = along d V dof C (id c) := by
      rw [loop_sum, zero_add]
      have : ∀ p ∈ Finset.range d, t (dof p) * V (id c + p * d) = ent d V (id c) p * C (dof p) -
          ∑ k ∈ Finset.range c, along d V dof C (id k) * (ent d V (id k) p * ent d V (id c) p) := by
        intro p hp
        rw [i1 p (Finset.mem_range.1 hp), sub_mul, Finset.sum_mul, mul_comm]
        congr 1
        exact Finset.sum_congr rfl (fun k _ => mul_assoc _ _ _)
      rw [Finset.sum_congr rfl this, Finset.sum_sub_distrib, Finset.sum_comm]
      unfold along
      rw [sub_eq_self]
      refine Finset.sum_eq_zero (fun k hk => ?_)
      have hk := Finset.mem_range.1 hk
      rw [← Finset.mul_sum, hV _ (hid.1 k (by omega)) _ (hid.1 c hc), if_neg, mul_zero]
      intro e
      have := hid.2 k (by omega) c hc e
      omega
    simp only [hsum]
    refine ⟨fun q hq => ?_, fun j hj => ?_⟩
    · rw [loop_wr_at dof (fun l A => A (dof l) - along d V dof C (id c) * V (id c + l * d))
        (fun l a => a - along d V dof C (id c) * V (id c + l * d)) (fun _ _ _ => rfl) hm.2 hq, i1 q hq,
        Finset.sum_range_succ, sub_sub]
      rfl
    · rw [loop_wr_off dof _ (fun q hq e => hj ⟨q, hq, e⟩), i2 j hj]

/-- **C40**: an extra equation after `applyVectorDirMatrixExtRow` has at every vector the value of the original one at
the vector with its part along the directions removed. -/
theorem extRow_exact {m d : Nat} {dof : Nat → Nat} {V : Nat → K} {ndc : Nat} {dc : Option (Nat → Nat)} {C x y : Nat → K}
    (hV : Orthonormal d V) (hm : Places d m dof) (hid : Places ndc d (getId dc))
    (hy : ∀ j, ¬ IsDof d dof j → y j = x j)
    (hyd : ∀ q, q < d → y (dof q) = x (dof q) - ∑ k ∈ Finset.range ndc, along d V dof x (getId dc k) * ent d V (getId dc k) q) :
    ∑ j ∈ Finset.range m, vecDirExtRow d dof V ndc dc C j * x j = ∑ j ∈ Finset.range m, C j * y j := by
  obtain ⟨e1, e2⟩ := extRow_ent (C := C) hV hm hid
  rw [← sub_eq_zero, ← Finset.sum_sub_distrib,
    sum_dof d m dof hm _ (fun j _ hnd => by
      show extraRow d dof V ndc (getId dc) C j * x j - C j * y j = 0
      rw [e2 j hnd, hy j hnd, sub_self])]
  have : ∀ q ∈ Finset.range d, vecDirExtRow d dof V ndc dc C (dof q) * x (dof q) - C (dof q) * y (dof q) =
      ∑ k ∈ Finset.range ndc, (along d V dof x (getId dc k) * (ent d V (getId dc k) q * C (dof q)) -
        along d V dof C (getId dc k) * (ent d V (getId dc k) q * x (dof q))) := by
    intro q hq
    have hq := Finset.mem_range.1 hq
    show extraRow d dof V ndc (getId dc) C (dof q) * x (dof q) - C (dof q) * y (dof q) = _
    rw [e1 q hq, hyd q hq, Finset.sum_sub_distrib, sub_mul, mul_sub, Finset.sum_mul, Finset.mul_sum,
      sub_sub_sub_cancel_left]
    congr 1
    · exact Finset.sum_congr rfl (fun k _ => by ring)
    · exact Finset.sum_congr rfl (fun k _ => by ring)
  rw [Finset.sum_congr rfl this, Finset.sum_comm]
  refine Finset.sum_eq_zero (fun k _ => ?_)
  rw [Finset.sum_sub_distrib, ← Finset.mul_sum, ← Finset.mul_sum]
  unfold along
  ring

/-! ### When the functions complete -/

/-- `applyVectorDir` completes exactly if the work memory has `d * max(n, m)` places and, once a direction is imposed,
also two columns. -/
theorem vecDir_defined (n m d size : Nat) (dof : Nat → Nat) (V bc : Nat → K) (ndc : Nat) (dc : Option (Nat → Nat))
    (mem A F : Nat → K) : (vecDir n m d size dof V bc ndc dc mem A F).isSome = true ↔
      d * max m n ≤ size ∧ d ≤ size ∧ (0 < ndc → n + n ≤ size) := by
  unfold vecDir reorthMat reorthRhs setMtx
  by_cases h1 : size < d * max m n
  · rw [if_pos h1]; simp only [Option.bind_none, Option.isSome_none]
    constructor
    · intro h; exact absurd h (by decide)
    · intro h; omega
  rw [if_neg h1, Option.bind_some]
  by_cases h2 : size < d
  · rw [if_pos h2]; simp only [Option.bind_none, Option.isSome_none]
    constructor
    · intro h; exact absurd h (by decide)
    · intro h; omega
  rw [if_neg h2, Option.bind_some]
  by_cases h3 : 0 < ndc ∧ 0 < n ∧ size < n + n
  · rw [if_pos h3]; simp only [Option.map_none, Option.isSome_none]
    constructor
    · intro h; exact absurd h (by decide)
    · intro h; have := h.2.2 h3.1; omega
  · rw [if_neg h3]; simp only [Option.map_some, Option.isSome_some]
    refine ⟨fun _ => ⟨by omega, by omega, fun h => ?_⟩, fun _ => trivial⟩
    by_cases hn : 0 < n
    · by_contra h4
      exact h3 ⟨h, hn, by omega⟩
    · omega

/-- With the documented amount of work memory (dc_on_dof.h:57, `d * max(n, m)`) the function completes for two and more
components ... -/
theorem vecDir_memory_partial (n m d : Nat) (dof : Nat → Nat) (V bc : Nat → K) (ndc : Nat) (dc : Option (Nat → Nat))
    (mem A F : Nat → K) (hd : 2 ≤ d) (hn : 0 < n) :
    (vecDir n m d (d * max m n) dof V bc ndc dc mem A F).isSome = true := by
  rw [vecDir_defined]
  have h1 : 2 * n ≤ d * max m n := Nat.mul_le_mul hd (Nat.le_max_right ..)
  have h2 : d * 1 ≤ d * max m n := Nat.mul_le_mul_left d (by have := Nat.le_max_right m n; omega)
  exact ⟨le_refl _, by omega, fun _ => by omega⟩

/-- A three-dimensional velocity of P2 elements (30 d.o.f.s). -/
example (dof : Nat → Nat) (V bc mem A F : Nat → ℚ) :
    (vecDir 30 30 3 (3 * max 30 30) dof V bc 2 none mem A F).isSome = true :=
  vecDir_memory_partial 30 30 3 dof V bc 2 none mem A F (by decide) (by decide)

/-- ... but for one component it writes behind the work memory: on every square system. -/
theorem vecDir_memory_wrong (n : Nat) (hn : 0 < n) (dof : Nat → Nat) (V bc : Nat → K) (ndc : Nat) (hk : 0 < ndc)
    (dc : Option (Nat → Nat)) (mem A F : Nat → K) :
    (vecDir n n 1 (1 * max n n) dof V bc ndc dc mem A F).isSome = false := by
  rw [Bool.eq_false_iff, Ne, vecDir_defined]
  intro h
  have := h.2.2 hk
  rw [Nat.max_self] at this
  omega

/-- The matrix with rows (3/5, 4/5), (-4/5, 3/5). -/
def rot2 : Nat → ℚ := fun p => ([3/5, -4/5, 4/5, 3/5] : List ℚ).getD p 0

theorem rot2_orth : Orthonormal 2 rot2 := by
  intro a ha b hb
  interval_cases a <;> interval_cases b <;> norm_num [Finset.sum_range_succ, ent, rot2]

/-- A 3 × 3 elemental matrix by columns. -/
def a3 : Nat → ℚ := fun p => ([4, 1, 2, 1, 5, 3, 2, 3, 6] : List ℚ).getD p 0

theorem places3 : Places 2 3 (fun q => 2 * q) := by
  refine ⟨fun q hq => ?_, fun q hq r hr e => ?_⟩
  · show 2 * q < 3; omega
  · have e : 2 * q = 2 * r := e
    omega

theorem places_one : Places 1 2 (getId (some fun _ => 1)) := by
  refine ⟨fun q hq => by show 1 < 2; omega, fun q hq r hr _ => by omega⟩

/-- One oblique direction (the second row of `rot2`) on the d.o.f.s 0 and 2 of a 3 × 3 system, value 7: the hypotheses
of the theorems above hold and the function completes. -/
example : ∃ r, vecDir 3 3 2 6 (fun q => 2 * q) rot2 (fun _ => 7) 1 (some fun _ => 1) (fun _ => 0) a3 (fun _ => 1) = some r ∧
    ∀ x, Sol 3 3 r.1 r.2 x → -4/5 * x 0 + 3/5 * x 2 = 7 := by
  have h : (vecDir 3 3 2 6 (fun q => 2 * q) rot2 (fun _ => 7) 1 (some fun _ => 1) (fun _ => 0) a3 (fun _ => 1)).isSome = true :=
    (vecDir_defined ..).2 (by decide)
  obtain ⟨r, hr⟩ := Option.isSome_iff_exists.1 h
  refine ⟨r, hr, fun x hx => ?_⟩
  have := ((vecDir_exact_partial rot2_orth places3 places3 places_one (fun k h1 h2 => by omega) hr x).1 hx).1 0 (by omega)
  simpa [along, Finset.sum_range_succ, ent, rot2, getId] using this

/-- The extra column and row for the same direction. -/
example (mem B : Nat → ℚ) : vecDirExtCol 2 (fun q => 2 * q) rot2 1 (some fun _ => 1) mem B 2 = 0 :=
  (extCol_exact (V := rot2) (mem := mem) (B := B) places3 places_one).1 0 (by decide)

example (C x : Nat → ℚ) : ∃ y : Nat → ℚ, (∀ j, ¬ IsDof 2 (fun q => 2 * q) j → y j = x j) ∧
    ∑ j ∈ Finset.range 3, vecDirExtRow 2 (fun q => 2 * q) rot2 1 (some fun _ => 1) C j * x j =
      ∑ j ∈ Finset.range 3, C j * y j := by
  let y : Nat → ℚ := fun j => if j = 0 then x 0 - (-4/5 * x 0 + 3/5 * x 2) * (-4/5) else
    if j = 2 then x 2 - (-4/5 * x 0 + 3/5 * x 2) * (3/5) else x j
  have hy : ∀ j, ¬ IsDof 2 (fun q => 2 * q) j → y j = x j := by
    intro j hj
    have h0 : j ≠ 0 := fun e => hj ⟨0, by omega, e.symm⟩
    have h2 : j ≠ 2 := fun e => hj ⟨1, by omega, e.symm⟩
    simp [y, h0, h2]
  refine ⟨y, hy, extRow_exact rot2_orth places3 places_one hy (fun q hq => ?_)⟩
  interval_cases q <;> simp [y, along, Finset.sum_range_succ, ent, rot2, getId]

/-- A Newton step along both rows of `rot2`. -/
example : ∃ A' F', vecDirMatrix 3 3 2 6 (fun q => 2 * q) rot2 2 none (fun _ => 0) a3 = some A' ∧
    vecDirResidual 2 6 (fun q => 2 * q) rot2 2 none (fun _ => 0) (fun _ => 1) = some F' := by
  refine ⟨_, _, rfl, rfl⟩

theorem places_id2 : Places 2 2 (getId none) := ⟨fun _ h => h, fun _ _ _ _ e => e⟩

/-- **C40 fails** for two directions with nonzero values: prescribing the value 1 along both rows of `rot2` on the matrix
with rows (0, 1), (1, 0) gives a system whose solution has another value along the first row. -/
theorem vecDir_wrong : ¬ ∀ (A F : Nat → ℚ) (r : (Nat → ℚ) × (Nat → ℚ)) (x : Nat → ℚ),
    vecDir 2 2 2 4 id rot2 (fun _ => 1) 2 none (fun _ => 0) A F = some r → Sol 2 2 r.1 r.2 x →
      ∀ k, k < 2 → along 2 rot2 id x k = 1 := by
  intro h
  let A : Nat → ℚ := fun p => ([0, 1, 1, 0] : List ℚ).getD p 0
  have hd : (vecDir 2 2 2 4 id rot2 (fun _ => 1) 2 none (fun _ => 0) A (fun _ => 0)).isSome = true :=
    (vecDir_defined ..).2 (by decide)
  obtain ⟨r, hr⟩ := Option.isSome_iff_exists.1 hd
  have hp : Places 2 2 id := ⟨fun _ h => h, fun _ _ _ _ e => e⟩
  let x : Nat → ℚ := fun p => ([3/5 * (1 + 7/25) - 4/5, 4/5 * (1 + 7/25) + 3/5] : List ℚ).getD p 0
  have key := h A (fun _ => 0) r x hr
  have hs : Sol 2 2 r.1 r.2 x := by
    rw [vecDir_general rot2_orth hp hp places_id2 hr]
    refine ⟨fun k hk => ?_, fun q hq hno => absurd rfl (hno q hq), fun i hi hnd => absurd ⟨i, hi, rfl⟩ hnd⟩
    interval_cases k <;> norm_num [along, Finset.sum_range_succ, ent, rot2, getId, A, x, Finset.sum_Ico_eq_sum_range]
  have := key hs 0 (by omega)
  norm_num [along, Finset.sum_range_succ, ent, rot2, x] at this

end Verif.Dirichlet
