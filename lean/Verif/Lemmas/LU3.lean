import Verif.Lemmas.LU2

/-!
The triangular solves after the fully pivoted LU factorisation.
-/
set_option linter.unusedSectionVars false

namespace Verif.Dense

open Finset

variable {K : Type} [Field K] [LinearOrder K] [IsStrictOrderedRing K]

theorem perm_ent {N M : Nat} {p : Nat → Nat} (B X : Nat → K) {i l : Nat} (hi : i < N) (hl : l < M) :
    ent N (luPerm N M p B X) i l = ent N B (p i) l := by
  have key := loop_ind (S := Nat → K) (fun m Y => ∀ i l, i < N → l < m → ent N Y i l = ent N B (p i) l)
    (a := 0) (b := M) (f := fun l X => loop 0 N (fun i X => wr X (i + N * l) (B (p i + N * l))) X) (s := X)
    (Nat.zero_le _) (by intro i l _ h; omega)
    (by
      intro m Y _ hm ih
      have inner := loop_ind (S := Nat → K)
        (fun n Z => ∀ i l, i < N → l < m ∨ (l = m ∧ i < n) → ent N Z i l = ent N B (p i) l)
        (a := 0) (b := N) (f := fun i X => wr X (i + N * m) (B (p i + N * m))) (s := Y) (Nat.zero_le _)
        (by intro i l hi hl; exact ih i l hi (by omega))
        (by
          intro n Z _ hn ih' i l hi hl
          rw [Nat.mul_comm N m, ent_wr _ _ hn hi]
          by_cases hb : i = n ∧ l = m
          · rw [if_pos hb, hb.1, hb.2]; rfl
          · rw [if_neg hb]; exact ih' i l hi (by omega))
      intro i l hi hl
      exact inner i l hi (by omega))
  exact key i l hi hl

theorem first_spec {N l : Nat} (X : Nat → K) :
    luFirst N l X ≤ N ∧ ∀ r, r < luFirst N l X → ent N X r l = 0 := by
  unfold luFirst
  cases hf : (List.range N).find? (fun i => decide (X (i + N * l) ≠ 0)) with
  | none =>
    rw [List.find?_eq_none] at hf
    refine ⟨Nat.le_refl _, fun r hr => ?_⟩
    have := hf r (List.mem_range.mpr hr)
    unfold ent
    rw [Nat.mul_comm l N]
    by_contra hb
    exact this (decide_eq_true hb)
  | some i =>
    rw [List.find?_range_eq_some] at hf
    obtain ⟨_, h2, h3⟩ := hf
    refine ⟨Nat.le_of_lt (List.mem_range.mp h2), fun r hr => ?_⟩
    have := h3 r hr
    unfold ent
    rw [Nat.mul_comm l N]
    by_contra hb
    rw [decide_eq_true (p := X (r + N * l) ≠ 0) hb] at this
    cases this

/-- forward substitution with the unit lower triangle -/
theorem luFwd_spec {N M : Nat} (C X0 : Nat → K) :
    ∀ i, i < N → ∀ l, l < M →
      ∑ t ∈ range i, ent N C i t * ent N (luFwd N M C X0) t l + ent N (luFwd N M C X0) i l = ent N X0 i l := by
  have key := loop_ind (S := Nat → K)
    (fun m X => (∀ i, i < N → ∀ l, l < m → l < M →
        ∑ t ∈ range i, ent N C i t * ent N X t l + ent N X i l = ent N X0 i l) ∧
      ∀ i, i < N → ∀ l, m ≤ l → ent N X i l = ent N X0 i l)
    (a := 0) (b := M)
    (f := fun l X => loop (luFirst N l X) N (fun i X =>
      wr X (i + N * l) (loop 0 i (fun j v => v - C (i + j * N) * X (j + N * l)) (X (i + N * l)))) X) (s := X0)
    (Nat.zero_le _) ⟨by intro i _ l h; omega, fun _ _ _ _ => rfl⟩
    (by
      intro m X _ hm ih
      obtain ⟨hf1, hf2⟩ := first_spec (N := N) (l := m) X
      have inner := loop_ind (S := Nat → K)
        (fun n Y => (∀ r, r < N → ∀ l, l ≠ m ∨ n ≤ r → ent N Y r l = ent N X r l) ∧
          ∀ r, r < n → r < N → ∑ t ∈ range r, ent N C r t * ent N Y t m + ent N Y r m = ent N X r m)
        (a := luFirst N m X) (b := N)
        (f := fun i X => wr X (i + N * m) (loop 0 i (fun j v => v - C (i + j * N) * X (j + N * m)) (X (i + N * m))))
        (s := X) hf1
        ⟨fun _ _ _ _ => rfl, by
          intro r hr hrN
          rw [sum_eq_zero, zero_add]
          intro t ht
          rw [mem_range] at ht
          rw [hf2 t (by omega), mul_zero]⟩
        (by
          intro i Y hi hiN ih'
          have acc := loop_ind (S := K)
            (fun j v => ∑ t ∈ range j, ent N C i t * ent N Y t m + v = ent N Y i m)
            (a := 0) (b := i) (f := fun j v => v - C (i + j * N) * Y (j + N * m)) (s := Y (i + N * m))
            (Nat.zero_le _) (by rw [range_zero, sum_empty, zero_add, Nat.mul_comm N m]; rfl)
            (by
              intro j v _ hj ihv
              rw [sum_range_succ, ← ihv, Nat.mul_comm N m]
              show _ + (v - ent N C i j * ent N Y j m) = _
              ring)
          generalize loop 0 i (fun j v => v - C (i + j * N) * Y (j + N * m)) (Y (i + N * m)) = v at acc
          rw [Nat.mul_comm N m]
          refine ⟨?_, ?_⟩
          · intro r hr l hl
            rw [ent_wr _ _ hiN hr, if_neg (by omega)]
            exact ih'.1 r hr l (by omega)
          · intro r hr hrN
            have e : ∀ t, t < r → ent N (wr Y (i + m * N) v) t m = ent N Y t m := by
              intro t ht
              rw [ent_wr _ _ hiN (by omega), if_neg (by omega)]
            have es : ∑ t ∈ range r, ent N C r t * ent N (wr Y (i + m * N) v) t m =
                ∑ t ∈ range r, ent N C r t * ent N Y t m := by
              refine sum_congr rfl fun t ht => ?_
              rw [mem_range] at ht
              rw [e t ht]
            rw [es, ent_wr _ _ hiN hrN]
            by_cases hb : r = i
            · subst hb
              rw [if_pos ⟨rfl, rfl⟩, acc]
              exact ih'.1 r hrN m (Or.inr (Nat.le_refl _))
            · rw [if_neg (by omega)]
              exact ih'.2 r (by omega) hrN)
      generalize loop (luFirst N m X) N (fun i X =>
        wr X (i + N * m) (loop 0 i (fun j v => v - C (i + j * N) * X (j + N * m)) (X (i + N * m)))) X = Z at inner ⊢
      refine ⟨?_, ?_⟩
      · intro i hi l hl hlM
        by_cases hb : l = m
        · subst hb
          rw [inner.2 i hi hi]
          exact ih.2 i hi l (Nat.le_refl _)
        · rw [inner.1 i hi l (Or.inl hb), ← ih.1 i hi l (by omega) hlM]
          congr 1
          refine sum_congr rfl fun t ht => ?_
          rw [mem_range] at ht
          rw [inner.1 t (by omega) l (Or.inl hb)]
      · intro i hi l hl
        rw [inner.1 i hi l (Or.inl (by omega))]
        exact ih.2 i hi l (by omega))
  intro i hi l hl
  exact key.1 i hi l hl hl

/-- backward substitution with the upper triangle -/
theorem luBwd_spec {N M : Nat} (hN : 0 < N) (C X0 : Nat → K) (hp : ∀ t, t < N → ent N C t t ≠ 0) :
    ∀ i, i < N → ∀ l, l < M → ∑ t ∈ Ico i N, ent N C i t * ent N (luBwd N M C X0) t l = ent N X0 i l := by
  have key := loop_ind (S := Nat → K)
    (fun m X => (∀ i, i < N → ∀ l, l < m → l < M → ∑ t ∈ Ico i N, ent N C i t * ent N X t l = ent N X0 i l) ∧
      ∀ i, i < N → ∀ l, m ≤ l → ent N X i l = ent N X0 i l)
    (a := 0) (b := M)
    (f := fun l X =>
      let X := wr X ((N - 1) + N * l) (X ((N - 1) + N * l) / C ((N - 1) + N * (N - 1)))
      loopDown 0 (N - 1) (fun i X =>
        let v := loop (i + 1) N (fun j v => v - C (i + N * j) * X (j + N * l)) (X (i + N * l))
        wr X (i + N * l) (v / C (i + N * i))) X) (s := X0)
    (Nat.zero_le _) ⟨by intro i _ l h; omega, fun _ _ _ _ => rfl⟩
    (by
      intro m X _ hm ih
      have inner := loopDown_ind (S := Nat → K)
        (fun n Y => (∀ r, r < N → ∀ l, l ≠ m ∨ r < n → ent N Y r l = ent N X r l) ∧
          ∀ r, n ≤ r → r < N → ∑ t ∈ Ico r N, ent N C r t * ent N Y t m = ent N X r m)
        (a := 0) (b := N - 1)
        (f := fun i X =>
          let v := loop (i + 1) N (fun j v => v - C (i + N * j) * X (j + N * m)) (X (i + N * m))
          wr X (i + N * m) (v / C (i + N * i)))
        (s := wr X ((N - 1) + N * m) (X ((N - 1) + N * m) / C ((N - 1) + N * (N - 1)))) (Nat.zero_le _)
        (by
          rw [Nat.mul_comm N m, Nat.mul_comm N (N - 1)]
          refine ⟨?_, ?_⟩
          · intro r hr l hl
            rw [ent_wr _ _ (by omega) hr, if_neg (by omega)]
          · intro r hr hrN
            have : r = N - 1 := by omega
            subst this
            rw [sum_eq_sum_Ico_succ_bot hrN, Nat.sub_add_cancel hN, Ico_self, sum_empty, add_zero,
              ent_wr _ _ hrN hrN, if_pos ⟨rfl, rfl⟩]
            have := hp (N - 1) hrN
            show ent N C (N - 1) (N - 1) * (ent N X (N - 1) m / ent N C (N - 1) (N - 1)) = _
            field_simp)
        (by
          intro i Y _ hiN ih'
          have hiN' : i < N := by omega
          have acc := loop_ind (S := K)
            (fun j v => ∑ t ∈ Ico (i + 1) j, ent N C i t * ent N Y t m + v = ent N Y i m)
            (a := i + 1) (b := N) (f := fun j v => v - C (i + N * j) * Y (j + N * m)) (s := Y (i + N * m))
            (by omega) (by rw [Ico_self, sum_empty, zero_add, Nat.mul_comm N m]; rfl)
            (by
              intro j v hj hjN ihv
              rw [sum_Ico_succ_top hj, ← ihv, Nat.mul_comm N m, Nat.mul_comm N j]
              show _ + (v - ent N C i j * ent N Y j m) = _
              ring)
          show (∀ r, r < N → ∀ l, _ → ent N (wr Y (i + N * m) (loop (i + 1) N _ _ / C (i + N * i))) r l = _) ∧
            ∀ r, i ≤ r → r < N → ∑ t ∈ Ico r N, ent N C r t *
              ent N (wr Y (i + N * m) (loop (i + 1) N _ _ / C (i + N * i))) t m = _
          generalize loop (i + 1) N (fun j v => v - C (i + N * j) * Y (j + N * m)) (Y (i + N * m)) = v at acc
          rw [Nat.mul_comm N m, Nat.mul_comm N i]
          refine ⟨?_, ?_⟩
          · intro r hr l hl
            rw [ent_wr _ _ hiN' hr, if_neg (by omega)]
            exact ih'.1 r hr l (by omega)
          · intro r hr hrN
            by_cases hb : r = i
            · subst hb
              rw [sum_eq_sum_Ico_succ_bot hrN, ent_wr _ _ hrN hrN, if_pos ⟨rfl, rfl⟩]
              have es : ∑ t ∈ Ico (r + 1) N, ent N C r t * ent N (wr Y (r + m * N) (v / C (r + r * N))) t m =
                  ∑ t ∈ Ico (r + 1) N, ent N C r t * ent N Y t m := by
                refine sum_congr rfl fun t ht => ?_
                rw [mem_Ico] at ht
                rw [ent_wr _ _ hrN (by omega), if_neg (by omega)]
              rw [es, ← ih'.1 r hrN m (Or.inr (by omega)), ← acc]
              have := hp r hrN
              show ent N C r r * (v / ent N C r r) + _ = _
              field_simp
              ring
            · have es : ∑ t ∈ Ico r N, ent N C r t * ent N (wr Y (i + m * N) (v / C (i + i * N))) t m =
                  ∑ t ∈ Ico r N, ent N C r t * ent N Y t m := by
                refine sum_congr rfl fun t ht => ?_
                rw [mem_Ico] at ht
                rw [ent_wr _ _ hiN' (by omega), if_neg (by omega)]
              rw [es]
              exact ih'.2 r (by omega) hrN)
      show (∀ i, i < N → ∀ l, l < m + 1 → l < M → ∑ t ∈ Ico i N, ent N C i t * ent N (loopDown 0 (N - 1) _ _) t l = _) ∧
        ∀ i, i < N → ∀ l, m + 1 ≤ l → ent N (loopDown 0 (N - 1) _ _) i l = _
      generalize loopDown 0 (N - 1) (fun i X =>
        let v := loop (i + 1) N (fun j v => v - C (i + N * j) * X (j + N * m)) (X (i + N * m))
        wr X (i + N * m) (v / C (i + N * i)))
        (wr X ((N - 1) + N * m) (X ((N - 1) + N * m) / C ((N - 1) + N * (N - 1)))) = Z at inner ⊢
      refine ⟨?_, ?_⟩
      · intro i hi l hl hlM
        by_cases hb : l = m
        · subst hb
          rw [inner.2 i (Nat.zero_le _) hi]
          exact ih.2 i hi l (Nat.le_refl _)
        · rw [← ih.1 i hi l (by omega) hlM]
          refine sum_congr rfl fun t ht => ?_
          rw [mem_Ico] at ht
          rw [inner.1 t (by omega) l (Or.inl hb)]
      · intro i hi l hl
        rw [inner.1 i hi l (Or.inl (by omega))]
        exact ih.2 i hi l (by omega))
  intro i hi l hl
  exact key.1 i hi l hl hl

end Verif.Dense
