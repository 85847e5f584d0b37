import Verif.Lemmas.Cholesky

/-!
The Cholesky factorisation and the triangular solves.
-/
set_option linter.unusedSectionVars false

namespace Verif.Dense

open Finset

variable {K : Type} [Field K] [LinearOrder K] [IsStrictOrderedRing K]

/-- after `k` steps: the lower triangle of `A` is the product of the first `k` columns plus the remaining block -/
structure CInv (N : Nat) (A : Nat → K) (k : Nat) (L : Nat → K) : Prop where
  prod : ∀ r c, c ≤ r → r < N →
    ent N A r c = ∑ t ∈ range (min k (c + 1)), E N L r t * E N L c t + if k ≤ c then E N L r c else 0
  pos : ∀ t, t < k → t < N → 0 < E N L t t

theorem CInv.step {sqrt : K → K} (hs : Geometry.IsSqrt sqrt) {N k : Nat} (hk : k < N) {A L L' : Nat → K}
    (hi : CInv N A k L) (h : cholStep sqrt N k L = some L') : CInv N A (k + 1) L' := by
  obtain ⟨hp, h1, h2, h3, h4⟩ := step_entries hk h
  obtain ⟨hq, hqq⟩ := hs _ (le_of_lt hp)
  have hq0 : sqrt (E N L k k) ≠ 0 := by
    intro h0; rw [h0, mul_zero] at hqq; rw [← hqq] at hp; exact lt_irrefl _ hp
  constructor
  · intro r c hc hr
    rw [hi.prod r c hc hr]
    rcases Nat.lt_trichotomy c k with hck | hck | hck
    · rw [if_neg (by omega), if_neg (by omega), Nat.min_eq_right (by omega), Nat.min_eq_right (by omega)]
      congr 1
      refine sum_congr rfl ?_
      intro t ht
      rw [mem_range] at ht
      rw [h1 r t (by omega) hr (by omega), h1 c t (by omega) (by omega) (by omega)]
    · subst hck
      rw [if_pos (Nat.le_refl _), if_neg (by omega), Nat.min_eq_left (by omega), Nat.min_self, sum_range_succ, add_zero]
      congr 1
      · refine sum_congr rfl ?_
        intro t ht
        rw [mem_range] at ht
        rw [h1 r t (by omega) hr (by omega), h1 c t (by omega) (by omega) (by omega)]
      · rcases Nat.lt_or_ge c r with hcr | hcr
        · rw [h3 r hcr hr, h2]; field_simp
        · have : r = c := by omega
          rw [this, h2, hqq]
    · rw [if_pos (by omega), if_pos (by omega), Nat.min_eq_left (by omega), Nat.min_eq_left (by omega), sum_range_succ,
        h4 r c hc hr hck]
      have : ∑ t ∈ range k, E N L' r t * E N L' c t = ∑ t ∈ range k, E N L r t * E N L c t := by
        refine sum_congr rfl ?_
        intro t ht
        rw [mem_range] at ht
        rw [h1 r t (by omega) hr (by omega), h1 c t (by omega) (by omega) (by omega)]
      rw [this]; ring
  · intro t ht htN
    rcases Nat.lt_or_ge t k with h | h
    · rw [h1 t t (Nat.le_refl _) htN h]; exact hi.pos t h htN
    · have : t = k := by omega
      rw [this, h2]
      exact lt_of_le_of_ne hq (Ne.symm hq0)

theorem CInv.zero {N : Nat} {A L : Nat → K} (h : ∀ r c, c ≤ r → r < N → E N L r c = ent N A r c) : CInv N A 0 L := by
  constructor
  · intro r c hc hr
    rw [if_pos (Nat.zero_le _), h r c hc hr, Nat.zero_min, range_zero, sum_empty, zero_add]
  · intro t ht; omega

/-- the steps of the factorisation: success with a full factorisation, or an intermediate state with a pivot that is
not positive -/
theorem factor_cases {sqrt : K → K} (hs : Geometry.IsSqrt sqrt) {N : Nat} {A L0 : Nat → K} (h0 : CInv N A 0 L0) :
    ∀ n, n ≤ N →
      (∃ L, (List.range n).foldlM (fun L k => cholStep sqrt N k L) L0 = some L ∧ CInv N A n L) ∨
      ((List.range n).foldlM (fun L k => cholStep sqrt N k L) L0 = none ∧
        ∃ k L, k < N ∧ CInv N A k L ∧ E N L k k ≤ 0) := by
  intro n
  induction n with
  | zero => intro _; exact Or.inl ⟨L0, rfl, h0⟩
  | succ n ih =>
    intro hn
    rw [List.range_succ, List.foldlM_append]
    rcases ih (by omega) with ⟨L, h1, h2⟩ | ⟨h1, h2⟩
    · rw [h1]
      simp only [List.foldlM_cons, List.foldlM_nil, Option.bind_eq_bind, Option.bind_some, Option.pure_def]
      cases hst : cholStep sqrt N n L with
      | none =>
        right
        refine ⟨rfl, n, L, by omega, h2, ?_⟩
        unfold cholStep at hst
        split at hst
        · assumption
        · cases hst
      | some L' => exact Or.inl ⟨L', rfl, h2.step hs (by omega) hst⟩
    · rw [h1]
      exact Or.inr ⟨rfl, h2⟩

/-- the lower triangular factor as a full matrix -/
def Lf (N : Nat) (L : Nat → K) (i t : Nat) : K := if t ≤ i then E N L i t else 0

theorem sum_lower {N i : Nat} (hi : i < N) (f g : Nat → K) :
    ∑ t ∈ range N, (if t ≤ i then f t else 0) * g t = ∑ t ∈ range (i + 1), f t * g t := by
  rw [← sum_range_add_sum_Ico (fun t => (if t ≤ i then f t else 0) * g t) (show i + 1 ≤ N by omega)]
  rw [sum_eq_zero (s := Ico (i + 1) N), add_zero]
  · refine sum_congr rfl ?_
    intro t ht
    rw [mem_range] at ht
    rw [if_pos (by omega)]
  · intro t ht
    rw [mem_Ico] at ht
    rw [if_neg (by omega), zero_mul]

/-- the forward substitution -/
theorem fwd_spec {N M : Nat} {L B : Nat → K} (hd : ∀ t, t < N → E N L t t ≠ 0) :
    ∀ i, i < N → ∀ k, k < M →
      ∑ t ∈ range (i + 1), E N L i t * ent N (cholFwd N M L B) t k = ent N B i k := by
  have key := loop_ind (S := Nat → K)
    (fun i Y => (∀ r, r < i → r < N → ∀ k, k < M → ∑ t ∈ range (r + 1), E N L r t * ent N Y t k = ent N B r k) ∧
      ∀ r, i ≤ r → r < N → ∀ k, k < M → ent N Y r k = ent N B r k)
    (a := 0) (b := N)
    (f := fun i Y => loop 0 M (fun k Y =>
      let Y := loop 0 i (fun j Y => wr Y (i + N * k) (Y (i + N * k) - Y (j + N * k) * L (cid N i j))) Y
      wr Y (i + k * N) (Y (i + k * N) / L (cid N i i))) Y) (s := B) (Nat.zero_le _)
    ⟨by intro r hr; omega, fun r _ _ k _ => rfl⟩
    (by
      intro i Y _ hi ih
      have inner := loop_ind (S := Nat → K)
        (fun m Y' => (∀ r, r < N → ∀ k, k < M → ¬ (r = i ∧ k < m) → ent N Y' r k = ent N Y r k) ∧
          ∀ k, k < m → k < M →
            ∑ t ∈ range i, E N L i t * ent N Y t k + E N L i i * ent N Y' i k = ent N Y i k)
        (a := 0) (b := M) (f := fun k Y =>
          let Y := loop 0 i (fun j Y => wr Y (i + N * k) (Y (i + N * k) - Y (j + N * k) * L (cid N i j))) Y
          wr Y (i + k * N) (Y (i + k * N) / L (cid N i i))) (s := Y) (Nat.zero_le _)
        ⟨fun r _ k _ _ => rfl, by intro k hk; omega⟩
        (by
          intro k Y' _ hk ih'
          have acc := loop_ind (S := Nat → K)
            (fun j Y'' => (∀ r, r < N → ∀ k', k' < M → ¬ (r = i ∧ k' = k) → ent N Y'' r k' = ent N Y' r k') ∧
              ∑ t ∈ range j, E N L i t * ent N Y t k + ent N Y'' i k = ent N Y i k)
            (a := 0) (b := i)
            (f := fun j Y => wr Y (i + N * k) (Y (i + N * k) - Y (j + N * k) * L (cid N i j))) (s := Y')
            (Nat.zero_le _)
            ⟨fun r _ k' _ _ => rfl, by rw [range_zero, sum_empty, zero_add]; exact ih'.1 i hi k hk (by omega)⟩
            (by
              intro j Y'' _ hj ih''
              rw [Nat.mul_comm N k]
              refine ⟨?_, ?_⟩
              · intro r hr k' hk' hne
                rw [ent_wr _ _ hi hr, if_neg hne]
                exact ih''.1 r hr k' hk' hne
              · rw [ent_wr _ _ hi hi, if_pos ⟨rfl, rfl⟩, sum_range_succ]
                have h1 : Y'' (j + k * N) = ent N Y j k :=
                  (ih''.1 j (by omega) k hk (by omega)).trans (ih'.1 j (by omega) k hk (by omega))
                rw [h1]
                have h2 := ih''.2
                show _ + (ent N Y'' i k - ent N Y j k * E N L i j) = _
                rw [← h2]; ring)
          show (∀ r, r < N → ∀ k', k' < M → _ → ent N (wr (loop 0 i _ Y') (i + k * N) _) r k' = _) ∧
            ∀ k', k' < k + 1 → k' < M → _ + _ * ent N (wr (loop 0 i _ Y') (i + k * N) _) i k' = _
          generalize loop 0 i (fun j Y => wr Y (i + N * k) (Y (i + N * k) - Y (j + N * k) * L (cid N i j))) Y' = Z at acc ⊢
          refine ⟨?_, ?_⟩
          · intro r hr k' hk' hne
            rw [ent_wr _ _ hi hr, if_neg (by omega), acc.1 r hr k' hk' (by omega), ih'.1 r hr k' hk' (by omega)]
          · intro k' hk' hkM
            rw [ent_wr _ _ hi hi]
            by_cases he : k' = k
            · subst he
              rw [if_pos ⟨rfl, rfl⟩]
              have h2 := acc.2
              have h3 := hd i hi
              show _ + E N L i i * (ent N Z i k' / E N L i i) = _
              rw [← h2]; field_simp
            · rw [if_neg (by omega), acc.1 i hi k' hkM (by omega)]
              exact ih'.2 k' (by omega) hkM)
      generalize loop 0 M (fun k Y =>
          let Y := loop 0 i (fun j Y => wr Y (i + N * k) (Y (i + N * k) - Y (j + N * k) * L (cid N i j))) Y
          wr Y (i + k * N) (Y (i + k * N) / L (cid N i i))) Y = Z at inner ⊢
      refine ⟨?_, ?_⟩
      · intro r hr hrN k hk
        rcases Nat.lt_or_ge r i with h | h
        · rw [← ih.1 r h hrN k hk]
          refine sum_congr rfl ?_
          intro t ht
          rw [mem_range] at ht
          rw [inner.1 t (by omega) k hk (by omega)]
        · have : r = i := by omega
          subst this
          have h2 := inner.2 k hk hk
          rw [sum_range_succ, ← ih.2 r (Nat.le_refl _) hrN k hk, ← h2]
          congr 1
          refine sum_congr rfl ?_
          intro t ht
          rw [mem_range] at ht
          rw [inner.1 t (by omega) k hk (by omega)]
      · intro r hr hrN k hk
        rw [inner.1 r hrN k hk (by omega)]
        exact ih.2 r (by omega) hrN k hk)
  intro i hi k hk
  exact key.1 i hi hi k hk

/-- the backward substitution -/
theorem bwd_spec {N M : Nat} {L B : Nat → K} (hd : ∀ t, t < N → E N L t t ≠ 0) :
    ∀ i, i < N → ∀ k, k < M →
      ∑ t ∈ Ico i N, E N L t i * ent N (cholBwd N M L B) t k = ent N B i k := by
  have key := loopDown_ind (S := Nat → K)
    (fun i X => (∀ r, i ≤ r → r < N → ∀ k, k < M → ∑ t ∈ Ico r N, E N L t r * ent N X t k = ent N B r k) ∧
      ∀ r, r < i → r < N → ∀ k, k < M → ent N X r k = ent N B r k)
    (a := 0) (b := N)
    (f := fun i X => loop 0 M (fun k X =>
      let X := loopDown (i + 1) N (fun j X => wr X (i + k * N) (X (i + k * N) - X (j + k * N) * L (cid N j i))) X
      wr X (i + k * N) (X (i + k * N) / L (cid N i i))) X) (s := B) (Nat.zero_le _)
    ⟨by intro r hr; omega, fun r _ _ k _ => rfl⟩
    (by
      intro i Y _ hi ih
      have inner := loop_ind (S := Nat → K)
        (fun m Y' => (∀ r, r < N → ∀ k, k < M → ¬ (r = i ∧ k < m) → ent N Y' r k = ent N Y r k) ∧
          ∀ k, k < m → k < M →
            ∑ t ∈ Ico (i + 1) N, E N L t i * ent N Y t k + E N L i i * ent N Y' i k = ent N Y i k)
        (a := 0) (b := M) (f := fun k X =>
          let X := loopDown (i + 1) N (fun j X => wr X (i + k * N) (X (i + k * N) - X (j + k * N) * L (cid N j i))) X
          wr X (i + k * N) (X (i + k * N) / L (cid N i i))) (s := Y) (Nat.zero_le _)
        ⟨fun r _ k _ _ => rfl, by intro k hk; omega⟩
        (by
          intro k Y' _ hk ih'
          have acc := loopDown_ind (S := Nat → K)
            (fun j Y'' => (∀ r, r < N → ∀ k', k' < M → ¬ (r = i ∧ k' = k) → ent N Y'' r k' = ent N Y' r k') ∧
              ∑ t ∈ Ico j N, E N L t i * ent N Y t k + ent N Y'' i k = ent N Y i k)
            (a := i + 1) (b := N)
            (f := fun j X => wr X (i + k * N) (X (i + k * N) - X (j + k * N) * L (cid N j i))) (s := Y')
            (by omega)
            ⟨fun r _ k' _ _ => rfl, by rw [Ico_self, sum_empty, zero_add]; exact ih'.1 i hi k hk (by omega)⟩
            (by
              intro j Y'' hj1 hj ih''
              refine ⟨?_, ?_⟩
              · intro r hr k' hk' hne
                rw [ent_wr _ _ hi hr, if_neg hne]
                exact ih''.1 r hr k' hk' hne
              · rw [ent_wr _ _ hi hi, if_pos ⟨rfl, rfl⟩, sum_eq_sum_Ico_succ_bot hj]
                have h1 : Y'' (j + k * N) = ent N Y j k :=
                  (ih''.1 j (by omega) k hk (by omega)).trans (ih'.1 j (by omega) k hk (by omega))
                rw [h1]
                have h2 := ih''.2
                show _ + (ent N Y'' i k - ent N Y j k * E N L j i) = _
                rw [← h2]; ring)
          show (∀ r, r < N → ∀ k', k' < M → _ → ent N (wr (loopDown (i + 1) N _ Y') (i + k * N) _) r k' = _) ∧
            ∀ k', k' < k + 1 → k' < M → _ + _ * ent N (wr (loopDown (i + 1) N _ Y') (i + k * N) _) i k' = _
          generalize loopDown (i + 1) N
            (fun j X => wr X (i + k * N) (X (i + k * N) - X (j + k * N) * L (cid N j i))) Y' = Z at acc ⊢
          refine ⟨?_, ?_⟩
          · intro r hr k' hk' hne
            rw [ent_wr _ _ hi hr, if_neg (by omega), acc.1 r hr k' hk' (by omega), ih'.1 r hr k' hk' (by omega)]
          · intro k' hk' hkM
            rw [ent_wr _ _ hi hi]
            by_cases he : k' = k
            · subst he
              rw [if_pos ⟨rfl, rfl⟩]
              have h2 := acc.2
              have h3 := hd i hi
              show _ + E N L i i * (ent N Z i k' / E N L i i) = _
              rw [← h2]; field_simp
            · rw [if_neg (by omega), acc.1 i hi k' hkM (by omega)]
              exact ih'.2 k' (by omega) hkM)
      generalize loop 0 M (fun k X =>
          let X := loopDown (i + 1) N (fun j X => wr X (i + k * N) (X (i + k * N) - X (j + k * N) * L (cid N j i))) X
          wr X (i + k * N) (X (i + k * N) / L (cid N i i))) Y = Z at inner ⊢
      refine ⟨?_, ?_⟩
      · intro r hr hrN k hk
        rcases Nat.lt_or_ge i r with h | h
        · rw [← ih.1 r h hrN k hk]
          refine sum_congr rfl ?_
          intro t ht
          rw [mem_Ico] at ht
          rw [inner.1 t (by omega) k hk (by omega)]
        · have : r = i := by omega
          subst this
          have h2 := inner.2 k hk hk
          rw [sum_eq_sum_Ico_succ_bot hrN, ← ih.2 r (by omega) hrN k hk, ← h2, add_comm]
          congr 1
          refine sum_congr rfl ?_
          intro t ht
          rw [mem_Ico] at ht
          rw [inner.1 t (by omega) k hk (by omega)]
      · intro r hr hrN k hk
        rw [inner.1 r hrN k hk (by omega)]
        exact ih.2 r (by omega) hrN k hk)
  intro i hi k hk
  exact key.1 i (by omega) hi k hk

end Verif.Dense
