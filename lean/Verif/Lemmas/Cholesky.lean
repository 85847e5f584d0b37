import Verif.Lemmas.Dense

/-!
Loop invariants of the Cholesky solver.
-/
set_option linter.unusedSectionVars false

namespace Verif.Dense

open Finset

theorem cs_succ {N j : Nat} (h : j < N) : (2 * N + 1 - (j + 1)) * (j + 1) / 2 = (2 * N + 1 - j) * j / 2 + (N - j) := by
  obtain ⟨d, rfl⟩ := Nat.exists_eq_add_of_lt h
  have e1 : 2 * (j + d + 1) + 1 - (j + 1) = j + 2 * d + 2 := by omega
  have e2 : 2 * (j + d + 1) + 1 - j = j + 2 * d + 3 := by omega
  have e3 : j + d + 1 - j = d + 1 := by omega
  rw [e1, e2, e3, show (j + 2 * d + 2) * (j + 1) = (j + 2 * d + 3) * j + (d + 1) * 2 by ring,
    Nat.add_mul_div_right _ _ (by omega)]

theorem cs_mono {N j j' : Nat} (h : j ≤ j') (h' : j' ≤ N) : (2 * N + 1 - j) * j / 2 ≤ (2 * N + 1 - j') * j' / 2 := by
  induction j' with
  | zero => rw [Nat.le_zero.mp h]
  | succ n ih =>
    rcases Nat.lt_or_ge j (n + 1) with h1 | h1
    · rw [cs_succ (by omega)]
      have := ih (by omega) (by omega)
      omega
    · have : j = n + 1 := by omega
      rw [this]

theorem cid_inj {N i j i' j' : Nat} (h : j ≤ i) (hi : i < N) (h' : j' ≤ i') (hi' : i' < N)
    (e : cid N i j = cid N i' j') : i = i' ∧ j = j' := by
  have key : ∀ i j i' j', j ≤ i → i < N → j' ≤ i' → i' < N → cid N i j = cid N i' j' → ¬ j < j' := by
    intro i j i' j' h hi h' hi' e hlt
    have h1 := cs_mono (N := N) (show j + 1 ≤ j' by omega) (by omega)
    rw [cs_succ (by omega)] at h1
    unfold cid at e
    omega
  have a := key i j i' j' h hi h' hi' e
  have b := key i' j' i j h' hi' h hi e.symm
  have : j = j' := by omega
  subst this
  unfold cid at e
  omega

/-- the work memory of `N * (N + 1) / 2` numbers is enough -/
theorem cid_lt {N i j : Nat} (h : j ≤ i) (hi : i < N) : cid N i j < N * (N + 1) / 2 := by
  have h1 := cs_mono (N := N) (show j + 1 ≤ N by omega) (by omega)
  rw [cs_succ (by omega), show (2 * N + 1 - N) * N = N * (N + 1) by rw [show 2 * N + 1 - N = N + 1 by omega]; ring] at h1
  unfold cid
  omega

/-- the packed position never runs ahead of the full position -/
theorem cid_le {N i j : Nat} (h : j ≤ i) (hi : i < N) : cid N i j ≤ i + j * N := by
  have : ∀ j, j ≤ N → (2 * N + 1 - j) * j / 2 ≤ j * N := by
    intro j
    induction j with
    | zero => intro _; omega
    | succ n ih =>
      intro hn
      have := ih (by omega)
      rw [cs_succ (by omega), Nat.add_mul, Nat.one_mul]
      omega
  have := this j (by omega)
  unfold cid
  omega

variable {K : Type}

/-- the stored entries -/
def E (N : Nat) (L : Nat → K) (i j : Nat) : K := L (cid N i j)

theorem E_wr {N i j r c : Nat} (m : Nat → K) (v : K) (h : j ≤ i) (hi : i < N) (hc : c ≤ r) (hr : r < N) :
    E N (wr m (cid N i j) v) r c = if r = i ∧ c = j then v else E N m r c := by
  unfold E
  split
  · rename_i h; rw [h.1, h.2, wr_same]
  · rename_i h'
    rw [wr_ne]
    intro e
    exact h' (cid_inj hc hr h hi e)

variable [Field K] [LinearOrder K]

theorem fill_entries (N : Nat) (A L0 : Nat → K) : ∀ r c, c ≤ r → r < N → E N (cholFill N A L0) r c = ent N A r c := by
  have := loop_ind (S := Nat → K) (fun k L => ∀ r c, c ≤ r → r < N → c < k → E N L r c = ent N A r c) (a := 0) (b := N)
    (f := fun k L => loop k N (fun i L => wr L (cid N i k) (A (i + k * N))) L) (s := L0) (Nat.zero_le _)
    (by intro r c _ _ h; omega)
    (by
      intro k L _ hk ih
      have := loop_ind (S := Nat → K)
        (fun i L' => ∀ r c, c ≤ r → r < N → c < k ∨ (c = k ∧ r < i) → E N L' r c = ent N A r c)
        (a := k) (b := N) (f := fun i L => wr L (cid N i k) (A (i + k * N))) (s := L) (by omega)
        (by
          intro r c h1 h2 h3
          exact ih r c h1 h2 (by omega))
        (by
          intro i L' hi hi' ih' r c h1 h2 h3
          rw [E_wr _ _ hi hi' h1 h2]
          split
          · rename_i h; rw [h.1, h.2]; rfl
          · exact ih' r c h1 h2 (by omega))
      intro r c h1 h2 h3
      exact this r c h1 h2 (by omega))
  intro r c h1 h2
  exact this r c h1 h2 (by omega)

/-- the same when the work memory is the memory of the matrix: no entry is overwritten before it was read -/
theorem fillInPlace_entries (N : Nat) (A : Nat → K) :
    ∀ r c, c ≤ r → r < N → E N (cholFillInPlace N A) r c = ent N A r c := by
  have := loop_ind (S := Nat → K)
    (fun k L => (∀ r c, c ≤ r → r < N → c < k → E N L r c = ent N A r c) ∧ ∀ p, k + k * N ≤ p → L p = A p)
    (a := 0) (b := N)
    (f := fun k L => loop k N (fun i L => wr L (cid N i k) (L (i + k * N))) L) (s := A) (Nat.zero_le _)
    ⟨by intro r c _ _ h; omega, fun _ _ => rfl⟩
    (by
      intro k L _ hk ih
      have := loop_ind (S := Nat → K)
        (fun i L' => (∀ r c, c ≤ r → r < N → c < k ∨ (c = k ∧ r < i) → E N L' r c = ent N A r c) ∧
          ∀ p, i + k * N ≤ p → L' p = A p)
        (a := k) (b := N) (f := fun i L => wr L (cid N i k) (L (i + k * N))) (s := L) (by omega)
        ⟨by
          intro r c h1 h2 h3
          exact ih.1 r c h1 h2 (by omega), ih.2⟩
        (by
          intro i L' hi hi' ih'
          refine ⟨?_, ?_⟩
          · intro r c h1 h2 h3
            rw [E_wr _ _ hi hi' h1 h2]
            split
            · rename_i h
              rw [h.1, h.2, ih'.2 _ (Nat.le_refl _)]; rfl
            · exact ih'.1 r c h1 h2 (by omega)
          · intro p hp
            have := cid_le hi hi'
            rw [wr_ne _ _ (by omega)]
            exact ih'.2 p (by omega))
      refine ⟨?_, ?_⟩
      · intro r c h1 h2 h3
        exact this.1 r c h1 h2 (by omega)
      · intro p hp
        exact this.2 p (by rw [Nat.add_mul] at hp; omega))
  intro r c h1 h2
  exact this.1 r c h1 h2 (by omega)

/-- the effect of one elimination step on the entries -/
theorem step_entries {sqrt : K → K} {N k : Nat} (hk : k < N) {L L' : Nat → K} (h : cholStep sqrt N k L = some L') :
    0 < E N L k k ∧
    (∀ r c, c ≤ r → r < N → c < k → E N L' r c = E N L r c) ∧
    E N L' k k = sqrt (E N L k k) ∧
    (∀ r, k < r → r < N → E N L' r k = E N L r k / sqrt (E N L k k)) ∧
    (∀ r c, c ≤ r → r < N → k < c → E N L' r c = E N L r c - E N L' r k * E N L' c k) := by
  unfold cholStep at h
  split at h
  · cases h
  rename_i hpos
  have hpos : 0 < E N L k k := not_le.mp hpos
  simp only [Option.some.injEq] at h
  have he : L (cid N k k) = E N L k k := rfl
  rw [he] at h
  generalize hd : sqrt (E N L k k) = d at *
  -- the pivot
  generalize h1 : wr L (cid N k k) d = L1 at *
  have e1 : ∀ r c, c ≤ r → r < N → E N L1 r c = if r = k ∧ c = k then d else E N L r c := by
    intro r c hc hr
    rw [← h1, E_wr _ _ (Nat.le_refl _) hk hc hr]
  -- the column
  generalize h2 : loop (k + 1) N (fun i L => wr L (cid N i k) (L (cid N i k) / L (cid N k k))) L1 = L2 at *
  have e2 : ∀ r c, c ≤ r → r < N → E N L2 r c = if c = k ∧ k < r ∧ r < N then E N L1 r c / d else E N L1 r c := by
    rw [← h2]
    refine loop_ind (S := Nat → K)
      (fun i L' => ∀ r c, c ≤ r → r < N → E N L' r c = if c = k ∧ k < r ∧ r < i then E N L1 r c / d else E N L1 r c)
      (a := k + 1) (b := N) hk ?_ ?_
    · intro r c hc hr
      rw [if_neg (by omega)]
    · intro i L' hi hi' ih r c hc hr
      rw [E_wr _ _ (by omega) hi' hc hr]
      split
      · rename_i hh
        obtain ⟨rfl, rfl⟩ := hh
        rw [if_pos ⟨rfl, by omega, by omega⟩]
        show E N L' r c / E N L' c c = _
        rw [ih r c hc hr, ih c c (Nat.le_refl _) hk, if_neg (by omega), if_neg (by omega),
          e1 c c (Nat.le_refl _) hk, if_pos ⟨rfl, rfl⟩]
      · rename_i hh
        rw [ih r c hc hr]
        by_cases hb : c = k ∧ k < r ∧ r < i
        · rw [if_pos hb, if_pos ⟨hb.1, hb.2.1, by omega⟩]
        · rw [if_neg hb, if_neg (fun h => hb ⟨h.1, h.2.1, by omega⟩)]
  -- the rest
  have e3 : ∀ r c, c ≤ r → r < N →
      E N L' r c = if k < c then E N L2 r c - E N L2 r k * E N L2 c k else E N L2 r c := by
    rw [← h]
    have := loop_ind (S := Nat → K)
      (fun j L' => ∀ r c, c ≤ r → r < N →
        E N L' r c = if k < c ∧ c < j then E N L2 r c - E N L2 r k * E N L2 c k else E N L2 r c)
      (a := k + 1) (b := N)
      (f := fun j L => loop j N (fun i L => wr L (cid N i j) (L (cid N i j) - L (cid N i k) * L (cid N j k))) L)
      (s := L2) hk
      (by intro r c hc hr; rw [if_neg (by omega)])
      (by
        intro j L' hj hj' ih
        have := loop_ind (S := Nat → K)
          (fun i L'' => ∀ r c, c ≤ r → r < N →
            E N L'' r c = if (k < c ∧ c < j) ∨ (c = j ∧ r < i) then E N L2 r c - E N L2 r k * E N L2 c k else E N L2 r c)
          (a := j) (b := N) (f := fun i L => wr L (cid N i j) (L (cid N i j) - L (cid N i k) * L (cid N j k)))
          (s := L') (by omega)
          (by
            intro r c hc hr
            rw [ih r c hc hr]
            by_cases hb : k < c ∧ c < j
            · rw [if_pos hb, if_pos (Or.inl hb)]
            · rw [if_neg hb, if_neg (by omega)])
          (by
            intro i L'' hi hi' ih' r c hc hr
            rw [E_wr _ _ hi hi' hc hr]
            split
            · rename_i hh
              obtain ⟨rfl, rfl⟩ := hh
              rw [if_pos (by omega)]
              show E N L'' r c - E N L'' r k * E N L'' c k = _
              rw [ih' r c hc hr, ih' r k (by omega) hr, ih' c k (by omega) (by omega), if_neg (by omega),
                if_neg (by omega), if_neg (by omega)]
            · rename_i hh
              rw [ih' r c hc hr]
              by_cases hb : (k < c ∧ c < j) ∨ (c = j ∧ r < i)
              · rw [if_pos hb, if_pos (by omega)]
              · rw [if_neg hb, if_neg (by omega)])
        intro r c hc hr
        rw [this r c hc hr]
        by_cases hb : (k < c ∧ c < j) ∨ (c = j ∧ r < N)
        · rw [if_pos hb, if_pos (by omega)]
        · rw [if_neg hb, if_neg (by omega)])
    intro r c hc hr
    rw [this r c hc hr]
    by_cases hb : k < c
    · rw [if_pos hb, if_pos (by omega)]
    · rw [if_neg hb, if_neg (by omega)]
  refine ⟨hpos, ?_, ?_, ?_, ?_⟩
  · intro r c hc hr hck
    rw [e3 r c hc hr, if_neg (by omega), e2 r c hc hr, if_neg (by omega), e1 r c hc hr, if_neg (by omega)]
  · rw [e3 k k (Nat.le_refl _) hk, if_neg (by omega), e2 k k (Nat.le_refl _) hk, if_neg (by omega),
      e1 k k (Nat.le_refl _) hk, if_pos ⟨rfl, rfl⟩]
  · intro r hr hrN
    rw [e3 r k (by omega) hrN, if_neg (by omega), e2 r k (by omega) hrN, if_pos ⟨rfl, hr, hrN⟩,
      e1 r k (by omega) hrN, if_neg (by omega)]
  · intro r c hc hr hkc
    have a := e3 r k (by omega) hr
    have b := e3 c k (by omega) (by omega)
    rw [if_neg (by omega)] at a b
    rw [a, b, e3 r c hc hr, if_pos hkc]
    congr 1
    rw [e2 r c hc hr, if_neg (by omega), e1 r c hc hr, if_neg (by omega)]

end Verif.Dense
