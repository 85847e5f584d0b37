import Verif.Lemmas.Csc

/-!
C27: compressed-column and dense storage of elemental matrices agree.
-/
namespace Verif.Csc
open Verif.Dense

variable {R : Type}

/-- Expanding a compressed-column matrix puts every stored value at its place and `fill` elsewhere, also in place, and
touches nothing outside the dense matrix. -/
theorem densify_expands (v : View) (hd : v.dense = false) (hc : IsCsc v.nnz v.sz1 v.sz2 v.colind v.row) (f t : Nat)
    (hft : t = f ∨ f + v.nnz ≤ t ∨ t + v.sz1 * v.sz2 ≤ f) (fill : R) (m : Nat → R) :
    Expands v.sz1 v.sz2 v.colind v.row (fun p => m (f + p)) (fun q => densify v f t fill m (t + q)) fill ∧
    ∀ q, (q < t ∨ t + v.sz1 * v.sz2 ≤ q) → densify v f t fill m q = m q := by
  unfold densify
  by_cases hn : v.nnz = v.sz1 * v.sz2
  · rw [if_pos (Or.inr hn)]
    have hcopy : ∀ q, (if t = f then m else copy f t v.nnz m) q =
        if t ≤ q ∧ q < t + v.nnz then m (f + (q - t)) else m q := by
      intro q
      by_cases e : t = f
      · rw [if_pos e]; subst e
        split
        · rw [show t + (q - t) = q by omega]
        · rfl
      · rw [if_neg e]
        exact copy_eq f t v.nnz m (by rw [hn] at hft ⊢; omega) q
    refine ⟨?_, ?_⟩
    · intro c hcl r hr
      have hb : c * v.sz1 + r < v.sz1 * v.sz2 := by
        have : (c + 1) * v.sz1 ≤ v.sz2 * v.sz1 := Nat.mul_le_mul_right _ hcl
        rw [Nat.succ_mul, Nat.mul_comm v.sz2] at this
        omega
      have e0 := colind_full hc hn (Nat.le_of_lt hcl)
      have e1 := colind_full hc hn (show c + 1 ≤ v.sz2 by omega)
      rw [Nat.succ_mul] at e1
      refine ⟨?_, ?_⟩
      · intro p ⟨p1, p2, p3⟩
        show (if t = f then m else copy f t v.nnz m) _ = _
        rw [hcopy, if_pos (by omega)]
        have := row_full hc hn hcl (r := p - c * v.sz1) (by omega)
        rw [show c * v.sz1 + (p - c * v.sz1) = p by omega] at this
        rw [show t + (c * v.sz1 + r) - t = p by omega]
      · intro h
        exact absurd ⟨by omega, by omega, row_full hc hn hcl hr⟩ (h (c * v.sz1 + r))
    · intro q hq
      rw [hcopy, if_neg (by omega)]
  · rw [if_neg (by simp [hd, hn])]
    have hle := nnz_le hc
    have main := loopDown_ind (a := 0) (b := v.sz2) (f := fun i m => densifyCol v f t fill i m) (s := m)
      (P := fun i (s : Nat → R) => (∀ q, (q < t + i * v.sz1 ∨ t + v.sz2 * v.sz1 ≤ q) → s q = m q) ∧
        ∀ c, i ≤ c → c < v.sz2 → ∀ r, r < v.sz1 →
          (∀ p, StoredAt v.colind v.row r c p → s (t + c * v.sz1 + r) = m (f + p)) ∧
          ((∀ p, ¬ StoredAt v.colind v.row r c p) → s (t + c * v.sz1 + r) = fill))
      (Nat.zero_le _) ⟨fun q _ => rfl, fun c h1 h2 => absurd h2 (Nat.not_lt.2 h1)⟩ ?_
    · refine ⟨?_, ?_⟩
      · intro c hcl r hr
        have := main.2 c (Nat.zero_le _) hcl r hr
        rw [show t + c * v.sz1 + r = t + (c * v.sz1 + r) by omega] at this
        exact this
      · intro q hq
        exact main.1 q (by rw [Nat.mul_comm v.sz2]; omega)
    · intro i s _ hi ⟨h1, h2⟩
      have hs : (i + 1) * v.sz1 = i * v.sz1 + v.sz1 := Nat.succ_mul ..
      have hb : (i + 1) * v.sz1 ≤ v.sz2 * v.sz1 := Nat.mul_le_mul_right _ hi
      have hcom : v.sz1 * v.sz2 = v.sz2 * v.sz1 := Nat.mul_comm ..
      obtain ⟨k1, k2⟩ := densifyCol_spec v f t fill i s hc hi (by omega)
      refine ⟨?_, ?_⟩
      · intro q hq
        rw [k1 q (by omega)]
        exact h1 q (by omega)
      · intro c hcl1 hcl2 r hr
        rcases Nat.eq_or_lt_of_le hcl1 with e | e
        · subst e
          obtain ⟨k3, k4⟩ := k2 r hr
          refine ⟨?_, k4⟩
          intro p hp
          rw [k3 p hp]
          have hpl := place_le hc hi hp.1 hp.2.1
          rw [hp.2.2] at hpl
          refine h1 _ ?_
          rcases hft with h | h | h
          · omega
          · omega
          · right
            omega
        · have hge : (i + 1) * v.sz1 ≤ c * v.sz1 := Nat.mul_le_mul_right _ e
          rw [k1 _ (by omega)]
          exact h2 c e hcl2 r hr

/-- the pattern `[[a, 0], [0, c], [b, 0]]` -/
def exView : View := ⟨false, 3, 3, 2, fun i => [0, 2, 3].getD i 0, fun i => [0, 2, 1].getD i 0⟩

example : IsCsc exView.nnz exView.sz1 exView.sz2 exView.colind exView.row := by
  refine ⟨rfl, rfl, by decide, ?_, ?_⟩
  · intro c hc p h1 h2
    have : c = 0 ∨ c = 1 := by have : c < 2 := hc; omega
    have hp : p < 3 := by rcases this with rfl | rfl <;> simp [exView] at h2 <;> omega
    have : ∀ p, p < 3 → exView.row p < exView.sz1 := by decide
    exact this p hp
  · intro c hc p h1 h2
    have : c = 0 ∨ c = 1 := by have : c < 2 := hc; omega
    have hp : p = 0 := by rcases this with rfl | rfl <;> simp [exView] at h1 h2 <;> omega
    subst hp; decide
example : (List.range 9).map (densify exView 1 1 0 (fun q => 10 + q)) = [10, 11, 0, 12, 0, 13, 0, 17, 18] := by decide
example : (List.range 9).map (densify exView 0 3 0 (fun q => 10 + q)) = [10, 11, 12, 10, 0, 11, 0, 12, 0] := by decide

/-- A dense view is copied as it is. -/
theorem densify_dense (v : View) (hd : v.dense = true) (f t : Nat) (hft : t ≤ f ∨ f + v.nnz ≤ t) (fill : R)
    (m : Nat → R) (q : Nat) :
    densify v f t fill m q = if t ≤ q ∧ q < t + v.nnz then m (f + (q - t)) else m q := by
  unfold densify
  rw [if_pos (Or.inl hd)]
  by_cases e : t = f
  · rw [if_pos e]; subst e
    split
    · rw [show t + (q - t) = q by omega]
    · rfl
  · rw [if_neg e]; exact copy_eq f t v.nnz m hft q

example : (List.range 6).map (densify (makeDense 1 2) 0 2 0 (fun q => 10 + q)) = [10, 11, 10, 11, 14, 15] := by decide

/-- Collecting the entries of the pattern from a dense matrix, also in place. -/
theorem sparsify_collects (v : View) (hd : v.dense = false) (hc : IsCsc v.nnz v.sz1 v.sz2 v.colind v.row) (f t : Nat)
    (hft : t ≤ f ∨ f + v.sz1 * v.sz2 ≤ t) (m : Nat → R) :
    (∀ c, c < v.sz2 → ∀ r p, StoredAt v.colind v.row r c p → sparsify v f t m (t + p) = m (f + (c * v.sz1 + r))) ∧
    ∀ q, (q < t ∨ t + v.nnz ≤ q) → sparsify v f t m q = m q := by
  unfold sparsify
  by_cases hn : v.nnz = v.sz1 * v.sz2
  · rw [if_pos (Or.inr hn)]
    have hcopy : ∀ q, (if t = f then m else copy f t v.nnz m) q =
        if t ≤ q ∧ q < t + v.nnz then m (f + (q - t)) else m q := by
      intro q
      by_cases e : t = f
      · rw [if_pos e]; subst e
        split
        · rw [show t + (q - t) = q by omega]
        · rfl
      · rw [if_neg e]
        exact copy_eq f t v.nnz m (by omega) q
    refine ⟨?_, ?_⟩
    · intro c hcl r p ⟨p1, p2, p3⟩
      have e0 := colind_full hc hn (Nat.le_of_lt hcl)
      have e1 := colind_full hc hn (show c + 1 ≤ v.sz2 by omega)
      rw [Nat.succ_mul] at e1
      have := row_full hc hn hcl (r := p - c * v.sz1) (by omega)
      rw [show c * v.sz1 + (p - c * v.sz1) = p by omega] at this
      have h4 := colind_mono hc (show c + 1 ≤ v.sz2 by omega) (Nat.le_refl _)
      rw [hc.last] at h4
      rw [hcopy, if_pos (by omega), show t + p - t = c * v.sz1 + r by omega]
    · intro q hq
      rw [hcopy, if_neg (by omega)]
  · rw [if_neg (by simp [hd, hn])]
    have main := loop_ind (a := 0) (b := v.sz2)
      (f := fun i m => loop (v.colind i) (v.colind (i + 1))
        (fun j m => wr m (t + j) (m (f + (i * v.sz1 + v.row j)))) m) (s := m)
      (P := fun i (s : Nat → R) => (∀ q, (q < t ∨ t + v.colind i ≤ q) → s q = m q) ∧
        ∀ c, c < i → c < v.sz2 → ∀ r p, StoredAt v.colind v.row r c p → s (t + p) = m (f + (c * v.sz1 + r)))
      (Nat.zero_le _) ⟨fun q _ => rfl, fun c h1 => absurd h1 (Nat.not_lt_zero _)⟩ ?_
    · refine ⟨fun c hcl r p hp => main.2 c hcl hcl r p hp, ?_⟩
      intro q hq
      exact main.1 q (by rw [hc.last]; exact hq)
    · intro i s _ hi ⟨h1, h2⟩
      have hb : (i + 1) * v.sz1 ≤ v.sz2 * v.sz1 := Nat.mul_le_mul_right _ hi
      rw [Nat.succ_mul, Nat.mul_comm v.sz2] at hb
      have inner := loop_ind (a := v.colind i) (b := v.colind (i + 1))
        (f := fun j m => wr m (t + j) (m (f + (i * v.sz1 + v.row j)))) (s := s)
        (P := fun j (u : Nat → R) => (∀ q, (q < t + v.colind i ∨ t + j ≤ q) → u q = s q) ∧
          ∀ p, v.colind i ≤ p → p < j → u (t + p) = m (f + (i * v.sz1 + v.row p)))
        (hc.mono i hi) ⟨fun q _ => rfl, fun p h3 h4 => absurd h4 (Nat.not_lt.2 h3)⟩ ?_
      · refine ⟨?_, ?_⟩
        · intro q hq
          have := hc.mono i hi
          rw [inner.1 q (by omega)]
          exact h1 q (by omega)
        · intro c hc1 hc2 r p hp
          rcases Nat.eq_or_lt_of_le (Nat.le_of_lt_succ hc1) with e | e
          · subst e
            have := inner.2 p hp.1 hp.2.1
            rw [hp.2.2] at this
            exact this
          · rw [inner.1 (t + p) ?_]
            · exact h2 c e hc2 r p hp
            · have h5 := colind_mono hc (show c + 1 ≤ i by omega) (Nat.le_of_lt hi)
              have := hp.2.1
              omega
      · intro j u hj1 hj2 ⟨k1, k2⟩
        have hpl := place_le hc hi hj1 hj2
        have hrow := hc.bound i hi j hj1 hj2
        have hmono := hc.mono i hi
        have hle := colind_mono hc (show i + 1 ≤ v.sz2 by omega) (Nat.le_refl _)
        rw [hc.last] at hle
        have hnn := nnz_le hc
        rw [Nat.mul_comm v.sz2] at hnn
        have hread : u (f + (i * v.sz1 + v.row j)) = m (f + (i * v.sz1 + v.row j)) := by
          rw [k1 _ (by omega)]
          exact h1 _ (by omega)
        refine ⟨?_, ?_⟩
        · intro q hq
          show wr _ _ _ q = _
          rw [wr_ne _ _ (by omega)]
          exact k1 q (by omega)
        · intro p hp1 hp2
          show wr _ _ _ _ = _
          by_cases e : p = j
          · subst e; rw [wr_same, hread]
          · rw [wr_ne _ _ (by omega)]
            exact k2 p hp1 (by omega)

example : (List.range 5).map (sparsify exView 1 0 (fun q => 10 + q)) = [11, 13, 15, 13, 14] := by decide

/-- the column of a stored place -/
theorem exists_column {nnz sz1 sz2 : Nat} {colind row : Nat → Nat} (hc : IsCsc nnz sz1 sz2 colind row) {p : Nat}
    (hp : p < nnz) : ∃ c, c < sz2 ∧ colind c ≤ p ∧ p < colind (c + 1) := by
  have key : ∀ d, d ≤ sz2 → p < colind d → ∃ c, c < d ∧ colind c ≤ p ∧ p < colind (c + 1) := by
    intro d
    induction d with
    | zero => intro _ h; rw [hc.first] at h; omega
    | succ d ih =>
      intro hd h
      by_cases h1 : colind d ≤ p
      · exact ⟨d, by omega, h1, h⟩
      · obtain ⟨c, h2, h3⟩ := ih (by omega) (by omega)
        exact ⟨c, by omega, h3⟩
  exact key sz2 (Nat.le_refl _) (by rw [hc.last]; exact hp)

/-- Expanding in place and collecting again restores the stored values. -/
theorem sparsify_densify (v : View) (hd : v.dense = false) (hc : IsCsc v.nnz v.sz1 v.sz2 v.colind v.row) (f : Nat)
    (fill : R) (m : Nat → R) (p : Nat) (hp : p < v.nnz) :
    sparsify v f f (densify v f f fill m) (f + p) = m (f + p) := by
  obtain ⟨c, h1, h2, h3⟩ := exists_column hc hp
  rw [(sparsify_collects v hd hc f f (Or.inl (Nat.le_refl _)) _).1 c h1 (v.row p) p ⟨h2, h3, rfl⟩]
  exact ((densify_expands v hd hc f f (Or.inl rfl) fill m).1 c h1 (v.row p) (hc.bound c h1 p h2 h3)).1 p ⟨h2, h3, rfl⟩

example : (List.range 3).map (sparsify exView 0 0 (densify exView 0 0 0 (fun q => 10 + q))) = [10, 11, 12] := by decide

/-- The pattern listed for a dense matrix is a compressed-column pattern containing every entry, each at its dense
place. -/
theorem copyCSC_dense (v : View) (hd : v.dense = true) (ci rw : Nat → Nat) :
    IsCsc (v.sz1 * v.sz2) v.sz1 v.sz2 (copyCSC v ci rw).1 (copyCSC v ci rw).2 ∧
    ∀ c, c < v.sz2 → ∀ r, r < v.sz1 → StoredAt (copyCSC v ci rw).1 (copyCSC v ci rw).2 r c (c * v.sz1 + r) := by
  have hci : ∀ c, c ≤ v.sz2 → (copyCSC v ci rw).1 c = c * v.sz1 := by
    unfold copyCSC
    rw [if_pos hd]
    intro c hcl
    refine loop_ind (a := 0) (b := v.sz2 + 1) (f := fun i m => wr m i (i * v.sz1)) (s := ci)
      (P := fun i (s : Nat → Nat) => ∀ c, c < i → s c = c * v.sz1) (Nat.zero_le _) (fun c h => absurd h (Nat.not_lt_zero _))
      ?_ c (by omega)
    intro i s _ _ h c hc
    show wr _ _ _ _ = _
    by_cases e : c = i
    · subst e; rw [wr_same]
    · rw [wr_ne _ _ e]; exact h c (by omega)
  have hrw : ∀ c, c < v.sz2 → ∀ r, r < v.sz1 → (copyCSC v ci rw).2 (c * v.sz1 + r) = r := by
    unfold copyCSC
    rw [if_pos hd]
    intro c hcl r hr
    show loop 1 v.sz2 _ (if 0 < v.sz2 then _ else rw) (c * v.sz1 + r) = r
    rw [if_pos (by omega : 0 < v.sz2)]
    have h0 : ∀ r, r < v.sz1 → loop 0 v.sz1 (fun i m => wr m i i) rw r = r := by
      intro r hr
      refine loop_ind (a := 0) (b := v.sz1) (f := fun i m => wr m i i) (s := rw)
        (P := fun i (s : Nat → Nat) => ∀ r, r < i → s r = r) (Nat.zero_le _) (fun c h => absurd h (Nat.not_lt_zero _))
        ?_ r hr
      intro i s _ _ h c hc
      show wr _ _ _ _ = _
      by_cases e : c = i
      · subst e; rw [wr_same]
      · rw [wr_ne _ _ e]; exact h c (by omega)
    generalize loop 0 v.sz1 (fun i m => wr m i i) rw = rw0 at h0
    refine loop_ind (a := 1) (b := v.sz2)
      (P := fun i (s : Nat → Nat) => ∀ c, c < i → ∀ r, r < v.sz1 → s (c * v.sz1 + r) = r) (by omega) ?_ ?_ c hcl r hr
    · intro c hc r hr
      have : c = 0 := by omega
      subst this
      rw [Nat.zero_mul, Nat.zero_add]; exact h0 r hr
    · intro i s h1 h2 h c hc r hr
      have inner := loop_ind (a := 0) (b := v.sz1) (f := fun p m => wr m (v.sz1 * i + p) (m p)) (s := s)
        (P := fun j (u : Nat → Nat) => (∀ q, q < v.sz1 * i → u q = s q) ∧ ∀ r, r < j → u (v.sz1 * i + r) = r)
        (Nat.zero_le _) ⟨fun q _ => rfl, fun r h => absurd h (Nat.not_lt_zero _)⟩ ?_
      · by_cases e : c = i
        · subst e; rw [Nat.mul_comm c]; exact inner.2 r hr
        · have hb : (c + 1) * v.sz1 ≤ i * v.sz1 := Nat.mul_le_mul_right _ (by omega)
          rw [Nat.succ_mul, Nat.mul_comm i] at hb
          rw [inner.1 _ (by omega)]
          exact h c (by omega) r hr
      · intro j u _ hj ⟨k1, k2⟩
        have hb : 1 * v.sz1 ≤ i * v.sz1 := Nat.mul_le_mul_right _ h1
        rw [Nat.one_mul, Nat.mul_comm] at hb
        have e0 : u j = j := by
          rw [k1 j (by omega)]
          have := h 0 (by omega) j hj
          rw [Nat.zero_mul, Nat.zero_add] at this
          exact this
        refine ⟨?_, ?_⟩
        · intro q hq
          show wr _ _ _ _ = _
          rw [wr_ne _ _ (by omega)]; exact k1 q hq
        · intro r hr
          show wr _ _ _ _ = _
          by_cases e : r = j
          · subst e; rw [wr_same, e0]
          · rw [wr_ne _ _ (by omega)]; exact k2 r (by omega)
  have hsucc : ∀ c, (c + 1) * v.sz1 = c * v.sz1 + v.sz1 := fun c => Nat.succ_mul ..
  refine ⟨⟨?_, ?_, ?_, ?_, ?_⟩, ?_⟩
  · rw [hci 0 (Nat.zero_le _), Nat.zero_mul]
  · rw [hci _ (Nat.le_refl _), Nat.mul_comm]
  · intro c hcl
    rw [hci c (by omega), hci (c + 1) (by omega), hsucc]; omega
  · intro c hcl p h1 h2
    rw [hci c (by omega)] at h1
    rw [hci (c + 1) (by omega), hsucc] at h2
    have := hrw c hcl (p - c * v.sz1) (by omega)
    rw [show c * v.sz1 + (p - c * v.sz1) = p by omega] at this
    omega
  · intro c hcl p h1 h2
    rw [hci c (by omega)] at h1
    rw [hci (c + 1) (by omega), hsucc] at h2
    have e1 := hrw c hcl (p - c * v.sz1) (by omega)
    have e2 := hrw c hcl (p + 1 - c * v.sz1) (by omega)
    rw [show c * v.sz1 + (p - c * v.sz1) = p by omega] at e1
    rw [show c * v.sz1 + (p + 1 - c * v.sz1) = p + 1 by omega] at e2
    omega
  · intro c hcl r hr
    refine ⟨?_, ?_, hrw c hcl r hr⟩
    · rw [hci c (by omega)]; omega
    · rw [hci (c + 1) (by omega), hsucc]; omega

example : (List.range 4).map (copyCSC (makeDense 2 3) (fun _ => 9) (fun _ => 9)).1 = [0, 2, 4, 6] ∧
    (List.range 7).map (copyCSC (makeDense 2 3) (fun _ => 9) (fun _ => 9)).2 = [0, 1, 0, 1, 0, 1, 9] := by decide

/-- The pattern of a compressed-column matrix is copied as it is. -/
theorem copyCSC_sparse (v : View) (hd : v.dense = false) (ci rw : Nat → Nat) :
    (∀ c, c ≤ v.sz2 → (copyCSC v ci rw).1 c = v.colind c) ∧ ∀ p, p < v.nnz → (copyCSC v ci rw).2 p = v.row p := by
  have key : ∀ (n : Nat) (g s : Nat → Nat) p, p < n → loop 0 n (fun i m => wr m i (g i)) s p = g p := by
    intro n g s p hp
    refine loop_ind (a := 0) (b := n) (f := fun i m => wr m i (g i)) (s := s)
      (P := fun i (s : Nat → Nat) => ∀ r, r < i → s r = g r) (Nat.zero_le _) (fun c h => absurd h (Nat.not_lt_zero _))
      ?_ p hp
    intro i s _ _ h c hc
    show wr _ _ _ _ = _
    by_cases e : c = i
    · subst e; rw [wr_same]
    · rw [wr_ne _ _ e]; exact h c (by omega)
  unfold copyCSC
  rw [if_neg (by simp [hd])]
  exact ⟨fun c h => key _ v.colind ci c (by omega), fun p h => key _ v.row rw p h⟩

example : (List.range 3).map (copyCSC exView (fun _ => 9) (fun _ => 9)).1 = [0, 2, 3] := by decide

/-- The template of a matrix marks exactly the entries of its pattern. -/
theorem fillTemplate_sparse (v : View) (hd : v.dense = false) (hc : IsCsc v.nnz v.sz1 v.sz2 v.colind v.row)
    (m : Nat → Bool) (c : Nat) (hcl : c < v.sz2) (r : Nat) (hr : r < v.sz1) :
    fillTemplate v m (c * v.sz1 + r) = true ↔ ∃ p, StoredAt v.colind v.row r c p := by
  unfold fillTemplate
  rw [if_neg (by simp [hd])]
  have hb : ∀ c, c < v.sz2 → ∀ r, r < v.sz1 → c * v.sz1 + r < v.sz1 * v.sz2 := by
    intro c hcl r hr
    have : (c + 1) * v.sz1 ≤ v.sz2 * v.sz1 := Nat.mul_le_mul_right _ hcl
    rw [Nat.succ_mul, Nat.mul_comm v.sz2] at this
    omega
  have h0 : ∀ p, p < v.sz1 * v.sz2 → loop 0 (v.sz1 * v.sz2) (fun p m => wr m p false) m p = false := by
    intro p hp
    refine loop_ind (a := 0) (b := v.sz1 * v.sz2) (f := fun p m => wr m p false) (s := m)
      (P := fun i (s : Nat → Bool) => ∀ r, r < i → s r = false) (Nat.zero_le _)
      (fun c h => absurd h (Nat.not_lt_zero _)) ?_ p hp
    intro i s _ _ h c hc
    show wr _ _ _ _ = _
    by_cases e : c = i
    · subst e; rw [wr_same]
    · rw [wr_ne _ _ e]; exact h c (by omega)
  generalize loop 0 (v.sz1 * v.sz2) (fun p m => wr m p false) m = m0 at h0
  have main := loop_ind (a := 0) (b := v.sz2)
    (f := fun i m => loop (v.colind i) (v.colind (i + 1)) (fun j m => wr m (i * v.sz1 + v.row j) true) m) (s := m0)
    (P := fun i (s : Nat → Bool) => ∀ c, c < v.sz2 → ∀ r, r < v.sz1 →
      (s (c * v.sz1 + r) = true ↔ c < i ∧ ∃ p, StoredAt v.colind v.row r c p)) (Nat.zero_le _) ?_ ?_
  · have := main c hcl r hr
    rw [this]
    exact ⟨fun h => h.2, fun h => ⟨hcl, h⟩⟩
  · intro c hcl r hr
    rw [h0 _ (hb c hcl r hr)]
    simp
  · intro i s _ hi h
    have inner := loop_ind (a := v.colind i) (b := v.colind (i + 1))
      (f := fun j m => wr m (i * v.sz1 + v.row j) true) (s := s)
      (P := fun j (u : Nat → Bool) => ∀ c, c < v.sz2 → ∀ r, r < v.sz1 →
        (u (c * v.sz1 + r) = true ↔ (c < i ∧ ∃ p, StoredAt v.colind v.row r c p) ∨
          (c = i ∧ ∃ p, v.colind i ≤ p ∧ p < j ∧ v.row p = r))) (hc.mono i hi) ?_ ?_
    · intro c hcl r hr
      rw [inner c hcl r hr]
      constructor
      · rintro (⟨h1, h2⟩ | ⟨rfl, p, h1, h2, h3⟩)
        · exact ⟨by omega, h2⟩
        · exact ⟨by omega, p, h1, h2, h3⟩
      · rintro ⟨h1, p, h2⟩
        rcases Nat.eq_or_lt_of_le (Nat.le_of_lt_succ h1) with e | e
        · subst e; exact Or.inr ⟨rfl, p, h2⟩
        · exact Or.inl ⟨e, p, h2⟩
    · intro c hcl r hr
      rw [h c hcl r hr]
      constructor
      · exact fun h => Or.inl h
      · rintro (h | ⟨_, p, h1, h2, _⟩)
        · exact h
        · omega
    · intro j u hj1 hj2 k c hcl r hr
      have hrow := hc.bound i hi j hj1 hj2
      show wr _ _ _ _ = true ↔ _
      by_cases e : c = i ∧ r = v.row j
      · obtain ⟨rfl, rfl⟩ := e
        rw [wr_same]
        exact ⟨fun _ => Or.inr ⟨rfl, j, hj1, by omega, rfl⟩, fun _ => rfl⟩
      · rw [wr_ne]
        · rw [k c hcl r hr]
          constructor
          · rintro (h | ⟨rfl, p, h1, h2, h3⟩)
            · exact Or.inl h
            · exact Or.inr ⟨rfl, p, h1, by omega, h3⟩
          · rintro (h | ⟨rfl, p, h1, h2, h3⟩)
            · exact Or.inl h
            · refine Or.inr ⟨rfl, p, h1, ?_, h3⟩
              rcases Nat.eq_or_lt_of_le (Nat.le_of_lt_succ h2) with e' | e'
              · subst e'; exact absurd ⟨rfl, h3.symm⟩ e
              · exact e'
        · intro he
          apply e
          have := pos_inj (N := v.sz1) (i := r) (j := c) (i' := v.row j) (j' := i) hr hrow (by omega)
          exact ⟨this.2, this.1⟩

example : (List.range 6).map (fillTemplate exView (fun _ => true)) = [true, false, true, false, true, false] := by decide

/-- The template of a dense matrix marks every entry. -/
theorem fillTemplate_dense (v : View) (hd : v.dense = true) (m : Nat → Bool) (q : Nat) (hq : q < v.sz1 * v.sz2) :
    fillTemplate v m q = true := by
  unfold fillTemplate
  rw [if_pos hd]
  refine loop_ind (a := 0) (b := v.sz1 * v.sz2) (f := fun p m => wr m p true) (s := m)
    (P := fun i (s : Nat → Bool) => ∀ r, r < i → s r = true) (Nat.zero_le _)
    (fun c h => absurd h (Nat.not_lt_zero _)) ?_ q hq
  intro i s _ _ h c hc
  show wr _ _ _ _ = _
  by_cases e : c = i
  · subst e; rw [wr_same]
  · rw [wr_ne _ _ e]; exact h c (by omega)

example : (List.range 4).map (fillTemplate (makeDense 2 2) (fun _ => false)) = [true, true, true, true] := by decide

/-- A view made by `MatSparsityView::make_as_sparse` is never expanded: it records the full size as the number of stored
entries, so the buffer stays as it was for every pattern and every size. -/
theorem makeSparse_inert (nnz sz1 sz2 : Nat) (colind row : Nat → Nat) (f : Nat) (fill : R) (m : Nat → R) :
    densify (makeSparse nnz sz1 sz2 colind row) f f fill m = m := by
  unfold densify
  have h : (makeSparse nnz sz1 sz2 colind row).dense = true ∨ (makeSparse nnz sz1 sz2 colind row).nnz =
    (makeSparse nnz sz1 sz2 colind row).sz1 * (makeSparse nnz sz1 sz2 colind row).sz2 := Or.inr rfl
  rw [if_pos h, if_pos rfl]

example : (makeSparse 1 2 2 (fun c => c) (fun _ => 1)).sz1 = 2 := rfl

/-- Hence such a view of the pattern of a `2 × 1` matrix with one entry is not expanded correctly. -/
theorem makeSparse_wrong : ∃ (colind row : Nat → Nat) (m : Nat → Int), IsCsc 1 2 1 colind row ∧
    ¬ Expands 2 1 colind row m (densify (makeSparse 1 2 1 colind row) 0 0 0 m) 0 := by
  refine ⟨fun c => c, fun _ => 1, fun q => 5 + q, ⟨rfl, rfl, ?_, ?_, ?_⟩, ?_⟩
  · decide
  · intro c _ p _ _; exact Nat.one_lt_two
  · intro c hc p h1 h2; omega
  · rw [makeSparse_inert]
    intro h
    have := (h 0 (by decide) 0 (by decide)).2 (by rintro p ⟨_, _, h⟩; exact absurd h Nat.one_ne_zero)
    exact absurd this (by decide)

example : densify (makeSparseOwned 1 2 1 (fun c => c) (fun _ => 1)) 0 0 0 (fun q => (5 + q : Int)) 1 = 5 := by decide

end Verif.Csc
