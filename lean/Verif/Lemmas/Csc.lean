import Verif.Model.Csc
import Verif.Spec.Csc
import Verif.Lemmas.Dense

/-!
Lemmas for C27.
-/
namespace Verif.Csc
open Verif.Dense

variable {R : Type}

/-- a downward filling loop -/
theorem fillDown (base a b : Nat) (fill : R) (m : Nat → R) (q : Nat) :
    loopDown a b (fun k m => wr m (base + k) fill) m q = if base + a ≤ q ∧ q < base + b then fill else m q := by
  rcases Nat.lt_or_ge b a with h | h
  · have : b - a = 0 := by omega
    unfold loopDown
    rw [this]
    rw [if_neg (by omega)]
    rfl
  · refine loopDown_ind (P := fun i (s : Nat → R) => s q = if base + i ≤ q ∧ q < base + b then fill else m q) h ?_ ?_
    · rw [if_neg (by omega)]
    · intro i s h1 h2 h3
      by_cases e : q = base + i
      · subst e; rw [wr_same, if_pos (by omega)]
      · rw [wr_ne _ _ e, h3]
        by_cases h4 : base + (i + 1) ≤ q ∧ q < base + b
        · rw [if_pos h4, if_pos (by omega)]
        · rw [if_neg h4, if_neg (by omega)]

/-- copying to a region that does not lie above the source inside it -/
theorem copy_eq (f t n : Nat) (m : Nat → R) (h : t ≤ f ∨ f + n ≤ t) (q : Nat) :
    copy f t n m q = if t ≤ q ∧ q < t + n then m (f + (q - t)) else m q := by
  unfold copy
  refine loop_ind (P := fun i (s : Nat → R) => ∀ q, s q = if t ≤ q ∧ q < t + i then m (f + (q - t)) else m q)
    (Nat.zero_le n) ?_ ?_ q
  · intro q; rw [if_neg (by omega)]
  · intro i s _ h2 h3 q
    by_cases e : q = t + i
    · subst e
      rw [wr_same, h3, if_neg (by omega), if_pos (by omega), show t + i - t = i by omega]
    · rw [wr_ne _ _ e, h3]
      by_cases h4 : t ≤ q ∧ q < t + i
      · rw [if_pos h4, if_pos (by omega)]
      · rw [if_neg h4, if_neg (by omega)]

section
variable {nnz sz1 sz2 : Nat} {colind row : Nat → Nat} (hc : IsCsc nnz sz1 sz2 colind row)
include hc

theorem row_ge {c : Nat} (h : c < sz2) (d : Nat) (hd : colind c + d < colind (c + 1)) : d ≤ row (colind c + d) := by
  induction d with
  | zero => exact Nat.zero_le _
  | succ d ih =>
    have h1 := ih (by omega)
    have h2 := hc.incr c h (colind c + d) (by omega) (by omega)
    rw [show colind c + (d + 1) = colind c + d + 1 by omega]
    omega

theorem row_lt {c : Nat} (h : c < sz2) {p p' : Nat} (h1 : colind c ≤ p) (h2 : p < p') (h3 : p' < colind (c + 1)) :
    row p < row p' := by
  induction p' with
  | zero => omega
  | succ q ih =>
    have h4 := hc.incr c h q (by omega) h3
    rcases Nat.lt_or_ge p q with h5 | h5
    · exact Nat.lt_trans (ih h5 (by omega)) h4
    · have : p = q := by omega
      subst this; exact h4

theorem row_inj {c : Nat} (h : c < sz2) {p p' : Nat} (h1 : colind c ≤ p) (h2 : p < colind (c + 1))
    (h1' : colind c ≤ p') (h2' : p' < colind (c + 1)) (e : row p = row p') : p = p' := by
  rcases Nat.lt_trichotomy p p' with h3 | h3 | h3
  · have := row_lt hc h h1 h3 h2'; omega
  · exact h3
  · have := row_lt hc h h1' h3 h2; omega

theorem count_le {c : Nat} (h : c < sz2) : colind (c + 1) ≤ colind c + sz1 := by
  have := hc.mono c h
  rcases Nat.eq_or_lt_of_le this with e | e
  · omega
  · have h1 := row_ge hc h (colind (c + 1) - 1 - colind c) (by omega)
    have h2 := hc.bound c h (colind c + (colind (c + 1) - 1 - colind c)) (by omega) (by omega)
    omega

theorem colind_le {c : Nat} (h : c ≤ sz2) : colind c ≤ c * sz1 := by
  induction c with
  | zero => rw [hc.first]; exact Nat.zero_le _
  | succ c ih =>
    have h1 := ih (by omega)
    have h2 := count_le hc (show c < sz2 by omega)
    rw [Nat.succ_mul]; omega

/-- a stored entry never lies after its dense place -/
theorem place_le {c : Nat} (h : c < sz2) {p : Nat} (h1 : colind c ≤ p) (h2 : p < colind (c + 1)) :
    p ≤ c * sz1 + row p := by
  have h3 := colind_le hc (Nat.le_of_lt h)
  have h4 := row_ge hc h (p - colind c) (by omega)
  rw [show colind c + (p - colind c) = p by omega] at h4
  omega

theorem colind_mono {c d : Nat} (h1 : c ≤ d) (h2 : d ≤ sz2) : colind c ≤ colind d := by
  induction d with
  | zero => rw [show c = 0 by omega]
  | succ d ih =>
    rcases Nat.eq_or_lt_of_le h1 with e | e
    · rw [e]
    · have h3 := ih (by omega) (by omega)
      have h4 := hc.mono d (by omega)
      omega

theorem nnz_le : nnz ≤ sz2 * sz1 := by
  rw [← hc.last]; exact colind_le hc (Nat.le_refl _)

theorem colind_full (hn : nnz = sz1 * sz2) {c : Nat} (h : c ≤ sz2) : colind c = c * sz1 := by
  have key : ∀ d, d ≤ sz2 → (sz2 - d) * sz1 ≤ colind (sz2 - d) := by
    intro d
    induction d with
    | zero => intro _; rw [Nat.sub_zero, hc.last, hn, Nat.mul_comm]
    | succ d ih =>
      intro hd
      have h1 := ih (by omega)
      have h2 := count_le hc (show sz2 - (d + 1) < sz2 by omega)
      rw [show sz2 - (d + 1) + 1 = sz2 - d by omega] at h2
      rw [show sz2 - d = (sz2 - (d + 1)) + 1 by omega, Nat.succ_mul] at h1
      rw [show (sz2 - (d + 1)) + 1 = sz2 - d by omega] at h1
      omega
  have h1 := key (sz2 - c) (by omega)
  rw [show sz2 - (sz2 - c) = c by omega] at h1
  have h2 := colind_le hc h
  omega

theorem row_full (hn : nnz = sz1 * sz2) {c : Nat} (h : c < sz2) {r : Nat} (hr : r < sz1) : row (c * sz1 + r) = r := by
  have e0 := colind_full hc hn (Nat.le_of_lt h)
  have e1 := colind_full hc hn (show c + 1 ≤ sz2 by omega)
  rw [Nat.succ_mul] at e1
  have key : ∀ d, d < sz1 → row (colind c + (sz1 - 1 - d)) + d < sz1 := by
    intro d
    induction d with
    | zero =>
      intro hd
      have := hc.bound c h (colind c + (sz1 - 1 - 0)) (by omega) (by omega)
      omega
    | succ d ih =>
      intro hd
      have h1 := ih (by omega)
      have h2 := hc.incr c h (colind c + (sz1 - 1 - (d + 1))) (by omega) (by omega)
      rw [show colind c + (sz1 - 1 - (d + 1)) + 1 = colind c + (sz1 - 1 - d) by omega] at h2
      omega
  have h1 := key (sz1 - 1 - r) (by omega)
  rw [show sz1 - 1 - (sz1 - 1 - r) = r by omega] at h1
  have h2 := row_ge hc h r (by omega)
  rw [e0] at h1 h2
  omega

end

/-- one column of the expansion -/
theorem densifyCol_spec (v : View) (f t : Nat) (fill : R) (i : Nat) (m : Nat → R)
    (hc : IsCsc v.nnz v.sz1 v.sz2 v.colind v.row) (hi : i < v.sz2) (hft : f ≤ t ∨ t + (i + 1) * v.sz1 ≤ f) :
    (∀ q, (q < t + i * v.sz1 ∨ t + (i + 1) * v.sz1 ≤ q) → densifyCol v f t fill i m q = m q) ∧
    ∀ r, r < v.sz1 →
      (∀ p, StoredAt v.colind v.row r i p → densifyCol v f t fill i m (t + i * v.sz1 + r) = m (f + p)) ∧
      ((∀ p, ¬ StoredAt v.colind v.row r i p) → densifyCol v f t fill i m (t + i * v.sz1 + r) = fill) := by
  have hs : (i + 1) * v.sz1 = i * v.sz1 + v.sz1 := Nat.succ_mul ..
  rw [hs] at hft ⊢
  have hmono := hc.mono i hi
  unfold densifyCol
  generalize hbody : (fun j (s : Nat × (Nat → R)) =>
    let m := loopDown (v.row j + 1) s.1 (fun k m => wr m (t + i * v.sz1 + k) fill) s.2
    (min s.1 (v.row j + 1) - 1, wr m (t + i * v.sz1 + v.row j) (m (f + j)))) = body
  have main := loopDown_ind (a := v.colind i) (b := v.colind (i + 1)) (f := body) (s := (v.sz1, m))
    (P := fun j s => (s.1 = if j < v.colind (i + 1) then v.row j else v.sz1) ∧
      (∀ q, (q < t + i * v.sz1 + s.1 ∨ t + (i * v.sz1 + v.sz1) ≤ q) → s.2 q = m q) ∧
      ∀ r, s.1 ≤ r → r < v.sz1 →
        (∀ p, StoredAt v.colind v.row r i p → s.2 (t + i * v.sz1 + r) = m (f + p)) ∧
        ((∀ p, ¬ StoredAt v.colind v.row r i p) → s.2 (t + i * v.sz1 + r) = fill)) hmono ?_ ?_
  · obtain ⟨h1, h2, h3⟩ := main
    generalize loopDown (v.colind i) (v.colind (i + 1)) body (v.sz1, m) = s at h1 h2 h3
    have hle : s.1 ≤ v.sz1 := by
      rw [h1]; split
      · rename_i h; exact Nat.le_of_lt (hc.bound i hi _ (Nat.le_refl _) h)
      · exact Nat.le_refl _
    refine ⟨?_, ?_⟩
    · intro q hq
      show loopDown 0 s.1 _ s.2 q = m q
      rw [fillDown, if_neg (by omega)]
      exact h2 q (by omega)
    · intro r hr
      show (∀ p, _ → loopDown 0 s.1 _ s.2 _ = _) ∧ (_ → loopDown 0 s.1 _ s.2 _ = _)
      rw [fillDown]
      by_cases hk : r < s.1
      · rw [if_pos (by omega)]
        refine ⟨?_, fun _ => rfl⟩
        intro p ⟨p1, p2, p3⟩
        exfalso
        rw [if_pos (by omega)] at h1
        rcases Nat.eq_or_lt_of_le p1 with e | e
        · rw [e] at h1; omega
        · have := row_lt hc hi (Nat.le_refl _) e p2; omega
      · rw [if_neg (by omega)]
        exact h3 r (by omega) hr
  · refine ⟨?_, fun q _ => rfl, fun r h1 h2 => ?_⟩
    · rw [if_neg (by omega)]
    · exact absurd h2 (Nat.not_lt.2 h1)
  · intro j s h1 h2 ⟨e1, e2, e3⟩
    subst hbody
    have hrow := hc.bound i hi j h1 h2
    have hlt : v.row j < s.1 := by
      rw [e1]; split
      · rename_i h; exact hc.incr i hi j h1 h
      · exact hrow
    have hsle : s.1 ≤ v.sz1 := by
      rw [e1]; split
      · rename_i h; exact Nat.le_of_lt (hc.bound i hi _ (by omega) h)
      · exact Nat.le_refl _
    have hplace := place_le hc hi h1 h2
    have hmin : min s.1 (v.row j + 1) - 1 = v.row j := by omega
    have hread : loopDown (v.row j + 1) s.1 (fun k m => wr m (t + i * v.sz1 + k) fill) s.2 (f + j) = m (f + j) := by
      rw [fillDown, if_neg (by omega)]
      exact e2 _ (by omega)
    refine ⟨?_, ?_, ?_⟩
    · show min s.1 (v.row j + 1) - 1 = _
      rw [if_pos h2, hmin]
    · intro q hq
      replace hq : q < t + i * v.sz1 + (min s.1 (v.row j + 1) - 1) ∨ t + (i * v.sz1 + v.sz1) ≤ q := hq
      show wr _ _ _ q = m q
      rw [wr_ne _ _ (by omega), fillDown, if_neg (by omega)]
      exact e2 q (by omega)
    · intro r hr1 hr2
      replace hr1 : min s.1 (v.row j + 1) - 1 ≤ r := hr1
      show (∀ p, _ → wr _ _ _ _ = _) ∧ (_ → wr _ _ _ _ = _)
      by_cases hk : r = v.row j
      · subst hk
        rw [wr_same, hread]
        refine ⟨?_, ?_⟩
        · intro p ⟨p1, p2, p3⟩
          rw [row_inj hc hi p1 p2 h1 h2 p3]
        · intro h
          exact absurd ⟨h1, h2, rfl⟩ (h j)
      · rw [wr_ne _ _ (by omega), fillDown]
        by_cases hk2 : r < s.1
        · rw [if_pos (by omega)]
          refine ⟨?_, fun _ => rfl⟩
          intro p ⟨p1, p2, p3⟩
          exfalso
          rcases Nat.lt_trichotomy p j with h | h | h
          · have := row_lt hc hi p1 h h2; omega
          · subst h; omega
          · by_cases h' : j + 1 < v.colind (i + 1)
            · rw [if_pos h'] at e1
              rcases Nat.eq_or_lt_of_le h with h'' | h''
              · have : p = j + 1 := by omega
                subst this; omega
              · have := row_lt hc hi (show v.colind i ≤ j + 1 by omega) h'' p2; omega
            · omega
        · rw [if_neg (by omega)]
          exact e3 r (by omega) hr2

end Verif.Csc
