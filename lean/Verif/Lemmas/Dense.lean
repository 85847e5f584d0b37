import Verif.Model.Cholesky
import Verif.Spec.Dense
import Mathlib.Algebra.BigOperators.Intervals
import Mathlib.Algebra.BigOperators.Ring.Finset
import Mathlib.Tactic.Ring
import Mathlib.Tactic.Linarith
import Mathlib.Tactic.FieldSimp
import Mathlib.Tactic.LinearCombination

/-!
Loops and memory writes of the dense linear algebra.
-/
namespace Verif.Dense

/-- induction over an upward loop -/
theorem loop_ind {S : Type} (P : Nat → S → Prop) {a b : Nat} {f : Nat → S → S} {s : S} (hab : a ≤ b) (h0 : P a s)
    (hs : ∀ i s, a ≤ i → i < b → P i s → P (i + 1) (f i s)) : P b (loop a b f s) := by
  unfold loop
  obtain ⟨n, rfl⟩ := Nat.exists_eq_add_of_le hab
  rw [Nat.add_sub_cancel_left]
  induction n generalizing a s with
  | zero => exact h0
  | succ n ih =>
    rw [List.range'_succ, List.foldl_cons]
    have := ih (a := a + 1) (s := f a s) (hs a s (le_refl _) (by omega) h0) (by omega)
      (fun i s h1 h2 h3 => hs i s (by omega) (by omega) h3)
    rw [show a + 1 + n = a + (n + 1) by omega] at this
    exact this

/-- induction over a downward loop -/
theorem loopDown_ind {S : Type} (P : Nat → S → Prop) {a b : Nat} {f : Nat → S → S} {s : S} (hab : a ≤ b) (h0 : P b s)
    (hs : ∀ i s, a ≤ i → i < b → P (i + 1) s → P i (f i s)) : P a (loopDown a b f s) := by
  unfold loopDown
  obtain ⟨n, rfl⟩ := Nat.exists_eq_add_of_le hab
  rw [Nat.add_sub_cancel_left]
  induction n generalizing s with
  | zero => exact h0
  | succ n ih =>
    rw [List.range'_concat, List.reverse_append, List.foldl_append]
    simp only [List.reverse_cons, List.reverse_nil, List.nil_append, List.foldl_cons, List.foldl_nil, one_mul]
    exact ih (by omega) (hs (a + n) s (by omega) (by omega) h0) (fun i s h1 h2 h3 => hs i s h1 (by omega) h3)

theorem loop_congr {S : Type} {a b : Nat} {f g : Nat → S → S} {s : S}
    (h : ∀ i s, a ≤ i → i < b → f i s = g i s) : loop a b f s = loop a b g s := by
  unfold loop
  generalize hl : List.range' a (b - a) = l
  have hm : ∀ i ∈ l, a ≤ i ∧ i < b := by
    subst hl; intro i hi; rw [List.mem_range'_1] at hi; omega
  clear hl
  induction l generalizing s with
  | nil => rfl
  | cons x l ih =>
    rw [List.foldl_cons, List.foldl_cons, h x s (hm x (by simp)).1 (hm x (by simp)).2]
    exact ih (fun i hi => hm i (by simp [hi]))

theorem wr_same {K : Type} (m : Nat → K) (p : Nat) (v : K) : wr m p v p = v := Function.update_self ..

theorem wr_ne {K : Type} (m : Nat → K) {p q : Nat} (v : K) (h : q ≠ p) : wr m p v q = m q :=
  Function.update_of_ne h ..

theorem pos_inj {N i j i' j' : Nat} (hi : i < N) (hi' : i' < N) (h : i + j * N = i' + j' * N) : i = i' ∧ j = j' := by
  have hN : 0 < N := by omega
  have e1 : (i + j * N) % N = i := by rw [Nat.add_mul_mod_self_right, Nat.mod_eq_of_lt hi]
  have e2 : (i' + j' * N) % N = i' := by rw [Nat.add_mul_mod_self_right, Nat.mod_eq_of_lt hi']
  have : i = i' := by rw [← e1, ← e2, h]
  subst this
  refine ⟨rfl, ?_⟩
  exact Nat.eq_of_mul_eq_mul_right hN (by omega)

/-- writing an entry of a matrix stored by columns -/
theorem ent_wr {K : Type} {N i j r c : Nat} (m : Nat → K) (v : K) (hi : i < N) (hr : r < N) :
    ent N (wr m (i + j * N) v) r c = if r = i ∧ c = j then v else ent N m r c := by
  unfold ent
  split
  · rename_i h; rw [h.1, h.2, wr_same]
  · rename_i h
    rw [wr_ne]
    intro e
    exact h (pos_inj hr hi e)

end Verif.Dense
