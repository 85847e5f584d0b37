import Verif.Lemmas.Enumerator
import Mathlib.Tactic.Ring
import Mathlib.Tactic.Linarith

set_option linter.unusedVariables false

namespace Verif.Enumerator
open Verif.DofMap

/-- the sum over the kinds with the counts collected per dimension -/
def wsum (nd f : Nat → Nat) : Nat :=
  f 0 * inmostNumDof nd 0 + f 1 * inmostNumDof nd 1 + f 2 * inmostNumDof nd 2 + f 3 * inmostNumDof nd 3

theorem setupSum_eq (nd f : Nat → Nat) (s : Nat) :
    (List.range 6).foldl (fun s i => if nd i > 0 then s + f (dimOf i) * nd i else s) s = s + wsum nd f := by
  have step : ∀ s i, (if nd i > 0 then s + f (dimOf i) * nd i else s) = s + f (dimOf i) * nd i := by
    intro s i
    split
    · rfl
    · have : nd i = 0 := by omega
      rw [this]; simp
  simp only [step]
  simp only [List.range_succ, List.range_zero, List.nil_append, List.cons_append, List.foldl_cons, List.foldl_nil, wsum,
    inmostNumDof, dimOf]
  ring

theorem totalSize_eq (nd f : Nat → Nat) : totalSize nd f = wsum nd f := by
  simp only [totalSize, sumN, List.range_succ, List.range_zero, List.nil_append, List.cons_append, List.map_cons, List.map_nil,
    List.sum_cons, List.sum_nil, wsum, inmostNumDof, dimOf]
  ring

theorem usedDim_of (nd : Nat → Nat) (d : Nat) (hd : d < 4) : usedDim nd d = true ↔ 0 < inmostNumDof nd d := by
  match d, hd with
  | 0, _ => simp [usedDim, List.range_succ, dimOf, inmostNumDof]
  | 1, _ => simp [usedDim, List.range_succ, dimOf, inmostNumDof]
  | 2, _ => simp [usedDim, List.range_succ, dimOf, inmostNumDof]
  | 3, _ => simp [usedDim, List.range_succ, dimOf, inmostNumDof]

theorem wsum_congr (nd f g : Nat → Nat) (h : ∀ d, d < 4 → usedDim nd d = true → f d = g d) : wsum nd f = wsum nd g := by
  have key : ∀ d, d < 4 → f d * inmostNumDof nd d = g d * inmostNumDof nd d := by
    intro d hd
    rcases Nat.eq_zero_or_pos (inmostNumDof nd d) with h0 | h0
    · rw [h0]; simp
    · rw [h d hd ((usedDim_of nd d hd).2 h0)]
  unfold wsum
  rw [key 0 (by omega), key 1 (by omega), key 2 (by omega), key 3 (by omega)]

theorem wsum_add (nd f g : Nat → Nat) : wsum nd (fun d => f d + g d) = wsum nd f + wsum nd g := by
  unfold wsum; ring

theorem wsum_mono (nd f g : Nat → Nat) (h : ∀ d, f d ≤ g d) : wsum nd f ≤ wsum nd g := by
  unfold wsum
  have := Nat.mul_le_mul_right (inmostNumDof nd 0) (h 0)
  have := Nat.mul_le_mul_right (inmostNumDof nd 1) (h 1)
  have := Nat.mul_le_mul_right (inmostNumDof nd 2) (h 2)
  have := Nat.mul_le_mul_right (inmostNumDof nd 3) (h 3)
  omega

/-! ### the loop over the owned elements -/

theorem foldl_min (l : List Nat) (i : Nat) :
    (l.foldl (fun b g => if g < b then g else b) i = i ∨ l.foldl (fun b g => if g < b then g else b) i ∈ l) ∧
      l.foldl (fun b g => if g < b then g else b) i ≤ i ∧
      ∀ x ∈ l, l.foldl (fun b g => if g < b then g else b) i ≤ x := by
  induction l generalizing i with
  | nil => simp
  | cons a t ih =>
    simp only [List.foldl_cons]
    obtain ⟨h1, h2, h3⟩ := ih (if a < i then a else i)
    have ha : (if a < i then a else i) ≤ a ∧ (if a < i then a else i) ≤ i ∧
        ((if a < i then a else i) = i ∨ (if a < i then a else i) = a) := by
      split <;> omega
    refine ⟨?_, by omega, ?_⟩
    · rcases h1 with h1 | h1
      · rw [h1]
        rcases ha.2.2 with h | h
        · left; exact h
        · right; rw [h]; simp
      · right; exact List.mem_cons_of_mem _ h1
    · intro x hx
      rcases List.mem_cons.1 hx with rfl | hx
      · omega
      · exact h3 x hx

theorem foldl_count (l : List Nat) (i : Nat) : l.foldl (fun n _ => n + 1) i = i + l.length := by
  induction l generalizing i with
  | nil => simp
  | cons a t ih => simp only [List.foldl_cons, ih, List.length_cons]; omega

theorem contiguous_mem {own : Nat → List Nat} {b : Nat → Nat} (h : Contiguous own b) (d g : Nat) :
    g ∈ own d ↔ b d ≤ g ∧ g < b d + (own d).length := by
  rw [(h d).mem_iff]
  simp only [List.mem_map, List.mem_range]
  constructor
  · rintro ⟨x, hx, rfl⟩; omega
  · rintro ⟨h1, h2⟩; exact ⟨g - b d, by omega, by omega⟩

theorem setup_begElem {nd : Nat → Nat} {own : Nat → List Nat} {b total : Nat → Nat} (h : Contiguous own b) (d : Nat)
    (hb : b d < longMax) (hu : usedDim nd d = true) :
    (setup nd own total).begElem d = if own d = [] then total d else b d := by
  simp only [setup, hu, if_true, true_and]
  by_cases hne : own d = []
  · simp [hne]
  · obtain ⟨h1, h2, h3⟩ := foldl_min (own d) longMax
    have hlen : 0 < (own d).length := List.length_pos_iff.2 hne
    have hm : b d ∈ own d := (contiguous_mem h d _).2 ⟨by omega, by omega⟩
    have hle := h3 _ hm
    have heq : (own d).foldl (fun b g => if g < b then g else b) longMax = b d := by
      rcases h1 with h1 | h1
      · omega
      · have := ((contiguous_mem h d _).1 h1).1
        omega
    rw [heq, if_neg (by omega), if_neg hne]

theorem setup_numElem (nd : Nat → Nat) (own : Nat → List Nat) (total : Nat → Nat) (d : Nat) (hu : usedDim nd d = true) :
    (setup nd own total).numElem d = (own d).length := by
  simp only [setup, hu, if_true, foldl_count, Nat.zero_add]

theorem setup_begInd (nd : Nat → Nat) (own : Nat → List Nat) (total : Nat → Nat) :
    (setup nd own total).begInd = wsum nd (setup nd own total).begElem := by
  exact (setupSum_eq nd (setup nd own total).begElem 0).trans (Nat.zero_add _)

theorem setup_endInd (nd : Nat → Nat) (own : Nat → List Nat) (total : Nat → Nat) :
    (setup nd own total).endInd = (setup nd own total).begInd + wsum nd (setup nd own total).numElem := by
  exact setupSum_eq nd (setup nd own total).numElem _

theorem setup_matrSize (nd : Nat → Nat) (own : Nat → List Nat) (total : Nat → Nat) :
    (setup nd own total).matrSize = totalSize nd total := by
  refine (setupSum_eq nd (fun d => if usedDim nd d then total d else 0) 0).trans ?_
  rw [totalSize_eq, Nat.zero_add]
  exact wsum_congr _ _ _ fun d _ hu => by simp [hu]

theorem sumN_succ (n : Nat) (f : Nat → Nat) : sumN (n + 1) f = sumN n f + f n := by
  simp [sumN, List.range_succ]

theorem sumN_mono (f : Nat → Nat) {n m : Nat} (h : n ≤ m) : sumN n f ≤ sumN m f := by
  induction m with
  | zero => have : n = 0 := by omega
            subst this; exact Nat.le_refl _
  | succ m ih =>
    by_cases hn : n = m + 1
    · subst hn; exact Nat.le_refl _
    · have := ih (by omega)
      rw [sumN_succ]; omega

/-! ### the numbers of `SimpleEnumerator` -/

theorem init_end (nd : Nat → Nat) (own : Nat → List Nat) (total : Nat → Nat) :
    (setup nd own total).init 4 = (setup nd own total).endInd := by
  rw [setup_endInd]
  simp only [Setup.init, wsum]
  simp only [show (setup nd own total).numDof = nd from rfl]
  ring

theorem findDim_spec (s : Setup) (d t : Nat) (hd : d < 4) (ht : t < inmostNumDof s.numDof d * s.numElem d) :
    s.findDim (s.init d + t) = d := by
  have i1 : s.init 1 = s.init 0 + inmostNumDof s.numDof 0 * s.numElem 0 := rfl
  have i2 : s.init 2 = s.init 1 + inmostNumDof s.numDof 1 * s.numElem 1 := rfl
  have i3 : s.init 3 = s.init 2 + inmostNumDof s.numDof 2 * s.numElem 2 := rfl
  unfold Setup.findDim
  match d, hd with
  | 0, _ => rw [if_neg (by omega)]
  | 1, _ => rw [if_pos (by omega), if_neg (by omega)]
  | 2, _ => rw [if_pos (by omega), if_pos (by omega), if_neg (by omega)]
  | 3, _ => rw [if_pos (by omega), if_pos (by omega), if_pos (by omega)]

theorem exists_dim (s : Setup) (id : Nat) (h1 : s.begInd ≤ id) (h2 : id < s.init 4) :
    ∃ d t, d < 4 ∧ id = s.init d + t ∧ t < inmostNumDof s.numDof d * s.numElem d := by
  simp only [Setup.init] at h2
  by_cases c0 : id < s.init 1
  · exact ⟨0, id - s.init 0, by omega, by simp only [Setup.init]; omega, by simp only [Setup.init] at c0 ⊢; omega⟩
  by_cases c1 : id < s.init 2
  · exact ⟨1, id - s.init 1, by omega, by omega, by simp only [Setup.init] at c1 c0 ⊢; omega⟩
  by_cases c2 : id < s.init 3
  · exact ⟨2, id - s.init 2, by omega, by omega, by simp only [Setup.init] at c2 c1 ⊢; omega⟩
  · exact ⟨3, id - s.init 3, by omega, by omega, by simp only [Setup.init] at c2 ⊢; omega⟩

theorem init_mono (s : Setup) (d t : Nat) (hd : d < 4) (ht : t < inmostNumDof s.numDof d * s.numElem d) :
    s.begInd ≤ s.init d + t ∧ s.init d + t < s.init 4 := by
  simp only [Setup.init]
  match d, hd with
  | 0, _ => simp only [Setup.init] at *; omega
  | 1, _ => simp only [Setup.init] at *; omega
  | 2, _ => simp only [Setup.init] at *; omega
  | 3, _ => simp only [Setup.init] at *; omega

theorem two_lt (N w r k : Nat) (hr : r < N) (hk : k < w) : r + k * N < w * N := by
  have : (k + 1) * N ≤ w * N := Nat.mul_le_mul_right _ hk
  rw [Nat.add_mul] at this
  omega

end Verif.Enumerator
