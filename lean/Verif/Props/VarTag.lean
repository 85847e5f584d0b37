import Verif.Model.VarTag
import Verif.Lemmas.EnumRange
import Mathlib.Data.Nat.Digits.Lemmas

/-!
C85: the tag made for a variable has place for all its d.o.f.s on every element.  C86: printing the state of the linear solver does not write
outside of the string.
-/
namespace Verif.VarTag
open Verif.Enumerator

variable {nd : Nat → Nat}

theorem varSize_some : ∀ (l : List Nat) {sz s : Nat}, varSize sz l = some s → ∀ n ∈ sz :: l, n = 0 ∨ n = s
  | [], sz, s, h, n, hn => by
    simp only [varSize, Option.some.injEq] at h
    simp only [List.mem_singleton] at hn
    omega
  | m :: l, sz, s, h, n, hn => by
    rw [varSize] at h
    by_cases hm : m = 0
    · rw [if_neg (by simpa using hm)] at h
      have ih := varSize_some l h
      simp only [List.mem_cons] at hn ih
      rcases hn with rfl | rfl | hn
      · exact ih n (Or.inl rfl)
      · exact Or.inl hm
      · exact ih n (Or.inr hn)
    · rw [if_pos (by simpa using hm)] at h
      by_cases hs : sz = 0
      · rw [if_pos hs] at h
        have ih := varSize_some l h
        simp only [List.mem_cons] at hn ih
        rcases hn with rfl | rfl | hn
        · exact Or.inl hs
        · exact ih n (Or.inl rfl)
        · exact ih n (Or.inr hn)
      · rw [if_neg hs] at h
        by_cases he : sz = m
        · rw [if_neg (by simpa using he)] at h
          have ih := varSize_some l h
          simp only [List.mem_cons] at hn ih
          rcases hn with rfl | rfl | hn
          · exact ih n (Or.inl rfl)
          · exact ih n (Or.inl he.symm)
          · exact ih n (Or.inr hn)
        · rw [if_pos (by simpa using he)] at h
          simp at h

theorem used_iff (d : Nat) (hd : d < 4) : usedDim nd d = true ↔ 0 < inmostNumDof nd d := by
  rw [usedDim_of _ _ hd]

/-- **C85**: on every element carrying d.o.f.s of the variable the tag has place for all of them, with the fixed size and without. -/
theorem tag_enough (fixed : Bool) {d : Nat} (hd : d < 4) (h : 0 < inmostNumDof nd d) : ∃ n, entries fixed nd d = some n ∧ inmostNumDof nd d ≤ n := by
  rw [entries, if_pos ((used_iff d hd).2 h)]
  cases fixed
  · rcases hs : size false nd with _ | s
    · exact ⟨_, rfl, le_refl _⟩
    · refine ⟨s, rfl, ?_⟩
      simp only [size, Bool.false_eq_true, if_false] at hs
      have := varSize_some _ hs (inmostNumDof nd d) (by
        match d, hd with
        | 0, _ => simp
        | 1, _ => simp
        | 2, _ => simp
        | 3, _ => simp)
      omega
  · refine ⟨_, rfl, ?_⟩
    simp only [List.foldl_cons, List.foldl_nil]
    match d, hd with
    | 0, _ => omega
    | 1, _ => omega
    | 2, _ => omega
    | 3, _ => omega

/-- **C85**: without the fixed size there is place for nothing else. -/
theorem tag_exact {d : Nat} (hd : d < 4) (h : 0 < inmostNumDof nd d) : entries false nd d = some (inmostNumDof nd d) := by
  rw [entries, if_pos ((used_iff d hd).2 h)]
  rcases hs : size false nd with _ | s
  · rfl
  · simp only [size, Bool.false_eq_true, if_false] at hs
    have := varSize_some _ hs (inmostNumDof nd d) (by
      match d, hd with
      | 0, _ => simp
      | 1, _ => simp
      | 2, _ => simp
      | 3, _ => simp)
    simp only [Option.some.injEq]
    omega

/-- **C85**: on the other elements there is no tag. -/
theorem tag_none (fixed : Bool) {d : Nat} (hd : d < 4) (h : inmostNumDof nd d = 0) : entries fixed nd d = none := by
  rw [entries, if_neg]
  rw [used_iff d hd]; omega

/-- P3: one d.o.f. per node, two per edge, one per face. -/
def exNd : Nat → Nat := fun k => if k = 0 ∨ k = 3 then 1 else if k = 1 then 2 else 0
example : size true exNd = some 2 ∧ size false exNd = none ∧ entries false exNd 1 = some 2 ∧ entries false exNd 2 = some 1 ∧ entries true exNd 2 = some 2 ∧
    entries true exNd 3 = none := by decide
example : ∃ n, entries true exNd 2 = some n ∧ inmostNumDof exNd 2 ≤ n := tag_enough true (by decide) (by decide)
example : entries false exNd 1 = some (inmostNumDof exNd 1) := tag_exact (by decide) (by decide)
example : entries true exNd 3 = none := tag_none true (by decide) (by decide)
/-- A variable with two d.o.f.s on edges and cells gets arrays of the size 2 in both ways. -/
example : size false (fun k => if k = 1 ∨ k = 5 then 2 else 0) = some 2 := by decide

theorem decimal_length (n : Nat) : (decimal n).length ≤ 3 ↔ n < 1000 := by
  unfold decimal
  split
  · subst n; simp
  · rw [List.length_reverse, Nat.digits_length_le_iff (by norm_num)]
    norm_num

/-- **C86**, partial: up to 999 iterations the number is printed, right-justified before one blank.  Missing: larger numbers (`its_wrong`). -/
theorem its_partial {n : Nat} (h : n < 1000) : ∃ f, itsField n = some f ∧ f.length = 4 ∧ (f.filterMap id) = decimal n ∧ Nat.ofDigits 10 (f.filterMap id).reverse = n := by
  have hl := (decimal_length n).2 h
  refine ⟨_, if_neg (by omega), ?_, ?_, ?_⟩
  · simp; omega
  · simp [List.filterMap_append]
  · have : (List.replicate (3 - (decimal n).length) none ++ (decimal n).map some ++ List.replicate 1 none).filterMap id = decimal n := by
      simp [List.filterMap_append]
    rw [this]
    unfold decimal
    split
    · subst n; rfl
    · rw [List.reverse_reverse, Nat.ofDigits_digits]

example : itsField 57 = some [none, some 5, some 7, none] := by decide +kernel
example : ∃ f, itsField 57 = some f ∧ f.length = 4 ∧ (f.filterMap id) = decimal 57 ∧ Nat.ofDigits 10 (f.filterMap id).reverse = 57 := its_partial (by decide)

/-- **C86**, the violation: from 1000 iterations on the copy starts before the string. -/
theorem its_wrong {n : Nat} (h : 1000 ≤ n) : itsField n = none := by
  have := mt (decimal_length n).1 (by omega)
  exact if_pos (by omega)

example : itsField 1000 = none := its_wrong (by decide)

end Verif.VarTag
