import Verif.Model.IntervalEnum
import Verif.Spec.IntervalEnum

namespace Verif.IntervalEnum

/-- Helper: the iterator that should represent the `j`-th value. -/
def canon : List (Int × Nat) → Nat → It
  | [], j => ⟨0, j⟩
  | (_, n) :: rest, j =>
    if j < n then ⟨0, j⟩ else ⟨(canon rest (j - n)).pos + 1, (canon rest (j - n)).shift⟩

theorem encodeFrom_length (ivs : List (Int × Nat)) (k l : Int) :
    (encodeFrom k l ivs).length = ivs.length + 1 := by
  induction ivs generalizing k l with
  | nil => rfl
  | cons p rest ih => obtain ⟨s, n⟩ := p; simp [encodeFrom, ih]

theorem encodeFrom_ne_nil (ivs : List (Int × Nat)) (k l : Int) : encodeFrom k l ivs ≠ [] := by
  intro h; have := encodeFrom_length ivs k l; simp [h] at this

theorem encodeFrom_head (ivs : List (Int × Nat)) (k l : Int) :
    ∃ s, (encodeFrom k l ivs)[0]? = some (k, s) := by
  cases ivs with
  | nil => exact ⟨l, rfl⟩
  | cons p rest => exact ⟨p.1, rfl⟩

theorem values_cons (s : Int) (n : Nat) (rest : List (Int × Nat)) :
    values ((s, n) :: rest) = (List.range n).map (fun (i : Nat) => s + i) ++ values rest := by
  simp [values]

theorem values_cons_lt {s : Int} {n : Nat} {rest : List (Int × Nat)} {j : Nat} (h : j < n) :
    (values ((s, n) :: rest))[j]? = some (s + j) := by
  rw [values_cons, List.getElem?_append_left (by simpa using h)]; simp [h]

theorem values_cons_ge {s : Int} {n : Nat} {rest : List (Int × Nat)} {j : Nat} (h : n ≤ j) :
    (values ((s, n) :: rest))[j]? = (values rest)[j - n]? := by
  rw [values_cons, List.getElem?_append_right (by simpa using h)]; simp

theorem values_length_cons (s : Int) (n : Nat) (rest : List (Int × Nat)) :
    (values ((s, n) :: rest)).length = n + (values rest).length := by
  rw [values_cons]; simp

theorem Sorted.tail {p : Int × Nat} {rest : List (Int × Nat)} (h : Sorted (p :: rest)) : Sorted rest := by
  cases rest with
  | nil => trivial
  | cons q r => exact h.2.2

theorem Sorted.pos {p : Int × Nat} {rest : List (Int × Nat)} (h : Sorted (p :: rest)) : 0 < p.2 := by
  cases rest with
  | nil => exact h
  | cons q r => exact h.1

/-- all values are above the end of the preceding interval -/
theorem Sorted.values_ge {p : Int × Nat} {rest : List (Int × Nat)} (h : Sorted (p :: rest)) :
    ∀ v ∈ values rest, p.1 + p.2 ≤ v := by
  induction rest generalizing p with
  | nil => simp [values]
  | cons q r ih =>
    intro v hv
    obtain ⟨s, n⟩ := q
    rw [values_cons] at hv
    have h1 : p.1 + p.2 ≤ s := h.2.1
    rcases List.mem_append.1 hv with h2 | h2
    · simp only [List.mem_map, List.mem_range] at h2
      obtain ⟨i, _, rfl⟩ := h2; omega
    · have := ih h.2.2 v h2
      simp at this; omega

theorem values_strict {ivs : List (Int × Nat)} (hs : Sorted ivs) :
    ∀ (i j : Nat) (vi vj : Int), i < j → (values ivs)[i]? = some vi → (values ivs)[j]? = some vj → vi < vj := by
  induction ivs with
  | nil => simp [values]
  | cons p rest ih =>
    obtain ⟨s, n⟩ := p
    intro i j vi vj hij hi hj
    by_cases h1 : j < n
    · rw [values_cons_lt h1] at hj
      rw [values_cons_lt (by omega)] at hi
      simp at hi hj; omega
    · rw [values_cons_ge (by omega)] at hj
      by_cases h2 : i < n
      · rw [values_cons_lt h2] at hi
        have := hs.values_ge vj (List.mem_of_getElem? hj)
        simp at hi this; omega
      · rw [values_cons_ge (by omega)] at hi
        exact ih hs.tail (i - n) (j - n) vi vj (by omega) hi hj

theorem canon_end (ivs : List (Int × Nat)) :
    canon ivs (values ivs).length = ⟨ivs.length, 0⟩ := by
  induction ivs with
  | nil => rfl
  | cons p rest ih =>
    obtain ⟨s, n⟩ := p
    rw [values_length_cons]
    simp only [canon]
    have : ¬ (n + (values rest).length < n) := by omega
    simp [this, ih]

theorem deref_canon (ivs : List (Int × Nat)) (k l : Int) (j : Nat) (v : Int)
    (hv : (values ivs)[j]? = some v) :
    deref (encodeFrom k l ivs) (canon ivs j) = some (k + j, v) := by
  induction ivs generalizing k l j with
  | nil => simp [values] at hv
  | cons p rest ih =>
    obtain ⟨s, n⟩ := p
    by_cases h : j < n
    · rw [values_cons_lt h] at hv
      simp at hv
      simp [canon, h, encodeFrom, deref, hv]
    · rw [values_cons_ge (by omega)] at hv
      have := ih (k + n) (s + n) (j - n) hv
      simp only [canon, h, if_false, encodeFrom, deref, List.getElem?_cons_succ]
      simp only [deref] at this
      rw [this]
      congr 2; omega

theorem upperLeft_canon {ivs : List (Int × Nat)} (k l : Int) {j : Nat}
    (hs : Sorted ivs) (hj : j < (values ivs).length) :
    upperLeft (encodeFrom k l ivs) (k + j) = (canon ivs j).pos + 1 ∧
    (canon ivs j).pos < ivs.length := by
  induction ivs generalizing k l j with
  | nil => simp [values] at hj
  | cons p rest ih =>
    obtain ⟨s, n⟩ := p
    rw [values_length_cons] at hj
    have hk : ¬ (k + (j : Int) < k) := by omega
    by_cases h : j < n
    · obtain ⟨s', hs'⟩ := encodeFrom_head rest (k + n) (s + n)
      have hne := encodeFrom_ne_nil rest (k + n) (s + n)
      cases he : encodeFrom (k + n) (s + n) rest with
      | nil => exact absurd he hne
      | cons a t =>
        rw [he] at hs'
        simp at hs'
        subst hs'
        have h2 : k + (j : Int) < k + n := by omega
        simp [canon, h, encodeFrom, upperLeft, List.findIdx_cons, he, hk]
    · have := ih (k + n) (s + n) (j := j - n) hs.tail (by omega)
      have e : k + (n : Int) + ((j - n : Nat) : Int) = k + j := by omega
      rw [e] at this
      simp only [upperLeft] at this
      refine ⟨?_, ?_⟩
      · simp only [canon, h, if_false, encodeFrom, upperLeft, List.findIdx_cons, hk, decide_false, cond_false]
        rw [this.1]
      · simp only [canon, h, if_false, List.length_cons]; omega

theorem pair_canon {ivs : List (Int × Nat)} (k l : Int) {j : Nat} (hj : j < (values ivs).length) :
    ∃ a, (encodeFrom k l ivs)[(canon ivs j).pos]? = some a ∧ (canon ivs j).shift = k + j - a.1 ∧
      0 ≤ (canon ivs j).shift := by
  induction ivs generalizing k l j with
  | nil => simp [values] at hj
  | cons p rest ih =>
    obtain ⟨s, n⟩ := p
    rw [values_length_cons] at hj
    by_cases h : j < n
    · refine ⟨(k, s), ?_, ?_, ?_⟩ <;> simp [canon, h, encodeFrom]; omega
    · obtain ⟨a, h1, h2, h3⟩ := ih (k + n) (s + n) (j := j - n) (by omega)
      refine ⟨a, ?_, ?_, ?_⟩
      · simpa [canon, h, encodeFrom] using h1
      · simp only [canon, h, if_false]; rw [h2]; omega
      · simp only [canon, h, if_false]; exact h3

theorem findLeft_canon {ivs : List (Int × Nat)} (k l : Int) {j : Nat} (hs : Sorted ivs)
    (hj : j < (values ivs).length) :
    findLeft (encodeFrom k l ivs) (k + j) = canon ivs j := by
  obtain ⟨h1, h2⟩ := upperLeft_canon k l hs hj
  obtain ⟨a, h3, h4, _⟩ := pair_canon k l (ivs := ivs) hj
  have hne : (encodeFrom k l ivs).isEmpty = false := by
    simpa using encodeFrom_ne_nil ivs k l
  have hl := encodeFrom_length ivs k l
  unfold findLeft
  simp only [hne, h1, hl]
  have : ¬ ((canon ivs j).pos + 1 = 0 ∨ (canon ivs j).pos + 1 = ivs.length + 1) := by omega
  simp only [this, if_false, Nat.add_sub_cancel, h3]
  simp only [Bool.false_eq_true, if_false, ← h4]

theorem findRight_canon_aux {ivs : List (Int × Nat)} (k l : Int) {j : Nat} {v : Int}
    (hs : Sorted ivs) (hv : (values ivs)[j]? = some v) :
    upperRight (encodeFrom k l ivs) v = (canon ivs j).pos + 1 ∧
    (canon ivs j).pos < ivs.length ∧
    ∃ a b, (encodeFrom k l ivs)[(canon ivs j).pos]? = some a ∧
      (encodeFrom k l ivs)[(canon ivs j).pos + 1]? = some b ∧
      (canon ivs j).shift = v - a.2 ∧ a.1 + (v - a.2) < b.1 := by
  induction ivs generalizing k l j with
  | nil => simp [values] at hv
  | cons p rest ih =>
    obtain ⟨s, n⟩ := p
    by_cases h : j < n
    · rw [values_cons_lt h] at hv
      simp at hv
      obtain ⟨b, hb⟩ := encodeFrom_head rest (k + n) (s + n)
      have hbv : v < b := by
        cases rest with
        | nil => simp [encodeFrom] at hb; omega
        | cons q r =>
          have := hs.2.1
          simp [encodeFrom] at hb this; omega
      cases he : encodeFrom (k + n) (s + n) rest with
      | nil => exact absurd he (encodeFrom_ne_nil rest (k + n) (s + n))
      | cons a t =>
        rw [he] at hb
        simp at hb
        subst hb
        have h1 : ¬ (v < s) := by omega
        refine ⟨?_, ?_, (k, s), (k + n, b), ?_, ?_, ?_, ?_⟩
        · simp [canon, h, encodeFrom, upperRight, List.findIdx_cons, he, hbv, h1]
        · simp [canon, h]
        · simp [canon, h, encodeFrom]
        · simp [canon, h, encodeFrom, he]
        · simp [canon, h]; omega
        · simp; omega
    · rw [values_cons_ge (by omega)] at hv
      obtain ⟨h1, h2, a, b, ha, hb, hsh, hlt⟩ := ih (k + n) (s + n) hs.tail hv
      have hge := hs.values_ge v (List.mem_of_getElem? hv)
      simp at hge
      have h3 : ¬ (v < s) := by omega
      refine ⟨?_, ?_, a, b, ?_, ?_, ?_, hlt⟩
      · simp only [upperRight] at h1
        simp only [canon, h, if_false, encodeFrom, upperRight, List.findIdx_cons, h3, decide_false, cond_false, h1]
      · simp only [canon, h, if_false, List.length_cons]; omega
      · simpa [canon, h, encodeFrom] using ha
      · simpa [canon, h, encodeFrom] using hb
      · simpa [canon, h] using hsh

theorem findRight_canon {ivs : List (Int × Nat)} (k l : Int) {j : Nat} {v : Int} (hs : Sorted ivs)
    (hv : (values ivs)[j]? = some v) : findRight (encodeFrom k l ivs) v = canon ivs j := by
  obtain ⟨h1, h2, a, b, ha, hb, hsh, hlt⟩ := findRight_canon_aux k l hs hv
  have hne : (encodeFrom k l ivs).isEmpty = false := by
    simpa using encodeFrom_ne_nil ivs k l
  have hl := encodeFrom_length ivs k l
  unfold findRight
  simp only [hne, h1, hl]
  have : ¬ ((canon ivs j).pos + 1 = 0 ∨ (canon ivs j).pos + 1 = ivs.length + 1) := by omega
  have h5 : ¬ (a.1 + (v - a.2) ≥ b.1) := by omega
  simp only [this, if_false, Nat.add_sub_cancel, ha, hb, h5]
  simp only [Bool.false_eq_true, if_false, ← hsh]

/-- behaviour of `upper_bound` on values that are not stored -/
theorem upperRight_gap {ivs : List (Int × Nat)} (k l : Int) {v : Int}
    (hs : Sorted ivs) (hv : v ∉ values ivs) :
    upperRight (encodeFrom k l ivs) v = 0 ∨ upperRight (encodeFrom k l ivs) v = ivs.length + 1 ∨
    ∃ i a b, upperRight (encodeFrom k l ivs) v = i + 1 ∧ i < ivs.length ∧ (encodeFrom k l ivs)[i]? = some a ∧
      (encodeFrom k l ivs)[i + 1]? = some b ∧ b.1 ≤ a.1 + (v - a.2) := by
  induction ivs generalizing k l with
  | nil =>
    by_cases h : v < l <;> simp [encodeFrom, upperRight, h]
  | cons p rest ih =>
    obtain ⟨s, n⟩ := p
    by_cases h : v < s
    · left; simp [encodeFrom, upperRight, List.findIdx_cons, h]
    right
    rw [values_cons, List.mem_append, not_or] at hv
    have hv1 : s + n ≤ v := by
      have := hv.1
      simp only [List.mem_map, List.mem_range, not_exists, not_and] at this
      have h2 := this (v - s).toNat
      omega
    have hu : upperRight (encodeFrom k l ((s, n) :: rest)) v =
        upperRight (encodeFrom (k + n) (s + n) rest) v + 1 := by
      simp [encodeFrom, upperRight, List.findIdx_cons, h]
    obtain ⟨b, hb⟩ := encodeFrom_head rest (k + n) (s + n)
    rcases ih (k + n) (s + n) hs.tail hv.2 with h1 | h1 | ⟨i, x, y, h1, h2, h3, h4, h5⟩
    · right
      refine ⟨0, (k, s), (k + n, b), by omega, by simp, ?_, ?_, ?_⟩
      · simp [encodeFrom]
      · simpa [encodeFrom] using hb
      · simp; omega
    · left; simp; omega
    · right
      exact ⟨i + 1, x, y, by omega, by simp; omega, by simpa [encodeFrom] using h3,
        by simpa [encodeFrom] using h4, h5⟩

theorem findRight_gap {ivs : List (Int × Nat)} (k l : Int) {v : Int} (hs : Sorted ivs)
    (hv : v ∉ values ivs) : findRight (encodeFrom k l ivs) v = endIt (encodeFrom k l ivs) := by
  have hne : (encodeFrom k l ivs).isEmpty = false := by
    simpa using encodeFrom_ne_nil ivs k l
  have hl := encodeFrom_length ivs k l
  unfold findRight
  rcases upperRight_gap k l hs hv with h | h | ⟨i, a, b, h, hi, ha, hb, hab⟩
  · simp [hne, h]
  · simp [hne, h, hl]
  · simp only [hne, h, hl]
    have : ¬ (i + 1 = 0 ∨ i + 1 = ivs.length + 1) := by omega
    simp [ha, hb, hab]

theorem next_canon {ivs : List (Int × Nat)} (k l : Int) {j : Nat} (hs : Sorted ivs)
    (hj : j < (values ivs).length) : next (encodeFrom k l ivs) (canon ivs j) = canon ivs (j + 1) := by
  induction ivs generalizing k l j with
  | nil => simp [values] at hj
  | cons p rest ih =>
    obtain ⟨s, n⟩ := p
    rw [values_length_cons] at hj
    have hl := encodeFrom_length rest (k + n) (s + n)
    by_cases h : j < n
    · obtain ⟨b, hb⟩ := encodeFrom_head rest (k + n) (s + n)
      have e0 : (0 : Nat) ≠ (encodeFrom k l ((s, n) :: rest)).length - 1 := by
        simp [encodeFrom, hl]
      have e1 : (encodeFrom k l ((s, n) :: rest))[0]? = some (k, s) := rfl
      have e2 : (encodeFrom k l ((s, n) :: rest))[0 + 1]? = some (k + n, b) := by
        simpa [encodeFrom] using hb
      have c : canon ((s, n) :: rest) j = ⟨0, j⟩ := by simp [canon, h]
      rw [c]
      unfold next
      simp only [e0, ne_eq, not_false_eq_true, if_true, e1, e2]
      by_cases h2 : j + 1 < n
      · have : (j : Int) + 1 < k + n - k := by omega
        simp [this, canon, h2]
      · have : ¬ ((j : Int) + 1 < k + n - k) := by omega
        simp only [this, if_false, canon, h2]
        have e : j + 1 - n = 0 := by omega
        rw [e]
        cases rest with
        | nil => simp [canon]
        | cons q r =>
          have := hs.tail.pos
          simp [canon, this]
    · have h2 : ¬ (j + 1 < n) := by omega
      have e : j + 1 - n = (j - n) + 1 := by omega
      have hj' : j - n < (values rest).length := by omega
      have := ih (k + n) (s + n) (j := j - n) hs.tail hj'
      have hp := (upperLeft_canon (k + n) (s + n) hs.tail hj').2
      simp only [canon, h, h2, if_false, e]
      rw [← this]
      unfold next
      have e1 : (canon rest (j - n)).pos + 1 ≠ (encodeFrom k l ((s, n) :: rest)).length - 1 := by
        simp [encodeFrom, hl]; omega
      have e2 : (canon rest (j - n)).pos ≠ (encodeFrom (k + n) (s + n) rest).length - 1 := by
        simp [hl]; omega
      simp only [encodeFrom] at e1
      simp only [e1, e2, ne_eq, not_false_eq_true, if_true, encodeFrom, List.getElem?_cons_succ]
      cases (encodeFrom (k + n) (s + n) rest)[(canon rest (j - n)).pos]? <;>
        cases (encodeFrom (k + n) (s + n) rest)[(canon rest (j - n)).pos + 1]? <;>
        simp only
      split <;> rfl

theorem prev_canon {ivs : List (Int × Nat)} (k l : Int) {j : Nat} (hs : Sorted ivs)
    (hj : j < (values ivs).length) : prev (encodeFrom k l ivs) (canon ivs (j + 1)) = canon ivs j := by
  induction ivs generalizing k l j with
  | nil => simp [values] at hj
  | cons p rest ih =>
    obtain ⟨s, n⟩ := p
    rw [values_length_cons] at hj
    by_cases h2 : j + 1 < n
    · have h : j < n := by omega
      have : (0 : Int) < (j : Int) + 1 := by omega
      simp [canon, h, h2, prev, this]
    · by_cases h : j < n
      · have e : j + 1 - n = 0 := by omega
        obtain ⟨b, hb⟩ := encodeFrom_head rest (k + n) (s + n)
        have hc : canon rest 0 = ⟨0, 0⟩ := by
          cases rest with
          | nil => rfl
          | cons q r => have := hs.tail.pos; simp [canon, this]
        simp only [canon, h, h2, if_true, if_false, e, hc]
        simp only [prev, Int.lt_irrefl, gt_iff_lt, if_false, encodeFrom, Nat.zero_add, Nat.sub_self,
          List.getElem?_cons_succ, hb, List.getElem?_cons_zero]
        congr 1; omega
      · have e : j + 1 - n = (j - n) + 1 := by omega
        have hj' : j - n < (values rest).length := by omega
        have := ih (k + n) (s + n) (j := j - n) hs.tail hj'
        simp only [canon, h, h2, if_false, e]
        rw [← this]
        simp only [prev]
        split
        · rfl
        · rename_i hsh
          simp only [encodeFrom, List.getElem?_cons_succ]
          -- the position is at least one, otherwise the shift would be positive
          have hpos : 0 < (canon rest (j - n + 1)).pos := by
            cases rest with
            | nil => simp [values] at hj'
            | cons q r =>
              obtain ⟨s', n'⟩ := q
              by_cases hq : j - n + 1 < n'
              · exfalso; apply hsh; simp [canon, hq]; try omega
              · simp [canon, hq]
          obtain ⟨m, hm⟩ : ∃ m, (canon rest (j - n + 1)).pos = m + 1 := ⟨_, (Nat.succ_pred_eq_of_pos hpos).symm⟩
          simp only [hm, Nat.add_sub_cancel, List.getElem?_cons_succ]
          cases (encodeFrom (k + n) (s + n) rest)[m + 1]? <;>
            cases (encodeFrom (k + n) (s + n) rest)[m]? <;> simp [hm]

theorem lower_gap {ivs : List (Int × Nat)} (k l : Int) {v : Int} (hs : Sorted ivs) (hl : l ≤ v)
    (hv : v ∉ values ivs) :
    (upperRight (encodeFrom k l ivs) v = ivs.length + 1 ∧ ∀ u ∈ values ivs, u < v) ∨
    ∃ (i j : Nat) (w : Int), upperRight (encodeFrom k l ivs) v = i ∧ i < ivs.length ∧ canon ivs j = ⟨i, 0⟩ ∧
      (values ivs)[j]? = some w ∧ v ≤ w ∧ ∀ u ∈ values ivs, v ≤ u → w ≤ u := by
  induction ivs generalizing k l with
  | nil =>
    left
    have h : ¬ v < l := by omega
    simp [encodeFrom, upperRight, h, values]
  | cons p rest ih =>
    obtain ⟨s, n⟩ := p
    have hn : 0 < n := hs.pos
    by_cases h : v < s
    · right
      refine ⟨0, 0, s, by simp [encodeFrom, upperRight, List.findIdx_cons, h], by simp, by simp [canon, hn],
        by rw [values_cons_lt hn]; simp, by omega, ?_⟩
      intro u hu _
      rw [values_cons] at hu
      rcases List.mem_append.1 hu with h2 | h2
      · simp only [List.mem_map, List.mem_range] at h2
        obtain ⟨i, _, rfl⟩ := h2; omega
      · have := hs.values_ge u h2
        simp at this; omega
    · rw [values_cons, List.mem_append, not_or] at hv
      have hv1 : s + n ≤ v := by
        have := hv.1
        simp only [List.mem_map, List.mem_range, not_exists, not_and] at this
        have h2 := this (v - s).toNat
        omega
      have hu : upperRight (encodeFrom k l ((s, n) :: rest)) v =
          upperRight (encodeFrom (k + n) (s + n) rest) v + 1 := by
        simp [encodeFrom, upperRight, List.findIdx_cons, h]
      have hfst : ∀ u ∈ (List.range n).map (fun (i : Nat) => s + i), u < v := by
        intro u h2
        simp only [List.mem_map, List.mem_range] at h2
        obtain ⟨i, _, rfl⟩ := h2; omega
      rcases ih (k + n) (s + n) hs.tail hv1 hv.2 with ⟨h1, h2⟩ | ⟨i, j, w, h1, h2, h3, h4, h5, h6⟩
      · left
        refine ⟨by rw [hu, h1]; simp, ?_⟩
        intro u hu'
        rw [values_cons] at hu'
        rcases List.mem_append.1 hu' with h7 | h7
        · exact hfst u h7
        · exact h2 u h7
      · right
        have hnj : ¬ (j + n < n) := by omega
        refine ⟨i + 1, j + n, w, by omega, by simp; omega, by simp [canon, hnj, h3], ?_, h5, ?_⟩
        · rw [values_cons_ge (by omega), Nat.add_sub_cancel]; exact h4
        · intro u hu' hvu
          rw [values_cons] at hu'
          rcases List.mem_append.1 hu' with h7 | h7
          · have := hfst u h7; omega
          · exact h6 u h7 hvu

theorem encode_eq {ivs : List (Int × Nat)} (h : ivs ≠ []) : encode ivs = encodeFrom 0 0 ivs := by
  cases ivs with
  | nil => exact absurd rfl h
  | cons p r => rfl

theorem ne_nil_of_values {ivs : List (Int × Nat)} {j : Nat} {v : Int} (h : (values ivs)[j]? = some v) :
    ivs ≠ [] := by
  rintro rfl; simp [values] at h

theorem endIt_encodeFrom (ivs : List (Int × Nat)) (k l : Int) :
    endIt (encodeFrom k l ivs) = canon ivs (values ivs).length := by
  rw [canon_end]; simp [endIt, encodeFrom_length]

theorem canon_ne_end {ivs : List (Int × Nat)} {j : Nat} (hs : Sorted ivs) (hj : j < (values ivs).length) :
    canon ivs j ≠ canon ivs (values ivs).length := by
  have := (upperLeft_canon 0 0 hs hj).2
  rw [canon_end]; intro h; rw [h] at this; simp at this

theorem canon_zero {ivs : List (Int × Nat)} (hs : Sorted ivs) : canon ivs 0 = ⟨0, 0⟩ := by
  cases ivs with
  | nil => rfl
  | cons q r => have := hs.pos; simp [canon, this]

end Verif.IntervalEnum
