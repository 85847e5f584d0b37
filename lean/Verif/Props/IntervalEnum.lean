import Verif.Lemmas.IntervalEnum
import Mathlib.Logic.Function.Iterate

/-!
Property theorems C01, C02: `interval_enum` enumerates the values of a list of disjoint increasing intervals.
`encode ivs` is the documented storage of the intervals `ivs`, `values ivs` the list of enumerated values.
-/
namespace Verif.IntervalEnum

/-- The intervals {-2,-1,0}, {3}, {5,6,7,8} used as a running witness. -/
def demo : List (Int × Nat) := [(-2, 3), (3, 1), (5, 4)]

example : Sorted demo := by simp [demo, Sorted]
example : values demo = [-2, -1, 0, 3, 5, 6, 7, 8] := by decide
example : encode demo = [(0, -2), (3, 3), (4, 5), (8, 9)] := by decide

/-- C01: the size is the number of values. -/
theorem size_eq (ivs : List (Int × Nat)) :
    size (encode ivs) = some ((values ivs).length : Int) := by
  cases ivs with
  | nil => rfl
  | cons p r =>
    rw [encode_eq (by simp)]
    have hne : (encodeFrom 0 0 (p :: r)).isEmpty = false := by simpa using encodeFrom_ne_nil (p :: r) 0 0
    have h0 : (encodeFrom 0 0 (p :: r))[0]? = some (0, p.1) := rfl
    have hlast : ∀ (ivs : List (Int × Nat)) (k l : Int), ∃ x,
        (encodeFrom k l ivs)[ivs.length]? = some (k + (values ivs).length, x) := by
      intro ivs
      induction ivs with
      | nil => intro k l; exact ⟨l, by simp [encodeFrom, values]⟩
      | cons q t ih =>
        intro k l
        obtain ⟨s, n⟩ := q
        obtain ⟨x, hx⟩ := ih (k + n) (s + n)
        refine ⟨x, ?_⟩
        rw [values_length_cons]
        simp only [encodeFrom, List.length_cons, List.getElem?_cons_succ, hx]
        congr 2; omega
    obtain ⟨x, hx⟩ := hlast (p :: r) 0 0
    have hl := encodeFrom_length (p :: r) 0 0
    simp only [size, hne, diff, endIt, hl, Nat.add_sub_cancel, hx, beginIt, h0]
    simp

example : size (encode demo) = some 8 := by decide

/-- C01: the `j`-th position holds the `j`-th value (position -> value). -/
theorem findLeft_spec {ivs : List (Int × Nat)} (hs : Sorted ivs) {j : Nat} {v : Int}
    (hv : (values ivs)[j]? = some v) :
    deref (encode ivs) (findLeft (encode ivs) j) = some ((j : Int), v) ∧
    findLeft (encode ivs) j ≠ endIt (encode ivs) := by
  have hj : j < (values ivs).length := (List.getElem?_eq_some_iff.1 hv).1
  rw [encode_eq (ne_nil_of_values hv)]
  have := findLeft_canon 0 0 hs hj
  simp only [Int.zero_add] at this
  rw [this]
  refine ⟨?_, ?_⟩
  · have := deref_canon ivs 0 0 j v hv
    simpa using this
  · rw [endIt_encodeFrom]; exact canon_ne_end hs hj

example : (values demo)[4]? = some 5 ∧ findLeft (encode demo) 4 = ⟨2, 0⟩ := by decide

/-- C01: positions outside `0 .. size-1` are reported as `end()`. -/
theorem findLeft_out {ivs : List (Int × Nat)} {j : Int}
    (hj : j < 0 ∨ (values ivs).length ≤ j) : findLeft (encode ivs) j = endIt (encode ivs) := by
  cases ivs with
  | nil => rfl
  | cons p r =>
    rw [encode_eq (by simp)]
    have hne : (encodeFrom 0 0 (p :: r)).isEmpty = false := by simpa using encodeFrom_ne_nil (p :: r) 0 0
    unfold findLeft
    simp only [hne, Bool.false_eq_true, if_false]
    rcases hj with hj | hj
    · have : upperLeft (encodeFrom 0 0 (p :: r)) j = 0 := by
        simp [encodeFrom, upperLeft, List.findIdx_cons, hj]
      simp [this]
    · have key : ∀ (ivs : List (Int × Nat)) (k l : Int), k + (values ivs).length ≤ j →
          ∀ a ∈ encodeFrom k l ivs, a.1 ≤ j := by
        intro ivs
        induction ivs with
        | nil => intro k l h a ha; simp [encodeFrom] at ha; subst ha; simp at h ⊢; omega
        | cons q t ih =>
          intro k l h a ha
          obtain ⟨s, n⟩ := q
          rw [values_length_cons] at h
          simp only [encodeFrom, List.mem_cons] at ha
          rcases ha with rfl | ha
          · simp; omega
          · exact ih (k + n) (s + n) (by omega) a ha
      have : upperLeft (encodeFrom 0 0 (p :: r)) j = (encodeFrom 0 0 (p :: r)).length := by
        apply List.findIdx_eq_length.2
        intro a ha
        have := key (p :: r) 0 0 (by omega) a ha
        simpa using this
      simp [this]

example : findLeft (encode demo) 8 = endIt (encode demo) ∧ findLeft (encode demo) (-1) = endIt (encode demo) := by
  decide

/-- C01: value -> position: looking up a stored value gives its position and the value itself. -/
theorem findRight_spec {ivs : List (Int × Nat)} (hs : Sorted ivs) {j : Nat} {v : Int}
    (hv : (values ivs)[j]? = some v) :
    deref (encode ivs) (findRight (encode ivs) v) = some ((j : Int), v) ∧
    findRight (encode ivs) v = findLeft (encode ivs) j := by
  have hj : j < (values ivs).length := (List.getElem?_eq_some_iff.1 hv).1
  rw [encode_eq (ne_nil_of_values hv)]
  have h1 := findLeft_canon 0 0 hs hj
  simp only [Int.zero_add] at h1
  rw [h1, findRight_canon 0 0 hs hv]
  refine ⟨?_, rfl⟩
  simpa using deref_canon ivs 0 0 j v hv

example : (values demo)[6]? = some 7 ∧ deref (encode demo) (findRight (encode demo) 7) = some (6, 7) := by decide

/-- C01: round trip starting from a position. -/
theorem roundtrip_position {ivs : List (Int × Nat)} (hs : Sorted ivs) {j : Nat}
    (hj : j < (values ivs).length) :
    ∃ v, deref (encode ivs) (findLeft (encode ivs) j) = some ((j : Int), v) ∧
      findRight (encode ivs) v = findLeft (encode ivs) j := by
  have hv : (values ivs)[j]? = some (values ivs)[j] := List.getElem?_eq_getElem hj
  exact ⟨_, (findLeft_spec hs hv).1, (findRight_spec hs hv).2⟩

/-- C01: round trip starting from a value. -/
theorem roundtrip_value {ivs : List (Int × Nat)} (hs : Sorted ivs) {v : Int} (hv : v ∈ values ivs) :
    ∃ j : Nat, j < (values ivs).length ∧ deref (encode ivs) (findRight (encode ivs) v) = some ((j : Int), v) ∧
      deref (encode ivs) (findLeft (encode ivs) j) = some ((j : Int), v) := by
  obtain ⟨j, hj⟩ := List.getElem?_of_mem hv
  exact ⟨j, (List.getElem?_eq_some_iff.1 hj).1, (findRight_spec hs hj).1, (findLeft_spec hs hj).1⟩

/-- C01: larger positions hold larger values. -/
theorem positions_ordered {ivs : List (Int × Nat)} (hs : Sorted ivs) {i j : Nat} {vi vj : Int} (hij : i < j)
    (hi : deref (encode ivs) (findLeft (encode ivs) i) = some ((i : Int), vi))
    (hj : deref (encode ivs) (findLeft (encode ivs) j) = some ((j : Int), vj))
    (hjs : j < (values ivs).length) : vi < vj := by
  have e1 := (findLeft_spec hs (List.getElem?_eq_getElem (l := values ivs) (i := i) (by omega))).1
  have e2 := (findLeft_spec hs (List.getElem?_eq_getElem (l := values ivs) (i := j) hjs)).1
  rw [hi] at e1; rw [hj] at e2
  simp only [Option.some.injEq, Prod.mk.injEq, true_and] at e1 e2
  exact values_strict hs i j vi vj hij (e1 ▸ List.getElem?_eq_getElem (by omega))
    (e2 ▸ List.getElem?_eq_getElem hjs)

/-- C01: stepping an iterator `j` times from `begin()` reaches position `j` (and `end()` after the last one). -/
theorem iterate_forward {ivs : List (Int × Nat)} (hs : Sorted ivs) (j : Nat) (hj : j ≤ (values ivs).length) :
    (next (encode ivs))^[j] (beginIt (encode ivs)) =
      if j < (values ivs).length then findLeft (encode ivs) j else endIt (encode ivs) := by
  cases ivs with
  | nil =>
    simp [values] at hj
    subst hj; rfl
  | cons p r =>
    rw [encode_eq (by simp)]
    have key : (next (encodeFrom 0 0 (p :: r)))^[j] (beginIt (encodeFrom 0 0 (p :: r))) = canon (p :: r) j := by
      induction j with
      | zero => rw [canon_zero hs]; rfl
      | succ j ih =>
        rw [Function.iterate_succ_apply', ih (by omega)]
        exact next_canon 0 0 hs (by omega)
    rw [key]
    split
    · rename_i h
      have := findLeft_canon 0 0 hs h
      simpa using this.symm
    · have : j = (values (p :: r)).length := by omega
      rw [this, endIt_encodeFrom]

example : (next (encode demo))^[8] (beginIt (encode demo)) = endIt (encode demo) := by decide

/-- C01: stepping back undoes stepping forward, also from `end()`. -/
theorem iterate_backward {ivs : List (Int × Nat)} (hs : Sorted ivs) (j : Nat) (hj : j < (values ivs).length) :
    prev (encode ivs) (next (encode ivs) (findLeft (encode ivs) j)) = findLeft (encode ivs) j := by
  cases ivs with
  | nil => simp [values] at hj
  | cons p r =>
    rw [encode_eq (by simp)]
    have h1 := findLeft_canon 0 0 hs hj
    simp only [Int.zero_add] at h1
    rw [h1, next_canon 0 0 hs hj, prev_canon 0 0 hs hj]

/-- C02: a value is reported missing exactly when it is in no interval. -/
theorem containsRight_iff {ivs : List (Int × Nat)} (hs : Sorted ivs) (v : Int) :
    containsRight (encode ivs) v = true ↔ v ∈ values ivs := by
  cases ivs with
  | nil => simp [containsRight, encode, findRight, values]
  | cons p r =>
    rw [encode_eq (by simp)]
    by_cases hv : v ∈ values (p :: r)
    · obtain ⟨j, hj⟩ := List.getElem?_of_mem hv
      simp only [containsRight, hv, iff_true, bne_iff_ne]
      rw [findRight_canon 0 0 hs hj, endIt_encodeFrom]
      exact canon_ne_end hs (List.getElem?_eq_some_iff.1 hj).1
    · simp [containsRight, hv, findRight_gap 0 0 hs hv]

/-- C02, the same in terms of membership in an interval. -/
theorem containsRight_iff_interval {ivs : List (Int × Nat)} (hs : Sorted ivs) (v : Int) :
    containsRight (encode ivs) v = true ↔ ∃ p ∈ ivs, p.1 ≤ v ∧ v < p.1 + p.2 := by
  rw [containsRight_iff hs]
  simp only [values, List.mem_flatMap, List.mem_map, List.mem_range]
  constructor
  · rintro ⟨p, hp, i, hi, rfl⟩; exact ⟨p, hp, by omega, by omega⟩
  · rintro ⟨p, hp, h1, h2⟩; exact ⟨p, hp, (v - p.1).toNat, by omega, by omega⟩

example : containsRight (encode demo) 3 = true ∧ containsRight (encode demo) 4 = false ∧
    containsRight (encode demo) 9 = false ∧ containsRight (encode demo) (-3) = false := by decide

/-- C02: `lower_bound_right` finds the least stored value not smaller than the query. -/
theorem lowerBound_some {ivs : List (Int × Nat)} (hs : Sorted ivs) (v : Int)
    (hex : ∃ u ∈ values ivs, v ≤ u) :
    ∃ (j : Nat) (w : Int), deref (encode ivs) (lowerBoundRight (encode ivs) v) = some ((j : Int), w) ∧
      lowerBoundRight (encode ivs) v = findLeft (encode ivs) j ∧
      (values ivs)[j]? = some w ∧ v ≤ w ∧ ∀ u ∈ values ivs, v ≤ u → w ≤ u := by
  cases ivs with
  | nil => simp [values] at hex
  | cons p r =>
    rw [encode_eq (by simp)]
    have hne : (encodeFrom 0 0 (p :: r)).isEmpty = false := by simpa using encodeFrom_ne_nil (p :: r) 0 0
    have hl := encodeFrom_length (p :: r) 0 0
    by_cases hv : v ∈ values (p :: r)
    · obtain ⟨j, hj⟩ := List.getElem?_of_mem hv
      obtain ⟨h1, h2, a, b, ha, hb, hsh, hlt⟩ := findRight_canon_aux 0 0 hs hj
      have hc : lowerBoundRight (encodeFrom 0 0 (p :: r)) v = canon (p :: r) j := by
        unfold lowerBoundRight
        simp only [hne, h1, hl]
        have h3 : ¬ ((canon (p :: r) j).pos + 1 = (p :: r).length + 1) := by omega
        have h5 : ¬ (a.1 + (v - a.2) ≥ b.1) := by omega
        simp only [Nat.add_one_ne_zero, h3, if_false, Nat.add_sub_cancel, ha, hb, h5]
        simp only [Bool.false_eq_true, if_false, ← hsh]
      refine ⟨j, v, ?_, ?_, hj, Int.le_refl v, fun u _ h => h⟩
      · rw [hc]; simpa using deref_canon (p :: r) 0 0 j v hj
      · rw [hc]
        have := findLeft_canon 0 0 hs (List.getElem?_eq_some_iff.1 hj).1
        simpa using this.symm
    · have hg := lower_gap 0 (min 0 v) hs (by omega) hv
      have he : encodeFrom 0 (min 0 v) (p :: r) = encodeFrom 0 0 (p :: r) := rfl
      rw [he] at hg
      rcases hg with ⟨_, h2⟩ | ⟨i, j, w, h1, h2, h3, h4, h5, h6⟩
      · obtain ⟨u, hu, hvu⟩ := hex
        have := h2 u hu; omega
      · have hc : lowerBoundRight (encodeFrom 0 0 (p :: r)) v = canon (p :: r) j := by
          rw [h3]
          unfold lowerBoundRight
          simp only [hne, h1, hl]
          by_cases hi : i = 0
          · subst hi; simp [beginIt]
          · have hil : ¬ (i = (p :: r).length + 1) := by omega
            rcases upperRight_gap 0 0 hs hv with h | h | ⟨i', a, b, h, hi', ha, hb, hab⟩
            · omega
            · omega
            · have : i = i' + 1 := by omega
              subst this
              have hil' : ¬ (i' = r.length + 1) := by simp at hi'; omega
              simp [ha, hb, hab, hil']
        refine ⟨j, w, ?_, ?_, h4, h5, h6⟩
        · rw [hc]; simpa using deref_canon (p :: r) 0 0 j w h4
        · rw [hc]
          have := findLeft_canon 0 0 hs (List.getElem?_eq_some_iff.1 h4).1
          simpa using this.symm

example : deref (encode demo) (lowerBoundRight (encode demo) 1) = some (3, 3) := by decide

/-- C02: and it is `end()` when every stored value is smaller than the query. -/
theorem lowerBound_end {ivs : List (Int × Nat)} (hs : Sorted ivs) (v : Int)
    (hall : ∀ u ∈ values ivs, u < v) : lowerBoundRight (encode ivs) v = endIt (encode ivs) := by
  cases ivs with
  | nil => rfl
  | cons p r =>
    rw [encode_eq (by simp)]
    have hne : (encodeFrom 0 0 (p :: r)).isEmpty = false := by simpa using encodeFrom_ne_nil (p :: r) 0 0
    have hl := encodeFrom_length (p :: r) 0 0
    have hv : v ∉ values (p :: r) := fun h => absurd (hall v h) (Int.lt_irrefl v)
    have hg := lower_gap 0 (min 0 v) hs (by omega) hv
    have he : encodeFrom 0 (min 0 v) (p :: r) = encodeFrom 0 0 (p :: r) := rfl
    rw [he] at hg
    rcases hg with ⟨h1, _⟩ | ⟨i, j, w, _, _, _, h4, h5, _⟩
    · unfold lowerBoundRight
      simp [hne, h1, hl]
    · have := hall w (List.mem_of_getElem? h4); omega

example : lowerBoundRight (encode demo) 9 = endIt (encode demo) := by decide

/-- C02: `upper_bound_right` finds the least stored value larger than the query. -/
theorem upperBound_some {ivs : List (Int × Nat)} (hs : Sorted ivs) (v : Int) (hex : ∃ u ∈ values ivs, v < u) :
    ∃ (j : Nat) (w : Int), deref (encode ivs) (upperBoundRight (encode ivs) v) = some ((j : Int), w) ∧
      upperBoundRight (encode ivs) v = findLeft (encode ivs) j ∧
      (values ivs)[j]? = some w ∧ v < w ∧ ∀ u ∈ values ivs, v < u → w ≤ u := by
  obtain ⟨u, hu, huv⟩ := hex
  obtain ⟨j, w, h1, h2, h3, h4, h5⟩ := lowerBound_some hs (v + 1) ⟨u, hu, by omega⟩
  exact ⟨j, w, h1, h2, h3, by omega, fun x hx hv => h5 x hx (by omega)⟩

/-- C02: and it is `end()` when no stored value is larger than the query. -/
theorem upperBound_end {ivs : List (Int × Nat)} (hs : Sorted ivs) (v : Int)
    (hall : ∀ u ∈ values ivs, u ≤ v) : upperBoundRight (encode ivs) v = endIt (encode ivs) :=
  lowerBound_end hs (v + 1) fun u hu => by have := hall u hu; omega

example : deref (encode demo) (upperBoundRight (encode demo) 3) = some (4, 5) ∧
    upperBoundRight (encode demo) 8 = endIt (encode demo) := by decide

/-- C01: the difference of two iterators is the difference of their positions. -/
theorem diff_positions {ivs : List (Int × Nat)} (hs : Sorted ivs) {i j : Nat} (hi : i < (values ivs).length)
    (hj : j < (values ivs).length) :
    diff (encode ivs) (findLeft (encode ivs) i) (findLeft (encode ivs) j) = some ((i : Int) - j) := by
  have key : ∀ (d : Dat) (a b : It) (x y : Int × Int), deref d a = some x → deref d b = some y →
      diff d a b = some (x.1 - y.1) := by
    intro d a b x y hx hy
    unfold deref at hx hy
    unfold diff
    cases ha : d[a.pos]? with
    | none => rw [ha] at hx; simp at hx
    | some p => cases hb : d[b.pos]? with
      | none => rw [hb] at hy; simp at hy
      | some q =>
        rw [ha] at hx; rw [hb] at hy
        simp only [Option.map_some, Option.some.injEq] at hx hy
        subst hx hy
        simp only [Option.some.injEq]
        omega
  exact key _ _ _ _ _ (findLeft_spec hs (List.getElem?_eq_getElem hi)).1 (findLeft_spec hs (List.getElem?_eq_getElem hj)).1

example : diff (encode demo) (findLeft (encode demo) 6) (findLeft (encode demo) 1) = some 5 := by decide

end Verif.IntervalEnum
