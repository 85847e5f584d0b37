import Verif.Model.Sparsity

/-!
Property C12: element sets and closure operations.  The vocabulary is in `Verif.Spec.Sparsity`.
-/
namespace Verif.Sparsity

/-- mask of the elements set by `set(d, i, closure)` -/
def setMask (d i : Nat) (closure : Bool) : Sp := (Sp.none.set d i closure).getD Sp.none

theorem has_union (a b : Sp) (d i : Nat) : (a.union b).has d i = (a.has d i || b.has d i) := by
  unfold Sp.has Sp.get Sp.union
  split <;> simp

theorem has_diff (a b : Sp) (d i : Nat) (hi : i < 8) : (a.diff b).has d i = (a.has d i && !b.has d i) := by
  unfold Sp.has Sp.get Sp.diff
  split <;> simp [hi]

theorem elem_lt {d i : Nat} (h : Elem d i) : i < 8 := by
  obtain ⟨h1, h2⟩ := h
  have : d = 0 ∨ d = 1 ∨ d = 2 ∨ d = 3 := by omega
  rcases this with rfl | rfl | rfl | rfl <;> simp only [count] at h2 <;> omega

/-- all elements -/
def allElems : List (Nat × Nat) := (List.range 4).flatMap fun d => (List.range (count d)).map fun i => (d, i)

theorem mem_allElems {d i : Nat} (h : Elem d i) : (d, i) ∈ allElems := by
  simp only [allElems, List.mem_flatMap, List.mem_map, List.mem_range, Prod.mk.injEq]
  exact ⟨d, h.1, i, h.2, rfl, rfl⟩

theorem setMask_table : ∀ p ∈ allElems, ∀ q ∈ allElems, ∀ c : Bool,
    (setMask p.1 p.2 c).has q.1 q.2 = if c then decide (Contained q.1 q.2 p.1 p.2) else decide (q = p) := by
  decide +kernel

theorem set_has (s : Sp) (d i : Nat) (c : Bool) (h : Elem d i) (d' j : Nat) (h' : Elem d' j) :
    ∃ t, s.set d i c = some t ∧ t.has d' j = (s.has d' j || (setMask d i c).has d' j) := by
  obtain ⟨h1, h2⟩ := h
  have hj := elem_lt h'
  obtain ⟨h1', h2'⟩ := h'
  have : d = 0 ∨ d = 1 ∨ d = 2 ∨ d = 3 := by omega
  have hd' : d' = 0 ∨ d' = 1 ∨ d' = 2 ∨ d' = 3 := by omega
  rcases this with rfl | rfl | rfl | rfl
  · refine ⟨_, rfl, ?_⟩
    rcases hd' with rfl | rfl | rfl | rfl <;> simp [Sp.has, Sp.get, Sp.setNode, setMask, Sp.set, Sp.none]
  · refine ⟨_, rfl, ?_⟩
    cases c <;> rcases hd' with rfl | rfl | rfl | rfl <;> simp [Sp.has, Sp.get, Sp.setEdge, setMask, Sp.set, Sp.none]
  · refine ⟨_, rfl, ?_⟩
    cases c <;> rcases hd' with rfl | rfl | rfl | rfl <;> simp [Sp.has, Sp.get, Sp.setFace, setMask, Sp.set, Sp.none]
  · refine ⟨_, rfl, ?_⟩
    cases c
    · rcases hd' with rfl | rfl | rfl | rfl <;>
        simp [Sp.has, Sp.get, Sp.setCell, setMask, Sp.set, Sp.none, bit] <;>
        simp only [count] at h2' <;>
        (have : j = 0 := by omega) <;> subst this <;> simp
    · have key : ∀ q ∈ allElems, (setMask 3 i true).has q.1 q.2 = true := by
        have : i = 0 := by simp only [count] at h2; omega
        subst this
        decide
      have hk := key _ (mem_allElems ⟨h1', h2'⟩)
      rw [hk, Bool.or_true]
      exact hk

/-- **C12** (set): after selecting element `(d, i)`, an element is in the set iff it was there before or it is the
selected element resp. (with closure) lies in its closure. -/
theorem set_iff (s : Sp) (d i : Nat) (c : Bool) (h : Elem d i) :
    ∃ t, s.set d i c = some t ∧ ∀ d' j, Elem d' j →
      (t.has d' j = true ↔ s.has d' j = true ∨ if c then Contained d' j d i else (d', j) = (d, i)) := by
  obtain ⟨t, ht, _⟩ := set_has s d i c h d i h
  refine ⟨t, ht, fun d' j h' => ?_⟩
  obtain ⟨t', ht', hh⟩ := set_has s d i c h d' j h'
  rw [ht] at ht'
  cases ht'
  rw [hh, setMask_table _ (mem_allElems h) _ (mem_allElems h') c]
  cases c <;> simp

theorem unset_eq_diff (s : Sp) (d i : Nat) (c : Bool) (h : Elem d i) (d' j : Nat) (h' : Elem d' j) :
    ∃ t, s.unset d i c = some t ∧ t.has d' j = (s.has d' j && !(setMask d i c).has d' j) := by
  obtain ⟨h1, h2⟩ := h
  have hj := elem_lt h'
  obtain ⟨h1', h2'⟩ := h'
  have : d = 0 ∨ d = 1 ∨ d = 2 ∨ d = 3 := by omega
  have hd' : d' = 0 ∨ d' = 1 ∨ d' = 2 ∨ d' = 3 := by omega
  rcases this with rfl | rfl | rfl | rfl
  · refine ⟨_, rfl, ?_⟩
    rcases hd' with rfl | rfl | rfl | rfl <;> simp [Sp.has, Sp.get, Sp.unsetNode, Sp.setNode, setMask, Sp.set, Sp.none, hj]
  · refine ⟨_, rfl, ?_⟩
    cases c <;> rcases hd' with rfl | rfl | rfl | rfl <;>
      simp [Sp.has, Sp.get, Sp.unsetEdge, Sp.setEdge, setMask, Sp.set, Sp.none, hj]
  · refine ⟨_, rfl, ?_⟩
    cases c <;> rcases hd' with rfl | rfl | rfl | rfl <;>
      simp [Sp.has, Sp.get, Sp.unsetFace, Sp.setFace, setMask, Sp.set, Sp.none, hj]
  · refine ⟨_, rfl, ?_⟩
    cases c
    · rcases hd' with rfl | rfl | rfl | rfl <;>
        simp [Sp.has, Sp.get, Sp.unsetCell, Sp.setCell, setMask, Sp.set, Sp.none, bit] <;>
        simp only [count] at h2' <;>
        (have : j = 0 := by omega) <;> subst this <;> simp
    · have key : ∀ q ∈ allElems, (setMask 3 i true).has q.1 q.2 = true := by
        have : i = 0 := by simp only [count] at h2; omega
        subst this
        decide
      have hk := key _ (mem_allElems ⟨h1', h2'⟩)
      rw [hk]
      simp only [Sp.unsetCell, Bool.not_true, Bool.and_false]
      rcases hd' with rfl | rfl | rfl | rfl <;> simp [Sp.has, Sp.get, Sp.none]

/-- **C12** (unset): unselecting removes exactly the requested element resp. (with closure) the elements in its
closure. -/
theorem unset_iff (s : Sp) (d i : Nat) (c : Bool) (h : Elem d i) :
    ∃ t, s.unset d i c = some t ∧ ∀ d' j, Elem d' j →
      (t.has d' j = true ↔ s.has d' j = true ∧ ¬ if c then Contained d' j d i else (d', j) = (d, i)) := by
  obtain ⟨t, ht, _⟩ := unset_eq_diff s d i c h d i h
  refine ⟨t, ht, fun d' j h' => ?_⟩
  obtain ⟨t', ht', hh⟩ := unset_eq_diff s d i c h d' j h'
  rw [ht] at ht'
  cases ht'
  rw [hh, setMask_table _ (mem_allElems h) _ (mem_allElems h') c]
  cases c
  · simp only [Bool.and_eq_true, Bool.not_eq_true', Bool.false_eq_true, if_false, decide_eq_false_iff_not]
  · simp

/-- selecting face 2 = {0,2,3} with closure in a set holding edge 0: nodes 0 2 3, edges 0 1 2 5, face 2 -/
example : ∃ t, (Sp.mk 0 (bit 0) 0 0).set 2 2 true = some t ∧ t.elemsIds 0 = [0, 2, 3] ∧ t.elemsIds 1 = [0, 1, 2, 5] ∧
    t.elemsIds 2 = [2] ∧ t.elemsIds 3 = [] := ⟨_, rfl, by decide⟩

/-- **C12** (whole dimensions) -/
theorem setDim_iff (s : Sp) (d : Nat) (hd : d < 4) (d' j : Nat) (h' : Elem d' j) :
    ((s.setDim d).has d' j = true ↔ s.has d' j = true ∨ d' = d) ∧
    ((s.unsetDim d).has d' j = true ↔ s.has d' j = true ∧ d' ≠ d) := by
  obtain ⟨h1', h2'⟩ := h'
  have : d = 0 ∨ d = 1 ∨ d = 2 ∨ d = 3 := by omega
  have hd' : d' = 0 ∨ d' = 1 ∨ d' = 2 ∨ d' = 3 := by omega
  have k4 : ∀ j, j < 4 → (0xF#8).getLsbD j = true := by decide
  have k6 : ∀ j, j < 6 → (0x3F#8).getLsbD j = true := by decide
  have k1 : ∀ j, j < 1 → (0x1#8).getLsbD j = true := by decide
  rcases this with rfl | rfl | rfl | rfl <;> rcases hd' with rfl | rfl | rfl | rfl <;>
    simp only [Sp.setDim, Sp.unsetDim, Sp.put, Sp.has, Sp.get] <;> simp only [count] at h2' <;>
    simp [k4, k6, k1, h2']

/-- **C12** (set algebra): union, difference, intersection, symmetric difference and complement act element-wise. -/
theorem algebra_iff (a b : Sp) (d j : Nat) (h : Elem d j) :
    (a.union b).has d j = (a.has d j || b.has d j) ∧ (a.diff b).has d j = (a.has d j && !b.has d j) ∧
    (a.inter b).has d j = (a.has d j && b.has d j) ∧ (a.xor b).has d j = (a.has d j != b.has d j) ∧
    (a.compl).has d j = !a.has d j := by
  have hj := elem_lt h
  refine ⟨has_union a b d j, has_diff a b d j hj, ?_, ?_, ?_⟩
  · unfold Sp.has Sp.get Sp.inter; split <;> simp
  · unfold Sp.has Sp.get Sp.xor; split <;> simp
  · unfold Sp.has Sp.get Sp.compl; split <;> simp [hj]

/-- **C12** (listing): the listing of a dimension contains exactly the selected elements, in increasing order. -/
theorem elemsIds_spec (s : Sp) (d : Nat) :
    (∀ i, i ∈ s.elemsIds d ↔ i < count d ∧ s.has d i = true) ∧ (s.elemsIds d).Pairwise (· < ·) := by
  refine ⟨fun i => by simp [Sp.elemsIds], ?_⟩
  exact List.Pairwise.filter _ List.pairwise_lt_range

/-! ### walking over the selected elements of one dimension -/

theorem scan_spec (s : Sp) (d k0 : Nat) : s.scan d k0 = ((s.elemsIds d).find? (fun k => decide (k0 ≤ k))).map fun k => (d, k) := by
  unfold Sp.scan Sp.elemsIds
  congr 1
  rw [List.find?_filter]
  by_cases hk : k0 ≤ count d
  · have hsplit : List.range (count d) = List.range k0 ++ List.range' k0 (count d - k0) := by
      conv => lhs; rw [show count d = k0 + (count d - k0) by omega]
      rw [List.range_eq_range', List.range_eq_range', ← List.range'_append_1, Nat.zero_add]
    rw [hsplit, List.find?_append]
    have h1 : (List.range k0).find? (fun a => decide (s.has d a = true ∧ decide (k0 ≤ a) = true)) = none := by
      rw [List.find?_eq_none]
      intro x hx
      have := List.mem_range.1 hx
      simp
      omega
    rw [h1, Option.none_or]
    generalize hl : List.range' k0 (count d - k0) = l
    have hmem : ∀ x ∈ l, k0 ≤ x := by
      intro x hx
      rw [← hl, List.mem_range'_1] at hx
      exact hx.1
    clear hl hsplit h1
    induction l with
    | nil => rfl
    | cons x l ih =>
      have hx := hmem x (by simp)
      by_cases hh : s.has d x = true
      · simp [List.find?, hh, hx]
      · simp only [List.find?, hh, hx, decide_true, and_true]
        exact ih fun y hy => hmem y (by simp [hy])
  · rw [show count d - k0 = 0 by omega]
    symm
    rw [List.range'_zero, List.find?_nil, List.find?_eq_none]
    intro x hx
    have := List.mem_range.1 hx
    simp
    omega

/-- **C12** (walk): `beginPos(d)` is the least selected element of dimension `d`, if there is one. -/
theorem beginPosDim_spec (s : Sp) (d : Nat) : s.beginPosDim d = (s.elemsIds d).head?.map fun k => (d, k) := by
  have h0 : s.scan d 0 = (s.elemsIds d).head?.map fun k => (d, k) := by
    rw [scan_spec]
    cases s.elemsIds d <;> simp
  unfold Sp.beginPosDim
  split
  · rename_i h
    have hz : s.get d = 0#8 := by simpa [Sp.emptyDim] using h
    have : s.elemsIds d = [] := by
      unfold Sp.elemsIds
      rw [List.filter_eq_nil_iff]
      intro x _
      simp [Sp.has, hz]
    rw [this]
    rfl
  · exact h0

/-- **C12** (walk): `nextPosOnDim` is the least selected element of the same dimension after the given one. -/
theorem nextPosOnDim_spec (s : Sp) (d k : Nat) :
    s.nextPosOnDim (d, k) = ((s.elemsIds d).find? fun j => decide (k < j)).map fun j => (d, j) := scan_spec s d (k + 1)

/-- edges 1, 3, 4 are selected -/
example : let s : Sp := ⟨0, 0x1A#8, 0, 0⟩
    s.beginPosDim 1 = some (1, 1) ∧ s.nextPosOnDim (1, 1) = some (1, 3) ∧ s.nextPosOnDim (1, 3) = some (1, 4) ∧
    s.nextPosOnDim (1, 4) = none := by decide

end Verif.Sparsity
