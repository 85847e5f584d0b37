import Verif.Lemmas.GeomIter3
import Verif.Props.Sparsity

/-!
Property C11: iterating over the d.o.f.s selected by an element set visits every selected d.o.f. exactly once and nothing
else, in the order of the local numbers.

`Meets start next L`: the loop ends after meeting exactly `L`; `Lists n locate sel L`: `L` has exactly the selected
d.o.f.s, each once; `Increasing L`: in the order of the numbers (`Verif.Spec.GeomIter`).
-/
namespace Verif.GeomIter
open Verif.DofMap Verif.Sparsity

/-! ### the element sets met by the iteration -/

theorem wf_none : Wf Sp.none := by
  intro d _ i h
  unfold Sp.has Sp.get Sp.none at h
  split at h <;> simp at h

theorem wf_union (a b : Sp) (ha : Wf a) (hb : Wf b) : Wf (a.union b) := by
  intro d hd i h
  rw [has_union, Bool.or_eq_true] at h
  exact h.elim (ha d hd i) (hb d hd i)

theorem has_lt (s : Sp) (d i : Nat) (h : s.has d i = true) : i < 8 := by
  unfold Sp.has at h
  exact BitVec.lt_of_getLsbD h

theorem wf_inter (a b : Sp) (ha : Wf a) : Wf (a.inter b) := by
  intro d hd i h
  refine ha d hd i ?_
  unfold Sp.has Sp.get Sp.inter at h
  unfold Sp.has Sp.get
  split at h <;> simp_all

theorem wf_diff (a b : Sp) (ha : Wf a) : Wf (a.diff b) := by
  intro d hd i h
  rw [has_diff a b d i (has_lt _ _ _ h), Bool.and_eq_true] at h
  exact ha d hd i h.1

theorem wf_xor (a b : Sp) (ha : Wf a) (hb : Wf b) : Wf (a.xor b) := by
  intro d hd i h
  have : a.has d i = true ∨ b.has d i = true := by
    unfold Sp.has Sp.get Sp.xor at h
    unfold Sp.has Sp.get
    split at h <;> simp only [BitVec.getLsbD_xor] at h <;> grind
  exact this.elim (ha d hd i) (hb d hd i)

theorem table_wf : ∀ p ∈ allElems, ∀ c : Bool, ∀ d, d < 4 → ∀ i, i < 8 → (setMask p.1 p.2 c).has d i = true → i < count d := by
  decide +kernel

theorem has_bound (s : Sp) (d i : Nat) (hi : ¬ i < 8) : s.has d i = false := by
  cases h : s.has d i with
  | false => rfl
  | true => exact absurd (has_lt s d i h) hi

theorem wf_of (s t : Sp) (hs : Wf s) (p : Nat × Nat) (hp : p ∈ allElems) (c : Bool)
    (h : ∀ d i, t.has d i = true → s.has d i = true ∨ (setMask p.1 p.2 c).has d i = true) : Wf t := by
  intro d hd i hi
  rcases h d i hi with h' | h'
  · exact hs d hd i h'
  · exact table_wf p hp c d hd i (has_lt _ _ _ h') h'

/-- selecting an element (with or without closure) keeps the mask within the existing elements -/
theorem wf_set (s t : Sp) (hs : Wf s) (d i : Nat) (c : Bool) (h : Elem d i) (ht : s.set d i c = some t) : Wf t := by
  refine wf_of s t hs (d, i) (mem_allElems h) c ?_
  intro d' j hj
  obtain ⟨h1, h2⟩ := h
  have : d = 0 ∨ d = 1 ∨ d = 2 ∨ d = 3 := by omega
  rcases this with rfl | rfl | rfl | rfl
  · cases ht
    revert hj
    unfold Sp.has Sp.get
    split <;> simp [Sp.setNode, setMask, Sp.set, Sp.none]
  · cases ht
    revert hj
    unfold Sp.has Sp.get
    cases c <;> split <;> simp [Sp.setEdge, setMask, Sp.set, Sp.none]
  · cases ht
    revert hj
    unfold Sp.has Sp.get
    cases c <;> split <;> simp [Sp.setFace, setMask, Sp.set, Sp.none]
  · cases ht
    revert hj
    unfold Sp.has Sp.get
    cases c <;> split <;> simp [Sp.setCell, setMask, Sp.set, Sp.none] <;> intro h <;> simp [h]

/-- removing elements keeps it too -/
theorem wf_unset (s t : Sp) (hs : Wf s) (d i : Nat) (c : Bool) (ht : s.unset d i c = some t) : Wf t := by
  intro d' hd' j hj
  refine hs d' hd' j ?_
  have h4 : d < 4 := by
    unfold Sp.unset at ht
    split at ht <;> first | omega | simp at ht
  have : d = 0 ∨ d = 1 ∨ d = 2 ∨ d = 3 := by omega
  rcases this with rfl | rfl | rfl | rfl
  · cases ht
    revert hj
    unfold Sp.has Sp.get
    split <;> simp [Sp.unsetNode] <;> (intro h; simp [h])
  · cases ht
    revert hj
    unfold Sp.has Sp.get
    cases c <;> split <;> simp [Sp.unsetEdge] <;> (intro h; simp [h])
  · cases ht
    revert hj
    unfold Sp.has Sp.get
    cases c <;> split <;> simp [Sp.unsetFace] <;> (intro h; simp [h])
  · cases ht
    revert hj
    unfold Sp.has Sp.get
    cases c <;> split <;> simp [Sp.unsetCell, Sp.none]

/-! ### the iteration -/

/-- **C11** (primitive spaces): for every space with given d.o.f. counts on the elements and every element set, the loop
visits exactly the d.o.f.s of the selected elements, each once. -/
theorem unite_iterate (c : Counts) (s : Sp) (hs : Wf s) (g : Bool) :
    ∃ L, Meets ((uniteIter c).start g s) ((uniteIter c).next g s) L ∧
      Lists (uniteObj c).numTet (uniteObj c).locate s.has L ∧ (Counts.plain c → Increasing L) := by
  have h := good_unite c s hs
  have h1 : genBegin (uniteObj c) s = (restL c s 0).head? := h.start
  refine ⟨_, ?_, h.lists, fun hc => restL_increasing c hc s⟩
  intro n hn
  show visits (uniteNext c s) n (genBegin (uniteObj c) s) = _
  rw [h1]
  exact steps_visits _ _ h.steps n hn

/-- **C11** (powers and products, default order).  The property is proved for `Regular` maps: primitive maps, (iterated)
powers of them, and products in which factors without selected d.o.f.s do not separate factors with selected ones.
Missing: the other maps, where it is false (`product_skips`, `power_of_product_skips`); the order by local numbers holds
for spaces without two kinds of edge or face d.o.f.s (`not_increasing` otherwise). -/
theorem iterate_partial (t : Tree) (s : Sp) (hs : Wf s) (ht : Regular s t) :
    ∃ L, Meets ((iter t).start false s) ((iter t).next false s) L ∧ Lists t.obj.numTet t.obj.locate s.has L ∧
      (Plain t → Increasing L) := by
  obtain ⟨L, h, hi⟩ := tree_good s hs t ht
  refine ⟨L, ?_, ?_, hi⟩
  · intro n hn
    rw [h.start]
    exact steps_visits _ _ h.steps n hn
  · have := h.lists
    rw [iter_obj] at this
    exact this

/-- `P2` on a face with closure: nodes 0 2 3 and edges 1 2 5 -/
def exP2 : Counts := ⟨1, 1, 0, 0, 0, 0⟩

/-- `P1` -/
def exP1 : Counts := ⟨1, 0, 0, 0, 0, 0⟩

/-- `P0` -/
def exP0 : Counts := ⟨0, 0, 0, 0, 0, 1⟩

/-- the closed face 2 -/
def exFace : Sp := (Sp.none.set 2 2 true).getD Sp.none

example : Wf exFace ∧ (visits ((uniteIter exP2).next false exFace) 100 ((uniteIter exP2).start false exFace)).map (·.1) =
    [0, 2, 3, 5, 6, 9] := ⟨wf_set _ _ wf_none 2 2 true (by decide) rfl, by decide +kernel⟩

/-- velocity-pressure space `P2^3 × P1` on the closed face 2: it is regular, and the loop gives 18 + 3 d.o.f.s -/
example : Regular exFace (.complex [.vector 3 (.unite exP2), .unite exP1]) ∧
    (visits ((iter (.complex [.vector 3 (.unite exP2), .unite exP1])).next false exFace) 100
      ((iter (.complex [.vector 3 (.unite exP2), .unite exP1])).start false exFace)).map (·.1) =
      [0, 2, 3, 5, 6, 9, 10, 12, 13, 15, 16, 19, 20, 22, 23, 25, 26, 29, 30, 32, 33] := by
  refine ⟨⟨⟨⟨trivial, trivial⟩, trivial, trivial⟩, ?_⟩, by decide +kernel⟩
  intro i j k hi hj hk hij hjk
  simp only [List.length_cons, List.length_nil] at hk
  omega

/-- **C11 fails for products (default order)**: in `P1 × P0 × P1` restricted to the nodes the loop ends before the third
factor: it meets 4 d.o.f.s, while 8 are selected. -/
theorem product_skips : ∃ (t : Tree) (s : Sp), Wf s ∧
    Meets ((iter t).start false s) ((iter t).next false s)
      [(0, ⟨0, 0, 0⟩), (1, ⟨0, 1, 0⟩), (2, ⟨0, 2, 0⟩), (3, ⟨0, 3, 0⟩)] ∧
    5 < t.obj.numTet ∧ s.has (dimension (t.obj.locate 5).num) (t.obj.locate 5).nelem = true := by
  refine ⟨.complex [.unite exP1, .unite exP0, .unite exP1], Sp.none.setDim 0, ?_, ?_, by decide +kernel, by decide +kernel⟩
  · intro d hd i hi
    have hi8 := has_lt _ _ _ hi
    revert hi
    revert i
    revert d
    decide
  · intro n hn
    obtain ⟨m, rfl⟩ : ∃ m, n = m + 4 := ⟨n - 4, by simp at hn; omega⟩
    have h0 : (iter (.complex [.unite exP1, .unite exP0, .unite exP1])).start false (Sp.none.setDim 0) =
      some (0, ⟨0, 0, 0⟩) := by decide +kernel
    have h1 : ∀ i, i < 3 → (iter (.complex [.unite exP1, .unite exP0, .unite exP1])).next false (Sp.none.setDim 0)
      (i, ⟨0, i, 0⟩) = some (i + 1, ⟨0, i + 1, 0⟩) := by decide +kernel
    have h2 : (iter (.complex [.unite exP1, .unite exP0, .unite exP1])).next false (Sp.none.setDim 0)
      (3, ⟨0, 3, 0⟩) = none := by decide +kernel
    rw [h0]
    simp only [visits, h1 0 (by omega), h1 1 (by omega), h1 2 (by omega), h2]
    cases m <;> rfl

/-- **C11 fails for powers of products**: in `(P0 × P1)^2` the loop starts at number 1 and never meets number 0. -/
theorem power_of_product_skips : ∃ (t : Tree) (s : Sp), Wf s ∧
    (∀ n, ∀ x ∈ visits ((iter t).next false s) n ((iter t).start false s), x.1 ≠ 0) ∧
    0 < t.obj.numTet ∧ s.has (dimension (t.obj.locate 0).num) (t.obj.locate 0).nelem = true := by
  refine ⟨.vector 2 (.complex [.unite exP0, .unite exP1]), ⟨0xF, 0, 0, 1⟩, ?_, ?_, by decide +kernel, by decide +kernel⟩
  · intro d hd i hi
    have hi8 := has_lt _ _ _ hi
    revert hi
    revert i
    revert d
    decide
  · have h0 : (iter (.vector 2 (.complex [.unite exP0, .unite exP1]))).start false ⟨0xF, 0, 0, 1⟩ =
      some (1, ⟨0, 0, 0⟩) := by decide +kernel
    have hfin : ∀ n, visits ((iter (.vector 2 (.complex [.unite exP0, .unite exP1]))).next false ⟨0xF, 0, 0, 1⟩) n
        (some (1, ⟨0, 0, 0⟩)) = (visits ((iter (.vector 2 (.complex [.unite exP0, .unite exP1]))).next false ⟨0xF, 0, 0, 1⟩)
          9 (some (1, ⟨0, 0, 0⟩))).take n := by
      intro n
      have hL : visits ((iter (.vector 2 (.complex [.unite exP0, .unite exP1]))).next false ⟨0xF, 0, 0, 1⟩)
          9 (some (1, ⟨0, 0, 0⟩)) = [(1, ⟨0, 0, 0⟩), (2, ⟨0, 1, 0⟩), (3, ⟨0, 2, 0⟩), (4, ⟨0, 3, 0⟩), (5, ⟨5, 0, 1⟩),
            (6, ⟨0, 0, 1⟩), (7, ⟨0, 1, 1⟩), (8, ⟨0, 2, 1⟩), (9, ⟨0, 3, 1⟩)] := by decide +kernel
      have hlast : (iter (.vector 2 (.complex [.unite exP0, .unite exP1]))).next false ⟨0xF, 0, 0, 1⟩ (9, ⟨0, 3, 1⟩) =
        none := by decide +kernel
      by_cases hn : n ≤ 9
      · have : ∀ n, n ≤ 9 → visits ((iter (.vector 2 (.complex [.unite exP0, .unite exP1]))).next false ⟨0xF, 0, 0, 1⟩) n
          (some (1, ⟨0, 0, 0⟩)) = (visits ((iter (.vector 2 (.complex [.unite exP0, .unite exP1]))).next false ⟨0xF, 0, 0, 1⟩)
          9 (some (1, ⟨0, 0, 0⟩))).take n := by decide +kernel
        exact this n hn
      · rw [hL]
        have hst : Steps ((iter (.vector 2 (.complex [.unite exP0, .unite exP1]))).next false ⟨0xF, 0, 0, 1⟩)
          [(1, ⟨0, 0, 0⟩), (2, ⟨0, 1, 0⟩), (3, ⟨0, 2, 0⟩), (4, ⟨0, 3, 0⟩), (5, ⟨5, 0, 1⟩),
            (6, ⟨0, 0, 1⟩), (7, ⟨0, 1, 1⟩), (8, ⟨0, 2, 1⟩), (9, ⟨0, 3, 1⟩)] none := by
          refine ⟨?_, ?_, ?_, ?_, ?_, ?_, ?_, ?_, hlast, trivial⟩ <;> decide +kernel
        have := steps_visits _ _ hst n (by simp; omega)
        simp only [List.head?_cons] at this
        rw [this, List.take_of_length_le (by simp; omega)]
    intro n x hx
    rw [h0, hfin n] at hx
    have hx' := List.mem_of_mem_take hx
    clear hx
    revert hx'
    revert x
    decide +kernel

/-- **C11, order**: with both kinds of d.o.f.s on edges the loop does not follow the local numbers: 0, 6, 1, 7. -/
theorem not_increasing : ∃ (c : Counts) (s : Sp), Wf s ∧
    (visits ((uniteIter c).next false s) 4 ((uniteIter c).start false s)).map (·.1) = [0, 6, 1, 7] :=
  ⟨⟨0, 1, 1, 0, 0, 0⟩, ⟨0, 3, 0, 0⟩, by
    intro d hd i hi
    have hi8 := has_lt _ _ _ hi
    revert hi
    revert i
    revert d
    decide, by decide +kernel⟩

/-- **`operator~`**: the complement of a set also sets bits of non-existing elements.  On the complement of "all nodes"
the iteration over a `P1` space starts at the non-existing node 6 instead of ending at once. -/
theorem complement_wrong : (uniteIter exP1).start false (Sp.none.setDim 0).compl = some (6, ⟨0, 6, 0⟩) ∧
    (∀ i, i < 4 → (Sp.none.setDim 0).compl.has 0 i = false) := by decide +kernel

/-- **geometric order of products**: with `preferGeomOrdering` the loop over `EDGE_UNORIENT × EDGE_ORIENT` on one edge
meets one d.o.f. of two. -/
theorem geom_order_skips : ∃ (t : Tree) (s : Sp), Wf s ∧
    Meets ((iter t).start true s) ((iter t).next true s) [(0, ⟨1, 0, 0⟩)] ∧
    6 < t.obj.numTet ∧ s.has (dimension (t.obj.locate 6).num) (t.obj.locate 6).nelem = true := by
  refine ⟨.complex [.unite ⟨0, 1, 0, 0, 0, 0⟩, .unite ⟨0, 0, 1, 0, 0, 0⟩], ⟨0, 1, 0, 0⟩, ?_, ?_, by decide +kernel,
    by decide +kernel⟩
  · intro d hd i hi
    have hi8 := has_lt _ _ _ hi
    revert hi
    revert i
    revert d
    decide
  · intro n hn
    obtain ⟨m, rfl⟩ : ∃ m, n = m + 1 := ⟨n - 1, by simp at hn; omega⟩
    have h0 : (iter (.complex [.unite ⟨0, 1, 0, 0, 0, 0⟩, .unite ⟨0, 0, 1, 0, 0, 0⟩])).start true ⟨0, 1, 0, 0⟩ =
      some (0, ⟨1, 0, 0⟩) := by decide +kernel
    have h2 : (iter (.complex [.unite ⟨0, 1, 0, 0, 0, 0⟩, .unite ⟨0, 0, 1, 0, 0, 0⟩])).next true ⟨0, 1, 0, 0⟩
      (0, ⟨1, 0, 0⟩) = none := by decide +kernel
    rw [h0]
    simp only [visits, h2]
    cases m <;> rfl

end Verif.GeomIter
