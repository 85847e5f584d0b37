import Verif.Model.Ordering
import Verif.Props.Symmetry
import Mathlib.Algebra.Order.Ring.Rat
import Mathlib.Data.Fin.VecNotation
import Mathlib.Data.Fintype.Card
import Mathlib.Tactic.LinearCombination
import Mathlib.Tactic.Linarith
import Mathlib.Tactic.Ring
import Mathlib.Tactic.FinCases

/-!
Properties C24, C25, C26: connectivity of a tetrahedron, order of its nodes by global ids, orientation of its edges and
faces.  The vocabulary is in `Verif.Spec.Ordering`.
-/
set_option synthInstance.maxSize 5000

namespace Verif.Ordering

/-! ### C24: positive order of the nodes -/

/-- **C24** (nodes): the nodes are only exchanged at the last two places, and afterwards the signed volume
`det (p0 - p3, p1 - p3, p2 - p3)` is not negative. -/
theorem reorderNodes_correct {K N : Type} [CommRing K] [LinearOrder K] [IsStrictOrderedRing K] (crd : N → Nat → K)
    (a b c d : N) :
    let r := reorderNodes crd (a, b, c, d)
    (r = (a, b, c, d) ∨ r = (a, b, d, c)) ∧
    0 ≤ det3 (crd r.1) (crd r.2.1) (crd r.2.2.1) (crd r.2.2.2) ∧
    |det3 (crd r.1) (crd r.2.1) (crd r.2.2.1) (crd r.2.2.2)| = |det3 (crd a) (crd b) (crd c) (crd d)| := by
  have hanti : det3 (crd a) (crd b) (crd d) (crd c) = - det3 (crd a) (crd b) (crd c) (crd d) := by
    simp [det3]; ring
  intro r
  by_cases h : det3 (crd a) (crd b) (crd c) (crd d) < 0
  · have e : r = (a, b, d, c) := by simp [r, reorderNodes, h]
    rw [e]
    refine ⟨Or.inr rfl, ?_, ?_⟩
    · show 0 ≤ det3 (crd a) (crd b) (crd d) (crd c)
      rw [hanti]; linarith
    · show |det3 (crd a) (crd b) (crd d) (crd c)| = _
      rw [hanti, abs_neg]
  · have e : r = (a, b, c, d) := by simp [r, reorderNodes, h]
    rw [e]
    exact ⟨Or.inl rfl, not_lt.mp h, rfl⟩

/-- the signed volume used here is the opposite of the usual `det (p1 - p0, p2 - p0, p3 - p0)` -/
theorem det3_usual {K : Type} [CommRing K] (p0 p1 p2 p3 : Nat → K) :
    det3 p0 p1 p2 p3 = - ((p1 0 - p0 0) * ((p2 1 - p0 1) * (p3 2 - p0 2) - (p2 2 - p0 2) * (p3 1 - p0 1)) -
      (p1 1 - p0 1) * ((p2 0 - p0 0) * (p3 2 - p0 2) - (p2 2 - p0 2) * (p3 0 - p0 0)) +
      (p1 2 - p0 2) * ((p2 0 - p0 0) * (p3 1 - p0 1) - (p2 1 - p0 1) * (p3 0 - p0 0))) := by
  simp [det3]; ring

/-- the unit tetrahedron is turned, its reflection stays -/
example : reorderNodes (N := Fin 4) (K := ℚ) (fun v j => if v.val = j + 1 then 1 else 0) (0, 1, 2, 3) = (0, 1, 3, 2) ∧
    reorderNodes (N := Fin 4) (K := ℚ) (fun v j => if v.val = j + 1 then 1 else 0) (0, 1, 3, 2) = (0, 1, 3, 2) := by
  decide +kernel

/-! ### C24: edges and faces -/

/-- `f` is the face of the tetrahedron `n` without the node number `o`: its three edges join the three pairs of the other
nodes; `a`, `b`, `c` name these nodes so that the first edge is `ab` and the second `bc` (every order of edges and nodes
is covered by the choice of the names) -/
def FaceWithout {N E F : Type} (edgeNodes : E → N × N) (faceEdges : F → E × E × E) (n : Fin 4 → N) (f : F) (o : Fin 4) :
    Prop :=
  ∃ a b c : Fin 4, [a, b, c, o].Nodup ∧ IsPair (edgeNodes (faceEdges f).1) (n a) (n b) ∧
    IsPair (edgeNodes (faceEdges f).2.1) (n b) (n c) ∧ IsPair (edgeNodes (faceEdges f).2.2) (n a) (n c)

theorem position_eq {N : Type} [DecidableEq N] (n : Fin 4 → N) (hn : Function.Injective n) (a : Fin 4) :
    position [n 0, n 1, n 2, n 3] (n a) = some a.val := by
  have hr : List.range 4 = [0, 1, 2, 3] := rfl
  fin_cases a <;> simp [position, hr, hn.eq_iff]

theorem faceSlots_nat {N : Type} [DecidableEq N] (n : Fin 4 → N) (hn : Function.Injective n) (a b c d : Fin 4) :
    faceSlots [n 0, n 1, n 2, n 3] (n a, n b) (n c, n d) = faceSlots [(0 : Fin 4), 1, 2, 3] (a, b) (c, d) := by
  have h := fun x => position_eq (id : Fin 4 → Fin 4) Function.injective_id x
  simp only [id] at h
  simp only [faceSlots, position_eq n hn, h, hn.eq_iff]

theorem slots_table : ∀ a b c o : Fin 4, [a, b, c, o].Nodup → ∀ x ∈ [(a, b), (b, a)], ∀ y ∈ [(b, c), (c, b)],
    faceSlots [(0 : Fin 4), 1, 2, 3] x y =
      some (edgeSlot a b, edgeSlot b c, edgeSlot a c, (o.val + 1) % 4) := by
  decide +kernel

theorem face_slots {N E F : Type} [DecidableEq N] (edgeNodes : E → N × N) (faceEdges : F → E × E × E) (n : Fin 4 → N)
    (hn : Function.Injective n) (f : F) (a b c o : Fin 4) (hd : [a, b, c, o].Nodup)
    (h0 : IsPair (edgeNodes (faceEdges f).1) (n a) (n b)) (h1 : IsPair (edgeNodes (faceEdges f).2.1) (n b) (n c)) :
    faceSlots [n 0, n 1, n 2, n 3] (edgeNodes (faceEdges f).1) (edgeNodes (faceEdges f).2.1) =
      some (edgeSlot a b, edgeSlot b c, edgeSlot a c, (o.val + 1) % 4) := by
  rcases h0 with h0 | h0 <;> rcases h1 with h1 | h1 <;> rw [h0, h1, faceSlots_nat n hn] <;>
    exact slots_table a b c o hd _ (by simp) _ (by simp)

/-- the node pair of the place -/
theorem edgeSlot_pair : ∀ a b : Fin 4, a ≠ b → edgeSlot a b < 6 ∧ IsPair (edgePair (edgeSlot a b)) a.val b.val := by
  decide +kernel

theorem slot_cover : ∀ a b c o : Fin 4, [a, b, c, o].Nodup → ∀ k, k < 6 → (edgePair k).1 ≠ o.val → (edgePair k).2 ≠ o.val →
    k = edgeSlot a b ∨ k = edgeSlot b c ∨ k = edgeSlot a c := by
  decide +kernel

theorem some_face : ∀ o0 o1 o2 : Fin 4, o0 ≠ o1 → o0 ≠ o2 → o1 ≠ o2 → ∀ k, k < 6 →
    ((edgePair k).1 ≠ o0.val ∧ (edgePair k).2 ≠ o0.val) ∨ ((edgePair k).1 ≠ o1.val ∧ (edgePair k).2 ≠ o1.val) ∨
    ((edgePair k).1 ≠ o2.val ∧ (edgePair k).2 ≠ o2.val) := by
  decide +kernel

theorem faces_table : ∀ o0 o1 o2 o3 : Fin 4, [o0, o1, o2, o3].Nodup → ∀ k, k < 4 →
    let x := 6 - (0 + (o0.val + 1) % 4 + (o1.val + 1) % 4 + (o2.val + 1) % 4)
    (k = x ∧ opposite k = o3.val) ∨ (k ≠ x ∧ k = (o2.val + 1) % 4 ∧ opposite k = o2.val) ∨
    (k ≠ x ∧ k ≠ (o2.val + 1) % 4 ∧ k = (o1.val + 1) % 4 ∧ opposite k = o1.val) ∨
    (k ≠ x ∧ k ≠ (o2.val + 1) % 4 ∧ k ≠ (o1.val + 1) % 4 ∧ k = (o0.val + 1) % 4 ∧ opposite k = o0.val) := by
  decide +kernel

/-- what an entry of `edges` must be -/
def EdgeRight {N E : Type} (edgeNodes : E → N × N) (n : Fin 4 → N) (k : Nat) (e : E) : Prop :=
  ∃ a b : Fin 4, edgePair k = (a.val, b.val) ∧ IsPair (edgeNodes e) (n a) (n b)

theorem edgeRight_slot {N E : Type} (edgeNodes : E → N × N) (n : Fin 4 → N) (a b : Fin 4) (hab : a ≠ b) (e : E)
    (h : IsPair (edgeNodes e) (n a) (n b)) : EdgeRight edgeNodes n (edgeSlot a b) e := by
  obtain ⟨_, h2 | h2⟩ := edgeSlot_pair a b hab
  · exact ⟨a, b, h2, h⟩
  · exact ⟨b, a, h2, h.symm⟩

theorem put_right {N E : Type} {edgeNodes : E → N × N} {n : Fin 4 → N} {c : Nat → Option E} (P : E → Prop)
    (hc : ∀ k e, c k = some e → EdgeRight edgeNodes n k e ∧ P e) {i : Nat} {v : E} (hv : EdgeRight edgeNodes n i v ∧ P v) :
    ∀ k e, put c i v k = some e → EdgeRight edgeNodes n k e ∧ P e := by
  intro k e h
  unfold put at h
  split at h
  · cases h; subst k; exact hv
  · exact hc k e h

theorem put_some {α : Type} (c : Nat → Option α) (i : Nat) (v : α) (k : Nat) (h : k = i ∨ (c k).isSome) :
    (put c i v k).isSome := by
  unfold put
  split
  · rfl
  · exact h.resolve_left (by assumption)

/-- **C24** (edges and faces): let `n` be the four nodes of the cell and let the four faces of the cell be, in any order,
the faces without node `o0`, ..., `o3`, with edges in any order and nodes of edges in any order.  Then the arrays are
completely filled: place `k` of `edges` holds an edge of the cell which joins the prescribed pair, place `k` of `faces`
holds the face of the cell without the prescribed node. -/
theorem collect_correct {N E F : Type} [DecidableEq N] (edgeNodes : E → N × N) (faceEdges : F → E × E × E) (n : Fin 4 → N)
    (hn : Function.Injective n) (f0 f1 f2 f3 : F) (o0 o1 o2 o3 : Fin 4) (ho : [o0, o1, o2, o3].Nodup)
    (h0 : FaceWithout edgeNodes faceEdges n f0 o0) (h1 : FaceWithout edgeNodes faceEdges n f1 o1)
    (h2 : FaceWithout edgeNodes faceEdges n f2 o2) (h3 : FaceWithout edgeNodes faceEdges n f3 o3) :
    ∃ c, collect edgeNodes faceEdges [n 0, n 1, n 2, n 3] (f0, f1, f2, f3) = some c ∧
      (∀ k, k < 6 → ∃ e, c.edges k = some e ∧
        (∃ a b : Fin 4, edgePair k = (a.val, b.val) ∧ IsPair (edgeNodes e) (n a) (n b)) ∧
        ∃ f ∈ [f0, f1, f2, f3], e = (faceEdges f).1 ∨ e = (faceEdges f).2.1 ∨ e = (faceEdges f).2.2) ∧
      (∀ k, k < 4 → ∃ f ∈ [f0, f1, f2, f3], c.faces k = some f ∧
        ∃ o : Fin 4, opposite k = o.val ∧ FaceWithout edgeNodes faceEdges n f o) := by
  obtain ⟨a0, b0, c0, d0, p0, q0, r0⟩ := id h0
  obtain ⟨a1, b1, c1, d1, p1, q1, r1⟩ := id h1
  obtain ⟨a2, b2, c2, d2, p2, q2, r2⟩ := id h2
  have s0 := face_slots edgeNodes faceEdges n hn f0 a0 b0 c0 o0 d0 p0 q0
  have s1 := face_slots edgeNodes faceEdges n hn f1 a1 b1 c1 o1 d1 p1 q1
  have s2 := face_slots edgeNodes faceEdges n hn f2 a2 b2 c2 o2 d2 p2 q2
  simp only [collect, connLoop, s0, s1, s2]
  refine ⟨_, rfl, ?_, ?_⟩
  · set P : E → Prop := fun e => ∃ f ∈ [f0, f1, f2, f3], e = (faceEdges f).1 ∨ e = (faceEdges f).2.1 ∨ e = (faceEdges f).2.2
      with hP
    have ne : ∀ a b c o : Fin 4, [a, b, c, o].Nodup → a ≠ b ∧ b ≠ c ∧ a ≠ c := by decide
    obtain ⟨x0, y0, z0⟩ := ne _ _ _ _ d0
    obtain ⟨x1, y1, z1⟩ := ne _ _ _ _ d1
    obtain ⟨x2, y2, z2⟩ := ne _ _ _ _ d2
    have init : ∀ k e, (fun _ => none : Nat → Option E) k = some e → EdgeRight edgeNodes n k e ∧ P e := by
      intro k e h; cases h
    have A := put_right P init (i := edgeSlot a0 b0) (v := (faceEdges f0).1)
      ⟨edgeRight_slot edgeNodes n a0 b0 x0 _ p0, f0, by simp, by simp⟩
    have A := put_right P A (i := edgeSlot b0 c0) (v := (faceEdges f0).2.1)
      ⟨edgeRight_slot edgeNodes n b0 c0 y0 _ q0, f0, by simp, by simp⟩
    have A := put_right P A (i := edgeSlot a0 c0) (v := (faceEdges f0).2.2)
      ⟨edgeRight_slot edgeNodes n a0 c0 z0 _ r0, f0, by simp, by simp⟩
    have A := put_right P A (i := edgeSlot a1 b1) (v := (faceEdges f1).1)
      ⟨edgeRight_slot edgeNodes n a1 b1 x1 _ p1, f1, by simp, by simp⟩
    have A := put_right P A (i := edgeSlot b1 c1) (v := (faceEdges f1).2.1)
      ⟨edgeRight_slot edgeNodes n b1 c1 y1 _ q1, f1, by simp, by simp⟩
    have A := put_right P A (i := edgeSlot a1 c1) (v := (faceEdges f1).2.2)
      ⟨edgeRight_slot edgeNodes n a1 c1 z1 _ r1, f1, by simp, by simp⟩
    have A := put_right P A (i := edgeSlot a2 b2) (v := (faceEdges f2).1)
      ⟨edgeRight_slot edgeNodes n a2 b2 x2 _ p2, f2, by simp, by simp⟩
    have A := put_right P A (i := edgeSlot b2 c2) (v := (faceEdges f2).2.1)
      ⟨edgeRight_slot edgeNodes n b2 c2 y2 _ q2, f2, by simp, by simp⟩
    have A := put_right P A (i := edgeSlot a2 c2) (v := (faceEdges f2).2.2)
      ⟨edgeRight_slot edgeNodes n a2 c2 z2 _ r2, f2, by simp, by simp⟩
    intro k hk
    have one : o0 ≠ o1 ∧ o0 ≠ o2 ∧ o1 ≠ o2 := by
      have : ∀ a b c o : Fin 4, [a, b, c, o].Nodup → a ≠ b ∧ a ≠ c ∧ b ≠ c := by decide
      exact this _ _ _ _ ho
    have full : (put (put (put (put (put (put (put (put (put (fun _ => none) (edgeSlot a0 b0) (faceEdges f0).1)
        (edgeSlot b0 c0) (faceEdges f0).2.1) (edgeSlot a0 c0) (faceEdges f0).2.2) (edgeSlot a1 b1) (faceEdges f1).1)
        (edgeSlot b1 c1) (faceEdges f1).2.1) (edgeSlot a1 c1) (faceEdges f1).2.2) (edgeSlot a2 b2) (faceEdges f2).1)
        (edgeSlot b2 c2) (faceEdges f2).2.1) (edgeSlot a2 c2) (faceEdges f2).2.2 k).isSome := by
      rcases some_face o0 o1 o2 one.1 one.2.1 one.2.2 k hk with ⟨h, h'⟩ | ⟨h, h'⟩ | ⟨h, h'⟩
      · iterate 6 refine put_some _ _ _ _ (Or.inr ?_)
        rcases slot_cover a0 b0 c0 o0 d0 k hk h h' with e | e | e
        · exact put_some _ _ _ _ (Or.inr (put_some _ _ _ _ (Or.inr (put_some _ _ _ _ (Or.inl e)))))
        · exact put_some _ _ _ _ (Or.inr (put_some _ _ _ _ (Or.inl e)))
        · exact put_some _ _ _ _ (Or.inl e)
      · iterate 3 refine put_some _ _ _ _ (Or.inr ?_)
        rcases slot_cover a1 b1 c1 o1 d1 k hk h h' with e | e | e
        · exact put_some _ _ _ _ (Or.inr (put_some _ _ _ _ (Or.inr (put_some _ _ _ _ (Or.inl e)))))
        · exact put_some _ _ _ _ (Or.inr (put_some _ _ _ _ (Or.inl e)))
        · exact put_some _ _ _ _ (Or.inl e)
      · rcases slot_cover a2 b2 c2 o2 d2 k hk h h' with e | e | e
        · exact put_some _ _ _ _ (Or.inr (put_some _ _ _ _ (Or.inr (put_some _ _ _ _ (Or.inl e)))))
        · exact put_some _ _ _ _ (Or.inr (put_some _ _ _ _ (Or.inl e)))
        · exact put_some _ _ _ _ (Or.inl e)
    obtain ⟨e, he⟩ := Option.isSome_iff_exists.mp full
    exact ⟨e, he, A k e he⟩
  · intro k hk
    rcases faces_table o0 o1 o2 o3 ho k hk with ⟨e, e'⟩ | ⟨h, e, e'⟩ | ⟨h, h', e, e'⟩ | ⟨h, h', h'', e, e'⟩
    · exact ⟨f3, by simp, if_pos e, o3, e', h3⟩
    · exact ⟨f2, by simp, (if_neg h).trans (if_pos e), o2, e', h2⟩
    · exact ⟨f1, by simp, (if_neg h).trans ((if_neg h').trans (if_pos e)), o1, e', h1⟩
    · exact ⟨f0, by simp, (if_neg h).trans ((if_neg h').trans ((if_neg h'').trans (if_pos e))), o0, e', h0⟩

/-- a cell whose faces, edges and nodes are stored in a scrambled order: nodes 70 11 32 5, edges are named by their nodes -/
example : let en : Nat × Nat → Nat × Nat := id
    let fe : Nat → (Nat × Nat) × (Nat × Nat) × (Nat × Nat)
      | 0 => ((5, 11), (70, 5), (11, 70)) | 1 => ((32, 5), (5, 11), (11, 32)) | 2 => ((11, 70), (11, 32), (32, 70))
      | _ => ((32, 70), (70, 5), (32, 5))
    let n : Fin 4 → Nat := ![70, 11, 32, 5]
    Function.Injective n ∧ FaceWithout en fe n 0 2 ∧ FaceWithout en fe n 1 0 ∧ FaceWithout en fe n 2 3 ∧
    FaceWithout en fe n 3 1 ∧
    ((collect en fe [70, 11, 32, 5] (0, 1, 2, 3)).map fun c =>
      ((List.range 6).map c.edges, (List.range 4).map c.faces)) =
      some ([some (11, 70), some (32, 70), some (70, 5), some (11, 32), some (5, 11), some (32, 5)],
        [some 2, some 1, some 3, some 0]) := by
  unfold FaceWithout
  decide +kernel

/-- The overload which fills arrays of `Node`, `Edge`, `Face` never writes the last two edges. -/
theorem collectPtr_wrong {N E F : Type} [DecidableEq N] (edgeNodes : E → N × N) (faceEdges : F → E × E × E) (nds : List N)
    (fh : F × F × F × F) (old c : Conn E F) (h : collectPtr edgeNodes faceEdges nds fh old = some c) :
    c.edges 4 = old.edges 4 ∧ c.edges 5 = old.edges 5 := by
  unfold collectPtr at h
  obtain ⟨x, _, rfl⟩ := Option.map_eq_some_iff.mp h
  exact ⟨rfl, rfl⟩

/-! ### C25 -/

theorem idRank_card {T : Type} [LinearOrder T] (g : Fin 4 → T) (i : Fin 4) :
    idRank g i = (Finset.univ.filter fun k => g k < g i).card := rfl

theorem idRank_lt {T : Type} [LinearOrder T] (g : Fin 4 → T) (a b : Fin 4) : g a < g b ↔ idRank g a < idRank g b := by
  have mono : ∀ a b : Fin 4, g a ≤ g b → idRank g a ≤ idRank g b := by
    intro a b h
    rw [idRank_card, idRank_card]
    apply Finset.card_le_card
    intro k hk
    simp only [Finset.mem_filter, Finset.mem_univ, true_and] at hk ⊢
    exact lt_of_lt_of_le hk h
  constructor
  · intro h
    rw [idRank_card, idRank_card]
    apply Finset.card_lt_card
    refine ⟨fun k hk => ?_, fun hs => ?_⟩
    · simp only [Finset.mem_filter, Finset.mem_univ, true_and] at hk ⊢
      exact lt_trans hk h
    · have := hs (Finset.mem_filter.mpr ⟨Finset.mem_univ a, h⟩)
      simp at this
  · intro h
    by_contra hc
    exact absurd (mono b a (not_lt.mp hc)) (not_le.mpr h)

theorem idRank_bound {T : Type} [LinearOrder T] (g : Fin 4 → T) (i : Fin 4) : idRank g i < 4 := by
  rw [idRank_card]
  have : (Finset.univ.filter fun k => g k < g i).card < (Finset.univ : Finset (Fin 4)).card := by
    apply Finset.card_lt_card
    refine ⟨Finset.filter_subset _ _, fun hs => ?_⟩
    have := hs (Finset.mem_univ i)
    simp at this
  simpa using this

/-- the four ranks as a vector -/
def ranks {T : Type} [LinearOrder T] (g : Fin 4 → T) : Fin 4 → Fin 4 := fun i => ⟨idRank g i, idRank_bound g i⟩

theorem createOrder_ranks {T : Type} [LinearOrder T] (g : Fin 4 → T) : createOrder g = createOrder (ranks g) := by
  have : (fun a b => decide (g a < g b)) = (fun a b => decide (ranks g a < ranks g b)) := by
    funext a b
    exact decide_eq_decide.mpr (idRank_lt g a b)
  unfold createOrder
  rw [this]

theorem vec4 {α : Type} (r : Fin 4 → α) : r = ![r 0, r 1, r 2, r 3] := by
  funext i; fin_cases i <;> rfl

theorem order_table : ∀ a b c d : Fin 4, ¬ (a = b ∧ b = c ∧ c = d) → ∃ p ∈ Symmetry.perms,
    createOrder ![a, b, c, d] = some p ∧ ∀ x y : Fin 4, ![a, b, c, d] x < ![a, b, c, d] y → p.getD x 4 < p.getD y 4 := by
  decide +kernel

theorem rank_table : ∀ a b c d : Fin 4, [a, b, c, d].Nodup →
    createOrder ![a, b, c, d] = some [a.val, b.val, c.val, d.val] := by
  decide +kernel

theorem equal_table : ∀ a : Fin 4, createOrder ![a, a, a, a] = none := by decide +kernel

/-- **C25**: for all distinct global ids the result gives every node its rank, the number of nodes with a smaller id. -/
theorem createOrder_rank {T : Type} [LinearOrder T] (g : Fin 4 → T) (hg : Function.Injective g) :
    createOrder g = some (List.ofFn fun i => idRank g i) := by
  have inj : ∀ x y, ranks g x = ranks g y → x = y := by
    intro x y h
    apply hg
    have h : idRank g x = idRank g y := congrArg Fin.val h
    rcases lt_trichotomy (g x) (g y) with l | e | l
    · rw [idRank_lt] at l; omega
    · exact e
    · rw [idRank_lt] at l; omega
  rw [createOrder_ranks, vec4 (ranks g), rank_table]
  · rfl
  · simp only [List.nodup_cons, List.mem_cons, List.not_mem_nil, or_false, not_or, List.nodup_nil, and_true, not_false_eq_true]
    refine ⟨⟨fun h => ?_, fun h => ?_, fun h => ?_⟩, ⟨fun h => ?_, fun h => ?_⟩, fun h => ?_⟩ <;>
      exact absurd (inj _ _ h) (by decide)

example : Function.Injective (![40, -7, 1000000000000, 3] : Fin 4 → Int) ∧
    createOrder (![40, -7, 1000000000000, 3] : Fin 4 → Int) = some [2, 0, 3, 1] := by decide +kernel

/-- **C25** (equal ids, used for faces and edges padded by the largest number, ordering.inl:374-380): if not all four ids
are equal the result is a permutation of 0 1 2 3 which respects the order of the ids. -/
theorem createOrder_weak {T : Type} [LinearOrder T] (g : Fin 4 → T) (hg : ∃ i j, g i ≠ g j) :
    ∃ p, createOrder g = some p ∧ Symmetry.IsPerm p ∧ ∀ x y : Fin 4, g x < g y → p.getD x 4 < p.getD y 4 := by
  rw [createOrder_ranks]
  have hne : ¬ (ranks g 0 = ranks g 1 ∧ ranks g 1 = ranks g 2 ∧ ranks g 2 = ranks g 3) := by
    rintro ⟨e0, e1, e2⟩
    obtain ⟨i, j, hij⟩ := hg
    have all : ∀ x, ranks g x = ranks g 0 := by
      intro x; fin_cases x
      · rfl
      · exact e0.symm
      · exact (e0.trans e1).symm
      · exact (e0.trans (e1.trans e2)).symm
    have e : idRank g i = idRank g j := congrArg Fin.val ((all i).trans (all j).symm)
    rcases lt_trichotomy (g i) (g j) with l | e' | l
    · rw [idRank_lt] at l; omega
    · exact hij e'
    · rw [idRank_lt] at l; omega
  obtain ⟨p, hp, h1, h2⟩ := order_table _ _ _ _ hne
  rw [← vec4 (ranks g)] at h1 h2
  refine ⟨p, h1, ?_, fun x y h => h2 x y ?_⟩
  · have : ∀ p ∈ Symmetry.perms, Symmetry.IsPerm p := by decide +kernel
    exact this p hp
  · exact (idRank_lt g x y).mp h

/-- the padded ids of a face -/
example : createOrder (![12, 5, 9, 100] : Fin 4 → Int) = some [2, 0, 1, 3] ∧
    createOrder (![12, 5, 100, 100] : Fin 4 → Int) = some [1, 0, 3, 2] := by decide +kernel

/-- If all four ids are equal the code reads outside of its table. -/
theorem createOrder_equal {T : Type} [LinearOrder T] (g : Fin 4 → T) (hg : ∀ i, g i = g 0) : createOrder g = none := by
  have : (fun a b => decide (g a < g b)) = (fun a b => decide ((![0, 0, 0, 0] : Fin 4 → Fin 4) a < ![0, 0, 0, 0] b)) := by
    funext a b
    rw [hg a, hg b]
    have : ∀ a b : Fin 4, ¬ (![0, 0, 0, 0] : Fin 4 → Fin 4) a < ![0, 0, 0, 0] b := by decide
    simp [this a b]
  unfold createOrder
  rw [this]
  exact equal_table 0

/-! ### C26: edges -/

/-- the ids of the two nodes of edge `e`, in local order -/
def edgeIds {T : Type} (g : Fin 4 → T) (e : Fin 6) : T × T :=
  (g (![0, 0, 0, 1, 1, 2] e), g (![1, 2, 3, 2, 3, 3] e))

/-- the ids of the three nodes of face `e`, in local order -/
def faceIds {T : Type} (g : Fin 4 → T) (e : Fin 4) : T × T × T := (g e, g (e + 1), g (e + 2))

theorem edge_table : ∀ a b c d : Fin 4, [a, b, c, d].Nodup → ∀ e : Fin 6,
    (isPositive .edge e [a.val, b.val, c.val, d.val] = true ↔
      (edgeIds ![a, b, c, d] e).1 < (edgeIds ![a, b, c, d] e).2) := by
  decide +kernel

theorem face_table : ∀ a b c d : Fin 4, [a, b, c, d].Nodup → ∀ e : Fin 4,
    (![a, b, c, d] (e + 3) < ![a, b, c, d] (e + 2) ↔ ![a, b, c, d] e < ![a, b, c, d] (e + 2)) →
    (isPositive .face e [a.val, b.val, c.val, d.val] = true ↔
      Cyclic (![a, b, c, d] e) (![a, b, c, d] (e + 1)) (![a, b, c, d] (e + 2))) := by
  decide +kernel

theorem cell_table : ∀ a b c d : Fin 4, [a, b, c, d].Nodup →
    (isPositive .cell 0 [a.val, b.val, c.val, d.val] = true ↔ 
      ∃ k : Fin 4, ![a, b, c, d] k < ![a, b, c, d] (k + 1) ∧ ![a, b, c, d] (k + 1) < ![a, b, c, d] (k + 2) ∧
        ![a, b, c, d] (k + 2) < ![a, b, c, d] (k + 3)) := by
  decide +kernel

theorem ranks_nodup {T : Type} [LinearOrder T] (g : Fin 4 → T) (hg : Function.Injective g) :
    [ranks g 0, ranks g 1, ranks g 2, ranks g 3].Nodup := by
  have inj : ∀ x y, ranks g x = ranks g y → x = y := by
    intro x y h
    apply hg
    have h : idRank g x = idRank g y := congrArg Fin.val h
    rcases lt_trichotomy (g x) (g y) with l | e | l
    · rw [idRank_lt] at l; omega
    · exact e
    · rw [idRank_lt] at l; omega
  simp only [List.nodup_cons, List.mem_cons, List.not_mem_nil, or_false, not_or, List.nodup_nil, and_true, not_false_eq_true]
  refine ⟨⟨fun h => ?_, fun h => ?_, fun h => ?_⟩, ⟨fun h => ?_, fun h => ?_⟩, fun h => ?_⟩ <;>
    exact absurd (inj _ _ h) (by decide)

theorem perm_eq {T : Type} [LinearOrder T] (g : Fin 4 → T) (hg : Function.Injective g) (p : List Nat)
    (hp : createOrder g = some p) : p = [(ranks g 0).val, (ranks g 1).val, (ranks g 2).val, (ranks g 3).val] := by
  rw [createOrder_rank g hg] at hp
  exact (Option.some_inj.mp hp).symm

/-- **C26** (meaning of the sign of an edge): the sign is positive exactly if the local direction of the edge goes from the
smaller to the larger global id. -/
theorem edge_sign {T : Type} [LinearOrder T] (g : Fin 4 → T) (hg : Function.Injective g) (p : List Nat)
    (hp : createOrder g = some p) (e : Fin 6) :
    isPositive .edge e p = true ↔ (edgeIds g e).1 < (edgeIds g e).2 := by
  rw [perm_eq g hg p hp, edge_table _ _ _ _ (ranks_nodup g hg) e, ← vec4 (ranks g)]
  exact (idRank_lt g _ _).symm

/-- **C26** (edges): let two cells share an edge (local numbers `e`, `e'`, the same two global ids).  Their signs for it are
equal exactly if they pass the edge in the same direction: both translate to the same global direction. -/
theorem edge_agree {T : Type} [LinearOrder T] (g g' : Fin 4 → T) (hg : Function.Injective g) (hg' : Function.Injective g')
    (p p' : List Nat) (hp : createOrder g = some p) (hp' : createOrder g' = some p') (e e' : Fin 6)
    (hs : IsPair (edgeIds g' e') (edgeIds g e).1 (edgeIds g e).2) :
    isPositive .edge e p = isPositive .edge e' p' ↔ edgeIds g' e' = edgeIds g e := by
  have h1 := edge_sign g hg p hp e
  have h2 := edge_sign g' hg' p' hp' e'
  have hne : (edgeIds g e).1 ≠ (edgeIds g e).2 := by
    intro h
    have : ∀ e : Fin 6, (![0, 0, 0, 1, 1, 2] : Fin 6 → Fin 4) e ≠ ![1, 2, 3, 2, 3, 3] e := by decide
    exact this e (hg h)
  have swapne : ((edgeIds g e).2, (edgeIds g e).1) ≠ edgeIds g e := by
    intro h
    exact hne (congrArg Prod.snd h)
  rcases hs with hs | hs
  · rw [hs] at h2
    constructor
    · intro _; rw [hs]
    · intro _; exact Bool.eq_iff_iff.mpr (h1.trans h2.symm)
  · rw [hs] at h2 ⊢
    constructor
    · intro h
      rw [← h, h1] at h2
      exact absurd h2 (by
        intro hc
        rcases lt_or_gt_of_ne hne with l | l
        · exact absurd (hc.mp l) (not_lt.mpr l.le)
        · exact absurd (hc.mpr l) (not_lt.mpr l.le))
    · intro h; exact absurd h swapne

/-- two cells with ids 17 4 90 8 and 8 30 17 2 share the edge 17-8: places 2 and 1, opposite directions, opposite signs -/
example : edgeIds (![17, 4, 90, 8] : Fin 4 → Nat) 2 = (17, 8) ∧ edgeIds (![8, 30, 17, 2] : Fin 4 → Nat) 1 = (8, 17) ∧
    (createOrder (![17, 4, 90, 8] : Fin 4 → Nat)).map (isPositive .edge 2) = some false ∧
    (createOrder (![8, 30, 17, 2] : Fin 4 → Nat)).map (isPositive .edge 1) = some true := by decide +kernel

/-! ### C26: faces -/

/-- **C26** (meaning of the sign of a face, partial): if the opposite node (`e + 3`) compares with the third node of the
face as the first node does, the sign is positive exactly if the ids of the face are increasing up to a cyclic shift.  The
full claim has no hypothesis on the opposite node; it is false, see `face_sign_wrong`. -/
theorem face_sign_partial {T : Type} [LinearOrder T] (g : Fin 4 → T) (hg : Function.Injective g) (p : List Nat)
    (hp : createOrder g = some p) (e : Fin 4) (h : g (e + 3) < g (e + 2) ↔ g e < g (e + 2)) :
    isPositive .face e p = true ↔ Cyclic (g e) (g (e + 1)) (g (e + 2)) := by
  have ht := face_table _ _ _ _ (ranks_nodup g hg) e
  rw [← vec4 (ranks g)] at ht
  have lt : ∀ x y, ranks g x < ranks g y ↔ g x < g y := fun x y => (idRank_lt g x y).symm
  simp only [Cyclic, lt] at ht ⊢
  rw [perm_eq g hg p hp]
  exact ht h

/-- **C26** (faces, partial): let two cells share a face and satisfy the condition of `face_sign_partial`.  The signs are
equal exactly if both cells run through the ids of the face in the same cyclic direction. -/
theorem face_agree_partial {T : Type} [LinearOrder T] (g g' : Fin 4 → T) (hg : Function.Injective g)
    (hg' : Function.Injective g') (p p' : List Nat) (hp : createOrder g = some p) (hp' : createOrder g' = some p')
    (e e' : Fin 4) (h : g (e + 3) < g (e + 2) ↔ g e < g (e + 2)) (h' : g' (e' + 3) < g' (e' + 2) ↔ g' e' < g' (e' + 2))
    (x y z : T) (hf : faceIds g e = (x, y, z)) 
    (hf' : faceIds g' e' ∈ [(x, y, z), (y, z, x), (z, x, y), (y, x, z), (x, z, y), (z, y, x)]) :
    isPositive .face e p = isPositive .face e' p' ↔ faceIds g' e' ∈ [(x, y, z), (y, z, x), (z, x, y)] := by
  have h1 := face_sign_partial g hg p hp e h
  have h2 := face_sign_partial g' hg' p' hp' e' h'
  have n1 : ∀ e : Fin 4, e ≠ e + 1 ∧ e ≠ e + 2 ∧ e + 1 ≠ e + 2 := by decide
  obtain ⟨a1, a2, a3⟩ := n1 e
  have ex : g e = x := congrArg Prod.fst hf
  have ey : g (e + 1) = y := congrArg (fun t => t.2.1) hf
  have ez : g (e + 2) = z := congrArg (fun t => t.2.2) hf
  have nxy : x ≠ y := by rw [← ex, ← ey]; exact fun c => a1 (hg c)
  have nxz : x ≠ z := by rw [← ex, ← ez]; exact fun c => a2 (hg c)
  have nyz : y ≠ z := by rw [← ey, ← ez]; exact fun c => a3 (hg c)
  rw [ex, ey, ez] at h1
  rw [Bool.eq_iff_iff, h1, h2]
  have e1 : g' e' = (faceIds g' e').1 := rfl
  have e2 : g' (e' + 1) = (faceIds g' e').2.1 := rfl
  have e3 : g' (e' + 2) = (faceIds g' e').2.2 := rfl
  rw [e1, e2, e3]
  generalize faceIds g' e' = F at *
  simp only [List.mem_cons, List.not_mem_nil, or_false] at hf' ⊢
  rcases hf' with rfl | rfl | rfl | rfl | rfl | rfl <;> simp only [Cyclic, Prod.mk.injEq] <;>
    rcases lt_trichotomy x y with a | a | a <;> (try exact absurd a nxy) <;>
    rcases lt_trichotomy x z with b | b | b <;> (try exact absurd b nxz) <;>
    rcases lt_trichotomy y z with c | c | c <;> (try exact absurd c nyz) <;>
    first
      | (exfalso; exact absurd (lt_trans a c) (not_lt.mpr b.le))
      | (exfalso; exact absurd (lt_trans c a) (not_lt.mpr b.le))
      | simp [a, b, c, nxy, nxz, nyz, nxy.symm, nxz.symm, nyz.symm, not_lt.mpr a.le, not_lt.mpr b.le, not_lt.mpr c.le]

/-- two cells with the shared face 10 30 20, passed in opposite directions -/
example : faceIds (![10, 30, 20, 15] : Fin 4 → Nat) 0 = (10, 30, 20) ∧ faceIds (![10, 20, 30, 25] : Fin 4 → Nat) 0 = (10, 20, 30) ∧
    (15 < 20 ↔ 10 < 20) ∧ (25 < 30 ↔ 10 < 30) ∧
    (createOrder (![10, 30, 20, 15] : Fin 4 → Nat)).map (isPositive .face 0) = some false ∧
    (createOrder (![10, 20, 30, 25] : Fin 4 → Nat)).map (isPositive .face 0) = some true := by decide +kernel

/-- Coordinates of the witnesses: node 1 is the origin, 3 and 4 are unit vectors in the plane `z = 0`, 5 lies above it, 2
and 0 lie below. -/
def witness : Nat → Nat → ℚ
  | 3, 1 => 1 | 4, 0 => 1 | 5, 2 => 1 | 2, 2 => -1 | 0, 2 => -1 | _, _ => 0

/-- **C26** fails for faces: the cells with ids 1 3 4 5 and 1 4 3 2 are ordered positively, share face 0 (nodes 1 3 4), lie on
different sides of it and pass it in opposite directions, hence the outward fluxes which RT0 uses as d.o.f. are opposite;
the code gives both the sign minus. -/
theorem face_sign_wrong :
    reorderNodes witness (1, 3, 4, 5) = (1, 3, 4, 5) ∧ reorderNodes witness (1, 4, 3, 2) = (1, 4, 3, 2) ∧
    0 < det3 (witness 1) (witness 3) (witness 4) (witness 5) ∧ det3 (witness 1) (witness 3) (witness 4) (witness 2) < 0 ∧
    (createOrder (![1, 3, 4, 5] : Fin 4 → Nat)).map (isPositive .face 0) = some false ∧
    (createOrder (![1, 4, 3, 2] : Fin 4 → Nat)).map (isPositive .face 0) = some false := by
  decide +kernel

/-- The orientation of the node list of a face relative to the outward normal alternates with the number of the face; even
when the condition of `face_sign_partial` holds, two neighbours which number the common face 0 and 1 get the same sign
though the outward normals are opposite. -/
theorem face_parity_wrong :
    let w := fun n => if n = 2 then witness 5 else witness n
    reorderNodes w (1, 3, 4, 2) = (1, 3, 4, 2) ∧ reorderNodes w (0, 1, 3, 4) = (0, 1, 3, 4) ∧
    0 < det3 (w 1) (w 3) (w 4) (w 2) ∧ det3 (w 1) (w 3) (w 4) (w 0) < 0 ∧
    (2 < 4 ↔ 1 < 4) ∧ (0 < 4 ↔ 1 < 4) ∧
    (createOrder (![1, 3, 4, 2] : Fin 4 → Nat)).map (isPositive .face 0) = some true ∧
    (createOrder (![0, 1, 3, 4] : Fin 4 → Nat)).map (isPositive .face 1) = some true := by
  decide +kernel

/-- The sign of a cell (not used by the assembler) tells whether the ids increase up to a cyclic shift; this is not an
orientation: the cyclic shift by one changes the orientation and keeps the answer. -/
theorem cell_sign {T : Type} [LinearOrder T] (g : Fin 4 → T) (hg : Function.Injective g) (p : List Nat)
    (hp : createOrder g = some p) :
    isPositive .cell 0 p = true ↔ ∃ k : Fin 4, g k < g (k + 1) ∧ g (k + 1) < g (k + 2) ∧ g (k + 2) < g (k + 3) := by
  have ht := cell_table _ _ _ _ (ranks_nodup g hg)
  rw [← vec4 (ranks g)] at ht
  have lt : ∀ x y, ranks g x < ranks g y ↔ g x < g y := fun x y => (idRank_lt g x y).symm
  simp only [lt] at ht
  rw [perm_eq g hg p hp]
  exact ht

example : (createOrder (![7, 9, 2, 5] : Fin 4 → Nat)).map (isPositive .cell 0) = some true ∧
    (createOrder (![9, 2, 5, 7] : Fin 4 → Nat)).map (isPositive .cell 0) = some true := by decide +kernel

/-! ### C26: renumbering inside of an element -/

/-- the entry of the local array filled by the assembler holds a number whose renumbering is this entry -/
theorem assembleAt_sound {d e : Nat} {ms p : List Nat} {n i j : Nat} (h : assembleAt d e ms p n i = some j) :
    j < n ∧ Symmetry.reorder d e ms p j = some i := by
  unfold assembleAt at h
  have key : ∀ l : List Nat, ∀ r0 : Option Nat,
      l.foldl (fun r leid => if assembleEntry d e ms p leid = some i then some leid else r) r0 = some j →
      r0 = some j ∨ (j ∈ l ∧ Symmetry.reorder d e ms p j = some i) := by
    intro l
    induction l with
    | nil => intro r0 h; exact Or.inl h
    | cons x l ih =>
      intro r0 h
      rw [List.foldl_cons] at h
      rcases ih _ h with h | ⟨h1, h2⟩
      · split at h
        · rename_i hx
          cases h
          exact Or.inr ⟨by simp, hx⟩
        · exact Or.inl h
      · exact Or.inr ⟨by simp [h1], h2⟩
  rcases key _ _ h with h | ⟨h1, h2⟩
  · cases h
  · exact ⟨List.mem_range.mp h1, h2⟩

theorem assembleAt_some {d e : Nat} {ms p : List Nat} {n i j : Nat} (hj : j < n) (h : Symmetry.reorder d e ms p j = some i) :
    (assembleAt d e ms p n i).isSome := by
  unfold assembleAt
  have keep : ∀ l : List Nat, ∀ r0 : Option Nat, r0.isSome →
      (l.foldl (fun r leid => if assembleEntry d e ms p leid = some i then some leid else r) r0).isSome := by
    intro l
    induction l with
    | nil => intro r0 h; exact h
    | cons x l ih =>
      intro r0 h
      rw [List.foldl_cons]
      apply ih
      split <;> simp [h]
  obtain ⟨l1, l2, hl⟩ := List.append_of_mem (List.mem_range.mpr hj)
  rw [hl, List.foldl_append, List.foldl_cons]
  apply keep
  have : assembleEntry d e ms p j = some i := h
  rw [if_pos this]
  rfl

open Symmetry in
/-- `local_node_index`: the node of place `localIdx k` gets the canonical number `k`-th in the list, the result is again a
numbering. -/
theorem placeNodes_correct (q p : List Nat) (hq : IsPerm q) (hp : IsPerm p) :
    IsPerm (placeNodes q p) ∧ ∀ k, k < 4 → at' (placeNodes q p) (at' q k) = at' p k := by
  have t : ∀ q ∈ perms, ∀ p ∈ perms, IsPerm (placeNodes q p) ∧ ∀ k, k < 4 → at' (placeNodes q p) (at' q k) = at' p k := by
    decide +kernel
  exact t q (mem_perms hq) p (mem_perms hp)

example : placeNodes [2, 0, 3, 1] [0, 1, 2, 3] = [1, 3, 0, 2] := by decide

open Symmetry in
/-- **C26** (d.o.f.s inside of an element, partial): `getDOFLocus` reads d.o.f. `i` of the element from place
`locusIndex i` (which is the right one, `Symmetry.index_agree`); the assembler agrees with it whenever the renumbering of
every group is its own inverse. -/
theorem assemble_agrees_partial (p : List Nat) (hp : IsPerm p) (d e : Nat) (hd : d < 4) (he : e < elements d) (ms : List Nat)
    (hms : ms.length = groups d)
    (hinv : ∀ s i j, s < groups d → i < volume d s → index d e s i p = some j → index d e s j p = some i)
    (i : Nat) (hi : i < before d ms ms.length) :
    assembleAt d e ms p (before d ms ms.length) i = locusIndex d e ms p i ∧ (locusIndex d e ms p i).isSome := by
  obtain ⟨h1, h2⟩ := reorder_bijective p hp d e hd he ms hms
  obtain ⟨j, hj, hji⟩ := h2 i hi
  obtain ⟨j', hj'⟩ := Option.isSome_iff_exists.mp (assembleAt_some hj hji)
  obtain ⟨hlt, hre⟩ := assembleAt_sound hj'
  obtain ⟨a1, a2, c, hc, a3⟩ := locSym_spec d ms j' hlt
  have hback : reorder d e ms p i = some j' := by
    unfold reorder at hre
    obtain ⟨t, ht, hti⟩ := Option.map_eq_some_iff.mp hre
    have hlt' : t < volume d (locSym d ms j').1 := by
      obtain ⟨u, hu, hu', _⟩ := index_correct p hp d e _ _ hd he (hms ▸ a1) a2
      rw [hu'] at ht; cases ht; exact hu
    have hi' : i = before d ms (locSym d ms j').1 + volume d (locSym d ms j').1 * c + t := by omega
    have hl := (locSym_unique d ms _ c t a1 hc hlt').2
    rw [← hi'] at hl
    unfold reorder
    rw [hl]
    simp only
    rw [hinv _ _ _ (hms ▸ a1) a2 ht]
    simp only [Option.map_some]
    congr 1
    omega
  unfold locusIndex
  rw [hj', hback]
  exact ⟨rfl, rfl⟩

open Symmetry in
/-- the condition always holds on nodes and edges -/
theorem edge_involution (p : List Nat) (hp : IsPerm p) (d e : Nat) (hd : d < 2) (he : e < elements d) :
    ∀ s i j, s < groups d → i < volume d s → index d e s i p = some j → index d e s j p = some i := by
  have t : ∀ p ∈ perms, ∀ d, d < 2 → ∀ e, e < elements d → ∀ s, s < groups d → ∀ i, i < volume d s →
      (index d e s i p).bind (fun j => index d e s j p) = some i := by decide +kernel
  intro s i j hs hi h
  have := t p (mem_perms hp) d hd e he s hs i hi
  rw [h] at this
  exact this

open Symmetry in
/-- **C26** (nodes and edges, all symmetry structures): the assembler and `getDOFLocus` agree. -/
theorem assemble_agrees_edge (p : List Nat) (hp : IsPerm p) (d e : Nat) (hd : d < 2) (he : e < elements d) (ms : List Nat)
    (hms : ms.length = groups d) (i : Nat) (hi : i < before d ms ms.length) :
    assembleAt d e ms p (before d ms ms.length) i = locusIndex d e ms p i ∧ (locusIndex d e ms p i).isSome :=
  assemble_agrees_partial p hp d e (by omega) he ms hms (edge_involution p hp d e hd he) i hi

/-- P3-like edges: one pair of symmetric d.o.f.s, edge 3, decreasing node order -/
example : assembleAt 1 3 [1, 1] [3, 2, 1, 0] 3 1 = some 2 ∧ locusIndex 1 3 [1, 1] [3, 2, 1, 0] 1 = some 2 := by decide

/-- **C26** fails for the groups S3, S6 on faces and S4, ... on cells: a face with one S3 group (three d.o.f.s, one near each
vertex) shared by a cell with node order 0 1 2 3 and a cell with order 1 2 0 3.  D.o.f. 1 of the first and d.o.f. 0 of the
second are near the same vertex (the one with the second smallest id); `getDOFLocus` gives both the place 1, the assembler
gives the places 1 and 2: it applies the inverse of the renumbering. -/
theorem assemble_wrong :
    Symmetry.at' [0, 1, 2, 3] 1 = Symmetry.at' [1, 2, 0, 3] 0 ∧
    locusIndex 2 0 [0, 1, 0] [0, 1, 2, 3] 1 = some 1 ∧ locusIndex 2 0 [0, 1, 0] [1, 2, 0, 3] 0 = some 1 ∧
    assembleAt 2 0 [0, 1, 0] [0, 1, 2, 3] 3 1 = some 1 ∧ assembleAt 2 0 [0, 1, 0] [1, 2, 0, 3] 3 0 = some 2 := by
  decide

end Verif.Ordering
