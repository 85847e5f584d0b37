import Verif.Model.Diffusion
import Verif.Lemmas.Diffusion
import Verif.Props.DofMap
import Verif.Props.Dirichlet
import Verif.Props.GeomIter

/-!
C66: the elemental systems of `solve_stationary_diffusion`, added up over the cells, are the equations of the method.
-/
namespace Verif.Diffusion

open Verif.Dense Verif.DofMap Verif.Sparsity Verif.GeomIter Verif.Dirichlet Finset

/-! ### The marks -/

theorem getLsbD_bit {i j : Nat} (hj : j < 8) : (bit i).getLsbD j = decide (i = j) := by
  unfold bit
  simp only [BitVec.getLsbD_shiftLeft, hj, decide_true, Bool.true_and]
  by_cases h : i = j
  · subst h; simp
  · by_cases h2 : j < i
    · simp [h2, h]
    · simp [h2, h]; omega

private theorem markNodes_spec (p : Nat → Bool) (n : Nat) (s : Sp) (j : Nat) (hj : j < 8) :
    let r := (List.range n).foldl (fun s i => if p i then s.setNode i else s) s
    r.nodes.getLsbD j = (s.nodes.getLsbD j || (decide (j < n) && p j)) ∧ r.edges = s.edges ∧ r.faces = s.faces ∧ r.cells = s.cells := by
  induction n with
  | zero => simp
  | succ n ih =>
    rw [List.range_succ, List.foldl_append]
    obtain ⟨h1, h2, h3, h4⟩ := ih
    simp only [List.foldl_cons, List.foldl_nil]
    by_cases hp : p n = true
    · rw [if_pos hp]
      refine ⟨?_, h2, h3, h4⟩
      show (_ ||| bit n).getLsbD j = _
      rw [BitVec.getLsbD_or, h1, getLsbD_bit hj]
      by_cases hjn : n = j
      · subst hjn; simp [hp]
      · have : (j < n + 1) = (j < n) := by rw [eq_iff_iff]; omega
        simp [hjn, this]
    · rw [if_neg hp]
      refine ⟨?_, h2, h3, h4⟩
      rw [h1]
      by_cases hjn : n = j
      · subst hjn; simp [hp]
      · have : (j < n + 1) = (j < n) := by rw [eq_iff_iff]; omega
        simp [this]

private theorem markEdges_spec (p : Nat → Bool) (n : Nat) (s : Sp) (j : Nat) (hj : j < 8) :
    let r := (List.range n).foldl (fun s i => if p i then s.setEdge i false else s) s
    r.edges.getLsbD j = (s.edges.getLsbD j || (decide (j < n) && p j)) ∧ r.nodes = s.nodes ∧ r.faces = s.faces ∧ r.cells = s.cells := by
  induction n with
  | zero => simp
  | succ n ih =>
    rw [List.range_succ, List.foldl_append]
    obtain ⟨h1, h2, h3, h4⟩ := ih
    simp only [List.foldl_cons, List.foldl_nil]
    by_cases hp : p n = true
    · rw [if_pos hp]
      refine ⟨?_, h2, h3, h4⟩
      show (_ ||| bit n).getLsbD j = _
      rw [BitVec.getLsbD_or, h1, getLsbD_bit hj]
      by_cases hjn : n = j
      · subst hjn; simp [hp]
      · have : (j < n + 1) = (j < n) := by rw [eq_iff_iff]; omega
        simp [hjn, this]
    · rw [if_neg hp]
      refine ⟨?_, h2, h3, h4⟩
      rw [h1]
      by_cases hjn : n = j
      · subst hjn; simp [hp]
      · have : (j < n + 1) = (j < n) := by rw [eq_iff_iff]; omega
        simp [this]

private theorem markFaces_spec (p q : Nat → Bool) (n : Nat) (r0 : Sp × BitVec 8) (j : Nat) (hj : j < 8) :
    let r := (List.range n).foldl (fun r i => if p i then (r.1.setFace i false, r.2) else if q i then (r.1, r.2 ||| bit i) else r) r0
    r.1.faces.getLsbD j = (r0.1.faces.getLsbD j || (decide (j < n) && p j)) ∧
      r.2.getLsbD j = (r0.2.getLsbD j || (decide (j < n) && (!p j && q j))) ∧
      r.1.nodes = r0.1.nodes ∧ r.1.edges = r0.1.edges ∧ r.1.cells = r0.1.cells := by
  induction n with
  | zero => simp
  | succ n ih =>
    rw [List.range_succ, List.foldl_append]
    obtain ⟨h1, h2, h3, h4, h5⟩ := ih
    simp only [List.foldl_cons, List.foldl_nil]
    have hlt : n ≠ j → (j < n + 1) = (j < n) := fun h => by rw [eq_iff_iff]; omega
    by_cases hp : p n = true
    · rw [if_pos hp]
      refine ⟨?_, ?_, h3, h4, h5⟩
      · show (_ ||| bit n).getLsbD j = _
        rw [BitVec.getLsbD_or, h1, getLsbD_bit hj]
        by_cases hjn : n = j
        · subst hjn; simp [hp]
        · simp [hjn, hlt hjn]
      · show (_ : BitVec 8).getLsbD j = _
        rw [h2]
        by_cases hjn : n = j
        · subst hjn; simp [hp]
        · simp [hlt hjn]
    · rw [if_neg hp]
      by_cases hq : q n = true
      · rw [if_pos hq]
        refine ⟨?_, ?_, h3, h4, h5⟩
        · show (_ : BitVec 8).getLsbD j = _
          rw [h1]
          by_cases hjn : n = j
          · subst hjn; simp [hp]
          · simp [hlt hjn]
        · show (_ ||| bit n).getLsbD j = _
          rw [BitVec.getLsbD_or, h2, getLsbD_bit hj]
          by_cases hjn : n = j
          · subst hjn; simp [hp, hq]
          · simp [hjn, hlt hjn]
      · rw [if_neg hq]
        refine ⟨?_, ?_, h3, h4, h5⟩
        · rw [h1]
          by_cases hjn : n = j
          · subst hjn; simp [hp]
          · simp [hlt hjn]
        · rw [h2]
          by_cases hjn : n = j
          · subst hjn; simp [hq]
          · simp [hlt hjn]

/-- **C66**: the marked elements are exactly those with a Dirichlet condition, among the dimensions where the space has d.o.f.s. -/
theorem gather_dirichlet (o : Obj) (isDir : Nat → Nat → Bool) (bnd : Nat → Bool) {d : Nat} (hd : d < 4) (i : Nat) :
    (gather o isDir bnd).1.has d i = true ↔ compact o d ≠ 0 ∧ i < Diffusion.elems d ∧ isDir d i = true := by
  by_cases h8 : i < 8
  swap
  · have h1 : ∀ b : BitVec 8, b.getLsbD i = false := fun b => BitVec.getLsbD_of_ge b i (by omega)
    unfold Sp.has
    rw [h1]
    have : ¬ i < Diffusion.elems d := by interval_cases d <;> simp [Diffusion.elems] <;> omega
    simp [this]
  have hN := fun s => markNodes_spec (isDir 0) 4 s i h8
  have hE := fun s => markEdges_spec (isDir 1) 6 s i h8
  have hF := fun r => markFaces_spec (isDir 2) bnd 4 r i h8
  have h0 : (0 : BitVec 8).getLsbD i = false := by simp
  unfold gather
  simp only
  set s1 := if compact o 0 ≠ 0 then markNodes (isDir 0) Sp.none else Sp.none with e1
  set s2 := if compact o 1 ≠ 0 then markEdges (isDir 1) s1 else s1 with e2
  set r3 := if compact o 2 ≠ 0 then markFaces (isDir 2) bnd (s2, 0) else (s2, 0) with e3
  have a1 : s1.nodes.getLsbD i = (decide (compact o 0 ≠ 0) && (decide (i < 4) && isDir 0 i)) ∧ s1.edges = 0 ∧ s1.faces = 0 ∧ s1.cells = 0 := by
    rw [e1]
    split
    · rename_i h
      obtain ⟨q1, q2, q3, q4⟩ := hN Sp.none
      refine ⟨?_, q2, q3, q4⟩
      show _ = _
      rw [markNodes, q1]
      simp [Sp.none, h]
    · rename_i h
      simp only [not_not] at h
      simp [Sp.none, h]
  have a2 : s2.edges.getLsbD i = (decide (compact o 1 ≠ 0) && (decide (i < 6) && isDir 1 i)) ∧ s2.nodes = s1.nodes ∧ s2.faces = 0 ∧ s2.cells = 0 := by
    rw [e2]
    split
    · rename_i h
      obtain ⟨q1, q2, q3, q4⟩ := hE s1
      refine ⟨?_, q2, q3.trans a1.2.2.1, q4.trans a1.2.2.2⟩
      rw [markEdges, q1, a1.2.1]
      simp [h]
    · rename_i h
      simp only [not_not] at h
      simp [a1, h]
  have a3 : r3.1.faces.getLsbD i = (decide (compact o 2 ≠ 0) && (decide (i < 4) && isDir 2 i)) ∧ r3.1.nodes = s1.nodes ∧ r3.1.edges = s2.edges ∧
      r3.1.cells = 0 := by
    rw [e3]
    split
    · rename_i h
      obtain ⟨q1, -, q2, q3, q4⟩ := hF (s2, 0)
      refine ⟨?_, q2.trans a2.2.1, q3, q4.trans a2.2.2.2⟩
      rw [markFaces, q1, a2.2.2.1]
      simp [h]
    · rename_i h
      simp only [not_not] at h
      simp [a2, h]
  have hfin : ∀ r : Sp × BitVec 8, r = (if compact o 3 ≠ 0 ∧ isDir 3 0 = true then (r3.1.setCell false, r3.2) else r3) →
      r.1.nodes = s1.nodes ∧ r.1.edges = s2.edges ∧ r.1.faces = r3.1.faces ∧
        (r.1.cells.getLsbD i = true ↔ compact o 3 ≠ 0 ∧ i < 1 ∧ isDir 3 0 = true) := by
    intro r hr
    rw [hr]
    split
    · rename_i h
      refine ⟨a3.2.1, a3.2.2.1, rfl, ?_⟩
      show (bit 0).getLsbD i = true ↔ _
      rw [getLsbD_bit h8]
      simp only [decide_eq_true_eq]
      constructor
      · rintro rfl; exact ⟨h.1, by omega, h.2⟩
      · intro h'; omega
    · rename_i h
      refine ⟨a3.2.1, a3.2.2.1, rfl, ?_⟩
      rw [a3.2.2.2, h0]
      simp only [Bool.false_eq_true, false_iff]
      exact fun h' => h ⟨h'.1, h'.2.2⟩
  obtain ⟨f1, f2, f3, f4⟩ := hfin _ rfl
  interval_cases d
  · show (BitVec.getLsbD (Sp.nodes _) i) = true ↔ _
    rw [f1, a1.1]; simp [Diffusion.elems, and_assoc]
  · show (BitVec.getLsbD (Sp.edges _) i) = true ↔ _
    rw [f2, a2.1]; simp [Diffusion.elems, and_assoc]
  · show (BitVec.getLsbD (Sp.faces _) i) = true ↔ _
    rw [f3, a3.1]; simp [Diffusion.elems, and_assoc]
  · show (BitVec.getLsbD (Sp.cells _) i) = true ↔ _
    rw [f4]
    constructor
    · rintro ⟨q1, q2, q3⟩
      obtain rfl : i = 0 := by omega
      exact ⟨q1, q2, q3⟩
    · rintro ⟨q1, q2, q3⟩
      have : i = 0 := by simp [Diffusion.elems] at q2; exact q2
      subst this
      exact ⟨q1, by omega, q3⟩

/-- **C66** (partial: only for spaces with d.o.f.s on the sides, see `neumann_ignored_wrong`): a side gets a Neumann condition exactly if it
lies on the boundary and has no Dirichlet condition. -/
theorem gather_neumann_partial (o : Obj) (isDir : Nat → Nat → Bool) (bnd : Nat → Bool) (ho : compact o 2 ≠ 0) {i : Nat} (hi : i < 4) :
    (gather o isDir bnd).2.getLsbD i = true ↔ bnd i = true ∧ isDir 2 i = false := by
  have hF := fun r => (markFaces_spec (isDir 2) bnd 4 r i (by omega)).2.1
  have e : (gather o isDir bnd).2 = (markFaces (isDir 2) bnd ((if compact o 1 ≠ 0 then markEdges (isDir 1)
      (if compact o 0 ≠ 0 then markNodes (isDir 0) Sp.none else Sp.none) else (if compact o 0 ≠ 0 then markNodes (isDir 0) Sp.none else Sp.none)), 0)).2 := by
    unfold gather
    simp only [if_pos ho]
    split <;> rfl
  rw [e, markFaces, hF]
  simp [hi, and_comm]

/-- **C66** fails: a space without d.o.f.s on the sides, e.g. P1 or P2, gets no Neumann condition at all. -/
theorem neumann_none_wrong (o : Obj) (isDir : Nat → Nat → Bool) (bnd : Nat → Bool) (ho : compact o 2 = 0) : (gather o isDir bnd).2 = 0 := by
  unfold gather
  simp only [ho, ne_eq, not_true_eq_false, if_false]
  split <;> rfl

variable {K : Type} [Field K]

/-! ### The elemental system -/

theorem addVec_eq (n : Nat) (G F : Nat → K) {i : Nat} (hi : i < n) : addVec n G F i = F i + G i := by
  unfold addVec
  exact loop_wr_at (fun i => i) (fun i F => F i + G i) (fun i y => y + G i) (fun _ _ _ => rfl) (fun _ _ _ _ h => h) hi

theorem addSides_eq (n : Nat) (G : Nat → Nat → K) (neu : BitVec 8) (F : Nat → K) {i : Nat} (hi : i < n) :
    addSides n G neu F i = F i + ∑ k ∈ range 4, if neu.getLsbD k then G k i else 0 := by
  have step : ∀ k (F : Nat → K), (if neu.getLsbD k then addVec n (G k) F else F) i = F i + if neu.getLsbD k then G k i else 0 := by
    intro k F
    split
    · exact addVec_eq n _ _ hi
    · rw [add_zero]
  unfold addSides
  exact loop_add_at 4 (fun k => if neu.getLsbD k then G k i else 0) fun k F _ => step k F

/-- The rows after the conditions: the equation of a Dirichlet d.o.f. is its value, the others lose the terms of the known values. -/
theorem dirByDofs_row (n : Nat) (val : Nat → K) (x : Nat → K) {i : Nat} (hi : i < n) : ∀ (gids : List Nat) (s : (Nat → K) × (Nat → K)), gids.Nodup →
    (∀ g ∈ gids, g < n) → lhs n n (dirByDofs n gids val s).1 x i - (dirByDofs n gids val s).2 i =
      if i ∈ gids then x i - val i else lhs n n s.1 x i - s.2 i - (gids.map fun g => ent n s.1 i g * (x g - val g)).sum
  | [], s, _, _ => by simp [dirByDofs]
  | c :: l, s, hd, hn => by
    rw [List.nodup_cons] at hd
    have hc := hn c (by simp)
    have ih := dirByDofs_row n val x hi l (dir n n s (c, val c)) hd.2 fun g hg => hn g (by simp [hg])
    have e : dirByDofs n (c :: l) val s = dirByDofs n l val (dir n n s (c, val c)) := rfl
    rw [e, ih]
    by_cases hil : i ∈ l
    · rw [if_pos hil, if_pos (by simp [hil])]
    rw [if_neg hil]
    have e1 : (dir n n s (c, val c)).1 = dirMatrix n n s.1 c := rfl
    rw [e1, lhs_dirMatrix n n s.1 x hc hc i hi, dir_rhs]
    by_cases hic : i = c
    · subst hic
      rw [if_pos rfl, if_pos rfl, if_pos (by simp)]
      have : (l.map fun g => ent n (dirMatrix n n s.1 i) i g * (x g - val g)) = l.map fun _ => 0 := by
        refine List.map_congr_left fun g hg => ?_
        have hgi : g ≠ i := fun h => hd.1 (h ▸ hg)
        rw [dirMatrix_ent n n s.1 hc i g hi (hn g (by simp [hg])), if_neg (fun h => hgi h.2), if_pos (Or.inl rfl), zero_mul]
      rw [this]; simp
    · rw [if_neg hic, if_neg hic, if_pos hi, if_neg (by simp [hic, hil])]
      have : (l.map fun g => ent n (dirMatrix n n s.1 c) i g * (x g - val g)) = l.map fun g => ent n s.1 i g * (x g - val g) := by
        refine List.map_congr_left fun g hg => ?_
        have hgi : g ≠ c := fun h => hd.1 (h ▸ hg)
        rw [dirMatrix_ent n n s.1 hc i g hi (hn g (by simp [hg])), if_neg (fun h => hic h.1), if_neg (by simp [hic, hgi])]
      rw [this, List.map_cons, List.sum_cons]
      ring

/-! ### The assembled system -/

/-- **C66**: a vector solves the system assembled from the elemental systems exactly if it has the Dirichlet values and satisfies, for all other
d.o.f.s, the equations assembled from the elemental matrices, the loads and the loads of the Neumann sides. -/
theorem assembled_iff [CharZero K] {C γ : Type} [Fintype C] [DecidableEq γ] (n : Nat) (loc : C → Nat → γ) (D : γ → Prop) [DecidablePred D] (v : γ → K)
    (A F : C → Nat → K) (G : C → Nat → Nat → K) (neu : C → BitVec 8) (gids : C → List Nat) (val : C → Nat → K)
    (hnd : ∀ c, (gids c).Nodup) (hlt : ∀ c, ∀ g ∈ gids c, g < n)
    (hD : ∀ c k, k < n → (k ∈ gids c ↔ D (loc c k))) (hv : ∀ c k, k < n → D (loc c k) → val c k = v (loc c k)) (x : γ → K) :
    (∀ i, Diffusion.total n loc (fun c k => lhs n n (localSys n (A c) (F c) (G c) (neu c) (gids c) (val c)).1 (fun j => x (loc c j)) k) i =
        Diffusion.total n loc (fun c k => (localSys n (A c) (F c) (G c) (neu c) (gids c) (val c)).2 k) i) ↔
      (∀ i, D i → (∃ c k, k < n ∧ loc c k = i) → x i = v i) ∧
        ∀ i, ¬ D i → Diffusion.total n loc (fun c k => lhs n n (A c) (fun j => x (loc c j)) k) i =
          Diffusion.total n loc (fun c k => F c k + ∑ s ∈ range 4, if (neu c).getLsbD s then G c s k else 0) i := by
  have hrow : ∀ c k, k < n → lhs n n (localSys n (A c) (F c) (G c) (neu c) (gids c) (val c)).1 (fun j => x (loc c j)) k -
      (localSys n (A c) (F c) (G c) (neu c) (gids c) (val c)).2 k = if D (loc c k) then x (loc c k) - v (loc c k) else
        lhs n n (A c) (fun j => x (loc c j)) k - (F c k + ∑ s ∈ range 4, if (neu c).getLsbD s then G c s k else 0) -
          ((gids c).map fun g => ent n (A c) k g * (x (loc c g) - v (loc c g))).sum := by
    intro c k hk
    unfold localSys
    rw [dirByDofs_row n (val c) _ hk (gids c) _ (hnd c) (hlt c)]
    dsimp only
    rw [addSides_eq n _ _ _ hk]
    by_cases hDk : D (loc c k)
    · rw [if_pos hDk, if_pos ((hD c k hk).2 hDk), hv c k hk hDk]
    · rw [if_neg hDk, if_neg fun h => hDk ((hD c k hk).1 h)]
      congr 2
      refine List.map_congr_left fun g hg => ?_
      rw [hv c g (hlt c g hg) ((hD c g (hlt c g hg)).1 hg)]
  have htot : ∀ (p q : C → Nat → K) i, Diffusion.total n loc p i - Diffusion.total n loc q i = Diffusion.total n loc (fun c k => p c k - q c k) i := by
    intro p q i
    unfold Diffusion.total
    rw [← sum_sub_distrib]
    refine sum_congr rfl fun c _ => ?_
    rw [← sum_sub_distrib]
    exact sum_congr rfl fun k _ => by split_ifs <;> simp
  have hcong : ∀ (p q : C → Nat → K) i, (∀ c k, k < n → loc c k = i → p c k = q c k) → Diffusion.total n loc p i = Diffusion.total n loc q i := by
    intro p q i h
    refine sum_congr rfl fun c _ => sum_congr rfl fun k hk => ?_
    split_ifs with h'
    · exact h c k (mem_range.1 hk) h'
    · rfl
  -- the equation of a Dirichlet d.o.f.
  have hDrow : ∀ i, D i → Diffusion.total n loc (fun c k => lhs n n (localSys n (A c) (F c) (G c) (neu c) (gids c) (val c)).1 (fun j => x (loc c j)) k -
      (localSys n (A c) (F c) (G c) (neu c) (gids c) (val c)).2 k) i =
      ((∑ c, ∑ k ∈ range n, if loc c k = i then 1 else 0 : Nat) : K) * (x i - v i) := by
    intro i hi
    rw [hcong _ (fun c k => x i - v i) i fun c k hk hki => by rw [hrow c k hk, hki, if_pos hi]]
    unfold Diffusion.total
    push_cast
    rw [sum_mul]
    refine sum_congr rfl fun c _ => ?_
    rw [sum_mul]
    exact sum_congr rfl fun k _ => by split_ifs <;> simp
  have hcount : ∀ i, (∃ c k, k < n ∧ loc c k = i) → (∑ c, ∑ k ∈ range n, if loc c k = i then 1 else 0 : Nat) ≠ 0 := by
    rintro i ⟨c, k, hk, h⟩ h0
    have h1 := (sum_eq_zero_iff.1 h0) c (mem_univ _)
    have h2 := (sum_eq_zero_iff.1 h1) k (mem_range.2 hk)
    rw [if_pos h] at h2
    exact one_ne_zero h2
  -- the equation of another d.o.f. when the Dirichlet values are right
  have hfree : (∀ i, D i → (∃ c k, k < n ∧ loc c k = i) → x i = v i) → ∀ i, ¬ D i →
      Diffusion.total n loc (fun c k => lhs n n (localSys n (A c) (F c) (G c) (neu c) (gids c) (val c)).1 (fun j => x (loc c j)) k -
        (localSys n (A c) (F c) (G c) (neu c) (gids c) (val c)).2 k) i =
      Diffusion.total n loc (fun c k => lhs n n (A c) (fun j => x (loc c j)) k - (F c k + ∑ s ∈ range 4, if (neu c).getLsbD s then G c s k else 0)) i := by
    intro hx i hi
    refine hcong _ _ i fun c k hk hki => ?_
    rw [hrow c k hk, hki, if_neg hi]
    have : ((gids c).map fun g => ent n (A c) k g * (x (loc c g) - v (loc c g))) = (gids c).map fun _ => 0 := by
      refine List.map_congr_left fun g hg => ?_
      rw [hx _ ((hD c g (hlt c g hg)).1 hg) ⟨c, g, hlt c g hg, rfl⟩, sub_self, mul_zero]
    rw [this]; simp
  constructor
  · intro h
    have hx : ∀ i, D i → (∃ c k, k < n ∧ loc c k = i) → x i = v i := by
      intro i hi hex
      have h1 := hDrow i hi
      rw [← htot, h i, sub_self] at h1
      rcases mul_eq_zero.1 h1.symm with h2 | h2
      · exact absurd (Nat.cast_eq_zero.1 h2) (hcount i hex)
      · exact sub_eq_zero.1 h2
    refine ⟨hx, fun i hi => ?_⟩
    have h1 := hfree hx i hi
    rw [← htot, ← htot, h i, sub_self] at h1
    exact sub_eq_zero.1 h1.symm
  · rintro ⟨hx, h⟩ i
    rw [← sub_eq_zero, htot]
    by_cases hi : D i
    · rw [hDrow i hi]
      by_cases hex : ∃ c k, k < n ∧ loc c k = i
      · rw [hx i hi hex, sub_self, mul_zero]
      · have : (∑ c, ∑ k ∈ range n, if loc c k = i then 1 else 0 : Nat) = 0 := by
          refine sum_eq_zero fun c _ => sum_eq_zero fun k hk => if_neg fun h' => hex ⟨c, k, mem_range.1 hk, h'⟩
        rw [this, Nat.cast_zero, zero_mul]
    · rw [hfree hx i hi, ← htot, h i hi, sub_self]

/-- **C66** fails: for a space without d.o.f.s on the sides the elemental system does not depend on the Neumann data. -/
theorem neumann_ignored_wrong (o : Obj) (isDir : Nat → Nat → Bool) (bnd : Nat → Bool) (ho : compact o 2 = 0) (n : Nat) (A F : Nat → K)
    (G G' : Nat → Nat → K) (gids : List Nat) (val : Nat → K) :
    localSys n A F G (gather o isDir bnd).2 gids val = localSys n A F G' (gather o isDir bnd).2 gids val := by
  rw [neumann_none_wrong o isDir bnd ho]
  unfold localSys addSides
  simp

/-! ### The Dirichlet d.o.f.s -/

/-- **C66**: the iteration of `applyDirByDofs` and of the loop over the values meets exactly the d.o.f.s of the cell that sit on elements with a
Dirichlet condition, each one once; for all maps for which the iteration is right (C11), in particular for all primitive spaces. -/
theorem dirichlet_dofs (t : Tree) (isDir : Nat → Nat → Bool) (bnd : Nat → Bool) (ht : Regular (gather t.obj isDir bnd).1 t) :
    ∃ L, Meets ((iter t).start false (gather t.obj isDir bnd).1) ((iter t).next false (gather t.obj isDir bnd).1) L ∧
      (L.map (·.1)).Nodup ∧ ∀ k, k ∈ L.map (·.1) ↔ k < t.obj.numTet ∧ isDir (dimension (t.obj.locate k).num) (t.obj.locate k).nelem = true := by
  have hwf : Wf (gather t.obj isDir bnd).1 := by
    intro d hd i hi
    have h := ((gather_dirichlet t.obj isDir bnd hd i).1 hi).2.1
    interval_cases d <;> exact h
  obtain ⟨L, hL, hl, -⟩ := iterate_partial t _ hwf ht
  have hb := (tree_numbering t).2
  refine ⟨L, hL, ?_, fun k => ?_⟩
  · refine List.Nodup.map_on (fun x hx y hy hxy => ?_) hl.once
    have h1 := (hl.sound x hx).2.1
    have h2 := (hl.sound y hy).2.1
    exact Prod.ext hxy (by rw [h1, h2, hxy])
  have hdim : ∀ m, m < 6 → dimension m < 4 ∧ DofMap.elems m = Diffusion.elems (dimension m) ∧ (t.obj.numDof m ≠ 0 → compact t.obj (dimension m) ≠ 0) := by
    intro m hm
    interval_cases m <;> refine ⟨by decide, by decide, fun h => ?_⟩ <;> simp only [dimension, compact] <;> omega
  constructor
  · intro hk
    obtain ⟨x, hx, rfl⟩ := List.mem_map.1 hk
    obtain ⟨h1, h2, h3⟩ := hl.sound x hx
    have hv := hb.valid x.1 h1
    rw [h2] at h3
    exact ⟨h1, ((gather_dirichlet t.obj isDir bnd (hdim _ hv.1).1 _).1 h3).2.2⟩
  · rintro ⟨h1, h2⟩
    have hv := hb.valid k h1
    obtain ⟨d1, d2, d3⟩ := hdim _ hv.1
    refine List.mem_map.2 ⟨_, hl.complete k h1 ?_, rfl⟩
    refine (gather_dirichlet t.obj isDir bnd d1 _).2 ⟨d3 ?_, ?_, h2⟩
    · have := hv.2.2; omega
    · rw [← d2]; exact hv.2.1

/-! ### Examples -/

/-- `P3`: one d.o.f. per node, two per edge (oriented), one per side -/
def exP3 : Counts := ⟨1, 0, 2, 1, 0, 0⟩

/-- `P1` -/
def exP1 : Counts := ⟨1, 0, 0, 0, 0, 0⟩

/-- the side 0 and its nodes and edges have a Dirichlet condition -/
def exDir (d i : Nat) : Bool := decide ((d = 0 ∧ i < 3) ∨ (d = 1 ∧ (i = 0 ∨ i = 1 ∨ i = 3)) ∨ (d = 2 ∧ i = 0))

/-- the sides 0 and 2 are on the boundary: side 2 gets a Neumann condition with `P3`, none with `P1` -/
example : (gather (uniteObj exP3) exDir fun i => i == 0 || i == 2) = (⟨7, 11, 1, 0⟩, 4) ∧ compact (uniteObj exP3) 2 ≠ 0 ∧
    (gather (uniteObj exP1) exDir fun i => i == 0 || i == 2) = (⟨7, 0, 0, 0⟩, 0) ∧ compact (uniteObj exP1) 2 = 0 := by decide +kernel

/-- the Neumann data matter with `P3`, not with `P1` -/
example : (localSys 4 (fun _ => (0 : ℚ)) (fun _ => 1) (fun s _ => s) 4 [3] (fun _ => 7)).2 0 = 3 ∧
    (localSys 4 (fun _ => (0 : ℚ)) (fun _ => 1) (fun s _ => s) 0 [3] (fun _ => 7)).2 0 = 1 ∧
    (localSys 4 (fun _ => (0 : ℚ)) (fun _ => 1) (fun s _ => s) 4 [3] (fun _ => 7)).2 3 = 7 := ⟨by decide +kernel, by decide +kernel, by decide +kernel⟩

/-- the Dirichlet d.o.f.s of `P3` on the side 0: 3 nodes, 3 times 2 on edges, 1 on the side -/
example : Regular (gather (Tree.unite exP3).obj exDir fun _ => true).1 (.unite exP3) ∧
    (visits ((iter (.unite exP3)).next false (gather (Tree.unite exP3).obj exDir fun _ => true).1) 100
      ((iter (.unite exP3)).start false (gather (Tree.unite exP3).obj exDir fun _ => true).1)).map (·.1) = [0, 1, 2, 4, 5, 6, 7, 10, 11, 16] :=
  ⟨trivial, by decide +kernel⟩

/-- two cells of a line with two d.o.f.s each, the first d.o.f. prescribed: the hypotheses of `assembled_iff` hold -/
example (x : Nat → ℚ) :
    let A : Nat → ℚ := fun t => if t = 0 ∨ t = 3 then 1 else -1
    let L := fun c : Bool => localSys 2 A (fun _ => 1) (fun _ _ => 5) (if c then 1 else 0) (if c then [] else [0]) (fun _ => 2)
    let loc := fun (c : Bool) k => if c then k + 1 else k
    (∀ i, Diffusion.total 2 loc (fun c k => lhs 2 2 (L c).1 (fun j => x (loc c j)) k) i = Diffusion.total 2 loc (fun c k => (L c).2 k) i) ↔
      (∀ i, i = 0 → (∃ c k, k < 2 ∧ loc c k = i) → x i = 2) ∧ ∀ i, ¬ i = 0 → Diffusion.total 2 loc (fun c k => lhs 2 2 A (fun j => x (loc c j)) k) i =
        Diffusion.total 2 loc (fun c _ => 1 + ∑ s ∈ range 4, if (if c then 1 else 0 : BitVec 8).getLsbD s then 5 else 0) i := by
  intro A L loc
  refine assembled_iff 2 loc (fun i => i = 0) (fun _ => 2) (fun _ => A) (fun _ _ => 1) (fun _ _ _ => 5) (fun c => if c then 1 else 0) (fun c => if c then [] else [0]) (fun _ _ => 2)
    ?_ ?_ ?_ (fun _ _ _ _ => rfl) x
  · intro c; cases c <;> simp
  · intro c g hg; cases c <;> simp at hg; omega
  · intro c k hk; cases c <;> simp [loc]

end Verif.Diffusion
