import Verif.Lemmas.BoxMeshGrid
import Mathlib.Tactic.LinearCombination

/-!
C65: `GenerateParallelepiped` makes a conforming mesh of tetrahedra, on every number of processes.

The mesh is the union of the cells of all processes; nodes are identified by their places in the grid.
-/
namespace Verif.BoxMesh
open Verif.Spec.BoxMesh

/-- The counts are positive and fit into `unsigned`. -/
structure Ok (size : Nat) (sizes : Fin 3 → Nat) : Prop where
  size_pos : 0 < size
  pos : ∀ c, 0 < sizes c
  wrap : ∀ c, sizes c + size ≤ 2 ^ 32
  nodes : (sizes 0 + 1) * (sizes 1 + 1) * (sizes 2 + 1) ≤ 2 ^ 32

/-- The process `rank` makes the cell `T`. -/
def Made (size : Nat) (sizes : Fin 3 → Nat) (rank : Nat) (T : Cell) : Prop := rank < size ∧ ∃ cs, rankCells size sizes rank = some cs ∧ T ∈ cs

variable {size : Nat} {sizes : Fin 3 → Nat}

/-- The coordinates of a process in the grid of the processes. -/
private def co (size : Nat) (sizes : Fin 3 → Nat) (rank : Nat) : Fin 3 → Nat := procCoords (procGrid size sizes) rank

private def bst (size : Nat) (sizes : Fin 3 → Nat) (rank : Nat) : Fin 3 → Nat :=
  fun a => avg (sizes a) (procGrid size sizes a) * co size sizes rank a

private def ben (size : Nat) (sizes : Fin 3 → Nat) (rank : Nat) : Fin 3 → Nat :=
  fun a => stop (sizes a) (procGrid size sizes a) (co size sizes rank a)

private theorem co_lt (h : Ok size sizes) {rank : Nat} (hr : rank < size) (c : Fin 3) : co size sizes rank c < procGrid size sizes c :=
  procCoords_lt (by rw [procGrid_prod h.size_pos]; exact hr) c

private theorem grid_le (h : Ok size sizes) (c : Fin 3) : 0 < procGrid size sizes c ∧ procGrid size sizes c ≤ size := by
  have e := procGrid_prod h.size_pos sizes
  have h1 := co_lt h h.size_pos c
  have hd : procGrid size sizes c ∣ procGrid size sizes 0 * procGrid size sizes 1 * procGrid size sizes 2 := by
    fin_cases c
    · exact Dvd.intro _ (mul_assoc _ _ _).symm
    · exact (Dvd.intro_left _ rfl : procGrid size sizes 1 ∣ procGrid size sizes 0 * procGrid size sizes 1).mul_right _
    · exact Dvd.intro_left _ rfl
  rw [e] at hd
  exact ⟨by omega, Nat.le_of_dvd h.size_pos hd⟩

private theorem rankCells_eq (h : Ok size sizes) {rank : Nat} (hr : rank < size) :
    rankCells size sizes rank = some ((boxes (bst size sizes rank) (ben size sizes rank)).flatMap fun b => tables.map (cellOf b)) := by
  have hax := fun c => axis (h.pos c) (co_lt h hr c) (by have := h.wrap c; have := (grid_le h c).2; omega)
  have e1 : bst size sizes rank = fun a => lstart (sizes a) (procGrid size sizes a) (co size sizes rank a) := funext fun a => (hax a).1.symm
  have e2 : ben size sizes rank = fun a => lend (sizes a) (procGrid size sizes a) (co size sizes rank a) := funext fun a => (hax a).2.1.symm
  rw [e1, e2]
  show cells _ _ _ = _
  by_cases hn : ∃ c, lend (sizes c) (procGrid size sizes c) (co size sizes rank c) < lstart (sizes c) (procGrid size sizes c) (co size sizes rank c)
  · obtain ⟨c, hc⟩ := hn
    have h1 := fun sz => cells_nil (st := fun a => lstart (sizes a) (procGrid size sizes a) (co size sizes rank a)) (sz := sz)
      (en := fun a => lend (sizes a) (procGrid size sizes a) (co size sizes rank a)) (c := c) hc
    rw [(h1 (fun _ => 0)).2]
    exact (h1 _).1
  · have h2 : ∀ c, _ := fun c => (hax c).2.2.resolve_right fun h' => hn ⟨c, h'⟩
    refine cells_eq (fun c => (h2 c).1) (le_trans ?_ h.nodes)
    exact Nat.mul_le_mul (Nat.mul_le_mul (Nat.succ_le_succ (h2 0).2) (Nat.succ_le_succ (h2 1).2)) (Nat.succ_le_succ (h2 2).2)

private theorem made_iff (h : Ok size sizes) {rank : Nat} {T : Cell} : Made size sizes rank T ↔ rank < size ∧ ∃ b : Lab, ∃ t : Fin 6,
    (∀ c, bst size sizes rank c ≤ b c ∧ b c < ben size sizes rank c) ∧ T = cellOf b (tables.getD t.val []) := by
  unfold Made
  refine and_congr_right fun hr => ?_
  rw [rankCells_eq h hr]
  constructor
  · rintro ⟨cs, hcs, hT⟩
    obtain rfl := Option.some.inj hcs
    obtain ⟨b, hb, hT⟩ := List.mem_flatMap.1 hT
    obtain ⟨t, rfl⟩ := (mem_tables b).1 hT
    exact ⟨b, t, mem_boxes.1 hb, rfl⟩
  · rintro ⟨b, t, hb, rfl⟩
    exact ⟨_, rfl, List.mem_flatMap.2 ⟨b, mem_boxes.2 hb, (mem_tables b).2 ⟨t, rfl⟩⟩⟩

/-- **C65**: no process reads outside of its array of nodes. -/
theorem generate_defined (h : Ok size sizes) {rank : Nat} (hr : rank < size) : ∃ cs, rankCells size sizes rank = some cs :=
  ⟨_, rankCells_eq h hr⟩

/-- **C65**: every cell is a tetrahedron: it has four nodes, and its faces are the four triples of them. -/
theorem generate_cells (h : Ok size sizes) {rank : Nat} {T : Cell} (hT : Made size sizes rank T) :
    (cellVerts T).card = 4 ∧ T.length = 4 ∧ (∀ f ∈ T, f.length = 3 ∧ f.toFinset.card = 3 ∧ f.toFinset ⊆ cellVerts T) ∧
      (T.map List.toFinset).Nodup := by
  obtain ⟨-, b, t, -, rfl⟩ := (made_iff h).1 hT
  have hinj : ∀ x < 8, ∀ y < 8, labN b x = labN b y → x = y := by
    intro x hx y hy he
    have := lab_inj b (a₁ := ⟨x, hx⟩) (a₂ := ⟨y, hy⟩) he
    simpa using this
  have hmem : ∀ t : Fin 6, tables.getD t.val [] ∈ tables := by decide +kernel
  have h8 := tables_lt _ (hmem t)
  have ht : ∀ t : Fin 6, (tables.getD t.val []).length = 4 ∧ (∀ f ∈ tables.getD t.val [], f.length = 3 ∧ f.Nodup) ∧
      ((tables.getD t.val []).map List.toFinset).Nodup := by decide +kernel
  obtain ⟨t1, t2, t3⟩ := ht t
  have hset : ∀ f : List Nat, (f.map (labN b)).toFinset = f.toFinset.image (labN b) := fun f => by
    ext v; simp
  refine ⟨?_, ?_, ?_, ?_⟩
  · rw [cellVerts_of, tet, Finset.card_image_of_injective _ (labt_inj b t)]; rfl
  · rw [cellOf, List.length_map, t1]
  · intro f hf
    obtain ⟨g, hg, rfl⟩ := List.mem_map.1 hf
    obtain ⟨g1, g2⟩ := t2 g hg
    refine ⟨by rw [List.length_map, g1], ?_, ?_⟩
    · rw [List.toFinset_card_of_nodup, List.length_map, g1]
      exact List.Nodup.map_on (fun x hx y hy => hinj x (h8 g hg x hx) y (h8 g hg y hy)) g2
    · intro v hv
      rw [cellVerts, List.mem_toFinset, List.mem_flatten]
      exact ⟨_, hf, List.mem_toFinset.1 hv⟩
  · have e : (cellOf b (tables.getD t.val [])).map List.toFinset =
        ((tables.getD t.val []).map List.toFinset).map fun S => S.image (labN b) := by
      rw [cellOf, List.map_map, List.map_map]
      exact List.map_congr_left fun f _ => hset f
    rw [e]
    refine List.Nodup.map_on ?_ t3
    intro S hS S' hS' he
    obtain ⟨f, hf, rfl⟩ := List.mem_map.1 hS
    obtain ⟨f', hf', rfl⟩ := List.mem_map.1 hS'
    ext x
    constructor
    · intro hx
      have : labN b x ∈ f'.toFinset.image (labN b) := by rw [← he]; exact Finset.mem_image_of_mem _ hx
      obtain ⟨y, hy, hxy⟩ := Finset.mem_image.1 this
      rw [← hinj y (h8 f' hf' y (List.mem_toFinset.1 hy)) x (h8 f hf x (List.mem_toFinset.1 hx)) hxy]; exact hy
    · intro hx
      have : labN b x ∈ f.toFinset.image (labN b) := by rw [he]; exact Finset.mem_image_of_mem _ hx
      obtain ⟨y, hy, hxy⟩ := Finset.mem_image.1 this
      rw [← hinj y (h8 f hf y (List.mem_toFinset.1 hy)) x (h8 f' hf' x (List.mem_toFinset.1 hx)) hxy]; exact hy

/-- **C65**: two cells, of the same or of different processes, meet in the hull of their common nodes. -/
theorem generate_conforming (h : Ok size sizes) {A O : Fin 3 → ℝ} (hA : ∀ c, A c ≠ O c) {r r' : Nat} {T T' : Cell} (hT : Made size sizes r T)
    (hT' : Made size sizes r' T') {p : Fin 3 → ℝ} (hp : InHull (xyz sizes A O) (cellVerts T) p) (hp' : InHull (xyz sizes A O) (cellVerts T') p) :
    InHull (xyz sizes A O) (cellVerts T ∩ cellVerts T') p := by
  obtain ⟨-, b, t, -, rfl⟩ := (made_iff h).1 hT
  obtain ⟨-, b', t', -, rfl⟩ := (made_iff h).1 hT'
  rw [cellVerts_of] at *
  rw [cellVerts_of] at *
  exact hull_inter h.pos hA hp hp'

private theorem part_unique' {s p : Nat} (hs : 0 < s) {c b : Nat} (hc : c < p) (h1 : avg s p * c ≤ b) (h2 : b < stop s p c) : b / avg s p = c := by
  obtain ⟨g1, g2⟩ := avg_spec (s := s) (p := p) (by omega)
  obtain ⟨h3, h4⟩ := avg_le hs (show 0 < p by omega)
  have h5 : avg s p * c + avg s p = avg s p * (c + 1) := (Nat.mul_succ _ _).symm
  have h6 : b < avg s p * (c + 1) := by
    unfold stop at h2
    split at h2
    · rename_i h
      rw [h, show p - 1 + 1 = p by omega]
      omega
    · exact h2
  rw [Nat.div_eq_iff h4]
  have : c * avg s p = avg s p * c := mul_comm _ _
  rw [mul_comm] at h1
  omega

private theorem rank_unique (h : Ok size sizes) {r r' : Nat} (hr : r < size) (hr' : r' < size) {b : Lab}
    (hb : ∀ c, bst size sizes r c ≤ b c ∧ b c < ben size sizes r c) (hb' : ∀ c, bst size sizes r' c ≤ b c ∧ b c < ben size sizes r' c) : r = r' := by
  refine procCoords_inj (P := procGrid size sizes) (grid_le h 0).1 (grid_le h 1).1 (funext fun c => ?_)
  have e1 := part_unique' (h.pos c) (co_lt h hr c) (hb c).1 (hb c).2
  have e2 := part_unique' (h.pos c) (co_lt h hr' c) (hb' c).1 (hb' c).2
  exact e1.symm.trans e2

/-- **C65**: no cell is made twice, neither by one process nor by two. -/
theorem generate_once (h : Ok size sizes) {r r' : Nat} (hr : r < size) (hr' : r' < size) {cs cs' : List Cell} (hcs : rankCells size sizes r = some cs)
    (hcs' : rankCells size sizes r' = some cs') {n n' : Nat} {T T' : Cell} (hT : cs[n]? = some T) (hT' : cs'[n']? = some T')
    (he : cellVerts T = cellVerts T') : r = r' ∧ n = n' := by
  have hm := (made_iff h).1 ⟨hr, cs, hcs, List.mem_of_getElem? hT⟩
  have hm' := (made_iff h).1 ⟨hr', cs', hcs', List.mem_of_getElem? hT'⟩
  obtain ⟨-, b, t, hb, rfl⟩ := hm
  obtain ⟨-, b', t', hb', rfl⟩ := hm'
  rw [cellVerts_of, cellVerts_of] at he
  obtain ⟨rfl, rfl⟩ := tet_inj he
  obtain rfl := rank_unique h hr hr' hb hb'
  refine ⟨rfl, ?_⟩
  have hce : cs = cs' := Option.some.inj (hcs.symm.trans hcs')
  subst hce
  have hnd := verts_nodup (bst size sizes r) (ben size sizes r)
  rw [rankCells_eq h hr] at hcs
  have hcs2 := Option.some.inj hcs
  rw [hcs2] at hnd
  have hn := (List.getElem?_eq_some_iff.1 hT).1
  have hn' := (List.getElem?_eq_some_iff.1 hT').1
  refine (List.Nodup.getElem_inj_iff hnd (hi := by rw [List.length_map]; exact hn) (hj := by rw [List.length_map]; exact hn')).1 ?_
  rw [List.getElem_map, List.getElem_map, (List.getElem?_eq_some_iff.1 hT).2, (List.getElem?_eq_some_iff.1 hT').2]

/-- **C65**: the interiors are disjoint: a point inside of a cell lies in no other cell. -/
theorem generate_disjoint (h : Ok size sizes) {A O : Fin 3 → ℝ} (hA : ∀ c, A c ≠ O c) {r r' : Nat} {T T' : Cell} (hT : Made size sizes r T)
    (hT' : Made size sizes r' T') {p : Fin 3 → ℝ} (hp : Inside (xyz sizes A O) (cellVerts T) p) (hp' : InHull (xyz sizes A O) (cellVerts T') p) :
    T = T' ∧ r = r' := by
  obtain ⟨hr, b, t, hb, rfl⟩ := (made_iff h).1 hT
  obtain ⟨hr', b', t', hb', rfl⟩ := (made_iff h).1 hT'
  rw [cellVerts_of] at hp hp'
  obtain ⟨rfl, rfl⟩ := tet_inj (inside_eq h.pos hA hp hp')
  exact ⟨rfl, rank_unique h hr hr' hb hb'⟩

/-- **C65**: the cells cover the box. -/
theorem generate_covers (h : Ok size sizes) {A O : Fin 3 → ℝ} (hA : ∀ c, O c < A c) {p : Fin 3 → ℝ} (hp : InBox A O p) :
    ∃ r T, Made size sizes r T ∧ InHull (xyz sizes A O) (cellVerts T) p := by
  obtain ⟨b, hb, t, ht⟩ := cover_box h.pos hA hp
  have hx := fun c => part_exists (grid_le h c).1 (hb c)
  obtain ⟨r, hr, hc⟩ := procCoords_onto (P := procGrid size sizes) (x := fun c => b c / avg (sizes c) (procGrid size sizes c)) fun c => (hx c).1
  rw [procGrid_prod h.size_pos] at hr
  refine ⟨r, cellOf b (tables.getD t.val []), (made_iff h).2 ⟨hr, b, t, fun c => ?_, rfl⟩, by rw [cellVerts_of]; exact ht⟩
  have hc' : co size sizes r c = b c / avg (sizes c) (procGrid size sizes c) := congrFun hc c
  unfold bst ben
  rw [hc']
  exact (hx c).2

/-- **C65**: the faces are oriented outwards and the volume of a cell is a sixth of that of a box of the grid (in absolute value): for
the node `v` opposite to the face `x y z`, six times the signed volume is minus the volume of a box. -/
theorem generate_oriented (h : Ok size sizes) (A O : Fin 3 → ℝ) {r : Nat} {T : Cell} (hT : Made size sizes r T) {x y z v : Lab} (hf : [x, y, z] ∈ T)
    (hv : v ∈ cellVerts T) (hn : v ∉ [x, y, z]) :
    det3 (xyz sizes A O x) (xyz sizes A O y) (xyz sizes A O z) (xyz sizes A O v) = -∏ c, (A c - O c) / sizes c := by
  obtain ⟨-, b, t, -, rfl⟩ := (made_iff h).1 hT
  obtain ⟨f, hf', he⟩ := List.mem_map.1 hf
  rw [cellVerts_of] at hv
  obtain ⟨a, -, rfl⟩ := Finset.mem_image.1 hv
  have key : ∀ t : Fin 6, ∀ f ∈ tables.getD t.val [], ∀ a : Fin 4, (tetra t a).val ∉ f → ∃ i j k : Fin 8, f = [i.val, j.val, k.val] ∧
      let l := tetra t a
      let d := fun (p q : Fin 8) (c : Fin 3) => (corner p c : Int) - corner q c
      d j i 0 * (d k i 1 * d l i 2 - d k i 2 * d l i 1) - d j i 1 * (d k i 0 * d l i 2 - d k i 2 * d l i 0) +
        d j i 2 * (d k i 0 * d l i 1 - d k i 1 * d l i 0) = -1 := by decide +kernel
  have hna : (tetra t a).val ∉ f := by
    intro hm
    refine hn ?_
    rw [← he]
    exact List.mem_map.2 ⟨_, hm, rfl⟩
  obtain ⟨i, j, k, rfl, hdet⟩ := key t f hf' a hna
  simp only [List.map_cons, List.map_nil, List.cons.injEq, and_true] at he
  obtain ⟨rfl, rfl, rfl⟩ := he
  simp only [labN_lab]
  have hd : ∀ (p q : Fin 8) (c : Fin 3), xyz sizes A O (lab b p) c - xyz sizes A O (lab b q) c =
      (((corner p c : Int) - corner q c : Int) : ℝ) * ((A c - O c) / sizes c) := by
    intro p q c
    simp only [xyz, lab]; push_cast; ring
  have hdet' := congrArg (fun n : Int => (n : ℝ)) hdet
  simp only [Int.cast_add, Int.cast_sub, Int.cast_mul, Int.cast_neg, Int.cast_one] at hdet'
  unfold det3
  simp only [hd]
  rw [Fin.prod_univ_three]
  simp only [Int.cast_sub]
  linear_combination ((A 0 - O 0) / sizes 0 * ((A 1 - O 1) / sizes 1) * ((A 2 - O 2) / sizes 2)) * hdet'

/-- Sufficient for `Fits`: there are at least `(p - 1)^2` boxes on the axis with `p` processes. -/
theorem fits_of_many {s p : Nat} (hp : 0 < p) (h : (p - 1) ^ 2 ≤ s) : Fits s p := by
  obtain ⟨q, rfl⟩ := Nat.exists_eq_add_of_lt hp
  obtain ⟨g1, -⟩ := avg_spec (s := s) hp
  unfold Fits
  simp only [Nat.zero_add, Nat.add_sub_cancel] at *
  have h1 : avg s (q + 1) * q * (q + 1) ≤ s * (q + 1) := by
    have := Nat.mul_le_mul_right q g1
    rw [show s + (q + 1) - 1 = s + q by omega] at this
    nlinarith
  exact Nat.le_of_mul_le_mul_right h1 (by omega)

/-- **C65** (partial: only if the last process of every axis does not start beyond the end, see `generate_exceeds_wrong`): all
nodes lie in the box, so the mesh is exactly a mesh of the box. -/
theorem generate_inside_partial (h : Ok size sizes) (hf : ∀ c, Fits (sizes c) (procGrid size sizes c)) {A O : Fin 3 → ℝ} (hA : ∀ c, O c < A c)
    {r : Nat} {T : Cell} (hT : Made size sizes r T) {v : Lab} (hv : v ∈ cellVerts T) : (∀ c, v c ≤ sizes c) ∧ InBox A O (xyz sizes A O v) := by
  obtain ⟨hr, b, t, hb, rfl⟩ := (made_iff h).1 hT
  rw [cellVerts_of] at hv
  obtain ⟨a, -, rfl⟩ := Finset.mem_image.1 hv
  have hl : ∀ c, lab b (tetra t a) c ≤ sizes c := by
    intro c
    have h1 := (part_unique (h.pos c) (hf c) (co_lt h hr c) (hb c).1 (hb c).2).2
    have h2 := corner_le (tetra t a) c
    simp only [lab]; omega
  refine ⟨hl, fun c => ?_⟩
  have h1 : (0 : ℝ) < sizes c := by exact_mod_cast h.pos c
  have h2 : (lab b (tetra t a) c : ℝ) ≤ sizes c := by exact_mod_cast hl c
  have h3 := sub_pos.2 (hA c)
  have h4 : (0 : ℝ) ≤ (lab b (tetra t a) c : ℝ) := Nat.cast_nonneg _
  unfold xyz
  constructor
  · have : 0 ≤ (lab b (tetra t a) c : ℝ) * (A c - O c) / sizes c := by positivity
    linarith
  · have : (lab b (tetra t a) c : ℝ) * (A c - O c) / sizes c ≤ A c - O c := by
      rw [div_le_iff₀ h1, mul_comm]
      exact mul_le_mul_of_nonneg_left h2 h3.le
    linarith

/-- **C65** fails on many processes: if the last process of an axis starts beyond the end (its size wraps around and it makes
nothing), the process before it makes cells with nodes outside of the box. -/
theorem generate_exceeds_wrong (h : Ok size sizes) {c : Fin 3} (hf : ¬ Fits (sizes c) (procGrid size sizes c)) {A O : Fin 3 → ℝ} (hA : ∀ c, O c < A c) :
    ∃ r T, Made size sizes r T ∧ ∃ v ∈ cellVerts T, sizes c < v c ∧ ¬ InBox A O (xyz sizes A O v) := by
  have hp : 1 < procGrid size sizes c := by
    by_contra h1
    refine hf ?_
    unfold Fits
    rw [show procGrid size sizes c - 1 = 0 by omega]; omega
  obtain ⟨a1, a2⟩ := avg_le (h.pos c) (show 0 < procGrid size sizes c by omega)
  have hav : ∀ a, 0 < avg (sizes a) (procGrid size sizes a) := fun a => (avg_le (h.pos a) (grid_le h a).1).2
  unfold Fits at hf
  obtain ⟨r, hr, hc⟩ := procCoords_onto (P := procGrid size sizes) (x := Function.update 0 c (procGrid size sizes c - 2)) (fun a => by
    by_cases hac : a = c
    · subst hac; rw [Function.update_self]; omega
    · rw [Function.update_of_ne hac]; exact (grid_le h a).1)
  rw [procGrid_prod h.size_pos] at hr
  have hsig : ∀ c : Fin 3, ∃ a : Fin 4, corner (tetra 0 a) c = 1 := by decide +kernel
  obtain ⟨a, ha⟩ := hsig c
  have hb : ∀ d, bst size sizes r d ≤ Function.update (0 : Lab) c (avg (sizes c) (procGrid size sizes c) * (procGrid size sizes c - 1) - 1) d ∧
      Function.update (0 : Lab) c (avg (sizes c) (procGrid size sizes c) * (procGrid size sizes c - 1) - 1) d < ben size sizes r d := by
    intro d
    unfold bst ben
    rw [show co size sizes r d = _ from congrFun hc d]
    by_cases hdc : d = c
    · subst hdc
      rw [Function.update_self, Function.update_self]
      have e1 : avg (sizes d) (procGrid size sizes d) * (procGrid size sizes d - 1) =
          avg (sizes d) (procGrid size sizes d) * (procGrid size sizes d - 2) + avg (sizes d) (procGrid size sizes d) := by
        rw [← Nat.mul_succ]; congr 1; omega
      refine ⟨by omega, ?_⟩
      rw [stop, if_neg (by omega), show procGrid size sizes d - 2 + 1 = procGrid size sizes d - 1 by omega]
      omega
    · rw [Function.update_of_ne hdc, Function.update_of_ne hdc]
      refine ⟨by simp, ?_⟩
      unfold stop
      split
      · exact h.pos d
      · simpa using hav d
  refine ⟨r, cellOf _ (tables.getD (0 : Fin 6).val []), (made_iff h).2 ⟨hr, _, 0, hb, rfl⟩,
    lab (Function.update (0 : Lab) c (avg (sizes c) (procGrid size sizes c) * (procGrid size sizes c - 1) - 1)) (tetra 0 a), ?_, ?_⟩
  · rw [cellVerts_of]; exact Finset.mem_image_of_mem _ (Finset.mem_univ _)
  · have hlt : sizes c < lab (Function.update (0 : Lab) c (avg (sizes c) (procGrid size sizes c) * (procGrid size sizes c - 1) - 1)) (tetra 0 a) c := by
      simp only [lab, Function.update_self, ha]; omega
    refine ⟨hlt, fun hin => ?_⟩
    have h2 := (hin c).2
    unfold xyz at h2
    have h1 : (0 : ℝ) < sizes c := by exact_mod_cast h.pos c
    have h3 := sub_pos.2 (hA c)
    have h4 : (sizes c : ℝ) < (lab (Function.update (0 : Lab) c (avg (sizes c) (procGrid size sizes c) * (procGrid size sizes c - 1) - 1)) (tetra 0 a) c : ℝ) := by
      exact_mod_cast hlt
    have h5 := mul_lt_mul_of_pos_right h4 h3
    have h6 := (lt_div_iff₀ h1 (a := A c - O c)).2 (by rw [mul_comm]; exact h5)
    linarith

/-- **C65** on one process: the cells are all inside, and there are six for each box. -/
theorem generate_serial (h : Ok 1 sizes) : (∀ c, Fits (sizes c) (procGrid 1 sizes c)) ∧
    ∃ cs, rankCells 1 sizes 0 = some cs ∧ cs.length = 6 * (sizes 0 * sizes 1 * sizes 2) := by
  have hp : ∀ c, procGrid 1 sizes c = 1 := fun c => by have := grid_le h c; omega
  refine ⟨fun c => by rw [hp]; unfold Fits; simp, _, rankCells_eq h (by omega), ?_⟩
  have hc : ∀ c, co 1 sizes 0 c = 0 := fun c => by have := co_lt h (rank := 0) (by omega) c; rw [hp] at this; omega
  have e1 : bst 1 sizes 0 = fun _ => 0 := funext fun c => by unfold bst; rw [hc, Nat.mul_zero]
  have e2 : ben 1 sizes 0 = sizes := funext fun c => by unfold ben; rw [hc, hp]; rfl
  rw [e1, e2, List.length_flatMap]
  simp only [List.length_map]
  rw [List.map_const', List.sum_replicate, boxes, List.length_map, smul_eq_mul, mul_comm]
  congr 1
  unfold triples
  have hu : ∀ n, (upto (0 + 1) n).length = n := fun n => by simp [upto]
  simp only [List.length_flatMap, List.length_map, hu, List.map_const', List.sum_replicate, smul_eq_mul]
  ring

/-! ### Cases -/

/-- A case: two processes, a grid of 3 × 2 × 1 boxes. -/
example : Ok 2 ![3, 2, 1] ∧ ∀ c, Fits (![3, 2, 1] c) (procGrid 2 ![3, 2, 1] c) := by
  refine ⟨⟨by omega, by decide, by decide, by decide⟩, fun c => ?_⟩
  fin_cases c <;> unfold Fits <;> decide +kernel

/-- A case of the failure: four processes, a grid of 5 × 1 × 1 boxes: all processes on the first axis. -/
example : Ok 4 ![5, 1, 1] ∧ ¬ Fits (![5, 1, 1] 0) (procGrid 4 ![5, 1, 1] 0) := by
  refine ⟨⟨by omega, by decide, by decide, by decide⟩, ?_⟩
  unfold Fits; decide +kernel

end Verif.BoxMesh
