import Verif.Model.Symmetry
import Mathlib.Data.List.Nodup

/-!
Property C13: renumbering of symmetric d.o.f.s under renumbering of the nodes of a tetrahedron, and helpers of the action
of the permutations of four nodes.  The vocabulary is in `Verif.Spec.Symmetry`.
-/
set_option synthInstance.maxSize 5000

namespace Verif.Symmetry

/-- all renumberings of four nodes -/
def perms : List (List Nat) :=
  (List.range 4).flatMap fun a => (List.range 4).flatMap fun b => (List.range 4).flatMap fun c => (List.range 4).filterMap
    fun d => if IsPerm [a, b, c, d] then some [a, b, c, d] else none

theorem mem_perms {p : List Nat} (h : IsPerm p) : p ∈ perms := by
  obtain ⟨h1, h2, h3⟩ := h
  match p, h1 with
  | [a, b, c, d], _ =>
    simp only [perms, List.mem_flatMap, List.mem_filterMap, List.mem_range]
    refine ⟨a, h3 a (by simp), b, h3 b (by simp), c, h3 c (by simp), d, h3 d (by simp), ?_⟩
    rw [if_pos ⟨rfl, h2, h3⟩]

example : perms.length = 24 := by decide +kernel

/-- the volume of a group is the number of its words -/
theorem volume_eq : ∀ d, d < 4 → ∀ s, s < groups d → volume d s = (words d s).length := by decide

theorem table : ∀ p ∈ perms, ∀ d, d < 4 → ∀ e, e < elements d → ∀ s, s < groups d → ∀ i, i < volume d s →
    ∃ j, j < volume d s ∧ index d e s i p = some j ∧ SamePoint p (vertices d e) ((words d s).getD i []) ((words d s).getD j []) := by
  decide +kernel

/-- **C13** (meaning): for every renumbering `p` of the nodes, every element, every symmetry group and every d.o.f. `i` of
the group, the result of the renumbering is the d.o.f. of the group whose word, read on the vertices sorted by the new
numbers, puts at every vertex the letter which the word of `i` puts there.  (No out-of-range read happens.) -/
theorem index_correct (p : List Nat) (hp : IsPerm p) (d e s i : Nat) (hd : d < 4) (he : e < elements d) (hs : s < groups d)
    (hi : i < volume d s) :
    ∃ j, j < volume d s ∧ index d e s i p = some j ∧
      SamePoint p (vertices d e) ((words d s).getD i []) ((words d s).getD j []) :=
  table p (mem_perms hp) d hd e he s hs i hi

/-- words 341 on face 2 and 4 nodes rotated -/
example : IsPerm [2, 0, 3, 1] ∧ index 2 2 2 1 [2, 0, 3, 1] = some 2 ∧ vertices 2 2 = [2, 3, 0] := by decide

theorem table_bij : ∀ p ∈ perms, ∀ d, d < 4 → ∀ e, e < elements d → ∀ s, s < groups d → ∀ j, j < volume d s →
    ∃ i, i < volume d s ∧ index d e s i p = some j := by
  decide +kernel

theorem table_inj : ∀ p ∈ perms, ∀ d, d < 4 → ∀ e, e < elements d → ∀ s, s < groups d → 
    ((List.range (volume d s)).map fun i => index d e s i p).Nodup := by
  decide +kernel

/-- **C13** (bijection): for every renumbering of the nodes the map on the d.o.f.s of a symmetry group is a bijection. -/
theorem index_bijective (p : List Nat) (hp : IsPerm p) (d e s : Nat) (hd : d < 4) (he : e < elements d) (hs : s < groups d) :
    (∀ i, i < volume d s → ∃ j, j < volume d s ∧ index d e s i p = some j) ∧
    (∀ i i', i < volume d s → i' < volume d s → index d e s i p = index d e s i' p → i = i') ∧
    (∀ j, j < volume d s → ∃ i, i < volume d s ∧ index d e s i p = some j) := by
  refine ⟨fun i hi => ?_, ?_, table_bij p (mem_perms hp) d hd e he s hs⟩
  · obtain ⟨j, h1, h2, _⟩ := index_correct p hp d e s i hd he hs hi
    exact ⟨j, h1, h2⟩
  · intro i i' hi hi' h
    have hn := table_inj p (mem_perms hp) d hd e he s hs
    have h1 : i < ((List.range (volume d s)).map fun i => index d e s i p).length := by simpa using hi
    have h2 : i' < ((List.range (volume d s)).map fun i => index d e s i p).length := by simpa using hi'
    exact (List.getElem_inj (h₀ := h1) (h₁ := h2) hn).1 (by simpa using h)

/-- composition of renumberings: first `p`, then `r` -/
def comp (r p : List Nat) : List Nat := p.map fun x => r.getD x 4

theorem table_id : ∀ d, d < 4 → ∀ e, e < elements d → ∀ s, s < groups d → d ≠ 2 ∨ e < 2 ∨ s = 0 → ∀ i, i < volume d s →
    index d e s i [0, 1, 2, 3] = some i := by decide +kernel

/-- **C13** (identity), proved for edges, cells, the faces 123 and 234, and the group S1 of the other faces.  Missing: the
groups S3 and S6 of the faces 341 and 412, where it is false (`index_id_wrong`). -/
theorem index_id_partial (d e s i : Nat) (hd : d < 4) (he : e < elements d) (hs : s < groups d)
    (h : d ≠ 2 ∨ e < 2 ∨ s = 0) (hi : i < volume d s) : index d e s i [0, 1, 2, 3] = some i :=
  table_id d hd e he s hs h i hi

/-- **C13 fails** for the identical renumbering on face 341 (S3): d.o.f. 0 becomes d.o.f. 1, since the vertices of the
element are taken in cyclic order but the result is read in sorted order. -/
theorem index_id_wrong : index 2 2 1 0 [0, 1, 2, 3] = some 1 := by decide

theorem comp_perm : ∀ p ∈ perms, ∀ r ∈ perms, IsPerm (comp r p) := by decide +kernel

theorem perm_lt : ∀ p ∈ perms, ∀ v, v < 4 → p.getD v 4 < 4 ∧ p.length = 4 := by decide +kernel

theorem comp_getD {p : List Nat} (hp : IsPerm p) (r : List Nat) {v : Nat} (hv : v < 4) :
    (comp r p).getD v 4 = r.getD (p.getD v 4) 4 := by
  obtain ⟨h1, _⟩ := hp
  match p, h1 with
  | [a, b, c, d], _ => match v, hv with
    | 0, _ => rfl
    | 1, _ => rfl
    | 2, _ => rfl
    | 3, _ => rfl

theorem verts_lt : ∀ d, d < 4 → ∀ e, e < elements d → (vertices d e).length = d + 1 ∧ ∀ v ∈ vertices d e, v < 4 := by decide

/-- the renumbered element: its sorted vertices are the new numbers, read by rank -/
theorem table_mid : ∀ p ∈ perms, ∀ d, d < 4 → ∀ e, e < elements d →
    d ≠ 2 ∨ elementOf d ((vertices d e).map fun v => p.getD v 4) < 2 →
    elementOf d ((vertices d e).map fun v => p.getD v 4) < elements d ∧
    (vertices d (elementOf d ((vertices d e).map fun v => p.getD v 4))).Perm ((vertices d e).map fun v => p.getD v 4) ∧
    ∀ k, k < d + 1 → rank ((vertices d e).map fun v => p.getD v 4) (p.getD ((vertices d e).getD k 4) 4) < d + 1 ∧
      (vertices d (elementOf d ((vertices d e).map fun v => p.getD v 4))).getD
        (rank ((vertices d e).map fun v => p.getD v 4) (p.getD ((vertices d e).getD k 4) 4)) 4 =
          p.getD ((vertices d e).getD k 4) 4 := by
  decide +kernel

theorem words_len : ∀ d, d < 4 → ∀ s, s < groups d → ∀ i, i < volume d s → ((words d s).getD i []).length = d + 1 := by
  decide +kernel

theorem words_inj : ∀ d, d < 4 → ∀ s, s < groups d → ∀ i, i < volume d s → ∀ j, j < volume d s →
    (words d s).getD i [] = (words d s).getD j [] → i = j := by decide +kernel

theorem rank_onto : ∀ p ∈ perms, ∀ d, d < 4 → ∀ e, e < elements d → ∀ r, r < d + 1 → ∃ k, k < d + 1 ∧
    rank ((vertices d e).map fun v => p.getD v 4) (p.getD ((vertices d e).getD k 4) 4) = r := by decide +kernel

/-- the result of a renumbering is determined by the letters at the vertices -/
theorem samePoint_unique {p : List Nat} (hp : IsPerm p) {d e s j j' : Nat} (hd : d < 4) (he : e < elements d)
    (hs : s < groups d) (hj : j < volume d s) (hj' : j' < volume d s) {w : List Nat}
    (h : SamePoint p (vertices d e) w ((words d s).getD j [])) (h' : SamePoint p (vertices d e) w ((words d s).getD j' [])) :
    j = j' := by
  apply words_inj d hd s hs j hj j' hj'
  apply List.ext_getElem?
  intro r
  by_cases hr : r < d + 1
  · obtain ⟨k, hk, ek⟩ := rank_onto p (mem_perms hp) d hd e he r hr
    have a := h k (by rw [(verts_lt d hd e he).1]; exact hk)
    have b := h' k (by rw [(verts_lt d hd e he).1]; exact hk)
    rw [ek] at a b
    rw [a, b]
  · rw [List.getElem?_eq_none (by rw [words_len d hd s hs j hj]; omega),
      List.getElem?_eq_none (by rw [words_len d hd s hs j' hj']; omega)]

/-- **C13** (composition of the renumberings), for every element which `p` moves to an element with sorted vertices -/
theorem index_comp (p r : List Nat) (hp : IsPerm p) (hr : IsPerm r) (d e s i : Nat) (hd : d < 4)
    (he : e < elements d) (hs : s < groups d) (hi : i < volume d s)
    (hsort : d ≠ 2 ∨ elementOf d ((vertices d e).map fun v => p.getD v 4) < 2) :
    (index d e s i p).bind (fun j => index d (elementOf d ((vertices d e).map fun v => p.getD v 4)) s j r) =
      index d e s i (comp r p) := by
  obtain ⟨he', hperm, hk⟩ := table_mid p (mem_perms hp) d hd e he hsort
  have hc := comp_perm p (mem_perms hp) r (mem_perms hr)
  obtain ⟨j, hj, e1, s1⟩ := index_correct p hp d e s i hd he hs hi
  obtain ⟨j', hj', e2, s2⟩ := index_correct r hr d _ s j hd he' hs hj
  obtain ⟨j3, hj3, e3, s3⟩ := index_correct _ hc d e s i hd he hs hi
  rw [e1, Option.bind_some, e2, e3]
  congr 1
  refine samePoint_unique hc hd he hs hj' hj3 (fun k hk' => ?_) s3
  have hv := verts_lt d hd e he
  have hk4 : k < d + 1 := hv.1 ▸ hk'
  obtain ⟨hrk, hget⟩ := hk k hk4
  have hmap : ((vertices d e).map fun v => (comp r p).getD v 4) =
      (((vertices d e).map fun v => p.getD v 4).map fun v => r.getD v 4) := by
    rw [List.map_map]
    exact List.map_congr_left fun v h => comp_getD hp r (hv.2 v h)
  have hvk : (vertices d e).getD k 4 < 4 := by
    rw [List.getD, List.getElem?_eq_getElem hk', Option.getD_some]
    exact hv.2 _ (List.getElem_mem _)
  have a := s2 _ (by rw [(verts_lt d hd _ he').1]; exact hrk)
  rw [hget] at a
  rw [hmap, comp_getD hp r hvk, ← s1 k hk', ← a]
  congr 1
  exact (((hperm.map fun v => r.getD v 4).filter _).length_eq).symm

/-- **C13** (composition), proved for nodes, edges and cells: renumbering by `p` and then by `r` is renumbering by the
composition.  Missing: faces, where it is false (`index_comp_wrong`). -/
theorem index_comp_partial (p r : List Nat) (hp : IsPerm p) (hr : IsPerm r) (d e s i : Nat) (hd : d < 4) (hd2 : d ≠ 2)
    (he : e < elements d) (hs : s < groups d) (hi : i < volume d s) :
    (index d e s i p).bind (fun j => index d (elementOf d ((vertices d e).map fun v => p.getD v 4)) s j r) =
      index d e s i (comp r p) :=
  index_comp p r hp hr d e s i hd he hs hi (Or.inl hd2)

example : IsPerm [1, 2, 3, 0] ∧ IsPerm [0, 2, 1, 3] ∧ index 3 0 4 5 [1, 2, 3, 0] = some 23 ∧
    index 3 0 4 23 [0, 2, 1, 3] = some 18 ∧ index 3 0 4 5 (comp [0, 2, 1, 3] [1, 2, 3, 0]) = some 18 := by decide

/-- **C13 fails** for compositions on faces: face 123 is moved to face 341 by `p`, then nothing is changed. -/
theorem index_comp_wrong : ∃ p r, IsPerm p ∧ IsPerm r ∧
    (index 2 0 1 0 p).bind (fun j => index 2 (elementOf 2 ((vertices 2 0).map fun v => p.getD v 4)) 1 j r) ≠
      index 2 0 1 0 (comp r p) := ⟨[0, 2, 3, 1], [0, 1, 2, 3], by decide⟩

/-- **C13** (faces, sorted reading): the composition law holds on faces when the second step reads the vertices of the
intermediate face in sorted order, i.e. when it starts on a face whose vertices are numbered increasingly (123 or 234). -/
theorem index_comp_sorted_face_partial : ∀ p r, IsPerm p → IsPerm r → ∀ e s i, e < 4 → s < 3 → i < volume 2 s →
    elementOf 2 ((vertices 2 e).map fun v => p.getD v 4) < 2 →
    (index 2 e s i p).bind (fun j => index 2 (elementOf 2 ((vertices 2 e).map fun v => p.getD v 4)) s j r) =
      index 2 e s i (comp r p) := by
  intro p r hp hr e s i he hs hi h
  exact index_comp p r hp hr 2 e s i (by decide) he hs hi (Or.inr h)

/-! ### agreement on a common element -/

/-- **C13** (agreement): let two tetrahedra share an element.  `p`, `q` number their nodes in an increasing common order,
restricted to the common vertices `x` this gives the ranks; if d.o.f. `i` of the first and d.o.f. `i'` of the second put
the same letters at the common vertices, then both get the same number, and conversely. -/
theorem index_agree (p q : List Nat) (hp : IsPerm p) (hq : IsPerm q) (d e e' s i i' : Nat) (hd : d < 4)
    (he : e < elements d) (he' : e' < elements d) (hs : s < groups d) (hi : i < volume d s) (hi' : i' < volume d s) :
    index d e s i p = index d e' s i' q ↔
      ∀ r k k', k < d + 1 → k' < d + 1 →
        rank ((vertices d e).map fun v => p.getD v 4) (p.getD ((vertices d e).getD k 4) 4) = r →
        rank ((vertices d e').map fun v => q.getD v 4) (q.getD ((vertices d e').getD k' 4) 4) = r →
        ((words d s).getD i [])[k]? = ((words d s).getD i' [])[k']? := by
  obtain ⟨j, hj, h1, h2⟩ := index_correct p hp d e s i hd he hs hi
  obtain ⟨j', hj', h1', h2'⟩ := index_correct q hq d e' s i' hd he' hs hi'
  have hlen : ∀ d, d < 4 → ∀ e, e < elements d → (vertices d e).length = d + 1 := by decide
  have hw : ∀ d, d < 4 → ∀ s, s < groups d → ∀ i, i < volume d s → ((words d s).getD i []).length = d + 1 := by decide
  have hinj : ∀ d, d < 4 → ∀ s, s < groups d → ∀ i, i < volume d s → ∀ j, j < volume d s →
      (words d s).getD i [] = (words d s).getD j [] → i = j := by decide +kernel
  have hrank : ∀ p ∈ perms, ∀ d, d < 4 → ∀ e, e < elements d → ∀ r, r < d + 1 → ∃ k, k < d + 1 ∧
      rank ((vertices d e).map fun v => p.getD v 4) (p.getD ((vertices d e).getD k 4) 4) = r := by decide +kernel
  rw [h1, h1', Option.some_inj]
  constructor
  · rintro rfl r k k' hk hk' hr hr'
    have a := h2 k (by rw [hlen d hd e he]; exact hk)
    have b := h2' k' (by rw [hlen d hd e' he']; exact hk')
    rw [hr] at a
    rw [hr'] at b
    rw [← a, ← b]
  · intro h
    apply hinj d hd s hs j hj j' hj'
    apply List.ext_getElem?
    intro r
    by_cases hr : r < d + 1
    · obtain ⟨k, hk, ek⟩ := hrank p (mem_perms hp) d hd e he r hr
      obtain ⟨k', hk', ek'⟩ := hrank q (mem_perms hq) d hd e' he' r hr
      have a := h2 k (by rw [hlen d hd e he]; exact hk)
      have b := h2' k' (by rw [hlen d hd e' he']; exact hk')
      rw [ek] at a
      rw [ek'] at b
      rw [a, b]
      exact h r k k' hk hk' ek ek'
    · rw [List.getElem?_eq_none (by rw [hw d hd s hs j hj]; omega),
        List.getElem?_eq_none (by rw [hw d hd s hs j' hj']; omega)]

/-! ### positions in the groups -/

/-- number of d.o.f.s in the groups before group `s` -/
def before (dim : Nat) (ms : List Nat) (s : Nat) : Nat := ((List.range s).map fun t => volume dim t * ms.getD t 0).sum

theorem before_succ (dim : Nat) (ms : List Nat) (s : Nat) :
    before dim ms (s + 1) = before dim ms s + volume dim s * ms.getD s 0 := by
  simp [before, List.range_succ]

theorem locSymLoop_spec (dim : Nat) (ms : List Nat) (id : Nat) (s : Nat) (h : s + 1 ≤ ms.length) (h1 : before dim ms s ≤ id)
    (h2 : id < before dim ms ms.length) :
    let so := locSymLoop dim id s (before dim ms s) (ms.drop s)
    so.1 < ms.length ∧ before dim ms so.1 ≤ id ∧ id < before dim ms (so.1 + 1) ∧
      so.2 = (id - before dim ms so.1) % volume dim so.1 := by
  intro so
  have hd : ms.drop s = ms[s] :: ms.drop (s + 1) := List.drop_eq_getElem_cons (by omega)
  have hget : ms.getD s 0 = ms[s] := by simp [List.getD, List.getElem?_eq_getElem (show s < ms.length by omega)]
  by_cases hlt : id < before dim ms s + volume dim s * ms[s]
  · have : so = (s, (id - before dim ms s) % volume dim s) := by
      show locSymLoop dim id s (before dim ms s) (ms.drop s) = _
      rw [hd, locSymLoop, if_pos (Or.inl hlt)]
    rw [this]
    refine ⟨by show s < _; omega, h1, ?_, rfl⟩
    show id < before dim ms (s + 1)
    rw [before_succ, hget]; exact hlt
  · have hlast : ms.drop (s + 1) ≠ [] := by
      intro hnil
      have hs : s + 1 = ms.length := by
        have := List.drop_eq_nil_iff.1 hnil
        omega
      rw [← hs, before_succ, hget] at h2
      exact hlt h2
    have hlen : s + 1 + 1 ≤ ms.length := by
      have : (ms.drop (s + 1)).length ≠ 0 := by rw [ne_eq, List.length_eq_zero_iff]; exact hlast
      rw [List.length_drop] at this
      omega
    have he : so = locSymLoop dim id (s + 1) (before dim ms (s + 1)) (ms.drop (s + 1)) := by
      show locSymLoop dim id s (before dim ms s) (ms.drop s) = _
      rw [hd, locSymLoop, if_neg (by simp only [hlast, or_false]; exact hlt), before_succ, hget]
    rw [he]
    apply locSymLoop_spec dim ms id (s + 1) hlen _ h2
    rw [before_succ, hget]; omega
termination_by ms.length - s

/-- **C13** (groups): a d.o.f. number `id` on an element splits into its group `s` and its place inside the group: `id`
lies in the block of group `s`, at place `lsid` of one of the copies. -/
theorem locSym_spec (dim : Nat) (ms : List Nat) (id : Nat) (h : id < before dim ms ms.length) :
    let so := locSym dim ms id
    so.1 < ms.length ∧ so.2 < volume dim so.1 ∧
      ∃ c, c < ms.getD so.1 0 ∧ id = before dim ms so.1 + volume dim so.1 * c + so.2 := by
  intro so
  have hpos : 0 + 1 ≤ ms.length := by
    apply Decidable.byContradiction
    intro hn
    have : ms.length = 0 := by omega
    rw [this] at h
    simp [before] at h
  obtain ⟨h1, h2, h3, h4⟩ := locSymLoop_spec dim ms id 0 hpos (by simp [before]) h
  have h0 : before dim ms 0 = 0 := rfl
  rw [h0, List.drop_zero] at h1 h2 h3 h4
  change so.1 < _ at h1
  change before dim ms so.1 ≤ _ at h2
  change _ < before dim ms (so.1 + 1) at h3
  change so.2 = (id - before dim ms so.1) % volume dim so.1 at h4
  rw [before_succ] at h3
  have hv : 0 < volume dim so.1 := by
    apply Nat.pos_of_ne_zero
    intro hz
    rw [hz, Nat.zero_mul] at h3
    omega
  refine ⟨h1, by rw [h4]; exact Nat.mod_lt _ hv, (id - before dim ms so.1) / volume dim so.1, ?_, ?_⟩
  · apply Nat.div_lt_of_lt_mul; omega
  · have := Nat.div_add_mod (id - before dim ms so.1) (volume dim so.1)
    rw [← h4] at this
    omega

theorem before_mono (dim : Nat) (ms : List Nat) {s t : Nat} (h : s ≤ t) : before dim ms s ≤ before dim ms t := by
  induction h with
  | refl => exact Nat.le_refl _
  | step _ ih => rw [before_succ]; omega

theorem locSym_unique (dim : Nat) (ms : List Nat) (s c l : Nat) (hs : s < ms.length) (hc : c < ms.getD s 0)
    (hl : l < volume dim s) :
    before dim ms s + volume dim s * c + l < before dim ms ms.length ∧
    locSym dim ms (before dim ms s + volume dim s * c + l) = (s, l) := by
  have hb : before dim ms s + volume dim s * c + l < before dim ms (s + 1) := by
    rw [before_succ]
    have := Nat.mul_le_mul_left (volume dim s) (show c + 1 ≤ ms.getD s 0 from hc)
    rw [Nat.mul_succ] at this
    omega
  have hlt : before dim ms s + volume dim s * c + l < before dim ms ms.length :=
    Nat.lt_of_lt_of_le hb (before_mono dim ms hs)
  refine ⟨hlt, ?_⟩
  obtain ⟨h1, h2, h3, h4⟩ := locSymLoop_spec dim ms _ 0 (by omega) (by simp [before]) hlt
  have h0 : before dim ms 0 = 0 := rfl
  rw [h0, List.drop_zero] at h1 h2 h3 h4
  change (locSym dim ms (before dim ms s + volume dim s * c + l)).1 < _ at h1
  change before dim ms (locSym dim ms (before dim ms s + volume dim s * c + l)).1 ≤ _ at h2
  change _ < before dim ms ((locSym dim ms (before dim ms s + volume dim s * c + l)).1 + 1) at h3
  change (locSym dim ms (before dim ms s + volume dim s * c + l)).2 =
    (before dim ms s + volume dim s * c + l - before dim ms (locSym dim ms (before dim ms s + volume dim s * c + l)).1) % volume dim (locSym dim ms (before dim ms s + volume dim s * c + l)).1 at h4
  generalize locSym dim ms (before dim ms s + volume dim s * c + l) = so at *
  have hso : so.1 = s := by
    rcases Nat.lt_trichotomy so.1 s with hlt' | heq | hgt
    · have := before_mono dim ms (show so.1 + 1 ≤ s from hlt'); omega
    · exact heq
    · have := before_mono dim ms (show s + 1 ≤ so.1 from hgt); omega
  rw [hso] at h4
  have e : before dim ms s + volume dim s * c + l - before dim ms s = volume dim s * c + l := by omega
  rw [e, Nat.mul_add_mod, Nat.mod_eq_of_lt hl] at h4
  exact Prod.ext hso h4

/-- **C13** (whole elements): for every symmetry structure `ms` (multiplicities of the groups, unbounded), every element
and every renumbering of the nodes, the renumbering of all d.o.f.s on the element is a bijection. -/
theorem reorder_bijective (p : List Nat) (hp : IsPerm p) (d e : Nat) (hd : d < 4) (he : e < elements d) (ms : List Nat)
    (hms : ms.length = groups d) :
    (∀ id, id < before d ms ms.length → ∃ j, j < before d ms ms.length ∧ reorder d e ms p id = some j) ∧
    (∀ j, j < before d ms ms.length → ∃ id, id < before d ms ms.length ∧ reorder d e ms p id = some j) := by
  have key : ∀ s c l, s < ms.length → c < ms.getD s 0 → l < volume d s →
      reorder d e ms p (before d ms s + volume d s * c + l) =
        (index d e s l p).map fun j => before d ms s + volume d s * c + j := by
    intro s c l hs hc hl
    unfold reorder
    simp only [(locSym_unique d ms s c l hs hc hl).2, Nat.add_sub_cancel]
  constructor
  · intro id hid
    obtain ⟨h1, h2, c, hc, h3⟩ := locSym_spec d ms id hid
    obtain ⟨j, hj, hij⟩ := (index_bijective p hp d e _ hd he (hms ▸ h1)).1 _ h2
    refine ⟨before d ms (locSym d ms id).1 + volume d (locSym d ms id).1 * c + j,
      (locSym_unique d ms _ c j h1 hc hj).1, ?_⟩
    conv => lhs; rw [h3]
    rw [key _ c _ h1 hc h2, hij]
    rfl
  · intro j hj
    obtain ⟨h1, h2, c, hc, h3⟩ := locSym_spec d ms j hj
    obtain ⟨i, hi, hij⟩ := (index_bijective p hp d e _ hd he (hms ▸ h1)).2.2 _ h2
    refine ⟨before d ms (locSym d ms j).1 + volume d (locSym d ms j).1 * c + i,
      (locSym_unique d ms _ c i h1 hc hi).1, ?_⟩
    rw [key _ c _ h1 hc hi, hij]
    simp only [Option.map_some]
    rw [← h3]

/-- a face with two S1, three S3 and one S6 groups; d.o.f. 12 is place 1 of the S6 group -/
example : before 2 [2, 3, 1] 3 = 17 ∧ locSym 2 [2, 3, 1] 12 = (2, 1) ∧ reorder 2 1 [2, 3, 1] [3, 1, 0, 2] 12 = some 15 := by
  decide

/-! ### action of the permutations of the nodes -/

/-- **remap**: an element is moved to the element formed by the images of its vertices. -/
theorem remap_correct (p : List Nat) (hp : IsPerm p) (d e : Nat) (hd : d < 4) (he : e < elements d) :
    remapElem d e p < elements d ∧
    ∀ v, v < 4 → (v ∈ vertices d e ↔ p.getD v 4 ∈ vertices d (remapElem d e p)) := by
  have key : ∀ p ∈ perms, ∀ d, d < 4 → ∀ e, e < elements d → remapElem d e p < elements d ∧
      ∀ v, v < 4 → (v ∈ vertices d e ↔ p.getD v 4 ∈ vertices d (remapElem d e p)) := by decide +kernel
  exact key p (mem_perms hp) d hd e he

/-- **representatives**: the permutation computed for a target element moves element 0 of the dimension to it. -/
theorem permToRepr_correct : ∀ d, d < 4 → ∀ e, e < elements d →
    IsPerm (permToRepr d e) ∧ remapElem d 0 (permToRepr d e) = e := by decide +kernel

/-- product of the generators `gs` along the word `w` -/
def word (gs : List (List Nat)) (w : List Nat) : List Nat := w.foldl (fun p k => comp (gs.getD k []) p) [0, 1, 2, 3]

/-- **stabilizers**: the generators of an element of dimension 0, 1, 2 preserve the element, and every permutation
preserving it is a product of generators. -/
theorem stabilizer_partial (d e : Nat) (hd : d < 3) (he : e < elements d) (p : List Nat) (hp : IsPerm p) :
    remapElem d e p = e ↔ ∃ w, (∀ k ∈ w, k < (stabilizer d e).length) ∧ word (stabilizer d e) w = p := by
  have hgen : ∀ d, d < 3 → ∀ e, e < elements d → ∀ g ∈ stabilizer d e, ∀ q ∈ perms, remapElem d e q = e →
      comp g q ∈ perms ∧ remapElem d e (comp g q) = e := by decide +kernel
  have hid : ∀ d, d < 3 → ∀ e, e < elements d → [0, 1, 2, 3] ∈ perms ∧ remapElem d e [0, 1, 2, 3] = e := by decide +kernel
  have hall : ∀ d, d < 3 → ∀ e, e < elements d → ∀ q ∈ perms, remapElem d e q = e →
      ∃ w ∈ [[], [0], [1], [0, 1], [1, 0], [0, 1, 0]], word (stabilizer d e) w = q := by decide +kernel
  constructor
  · intro h
    obtain ⟨w, hw, e'⟩ := hall d hd e he p (mem_perms hp) h
    refine ⟨w, ?_, e'⟩
    have hlen : ∀ d, d < 3 → ∀ e, e < elements d → (stabilizer d e).length = 2 := by decide
    rw [hlen d hd e he]
    have : ∀ w ∈ [[], [0], [1], [0, 1], [1, 0], [0, 1, 0]], ∀ k ∈ w, k < 2 := by decide
    exact this w hw
  · rintro ⟨w, hw, rfl⟩
    have key : ∀ (w : List Nat) (q : List Nat), (∀ k ∈ w, k < (stabilizer d e).length) → q ∈ perms → remapElem d e q = e →
        remapElem d e (w.foldl (fun p k => comp ((stabilizer d e).getD k []) p) q) = e := by
      intro w
      induction w with
      | nil => intro q _ _ h; exact h
      | cons a w ih =>
        intro q hw hq h
        have ha := hw a (by simp)
        have hm : (stabilizer d e).getD a [] ∈ stabilizer d e := by
          simp [List.getD, List.getElem?_eq_getElem ha]
        obtain ⟨h1, h2⟩ := hgen d hd e he _ hm q hq h
        exact ih _ (fun k hk => hw k (by simp [hk])) h1 h2
    exact key w _ hw (hid d hd e he).1 (hid d hd e he).2

/-- **stabilizer of the cell**: every permutation preserves the cell, but the generators returned for it only permute the
first three nodes: no product of them moves node 3. -/
theorem stabilizer_cell_wrong (w : List Nat) (hw : ∀ k ∈ w, k < (stabilizer 3 0).length) :
    (word (stabilizer 3 0) w).getD 3 4 = 3 ∧ IsPerm [3, 1, 2, 0] ∧ remapElem 3 0 [3, 1, 2, 0] = 0 := by
  refine ⟨?_, by decide⟩
  have hgen : ∀ g ∈ stabilizer 3 0, g.getD 3 4 = 3 := by decide
  have key : ∀ (w : List Nat) (q : List Nat), (∀ k ∈ w, k < (stabilizer 3 0).length) → q.length = 4 → q.getD 3 4 = 3 →
      (w.foldl (fun p k => comp ((stabilizer 3 0).getD k []) p) q).getD 3 4 = 3 := by
    intro w
    induction w with
    | nil => intro q _ _ h; exact h
    | cons a w ih =>
      intro q hw hl h
      have ha := hw a (by simp)
      have hm : (stabilizer 3 0).getD a [] ∈ stabilizer 3 0 := by
        simp [List.getD, List.getElem?_eq_getElem ha]
      refine ih _ (fun k hk => hw k (by simp [hk])) (by simp [comp, hl]) ?_
      have h3 : q[3]? = some 3 := by
        rw [List.getD, List.getElem?_eq_getElem (by omega)] at h
        rw [List.getElem?_eq_getElem (by omega)]
        simpa using h
      have := hgen _ hm
      simp only [comp, List.getD, List.getElem?_map, h3, Option.map_some, Option.getD_some] at this ⊢
      exact this
  exact key w _ hw rfl rfl

end Verif.Symmetry
