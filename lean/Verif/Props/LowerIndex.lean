import Verif.Model.LowerIndex
import Verif.Props.Ordered
import Verif.Props.ExtBound

/-!
C83: `OrderedEnumerator::getLowerOrderIndex` gives the iterator from which on the d.o.f.s of the process are not before the
given place of the order.
-/
namespace Verif.Enumerator
open Verif.ExtEnum Verif.Spec.ExtEnum

variable {vars : List Var} {own : Nat → List Nat} {b total : Nat → Nat} {order : List Nat} {rev : Bool} {o : Ordered}

/-- What is compared of a d.o.f. of the process: the element is counted by its place on the process. -/
def ownKey (order : List Nat) (b : Nat → Nat) (y : Nat × Addr) : List Nat := sortKey order (y.1 - b (dimOf y.2.num)) y.2

/-- What is compared of a place of the order: an element below those of the process is taken for the first. -/
def placeKey (order : List Nat) (b : Nat → Nat) (gid : Int) (a : Addr) : List Nat := sortKey order (gid - b (dimOf a.num)).toNat a

theorem place_le_iff {X : Finset (List Nat)} {q y : List Nat} (hy : y ∈ X) : place X q ≤ place X y ↔ ¬ y < q := by
  constructor
  · intro h hlt
    have : place X y < place X q := by
      refine Finset.card_lt_card (Finset.ssubset_iff_of_subset ?_ |>.2 ⟨y, ?_, ?_⟩)
      · intro z hz
        rw [Finset.mem_filter] at hz ⊢
        exact ⟨hz.1, lt_trans hz.2 hlt⟩
      · exact Finset.mem_filter.2 ⟨hy, hlt⟩
      · simp
    omega
  · intro h
    refine Finset.card_le_card fun z hz => ?_
    rw [Finset.mem_filter] at hz ⊢
    exact ⟨hz.1, lt_of_lt_of_le hz.2 (not_lt.1 h)⟩

theorem place_lt {X : Finset (List Nat)} {y : List Nat} (hy : y ∈ X) : place X y < X.card :=
  Finset.card_lt_card (Finset.filter_ssubset.2 ⟨y, hy, lt_irrefl _⟩)

theorem place_full {X : Finset (List Nat)} {q : List Nat} (h : ∀ y ∈ X, y < q) : place X q = X.card := by
  rw [place, Finset.filter_true_of_mem h]

/-- **C83**: at a d.o.f. of the process the iterator starts with its number, in every arrangement, reversed or not. -/
theorem lower_own (h : Arranged vars own b total order rev o) {x : Nat × Addr} (hx : OwnedDof vars own x) :
    o.lower x.1 x.2 = o.byMap x := by
  obtain ⟨hp, hs, hr, hB⟩ := h.data
  have hxm := (mem_ordered (o := o) hp h.contiguous h.bound hs (vars := vars) (total := total) _).2 ⟨x, hx, rfl⟩
  have hv : o.lowerValues x.1 x.2 = o.values x := by
    simp only [Ordered.lowerValues, Ordered.values]
    congr 4
    split <;> omega
  rw [Ordered.lower, Ordered.byMap, hv, lowerBound_mem hB hxm, rank_eq hB hxm, Option.map_some, Option.map_some]
  have := place_lt hxm
  rw [← size_eq hB] at this
  rw [if_neg (by omega)]

theorem kindFirst_lt {perm : List Nat} (hp : Perm5 order perm) (hn : order.Perm (List.range 5)) (hk : KindFirst order) : shift perm 2 < perm.getD 3 0 := by
  have hl : order.length = 5 := by simpa using hn.length_eq
  have hnd : order.Nodup := hn.nodup_iff.2 List.nodup_range
  have hget : ∀ k < 5, 0 < k → order[perm.getD k 0]? = some k := by
    intro k hk5 hk0
    have h1 := hp.get [0, 1, 2, 3, 4] k hk5
    rw [hp.key] at h1
    rw [List.getD_eq_getElem?_getD, List.getElem?_map] at h1
    rcases hc : order[perm.getD k 0]? with _ | i
    · rw [hc] at h1
      match k, hk5, hk0 with
      | 1, _, _ | 2, _, _ | 3, _, _ | 4, _, _ => simp at h1
    · rw [hc] at h1
      have hi : i < 5 := (perm_range5.1 hn).2.1 i (List.mem_of_getElem? hc)
      match k, hk5, hk0, i, hi with
      | 1, _, _, 0, _ | 1, _, _, 1, _ | 1, _, _, 2, _ | 1, _, _, 3, _ | 1, _, _, 4, _ | 2, _, _, 0, _ | 2, _, _, 1, _ | 2, _, _, 2, _ | 2, _, _, 3, _
      | 2, _, _, 4, _ | 3, _, _, 0, _ | 3, _, _, 1, _ | 3, _, _, 2, _ | 3, _, _, 3, _ | 3, _, _, 4, _ | 4, _, _, 0, _ | 4, _, _, 1, _ | 4, _, _, 2, _
      | 4, _, _, 3, _ | 4, _, _, 4, _ => simp at h1 ⊢
  have h3 := hget 3 (by omega) (by omega)
  have h2 := hget 2 (by omega) (by omega)
  obtain ⟨hlt, he⟩ := List.getElem?_eq_some_iff.1 h3
  have hsplit : order = order.take (perm.getD 3 0) ++ 3 :: order.drop (perm.getD 3 0 + 1) := by
    conv_lhs => rw [← List.take_append_drop (perm.getD 3 0) order, List.drop_eq_getElem_cons hlt, he]
  obtain ⟨p, hp1, hp2⟩ := List.getElem_of_mem (hk _ _ hsplit)
  rw [List.getElem_take] at hp2
  rw [List.length_take] at hp1
  obtain ⟨hlt2, he2⟩ := List.getElem?_eq_some_iff.1 h2
  have : p = perm.getD 2 0 := (List.Nodup.getElem_inj_iff hnd).1 (hp2.trans he2.symm)
  unfold shift
  split <;> omega

/-- The number found, for a place of a used dimension, when every used dimension has elements on the process and the kind is
compared before the element. -/
theorem lower_place (h : Arranged vars own b total order rev o) (hk : KindFirst order) (hown : ∀ d < 4, addrs vars d ≠ [] → own d ≠ []) (gid : Int) {a : Addr}
    (ha : addrs vars (dimOf a.num) ≠ []) : ∃ X : Finset (List Nat), (∀ z, z ∈ X ↔ ∃ y, OwnedDof vars own y ∧ z = ownKey order b y) ∧ X.card = o.emap.size ∧
      (∀ y, OwnedDof vars own y → o.byMap y = some ((if rev then o.emap.size - place X (ownKey order b y) - 1 else place X (ownKey order b y)) + o.s.begInd)) ∧
      o.lower gid a = some (if place X (placeKey order b gid a) = o.emap.size then o.s.endInd else
        (if rev then o.emap.size - place X (placeKey order b gid a) - 1 else place X (placeKey order b gid a)) + o.s.begInd) := by
  obtain ⟨hp, hs, hr, hB⟩ := h.data
  have hmem := mem_ordered (o := o) hp h.contiguous h.bound hs (vars := vars) (total := total)
  obtain ⟨perm, harr, _⟩ := Option.bind_eq_some_iff.1 h.setup
  have hperm := (arrange_data h.len harr).2.1
  have hsort : ∀ e (z : Addr), sortKey order e z = put5 o.perm [z.var, z.comp, z.num, e, z.dof] := by
    intro e z
    rw [hp.key, sortKey]
    refine List.map_congr_left fun k hk => ?_
    have hk5 := (perm_range5.1 hperm).2.1 k hk
    match k, hk5 with
    | 0, _ => rfl
    | 1, _ => rfl
    | 2, _ => rfl
    | 3, _ => rfl
    | 4, _ => rfl
  have hbeg : ∀ d < 4, addrs vars d ≠ [] → o.s.begElem d = b d := by
    intro d hd hne
    obtain ⟨c, hc⟩ := List.exists_mem_of_ne_nil _ hne
    have hbe := setup_begElem (total := total) h.contiguous _ (h.bound _) (used_of_addr' hd hc)
    rw [if_neg (hown d hd hne)] at hbe
    rw [hs, hbe]
  have hkey : ∀ y, OwnedDof vars own y → ownKey order b y = put5 o.perm (o.values y) := by
    intro y hy
    rw [ownKey, hsort, Ordered.values, hbeg _ (dimOf_lt' _) (List.ne_nil_of_mem hy.2)]
  have hq : placeKey order b gid a = put5 o.perm (o.lowerValues gid a) := by
    rw [placeKey, hsort, Ordered.lowerValues, hbeg _ (dimOf_lt' _) ha]
    congr 5
    split <;> omega
  have hne : baseVals o.perm vars ≠ [] := by
    obtain ⟨c, hc⟩ := List.exists_mem_of_ne_nil _ ha
    obtain ⟨_, h3, h4⟩ := (mem_addrs vars _ (dimOf_lt' _) _).1 hc
    obtain ⟨_, v, hv, hc', hj⟩ := (mem_addrsKind vars _ _).1 h4
    exact List.ne_nil_of_mem ((mem_baseVals o.perm vars _).2 ⟨c.var, v, c.comp, c.num, c.dof, hv, h3, hc', hj, rfl⟩)
  have hpos : ∀ z ∈ baseVals o.perm vars, 0 < (Enumerator.setup (numDofs vars) own total).numElem (dimOf (nth z (shift o.perm 2))) := by
    intro z hz
    obtain ⟨vi, v, c, et, j, hv, het, hc, hj, rfl⟩ := (mem_baseVals o.perm vars z).1 hz
    rw [hp.at2]
    have hmemA : (⟨et, vi, c, j⟩ : Addr) ∈ addrs vars (dimOf et) :=
      (mem_addrs vars _ (dimOf_lt' _) _).2 ⟨rfl, het, (mem_addrsKind vars _ _).2 ⟨rfl, v, hv, hc, hj⟩⟩
    have hu := used_of_addr' (dimOf_lt' et) hmemA
    show 0 < (Enumerator.setup (numDofs vars) own total).numElem (dimOf et)
    rw [setup_numElem _ _ _ _ hu]
    exact List.length_pos_of_ne_nil (hown _ (dimOf_lt' _) (List.ne_nil_of_mem hmemA))
  refine ⟨_, fun z => ?_, (size_eq hB).symm, fun y hy => ?_, ?_⟩
  · rw [hmem]
    refine exists_congr fun y => and_congr_right fun hy => ?_
    rw [hkey y hy]
  · rw [byMap_rank (rank_eq hB ((hmem _).2 ⟨y, hy, rfl⟩)), hkey y hy, hr]
  · rw [Ordered.lower, lowerBound_high hB hne hpos (kindFirst_lt hp hperm hk) (put5_length _ _), hq, hr]
    rfl

theorem begInd_le (h : Arranged vars own b total order rev o) : o.s.begInd ≤ o.s.endInd := by
  rw [h.data.2.1, ← init_end]
  simp only [Setup.init]; omega

/-- **C83**, partial: the d.o.f.s from the iterator on are those not before the place.  Missing: the arrangements comparing the
element before the kind (`lowerBound_off_wrong`), processes without elements of a used dimension, the reversed order
(`lower_reverse_partial`, `lower_reverse_wrong`). -/
theorem lower_partial (h : Arranged vars own b total order false o) (hk : KindFirst order) (hown : ∀ d < 4, addrs vars d ≠ [] → own d ≠ []) (gid : Int)
    {a : Addr} (ha : addrs vars (dimOf a.num) ≠ []) : ∃ i, o.lower gid a = some i ∧ o.s.begInd ≤ i ∧ i ≤ o.s.endInd ∧
      ∀ y j, OwnedDof vars own y → o.byMap y = some j → (i ≤ j ↔ ¬ ownKey order b y < placeKey order b gid a) := by
  obtain ⟨X, hX, hc, hby, hlo⟩ := lower_place h hk hown gid ha
  have hnum := ordered_numbering h
  have hin : ∀ y, OwnedDof vars own y → ownKey order b y ∈ X := fun y hy => (hX _).2 ⟨y, hy, rfl⟩
  have hbe := begInd_le h
  simp only [Bool.false_eq_true, if_false] at hby hlo
  by_cases hf : ∃ z ∈ X, ¬ z < placeKey order b gid a
  · obtain ⟨z, hz, hzq⟩ := hf
    obtain ⟨y0, hy0, rfl⟩ := (hX z).1 hz
    have h1 := (place_le_iff hz).2 hzq
    have h2 := place_lt hz
    obtain ⟨n, hn, _, hn2⟩ := hnum.1 y0 hy0
    rw [hby y0 hy0] at hn
    have hn := Option.some.inj hn
    rw [if_neg (by omega)] at hlo
    refine ⟨_, hlo, by omega, by omega, fun y j hy hj => ?_⟩
    rw [hby y hy] at hj
    have hj := Option.some.inj hj
    rw [← place_le_iff (hin y hy)]
    omega
  · have hf : ∀ z ∈ X, z < placeKey order b gid a := fun z hz => by
      by_contra hc
      exact hf ⟨z, hz, hc⟩
    rw [if_pos (by rw [place_full hf, hc])] at hlo
    refine ⟨_, hlo, hbe, le_refl _, fun y j hy hj => ?_⟩
    obtain ⟨n, hn, _, hn2⟩ := hnum.1 y hy
    rw [hj] at hn
    have hn := Option.some.inj hn
    have := hf _ (hin y hy)
    constructor
    · intro; omega
    · intro hc; exact absurd this hc

/-- **C83**, partial: in the reversed order, when some d.o.f. of the process is not below the place, the iterator starts with the
last number that is not below the place, so that the d.o.f. it starts with may be before the place in the reversed order.
Missing: the d.o.f.s from the iterator on are not those not above the place (`lower_reverse_wrong`). -/
theorem lower_reverse_partial (h : Arranged vars own b total order true o) (hk : KindFirst order) (hown : ∀ d < 4, addrs vars d ≠ [] → own d ≠ []) (gid : Int)
    {a : Addr} (ha : addrs vars (dimOf a.num) ≠ []) (hq : ∃ y, OwnedDof vars own y ∧ ¬ ownKey order b y < placeKey order b gid a) :
    ∃ i, o.lower gid a = some i ∧ ∀ y j, OwnedDof vars own y → o.byMap y = some j → (j ≤ i ↔ ¬ ownKey order b y < placeKey order b gid a) := by
  obtain ⟨X, hX, hc, hby, hlo⟩ := lower_place h hk hown gid ha
  have hin : ∀ y, OwnedDof vars own y → ownKey order b y ∈ X := fun y hy => (hX _).2 ⟨y, hy, rfl⟩
  simp only [if_true] at hby hlo
  obtain ⟨y0, hy0, hzq⟩ := hq
  have h1 := (place_le_iff (hin y0 hy0)).2 hzq
  have h2 := place_lt (hin y0 hy0)
  rw [if_neg (by omega)] at hlo
  refine ⟨_, hlo, fun y j hy hj => ?_⟩
  rw [hby y hy] at hj
  have hj := Option.some.inj hj
  have h3 := place_lt (hin y hy)
  rw [← place_le_iff (hin y hy)]
  omega

/-- **C83**, the violation: in the reversed order, for a place above all d.o.f.s of the process, which all come after it in this
order, the iterator is at the end and gives none of them. -/
theorem lower_reverse_wrong (h : Arranged vars own b total order true o) (hk : KindFirst order) (hown : ∀ d < 4, addrs vars d ≠ [] → own d ≠ []) (gid : Int)
    {a : Addr} (ha : addrs vars (dimOf a.num) ≠ []) (hq : ∀ y, OwnedDof vars own y → ownKey order b y < placeKey order b gid a) :
    o.lower gid a = some o.s.endInd ∧ ∀ y j, OwnedDof vars own y → o.byMap y = some j → j < o.s.endInd := by
  obtain ⟨X, hX, hc, hby, hlo⟩ := lower_place h hk hown gid ha
  have hf : ∀ z ∈ X, z < placeKey order b gid a := fun z hz => by
    obtain ⟨y, hy, rfl⟩ := (hX z).1 hz
    exact hq y hy
  rw [if_pos (by rw [place_full hf, hc])] at hlo
  refine ⟨hlo, fun y j hy hj => ?_⟩
  obtain ⟨n, hn, _, hn2⟩ := (ordered_numbering h).1 y hy
  rw [hj] at hn
  have hn := Option.some.inj hn
  omega

/-! ### The mesh of `Props/Ordered.lean` -/

section
theorem exOwned : ∀ d < 4, addrs exVars d ≠ [] → exOwn d ≠ [] := by
  intro d hd
  match d, hd with
  | 0, _ => intro _; decide
  | 1, _ => intro _; decide
  | 2, _ => intro hc; exact absurd (by decide +kernel) hc
  | 3, _ => intro hc; exact absurd (by decide +kernel) hc

theorem exKind : KindFirst [0, 1, 2, 3, 4] := by
  intro l1 l2 h
  rcases l1 with _ | ⟨a, _ | ⟨c, _ | ⟨d, l1⟩⟩⟩ <;> simp at h ⊢
  omega

theorem exPlain : Arranged exVars exOwn exB (fun _ => 9) [0, 1, 2, 3, 4] false (exOrdered [0, 1, 2, 3, 4] false) := ⟨rfl, exContiguous, exBound, rfl⟩

/-- Places with elements below, among and above those of the process. -/
example : (exOrdered [0, 1, 2, 3, 4] false).lower 2 ⟨0, 0, 1, 0⟩ = some 24 ∧ (exOrdered [0, 1, 2, 3, 4] false).lower (-7) ⟨0, 0, 0, 0⟩ = some 21 ∧
    (exOrdered [0, 1, 2, 3, 4] false).lower 8 ⟨0, 0, 0, 0⟩ = some 23 ∧ (exOrdered [0, 1, 2, 3, 4] false).lower 9 ⟨1, 1, 0, 0⟩ = some 29 := by decide +kernel
example : (exOrdered [3, 2, 0, 4, 1] false).lower ((6 : Nat) : Int) ⟨0, 0, 0, 0⟩ = (exOrdered [3, 2, 0, 4, 1] false).byMap (6, ⟨0, 0, 0, 0⟩) :=
  lower_own (x := (6, ⟨0, 0, 0, 0⟩)) exElem exNode
example : ∃ i, (exOrdered [0, 1, 2, 3, 4] false).lower 8 ⟨0, 0, 0, 0⟩ = some i ∧ (exOrdered [0, 1, 2, 3, 4] false).s.begInd ≤ i ∧
    i ≤ (exOrdered [0, 1, 2, 3, 4] false).s.endInd ∧ ∀ y j, OwnedDof exVars exOwn y → (exOrdered [0, 1, 2, 3, 4] false).byMap y = some j →
      (i ≤ j ↔ ¬ ownKey [0, 1, 2, 3, 4] exB y < placeKey [0, 1, 2, 3, 4] exB 8 ⟨0, 0, 0, 0⟩) :=
  lower_partial exPlain exKind exOwned 8 (by decide +kernel)

/-- In the reversed order the place behind the node 6 gives the number of the edge, which comes before it. -/
example : (exOrdered [0, 1, 2, 3, 4] true).lower 8 ⟨0, 0, 0, 0⟩ = some 26 ∧ (exOrdered [0, 1, 2, 3, 4] true).byMap (3, ⟨1, 0, 0, 0⟩) = some 26 ∧
    (exOrdered [0, 1, 2, 3, 4] true).byMap (6, ⟨0, 0, 0, 0⟩) = some 27 := by decide +kernel
example : ∃ i, (exOrdered [0, 1, 2, 3, 4] true).lower 8 ⟨0, 0, 0, 0⟩ = some i ∧ ∀ y j, OwnedDof exVars exOwn y →
    (exOrdered [0, 1, 2, 3, 4] true).byMap y = some j → (j ≤ i ↔ ¬ ownKey [0, 1, 2, 3, 4] exB y < placeKey [0, 1, 2, 3, 4] exB 8 ⟨0, 0, 0, 0⟩) :=
  lower_reverse_partial exNatural exKind exOwned 8 (by decide +kernel) ⟨(3, ⟨1, 0, 1, 0⟩), exEdge, by decide +kernel⟩

/-- The variable 2 is above all. -/
example : (exOrdered [0, 1, 2, 3, 4] true).lower 5 ⟨0, 2, 0, 0⟩ = some (exOrdered [0, 1, 2, 3, 4] true).s.endInd :=
  (lower_reverse_wrong exNatural exKind exOwned 5 (a := ⟨0, 2, 0, 0⟩) (by decide +kernel) (by
    intro y hy
    obtain ⟨_, _, h4⟩ := (mem_addrs exVars _ (dimOf_lt' _) _).1 hy.2
    obtain ⟨_, v, hv, _, _⟩ := (mem_addrsKind exVars _ _).1 h4
    have : y.2.var < 2 := (List.getElem?_eq_some_iff.1 hv).1
    simp only [ownKey, placeKey, sortKey, List.map_cons, List.cons_lt_cons_iff, coord]
    omega)).1

/-- **C83**, the violation: with the element compared before the kind the search dereferences the end (ext_array_enum.inl:831). -/
theorem lower_elem_first_wrong : ∃ gid a, addrs exVars (dimOf a.num) ≠ [] ∧ (exOrdered [3, 2, 0, 4, 1] false).lower gid a = none :=
  ⟨3, ⟨1, 0, 5, 0⟩, by decide +kernel, by decide +kernel⟩
end

end Verif.Enumerator
