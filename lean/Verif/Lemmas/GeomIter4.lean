import Verif.Lemmas.GeomIter2
import Verif.Props.Sparsity
import Mathlib.Data.Multiset.Bind

/-!
The geometric order (`preferGeomOrdering`) of powers of primitive maps.
-/
namespace Verif.GeomIter
open Verif.DofMap Verif.Sparsity

/-- the states of a power on one element: component after component -/
def vItems (c : Counts) (d δ i : Nat) : List It :=
  (List.range d).flatMap fun m => (items c δ i).map (place (uniteObj c) m)

/-- the states of a power on the selected elements of dimension `δ` with numbers `≥ k` -/
def vDim (c : Counts) (d : Nat) (s : Sp) (δ k : Nat) : List It := (idsFrom s δ k).flatMap (vItems c d δ)

/-- the states of a power on the selected elements of dimension at least `δ` -/
def vRest (c : Counts) (d : Nat) (s : Sp) (δ : Nat) : List It :=
  (List.range' δ (4 - δ)).flatMap fun δ => vDim c d s δ 0

theorem vRest_end (c : Counts) (d : Nat) (s : Sp) (δ : Nat) (h : 4 ≤ δ) : vRest c d s δ = [] := by
  have : 4 - δ = 0 := by omega
  simp [vRest, this]

theorem vRest_step (c : Counts) (d : Nat) (s : Sp) (δ : Nat) (h : δ < 4) :
    vRest c d s δ = vDim c d s δ 0 ++ vRest c d s (δ + 1) := by
  have : 4 - δ = (4 - (δ + 1)) + 1 := by omega
  unfold vRest
  rw [this, List.range'_succ, List.flatMap_cons]

theorem vDim_step (c : Counts) (d : Nat) (s : Sp) (δ k : Nat) (h : k < count δ) :
    vDim c d s δ k = (if s.has δ k then vItems c d δ k else []) ++ vDim c d s δ (k + 1) := by
  unfold vDim
  rw [idsFrom_step s δ k h]
  split <;> simp

theorem vItems_head (c : Counts) (d δ i : Nat) (hd : 0 < d) : (vItems c d δ i).head? = (items c δ i).head? := by
  obtain ⟨m, rfl⟩ : ∃ m, d = m + 1 := ⟨d - 1, by omega⟩
  unfold vItems
  rw [List.range_succ_eq_map, List.flatMap_cons, List.head?_append]
  have : (items c δ i).map (place (uniteObj c) 0) = items c δ i := by
    rw [show place (uniteObj c) 0 = id from funext fun x => place_zero _ x]; simp
  rw [this]
  cases h : items c δ i with
  | nil =>
    rw [List.head?_nil, Option.none_or, List.head?_flatMap, List.findSome?_eq_none_iff]
    intro x _; rfl
  | cons a r => rfl

theorem vDim_head (c : Counts) (d : Nat) (s : Sp) (δ k : Nat) (hd : 0 < d) :
    (vDim c d s δ k).head? = (dimL c s δ k).head? := by
  unfold vDim dimL
  rw [List.head?_flatMap, List.head?_flatMap]
  exact findSome_congr fun i _ => vItems_head c d δ i hd

theorem vRest_head (c : Counts) (d : Nat) (s : Sp) (δ : Nat) (hd : 0 < d) :
    (vRest c d s δ).head? = (restL c s δ).head? := by
  unfold vRest restL
  rw [List.head?_flatMap, List.head?_flatMap]
  exact findSome_congr fun i _ => vDim_head c d s i 0 hd

/-! ### the sets used inside the loop -/

theorem single_has (δ i : Nat) (h : Elem δ i) (δ' j : Nat) (hd' : δ' < 4) (hj : j < 8) :
    ((Sp.none.set δ i false).getD Sp.none).has δ' j = decide (δ' = δ ∧ j = i) := by
  have hm := mem_allElems h
  have key : ∀ p ∈ allElems, ∀ δ', δ' < 4 → ∀ j, j < 8 →
      ((Sp.none.set p.1 p.2 false).getD Sp.none).has δ' j = decide (δ' = p.1 ∧ j = p.2) := by decide +kernel
  exact key (δ, i) hm δ' hd' j hj

theorem has_lt8 (s : Sp) (d i : Nat) (h : s.has d i = true) : i < 8 := by
  unfold Sp.has at h
  exact BitVec.lt_of_getLsbD h

theorem unsetElems_has (s : Sp) (δ n : Nat) (hδ : δ < 4) (hn : n < count δ) (δ' j : Nat) (hd' : δ' < 4) :
    (unsetElems s δ n).has δ' j = (s.has δ' j && !decide (δ' = δ ∧ j < n)) := by
  induction n with
  | zero => simp [unsetElems]
  | succ n ih =>
    have hstep : unsetElems s δ (n + 1) = ((unsetElems s δ n).unset δ n false).getD (unsetElems s δ n) := by
      unfold unsetElems
      rw [List.range_succ, List.foldl_append]
      rfl
    have h1 : ∀ t : Sp, ((t.unset δ n false).getD t).has δ' j = (t.has δ' j && !decide (δ' = δ ∧ j = n)) := by
      intro t
      have hn8 : n < 8 := by
        have : count δ ≤ 6 := by unfold count; split <;> omega
        omega
      have hb : ∀ x : BitVec 8, (x &&& ~~~ bit n).getLsbD j = (x.getLsbD j && !decide (j = n)) := by
        intro x
        rw [BitVec.getLsbD_and]
        cases hx : x.getLsbD j
        · rfl
        · have h8 := BitVec.lt_of_getLsbD hx
          have : ∀ n, n < 8 → ∀ j, j < 8 → (~~~ bit n).getLsbD j = !decide (j = n) := by decide +kernel
          rw [this n hn8 j h8]
      have h3 : δ = 3 → False := by
        rintro rfl
        have : count 3 = 1 := rfl
        omega
      have hk : δ = 0 ∨ δ = 1 ∨ δ = 2 ∨ δ = 3 := by omega
      have hk' : δ' = 0 ∨ δ' = 1 ∨ δ' = 2 ∨ δ' = 3 := by omega
      rcases hk with hk | hk | hk | hk <;> rcases hk' with hk' | hk' | hk' | hk' <;> subst hk <;> subst hk' <;>
        simp [Sp.unset, Sp.has, Sp.get, Sp.unsetNode, Sp.unsetEdge, Sp.unsetFace, Sp.unsetCell, -BitVec.getLsbD_and, hb]
      exact absurd (h3 rfl) id
    rw [hstep, h1, ih (by omega)]
    cases s.has δ' j
    · simp
    · by_cases h : δ' = δ
      · subst h
        simp only [Bool.true_and, true_and]
        by_cases hj : j < n
        · simp [hj]; omega
        · by_cases hj' : j = n
          · simp [hj']
          · simp [hj, hj']; omega
      · simp [h]

theorem unsetBelow_has (s : Sp) (n δ j : Nat) (hδ : δ < 4) (hn : n < 4) :
    (unsetBelow s n).has δ j = (s.has δ j && !decide (δ < n)) := by
  unfold Sp.has
  rw [unsetBelow_emptyDim s n δ hδ hn]
  by_cases h : δ < n <;> simp [h]

/-- the set left after the elements before `q` are removed -/
theorem cut_has (s : Sp) (q : Nat × Nat) (h1 : q.1 < 4) (h2 : q.2 < count q.1) (δ j : Nat) (hδ : δ < 4) :
    (unsetElems (unsetBelow s q.1) q.1 q.2).has δ j = (s.has δ j && !decide (δ < q.1 ∨ δ = q.1 ∧ j < q.2)) := by
  rw [unsetElems_has _ _ _ h1 h2 δ j hδ, unsetBelow_has s _ _ _ hδ h1, Bool.and_assoc]
  congr 1
  by_cases ha : δ < q.1 <;> by_cases hb : δ = q.1 ∧ j < q.2 <;> simp [ha, hb]

theorem cut_wf (s : Sp) (hs : Wf s) (q : Nat × Nat) (h1 : q.1 < 4) (h2 : q.2 < count q.1) :
    Wf (unsetElems (unsetBelow s q.1) q.1 q.2) := by
  intro δ hδ j hj
  rw [cut_has s q h1 h2 δ j hδ, Bool.and_eq_true] at hj
  exact hs δ hδ j hj.1

theorem cut_restL (c : Counts) (s : Sp) (q : Nat × Nat) (h1 : q.1 < 4) (h2 : q.2 < count q.1) :
    restL c (unsetElems (unsetBelow s q.1) q.1 q.2) 0 = dimL c s q.1 q.2 ++ restL c s (q.1 + 1) := by
  generalize ht : unsetElems (unsetBelow s q.1) q.1 q.2 = t
  have hh : ∀ δ, δ < 4 → ∀ j, t.has δ j = (s.has δ j && !decide (δ < q.1 ∨ δ = q.1 ∧ j < q.2)) := by
    intro δ hδ j; rw [← ht]; exact cut_has s q h1 h2 δ j hδ
  have hlow : ∀ δ, δ ≤ q.1 → restL c t 0 = restL c t δ := by
    intro δ
    induction δ with
    | zero => intro _; rfl
    | succ δ ih =>
      intro hδ
      rw [ih (by omega), restL_step c t δ (by omega)]
      have : idsFrom t δ 0 = [] := by
        rw [List.eq_nil_iff_forall_not_mem]
        intro i hi
        have h3 := ((mem_idsFrom t δ 0 i).1 hi).2.2
        rw [hh δ (by omega)] at h3
        have : δ < q.1 := by omega
        simp [this] at h3
      simp [dimL, this]
  rw [hlow q.1 (Nat.le_refl _), restL_step c t q.1 h1]
  congr 1
  · unfold dimL
    congr 1
    unfold idsFrom
    have hsplit : List.range' 0 (count q.1 - 0) = List.range' 0 q.2 ++ List.range' q.2 (count q.1 - q.2) := by
      have : List.range' 0 q.2 ++ List.range' (0 + 1 * q.2) (count q.1 - q.2) = List.range' 0 (q.2 + (count q.1 - q.2)) :=
        List.range'_append
      have e : q.2 + (count q.1 - q.2) = count q.1 - 0 := by omega
      rw [e] at this
      rw [← this]
      simp
    rw [hsplit, List.filter_append]
    have h0 : (List.range' 0 q.2).filter (t.has q.1) = [] := by
      rw [List.filter_eq_nil_iff]
      intro j hj
      have : j < q.2 := by simp only [List.mem_range'_1] at hj; omega
      rw [hh q.1 h1 j]
      simp [this]
    rw [h0, List.nil_append]
    apply List.filter_congr
    intro j hj
    have : ¬ j < q.2 := by simp only [List.mem_range'_1] at hj; omega
    rw [hh q.1 h1 j]
    simp [this]
  · unfold restL dimL
    apply List.flatMap_congr
    intro δ hδ
    simp only [List.mem_range'_1] at hδ
    congr 1
    unfold idsFrom
    apply List.filter_congr
    intro j _
    have e1 : ¬ δ < q.1 := by omega
    have e2 : ¬ δ = q.1 := by omega
    rw [hh δ (by omega) j]
    simp [e1, e2]

/-- where the loop goes after the last component of an element -/
theorem leave_eq (c : Counts) (s : Sp) (hs : Wf s) (δ i : Nat) (hδ : δ < 4) :
    (match s.nextPos (δ, i) with
      | none => none
      | some q => genBegin (uniteObj c) (unsetElems (unsetBelow s q.1) q.1 q.2)) =
    (dimL c s δ (i + 1)).head?.or (restL c s (δ + 1)).head? := by
  have main : ∀ q : Nat × Nat, q.1 < 4 → q.2 < count q.1 →
      genBegin (uniteObj c) (unsetElems (unsetBelow s q.1) q.1 q.2) =
        (dimL c s q.1 q.2).head?.or (restL c s (q.1 + 1)).head? := by
    intro q h1 h2
    rw [← genFrom_zero, genFrom_eq c _ (cut_wf s hs q h1 h2), cut_restL c s q h1 h2, List.head?_append]
  have hmem : ∀ δ k i r, idsFrom s δ k = i :: r → i < count δ := by
    intro δ k i r h
    have : i ∈ idsFrom s δ k := by rw [h]; simp
    exact ((mem_idsFrom s δ k i).1 this).2.1
  have hfrom : ∀ δ k i r, idsFrom s δ k = i :: r → idsFrom s δ i = i :: r := by
    intro δ k
    by_cases hk : k < count δ
    · intro i r h
      induction hm : count δ - k generalizing k with
      | zero => omega
      | succ m ih =>
        have h' := h
        rw [idsFrom_step s δ k hk] at h'
        split at h'
        · cases h'
          exact h
        · by_cases hk' : k + 1 < count δ
          · exact ih (k + 1) hk' h' (by omega)
          · rw [idsFrom_end s δ (k + 1) (by omega)] at h'
            simp at h'
    · intro i r h
      rw [idsFrom_end s δ k (by omega)] at h
      simp at h
  have hdims : ∀ δ, (match s.scanDims δ with
      | none => none
      | some q => genBegin (uniteObj c) (unsetElems (unsetBelow s q.1) q.1 q.2)) = (restL c s δ).head? := by
    intro δ
    induction hm : 4 - δ generalizing δ with
    | zero => rw [scanDims_end s δ (by omega), restL_end c s δ (by omega)]; rfl
    | succ m ih =>
      have hδ : δ < 4 := by omega
      rw [scanDims_step s hs δ hδ, restL_step c s δ hδ, List.head?_append]
      cases hids : idsFrom s δ 0 with
      | nil =>
        have h0 : dimL c s δ 0 = [] := by simp [dimL, hids]
        rw [h0]
        simpa using ih (δ + 1) (by omega)
      | cons a r =>
        simp only [List.head?_cons, Option.map_some, Option.some_or]
        rw [main (δ, a) hδ (hmem _ _ _ _ hids)]
        have : dimL c s δ a = dimL c s δ 0 := by unfold dimL; rw [hids, hfrom _ _ _ _ hids]
        simp only [this]
  unfold Sp.nextPos
  simp only [scan_eq]
  cases hids : idsFrom s δ (i + 1) with
  | nil =>
    have h0 : dimL c s δ (i + 1) = [] := by simp [dimL, hids]
    rw [h0]
    simpa using hdims (δ + 1)
  | cons a r =>
    simp only [List.head?_cons, Option.map_some]
    rw [main (δ, a) hδ (hmem _ _ _ _ hids)]
    have : dimL c s δ a = dimL c s δ (i + 1) := by unfold dimL; rw [hids, hfrom _ _ _ _ hids]
    simp only [this]

/-! ### the steps of the loop -/

theorem single_wf (δ i : Nat) (h : Elem δ i) : Wf ((Sp.none.set δ i false).getD Sp.none) := by
  intro δ' hδ' j hj
  rw [single_has δ i h δ' j hδ' (has_lt8 _ _ _ hj)] at hj
  obtain ⟨rfl, rfl⟩ := of_decide_eq_true hj
  exact h.2

theorem steps_single (c : Counts) (δ i : Nat) (h : Elem δ i) :
    Steps (uniteNext c ((Sp.none.set δ i false).getD Sp.none)) (items c δ i) none := by
  have hd : δ < 4 := h.1
  have hst := steps_items c _ (single_wf δ i h) δ i hd
  have h0 : ∀ δ' k, δ' < 4 → (δ' ≠ δ ∨ i < k) → idsFrom ((Sp.none.set δ i false).getD Sp.none) δ' k = [] := by
    intro δ' k hδ' hne
    rw [List.eq_nil_iff_forall_not_mem]
    intro j hj
    obtain ⟨h1, -, h3⟩ := (mem_idsFrom _ _ _ _).1 hj
    rw [single_has δ i h δ' j hδ' (has_lt8 _ _ _ h3)] at h3
    obtain ⟨ha, hb⟩ := of_decide_eq_true h3
    omega
  have e1 : dimL c ((Sp.none.set δ i false).getD Sp.none) δ (i + 1) = [] := by
    simp [dimL, h0 δ (i + 1) hd (Or.inr (by omega))]
  have e2 : restL c ((Sp.none.set δ i false).getD Sp.none) (δ + 1) = [] := by
    unfold restL
    rw [List.flatMap_eq_nil_iff]
    intro δ' hδ'
    simp only [List.mem_range'_1] at hδ'
    simp [dimL, h0 δ' 0 (by omega) (Or.inl (by omega))]
  rw [e1, e2] at hst
  exact hst

theorem items_valid (c : Counts) (δ i : Nat) (h : Elem δ i) (x : It) (hx : x ∈ items c δ i) :
    x.1 < (uniteObj c).numTet ∧ x.2.Valid c.get ∧ dimOf x.2.num = δ ∧ x.2.nelem = i := by
  obtain ⟨h1, h2, h3, h4, h5⟩ := (mem_items c δ i h.1 x).1 hx
  have hv : x.2.Valid c.get := ⟨h1, by rw [← count_dimOf _ h1, h2, h3]; exact h.2, h4⟩
  refine ⟨?_, hv, h2, h3⟩
  have hm : x ∈ restL c ((Sp.none.set δ i false).getD Sp.none) 0 := by
    rw [mem_restL]
    refine ⟨hv, ?_, h5⟩
    rw [h2, h3, single_has δ i h δ i h.1 (elem_lt h)]
    simp
  exact ((good_unite c _ (single_wf δ i h)).lists.sound x hm).1

theorem place_next_geom (d : Nat) (c : Counts) (s : Sp) (hs : Wf s) (δ i : Nat) (h : Elem δ i) (m : Nat) (x : It)
    (hx : x ∈ items c δ i) :
    vectorNext d (uniteIter c) true s (place (uniteObj c) m x) =
      match uniteNext c ((Sp.none.set δ i false).getD Sp.none) x with
      | some y => some (place (uniteObj c) m y)
      | none => if m + 1 ≠ d then (items c δ i).head?.map (place (uniteObj c) (m + 1))
          else (dimL c s δ (i + 1)).head?.or (restL c s (δ + 1)).head? := by
  obtain ⟨h1, ⟨hn, -, h2⟩, h3, h4⟩ := items_valid c δ i h x hx
  have e1 : (x.1 + m * (uniteObj c).numTet) / (uniteObj c).numTet = m := by
    rw [Nat.add_mul_div_right _ _ (by omega), Nat.div_eq_of_lt h1, Nat.zero_add]
  have e2 : (x.1 + m * (uniteObj c).numTet) % (uniteObj c).numTet = x.1 := by
    rw [Nat.add_mul_mod_self_right, Nat.mod_eq_of_lt h1]
  have e3 : (x.2.leid + m * (uniteObj c).numDof x.2.num) % (uniteObj c).numDof x.2.num = x.2.leid := by
    rw [Nat.add_mul_mod_self_right]; exact Nat.mod_eq_of_lt h2
  have hx' : ((x.1, { x.2 with leid := x.2.leid }) : It) = x := rfl
  have hnum : (if x.2.num = 2 ∧ (uniteObj c).numDof 1 > 0 then 1
      else if x.2.num = 4 ∧ (uniteObj c).numDof 3 > 0 then 3 else x.2.num) = kindFor (uniteObj c) δ := by
    rw [← h3]
    have h6 : x.2.num = 0 ∨ x.2.num = 1 ∨ x.2.num = 2 ∨ x.2.num = 3 ∨ x.2.num = 4 ∨ x.2.num = 5 := by omega
    have hc : (uniteObj c).numDof x.2.num > 0 := by show c.get x.2.num > 0; omega
    rcases h6 with h | h | h | h | h | h <;> rw [h] at hc ⊢ <;> simp only [dimOf, kindFor] <;> simp
    · omega
    · omega
  have hcomp : compact (uniteObj c) δ ≠ 0 := by
    intro hz
    have := items_head c δ i h.1
    rw [if_neg (by simp [hz])] at this
    rw [List.head?_eq_none_iff] at this
    rw [this] at hx
    simp at hx
  show vectorNext d (uniteIter c) true s (x.1 + m * (uniteObj c).numTet,
    { x.2 with leid := x.2.leid + m * (uniteObj c).numDof x.2.num }) = _
  have hobj : (uniteIter c).obj = uniteObj c := rfl
  have hnext : ∀ s' y, (uniteIter c).next true s' y = uniteNext c s' y := fun _ _ => rfl
  have hstart : ∀ s', (uniteIter c).start true s' = genBegin (uniteObj c) s' := fun _ => rfl
  simp only [vectorNext, hobj, hnext, hstart, e1, e2, e3, Bool.true_eq_false, if_false, h3, h4, hnum]
  rw [show ((x.1, (⟨x.2.num, i, x.2.leid⟩ : Loc)) : It) = x by rw [← h4]]
  cases uniteNext c ((Sp.none.set δ i false).getD Sp.none) x with
  | some y => rfl
  | none =>
    simp only
    by_cases hd : m + 1 ≠ d
    · rw [if_pos hd, if_pos hd, items_head c δ i h.1, if_pos hcomp]
      rfl
    · rw [if_neg hd, if_neg hd, ← leave_eq c s hs δ i h.1]
      cases s.nextPos (δ, i) with
      | none => rfl
      | some q =>
        simp only
        rw [show place (uniteObj c) 0 = id from funext fun x => place_zero _ x, Option.map_id, id]

theorem steps_vItems (d : Nat) (hd : 0 < d) (c : Counts) (s : Sp) (hs : Wf s) (δ i : Nat) (h : Elem δ i) :
    Steps (vectorNext d (uniteIter c) true s) (vItems c d δ i)
      ((vDim c d s δ (i + 1)).head?.or (vRest c d s (δ + 1)).head?) := by
  rw [vDim_head c d s δ _ hd, vRest_head c d s _ hd]
  have key : ∀ k, k ≤ d → Steps (vectorNext d (uniteIter c) true s)
      ((List.range k).flatMap fun m => (items c δ i).map (place (uniteObj c) m))
      (if k ≠ d then (items c δ i).head?.map (place (uniteObj c) k)
        else (dimL c s δ (i + 1)).head?.or (restL c s (δ + 1)).head?) := by
    intro k
    induction k with
    | zero => intro _; trivial
    | succ k ih =>
      intro hk
      have ih' := ih (by omega)
      rw [List.range_succ, List.flatMap_append, steps_append]
      simp only [List.flatMap_cons, List.flatMap_nil, List.append_nil]
      refine ⟨?_, ?_⟩
      · rw [if_pos (by omega)] at ih'
        rw [List.head?_map]
        cases hL : items c δ i with
        | nil =>
          have : (List.range k).flatMap (fun k => ([] : List It).map (place (uniteObj c) k)) = [] := by simp
          rw [this]; trivial
        | cons a r => rw [hL] at ih'; exact ih'
      · apply steps_map _ _ _ _ _ (steps_single c δ i h)
        intro x hx
        rw [place_next_geom d c s hs δ i h k x hx]
        cases uniteNext c ((Sp.none.set δ i false).getD Sp.none) x <;> rfl
  have := key d (Nat.le_refl d)
  rw [if_neg (by simp)] at this
  exact this

theorem steps_vDim (d : Nat) (hd : 0 < d) (c : Counts) (s : Sp) (hs : Wf s) (δ : Nat) (hδ : δ < 4) (k : Nat) :
    Steps (vectorNext d (uniteIter c) true s) (vDim c d s δ k) (vRest c d s (δ + 1)).head? := by
  by_cases h : k < count δ
  · rw [vDim_step c d s δ k h, steps_append]
    refine ⟨?_, steps_vDim d hd c s hs δ hδ (k + 1)⟩
    split
    · exact steps_vItems d hd c s hs δ k ⟨hδ, h⟩
    · trivial
  · simp [vDim, idsFrom_end s δ k (by omega), Steps]
termination_by count δ - k

theorem steps_vRest (d : Nat) (hd : 0 < d) (c : Counts) (s : Sp) (hs : Wf s) (δ : Nat) :
    Steps (vectorNext d (uniteIter c) true s) (vRest c d s δ) none := by
  by_cases h : δ < 4
  · rw [vRest_step c d s δ h, steps_append]
    refine ⟨?_, steps_vRest d hd c s hs (δ + 1)⟩
    rw [Option.or_none]
    exact steps_vDim d hd c s hs δ h 0
  · rw [vRest_end c d s δ (by omega)]
    trivial
termination_by 4 - δ

/-- the geometric order is a rearrangement of the default order -/
theorem vRest_perm (c : Counts) (d : Nat) (s : Sp) : (vRest c d s 0).Perm (vectorL d (uniteObj c) (restL c s 0)) := by
  rw [← Multiset.coe_eq_coe]
  unfold vRest vDim vItems vectorL restL dimL
  have hc : ∀ {α β : Type} (l : List α) (f : α → List β),
      ((l.flatMap f : List β) : Multiset β) = (l : Multiset α).bind fun a => (f a : Multiset β) :=
    fun l f => (Multiset.coe_bind l f).symm
  have hm : ∀ (L : List It) k, ((L.map (place (uniteObj c) k) : List It) : Multiset It) =
    (L : Multiset It).map (place (uniteObj c) k) := fun _ _ => rfl
  simp only [hc, hm, Multiset.map_bind]
  conv_rhs => rw [Multiset.bind_bind]
  congr 1
  funext δ
  conv_rhs => rw [Multiset.bind_bind]

theorem geom_vector (c : Counts) (d : Nat) (hd : 0 < d) (s : Sp) (hs : Wf s) :
    (vectorIter d (uniteIter c)).start true s = (vRest c d s 0).head? ∧
    Steps ((vectorIter d (uniteIter c)).next true s) (vRest c d s 0) none ∧
    Lists (vectorObj d (uniteObj c)).numTet (vectorObj d (uniteObj c)).locate s.has (vRest c d s 0) := by
  refine ⟨?_, steps_vRest d hd c s hs 0, ?_⟩
  · show genBegin (vectorObj d (uniteObj c)) s = _
    rw [genBegin_vector d _ s hd, ← genFrom_zero, genFrom_eq c s hs, vRest_head c d s 0 hd]
  · have hl := (good_vector d (uniteIter c) s _ (good_unite c s hs) (unite_bijective c).loc rfl).lists
    have hp := vRest_perm c d s
    exact ⟨fun x hx => hl.sound x (hp.mem_iff.1 hx), fun g h1 h2 => hp.mem_iff.2 (hl.complete g h1 h2),
      hp.nodup_iff.2 hl.once⟩

end Verif.GeomIter
