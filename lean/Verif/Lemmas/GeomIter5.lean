import Verif.Lemmas.GeomIter3
import Verif.Lemmas.GeomIter4

/-!
The geometric order of products on the elements of one dimension.
-/
namespace Verif.GeomIter
open Verif.DofMap Verif.Sparsity

/-- the states on the selected elements, when `E δ i` are those of one element -/
def allL (E : Nat → Nat → List It) (s : Sp) : List It :=
  (List.range' 0 4).flatMap fun δ => (idsFrom s δ 0).flatMap (E δ)

/-- what a factor of a product promises about the geometric order; `E δ i` are its states on one element -/
structure Fac (o : IterObj) (E : Nat → Nat → List It) : Prop where
  start : ∀ s, Wf s → o.start true s = (allL E s).head?
  steps : ∀ δ i, Elem δ i → Steps (o.next true ((Sp.none.set δ i false).getD Sp.none)) (E δ i) none
  head : ∀ δ i, Elem δ i → (E δ i).head? = if compact o.obj δ ≠ 0 then
    some (o.obj.tetId ⟨kindFor o.obj δ, i, 0⟩, ⟨kindFor o.obj δ, i, 0⟩) else none
  mem : ∀ δ i, Elem δ i → ∀ x ∈ E δ i, dimOf x.2.num = δ ∧ x.2.num < 6 ∧ x.2.nelem = i ∧ x.2.leid < o.obj.numDof x.2.num
  lists : ∀ s, Wf s → Lists o.obj.numTet o.obj.locate s.has (allL E s)

theorem fac_unite (c : Counts) : Fac (uniteIter c) (items c) where
  start s hs := (good_unite c s hs).start
  steps δ i h := steps_single c δ i h
  head δ i h := items_head c δ i h.1
  mem δ i h x hx := by
    obtain ⟨-, h2, h3, h4⟩ := items_valid c δ i h x hx
    exact ⟨h3, h2.1, h4, h2.2.2⟩
  lists s hs := (good_unite c s hs).lists

theorem vector_compact (d : Nat) (hd : 0 < d) (b : Obj) (δ : Nat) :
    (compact (vectorObj d b) δ ≠ 0 ↔ compact b δ ≠ 0) ∧ kindFor (vectorObj d b) δ = kindFor b δ := by
  have hz : ∀ n, d * n = 0 ↔ n = 0 := by
    intro n
    rw [Nat.mul_eq_zero]
    omega
  have hp : ∀ n, d * n > 0 ↔ n > 0 := by
    intro n
    have := hz n
    omega
  constructor
  · unfold compact
    split <;> simp only [vectorObj, ← Nat.mul_add, ne_eq, hz]
  · unfold kindFor
    split <;> simp only [vectorObj, hp]

theorem steps_vItems_single (d : Nat) (hd : 0 < d) (c : Counts) (δ i : Nat) (h : Elem δ i) :
    Steps (vectorNext d (uniteIter c) true ((Sp.none.set δ i false).getD Sp.none)) (vItems c d δ i) none := by
  have h1 := steps_vItems d hd c _ (single_wf δ i h) δ i h
  have hst := steps_single c δ i h
  have e : ((vDim c d ((Sp.none.set δ i false).getD Sp.none) δ (i + 1)).head?.or
      (vRest c d ((Sp.none.set δ i false).getD Sp.none) (δ + 1)).head?) = none := by
    have h0 : ∀ δ' k, δ' < 4 → (δ' ≠ δ ∨ i < k) → idsFrom ((Sp.none.set δ i false).getD Sp.none) δ' k = [] := by
      intro δ' k hδ' hne
      rw [List.eq_nil_iff_forall_not_mem]
      intro j hj
      obtain ⟨h1, -, h3⟩ := (mem_idsFrom _ _ _ _).1 hj
      rw [single_has δ i h δ' j hδ' (has_lt8 _ _ _ h3)] at h3
      obtain ⟨ha, hb⟩ := of_decide_eq_true h3
      omega
    have e1 : vDim c d ((Sp.none.set δ i false).getD Sp.none) δ (i + 1) = [] := by
      simp [vDim, h0 δ (i + 1) h.1 (Or.inr (by omega))]
    have e2 : vRest c d ((Sp.none.set δ i false).getD Sp.none) (δ + 1) = [] := by
      unfold vRest
      rw [List.flatMap_eq_nil_iff]
      intro δ' hδ'
      simp only [List.mem_range'_1] at hδ'
      simp [vDim, h0 δ' 0 (by omega) (Or.inl (by omega))]
    rw [e1, e2]
    rfl
  rw [e] at h1
  exact h1

theorem fac_vector (d : Nat) (hd : 0 < d) (c : Counts) : Fac (vectorIter d (uniteIter c)) (vItems c d) where
  start s hs := (geom_vector c d hd s hs).1
  steps δ i h := steps_vItems_single d hd c δ i h
  head δ i h := by
    show _ = if compact (vectorObj d (uniteObj c)) δ ≠ 0 then some ((vectorObj d (uniteObj c)).tetId
      ⟨kindFor (vectorObj d (uniteObj c)) δ, i, 0⟩, (⟨kindFor (vectorObj d (uniteObj c)) δ, i, 0⟩ : Loc)) else none
    obtain ⟨h1, h2⟩ := vector_compact d hd (uniteObj c) δ
    rw [vItems_head c d δ i hd, items_head c δ i h.1]
    by_cases hc : compact (uniteObj c) δ ≠ 0
    · rw [if_pos hc, if_pos (h1.2 hc)]
      rw [h2]
      simp [vectorObj]
    · rw [if_neg hc, if_neg (fun h => hc (h1.1 h))]
  mem δ i h x hx := by
    obtain ⟨m, hm, hx⟩ := List.mem_flatMap.1 hx
    obtain ⟨y, hy, rfl⟩ := List.mem_map.1 hx
    obtain ⟨-, h2, h3, h4⟩ := items_valid c δ i h y hy
    refine ⟨h3, h2.1, h4, ?_⟩
    show y.2.leid + m * c.get y.2.num < d * c.get y.2.num
    have hm' : m + 1 ≤ d := List.mem_range.1 hm
    have := Nat.mul_le_mul_right (c.get y.2.num) hm'
    rw [Nat.succ_mul] at this
    have := h2.2.2
    omega
  lists s hs := (geom_vector c d hd s hs).2.2

theorem allL_nil (s : Sp) : allL (fun _ _ => []) s = [] := by
  unfold allL
  rw [List.flatMap_eq_nil_iff]
  intro δ _
  rw [List.flatMap_eq_nil_iff]
  intro i _
  rfl

/-- a factor without d.o.f.s -/
theorem fac_zero (b : IterObj) : Fac (vectorIter 0 b) (fun _ _ => []) where
  start s _ := by
    show genBegin (vectorObj 0 b.obj) s = _
    rw [genBegin_vector_zero, allL_nil]
    rfl
  steps _ _ _ := trivial
  head δ i _ := by
    have : compact (vectorObj 0 b.obj) δ = 0 := by unfold compact; split <;> simp [vectorObj]
    show _ = if compact (vectorObj 0 b.obj) δ ≠ 0 then _ else _
    rw [this]
    simp
  mem _ _ _ x hx := by simp at hx
  lists s _ := by
    rw [allL_nil]
    refine ⟨by simp, ?_, by simp⟩
    intro g hg
    have : g < 0 * b.obj.numTet := hg
    omega

theorem cut_ids (s : Sp) (q : Nat × Nat) (h1 : q.1 < 4) (h2 : q.2 < count q.1) :
    idsFrom (unsetElems (unsetBelow s q.1) q.1 q.2) q.1 0 = idsFrom s q.1 q.2 := by
  have hh := fun j => cut_has s q h1 h2 q.1 j h1
  unfold idsFrom
  have hsplit : List.range' 0 (count q.1 - 0) = List.range' 0 q.2 ++ List.range' q.2 (count q.1 - q.2) := by
    have : List.range' 0 q.2 ++ List.range' (0 + 1 * q.2) (count q.1 - q.2) = List.range' 0 (q.2 + (count q.1 - q.2)) :=
      List.range'_append
    have e : q.2 + (count q.1 - q.2) = count q.1 - 0 := by omega
    rw [e] at this
    rw [← this]
    simp
  rw [hsplit, List.filter_append]
  have h0 : (List.range' 0 q.2).filter ((unsetElems (unsetBelow s q.1) q.1 q.2).has q.1) = [] := by
    rw [List.filter_eq_nil_iff]
    intro j hj
    have : j < q.2 := by simp only [List.mem_range'_1] at hj; omega
    rw [hh j]
    simp [this]
  rw [h0, List.nil_append]
  apply List.filter_congr
  intro j hj
  have : ¬ j < q.2 := by simp only [List.mem_range'_1] at hj; omega
  rw [hh j]
  simp [this]

theorem idsFrom_head (s : Sp) (δ k i : Nat) (r : List Nat) (h : idsFrom s δ k = i :: r) : idsFrom s δ i = i :: r := by
  by_cases hk : k < count δ
  · have h' := h
    rw [idsFrom_step s δ k hk] at h'
    split at h'
    · cases h'
      exact h
    · exact idsFrom_head s δ (k + 1) i r h'
  · rw [idsFrom_end s δ k (by omega)] at h
    simp at h
termination_by count δ - k

/-! ### products -/

theorem findSome_if {α β : Type} (l : List α) (p : α → Bool) (h : α → β) (f : α → Option β)
    (hf : ∀ x ∈ l, f x = if p x = true then some (h x) else none) : l.findSome? f = (l.find? p).map h := by
  induction l with
  | nil => rfl
  | cons a l ih =>
    rw [List.findSome?_cons, hf a (by simp), List.find?_cons]
    cases hp : p a with
    | true => simp
    | false => simpa using ih fun x hx => hf x (by simp [hx])

theorem findSome_only {α β : Type} (l : List α) (a : α) (ha : a ∈ l) (f : α → Option β) (hf : ∀ x ∈ l, x ≠ a → f x = none) :
    l.findSome? f = f a := by
  induction l with
  | nil => simp at ha
  | cons b l ih =>
    rw [List.findSome?_cons]
    by_cases hb : b = a
    · subst hb
      cases h : f b with
      | some y => rfl
      | none =>
        simp only
        rw [List.findSome?_eq_none_iff]
        intro x hx
        by_cases hx' : x = b
        · rw [hx', h]
        · exact hf x (by simp [hx]) hx'
    · rw [hf b (by simp) hb]
      simp only
      apply ih (by simpa [Ne.symm hb] using ha)
      exact fun x hx => hf x (by simp [hx])

/-- the kind `κ` is the only one of its dimension on which the factors have d.o.f.s -/
def OneKind (l : List IterObj) (κ : Nat) : Prop :=
  κ < 6 ∧ ∀ o ∈ l, ∀ k, k < 6 → dimOf k = dimOf κ → k ≠ κ → o.obj.numDof k = 0

/-- only elements of dimension `δ` are selected -/
def OnlyDim (s : Sp) (δ : Nat) : Prop := ∀ δ', δ' < 4 → δ' ≠ δ → ∀ j, s.has δ' j = false

theorem oneKind_compact (l : List IterObj) (κ : Nat) (h : OneKind l κ) (o : IterObj) (ho : o ∈ l) :
    (compact o.obj (dimOf κ) ≠ 0 ↔ o.obj.numDof κ > 0) ∧ (o.obj.numDof κ > 0 → kindFor o.obj (dimOf κ) = κ) := by
  obtain ⟨h6, hz⟩ := h
  have hz := hz o ho
  have h6' : κ = 0 ∨ κ = 1 ∨ κ = 2 ∨ κ = 3 ∨ κ = 4 ∨ κ = 5 := by omega
  rcases h6' with rfl | rfl | rfl | rfl | rfl | rfl
  · simp only [dimOf, compact, kindFor]
    refine ⟨by omega, fun _ => ?_⟩
    trivial
  · have := hz 2 (by omega) rfl (by omega)
    simp only [dimOf, compact, kindFor, this]
    constructor
    · omega
    · intro h; rw [if_pos h]
  · have := hz 1 (by omega) rfl (by omega)
    simp only [dimOf, compact, kindFor, this]
    constructor
    · omega
    · intro h; rw [if_neg (by omega)]
  · have := hz 4 (by omega) rfl (by omega)
    simp only [dimOf, compact, kindFor, this]
    constructor
    · omega
    · intro h; rw [if_pos h]
  · have := hz 3 (by omega) rfl (by omega)
    simp only [dimOf, compact, kindFor, this]
    constructor
    · omega
    · intro h; rw [if_neg (by omega)]
  · simp only [dimOf, compact, kindFor]
    refine ⟨by omega, fun _ => ?_⟩
    trivial

section
variable (l : List IterObj) (Es : Nat → Nat → Nat → List It)

/-- states of the factors `k, k + 1, …` on one element -/
def pRest (δ i k : Nat) : List It :=
  (List.range' k (l.length - k)).flatMap fun k => (Es k δ i).map (cplace (l.map (·.obj)) k)

/-- states of the product on the selected elements of dimension `δ` with numbers `≥ k` -/
def pDim (s : Sp) (δ k : Nat) : List It := (idsFrom s δ k).flatMap fun i => pRest l Es δ i 0

variable (hF : ∀ k (hk : k < l.length), Fac l[k] (Es k)) (κ : Nat) (hκ : OneKind l κ)
include hF hκ

theorem fac_head (k : Nat) (hk : k < l.length) (i : Nat) (h : Elem (dimOf κ) i) :
    (Es k (dimOf κ) i).head? = if decide ((ifactor l k).obj.numDof κ > 0) = true then
      some ((ifactor l k).obj.tetId ⟨κ, i, 0⟩, ⟨κ, i, 0⟩) else none := by
  rw [ifactor_eq l k hk, (hF k hk).head _ i h]
  obtain ⟨h1, h2⟩ := oneKind_compact l κ hκ l[k] (List.getElem_mem hk)
  by_cases hc : l[k].obj.numDof κ > 0
  · rw [if_pos (h1.2 hc), if_pos (decide_eq_true hc), h2 hc]
  · rw [if_neg (fun h => hc (h1.1 h)), if_neg (by simpa using hc)]

theorem pRest_head (i k : Nat) (h : Elem (dimOf κ) i) :
    (pRest l Es (dimOf κ) i k).head? = ((List.range' k (l.length - k)).find? fun j =>
      decide ((ifactor l j).obj.numDof κ > 0)).map fun j =>
        cplace (l.map (·.obj)) j ((ifactor l j).obj.tetId ⟨κ, i, 0⟩, ⟨κ, i, 0⟩) := by
  unfold pRest
  rw [List.head?_flatMap]
  apply findSome_if
  intro j hj
  simp only [List.mem_range'_1] at hj
  rw [List.head?_map, fac_head l Es hF κ hκ j (by omega) i h]
  split <;> rfl

theorem complexStart_eq (s : Sp) (hs : Wf s) (ho : OnlyDim s (dimOf κ)) :
    complexStart l true s = (pDim l Es s (dimOf κ) 0).head? := by
  have hδ4 : ∀ k, dimOf k < 4 := by intro k; unfold dimOf; split <;> omega
  have hempty : ∀ δ', δ' < 4 → δ' ≠ dimOf κ → idsFrom s δ' 0 = [] := by
    intro δ' h1 h2
    rw [List.eq_nil_iff_forall_not_mem]
    intro j hj
    have := ((mem_idsFrom _ _ _ _).1 hj).2.2
    rw [ho δ' h1 h2 j] at this
    simp at this
  have hbegin : ∀ δ', δ' < 4 → s.beginPosDim δ' = (idsFrom s δ' 0).head?.map fun i => (δ', i) := by
    intro δ' h'
    have he := emptyDim_iff s hs δ' h'
    unfold Sp.beginPosDim
    by_cases h : s.emptyDim δ' = true
    · rw [if_pos h, he.1 h]; rfl
    · rw [if_neg h, scan_eq]
  simp only [complexStart, Bool.true_eq_false, if_false]
  rw [findSome_only _ κ (List.mem_range.2 hκ.1)]
  · rw [hbegin _ (hδ4 κ)]
    cases hids : idsFrom s (dimOf κ) 0 with
    | nil => simp [pDim, hids]
    | cons a r =>
      have hel : ∀ i ∈ a :: r, Elem (dimOf κ) i := by
        intro i hi
        rw [← hids] at hi
        exact ⟨hδ4 κ, ((mem_idsFrom _ _ _ _).1 hi).2.1⟩
      simp only [List.head?_cons, Option.map_some, pDim, hids]
      rw [List.head?_flatMap]
      cases hf : (List.range l.length).find? fun dim => decide ((ifactor l dim).obj.numDof κ > 0) with
      | none =>
        simp only
        symm
        rw [List.findSome?_eq_none_iff]
        intro i hi
        rw [pRest_head l Es hF κ hκ i 0 (hel i hi), Nat.sub_zero, ← List.range_eq_range', hf]
        rfl
      | some k =>
        have hk : k < l.length := List.mem_range.1 (List.mem_of_find?_eq_some hf)
        have hk0 : (ifactor l k).obj.numDof κ > 0 := by simpa using List.find?_some hf
        simp only
        rw [List.findSome?_cons, pRest_head l Es hF κ hκ a 0 (hel a (by simp)), Nat.sub_zero, ← List.range_eq_range', hf]
        have hst : (ifactor l k).start true s = some ((ifactor l k).obj.tetId ⟨κ, a, 0⟩, ⟨κ, a, 0⟩) := by
          rw [ifactor_eq l k hk, (hF k hk).start s hs]
          unfold allL
          rw [List.head?_flatMap, findSome_only _ (dimOf κ) (by simp only [List.mem_range'_1]; have := hδ4 κ; omega)]
          · rw [hids, List.head?_flatMap, List.findSome?_cons, fac_head l Es hF κ hκ k hk a (hel a (by simp)),
              if_pos (decide_eq_true hk0), ifactor_eq l k hk]
          · intro δ' h1 h2
            simp only [List.mem_range'_1] at h1
            rw [hempty δ' (by omega) h2]
            rfl
        rw [hst]
        simp only [Option.map_some, cplace, List.map_map]
        rfl
  · intro num hnum hne
    by_cases hd : dimOf num = dimOf κ
    · have hnone : (List.range l.length).find? (fun dim => decide ((ifactor l dim).obj.numDof num > 0)) = none := by
        rw [List.find?_eq_none]
        intro k hk
        have hk : k < l.length := List.mem_range.1 hk
        rw [ifactor_eq l k hk, hκ.2 _ (List.getElem_mem hk) num (List.mem_range.1 hnum) hd hne]
        simp
      rw [hnone]
      split <;> rfl
    · rw [hbegin _ (hδ4 num), hempty _ (hδ4 num) hd]
      rfl

theorem cplace_next_geom (s : Sp) (i : Nat) (h : Elem (dimOf κ) i) (k : Nat) (hk : k < l.length) (x : It)
    (hx : x ∈ Es k (dimOf κ) i) :
    complexNext l true s (cplace (l.map (·.obj)) k x) =
      match (l[k]).next true ((Sp.none.set (dimOf κ) i false).getD Sp.none) x with
      | some y => some (cplace (l.map (·.obj)) k y)
      | none => (pRest l Es (dimOf κ) i (k + 1)).head?.or
          (match s.nextPos (dimOf κ, i) with
            | none => none
            | some q => complexStart l true (unsetElems (unsetBelow s q.1) q.1 q.2)) := by
  obtain ⟨hd, h6, hne, hle⟩ := (hF k hk).mem _ i h x hx
  have hnum : x.2.num = κ := by
    apply Decidable.byContradiction
    intro hne'
    rw [hκ.2 _ (List.getElem_mem hk) x.2.num h6 hd hne'] at hle
    omega
  have h1 : ubIdx ((l.map (·.obj)).map fun o => o.numDof x.2.num)
      (x.2.leid + pre ((l.map (·.obj)).map fun o => o.numDof x.2.num) k) = k := by
    apply ubIdx_eq _ _ (by simpa using hk) _ (by omega)
    rw [pre_succ _ _ (by simpa using hk)]
    simp only [List.getElem_map]; omega
  rw [pRest_head l Es hF κ hκ i (k + 1) h]
  simp only [complexNext, cplace, h1, Nat.add_sub_cancel, ifactor_eq l k hk, Bool.true_eq_false, if_false]
  obtain ⟨g, num, nelem, leid⟩ := x
  simp only at hnum hne
  subst hnum
  subst hne
  simp only
  cases (l[k]).next true ((Sp.none.set (dimOf num) nelem false).getD Sp.none) (g, ⟨num, nelem, leid⟩) with
  | some y => rfl
  | none =>
    simp only
    generalize hr : (List.range' (k + 1) (l.length - (k + 1))).find?
      (fun k => decide ((ifactor l k).obj.numDof num > 0)) = r
    split
    · next j hj =>
      have : r = some j := hr.symm.trans hj
      rw [this]
      rfl
    · next hj =>
      have : r = none := hr.symm.trans hj
      rw [this]
      rfl

theorem steps_pRest (s : Sp) (i : Nat) (h : Elem (dimOf κ) i) (e : Option It)
    (he : (match s.nextPos (dimOf κ, i) with
      | none => none
      | some q => complexStart l true (unsetElems (unsetBelow s q.1) q.1 q.2)) = e) :
    ∀ m k, k + m = l.length → Steps (complexNext l true s) (pRest l Es (dimOf κ) i k) e := by
  intro m
  induction m with
  | zero =>
    intro k hk
    have : l.length - k = 0 := by omega
    simp [pRest, this, Steps]
  | succ m ih =>
    intro k hkm
    have hk : k < l.length := by omega
    have hstep : pRest l Es (dimOf κ) i k = (Es k (dimOf κ) i).map (cplace (l.map (·.obj)) k) ++ pRest l Es (dimOf κ) i (k + 1) := by
      have : l.length - k = (l.length - (k + 1)) + 1 := by omega
      unfold pRest
      rw [this, List.range'_succ, List.flatMap_cons]
    rw [hstep, steps_append]
    refine ⟨?_, ih (k + 1) (by omega)⟩
    apply steps_map _ _ _ _ _ ((hF k hk).steps _ i h)
    intro x hx
    rw [cplace_next_geom l Es hF κ hκ s i h k hk x hx, he]
    cases l[k].next true ((Sp.none.set (dimOf κ) i false).getD Sp.none) x <;> rfl

theorem leave_product (s : Sp) (hs : Wf s) (ho : OnlyDim s (dimOf κ)) (i : Nat) :
    (match s.nextPos (dimOf κ, i) with
      | none => none
      | some q => complexStart l true (unsetElems (unsetBelow s q.1) q.1 q.2)) = (pDim l Es s (dimOf κ) (i + 1)).head? := by
  have hδ4 : dimOf κ < 4 := by unfold dimOf; split <;> omega
  have hdims : ∀ δ, dimOf κ < δ → s.scanDims δ = none := by
    intro δ
    induction hm : 4 - δ generalizing δ with
    | zero => intro _; exact scanDims_end s δ (by omega)
    | succ m ih =>
      intro hlt
      have hids : idsFrom s δ 0 = [] := by
        rw [List.eq_nil_iff_forall_not_mem]
        intro j hj
        have := ((mem_idsFrom _ _ _ _).1 hj).2.2
        rw [ho δ (by omega) (by omega) j] at this
        simp at this
      rw [scanDims_step s hs δ (by omega), hids, ih (δ + 1) (by omega) (by omega)]
      rfl
  unfold Sp.nextPos
  simp only [scan_eq]
  cases hids : idsFrom s (dimOf κ) (i + 1) with
  | nil =>
    simp only [List.head?_nil, Option.map_none]
    rw [hdims _ (by omega)]
    simp [pDim, hids]
  | cons a r =>
    simp only [List.head?_cons, Option.map_some]
    have hmem : a ∈ idsFrom s (dimOf κ) (i + 1) := by rw [hids]; simp
    have ha := ((mem_idsFrom _ _ _ _).1 hmem).2.1
    have hcut := cut_has s (dimOf κ, a) hδ4 ha
    rw [complexStart_eq l Es hF κ hκ _ (cut_wf s hs (dimOf κ, a) hδ4 ha)]
    · unfold pDim
      rw [cut_ids s (dimOf κ, a) hδ4 ha, idsFrom_head s _ _ _ _ hids, hids]
    · intro δ' h1 h2 j
      rw [hcut δ' j h1, ho δ' h1 h2 j]
      rfl

theorem steps_pDim (s : Sp) (hs : Wf s) (ho : OnlyDim s (dimOf κ)) (k : Nat) :
    Steps (complexNext l true s) (pDim l Es s (dimOf κ) k) none := by
  by_cases h : k < count (dimOf κ)
  · have hδ4 : dimOf κ < 4 := by unfold dimOf; split <;> omega
    have ih := steps_pDim s hs ho (k + 1)
    have hstep : pDim l Es s (dimOf κ) k = (if s.has (dimOf κ) k then pRest l Es (dimOf κ) k 0 else []) ++
        pDim l Es s (dimOf κ) (k + 1) := by
      unfold pDim
      rw [idsFrom_step s _ k h]
      split <;> simp
    rw [hstep, steps_append]
    refine ⟨?_, ih⟩
    rw [Option.or_none]
    split
    · exact steps_pRest l Es hF κ hκ s k ⟨hδ4, h⟩ _ (leave_product l Es hF κ hκ s hs ho k) l.length 0 (by omega)
    · trivial
  · simp [pDim, idsFrom_end s (dimOf κ) k (by omega), Steps]
termination_by count (dimOf κ) - k

end

/-- the d.o.f.s of a product, factor after factor -/
theorem lists_complex (l : List IterObj) (s : Sp) (Ls : Nat → List It)
    (hg : ∀ k (hk : k < l.length), Lists l[k].obj.numTet l[k].obj.locate s.has (Ls k))
    (hc : ∀ o ∈ l, Counted o.obj) :
    Lists (complexObj (l.map (·.obj))).numTet (complexObj (l.map (·.obj))).locate s.has
      (complexL (l.map (·.obj)) l.length Ls) := by
  have hc' : ∀ o ∈ l.map (·.obj), Counted o := by
    intro o ho
    obtain ⟨o', ho', rfl⟩ := List.mem_map.1 ho
    exact hc o' ho'
  have hlt : ∀ k (hk : k < l.length) (x : It), x.1 < l[k].obj.numTet →
      pre ((l.map (·.obj)).map (·.numTet)) k ≤ (cplace (l.map (·.obj)) k x).1 ∧
      (cplace (l.map (·.obj)) k x).1 < pre ((l.map (·.obj)).map (·.numTet)) (k + 1) := by
    intro k hk x hx
    rw [pre_succ _ _ (by simpa using hk)]
    simp only [List.getElem_map, cplace]
    omega
  refine ⟨?_, ?_, ?_⟩
  · intro x hx
    obtain ⟨k, hk, hx⟩ := List.mem_flatMap.1 hx
    obtain ⟨y, hy, rfl⟩ := List.mem_map.1 hx
    simp only [List.mem_range] at hk
    obtain ⟨h1, h2, hs⟩ := (hg k hk).sound y hy
    refine ⟨?_, ?_, hs⟩
    · rw [complex_numTet _ hc']
      have := (hlt k hk y h1).2
      have hm := pre_mono ((l.map (·.obj)).map (·.numTet)) (j := k + 1) (k := l.length) (by omega)
      have hl := pre_length ((l.map (·.obj)).map (·.numTet))
      simp only [List.length_map] at hl
      omega
    · show _ = (complexObj (l.map (·.obj))).locate (y.1 + pre ((l.map (·.obj)).map (·.numTet)) k)
      have := complex_locate (l.map (·.obj)) k (by simpa using hk) y.1 (by simpa using h1)
      rw [Nat.add_comm y.1, this]
      simp only [List.getElem_map, ← h2]
      rfl
  · intro g hgt hsel
    obtain ⟨k, hk, i, hi, rfl⟩ := complex_block (l.map fun o : IterObj => o.obj) hc' g hgt
    have hk' : k < l.length := by simpa using hk
    have hloc := complex_locate (l.map (·.obj)) k hk i hi
    simp only [List.getElem_map] at hi hloc
    have hsel' : s.has (dimension (l[k].obj.locate i).num) (l[k].obj.locate i).nelem = true := by
      have h' : s.has (dimension ((complexObj (l.map (·.obj))).locate (pre ((l.map (·.obj)).map (·.numTet)) k + i)).num)
        ((complexObj (l.map (·.obj))).locate (pre ((l.map (·.obj)).map (·.numTet)) k + i)).nelem = true := hsel
      rw [hloc] at h'
      exact h'
    have hin := (hg k hk').complete i hi hsel'
    refine List.mem_flatMap.2 ⟨k, List.mem_range.2 hk', List.mem_map.2 ⟨_, hin, ?_⟩⟩
    show _ = (_, (complexObj (l.map (·.obj))).locate (pre ((l.map (·.obj)).map (·.numTet)) k + i))
    rw [hloc]
    simp only [cplace, Loc.shift, Nat.add_comm]
  · apply nodup_flatMap_of _ _ (fun x => ubIdx ((l.map (·.obj)).map (·.numTet)) x.1) List.nodup_range
    · intro k hk
      simp only [List.mem_range] at hk
      apply List.Nodup.map _ (hg k hk).once
      intro x y h
      simp only [cplace, Prod.mk.injEq, Loc.mk.injEq] at h
      obtain ⟨h1, h2, h3, h4⟩ := h
      rw [h2] at h4
      have e1 : x.1 = y.1 := by omega
      have e2 : x.2.leid = y.2.leid := by omega
      have e3 : x.2 = y.2 := by cases hx : x.2; cases hy : y.2; simp_all
      exact Prod.ext e1 e3
    · intro k hk x hx
      simp only [List.mem_range] at hk
      obtain ⟨y, hy, rfl⟩ := List.mem_map.1 hx
      obtain ⟨a, b⟩ := hlt k hk y ((hg k hk).sound y hy).1
      exact ubIdx_eq _ k (by simpa using hk) _ a b

/-- on a set of elements of one dimension only these elements are met -/
theorem allL_only (E : Nat → Nat → List It) (s : Sp) (δ : Nat) (hδ : δ < 4) (ho : OnlyDim s δ) :
    allL E s = (idsFrom s δ 0).flatMap (E δ) := by
  have hempty : ∀ δ', δ' < 4 → δ' ≠ δ → idsFrom s δ' 0 = [] := by
    intro δ' h1 h2
    rw [List.eq_nil_iff_forall_not_mem]
    intro j hj
    have := ((mem_idsFrom _ _ _ _).1 hj).2.2
    rw [ho δ' h1 h2 j] at this
    simp at this
  have h4 : List.range' 0 4 = [0, 1, 2, 3] := rfl
  unfold allL
  rw [h4]
  have : δ = 0 ∨ δ = 1 ∨ δ = 2 ∨ δ = 3 := by omega
  rcases this with rfl | rfl | rfl | rfl <;> simp [hempty]

/-- the geometric order of a product on the elements of one dimension -/
theorem geom_complex (l : List IterObj) (Es : Nat → Nat → Nat → List It) (hF : ∀ k (hk : k < l.length), Fac l[k] (Es k))
    (hc : ∀ o ∈ l, Counted o.obj) (κ : Nat) (hκ : OneKind l κ) (s : Sp) (hs : Wf s) (ho : OnlyDim s (dimOf κ)) :
    (complexIter l).start true s = (pDim l Es s (dimOf κ) 0).head? ∧
    Steps ((complexIter l).next true s) (pDim l Es s (dimOf κ) 0) none ∧
    Lists (complexObj (l.map (·.obj))).numTet (complexObj (l.map (·.obj))).locate s.has (pDim l Es s (dimOf κ) 0) := by
  have hδ4 : dimOf κ < 4 := by unfold dimOf; split <;> omega
  refine ⟨complexStart_eq l Es hF κ hκ s hs ho, steps_pDim l Es hF κ hκ s hs ho 0, ?_⟩
  have hl := lists_complex l s (fun k => allL (Es k) s) (fun k hk => (hF k hk).lists s hs) hc
  have hp : (pDim l Es s (dimOf κ) 0).Perm (complexL (l.map (·.obj)) l.length fun k => allL (Es k) s) := by
    rw [← Multiset.coe_eq_coe]
    unfold pDim pRest complexL
    simp only [allL_only _ s _ hδ4 ho]
    have hc : ∀ {α β : Type} (l : List α) (f : α → List β),
        ((l.flatMap f : List β) : Multiset β) = (l : Multiset α).bind fun a => (f a : Multiset β) :=
      fun l f => (Multiset.coe_bind l f).symm
    have hm : ∀ (L : List It) k, ((L.map (cplace (l.map (·.obj)) k) : List It) : Multiset It) =
      (L : Multiset It).map (cplace (l.map (·.obj)) k) := fun _ _ => rfl
    simp only [hc, hm, Multiset.map_bind]
    rw [Nat.sub_zero, ← List.range_eq_range']
    conv_rhs => rw [Multiset.bind_bind]
  exact ⟨fun x hx => hl.sound x (hp.mem_iff.1 hx), fun g h1 h2 => hp.mem_iff.2 (hl.complete g h1 h2),
    hp.nodup_iff.2 hl.once⟩

end Verif.GeomIter
