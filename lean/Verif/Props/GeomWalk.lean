import Verif.Lemmas.GeomWalk2
import Verif.Props.Enumerator

/-!
C67: the iterator over the d.o.f.s of a mesh by their geometrical position visits exactly the d.o.f.s of the slice, each once,
in the order of storage.
-/
namespace Verif.GeomWalk
open Verif.Enumerator

section
variable (s : Slice) (m : Mesh) (vars : List Var)

theorem kindList_nil (k : Nat) (h : kindSize vars k = 0) : kindList s vars k = [] := by
  rw [kindSize, List.length_eq_zero_iff] at h
  rw [List.eq_nil_iff_forall_not_mem]
  intro a ha
  unfold kindList at ha
  obtain ⟨i, hi, ha⟩ := List.mem_flatMap.1 ha
  unfold comps at ha
  cases hv : vars[i]? with
  | none => rw [hv] at ha; cases ha
  | some v =>
    rw [hv] at ha
    obtain ⟨c, hc, ha⟩ := List.mem_flatMap.1 ha
    obtain ⟨j, hj, rfl⟩ := List.mem_map.1 ha
    have : (⟨k, i, c, j⟩ : Addr) ∈ addrsKind vars k :=
      (mem_addrsKind vars k _).2 ⟨rfl, v, hv, List.mem_range.1 (List.mem_of_mem_filter hc),
        List.mem_range.1 (List.mem_of_mem_filter hj)⟩
    rw [h] at this
    cases this

/-- on an element entered with the first kind, or with the oriented kind of a slice without the unoriented one, the choice
is the first wanted d.o.f. -/
theorem onElement_head (hvar : ∀ x, s.var = some x → x < vars.length) (hm : s.MaskOk vars) (d : Nat) (hd : d < 4)
    (hw : wantsDim s d = true) (a : Addr) (hc : a.comp = s.comp.getD 0) (hdf : a.dof = s.dof.getD 0)
    (hk : a.num = firstKind d ∨ (a.num = firstKind d + 1 ∧ toOriented s (firstKind d) = true ∧
      s.mask.testBit (firstKind d) = false)) :
    onElement s vars a = ((addrs vars d).filter s.Wants).head? := by
  rw [filter_wants]
  have h1 : onElement s vars a = (kindList s vars a.num).head?.or
      (if toOriented s a.num then (kindList s vars (a.num + 1)).head? else none) := by
    unfold onElement
    rw [choose_kind s vars hvar a hc hdf]
    cases (kindList s vars a.num).head? with
    | some r => rfl
    | none =>
      by_cases ht : toOriented s a.num = true
      · simp only [if_pos ht, Option.none_or]
        exact choose_kind s vars hvar { a with num := a.num + 1 } hc hdf
      · simp [ht]
  rw [h1]
  obtain ⟨m1, m2⟩ := hm
  have n1 := kindList_nil s vars 1
  have n3 := kindList_nil s vars 3
  unfold wantsDim at hw
  match d, hd with
  | 0, _ =>
    have hk : a.num = 0 := by simpa [firstKind, toOriented] using hk
    rw [hk]
    have hw : s.mask.testBit 0 = true := by simpa [kindsOf] using hw
    simp [kindsOf, toOriented, hw]
  | 1, _ =>
    have hw : s.mask.testBit 1 = true ∨ s.mask.testBit 2 = true := by simpa [kindsOf] using hw
    have hk : a.num = 1 ∨ (a.num = 2 ∧ s.mask.testBit 2 = true ∧ s.mask.testBit 1 = false) := by
      simpa [firstKind, toOriented] using hk
    cases b1 : s.mask.testBit 1 <;> cases b2 : s.mask.testBit 2 <;> rw [b1, b2] at hw hk
    · simp at hw
    · have := n1 (m1 b2 b1)
      rcases hk with hk | ⟨hk, _⟩ <;> simp [hk, kindsOf, toOriented, b1, b2, this]
    · rcases hk with hk | ⟨_, hk, _⟩
      · simp [hk, kindsOf, toOriented, b1, b2]
      · cases hk
    · rcases hk with hk | ⟨_, _, hk⟩
      · simp [hk, kindsOf, toOriented, b1, b2, List.head?_append]
      · cases hk
  | 2, _ =>
    have hw : s.mask.testBit 3 = true ∨ s.mask.testBit 4 = true := by simpa [kindsOf] using hw
    have hk : a.num = 3 ∨ (a.num = 4 ∧ s.mask.testBit 4 = true ∧ s.mask.testBit 3 = false) := by
      simpa [firstKind, toOriented] using hk
    cases b1 : s.mask.testBit 3 <;> cases b2 : s.mask.testBit 4 <;> rw [b1, b2] at hw hk
    · simp at hw
    · have := n3 (m2 b2 b1)
      rcases hk with hk | ⟨hk, _⟩ <;> simp [hk, kindsOf, toOriented, b1, b2, this]
    · rcases hk with hk | ⟨_, hk, _⟩
      · simp [hk, kindsOf, toOriented, b1, b2]
      · cases hk
    · rcases hk with hk | ⟨_, _, hk⟩
      · simp [hk, kindsOf, toOriented, b1, b2, List.head?_append]
      · cases hk
  | 3, _ =>
    have hk : a.num = 5 := by simpa [firstKind, toOriented] using hk
    rw [hk]
    have hw : s.mask.testBit 5 = true := by simpa [kindsOf] using hw
    simp [kindsOf, toOriented, hw]

/-- the elements tried by `_choose_element` -/
theorem chooseElem_spec (hs : m.Sound) (a : Addr) (d ed : Nat) (hed : ed ≤ m.last d) : ∀ fuel l, ed - l ≤ fuel →
    chooseElem s m vars a d ed fuel l =
      ((List.range' l (ed - l)).filter fun l => m.valid d l && !m.ghost d l).head?.bind fun l =>
        (onElement s vars a).map fun r => ⟨l, r⟩ := by
  intro fuel
  induction fuel with
  | zero =>
    intro l hl
    rw [show ed - l = 0 by omega]
    rfl
  | succ fuel ih =>
    intro l hl
    unfold chooseElem
    by_cases h1 : l < ed
    · rw [if_pos h1, show ed - l = (ed - l - 1) + 1 by omega, List.range'_succ]
      by_cases h2 : m.valid d l = false ∨ m.ghost d l = true
      · rw [if_pos h2, List.filter_cons_of_neg (by rcases h2 with h | h <;> simp [h])]
        obtain ⟨hn1, hn2⟩ := hs d l
        rw [ih _ (by omega)]
        -- the holes between `l` and `next`
        have hskip : ∀ k, l + 1 + k ≤ m.next d l → 
            ((List.range' (l + 1) (ed - l - 1)).filter fun l => m.valid d l && !m.ghost d l) =
            ((List.range' (l + 1 + k) (ed - (l + 1 + k))).filter fun l => m.valid d l && !m.ghost d l) := by
          intro k
          induction k with
          | zero => intro _; rw [Nat.add_zero, Nat.sub_sub]
          | succ k ihk =>
            intro hk
            rw [ihk (by omega)]
            by_cases hlt : l + 1 + k < ed
            · rw [show ed - (l + 1 + k) = (ed - (l + 1 + (k + 1))) + 1 by omega, List.range'_succ,
                List.filter_cons_of_neg (by rw [hn2 (l + 1 + k) (by omega) (by omega) (by omega)]; simp)]
              rfl
            · rw [show ed - (l + 1 + k) = 0 by omega, show ed - (l + 1 + (k + 1)) = 0 by omega]
              rfl
        have := hskip (m.next d l - (l + 1)) (by omega)
        rw [this, show l + 1 + (m.next d l - (l + 1)) = m.next d l by omega]
      · rw [if_neg h2]
        have h3 : m.valid d l = true ∧ m.ghost d l = false := by
          constructor
          · cases hv : m.valid d l
            · exact absurd (Or.inl hv) h2
            · rfl
          · cases hv : m.ghost d l
            · rfl
            · exact absurd (Or.inr hv) h2
        rw [List.filter_cons_of_pos (by simp [h3])]
        rfl
    · rw [if_neg h1, show ed - l = 0 by omega]
      rfl

/-- the d.o.f.s of one dimension -/
def dimList (d : Nat) : List Place :=
  ((List.range (m.last d)).filter (s.Takes m d)).flatMap fun l => ((addrs vars d).filter s.Wants).map fun a => ⟨l, a⟩

theorem head_flatMap_mk (ls : List Nat) (A : List Addr) :
    (ls.flatMap fun l => A.map fun a => (⟨l, a⟩ : Place)).head? = ls.head?.bind fun l => A.head?.map fun r => ⟨l, r⟩ := by
  cases A with
  | nil =>
    have : (ls.flatMap fun l => ([] : List Addr).map fun a => (⟨l, a⟩ : Place)) = [] := by simp
    rw [this]
    cases ls <;> rfl
  | cons a A => cases ls <;> rfl

theorem wants_nil (d : Nat) (h : wantsDim s d = false) : (addrs vars d).filter s.Wants = [] := by
  rw [filter_wants]
  have : (kindsOf d).filter (fun k => s.mask.testBit k) = [] := by
    rw [List.filter_eq_nil_iff]
    intro k hk hc
    unfold wantsDim at h
    rw [List.any_eq_false] at h
    exact h k hk hc
  rw [this]
  rfl

/-- entering a dimension gives its first d.o.f. -/
theorem enter (hs : m.Sound) (hvar : ∀ x, s.var = some x → x < vars.length) (hm : s.MaskOk vars) (d : Nat) (hd : d < 4)
    (v ed l : Nat) (hl : l = s.loc.getD 0) (hed : ed = s.loc.elim (m.last d) fun x => min (m.last d) (x + 1)) :
    (if wantsDim s d = true then chooseElem s m vars ⟨firstKind d, v, s.comp.getD 0, s.dof.getD 0⟩ d ed (ed - l) l
      else none) = (dimList s m vars d).head? := by
  unfold dimList
  rw [head_flatMap_mk]
  by_cases hw : wantsDim s d = true
  · rw [if_pos hw, chooseElem_spec s m vars hs _ d ed (by
      rw [hed]
      cases s.loc with
      | none => simp
      | some x => exact Nat.min_le_left _ _) _ _ le_rfl, 
      onElement_head s vars hvar hm d hd hw ⟨firstKind d, v, s.comp.getD 0, s.dof.getD 0⟩ rfl rfl (Or.inl rfl)]
    congr 2
    rw [hl, hed]
    unfold Slice.Takes
    cases s.loc with
    | none => simp [List.range_eq_range']
    | some x =>
      simp only [Option.getD_some, Option.elim_some, Option.all_some]
      have e : (List.range (m.last d)).filter (fun l => m.valid d l && !m.ghost d l && x == l) =
          ((List.range' 0 (m.last d)).filter fun l => x == l).filter fun l => m.valid d l && !m.ghost d l := by
        rw [List.filter_filter, List.range_eq_range']
      rw [e, filter_eq_range']
      by_cases hx : x < m.last d
      · rw [if_pos (by omega), show min (m.last d) (x + 1) - x = 1 by omega]
        rfl
      · rw [if_neg (by omega), show min (m.last d) (x + 1) - x = 0 by omega]
        rfl
  · rw [if_neg hw, wants_nil s vars d (by simpa using hw)]
    cases ((List.range (m.last d)).filter (s.Takes m d)).head? <;> rfl

theorem findSome_flatMap {α β : Type} (F : α → Option β) (g : α → List β) (l : List α)
    (h : ∀ a, a ∈ l → F a = (g a).head?) : l.findSome? F = (l.flatMap g).head? := by
  induction l with
  | nil => rfl
  | cons x xs ih =>
    rw [List.findSome?_cons, h x (by simp), List.flatMap_cons, List.head?_append,
      ih fun a ha => h a (List.mem_cons_of_mem _ ha)]
    cases (g x).head? <;> rfl

theorem places_eq : s.places m vars = (List.range 4).flatMap (dimList s m vars) := rfl

/-- **C67** (begin): the iterator starts at the first d.o.f. of the slice. -/
theorem begin_head (hs : m.Sound) (hvar : ∀ x, s.var = some x → x < vars.length) (hm : s.MaskOk vars) :
    begin s m vars = (s.places m vars).head? := by
  rw [places_eq]
  unfold begin
  apply findSome_flatMap
  intro d hd
  exact enter s m vars hs hvar hm d (List.mem_range.1 hd) _ _ _ rfl rfl

/-- moving on to the next dimensions -/
theorem stepDim_head (hs : m.Sound) (hvar : ∀ x, s.var = some x → x < vars.length) (hm : s.MaskOk vars) (a : Addr) (d : Nat)
    (hd : d < 4) (hc : a.comp = s.comp.getD 0) (hdf : a.dof = s.dof.getD 0)
    (hk : a.num = firstKind d ∨ a.num = firstKind d + 1 ∧ toOriented s (firstKind d) = true) (l : Nat)
    (hl : l = s.loc.getD 0) :
    stepDim s m vars a l = ((List.range' (d + 1) (3 - d)).flatMap (dimList s m vars)).head? := by
  have hdim : dimOf a.num = d := by
    match d, hd with
    | 0, _ => simp [firstKind, toOriented] at hk; rw [hk]; rfl
    | 1, _ => simp [firstKind, toOriented] at hk; rcases hk with hk | ⟨hk, _⟩ <;> rw [hk] <;> rfl
    | 2, _ => simp [firstKind, toOriented] at hk; rcases hk with hk | ⟨hk, _⟩ <;> rw [hk] <;> rfl
    | 3, _ => simp [firstKind, toOriented] at hk; rw [hk]; rfl
  unfold stepDim
  rw [hdim]
  simp only
  by_cases hend : s.mask >>> (if a.num = 1 ∨ a.num = 3 then a.num + 1 else a.num) = 0 ∨ a.num = 5
  · rw [if_pos hend]
    have : ∀ d', d' ∈ List.range' (d + 1) (3 - d) → dimList s m vars d' = [] := by
      intro d' hd'
      rw [List.mem_range'_1] at hd'
      unfold dimList
      have hw : wantsDim s d' = false := by
        rcases hend with hz | h5
        · unfold wantsDim
          rw [List.any_eq_false]
          intro k hk' hb
          have hge : (if a.num = 1 ∨ a.num = 3 then a.num + 1 else a.num) ≤ k := by
            match d, d', hd, hd' with
            | 0, _, _, _ =>
              simp [firstKind, toOriented] at hk
              simp [hk]
            | 1, 2, _, _ =>
              simp [firstKind, toOriented] at hk
              simp [kindsOf] at hk'
              rcases hk with hk | ⟨hk, _⟩ <;> simp [hk] <;> omega
            | 1, 3, _, _ =>
              simp [firstKind, toOriented] at hk
              simp [kindsOf] at hk'
              rcases hk with hk | ⟨hk, _⟩ <;> simp [hk] <;> omega
            | 2, 3, _, _ =>
              simp [firstKind, toOriented] at hk
              simp [kindsOf] at hk'
              rcases hk with hk | ⟨hk, _⟩ <;> simp [hk] <;> omega
            | 3, _, _, h => omega
            | 1, n + 4, _, h => omega
            | 2, n + 4, _, h => omega
            | 1, 0, _, h => omega
            | 1, 1, _, h => omega
            | 2, 0, _, h => omega
            | 2, 1, _, h => omega
            | 2, 2, _, h => omega
          have := congrArg (fun x => x.testBit (k - (if a.num = 1 ∨ a.num = 3 then a.num + 1 else a.num))) hz
          simp only [Nat.testBit_shiftRight, Nat.zero_testBit] at this
          rw [Nat.add_sub_cancel' hge, hb] at this
          cases this
        · rw [h5] at hdim
          have : d = 3 := hdim.symm
          omega
      rw [wants_nil s vars d' hw]
      simp
    rw [List.flatMap_eq_nil_iff.2 this]
    rfl
  · rw [if_neg hend]
    apply findSome_flatMap
    intro d' hd'
    rw [List.mem_range'_1] at hd'
    have hE := enter s m vars hs hvar hm d' (by omega) a.var (s.loc.elim (m.last d') fun x => min (m.last d') (x + 1)) l hl rfl
    rw [← hE]
    by_cases hw : wantsDim s d' = true
    · rw [if_pos hw, if_pos hw]
      cases hloc : s.loc with
      | none => simp [hc, hdf]
      | some x =>
        rw [hloc] at hl
        simp only [Option.getD_some] at hl
        subst hl
        simp only [ne_eq, reduceCtorEq, not_false_eq_true, true_and, Option.elim_some]
        by_cases hv : m.last d' ≤ l ∨ m.valid d' l = false
        · rw [if_pos hv, chooseElem_spec s m vars hs _ d' _ (Nat.min_le_left _ _) _ _ le_rfl]
          have : ((List.range' l (min (m.last d') (l + 1) - l)).filter fun l => m.valid d' l && !m.ghost d' l) = [] := by
            rcases hv with hv | hv
            · rw [show min (m.last d') (l + 1) - l = 0 by omega]; rfl
            · rw [List.filter_eq_nil_iff]
              intro y hy
              rw [List.mem_range'_1] at hy
              obtain rfl : y = l := by omega
              simp [hv]
          rw [this]
          rfl
        · rw [if_neg hv, show min (m.last d') (l + 1) = l + 1 by omega, ← hc, ← hdf]
    · rw [if_neg hw, if_neg hw]

/-- **C67** (increment): every d.o.f. of the slice is followed by the next one, the last one by the end. -/
theorem step_follows (hs : m.Sound) (hvar : ∀ x, s.var = some x → x < vars.length) (hm : s.MaskOk vars) :
    Follows (step s m vars) (s.places m vars) none := by
  have hall : s.places m vars = ((List.range 4).filter fun _ => true).flatMap (dimList s m vars) := by
    rw [List.filter_true]; rfl
  rw [hall]
  refine follows_range_filter _ _ (fun _ => true) (dimList s m vars) _ ?_
  intro d hd _
  refine follows_range_filter _ _ (s.Takes m d)
    (fun l => ((addrs vars d).filter s.Wants).map fun a => (⟨l, a⟩ : Place)) _ ?_
  intro l hl htake
  apply follows_map _ _ _ _ _ (elem_follows s vars hvar d)
  intro a ha
  obtain ⟨hmem, hwant⟩ := List.mem_filter.1 ha
  have hdim : dimOf a.num = d := ((mem_addrs vars d hd a).1 hmem).1
  have hw : wantsDim s d = true := by
    by_contra h
    have := wants_nil s vars d (by simpa using h)
    rw [this] at ha
    cases ha
  unfold step found
  simp only
  cases hb : (stepIn s vars a).2 with
  | true => simp
  | false =>
    simp only [Bool.false_eq_true, if_false, Option.elim_none]
    obtain ⟨e1, e2, e3, e4⟩ := exhausted s vars a hb (by rw [hdim]; exact ha)
    rw [hdim] at e3 e4
    have hrest4 : rest 4 (fun _ => true) (dimList s m vars) d = (List.range' (d + 1) (3 - d)).flatMap (dimList s m vars) := by
      unfold rest
      rw [List.filter_true, show 4 - d - 1 = 3 - d by omega]
    rw [hrest4, Option.or_none]
    have hD := fun l hl => stepDim_head s m vars hs hvar hm (stepIn s vars a).1 d hd e1 e2
      (e4.imp_right fun h => ⟨h.1, h.2.1⟩) l hl
    unfold stepElem
    unfold Slice.Takes at htake
    cases hloc : s.loc with
    | none =>
      rw [if_pos rfl]
      simp only
      rw [e3, chooseElem_spec s m vars hs _ d _ le_rfl _ _ le_rfl, onElement_head s vars hvar hm d hd hw _ e1 e2 e4,
        hD 0 (by rw [hloc]; rfl)]
      unfold rest
      rw [head_flatMap_mk]
      have hskip : ((List.range' (m.next d l) (m.last d - m.next d l)).filter fun l => m.valid d l && !m.ghost d l) =
          (List.range' (l + 1) (m.last d - l - 1)).filter (s.Takes m d) := by
        have hT : s.Takes m d = fun l => m.valid d l && !m.ghost d l := by
          funext l
          simp [Slice.Takes, hloc]
        rw [hT]
        obtain ⟨hn1, hn2⟩ := hs d l
        have : ∀ k, l + 1 + k ≤ m.next d l → 
            ((List.range' (l + 1) (m.last d - l - 1)).filter fun l => m.valid d l && !m.ghost d l) =
            ((List.range' (l + 1 + k) (m.last d - (l + 1 + k))).filter fun l => m.valid d l && !m.ghost d l) := by
          intro k
          induction k with
          | zero => intro _; rw [Nat.add_zero, Nat.sub_sub]
          | succ k ihk =>
            intro hk
            rw [ihk (by omega)]
            by_cases hlt : l + 1 + k < m.last d
            · rw [show m.last d - (l + 1 + k) = (m.last d - (l + 1 + (k + 1))) + 1 by omega, List.range'_succ,
                List.filter_cons_of_neg (by rw [hn2 (l + 1 + k) (by omega) (by omega) (by omega)]; simp)]
              rfl
            · rw [show m.last d - (l + 1 + k) = 0 by omega, show m.last d - (l + 1 + (k + 1)) = 0 by omega]
              rfl
        have := this (m.next d l - (l + 1)) (by omega)
        rw [this, show l + 1 + (m.next d l - (l + 1)) = m.next d l by omega]
      rw [hskip]
      cases (((List.range' (l + 1) (m.last d - l - 1)).filter (s.Takes m d)).head?.bind fun l =>
        ((addrs vars d).filter s.Wants).head?.map fun r => (⟨l, r⟩ : Place)) <;> rfl
    | some x =>
      rw [hloc] at htake
      simp only [Option.all_some, Bool.and_eq_true, beq_iff_eq] at htake
      obtain ⟨_, rfl⟩ := htake
      rw [if_neg (by simp), hD x (by rw [hloc]; rfl)]
      have : rest (m.last d) (s.Takes m d) (fun l => ((addrs vars d).filter s.Wants).map fun a => (⟨l, a⟩ : Place)) x = [] := by
        unfold rest
        rw [List.flatMap_eq_nil_iff]
        intro y hy
        obtain ⟨hy1, hy2⟩ := List.mem_filter.1 hy
        rw [List.mem_range'_1] at hy1
        simp only [Slice.Takes, hloc, Option.all_some, Bool.and_eq_true, beq_iff_eq] at hy2
        omega
      rw [this]
      rfl

/-- a loop over an iterator that follows a list -/
theorem forEach_follows {S : Type} (body : S → Place → S) : ∀ (l : List Place) (fuel : Nat) (x : S), Follows (step s m vars) l none →
    l.length ≤ fuel → forEach s m vars body fuel l.head? x = l.foldl body x := by
  intro l
  induction l with
  | nil => intro fuel x _ _; cases fuel <;> rfl
  | cons p l ih =>
    intro fuel x hf hl
    obtain ⟨h1, h2⟩ := hf
    cases fuel with
    | zero => simp at hl
    | succ fuel =>
      show forEach s m vars body fuel (step s m vars p) (body x p) = _
      rw [h1, Option.or_none, ih fuel _ h2 (by simpa using hl)]
      rfl

/-- **C67** (loop): a loop over the iterator executes its body once for every d.o.f. of the slice, in the order of storage; it
ends after as many passes as there are d.o.f.s. -/
theorem forEach_places {S : Type} (hs : m.Sound) (hvar : ∀ x, s.var = some x → x < vars.length) (hm : s.MaskOk vars)
    (body : S → Place → S) (fuel : Nat) (hf : (s.places m vars).length ≤ fuel) (x : S) :
    forEach s m vars body fuel (begin s m vars) x = (s.places m vars).foldl body x := by
  rw [begin_head s m vars hs hvar hm]
  exact forEach_follows s m vars body _ fuel x (step_follows s m vars hs hvar hm) hf

/-- **C67** (members): the d.o.f.s visited are those of the slice on the stored elements of the process. -/
theorem mem_places (p : Place) : p ∈ s.places m vars ↔
    p.addr ∈ addrs vars (dimOf p.addr.num) ∧ p.lid < m.last (dimOf p.addr.num) ∧
      m.valid (dimOf p.addr.num) p.lid = true ∧ m.ghost (dimOf p.addr.num) p.lid = false ∧
      (∀ x, s.loc = some x → p.lid = x) ∧ (∀ x, s.var = some x → p.addr.var = x) ∧ (∀ x, s.comp = some x → p.addr.comp = x) ∧
      (∀ x, s.dof = some x → p.addr.dof = x) ∧ s.mask.testBit p.addr.num = true := by
  have hall : ∀ (o : Option Nat) (y : Nat), o.all (· == y) = true ↔ ∀ x, o = some x → y = x := by
    intro o y
    cases o with
    | none => simp
    | some x =>
      simp only [Option.all_some, beq_iff_eq, Option.some.injEq]
      exact ⟨fun h z hz => by rw [← hz, h], fun h => (h x rfl).symm⟩
  have key : p ∈ s.places m vars ↔ ∃ d, d < 4 ∧ p.lid < m.last d ∧ s.Takes m d p.lid = true ∧ p.addr ∈ addrs vars d ∧
      s.Wants p.addr = true := by
    unfold Slice.places
    constructor
    · intro h
      obtain ⟨d, hd, h⟩ := List.mem_flatMap.1 h
      obtain ⟨l, hl, h⟩ := List.mem_flatMap.1 h
      obtain ⟨a, ha, rfl⟩ := List.mem_map.1 h
      obtain ⟨hl1, hl2⟩ := List.mem_filter.1 hl
      obtain ⟨ha1, ha2⟩ := List.mem_filter.1 ha
      exact ⟨d, List.mem_range.1 hd, List.mem_range.1 hl1, hl2, ha1, ha2⟩
    · rintro ⟨d, hd, hl, ht, ha, hw⟩
      exact List.mem_flatMap.2 ⟨d, List.mem_range.2 hd, List.mem_flatMap.2 ⟨p.lid, List.mem_filter.2 ⟨List.mem_range.2 hl, ht⟩,
        List.mem_map.2 ⟨p.addr, List.mem_filter.2 ⟨ha, hw⟩, rfl⟩⟩⟩
  rw [key]
  simp only [Slice.Takes, Slice.Wants, Bool.and_eq_true, Bool.not_eq_true', hall]
  constructor
  · rintro ⟨d, hd, hl, ⟨⟨hv, hg⟩, hloc⟩, ha, ⟨⟨h1, h2⟩, h3⟩, h4⟩
    obtain rfl := ((mem_addrs vars d hd p.addr).1 ha).1
    exact ⟨ha, hl, hv, hg, hloc, h1, h2, h3, h4⟩
  · rintro ⟨ha, hl, hv, hg, hloc, h1, h2, h3, h4⟩
    refine ⟨_, ?_, hl, ⟨⟨hv, hg⟩, hloc⟩, ha, ⟨⟨h1, h2⟩, h3⟩, h4⟩
    unfold dimOf
    split <;> omega

/-- **C67** (once): no d.o.f. is visited twice. -/
theorem places_nodup : (s.places m vars).Nodup := by
  unfold Slice.places
  rw [List.nodup_flatMap]
  constructor
  · intro d hd
    rw [List.nodup_flatMap]
    constructor
    · intro l _
      refine List.Nodup.map ?_ ((addrs_nodup vars d (List.mem_range.1 hd)).filter _)
      intro a b hab
      exact (Place.mk.injEq .. ▸ hab : _ ∧ _).2
    · refine List.Pairwise.imp ?_ ((List.nodup_range).filter _)
      intro l l' hne p hp hp'
      obtain ⟨a, _, rfl⟩ := List.mem_map.1 hp
      obtain ⟨b, _, hb⟩ := List.mem_map.1 hp'
      exact hne (congrArg Place.lid hb).symm
  · refine List.Pairwise.imp_of_mem ?_ List.nodup_range
    intro d d' hd hd' hne p hp hp'
    obtain ⟨l, _, h⟩ := List.mem_flatMap.1 hp
    obtain ⟨a, ha, rfl⟩ := List.mem_map.1 h
    obtain ⟨l', _, h'⟩ := List.mem_flatMap.1 hp'
    obtain ⟨b, hb, hbe⟩ := List.mem_map.1 h'
    have e1 := ((mem_addrs vars d (List.mem_range.1 hd) a).1 (List.mem_filter.1 ha).1).1
    have e2 := ((mem_addrs vars d' (List.mem_range.1 hd') b).1 (List.mem_filter.1 hb).1).1
    have := congrArg (fun p => p.addr) hbe
    dsimp only at this
    rw [this] at e2
    exact hne (e1.symm.trans e2)

end

/-- A slice of the oriented d.o.f.s of edges (faces) only starts with an unoriented one if there are any. -/
theorem begin_wrong (m : Mesh) (vars : List Var) (hs : m.Sound) (mask k d : Nat)
    (hk : (mask = 4 ∧ k = 1 ∧ d = 1) ∨ (mask = 16 ∧ k = 3 ∧ d = 2))
    (h0 : 0 < kindSize vars k) (l : Nat) (hl : l < m.last d) (hv : m.valid d l = true) (hg : m.ghost d l = false) :
    ∃ p, begin ⟨none, none, none, mask, none⟩ m vars = some p ∧ p.addr.num = k ∧
      p ∉ (⟨none, none, none, mask, none⟩ : Slice).places m vars := by
  have hkind : (kindList ⟨none, none, none, mask, none⟩ vars k).head? ≠ none := by
    obtain ⟨a, ha⟩ := List.exists_mem_of_length_pos h0
    obtain ⟨hn, v, hv, hc, hj⟩ := (mem_addrsKind vars k a).1 ha
    intro hnil
    have hnil := List.head?_eq_none_iff.1 hnil
    have : a ∈ kindList ⟨none, none, none, mask, none⟩ vars k := by
      refine List.mem_flatMap.2 ⟨a.var, ?_, ?_⟩
      · rw [show (⟨none, none, none, mask, none⟩ : Slice).var = none from rfl, sel_none]
        exact List.mem_range.2 (List.getElem?_eq_some_iff.1 hv).1
      · unfold comps
        rw [hv]
        refine List.mem_flatMap.2 ⟨a.comp, ?_, List.mem_map.2 ⟨a.dof, ?_, ?_⟩⟩
        · rw [show (⟨none, none, none, mask, none⟩ : Slice).comp = none from rfl, sel_none]
          exact List.mem_range.2 hc
        · rw [show (⟨none, none, none, mask, none⟩ : Slice).dof = none from rfl, sel_none]
          exact List.mem_range.2 hj
        · rw [← hn]
    rw [hnil] at this
    cases this
  obtain ⟨r, hr⟩ := Option.ne_none_iff_exists'.1 hkind
  have hrn : r.num = k := by
    have := List.mem_of_head? hr
    unfold kindList at this
    obtain ⟨i, _, h⟩ := List.mem_flatMap.1 this
    unfold comps at h
    cases hvi : vars[i]? with
    | none => rw [hvi] at h; cases h
    | some v =>
      rw [hvi] at h
      obtain ⟨c, _, h⟩ := List.mem_flatMap.1 h
      obtain ⟨j, _, rfl⟩ := List.mem_map.1 h
      rfl
  have hne : ((List.range' 0 (m.last d - 0)).filter fun l => m.valid d l && !m.ghost d l).head? ≠ none := by
    intro hnil
    have := List.filter_eq_nil_iff.1 (List.head?_eq_none_iff.1 hnil) l (by rw [List.mem_range'_1]; omega)
    simp [hv, hg] at this
  obtain ⟨l', hl'⟩ := Option.ne_none_iff_exists'.1 hne
  have hE : chooseElem ⟨none, none, none, mask, none⟩ m vars ⟨k, 0, 0, 0⟩ d (m.last d) (m.last d - 0) 0 = some ⟨l', r⟩ := by
    rw [chooseElem_spec _ m vars hs _ d _ le_rfl _ _ le_rfl, hl', Option.bind_some]
    unfold onElement
    rw [choose_kind _ vars (fun x hx => by cases hx) ⟨k, 0, 0, 0⟩ rfl rfl, hr]
    rfl
  refine ⟨⟨l', r⟩, ?_, hrn, ?_⟩
  · unfold begin
    rcases hk with ⟨rfl, rfl, rfl⟩ | ⟨rfl, rfl, rfl⟩
    · have w0 : wantsDim ⟨none, none, none, 4, none⟩ 0 = false := by decide
      have w1 : wantsDim ⟨none, none, none, 4, none⟩ 1 = true := by decide
      rw [show List.range 4 = [0, 1, 2, 3] from rfl, List.findSome?_cons, w0, List.findSome?_cons, w1]
      simp only [Bool.false_eq_true, if_false, if_true, Option.getD_none, Option.elim_none, firstKind, loVar]
      rw [hE]
    · have w0 : wantsDim ⟨none, none, none, 16, none⟩ 0 = false := by decide
      have w1 : wantsDim ⟨none, none, none, 16, none⟩ 1 = false := by decide
      have w2 : wantsDim ⟨none, none, none, 16, none⟩ 2 = true := by decide
      rw [show List.range 4 = [0, 1, 2, 3] from rfl, List.findSome?_cons, w0, List.findSome?_cons, w1, List.findSome?_cons, w2]
      simp only [Bool.false_eq_true, if_false, if_true, Option.getD_none, Option.elim_none, firstKind, loVar]
      rw [hE]
  · intro hmem
    have := ((mem_places _ m vars _).1 hmem).2.2.2.2.2.2.2.2
    dsimp only at this
    rw [hrn] at this
    rcases hk with ⟨rfl, rfl, rfl⟩ | ⟨rfl, rfl, rfl⟩
    · exact absurd this (by decide)
    · exact absurd this (by decide)

/-- a mesh with a hole, a ghost and a jump over the hole -/
def exMesh : Mesh where
  last d := if d = 3 then 2 else 4
  valid d l := !(d == 1 && l == 1)
  ghost d l := l == 2
  next d l := if d = 1 ∧ l = 0 then 2 else l + 1

/-- two variables: a vector with two components, and a scalar with d.o.f.s of every kind -/
def exVars : List Var := [⟨true, 2, fun k => if k = 1 then 2 else 0⟩, ⟨false, 0, fun _ => 1⟩]

theorem exMesh_sound : exMesh.Sound := by
  intro d l
  simp only [exMesh]
  constructor
  · split <;> omega
  · intro x h1 h2 _
    by_cases h : d = 1 ∧ l = 0
    · rw [if_pos h] at h2
      obtain rfl : x = 1 := by omega
      simp [h.1]
    · rw [if_neg h] at h2
      omega

example : begin ⟨none, none, none, 0xFF, none⟩ exMesh exVars = some ⟨0, 0, 1, 0, 0⟩ ∧
    step ⟨none, none, none, 0xFF, none⟩ exMesh exVars ⟨0, 2, 1, 0, 0⟩ = some ⟨3, 1, 0, 0, 0⟩ ∧
    forEach ⟨none, some 0, none, 0x6, none⟩ exMesh exVars (fun l p => l ++ [p]) 100
      (begin ⟨none, some 0, none, 0x6, none⟩ exMesh exVars) [] =
      [⟨0, 1, 0, 0, 0⟩, ⟨0, 1, 0, 0, 1⟩, ⟨0, 1, 1, 0, 0⟩, ⟨0, 2, 1, 0, 0⟩,
       ⟨3, 1, 0, 0, 0⟩, ⟨3, 1, 0, 0, 1⟩, ⟨3, 1, 1, 0, 0⟩, ⟨3, 2, 1, 0, 0⟩] := by decide +kernel

example : (⟨none, some 0, none, 0x6, none⟩ : Slice).MaskOk exVars := by decide +kernel

example : begin ⟨none, none, none, 4, none⟩ exMesh exVars = some ⟨0, 1, 0, 0, 0⟩ ∧ 0 < kindSize exVars 1 := by decide +kernel

end Verif.GeomWalk
