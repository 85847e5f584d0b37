import Verif.Lemmas.Ordered
import Verif.Spec.Ordered

/-!
C21 for `OrderedEnumerator`: the numbers of the d.o.f.s of a process in the lexicographical order of an arrangement.

`own d` lists the global ids of the owned elements of dimension `d`, `b d, b d + 1, ...` in any order.
-/
namespace Verif.Enumerator
open Verif.ExtEnum (rank unrank Built)
open Verif.Spec.ExtEnum

/-- **C21**: exactly the arrangements of the five values are accepted. -/
theorem arrange_iff {order : List Nat} (hl : order.length = 5) : (∃ perm, arrange order = some perm) ↔ order.Perm (List.range 5) :=
  ⟨fun ⟨_, h⟩ => (arrange_data hl h).2.1, arrange_of_perm⟩

example : arrange [2, 0, 3, 4, 1] = some [1, 4, 0, 2, 3] ∧ arrange [2, 0, 3, 4, 2] = none ∧ arrange [2, 0, 3, 4, 5] = none := by decide
example : ∃ perm, arrange [2, 0, 3, 4, 1] = some perm := (arrange_iff rfl).2 (by decide)

/-- **C21**: `getArrangement` returns the arrangement given. -/
theorem arrangement_arrange {order perm : List Nat} (hl : order.length = 5) (h : arrange order = some perm) : arrangement perm = (order, true) :=
  (arrange_data hl h).2.2

example : arrangement [1, 4, 0, 2, 3] = ([2, 0, 3, 4, 1], true) := arrangement_arrange rfl (by decide)

section
variable {vars : List Var} {own : Nat → List Nat} {b total : Nat → Nat} {order perm : List Nat} {rev : Bool} {o : Ordered}

/-- The enumerator `o` is set up with the arrangement `order`. -/
structure Arranged (vars : List Var) (own : Nat → List Nat) (b total : Nat → Nat) (order : List Nat) (rev : Bool) (o : Ordered) : Prop where
  len : order.length = 5
  contiguous : Contiguous own b
  bound : ∀ d, b d < longMax
  setup : (arrange order).bind (fun perm => orderedSetup vars (setup (numDofs vars) own total) perm rev) = some o

theorem Arranged.data (h : Arranged vars own b total order rev o) :
    Perm5 order o.perm ∧ o.s = Enumerator.setup (numDofs vars) own total ∧ o.reverse = rev ∧
      Built 4 (o.perm.getD 3 0) (shift o.perm 2) (fun v => (Enumerator.setup (numDofs vars) own total).numElem (dimOf v)) (baseVals o.perm vars) o.emap := by
  obtain ⟨perm, h1, h2⟩ := Option.bind_eq_some_iff.1 h.setup
  have hp := perm5_of (arrange_data h.len h1).1
  obtain ⟨h3, h4, h5, h6⟩ := ordered_built hp h2
  subst h5
  exact ⟨hp, h4, h6, h3⟩

/-- **C21**: the enumerator is set up for every arrangement, if there is any d.o.f. at all. -/
theorem ordered_total (ho : order.Perm (List.range 5)) (hc : Contiguous own b) (hb : ∀ d, b d < longMax) {d : Nat} (hd : d < 4)
    (hv : addrs vars d ≠ []) : ∃ o, Arranged vars own b total order rev o := by
  obtain ⟨perm, hp⟩ := arrange_of_perm ho
  have hl : order.length = 5 := by simpa using ho.length_eq
  have h5 := perm5_of (arrange_data hl hp).1
  have hne : baseVals perm vars ≠ [] := by
    obtain ⟨a, ha⟩ := List.exists_mem_of_ne_nil _ hv
    obtain ⟨_, h3, h4⟩ := (mem_addrs vars _ hd _).1 ha
    obtain ⟨_, v, hv, hc, hj⟩ := (mem_addrsKind vars _ _).1 h4
    exact List.ne_nil_of_mem ((mem_baseVals perm vars _).2 ⟨a.var, v, a.comp, a.num, a.dof, hv, h3, hc, hj, rfl⟩)
  obtain ⟨E, hE⟩ := ExtEnum.setup_total (rg := fun v => (Enumerator.setup (numDofs vars) own total).numElem (dimOf v)) h5.m_lt h5.n_le
    (fun a ha => by
      obtain ⟨_, _, _, _, _, _, _, _, _, rfl⟩ := (mem_baseVals perm vars a).1 ha
      exact put4_length _ _) (Or.inl hne)
  refine ⟨⟨Enumerator.setup (numDofs vars) own total, perm, rev, E⟩, hl, hc, hb, ?_⟩
  rw [hp, Option.bind_some, orderedSetup, hE.2.2.2]
  rfl

theorem byMap_rank {x : Nat × Addr} {i : Nat} (h : rank o.emap (put5 o.perm (o.values x)) = some i) :
    o.byMap x = some ((if o.reverse then o.emap.size - i - 1 else i) + o.s.begInd) := by
  rw [Ordered.byMap, h]
  cases hr : o.reverse <;> simp

/-- **C21**: the d.o.f.s of the process get the numbers `BegInd .. EndInd - 1`, each once, in every arrangement. -/
theorem ordered_numbering (h : Arranged vars own b total order rev o) :
    Numbering (OwnedDof vars own) o.byMap o.s.begInd o.s.endInd := by
  obtain ⟨hp, hs, hr, hB⟩ := h.data
  have hmem := mem_ordered (o := o) hp h.contiguous h.bound hs (vars := vars) (total := total)
  have hnum : Numbering (OwnedDof vars own) o.byMap o.s.begInd (o.s.begInd + o.emap.size) := by
    have hrank : ∀ x, OwnedDof vars own x → ∃ i, rank o.emap (put5 o.perm (o.values x)) = some i ∧ i < o.emap.size := by
      intro x hx
      have hxm := (hmem _).2 ⟨x, hx, rfl⟩
      exact ⟨_, ExtEnum.rank_eq hB hxm, (ExtEnum.rank_onto hB _).2 ⟨_, hxm, ExtEnum.rank_eq hB hxm⟩⟩
    refine ⟨fun x hx => ?_, fun x y n hx hy hfx hfy => ?_, fun n h1 h2 => ?_⟩
    · obtain ⟨i, h1, h2⟩ := hrank x hx
      refine ⟨_, byMap_rank h1, ?_⟩
      split <;> omega
    · obtain ⟨i, h1, h2⟩ := hrank x hx
      obtain ⟨j, h3, h4⟩ := hrank y hy
      rw [byMap_rank h1] at hfx
      rw [byMap_rank h3] at hfy
      have hij : i = j := by
        have e1 := Option.some.inj hfx
        have e2 := Option.some.inj hfy
        cases hrv : o.reverse <;> rw [hrv] at e1 e2 <;> simp only [if_true, Bool.false_eq_true, if_false] at e1 e2 <;> omega
      refine values_inj (o := o) hp h.contiguous h.bound hs hx hy (ExtEnum.rank_inj hB ((hmem _).2 ⟨x, hx, rfl⟩) ((hmem _).2 ⟨y, hy, rfl⟩) ?_)
      rw [h1, h3, hij]
    · obtain ⟨z, hz, hzr⟩ := (ExtEnum.rank_onto hB (if o.reverse = true then o.emap.size - 1 - (n - o.s.begInd) else n - o.s.begInd)).1 (by split <;> omega)
      obtain ⟨y, hy, rfl⟩ := (hmem z).1 hz
      refine ⟨y, hy, ?_⟩
      rw [byMap_rank hzr]
      congr 1
      cases hrv : o.reverse <;> simp only [if_true, Bool.false_eq_true, if_false] <;> omega
  have hani := anitype_numbering vars own b total h.contiguous h.bound
  rw [← hs] at hani
  have hle : o.s.begInd ≤ o.s.endInd := by
    rw [hs, ← init_end]
    simp only [Setup.init]; omega
  have h1 := numbering_length hnum hani hle
  have h2 := numbering_length hani hnum (by omega)
  rw [show o.s.endInd = o.s.begInd + o.emap.size by omega]
  exact hnum

/-- **C21**: the numbers are in the lexicographical order of the arrangement, or in the opposite one; the element is counted by
its place on the process. -/
theorem ordered_lt (h : Arranged vars own b total order rev o) {x y : Nat × Addr} (hx : OwnedDof vars own x) (hy : OwnedDof vars own y) :
    ∃ i j, o.byMap x = some i ∧ o.byMap y = some j ∧
      (sortKey order (x.1 - b (dimOf x.2.num)) x.2 < sortKey order (y.1 - b (dimOf y.2.num)) y.2 ↔ if rev then j < i else i < j) := by
  obtain ⟨hp, hs, hr, hB⟩ := h.data
  have hmem := mem_ordered (o := o) hp h.contiguous h.bound hs (vars := vars) (total := total)
  obtain ⟨i, j, h1, h2, h3⟩ := ExtEnum.rank_lt_iff hB ((hmem _).2 ⟨x, hx, rfl⟩) ((hmem _).2 ⟨y, hy, rfl⟩)
  have hi := (ExtEnum.rank_onto hB i).2 ⟨_, (hmem _).2 ⟨x, hx, rfl⟩, h1⟩
  have hj := (ExtEnum.rank_onto hB j).2 ⟨_, (hmem _).2 ⟨y, hy, rfl⟩, h2⟩
  have hkey : ∀ z, OwnedDof vars own z → sortKey order (z.1 - b (dimOf z.2.num)) z.2 = put5 o.perm (o.values z) := by
    intro z hz
    have hbe := setup_begElem (total := total) h.contiguous _ (h.bound _) (used_of_addr' (dimOf_lt' _) hz.2)
    rw [if_neg (List.ne_nil_of_mem hz.1)] at hbe
    rw [hp.key, sortKey]
    refine List.map_congr_left fun k hk => ?_
    obtain ⟨perm, ha, _⟩ := Option.bind_eq_some_iff.1 h.setup
    have hk5 := (perm_range5.1 (arrange_data h.len ha).2.1).2.1 k hk
    match k, hk5 with
    | 0, _ => rfl
    | 1, _ => rfl
    | 2, _ => rfl
    | 3, _ => simp [coord, Ordered.values, hs, hbe]
    | 4, _ => rfl
  refine ⟨_, _, byMap_rank h1, byMap_rank h2, ?_⟩
  rw [hkey x hx, hkey y hy, h3, hr]
  cases rev
  · simp
  · simp only [if_true]; omega

theorem lex_congr (l : List Nat) {f g f' g' : Nat → Nat} (hf : ∀ k, k ≠ 3 → f k = f' k) (hg : ∀ k, k ≠ 3 → g k = g' k)
    (h3 : f 2 = g 2 → (f 3 < g 3 ↔ f' 3 < g' 3) ∧ (f 3 = g 3 ↔ f' 3 = g' 3)) (hl : f 2 = g 2 ∨ KindFirst l) :
    l.map f < l.map g ↔ l.map f' < l.map g' := by
  induction l with
  | nil => simp
  | cons k l ih =>
    simp only [List.map_cons, List.cons_lt_cons_iff]
    by_cases hk : k = 3
    · subst hk
      rcases hl with hl | hl
      · rw [(h3 hl).1, (h3 hl).2, ih (Or.inl hl)]
      · exact absurd (hl [] l rfl) (by simp)
    · rw [hf k hk, hg k hk]
      by_cases he : f' k = g' k
      · rw [ih ?_]
        by_cases h2 : k = 2
        · left; subst h2; rw [hf 2 hk, hg 2 hk, he]
        · refine hl.imp_right fun hl l1 l2 e => ?_
          have := hl (k :: l1) l2 (by rw [e]; rfl)
          rcases List.mem_cons.1 this with h | h
          · exact absurd h.symm h2
          · exact h
      · simp [he]

/-- **C21**: in the arrangements comparing the kind before the element, the order is also that of the global ids. -/
theorem ordered_gid_lt_partial (h : Arranged vars own b total order rev o) (hk : KindFirst order) {x y : Nat × Addr}
    (hx : OwnedDof vars own x) (hy : OwnedDof vars own y) :
    ∃ i j, o.byMap x = some i ∧ o.byMap y = some j ∧ (sortKey order x.1 x.2 < sortKey order y.1 y.2 ↔ if rev then j < i else i < j) := by
  obtain ⟨i, j, h1, h2, h3⟩ := ordered_lt h hx hy
  refine ⟨i, j, h1, h2, ?_⟩
  rw [← h3]
  have hx1 := ((contiguous_mem h.contiguous _ _).1 hx.1).1
  have hy1 := ((contiguous_mem h.contiguous _ _).1 hy.1).1
  refine lex_congr order ?_ ?_ ?_ (Or.inr hk)
  · intro k hk3
    match k with
    | 0 | 1 | 2 | k + 4 => rfl
    | 3 => exact absurd rfl hk3
  · intro k hk3
    match k with
    | 0 | 1 | 2 | k + 4 => rfl
    | 3 => exact absurd rfl hk3
  · intro he
    have he : x.2.num = y.2.num := he
    simp only [coord]
    rw [he] at hx1 ⊢
    constructor <;> omega

/-- the first oriented d.o.f. of an edge or a face -/
def FirstOriented (vars : List Var) (a : Addr) : Prop :=
  ∃ e, fullIndex vars a = some e ∧ (dimOf a.num = 1 ∨ dimOf a.num = 2) ∧ e.elemDofId = numDofs vars (elemNum (dimOf a.num))

/-- **C21**, but for the first oriented d.o.f. of an edge or a face: the number read from the tag is the number of the map. -/
theorem ordered_index_partial {x : Nat × Addr} (hx : OwnedDof vars own x) (hf : ¬ FirstOriented vars x.2) :
    o.index vars x = o.byMap x := by
  have hd := dimOf_lt' x.2.num
  obtain ⟨e, he, _, hget⟩ := recompose vars _ hd x.2 hx.2
  have hlt := (List.getElem?_eq_some_iff.1 hget).1
  obtain ⟨e1, h1, h2, _⟩ := split_partial vars _ e.elemDofId hd hlt (fun h1 h2 => hf ⟨e, he, h1, h2⟩)
  rw [hget] at h2
  rw [Ordered.index, he, Option.bind_some, Ordered.tag, h1, Option.bind_some, ← Option.some.inj h2]

/-- **C21**, the violation: the set-up of the tag reads out of range as soon as an edge or a face has oriented d.o.f.s. -/
theorem ordered_tag_wrong {d gid : Nat} (hd : d = 1 ∨ d = 2) : o.tag vars d gid (numDofs vars (elemNum d)) = none := by
  rw [Ordered.tag, split_wrong vars d hd]; rfl

/-- **C21**, for less than `2 ^ 31` d.o.f.s and all numbers but the first: the look-up returns the element and the d.o.f. -/
theorem ordered_inverse_partial (h : Arranged vars own b total order rev o) (hsz : o.s.endInd - o.s.begInd < 2 ^ 31) {x : Nat × Addr}
    (hx : OwnedDof vars own x) {n : Nat} (hn : o.byMap x = some n) (h0 : n ≠ o.s.begInd) : o.inverse n = some x := by
  obtain ⟨hp, hs, hr, hB⟩ := h.data
  have hmem := mem_ordered (o := o) hp h.contiguous h.bound hs (vars := vars) (total := total)
  have hxm := (hmem _).2 ⟨x, hx, rfl⟩
  have hrk := ExtEnum.rank_eq hB hxm
  have hi := (ExtEnum.rank_onto hB _).2 ⟨_, hxm, hrk⟩
  have hN := ordered_numbering h
  have hsize : o.emap.size < 2 ^ 31 := by
    have hnum : Numbering (fun z => z ∈ extSet (o.perm.getD 3 0) (shift o.perm 2) (fun v => (Enumerator.setup (numDofs vars) own total).numElem (dimOf v)) (baseVals o.perm vars))
        (rank o.emap) 0 o.emap.size :=
      ⟨fun z hz => ⟨_, ExtEnum.rank_eq hB hz, Nat.zero_le _, (ExtEnum.rank_onto hB _).2 ⟨z, hz, ExtEnum.rank_eq hB hz⟩⟩,
        fun z w n hz hw h1 h2 => ExtEnum.rank_inj hB hz hw (h1.trans h2.symm), fun n _ h2 => (ExtEnum.rank_onto hB n).1 h2⟩
    have hnum' : Numbering (fun z => z ∈ extSet (o.perm.getD 3 0) (shift o.perm 2) (fun v => (Enumerator.setup (numDofs vars) own total).numElem (dimOf v)) (baseVals o.perm vars))
        (fun z => (rank o.emap z).map fun i => (if o.reverse then o.emap.size - i - 1 else i) + o.s.begInd) o.s.begInd o.s.endInd := by
      refine ⟨fun z hz => ?_, fun z w n hz hw h1 h2 => ?_, fun n h1 h2 => ?_⟩
      · obtain ⟨y, hy, rfl⟩ := (hmem z).1 hz
        exact hN.range y hy
      · obtain ⟨y, hy, rfl⟩ := (hmem z).1 hz
        obtain ⟨y', hy', rfl⟩ := (hmem w).1 hw
        rw [hN.inj y y' n hy hy' h1 h2]
      · obtain ⟨y, hy, hyn⟩ := hN.surj n h1 h2
        exact ⟨_, (hmem _).2 ⟨y, hy, rfl⟩, hyn⟩
    have hle : o.s.begInd ≤ o.s.endInd := by
      obtain ⟨m, _, h3, h4⟩ := hN.range x hx; omega
    have := numbering_length hnum hnum' hle
    omega
  have hun := ExtEnum.unrank_rank_partial hB hsize hxm
  rw [hrk, Option.bind_some] at hun
  rw [byMap_rank hrk] at hn
  set i := place (extSet (o.perm.getD 3 0) (shift o.perm 2) (fun v => (Enumerator.setup (numDofs vars) own total).numElem (dimOf v)) (baseVals o.perm vars)) (put5 o.perm (o.values x)) with hidef
  have hn := Option.some.inj hn
  have harg : (if o.reverse then o.emap.size - 1 - (n - o.s.begInd) else n - o.s.begInd) = i := by
    clear_value i
    cases hrv : o.reverse <;> rw [hrv] at hn <;> simp only [if_true, Bool.false_eq_true, if_false] at hn ⊢ <;> omega
  have hlt : o.s.begInd < n := by split at hn <;> omega
  rw [Ordered.inverse, if_pos hlt, harg, hun, Option.map_some]
  have hg := fun k hk => hp.get (o.values x) k hk
  simp only [hg 0 (by decide), hg 1 (by decide), hg 2 (by decide), hg 3 (by decide), hg 4 (by decide)]
  have hbe := setup_begElem (total := total) h.contiguous _ (h.bound _) (used_of_addr' (dimOf_lt' _) hx.2)
  rw [if_neg (List.ne_nil_of_mem hx.1)] at hbe
  have hx1 := ((contiguous_mem h.contiguous _ _).1 hx.1).1
  obtain ⟨g, k, vi, c, j⟩ := x
  simp only [Ordered.values, List.getD_cons_zero, List.getD_cons_succ]
  dsimp only at hbe hx1
  rw [hs, hbe]
  congr 2
  omega

/-- **C21**, the violation: the assertion of the look-up rejects the first number of the process. -/
theorem ordered_inverse_first_wrong : o.inverse o.s.begInd = none := by
  rw [Ordered.inverse, if_neg (by omega)]

end

/-! ### A mesh: two nodes and an edge; a vector of 2 components with d.o.f.s at nodes and edges, a scalar with one at nodes -/

section
def exVars : List Var := [⟨true, 2, fun k => if k = 0 ∨ k = 1 then 1 else 0⟩, ⟨false, 0, fun k => if k = 0 then 1 else 0⟩]
def exOwn : Nat → List Nat := fun d => if d = 0 then [6, 5] else if d = 1 then [3] else []
def exB : Nat → Nat := fun d => if d = 0 then 5 else if d = 1 then 3 else 0

theorem exContiguous : Contiguous exOwn exB := by
  intro d
  match d with
  | 0 => decide
  | 1 => decide
  | n + 2 => simp [exOwn]

theorem exBound : ∀ d, exB d < longMax := by
  intro d
  unfold exB longMax
  split
  · decide
  · split <;> decide

def exOrdered (order : List Nat) (rev : Bool) : Ordered :=
  ((arrange order).bind fun perm => orderedSetup exVars (Enumerator.setup (numDofs exVars) exOwn fun _ => 9) perm rev).getD
    ⟨Enumerator.setup (numDofs exVars) exOwn fun _ => 9, [], rev, ⟨0, 0, 0, id, [], [], [], [], [], [], 0⟩⟩

/-- `NATURAL`, reversed, and an arrangement with the element before the kind -/
theorem exNatural : Arranged exVars exOwn exB (fun _ => 9) [0, 1, 2, 3, 4] true (exOrdered [0, 1, 2, 3, 4] true) := ⟨rfl, exContiguous, exBound, rfl⟩
theorem exElem : Arranged exVars exOwn exB (fun _ => 9) [3, 2, 0, 4, 1] false (exOrdered [3, 2, 0, 4, 1] false) := ⟨rfl, exContiguous, exBound, rfl⟩

example : Numbering (OwnedDof exVars exOwn) (exOrdered [3, 2, 0, 4, 1] false).byMap 21 29 := by
  have := ordered_numbering exElem
  rwa [show (exOrdered [3, 2, 0, 4, 1] false).s.begInd = 21 by decide +kernel, show (exOrdered [3, 2, 0, 4, 1] false).s.endInd = 29 by decide +kernel] at this

example : (exOrdered [3, 2, 0, 4, 1] false).byMap (3, ⟨1, 0, 1, 0⟩) = some 25 ∧ (exOrdered [3, 2, 0, 4, 1] false).byMap (6, ⟨0, 0, 0, 0⟩) = some 26 := by
  decide +kernel
example : (exOrdered [0, 1, 2, 3, 4] true).byMap (5, ⟨0, 0, 0, 0⟩) = some 28 ∧ (exOrdered [0, 1, 2, 3, 4] true).inverse 28 = some (5, ⟨0, 0, 0, 0⟩) := by
  decide +kernel

theorem exNode : OwnedDof exVars exOwn (6, ⟨0, 0, 0, 0⟩) := ⟨by decide, by decide +kernel⟩
theorem exEdge : OwnedDof exVars exOwn (3, ⟨1, 0, 1, 0⟩) := ⟨by decide, by decide +kernel⟩

example : ∃ i j, (exOrdered [0, 1, 2, 3, 4] true).byMap (6, ⟨0, 0, 0, 0⟩) = some i ∧ (exOrdered [0, 1, 2, 3, 4] true).byMap (3, ⟨1, 0, 1, 0⟩) = some j ∧
    (sortKey [0, 1, 2, 3, 4] 6 ⟨0, 0, 0, 0⟩ < sortKey [0, 1, 2, 3, 4] 3 ⟨1, 0, 1, 0⟩ ↔ j < i) :=
  ordered_gid_lt_partial exNatural (by
    intro l1 l2 h
    rcases l1 with _ | ⟨a, _ | ⟨c, _ | ⟨d, l1⟩⟩⟩ <;> simp at h ⊢
    omega) exNode exEdge

example : (exOrdered [0, 1, 2, 3, 4] true).inverse 27 = some (6, ⟨0, 0, 0, 0⟩) :=
  ordered_inverse_partial exNatural (by decide +kernel) exNode (by decide +kernel) (by decide +kernel)

/-- **C21**, the violation: with the element compared before the kind, the order is not that of the global ids: the node 5
comes before the edge 3, both being the first of their kind on the process. -/
theorem ordered_gid_wrong : ∃ x y, OwnedDof exVars exOwn x ∧ OwnedDof exVars exOwn y ∧
    sortKey [3, 2, 0, 4, 1] y.1 y.2 < sortKey [3, 2, 0, 4, 1] x.1 x.2 ∧
    ∃ i j, (exOrdered [3, 2, 0, 4, 1] false).byMap x = some i ∧ (exOrdered [3, 2, 0, 4, 1] false).byMap y = some j ∧ i < j :=
  ⟨(5, ⟨0, 0, 0, 0⟩), (3, ⟨1, 0, 1, 0⟩), ⟨by decide, by decide +kernel⟩, exEdge, by decide, 21, 25, by decide +kernel, by decide +kernel, by decide⟩

end

end Verif.Enumerator
