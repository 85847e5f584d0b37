import Verif.Model.OrderTable
import Verif.Props.DofMap

/-!
C33: the table of local d.o.f. numbers of the assembler.
-/
set_option linter.unusedVariables false
namespace Verif.OrderTable
open Verif.DofMap Verif.Enumerator

/-- The entry describes the d.o.f. at place `l` of a variable whose components have `nd` d.o.f.s on such an element: same
element, existing component and number, and the number on the element counts component by component. -/
def Right (comps nd : Nat) (l : Loc) (t : Templ) : Prop :=
  t.num = l.num ∧ t.nelem = l.nelem ∧ t.comp < comps ∧ t.dof < nd ∧ t.comp * nd + t.dof = l.leid

theorem nds_eq (vec : Bool) (d : Nat) (b : Obj) (hc : Counted b) (hd : vec = true → 0 < d) (k : Nat) (hk : k < 6) :
    nds vec d b k = some (elems k * b.numDof k) := by
  unfold nds varObj
  have := hc.tetE k hk
  cases vec with
  | false =>
    simp only [Bool.false_eq_true, if_false]
    rw [if_neg (by omega), Nat.div_one, this]
  | true =>
    have h := hd rfl
    simp only [if_true]
    rw [if_neg (by omega)]
    show some (d * b.numTetE k / d) = _
    rw [Nat.mul_div_cancel_left _ h, this]

/-- what the table holds -/
theorem entry_eq (i : Nat) (vec : Bool) (d : Nat) (b : Obj) (hc : Counted b) (hd : vec = true → 0 < d) (l : Loc)
    (hl : l.Valid (varObj vec d b).numDof) :
    0 < elems l.num * b.numDof l.num ∧ entry i vec d b l =
      some ⟨i, l.leid / (elems l.num * b.numDof l.num), l.num, l.nelem, l.leid % (elems l.num * b.numDof l.num)⟩ := by
  obtain ⟨h1, h2, h3⟩ := hl
  have hb : 0 < b.numDof l.num := by
    unfold varObj at h3
    cases vec with
    | false => simp only [Bool.false_eq_true, if_false] at h3; omega
    | true =>
      simp only [if_true] at h3
      have h3 : l.leid < d * b.numDof l.num := h3
      by_contra h
      rw [Nat.eq_zero_of_not_pos h, Nat.mul_zero] at h3
      omega
  have hpos : 0 < elems l.num * b.numDof l.num := Nat.mul_pos (by omega) hb
  refine ⟨hpos, ?_⟩
  unfold entry
  rw [nds_eq vec d b hc hd l.num h1, Option.bind_some, if_neg (by omega)]

theorem mapM_get {α β : Type} (f : α → Option β) (l : List α) (h : ∀ a ∈ l, (f a).isSome = true) :
    ∃ r, l.mapM f = some r ∧ r.length = l.length ∧ ∀ k (hk : k < l.length), r[k]? = f l[k] := by
  induction l with
  | nil => exact ⟨[], rfl, rfl, fun k hk => absurd hk (by simp)⟩
  | cons a l ih =>
    obtain ⟨r, h1, h2, h3⟩ := ih (fun x hx => h x (List.mem_cons_of_mem _ hx))
    have ha := h a List.mem_cons_self
    obtain ⟨y, hy⟩ := Option.isSome_iff_exists.1 ha
    refine ⟨y :: r, ?_, by simp [h2], ?_⟩
    · rw [List.mapM_cons, hy, h1]; rfl
    · intro k hk
      cases k with
      | zero => simp [hy]
      | succ k => simpa using h3 k (by simpa using hk)

/-- The table has one entry per local number, built from the place of that number. -/
theorem table_entries (i : Nat) (vec : Bool) (d : Nat) (b : Obj) (hc : Counted b) (hd : vec = true → 0 < d)
    (hb : BijectiveLoc b.numTet b.numDof b.locate) :
    ∃ tab, table i vec d b = some tab ∧ tab.length = (varObj vec d b).numTet ∧
      ∀ g, g < (varObj vec d b).numTet → tab[g]? = entry i vec d b ((varObj vec d b).locate g) := by
  have hv : ∀ g, g < (varObj vec d b).numTet → ((varObj vec d b).locate g).Valid (varObj vec d b).numDof := by
    cases vec with
    | false => exact hb.valid
    | true => exact (power_numbering d b hb).valid
  obtain ⟨r, h1, h2, h3⟩ := mapM_get (fun g => entry i vec d b ((varObj vec d b).locate g))
    (List.range (varObj vec d b).numTet) (by
      intro g hg
      rw [(entry_eq i vec d b hc hd _ (hv g (List.mem_range.1 hg))).2]
      rfl)
  refine ⟨r, h1, by simpa using h2, ?_⟩
  intro g hg
  have := h3 g (by simpa using hg)
  simpa using this

/-- the P2 element: one d.o.f. on every node and edge -/
def exP2 : Counts := ⟨1, 1, 0, 0, 0, 0⟩

example : Counted (uniteObj exP2) ∧ BijectiveLoc (uniteObj exP2).numTet (uniteObj exP2).numDof (uniteObj exP2).locate :=
  tree_numbering (.unite exP2)

/-- C33, the part that holds: for variables without components, vectors with one component, and d.o.f.s inside the cell,
every entry of the table describes its d.o.f. -/
theorem table_right_partial (i : Nat) (vec : Bool) (d : Nat) (b : Obj) (hc : Counted b) (hd : vec = true → 0 < d) (l : Loc)
    (hl : l.Valid (varObj vec d b).numDof) (h : vec = false ∨ d = 1 ∨ l.num = 5) :
    ∃ t, entry i vec d b l = some t ∧ t.var = i ∧ Right (if vec then d else 1) (b.numDof l.num) l t := by
  obtain ⟨hpos, he⟩ := entry_eq i vec d b hc hd l hl
  refine ⟨_, he, rfl, rfl, rfl, ?_⟩
  obtain ⟨h1, h2, h3⟩ := hl
  unfold varObj at h3
  by_cases h5 : l.num = 5
  · rw [h5] at h3 hpos ⊢
    have e5 : elems 5 = 1 := rfl
    rw [e5, Nat.one_mul] at hpos ⊢
    refine ⟨?_, Nat.mod_lt _ hpos, ?_⟩
    · show l.leid / b.numDof 5 < _
      rw [Nat.div_lt_iff_lt_mul hpos]
      cases vec with
      | false => simpa using h3
      | true =>
        have h3 : l.leid < d * b.numDof 5 := h3
        simpa using h3
    · show l.leid / b.numDof 5 * b.numDof 5 + l.leid % b.numDof 5 = l.leid
      rw [Nat.mul_comm]; exact Nat.div_add_mod _ _
  · have hlt : l.leid < b.numDof l.num := by
      cases vec with
      | false => simpa using h3
      | true =>
        have h3 : l.leid < d * b.numDof l.num := h3
        rcases h with h | h | h
        · exact nomatch h
        · rw [h, Nat.one_mul] at h3; exact h3
        · exact absurd h h5
    have hle : b.numDof l.num ≤ elems l.num * b.numDof l.num := Nat.le_mul_of_pos_left _ (by omega)
    show l.leid / _ < _ ∧ l.leid % _ < _ ∧ l.leid / _ * _ + l.leid % _ = _
    rw [Nat.div_eq_of_lt (by omega), Nat.mod_eq_of_lt (by omega)]
    refine ⟨?_, hlt, by omega⟩
    cases vec with
    | false => simp
    | true => exact hd rfl

example : (⟨1, 4, 0⟩ : Loc).Valid (varObj false 1 (uniteObj exP2)).numDof ∧ ((false : Bool) = true → 0 < 1) :=
  ⟨⟨by decide, by decide, by decide⟩, fun h => nomatch h⟩

/-- the lookup of an address of a vector -/
theorem fullIndex_vec (vars : List Var) (i d : Nat) (base : Nat → Nat) (hd : 0 < d)
    (hv : vars[i]? = some ⟨true, d, base⟩) (k : Nat) : ∃ a b c, ∀ comp dof,
      fullIndex vars ⟨k, i, comp, dof⟩ = some ⟨⟨k, i, comp, dof⟩, a, b, c, base k * comp⟩ := by
  refine ⟨if k = 2 ∨ k = 4 then numDofs vars (k - 1) else 0,
    if k = 2 ∨ k = 4 then Var.numDof ⟨true, d, base⟩ (k - 1) else 0, pre (vars.map (·.numDof k)) i, ?_⟩
  · intro comp dof
    unfold fullIndex
    simp only [hv]
    by_cases h : comp > 0
    · rw [if_pos h, if_neg (by simp; omega)]
      unfold Var.numDof
      simp only [if_true]
      rw [Nat.mul_div_cancel_left _ hd]
    · rw [if_neg h]
      have : comp = 0 := by omega
      subst this
      rw [Nat.mul_zero]

/-- C33, vectors: as long as the number on the element is below the number of d.o.f.s of one component on all elements of
that kind, the place of storage computed from the entry is still the right one, though the component is not. -/
theorem table_place_partial (i d : Nat) (b : Obj) (hc : Counted b) (hd : 0 < d) (l : Loc)
    (hl : l.Valid (varObj true d b).numDof) (hsmall : l.leid < elems l.num * b.numDof l.num) (vars : List Var)
    (hv : vars[i]? = some ⟨true, d, b.numDof⟩) :
    ∃ t e, entry i true d b l = some t ∧ fullIndex vars t.addr = some e ∧ e.dshift + e.addr.dof = l.leid := by
  obtain ⟨hpos, he⟩ := entry_eq i true d b hc (fun _ => hd) l hl
  rw [Nat.div_eq_of_lt hsmall, Nat.mod_eq_of_lt hsmall] at he
  obtain ⟨x, y, z, hf⟩ := fullIndex_vec vars i d b.numDof hd hv l.num
  exact ⟨_, _, he, hf 0 l.leid, by simp⟩

example : (⟨0, 2, 2⟩ : Loc).Valid (varObj true 3 (uniteObj exP2)).numDof ∧ 2 < elems 0 * (uniteObj exP2).numDof 0 :=
  ⟨⟨by decide, by decide, by decide⟩, by decide⟩

/-- C33 does not hold for vectors: whenever a vector has more components than the tetrahedron has elements of a kind
with d.o.f.s, the d.o.f.s number `nd` and `elems * nd` on an element are given the same place of storage. -/
theorem table_wrong (i d : Nat) (b : Obj) (hc : Counted b) (k e0 : Nat) (hk : k < 5) (he0 : e0 < elems k)
    (hd : elems k < d) (hnd : 0 < b.numDof k) (vars : List Var) (hv : vars[i]? = some ⟨true, d, b.numDof⟩) :
    let l : Loc := ⟨k, e0, b.numDof k⟩
    let l' : Loc := ⟨k, e0, elems k * b.numDof k⟩
    l.Valid (varObj true d b).numDof ∧ l'.Valid (varObj true d b).numDof ∧ l ≠ l' ∧
    ∃ t t' e e', entry i true d b l = some t ∧ entry i true d b l' = some t' ∧ fullIndex vars t.addr = some e ∧
      fullIndex vars t'.addr = some e' ∧ e.elemDofId = e'.elemDofId := by
  intro l l'
  have hel : 1 < elems k := by
    have : k = 0 ∨ k = 1 ∨ k = 2 ∨ k = 3 ∨ k = 4 := by omega
    rcases this with rfl | rfl | rfl | rfl | rfl <;> decide
  have hlt : b.numDof k < elems k * b.numDof k := by
    have := Nat.mul_lt_mul_of_pos_right hel hnd
    omega
  have hlt' : elems k * b.numDof k < d * b.numDof k := Nat.mul_lt_mul_of_pos_right hd hnd
  have hval : l.Valid (varObj true d b).numDof :=
    ⟨by show k < 6; omega, he0, by show b.numDof k < d * b.numDof k; omega⟩
  have hval' : l'.Valid (varObj true d b).numDof := ⟨by show k < 6; omega, he0, hlt'⟩
  refine ⟨hval, hval', ?_, ?_⟩
  · intro h
    have : b.numDof k = elems k * b.numDof k := congrArg Loc.leid h
    omega
  · have h1 := (entry_eq i true d b hc (fun _ => by omega) l hval).2
    have h2 := (entry_eq i true d b hc (fun _ => by omega) l' hval').2
    have hpos : 0 < elems k * b.numDof k := by omega
    have a1 : l.leid / (elems l.num * b.numDof l.num) = 0 := Nat.div_eq_of_lt hlt
    have a2 : l.leid % (elems l.num * b.numDof l.num) = b.numDof k := Nat.mod_eq_of_lt hlt
    have a3 : l'.leid / (elems l'.num * b.numDof l'.num) = 1 := Nat.div_self hpos
    have a4 : l'.leid % (elems l'.num * b.numDof l'.num) = 0 := Nat.mod_self _
    rw [a1, a2] at h1
    rw [a3, a4] at h2
    obtain ⟨x, y, z, hf⟩ := fullIndex_vec vars i d b.numDof (by omega) hv k
    refine ⟨_, _, _, _, h1, h2, hf 0 (b.numDof k), hf 1 0, ?_⟩
    unfold Ext.elemDofId
    simp only
    omega

example : Counted (uniteObj exP2) ∧ (1 : Nat) < elems 0 ∧ elems 0 < 5 ∧ 0 < (uniteObj exP2).numDof 0 :=
  ⟨unite_counted exP2, by decide, by decide, by decide⟩

/-- C33 does not hold for vectors: the component in the table is not the component of the d.o.f. as soon as there are two
components and the kind has several elements. -/
theorem table_component_wrong (i d : Nat) (b : Obj) (hc : Counted b) (k e0 : Nat) (hk : k < 5) (he0 : e0 < elems k)
    (hd : 2 ≤ d) (hnd : 0 < b.numDof k) :
    let l : Loc := ⟨k, e0, b.numDof k⟩
    l.Valid (varObj true d b).numDof ∧ ∃ t, entry i true d b l = some t ∧ ¬ Right d (b.numDof k) l t := by
  intro l
  have hel : 1 < elems k := by
    have : k = 0 ∨ k = 1 ∨ k = 2 ∨ k = 3 ∨ k = 4 := by omega
    rcases this with rfl | rfl | rfl | rfl | rfl <;> decide
  have hlt : b.numDof k < elems k * b.numDof k := by
    have := Nat.mul_lt_mul_of_pos_right hel hnd
    omega
  have hlt2 : 1 * b.numDof k < d * b.numDof k := Nat.mul_lt_mul_of_pos_right (by omega) hnd
  have hval : l.Valid (varObj true d b).numDof :=
    ⟨by show k < 6; omega, he0, by show b.numDof k < d * b.numDof k; omega⟩
  refine ⟨hval, _, (entry_eq i true d b hc (fun _ => by omega) l hval).2, ?_⟩
  intro h
  have h4 : l.leid % (elems l.num * b.numDof l.num) < b.numDof k := h.2.2.2.1
  have : l.leid % (elems l.num * b.numDof l.num) = b.numDof k := Nat.mod_eq_of_lt hlt
  omega

example : (2 : Nat) < elems 0 ∧ 0 < (uniteObj exP2).numDof 0 := by decide

end Verif.OrderTable
