import Verif.Model.Enumerator
import Verif.Lemmas.DofMap
import Mathlib.Tactic.Ring

set_option linter.unusedVariables false

namespace Verif.Enumerator
open Verif.DofMap

/-! ### positions in a concatenation -/

theorem length_flatMap_pre {α β : Type} (l : List α) (f : α → List β) :
    (l.flatMap f).length = pre (l.map fun a => (f a).length) l.length := by
  rw [List.length_flatMap, pre, List.take_of_length_le (by simp)]

theorem flatMap_get {α β : Type} (l : List α) (f : α → List β) (i j : Nat) (hi : i < l.length) (hj : j < (f l[i]).length) :
    (l.flatMap f)[pre (l.map fun a => (f a).length) i + j]? = (f l[i])[j]? := by
  induction l generalizing i with
  | nil => simp at hi
  | cons a t ih =>
    cases i with
    | zero =>
      simp only [List.getElem_cons_zero] at hj
      simp [pre_zero, List.getElem?_append_left hj]
    | succ i =>
      simp only [List.getElem_cons_succ] at hj
      simp only [List.map_cons, pre_cons_succ, List.flatMap_cons, List.getElem_cons_succ]
      rw [List.getElem?_append_right (by omega),
        show (f a).length + pre (t.map fun a => (f a).length) i + j - (f a).length
          = pre (t.map fun a => (f a).length) i + j by omega]
      exact ih i (by simpa using hi) hj

theorem pre_const (n c : Nat) (i : Nat) (h : i ≤ n) : pre ((List.range n).map fun _ => c) i = i * c := by
  rw [List.map_const']
  simp [pre, List.take_replicate, Nat.min_eq_left h]

/-! ### addresses of a variable -/

theorem numDof_eq (v : Var) (k : Nat) : v.numDof k = v.comps * v.base k := by
  unfold Var.numDof Var.comps; split <;> simp

theorem length_addrsVar (v : Var) (i k : Nat) : (addrsVar v i k).length = v.numDof k := by
  rw [numDof_eq]
  simp only [addrsVar, List.length_flatMap, List.length_map, List.length_range]
  rw [List.map_const']
  simp

theorem mem_addrsVar (v : Var) (i k : Nat) (a : Addr) :
    a ∈ addrsVar v i k ↔ a.num = k ∧ a.var = i ∧ a.comp < v.comps ∧ a.dof < v.base k := by
  simp only [addrsVar, List.mem_flatMap, List.mem_range, List.mem_map]
  constructor
  · rintro ⟨c, hc, j, hj, rfl⟩; exact ⟨rfl, rfl, hc, hj⟩
  · rintro ⟨h1, h2, h3, h4⟩
    refine ⟨a.comp, h3, a.dof, h4, ?_⟩
    cases a; simp_all

theorem addrsVar_get (v : Var) (i k c j : Nat) (hc : c < v.comps) (hj : j < v.base k) :
    (addrsVar v i k)[c * v.base k + j]? = some ⟨k, i, c, j⟩ := by
  have h := flatMap_get (List.range v.comps) (fun c => (List.range (v.base k)).map fun j => (⟨k, i, c, j⟩ : Addr)) c j
    (by simpa using hc) (by simpa using hj)
  simp only [List.length_map, List.length_range] at h
  rw [pre_const _ _ _ (by omega)] at h
  unfold addrsVar
  rw [h]
  simp [hj]

theorem addrsVar_get' (v : Var) (i k g : Nat) (hg : g < v.numDof k) :
    (addrsVar v i k)[g]? = some ⟨k, i, g / v.base k, g % v.base k⟩ := by
  rw [numDof_eq] at hg
  have hb : 0 < v.base k := by
    rcases Nat.eq_zero_or_pos (v.base k) with h | h
    · rw [h] at hg; simp at hg
    · exact h
  have h := addrsVar_get v i k (g / v.base k) (g % v.base k) (Nat.div_lt_of_lt_mul (by rw [Nat.mul_comm]; exact hg))
    (Nat.mod_lt _ hb)
  rwa [Nat.div_add_mod'] at h

theorem splitComp_spec (v : Var) (i k g : Nat) (hg : g < v.numDof k) :
    ∃ c j s, splitComp v k g = some (c, j, s) ∧ (addrsVar v i k)[g]? = some ⟨k, i, c, j⟩ ∧ s + j = g ∧ s = c * v.base k := by
  rw [addrsVar_get' v i k g hg]
  have hb : 0 < v.base k := by
    rcases Nat.eq_zero_or_pos (v.base k) with h | h
    · rw [numDof_eq, h] at hg; simp at hg
    · exact h
  unfold splitComp
  split
  · rename_i hv
    have hd : v.dim ≠ 0 := by
      intro h
      simp [Var.numDof, hv, h] at hg
    have hn : v.numDof k / v.dim = v.base k := by
      simp only [Var.numDof, hv, if_true]
      exact Nat.mul_div_cancel_left _ (by omega)
    rw [hn, if_neg (by omega)]
    exact ⟨_, _, _, rfl, rfl, Nat.div_add_mod _ _, Nat.mul_comm _ _⟩
  · rename_i hv
    have hn : v.numDof k = v.base k := by simp [Var.numDof, hv]
    rw [hn] at hg
    refine ⟨0, g, 0, rfl, ?_, by omega, by simp⟩
    rw [Nat.div_eq_of_lt hg, Nat.mod_eq_of_lt hg]

/-! ### addresses of a kind -/

theorem addrsKind_sizes (vars : List Var) (k : Nat) :
    (vars.zipIdx.map fun vi => (addrsVar vi.1 vi.2 k).length) = vars.map (·.numDof k) := by
  simp only [length_addrsVar]
  rw [show (fun vi : Var × Nat => vi.1.numDof k) = (fun v => v.numDof k) ∘ Prod.fst from rfl, ← List.map_map,
    List.zipIdx_map_fst]

theorem length_addrsKind (vars : List Var) (k : Nat) : (addrsKind vars k).length = numDofs vars k := by
  unfold addrsKind numDofs
  rw [length_flatMap_pre, addrsKind_sizes, List.length_zipIdx]

theorem addrsKind_get (vars : List Var) (k i g : Nat) (hi : i < vars.length) (hg : g < vars[i].numDof k) :
    (addrsKind vars k)[pre (vars.map (·.numDof k)) i + g]? = (addrsVar vars[i] i k)[g]? := by
  have h := flatMap_get vars.zipIdx (fun vi => addrsVar vi.1 vi.2 k) i g (by simpa using hi)
    (by simpa [length_addrsVar] using hg)
  rw [addrsKind_sizes] at h
  unfold addrsKind
  rw [h]
  simp

theorem mem_addrsKind (vars : List Var) (k : Nat) (a : Addr) :
    a ∈ addrsKind vars k ↔ a.num = k ∧ ∃ v, vars[a.var]? = some v ∧ a.comp < v.comps ∧ a.dof < v.base k := by
  simp only [addrsKind, List.mem_flatMap, mem_addrsVar]
  constructor
  · rintro ⟨⟨v, i⟩, hm, h1, h2, h3, h4⟩
    rw [List.mem_zipIdx_iff_getElem?] at hm
    exact ⟨h1, v, by rw [h2]; exact hm, h3, h4⟩
  · rintro ⟨h1, v, hv, h3, h4⟩
    exact ⟨(v, a.var), by rw [List.mem_zipIdx_iff_getElem?]; exact hv, h1, rfl, h3, h4⟩

theorem componentID_spec (vars : List Var) (k g : Nat) (hg : g < numDofs vars k) :
    ∃ i, ∃ hi : i < vars.length, ∃ c, componentID vars k g = (i, c) ∧ g = pre (vars.map (·.numDof k)) i + c ∧
      c < vars[i].numDof k := by
  obtain ⟨i, hi, h1, h2⟩ := exists_block (vars.map (·.numDof k)) g (by
    have : numDofs vars k = (vars.map (·.numDof k)).sum := by
      unfold numDofs; rw [← pre_length, List.length_map]
    omega)
  have hu := ubIdx_eq _ i hi g h1 h2
  rw [pre_succ _ _ hi] at h2
  simp only [List.getElem_map] at h2
  have hi' : i < vars.length := by simpa using hi
  refine ⟨i, hi', g - pre (vars.map (·.numDof k)) i, ?_, by omega, by omega⟩
  unfold componentID
  rw [hu]

theorem componentID_end (vars : List Var) (k : Nat) : vars[(componentID vars k (numDofs vars k)).1]? = none := by
  have : ubIdx (vars.map (·.numDof k)) (numDofs vars k) = vars.length := by
    unfold ubIdx
    rw [List.findIdx_eq_length.2]
    · simp
    · intro j hj
      simp only [List.mem_range, List.length_map] at hj
      simp only [decide_eq_false_iff_not, Nat.not_lt]
      exact pre_mono _ (by omega)
  simp [componentID, this]

theorem addrsVar_pos (v : Var) (i k : Nat) (a : Addr) (ha : a ∈ addrsVar v i k) :
    (addrsVar v i k)[a.comp * v.base k + a.dof]? = some a ∧ a.comp * v.base k + a.dof < v.numDof k := by
  obtain ⟨h1, h2, h3, h4⟩ := (mem_addrsVar v i k a).1 ha
  have h : (addrsVar v i k)[a.comp * v.base k + a.dof]? = some a := by
    rw [addrsVar_get v i k a.comp a.dof h3 h4, ← h1, ← h2]
  refine ⟨h, ?_⟩
  rw [← length_addrsVar v i k]
  exact (List.getElem?_eq_some_iff.1 h).1

/-- component part of `fullIndex` -/
theorem fullIndex_of (vars : List Var) (a : Addr) (v : Var) (hv : vars[a.var]? = some v) (hc : a.comp < v.comps) :
    ∃ e, fullIndex vars a = some e ∧ e.addr = a ∧ e.vshift = pre (vars.map (·.numDof a.num)) a.var ∧
      e.dshift = a.comp * v.base a.num ∧ e.tshift = (if a.num = 2 ∨ a.num = 4 then numDofs vars (a.num - 1) else 0) ∧
      e.tvshift = (if a.num = 2 ∨ a.num = 4 then v.numDof (a.num - 1) else 0) := by
  unfold fullIndex
  rw [hv]
  simp only
  by_cases h0 : a.comp > 0
  · have hvec : v.vec = true := by
      cases h : v.vec
      · simp [Var.comps, h] at hc; omega
      · rfl
    have hd : 0 < v.dim := by
      simp [Var.comps, hvec] at hc; omega
    rw [if_pos h0, if_neg (by simp [hvec]; omega)]
    refine ⟨_, rfl, rfl, rfl, ?_, rfl, rfl⟩
    show v.numDof a.num / v.dim * a.comp = _
    simp only [Var.numDof, hvec, if_true]
    rw [Nat.mul_div_cancel_left _ hd, Nat.mul_comm]
  · rw [if_neg h0]
    refine ⟨_, rfl, rfl, rfl, ?_, rfl, rfl⟩
    show 0 = _
    have : a.comp = 0 := by omega
    rw [this]; simp

theorem addrs_eq (vars : List Var) (d : Nat) :
    addrs vars d = if d = 1 ∨ d = 2 then addrsKind vars (elemNum d) ++ addrsKind vars (elemNum d + 1)
      else addrsKind vars (if d = 0 then 0 else 5) := by
  match d with
  | 0 => simp [addrs, kindsOf]
  | 1 => simp [addrs, kindsOf, elemNum]
  | 2 => simp [addrs, kindsOf, elemNum]
  | n + 3 => simp [addrs, kindsOf]

theorem addrsSingle_eq (v : Var) (i d : Nat) :
    addrsSingle v i d = if d = 1 ∨ d = 2 then addrsVar v i (elemNum d) ++ addrsVar v i (elemNum d + 1)
      else addrsVar v i (if d = 0 then 0 else 5) := by
  match d with
  | 0 => simp [addrsSingle, kindsOf]
  | 1 => simp [addrsSingle, kindsOf, elemNum]
  | 2 => simp [addrsSingle, kindsOf, elemNum]
  | n + 3 => simp [addrsSingle, kindsOf]

theorem length_addrs (vars : List Var) (d : Nat) : (addrs vars d).length = inmostNumDof (numDofs vars) d := by
  rw [addrs_eq]
  match d with
  | 0 => simp [length_addrsKind, inmostNumDof]
  | 1 => simp [length_addrsKind, inmostNumDof, elemNum]
  | 2 => simp [length_addrsKind, inmostNumDof, elemNum]
  | n + 3 => simp [length_addrsKind, inmostNumDof]

theorem mem_addrs (vars : List Var) (d : Nat) (hd : d < 4) (a : Addr) :
    a ∈ addrs vars d ↔ dimOf a.num = d ∧ a.num < 6 ∧ a ∈ addrsKind vars a.num := by
  have key : ∀ k, a ∈ addrsKind vars k ↔ a.num = k ∧ a ∈ addrsKind vars a.num := by
    intro k
    constructor
    · intro h
      have := ((mem_addrsKind vars k a).1 h).1
      exact ⟨this, this ▸ h⟩
    · rintro ⟨h1, h2⟩; exact h1 ▸ h2
  simp only [addrs, List.mem_flatMap]
  constructor
  · rintro ⟨k, hk, h⟩
    have hn := ((key k).1 h).1
    have : dimOf k = d ∧ k < 6 := by
      match d, hd with
      | 0, _ => simp [kindsOf] at hk; subst hk; exact ⟨rfl, by omega⟩
      | 1, _ => simp [kindsOf] at hk; rcases hk with rfl | rfl <;> exact ⟨rfl, by omega⟩
      | 2, _ => simp [kindsOf] at hk; rcases hk with rfl | rfl <;> exact ⟨rfl, by omega⟩
      | 3, _ => simp [kindsOf] at hk; subst hk; exact ⟨rfl, by omega⟩
    exact ⟨by rw [hn]; exact this.1, by rw [hn]; exact this.2, ((key k).1 h).2⟩
  · rintro ⟨h1, h2, h3⟩
    refine ⟨a.num, ?_, h3⟩
    rw [← h1]
    generalize a.num = n at *
    match n, h2 with
    | 0, _ => simp [kindsOf, dimOf]
    | 1, _ => simp [kindsOf, dimOf]
    | 2, _ => simp [kindsOf, dimOf]
    | 3, _ => simp [kindsOf, dimOf]
    | 4, _ => simp [kindsOf, dimOf]
    | 5, _ => simp [kindsOf, dimOf]

end Verif.Enumerator
