import Verif.Lemmas.EnumRange
import Mathlib.Data.List.Nodup
import Mathlib.Tactic.Linarith

/-!
C23: addresses of d.o.f.s on an element.  C22: number ranges of the processes.  C21: global numbers
(`SimpleEnumerator`).
-/
set_option linter.unusedVariables false

namespace Verif.Enumerator
open Verif.DofMap

/-! ### C23 -/

/-- the addresses on an element are pairwise different -/
theorem addrs_nodup (vars : List Var) (d : Nat) (hd : d < 4) : (addrs vars d).Nodup := by
  have hv : ∀ (v : Var) i k, (addrsVar v i k).Nodup := by
    intro v i k
    unfold addrsVar
    rw [List.nodup_flatMap]
    refine ⟨fun c _ => ?_, ?_⟩
    · refine List.Nodup.map_on ?_ List.nodup_range
      intro x _ y _ h
      exact congrArg Addr.dof h
    · refine List.Pairwise.imp ?_ (List.nodup_range (n := v.comps))
      intro c c' hcc a h1 h2
      simp only [List.mem_map] at h1 h2
      obtain ⟨_, _, rfl⟩ := h1
      obtain ⟨_, _, h⟩ := h2
      exact hcc (congrArg Addr.comp h).symm
  have hk : ∀ k, (addrsKind vars k).Nodup := by
    intro k
    unfold addrsKind
    rw [List.nodup_flatMap]
    refine ⟨fun vi _ => hv _ _ _, ?_⟩
    rw [List.pairwise_iff_getElem]
    intro i j hi hj hij a h1 h2
    simp only [List.getElem_zipIdx] at h1 h2
    have e1 := ((mem_addrsVar _ _ _ _).1 h1).2.1
    have e2 := ((mem_addrsVar _ _ _ _).1 h2).2.1
    omega
  rw [addrs_eq]
  split
  · refine List.nodup_append'.2 ⟨hk _, hk _, ?_⟩
    intro a h1 h2
    have e1 := ((mem_addrsKind _ _ _).1 h1).1
    have e2 := ((mem_addrsKind _ _ _).1 h2).1
    omega
  · exact hk _

example : addrs [⟨true, 2, fun k => if k = 1 then 2 else 0⟩, ⟨false, 0, fun _ => 1⟩] 1 =
    [⟨1, 0, 0, 0⟩, ⟨1, 0, 0, 1⟩, ⟨1, 0, 1, 0⟩, ⟨1, 0, 1, 1⟩, ⟨1, 1, 0, 0⟩, ⟨2, 1, 0, 0⟩] := by decide +kernel

/-- recomposing an address gives its place on the element -/
theorem recompose (vars : List Var) (d : Nat) (hd : d < 4) (a : Addr) (ha : a ∈ addrs vars d) :
    ∃ e, fullIndex vars a = some e ∧ e.addr = a ∧ (addrs vars d)[e.elemDofId]? = some a := by
  obtain ⟨hdim, hn, hk⟩ := (mem_addrs vars d hd a).1 ha
  obtain ⟨_, v, hv, hc, hj⟩ := (mem_addrsKind vars a.num a).1 hk
  obtain ⟨e, he, h1, h2, h3, h4, h5⟩ := fullIndex_of vars a v hv hc
  refine ⟨e, he, h1, ?_⟩
  obtain ⟨hi, hvi⟩ := List.getElem?_eq_some_iff.1 hv
  have hav : a ∈ addrsVar v a.var a.num := (mem_addrsVar _ _ _ _).2 ⟨rfl, rfl, hc, hj⟩
  obtain ⟨hp, hlt⟩ := addrsVar_pos v a.var a.num a hav
  have hg := addrsKind_get vars a.num a.var (a.comp * v.base a.num + a.dof) hi (by rw [hvi]; exact hlt)
  rw [hvi, hp] at hg
  have hlt' : pre (vars.map (·.numDof a.num)) a.var + (a.comp * v.base a.num + a.dof) < (addrsKind vars a.num).length :=
    (List.getElem?_eq_some_iff.1 hg).1
  have hed : e.elemDofId = e.tshift + (pre (vars.map (·.numDof a.num)) a.var + (a.comp * v.base a.num + a.dof)) := by
    unfold Ext.elemDofId
    rw [h1, h2, h3]; omega
  rw [hed, h4, addrs_eq]
  have hcase : a.num = 0 ∨ a.num = 1 ∨ a.num = 2 ∨ a.num = 3 ∨ a.num = 4 ∨ a.num = 5 := by omega
  rcases hcase with h | h | h | h | h | h <;> rw [h] at hg hlt' hdim ⊢ <;> subst hdim
  · simpa [dimOf] using hg
  · simp only [dimOf, show elemNum 1 = 1 from rfl]
    rw [if_pos (by decide), if_neg (by decide), Nat.zero_add]
    rw [List.getElem?_append_left (by simpa using hlt')]
    simpa using hg
  · simp only [dimOf, show elemNum 1 = 1 from rfl]
    rw [if_pos (by decide), if_pos (by decide)]
    rw [List.getElem?_append_right (by rw [length_addrsKind]; simp), length_addrsKind]
    simpa using hg
  · simp only [dimOf, show elemNum 2 = 3 from rfl]
    rw [if_pos (by decide), if_neg (by decide), Nat.zero_add]
    rw [List.getElem?_append_left (by simpa using hlt')]
    simpa using hg
  · simp only [dimOf, show elemNum 2 = 3 from rfl]
    rw [if_pos (by decide), if_pos (by decide)]
    rw [List.getElem?_append_right (by rw [length_addrsKind]; simp), length_addrsKind]
    simpa using hg
  · simpa [dimOf] using hg

/-- the same for an element storing one variable only -/
theorem recompose_single (vars : List Var) (d : Nat) (hd : d < 4) (a : Addr) (ha : a ∈ addrs vars d) :
    ∃ e v, fullIndex vars a = some e ∧ vars[a.var]? = some v ∧ (addrsSingle v a.var d)[e.singleDofId]? = some a := by
  obtain ⟨hdim, hn, hk⟩ := (mem_addrs vars d hd a).1 ha
  obtain ⟨_, v, hv, hc, hj⟩ := (mem_addrsKind vars a.num a).1 hk
  obtain ⟨e, he, h1, h2, h3, h4, h5⟩ := fullIndex_of vars a v hv hc
  refine ⟨e, v, he, hv, ?_⟩
  have hav : a ∈ addrsVar v a.var a.num := (mem_addrsVar _ _ _ _).2 ⟨rfl, rfl, hc, hj⟩
  obtain ⟨hp, hlt⟩ := addrsVar_pos v a.var a.num a hav
  have hed : e.singleDofId = e.tvshift + (a.comp * v.base a.num + a.dof) := by
    unfold Ext.singleDofId
    rw [h1, h3]; omega
  rw [← length_addrsVar v a.var] at hlt
  rw [hed, h5, addrsSingle_eq]
  have hcase : a.num = 0 ∨ a.num = 1 ∨ a.num = 2 ∨ a.num = 3 ∨ a.num = 4 ∨ a.num = 5 := by omega
  rcases hcase with h | h | h | h | h | h <;> rw [h] at hp hlt hdim ⊢ <;> subst hdim
  · simpa [dimOf] using hp
  · simp only [dimOf, show elemNum 1 = 1 from rfl]
    rw [if_pos (by decide), if_neg (by decide), Nat.zero_add]
    rw [List.getElem?_append_left (by simpa using hlt)]
    simpa using hp
  · simp only [dimOf, show elemNum 1 = 1 from rfl]
    rw [if_pos (by decide), if_pos (by decide)]
    rw [List.getElem?_append_right (by rw [length_addrsVar]; simp), length_addrsVar]
    simpa using hp
  · simp only [dimOf, show elemNum 2 = 3 from rfl]
    rw [if_pos (by decide), if_neg (by decide), Nat.zero_add]
    rw [List.getElem?_append_left (by simpa using hlt)]
    simpa using hp
  · simp only [dimOf, show elemNum 2 = 3 from rfl]
    rw [if_pos (by decide), if_pos (by decide)]
    rw [List.getElem?_append_right (by rw [length_addrsVar]; simp), length_addrsVar]
    simpa using hp
  · simpa [dimOf] using hp

/-- one kind: the address found by the search is the one at the place -/
private theorem split_kind (vars : List Var) (n g : Nat) (hg : g < numDofs vars n) :
    ∃ i v c j s, (componentID vars n g).1 = i ∧ vars[i]? = some v ∧ splitComp v n (componentID vars n g).2 = some (c, j, s) ∧
      (addrsKind vars n)[g]? = some ⟨n, i, c, j⟩ ∧ pre (vars.map (·.numDof n)) i + s + j = g := by
  obtain ⟨i, hi, cg, hcid, hgeq, hlt⟩ := componentID_spec vars n g hg
  obtain ⟨c, j, s, hs, hget, hsum, _⟩ := splitComp_spec vars[i] i n cg hlt
  refine ⟨i, vars[i], c, j, s, by rw [hcid], by simp [hi], by rw [hcid]; exact hs, ?_, by omega⟩
  rw [← hget, ← addrsKind_get vars n i cg hi hlt, hgeq]

/-- Splitting a place into an address, for every place except the first oriented d.o.f. of an edge or a face: the address
is the one stored at the place, and recomposing it returns the place.  The full claim has no exception; it fails at
`k = numDofs vars (elemNum d)` (`split_wrong`). -/
theorem split_partial (vars : List Var) (d k : Nat) (hd : d < 4) (hk : k < (addrs vars d).length)
    (hb : d = 1 ∨ d = 2 → k ≠ numDofs vars (elemNum d)) :
    ∃ e, split vars d k = some e ∧ (addrs vars d)[k]? = some e.addr ∧ e.elemDofId = k := by
  rw [length_addrs] at hk
  by_cases hlow : (d = 1 ∨ d = 2) ∧ numDofs vars (elemNum d) < k
  · have hg : k - numDofs vars (elemNum d) < numDofs vars (elemNum d + 1) := by
      obtain ⟨h | h, h2⟩ := hlow <;> subst h <;> simp [inmostNumDof, elemNum] at hk h2 ⊢ <;> omega
    obtain ⟨i, v, c, j, s, h1, h2, h3, h4, h5⟩ := split_kind vars _ _ hg
    unfold split
    simp only [if_pos hlow, h1, h2, h3, Option.map_some]
    refine ⟨_, rfl, ?_, ?_⟩
    · rw [addrs_eq, if_pos hlow.1, List.getElem?_append_right (by rw [length_addrsKind]; omega), length_addrsKind, h4]
    · unfold Ext.elemDofId
      simp only
      omega
  · have hg : k < numDofs vars (elemNum d) := by
      by_cases h12 : d = 1 ∨ d = 2
      · have := hb h12
        simp only [h12, true_and] at hlow
        omega
      · match d, hd with
        | 0, _ => simpa [inmostNumDof, elemNum] using hk
        | 1, _ => simp at h12
        | 2, _ => simp at h12
        | 3, _ => simpa [inmostNumDof, elemNum] using hk
    obtain ⟨i, v, c, j, s, h1, h2, h3, h4, h5⟩ := split_kind vars _ _ hg
    unfold split
    simp only [if_neg hlow, Nat.sub_zero, h1, h2, h3, Option.map_some]
    refine ⟨_, rfl, ?_, ?_⟩
    · rw [addrs_eq]
      by_cases h12 : d = 1 ∨ d = 2
      · rw [if_pos h12, List.getElem?_append_left (by rw [length_addrsKind]; omega), h4]
      · rw [if_neg h12]
        match d, hd with
        | 0, _ => simpa [elemNum] using h4
        | 1, _ => simp at h12
        | 2, _ => simp at h12
        | 3, _ => simpa [elemNum] using h4
    · unfold Ext.elemDofId
      simp only
      omega

example : split [⟨true, 2, fun k => if k = 1 then 2 else 0⟩, ⟨false, 0, fun k => if k = 2 then 3 else 1⟩] 1 6 =
    some ⟨⟨2, 1, 0, 1⟩, 5, 1, 0, 0⟩ := by decide +kernel

/-- recomposing what `split` returned returns the same extended index -/
theorem split_fullIndex (vars : List Var) (d k : Nat) (hd : d < 4) (hk : k < (addrs vars d).length) (e : Ext)
    (he : split vars d k = some e) (hb : d = 1 ∨ d = 2 → k ≠ numDofs vars (elemNum d)) :
    ∃ e', fullIndex vars e.addr = some e' ∧ e'.elemDofId = k := by
  obtain ⟨e1, h1, h2, h3⟩ := split_partial vars d k hd hk hb
  rw [h1] at he
  obtain rfl := Option.some.inj he
  obtain ⟨e', h4, h5, h6⟩ := recompose vars d hd e1.addr (List.mem_of_getElem? h2)
  refine ⟨e', h4, ?_⟩
  obtain ⟨hl1, g1⟩ := List.getElem?_eq_some_iff.1 h2
  obtain ⟨hl2, g2⟩ := List.getElem?_eq_some_iff.1 h6
  exact ((addrs_nodup vars d hd).getElem_inj_iff).1 (g2.trans g1.symm)

/-- The code compares with `<` where `<=` is needed: splitting the place of the first oriented d.o.f. of an edge or a face
reads the array of the variables out of range, whatever the variables are. -/
theorem split_wrong (vars : List Var) (d : Nat) (hd : d = 1 ∨ d = 2) : split vars d (numDofs vars (elemNum d)) = none := by
  unfold split
  simp only [if_neg (show ¬((d = 1 ∨ d = 2) ∧ numDofs vars (elemNum d) < numDofs vars (elemNum d)) by omega), Nat.sub_zero,
    componentID_end]

/-- a variable with one oriented d.o.f. per edge has its only d.o.f. at this place -/
example : addrs [⟨false, 0, fun k => if k = 2 then 1 else 0⟩] 1 = [⟨2, 0, 0, 0⟩] ∧
    split [⟨false, 0, fun k => if k = 2 then 1 else 0⟩] 1 0 = none := by decide +kernel

/-- The same function for one variable: correct for every place except the first oriented d.o.f. -/
theorem splitVar_partial (vars : List Var) (d i k : Nat) (v : Var) (hd : d < 4) (hv : vars[i]? = some v)
    (hk : k < (addrsSingle v i d).length) (hb : d = 1 ∨ d = 2 → k ≠ v.numDof (elemNum d)) :
    ∃ e, splitVar vars d i k = some e ∧ (addrsSingle v i d)[k]? = some e.addr ∧ e.singleDofId = k := by
  have hlen : (addrsSingle v i d).length = if d = 1 ∨ d = 2 then v.numDof (elemNum d) + v.numDof (elemNum d + 1) else
      v.numDof (elemNum d) := by
    rw [addrsSingle_eq]
    match d, hd with
    | 0, _ => simp [length_addrsVar, elemNum]
    | 1, _ => simp [length_addrsVar, elemNum]
    | 2, _ => simp [length_addrsVar, elemNum]
    | 3, _ => simp [length_addrsVar, elemNum]
  rw [hlen] at hk
  unfold splitVar
  rw [hv]
  by_cases hlow : (d = 1 ∨ d = 2) ∧ v.numDof (elemNum d) < k
  · rw [if_pos hlow.1] at hk
    obtain ⟨c, j, s, h1, h2, h3, h4⟩ := splitComp_spec v i (elemNum d + 1) (k - v.numDof (elemNum d)) (by omega)
    simp only [if_pos hlow, h1, Option.map_some]
    refine ⟨_, rfl, ?_, ?_⟩
    · rw [addrsSingle_eq, if_pos hlow.1, List.getElem?_append_right (by rw [length_addrsVar]; omega), length_addrsVar, h2]
    · unfold Ext.singleDofId
      simp only
      omega
  · have hg : k < v.numDof (elemNum d) := by
      by_cases h12 : d = 1 ∨ d = 2
      · have := hb h12
        simp only [h12, true_and] at hlow
        omega
      · simpa [h12] using hk
    obtain ⟨c, j, s, h1, h2, h3, h4⟩ := splitComp_spec v i (elemNum d) k hg
    simp only [if_neg hlow, h1, Option.map_some]
    refine ⟨_, rfl, ?_, ?_⟩
    · rw [addrsSingle_eq]
      by_cases h12 : d = 1 ∨ d = 2
      · rw [if_pos h12, List.getElem?_append_left (by rw [length_addrsVar]; omega), h2]
      · rw [if_neg h12]
        match d, hd with
        | 0, _ => simpa [elemNum] using h2
        | 1, _ => simp at h12
        | 2, _ => simp at h12
        | 3, _ => simpa [elemNum] using h2
    · unfold Ext.singleDofId
      simp only
      omega

example : (splitVar [⟨false, 0, fun _ => 1⟩, ⟨true, 3, fun _ => 2⟩] 2 1 9).map Ext.addr = some ⟨4, 1, 1, 1⟩ := by
  decide +kernel

/-- At the first oriented d.o.f. the function for one variable never returns an address of the element. -/
theorem splitVar_wrong (vars : List Var) (d i : Nat) (v : Var) (hd : d = 1 ∨ d = 2) (hv : vars[i]? = some v) (e : Ext)
    (he : splitVar vars d i (v.numDof (elemNum d)) = some e) : e.addr ∉ addrsSingle v i d := by
  unfold splitVar at he
  rw [hv] at he
  simp only [if_neg (show ¬((d = 1 ∨ d = 2) ∧ v.numDof (elemNum d) < v.numDof (elemNum d)) by omega)] at he
  cases hs : splitComp v (elemNum d) (v.numDof (elemNum d)) with
  | none => rw [hs] at he; simp at he
  | some s =>
    rw [hs] at he
    simp only [Option.map_some, Option.some.injEq] at he
    subst he
    simp only
    intro hmem
    rw [addrsSingle_eq, if_pos hd, List.mem_append] at hmem
    have hmem' : s.1 < v.comps ∧ s.2.1 < v.base (elemNum d) := by
      rcases hmem with h | h
      · exact ((mem_addrsVar _ _ _ _).1 h).2.2
      · have := ((mem_addrsVar _ _ _ _).1 h).1
        simp only at this
        omega
    unfold splitComp at hs
    split at hs
    · rename_i hvec
      simp only at hs
      split at hs
      · simp at hs
      · rename_i hne
        obtain rfl := (Option.some.inj hs).symm
        simp only at hmem'
        have hd0 : 0 < v.dim := by omega
        have hn : v.numDof (elemNum d) / v.dim = v.base (elemNum d) := by
          simp only [Var.numDof, hvec, if_true]
          exact Nat.mul_div_cancel_left _ hd0
        rw [hn] at hmem' hne
        have : v.numDof (elemNum d) / v.base (elemNum d) = v.dim := by
          simp only [Var.numDof, hvec, if_true]
          exact Nat.mul_div_cancel _ (by omega)
        rw [this] at hmem'
        simp [Var.comps, hvec] at hmem'
    · rename_i hvec
      obtain rfl := (Option.some.inj hs).symm
      simp [Var.numDof, hvec] at hmem'

example : (splitVar [⟨true, 3, fun _ => 2⟩] 2 0 6).map Ext.addr = some ⟨3, 0, 3, 0⟩ := by decide +kernel

/-! ### C22 -/

/-- every process computes the total number of d.o.f.s of the mesh -/
theorem matrSize_eq (nd : Nat → Nat) (own : Nat → List Nat) (total : Nat → Nat) :
    (setup nd own total).matrSize = totalSize nd total := setup_matrSize nd own total

/-- The ranges of the processes are disjoint and cover all the numbers, provided a process which owns elements of one used
dimension owns elements of every used dimension (or all the elements of the missing dimension belong to earlier
processes).  The claim without this condition fails (`ranges_wrong`). -/
theorem ranges_partition_partial (P : Nat) (nd : Nat → Nat) (own : Nat → Nat → List Nat) (total : Nat → Nat)
    (h : Distributed P own total) (hsz : ∀ d, total d < longMax)
    (hok : ∀ p, p < P → ∀ d e, d < 4 → e < 4 → usedDim nd d = true → usedDim nd e = true → own p d ≠ [] → own p e = [] →
      sumN p (fun q => (own q e).length) = total e) :
    Partition P (fun p => (setup nd (own p) total).begInd) (fun p => (setup nd (own p) total).endInd) (totalSize nd total) := by
  let st := fun p d => sumN p fun q => (own q d).length
  let S := fun p => wsum nd (st p)
  have hst : ∀ p d, p < P → st p d < longMax := by
    intro p d hp
    have h1 : st p d ≤ st P d := sumN_mono _ (by omega)
    have h2 := hsz d
    rw [h.total d] at h2
    exact Nat.lt_of_le_of_lt h1 h2
  have hnum : ∀ p, wsum nd (setup nd (own p) total).numElem = wsum nd (fun d => (own p d).length) := fun p =>
    wsum_congr _ _ _ fun d _ hu => setup_numElem nd (own p) total d hu
  have hS : ∀ p, S (p + 1) = S p + wsum nd (fun d => (own p d).length) := by
    intro p
    show wsum nd (st (p + 1)) = _
    rw [show st (p + 1) = fun d => st p d + (own p d).length from funext fun d => sumN_succ p _, wsum_add]
  have hSmono : ∀ p q, p ≤ q → S p ≤ S q := fun p q hpq => wsum_mono _ _ _ fun d => sumN_mono _ hpq
  have hSP : S P = totalSize nd total := by
    rw [totalSize_eq]
    exact wsum_congr _ _ _ fun d _ _ => (h.total d).symm
  have hend : ∀ p, (setup nd (own p) total).endInd = (setup nd (own p) total).begInd + wsum nd (fun d => (own p d).length) := by
    intro p
    rw [setup_endInd, hnum]
  -- a process with a non-empty range starts at the right place
  have hbeg : ∀ p, p < P → 0 < wsum nd (fun d => (own p d).length) → (setup nd (own p) total).begInd = S p := by
    intro p hp hpos
    have hex : ∃ d, d < 4 ∧ usedDim nd d = true ∧ own p d ≠ [] := by
      refine Classical.byContradiction fun hno => ?_
      have hz : wsum nd (fun d => (own p d).length) = wsum nd (fun _ => 0) := by
        refine wsum_congr _ _ _ fun d hd hu => ?_
        refine Classical.byContradiction fun hne => hno ⟨d, hd, hu, ?_⟩
        intro he
        exact hne (by rw [he]; rfl)
      rw [hz] at hpos
      simp [wsum] at hpos
    obtain ⟨d, hd, hu, hne⟩ := hex
    rw [setup_begInd]
    refine wsum_congr _ _ _ fun e he hue => ?_
    rw [setup_begElem (h.perm p) e (hst p e hp) hue]
    split
    · rename_i hemp
      exact (hok p hp d e hd he hu hue hne hemp).symm
    · rfl
  have hempty : ∀ p, p < P → wsum nd (fun d => (own p d).length) = 0 → (setup nd (own p) total).begInd = totalSize nd total := by
    intro p hp hz
    rw [setup_begInd, totalSize_eq]
    refine wsum_congr _ _ _ fun e he hue => ?_
    rw [setup_begElem (h.perm p) e (hst p e hp) hue, if_pos]
    have hw := (usedDim_of nd e he).1 hue
    have : (own p e).length * inmostNumDof nd e = 0 := by
      simp only [wsum] at hz
      match e, he with
      | 0, _ => omega
      | 1, _ => omega
      | 2, _ => omega
      | 3, _ => omega
    rcases Nat.mul_eq_zero.1 this with h0 | h0
    · exact List.length_eq_zero_iff.1 h0
    · omega
  refine ⟨?_, ?_, ?_⟩
  · intro p hp
    rw [hend]
    refine ⟨by omega, ?_⟩
    rcases Nat.eq_zero_or_pos (wsum nd (fun d => (own p d).length)) with h0 | h0
    · rw [hempty p hp h0, h0]; simp
    · rw [hbeg p hp h0, ← hS, ← hSP]
      exact hSmono _ _ hp
  · intro g hg
    rw [← hSP] at hg
    have : ∃ p, p < P ∧ S p ≤ g ∧ g < S (p + 1) := by
      clear hend hbeg hempty hSP h hst hok
      induction P with
      | zero =>
        have : S 0 = 0 := by simp [S, st, sumN, wsum]
        omega
      | succ P ih =>
        by_cases hgP : g < S P
        · obtain ⟨p, hp, h1, h2⟩ := ih hgP
          exact ⟨p, by omega, h1, h2⟩
        · exact ⟨P, by omega, by omega, hg⟩
    obtain ⟨p, hp, h1, h2⟩ := this
    refine ⟨p, hp, ?_⟩
    rw [hend, hbeg p hp (by rw [hS] at h2; omega), ← hS]
    exact ⟨h1, h2⟩
  · intro g p q hp hq h1 h2 h3 h4
    replace h2 := Nat.lt_of_lt_of_eq h2 (hend p)
    replace h4 := Nat.lt_of_lt_of_eq h4 (hend q)
    have b1 := hbeg p hp (by have h1' : (setup nd (own p) total).begInd ≤ g := h1; omega)
    have b2 := hbeg q hq (by have h3' : (setup nd (own q) total).begInd ≤ g := h3; omega)
    rw [b1, ← hS] at h2
    rw [b2, ← hS] at h4
    replace h1 := (Nat.le_of_eq b1.symm).trans h1
    replace h3 := (Nat.le_of_eq b2.symm).trans h3
    refine Classical.byContradiction fun hne => ?_
    rcases Nat.lt_or_gt_of_ne hne with hlt | hlt
    · have := hSmono (p + 1) q hlt
      omega
    · have := hSmono (q + 1) p hlt
      omega

/-- two processes, three nodes and two cells: the hypotheses hold and the ranges are [0, 3) and [3, 5) -/
example : (setup (fun k => if k = 0 ∨ k = 5 then 1 else 0) (fun d => if d = 0 then [1, 0] else if d = 3 then [0] else [])
      (fun d => if d = 0 then 3 else if d = 3 then 2 else 0)).endInd = 3 ∧
    (setup (fun k => if k = 0 ∨ k = 5 then 1 else 0) (fun d => if d = 0 then [2] else if d = 3 then [1] else [])
      (fun d => if d = 0 then 3 else if d = 3 then 2 else 0)).begInd = 3 := by decide +kernel

/-- Three processes own 4, 0, 1 nodes and 1, 1, 1 cells; one d.o.f. per node and cell.  Process 1 starts at 6 and not at 5,
number 5 belongs to nobody and number 6 to processes 1 and 2. -/
theorem ranges_wrong : ∃ (P : Nat) (nd : Nat → Nat) (own : Nat → Nat → List Nat) (total : Nat → Nat),
    Distributed P own total ∧ (∀ d, total d < longMax) ∧
    ¬ Partition P (fun p => (setup nd (own p) total).begInd) (fun p => (setup nd (own p) total).endInd) (totalSize nd total) := by
  refine ⟨3, fun k => if k = 0 ∨ k = 5 then 1 else 0,
    fun p d => if d = 0 then (if p = 0 then [0, 1, 2, 3] else if p = 2 then [4] else []) else
      if d = 3 then (if p < 3 then [p] else []) else [],
    fun d => if d = 0 then 5 else if d = 3 then 3 else 0, ⟨?_, ?_⟩, ?_, ?_⟩
  · intro p d
    by_cases h0 : d = 0
    · subst h0
      match p with
      | 0 => decide
      | 1 => decide
      | 2 => decide
      | p + 3 => simp
    · by_cases h3 : d = 3
      · subst h3
        match p with
        | 0 => decide
        | 1 => decide
        | 2 => decide
        | p + 3 => simp
      · simp [h0, h3]
  · intro d
    by_cases h0 : d = 0
    · subst h0; rfl
    · by_cases h3 : d = 3
      · subst h3; rfl
      · simp [h0, h3, sumN]
  · intro d
    simp only [longMax]
    split
    · decide
    · split <;> decide
  · intro h
    obtain ⟨p, hp, h1, h2⟩ := h.cover 5 (by decide +kernel)
    match p, hp with
    | 0, _ => revert h2; decide +kernel
    | 1, _ => revert h1; decide +kernel
    | 2, _ => revert h1; decide +kernel

/-! ### C21 -/

section
variable (vars : List Var) (own : Nat → List Nat) (b total : Nat → Nat)

private theorem used_of_addr {d : Nat} (hd : d < 4) {a : Addr} (ha : a ∈ addrs vars d) : usedDim (numDofs vars) d = true := by
  rw [usedDim_of _ _ hd, ← length_addrs]
  exact List.length_pos_of_mem ha

private theorem dimOf_lt (k : Nat) : dimOf k < 4 := by
  match k with
  | 0 => decide
  | 1 => decide
  | 2 => decide
  | 3 => decide
  | 4 => decide
  | n + 5 => simp [dimOf]

/-- the data of an owned d.o.f.: dimension, offset of the element, place on the element -/
private theorem owned_data (h : Contiguous own b) (hb : ∀ d, b d < longMax) {x : Nat × Addr} (hx : OwnedDof vars own x) :
    ∃ d r e, d < 4 ∧ dimOf x.2.num = d ∧ x.1 = (setup (numDofs vars) own total).begElem d + r ∧
      r < (setup (numDofs vars) own total).numElem d ∧ fullIndex vars x.2 = some e ∧
      (addrs vars d)[e.elemDofId]? = some x.2 ∧ e.elemDofId < inmostNumDof (numDofs vars) d := by
  obtain ⟨h1, h2⟩ := hx
  have hd := dimOf_lt x.2.num
  have hu := used_of_addr vars hd h2
  obtain ⟨e, he, _, hget⟩ := recompose vars _ hd x.2 h2
  have hm := (contiguous_mem h _ _).1 h1
  have hbe := setup_begElem (total := total) h _ (hb _) hu
  rw [if_neg (List.ne_nil_of_mem h1)] at hbe
  refine ⟨dimOf x.2.num, x.1 - b (dimOf x.2.num), e, hd, rfl, ?_, ?_, he, hget, ?_⟩
  · rw [hbe]; omega
  · rw [setup_numElem _ _ _ _ hu]; omega
  · rw [← length_addrs]; exact (List.getElem?_eq_some_iff.1 hget).1

private theorem owned_of (h : Contiguous own b) (hb : ∀ d, b d < longMax) (d r k : Nat) (hd : d < 4)
    (hr : r < (setup (numDofs vars) own total).numElem d) (hk : k < inmostNumDof (numDofs vars) d) :
    ∃ x : Nat × Addr, OwnedDof vars own x ∧ dimOf x.2.num = d ∧ x.1 = (setup (numDofs vars) own total).begElem d + r ∧
      (addrs vars d)[k]? = some x.2 := by
  rw [← length_addrs] at hk
  obtain ⟨a, ha⟩ : ∃ a, (addrs vars d)[k]? = some a := ⟨_, List.getElem?_eq_getElem hk⟩
  have hm := List.mem_of_getElem? ha
  have hu := used_of_addr vars hd hm
  obtain ⟨hdim, _, _⟩ := (mem_addrs vars d hd a).1 hm
  rw [setup_numElem _ _ _ _ hu] at hr
  have hne : own d ≠ [] := by intro he; rw [he] at hr; simp at hr
  have hbe := setup_begElem (total := total) h d (hb _) hu
  rw [if_neg hne] at hbe
  refine ⟨(b d + r, a), ⟨?_, ?_⟩, hdim, by rw [hbe], ha⟩
  · rw [hdim]; exact (contiguous_mem h _ _).2 ⟨by omega, by omega⟩
  · rw [hdim]; exact hm

private theorem index_data (t : Kind) {x : Nat × Addr} {d r : Nat} {e : Ext} (hdim : dimOf x.2.num = d)
    (hr : x.1 = (setup (numDofs vars) own total).begElem d + r) (he : fullIndex vars x.2 = some e) :
    (setup (numDofs vars) own total).index vars t true x.1 x.2 =
      some ((setup (numDofs vars) own total).number t d ((setup (numDofs vars) own total).begElem d + r) e.elemDofId) := by
  simp [Setup.index, he, hdim, ← hr]

private theorem addr_eq {d : Nat} {x y : Addr} {k : Nat} (hx : (addrs vars d)[k]? = some x) (hy : (addrs vars d)[k]? = some y) :
    x = y := by
  rw [hx] at hy; exact Option.some.inj hy

/-- numbering by blocks: it is enough to show that the offset inside a dimension is a numbering -/
private theorem numbering_of (t : Kind) (h : Contiguous own b) (hb : ∀ d, b d < longMax)
    (off : Nat → Nat → Nat → Nat)
    (hnum : ∀ d r k, (setup (numDofs vars) own total).number t d ((setup (numDofs vars) own total).begElem d + r) k =
      (setup (numDofs vars) own total).init d + off d r k)
    (hlt : ∀ d r k, d < 4 → r < (setup (numDofs vars) own total).numElem d → k < inmostNumDof (numDofs vars) d →
      off d r k < inmostNumDof (numDofs vars) d * (setup (numDofs vars) own total).numElem d)
    (hinj : ∀ d r k r' k', d < 4 → r < (setup (numDofs vars) own total).numElem d → k < inmostNumDof (numDofs vars) d →
      r' < (setup (numDofs vars) own total).numElem d → k' < inmostNumDof (numDofs vars) d → off d r k = off d r' k' →
      r = r' ∧ k = k')
    (hsurj : ∀ d o, d < 4 → o < inmostNumDof (numDofs vars) d * (setup (numDofs vars) own total).numElem d →
      ∃ r k, r < (setup (numDofs vars) own total).numElem d ∧ k < inmostNumDof (numDofs vars) d ∧ off d r k = o) :
    Numbering (OwnedDof vars own) (fun x => (setup (numDofs vars) own total).index vars t true x.1 x.2)
      (setup (numDofs vars) own total).begInd (setup (numDofs vars) own total).endInd := by
  refine ⟨?_, ?_, ?_⟩
  · intro x hx
    obtain ⟨d, r, e, hd, hdim, hxr, hr, he, hget, hk⟩ := owned_data vars own b total h hb hx
    refine ⟨_, index_data vars own total t hdim hxr he, ?_⟩
    rw [hnum, ← init_end]
    exact init_mono _ d _ hd (hlt d r _ hd hr hk)
  · intro x y n hx hy hfx hfy
    obtain ⟨d, r, e, hd, hdim, hxr, hr, he, hget, hk⟩ := owned_data vars own b total h hb hx
    obtain ⟨d', r', e', hd', hdim', hxr', hr', he', hget', hk'⟩ := owned_data vars own b total h hb hy
    rw [index_data vars own total t hdim hxr he] at hfx
    rw [index_data vars own total t hdim' hxr' he'] at hfy
    have heq := (Option.some.inj hfx).trans (Option.some.inj hfy).symm
    rw [hnum, hnum] at heq
    have hdd : d = d' := by
      rw [← findDim_spec (setup (numDofs vars) own total) d _ hd (hlt d r _ hd hr hk), heq,
        findDim_spec (setup (numDofs vars) own total) d' _ hd' (hlt d' r' _ hd' hr' hk')]
    subst hdd
    obtain ⟨h1, h2⟩ := hinj d r _ r' _ hd hr hk hr' hk' (by omega)
    refine Prod.ext ?_ ?_
    · rw [hxr, hxr', h1]
    · rw [h2] at hget; exact addr_eq vars hget hget'
  · intro n h1 h2
    rw [← init_end] at h2
    obtain ⟨d, o, hd, rfl, ho⟩ := exists_dim _ n h1 h2
    obtain ⟨r, k, hr, hk, rfl⟩ := hsurj d o hd ho
    obtain ⟨x, hx, hdim, hxr, hget⟩ := owned_of vars own b total h hb d r k hd hr hk
    obtain ⟨d', r', e', hd', hdim', hxr', hr', he', hget', hk'⟩ := owned_data vars own b total h hb hx
    have hdd : d' = d := by rw [← hdim', hdim]
    subst hdd
    have hek : e'.elemDofId = k := by
      obtain ⟨hl1, g1⟩ := List.getElem?_eq_some_iff.1 hget
      obtain ⟨hl2, g2⟩ := List.getElem?_eq_some_iff.1 hget'
      exact ((addrs_nodup vars d' hd).getElem_inj_iff).1 (g2.trans g1.symm)
    refine ⟨x, hx, ?_⟩
    rw [index_data vars own total t hdim hxr he', hek, hnum]

/-- `SimpleEnumerator` of type ANITYPE gives the d.o.f.s of the process the numbers `BegInd .. EndInd - 1`, each once. -/
theorem anitype_numbering (h : Contiguous own b) (hb : ∀ d, b d < longMax) :
    Numbering (OwnedDof vars own) (fun x => (setup (numDofs vars) own total).index vars .anitype true x.1 x.2)
      (setup (numDofs vars) own total).begInd (setup (numDofs vars) own total).endInd := by
  refine numbering_of vars own b total .anitype h hb (fun d r k => r + k * (setup (numDofs vars) own total).numElem d)
    ?_ ?_ ?_ ?_
  · intro d r k
    simp only [Setup.number]
    omega
  · intro d r k hd hr hk
    exact two_lt _ _ _ _ hr hk
  · intro d r k r' k' hd hr hk hr' hk' heq
    have hN : 0 < (setup (numDofs vars) own total).numElem d := by omega
    have e1 := congrArg (· % (setup (numDofs vars) own total).numElem d) heq
    have e2 := congrArg (· / (setup (numDofs vars) own total).numElem d) heq
    simp only [Nat.add_mul_mod_self_right, Nat.mod_eq_of_lt hr, Nat.mod_eq_of_lt hr'] at e1
    simp only [Nat.add_mul_div_right _ _ hN, Nat.div_eq_of_lt hr, Nat.div_eq_of_lt hr'] at e2
    omega
  · intro d o hd ho
    have hN : 0 < (setup (numDofs vars) own total).numElem d := by
      rcases Nat.eq_zero_or_pos ((setup (numDofs vars) own total).numElem d) with h0 | h0
      · rw [h0] at ho; simp at ho
      · exact h0
    exact ⟨o % _, o / _, Nat.mod_lt _ hN, Nat.div_lt_of_lt_mul (by rw [Nat.mul_comm]; exact ho), Nat.mod_add_div' _ _⟩

/-- The inverse look-up of type ANITYPE returns the element and the d.o.f., for every d.o.f. except the first oriented one of
an edge or a face (where `split` fails).  The full claim has no exception. -/
theorem anitype_inverse_partial (h : Contiguous own b) (hb : ∀ d, b d < longMax) (x : Nat × Addr) (hx : OwnedDof vars own x)
    (n : Nat) (hn : (setup (numDofs vars) own total).index vars .anitype true x.1 x.2 = some n)
    (hfirst : ∀ e, fullIndex vars x.2 = some e → dimOf x.2.num = 1 ∨ dimOf x.2.num = 2 →
      e.elemDofId ≠ numDofs vars (elemNum (dimOf x.2.num))) :
    (setup (numDofs vars) own total).inverse vars .anitype n = some x := by
  obtain ⟨d, r, e, hd, hdim, hxr, hr, he, hget, hk⟩ := owned_data vars own b total h hb hx
  rw [index_data vars own total _ hdim hxr he] at hn
  obtain rfl := Option.some.inj hn
  have hb' := hfirst e he
  rw [hdim] at hb'
  have hN : 0 < (setup (numDofs vars) own total).numElem d := by omega
  have hloc : (setup (numDofs vars) own total).locate .anitype
      ((setup (numDofs vars) own total).number .anitype d ((setup (numDofs vars) own total).begElem d + r) e.elemDofId) =
      some (d, (setup (numDofs vars) own total).begElem d + r, e.elemDofId) := by
    have hnumb : (setup (numDofs vars) own total).number .anitype d ((setup (numDofs vars) own total).begElem d + r) e.elemDofId
        = (setup (numDofs vars) own total).init d + (r + e.elemDofId * (setup (numDofs vars) own total).numElem d) := by
      simp only [Setup.number]; omega
    rw [hnumb]
    unfold Setup.locate
    rw [findDim_spec _ d _ hd (two_lt _ _ _ _ hr hk)]
    simp only
    rw [if_neg (by omega), Nat.add_sub_cancel_left, Nat.add_mul_mod_self_right, Nat.mod_eq_of_lt hr,
      Nat.add_mul_div_right _ _ hN, Nat.div_eq_of_lt hr, Nat.zero_add]
  obtain ⟨e1, h1, h2, _⟩ := split_partial vars d e.elemDofId hd (by rw [length_addrs]; exact hk) hb'
  unfold Setup.inverse
  rw [hloc]
  simp only [h1, Option.map_some]
  rw [addr_eq vars h2 hget, ← hxr]

/-- the first oriented d.o.f. of an edge or a face: the inverse look-up reads out of range -/
theorem anitype_inverse_wrong (h : Contiguous own b) (hb : ∀ d, b d < longMax) (x : Nat × Addr) (hx : OwnedDof vars own x)
    (n : Nat) (hn : (setup (numDofs vars) own total).index vars .anitype true x.1 x.2 = some n) (e : Ext)
    (he : fullIndex vars x.2 = some e) (hor : dimOf x.2.num = 1 ∨ dimOf x.2.num = 2)
    (hfirst : e.elemDofId = numDofs vars (elemNum (dimOf x.2.num))) :
    (setup (numDofs vars) own total).inverse vars .anitype n = none := by
  obtain ⟨d, r, e', hd, hdim, hxr, hr, he', hget, hk⟩ := owned_data vars own b total h hb hx
  obtain rfl : e' = e := Option.some.inj (he'.symm.trans he)
  rw [index_data vars own total _ hdim hxr he] at hn
  obtain rfl := Option.some.inj hn
  rw [hdim] at hor hfirst
  have hN : 0 < (setup (numDofs vars) own total).numElem d := by omega
  have hnumb : (setup (numDofs vars) own total).number .anitype d ((setup (numDofs vars) own total).begElem d + r) e'.elemDofId
      = (setup (numDofs vars) own total).init d + (r + e'.elemDofId * (setup (numDofs vars) own total).numElem d) := by
    simp only [Setup.number]; omega
  have hloc : (setup (numDofs vars) own total).locate .anitype
      ((setup (numDofs vars) own total).number .anitype d ((setup (numDofs vars) own total).begElem d + r) e'.elemDofId) =
      some (d, (setup (numDofs vars) own total).begElem d + r, e'.elemDofId) := by
    rw [hnumb]
    unfold Setup.locate
    rw [findDim_spec _ d _ hd (two_lt _ _ _ _ hr hk)]
    simp only
    rw [if_neg (by omega), Nat.add_sub_cancel_left, Nat.add_mul_mod_self_right, Nat.mod_eq_of_lt hr,
      Nat.add_mul_div_right _ _ hN, Nat.div_eq_of_lt hr, Nat.zero_add]
  unfold Setup.inverse
  rw [hloc]
  simp only [hfirst, split_wrong vars d hor, Option.map_none]

/-- Type MINIBLOCKS: the numbers are right if every dimension has at most one owned element or at most one d.o.f. per
element.  The full claim has no such condition; `miniblocks_wrong` shows it is needed. -/
theorem miniblocks_numbering_partial (h : Contiguous own b) (hb : ∀ d, b d < longMax)
    (hone : ∀ d, d < 4 → inmostNumDof (numDofs vars) d ≤ 1 ∨ (setup (numDofs vars) own total).numElem d ≤ 1) :
    Numbering (OwnedDof vars own) (fun x => (setup (numDofs vars) own total).index vars .miniblocks true x.1 x.2)
      (setup (numDofs vars) own total).begInd (setup (numDofs vars) own total).endInd := by
  refine numbering_of vars own b total .miniblocks h hb
    (fun d r k => r * inmostNumDof (numDofs vars) d + k * (setup (numDofs vars) own total).numElem d) ?_ ?_ ?_ ?_
  · intro d r k
    simp only [Setup.number, Nat.add_sub_cancel_left, Nat.add_assoc]
    rfl
  · intro d r k hd hr hk
    have hc := hone d hd
    generalize (setup (numDofs vars) own total).numElem d = N at *
    generalize inmostNumDof (numDofs vars) d = w at *
    rcases hc with h1 | h1
    · obtain ⟨rfl, rfl⟩ : w = 1 ∧ k = 0 := by omega
      omega
    · obtain ⟨rfl, rfl⟩ : N = 1 ∧ r = 0 := by omega
      omega
  · intro d r k r' k' hd hr hk hr' hk' heq
    have hc := hone d hd
    generalize (setup (numDofs vars) own total).numElem d = N at *
    generalize inmostNumDof (numDofs vars) d = w at *
    rcases hc with h1 | h1
    · obtain ⟨rfl, rfl, rfl⟩ : w = 1 ∧ k = 0 ∧ k' = 0 := by omega
      omega
    · obtain ⟨rfl, rfl, rfl⟩ : N = 1 ∧ r = 0 ∧ r' = 0 := by omega
      omega
  · intro d o hd ho
    have hc := hone d hd
    generalize (setup (numDofs vars) own total).numElem d = N at *
    generalize inmostNumDof (numDofs vars) d = w at *
    have hpos : 0 < w * N := by omega
    have hw := Nat.pos_of_mul_pos_right hpos
    have hN := Nat.pos_of_mul_pos_left hpos
    rcases hc with h1 | h1
    · obtain rfl : w = 1 := by omega
      exact ⟨o, 0, by omega, by omega, by omega⟩
    · obtain rfl : N = 1 := by omega
      exact ⟨0, o, by omega, by omega, by omega⟩

/-- The MINIBLOCKS formula multiplies the number of the d.o.f. by the number of elements, where it should be added: as soon
as a process owns two elements with two d.o.f.s of the highest used dimension, the last d.o.f. of the last element gets a
number outside of the range of the process. -/
theorem miniblocks_wrong (h : Contiguous own b) (hb : ∀ d, b d < longMax) (d : Nat) (hd : d < 4)
    (hhigh : ∀ e, d < e → e < 4 → inmostNumDof (numDofs vars) e * (setup (numDofs vars) own total).numElem e = 0)
    (hN : 2 ≤ (setup (numDofs vars) own total).numElem d) (hw : 2 ≤ inmostNumDof (numDofs vars) d) :
    ∃ x n, OwnedDof vars own x ∧ (setup (numDofs vars) own total).index vars .miniblocks true x.1 x.2 = some n ∧
      (setup (numDofs vars) own total).endInd ≤ n := by
  obtain ⟨x, hx, hdim, hxr, hget⟩ := owned_of vars own b total h hb d ((setup (numDofs vars) own total).numElem d - 1)
    (inmostNumDof (numDofs vars) d - 1) hd (by omega) (by omega)
  obtain ⟨d', r', e', hd', hdim', hxr', hr', he', hget', hk'⟩ := owned_data vars own b total h hb hx
  have hdd : d' = d := by rw [← hdim', hdim]
  subst hdd
  have hek : e'.elemDofId = inmostNumDof (numDofs vars) d' - 1 := by
    obtain ⟨hl1, g1⟩ := List.getElem?_eq_some_iff.1 hget
    obtain ⟨hl2, g2⟩ := List.getElem?_eq_some_iff.1 hget'
    exact ((addrs_nodup vars d' hd).getElem_inj_iff).1 (g2.trans g1.symm)
  refine ⟨x, _, hx, index_data vars own total _ hdim hxr he', ?_⟩
  have hend : (setup (numDofs vars) own total).endInd =
      (setup (numDofs vars) own total).init d' + inmostNumDof (numDofs vars) d' * (setup (numDofs vars) own total).numElem d' := by
    rw [← init_end]
    have i1 : (setup (numDofs vars) own total).init 1 = (setup (numDofs vars) own total).init 0 +
      inmostNumDof (numDofs vars) 0 * (setup (numDofs vars) own total).numElem 0 := rfl
    have i2 : (setup (numDofs vars) own total).init 2 = (setup (numDofs vars) own total).init 1 +
      inmostNumDof (numDofs vars) 1 * (setup (numDofs vars) own total).numElem 1 := rfl
    have i3 : (setup (numDofs vars) own total).init 3 = (setup (numDofs vars) own total).init 2 +
      inmostNumDof (numDofs vars) 2 * (setup (numDofs vars) own total).numElem 2 := rfl
    have i4 : (setup (numDofs vars) own total).init 4 = (setup (numDofs vars) own total).init 3 +
      inmostNumDof (numDofs vars) 3 * (setup (numDofs vars) own total).numElem 3 := rfl
    have h1 := hhigh 1
    have h2 := hhigh 2
    have h3 := hhigh 3
    match d', hd with
    | 0, _ => have := h1 (by omega) (by omega); have := h2 (by omega) (by omega); have := h3 (by omega) (by omega); omega
    | 1, _ => have := h2 (by omega) (by omega); have := h3 (by omega) (by omega); omega
    | 2, _ => have := h3 (by omega) (by omega); omega
    | 3, _ => omega
  rw [hend]
  simp only [Setup.number, Nat.add_sub_cancel_left, hek]
  rw [show (setup (numDofs vars) own total).numDof = numDofs vars from rfl]
  generalize (setup (numDofs vars) own total).numElem d' = N at *
  generalize inmostNumDof (numDofs vars) d' = w at *
  obtain ⟨N, rfl⟩ : ∃ m, N = m + 2 := ⟨N - 2, by omega⟩
  obtain ⟨w, rfl⟩ : ∃ m, w = m + 2 := ⟨w - 2, by omega⟩
  rw [show N + 2 - 1 = N + 1 by omega, show w + 2 - 1 = w + 1 by omega]
  have : (w + 2) * (N + 2) ≤ (N + 1) * (w + 2) + (w + 1) * (N + 2) := by nlinarith [Nat.zero_le (w * N)]
  omega

/-- The inverse look-up of type MINIBLOCKS is the inverse of the layout element by element: number `init d + r * nd + k`
belongs to d.o.f. `k` of the `r`-th element. -/
theorem miniblocks_locate (s : Setup) (d r k : Nat) (hd : d < 4) (hr : r < s.numElem d) (hk : k < inmostNumDof s.numDof d) :
    s.locate .miniblocks (s.init d + (r * inmostNumDof s.numDof d + k)) = some (d, s.begElem d + r, k) := by
  have hw : 0 < inmostNumDof s.numDof d := by omega
  unfold Setup.locate
  rw [findDim_spec s d _ hd (by rw [Nat.mul_comm (inmostNumDof _ _), Nat.add_comm]; exact two_lt _ _ _ _ hk hr)]
  simp only
  rw [if_neg (by omega), Nat.add_sub_cancel_left, Nat.add_comm (r * _), Nat.add_mul_mod_self_right, Nat.mod_eq_of_lt hk,
    Nat.add_mul_div_right _ _ hw, Nat.div_eq_of_lt hk, Nat.zero_add]

end

/-- two cells with two d.o.f.s and three nodes with one: the numbering of type ANITYPE, and the collision of MINIBLOCKS -/
example :
    let vars : List Var := [⟨false, 0, fun k => if k = 0 then 1 else if k = 5 then 2 else 0⟩]
    let s := setup (numDofs vars) (fun d => if d = 0 then [4, 3, 5] else if d = 3 then [7, 8] else []) (fun _ => 20)
    s.begInd = 17 ∧ s.endInd = 24 ∧
    [s.index vars .anitype true 5 ⟨0, 0, 0, 0⟩, s.index vars .anitype true 8 ⟨5, 0, 0, 1⟩,
      s.index vars .miniblocks true 7 ⟨5, 0, 0, 1⟩, s.index vars .miniblocks true 8 ⟨5, 0, 0, 0⟩,
      s.index vars .miniblocks true 8 ⟨5, 0, 0, 1⟩] = [some 19, some 23, some 22, some 22, some 24] ∧
    s.inverse vars .anitype 23 = some (8, ⟨5, 0, 0, 1⟩) := by decide +kernel

end Verif.Enumerator
