import Verif.Lemmas.Reorder3

/-! Lemmas about the reordering of stored values: every array is a function of the letters, values gathered on a cell. -/
namespace Verif.Reorder
open Verif.Symmetry Verif.Ordering

theorem rank_surj {N : Type} (g : N → Int) (nodes : List N) (h1 : 1 ≤ nodes.length) (h4 : nodes.length ≤ 4)
    (hnd : nodes.Nodup) (hg : Numbered g nodes) (i : Nat) (hi : i < nodes.length) : ∃ x ∈ nodes, rank g nodes x = i := by
  by_cases h2 : 2 ≤ nodes.length
  · obtain ⟨_, _, _, _, _, h⟩ := canonical_closed g g nodes h2 h4 hnd hg hg
    exact h i hi
  · match nodes, h1, h2 with
    | [a], _, _ => exact ⟨a, by simp, by simp [rank] at *; omega⟩
    | _ :: _ :: _, _, h => simp at h

theorem letters_inj {N : Type} [DecidableEq N] (g : N → Int) (nodes : List N) (h1 : 1 ≤ nodes.length) (h4 : nodes.length ≤ 4)
    (hnd : nodes.Nodup) (hg : Numbered g nodes) (s : Nat) (hs : s < groups (nodes.length - 1)) (a b : Nat)
    (ha : a < (words (nodes.length - 1) s).length) (hb : b < (words (nodes.length - 1) s).length)
    (h : letters g nodes ((words (nodes.length - 1) s).getD a []) = letters g nodes ((words (nodes.length - 1) s).getD b [])) :
    a = b := by
  have hd : nodes.length - 1 < 4 := by omega
  have ga : (words (nodes.length - 1) s).getD a [] = (words (nodes.length - 1) s)[a] := by
    simp [List.getD, List.getElem?_eq_getElem ha]
  have gb : (words (nodes.length - 1) s).getD b [] = (words (nodes.length - 1) s)[b] := by
    simp [List.getD, List.getElem?_eq_getElem hb]
  rw [ga, gb] at h
  have la := words_len _ hd s hs _ (List.getElem_mem ha)
  have lb := words_len _ hd s hs _ (List.getElem_mem hb)
  apply (List.Nodup.getElem_inj_iff (words_nodup _ hd s hs) (hi := ha) (hj := hb)).mp
  apply List.ext_getElem?
  intro i
  by_cases hi : i < nodes.length
  · obtain ⟨x, hx, hr⟩ := rank_surj g nodes h1 h4 hnd hg i hi
    have := congrFun h x
    unfold letters at this
    rw [if_pos hx, if_pos hx, hr] at this
    exact this
  · rw [List.getElem?_eq_none (by omega), List.getElem?_eq_none (by omega)]

open Classical in
/-- every array is given by a function of the group, the copy and the letters -/
theorem represents_exists {N K : Type} [DecidableEq N] (g : N → Int) (nodes : List N) (h1 : 1 ≤ nodes.length)
    (h4 : nodes.length ≤ 4) (hnd : nodes.Nodup) (hg : Numbered g nodes) (ms : List Nat) (data : Nat → K) :
    ∃ F, Represents g nodes ms data F := by
  refine ⟨fun s c w => if h : ∃ a, a < (words (nodes.length - 1) s).length ∧
      letters g nodes ((words (nodes.length - 1) s).getD a []) = w then data (place (nodes.length - 1) ms s c h.choose)
      else data 0, ?_⟩
  intro s c a hv
  have hex : ∃ b, b < (words (nodes.length - 1) s).length ∧ letters g nodes ((words (nodes.length - 1) s).getD b []) =
    letters g nodes ((words (nodes.length - 1) s).getD a []) := ⟨a, hv.2.2, rfl⟩
  dsimp only
  rw [dif_pos hex]
  obtain ⟨e1, e2⟩ := hex.choose_spec
  rw [letters_inj g nodes h1 h4 hnd hg s hv.1 _ _ e1 hv.2.2 e2]

/-- the nodes of the element number `e` of dimension `d` of a cell, in the documented order -/
def subNodes {N : Type} (cell : Fin 4 → N) (d e : Nat) : List N := (vertices d e).map fun v => cell (Fin.ofNat 4 v)

theorem vertices_lt : ∀ d, d < 4 → ∀ e, e < elements d → (∀ v ∈ vertices d e, v < 4) ∧ (vertices d e).Nodup ∧
    (vertices d e).length = d + 1 := by decide

theorem symrank_table : ∀ d, d < 4 → ∀ e, e < elements d → ∀ p ∈ perms, ∀ v ∈ vertices d e,
    Symmetry.rank ((vertices d e).map fun u => p.getD u 4) (p.getD v 4) =
      (vertices d e).countP fun u => decide (p.getD u 4 < p.getD v 4) := by decide +kernel

theorem take_spec {N : Type} [DecidableEq N] (g : N → Int) (cell : Fin 4 → N)
    (hg : Function.Injective fun k => g (cell k)) (d e : Nat) (hd : d < 4) (he : e < elements d) (nodes : List N)
    (hp : nodes.Perm (subNodes cell d e)) (ms : List Nat) (hms : ms.length = groups d) (s c a : Nat) (hv : Valid d ms s c a) :
    ∃ p b, createOrder (fun k => g (cell k)) = some p ∧ Valid d ms s c b ∧
      locusIndex d e ms p (place d ms s c a) = some (place d ms s c b) ∧
      letters g nodes ((words d s).getD b []) = listed (subNodes cell d e) ((words d s).getD a []) := by
  obtain ⟨p, hp1, hp2, hp3⟩ := createOrder_weak (fun k => g (cell k)) ⟨0, 1, fun h => absurd (hg h) (by decide)⟩
  have hlt : ∀ x y : Fin 4, p.getD x 4 < p.getD y 4 ↔ g (cell x) < g (cell y) := by
    intro x y
    constructor
    · intro h
      rcases lt_trichotomy (g (cell x)) (g (cell y)) with l | l | l
      · exact l
      · have := hg l
        subst this
        omega
      · have := hp3 _ _ l; omega
    · exact hp3 x y
  obtain ⟨b, hb1, hb2, hb3⟩ := index_correct p hp2 d e s a hd he hv.1 (by rw [volume_eq d hd s hv.1]; exact hv.2.2)
  rw [volume_eq d hd s hv.1] at hb1
  refine ⟨p, b, hp1, ⟨hv.1, hv.2.1, hb1⟩, reorder_place d hd e ms hms p s c a b hv hb2, ?_⟩
  obtain ⟨v1, v2, v3⟩ := vertices_lt d hd e he
  have hcell : Function.Injective cell := fun x y h => hg (congrArg g h)
  have hsub : (subNodes cell d e).Nodup := by
    apply List.Nodup.map_on _ v2
    intro x hx y hy h
    have := congrArg Fin.val (hcell h)
    have hx := v1 x hx
    have hy := v1 y hy
    simp only [Fin.val_ofNat] at this
    omega
  funext x
  unfold letters listed
  by_cases hx : x ∈ subNodes cell d e
  · rw [if_pos (hp.mem_iff.mpr hx), if_pos hx, rank_perm g hp]
    obtain ⟨k, hk, rfl⟩ := List.mem_iff_getElem.mp hx
    rw [hsub.idxOf_getElem k hk]
    have hk' : k < (vertices d e).length := by simpa [subNodes] using hk
    have hvk := v1 _ (List.getElem_mem hk')
    have e1 : (vertices d e).getD k 4 = (vertices d e)[k] := by simp [List.getD, List.getElem?_eq_getElem hk']
    have e2 : (subNodes cell d e)[k] = cell (Fin.ofNat 4 (vertices d e)[k]) := by simp [subNodes]
    have := hb3 k hk'
    rw [e1, symrank_table d hd e he p (mem_perms hp2) _ (List.getElem_mem hk')] at this
    rw [← this]
    congr 1
    unfold rank
    rw [e2]
    unfold subNodes
    rw [List.countP_map]
    apply List.countP_congr
    intro u hu
    have hu4 := v1 u hu
    simp only [Function.comp, decide_eq_true_eq]
    have e3 : (Fin.ofNat 4 u).val = u := by simp; omega
    have e4 : (Fin.ofNat 4 (vertices d e)[k]).val = (vertices d e)[k] := by simp; omega
    rw [← hlt, e3, e4]
  · rw [if_neg (fun h => hx (hp.mem_iff.mp h)), if_neg hx]

end Verif.Reorder
