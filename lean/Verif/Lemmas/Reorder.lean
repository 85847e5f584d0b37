import Verif.Model.Reorder
import Verif.Props.Ordering
import Mathlib.Data.List.Perm.Basic

/-! Lemmas about the reordering of stored values. -/
namespace Verif.Reorder
open Verif.Symmetry Verif.Ordering

theorem perm_rank : ∀ p ∈ perms, ∀ k, k < 4 →
    p.getD k 4 = (List.range 4).countP fun x => decide (p.getD x 4 < p.getD k 4) := by decide +kernel

theorem rank_perm {N : Type} (g : N → Int) {a b : List N} (h : a.Perm b) (x : N) : rank g a x = rank g b x :=
  h.countP_eq _

theorem rank_lt {N : Type} (g : N → Int) (nodes : List N) (x : N) (h : x ∈ nodes) : rank g nodes x < nodes.length := by
  unfold rank
  rcases Nat.lt_or_ge (nodes.countP fun y => decide (g y < g x)) nodes.length with h1 | h1
  · exact h1
  · have h2 := Nat.le_antisymm (List.countP_le_length) h1
    have h3 := (List.countP_eq_length.mp h2) x h
    simp at h3

theorem fold_last {α : Type} (P : Nat → Prop) [DecidablePred P] (f : Nat → α) (init : α) (l : List Nat) :
    l.foldl (fun v i => if P i then f i else v) init = ((l.filter fun i => decide (P i)).getLast?).elim init f := by
  induction l using List.reverseRecOn with
  | nil => rfl
  | append_singleton l a ih =>
    rw [List.foldl_append, ih, List.filter_append]
    by_cases h : P a
    · simp [h]
    · simp [h]

theorem padded_get {N : Type} (g : N → Int) (nodes : List N) (i : Fin 4) (h : i.val < nodes.length) :
    padded g nodes i = g nodes[i.val] := by
  simp [padded, List.getElem?_eq_getElem h]

theorem padded_out {N : Type} (g : N → Int) (nodes : List N) (i : Fin 4) (h : nodes.length ≤ i.val) :
    padded g nodes i = mlng := by
  simp [padded, List.getElem?_eq_none h]

theorem countP_padded {N : Type} (g : N → Int) (nodes : List N) (hl : nodes.length ≤ 4) (v : Int) (hv : v ≤ mlng) :
    (List.range 4).countP (fun x => decide (∃ h : x < 4, padded g nodes ⟨x, h⟩ < v)) = nodes.countP fun y => decide (g y < v) := by
  have hn : ¬ mlng < v := Int.not_lt.mpr hv
  have e4 : List.range 4 = [0, 1, 2, 3] := rfl
  rw [e4]
  match nodes, hl with
  | [], _ => simp [padded, hn]
  | [a], _ => simp [padded, hn, List.countP_cons]
  | [a, b], _ => simp [padded, hn, List.countP_cons]
  | [a, b, c], _ => simp [padded, hn, List.countP_cons]
  | [a, b, c, d], _ => simp [padded, List.countP_cons]
  | _ :: _ :: _ :: _ :: _ :: _, h => simp at h

/-- the order of the nodes of an element padded by the largest number: the places of the nodes -/
theorem order_padded {N : Type} (g : N → Int) (nodes : List N) (h2 : 2 ≤ nodes.length) (h4 : nodes.length ≤ 4)
    (hnd : nodes.Nodup) (hg : Numbered g nodes) :
    ∃ p, createOrder (padded g nodes) = some p ∧ IsPerm p ∧
      ∀ i (h : i < nodes.length), p.getD i 4 = rank g nodes nodes[i] := by
  have hmem : ∀ i (h : i < nodes.length), nodes[i] ∈ nodes := fun i h => List.getElem_mem h
  have hne : ∀ i j : Fin 4, i.val < nodes.length → i ≠ j → padded g nodes j ≠ padded g nodes i := by
    intro i j hi hij he
    rw [padded_get g nodes i hi] at he
    by_cases hj : j.val < nodes.length
    · rw [padded_get g nodes j hj] at he
      have := hg.1 _ (hmem _ hj) _ (hmem _ hi) he
      exact hij (Fin.ext ((List.Nodup.getElem_inj_iff hnd).mp this).symm)
    · rw [padded_out g nodes j (Nat.le_of_not_lt hj)] at he
      have := hg.2 _ (hmem _ hi)
      rw [← he] at this
      simp [mlng] at this
  obtain ⟨p, hp1, hp2, hp3⟩ := createOrder_weak (padded g nodes)
    ⟨1, 0, hne 0 1 (by show 0 < _; omega) (by decide)⟩
  refine ⟨p, hp1, hp2, fun i hi => ?_⟩
  have hi4 : i < 4 := by omega
  rw [perm_rank p (mem_perms hp2) i hi4]
  have hv : g nodes[i] ≤ mlng := le_of_lt (hg.2 _ (hmem _ hi))
  show _ = nodes.countP _
  rw [← countP_padded g nodes h4 (g nodes[i]) hv]
  apply List.countP_congr
  intro x hx
  have hx4 : x < 4 := List.mem_range.mp hx
  simp only [decide_eq_true_eq]
  rw [← padded_get g nodes ⟨i, hi4⟩ hi]
  constructor
  · intro hlt
    refine ⟨hx4, ?_⟩
    rcases lt_trichotomy (padded g nodes ⟨x, hx4⟩) (padded g nodes ⟨i, hi4⟩) with h | h | h
    · exact h
    · exfalso
      by_cases hxi : x = i
      · subst hxi; omega
      · exact hne ⟨i, hi4⟩ ⟨x, hx4⟩ hi (fun e => hxi (by simpa using (congrArg Fin.val e).symm)) h
    · have := hp3 _ _ h
      simp only at this
      omega
  · rintro ⟨_, h⟩
    exact hp3 ⟨x, hx4⟩ ⟨i, hi4⟩ h

theorem filter_table : ∀ p ∈ perms, ∀ L, L < 5 → (∀ i, i < L → p.getD i 4 < L) → ∀ r, r < 4 →
    ((List.range L).filter fun i => decide (p.getD i 4 = r)) = if r < L then [p.idxOf r] else [] := by decide +kernel

theorem idx_table : ∀ p ∈ perms, ∀ L, L < 5 → (∀ i, i < L → p.getD i 4 < L) →
    ((List.range L).map fun r => p.idxOf r).Perm (List.range L) ∧
    ∀ r, r < L → p.idxOf r < L ∧ p.getD (p.idxOf r) 4 = r := by decide +kernel

/-- the nodes sorted by the new enumeration -/
def sorted {N : Type} (nodes : List N) (p : List Nat) : List N :=
  (List.range nodes.length).filterMap fun r => nodes[p.idxOf r]?

theorem filterMap_range {N : Type} (nodes : List N) : ((List.range nodes.length).filterMap fun r => nodes[r]?) = nodes := by
  induction nodes using List.reverseRecOn with
  | nil => rfl
  | append_singleton l a ih =>
    rw [List.length_append, List.length_singleton, List.range_succ, List.filterMap_append]
    have : ((List.range l.length).filterMap fun r => (l ++ [a])[r]?) = (List.range l.length).filterMap fun r => l[r]? := by
      apply List.filterMap_congr
      intro x hx
      rw [List.getElem?_append_left (List.mem_range.mp hx)]
    rw [this, ih]
    simp

theorem filterMap_length {α β : Type} (f : α → Option β) (l : List α) (h : ∀ x ∈ l, (f x).isSome) :
    (l.filterMap f).length = l.length ∧ ∀ i : Nat, (l.filterMap f)[i]? = (l[i]?).bind f := by
  induction l with
  | nil => simp
  | cons a l ih =>
    obtain ⟨b, hb⟩ := Option.isSome_iff_exists.mp (h a (by simp))
    have := ih fun x hx => h x (by simp [hx])
    rw [List.filterMap_cons_some hb]
    refine ⟨by simp [this.1], fun i => ?_⟩
    cases i with
    | zero => simp [hb]
    | succ i => simpa using this.2 i

theorem sorted_spec {N : Type} (nodes : List N) (p : List Nat) (hp : IsPerm p) (h4 : nodes.length ≤ 4)
    (hc : ∀ i, i < nodes.length → p.getD i 4 < nodes.length) :
    (sorted nodes p).Perm nodes ∧ (∀ r, r < nodes.length → (sorted nodes p)[r]? = nodes[p.idxOf r]?) := by
  obtain ⟨h1, h2⟩ := idx_table p (mem_perms hp) nodes.length (by omega) hc
  constructor
  · have : sorted nodes p = ((List.range nodes.length).map fun r => p.idxOf r).filterMap fun r => nodes[r]? := by
      rw [List.filterMap_map]; rfl
    rw [this]
    exact (h1.filterMap _).trans (by rw [filterMap_range])
  · intro r hr
    have := (filterMap_length (fun r => nodes[p.idxOf r]?) (List.range nodes.length) (by
      intro x hx
      rw [List.getElem?_eq_getElem (h2 x (List.mem_range.mp hx)).1]; rfl)).2 r
    show (List.filterMap _ _)[r]? = _
    rw [this, List.getElem?_range hr]
    rfl

theorem oldByNew_eq {N : Type} (old : N → Int) (nodes : List N) (p : List Nat) (hp : IsPerm p) (h4 : nodes.length ≤ 4)
    (hc : ∀ i, i < nodes.length → p.getD i 4 < nodes.length) : oldByNew old nodes p = padded old (sorted nodes p) := by
  obtain ⟨hs1, hs2⟩ := sorted_spec nodes p hp h4 hc
  funext r
  have e : oldByNew old nodes p r = (List.range nodes.length).foldl
      (fun v i => if p.getD i 4 = r.val then (nodes[i]?).elim mlng old else v) mlng := by
    unfold oldByNew
    apply List.foldl_ext
    intro v i hi
    have := List.mem_range.mp hi
    rw [List.getElem?_eq_getElem this]
    rfl
  rw [e, fold_last, filter_table p (mem_perms hp) nodes.length (by omega) hc r.val r.isLt]
  by_cases hr : r.val < nodes.length
  · rw [if_pos hr]
    show (nodes[p.idxOf r.val]?).elim mlng old = ((sorted nodes p)[r.val]?).elim mlng old
    rw [hs2 _ hr]
  · rw [if_neg hr, padded_out _ _ _ (by rw [hs1.length_eq]; omega)]
    rfl

theorem Numbered.perm {N : Type} {g : N → Int} {a b : List N} (h : a.Perm b) (hg : Numbered g a) : Numbered g b :=
  ⟨fun x hx y hy => hg.1 x (h.mem_iff.mpr hx) y (h.mem_iff.mpr hy), fun x hx => hg.2 x (h.mem_iff.mpr hx)⟩

/-- the canonical numbers: the node at place `r` of the new order has the place `canon[r]` in the old order -/
theorem canonical_spec {N : Type} (old new : N → Int) (nodes : List N) (h2 : 2 ≤ nodes.length) (h4 : nodes.length ≤ 4)
    (hnd : nodes.Nodup) (ho : Numbered old nodes) (hn : Numbered new nodes) :
    ∃ c, canonical old new nodes = some c ∧ IsPerm c ∧
      ∀ x ∈ nodes, c.getD (rank new nodes x) 4 = rank old nodes x := by
  obtain ⟨p, hp1, hp2, hp3⟩ := order_padded new nodes h2 h4 hnd hn
  have hc : ∀ i, i < nodes.length → p.getD i 4 < nodes.length := fun i hi => by
    rw [hp3 i hi]; exact rank_lt _ _ _ (List.getElem_mem hi)
  obtain ⟨hs1, hs2⟩ := sorted_spec nodes p hp2 h4 hc
  have hlen := hs1.length_eq
  obtain ⟨c, hc1, hc2, hc3⟩ := order_padded old (sorted nodes p) (by omega) (by omega) (hs1.nodup_iff.mpr hnd)
    (ho.perm hs1.symm)
  refine ⟨c, ?_, hc2, ?_⟩
  · unfold canonical
    rw [hp1]
    show createOrder (oldByNew old nodes p) = _
    rw [oldByNew_eq old nodes p hp2 h4 hc, hc1]
  · intro x hx
    obtain ⟨i, hi, rfl⟩ := List.mem_iff_getElem.mp hx
    have hr := rank_lt new nodes nodes[i] hx
    have key : (sorted nodes p)[rank new nodes nodes[i]]'(by omega) = nodes[i] := by
      have e := hs2 _ hr
      obtain ⟨_, h6⟩ := idx_table p (mem_perms hp2) nodes.length (by omega) hc
      obtain ⟨h7, h8⟩ := h6 _ hr
      rw [List.getElem?_eq_getElem (by omega), List.getElem?_eq_getElem h7, Option.some_inj] at e
      rw [e]
      have hpi := hp3 i hi
      rw [hp3 _ h7] at h8
      have : nodes[p.idxOf (rank new nodes nodes[i])] = nodes[i] := by
        by_contra hne
        have hneg : new nodes[p.idxOf (rank new nodes nodes[i])] ≠ new nodes[i] :=
          fun e => hne (hn.1 _ (List.getElem_mem _) _ hx e)
        have hmono : ∀ u ∈ nodes, ∀ v ∈ nodes, new u < new v → rank new nodes u < rank new nodes v := by
          intro u hu v hv huv
          obtain ⟨k, hk, rfl⟩ := List.mem_iff_getElem.mp hu
          obtain ⟨l, hl, rfl⟩ := List.mem_iff_getElem.mp hv
          rw [← hp3 k hk, ← hp3 l hl]
          obtain ⟨p', hp1', _, hp3'⟩ := createOrder_weak (padded new nodes)
            ⟨⟨k, by omega⟩, ⟨l, by omega⟩, by
              rw [padded_get new nodes ⟨k, by omega⟩ hk, padded_get new nodes ⟨l, by omega⟩ hl]
              exact ne_of_lt huv⟩
          rw [hp1] at hp1'
          cases hp1'
          exact hp3' ⟨k, by omega⟩ ⟨l, by omega⟩ (by
            rw [padded_get new nodes ⟨k, by omega⟩ hk, padded_get new nodes ⟨l, by omega⟩ hl]; exact huv)
        rcases lt_or_gt_of_ne hneg with h | h
        · have := hmono _ (List.getElem_mem _) _ hx h; omega
        · have := hmono _ hx _ (List.getElem_mem _) h; omega
      exact this
    have := hc3 (rank new nodes nodes[i]) (by omega)
    rw [this, key, rank_perm old hs1]

end Verif.Reorder
