import Verif.Lemmas.Reorder

/-! Lemmas about the reordering of stored values: positions and letters. -/
namespace Verif.Reorder
open Verif.Symmetry Verif.Ordering

theorem fill_table : ∀ c ∈ perms, ∀ d, d < 4 → (∀ i, i < d + 1 → c.getD i 4 < d + 1) →
    IsPerm (fillUp d c) ∧ (vertices d 0).length = d + 1 ∧ ∀ k, k < d + 1 → (fillUp d c).getD k 4 = c.getD k 4 ∧
      Symmetry.rank ((vertices d 0).map fun v => (fillUp d c).getD v 4) ((fillUp d c).getD ((vertices d 0).getD k 4) 4) =
        c.getD k 4 := by decide +kernel

theorem words_len : ∀ d, d < 4 → ∀ s, s < groups d → ∀ w ∈ words d s, w.length = d + 1 := by decide
theorem words_nodup : ∀ d, d < 4 → ∀ s, s < groups d → (words d s).Nodup := by decide +kernel
theorem words_first : ∀ d, d < 4 → words d 0 = [List.replicate (d + 1) 0] := by decide
theorem words_pos : ∀ d, d < 4 → ∀ s, s < groups d → 0 < (words d s).length ∧ (0 < s → 2 ≤ (words d s).length) := by decide
theorem elements_pos : ∀ d, d < 4 → 0 < elements d := by decide

theorem offset_eq (d : Nat) (hd : d < 4) (ms : List Nat) (s : Nat) (hs : s ≤ groups d) : offset d ms s = before d ms s := by
  unfold offset before
  congr 1
  apply List.map_congr_left
  intro t ht
  rw [volume_eq d hd t (by have := List.mem_range.mp ht; omega)]

theorem numDof_eq (d : Nat) (ms : List Nat) : numDof d ms = before d ms (groups d) := rfl

theorem numDof_total (d : Nat) (hd : d < 4) (ms : List Nat) : numDof d ms = total d ms := by
  rw [numDof_eq, total, offset_eq d hd ms _ (Nat.le_refl _)]

theorem place_eq (d : Nat) (hd : d < 4) (ms : List Nat) (s c a : Nat) (hs : s < groups d) :
    place d ms s c a = before d ms s + volume d s * c + a := by
  unfold place
  rw [offset_eq d hd ms s (by omega), volume_eq d hd s hs]

theorem place_lt (d : Nat) (hd : d < 4) (ms : List Nat) (hms : ms.length = groups d) (s c a : Nat) (h : Valid d ms s c a) :
    place d ms s c a < total d ms := by
  rw [place_eq d hd ms s c a h.1, ← numDof_total d hd, numDof_eq, ← hms]
  exact (locSym_unique d ms s c a (by rw [hms]; exact h.1) h.2.1 (by rw [volume_eq d hd s h.1]; exact h.2.2)).1

theorem exists_place (d : Nat) (hd : d < 4) (ms : List Nat) (hms : ms.length = groups d) (i : Nat) (hi : i < total d ms) :
    ∃ s c a, Valid d ms s c a ∧ i = place d ms s c a := by
  rw [← numDof_total d hd, numDof_eq, ← hms] at hi
  obtain ⟨h1, h2, c, hc, h3⟩ := locSym_spec d ms i hi
  rw [hms] at h1
  refine ⟨(locSym d ms i).1, c, (locSym d ms i).2, ⟨h1, hc, ?_⟩, ?_⟩
  · exact (volume_eq d hd _ h1) ▸ h2
  · rw [place_eq d hd ms _ _ _ h1]; exact h3

theorem place_inj (d : Nat) (hd : d < 4) (ms : List Nat) (hms : ms.length = groups d) {s c a s' c' a' : Nat}
    (h : Valid d ms s c a) (h' : Valid d ms s' c' a') (he : place d ms s c a = place d ms s' c' a') :
    s = s' ∧ c = c' ∧ a = a' := by
  have k := (locSym_unique d ms s c a (by rw [hms]; exact h.1) h.2.1 (by rw [volume_eq d hd s h.1]; exact h.2.2)).2
  have k' := (locSym_unique d ms s' c' a' (by rw [hms]; exact h'.1) h'.2.1 (by rw [volume_eq d hd s' h'.1]; exact h'.2.2)).2
  rw [place_eq d hd ms s c a h.1, place_eq d hd ms s' c' a' h'.1] at he
  rw [he, k'] at k
  obtain ⟨rfl, rfl⟩ := Prod.mk.inj k
  refine ⟨rfl, ?_, rfl⟩
  have hv : 0 < volume d s' := by rw [volume_eq d hd s' h.1]; exact (words_pos d hd s' h.1).1
  have : volume d s' * c = volume d s' * c' := by omega
  exact Nat.eq_of_mul_eq_mul_left hv this

theorem reorder_place (d : Nat) (hd : d < 4) (e : Nat) (ms : List Nat) (hms : ms.length = groups d) (p : List Nat)
    (s c a b : Nat) (h : Valid d ms s c a) (hi : index d e s a p = some b) :
    reorder d e ms p (place d ms s c a) = some (place d ms s c b) := by
  rw [place_eq d hd ms s c a h.1, place_eq d hd ms s c b h.1]
  unfold reorder
  simp only [(locSym_unique d ms s c a (by rw [hms]; exact h.1) h.2.1 (by rw [volume_eq d hd s h.1]; exact h.2.2)).2,
    Nat.add_sub_cancel, hi, Option.map_some]

/-- the position on the old order of the value at a place in the new order -/
theorem position_spec {N : Type} [DecidableEq N] (old new : N → Int) (nodes : List N) (h2 : 2 ≤ nodes.length)
    (h4 : nodes.length ≤ 4) (canon : List Nat) (hp : IsPerm canon)
    (hc : ∀ x ∈ nodes, canon.getD (rank new nodes x) 4 = rank old nodes x)
    (hcl : ∀ i, i < nodes.length → canon.getD i 4 < nodes.length)
    (ms : List Nat) (hms : ms.length = groups (nodes.length - 1)) (s c a : Nat) (h : Valid (nodes.length - 1) ms s c a) :
    ∃ b, Valid (nodes.length - 1) ms s c b ∧
      reorder (nodes.length - 1) 0 ms (fillUp (nodes.length - 1) canon) (place (nodes.length - 1) ms s c a) =
        some (place (nodes.length - 1) ms s c b) ∧
      letters old nodes ((words (nodes.length - 1) s).getD b []) = letters new nodes ((words (nodes.length - 1) s).getD a []) := by
  have hd : nodes.length - 1 < 4 := by omega
  have e1 : nodes.length - 1 + 1 = nodes.length := by omega
  obtain ⟨f1, f2, f3⟩ := fill_table canon (mem_perms hp) (nodes.length - 1) hd (by rw [e1]; exact hcl)
  obtain ⟨b, hb1, hb2, hb3⟩ := index_correct _ f1 (nodes.length - 1) 0 s a hd (elements_pos _ hd) h.1
    (by rw [volume_eq _ hd s h.1]; exact h.2.2)
  rw [volume_eq _ hd s h.1] at hb1
  refine ⟨b, ⟨h.1, h.2.1, hb1⟩, reorder_place _ hd 0 ms hms _ s c a b h hb2, ?_⟩
  funext x
  unfold letters
  by_cases hx : x ∈ nodes
  · rw [if_pos hx, if_pos hx]
    have hr := rank_lt new nodes x hx
    have := hb3 (rank new nodes x) (by rw [f2]; omega)
    rw [(f3 _ (by omega)).2, hc x hx] at this
    exact this
  · rw [if_neg hx, if_neg hx]

theorem canonical_closed {N : Type} (old new : N → Int) (nodes : List N) (h2 : 2 ≤ nodes.length) (h4 : nodes.length ≤ 4)
    (hnd : nodes.Nodup) (ho : Numbered old nodes) (hn : Numbered new nodes) :
    ∃ c, canonical old new nodes = some c ∧ IsPerm c ∧ (∀ x ∈ nodes, c.getD (rank new nodes x) 4 = rank old nodes x) ∧
      (∀ i, i < nodes.length → c.getD i 4 < nodes.length) ∧ ∀ i, i < nodes.length → ∃ x ∈ nodes, rank new nodes x = i := by
  obtain ⟨c, h1, h2', h3⟩ := canonical_spec old new nodes h2 h4 hnd ho hn
  obtain ⟨p, hp1, hp2, hp3⟩ := order_padded new nodes h2 h4 hnd hn
  have hc : ∀ i, i < nodes.length → p.getD i 4 < nodes.length := fun i hi => by
    rw [hp3 i hi]; exact rank_lt _ _ _ (List.getElem_mem hi)
  have surj : ∀ i, i < nodes.length → ∃ x ∈ nodes, rank new nodes x = i := by
    intro i hi
    obtain ⟨h7, h8⟩ := (idx_table p (mem_perms hp2) nodes.length (by omega) hc).2 i hi
    exact ⟨_, List.getElem_mem h7, by rw [← hp3 _ h7]; exact h8⟩
  refine ⟨c, h1, h2', h3, ?_, surj⟩
  intro i hi
  obtain ⟨x, hx, hr⟩ := surj i hi
  rw [← hr, h3 x hx]
  exact rank_lt _ _ _ hx

theorem nontrivial_count (d : Nat) (hd : d < 4) (ms : List Nat) (hms : ms.length = groups d) (h : nontrivial ms = true) :
    2 ≤ total d ms := by
  unfold nontrivial at h
  obtain ⟨m, hm, h0⟩ := List.any_eq_true.mp h
  obtain ⟨i, hi, rfl⟩ := List.mem_iff_getElem.mp hm
  rw [List.length_tail] at hi
  have h0' : ms[i + 1]'(by omega) ≠ 0 := by simpa using h0
  have hg : ms.getD (i + 1) 0 = ms[i + 1]'(by omega) := by simp [List.getD, List.getElem?_eq_getElem (show i + 1 < ms.length by omega)]
  have hw := words_pos d hd (i + 1) (by omega)
  have v : Valid d ms (i + 1) 0 ((words d (i + 1)).length - 1) := ⟨by omega, by rw [hg]; omega, by omega⟩
  have := place_lt d hd ms hms _ _ _ v
  have h2 := hw.2 (by omega)
  have : (words d (i + 1)).length - 1 ≤ place d ms (i + 1) 0 ((words d (i + 1)).length - 1) := Nat.le_add_left _ _
  omega

theorem trivial_group (d : Nat) (ms : List Nat) (hms : ms.length = groups d) (h : nontrivial ms = false) {s c a : Nat}
    (hv : Valid d ms s c a) : s = 0 := by
  by_contra hs
  unfold nontrivial at h
  rw [List.any_eq_false] at h
  have hl : s < ms.length := by rw [hms]; exact hv.1
  have hg : ms.getD s 0 = ms[s] := by simp [List.getD, List.getElem?_eq_getElem hl]
  have := h (ms.tail[s - 1]'(by rw [List.length_tail]; omega)) (List.getElem_mem _)
  have e : ms.tail[s - 1]'(by rw [List.length_tail]; omega) = ms[s] := by
    rw [List.getElem_tail]
    congr 1
    omega
  rw [e, ← hg] at this
  have := hv.2.1
  simp_all

/-- letters of the group S1 do not depend on the order of the nodes -/
theorem letters_first {N : Type} [DecidableEq N] (g g' : N → Int) (nodes : List N) (h1 : 1 ≤ nodes.length) (h4 : nodes.length ≤ 4)
    (a : Nat) (ha : a < (words (nodes.length - 1) 0).length) :
    letters g nodes ((words (nodes.length - 1) 0).getD a []) = letters g' nodes ((words (nodes.length - 1) 0).getD a []) := by
  have e1 : nodes.length - 1 + 1 = nodes.length := by omega
  rw [words_first _ (by omega), e1] at *
  have : a = 0 := by simpa using ha
  subst this
  funext x
  unfold letters
  by_cases hx : x ∈ nodes
  · rw [if_pos hx, if_pos hx]
    have r1 := rank_lt g nodes x hx
    have r2 := rank_lt g' nodes x hx
    simp [r1, r2]
  · rw [if_neg hx, if_neg hx]

theorem represents_trivial {N K : Type} [DecidableEq N] (g g' : N → Int) (nodes : List N) (h1 : 1 ≤ nodes.length)
    (h4 : nodes.length ≤ 4) (ms : List Nat) (hms : ms.length = groups (nodes.length - 1)) (h : nontrivial ms = false)
    (data : Nat → K) (F : Nat → Nat → (N → Option Nat) → K) (hr : Represents g nodes ms data F) :
    Represents g' nodes ms data F := by
  intro s c a hv
  have := trivial_group _ ms hms h hv
  subst this
  rw [hr 0 c a hv, letters_first g g' nodes h1 h4 a hv.2.2]

end Verif.Reorder
