import Verif.Lemmas.IntervalMapInf2

set_option linter.unusedSectionVars false

namespace Verif.IntervalMap

variable {V : Type} [DecidableEq V]

theorem ext_noright_e {left : Bool} {N : Int} {l : List (Ent V)} {i : Nat} {a A : Ent V}
    (h1 : l[i]? = some a) (h2 : (ext left false N l)[i]? = some A) : A.e = a.e := by
  rw [ext_some h1 h2]; simp [ext1]

theorem ext_noleft_s {right : Bool} {N : Int} {l : List (Ent V)} {i : Nat} {a A : Ent V}
    (h1 : l[i]? = some a) (h2 : (ext false right N l)[i]? = some A) : A.s = a.s := by
  rw [ext_some h1 h2]; simp [ext1]

theorem ext_get_some {left right : Bool} {N : Int} {l : List (Ent V)} {i : Nat} {a : Ent V}
    (h1 : l[i]? = some a) : (ext left right N l)[i]? = some (ext1 left right N l.length i a) := by
  rw [ext_get, h1]; rfl

/-- ends are increasing along a canonical list -/
theorem canon_le {l : List (Ent V)} (h : Canon l) {i j : Nat} {a b : Ent V} (ha : l[i]? = some a) (hb : l[j]? = some b)
    (hij : i ≤ j) : a.e ≤ b.e := by
  rcases Nat.lt_or_ge i j with hlt | hge
  · obtain ⟨hi, rfl⟩ := List.getElem?_eq_some_iff.1 ha
    obtain ⟨hj, rfl⟩ := List.getElem?_eq_some_iff.1 hb
    have := (List.pairwise_iff_getElem.1 h.rel i j hi hj hlt).1
    have := h.pos l[j] (List.getElem_mem hj)
    omega
  · have : i = j := by omega
    subst this
    rw [ha] at hb; simp at hb; subst hb; omega

theorem canon_lt {l : List (Ent V)} (h : Canon l) {i j : Nat} {a b : Ent V} (ha : l[i]? = some a) (hb : l[j]? = some b)
    (hij : i < j) : a.e ≤ b.s := by
  obtain ⟨hi, rfl⟩ := List.getElem?_eq_some_iff.1 ha
  obtain ⟨hj, rfl⟩ := List.getElem?_eq_some_iff.1 hb
  exact (List.pairwise_iff_getElem.1 h.rel i j hi hj hij).1

/-- the end used by `insert(start, Inf, …)` -/
def rightEnd (m : Map V) (s : Int) : Int :=
  match m.list.getLast? with
    | some b => if s < b.e then b.e else s
    | none => s

/-- the start used by `insert(Inf, end, …)` -/
def leftStart (m : Map V) (e : Int) : Int :=
  match m.list.head? with
    | some b => if b.s < e then b.s else e
    | none => e

theorem lowerStart_all {l : List (Ent V)} {i : Nat} {e : Int} (h : ∀ (j : Nat) a, i ≤ j → l[j]? = some a → a.s < e)
    (hi : i ≤ l.length) : lowerStart l i e = l.length := by
  unfold lowerStart
  rw [findIdx_all_false]
  · simp; omega
  · intro j a hj
    rw [List.getElem?_drop] at hj
    have := h (i + j) a (by omega) hj
    simp; omega

theorem upperEnd_le (l : List (Ent V)) (k : Int) : upperEnd l k ≤ l.length := List.findIdx_le_length

theorem sim_right {m : Map V} {N s : Int} {v : V} (h : InvN m N) (hs : -N < s ∧ s < N) (hr : m.right = false) :
    Sim m N (insertRight m s v) s N v := by
  have hlast : ∀ b, m.list.getLast? = some b → b ∈ m.list := fun b hb => List.mem_of_getLast? hb
  have hse : s ≤ rightEnd m s := by
    unfold rightEnd; cases m.list.getLast? with
    | none => simp
    | some b => simp only; split <;> omega
  have he : -N < rightEnd m s ∧ rightEnd m s < N := by
    unfold rightEnd
    cases hg : m.list.getLast? with
    | none => exact hs
    | some b => have := h.bnd b (hlast b hg); simp only; split <;> omega
  have hle : ∀ b, m.list.getLast? = some b → b.e ≤ rightEnd m s := by
    intro b hb; unfold rightEnd; rw [hb]; simp only; split <;> omega
  generalize hE : rightEnd m s = e at *
  have hcond : ¬ (e < s ∨ ((2 : Nat) = 0 ∧ s = e)) := by omega
  have key := sim_of (m := m) (N := N) (s := s) (e := e) (s' := s) (e' := N) (v := v) (bnd := 2)
    (left' := m.left) (right' := true) h hs he hcond ?_
  · have e1 : insertRight m s v = (⟨(insertCore m s e v 2).1, if (insertCore m s e v 2).2 then m.left else m.left,
        if (insertCore m s e v 2).2 then true else m.right⟩, (insertCore m s e v 2).2) := by
      rw [← hE]
      unfold insertRight
      show (_, (insertCore m s (rightEnd m s) v 2).2) = _
      simp only [Prod.mk.injEq, and_true, Map.mk.injEq]
      refine ⟨rfl, by simp, ?_⟩
      show (m.right || (insertCore m s (rightEnd m s) v 2).2) = _
      rw [hr]
      cases (insertCore m s (rightEnd m s) v 2).2 <;> rfl
    rw [e1]; exact key
  have hF : m.left = true → ∀ a, (stretched m s e)[0]? = some a → a.s ≤ s := by
    intro hl a ha
    rw [stretched_get] at ha
    cases hm : m.list[0]? with
    | none => rw [hm] at ha; simp at ha
    | some b => rw [hm] at ha; simp [hl] at ha; rw [← ha]; simp only; omega
  have hle' : ∀ a, (stretched m s e)[(stretched m s e).length - 1]? = some a → a.e ≤ e := by
    intro a ha
    rw [stretched_get, stretched_length, ← List.getLast?_eq_getElem?] at ha
    cases hm : m.list.getLast? with
    | none => rw [hm] at ha; simp at ha
    | some b => rw [hm] at ha; have := hle b hm; simp [hr] at ha; rw [← ha]; exact this
  have hne : m.left = true ∨ m.right = true → (stretched m s e).length ≠ 0 := by
    intro h0 h1; rw [stretched_length] at h1
    exact h.ne h0 (List.length_eq_zero_iff.1 h1)
  have hbnd := stretched_bnd h hs he
  have hcan : Canon (ext m.left m.right N (stretched m s e)) := by rw [ext_stretched]; exact h.canon
  generalize hlL : stretched m s e = l at *
  rw [hr] at hcan hne ⊢
  have hup : upperEnd l s = upperEnd (ext m.left false N l) s := by
    apply findIdx_congr
    · rw [ext_length]
    · intro i a A h1 h2
      rw [ext_noright_e h1 h2]
  have h1 : startIdx l false s e 2 = upperEnd (ext m.left false N l) s := by
    rw [← hup]
    simp [startIdx]
  have hj' : endIdx (ext m.left false N l) false (upperEnd (ext m.left false N l) s) N = l.length := by
    rw [endIdx_false]
    split
    · rw [lowerStart_all, ext_length]
      · intro j A _ hA
        have hj : j < l.length := by
          have := (List.getElem?_eq_some_iff.1 hA).1; rw [ext_length] at this; exact this
        have h5 := List.getElem?_eq_getElem hj
        have := hbnd _ (List.getElem_mem hj)
        rw [ext_some h5 hA]
        simp only [ext1]; split <;> omega
      · exact upperEnd_le _ _
    · rw [ext_length]
  have hj : endIdx l m.left (upperEnd (ext m.left false N l) s) e = l.length := by
    have hx : (if upperEnd (ext m.left false N l) s ≠ l.length then lowerStart l (upperEnd (ext m.left false N l) s) e else l.length) = l.length := by
      split
      · rw [lowerStart_all]
        · intro j a hj ha
          have hA := ext_get_some (left := m.left) (right := false) (N := N) ha
          have h6 := upperEnd_ge hcan s hj hA
          rw [ext_noright_e ha hA] at h6
          have hjl : j < l.length := (List.getElem?_eq_some_iff.1 ha).1
          have hlst : l.length - 1 < l.length := by omega
          have hb := List.getElem?_eq_getElem hlst
          have hB := ext_get_some (left := m.left) (right := false) (N := N) hb
          have h7 := canon_le hcan hA hB (by omega)
          rw [ext_noright_e ha hA, ext_noright_e hb hB] at h7
          have h8 := hle' _ hb
          by_cases hc : m.left = true ∧ j = 0
          · rw [hc.2] at ha
            have := hF hc.1 a ha; omega
          · have := hcan.pos _ (List.mem_of_getElem? hA)
            simp only [ext1, if_neg hc] at this
            simp at this
            omega
        · rw [← hup]; exact upperEnd_le _ _
      · rfl
    have : endIdx l m.left (upperEnd (ext m.left false N l) s) e =
        (if upperEnd (ext m.left false N l) s ≠ l.length then lowerStart l (upperEnd (ext m.left false N l) s) e else l.length) := by
      unfold endIdx
      refine if_neg ?_
      rintro ⟨c1, c2, _⟩
      exact hne (Or.inl c1) (by rw [← hx]; exact c2)
    rw [this, hx]
  have h3 : stepBack l (upperEnd (ext m.left false N l) s) s v =
      stepBack (ext m.left false N l) (upperEnd (ext m.left false N l) s) s v := by
    unfold stepBack
    split
    · rw [ext_get]
      cases hg : l[upperEnd (ext m.left false N l) s - 1]? with
      | none => rfl
      | some a => simp [ext1]
    · rfl
  refine core_sim hcan (by omega) hbnd hs he (by omega) (by omega) h1 (by rw [hj, hj']) h3 ?_ id (fun h => by simp) (fun _ => rfl)
    (fun h => by simp at h) (fun h1 h2 => by simp [h1] at h2) (fun _ _ => rfl) (fun _ => rfl) (fun h => by simp at h)
    (fun _ => hj') (fun h => by simp at h) (fun hl => ?_)
  · rw [hj']
    unfold stepFwd
    rw [List.getElem?_eq_none (Nat.le_refl _), List.getElem?_eq_none (by rw [ext_length]; exact Nat.le_refl _)]
  · rw [hj']; have := hne (Or.inl hl); omega

theorem sim_left {m : Map V} {N e : Int} {v : V} (h : InvN m N) (he : -N < e ∧ e < N) (hlft : m.left = false) :
    Sim m N (insertLeft m e v) (-N) e v := by
  have hfirst : ∀ b, m.list.head? = some b → b ∈ m.list := fun b hb => List.mem_of_mem_head? (by rw [hb]; rfl)
  have hse : leftStart m e ≤ e := by
    unfold leftStart; cases m.list.head? with
    | none => simp
    | some b => simp only; split <;> omega
  have hs : -N < leftStart m e ∧ leftStart m e < N := by
    unfold leftStart
    cases hg : m.list.head? with
    | none => exact he
    | some b => have := h.bnd b (hfirst b hg); simp only; split <;> omega
  have hle : ∀ b, m.list.head? = some b → leftStart m e ≤ b.s := by
    intro b hb; unfold leftStart; rw [hb]; simp only; split <;> omega
  generalize hE : leftStart m e = s at *
  have hcond : ¬ (e < s ∨ ((1 : Nat) = 0 ∧ s = e)) := by omega
  have key := sim_of (m := m) (N := N) (s := s) (e := e) (s' := -N) (e' := e) (v := v) (bnd := 1)
    (left' := true) (right' := m.right) h hs he hcond ?_
  · have e1 : insertLeft m e v = (⟨(insertCore m s e v 1).1, if (insertCore m s e v 1).2 then true else m.left,
        if (insertCore m s e v 1).2 then m.right else m.right⟩, (insertCore m s e v 1).2) := by
      rw [← hE]
      unfold insertLeft
      show (_, (insertCore m (leftStart m e) e v 1).2) = _
      simp only [Prod.mk.injEq, and_true, Map.mk.injEq]
      refine ⟨rfl, ?_, by simp⟩
      show (m.left || (insertCore m (leftStart m e) e v 1).2) = _
      rw [hlft]
      cases (insertCore m (leftStart m e) e v 1).2 <;> rfl
    rw [e1]; exact key
  have hle' : ∀ a, (stretched m s e)[0]? = some a → s ≤ a.s := by
    intro a ha
    rw [stretched_get] at ha
    cases hm : m.list[0]? with
    | none => rw [hm] at ha; simp at ha
    | some b =>
      rw [hm] at ha; have := hle b (by rw [List.head?_eq_getElem?]; exact hm); simp [hlft] at ha; rw [← ha]; exact this
  have hBk : m.right = true → ∀ (i : Nat) a, i + 1 = (stretched m s e).length → (stretched m s e)[i]? = some a → e ≤ a.e := by
    intro hl i a hi ha
    rw [stretched_get] at ha
    rw [stretched_length] at hi
    cases hm : m.list[i]? with
    | none => rw [hm] at ha; simp at ha
    | some b => rw [hm] at ha; simp [hl, hi] at ha; rw [← ha]; simp only; omega
  have hne : m.left = true ∨ m.right = true → (stretched m s e).length ≠ 0 := by
    intro h0 h1; rw [stretched_length] at h1
    exact h.ne h0 (List.length_eq_zero_iff.1 h1)
  have hbnd := stretched_bnd h hs he
  have hcan : Canon (ext m.left m.right N (stretched m s e)) := by rw [ext_stretched]; exact h.canon
  generalize hlL : stretched m s e = l at *
  rw [hlft] at hcan hne ⊢
  have hup' : upperEnd (ext false m.right N l) (-N) = 0 := by
    apply findIdx_true_zero
    intro A hA
    have := hcan.pos A (List.mem_of_getElem? hA)
    have hj : 0 < l.length := by
      have := (List.getElem?_eq_some_iff.1 hA).1; rw [ext_length] at this; exact this
    have h5 := List.getElem?_eq_getElem hj
    have h6 := hbnd _ (List.getElem_mem hj)
    rw [ext_noleft_s h5 hA] at this
    simp; omega
  have h1 : startIdx l m.right s e 1 = 0 := by
    have hin : (if (1:Nat) = 1 ∧ s = e ∧ upperEnd l s ≠ 0 ∧ (l[upperEnd l s - 1]?).map (·.e) = some s then upperEnd l s - 1 else upperEnd l s) = 0 := by
      cases l with
      | nil => simp [upperEnd]
      | cons a r =>
        by_cases hsa : s < a.e
        · have : upperEnd (a :: r) s = 0 := by
            apply findIdx_true_zero
            intro x hx; simp at hx; subst hx; simpa using hsa
          rw [this]; simp
        · have hA := ext_get_some (left := false) (right := m.right) (N := N) (l := a :: r) (i := 0) (a := a) (by simp)
          have hp := hcan.pos _ (List.mem_of_getElem? hA)
          have hsa' := hle' a (by simp)
          by_cases hc : m.right = true ∧ 0 + 1 = (a :: r).length
          · have hr0 : r = [] := List.length_eq_zero_iff.1 (by have := hc.2; simp only [List.length_cons] at this; omega)
            subst hr0
            have := hBk hc.1 0 a (by simp) (by simp)
            have hu : upperEnd [a] s = 1 := by
              simp [upperEnd, List.findIdx_cons, hsa]
            rw [hu]
            have h7 : s = e := by omega
            have h8 : a.e = s := by omega
            simp [h7]
            omega
          · simp only [ext1, if_neg hc] at hp
            simp at hp
            omega
    unfold startIdx
    refine (if_neg ?_).trans hin
    rintro ⟨c1, c2, _⟩
    exact hne (Or.inr c1) (c2.symm.trans hin)
  have h2 : endIdx l false 0 e = endIdx (ext false m.right N l) false 0 e := by
    rw [endIdx_false, endIdx_false, ext_length]
    split
    · unfold lowerStart
      congr 1
      apply findIdx_congr
      · simp [ext_length]
      · intro i a A g1 g2
        rw [List.getElem?_drop] at g1 g2
        rw [ext_noleft_s g1 g2]
    · rfl
  refine core_sim hcan (by omega) hbnd hs he (by omega) (by omega) (by rw [h1, hup']) (by rw [hup', h2]) (by rw [hup']; rfl) ?_
    (fun h => by simp) id (fun h => by simp at h)
    (fun _ => rfl) (fun _ _ => ⟨rfl, hup'⟩) (fun h1 h2 => by simp [h1] at h2) (fun h => by simp at h) (fun _ => rfl)
    (fun h => absurd rfl h) (fun hr => by rw [hup']; have := hne (Or.inr hr); omega) (fun h => by simp at h)
  unfold stepFwd
  rw [ext_get]
  cases hg : l[endIdx (ext false m.right N l) false (upperEnd (ext false m.right N l) (-N)) e]? with
  | none => rfl
  | some a => simp [ext1]

/-- Look-up agrees with the cut-off list, unless the map is a single entry covering the whole line. -/
theorem get_ext {m : Map V} {N : Int} (h : InvN m N) {k : Int} (hk : -N ≤ k ∧ k < N)
    (hfull : ¬ (m.left = true ∧ m.right = true ∧ m.list.length = 1)) :
    get m k = get ⟨ext m.left m.right N m.list, false, false⟩ k := by
  have hR : ∀ L : List (Ent V), get ⟨L, false, false⟩ k =
      match L[upperEnd L k]? with
      | some a => if ¬ k < a.s then some a.v else none
      | none => none := by
    intro L
    unfold get find
    cases hl : L.getLast? with
    | none => have := List.getLast?_eq_none_iff.1 hl; subst this; simp
    | some b =>
      simp only [Bool.false_eq_true, false_and, if_false, List.take_length, false_or]
      cases L[upperEnd L k]? with
      | none => rfl
      | some a => simp only; split <;> rfl
  rw [hR]
  unfold get find
  cases hl : m.list.getLast? with
  | none =>
    have := List.getLast?_eq_none_iff.1 hl
    simp [this, ext]
  | some b =>
    have hlen : 0 < m.list.length := List.length_pos_of_mem (List.mem_of_getLast? hl)
    have hbi : m.list[m.list.length - 1]? = some b := by rw [← List.getLast?_eq_getElem?]; exact hl
    have hB := ext_get_some (left := m.left) (right := m.right) (N := N) hbi
    have hcan := h.canon
    simp only
    by_cases hc : m.right = true ∧ ¬ k < b.s
    · rw [if_pos hc]
      have hBe : (ext1 m.left m.right N m.list.length (m.list.length - 1) b).e = N := by
        simp only [ext1]; rw [if_pos ⟨hc.1, by omega⟩]
      have hBs : (ext1 m.left m.right N m.list.length (m.list.length - 1) b).s ≤ k := by
        simp only [ext1]; split <;> omega
      have hu : upperEnd (ext m.left m.right N m.list) k = m.list.length - 1 := by
        have h1 := findIdx_lt (fun b => decide (k < b.e)) _ _ _ hB (by rw [hBe]; simp; omega)
        have h1' : upperEnd (ext m.left m.right N m.list) k < m.list.length := by rw [← ext_length m.left m.right N]; exact h1
        rcases Nat.lt_or_ge (upperEnd (ext m.left m.right N m.list) k) (m.list.length - 1) with hlt | hge
        · exfalso
          have hA := List.getElem?_eq_getElem (l := ext m.left m.right N m.list) h1
          have h2 := upperEnd_ge hcan k (Nat.le_refl _) hA
          have h3 := canon_lt hcan hA hB hlt
          omega
        · omega
      rw [hu, hB]
      simp only
      rw [if_pos (by omega)]
      rfl
    · rw [if_neg hc]
      cases hr : m.right with
      | false =>
        simp only [Bool.false_eq_true, if_false, List.take_length]
        have hup : upperEnd m.list k = upperEnd (ext m.left false N m.list) k := by
          apply findIdx_congr
          · rw [ext_length]
          · intro i a A h1 h2
            rw [ext_noright_e h1 h2]
        rw [← hup, ext_get]
        cases m.list[upperEnd m.list k]? with
        | none => rfl
        | some a =>
          simp only [Option.map_some, ext1]
          by_cases h0 : m.left = true ∧ upperEnd m.list k = 0
          · rw [if_pos (Or.inl h0), if_pos h0, if_pos (by omega)]; rfl
          · rw [if_neg h0]
            by_cases h3 : k < a.s <;> simp [h3, h0]
      | true =>
        simp only [if_true]
        have hkb : k < b.s := by
          have : ¬ ¬ k < b.s := fun h => hc ⟨hr, h⟩
          omega
        have hX : ∀ i, i < m.list.length - 1 → (m.list.take (m.list.length - 1))[i]? = m.list[i]? := by
          intro i hi
          rw [List.getElem?_take]; simp [hi]
        have htl : (m.list.take (m.list.length - 1)).length = m.list.length - 1 := by simp
        have hE : ∀ (i : Nat) a, i < m.list.length - 1 → m.list[i]? = some a →
            (ext m.left true N m.list)[i]? = some ⟨if m.left = true ∧ i = 0 then -N else a.s, a.e, a.v⟩ := by
          intro i a hi ha
          rw [ext_get, ha]
          simp only [Option.map_some, ext1]
          rw [if_neg (by omega : ¬ (True ∧ i + 1 = m.list.length))]
        rw [hr] at hB hcan
        have hBs : m.list.length = 1 → m.left = false := by
          intro h1
          cases hlf : m.left with
          | false => rfl
          | true => exact absurd ⟨hlf, hr, h1⟩ hfull
        have hB' : (ext1 m.left true N m.list.length (m.list.length - 1) b).s = b.s := by
          simp only [ext1]
          refine if_neg ?_
          rintro ⟨h1, h2⟩
          have := hBs (by omega)
          rw [h1] at this; simp at this
        have hBe : (ext1 m.left true N m.list.length (m.list.length - 1) b).e = N := by
          simp only [ext1]; rw [if_pos ⟨trivial, by omega⟩]
        have hsplit : ext m.left true N m.list = (ext m.left true N m.list).take (m.list.length - 1) ++
            [ext1 m.left true N m.list.length (m.list.length - 1) b] := by
          apply List.ext_getElem?
          intro i
          rcases Nat.lt_trichotomy i (m.list.length - 1) with hi | hi | hi
          · rw [List.getElem?_append_left (by simp [ext_length]; omega), List.getElem?_take]
            simp [hi]
          · rw [List.getElem?_append_right (by simp [ext_length]; omega)]
            rw [hi, hB]
            simp [ext_length]
          · rw [List.getElem?_eq_none (by rw [ext_length]; omega), List.getElem?_eq_none (by simp [ext_length]; omega)]
        have hupX : upperEnd (m.list.take (m.list.length - 1)) k =
            upperEnd ((ext m.left true N m.list).take (m.list.length - 1)) k := by
          apply findIdx_congr
          · simp [ext_length]
          · intro i a A h1 h2
            have hi : i < m.list.length - 1 := by
              have := (List.getElem?_eq_some_iff.1 h1).1; omega
            rw [hX i hi] at h1
            rw [List.getElem?_take, if_pos hi, hE i a hi h1] at h2
            simp at h2
            rw [← h2]
        have hupL : upperEnd (ext m.left true N m.list) k = upperEnd (m.list.take (m.list.length - 1)) k := by
          rw [hupX]
          have : ∀ (X : List (Ent V)) (y : Ent V), k < y.e → upperEnd (X ++ [y]) k = upperEnd X k := by
            intro X y hy
            unfold upperEnd
            rw [List.findIdx_append]
            split
            · rfl
            · rename_i hge
              have := List.findIdx_le_length (p := fun b : Ent V => decide (k < b.e)) (xs := X)
              simp [List.findIdx_cons, hy]
              omega
          have h9 := this ((ext m.left true N m.list).take (m.list.length - 1)) (ext1 m.left true N m.list.length (m.list.length - 1) b) (by rw [hBe]; omega)
          rw [← hsplit] at h9
          exact h9
        rw [hupL]
        generalize hi : upperEnd (m.list.take (m.list.length - 1)) k = i
        have hile : i ≤ m.list.length - 1 := by
          have := upperEnd_le (m.list.take (m.list.length - 1)) k
          omega
        rcases Nat.lt_or_ge i (m.list.length - 1) with hlt | hge
        · rw [hX i hlt]
          have g := List.getElem?_eq_getElem (l := m.list) (i := i) (by omega)
          rw [hE i _ hlt g, g]
          simp only
          by_cases h0 : m.left = true ∧ i = 0
          · rw [if_pos (Or.inl h0), if_pos h0, if_pos (by omega)]; rfl
          · rw [if_neg h0]
            by_cases h3 : k < m.list[i].s <;> simp [h3, h0]
        · have hieq : i = m.list.length - 1 := by omega
          rw [List.getElem?_eq_none (by omega), hieq, hB]
          simp only
          rw [hB', if_neg (by omega)]
          rfl

end Verif.IntervalMap
