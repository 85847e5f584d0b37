import Verif.Lemmas.IntervalMapInf

set_option linter.unusedSectionVars false

namespace Verif.IntervalMap

variable {V : Type} [DecidableEq V]

theorem stretchFront_get (s : Int) (l : List (Ent V)) (i : Nat) :
    (stretchFront s l)[i]? = (l[i]?).map fun a => if i = 0 then { a with s := min a.s s } else a := by
  cases l with
  | nil => rfl
  | cons a r => cases i <;> simp [stretchFront]

theorem stretchFront_length (s : Int) (l : List (Ent V)) : (stretchFront s l).length = l.length := by
  cases l <;> rfl

theorem stretchBack_length (e : Int) : ∀ (l : List (Ent V)), (stretchBack e l).length = l.length
  | [] => rfl
  | [_] => rfl
  | a :: b :: r => by
    rw [stretchBack, List.length_cons, stretchBack_length e (b :: r)]; rfl

theorem stretchBack_get (e : Int) : ∀ (l : List (Ent V)) (i : Nat),
    (stretchBack e l)[i]? = (l[i]?).map fun a => if i + 1 = l.length then { a with e := max a.e e } else a
  | [], i => rfl
  | [a], i => by cases i <;> simp [stretchBack]
  | a :: b :: r, 0 => by simp [stretchBack]
  | a :: b :: r, i + 1 => by
    have := stretchBack_get e (b :: r) i
    simp only [stretchBack, List.getElem?_cons_succ]
    rw [this]
    simp

theorem stretched_length (m : Map V) (s e : Int) : (stretched m s e).length = m.list.length := by
  unfold stretched
  cases m.left <;> cases m.right <;> simp [stretchFront_length, stretchBack_length]

theorem stretched_get (m : Map V) (s e : Int) (i : Nat) :
    (stretched m s e)[i]? = (m.list[i]?).map fun a =>
      ⟨if m.left = true ∧ i = 0 then min a.s s else a.s,
       if m.right = true ∧ i + 1 = m.list.length then max a.e e else a.e, a.v⟩ := by
  unfold stretched
  cases m.left <;> cases m.right <;>
    simp only [Bool.false_eq_true, false_and, if_false, if_true, true_and, stretchFront_get, stretchBack_get, stretchFront_length]
  · simp
  · cases m.list[i]? with
    | none => rfl
    | some a => simp only [Option.map_some]; split <;> rfl
  · cases m.list[i]? with
    | none => rfl
    | some a => simp only [Option.map_some]; split <;> rfl
  · cases m.list[i]? with
    | none => rfl
    | some a =>
      simp only [Option.map_some]
      by_cases h1 : i + 1 = m.list.length <;> by_cases h2 : i = 0
      · simp only [if_pos h1, if_pos h2]
      · simp only [if_pos h1, if_neg h2]
      · simp only [if_neg h1, if_pos h2]
      · simp only [if_neg h1, if_neg h2]

theorem ext_stretched (m : Map V) (s e N : Int) :
    ext m.left m.right N (stretched m s e) = ext m.left m.right N m.list := by
  apply List.ext_getElem?
  intro i
  rw [ext_get, ext_get, stretched_get, stretched_length]
  cases m.list[i]? with
  | none => rfl
  | some a =>
    simp only [Option.map_some, ext1]
    by_cases h1 : m.left = true ∧ i = 0 <;> by_cases h2 : m.right = true ∧ i + 1 = m.list.length
    · simp only [if_pos h1, if_pos h2]
    · simp only [if_pos h1, if_neg h2]
    · simp only [if_neg h1, if_pos h2]
    · simp only [if_neg h1, if_neg h2]

/-- facts about a container with the cut-off `N` -/
structure InvN (m : Map V) (N : Int) : Prop where
  canon : Canon (ext m.left m.right N m.list)
  bnd : ∀ a ∈ m.list, -N < a.s ∧ a.s < N ∧ -N < a.e ∧ a.e < N
  ne : m.left = true ∨ m.right = true → m.list ≠ []

theorem stretched_bnd {m : Map V} {N : Int} (h : InvN m N) {s e : Int} (hs : -N < s ∧ s < N) (he : -N < e ∧ e < N) :
    ∀ a ∈ stretched m s e, -N < a.s ∧ a.s < N ∧ -N < a.e ∧ a.e < N := by
  intro a ha
  obtain ⟨i, hi⟩ := List.mem_iff_getElem?.1 ha
  rw [stretched_get] at hi
  cases hm : m.list[i]? with
  | none => rw [hm] at hi; simp at hi
  | some b =>
    rw [hm] at hi
    have := h.bnd b (List.mem_of_getElem? hm)
    simp only [Option.map_some, Option.some.injEq] at hi
    subst hi
    simp only
    split <;> split <;> omega

theorem ext_some {left right : Bool} {N : Int} {l : List (Ent V)} {i : Nat} {a A : Ent V}
    (h1 : l[i]? = some a) (h2 : (ext left right N l)[i]? = some A) : A = ext1 left right N l.length i a := by
  rw [ext_get, h1] at h2; simpa using h2.symm

theorem findIdx_lt {A : Type} (p : A → Bool) (l : List A) (i : Nat) (a : A) (h : l[i]? = some a) (hp : p a = true) :
    l.findIdx p < l.length := by
  apply List.findIdx_lt_length_of_exists
  exact ⟨a, List.mem_of_getElem? h, hp⟩

/-- entries at or behind the upper bound lie strictly behind the key -/
theorem upperEnd_ge {l : List (Ent V)} (h : Canon l) (k : Int) {i : Nat} {a : Ent V} (hi : upperEnd l k ≤ i)
    (ha : l[i]? = some a) : k < a.e := by
  obtain ⟨P, R, rfl, h2, h3, h4⟩ := split_upper h k
  rw [h2] at hi
  rw [List.getElem?_append_right hi] at ha
  exact h4 a (List.mem_of_getElem? ha)

theorem findIdx_true_zero {A : Type} (p : A → Bool) (l : List A) (h : ∀ a, l[0]? = some a → p a = true) :
    l.findIdx p = 0 := by
  cases l with
  | nil => rfl
  | cons a r => rw [List.findIdx_cons, h a (by simp)]; rfl

theorem findIdx_all_false {A : Type} (p : A → Bool) (l : List A) (h : ∀ (i : Nat) a, l[i]? = some a → p a = false) :
    l.findIdx p = l.length := by
  induction l with
  | nil => rfl
  | cons a r ih =>
    rw [List.findIdx_cons, h 0 a (by simp)]
    rw [ih (fun i x hx => h (i+1) x (by simpa using hx))]; rfl

theorem endIdx_ge (l : List (Ent V)) (left : Bool) (i : Nat) (e : Int) :
    (if i ≠ l.length then lowerStart l i e else l.length) ≤ endIdx l left i e := by
  unfold endIdx
  generalize (if i ≠ l.length then lowerStart l i e else l.length) = x
  dsimp only
  by_cases hc : left = true ∧ x = 0 ∧
      (match l.head? with
        | some b => decide (b.s = b.e ∧ b.s = e)
        | none => false) = true
  · exact Nat.le_trans (Nat.le_succ x) (Nat.le_of_eq (if_pos hc).symm)
  · exact Nat.le_of_eq (if_neg hc).symm

theorem endIdx_false (l : List (Ent V)) (i : Nat) (e : Int) :
    endIdx l false i e = if i ≠ l.length then lowerStart l i e else l.length := by
  simp [endIdx]

/-- generic conclusion of a simulation step on containers -/
structure Sim (m : Map V) (N : Int) (r : Map V × Bool) (s' e' : Int) (v : V) : Prop where
  flag : (insertCore ⟨ext m.left m.right N m.list, false, false⟩ s' e' v 0).2 = r.2
  ext : (insertCore ⟨ext m.left m.right N m.list, false, false⟩ s' e' v 0).1 = ext r.1.left r.1.right N r.1.list
  inv : InvN r.1 N

theorem sim_of {m : Map V} {N s e s' e' : Int} {v : V} {bnd : Nat} {left' right' : Bool}
    (h : InvN m N) (hs : -N < s ∧ s < N) (he : -N < e ∧ e < N)
    (hcond : ¬ (e < s ∨ (bnd = 0 ∧ s = e)))
    (H : let r := coreTail (stretched m s e) m.left m.right s e v bnd
      let r' := insertCore ⟨ext m.left m.right N (stretched m s e), false, false⟩ s' e' v 0
      r'.2 = r.2 ∧ (r.2 = true → r'.1 = Verif.IntervalMap.ext left' right' N r.1 ∧ r.1 ≠ [] ∧
        ∀ a ∈ r.1, -N < a.s ∧ a.s < N ∧ -N < a.e ∧ a.e < N) ∧
        (r.2 = false → r.1 = stretched m s e)) :
    Sim m N (⟨(insertCore m s e v bnd).1, if (insertCore m s e v bnd).2 then left' else m.left,
        if (insertCore m s e v bnd).2 then right' else m.right⟩, (insertCore m s e v bnd).2) s' e' v := by
  rw [insertCore_eq m s e v bnd hcond]
  rw [ext_stretched] at H
  obtain ⟨H1, H2, H3⟩ := H
  have hfin := insert_finite h.canon s' e' v
  cases hf : (coreTail (stretched m s e) m.left m.right s e v bnd).2 with
  | true =>
    obtain ⟨K1, K2, K3⟩ := H2 hf
    refine ⟨?_, ?_, ?_, ?_, ?_⟩
    · simp only [H1, hf]
    · simp only [if_true, K1]
    · simp only [if_true]
      rw [← K1]; exact hfin.2.2.1
    · exact K3
    · intro _; exact K2
  | false =>
    have K := H3 hf
    have hL : (insertCore ⟨ext m.left m.right N m.list, false, false⟩ s' e' v 0).1 = ext m.left m.right N m.list :=
      hfin.2.1 (by rw [H1, hf])
    refine ⟨?_, ?_, ?_, ?_, ?_⟩
    · simp only [H1, hf]
    · simp only [Bool.false_eq_true, if_false, K, ext_stretched, hL]
    · simp only [Bool.false_eq_true, if_false, K, ext_stretched]; exact h.canon
    · simp only [K]; exact stretched_bnd h hs he
    · simp only [Bool.false_eq_true, if_false, K]
      intro h0 h1
      have := congrArg List.length h1
      rw [stretched_length] at this
      exact h.ne h0 (List.length_eq_zero_iff.1 this)

theorem sim_bounded {m : Map V} {N s e : Int} {v : V} (h : InvN m N) (hs : -N < s ∧ s < N) (he : -N < e ∧ e < N)
    (hse : s < e) : Sim m N (insert m s e v) s e v := by
  have hcond : ¬ (e < s ∨ ((0 : Nat) = 0 ∧ s = e)) := by omega
  have key := sim_of (m := m) (N := N) (s := s) (e := e) (s' := s) (e' := e) (v := v) (bnd := 0)
    (left' := m.left) (right' := m.right) h hs he hcond ?_
  · have e1 : insert m s e v = (⟨(insertCore m s e v 0).1, if (insertCore m s e v 0).2 then m.left else m.left,
        if (insertCore m s e v 0).2 then m.right else m.right⟩, (insertCore m s e v 0).2) := by
      simp [insert]
    rw [e1]; exact key
  have hF : m.left = true → ∀ a, (stretched m s e)[0]? = some a → a.s ≤ s := by
    intro hl a ha
    rw [stretched_get] at ha
    cases hm : m.list[0]? with
    | none => rw [hm] at ha; simp at ha
    | some b => rw [hm] at ha; simp [hl] at ha; rw [← ha]; simp only; omega
  have hBk : m.right = true → ∀ (i : Nat) a, i + 1 = (stretched m s e).length → (stretched m s e)[i]? = some a → e ≤ a.e := by
    intro hl i a hi ha
    rw [stretched_get] at ha
    rw [stretched_length] at hi
    cases hm : m.list[i]? with
    | none => rw [hm] at ha; simp at ha
    | some b => rw [hm] at ha; simp [hl, hi] at ha; rw [← ha]; simp only; omega
  have hne : m.left = true ∨ m.right = true → (stretched m s e).length ≠ 0 := by
    intro h0 h1; rw [stretched_length] at h1
    exact h.ne h0 (List.length_eq_zero_iff.1 h1)
  have hbnd := stretched_bnd h hs he
  have hcan : Canon (ext m.left m.right N (stretched m s e)) := by rw [ext_stretched]; exact h.canon
  generalize hlL : stretched m s e = l at *
  have hup : upperEnd l s = upperEnd (ext m.left m.right N l) s := by
    apply findIdx_congr
    · rw [ext_length]
    · intro i a A h1 h2
      rw [ext_some h1 h2]
      simp only [ext1]
      split
      · rename_i hc
        have := hBk hc.1 i a hc.2 h1
        rw [decide_eq_decide]
        constructor <;> intro <;> omega
      · rfl
  have hlt : m.right = true → upperEnd l s < l.length := by
    intro hr
    have hn := hne (Or.inr hr)
    have h1 : l.length - 1 < l.length := by omega
    have h2 := List.getElem?_eq_getElem h1
    have := hBk hr (l.length - 1) _ (by omega) h2
    exact findIdx_lt _ l _ _ h2 (by simp; omega)
  have h1 : startIdx l m.right s e 0 = upperEnd (ext m.left m.right N l) s := by
    rw [← hup]
    unfold startIdx
    have c1 : ¬ ((0:Nat) = 1 ∧ s = e ∧ upperEnd l s ≠ 0 ∧ (l[upperEnd l s - 1]?).map (·.e) = some s) := by omega
    simp only [c1, if_false]
    refine if_neg ?_
    rintro ⟨c2, c3, _⟩
    have := hlt c2
    omega
  have h2 : endIdx l m.left (upperEnd (ext m.left m.right N l) s) e =
      endIdx (ext m.left m.right N l) false (upperEnd (ext m.left m.right N l) s) e := by
    unfold endIdx
    rw [ext_length]
    simp only [Bool.false_eq_true, false_and, if_false]
    refine (if_neg ?_).trans ?_
    · rintro ⟨c1, _, c3⟩
      rw [List.head?_eq_getElem?] at c3
      cases h0 : l[0]? with
      | none => rw [h0] at c3; simp at c3
      | some b => rw [h0] at c3; have := hF c1 b h0; simp at c3; omega
    split
    · unfold lowerStart
      congr 1
      apply findIdx_congr
      · simp [ext_length]
      · intro i a A g1 g2
        rw [List.getElem?_drop] at g1 g2
        rw [ext_some g1 g2]
        simp only [ext1]
        split
        · rename_i hc
          rw [hc.2] at g1
          have := hF hc.1 a g1
          rw [decide_eq_decide]
          constructor <;> intro <;> omega
        · rfl
    · rfl
  have h3 : stepBack l (upperEnd (ext m.left m.right N l) s) s v =
      stepBack (ext m.left m.right N l) (upperEnd (ext m.left m.right N l) s) s v := by
    unfold stepBack
    split
    · rw [ext_get]
      cases hg : l[upperEnd (ext m.left m.right N l) s - 1]? with
      | none => rfl
      | some a =>
        have hneg : ¬ (m.right = true ∧ upperEnd (ext m.left m.right N l) s - 1 + 1 = l.length) := by
          rintro ⟨hr, h5⟩
          have := hlt hr
          rw [hup] at this
          omega
        simp only [Option.map_some, ext1, if_neg hneg]
    · rfl
  have hen0 : m.left = true → 0 < endIdx (ext m.left m.right N l) false (upperEnd (ext m.left m.right N l) s) e := by
    intro hl
    rw [← h2]
    have hn := hne (Or.inl hl)
    refine Nat.lt_of_lt_of_le ?_ (endIdx_ge l m.left _ e)
    split
    · unfold lowerStart
      by_cases h0 : upperEnd (ext m.left m.right N l) s = 0
      · rw [h0]
        have h1 : 0 < l.length := by omega
        have g := List.getElem?_eq_getElem h1
        have := hF hl _ g
        cases l with
        | nil => simp at h1
        | cons a r =>
          simp only [List.getElem_cons_zero] at this
          simp only [List.drop_zero, List.findIdx_cons]
          have : decide (¬ a.s < e) = false := by simp; omega
          rw [this]; simp
      · omega
    · omega
  have h4 : stepFwd l (endIdx (ext m.left m.right N l) false (upperEnd (ext m.left m.right N l) s) e) e v =
      stepFwd (ext m.left m.right N l) (endIdx (ext m.left m.right N l) false (upperEnd (ext m.left m.right N l) s) e) e v := by
    generalize hj : endIdx (ext m.left m.right N l) false (upperEnd (ext m.left m.right N l) s) e = j at *
    unfold stepFwd
    rw [ext_get]
    cases hg : l[j]? with
    | none => rfl
    | some a =>
      have hneg : ¬ (m.left = true ∧ j = 0) := by
        rintro ⟨hr, h5⟩
        have := hen0 hr
        omega
      simp only [Option.map_some, ext1, if_neg hneg]
  exact core_sim hcan hse hbnd hs he (by omega) (by omega) h1 h2 h3 h4 id id (fun _ => rfl) (fun _ => rfl)
    (fun h1 h2 => by simp [h1] at h2) (fun h1 h2 => by simp [h1] at h2) (fun _ => rfl) (fun _ => rfl)
    (fun h => absurd rfl h) (fun hr => by rw [← hup]; exact hlt hr) hen0

end Verif.IntervalMap
