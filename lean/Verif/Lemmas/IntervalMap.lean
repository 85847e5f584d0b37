import Verif.Model.IntervalMap
import Verif.Spec.IntervalMap

set_option linter.unusedSectionVars false

namespace Verif.IntervalMap

variable {V : Type} [DecidableEq V]

/-- sorted, disjoint, and never touching with equal values -/
def Rel (a b : Ent V) : Prop := a.e ≤ b.s ∧ (a.e = b.s → a.v ≠ b.v)

/-- canonical finite representation -/
structure Canon (l : List (Ent V)) : Prop where
  rel : l.Pairwise Rel
  pos : ∀ a ∈ l, a.s < a.e

/-- entry covers key -/
def Ent.cov (a : Ent V) (k : Int) : Prop := a.s ≤ k ∧ k < a.e

theorem split_upper {l : List (Ent V)} (h : Canon l) (k : Int) :
    ∃ P R, l = P ++ R ∧ upperEnd l k = P.length ∧ (∀ a ∈ P, a.e ≤ k) ∧ (∀ a ∈ R, k < a.e) := by
  induction l with
  | nil => exact ⟨[], [], rfl, rfl, by simp, by simp⟩
  | cons a t ih =>
    have ht : Canon t := ⟨(List.pairwise_cons.1 h.rel).2, fun x hx => h.pos x (by simp [hx])⟩
    have ha : ∀ x ∈ t, a.e ≤ x.s := fun x hx => ((List.pairwise_cons.1 h.rel).1 x hx).1
    by_cases hk : k < a.e
    · refine ⟨[], a :: t, rfl, by simp [upperEnd, List.findIdx_cons, hk], by simp, ?_⟩
      intro x hx
      rcases List.mem_cons.1 hx with rfl | hx
      · exact hk
      · have := ha x hx; have := h.pos x (by simp [hx]); omega
    · obtain ⟨P, R, h1, h2, h3, h4⟩ := ih ht
      refine ⟨a :: P, R, by simp [h1], ?_, ?_, h4⟩
      · simp only [upperEnd, List.findIdx_cons, hk, decide_false, cond_false, List.length_cons]
        rw [← h2]; rfl
      · intro x hx
        rcases List.mem_cons.1 hx with rfl | hx
        · omega
        · exact h3 x hx

theorem split_lower {l : List (Ent V)} (h : Canon l) (e : Int) :
    ∃ M Q, l = M ++ Q ∧ (l.findIdx fun b => decide (¬ b.s < e)) = M.length ∧
      (∀ a ∈ M, a.s < e) ∧ (∀ a ∈ Q, e ≤ a.s) := by
  induction l with
  | nil => exact ⟨[], [], rfl, rfl, by simp, by simp⟩
  | cons a t ih =>
    have ht : Canon t := ⟨(List.pairwise_cons.1 h.rel).2, fun x hx => h.pos x (by simp [hx])⟩
    have ha : ∀ x ∈ t, a.e ≤ x.s := fun x hx => ((List.pairwise_cons.1 h.rel).1 x hx).1
    by_cases hk : a.s < e
    · obtain ⟨P, R, h1, h2, h3, h4⟩ := ih ht
      refine ⟨a :: P, R, by simp [h1], ?_, ?_, h4⟩
      · rw [List.findIdx_cons]
        simp only [hk, not_true_eq_false, decide_false, cond_false, List.length_cons]
        rw [h2]
      · intro x hx
        rcases List.mem_cons.1 hx with rfl | hx
        · omega
        · exact h3 x hx
    · refine ⟨[], a :: t, rfl, by rw [List.findIdx_cons]; simp only [hk, not_false_eq_true, decide_true, cond_true, List.length_nil], by simp, ?_⟩
      intro x hx
      rcases List.mem_cons.1 hx with rfl | hx
      · omega
      · have := ha x hx; have := h.pos a (by simp); omega

theorem Canon.app {P R : List (Ent V)} (h : Canon (P ++ R)) : Canon P ∧ Canon R ∧ ∀ a ∈ P, ∀ b ∈ R, Rel a b := by
  have := List.pairwise_append.1 h.rel
  exact ⟨⟨this.1, fun a ha => h.pos a (by simp [ha])⟩, ⟨this.2.1, fun a ha => h.pos a (by simp [ha])⟩, this.2.2⟩

/-- lookup in a finite canonical list -/
theorem get_finite {l : List (Ent V)} (h : Canon l) (k : Int) (v : V) :
    get ⟨l, false, false⟩ k = some v ↔ ∃ a ∈ l, a.cov k ∧ a.v = v := by
  obtain ⟨P, R, rfl, h2, h3, h4⟩ := split_upper h k
  obtain ⟨hP, hR, hPR⟩ := h.app
  unfold get find
  simp only [Bool.false_eq_true, false_and, if_false, List.take_length, false_or]
  cases hl : (P ++ R).getLast? with
  | none =>
    have : P ++ R = [] := List.getLast?_eq_none_iff.1 hl
    simp only [List.append_eq_nil_iff] at this
    simp [this.1, this.2]
  | some b =>
    simp only [h2]
    cases R with
    | nil =>
      simp only [List.append_nil] at *
      rw [List.getElem?_eq_none (Nat.le_refl _)]
      simp only [Option.map_none, reduceCtorEq, false_iff, not_exists, not_and]
      intro a ha hc
      have := h3 a ha
      unfold Ent.cov at hc; omega
    | cons r R' =>
      have hr := h4 r (by simp)
      simp only [List.getElem?_append_right (Nat.le_refl _), Nat.sub_self, List.getElem?_cons_zero]
      have hR' : ∀ x ∈ R', r.e ≤ x.s := fun x hx => ((List.pairwise_cons.1 hR.rel).1 x hx).1
      constructor
      · intro hh
        by_cases hk : k < r.s
        · simp [hk] at hh
        · simp [hk] at hh
          exact ⟨r, by simp, ⟨by omega, hr⟩, hh⟩
      · rintro ⟨a, ha, hc, hv⟩
        unfold Ent.cov at hc
        rcases List.mem_append.1 ha with ha | ha
        · have := h3 a ha; omega
        · rcases List.mem_cons.1 ha with rfl | ha
          · have : ¬ k < a.s := by omega
            simp [this, hv]
          · have := hR' a ha; omega

theorem get_finite_none {l : List (Ent V)} (h : Canon l) (k : Int) :
    get ⟨l, false, false⟩ k = none ↔ ∀ a ∈ l, ¬ a.cov k := by
  constructor
  · intro hn a ha hc
    have := (get_finite h k a.v).2 ⟨a, ha, hc, rfl⟩
    rw [hn] at this; simp at this
  · intro hh
    cases hg : get ⟨l, false, false⟩ k with
    | none => rfl
    | some v =>
      obtain ⟨a, ha, hc, _⟩ := (get_finite h k v).1 hg
      exact absurd hc (hh a ha)

/-- the merged entry of a block -/
def merged (B : List (Ent V)) (s e : Int) (v : V) : Ent V :=
  match B.head?, B.getLast? with
  | some a, some b => ⟨min a.s s, max b.e e, a.v⟩
  | _, _ => ⟨s, e, v⟩

theorem splice_block (P B Q : List (Ent V)) (s e : Int) (v : V) :
    splice (P ++ B ++ Q) P.length (P.length + B.length) s e v = P ++ [merged B s e v] ++ Q := by
  unfold splice
  cases B with
  | nil => simp [merged]
  | cons b B' =>
    have h0 : ¬ (P.length + (b :: B').length - P.length = 0) := by simp
    simp only [h0, if_false]
    have e1 : (P ++ b :: B' ++ Q)[P.length]? = some b := by
      rw [List.append_assoc, List.getElem?_append_right (Nat.le_refl _)]; simp
    have e2 : (P ++ b :: B' ++ Q)[P.length + (b :: B').length - 1]? = (b :: B').getLast? := by
      have : P.length + (b :: B').length - 1 = P.length + ((b :: B').length - 1) := by simp
      rw [this, List.append_assoc, List.getElem?_append_right (by omega)]
      have : P.length + ((b :: B').length - 1) - P.length = (b :: B').length - 1 := by omega
      rw [this, List.getElem?_append_left (by simp)]
      rw [List.getLast?_eq_getElem?]
    rw [e1, e2]
    cases hl : (b :: B').getLast? with
    | none => simp at hl
    | some c =>
      simp only [merged, List.head?_cons, hl]
      rw [List.append_assoc P, List.take_append_of_le_length (Nat.le_refl _), List.take_length]
      rw [← List.append_assoc P, ← List.length_append, List.drop_left]

/-- Decomposition computed by the code on a finite canonical list, `s < e`. -/
theorem decompose {l : List (Ent V)} (h : Canon l) {s e : Int} (hse : s < e) (v : V) :
    ∃ P0 M0 Q0, l = P0 ++ M0 ++ Q0 ∧ startIdx l false s e 0 = P0.length ∧
      endIdx l false P0.length e = P0.length + M0.length ∧
      (∀ a ∈ P0, a.e ≤ s) ∧ (∀ a ∈ M0, s < a.e ∧ a.s < e) ∧ (∀ a ∈ Q0, e ≤ a.s) ∧
      ∃ P B Q, l = P ++ B ++ Q ∧ stepBack l P0.length s v = P.length ∧
        stepFwd l (P0.length + M0.length) e v = P.length + B.length ∧
        (∀ a ∈ P, a.e ≤ s ∧ (a.e = s → a.v ≠ v)) ∧ (∀ a ∈ Q, e ≤ a.s ∧ (e = a.s → v ≠ a.v)) ∧
        (∀ a ∈ B, s ≤ a.e ∧ a.s ≤ e) ∧ ((∀ a ∈ M0, a.v = v) → ∀ a ∈ B, a.v = v) := by
  obtain ⟨P0, R, rfl, h2, h3, h4⟩ := split_upper h s
  obtain ⟨hP, hR, hPR⟩ := h.app
  obtain ⟨M0, Q0, rfl, h6, h7, h8⟩ := split_lower hR e
  obtain ⟨hM, hQ, hMQ⟩ := hR.app
  refine ⟨P0, M0, Q0, by simp, ?_, ?_, h3, ?_, h8, ?_⟩
  · simp [startIdx, h2]
  · simp only [endIdx, Bool.false_eq_true, false_and, if_false]
    split
    · rw [lowerStart, List.drop_left, h6]
    · rename_i hh
      simp at hh
      simp [hh.1, hh.2]
  · intro a ha; exact ⟨h4 a (by simp [ha]), h7 a ha⟩
  -- the two end blocks
  have hleft : ∃ P A, P0 = P ++ A ∧ stepBack (P0 ++ (M0 ++ Q0)) P0.length s v = P.length ∧
      (∀ a ∈ P, a.e ≤ s ∧ (a.e = s → a.v ≠ v)) ∧ (∀ a ∈ A, a.e = s ∧ a.v = v) := by
    rcases List.eq_nil_or_concat P0 with rfl | ⟨P', a, rfl⟩
    · exact ⟨[], [], rfl, by simp [stepBack], by simp, by simp⟩
    · rw [List.concat_eq_append] at *
      have hla : ((P' ++ [a]) ++ (M0 ++ Q0))[(P' ++ [a]).length - 1]? = some a := by
        simp
      have hpa : ∀ x ∈ P', x.e < s := by
        intro x hx
        have h9 := (List.pairwise_append.1 hP.rel).2.2 x hx a (by simp)
        have := h3 a (by simp); have := h9.1; have := hP.pos a (by simp)
        omega
      by_cases hc : a.e = s ∧ a.v = v
      · refine ⟨P', [a], rfl, ?_, ?_, ?_⟩
        · simp only [stepBack, hla, hc]
          simp
        · intro x hx; have := hpa x hx; exact ⟨by omega, by omega⟩
        · simp [hc]
      · refine ⟨P' ++ [a], [], by simp, ?_, ?_, by simp⟩
        · simp only [stepBack, hla, hc]
          simp
        · intro x hx
          rcases List.mem_append.1 hx with hx | hx
          · have := hpa x hx; exact ⟨by omega, by omega⟩
          · simp only [List.mem_singleton] at hx
            subst hx
            exact ⟨h3 x (by simp), fun h1 h2 => hc ⟨h1, h2⟩⟩
  have hright : ∃ A Q, Q0 = A ++ Q ∧
      stepFwd (P0 ++ (M0 ++ Q0)) (P0.length + M0.length) e v = P0.length + M0.length + A.length ∧
      (∀ a ∈ Q, e ≤ a.s ∧ (e = a.s → v ≠ a.v)) ∧ (∀ a ∈ A, a.s = e ∧ a.v = v) := by
    have hidx : (P0 ++ (M0 ++ Q0))[P0.length + M0.length]? = Q0.head? := by
      rw [← List.append_assoc, ← List.length_append, List.getElem?_append_right (Nat.le_refl _)]
      rw [Nat.sub_self, List.head?_eq_getElem?]
    unfold stepFwd
    rw [hidx]
    cases Q0 with
    | nil => exact ⟨[], [], rfl, by simp, by simp, by simp⟩
    | cons q Q' =>
      have hq : ∀ x ∈ Q', e < x.s := by
        intro x hx
        have h9 := (List.pairwise_cons.1 hQ.rel).1 x hx
        have := h8 q (by simp); have := h9.1; have := hQ.pos q (by simp)
        omega
      simp only [List.head?_cons]
      by_cases hc : q.s = e ∧ q.v = v
      · refine ⟨[q], Q', rfl, ?_, ?_, ?_⟩
        · simp [hc]
        · intro x hx; have := hq x hx; exact ⟨by omega, by omega⟩
        · simp [hc]
      · refine ⟨[], q :: Q', rfl, by simp [hc], ?_, by simp⟩
        intro x hx
        rcases List.mem_cons.1 hx with rfl | hx
        · exact ⟨h8 x (by simp), fun h1 h2 => hc ⟨h1.symm, h2.symm⟩⟩
        · have := hq x hx; exact ⟨by omega, by omega⟩
  obtain ⟨P, A1, e1, e2, e3, e4⟩ := hleft
  obtain ⟨A2, Q, f1, f2, f3, f4⟩ := hright
  refine ⟨P, A1 ++ M0 ++ A2, Q, ?_, e2, ?_, e3, f3, ?_, ?_⟩
  · rw [e1, f1]; simp
  · rw [f2, e1]; simp; omega
  · intro a ha
    simp only [List.mem_append] at ha
    rcases ha with (ha | ha) | ha
    · have := e4 a ha
      have := hP.pos a (by rw [e1]; simp [ha])
      exact ⟨by omega, by omega⟩
    · have := h4 a (by simp [ha]); have := h7 a ha; exact ⟨by omega, by omega⟩
    · have := f4 a ha
      have := hQ.pos a (by rw [f1]; simp [ha])
      exact ⟨by omega, by omega⟩
  · intro hm a ha
    simp only [List.mem_append] at ha
    rcases ha with (ha | ha) | ha
    · exact (e4 a ha).2
    · exact hm a ha
    · exact (f4 a ha).2

/-- keys covered by the merged entry -/
theorem merged_cov {B : List (Ent V)} (h : Canon B) {s e : Int} (hse : s < e) (v : V)
    (hB : ∀ a ∈ B, s ≤ a.e ∧ a.s ≤ e) (k : Int) :
    (merged B s e v).cov k ↔ (s ≤ k ∧ k < e) ∨ ∃ a ∈ B, a.cov k := by
  cases B with
  | nil => simp [merged, Ent.cov]
  | cons b B' =>
    cases hl : (b :: B').getLast? with
    | none => simp at hl
    | some c =>
      have hc : c ∈ b :: B' := List.mem_of_getLast? hl
      have hb := hB b (by simp)
      have hcB := hB c hc
      have hfirst : ∀ x ∈ b :: B', b.s ≤ x.s := by
        intro x hx
        rcases List.mem_cons.1 hx with rfl | hx
        · omega
        · have := ((List.pairwise_cons.1 h.rel).1 x hx).1; have := h.pos b (by simp); omega
      have hlast : ∀ x ∈ b :: B', x.e ≤ c.e := by
        intro x hx
        obtain ⟨ys, hy⟩ := List.getLast?_eq_some_iff.1 hl
        rw [hy] at hx h
        rcases List.mem_append.1 hx with hx | hx
        · have := ((List.pairwise_append.1 h.rel).2.2 x hx c (by simp)).1
          have := h.pos c (by simp); omega
        · simp at hx; subst hx; omega
      simp only [merged, List.head?_cons, hl, Ent.cov]
      constructor
      · rintro ⟨h1, h2⟩
        by_cases hk : s ≤ k ∧ k < e
        · exact Or.inl hk
        · right
          by_cases hks : k < s
          · exact ⟨b, by simp, by omega, by omega⟩
          · exact ⟨c, hc, by omega, by omega⟩
      · rintro (hk | ⟨a, ha, h1, h2⟩)
        · omega
        · have := hfirst a ha; have := hlast a ha; omega

theorem merged_v {B : List (Ent V)} {s e : Int} {v : V} (hB : ∀ a ∈ B, a.v = v) : (merged B s e v).v = v := by
  cases B with
  | nil => rfl
  | cons b B' =>
    cases hl : (b :: B').getLast? with
    | none => simp at hl
    | some c => simp only [merged, List.head?_cons, hl]; exact hB b (by simp)

theorem merged_bounds {B : List (Ent V)} (s e : Int) (v : V) :
    (merged B s e v).s = (match B.head? with | some a => min a.s s | none => s) ∧
    (merged B s e v).e = (match B.getLast? with | some a => max a.e e | none => e) := by
  cases B with
  | nil => exact ⟨rfl, rfl⟩
  | cons b B' =>
    cases hl : (b :: B').getLast? with
    | none => simp at hl
    | some c => simp [merged, hl]

/-- the spliced list is canonical again -/
theorem canon_splice {P B Q : List (Ent V)} (h : Canon (P ++ B ++ Q)) {s e : Int} (hse : s < e) {v : V}
    (hP : ∀ a ∈ P, a.e ≤ s ∧ (a.e = s → a.v ≠ v)) (hQ : ∀ a ∈ Q, e ≤ a.s ∧ (e = a.s → v ≠ a.v))
    (hBv : ∀ a ∈ B, a.v = v) :
    Canon (P ++ [merged B s e v] ++ Q) := by
  have hv := merged_v (s := s) (e := e) hBv
  obtain ⟨hms, hme⟩ := merged_bounds (B := B) s e v
  obtain ⟨h1, hQc, h2⟩ := h.app
  obtain ⟨hPc, hBc, h3⟩ := h1.app
  have hPM : ∀ a ∈ P, Rel a (merged B s e v) := by
    intro a ha
    have h5 := hP a ha
    cases hb : B.head? with
    | none =>
      rw [hb] at hms
      simp only at hms
      refine ⟨by omega, fun h6 => ?_⟩
      rw [hv]; exact h5.2 (by omega)
    | some b =>
      rw [hb] at hms
      simp only at hms
      have hbm : b ∈ B := List.mem_of_mem_head? (by rw [hb]; rfl)
      have h7 := h3 a ha b hbm
      refine ⟨by rw [hms]; have := h7.1; omega, fun h6 => ?_⟩
      rw [hv]
      by_cases h8 : a.e = s
      · exact h5.2 h8
      · have : a.e = b.s := by rw [hms] at h6; have := h7.1; omega
        have := h7.2 this
        rw [hBv b hbm] at this; exact this
  have hMQ : ∀ a ∈ Q, Rel (merged B s e v) a := by
    intro a ha
    have h5 := hQ a ha
    cases hb : B.getLast? with
    | none =>
      rw [hb] at hme
      simp only at hme
      refine ⟨by omega, fun h6 => ?_⟩
      rw [hv]; exact h5.2 (by omega)
    | some b =>
      rw [hb] at hme
      simp only at hme
      have hbm : b ∈ B := List.mem_of_getLast? hb
      have h7 := h2 b (by simp [hbm]) a ha
      refine ⟨by rw [hme]; have := h7.1; omega, fun h6 => ?_⟩
      rw [hv]
      by_cases h8 : e = a.s
      · exact h5.2 h8
      · have : b.e = a.s := by rw [hme] at h6; have := h7.1; omega
        have := h7.2 this
        rw [hBv b hbm] at this; exact this
  have hPQ : ∀ a ∈ P, ∀ b ∈ Q, Rel a b := fun a ha b hb => h2 a (by simp [ha]) b hb
  constructor
  · rw [List.pairwise_append, List.pairwise_append]
    refine ⟨⟨hPc.rel, by simp, ?_⟩, hQc.rel, ?_⟩
    · intro a ha b hb; simp at hb; subst hb; exact hPM a ha
    · intro a ha b hb
      rcases List.mem_append.1 ha with ha | ha
      · exact hPQ a ha b hb
      · simp at ha; subst ha; exact hMQ b hb
  · intro a ha
    simp only [List.mem_append, List.mem_singleton] at ha
    rcases ha with (ha | rfl) | ha
    · exact hPc.pos a ha
    · rw [hms, hme]
      cases B.head? <;> cases B.getLast? <;> simp <;> omega
    · exact hQc.pos a ha

/-- finite insertion, complete description -/
theorem insert_finite {l : List (Ent V)} (h : Canon l) (s e : Int) (v : V) :
    let r := insertCore ⟨l, false, false⟩ s e v 0
    (r.2 = true ↔ s < e ∧ ∀ a ∈ l, (∃ k, s ≤ k ∧ k < e ∧ a.cov k) → a.v = v) ∧
    (r.2 = false → r.1 = l) ∧ Canon r.1 ∧
    (r.2 = true → ∀ k w, (∃ a ∈ r.1, a.cov k ∧ a.v = w) ↔
      if s ≤ k ∧ k < e then w = v else ∃ a ∈ l, a.cov k ∧ a.v = w) := by
  intro r
  by_cases hse : s < e
  · obtain ⟨P0, M0, Q0, e1, e2, e3, e4, e5, e6, P, B, Q, g1, g2, g3, g4, g5, g6, g7⟩ := decompose h hse v
    have hne : ¬ (e < s ∨ ((0 : Nat) = 0 ∧ s = e)) := by omega
    have hdrop : (l.drop P0.length).take (P0.length + M0.length - P0.length) = M0 := by
      rw [e1, List.append_assoc, List.drop_left]; simp
    have hr : r = if (M0.any fun a => decide (a.v ≠ v)) then (l, false)
        else (P ++ [merged B s e v] ++ Q, true) := by
      show insertCore _ s e v 0 = _
      unfold insertCore
      rw [if_neg hne]
      simp only [Bool.false_eq_true, if_false, e2, e3, g2, g3, hdrop]
      split
      · rfl
      · congr 1
        have := splice_block P B Q s e v
        rw [← g1] at this
        exact this
    -- entries overlapping the interval are exactly those of M0
    have hov : ∀ a ∈ l, (∃ k, s ≤ k ∧ k < e ∧ a.cov k) ↔ a ∈ M0 := by
      intro a ha
      have hpos := h.pos a ha
      constructor
      · rintro ⟨k, h1, h2, h3, h4⟩
        rw [e1] at ha
        simp only [List.mem_append] at ha
        rcases ha with (ha | ha) | ha
        · have := e4 a ha; omega
        · exact ha
        · have := e6 a ha; omega
      · intro hm
        have := e5 a hm
        exact ⟨max s a.s, by omega, by omega, by constructor <;> omega⟩
    by_cases hc : (M0.any fun a => decide (a.v ≠ v)) = true
    · have hr' : r = (l, false) := by rw [hr, if_pos hc]
      rw [hr']
      refine ⟨?_, fun _ => rfl, h, by simp⟩
      simp only [Bool.false_eq_true, false_iff, not_and]
      intro _ hall
      obtain ⟨a, ha, hav⟩ := List.any_eq_true.1 hc
      have hal : a ∈ l := by rw [e1]; simp [ha]
      have := hall a hal ((hov a hal).2 ha)
      simp [this] at hav
    · have hr' : r = (P ++ [merged B s e v] ++ Q, true) := by rw [hr, if_neg hc]
      have hM0v : ∀ a ∈ M0, a.v = v := by
        intro a ha
        refine Decidable.byContradiction fun hne => ?_
        exact hc (List.any_eq_true.2 ⟨a, ha, by simp [hne]⟩)
      have hBv := g7 hM0v
      rw [hr']
      rw [g1] at h
      obtain ⟨hPB, hQc, hPBQ⟩ := h.app
      obtain ⟨hPc, hBc, _⟩ := hPB.app
      refine ⟨?_, by simp, canon_splice h hse g4 g5 hBv, ?_⟩
      · simp only [true_iff]
        exact ⟨hse, fun a ha hk => hM0v a ((hov a ha).1 hk)⟩
      · intro _ k w
        have hmc := merged_cov hBc hse v g6 k
        have hmv := merged_v (s := s) (e := e) hBv
        split
        · rename_i hk
          constructor
          · rintro ⟨a, ha, hcov, rfl⟩
            simp only [List.mem_append, List.mem_singleton] at ha
            rcases ha with (ha | rfl) | ha
            · have := (g4 a ha).1; unfold Ent.cov at hcov; omega
            · exact hmv
            · have := (g5 a ha).1; unfold Ent.cov at hcov; omega
          · rintro rfl
            exact ⟨merged B s e w, by simp, hmc.2 (Or.inl hk), hmv⟩
        · rename_i hk
          constructor
          · rintro ⟨a, ha, hcov, rfl⟩
            simp only [List.mem_append, List.mem_singleton] at ha
            rcases ha with (ha | rfl) | ha
            · exact ⟨a, by rw [g1]; simp [ha], hcov, rfl⟩
            · rcases hmc.1 hcov with h1 | ⟨b, hb, hbc⟩
              · exact absurd h1 hk
              · exact ⟨b, by rw [g1]; simp [hb], hbc, by rw [hmv]; exact hBv b hb⟩
            · exact ⟨a, by rw [g1]; simp [ha], hcov, rfl⟩
          · rintro ⟨a, ha, hcov, rfl⟩
            rw [g1] at ha
            simp only [List.mem_append] at ha
            rcases ha with (ha | ha) | ha
            · exact ⟨a, by simp [ha], hcov, rfl⟩
            · exact ⟨merged B s e v, by simp, hmc.2 (Or.inr ⟨a, ha, hcov⟩), by rw [hmv, hBv a ha]⟩
            · exact ⟨a, by simp [ha], hcov, rfl⟩
  · have hne : (e < s ∨ ((0 : Nat) = 0 ∧ s = e)) := by omega
    have hr : r = (l, false) := by show insertCore _ s e v 0 = _; unfold insertCore; rw [if_pos hne]
    rw [hr]
    refine ⟨by simp; omega, fun _ => rfl, h, by simp⟩

end Verif.IntervalMap
