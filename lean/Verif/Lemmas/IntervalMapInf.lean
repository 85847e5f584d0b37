import Verif.Lemmas.IntervalMap

set_option linter.unusedSectionVars false

namespace Verif.IntervalMap

variable {V : Type} [DecidableEq V]

/-- entry `i` of `n` with the infinite ends replaced by `∓N` -/
def ext1 (left right : Bool) (N : Int) (n i : Nat) (a : Ent V) : Ent V :=
  ⟨if left = true ∧ i = 0 then -N else a.s, if right = true ∧ i + 1 = n then N else a.e, a.v⟩

/-- the finite list with the infinite ends cut at `∓N` -/
def ext (left right : Bool) (N : Int) (l : List (Ent V)) : List (Ent V) :=
  l.mapIdx (ext1 left right N l.length)

theorem ext_length (left right : Bool) (N : Int) (l : List (Ent V)) : (ext left right N l).length = l.length := by
  simp [ext]

theorem ext_get (left right : Bool) (N : Int) (l : List (Ent V)) (i : Nat) :
    (ext left right N l)[i]? = (l[i]?).map (ext1 left right N l.length i) := by
  simp [ext]

theorem findIdx_congr {A B : Type} (p : A → Bool) (q : B → Bool) : ∀ (l : List A) (L : List B), l.length = L.length →
    (∀ (i : Nat) a b, l[i]? = some a → L[i]? = some b → p a = q b) → l.findIdx p = L.findIdx q
  | [], [], _, _ => rfl
  | a :: l, b :: L, hlen, h => by
    have h0 := h 0 a b (by simp) (by simp)
    have hr := findIdx_congr p q l L (by simpa using hlen) (fun i x y hx hy => h (i+1) x y (by simpa using hx) (by simpa using hy))
    rw [List.findIdx_cons, List.findIdx_cons, h0, hr]
  | [], _ :: _, h, _ => by simp at h
  | _ :: _, [], h, _ => by simp at h

theorem mapIdx_congr' {A B : Type} (f g : Nat → A → B) : ∀ (l : List A), (∀ i, i < l.length → ∀ a, f i a = g i a) →
    l.mapIdx f = l.mapIdx g
  | l, h => by
    apply List.ext_getElem?
    intro i
    rw [List.getElem?_mapIdx, List.getElem?_mapIdx]
    by_cases hi : i < l.length
    · have : f i = g i := funext (h i hi)
      rw [this]
    · rw [List.getElem?_eq_none (by omega)]; rfl

/-- transfer of the splice between the stored list and its cut-off version -/
theorem splice_transfer {left right left' right' : Bool} {N s e s' e' : Int} {v : V} {P B Q : List (Ent V)}
    (hl : left = true → left' = true) (hr : right = true → right' = true)
    (hs1 : left' = false ∨ P ≠ [] → s' = s) (he1 : right' = false ∨ Q ≠ [] → e' = e)
    (hPl : P ≠ [] → left' = left) (hQr : Q ≠ [] → right' = right)
    (hrB : right = true → B ++ Q ≠ []) (hlB : left = true → P ++ B ≠ [])
    (hs2 : -N ≤ s') (he2 : e' ≤ N) (hs3 : left' = true → left = false → s' = -N) (he3 : right' = true → right = false → e' = N)
    (hBb : ∀ a ∈ B, -N ≤ a.s ∧ a.e ≤ N) :
    ext left' right' N (P ++ [merged B s e v] ++ Q) =
      splice (ext left right N (P ++ B ++ Q)) P.length (P.length + B.length) s' e' v := by
  have hL : ext left right N (P ++ B ++ Q) =
      P.mapIdx (ext1 left right N (P ++ B ++ Q).length) ++
      B.mapIdx (fun i => ext1 left right N (P ++ B ++ Q).length (i + P.length)) ++
      Q.mapIdx (fun i => ext1 left right N (P ++ B ++ Q).length (i + (P ++ B).length)) := by
    simp only [ext, List.mapIdx_append]
  have hsp := splice_block (P.mapIdx (ext1 left right N (P ++ B ++ Q).length))
    (B.mapIdx (fun i => ext1 left right N (P ++ B ++ Q).length (i + P.length)))
    (Q.mapIdx (fun i => ext1 left right N (P ++ B ++ Q).length (i + (P ++ B).length))) s' e' v
  rw [← hL] at hsp
  simp only [List.length_mapIdx] at hsp
  rw [hsp]
  have hR : ext left' right' N (P ++ [merged B s e v] ++ Q) =
      P.mapIdx (ext1 left' right' N (P ++ [merged B s e v] ++ Q).length) ++
      [ext1 left' right' N (P ++ [merged B s e v] ++ Q).length P.length (merged B s e v)] ++
      Q.mapIdx (fun i => ext1 left' right' N (P ++ [merged B s e v] ++ Q).length (i + (P ++ [merged B s e v]).length)) := by
    simp only [ext, List.mapIdx_append]
    simp
  rw [hR]
  congr 1
  · congr 1
    · apply mapIdx_congr'
      intro i hi a
      have hP : P ≠ [] := by rintro rfl; simp at hi
      have hBQ : right = true → B.length + Q.length ≠ 0 := by
        intro h; have := hrB h
        intro h0
        apply this
        rw [List.append_eq_nil_iff]
        exact ⟨List.length_eq_zero_iff.1 (by omega), List.length_eq_zero_iff.1 (by omega)⟩
      simp only [ext1, hPl hP, List.length_append, List.length_singleton]
      congr 1
      have h1 : ¬ (right' = true ∧ i + 1 = P.length + 1 + Q.length) := by omega
      have h2 : ¬ (right = true ∧ i + 1 = P.length + B.length + Q.length) := by
        rintro ⟨h3, h4⟩; have := hBQ h3; omega
      rw [if_neg h1, if_neg h2]
    · congr 1
      obtain ⟨m1, m2⟩ := merged_bounds (B := B) s e v
      obtain ⟨n1, n2⟩ := merged_bounds (B := B.mapIdx (fun i => ext1 left right N (P ++ B ++ Q).length (i + P.length))) s' e' v
      have hv : (merged B s e v).v = (merged (B.mapIdx (fun i => ext1 left right N (P ++ B ++ Q).length (i + P.length))) s' e' v).v := by
        cases B with
        | nil => rfl
        | cons b B' =>
          have e1 : ∀ (b : Ent V) B' (s e : Int), (merged (b :: B') s e v).v = b.v := by
            intro b B' s e
            cases hl : (b :: B').getLast? with
            | none => simp at hl
            | some c => simp only [merged, List.head?_cons, hl]
          rw [List.mapIdx_cons, e1, e1]; rfl
      have hhead : (B.mapIdx (fun i => ext1 left right N (P ++ B ++ Q).length (i + P.length))).head? =
          B.head?.map (ext1 left right N (P ++ B ++ Q).length P.length) := by
        cases B with
        | nil => rfl
        | cons b B' => rw [List.mapIdx_cons]; simp
      have hlast : (B.mapIdx (fun i => ext1 left right N (P ++ B ++ Q).length (i + P.length))).getLast? =
          B.getLast?.map (ext1 left right N (P ++ B ++ Q).length (B.length - 1 + P.length)) := by
        rw [List.getLast?_eq_getElem?, List.getElem?_mapIdx, List.length_mapIdx, List.getLast?_eq_getElem?]
      rw [hhead] at n1
      rw [hlast] at n2
      have key : ∀ (a b : Ent V), a.s = b.s → a.e = b.e → a.v = b.v → a = b := by
        rintro ⟨⟩ ⟨⟩ h1 h2 h3; simp_all
      apply key
      · rw [n1]
        show (if left' = true ∧ P.length = 0 then -N else (merged B s e v).s) = _
        rw [m1]
        by_cases hc : left' = true ∧ P.length = 0
        · rw [if_pos hc]
          have hP : P = [] := List.length_eq_zero_iff.1 hc.2
          cases hB : B.head? with
          | none =>
            have : B = [] := List.head?_eq_none_iff.1 hB
            simp only [Option.map_none]
            cases hlf : left with
            | true => exact absurd (by rw [hP, this]; rfl) (hlB hlf)
            | false => exact (hs3 hc.1 hlf).symm
          | some b =>
            have hbB := hBb b (List.mem_of_mem_head? (by rw [hB]; rfl))
            simp only [Option.map_some, ext1]
            cases hlf : left with
            | true => simp [hc.2]; omega
            | false => have := hs3 hc.1 hlf; simp; omega
        · rw [if_neg hc]
          have hs : s' = s := by
            apply hs1
            by_cases hP : P = []
            · left
              cases h : left' with
              | false => rfl
              | true => exact absurd ⟨h, by simp [hP]⟩ hc
            · exact Or.inr hP
          cases hB : B.head? with
          | none => simp [hs]
          | some b =>
            have hc' : ¬ (left = true ∧ P.length = 0) := fun h => hc ⟨hl h.1, h.2⟩
            simp only [Option.map_some, ext1, if_neg hc', hs]
      · rw [n2]
        show (if right' = true ∧ P.length + 1 = (P ++ [merged B s e v] ++ Q).length then N else (merged B s e v).e) = _
        rw [m2]
        by_cases hc : right' = true ∧ P.length + 1 = (P ++ [merged B s e v] ++ Q).length
        · rw [if_pos hc]
          have hQ : Q = [] := List.length_eq_zero_iff.1 (by have := hc.2; simp only [List.length_append, List.length_singleton] at this; omega)
          cases hB : B.getLast? with
          | none =>
            have : B = [] := List.getLast?_eq_none_iff.1 hB
            simp only [Option.map_none]
            cases hlf : right with
            | true => exact absurd (by rw [hQ, this]; rfl) (hrB hlf)
            | false => exact (he3 hc.1 hlf).symm
          | some b =>
            have hbm := List.mem_of_getLast? hB
            have hbB := hBb b hbm
            have hBl : 0 < B.length := List.length_pos_of_mem hbm
            simp only [Option.map_some, ext1]
            cases hlf : right with
            | true =>
              have : B.length - 1 + P.length + 1 = (P ++ B ++ Q).length := by
                rw [hQ]; simp; omega
              simp only [this, and_self, if_true]; omega
            | false => have := he3 hc.1 hlf; simp; omega
        · rw [if_neg hc]
          have hs : e' = e := by
            apply he1
            by_cases hQ : Q = []
            · left
              cases h : right' with
              | false => rfl
              | true => exact absurd ⟨h, by simp [hQ]⟩ hc
            · exact Or.inr hQ
          cases hB : B.getLast? with
          | none => simp [hs]
          | some b =>
            have hbm := List.mem_of_getLast? hB
            have hBl : 0 < B.length := List.length_pos_of_mem hbm
            have hc' : ¬ (right = true ∧ B.length - 1 + P.length + 1 = (P ++ B ++ Q).length) := by
              rintro ⟨h1, h2⟩
              refine hc ⟨hr h1, ?_⟩
              simp only [List.length_append, List.length_singleton] at h2 ⊢; omega
            simp only [Option.map_some, ext1, if_neg hc', hs]
      · exact hv
  · apply mapIdx_congr'
    intro i hi a
    have hQ : Q ≠ [] := by rintro rfl; simp at hi
    have hPB : left = true → P.length + B.length ≠ 0 := by
      intro h; have := hlB h
      intro h0
      apply this
      rw [List.append_eq_nil_iff]
      exact ⟨List.length_eq_zero_iff.1 (by omega), List.length_eq_zero_iff.1 (by omega)⟩
    simp only [ext1, hQr hQ, List.length_append, List.length_singleton]
    have h1 : ¬ (left' = true ∧ i + (P.length + 1) = 0) := by omega
    have h2 : ¬ (left = true ∧ i + (P.length + B.length) = 0) := by
      rintro ⟨h3, h4⟩; have := hPB h3; omega
    rw [if_neg h1, if_neg h2]
    congr 1
    have : (i + (P.length + 1) + 1 = P.length + 1 + Q.length) ↔ (i + (P.length + B.length) + 1 = P.length + B.length + Q.length) := by omega
    simp only [this]

/-- the part of `insertCore` after the stretching -/
def coreTail (l : List (Ent V)) (left right : Bool) (s e : Int) (v : V) (bnd : Nat) : List (Ent V) × Bool :=
  let st0 := startIdx l right s e bnd
  let st := stepBack l st0 s v
  let en0 := endIdx l left st0 e
  let en := stepFwd l en0 e v
  if ((l.drop st0).take (en0 - st0)).any (fun a => decide (a.v ≠ v)) then (l, false)
  else (splice l st en s e v, true)

/-- the stretched list -/
def stretched (m : Map V) (s e : Int) : List (Ent V) :=
  let l := if m.left then stretchFront s m.list else m.list
  if m.right then stretchBack e l else l

theorem insertCore_eq (m : Map V) (s e : Int) (v : V) (bnd : Nat) (h : ¬ (e < s ∨ (bnd = 0 ∧ s = e))) :
    insertCore m s e v bnd = coreTail (stretched m s e) m.left m.right s e v bnd := by
  unfold insertCore
  rw [if_neg h]
  rfl

theorem any_map_eq (l L : List (Ent V)) (i j : Nat) (v : V) (h : l.map (·.v) = L.map (·.v)) :
    ((l.drop i).take j).any (fun a => decide (a.v ≠ v)) = ((L.drop i).take j).any (fun a => decide (a.v ≠ v)) := by
  have e1 : ∀ l : List (Ent V), ((l.drop i).take j).any (fun a => decide (a.v ≠ v)) =
      (((l.map (·.v)).drop i).take j).any (fun a => decide (a ≠ v)) := by
    intro l
    rw [← List.map_drop, ← List.map_take, List.any_map]; rfl
  rw [e1, e1, h]

theorem ext_map_v (left right : Bool) (N : Int) (l : List (Ent V)) : (ext left right N l).map (·.v) = l.map (·.v) := by
  apply List.ext_getElem?
  intro i
  rw [List.getElem?_map, List.getElem?_map, ext_get]
  cases l[i]? <;> simp [ext1]

theorem merged_mem_bound {B : List (Ent V)} {s e : Int} {v : V} {N : Int} (hB : ∀ a ∈ B, -N < a.s ∧ a.s < N ∧ -N < a.e ∧ a.e < N)
    (hs : -N < s ∧ s < N) (he : -N < e ∧ e < N) :
    -N < (merged B s e v).s ∧ (merged B s e v).s < N ∧ -N < (merged B s e v).e ∧ (merged B s e v).e < N := by
  obtain ⟨m1, m2⟩ := merged_bounds (B := B) s e v
  rw [m1, m2]
  constructor
  · cases h : B.head? with
    | none => simp; omega
    | some b => have := hB b (List.mem_of_mem_head? (by rw [h]; rfl)); simp only; omega
  constructor
  · cases h : B.head? with
    | none => simp; omega
    | some b => have := hB b (List.mem_of_mem_head? (by rw [h]; rfl)); simp only; omega
  constructor
  · cases h : B.getLast? with
    | none => simp; omega
    | some b => have := hB b (List.mem_of_getLast? h); simp only; omega
  · cases h : B.getLast? with
    | none => simp; omega
    | some b => have := hB b (List.mem_of_getLast? h); simp only; omega

/-- Generic simulation step. -/
theorem core_sim {l : List (Ent V)} {left right left' right' : Bool} {s e s' e' N : Int} {v : V} {bnd : Nat}
    (hc : Canon (ext left right N l)) (hse : s' < e')
    (hbnd : ∀ a ∈ l, -N < a.s ∧ a.s < N ∧ -N < a.e ∧ a.e < N)
    (hs : -N < s ∧ s < N) (he : -N < e ∧ e < N) (hs2 : -N ≤ s') (he2 : e' ≤ N)
    (h1 : startIdx l right s e bnd = upperEnd (ext left right N l) s')
    (h2 : endIdx l left (upperEnd (ext left right N l) s') e =
      endIdx (ext left right N l) false (upperEnd (ext left right N l) s') e')
    (h3 : stepBack l (upperEnd (ext left right N l) s') s v =
      stepBack (ext left right N l) (upperEnd (ext left right N l) s') s' v)
    (h4 : stepFwd l (endIdx (ext left right N l) false (upperEnd (ext left right N l) s') e') e v =
      stepFwd (ext left right N l) (endIdx (ext left right N l) false (upperEnd (ext left right N l) s') e') e' v)
    (hl : left = true → left' = true) (hr : right = true → right' = true)
    (hs1 : left' = false → s' = s) (he1 : right' = false → e' = e)
    (hs3 : left' = true → left = false → s' = -N ∧ upperEnd (ext left right N l) s' = 0)
    (he3 : right' = true → right = false → e' = N)
    (hs4 : left' = left → s' = s) (he4 : right' = right → e' = e)
    (hen : right' ≠ right → endIdx (ext left right N l) false (upperEnd (ext left right N l) s') e' = l.length)
    (hrB : right = true → upperEnd (ext left right N l) s' < l.length)
    (hlB : left = true → 0 < endIdx (ext left right N l) false (upperEnd (ext left right N l) s') e') :
    let r := coreTail l left right s e v bnd
    let r' := insertCore ⟨ext left right N l, false, false⟩ s' e' v 0
    r'.2 = r.2 ∧ (r.2 = true → r'.1 = ext left' right' N r.1 ∧ r.1 ≠ [] ∧
      ∀ a ∈ r.1, -N < a.s ∧ a.s < N ∧ -N < a.e ∧ a.e < N) ∧
      (r.2 = false → r.1 = l) := by
  intro r r'
  have hne : ¬ (e' < s' ∨ ((0 : Nat) = 0 ∧ s' = e')) := by omega
  have hr' : r' = coreTail (ext left right N l) false false s' e' v 0 := by
    show insertCore _ s' e' v 0 = _
    rw [insertCore_eq _ _ _ _ _ hne]; rfl
  obtain ⟨P0, M0, Q0, d1, d2, d3, d4, d5, d6, P, B, Q, g1, g2, g3, g4, g5, g6, g7⟩ := decompose hc hse v
  have d2' : upperEnd (ext left right N l) s' = P0.length := by rw [← d2]; simp [startIdx]
  have hst0 : startIdx (ext left right N l) false s' e' 0 = upperEnd (ext left right N l) s' := by simp [startIdx]
  have hlen : l.length = P.length + B.length + Q.length := by
    rw [← ext_length left right N l, g1]; simp; omega
  -- corresponding decomposition of l
  obtain ⟨p, b, q, k1, k2, k3, k4⟩ : ∃ p b q, l = p ++ b ++ q ∧ p.length = P.length ∧ b.length = B.length ∧ q.length = Q.length := by
    refine ⟨l.take P.length, (l.drop P.length).take B.length, l.drop (P.length + B.length), ?_, ?_, ?_, ?_⟩
    · rw [List.append_assoc, ← List.drop_drop, List.take_append_drop, List.take_append_drop]
    · simp; omega
    · simp; omega
    · simp; omega
  have hany := any_map_eq l (ext left right N l) P0.length (P0.length + M0.length - P0.length) v (ext_map_v left right N l).symm
  have hrr : r = if ((l.drop P0.length).take (P0.length + M0.length - P0.length)).any (fun a => decide (a.v ≠ v)) then (l, false)
      else (splice l P.length (P.length + B.length) s e v, true) := by
    show coreTail l left right s e v bnd = _
    unfold coreTail
    simp only [h1, h2, h3, h4]
    rw [d2', d3, g2, g3]
  have hrr' : r' = if ((l.drop P0.length).take (P0.length + M0.length - P0.length)).any (fun a => decide (a.v ≠ v)) then (ext left right N l, false)
      else (splice (ext left right N l) P.length (P.length + B.length) s' e' v, true) := by
    rw [hr']
    unfold coreTail
    simp only [hst0]
    rw [d2', d3, g2, g3, ← hany]
  by_cases hcf : ((l.drop P0.length).take (P0.length + M0.length - P0.length)).any (fun a => decide (a.v ≠ v)) = true
  · rw [if_pos hcf] at hrr hrr'
    rw [hrr, hrr']
    simp
  · rw [if_neg hcf] at hrr hrr'
    rw [hrr, hrr']
    refine ⟨rfl, fun _ => ?_, by simp⟩
    have hsp : splice l P.length (P.length + B.length) s e v = p ++ [merged b s e v] ++ q := by
      rw [← k2, ← k3, k1]; exact splice_block p b q s e v
    simp only
    rw [hsp]
    have hbm : ∀ a ∈ b, -N < a.s ∧ a.s < N ∧ -N < a.e ∧ a.e < N := fun a ha => hbnd a (by rw [k1]; simp [ha])
    have hPle : P.length ≤ P0.length := by
      rw [← g2]; unfold stepBack
      split
      · split
        · split <;> omega
        · omega
      · omega
    have hEge : P0.length + M0.length ≤ P.length + B.length := by
      rw [← g3]; unfold stepFwd
      split
      · split <;> omega
      · omega
    refine ⟨?_, by simp, ?_⟩
    · rw [← k2, ← k3, k1]
      symm
      rw [d2'] at hrB hs3
      rw [d2', d3] at hen hlB
      have hP0 : p ≠ [] → left' = left := by
        intro hp
        have : P.length ≠ 0 := by rw [← k2]; exact fun h => hp (List.length_eq_zero_iff.1 h)
        cases hlf : left with
        | true => exact hl hlf
        | false =>
          cases hl' : left' with
          | false => rfl
          | true => have := (hs3 hl' hlf).2; omega
      have hQ0 : q ≠ [] → right' = right := by
        intro hp
        have : Q.length ≠ 0 := by rw [← k4]; exact fun h => hp (List.length_eq_zero_iff.1 h)
        refine Decidable.byContradiction fun h => ?_
        have := hen h
        omega
      refine splice_transfer hl hr ?_ ?_ hP0 hQ0 ?_ ?_ hs2 he2 (fun h h' => (hs3 h h').1) he3 ?_
      · rintro (h | h)
        · exact hs1 h
        · exact hs4 (hP0 h)
      · rintro (h | h)
        · exact he1 h
        · exact he4 (hQ0 h)
      · intro h h0
        have := hrB h
        have h5 := congrArg List.length h0
        simp at h5
        rw [hlen, ← k3, ← k4, ← k2] at this
        rw [h5.1, h5.2] at this
        simp at this
        omega
      · intro h h0
        have := hlB h
        have h5 := congrArg List.length h0
        rw [List.length_append] at h5
        simp only [List.length_nil] at h5
        omega
      · intro a ha; have := hbm a ha; omega
    · intro a ha
      simp only [List.mem_append, List.mem_singleton] at ha
      rcases ha with (ha | rfl) | ha
      · exact hbnd a (by rw [k1]; simp [ha])
      · exact merged_mem_bound hbm hs he
      · exact hbnd a (by rw [k1]; simp [ha])

end Verif.IntervalMap
