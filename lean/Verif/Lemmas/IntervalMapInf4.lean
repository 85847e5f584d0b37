import Verif.Lemmas.IntervalMapInf3

set_option linter.unusedSectionVars false

namespace Verif.IntervalMap

variable {V : Type} [DecidableEq V]

/-- the abstraction relation -/
def AbsN (m : Map V) (f : Int → Option V) (N : Int) : Prop :=
  InvN m N ∧ ∀ k, -N ≤ k → k < N → ∀ w, f k = some w ↔ ∃ a ∈ ext m.left m.right N m.list, a.cov k ∧ a.v = w

def Abs (m : Map V) (f : Int → Option V) : Prop := ∃ N0, ∀ N, N0 ≤ N → AbsN m f N

/-- a finite simulation step gives the abstract step -/
theorem abs_of_sim {m : Map V} {f : Int → Option V} {o : Op V} {N0 : Int} {r : Map V × Bool} (lo hi : Int → Int)
    (h : ∀ N, N0 ≤ N → AbsN m f N)
    (hlt : ∀ N, N0 ≤ N → lo N < hi N)
    (hcov : ∀ N, N0 ≤ N → ∀ k, -N ≤ k → k < N → (o.covers k ↔ lo N ≤ k ∧ k < hi N))
    (hin : ∀ N, N0 ≤ N → -N ≤ lo N ∧ hi N ≤ N)
    (hsim : ∀ N, N0 ≤ N → Sim m N r (lo N) (hi N) o.val) :
    (r.2 = true ↔ Acceptable f o) ∧ Abs r.1 (specStep f o) := by
  have hiff : r.2 = true ↔ Acceptable f o := by
    have big : ∀ k : Int, ∃ N, N0 ≤ N ∧ -N ≤ k ∧ k < N := fun k => ⟨max N0 (max (-k) (k + 1)), by omega, by omega, by omega⟩
    constructor
    · intro hr
      constructor
      · have h1 := hlt N0 (by omega); have h2 := hin N0 (by omega)
        exact ⟨lo N0, (hcov N0 (by omega) (lo N0) (by omega) (by omega)).2 ⟨by omega, by omega⟩⟩
      · intro k hk
        obtain ⟨N, hN, hk1, hk2⟩ := big k
        have hfin := (insert_finite (h N hN).1.canon (lo N) (hi N) o.val).1
        rw [(hsim N hN).flag] at hfin
        have hall := (hfin.1 hr).2
        cases hf : f k with
        | none => exact Or.inl rfl
        | some w =>
          right
          obtain ⟨a, ha, hac, hav⟩ := ((h N hN).2 k hk1 hk2 w).1 hf
          have := (hcov N hN k hk1 hk2).1 hk
          rw [← hav, hall a ha ⟨k, this.1, this.2, hac⟩]
    · rintro ⟨_, hall⟩
      have hfin := (insert_finite (h N0 (by omega)).1.canon (lo N0) (hi N0) o.val).1
      rw [(hsim N0 (by omega)).flag] at hfin
      rw [hfin]
      refine ⟨hlt N0 (by omega), ?_⟩
      rintro a ha ⟨k, k1, k2, k3⟩
      have h2 := hin N0 (by omega)
      have hf := ((h N0 (by omega)).2 k (by omega) (by omega) a.v).2 ⟨a, ha, k3, rfl⟩
      rcases hall k ((hcov N0 (by omega) k (by omega) (by omega)).2 ⟨k1, k2⟩) with h5 | h5
      · rw [hf] at h5; simp at h5
      · rw [hf] at h5; simpa using h5
  refine ⟨hiff, N0, fun N hN => ⟨(hsim N hN).inv, ?_⟩⟩
  intro k hk1 hk2 w
  have hs := hsim N hN
  obtain ⟨F1, F2, F3, F4⟩ := insert_finite (h N hN).1.canon (lo N) (hi N) o.val
  rw [hs.flag] at F2 F4
  rw [hs.ext] at F2 F4
  unfold specStep
  split
  · rename_i hacc
    have hr := hiff.2 hacc
    rw [F4 hr k w]
    simp only [update]
    by_cases hc : o.covers k
    · rw [if_pos hc, if_pos ((hcov N hN k hk1 hk2).1 hc)]
      simp [eq_comm]
    · rw [if_neg hc, if_neg (fun h' => hc ((hcov N hN k hk1 hk2).2 h'))]
      exact (h N hN).2 k hk1 hk2 w
  · rename_i hacc
    have hr : r.2 = false := by
      cases hb : r.2 with
      | false => rfl
      | true => exact absurd (hiff.1 hb) hacc
    rw [F2 hr]
    exact (h N hN).2 k hk1 hk2 w

/-- the right flag means a value far out on the right -/
theorem right_value {m : Map V} {f : Int → Option V} {N : Int} (h : AbsN m f N) (hr : m.right = true) :
    ∃ v, f (N - 1) = some v := by
  have hne := h.1.ne (Or.inr hr)
  have hl : m.list.length - 1 < m.list.length := by
    have := List.length_pos_iff.2 hne; omega
  have g := ext_get_some (left := m.left) (right := m.right) (N := N) (List.getElem?_eq_getElem hl)
  generalize hA : ext1 m.left m.right N m.list.length (m.list.length - 1) m.list[m.list.length - 1] = A at g
  have hAe : A.e = N := by
    rw [← hA]; simp only [ext1]; rw [if_pos ⟨hr, by omega⟩]
  have hb := h.1.bnd _ (List.getElem_mem hl)
  have hp := h.1.canon.pos A (List.mem_of_getElem? g)
  have hAs : -N ≤ A.s := by rw [← hA]; simp only [ext1]; split <;> omega
  exact ⟨A.v, (h.2 (N - 1) (by omega) (by omega) A.v).2 ⟨A, List.mem_of_getElem? g, ⟨by omega, by omega⟩, rfl⟩⟩

theorem left_value {m : Map V} {f : Int → Option V} {N : Int} (h : AbsN m f N) (hr : m.left = true) :
    ∃ v, f (-N) = some v := by
  have hne := h.1.ne (Or.inl hr)
  have hl : 0 < m.list.length := List.length_pos_iff.2 hne
  have g := ext_get_some (left := m.left) (right := m.right) (N := N) (List.getElem?_eq_getElem hl)
  generalize hA : ext1 m.left m.right N m.list.length 0 m.list[0] = A at g
  have hAs : A.s = -N := by
    rw [← hA]; simp only [ext1]; rw [if_pos ⟨hr, trivial⟩]
  have hb := h.1.bnd _ (List.getElem_mem hl)
  have hp := h.1.canon.pos A (List.mem_of_getElem? g)
  exact ⟨A.v, (h.2 (-N) (by omega) (by omega) A.v).2 ⟨A, List.mem_of_getElem? g, ⟨by omega, by omega⟩, rfl⟩⟩

theorem step_abs {m : Map V} {f : Int → Option V} {o : Op V} (h : Abs m f) (hc : Careful f o) :
    ((apply m o).2 = true ↔ Acceptable f o) ∧ Abs (apply m o).1 (specStep f o) := by
  obtain ⟨N0, h⟩ := h
  obtain ⟨lo, hi, v⟩ := o
  cases lo with
  | some s =>
    cases hi with
    | some e =>
      have hcov : ∀ k, (⟨some s, some e, v⟩ : Op V).covers k ↔ s ≤ k ∧ k < e := by intro k; simp [Op.covers]
      by_cases hse : s < e
      · refine abs_of_sim (N0 := max N0 (max (max (s+1) (1-s)) (max (e+1) (1-e)))) (fun _ => s) (fun _ => e)
          (fun N hN => h N (by omega)) (fun _ _ => hse) (fun N hN k _ _ => hcov k) (fun N hN => by omega)
          (fun N hN => sim_bounded (h N (by omega)).1 (by omega) (by omega) hse)
      · have hno : ¬ Acceptable f ⟨some s, some e, v⟩ := by
          rintro ⟨⟨k, hk⟩, _⟩
          rw [hcov] at hk; omega
        have happ : apply m ⟨some s, some e, v⟩ = (m, false) := by
          show insert m s e v = _
          unfold insert insertCore
          rw [if_pos (by omega)]
        rw [happ]
        refine ⟨by simp [hno], N0, fun N hN => ?_⟩
        unfold specStep
        rw [if_neg hno]
        exact h N hN
    | none =>
      have hcov : ∀ k, (⟨some s, none, v⟩ : Op V).covers k ↔ s ≤ k := by intro k; simp [Op.covers]
      have hr : m.right = false := by
        cases hr : m.right with
        | false => rfl
        | true =>
          obtain ⟨K, hK⟩ := hc.1 (by simp) rfl
          obtain ⟨w, hw⟩ := right_value (h (max N0 (K + 1)) (by omega)) hr
          rw [hK _ (by omega)] at hw; simp at hw
      exact abs_of_sim (N0 := max N0 (max (s+1) (1-s))) (fun _ => s) (fun N => N)
          (fun N hN => h N (by omega)) (fun _ _ => by omega) (fun N hN k _ hk => by rw [hcov]; omega) (fun N hN => by omega)
          (fun N hN => sim_right (h N (by omega)).1 (by omega) hr)
  | none =>
    cases hi with
    | some e =>
      have hcov : ∀ k, (⟨none, some e, v⟩ : Op V).covers k ↔ k < e := by intro k; simp [Op.covers]
      have hr : m.left = false := by
        cases hr : m.left with
        | false => rfl
        | true =>
          obtain ⟨K, hK⟩ := hc.2 rfl (by simp)
          obtain ⟨w, hw⟩ := left_value (h (max N0 (-K)) (by omega)) hr
          rw [hK _ (by omega)] at hw; simp at hw
      exact abs_of_sim (N0 := max N0 (max (e+1) (1-e))) (fun N => -N) (fun _ => e)
          (fun N hN => h N (by omega)) (fun _ _ => by omega) (fun N hN k hk _ => by rw [hcov]; omega) (fun N hN => by omega)
          (fun N hN => sim_left (h N (by omega)).1 (by omega) hr)
    | none =>
      have hcov : ∀ k, (⟨none, none, v⟩ : Op V).covers k := by intro k; simp [Op.covers]
      have happ : apply m ⟨none, none, v⟩ = insertAll m v := rfl
      rw [happ]
      unfold insertAll
      -- every stored entry is visible
      have hvis : ∀ a ∈ m.list, ∃ k, f k = some a.v := by
        intro a ha
        obtain ⟨i, hi⟩ := List.mem_iff_getElem?.1 ha
        have g := ext_get_some (left := m.left) (right := m.right) (N := N0) hi
        have hb := (h N0 (by omega)).1.bnd a ha
        have hp := (h N0 (by omega)).1.canon.pos _ (List.mem_of_getElem? g)
        refine ⟨(ext1 m.left m.right N0 m.list.length i a).s, ((h N0 (by omega)).2 _ ?_ ?_ _).2 ⟨_, List.mem_of_getElem? g, ⟨by omega, hp⟩, rfl⟩⟩
        · simp only [ext1]; split <;> omega
        · simp only [ext1]; split <;> omega
      by_cases hany : (m.list.any fun a => decide (a.v ≠ v)) = true
      · have hno : ¬ Acceptable f ⟨none, none, v⟩ := by
          rintro ⟨_, hall⟩
          obtain ⟨a, ha, hav⟩ := List.any_eq_true.1 hany
          obtain ⟨k, hk⟩ := hvis a ha
          rcases hall k (hcov k) with h5 | h5
          · rw [hk] at h5; simp at h5
          · rw [hk] at h5; simp at h5; simp [h5] at hav
        rw [if_pos hany]
        refine ⟨by simp [hno], N0, fun N hN => ?_⟩
        unfold specStep
        rw [if_neg hno]
        exact h N hN
      · have hok : Acceptable f ⟨none, none, v⟩ := by
          refine ⟨⟨0, hcov 0⟩, fun k _ => ?_⟩
          cases hf : f k with
          | none => exact Or.inl rfl
          | some w =>
            right
            obtain ⟨A, hA, _, hAv⟩ := ((h (max N0 (max (-k) (k+1))) (by omega)).2 k (by omega) (by omega) w).1 hf
            have h6 : w ∈ (ext m.left m.right (max N0 (max (-k) (k+1))) m.list).map (·.v) :=
              List.mem_map.2 ⟨A, hA, hAv⟩
            rw [ext_map_v] at h6
            obtain ⟨a, ha, hav⟩ := List.mem_map.1 h6
            refine Decidable.byContradiction fun hne => hany (List.any_eq_true.2 ⟨a, ha, ?_⟩)
            simp only [hav, ne_eq, decide_eq_true_eq]
            intro h7; exact hne (by rw [h7])
        rw [if_neg hany]
        refine ⟨by simp [hok], 1, fun N hN => ⟨⟨⟨?_, ?_⟩, ?_, ?_⟩, ?_⟩⟩
        · simp [ext]
        · simp [ext, ext1]; omega
        · simp; omega
        · simp
        · intro k hk1 hk2 w
          unfold specStep
          rw [if_pos hok]
          simp only [update, hcov, if_true]
          simp [ext, ext1, Ent.cov, hk1, hk2]

theorem run_abs {h : List (Op V)} : ∀ {m : Map V} {f : Int → Option V}, Abs m f → CarefulHist f h →
    Abs (h.foldl (fun m o => (apply m o).1) m) (h.foldl specStep f) := by
  induction h with
  | nil => intro m f ha _; exact ha
  | cons o t ih =>
    intro m f ha hc
    exact ih (step_abs ha hc.1).2 hc.2

theorem abs_empty : Abs (empty : Map V) (fun _ => none) :=
  ⟨0, fun N _ => ⟨⟨⟨by simp [ext, empty], by simp [ext, empty]⟩, by simp [empty], by simp [empty]⟩,
    by simp [ext, empty]⟩⟩

theorem get_abs {m : Map V} {f : Int → Option V} (h : Abs m f) (hfull : ¬ ∃ v, ∀ k, f k = some v) (k : Int) :
    get m k = f k := by
  obtain ⟨N0, h⟩ := h
  have hnf : ¬ (m.left = true ∧ m.right = true ∧ m.list.length = 1) := by
    rintro ⟨h1, h2, h3⟩
    obtain ⟨a, ha⟩ := List.length_eq_one_iff.1 h3
    apply hfull
    refine ⟨a.v, fun k => ?_⟩
    have := (h (max N0 (max (-k) (k+1))) (by omega)).2 k (by omega) (by omega) a.v
    rw [this]
    refine ⟨⟨-(max N0 (max (-k) (k+1))), max N0 (max (-k) (k+1)), a.v⟩, ?_, ⟨?_, ?_⟩, rfl⟩
    · simp [ext, ext1, ha, h1, h2]
    · simp only; omega
    · simp only; omega
  have hN := h (max N0 (max (-k) (k+1))) (by omega)
  rw [get_ext hN.1 (k := k) (by omega) hnf]
  apply Option.ext
  intro w
  rw [get_finite hN.1.canon, hN.2 k (by omega) (by omega)]

end Verif.IntervalMap
