import Verif.Lemmas.IntervalMap
import Verif.Lemmas.IntervalMapInf4

/-! Properties C03 and C04: the interval map. -/
namespace Verif.IntervalMap

variable {V : Type} [DecidableEq V]

/-- A bounded insertion request `(start, end, value)`. -/
abbrev BOp (V : Type) := Int × Int × V

/-- The request as seen by the specification. -/
def BOp.op (o : BOp V) : Op V := ⟨some o.1, some o.2.1, o.2.2⟩

/-- The container after a history of bounded insertions into an empty map. -/
def run (h : List (BOp V)) : Map V := h.foldl (fun m o => (insert m o.1 o.2.1 o.2.2).1) empty

omit [DecidableEq V] in
theorem BOp.covers_iff (o : BOp V) (k : Int) : (BOp.op o).covers k ↔ o.1 ≤ k ∧ k < o.2.1 := by
  simp [BOp.op, Op.covers]

theorem run_inv (h : List (BOp V)) : ∃ l, run h = ⟨l, false, false⟩ ∧ Canon l := by
  suffices ∀ (h : List (BOp V)) l, Canon l →
      ∃ l', h.foldl (fun m o => (insert m o.1 o.2.1 o.2.2).1) ⟨l, false, false⟩ = ⟨l', false, false⟩ ∧ Canon l' from
    this h [] ⟨by simp, by simp⟩
  intro h
  induction h with
  | nil => intro l hl; exact ⟨l, rfl, hl⟩
  | cons o t ih => intro l hl; exact ih _ (insert_finite hl o.1 o.2.1 o.2.2).2.2.1

/-- **C03 (acceptance).** After any history of bounded insertions, a bounded insertion reports success exactly when
the interval is non-empty and no key of it already has a different value. -/
theorem insert_success_iff (h : List (BOp V)) (s e : Int) (v : V) :
    (insert (run h) s e v).2 = true ↔ Acceptable (get (run h)) ⟨some s, some e, v⟩ := by
  obtain ⟨l, hl, hc⟩ := run_inv h
  rw [hl]
  have h1 := (insert_finite hc s e v).1
  have hcov : ∀ k, (⟨some s, some e, v⟩ : Op V).covers k ↔ s ≤ k ∧ k < e := fun k => BOp.covers_iff (s, e, v) k
  refine h1.trans ?_
  unfold Acceptable
  constructor
  · rintro ⟨hse, hall⟩
    refine ⟨⟨s, (hcov s).2 ⟨by omega, hse⟩⟩, fun k hk => ?_⟩
    rw [hcov] at hk
    cases hg : get ⟨l, false, false⟩ k with
    | none => exact Or.inl rfl
    | some w =>
      obtain ⟨a, ha, hac, hav⟩ := (get_finite hc k w).1 hg
      right; rw [← hav, hall a ha ⟨k, hk.1, hk.2, hac⟩]
  · rintro ⟨⟨k, hk⟩, hall⟩
    rw [hcov] at hk
    refine ⟨by omega, ?_⟩
    rintro a ha ⟨j, h2, h3, h4⟩
    have := (get_finite hc j a.v).2 ⟨a, ha, h4, rfl⟩
    rcases hall j ((hcov j).2 ⟨h2, h3⟩) with h5 | h5
    · rw [this] at h5; simp at h5
    · rw [this] at h5; simpa using h5

/-- **C03 (success).** A successful insertion sends every key of the interval to the value and leaves every other key
as it was. -/
theorem insert_success (h : List (BOp V)) (s e : Int) (v : V) (hok : (insert (run h) s e v).2 = true) (k : Int) :
    get (insert (run h) s e v).1 k = if s ≤ k ∧ k < e then some v else get (run h) k := by
  obtain ⟨l, hl, hc⟩ := run_inv h
  rw [hl] at hok ⊢
  obtain ⟨_, _, h3, h4⟩ := insert_finite hc s e v
  have h5 := h4 hok k
  apply Option.ext
  intro w
  have h6 : get (insert ⟨l, false, false⟩ s e v).1 k = some w ↔ _ := get_finite h3 k w
  rw [h6, h5 w]
  split
  · simp [eq_comm]
  · exact (get_finite hc k w).symm

/-- **C03 (failure).** A rejected insertion changes nothing: the container is the same object state as before. -/
theorem insert_failure (h : List (BOp V)) (s e : Int) (v : V) (hno : (insert (run h) s e v).2 = false) :
    (insert (run h) s e v).1 = run h := by
  obtain ⟨l, hl, hc⟩ := run_inv h
  rw [hl] at hno ⊢
  have := (insert_finite hc s e v).2.1 hno
  simp [insert, this]

/-- **C03 (normal form).** After any history of bounded insertions the stored intervals are non-empty, sorted, disjoint
and merged where they touch with equal values. -/
theorem history_normal (h : List (BOp V)) : Normal ((run h).list.map fun a => (a.s, a.e, a.v)) := by
  obtain ⟨l, hl, hc⟩ := run_inv h
  rw [hl]
  refine ⟨?_, ?_⟩
  · simp only [List.mem_map]
    rintro _ ⟨a, ha, rfl⟩
    exact hc.pos a ha
  · rw [List.pairwise_map]; exact hc.rel

/-- **C03 (whole histories).** The look-up function after a history is the one of the abstract contract. -/
theorem history_refines (h : List (BOp V)) : get (run h) = specRun (h.map BOp.op) := by
  suffices ∀ (r h : List (BOp V)), get ((r ++ h).foldl (fun m o => (insert m o.1 o.2.1 o.2.2).1) empty) =
      (h.map BOp.op).foldl specStep (get (run r)) by
    have h0 := this [] h
    simp only [List.nil_append] at h0
    have hn : (get (run ([] : List (BOp V)))) = fun _ => none := by
      funext k; rfl
    rw [hn] at h0
    exact h0
  intro r h
  induction h generalizing r with
  | nil => simp [run]
  | cons o t ih =>
    have := ih (r ++ [o])
    rw [List.append_assoc, List.singleton_append] at this
    rw [this, List.map_cons, List.foldl_cons]
    congr 1
    have hr : run (r ++ [o]) = (insert (run r) o.1 o.2.1 o.2.2).1 := by simp [run]
    rw [hr]
    unfold specStep
    have hiff := insert_success_iff r o.1 o.2.1 o.2.2
    split
    · rename_i hacc
      funext k
      rw [insert_success r _ _ _ (hiff.2 hacc)]
      simp only [update, BOp.covers_iff]
      rfl
    · rename_i hacc
      have hf : (insert (run r) o.1 o.2.1 o.2.2).2 = false := by
        cases hb : (insert (run r) o.1 o.2.1 o.2.2).2 with
        | false => rfl
        | true => exact absurd (hiff.1 hb) hacc
      rw [insert_failure r _ _ _ hf]

/-- **C03.** `contains` answers exactly whether the key has a value (for every container state). -/
theorem contains_iff (m : Map V) (k : Int) : contains m k = true ↔ ∃ v, get m k = some v := by
  unfold contains get find
  cases m.list.getLast? with
  | none => simp
  | some b =>
    simp only
    split
    · simp
    · generalize (List.take (if m.right = true then m.list.length - 1 else m.list.length) m.list) = L
      cases L[upperEnd L k]? with
      | none => simp
      | some a =>
        by_cases hc : (m.left = true ∧ upperEnd L k = 0) ∨ ¬ k < a.s <;> simp [hc]

/-! Witnesses: a history with gaps, a touching merge, a nested insertion and a conflict. -/

/-- history used below -/
def demo : List (BOp Nat) := [(0, 3, 1), (8, 9, 2), (3, 5, 1), (4, 9, 7), (10, 10, 3), (20, 30, 4), (22, 25, 4)]

example : (run demo).list = [⟨0, 5, 1⟩, ⟨8, 9, 2⟩, ⟨20, 30, 4⟩] := by decide
example : (insert (run demo) 5 8 1).2 = true ∧ get (insert (run demo) 5 8 1).1 7 = some 1 := by decide
example : (insert (run demo) 5 9 1).2 = false := by decide
example : Acceptable (get (run demo)) ⟨some 5, some 8, 1⟩ := (insert_success_iff demo 5 8 1).1 (by decide)

/-! ### C04: unbounded ends -/

/-- **C04 fails in the code (1).** On an empty map insert `[5, ∞) ↦ 1`, then `[10, ∞) ↦ 2`: although key `10` has the
different value `1` the second insertion reports success and overwrites it. -/
theorem unbounded_conflict_accepted :
    let m1 := insertRight (empty : Map Nat) 5 1
    let m2 := insertRight m1.1 10 2
    m1.2 = true ∧ get m1.1 10 = some 1 ∧ m2.2 = true ∧ get m2.1 10 = some 2 := by decide

/-- The mirror image: `(-∞, 5) ↦ 1` and then `(-∞, 0) ↦ 2`. -/
theorem unbounded_conflict_accepted_left :
    let m1 := insertLeft (empty : Map Nat) 5 1
    let m2 := insertLeft m1.1 0 2
    m1.2 = true ∧ get m1.1 (-1) = some 1 ∧ m2.2 = true ∧ get m2.1 (-1) = some 2 := by decide

/-- **C04 fails in the code (2).** After inserting the whole line, negative keys are reported as absent. -/
theorem full_line_lookup_fails :
    (insertAll (empty : Map Nat) 1).2 = true ∧
      ∀ k : Int, k < 0 → contains (insertAll (empty : Map Nat) 1).1 k = false := by
  refine ⟨by decide, fun k hk => ?_⟩
  have : (insertAll (empty : Map Nat) 1).1 = ⟨[⟨0, 0, 1⟩], true, true⟩ := by decide
  rw [this]
  simp [contains, hk]

/-- The container after a history of requests with finite or infinite ends. -/
def runInf (h : List (Op V)) : Map V := h.foldl (fun m o => (apply m o).1) empty

/-- **C04 (part).** Full statement: for every history of requests with finite or infinite ends, a request is accepted
exactly when it does not conflict, and look-ups give the function of the contract.  Proved: acceptance, for histories
in which a one-sided infinite request is made only while the map is undefined far out on that side.
Missing: the histories of `unbounded_conflict_accepted`, for which the statement is false. -/
theorem unbounded_accept_partial (h : List (Op V)) (hh : CarefulHist (fun _ => none) h) (o : Op V)
    (ho : Careful (specRun h) o) : (apply (runInf h) o).2 = true ↔ Acceptable (specRun h) o :=
  (step_abs (run_abs abs_empty hh) ho).1

/-- **C04 (part).** Under the same restriction on the history every look-up gives the value of the contract, unless
one value covers the whole line (there it is false, `full_line_lookup_fails`).  In particular rejected requests leave
all look-ups unchanged and keys inside an infinite interval are found. -/
theorem unbounded_lookup_partial (h : List (Op V)) (hh : CarefulHist (fun _ => none) h)
    (hfull : ¬ ∃ v, ∀ k, specRun h k = some v) (k : Int) : get (runInf h) k = specRun h k :=
  get_abs (run_abs abs_empty hh) hfull k

/-! Witness: `[5, ∞) ↦ 1`, `(-∞, 0) ↦ 2`, a conflicting and a harmless bounded request. -/

/-- history used below -/
def demoInf : List (Op Nat) := [⟨some 5, none, 1⟩, ⟨none, some 0, 2⟩, ⟨some 3, some 9, 4⟩, ⟨some 3, some 20, 1⟩]

example : runInf demoInf = ⟨[⟨0, 0, 2⟩, ⟨3, 20, 1⟩], true, true⟩ := by decide
example : get (runInf demoInf) 1000 = some 1 ∧ get (runInf demoInf) (-1000) = some 2 ∧ get (runInf demoInf) 2 = none := by
  decide

example : CarefulHist (fun _ => none) demoInf := by
  refine ⟨⟨fun _ _ => ⟨0, fun _ _ => rfl⟩, fun h => by simp at h⟩, ⟨fun h => by simp at h, fun _ _ => ⟨0, ?_⟩⟩,
    ⟨fun _ h => by simp at h, fun h => by simp at h⟩, ⟨fun _ h => by simp at h, fun h => by simp at h⟩, trivial⟩
  intro k hk
  unfold specStep
  split
  · simp only [update]
    rw [if_neg]
    simp [Op.covers]; omega
  · rfl

end Verif.IntervalMap
