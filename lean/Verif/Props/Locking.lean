import Verif.Spec.Locking
import Mathlib.Data.List.Basic

/-!
C30 (schedules): whatever the interleaving, the rows are changed as if the updates were made one after the other.
-/
set_option linter.unusedVariables false
namespace Verif.Locking

variable {σ : Type}

theorem serial_append (H : List (Nat × Op σ × Bool)) (t : Nat) (op : Op σ) (ok : Bool) (m m1 : Nat → σ)
    (h : Serial H m m1) (hok : (op.run (m1 op.key)).2 = ok) :
    Serial (H ++ [(t, op, ok)]) m (Function.update m1 op.key (op.run (m1 op.key)).1) := by
  induction H generalizing m with
  | nil =>
    have : m1 = m := h
    subst this
    exact ⟨hok, rfl⟩
  | cons e H ih =>
    obtain ⟨t', op', ok'⟩ := e
    exact ⟨h.1, ih _ h.2⟩

theorem ofThread_append (t : Nat) (H : List (Nat × Op σ × Bool)) (e : Nat × Op σ × Bool) :
    ofThread t (H ++ [e]) = ofThread t H ++ if e.1 = t then [e.2] else [] := by
  unfold ofThread
  rw [List.filter_append, List.map_append]
  congr 1
  by_cases h : e.1 = t
  · simp [h]
  · simp [h]

/-- where a thread is, relative to its work and what it has executed -/
inductive Where (work : List (Op σ)) (th : Thread σ) (exec : List (Op σ × Bool)) : Prop where
  | before (pre : List (Op σ)) (hf : th.failed = false) (hp : ∀ ok, th.phase ≠ .stored ok)
      (hw : work = pre ++ th.ops) (he : exec = pre.map (fun o => (o, true)))
  | after (pre : List (Op σ)) (op : Op σ) (rest : List (Op σ)) (ok : Bool) (hf : th.failed = false)
      (hp : th.phase = .stored ok) (ho : th.ops = op :: rest) (hw : work = pre ++ op :: rest)
      (he : exec = pre.map (fun o => (o, true)) ++ [(op, ok)])
  | stopped (pre : List (Op σ)) (op : Op σ) (rest : List (Op σ)) (hf : th.failed = true) (hp : th.phase = .idle)
      (ho : th.ops = []) (hw : work = pre ++ op :: rest)
      (he : exec = pre.map (fun o => (o, true)) ++ [(op, false)])

/-- the invariant of interleaved executions -/
structure Inv (useLock : Bool) (mem : Nat → σ) (work : Nat → List (Op σ)) (s : St σ) (H : List (Nat × Op σ × Bool)) :
    Prop where
  ser : Serial H mem s.mem
  pos : ∀ t, Where (work t) (s.thr t) (ofThread t H)
  lock1 : useLock = true → ∀ t op rest, (s.thr t).ops = op :: rest → (s.thr t).phase ≠ .idle → s.lock op.key = some t
  lock2 : useLock = true → ∀ k t, s.lock k = some t →
    (s.thr t).phase ≠ .idle ∧ ∃ op rest, (s.thr t).ops = op :: rest ∧ op.key = k
  val : ∀ t op rest v, (s.thr t).ops = op :: rest → (s.thr t).phase = .loaded v → v = s.mem op.key

theorem inv_start (useLock : Bool) (mem : Nat → σ) (work : Nat → List (Op σ)) : Inv useLock mem work (start mem work) [] where
  ser := rfl
  pos := fun t => .before [] rfl (fun ok h => nomatch h) rfl rfl
  lock1 := fun _ t op rest _ h => absurd rfl h
  lock2 := fun _ k t h => absurd h (by simp [start])
  val := fun t op rest v _ h => nomatch h

theorem inv_step {useLock : Bool} {mem : Nat → σ} {work : Nat → List (Op σ)}
    (hex : useLock = true ∨ ∀ t, t ≠ 0 → work t = []) {s s' : St σ} {H : List (Nat × Op σ × Bool)}
    (hi : Inv useLock mem work s H) (hs : Step useLock s s') : ∃ H', Inv useLock mem work s' H' := by
  -- two threads inside updates are on different rows
  have excl : ∀ t t' op rest op' rest', t ≠ t' → (s.thr t).ops = op :: rest → (s.thr t').ops = op' :: rest' →
      (s.thr t).phase ≠ .idle → (s.thr t').phase ≠ .idle → op.key ≠ op'.key := by
    intro t t' op rest op' rest' hne h1 h2 h3 h4 e
    rcases hex with hl | hw
    · have a := hi.lock1 hl t op rest h1 h3
      have b := hi.lock1 hl t' op' rest' h2 h4
      rw [e, b] at a
      exact hne (Option.some.inj a).symm
    · have key : ∀ u op rest, (s.thr u).ops = op :: rest → work u ≠ [] := by
        intro u op rest h hw'
        cases hi.pos u with
        | before pre hf hp hw he => rw [hw', h] at hw; simp at hw
        | after pre o r ok hf hp ho hw he => rw [hw'] at hw; simp at hw
        | stopped pre o r hf hp ho hw he => rw [ho] at h; simp at h
      have a := key t op rest h1
      have b := key t' op' rest' h2
      have : t = 0 := by
        by_cases h : t = 0
        · exact h
        · exact absurd (hw t h) a
      have h' : t' = 0 := by
        by_cases h : t' = 0
        · exact h
        · exact absurd (hw t' h) b
      exact hne (this.trans h'.symm)
  cases hs with
  | acquire t op rest hops hph hfree =>
    refine ⟨H, ⟨hi.ser, ?_, ?_, ?_, ?_⟩⟩
    · intro u
      by_cases e : u = t
      · subst e
        simp only [Function.update_self]
        cases hi.pos u with
        | before pre hf hp hw he => exact .before pre hf (fun ok h => nomatch h) hw he
        | after pre o r ok hf hp ho hw he => rw [hph] at hp; exact nomatch hp
        | stopped pre o r hf hp ho hw he => rw [ho] at hops; simp at hops
      · simp only [Function.update_of_ne e]; exact hi.pos u
    · intro hl u op' rest' h1 h2
      simp only [hl, if_true]
      by_cases e : u = t
      · subst e
        simp only [Function.update_self] at h1
        rw [hops] at h1
        have := (List.cons.inj h1).1
        subst this
        rw [Function.update_self]
      · simp only [Function.update_of_ne e] at h1 h2
        have a := hi.lock1 hl u op' rest' h1 h2
        rw [Function.update_of_ne]
        · exact a
        · intro e'
          rw [e', hfree hl] at a
          exact absurd a (by simp)
    · intro hl k u h
      simp only [hl, if_true] at h
      by_cases e : k = op.key
      · subst e
        rw [Function.update_self] at h
        have := Option.some.inj h
        subst this
        simp only [Function.update_self]
        exact ⟨(fun h => nomatch h), op, rest, hops, rfl⟩
      · rw [Function.update_of_ne e] at h
        have a := hi.lock2 hl k u h
        by_cases e' : u = t
        · subst e'; exact absurd hph a.1
        · simp only [Function.update_of_ne e']; exact a
    · intro u op' rest' v h1 h2
      by_cases e : u = t
      · subst e
        simp only [Function.update_self] at h2
        exact nomatch h2
      · simp only [Function.update_of_ne e] at h1 h2
        exact hi.val u op' rest' v h1 h2
  | load t op rest hops hph =>
    have hpos : ∀ u, Where (work u)
        (Function.update s.thr t { s.thr t with phase := .loaded (s.mem op.key) } u) (ofThread u H) := by
      intro u
      by_cases e : u = t
      · subst e
        simp only [Function.update_self]
        cases hi.pos u with
        | before pre hf hp hw he => exact .before pre hf (fun ok h => nomatch h) hw he
        | after pre o r ok hf hp ho hw he => rw [hph] at hp; exact nomatch hp
        | stopped pre o r hf hp ho hw he => rw [ho] at hops; simp at hops
      · simp only [Function.update_of_ne e]; exact hi.pos u
    refine ⟨H, ⟨hi.ser, hpos, ?_, ?_, ?_⟩⟩
    · intro hl u op' rest' h1 h2
      by_cases e : u = t
      · subst e
        simp only [Function.update_self] at h1
        exact hi.lock1 hl u op' rest' h1 (by rw [hph]; exact fun h => nomatch h)
      · simp only [Function.update_of_ne e] at h1 h2
        exact hi.lock1 hl u op' rest' h1 h2
    · intro hl k u h
      have a := hi.lock2 hl k u h
      by_cases e' : u = t
      · subst e'
        simp only [Function.update_self]
        exact ⟨(fun h => nomatch h), a.2⟩
      · simp only [Function.update_of_ne e']; exact a
    · intro u op' rest' v h1 h2
      by_cases e : u = t
      · subst e
        simp only [Function.update_self] at h1 h2
        rw [hops] at h1
        rw [← (List.cons.inj h1).1]
        exact (Phase.loaded.inj h2).symm
      · simp only [Function.update_of_ne e] at h1 h2
        exact hi.val u op' rest' v h1 h2
  | store t op rest v hops hph =>
    have hv := hi.val t op rest v hops hph
    subst hv
    have hni : (s.thr t).phase ≠ .idle := by rw [hph]; exact fun h => nomatch h
    refine ⟨H ++ [(t, op, (op.run (s.mem op.key)).2)], ⟨serial_append H t op _ mem s.mem hi.ser rfl, ?_, ?_, ?_, ?_⟩⟩
    · intro u
      rw [ofThread_append]
      by_cases e : u = t
      · subst e
        simp only [Function.update_self, if_true]
        cases hi.pos u with
        | before pre hf hp hw he =>
          exact .after pre op rest _ hf rfl hops (by rw [hw, hops]) (by rw [he])
        | after pre o r ok hf hp ho hw he => rw [hph] at hp; exact nomatch hp
        | stopped pre o r hf hp ho hw he => rw [ho] at hops; simp at hops
      · simp only [Function.update_of_ne e]
        rw [if_neg (fun h => e h.symm), List.append_nil]
        exact hi.pos u
    · intro hl u op' rest' h1 h2
      by_cases e : u = t
      · subst e
        simp only [Function.update_self] at h1
        exact hi.lock1 hl u op' rest' h1 hni
      · simp only [Function.update_of_ne e] at h1 h2
        exact hi.lock1 hl u op' rest' h1 h2
    · intro hl k u h
      have a := hi.lock2 hl k u h
      by_cases e' : u = t
      · subst e'
        simp only [Function.update_self]
        exact ⟨(fun h => nomatch h), a.2⟩
      · simp only [Function.update_of_ne e']; exact a
    · intro u op' rest' w h1 h2
      by_cases e : u = t
      · subst e
        simp only [Function.update_self] at h2
        exact nomatch h2
      · simp only [Function.update_of_ne e] at h1 h2
        have hne := excl u t op' rest' op rest e h1 hops (by rw [h2]; exact fun h => nomatch h) hni
        simp only [Function.update_of_ne hne]
        exact hi.val u op' rest' w h1 h2
  | release t op rest ok hops hph =>
    have hni : (s.thr t).phase ≠ .idle := by rw [hph]; exact fun h => nomatch h
    refine ⟨H, ⟨hi.ser, ?_, ?_, ?_, ?_⟩⟩
    · intro u
      by_cases e : u = t
      · subst e
        simp only [Function.update_self]
        cases hi.pos u with
        | before pre hf hp hw he => exact absurd hph (hp ok)
        | stopped pre o r hf hp ho hw he => rw [ho] at hops; simp at hops
        | after pre o r ok' hf hp ho hw he =>
          have : ok' = ok := by rw [hph] at hp; exact (Phase.stored.inj hp).symm
          subst this
          rw [hops] at ho
          obtain ⟨rfl, rfl⟩ := List.cons.inj ho
          cases ok' with
          | true =>
            refine .before (pre ++ [op]) rfl (fun ok h => nomatch h) ?_ ?_
            · show work u = pre ++ [op] ++ (s.thr u).ops.tail
              rw [hw, hops]; simp
            · rw [he]; simp
          | false => exact .stopped pre op rest rfl rfl rfl hw he
      · simp only [Function.update_of_ne e]; exact hi.pos u
    · intro hl u op' rest' h1 h2
      simp only [hl, if_true]
      by_cases e : u = t
      · subst e
        simp only [Function.update_self] at h2
        exact absurd rfl h2
      · simp only [Function.update_of_ne e] at h1 h2
        have hne := excl u t op' rest' op rest e h1 hops h2 hni
        rw [Function.update_of_ne hne]
        exact hi.lock1 hl u op' rest' h1 h2
    · intro hl k u h
      simp only [hl, if_true] at h
      by_cases e : k = op.key
      · subst e; rw [Function.update_self] at h; exact absurd h (by simp)
      · rw [Function.update_of_ne e] at h
        have a := hi.lock2 hl k u h
        by_cases e' : u = t
        · subst e'
          obtain ⟨_, o, r, ho, hk⟩ := a
          rw [hops] at ho
          rw [(List.cons.inj ho).1] at e
          exact absurd hk.symm e
        · simp only [Function.update_of_ne e']; exact a
    · intro u op' rest' w h1 h2
      by_cases e : u = t
      · subst e
        simp only [Function.update_self] at h2
        exact nomatch h2
      · simp only [Function.update_of_ne e] at h1 h2
        exact hi.val u op' rest' w h1 h2

theorem inv_steps {useLock : Bool} {mem : Nat → σ} {work : Nat → List (Op σ)}
    (hex : useLock = true ∨ ∀ t, t ≠ 0 → work t = []) {s : St σ} (h : Steps useLock (start mem work) s) :
    ∃ H, Inv useLock mem work s H := by
  induction h with
  | refl => exact ⟨[], inv_start useLock mem work⟩
  | step h1 h2 ih =>
    obtain ⟨H, hi⟩ := ih
    exact inv_step hex hi h2

/-- Every finished execution, with any interleaving of any number of threads under the row locks, or of one thread
without locks, changes the rows as some execution of the same updates one after the other; every thread has done all its
work or everything up to the first update that made it stop. -/
theorem locked_serial (useLock : Bool) (mem : Nat → σ) (work : Nat → List (Op σ))
    (hex : useLock = true ∨ ∀ t, t ≠ 0 → work t = []) (s : St σ) (h : Steps useLock (start mem work) s) (hd : Done s) :
    ∃ H, Serial H mem s.mem ∧ ∀ t, Ran (work t) (s.thr t).failed (ofThread t H) := by
  obtain ⟨H, hi⟩ := inv_steps hex h
  refine ⟨H, hi.ser, ?_⟩
  intro t
  unfold Ran
  cases hi.pos t with
  | before pre hf hp hw he =>
    rw [hd t, List.append_nil] at hw
    rw [hf, hw]
    simpa using he
  | after pre op rest ok hf hp ho hw he =>
    rw [hd t] at ho; simp at ho
  | stopped pre op rest hf hp ho hw he =>
    rw [hf]
    exact ⟨pre, op, rest, hw, he⟩

/-- the work of two threads adding 1 and 2 to the same row -/
def exWork : Nat → List (Op Nat)
  | 0 => [⟨7, fun x => (x + 1, true)⟩]
  | 1 => [⟨7, fun x => (x + 2, true)⟩]
  | _ => []

example : (true = true ∨ ∀ t, t ≠ 0 → exWork t = []) ∧ exWork 1 ≠ [] := ⟨Or.inl rfl, by simp [exWork]⟩

/-- An unfinished execution can always go on: the locks never block all threads. -/
theorem locked_progress (useLock : Bool) (mem : Nat → σ) (work : Nat → List (Op σ))
    (hex : useLock = true ∨ ∀ t, t ≠ 0 → work t = []) (s : St σ) (h : Steps useLock (start mem work) s)
    (hd : ¬ Done s) : ∃ s', Step useLock s s' := by
  obtain ⟨H, hi⟩ := inv_steps hex h
  -- a thread inside an update can go on
  have busy : ∀ t op rest, (s.thr t).ops = op :: rest → (s.thr t).phase ≠ .idle → ∃ s', Step useLock s s' := by
    intro t op rest hops hni
    cases hp : (s.thr t).phase with
    | idle => exact absurd hp hni
    | locked => exact ⟨_, .load s t op rest hops hp⟩
    | loaded v => exact ⟨_, .store s t op rest v hops hp⟩
    | stored ok => exact ⟨_, .release s t op rest ok hops hp⟩
  have : ∃ t, (s.thr t).ops ≠ [] := by
    apply Classical.byContradiction
    intro hn
    exact hd (fun t => Classical.byContradiction (fun h => hn ⟨t, h⟩))
  obtain ⟨t, ht⟩ := this
  obtain ⟨op, rest, hops⟩ := List.exists_cons_of_ne_nil ht
  by_cases hni : (s.thr t).phase = .idle
  · by_cases hfree : useLock = true → s.lock op.key = none
    · exact ⟨_, .acquire s t op rest hops hni hfree⟩
    · have hl : useLock = true := by
        cases useLock with
        | true => rfl
        | false => exact absurd (fun h => Bool.noConfusion h) hfree
      cases hk : s.lock op.key with
      | none => exact absurd (fun _ => hk) hfree
      | some u =>
        obtain ⟨h1, o, r, h2, _⟩ := hi.lock2 hl _ u hk
        exact busy u o r h2 h1
  · exact busy t op rest hops hni

example : ¬ Done (start (fun _ => 0) exWork) := fun h => absurd (h 0) (by simp [start, exWork])

/-- The locks are needed: two threads without locks can lose an update. -/
theorem unlocked_wrong : ∃ s : St Nat, Steps false (start (fun _ => 0) exWork) s ∧ Done s ∧ s.mem 7 = 2 := by
  let t1 : List (Op Nat) := [⟨7, fun x => (x + 1, true)⟩]
  let t2 : List (Op Nat) := [⟨7, fun x => (x + 2, true)⟩]
  have h0 : ∀ t, (exWork t) = if t = 0 then t1 else if t = 1 then t2 else [] := by
    intro t
    match t with
    | 0 => rfl
    | 1 => rfl
    | n + 2 => simp [exWork]
  have S0 := Steps.refl (useLock := false) (start (fun _ => 0) exWork)
  have S1 := S0.step (.acquire _ 0 _ [] rfl rfl (fun h => Bool.noConfusion h))
  have S2 := S1.step (.acquire _ 1 _ [] rfl rfl (fun h => Bool.noConfusion h))
  have S3 := S2.step (.load _ 0 _ [] rfl rfl)
  have S4 := S3.step (.load _ 1 _ [] rfl rfl)
  have S5 := S4.step (.store _ 0 _ [] _ rfl rfl)
  have S6 := S5.step (.release _ 0 _ [] _ rfl rfl)
  have S7 := S6.step (.store _ 1 _ [] _ rfl rfl)
  have S8 := S7.step (.release _ 1 _ [] _ rfl rfl)
  refine ⟨_, S8, ?_, rfl⟩
  intro t
  match t with
  | 0 => rfl
  | 1 => rfl
  | n + 2 => rfl

theorem steps_trans {useLock : Bool} {a b c : St σ} (h1 : Steps useLock a b) (h2 : Steps useLock b c) : Steps useLock a c := by
  induction h2 with
  | refl => exact h1
  | step _ h ih => exact .step ih h

theorem thread_run (useLock : Bool) (t : Nat) : ∀ (n : Nat) (s : St σ), (s.thr t).ops.length = n → (s.thr t).phase = .idle →
    (∀ k, s.lock k = none) → ∃ s', Steps useLock s s' ∧ (s'.thr t).ops = [] ∧ (∀ k, s'.lock k = none) ∧
      ∀ u, u ≠ t → s'.thr u = s.thr u := by
  intro n
  induction n using Nat.strongRecOn with
  | ind n ih =>
    intro s hn hp hk
    match ho : (s.thr t).ops with
    | [] => exact ⟨s, .refl s, ho, hk, fun _ _ => rfl⟩
    | op :: rest =>
      have e1 := Step.acquire (useLock := useLock) s t op rest ho hp (fun _ => hk _)
      have e2 := Step.load (useLock := useLock) _ t op rest (by
        show (Function.update s.thr t { s.thr t with phase := .locked } t).ops = _
        rw [Function.update_self]; exact ho) (by
        show (Function.update s.thr t { s.thr t with phase := .locked } t).phase = _
        rw [Function.update_self]) |> Steps.step (Steps.step (.refl s) e1)
      generalize hs2 : ({ mem := s.mem
                          lock := if useLock then Function.update s.lock op.key (some t) else s.lock
                          thr := Function.update (Function.update s.thr t { s.thr t with phase := .locked }) t
                            { Function.update s.thr t { s.thr t with phase := .locked } t with
                              phase := .loaded (s.mem op.key) } } : St σ) = s2 at e2
      have h2o : (s2.thr t).ops = op :: rest := by
        rw [← hs2]
        simp only [Function.update_self]; exact ho
      have h2p : (s2.thr t).phase = .loaded (s.mem op.key) := by
        rw [← hs2]
        simp only [Function.update_self]
      have h2u : ∀ u, u ≠ t → s2.thr u = s.thr u := by
        intro u hu
        rw [← hs2]; show Function.update _ t _ u = _
        rw [Function.update_of_ne hu, Function.update_of_ne hu]
      have h2l : s2.lock = if useLock then Function.update s.lock op.key (some t) else s.lock := by rw [← hs2]
      have e3 := Step.store (useLock := useLock) s2 t op rest _ h2o h2p |> Steps.step e2
      generalize hs3 : ({ s2 with mem := Function.update s2.mem op.key (op.run (s.mem op.key)).1
                                  thr := Function.update s2.thr t
                                    { s2.thr t with phase := .stored (op.run (s.mem op.key)).2 } } : St σ) = s3 at e3
      have h3o : (s3.thr t).ops = op :: rest := by
        rw [← hs3]
        simp only [Function.update_self]; exact h2o
      have h3p : (s3.thr t).phase = .stored (op.run (s.mem op.key)).2 := by
        rw [← hs3]
        simp only [Function.update_self]
      have h3u : ∀ u, u ≠ t → s3.thr u = s.thr u := by
        intro u hu
        rw [← hs3]; show Function.update _ t _ u = _
        rw [Function.update_of_ne hu, h2u u hu]
      have h3l : s3.lock = if useLock then Function.update s.lock op.key (some t) else s.lock := by rw [← hs3, ← h2l]
      have e4 := Step.release (useLock := useLock) s3 t op rest _ h3o h3p |> Steps.step e3
      generalize hs4 : ({ s3 with lock := if useLock then Function.update s3.lock op.key none else s3.lock
                                  thr := Function.update s3.thr t
                                    (after (op.run (s.mem op.key)).2 (s3.thr t)) } : St σ) = s4 at e4
      have h4u : ∀ u, u ≠ t → s4.thr u = s.thr u := by
        intro u hu
        rw [← hs4]; show Function.update _ t _ u = _
        rw [Function.update_of_ne hu, h3u u hu]
      have h4t : s4.thr t = after (op.run (s.mem op.key)).2 (s3.thr t) := by
        rw [← hs4]; show Function.update _ t _ t = _
        rw [Function.update_self]
      have h4l : ∀ k, s4.lock k = none := by
        intro k
        rw [← hs4]
        show (if useLock then Function.update s3.lock op.key none else s3.lock) k = none
        rw [h3l]
        cases useLock with
        | false => exact hk k
        | true =>
          simp only [if_true]
          by_cases hkk : k = op.key
          · subst hkk; rw [Function.update_self]
          · rw [Function.update_of_ne hkk, Function.update_of_ne hkk]; exact hk k
      have hlen : (s4.thr t).ops.length < n := by
        rw [h4t]
        show (if (op.run (s.mem op.key)).2 = true then (s3.thr t).ops.tail else []).length < n
        rw [h3o, ← hn, ho]
        split <;> simp
      obtain ⟨s', r1, r2, r3, r4⟩ := ih _ hlen s4 rfl (by rw [h4t]; rfl) h4l
      exact ⟨s', steps_trans e4 r1, r2, r3, fun u hu => by rw [r4 u hu, h4u u hu]⟩

/-- Finished executions exist for any finite number of threads with any work: the statements about them are not empty. -/
theorem run_exists (useLock : Bool) (mem : Nat → σ) (work : Nat → List (Op σ)) (T : Nat) (hT : ∀ t, T ≤ t → work t = []) :
    ∃ s, Steps useLock (start mem work) s ∧ Done s := by
  have : ∀ k, k ≤ T → ∃ s, Steps useLock (start mem work) s ∧ (∀ t, t < k → (s.thr t).ops = []) ∧ (∀ j, s.lock j = none) ∧
      ∀ t, k ≤ t → s.thr t = (start mem work).thr t := by
    intro k
    induction k with
    | zero => intro _; exact ⟨_, .refl _, fun t h => absurd h (by omega), fun _ => rfl, fun _ _ => rfl⟩
    | succ k ih =>
      intro hk
      obtain ⟨s, h1, h2, h3, h4⟩ := ih (by omega)
      obtain ⟨s', r1, r2, r3, r4⟩ := thread_run useLock k _ s rfl (by rw [h4 k (Nat.le_refl _)]; rfl) h3
      refine ⟨s', steps_trans h1 r1, ?_, r3, ?_⟩
      · intro t ht
        by_cases e : t = k
        · rw [e]; exact r2
        · rw [r4 t e]; exact h2 t (by omega)
      · intro t ht
        rw [r4 t (by omega)]
        exact h4 t (by omega)
  obtain ⟨s, h1, h2, _, h4⟩ := this T (Nat.le_refl _)
  refine ⟨s, h1, ?_⟩
  intro t
  by_cases h : t < T
  · exact h2 t h
  · rw [h4 t (by omega)]; exact hT t (by omega)

example : ∀ t, 2 ≤ t → exWork t = [] := by
  intro t h
  match t, h with
  | t + 2, _ => rfl

end Verif.Locking
