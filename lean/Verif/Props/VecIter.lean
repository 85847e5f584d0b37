import Verif.Model.VecIter
import Mathlib.Data.List.Range
import Mathlib.Data.List.Nodup
import Mathlib.Data.List.Perm.Basic

/-!
Properties C77 (the iterator over the global numbers) and C78 (ownership of tags).
-/
namespace Verif.VecIter

/-! ### C77 -/

/-- what a program can do with an iterator -/
inductive Op
  | inc | dec | add (n : Int) | sub (n : Int) | at' (n : Int) | look

/-- the same on a number -/
def Op.move : Op → Int
  | .inc => 1 | .dec => -1 | .add n => n | .sub n => -n | .at' n => n | .look => 0

section
variable {N : Type} (bad : N) (ok : N → Bool) (enum : Int → N)

/-- one operation with the code of the iterator -/
def step (i : It N) : Op → It N
  | .inc => VecIter.inc bad i
  | .dec => VecIter.dec bad i
  | .add n => VecIter.add bad i n
  | .sub n => VecIter.sub bad i n
  | .at' n => VecIter.at' bad i n
  | .look => (get ok enum i).2

theorem step_ok (i : It N) (o : Op) (hb : ok bad = false) (h : ok i.nid = true → i.nid = enum i.eid) :
    (step bad ok enum i o).eid = i.eid + o.move ∧
      (ok (step bad ok enum i o).nid = true → (step bad ok enum i o).nid = enum (step bad ok enum i o).eid) := by
  cases o with
  | inc => exact ⟨rfl, fun h => by simp [step, inc, hb] at h⟩
  | dec => exact ⟨by simp [step, dec, Op.move]; omega, fun h => by simp [step, dec, hb] at h⟩
  | add n => exact ⟨rfl, fun h => by simp [step, add, hb] at h⟩
  | sub n => exact ⟨by simp [step, sub, Op.move]; omega, fun h => by simp [step, sub, hb] at h⟩
  | at' n =>
    by_cases hn : n = 0
    · subst hn
      simp only [step, at', Op.move]
      exact ⟨by simp, by simpa using h⟩
    · simp only [step, at', Op.move, hn, ne_eq, not_false_eq_true, if_true]
      exact ⟨trivial, fun h => by simp [hb] at h⟩
  | look =>
    refine ⟨by simp [step, get, Op.move], fun _ => ?_⟩
    simp only [step, get]
    split
    · next hk => exact h hk
    · rfl

/-- **C77** (position and cache): after any operations the iterator has the number which the operations give on integers, and
`GetNatInd` returns the mesh position of this number, whatever was remembered on the way. -/
theorem iterator_position (hb : ok bad = false) (b : Int) (ops : List Op) :
    (ops.foldl (step bad ok enum) (start bad b)).eid = b + (ops.map Op.move).sum ∧
      (get ok enum (ops.foldl (step bad ok enum) (start bad b))).1 = enum (b + (ops.map Op.move).sum) := by
  have key : ∀ (ops : List Op) (i : It N), (ok i.nid = true → i.nid = enum i.eid) →
      (ops.foldl (step bad ok enum) i).eid = i.eid + (ops.map Op.move).sum ∧
      (ok (ops.foldl (step bad ok enum) i).nid = true →
        (ops.foldl (step bad ok enum) i).nid = enum (ops.foldl (step bad ok enum) i).eid) := by
    intro ops
    induction ops with
    | nil => exact fun i h => ⟨by simp, h⟩
    | cons o ops ih =>
      intro i h
      obtain ⟨h1, h2⟩ := step_ok bad ok enum i o hb h
      obtain ⟨h3, h4⟩ := ih _ h2
      refine ⟨?_, h4⟩
      rw [List.foldl_cons, h3, h1, List.map_cons, List.sum_cons]
      omega
  obtain ⟨h1, h2⟩ := key ops (start bad b) (fun h => by simp [start, hb] at h)
  have e : (start bad b).eid = b := rfl
  rw [e] at h1
  refine ⟨h1, ?_⟩
  rw [← h1]
  simp only [get]
  split
  · next hk => exact h2 hk
  · rfl

/-- **C77** (the loop): from the begin to the end of the range of the process the loop meets the mesh positions of all numbers
of the range, in order. -/
theorem loop_range (hb : ok bad = false) (b : Int) (k n : Nat) (hn : k ≤ n) :
    loop bad ok enum (start bad (b + k)) n (start bad b) = (List.range k).map fun j : Nat => enum (b + j) := by
  induction k generalizing b n with
  | zero => cases n <;> simp [loop, ne, eq, start]
  | succ k ih =>
    obtain ⟨n, rfl⟩ : ∃ n', n = n' + 1 := ⟨n - 1, by omega⟩
    have hne : ne (start bad b) (start bad (b + (k + 1 : Nat))) = true := by
      have h : eq (start bad b) (start bad (b + (k + 1 : Nat))) = false :=
        decide_eq_false (show ¬ b = b + ((k + 1 : Nat) : Int) by omega)
      rw [ne, h]
      rfl
    have hi : inc bad (get ok enum (start bad b)).2 = start bad (b + 1) := rfl
    have hg : (get ok enum (start bad b)).1 = enum b := by simp [get, start, hb]
    have he : b + ((k + 1 : Nat) : Int) = (b + 1) + (k : Nat) := by omega
    rw [loop, if_pos hne]
    simp only [hi, hg]
    rw [he, ih (b + 1) n (by omega), List.range_succ_eq_map, List.map_cons, List.map_map]
    congr 1
    · simp
    · refine List.map_congr_left fun j _ => ?_
      simp only [Function.comp_apply]
      congr 1
      omega

/-- **C77** (comparisons and differences): five comparisons and the difference are those of the numbers; moving by the
difference leads from one iterator to the other. -/
theorem comparisons_partial (a b : It N) :
    (eq a b = true ↔ a.eid = b.eid) ∧ (ne a b = true ↔ a.eid ≠ b.eid) ∧ (lt a b = true ↔ a.eid < b.eid) ∧
      (gt a b = true ↔ b.eid < a.eid) ∧ (le a b = true ↔ a.eid ≤ b.eid) ∧ eq (add bad a (diff b a)) b = true := by
  refine ⟨?_, ?_, ?_, ?_, ?_, ?_⟩
  · simp [eq]
  · simp [ne, eq]
  · simp [lt]
  · simp [gt]
  · simp [le]
  · show decide (a.eid + (b.eid - a.eid) = b.eid) = true
    exact decide_eq_true (by omega)

/-- **C77 fails for `>=`**: it answers the opposite for every two iterators. -/
theorem ge_wrong (a b : It N) : ge a b = true ↔ ¬ b.eid ≤ a.eid := by
  simp [ge]

end

/-- a numbering of a process with the numbers 5, 6, 7; 99 is the invalid position -/
example : loop 99 (fun v => decide (v < 90)) (fun i => (i * 10).toNat) (start 99 8) 10 (start 99 5) = [50, 60, 70] ∧
    (get (fun v => decide (v < 90)) (fun i => (i * 10).toNat)
      ([Op.inc, .look, .add 3, .look, .sub 2, .at' 0].foldl (step 99 (fun v => decide (v < 90)) fun i => (i * 10).toNat)
        (start 99 5))).1 = 70 := by decide

example : ge (start 0 5) (start 0 5) = false ∧ ge (start 0 4) (start 0 5) = true := by decide

/-! ### C78 -/

/-- the uses of owners of tags -/
inductive Use
  | create (i t : Nat) | clear (i : Nat) | moveNew (i j : Nat) | moveAssign (i j : Nat)

/-- the mesh gives new tags; a move constructor fills an owner which holds nothing -/
def Use.Ok (s : Tags) : Use → Prop
  | .create _ t => t ∉ s.live ∧ t ∉ s.deleted
  | .clear _ => True
  | .moveNew i j => s.owner i = none ∧ i ≠ j
  | .moveAssign _ _ => True

/-- one use with the code -/
def use (s : Tags) : Use → Tags
  | .create i t => VecIter.create s i t
  | .clear i => VecIter.clear s i
  | .moveNew i j => VecIter.moveNew s i j
  | .moveAssign i j => VecIter.moveAssign s i j

/-- the states after allowed uses, from the beginning -/
inductive Reach : Tags → Prop
  | init : Reach ⟨[], [], fun _ => none⟩
  | step {s : Tags} (u : Use) : Reach s → u.Ok s → Reach (use s u)

/-- the states after allowed uses in which nothing is assigned to an owner holding a tag -/
inductive ReachEmpty : Tags → Prop
  | init : ReachEmpty ⟨[], [], fun _ => none⟩
  | step {s : Tags} (u : Use) : ReachEmpty s → u.Ok s → (∀ i j, u = .moveAssign i j → i ≠ j → s.owner i = none) →
      ReachEmpty (use s u)

/-- tags of the owners exist, no tag has two owners, no tag is deleted twice, a deleted tag does not exist -/
structure Safe (s : Tags) : Prop where
  owned : ∀ i t, s.owner i = some t → t ∈ s.live
  single : ∀ i j t, s.owner i = some t → s.owner j = some t → i = j
  once : s.deleted.Nodup
  gone : ∀ t ∈ s.deleted, t ∉ s.live
  live : s.live.Nodup

theorem safe_clear (s : Tags) (h : Safe s) (i : Nat) : Safe (clear s i) := by
  unfold clear
  cases ho : s.owner i with
  | none => exact h
  | some t =>
    have ht := h.owned i t ho
    simp only
    refine ⟨fun k t' hk => ?_, fun k k' t' hk hk' => ?_, ?_, fun t' ht' => ?_, h.live.erase _⟩
    · simp only [setOwner] at hk
      split at hk
      · exact absurd hk (by simp)
      · next hne =>
        rw [h.live.mem_erase_iff]
        exact ⟨fun e => hne (h.single k i t (e ▸ hk) ho), h.owned k t' hk⟩
    · simp only [setOwner] at hk hk'
      split at hk <;> split at hk' <;> first | exact absurd hk (by simp) | exact absurd hk' (by simp) | exact h.single _ _ _ hk hk'
    · exact List.nodup_cons.2 ⟨fun hd => h.gone t hd ht, h.once⟩
    · rw [h.live.mem_erase_iff]
      rcases List.mem_cons.1 ht' with rfl | ht'
      · exact fun hx => hx.1 rfl
      · exact fun hx => h.gone t' ht' hx.2

theorem clear_owner (s : Tags) (i : Nat) : (clear s i).owner i = none := by
  unfold clear
  cases ho : s.owner i with
  | none => exact ho
  | some t => simp [setOwner]

theorem clear_known (s : Tags) (h : Safe s) (i t : Nat) (h1 : t ∉ s.live) (h2 : t ∉ s.deleted) :
    t ∉ (clear s i).live ∧ t ∉ (clear s i).deleted := by
  unfold clear
  cases ho : s.owner i with
  | none => exact ⟨h1, h2⟩
  | some t' =>
    have := h.owned i t' ho
    refine ⟨fun hx => h1 (List.mem_of_mem_erase hx), fun hx => ?_⟩
    rcases List.mem_cons.1 hx with rfl | hx
    · exact h1 this
    · exact h2 hx

theorem safe_transfer (s : Tags) (h : Safe s) (i j : Nat) :
    Safe { s with owner := setOwner (setOwner s.owner i (s.owner j)) j none } := by
  have val : ∀ k t, setOwner (setOwner s.owner i (s.owner j)) j none k = some t →
      (k = i ∧ s.owner j = some t) ∨ (k ≠ i ∧ k ≠ j ∧ s.owner k = some t) := by
    intro k t hk
    simp only [setOwner] at hk
    by_cases hkj : k = j
    · simp [hkj] at hk
    · rw [if_neg hkj] at hk
      by_cases hki : k = i
      · rw [if_pos hki] at hk
        exact Or.inl ⟨hki, hk⟩
      · rw [if_neg hki] at hk
        exact Or.inr ⟨hki, hkj, hk⟩
  refine ⟨fun k t hk => ?_, fun k k' t hk hk' => ?_, h.once, h.gone, h.live⟩
  · rcases val k t hk with ⟨-, h'⟩ | ⟨-, -, h'⟩ <;> exact h.owned _ _ h'
  · rcases val k t hk with ⟨a, h'⟩ | ⟨a, b, h'⟩ <;> rcases val k' t hk' with ⟨a', h''⟩ | ⟨a', b', h''⟩
    · rw [a, a']
    · exact absurd (h.single _ _ _ h'' h') b'
    · exact absurd (h.single _ _ _ h' h'') b
    · exact h.single _ _ _ h' h''

/-- **C78** (no tag is deleted twice, no owner has a deleted tag): in every state reached by creating, clearing (also by the
destructor), moving and assigning. -/
theorem tags_safe (s : Tags) (h : Reach s) : Safe s := by
  induction h with
  | init => exact ⟨nofun, nofun, List.nodup_nil, nofun, List.nodup_nil⟩
  | @step s u hr hu ih =>
    cases u with
    | clear i => exact safe_clear s ih i
    | moveNew i j => exact safe_transfer s ih i j
    | moveAssign i j =>
      simp only [use, moveAssign]
      split
      · exact ih
      · exact safe_transfer s ih i j
    | create i t =>
      have hc := safe_clear s ih i
      have hk := clear_known s ih i t hu.1 hu.2
      simp only [use, VecIter.create]
      refine ⟨fun k t' hk' => ?_, fun k k' t' h1 h2 => ?_, hc.once, fun t' ht' hx => ?_, List.nodup_cons.2 ⟨hk.1, hc.live⟩⟩
      · simp only [setOwner] at hk'
        split at hk'
        · cases hk'
          exact List.mem_cons_self
        · exact List.mem_cons_of_mem _ (hc.owned _ _ hk')
      · simp only [setOwner] at h1 h2
        split at h1 <;> split at h2
        · next a b => rw [a, b]
        · cases h1
          exact absurd (hc.owned _ _ h2) hk.1
        · cases h2
          exact absurd (hc.owned _ _ h1) hk.1
        · exact hc.single _ _ _ h1 h2
      · rcases List.mem_cons.1 hx with rfl | hx
        · exact hk.2 ht'
        · exact hc.gone _ ht' hx

/-- every existing tag has an owner, so it will be deleted -/
def NoLeak (s : Tags) : Prop := ∀ t ∈ s.live, ∃ i, s.owner i = some t

theorem reach_of_empty {s : Tags} (h : ReachEmpty s) : Reach s := by
  induction h with
  | init => exact .init
  | step u _ hu _ ih => exact .step u ih hu

theorem noLeak_clear (s : Tags) (h : Safe s) (hl : NoLeak s) (i : Nat) : NoLeak (clear s i) := by
  unfold clear
  cases ho : s.owner i with
  | none => exact hl
  | some t =>
    intro t' ht'
    obtain ⟨hne, ht'⟩ := (h.live.mem_erase_iff).1 ht'
    obtain ⟨k, hk⟩ := hl t' ht'
    refine ⟨k, ?_⟩
    have : k ≠ i := by
      rintro rfl
      rw [ho] at hk
      exact hne (Option.some.inj hk).symm
    simp [setOwner, this, hk]

theorem noLeak_transfer (s : Tags) (hl : NoLeak s) (i j : Nat) (hij : i ≠ j) (hi : s.owner i = none) :
    NoLeak { s with owner := setOwner (setOwner s.owner i (s.owner j)) j none } := by
  intro t ht
  obtain ⟨k, hk⟩ := hl t ht
  by_cases hkj : k = j
  · subst hkj
    exact ⟨i, by simp [setOwner, hij, hk]⟩
  · have hki : k ≠ i := by
      rintro rfl
      rw [hi] at hk
      exact absurd hk (by simp)
    exact ⟨k, by simp [setOwner, hkj, hki, hk]⟩

/-- **C78** (no tag is lost).  Proved when nothing is assigned to an owner which holds a tag; missing: such assignments, where
it is false (`assign_leaks_wrong`). -/
theorem tags_owned_partial (s : Tags) (h : ReachEmpty s) : NoLeak s := by
  induction h with
  | init => exact nofun
  | @step s u hr hu he ih =>
    have hs := tags_safe s (reach_of_empty hr)
    cases u with
    | clear i => exact noLeak_clear s hs ih i
    | moveNew i j => exact noLeak_transfer s ih i j hu.2 hu.1
    | moveAssign i j =>
      simp only [use, moveAssign]
      split
      · exact ih
      · next hij => exact noLeak_transfer s ih i j hij (he i j rfl hij)
    | create i t =>
      have hc := noLeak_clear s hs ih i
      intro t' ht'
      simp only [use, VecIter.create] at ht' ⊢
      rcases List.mem_cons.1 ht' with rfl | ht'
      · exact ⟨i, by simp [setOwner]⟩
      · obtain ⟨k, hk⟩ := hc t' ht'
        have : k ≠ i := by
          rintro rfl
          rw [clear_owner] at hk
          exact absurd hk (by simp)
        exact ⟨k, by simp [setOwner, this, hk]⟩

/-- an owner is moved into an array element and destroyed -/
example : ReachEmpty (use (use (use ⟨[], [], fun _ => none⟩ (.create 0 7)) (.moveNew 1 0)) (.clear 1)) ∧
    (use (use (use ⟨[], [], fun _ => none⟩ (.create 0 7)) (.moveNew 1 0)) (.clear 1)).deleted = [7] := by
  refine ⟨.step _ (.step _ (.step _ .init ?_ ?_) ?_ ?_) trivial ?_, by decide⟩
  · exact ⟨by decide, by decide⟩
  · exact fun _ _ h => nomatch h
  · exact ⟨by decide, by decide⟩
  · exact fun _ _ h => nomatch h
  · exact fun _ _ h => nomatch h

/-- **C78 fails for assignment to an owner holding a tag**: whenever an owner with the tag `t` is assigned from another owner,
`t` goes on to exist and nobody owns it, so nothing will delete it. -/
theorem assign_leaks_wrong (s : Tags) (h : Reach s) (i j t : Nat) (hij : i ≠ j) (hi : s.owner i = some t) :
    t ∈ (use s (.moveAssign i j)).live ∧ ∀ k, (use s (.moveAssign i j)).owner k ≠ some t := by
  have hs := tags_safe s h
  simp only [use, moveAssign, hij, if_false]
  refine ⟨hs.owned i t hi, fun k => ?_⟩
  simp only [setOwner]
  split
  · simp
  · split
    · exact fun hk => hij (hs.single i j t hi hk)
    · next hki => exact fun hk => hki (hs.single k i t hk hi)

/-- two enumerators are set up, one is assigned to the other -/
example : (use (use (use ⟨[], [], fun _ => none⟩ (.create 0 7)) (.create 1 8)) (.moveAssign 0 1)).live = [8, 7] ∧
    (use (use (use ⟨[], [], fun _ => none⟩ (.create 0 7)) (.create 1 8)) (.moveAssign 0 1)).owner 0 = some 8 := by decide

end Verif.VecIter
