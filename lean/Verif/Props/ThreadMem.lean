import Verif.Model.ThreadMem
import Mathlib.Data.List.Perm.Basic

/-!
Property C16: exclusivity of thread memory slots.  A history is any sequence of requests of any number of threads in which
only held slots are released; `held` is the list of all slots held by anyone.
-/
namespace Verif.ThreadMem

/-- the pool and the held slots after a history -/
def run (x : Pool × List Nat) (ops : List Op) : Pool × List Nat :=
  ops.foldl (fun x op => ((x.1.step op).2, heldAfter x.2 (x.1.step op).1 op)) x

/-- only held slots are released -/
def LegalFrom (x : Pool × List Nat) : List Op → Prop
  | [] => True
  | op :: ops => Legal x.2 op ∧ LegalFrom ((x.1.step op).2, heldAfter x.2 (x.1.step op).1 op) ops

/-- every slot is either held once or unused once -/
def Inv (x : Pool × List Nat) : Prop := (x.2 ++ x.1.unused).Perm (List.range x.1.n)

theorem pushes_eq (l : List Nat) (b : Nat) : ∀ k, k ≤ b →
    (List.range k).foldl (fun l i => (b - i - 1) :: l) l = List.range' (b - k) k ++ l := by
  intro k
  induction k with
  | zero => intro _; rfl
  | succ k ih =>
    intro h
    rw [List.range_succ, List.foldl_append, ih (by omega)]
    simp only [List.foldl_cons, List.foldl_nil]
    rw [show b - (k + 1) = b - k - 1 by omega, show List.range' (b - k - 1) (k + 1) = (b - k - 1) :: List.range' (b - k) k by
      rw [List.range'_succ, show b - k - 1 + 1 = b - k by omega]]
    rfl

theorem perm_filter_split (l : List Nat) (p : Nat → Bool) : (l.filter (fun x => !p x) ++ l.filter p).Perm l := by
  induction l with
  | nil => exact List.Perm.refl _
  | cons x l ih =>
    by_cases h : p x
    · simp only [List.filter_cons, h]
      exact (List.perm_middle).trans (ih.cons x)
    · simp only [List.filter_cons, h]
      exact ih.cons x

theorem inv_step {x : Pool × List Nat} (h : Inv x) (op : Op) (hl : Legal x.2 op) :
    Inv ((x.1.step op).2, heldAfter x.2 (x.1.step op).1 op) := by
  obtain ⟨⟨n, unused⟩, held⟩ := x
  unfold Inv at h ⊢
  simp only at h hl
  cases op with
  | alloc =>
    simp only [Pool.step, Pool.alloc, heldAfter]
    cases unused with
    | nil =>
      simp only [List.append_nil] at h ⊢
      rw [List.range_succ]
      exact (List.perm_append_comm).trans (h.append_right [n])
    | cons id rest =>
      simp only
      exact (List.perm_middle (a := id) (l₁ := held) (l₂ := rest)).symm.trans h
  | release id =>
    simp only [Pool.step, Pool.release, heldAfter]
    refine List.Perm.trans ?_ h
    refine List.perm_middle.trans ?_
    exact (List.perm_cons_erase hl).symm.append_right unused
  | allocRange k =>
    simp only [Pool.step, Pool.allocRange, heldAfter]
    by_cases hr : unused.length = n
    · simp only [hr, decide_true, if_true, Nat.zero_add, List.append_nil]
      have hlen := h.length_eq
      rw [List.length_append, List.length_range] at hlen
      have : held = [] := List.eq_nil_of_length_eq_zero (by omega)
      subst this
      rw [List.append_nil, List.range_eq_range']
    · simp only [hr, decide_false, Bool.false_eq_true, if_false]
      rw [List.append_assoc]
      refine (List.perm_append_comm).trans ?_
      have e : List.range (n + k) = List.range n ++ List.range' n k := by
        rw [List.range_eq_range', List.range_eq_range', ← List.range'_append_1, Nat.zero_add]
      rw [e]
      exact h.append_right _
  | releaseRange a b =>
    obtain ⟨hab, hin⟩ := hl
    simp only [Pool.step, Pool.releaseRange, heldAfter]
    rw [pushes_eq _ _ _ (Nat.sub_le b a), show b - (b - a) = a by omega]
    refine List.Perm.trans ?_ h
    rw [← List.append_assoc]
    refine List.Perm.append_right unused ?_
    refine List.Perm.trans (List.Perm.append_left _ ?_) (perm_filter_split held fun x => decide (a ≤ x ∧ x < b))
    have hnd : held.Nodup := ((h.nodup_iff.2 List.nodup_range).sublist (List.sublist_append_left _ _))
    refine (List.perm_ext_iff_of_nodup (List.nodup_range') (hnd.filter _)).2 fun x => ?_
    rw [List.mem_range'_1, List.mem_filter]
    simp only [decide_eq_true_eq]
    constructor
    · intro hx; exact ⟨hin x hx.1 (by omega), hx.1, by omega⟩
    · intro hx; omega
  | releaseAll =>
    simp only [Pool.step, Pool.releaseAll, heldAfter, List.nil_append]
    have : (fun (l : List Nat) i => (n - 1 - i) :: l) = fun l i => (n - i - 1) :: l := by
      funext l i
      rw [show n - 1 - i = n - i - 1 by omega]
    rw [this, pushes_eq _ _ _ (Nat.le_refl n), Nat.sub_self, List.append_nil, List.range_eq_range']
  | clear =>
    simp only [Pool.step, Pool.clear, heldAfter, List.nil_append]
    exact List.Perm.refl _

theorem inv_run (ops : List Op) : ∀ x, Inv x → LegalFrom x ops → Inv (run x ops) := by
  induction ops with
  | nil => intro x h _; exact h
  | cons op ops ih => intro x h hl; exact ih _ (inv_step h op hl.1) hl.2

theorem inv_init : Inv (Pool.init, []) := List.Perm.refl _

/-- **C16** (exclusive): after any legal history nobody holds a slot twice, and every held slot exists. -/
theorem held_once (ops : List Op) (h : LegalFrom (Pool.init, []) ops) :
    (run (Pool.init, []) ops).2.Nodup ∧ ∀ id ∈ (run (Pool.init, []) ops).2, id < (run (Pool.init, []) ops).1.n := by
  have hi := inv_run ops _ inv_init h
  refine ⟨(hi.nodup_iff.2 List.nodup_range).sublist (List.sublist_append_left _ _), fun id hid => ?_⟩
  exact List.mem_range.1 (hi.mem_iff.1 (List.mem_append_left _ hid))

/-- **C16** (exclusive): the slot given by `alloc` is held by nobody, and exists afterwards. -/
theorem alloc_fresh (ops : List Op) (h : LegalFrom (Pool.init, []) ops) :
    (run (Pool.init, []) ops).1.alloc.1 ∉ (run (Pool.init, []) ops).2 ∧
    (run (Pool.init, []) ops).1.alloc.1 < (run (Pool.init, []) ops).1.alloc.2.n := by
  have hi := inv_run ops _ inv_init h
  generalize run (Pool.init, []) ops = x at hi
  obtain ⟨⟨n, unused⟩, held⟩ := x
  have h2 := inv_step hi .alloc True.intro
  have hn := h2.nodup_iff.2 List.nodup_range
  simp only [Pool.step, heldAfter] at hn
  refine ⟨fun hm => ?_, ?_⟩
  · have := hn.sublist (List.sublist_append_left _ _)
    exact (List.nodup_cons.1 this).1 hm
  · have := h2.mem_iff (a := (Pool.alloc ⟨n, unused⟩).1)
    exact List.mem_range.1 (this.1 (by simp [Pool.step, heldAfter]))

/-- **C16** (exclusive): the slots of the range given by `alloc_range` are held by nobody, and exist afterwards. -/
theorem allocRange_fresh (ops : List Op) (h : LegalFrom (Pool.init, []) ops) (k : Nat) :
    let r := (run (Pool.init, []) ops).1.allocRange k
    ∀ id, r.1 ≤ id → id < r.1 + k → id ∉ (run (Pool.init, []) ops).2 ∧ id < r.2.n := by
  have hi := inv_run ops _ inv_init h
  generalize run (Pool.init, []) ops = x at hi
  obtain ⟨⟨n, unused⟩, held⟩ := x
  intro r id h1 h3
  have h2 := inv_step hi (.allocRange k) True.intro
  have hn := h2.nodup_iff.2 List.nodup_range
  simp only [Pool.step, heldAfter] at hn
  have hr : id ∈ List.range' r.1 k := List.mem_range'_1.2 ⟨h1, h3⟩
  refine ⟨fun hm => ?_, ?_⟩
  · have := hn.sublist (List.sublist_append_left _ _)
    exact (List.nodup_append.1 this).2.2 id hr id hm rfl
  · have := h2.mem_iff (a := id)
    refine List.mem_range.1 (this.1 ?_)
    simp only [Pool.step, heldAfter]
    exact List.mem_append_left _ (List.mem_append_left _ hr)

/-- **C16** (reuse): `alloc` creates a new slot only if all existing slots are held. -/
theorem alloc_reuses (ops : List Op) (h : LegalFrom (Pool.init, []) ops)
    (hfree : ∃ id, id < (run (Pool.init, []) ops).1.n ∧ id ∉ (run (Pool.init, []) ops).2) :
    (run (Pool.init, []) ops).1.alloc.2.n = (run (Pool.init, []) ops).1.n := by
  have hi := inv_run ops _ inv_init h
  generalize run (Pool.init, []) ops = x at hi hfree
  obtain ⟨⟨n, unused⟩, held⟩ := x
  obtain ⟨id, h1, h2⟩ := hfree
  have := hi.mem_iff.2 (List.mem_range.2 h1)
  rcases List.mem_append.1 this with h3 | h3
  · exact absurd h3 h2
  · cases unused with
    | nil => cases h3
    | cons a r => rfl

/-- **C16** (reuse of ranges), only when nothing is held: then the range starts at slot 0 and exactly its slots exist.
Missing: a range is never taken from the unused slots while anything is held (`allocRange_grows`). -/
theorem allocRange_reuses_partial (ops : List Op) (h : LegalFrom (Pool.init, []) ops) (hnone : (run (Pool.init, []) ops).2 = [])
    (k : Nat) : (run (Pool.init, []) ops).1.allocRange k = (0, ⟨k, []⟩) := by
  have hi := inv_run ops _ inv_init h
  generalize run (Pool.init, []) ops = x at hi hnone
  obtain ⟨⟨n, unused⟩, held⟩ := x
  simp only at hnone
  subst hnone
  have hlen := hi.length_eq
  simp only [List.nil_append, List.length_range] at hlen
  simp [Pool.allocRange, hlen]

/-- **C16 fails** for ranges: while one slot is held, every further `alloc_range` creates new slots although enough unused
ones exist; the pool grows without bound. -/
theorem allocRange_grows (r : Nat) :
    LegalFrom (Pool.init, []) (.alloc :: (List.range r).flatMap fun i => [.allocRange 2, .releaseRange (1 + 2 * i) (3 + 2 * i)]) ∧
    (run (Pool.init, []) (.alloc :: (List.range r).flatMap fun i => [.allocRange 2, .releaseRange (1 + 2 * i) (3 + 2 * i)])).2 = [0] ∧
    (run (Pool.init, []) (.alloc :: (List.range r).flatMap fun i => [.allocRange 2, .releaseRange (1 + 2 * i) (3 + 2 * i)])).1.n =
      1 + 2 * r := by
  have key : ∀ k m (u : List Nat), u.length = 2 * m →
      LegalFrom (⟨1 + 2 * m, u⟩, [0]) ((List.range' m k).flatMap fun i => [.allocRange 2, .releaseRange (1 + 2 * i) (3 + 2 * i)]) ∧
      (run (⟨1 + 2 * m, u⟩, [0]) ((List.range' m k).flatMap fun i => [.allocRange 2, .releaseRange (1 + 2 * i) (3 + 2 * i)])).2 = [0] ∧
      (run (⟨1 + 2 * m, u⟩, [0]) ((List.range' m k).flatMap fun i => [.allocRange 2, .releaseRange (1 + 2 * i) (3 + 2 * i)])).1.n =
        1 + 2 * (m + k) := by
    intro k
    induction k with
    | zero => intro m u _; exact ⟨True.intro, rfl, rfl⟩
    | succ k ih =>
      intro m u hu
      have hne : ¬ (u.length = 1 + 2 * m) := by omega
      have hstep : (⟨1 + 2 * m, u⟩ : Pool).step (.allocRange 2) = ([1 + 2 * m, 2 + 2 * m], ⟨1 + 2 * m + 2, u⟩) := by
        simp only [Pool.step, Pool.allocRange, hne, decide_false, Bool.false_eq_true, if_false, List.range'_succ, List.range'_zero]
        rw [show 1 + 2 * m + 1 = 2 + 2 * m by omega]
      have hstep2 : (⟨1 + 2 * m + 2, u⟩ : Pool).step (.releaseRange (1 + 2 * m) (3 + 2 * m)) =
          ([], ⟨1 + 2 * (m + 1), (1 + 2 * m) :: (2 + 2 * m) :: u⟩) := by
        simp only [Pool.step, Pool.releaseRange]
        rw [pushes_eq _ _ _ (Nat.sub_le _ _), show 3 + 2 * m - (1 + 2 * m) = 2 by omega, show 3 + 2 * m - 2 = 1 + 2 * m by omega,
          show 1 + 2 * m + 2 = 1 + 2 * (m + 1) by omega]
        simp only [List.range'_succ, List.range'_zero, show 1 + 2 * m + 1 = 2 + 2 * m by omega, List.cons_append, List.nil_append]
      have hheld : heldAfter [1 + 2 * m, 2 + 2 * m, 0] [] (.releaseRange (1 + 2 * m) (3 + 2 * m)) = [0] := by
        simp only [heldAfter, List.filter_cons, List.filter_nil]
        rw [if_neg (by simp), if_neg (by simp), if_pos (by simp)]
      have hrun : ∀ l, run (⟨1 + 2 * m, u⟩, [0]) ([.allocRange 2, .releaseRange (1 + 2 * m) (3 + 2 * m)] ++ l) =
          run (⟨1 + 2 * (m + 1), (1 + 2 * m) :: (2 + 2 * m) :: u⟩, [0]) l := by
        intro l
        unfold run
        rw [List.foldl_append]
        congr 1
        simp only [List.foldl_cons, List.foldl_nil, hstep]
        rw [hstep2]
        simp only [Prod.mk.injEq, true_and]
        exact hheld
      obtain ⟨a1, a2, a3⟩ := ih (m + 1) ((1 + 2 * m) :: (2 + 2 * m) :: u) (by simp [hu]; omega)
      rw [List.range'_succ, List.flatMap_cons]
      refine ⟨⟨True.intro, ?_, ?_⟩, ?_, ?_⟩
      · simp only [hstep, heldAfter]
        refine ⟨by omega, fun x h1 h2 => ?_⟩
        have : x = 1 + 2 * m ∨ x = 2 + 2 * m := by omega
        rcases this with rfl | rfl <;> simp
      · simp only [hstep]
        show LegalFrom ((Pool.step _ _).2, heldAfter [1 + 2 * m, 2 + 2 * m, 0] _ _) _
        rw [hstep2]
        simp only [hheld]
        exact a1
      · rw [hrun]
        exact a2
      · rw [hrun, a3]
        omega
  have h := key r 0 [] rfl
  rw [Nat.zero_add, ← List.range_eq_range'] at h
  exact ⟨⟨True.intro, h.1⟩, h.2.1, h.2.2⟩

/-- two threads and a range; the pool reuses the released slot 0 -/
example : LegalFrom (Pool.init, []) [.alloc, .alloc, .release 0, .allocRange 2, .alloc, .releaseRange 2 4, .release 1] ∧
    run (Pool.init, []) [.alloc, .alloc, .release 0, .allocRange 2, .alloc, .releaseRange 2 4, .release 1] =
      (⟨4, [1, 2, 3]⟩, [0]) := by
  refine ⟨⟨True.intro, True.intro, List.mem_cons_of_mem _ (List.mem_cons_self ..), True.intro, True.intro, ⟨by decide, ?_⟩, ?_, True.intro⟩, by decide⟩
  · intro x h1 h2
    have : x = 2 ∨ x = 3 := by omega
    rcases this with rfl | rfl <;> decide
  · show 1 ∈ [0, 1]
    decide

/-- An illegal (double) release gives a slot to two holders: the hypothesis is needed. -/
theorem double_release : run (Pool.init, []) [.alloc, .release 0, .release 0, .alloc, .alloc] = (⟨1, []⟩, [0, 0]) := by decide

end Verif.ThreadMem
