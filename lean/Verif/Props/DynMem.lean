import Verif.Lemmas.DynMem

/-!
Property C15: the dynamic work memory.  The live parts are the parts handed out and not yet released.
-/
namespace Verif.DynMem

/-- requests of `n` scalars -/
def reqD (n : Nat) : Fin 3 → Nat := fun k => if k = 0 then n else 0

/-- **C15** (inside, no dangling), for every history of allocations, releases in any order and defragmentations: every live
part lies inside its chunk, and the buffers it points to were not replaced since. -/
theorem live_inside (ops : List Op) (p : Part) (hp : p ∈ (State.init.run ops).live) :
    ∃ c, (State.init.run ops).chunks[p.chunk]? = some c ∧
      ∀ k, p.size k = 0 ∨ (p.off k + p.size k ≤ c.cap k ∧ p.gen k = c.gen k) := by
  have h := inv_run inv_init ops
  have hlt := h.chunk p hp
  exact ⟨_, List.getElem?_eq_getElem hlt,
    (h.each _ _ (List.getElem?_eq_getElem hlt)).inside p (mem_parts.2 ⟨hp, rfl⟩)⟩

/-- **C15** (counters), for every history: the number of parts of a chunk is right, and the busy counters never drop below
the total size of the live parts (so they never underflow). -/
theorem counters_right (ops : List Op) (i : Nat) (c : Chunk) (hc : (State.init.run ops).chunks[i]? = some c) :
    c.nparts = ((State.init.run ops).live.filter fun p => decide (p.chunk = i)).length ∧
    ∀ k, (((State.init.run ops).live.filter fun p => decide (p.chunk = i)).map fun p => p.size k).sum ≤ c.busy k ∧
      c.busy k ≤ c.cap k := by
  have h := (inv_run inv_init ops).each i c hc
  exact ⟨h.count, fun k => ⟨h.used k, h.room k⟩⟩

/-- An allocation hands out a part with the requested sizes. -/
theorem alloc_gives (ops : List Op) (req : Fin 3 → Nat) :
    ∃ p, (State.init.run (ops ++ [.alloc req])).live = p :: (State.init.run ops).live ∧ p.size = req := by
  obtain ⟨chunks, c, _, _, _, _, he⟩ := alloc_eq (State.init.run ops) req
  have e : State.init.run (ops ++ [.alloc req]) = (State.init.run ops).alloc req := by
    unfold State.run
    rw [List.foldl_append]
    rfl
  rw [e, he]
  exact ⟨_, rfl, rfl⟩

/-- **C15** (defragmentation): never while a part is live (the exception of the code; or nothing to do). -/
theorem defragment_live (ops : List Op) : (State.init.run (ops ++ [.defragment])).live = (State.init.run ops).live ∧
    ((State.init.run ops).live ≠ [] → State.init.run (ops ++ [.defragment]) = State.init.run ops) := by
  have h := inv_run inv_init ops
  have e : State.init.run (ops ++ [.defragment]) = (State.init.run ops).defragment := by
    unfold State.run
    rw [List.foldl_append]
    rfl
  rw [e]
  generalize State.init.run ops = s at h
  unfold State.defragment
  constructor
  · split
    · rfl
    · split <;> rfl
  · intro hl
    split
    · rfl
    · split
      · rfl
      · rename_i hf
        exact absurd (live_nil_of_free h (by simpa using hf)) hl

/-- a history in which no part is taken from a dirty chunk: a chunk becomes dirty when a part is released while a newer part
of the same chunk is live, until all parts of the chunk are released -/
def Careful (s : State) (d : Dirty) : List Op → Prop
  | [] => True
  | op :: ops => admissible s d op ∧ Careful (s.step op) (dirtyAfter s d op) ops

theorem careful_clean (ops : List Op) : ∀ (s : State) (d : Dirty), Clean s d → Careful s d ops → ∃ d', Clean (s.run ops) d' := by
  induction ops with
  | nil => intro s d h _; exact ⟨d, h⟩
  | cons op ops ih =>
    intro s d h hc
    exact ih _ _ (clean_step h op hc.1) hc.2

/-- **C15** (no overlap), for careful histories.  Missing: histories which allocate from a chunk after an out-of-order release
in it; there the claim is false (`parts_overlap`). -/
theorem no_overlap_partial (ops : List Op) (h : Careful State.init (fun _ => False) ops) :
    (State.init.run ops).live.Pairwise Apart :=
  let ⟨_, hd⟩ := careful_clean ops _ _ clean_init h
  hd.apart

/-- every release takes the newest live part of its chunk -/
def StackLike (s : State) : List Op → Prop
  | [] => True
  | op :: ops => (match op with | .release i => Newest s i | _ => True) ∧ StackLike (s.step op) ops

theorem stack_careful (ops : List Op) : ∀ (s : State) (d : Dirty), (∀ j, ¬ d j) → StackLike s ops → Careful s d ops := by
  induction ops with
  | nil => intros; exact True.intro
  | cons op ops ih =>
    intro s d hd hs
    refine ⟨?_, ih _ _ ?_ hs.2⟩
    · cases op with
      | alloc req => exact hd _
      | release i => exact True.intro
      | defragment => exact True.intro
    · cases op with
      | alloc req => exact hd
      | release i =>
        rintro j ⟨_, hj | ⟨hj, _⟩⟩
        · exact hd j hj
        · exact hj hs.1
      | defragment => exact hd

/-- **C15** (no overlap), for histories which release the parts of each chunk in the reverse order of allocation (the scoped
use of `MemPart` objects). -/
theorem no_overlap_stack_partial (ops : List Op) (h : StackLike State.init ops) : (State.init.run ops).live.Pairwise Apart :=
  no_overlap_partial ops (stack_careful ops _ _ (fun _ h => h) h)

/-- two chunks are in use, and the older part is released first; then its chunk is used again -/
example : StackLike State.init [.alloc (reqD 3), .alloc (reqD 2), .release 1, .alloc (reqD 1), .alloc (reqD 2)] ∧
    (State.init.run [.alloc (reqD 3), .alloc (reqD 2), .release 1, .alloc (reqD 1), .alloc (reqD 2)]).live.map
      (fun p => (p.chunk, p.off 0, p.size 0)) = [(0, 1, 2), (0, 0, 1), (1, 0, 2)] := by
  refine ⟨⟨True.intro, True.intro, ?_, True.intro, True.intro, True.intro⟩, by decide⟩
  intro p hp q hq
  cases hp
  have : q = _ := List.mem_singleton.1 hq
  subst this
  decide

/-- **C15** (no overlap) for histories which always release the newest of all live parts -/
theorem no_overlap_lifo (ops : List Op) (h : ∀ op ∈ ops, ∀ i, op = .release i → i = 0) : (State.init.run ops).live.Pairwise Apart := by
  apply no_overlap_stack_partial
  have : ∀ (ops : List Op) (s : State), (∀ op ∈ ops, ∀ i, op = .release i → i = 0) → StackLike s ops := by
    intro ops
    induction ops with
    | nil => intros; exact True.intro
    | cons op ops ih =>
      intro s h
      refine ⟨?_, ih _ fun o ho => h o (List.mem_cons_of_mem _ ho)⟩
      cases op with
      | alloc req => exact True.intro
      | release i =>
        have := h _ (List.mem_cons_self ..) i rfl
        subst this
        intro p _ q hq
        simp at hq
      | defragment => exact True.intro
  exact this ops _ h

/-- a chunk of 3 scalars (the first part is released at once), three parts of it, release of the oldest and of the middle
one, then a fourth part -/
def overlapping : List Op :=
  [.alloc (reqD 3), .release 0, .alloc (reqD 1), .alloc (reqD 1), .alloc (reqD 1), .release 2, .release 1, .alloc (reqD 1)]

/-- **C15 fails** for other histories: the new part gets exactly the cell of a live part. -/
theorem parts_overlap : ∃ p q, (State.init.run overlapping).live = [p, q] ∧ p.chunk = q.chunk ∧ p.off 0 = 2 ∧ q.off 0 = 2 ∧
    p.size 0 = 1 ∧ q.size 0 = 1 ∧ ¬ Apart p q := by
  refine ⟨_, _, rfl, ?_⟩
  decide

/-- the history is not careful at its last request only -/
example : Careful State.init (fun _ => False) (overlapping.take 7) := by
  refine ⟨fun h => h, True.intro, ?_, ?_, ?_, True.intro, True.intro, True.intro⟩
  all_goals
    rintro ⟨h, _⟩
    exact h (by decide)

end Verif.DynMem
