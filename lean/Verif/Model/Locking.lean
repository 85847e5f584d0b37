import Mathlib.Logic.Function.Basic

/-!
Threads updating the rows of the global system under the row locks of anifem++/inmost_interface/assembler.inl
(`L.Lock(rid.id)` … `L.UnLock(rid.id)`, assembler.inl:406-474, 564-566, 655-685, 789-856).

A thread owns a list of updates.  One update acquires the lock of its row, reads the row, writes the changed row, and
releases the lock; these four steps of different threads are interleaved arbitrarily.  An update also decides whether
the thread goes on: after a non-finite value the thread leaves all later updates out (`m_w.status = -1; return;` and
`if (m_w.status < 0) return;`).  `INMOST::Sparse::LockService` (not part of the repository) is taken to be a family of
mutual exclusion locks.
-/
namespace Verif.Locking

/-- One update: the row and the change of its contents `σ`, with `false` when the thread has to stop.
(assembler.inl:406-479) -/
structure Op (σ : Type) where
  key : Nat
  run : σ → σ × Bool

/-- Where a thread is inside its first update: assembler.inl:406 before/after `Lock`, after reading, after writing. -/
inductive Phase (σ : Type) where
  | idle
  | locked
  | loaded (s : σ)
  | stored (ok : Bool)

/-- A thread: its remaining updates (the first one possibly in progress) and whether it has stopped with an error.
(assembler.inl:349-483) -/
structure Thread (σ : Type) where
  ops : List (Op σ)
  phase : Phase σ
  failed : Bool

/-- The memory of the rows, the holders of the locks, the threads. (assembler.inl:314-488) -/
structure St (σ : Type) where
  mem : Nat → σ
  lock : Nat → Option Nat
  thr : Nat → Thread σ

/-- assembler.inl:474, 475-479, 419-424: after the update the thread goes on or leaves out everything else. -/
def after {σ : Type} (ok : Bool) (th : Thread σ) : Thread σ :=
  { ops := if ok then th.ops.tail else [], phase := .idle, failed := !ok }

/-- One step of thread `t`.  `useLock` is `nthreads > 1` (assembler.inl:406, 474): with one thread no locks are used. -/
inductive Step {σ : Type} (useLock : Bool) : St σ → St σ → Prop where
  | acquire (s : St σ) (t : Nat) (op : Op σ) (rest : List (Op σ)) (hops : (s.thr t).ops = op :: rest)
      (hph : (s.thr t).phase = .idle) (hfree : useLock = true → s.lock op.key = none) :
      Step useLock s { s with
        lock := if useLock then Function.update s.lock op.key (some t) else s.lock
        thr := Function.update s.thr t { s.thr t with phase := .locked } }
  | load (s : St σ) (t : Nat) (op : Op σ) (rest : List (Op σ)) (hops : (s.thr t).ops = op :: rest)
      (hph : (s.thr t).phase = .locked) :
      Step useLock s { s with thr := Function.update s.thr t { s.thr t with phase := .loaded (s.mem op.key) } }
  | store (s : St σ) (t : Nat) (op : Op σ) (rest : List (Op σ)) (v : σ) (hops : (s.thr t).ops = op :: rest)
      (hph : (s.thr t).phase = .loaded v) :
      Step useLock s { s with
        mem := Function.update s.mem op.key (op.run v).1
        thr := Function.update s.thr t { s.thr t with phase := .stored (op.run v).2 } }
  | release (s : St σ) (t : Nat) (op : Op σ) (rest : List (Op σ)) (ok : Bool) (hops : (s.thr t).ops = op :: rest)
      (hph : (s.thr t).phase = .stored ok) :
      Step useLock s { s with
        lock := if useLock then Function.update s.lock op.key none else s.lock
        thr := Function.update s.thr t (after ok (s.thr t)) }

/-- Any number of steps. (assembler.inl:349-483) -/
inductive Steps {σ : Type} (useLock : Bool) : St σ → St σ → Prop where
  | refl (s : St σ) : Steps useLock s s
  | step {s t u : St σ} : Steps useLock s t → Step useLock t u → Steps useLock s u

/-- The start: all locks free, thread `t` has the updates `work t`. (assembler.inl:314-349) -/
def start {σ : Type} (mem : Nat → σ) (work : Nat → List (Op σ)) : St σ :=
  { mem := mem, lock := fun _ => none, thr := fun t => { ops := work t, phase := .idle, failed := false } }

/-- All threads have finished. (assembler.inl:484-488) -/
def Done {σ : Type} (s : St σ) : Prop := ∀ t, (s.thr t).ops = []

end Verif.Locking
