import Verif.Model.Locking

/-!
Vocabulary of C30, C32: executions without interleaving, and which part of its work a thread has done.
-/
namespace Verif.Locking

/-- `H` lists updates with the thread that made them and whether that thread went on; executed one after the other, with
nothing in between, they lead from the rows `m` to the rows `m'`. -/
def Serial {σ : Type} : List (Nat × Op σ × Bool) → (Nat → σ) → (Nat → σ) → Prop
  | [], m, m' => m' = m
  | (_, op, ok) :: H, m, m' =>
    (op.run (m op.key)).2 = ok ∧ Serial H (Function.update m op.key (op.run (m op.key)).1) m'

/-- The updates of thread `t` in `H`. -/
def ofThread {σ : Type} (t : Nat) (H : List (Nat × Op σ × Bool)) : List (Op σ × Bool) :=
  (H.filter (fun e => e.1 = t)).map (fun e => e.2)

/-- A thread with the given work has done all of it, or everything up to the first update that made it stop. -/
def Ran {σ : Type} (work : List (Op σ)) (failed : Bool) (exec : List (Op σ × Bool)) : Prop :=
  if failed then ∃ pre op rest, work = pre ++ op :: rest ∧ exec = pre.map (fun o => (o, true)) ++ [(op, false)]
  else exec = work.map (fun o => (o, true))

end Verif.Locking
