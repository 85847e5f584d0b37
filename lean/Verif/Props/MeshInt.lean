import Verif.Model.MeshInt
import Verif.Props.Quadrature
import Mathlib.Algebra.BigOperators.Group.List.Basic
import Mathlib.Algebra.Ring.Rat
import Mathlib.Tactic.Ring
import Mathlib.Tactic.Linarith

/-! C74: integrals over a mesh. -/
namespace Verif.MeshInt

open Verif.Spaces (QPoint)

variable {K : Type} [CommRing K]

/-! specification -/

/-- the point with the barycentric coordinates `p` -/
def combine (X : Nat → Nat → K) (p : Nat → K) (k : Nat) : K := p 0 * X 0 k + p 1 * X 1 k + p 2 * X 2 k + p 3 * X 3 k

/-- the rule applied on one cell: the volume times the weighted values -/
def cellInt (R : List (QPoint K)) (c : Cell K) (f : (Nat → K) → K) : K := c.vol * (R.map fun q => q.w * f (combine c.node q.p)).sum

/-- the sum over the cells which are no ghosts -/
def meshInt (R : List (QPoint K)) (cells : List (Cell K)) (f : Cell K → (Nat → K) → K) : K :=
  ((cells.filter fun c => !c.ghost).map fun c => cellInt R c (f c)).sum

/-- the function of the second version computes `f` at every point of the rule -/
def Computes (R : List (QPoint K)) (func : Func K) (f : Cell K → (Nat → K) → Nat → K) : Prop :=
  ∀ (c : Cell K) (n : Nat) (q : QPoint K) (d : Nat), R[n]? = some q → func c (bary R) (pts R c) d n = f c (combine c.node q.p) d

/-- every id below `n` is processed once, by a thread with a number below `nth` -/
structure Schedule (nth n : Nat) (sched : List (Nat × Nat)) : Prop where
  ids : (sched.map Prod.fst).Perm (List.range n)
  threads : ∀ x ∈ sched, x.2 < nth

/-- the cells with the ids below `n` -/
def cellsOf (cells : Nat → Option (Cell K)) (n : Nat) : List (Cell K) := (List.range n).filterMap cells

/-! proofs -/

private theorem pointOf_eq (X : Nat → Nat → K) (p : Nat → K) : pointOf X p = combine X p := by
  funext k
  simp [pointOf, combine, List.range_succ]

private theorem foldAdd {α : Type} (l : List α) (g : α → K) (r : K) : l.foldl (fun r a => r + g a) r = r + (l.map g).sum := by
  induction l generalizing r with
  | nil => simp
  | cons a l ih => simp only [List.foldl_cons, ih, List.map_cons, List.sum_cons]; ring

/-- C74: the template gives the sum over the owned cells of volume times weighted values, for every rule, mesh and function. -/
theorem template_sum (R : List (QPoint K)) (cells : List (Cell K)) (f : Cell K → (Nat → K) → Nat → K) (l : Nat) :
    integrateT R cells f l = meshInt R cells fun c x => f c x l := by
  have : ∀ r, cells.foldl (fun r c => if c.ghost then r else R.foldl (fun r q => r + q.w * c.vol * f c (pointOf c.node q.p) l) r) r =
      r + meshInt R cells fun c x => f c x l := by
    induction cells with
    | nil => intro r; simp [meshInt]
    | cons c cells ih =>
      intro r
      simp only [List.foldl_cons]
      cases hg : c.ghost with
      | true => simp only [if_true, ih]; simp [meshInt, hg]
      | false =>
        simp only [Bool.false_eq_true, if_false, ih]
        rw [foldAdd]
        simp only [meshInt, List.filter_cons, hg, Bool.not_false, if_true, List.map_cons, List.sum_cons, cellInt, ← List.sum_map_mul_left, pointOf_eq]
        rw [add_assoc]
        congr 3
        refine List.map_congr_left fun q _ => ?_
        ring
  rw [integrateT, this]
  simp

/-- a rule with two points, a cell of volume 3 and a ghost -/
def exRule : List (QPoint ℚ) := [⟨fun i => if i = 0 then 1 else 0, 1 / 4⟩, ⟨fun i => if i = 3 then 1 else 0, 3 / 4⟩]
/-- see `exRule` -/
def exCell : Cell ℚ := ⟨fun n k => n + 10 * k, 3, false⟩

example : integrateT exRule [exCell, { exCell with ghost := true }] (fun _ x _ => x 0 + x 1) 0 = 3 * (1 / 4 * 10 + 3 / 4 * 16) := by
  simp [integrateT, exRule, exCell, pointOf, List.range_succ]
  norm_num

private theorem bary_of {R : List (QPoint K)} {n : Nat} {q : QPoint K} (h : R[n]? = some q) : (fun i => bary R i n) = q.p := by
  funext i; simp [bary, h]

/-- the points handed to the function are those of the rule -/
theorem pts_eq {R : List (QPoint K)} {n : Nat} {q : QPoint K} (h : R[n]? = some q) (c : Cell K) (k : Nat) : pts R c k n = combine c.node q.p k := by
  rw [pts, bary_of h, pointOf_eq]

/-- the contribution of one id -/
private def part (R : List (QPoint K)) (cells : Nat → Option (Cell K)) (f : Cell K → (Nat → K) → Nat → K) (d lid : Nat) : K :=
  match cells lid with
  | none => 0
  | some c => if c.ghost then 0 else cellInt R c fun x => f c x d

private theorem cell_sum (R : List (QPoint K)) (func : Func K) (f : Cell K → (Nat → K) → Nat → K) (h : Computes R func f) (c : Cell K) (d : Nat) (s : K) :
    (List.range R.length).foldl (fun s n => s + weight R n * c.vol * func c (bary R) (pts R c) d n) s = s + cellInt R c fun x => f c x d := by
  rw [foldAdd, cellInt, ← List.sum_map_mul_left]
  congr 2
  apply List.ext_getElem
  · simp
  · intro n h1 h2
    simp only [List.getElem_map, List.getElem_range]
    have hn : n < R.length := by simpa using h1
    rw [h c n R[n] d (List.getElem?_eq_getElem hn)]
    simp only [weight, List.getElem?_eq_getElem hn, Option.map_some, Option.getD_some]
    ring

private theorem run_eq (R : List (QPoint K)) (cells : Nat → Option (Cell K)) (func : Func K) (f : Cell K → (Nat → K) → Nat → K) (h : Computes R func f)
    (sched : List (Nat × Nat)) : ∀ (res : Nat → Nat → K) (t d : Nat), sched.foldl (body R cells func) res t d =
      res t d + ((sched.filter fun x => decide (x.2 = t)).map fun x => part R cells f d x.1).sum := by
  induction sched with
  | nil => intro res t d; simp
  | cons x sched ih =>
    intro res t d
    rw [List.foldl_cons, ih]
    have hb : body R cells func res x t d = res t d + if x.2 = t then part R cells f d x.1 else 0 := by
      unfold body part
      cases hc : cells x.1 with
      | none => simp
      | some c =>
        dsimp only
        by_cases hg : c.ghost = true
        · simp [hg]
        · by_cases ht : x.2 = t
          · simp only [hg, if_neg, Bool.false_eq_true, if_false, if_pos ht, if_pos ht.symm, not_false_eq_true]
            exact cell_sum R func f h c d _
          · have ht' : ¬ t = x.2 := fun e => ht e.symm
            simp [hg, ht, ht']
    rw [hb]
    by_cases ht : x.2 = t
    · simp [ht]; ring
    · simp [ht]

private theorem threads_sum (nth : Nat) (sched : List (Nat × Nat)) (ht : ∀ x ∈ sched, x.2 < nth) (g : Nat → K) :
    ((List.range nth).map fun t => ((sched.filter fun x => decide (x.2 = t)).map fun x => g x.1).sum).sum = (sched.map fun x => g x.1).sum := by
  induction sched with
  | nil => simp
  | cons x sched ih =>
    have e : ∀ t, (((x :: sched).filter fun x => decide (x.2 = t)).map fun x => g x.1).sum =
        (if t = x.2 then g x.1 else 0) + ((sched.filter fun x => decide (x.2 = t)).map fun x => g x.1).sum := by
      intro t
      by_cases h : x.2 = t
      · simp [h]
      · have h' : ¬ t = x.2 := fun e => h e.symm
        simp [h, h']
    simp only [e, List.sum_map_add, ih fun y hy => ht y (List.mem_cons_of_mem _ hy), List.map_cons, List.sum_cons]
    congr 1
    have hx := ht x List.mem_cons_self
    rw [List.sum_map_ite_eq]
    simp [List.count_eq_one_of_mem List.nodup_range (List.mem_range.2 hx)]

/-- C74: the second version gives the same sum, for every number of threads and every distribution of the cells over them; ids without a cell and ghosts
are left out. -/
theorem batched_sum (nth n : Nat) (R : List (QPoint K)) (cells : Nat → Option (Cell K)) (func : Func K) (f : Cell K → (Nat → K) → Nat → K)
    (h : Computes R func f) (sched : List (Nat × Nat)) (hs : Schedule nth n sched) (d : Nat) :
    integrateB nth R cells func sched d = meshInt R (cellsOf cells n) fun c x => f c x d := by
  rw [integrateB, foldAdd, zero_add]
  simp only [run_eq R cells func f h, zero_add]
  rw [threads_sum nth sched hs.threads]
  have e : (sched.map fun x => part R cells f d x.1) = (sched.map Prod.fst).map (part R cells f d) := by rw [List.map_map]; rfl
  rw [e, (hs.ids.map _).sum_eq]
  unfold meshInt cellsOf
  induction List.range n with
  | nil => simp
  | cons i l ih =>
    simp only [List.map_cons, List.sum_cons, ih, List.filterMap_cons]
    unfold part
    cases hc : cells i with
    | none => simp
    | some c =>
      cases hg : c.ghost with
      | true => simp [hg]
      | false => simp [hg]

/-- two threads, three ids of which the second has no cell -/
example : Schedule 2 3 [(2, 1), (0, 0), (1, 1)] ∧
    integrateB 2 exRule (fun i => if i = 1 then none else some exCell) (fun _ _ X _ n => X 0 n + X 1 n) [(2, 1), (0, 0), (1, 1)] 0 =
      2 * (3 * (1 / 4 * 10 + 3 / 4 * 16)) := by
  refine ⟨⟨by decide, by decide⟩, ?_⟩
  simp [integrateB, body, exRule, exCell, pts, bary, weight, pointOf, List.range_succ]
  norm_num

example : Computes exRule (fun _ _ X _ n => X 0 n + X 1 n) fun _ x _ => x 0 + x 1 := by
  intro c n q d h
  simp only [pts_eq h]

/-- the loop on one thread (`ParallelFor<Type::NONE>`) -/
example (n : Nat) : Schedule 1 n ((List.range n).map fun i => (i, 0)) :=
  ⟨by rw [List.map_map]; exact (List.map_id _).symm ▸ List.Perm.refl _, by simp⟩

/-- C74: both versions agree. -/
theorem versions_agree (nth n : Nat) (R : List (QPoint K)) (cells : Nat → Option (Cell K)) (func : Func K) (f : Cell K → (Nat → K) → Nat → K)
    (h : Computes R func f) (sched : List (Nat × Nat)) (hs : Schedule nth n sched) (d : Nat) :
    integrateB nth R cells func sched d = integrateT R (cellsOf cells n) f d := by
  rw [batched_sum nth n R cells func f h sched hs, template_sum]

/-- C74: after the sum over the processes the result is that of the whole mesh, if every cell belongs to exactly one process (on the others it is a ghost
or missing). -/
theorem processes_sum (R : List (QPoint K)) (mesh : List (Cell K)) (procs : List (List (Cell K))) (f : Cell K → (Nat → K) → Nat → K) (d : Nat)
    (hm : (procs.flatMap fun cells => cells.filter fun c => !c.ghost).Perm mesh) :
    reduce (procs.map fun cells => integrateT R cells f d) = (mesh.map fun c => cellInt R c fun x => f c x d).sum := by
  rw [reduce, show (fun x1 x2 : K => x1 + x2) = fun r a => r + id a from rfl, foldAdd, zero_add, List.map_id, ← (hm.map _).sum_eq]
  simp only [template_sum]
  induction procs with
  | nil => simp
  | cons p l ih =>
    simp only [List.map_cons, List.sum_cons, List.flatMap_cons, List.map_append, List.sum_append]
    congr 1
    clear hm ih
    induction l with
    | nil => simp
    | cons p l ih => simp only [List.map_cons, List.sum_cons, List.flatMap_cons, List.map_append, List.sum_append, ih]; rfl

example : ((([[exCell, { exCell with ghost := true }], [exCell]] : List (List (Cell ℚ))).flatMap fun cells => cells.filter fun c => !c.ghost)).Perm
    [exCell, exCell] := List.Perm.refl _

/-- the rule with real entries -/
noncomputable def real (R : List (QPoint ℚ)) : List (QPoint ℝ) := R.map fun q => ⟨fun i => (q.p i : ℝ), (q.w : ℝ)⟩

/-- the mean value of a function on the tetrahedron with the nodes `X` -/
noncomputable def mean (X : Nat → Nat → ℝ) (g : (Nat → ℝ) → ℝ) : ℝ :=
  Quad.meanTet fun x y z => g (combine X fun i => if i = 0 then x else if i = 1 then y else if i = 2 then z else 1 - x - y - z)

private theorem sum_close {α : Type} (l : List α) (u v w : α → ℝ) (h : ∀ a ∈ l, |u a - v a| ≤ w a) : |(l.map u).sum - (l.map v).sum| ≤ (l.map w).sum := by
  induction l with
  | nil => simp
  | cons a l ih =>
    simp only [List.map_cons, List.sum_cons]
    have h1 := h a List.mem_cons_self
    have h2 := ih fun b hb => h b (List.mem_cons_of_mem _ hb)
    rw [show u a + (l.map u).sum - (v a + (l.map v).sum) = (u a - v a) + ((l.map u).sum - (l.map v).sum) by ring]
    exact (abs_add_le _ _).trans (add_le_add h1 h2)

/-- C74: for a polynomial of at most the degree `order ≤ 20` (on every cell another one may be given) the result is the sum of volume times mean value, up
to `10^-48` relative to the coefficients. -/
theorem exact {order : Int} (h0 : 0 ≤ order) (h1 : order ≤ 20) : ∃ fo R, Quad.tetrahedron order = some fo ∧
    Quad.points (Quad.tetPoint fo) fo.np = some R ∧
    ∀ (cells : List (Cell ℝ)) (P : Cell ℝ → MvPolynomial (Fin 3) ℝ), (∀ c ∈ cells, (P c).totalDegree ≤ order.toNat) →
      |integrateT (real R) cells (fun c x _ => (P c).eval fun k : Fin 3 => x k) 0 -
        ((cells.filter fun c => !c.ghost).map fun c => c.vol * mean c.node fun x => (P c).eval fun k : Fin 3 => x k).sum| ≤
      ((cells.filter fun c => !c.ghost).map fun c => |c.vol| * (1 / 10 ^ 48 *
        Quad.size (MvPolynomial.bind₁ (Quad.affine fun i k => c.node i k) (P c)))).sum := by
  obtain ⟨fo, R, a, b, h⟩ := Quad.tetrahedron_exact_affine h0 h1
  refine ⟨fo, R, a, b, fun cells P hP => ?_⟩
  rw [template_sum]
  refine sum_close _ _ _ _ fun c hc => ?_
  have key := h (fun i k => c.node i k) (P c) (hP c (List.mem_filter.1 hc).1)
  rw [cellInt, ← mul_sub, abs_mul]
  refine mul_le_mul_of_nonneg_left ?_ (abs_nonneg _)
  have e1 : ((real R).map fun q => q.w * (P c).eval fun k : Fin 3 => combine c.node q.p k).sum =
      Quad.apply R fun p => (P c).eval fun k : Fin 3 => p 0 * c.node (0 : Fin 4) k + p 1 * c.node (1 : Fin 4) k + p 2 * c.node (2 : Fin 4) k +
        p 3 * c.node (3 : Fin 4) k := by
    simp only [real, Quad.apply, List.map_map]
    rfl
  have e2 : (mean c.node fun x => (P c).eval fun k : Fin 3 => x k) =
      Quad.meanTet fun x y z => (P c).eval fun k : Fin 3 => x * c.node (0 : Fin 4) k + y * c.node (1 : Fin 4) k + z * c.node (2 : Fin 4) k +
        (1 - x - y - z) * c.node (3 : Fin 4) k := rfl
  rw [e1, e2]
  exact key

/-- the hypotheses of `exact`: one cell and a polynomial of degree two -/
example : ∀ c ∈ [(⟨fun n k => if n = k then 1 else 0, 1 / 6, false⟩ : Cell ℝ)],
    ((fun _ => MvPolynomial.X 0 * MvPolynomial.X 1) c : MvPolynomial (Fin 3) ℝ).totalDegree ≤ (5 : Int).toNat := by
  intro c _
  refine (MvPolynomial.totalDegree_mul _ _).trans ?_
  simp [MvPolynomial.totalDegree_X]

end Verif.MeshInt
