import Verif.Lemmas.InterpUnion
import Verif.Lemmas.InterpLeaf

/-!
Spaces built on barycentric coordinates.
-/
set_option linter.unusedSectionVars false
namespace Verif.Interp

open Verif.Dense Verif.DofMap Verif.Spaces Verif.Geometry

variable {K : Type} [Field K]

/-- functionals that recover are dual to the basis -/
theorem dual_of_recovers {s : Space K} {T : Tet K} {L : Nat → Fn K → K} (h : Dofs s T L) (hr : Recovers s T) :
    ∀ i, i < s.nfa → ∀ j, j < s.nfa → L i (fun x k => s.val T x j k) = if i = j then 1 else 0 := by
  intro i hi j hj
  have key := hr (fun _ q => if q = j then 1 else 0) (fun x k => s.val T x j k) i 1 (fun _ _ => 0) hi
    (by
      intro r hr x k hk
      have hr0 : r = 0 := by omega
      subst hr0
      rw [Finset.sum_eq_single j]
      · rw [if_pos rfl, one_mul, Nat.mul_zero, Nat.zero_add]
      · intro q _ hq; rw [if_neg hq, zero_mul]
      · intro hn; exact absurd (Finset.mem_range.2 hj) hn) 0 i
  rw [if_pos ⟨by omega, rfl⟩, h.run _ _ _ _ hi, if_pos ⟨by omega, rfl⟩] at key
  simp only [Nat.mul_zero, Nat.zero_add] at key
  exact key

theorem affine_value {s : Space K} {A : Nat → List (K × (Nat → K) × Nat)} {v : (Nat → K) → Nat → Nat → K} (h : Affine s A v)
    {T : Tet K} (hv : Nondeg T) {i j : Nat} (hi : i < s.nfa) (hj : j < s.nfa) :
    ((A i).map fun a => a.1 * (fun x k => s.val T x j k) (ptAt T a.2.1) a.2.2).sum = ((A i).map fun a => a.1 * v a.2.1 j a.2.2).sum := by
  congr 1
  refine List.map_congr_left fun a ha => ?_
  dsimp only
  rw [h.vals T hv a.2.1 (h.pts i hi a ha).1 j hj a.2.2 (h.pts i hi a ha).2]

/-- recovery on one tetrahedron gives recovery on all -/
theorem affine_transfer' {s : Space K} {A : Nat → List (K × (Nat → K) × Nat)} {v : (Nat → K) → Nat → Nat → K} (h : Affine s A v)
    {T₀ T : Tet K} (h0 : Nondeg T₀) (hv : Nondeg T) (hr : Recovers s T₀) : Recovers s T := by
  refine recovers_of_unisolvent ⟨_, h.dofs T hv, fun i hi j hj => ?_⟩
  have h1 := dual_of_recovers (h.dofs T₀ h0) hr i hi j hj
  dsimp only at h1 ⊢
  rw [affine_value h h0 hi hj] at h1
  rw [affine_value h hv hi hj, h1]

theorem sum_map_block (l : List (K × (Nat → K) × Nat)) (off : Nat) (T : Tet K) (g : Fn K) :
    ((l.map fun a => (a.1, a.2.1, off + a.2.2)).map fun a => a.1 * g (ptAt T a.2.1) a.2.2).sum =
      (l.map fun a => a.1 * (fun x k => g x (off + k)) (ptAt T a.2.1) a.2.2).sum := by
  rw [List.map_map]; rfl

theorem vec_affine {s : Space K} {A : Nat → List (K × (Nat → K) × Nat)} {v : (Nat → K) → Nat → Nat → K} (h : Affine s A v) (d : Nat) :
    Affine (vec d s) (fun i => (A (i % s.nfa)).map fun a => (a.1, a.2.1, i / s.nfa * s.dim + a.2.2))
      (fun b i k => if i / s.nfa = k / s.dim then v b (i % s.nfa) (k % s.dim) else 0) := by
  have hpos : ∀ i, i < d * s.nfa → i % s.nfa < s.nfa ∧ i / s.nfa < d := by
    intro i hi
    have h0 : 0 < s.nfa := by
      rcases Nat.eq_zero_or_pos s.nfa with h0 | h0
      · rw [h0, Nat.mul_zero] at hi; omega
      · exact h0
    exact ⟨Nat.mod_lt _ h0, Nat.div_lt_of_lt_mul (by rw [Nat.mul_comm]; exact hi)⟩
  refine ⟨?_, ?_, ?_⟩
  · intro i hi a ha
    obtain ⟨a', ha', rfl⟩ := List.mem_map.1 ha
    obtain ⟨h1, h2⟩ := h.pts _ (hpos i hi).1 a' ha'
    refine ⟨h1, ?_⟩
    have : (i / s.nfa + 1) * s.dim ≤ d * s.dim := Nat.mul_le_mul_right _ (hpos i hi).2
    rw [Nat.add_mul, Nat.one_mul] at this
    show i / s.nfa * s.dim + a'.2.2 < d * s.dim
    omega
  · intro T hv
    have := vec_dofs (h.dofs T hv) d
    have e : vecL s (fun i g => ((A i).map fun a => a.1 * g (ptAt T a.2.1) a.2.2).sum) =
        fun i g => (((A (i % s.nfa)).map fun a => (a.1, a.2.1, i / s.nfa * s.dim + a.2.2)).map
          fun a => a.1 * g (ptAt T a.2.1) a.2.2).sum := by
      funext i g
      rw [sum_map_block]; rfl
    rw [← e]; exact this
  · intro T hv b hb j hj k hk
    have hj' : j < d * s.nfa := hj
    have hk' : k < d * s.dim := hk
    have hd : 0 < s.dim := by
      rcases Nat.eq_zero_or_pos s.dim with h0 | h0
      · rw [h0, Nat.mul_zero] at hk'; omega
      · exact h0
    show (if j / s.nfa = k / s.dim then s.val T (ptAt T b) (j % s.nfa) (k % s.dim) else 0) = _
    rw [h.vals T hv b hb _ (hpos j hj').1 _ (Nat.mod_lt _ hd)]

theorem prod_affine {ss : List (Space K)} {A : Nat → Nat → List (K × (Nat → K) × Nat)} {v : Nat → (Nat → K) → Nat → Nat → K}
    (h : ∀ m (hm : m < ss.length), Affine ss[m] (A m) (v m)) :
    Affine (prod ss)
      (fun i => (A (comp (ss.map (·.nfa)) i).1 (comp (ss.map (·.nfa)) i).2).map fun a =>
        (a.1, a.2.1, pre (ss.map (·.dim)) (comp (ss.map (·.nfa)) i).1 + a.2.2))
      (fun b i k =>
        let c := comp (ss.map (·.nfa)) i
        let ds := pre (ss.map (·.dim)) c.1
        if ds ≤ k ∧ k < ds + (ss.map (·.dim)).getD c.1 0 then v c.1 b c.2 (k - ds) else 0) := by
  refine ⟨?_, ?_, ?_⟩
  · intro i hi a ha
    obtain ⟨m, l, hm, hl, he, hc⟩ := space_at (ss := ss) hi
    rw [hc] at ha
    obtain ⟨a', ha', rfl⟩ := List.mem_map.1 ha
    obtain ⟨h1, h2⟩ := (h m hm).pts l hl a' ha'
    exact ⟨h1, dim_block hm h2⟩
  · intro T hv
    have := prod_dofs (Ls := fun m i g => ((A m i).map fun a => a.1 * g (ptAt T a.2.1) a.2.2).sum)
      (fun m hm => (h m hm).dofs T hv)
    have e : prodL ss (fun m i g => ((A m i).map fun a => a.1 * g (ptAt T a.2.1) a.2.2).sum) =
        fun i g => (((A (comp (ss.map (·.nfa)) i).1 (comp (ss.map (·.nfa)) i).2).map fun a =>
        (a.1, a.2.1, pre (ss.map (·.dim)) (comp (ss.map (·.nfa)) i).1 + a.2.2)).map
          fun a => a.1 * g (ptAt T a.2.1) a.2.2).sum := by
      funext i g
      rw [sum_map_block]; rfl
    rw [← e]; exact this
  · intro T hv b hb j hj k hk
    obtain ⟨m, l, hm, hl, he, hc⟩ := space_at (ss := ss) hj
    show prodVal ss T (ptAt T b) j k = _
    unfold prodVal
    dsimp only
    rw [hc]
    dsimp only
    rw [List.getElem?_eq_getElem hm, getD_map hm]
    dsimp only
    by_cases hcs : pre (ss.map (·.dim)) m ≤ k ∧ k < pre (ss.map (·.dim)) m + ss[m].dim
    · rw [if_pos hcs, if_pos hcs, (h m hm).vals T hv b hb l hl _ (by omega)]
    · rw [if_neg hcs, if_neg hcs]

theorem sum_flatMap_mul (n : Nat) (w : Nat → K) (B : Nat → List (K × (Nat → K) × Nat)) (T : Tet K) (g : Fn K) :
    (((List.range n).flatMap fun q => (B q).map fun a => (w q * a.1, a.2)).map fun a => a.1 * g (ptAt T a.2.1) a.2.2).sum =
      ∑ q ∈ Finset.range n, w q * ((B q).map fun a => a.1 * g (ptAt T a.2.1) a.2.2).sum := by
  induction n with
  | zero => simp
  | succ n ih =>
    rw [List.range_succ, List.flatMap_append, List.map_append, List.sum_append, ih, Finset.sum_range_succ]
    congr 1
    rw [List.flatMap_cons, List.flatMap_nil, List.append_nil, List.map_map, ← List.sum_map_mul_left]
    congr 1
    refine List.map_congr_left fun a _ => ?_
    simp only [Function.comp]
    ring

theorem union_affine [DecidableEq K] {ss : List (Space K)} {A : Nat → Nat → List (K × (Nat → K) × Nat)} {v : Nat → (Nat → K) → Nat → Nat → K}
    (h : ∀ m (hm : m < ss.length), Affine ss[m] (A m) (v m)) (hdim : ∀ s ∈ ss, s.dim = (ss.map (·.dim)).headD 0)
    {W : Nat → K} (hW : ∀ i, i < (ss.map (·.nfa)).sum → ∃ q, q < (ss.map (·.nfa)).sum ∧ W (i + (ss.map (·.nfa)).sum * q) ≠ 0) :
    Affine (union ss W)
      (fun i => (List.range (ss.map (·.nfa)).sum).flatMap fun q =>
        (A (comp (ss.map (·.nfa)) q).1 (comp (ss.map (·.nfa)) q).2).map fun a => (W (i + (ss.map (·.nfa)).sum * q) * a.1, a.2))
      (fun b i k => v (comp (ss.map (·.nfa)) i).1 b (comp (ss.map (·.nfa)) i).2 k) := by
  refine ⟨?_, ?_, ?_⟩
  · intro i hi a ha
    obtain ⟨q, hq, ha⟩ := List.mem_flatMap.1 ha
    obtain ⟨m, l, hm, hl, he, hc⟩ := space_at (ss := ss) (List.mem_range.1 hq)
    rw [hc] at ha
    obtain ⟨a', ha', rfl⟩ := List.mem_map.1 ha
    obtain ⟨h1, h2⟩ := (h m hm).pts l hl a' ha'
    rw [hdim _ (List.getElem_mem hm)] at h2
    exact ⟨h1, h2⟩
  · intro T hv
    have := union_dofs (Ls := fun m i g => ((A m i).map fun a => a.1 * g (ptAt T a.2.1) a.2.2).sum)
      (fun m hm => (h m hm).dofs T hv) hdim hW
    have e : unionL ss W (fun m i g => ((A m i).map fun a => a.1 * g (ptAt T a.2.1) a.2.2).sum) = fun i g =>
        ((((List.range (ss.map (·.nfa)).sum).flatMap fun q =>
        (A (comp (ss.map (·.nfa)) q).1 (comp (ss.map (·.nfa)) q).2).map fun a => (W (i + (ss.map (·.nfa)).sum * q) * a.1, a.2))).map
          fun a => a.1 * g (ptAt T a.2.1) a.2.2).sum := by
      funext i g
      rw [sum_flatMap_mul]; rfl
    rw [← e]; exact this
  · intro T hv b hb j hj k hk
    obtain ⟨m, l, hm, hl, he, hc⟩ := space_at (ss := ss) hj
    show unionVal ss T (ptAt T b) j k = _
    unfold unionVal
    dsimp only
    rw [hc]
    dsimp only
    rw [List.getElem?_eq_getElem hm]
    dsimp only
    have hk' : k < ss[m].dim := by rw [hdim _ (List.getElem_mem hm)]; exact hk
    rw [(h m hm).vals T hv b hb l hl k hk']

/-! ### basic spaces -/

section Leaves
variable [LinearOrder K] [IsStrictOrderedRing K]

theorem ptAt_bary (T : Tet K) {b : Nat → K} (hb : b 0 + b 1 + b 2 + b 3 = 1) : IsBary (T 0) (T 1) (T 2) (T 3) (ptAt T b) b :=
  ⟨hb, fun _ _ => rfl⟩

/-- a scalar space whose functionals are the values at points -/
theorem leaf_affine_point {nfa : Nat} {val : Tet K → (Nat → K) → Nat → Nat → K} {dof : Tet K → Fn K → Nat → Nat → K}
    {op : Mem K → (Nat → K) → Nat → K} {w : (Nat → K) → Nat → K} (b : Nat → Nat → K)
    (hb : ∀ i, i < nfa → b i 0 + b i 1 + b i 2 + b i 3 = 1)
    (hdof : ∀ T f i r, i < nfa → dof T f i r = f (ptAt T (b i)) r)
    (hop : ∀ j, j < nfa → ∀ (m : Mem K) U r n, r < m.f → n < m.q → op m U (place m 1 nfa r j n 0) = w (fun a => m.xyl (a + 4 * n)) j)
    (hcong : ∀ j (l l' : Nat → K), (∀ a, a < 4 → l a = l' a) → w l j = w l' j)
    (hval : ∀ T, Nondeg T → ∀ j, j < nfa → IsBasis op 1 nfa j T fun x k => val T x j k) :
    Affine (leaf 1 nfa val dof) (fun i => [(1, b i, 0)]) (fun l j _ => w l j) := by
  refine ⟨?_, ?_, ?_⟩
  · intro i hi a ha
    rw [List.mem_singleton] at ha
    subst ha
    exact ⟨hb i hi, Nat.one_pos⟩
  · intro T _
    have := leaf_point (nfa := nfa) (val := val) (dof := dof) (T := T) (fun i => ptAt T (b i)) (fun f i r hi => hdof T f i r hi)
    simpa using this
  · intro T hv c hc j hj k hk
    have hk0 : k = 0 := by
      have : k < 1 := hk
      omega
    subst hk0
    exact scalar_value (val := fun l => w l j) (hop j hj) (hcong j) hv (hval T hv j hj _) (ptAt_bary T hc)

/-- a scalar space whose functionals are weighted sums of values at points -/
theorem leaf_affine_mean {nfa : Nat} {val : Tet K → (Nat → K) → Nat → Nat → K} {dof : Tet K → Fn K → Nat → Nat → K}
    {op : Mem K → (Nat → K) → Nat → K} {w : (Nat → K) → Nat → K} (rule : List (QPoint K)) (b : Nat → (Nat → K) → Nat → K)
    (hb : ∀ i, i < nfa → ∀ q ∈ rule, b i q.p 0 + b i q.p 1 + b i q.p 2 + b i q.p 3 = 1)
    (hdof : ∀ T f i r, i < nfa → dof T f i r = quad rule fun p => f (ptAt T (b i p)) r)
    (hop : ∀ j, j < nfa → ∀ (m : Mem K) U r n, r < m.f → n < m.q → op m U (place m 1 nfa r j n 0) = w (fun a => m.xyl (a + 4 * n)) j)
    (hcong : ∀ j (l l' : Nat → K), (∀ a, a < 4 → l a = l' a) → w l j = w l' j)
    (hval : ∀ T, Nondeg T → ∀ j, j < nfa → IsBasis op 1 nfa j T fun x k => val T x j k) :
    Affine (leaf 1 nfa val dof) (fun i => rule.map fun q => (q.w, b i q.p, 0)) (fun l j _ => w l j) := by
  refine ⟨?_, ?_, ?_⟩
  · intro i hi a ha
    obtain ⟨q, hq, rfl⟩ := List.mem_map.1 ha
    exact ⟨hb i hi q hq, Nat.one_pos⟩
  · intro T _
    have := leaf_mean (nfa := nfa) (val := val) (dof := dof) (T := T) rule (fun i p => ptAt T (b i p)) (fun f i r hi => hdof T f i r hi)
    have e : (fun (i : Nat) (g : Fn K) => quad rule fun p => g (ptAt T (b i p)) 0) = fun i g =>
        ((rule.map fun q => (q.w, b i q.p, 0)).map fun a : K × (Nat → K) × Nat => a.1 * g (ptAt T a.2.1) a.2.2).sum := by
      funext i g
      rw [quad_eq, List.map_map]; rfl
    rw [← e]; exact this
  · intro T hv c hc j hj k hk
    have hk0 : k = 0 := by
      have : k < 1 := hk
      omega
    subst hk0
    exact scalar_value (val := fun l => w l j) (hop j hj) (hcong j) hv (hval T hv j hj _) (ptAt_bary T hc)

end Leaves

end Verif.Interp
