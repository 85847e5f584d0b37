import Mathlib.Tactic.NormNum
import Verif.Lemmas.QuadSym

/-! The properties of a rule from the checks of its tables. -/
namespace Verif.Quad

/-- The stored coordinates come in groups with the sum one. -/
inductive Chunk1 : List ℚ → Prop
  | nil : Chunk1 []
  | cons {x u : ℚ} {r : List ℚ} (h : u = 1 - x) (hr : Chunk1 r) : Chunk1 (x :: u :: r)
/-- See `Chunk1`. -/
inductive Chunk2 : List ℚ → Prop
  | nil : Chunk2 []
  | cons {x y u : ℚ} {r : List ℚ} (h : u = 1 - x - y) (hr : Chunk2 r) : Chunk2 (x :: y :: u :: r)
/-- See `Chunk1`. -/
inductive Chunk3 : List ℚ → Prop
  | nil : Chunk3 []
  | cons {x y z u : ℚ} {r : List ℚ} (h : u = 1 - x - y - z) (hr : Chunk3 r) : Chunk3 (x :: y :: z :: u :: r)

theorem Chunk1.append {l m : List ℚ} (h : Chunk1 l) (h' : Chunk1 m) : Chunk1 (l ++ m) := by
  induction h with
  | nil => exact h'
  | cons e _ ih => exact .cons e ih
theorem Chunk2.append {l m : List ℚ} (h : Chunk2 l) (h' : Chunk2 m) : Chunk2 (l ++ m) := by
  induction h with
  | nil => exact h'
  | cons e _ ih => exact .cons e ih
theorem Chunk3.append {l m : List ℚ} (h : Chunk3 l) (h' : Chunk3 m) : Chunk3 (l ++ m) := by
  induction h with
  | nil => exact h'
  | cons e _ ih => exact .cons e ih

theorem segMem_chunk (fs : List (Seg Lit)) : Chunk1 (segMem fs) := by
  induction fs with
  | nil => exact .nil
  | cons o fs ih =>
    refine Chunk1.append (l := (o.map Lit.val).mem ratConsts) ?_ ih
    cases o with
    | centre => exact .cons (by norm_num [ratConsts]) .nil
    | twist2 k => exact .cons rfl (.cons (by simp [ratConsts]) .nil)

theorem push2_chunk (a b : ℚ) : Chunk2 (push2 ratConsts a b) := .cons rfl .nil

theorem triMem_chunk (fs : List (Tri Lit)) : Chunk2 (triMem fs) := by
  induction fs with
  | nil => exact .nil
  | cons o fs ih =>
    refine Chunk2.append (l := (o.map Lit.val).mem ratConsts) ?_ ih
    cases o <;> simp only [Tri.map, Tri.mem] <;> repeat' first | exact push2_chunk _ _ | apply Chunk2.append

theorem pushAll_chunk (l : List (ℚ × ℚ × ℚ)) : Chunk3 (pushAll ratConsts l) := by
  induction l with
  | nil => exact .nil
  | cons t l ih => exact Chunk3.append (l := push3 ratConsts t.1 t.2.1 t.2.2) (.cons rfl .nil) ih

theorem tetMem_chunk (fs : List (Tet Lit)) : Chunk3 (tetMem fs) := by
  induction fs with
  | nil => exact .nil
  | cons o fs ih =>
    refine Chunk3.append (l := (o.map Lit.val).mem ratConsts) ?_ ih
    cases o <;> first | exact pushAll_chunk _ | exact .cons (by norm_num [ratConsts]) .nil

theorem rows1_mem {ws mem : List ℚ} (hc : Chunk1 mem) (hw : ∀ w ∈ ws, 0 < w) (hm : ∀ x ∈ mem, 0 < x) {r : Row ℚ}
    (hr : r ∈ rows1 0 ws mem) : 0 < r.w ∧ 0 < r.x ∧ 0 < 1 - r.x := by
  induction ws generalizing mem with
  | nil => cases hc <;> simp [rows1] at hr
  | cons w ws ih =>
    cases hc with
    | nil => simp [rows1] at hr
    | cons e hc =>
      simp only [rows1, List.mem_cons] at hr
      rcases hr with rfl | hr
      · exact ⟨hw _ (by simp), hm _ (by simp), e ▸ hm _ (by simp)⟩
      · exact ih hc (fun w h => hw w (by simp [h])) (fun x h => hm x (by simp [h])) hr

theorem rows2_mem {ws mem : List ℚ} (hc : Chunk2 mem) (hw : ∀ w ∈ ws, 0 < w) (hm : ∀ x ∈ mem, 0 < x) {r : Row ℚ}
    (hr : r ∈ rows2 0 ws mem) : 0 < r.w ∧ 0 < r.x ∧ 0 < r.y ∧ 0 < 1 - r.x - r.y := by
  induction ws generalizing mem with
  | nil => cases hc <;> simp [rows2] at hr
  | cons w ws ih =>
    cases hc with
    | nil => simp [rows2] at hr
    | cons e hc =>
      simp only [rows2, List.mem_cons] at hr
      rcases hr with rfl | hr
      · exact ⟨hw _ (by simp), hm _ (by simp), hm _ (by simp), e ▸ hm _ (by simp)⟩
      · exact ih hc (fun w h => hw w (by simp [h])) (fun x h => hm x (by simp [h])) hr

theorem rows3_mem {ws mem : List ℚ} (hc : Chunk3 mem) (hw : ∀ w ∈ ws, 0 < w) (hm : ∀ x ∈ mem, 0 < x) {r : Row ℚ}
    (hr : r ∈ rows3 ws mem) : 0 < r.w ∧ 0 < r.x ∧ 0 < r.y ∧ 0 < r.z ∧ 0 < 1 - r.x - r.y - r.z := by
  induction ws generalizing mem with
  | nil => cases hc <;> simp [rows3] at hr
  | cons w ws ih =>
    cases hc with
    | nil => simp [rows3] at hr
    | cons e hc =>
      simp only [rows3, List.mem_cons] at hr
      rcases hr with rfl | hr
      · exact ⟨hw _ (by simp), hm _ (by simp), hm _ (by simp), hm _ (by simp), e ▸ hm _ (by simp)⟩
      · exact ih hc (fun w h => hw w (by simp [h])) (fun x h => hm x (by simp [h])) hr

/-- The unpacked check. -/
structure Sane (k S W : Nat) (lits wl : List Lit) (mem ws : List Int) : Prop where
  hS : 1 ≤ S
  hW : 1 ≤ W
  h12 : S % 12 = 0
  hl : lits.all (Lit.fits S) = true
  hwl : wl.all (Lit.fits W) = true
  hm : ∀ x ∈ mem, 0 < x
  hw : ∀ x ∈ ws, 0 < x
  len : mem.length = k * ws.length

theorem sane_iff {k S W : Nat} {lits wl : List Lit} {mem ws : List Int} (h : sane k S W lits wl mem ws = true) :
    Sane k S W lits wl mem ws := by
  simp only [sane, Bool.and_eq_true, Nat.ble_eq] at h
  obtain ⟨⟨⟨⟨⟨⟨⟨h1, h2⟩, h3⟩, h4⟩, h5⟩, h6⟩, h7⟩, h8⟩ := h
  exact ⟨h1, h2, Nat.eq_of_beq_eq_true h3, h4, h5, fun x hx => by simpa using List.all_eq_true.1 h6 x hx,
    fun x hx => by simpa using List.all_eq_true.1 h7 x hx, Nat.eq_of_beq_eq_true h8⟩

theorem unit_pos {S : Nat} (hS : 1 ≤ S) {z : Int} (hz : 0 < z) : 0 < unit S z := by
  have hS' : (0 : ℚ) < S := by exact_mod_cast hS
  exact div_pos (by exact_mod_cast hz) hS'

theorem map_unit_pos {S : Nat} (hS : 1 ≤ S) {l : List Int} (h : ∀ x ∈ l, 0 < x) : ∀ x ∈ l.map (unit S), 0 < x := by
  intro x hx
  obtain ⟨y, hy, rfl⟩ := List.mem_map.1 hx
  exact unit_pos hS (h y hy)

theorem rows1_nonneg {ws mem : List Int} (hw : ∀ x ∈ ws, 0 < x) (hm : ∀ x ∈ mem, 0 < x) :
    ∀ r ∈ rows1 0 ws mem, 0 ≤ r.w ∧ 0 ≤ r.x ∧ 0 ≤ r.y ∧ 0 ≤ r.z := by
  induction ws generalizing mem with
  | nil => rcases mem with _ | ⟨_, _ | ⟨_, _⟩⟩ <;> simp [rows1]
  | cons w ws ih =>
    rcases mem with _ | ⟨x, _ | ⟨y, r⟩⟩
    · simp [rows1]
    · simp [rows1]
    · intro q hq
      simp only [rows1, List.mem_cons] at hq
      rcases hq with rfl | hq
      · exact ⟨(hw _ (by simp)).le, (hm _ (by simp)).le, le_refl _, le_refl _⟩
      · exact ih (fun w h => hw w (by simp [h])) (fun x h => hm x (by simp [h])) q hq

theorem rows2_nonneg {ws mem : List Int} (hw : ∀ x ∈ ws, 0 < x) (hm : ∀ x ∈ mem, 0 < x) :
    ∀ r ∈ rows2 0 ws mem, 0 ≤ r.w ∧ 0 ≤ r.x ∧ 0 ≤ r.y ∧ 0 ≤ r.z := by
  induction ws generalizing mem with
  | nil => rcases mem with _ | ⟨_, _ | ⟨_, _ | ⟨_, _⟩⟩⟩ <;> simp [rows2]
  | cons w ws ih =>
    rcases mem with _ | ⟨x, _ | ⟨y, _ | ⟨u, r⟩⟩⟩
    · simp [rows2]
    · simp [rows2]
    · simp [rows2]
    · intro q hq
      simp only [rows2, List.mem_cons] at hq
      rcases hq with rfl | hq
      · exact ⟨(hw _ (by simp)).le, (hm _ (by simp)).le, (hm _ (by simp)).le, le_refl _⟩
      · exact ih (fun w h => hw w (by simp [h])) (fun x h => hm x (by simp [h])) q hq

theorem rows3_nonneg {ws mem : List Int} (hw : ∀ x ∈ ws, 0 < x) (hm : ∀ x ∈ mem, 0 < x) :
    ∀ r ∈ rows3 ws mem, 0 ≤ r.w ∧ 0 ≤ r.x ∧ 0 ≤ r.y ∧ 0 ≤ r.z := by
  induction ws generalizing mem with
  | nil => rcases mem with _ | ⟨_, _ | ⟨_, _ | ⟨_, _ | ⟨_, _⟩⟩⟩⟩ <;> simp [rows3]
  | cons w ws ih =>
    rcases mem with _ | ⟨x, _ | ⟨y, _ | ⟨z, _ | ⟨u, r⟩⟩⟩⟩
    · simp [rows3]
    · simp [rows3]
    · simp [rows3]
    · simp [rows3]
    · intro q hq
      simp only [rows3, List.mem_cons] at hq
      rcases hq with rfl | hq
      · exact ⟨(hw _ (by simp)).le, (hm _ (by simp)).le, (hm _ (by simp)).le, (hm _ (by simp)).le⟩
      · exact ih (fun w h => hw w (by simp [h])) (fun x h => hm x (by simp [h])) q hq

/-! ### Orbits -/

/-- The unpacked check of one orbit. -/
theorem orbit_iff {d : Nat} {t : Int} {b : List IPt} (h : orbitOk d t b = true) :
    (∀ q ∈ b, ∀ q' ∈ b, q.1 = q'.1) ∧ (∀ q ∈ b, q.2.length = d + 1) ∧
    ∀ k < d, greedy (closeTo (if k + 1 < d then 0 else t)) (b.map fun q => (q.1, swapAt k q.2)) b = true := by
  simp only [orbitOk, Bool.and_eq_true] at h
  obtain ⟨⟨h1, h2⟩, h3⟩ := h
  refine ⟨?_, fun q hq => Nat.eq_of_beq_eq_true (List.all_eq_true.1 h2 q hq), fun k hk => ?_⟩
  · rcases b with _ | ⟨h0, b⟩
    · simp
    · simp only [List.all_eq_true, decide_eq_true_eq] at h1
      intro q hq q' hq'
      rw [h1 q hq, h1 q' hq']
  · have := List.all_eq_true.1 h3 k (List.mem_range.2 hk)
    by_cases hd : k + 1 < d
    · rw [if_pos hd]
      have e : Nat.blt (k + 1) d = true := by simpa [Nat.blt_eq] using hd
      rwa [e] at this
    · rw [if_neg hd]
      have e : Nat.blt (k + 1) d = false := by
        cases hb : Nat.blt (k + 1) d with
        | false => rfl
        | true => exact absurd (by rwa [Nat.blt_eq] at hb) hd
      rwa [e] at this

theorem grouped {S W d : Nat} (hS : 1 ≤ S) (hd : d ≤ 3)
    (hw : ∀ s : Equiv.Perm (Fin (d + 1)), ∃ w ∈ words d, wordPerm d w = s) {t : Int} (ht : 0 ≤ t) {s : List Nat} {l : List IPt}
    (h : orbitsOk d t s l = true) : Grouped d (6 * unit S t) s (l.map (IPt.q S W)) := by
  simp only [orbitsOk, Bool.and_eq_true, List.all_eq_true] at h
  obtain ⟨h1, h2⟩ := h
  obtain ⟨h3, h4⟩ := cut_flatten s l (Nat.eq_of_beq_eq_true h1)
  have hS' : (0 : ℚ) < S := by exact_mod_cast hS
  have ht' : (0 : ℚ) ≤ unit S t := div_nonneg (by exact_mod_cast ht) hS'.le
  refine ⟨(cut s l).map fun b => b.map (IPt.q S W), ?_, ?_, ?_⟩
  · rw [← List.map_flatten, h3]
  · rw [List.map_map]
    conv_rhs => rw [← h4]
    exact List.map_congr_left fun b _ => by simp
  · intro b hb
    obtain ⟨c, hc, rfl⟩ := List.mem_map.1 hb
    obtain ⟨e1, e2, e3⟩ := orbit_iff (h2 c hc)
    refine ⟨?_, fun p => inv_all hd hw ht' (fun k hk => ?_) p⟩
    · intro q hq q' hq'
      obtain ⟨a, ha, rfl⟩ := List.mem_map.1 hq
      obtain ⟨a', ha', rfl⟩ := List.mem_map.1 hq'
      simp only [IPt.q, e1 a ha a' ha']
    · refine inv_mono ?_ (greedy_inv hS hk e2 (e3 k hk))
      split
      · simpa [unit] using ht'
      · exact le_refl _

theorem Grouped.invariant {d : Nat} {t : ℚ} {s : List Nat} {R : List (Spaces.QPoint ℚ)} (h : Grouped d t s R)
    (p : Equiv.Perm (Fin (d + 1))) : Invariant d t R p := by
  obtain ⟨B, rfl, -, h2⟩ := h
  exact inv_flatten fun b hb => (h2 b hb).2 p

/-- Exact symmetry of the points under the exchange of neighbours but for the last two. -/
theorem exact_swap {d : Nat} {t : Int} {s : List Nat} {l : List IPt} (h : orbitsOk d t s l = true) {k : Nat} (hk : k + 1 < d) :
    (l.map fun q => (q.1, swapAt k q.2)).Perm l := by
  simp only [orbitsOk, Bool.and_eq_true, List.all_eq_true] at h
  obtain ⟨h1, h2⟩ := h
  obtain ⟨h3, -⟩ := cut_flatten s l (Nat.eq_of_beq_eq_true h1)
  rw [← h3]
  generalize cut s l = B at h2
  clear h1 h3
  induction B with
  | nil => simp
  | cons b B ih =>
    rw [List.flatten_cons, List.map_append]
    refine List.Perm.append ?_ (ih fun c hc => h2 c (List.mem_cons_of_mem _ hc))
    obtain ⟨-, e2, e3⟩ := orbit_iff (h2 b List.mem_cons_self)
    have hg := e3 k (by omega)
    rw [if_pos hk] at hg
    obtain ⟨b', hp, hf⟩ := greedy_sound hg
    have hl : (b.map fun q : IPt => (q.1, swapAt k q.2)) = b' := by
      have hlen : ∀ q ∈ b.map (fun q : IPt => (q.1, swapAt k q.2)), q.2.length = d + 1 := by
        intro q hq
        obtain ⟨a, ha, rfl⟩ := List.mem_map.1 hq
        rw [swapAt_length, e2 a ha]
      have hlen' : ∀ q ∈ b', q.2.length = d + 1 := fun q hq => e2 q (hp.mem_iff.1 hq)
      have hf' := forall₂_and_left (forall₂_and_right hf hlen') hlen
      refine List.forall₂_eq_eq_eq ▸ hf'.imp fun x y hxy => ?_
      obtain ⟨hx, hy, hc⟩ := hxy
      simp only [closeTo, Bool.and_eq_true, decide_eq_true_eq] at hc
      refine Prod.ext hc.1 (List.ext_getElem (hx.trans hy.symm) fun j h1 h2 => ?_)
      have := zip_getD (hx.trans hy.symm) hc.2 h1
      simp only [List.getD_eq_getElem?_getD, List.getElem?_eq_getElem h1, List.getElem?_eq_getElem h2, Option.getD_some] at this
      omega
    exact hl ▸ hp

/-! ### Moments -/

theorem moment_of_within {d S W : Nat} (hS : 1 ≤ S) (hW : 1 ≤ W) {I : List (Row Int)}
    (h : ∀ r ∈ I, 0 ≤ r.w ∧ 0 ≤ r.x ∧ 0 ≤ r.y ∧ 0 ≤ r.z) {a b c : Nat} (hw : within d S W (I.map Row.nat) a b c = true) :
    |total (I.map (Row.map2 (unit W) (unit S))) (fun x y z => x ^ a * y ^ b * z ^ c) - target d a b c| ≤ 1 / 10 ^ 48 := by
  rw [total_mom hS hW I h]
  exact within_sound hS hW hw

/-- A moment of a list of points. -/
def ptMom (S W : Nat) (l : List IPt) (a b c : Nat) : ℚ :=
  (l.map fun q => unit W q.1 * (unit S (q.2.getD 0 0) ^ a * unit S (q.2.getD 1 0) ^ b * unit S (q.2.getD 2 0) ^ c)).sum

theorem total_ptMom (S W : Nat) (I : List (Row Int)) (a b c : Nat) :
    total (I.map (Row.map2 (unit W) (unit S))) (fun x y z => x ^ a * y ^ b * z ^ c) = ptMom S W (I.map (Row.pt3 S)) a b c := by
  induction I with
  | nil => rfl
  | cons r I ih =>
    rw [List.map_cons, List.map_cons, ptMom, List.map_cons, List.sum_cons]
    have : total (Row.map2 (unit W) (unit S) r :: I.map (Row.map2 (unit W) (unit S))) (fun x y z => x ^ a * y ^ b * z ^ c) =
      unit W r.w * (unit S r.x ^ a * unit S r.y ^ b * unit S r.z ^ c) +
        total (I.map (Row.map2 (unit W) (unit S))) (fun x y z => x ^ a * y ^ b * z ^ c) := rfl
    rw [this, ih]
    rfl

theorem ptMom_swap0 {S W : Nat} {l : List IPt} (hl : ∀ q ∈ l, q.2.length = 4)
    (h : (l.map fun q : IPt => (q.1, swapAt 0 q.2)).Perm l) (a b c : Nat) : ptMom S W l a b c = ptMom S W l b a c := by
  unfold ptMom
  rw [← (h.map _).sum_eq, List.map_map]
  refine congrArg List.sum (List.map_congr_left fun q hq => ?_)
  have h4 := hl q hq
  simp only [Function.comp_apply, getD_swapAt _ 0 _ _ (by omega : 0 + 1 < q.2.length)]
  change unit W q.1 * (unit S (q.2.getD 1 0) ^ a * unit S (q.2.getD 0 0) ^ b * unit S (q.2.getD 2 0) ^ c) = _
  ring

theorem ptMom_swap1 {S W : Nat} {l : List IPt} (hl : ∀ q ∈ l, q.2.length = 4)
    (h : (l.map fun q : IPt => (q.1, swapAt 1 q.2)).Perm l) (a b c : Nat) : ptMom S W l a b c = ptMom S W l a c b := by
  unfold ptMom
  rw [← (h.map _).sum_eq, List.map_map]
  refine congrArg List.sum (List.map_congr_left fun q hq => ?_)
  have h4 := hl q hq
  simp only [Function.comp_apply, getD_swapAt _ 1 _ _ (by omega : 1 + 1 < q.2.length)]
  change unit W q.1 * (unit S (q.2.getD 0 0) ^ a * unit S (q.2.getD 2 0) ^ b * unit S (q.2.getD 1 0) ^ c) = _
  ring

theorem target_swap0 (d a b c : Nat) : target d a b c = target d b a c := by
  unfold target; rw [Nat.mul_comm b.factorial, Nat.add_comm b a]
theorem target_swap1 (d a b c : Nat) : target d a b c = target d a c b := by
  unfold target; rw [Nat.mul_right_comm a.factorial, Nat.add_right_comm a b c]

/-- All moments from the sorted ones. -/
theorem all_of_sorted {p : Nat → Nat → Nat → Prop} {n : Nat} (h0 : ∀ a b c, p a b c → p b a c) (h1 : ∀ a b c, p a b c → p a c b)
    (h : ∀ a b c, c ≤ b → b ≤ a → a + b + c ≤ n → p a b c) (a b c : Nat) (hn : a + b + c ≤ n) : p a b c := by
  rcases le_total b a with x | x <;> rcases le_total c b with y | y <;> rcases le_total c a with z | z
  · exact h _ _ _ y x hn
  · exact h _ _ _ y x hn
  · exact h1 _ _ _ (h _ _ _ y z (by omega))
  · exact h1 _ _ _ (h0 _ _ _ (h _ _ _ x z (by omega)))
  · exact h0 _ _ _ (h _ _ _ z x (by omega))
  · exact h0 _ _ _ (h1 _ _ _ (h _ _ _ z y (by omega)))
  · exact h1 _ _ _ (h0 _ _ _ (h1 _ _ _ (h _ _ _ x y (by omega))))
  · exact h1 _ _ _ (h0 _ _ _ (h1 _ _ _ (h _ _ _ x y (by omega))))

theorem total_weights (R : List (Row ℚ)) : total R (fun x y z => x ^ 0 * y ^ 0 * z ^ 0) = (R.map Row.w).sum := by
  induction R with
  | nil => rfl
  | cons r R ih =>
    have : total (r :: R) (fun x y z => x ^ 0 * y ^ 0 * z ^ 0) =
      r.w * (r.x ^ 0 * r.y ^ 0 * r.z ^ 0) + total R (fun x y z => x ^ 0 * y ^ 0 * z ^ 0) := rfl
    rw [this, ih]; simp

theorem target_zero (d : Nat) : target d 0 0 0 = 1 := by
  unfold target
  simp only [Nat.factorial_zero, mul_one, zero_add]
  exact div_self (by exact_mod_cast d.factorial_ne_zero)

/-- What the checks of a table prove about the rule with the points `R`: the stored last coordinates, the weights and
points, the orbits, and the moments up to `n`. -/
structure Fine (d : Nat) (tol : ℚ) (sizes : List Nat) (f : Formula) (R : List (Spaces.QPoint ℚ)) : Prop where
  stored : ∀ i, ∀ q, R[i]? = some q → ∀ k ≤ d, f.p[(d + 1) * i + k]? = some (q.p k)
  weights : f.w = R.map Spaces.QPoint.w
  proper : Proper d (1 / 10 ^ 48) R
  grouped : Grouped d tol sizes R

theorem Row.q3_eq {S W : Nat} (hS : 1 ≤ S) (r : Row Int) : (r.map2 (unit W) (unit S)).q3 = IPt.q S W (r.pt3 S) := by
  have hS' : (S : ℚ) ≠ 0 := by exact_mod_cast (by omega : S ≠ 0)
  have h1 : unit S (S : Nat) = 1 := by simp [unit, hS']
  simp only [Row.q3, Row.map2, IPt.q, Row.pt3, List.map_cons, List.map_nil, unit_sub, h1]
theorem Row.q2_eq {S W : Nat} (hS : 1 ≤ S) (r : Row Int) : (r.map2 (unit W) (unit S)).q2 = IPt.q S W (r.pt2 S) := by
  have hS' : (S : ℚ) ≠ 0 := by exact_mod_cast (by omega : S ≠ 0)
  have h1 : unit S (S : Nat) = 1 := by simp [unit, hS']
  simp only [Row.q2, Row.map2, IPt.q, Row.pt2, List.map_cons, List.map_nil, unit_sub, h1]
theorem Row.q1_eq {S W : Nat} (hS : 1 ≤ S) (r : Row Int) : (r.map2 (unit W) (unit S)).q1 = IPt.q S W (r.pt1 S) := by
  have hS' : (S : ℚ) ≠ 0 := by exact_mod_cast (by omega : S ≠ 0)
  have h1 : unit S (S : Nat) = 1 := by simp [unit, hS']
  simp only [Row.q1, Row.map2, IPt.q, Row.pt1, List.map_cons, List.map_nil, unit_sub, h1]

theorem chunk1_last {ws mem : List ℚ} (hc : Chunk1 mem) {i : Nat} {r : Row ℚ} (h : (rows1 0 ws mem)[i]? = some r) (k : Nat) (hk : k ≤ 1) :
    mem[2 * i + k]? = some (r.q1.p k) := by
  induction ws generalizing mem i with
  | nil => cases hc <;> simp [rows1] at h
  | cons w ws ih =>
    cases hc with
    | nil => simp [rows1] at h
    | @cons x u rest e hc =>
      rcases i with _ | i
      · simp only [rows1, List.getElem?_cons_zero, Option.some.injEq] at h
        subst h
        rcases k with _ | _ | k
        · rfl
        · exact congrArg some e
        · omega
      · have := ih hc (i := i) (by simpa [rows1] using h)
        rw [show 2 * (i + 1) + k = (2 * i + k) + 2 by ring]
        simpa using this

theorem chunk2_last {ws mem : List ℚ} (hc : Chunk2 mem) {i : Nat} {r : Row ℚ} (h : (rows2 0 ws mem)[i]? = some r) (k : Nat) (hk : k ≤ 2) :
    mem[3 * i + k]? = some (r.q2.p k) := by
  induction ws generalizing mem i with
  | nil => cases hc <;> simp [rows2] at h
  | cons w ws ih =>
    cases hc with
    | nil => simp [rows2] at h
    | @cons x y u rest e hc =>
      rcases i with _ | i
      · simp only [rows2, List.getElem?_cons_zero, Option.some.injEq] at h
        subst h
        rcases k with _ | _ | _ | k
        · rfl
        · rfl
        · exact congrArg some e
        · omega
      · have := ih hc (i := i) (by simpa [rows2] using h)
        rw [show 3 * (i + 1) + k = (3 * i + k) + 3 by ring]
        simpa using this

theorem chunk3_last {ws mem : List ℚ} (hc : Chunk3 mem) {i : Nat} {r : Row ℚ} (h : (rows3 ws mem)[i]? = some r) (k : Nat) (hk : k ≤ 3) :
    mem[4 * i + k]? = some (r.q3.p k) := by
  induction ws generalizing mem i with
  | nil => cases hc <;> simp [rows3] at h
  | cons w ws ih =>
    cases hc with
    | nil => simp [rows3] at h
    | @cons x y z u rest e hc =>
      rcases i with _ | i
      · simp only [rows3, List.getElem?_cons_zero, Option.some.injEq] at h
        subst h
        rcases k with _ | _ | _ | _ | k
        · rfl
        · rfl
        · rfl
        · exact congrArg some e
        · omega
      · have := ih hc (i := i) (by simpa [rows3] using h)
        rw [show 4 * (i + 1) + k = (4 * i + k) + 4 by ring]
        simpa using this

theorem map_w {ws : List ℚ} {L : List (Row ℚ)} (h1 : L.length = ws.length) (h2 : ∀ i < ws.length, ∃ r, L[i]? = some r ∧ ws[i]? = some r.w) :
    L.map Row.w = ws := by
  refine List.ext_getElem? fun i => ?_
  by_cases hi : i < ws.length
  · obtain ⟨r, e1, e2⟩ := h2 i hi
    simp [e1, e2]
  · rw [List.getElem?_eq_none (by simpa [h1] using hi), List.getElem?_eq_none (by simpa using hi)]

/-- The conclusions for a tetrahedron table. -/
theorem tet_core {n S W : Nat} {t : Int} (ht : 0 ≤ t) {fs : List (Tet Lit)} {ws : List (Nat × Lit)} {s : List Int} {sizes : List Nat}
    (h1 : sane 4 S W (fs.flatMap Tet.args) (ws.map Prod.snd) (tetInt S fs) (wInt W ws) = true)
    (h2 : ∀ a ≤ n, moments3 n S W ((rows3 (wInt W ws) (tetInt S fs)).map Row.nat) a = true)
    (h3 : orbitsOk 3 t sizes ((rows3 (wInt W ws) (tetInt S fs)).map (Row.pt3 S)) = true) (hne : ws.map Prod.fst ≠ [])
    (hpos : ∀ k ∈ ws.map Prod.fst, 0 < k) :
    ∃ R, points (tetPoint (tetRule fs ws s)) (tetRule fs ws s).np = some R ∧ Fine 3 (6 * unit S t) sizes (tetRule fs ws s) R ∧
      ∀ P : MvPolynomial (Fin 3) ℝ, P.totalDegree ≤ n →
        |apply R (fun p => P.eval ![p 0, p 1, p 2]) - meanTet (fun x y z => P.eval ![x, y, z])| ≤ 1 / 10 ^ 48 * size P := by
  have sn := sane_iff h1
  have hp : (tetRule fs ws s).p = (tetInt S fs).map (unit S) := tetMem_eq sn.hS sn.h12 sn.hl
  have hw : (tetRule fs ws s).w = (wInt W ws).map (unit W) := wMem_eq sn.hW sn.hwl
  have hlen : (tetRule fs ws s).p.length = 4 * (tetRule fs ws s).w.length := by simp [hp, hw, sn.len]
  have hnp : (tetRule fs ws s).np = (tetRule fs ws s).w.length := by
    have : (tetRule fs ws s).np = (tetRule fs ws s).p.length / 4 := rfl
    omega
  have hrows : rows3 (tetRule fs ws s).w (tetRule fs ws s).p = (rows3 (wInt W ws) (tetInt S fs)).map (Row.map2 (unit W) (unit S)) := by
    rw [hp, hw, rows3_map]
  have hch : Chunk3 (tetRule fs ws s).p := tetMem_chunk fs
  obtain ⟨g1, g2⟩ := rows3_get _ _ hlen
  have hmom : ∀ a b c, a + b + c ≤ n → |total (rows3 (tetRule fs ws s).w (tetRule fs ws s).p)
      (fun x y z => x ^ a * y ^ b * z ^ c) - target 3 a b c| ≤ 1 / 10 ^ 48 := by
    rw [hrows]
    have hl4 : ∀ q ∈ (rows3 (wInt W ws) (tetInt S fs)).map (Row.pt3 S), q.2.length = 4 := by
      intro q hq
      obtain ⟨r, _, rfl⟩ := List.mem_map.1 hq
      rfl
    refine all_of_sorted (fun a b c h => ?_) (fun a b c h => ?_) (fun a b c hcb hba hn => ?_)
    · rw [total_ptMom, ptMom_swap0 hl4 (exact_swap h3 (by omega)), ← total_ptMom, target_swap0]; exact h
    · rw [total_ptMom, ptMom_swap1 hl4 (exact_swap h3 (by omega)), ← total_ptMom, target_swap1]; exact h
    · refine moment_of_within sn.hS sn.hW (rows3_nonneg sn.hw sn.hm) ?_
      have := h2 a (by omega)
      simp only [moments3, List.all_eq_true, List.mem_range] at this
      exact this b (by omega) c (by omega)
  have hmem : ∀ r ∈ rows3 (tetRule fs ws s).w (tetRule fs ws s).p, 0 < r.w ∧ 0 < r.x ∧ 0 < r.y ∧ 0 < r.z ∧ 0 < 1 - r.x - r.y - r.z :=
    fun r hr => rows3_mem hch (by rw [hw]; exact map_unit_pos sn.hW sn.hw) (by rw [hp]; exact map_unit_pos sn.hS sn.hm) hr
  have hmw : (rows3 (tetRule fs ws s).w (tetRule fs ws s).p).map Row.w = (tetRule fs ws s).w := by
    refine map_w g1 fun i hi => ?_
    obtain ⟨w, x, y, z, u, e1, -, -, -, -, e2⟩ := g2 i hi
    exact ⟨_, e2, e1⟩
  refine ⟨_, tet_points _ hlen hnp, ⟨?_, ?_, ⟨?_, ?_, ?_, ?_, ?_⟩, ?_⟩, fun P hP => tet_poly hmom P hP⟩
  · intro i q hq k hk
    rw [List.getElem?_map, Option.map_eq_some_iff] at hq
    obtain ⟨r, hr, rfl⟩ := hq
    exact chunk3_last hch hr k hk
  · rw [List.map_map]; exact hmw.symm
  · intro h
    have := congrArg List.length h
    rw [List.length_map, g1] at this
    rcases ws with _ | ⟨⟨k, l⟩, ws⟩
    · exact hne rfl
    · have hk := hpos k (by simp)
      rw [show (tetRule fs ((k, l) :: ws) s).w = List.replicate k l.val ++ wMem ws from rfl] at this
      simp at this
      omega
  · intro q hq
    obtain ⟨r, hr, rfl⟩ := List.mem_map.1 hq
    exact (hmem r hr).1
  · intro q hq k hk
    obtain ⟨r, hr, rfl⟩ := List.mem_map.1 hq
    obtain ⟨-, a, b, c, e⟩ := hmem r hr
    rcases k with _ | _ | _ | _ | k
    · exact a
    · exact b
    · exact c
    · exact e
    · omega
  · intro q hq
    obtain ⟨r, hr, rfl⟩ := List.mem_map.1 hq
    simp [Row.q3, List.range_succ]
  · have := hmom 0 0 0 (by omega)
    rw [total_weights, target_zero] at this
    rw [List.map_map]
    exact this
  · rw [hrows, List.map_map]
    have := grouped (W := W) sn.hS (le_refl 3) words3 ht h3
    rw [List.map_map] at this
    have e : Row.q3 ∘ Row.map2 (unit W) (unit S) = IPt.q S W ∘ Row.pt3 S := funext fun r => Row.q3_eq sn.hS r
    rw [e]
    exact this

/-- The conclusions for a triangle table. -/
theorem tri_core {n S W : Nat} {t : Int} (ht : 0 ≤ t) {fs : List (Tri Lit)} {ws : List (Nat × Lit)} {s : List Int} {sizes : List Nat}
    (h1 : sane 3 S W (fs.flatMap Tri.args) (ws.map Prod.snd) (triInt S fs) (wInt W ws) = true)
    (h2 : moments2 n S W ((rows2 0 (wInt W ws) (triInt S fs)).map Row.nat) = true)
    (h3 : orbitsOk 2 t sizes ((rows2 0 (wInt W ws) (triInt S fs)).map (Row.pt2 S)) = true) (hne : ws.map Prod.fst ≠ [])
    (hpos : ∀ k ∈ ws.map Prod.fst, 0 < k) :
    ∃ R, points (triPoint (triRule fs ws s)) (triRule fs ws s).np = some R ∧ Fine 2 (6 * unit S t) sizes (triRule fs ws s) R ∧
      ∀ P : MvPolynomial (Fin 2) ℝ, P.totalDegree ≤ n →
        |apply R (fun p => P.eval ![p 0, p 1]) - meanTri (fun x y => P.eval ![x, y])| ≤ 1 / 10 ^ 48 * size P := by
  have sn := sane_iff h1
  have hp : (triRule fs ws s).p = (triInt S fs).map (unit S) := triMem_eq sn.hS sn.h12 sn.hl
  have hw : (triRule fs ws s).w = (wInt W ws).map (unit W) := wMem_eq sn.hW sn.hwl
  have hlen : (triRule fs ws s).p.length = 3 * (triRule fs ws s).w.length := by simp [hp, hw, sn.len]
  have hnp : (triRule fs ws s).np = (triRule fs ws s).w.length := by
    have : (triRule fs ws s).np = (triRule fs ws s).p.length / 3 := rfl
    omega
  have hrows : rows2 0 (triRule fs ws s).w (triRule fs ws s).p = (rows2 0 (wInt W ws) (triInt S fs)).map (Row.map2 (unit W) (unit S)) := by
    rw [hp, hw, ← rows2_map, show unit S 0 = 0 by simp [unit]]
  have hch : Chunk2 (triRule fs ws s).p := triMem_chunk fs
  obtain ⟨g1, g2⟩ := rows2_get (0 : ℚ) _ _ hlen
  have hmom : ∀ a b, a + b ≤ n → |total (rows2 0 (triRule fs ws s).w (triRule fs ws s).p)
      (fun x y z => x ^ a * y ^ b * z ^ 0) - target 2 a b 0| ≤ 1 / 10 ^ 48 := by
    rw [hrows]
    intro a b hn
    refine moment_of_within sn.hS sn.hW (rows2_nonneg sn.hw sn.hm) ?_
    simp only [moments2, List.all_eq_true, List.mem_range] at h2
    exact h2 a (by omega) b (by omega)
  have hmem : ∀ r ∈ rows2 0 (triRule fs ws s).w (triRule fs ws s).p, 0 < r.w ∧ 0 < r.x ∧ 0 < r.y ∧ 0 < 1 - r.x - r.y :=
    fun r hr => rows2_mem hch (by rw [hw]; exact map_unit_pos sn.hW sn.hw) (by rw [hp]; exact map_unit_pos sn.hS sn.hm) hr
  have hmw : (rows2 0 (triRule fs ws s).w (triRule fs ws s).p).map Row.w = (triRule fs ws s).w := by
    refine map_w g1 fun i hi => ?_
    obtain ⟨w, x, y, u, e1, -, -, -, e2⟩ := g2 i hi
    exact ⟨_, e2, e1⟩
  refine ⟨_, tri_points _ hlen hnp, ⟨?_, ?_, ⟨?_, ?_, ?_, ?_, ?_⟩, ?_⟩, fun P hP => tri_poly hmom P hP⟩
  · intro i q hq k hk
    rw [List.getElem?_map, Option.map_eq_some_iff] at hq
    obtain ⟨r, hr, rfl⟩ := hq
    exact chunk2_last hch hr k hk
  · rw [List.map_map]; exact hmw.symm
  · intro h
    have := congrArg List.length h
    rw [List.length_map, g1] at this
    rcases ws with _ | ⟨⟨k, l⟩, ws⟩
    · exact hne rfl
    · have hk := hpos k (by simp)
      rw [show (triRule fs ((k, l) :: ws) s).w = List.replicate k l.val ++ wMem ws from rfl] at this
      simp at this
      omega
  · intro q hq
    obtain ⟨r, hr, rfl⟩ := List.mem_map.1 hq
    exact (hmem r hr).1
  · intro q hq k hk
    obtain ⟨r, hr, rfl⟩ := List.mem_map.1 hq
    obtain ⟨-, a, b, e⟩ := hmem r hr
    rcases k with _ | _ | _ | k
    · exact a
    · exact b
    · exact e
    · omega
  · intro q hq
    obtain ⟨r, hr, rfl⟩ := List.mem_map.1 hq
    simp [Row.q2, List.range_succ]
  · have := hmom 0 0 (by omega)
    rw [total_weights, target_zero] at this
    rw [List.map_map]
    exact this
  · rw [hrows, List.map_map]
    have := grouped (W := W) sn.hS (by omega) words2 ht h3
    rw [List.map_map] at this
    have e : Row.q2 ∘ Row.map2 (unit W) (unit S) = IPt.q S W ∘ Row.pt2 S := funext fun r => Row.q2_eq sn.hS r
    rw [e]
    exact this

/-- The conclusions for a segment table. -/
theorem seg_core {n S W : Nat} {t : Int} (ht : 0 ≤ t) {fs : List (Seg Lit)} {ws : List (Nat × Lit)} {s : Int} {sizes : List Nat}
    (h1 : sane 2 S W (fs.flatMap Seg.args) (ws.map Prod.snd) (segInt S fs) (wInt W ws) = true)
    (h2 : moments1 n S W ((rows1 0 (wInt W ws) (segInt S fs)).map Row.nat) = true)
    (h3 : orbitsOk 1 t sizes ((rows1 0 (wInt W ws) (segInt S fs)).map (Row.pt1 S)) = true) (hne : ws.map Prod.fst ≠ [])
    (hpos : ∀ k ∈ ws.map Prod.fst, 0 < k) :
    ∃ R, points (segPoint (segRule fs ws s)) (segRule fs ws s).np = some R ∧ Fine 1 (6 * unit S t) sizes (segRule fs ws s) R ∧
      ∀ P : MvPolynomial (Fin 1) ℝ, P.totalDegree ≤ n →
        |apply R (fun p => P.eval ![p 0]) - meanSeg (fun x => P.eval ![x])| ≤ 1 / 10 ^ 48 * size P := by
  have sn := sane_iff h1
  have hp : (segRule fs ws s).p = (segInt S fs).map (unit S) := segMem_eq sn.hS sn.h12 sn.hl
  have hw : (segRule fs ws s).w = (wInt W ws).map (unit W) := wMem_eq sn.hW sn.hwl
  have hlen : (segRule fs ws s).p.length = 2 * (segRule fs ws s).w.length := by simp [hp, hw, sn.len]
  have hnp : (segRule fs ws s).np = (segRule fs ws s).w.length := by
    have : (segRule fs ws s).np = (segRule fs ws s).p.length / 2 := rfl
    omega
  have hrows : rows1 0 (segRule fs ws s).w (segRule fs ws s).p = (rows1 0 (wInt W ws) (segInt S fs)).map (Row.map2 (unit W) (unit S)) := by
    rw [hp, hw, ← rows1_map, show unit S 0 = 0 by simp [unit]]
  have hch : Chunk1 (segRule fs ws s).p := segMem_chunk fs
  obtain ⟨g1, g2⟩ := rows1_get (0 : ℚ) _ _ hlen
  have hmom : ∀ a, a ≤ n → |total (rows1 0 (segRule fs ws s).w (segRule fs ws s).p)
      (fun x y z => x ^ a * y ^ 0 * z ^ 0) - target 1 a 0 0| ≤ 1 / 10 ^ 48 := by
    rw [hrows]
    intro a hn
    refine moment_of_within sn.hS sn.hW (rows1_nonneg sn.hw sn.hm) ?_
    simp only [moments1, List.all_eq_true, List.mem_range] at h2
    exact h2 a (by omega)
  have hmem : ∀ r ∈ rows1 0 (segRule fs ws s).w (segRule fs ws s).p, 0 < r.w ∧ 0 < r.x ∧ 0 < 1 - r.x :=
    fun r hr => rows1_mem hch (by rw [hw]; exact map_unit_pos sn.hW sn.hw) (by rw [hp]; exact map_unit_pos sn.hS sn.hm) hr
  have hmw : (rows1 0 (segRule fs ws s).w (segRule fs ws s).p).map Row.w = (segRule fs ws s).w := by
    refine map_w g1 fun i hi => ?_
    obtain ⟨w, x, u, e1, -, -, e2⟩ := g2 i hi
    exact ⟨_, e2, e1⟩
  refine ⟨_, seg_points _ hlen hnp, ⟨?_, ?_, ⟨?_, ?_, ?_, ?_, ?_⟩, ?_⟩, fun P hP => seg_poly hmom P hP⟩
  · intro i q hq k hk
    rw [List.getElem?_map, Option.map_eq_some_iff] at hq
    obtain ⟨r, hr, rfl⟩ := hq
    exact chunk1_last hch hr k hk
  · rw [List.map_map]; exact hmw.symm
  · intro h
    have := congrArg List.length h
    rw [List.length_map, g1] at this
    rcases ws with _ | ⟨⟨k, l⟩, ws⟩
    · exact hne rfl
    · have hk := hpos k (by simp)
      rw [show (segRule fs ((k, l) :: ws) s).w = List.replicate k l.val ++ wMem ws from rfl] at this
      simp at this
      omega
  · intro q hq
    obtain ⟨r, hr, rfl⟩ := List.mem_map.1 hq
    exact (hmem r hr).1
  · intro q hq k hk
    obtain ⟨r, hr, rfl⟩ := List.mem_map.1 hq
    obtain ⟨-, a, e⟩ := hmem r hr
    rcases k with _ | _ | k
    · exact a
    · exact e
    · omega
  · intro q hq
    obtain ⟨r, hr, rfl⟩ := List.mem_map.1 hq
    simp [Row.q1, List.range_succ]
  · have := hmom 0 (by omega)
    rw [total_weights, target_zero] at this
    rw [List.map_map]
    exact this
  · rw [hrows, List.map_map]
    have := grouped (W := W) sn.hS (by omega) words1 ht h3
    rw [List.map_map] at this
    have e : Row.q1 ∘ Row.map2 (unit W) (unit S) = IPt.q S W ∘ Row.pt1 S := funext fun r => Row.q1_eq sn.hS r
    rw [e]
    exact this

theorem Fine.mono {d : Nat} {t t' : ℚ} (h : t ≤ t') {sizes : List Nat} {f : Formula} {R : List (Spaces.QPoint ℚ)}
    (hf : Fine d t sizes f R) : Fine d t' sizes f R := by
  obtain ⟨h1, h2, h3, B, h4, h5, h6⟩ := hf
  exact ⟨h1, h2, h3, B, h4, h5, fun b hb => ⟨(h6 b hb).1, fun s => inv_mono h ((h6 b hb).2 s)⟩⟩

theorem unit_tol {S : Nat} (hS : 1 ≤ S) : 6 * unit S ((S / 10 ^ 120 : Nat) : Int) ≤ 1 / 10 ^ 119 := by
  have hS' : (0 : ℚ) < S := by exact_mod_cast hS
  have h : ((S / 10 ^ 120 : Nat) : ℚ) ≤ (S : ℚ) / ((10 ^ 120 : Nat) : ℚ) := Nat.cast_div_le
  have h2 : unit S ((S / 10 ^ 120 : Nat) : Int) ≤ 1 / 10 ^ 120 := by
    unfold unit
    rw [Int.cast_natCast, div_le_div_iff₀ hS' (by positivity), one_mul]
    rw [le_div_iff₀ (by positivity)] at h
    push_cast at h
    exact h
  calc _ ≤ 6 * (1 / 10 ^ 120 : ℚ) := by linarith
    _ ≤ _ := by norm_num

end Verif.Quad
