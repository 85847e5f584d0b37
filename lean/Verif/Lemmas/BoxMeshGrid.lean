import Verif.Lemmas.BoxMesh
import Mathlib.Data.List.Nodup
import Mathlib.Data.List.Range
import Mathlib.Data.List.Flatten
import Mathlib.Data.List.ProdSigma

/-! The loops over the grid and the distribution over the processes. -/
namespace Verif.BoxMesh
open Verif.Spec.BoxMesh

/-! ### Lists -/

theorem mapM_some {α β : Type} {l : List α} {f : α → Option β} {g : α → β} (h : ∀ x ∈ l, f x = some (g x)) : l.mapM f = some (l.map g) := by
  induction l with
  | nil => rfl
  | cons x l ih =>
    rw [List.mapM_cons, h x (by simp), ih fun y hy => h y (by simp [hy])]
    rfl

theorem flatMap_get {α β : Type} {l : List α} {f : α → List β} {n : Nat} (h : ∀ x ∈ l, (f x).length = n) {i j : Nat} (hj : j < n) :
    (l.flatMap f)[i * n + j]? = l[i]?.bind fun x => (f x)[j]? := by
  induction l generalizing i with
  | nil => simp
  | cons x l ih =>
    rw [List.flatMap_cons]
    cases i with
    | zero =>
      rw [Nat.zero_mul, Nat.zero_add, List.getElem?_append_left (by rw [h x (by simp)]; exact hj)]
      simp
    | succ i =>
      rw [List.getElem?_append_right (by rw [h x (by simp), Nat.succ_mul]; omega), h x (by simp), List.getElem?_cons_succ,
        ← ih (fun y hy => h y (by simp [hy]))]
      congr 1
      rw [Nat.succ_mul]; omega

theorem upto_get {a s i : Nat} (h1 : a ≤ i) (h2 : i ≤ a + s) : (upto a (a + s))[i - a]? = some i := by
  rw [upto, List.getElem?_range' (by omega)]
  congr 1; omega

theorem upto_length (a s : Nat) : (upto a (a + s)).length = s + 1 := by simp [upto]; omega

theorem mem_upto {a b i : Nat} : i ∈ upto a b ↔ a ≤ i ∧ i ≤ b := by
  rw [upto, List.mem_range'_1]; omega

theorem mem_triples {a b : Fin 3 → Nat} {l : Lab} : l ∈ triples a b ↔ ∀ c, a c ≤ l c ∧ l c ≤ b c := by
  unfold triples
  simp only [List.mem_flatMap, List.mem_map, mem_upto]
  constructor
  · rintro ⟨i, hi, j, hj, k, hk, rfl⟩ c
    fin_cases c
    · exact hi
    · exact hj
    · exact hk
  · intro h
    refine ⟨l 0, h 0, l 1, h 1, l 2, h 2, ?_⟩
    funext c; fin_cases c <;> rfl

theorem upto_nodup (a b : Nat) : (upto a b).Nodup := List.nodup_range'

theorem triples_nodup (a b : Fin 3 → Nat) : (triples a b).Nodup := by
  unfold triples
  rw [List.nodup_flatMap]
  refine ⟨fun i _ => ?_, (upto_nodup _ _).imp fun {i i'} hne => ?_⟩
  · rw [List.nodup_flatMap]
    refine ⟨fun j _ => (upto_nodup _ _).map fun k k' h => ?_, (upto_nodup _ _).imp fun {j j'} hne => ?_⟩
    · have := congrFun h 2; simpa using this
    · intro l hl hl'
      obtain ⟨k, -, rfl⟩ := List.mem_map.1 hl
      obtain ⟨k', -, h⟩ := List.mem_map.1 hl'
      have := congrFun h 1
      exact hne (by simpa using this.symm)
  · intro l hl hl'
    obtain ⟨j, -, hl⟩ := List.mem_flatMap.1 hl
    obtain ⟨k, -, rfl⟩ := List.mem_map.1 hl
    obtain ⟨j', -, hl'⟩ := List.mem_flatMap.1 hl'
    obtain ⟨k', -, h⟩ := List.mem_map.1 hl'
    have := congrFun h 0
    exact hne (by simpa using this.symm)

/-! ### The nodes and the boxes -/

theorem vid_lt {s0 s1 s2 x y z : Nat} (hx : x ≤ s0) (hy : y ≤ s1) (hz : z ≤ s2) :
    x * (s1 + 1) * (s2 + 1) + y * (s2 + 1) + z < (s0 + 1) * (s1 + 1) * (s2 + 1) := by
  have h1 : x * (s1 + 1) + y + 1 ≤ (s0 + 1) * (s1 + 1) := by
    have := Nat.mul_le_mul_right (s1 + 1) hx
    rw [Nat.succ_mul]; omega
  have h2 := Nat.mul_le_mul_right (s2 + 1) h1
  have e : (x * (s1 + 1) + y + 1) * (s2 + 1) = x * (s1 + 1) * (s2 + 1) + y * (s2 + 1) + (s2 + 1) := by ring
  omega

/-- `V_ID` finds the node. -/
theorem newverts_vid {st sz : Fin 3 → Nat} (hb : (sz 0 + 1) * (sz 1 + 1) * (sz 2 + 1) ≤ 2 ^ 32) {l : Lab} (hl : ∀ c, st c ≤ l c ∧ l c ≤ st c + sz c) :
    (newverts st fun c => st c + sz c)[vid st sz (l 0) (l 1) (l 2)]? = some l := by
  have h0 := hl 0
  have h1 := hl 1
  have h2 := hl 2
  have hlt := vid_lt (s0 := sz 0) (s1 := sz 1) (s2 := sz 2) (x := l 0 - st 0) (y := l 1 - st 1) (z := l 2 - st 2) (by omega) (by omega) (by omega)
  rw [vid, Nat.mod_eq_of_lt (by omega)]
  have e : (l 0 - st 0) * (sz 1 + 1) * (sz 2 + 1) + (l 1 - st 1) * (sz 2 + 1) + (l 2 - st 2) =
      (l 0 - st 0) * ((sz 1 + 1) * (sz 2 + 1)) + ((l 1 - st 1) * (sz 2 + 1) + (l 2 - st 2)) := by ring
  have hin : ∀ i j, ((upto (st 2) (st 2 + sz 2)).map fun k => (![i, j, k] : Lab)).length = sz 2 + 1 := fun i j => by
    rw [List.length_map, upto_length]
  have hmid : ∀ i, ((upto (st 1) (st 1 + sz 1)).flatMap fun j => (upto (st 2) (st 2 + sz 2)).map fun k => (![i, j, k] : Lab)).length =
      (sz 1 + 1) * (sz 2 + 1) := fun i => by
    rw [List.length_flatMap]
    simp only [hin]
    rw [List.map_const', List.sum_replicate, upto_length, smul_eq_mul]
  have hz : (l 1 - st 1) * (sz 2 + 1) + (l 2 - st 2) < (sz 1 + 1) * (sz 2 + 1) := by
    have := vid_lt (s0 := 0) (s1 := sz 1) (s2 := sz 2) (x := 0) (y := l 1 - st 1) (z := l 2 - st 2) (by omega) (by omega) (by omega)
    simpa using this
  rw [e, newverts, triples, flatMap_get (n := (sz 1 + 1) * (sz 2 + 1)) (fun i _ => hmid i) hz, upto_get h0.1 h0.2, Option.bind_some,
    flatMap_get (n := sz 2 + 1) (fun j _ => hin _ j) (by omega), upto_get h1.1 h1.2, Option.bind_some, List.getElem?_map, upto_get h2.1 h2.2]
  simp only [Option.map_some, Option.some.injEq]
  funext c; fin_cases c <;> rfl

/-- The corner of a box by its number. -/
def labN (b : Lab) (c : Nat) : Lab := fun a => b a + ![c % 2, c / 2 % 2, c / 4] a

theorem labN_lab (b : Lab) (c : Fin 8) : labN b c.val = lab b c := rfl

/-- The cell of the box `b` with the faces `t`. -/
def cellOf (b : Lab) (t : List (List Nat)) : Cell := t.map fun f => f.map (labN b)

theorem boxVerts_eq {st sz : Fin 3 → Nat} (hb : (sz 0 + 1) * (sz 1 + 1) * (sz 2 + 1) ≤ 2 ^ 32) {b : Lab}
    (hl : ∀ c, st c ≤ b c ∧ b c < st c + sz c) :
    boxVerts st sz (newverts st fun c => st c + sz c) (b 0 + 1) (b 1 + 1) (b 2 + 1) = some ((List.range 8).map (labN b)) := by
  have key : ∀ x y z : Nat, x ≤ 1 → y ≤ 1 → z ≤ 1 →
      (newverts st fun c => st c + sz c)[vid st sz (b 0 + x) (b 1 + y) (b 2 + z)]? = some (fun a => b a + ![x, y, z] a) := by
    intro x y z hx hy hz
    have h0 := hl 0
    have h1 := hl 1
    have h2 := hl 2
    refine newverts_vid (l := fun a => b a + ![x, y, z] a) hb fun c => ?_
    fin_cases c <;> simp <;> omega
  have e : boxVerts st sz (newverts st fun c => st c + sz c) (b 0 + 1) (b 1 + 1) (b 2 + 1) =
      [(0, 0, 0), (1, 0, 0), (0, 1, 0), (1, 1, 0), (0, 0, 1), (1, 0, 1), (0, 1, 1), (1, 1, 1)].mapM
        fun (d : Nat × Nat × Nat) => (newverts st fun c => st c + sz c)[vid st sz (b 0 + d.1) (b 1 + d.2.1) (b 2 + d.2.2)]? := rfl
  rw [e, mapM_some (g := fun d => fun a => b a + ![d.1, d.2.1, d.2.2] a)]
  · rfl
  · intro d hd
    have : d.1 ≤ 1 ∧ d.2.1 ≤ 1 ∧ d.2.2 ≤ 1 := by
      revert d; decide
    exact key _ _ _ this.1 this.2.1 this.2.2

theorem tables_lt : ∀ t ∈ tables, ∀ f ∈ t, ∀ c ∈ f, c < 8 := by decide +kernel

theorem createTets_eq (b : Lab) : createTets ((List.range 8).map (labN b)) = some (tables.map (cellOf b)) := by
  unfold createTets
  refine mapM_some fun t ht => mapM_some fun f hf => mapM_some fun c hc => ?_
  have := tables_lt t ht f hf c hc
  rw [List.getElem?_map, List.getElem?_range this]
  rfl

/-- The boxes of a process. -/
def boxes (st en : Fin 3 → Nat) : List Lab := (triples (fun c => st c + 1) en).map fun l c => l c - 1

theorem mem_boxes {st en : Fin 3 → Nat} {b : Lab} : b ∈ boxes st en ↔ ∀ c, st c ≤ b c ∧ b c < en c := by
  unfold boxes
  rw [List.mem_map]
  constructor
  · rintro ⟨l, hl, rfl⟩ c
    have := mem_triples.1 hl c
    (try beta_reduce at this ⊢); omega
  · intro h
    refine ⟨fun c => b c + 1, mem_triples.2 fun c => ?_, ?_⟩
    · have := h c; (try beta_reduce); omega
    · funext c; simp

theorem boxes_nodup (st en : Fin 3 → Nat) : (boxes st en).Nodup := by
  refine List.Nodup.map_on ?_ (triples_nodup _ _)
  intro x hx y hy h
  funext c
  have h1 := mem_triples.1 hx c
  have h2 := mem_triples.1 hy c
  have := congrFun h c
  (try beta_reduce at h1 h2 this); omega

theorem cells_eq {st sz en : Fin 3 → Nat} (he : ∀ c, en c = st c + sz c) (hb : (sz 0 + 1) * (sz 1 + 1) * (sz 2 + 1) ≤ 2 ^ 32) :
    cells st sz en = some ((boxes st en).flatMap fun b => tables.map (cellOf b)) := by
  have he' : en = fun c => st c + sz c := funext he
  unfold cells
  rw [mapM_some (g := fun l => tables.map (cellOf fun c => l c - 1))]
  · rw [Option.map_some, boxes, List.flatMap_map]
    rfl
  · intro l hl
    have hl' := fun c => mem_triples.1 hl c
    have h1 : ∀ c, l c = (l c - 1) + 1 := fun c => by have := hl' c; (try beta_reduce at this); omega
    have h2 := boxVerts_eq (st := st) (sz := sz) hb (b := fun c => l c - 1) (fun c => by have := hl' c; have := he c; (try beta_reduce at this ⊢); omega)
    rw [he', h1 0, h1 1, h1 2]
    (try beta_reduce at h2)
    rw [h2, Option.bind_some, createTets_eq]

theorem cells_nil {st sz en : Fin 3 → Nat} {c : Fin 3} (h : en c < st c) : cells st sz en = some [] ∧ boxes st en = [] := by
  have h1 : triples (fun c => st c + 1) en = [] := by
    rw [List.eq_nil_iff_forall_not_mem]
    intro l hl
    have := mem_triples.1 hl c
    (try beta_reduce at this); omega
  exact ⟨by unfold cells; rw [h1]; rfl, by unfold boxes; rw [h1]; rfl⟩

/-! ### The distribution -/

theorem firstDiv_spec {d : Nat} (h : 1 < d) : 1 < firstDiv d ∧ firstDiv d ∣ d := by
  unfold firstDiv
  cases hf : (List.range' 2 (d - 1)).find? fun k => decide (d % k = 0) with
  | none => exact ⟨h, dvd_refl d⟩
  | some k =>
    have h1 := List.find?_some hf
    have h2 := List.mem_of_find?_eq_some hf
    rw [List.mem_range'_1] at h2
    simp only [decide_eq_true_eq] at h1
    exact ⟨by simp only [Option.getD_some]; omega, Nat.dvd_of_mod_eq_zero h1⟩

theorem divsLoop_prod (f d : Nat) (hf : d ≤ f) (hd : 0 < d) : (divsLoop f d).prod = d := by
  induction f generalizing d with
  | zero => omega
  | succ f ih =>
    unfold divsLoop
    by_cases h : 1 < d
    · obtain ⟨h1, h2⟩ := firstDiv_spec h
      have h3 : d / firstDiv d < d := Nat.div_lt_self (by omega) h1
      have h4 : 0 < d / firstDiv d := Nat.div_pos (Nat.le_of_dvd (by omega) h2) (by omega)
      rw [if_pos h, List.prod_cons, ih _ (by omega) h4, Nat.mul_div_cancel' h2]
    · rw [if_neg h]; simp; omega

theorem gridStep_prod (g : Grid) (k : Nat) : ∏ c, (gridStep g k).procs c = (∏ c, g.procs c) * k := by
  unfold gridStep
  generalize maxIdx g.elems = i
  simp only [Fin.prod_univ_three]
  fin_cases i <;> simp [Function.update] <;> ring

theorem fold_prod (l : List Nat) (g : Grid) : ∏ c, (l.foldl gridStep g).procs c = (∏ c, g.procs c) * l.prod := by
  induction l generalizing g with
  | nil => simp
  | cons k l ih => rw [List.foldl_cons, ih, gridStep_prod, List.prod_cons, mul_assoc]

theorem procGrid_prod {size : Nat} (h : 0 < size) (sizes : Fin 3 → Nat) :
    procGrid size sizes 0 * procGrid size sizes 1 * procGrid size sizes 2 = size := by
  have := fold_prod (divs size).reverse ⟨fun _ => 1, sizes⟩
  rw [List.prod_reverse, divs, divsLoop_prod size size le_rfl h] at this
  simpa [Fin.prod_univ_three, procGrid, divs] using this

theorem procCoords_lt {P : Fin 3 → Nat} {rank : Nat} (h : rank < P 0 * P 1 * P 2) (c : Fin 3) : procCoords P rank c < P c := by
  have h0 : 0 < P 0 := by by_contra h'; simp at h'; simp [h'] at h
  have h1 : 0 < P 1 := by by_contra h'; simp at h'; simp [h'] at h
  fin_cases c
  · exact Nat.mod_lt _ h0
  · exact Nat.mod_lt _ h1
  · exact (Nat.div_lt_iff_lt_mul (Nat.mul_pos h0 h1)).2 (by rw [mul_comm]; exact h)

theorem procCoords_inj {P : Fin 3 → Nat} (h0 : 0 < P 0) (h1 : 0 < P 1) {r r' : Nat} (h : procCoords P r = procCoords P r') : r = r' := by
  have e0 : r % P 0 = r' % P 0 := congrFun h 0
  have e1 : r / P 0 % P 1 = r' / P 0 % P 1 := congrFun h 1
  have e2 : r / (P 0 * P 1) = r' / (P 0 * P 1) := congrFun h 2
  rw [← Nat.div_div_eq_div_mul, ← Nat.div_div_eq_div_mul] at e2
  have e3 : r / P 0 = r' / P 0 := by rw [← Nat.div_add_mod (r / P 0) (P 1), e1, e2, Nat.div_add_mod]
  rw [← Nat.div_add_mod r (P 0), e0, e3, Nat.div_add_mod]

theorem procCoords_onto {P : Fin 3 → Nat} {x : Fin 3 → Nat} (h : ∀ c, x c < P c) : ∃ r < P 0 * P 1 * P 2, procCoords P r = x := by
  have h0 := h 0
  have h1 := h 1
  have h2 := h 2
  refine ⟨x 0 + P 0 * (x 1 + P 1 * x 2), ?_, ?_⟩
  · have a1 : x 1 + P 1 * x 2 + 1 ≤ P 1 * P 2 := by
      have := Nat.mul_le_mul_left (P 1) (show x 2 + 1 ≤ P 2 by omega)
      rw [Nat.mul_succ] at this; omega
    have a2 := Nat.mul_le_mul_left (P 0) a1
    rw [Nat.mul_succ, ← mul_assoc (P 0) (P 1) (P 2)] at a2
    omega
  · have e1 : (x 0 + P 0 * (x 1 + P 1 * x 2)) / P 0 = x 1 + P 1 * x 2 := by
      rw [Nat.add_mul_div_left _ _ (by omega), Nat.div_eq_of_lt h0, Nat.zero_add]
    funext c
    fin_cases c
    · show (x 0 + P 0 * (x 1 + P 1 * x 2)) % P 0 = x 0
      rw [Nat.add_mul_mod_self_left, Nat.mod_eq_of_lt h0]
    · show (x 0 + P 0 * (x 1 + P 1 * x 2)) / P 0 % P 1 = x 1
      rw [e1, Nat.add_mul_mod_self_left, Nat.mod_eq_of_lt h1]
    · show (x 0 + P 0 * (x 1 + P 1 * x 2)) / (P 0 * P 1) = x 2
      rw [← Nat.div_div_eq_div_mul, e1, Nat.add_mul_div_left _ _ (by omega), Nat.div_eq_of_lt h1, Nat.zero_add]

theorem avg_spec {s p : Nat} (hp : 0 < p) : avg s p * p ≤ s + p - 1 ∧ s ≤ avg s p * p := by
  unfold avg
  have h1 := Nat.div_mul_le_self (s + p - 1) p
  have h2 := Nat.lt_div_mul_add (a := s + p - 1) hp
  exact ⟨h1, by omega⟩

theorem avg_le {s p : Nat} (hs : 0 < s) (hp : 0 < p) : avg s p ≤ s ∧ 0 < avg s p := by
  obtain ⟨h1, h2⟩ := avg_spec (s := s) hp
  constructor
  · by_contra h
    have h3 := Nat.mul_le_mul_right p (show s + 1 ≤ avg s p by omega)
    have h4 : s + p ≤ (s + 1) * p := by
      obtain ⟨q, rfl⟩ := Nat.exists_eq_add_of_lt hp
      have : (s + 1) * (0 + q + 1) = s + (0 + q + 1) + s * q := by ring
      omega
    omega
  · by_contra h
    have : avg s p = 0 := by omega
    rw [this] at h2; omega

/-- The end of the range of the process `c` on an axis. -/
def stop (s p c : Nat) : Nat := if c = p - 1 then s else avg s p * (c + 1)

theorem axis {s p c : Nat} (hs : 0 < s) (hc : c < p) (hb : s + p ≤ 2 ^ 32) :
    lstart s p c = avg s p * c ∧ lend s p c = stop s p c ∧
      ((lend s p c = lstart s p c + lsize s p c ∧ lsize s p c ≤ s) ∨ lend s p c < lstart s p c) := by
  obtain ⟨h1, h2⟩ := avg_spec (s := s) (p := p) (by omega)
  obtain ⟨h3, h4⟩ := avg_le hs (show 0 < p by omega)
  have h5 : avg s p * (p - 1) + avg s p = avg s p * p := by
    obtain ⟨q, rfl⟩ := Nat.exists_eq_add_of_lt (show 0 < p by omega)
    simp only [Nat.add_sub_cancel]; ring
  have h6 : avg s p * c ≤ avg s p * (p - 1) := Nat.mul_le_mul_left _ (by omega)
  have e1 : lstart s p c = avg s p * c := Nat.mod_eq_of_lt (by omega)
  by_cases hl : c = p - 1
  · have e2 : lsize s p c = sub32 s (avg s p * (p - 1)) := by rw [lsize, if_pos hl]
    have e3 : stop s p c = s := by rw [stop, if_pos hl]
    rw [← hl] at h5 e2
    have e4 : sub32 s (avg s p * c) = if avg s p * c ≤ s then s - avg s p * c else s + 2 ^ 32 - avg s p * c := by
      unfold sub32
      rw [Nat.mod_eq_of_lt (a := avg s p * c) (by omega)]
      split
      · rw [show s + 2 ^ 32 - avg s p * c = (s - avg s p * c) + 2 ^ 32 by omega, Nat.add_mod_right, Nat.mod_eq_of_lt (by omega)]
      · rw [Nat.mod_eq_of_lt (by omega)]
    have e5 : lend s p c = s := by
      unfold lend
      rw [e1, e2, e4]
      split
      · rw [Nat.mod_eq_of_lt (by omega)]; omega
      · rw [show avg s p * c + (s + 2 ^ 32 - avg s p * c) = s + 2 ^ 32 by omega, Nat.add_mod_right, Nat.mod_eq_of_lt (by omega)]
    refine ⟨e1, by rw [e5, e3], ?_⟩
    rw [e5, e1, e2, e4]
    split <;> omega
  · have e2 : lsize s p c = avg s p := by rw [lsize, if_neg hl]
    have e3 : stop s p c = avg s p * c + avg s p := by rw [stop, if_neg hl, Nat.mul_succ]
    have h7 : avg s p * c + avg s p ≤ avg s p * (p - 1) := by
      rw [← Nat.mul_succ]; exact Nat.mul_le_mul_left _ (by omega)
    have e5 : lend s p c = avg s p * c + avg s p := by
      unfold lend; rw [e1, e2, Nat.mod_eq_of_lt (by omega)]
    refine ⟨e1, by rw [e5, e3], Or.inl ?_⟩
    rw [e5, e1, e2]; exact ⟨rfl, h3⟩

/-- The last process of the axis is not beyond the end. -/
def Fits (s p : Nat) : Prop := avg s p * (p - 1) ≤ s

theorem part_unique {s p : Nat} (hs : 0 < s) (hf : Fits s p) {c b : Nat} (hc : c < p) (h1 : avg s p * c ≤ b) (h2 : b < stop s p c) :
    b / avg s p = c ∧ b < s := by
  obtain ⟨g1, g2⟩ := avg_spec (s := s) (p := p) (by omega)
  obtain ⟨h3, h4⟩ := avg_le hs (show 0 < p by omega)
  have h5 : avg s p * c + avg s p = avg s p * (c + 1) := (Nat.mul_succ _ _).symm
  have h6 : b < avg s p * (c + 1) ∧ b < s := by
    unfold stop at h2
    split at h2
    · rename_i h
      refine ⟨?_, h2⟩
      rw [h, show p - 1 + 1 = p by omega]
      omega
    · rename_i h
      refine ⟨h2, ?_⟩
      have := Nat.mul_le_mul_left (avg s p) (show c + 1 ≤ p - 1 by omega)
      unfold Fits at hf
      omega
  refine ⟨?_, h6.2⟩
  rw [Nat.div_eq_iff h4]
  have : c * avg s p = avg s p * c := mul_comm _ _
  rw [mul_comm] at h1
  omega

theorem part_exists {s p b : Nat} (hp : 0 < p) (hb : b < s) : b / avg s p < p ∧ avg s p * (b / avg s p) ≤ b ∧ b < stop s p (b / avg s p) := by
  obtain ⟨g1, g2⟩ := avg_spec (s := s) hp
  obtain ⟨h3, h4⟩ := avg_le (show 0 < s by omega) hp
  refine ⟨?_, Nat.mul_div_le _ _, ?_⟩
  · rw [Nat.div_lt_iff_lt_mul h4, mul_comm]; omega
  · unfold stop
    split
    · exact hb
    · exact Nat.lt_mul_div_succ _ h4

/-! ### The vertices of the cells -/

/-- The vertices of a cell. -/
def cellVerts (T : Cell) : Finset Lab := T.flatten.toFinset

theorem tables_tetra : ∀ t : Fin 6, (∀ c ∈ (tables.getD t.val []).flatten, ∃ a, (tetra t a).val = c) ∧
    ∀ a, (tetra t a).val ∈ (tables.getD t.val []).flatten := by decide +kernel

theorem cellVerts_of (b : Lab) (t : Fin 6) : cellVerts (cellOf b (tables.getD t.val [])) = tet b t := by
  obtain ⟨h1, h2⟩ := tables_tetra t
  ext v
  rw [cellVerts, List.mem_toFinset, cellOf, ← List.map_flatten, List.mem_map, tet, Finset.mem_image]
  constructor
  · rintro ⟨c, hc, rfl⟩
    obtain ⟨a, rfl⟩ := h1 c hc
    exact ⟨a, Finset.mem_univ _, rfl⟩
  · rintro ⟨a, -, rfl⟩
    exact ⟨_, h2 a, rfl⟩

theorem mem_tables (b : Lab) {T : Cell} : T ∈ tables.map (cellOf b) ↔ ∃ t : Fin 6, T = cellOf b (tables.getD t.val []) := by
  have e : tables.map (cellOf b) = (List.finRange 6).map fun t => cellOf b (tables.getD t.val []) := rfl
  rw [e, List.mem_map]
  constructor
  · rintro ⟨t, -, rfl⟩; exact ⟨t, rfl⟩
  · rintro ⟨t, rfl⟩; exact ⟨t, List.mem_finRange _, rfl⟩

/-- The sum of a coordinate over the vertices of a tetrahedron. -/
def sig (t : Fin 6) (c : Fin 3) : Nat := ∑ a, corner (tetra t a) c

theorem sig_spec : (∀ t c, 1 ≤ sig t c ∧ sig t c ≤ 3) ∧ Function.Injective sig := by
  constructor
  · decide +kernel
  · intro t t' h
    have : ∀ t t' : Fin 6, (∀ c, sig t c = sig t' c) → t = t' := by decide +kernel
    exact this t t' fun c => congrFun h c

theorem tet_inj {b b' : Lab} {t t' : Fin 6} (h : tet b t = tet b' t') : b = b' ∧ t = t' := by
  have key : ∀ c, 4 * b c + sig t c = 4 * b' c + sig t' c := by
    intro c
    have e : ∀ (b : Lab) (t : Fin 6), ∑ v ∈ tet b t, v c = 4 * b c + sig t c := by
      intro b t
      rw [tet, Finset.sum_image fun _ _ _ _ h => labt_inj b t h]
      simp only [lab, Finset.sum_add_distrib, sig]
      simp
    rw [← e, ← e, h]
  have hb : b = b' := by
    funext c
    have h1 := key c
    have h2 := sig_spec.1 t c
    have h3 := sig_spec.1 t' c
    omega
  subst hb
  exact ⟨rfl, sig_spec.2 (funext fun c => by have := key c; omega)⟩

theorem tables_verts (b : Lab) : (tables.map (cellOf b)).map cellVerts = (List.finRange 6).map fun t => tet b t := by
  have e1 : tables = (List.finRange 6).map fun t => tables.getD t.val [] := by decide +kernel
  rw [e1, List.map_map, List.map_map]
  refine List.map_congr_left fun t _ => ?_
  rw [← cellVerts_of b t]
  rfl

theorem verts_nodup (st en : Fin 3 → Nat) : (((boxes st en).flatMap fun b => tables.map (cellOf b)).map cellVerts).Nodup := by
  have e : (((boxes st en).flatMap fun b => tables.map (cellOf b)).map cellVerts) =
      (boxes st en).flatMap fun b => (List.finRange 6).map fun t => tet b t := by
    rw [List.map_flatMap]
    exact congrArg (fun f => List.flatMap f (boxes st en)) (funext fun b => tables_verts b)
  rw [e, List.nodup_flatMap]
  refine ⟨fun b _ => (List.nodup_finRange 6).map fun t t' h => (tet_inj h).2, (boxes_nodup st en).imp fun {b b'} hne => ?_⟩
  intro S hS hS'
  obtain ⟨t, -, rfl⟩ := List.mem_map.1 hS
  obtain ⟨t', -, h⟩ := List.mem_map.1 hS'
  exact hne (tet_inj h).1.symm

end Verif.BoxMesh
