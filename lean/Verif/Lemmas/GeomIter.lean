import Verif.Model.GeomIter
import Verif.Spec.GeomIter
import Verif.Lemmas.DofMap3

namespace Verif.GeomIter
open Verif.DofMap Verif.Sparsity

/-- `next` walks along `L` and from its last state goes to `e` -/
def Steps {α : Type} (next : α → Option α) : List α → Option α → Prop
  | [], _ => True
  | a :: L, e => next a = L.head?.or e ∧ Steps next L e

theorem steps_append {α : Type} (next : α → Option α) (A B : List α) (e : Option α) :
    Steps next (A ++ B) e ↔ Steps next A (B.head?.or e) ∧ Steps next B e := by
  induction A with
  | nil => simp [Steps]
  | cons a A ih =>
    simp only [List.cons_append, Steps, ih, List.head?_append, Option.or_assoc, and_assoc]

theorem steps_range {α : Type} (next : α → Option α) (m : Nat) (f : Nat → α) (e : Option α)
    (h1 : ∀ i, i + 1 < m → next (f i) = some (f (i + 1))) (h2 : 0 < m → next (f (m - 1)) = e) :
    Steps next ((List.range m).map f) e := by
  induction m generalizing e with
  | zero => simp [Steps]
  | succ m ih =>
    rw [List.range_succ, List.map_append, steps_append]
    refine ⟨?_, ?_⟩
    · apply ih
      · intro i hi
        exact h1 i (by omega)
      · intro hm
        have := h1 (m - 1) (by omega)
        rw [this]
        have : m - 1 + 1 = m := by omega
        simp [this]
    · have := h2 (by omega)
      simp only [Nat.add_sub_cancel] at this
      simp [Steps, this]

theorem steps_visits {α : Type} (next : α → Option α) (L : List α) (h : Steps next L none) (n : Nat) (hn : L.length ≤ n) :
    visits next n L.head? = L := by
  induction L generalizing n with
  | nil => cases n <;> simp [visits]
  | cons a L ih =>
    cases n with
    | zero => simp at hn
    | succ n =>
      simp only [List.head?_cons, visits]
      rw [h.1, Option.or_none, ih h.2 n (by simpa using hn)]

theorem findSome_congr {α β : Type} {l : List α} {f g : α → Option β} (h : ∀ x ∈ l, f x = g x) :
    l.findSome? f = l.findSome? g := by
  induction l with
  | nil => rfl
  | cons a l ih =>
    rw [List.findSome?_cons, List.findSome?_cons, h a (by simp), ih fun x hx => h x (by simp [hx])]

/-- selected elements of dimension `d` with numbers `≥ k` -/
def idsFrom (s : Sp) (d k : Nat) : List Nat := (List.range' k (count d - k)).filter (s.has d)

theorem idsFrom_step (s : Sp) (d k : Nat) (h : k < count d) :
    idsFrom s d k = if s.has d k then k :: idsFrom s d (k + 1) else idsFrom s d (k + 1) := by
  have : count d - k = (count d - (k + 1)) + 1 := by omega
  unfold idsFrom
  rw [this, List.range'_succ, List.filter_cons]

theorem idsFrom_end (s : Sp) (d k : Nat) (h : count d ≤ k) : idsFrom s d k = [] := by
  have : count d - k = 0 := by omega
  simp [idsFrom, this]

theorem mem_idsFrom (s : Sp) (d k i : Nat) : i ∈ idsFrom s d k ↔ k ≤ i ∧ i < count d ∧ s.has d i = true := by
  unfold idsFrom
  simp only [List.mem_filter, List.mem_range'_1]
  constructor
  · rintro ⟨⟨h1, h2⟩, h3⟩; exact ⟨h1, by omega, h3⟩
  · rintro ⟨h1, h2, h3⟩; exact ⟨⟨h1, by omega⟩, h3⟩

theorem scan_eq (s : Sp) (d k : Nat) : s.scan d k = (idsFrom s d k).head?.map fun i => (d, i) := by
  simp [Sp.scan, idsFrom, List.head?_filter]

/-- only bits of existing elements are set -/
def Wf (s : Sp) : Prop := ∀ d, d < 4 → ∀ i, s.has d i = true → i < count d

theorem get_eq_zero (s : Sp) (d : Nat) : s.get d = 0 ↔ ∀ i, s.has d i = false := by
  unfold Sp.has
  constructor
  · intro h i
    simp [h]
  · intro h
    apply BitVec.eq_of_getLsbD_eq
    intro i hi
    rw [h i]
    simp

theorem emptyDim_iff (s : Sp) (hs : Wf s) (d : Nat) (hd : d < 4) : s.emptyDim d = true ↔ idsFrom s d 0 = [] := by
  unfold Sp.emptyDim
  rw [beq_iff_eq, get_eq_zero, List.eq_nil_iff_forall_not_mem]
  constructor
  · intro h i hi
    rw [mem_idsFrom, h i] at hi
    simp at hi
  · intro h i
    cases hh : s.has d i with
    | false => rfl
    | true => exact absurd ((mem_idsFrom s d 0 i).2 ⟨Nat.zero_le _, hs d hd i hh, hh⟩) (h i)

theorem scanDims_end (s : Sp) (d : Nat) (h : 4 ≤ d) : s.scanDims d = none := by
  have : 4 - d = 0 := by omega
  simp [Sp.scanDims, this]

theorem scanDims_step (s : Sp) (hs : Wf s) (d : Nat) (h : d < 4) :
    s.scanDims d = ((idsFrom s d 0).head?.map fun i => (d, i)).or (s.scanDims (d + 1)) := by
  have : 4 - d = (4 - (d + 1)) + 1 := by omega
  unfold Sp.scanDims
  rw [this, List.range'_succ, List.findSome?_cons]
  have he := emptyDim_iff s hs d h
  split
  · next x hx =>
    split at hx
    · simp at hx
    · rw [scan_eq] at hx
      rw [hx]
      rfl
  · next hx =>
    split at hx
    · next hx' => rw [he.1 hx']; rfl
    · rw [scan_eq] at hx
      rw [hx]
      rfl

/-- kinds of d.o.f.s on elements of dimension `d`, in the order of the iteration -/
def kinds : Nat → List Nat
  | 0 => [0] | 1 => [1, 2] | 2 => [3, 4] | _ => [5]

/-- the states of one element and kind -/
def block (c : Counts) (n i : Nat) : List It := (List.range (c.get n)).map fun e => ((uniteObj c).tetId ⟨n, i, e⟩, ⟨n, i, e⟩)

/-- the states of one element -/
def items (c : Counts) (d i : Nat) : List It := (kinds d).flatMap fun n => block c n i

/-- the states of the selected elements of dimension `d` with numbers `≥ k` -/
def dimL (c : Counts) (s : Sp) (d k : Nat) : List It := (idsFrom s d k).flatMap (items c d)

/-- the states of the selected elements of dimension at least `d` -/
def restL (c : Counts) (s : Sp) (d : Nat) : List It := (List.range' d (4 - d)).flatMap fun d => dimL c s d 0

theorem restL_end (c : Counts) (s : Sp) (d : Nat) (h : 4 ≤ d) : restL c s d = [] := by
  have : 4 - d = 0 := by omega
  simp [restL, this]

theorem restL_step (c : Counts) (s : Sp) (d : Nat) (h : d < 4) : restL c s d = dimL c s d 0 ++ restL c s (d + 1) := by
  have : 4 - d = (4 - (d + 1)) + 1 := by omega
  unfold restL
  rw [this, List.range'_succ, List.flatMap_cons]

theorem dimL_step (c : Counts) (s : Sp) (d k : Nat) (h : k < count d) :
    dimL c s d k = (if s.has d k then items c d k else []) ++ dimL c s d (k + 1) := by
  unfold dimL
  rw [idsFrom_step s d k h]
  split <;> simp

theorem block_head (c : Counts) (n i : Nat) :
    (block c n i).head? = if c.get n > 0 then some ((uniteObj c).tetId ⟨n, i, 0⟩, ⟨n, i, 0⟩) else none := by
  unfold block
  cases h : c.get n <;> simp [List.head?_range]

theorem items_head (c : Counts) (d i : Nat) (hd : d < 4) :
    (items c d i).head? = if compact (uniteObj c) d ≠ 0 then
      some ((uniteObj c).tetId ⟨kindFor (uniteObj c) d, i, 0⟩, ⟨kindFor (uniteObj c) d, i, 0⟩) else none := by
  have : d = 0 ∨ d = 1 ∨ d = 2 ∨ d = 3 := by omega
  rcases this with rfl | rfl | rfl | rfl
  · simp only [items, kinds, List.flatMap_cons, List.flatMap_nil, List.append_nil, block_head, compact, kindFor]
    have : (uniteObj c).numDof 0 = c.get 0 := rfl
    rw [this]
    by_cases h : c.get 0 = 0
    · simp [h]
    · rw [if_pos (by omega), if_pos h]
  · simp only [items, kinds, List.flatMap_cons, List.flatMap_nil, List.append_nil, block_head, compact, kindFor,
      List.head?_append]
    have h1 : (uniteObj c).numDof 1 = c.get 1 := rfl
    have h2 : (uniteObj c).numDof 2 = c.get 2 := rfl
    rw [h1, h2]
    by_cases h : c.get 1 > 0
    · rw [if_pos h, if_pos h, if_pos (show c.get 1 + c.get 2 ≠ 0 by omega)]; rfl
    · rw [if_neg h, if_neg h]
      by_cases h' : c.get 2 > 0
      · rw [if_pos h', if_pos (by omega)]; rfl
      · rw [if_neg h', if_neg (by omega)]; rfl
  · simp only [items, kinds, List.flatMap_cons, List.flatMap_nil, List.append_nil, block_head, compact, kindFor,
      List.head?_append]
    have h1 : (uniteObj c).numDof 3 = c.get 3 := rfl
    have h2 : (uniteObj c).numDof 4 = c.get 4 := rfl
    rw [h1, h2]
    by_cases h : c.get 3 > 0
    · rw [if_pos h, if_pos h, if_pos (show c.get 3 + c.get 4 ≠ 0 by omega)]; rfl
    · rw [if_neg h, if_neg h]
      by_cases h' : c.get 4 > 0
      · rw [if_pos h', if_pos (by omega)]; rfl
      · rw [if_neg h', if_neg (by omega)]; rfl
  · simp only [items, kinds, List.flatMap_cons, List.flatMap_nil, List.append_nil, block_head, compact, kindFor]
    have : (uniteObj c).numDof 5 = c.get 5 := rfl
    rw [this]
    by_cases h : c.get 5 = 0
    · simp [h]
    · rw [if_pos (by omega), if_pos h]

theorem dimL_head (c : Counts) (s : Sp) (d k : Nat) (hd : d < 4) :
    (dimL c s d k).head? = if compact (uniteObj c) d ≠ 0 then
      (idsFrom s d k).head?.map fun i =>
        ((uniteObj c).tetId ⟨kindFor (uniteObj c) d, i, 0⟩, ⟨kindFor (uniteObj c) d, i, 0⟩) else none := by
  unfold dimL
  rw [List.head?_flatMap]
  by_cases h : compact (uniteObj c) d ≠ 0
  · rw [if_pos h]
    cases hi : idsFrom s d k with
    | nil => rfl
    | cons i r => simp only [List.findSome?_cons, items_head c d i hd, if_pos h]; rfl
  · rw [if_neg h]
    rw [List.findSome?_eq_none_iff]
    intro i _
    rw [items_head c d i hd, if_neg h]

/-- start on the dimensions at least `d` -/
def genFrom (o : Obj) (s : Sp) (d : Nat) : Option It :=
  (List.range' d (4 - d)).findSome? fun i =>
    if compact o i ≠ 0 ∧ s.emptyDim i = false then
      let l : Loc := ⟨kindFor o i, (s.beginPosDim i).elim 6 Prod.snd, 0⟩
      some (o.tetId l, l)
    else none

theorem genFrom_zero (o : Obj) (s : Sp) : genFrom o s 0 = genBegin o s := by
  unfold genFrom genBegin
  rw [List.range_eq_range']

theorem genFrom_eq (c : Counts) (s : Sp) (hs : Wf s) (d : Nat) :
    genFrom (uniteObj c) s d = (restL c s d).head? := by
  unfold genFrom restL
  rw [List.head?_flatMap]
  apply findSome_congr
  intro i hi
  have hi4 : i < 4 := by simp only [List.mem_range'_1] at hi; omega
  rw [dimL_head c s i 0 hi4]
  have he := emptyDim_iff s hs i hi4
  by_cases h : compact (uniteObj c) i ≠ 0
  · rw [if_pos h]
    cases hids : idsFrom s i 0 with
    | nil =>
      rw [hids] at he
      have := he.2 rfl
      rw [if_neg (by rw [this]; simp)]
      rfl
    | cons a r =>
      rw [hids] at he
      have hne : s.emptyDim i = false := by
        cases h : s.emptyDim i
        · rfl
        · have := he.1 h; simp at this
      rw [if_pos ⟨h, hne⟩]
      simp [Sp.beginPosDim, hne, scan_eq, hids]
  · rw [if_neg h, if_neg (fun h' => h h'.1)]

theorem unsetBelow_emptyDim (s : Sp) (n d : Nat) (hd : d < 4) (hn : n < 4) :
    (unsetBelow s n).get d = if d < n then 0 else s.get d := by
  have h1 : d = 0 ∨ d = 1 ∨ d = 2 ∨ d = 3 := by omega
  have h2 : n = 0 ∨ n = 1 ∨ n = 2 ∨ n = 3 := by omega
  rcases h1 with rfl | rfl | rfl | rfl <;> rcases h2 with rfl | rfl | rfl | rfl <;> rfl

theorem genBegin_unsetBelow (o : Obj) (s : Sp) (n : Nat) (hn : n < 4) :
    genBegin o (unsetBelow s n) = genFrom o s n := by
  have key : ∀ i, i < n → (unsetBelow s n).emptyDim i = true := by
    intro i hi
    unfold Sp.emptyDim
    rw [unsetBelow_emptyDim s n i (by omega) hn, if_pos hi]
    rfl
  have key2 : ∀ i, n ≤ i → i < 4 → (unsetBelow s n).emptyDim i = s.emptyDim i ∧
      (unsetBelow s n).beginPosDim i = s.beginPosDim i := by
    intro i hi h4
    have hg : (unsetBelow s n).get i = s.get i := by rw [unsetBelow_emptyDim s n i h4 hn, if_neg (by omega)]
    have h1 : (unsetBelow s n).emptyDim i = s.emptyDim i := by unfold Sp.emptyDim; rw [hg]
    have h2 : (unsetBelow s n).has i = s.has i := by unfold Sp.has; rw [hg]
    refine ⟨h1, ?_⟩
    unfold Sp.beginPosDim Sp.scan
    rw [h1, h2]
  unfold genBegin genFrom
  have hsplit : List.range 4 = List.range' 0 n ++ List.range' n (4 - n) := by
    have : List.range' 0 n ++ List.range' n (4 - n) = List.range' 0 (n + (4 - n)) := by
      rw [← List.range'_append]; simp
    rw [this, List.range_eq_range']
    congr 1
    omega
  rw [hsplit, List.findSome?_append]
  have h0 : (List.range' 0 n).findSome? (fun i =>
      if compact o i ≠ 0 ∧ (unsetBelow s n).emptyDim i = false then
        let l : Loc := ⟨kindFor o i, ((unsetBelow s n).beginPosDim i).elim 6 Prod.snd, 0⟩
        some (o.tetId l, l)
      else none) = none := by
    rw [List.findSome?_eq_none_iff]
    intro i hi
    simp only [List.mem_range'_1] at hi
    rw [key i (by omega)]
    simp
  rw [h0, Option.none_or]
  apply findSome_congr
  intro i hi
  simp only [List.mem_range'_1] at hi
  obtain ⟨h1, h2⟩ := key2 i hi.1 (by omega)
  rw [h1, h2]

theorem scanDims_spec (c : Counts) (s : Sp) (hs : Wf s) (d : Nat) :
    (s.scanDims d = none → restL c s d = []) ∧
    (∀ q, s.scanDims d = some q → d ≤ q.1 ∧ q.1 < 4 ∧ restL c s d = restL c s q.1) := by
  by_cases h : d < 4
  · obtain ⟨ih1, ih2⟩ := scanDims_spec c s hs (d + 1)
    rw [scanDims_step s hs d h, restL_step c s d h]
    cases hids : idsFrom s d 0 with
    | nil =>
      simp only [List.head?_nil, Option.map_none, Option.none_or]
      have h0 : dimL c s d 0 = [] := by simp [dimL, hids]
      rw [h0, List.nil_append]
      refine ⟨ih1, fun q hq => ?_⟩
      obtain ⟨a, b, e⟩ := ih2 q hq
      exact ⟨by omega, b, e⟩
    | cons a r =>
      simp only [List.head?_cons, Option.map_some, Option.some_or]
      refine ⟨fun h => by simp at h, fun q hq => ?_⟩
      cases hq
      exact ⟨Nat.le_refl _, h, (restL_step c s d h).symm⟩
  · rw [scanDims_end s d (by omega), restL_end c s d (by omega)]
    exact ⟨fun _ => rfl, fun q hq => by simp at hq⟩
termination_by 4 - d

/-- the part of `uniteNext` after the last d.o.f. of an element -/
def uniteLeave (c : Counts) (s : Sp) (l : Loc) : Option It :=
  match s.nextPos (dimOf l.num, l.nelem) with
  | none => none
  | some q =>
    if dimOf l.num = q.1 then
      let k := if q.1 = 1 then (if c.get 1 > 0 then 1 else l.num)
        else if q.1 = 2 then (if c.get 3 > 0 then 3 else l.num) else l.num
      some (pre c.tetSizes k + c.get k * q.2, ⟨k, q.2, 0⟩)
    else genBegin (uniteObj c) (unsetBelow s q.1)

theorem uniteLeave_eq (c : Counts) (s : Sp) (hs : Wf s) (l : Loc) (hl : l.num < 6) (hc : c.get l.num > 0) :
    uniteLeave c s l = (dimL c s (dimOf l.num) (l.nelem + 1)).head?.or (restL c s (dimOf l.num + 1)).head? := by
  have hd : dimOf l.num < 4 := by unfold dimOf; split <;> omega
  have hcomp : compact (uniteObj c) (dimOf l.num) ≠ 0 := by
    have h6 : l.num = 0 ∨ l.num = 1 ∨ l.num = 2 ∨ l.num = 3 ∨ l.num = 4 ∨ l.num = 5 := by omega
    rcases h6 with h | h | h | h | h | h <;> rw [h] at hc ⊢ <;> simp only [dimOf, compact, uniteObj] <;> omega
  unfold uniteLeave Sp.nextPos
  rw [dimL_head c s _ _ hd, if_pos hcomp, scan_eq]
  cases hids : idsFrom s (dimOf l.num) (l.nelem + 1) with
  | nil =>
    simp only [List.head?_nil, Option.map_none, Option.none_or]
    obtain ⟨h1, h2⟩ := scanDims_spec c s hs (dimOf l.num + 1)
    cases hsc : s.scanDims (dimOf l.num + 1) with
    | none => simp only; rw [h1 hsc]; rfl
    | some q =>
      obtain ⟨a, b, e⟩ := h2 q hsc
      simp only
      rw [if_neg (by omega), genBegin_unsetBelow _ _ _ b, genFrom_eq c s hs, e]
  | cons k r =>
    simp only [List.head?_cons, Option.map_some, Option.some_or, if_true]
    have h6 : l.num = 0 ∨ l.num = 1 ∨ l.num = 2 ∨ l.num = 3 ∨ l.num = 4 ∨ l.num = 5 := by omega
    have key : (if dimOf l.num = 1 then (if c.get 1 > 0 then 1 else l.num)
        else if dimOf l.num = 2 then (if c.get 3 > 0 then 3 else l.num) else l.num) =
        kindFor (uniteObj c) (dimOf l.num) := by
      rcases h6 with h | h | h | h | h | h <;> rw [h] at hc ⊢ <;> simp only [dimOf, kindFor, uniteObj] <;> simp
      · intro h'; omega
      · intro h'; omega
    rw [key]
    simp only [uniteObj, Nat.add_zero, Nat.mul_comm]

theorem steps_block (c : Counts) (s : Sp) (n i : Nat) (e : Option It)
    (hlast : ∀ g, c.get n > 0 → uniteNext c s (g, ⟨n, i, c.get n - 1⟩) = e) : Steps (uniteNext c s) (block c n i) e := by
  unfold block
  apply steps_range
  · intro j hj
    simp only [uniteNext, if_pos hj]
    simp only [uniteObj]
    rfl
  · intro h
    exact hlast _ h

theorem steps_items (c : Counts) (s : Sp) (hs : Wf s) (d i : Nat) (hd : d < 4) :
    Steps (uniteNext c s) (items c d i) ((dimL c s d (i + 1)).head?.or (restL c s (d + 1)).head?) := by
  have hleave : ∀ n, n < 6 → n ≠ 1 ∨ ¬ c.get 2 > 0 → n ≠ 3 ∨ ¬ c.get 4 > 0 → ∀ g, c.get n > 0 →
      uniteNext c s (g, ⟨n, i, c.get n - 1⟩) =
        (dimL c s (dimOf n) (i + 1)).head?.or (restL c s (dimOf n + 1)).head? := by
    intro n hn h1 h2 g hc
    have := uniteLeave_eq c s hs ⟨n, i, c.get n - 1⟩ hn hc
    rw [← this]
    unfold uniteNext
    simp only
    rw [if_neg (by omega), if_neg (by omega), if_neg (by omega)]
    rfl
  have : d = 0 ∨ d = 1 ∨ d = 2 ∨ d = 3 := by omega
  rcases this with rfl | rfl | rfl | rfl
  · simp only [items, kinds, List.flatMap_cons, List.flatMap_nil, List.append_nil]
    exact steps_block c s 0 i _ (hleave 0 (by omega) (by omega) (by omega))
  · simp only [items, kinds, List.flatMap_cons, List.flatMap_nil, List.append_nil]
    rw [steps_append]
    refine ⟨steps_block c s 1 i _ ?_, steps_block c s 2 i _ (hleave 2 (by omega) (by omega) (by omega))⟩
    intro g hg
    rw [block_head]
    by_cases h2 : c.get 2 > 0
    · rw [if_pos h2]
      unfold uniteNext
      simp only
      rw [if_neg (by omega), if_pos ⟨by simp, h2⟩]
      simp [uniteObj, Nat.mul_comm]
    · rw [if_neg h2]
      exact hleave 1 (by omega) (by omega) (by omega) g hg
  · simp only [items, kinds, List.flatMap_cons, List.flatMap_nil, List.append_nil]
    rw [steps_append]
    refine ⟨steps_block c s 3 i _ ?_, steps_block c s 4 i _ (hleave 4 (by omega) (by omega) (by omega))⟩
    intro g hg
    rw [block_head]
    by_cases h2 : c.get 4 > 0
    · rw [if_pos h2]
      unfold uniteNext
      simp only
      rw [if_neg (by omega), if_neg (by simp), if_pos ⟨by simp, h2⟩]
      simp [uniteObj, Nat.mul_comm]
    · rw [if_neg h2]
      exact hleave 3 (by omega) (by omega) (by omega) g hg
  · simp only [items, kinds, List.flatMap_cons, List.flatMap_nil, List.append_nil]
    exact steps_block c s 5 i _ (hleave 5 (by omega) (by omega) (by omega))

theorem steps_dimL (c : Counts) (s : Sp) (hs : Wf s) (d : Nat) (hd : d < 4) (k : Nat) :
    Steps (uniteNext c s) (dimL c s d k) (restL c s (d + 1)).head? := by
  by_cases h : k < count d
  · rw [dimL_step c s d k h, steps_append]
    refine ⟨?_, steps_dimL c s hs d hd (k + 1)⟩
    split
    · exact steps_items c s hs d k hd
    · trivial
  · simp [dimL, idsFrom_end s d k (by omega), Steps]
termination_by count d - k

theorem steps_restL (c : Counts) (s : Sp) (hs : Wf s) (d : Nat) : Steps (uniteNext c s) (restL c s d) none := by
  by_cases h : d < 4
  · rw [restL_step c s d h, steps_append]
    refine ⟨?_, steps_restL c s hs (d + 1)⟩
    rw [Option.or_none]
    exact steps_dimL c s hs d h 0
  · rw [restL_end c s d (by omega)]
    trivial
termination_by 4 - d

end Verif.GeomIter
