import Verif.Lemmas.Reorder2

/-! Lemmas about the reordering of stored values: the array of one element. -/
namespace Verif.Reorder
open Verif.Symmetry Verif.Ordering

/-- the data of one kind of an element inside the array of a tag: component `b` of the blocks, `o` values are skipped -/
def part {K : Type} (bs sh o b : Nat) (data : Nat → K) : Nat → K := fun i => data (sh + bs * (o + i) + b)

/-- an element as it is met in a mesh: 1 to 4 different nodes with different numbers, the array is complete -/
structure Regular {N K : Type} (old new : N → Int) (mu mo : Nat → List Nat) (bs : Nat) (sh : Nat → Nat) (e : Item N K) : Prop where
  low : 1 ≤ e.nodes.length
  high : e.nodes.length ≤ 4
  nodup : e.nodes.Nodup
  numOld : Numbered old e.nodes
  numNew : Numbered new e.nodes
  groupsU : (mu (e.nodes.length - 1)).length = groups (e.nodes.length - 1)
  groupsO : (mo (e.nodes.length - 1)).length = groups (e.nodes.length - 1)
  full : sh (e.nodes.length - 1) + bs * (total (e.nodes.length - 1) (mu (e.nodes.length - 1)) +
    total (e.nodes.length - 1) (mo (e.nodes.length - 1))) ≤ e.size

theorem div_block {bs i b : Nat} (hb : b < bs) (sh : Nat) : (sh + bs * i + b - sh) / bs = i ∧ (sh + bs * i + b - sh) % bs = b := by
  have e : sh + bs * i + b - sh = b + bs * i := by omega
  rw [e]
  constructor
  · rw [Nat.add_mul_div_left _ _ (by omega), Nat.div_eq_of_lt hb]; omega
  · rw [Nat.add_mul_mod_self_left, Nat.mod_eq_of_lt hb]

/-- what is done with the array of one element: both kinds of values are moved to the places of the new order, the rest of
the array is kept -/
theorem item_spec {N K : Type} [DecidableEq N] (old new : N → Int) (mu mo : Nat → List Nat) (bs : Nat) (sh : Nat → Nat)
    (compressed : Bool) (e : Item N K) (h : Regular old new mu mo bs sh e) :
    ∃ f, reorderItem old new mu mo bs sh compressed e = some { e with data := f } ∧
      (∀ b, b < bs → ∀ F, Represents old e.nodes (mu (e.nodes.length - 1)) (part bs (sh (e.nodes.length - 1)) 0 b e.data) F →
        Represents new e.nodes (mu (e.nodes.length - 1)) (part bs (sh (e.nodes.length - 1)) 0 b f) F) ∧
      (∀ b, b < bs → ∀ F, Represents old e.nodes (mo (e.nodes.length - 1))
          (part bs (sh (e.nodes.length - 1)) (total (e.nodes.length - 1) (mu (e.nodes.length - 1))) b e.data) F →
        Represents new e.nodes (mo (e.nodes.length - 1))
          (part bs (sh (e.nodes.length - 1)) (total (e.nodes.length - 1) (mu (e.nodes.length - 1))) b f) F) ∧
      ∀ q, (q < sh (e.nodes.length - 1) ∨ sh (e.nodes.length - 1) + bs * (total (e.nodes.length - 1) (mu (e.nodes.length - 1)) +
        total (e.nodes.length - 1) (mo (e.nodes.length - 1))) ≤ q) → f q = e.data q := by
  obtain ⟨nodes, size, data⟩ := e
  obtain ⟨hl, hh, hnd, ho, hn, hmu, hmo, hf⟩ := h
  dsimp only at *
  have hd : nodes.length - 1 < 4 := by omega
  by_cases ht : (nontrivial (mu (nodes.length - 1)) || nontrivial (mo (nodes.length - 1))) = true
  swap
  · have ht' : nontrivial (mu (nodes.length - 1)) = false ∧ nontrivial (mo (nodes.length - 1)) = false := by
      simpa using ht
    refine ⟨data, ?_, ?_, ?_, fun q _ => rfl⟩
    · unfold reorderItem
      simp only [ht, Bool.false_eq_true, if_false]
    · intro b _ F
      exact represents_trivial old new nodes hl hh _ hmu ht'.1 _ F
    · intro b _ F
      exact represents_trivial old new nodes hl hh _ hmo ht'.2 _ F
  have h2 : 2 ≤ nodes.length := by
    by_contra hlt
    have h1 : nodes.length = 1 := by omega
    rw [h1] at hmu hmo ht
    have : ∀ ms : List Nat, ms.length = groups 0 → nontrivial ms = false := by
      intro ms hms
      have : ms.tail = [] := List.eq_nil_of_length_eq_zero (by rw [List.length_tail, hms]; rfl)
      simp [nontrivial, this]
    rw [this _ hmu, this _ hmo] at ht
    simp at ht
  obtain ⟨canon, c1, c2, c3, c4, _⟩ := canonical_closed old new nodes h2 hh hnd ho hn
  have hcount : 2 ≤ total (nodes.length - 1) (mu (nodes.length - 1)) + total (nodes.length - 1) (mo (nodes.length - 1)) := by
    rcases (Bool.or_eq_true _ _).mp ht with h | h
    · have := nontrivial_count _ hd _ hmu h; omega
    · have := nontrivial_count _ hd _ hmo h; omega
  have hsize : ¬ (compressed = true ∧ size < sh (nodes.length - 1) + 2 * bs) := by
    rintro ⟨_, hlt⟩
    have := Nat.mul_le_mul_left bs hcount
    rw [Nat.mul_comm 2 bs] at hlt
    omega
  have pos := fun ms hms s c a hv => position_spec old new nodes h2 hh canon c2 c3 c4 ms hms s c a hv
  have ru : ∀ s c a, Valid (nodes.length - 1) (mu (nodes.length - 1)) s c a → ∃ b,
      Valid (nodes.length - 1) (mu (nodes.length - 1)) s c b ∧
      reordAt (nodes.length - 1) (mu (nodes.length - 1)) (mo (nodes.length - 1)) canon
        (place (nodes.length - 1) (mu (nodes.length - 1)) s c a) =
          some (true, place (nodes.length - 1) (mu (nodes.length - 1)) s c b) ∧
      letters old nodes ((words (nodes.length - 1) s).getD b []) =
        letters new nodes ((words (nodes.length - 1) s).getD a []) := by
    intro s c a hv
    obtain ⟨b, hb1, hb2, hb3⟩ := pos _ hmu s c a hv
    refine ⟨b, hb1, ?_, hb3⟩
    unfold reordAt
    rw [numDof_total _ hd, if_pos (place_lt _ hd _ hmu s c a hv)]
    unfold locusOn
    simp only [hb2, Bool.false_eq_true, if_false, Option.map_some]
  have ro : ∀ s c a, Valid (nodes.length - 1) (mo (nodes.length - 1)) s c a → ∃ b sg,
      Valid (nodes.length - 1) (mo (nodes.length - 1)) s c b ∧
      reordAt (nodes.length - 1) (mu (nodes.length - 1)) (mo (nodes.length - 1)) canon
        (total (nodes.length - 1) (mu (nodes.length - 1)) + place (nodes.length - 1) (mo (nodes.length - 1)) s c a) =
          some (sg, total (nodes.length - 1) (mu (nodes.length - 1)) + place (nodes.length - 1) (mo (nodes.length - 1)) s c b) ∧
      letters old nodes ((words (nodes.length - 1) s).getD b []) =
        letters new nodes ((words (nodes.length - 1) s).getD a []) := by
    intro s c a hv
    obtain ⟨b, hb1, hb2, hb3⟩ := pos _ hmo s c a hv
    refine ⟨b, isPositive (kindOf (nodes.length - 1)) 0 (fillUp (nodes.length - 1) canon), hb1, ?_, hb3⟩
    unfold reordAt
    rw [numDof_total _ hd, if_neg (by omega), Nat.add_sub_cancel_left]
    unfold locusOn
    simp only [hb2, if_true, Option.map_some]
  have hall : ((List.range (numDof (nodes.length - 1) (mu (nodes.length - 1)) +
      numDof (nodes.length - 1) (mo (nodes.length - 1)))).all fun i =>
      (reordAt (nodes.length - 1) (mu (nodes.length - 1)) (mo (nodes.length - 1)) canon i).isSome) = true := by
    rw [List.all_eq_true]
    intro i hi
    have hi := List.mem_range.mp hi
    rw [numDof_total _ hd, numDof_total _ hd] at hi
    by_cases hlt : i < total (nodes.length - 1) (mu (nodes.length - 1))
    · obtain ⟨s, c, a, hv, rfl⟩ := exists_place _ hd _ hmu i hlt
      obtain ⟨b, _, hb, _⟩ := ru s c a hv
      rw [hb]; rfl
    · obtain ⟨s, c, a, hv, he⟩ := exists_place _ hd _ hmo (i - total (nodes.length - 1) (mu (nodes.length - 1))) (by omega)
      obtain ⟨b, sg, _, hb, _⟩ := ro s c a hv
      have : i = total (nodes.length - 1) (mu (nodes.length - 1)) + place (nodes.length - 1) (mo (nodes.length - 1)) s c a := by
        omega
      rw [this, hb]; rfl
  have inside : ∀ i b, i < total (nodes.length - 1) (mu (nodes.length - 1)) + total (nodes.length - 1) (mo (nodes.length - 1)) →
      b < bs → sh (nodes.length - 1) ≤ sh (nodes.length - 1) + bs * i + b ∧ sh (nodes.length - 1) + bs * i + b <
        sh (nodes.length - 1) + bs * (total (nodes.length - 1) (mu (nodes.length - 1)) +
          total (nodes.length - 1) (mo (nodes.length - 1))) := by
    intro i b hi hb
    have := Nat.mul_le_mul_left bs (Nat.succ_le_of_lt hi)
    rw [Nat.mul_succ] at this
    omega
  obtain ⟨f, hf1, hf2⟩ : ∃ f, moveData (nodes.length - 1) (mu (nodes.length - 1)) (mo (nodes.length - 1)) canon bs
      (sh (nodes.length - 1)) data = some f ∧ ∀ q, f q =
      if sh (nodes.length - 1) ≤ q ∧ q < sh (nodes.length - 1) + bs * (total (nodes.length - 1) (mu (nodes.length - 1)) +
          total (nodes.length - 1) (mo (nodes.length - 1))) then
        ((reordAt (nodes.length - 1) (mu (nodes.length - 1)) (mo (nodes.length - 1)) canon ((q - sh (nodes.length - 1)) / bs)).elim
          (data q) fun r => data (sh (nodes.length - 1) + bs * r.2 + (q - sh (nodes.length - 1)) % bs))
      else data q := by
    unfold moveData
    simp only [hall, if_true]
    refine ⟨_, rfl, fun q => ?_⟩
    rw [← numDof_total _ hd, ← numDof_total _ hd]
  refine ⟨f, ?_, ?_, ?_, ?_⟩
  · unfold reorderItem
    simp only [ht, if_true, c1, Option.bind_some, if_neg hsize, hf1, Option.map_some]
  · intro b hb F hr s c a hv
    obtain ⟨b', hb1, hb2, hb3⟩ := ru s c a hv
    rw [← hb3, ← hr s c b' hb1]
    have hlt := place_lt _ hd _ hmu s c a hv
    unfold part
    simp only [Nat.zero_add]
    rw [hf2, if_pos (inside _ b (by omega) hb), (div_block hb _).1, (div_block hb _).2, hb2]
    rfl
  · intro b hb F hr s c a hv
    obtain ⟨b', sg, hb1, hb2, hb3⟩ := ro s c a hv
    rw [← hb3, ← hr s c b' hb1]
    have hlt := place_lt _ hd _ hmo s c a hv
    unfold part
    rw [hf2, if_pos (inside _ b (by omega) hb), (div_block hb _).1, (div_block hb _).2, hb2]
    rfl
  · intro q hq
    rw [hf2, if_neg (by omega)]

end Verif.Reorder
