import Verif.Model.RawMemory

/-!
Property C14: carving typed arrays out of a raw buffer.  `D`, `I`, `M` are the kinds of scalars, integers and matrix headers;
the only hypothesis on them is a positive alignment (and for `enoughPlain` the rules of the language on alignments).
-/
namespace Verif.RawMemory

theorem stdAlign_spec {a b p s q : Nat} (ha : 0 < a) (h : stdAlign a b p s = some q) :
    a ∣ q ∧ p ≤ q ∧ q ≤ p + (a - 1) ∧ q - p + b ≤ s := by
  unfold stdAlign at h
  simp only at h
  split at h
  · rename_i hle
    cases h
    have h1 := Nat.div_add_mod (p + (a - 1)) a
    have h2 := Nat.mod_lt (p + (a - 1)) ha
    rw [Nat.mul_comm] at h1
    exact ⟨Nat.dvd_mul_left _ _, by omega, by omega, hle⟩
  · cases h

theorem stdAlign_some {a b p s : Nat} (ha : 0 < a) (h : (a - 1) + b ≤ s) : ∃ q, stdAlign a b p s = some q := by
  unfold stdAlign
  simp only
  have h1 := Nat.div_add_mod (p + (a - 1)) a
  have h2 := Nat.mod_lt (p + (a - 1)) ha
  rw [Nat.mul_comm] at h1
  rw [if_pos (by omega)]
  exact ⟨_, rfl⟩

/-- `n` elements of kind `k` are placed at `addr` inside the buffer, correctly aligned (nothing is required if `n = 0`) -/
def Placed (k : Kind) (n : Nat) (addr : Option Nat) (mem sz : Nat) : Prop :=
  0 < n → ∃ a, addr = some a ∧ Inside mem sz ⟨a, n * k.size⟩ ∧ Aligned k a

/-- two placed arrays have no common byte -/
def NoOverlap (k : Kind) (n : Nat) (addr : Option Nat) (k' : Kind) (n' : Nat) (addr' : Option Nat) : Prop :=
  0 < n → 0 < n' → ∀ a a', addr = some a → addr' = some a' → Apart ⟨a, n * k.size⟩ ⟨a', n' * k'.size⟩

/-! ### PlainMemory -/

/-- **C14** (`PlainMemory`, safety): whenever carving succeeds, for whatever buffer, the arrays lie inside the buffer, are
aligned and do not overlap; the returned pointer is behind both and inside the buffer; requested sizes are recorded. -/
theorem plain_safe (D I : Kind) (hD : 0 < D.align) (hI : 0 < I.align) (m m' : Plain) (mem sz dsize isize p : Nat)
    (h : m.alloc D I mem sz dsize isize = (some p, m')) :
    Placed D dsize m'.ddata mem sz ∧ Placed I isize m'.idata mem sz ∧
    NoOverlap D dsize m'.ddata I isize m'.idata ∧
    mem + dsize * D.size + isize * I.size ≤ p ∧ p ≤ mem + sz ∧
    (0 < dsize → m'.dSize = dsize) ∧ (0 < isize → m'.iSize = isize) ∧
    (∀ a, 0 < dsize → m'.ddata = some a → a + dsize * D.size ≤ p) ∧
    (∀ a, 0 < isize → m'.idata = some a → a + isize * I.size ≤ p) := by
  unfold Plain.alloc at h
  simp only [Nat.mul_comm D.size, Nat.mul_comm I.size] at h
  by_cases hd : dsize > 0
  · rw [if_pos hd] at h
    cases h1 : stdAlign D.align (dsize * D.size) mem (mem + sz - mem) with
    | none => rw [h1] at h; simp at h
    | some q =>
      obtain ⟨a1, a2, a3, a4⟩ := stdAlign_spec hD h1
      rw [h1] at h
      simp only at h
      by_cases hi : isize > 0
      · rw [if_pos hi] at h
        cases h2 : stdAlign I.align (isize * I.size) (q + dsize * D.size) (mem + sz - (q + dsize * D.size)) with
        | none => rw [h2] at h; simp at h
        | some q2 =>
          obtain ⟨b1, b2, b3, b4⟩ := stdAlign_spec hI h2
          rw [h2] at h
          simp only [Prod.mk.injEq, Option.some.injEq] at h
          obtain ⟨rfl, rfl⟩ := h
          refine ⟨fun _ => ⟨q, rfl, ⟨a2, ?_⟩, a1⟩, fun _ => ⟨q2, rfl, ⟨?_, ?_⟩, b1⟩, ?_, ?_, ?_, ?_, ?_, ?_, ?_⟩
          · show q + dsize * D.size ≤ mem + sz; omega
          · show mem ≤ q2; omega
          · show q2 + isize * I.size ≤ mem + sz; omega
          · intro _ _ a a' e e'
            simp only [Option.some.injEq] at e e'
            subst e e'
            exact Or.inl b2
          · omega
          · omega
          · intro _; simp [hd]
          · intro _; simp [hi]
          · intro a _ e; simp only [Option.some.injEq] at e; omega
          · intro a _ e; simp only [Option.some.injEq] at e; omega
      · rw [if_neg hi] at h
        simp only [Prod.mk.injEq, Option.some.injEq] at h
        obtain ⟨rfl, rfl⟩ := h
        have h0 : isize = 0 := by omega
        subst h0
        refine ⟨fun _ => ⟨q, rfl, ⟨a2, ?_⟩, a1⟩, fun h => absurd h (by omega), fun _ h => absurd h (by omega), ?_, ?_, ?_,
          fun h => absurd h (by omega), ?_, fun _ h => absurd h (by omega)⟩
        · show q + dsize * D.size ≤ mem + sz; omega
        · omega
        · omega
        · intro _; simp [hd]
        · intro a _ e; simp only [Option.some.injEq] at e; omega
  · have h0 : dsize = 0 := by omega
    subst h0
    rw [if_neg hd] at h
    by_cases hi : isize > 0
    · rw [if_pos hi] at h
      cases h2 : stdAlign I.align (isize * I.size) mem (mem + sz - mem) with
      | none => rw [h2] at h; simp at h
      | some q2 =>
        obtain ⟨b1, b2, b3, b4⟩ := stdAlign_spec hI h2
        rw [h2] at h
        simp only [Prod.mk.injEq, Option.some.injEq] at h
        obtain ⟨rfl, rfl⟩ := h
        refine ⟨fun h => absurd h (by omega), fun _ => ⟨q2, rfl, ⟨b2, ?_⟩, b1⟩, fun h => absurd h (by omega), ?_, ?_,
          fun h => absurd h (by omega), ?_, fun _ h => absurd h (by omega), ?_⟩
        · show q2 + isize * I.size ≤ mem + sz; omega
        · omega
        · omega
        · intro _; simp [hi]
        · intro a _ e; simp only [Option.some.injEq] at e; omega
    · rw [if_neg hi] at h
      simp only [Prod.mk.injEq, Option.some.injEq] at h
      obtain ⟨rfl, rfl⟩ := h
      have h0 : isize = 0 := by omega
      subst h0
      exact ⟨fun h => absurd h (by omega), fun h => absurd h (by omega), fun h => absurd h (by omega), by omega, by omega,
        fun h => absurd h (by omega), fun h => absurd h (by omega), fun _ h => absurd h (by omega), fun _ h => absurd h (by omega)⟩

/-- **C14** (`PlainMemory`, sufficiency): a buffer of the advertised size is enough, whatever its address. -/
theorem plain_enough (D I : Kind) (hD : 0 < D.align) (hI : 0 < I.align) (m : Plain) (mem sz : Nat) (h : m.enough D I ≤ sz) :
    ∃ p m', m.alloc D I mem sz m.dSize m.iSize = (some p, m') := by
  unfold Plain.enough at h
  unfold Plain.alloc
  simp only [Nat.mul_comm D.size, Nat.mul_comm I.size]
  by_cases hd : m.dSize > 0
  · have hne : ¬ (m.iSize = 0 ∧ m.dSize = 0) := by omega
    rw [if_neg hne, if_pos hd] at h
    rw [if_pos hd]
    obtain ⟨q, hq⟩ := stdAlign_some (p := mem) (s := mem + sz - mem) hD (b := m.dSize * D.size) (by omega)
    obtain ⟨a1, a2, a3, a4⟩ := stdAlign_spec hD hq
    rw [hq]
    simp only
    by_cases hi : m.iSize > 0
    · rw [if_pos hi] at h
      rw [if_pos hi]
      obtain ⟨q2, hq2⟩ := stdAlign_some (p := q + m.dSize * D.size) (s := mem + sz - (q + m.dSize * D.size)) hI
        (b := m.iSize * I.size) (by omega)
      rw [hq2]
      exact ⟨_, _, rfl⟩
    · rw [if_neg hi]
      exact ⟨_, _, rfl⟩
  · rw [if_neg hd]
    by_cases hi : m.iSize > 0
    · have hne : ¬ (m.iSize = 0 ∧ m.dSize = 0) := by omega
      rw [if_neg hne, if_neg hd, if_pos hi] at h
      rw [if_pos hi]
      obtain ⟨q2, hq2⟩ := stdAlign_some (p := mem) (s := mem + sz - mem) hI (b := m.iSize * I.size) (by omega)
      rw [hq2]
      exact ⟨_, _, rfl⟩
    · rw [if_neg hi]
      exact ⟨_, _, rfl⟩

/-- The padding in the advertised size is needed: 34 bytes (more than the 28 bytes of the data) fail at an odd address, the
advertised 38 bytes succeed there. -/
theorem plain_padding_needed : (Plain.mk none none 2 3).enough ⟨8, 8⟩ ⟨4, 4⟩ = 38 ∧
    ((Plain.mk none none 2 3).alloc ⟨8, 8⟩ ⟨4, 4⟩ 1001 34 2 3).1 = none ∧
    ((Plain.mk none none 2 3).alloc ⟨8, 8⟩ ⟨4, 4⟩ 1001 38 2 3) = (some 1036, ⟨some 1008, some 1024, 2, 3⟩) := by decide

/-! ### PlainMemoryX -/

theorem carve_spec (kinds : Nat → Kind) (cnt : Nat → Nat) (hk : ∀ i, 0 < (kinds i).align) (mem sz : Nat) (order : List Nat) :
    ∀ (p : Nat) (out out' : Nat → Option Nat) (p' : Nat), order.Nodup → mem ≤ p → p ≤ mem + sz →
    carve kinds cnt mem sz order p out = some (out', p') →
    p ≤ p' ∧ p' ≤ mem + sz ∧ (∀ i, i ∉ order → out' i = out i) ∧
    (∀ i ∈ order, cnt i = 0 → out' i = out i) ∧
    (∀ i ∈ order, 0 < cnt i → ∃ q, out' i = some q ∧ (kinds i).align ∣ q ∧ p ≤ q ∧ q + cnt i * (kinds i).size ≤ p') ∧
    (∀ i ∈ order, ∀ j ∈ order, i ≠ j → 0 < cnt i → 0 < cnt j → ∀ a b, out' i = some a → out' j = some b →
      Apart ⟨a, cnt i * (kinds i).size⟩ ⟨b, cnt j * (kinds j).size⟩) := by
  induction order with
  | nil =>
    intro p out out' p' _ _ hle h
    simp only [carve, Option.some.injEq, Prod.mk.injEq] at h
    obtain ⟨rfl, rfl⟩ := h
    exact ⟨Nat.le_refl _, hle, fun _ _ => rfl, by simp, by simp, by simp⟩
  | cons i rest ih =>
    intro p out out' p' hn hm hle h
    obtain ⟨hi, hn'⟩ := List.nodup_cons.1 hn
    unfold carve at h
    by_cases hc : cnt i > 0
    · rw [if_pos hc] at h
      cases hq : stdAlign (kinds i).align ((kinds i).size * cnt i) p (mem + sz - p) with
      | none => rw [hq] at h; cases h
      | some q =>
        rw [hq] at h
        obtain ⟨a1, a2, a3, a4⟩ := stdAlign_spec (hk i) hq
        rw [Nat.mul_comm] at a4
        simp only [Nat.mul_comm (kinds i).size] at h
        obtain ⟨b1, b2, b3, b0, b4, b5⟩ := ih _ _ _ _ hn' (by omega) (by omega) h
        have hout : out' i = some q := by rw [b3 i hi]; simp
        refine ⟨by omega, b2, ?_, ?_, ?_, ?_⟩
        · intro j hj
          rw [List.mem_cons, not_or] at hj
          rw [b3 j hj.2]
          simp [hj.1]
        · intro j hj h0
          rcases List.mem_cons.1 hj with rfl | hj'
          · omega
          · rw [b0 j hj' h0]
            have : j ≠ i := fun e => hi (e ▸ hj')
            simp [this]
        · intro j hj hcj
          rcases List.mem_cons.1 hj with rfl | hj'
          · exact ⟨q, hout, a1, a2, by omega⟩
          · obtain ⟨q', c1, c2, c3, c4⟩ := b4 j hj' hcj
            exact ⟨q', c1, c2, by omega, c4⟩
        · intro j hj l hl hjl hcj hcl a b ha hb
          rcases List.mem_cons.1 hj with rfl | hj'
          · rcases List.mem_cons.1 hl with rfl | hl'
            · exact absurd rfl hjl
            · obtain ⟨q', c1, c2, c3, c4⟩ := b4 l hl' hcl
              rw [hout] at ha; rw [c1] at hb
              cases ha; cases hb
              exact Or.inl c3
          · rcases List.mem_cons.1 hl with rfl | hl'
            · obtain ⟨q', c1, c2, c3, c4⟩ := b4 j hj' hcj
              rw [hout] at hb; rw [c1] at ha
              cases ha; cases hb
              exact Or.inr c3
            · exact b5 j hj' l hl' hjl hcj hcl a b ha hb
    · rw [if_neg hc] at h
      obtain ⟨b1, b2, b3, b0, b4, b5⟩ := ih _ _ _ _ hn' hm hle h
      refine ⟨b1, b2, fun j hj => b3 j fun e => hj (List.mem_cons_of_mem _ e), ?_, ?_, ?_⟩
      · intro j hj h0
        rcases List.mem_cons.1 hj with rfl | hj'
        · exact b3 _ hi
        · exact b0 j hj' h0
      · intro j hj hcj
        rcases List.mem_cons.1 hj with rfl | hj'
        · exact absurd hcj hc
        · exact b4 j hj' hcj
      · intro j hj l hl hjl hcj hcl
        rcases List.mem_cons.1 hj with rfl | hj'
        · exact absurd hcj hc
        · rcases List.mem_cons.1 hl with rfl | hl'
          · exact absurd hcl hc
          · exact b5 j hj' l hl' hjl hcj hcl

theorem carve_some (kinds : Nat → Kind) (cnt : Nat → Nat) (hk : ∀ i, 0 < (kinds i).align) (mem sz : Nat) (order : List Nat) :
    ∀ (p : Nat) (out : Nat → Option Nat),
    p + (order.map fun i => if 0 < cnt i then ((kinds i).align - 1) + cnt i * (kinds i).size else 0).sum ≤ mem + sz →
    ∃ r, carve kinds cnt mem sz order p out = some r := by
  induction order with
  | nil => intro p out _; exact ⟨_, rfl⟩
  | cons i rest ih =>
    intro p out h
    simp only [List.map_cons, List.sum_cons] at h
    unfold carve
    by_cases hc : cnt i > 0
    · rw [if_pos hc] at h ⊢
      have hm : (kinds i).size * cnt i = cnt i * (kinds i).size := Nat.mul_comm _ _
      obtain ⟨q, hq⟩ := stdAlign_some (p := p) (s := mem + sz - p) (hk i) (b := (kinds i).size * cnt i) (by omega)
      obtain ⟨a1, a2, a3, a4⟩ := stdAlign_spec (hk i) hq
      rw [hq]
      exact ih _ _ (by omega)
    · rw [if_neg hc] at h ⊢
      exact ih _ _ (by omega)

theorem insertBy_perm (kinds : Nat → Kind) (i : Nat) (l : List Nat) : (insertBy kinds i l).Perm (i :: l) := by
  induction l with
  | nil => exact List.Perm.refl _
  | cons j r ih =>
    unfold insertBy
    split
    · exact List.Perm.refl _
    · exact (ih.cons j).trans (List.Perm.swap i j r)

theorem sorted_perm (kinds : Nat → Kind) : (sorted kinds).Perm [0, 1, 2] := by
  have h : (sorted kinds).Perm [2, 1, 0] := by
    unfold sorted
    simp only [List.foldl_cons, List.foldl_nil]
    refine (insertBy_perm kinds 2 _).trans (List.Perm.cons 2 ?_)
    refine (insertBy_perm kinds 1 _).trans (List.Perm.cons 1 ?_)
    exact insertBy_perm kinds 0 _
  exact h.trans (by decide)

theorem kindsOf_pos {M D I : Kind} (hM : 0 < M.align) (hD : 0 < D.align) (hI : 0 < I.align) (i : Nat) :
    0 < (kindsOf M D I i).align := by
  match i with
  | 0 => exact hM
  | 1 => exact hD
  | _ + 2 => exact hI

/-- **C14** (`PlainMemoryX`, safety): whenever carving succeeds, the three arrays lie inside the buffer, are aligned and
pairwise do not overlap, whatever the alignments and hence the order of placement. -/
theorem plainX_safe (M D I : Kind) (hM : 0 < M.align) (hD : 0 < D.align) (hI : 0 < I.align) (m m' : PlainX)
    (mem sz dsize isize msize p : Nat) (h : m.alloc M D I mem sz dsize isize msize = (some p, m')) :
    (Placed D dsize m'.ddata mem sz ∧ Placed I isize m'.idata mem sz ∧ Placed M msize m'.mdata mem sz) ∧
    (NoOverlap D dsize m'.ddata I isize m'.idata ∧ NoOverlap D dsize m'.ddata M msize m'.mdata ∧
      NoOverlap I isize m'.idata M msize m'.mdata) ∧
    mem ≤ p ∧ p ≤ mem + sz ∧
    (0 < dsize → m'.dSize = dsize) ∧ (0 < isize → m'.iSize = isize) ∧ (0 < msize → m'.mSize = msize) ∧
    (dsize = 0 → m'.ddata = none) ∧ (isize = 0 → m'.idata = none) ∧ (msize = 0 → m'.mdata = none) := by
  unfold PlainX.alloc at h
  cases hc : carve (kindsOf M D I) (counts msize dsize isize) mem sz (sorted (kindsOf M D I)) mem (fun _ => none) with
  | none => rw [hc] at h; simp at h
  | some r =>
    obtain ⟨out, p'⟩ := r
    rw [hc] at h
    simp only [Prod.mk.injEq, Option.some.injEq] at h
    obtain ⟨rfl, rfl⟩ := h
    have hp := sorted_perm (kindsOf M D I)
    obtain ⟨a1, a2, a3, a0, a4, a5⟩ := carve_spec _ _ (kindsOf_pos hM hD hI) mem sz _ _ _ _ _
      (hp.nodup_iff.2 (by decide)) (Nat.le_refl _) (by omega) hc
    have hm : ∀ i, i < 3 → i ∈ sorted (kindsOf M D I) := fun i hi => hp.mem_iff.2 (by
      match i, hi with
      | 0, _ => decide
      | 1, _ => decide
      | 2, _ => decide)
    have pl : ∀ i, i < 3 → Placed (kindsOf M D I i) (counts msize dsize isize i) (out i) mem sz := by
      intro i hi hpos
      obtain ⟨q, b1, b2, b3, b4⟩ := a4 i (hm i hi) hpos
      exact ⟨q, b1, ⟨b3, show q + counts msize dsize isize i * (kindsOf M D I i).size ≤ mem + sz by omega⟩, b2⟩
    have no : ∀ i j, i < 3 → j < 3 → i ≠ j → NoOverlap (kindsOf M D I i) (counts msize dsize isize i) (out i)
        (kindsOf M D I j) (counts msize dsize isize j) (out j) :=
      fun i j hi hj hij h1 h2 a b ha hb => a5 i (hm i hi) j (hm j hj) hij h1 h2 a b ha hb
    have nn : ∀ i, i < 3 → counts msize dsize isize i = 0 → out i = none := by
      intro i hi hz
      rw [a0 i (hm i hi) hz]
    refine ⟨⟨pl 1 (by decide), pl 2 (by decide), pl 0 (by decide)⟩,
      ⟨no 1 2 (by decide) (by decide) (by decide), no 1 0 (by decide) (by decide) (by decide),
        no 2 0 (by decide) (by decide) (by decide)⟩, a1, a2, ?_, ?_, ?_,
      nn 1 (by decide), nn 2 (by decide), nn 0 (by decide)⟩
    · intro h; simp [h]
    · intro h; simp [h]
    · intro h; simp [h]

/-- **C14** (`PlainMemoryX`, sufficiency) -/
theorem plainX_enough (M D I : Kind) (hM : 0 < M.align) (hD : 0 < D.align) (hI : 0 < I.align) (m : PlainX) (mem sz : Nat)
    (h : m.enough M D I ≤ sz) : ∃ p m', m.alloc M D I mem sz m.dSize m.iSize m.mSize = (some p, m') := by
  have key : (((sorted (kindsOf M D I)).map fun i => if 0 < counts m.mSize m.dSize m.iSize i then
      ((kindsOf M D I i).align - 1) + counts m.mSize m.dSize m.iSize i * (kindsOf M D I i).size else 0).sum) = m.enough M D I := by
    rw [((sorted_perm (kindsOf M D I)).map _).sum_nat]
    unfold PlainX.enough
    simp only [List.map_cons, List.map_nil, List.sum_cons, List.sum_nil, counts, kindsOf, gt_iff_lt]
    rcases Nat.eq_zero_or_pos m.mSize with h1 | h1 <;> rcases Nat.eq_zero_or_pos m.dSize with h2 | h2 <;>
      rcases Nat.eq_zero_or_pos m.iSize with h3 | h3 <;>
      simp only [h1, h2, h3, Nat.lt_irrefl, if_false, if_true, and_true, Nat.zero_add, Nat.add_zero, and_false,
        Nat.ne_of_gt, Nat.add_assoc, and_self]
  obtain ⟨⟨out, p⟩, hr⟩ := carve_some (kindsOf M D I) (counts m.mSize m.dSize m.iSize) (kindsOf_pos hM hD hI) mem sz
    (sorted (kindsOf M D I)) mem (fun _ => none) (by omega)
  unfold PlainX.alloc
  rw [hr]
  exact ⟨_, _, rfl⟩

/-- matrix headers of 24 bytes aligned to 8, doubles, 4-byte integers; the integers are placed first -/
example : (PlainX.mk none none none 5 3 2).enough ⟨8, 24⟩ ⟨8, 8⟩ ⟨4, 4⟩ = 117 ∧
    (PlainX.mk none none none 5 3 2).alloc ⟨8, 24⟩ ⟨8, 8⟩ ⟨4, 4⟩ 1003 117 5 3 2 =
      (some 1104, ⟨some 1064, some 1004, some 1016, 5, 3, 2⟩) := by decide

/-- A failed attempt leaves the object as it was. -/
theorem plainX_failure (M D I : Kind) (m m' : PlainX) (mem sz dsize isize msize : Nat)
    (h : m.alloc M D I mem sz dsize isize msize = (none, m')) : m' = m := by
  unfold PlainX.alloc at h
  split at h
  · exact (Prod.mk.inj h).2.symm
  · simp at h

/-- **Trap in the code**: re-carving with a zero request keeps the old size while the pointer becomes null, so the object
advertises `iSize` integers at the null pointer. -/
theorem stale_size : ((PlainX.mk none none none 0 0 0).alloc ⟨8, 24⟩ ⟨8, 8⟩ ⟨4, 4⟩ 1000 100 1 7 0).2.alloc
    ⟨8, 24⟩ ⟨8, 8⟩ ⟨4, 4⟩ 2000 100 1 0 0 = (some 2008, ⟨some 2000, none, none, 1, 7, 0⟩) := by decide

/-! ### matrices inside a typed array -/

/-- **C14** (`allocateFromPlainMemory`, safety): scalars and integers are the beginnings of the given arrays and the matrices
lie behind the ones of the chosen array, inside it and aligned. -/
theorem allocPlain_safe (M D I : Kind) (hM : 0 < M.align) (m m' : PlainX) (dIn dSz iIn iSz dsize isize msize : Nat)
    (fromD : Bool) (h : m.allocPlain M D I dIn dSz iIn iSz dsize isize msize fromD = (true, m')) :
    dsize ≤ dSz ∧ isize ≤ iSz ∧
    (0 < dsize → m'.ddata = some dIn ∧ m'.dSize = dsize) ∧ (0 < isize → m'.idata = some iIn ∧ m'.iSize = isize) ∧
    (0 < msize → m'.mSize = msize ∧ ∃ q, m'.mdata = some q ∧ Aligned M q ∧
      if fromD then dIn + dsize * D.size ≤ q ∧ q + msize * M.size ≤ dIn + dSz * D.size
      else iIn + isize * I.size ≤ q ∧ q + msize * M.size ≤ iIn + iSz * I.size) := by
  unfold PlainX.allocPlain at h
  by_cases hc : iSz < isize ∨ dSz < dsize
  · rw [if_pos hc] at h; simp at h
  · rw [if_neg hc] at h
    simp only at h
    refine ⟨by omega, by omega, ?_⟩
    by_cases hm : msize > 0
    · rw [if_pos hm] at h
      split at h
      · simp at h
      · rename_i q hq
        obtain ⟨a1, a2, a3, a4⟩ := stdAlign_spec hM hq
        simp only [Prod.mk.injEq, true_and] at h
        subst h
        refine ⟨fun hd => by simp [hd], fun hi => by simp [hi], fun _ => ⟨by simp [hm], q, rfl, a1, ?_⟩⟩
        cases fromD with
        | true =>
          simp only [if_true] at a2 a4 ⊢
          have := Nat.sub_mul dSz dsize D.size
          have := Nat.mul_le_mul_right D.size (show dsize ≤ dSz by omega)
          omega
        | false =>
          simp only [Bool.false_eq_true, if_false] at a2 a4 ⊢
          have := Nat.sub_mul iSz isize I.size
          have := Nat.mul_le_mul_right I.size (show isize ≤ iSz by omega)
          omega
    · rw [if_neg hm] at h
      simp only [Prod.mk.injEq, true_and] at h
      subst h
      exact ⟨fun hd => by simp [hd], fun hi => by simp [hi], fun h => absurd h hm⟩

/-- padding inside an array aligned to `ab` -/
theorem stdAlign_some_of {ad ab b p s : Nat} (had : 0 < ad) (hp : ab ∣ p)
    (hdiv : ab ∣ ad ∨ ad ∣ ab) (h : (if ad > ab then ad - ab else 0) + b ≤ s) : ∃ q, stdAlign ad b p s = some q := by
  unfold stdAlign
  simp only
  have h1 := Nat.div_add_mod (p + (ad - 1)) ad
  have h2 := Nat.mod_lt (p + (ad - 1)) had
  rw [Nat.mul_comm] at h1
  have hq : (p + (ad - 1)) / ad * ad - p ≤ if ad > ab then ad - ab else 0 := by
    rcases hdiv with ⟨k, hk⟩ | hd
    · split
      · -- p = ab * u; next multiple of ad is at most ad - ab further
        obtain ⟨u, hu⟩ := hp
        generalize hQ : (p + (ad - 1)) / ad = Q at *
        have hmul : Q * ad = ab * (Q * k) := by rw [hk]; ac_rfl
        by_cases hlt : Q * ad - p ≤ ad - ab
        · exact hlt
        · exfalso
          have h3 : ab * (Q * k) > ab * u + (ad - ab) := by omega
          have h4 : ab * (Q * k) ≤ ab * u + (ad - 1) := by omega
          have h5 : ab * u + (ad - ab) = ab * (u + (k - 1)) := by
            rw [Nat.mul_add, Nat.mul_sub, Nat.mul_one, ← hk]
          have h6 : u + (k - 1) < Q * k := Nat.lt_of_mul_lt_mul_left (by omega : ab * (u + (k - 1)) < ab * (Q * k))
          have h7 : ab * (u + (k - 1) + 1) ≤ ab * (Q * k) := Nat.mul_le_mul_left ab h6
          rw [Nat.mul_add ab, Nat.mul_one, ← h5] at h7
          omega
      · rename_i hle
        have : ad ∣ p := by
          have hk1 : k = 1 ∨ k = 0 := by
            rcases k with _ | _ | k
            · exact Or.inr rfl
            · exact Or.inl rfl
            · exfalso
              have : ab * (k + 1 + 1) = ab * k + ab + ab := by rw [Nat.mul_add, Nat.mul_add, Nat.mul_one]
              have : 0 < ab := Nat.pos_of_ne_zero (fun e => by subst e; omega)
              omega
          rcases hk1 with rfl | rfl
          · rw [hk, Nat.mul_one]; exact hp
          · omega
        obtain ⟨w, hw⟩ := this
        have : (p + (ad - 1)) / ad = w := by
          rw [hw, Nat.mul_add_div had, Nat.div_eq_of_lt (by omega), Nat.add_zero]
        rw [this, hw, Nat.mul_comm]
        omega
    · obtain ⟨w, hw⟩ := Nat.dvd_trans hd hp
      have : (p + (ad - 1)) / ad = w := by
        rw [hw, Nat.mul_add_div had, Nat.div_eq_of_lt (by omega), Nat.add_zero]
      rw [this, hw, Nat.mul_comm]
      omega
  rw [if_pos (by omega)]
  exact ⟨_, rfl⟩

/-- the rules of the language: sizes are positive multiples of alignments, alignments divide one another (powers of two) -/
def Legal (k : Kind) : Prop := 0 < k.align ∧ 0 < k.size ∧ k.align ∣ k.size

/-- **C14** (`enoughPlainMemory`, sufficiency): arrays of the advertised lengths, at whatever properly aligned addresses,
are enough for the scalars, the integers and the matrices. -/
theorem enoughPlain_spec (M D I : Kind) (hM : Legal M) (hD : Legal D) (hI : Legal I) (hMD : D.align ∣ M.align ∨ M.align ∣ D.align)
    (hMI : I.align ∣ M.align ∨ M.align ∣ I.align) (m : PlainX) (fromD : Bool) (dIn dSz iIn iSz : Nat)
    (hd : D.align ∣ dIn) (hi : I.align ∣ iIn)
    (h1 : (m.enoughPlain M D I fromD).1 ≤ dSz) (h2 : (m.enoughPlain M D I fromD).2 ≤ iSz) :
    (m.allocPlain M D I dIn dSz iIn iSz m.dSize m.iSize m.mSize fromD).1 = true := by
  have main : ∀ (S : Kind) (n N : Nat) (addr : Nat), Legal S → (S.align ∣ M.align ∨ M.align ∣ S.align) → S.align ∣ addr →
      n + ((if M.align > S.align then M.align / S.align - 1 + (if M.align % S.align = 0 then 0 else 1) else 0) +
        m.mSize * M.size / S.size + (if m.mSize * M.size % S.size = 0 then 0 else 1)) ≤ N →
      ∃ q, stdAlign M.align (m.mSize * M.size) (addr + n * S.size) ((N - n) * S.size) = some q := by
    intro S n N addr ⟨s1, s2, s3⟩ hdiv ha hN
    refine stdAlign_some_of hM.1 (Nat.dvd_add ha (Nat.dvd_trans s3 (Nat.dvd_mul_left _ _))) hdiv ?_
    have hc : m.mSize * M.size ≤ (m.mSize * M.size / S.size + (if m.mSize * M.size % S.size = 0 then 0 else 1)) * S.size := by
      have e := Nat.div_add_mod (m.mSize * M.size) S.size
      have e2 := Nat.mod_lt (m.mSize * M.size) s2
      rw [Nat.add_mul, Nat.mul_comm (_ / _)]
      split
      · omega
      · omega
    have hs : S.align ≤ S.size := Nat.le_of_dvd s2 s3
    have hp : (if M.align > S.align then M.align - S.align else 0) ≤
        (if M.align > S.align then M.align / S.align - 1 + (if M.align % S.align = 0 then 0 else 1) else 0) * S.size := by
      split
      · rename_i hgt
        have e := Nat.div_add_mod M.align S.align
        have e2 := Nat.mod_lt M.align s1
        have e3 : 0 < M.align / S.align := Nat.div_pos (by omega) s1
        refine Nat.le_trans ?_ (Nat.mul_le_mul_left _ hs)
        rw [Nat.add_mul, Nat.sub_mul, Nat.one_mul, Nat.mul_comm (_ / _)]
        split
        · omega
        · omega
      · exact Nat.zero_le _
    have hN' := Nat.mul_le_mul_right S.size (Nat.le_sub_of_add_le (Nat.add_comm n _ ▸ hN))
    rw [Nat.add_assoc, Nat.add_mul] at hN'
    omega
  unfold PlainX.enoughPlain at h1 h2
  unfold PlainX.allocPlain
  by_cases hm : m.mSize > 0
  · rw [if_pos hm] at h1 h2
    cases fromD with
    | true =>
      simp only [if_true] at h1 h2
      obtain ⟨q, hq⟩ := main D m.dSize dSz dIn hD hMD hd h1
      have h3 : m.dSize ≤ dSz := Nat.le_trans (Nat.le_add_right _ _) h1
      have : ¬ (iSz < m.iSize ∨ dSz < m.dSize) := by clear h1; omega
      rw [if_neg this]
      simp only [hm, if_true, hq]
    | false =>
      simp only [Bool.false_eq_true, if_false] at h1 h2
      obtain ⟨q, hq⟩ := main I m.iSize iSz iIn hI hMI hi h2
      have h3 : m.iSize ≤ iSz := Nat.le_trans (Nat.le_add_right _ _) h2
      have : ¬ (iSz < m.iSize ∨ dSz < m.dSize) := by clear h2; omega
      rw [if_neg this]
      simp only [hm, if_true, Bool.false_eq_true, if_false, hq]
  · rw [if_neg hm] at h1 h2
    have : ¬ (iSz < m.iSize ∨ dSz < m.dSize) := by
      have h1' : m.dSize ≤ dSz := h1
      have h2' : m.iSize ≤ iSz := h2
      omega
    rw [if_neg this]
    simp only [hm, if_false]

/-- two matrix headers taken from an array of 4-byte integers -/
example : Legal ⟨8, 24⟩ ∧ Legal ⟨4, 4⟩ ∧ (PlainX.mk none none none 5 3 2).enoughPlain ⟨8, 24⟩ ⟨8, 8⟩ ⟨4, 4⟩ false = (5, 16) ∧
    (PlainX.mk none none none 5 3 2).allocPlain ⟨8, 24⟩ ⟨8, 8⟩ ⟨4, 4⟩ 800 5 1000 16 5 3 2 false =
      (true, ⟨some 800, some 1000, some 1016, 5, 3, 2⟩) := by
  refine ⟨⟨by decide, by decide, by decide⟩, ⟨by decide, by decide, by decide⟩, by decide, by decide⟩

end Verif.RawMemory
