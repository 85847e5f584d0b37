import Verif.Model.DynMem

/-! Lemmas for the dynamic work memory. -/
namespace Verif.DynMem

/-- the live parts of chunk `i`, newest first -/
def parts (l : List Part) (i : Nat) : List Part := l.filter fun p => decide (p.chunk = i)

theorem mem_parts {l : List Part} {i : Nat} {p : Part} : p ∈ parts l i ↔ p ∈ l ∧ p.chunk = i := by
  simp [parts]

theorem parts_cons (p : Part) (l : List Part) (i : Nat) :
    parts (p :: l) i = if p.chunk = i then p :: parts l i else parts l i := by
  unfold parts
  rw [List.filter_cons]
  simp only [decide_eq_true_eq]

theorem parts_append (a b : List Part) (i : Nat) : parts (a ++ b) i = parts a i ++ parts b i := by
  simp [parts]

/-- what the code keeps true of every chunk in any history -/
structure ChunkInv (l : List Part) (i : Nat) (c : Chunk) : Prop where
  count : c.nparts = (parts l i).length
  used : ∀ k, ((parts l i).map fun p => p.size k).sum ≤ c.busy k
  room : ∀ k, c.busy k ≤ c.cap k
  inside : ∀ p ∈ parts l i, ∀ k, p.size k = 0 ∨ (p.off k + p.size k ≤ c.cap k ∧ p.gen k = c.gen k)

/-- what is true in any history -/
structure Inv (s : State) : Prop where
  chunk : ∀ p ∈ s.live, p.chunk < s.chunks.length
  each : ∀ i c, s.chunks[i]? = some c → ChunkInv s.live i c

theorem inv_init : Inv State.init := ⟨by simp [State.init], by simp [State.init]⟩

theorem chunkInv_new (i : Nat) (l : List Part) (h : parts l i = []) : ChunkInv l i Chunk.new := by
  refine ⟨by rw [h]; rfl, ?_, fun _ => Nat.le_refl _, ?_⟩
  · intro k; rw [h]; exact Nat.le_refl _
  · intro p hp; rw [h] at hp; cases hp

theorem size_zero_of_busy_zero {l : List Part} {i : Nat} {c : Chunk} (h : ChunkInv l i c) {k : Fin 3} (hb : c.busy k = 0)
    {p : Part} (hp : p ∈ parts l i) : p.size k = 0 := by
  have h1 := h.used k
  have h2 : p.size k ≤ ((parts l i).map fun p => p.size k).sum := by
    have : ∀ (l : List Part), p ∈ l → p.size k ≤ (l.map fun p => p.size k).sum := by
      intro l
      induction l with
      | nil => intro h; cases h
      | cons q r ih =>
        intro hm
        rw [List.map_cons, List.sum_cons]
        rcases List.mem_cons.1 hm with rfl | hm
        · omega
        · have := ih hm; omega
    exact this _ hp
  omega

/-- serving a request keeps the invariant of the chunk -/
theorem chunkInv_serve {l : List Part} {i : Nat} {c : Chunk} (h : ChunkInv l i c) (req : Fin 3 → Nat)
    (hf : ∀ k, c.busy k = 0 ∨ c.cap k ≥ c.busy k + req k) :
    ChunkInv (⟨i, c.nparts, c.busy, req, (c.serve req).gen⟩ :: l) i (c.serve req) := by
  have hp : parts (⟨i, c.nparts, c.busy, req, (c.serve req).gen⟩ :: l) i =
      ⟨i, c.nparts, c.busy, req, (c.serve req).gen⟩ :: parts l i := by rw [parts_cons]; simp
  constructor
  · rw [hp, List.length_cons, ← h.count]; rfl
  · intro k
    rw [hp, List.map_cons, List.sum_cons]
    have := h.used k
    simp only [Chunk.serve]
    split <;> omega
  · intro k
    have := h.room k
    have hk := hf k
    simp only [Chunk.serve]
    split <;> split <;> omega
  · intro p hmem k
    rw [hp] at hmem
    rcases List.mem_cons.1 hmem with rfl | hmem
    · by_cases hr : req k = 0
      · exact Or.inl hr
      · refine Or.inr ⟨?_, rfl⟩
        have := hf k
        simp only [Chunk.serve]
        split <;> omega
    · rcases h.inside p hmem k with h0 | ⟨h1, h2⟩
      · exact Or.inl h0
      · by_cases hg : req k > 0 ∧ c.busy k = 0 ∧ c.cap k < req k
        · exact Or.inl (size_zero_of_busy_zero h hg.2.1 hmem)
        · refine Or.inr ?_
          simp only [Chunk.serve, if_neg hg]
          exact ⟨h1, h2⟩

theorem chunkInv_congr {l l' : List Part} {i : Nat} {c : Chunk} (h : ChunkInv l i c) (e : parts l' i = parts l i) :
    ChunkInv l' i c := ⟨by rw [e]; exact h.count, by rw [e]; exact h.used, h.room, by rw [e]; exact h.inside⟩

theorem fits_iff (c : Chunk) (req : Fin 3 → Nat) : c.fits req = true ↔ ∀ k, c.busy k = 0 ∨ c.cap k ≥ c.busy k + req k := by
  simp [Chunk.fits]

theorem new_fits (req : Fin 3 → Nat) : ∀ k, Chunk.new.busy k = 0 ∨ Chunk.new.cap k ≥ Chunk.new.busy k + req k :=
  fun _ => Or.inl rfl

/-- the allocation in terms of the chunk used -/
theorem alloc_eq (s : State) (req : Fin 3 → Nat) :
    ∃ (chunks : List Chunk) (c : Chunk), s.pick req ≤ s.chunks.length ∧
      (chunks = s.chunks ∧ s.pick req < s.chunks.length ∨ chunks = s.chunks ++ [Chunk.new] ∧ s.pick req = s.chunks.length ∧ c = Chunk.new) ∧
      chunks[s.pick req]? = some c ∧ (∀ k, c.busy k = 0 ∨ c.cap k ≥ c.busy k + req k) ∧
      s.alloc req = ⟨chunks.set (s.pick req) (c.serve req), ⟨s.pick req, c.nparts, c.busy, req, (c.serve req).gen⟩ :: s.live⟩ := by
  have hle : s.pick req ≤ s.chunks.length := List.findIdx_le_length
  by_cases h : s.pick req < s.chunks.length
  · refine ⟨s.chunks, s.chunks[s.pick req], hle, Or.inl ⟨rfl, h⟩, List.getElem?_eq_getElem h, ?_, ?_⟩
    · exact (fits_iff _ _).1 (List.findIdx_getElem (w := h))
    · unfold State.alloc
      simp only [h, if_true, List.getElem?_eq_getElem h]
  · have he : s.pick req = s.chunks.length := by omega
    have hg : (s.chunks ++ [Chunk.new])[s.pick req]? = some Chunk.new := by rw [he]; simp
    refine ⟨s.chunks ++ [Chunk.new], Chunk.new, hle, Or.inr ⟨rfl, he, rfl⟩, hg, new_fits req, ?_⟩
    unfold State.alloc
    simp only [h, if_false, hg]

theorem parts_none_of_inv {s : State} (h : Inv s) {i : Nat} (hi : s.chunks.length ≤ i) : parts s.live i = [] := by
  rw [List.eq_nil_iff_forall_not_mem]
  intro p hp
  obtain ⟨h1, h2⟩ := mem_parts.1 hp
  have := h.chunk p h1
  omega

theorem inv_alloc {s : State} (h : Inv s) (req : Fin 3 → Nat) : Inv (s.alloc req) := by
  obtain ⟨chunks, c, hle, hch, hc, hf, he⟩ := alloc_eq s req
  rw [he]
  have hlen : s.chunks.length ≤ chunks.length ∧ s.pick req < chunks.length := by
    rcases hch with ⟨rfl, h1⟩ | ⟨rfl, h1, _⟩
    · exact ⟨Nat.le_refl _, h1⟩
    · simp [h1]
  have hall : ∀ i c', chunks[i]? = some c' → ChunkInv s.live i c' := by
    intro i c' hi
    rcases hch with ⟨rfl, _⟩ | ⟨rfl, _, _⟩
    · exact h.each i c' hi
    · by_cases hl : i < s.chunks.length
      · rw [List.getElem?_append_left hl] at hi
        exact h.each i c' hi
      · rw [List.getElem?_append_right (by omega)] at hi
        have : i - s.chunks.length = 0 := by
          apply Decidable.byContradiction
          intro hne
          rw [List.getElem?_eq_none (by simp; omega)] at hi
          cases hi
        rw [this] at hi
        simp only [List.getElem?_cons_zero, Option.some.injEq] at hi
        subst hi
        exact chunkInv_new i _ (parts_none_of_inv h (by omega))
  constructor
  · intro p hp
    simp only [List.length_set]
    rcases List.mem_cons.1 hp with rfl | hp
    · exact hlen.2
    · have := h.chunk p hp; omega
  · intro i c' hi
    simp only at hi
    by_cases hip : s.pick req = i
    · subst hip
      rw [List.getElem?_set_self hlen.2] at hi
      cases hi
      exact chunkInv_serve (hall _ _ hc) req hf
    · rw [List.getElem?_set_ne hip] at hi
      refine chunkInv_congr (hall i c' hi) ?_
      rw [parts_cons]
      simp [hip]

theorem eraseIdx_split {l : List Part} {i : Nat} {p : Part} (h : l[i]? = some p) :
    l = l.take i ++ p :: l.drop (i + 1) ∧ l.eraseIdx i = l.take i ++ l.drop (i + 1) := by
  obtain ⟨hi, rfl⟩ := List.getElem?_eq_some_iff.1 h
  exact ⟨by rw [← List.drop_eq_getElem_cons hi, List.take_append_drop], List.eraseIdx_eq_take_drop_succ l i⟩

theorem chunkInv_clear {a b : List Part} {p : Part} {c : Chunk} (h : ChunkInv (a ++ p :: b) p.chunk c) :
    ChunkInv (a ++ b) p.chunk (c.clear p.id p.size) := by
  have e1 : parts (a ++ p :: b) p.chunk = parts a p.chunk ++ p :: parts b p.chunk := by
    rw [parts_append, parts_cons, if_pos rfl]
  have e2 : parts (a ++ b) p.chunk = parts a p.chunk ++ parts b p.chunk := parts_append _ _ _
  have hcount := h.count
  rw [e1, List.length_append, List.length_cons] at hcount
  constructor
  · rw [e2, List.length_append]
    show c.nparts - 1 = _
    omega
  · intro k
    have hu := h.used k
    rw [e1, List.map_append, List.map_cons, List.sum_append, List.sum_cons] at hu
    rw [e2, List.map_append, List.sum_append]
    simp only [Chunk.clear]
    split
    · rename_i h0
      have ha : parts a p.chunk = [] := List.eq_nil_of_length_eq_zero (by omega)
      have hb : parts b p.chunk = [] := List.eq_nil_of_length_eq_zero (by omega)
      rw [ha, hb]
      exact Nat.le_refl _
    · split
      · show _ ≤ c.busy k - p.size k
        omega
      · omega
  · intro k
    have := h.room k
    simp only [Chunk.clear]
    split
    · exact Nat.zero_le _
    · split
      · show c.busy k - p.size k ≤ _
        omega
      · omega
  · intro q hq k
    rw [e2] at hq
    have hq' : q ∈ parts (a ++ p :: b) p.chunk := by
      rw [e1]
      rcases List.mem_append.1 hq with h | h
      · exact List.mem_append_left _ h
      · exact List.mem_append_right _ (List.mem_cons_of_mem _ h)
    exact h.inside q hq' k

theorem parts_erase_ne {a b : List Part} {p : Part} {i : Nat} (h : p.chunk ≠ i) :
    parts (a ++ b) i = parts (a ++ p :: b) i := by
  rw [parts_append, parts_append, parts_cons, if_neg h]

/-- the release in terms of the part and its chunk -/
theorem release_eq {s : State} (h : Inv s) {i : Nat} {p : Part} (hp : s.live[i]? = some p) :
    ∃ c, s.chunks[p.chunk]? = some c ∧
      s.release i = ⟨s.chunks.set p.chunk (c.clear p.id p.size), s.live.take i ++ s.live.drop (i + 1)⟩ := by
  have hlt := h.chunk p (List.mem_of_getElem? hp)
  refine ⟨s.chunks[p.chunk], List.getElem?_eq_getElem hlt, ?_⟩
  unfold State.release
  rw [hp]
  simp only [List.getElem?_eq_getElem hlt]
  rw [(eraseIdx_split hp).2]

theorem inv_release {s : State} (h : Inv s) (i : Nat) : Inv (s.release i) := by
  cases hp : s.live[i]? with
  | none =>
    unfold State.release
    rw [hp]
    exact h
  | some p =>
    obtain ⟨c, hc, he⟩ := release_eq h hp
    have hs := (eraseIdx_split hp).1
    have hlt := h.chunk p (List.mem_of_getElem? hp)
    rw [he]
    constructor
    · intro q hq
      simp only [List.length_set]
      apply h.chunk
      rw [hs]
      rcases List.mem_append.1 hq with h | h
      · exact List.mem_append_left _ h
      · exact List.mem_append_right _ (List.mem_cons_of_mem _ h)
    · intro j c' hj
      simp only at hj
      by_cases hjp : p.chunk = j
      · subst hjp
        rw [List.getElem?_set_self hlt] at hj
        cases hj
        have := h.each _ c hc
        rw [hs] at this
        exact chunkInv_clear this
      · rw [List.getElem?_set_ne hjp] at hj
        refine chunkInv_congr (h.each j c' hj) ?_
        conv => rhs; rw [hs]
        exact parts_erase_ne hjp

theorem live_nil_of_free {s : State} (h : Inv s) (hf : s.chunks.any (fun c => c.nparts != 0) = false) : s.live = [] := by
  rw [List.eq_nil_iff_forall_not_mem]
  intro p hp
  have hlt := h.chunk p hp
  have hc := h.each p.chunk _ (List.getElem?_eq_getElem hlt)
  rw [List.any_eq_false] at hf
  have h0 := hf s.chunks[p.chunk] (List.getElem_mem hlt)
  simp only [bne_iff_ne, ne_eq, Decidable.not_not] at h0
  have := hc.count
  rw [h0] at this
  have hm : p ∈ parts s.live p.chunk := mem_parts.2 ⟨hp, rfl⟩
  rw [List.eq_nil_of_length_eq_zero this.symm] at hm
  cases hm

theorem inv_defragment {s : State} (h : Inv s) : Inv s.defragment := by
  unfold State.defragment
  split
  · exact h
  · split
    · exact h
    · rename_i hf
      have hl := live_nil_of_free h (by simpa using hf)
      constructor
      · intro p hp
        simp only [hl] at hp
        cases hp
      · intro i c hi
        simp only [hl]
        have : c = ⟨fun k => (s.chunks.map fun c => c.cap k).sum, fun _ => 0, fun _ => 0, 0⟩ := by
          cases i with
          | zero => simp at hi; exact hi.symm
          | succ i => simp at hi
        subst this
        exact ⟨rfl, fun _ => Nat.le_refl _, fun _ => Nat.zero_le _, fun p hp => by cases hp⟩

theorem inv_step {s : State} (h : Inv s) (op : Op) : Inv (s.step op) := by
  cases op with
  | alloc req => exact inv_alloc h req
  | release i => exact inv_release h i
  | defragment => exact inv_defragment h

theorem inv_run {s : State} (h : Inv s) (ops : List Op) : Inv (s.run ops) := by
  induction ops generalizing s with
  | nil => exact h
  | cons op ops ih => exact ih (inv_step h op)

/-! ### parts laid out as a stack -/

/-- the parts (newest first) fill the buffers from the bottom without gaps, with consecutive numbers -/
def Layout : List Part → Nat → (Fin 3 → Nat) → Prop
  | [], n, busy => n = 0 ∧ ∀ k, busy k = 0
  | p :: ps, n, busy => p.id + 1 = n ∧ (∀ k, p.off k + p.size k = busy k) ∧ Layout ps p.id p.off

theorem layout_below {ps : List Part} : ∀ {n : Nat} {busy : Fin 3 → Nat}, Layout ps n busy → ∀ q ∈ ps, ∀ k, q.off k + q.size k ≤ busy k := by
  induction ps with
  | nil => intro n busy _ q hq; cases hq
  | cons p ps ih =>
    intro n busy h q hq k
    rcases List.mem_cons.1 hq with rfl | hq
    · exact Nat.le_of_eq (h.2.1 k)
    · have := ih h.2.2 q hq k
      have := h.2.1 k
      omega

/-- chunks in which a part was released while a newer part of the chunk was live, and which did not become empty since -/
abbrev Dirty := Nat → Prop

/-- what is true in careful histories -/
structure Clean (s : State) (d : Dirty) : Prop where
  inv : Inv s
  apart : s.live.Pairwise Apart
  layout : ∀ i c, s.chunks[i]? = some c → ¬ d i → Layout (parts s.live i) c.nparts c.busy
  nonempty : ∀ i, d i → parts s.live i ≠ []

/-- the newest live part of its chunk -/
def Newest (s : State) (i : Nat) : Prop := ∀ p, s.live[i]? = some p → ∀ q ∈ s.live.take i, q.chunk ≠ p.chunk

/-- dirty chunks after a request -/
def dirtyAfter (s : State) (d : Dirty) : Op → Dirty
  | .alloc _ => d
  | .release i => fun j => parts (s.live.eraseIdx i) j ≠ [] ∧ (d j ∨ (¬ Newest s i ∧ (s.live[i]?.map (·.chunk)) = some j))
  | .defragment => d

/-- no part is taken from a dirty chunk -/
def admissible (s : State) (d : Dirty) : Op → Prop
  | .alloc req => ¬ d (s.pick req)
  | _ => True

theorem clean_alloc {s : State} {d : Dirty} (h : Clean s d) (req : Fin 3 → Nat) (hd : ¬ d (s.pick req)) : Clean (s.alloc req) d := by
  have hinv := inv_alloc h.inv req
  obtain ⟨chunks, c, hle, hch, hc, hf, he⟩ := alloc_eq s req
  have hlay : Layout (parts s.live (s.pick req)) c.nparts c.busy := by
    rcases hch with ⟨rfl, h1⟩ | ⟨rfl, h1, rfl⟩
    · exact h.layout _ c hc hd
    · rw [parts_none_of_inv h.inv (by omega)]
      exact ⟨rfl, fun _ => rfl⟩
  have hlt : s.pick req < chunks.length := (List.getElem?_eq_some_iff.1 hc).1
  refine ⟨hinv, ?_, ?_, ?_⟩
  · rw [he]
    refine List.pairwise_cons.2 ⟨fun q hq => ?_, h.apart⟩
    by_cases hqc : q.chunk = s.pick req
    · right
      intro k
      have := layout_below hlay q (mem_parts.2 ⟨hq, hqc⟩) k
      exact Or.inr (Or.inr (Or.inr this))
    · exact Or.inl fun e => hqc e.symm
  · rw [he]
    intro i c' hi hdi
    simp only at hi ⊢
    rw [parts_cons]
    by_cases hip : s.pick req = i
    · subst hip
      rw [List.getElem?_set_self hlt] at hi
      cases hi
      rw [if_pos rfl]
      refine ⟨rfl, fun k => ?_, hlay⟩
      simp only [Chunk.serve]
      split <;> omega
    · rw [List.getElem?_set_ne hip] at hi
      rw [if_neg hip]
      rcases hch with ⟨rfl, h1⟩ | ⟨rfl, h1, _⟩
      · exact h.layout i c' hi hdi
      · have hil : i < s.chunks.length := by
          have := (List.getElem?_eq_some_iff.1 hi).1
          simp at this
          omega
        rw [List.getElem?_append_left hil] at hi
        exact h.layout i c' hi hdi
  · rw [he]
    intro i hi
    simp only
    rw [parts_cons]
    split
    · simp
    · exact h.nonempty i hi

theorem clean_release {s : State} {d : Dirty} (h : Clean s d) (i : Nat) :
    Clean (s.release i) (dirtyAfter s d (.release i)) := by
  have hinv := inv_release h.inv i
  cases hp : s.live[i]? with
  | none =>
    have he : s.release i = s := by
      unfold State.release
      rw [hp]
    have hlen : s.live.length ≤ i := List.getElem?_eq_none_iff.1 hp
    have herase : s.live.eraseIdx i = s.live := List.eraseIdx_of_length_le hlen
    rw [he]
    refine ⟨h.inv, h.apart, fun j c hj hd => h.layout j c hj fun hdj => hd ?_, fun j hj => h.nonempty j ?_⟩
    · exact ⟨by rw [herase]; exact h.nonempty j hdj, Or.inl hdj⟩
    · rcases hj.2 with hd | ⟨hn, _⟩
      · exact hd
      · exact absurd (fun p hp' => by rw [hp] at hp'; cases hp') hn
  | some p =>
    obtain ⟨c, hc, he⟩ := release_eq h.inv hp
    obtain ⟨hs, herase⟩ := eraseIdx_split hp
    have hlt := h.inv.chunk p (List.mem_of_getElem? hp)
    refine ⟨hinv, ?_, ?_, ?_⟩
    · rw [he]
      have hsub : (s.live.take i ++ s.live.drop (i + 1)).Sublist s.live := by
        rw [← herase]
        exact List.eraseIdx_sublist _ _
      exact h.apart.sublist hsub
    · rw [he]
      intro j c' hj hdj
      simp only at hj ⊢
      by_cases hjp : p.chunk = j
      · subst hjp
        rw [List.getElem?_set_self hlt] at hj
        cases hj
        have hcnt := (h.inv.each _ c hc).count
        have e1 : parts s.live p.chunk = parts (s.live.take i) p.chunk ++ p :: parts (s.live.drop (i + 1)) p.chunk := by
          conv => lhs; rw [hs]
          rw [parts_append, parts_cons, if_pos rfl]
        have e2 : parts (s.live.take i ++ s.live.drop (i + 1)) p.chunk =
          parts (s.live.take i) p.chunk ++ parts (s.live.drop (i + 1)) p.chunk := parts_append _ _ _
        by_cases hempty : parts (s.live.take i ++ s.live.drop (i + 1)) p.chunk = []
        · rw [hempty]
          have hn : c.nparts - 1 = 0 := by
            rw [e2] at hempty
            rw [hcnt, e1]
            have := List.append_eq_nil_iff.1 hempty
            simp [this.1, this.2]
          refine ⟨hn, fun k => ?_⟩
          simp only [Chunk.clear, hn, if_true]
        · have hd' : ¬ d p.chunk := fun hd => hdj ⟨by rw [herase]; exact hempty, Or.inl hd⟩
          have hnew : Newest s i := by
            apply Classical.byContradiction
            intro hn
            exact hdj ⟨by rw [herase]; exact hempty, Or.inr ⟨hn, by rw [hp]; rfl⟩⟩
          have hlay := h.layout _ c hc hd'
          have ht : parts (s.live.take i) p.chunk = [] := by
            rw [List.eq_nil_iff_forall_not_mem]
            intro q hq
            obtain ⟨h1, h2⟩ := mem_parts.1 hq
            exact hnew p hp q h1 h2
          rw [e1, ht, List.nil_append] at hlay
          rw [e2, ht, List.nil_append]
          rw [e2, ht, List.nil_append] at hempty
          obtain ⟨l1, l2, l3⟩ := hlay
          have hid : c.nparts - 1 = p.id := by omega
          have hpos : p.id ≠ 0 := by
            intro h0
            cases hps : parts (s.live.drop (i + 1)) p.chunk with
            | nil => exact hempty hps
            | cons q r =>
              rw [hps] at l3
              have := l3.1
              omega
          have hbusy : (c.clear p.id p.size).busy = p.off := by
            funext k
            simp only [Chunk.clear, hid, hpos, if_false, if_true]
            have := l2 k
            omega
          rw [hbusy, show (c.clear p.id p.size).nparts = p.id from hid]
          exact l3
      · rw [List.getElem?_set_ne hjp] at hj
        have e : parts (s.live.take i ++ s.live.drop (i + 1)) j = parts s.live j := by
          conv => rhs; rw [hs]
          exact parts_erase_ne hjp
        rw [e]
        refine h.layout j c' hj fun hd => hdj ⟨?_, Or.inl hd⟩
        rw [herase, e]
        exact h.nonempty j hd
    · rw [he]
      intro j hj
      simp only
      rw [← herase]
      exact hj.1

theorem clean_defragment {s : State} {d : Dirty} (h : Clean s d) : Clean s.defragment d := by
  have hinv := inv_defragment h.inv
  unfold State.defragment at hinv ⊢
  split
  · exact h
  · split
    · exact h
    · rename_i hf
      have hl := live_nil_of_free h.inv (by simpa using hf)
      rename_i h1
      rw [if_neg h1, if_neg hf] at hinv
      refine ⟨hinv, by simp only [hl]; exact List.Pairwise.nil, ?_, ?_⟩
      · intro i c hi _
        have : c = ⟨fun k => (s.chunks.map fun c => c.cap k).sum, fun _ => 0, fun _ => 0, 0⟩ := by
          cases i with
          | zero => simp at hi; exact hi.symm
          | succ i => simp at hi
        subst this
        simp only [hl]
        exact ⟨rfl, fun _ => rfl⟩
      · intro i hi
        have := h.nonempty i hi
        rw [hl] at this
        exact absurd rfl this

theorem clean_step {s : State} {d : Dirty} (h : Clean s d) (op : Op) (ha : admissible s d op) : Clean (s.step op) (dirtyAfter s d op) := by
  cases op with
  | alloc req => exact clean_alloc h req ha
  | release i => exact clean_release h i
  | defragment => exact clean_defragment h

theorem clean_init : Clean State.init (fun _ => False) :=
  ⟨inv_init, List.Pairwise.nil, by simp [State.init], fun _ h => h.elim⟩

end Verif.DynMem
