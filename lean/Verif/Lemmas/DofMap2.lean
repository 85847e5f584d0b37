import Verif.Lemmas.DofMap
import Mathlib.Data.List.Nodup

set_option linter.unusedVariables false

namespace Verif.DofMap

/-! ### primitive maps -/

theorem tetSizes_get (c : Counts) (k : Nat) (h : k < c.tetSizes.length) : c.tetSizes[k] = elems k * c.get k := by
  simp [Counts.tetSizes]

theorem tetSizes_length (c : Counts) : c.tetSizes.length = 6 := by simp [Counts.tetSizes]

theorem unite_total (c : Counts) : pre c.tetSizes 6 = total c.get := by
  have := pre_length c.tetSizes
  rw [tetSizes_length] at this
  rw [this]; rfl

theorem unite_counted (c : Counts) : Counted (uniteObj c) := ⟨fun _ _ => rfl, unite_total c⟩

theorem unite_bijective (c : Counts) :
    Bijective (uniteObj c).numTet (uniteObj c).numDof (uniteObj c).locate (uniteObj c).tetId := by
  have hlen := tetSizes_length c
  have hcell : ∀ l : Loc, l.Valid c.get → l.nelem * c.get l.num + l.leid < elems l.num * c.get l.num := by
    intro l hl
    calc l.nelem * c.get l.num + l.leid < l.nelem * c.get l.num + c.get l.num := by have := hl.2.2; omega
      _ = (l.nelem + 1) * c.get l.num := by rw [Nat.succ_mul]
      _ ≤ _ := Nat.mul_le_mul_right _ hl.2.1
  have hsucc : ∀ k, k < 6 → pre c.tetSizes (k + 1) = pre c.tetSizes k + elems k * c.get k := by
    intro k hk
    rw [pre_succ _ _ (by omega), tetSizes_get]
  refine ⟨unite_total c, ?_, ?_, ?_, ?_⟩
  · intro g hg
    obtain ⟨k, hk, h1, h2⟩ := exists_block c.tetSizes g (by
      have := pre_length c.tetSizes; rw [hlen] at this; rw [← this]; exact hg)
    have hu := ubIdx_eq _ k hk g h1 h2
    rw [hsucc k (by omega)] at h2
    simp only [uniteObj, hu]
    have hpos : 0 < c.get k := by
      rcases Nat.eq_zero_or_pos (c.get k) with h0 | h0
      · rw [h0, Nat.mul_zero] at h2; omega
      · exact h0
    refine ⟨by show k < 6; omega, ?_, Nat.mod_lt _ hpos⟩
    show (g - pre c.tetSizes k) / c.get k < elems k
    exact Nat.div_lt_of_lt_mul (by rw [Nat.mul_comm]; omega)
  · intro l hl
    have := hcell l hl
    show pre c.tetSizes l.num + l.nelem * c.get l.num + l.leid < pre c.tetSizes 6
    have h1 := hsucc l.num hl.1
    have h2 := pre_mono c.tetSizes (j := l.num + 1) (k := 6) (by have := hl.1; omega)
    omega
  · intro g hg
    obtain ⟨k, hk, h1, h2⟩ := exists_block c.tetSizes g (by
      have := pre_length c.tetSizes; rw [hlen] at this; rw [← this]; exact hg)
    have hu := ubIdx_eq _ k hk g h1 h2
    simp only [uniteObj, hu]
    have := Nat.div_add_mod (g - pre c.tetSizes k) (c.get k)
    rw [Nat.mul_comm] at this
    omega
  · intro l hl
    have hc := hcell l hl
    have hu := ubIdx_eq c.tetSizes l.num (by rw [hlen]; exact hl.1)
      (pre c.tetSizes l.num + l.nelem * c.get l.num + l.leid) (by omega) (by rw [hsucc _ hl.1]; omega)
    simp only [uniteObj, hu]
    have e : pre c.tetSizes l.num + l.nelem * c.get l.num + l.leid - pre c.tetSizes l.num =
        c.get l.num * l.nelem + l.leid := by rw [Nat.mul_comm]; omega
    have hl3 : l.leid < c.get l.num := hl.2.2
    have hp : 0 < c.get l.num := by omega
    rw [e, Nat.mul_add_div hp, Nat.mul_add_mod, Nat.div_eq_of_lt hl3, Nat.mod_eq_of_lt hl3]
    rfl

theorem Bijective.loc {n cnt locate number} (h : Bijective n cnt locate number) : BijectiveLoc n cnt locate :=
  ⟨h.size, h.valid, fun g h' h1 h2 e => by rw [← h.left_inv g h1, ← h.left_inv h' h2, e],
    fun l hl => ⟨number l, h.number_lt l hl, h.right_inv l hl⟩⟩

/-! ### layouts that are bijections -/

/-- the list enumerates the valid places exactly once -/
structure Layout.Ok (L : Layout) : Prop where
  size : L.locs.length = total L.cnt
  nodup : L.locs.Nodup
  mem : ∀ l : Loc, l ∈ L.locs ↔ l.Valid L.cnt

theorem ok_of_bij (o : Obj) (h : BijectiveLoc o.numTet o.numDof o.locate) : (layoutOf o).Ok := by
  refine ⟨?_, ?_, ?_⟩
  · simp only [layoutOf, List.length_map, List.length_range]; exact h.size
  · simp only [layoutOf]
    rw [List.Nodup, List.pairwise_map]
    have := List.nodup_range (n := o.numTet)
    refine List.Pairwise.imp_of_mem ?_ this
    intro a b ha hb hab e
    exact hab (h.inj a b (List.mem_range.1 ha) (List.mem_range.1 hb) e)
  · intro l
    simp only [layoutOf, List.mem_map, List.mem_range]
    constructor
    · rintro ⟨g, hg, rfl⟩; exact h.valid g hg
    · intro hl; exact h.surj l hl

theorem bij_of_ok (o : Obj) (h : (layoutOf o).Ok) : BijectiveLoc o.numTet o.numDof o.locate := by
  have hlen : (layoutOf o).locs.length = o.numTet := by simp [layoutOf]
  refine ⟨by rw [← hlen]; exact h.size, ?_, ?_, ?_⟩
  · intro g hg
    exact (h.mem _).1 (List.mem_map.2 ⟨g, List.mem_range.2 hg, rfl⟩)
  · intro g g' hg hg' e
    have hn := h.nodup
    have e' : (layoutOf o).locs[g]'(by omega) = (layoutOf o).locs[g']'(by omega) := by
      simp [layoutOf]; exact e
    exact (List.Nodup.getElem_inj_iff hn).1 e'
  · intro l hl
    obtain ⟨g, hg, e⟩ := List.mem_map.1 ((h.mem l).2 hl)
    exact ⟨g, List.mem_range.1 hg, e⟩

theorem ok_nil : Layout.Ok ⟨fun _ => 0, []⟩ :=
  ⟨total_zero.symm, List.nodup_nil, fun l => ⟨fun h => by simp at h, fun h => absurd h.2.2 (Nat.not_lt_zero _)⟩⟩

theorem ok_append {a b : Layout} (ha : a.Ok) (hb : b.Ok) : (a.append b).Ok := by
  refine ⟨?_, ?_, ?_⟩
  · simp only [Layout.append, List.length_append, List.length_map, ha.size, hb.size, total_add]
  · simp only [Layout.append]
    rw [List.nodup_append]
    refine ⟨ha.nodup, ?_, ?_⟩
    · rw [List.Nodup, List.pairwise_map]
      refine List.Pairwise.imp ?_ hb.nodup
      intro x y hxy e
      apply hxy
      cases x; cases y
      simp only [Loc.shift, Loc.mk.injEq] at e
      obtain ⟨e1, e2, e3⟩ := e
      subst e1; subst e2
      simp only [Loc.mk.injEq, true_and]; omega
    · intro x hx y hy e
      subst e
      obtain ⟨z, hz, rfl⟩ := List.mem_map.1 hy
      have := ((ha.mem _).1 hx).2.2
      simp only [Loc.shift] at this
      omega
  · intro l
    simp only [Layout.append, List.mem_append, List.mem_map]
    constructor
    · rintro (h | ⟨z, hz, rfl⟩)
      · have := (ha.mem l).1 h
        exact ⟨this.1, this.2.1, Nat.lt_of_lt_of_le this.2.2 (Nat.le_add_right _ _)⟩
      · have := (hb.mem z).1 hz
        refine ⟨this.1, this.2.1, ?_⟩
        have h3 := this.2.2
        simp only [Loc.shift]; omega
    · rintro ⟨h1, h2, h3⟩
      by_cases hlt : l.leid < a.cnt l.num
      · exact Or.inl ((ha.mem l).2 ⟨h1, h2, hlt⟩)
      · refine Or.inr ⟨⟨l.num, l.nelem, l.leid - a.cnt l.num⟩, (hb.mem _).2 ⟨h1, h2, ?_⟩, ?_⟩
        · show l.leid - a.cnt l.num < b.cnt l.num
          have : l.leid < a.cnt l.num + b.cnt l.num := h3
          omega
        · cases l
          simp only [Loc.shift, Loc.mk.injEq, true_and]
          simp only at hlt; omega

theorem ok_concat (l : List Layout) (h : ∀ a ∈ l, a.Ok) : (Layout.concat l).Ok := by
  induction l with
  | nil => exact ok_nil
  | cons a t ih => exact ok_append (h a (by simp)) (ih fun b hb => h b (by simp [hb]))

theorem ok_copies (d : Nat) (a : Layout) (h : a.Ok) : (Layout.copies d a).Ok :=
  ok_concat _ fun b hb => by rw [List.eq_of_mem_replicate hb]; exact h

theorem vector_bij (d : Nat) (b : Obj) (h : BijectiveLoc b.numTet b.numDof b.locate) :
    BijectiveLoc (vectorObj d b).numTet (vectorObj d b).numDof (vectorObj d b).locate := by
  apply bij_of_ok
  rw [layout_vector]
  exact ok_copies d _ (ok_of_bij b h)

theorem complex_bij (l : List Obj) (hc : ∀ o ∈ l, Counted o)
    (h : ∀ o ∈ l, BijectiveLoc o.numTet o.numDof o.locate) :
    BijectiveLoc (complexObj l).numTet (complexObj l).numDof (complexObj l).locate := by
  apply bij_of_ok
  rw [layout_complex l hc]
  apply ok_concat
  intro a ha
  obtain ⟨o, ho, rfl⟩ := List.mem_map.1 ha
  exact ok_of_bij o (h o ho)

/-! ### number of a place in a product -/

theorem complex_tetId (l : List Obj) (k : Nat) (hk : k < l.length) (x : Loc) (hx : x.leid < l[k].numDof x.num) :
    (complexObj l).tetId (x.shift fun t => pre (l.map fun o => o.numDof t) k) =
      pre (l.map (·.numTet)) k + l[k].tetId x := by
  have h1 : ubIdx (l.map fun o => o.numDof x.num) (x.leid + pre (l.map fun o => o.numDof x.num) k) = k := by
    apply ubIdx_eq _ _ (by simpa using hk) _ (by omega)
    rw [pre_succ _ _ (by simpa using hk)]
    simp only [List.getElem_map]; omega
  simp only [complexObj, Loc.shift, h1, factor_eq l k hk, Nat.add_sub_cancel]

theorem complex_block (l : List Obj) (hc : ∀ o ∈ l, Counted o) (g : Nat) (hg : g < (complexObj l).numTet) :
    ∃ k, ∃ hk : k < l.length, ∃ i, i < l[k].numTet ∧ g = pre (l.map (·.numTet)) k + i := by
  rw [complex_numTet l hc] at hg
  obtain ⟨k, hk, h1, h2⟩ := exists_block _ g hg
  have hk' : k < l.length := by simpa using hk
  rw [pre_succ _ _ hk] at h2
  simp only [List.getElem_map] at h2
  exact ⟨k, hk', g - pre (l.map (·.numTet)) k, by omega, by omega⟩

theorem complex_place (l : List Obj) (x : Loc) (hx : x.Valid (complexObj l).numDof) :
    ∃ k, ∃ hk : k < l.length, ∃ y : Loc, y.num = x.num ∧ y.nelem = x.nelem ∧ y.Valid l[k].numDof ∧
      x = y.shift fun t => pre (l.map fun o => o.numDof t) k := by
  obtain ⟨hx1, hx2, hx3⟩ := hx
  rw [complex_numDof] at hx3
  obtain ⟨k, hk, h1, h2⟩ := exists_block _ x.leid hx3
  have hk' : k < l.length := by simpa using hk
  rw [pre_succ _ _ hk] at h2
  simp only [List.getElem_map] at h2
  refine ⟨k, hk', ⟨x.num, x.nelem, x.leid - pre (l.map fun o => o.numDof x.num) k⟩, rfl, rfl, ⟨hx1, hx2, ?_⟩, ?_⟩
  · show x.leid - pre (l.map fun o => o.numDof x.num) k < l[k].numDof x.num; omega
  · cases x
    simp only [Loc.shift, Loc.mk.injEq, true_and]
    simp only at h1; omega

theorem complex_bijective (l : List Obj) (hc : ∀ o ∈ l, Counted o)
    (h : ∀ o ∈ l, Bijective o.numTet o.numDof o.locate o.tetId) :
    Bijective (complexObj l).numTet (complexObj l).numDof (complexObj l).locate (complexObj l).tetId := by
  have hb := complex_bij l hc fun o ho => (h o ho).loc
  refine ⟨hb.size, hb.valid, ?_, ?_, ?_⟩
  · intro x hx
    obtain ⟨k, hk, y, _, _, hy, rfl⟩ := complex_place l x hx
    rw [complex_tetId l k hk y hy.2.2, complex_numTet l hc]
    have h1 := (h l[k] (List.getElem_mem hk)).number_lt y hy
    have h2 := pre_succ (l.map (·.numTet)) k (by simpa using hk)
    have h3 := pre_mono (l.map (·.numTet)) (j := k + 1) (k := (l.map (·.numTet)).length) (by simp; omega)
    rw [pre_length, h2] at h3
    simp only [List.getElem_map] at h3
    omega
  · intro g hg
    obtain ⟨k, hk, i, hi, rfl⟩ := complex_block l hc g hg
    have ho := h l[k] (List.getElem_mem hk)
    rw [complex_locate l k hk i hi, complex_tetId l k hk _ (ho.valid i hi).2.2, ho.left_inv i hi]
  · intro x hx
    obtain ⟨k, hk, y, _, _, hy, rfl⟩ := complex_place l x hx
    have ho := h l[k] (List.getElem_mem hk)
    rw [complex_tetId l k hk y hy.2.2, complex_locate l k hk _ (ho.number_lt y hy), ho.right_inv y hy]

/-! ### number of a place in a power: what the code computes -/

theorem vector_tetId_cell (d : Nat) (b : Obj) (hc : Counted b)
    (h : Bijective b.numTet b.numDof b.locate b.tetId) (x : Loc) (hx : x.Valid (vectorObj d b).numDof)
    (hcase : x.num = 5 ∨ x.leid < b.numDof x.num) :
    (vectorObj d b).tetId x < (vectorObj d b).numTet ∧ (vectorObj d b).locate ((vectorObj d b).tetId x) = x := by
  obtain ⟨hx1, hx2, hx3⟩ := hx
  have hx3 : x.leid < d * b.numDof x.num := hx3
  have hn : 0 < b.numDof x.num := Nat.pos_of_ne_zero fun h0 => by rw [h0] at hx3; simp at hx3
  have hE : b.numTetE x.num = elems x.num * b.numDof x.num := hc.tetE _ hx1
  have key : x.leid / b.numTetE x.num = x.leid / b.numDof x.num ∧ x.leid % b.numTetE x.num = x.leid % b.numDof x.num := by
    rcases hcase with h5 | hlt
    · rw [hE, h5]; simp [elems]
    · have : x.leid < b.numTetE x.num := by
        rw [hE]
        calc x.leid < 1 * b.numDof x.num := by omega
          _ ≤ _ := Nat.mul_le_mul_right _ (by omega)
      rw [Nat.div_eq_of_lt hlt, Nat.div_eq_of_lt this, Nat.mod_eq_of_lt hlt, Nat.mod_eq_of_lt this]
      exact ⟨rfl, rfl⟩
  have hm : x.leid % b.numDof x.num < b.numDof x.num := Nat.mod_lt _ hn
  have hyv : Loc.Valid b.numDof ⟨x.num, x.nelem, x.leid % b.numDof x.num⟩ := ⟨hx1, hx2, hm⟩
  have hlt := h.number_lt _ hyv
  have hT : (vectorObj d b).tetId x = (x.leid / b.numDof x.num) * b.numTet + b.tetId ⟨x.num, x.nelem, x.leid % b.numDof x.num⟩ := by
    simp only [vectorObj, key.1, key.2]
  rw [hT]
  have hq : x.leid / b.numDof x.num < d := Nat.div_lt_of_lt_mul (by rw [Nat.mul_comm]; exact hx3)
  refine ⟨?_, ?_⟩
  · show _ < d * b.numTet
    calc (x.leid / b.numDof x.num) * b.numTet + b.tetId ⟨x.num, x.nelem, x.leid % b.numDof x.num⟩
        < (x.leid / b.numDof x.num) * b.numTet + b.numTet := by omega
      _ = (x.leid / b.numDof x.num + 1) * b.numTet := by rw [Nat.succ_mul]
      _ ≤ _ := Nat.mul_le_mul_right _ hq
  · rw [vector_locate d b _ _ hlt, h.right_inv _ hyv]
    cases x
    simp only [Loc.shift, Loc.mk.injEq, true_and]
    rw [Nat.mul_comm]
    exact Nat.mod_add_div _ _

end Verif.DofMap
