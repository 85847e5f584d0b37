import Verif.Props.Enumerator
import Verif.Props.ExtEnum
import Verif.Model.Ordered
import Mathlib.Data.Fintype.Card

/-! The arrays of `OrderedEnumerator`. -/
namespace Verif.Enumerator
open Verif.ExtEnum (nth baseSet rank unrank Built)
open Verif.Spec.ExtEnum

/-! ### The arrangement -/

theorem arrange_lt (order : List Nat) (k : Nat) (l0 : Option (List Nat)) (hl0 : ∀ l, l0 = some l → l.length = 5) {l : List Nat}
    (h : (order.zipIdx k).foldl (fun (l : Option (List Nat)) oi => l.bind fun l => if l.length ≤ oi.1 then none else some (l.set oi.1 oi.2)) l0 = some l) :
    ∀ o ∈ order, o < 5 := by
  induction order generalizing k l0 with
  | nil => simp
  | cons a order ih =>
    rw [List.zipIdx_cons, List.foldl_cons] at h
    have hnone : ∀ L : List (Nat × Nat), L.foldl (fun (l : Option (List Nat)) oi => l.bind fun l => if l.length ≤ oi.1 then none else some (l.set oi.1 oi.2)) none = none := by
      intro L; induction L with
      | nil => rfl
      | cons x L ih => simpa using ih
    cases l0 with
    | none => rw [Option.bind_none, hnone] at h; cases h
    | some l1 =>
      have h5 := hl0 l1 rfl
      rw [Option.bind_some] at h
      by_cases ha : l1.length ≤ a
      · simp only [ha, if_true] at h; rw [hnone] at h; cases h
      · simp only [ha, if_false] at h
        intro o ho
        rcases List.mem_cons.1 ho with rfl | ho
        · omega
        · exact ih (k + 1) _ (fun l hl => by cases hl; simp [h5]) h o ho

/-- What the places of an arrangement satisfy, for the values 1 to 5. -/
def okPerm (order perm : List Nat) : Bool :=
  decide (put5 perm [1, 2, 3, 4, 5] = order.map fun i => i + 1) &&
  decide (put5 perm [1, 2, 3, 4, 5] = insertAt (perm.getD 3 0) (put4 perm [1, 2, 3, 4, 5]) 4) &&
  decide (put4 perm [1, 2, 3, 4, 5] = put4 perm [1, 2, 3, 0, 5]) &&
  decide (nth (put4 perm [1, 2, 3, 4, 5]) (shift perm 2) = 3) &&
  decide (perm.getD 3 0 ≤ 4 ∧ shift perm 2 < 4) &&
  (List.range 5).all fun k => decide ((put5 perm [1, 2, 3, 4, 5]).getD (perm.getD k 0) 0 = k + 1)

theorem arrange_table : ∀ a b c d e : Fin 5,
    (match arrange [a, b, c, d, e] with
    | none => decide (¬ [a, b, c, d, e].Nodup)
    | some p => okPerm [a, b, c, d, e] p && decide ([a, b, c, d, e].Nodup) && decide (arrangement p = ([a.1, b.1, c.1, d.1, e.1], true))) = true := by
  decide +kernel

theorem perm_range5 {order : List Nat} : order.Perm (List.range 5) ↔ order.length = 5 ∧ (∀ o ∈ order, o < 5) ∧ order.Nodup := by
  constructor
  · intro h
    refine ⟨by simpa using h.length_eq, fun o ho => by simpa using h.mem_iff.1 ho, h.nodup_iff.2 List.nodup_range⟩
  · rintro ⟨h1, h2, h3⟩
    have hsub : order ⊆ List.range 5 := fun o ho => by simpa using h2 o ho
    exact (List.subperm_of_subset h3 hsub).perm_of_length_le (by simp [h1])

theorem five {order : List Nat} (h1 : order.length = 5) (h2 : ∀ o ∈ order, o < 5) :
    ∃ a b c d e : Fin 5, order = [a.1, b.1, c.1, d.1, e.1] := by
  match order, h1 with
  | [a, b, c, d, e], _ =>
    exact ⟨⟨a, h2 a (by simp)⟩, ⟨b, h2 b (by simp)⟩, ⟨c, h2 c (by simp)⟩, ⟨d, h2 d (by simp)⟩, ⟨e, h2 e (by simp)⟩, rfl⟩

theorem arrange_data {order perm : List Nat} (hl : order.length = 5) (h : arrange order = some perm) :
    okPerm order perm = true ∧ order.Perm (List.range 5) ∧ arrangement perm = (order, true) := by
  have h2 : ∀ o ∈ order, o < 5 := by
    unfold arrange at h
    cases hf : order.zipIdx.foldl (fun (l : Option (List Nat)) oi => l.bind fun l => if l.length ≤ oi.1 then none else some (l.set oi.1 oi.2)) (some (List.replicate 5 255)) with
    | none => rw [hf] at h; cases h
    | some l => exact arrange_lt order 0 _ (fun l hl => by cases hl; rfl) hf
  obtain ⟨a, b, c, d, e, rfl⟩ := five hl h2
  have := arrange_table a b c d e
  rw [h] at this
  simp only [Bool.and_eq_true, decide_eq_true_eq] at this
  exact ⟨this.1.1, perm_range5.2 ⟨hl, h2, by
    have hn := this.1.2
    have := hn.map (f := Fin.val) (fun _ _ h => Fin.ext h)
    exact this⟩, this.2⟩

theorem arrange_of_perm {order : List Nat} (h : order.Perm (List.range 5)) : ∃ perm, arrange order = some perm := by
  obtain ⟨h1, h2, h3⟩ := perm_range5.1 h
  obtain ⟨a, b, c, d, e, rfl⟩ := five h1 h2
  have := arrange_table a b c d e
  cases hp : arrange [a.1, b.1, c.1, d.1, e.1] with
  | some p => exact ⟨p, rfl⟩
  | none =>
    rw [hp] at this
    simp only [decide_eq_true_eq] at this
    exact absurd (List.Nodup.of_map (f := Fin.val) (l := [a, b, c, d, e]) h3) this

/-- The value at a place, `0` standing for no value. -/
def val (v : List Nat) : Nat → Nat
  | 0 => 0
  | k + 1 => v.getD k 0

theorem put5_val (perm v : List Nat) : put5 perm v = (put5 perm [1, 2, 3, 4, 5]).map (val v) := by
  simp [put5, List.map_set, val]

theorem put4_val (perm v : List Nat) : put4 perm v = (put4 perm [1, 2, 3, 4, 5]).map (val v) := by
  simp [put4, List.map_set, val]

theorem put4_length (perm v : List Nat) : (put4 perm v).length = 4 := by simp [put4]
theorem put5_length (perm v : List Nat) : (put5 perm v).length = 5 := by simp [put5]

theorem insertAt_map (f : Nat → Nat) (n : Nat) (a : List Nat) (s : Nat) : (insertAt n a s).map f = insertAt n (a.map f) (f s) := by
  simp [insertAt, List.map_take, List.map_drop]

theorem getD_map (f : Nat → Nat) (hf : f 0 = 0) (l : List Nat) (k : Nat) : (l.map f).getD k 0 = f (l.getD k 0) := by
  rw [List.getD_eq_getElem?_getD, List.getD_eq_getElem?_getD, List.getElem?_map]
  cases l[k]? <;> simp [hf]

/-- The places of an arrangement. -/
structure Perm5 (order perm : List Nat) : Prop where
  key : ∀ v, put5 perm v = order.map fun i => v.getD i 0
  ins : ∀ v, put5 perm v = insertAt (perm.getD 3 0) (put4 perm v) (v.getD 3 0)
  four : ∀ a b c d e, put4 perm [a, b, c, d, e] = put4 perm [a, b, c, 0, e]
  at2 : ∀ v, nth (put4 perm v) (shift perm 2) = v.getD 2 0
  n_le : perm.getD 3 0 ≤ 4
  m_lt : shift perm 2 < 4
  get : ∀ v, ∀ k < 5, (put5 perm v).getD (perm.getD k 0) 0 = v.getD k 0

theorem perm5_of {order perm : List Nat} (h : okPerm order perm = true) : Perm5 order perm := by
  simp only [okPerm, Bool.and_eq_true, decide_eq_true_eq, List.all_eq_true, List.mem_range] at h
  obtain ⟨⟨⟨⟨⟨h1, h2⟩, h3⟩, h4⟩, h5⟩, h6⟩ := h
  refine ⟨fun v => ?_, fun v => ?_, fun a b c d e => ?_, fun v => ?_, h5.1, h5.2, fun v k hk => ?_⟩
  · rw [put5_val, h1, List.map_map]; rfl
  · rw [put5_val, h2, insertAt_map, ← put4_val]; rfl
  · rw [put4_val, h3]
    simp [put4, List.map_set, val]
  · rw [put4_val, nth, getD_map _ rfl]
    unfold nth at h4
    rw [h4]; rfl
  · rw [put5_val, getD_map _ rfl, h6 k hk]; rfl

/-! ### The base set -/

theorem mem_baseVals (perm : List Nat) (vars : List Var) (a : List Nat) :
    a ∈ baseVals perm vars ↔ ∃ vi v c et j, vars[vi]? = some v ∧ et < 6 ∧ c < v.comps ∧ j < v.base et ∧ a = put4 perm [vi, c, et, 0, j] := by
  simp only [baseVals, baseVar, List.mem_flatMap, List.mem_map, List.mem_range]
  constructor
  · rintro ⟨⟨v, vi⟩, hm, et, het, di, hdi, rfl⟩
    rw [List.mem_zipIdx_iff_getElem?] at hm
    rw [numDof_eq] at hdi
    have hpos : 0 < v.comps := Nat.pos_of_ne_zero fun h => by rw [h] at hdi; simp at hdi
    exact ⟨vi, v, di % v.comps, et, di / v.comps, hm, het, Nat.mod_lt _ hpos, Nat.div_lt_of_lt_mul hdi, rfl⟩
  · rintro ⟨vi, v, c, et, j, hv, het, hc, hj, rfl⟩
    refine ⟨(v, vi), List.mem_zipIdx_iff_getElem?.2 hv, et, het, c + v.comps * j, ?_, ?_⟩
    · rw [numDof_eq]
      calc c + v.comps * j < v.comps + v.comps * j := by omega
        _ = v.comps * (j + 1) := by rw [Nat.mul_add]; omega
        _ ≤ v.comps * v.base et := Nat.mul_le_mul_left _ hj
    · dsimp only
      rw [Nat.add_mul_mod_self_left, Nat.mod_eq_of_lt hc, Nat.add_mul_div_left _ _ (by omega), Nat.div_eq_of_lt hc, Nat.zero_add]

theorem dimOf_lt' (k : Nat) : dimOf k < 4 := by
  match k with
  | 0 => decide
  | 1 => decide
  | 2 => decide
  | 3 => decide
  | 4 => decide
  | n + 5 => simp [dimOf]

theorem used_of_addr' {vars : List Var} {d : Nat} (hd : d < 4) {a : Addr} (ha : a ∈ addrs vars d) : usedDim (numDofs vars) d = true := by
  rw [usedDim_of _ _ hd, ← length_addrs]
  exact List.length_pos_of_mem ha

section
variable {vars : List Var} {own : Nat → List Nat} {b total : Nat → Nat} {order perm : List Nat} {rev : Bool} {o : Ordered}

theorem ordered_built (hp : Perm5 order perm) (ho : orderedSetup vars (setup (numDofs vars) own total) perm rev = some o) :
    Built 4 (perm.getD 3 0) (shift perm 2) (fun v => (setup (numDofs vars) own total).numElem (dimOf v)) (baseVals perm vars) o.emap ∧
      o.s = setup (numDofs vars) own total ∧ o.perm = perm ∧ o.reverse = rev := by
  unfold orderedSetup at ho
  obtain ⟨E, hE, rfl⟩ := Option.map_eq_some_iff.1 ho
  refine ⟨⟨hp.m_lt, hp.n_le, fun a ha => ?_, hE⟩, rfl, rfl, rfl⟩
  obtain ⟨_, _, _, _, _, _, _, _, _, rfl⟩ := (mem_baseVals perm vars a).1 ha
  exact put4_length _ _

/-- The arrays of the enumeration are those of the d.o.f.s of the process. -/
theorem mem_ordered (hp : Perm5 order perm) (h : Contiguous own b) (hb : ∀ d, b d < longMax) (hs : o.s = setup (numDofs vars) own total) (x : List Nat) :
    x ∈ extSet (perm.getD 3 0) (shift perm 2) (fun v => (setup (numDofs vars) own total).numElem (dimOf v)) (baseVals perm vars) ↔
      ∃ y, OwnedDof vars own y ∧ x = put5 perm (o.values y) := by
  rw [ExtEnum.mem_extSet]
  constructor
  · rintro ⟨a, ha, r, hr, rfl⟩
    obtain ⟨vi, v, c, et, j, hv, het, hc, hj, rfl⟩ := (mem_baseVals perm vars a).1 ha
    rw [hp.at2] at hr
    have hk : (⟨et, vi, c, j⟩ : Addr) ∈ addrs vars (dimOf et) :=
      (mem_addrs vars _ (dimOf_lt' et) _).2 ⟨rfl, het, (mem_addrsKind vars et _).2 ⟨rfl, v, hv, hc, hj⟩⟩
    have hu := used_of_addr' (dimOf_lt' et) hk
    change r < (setup (numDofs vars) own total).numElem (dimOf et) at hr
    rw [setup_numElem _ _ _ _ hu] at hr
    have hne : own (dimOf et) ≠ [] := by intro he; rw [he] at hr; simp at hr
    have hbe := setup_begElem (total := total) h (dimOf et) (hb _) hu
    rw [if_neg hne] at hbe
    refine ⟨(b (dimOf et) + r, ⟨et, vi, c, j⟩), ⟨(contiguous_mem h (dimOf et) (b (dimOf et) + r)).2 ⟨by omega, by omega⟩, hk⟩, ?_⟩
    rw [hp.ins]
    simp only [Ordered.values, hs, hbe, Nat.add_sub_cancel_left]
    rw [hp.four vi c et r j]
    rfl
  · rintro ⟨⟨g, k, vi, c, j⟩, ⟨h1, h2⟩, rfl⟩
    obtain ⟨_, h3, h4⟩ := (mem_addrs vars _ (dimOf_lt' _) _).1 h2
    obtain ⟨_, v, hv, hc, hj⟩ := (mem_addrsKind vars _ _).1 h4
    have hu := used_of_addr' (dimOf_lt' _) h2
    have hm := (contiguous_mem h _ _).1 h1
    have hbe := setup_begElem (total := total) h _ (hb _) hu
    rw [if_neg (List.ne_nil_of_mem h1)] at hbe
    refine ⟨put4 perm [vi, c, k, 0, j], (mem_baseVals _ _ _).2 ⟨vi, v, c, k, j, hv, h3, hc, hj, rfl⟩, g - b (dimOf k), ?_, ?_⟩
    · rw [hp.at2]
      change _ < (setup (numDofs vars) own total).numElem (dimOf k)
      rw [setup_numElem _ _ _ _ hu]
      have h5 : b (dimOf k) ≤ g ∧ g < b (dimOf k) + (own (dimOf k)).length := hm
      change g - b (dimOf k) < (own (dimOf k)).length
      omega
    · rw [hp.ins]
      dsimp only at hbe
      simp only [Ordered.values, hs, hbe]
      rw [hp.four vi c k _ j]
      rfl

theorem values_inj (hp : Perm5 order perm) (h : Contiguous own b) (hb : ∀ d, b d < longMax) (hs : o.s = setup (numDofs vars) own total)
    {x y : Nat × Addr} (hx : OwnedDof vars own x) (hy : OwnedDof vars own y) (he : put5 perm (o.values x) = put5 perm (o.values y)) : x = y := by
  have hg : ∀ k < 5, (o.values x).getD k 0 = (o.values y).getD k 0 := fun k hk => by
    rw [← hp.get _ k hk, he, hp.get _ k hk]
  obtain ⟨g, k, vi, c, j⟩ := x
  obtain ⟨g', k', vi', c', j'⟩ := y
  have e0 : vi = vi' := hg 0 (by decide)
  have e1 : c = c' := hg 1 (by decide)
  have e2 : k = k' := hg 2 (by decide)
  have e3 : g - o.s.begElem (dimOf k) = g' - o.s.begElem (dimOf k') := hg 3 (by decide)
  have e4 : j = j' := hg 4 (by decide)
  subst e0 e1 e2 e4
  have hu := used_of_addr' (dimOf_lt' _) hx.2
  have hbe := setup_begElem (total := total) h _ (hb _) hu
  rw [if_neg (List.ne_nil_of_mem hx.1)] at hbe
  have h1 := (contiguous_mem h _ _).1 hx.1
  have h2 := (contiguous_mem h _ _).1 hy.1
  rw [hs] at e3
  dsimp only at hbe h1 h2
  have : g = g' := by omega
  rw [this]

end

/-- Two numberings of the same things have intervals of the same length. -/
theorem numbering_length {α : Type} {S : α → Prop} {f g : α → Option Nat} {a b c d : Nat} (hf : Numbering S f a b) (hg : Numbering S g c d)
    (hcd : c ≤ d) : b - a ≤ d - c := by
  classical
  have hx : ∀ i : Fin (b - a), ∃ x, S x ∧ f x = some (a + i.1) := fun i => hf.surj _ (by omega) (by omega)
  choose x hxS hxf using hx
  have hy : ∀ i : Fin (b - a), ∃ n, g (x i) = some n ∧ c ≤ n ∧ n < d := fun i => hg.range _ (hxS i)
  choose n hn h1 h2 using hy
  have hinj : Function.Injective fun i : Fin (b - a) => (⟨n i - c, by have := h1 i; have := h2 i; omega⟩ : Fin (d - c)) := by
    intro i j hij
    have hnn : n i = n j := by
      have := Fin.mk.inj_iff.1 hij
      have := h1 i; have := h1 j; omega
    have hxx := hg.inj _ _ (n i) (hxS i) (hxS j) (hn i) (by rw [hnn]; exact hn j)
    have h3 := hxf i
    rw [hxx, hxf j] at h3
    have := Option.some.inj h3
    exact Fin.ext (by omega)
  simpa using Fintype.card_le_of_injective _ hinj

end Verif.Enumerator
