import Verif.Model.TagCopy
import Verif.Props.GeomWalk

/-! Lemmas for C68. -/
namespace Verif.TagCopy
open Verif.Enumerator Verif.GeomWalk Verif.DofMap

variable {R : Type}

/-- a loop of assignments: places never assigned keep their value -/
theorem store_miss {κ ι : Type} [DecidableEq κ] (w : ι → Option (κ × R)) (key : κ) : ∀ (l : List ι) (t : κ → R),
    (∀ x, x ∈ l → ∀ z, w x ≠ some (key, z)) → l.foldl (fun t x => store t (w x)) t key = t key := by
  intro l
  induction l with
  | nil => intro t _; rfl
  | cons x l ih =>
    intro t h
    rw [List.foldl_cons, ih _ fun y hy => h y (List.mem_cons_of_mem _ hy)]
    cases hw : w x with
    | none => rfl
    | some kv =>
      obtain ⟨k, v⟩ := kv
      show Function.update t k v key = t key
      rw [Function.update_of_ne]
      rintro rfl
      exact h x (by simp) v hw

/-- a loop of assignments: a place assigned the same value each time has this value -/
theorem store_hit {κ ι : Type} [DecidableEq κ] (w : ι → Option (κ × R)) (key : κ) (y : R) : ∀ (l : List ι) (t : κ → R),
    (∃ x, x ∈ l ∧ w x = some (key, y)) → (∀ x, x ∈ l → ∀ z, w x = some (key, z) → z = y) →
    l.foldl (fun t x => store t (w x)) t key = y := by
  intro l
  induction l with
  | nil => rintro t ⟨x, hx, _⟩; cases hx
  | cons x l ih =>
    intro t h1 h2
    rw [List.foldl_cons]
    by_cases hl : ∃ x, x ∈ l ∧ w x = some (key, y)
    · exact ih _ hl fun a ha => h2 a (List.mem_cons_of_mem _ ha)
    · rw [store_miss]
      · obtain ⟨a, ha, hw⟩ := h1
        rcases List.mem_cons.1 ha with rfl | ha
        · rw [hw]; exact Function.update_self ..
        · exact absurd ⟨a, ha, hw⟩ hl
      · intro a ha z hz
        obtain rfl := h2 a (List.mem_cons_of_mem _ ha) z hz
        exact hl ⟨a, ha, hz⟩

theorem dimOf_lt4 (k : Nat) : dimOf k < 4 := by
  unfold dimOf; split <;> omega

theorem everything_ok (vars : List Var) : everything.MaskOk vars := by
  constructor
  · intro _ h; exact absurd h (by decide)
  · intro _ h; exact absurd h (by decide)

theorem ofVar_ok (v : Nat) (vars : List Var) : (ofVar v).MaskOk vars := by
  constructor
  · intro _ h
    have : (ofVar v).mask = 0xFF := rfl
    rw [this] at h
    exact absurd h (by decide)
  · intro _ h
    have : (ofVar v).mask = 0xFF := rfl
    rw [this] at h
    exact absurd h (by decide)

/-- the d.o.f.s of the slice of everything -/
theorem mem_everything (m : Mesh) (vars : List Var) (p : Place) : p ∈ everything.places m vars ↔
    p.addr ∈ addrs vars (dimOf p.addr.num) ∧ p.lid < m.last (dimOf p.addr.num) ∧
      m.valid (dimOf p.addr.num) p.lid = true ∧ m.ghost (dimOf p.addr.num) p.lid = false := by
  rw [mem_places]
  constructor
  · rintro ⟨h1, h2, h3, h4, _⟩; exact ⟨h1, h2, h3, h4⟩
  · rintro ⟨h1, h2, h3, h4⟩
    refine ⟨h1, h2, h3, h4, nofun, nofun, nofun, nofun, ?_⟩
    have : p.addr.num < 6 := ((mem_addrs vars _ (dimOf_lt4 _) _).1 h1).2.1
    show Nat.testBit 0xFF _ = true
    generalize p.addr.num = n at this
    revert n
    decide

/-- the place of a d.o.f. among all the variables -/
theorem stored_index (vars : List Var) (p : Place) (hp : p.addr ∈ addrs vars (dimOf p.addr.num)) :
    ∃ e, fullIndex vars p.addr = some e ∧ e.addr = p.addr ∧ ∀ c, StoredAt vars p c ↔ c = (dimOf p.addr.num, p.lid, e.elemDofId) := by
  obtain ⟨e, he, h1, h2⟩ := recompose vars _ (dimOf_lt4 _) p.addr hp
  refine ⟨e, he, h1, ?_⟩
  rintro ⟨d, l, k⟩
  constructor
  · rintro ⟨rfl, rfl, h3⟩
    obtain ⟨hl1, g1⟩ := List.getElem?_eq_some_iff.1 h2
    obtain ⟨hl2, g2⟩ := List.getElem?_eq_some_iff.1 h3
    have : k = e.elemDofId := ((addrs_nodup vars _ (dimOf_lt4 _)).getElem_inj_iff).1 (g2.trans g1.symm)
    rw [this]
  · intro h
    rw [h]
    exact ⟨rfl, rfl, h2⟩

theorem addrsSingle_nodup (v : Var) (i d : Nat) : (addrsSingle v i d).Nodup := by
  have hv : ∀ k, (addrsVar v i k).Nodup := by
    intro k
    unfold addrsVar
    rw [List.nodup_flatMap]
    constructor
    · intro c _
      refine List.Nodup.map ?_ List.nodup_range
      intro a b hab
      exact congrArg Addr.dof hab
    · refine List.Pairwise.imp ?_ List.nodup_range
      intro c c' hne p hp hp'
      obtain ⟨a, _, rfl⟩ := List.mem_map.1 hp
      obtain ⟨b, _, hb⟩ := List.mem_map.1 hp'
      exact hne (congrArg Addr.comp hb).symm
  rw [addrsSingle_eq]
  split
  · refine List.nodup_append'.2 ⟨hv _, hv _, ?_⟩
    intro a h1 h2
    have e1 := ((mem_addrsVar _ _ _ _).1 h1).1
    have e2 := ((mem_addrsVar _ _ _ _).1 h2).1
    omega
  · exact hv _

/-- the place of a d.o.f. in the array of its variable -/
theorem stored_single (vars : List Var) (p : Place) (hp : p.addr ∈ addrs vars (dimOf p.addr.num)) :
    ∃ e, fullIndex vars p.addr = some e ∧ e.addr = p.addr ∧
      ∀ c, StoredSingle vars p c ↔ c = (dimOf p.addr.num, p.lid, e.singleDofId) := by
  obtain ⟨e, v, he, hv, h2⟩ := recompose_single vars _ (dimOf_lt4 _) p.addr hp
  obtain ⟨e', he', h1, _⟩ := recompose vars _ (dimOf_lt4 _) p.addr hp
  obtain rfl : e' = e := by rw [he] at he'; exact (Option.some.inj he').symm
  refine ⟨e', he, h1, ?_⟩
  rintro ⟨d, l, k⟩
  constructor
  · rintro ⟨rfl, rfl, v', hv', h3⟩
    obtain rfl : v' = v := by rw [hv] at hv'; exact (Option.some.inj hv').symm
    obtain ⟨hl1, g1⟩ := List.getElem?_eq_some_iff.1 h2
    obtain ⟨hl2, g2⟩ := List.getElem?_eq_some_iff.1 h3
    have : k = e'.singleDofId := ((addrsSingle_nodup v' _ _).getElem_inj_iff).1 (g2.trans g1.symm)
    rw [this]
  · intro h
    rw [h]
    exact ⟨rfl, rfl, v, hv, h2⟩

/-- two d.o.f.s stored at the same place are equal -/
theorem stored_unique (vars : List Var) (p q : Place) (c : Cell) (hp : StoredAt vars p c) (hq : StoredAt vars q c) : p = q := by
  obtain ⟨h1, h2, h3⟩ := hp
  obtain ⟨g1, g2, g3⟩ := hq
  have : p.addr = q.addr := Option.some.inj (h3.symm.trans g3)
  have hl : p.lid = q.lid := h2.symm.trans g2
  cases p; cases q
  simp only at this hl
  rw [this, hl]

theorem single_unique (vars : List Var) (p q : Place) (c : Cell) (hv : p.addr.var = q.addr.var) (hp : StoredSingle vars p c)
    (hq : StoredSingle vars q c) : p = q := by
  obtain ⟨h1, h2, v, hv1, h3⟩ := hp
  obtain ⟨g1, g2, v', hv2, g3⟩ := hq
  rw [← hv] at hv2 g3
  obtain rfl : v = v' := by rw [hv1] at hv2; exact Option.some.inj hv2
  have : p.addr = q.addr := Option.some.inj (h3.symm.trans g3)
  have hl : p.lid = q.lid := h2.symm.trans g2
  cases p; cases q
  simp only at this hl
  rw [this, hl]

/-! ### pairs -/

theorem pre_step (vars : List Var) (e v : Nat) (x : Var) (hx : vars[v]? = some x) :
    pre (vars.map (·.numDof e)) (v + 1) - pre (vars.map (·.numDof e)) v = x.numDof e := by
  obtain ⟨hi, rfl⟩ := List.getElem?_eq_some_iff.1 hx
  rw [pre_succ _ _ (by simpa using hi)]
  simp

theorem lookup_range (d : Nat) (hd : d < 4) : List.range' (lookup d) (lookup (d + 1) - lookup d) = kindsOf d := by
  match d, hd with
  | 0, _ => rfl
  | 1, _ => rfl
  | 2, _ => rfl
  | 3, _ => rfl

/-- the shifts, if the numbers fit into an `unsigned char` -/
theorem shifts_eq (vars : List Var) (d e v : Nat) (x : Var) (hx : vars[v]? = some x) (hd : d < 4) (he : e ∈ kindsOf d) :
    tshift vars d e = (if e = 2 ∨ e = 4 then numDofs vars (e - 1) % 256 else 0) ∧
    tvshift vars d e v = (if e = 2 ∨ e = 4 then x.numDof (e - 1) % 256 else 0) := by
  have h := fun e => pre_step vars e v x hx
  match d, hd with
  | 0, _ =>
    obtain rfl : e = 0 := by simpa [kindsOf] using he
    exact ⟨rfl, rfl⟩
  | 1, _ =>
    have : e = 1 ∨ e = 2 := by simpa [kindsOf] using he
    rcases this with rfl | rfl
    · exact ⟨rfl, rfl⟩
    · simp [tshift, tvshift, lookup, numDofs, h]
  | 2, _ =>
    have : e = 3 ∨ e = 4 := by simpa [kindsOf] using he
    rcases this with rfl | rfl
    · exact ⟨rfl, rfl⟩
    · simp [tshift, tvshift, lookup, numDofs, h]
  | 3, _ =>
    obtain rfl : e = 5 := by simpa [kindsOf] using he
    exact ⟨rfl, rfl⟩

theorem numDof_le (vars : List Var) (k v : Nat) (x : Var) (hx : vars[v]? = some x) : x.numDof k ≤ numDofs vars k := by
  obtain ⟨hi, rfl⟩ := List.getElem?_eq_some_iff.1 hx
  have h1 : pre (vars.map (·.numDof k)) (v + 1) = pre (vars.map (·.numDof k)) v + vars[v].numDof k := by
    rw [pre_succ _ _ (by simpa using hi)]; simp
  have h2 : pre (vars.map (·.numDof k)) (v + 1) ≤ pre (vars.map (·.numDof k)) vars.length := pre_mono _ (by omega)
  unfold numDofs
  omega

/-- an entry of the loops is the pair of places of one d.o.f. -/
theorem pair_spec (vars : List Var) (d : Nat) (hd : d < 4) (hs : Small vars d) (e v k : Nat) (he : e ∈ kindsOf d) (x : Var)
    (hx : vars[v]? = some x) (hk : k < x.numDof e) :
    ∃ a, (addrsVar x v e)[k]? = some a ∧ (addrs vars d)[tshift vars d e + pre (vars.map (·.numDof e)) v + k]? = some a ∧
      (addrsSingle x v d)[k + tvshift vars d e v]? = some a := by
  obtain ⟨hi, hvi⟩ := List.getElem?_eq_some_iff.1 hx
  have hg := addrsKind_get vars e v k hi (by rw [hvi]; exact hk)
  rw [hvi] at hg
  have hlen : k < (addrsVar x v e).length := by rw [length_addrsVar]; exact hk
  refine ⟨(addrsVar x v e)[k], by simp [hlen], ?_, ?_⟩
  · rw [List.getElem?_eq_getElem hlen] at hg
    have hlt : pre (vars.map (·.numDof e)) v + k < (addrsKind vars e).length := (List.getElem?_eq_some_iff.1 hg).1
    rw [(shifts_eq vars d e v x hx hd he).1, Nat.add_assoc, addrs_eq]
    match d, hd with
    | 0, _ =>
      obtain rfl : e = 0 := by simpa [kindsOf] using he
      simpa using hg
    | 1, _ =>
      have : e = 1 ∨ e = 2 := by simpa [kindsOf] using he
      rcases this with rfl | rfl
      · rw [if_pos (by decide), if_neg (by decide), Nat.zero_add, List.getElem?_append_left (by exact hlt)]
        exact hg
      · have : numDofs vars 1 % 256 = numDofs vars 1 := by
          rcases hs (Or.inl rfl) with h | h
          · rw [length_addrsKind] at h
            exact Nat.mod_eq_of_lt h
          · have h : (addrsKind vars 2).length = 0 := h
            omega
        rw [if_pos (by decide), if_pos (by decide), this,
          List.getElem?_append_right (by rw [length_addrsKind]; exact Nat.le_add_right _ _), length_addrsKind]
        rw [show numDofs vars 1 + (pre (vars.map (·.numDof 2)) v + k) - numDofs vars (elemNum 1) = pre (vars.map (·.numDof 2)) v + k from
          Nat.add_sub_cancel_left ..]
        exact hg
    | 2, _ =>
      have : e = 3 ∨ e = 4 := by simpa [kindsOf] using he
      rcases this with rfl | rfl
      · rw [if_pos (by decide), if_neg (by decide), Nat.zero_add, List.getElem?_append_left (by exact hlt)]
        exact hg
      · have : numDofs vars 3 % 256 = numDofs vars 3 := by
          rcases hs (Or.inr rfl) with h | h
          · rw [length_addrsKind] at h
            exact Nat.mod_eq_of_lt h
          · have h : (addrsKind vars 4).length = 0 := h
            omega
        rw [if_pos (by decide), if_pos (by decide), this,
          List.getElem?_append_right (by rw [length_addrsKind]; exact Nat.le_add_right _ _), length_addrsKind]
        rw [show numDofs vars 3 + (pre (vars.map (·.numDof 4)) v + k) - numDofs vars (elemNum 2) = pre (vars.map (·.numDof 4)) v + k from
          Nat.add_sub_cancel_left ..]
        exact hg
    | 3, _ =>
      obtain rfl : e = 5 := by simpa [kindsOf] using he
      simpa using hg
  · have hg' : (addrsVar x v e)[k]? = some (addrsVar x v e)[k] := List.getElem?_eq_getElem hlen
    rw [(shifts_eq vars d e v x hx hd he).2, addrsSingle_eq]
    match d, hd with
    | 0, _ =>
      obtain rfl : e = 0 := by simpa [kindsOf] using he
      simpa using hg'
    | 1, _ =>
      have : e = 1 ∨ e = 2 := by simpa [kindsOf] using he
      rcases this with rfl | rfl
      · rw [if_pos (by decide), if_neg (by decide), Nat.add_zero, List.getElem?_append_left (by exact hlen)]
        exact hg'
      · have : x.numDof 1 % 256 = x.numDof 1 := by
          have h1 := numDof_le vars 1 v x hx
          have h2 := numDof_le vars 2 v x hx
          rcases hs (Or.inl rfl) with h | h
          · rw [length_addrsKind] at h
            exact Nat.mod_eq_of_lt (lt_of_le_of_lt h1 h)
          · have h : (addrsKind vars 2).length = 0 := h
            rw [length_addrsKind] at h
            omega
        rw [if_pos (by decide), if_pos (by decide), this,
          List.getElem?_append_right (by rw [length_addrsVar]; exact Nat.le_add_left _ _), length_addrsVar]
        rw [show k + x.numDof (2 - 1) - x.numDof (elemNum 1) = k from Nat.add_sub_cancel ..]
        exact hg'
    | 2, _ =>
      have : e = 3 ∨ e = 4 := by simpa [kindsOf] using he
      rcases this with rfl | rfl
      · rw [if_pos (by decide), if_neg (by decide), Nat.add_zero, List.getElem?_append_left (by exact hlen)]
        exact hg'
      · have : x.numDof 3 % 256 = x.numDof 3 := by
          have h1 := numDof_le vars 3 v x hx
          have h2 := numDof_le vars 4 v x hx
          rcases hs (Or.inr rfl) with h | h
          · rw [length_addrsKind] at h
            exact Nat.mod_eq_of_lt (lt_of_le_of_lt h1 h)
          · have h : (addrsKind vars 4).length = 0 := h
            rw [length_addrsKind] at h
            omega
        rw [if_pos (by decide), if_pos (by decide), this,
          List.getElem?_append_right (by rw [length_addrsVar]; exact Nat.le_add_left _ _), length_addrsVar]
        rw [show k + x.numDof (4 - 1) - x.numDof (elemNum 2) = k from Nat.add_sub_cancel ..]
        exact hg'
    | 3, _ =>
      obtain rfl : e = 5 := by simpa [kindsOf] using he
      simpa using hg'

/-- the pairs of one variable are the pairs of places of its d.o.f.s -/
theorem mem_pairsVar (vars : List Var) (d : Nat) (hd : d < 4) (hs : Small vars d) (v : Nat) (x : Var) (hx : vars[v]? = some x)
    (q : Nat × Nat) : q ∈ pairsVar vars d v ↔
      ∃ a, (addrs vars d)[q.1]? = some a ∧ (addrsSingle x v d)[q.2]? = some a := by
  have hform : q ∈ pairsVar vars d v ↔ ∃ e, e ∈ kindsOf d ∧ ∃ k, k < x.numDof e ∧
      q = (tshift vars d e + pre (vars.map (·.numDof e)) v + k, k + tvshift vars d e v) := by
    unfold pairsVar pairs
    rw [lookup_range d hd]
    constructor
    · intro h
      obtain ⟨e, he, h⟩ := List.mem_flatMap.1 h
      obtain ⟨k, hk, rfl⟩ := List.mem_map.1 h
      rw [pre_step vars e v x hx] at hk
      exact ⟨e, he, k, List.mem_range.1 hk, rfl⟩
    · rintro ⟨e, he, k, hk, rfl⟩
      refine List.mem_flatMap.2 ⟨e, he, List.mem_map.2 ⟨k, ?_, rfl⟩⟩
      rw [pre_step vars e v x hx]
      exact List.mem_range.2 hk
  rw [hform]
  constructor
  · rintro ⟨e, he, k, hk, rfl⟩
    obtain ⟨a, _, h2, h3⟩ := pair_spec vars d hd hs e v k he x hx hk
    exact ⟨a, h2, h3⟩
  · rintro ⟨a, h2, h3⟩
    obtain ⟨e, he, ha⟩ := List.mem_flatMap.1 (List.mem_of_getElem? h3)
    obtain ⟨hp, hk⟩ := addrsVar_pos x v e a ha
    obtain ⟨a', g1, g2, g3⟩ := pair_spec vars d hd hs e v _ he x hx hk
    obtain rfl : a = a' := Option.some.inj (hp.symm.trans g1)
    refine ⟨e, he, _, hk, Prod.ext ?_ ?_⟩
    · obtain ⟨hl1, f1⟩ := List.getElem?_eq_some_iff.1 h2
      obtain ⟨hl2, f2⟩ := List.getElem?_eq_some_iff.1 g2
      exact ((addrs_nodup vars d hd).getElem_inj_iff).1 (f1.trans f2.symm)
    · obtain ⟨hl1, f1⟩ := List.getElem?_eq_some_iff.1 h3
      obtain ⟨hl2, f2⟩ := List.getElem?_eq_some_iff.1 g3
      exact ((addrsSingle_nodup x v d).getElem_inj_iff).1 (f1.trans f2.symm)

theorem mem_pairsAll (vars : List Var) (d : Nat) (v : Nat) (q : Nat × Nat) :
    (v, q) ∈ pairsAll vars d ↔ v < vars.length ∧ q ∈ pairsVar vars d v := by
  unfold pairsAll pairsVar
  constructor
  · intro h
    obtain ⟨e, he, h⟩ := List.mem_flatMap.1 h
    obtain ⟨w, hw, h⟩ := List.mem_flatMap.1 h
    obtain ⟨p, hp, h⟩ := List.mem_map.1 h
    obtain ⟨rfl, rfl⟩ := Prod.mk.inj h
    exact ⟨List.mem_range.1 hw, List.mem_flatMap.2 ⟨e, he, hp⟩⟩
  · rintro ⟨hv, h⟩
    obtain ⟨e, he, h⟩ := List.mem_flatMap.1 h
    exact List.mem_flatMap.2 ⟨e, he, List.mem_flatMap.2 ⟨v, List.mem_range.2 hv, List.mem_map.2 ⟨q, h, rfl⟩⟩⟩

end Verif.TagCopy
