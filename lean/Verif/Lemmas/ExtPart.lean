import Verif.Lemmas.ExtMap

/-! `sum_part_ids`: the sums over the preceding arrays of the same class. -/
namespace Verif.ExtEnum

/-- The result of `sum_part_ids(st, ed, m, D)`. -/
structure Parts (N m st ed : Nat) (D w1 : KMap) : Prop where
  sorted : MSorted w1
  shape : ∀ k ∈ w1.map Prod.fst, k.length = N ∧ k = shp m ed k ∧ ∃ x ∈ D, k.take ed = x.1.take ed
  present : ∀ x ∈ D, ∃ k ∈ w1.map Prod.fst, k.take ed = x.1.take ed
  sums : ∀ x ∈ D, ∀ f : Nat → Nat,
    tot (fun k => if k.take ed = x.1.take ed then f (nth k m) else 0) w1 =
      tot (fun y => if y.take st = x.1.take st ∧ lexLt (y.take ed) (x.1.take ed) = true then f (nth y m) else 0) D

/-- The state of the loop after the entries `D`. -/
structure PartInv (N m st ed : Nat) (D : KMap) (p : Part) : Prop where
  parts : Parts N m st ed D p.w1
  a_mem : p.a ∈ D.map Prod.fst
  a_max : ∀ y ∈ D, lexLt (p.a.take ed) (y.1.take ed) = false
  sp_sorted : p.sprev.Pairwise fun x y => x.1 < y.1
  sp_keys : ∀ v, v ∈ p.sprev.map Prod.fst ↔ ∃ y ∈ D, y.1.take st = p.a.take st ∧ nth y.1 m = v
  sp_tot : ∀ f, totV f p.sprev = tot (fun y => if y.take st = p.a.take st then f (nth y m) else 0) D

theorem le_antisymm' {a b : Key} (h1 : lexLt a b = false) (h2 : lexLt b a = false) : a = b := by
  rcases lexLt_total a b with h | h | h
  · rw [h1] at h; cases h
  · exact h
  · rw [h2] at h; cases h

/-- A prefix shared by the ends is shared by what is between. -/
theorem between {y a k : Key} {st ed : Nat} (hse : st ≤ ed) (h1 : y.length = k.length) (h2 : a.length = k.length)
    (hya : lexLt (a.take ed) (y.take ed) = false) (hak : lexLt (k.take ed) (a.take ed) = false) (h : y.take st = k.take st) :
    a.take st = k.take st := by
  have e : ∀ b : Key, (b.take ed).take st = b.take st := fun b => by rw [List.take_take, Nat.min_eq_left hse]
  have h3 := take_mono (a := y.take ed) (b := a.take ed) (by simp [h1, h2]) st hya
  have h4 := take_mono (a := a.take ed) (b := k.take ed) (by simp [h2]) st hak
  rw [e, e] at h3 h4
  rw [h] at h3
  exact le_antisymm' h3 h4

theorem tot_ite_congr {M : KMap} {f : Key → Nat} {P Q : Key → Prop} [DecidablePred P] [DecidablePred Q] (h : ∀ e ∈ M, P e.1 ↔ Q e.1) :
    tot (fun k => if P k then f k else 0) M = tot (fun k => if Q k then f k else 0) M :=
  tot_congr fun e he => by simp [h e he]

theorem tot_ite_false {M : KMap} {f : Key → Nat} {P : Key → Prop} [DecidablePred P] (h : ∀ e ∈ M, ¬ P e.1) :
    tot (fun k => if P k then f k else 0) M = 0 := by
  rw [tot_congr (g := fun _ => 0) fun e he => by simp [h e he]]
  unfold tot; simp

theorem any_iff {p : List (Nat × Nat)} {v : Nat} : (p.any fun x => decide (x.1 = v)) = true ↔ v ∈ p.map Prod.fst := by
  simp [List.any_eq_true]

/-- Inserting the sums of the preceding classes. -/
theorem fold_ins {N m : Nat} {cur : Key} (hm : m < N) (hc : cur.length = N) (sp : List (Nat × Nat)) (w : KMap)
    (hw : MSorted w) (hs : sp.Pairwise fun x y => x.1 < y.1) (hnew : ∀ v ∈ sp.map Prod.fst, cur.set m v ∉ w.map Prod.fst) :
    MSorted (sp.foldl (fun w v => ins (cur.set m v.1) v.2 w) w) ∧
    (∀ f, tot f (sp.foldl (fun w v => ins (cur.set m v.1) v.2 w) w) = tot f w + totV (fun v => f (cur.set m v)) sp) ∧
    ∀ k, k ∈ (sp.foldl (fun w v => ins (cur.set m v.1) v.2 w) w).map Prod.fst ↔ k ∈ w.map Prod.fst ∨ ∃ v ∈ sp.map Prod.fst, k = cur.set m v := by
  induction sp generalizing w with
  | nil => simp [hw]
  | cons x sp ih =>
    obtain ⟨h1, h2⟩ := List.pairwise_cons.1 hs
    obtain ⟨i1, i2, i3⟩ := ih (ins (cur.set m x.1) x.2 w) (ins_sorted hw) h2 (by
      intro v hv hin
      rcases ins_keys.1 hin with h | h
      · obtain ⟨z, hz, rfl⟩ := List.mem_map.1 hv
        have h3 := congrArg (fun k => nth k m) h
        simp only [nth_set, hc, hm, and_self, if_true] at h3
        have := h1 z hz
        omega
      · exact hnew v (by simp [hv]) h)
    refine ⟨i1, fun f => ?_, fun k => ?_⟩
    · rw [List.foldl_cons, i2 f, tot_ins f _ (hnew x.1 (by simp)), totV_cons]; ring
    · rw [List.foldl_cons, i3 k, ins_keys]
      simp only [List.map_cons, List.mem_cons, exists_eq_or_imp]
      tauto

theorem partStep_inv {N m st ed : Nat} (hm : m < N) (hed : ed ≤ m) (hse : st ≤ ed) {D : KMap} {p : Part} {kv : Key × Nat}
    (hD : ∀ y ∈ D, y.1.length = N) (hk : kv.1.length = N) (hks : kv.1 = shp m ed kv.1) (hlt : ∀ y ∈ D, lexLt y.1 kv.1 = true)
    (h : PartInv N m st ed D p) : PartInv N m st ed (D ++ [kv]) (partStep st ed m p kv) := by
  obtain ⟨a0, ha0, ha0e⟩ := List.mem_map.1 h.a_mem
  have hal : p.a.length = N := by rw [← ha0e]; exact hD a0 ha0
  have hkD : ∀ y ∈ D, lexLt (kv.1.take ed) (y.1.take ed) = false := fun y hy =>
    take_mono' (by rw [hD y hy, hk]) ed (hlt y hy)
  have hka : lexLt (kv.1.take ed) (p.a.take ed) = false := by rw [← ha0e]; exact hkD a0 ha0
  -- the sums of the earlier classes are not changed
  have hold : ∀ x ∈ D, ∀ f : Nat → Nat,
      tot (fun y => if y.take st = x.1.take st ∧ lexLt (y.take ed) (x.1.take ed) = true then f (nth y m) else 0) (D ++ [kv]) =
      tot (fun y => if y.take st = x.1.take st ∧ lexLt (y.take ed) (x.1.take ed) = true then f (nth y m) else 0) D := by
    intro x hx f
    rw [tot_append]
    simp [hkD x hx]
  have hself : ∀ f : Nat → Nat,
      tot (fun y => if y.take st = kv.1.take st ∧ lexLt (y.take ed) (kv.1.take ed) = true then f (nth y m) else 0) (D ++ [kv]) =
      tot (fun y => if y.take st = kv.1.take st ∧ lexLt (y.take ed) (kv.1.take ed) = true then f (nth y m) else 0) D := by
    intro f
    rw [tot_append]
    simp [lexLt_irrefl]
  -- adding the value
  have hadd : ∀ p' : Part, p'.a.take st = kv.1.take st → p'.a ∈ (D ++ [kv]).map Prod.fst → 
      (∀ y ∈ D ++ [kv], lexLt (p'.a.take ed) (y.1.take ed) = false) →
      (p'.sprev.Pairwise fun x y => x.1 < y.1) →
      (∀ v, v ∈ p'.sprev.map Prod.fst ↔ ∃ y ∈ D, y.1.take st = p'.a.take st ∧ nth y.1 m = v) →
      (∀ f, totV f p'.sprev = tot (fun y => if y.take st = p'.a.take st then f (nth y m) else 0) D) →
      MSorted p'.w1 →
      (∀ k ∈ p'.w1.map Prod.fst, k.length = N ∧ k = shp m ed k ∧ ∃ x ∈ D ++ [kv], k.take ed = x.1.take ed) →
      (∀ x ∈ D ++ [kv], ∃ k ∈ p'.w1.map Prod.fst, k.take ed = x.1.take ed) →
      (∀ x ∈ D ++ [kv], ∀ f : Nat → Nat,
        tot (fun k => if k.take ed = x.1.take ed then f (nth k m) else 0) p'.w1 =
        tot (fun y => if y.take st = x.1.take st ∧ lexLt (y.take ed) (x.1.take ed) = true then f (nth y m) else 0) (D ++ [kv])) →
      PartInv N m st ed (D ++ [kv]) (partAdd m kv.1 kv.2 p') := by
    intro p' q0 q1 q2 q3 q4 q5 q6 q7 q8 q9
    have hsp : (∀ v, v ∈ (addVal (nth kv.1 m) kv.2 p'.sprev).map Prod.fst ↔
          ∃ y ∈ D ++ [kv], y.1.take st = p'.a.take st ∧ nth y.1 m = v) := by
      intro v
      rw [addVal_keys, q4 v]
      constructor
      · rintro (rfl | ⟨y, hy, h1, h2⟩)
        · exact ⟨kv, by simp, q0.symm, rfl⟩
        · exact ⟨y, by simp [hy], h1, h2⟩
      · rintro ⟨y, hy, h1, h2⟩
        rcases List.mem_append.1 hy with hy | hy
        · exact Or.inr ⟨y, hy, h1, h2⟩
        · obtain rfl := List.mem_singleton.1 hy
          exact Or.inl h2.symm
    have hst : ∀ f, totV f (addVal (nth kv.1 m) kv.2 p'.sprev) =
        tot (fun y => if y.take st = p'.a.take st then f (nth y m) else 0) (D ++ [kv]) := by
      intro f
      rw [totV_addVal, q5 f, tot_append]
      simp [q0]
    unfold partAdd
    split
    · exact ⟨⟨q6, q7, q8, q9⟩, q1, q2, addVal_sorted q3, hsp, hst⟩
    · refine ⟨⟨ins_sorted q6, ?_, ?_, ?_⟩, q1, q2, addVal_sorted q3, hsp, hst⟩
      · intro k hk'
        rcases ins_keys.1 hk' with rfl | hk'
        · exact ⟨hk, hks, kv, by simp, rfl⟩
        · exact q7 k hk'
      · intro x hx
        obtain ⟨k, hk1, hk2⟩ := q8 x hx
        exact ⟨k, ins_keys.2 (Or.inr hk1), hk2⟩
      · intro x hx f
        rw [tot_ins_zero]; exact q9 x hx f
  unfold partStep
  split
  · rename_i hs
    have hs' : p.a.take ed = kv.1.take ed := by simpa [same] using hs
    have hst : p.a.take st = kv.1.take st := by
      have := congrArg (List.take st) hs'
      rwa [List.take_take, List.take_take, Nat.min_eq_left hse] at this
    refine hadd p hst (by rw [List.map_append]; exact List.mem_append_left _ h.a_mem) ?_ h.sp_sorted h.sp_keys h.sp_tot h.parts.sorted ?_ ?_ ?_
    · intro y hy
      rcases List.mem_append.1 hy with hy | hy
      · exact h.a_max y hy
      · obtain rfl := List.mem_singleton.1 hy
        rw [hs', lexLt_irrefl]
    · intro k hk'
      obtain ⟨h1, h2, x, hx, h3⟩ := h.parts.shape k hk'
      exact ⟨h1, h2, x, by simp [hx], h3⟩
    · intro x hx
      rcases List.mem_append.1 hx with hx | hx
      · exact h.parts.present x hx
      · obtain rfl := List.mem_singleton.1 hx
        obtain ⟨k, h1, h2⟩ := h.parts.present a0 ha0
        exact ⟨k, h1, by rw [h2, ha0e, hs']⟩
    · intro x hx f
      rcases List.mem_append.1 hx with hx | hx
      · rw [hold x hx f]; exact h.parts.sums x hx f
      · obtain rfl := List.mem_singleton.1 hx
        rw [hself f]
        have := h.parts.sums a0 ha0 f
        rw [ha0e, hs', hst] at this
        exact this
  · rename_i hs
    have hs' : p.a.take ed ≠ kv.1.take ed := by simpa [same] using hs
    have hnew : ∀ y ∈ D, y.1.take ed ≠ kv.1.take ed := by
      intro y hy he
      exact hs' (between le_rfl (by rw [hD y hy, hk]) (by rw [hal, hk]) (h.a_max y hy) hka he)
    have hnewk : ∀ k ∈ p.w1.map Prod.fst, k.take ed ≠ kv.1.take ed := by
      intro k hk' he
      obtain ⟨_, _, x, hx, h3⟩ := h.parts.shape k hk'
      exact hnew x hx (by rw [← h3, he])
    have hgrp0 : ∀ f : Nat → Nat, tot (fun k => if k.take ed = kv.1.take ed then f (nth k m) else 0) p.w1 = 0 := fun f =>
      tot_ite_false fun e he => hnewk e.1 (List.mem_map_of_mem he)
    have hmax : ∀ y ∈ D ++ [kv], lexLt (kv.1.take ed) (y.1.take ed) = false := by
      intro y hy
      rcases List.mem_append.1 hy with hy | hy
      · exact hkD y hy
      · obtain rfl := List.mem_singleton.1 hy
        rw [lexLt_irrefl]
    split
    · rename_i hst
      have hst' : p.a.take st ≠ kv.1.take st := by simpa [same] using hst
      have hno : ∀ y ∈ D, y.1.take st ≠ kv.1.take st := by
        intro y hy he
        exact hst' (between hse (by rw [hD y hy, hk]) (by rw [hal, hk]) (h.a_max y hy) hka he)
      refine ⟨⟨ins_sorted h.parts.sorted, ?_, ?_, ?_⟩, by simp, hmax, by simp, ?_, ?_⟩
      · intro k hk'
        rcases ins_keys.1 hk' with rfl | hk'
        · exact ⟨hk, hks, kv, by simp, rfl⟩
        · obtain ⟨h1, h2, x, hx, h3⟩ := h.parts.shape k hk'
          exact ⟨h1, h2, x, by simp [hx], h3⟩
      · intro x hx
        rcases List.mem_append.1 hx with hx | hx
        · obtain ⟨k, hk1, hk2⟩ := h.parts.present x hx
          exact ⟨k, ins_keys.2 (Or.inr hk1), hk2⟩
        · obtain rfl := List.mem_singleton.1 hx
          exact ⟨x.1, ins_keys.2 (Or.inl rfl), rfl⟩
      · intro x hx f
        rw [tot_ins_zero]
        rcases List.mem_append.1 hx with hx | hx
        · rw [hold x hx f]; exact h.parts.sums x hx f
        · obtain rfl := List.mem_singleton.1 hx
          rw [hself f, hgrp0 f, tot_ite_false fun e he => fun hc => hno e he hc.1]
      · intro v
        simp only [List.map_cons, List.map_nil, List.mem_singleton]
        constructor
        · rintro rfl; exact ⟨kv, by simp, rfl, rfl⟩
        · rintro ⟨y, hy, h1, h2⟩
          rcases List.mem_append.1 hy with hy | hy
          · exact absurd h1 (hno y hy)
          · obtain rfl := List.mem_singleton.1 hy
            exact h2.symm
      · intro f
        rw [tot_append, tot_ite_false fun e he => hno e he]
        simp
    · rename_i hst
      have hst' : p.a.take st = kv.1.take st := by simpa [same] using hst
      have hcl : (zeroFrom ed kv.1).length = N := by rw [zeroFrom_length, hk]
      have hsp : ∀ v, (zeroFrom ed kv.1).set m v = shp m ed ((zeroFrom ed kv.1).set m v) := by
        intro v
        refine key_ext (by simp [shp_length]) fun i hi => ?_
        rw [List.length_set, hcl] at hi
        rw [nth_shp _ (by rw [List.length_set, hcl]; exact hm), nth_set, nth_set, hcl, nth_zeroFrom]
        by_cases h1 : i = m
        · subst h1; simp [hm]
        · rw [if_neg h1, if_neg (by omega)]
          split <;> rfl
      have htk : ∀ v, ((zeroFrom ed kv.1).set m v).take ed = kv.1.take ed := by
        intro v; rw [List.take_set_of_le hed, take_zeroFrom _ le_rfl]
      obtain ⟨f1, f2, f3⟩ := fold_ins hm hcl p.sprev p.w1 h.parts.sorted h.sp_sorted (fun v _ hin => hnewk _ hin (htk v))
      have hltD : ∀ y ∈ D, lexLt (y.1.take ed) (kv.1.take ed) = true := by
        intro y hy
        rcases lexLt_total (y.1.take ed) (kv.1.take ed) with h' | h' | h'
        · exact h'
        · exact absurd h' (hnew y hy)
        · rw [hkD y hy] at h'; cases h'
      have hgrp : ∀ f : Nat → Nat, totV (fun v => if ((zeroFrom ed kv.1).set m v).take ed = kv.1.take ed then f (nth ((zeroFrom ed kv.1).set m v) m) else 0) p.sprev =
          totV f p.sprev := by
        intro f
        congr 1
        funext v
        rw [if_pos (htk v), nth_set, hcl, if_pos ⟨rfl, hm⟩]
      refine hadd ⟨p.sprev.foldl (fun w v => ins ((zeroFrom ed kv.1).set m v.1) v.2 w) p.w1, p.sprev, kv.1⟩ rfl (by simp) hmax h.sp_sorted
        ?_ ?_ f1 ?_ ?_ ?_
      · intro v; rw [h.sp_keys v, hst']
      · intro f; rw [h.sp_tot f, hst']
      · intro k hk'
        rcases (f3 k).1 hk' with hk' | ⟨v, _, rfl⟩
        · obtain ⟨h1, h2, x, hx, h3⟩ := h.parts.shape k hk'
          exact ⟨h1, h2, x, by simp [hx], h3⟩
        · exact ⟨by rw [List.length_set, hcl], hsp v, kv, by simp, htk v⟩
      · intro x hx
        rcases List.mem_append.1 hx with hx | hx
        · obtain ⟨k, hk1, hk2⟩ := h.parts.present x hx
          exact ⟨k, (f3 k).2 (Or.inl hk1), hk2⟩
        · obtain rfl := List.mem_singleton.1 hx
          have : nth p.a m ∈ p.sprev.map Prod.fst := (h.sp_keys _).2 ⟨a0, ha0, by rw [ha0e], by rw [ha0e]⟩
          exact ⟨_, (f3 _).2 (Or.inr ⟨_, this, rfl⟩), htk _⟩
      · intro x hx f
        rcases List.mem_append.1 hx with hx | hx
        · rw [hold x hx f, f2, h.parts.sums x hx f]
          have : totV (fun v => if ((zeroFrom ed kv.1).set m v).take ed = x.1.take ed then f (nth ((zeroFrom ed kv.1).set m v) m) else 0) p.sprev = 0 := by
            unfold totV
            rw [List.sum_eq_zero]
            intro y hy
            obtain ⟨z, _, rfl⟩ := List.mem_map.1 hy
            simp [htk, (hnew x hx).symm]
          rw [this, Nat.add_zero]
        · obtain rfl := List.mem_singleton.1 hx
          rw [hself f, f2, hgrp0 f, hgrp f, h.sp_tot f, Nat.zero_add]
          refine tot_ite_congr fun e he => ?_
          rw [hst']
          exact ⟨fun hc => ⟨hc, hltD e he⟩, fun hc => hc.1⟩

theorem partFold_inv {N m st ed : Nat} (hm : m < N) (hed : ed ≤ m) (hse : st ≤ ed) (l D : KMap) (p : Part)
    (hs : MSorted (D ++ l)) (hl : ∀ y ∈ D ++ l, y.1.length = N ∧ y.1 = shp m ed y.1) (h : PartInv N m st ed D p) :
    PartInv N m st ed (D ++ l) (l.foldl (partStep st ed m) p) := by
  induction l generalizing D p with
  | nil => simpa using h
  | cons kv l ih =>
    have e : D ++ kv :: l = (D ++ [kv]) ++ l := by simp
    rw [e] at hs hl ⊢
    rw [List.foldl_cons]
    refine ih (D ++ [kv]) _ hs hl ?_
    have hs' := (List.pairwise_append.1 hs).1
    exact partStep_inv hm hed hse (fun y hy => (hl y (by simp [hy])).1) (hl kv (by simp)).1 (hl kv (by simp)).2
      (fun y hy => (List.pairwise_append.1 hs').2.2 y hy kv (by simp)) h

theorem sumPart_spec {N m st ed : Nat} (hm : m < N) (hed : ed ≤ m) (hse : st ≤ ed) {D : KMap} (hD : D ≠ []) (hs : MSorted D)
    (hl : ∀ y ∈ D, y.1.length = N ∧ y.1 = shp m ed y.1) : ∃ w1, sumPart st ed m D = some w1 ∧ Parts N m st ed D w1 := by
  rcases D with _ | ⟨kv, l⟩
  · exact absurd rfl hD
  refine ⟨_, rfl, ?_⟩
  have := partFold_inv hm hed hse l [kv] ⟨[(kv.1, 0)], [(nth kv.1 m, kv.2)], kv.1⟩ (by simpa using hs) (by simpa using hl) (by
    refine ⟨⟨by simp [MSorted], ?_, ?_, ?_⟩, by simp, ?_, by simp, ?_, ?_⟩
    · intro k hk
      simp only [List.map_cons, List.map_nil, List.mem_singleton] at hk
      subst hk
      exact ⟨(hl kv (by simp)).1, (hl kv (by simp)).2, kv, by simp, rfl⟩
    · intro x hx
      obtain rfl := List.mem_singleton.1 hx
      exact ⟨x.1, by simp, rfl⟩
    · intro x hx f
      obtain rfl := List.mem_singleton.1 hx
      simp [lexLt_irrefl]
    · intro y hy
      obtain rfl := List.mem_singleton.1 hy
      exact lexLt_irrefl _
    · intro v; simp; tauto
    · intro f; simp)
  exact this.parts

end Verif.ExtEnum
