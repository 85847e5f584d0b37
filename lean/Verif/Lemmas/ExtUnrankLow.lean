import Verif.Lemmas.ExtUnrankHigh

/-! `begin(i)` when the value is inserted before the entry it depends on. -/
set_option linter.unusedSimpArgs false
set_option linter.unnecessarySeqFocus false
namespace Verif.ExtEnum
open Verif.Spec.ExtEnum

/-- The pieces of `m_qrb` sum over the base arrays with the same first entries. -/
theorem betaSz_spec {E : Ext} {A : List Key} (G : Good E A) {id : Key} (hnm : E.n ≤ E.m) :
    ∃ vs : List Nat, vs.Pairwise (· < ·) ∧ (∀ v, v ∈ vs ↔ ∃ a ∈ A, a.take E.n = id.take E.n ∧ v = E.rg (nth a E.m)) ∧
      betaSz E.m E.rg (E.q.filter fun x => same E.n id x.1) =
        vs.map fun v => (v, S A fun a => if a.take E.n = id.take E.n then min (E.rg (nth a E.m)) v else 0) := by
  have hq := G.q hnm
  have hml : ∀ a ∈ A, E.m < a.length := fun a ha => by rw [G.len a ha]; exact G.hm
  obtain ⟨h1, h2⟩ := fold_insNat (fun kv : Key × Nat => E.rg (nth kv.1 E.m)) (E.q.filter fun x => same E.n id x.1) [] List.Pairwise.nil
  refine ⟨_, h1, fun v => ?_, ?_⟩
  · rw [h2]
    simp only [List.not_mem_nil, false_or, List.mem_filter, same, decide_eq_true_eq]
    constructor
    · rintro ⟨e, ⟨he, hs⟩, rfl⟩
      obtain ⟨a, ha, hea⟩ := hq.mem he
      refine ⟨a, ha, ?_, ?_⟩
      · rw [hs, hea, take_shp a le_rfl hnm]
      · rw [hea, nth_shp a (hml a ha), if_pos rfl]
    · rintro ⟨a, ha, hs, rfl⟩
      obtain ⟨e, he, hek⟩ := List.mem_map.1 ((hq.keys _).2 ⟨a, ha, rfl⟩)
      refine ⟨e, ⟨he, ?_⟩, ?_⟩
      · rw [hek, take_shp a le_rfl hnm, hs]
      · rw [hek, nth_shp a (hml a ha), if_pos rfl]
  · unfold betaSz
    refine List.map_congr_left fun v _ => ?_
    congr 1
    rw [tot_filter (fun k => min (E.rg (nth k E.m)) v)]
    refine hq.tot' (fun k => if same E.n id k = true then min (E.rg (nth k E.m)) v else 0) _ fun a ha => ?_
    simp only [same, take_shp a le_rfl hnm, nth_shp a (hml a ha), if_true, decide_eq_true_eq, eq_comm (a := id.take E.n)]

theorem S_pos_of_lt {A : List Key} {f g : Key → Nat} {a : Key} (ha : a ∈ A) (h : ∀ b ∈ A, f b ≤ g b) (hlt : f a < g a) : S A f < S A g :=
  S_lt ha h hlt

theorem res_low {n m : Nat} {id r : Key} (hnm : n ≤ m) (hm : m ≤ id.length) (hr : r.take m = id.take m) :
    (zeroFrom n id).take n ++ (r.take m).drop n ++ (zeroFrom n id).drop m = zeroFrom m id := by
  rw [take_zeroFrom _ le_rfl, hr]
  have h1 : id.take n ++ (id.take m).drop n = id.take m := by
    have := List.take_append_drop n (id.take m)
    rwa [List.take_take, Nat.min_eq_left hnm] at this
  rw [h1, zeroFrom, zeroFrom, List.drop_append]
  congr 1
  rw [List.drop_eq_nil_of_le (by simp; omega), List.nil_append, List.drop_replicate]
  congr 1
  simp; omega

/-- The search along `m_p`. -/
theorem pFind_spec {E : Ext} {A : List Key} (G : Good E A) {id : Key} (hid : id ∈ A) {s : Nat} (hs : s < E.rg (nth id E.m)) (hnm : E.n ≤ E.m) :
    pFind E (fun v => if s < E.rg v then 1 else 0)
      (S A fun a => if a.take E.n = id.take E.n ∧ lexLt (a.take E.N) (id.take E.N) = true then (if s < E.rg (nth a E.m) then 1 else 0) else 0) (zeroFrom E.n id) =
    some (S A fun a => if a.take E.m = id.take E.m ∧ lexLt (a.take E.N) (id.take E.N) = true then (if s < E.rg (nth a E.m) then 1 else 0) else 0, zeroFrom E.m id) := by
  have hidl := G.len id hid
  have hn := G.hn
  have hm := G.hm
  unfold pFind
  by_cases h0 : E.n + 1 ≤ E.m
  swap
  · have : E.n = E.m := by omega
    rw [if_neg h0, this]
  rw [if_pos h0]
  set f : Nat → Nat := fun v => if s < E.rg v then 1 else 0 with hf
  set i2 := S A fun a => if a.take E.n = id.take E.n ∧ lexLt (a.take E.N) (id.take E.N) = true then (if s < E.rg (nth a E.m) then 1 else 0) else 0 with hi2
  have hPl : ∀ e ∈ E.p, e.1.length = E.N := fun e he => (G.p_shape h0 e.1 (List.mem_map_of_mem he)).1
  have hgrp : ∀ x ∈ A, grp E.m f E.p x = S A fun a => if a.take E.n = x.take E.n ∧ lexLt (a.take E.m) (x.take E.m) = true then f (nth a E.m) else 0 :=
    fun x hx => G.p_sums h0 x hx f
  have hPA : ∀ e ∈ E.p, ∃ x ∈ A, e.1.take E.m = x.take E.m := fun e he => (G.p_shape h0 e.1 (List.mem_map_of_mem he)).2.2
  have H2 : ∀ e ∈ E.p, e.1.take E.n = id.take E.n → lexLt (id.take E.m) (e.1.take E.m) = true → i2 < grp E.m f E.p e.1 := by
    intro e he hen hlt
    obtain ⟨x, hx, hex⟩ := hPA e he
    rw [grp_congr hex, hgrp x hx]
    rw [hex] at hlt
    have hxn : x.take E.n = id.take E.n := by rw [← hen]; exact (take_of_take hnm hex).symm
    refine S_lt hid (fun a ha => ?_) ?_
    · by_cases h1 : a.take E.n = id.take E.n ∧ lexLt (a.take E.N) (id.take E.N) = true
      · have h2 := h1.2
        rw [take_eq_of_full (G.len a ha), take_eq_of_full hidl] at h2
        have h3 := take_mono' (by rw [G.len a ha, hidl]) E.m h2
        have h4 : a.take E.n = x.take E.n ∧ lexLt (a.take E.m) (x.take E.m) = true := ⟨h1.1.trans hxn.symm, lexLt_of_le_of_lt h3 hlt⟩
        rw [if_pos h1, if_pos h4]
      · rw [if_neg h1]; omega
    · rw [if_neg (by simp [lexLt_irrefl]), if_pos ⟨hxn.symm, hlt⟩]
      simp [hf, hs]
  have H3 : ∀ e ∈ E.p, e.1.take E.n = id.take E.n → lexLt (id.take E.m) (e.1.take E.m) = false → grp E.m f E.p e.1 ≤ i2 := by
    intro e he hen hge
    obtain ⟨x, hx, hex⟩ := hPA e he
    rw [grp_congr hex, hgrp x hx]
    rw [hex] at hge
    have hxn : x.take E.n = id.take E.n := by rw [← hen]; exact (take_of_take hnm hex).symm
    refine S_le fun a ha => ?_
    by_cases h1 : a.take E.n = x.take E.n ∧ lexLt (a.take E.m) (x.take E.m) = true
    · have h2 : lexLt (a.take E.m) (id.take E.m) = true := lexLt_of_lt_of_le h1.2 hge
      obtain ⟨d, L, hd⟩ := exists_diffB (G.len a ha) hidl
      have h3 := (hd.lt E.m hm.le).1 h2
      have h4 : a.take E.n = id.take E.n ∧ lexLt (a.take E.N) (id.take E.N) = true := ⟨h1.1.trans hxn, (hd.lt E.N le_rfl).2 ⟨by omega, h3.2⟩⟩
      rw [if_pos h1, if_pos h4]
    · rw [if_neg h1]; omega
  -- the start of the scan
  obtain ⟨k, hk, hkt⟩ := G.p_present h0 id hid
  obtain ⟨ek, hek, rfl⟩ := List.mem_map.1 hk
  have hsrt := G.p_sorted h0
  set M1 := E.p.takeWhile fun x => lexLt x.1 (zeroFrom E.n id) with hM1
  have hP : M1 ++ lbKey E.p (zeroFrom E.n id) = E.p := List.takeWhile_append_dropWhile
  have hM1lt : ∀ x ∈ M1, lexLt (x.1.take E.n) (id.take E.n) = true := by
    intro x hx
    have h1 : lexLt x.1 (zeroFrom E.n id) = true := List.mem_takeWhile_imp (p := fun x : Key × Nat => lexLt x.1 (zeroFrom E.n id)) hx
    have hxp : x ∈ E.p := (List.takeWhile_sublist _).subset hx
    rwa [lexLt_zeroFrom (by rw [hPl x hxp, hidl])] at h1
  have hekL : ek ∈ lbKey E.p (zeroFrom E.n id) := by
    rw [← hP] at hek
    rcases List.mem_append.1 hek with h | h
    · have := hM1lt ek h
      rw [take_of_take hnm hkt, lexLt_irrefl] at this
      cases this
    · exact h
  match hlb : lbKey E.p (zeroFrom E.n id) with
  | [] => rw [hlb] at hekL; simp at hekL
  | e0 :: L =>
    rw [hlb] at hP hekL
    have hsrt' := hsrt
    rw [← hP] at hsrt'
    obtain ⟨_, hs2, _⟩ := List.pairwise_append.1 hsrt'
    obtain ⟨hs3, hs4⟩ := List.pairwise_cons.1 hs2
    have he0p : e0 ∈ E.p := by rw [← hP]; simp
    have hLP : ∀ e ∈ L, e ∈ E.p := fun e he => by rw [← hP]; simp [he]
    have he0ge : lexLt e0.1 (zeroFrom E.n id) = false := by
      have h1 := List.head?_dropWhile_not (fun x : Key × Nat => lexLt x.1 (zeroFrom E.n id)) E.p
      rw [show E.p.dropWhile (fun x : Key × Nat => lexLt x.1 (zeroFrom E.n id)) = e0 :: L from hlb] at h1
      simpa using h1
    rw [lexLt_zeroFrom (by rw [hPl e0 he0p, hidl])] at he0ge
    have hmono : ∀ x ∈ L, ∀ k, lexLt (x.1.take k) (e0.1.take k) = false := fun x hx k =>
      take_mono' (by rw [hPl e0 he0p, hPl x (hLP x hx)]) k (hs3 x hx)
    have hle0 : ∀ k, lexLt (ek.1.take k) (e0.1.take k) = false := by
      intro k
      rcases List.mem_cons.1 hekL with rfl | h
      · exact lexLt_irrefl _
      · exact hmono ek h k
    have he0n : e0.1.take E.n = id.take E.n := by
      have h1 := hle0 E.n
      rw [take_of_take hnm hkt] at h1
      exact le_antisymm' he0ge h1
    have hM1z : ∀ x : Key, lexLt (x.take E.n) (id.take E.n) = false → grp E.m f M1 x = 0 := by
      intro x hx
      refine grp_zero fun y hy h => ?_
      have h1 := hM1lt y hy
      rw [take_of_take hnm h, hx] at h1
      cases h1
    have hgP : ∀ x : Key, lexLt (x.take E.n) (id.take E.n) = false →
        grp E.m f E.p x = (if e0.1.take E.m = x.take E.m then f (nth e0.1 E.m) * e0.2 else 0) + grp E.m f L x := by
      intro x hx
      have h1 := hM1z x hx
      rw [← grp_cons]
      unfold grp at h1 ⊢
      rw [← hP, tot_append, h1, Nat.zero_add]
    obtain ⟨h1, h2⟩ := scanP_A (N := E.N) hnm H2 H3 L ⟨f (nth e0.1 E.m) * e0.2, 0, e0.1, e0.1⟩ hLP (fun e he => hPl e (hLP e he)) (hPl e0 he0p) hs4
      (fun x hx => hmono x hx E.m) he0n (by rw [← hkt]; exact hle0 E.m)
      (by rw [hgP e0.1 he0ge, if_pos rfl])
      (by
        intro h
        rcases List.mem_cons.1 hekL with rfl | h'
        · exact absurd hkt h
        · exact ⟨ek, h', hkt⟩)
      (by
        intro e he hne
        rw [hgP e.1 (by
          have := hmono e he E.n
          rwa [he0n] at this), if_neg (fun h => hne h.symm), Nat.zero_add])
    simp only [h2, res_low hnm (by omega) h1]
    congr 2
    rw [hgrp id hid, hi2, Nat.sub_eq_iff_eq_add' ?_, ← S_add]
    · refine S_congr fun a ha => ?_
      obtain ⟨d, L, hd⟩ := exists_diffB (G.len a ha) hidl
      simp only [hd.lt E.m hm.le, hd.eq E.m hm.le, hd.eq E.n hn, hd.lt E.N le_rfl, hf]
      cases L <;> simp only [Bool.false_eq_true, and_true, and_false, if_true, if_false] <;> (try split_ifs) <;> omega
    · refine S_le fun a ha => ?_
      obtain ⟨d, L, hd⟩ := exists_diffB (G.len a ha) hidl
      simp only [hd.lt E.m hm.le, hd.eq E.m hm.le, hd.eq E.n hn, hd.lt E.N le_rfl, hf]
      cases L <;> simp only [Bool.false_eq_true, and_true, and_false, if_true, if_false] <;> (try split_ifs) <;> omega

theorem unrankLow_spec {E : Ext} {A : List Key} (G : Good E A) {id : Key} (hid : id ∈ A) {s : Nat} (hs : s < E.rg (nth id E.m))
    (hnm : E.n ≤ E.m) (hsz : E.size < 2 ^ 31) :
    unrankLow E (S A fun a => if a.take E.n = id.take E.n then pre E.n E.rg E.m id s a else 0) (zeroFrom E.n id) = some (insertAt E.n id s) := by
  have hidl := G.len id hid
  have hn := G.hn
  have hm := G.hm
  -- the inserted value
  obtain ⟨vs, hvs, hvm, hbeta⟩ := betaSz_spec G (id := id) hnm
  set Q : Nat → Nat := fun v => S A fun a => if a.take E.n = id.take E.n then min (E.rg (nth a E.m)) v else 0 with hQ
  set i2 := S A fun a => if a.take E.n = id.take E.n ∧ lexLt (a.take E.N) (id.take E.N) = true then (if s < E.rg (nth a E.m) then 1 else 0) else 0 with hi2
  have e1 : (S A fun a => if a.take E.n = id.take E.n then pre E.n E.rg E.m id s a else 0) = Q s + i2 := by
    rw [hQ, hi2, ← S_add]
    refine S_congr fun a ha => ?_
    obtain ⟨d, L, hd⟩ := exists_diffB (G.len a ha) hidl
    rw [pre, count_one hn (G.len a ha) hidl hd]
    simp only [hd.eq E.n hn, hd.lt E.N le_rfl]
    cases L <;> simp only [Bool.false_eq_true, and_true, and_false, if_true, if_false] <;> (try split_ifs) <;> omega
  set Cn := S A fun a => if a.take E.n = id.take E.n ∧ s < E.rg (nth a E.m) then 1 else 0 with hCn
  have hQ1 : Q (s + 1) = Q s + Cn := by
    rw [hQ, hCn]
    simp only
    rw [← S_add]
    refine S_congr fun a _ => ?_
    by_cases h : a.take E.n = id.take E.n
    · simp only [h, true_and, if_true]; split <;> omega
    · simp [h]
  have hi2C : i2 < Cn := by
    refine S_lt hid (fun a _ => ?_) ?_
    · by_cases h : a.take E.n = id.take E.n
      · simp only [h, true_and, if_true]; split_ifs <;> omega
      · simp [h]
    · simp [lexLt_irrefl, hs]
  have hb : betaFind (vs.map fun v => (v, Q v)) (Q s + i2) = some (s, i2) := by
    have := betaFind_spec hvs (Q := Q) (s := s) (i := Q s + i2) (Cn := Cn)
      (fun u v huv => S_le fun a _ => by split <;> omega) (by simp [hQ, S_zero]) (by omega) (by omega)
      ⟨_, (hvm _).2 ⟨id, hid, rfl, rfl⟩, hs⟩ ?_ ?_
    · rwa [Nat.add_sub_cancel_left] at this
    · intro u hu hus
      rw [hQ, hCn]
      simp only
      rw [← S_mul, ← S_add]
      refine S_congr fun a ha => ?_
      by_cases h : a.take E.n = id.take E.n
      · have := hu _ ((hvm _).2 ⟨a, ha, h, rfl⟩)
        simp only [h, true_and, if_true]
        split <;> omega
      · simp [h]
    · intro u hu hus
      rw [hQ, hCn]
      simp only
      rw [← S_mul, ← S_add]
      refine S_congr fun a ha => ?_
      by_cases h : a.take E.n = id.take E.n
      · have := hu _ ((hvm _).2 ⟨a, ha, h, rfl⟩)
        simp only [h, true_and, if_true]
        split <;> omega
      · simp [h]
  have hqr := G.qr_mem hnm id hid
  have hhead : ((lbKey E.qr (zeroFrom E.n id)).head?.bind fun e => betaFind e.2 (Q s + i2)) = some (s, i2) := by
    obtain ⟨M1, M2, hM⟩ := List.append_of_mem hqr
    have hsrt := G.qr_sorted hnm
    rw [hM] at hsrt
    rw [hM, lbKey_split hsrt (lexLt_irrefl _), List.filter_eq_nil_iff.2, List.nil_append, List.head?_cons, Option.bind_some, hbeta, hb]
    intro y hy
    have := (List.pairwise_append.1 hsrt).2.2 y hy _ (List.mem_cons_self)
    simp [this]
  have hp := pFind_spec G hid hs hnm
  rw [← hi2] at hp
  set f : Nat → Nat := fun v => if s < E.rg v then 1 else 0 with hf
  set i3 := S A fun a => if a.take E.m = id.take E.m ∧ lexLt (a.take E.N) (id.take E.N) = true then (if s < E.rg (nth a E.m) then 1 else 0) else 0 with hi3
  -- the entry `m`
  set rn := S A fun a => if a.take E.m = id.take E.m ∧ nth a E.m < nth id E.m then f (nth a E.m) else 0 with hrn
  set i4 := S A fun a => if a.take (E.m + 1) = id.take (E.m + 1) ∧ lexLt (a.take E.N) (id.take E.N) = true then 1 else 0 with hi4
  set T1 := S A fun a => if a.take (E.m + 1) = id.take (E.m + 1) then 1 else 0 with hT1
  have hfid : f (nth id E.m) = 1 := by simp [hf, hs]
  have hR : ∀ a : Key, ∀ d : Nat, ∀ L : Bool, Diff E.N a id d (L = true) → E.m < d → E.rg (nth a E.m) = E.rg (nth id E.m) :=
    fun a d L hd h => by rw [hd.nth_eq _ h]
  have e3 : i3 = rn + i4 := by
    rw [hi3, hrn, hi4, ← S_add]
    refine S_congr fun a ha => ?_
    obtain ⟨d, L, hd⟩ := exists_diffB (G.len a ha) hidl
    simp only [hd.eq E.m hm.le, hd.eq (E.m + 1) hm, hd.lt E.N le_rfl, nth_lt_iff hm hd, hf]
    rcases Nat.lt_or_ge E.m d with h | h
    · rw [hR a d L hd h]
      cases L <;> simp only [Bool.false_eq_true, and_true, and_false, if_true, if_false] <;> (try split_ifs) <;> omega
    · cases L <;> simp only [Bool.false_eq_true, and_true, and_false, if_true, if_false] <;> (try split_ifs) <;> omega
  have hi4T : i4 < T1 := by
    refine S_lt hid (fun a _ => ?_) ?_
    · by_cases h : a.take (E.m + 1) = id.take (E.m + 1)
      · simp only [h, true_and, if_true]; split_ifs <;> omega
      · simp [h]
    · simp [lexLt_irrefl]
  have hbound : rn + T1 < 2 ^ 31 := by
    refine lt_of_le_of_lt ?_ hsz
    rw [G.size, hrn, hT1, ← S_add]
    refine S_le fun a ha => ?_
    obtain ⟨d, L, hd⟩ := exists_diffB (G.len a ha) hidl
    simp only [hd.eq E.m hm.le, hd.eq (E.m + 1) hm, nth_lt_iff hm hd, hf]
    rcases Nat.lt_or_ge E.m d with h | h
    · rw [hR a d L hd h]
      cases L <;> simp only [Bool.false_eq_true, and_true, and_false, if_true, if_false] <;> (try split_ifs) <;> omega
    · cases L <;> simp only [Bool.false_eq_true, and_true, and_false, if_true, if_false] <;> (try split_ifs) <;> omega
  have hscan := scanR_r hm G.len G.r hid f (rn + i4) (by omega) (by rw [hfid, ← hT1]; omega) (by rw [hfid, ← hT1]; omega)
  rw [← hrn, Nat.add_sub_cancel_left] at hscan
  have hlen : C A (E.m + 1) id ≤ A.length := by
    have := C_eq G.len hidl (E.m + 1)
    rw [← this]; exact List.countP_le_length
  have hit : lbOrd A 0 A.length (zeroFrom (E.m + 1) id) = C A (E.m + 1) id := by
    rw [lbOrd_eq G.sorted (by omega) le_rfl, C_eq G.len hidl]; omega
  have hpos : A[C A (E.m + 1) id + i4]? = some id := by
    have h1 := C_split G.len hidl (j := E.m + 1) (k := E.N) hm le_rfl
    rw [← hi4] at h1
    rw [← h1]; exact ord_at G.sorted G.len hid
  unfold unrankLow
  rw [e1, hhead]
  simp only [Option.bind_some]
  rw [← hf, hp, e3]
  simp only [Option.bind_some, hscan, G.ord, hit, hpos, Option.map_some, take_zeroFrom id (le_refl (E.m + 1)), List.take_append_drop]
  by_cases h : E.m + 1 < E.N
  · rw [if_pos h]; rfl
  · rw [if_neg h]
    have : zeroFrom (E.m + 1) id = id := by
      rw [show E.m + 1 = id.length by omega, zeroFrom_full]
    rw [this]; rfl

/-- `begin(i)` at the number of an array. -/
theorem unrank_value {E : Ext} {A : List Key} (G : Good E A) (hsz : E.size < 2 ^ 31) {id : Key} (hid : id ∈ A) {s : Nat}
    (hs : s < E.rg (nth id E.m)) :
    number E.n E.m E.rg A (insertAt E.n id s) < E.size ∧
    unrank E (number E.n E.m E.rg A (insertAt E.n id s)) = some (insertAt E.n id s) := by
  have hlt : number E.n E.m E.rg A (insertAt E.n id s) < E.size := by
    rw [number_eq_S, G.size]
    refine S_lt (f := pre E.n E.rg E.m id s) hid (fun b hb => ?_) ?_
    · refine le_trans List.countP_le_length ?_
      simp
    · rw [pre_self G.hn (G.len id hid) hs]; exact hs
  refine ⟨hlt, ?_⟩
  unfold unrank
  rw [if_pos hlt, wFind_spec G hid hs, Option.bind_some]
  by_cases h : E.m < E.n
  · rw [if_pos h, Nat.min_eq_right h.le]
    exact unrankHigh_spec G hid hs h hsz
  · rw [if_neg h, Nat.min_eq_left (by omega)]
    exact unrankLow_spec G hid hs (by omega) hsz

end Verif.ExtEnum
