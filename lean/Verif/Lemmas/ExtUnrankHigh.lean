import Verif.Lemmas.ExtUnrank

/-! `begin(i)` when the value is inserted after the entry it depends on. -/
set_option linter.unusedSimpArgs false
namespace Verif.ExtEnum
open Verif.Spec.ExtEnum

theorem nth_lt_iff {N m d : Nat} {L : Bool} {a id : Key} (hm : m < N) (hd : Diff N a id d (L = true)) :
    m ≤ d ∧ nth a m < nth id m ↔ d = m ∧ L = true := by
  constructor
  · rintro ⟨h1, h2⟩
    rcases Nat.lt_or_ge m d with h | h
    · have := hd.nth_eq m h; omega
    · obtain rfl : m = d := by omega
      exact ⟨rfl, (hd.nth_lt (by omega)).1 h2⟩
  · rintro ⟨rfl, h2⟩
    exact ⟨le_rfl, (hd.nth_lt (by omega)).2 h2⟩

theorem res_high {n m : Nat} {id : Key} (hnm : m < n) (hn : n ≤ id.length) :
    (zeroFrom (m + 1) id).take (m + 1) ++ ((zeroFrom n id).take n).drop (m + 1) ++ (zeroFrom (m + 1) id).drop n = zeroFrom n id := by
  rw [take_zeroFrom _ le_rfl, take_zeroFrom _ le_rfl]
  have h1 : id.take (m + 1) ++ (id.take n).drop (m + 1) = id.take n := by
    have := List.take_append_drop (m + 1) (id.take n)
    rwa [List.take_take, Nat.min_eq_left (by omega)] at this
  rw [h1, zeroFrom, zeroFrom, List.drop_append]
  congr 1
  rw [List.drop_eq_nil_of_le (by simp; omega), List.nil_append, List.drop_replicate]
  congr 1
  simp; omega

theorem unrankHigh_spec {E : Ext} {A : List Key} (G : Good E A) {id : Key} (hid : id ∈ A) {s : Nat} (hs : s < E.rg (nth id E.m))
    (hnm : E.m < E.n) (hsz : E.size < 2 ^ 31) :
    unrankHigh E (S A fun a => if a.take E.m = id.take E.m then pre E.n E.rg E.m id s a else 0) (zeroFrom E.m id) = some (insertAt E.n id s) := by
  have hidl := G.len id hid
  have hn := G.hn
  have hm := G.hm
  have hR : ∀ a : Key, ∀ d : Nat, ∀ L : Bool, Diff E.N a id d (L = true) → E.m < d → E.rg (nth a E.m) = E.rg (nth id E.m) :=
    fun a d L hd h => by rw [hd.nth_eq _ h]
  set R := E.rg (nth id E.m) with hRd
  -- the sums
  set rn := S A fun a => if a.take E.m = id.take E.m ∧ nth a E.m < nth id E.m then E.rg (nth a E.m) else 0 with hrn
  set i2 := S A fun a => if a.take (E.m + 1) = id.take (E.m + 1) then pre E.n E.rg E.m id s a else 0 with hi2
  set T1 := S A fun a => if a.take (E.m + 1) = id.take (E.m + 1) then 1 else 0 with hT1
  set T := S A fun a => if a.take E.n = id.take E.n then 1 else 0 with hT
  set kn := S A fun a => if a.take E.n = id.take E.n ∧ lexLt (a.take E.N) (id.take E.N) = true then 1 else 0 with hkn
  have e1 : (S A fun a => if a.take E.m = id.take E.m then pre E.n E.rg E.m id s a else 0) = rn + i2 := by
    rw [hrn, hi2, ← S_add]
    refine S_congr fun a ha => ?_
    obtain ⟨d, L, hd⟩ := exists_diffB (G.len a ha) hidl
    rw [pre, count_one hn (G.len a ha) hidl hd]
    simp only [hd.eq E.m hm.le, hd.eq (E.m + 1) hm, nth_lt_iff hm hd]
    cases L <;> simp only [Bool.false_eq_true, and_true, and_false, if_true, if_false] <;> split_ifs <;> omega
  have hi2lt : i2 < R * T1 := by
    rw [hi2, hT1, ← S_mul]
    refine S_lt hid (fun a ha => ?_) ?_
    · obtain ⟨d, L, hd⟩ := exists_diffB (G.len a ha) hidl
      rw [pre, count_one hn (G.len a ha) hidl hd]
      simp only [hd.eq (E.m + 1) hm]
      rcases Nat.lt_or_ge E.m d with h | h
      · rw [hR a d L hd h]
        cases L <;> simp only [Bool.false_eq_true, and_true, and_false, if_true, if_false] <;> split_ifs <;> omega
      · rw [if_neg (by omega), if_neg (by omega)]; omega
    · simp only [pre_self hn hidl hs, if_true, Nat.mul_one]; exact hs
  have hbound : rn + R * T1 < 2 ^ 31 := by
    refine lt_of_le_of_lt ?_ hsz
    rw [G.size, hrn, hT1, ← S_mul, ← S_add]
    refine S_le fun a ha => ?_
    obtain ⟨d, L, hd⟩ := exists_diffB (G.len a ha) hidl
    simp only [hd.eq E.m hm.le, hd.eq (E.m + 1) hm, nth_lt_iff hm hd]
    rcases Nat.lt_or_ge E.m d with h | h
    · rw [hR a d L hd h]
      cases L <;> simp only [Bool.false_eq_true, and_true, and_false, if_true, if_false] <;> split_ifs <;> omega
    · cases L <;> simp only [Bool.false_eq_true, and_true, and_false, if_true, if_false] <;> split_ifs <;> omega
  have hscan := scanR_r hm G.len G.r hid E.rg (rn + i2) (by omega) (by rw [← hRd, ← hT1]; omega) (by rw [← hRd, ← hT1]; exact hbound)
  rw [← hrn, Nat.add_sub_cancel_left] at hscan
  -- the block of the first `m + 1` entries
  have hlen : C A (E.m + 1) id + T1 ≤ A.length := by
    have := C_incr G.len hidl (k := E.m + 1) (by omega) hm
    rw [← hT1] at this
    rw [← this]; exact List.countP_le_length
  have hT1pos : 1 ≤ T1 := one_le_S hid (by simp)
  have hTpos : 1 ≤ T := one_le_S hid (by simp)
  have hit : lbOrd A 0 A.length (zeroFrom (E.m + 1) id) = C A (E.m + 1) id := by
    rw [lbOrd_eq G.sorted (by omega) le_rfl, C_eq G.len hidl]; omega
  have hjt : lbOrd A (C A (E.m + 1) id + 1) A.length (incr (zeroFrom (E.m + 1) id) E.m) = C A (E.m + 1) id + T1 := by
    have h1 := C_incr G.len hidl (k := E.m + 1) (by omega) hm
    rw [Nat.add_sub_cancel, ← hT1] at h1
    rw [lbOrd_eq G.sorted (by omega) le_rfl, h1]; omega
  -- the block of the first `n` entries
  have hi2eq : i2 = R * (C A E.n id - C A (E.m + 1) id) + (s * T + kn) := by
    have h1 := C_split G.len hidl (j := E.m + 1) (k := E.n) (by omega) hn
    rw [h1, Nat.add_sub_cancel_left, ← S_mul, hT, ← S_mul, hkn, ← S_add, ← S_add]
    refine S_congr fun a ha => ?_
    obtain ⟨d, L, hd⟩ := exists_diffB (G.len a ha) hidl
    rw [pre, count_one hn (G.len a ha) hidl hd]
    simp only [hd.eq (E.m + 1) hm, hd.eq E.n hn, hd.lt E.n hn, hd.lt E.N le_rfl]
    have hdN := hd.le
    rcases Nat.lt_or_ge E.m d with h | h
    · rw [hR a d L hd h]
      cases L <;> simp only [Bool.false_eq_true, and_true, and_false, if_true, if_false, mul_ite, mul_one, mul_zero] <;> split_ifs <;> omega
    · cases L <;> simp only [Bool.false_eq_true, and_true, and_false, if_true, if_false, mul_ite, mul_one, mul_zero] <;> split_ifs <;> omega
  have hknT : kn < T := by
    refine S_lt hid (fun a _ => ?_) ?_
    · by_cases h : a.take E.n = id.take E.n
      · simp only [h, true_and, if_true]; split <;> omega
      · simp [h]
    · simp [lexLt_irrefl]
  have hRpos : 0 < R := by omega
  have hCn1 : C A (E.m + 1) id ≤ C A E.n id := C_mono G.len hidl (by omega) hn
  have hCnT : C A E.n id + T ≤ C A (E.m + 1) id + T1 := by
    have h1 := C_split G.len hidl (j := E.m + 1) (k := E.n) (by omega) hn
    rw [h1, Nat.add_assoc]
    refine Nat.add_le_add_left ?_ _
    rw [hT, hT1, ← S_add]
    refine S_le fun a ha => ?_
    obtain ⟨d, L, hd⟩ := exists_diffB (G.len a ha) hidl
    simp only [hd.eq (E.m + 1) hm, hd.eq E.n hn, hd.lt E.n hn]
    cases L <;> simp only [Bool.false_eq_true, and_true, and_false, if_true, if_false] <;> split_ifs <;> omega
  have hpos : A[C A E.n id + kn]? = some id := by
    have h1 := C_split G.len hidl (j := E.n) (k := E.N) hn le_rfl
    rw [← hkn] at h1
    rw [← h1]; exact ord_at G.sorted G.len hid
  have hblk : highBlock E ⟨i2, zeroFrom (E.m + 1) id, C A (E.m + 1) id, C A (E.m + 1) id + T1⟩ =
      some ⟨s * T + kn, zeroFrom E.n id, C A E.n id, C A E.n id + T⟩ := by
    unfold highBlock
    by_cases h : E.m + 1 < E.n
    · rw [if_pos h]
      obtain ⟨x, _, hx, hxt⟩ := at_block G.sorted G.len (k := E.m + 1) (j := C A (E.m + 1) id) hid le_rfl (by rw [← hT1]; omega)
      have hxR : E.rg (nth x E.m) = R := by rw [nth_of_take_eq hxt (by omega)]
      rw [G.ord]
      simp only [hx, Option.bind_some, hxR]
      rw [if_neg (by omega)]
      have hq1 : C A E.n id - C A (E.m + 1) id ≤ i2 / R := by
        rw [Nat.le_div_iff_mul_le hRpos, Nat.mul_comm]; omega
      have hq2 : i2 / R < C A E.n id - C A (E.m + 1) id + T := by
        rw [Nat.div_lt_iff_lt_mul hRpos, Nat.add_mul, Nat.mul_comm _ R]
        have h1 : (s + 1) * T ≤ R * T := Nat.mul_le_mul_right _ hs
        rw [Nat.add_mul, Nat.one_mul] at h1
        have h2 : T * R = R * T := Nat.mul_comm _ _
        omega
      obtain ⟨y, hyA, hy, hyt⟩ := at_block G.sorted G.len (k := E.n) (j := C A (E.m + 1) id + i2 / R) hid (by omega) (by rw [← hT]; omega)
      have hyz : zeroFrom E.n y = zeroFrom E.n id := zeroFrom_congr (by rw [G.len y hyA, hidl]) hyt
      rw [hy]
      simp only [Option.map_some, hyz, res_high (id := id) hnm (by rw [hidl]; exact hn)]
      have hyl : C A (E.m + 1) id + i2 / R < A.length := (List.getElem?_eq_some_iff.1 hy).1
      have hpit : lbOrd A (C A (E.m + 1) id) (C A (E.m + 1) id + i2 / R) (zeroFrom E.n id) = C A E.n id := by
        rw [lbOrd_eq G.sorted (by omega) (by omega), C_eq G.len hidl]; omega
      have hjt' : lbOrd A (C A E.n id + 1) (C A (E.m + 1) id + T1) (incr (zeroFrom E.n id) (E.n - 1)) = C A E.n id + T := by
        have h1 := C_incr G.len hidl (k := E.n) (by omega) hn
        rw [← hT] at h1
        rw [lbOrd_eq G.sorted (by omega) hlen, h1]; omega
      rw [hpit, hjt']
      congr 2
      omega
    · rw [if_neg h]
      have hmn : E.m + 1 = E.n := by omega
      have hTT : T1 = T := by rw [hT1, hT, hmn]
      rw [hmn, Nat.sub_self, Nat.mul_zero, Nat.zero_add] at hi2eq
      rw [hi2eq, hmn, hTT]
  unfold unrankHigh
  rw [e1, G.ord]
  simp only [hscan, hit, hjt, hblk, Option.bind_some, Nat.add_sub_cancel_left]
  rw [if_neg (by omega), Nat.mul_comm s T, Nat.mul_add_mod, Nat.mod_eq_of_lt hknT, hpos, Nat.mul_add_div (by omega), Nat.div_eq_of_lt hknT]
  simp only [Option.map_some, Nat.add_zero, take_zeroFrom id (le_refl E.n)]
  rfl

end Verif.ExtEnum
