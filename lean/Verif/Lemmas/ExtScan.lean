import Verif.Lemmas.ExtRank

/-! The searches of `begin(i)`. -/
namespace Verif.ExtEnum
open Verif.Spec.ExtEnum

theorem S_lt {A : List Key} {f g : Key → Nat} {a : Key} (ha : a ∈ A) (h : ∀ b ∈ A, f b ≤ g b) (hlt : f a < g a) : S A f < S A g := by
  unfold S; exact List.sum_lt_sum _ _ h ⟨a, ha, hlt⟩

theorem int32_small {x : Nat} (h : x < 2 ^ 31) : int32 x = x := by
  unfold int32
  rw [Nat.mod_eq_of_lt (by omega), if_pos h]

theorem scanR_spec {m : Nat} {res : Key} {f : Nat → Nat} (l1 : KMap) (e0 : Key × Nat) (l2 : KMap) (i sum : Nat) (cur : Key)
    (h1 : ∀ e ∈ l1, same m e.1 res = true) (h0 : same m e0.1 res = true)
    (hle : sum + (l1.map fun e => f (nth e.1 m) * e.2).sum ≤ i)
    (hlt : i < sum + (l1.map fun e => f (nth e.1 m) * e.2).sum + f (nth e0.1 m) * e0.2)
    (hb : sum + (l1.map fun e => f (nth e.1 m) * e.2).sum + f (nth e0.1 m) * e0.2 < 2 ^ 31) :
    scanR m res f (l1 ++ e0 :: l2) i sum cur = (i - (sum + (l1.map fun e => f (nth e.1 m) * e.2).sum), cur.set m (nth e0.1 m)) := by
  induction l1 generalizing sum cur with
  | nil =>
    simp only [List.map_nil, List.sum_nil, Nat.add_zero] at *
    rw [List.nil_append, scanR, if_pos h0, Nat.mod_eq_of_lt (by omega), if_pos hlt]
    congr 1
    omega
  | cons e l1 ih =>
    simp only [List.map_cons, List.sum_cons] at *
    rw [List.cons_append, scanR, if_pos (h1 e (by simp)), Nat.mod_eq_of_lt (by omega), if_neg (by omega), int32_small (by omega),
      ih _ _ (fun x hx => h1 x (by simp [hx])) (by omega) (by omega) (by omega), List.set_set, Nat.add_assoc]

/-- The search along `m_r`. -/
theorem scanR_r {N m : Nat} {A : List Key} {r : KMap} (hm : m < N) (hl : ∀ a ∈ A, a.length = N) (hr : Collects A (zeroFrom (m + 1)) r)
    {id : Key} (hid : id ∈ A) (F : Nat → Nat) (i : Nat)
    (hle : (S A fun a => if a.take m = id.take m ∧ nth a m < nth id m then F (nth a m) else 0) ≤ i)
    (hlt : i < (S A fun a => if a.take m = id.take m ∧ nth a m < nth id m then F (nth a m) else 0) +
      F (nth id m) * S A fun a => if a.take (m + 1) = id.take (m + 1) then 1 else 0)
    (hb : (S A fun a => if a.take m = id.take m ∧ nth a m < nth id m then F (nth a m) else 0) +
      (F (nth id m) * S A fun a => if a.take (m + 1) = id.take (m + 1) then 1 else 0) < 2 ^ 31) :
    scanR m (zeroFrom m id) F (lbKey r (zeroFrom m id)) i 0 (zeroFrom m id) =
      (i - S A fun a => if a.take m = id.take m ∧ nth a m < nth id m then F (nth a m) else 0, zeroFrom (m + 1) id) := by
  have hidl := hl id hid
  have hEl : ∀ e ∈ r, e.1.length = N := by
    intro e he
    obtain ⟨a, ha, hea⟩ := hr.mem he
    rw [hea, zeroFrom_length, hl a ha]
  obtain ⟨e0, he0, hk0⟩ := List.mem_map.1 ((hr.keys _).2 ⟨id, hid, rfl⟩)
  have hv0 : e0.2 = S A fun a => if a.take (m + 1) = id.take (m + 1) then 1 else 0 := by
    rw [← tot_single hr.sorted he0]
    refine hr.tot' _ _ fun a ha => ?_
    rw [hk0]
    have : zeroFrom (m + 1) a = zeroFrom (m + 1) id ↔ a.take (m + 1) = id.take (m + 1) := by
      constructor
      · intro h
        have := congrArg (List.take (m + 1)) h
        rwa [take_zeroFrom _ le_rfl, take_zeroFrom _ le_rfl] at this
      · exact zeroFrom_congr (by rw [hl a ha, hidl])
    simp only [this]
  have hn0 : nth e0.1 m = nth id m := by rw [hk0, nth_zeroFrom, if_pos (by omega)]
  have ht0 : e0.1.take m = id.take m := by rw [hk0, take_zeroFrom id (by omega)]
  obtain ⟨M1, M2, hM⟩ := List.append_of_mem he0
  have hsrt := hr.sorted
  rw [hM] at hsrt
  have hlb : lbKey r (zeroFrom m id) = (M1.filter fun x => !lexLt x.1 (zeroFrom m id)) ++ e0 :: M2 := by
    rw [hM, lbKey_split hsrt]
    rw [hk0, lexLt_zeroFrom (by rw [zeroFrom_length]), take_zeroFrom id (by omega), lexLt_irrefl]
  set l1 := M1.filter fun x => !lexLt x.1 (zeroFrom m id) with hl1
  have hq1 : ∀ e ∈ l1, same m e.1 id = true ∧ nth e.1 m < nth id m := by
    intro e he
    obtain ⟨heM, hz⟩ := List.mem_filter.1 he
    have her : e ∈ r := by rw [hM]; simp [heM]
    have hel := hEl e her
    have hlt0 := (List.pairwise_append.1 hsrt).2.2 e heM e0 (by simp)
    have hge : lexLt (e.1.take m) (id.take m) = false := by
      rw [← lexLt_zeroFrom (by rw [hel, hidl])]; simpa using hz
    have hle' := take_mono' (by rw [hel, hEl e0 he0]) m hlt0
    rw [ht0] at hle'
    have heq := le_antisymm' hge hle'
    refine ⟨by simp [same, heq], ?_⟩
    obtain ⟨d, L, hd⟩ := exists_diffB hel (hEl e0 he0)
    have h1 := (hd.lt N le_rfl)
    rw [List.take_of_length_le hel.le, List.take_of_length_le (hEl e0 he0).le] at h1
    obtain ⟨h2, h3⟩ := h1.1 hlt0
    have h4 : m ≤ d := (hd.eq m hm.le).1 (by rw [heq, ht0])
    have h5 : d = m := by
      by_contra hne
      obtain ⟨a, ha, hea⟩ := hr.mem her
      have h6 := hd.nth_ne h2
      rw [hea, hk0, nth_zeroFrom, nth_zeroFrom, if_neg (by omega), if_neg (by omega)] at h6
      exact h6 rfl
    subst h5
    rw [← hn0]
    exact (hd.nth_lt h2).2 h3
  have hflt : l1 = r.filter fun e => same m e.1 id && decide (nth e.1 m < nth id m) := by
    have h1 := scan_prefix_lt (v := nth id m) (z' := id) hr.sorted hEl hidl rfl hm
    rw [hlb] at h1
    rw [← h1, List.takeWhile_append_of_pos (by
      intro e he
      obtain ⟨h2, h3⟩ := hq1 e he
      simp [h2, h3]), List.takeWhile_cons_of_neg (by simp [hn0])]
    simp
  have hsum : (l1.map fun e => F (nth e.1 m) * e.2).sum = S A fun a => if a.take m = id.take m ∧ nth a m < nth id m then F (nth a m) else 0 := by
    rw [hflt, tot_filter (fun k => F (nth k m))]
    refine hr.tot' (fun k => if (same m k id && decide (nth k m < nth id m)) = true then F (nth k m) else 0) _ fun a ha => ?_
    simp only [same, take_zeroFrom a (Nat.le_succ m), nth_zeroFrom, Nat.lt_succ_self, if_true, Bool.and_eq_true, decide_eq_true_eq]
  have hs : ∀ e : Key × Nat, same m e.1 (zeroFrom m id) = same m e.1 id := fun e => by simp [same, take_zeroFrom id le_rfl]
  rw [hlb, scanR_spec l1 e0 M2 i 0 _ (fun e he => by rw [hs]; exact (hq1 e he).1) (by rw [hs]; simp [same, ht0])
    (by rw [hsum]; omega) (by rw [hsum, hn0, hv0]; omega) (by rw [hsum, hn0, hv0]; omega), hsum, Nat.zero_add, hn0]
  congr 1
  have := shp_top id (m := m) (by omega)
  rwa [shp] at this

/-! ### The search along `m_p` -/

/-- The sum over a group. -/
def grp (m : Nat) (f : Nat → Nat) (M : KMap) (x : Key) : Nat := tot (fun k => if k.take m = x.take m then f (nth k m) else 0) M

theorem grp_cons (m : Nat) (f : Nat → Nat) (e : Key × Nat) (M : KMap) (x : Key) :
    grp m f (e :: M) x = (if e.1.take m = x.take m then f (nth e.1 m) * e.2 else 0) + grp m f M x := by
  unfold grp; rw [tot_cons]; congr 1; split <;> simp

theorem grp_congr {m : Nat} {f : Nat → Nat} {M : KMap} {x y : Key} (h : x.take m = y.take m) : grp m f M x = grp m f M y := by
  unfold grp; rw [h]

theorem grp_zero {m : Nat} {f : Nat → Nat} {M : KMap} {x : Key} (h : ∀ e ∈ M, e.1.take m ≠ x.take m) : grp m f M x = 0 :=
  tot_ite_false h

theorem take_of_take {n m : Nat} (h : n ≤ m) {a b : Key} (hab : a.take m = b.take m) : a.take n = b.take n := by
  have := congrArg (List.take n) hab
  rwa [List.take_take, List.take_take, Nat.min_eq_left h] at this

theorem scanP_B {n m N : Nat} (hnm : n ≤ m) {f : Nat → Nat} {i : Nat} {id : Key} {T : Nat} (L : KMap) (s : Scan)
    (hl : ∀ e ∈ L, e.1.length = N) (hp : s.pid.length = N) (hs : MSorted L) (hge : ∀ e ∈ L, lexLt (e.1.take m) (s.pid.take m) = false)
    (h1 : s.prev.take m = id.take m) (h2 : s.prevSum = T) (h3 : i < s.sum + grp m f L s.pid) (h4 : s.sum ≤ i) :
    (scanP n m f i L s).1.take m = id.take m ∧ (scanP n m f i L s).2 = T := by
  induction L generalizing s with
  | nil => simp [grp] at h3; omega
  | cons e L ih =>
    obtain ⟨hs1, hs2⟩ := List.pairwise_cons.1 hs
    by_cases hem : e.1.take m = s.pid.take m
    · rw [grp_cons, if_pos hem] at h3
      unfold scanP
      rw [if_pos (by simp [same, take_of_take hnm hem])]
      simp only [same, hem, decide_true, if_true]
      split
      · exact ⟨h1, h2⟩
      · rename_i h5
        exact ih { s with sum := s.sum + f (nth e.1 m) * e.2 } (fun x hx => hl x (by simp [hx])) hp hs2 (fun x hx => hge x (by simp [hx]))
          h1 h2 (by dsimp only; omega) (by show s.sum + _ ≤ i; omega)
    · exfalso
      have : grp m f (e :: L) s.pid = 0 := by
        refine grp_zero fun x hx hxe => ?_
        rcases List.mem_cons.1 hx with rfl | hx'
        · exact hem hxe
        · have h5 := take_mono' (by rw [hl e (by simp), hl x (by simp [hx'])]) m (hs1 x hx')
          rw [hxe] at h5
          exact hem (le_antisymm' (hge e (by simp)) h5)
      omega

theorem scanP_A {n m N : Nat} (hnm : n ≤ m) {f : Nat → Nat} {i : Nat} {id : Key} {P : KMap}
    (H2 : ∀ e ∈ P, e.1.take n = id.take n → lexLt (id.take m) (e.1.take m) = true → i < grp m f P e.1)
    (H3 : ∀ e ∈ P, e.1.take n = id.take n → lexLt (id.take m) (e.1.take m) = false → grp m f P e.1 ≤ i)
    (L : KMap) (s : Scan) (hLP : ∀ e ∈ L, e ∈ P)
    (hl : ∀ e ∈ L, e.1.length = N) (hp : s.pid.length = N) (hs : MSorted L) (hge : ∀ e ∈ L, lexLt (e.1.take m) (s.pid.take m) = false)
    (ha : s.pid.take n = id.take n) (hb : lexLt (id.take m) (s.pid.take m) = false)
    (hc : s.sum + grp m f L s.pid = grp m f P s.pid)
    (hd : s.pid.take m ≠ id.take m → ∃ e ∈ L, e.1.take m = id.take m)
    (hf : ∀ e ∈ L, e.1.take m ≠ s.pid.take m → grp m f L e.1 = grp m f P e.1) :
    (scanP n m f i L s).1.take m = id.take m ∧ (scanP n m f i L s).2 = grp m f P id := by
  induction L generalizing s with
  | nil =>
    have h1 : s.pid.take m = id.take m := by
      by_contra h
      obtain ⟨e, he, _⟩ := hd h
      simp at he
    simp only [scanP]
    refine ⟨h1, ?_⟩
    simp only [grp, tot_nil, Nat.add_zero] at hc
    rw [hc, h1]; rfl
  | cons e L ih =>
    obtain ⟨hs1, hs2⟩ := List.pairwise_cons.1 hs
    have hel := hl e (by simp)
    have hll : ∀ x ∈ L, x.1.length = N := fun x hx => hl x (by simp [hx])
    have hmono : ∀ x ∈ L, lexLt (x.1.take m) (e.1.take m) = false := fun x hx =>
      take_mono' (by rw [hel, hll x hx]) m (hs1 x hx)
    by_cases hen : e.1.take n = s.pid.take n
    · by_cases hem : s.pid.take m = e.1.take m
      · -- the same group
        rw [grp_cons, if_pos hem.symm] at hc
        have hle : grp m f P s.pid ≤ i := by
          rw [grp_congr hem]
          refine H3 e (hLP e (by simp)) (hen.trans ha) ?_
          rw [← hem]; exact hb
        unfold scanP
        rw [if_pos (by simp [same, hen])]
        simp only [same, hem, decide_true, if_true]
        rw [if_neg (by omega)]
        refine ih { s with sum := s.sum + f (nth e.1 m) * e.2 } (fun x hx => hLP x (by simp [hx])) hll hp hs2 (fun x hx => hge x (by simp [hx])) ha hb ?_ ?_ ?_
        · dsimp only; omega
        · intro h
          obtain ⟨x, hx, hxe⟩ := hd h
          rcases List.mem_cons.1 hx with rfl | hx
          · exact absurd (hem.trans hxe) h
          · exact ⟨x, hx, hxe⟩
        · intro x hx hne
          have h1 := hf x (by simp [hx]) hne
          rwa [grp_cons, if_neg (by rw [← hem]; exact fun h => hne h.symm), Nat.zero_add] at h1
      · -- a new group
        have hrest : grp m f (e :: L) s.pid = 0 := by
          refine grp_zero fun x hx hxe => ?_
          rcases List.mem_cons.1 hx with rfl | hx'
          · exact hem hxe.symm
          · have h5 := hmono x hx'
            rw [hxe] at h5
            exact hem (le_antisymm' h5 (hge e (by simp)))
        rw [hrest, Nat.add_zero] at hc
        have hgrpe : f (nth e.1 m) * e.2 + grp m f L e.1 = grp m f P e.1 := by
          rw [← hf e (by simp) (fun h => hem h.symm), grp_cons, if_pos rfl]
        unfold scanP
        rw [if_pos (by simp [same, hen])]
        simp only [same, hem, decide_false, Bool.false_eq_true, if_false]
        by_cases hgt : lexLt (id.take m) (e.1.take m) = true
        · have hpid : s.pid.take m = id.take m := by
            by_contra h
            obtain ⟨x, hx, hxe⟩ := hd h
            rcases List.mem_cons.1 hx with rfl | hx
            · rw [hxe, lexLt_irrefl] at hgt; cases hgt
            · have := hmono x hx
              rw [hxe, hgt] at this; cases this
          have hT : s.sum = grp m f P id := by rw [hc]; exact grp_congr hpid
          have hbig := H2 e (hLP e (by simp)) (hen.trans ha) hgt
          split
          · exact ⟨hpid, hT⟩
          · exact scanP_B hnm L _ hll hel hs2 hmono hpid hT (by dsimp only; omega) (by show f (nth e.1 m) * e.2 ≤ i; omega)
        · have hgt' : lexLt (id.take m) (e.1.take m) = false := by simpa using hgt
          have hle := H3 e (hLP e (by simp)) (hen.trans ha) hgt'
          rw [if_neg (by omega)]
          refine ih ⟨f (nth e.1 m) * e.2, s.sum, e.1, s.pid⟩ (fun x hx => hLP x (by simp [hx])) hll hel hs2 hmono (hen.trans ha) hgt' hgrpe ?_ ?_
          · intro h
            have hne : s.pid.take m ≠ id.take m := by
              intro h'
              have h5 := hge e (by simp)
              rw [h'] at h5
              exact h (le_antisymm' h5 hgt')
            obtain ⟨x, hx, hxe⟩ := hd hne
            rcases List.mem_cons.1 hx with rfl | hx
            · exact absurd hxe h
            · exact ⟨x, hx, hxe⟩
          · intro x hx hne
            have hne' : x.1.take m ≠ s.pid.take m := by
              intro h'
              have h5 := hmono x hx
              rw [h'] at h5
              exact hem (le_antisymm' h5 (hge e (by simp)))
            have h1 := hf x (by simp [hx]) hne'
            rwa [grp_cons, if_neg (fun h => hne h.symm), Nat.zero_add] at h1
    · -- the class is over
      have hne : ∀ x ∈ e :: L, x.1.take n ≠ s.pid.take n := by
        intro x hx hxe
        refine hen (between (y := s.pid) (a := e.1) (k := x.1) hnm (by rw [hp, hl x hx]) (by rw [hel, hl x hx]) (hge e (by simp)) ?_ hxe.symm |>.trans hxe)
        rcases List.mem_cons.1 hx with rfl | hx
        · exact lexLt_irrefl _
        · exact hmono x hx
      have hpid : s.pid.take m = id.take m := by
        by_contra h
        obtain ⟨x, hx, hxe⟩ := hd h
        exact hne x hx ((take_of_take hnm hxe).trans ha.symm)
      rw [grp_zero (fun x hx h => hne x hx (take_of_take hnm h)), Nat.add_zero] at hc
      unfold scanP
      rw [if_neg (by simp [same, hen])]
      exact ⟨hpid, by rw [hc]; exact grp_congr hpid⟩

end Verif.ExtEnum
