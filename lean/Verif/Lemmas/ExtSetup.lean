import Verif.Lemmas.ExtPart

/-! The members after `setup`, as sums over the base arrays. -/
namespace Verif.ExtEnum

/-- The members of a set-up enumeration of the base arrays `A`. -/
structure Good (E : Ext) (A : List Key) : Prop where
  hm : E.m < E.N
  hn : E.n ≤ E.N
  ord : E.ord = A
  sorted : Sorted A
  len : ∀ a ∈ A, a.length = E.N
  r : Collects A (zeroFrom (E.m + 1)) E.r
  q : E.n ≤ E.m → Collects A (shp E.m E.n) E.q
  p_sorted : E.n < E.m → MSorted E.p
  p_shape : E.n < E.m → ∀ k ∈ E.p.map Prod.fst, k.length = E.N ∧ k = shp E.m E.m k ∧ ∃ x ∈ A, k.take E.m = x.take E.m
  p_present : E.n < E.m → ∀ x ∈ A, ∃ k ∈ E.p.map Prod.fst, k.take E.m = x.take E.m
  p_sums : E.n < E.m → ∀ x ∈ A, ∀ f : Nat → Nat,
    tot (fun k => if k.take E.m = x.take E.m then f (nth k E.m) else 0) E.p =
      (A.map fun a => if a.take E.n = x.take E.n ∧ lexLt (a.take E.m) (x.take E.m) = true then f (nth a E.m) else 0).sum
  w_sorted : 0 < min E.m E.n → MSorted E.w
  w_keys : 0 < min E.m E.n → ∀ k, k ∈ E.w.map Prod.fst ↔ ∃ a ∈ A, k = zeroFrom (min E.m E.n) a
  w_val : 0 < min E.m E.n → ∀ a' ∈ A, tot (fun k => if k = zeroFrom (min E.m E.n) a' then 1 else 0) E.w =
      (A.map fun a => if lexLt (a.take (min E.m E.n)) (a'.take (min E.m E.n)) = true then E.rg (nth a E.m) else 0).sum
  qr_sorted : E.n ≤ E.m → MSorted E.qr
  qr_mem : E.n ≤ E.m → ∀ a ∈ A, (zeroFrom E.n a, betaSz E.m E.rg (E.q.filter fun x => same E.n a x.1)) ∈ E.qr
  size : E.size = (A.map fun a => E.rg (nth a E.m)).sum

theorem same_comm {t : Nat} {a b : Key} (h : a.take t = b.take t) (c : Key) : same t a c = same t b c := by simp [same, h]

theorem qrLoop_spec {n m N : Nat} (rg : Nat → Nat) (fuel : Nat) (l : KMap) (hf : l.length ≤ fuel) (hs : MSorted l)
    (hl : ∀ e ∈ l, e.1.length = N) :
    MSorted (qrLoop n m rg fuel l) ∧ (∀ k ∈ (qrLoop n m rg fuel l).map Prod.fst, ∃ e ∈ l, k = zeroFrom n e.1) ∧
    ∀ e ∈ l, (zeroFrom n e.1, betaSz m rg (l.filter fun x => same n e.1 x.1)) ∈ qrLoop n m rg fuel l := by
  induction fuel generalizing l with
  | zero =>
    obtain rfl : l = [] := List.length_eq_zero_iff.1 (by omega)
    simp [qrLoop, MSorted]
  | succ fuel ih =>
    rcases l with _ | ⟨kv, l⟩
    · simp [qrLoop, MSorted]
    obtain ⟨h1, h2⟩ := List.pairwise_cons.1 hs
    have hkl : kv.1.length = N := hl kv (by simp)
    have hll : ∀ e ∈ l, e.1.length = N := fun e he => hl e (by simp [he])
    set rest := l.dropWhile fun x => same n kv.1 x.1 with hrest
    have hcl : l.Pairwise fun a b => same n kv.1 a.1 = false → same n kv.1 b.1 = false := by
      refine List.Pairwise.imp_of_mem ?_ h2
      intro a b ha hb hab hqa
      simp only [same, decide_eq_false_iff_not] at *
      intro hc
      refine hqa ?_
      have h3 := take_mono' (a := a.1) (b := b.1) (by rw [hll a ha, hll b hb]) n hab
      have h4 := take_mono' (a := kv.1) (b := a.1) (by rw [hll a ha, hkl]) n (h1 a ha)
      rw [← hc] at h3
      exact (le_antisymm' h4 h3).symm
    have hseg : kv :: l.takeWhile (fun x => same n kv.1 x.1) = (kv :: l).filter fun x => same n kv.1 x.1 := by
      rw [takeWhile_eq_filter hcl, List.filter_cons_of_pos (by simp [same])]
    have hrs : ∀ e ∈ rest, same n kv.1 e.1 = false := by
      intro e he
      rcases hd : l.dropWhile (fun x => same n kv.1 x.1) with _ | ⟨z, l'⟩
      · rw [hrest, hd] at he; simp at he
      · have hz : same n kv.1 z.1 = false := by
          have := List.head_dropWhile_not (p := fun x : Key × Nat => same n kv.1 x.1) (l := l) (w := by simp [hd])
          simpa [hd] using this
        rw [hrest, hd] at he
        rcases List.mem_cons.1 he with rfl | he
        · exact hz
        · have hp : (z :: l').Pairwise fun a b => same n kv.1 a.1 = false → same n kv.1 b.1 = false := by
            rw [← hd]; exact List.Pairwise.sublist (List.dropWhile_sublist _) hcl
          exact (List.pairwise_cons.1 hp).1 e he hz
    have hrl : ∀ e ∈ rest, e ∈ l := fun e he => (List.dropWhile_sublist _).mem he
    have hsub : rest.length ≤ l.length := (List.dropWhile_sublist _).length_le
    obtain ⟨i1, i2, i3⟩ := ih rest (by simp at hf; omega) (List.Pairwise.sublist (List.dropWhile_sublist _) h2) (fun e he => hll e (hrl e he))
    have hstep : qrLoop n m rg (fuel + 1) (kv :: l) = (zeroFrom n kv.1, betaSz m rg ((kv :: l).filter fun x => same n kv.1 x.1)) :: qrLoop n m rg fuel rest := by
      rw [← hseg]; rfl
    rw [hstep]
    refine ⟨List.pairwise_cons.2 ⟨?_, i1⟩, ?_, ?_⟩
    · intro y hy
      obtain ⟨e, he, hye⟩ := i2 y.1 (List.mem_map_of_mem hy)
      have hel := hrl e he
      rw [hye, lexLt_zeroFrom (by rw [zeroFrom_length, hkl, hll e hel]), take_zeroFrom _ le_rfl]
      have h3 := take_mono' (a := kv.1) (b := e.1) (by rw [hll e hel, hkl]) n (h1 e hel)
      have h4 := hrs e he
      simp only [same, decide_eq_false_iff_not] at h4
      rcases lexLt_total (kv.1.take n) (e.1.take n) with h | h | h
      · exact h
      · exact absurd h h4
      · rw [h3] at h; cases h
    · intro k hk
      rcases List.mem_cons.1 hk with rfl | hk
      · exact ⟨kv, by simp, rfl⟩
      · obtain ⟨e, he, hke⟩ := i2 k hk
        exact ⟨e, by simp [hrl e he], hke⟩
    · intro e he
      by_cases hse : same n kv.1 e.1 = true
      · have hse' : kv.1.take n = e.1.take n := by simpa [same] using hse
        have hel := hl e he
        rw [zeroFrom_congr (by rw [hel, hkl]) hse'.symm]
        simp only [same_comm hse'.symm]
        exact List.mem_cons_self
      · have hsplit : l = (l.takeWhile fun x => same n kv.1 x.1) ++ rest := (List.takeWhile_append_dropWhile).symm
        have her : e ∈ rest := by
          rcases List.mem_cons.1 he with rfl | he
          · simp [same] at hse
          · rw [hsplit] at he
            rcases List.mem_append.1 he with he | he
            · exact absurd (List.mem_takeWhile_imp he) hse
            · exact he
        have hflt : (kv :: l).filter (fun x => same n e.1 x.1) = rest.filter fun x => same n e.1 x.1 := by
          have hne : ∀ x, same n kv.1 x = true → same n e.1 x = false := by
            intro x hx
            simp only [same, decide_eq_true_eq, decide_eq_false_iff_not] at *
            intro hc
            exact hse (by rw [hx, ← hc])
          rw [List.filter_cons_of_neg (by simp [hne kv.1 (by simp [same])])]
          conv_lhs => rw [hsplit]
          rw [List.filter_append, List.filter_eq_nil_iff.2, List.nil_append]
          intro x hx
          have := hne x.1 (by simpa using List.mem_takeWhile_imp hx)
          simp [this]
        rw [hflt]
        exact List.mem_cons_of_mem _ (i3 e her)

theorem Collects.nonempty {A : List Key} {g : Key → Key} {M : KMap} (h : Collects A g M) (hA : A ≠ []) : M ≠ [] := by
  rintro rfl
  obtain ⟨a, l, rfl⟩ := List.exists_cons_of_ne_nil hA
  have := (h.keys (g a)).2 ⟨a, by simp, rfl⟩
  simp at this

/-- Sums over a table as sums over the arrays. -/
theorem Collects.tot' {A : List Key} {g : Key → Key} {M : KMap} (h : Collects A g M) (f : Key → Nat) (F : Key → Nat)
    (hf : ∀ a ∈ A, f (g a) = F a) : Verif.ExtEnum.tot f M = (A.map F).sum := by
  rw [h.tot f]; congr 1; exact List.map_congr_left hf

theorem Collects.mem {A : List Key} {g : Key → Key} {M : KMap} (h : Collects A g M) {e : Key × Nat} (he : e ∈ M) : ∃ a ∈ A, e.1 = g a :=
  (h.keys e.1).1 (List.mem_map_of_mem he)

theorem setup_good {N n m : Nat} (hm : m < N) (hn : n ≤ N) (rg : Nat → Nat) {A : List Key} (hs : Sorted A)
    (hl : ∀ a ∈ A, a.length = N) (hA : A ≠ [] ∨ m = 0) : ∃ E, setup N n m rg A = some E ∧ Good E A ∧ E.N = N ∧ E.n = n ∧ E.m = m ∧ E.rg = rg := by
  have hr := r_collects hm hs hl
  set r := rLoop m A.length A [] with hrdef
  have hml : ∀ a ∈ A, m < a.length := fun a ha => by rw [hl a ha]; exact hm
  -- p
  obtain ⟨p, hp, hpg⟩ : ∃ p, pTable n m r = some p ∧
      (n < m → Parts N m n m r p) := by
    unfold pTable
    by_cases h : n < m
    · rw [if_pos ⟨by omega, h⟩]
      obtain ⟨p, h1, h2⟩ := sumPart_spec (N := N) (m := m) (st := n) (ed := m) hm le_rfl h.le (hr.nonempty (by rcases hA with h' | h'; exact h'; omega)) hr.sorted (by
        intro y hy
        obtain ⟨a, ha, hya⟩ := hr.mem hy
        rw [hya, ← shp_top a (hml a ha)]
        exact ⟨by rw [shp_length, hl a ha], by rw [shp_shp a (hml a ha) le_rfl]⟩)
      exact ⟨p, h1, fun _ => h2⟩
    · rw [if_neg (by tauto)]
      exact ⟨[], rfl, fun h' => absurd h' h⟩
  -- w
  obtain ⟨w, hw, hwg⟩ : ∃ w, wTable n m rg r = some w ∧
      (0 < min m n → MSorted w ∧ (∀ k, k ∈ w.map Prod.fst ↔ ∃ a ∈ A, k = zeroFrom (min m n) a) ∧
        ∀ a' ∈ A, tot (fun k => if k = zeroFrom (min m n) a' then 1 else 0) w =
          (A.map fun a => if lexLt (a.take (min m n)) (a'.take (min m n)) = true then rg (nth a m) else 0).sum) := by
    unfold wTable
    by_cases h : 0 < min m n
    · rw [if_pos ⟨by omega, h⟩]
      set L := min m n with hL
      have hLm : L ≤ m := by omega
      have hww := wwAt_collects hm hl hr (m - L) (by omega)
      rw [show m - (m - L) = L by omega] at hww
      obtain ⟨x, h1, h2⟩ := sumPart_spec (N := N) (m := m) (st := 0) (ed := L) hm hLm (by omega) (hww.nonempty (by rcases hA with h' | h'; exact h'; omega)) hww.sorted (by
        intro y hy
        obtain ⟨a, ha, hya⟩ := hww.mem hy
        rw [hya]
        exact ⟨by rw [shp_length, hl a ha], by rw [shp_shp a (hml a ha) le_rfl]⟩)
      rw [h1]
      refine ⟨_, rfl, fun _ => ?_⟩
      obtain ⟨b1, b2, b3⟩ := fold_addTo (fun e : Key × Nat => e.1.set m 0) (fun e => rg (nth e.1 m) * e.2) x [] (by simp [MSorted])
      have hzero : ∀ e ∈ x, e.1.set m 0 = zeroFrom L e.1 := by
        intro e he
        obtain ⟨_, h3, _⟩ := h2.shape e.1 (List.mem_map_of_mem he)
        conv_lhs => rw [h3]
        exact shp_set_zero e.1 hLm
      refine ⟨b1, fun k => ?_, fun a' ha' => ?_⟩
      · rw [wBuild, b3 k]
        simp only [List.map_nil, List.not_mem_nil, false_or]
        constructor
        · rintro ⟨e, he, rfl⟩
          obtain ⟨h4, _, y, hy, h5⟩ := h2.shape e.1 (List.mem_map_of_mem he)
          obtain ⟨a, ha, hya⟩ := hww.mem hy
          refine ⟨a, ha, ?_⟩
          rw [hzero e he]
          refine zeroFrom_congr (by rw [h4, hl a ha]) ?_
          rw [h5, hya, take_shp a le_rfl hLm]
        · rintro ⟨a, ha, rfl⟩
          obtain ⟨y, hy, hya⟩ := List.mem_map.1 ((hww.keys _).2 ⟨a, ha, rfl⟩)
          obtain ⟨k, hk, hke⟩ := h2.present y hy
          obtain ⟨e, he, rfl⟩ := List.mem_map.1 hk
          refine ⟨e, he, ?_⟩
          rw [hzero e he]
          refine (zeroFrom_congr (by rw [(h2.shape e.1 hk).1, hl a ha]) ?_).symm
          rw [hke, hya, take_shp a le_rfl hLm]
      · obtain ⟨y, hy, hya⟩ := List.mem_map.1 ((hww.keys _).2 ⟨a', ha', rfl⟩)
        have hyt : y.1.take L = a'.take L := by rw [hya, take_shp a' le_rfl hLm]
        have h6 := h2.sums y hy rg
        have h7 := b2 fun k => if k = zeroFrom L a' then 1 else 0
        rw [tot_nil, Nat.zero_add] at h7
        rw [wBuild, h7]
        have h8 : (x.map fun e => (if e.1.set m 0 = zeroFrom L a' then 1 else 0) * (rg (nth e.1 m) * e.2)).sum =
            tot (fun k => if k.take L = y.1.take L then rg (nth k m) else 0) x := by
          unfold tot
          congr 1
          refine List.map_congr_left fun e he => ?_
          have hel := (h2.shape e.1 (List.mem_map_of_mem he)).1
          have : e.1.set m 0 = zeroFrom L a' ↔ e.1.take L = y.1.take L := by
            rw [hzero e he, hyt]
            constructor
            · intro h9
              have := congrArg (List.take L) h9
              rwa [take_zeroFrom _ le_rfl, take_zeroFrom _ le_rfl] at this
            · intro h9; exact zeroFrom_congr (by rw [hel, hl a' ha']) h9
          simp only [this]
          split <;> simp
        rw [h8, h6]
        refine hww.tot' _ _ fun a ha => ?_
        rw [take_shp a le_rfl hLm, hyt, take_shp a (by omega) (by omega), nth_shp a (hml a ha)]
        simp
    · rw [if_neg (by tauto)]
      exact ⟨[], rfl, fun h' => absurd h' h⟩
  -- q
  set q := qTable n m r with hqdef
  have hrm : Collects A (shp m m) r := wwAt_collects hm hl hr 0 (by omega)
  have hq : n ≤ m → Collects A (shp m n) q := by
    intro h
    rcases Nat.lt_or_ge n m with h1 | h1
    · rw [hqdef, qTable, if_pos (by omega), if_pos h1]
      have := wwAt_collects hm hl hr (m - n) (by omega)
      rwa [show m - (m - n) = n by omega] at this
    · obtain rfl : n = m := by omega
      rw [hqdef, qTable, if_neg (lt_irrefl n)]
      split <;> exact hrm
  have hq' : Collects A (shp m (min n m)) q := by
    rcases Nat.le_total n m with h | h
    · rw [Nat.min_eq_left h]; exact hq h
    · rw [Nat.min_eq_right h, hqdef, qTable]
      split
      · rw [if_neg (by omega)]; exact hrm
      · exact hrm
  refine ⟨⟨N, n, m, rg, A, r, w, p, q, qrTable N n m rg q, (q.map fun kv => rg (nth kv.1 m) * kv.2).sum⟩, ?_, ?_, rfl, rfl, rfl, rfl⟩
  · unfold setup
    simp only [← hrdef, hp, hw, ← hqdef]
  · refine ⟨hm, hn, rfl, hs, hl, hr, hq, fun h => (hpg h).sorted, ?_, ?_, ?_, fun h => (hwg h).1, fun h => (hwg h).2.1, fun h => (hwg h).2.2, ?_, ?_, ?_⟩
    · intro h k hk
      obtain ⟨h1, h2, y, hy, h3⟩ := (hpg h).shape k hk
      obtain ⟨a, ha, hya⟩ := hrm.mem hy
      exact ⟨h1, h2, a, ha, by show k.take m = _; rw [h3, hya, take_shp a le_rfl le_rfl]⟩
    · intro h x hx
      obtain ⟨y, hy, hya⟩ := List.mem_map.1 ((hrm.keys _).2 ⟨x, hx, rfl⟩)
      obtain ⟨k, hk, hke⟩ := (hpg h).present y hy
      exact ⟨k, hk, by show k.take m = _; rw [hke, hya, take_shp x le_rfl le_rfl]⟩
    · intro h x hx f
      have h : n < m := h
      obtain ⟨y, hy, hya⟩ := List.mem_map.1 ((hrm.keys _).2 ⟨x, hx, rfl⟩)
      have h1 := (hpg h).sums y hy f
      rw [hya, take_shp x le_rfl le_rfl, take_shp x (by omega) (by omega)] at h1
      show tot (fun k => if k.take m = x.take m then f (nth k m) else 0) p = _
      rw [h1]
      refine hrm.tot' _ _ fun a ha => ?_
      rw [take_shp a le_rfl le_rfl, take_shp a (by omega) (by omega), nth_shp a (hml a ha)]
      simp
    · intro h
      show MSorted (qrTable N n m rg q)
      unfold qrTable
      split
      · split
        · exact (qrLoop_spec (N := N) rg q.length q le_rfl (hq h).sorted (fun e he => by
            obtain ⟨a, ha, hea⟩ := (hq h).mem he
            rw [hea, shp_length, hl a ha])).1
        · simp [MSorted]
      · simp [MSorted]
    · intro h a ha
      show (zeroFrom n a, betaSz m rg (q.filter fun x => same n a x.1)) ∈ qrTable N n m rg q
      have hne : q ≠ [] := (hq h).nonempty (by rintro rfl; simp at ha)
      rw [qrTable, if_pos ⟨h, hne⟩]
      split
      · obtain ⟨y, hy, hya⟩ := List.mem_map.1 (((hq h).keys _).2 ⟨a, ha, rfl⟩)
        have h1 := (qrLoop_spec (n := n) (m := m) (N := N) rg q.length q le_rfl (hq h).sorted (fun e he => by
            obtain ⟨a, ha, hea⟩ := (hq h).mem he
            rw [hea, shp_length, hl a ha])).2.2 y hy
        have h2 : y.1.take n = a.take n := by rw [hya, take_shp a le_rfl h]
        rw [zeroFrom_congr (by rw [hya, shp_length]) h2] at h1
        simpa only [same_comm h2] using h1
      · obtain rfl : n = 0 := by omega
        have : q.filter (fun x => same 0 a x.1) = q := by rw [List.filter_eq_self]; simp [same]
        rw [this, zeroFrom, hl a ha]
        simp
    · show (q.map fun kv => rg (nth kv.1 m) * kv.2).sum = _
      have := hq'.tot' (fun k => rg (nth k m)) (fun a => rg (nth a m)) (fun a ha => by rw [nth_shp a (hml a ha), if_pos rfl])
      exact this

theorem setup_nil {N n m : Nat} (rg : Nat → Nat) (hm : 0 < m) : setup N n m rg [] = none := by
  have hr : rLoop m 0 [] [] = [] := rfl
  have hw : ∀ d, wwAt m [] d = [] := by
    intro d; induction d with
    | zero => rfl
    | succ d ih => rw [wwAt, ih]; rfl
  unfold setup
  simp only [List.length_nil, hr, pTable, wTable, hw]
  by_cases h : n < m
  · rw [if_pos ⟨hm, h⟩]; rfl
  · rw [if_neg (by tauto), if_pos ⟨hm, by omega⟩]; rfl

end Verif.ExtEnum
