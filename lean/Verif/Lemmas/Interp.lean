import Verif.Spec.Interp
import Verif.Lemmas.DofMap
import Verif.Lemmas.Elemental
import Mathlib.Tactic.Ring
import Mathlib.Tactic.FieldSimp

/-!
Lemmas for the interpolation on composed spaces.
-/
set_option linter.unusedSectionVars false
namespace Verif.Interp

open Verif.Dense Verif.DofMap

variable {K : Type} [Field K]

theorem Dofs.zero {s : Space K} {T : Tet K} {L : Nat → Fn K → K} (h : Dofs s T L) {i : Nat} (hi : i < s.nfa) :
    L i (fun _ _ => 0) = 0 := by
  have := h.smul i hi 0 (fun _ _ => 0)
  simpa using this

theorem Dofs.sum {s : Space K} {T : Tet K} {L : Nat → Fn K → K} (h : Dofs s T L) {i : Nat} (hi : i < s.nfa)
    (S : Finset Nat) (c : Nat → K) (g : Nat → Fn K) :
    L i (fun x k => ∑ j ∈ S, c j * g j x k) = ∑ j ∈ S, c j * L i (g j) := by
  classical
  induction S using Finset.induction_on with
  | empty => simpa using h.zero hi
  | insert a S ha ih =>
    rw [Finset.sum_insert ha]
    have : (fun x k => ∑ j ∈ insert a S, c j * g j x k) =
        fun x k => (fun x k => c a * g a x k) x k + (fun x k => ∑ j ∈ S, c j * g j x k) x k := by
      funext x k; rw [Finset.sum_insert ha]
    rw [this, h.add i hi, h.smul i hi, ih]

/-- Functionals dual to the basis functions return the coefficients. -/
theorem recovers_of_unisolvent {s : Space K} {T : Tet K} (h : Unisolvent s T) : Recovers s T := by
  obtain ⟨L, hL, hd⟩ := h
  intro c f i fusion u hi hf r j
  rw [hL.run f i fusion u hi r j]
  by_cases hc : r < fusion ∧ j = i
  · rw [if_pos hc, if_pos hc]
    rw [hL.loc i hi _ (fun x k => ∑ j ∈ Finset.range s.nfa, c r j * s.val T x j k) (fun x k hk => hf r hc.1 x k hk)]
    rw [hL.sum hi (Finset.range s.nfa) (c r) (fun j x k => s.val T x j k)]
    rw [Finset.sum_eq_single i]
    · rw [hd i hi i hi, if_pos rfl, mul_one]
    · intro j hj hne
      rw [hd i hi j (Finset.mem_range.1 hj), if_neg (Ne.symm hne), mul_zero]
    · intro hn; exact absurd (Finset.mem_range.2 hi) hn
  · rw [if_neg hc, if_neg hc]

/-! ### moving the arrays -/

theorem unview_interp {s : Space K} {T : Tet K} {L : Nat → Fn K → K} (h : Dofs s T L) (f : Fn K) (i fusion sh : Nat)
    (u : Nat → Nat → K) (hi : i < s.nfa) (r j : Nat) :
    unview fusion sh u (s.interp T f i fusion (view fusion sh u)) r j =
      if r < fusion ∧ j = sh + i then L i (fun x k => f x (s.dim * r + k)) else u r j := by
  unfold unview view
  simp only [h.run f i fusion _ hi]
  by_cases hr : r < fusion
  · by_cases hs : sh ≤ j
    · rw [if_pos hr, if_pos hs]
      by_cases hj : j = sh + i
      · rw [if_pos ⟨hr, by omega⟩, if_pos ⟨hr, hj⟩]
      · rw [if_neg (by rintro ⟨_, h2⟩; omega), if_pos hr, if_neg (by rintro ⟨_, h2⟩; omega), show sh + (j - sh) = j by omega]
    · rw [if_pos hr, if_neg hs, if_neg (by rintro ⟨_, h2⟩; omega)]
  · simp [hr]

theorem narrow_at (off ldim gdim : Nat) (f : Fn K) (x : Nat → K) (r k : Nat) (hk : k < ldim) :
    narrow off ldim gdim f x (ldim * r + k) = f x (gdim * r + (off + k)) := by
  unfold narrow
  rw [Nat.mul_add_div (by omega), Nat.mul_add_mod, Nat.mod_eq_of_lt hk, Nat.div_eq_of_lt hk]
  congr 1
  rw [Nat.add_zero]; omega

/-! ### vectors of a space -/

/-- the functionals of a vector space -/
def vecL (s : Space K) (L : Nat → Fn K → K) : Nat → Fn K → K :=
  fun i g => L (i % s.nfa) (fun x k => g x (i / s.nfa * s.dim + k))

theorem vec_dofs {s : Space K} {T : Tet K} {L : Nat → Fn K → K} (h : Dofs s T L) (d : Nat) :
    Dofs (vec d s) T (vecL s L) := by
  have hpos : ∀ i, i < d * s.nfa → 0 < s.nfa ∧ i % s.nfa < s.nfa ∧ i / s.nfa < d := by
    intro i hi
    have h0 : 0 < s.nfa := by
      rcases Nat.eq_zero_or_pos s.nfa with h0 | h0
      · rw [h0, Nat.mul_zero] at hi; omega
      · exact h0
    exact ⟨h0, Nat.mod_lt _ h0, Nat.div_lt_of_lt_mul (by rw [Nat.mul_comm]; exact hi)⟩
  have hblk : ∀ i, i < d * s.nfa → ∀ k, k < s.dim → i / s.nfa * s.dim + k < d * s.dim := by
    intro i hi k hk
    have h1 := (hpos i hi).2.2
    have : (i / s.nfa + 1) * s.dim ≤ d * s.dim := Nat.mul_le_mul_right _ h1
    rw [Nat.add_mul, Nat.one_mul] at this
    omega
  constructor
  · intro f i fusion u hi r j
    obtain ⟨h0, h1, h2⟩ := hpos i hi
    show unview fusion (i / s.nfa * s.nfa) u (s.interp T (narrow (i / s.nfa * s.dim) s.dim (d * s.dim) f) (i % s.nfa) fusion
      (view fusion (i / s.nfa * s.nfa) u)) r j = _
    rw [unview_interp h _ _ _ _ _ h1]
    have he : i / s.nfa * s.nfa + i % s.nfa = i := by rw [Nat.mul_comm]; exact Nat.div_add_mod i s.nfa
    rw [he]
    by_cases hc : r < fusion ∧ j = i
    · rw [if_pos hc, if_pos hc]
      unfold vecL
      refine h.loc _ h1 _ _ fun x k hk => ?_
      rw [narrow_at _ _ _ _ _ _ _ hk]; rfl
    · rw [if_neg hc, if_neg hc]
  · intro i hi g g' hg
    exact h.loc _ (hpos i hi).2.1 _ _ fun x k hk => hg x _ (hblk i hi k hk)
  · intro i hi g g'
    exact h.add _ (hpos i hi).2.1 _ _
  · intro i hi c g
    exact h.smul _ (hpos i hi).2.1 _ _

theorem vec_unisolvent {s : Space K} {T : Tet K} (h : Unisolvent s T) (d : Nat) : Unisolvent (vec d s) T := by
  obtain ⟨L, hL, hd⟩ := h
  refine ⟨vecL s L, vec_dofs hL d, fun i hi j hj => ?_⟩
  have h0 : 0 < s.nfa := by
    rcases Nat.eq_zero_or_pos s.nfa with h0 | h0
    · have hi' : i < d * s.nfa := hi
      rw [h0, Nat.mul_zero] at hi'; omega
    · exact h0
  have hi1 := Nat.mod_lt i h0
  have hj1 := Nat.mod_lt j h0
  unfold vecL
  have hval : ∀ x k, k < s.dim → (vec d s).val T x j (i / s.nfa * s.dim + k) =
      (if j / s.nfa = i / s.nfa then 1 else 0) * s.val T x (j % s.nfa) k := by
    intro x k hk
    show (if j / s.nfa = (i / s.nfa * s.dim + k) / s.dim then s.val T x (j % s.nfa) ((i / s.nfa * s.dim + k) % s.dim) else 0) = _
    have h1 : (i / s.nfa * s.dim + k) / s.dim = i / s.nfa := by
      rw [Nat.mul_comm, Nat.mul_add_div (by omega), Nat.div_eq_of_lt hk, Nat.add_zero]
    have h2 : (i / s.nfa * s.dim + k) % s.dim = k := by
      rw [Nat.mul_comm, Nat.mul_add_mod, Nat.mod_eq_of_lt hk]
    rw [h1, h2]
    by_cases hc : j / s.nfa = i / s.nfa
    · rw [if_pos hc, if_pos hc, one_mul]
    · rw [if_neg hc, if_neg hc, zero_mul]
  rw [hL.loc _ hi1 _ _ hval, hL.smul _ hi1, hd _ hi1 _ hj1]
  by_cases hc : i = j
  · subst hc; simp
  · rw [if_neg hc]
    by_cases h1 : j / s.nfa = i / s.nfa
    · have h2 : i % s.nfa ≠ j % s.nfa := by
        intro h2
        apply hc
        rw [← Nat.div_add_mod i s.nfa, ← Nat.div_add_mod j s.nfa, h1, h2]
      rw [if_neg h2, mul_zero]
    · rw [if_neg h1, zero_mul]

/-! ### places in a concatenation -/

theorem comp_place {ns : List Nat} {g m : Nat} (hm : m < ns.length) (h1 : pre ns m ≤ g) (h2 : g < pre ns (m + 1)) :
    comp ns g = (m, g - pre ns m) := by
  unfold comp
  rw [ubIdx_eq ns m hm g h1 h2]

theorem comp_at {ns : List Nat} {m l : Nat} (hm : m < ns.length) (hl : l < ns.getD m 0) :
    comp ns (pre ns m + l) = (m, l) := by
  have h1 : ns.getD m 0 = ns[m] := by
    rw [List.getD_eq_getElem?_getD, List.getElem?_eq_getElem hm]; rfl
  rw [comp_place hm (by omega) (by rw [pre_succ ns m hm]; omega)]
  congr 1; omega

theorem place_exists {ns : List Nat} {g : Nat} (hg : g < ns.sum) :
    ∃ m l, m < ns.length ∧ l < ns.getD m 0 ∧ g = pre ns m + l ∧ comp ns g = (m, l) := by
  obtain ⟨m, hm, h1, h2⟩ := exists_block ns g hg
  rw [pre_succ ns m hm] at h2
  have h3 : ns.getD m 0 = ns[m] := by
    rw [List.getD_eq_getElem?_getD, List.getElem?_eq_getElem hm]; rfl
  refine ⟨m, g - pre ns m, hm, by omega, by omega, ?_⟩
  rw [comp_place hm h1 (by rw [pre_succ ns m hm]; omega)]

theorem comp_isPlace {ns : List Nat} {g : Nat} (hg : g < ns.sum) : IsPlace ns g (comp ns g) := by
  obtain ⟨m, l, hm, hl, he, hc⟩ := place_exists hg
  rw [hc]; exact ⟨hm, hl, he⟩

theorem pre_le_sum (ns : List Nat) (m : Nat) : pre ns m ≤ ns.sum := by
  rcases Nat.lt_or_ge ns.length m with h | h
  · unfold pre; rw [List.take_of_length_le (by omega)]
  · rw [← pre_length]; exact pre_mono ns h

theorem place_lt {ns : List Nat} {m l : Nat} (hm : m < ns.length) (hl : l < ns.getD m 0) : pre ns m + l < ns.sum := by
  have h1 : ns.getD m 0 = ns[m] := by
    rw [List.getD_eq_getElem?_getD, List.getElem?_eq_getElem hm]; rfl
  have h2 := pre_le_sum ns (m + 1)
  rw [pre_succ ns m hm] at h2
  omega

theorem place_inj {ns : List Nat} {m l m' l' : Nat} (hm : m < ns.length) (hl : l < ns.getD m 0) (hm' : m' < ns.length)
    (hl' : l' < ns.getD m' 0) (h : pre ns m + l = pre ns m' + l') : m = m' ∧ l = l' := by
  have h1 := comp_at hm hl
  rw [h, comp_at hm' hl'] at h1
  exact ⟨(congrArg Prod.fst h1).symm, (congrArg Prod.snd h1).symm⟩

theorem loop_pre (ns : List Nat) (m : Nat) (hm : m ≤ ns.length) :
    loop 0 m (fun i d => d + ns.getD i 0) 0 = pre ns m :=
  loop_ind (P := fun k d => d = pre ns k) (Nat.zero_le m) (pre_zero ns).symm
    (fun i d _ hi ih => by
      have h1 : ns.getD i 0 = ns[i]'(by omega) := by
        rw [List.getD_eq_getElem?_getD, List.getElem?_eq_getElem (by omega)]; rfl
      rw [ih, pre_succ ns i (by omega), h1])

/-! ### products -/

/-- the functionals of a product space -/
def prodL (ss : List (Space K)) (Ls : Nat → Nat → Fn K → K) : Nat → Fn K → K :=
  fun i g => Ls (comp (ss.map (·.nfa)) i).1 (comp (ss.map (·.nfa)) i).2
    (fun x k => g x (pre (ss.map (·.dim)) (comp (ss.map (·.nfa)) i).1 + k))

theorem getD_map {ss : List (Space K)} {m : Nat} (hm : m < ss.length) (f : Space K → Nat) :
    (ss.map f).getD m 0 = f ss[m] := by
  rw [List.getD_eq_getElem?_getD, List.getElem?_map, List.getElem?_eq_getElem hm]; rfl

theorem space_at {ss : List (Space K)} {i : Nat} (hi : i < (ss.map (·.nfa)).sum) :
    ∃ (m l : Nat) (hm : m < ss.length), l < ss[m].nfa ∧ i = pre (ss.map (·.nfa)) m + l ∧ comp (ss.map (·.nfa)) i = (m, l) := by
  obtain ⟨m, l, hm, hl, he, hc⟩ := place_exists hi
  have hm' : m < ss.length := by simpa using hm
  rw [getD_map hm'] at hl
  exact ⟨m, l, hm', hl, he, hc⟩

theorem dim_block {ss : List (Space K)} {m k : Nat} (hm : m < ss.length) (hk : k < ss[m].dim) :
    pre (ss.map (·.dim)) m + k < (ss.map (·.dim)).sum :=
  place_lt (by simpa using hm) (by rw [getD_map hm]; exact hk)

theorem prod_interp {ss : List (Space K)} {T : Tet K} {Ls : Nat → Nat → Fn K → K}
    (h : ∀ m (hm : m < ss.length), Dofs ss[m] T (Ls m)) (f : Fn K) {m l : Nat} (hm : m < ss.length) (hl : l < ss[m].nfa)
    (fusion : Nat) (u : Nat → Nat → K) (r j : Nat) :
    unview fusion (pre (ss.map (·.nfa)) m) u (ss[m].interp T (narrow (pre (ss.map (·.dim)) m) ss[m].dim (ss.map (·.dim)).sum f)
        l fusion (view fusion (pre (ss.map (·.nfa)) m) u)) r j =
      if r < fusion ∧ j = pre (ss.map (·.nfa)) m + l then
        Ls m l (fun x k => f x ((ss.map (·.dim)).sum * r + (pre (ss.map (·.dim)) m + k))) else u r j := by
  rw [unview_interp (h m hm) _ _ _ _ _ hl]
  by_cases hc : r < fusion ∧ j = pre (ss.map (·.nfa)) m + l
  · rw [if_pos hc, if_pos hc]
    refine (h m hm).loc _ hl _ _ fun x k hk => ?_
    rw [narrow_at _ _ _ _ _ _ _ hk]
  · rw [if_neg hc, if_neg hc]

theorem prod_run_eq {ss : List (Space K)} {T : Tet K} (f : Fn K) {m l : Nat} (hm : m < ss.length) (hl : l < ss[m].nfa)
    (fusion : Nat) (u : Nat → Nat → K) :
    (prod ss).interp T f (pre (ss.map (·.nfa)) m + l) fusion u =
      unview fusion (pre (ss.map (·.nfa)) m) u
        (ss[m].interp T (narrow (pre (ss.map (·.dim)) m) ss[m].dim (ss.map (·.dim)).sum f)
        l fusion (view fusion (pre (ss.map (·.nfa)) m) u)) := by
  have hc : comp (ss.map (·.nfa)) (pre (ss.map (·.nfa)) m + l) = (m, l) :=
    comp_at (by simpa using hm) (by rw [getD_map hm]; exact hl)
  have hlp : loop 0 m (fun i d => d + (ss.map (·.dim)).getD i 0) 0 = pre (ss.map (·.dim)) m :=
    loop_pre _ _ (by simp; omega)
  show (match ss[(comp (ss.map (·.nfa)) (pre (ss.map (·.nfa)) m + l)).1]? with
    | none => u
    | some s => _) = _
  rw [hc]
  dsimp only
  rw [List.getElem?_eq_getElem hm]
  dsimp only
  rw [hlp, show pre (ss.map (·.nfa)) m + l - l = pre (ss.map (·.nfa)) m by omega]

theorem prod_dofs {ss : List (Space K)} {T : Tet K} {Ls : Nat → Nat → Fn K → K}
    (h : ∀ m (hm : m < ss.length), Dofs ss[m] T (Ls m)) : Dofs (prod ss) T (prodL ss Ls) := by
  constructor
  · intro f i fusion u hi r j
    obtain ⟨m, l, hm, hl, he, hc⟩ := space_at (ss := ss) hi
    subst he
    rw [prod_run_eq f hm hl, prod_interp h f hm hl]
    unfold prodL
    rw [hc]; rfl
  · intro i hi g g' hg
    obtain ⟨m, l, hm, hl, he, hc⟩ := space_at (ss := ss) hi
    unfold prodL; rw [hc]
    exact (h m hm).loc l hl _ _ fun x k hk => hg x _ (dim_block hm hk)
  · intro i hi g g'
    obtain ⟨m, l, hm, hl, he, hc⟩ := space_at (ss := ss) hi
    unfold prodL; rw [hc]
    exact (h m hm).add l hl _ _
  · intro i hi c g
    obtain ⟨m, l, hm, hl, he, hc⟩ := space_at (ss := ss) hi
    unfold prodL; rw [hc]
    exact (h m hm).smul l hl _ _

theorem pre_block_lt (ns : List Nat) {m m' : Nat} (h : m < m') (hm : m < ns.length) : pre ns m + ns.getD m 0 ≤ pre ns m' := by
  have h1 : ns.getD m 0 = ns[m] := by
    rw [List.getD_eq_getElem?_getD, List.getElem?_eq_getElem hm]; rfl
  have := pre_mono ns (show m + 1 ≤ m' from h)
  rw [pre_succ ns m hm] at this
  omega

theorem prod_unisolvent {ss : List (Space K)} {T : Tet K} (h : ∀ s ∈ ss, Unisolvent s T) : Unisolvent (prod ss) T := by
  classical
  have h' : ∀ m, ∃ L, ∀ hm : m < ss.length, Dofs ss[m] T L ∧
      ∀ i, i < ss[m].nfa → ∀ j, j < ss[m].nfa → L i (fun x k => ss[m].val T x j k) = if i = j then 1 else 0 := by
    intro m
    by_cases hm : m < ss.length
    · obtain ⟨L, hL⟩ := h _ (List.getElem_mem hm)
      exact ⟨L, fun _ => hL⟩
    · exact ⟨fun _ _ => 0, fun hm' => absurd hm' hm⟩
  choose Ls hLs using h'
  refine ⟨prodL ss Ls, prod_dofs fun m hm => (hLs m hm).1, fun i hi j hj => ?_⟩
  obtain ⟨m, l, hm, hl, he, hc⟩ := space_at (ss := ss) hi
  obtain ⟨m', l', hm', hl', he', hc'⟩ := space_at (ss := ss) hj
  unfold prodL
  rw [hc]
  dsimp only
  have hval : ∀ x k, k < ss[m].dim → (prod ss).val T x j (pre (ss.map (·.dim)) m + k) =
      (if m = m' then 1 else 0) * ss[m].val T x l' k := by
    intro x k hk
    show prodVal ss T x j _ = _
    unfold prodVal
    rw [hc']
    dsimp only
    rw [List.getElem?_eq_getElem hm']
    dsimp only
    by_cases hmm : m = m'
    · subst hmm
      rw [if_pos (by omega), if_pos rfl, one_mul, show pre (ss.map (·.dim)) m + k - pre (ss.map (·.dim)) m = k by omega]
    · rw [if_neg hmm, zero_mul, if_neg]
      intro hb
      rcases Nat.lt_or_gt_of_ne hmm with hlt | hgt
      · have := pre_block_lt (ss.map (·.dim)) hlt (by simpa using hm)
        rw [getD_map hm] at this; omega
      · have := pre_block_lt (ss.map (·.dim)) hgt (by simpa using hm')
        rw [getD_map hm'] at this; omega
  rw [(hLs m hm).1.loc l hl _ _ hval, (hLs m hm).1.smul l hl]
  by_cases hmm : m = m'
  · subst hmm
    rw [if_pos rfl, one_mul, (hLs m hm).2 l hl l' hl']
    by_cases hll : l = l'
    · rw [if_pos hll, if_pos (by omega)]
    · rw [if_neg hll, if_neg (by omega)]
  · rw [if_neg hmm, zero_mul, if_neg]
    intro hij
    apply hmm
    rw [← hij, hc] at hc'
    exact congrArg Prod.fst hc'

/-- the compile-time recursion chooses the same space, d.o.f. and components -/
theorem choose_eq {T : Tet K} (gdim : Nat) (f : Fn K) (fusion : Nat) (u : Nat → Nat → K) :
    ∀ (ss : List (Space K)) (ds ns m l : Nat) (hm : m < ss.length), l < ss[m].nfa →
      choose gdim T f (ns + pre (ss.map (·.nfa)) m + l) fusion u ss ds ns =
        some (unview fusion (ns + pre (ss.map (·.nfa)) m) u
          (ss[m].interp T (narrow (ds + pre (ss.map (·.dim)) m) ss[m].dim gdim f) l fusion
            (view fusion (ns + pre (ss.map (·.nfa)) m) u))) := by
  intro ss
  induction ss with
  | nil => intro ds ns m l hm; simp at hm
  | cons s ss ih =>
    intro ds ns m l hm hl
    cases m with
    | zero =>
      have hl' : l < s.nfa := hl
      unfold choose
      simp only [List.map_cons, pre_zero, Nat.add_zero, List.getElem_cons_zero]
      rw [if_pos (by omega), show ns + l - ns = l by omega]
    | succ m =>
      unfold choose
      simp only [List.map_cons, pre_cons_succ, List.getElem_cons_succ]
      rw [if_neg (by omega)]
      have hm' : m < ss.length := by simpa using hm
      have := ih (ds + s.dim) (ns + s.nfa) m l hm' (by simpa using hl)
      simpa only [Nat.add_assoc] using this

end Verif.Interp
