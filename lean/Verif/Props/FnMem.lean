import Mathlib.Tactic.NormNum
import Mathlib.Data.List.Range
import Verif.Model.FnMem
import Verif.Spec.FnMem

/-! C71: every thread of an assembling works with memory of its own, and all memory is given back. -/
namespace Verif.FnMem

/-- two identifiers in one number can be read again when the first is below `65536` -/
theorem decode_encode {a b : Int} (h0 : 0 ≤ a) (h : a < 65536) : decode (encode a b) = (a, b) := by
  unfold decode encode
  refine Prod.ext ?_ ?_ <;> dsimp only <;> omega

example : decode (encode 12 7) = (12, 7) := by decide

theorem idle_length {n : Nat} {l : List Int} (h : Idle n l) : l.length = n := by
  rw [h.length_eq]
  simp

theorem pushes (b : Int) (l : List Int) : ∀ k : Nat,
    (List.range k).foldl (fun l (i : Nat) => (b - i - 1) :: l) l = (List.range k).map (fun i : Nat => b - k + i) ++ l := by
  intro k
  induction k with
  | zero => rfl
  | succ k ih =>
    rw [List.range_succ, List.foldl_append, ih, ← List.range_succ, List.range_succ_eq_map, List.map_cons, List.cons_append, List.map_map]
    simp only [List.foldl_cons, List.foldl_nil]
    refine congrArg₂ _ ?_ (congrArg (· ++ l) (List.map_congr_left fun i _ => ?_))
    · push_cast
      omega
    · simp only [Function.comp_apply]
      push_cast
      omega

theorem Fn.allocRange_idle {f : Fn} (hn : f.needs = true) (hi : Idle f.n f.unused) (k : Nat) :
    f.allocRange k = ((0, (k : Int)), ⟨true, k, []⟩) := by
  unfold Fn.allocRange
  rw [if_pos hn, idle_length hi]
  simp [hn]

theorem Fn.releaseRange_idle (k : Nat) : ∃ f' : Fn, (⟨true, k, []⟩ : Fn).releaseRange (0, (k : Int)) = some f' ∧ f'.needs = true ∧
    f'.n = k ∧ Idle f'.n f'.unused := by
  refine ⟨⟨true, k, (List.range k).map (fun i : Nat => (i : Int))⟩, ?_, rfl, rfl, List.Perm.refl _⟩
  unfold Fn.releaseRange
  rw [if_pos rfl, if_pos (by omega)]
  dsimp only
  rw [pushes]
  simp

theorem Fn.own (k : Nat) : Own k k [] fun t => (⟨true, k, []⟩ : Fn).mem t := by
  have h : ∀ t : Nat, t < k → (⟨true, k, []⟩ : Fn).mem t = some (some t) := by
    intro t ht
    unfold Fn.mem
    rw [if_neg (by simp), if_pos (by exact_mod_cast ht)]
    rfl
  refine ⟨fun t ht => ⟨t, h t ht, ht, by simp⟩, fun t u ht hu e => ?_⟩
  rw [h t ht, h u hu]
  simpa using e

theorem Fn.mem_none {f : Fn} (h : f.needs = false) (i : Int) : f.mem i = some none := by
  unfold Fn.mem
  rw [if_pos (Or.inl h)]

/-- what is wanted of one function during an assembling with `k` threads -/
def Served (k : Nat) (f : Fn) : Prop := (f.needs = true → Own k f.n f.unused fun t => f.mem t) ∧ (f.needs = false → ∀ t : Nat, f.mem t = some none)

/-- **C71** (one function): the threads have memory of their own, and after the release all memory is free again. -/
theorem one_function {f : Fn} (hi : Idle f.n f.unused) (k : Nat) :
    Served k (f.allocRange k).2 ∧ ∃ f', (f.allocRange k).2.releaseRange (f.allocRange k).1 = some f' ∧ f'.needs = f.needs ∧ Idle f'.n f'.unused := by
  cases hn : f.needs with
  | true =>
    rw [Fn.allocRange_idle hn hi]
    obtain ⟨f', h1, h2, -, h3⟩ := Fn.releaseRange_idle k
    exact ⟨⟨fun _ => Fn.own k, fun h => absurd h (by simp)⟩, f', h1, h2, h3⟩
  | false =>
    have e : f.allocRange k = ((-(k : Int), 0), f) := by simp [Fn.allocRange, hn]
    rw [e]
    exact ⟨⟨fun h => absurd h (by simp [hn]), fun _ t => Fn.mem_none hn _⟩, f, by simp [Fn.releaseRange, hn], hn, hi⟩

example : Idle 3 [2, 0, 1] := by
  show List.Perm _ _
  decide

/-- no function of the wrapper is in use -/
def AllIdle (w : Sys) : Prop := Idle w.mat.n w.mat.unused ∧ ∀ r, w.rhs = some r → Idle r.n r.unused

/-- both functions want memory, or neither -/
def Alike (w : Sys) : Prop := ∀ r, w.rhs = some r → r.needs = w.mat.needs

/-- **C71** (system): when both functions want memory or neither does, and there are less than `65536` threads, then every thread has memory of its own
in both functions, and after the assembling all memory is free again.  Partial: see `rhs_only_wrong`, `mat_only_wrong`, `busy_wrong`. -/
theorem system_memory_partial {w : Sys} (hi : AllIdle w) (ha : Alike w) {k : Nat} (hk : 1 ≤ k) (hk' : k < 65536) :
    ∃ e w', w.allocRange k = some (e, w') ∧ Served k w'.mat ∧ (∀ r, w'.rhs = some r → Served k r) ∧
      ∃ w'', w'.releaseRange e = some w'' ∧ AllIdle w'' ∧ Alike w'' ∧ w''.mat.needs = w.mat.needs ∧ w''.rhs.isSome = w.rhs.isSome := by
  obtain ⟨f, g⟩ := w
  obtain ⟨i1, i2⟩ := hi
  dsimp only at i1 i2
  cases g with
  | none =>
    obtain ⟨h1, f', h2, h3, h4⟩ := one_function i1 k
    refine ⟨_, _, rfl, h1, fun r hr => absurd hr (by simp), ⟨f', none⟩, ?_, ⟨h4, fun r hr => absurd hr (by simp)⟩, fun r hr => absurd hr (by simp), h3, rfl⟩
    show Option.map _ ((f.allocRange k).2.releaseRange (encode (f.allocRange k).1.1 0, encode (f.allocRange k).1.2 0)) = _
    have e : ∀ a, encode a 0 = a := fun a => by unfold encode; omega
    rw [e, e, h2]
    rfl
  | some r =>
    have e : r.needs = f.needs := ha r rfl
    have j := i2 r rfl
    cases hn : f.needs with
    | true =>
      rw [hn] at e
      obtain ⟨f', a1, a2, -, a3⟩ := Fn.releaseRange_idle k
      refine ⟨(encode 0 0, encode k k), ⟨⟨true, k, []⟩, some ⟨true, k, []⟩⟩, ?_, ⟨fun _ => Fn.own k, fun h => absurd h (by simp)⟩,
        fun r hr => ?_, ⟨f', some f'⟩, ?_, ⟨a3, fun r hr => ?_⟩, fun r hr => ?_, a2, rfl⟩
      · simp only [Sys.allocRange, Fn.allocRange_idle hn i1, Fn.allocRange_idle e j]
        rw [if_pos (by omega), if_neg (by omega)]
      · obtain rfl := Option.some.inj hr
        exact ⟨fun _ => Fn.own k, fun h => absurd h (by simp)⟩
      · have d0 : decode (encode 0 0) = (0, 0) := by decide
        have dk : decode (encode k k) = ((k : Int), (k : Int)) := decode_encode (by omega) (by omega)
        simp only [Sys.releaseRange, d0, dk, a1, Option.bind_some, Option.map_some]
      · obtain rfl := Option.some.inj hr
        exact a3
      · obtain rfl := Option.some.inj hr
        rfl
    | false =>
      rw [hn] at e
      have e1 : f.allocRange k = ((-(k : Int), 0), f) := by simp [Fn.allocRange, hn]
      refine ⟨(encode (-k) 0, encode 0 0), ⟨f, some r⟩, ?_, ⟨fun h => absurd h (by simp [hn]), fun _ t => Fn.mem_none hn _⟩, fun r' hr => ?_,
        ⟨f, some r⟩, ?_, ⟨i1, fun r' hr => ?_⟩, fun r' hr => ?_, hn, rfl⟩
      · simp only [Sys.allocRange, e1]
        rw [if_neg (by omega)]
      · obtain rfl := Option.some.inj hr
        exact ⟨fun h => absurd h (by simp [e]), fun _ t => Fn.mem_none e _⟩
      · simp [Sys.releaseRange, Fn.releaseRange, hn, e]
      · obtain rfl := Option.some.inj hr
        exact j
      · obtain rfl := Option.some.inj hr
        rw [e, hn]

/-- **C71** (many assemblings): any number of assemblings with any numbers of threads one after another. -/
theorem assemblings_partial (ks : List Nat) (hk : ∀ k ∈ ks, 1 ≤ k ∧ k < 65536) : ∀ {w : Sys}, AllIdle w → Alike w →
    ∃ w', w.assemblings ks = some w' ∧ AllIdle w' ∧ Alike w' := by
  induction ks with
  | nil => exact fun hi ha => ⟨_, rfl, hi, ha⟩
  | cons k ks ih =>
    intro w hi ha
    obtain ⟨h1, h2⟩ := hk k (List.mem_cons_self ..)
    obtain ⟨e, w', g1, -, -, w'', g2, g3, g4, -, -⟩ := system_memory_partial hi ha h1 h2
    obtain ⟨x, x1, x2⟩ := ih (fun k' hk' => hk k' (List.mem_cons_of_mem _ hk')) g3 g4
    refine ⟨x, ?_, x2⟩
    have : w.assembling k = some w'' := by
      unfold Sys.assembling
      rw [g1]
      exact g2
    unfold Sys.assemblings
    rw [this]
    exact x1

/-- two functions with memory, three threads and then two -/
example : ∃ w', (⟨⟨true, 0, []⟩, some ⟨true, 0, []⟩⟩ : Sys).assemblings [3, 2] = some w' ∧ AllIdle w' ∧ Alike w' := by
  refine assemblings_partial _ (by decide) ⟨List.Perm.refl _, fun r hr => ?_⟩ fun r hr => ?_ <;> obtain rfl := Option.some.inj hr
  · exact List.Perm.refl _
  · rfl

/-! ### Where it goes wrong -/

/-- Only the function of the right-hand side wants memory: it never gets any, the first call with any thread reads outside of its vector; and the release
puts a slot `-1` on its free list. -/
theorem rhs_only_wrong {f r : Fn} (hf : f.needs = false) (hr : r.needs = true) (h0 : r.n = 0) {k : Nat} (hk : 1 ≤ k) (hk' : k ≤ 65536) :
    ∃ e w', (⟨f, some r⟩ : Sys).allocRange k = some (e, w') ∧ (∀ t : Nat, w'.rhsMem t = none) ∧
      ∃ w'' r'', w'.releaseRange e = some w'' ∧ w''.rhs = some r'' ∧ -1 ∈ r''.unused := by
  have e1 : f.allocRange k = ((-(k : Int), 0), f) := by simp [Fn.allocRange, hf]
  refine ⟨(encode (-k) 0, encode 0 0), ⟨f, some r⟩, ?_, fun t => ?_, ⟨f, some ⟨true, r.n, -1 :: r.unused⟩⟩, _, ?_, rfl, List.mem_cons_self ..⟩
  · simp only [Sys.allocRange, e1]
    rw [if_neg (by omega)]
  · show r.mem t = none
    unfold Fn.mem
    rw [if_neg (by rw [hr]; simp), if_neg (by omega)]
  · have d1 : (decode (encode (-k) 0)).2 = -1 := by
      unfold decode encode
      dsimp only
      omega
    have d2 : decode (encode 0 0) = (0, 0) := by decide
    simp only [Sys.releaseRange, Fn.releaseRange, hf, hr, d1, d2]
    simp

/-- Only the function of the matrix wants memory: what was allocated is given back at once, so the memory in use counts as free, and the release at the
end of the assembling throws. -/
theorem mat_only_wrong {f r : Fn} (hf : f.needs = true) (hi : Idle f.n f.unused) (hr : r.needs = false) {k : Nat} (hk : 1 ≤ k) (hk' : k < 32768) :
    ∃ e w', (⟨f, some r⟩ : Sys).allocRange k = some (e, w') ∧ (∀ t : Nat, t < k → w'.matMem t = some (some t) ∧ (t : Int) ∈ w'.mat.unused) ∧
      w'.releaseRange e = none := by
  have e2 : r.allocRange k = ((-(k : Int), 0), r) := by simp [Fn.allocRange, hr]
  obtain ⟨f', a1, a2, a3, a4⟩ := Fn.releaseRange_idle k
  refine ⟨(-k, 0), ⟨f', some r⟩, ?_, fun t ht => ⟨?_, ?_⟩, ?_⟩
  · simp only [Sys.allocRange, Fn.allocRange_idle hf hi, e2]
    rw [if_pos (by omega), if_pos (by omega), a1]
    rfl
  · show f'.mem t = _
    unfold Fn.mem
    rw [if_neg (by rw [a2]; simp), if_pos (by rw [a3]; omega)]
    rfl
  · show (t : Int) ∈ f'.unused
    rw [a4.mem_iff, a3]
    exact List.mem_map.2 ⟨t, List.mem_range.2 ht, rfl⟩
  · have d1 : (decode (-k)).1 = 65536 - k := by
      unfold decode
      dsimp only
      omega
    have d2 : (decode 0).1 = 0 := by decide
    have l := idle_length a4
    have : f'.releaseRange (65536 - (k : Int), 0) = none := by
      unfold Fn.releaseRange
      rw [if_pos a2]
      dsimp only
      rw [if_neg (by omega), if_neg (by omega)]
    simp only [Sys.releaseRange, d1, d2, this, Option.bind_none]

/-- Every thread defragments the slot `0` of the right-hand side, which belongs to thread `0`, while that one is working. -/
theorem defragment_wrong (w : Sys) (r : Fn) (h : w.rhs = some r) (hr : r.needs = true) (h0 : 0 < r.n) (t : Nat) (ht : t < 65536) :
    (w.defragmented t).2 = w.rhsMem (0 : Nat) ∧ w.rhsMem (0 : Nat) = some (some 0) := by
  have d : (decode t).2 = 0 := by
    unfold decode
    dsimp only
    omega
  have m : r.mem 0 = some (some 0) := by
    unfold Fn.mem
    rw [if_neg (by rw [hr]; simp), if_pos (by omega)]
    rfl
  refine ⟨?_, ?_⟩
  · simp only [Sys.defragmented, h, d, Sys.rhsMem, Option.elim]
    rfl
  · simp only [Sys.rhsMem, h, Option.elim]
    exact m

/-- When a slot is held by somebody else the range starts behind all slots, but the threads use the slots from `0` on. -/
theorem busy_wrong {f : Fn} (hn : f.needs = true) (hb : f.unused.length ≠ f.n) (k : Nat) {t : Nat} (htn : t < f.n) :
    (f.allocRange k).1 = ((f.n : Int), (f.n : Int) + k) ∧ (f.allocRange k).2.mem t = some (some t) := by
  have e : f.allocRange k = (((f.n : Int), (f.n : Int) + k), ⟨true, f.n + k, f.unused⟩) := by
    simp [Fn.allocRange, hn, hb]
  rw [e]
  refine ⟨rfl, ?_⟩
  unfold Fn.mem
  rw [if_neg (by simp), if_pos (by push_cast; omega)]
  rfl

/-- With `65536` threads the range given back is not the one which was allocated. -/
theorem many_threads_wrong : decode (encode 65536 65536) = (0, 65537) := by decide

/-- Memory for a single thread: both functions are called with the number that holds both slots, so the matrix function works outside of its vector
whenever the right-hand side got a slot other than `0`. -/
theorem single_wrong {w : Sys} {r : Fn} (h : w.rhs = some r) (hm : w.mat.needs = true) {a b : Nat} (hn : w.mat.alloc.2.n ≤ 65536)
    (ha : w.mat.alloc.1 = a) (hb : r.alloc.1 = b) (hb1 : 1 ≤ b) : w.alloc.1 = encode a b ∧ w.alloc.2.matMem w.alloc.1 = none := by
  have e : w.alloc = (encode a b, ⟨w.mat.alloc.2, some r.alloc.2⟩) := by
    simp only [Sys.alloc, h, ha, hb]
    rw [if_pos (by omega), if_neg (by omega)]
  have hm' : w.mat.alloc.2.needs = true := by
    unfold Fn.alloc
    rw [if_pos hm]
    cases w.mat.unused <;> exact hm
  rw [e]
  refine ⟨rfl, ?_⟩
  show w.mat.alloc.2.mem (encode a b) = none
  unfold Fn.mem encode
  rw [if_neg (by rw [hm']; simp; omega), if_neg (by omega)]

/-- The two slots are given back to the right functions nevertheless. -/
theorem single_release {w : Sys} {r : Fn} (h : w.rhs = some r) {a b : Nat} (ha : w.mat.alloc.1 = a) (hb : r.alloc.1 = b) (ha' : a < 65536) :
    w.alloc.2.release w.alloc.1 = ⟨w.mat.alloc.2.release a, some (r.alloc.2.release b)⟩ := by
  have e : w.alloc = (encode a b, ⟨w.mat.alloc.2, some r.alloc.2⟩) := by
    simp only [Sys.alloc, h, ha, hb]
    rw [if_pos (by omega), if_neg (by omega)]
  rw [e]
  simp only [Sys.release, decode_encode (a := (a : Int)) (b := (b : Int)) (by omega) (by omega)]

/-! ### Instances -/

example : (⟨⟨false, 0, []⟩, some ⟨true, 0, []⟩⟩ : Sys).allocRange 4 = some ((-4, 0), ⟨⟨false, 0, []⟩, some ⟨true, 0, []⟩⟩) := by decide
example : (⟨⟨true, 0, []⟩, some ⟨false, 0, []⟩⟩ : Sys).assembling 4 = none := by decide
-- one function in use elsewhere with slot 0: thread 0 works with it, too
example : (⟨true, 1, []⟩ : Fn).allocRange 2 = ((1, 3), ⟨true, 3, []⟩) ∧ (⟨true, 3, []⟩ : Fn).mem 0 = some (some 0) := by decide
example : (⟨⟨true, 0, []⟩, some ⟨true, 1, []⟩⟩ : Sys).alloc.1 = 65536 := by decide
example : (⟨⟨true, 3, []⟩, some ⟨true, 3, []⟩⟩ : Sys).defragmented 2 = (some (some 2), some (some 0)) := by decide

end Verif.FnMem
