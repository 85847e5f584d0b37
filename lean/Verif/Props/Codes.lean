import Verif.Model.Codes
import Mathlib.Data.Int.Basic
import Mathlib.Data.Nat.Bitwise

/-!
C28: signed index codes and pairs of memory numbers lose nothing.
-/
namespace Verif.Codes

theorem long?_eq {x : Int} (h1 : -2 ^ 63 ≤ x) (h2 : x < 2 ^ 63) : long? x = some x := by
  unfold long? isLong
  rw [if_pos (by simp only [Bool.and_eq_true, decide_eq_true_eq]; exact ⟨h1, h2⟩)]

/-- Where `char` is signed, every index below the largest `long` with either sign is encoded without overflow, never as
the reserved code, and decoded to itself. -/
theorem decode_encode (i s : Int) (h0 : 0 ≤ i) (h1 : i < 2 ^ 63 - 1) (hs : s = 1 ∨ s = charNeg true) :
    ∃ c, encode s i = some c ∧ c ≠ undef ∧ decode true c = some (i, s) := by
  have e1 : long? (i + 1) = some (i + 1) := long?_eq (by omega) (by omega)
  rcases hs with rfl | rfl
  · refine ⟨i + 1, ?_, ?_, ?_⟩
    · unfold encode
      rw [e1]
      simp only [Option.bind_eq_bind, Option.bind_some, one_mul]
      exact e1
    · unfold undef; omega
    · unfold decode
      rw [if_neg (by omega), if_neg (by omega), e1]
      simp only [Option.bind_eq_bind, Option.bind_some]
      rw [show i + 1 - 1 = i by omega, long?_eq (by omega) (by omega)]
      rfl
  · have e2 : charNeg true * (i + 1) = -(i + 1) := by
      show (-1) * (i + 1) = _
      rw [Int.neg_one_mul]
    refine ⟨-(i + 1), ?_, ?_, ?_⟩
    · unfold encode
      rw [e1]
      simp only [Option.bind_eq_bind, Option.bind_some]
      rw [e2]
      exact long?_eq (by omega) (by omega)
    · unfold undef; omega
    · unfold decode
      rw [if_pos (by omega), if_pos (by omega), Int.neg_neg, e1]
      simp only [Option.bind_eq_bind, Option.bind_some]
      rw [show i + 1 - 1 = i by omega, long?_eq (by omega) (by omega)]
      rfl

example : encode (-1) 41 = some (-42) ∧ decode true (-42) = some (41, -1) := by decide

/-- Every code except the reserved one and the smallest `long` comes from exactly its decoded index and sign. -/
theorem encode_decode (c : Int) (h0 : c ≠ undef) (h1 : -2 ^ 63 < c) (h2 : c < 2 ^ 63) :
    ∃ i s, decode true c = some (i, s) ∧ 0 ≤ i ∧ encode s i = some c := by
  unfold undef at h0
  by_cases h : c < 0
  · refine ⟨-c - 1, -1, ?_, by omega, ?_⟩
    · unfold decode
      rw [if_pos h, if_pos h, long?_eq (by omega) (by omega)]
      simp only [Option.bind_eq_bind, Option.bind_some]
      rw [long?_eq (by omega) (by omega)]
      rfl
    · unfold encode
      rw [show -c - 1 + 1 = -c by omega, long?_eq (by omega) (by omega)]
      simp only [Option.bind_eq_bind, Option.bind_some]
      rw [show (-1) * (-c) = c by rw [Int.neg_one_mul, Int.neg_neg]]
      exact long?_eq (by omega) (by omega)
  · refine ⟨c - 1, 1, ?_, by omega, ?_⟩
    · unfold decode
      rw [if_neg h, if_neg h, long?_eq (by omega) (by omega)]
      simp only [Option.bind_eq_bind, Option.bind_some]
      rw [long?_eq (by omega) (by omega)]
      rfl
    · unfold encode
      rw [show c - 1 + 1 = c by omega, long?_eq (by omega) (by omega)]
      simp only [Option.bind_eq_bind, Option.bind_some, Int.one_mul]
      exact long?_eq (by omega) (by omega)

example : decode true 7 = some (6, 1) ∧ encode 1 6 = some 7 := by decide

/-- Different signed indices have different codes. -/
theorem encode_injective (i j s t : Int) (hi : 0 ≤ i ∧ i < 2 ^ 63 - 1) (hj : 0 ≤ j ∧ j < 2 ^ 63 - 1)
    (hs : s = 1 ∨ s = charNeg true) (ht : t = 1 ∨ t = charNeg true) (h : encode s i = encode t j) : i = j ∧ s = t := by
  obtain ⟨c, e1, _, e2⟩ := decode_encode i s hi.1 hi.2 hs
  obtain ⟨d, e3, _, e4⟩ := decode_encode j t hj.1 hj.2 ht
  have : c = d := Option.some.inj (e1.symm.trans (h.trans e3))
  subst this
  have := Option.some.inj (e2.symm.trans e4)
  exact ⟨congrArg Prod.fst this, congrArg Prod.snd this⟩

example : encode 1 5 ≠ encode (charNeg true) 5 := by decide

/-- The reserved code decodes to the index `-1`, which is no index. -/
theorem decode_undef (sc : Bool) : decode sc undef = some (-1, 1) := by cases sc <;> decide

example : decode true undef = some (-1, 1) := decode_undef true

/-- Where `char` is unsigned, a negative sign is stored as `255` and every negatively oriented index is decoded to
another index with the positive sign. -/
theorem decode_encode_unsigned_wrong (i : Int) (h0 : 0 ≤ i) (h1 : i < 2 ^ 50) :
    ∃ c, encode (charNeg false) i = some c ∧ decode false c = some (255 * i + 254, 1) := by
  have e1 : long? (i + 1) = some (i + 1) := long?_eq (by omega) (by omega)
  have e2 : charNeg false * (i + 1) = 255 * i + 255 := by
    show (255 : Int) * (i + 1) = _
    omega
  refine ⟨255 * i + 255, ?_, ?_⟩
  · unfold encode
    rw [e1]
    simp only [Option.bind_eq_bind, Option.bind_some]
    rw [e2]
    exact long?_eq (by omega) (by omega)
  · unfold decode
    rw [if_neg (by omega), if_neg (by omega), long?_eq (by omega) (by omega)]
    simp only [Option.bind_eq_bind, Option.bind_some]
    rw [show 255 * i + 255 - 1 = 255 * i + 254 by omega, long?_eq (by omega) (by omega)]
    rfl

example : encode (charNeg false) 1 = some 510 ∧ decode false 510 = some (509, 1) := by decide

/-- A pair of memory numbers is restored from its code if the first is below `2^16`. -/
theorem decodeId_encodeId_partial (a b : Nat) (ha : a < 2 ^ 16) (hb : b < 2 ^ 47) :
    ∃ c, encodeId a b = some c ∧ decodeId c = (a, b) := by
  have hsh : b <<< 16 = b * 65536 := Nat.shiftLeft_eq b 16
  refine ⟨a + b * 65536, ?_, ?_⟩
  · unfold encodeId
    rw [hsh, if_pos (by omega)]
    simp only [Option.bind_eq_bind, Option.bind_some]
    rw [if_pos (by omega)]
  · unfold decodeId
    have e1 : (a + b * 65536) &&& 0xFFFF = (a + b * 65536) % 2 ^ 16 := Nat.and_two_pow_sub_one_eq_mod _ 16
    rw [e1, Nat.shiftRight_eq_div_pow]
    congr 1 <;> omega

example : encodeId 3 5 = some 327683 ∧ decodeId 327683 = (3, 5) := by decide

/-- A first number of `2^16` or more changes both numbers of the pair. -/
theorem decodeId_encodeId_wrong (a b : Nat) (ha : 2 ^ 16 ≤ a) (c : Nat) (h : encodeId a b = some c) :
    (decodeId c).1 < a ∧ b < (decodeId c).2 := by
  have hsh : b <<< 16 = b * 65536 := Nat.shiftLeft_eq b 16
  unfold encodeId at h
  rw [hsh] at h
  by_cases h1 : b * 65536 < 2 ^ 63
  · rw [if_pos h1] at h
    simp only [Option.bind_eq_bind, Option.bind_some] at h
    by_cases h2 : a + b * 65536 < 2 ^ 63
    · rw [if_pos h2] at h
      have := Option.some.inj h
      subst this
      unfold decodeId
      have e1 : (a + b * 65536) &&& 0xFFFF = (a + b * 65536) % 2 ^ 16 := Nat.and_two_pow_sub_one_eq_mod _ 16
      simp only
      rw [e1, Nat.shiftRight_eq_div_pow]
      omega
    · rw [if_neg h2] at h; exact absurd h (by simp)
  · rw [if_neg h1] at h; exact absurd h (by simp)

example : encodeId 65536 0 = some 65536 ∧ decodeId 65536 = (0, 1) := by decide

/-- A plain thread number, which is what the assembler passes to `defragment_memory` (assembler.inl:382), always
addresses memory number 0 of the right-hand side function. -/
theorem decodeId_thread_wrong (t : Nat) (ht : t < 2 ^ 16) : decodeId t = (t, 0) := by
  unfold decodeId
  have e1 : t &&& 0xFFFF = t % 2 ^ 16 := Nat.and_two_pow_sub_one_eq_mod _ 16
  rw [e1, Nat.shiftRight_eq_div_pow]
  congr 1 <;> omega

example : decodeId 3 = (3, 0) := by decide

end Verif.Codes
