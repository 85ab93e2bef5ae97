import Verif.Model.Float
import Mathlib.Algebra.Order.Field.Power
import Mathlib.Tactic.NormNum
import Mathlib.Tactic.Linarith
import Mathlib.Tactic.FieldSimp
import Mathlib.Tactic.Positivity
import Mathlib.Tactic.Ring
import Mathlib.Tactic.IntervalCases

/-!
# Property C76: the sample times of `measured_errors` in double precision
-/

namespace Dxss.Fl

/-! ### rounding -/

theorem roundEven_le {y : ℚ} : (roundEven y : ℚ) ≤ y + 1 / 2 := by
  unfold roundEven
  have := Int.floor_le y
  split_ifs with h1 h2 h3 <;> push_cast <;> linarith

theorem le_roundEven {y : ℚ} : y - 1 / 2 ≤ roundEven y := by
  unfold roundEven
  have := Int.lt_floor_add_one y
  split_ifs with h1 h2 h3 <;> push_cast <;> linarith

theorem roundEven_eq {y : ℚ} {m : ℤ} (h : |y - m| < 1 / 2) : roundEven y = m := by
  rw [abs_lt] at h
  have h1 := roundEven_le (y := y)
  have h2 := le_roundEven (y := y)
  have h3 : ((roundEven y : ℤ) : ℚ) < (m : ℚ) + 1 := by linarith
  have h4 : (m : ℚ) - 1 < ((roundEven y : ℤ) : ℚ) := by linarith
  have h5 : roundEven y < m + 1 := by exact_mod_cast h3
  have h6 : m - 1 < roundEven y := by exact_mod_cast h4
  omega

/-- `roundEven` is the rounding of IEEE 754: the nearest integer, and of two nearest ones the even one. -/
theorem C76_rounding {y : ℚ} {m : ℤ} : roundEven y = m ↔ |y - m| < 1 / 2 ∨ |y - m| = 1 / 2 ∧ m % 2 = 0 := by
  have h1 := roundEven_le (y := y)
  have h2 := le_roundEven (y := y)
  have f1 := Int.floor_le y
  have f2 := Int.lt_floor_add_one y
  constructor
  · intro h
    by_cases e : |y - m| < 1 / 2
    · exact .inl e
    rw [h] at h1 h2
    have e' : |y - m| ≤ 1 / 2 := abs_le.2 ⟨by linarith, by linarith⟩
    refine .inr ⟨le_antisymm e' (not_lt.1 e), ?_⟩
    unfold roundEven at h
    split_ifs at h with a b c
    · refine absurd ?_ e; rw [← h, abs_lt]; constructor <;> linarith
    · refine absurd ?_ e; rw [← h, abs_lt]; push_cast; constructor <;> linarith
    · rw [← h]; exact c
    · rw [← h]; omega
  · rintro (h | ⟨h, hm⟩)
    · exact roundEven_eq h
    · rcases (abs_eq (by norm_num)).1 h with e | e
      · have hf : ⌊y⌋ = m := by rw [Int.floor_eq_iff]; constructor <;> linarith
        unfold roundEven
        rw [hf, if_neg (by linarith), if_neg (by linarith), if_pos hm]
      · have hf : ⌊y⌋ = m - 1 := by rw [Int.floor_eq_iff]; push_cast; constructor <;> linarith
        unfold roundEven
        rw [hf, if_neg (by push_cast; linarith), if_neg (by push_cast; linarith), if_neg (by omega)]
        ring

example : roundEven (5 / 2) = 2 ∧ roundEven (7 / 2) = 4 :=
  ⟨C76_rounding.2 (.inr ⟨by norm_num [abs_of_pos], by norm_num⟩), C76_rounding.2 (.inr ⟨by norm_num [abs_of_neg], by norm_num⟩)⟩

/-- Error of one rounding. -/
theorem fl_bounds {x : ℚ} (hx : 0 ≤ x) : x * (1 - 1 / 2 ^ 53) ≤ fl x ∧ fl x ≤ x * (1 + 1 / 2 ^ 53) := by
  unfold fl
  split_ifs with h0
  · simp [h0]
  · have hx : 0 < x := lt_of_le_of_ne hx (Ne.symm h0)
    have hp : (0 : ℚ) < 2 ^ (Int.log 2 x - 52) := by positivity
    have hl : (2 : ℚ) ^ (Int.log 2 x - 52) ≤ x * (1 / 2 ^ 52) := by
      have := Int.zpow_log_le_self (b := 2) (r := x) (by norm_num) hx
      rw [zpow_sub₀ (by norm_num)]
      push_cast at this
      rw [div_eq_mul_one_div]
      exact mul_le_mul_of_nonneg_right this (by positivity)
    generalize hE : (2 : ℚ) ^ (Int.log 2 x - 52) = E at *
    have e : x / E * E = x := div_mul_cancel₀ _ hp.ne'
    constructor
    · have := mul_le_mul_of_nonneg_right (le_roundEven (y := x / E)) hp.le
      rw [sub_mul, e] at this
      norm_num at this hl ⊢
      linarith
    · have := mul_le_mul_of_nonneg_right (roundEven_le (y := x / E)) hp.le
      rw [add_mul, e] at this
      norm_num at this hl ⊢
      linarith

theorem fl_nonneg {x : ℚ} (hx : 0 ≤ x) : 0 ≤ fl x :=
  le_trans (mul_nonneg hx (by norm_num)) (fl_bounds hx).1

/-- The value of a rounding. -/
theorem fl_eq {x : ℚ} (e : ℤ) (m : ℤ) (h1 : 2 ^ (e + 52) ≤ x) (h2 : x < 2 ^ (e + 53)) (h : |x - m * 2 ^ e| < 2 ^ e / 2) :
    fl x = m * 2 ^ e := by
  have hx : 0 < x := lt_of_lt_of_le (by positivity) h1
  have hl : Int.log 2 x = e + 52 := by
    refine le_antisymm ?_ ?_
    · have := (Int.lt_zpow_iff_log_lt (b := 2) (by norm_num) (x := e + 53) hx).1 (by exact_mod_cast h2)
      omega
    · exact (Int.zpow_le_iff_le_log (b := 2) (by norm_num) hx).1 (by exact_mod_cast h1)
  have hp : (0 : ℚ) < 2 ^ e := by positivity
  rw [fl, if_neg hx.ne', hl, add_sub_cancel_right, roundEven_eq (m := m)]
  have : x / 2 ^ e - m = (x - m * 2 ^ e) / 2 ^ e := by field_simp
  rw [this, abs_div, abs_of_pos hp, div_lt_iff₀ hp]
  linarith

/-- Multiples of a power of two are not rounded. -/
theorem fl_exact {n : ℕ} (hn : n ≤ 2 ^ 53) (a : ℤ) : fl (n * 2 ^ a) = n * 2 ^ a := by
  rcases Nat.eq_zero_or_pos n with rfl | h0
  · simp [fl]
  have hx : (0 : ℚ) < n * 2 ^ a := by positivity
  set l := Int.log 2 ((n : ℚ) * 2 ^ a) with hl
  have h1 : ((2 : ℕ) : ℚ) ^ l ≤ n * 2 ^ a := Int.zpow_log_le_self (by norm_num) hx
  have h2 : (n : ℚ) * 2 ^ a < ((2 : ℕ) : ℚ) ^ (l + 1) := Int.lt_zpow_succ_log_self (by norm_num) _
  push_cast at h1 h2
  have hp : (0 : ℚ) < 2 ^ (l - 52) := by positivity
  rw [fl, if_neg hx.ne', ← hl]
  -- either `a ≥ l - 52`, or the number is `2^53 * 2^a`
  have hla : l - 53 ≤ a := by
    by_contra hc
    push Not at hc
    have hn' : (n : ℚ) ≤ 2 ^ (53 : ℤ) := by exact_mod_cast hn
    have : (n : ℚ) * 2 ^ a ≤ 2 ^ (53 : ℤ) * 2 ^ a := mul_le_mul_of_nonneg_right hn' (by positivity)
    rw [← zpow_add₀ (by norm_num)] at this
    have h3 : (2 : ℚ) ^ l ≤ 2 ^ (53 + a) := h1.trans this
    have := (zpow_le_zpow_iff_right₀ (by norm_num : (1 : ℚ) < 2)).1 h3
    omega
  have key : ∃ m : ℤ, (n : ℚ) * 2 ^ a = m * 2 ^ (l - 52) := by
    by_cases h3 : l - 52 ≤ a
    · refine ⟨n * 2 ^ (a - (l - 52)).toNat, ?_⟩
      push_cast
      rw [mul_assoc, ← zpow_natCast, ← zpow_add₀ (by norm_num)]
      congr 2
      omega
    · have ha : a = l - 53 := by omega
      have : (2 : ℚ) ^ l ≤ n * 2 ^ a := h1
      have h4 : (2 : ℚ) ^ (53 : ℤ) ≤ n := by
        rw [ha, zpow_sub₀ (by norm_num), mul_div_assoc', le_div_iff₀ (by positivity)] at this
        have hp' : (0 : ℚ) < 2 ^ l := by positivity
        rw [mul_comm] at this
        exact le_of_mul_le_mul_right this hp'
      have h5 : n = 2 ^ 53 := le_antisymm hn (by exact_mod_cast h4)
      refine ⟨2 ^ 52, ?_⟩
      rw [h5, ha]
      rw [show l - 52 = (l - 53) + 1 by ring, zpow_add₀ (by norm_num)]
      push_cast; ring
  obtain ⟨m, hm⟩ := key
  rw [roundEven_eq (m := m)]
  · exact hm.symm
  · rw [hm, mul_div_cancel_right₀ _ hp.ne']; norm_num

/-! ## C76 -/

/-- Full statement: for every final time and every number of slabs, each of the 105 sample times is found in some slab.
False, see `C76_violated`. -/
def C76_statement : Prop := ∀ (T : ℚ) (N : ℕ), 0 < T → fl T = T → 1 ≤ N → ∀ i ≤ 104, ∃ n < N, inSlab T N n (sample T i)

/-- C76: if neither the final time nor the number of slabs introduces roundings (powers of two, as in all scripts of the
package), every sample time is found in some slab. -/
theorem C76_power_of_two_partial (a : ℤ) {k : ℕ} (hk : k ≤ 52) {i : ℕ} (hi : i ≤ 104) :
    ∃ n < 2 ^ k, inSlab (2 ^ a) (2 ^ k) n (sample (2 ^ a) i) := by
  have hT : (0 : ℚ) < 2 ^ a := by positivity
  have hN : (2 : ℕ) ^ k ≤ 2 ^ 52 := Nat.pow_le_pow_right (by norm_num) hk
  have hdt : deltaT (2 ^ a) (2 ^ k) = 2 ^ (a - k) := by
    have := fl_exact (n := 1) (by norm_num) (a - k)
    rw [Nat.cast_one, one_mul] at this
    rw [deltaT, show (2 : ℚ) ^ a / ((2 ^ k : ℕ) : ℚ) = 2 ^ (a - k) by
      rw [zpow_sub₀ (by norm_num), zpow_natCast]; push_cast; rfl, this]
  have hd : (0 : ℚ) < 2 ^ (a - k) := by positivity
  have hst : ∀ n ≤ 2 ^ k, slabStart (2 ^ a) (2 ^ k) n = n * 2 ^ (a - k) := fun n hn => by
    rw [slabStart, hdt, fl_exact (by omega)]
  have hen : ∀ n < 2 ^ k, slabEnd (2 ^ a) (2 ^ k) n = ((n + 1 : ℕ) : ℚ) * 2 ^ (a - k) := fun n hn => by
    rw [slabEnd, hst n hn.le, hdt, ← fl_exact (n := n + 1) (by omega)]
    congr 1
    push_cast; ring
  have htot : (2 : ℚ) ^ a = ((2 ^ k : ℕ) : ℚ) * 2 ^ (a - k) := by
    rw [zpow_sub₀ (by norm_num), zpow_natCast]; push_cast; field_simp
  -- the sample lies in `[0, T]`
  have hs : 0 ≤ sample (2 ^ a) i ∧ sample (2 ^ a) i ≤ 2 ^ a := by
    unfold sample
    split_ifs with h104
    · exact ⟨hT.le, le_rfl⟩
    · have h0 : (0 : ℚ) ≤ 2 ^ a / 104 := by positivity
      have h1 := fl_bounds h0
      have h2 : (0 : ℚ) ≤ i * fl (2 ^ a / 104) := mul_nonneg (Nat.cast_nonneg _) (fl_nonneg h0)
      have h3 := fl_bounds h2
      rw [add_zero]
      have h4 := fl_bounds (fl_nonneg h2)
      refine ⟨fl_nonneg (fl_nonneg h2), ?_⟩
      have hi' : (i : ℚ) ≤ 103 := by exact_mod_cast (by omega : i ≤ 103)
      have h5 : (i : ℚ) * fl (2 ^ a / 104) ≤ 103 * fl (2 ^ a / 104) := mul_le_mul_of_nonneg_right hi' (fl_nonneg h0)
      norm_num at h1 h3 h4 ⊢
      linarith
  obtain ⟨h0, h1⟩ := hs
  generalize sample (2 ^ a) i = s at *
  by_cases hmax : s = 2 ^ a
  · have hpos : 0 < 2 ^ k := Nat.pos_of_ne_zero (by positivity)
    refine ⟨2 ^ k - 1, by omega, ?_, ?_⟩
    · rw [hst _ (by omega), hmax, htot]
      refine mul_le_mul_of_nonneg_right ?_ hd.le
      exact_mod_cast Nat.sub_le _ _
    · rw [hen _ (by omega), Nat.sub_add_cancel (by omega), ← htot, hmax]
  · have hlt : s < 2 ^ a := lt_of_le_of_ne h1 hmax
    have hq : s / 2 ^ (a - k) < ((2 ^ k : ℕ) : ℚ) := by rw [div_lt_iff₀ hd, ← htot]; exact hlt
    have hfl : ⌊s / 2 ^ (a - k)⌋₊ < 2 ^ k := by
      rw [Nat.floor_lt (by positivity)]; exact hq
    refine ⟨_, hfl, ?_, ?_⟩
    · rw [hst _ hfl.le, ← le_div_iff₀ hd]
      exact Nat.floor_le (by positivity)
    · rw [hen _ hfl, ← div_le_iff₀ hd]
      push_cast
      exact (Nat.lt_floor_add_one _).le

/-- C76, any `T` and `N`: a time in `[0, T]` that is not found in any slab is within `2⁻⁵¹ T` of one of the slab boundaries
`T/N, 2T/N, …, T`. -/
theorem C76_missed_near_boundary_partial {T : ℚ} (hT : 0 < T) {N : ℕ} (hN : 1 ≤ N) {s : ℚ} (h0 : 0 ≤ s) (h1 : s ≤ T)
    (hmiss : ∀ n < N, ¬ inSlab T N n s) : ∃ n, 1 ≤ n ∧ n ≤ N ∧ |s - n * T / N| ≤ T / 2 ^ 51 := by
  by_contra hc
  push Not at hc
  have hN' : (0 : ℚ) < N := by exact_mod_cast hN
  have hh : (0 : ℚ) < T / N := by positivity
  have hd := fl_bounds hh.le
  -- the slab that contains `s`
  have hlt : s < T := by
    rcases lt_or_eq_of_le h1 with h | h
    · exact h
    · exfalso
      have := hc N hN le_rfl
      rw [h, mul_div_assoc, mul_div_cancel₀ _ hN'.ne', sub_self, abs_zero] at this
      linarith [div_pos hT (by norm_num : (0 : ℚ) < 2 ^ 51)]
  obtain ⟨n, hn, hl, hr⟩ : ∃ n < N, n * T / N ≤ s ∧ s < (n + 1 : ℕ) * T / N := by
    refine ⟨⌊s / (T / N)⌋₊, ?_, ?_, ?_⟩
    · rw [Nat.floor_lt (by positivity), div_lt_iff₀ hh, mul_div_cancel₀ _ hN'.ne']; exact hlt
    · rw [mul_div_assoc, ← le_div_iff₀ hh]; exact Nat.floor_le (by positivity)
    · rw [mul_div_assoc, ← div_lt_iff₀ hh]; push_cast; exact Nat.lt_floor_add_one _
  have hnN : (n : ℚ) ≤ N := by exact_mod_cast hn.le
  have hnN1 : ((n + 1 : ℕ) : ℚ) ≤ N := by exact_mod_cast hn
  have hs0 : (0 : ℚ) ≤ n * deltaT T N := mul_nonneg (Nat.cast_nonneg _) (fl_nonneg hh.le)
  have hst := fl_bounds hs0
  have hst0 : 0 ≤ slabStart T N n := fl_nonneg hs0
  have hd0 : 0 ≤ deltaT T N := fl_nonneg hh.le
  have hen := fl_bounds (add_nonneg hst0 hd0)
  have hnT : (n : ℚ) * (T / N) ≤ T := by rw [mul_div_assoc', div_le_iff₀ hN']; nlinarith
  have hnT1 : ((n + 1 : ℕ) : ℚ) * (T / N) ≤ T := by rw [mul_div_assoc', div_le_iff₀ hN']; nlinarith
  have hn0 : (0 : ℚ) ≤ n := Nat.cast_nonneg _
  have hnd1 : (n : ℚ) * deltaT T N ≤ n * (T / N * (1 + 1 / 2 ^ 53)) := mul_le_mul_of_nonneg_left hd.2 hn0
  have hnd2 : (n : ℚ) * (T / N * (1 - 1 / 2 ^ 53)) ≤ n * deltaT T N := mul_le_mul_of_nonneg_left hd.1 hn0
  refine hmiss n hn ⟨?_, ?_⟩
  · change fl (n * deltaT T N) ≤ s
    rcases Nat.eq_zero_or_pos n with h | hpos
    · subst h; simpa [fl] using h0
    · have hb := hc n hpos hn.le
      rw [abs_of_nonneg (by linarith)] at hb
      rw [mul_div_assoc] at hb hl
      rw [← mul_assoc] at hnd1
      generalize (n : ℚ) * (T / N) = b at *
      generalize (n : ℚ) * deltaT T N = D at *
      norm_num at hst hnd1 hb ⊢
      linarith
  · change s ≤ fl (slabStart T N n + deltaT T N)
    have hb := hc (n + 1) (by omega) hn
    rw [abs_of_neg (by linarith)] at hb
    rw [mul_div_assoc] at hb hr
    have hd1 : T / N * (1 - 1 / 2 ^ 53) ≤ deltaT T N := hd.1
    rw [← mul_assoc] at hnd2
    have hst1 : (n : ℚ) * deltaT T N * (1 - 1 / 2 ^ 53) ≤ slabStart T N n := hst.1
    have e : ((n + 1 : ℕ) : ℚ) * (T / N) = n * (T / N) + T / N := by push_cast; ring
    rw [e] at hb hr hnT1
    have hb0 : (0 : ℚ) ≤ n * (T / N) := by positivity
    have hen1 := hen.1
    generalize (n : ℚ) * (T / N) = b at *
    generalize (n : ℚ) * deltaT T N = D at *
    generalize T / (N : ℚ) = h at *
    generalize slabStart T N n = t at *
    generalize deltaT T N = d at *
    norm_num at hst1 hnd2 hb hd1 hen1 ⊢
    linarith

/-- One slab boundary of the witness. -/
theorem end_lt_one : ∀ n < 6, slabEnd 1 6 n < 1 := by
  intro n hn
  have hdt : deltaT 1 6 = 6004799503160661 * 2 ^ (-55 : ℤ) := by
    have := fl_eq (x := 1 / 6) (-55) 6004799503160661 (by norm_num) (by norm_num) (by rw [abs_lt]; constructor <;> norm_num)
    rw [deltaT]; exact_mod_cast this
  by_cases h5 : n = 5
  · subst h5
    have h1 : slabStart 1 6 5 = 7505999378950826 * 2 ^ (-53 : ℤ) := by
      have := fl_eq (x := 5 * (6004799503160661 * 2 ^ (-55 : ℤ))) (-53) 7505999378950826 (by norm_num) (by norm_num)
        (by rw [abs_lt]; constructor <;> norm_num)
      rw [slabStart, hdt]; exact_mod_cast this
    have h2 : slabEnd 1 6 5 = 9007199254740991 * 2 ^ (-53 : ℤ) := by
      have := fl_eq (x := 7505999378950826 * 2 ^ (-53 : ℤ) + 6004799503160661 * 2 ^ (-55 : ℤ)) (-53) 9007199254740991
        (by norm_num) (by norm_num) (by rw [abs_lt]; constructor <;> norm_num)
      rw [slabEnd, h1, hdt]; exact_mod_cast this
    rw [h2]; norm_num
  · have hn4 : (n : ℚ) ≤ 4 := by exact_mod_cast (by omega : n ≤ 4)
    have hd0 : (0 : ℚ) ≤ deltaT 1 6 := by rw [hdt]; positivity
    have h1 := (fl_bounds (mul_nonneg (Nat.cast_nonneg n) hd0)).2
    have h2 := (fl_bounds (add_nonneg (fl_nonneg (mul_nonneg (Nat.cast_nonneg n) hd0)) hd0)).2
    have h3 : (n : ℚ) * deltaT 1 6 ≤ 4 * deltaT 1 6 := mul_le_mul_of_nonneg_right hn4 hd0
    change fl (fl (n * deltaT 1 6) + deltaT 1 6) < 1
    rw [hdt] at *
    norm_num at h1 h2 h3 ⊢
    linarith

/-- C76 is false: with `T = 1` and six slabs the last slab ends at `1 - 2⁻⁵³`, and the errors at the final time are not
among the sampled ones. -/
theorem C76_violated : ¬ C76_statement := by
  intro h
  have h1 : fl 1 = 1 := by
    have := fl_exact (n := 1) (by norm_num) 0
    simpa using this
  obtain ⟨n, hn, -, hr⟩ := h 1 6 one_pos h1 (by norm_num) 104 le_rfl
  rw [sample, if_pos rfl] at hr
  exact absurd (end_lt_one n hn) (not_lt.2 hr)

/-! ## Examples -/

/-- The 1D script: `T = 1`, `N = 32`. -/
example (i : ℕ) (hi : i ≤ 104) : ∃ n < 2 ^ 5, inSlab (2 ^ (0 : ℤ)) (2 ^ 5) n (sample (2 ^ (0 : ℤ)) i) :=
  C76_power_of_two_partial 0 (by norm_num) hi

/-- The missed time of the witness. -/
example : ∃ n : ℕ, 1 ≤ n ∧ n ≤ 6 ∧ |(1 : ℚ) - n * 1 / (6 : ℕ)| ≤ 1 / 2 ^ 51 :=
  C76_missed_near_boundary_partial (T := 1) one_pos (N := 6) (by norm_num) zero_le_one le_rfl
    fun n hn h => absurd (end_lt_one n hn) (not_lt.2 h.2)

end Dxss.Fl
