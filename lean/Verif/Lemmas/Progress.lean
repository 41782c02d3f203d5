import Verif.Model.Progress
import Mathlib.Tactic.Linarith
import Mathlib.Tactic.Positivity
/-! Rounding of floating point numbers. -/
namespace Imageio.Progress

theorem halfEven_error (x : ℚ) : |(halfEven x : ℚ) - x| ≤ 1 / 2 := by
  have h1 := Int.floor_le x
  have h2 := Int.lt_floor_add_one x
  unfold halfEven
  rw [abs_le]
  split
  · constructor <;> linarith
  · split
    · push_cast; constructor <;> linarith
    · split
      · constructor <;> linarith
      · push_cast; constructor <;> linarith

theorem halfEven_int (n : ℤ) : halfEven (n : ℚ) = n := by
  unfold halfEven
  rw [Int.floor_intCast, sub_self, if_pos (by norm_num)]

theorem halfEven_mono {x y : ℚ} (h : x ≤ y) : halfEven x ≤ halfEven y := by
  have hf := Int.floor_le_floor h
  rcases lt_or_eq_of_le hf with hlt | heq
  · have a1 : halfEven x ≤ ⌊x⌋ + 1 := by unfold halfEven; split_ifs <;> omega
    have a2 : ⌊y⌋ ≤ halfEven y := by unfold halfEven; split_ifs <;> omega
    omega
  · unfold halfEven
    rw [heq]
    have : x - ⌊y⌋ ≤ y - ⌊y⌋ := by linarith
    split_ifs <;> first | omega | (exfalso; linarith)

theorem ulp_pos (x : ℚ) : 0 < ulp x := by unfold ulp; exact zpow_pos (by norm_num) _

theorem two_zpow_le {a b : ℤ} (h : a ≤ b) : (2 : ℚ) ^ a ≤ 2 ^ b := zpow_le_zpow_right₀ (by norm_num) h

/-- `x` in units of `ulp x` is between `2^52` and `2^53`. -/
theorem scaled {x : ℚ} (h : 0 < x) : (2 : ℚ) ^ 52 ≤ x / ulp x ∧ x / ulp x < 2 ^ 53 := by
  have h1 : ((2 : ℕ) : ℚ) ^ Int.log 2 x ≤ x := Int.zpow_log_le_self (by norm_num) h
  have h2 : x < ((2 : ℕ) : ℚ) ^ (Int.log 2 x + 1) := Int.lt_zpow_succ_log_self (by norm_num) x
  push_cast at h1 h2
  rw [le_div_iff₀ (ulp_pos x), div_lt_iff₀ (ulp_pos x)]
  unfold ulp
  rw [← zpow_natCast, ← zpow_natCast, ← zpow_add₀ (by norm_num), ← zpow_add₀ (by norm_num)]
  refine ⟨le_trans (two_zpow_le ?_) h1, lt_of_lt_of_le h2 (two_zpow_le ?_)⟩ <;> push_cast <;> omega

theorem nearest_pos {x : ℚ} (h : 0 < x) : nearest x = halfEven (x / ulp x) * ulp x := by
  unfold nearest; rw [if_neg h.ne']

/-- The error of the rounding is at most half of the spacing. -/
theorem nearest_error {x : ℚ} (h : 0 ≤ x) : |nearest x - x| ≤ x / 2 ^ 53 := by
  rcases h.eq_or_lt with rfl | h
  · simp [nearest]
  · rw [nearest_pos h]
    have hu := ulp_pos x
    have he := halfEven_error (x / ulp x)
    have hs := (scaled h).1
    rw [le_div_iff₀ hu] at hs
    have : (halfEven (x / ulp x) : ℚ) * ulp x - x = (halfEven (x / ulp x) - x / ulp x) * ulp x := by
      rw [sub_mul, div_mul_cancel₀ _ hu.ne']
    rw [this, abs_mul, abs_of_pos hu]
    have h3 : |(halfEven (x / ulp x) : ℚ) - x / ulp x| * ulp x ≤ 1 / 2 * ulp x := mul_le_mul_of_nonneg_right he hu.le
    refine h3.trans ?_
    rw [le_div_iff₀ (by positivity)]
    linarith

theorem halfEven_bounds {x : ℚ} (h : 0 < x) : (2 : ℚ) ^ Int.log 2 x ≤ nearest x ∧ nearest x ≤ 2 ^ (Int.log 2 x + 1) := by
  have hu := ulp_pos x
  obtain ⟨h1, h2⟩ := scaled h
  have a1 : ((2 ^ 52 : ℤ)) ≤ halfEven (x / ulp x) := by
    rw [← halfEven_int (2 ^ 52)]
    exact halfEven_mono (by push_cast; exact h1)
  have a2 : halfEven (x / ulp x) ≤ (2 ^ 53 : ℤ) := by
    rw [← halfEven_int (2 ^ 53)]
    exact halfEven_mono (by push_cast; exact h2.le)
  have a1 : (2 : ℚ) ^ 52 ≤ halfEven (x / ulp x) := by exact_mod_cast a1
  have a2 : (halfEven (x / ulp x) : ℚ) ≤ 2 ^ 53 := by exact_mod_cast a2
  rw [nearest_pos h]
  constructor
  · refine le_trans (le_of_eq ?_) (mul_le_mul_of_nonneg_right a1 hu.le)
    unfold ulp
    rw [← zpow_natCast, ← zpow_add₀ (by norm_num)]
    congr 1; push_cast; omega
  · refine le_trans (mul_le_mul_of_nonneg_right a2 hu.le) (le_of_eq ?_)
    unfold ulp
    rw [← zpow_natCast, ← zpow_add₀ (by norm_num)]
    congr 1; push_cast; omega

theorem nearest_nonneg {x : ℚ} (h : 0 ≤ x) : 0 ≤ nearest x := by
  rcases h.eq_or_lt with rfl | h
  · simp [nearest]
  · exact le_trans (zpow_pos (by norm_num) _).le (halfEven_bounds h).1

/-- Rounding keeps the order. -/
theorem nearest_mono {x y : ℚ} (hx : 0 ≤ x) (h : x ≤ y) : nearest x ≤ nearest y := by
  rcases hx.eq_or_lt with rfl | hx
  · rw [show nearest 0 = 0 by simp [nearest]]
    exact nearest_nonneg h
  · have hy : 0 < y := lt_of_lt_of_le hx h
    have hl : Int.log 2 x ≤ Int.log 2 y := Int.log_mono_right hx h
    rcases hl.eq_or_lt with heq | hlt
    · have hu : ulp x = ulp y := by unfold ulp; rw [heq]
      rw [nearest_pos hx, nearest_pos hy, hu]
      refine mul_le_mul_of_nonneg_right ?_ (ulp_pos y).le
      exact_mod_cast halfEven_mono (div_le_div_of_nonneg_right h (ulp_pos y).le)
    · exact (halfEven_bounds hx).2.trans ((two_zpow_le (by omega)).trans (halfEven_bounds hy).1)

/-- Integers up to `2^53` are not rounded. -/
theorem nearest_nat (n : Nat) (h : n < 2 ^ 53) : nearest n = n := by
  rcases Nat.eq_zero_or_pos n with rfl | hn
  · simp [nearest]
  · have hn' : (0 : ℚ) < n := by exact_mod_cast hn
    have hl : Int.log 2 (n : ℚ) = (Nat.log 2 n : Nat) := Int.log_natCast 2 n
    have hlog : Nat.log 2 n < 53 := Nat.log_lt_of_lt_pow hn.ne' h
    have hu : (ulp (n : ℚ))⁻¹ = ((2 ^ (52 - Nat.log 2 n) : ℤ) : ℚ) := by
      unfold ulp
      rw [hl, ← zpow_neg]
      push_cast
      rw [← zpow_natCast]
      congr 1; omega
    rw [nearest_pos hn', div_eq_mul_inv, hu, show (n : ℚ) * ((2 ^ (52 - Nat.log 2 n) : ℤ) : ℚ) =
      (((n : ℤ) * 2 ^ (52 - Nat.log 2 n) : ℤ) : ℚ) by push_cast; ring, halfEven_int]
    push_cast
    have := ulp_pos (n : ℚ)
    have hu' : ((2 : ℚ) ^ (52 - Nat.log 2 n)) = (ulp (n : ℚ))⁻¹ := by rw [hu]; push_cast; rfl
    rw [hu', mul_assoc, inv_mul_cancel₀ this.ne', mul_one]

end Imageio.Progress
