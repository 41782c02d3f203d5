import Verif.Lemmas.Progress
import Mathlib.Tactic.FieldSimp
/-! The percent of the progress bar, and its text. -/
namespace Imageio.Progress

theorem nearest_le {x : ℚ} (h : 0 ≤ x) : nearest x ≤ x * (1 + 1 / 2 ^ 53) := by
  have := (abs_le.1 (nearest_error h)).2
  linarith

theorem le_nearest {x : ℚ} (h : 0 ≤ x) : x * (1 - 1 / 2 ^ 53) ≤ nearest x := by
  have := (abs_le.1 (nearest_error h)).1
  linarith

/-- The floating point percent. -/
def fpercent (done size : Nat) : ℚ := nearest (nearest ((done : ℚ) / size) * 100)

theorem fpercent_le (d s : Nat) : fpercent d s ≤ (d : ℚ) / s * 100 * ((1 + 1 / 2 ^ 53) * (1 + 1 / 2 ^ 53)) := by
  have h0 : (0 : ℚ) ≤ (d : ℚ) / s := by positivity
  have h1 := nearest_le h0
  have h2 := nearest_le (x := nearest ((d : ℚ) / s) * 100) (mul_nonneg (nearest_nonneg h0) (by norm_num))
  unfold fpercent
  have h3 : nearest ((d : ℚ) / s) * 100 * (1 + 1 / 2 ^ 53) ≤
      (d : ℚ) / s * (1 + 1 / 2 ^ 53) * 100 * (1 + 1 / 2 ^ 53) :=
    mul_le_mul_of_nonneg_right (mul_le_mul_of_nonneg_right h1 (by norm_num)) (by norm_num)
  linarith

theorem le_fpercent (d s : Nat) : (d : ℚ) / s * 100 * ((1 - 1 / 2 ^ 53) * (1 - 1 / 2 ^ 53)) ≤ fpercent d s := by
  have h0 : (0 : ℚ) ≤ (d : ℚ) / s := by positivity
  have h1 := le_nearest h0
  have h2 := le_nearest (x := nearest ((d : ℚ) / s) * 100) (mul_nonneg (nearest_nonneg h0) (by norm_num))
  unfold fpercent
  have h3 : (d : ℚ) / s * (1 - 1 / 2 ^ 53) * 100 * (1 - 1 / 2 ^ 53) ≤ nearest ((d : ℚ) / s) * 100 * (1 - 1 / 2 ^ 53) :=
    mul_le_mul_of_nonneg_right (mul_le_mul_of_nonneg_right h1 (by norm_num)) (by norm_num)
  linarith

theorem percent_mono {d d' : Nat} (s : Nat) (h : d ≤ d') : percent d s ≤ percent d' s := by
  refine Int.floor_le_floor (nearest_mono ?_ ?_)
  · exact mul_nonneg (nearest_nonneg (by positivity)) (by norm_num)
  · refine mul_le_mul_of_nonneg_right (nearest_mono (by positivity) ?_) (by norm_num)
    exact div_le_div_of_nonneg_right (by exact_mod_cast h) (by positivity)

theorem percent_nonneg (d s : Nat) : 0 ≤ percent d s :=
  Int.floor_nonneg.2 (nearest_nonneg (mul_nonneg (nearest_nonneg (by positivity)) (by norm_num)))

theorem percent_full {s : Nat} (h : 0 < s) : percent s s = 100 := by
  have hs : (s : ℚ) ≠ 0 := by exact_mod_cast h.ne'
  have h1 : nearest 1 = 1 := by exact_mod_cast nearest_nat 1 (by norm_num)
  have h2 : nearest 100 = 100 := by exact_mod_cast nearest_nat 100 (by norm_num)
  unfold percent
  rw [div_self hs, h1, one_mul, h2]
  norm_num

theorem percent_le {d s : Nat} (h : 0 < s) (hd : d ≤ s) : percent d s ≤ 100 := by
  rw [← percent_full h]; exact percent_mono s hd

/-- Below an integer number of percents the bar does not show it, when the size is small enough. -/
theorem percent_lt {d s k : Nat} (hs : 0 < s) (hks : k * s ≤ 2 ^ 51) (h : d * 100 < k * s) : percent d s < k := by
  have hs' : (0 : ℚ) < s := by exact_mod_cast hs
  have h1 : (d : ℚ) * 100 ≤ k * s - 1 := by
    have : d * 100 + 1 ≤ k * s := h
    have : ((d * 100 + 1 : Nat) : ℚ) ≤ ((k * s : Nat) : ℚ) := by exact_mod_cast this
    push_cast at this; linarith
  have h2 : (k : ℚ) * s ≤ 2 ^ 51 := by exact_mod_cast hks
  unfold percent
  rw [Int.floor_lt]
  refine lt_of_le_of_lt (fpercent_le d s) ?_
  have e : (d : ℚ) / s * 100 = (d * 100) / s := by ring
  rw [e, div_mul_eq_mul_div, div_lt_iff₀ hs']
  push_cast
  have : (d : ℚ) * 100 * ((1 + 1 / 2 ^ 53) * (1 + 1 / 2 ^ 53)) ≤
      (k * s - 1) * ((1 + 1 / 2 ^ 53) * (1 + 1 / 2 ^ 53)) := mul_le_mul_of_nonneg_right h1 (by norm_num)
  refine lt_of_le_of_lt this ?_
  norm_num at h2 ⊢
  linarith

/-- The bar does not show 100 percent before the end. -/
theorem percent_lt_full {d s : Nat} (hs : 0 < s) (hb : s ≤ 2 ^ 51) (h : d < s) : percent d s < 100 := by
  have hs' : (0 : ℚ) < s := by exact_mod_cast hs
  have h1 : (d : ℚ) ≤ s - 1 := by
    have : ((d + 1 : Nat) : ℚ) ≤ (s : ℚ) := by exact_mod_cast h
    push_cast at this; linarith
  have h2 : (s : ℚ) ≤ 2251799813685248 := by exact_mod_cast (show s ≤ 2251799813685248 from hb)
  unfold percent
  rw [Int.floor_lt]
  refine lt_of_le_of_lt (fpercent_le d s) ?_
  have e : (d : ℚ) / s * 100 = (d * 100) / s := by ring
  rw [e, div_mul_eq_mul_div, div_lt_iff₀ hs']
  push_cast
  norm_num
  linarith

/-- Above an integer number of percents the bar shows it, when the size is small enough. -/
theorem le_percent {d s k : Nat} (hs : 0 < s) (hd : d ≤ 2 ^ 44) (h : k * s < d * 100) : (k : ℤ) ≤ percent d s := by
  have hs' : (0 : ℚ) < s := by exact_mod_cast hs
  have h1 : (k : ℚ) * s ≤ d * 100 - 1 := by
    have : k * s + 1 ≤ d * 100 := h
    have : ((k * s + 1 : Nat) : ℚ) ≤ ((d * 100 : Nat) : ℚ) := by exact_mod_cast this
    push_cast at this; linarith
  have h2 : (d : ℚ) ≤ 17592186044416 := by exact_mod_cast (show d ≤ 17592186044416 from hd)
  unfold percent
  rw [Int.le_floor]
  refine le_trans ?_ (le_fpercent d s)
  have e : (d : ℚ) / s * 100 = (d * 100) / s := by ring
  rw [e, div_mul_eq_mul_div, le_div_iff₀ hs']
  push_cast
  norm_num
  linarith

/-- The bar is never more than one percent behind, when the size is small enough. -/
theorem pred_le_percent {d s k : Nat} (hs : 0 < s) (hk : k ≤ 100) (h : k * s ≤ d * 100) : (k : ℤ) - 1 ≤ percent d s := by
  have hs' : (0 : ℚ) < s := by exact_mod_cast hs
  have h1 : (k : ℚ) * s ≤ d * 100 := by exact_mod_cast h
  unfold percent
  rw [Int.le_floor]
  refine le_trans ?_ (le_fpercent d s)
  have e : (d : ℚ) / s * 100 = (d * 100) / s := by ring
  have h3 : (k : ℚ) ≤ (d : ℚ) / s * 100 := by rw [e, le_div_iff₀ hs']; exact h1
  have hk' : (k : ℚ) ≤ 100 := by exact_mod_cast hk
  have : (k : ℚ) * ((1 - 1 / 2 ^ 53) * (1 - 1 / 2 ^ 53)) ≤ (d : ℚ) / s * 100 * ((1 - 1 / 2 ^ 53) * (1 - 1 / 2 ^ 53)) :=
    mul_le_mul_of_nonneg_right h3 (by norm_num)
  refine le_trans ?_ this
  push_cast
  norm_num
  linarith

/-! ### Scaling by a power of two -/

theorem log_scale {x : ℚ} (h : 0 < x) (k : ℤ) : Int.log 2 (x * 2 ^ k) = Int.log 2 x + k := by
  have h1 : ((2 : ℕ) : ℚ) ^ Int.log 2 x ≤ x := Int.zpow_log_le_self (by norm_num) h
  have h2 : x < ((2 : ℕ) : ℚ) ^ (Int.log 2 x + 1) := Int.lt_zpow_succ_log_self (by norm_num) x
  have hk : (0 : ℚ) < 2 ^ k := zpow_pos (by norm_num) _
  have hx : 0 < x * 2 ^ k := mul_pos h hk
  push_cast at h1 h2
  apply le_antisymm
  · have : Int.log 2 (x * 2 ^ k) < Int.log 2 x + k + 1 := by
      rw [← Int.lt_zpow_iff_log_lt (by norm_num) hx]
      push_cast
      rw [show Int.log 2 x + k + 1 = (Int.log 2 x + 1) + k by ring, zpow_add₀ (by norm_num)]
      exact mul_lt_mul_of_pos_right h2 hk
    omega
  · rw [← Int.zpow_le_iff_le_log (by norm_num) hx]
    push_cast
    rw [zpow_add₀ (by norm_num)]
    exact mul_le_mul_of_nonneg_right h1 hk.le

theorem nearest_scale {x : ℚ} (h : 0 ≤ x) (k : ℤ) : nearest (x * 2 ^ k) = nearest x * 2 ^ k := by
  rcases h.eq_or_lt with rfl | h
  · simp [nearest]
  · have hk : (0 : ℚ) < 2 ^ k := zpow_pos (by norm_num) _
    have hu : ulp (x * 2 ^ k) = ulp x * 2 ^ k := by
      unfold ulp
      rw [log_scale h, ← zpow_add₀ (by norm_num)]
      congr 1; ring
    rw [nearest_pos h, nearest_pos (mul_pos h hk), hu, mul_div_mul_right _ _ hk.ne', mul_assoc]

theorem nearest_div {x : ℚ} (h : 0 ≤ x) (hx : nearest x = x) : nearest (x / 1024) = x / 1024 := by
  have := nearest_scale h (-10)
  rw [hx] at this
  norm_num at this
  rw [div_eq_mul_inv]
  convert this using 2 <;> norm_num

end Imageio.Progress
