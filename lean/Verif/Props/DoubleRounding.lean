import Verif.Props.Double
/-!
# C61: rounding to even, and overflow
-/

namespace Gapp.Props
open Gapp.Model Gapp.Spec

theorem nearestEven_even {t : ℚ} (h : |(nearestEven t : ℚ) - t| = 1 / 2) : nearestEven t % 2 = 0 := by
  have h1 := Int.floor_le t
  have h2 := Int.lt_floor_add_one t
  unfold nearestEven at h ⊢
  split_ifs at h ⊢ with a b c
  · rw [abs_of_nonpos (by linarith)] at h; linarith
  · push_cast at h; rw [abs_of_nonneg (by linarith)] at h; linarith
  · exact c
  · omega

/-- A number of 53 digits that is as near to `x` as the rounded number is a multiple of the last digit. -/
theorem tie_multiple {x z : ℚ} (hx : x ≠ 0) (hz : IsBinary53 z) (h : |z - x| = |roundQ x - x|) : ∃ k : ℤ, z = k * 2 ^ ulpExp x := by
  obtain ⟨m, e, hm, he, rfl⟩ := hz
  by_cases hq : ulpExp x ≤ e
  · refine ⟨m * 2 ^ (e - ulpExp x).toNat, ?_⟩
    push_cast
    have := two_zpow_toNat (n := e - ulpExp x) (by omega)
    push_cast at this
    rw [mul_assoc, ← this, ← two_zpow_add, sub_add_cancel]
  · have hq' : ulpExp x = binExp x - 52 := by
      unfold ulpExp at hq ⊢; omega
    have hb := (binExp_spec hx).1
    have h52 : (2 : ℚ) ^ binExp x = 2 ^ 52 * 2 ^ ulpExp x := by
      rw [hq', ← zpow_natCast, ← two_zpow_add]; congr 1; push_cast; ring
    have hy : |(m : ℚ) * 2 ^ e| ≤ 2 ^ binExp x := by
      rw [abs_mul, abs_of_pos (two_zpow_pos e)]
      calc |(m : ℚ)| * 2 ^ e ≤ 2 ^ 53 * 2 ^ e := by
            apply mul_le_mul_of_nonneg_right _ (two_zpow_pos e).le
            exact_mod_cast hm
        _ = 2 ^ (53 + e) := by rw [← zpow_natCast, ← two_zpow_add]; rfl
        _ ≤ _ := two_zpow_le (by omega)
    rw [abs_le] at hy
    rcases lt_or_gt_of_ne hx with hneg | hpos
    · have hg := roundQ_grid hx (-(2 ^ 52))
      refine ⟨-(2 ^ 52), ?_⟩
      push_cast at hg ⊢
      norm_num at h52
      rw [neg_mul, ← h52] at hg ⊢
      rw [abs_of_neg hneg] at hb
      rw [← h, abs_of_nonneg (by linarith), abs_of_nonneg (by linarith)] at hg
      linarith
    · have hg := roundQ_grid hx (2 ^ 52)
      refine ⟨2 ^ 52, ?_⟩
      push_cast at hg ⊢
      norm_num at h52
      rw [← h52] at hg ⊢
      rw [abs_of_pos hpos] at hb
      rw [← h, abs_of_nonpos (by linarith), abs_of_nonpos (by linarith)] at hg
      linarith

/-- If another number is as near to the exact result, the result of an operation is the one whose last digit is even: an even multiple of the distance of the two. -/
theorem C61_rounding_even (x r : ℚ) (hr : roundD x = .fin r) (z : ℚ) (hz : IsDouble z) (hne : z ≠ r) (h : |z - x| = |r - x|) : ∃ m : ℤ, r = 2 * m * |z - r| := by
  obtain ⟨rfl, -⟩ := roundD_fin_iff.1 hr
  by_cases hx : x = 0
  · subst hx
    rw [roundQ_zero] at h hne
    simp at h
    exact absurd h hne
  obtain ⟨k, hk⟩ := tie_multiple hx hz.1 h
  have hu := two_zpow_pos (ulpExp x)
  have hr' : roundQ x = nearestEven (x / 2 ^ ulpExp x) * 2 ^ ulpExp x := if_neg hx
  set u : ℚ := 2 ^ ulpExp x with hudef
  set t := x / u with ht
  have hxt : x = t * u := by rw [ht, div_mul_cancel₀ _ hu.ne']
  set n := nearestEven t with hn
  rw [hr'] at h hne ⊢
  rw [hk] at h hne ⊢
  have hkn : k ≠ n := by rintro rfl; exact hne rfl
  have h1 : |(k : ℚ) - t| = |(n : ℚ) - t| := by
    rw [hxt, ← sub_mul, ← sub_mul, abs_mul, abs_mul] at h
    exact mul_right_cancel₀ (abs_pos.2 hu.ne').ne' h
  have h2 := nearestEven_near t
  have h3 : (k : ℚ) - t = -((n : ℚ) - t) := by
    rcases abs_eq_abs.1 h1 with h | h
    · exact absurd (by exact_mod_cast (by linarith : (k : ℚ) = n)) hkn
    · exact h
  have h4 : (1 : ℚ) ≤ |((k - n : ℤ) : ℚ)| := by exact_mod_cast Int.one_le_abs (sub_ne_zero.2 hkn)
  have h5 : ((k - n : ℤ) : ℚ) = -2 * ((n : ℚ) - t) := by push_cast; linarith
  rw [h5, abs_mul] at h4
  norm_num at h4
  have h6 : |(n : ℚ) - t| = 1 / 2 := le_antisymm h2 (by linarith)
  have h7 := nearestEven_even h6
  have h8 : |(k : ℚ) * u - n * u| = u := by
    rw [← sub_mul, abs_mul, abs_of_pos hu]
    have : |(k : ℚ) - n| = 1 := by
      have e : (k : ℚ) - n = -2 * ((n : ℚ) - t) := by rw [← h5]; push_cast; rfl
      rw [e, abs_mul, h6]; norm_num
    rw [this, one_mul]
  rw [h8]
  refine ⟨n / 2, ?_⟩
  have h9 : (n : ℚ) = 2 * ((n / 2 : ℤ) : ℚ) := by exact_mod_cast (by omega : n = 2 * (n / 2))
  rw [← h9]

example : ∃ m : ℤ, ((2 : ℚ) ^ 53) = 2 * m * |(2 ^ 53 + 2) - 2 ^ 53| :=
  C61_rounding_even (2 ^ 53 + 1) (2 ^ 53) (by decide +kernel) (2 ^ 53 + 2) (by
    exact ⟨⟨2 ^ 52 + 1, 1, by norm_num, by norm_num, by norm_num⟩, lt_two_pow_1024 (k := 54) (by norm_num) (by norm_num)⟩) (by norm_num) (by norm_num)

/-- A result of an operation that is too large is an infinity of the same sign. -/
theorem C61_overflow (x : ℚ) (hx : 2 ^ 1024 - 2 ^ 970 ≤ |x|) : roundD x = if 0 < x then .pinf else .ninf := by
  have hmid : ∀ y : ℚ, 2 ^ 1024 - 2 ^ 970 ≤ y → 2 ^ 1024 ≤ roundQ y := by
    have h0 : 2 ^ 1024 ≤ roundQ (2 ^ 1024 - 2 ^ 970) := by decide +kernel
    exact fun y hy => h0.trans (roundQ_mono hy)
  have hp : (0 : ℚ) < 2 ^ 1024 - 2 ^ 970 := by decide +kernel
  unfold roundD
  rcases le_abs.1 hx with h | h
  · rw [if_pos (hmid x h), if_pos (lt_of_lt_of_le hp h)]
  · have hn : roundQ x ≤ -2 ^ 1024 := by
      have h1 : roundQ x ≤ roundQ (-(2 ^ 1024 - 2 ^ 970)) := roundQ_mono (by rw [le_neg]; exact h)
      refine h1.trans ?_
      decide +kernel
    have hb : (0 : ℚ) < 2 ^ 1024 := by positivity
    rw [if_neg (not_le.2 (lt_of_le_of_lt hn (lt_trans (neg_lt_zero.2 hb) hb))), if_pos hn, if_neg (not_lt.2 (neg_nonneg.1 (hp.le.trans h)))]

end Gapp.Props
