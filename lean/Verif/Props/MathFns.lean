import Verif.Model.MathFns
import Verif.Model.Selection
import Mathlib.Analysis.InnerProductSpace.PiL2
import Mathlib.Analysis.SpecialFunctions.Trigonometric.Deriv
import Mathlib.MeasureTheory.Integral.IntervalIntegral.FundThmCalculus
import Mathlib.MeasureTheory.Measure.Lebesgue.Basic
import Mathlib.Topology.MetricSpace.HausdorffDistance
import Mathlib.Analysis.Normed.Module.FiniteDimension
/-!
# C73: the functions of `utility/math.hpp` are the mathematical ones

The specification is Mathlib: the norm of the Euclidean space, the distance of a point to a set, the Lebesgue measure, the derivative and the integral.
-/

namespace Gapp.Props
open Gapp.Model MeasureTheory

theorem zipWith_ofFn_sum {n : Nat} (f : ℝ → ℝ → ℝ) (a b : Fin n → ℝ) : (List.zipWith f (List.ofFn a) (List.ofFn b)).sum = ∑ i, f (a i) (b i) := by
  rw [← List.sum_ofFn]
  congr 1
  apply List.ext_getElem
  · simp
  · intro i h1 h2; simp

theorem innerProduct_ofFn {n : Nat} (a b : EuclideanSpace ℝ (Fin n)) : innerProduct (List.ofFn a.ofLp) (List.ofFn b.ofLp) = inner ℝ a b := by
  unfold innerProduct
  rw [zipWith_ofFn_sum, PiLp.inner_apply]
  refine Finset.sum_congr rfl fun i _ => ?_
  simp [mul_comm]

/-- **C73**: `euclideanNorm` is the length of the vector. -/
theorem C73_norm {n : Nat} (v : EuclideanSpace ℝ (Fin n)) : euclideanNorm (List.ofFn v.ofLp) = ‖v‖ := by
  unfold euclideanNorm
  rw [innerProduct_ofFn, real_inner_self_eq_norm_sq, Real.sqrt_sq (norm_nonneg v)]

/-- **C73**: `euclideanDistanceSq` is the square of the distance. -/
theorem C73_distance {n : Nat} (v w : EuclideanSpace ℝ (Fin n)) : euclideanDistanceSq (List.ofFn v.ofLp) (List.ofFn w.ofLp) = dist v w ^ 2 := by
  unfold euclideanDistanceSq
  rw [zipWith_ofFn_sum, EuclideanSpace.dist_eq, Real.sq_sqrt (Finset.sum_nonneg fun i _ => sq_nonneg _)]
  refine Finset.sum_congr rfl fun i _ => ?_
  rw [Real.dist_eq, sq_abs]

/-- **C73**: `normalizeVector` gives the vector of length 1 in the same direction, for every vector but the zero vector. -/
theorem C73_normalize {n : Nat} (v : EuclideanSpace ℝ (Fin n)) (hv : v ≠ 0) :
    ∃ u : EuclideanSpace ℝ (Fin n), normalizeVector Real.sqrt (List.ofFn v.ofLp) = List.ofFn u.ofLp ∧ ‖u‖ = 1 ∧ v = ‖v‖ • u := by
  have hn : ‖v‖ ≠ 0 := norm_ne_zero_iff.mpr hv
  refine ⟨‖v‖⁻¹ • v, ?_, ?_, ?_⟩
  · unfold normalizeVector
    have h := C73_norm v
    unfold euclideanNorm at h
    rw [h]
    apply List.ext_getElem
    · simp
    · intro i h1 h2
      simp [div_eq_inv_mul]
  · rw [norm_smul, norm_inv, norm_norm, inv_mul_cancel₀ hn]
  · rw [smul_smul, mul_inv_cancel₀ hn, one_smul]

/-- **C73**: `perpendicularDistanceSq` is the square of the distance between the point and the line through the origin. -/
theorem C73_perpendicular {n : Nat} (l p : EuclideanSpace ℝ (Fin n)) (hl : l ≠ 0) :
    perpendicularDistanceSq (List.ofFn l.ofLp) (List.ofFn p.ofLp) = some (Metric.infDist p {q | ∃ t : ℝ, q = t • l} ^ 2) := by
  have hll : inner ℝ l l ≠ 0 := inner_self_ne_zero.mpr hl
  set k := inner ℝ l p / inner ℝ l l with hk
  have hval : perpendicularDistanceSq (List.ofFn l.ofLp) (List.ofFn p.ofLp) = some (‖p - k • l‖ ^ 2) := by
    unfold perpendicularDistanceSq
    rw [if_pos (by simp)]
    dsimp only
    rw [innerProduct_ofFn, innerProduct_ofFn, ← hk, zipWith_ofFn_sum, EuclideanSpace.norm_sq_eq]
    congr 1
    refine Finset.sum_congr rfl fun i _ => ?_
    rw [Real.norm_eq_abs, sq_abs]
    simp
  rw [hval]
  congr 2
  have hmem : k • l ∈ {q : EuclideanSpace ℝ (Fin n) | ∃ t : ℝ, q = t • l} := ⟨k, rfl⟩
  have hmin : ∀ t : ℝ, ‖p - k • l‖ ≤ ‖p - t • l‖ := by
    intro t
    have horth : inner ℝ (p - k • l) ((k - t) • l) = 0 := by
      rw [inner_smul_right, inner_sub_left, inner_smul_left, real_inner_comm l p]
      simp only [conj_trivial]
      rw [hk, div_mul_cancel₀ _ hll, sub_self, mul_zero]
    have hsplit : p - t • l = (p - k • l) + (k - t) • l := by rw [sub_smul]; abel
    have h2 := norm_add_sq_real (p - k • l) ((k - t) • l)
    rw [← hsplit, horth] at h2
    refine le_of_sq_le_sq ?_ (norm_nonneg _)
    rw [h2]
    nlinarith [sq_nonneg ‖(k - t) • l‖]
  refine le_antisymm ?_ ?_
  · refine (Metric.le_infDist ⟨_, hmem⟩).mpr ?_
    rintro q ⟨t, rfl⟩
    rw [dist_eq_norm]
    exact hmin t
  · rw [← dist_eq_norm]
    exact Metric.infDist_le_dist_of_mem hmem

/-- **C73**: `volumeBetween` is the volume of the box with these two corners, in whichever order they are given. -/
theorem C73_volume {n : Nat} (p q : Fin n → ℝ) : volumeBetween (List.ofFn p) (List.ofFn q) = some (volume (Set.uIcc p q)).toReal := by
  have hprod : (List.zipWith (· - ·) (List.ofFn p) (List.ofFn q)).prod = ∏ i, (p i - q i) := by
    rw [← List.prod_ofFn]
    congr 1
    apply List.ext_getElem
    · simp
    · intro i h1 h2; simp
  have hvol : (volume (Set.uIcc p q)).toReal = ∏ i, |p i - q i| := by
    unfold Set.uIcc
    rw [Real.volume_Icc_pi_toReal (inf_le_sup)]
    refine Finset.prod_congr rfl fun i _ => ?_
    show max (p i) (q i) - min (p i) (q i) = _
    rw [max_sub_min_eq_abs, abs_sub_comm]
  rw [hvol]
  unfold volumeBetween
  rw [if_pos (by simp), hprod, Finset.abs_prod]

/-- **C73**: `mean` and `stdDev` are the arithmetic mean and the standard deviation, for every vector that is not empty. -/
theorem C73_mean_deviation {n : Nat} (hn : 0 < n) (v : Fin n → ℝ) :
    mathMean (List.ofFn v) = (∑ i, v i) / n ∧
    mathStdDev Real.sqrt (List.ofFn v) (mathMean (List.ofFn v)) = Real.sqrt ((∑ i, (v i - (∑ j, v j) / n) ^ 2) / n) := by
  have hmean : mathMean (List.ofFn v) = (∑ i, v i) / n := by
    unfold mathMean
    rw [List.length_ofFn, List.map_ofFn, List.sum_ofFn, Finset.sum_div]; rfl
  refine ⟨hmean, ?_⟩
  rw [hmean]
  unfold mathStdDev
  rw [List.length_ofFn]
  split
  · rename_i h1
    subst h1
    simp
  · generalize (∑ j, v j) / (n : ℝ) = mu
    rw [List.map_ofFn, List.sum_ofFn, Finset.sum_div]; rfl

/-! ## The integral -/

theorem sinPowLoop_hasDeriv (e : Nat) : ∀ (k n : Nat) (F : ℝ → ℝ), e + 1 - n ≤ k → 2 ≤ n → n % 2 = e % 2 → (∀ x, HasDerivAt F (Real.sin x ^ (n - 2)) x) → n ≤ e + 2 →
    ∀ x, HasDerivAt (fun x => sinPowLoop e x n (F x)) (Real.sin x ^ e) x := by
  intro k
  induction k with
  | zero =>
    intro n F hk h2 hpar hF hle x
    have hn : n = e + 2 ∨ n = e + 1 := by omega
    have hn : n = e + 2 := by omega
    have : ∀ x, sinPowLoop e x n (F x) = F x := by
      intro x; unfold sinPowLoop; rw [if_neg (by omega)]
    simp only [this]
    have := hF x
    rwa [hn] at this
  | succ k ih =>
    intro n F hk h2 hpar hF hle x
    by_cases hne : n ≤ e
    · have hstep : ∀ x, sinPowLoop e x n (F x) = sinPowLoop e x (n + 2) (((n : ℝ) - 1) / n * F x + -Real.cos x * Real.sin x ^ (n - 1) / n) := by
        intro x
        conv_lhs => unfold sinPowLoop
        rw [if_pos hne]
      simp only [hstep]
      refine ih (n + 2) (fun x => ((n : ℝ) - 1) / n * F x + -Real.cos x * Real.sin x ^ (n - 1) / n) (by omega) (by omega) (by omega) ?_ (by omega) x
      intro y
      obtain ⟨m, rfl⟩ : ∃ m, n = m + 2 := ⟨n - 2, by omega⟩
      have h1 := (hF y).const_mul ((((m + 2 : ℕ) : ℝ) - 1) / ((m + 2 : ℕ) : ℝ))
      have h3 : HasDerivAt (fun x => -Real.cos x * Real.sin x ^ (m + 2 - 1) / ((m + 2 : ℕ) : ℝ))
          ((Real.sin y * Real.sin y ^ (m + 1) + -Real.cos y * (((m + 1 : ℕ) : ℝ) * Real.sin y ^ m * Real.cos y)) / ((m + 2 : ℕ) : ℝ)) y := by
        have hc : HasDerivAt (fun x => -Real.cos x) (Real.sin y) y := by
          have := (Real.hasDerivAt_cos y).neg
          rw [neg_neg] at this
          exact this
        have hs : HasDerivAt (fun x => Real.sin x ^ (m + 1)) (((m + 1 : ℕ) : ℝ) * Real.sin y ^ m * Real.cos y) y := by
          exact (Real.hasDerivAt_sin y).pow (m + 1)
        exact (hc.mul hs).div_const _
      have h4 := h1.add h3
      refine h4.congr_deriv ?_
      have hm : ((m + 2 : ℕ) : ℝ) ≠ 0 := by positivity
      have hcos : Real.cos y * Real.cos y = 1 - Real.sin y * Real.sin y := by nlinarith [Real.sin_sq_add_cos_sq y]
      simp only [Nat.add_sub_cancel]
      rw [div_mul_eq_mul_div, ← add_div, div_eq_iff hm]
      push_cast
      have : -Real.cos y * ((m + 1 : ℝ) * Real.sin y ^ m * Real.cos y) = -((m + 1 : ℝ) * Real.sin y ^ m * (Real.cos y * Real.cos y)) := by ring
      rw [this, hcos]
      ring
    · have hn : n = e + 2 := by omega
      have : ∀ x, sinPowLoop e x n (F x) = F x := by
        intro x; unfold sinPowLoop; rw [if_neg (by omega)]
      simp only [this]
      have := hF x
      rwa [hn] at this

/-- **C73**: `integralSinPow(n, x)` is an antiderivative of the `n`-th power of the sine, for every exponent. -/
theorem C73_integral_deriv (e : Nat) (x : ℝ) : HasDerivAt (integralSinPow e) (Real.sin x ^ e) x := by
  rcases Nat.mod_two_eq_zero_or_one e with h | h
  · have : integralSinPow e = fun x => sinPowLoop e x (2 + 0) ((fun x => x) x) := by
      funext y; unfold integralSinPow; rw [h]; simp
    rw [this]
    refine sinPowLoop_hasDeriv e (e + 1) 2 (fun x => x) (by omega) (by omega) (by omega) (fun y => ?_) (by omega) x
    rw [pow_zero]; exact hasDerivAt_id y
  · have : integralSinPow e = fun x => sinPowLoop e x (2 + 1) ((fun x => -Real.cos x) x) := by
      funext y; unfold integralSinPow; rw [h]; simp
    rw [this]
    refine sinPowLoop_hasDeriv e (e + 1) 3 (fun x => -Real.cos x) (by omega) (by omega) (by omega) (fun y => ?_) (by omega) x
    have := (Real.hasDerivAt_cos y).neg
    rw [neg_neg] at this
    rw [pow_one]; exact this

/-- **C73**: differences of `integralSinPow(n, ·)` are the integrals of the `n`-th power of the sine. -/
theorem C73_integral (e : Nat) (a b : ℝ) : ∫ x in a..b, Real.sin x ^ e = integralSinPow e b - integralSinPow e a :=
  intervalIntegral.integral_eq_sub_of_hasDerivAt (fun x _ => C73_integral_deriv e x) ((Real.continuous_sin.pow e).intervalIntegrable a b)

theorem sinPowLoop_zero (e : Nat) (x : ℝ) (hx : Real.sin x = 0 ∨ Real.cos x = 0) : ∀ (k n : Nat), e + 1 - n ≤ k → 2 ≤ n → sinPowLoop e x n 0 = 0 := by
  intro k
  induction k with
  | zero =>
    intro n hk h2
    unfold sinPowLoop; rw [if_neg (by omega)]
  | succ k ih =>
    intro n hk h2
    unfold sinPowLoop
    split
    · dsimp only
      have : (((n : ℝ) - 1) / n * 0 + -Real.cos x * Real.sin x ^ (n - 1) / n) = 0 := by
        rcases hx with h | h
        · rw [h, zero_pow (by omega)]; simp
        · rw [h]; simp
      rw [this]
      exact ih (n + 2) (by omega) (by omega)
    · rfl

/-- **C73**: the constant of integration: the integral starts at 0 for even exponents, and at `π / 2` for odd ones. -/
theorem C73_integral_origin (e : Nat) : integralSinPow (2 * e) 0 = 0 ∧ integralSinPow (2 * e + 1) (Real.pi / 2) = 0 := by
  constructor
  · unfold integralSinPow
    rw [if_neg (by omega)]
    exact sinPowLoop_zero _ 0 (Or.inl Real.sin_zero) _ _ (le_refl _) (by omega)
  · unfold integralSinPow
    rw [if_pos (by omega), Real.cos_pi_div_two, neg_zero]
    exact sinPowLoop_zero _ _ (Or.inr Real.cos_pi_div_two) _ _ (le_refl _) (by omega)

/-! ## Cases that meet the assumptions -/

example : (!₂[3, 4] : EuclideanSpace ℝ (Fin 2)) ≠ 0 := by
  intro h
  have := congrArg (fun v : EuclideanSpace ℝ (Fin 2) => v.ofLp 0) h
  simp at this

end Gapp.Props
