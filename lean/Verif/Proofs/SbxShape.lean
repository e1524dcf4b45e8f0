import Mathlib.Analysis.SpecialFunctions.Pow.Deriv
import Mathlib.Analysis.SpecialFunctions.Pow.Continuity
import Mathlib.Analysis.SpecialFunctions.Log.Deriv
import Mathlib.Analysis.SpecialFunctions.Trigonometric.DerivHyp
import Mathlib.Analysis.Complex.Exponential
import Mathlib.Tactic.FieldSimp
/-! # Inequalities for the distribution of the simulated binary crossover -/

namespace Gapp.Proofs.SbxShape

theorem log_lower : (0.545 : ℝ) ≤ Real.log 1.73 := by
  have h1 : Real.log (1.2 ^ 3) ≤ Real.log 1.73 := Real.log_le_log (by norm_num) (by norm_num)
  rw [Real.log_pow] at h1
  have h2 := Real.le_log_one_add_of_nonneg (x := 0.2) (by norm_num)
  norm_num at h1 h2 ⊢
  linarith

/-- `v^2 / a^2 + 1 ≤ 2 exp v` for `a` at least 0.545. -/
theorem exp_square (a v : ℝ) (ha : 0.545 ≤ a) (hv : 0 ≤ v) : v ^ 2 / a ^ 2 + 1 ≤ 2 * Real.exp v := by
  have h1 := Real.sum_le_exp_of_nonneg hv 7
  simp only [Finset.sum_range_succ, Finset.sum_range_zero, Nat.factorial] at h1
  norm_num at h1
  have h2 : v ^ 2 / a ^ 2 ≤ 3.367 * v ^ 2 := by
    rw [div_le_iff₀ (by positivity)]
    have : (1 : ℝ) ≤ 3.367 * a ^ 2 := by nlinarith
    nlinarith [sq_nonneg v]
  have h3 : 0 ≤ v ^ 3 * (v - 1.83) ^ 2 := by positivity
  have h4 : 0 ≤ v ^ 3 * ((v - 1.83) ^ 2 * (v + 3.66)) := by positivity
  have h5 : 0 ≤ v ^ 2 * (v - 1.83) ^ 2 := by positivity
  have h6 : 0 ≤ v * (v - 1.83) ^ 2 := by positivity
  have h7 := sq_nonneg (v - 1.82)
  nlinarith

/-- `-log (1 - w) ≤ w / sqrt (1 - w)`. -/
theorem neg_log_le (w : ℝ) (h0 : 0 ≤ w) (h1 : w < 1) : -Real.log (1 - w) ≤ w / Real.sqrt (1 - w) := by
  have hp : 0 < 1 - w := by linarith
  have hs : 0 < Real.sqrt (1 - w) := Real.sqrt_pos.mpr hp
  have hl : Real.log (Real.sqrt (1 - w)) = Real.log (1 - w) / 2 := Real.log_sqrt hp.le
  have hv : 0 ≤ -Real.log (Real.sqrt (1 - w)) := by
    rw [hl]
    have := Real.log_nonpos hp.le (by linarith)
    linarith
  have h2 := Real.self_le_sinh_iff.mpr hv
  rw [Real.sinh_eq, neg_neg, Real.exp_neg, Real.exp_log hs, hl] at h2
  have h3 : (Real.sqrt (1 - w))⁻¹ - Real.sqrt (1 - w) = w / Real.sqrt (1 - w) := by
    field_simp
    rw [Real.sq_sqrt hp.le]
    ring
  rw [h3] at h2
  linarith

theorem neg_log_one_sub (x : ℝ) (h0 : 0 ≤ x) (h1 : x ≤ 0.73) : -Real.log (1 - x) ≤ (1 + 2 * x) * Real.log (1 + x) := by
  have hw : x ^ 2 < 1 := by nlinarith
  have h2 := neg_log_le (x ^ 2) (sq_nonneg x) hw
  have h3 : Real.log (1 - x ^ 2) = Real.log (1 - x) + Real.log (1 + x) := by
    rw [← Real.log_mul (by linarith) (by linarith)]
    congr 1
    ring
  have h4 := Real.le_log_one_add_of_nonneg h0
  have hs : 0 < Real.sqrt (1 - x ^ 2) := Real.sqrt_pos.mpr (by linarith)
  have h5 : (2 + x) / 4 ≤ Real.sqrt (1 - x ^ 2) := by
    apply Real.le_sqrt_of_sq_le
    nlinarith
  have h6 : x ^ 2 / Real.sqrt (1 - x ^ 2) ≤ 2 * x * (2 * x / (x + 2)) := by
    have e : 2 * x * (2 * x / (x + 2)) = x ^ 2 / ((2 + x) / 4) := by field_simp; ring
    rw [e]
    exact div_le_div_of_nonneg_left (sq_nonneg x) (by linarith) h5
  have h7 : 2 * x * (2 * x / (x + 2)) ≤ 2 * x * Real.log (1 + x) := mul_le_mul_of_nonneg_left h4 (by linarith)
  nlinarith

/-- The derivative of the logarithm of `outShare` is not negative. -/
theorem out_key (b x s : ℝ) (hs : 1 ≤ s) (hx : 0 < x) (hb : 1 + x < b) (hcase : 1 ≤ x ∨ (x < 1 ∧ s ^ 2 * Real.log b ≤ -Real.log (1 - x))) :
    s ^ 2 * Real.log b ≤ Real.log (1 + x) * (2 * Real.exp (s * Real.log b) - 1) := by
  have ha : 0 < Real.log (1 + x) := Real.log_pos (by linarith)
  have hL : Real.log (1 + x) < Real.log b := Real.log_lt_log (by linarith) hb
  by_cases hx2 : x ≤ 0.73
  · rcases hcase with h | ⟨_, h⟩
    · linarith
    have h1 := neg_log_one_sub x hx.le hx2
    have h2 : 1 + x ≤ Real.exp (s * Real.log b) := by
      calc 1 + x ≤ b := hb.le
        _ = Real.exp (Real.log b) := (Real.exp_log (by linarith)).symm
        _ ≤ _ := Real.exp_le_exp.mpr (by nlinarith)
    nlinarith
  · have ha2 : 0.545 ≤ Real.log (1 + x) := log_lower.trans (Real.log_le_log (by norm_num) (by linarith))
    have h1 := exp_square (Real.log (1 + x)) (s * Real.log b) ha2 (by nlinarith)
    have h2 : s ^ 2 * Real.log b ≤ Real.log (1 + x) * ((s * Real.log b) ^ 2 / Real.log (1 + x) ^ 2) := by
      have e : Real.log (1 + x) * ((s * Real.log b) ^ 2 / Real.log (1 + x) ^ 2) = s ^ 2 * Real.log b * (Real.log b / Real.log (1 + x)) := by field_simp
      rw [e]
      have h3 : 1 ≤ Real.log b / Real.log (1 + x) := by rw [le_div_iff₀ ha]; linarith
      have h4 : 0 ≤ s ^ 2 * Real.log b := mul_nonneg (sq_nonneg s) (by linarith)
      nlinarith
    nlinarith

/-- `alpha` of the simulated binary crossover, for the exponent `s = eta + 1`. -/
noncomputable def alphaOf (b s : ℝ) : ℝ := 2 - b ^ (-s)

/-- The share of the random numbers for which the child is farther outwards than `x`. -/
noncomputable def outShare (b x s : ℝ) : ℝ := if 1 + x < b then (1 + x) ^ (-(1 / s)) / alphaOf b s else 0

/-- The share of the random numbers for which the child is farther inwards than `x`. -/
noncomputable def inShare (b x s : ℝ) : ℝ := if x < 1 then max 0 (1 - (2 - (1 - x) ^ (1 / s)) / alphaOf b s) else 0

theorem alphaOf_bounds (b s : ℝ) (hb : 1 ≤ b) (hs : 0 ≤ s) : 1 ≤ alphaOf b s ∧ alphaOf b s < 2 := by
  unfold alphaOf
  have h1 : b ^ (-s) ≤ 1 := Real.rpow_le_one_of_one_le_of_nonpos hb (by linarith)
  have h2 : 0 < b ^ (-s) := Real.rpow_pos_of_pos (by linarith) _
  constructor <;> linarith

theorem alphaOf_mono (b s s' : ℝ) (hb : 1 ≤ b) (h : s ≤ s') : alphaOf b s ≤ alphaOf b s' := by
  unfold alphaOf
  have := Real.rpow_le_rpow_of_exponent_le hb (by linarith : -s' ≤ -s)
  linarith

theorem g_mono (x s s' : ℝ) (hx : 0 ≤ x) (hs : 1 ≤ s) (h : s ≤ s') : (1 + x) ^ (-(1 / s)) ≤ (1 + x) ^ (-(1 / s')) := by
  apply Real.rpow_le_rpow_of_exponent_le (by linarith)
  have := one_div_le_one_div_of_le (by linarith) h
  linarith

theorem h_mono (x s s' : ℝ) (hx : 0 ≤ x) (hx1 : x < 1) (hs : 1 ≤ s) (h : s ≤ s') : (1 - x) ^ (1 / s) ≤ (1 - x) ^ (1 / s') :=
  Real.rpow_le_rpow_of_exponent_ge (by linarith) (by linarith) (one_div_le_one_div_of_le (by linarith) h)

theorem g_le_one (x s : ℝ) (hx : 0 ≤ x) (hs : 1 ≤ s) : (1 + x) ^ (-(1 / s)) ≤ 1 := by
  apply Real.rpow_le_one_of_one_le_of_nonpos (by linarith)
  have : 0 ≤ 1 / s := by positivity
  linarith

theorem h_le_one (x s : ℝ) (hx : 0 ≤ x) (hx1 : x < 1) (hs : 1 ≤ s) : (1 - x) ^ (1 / s) ≤ 1 :=
  Real.rpow_le_one (by linarith) (by linarith) (by positivity)

theorem inShare_mono (b x s s' : ℝ) (hb : 1 ≤ b) (hx : 0 ≤ x) (hs : 1 ≤ s) (h : s ≤ s') : inShare b x s ≤ inShare b x s' := by
  unfold inShare
  split
  · rename_i hx1
    apply max_le_max_left
    have h1 := h_mono x s s' hx hx1 hs h
    have h2 := alphaOf_mono b s s' hb h
    have h3 := (alphaOf_bounds b s hb (by linarith)).1
    have h4 := h_le_one x s' hx hx1 (by linarith)
    have : (2 - (1 - x) ^ (1 / s')) / alphaOf b s' ≤ (2 - (1 - x) ^ (1 / s)) / alphaOf b s :=
      div_le_div₀ (by linarith [h_le_one x s hx hx1 hs]) (by linarith) (by linarith) h2
    linarith
  · exact le_rfl

/-- No child is farther inwards than `x`. -/
def NoIn (b x s : ℝ) : Prop := 1 ≤ x ∨ (x < 1 ∧ (1 - x) ^ (1 / s) ≤ b ^ (-s))

theorem out_mono_of_noIn (b x s s' : ℝ) (hb : 1 ≤ b) (hx : 0 ≤ x) (hxb : 1 + x < b) (hs : 1 ≤ s) (h : s ≤ s') (hno : NoIn b x s') : outShare b x s ≤ outShare b x s' := by
  have hb1 : 1 < b := by linarith
  have hbp : 0 < b := by linarith
  have hL : 0 < Real.log b := Real.log_pos hb1
  have hx0 : 0 < x := by
    rcases hno with h1 | ⟨_, h1⟩
    · linarith
    · by_contra hcon
      have : x = 0 := le_antisymm (not_lt.mp hcon) hx
      subst this
      rw [sub_zero, Real.one_rpow] at h1
      have : b ^ (-s') < 1 := Real.rpow_lt_one_of_one_lt_of_neg hb1 (by linarith)
      linarith
  have ha : 0 < Real.log (1 + x) := Real.log_pos (by linarith)
  unfold outShare
  rw [if_pos hxb, if_pos hxb]
  -- the logarithm
  have hal : ∀ σ, 1 ≤ σ → 0 < alphaOf b σ := fun σ hσ => by have := (alphaOf_bounds b σ hb (by linarith)).1; linarith
  let G : ℝ → ℝ := fun σ => -(Real.log (1 + x) / σ) - Real.log (2 - Real.exp (-(σ * Real.log b)))
  have hexp : ∀ σ, b ^ (-σ) = Real.exp (-(σ * Real.log b)) := fun σ => by rw [Real.rpow_def_of_pos hbp]; ring_nf
  have hG : ∀ σ, 1 ≤ σ → Real.exp (G σ) = (1 + x) ^ (-(1 / σ)) / alphaOf b σ := by
    intro σ hσ
    have h2 := hal σ hσ
    unfold alphaOf at h2 ⊢
    show Real.exp (-(Real.log (1 + x) / σ) - Real.log (2 - Real.exp (-(σ * Real.log b)))) = _
    rw [← hexp, Real.exp_sub, Real.exp_log h2, Real.rpow_def_of_pos (by linarith : (0 : ℝ) < 1 + x)]
    congr 2
    ring
  rw [← hG s hs, ← hG s' (by linarith)]
  apply Real.exp_le_exp.mpr
  have hder : ∀ σ, 1 ≤ σ → HasDerivAt G (Real.log (1 + x) / σ ^ 2 - Real.log b * Real.exp (-(σ * Real.log b)) / (2 - Real.exp (-(σ * Real.log b)))) σ := by
    intro σ hσ
    have hσ0 : σ ≠ 0 := by linarith
    have h2 := hal σ hσ
    unfold alphaOf at h2
    rw [hexp] at h2
    have d1 : HasDerivAt (fun σ : ℝ => -(Real.log (1 + x) / σ)) (Real.log (1 + x) / σ ^ 2) σ := by
      have := ((hasDerivAt_inv hσ0).const_mul (Real.log (1 + x))).neg
      have e : -(Real.log (1 + x) * -(σ ^ 2)⁻¹) = Real.log (1 + x) / σ ^ 2 := by ring
      rw [e] at this
      exact this
    have d2 : HasDerivAt (fun σ : ℝ => 2 - Real.exp (-(σ * Real.log b))) (Real.log b * Real.exp (-(σ * Real.log b))) σ := by
      have := (((hasDerivAt_id σ).mul_const (Real.log b)).neg.exp).const_sub 2
      have e : -(Real.exp ((-fun y : ℝ => id y * Real.log b) σ) * -(1 * Real.log b)) = Real.log b * Real.exp (-(σ * Real.log b)) := by
        simp only [Pi.neg_apply, id]
        ring
      exact e ▸ this
    have d3 := d1.sub (d2.log h2.ne')
    exact d3
  have hmono : MonotoneOn G (Set.Icc s s') := by
    apply monotoneOn_of_deriv_nonneg (convex_Icc s s')
    · intro σ hσ
      exact (hder σ (by linarith [hσ.1])).continuousAt.continuousWithinAt
    · intro σ hσ
      rw [interior_Icc] at hσ
      exact (hder σ (by linarith [hσ.1])).differentiableAt.differentiableWithinAt
    · intro σ hσ
      rw [interior_Icc] at hσ
      have hσ1 : 1 ≤ σ := by linarith [hσ.1]
      rw [(hder σ hσ1).deriv]
      have hcase : 1 ≤ x ∨ (x < 1 ∧ σ ^ 2 * Real.log b ≤ -Real.log (1 - x)) := by
        rcases hno with h1 | ⟨hx1, h1⟩
        · exact Or.inl h1
        · refine Or.inr ⟨hx1, ?_⟩
          have h2 : (1 - x) ^ (1 / σ) ≤ b ^ (-σ) :=
            (h_mono x σ s' hx hx1 hσ1 hσ.2.le).trans (h1.trans (Real.rpow_le_rpow_of_exponent_le hb (by linarith [hσ.2])))
          have h3 := Real.log_le_log (Real.rpow_pos_of_pos (by linarith) _) h2
          rw [Real.log_rpow (by linarith), Real.log_rpow hbp] at h3
          have h4 : Real.log (1 - x) = σ * (1 / σ * Real.log (1 - x)) := by field_simp
          rw [h4]
          nlinarith
      have hk := out_key b x σ hσ1 hx0 hxb hcase
      have h2 := hal σ hσ1
      unfold alphaOf at h2
      rw [hexp] at h2
      rw [sub_nonneg, div_le_div_iff₀ h2 (by positivity)]
      have he : Real.exp (-(σ * Real.log b)) * Real.exp (σ * Real.log b) = 1 := by rw [← Real.exp_add]; simp
      have hep : 0 < Real.exp (-(σ * Real.log b)) := Real.exp_pos _
      have := mul_le_mul_of_nonneg_right hk hep.le
      nlinarith
  exact hmono ⟨le_rfl, h⟩ ⟨h, le_rfl⟩ h

/-- With a larger exponent, children that are farther than `x` are more likely. -/
theorem share_mono (b x s s' : ℝ) (hb : 1 ≤ b) (hx : 0 ≤ x) (hs : 1 ≤ s) (h : s ≤ s') : outShare b x s + inShare b x s ≤ outShare b x s' + inShare b x s' := by
  by_cases hxb : 1 + x < b
  swap
  · have e : ∀ σ, outShare b x σ = 0 := fun σ => if_neg hxb
    rw [e, e]
    have := inShare_mono b x s s' hb hx hs h
    linarith
  have hb1 : 1 < b := by linarith
  -- where some children are farther inwards
  have hA : ∀ σ σ', 1 ≤ σ → σ ≤ σ' → x < 1 → b ^ (-σ) ≤ (1 - x) ^ (1 / σ) → outShare b x σ + inShare b x σ ≤ outShare b x σ' + inShare b x σ' := by
    intro σ σ' hσ hσσ hx1 hin
    have form : ∀ τ, 1 ≤ τ → b ^ (-τ) ≤ (1 - x) ^ (1 / τ) → outShare b x τ + inShare b x τ = 1 - (2 - (1 - x) ^ (1 / τ) - (1 + x) ^ (-(1 / τ))) / alphaOf b τ := by
      intro τ hτ hin
      have hα := (alphaOf_bounds b τ hb (by linarith)).1
      unfold outShare inShare
      rw [if_pos hxb, if_pos hx1, max_eq_right]
      · ring
      · rw [sub_nonneg, div_le_one (by linarith)]
        unfold alphaOf
        linarith
    have hin' : b ^ (-σ') ≤ (1 - x) ^ (1 / σ') := (Real.rpow_le_rpow_of_exponent_le hb (by linarith)).trans (hin.trans (h_mono x σ σ' hx hx1 hσ hσσ))
    rw [form σ hσ hin, form σ' (by linarith) hin']
    have h1 := h_mono x σ σ' hx hx1 hσ hσσ
    have h2 := g_mono x σ σ' hx hσ hσσ
    have h3 := alphaOf_mono b σ σ' hb hσσ
    have h4 := (alphaOf_bounds b σ hb (by linarith)).1
    have h5 := g_le_one x σ hx hσ
    have h6 := h_le_one x σ hx hx1 hσ
    have : (2 - (1 - x) ^ (1 / σ') - (1 + x) ^ (-(1 / σ'))) / alphaOf b σ' ≤ (2 - (1 - x) ^ (1 / σ) - (1 + x) ^ (-(1 / σ))) / alphaOf b σ :=
      div_le_div₀ (by linarith) (by linarith) (by linarith) h3
    linarith
  have hB : ∀ σ σ', 1 ≤ σ → σ ≤ σ' → NoIn b x σ' → outShare b x σ + inShare b x σ ≤ outShare b x σ' + inShare b x σ' := by
    intro σ σ' hσ hσσ hno
    have := out_mono_of_noIn b x σ σ' hb hx hxb hσ hσσ hno
    have := inShare_mono b x σ σ' hb hx hσ hσσ
    linarith
  by_cases hno : NoIn b x s'
  · exact hB s s' hs h hno
  have hx1 : x < 1 := by
    by_contra hcon
    exact hno (Or.inl (not_lt.mp hcon))
  by_cases hin : b ^ (-s) ≤ (1 - x) ^ (1 / s)
  · exact hA s s' hs h hx1 hin
  -- the exponent between
  have hin' : b ^ (-s') ≤ (1 - x) ^ (1 / s') := by
    by_contra hcon
    exact hno (Or.inr ⟨hx1, (not_le.mp hcon).le⟩)
  have hcont : ContinuousOn (fun σ : ℝ => (1 - x) ^ (1 / σ) - b ^ (-σ)) (Set.Icc s s') := by
    intro σ hσ
    have hσ0 : σ ≠ 0 := by have := hσ.1; intro e; rw [e] at this; linarith
    apply ContinuousAt.continuousWithinAt
    apply ContinuousAt.sub
    · exact ContinuousAt.rpow continuousAt_const (continuousAt_const.div continuousAt_id hσ0) (Or.inl (by linarith))
    · exact ContinuousAt.rpow continuousAt_const continuousAt_id.neg (Or.inl (by linarith))
  obtain ⟨σ, hσ, hσ0⟩ := intermediate_value_Icc h hcont (show (0 : ℝ) ∈ Set.Icc _ _ from ⟨by linarith [not_le.mp hin], by linarith⟩)
  have e : (1 - x) ^ (1 / σ) = b ^ (-σ) := by simpa [sub_eq_zero] using hσ0
  exact (hB s σ hs hσ.1 (Or.inr ⟨hx1, e.le⟩)).trans (hA σ s' (by linarith [hσ.1]) hσ.2 hx1 e.ge)

end Gapp.Proofs.SbxShape
