import Verif.Model.BenchmarkSchwefel
import Verif.Props.BenchmarkDtlz7
/-!
# C60: the Schwefel function
-/

namespace Gapp.Props
open Gapp.Model Gapp.Spec Real

/-- A function that is zero at zero and has a derivative that is not negative. -/
theorem nonneg_of_deriv {f f' : ℝ → ℝ} (h0 : f 0 = 0) (hd : ∀ t, HasDerivAt f (f' t) t) (hn : ∀ t, 0 ≤ t → 0 ≤ f' t) {x : ℝ} (hx : 0 ≤ x) : 0 ≤ f x := by
  have hm : MonotoneOn f (Set.Ici 0) := by
    refine monotoneOn_of_deriv_nonneg (convex_Ici 0) (fun t _ => (hd t).continuousAt.continuousWithinAt) (fun t _ => (hd t).differentiableAt.differentiableWithinAt) ?_
    intro t ht
    rw [interior_Ici] at ht
    rw [(hd t).deriv]
    exact hn t ht.le
  have := hm (Set.mem_Ici.mpr le_rfl) (Set.mem_Ici.mpr hx) hx
  rwa [h0] at this

theorem sin_le_quintic {x : ℝ} (hx : 0 ≤ x) : sin x ≤ x - x ^ 3 / 6 + x ^ 5 / 120 := by
  have := nonneg_of_deriv (f := fun t => t - t ^ 3 / 6 + t ^ 5 / 120 - sin t) (f' := fun t => (1 - t ^ 2 / 2 + t ^ 4 / 24) - cos t) (by simp)
    (fun t => ((((hasDerivAt_id' t).fun_sub (((hasDerivAt_id' t).fun_pow 3).div_const 6)).fun_add (((hasDerivAt_id' t).fun_pow 5).div_const 120)).fun_sub (hasDerivAt_sin t)).congr_deriv (by norm_num; ring)) (fun t ht => by have := cos_le_quartic ht; linarith) hx
  linarith

theorem cos_ge_sextic {x : ℝ} (hx : 0 ≤ x) : 1 - x ^ 2 / 2 + x ^ 4 / 24 - x ^ 6 / 720 ≤ cos x := by
  have := nonneg_of_deriv (f := fun t => cos t - (1 - t ^ 2 / 2 + t ^ 4 / 24 - t ^ 6 / 720)) (f' := fun t => (t - t ^ 3 / 6 + t ^ 5 / 120) - sin t) (by simp)
    (fun t => ((hasDerivAt_cos t).fun_sub ((((hasDerivAt_const t (1 : ℝ)).fun_sub (((hasDerivAt_id' t).fun_pow 2).div_const 2)).fun_add (((hasDerivAt_id' t).fun_pow 4).div_const 24)).fun_sub (((hasDerivAt_id' t).fun_pow 6).div_const 720))).congr_deriv (by norm_num; ring)) (fun t ht => by have := sin_le_quintic ht; linarith) hx
  linarith

theorem sin_ge_septic {x : ℝ} (hx : 0 ≤ x) : x - x ^ 3 / 6 + x ^ 5 / 120 - x ^ 7 / 5040 ≤ sin x := by
  have := nonneg_of_deriv (f := fun t => sin t - (t - t ^ 3 / 6 + t ^ 5 / 120 - t ^ 7 / 5040)) (f' := fun t => cos t - (1 - t ^ 2 / 2 + t ^ 4 / 24 - t ^ 6 / 720)) (by simp)
    (fun t => ((hasDerivAt_sin t).fun_sub ((((hasDerivAt_id' t).fun_sub (((hasDerivAt_id' t).fun_pow 3).div_const 6)).fun_add (((hasDerivAt_id' t).fun_pow 5).div_const 120)).fun_sub (((hasDerivAt_id' t).fun_pow 7).div_const 5040))).congr_deriv (by norm_num; ring)) (fun t ht => by have := cos_ge_sextic ht; linarith) hx
  linarith

theorem cos_le_octic {x : ℝ} (hx : 0 ≤ x) : cos x ≤ 1 - x ^ 2 / 2 + x ^ 4 / 24 - x ^ 6 / 720 + x ^ 8 / 40320 := by
  have := nonneg_of_deriv (f := fun t => 1 - t ^ 2 / 2 + t ^ 4 / 24 - t ^ 6 / 720 + t ^ 8 / 40320 - cos t) (f' := fun t => sin t - (t - t ^ 3 / 6 + t ^ 5 / 120 - t ^ 7 / 5040)) (by simp)
    (fun t => ((((((hasDerivAt_const t (1 : ℝ)).fun_sub (((hasDerivAt_id' t).fun_pow 2).div_const 2)).fun_add (((hasDerivAt_id' t).fun_pow 4).div_const 24)).fun_sub (((hasDerivAt_id' t).fun_pow 6).div_const 720)).fun_add (((hasDerivAt_id' t).fun_pow 8).div_const 40320)).fun_sub (hasDerivAt_cos t)).congr_deriv (by norm_num; ring)) (fun t ht => by have := sin_ge_septic ht; linarith) hx
  linarith

theorem sin_le_nonic {x : ℝ} (hx : 0 ≤ x) : sin x ≤ x - x ^ 3 / 6 + x ^ 5 / 120 - x ^ 7 / 5040 + x ^ 9 / 362880 := by
  have := nonneg_of_deriv (f := fun t => t - t ^ 3 / 6 + t ^ 5 / 120 - t ^ 7 / 5040 + t ^ 9 / 362880 - sin t) (f' := fun t => (1 - t ^ 2 / 2 + t ^ 4 / 24 - t ^ 6 / 720 + t ^ 8 / 40320) - cos t) (by simp)
    (fun t => ((((((hasDerivAt_id' t).fun_sub (((hasDerivAt_id' t).fun_pow 3).div_const 6)).fun_add (((hasDerivAt_id' t).fun_pow 5).div_const 120)).fun_sub (((hasDerivAt_id' t).fun_pow 7).div_const 5040)).fun_add (((hasDerivAt_id' t).fun_pow 9).div_const 362880)).fun_sub (hasDerivAt_sin t)).congr_deriv (by norm_num; ring)) (fun t ht => by have := cos_le_octic ht; linarith) hx
  linarith

theorem cos_ge_decic {x : ℝ} (hx : 0 ≤ x) : 1 - x ^ 2 / 2 + x ^ 4 / 24 - x ^ 6 / 720 + x ^ 8 / 40320 - x ^ 10 / 3628800 ≤ cos x := by
  have := nonneg_of_deriv (f := fun t => cos t - (1 - t ^ 2 / 2 + t ^ 4 / 24 - t ^ 6 / 720 + t ^ 8 / 40320 - t ^ 10 / 3628800)) (f' := fun t => (t - t ^ 3 / 6 + t ^ 5 / 120 - t ^ 7 / 5040 + t ^ 9 / 362880) - sin t) (by simp)
    (fun t => ((hasDerivAt_cos t).fun_sub ((((((hasDerivAt_const t (1 : ℝ)).fun_sub (((hasDerivAt_id' t).fun_pow 2).div_const 2)).fun_add (((hasDerivAt_id' t).fun_pow 4).div_const 24)).fun_sub (((hasDerivAt_id' t).fun_pow 6).div_const 720)).fun_add (((hasDerivAt_id' t).fun_pow 8).div_const 40320)).fun_sub (((hasDerivAt_id' t).fun_pow 10).div_const 3628800))).congr_deriv (by norm_num; ring)) (fun t ht => by have := sin_le_nonic ht; linarith) hx
  linarith

/-- The terms of the Schwefel function. -/
noncomputable def schwefelH (x : ℝ) : ℝ := x * sin (√|x|)

theorem schwefel_sum (v : List ℝ) : schwefel v = (v.map schwefelH).sum - 418.98288727215591 * (v.length : ℝ) := by
  unfold schwefel
  rw [foldl_sub_sum (fun x => x * sin (√|x|))]
  unfold schwefelH
  ring

theorem sin_shift (s : ℝ) : sin s = cos (s - 13 * π / 2) := by
  rw [show s - 13 * π / 2 = (s - (3 : ℕ) * (2 * π)) - π / 2 by push_cast; ring, cos_sub_pi_div_two, sin_sub_nat_mul_two_pi]

theorem shift_bounds : 20.42035224833365604 < 13 * π / 2 ∧ 13 * π / 2 < 20.42035224833365606 := by
  have h1 := pi_gt_d20
  have h2 := pi_lt_d20
  norm_num at *
  constructor <;> linarith

/-- The polynomial above the terms of the Schwefel function near its maximum. -/
theorem schwefel_poly {y : ℝ} (h0 : 0 ≤ y) (h1 : y ≤ 0.6) :
    (y + 20.42035224833365606) ^ 2 * (1 - y ^ 2 / 2 + y ^ 4 / 24 - y ^ 6 / 720 + y ^ 8 / 40320) ≤ 418.98288727215591 + 2.8e-10 := by
  have b1 : y ≤ 1 := h1.trans (by norm_num)
  have p : ∀ k, 0 ≤ y ^ k ∧ y ^ k ≤ 1 := fun k => ⟨pow_nonneg h0 k, pow_le_one₀ h0 b1⟩
  have hQ : (100 : ℝ) ≤ (15823493340113983989378476854805246864227496977264637981683508671837304898973052559151459957 / 75000000000000000000000000000000000000000000000000000000000000000000000000000000000000000) + (1282103359719809424089938213510412744631746801770966458104486464087346255874931763 / 75000000000000000000000000000000000000000000000000000000000000000000000000000000) * y + (-(1031393803467691362080619735413320156412255182639843458107879422468905109 / 60000000000000000000000000000000000000000000000000000000000000000000000)) * y ^ 2 + (-(239349988816427890642256932067943529206377498513166207439281239 / 150000000000000000000000000000000000000000000000000000000000000)) * y ^ 3 + (657904230857572876865096199427422802842428476002405593 / 1200000000000000000000000000000000000000000000000000000) * y ^ 4 + (65945341782049727866395630391345425269507201 / 1200000000000000000000000000000000000000000000) * y ^ 5 + (-(131770053194164655646711792502276687 / 14400000000000000000000000000000000000)) * y ^ 6 + (-(48851245024603943 / 48000000000000000000)) * y ^ 7 + (-(1 / 40320)) * y ^ 8 := by
    have := (p 2); have := (p 3); have := (p 4); have := (p 5); have := (p 6); have := (p 7); have := (p 8)
    linarith [(p 2).2, (p 3).2, (p 4).1, (p 5).1, (p 6).2, (p 7).2, (p 8).2]
  have hrest := mul_le_mul_of_nonneg_right hQ (sq_nonneg (y - 0.097170662))
  have hexp : 418.98288727215591 + 2.8e-10 - (y + 20.42035224833365606) ^ 2 * (1 - y ^ 2 / 2 + y ^ 4 / 24 - y ^ 6 / 720 + y ^ 8 / 40320) =
      (13716524771045971394131532891106409501032989024267380048594508852432611655608093528655200416137 / 6250000000000000000000000000000000000000000000000000000000000000000000000000000000000000000000000000000000) + (780786451744741099230987060729292518362011838715772003666805632951269009495207412531298681 / 4687500000000000000000000000000000000000000000000000000000000000000000000000000000000000000000000) * (y - 0.097170662) + ((15823493340113983989378476854805246864227496977264637981683508671837304898973052559151459957 / 75000000000000000000000000000000000000000000000000000000000000000000000000000000000000000) + (1282103359719809424089938213510412744631746801770966458104486464087346255874931763 / 75000000000000000000000000000000000000000000000000000000000000000000000000000000) * y + (-(1031393803467691362080619735413320156412255182639843458107879422468905109 / 60000000000000000000000000000000000000000000000000000000000000000000000)) * y ^ 2 + (-(239349988816427890642256932067943529206377498513166207439281239 / 150000000000000000000000000000000000000000000000000000000000000)) * y ^ 3 + (657904230857572876865096199427422802842428476002405593 / 1200000000000000000000000000000000000000000000000000000) * y ^ 4 + (65945341782049727866395630391345425269507201 / 1200000000000000000000000000000000000000000000) * y ^ 5 + (-(131770053194164655646711792502276687 / 14400000000000000000000000000000000000)) * y ^ 6 + (-(48851245024603943 / 48000000000000000000)) * y ^ 7 + (-(1 / 40320)) * y ^ 8) * (y - 0.097170662) ^ 2 := by
    ring
  have hlow : 0 < (13716524771045971394131532891106409501032989024267380048594508852432611655608093528655200416137 / 6250000000000000000000000000000000000000000000000000000000000000000000000000000000000000000000000000000000) + (780786451744741099230987060729292518362011838715772003666805632951269009495207412531298681 / 4687500000000000000000000000000000000000000000000000000000000000000000000000000000000000000000000) * (y - 0.097170662) + 100 * (y - 0.097170662) ^ 2 := by
    nlinarith [sq_nonneg ((y - 0.097170662) + (780786451744741099230987060729292518362011838715772003666805632951269009495207412531298681 / 937500000000000000000000000000000000000000000000000000000000000000000000000000000000000000000000000))]
  linarith

theorem schwefelH_le {x : ℝ} (h1 : -500 ≤ x) (h2 : x ≤ 500) : schwefelH x ≤ 418.98288727215591 + 2.8e-10 := by
  unfold schwefelH
  have hx : |x| ≤ 500 := abs_le.mpr ⟨h1, h2⟩
  obtain ⟨c0, c1⟩ := shift_bounds
  rcases le_total |x| 418 with h | h
  · have : x * sin (√|x|) ≤ |x| * 1 := by
      refine (le_abs_self _).trans ?_
      rw [abs_mul]
      exact mul_le_mul_of_nonneg_left (abs_sin_le_one _) (abs_nonneg x)
    norm_num at *
    linarith
  · have hs0 : 20.44 ≤ √|x| := Real.le_sqrt_of_sq_le (by norm_num at *; linarith)
    have hs1 : √|x| ≤ 22.361 := Real.sqrt_le_iff.mpr ⟨by norm_num, by norm_num at *; linarith⟩
    have hsq : √|x| ^ 2 = |x| := Real.sq_sqrt (abs_nonneg x)
    rw [sin_shift]
    set y := √|x| - 13 * π / 2 with hy
    have y0 : 0 ≤ y := by norm_num at *; linarith
    have y1 : y ≤ 1.95 := by norm_num at *; linarith
    have hs : √|x| = y + 13 * π / 2 := by rw [hy]; ring
    rcases le_total 0 x with hpos | hneg
    · rw [abs_of_nonneg hpos] at *
      rcases le_total y 0.6 with hy6 | hy6
      · have hc0 : 0 ≤ cos y := cos_nonneg_of_mem_Icc ⟨by linarith [pi_pos], by have := pi_gt_three; norm_num at *; linarith⟩
        have hc := cos_le_octic y0
        have hle : x ≤ (y + 20.42035224833365606) ^ 2 := by
          rw [← hsq, hs]
          exact pow_le_pow_left₀ (by positivity) (by linarith) 2
        exact (mul_le_mul hle hc hc0 (sq_nonneg _)).trans (schwefel_poly y0 hy6)
      · have hc : cos y ≤ cos 0.6 := cos_le_cos_of_nonneg_of_le_pi (by norm_num) (by have := pi_gt_three; norm_num at *; linarith) hy6
        have hc' := cos_le_quartic (x := 0.6) (by norm_num)
        have hq : cos y ≤ 0.8255 := by norm_num at *; linarith
        have : x * cos y ≤ x * 0.8255 := mul_le_mul_of_nonneg_left hq hpos
        norm_num at *
        linarith
    · have hc : cos 1.95 ≤ cos y := cos_le_cos_of_nonneg_of_le_pi y0 (by have := pi_gt_three; norm_num at *; linarith) y1
      have hc' : -0.38 ≤ cos 1.95 := by
        rw [show (1.95 : ℝ) = (1.95 - π / 2) + π / 2 by ring, cos_add_pi_div_two]
        have hp := pi_gt_d6
        have hp' := pi_lt_d6
        have := sin_le (x := 1.95 - π / 2) (by norm_num at *; linarith)
        norm_num at *
        linarith
      have hq : -0.38 ≤ cos y := hc'.trans hc
      have : x * cos y ≤ x * (-0.38) := mul_le_mul_of_nonpos_left hq hneg
      norm_num at *
      linarith

/-- The fitness of the documented optimum is not the documented one. -/
theorem schwefelH_opt : 418.98288727215591 + 6e-12 < schwefelH 420.9687 ∧ schwefelH 420.9687 < 418.98288727215591 + 7e-12 := by
  unfold schwefelH
  rw [abs_of_pos (by norm_num)]
  obtain ⟨c0, c1⟩ := shift_bounds
  have hs0 : 20.517521780176084414 ≤ √420.9687 := Real.le_sqrt_of_sq_le (by norm_num)
  have hs1 : √420.9687 ≤ 20.517521780176084415 := Real.sqrt_le_iff.mpr ⟨by norm_num, by norm_num⟩
  rw [sin_shift]
  set y := √420.9687 - 13 * π / 2 with hy
  have y0 : 20.517521780176084414 - 20.42035224833365606 ≤ y := by linarith
  have y1 : y ≤ 20.517521780176084415 - 20.42035224833365604 := by linarith
  have h0 : (0 : ℝ) ≤ 20.517521780176084414 - 20.42035224833365606 := by norm_num
  have hpi : (20.517521780176084415 : ℝ) - 20.42035224833365604 ≤ π := by have := pi_gt_three; norm_num; linarith
  constructor
  · have hc := cos_le_cos_of_nonneg_of_le_pi (h0.trans y0) hpi y1
    have hd := cos_ge_decic (x := 20.517521780176084415 - 20.42035224833365604) (by norm_num)
    have : 420.9687 * (cos (20.517521780176084415 - 20.42035224833365604)) ≤ 420.9687 * cos y := mul_le_mul_of_nonneg_left hc (by norm_num)
    refine lt_of_lt_of_le ?_ this
    refine lt_of_lt_of_le ?_ (mul_le_mul_of_nonneg_left hd (by norm_num))
    norm_num
  · have hc := cos_le_cos_of_nonneg_of_le_pi h0 (y1.trans hpi) y0
    have hd := cos_le_octic h0
    refine lt_of_le_of_lt (mul_le_mul_of_nonneg_left (hc.trans hd) (by norm_num)) ?_
    norm_num

/-- A better variable than the documented one. -/
theorem schwefelH_better : 418.98288727215591 + 2.7e-10 < schwefelH (20.5175229 ^ 2) := by
  unfold schwefelH
  rw [abs_of_pos (by norm_num), Real.sqrt_sq (by norm_num)]
  obtain ⟨c0, c1⟩ := shift_bounds
  rw [sin_shift]
  have hc : cos (20.5175229 - 20.42035224833365604) ≤ cos (20.5175229 - 13 * π / 2) :=
    cos_le_cos_of_nonneg_of_le_pi (by norm_num at *; linarith) (by have := pi_gt_three; norm_num at *; linarith) (by linarith)
  have hd := cos_ge_decic (x := 20.5175229 - 20.42035224833365604) (by norm_num)
  refine lt_of_lt_of_le ?_ (mul_le_mul_of_nonneg_left (hd.trans hc) (by norm_num))
  norm_num

/-- C60 (partial), Schwefel: the documented optimum is a chromosome of the problem, its fitness is at most `7e-12` per variable from the documented one, and no chromosome has a fitness of more than `2.8e-10` per variable.
Missing: the constants in the code are rounded, so the claim itself is false; see the next theorem. -/
theorem C60_schwefel_partial (n : Nat) : InBounds (schwefelB n) (schwefelB n).optimum ∧
    (∃ a, (schwefelB n).fitness (schwefelB n).optimum = [a] ∧ 0 ≤ a ∧ a ≤ 7e-12 * n) ∧
    ∀ v, InBounds (schwefelB n) v → ∃ a, (schwefelB n).fitness v = [a] ∧ a ≤ 2.8e-10 * n := by
  refine ⟨inBounds_uniform.mpr ⟨rfl, replicate_in n (by norm_num) (by norm_num)⟩, ⟨_, rfl, ?_⟩, fun v hv => ⟨_, rfl, ?_⟩⟩
  · show 0 ≤ schwefel (List.replicate n 420.9687) ∧ schwefel (List.replicate n 420.9687) ≤ 7e-12 * n
    rw [schwefel_sum, List.map_replicate, List.sum_replicate, nsmul_eq_mul, List.length_replicate]
    obtain ⟨h1, h2⟩ := schwefelH_opt
    have hn : (0 : ℝ) ≤ n := Nat.cast_nonneg n
    have e1 := mul_le_mul_of_nonneg_left h1.le hn
    have e2 := mul_le_mul_of_nonneg_left h2.le hn
    constructor
    · norm_num at e1 ⊢; linarith
    · norm_num at e2 ⊢; linarith
  · obtain ⟨hl, hb⟩ := inBounds_uniform.mp hv
    rw [List.length_replicate] at hl
    rw [schwefel_sum, hl]
    have := map_sum_le_mul schwefelH _ v (fun x hx => schwefelH_le (hb x hx).1 (hb x hx).2)
    rw [hl] at this
    norm_num at this ⊢
    linarith

/-- C60, violated: the documented optimum of the Schwefel function has another fitness than the documented one, and there are better chromosomes. -/
theorem C60_schwefel_violated (n : Nat) (hn : 1 ≤ n) : (schwefelB n).fitness (schwefelB n).optimum ≠ (schwefelB n).optimalValue ∧
    (∃ v, InBounds (schwefelB n) v ∧ Better ((schwefelB n).fitness v) ((schwefelB n).fitness (schwefelB n).optimum)) ∧ ¬ OptimumRight (schwefelB n) := by
  have hn' : (1 : ℝ) ≤ n := by exact_mod_cast hn
  have hne : (schwefelB n).fitness (schwefelB n).optimum ≠ (schwefelB n).optimalValue := by
    intro h
    have h0 : schwefel (List.replicate n 420.9687) = 0 := (List.cons.inj h).1
    rw [schwefel_sum, List.map_replicate, List.sum_replicate, nsmul_eq_mul, List.length_replicate] at h0
    have e1 := mul_le_mul_of_nonneg_left schwefelH_opt.1.le (show (0 : ℝ) ≤ n by linarith)
    norm_num at e1 h0
    linarith
  refine ⟨hne, ⟨List.replicate n (20.5175229 ^ 2), inBounds_uniform.mpr ⟨by simp, fun y hy => by rw [List.eq_of_mem_replicate hy]; norm_num⟩, ?_⟩, fun h => hne h.2.1⟩
  have hlt : schwefel (List.replicate n 420.9687) < schwefel (List.replicate n (20.5175229 ^ 2)) := by
    rw [schwefel_sum, schwefel_sum, List.map_replicate, List.map_replicate, List.sum_replicate, List.sum_replicate, nsmul_eq_mul, nsmul_eq_mul, List.length_replicate, List.length_replicate]
    have h1 : schwefelH 420.9687 < schwefelH (20.5175229 ^ 2) := schwefelH_opt.2.trans ((by norm_num : (418.98288727215591 : ℝ) + 7e-12 < 418.98288727215591 + 2.7e-10).trans schwefelH_better)
    have := mul_lt_mul_of_pos_left h1 (show (0 : ℝ) < n by linarith)
    linarith
  refine ⟨rfl, fun i x y hx hy => ?_, 0, _, _, rfl, rfl, hlt⟩
  match i, hx, hy with
  | 0, hx, hy => cases hx; cases hy; exact hlt.le
  | i + 1, hx, hy => cases hx

/-! A concrete case: a chromosome of the problem with two variables. -/

example : InBounds (schwefelB 2) [-302.5, 420.9687] := inBounds_uniform.mpr ⟨rfl, by norm_num⟩

end Gapp.Props
