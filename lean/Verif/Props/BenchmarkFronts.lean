import Verif.Props.BenchmarkPoints
import Mathlib.Topology.Order.Compact
import Mathlib.Analysis.SpecialFunctions.Trigonometric.Bounds
import Mathlib.Analysis.Complex.ExponentialBounds
import Mathlib.Analysis.Real.Pi.Bounds
/-!
# C67: the ideal and nadir points of ZDT3 and ZDT6
-/

namespace Gapp.Props
open Gapp.Model Gapp.Spec Real

/-! ## ZDT3 -/

/-- The front of ZDT3: the second objective is at most `zdt3H x - 1`. -/
noncomputable def zdt3H (x : ℝ) : ℝ := √x + x * sin (10 * π * x)

theorem zdt3_second {x g : ℝ} (h0 : 0 ≤ x) (h1 : x ≤ 1) (hg : 1 ≤ g) : -(g - g * √(x / g) - x * sin (10 * π * x)) ≤ zdt3H x - 1 := by
  unfold zdt3H
  rcases hg.eq_or_lt with rfl | hg
  · rw [div_one]; linarith
  · have := sqrt_front h0 h1 hg
    rw [div_one] at this
    linarith

theorem zdt3_second_front (x : ℝ) : -(1 - 1 * √(x / 1) - x * sin (10 * π * x)) = zdt3H x - 1 := by
  unfold zdt3H
  rw [div_one]; ring

theorem zdt3H_lt {x : ℝ} (h0 : 0 ≤ x) (h1 : x ≤ 1) : zdt3H x < 1.8 := by
  unfold zdt3H
  have hp := pi_pos
  rcases le_total x (13 / 15) with h | h
  · have hs : √x ≤ 0.931 := by
      rw [Real.sqrt_le_left (by norm_num)]
      norm_num
      linarith
    have := sin_le_one (10 * π * x)
    nlinarith
  · rcases le_total x 0.9 with h' | h'
    · have hs : √x ≤ 0.95 := by
        rw [Real.sqrt_le_left (by norm_num)]
        norm_num at h' ⊢
        linarith
      have h2 : sin (10 * π * x) ≤ 0.9 := by
        have e : sin (10 * π * x) = sin (9 * π - 10 * π * x) := by
          rw [show 9 * π - 10 * π * x = π - (10 * π * x - (4 : ℕ) * (2 * π)) by push_cast; ring, sin_pi_sub, sin_sub_nat_mul_two_pi]
        rw [e]
        have h3 : sin (9 * π - 10 * π * x) ≤ sin (π / 3) := by
          apply sin_le_sin_of_le_of_le_pi_div_two
          · norm_num at h'
            nlinarith
          · linarith
          · nlinarith
        rw [sin_pi_div_three] at h3
        have : √3 ≤ 1.8 := by
          rw [Real.sqrt_le_left (by norm_num)]
          norm_num
        linarith
      norm_num at h'
      nlinarith
    · have hs : √x ≤ 1 := Real.sqrt_le_one.mpr h1
      have h2 : sin (10 * π * x) ≤ 0 := by
        have e : sin (10 * π * x) = -sin (10 * π - 10 * π * x) := by
          rw [show 10 * π - 10 * π * x = -(10 * π * x - (5 : ℕ) * (2 * π)) by push_cast; ring, sin_neg, sin_sub_nat_mul_two_pi, neg_neg]
        rw [e, neg_nonpos]
        norm_num at h'
        apply sin_nonneg_of_nonneg_of_le_pi
        · nlinarith
        · nlinarith
      nlinarith

theorem zdt3H_left {x : ℝ} (h0 : 0 ≤ x) (h1 : x ≤ 0.85) : zdt3H x ≤ 1.772 := by
  unfold zdt3H
  have hs : √x ≤ 0.922 := by
    rw [Real.sqrt_le_left (by norm_num)]
    norm_num at h1 ⊢
    linarith
  have := sin_le_one (10 * π * x)
  nlinarith

theorem zdt3H_right : 1.773 ≤ zdt3H 0.852 := by
  unfold zdt3H
  have hs : 0.923 ≤ √(0.852 : ℝ) := by
    apply Real.le_sqrt_of_sq_le
    norm_num
  have e : sin (10 * π * 0.852) = cos (0.02 * π) := by
    rw [show 10 * π * 0.852 = (0.02 * π + π / 2) + (4 : ℕ) * (2 * π) by push_cast; ring, sin_add_nat_mul_two_pi, sin_add_pi_div_two]
  have hc := one_sub_sq_div_two_le_cos (x := 0.02 * π)
  have hp := pi_pos
  have hp' := pi_lt_d2
  have : (0.02 * π) ^ 2 ≤ 0.004 := by nlinarith
  rw [e]
  nlinarith

theorem zdt3_domain {n : Nat} (hn : 2 ≤ n) :
    (∀ v, InBounds (zdt3B n) v → (0 ≤ v.getD 0 0 ∧ v.getD 0 0 ≤ 1) ∧ 1 ≤ zdtG v) ∧ ∀ x, 0 ≤ x → x ≤ 1 → ∃ v, InBounds (zdt3B n) v ∧ v.getD 0 0 = x ∧ zdtG v = 1 :=
  zdt_domain hn

/-- The smallest maximum of a continuous function on `[0, 1]`. -/
theorem exists_first_max {H : ℝ → ℝ} (hH : ContinuousOn H (Set.Icc 0 1)) : ∃ x, 0 ≤ x ∧ x ≤ 1 ∧ (∀ y, 0 ≤ y → y ≤ 1 → H y ≤ H x) ∧ ∀ y, 0 ≤ y → y < x → H y < H x := by
  obtain ⟨z, hz, hmax⟩ := isCompact_Icc.exists_isMaxOn (Set.nonempty_Icc.mpr zero_le_one) hH
  have hcl : IsCompact {x | x ∈ Set.Icc (0 : ℝ) 1 ∧ H x = H z} := by
    have := hH.preimage_isClosed_of_isClosed isClosed_Icc (isClosed_singleton (x := H z))
    exact (isCompact_Icc.of_isClosed_subset this Set.inter_subset_left)
  obtain ⟨x, hx, hmin⟩ := hcl.exists_isMinOn ⟨z, hz, rfl⟩ continuousOn_id
  refine ⟨x, hx.1.1, hx.1.2, fun y h0 h1 => by rw [hx.2]; exact hmax ⟨h0, h1⟩, fun y h0 hlt => ?_⟩
  have hy1 : y ≤ 1 := hlt.le.trans hx.1.2
  have hle : H y ≤ H x := by rw [hx.2]; exact hmax ⟨h0, hy1⟩
  refine lt_of_le_of_ne hle fun he => ?_
  have := hmin (show y ∈ {x | x ∈ Set.Icc (0 : ℝ) 1 ∧ H x = H z} from ⟨⟨h0, hy1⟩, he.trans hx.2⟩)
  have : x ≤ y := this
  linarith

/-- C67, ZDT3: no fitness vector is better than the documented ideal point in an objective, and the first objective of the ideal point and the second objective of the nadir point are right.
Missing: the second objective of the ideal point is not attained, see `C67_zdt3_ideal_not_attained`, and the first objective of the nadir point is wrong, see `C67_zdt3_nadir_violated`. -/
theorem C67_zdt3_partial (n : Nat) (hn : 2 ≤ n) : IdealBound (InBounds (zdt3B n)) zdt3 zdt3P.ideal ∧ (∃ x, ParetoOptimal (InBounds (zdt3B n)) zdt3 x ∧ zdt3 x = [0, -1]) ∧
    ∀ x a b, ParetoOptimal (InBounds (zdt3B n)) zdt3 x → zdt3 x = [a, b] → -1 ≤ b := by
  obtain ⟨d1, d2⟩ := zdt3_domain hn
  obtain ⟨o1, o2, o3⟩ := (C60_zdt3 n hn)
  refine ⟨idealBound_two.mpr fun x hx => ?_, ⟨_, ⟨o1, fun y hy => by rw [show zdt3 (zdt3B n).optimum = [0, -1] from o2]; exact o3 y hy⟩, o2⟩, ?_⟩
  · obtain ⟨⟨h0, h1⟩, hg⟩ := d1 x hx
    refine ⟨by linarith, ?_⟩
    have := zdt3_second h0 h1 hg
    have := zdt3H_lt h0 h1
    linarith
  · intro x a b hx e
    refine not_lt.mp fun hlt => hx.2 _ o1 ?_
    rw [show zdt3 (zdt3B n).optimum = [0, -1] from o2, e]
    obtain ⟨⟨h0, h1⟩, hg⟩ := d1 x hx.1
    have ha : -(x.getD 0 0) = a := List.head_eq_of_cons_eq e
    exact better_two_iff.mpr ⟨by linarith, hlt.le, Or.inr hlt⟩

/-- C67, ZDT3: the second objective is less than that of the documented ideal point everywhere. -/
theorem C67_zdt3_ideal_not_attained (n : Nat) (hn : 2 ≤ n) : (∀ v a b, InBounds (zdt3B n) v → zdt3 v = [a, b] → b < 0.8) ∧ ¬ IdealRight (InBounds (zdt3B n)) zdt3 zdt3P.ideal := by
  obtain ⟨d1, d2⟩ := zdt3_domain hn
  have key : ∀ v, InBounds (zdt3B n) v → ∀ b : ℝ, (zdt3 v)[1]? = some b → b < 0.8 := by
    intro v hv b hb
    cases hb
    obtain ⟨⟨h0, h1⟩, hg⟩ := d1 v hv
    have := zdt3_second h0 h1 hg
    have := zdt3H_lt h0 h1
    linarith
  refine ⟨fun v a b hv e => key v hv b (by rw [e]; rfl), fun h => ?_⟩
  obtain ⟨x, hx, e⟩ := h.2 1 0.8 rfl
  exact lt_irrefl _ (key x hx.1 _ e)

/-- C67, ZDT3: a Pareto-optimal point is worse than the documented nadir point in the first objective. -/
theorem C67_zdt3_nadir_violated (n : Nat) (hn : 2 ≤ n) : (∃ x a b, ParetoOptimal (InBounds (zdt3B n)) zdt3 x ∧ zdt3 x = [a, b] ∧ a < -0.85) ∧
    ¬ NadirBound (InBounds (zdt3B n)) zdt3 zdt3P.nadir := by
  obtain ⟨d1, d2⟩ := zdt3_domain hn
  have key : ∃ x a b, ParetoOptimal (InBounds (zdt3B n)) zdt3 x ∧ zdt3 x = [a, b] ∧ a < -0.85 := by
    obtain ⟨x, h0, h1, hmax, hfst⟩ := exists_first_max (H := zdt3H) (by unfold zdt3H; fun_prop)
    obtain ⟨v, hv, ev, gv⟩ := d2 x h0 h1
    have hfit : zdt3 v = [-x, zdt3H x - 1] := by
      unfold zdt3
      dsimp only
      rw [ev, gv, zdt3_second_front]
    refine ⟨v, -x, zdt3H x - 1, ⟨hv, fun y hy hb => ?_⟩, hfit, ?_⟩
    · rw [hfit] at hb
      obtain ⟨b1, b2, b3⟩ := better_two hb
      obtain ⟨⟨y0, y1⟩, hg⟩ := d1 y hy
      have := zdt3_second y0 y1 hg
      have hm := hmax _ y0 y1
      rcases b3 with b3 | b3
      · have := hfst _ y0 (by linarith)
        linarith
      · linarith
    · rw [neg_lt_neg_iff]
      refine not_le.mp fun hle => ?_
      have a1 := zdt3H_left h0 hle
      have a2 := zdt3H_right
      have a3 := hmax 0.852 (by norm_num) (by norm_num)
      linarith
  refine ⟨key, fun h => ?_⟩
  obtain ⟨x, a, b, hx, e, hlt⟩ := key
  have := (h x hx).2 0 a (-0.85) (by rw [e]; rfl) rfl
  linarith

/-! ## ZDT6 -/

/-- The first objective of ZDT6. -/
noncomputable def zdt6F (x : ℝ) : ℝ := 1 - exp (-4 * x) * sin (6 * π * x) ^ 6

/-- The distance function of ZDT6. -/
noncomputable def zdt6G (v : List ℝ) : ℝ := 1 + 9 * (v.tail.sum / (v.length - 1)) ^ (0.25 : ℝ)

theorem zdt6_eq (v : List ℝ) : zdt6 v = [-(zdt6F (v.getD 0 0)), -(zdt6G v - zdt6F (v.getD 0 0) * zdt6F (v.getD 0 0) / zdt6G v)] := rfl

theorem zdt6F_range {x : ℝ} (h0 : 0 ≤ x) : 0 < zdt6F x ∧ zdt6F x ≤ 1 := by
  unfold zdt6F
  have he : 0 < exp (-4 * x) := exp_pos _
  have he1 : exp (-4 * x) ≤ 1 := by rw [exp_le_one_iff]; linarith
  have hs : 0 ≤ sin (6 * π * x) ^ 6 := by positivity
  have hs1 : sin (6 * π * x) ^ 6 ≤ 1 := by
    have h2 : sin (6 * π * x) ^ 2 ≤ 1 := sin_sq_le_one _
    calc sin (6 * π * x) ^ 6 = (sin (6 * π * x) ^ 2) ^ 3 := by ring
      _ ≤ 1 := pow_le_one₀ (sq_nonneg _) h2
  refine ⟨?_, by nlinarith⟩
  rcases h0.eq_or_lt with rfl | h0
  · simp
  · have he2 : exp (-4 * x) < 1 := by rw [exp_lt_one_iff]; linarith
    nlinarith

theorem zdt6_domain {n : Nat} (hn : 2 ≤ n) : (∀ v, InBounds (zdt6B n) v → (0 ≤ v.getD 0 0 ∧ v.getD 0 0 ≤ 1) ∧ 1 ≤ zdt6G v) ∧
    ∀ x, 0 ≤ x → x ≤ 1 → ∃ v, InBounds (zdt6B n) v ∧ v.getD 0 0 = x ∧ zdt6G v = 1 := by
  constructor
  · intro v hv
    obtain ⟨hl, hv⟩ := inBounds_uniform.mp hv
    rw [List.length_replicate] at hl
    refine ⟨hv _ (getD_mem' (by omega)), ?_⟩
    unfold zdt6G
    have hs : 0 ≤ v.tail.sum := by
      have := map_sum_nonneg id v.tail (fun x hx => (hv x (List.mem_of_mem_tail hx)).1)
      simpa using this
    have hl' : (2 : ℝ) ≤ v.length := by exact_mod_cast (hl ▸ hn)
    have := rpow_nonneg (div_nonneg hs (show (0 : ℝ) ≤ (v.length : ℝ) - 1 by linarith)) 0.25
    linarith
  · intro x h0 h1
    refine ⟨x :: List.replicate (n - 1) 0, inBounds_uniform.mpr ⟨by simp; omega, ?_⟩, rfl, ?_⟩
    · intro y hy
      rcases List.mem_cons.mp hy with rfl | hy
      · exact ⟨h0, h1⟩
      · rw [List.eq_of_mem_replicate hy]; exact ⟨le_rfl, zero_le_one⟩
    · unfold zdt6G
      rw [List.tail_cons, sum_replicate_zero, zero_div, zero_rpow (by norm_num)]
      ring

theorem zdt6F_witness : zdt6F 0.0815 ≤ 0.2825 := by
  unfold zdt6F
  have hp := pi_pos
  have hp' := pi_lt_d2
  have e : sin (6 * π * 0.0815) = cos (0.011 * π) := by
    rw [show 6 * π * 0.0815 = π / 2 - 0.011 * π by ring, sin_pi_div_two_sub]
  have hc : 0.9993 ≤ cos (0.011 * π) := by
    have := one_sub_sq_div_two_le_cos (x := 0.011 * π)
    nlinarith
  have hc6 : (0.9993 : ℝ) ^ 6 ≤ cos (0.011 * π) ^ 6 := pow_le_pow_left₀ (by norm_num) hc 6
  have hexp : 0.7217 ≤ exp (-4 * 0.0815) := by
    rw [show (-4 : ℝ) * 0.0815 = -0.326 by norm_num, exp_neg]
    have hb := exp_bound' (x := 0.326) (by norm_num) (by norm_num) (n := 4) (by norm_num)
    rw [Finset.sum_range_succ, Finset.sum_range_succ, Finset.sum_range_succ, Finset.sum_range_succ, Finset.sum_range_zero] at hb
    norm_num [Nat.factorial] at hb
    have : exp 0.326 ≤ 1.3856 := by
      norm_num
      linarith
    rw [le_inv_comm₀ (by norm_num) (exp_pos _)]
    refine this.trans ?_
    norm_num
  rw [e]
  have : (0.7217 : ℝ) * 0.9993 ^ 6 ≤ exp (-4 * 0.0815) * cos (0.011 * π) ^ 6 := mul_le_mul hexp hc6 (by norm_num) (exp_pos _).le
  norm_num at this ⊢
  linarith

/-- C67, ZDT6: no fitness vector is better than the documented ideal point in an objective, no Pareto-optimal point is worse than the documented nadir point in the first objective, and the best value of the second objective and the worst value of the first one are attained.
Missing: the first objective of the ideal point is not attained, see `C67_zdt6_ideal_not_attained`, and the second objective of the nadir point is wrong, see `C67_zdt6_nadir_violated`. -/
theorem C67_zdt6_partial (n : Nat) (hn : 2 ≤ n) : IdealBound (InBounds (zdt6B n)) zdt6 zdt6P.ideal ∧ (∃ x, ParetoOptimal (InBounds (zdt6B n)) zdt6 x ∧ zdt6 x = [-1, 0]) ∧
    ∀ x a b, ParetoOptimal (InBounds (zdt6B n)) zdt6 x → zdt6 x = [a, b] → -1 ≤ a := by
  obtain ⟨d1, d2⟩ := zdt6_domain hn
  obtain ⟨o1, o2, o3⟩ := (C60_zdt6 n hn)
  refine ⟨idealBound_two.mpr fun x hx => ?_, ⟨_, ⟨o1, fun y hy => by rw [show zdt6 (zdt6B n).optimum = [-1, 0] from o2]; exact o3 y hy⟩, o2⟩, ?_⟩
  · obtain ⟨⟨h0, h1⟩, hg⟩ := d1 x hx
    obtain ⟨f0, f1⟩ := zdt6F_range h0
    refine ⟨by show -(zdt6F _) ≤ 0; linarith, ?_⟩
    show -(zdt6G x - zdt6F (x.getD 0 0) * zdt6F (x.getD 0 0) / zdt6G x) ≤ 0
    have : zdt6F (x.getD 0 0) * zdt6F (x.getD 0 0) / zdt6G x ≤ 1 := by
      rw [div_le_one (by linarith)]
      nlinarith
    linarith
  · intro x a b hx e
    have ha : -(zdt6F (x.getD 0 0)) = a := List.head_eq_of_cons_eq e
    have := (zdt6F_range (d1 x hx.1).1.1).2
    linarith

/-- C67, ZDT6: the first objective is less than that of the documented ideal point everywhere. -/
theorem C67_zdt6_ideal_not_attained (n : Nat) (hn : 2 ≤ n) : (∀ v a b, InBounds (zdt6B n) v → zdt6 v = [a, b] → a < 0) ∧ ¬ IdealRight (InBounds (zdt6B n)) zdt6 zdt6P.ideal := by
  obtain ⟨d1, d2⟩ := zdt6_domain hn
  have key : ∀ v, InBounds (zdt6B n) v → ∀ a : ℝ, (zdt6 v)[0]? = some a → a < 0 := by
    intro v hv a ha
    have ha' : -(zdt6F (v.getD 0 0)) = a := Option.some.inj ha
    have := (zdt6F_range (d1 v hv).1.1).1
    linarith
  refine ⟨fun v a b hv e => key v hv a (by rw [e]; rfl), fun h => ?_⟩
  obtain ⟨x, hx, e⟩ := h.2 0 0 rfl
  exact lt_irrefl _ (key x hx.1 _ e)

/-- C67, ZDT6: a Pareto-optimal point is worse than the documented nadir point in the second objective. -/
theorem C67_zdt6_nadir_violated (n : Nat) (hn : 2 ≤ n) : (∃ x a b, ParetoOptimal (InBounds (zdt6B n)) zdt6 x ∧ zdt6 x = [a, b] ∧ b < -0.92) ∧
    ¬ NadirBound (InBounds (zdt6B n)) zdt6 zdt6P.nadir := by
  obtain ⟨d1, d2⟩ := zdt6_domain hn
  have key : ∃ x a b, ParetoOptimal (InBounds (zdt6B n)) zdt6 x ∧ zdt6 x = [a, b] ∧ b < -0.92 := by
    obtain ⟨x, hx, hmin⟩ := isCompact_Icc.exists_isMinOn (f := zdt6F) (Set.nonempty_Icc.mpr zero_le_one) (by unfold zdt6F; fun_prop)
    obtain ⟨v, hv, ev, gv⟩ := d2 x hx.1 hx.2
    have hfit : zdt6 v = [-(zdt6F x), -(1 - zdt6F x * zdt6F x / 1)] := by rw [zdt6_eq, ev, gv]
    have fx := zdt6F_range hx.1
    refine ⟨v, _, _, ⟨hv, fun y hy hb => ?_⟩, hfit, ?_⟩
    · rw [hfit, zdt6_eq] at hb
      obtain ⟨b1, b2, b3⟩ := better_two hb
      obtain ⟨⟨y0, y1⟩, hg⟩ := d1 y hy
      have hm : zdt6F x ≤ zdt6F (y.getD 0 0) := hmin ⟨y0, y1⟩
      have he : zdt6F (y.getD 0 0) = zdt6F x := by linarith
      rw [he] at b2 b3
      have : zdt6F x * zdt6F x / zdt6G y ≤ zdt6F x * zdt6F x / 1 := div_le_div_of_nonneg_left (by nlinarith) one_pos hg
      rcases b3 with b3 | b3 <;> linarith
    · have hm : zdt6F x ≤ zdt6F 0.0815 := hmin ⟨by norm_num, by norm_num⟩
      have := zdt6F_witness
      rw [div_one]
      nlinarith
  refine ⟨key, fun h => ?_⟩
  obtain ⟨x, a, b, hx, e, hlt⟩ := key
  have := (h x hx).2 1 b (-0.92) (by rw [e]; rfl) rfl
  linarith

/-! Concrete cases. -/

example : ∃ x, ParetoOptimal (InBounds (zdt3B 30)) zdt3 x ∧ zdt3 x = [0, -1] := (C67_zdt3_partial 30 (by norm_num)).2.1
example : ∃ x, ParetoOptimal (InBounds (zdt6B 10)) zdt6 x ∧ zdt6 x = [-1, 0] := (C67_zdt6_partial 10 (by norm_num)).2.1

end Gapp.Props
