import Verif.Props.BenchmarkDtlz
import Verif.Props.BenchmarkDtlz7
import Mathlib.Analysis.Convex.SpecificFunctions.Pow
/-!
# C67: the ideal and nadir point of the Kursawe function
-/

namespace Gapp.Props
open Gapp.Model Gapp.Spec Real

/-- The terms of the second objective of the Kursawe function. -/
noncomputable def kursaweH (x : ℝ) : ℝ := -(|x| ^ (0.8 : ℝ) + 5 * sin (x ^ 3))

theorem abs_rpow_cube (x : ℝ) : |x| ^ (0.8 : ℝ) = (|x| ^ 3) ^ ((4 : ℝ) / 15) := by
  rw [← rpow_natCast, ← rpow_mul (abs_nonneg x)]
  norm_num

theorem rpow_le_of_pow {a c : ℝ} (ha : 0 ≤ a) (hc : 0 ≤ c) (h : a ^ 4 ≤ c ^ 15) : a ^ ((4 : ℝ) / 15) ≤ c := by
  have h1 : a ^ ((4 : ℝ) / 15) = (a ^ 4) ^ ((1 : ℝ) / 15) := by
    rw [← rpow_natCast a 4, ← rpow_mul ha]
    norm_num
  have h2 : c = (c ^ 15) ^ ((1 : ℝ) / 15) := by
    rw [← rpow_natCast c 15, ← rpow_mul hc]
    norm_num
  rw [h1, h2]
  exact rpow_le_rpow (pow_nonneg ha 4) h (by norm_num)

theorem le_rpow_of_pow {a c : ℝ} (ha : 0 ≤ a) (hc : 0 ≤ c) (h : c ^ 15 ≤ a ^ 4) : c ≤ a ^ ((4 : ℝ) / 15) := by
  have h1 : a ^ ((4 : ℝ) / 15) = (a ^ 4) ^ ((1 : ℝ) / 15) := by
    rw [← rpow_natCast a 4, ← rpow_mul ha]
    norm_num
  have h2 : c = (c ^ 15) ^ ((1 : ℝ) / 15) := by
    rw [← rpow_natCast c 15, ← rpow_mul hc]
    norm_num
  rw [h1]
  refine h2.le.trans ?_
  exact rpow_le_rpow (pow_nonneg hc 15) h (by norm_num)

theorem half_pi_rpow : 1.1279 ≤ (π / 2) ^ ((4 : ℝ) / 15) := by
  apply le_rpow_of_pow (by positivity) (by norm_num)
  have h := pi_gt_d6
  have : (1.5707 : ℝ) ^ 4 ≤ (π / 2) ^ 4 := pow_le_pow_left₀ (by norm_num) (by norm_num at h ⊢; linarith) 4
  refine le_trans ?_ this
  norm_num

/-- Above the chord from 1 to `π / 2`. -/
theorem rpow_chord {u : ℝ} (h1 : 1 ≤ u) (h2 : u ≤ π / 2) : 1.1279 - 0.2243 * (π / 2 - u) ≤ u ^ ((4 : ℝ) / 15) := by
  have hp := pi_gt_d6
  have hp' := pi_lt_d6
  have hw : 0 < π / 2 - 1 := by norm_num at hp; linarith
  set l := (π / 2 - u) / (π / 2 - 1) with hl
  have l0 : 0 ≤ l := div_nonneg (by linarith) hw.le
  have l1 : l ≤ 1 := by rw [hl, div_le_one hw]; linarith
  have hc := (concaveOn_rpow (p := (4 : ℝ) / 15) (by norm_num) (by norm_num)).2 (show (1 : ℝ) ∈ Set.Ici 0 from by simp) (show π / 2 ∈ Set.Ici 0 from Set.mem_Ici.mpr (by positivity)) l0 (show 0 ≤ 1 - l by linarith) (by ring)
  simp only [smul_eq_mul, one_rpow] at hc
  have hu : l * 1 + (1 - l) * (π / 2) = u := by
    have : l * (π / 2 - 1) = π / 2 - u := div_mul_cancel₀ _ hw.ne'
    linarith
  rw [hu] at hc
  have hh := half_pi_rpow
  have h3 : l * 0.1279 ≤ 0.2243 * (π / 2 - u) := by
    have : l * (π / 2 - 1) = π / 2 - u := div_mul_cancel₀ _ hw.ne'
    rw [← this]
    norm_num at hp ⊢
    nlinarith
  nlinarith

theorem kursaweH_big {x : ℝ} (h : π / 2 ≤ |x| ^ 3) : kursaweH x ≤ 3.8721 := by
  unfold kursaweH
  have h1 : 1.1279 ≤ |x| ^ (0.8 : ℝ) := by
    rw [abs_rpow_cube]
    exact half_pi_rpow.trans (rpow_le_rpow (by positivity) h (by norm_num))
  have := neg_one_le_sin (x ^ 3)
  norm_num at *
  linarith

theorem kursaweH_pos {x : ℝ} (h : |x| ^ 3 ≤ π / 2) (hx : 0 ≤ x) : kursaweH x ≤ 0 := by
  unfold kursaweH
  rw [abs_of_nonneg hx] at h
  have h1 : 0 ≤ |x| ^ (0.8 : ℝ) := rpow_nonneg (abs_nonneg x) _
  have h2 : 0 ≤ sin (x ^ 3) := sin_nonneg_of_nonneg_of_le_pi (by positivity) (by linarith [pi_pos])
  linarith

theorem kursaweH_neg {x : ℝ} (hx : x ≤ 0) : kursaweH x = 5 * cos (π / 2 - |x| ^ 3) - (|x| ^ 3) ^ ((4 : ℝ) / 15) := by
  unfold kursaweH
  rw [cos_pi_div_two_sub, abs_rpow_cube, show x ^ 3 = -(|x| ^ 3) by rw [abs_of_nonpos hx]; ring, sin_neg]
  ring

/-- Near the maximum, at a distance of `d`. -/
theorem kursaweH_near {x : ℝ} (hx : x ≤ 0) (h1 : 1 ≤ |x| ^ 3) (h2 : |x| ^ 3 ≤ π / 2) :
    kursaweH x ≤ 5 * (1 - (π / 2 - |x| ^ 3) ^ 2 / 2 + (π / 2 - |x| ^ 3) ^ 4 / 24) - (1.1279 - 0.2243 * (π / 2 - |x| ^ 3)) := by
  rw [kursaweH_neg hx]
  have := rpow_chord h1 h2
  have := cos_le_quartic (show 0 ≤ π / 2 - |x| ^ 3 by linarith)
  linarith

theorem kursaweH_low {x : ℝ} (hx : x ≤ 0) (h1 : |x| ^ 3 ≤ 1) : kursaweH x ≤ 3.86 := by
  rw [kursaweH_neg hx]
  have h0 : 0 ≤ |x| ^ 3 := by positivity
  have hp := pi_gt_d6
  rcases le_total (|x| ^ 3) 0.77 with h | h
  · rw [cos_pi_div_two_sub]
    have := sin_le h0
    have := rpow_nonneg h0 ((4 : ℝ) / 15)
    norm_num at *
    linarith
  · have h2 : |x| ^ 3 ≤ (|x| ^ 3) ^ ((4 : ℝ) / 15) := by
      have := rpow_le_rpow_of_exponent_ge (lt_of_lt_of_le (by norm_num) h) h1 (show (4 : ℝ) / 15 ≤ 1 by norm_num)
      rwa [rpow_one] at this
    have h3 : cos (π / 2 - |x| ^ 3) ≤ cos 0.57 := by
      apply cos_le_cos_of_nonneg_of_le_pi (by norm_num)
      · linarith [pi_pos]
      · norm_num at *; linarith
    have h4 := cos_le_quartic (x := 0.57) (by norm_num)
    norm_num at *
    linarith

theorem kursaweH_le (x : ℝ) : kursaweH x ≤ 3.88 := by
  rcases le_total (π / 2) (|x| ^ 3) with h | h
  · have := kursaweH_big h
    norm_num at *
    linarith
  · rcases le_total 0 x with hx | hx
    · have := kursaweH_pos h hx
      norm_num at *
      linarith
    · rcases le_total (|x| ^ 3) 1 with h1 | h1
      · have := kursaweH_low hx h1
        norm_num at *
        linarith
      · refine (kursaweH_near hx h1 h).trans ?_
        have hd0 : 0 ≤ π / 2 - |x| ^ 3 := by linarith
        have hd1 : π / 2 - |x| ^ 3 ≤ 0.58 := by
          have := pi_lt_d2
          norm_num at *
          linarith
        generalize π / 2 - |x| ^ 3 = d at *
        have h4 : d ^ 4 ≤ d ^ 2 := by
          have : d ^ 2 ≤ 1 := pow_le_one₀ hd0 (hd1.trans (by norm_num))
          nlinarith [sq_nonneg d]
        norm_num at *
        nlinarith [sq_nonneg (d - 0.05)]

/-- A variable whose term is large is far from zero. -/
theorem kursaweH_far {x : ℝ} (h : 3.875 ≤ kursaweH x) : 1.14 ≤ |x| := by
  refine Classical.byContradiction fun hlt => ?_
  rw [not_le] at hlt
  have hu : |x| ^ 3 ≤ 1.14 ^ 3 := pow_le_pow_left₀ (abs_nonneg x) hlt.le 3
  have hp := pi_gt_d6
  have hle : |x| ^ 3 ≤ π / 2 := by norm_num at *; linarith
  rcases le_total 0 x with hx | hx
  · have := kursaweH_pos hle hx
    norm_num at *
    linarith
  · rcases le_total (|x| ^ 3) 1 with h1 | h1
    · have := kursaweH_low hx h1
      norm_num at *
      linarith
    · have h2 := kursaweH_near hx h1 hle
      have hd0 : 0.0892 ≤ π / 2 - |x| ^ 3 := by norm_num at *; linarith
      have hd1 : π / 2 - |x| ^ 3 ≤ 0.58 := by
        have := pi_lt_d2
        norm_num at *
        linarith
      generalize π / 2 - |x| ^ 3 = d at *
      have h4 : d ^ 4 ≤ 0.34 * d ^ 2 := by
        have : d ^ 2 ≤ 0.34 := by norm_num at *; nlinarith
        nlinarith [sq_nonneg d]
      norm_num at *
      nlinarith

/-- A variable with a large term. -/
theorem kursaweH_witness : ∃ x : ℝ, -5 ≤ x ∧ x ≤ 5 ∧ 3.8751 ≤ kursaweH x := by
  have hc : ((1.531 : ℝ) ^ ((1 : ℝ) / 3)) ^ 3 = 1.531 := by
    rw [← rpow_natCast, ← rpow_mul (by norm_num)]
    norm_num
  have h0 : 0 ≤ (1.531 : ℝ) ^ ((1 : ℝ) / 3) := rpow_nonneg (by norm_num) _
  have h5 : (1.531 : ℝ) ^ ((1 : ℝ) / 3) ≤ 5 := by
    refine Classical.byContradiction fun h => ?_
    rw [not_le] at h
    have := pow_le_pow_left₀ (by norm_num) h.le 3
    rw [hc] at this
    norm_num at this
  refine ⟨-(1.531 : ℝ) ^ ((1 : ℝ) / 3), by linarith, by linarith, ?_⟩
  rw [kursaweH_neg (by linarith), abs_neg, abs_of_nonneg h0, hc]
  have h1 : (1.531 : ℝ) ^ ((4 : ℝ) / 15) ≤ 1.1208 := rpow_le_of_pow (by norm_num) (by norm_num) (by norm_num)
  have h2 := one_sub_sq_div_two_le_cos (x := π / 2 - 1.531)
  have hp := pi_gt_d6
  have hp' := pi_lt_d6
  have h3 : (π / 2 - 1.531) ^ 2 ≤ 0.0398 ^ 2 := pow_le_pow_left₀ (by norm_num at *; linarith) (by norm_num at *; linarith) 2
  norm_num at *
  linarith

/-- The first objective of the Kursawe function. -/
noncomputable def kursaweF (v : List ℝ) : ℝ := ((List.range (v.length - 1)).map (fun i => 10 * exp (-0.2 * √(v.getD i 0 ^ 2 + v.getD (i + 1) 0 ^ 2)))).sum

theorem kursawe_sums (v : List ℝ) (hv : v ≠ []) : kursawe v = [kursaweF v, (v.map kursaweH).sum] := by
  have hpos : 0 < v.length := List.length_pos_iff.mpr hv
  have hmap : v.map kursaweH = (List.range (v.length - 1 + 1)).map (fun i => kursaweH (v.getD i 0)) := by
    apply List.ext_getElem
    · simp; omega
    · intro i h1 h2
      have : i < v.length := by simpa using h1
      simp [this]
  have hneg : ∀ l : List Nat, (l.map (fun i => kursaweH (v.getD i 0))).sum = -(l.map (fun i => |v.getD i 0| ^ (0.8 : ℝ) + 5 * sin (v.getD i 0 ^ 3))).sum := by
    intro l
    induction l with
    | nil => simp
    | cons i l ih => rw [List.map_cons, List.map_cons, List.sum_cons, List.sum_cons, ih]; unfold kursaweH; ring
  rw [kursawe_eq, hmap, hneg, List.range_succ, List.map_append, List.sum_append, List.map_singleton, List.sum_singleton]
  rfl

theorem kursawe_domain {n : Nat} (hn : 2 ≤ n) {v : List ℝ} (hv : InBounds (kursaweB n) v) : v.length = n ∧ v ≠ [] ∧ ∀ x ∈ v, -5 ≤ x ∧ x ≤ 5 := by
  obtain ⟨h1, h2⟩ := inBounds_uniform.mp hv
  rw [List.length_replicate] at h1
  exact ⟨h1, List.ne_nil_of_length_pos (by omega), h2⟩

theorem kursaweF_le {v : List ℝ} {n : Nat} (hl : v.length = n) (hn : 2 ≤ n) : kursaweF v ≤ 10 * ((n : ℝ) - 1) := by
  unfold kursaweF
  have h : ∀ l : List Nat, (l.map (fun i => 10 * exp (-0.2 * √(v.getD i 0 ^ 2 + v.getD (i + 1) 0 ^ 2)))).sum ≤ l.length * 10 := by
    intro l
    induction l with
    | nil => simp
    | cons i l ih =>
      rw [List.map_cons, List.sum_cons, List.length_cons]
      have h1 : exp (-0.2 * √(v.getD i 0 ^ 2 + v.getD (i + 1) 0 ^ 2)) ≤ 1 := by
        rw [exp_le_one_iff]
        have := Real.sqrt_nonneg (v.getD i 0 ^ 2 + v.getD (i + 1) 0 ^ 2)
        linarith
      push_cast
      linarith
  have h1 := h (List.range (v.length - 1))
  rw [List.length_range, hl, Nat.cast_sub (by omega)] at h1
  rw [hl]
  push_cast at h1
  linarith

/-- The fitness of the zero vector, which is Pareto-optimal. -/
theorem kursawe_zero {n : Nat} (hn : 2 ≤ n) : ParetoOptimal (InBounds (kursaweB n)) (kursaweB n).fitness (List.replicate n 0) ∧
    (kursaweB n).fitness (List.replicate n 0) = [10 * ((n : ℝ) - 1), 0] := by
  obtain ⟨h1, h2, h3⟩ := C60_kursawe n hn
  exact ⟨⟨h1, fun y hy hb => h3 y hy (h2 ▸ hb)⟩, h2⟩

/-- C67 (partial): for the Kursawe function with at most five variables no objective is better than the ideal point. For any number of variables the first value of the ideal point and the second
one of the nadir point are right. Missing: the second value of the ideal point and the first one of the nadir point, which are wrong; see the next theorems. -/
theorem C67_kursawe_partial (n : Nat) (hn : 2 ≤ n) :
    (n ≤ 5 → IdealBound (InBounds (kursaweB n)) (kursaweB n).fitness (kursaweP n).ideal) ∧
      (∀ v, InBounds (kursaweB n) v → ∃ a b, (kursaweB n).fitness v = [a, b] ∧ a ≤ (kursaweP n).ideal.getD 0 0) ∧
      (∀ v, ParetoOptimal (InBounds (kursaweB n)) (kursaweB n).fitness v → ∃ a b, (kursaweB n).fitness v = [a, b] ∧ (kursaweP n).nadir.getD 1 0 ≤ b) ∧
      ∃ v, ParetoOptimal (InBounds (kursaweB n)) (kursaweB n).fitness v ∧ (kursaweB n).fitness v = [(kursaweP n).ideal.getD 0 0, (kursaweP n).nadir.getD 1 0] := by
  have hfit : ∀ v, InBounds (kursaweB n) v → (kursaweB n).fitness v = [kursaweF v, (v.map kursaweH).sum] := fun v hv => kursawe_sums v (kursawe_domain hn hv).2.1
  refine ⟨fun h5 v hv => ?_, fun v hv => ⟨_, _, hfit v hv, kursaweF_le (kursawe_domain hn hv).1 hn⟩, fun v hv => ⟨_, _, hfit v hv.1, ?_⟩, ⟨_, (kursawe_zero hn).1, (kursawe_zero hn).2⟩⟩
  · rw [hfit v hv]
    obtain ⟨hl, hne, hb⟩ := kursawe_domain hn hv
    refine ⟨rfl, fun i a b ha hb => ?_⟩
    match i, ha, hb with
    | 0, ha, hb => cases ha; cases hb; exact kursaweF_le hl hn
    | 1, ha, hb =>
      cases ha
      cases hb
      have := map_sum_le_mul kursaweH 3.88 v (fun x _ => kursaweH_le x)
      rw [hl] at this
      have h5 : (n : ℝ) ≤ 5 := by exact_mod_cast h5
      norm_num at this ⊢
      linarith
    | i + 2, ha, hb => simp at ha
  · refine Classical.byContradiction fun hlt => ?_
    rw [not_le] at hlt
    apply hv.2 _ (kursawe_zero hn).1.1
    rw [(kursawe_zero hn).2, hfit v hv.1]
    exact better_two_iff.mpr ⟨kursaweF_le (kursawe_domain hn hv.1).1 hn, hlt.le, Or.inr hlt⟩

/-- C67, violated: with six or more variables the second objective of the Kursawe function can be better than the ideal point. -/
theorem C67_kursawe_ideal_violated (n : Nat) (hn : 6 ≤ n) : ¬ IdealBound (InBounds (kursaweB n)) (kursaweB n).fitness (kursaweP n).ideal := by
  intro h
  obtain ⟨x, hx1, hx2, hx⟩ := kursaweH_witness
  have hb : InBounds (kursaweB n) (List.replicate n x) := inBounds_uniform.mpr ⟨by simp, fun y hy => by rw [List.eq_of_mem_replicate hy]; exact ⟨hx1, hx2⟩⟩
  have h1 := (h _ hb).2 1
  have hf : (kursaweB n).fitness (List.replicate n x) = _ := kursawe_sums (List.replicate n x) (kursawe_domain (by omega) hb).2.1
  rw [hf] at h1
  have h2 := h1 _ _ rfl rfl
  rw [List.map_replicate, List.sum_replicate, nsmul_eq_mul] at h2
  have hn' : (6 : ℝ) ≤ n := by exact_mod_cast hn
  have h3 : (n : ℝ) * 3.8751 ≤ n * kursaweH x := mul_le_mul_of_nonneg_left hx (by linarith)
  norm_num at h2 h3
  linarith

theorem getD_finRange {N : Nat} (w : Fin N → ℝ) (i : Nat) : ((List.finRange N).map (fun j => w j)).getD i 0 = if h : i < N then w ⟨i, h⟩ else 0 := by
  by_cases h : i < N
  · simp [h]
  · simp [h]

theorem box_lists_uniform {N : Nat} {lo up : ℝ} {opt val : List ℝ} {f : List ℝ → List ℝ} (hN : opt.length = N) :
    (∀ w : Set.Icc (fun _ : Fin N => lo) (fun _ => up), InBounds (uniformBenchmark lo up opt val f) ((List.finRange N).map (fun i => w.1 i))) ∧
      ∀ v, InBounds (uniformBenchmark lo up opt val f) v → ∃ w : Set.Icc (fun _ : Fin N => lo) (fun _ => up), (List.finRange N).map (fun i => w.1 i) = v := by
  constructor
  · intro w
    refine inBounds_uniform.mpr ⟨by simp [hN], fun x hx => ?_⟩
    obtain ⟨i, _, rfl⟩ := List.mem_map.mp hx
    exact ⟨w.2.1 i, w.2.2 i⟩
  · intro v hv
    obtain ⟨hl, hv⟩ := inBounds_uniform.mp hv
    have hl : v.length = N := hl.trans hN
    subst hl
    refine ⟨⟨fun i => v[i], fun i => (hv _ (List.getElem_mem i.2)).1, fun i => (hv _ (List.getElem_mem i.2)).2⟩, ?_⟩
    apply List.ext_getElem
    · simp
    · intro i h1 h2
      simp

theorem continuous_kursaweH : Continuous kursaweH := by
  unfold kursaweH
  exact ((continuous_abs.rpow_const (fun _ => Or.inr (by norm_num))).add (continuous_const.mul (continuous_sin.comp (continuous_pow 3)))).neg

/-- C67, violated: a Pareto-optimal point of the Kursawe function is worse than the nadir point in the first objective. -/
theorem C67_kursawe_nadir_violated (n : Nat) (hn : 2 ≤ n) : ¬ NadirBound (InBounds (kursaweB n)) (kursaweB n).fitness (kursaweP n).nadir := by
  intro h
  -- the best value of the terms of the second objective
  obtain ⟨x, hx, hmax⟩ := (isCompact_Icc (a := (-5 : ℝ)) (b := 5)).exists_isMaxOn ⟨0, by norm_num⟩ continuous_kursaweH.continuousOn
  have hmax : ∀ y, -5 ≤ y → y ≤ 5 → kursaweH y ≤ kursaweH x := fun y h1 h2 => hmax ⟨h1, h2⟩
  have hbig : 3.875 ≤ kursaweH x := by
    obtain ⟨y, h1, h2, h3⟩ := kursaweH_witness
    have := hmax y h1 h2
    norm_num at *
    linarith
  have hb : InBounds (kursaweB n) (List.replicate n x) := inBounds_uniform.mpr ⟨by simp, fun y hy => by rw [List.eq_of_mem_replicate hy]; exact hx⟩
  have hbox := box_lists_uniform (lo := -5) (up := 5) (opt := List.replicate n 0) (val := [10 * ((n : ℝ) - 1), 0]) (f := kursawe) (List.length_replicate (n := n))
  have hfit : ∀ v, InBounds (kursaweB n) v → (kursaweB n).fitness v = [kursaweF v, (v.map kursaweH).sum] := fun v hv => kursawe_sums v (kursawe_domain hn hv).2.1
  obtain ⟨p, hp, hge⟩ := exists_pareto (W := Set.Icc (fun _ : Fin n => (-5 : ℝ)) (fun _ => 5)) (dom := InBounds (kursaweB n)) (fit := (kursaweB n).fitness) (m := 2)
    (fun w => (List.finRange n).map (fun i => w.1 i)) hbox.1 hbox.2 (fun v hv => by rw [hfit v hv]; rfl) (fun i => by
      have he : ∀ w : Set.Icc (fun _ : Fin n => (-5 : ℝ)) (fun _ => 5), (kursaweB n).fitness ((List.finRange n).map (fun i => w.1 i)) = _ := fun w => hfit _ (hbox.1 w)
      simp only [he]
      match i with
      | 0 =>
        show Continuous fun w : Set.Icc (fun _ : Fin n => (-5 : ℝ)) (fun _ => 5) => kursaweF ((List.finRange n).map (fun i => w.1 i))
        unfold kursaweF
        simp only [List.length_map, List.length_finRange, getD_finRange]
        have hc : ∀ j : Nat, Continuous fun w : Set.Icc (fun _ : Fin n => (-5 : ℝ)) (fun _ => 5) => if h : j < n then w.1 ⟨j, h⟩ else 0 := by
          intro j
          by_cases hj : j < n
          · simp only [hj, dite_true]
            exact (continuous_apply _).comp continuous_subtype_val
          · simp only [hj, dite_false]
            exact continuous_const
        exact continuous_list_sum _ fun j _ => continuous_const.mul (continuous_exp.comp (continuous_const.mul (continuous_sqrt.comp (((hc j).pow 2).add ((hc (j + 1)).pow 2)))))
      | 1 =>
        show Continuous fun w : Set.Icc (fun _ : Fin n => (-5 : ℝ)) (fun _ => 5) => (((List.finRange n).map (fun i => w.1 i)).map kursaweH).sum
        simp only [List.map_map]
        exact continuous_list_sum _ fun j _ => continuous_kursaweH.comp ((continuous_apply _).comp continuous_subtype_val)
      | i + 2 => exact continuous_const) (List.replicate n x) hb
  obtain ⟨hl, hne, hpb⟩ := kursawe_domain hn hp.1
  -- the terms of the second objective of `p` are the best ones
  have hsum : (n : ℝ) * kursaweH x ≤ (p.map kursaweH).sum := by
    have := hge 1
    rw [hfit _ hb, hfit _ hp.1] at this
    have := this _ _ rfl rfl
    rwa [List.map_replicate, List.sum_replicate, nsmul_eq_mul] at this
  have hterm : ∀ y ∈ p, kursaweH y = kursaweH x := by
    have : ∀ l : List ℝ, (∀ y ∈ l, kursaweH y ≤ kursaweH x) → (l.length : ℝ) * kursaweH x ≤ (l.map kursaweH).sum → ∀ y ∈ l, kursaweH y = kursaweH x := by
      intro l
      induction l with
      | nil => intro _ _ y hy; cases hy
      | cons z l ih =>
        intro h1 h2 y hy
        rw [List.map_cons, List.sum_cons, List.length_cons] at h2
        push_cast at h2
        have hz := h1 z (List.mem_cons_self ..)
        have hl' := map_sum_le_mul kursaweH (kursaweH x) l (fun y hy => h1 y (List.mem_cons_of_mem _ hy))
        rcases List.mem_cons.mp hy with rfl | hy
        · linarith
        · exact ih (fun y hy => h1 y (List.mem_cons_of_mem _ hy)) (by linarith) y hy
    exact this p (fun y hy => hmax y (hpb y hy).1 (hpb y hy).2) (by rw [hl]; exact hsum)
  have hfar : ∀ i < n, 1.14 ≤ |p.getD i 0| := by
    intro i hi
    have hm : p.getD i 0 ∈ p := by
      rw [List.getD_eq_getElem?_getD, List.getElem?_eq_getElem (show i < p.length by omega)]
      exact List.getElem_mem _
    exact kursaweH_far (by rw [hterm _ hm]; exact hbig)
  have hexp : ∀ i < n - 1, 10 * exp (-0.2 * √(p.getD i 0 ^ 2 + p.getD (i + 1) 0 ^ 2)) ≤ 7.249 := by
    intro i hi
    have h1 := hfar i (by omega)
    have h2 := hfar (i + 1) (by omega)
    have hs : 1.612 ≤ √(p.getD i 0 ^ 2 + p.getD (i + 1) 0 ^ 2) := by
      apply Real.le_sqrt_of_sq_le
      rw [← sq_abs (p.getD i 0), ← sq_abs (p.getD (i + 1) 0)]
      have e1 := pow_le_pow_left₀ (by norm_num) h1 2
      have e2 := pow_le_pow_left₀ (by norm_num) h2 2
      generalize |p.getD i 0| = a at *
      generalize |p.getD (i + 1) 0| = b at *
      norm_num at e1 e2 ⊢
      linarith
    have h3 : exp (-0.2 * √(p.getD i 0 ^ 2 + p.getD (i + 1) 0 ^ 2)) ≤ exp (-0.3224) := by
      rw [exp_le_exp]
      norm_num at *
      linarith
    have h4 : 1.37999 ≤ exp 0.3224 := by
      refine le_trans ?_ (sum_le_exp_of_nonneg (show (0 : ℝ) ≤ 0.3224 by norm_num) 5)
      simp only [Finset.sum_range_succ, Finset.sum_range_zero, Nat.factorial]
      norm_num
    have h5 : exp (-0.3224) * exp 0.3224 = 1 := by
      rw [← exp_add]
      norm_num
    have h6 := exp_pos (-0.3224)
    generalize exp (-0.3224) = a at *
    generalize exp 0.3224 = b at *
    have h7 : a * 1.37999 ≤ 1 := by
      rw [← h5]
      exact mul_le_mul_of_nonneg_left h4 h6.le
    norm_num at *
    linarith
  have hF : kursaweF p ≤ ((n : ℝ) - 1) * 7.249 := by
    unfold kursaweF
    have : ∀ l : List Nat, (∀ i ∈ l, i < n - 1) → (l.map (fun i => 10 * exp (-0.2 * √(p.getD i 0 ^ 2 + p.getD (i + 1) 0 ^ 2)))).sum ≤ l.length * 7.249 := by
      intro l
      induction l with
      | nil => intro _; simp
      | cons i l ih =>
        intro hi
        rw [List.map_cons, List.sum_cons, List.length_cons]
        have h1 := hexp i (hi i (List.mem_cons_self ..))
        have h2 := ih (fun j hj => hi j (List.mem_cons_of_mem _ hj))
        push_cast
        linarith
    have h1 := this (List.range (p.length - 1)) (fun i hi => by rw [hl] at hi; exact List.mem_range.mp hi)
    rw [List.length_range, hl, Nat.cast_sub (by omega)] at h1
    rw [hl]
    push_cast at h1
    linarith
  have h0 := (h p hp).2 0
  rw [hfit _ hp.1] at h0
  have h0 := h0 _ _ rfl rfl
  have hn' : (2 : ℝ) ≤ n := by exact_mod_cast hn
  norm_num at h0 hF
  linarith

/-! A concrete case: the default number of three variables. -/

example : IdealBound (InBounds (kursaweB 3)) (kursaweB 3).fitness (kursaweP 3).ideal := (C67_kursawe_partial 3 (by norm_num)).1 (by norm_num)
example : InBounds (kursaweB 3) [-1.15, -1.15, 2] := inBounds_uniform.mpr ⟨rfl, by norm_num⟩

end Gapp.Props
