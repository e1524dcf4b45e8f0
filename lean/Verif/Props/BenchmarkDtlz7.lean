import Verif.Props.BenchmarkFronts
import Mathlib.Analysis.Calculus.Deriv.MeanValue
import Mathlib.Analysis.SpecialFunctions.Trigonometric.Deriv
/-!
# C67: the ideal and nadir point of DTLZ7
-/

namespace Gapp.Props
open Gapp.Model Gapp.Spec Real

theorem cos_le_quartic {x : ℝ} (hx : 0 ≤ x) : cos x ≤ 1 - x ^ 2 / 2 + x ^ 4 / 24 := by
  have hd : ∀ t : ℝ, HasDerivAt (fun t : ℝ => 1 - t ^ 2 / 2 + t ^ 4 / 24 - cos t) (-t + t ^ 3 / 6 + sin t) t := by
    intro t
    exact (((((hasDerivAt_id' t).fun_pow 2).div_const 2).const_sub 1).fun_add (((hasDerivAt_id' t).fun_pow 4).div_const 24) |>.fun_sub (hasDerivAt_cos t)).congr_deriv (by norm_num; ring)
  have hm : MonotoneOn (fun t : ℝ => 1 - t ^ 2 / 2 + t ^ 4 / 24 - cos t) (Set.Ici 0) := by
    refine monotoneOn_of_deriv_nonneg (convex_Ici 0) (fun t _ => (hd t).continuousAt.continuousWithinAt) (fun t _ => (hd t).differentiableAt.differentiableWithinAt) ?_
    intro t ht
    rw [interior_Ici] at ht
    rw [(hd t).deriv]
    have := sin_ge_sub_cube (le_of_lt ht)
    linarith
  have := hm (Set.mem_Ici.mpr le_rfl) (Set.mem_Ici.mpr hx) hx
  norm_num at this
  linarith

/-- The terms of the last objective of DTLZ7. -/
noncomputable def dtlz7H (x : ℝ) : ℝ := x * (1 + sin (3 * π * x))

theorem dtlz7H_lt {x : ℝ} (h0 : 0 ≤ x) (h1 : x ≤ 1) : dtlz7H x < 1.692996 := by
  unfold dtlz7H
  have hp := pi_pos
  have hp3 := pi_gt_d6
  have hs1 := sin_le_one (3 * π * x)
  rcases le_total x (5 / 6) with h | h
  · norm_num
    nlinarith
  · set s := 3 * π * x - 5 * π / 2 with hs
    have e : sin (3 * π * x) = cos s := by
      rw [hs, show 3 * π * x - 5 * π / 2 = (3 * π * x - (1 : ℕ) * (2 * π)) - π / 2 by push_cast; ring, cos_sub_pi_div_two, sin_sub_nat_mul_two_pi]
    have s0 : 0 ≤ s := by rw [hs]; nlinarith
    have s1 : s ≤ 1.58 := by
      have := pi_lt_d2
      rw [hs]; nlinarith
    have hx : x ≤ 5 / 6 + 0.10610336 * s := by
      have : x = 5 / 6 + s / (3 * π) := by rw [hs]; field_simp; ring
      rw [this]
      have h2 : s / (3 * π) ≤ 0.10610336 * s := by
        rw [div_le_iff₀ (by positivity)]
        have : 1 ≤ 0.10610336 * (3 * π) := by norm_num at hp3 ⊢; linarith
        nlinarith
      linarith
    have hc := cos_le_quartic s0
    rw [e]
    have hq : 0 ≤ 1 + (1 - s ^ 2 / 2 + s ^ 4 / 24) := by nlinarith [neg_one_le_cos s]
    have h3 : x * (1 + cos s) ≤ (5 / 6 + 0.10610336 * s) * (1 + (1 - s ^ 2 / 2 + s ^ 4 / 24)) := mul_le_mul hx (by linarith) (by linarith [neg_one_le_cos s]) (by nlinarith)
    refine lt_of_le_of_lt h3 ?_
    obtain ⟨u, hu⟩ : ∃ u, s = u + 0.2457 := ⟨s - 0.2457, by ring⟩
    have hu0 : -0.25 ≤ u := by norm_num at *; linarith
    have hu1 : u ≤ 1.4 := by norm_num at *; linarith
    have a1 : u ^ 2 ≤ 1.96 := by norm_num at *; nlinarith
    have a2 : u ^ 3 ≤ 2.744 := by
      have : u ^ 3 = u * u ^ 2 := by ring
      norm_num at *; nlinarith [sq_nonneg u]
    have hpoly : (0.3 : ℝ) ≤ (3319039115215047011 / 7500000000000000000) + (4064451288841 / 250000000000000) * u + (-(18069024583 / 450000000000)) * u ^ 2 + (-(331573 / 75000000)) * u ^ 3 := by
      norm_num at *
      linarith
    have hrest := mul_le_mul_of_nonneg_right hpoly (sq_nonneg u)
    have hexp : 1.692996 - (5 / 6 + 0.10610336 * (u + 0.2457)) * (1 + (1 - (u + 0.2457) ^ 2 / 2 + (u + 0.2457) ^ 4 / 24)) =
        (540600149008343308339 / 7500000000000000000000000000) + (529837362738502009 / 50000000000000000000000) * u + ((3319039115215047011 / 7500000000000000000) + (4064451288841 / 250000000000000) * u + (-(18069024583 / 450000000000)) * u ^ 2 + (-(331573 / 75000000)) * u ^ 3) * u ^ 2 := by
      ring
    have hlow : 0 < (540600149008343308339 / 7500000000000000000000000000) + (529837362738502009 / 50000000000000000000000) * u + 0.3 * u ^ 2 := by nlinarith [sq_nonneg (u + (529837362738502009 / 30000000000000000000000))]
    rw [hu]
    linarith

theorem foldl_sub_sum (f : ℝ → ℝ) (l : List ℝ) (c : ℝ) : l.foldl (fun a x => a - f x) c = c - (l.map f).sum := by
  induction l generalizing c with
  | nil => simp
  | cons x l ih => rw [List.foldl_cons, ih, List.map_cons, List.sum_cons]; ring

theorem dtlz7_domain {m : Nat} (hm : 2 ≤ m) {v : List ℝ} (hv : InBounds (dtlz7B m) v) :
    (v.take (m - 1)).length = m - 1 ∧ (∀ x ∈ v.take (m - 1), 0 ≤ x ∧ x ≤ 1) ∧ 1 ≤ dtlz7G (v.drop (m - 1)) ∧
      dtlz7 v m = (v.take (m - 1)).map (fun x => -x) ++ [-((1 + dtlz7G (v.drop (m - 1))) * m - ((v.take (m - 1)).map dtlz7H).sum)] := by
  obtain ⟨hl, hv⟩ := inBounds_uniform.mp hv
  rw [List.length_replicate] at hl
  have htl : (v.take (m - 1)).length = m - 1 := by rw [List.length_take]; omega
  have hg : 1 ≤ dtlz7G (v.drop (m - 1)) := by
    unfold dtlz7G
    have hs : 0 ≤ (v.drop (m - 1)).sum := by
      have := map_sum_nonneg id (v.drop (m - 1)) (fun x hx => (hv x (List.mem_of_mem_drop hx)).1)
      simpa using this
    have : 0 ≤ 9 / ((v.drop (m - 1)).length : ℝ) * (v.drop (m - 1)).sum := mul_nonneg (by positivity) hs
    linarith
  refine ⟨htl, fun x hx => hv x (List.mem_of_mem_take hx), hg, ?_⟩
  show dtlz dtlz7F dtlz7G v m = _
  unfold dtlz dtlz7F
  dsimp only
  generalize dtlz7G (v.drop (m - 1)) = g at *
  have hgp : 1 + g ≠ 0 := by linarith
  rw [foldl_sub_sum (fun x => x * (1 + sin (3 * π * x))), htl, show m - 1 + 1 = m by omega, List.map_append, List.map_map, List.map_singleton]
  congr 1
  · apply List.map_congr_left
    intro x _
    simp only [Function.comp]
    field_simp
  · congr 1
    show ((1 + g) * (m : ℝ) - ((v.take (m - 1)).map dtlz7H).sum) / (1 + g) * -(1 + g) = _
    field_simp

theorem map_sum_le_mul (f : ℝ → ℝ) (c : ℝ) : ∀ l : List ℝ, (∀ x ∈ l, f x ≤ c) → (l.map f).sum ≤ l.length * c
  | [], _ => by simp
  | x :: l, h => by
    rw [List.map_cons, List.sum_cons, List.length_cons]
    have h1 := h x (List.mem_cons_self ..)
    have h2 := map_sum_le_mul f c l (fun y hy => h y (List.mem_cons_of_mem _ hy))
    push_cast
    linarith

theorem map_sum_lt_mul (f : ℝ → ℝ) (c : ℝ) : ∀ l : List ℝ, l ≠ [] → (∀ x ∈ l, f x < c) → (l.map f).sum < l.length * c
  | [], h, _ => absurd rfl h
  | x :: l, _, h => by
    rw [List.map_cons, List.sum_cons, List.length_cons]
    have h1 := h x (List.mem_cons_self ..)
    have h2 := map_sum_le_mul f c l (fun y hy => (h y (List.mem_cons_of_mem _ hy)).le)
    push_cast
    linarith

theorem dtlz7_last {m : Nat} (hm : 2 ≤ m) {v : List ℝ} (hv : InBounds (dtlz7B m) v) :
    -((1 + dtlz7G (v.drop (m - 1))) * m - ((v.take (m - 1)).map dtlz7H).sum) < -0.307004 * (m : ℝ) - 1.692996 := by
  obtain ⟨h1, h2, h3, _⟩ := dtlz7_domain hm hv
  have h4 := map_sum_lt_mul dtlz7H 1.692996 (v.take (m - 1)) (List.ne_nil_of_length_pos (by omega)) (fun x hx => dtlz7H_lt (h2 x hx).1 (h2 x hx).2)
  rw [h1, Nat.cast_sub (by omega)] at h4
  have hm' : (2 : ℝ) ≤ m := by exact_mod_cast hm
  push_cast at h4
  norm_num at *
  nlinarith

theorem dtlz7_optimal {m : Nat} (hm : 2 ≤ m) : ParetoOptimal (InBounds (dtlz7B m)) (fun v => dtlz7 v m) (dtlz7B m).optimum ∧ dtlz7 (dtlz7B m).optimum m = List.replicate (m - 1) 0 ++ [-2 * (m : ℝ)] := by
  obtain ⟨o1, o2, o3⟩ := C60_dtlz7 m hm
  refine ⟨⟨o1, fun y hy hb => o3 y hy ?_⟩, o2⟩
  rw [show (dtlz7B m).optimalValue = dtlz7 (dtlz7B m).optimum m from o2.symm]
  exact hb

/-- C67, DTLZ7: no fitness vector is better than the documented ideal point in an objective, and no Pareto-optimal one worse than the documented nadir point; the value of all but the last objective of the ideal point, and the value of the last objective of the nadir point, are those of a Pareto-optimal point.
Missing: the other values are not attained, see `C67_dtlz7_not_attained`. -/
theorem C67_dtlz7_partial (m : Nat) (hm : 2 ≤ m) : IdealBound (InBounds (dtlz7B m)) (fun v => dtlz7 v m) (dtlz7P m).ideal ∧ NadirBound (InBounds (dtlz7B m)) (fun v => dtlz7 v m) (dtlz7P m).nadir ∧
    ∃ x, ParetoOptimal (InBounds (dtlz7B m)) (fun v => dtlz7 v m) x ∧ (∀ i < m - 1, (dtlz7 x m)[i]? = (dtlz7P m).ideal[i]?) ∧ (dtlz7 x m)[m - 1]? = (dtlz7P m).nadir[m - 1]? := by
  obtain ⟨o1, o2⟩ := dtlz7_optimal hm
  have hlen : ∀ (v : List ℝ) (c d : ℝ), InBounds (dtlz7B m) v → (dtlz7 v m).length = (List.replicate (m - 1) c ++ [d]).length := by
    intro v c d hv
    obtain ⟨h1, h2, h3, h4⟩ := dtlz7_domain hm hv
    rw [h4, List.length_append, List.length_append, List.length_map, h1, List.length_replicate]
    rfl
  unfold dtlz7P
  dsimp only
  refine ⟨fun v hv => ⟨hlen v _ _ hv, fun i a b ha hb => ?_⟩, fun v hv => ⟨hlen v _ _ hv.1, fun i a b ha hb => ?_⟩, _, o1, ?_, ?_⟩
  · obtain ⟨h1, h2, h3, h4⟩ := dtlz7_domain hm hv
    have hlast := dtlz7_last hm hv
    dsimp only at ha
    rw [h4] at ha
    by_cases hi : i < m - 1
    · rw [List.getElem?_append_left (by rw [List.length_map, h1]; exact hi), List.getElem?_map, Option.map_eq_some_iff] at ha
      obtain ⟨x, hx, rfl⟩ := ha
      rw [List.getElem?_append_left (by simpa using hi), List.getElem?_replicate, if_pos hi] at hb
      cases hb
      have := (h2 x (List.mem_of_getElem? hx)).1
      linarith
    · have hi' : i = m - 1 := by
        have := (List.getElem?_eq_some_iff.mp hb).1
        simp at this
        omega
      subst hi'
      rw [List.getElem?_append_right (by simp [h1])] at ha
      rw [List.getElem?_append_right (by simp)] at hb
      simp only [List.length_map, h1, Nat.sub_self, List.length_replicate, List.getElem?_cons_zero, Option.some.injEq] at ha hb
      rw [← ha, ← hb]
      exact hlast.le
  · obtain ⟨h1, h2, h3, h4⟩ := dtlz7_domain hm hv.1
    have hnb := hv.2 _ o1.1
    dsimp only at hnb
    rw [o2] at hnb
    dsimp only at ha
    rw [h4] at ha hnb
    by_cases hi : i < m - 1
    · rw [List.getElem?_append_left (by rw [List.length_map, h1]; exact hi), List.getElem?_map, Option.map_eq_some_iff] at ha
      obtain ⟨x, hx, rfl⟩ := ha
      rw [List.getElem?_append_left (by simpa using hi), List.getElem?_replicate, if_pos hi] at hb
      cases hb
      have := (h2 x (List.mem_of_getElem? hx)).2
      linarith
    · have hi' : i = m - 1 := by
        have := (List.getElem?_eq_some_iff.mp hb).1
        simp at this
        omega
      subst hi'
      rw [List.getElem?_append_right (by simp [h1])] at ha
      rw [List.getElem?_append_right (by simp)] at hb
      simp only [List.length_map, h1, Nat.sub_self, List.length_replicate, List.getElem?_cons_zero, Option.some.injEq] at ha hb
      rw [← hb]
      refine not_lt.mp fun hlt => hnb ⟨by rw [List.length_append, List.length_append, List.length_map, h1, List.length_replicate]; rfl, ?_, m - 1, -2 * (m : ℝ), a, ?_, ?_, hlt⟩
      · intro j p q hp hq
        by_cases hj : j < m - 1
        · rw [List.getElem?_append_left (by simpa using hj), List.getElem?_replicate, if_pos hj] at hp
          rw [List.getElem?_append_left (by rw [List.length_map, h1]; exact hj), List.getElem?_map, Option.map_eq_some_iff] at hq
          obtain ⟨x, hx, rfl⟩ := hq
          cases hp
          have := (h2 x (List.mem_of_getElem? hx)).1
          linarith
        · have hj' : j = m - 1 := by
            have := (List.getElem?_eq_some_iff.mp hp).1
            simp at this
            omega
          subst hj'
          rw [List.getElem?_append_right (by simp)] at hp
          rw [List.getElem?_append_right (by simp [h1])] at hq
          simp only [List.length_map, h1, Nat.sub_self, List.length_replicate, List.getElem?_cons_zero, Option.some.injEq] at hp hq
          rw [← hp, ← hq, ha]
          exact hlt.le
      · rw [List.getElem?_append_right (by simp)]
        simp
      · rw [List.getElem?_append_right (by simp [h1])]
        simp only [List.length_map, h1, Nat.sub_self, List.getElem?_cons_zero, ha]
  · intro i hi
    rw [o2, List.getElem?_append_left (by simpa using hi), List.getElem?_append_left (by simpa using hi)]
  · rw [o2, List.getElem?_append_right (by simp), List.getElem?_append_right (by simp)]
    simp

theorem map_sum_set (f : ℝ → ℝ) (y : ℝ) : ∀ (l : List ℝ) (i : Nat) (x : ℝ), l[i]? = some x → ((l.set i y).map f).sum = (l.map f).sum - f x + f y
  | [], i, x, h => by simp at h
  | z :: l, 0, x, h => by
    cases h
    simp only [List.set_cons_zero, List.map_cons, List.sum_cons]
    ring
  | z :: l, i + 1, x, h => by
    simp only [List.set_cons_succ, List.map_cons, List.sum_cons]
    rw [map_sum_set f y l i x h]
    ring

/-- C67, DTLZ7: the last objective is less than that of the documented ideal point everywhere. The other objectives of a Pareto-optimal point are better than those of the documented nadir point. -/
theorem C67_dtlz7_not_attained (m : Nat) (hm : 2 ≤ m) :
    (∀ (v : List ℝ) (a b : ℝ), InBounds (dtlz7B m) v → (dtlz7 v m)[m - 1]? = some a → (dtlz7P m).ideal[m - 1]? = some b → a < b) ∧
      ∀ (v : List ℝ) (i : Nat) (a b : ℝ), ParetoOptimal (InBounds (dtlz7B m)) (fun v => dtlz7 v m) v → i < m - 1 → (dtlz7 v m)[i]? = some a → (dtlz7P m).nadir[i]? = some b → b < a := by
  constructor
  · intro v a b hv ha hb
    obtain ⟨h1, h2, h3, h4⟩ := dtlz7_domain hm hv
    unfold dtlz7P at hb
    rw [h4] at ha
    rw [List.getElem?_append_right (by simp [h1])] at ha
    rw [List.getElem?_append_right (by simp)] at hb
    simp only [List.length_map, h1, Nat.sub_self, List.length_replicate, List.getElem?_cons_zero, Option.some.injEq] at ha hb
    rw [← ha, ← hb]
    exact dtlz7_last hm hv
  · intro v i a b hv hi ha hb
    obtain ⟨h1, h2, h3, h4⟩ := dtlz7_domain hm hv.1
    unfold dtlz7P at hb
    rw [h4, List.getElem?_append_left (by rw [List.length_map, h1]; exact hi), List.getElem?_map, Option.map_eq_some_iff] at ha
    obtain ⟨x, hx, rfl⟩ := ha
    rw [List.getElem?_append_left (by simpa using hi), List.getElem?_replicate, if_pos hi] at hb
    cases hb
    have hxr := h2 x (List.mem_of_getElem? hx)
    refine neg_lt_neg (lt_of_le_of_ne hxr.2 fun hx1 => ?_)
    subst hx1
    have hxv : v[i]? = some 1 := by rwa [List.getElem?_take_of_lt hi] at hx
    have hw : InBounds (dtlz7B m) (v.set i (5 / 6)) := by
      obtain ⟨hl, hv'⟩ := inBounds_uniform.mp hv.1
      refine inBounds_uniform.mpr ⟨by rw [List.length_set]; exact hl, fun y hy => ?_⟩
      rcases List.mem_or_eq_of_mem_set hy with hy | rfl
      · exact hv' y hy
      · norm_num
    obtain ⟨w1, w2, w3, w4⟩ := dtlz7_domain hm hw
    rw [List.drop_set_of_lt hi, List.take_set, map_sum_set dtlz7H (5 / 6) _ i 1 hx] at w4
    have e1 : dtlz7H 1 = 1 := by
      unfold dtlz7H
      rw [show 3 * π * 1 = π + (1 : ℕ) * (2 * π) by push_cast; ring, sin_add_nat_mul_two_pi, sin_pi]
      norm_num
    have e2 : dtlz7H (5 / 6) = 5 / 3 := by
      unfold dtlz7H
      rw [show 3 * π * (5 / 6) = π / 2 + (1 : ℕ) * (2 * π) by push_cast; ring, sin_add_nat_mul_two_pi, sin_pi_div_two]
      norm_num
    refine hv.2 _ hw ?_
    dsimp only
    rw [w4, h4, e1, e2]
    have hil : i < (v.take (m - 1)).length := by rw [h1]; exact hi
    refine ⟨by simp only [List.length_append, List.length_map, List.length_set, List.length_singleton], ?_, i, -(5 / 6), -1, ?_, ?_, by norm_num⟩
    · intro j p q hp hq
      by_cases hj : j < m - 1
      · rw [List.getElem?_append_left (by rw [List.length_map, List.length_set, h1]; exact hj), List.getElem?_map, Option.map_eq_some_iff] at hp
        rw [List.getElem?_append_left (by rw [List.length_map, h1]; exact hj), List.getElem?_map, Option.map_eq_some_iff] at hq
        obtain ⟨p, hp, rfl⟩ := hp
        obtain ⟨q, hq, rfl⟩ := hq
        by_cases hij : i = j
        · subst hij
          rw [List.getElem?_set_self hil] at hp
          cases hp
          rw [hx] at hq
          cases hq
          norm_num
        · rw [List.getElem?_set_ne hij, hq] at hp
          cases hp
          exact le_rfl
      · have hj' : j = m - 1 := by
          have := (List.getElem?_eq_some_iff.mp hq).1
          rw [List.length_append, List.length_map, h1] at this
          simp at this
          omega
        subst hj'
        rw [List.getElem?_append_right (by rw [List.length_map, List.length_set, h1])] at hp
        rw [List.getElem?_append_right (by rw [List.length_map, h1])] at hq
        simp only [List.length_map, List.length_set, h1, Nat.sub_self, List.getElem?_cons_zero, Option.some.injEq] at hp hq
        rw [← hp, ← hq]
        linarith
    · rw [List.getElem?_append_left (by rw [List.length_map, List.length_set]; exact hil), List.getElem?_map, List.getElem?_set_self hil]
      rfl
    · rw [List.getElem?_append_left (by rw [List.length_map]; exact hil), List.getElem?_map, hx]
      rfl

/-! A concrete case: three objectives. -/

example : ∃ x, ParetoOptimal (InBounds (dtlz7B 3)) (fun v => dtlz7 v 3) x := (C67_dtlz7_partial 3 (by norm_num)).2.2.imp fun _ h => h.1

end Gapp.Props
