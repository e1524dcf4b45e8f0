import Mathlib.Algebra.Order.Field.Basic
import Mathlib.Algebra.Order.BigOperators.Group.List
import Mathlib.Algebra.BigOperators.Ring.List
import Mathlib.Tactic.Linarith
import Mathlib.Tactic.Ring
import Mathlib.Tactic.FieldSimp
import Mathlib.Tactic.NormNum
import Verif.Model.Selection
import Verif.Spec.Selection
import Verif.Props.Algorithm
/-!
# C29: selection
-/

namespace Gapp.Props
open Gapp.Model Gapp.Spec

section
variable {K : Type} [Field K] [LinearOrder K] [IsStrictOrderedRing K]

theorem inclusiveScan_getElem? : ∀ (l : List K) (acc : K) (i : Nat), i < l.length → (inclusiveScan acc l)[i]? = some (acc + (l.take (i + 1)).sum)
  | [], _, i, h => by simp at h
  | x :: l, acc, 0, _ => by simp [inclusiveScan]
  | x :: l, acc, i + 1, h => by
      rw [inclusiveScan, List.getElem?_cons_succ, inclusiveScan_getElem? l _ i (by simpa using h)]
      simp [List.take_succ_cons, add_assoc]

theorem inclusiveScan_length : ∀ (l : List K) (acc : K), (inclusiveScan acc l).length = l.length
  | [], _ => rfl
  | _ :: l, acc => by simp [inclusiveScan, inclusiveScan_length l]

theorem take_sum_mono {l : List K} (h : ∀ x ∈ l, 0 ≤ x) {i j : Nat} (hij : i ≤ j) : (l.take i).sum ≤ (l.take j).sum := by
  have : l.take j = l.take i ++ (l.take j).drop i := by
    conv_lhs => rw [← List.take_append_drop i (l.take j)]
    rw [List.take_take, Nat.min_eq_left hij]
  rw [this, List.sum_append]
  have := List.sum_nonneg (l := (l.take j).drop i) (fun x hx => h x (List.mem_of_mem_take (List.mem_of_mem_drop hx)))
  linarith

/-- A range on which the predicate is decreasing has a partition point. -/
theorem exists_partitionPoint {α : Type} (p : α → Bool) (v : List α)
    (h : ∀ (i j : Nat) (x y : α), i < j → v[i]? = some x → v[j]? = some y → p y = true → p x = true) : ∃ k, IsPartitionPoint p v k := by
  obtain ⟨h1, h2, h3⟩ := stdFind_spec (fun x => !p x) v
  refine ⟨stdFind (fun x => !p x) v, h1, ?_⟩
  intro i x hx
  by_cases hlt : i < stdFind (fun x => !p x) v
  · have := h2 i x hlt hx
    simp [hlt]; simpa using this
  · have hi : i < v.length := (List.getElem?_eq_some_iff.mp hx).1
    obtain ⟨y, hy, hpy⟩ := h3 (by omega)
    rw [decide_eq_false hlt]
    by_contra hc
    simp only [Bool.not_eq_false] at hc
    rcases Nat.lt_or_ge (stdFind (fun x => !p x) v) i with hlt' | hge
    · have := h _ _ y x hlt' hy hx hc
      rw [this] at hpy; simp at hpy
    · have heq : stdFind (fun x => !p x) v = i := by omega
      rw [heq, hx] at hy
      cases hy
      rw [hc] at hpy; simp at hpy

/-- Sampling from the cumulative sums of `p`. -/
theorem sampleCdf_spec (p : List K) (hne : p ≠ []) (hp : ∀ x ∈ p, 0 ≤ x) (r : K) (hr0 : 0 ≤ r) (hr1 : r ≤ 1) :
    ∃ k, sampleCdf (inclusiveScan 0 p) r = some k ∧ k < p.length ∧ ∀ i, i < p.length → ((p.take (i + 1)).sum < p.sum * r ↔ i < k) := by
  have hlen : 0 < p.length := List.length_pos_iff.mpr hne
  have hfront : (inclusiveScan 0 p).head? = some ((p.take 1).sum) := by
    rw [List.head?_eq_getElem?, inclusiveScan_getElem? p 0 0 hlen]; simp
  have hback : (inclusiveScan 0 p).getLast? = some p.sum := by
    rw [List.getLast?_eq_getElem?, inclusiveScan_length, inclusiveScan_getElem? p 0 _ (by omega)]
    rw [show p.length - 1 + 1 = p.length by omega, List.take_length]; simp
  have hf0 : 0 ≤ (p.take 1).sum := List.sum_nonneg (fun x hx => hp x (List.mem_of_mem_take hx))
  have hs0 : 0 ≤ p.sum := List.sum_nonneg hp
  obtain ⟨k, hk⟩ := exists_partitionPoint (fun x => decide (x < p.sum * r)) (inclusiveScan 0 p) (by
    intro i j x y hij hx hy hpy
    have hi := (List.getElem?_eq_some_iff.mp hx).1
    have hj := (List.getElem?_eq_some_iff.mp hy).1
    rw [inclusiveScan_length] at hi hj
    rw [inclusiveScan_getElem? p 0 i hi] at hx
    rw [inclusiveScan_getElem? p 0 j hj] at hy
    cases hx; cases hy
    have := take_sum_mono hp (show i + 1 ≤ j + 1 by omega)
    rw [decide_eq_true_eq] at hpy ⊢
    linarith)
  have hlb := C48_lower_bound _ _ k hk
  have hcdf : ∀ i, i < p.length → ((p.take (i + 1)).sum < p.sum * r ↔ i < k) := by
    intro i hi
    have := hk.2 i _ (inclusiveScan_getElem? p 0 i hi)
    simp only [zero_add] at this
    exact decide_eq_decide.mp this
  refine ⟨k, ?_, ?_, hcdf⟩
  · simp only [sampleCdf, hfront, Option.bind_eq_bind, Option.bind_some, hf0, if_true, hback, randomRealBetween, hs0, zero_add, sub_zero]
    exact hlb
  · by_contra hk'
    have := (hcdf (p.length - 1) (by omega)).mpr (by omega)
    rw [show p.length - 1 + 1 = p.length by omega, List.take_length] at this
    have : p.sum * r ≤ p.sum * 1 := mul_le_mul_of_nonneg_left hr1 hs0
    linarith

/-- Sampling by the shares of `p`. -/
theorem sampleCdf_share (p : List K) (hne : p ≠ []) (hp : ∀ x ∈ p, 0 ≤ x) (hpos : 0 < p.sum) (r : K) (hr0 : 0 < r) (hr1 : r ≤ 1) (i : Nat) :
    sampleCdf (inclusiveScan 0 p) r = some i ↔ i < p.length ∧ (p.take i).sum < r * p.sum ∧ r * p.sum ≤ (p.take (i + 1)).sum := by
  obtain ⟨k, hk, hkl, hiff⟩ := sampleCdf_spec p hne hp r hr0.le hr1
  rw [hk, Option.some.injEq, mul_comm r]
  constructor
  · rintro rfl
    refine ⟨hkl, ?_, ?_⟩
    · cases k with
      | zero => simpa using mul_pos hpos hr0
      | succ k => exact (hiff k (by omega)).mpr (by omega)
    · have := (hiff k hkl).not.mpr (by omega)
      exact not_lt.mp this
  · rintro ⟨hi, h1, h2⟩
    have h3 := (hiff i hi).not.mp (not_lt.mpr h2)
    cases i with
    | zero => omega
    | succ i => have := (hiff i (by omega)).mp h1; omega

theorem sampleCdf_zero (p : List K) (hne : p ≠ []) (hp : ∀ x ∈ p, 0 ≤ x) : sampleCdf (inclusiveScan 0 p) 0 = some 0 := by
  obtain ⟨k, hk, hkl, hiff⟩ := sampleCdf_spec p hne hp 0 le_rfl zero_le_one
  have h0 := (hiff 0 (List.length_pos_iff.mpr hne)).not.mp (by
    have := List.sum_nonneg (l := p.take (0 + 1)) (fun x hx => hp x (List.mem_of_mem_take hx))
    rw [mul_zero]; exact not_lt.mpr this)
  rw [hk]; congr 1; omega

theorem maxElement_get (l : List K) (h : l ≠ []) : ∃ x, l[maxElement l]? = some x ∧ x ∈ l ∧ ∀ y ∈ l, y ≤ x := by
  obtain ⟨x, hx, h1, _⟩ := C48_max_element l h
  exact ⟨x, hx, List.mem_of_getElem? hx, fun y hy => not_lt.mp (h1 y hy)⟩

theorem minElement_get (l : List K) (h : l ≠ []) : ∃ x, l[minElement l]? = some x ∧ x ∈ l ∧ ∀ y ∈ l, x ≤ y := by
  obtain ⟨x, hx, h1, _⟩ := C48_min_element l h
  exact ⟨x, hx, List.mem_of_getElem? hx, fun y hy => not_lt.mp (h1 y hy)⟩

theorem sum_map_mul (l : List K) (c : K) : (l.map (fun w => c * w)).sum = c * l.sum := by
  induction l with
  | nil => simp
  | cons x l ih => simp [ih, mul_add]

theorem sum_replicate' (n : Nat) (c : K) : (List.replicate n c).sum = n * c := by
  induction n with
  | zero => simp
  | succ n ih => rw [List.replicate_succ, List.sum_cons, ih]; push_cast; ring

/-- C29: a random real of an interval is in the interval, below its upper end unless the interval is a point, and the share of the draws up to a number of the interval is the share of the interval up to it. -/
theorem C29_random_real (lo hi : K) (h : lo ≤ hi) (r : K) (h0 : 0 ≤ r) (h1 : r < 1) :
    ∃ x, randomRealBetween lo hi r = some x ∧ lo ≤ x ∧ x ≤ hi ∧ (lo < hi → x < hi) ∧ ∀ y, lo < hi → (x ≤ y ↔ r ≤ (y - lo) / (hi - lo)) := by
  refine ⟨lo + (hi - lo) * r, if_pos h, ?_, ?_, ?_, ?_⟩
  · have := mul_nonneg (sub_nonneg.2 h) h0
    linarith
  · have := mul_le_mul_of_nonneg_left h1.le (sub_nonneg.2 h)
    linarith
  · intro hlt
    have := mul_lt_mul_of_pos_left h1 (sub_pos.2 hlt)
    linarith
  · intro y hlt
    rw [le_div_iff₀ (sub_pos.2 hlt)]
    constructor <;> intro h2 <;> linarith [mul_comm r (hi - lo)]

example : randomRealBetween (2 : ℚ) 5 (1 / 3) = some 3 ∧ randomRealBetween (5 : ℚ) 2 (1 / 3) = none := by decide +kernel

/-- C29: for all weights, `sampleCdf(weightsToCdf(weights))` selects by the weights. -/
theorem selects_of_weights (small large : K) (hs : 0 < small) (w : List K) (hne : w ≠ []) (hw : ∀ x ∈ w, 0 ≤ x ∧ x ≤ large) :
    SelectsByWeight w (fun r => (weightsToCdf small large w).bind (fun cdf => sampleCdf cdf r)) := by
  obtain ⟨m, hm, hmem, hmax⟩ := maxElement_get w hne
  have hw0 : ∀ x ∈ w, 0 ≤ x := fun x hx => (hw x hx).1
  have hlen : 0 < w.length := List.length_pos_iff.mpr hne
  set wmax : K := if small < m then m else small with hwmax
  have hwpos : 0 < wmax := by
    rw [hwmax]; split
    · linarith
    · exact hs
  have hsum : (w.map (fun x => x / wmax)).sum = w.sum / wmax := by
    rw [show (fun x : K => x / wmax) = fun x => (1 / wmax) * x from by funext x; ring, sum_map_mul]; ring
  have hsum0 : 0 ≤ w.sum := List.sum_nonneg hw0
  have hcdf : weightsToCdf small large w = some (inclusiveScan 0 (w.map (fun x =>
      ((if w.sum ≠ 0 then 1 / (w.sum / wmax) else 1) / wmax) * x + (if w.sum ≠ 0 then 0 else 1 / (w.length : K))))) := by
    unfold weightsToCdf
    rw [if_pos (by simpa using fun x hx => (hw x hx))]
    simp only [hm, Option.bind_eq_bind, Option.bind_some, ← hwmax, hsum, Option.pure_def]
    have hz : w.sum / wmax ≠ 0 ↔ w.sum ≠ 0 := by
      rw [Ne, div_eq_zero_iff, not_or]; exact ⟨fun h => h.1, fun h => ⟨h, hwpos.ne'⟩⟩
    simp only [hz]
  rw [hcdf]
  simp only [Option.bind_some]
  by_cases hz : w.sum = 0
  · -- all the weights are 0
    have hall : ∀ x ∈ w, x = 0 := by
      intro x hx
      have := List.single_le_sum hw0 x hx
      have := hw0 x hx
      linarith
    have hrep : w.map (fun x => ((if w.sum ≠ 0 then 1 / (w.sum / wmax) else 1) / wmax) * x + (if w.sum ≠ 0 then 0 else 1 / (w.length : K))) =
        List.replicate w.length (1 / (w.length : K)) := by
      rw [List.eq_replicate_iff]
      refine ⟨by simp, ?_⟩
      intro b hb
      obtain ⟨x, hx, rfl⟩ := List.mem_map.mp hb
      rw [hall x hx]; simp [hz]
    rw [hrep]
    have hnz : (w.length : K) ≠ 0 := by exact_mod_cast hlen.ne'
    have hnpos : (0 : K) < w.length := by exact_mod_cast hlen
    have hne' : List.replicate w.length (1 / (w.length : K)) ≠ [] := by simp; exact hne
    have hnn : ∀ x ∈ List.replicate w.length (1 / (w.length : K)), 0 ≤ x := by
      intro x hx; rw [List.mem_replicate] at hx; rw [hx.2]; positivity
    have hps : (List.replicate w.length (1 / (w.length : K))).sum = 1 := by rw [sum_replicate']; field_simp
    refine ⟨sampleCdf_zero _ hne' hnn, ?_, fun h => by rw [hz] at h; exact absurd h (lt_irrefl _), ?_⟩
    · intro r h0 h1
      obtain ⟨k, hk, hkl, _⟩ := sampleCdf_spec _ hne' hnn r h0 h1.le
      exact ⟨k, hk, by simpa using hkl⟩
    · intro _ r h0 h1 i
      rw [sampleCdf_share _ hne' hnn (by rw [hps]; exact one_pos) r h0 h1.le, hps, List.length_replicate, mul_one]
      refine and_congr_right (fun hi => ?_)
      rw [List.take_replicate, List.take_replicate, sum_replicate', sum_replicate', Nat.min_eq_left hi.le, Nat.min_eq_left (by omega)]
      push_cast
      rw [mul_one_div, mul_one_div, div_lt_iff₀ hnpos, le_div_iff₀ hnpos]
  · have hpos : 0 < w.sum := lt_of_le_of_ne hsum0 (Ne.symm hz)
    have hmap : w.map (fun x => ((if w.sum ≠ 0 then 1 / (w.sum / wmax) else 1) / wmax) * x + (if w.sum ≠ 0 then 0 else 1 / (w.length : K))) =
        w.map (fun x => (1 / w.sum) * x) := by
      apply List.map_congr_left
      intro x _
      rw [if_pos hz, if_pos hz, add_zero]
      congr 1
      field_simp
    rw [hmap]
    have hne' : w.map (fun x => (1 / w.sum) * x) ≠ [] := by simpa using hne
    have hnn : ∀ x ∈ w.map (fun x => (1 / w.sum) * x), 0 ≤ x := by
      intro x hx
      obtain ⟨y, hy, rfl⟩ := List.mem_map.mp hx
      have := hw0 y hy
      positivity
    have hps : (w.map (fun x => (1 / w.sum) * x)).sum = 1 := by rw [sum_map_mul]; field_simp
    refine ⟨sampleCdf_zero _ hne' hnn, ?_, ?_, fun h => absurd h hz⟩
    · intro r h0 h1
      obtain ⟨k, hk, hkl, _⟩ := sampleCdf_spec _ hne' hnn r h0 h1.le
      exact ⟨k, hk, by simpa using hkl⟩
    · intro _ r h0 h1 i
      rw [sampleCdf_share _ hne' hnn (by rw [hps]; exact one_pos) r h0 h1.le, hps, List.length_map, mul_one]
      refine and_congr_right (fun hi => ?_)
      rw [← List.map_take, ← List.map_take, sum_map_mul, sum_map_mul]
      rw [one_div_mul_eq_div, one_div_mul_eq_div, div_lt_iff₀ hpos, le_div_iff₀ hpos]

/-- C29: a consequence of selecting by weights: unless all the weights are 0, a candidate with weight 0 is selected only by the draw 0. -/
theorem C29_zero_weight (w : List K) (select : K → Option Nat) (h : SelectsByWeight w select) (hpos : 0 < w.sum) (r : K) (h0 : 0 < r) (h1 : r < 1)
    (i : Nat) (hi : select r = some i) (hw : w[i]? = some 0) : False := by
  obtain ⟨hil, h2, h3⟩ := (h.share hpos r h0 h1 i).mp hi
  rw [List.take_add_one, hw] at h3
  simp at h3
  linarith

/-- C29: whatever the weights computed, also with rounding: if the sampled threshold is not greater than the last value of the distribution, then the position found is in the
range. Nothing is assumed of the other values. -/
theorem C29_sampled_index_in_range (cdf : List K) (threshold back : K) (hb : cdf.getLast? = some back) (ht : threshold ≤ back) :
    ∃ i, lowerBound (fun x => decide (x < threshold)) cdf = some i ∧ i < cdf.length :=
  C48_lower_bound_in_range _ cdf back hb (by simpa using ht)

/-! ### Roulette -/

theorem follow_map (f : List K) (g : K → K) (h0 : ∀ x ∈ f, 0 ≤ g x) (hm : ∀ x y, x ≤ y → g x ≤ g y) : WeightsFollowFitness f (f.map g) := by
  refine ⟨by simp, ?_, ?_⟩
  · intro w hw
    obtain ⟨x, hx, rfl⟩ := List.mem_map.mp hw
    exact h0 x hx
  · intro i j fi fj wi wj hi hj hwi hwj hlt
    rw [List.getElem?_map, hi] at hwi
    rw [List.getElem?_map, hj] at hwj
    cases hwi; cases hwj
    exact hm _ _ hlt.le

/-- C29: roulette selection selects by weights that follow the fitness values and that are the fitness values if none of these is negative; otherwise the
weights are positive. -/
theorem C29_roulette (small large : K) (hs : 0 < small) (f : List K) (hne : f ≠ []) (hf : ∀ x ∈ f, -large ≤ x ∧ x ≤ large) :
    ∃ w, SelectsByWeight w (rouletteSelect small large f) ∧ WeightsFollowFitness f w ∧
      ((∀ x ∈ f, 0 ≤ x) → w = f) ∧ ((∃ x ∈ f, x < 0) → ∀ x ∈ w, 0 < x) := by
  obtain ⟨m, hm, hmem, hmin⟩ := minElement_get f hne
  have heq : ∀ w, rouletteWeights f = some w → rouletteSelect small large f = fun r => (weightsToCdf small large w).bind (fun cdf => sampleCdf cdf r) := by
    intro w hw; funext r; simp [rouletteSelect, hw]
  by_cases hneg : m < 0
  · have hw : rouletteWeights f = some (f.map (fun x => 1 / 3 * x + -(2 / 3) * m)) := by
      simp [rouletteWeights, hm, hneg, not_le.mpr hneg]
    have hpos : ∀ x ∈ f, 0 < 1 / 3 * x + -(2 / 3) * m := by
      intro x hx; have := hmin x hx; linarith
    refine ⟨_, ?_, follow_map f _ (fun x hx => (hpos x hx).le) (fun x y h => by linarith), ?_, ?_⟩
    · rw [heq _ hw]
      refine selects_of_weights small large hs _ (by simpa using hne) ?_
      intro y hy
      obtain ⟨x, hx, rfl⟩ := List.mem_map.mp hy
      refine ⟨(hpos x hx).le, ?_⟩
      have := hf x hx; have := hf m hmem; linarith
    · intro h; have := h m hmem; linarith
    · intro _ y hy
      obtain ⟨x, hx, rfl⟩ := List.mem_map.mp hy
      exact hpos x hx
  · have hw : rouletteWeights f = some f := by
      have h0 : 0 ≤ m := not_lt.mp hneg
      simp [rouletteWeights, hm, hneg, h0]
    have h0 : ∀ x ∈ f, 0 ≤ x := fun x hx => le_trans (not_lt.mp hneg) (hmin x hx)
    refine ⟨f, ?_, ?_, fun _ => rfl, ?_⟩
    · rw [heq _ hw]
      exact selects_of_weights small large hs f hne (fun x hx => ⟨h0 x hx, (hf x hx).2⟩)
    · simpa using follow_map f id h0 (fun x y h => h)
    · rintro ⟨x, hx, hlt⟩; have := h0 x hx; linarith

/-! ### Sigma and Boltzmann -/

theorem clampTo_nonneg (x large : K) (hl : 0 ≤ large) : 0 ≤ clampTo x 0 large ∧ clampTo x 0 large ≤ large := by
  unfold clampTo
  split
  · exact ⟨le_rfl, hl⟩
  · split
    · exact ⟨hl, le_rfl⟩
    · constructor <;> linarith

theorem clampTo_mono (lo hi : K) (h : lo ≤ hi) (x y : K) (hxy : x ≤ y) : clampTo x lo hi ≤ clampTo y lo hi := by
  unfold clampTo
  split_ifs <;> linarith

theorem clampTo_pos (x lo hi : K) (hlo : 0 < lo) (h : lo ≤ hi) : 0 < clampTo x lo hi := by
  unfold clampTo
  split
  · exact hlo
  · split <;> linarith

/-- C29: sigma selection selects by weights that follow the fitness values, whatever the computed deviation is. -/
theorem C29_sigma (sqrt : K → K) (small large : K) (hs : 0 < small) (hl : small ≤ large) (f : List K) (hne : f ≠ []) :
    ∃ w, SelectsByWeight w (sigmaSelect sqrt small large f) ∧ WeightsFollowFitness f w := by
  have hl0 : 0 ≤ large := by linarith
  refine ⟨sigmaWeights sqrt small large f, ?_, ?_⟩
  · refine selects_of_weights small large hs _ (by simpa [sigmaWeights] using hne) ?_
    intro y hy
    simp only [sigmaWeights] at hy
    obtain ⟨x, _, rfl⟩ := List.mem_map.mp hy
    exact clampTo_nonneg _ _ hl0
  · refine follow_map f _ (fun x _ => (clampTo_nonneg _ _ hl0).1) ?_
    intro x y hxy
    apply clampTo_mono _ _ hl0
    have hd : 0 < 1 / clampTo (mathStdDev sqrt f (mathMean f)) small large := one_div_pos.mpr (clampTo_pos _ _ _ hs hl)
    have := mul_le_mul_of_nonneg_right (sub_le_sub_right hxy (mathMean f)) hd.le
    linarith

/-- C29: sigma selection: without overflow, the weight of a candidate is its distance from the mean in deviations, plus 1, and 0 if that is negative. -/
theorem C29_sigma_weights (sqrt : K → K) (small large : K) (f : List K) (dev : K) (hdev : mathStdDev sqrt f (mathMean f) = dev) (h1 : small ≤ dev) (h2 : dev ≤ large)
    (hb : ∀ x ∈ f, 1 + (x - mathMean f) / dev ≤ large) (hl : 0 ≤ large) :
    sigmaWeights sqrt small large f = f.map (fun x => max 0 (1 + (x - mathMean f) / dev)) := by
  unfold sigmaWeights
  apply List.map_congr_left
  intro x hx
  have hc : clampTo dev small large = dev := by unfold clampTo; rw [if_neg (not_lt.mpr h1), if_neg (not_lt.mpr h2)]
  simp only [hdev, hc, mul_one_div]
  unfold clampTo
  split
  · rename_i h; rw [max_eq_left h.le]
  · rename_i h; rw [if_neg (not_lt.mpr (hb x hx)), max_eq_right (not_lt.mp h)]

/-- C29: Boltzmann selection selects by weights that follow the fitness values and are positive, for every positive temperature. Of `exp` it is used that it is
positive and increasing. -/
theorem C29_boltzmann (exp : K → K) (hexp : ∀ x, 0 < exp x) (hmono : ∀ x y, x ≤ y → exp x ≤ exp y) (small large temperature : K) (hs : 0 < small) (hl : small ≤ large)
    (ht : 0 < temperature) (f : List K) (hne : f ≠ []) :
    ∃ w, SelectsByWeight w (boltzmannSelect exp small large temperature f) ∧ WeightsFollowFitness f w ∧ ∀ x ∈ w, 0 < x := by
  obtain ⟨m, hm, _, hmin⟩ := minElement_get f hne
  obtain ⟨M, hM, _, hmax⟩ := maxElement_get f hne
  have hl0 : 0 < large := by linarith
  set df := clampTo (M - m) small large with hdf
  have hd : 0 < df := clampTo_pos _ _ _ hs hl
  have hw : boltzmannWeights exp small large temperature f =
      some (f.map (fun x => if exp ((x / df - m / df) / temperature) < large then exp ((x / df - m / df) / temperature) else large)) := by
    simp [boltzmannWeights, hm, hM, ← hdf]
  have hpos : ∀ x, 0 < (if exp ((x / df - m / df) / temperature) < large then exp ((x / df - m / df) / temperature) else large) := by
    intro x; split
    · exact hexp _
    · exact hl0
  refine ⟨f.map (fun x => if exp ((x / df - m / df) / temperature) < large then exp ((x / df - m / df) / temperature) else large), ?_,
    follow_map f _ (fun x _ => (hpos x).le) ?_, ?_⟩
  · have : boltzmannSelect exp small large temperature f = fun r => (weightsToCdf small large
        (f.map (fun x => if exp ((x / df - m / df) / temperature) < large then exp ((x / df - m / df) / temperature) else large))).bind (fun cdf => sampleCdf cdf r) := by
      funext r; simp only [boltzmannSelect, hw, Option.bind_eq_bind, Option.bind_some]
    rw [this]
    refine selects_of_weights small large hs _ (by simpa using hne) ?_
    intro y hy
    obtain ⟨x, _, rfl⟩ := List.mem_map.mp hy
    refine ⟨(hpos x).le, ?_⟩
    split
    · rename_i h; exact h.le
    · exact le_rfl
  · intro x y hxy
    have h1 : (x / df - m / df) / temperature ≤ (y / df - m / df) / temperature := by
      apply div_le_div_of_nonneg_right _ ht.le
      have := div_le_div_of_nonneg_right hxy hd.le
      linarith
    have h2 := hmono _ _ h1
    split <;> split <;> linarith
  · intro y hy
    obtain ⟨x, _, rfl⟩ := List.mem_map.mp hy
    exact hpos x

/-! ### Tournament -/

/-- C29: tournament selection returns a drawn candidate, and none of the drawn candidates is better. -/
theorem C29_tournament (size : Nat) (hs : 0 < size) (f : List K) (hf : size ≤ f.length) (draws : List Nat) (hd : draws.length = size) (hr : ∀ i ∈ draws, i < f.length) :
    ∃ i fi, tournamentSelect size f draws = some i ∧ i ∈ draws ∧ f[i]? = some fi ∧ ∀ j ∈ draws, ∀ fj, f[j]? = some fj → fj ≤ fi := by
  obtain ⟨vals, hv, hat⟩ := C48_select_copy f draws hr
  have hvl := atPositions_length hat
  have hne : vals ≠ [] := by rintro rfl; simp at hvl; subst hvl; simp at hd; omega
  obtain ⟨x, hx, _, hmax⟩ := maxElement_get vals hne
  have hlt : maxElement vals < draws.length := by rw [hvl]; exact (List.getElem?_eq_some_iff.mp hx).1
  have hfx : f[draws[maxElement vals]]? = some x := by
    have := congrArg (fun l : List (Option K) => l[maxElement vals]?) hat
    simp only [List.getElem?_map, hx, List.getElem?_eq_getElem hlt, Option.map_some, Option.some.injEq] at this
    exact this
  refine ⟨draws[maxElement vals], x, ?_, List.getElem_mem hlt, hfx, ?_⟩
  · unfold tournamentSelect
    rw [if_pos ⟨hf, hd⟩]
    have hv' : draws.mapM (fun i => f[i]?) = some vals := hv
    simp only [hv', Option.bind_eq_bind, Option.bind_some]
    exact List.getElem?_eq_getElem hlt
  · intro j hj fj hfj
    apply hmax
    have : some fj ∈ vals.map some := by
      rw [← (show _ = vals.map some from hat)]
      exact List.mem_map.mpr ⟨j, hj, hfj⟩
    simpa using this

/-! ### Rank -/

theorem rankFold (N : K) (a b : K) (n : Nat) : ∀ (l : List Nat) (s : Nat) (w : List K), w.length = n → l.Nodup → (∀ i ∈ l, i < n) →
    ∃ w', (l.zipIdx s).foldlM (fun weights p => if p.1 < weights.length then some (weights.set p.1 (stdLerp a b ((p.2 : K) / N))) else none) w = some w' ∧
      w'.length = n ∧ (∀ (k : Nat) (i : Nat), l[k]? = some i → w'[i]? = some (stdLerp a b (((s + k : Nat) : K) / N))) ∧
      ∀ i, i ∉ l → w'[i]? = w[i]?
  | [], s, w, hw, _, _ => ⟨w, by simp, hw, by simp, fun _ _ => rfl⟩
  | i :: l, s, w, hw, hnd, hlt => by
      rw [List.nodup_cons] at hnd
      obtain ⟨w', h1, h2, h3, h4⟩ := rankFold N a b n l (s + 1) (w.set i (stdLerp a b ((s : K) / N))) (by simpa using hw) hnd.2
        (fun j hj => hlt j (List.mem_cons_of_mem _ hj))
      have hi : i < w.length := by rw [hw]; exact hlt i List.mem_cons_self
      refine ⟨w', ?_, h2, ?_, ?_⟩
      · simp only [List.zipIdx_cons, List.foldlM_cons, hi, if_true, Option.bind_eq_bind, Option.bind_some]
        exact h1
      · intro k j hk
        cases k with
        | zero =>
          simp at hk; subst hk
          rw [h4 i hnd.1]; simp [hi]
        | succ k =>
          rw [h3 k j (by simpa using hk)]
          congr 4; omega
      · intro j hj
        simp only [List.mem_cons, not_or] at hj
        rw [h4 j hj.2, List.getElem?_set_ne (Ne.symm hj.1)]

theorem stdLerp_mono (a b : K) (h : a ≤ b) (s t : K) (hst : s ≤ t) : stdLerp a b s ≤ stdLerp a b t := by
  have := mul_le_mul_of_nonneg_right hst (sub_nonneg.mpr h)
  simp only [stdLerp]; linarith

/-- C29: rank selection with two or more candidates selects by weights that follow the fitness values; the candidates with the lowest and the highest rank have the
least and the greatest weight, and the weights increase evenly in between. -/
theorem C29_rank_partial (small large minW maxW : K) (hs : 0 < small) (h0 : 0 ≤ minW) (h1 : minW ≤ maxW) (h2 : maxW ≤ large) (f : List K) (hn : 2 ≤ f.length) (indices : List Nat)
    (hsort : IsArgsortOf false (fun a b => decide (a < b)) f indices) :
    ∃ w, SelectsByWeight w (rankSelect small large minW maxW indices) ∧ WeightsFollowFitness f w ∧
      ∀ (rank i : Nat), indices[rank]? = some i → w[i]? = some (minW + (rank : K) / ((f.length : K) - 1) * (maxW - minW)) := by
  obtain ⟨hperm, -⟩ := C48_argsort false _ f indices hsort
  have hil : indices.length = f.length := by simpa using hperm.length_eq
  have hnd : indices.Nodup := hperm.nodup_iff.mpr List.nodup_range
  have hlt : ∀ i ∈ indices, i < f.length := fun i hi => by simpa using hperm.mem_iff.mp hi
  obtain ⟨w, hw, hwl, hwi, -⟩ := rankFold ((f.length : K) - 1) minW maxW f.length indices 0 (List.replicate f.length 0) (by simp) hnd hlt
  have hrw : rankWeights minW maxW indices = some w := by
    unfold rankWeights
    rw [if_neg (by omega), hil]
    exact hw
  have hN : (0 : K) < (f.length : K) - 1 := by
    have : (2 : K) ≤ f.length := by exact_mod_cast hn
    linarith
  -- every position has a rank
  have hrank : ∀ i, i < f.length → ∃ k, k < f.length ∧ indices[k]? = some i := by
    intro i hi
    have : i ∈ indices := hperm.mem_iff.mpr (by simpa using hi)
    obtain ⟨k, hk, rfl⟩ := List.getElem_of_mem this
    exact ⟨k, by omega, List.getElem?_eq_getElem hk⟩
  have hval : ∀ (k i : Nat), indices[k]? = some i → w[i]? = some (stdLerp minW maxW ((k : K) / ((f.length : K) - 1))) := by
    intro k i hk; have := hwi k i hk; simpa using this
  have hbound : ∀ x ∈ w, minW ≤ x ∧ x ≤ maxW := by
    intro x hx
    obtain ⟨i, hi, rfl⟩ := List.getElem_of_mem hx
    obtain ⟨k, hk, hki⟩ := hrank i (by omega)
    have := hval k i hki
    rw [List.getElem?_eq_getElem hi] at this
    rw [Option.some.inj this]
    have hk0 : (0 : K) ≤ (k : K) / ((f.length : K) - 1) := div_nonneg (Nat.cast_nonneg k) hN.le
    have hk1 : (k : K) / ((f.length : K) - 1) ≤ 1 := by
      rw [div_le_one hN]
      have : ((k + 1 : Nat) : K) ≤ f.length := by exact_mod_cast hk
      push_cast at this; linarith
    have ha := stdLerp_mono minW maxW h1 _ _ hk0
    have hb := stdLerp_mono minW maxW h1 _ _ hk1
    simp only [stdLerp, zero_mul, add_zero, one_mul, add_sub_cancel] at ha hb ⊢
    exact ⟨ha, hb⟩
  refine ⟨w, ?_, ⟨hwl, fun x hx => le_trans h0 (hbound x hx).1, ?_⟩, ?_⟩
  · have : rankSelect small large minW maxW indices = fun r => (weightsToCdf small large w).bind (fun cdf => sampleCdf cdf r) := by
      funext r; simp [rankSelect, hrw]
    rw [this]
    refine selects_of_weights small large hs w (by rintro rfl; simp at hwl; omega) (fun x hx => ⟨le_trans h0 (hbound x hx).1, le_trans (hbound x hx).2 h2⟩)
  · intro i j fi fj wi wj hfi hfj hwi' hwj' hij
    obtain ⟨ki, hki, hki'⟩ := hrank i (List.getElem?_eq_some_iff.mp hfi).1
    obtain ⟨kj, hkj, hkj'⟩ := hrank j (List.getElem?_eq_some_iff.mp hfj).1
    have hle : ki ≤ kj := by
      by_contra hc
      have hs' := hsort
      rw [isArgsortOf_iff] at hs'
      have := List.pairwise_iff_getElem.mp hs'.2 kj ki (by omega) (by omega) (by omega)
      rw [List.getElem?_eq_getElem (by omega)] at hki' hkj'
      rw [Option.some.inj hki', Option.some.inj hkj'] at this
      have h3 := argCompare_eq false (fun a b : K => decide (a < b)) f i j fi fj hfi hfj
      have h4 := h3.symm.trans this
      simp [argOrder] at h4
      linarith
    rw [hval ki i hki'] at hwi'
    rw [hval kj j hkj'] at hwj'
    cases hwi'; cases hwj'
    apply stdLerp_mono _ _ h1
    exact div_le_div_of_nonneg_right (by exact_mod_cast hle) hN.le
  · intro k i hk
    rw [hval k i hk]; rfl

/-- C29 does not hold for rank selection in a population of one candidate: its weight is `0 / 0`. -/
theorem C29_rank_single (small large minW maxW r : K) (f : K) (indices : List Nat) (h : IsArgsortOf false (fun a b => decide (a < b)) [f] indices) :
    rankSelect small large minW maxW indices r = none := by
  have hl : indices.length = 1 := by
    have := (C48_argsort false _ [f] indices h).1.length_eq
    simpa using this
  simp [rankSelect, rankWeights, hl]

end

theorem lowerBoundHalve_short {α : Type} (comp : α → Bool) (v : List α) (first n : Nat) (h : n ≤ 32) : lowerBoundHalve comp v first n = some first := by
  rw [lowerBoundHalve, if_neg (by omega)]

example : rouletteSelect (1 / 1000 : ℚ) 1000 [3, 0, 6] (1 / 2) = some 2 ∧ rouletteSelect (1 / 1000 : ℚ) 1000 [3, 0, 6] (1 / 3) = some 0 := by
  constructor <;> norm_num [rouletteSelect, rouletteWeights, weightsToCdf, sampleCdf, inclusiveScan, maxElement, minElement, maxLoop, minLoop, randomRealBetween, lowerBound, lowerBoundHalve_short, lowerBoundScan]
example : rouletteSelect (1 / 1000 : ℚ) 1000 [0, 0, 0] (1 / 2) = some 1 := by
  norm_num [rouletteSelect, rouletteWeights, weightsToCdf, sampleCdf, inclusiveScan, maxElement, minElement, maxLoop, minLoop, randomRealBetween, lowerBound, lowerBoundHalve_short, lowerBoundScan]
example : tournamentSelect 2 [(1 : ℚ), 5, 3] [0, 2] = some 2 := by norm_num [tournamentSelect, maxElement, maxLoop]
example : IsArgsortOf false (fun a b : ℚ => decide (a < b)) [3, 1, 2] [1, 2, 0] := by
  refine ⟨by decide, ?_⟩
  norm_num [compareAt]

end Gapp.Props
