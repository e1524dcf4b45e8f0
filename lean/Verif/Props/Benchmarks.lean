import Verif.Proofs.Benchmarks
/-!
# C60: the documented optima of the benchmark problems

The arithmetic is exact.
-/

namespace Gapp.Props

open Gapp.Model Gapp.Spec Real

theorem not_better_of_le {a : ℝ} (h : a ≤ 0) : ¬ Better [a] [0] := fun hb => absurd (better_one hb) (not_lt.mpr h)

theorem replicate_in {lo up c : ℝ} (n : Nat) (h1 : lo ≤ c) (h2 : c ≤ up) : ∀ x ∈ List.replicate n c, lo ≤ x ∧ x ≤ up := by
  intro x hx
  rw [List.eq_of_mem_replicate hx]
  exact ⟨h1, h2⟩

/-! ## One objective: the optimum is the only point with the optimal value, even outside of the bounds -/

/-- C60: Sphere. -/
theorem C60_sphere (n : Nat) : OptimumRight (sphereB n) ∧ ∀ v : List ℝ, sphere v ≤ 0 ∧ (sphere v = 0 ↔ ∀ x ∈ v, x = 0) := by
  refine ⟨⟨inBounds_uniform.mpr ⟨rfl, replicate_in n (by norm_num) (by norm_num)⟩, ?_, fun v _ => not_better_of_le (sphere_le v)⟩,
    fun v => ⟨sphere_le v, sphere_zero v⟩⟩
  show [sphere (List.replicate n 0)] = [0]
  rw [(sphere_zero _).mpr (fun x hx => List.eq_of_mem_replicate hx)]

/-- C60: Rastrigin. -/
theorem C60_rastrigin (n : Nat) : OptimumRight (rastriginB n) ∧ ∀ v : List ℝ, rastrigin v ≤ 0 ∧ (rastrigin v = 0 ↔ ∀ x ∈ v, x = 0) := by
  refine ⟨⟨inBounds_uniform.mpr ⟨rfl, replicate_in n (by norm_num) (by norm_num)⟩, ?_, fun v _ => not_better_of_le (rastrigin_le v)⟩,
    fun v => ⟨rastrigin_le v, rastrigin_zero v⟩⟩
  show [rastrigin (List.replicate n 0)] = [0]
  rw [(rastrigin_zero _).mpr (fun x hx => List.eq_of_mem_replicate hx)]

/-- C60: Rosenbrock, with at least two variables. -/
theorem C60_rosenbrock (n : Nat) (hn : 2 ≤ n) : OptimumRight (rosenbrockB n) ∧
    ∀ v : List ℝ, rosenbrock v ≤ 0 ∧ (v.length = n → (rosenbrock v = 0 ↔ ∀ x ∈ v, x = 1)) := by
  refine ⟨⟨inBounds_uniform.mpr ⟨rfl, replicate_in n (by norm_num) (by norm_num)⟩, ?_, fun v _ => not_better_of_le (rosenbrock_le v)⟩,
    fun v => ⟨rosenbrock_le v, fun hv => rosenbrock_zero v (by omega)⟩⟩
  show [rosenbrock (List.replicate n 1)] = [0]
  rw [(rosenbrock_zero _ (by simpa using hn)).mpr (fun x hx => List.eq_of_mem_replicate hx)]

/-- C60: with a single variable the Rosenbrock function is 0 everywhere; the documented optimum is not the only one. -/
theorem C60_rosenbrock_one_variable (x : ℝ) : rosenbrock [x] = 0 := by
  rw [rosenbrock_eq]
  simp

/-- C60: Griewank. -/
theorem C60_griewank (n : Nat) : OptimumRight (griewankB n) ∧ ∀ v : List ℝ, griewank v ≤ 0 ∧ (griewank v = 0 ↔ ∀ x ∈ v, x = 0) := by
  refine ⟨⟨inBounds_uniform.mpr ⟨rfl, replicate_in n (by norm_num) (by norm_num)⟩, ?_, fun v _ => not_better_of_le (griewank_le v)⟩,
    fun v => ⟨griewank_le v, griewank_zero v⟩⟩
  show [griewank (List.replicate n 0)] = [0]
  rw [(griewank_zero _).mpr (fun x hx => List.eq_of_mem_replicate hx)]

theorem ne_nil_of_bounds {lo up c : ℝ} {n : Nat} (hn : 1 ≤ n) {val v : List ℝ} {f : List ℝ → List ℝ}
    (h : InBounds (uniformBenchmark lo up (List.replicate n c) val f) v) : v ≠ [] := by
  have := (inBounds_uniform.mp h).1
  rw [List.length_replicate] at this
  exact List.ne_nil_of_length_pos (by omega)

/-- C60: Ackley. -/
theorem C60_ackley (n : Nat) (hn : 1 ≤ n) : OptimumRight (ackleyB n) ∧
    ∀ v : List ℝ, v ≠ [] → ackley v ≤ 0 ∧ (ackley v = 0 ↔ ∀ x ∈ v, x = 0) := by
  refine ⟨⟨inBounds_uniform.mpr ⟨rfl, replicate_in n (by norm_num) (by norm_num)⟩, ?_,
    fun v hv => not_better_of_le (ackley_le v (ne_nil_of_bounds hn hv)).1⟩, fun v hv => ackley_le v hv⟩
  show [ackley (List.replicate n 0)] = [0]
  rw [(ackley_le _ (List.ne_nil_of_length_pos (by rw [List.length_replicate]; omega))).2.mpr (fun x hx => List.eq_of_mem_replicate hx)]

/-- C60: Levy. -/
theorem C60_levy (n : Nat) (hn : 1 ≤ n) : OptimumRight (levyB n) ∧
    ∀ v : List ℝ, v ≠ [] → levy v ≤ 0 ∧ (levy v = 0 ↔ ∀ x ∈ v, x = 1) := by
  refine ⟨⟨inBounds_uniform.mpr ⟨rfl, replicate_in n (by norm_num) (by norm_num)⟩, ?_,
    fun v hv => not_better_of_le (levy_le v (ne_nil_of_bounds hn hv)).1⟩, fun v hv => levy_le v hv⟩
  show [levy (List.replicate n 1)] = [0]
  rw [(levy_le _ (List.ne_nil_of_length_pos (by rw [List.length_replicate]; omega))).2.mpr (fun x hx => List.eq_of_mem_replicate hx)]

/-! ## Two objectives -/

/-- C60: Kursawe. -/
theorem C60_kursawe (n : Nat) (hn : 2 ≤ n) : OptimumRight (kursaweB n) := by
  have hterm : ∀ a b : ℝ, 10 * exp (-0.2 * √(a ^ 2 + b ^ 2)) ≤ 10 := by
    intro a b
    have h1 : exp (-0.2 * √(a ^ 2 + b ^ 2)) ≤ 1 := by
      rw [exp_le_one_iff]
      have := Real.sqrt_nonneg (a ^ 2 + b ^ 2)
      linarith
    linarith
  have hnR : ((n - 1 : Nat) : ℝ) = (n : ℝ) - 1 := by
    rw [Nat.cast_sub (by omega)]; simp
  refine ⟨inBounds_uniform.mpr ⟨rfl, replicate_in n (by norm_num) (by norm_num)⟩, ?_, fun v hv hb => ?_⟩
  · show kursawe (List.replicate n 0) = [10 * ((n : ℝ) - 1), 0]
    rw [kursawe_eq]
    simp only [getD_replicate_zero, List.length_replicate]
    have h8 : (0 : ℝ) ^ (0.8 : ℝ) = 0 := zero_rpow (by norm_num)
    have e1 : (fun _ : Nat => 10 * exp (-0.2 * √((0 : ℝ) ^ 2 + 0 ^ 2))) = fun _ => (10 : ℝ) := by
      funext _; simp
    have e2 : (fun _ : Nat => |(0 : ℝ)| ^ (0.8 : ℝ) + 5 * sin (0 ^ 3)) = fun _ => (0 : ℝ) := by
      funext _; rw [abs_zero, h8]; simp
    rw [e1, e2, abs_zero, h8]
    simp only [List.map_const', List.length_range, List.sum_replicate, nsmul_eq_mul]
    rw [hnR]
    simp [mul_comm]
  · have hlen : v.length = n := by
      have := (inBounds_uniform.mp hv).1
      rwa [List.length_replicate] at this
    have hb' : Better (kursawe v) [10 * ((n : ℝ) - 1), 0] := hb
    rw [kursawe_eq] at hb'
    obtain ⟨h1, h2, h3⟩ := better_two hb'
    have e := map_sum_add_const (fun i => -(10 * exp (-0.2 * √(v.getD i 0 ^ 2 + v.getD (i + 1) 0 ^ 2)))) 10 (List.range (v.length - 1))
    have eneg : ((List.range (v.length - 1)).map (fun i => -(10 * exp (-0.2 * √(v.getD i 0 ^ 2 + v.getD (i + 1) 0 ^ 2))))).sum =
        -((List.range (v.length - 1)).map (fun i => 10 * exp (-0.2 * √(v.getD i 0 ^ 2 + v.getD (i + 1) 0 ^ 2)))).sum := by
      generalize List.range (v.length - 1) = l
      induction l with
      | nil => simp
      | cons i l ih => rw [List.map_cons, List.map_cons, List.sum_cons, List.sum_cons, ih]; ring
    rw [eneg, List.length_range, hlen, hnR] at e
    have hnn : ∀ i ∈ List.range (n - 1), 0 ≤ 10 + -(10 * exp (-0.2 * √(v.getD i 0 ^ 2 + v.getD (i + 1) 0 ^ 2))) := by
      intro i _
      have := hterm (v.getD i 0) (v.getD (i + 1) 0)
      linarith
    rw [hlen] at h1 h2 h3
    have hs := map_sum_nonneg _ _ hnn
    have hz := map_sum_zero _ _ hnn (by linarith)
    have hzero : ∀ i < n - 1, v.getD i 0 = 0 ∧ v.getD (i + 1) 0 = 0 := by
      intro i hi
      have h4 := hz i (List.mem_range.mpr hi)
      have h5 : exp (-0.2 * √(v.getD i 0 ^ 2 + v.getD (i + 1) 0 ^ 2)) = 1 := by linarith
      rw [exp_eq_one_iff] at h5
      have h6 : √(v.getD i 0 ^ 2 + v.getD (i + 1) 0 ^ 2) = 0 := by linarith
      rw [Real.sqrt_eq_zero (by positivity)] at h6
      have h7 := sq_nonneg (v.getD i 0)
      have h8 := sq_nonneg (v.getD (i + 1) 0)
      exact ⟨pow_eq_zero_iff two_ne_zero |>.mp (by linarith), pow_eq_zero_iff two_ne_zero |>.mp (by linarith)⟩
    have hlast : v.getD (n - 1) 0 = 0 := by
      have := (hzero (n - 2) (by omega)).2
      rwa [show n - 2 + 1 = n - 1 by omega] at this
    have h8 : (0 : ℝ) ^ (0.8 : ℝ) = 0 := zero_rpow (by norm_num)
    have es : ((List.range (n - 1)).map (fun i => |v.getD i 0| ^ (0.8 : ℝ) + 5 * sin (v.getD i 0 ^ 3))).sum = 0 := by
      refine map_sum_congr_zero _ _ (fun i hi => ?_)
      rw [(hzero i (List.mem_range.mp hi)).1, abs_zero, h8]
      simp
    rw [es, hlast, abs_zero, h8] at h3
    rcases h3 with h3 | h3
    · linarith
    · simp at h3

theorem zdt_common {n : Nat} (hn : 2 ≤ n) (F : ℝ → ℝ → ℝ) (hF : ∀ g, F 0 g = g) :
    OptimumRight (uniformBenchmark 0 1 (List.replicate n 0) [0, -1] (fun v => [-(v.getD 0 0), -(F (v.getD 0 0) (zdtG v))])) := by
  refine ⟨inBounds_uniform.mpr ⟨rfl, replicate_in n le_rfl (by norm_num)⟩, ?_, fun v hv hb => ?_⟩
  · show [-((List.replicate n (0 : ℝ)).getD 0 0), -(F ((List.replicate n (0 : ℝ)).getD 0 0) (zdtG (List.replicate n 0)))] = [0, -1]
    rw [getD_replicate_zero, hF, zdtG_zero, neg_zero]
  · obtain ⟨hl, hv⟩ := inBounds_uniform.mp hv
    rw [List.length_replicate] at hl
    have hb' : Better [-(v.getD 0 0), -(F (v.getD 0 0) (zdtG v))] [0, -1] := hb
    obtain ⟨h1, h2, h3⟩ := better_two hb'
    have h0 := (hv _ (getD_mem' (show 0 < v.length by omega))).1
    have hz : v.getD 0 0 = 0 := by linarith
    have hg := zdtG_ge v (by omega) (fun x hx => (hv x hx).1)
    rw [hz, hF] at h2 h3
    rcases h3 with h3 | h3 <;> linarith

/-- C60: ZDT1. -/
theorem C60_zdt1 (n : Nat) (hn : 2 ≤ n) : OptimumRight (zdt1B n) :=
  zdt_common hn (fun f1 g => g - g * √(f1 / g)) (fun g => by simp)

/-- C60: ZDT2. -/
theorem C60_zdt2 (n : Nat) (hn : 2 ≤ n) : OptimumRight (zdt2B n) :=
  zdt_common hn (fun f1 g => g - f1 * f1 / g) (fun g => by simp)

/-- C60: ZDT3. -/
theorem C60_zdt3 (n : Nat) (hn : 2 ≤ n) : OptimumRight (zdt3B n) :=
  zdt_common hn (fun f1 g => g - g * √(f1 / g) - f1 * sin (10 * π * f1)) (fun g => by simp)

/-- C60: ZDT4; the first variable is in [0, 1]. -/
theorem C60_zdt4 (n : Nat) (hn : 2 ≤ n) : OptimumRight (zdt4B n) := by
  have hG : ∀ v : List ℝ, v ≠ [] → 1 + 10 * ((v.length : ℝ) - 1) + (v.tail.map (fun val => val ^ 2 - 10 * cos (4 * π * val))).sum =
      1 + (v.tail.map (fun val => 10 + (val ^ 2 - 10 * cos (4 * π * val)))).sum := by
    intro v hv
    rw [← map_sum_add_const, List.length_tail, Nat.cast_sub (List.length_pos_iff.mpr hv)]
    push_cast
    ring
  have hbnd : ∀ (b : ℝ × ℝ) (i : Nat), (zdt4B n).bounds[i]? = some b → (i = 0 → b = (0, 1)) ∧ (i ≠ 0 → b = (-5, 5)) := by
    intro b i h
    have h' : ((List.replicate n ((-5 : ℝ), (5 : ℝ))).set 0 (0, 1))[i]? = some b := h
    rw [List.getElem?_set] at h'
    refine ⟨fun h0 => ?_, fun h0 => ?_⟩
    · subst h0
      rw [if_pos rfl, if_pos (by simp; omega)] at h'
      exact (Option.some.inj h').symm
    · rw [if_neg (by omega), List.getElem?_replicate] at h'
      split at h'
      · exact (Option.some.inj h').symm
      · cases h'
  refine ⟨⟨?_, fun i x b hx hb => ?_⟩, ?_, fun v hv hb => ?_⟩
  · show (List.replicate n (0 : ℝ)).length = ((List.replicate n ((-5 : ℝ), (5 : ℝ))).set 0 (0, 1)).length
    simp
  · have hx0 : x = 0 := List.eq_of_mem_replicate (List.mem_of_getElem? (show (List.replicate n (0 : ℝ))[i]? = some x from hx))
    have hb' := hbnd b i hb
    by_cases hi : i = 0
    · rw [hb'.1 hi, hx0]; norm_num
    · rw [hb'.2 hi, hx0]; norm_num
  · show zdt4 (List.replicate n 0) = [0, -1]
    unfold zdt4
    dsimp only
    rw [hG _ (List.ne_nil_of_length_pos (by simp; omega)), getD_replicate_zero, List.tail_replicate, map_sum_congr_zero]
    · simp
    · intro x hx
      rw [List.eq_of_mem_replicate hx]
      simp
  · obtain ⟨hl, hv⟩ := hv
    have hl' : v.length = n := by
      rw [hl]
      show ((List.replicate n ((-5 : ℝ), (5 : ℝ))).set 0 (0, 1)).length = n
      simp
    have hb' : Better (zdt4 v) [0, -1] := hb
    unfold zdt4 at hb'
    dsimp only at hb'
    rw [hG v (List.ne_nil_of_length_pos (by omega))] at hb'
    obtain ⟨h1, h2, h3⟩ := better_two hb'
    have h0 : 0 ≤ v.getD 0 0 := by
      have := (hv 0 (v.getD 0 0) (0, 1) (by rw [getD_of_lt' (by omega)]; exact List.getElem?_eq_getElem (by omega)) (by
        show ((List.replicate n ((-5 : ℝ), (5 : ℝ))).set 0 (0, 1))[0]? = _
        rw [List.getElem?_set_self (by simp; omega)])).1
      exact this
    have hz : v.getD 0 0 = 0 := by linarith
    have hg := map_sum_nonneg (fun val : ℝ => 10 + (val ^ 2 - 10 * cos (4 * π * val))) v.tail (fun x _ => by
      have := cos_le_one (4 * π * x)
      have := sq_nonneg x
      linarith)
    rw [hz, zero_div, Real.sqrt_zero, mul_zero, sub_zero] at h2 h3
    rcases h3 with h3 | h3 <;> linarith

/-- C60: ZDT6. -/
theorem C60_zdt6 (n : Nat) (hn : 2 ≤ n) : OptimumRight (zdt6B n) := by
  refine ⟨inBounds_uniform.mpr ⟨rfl, replicate_in n le_rfl (by norm_num)⟩, ?_, fun v hv hb => ?_⟩
  · show zdt6 (List.replicate n 0) = [-1, 0]
    unfold zdt6
    dsimp only
    rw [getD_replicate_zero, List.tail_replicate, sum_replicate_zero, zero_div, zero_rpow (by norm_num)]
    simp
  · obtain ⟨hl, hv⟩ := inBounds_uniform.mp hv
    rw [List.length_replicate] at hl
    have hb' : Better (zdt6 v) [-1, 0] := hb
    unfold zdt6 at hb'
    dsimp only at hb'
    have hs : 0 ≤ v.tail.sum := by
      have := map_sum_nonneg id v.tail (fun x hx => (hv x (List.mem_of_mem_tail hx)).1)
      simpa using this
    have hlR : (2 : ℝ) ≤ v.length := by rw [hl]; exact_mod_cast hn
    have hgp : 0 ≤ (v.tail.sum / ((v.length : ℝ) - 1)) ^ (0.25 : ℝ) := rpow_nonneg (div_nonneg hs (by linarith)) _
    have hf0 := (hv _ (getD_mem' (show 0 < v.length by omega))).1
    have he : exp (-4 * v.getD 0 0) ≤ 1 := by
      rw [exp_le_one_iff]; linarith
    have hep := exp_pos (-4 * v.getD 0 0)
    have hsin : sin (6 * π * v.getD 0 0) ^ 6 ≤ 1 := by
      have h1 : sin (6 * π * v.getD 0 0) ^ 2 ≤ 1 := sin_sq_le_one _
      have h2 : sin (6 * π * v.getD 0 0) ^ 6 = (sin (6 * π * v.getD 0 0) ^ 2) ^ 3 := by ring
      rw [h2]
      exact pow_le_one₀ (sq_nonneg _) h1
    have hsin0 : 0 ≤ sin (6 * π * v.getD 0 0) ^ 6 := by
      have h2 : sin (6 * π * v.getD 0 0) ^ 6 = (sin (6 * π * v.getD 0 0) ^ 3) ^ 2 := by ring
      rw [h2]; exact sq_nonneg _
    generalize sin (6 * π * v.getD 0 0) ^ 6 = s at *
    generalize exp (-4 * v.getD 0 0) = e at *
    generalize (v.tail.sum / ((v.length : ℝ) - 1)) ^ (0.25 : ℝ) = r at *
    obtain ⟨h1, h2, h3⟩ := better_two hb'
    have hes : 0 ≤ e * s := mul_nonneg hep.le hsin0
    have hes1 : e * s ≤ 1 := mul_le_one₀ he hsin0 hsin
    have hg : (0 : ℝ) < 1 + 9 * r := by linarith
    have hdiv : (1 - e * s) * (1 - e * s) / (1 + 9 * r) ≤ 1 - e * s := by
      rw [div_le_iff₀ hg]
      have ha : 0 ≤ 1 - e * s := by linarith
      nlinarith [mul_nonneg ha (mul_nonneg (show (0 : ℝ) ≤ 9 by norm_num) hgp), mul_nonneg ha hes]
    rcases h3 with h3 | h3 <;> linarith

/-- C60: ZDT5 with `n` variables (30 bits and `n - 1` times 5 bits): all-one bits have the documented fitness, and no chromosome is better. -/
theorem C60_zdt5 (n : Nat) (hn : 2 ≤ n) :
    zdt5 (List.replicate (zdt5First + (n - 1) * zdt5Rest) true) = [-31, -((n - 1 : Nat) : ℝ) / 31] ∧
      ∀ bits : List Bool, bits.length = zdt5First + (n - 1) * zdt5Rest → ¬ Better (zdt5 bits) [-31, -((n - 1 : Nat) : ℝ) / 31] := by
  have hstop : ∀ (bits : List Bool) (g : Nat), bits.length < 5 → zdt5Loop bits g = g := by
    intro bits g h
    unfold zdt5Loop
    rw [if_neg (by simp only [zdt5Rest]; omega)]
  have hstep : ∀ (bits : List Bool) (g : Nat), 5 ≤ bits.length → zdt5Loop bits g =
      zdt5Loop (bits.drop 5) (g + if (bits.take 5).count true = 5 then 1 else 2 + (bits.take 5).count true) := by
    intro bits g h
    rw [zdt5Loop, if_pos (by simp only [zdt5Rest]; omega)]
    rfl
  have hge : ∀ (k g : Nat) (bits : List Bool), bits.length = k * 5 → g + k ≤ zdt5Loop bits g := by
    intro k
    induction k with
    | zero => intro g bits h; rw [hstop _ _ (by omega)]; omega
    | succ k ih =>
      intro g bits h
      rw [hstep _ _ (by omega)]
      have h1 := ih (g + if (bits.take 5).count true = 5 then 1 else 2 + (bits.take 5).count true) (bits.drop 5) (by rw [List.length_drop]; omega)
      have h2 : 1 ≤ (if (bits.take 5).count true = 5 then 1 else 2 + (bits.take 5).count true) := by split <;> omega
      omega
  have hones : ∀ (k g : Nat), zdt5Loop (List.replicate (k * 5) true) g = g + k := by
    intro k
    induction k with
    | zero => intro g; rw [hstop _ _ (by simp)]; rfl
    | succ k ih =>
      intro g
      rw [hstep _ _ (by rw [List.length_replicate]; omega), List.take_replicate, List.drop_replicate, show min 5 ((k + 1) * 5) = 5 by omega,
        show (k + 1) * 5 - 5 = k * 5 by omega, List.count_replicate_self, if_pos rfl, ih]
      omega
  have hnpos : (0 : ℝ) < ((n - 1 : Nat) : ℝ) := by exact_mod_cast (show 0 < n - 1 by omega)
  constructor
  · unfold zdt5
    dsimp only
    rw [List.take_replicate, List.drop_replicate, show min zdt5First (zdt5First + (n - 1) * zdt5Rest) = 30 by simp only [zdt5First, zdt5Rest]; omega,
      show zdt5First + (n - 1) * zdt5Rest - zdt5First = (n - 1) * 5 by simp only [zdt5First, zdt5Rest]; omega, List.count_replicate_self, hones, Nat.zero_add]
    norm_num
    ring
  · intro bits hl hb
    unfold zdt5 at hb
    dsimp only at hb
    have hc : (bits.take zdt5First).count true ≤ 30 := by
      refine le_trans List.count_le_length ?_
      rw [List.length_take]
      exact Nat.min_le_left _ _
    have hg := hge (n - 1) 0 (bits.drop zdt5First) (by rw [List.length_drop, hl]; simp only [zdt5First, zdt5Rest]; omega)
    generalize (bits.take zdt5First).count true = c at *
    generalize zdt5Loop (bits.drop zdt5First) 0 = g at *
    rw [Nat.zero_add] at hg
    have hcR : ((c : Nat) : ℝ) ≤ 30 := by exact_mod_cast hc
    have hc0 : (0 : ℝ) ≤ (c : ℝ) := Nat.cast_nonneg c
    have hgR : ((n - 1 : Nat) : ℝ) ≤ (g : ℝ) := by exact_mod_cast hg
    obtain ⟨h1, h2, h3⟩ := better_two hb
    have hpos : (0 : ℝ) < 1 + c := by linarith
    have h2' : (g : ℝ) / (1 + c) ≤ ((n - 1 : Nat) : ℝ) / 31 := by
      rw [neg_div] at h2
      linarith
    rw [div_le_div_iff₀ hpos (by norm_num)] at h2'
    have hc30 : (c : ℝ) = 30 := by nlinarith
    rw [hc30] at h2' h3
    rcases h3 with h3 | h3
    · linarith
    · rw [neg_div, neg_lt_neg_iff, div_lt_div_iff₀ (by norm_num) (by norm_num)] at h3
      nlinarith

/-! ## Many objectives -/

theorem take_drop_opt (m k : Nat) (c d : ℝ) :
    (List.replicate (m - 1) c ++ List.replicate k d).take (m - 1) = List.replicate (m - 1) c ∧
      (List.replicate (m - 1) c ++ List.replicate k d).drop (m - 1) = List.replicate k d := by
  constructor
  · rw [List.take_append_of_le_length (by simp), List.take_of_length_le (by simp)]
  · rw [List.drop_append_of_le_length (by simp), List.drop_eq_nil_of_le (by simp), List.nil_append]

theorem opt_in (m k : Nat) : ∀ x ∈ List.replicate (m - 1) (0 : ℝ) ++ List.replicate k 0.5, 0 ≤ x ∧ x ≤ 1 := by
  intro x hx
  rcases List.mem_append.mp hx with hx | hx <;> rw [List.eq_of_mem_replicate hx] <;> norm_num

/-- C60: DTLZ1. -/
theorem C60_dtlz1 (m : Nat) (hm : 2 ≤ m) : OptimumRight (dtlz1B m) := by
  refine ⟨inBounds_uniform.mpr ⟨rfl, opt_in m 5⟩, ?_, fun v hv hb => ?_⟩
  · show dtlz dtlz1F dtlz1G (List.replicate (m - 1) 0 ++ List.replicate 5 0.5) m = List.replicate (m - 1) 0 ++ [-0.5]
    unfold dtlz dtlz1F
    dsimp only
    rw [(take_drop_opt m 5 0 0.5).1, (take_drop_opt m 5 0 0.5).2, dtlz1G_half, dtlzSplit_zero_far _ _ (by norm_num) rfl _ _ (by omega)]
    simp
  · have hb' : Better (dtlz dtlz1F dtlz1G v m) (List.replicate (m - 1) 0 ++ [-0.5]) := hb
    unfold dtlz at hb'
    dsimp only at hb'
    have hg := dtlz1G_nonneg (v.drop (m - 1))
    generalize dtlz1G (v.drop (m - 1)) = g at *
    have h := better_sum (fun x => -x) (fun _ => True) (fun x y _ _ h => by linarith) (fun x y _ _ h => by linarith) _ _
      (fun _ _ => trivial) (fun _ _ => trivial) hb'
    rw [List.map_map] at h
    have e : ((fun x : ℝ => -x) ∘ fun val => val * -(1 + g)) = fun y => (1 + g) * y := by
      funext y; simp only [Function.comp]; ring
    rw [e, List.sum_map_mul_left, List.map_id'] at h
    rw [show (dtlz1F (List.take (m - 1) v) g).sum = 0.5 from dtlzSplit_sum _ _ (fun x => by ring) _ _] at h
    simp at h
    linarith

theorem unit_value (m : Nat) : (∀ x ∈ (-1 : ℝ) :: List.replicate (m - 1) 0, x ≤ 0) ∧
    ((((-1 : ℝ) :: List.replicate (m - 1) 0).map (fun y => y ^ 2)).sum = 1) := by
  constructor
  · intro x hx
    rcases List.mem_cons.mp hx with rfl | hx
    · norm_num
    · rw [List.eq_of_mem_replicate hx]
  · simp

theorem sin_cos_unit (x : ℝ) : sin x ^ 2 + cos x ^ 2 = 1 := sin_sq_add_cos_sq x

theorem dtlz2_like (m k : Nat) (G : List ℝ → ℝ) (hG : ∀ xs, 0 ≤ G xs) (hopt : G (List.replicate k 0.5) = 0) :
    OptimumRight (uniformBenchmark 0 1 (List.replicate (m - 1) 0 ++ List.replicate k 0.5) (-1 :: List.replicate (m - 1) 0)
      (fun v => dtlz dtlz2F G v m)) := by
  refine ⟨inBounds_uniform.mpr ⟨rfl, opt_in m k⟩, ?_, fun v hv hb => ?_⟩
  · show dtlz dtlz2F G (List.replicate (m - 1) 0 ++ List.replicate k 0.5) m = -1 :: List.replicate (m - 1) 0
    unfold dtlz dtlz2F
    dsimp only
    rw [(take_drop_opt m k 0 0.5).1, (take_drop_opt m k 0 0.5).2, hopt, dtlzSplit_zero_near _ _ (by simp) (by simp)]
    simp
  · obtain ⟨_, hv⟩ := inBounds_uniform.mp hv
    refine sphere_not_better _ _ (G (v.drop (m - 1))) (hG _) ?_ (unit_value m).1 ?_ (unit_value m).2 hb
    · exact dtlzSplit_nonneg _ _ _ (fun x hx => trig_range (hv x (List.mem_of_mem_take hx)).1 (hv x (List.mem_of_mem_take hx)).2) 1 zero_le_one
    · rw [show dtlz2F (v.take (m - 1)) (G (v.drop (m - 1))) = dtlzSplit _ _ 1 (v.take (m - 1)) from rfl,
        dtlzSplit_sq _ _ (fun x => sin_cos_unit _), one_pow]

/-- C60: DTLZ2. -/
theorem C60_dtlz2 (m : Nat) : OptimumRight (dtlz2B m) := dtlz2_like m 10 dtlz2G dtlz2G_nonneg (dtlz2G_half 10)

/-- C60: DTLZ3. -/
theorem C60_dtlz3 (m : Nat) : OptimumRight (dtlz3B m) := dtlz2_like m 10 dtlz1G dtlz1G_nonneg (dtlz1G_half 10)

/-- C60: the documented optimum of DTLZ4 does not have the documented optimal value: the last objective is not 0. -/
theorem C60_dtlz4_optimum_wrong (m : Nat) (hm : 2 ≤ m) : (dtlz4B m).fitness (dtlz4B m).optimum ≠ (dtlz4B m).optimalValue := by
  intro h
  have h' : dtlz dtlz4F dtlz2G (List.replicate (m + 10 - 1) 0.5) m = -1 :: List.replicate (m - 1) 0 := h
  unfold dtlz dtlz4F at h'
  dsimp only at h'
  rw [List.take_replicate, List.drop_replicate, dtlz2G_half] at h'
  obtain ⟨k, hk⟩ : ∃ k, min (m - 1) (m + 10 - 1) = k + 1 := ⟨m - 2, by omega⟩
  rw [hk, List.replicate_succ] at h'
  unfold dtlzSplit at h'
  have h2 := congrArg List.getLast? h'
  rw [List.map_append, List.map_singleton, List.getLast?_concat] at h2
  obtain ⟨j, hj⟩ : ∃ j, m - 1 = j + 1 := ⟨m - 2, by omega⟩
  rw [hj, List.replicate_succ', ← List.cons_append, List.getLast?_concat, Option.some.injEq] at h2
  have hpos : 0 < sin ((0.5 : ℝ) ^ 100 * π / 2) := by
    apply sin_pos_of_pos_of_lt_pi
    · have := pi_pos
      positivity
    · have hp := pi_pos
      have h3 : (0.5 : ℝ) ^ 100 ≤ 1 := pow_le_one₀ (by norm_num) (by norm_num)
      nlinarith
  linarith

/-- C60, DTLZ4: the documented optimal value is the fitness of another chromosome, and no chromosome is better than it. Missing: it is not the fitness of the documented optimum. -/
theorem C60_dtlz4_partial (m : Nat) :
    (InBounds (dtlz4B m) (List.replicate (m - 1) 0 ++ List.replicate (m + 10 - 1 - (m - 1)) 0.5)) ∧
      (dtlz4B m).fitness (List.replicate (m - 1) 0 ++ List.replicate (m + 10 - 1 - (m - 1)) 0.5) = (dtlz4B m).optimalValue ∧
      ∀ v, InBounds (dtlz4B m) v → ¬ Better ((dtlz4B m).fitness v) (dtlz4B m).optimalValue := by
  refine ⟨inBounds_uniform.mpr ⟨by simp only [List.length_append, List.length_replicate]; omega, opt_in m _⟩, ?_, fun v hv hb => ?_⟩
  · show dtlz dtlz4F dtlz2G (List.replicate (m - 1) 0 ++ List.replicate (m + 10 - 1 - (m - 1)) 0.5) m = -1 :: List.replicate (m - 1) 0
    unfold dtlz dtlz4F
    dsimp only
    rw [(take_drop_opt m _ 0 0.5).1, (take_drop_opt m _ 0 0.5).2, dtlz2G_half, dtlzSplit_zero_near _ _ (by simp) (by simp)]
    simp
  · obtain ⟨_, hv⟩ := inBounds_uniform.mp hv
    refine sphere_not_better _ _ (dtlz2G (v.drop (m - 1))) (dtlz2G_nonneg _) ?_ (unit_value m).1 ?_ (unit_value m).2 hb
    · refine dtlzSplit_nonneg _ _ _ (fun x hx => ?_) 1 zero_le_one
      have h := hv x (List.mem_of_mem_take hx)
      exact trig_range (pow_nonneg h.1 _) (pow_le_one₀ h.1 h.2)
    · rw [show dtlz4F (v.take (m - 1)) (dtlz2G (v.drop (m - 1))) = dtlzSplit _ _ 1 (v.take (m - 1)) from rfl,
        dtlzSplit_sq _ _ (fun x => sin_cos_unit _), one_pow]

theorem dtlz5F_nonneg (xs : List ℝ) (g : ℝ) (hg : 0 ≤ g) (hx : ∀ x ∈ xs, 0 ≤ x ∧ x ≤ 1) (hne : xs ≠ []) : ∀ y ∈ dtlz5F xs g, 0 ≤ y := by
  have h0 := hx _ (getD_mem' (List.length_pos_iff.mpr hne))
  have t0 := trig_range h0.1 h0.2
  intro y hy
  unfold dtlz5F at hy
  rcases List.mem_append.mp hy with hy | hy
  · refine dtlzSplit_nonneg _ _ _ (fun x hx' => ?_) _ t0.2 y hy
    have h := hx x (List.mem_of_mem_tail hx')
    refine trig_range ?_ ?_
    · exact div_nonneg (add_nonneg (mul_nonneg hg h.1) (by norm_num)) (by linarith)
    · rw [div_le_one (by linarith)]
      nlinarith
  · rw [List.mem_singleton] at hy
    rw [hy]; exact t0.1

theorem dtlz5F_sq (xs : List ℝ) (g : ℝ) : ((dtlz5F xs g).map (fun y => y ^ 2)).sum = 1 := by
  unfold dtlz5F
  rw [List.map_append, List.sum_append, dtlzSplit_sq _ _ (fun x => sin_cos_unit _)]
  simp only [List.map_cons, List.map_nil, List.sum_singleton]
  rw [add_comm]
  exact sin_cos_unit _

theorem dtlz5_opt (m : Nat) (hm : 2 ≤ m) : (dtlz5F (List.replicate (m - 1) 0) 0).map (fun val => val * -(1 + 0)) = dtlz5Value m := by
  have hs4 : sin ((0 * 0 + 0.5) / (1 + 0) * π / 2) = √2 / 2 := by
    rw [show (0 * 0 + 0.5) / (1 + 0) * π / 2 = π / 4 by ring, sin_pi_div_four]
  have hc4 : cos ((0 * 0 + 0.5) / (1 + 0) * π / 2) = √2 / 2 := by
    rw [show (0 * 0 + 0.5) / (1 + 0) * π / 2 = π / 4 by ring, cos_pi_div_four]
  have hinv : ∀ k : Nat, (√2 / 2) ^ k = 1 / √2 ^ k := by
    intro k
    rw [show √2 / 2 = 1 / √2 by
      rw [div_eq_div_iff (by norm_num) (by positivity), Real.mul_self_sqrt (by norm_num)]; norm_num, div_pow, one_pow]
  unfold dtlz5F
  dsimp only
  rw [getD_replicate_zero, List.tail_replicate, dtlzSplit_const (√2 / 2) _ _ hs4 hc4, zero_mul, zero_div, cos_zero, sin_zero]
  unfold dtlz5Value
  apply List.ext_getElem?
  intro i
  rw [List.getElem?_map, List.getElem?_set, List.getElem?_set, List.getElem?_map]
  have hl : (1 * (√2 / 2) ^ (m - 1 - 1) :: List.map (fun i => 1 * (√2 / 2) ^ (m - 1 - 1 - i)) (List.range (m - 1 - 1))).length = m - 1 := by
    simp; omega
  rcases Nat.lt_trichotomy i (m - 1) with hi | hi | hi
  · rw [List.getElem?_append_left (by omega), if_neg (by omega)]
    cases i with
    | zero =>
      rw [if_pos rfl, if_pos (by simp; omega)]
      have e1 : (List.map (fun i => -1 / √2 ^ (m - 1 - i)) (List.range m)).getD 1 0 = -1 / √2 ^ (m - 1 - 1) := by
        rw [List.getD_eq_getElem?_getD, List.getElem?_map, List.getElem?_range (by omega)]
        rfl
      rw [e1, List.getElem?_cons_zero]
      show some _ = some _
      rw [hinv]
      congr 1
      ring
    | succ i =>
      rw [if_neg (by omega), List.getElem?_cons_succ, List.getElem?_map, List.getElem?_range (by omega), List.getElem?_range (by omega)]
      show some _ = some _
      dsimp only
      rw [hinv, show m - 1 - (i + 1) = m - 1 - 1 - i by omega]
      congr 1
      ring
  · subst hi
    rw [List.getElem?_append_right (by omega), hl, Nat.sub_self, if_pos rfl, if_pos (by simp; omega)]
    simp
  · rw [List.getElem?_eq_none (by rw [List.length_append, hl]; simp; omega), if_neg (by omega), if_neg (by omega),
      List.getElem?_eq_none (by simp; omega)]
    rfl

theorem dtlz5_like (m : Nat) (hm : 2 ≤ m) (opt : List ℝ) (hopt : ∀ x ∈ opt, 0 ≤ x ∧ x ≤ 1) (hlen : m ≤ opt.length)
    (htake : opt.take (m - 1) = List.replicate (m - 1) 0)
    (G : List ℝ → ℝ) (hG : ∀ xs, (∀ x ∈ xs, 0 ≤ x) → 0 ≤ G xs) (hgo : G (opt.drop (m - 1)) = 0) :
    OptimumRight (uniformBenchmark 0 1 opt (dtlz5Value m) (fun v => dtlz dtlz5F G v m)) := by
  have hval := dtlz5_opt m hm
  have hne : ∀ v : List ℝ, m ≤ v.length → v.take (m - 1) ≠ [] := by
    intro v hv
    apply List.ne_nil_of_length_pos
    rw [List.length_take]; omega
  refine ⟨inBounds_uniform.mpr ⟨rfl, hopt⟩, ?_, fun v hv hb => ?_⟩
  · show dtlz dtlz5F G opt m = dtlz5Value m
    unfold dtlz
    dsimp only
    rw [htake, hgo, hval]
  · obtain ⟨hl, hv⟩ := inBounds_uniform.mp hv
    have hg := hG (v.drop (m - 1)) (fun x hx => (hv x (List.mem_of_mem_drop hx)).1)
    have h0 : ∀ y ∈ dtlz5F (List.replicate (m - 1) 0) 0, 0 ≤ y :=
      dtlz5F_nonneg _ _ le_rfl (replicate_in _ le_rfl zero_le_one) (List.ne_nil_of_length_pos (by simp; omega))
    refine sphere_not_better _ _ (G (v.drop (m - 1))) hg ?_ ?_ (dtlz5F_sq _ _) ?_ hb
    · exact dtlz5F_nonneg _ _ hg (fun x hx => hv x (List.mem_of_mem_take hx)) (hne v (by omega))
    · show ∀ x ∈ dtlz5Value m, x ≤ 0
      rw [← hval]
      intro x hx
      obtain ⟨y, hy, rfl⟩ := List.mem_map.mp hx
      have := h0 y hy
      linarith
    · show ((dtlz5Value m).map (fun y => y ^ 2)).sum = 1
      rw [← hval, List.map_map]
      have e : ((fun y : ℝ => y ^ 2) ∘ fun val => val * -(1 + 0)) = fun y => y ^ 2 := by
        funext y; simp only [Function.comp]; ring
      rw [e, dtlz5F_sq]

/-- C60: DTLZ5. -/
theorem C60_dtlz5 (m : Nat) (hm : 2 ≤ m) : OptimumRight (dtlz5B m) := by
  refine dtlz5_like m hm _ (opt_in m 10) (by simp; omega) (take_drop_opt m 10 0 0.5).1 dtlz2G (fun xs _ => dtlz2G_nonneg xs) ?_
  rw [(take_drop_opt m 10 0 0.5).2, dtlz2G_half]

/-- C60: DTLZ6. -/
theorem C60_dtlz6 (m : Nat) (hm : 2 ≤ m) : OptimumRight (dtlz6B m) := by
  refine dtlz5_like m hm _ (replicate_in _ le_rfl zero_le_one) (by rw [List.length_replicate]; omega) (by rw [List.take_replicate]; congr 1; omega) dtlz6G dtlz6G_nonneg ?_
  rw [List.drop_replicate, dtlz6G_zero]

/-- C60: DTLZ7. -/
theorem C60_dtlz7 (m : Nat) (hm : 2 ≤ m) : OptimumRight (dtlz7B m) := by
  have hmR : ((m - 1 + 1 : Nat) : ℝ) = m := by rw [Nat.sub_add_cancel (by omega)]
  have hback : ∀ (xs : List ℝ) (c : ℝ), (∀ x ∈ xs, x = 0) → xs.foldl (fun b x => b - x * (1 + sin (3 * π * x))) c = c := by
    intro xs
    induction xs with
    | nil => intro c _; rfl
    | cons x xs ih =>
      intro c h
      rw [List.foldl_cons, ih _ (fun y hy => h y (List.mem_cons_of_mem _ hy)), h x (List.mem_cons_self ..)]
      simp
  refine ⟨inBounds_uniform.mpr ⟨rfl, replicate_in _ le_rfl zero_le_one⟩, ?_, fun v hv hb => ?_⟩
  · show dtlz dtlz7F dtlz7G (List.replicate (m + 20 - 1) 0) m = List.replicate (m - 1) 0 ++ [-2 * (m : ℝ)]
    unfold dtlz dtlz7F
    dsimp only
    have hg : dtlz7G ((List.replicate (m + 20 - 1) (0 : ℝ)).drop (m - 1)) = 1 := by
      unfold dtlz7G
      rw [List.drop_replicate, sum_replicate_zero, mul_zero, add_zero]
    rw [hg, List.take_replicate, show min (m - 1) (m + 20 - 1) = m - 1 by omega, hback _ _ (fun x hx => List.eq_of_mem_replicate hx),
      List.length_replicate, hmR, List.map_append, List.map_replicate, List.map_replicate, List.map_singleton]
    congr 2
    · norm_num
    · ring
  · obtain ⟨hl, hv⟩ := inBounds_uniform.mp hv
    rw [List.length_replicate] at hl
    have hb' : Better (dtlz dtlz7F dtlz7G v m) (List.replicate (m - 1) 0 ++ [-2 * (m : ℝ)]) := hb
    have hg : 1 ≤ dtlz7G (v.drop (m - 1)) := by
      unfold dtlz7G
      have hs : 0 ≤ (v.drop (m - 1)).sum := by
        have := map_sum_nonneg id (v.drop (m - 1)) (fun x hx => (hv x (List.mem_of_mem_drop hx)).1)
        simpa using this
      have : 0 ≤ 9 / ((v.drop (m - 1)).length : ℝ) * (v.drop (m - 1)).sum := mul_nonneg (by positivity) hs
      linarith
    unfold dtlz dtlz7F at hb'
    dsimp only at hb'
    generalize dtlz7G (v.drop (m - 1)) = g at *
    have htl : (v.take (m - 1)).length = m - 1 := by rw [List.length_take]; omega
    obtain ⟨_, hall, i, x, y, hx, hy, hlt⟩ := hb'
    rw [List.map_append, List.map_map, List.map_singleton] at hall hx
    have hgp : (0 : ℝ) < 1 + g := by linarith
    have hzero : ∀ z ∈ v.take (m - 1), z = 0 := by
      intro z hz
      obtain ⟨j, hj, rfl⟩ := List.mem_iff_getElem.mp hz
      have h := hall j ((v.take (m - 1))[j] / (1 + g) * -(1 + g)) 0
        (by rw [List.getElem?_append_left (by simpa using hj), List.getElem?_map, List.getElem?_eq_getElem hj]; rfl)
        (by rw [List.getElem?_append_left (by simpa [htl] using hj), List.getElem?_replicate, if_pos (by omega)])
      have e : (v.take (m - 1))[j] / (1 + g) * -(1 + g) = -(v.take (m - 1))[j] := by field_simp
      rw [e] at h
      have := (hv _ (List.mem_of_mem_take (List.getElem_mem hj))).1
      linarith
    rw [hback _ _ hzero, htl, hmR] at hx
    by_cases hi : i < m - 1
    · rw [List.getElem?_append_left (by simp; omega), List.getElem?_map, List.getElem?_eq_getElem (by omega)] at hx
      rw [List.getElem?_append_left (by simpa using hi), List.getElem?_replicate, if_pos hi] at hy
      cases hx; cases hy
      have hz := hzero _ (List.getElem_mem (show i < (v.take (m - 1)).length by omega))
      simp only [Function.comp] at hlt
      rw [hz] at hlt
      simp at hlt
    · have hi' : i = m - 1 := by
        apply Classical.byContradiction
        intro hne
        rw [List.getElem?_eq_none (by simp; omega)] at hy
        cases hy
      subst hi'
      rw [List.getElem?_append_right (by simp [htl])] at hx
      rw [List.getElem?_append_right (by simp)] at hy
      simp only [List.length_map, htl, Nat.sub_self, List.length_replicate, List.getElem?_cons_zero, Option.some.injEq] at hx hy
      have e : (1 + g) * (m : ℝ) / (1 + g) * -(1 + g) = -((1 + g) * m) := by field_simp
      rw [e] at hx
      rw [← hx, ← hy] at hlt
      have hmp : (0 : ℝ) ≤ m := Nat.cast_nonneg m
      nlinarith

/-- The problems have chromosomes: the midpoint of ZDT1 with three variables is one, and the optimum is not. -/
example : InBounds (zdt1B 3) [0.5, 0.5, 0.5] ∧ [0.5, 0.5, 0.5] ≠ (zdt1B 3).optimum := by
  refine ⟨inBounds_uniform.mpr ⟨rfl, ?_⟩, ?_⟩
  · intro x hx
    have : x = 0.5 := by simpa using hx
    rw [this]; norm_num
  · intro h
    have h2 : ([0.5, 0.5, 0.5] : List ℝ) = List.replicate 3 0 := h
    have h3 := congrArg List.head? h2
    rw [show (List.replicate 3 (0 : ℝ)).head? = some 0 from rfl, List.head?_cons, Option.some.injEq] at h3
    norm_num at h3

end Gapp.Props
