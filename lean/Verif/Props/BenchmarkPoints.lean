import Verif.Props.Benchmarks
import Verif.Model.BenchmarkPoints
import Verif.Spec.BenchmarkPoints
/-!
# C67: the ideal and nadir points of the benchmark functions
-/

namespace Gapp.Props
open Gapp.Model Gapp.Spec Real

/-! ## One objective -/

/-- C67, one objective: if the optimum is right, then the optimal value is the ideal point and the nadir point. -/
theorem C67_single {B : Benchmark} (h : OptimumRight B) (h1 : ∀ v, (B.fitness v).length = 1) :
    IdealRight (InBounds B) B.fitness (singlePoints B).ideal ∧ NadirRight (InBounds B) B.fitness (singlePoints B).nadir := by
  obtain ⟨hb, hv, hopt⟩ := h
  obtain ⟨v, hval⟩ : ∃ v, B.optimalValue = [v] := by
    rw [← hv]; exact List.length_eq_one_iff.mp (h1 _)
  unfold singlePoints
  have hpo : ParetoOptimal (InBounds B) B.fitness B.optimum := ⟨hb, fun y hy => by rw [hv]; exact hopt y hy⟩
  have hle : ∀ x, InBounds B x → ∀ a, B.fitness x = [a] → a ≤ v := by
    intro x hx a ha
    refine not_lt.mp fun hlt => hopt x hx ?_
    rw [ha, hval]
    refine ⟨rfl, ?_, 0, a, v, rfl, rfl, hlt⟩
    intro i p q hp hq
    match i, hp, hq with
    | 0, hp, hq => cases hp; cases hq; exact hlt.le
    | n + 1, hp, hq => simp at hp
  have hatt : ∀ (i : Nat) (b : ℝ), B.optimalValue[i]? = some b → ∃ x, ParetoOptimal (InBounds B) B.fitness x ∧ (B.fitness x)[i]? = some b :=
    fun i b hib => ⟨_, hpo, by rw [hv]; exact hib⟩
  refine ⟨⟨fun x hx => ⟨by rw [h1, hval]; rfl, fun i a b ha hb' => ?_⟩, hatt⟩, ⟨fun x hx => ⟨by rw [h1, hval]; rfl, fun i a b ha hb' => ?_⟩, hatt⟩⟩
  · obtain ⟨a', ha'⟩ := List.length_eq_one_iff.mp (h1 x)
    rw [ha'] at ha
    rw [hval] at hb'
    match i, ha, hb' with
    | 0, ha, hb' => cases ha; cases hb'; exact hle x hx _ ha'
    | n + 1, ha, hb' => simp at ha
  · obtain ⟨a', ha'⟩ := List.length_eq_one_iff.mp (h1 x)
    rw [ha'] at ha
    rw [hval] at hb'
    match i, ha, hb' with
    | 0, ha, hb' =>
      cases ha; cases hb'
      refine not_lt.mp fun hlt => hx.2 _ hb ?_
      rw [ha', hv, hval]
      refine ⟨rfl, ?_, 0, _, _, rfl, rfl, hlt⟩
      intro i p q hp hq
      match i, hp, hq with
      | 0, hp, hq => cases hp; cases hq; exact hlt.le
      | n + 1, hp, hq => simp at hp
    | n + 1, ha, hb' => simp at ha

example (n : Nat) : IdealRight (InBounds (levyB (n + 1))) (levyB (n + 1)).fitness [0] ∧ NadirRight (InBounds (rastriginB n)) (rastriginB n).fitness [0] :=
  ⟨(C67_single (C60_levy (n + 1) (by omega)).1 (fun _ => rfl)).1, (C67_single (C60_rastrigin n).1 (fun _ => rfl)).2⟩

/-! ## Two objectives -/

section
variable {X : Type} {dom : X → Prop} {a b : X → ℝ}

theorem better_two_iff {p q r s : ℝ} : Better [p, q] [r, s] ↔ r ≤ p ∧ s ≤ q ∧ (r < p ∨ s < q) := by
  refine ⟨better_two, fun ⟨h1, h2, h3⟩ => ⟨rfl, ?_, ?_⟩⟩
  · intro i x y hx hy
    match i, hx, hy with
    | 0, hx, hy => cases hx; cases hy; exact h1
    | 1, hx, hy => cases hx; cases hy; exact h2
    | n + 2, hx, hy => simp at hx
  · rcases h3 with h | h
    · exact ⟨0, p, r, rfl, rfl, h⟩
    · exact ⟨1, q, s, rfl, rfl, h⟩

theorem idealBound_two {p q : ℝ} : IdealBound dom (fun x => [a x, b x]) [p, q] ↔ ∀ x, dom x → a x ≤ p ∧ b x ≤ q := by
  refine ⟨fun h x hx => ⟨(h x hx).2 0 _ _ rfl rfl, (h x hx).2 1 _ _ rfl rfl⟩, fun h x hx => ⟨rfl, fun i u w hu hw => ?_⟩⟩
  match i, hu, hw with
  | 0, hu, hw => cases hu; cases hw; exact (h x hx).1
  | 1, hu, hw => cases hu; cases hw; exact (h x hx).2
  | n + 2, hu, hw => simp at hu

theorem nadirBound_two {p q : ℝ} : NadirBound dom (fun x => [a x, b x]) [p, q] ↔ ∀ x, ParetoOptimal dom (fun x => [a x, b x]) x → p ≤ a x ∧ q ≤ b x := by
  refine ⟨fun h x hx => ⟨(h x hx).2 0 _ _ rfl rfl, (h x hx).2 1 _ _ rfl rfl⟩, fun h x hx => ⟨rfl, fun i u w hu hw => ?_⟩⟩
  match i, hu, hw with
  | 0, hu, hw => cases hu; cases hw; exact (h x hx).1
  | 1, hu, hw => cases hu; cases hw; exact (h x hx).2
  | n + 2, hu, hw => simp at hu

theorem attained_two {p q : ℝ} (hp : ∃ x, ParetoOptimal dom (fun x => [a x, b x]) x ∧ a x = p) (hq : ∃ x, ParetoOptimal dom (fun x => [a x, b x]) x ∧ b x = q) :
    ∀ (i : Nat) (c : ℝ), [p, q][i]? = some c → ∃ x, ParetoOptimal dom (fun x => [a x, b x]) x ∧ [a x, b x][i]? = some c := by
  intro i c hc
  match i, hc with
  | 0, hc => cases hc; obtain ⟨x, hx, rfl⟩ := hp; exact ⟨x, hx, rfl⟩
  | 1, hc => cases hc; obtain ⟨x, hx, rfl⟩ := hq; exact ⟨x, hx, rfl⟩
  | n + 2, hc => simp at hc
end

/-- The problems ZDT1, ZDT2 and ZDT4: a distance function `g` that is one on the front, and the front from `(0, -1)` to `(-1, 0)`. -/
theorem zdt_points {D : List ℝ → Prop} {gf : List ℝ → ℝ} {F : ℝ → ℝ → ℝ} (h01 : ∀ v, D v → 0 ≤ v.getD 0 0 ∧ v.getD 0 0 ≤ 1) (hg : ∀ v, D v → 1 ≤ gf v)
    (hex : ∀ x, 0 ≤ x → x ≤ 1 → ∃ v, D v ∧ v.getD 0 0 = x ∧ gf v = 1) (hF : ∀ x g, 0 ≤ x → x ≤ 1 → 1 < g → F x 1 < F x g) (hpos : ∀ x, 0 ≤ x → x < 1 → 0 < F x 1)
    (hF1 : F 1 1 = 0) (hF0 : F 0 1 = 1) (hle : ∀ x, 0 ≤ x → x ≤ 1 → F x 1 ≤ 1) :
    IdealRight D (fun v => [-(v.getD 0 0), -(F (v.getD 0 0) (gf v))]) [0, 0] ∧ NadirRight D (fun v => [-(v.getD 0 0), -(F (v.getD 0 0) (gf v))]) [-1, -1] := by
  have hF' : ∀ x g, 0 ≤ x → x ≤ 1 → 1 ≤ g → F x 1 ≤ F x g := by
    intro x g h0 h1 hg
    rcases hg.eq_or_lt with rfl | hg
    · exact le_rfl
    · exact (hF x g h0 h1 hg).le
  have hnn : ∀ x, 0 ≤ x → x ≤ 1 → 0 ≤ F x 1 := by
    intro x h0 h1
    rcases h1.eq_or_lt with rfl | h1
    · rw [hF1]
    · exact (hpos x h0 h1).le
  obtain ⟨v0, hv0, e0, g0⟩ := hex 0 le_rfl zero_le_one
  obtain ⟨v1, hv1, e1, g1⟩ := hex 1 zero_le_one le_rfl
  have po0 : ParetoOptimal D (fun v => [-(v.getD 0 0), -(F (v.getD 0 0) (gf v))]) v0 := by
    refine ⟨hv0, fun y hy hb => ?_⟩
    obtain ⟨h1, h2, h3⟩ := better_two hb
    rw [e0, g0, hF0] at h2 h3
    rw [e0] at h1
    have hy0 : y.getD 0 0 = 0 := by have := (h01 y hy).1; linarith
    have := hF' 0 (gf y) le_rfl zero_le_one (hg y hy)
    rw [hF0] at this
    rw [hy0] at h2 h3
    rcases h3 with h3 | h3 <;> linarith
  have po1 : ParetoOptimal D (fun v => [-(v.getD 0 0), -(F (v.getD 0 0) (gf v))]) v1 := by
    refine ⟨hv1, fun y hy hb => ?_⟩
    obtain ⟨h1, h2, h3⟩ := better_two hb
    rw [e1, g1, hF1] at h2 h3
    rw [e1] at h1
    obtain ⟨ha, hb'⟩ := h01 y hy
    have h4 := hF' _ (gf y) ha hb' (hg y hy)
    have h5 := hnn _ ha hb'
    rcases h3 with h3 | h3
    · have := hpos _ ha (by linarith)
      linarith
    · linarith
  constructor
  · refine ⟨idealBound_two.mpr fun x hx => ⟨by have := (h01 x hx).1; linarith, ?_⟩, attained_two ⟨v0, po0, by rw [e0, neg_zero]⟩ ⟨v1, po1, by rw [e1, g1, hF1, neg_zero]⟩⟩
    obtain ⟨ha, hb⟩ := h01 x hx
    have h4 := hF' _ (gf x) ha hb (hg x hx)
    have h5 := hnn _ ha hb
    linarith
  · refine ⟨nadirBound_two.mpr fun x hx => ?_, attained_two ⟨v1, po1, by rw [e1]⟩ ⟨v0, po0, by rw [e0, g0, hF0]⟩⟩
    obtain ⟨ha, hb⟩ := h01 x hx.1
    refine ⟨by linarith, ?_⟩
    rcases (hg x hx.1).eq_or_lt with h | h
    · rw [← h]
      have := hle _ ha hb
      linarith
    · exfalso
      obtain ⟨w, hw, ew, gw⟩ := hex _ ha hb
      refine hx.2 w hw (better_two_iff.mpr ⟨by rw [ew], ?_, Or.inr ?_⟩)
      · rw [ew, gw]; have := hF _ _ ha hb h; linarith
      · rw [ew, gw]; have := hF _ _ ha hb h; linarith

theorem zdt_domain {n : Nat} (hn : 2 ≤ n) {val : List ℝ} {f : List ℝ → List ℝ} :
    (∀ v, InBounds (uniformBenchmark 0 1 (List.replicate n 0) val f) v → (0 ≤ v.getD 0 0 ∧ v.getD 0 0 ≤ 1) ∧ 1 ≤ zdtG v) ∧
    ∀ x, 0 ≤ x → x ≤ 1 → ∃ v, InBounds (uniformBenchmark 0 1 (List.replicate n 0) val f) v ∧ v.getD 0 0 = x ∧ zdtG v = 1 := by
  constructor
  · intro v hv
    obtain ⟨hl, hv⟩ := inBounds_uniform.mp hv
    rw [List.length_replicate] at hl
    exact ⟨hv _ (getD_mem' (by omega)), zdtG_ge v (by omega) (fun x hx => (hv x hx).1)⟩
  · intro x h0 h1
    refine ⟨x :: List.replicate (n - 1) 0, inBounds_uniform.mpr ⟨by simp; omega, ?_⟩, rfl, ?_⟩
    · intro y hy
      rcases List.mem_cons.mp hy with rfl | hy
      · exact ⟨h0, h1⟩
      · rw [List.eq_of_mem_replicate hy]; exact ⟨le_rfl, zero_le_one⟩
    · unfold zdtG
      rw [List.tail_cons, sum_replicate_zero]
      simp

theorem sqrt_front {x g : ℝ} (h0 : 0 ≤ x) (h1 : x ≤ 1) (hg : 1 < g) : 1 - 1 * √(x / 1) < g - g * √(x / g) := by
  have hg0 : 0 < g := by linarith
  have e1 : g * √(x / g) = √g * √x := by
    rw [Real.sqrt_div h0]
    have : √g * √g = g := Real.mul_self_sqrt hg0.le
    have hs : √g ≠ 0 := (Real.sqrt_pos.mpr hg0).ne'
    field_simp
    rw [sq, this, mul_comm]
  rw [div_one, one_mul, e1]
  have hs1 : 1 < √g := by rw [Real.lt_sqrt (by norm_num)]; linarith
  have hsx : √x ≤ 1 := Real.sqrt_le_one.mpr h1
  have hgg : g = √g * √g := (Real.mul_self_sqrt hg0.le).symm
  nlinarith [Real.sqrt_nonneg x]

/-- C67: ZDT1. -/
theorem C67_zdt1 (n : Nat) (hn : 2 ≤ n) : IdealRight (InBounds (zdt1B n)) zdt1 zdt1P.ideal ∧ NadirRight (InBounds (zdt1B n)) zdt1 zdt1P.nadir := by
  obtain ⟨d1, d2⟩ := zdt_domain (n := n) hn (val := [0, -1]) (f := zdt1)
  refine zdt_points (D := InBounds (zdt1B n)) (gf := zdtG) (F := fun f1 g => g - g * √(f1 / g)) (fun v hv => (d1 v hv).1) (fun v hv => (d1 v hv).2) d2
    (fun x g h0 h1 hg => sqrt_front h0 h1 hg) ?_ (by simp) (by simp) ?_
  · intro x h0 h1
    have : √x < 1 := by rw [Real.sqrt_lt' one_pos]; simpa using h1
    simp only [div_one, one_mul]
    linarith
  · intro x h0 h1
    have := Real.sqrt_nonneg x
    simp only [div_one, one_mul]
    linarith

/-- C67: ZDT2. -/
theorem C67_zdt2 (n : Nat) (hn : 2 ≤ n) : IdealRight (InBounds (zdt2B n)) zdt2 zdt2P.ideal ∧ NadirRight (InBounds (zdt2B n)) zdt2 zdt2P.nadir := by
  obtain ⟨d1, d2⟩ := zdt_domain (n := n) hn (val := [0, -1]) (f := zdt2)
  refine zdt_points (D := InBounds (zdt2B n)) (gf := zdtG) (F := fun f1 g => g - f1 * f1 / g) (fun v hv => (d1 v hv).1) (fun v hv => (d1 v hv).2) d2 ?_ ?_ (by simp) (by simp) ?_
  · intro x g h0 h1 hg
    have : x * x / g ≤ x * x / 1 := div_le_div_of_nonneg_left (mul_nonneg h0 h0) one_pos hg.le
    show 1 - x * x / 1 < g - x * x / g
    linarith
  · intro x h0 h1
    show 0 < 1 - x * x / 1
    rw [div_one]
    nlinarith
  · intro x h0 h1
    show 1 - x * x / 1 ≤ 1
    rw [div_one]
    nlinarith

/-- The distance function of ZDT4. -/
noncomputable def zdt4G (vars : List ℝ) : ℝ := 1 + 10 * ((vars.length : ℝ) - 1) + (vars.tail.map (fun val => val ^ 2 - 10 * cos (4 * π * val))).sum

theorem zdt4G_eq (v : List ℝ) (hv : v ≠ []) : zdt4G v = 1 + (v.tail.map (fun val => 10 + (val ^ 2 - 10 * cos (4 * π * val)))).sum := by
  unfold zdt4G
  rw [← map_sum_add_const, List.length_tail, Nat.cast_sub (List.length_pos_iff.mpr hv)]
  push_cast
  ring

theorem zdt4_bounds (n : Nat) (hn : 2 ≤ n) (v : List ℝ) : InBounds (zdt4B n) v ↔ v.length = n ∧ (0 ≤ v.getD 0 0 ∧ v.getD 0 0 ≤ 1) ∧ ∀ x ∈ v.tail, -5 ≤ x ∧ x ≤ 5 := by
  have hlen : (zdt4B n).bounds.length = n := by
    show ((List.replicate n ((-5 : ℝ), (5 : ℝ))).set 0 (0, 1)).length = n
    simp
  have hb : ∀ i, (zdt4B n).bounds[i]? = if i = 0 then some (0, 1) else if i < n then some (-5, 5) else none := by
    intro i
    show ((List.replicate n ((-5 : ℝ), (5 : ℝ))).set 0 (0, 1))[i]? = _
    rw [List.getElem?_set, List.getElem?_replicate]
    by_cases hi : i = 0
    · subst hi; simp; omega
    · rw [if_neg (Ne.symm hi), if_neg hi]
  unfold InBounds
  rw [hlen]
  refine and_congr_right fun hl => ⟨fun h => ⟨?_, fun x hx => ?_⟩, fun ⟨h0, h⟩ i x b hx hbi => ?_⟩
  · exact h 0 _ (0, 1) (by rw [getD_of_lt' (by omega)]; exact List.getElem?_eq_getElem (by omega)) (by rw [hb, if_pos rfl])
  · obtain ⟨j, hj⟩ := List.getElem?_of_mem hx
    rw [List.getElem?_tail] at hj
    have := (List.getElem?_eq_some_iff.mp hj).1
    exact h (j + 1) x (-5, 5) hj (by rw [hb, if_neg (by omega), if_pos (by omega)])
  · rw [hb] at hbi
    split at hbi
    · rename_i hi
      subst hi
      cases hbi
      rw [List.getD_eq_getElem?_getD, hx] at h0
      exact h0
    · split at hbi
      · cases hbi
        obtain ⟨j, rfl⟩ : ∃ j, i = j + 1 := ⟨i - 1, by omega⟩
        exact h x (List.mem_of_getElem? (i := j) (by rw [List.getElem?_tail]; exact hx))
      · cases hbi

/-- C67: ZDT4. -/
theorem C67_zdt4 (n : Nat) (hn : 2 ≤ n) : IdealRight (InBounds (zdt4B n)) zdt4 zdt4P.ideal ∧ NadirRight (InBounds (zdt4B n)) zdt4 zdt4P.nadir := by
  refine zdt_points (D := InBounds (zdt4B n)) (gf := zdt4G) (F := fun f1 g => g - g * √(f1 / g)) (fun v hv => ((zdt4_bounds n hn v).mp hv).2.1) ?_ ?_
    (fun x g h0 h1 hg => sqrt_front h0 h1 hg) ?_ (by simp) (by simp) ?_
  · intro v hv
    have hl := ((zdt4_bounds n hn v).mp hv).1
    rw [zdt4G_eq v (List.ne_nil_of_length_pos (by omega))]
    have := map_sum_nonneg (fun val : ℝ => 10 + (val ^ 2 - 10 * cos (4 * π * val))) v.tail (fun x _ => by
      have := cos_le_one (4 * π * x)
      have := sq_nonneg x
      linarith)
    linarith
  · intro x h0 h1
    refine ⟨x :: List.replicate (n - 1) 0, (zdt4_bounds n hn _).mpr ⟨by simp; omega, ⟨h0, h1⟩, ?_⟩, rfl, ?_⟩
    · intro y hy
      rw [List.tail_cons] at hy
      rw [List.eq_of_mem_replicate hy]
      norm_num
    · rw [zdt4G_eq _ (by simp), List.tail_cons, map_sum_congr_zero, add_zero]
      intro y hy
      rw [List.eq_of_mem_replicate hy]
      simp
  · intro x h0 h1
    have : √x < 1 := by rw [Real.sqrt_lt' one_pos]; simpa using h1
    simp only [div_one, one_mul]
    linarith
  · intro x h0 h1
    have := Real.sqrt_nonneg x
    simp only [div_one, one_mul]
    linarith

/-! ## ZDT5 -/

theorem zdt5Loop_ge : ∀ (k g : Nat) (bits : List Bool), bits.length = k * 5 → g + k ≤ zdt5Loop bits g
  | 0, g, bits, h => by
    unfold zdt5Loop
    rw [if_neg (by simp only [zdt5Rest]; omega)]
    omega
  | k + 1, g, bits, h => by
    rw [zdt5Loop, if_pos (by simp only [zdt5Rest]; omega)]
    have h1 := zdt5Loop_ge k (g + if (bits.take zdt5Rest).count true = zdt5Rest then 1 else 2 + (bits.take zdt5Rest).count true) (bits.drop zdt5Rest)
      (by rw [List.length_drop]; simp only [zdt5Rest]; omega)
    have h2 : 1 ≤ (if (bits.take zdt5Rest).count true = zdt5Rest then 1 else 2 + (bits.take zdt5Rest).count true) := by split <;> omega
    dsimp only
    omega

theorem zdt5Loop_ones : ∀ (k g : Nat), zdt5Loop (List.replicate (k * 5) true) g = g + k
  | 0, g => by
    unfold zdt5Loop
    rw [if_neg (by simp [zdt5Rest])]
    rfl
  | k + 1, g => by
    rw [zdt5Loop, if_pos (by simp only [zdt5Rest, List.length_replicate]; omega)]
    dsimp only
    rw [List.take_replicate, List.drop_replicate, show min zdt5Rest ((k + 1) * 5) = zdt5Rest by simp only [zdt5Rest]; omega,
        show (k + 1) * 5 - zdt5Rest = k * 5 by simp only [zdt5Rest]; omega, List.count_replicate_self, if_pos rfl, zdt5Loop_ones k]
    omega

/-- The first block of bits with `rest` set to ones. -/
theorem zdt5_front (n : Nat) (first : List Bool) (hf : first.length = 30) :
    (first ++ List.replicate ((n - 1) * 5) true).length = zdt5First + (n - 1) * zdt5Rest ∧
      zdt5 (first ++ List.replicate ((n - 1) * 5) true) = [-(1 + (first.count true : ℝ)), -(((n - 1 : Nat) : ℝ) / (1 + (first.count true : ℝ)))] := by
  constructor
  · rw [List.length_append, hf, List.length_replicate]; rfl
  · unfold zdt5
    dsimp only
    rw [show zdt5First = first.length from hf.symm, List.take_left, List.drop_left, zdt5Loop_ones, Nat.zero_add]

/-- C67: ZDT5. -/
theorem C67_zdt5 (n : Nat) (hn : 2 ≤ n) :
    IdealRight (fun bits : List Bool => bits.length = zdt5First + (n - 1) * zdt5Rest) zdt5 (zdt5P n).ideal ∧
      NadirRight (fun bits : List Bool => bits.length = zdt5First + (n - 1) * zdt5Rest) zdt5 (zdt5P n).nadir := by
  set D : List Bool → Prop := fun bits => bits.length = zdt5First + (n - 1) * zdt5Rest with hD
  have hn0 : (0 : ℝ) < ((n - 1 : Nat) : ℝ) := by exact_mod_cast (show 0 < n - 1 by omega)
  have hfst : ∀ bits, D bits → (bits.take zdt5First).length = 30 := by
    intro bits h
    rw [List.length_take, h]
    simp only [zdt5First, zdt5Rest]
    omega
  have hc : ∀ bits, D bits → ((bits.take zdt5First).count true : ℝ) ≤ 30 := by
    intro bits h
    have : (bits.take zdt5First).count true ≤ 30 := (hfst bits h) ▸ List.count_le_length
    exact_mod_cast this
  have hg : ∀ bits, D bits → ((n - 1 : Nat) : ℝ) ≤ (zdt5Loop (bits.drop zdt5First) 0 : ℝ) := by
    intro bits h
    have := zdt5Loop_ge (n - 1) 0 (bits.drop zdt5First) (by rw [List.length_drop, h]; simp only [zdt5First, zdt5Rest]; omega)
    exact_mod_cast (by omega : n - 1 ≤ _)
  have hpo : ∀ first : List Bool, first.length = 30 → ParetoOptimal D zdt5 (first ++ List.replicate ((n - 1) * 5) true) := by
    intro first hf
    obtain ⟨h1, h2⟩ := zdt5_front n first hf
    refine ⟨h1, fun y hy hb => ?_⟩
    rw [h2] at hb
    obtain ⟨b1, b2, b3⟩ := better_two hb
    have hgy := hg y hy
    have e0 : (0 : ℝ) ≤ ((y.take zdt5First).count true : ℝ) := Nat.cast_nonneg _
    have e1 : (0 : ℝ) ≤ (first.count true : ℝ) := Nat.cast_nonneg _
    have b2' : (zdt5Loop (y.drop zdt5First) 0 : ℝ) / (1 + ((y.take zdt5First).count true : ℝ)) ≤ ((n - 1 : Nat) : ℝ) / (1 + (first.count true : ℝ)) := by linarith
    rw [div_le_div_iff₀ (by linarith) (by linarith)] at b2'
    rcases b3 with b3 | b3
    · have hlt : ((y.take zdt5First).count true : ℝ) < (first.count true : ℝ) := by linarith
      nlinarith
    · have b3' : (zdt5Loop (y.drop zdt5First) 0 : ℝ) / (1 + ((y.take zdt5First).count true : ℝ)) < ((n - 1 : Nat) : ℝ) / (1 + (first.count true : ℝ)) := by linarith
      rw [div_lt_div_iff₀ (by linarith) (by linarith)] at b3'
      nlinarith
  obtain ⟨_, z2⟩ := zdt5_front n (List.replicate 30 false) (by simp)
  obtain ⟨_, o2⟩ := zdt5_front n (List.replicate 30 true) (by simp)
  rw [show ((List.replicate 30 false).count true : ℝ) = 0 by exact_mod_cast (by decide : (List.replicate 30 false).count true = 0), add_zero, div_one] at z2
  rw [show ((List.replicate 30 true).count true : ℝ) = 30 by norm_num] at o2
  have z := hpo (List.replicate 30 false) (by simp)
  have o := hpo (List.replicate 30 true) (by simp)
  have e31 : (zdt5First : ℝ) + 1 = 1 + 30 := by unfold zdt5First; norm_num
  have hideal : (zdt5P n).ideal = [-1, -(((n - 1 : Nat) : ℝ) / (1 + 30))] := by
    unfold zdt5P
    rw [e31, neg_div]
  have hnadir : (zdt5P n).nadir = [-(1 + 30), -((n - 1 : Nat) : ℝ)] := by
    unfold zdt5P
    rw [e31]
  rw [hideal, hnadir]
  constructor
  · refine ⟨idealBound_two.mpr fun x hx => ?_, attained_two ⟨_, z, ?_⟩ ⟨_, o, ?_⟩⟩
    · have h1 := hc x hx
      have h2 := hg x hx
      have h3 : (0 : ℝ) ≤ ((x.take zdt5First).count true : ℝ) := Nat.cast_nonneg _
      refine ⟨by linarith, ?_⟩
      rw [neg_le_neg_iff, div_le_div_iff₀ (by norm_num) (by linarith)]
      nlinarith
    · exact List.head_eq_of_cons_eq z2
    · exact List.head_eq_of_cons_eq (List.tail_eq_of_cons_eq o2)
  · refine ⟨nadirBound_two.mpr fun x hx => ?_, attained_two ⟨_, o, ?_⟩ ⟨_, z, ?_⟩⟩
    · have h1 := hc x hx.1
      have h2 := hg x hx.1
      have h3 : (0 : ℝ) ≤ ((x.take zdt5First).count true : ℝ) := Nat.cast_nonneg _
      refine ⟨by linarith, ?_⟩
      obtain ⟨f1, f2⟩ := zdt5_front n (x.take zdt5First) (hfst x hx.1)
      have h4 : ¬ Better (zdt5 _) (zdt5 x) := hx.2 _ f1
      rw [f2] at h4
      have h5 : (zdt5Loop (x.drop zdt5First) 0 : ℝ) ≤ ((n - 1 : Nat) : ℝ) := by
        refine not_lt.mp fun hlt => h4 (better_two_iff.mpr ⟨le_rfl, ?_, Or.inr ?_⟩)
        · rw [neg_le_neg_iff]
          exact div_le_div_of_nonneg_right h2 (by linarith)
        · rw [neg_lt_neg_iff]
          exact div_lt_div_of_pos_right hlt (by linarith)
      rw [neg_le_neg_iff, div_le_iff₀ (by linarith)]
      nlinarith
    · exact List.head_eq_of_cons_eq o2
    · exact List.head_eq_of_cons_eq (List.tail_eq_of_cons_eq z2)

example : IdealRight (fun bits : List Bool => bits.length = zdt5First + (11 - 1) * zdt5Rest) zdt5 (zdt5P 11).ideal := (C67_zdt5 11 (by norm_num)).1

/-! ## DTLZ1 to DTLZ4 -/

theorem dtlzSplit_le (near far : ℝ → ℝ) : ∀ (xs : List ℝ), (∀ x ∈ xs, near x ≤ 1 ∧ 0 ≤ far x ∧ far x ≤ 1) → ∀ (f : ℝ), 0 ≤ f → ∀ y ∈ dtlzSplit near far f xs, y ≤ f
  | [], _, f, _, y, hy => by
    rw [dtlzSplit, List.mem_singleton] at hy
    rw [hy]
  | x :: xs, h, f, hf, y, hy => by
    unfold dtlzSplit at hy
    obtain ⟨h1, h2, h3⟩ := h x (List.mem_cons_self ..)
    rcases List.mem_append.mp hy with hy | hy
    · have := dtlzSplit_le near far xs (fun z hz => h z (List.mem_cons_of_mem _ hz)) _ (mul_nonneg hf h2) y hy
      nlinarith
    · rw [List.mem_singleton] at hy
      rw [hy]
      nlinarith

/-- The corners of the front: with `far b = 1`, `near b = 0`, `far a = 0` and `near a = 1`, all of `f` goes to one element. -/
theorem dtlzSplit_corner (near far : ℝ → ℝ) {a b : ℝ} (hna : near a = 1) (hfa : far a = 0) (hnb : near b = 0) (hfb : far b = 1) (q : Nat) (f : ℝ) :
    ∀ p, dtlzSplit near far f (List.replicate p b ++ List.replicate q a) = List.replicate q 0 ++ f :: List.replicate p 0
  | 0 => by
    rw [List.replicate_zero, List.nil_append]
    induction q generalizing f with
    | zero => rfl
    | succ q ih =>
      rw [List.replicate_succ]
      unfold dtlzSplit
      rw [ih, hfa, hna, mul_zero, mul_one, List.replicate_zero, ← List.replicate_succ']
  | p + 1 => by
    rw [List.replicate_succ, List.cons_append]
    unfold dtlzSplit
    rw [hfb, hnb, mul_one, mul_zero, dtlzSplit_corner near far hna hfa hnb hfb q f p, List.append_assoc, List.cons_append, ← List.replicate_succ']

/-- The problems DTLZ1 to DTLZ4: `F` is the shape of the front, `G` the distance from it. -/
theorem dtlz_points {m k : Nat} {c : ℝ} {F : List ℝ → ℝ → List ℝ} {G : List ℝ → ℝ} (hc : 0 < c) (hm : 2 ≤ m) (hF : ∀ xs g g', F xs g = F xs g')
    (h1 : ∀ xs g, xs.length = m - 1 → (∀ x ∈ xs, 0 ≤ x ∧ x ≤ 1) → (F xs g).length = m ∧ (∀ y ∈ F xs g, 0 ≤ y ∧ y ≤ c) ∧ ∃ y ∈ F xs g, 0 < y)
    (h2 : ∀ xs ys g, (∀ x ∈ xs, 0 ≤ x ∧ x ≤ 1) → (∀ x ∈ ys, 0 ≤ x ∧ x ≤ 1) → 0 ≤ g → ¬ Better ((F xs g).map (fun val => val * -(1 + g))) ((F ys 0).map (fun val => val * -(1 + 0))))
    (h3 : ∀ j < m, ∃ xs : List ℝ, xs.length = m - 1 ∧ (∀ x ∈ xs, 0 ≤ x ∧ x ≤ 1) ∧ F xs 0 = List.replicate j 0 ++ c :: List.replicate (m - 1 - j) 0)
    (hG : ∀ xs : List ℝ, 0 ≤ G xs) (h4 : G (List.replicate k 0.5) = 0) {opt val : List ℝ} (hopt : opt.length = m - 1 + k) :
    IdealRight (InBounds (uniformBenchmark 0 1 opt val (fun v => dtlz F G v m))) (fun v => dtlz F G v m) (List.replicate m 0) ∧
      NadirRight (InBounds (uniformBenchmark 0 1 opt val (fun v => dtlz F G v m))) (fun v => dtlz F G v m) (List.replicate m (-c)) := by
  set D := InBounds (uniformBenchmark 0 1 opt val (fun v => dtlz F G v m)) with hD
  have hdom : ∀ v, D v → (v.take (m - 1)).length = m - 1 ∧ (∀ x ∈ v.take (m - 1), 0 ≤ x ∧ x ≤ 1) := by
    intro v hv
    obtain ⟨hl, hv⟩ := inBounds_uniform.mp hv
    exact ⟨by rw [List.length_take]; omega, fun x hx => hv x (List.mem_of_mem_take hx)⟩
  have hfront : ∀ xs : List ℝ, xs.length = m - 1 → (∀ x ∈ xs, 0 ≤ x ∧ x ≤ 1) → D (xs ++ List.replicate k 0.5) ∧
      dtlz F G (xs ++ List.replicate k 0.5) m = (F xs 0).map (fun val => val * -(1 + 0)) := by
    intro xs hl hx
    refine ⟨inBounds_uniform.mpr ⟨by rw [List.length_append, hl, List.length_replicate, hopt], fun x hx' => ?_⟩, ?_⟩
    · rcases List.mem_append.mp hx' with h | h
      · exact hx x h
      · rw [List.eq_of_mem_replicate h]; norm_num
    · unfold dtlz
      dsimp only
      rw [List.take_left' hl, List.drop_left' hl, h4]
  have hpo : ∀ xs : List ℝ, xs.length = m - 1 → (∀ x ∈ xs, 0 ≤ x ∧ x ≤ 1) → ParetoOptimal D (fun v => dtlz F G v m) (xs ++ List.replicate k 0.5) := by
    intro xs hl hx
    obtain ⟨e1, e2⟩ := hfront xs hl hx
    refine ⟨e1, fun y hy hb => ?_⟩
    dsimp only at hb
    rw [e2] at hb
    exact h2 _ _ _ (hdom y hy).2 hx (hG _) hb
  have hget : ∀ (v : List ℝ) (i : Nat) (a : ℝ), (dtlz F G v m)[i]? = some a → ∃ y ∈ F (v.take (m - 1)) (G (v.drop (m - 1))), a = y * -(1 + G (v.drop (m - 1))) := by
    intro v i a h
    have h := List.mem_of_getElem? h
    unfold dtlz at h
    dsimp only at h
    obtain ⟨y, hy, rfl⟩ := List.mem_map.mp h
    exact ⟨y, hy, rfl⟩
  have hlen : ∀ v, D v → (dtlz F G v m).length = m := by
    intro v hv
    unfold dtlz
    dsimp only
    rw [List.length_map]
    exact (h1 _ _ (hdom v hv).1 (hdom v hv).2).1
  have hcorner : ∀ j < m, ∃ x, ParetoOptimal D (fun v => dtlz F G v m) x ∧ (dtlz F G x m) = (List.replicate j 0 ++ c :: List.replicate (m - 1 - j) 0).map (fun val => val * -(1 + 0)) := by
    intro j hj
    obtain ⟨xs, hl, hx, e⟩ := h3 j hj
    exact ⟨_, hpo xs hl hx, by rw [(hfront xs hl hx).2, e]⟩
  refine ⟨⟨fun x hx => ⟨by rw [List.length_replicate]; exact hlen x hx, fun i a b ha hb => ?_⟩, fun i b hb => ?_⟩, ⟨fun x hx => ⟨by rw [List.length_replicate]; exact hlen x hx.1, fun i a b ha hb => ?_⟩, fun i b hb => ?_⟩⟩
  · obtain ⟨y, hy, rfl⟩ := hget x i a ha
    rw [List.eq_of_mem_replicate (List.mem_of_getElem? hb)]
    have := ((h1 _ _ (hdom x hx).1 (hdom x hx).2).2.1 y hy).1
    have := hG (x.drop (m - 1))
    nlinarith
  · have hi : i < m := by
      have := (List.getElem?_eq_some_iff.mp hb).1
      rwa [List.length_replicate] at this
    rw [List.eq_of_mem_replicate (List.mem_of_getElem? hb)]
    obtain ⟨x, hx, e⟩ := hcorner (if i = 0 then 1 else 0) (by split <;> omega)
    refine ⟨x, hx, ?_⟩
    dsimp only
    rw [e, List.getElem?_map]
    split
    · rename_i h0
      subst h0
      simp
    · rename_i h0
      obtain ⟨i, rfl⟩ := Nat.exists_eq_succ_of_ne_zero h0
      rw [List.replicate_zero, List.nil_append, Nat.succ_eq_add_one, List.getElem?_cons_succ, List.getElem?_replicate, if_pos (by omega)]
      simp
  · obtain ⟨y, hy, rfl⟩ := hget x i a ha
    rw [List.eq_of_mem_replicate (List.mem_of_getElem? hb)]
    obtain ⟨d1, d2⟩ := hdom x hx.1
    obtain ⟨f1, f2, z, hz, hz0⟩ := h1 _ (G (x.drop (m - 1))) d1 d2
    have hy' := f2 y hy
    have hg0 := hG (x.drop (m - 1))
    rcases hg0.eq_or_lt with h | h
    · rw [← h]
      linarith
    · exfalso
      obtain ⟨e1, e2⟩ := hfront _ d1 d2
      refine hx.2 _ e1 ?_
      dsimp only
      rw [e2]
      unfold dtlz
      dsimp only
      rw [hF (x.take (m - 1)) 0 (G (x.drop (m - 1)))]
      generalize G (x.drop (m - 1)) = g at *
      generalize F (x.take (m - 1)) g = l at *
      refine ⟨by simp, ?_, ?_⟩
      · intro i p q hp hq
        rw [List.getElem?_map, Option.map_eq_some_iff] at hp hq
        obtain ⟨w, hw, rfl⟩ := hp
        obtain ⟨w', hw', rfl⟩ := hq
        rw [hw] at hw'
        cases hw'
        have := (f2 w (List.mem_of_getElem? hw)).1
        nlinarith
      · obtain ⟨j, hj⟩ := List.getElem?_of_mem hz
        exact ⟨j, z * -(1 + 0), z * -(1 + g), by rw [List.getElem?_map, hj]; rfl, by rw [List.getElem?_map, hj]; rfl, by nlinarith⟩
  · have hi : i < m := by
      have := (List.getElem?_eq_some_iff.mp hb).1
      rwa [List.length_replicate] at this
    rw [List.eq_of_mem_replicate (List.mem_of_getElem? hb)]
    obtain ⟨x, hx, e⟩ := hcorner i hi
    refine ⟨x, hx, ?_⟩
    dsimp only
    rw [e, List.getElem?_map, List.getElem?_append_right (by simp), List.length_replicate, Nat.sub_self, List.getElem?_cons_zero]
    simp

/-- C67: DTLZ1. -/
theorem C67_dtlz1 (m : Nat) (hm : 2 ≤ m) : IdealRight (InBounds (dtlz1B m)) (fun v => dtlz1 v m) (dtlz1P m).ideal ∧ NadirRight (InBounds (dtlz1B m)) (fun v => dtlz1 v m) (dtlz1P m).nadir := by
  have hr : ∀ xs : List ℝ, (∀ x ∈ xs, 0 ≤ x ∧ x ≤ 1) → ∀ y ∈ dtlzSplit (fun x => 1 - x) (fun x => x) 0.5 xs, 0 ≤ y ∧ y ≤ 0.5 := by
    intro xs hx y hy
    exact ⟨dtlzSplit_nonneg _ _ _ (fun x hx' => ⟨by linarith [(hx x hx').2], (hx x hx').1⟩) _ (by norm_num) y hy,
      dtlzSplit_le _ _ _ (fun x hx' => ⟨by linarith [(hx x hx').1], (hx x hx').1, (hx x hx').2⟩) _ (by norm_num) y hy⟩
  refine dtlz_points (F := dtlz1F) (G := dtlz1G) (k := 5) (c := 0.5) (by norm_num) hm (fun _ _ _ => rfl) ?_ ?_ ?_ dtlz1G_nonneg (dtlz1G_half 5) (by simp)
  · intro xs g hl hx
    refine ⟨by unfold dtlz1F; rw [dtlzSplit_length]; omega, hr xs hx, ?_⟩
    by_contra hno
    push Not at hno
    have hs : (dtlz1F xs g).sum = 0.5 := dtlzSplit_sum _ _ (fun x => by ring) _ _
    have h0 := map_sum_congr_zero (fun y => y) (dtlz1F xs g) (fun y hy => le_antisymm (hno y hy) (hr xs hx y hy).1)
    rw [List.map_id', hs] at h0
    norm_num at h0
  · intro xs ys g hx hy hg hb
    have h := better_sum (fun x => -x) (fun _ => True) (fun x y _ _ h => by linarith) (fun x y _ _ h => by linarith) _ _
      (fun _ _ => trivial) (fun _ _ => trivial) hb
    have e : ∀ g : ℝ, ((fun x : ℝ => -x) ∘ fun val => val * -(1 + g)) = fun y => (1 + g) * y := by
      intro g; funext y; simp only [Function.comp]; ring
    rw [List.map_map, List.map_map, e, e, List.sum_map_mul_left, List.sum_map_mul_left, List.map_id', List.map_id',
      show (dtlz1F xs g).sum = 0.5 from dtlzSplit_sum _ _ (fun x => by ring) _ _, show (dtlz1F ys 0).sum = 0.5 from dtlzSplit_sum _ _ (fun x => by ring) _ _] at h
    linarith
  · intro j hj
    refine ⟨List.replicate (m - 1 - j) 1 ++ List.replicate j 0, by simp; omega, ?_, dtlzSplit_corner _ _ (by norm_num) rfl (by norm_num) rfl _ _ _⟩
    intro x hx
    rcases List.mem_append.mp hx with h | h <;> rw [List.eq_of_mem_replicate h] <;> norm_num

theorem dtlz2_points {m k : Nat} (hm : 2 ≤ m) {θ : ℝ → ℝ} (hθ : ∀ x, 0 ≤ x → x ≤ 1 → 0 ≤ θ x ∧ θ x ≤ 1) (h0 : θ 0 = 0) (h1 : θ 1 = 1) {F : List ℝ → ℝ → List ℝ}
    (hF : ∀ xs g, F xs g = dtlzSplit (fun x => sin (θ x * π / 2)) (fun x => cos (θ x * π / 2)) 1 xs) {G : List ℝ → ℝ} (hG : ∀ xs : List ℝ, 0 ≤ G xs) (h4 : G (List.replicate k 0.5) = 0)
    {opt val : List ℝ} (hopt : opt.length = m - 1 + k) :
    IdealRight (InBounds (uniformBenchmark 0 1 opt val (fun v => dtlz F G v m))) (fun v => dtlz F G v m) (List.replicate m 0) ∧
      NadirRight (InBounds (uniformBenchmark 0 1 opt val (fun v => dtlz F G v m))) (fun v => dtlz F G v m) (List.replicate m (-1)) := by
  have hnn : ∀ xs g, (∀ x ∈ xs, 0 ≤ x ∧ x ≤ 1) → ∀ y ∈ F xs g, 0 ≤ y := by
    intro xs g hx y hy
    rw [hF] at hy
    refine dtlzSplit_nonneg _ _ _ (fun x hx' => ?_) _ zero_le_one y hy
    obtain ⟨a, b⟩ := hθ x (hx x hx').1 (hx x hx').2
    exact trig_range a b
  have hsq : ∀ xs g, ((F xs g).map (fun y => y ^ 2)).sum = 1 := by
    intro xs g
    rw [hF, dtlzSplit_sq _ _ (fun x => sin_cos_unit _), one_pow]
  refine dtlz_points one_pos hm (fun xs g g' => by rw [hF, hF]) ?_ ?_ ?_ hG h4 hopt
  · intro xs g hl hx
    refine ⟨by rw [hF, dtlzSplit_length]; omega, fun y hy => ⟨hnn xs g hx y hy, ?_⟩, ?_⟩
    · rw [hF] at hy
      refine dtlzSplit_le _ _ _ (fun x hx' => ?_) _ zero_le_one y hy
      obtain ⟨a, b⟩ := hθ x (hx x hx').1 (hx x hx').2
      exact ⟨sin_le_one _, (trig_range a b).2, cos_le_one _⟩
    · by_contra hno
      push Not at hno
      have e := hsq xs g
      rw [map_sum_congr_zero _ _ (fun y hy => by rw [le_antisymm (hno y hy) (hnn xs g hx y hy)]; norm_num)] at e
      norm_num at e
  · intro xs ys g hx hy hg
    refine sphere_not_better _ _ g hg (hnn xs g hx) ?_ (hsq xs g) ?_
    · intro x hx'
      obtain ⟨y, hy', rfl⟩ := List.mem_map.mp hx'
      have := hnn ys 0 hy y hy'
      linarith
    · rw [List.map_map]
      refine Eq.trans ?_ (hsq ys 0)
      congr 1
      apply List.map_congr_left
      intro y _
      simp
  · intro j hj
    refine ⟨List.replicate (m - 1 - j) 0 ++ List.replicate j 1, by simp; omega, ?_, ?_⟩
    · intro x hx
      rcases List.mem_append.mp hx with h | h <;> rw [List.eq_of_mem_replicate h] <;> norm_num
    · rw [hF]
      exact dtlzSplit_corner _ _ (by simp only [h1, one_mul, sin_pi_div_two]) (by simp only [h1, one_mul, cos_pi_div_two]) (by simp [h0]) (by simp [h0]) _ _ _

/-- C67: DTLZ2. -/
theorem C67_dtlz2 (m : Nat) (hm : 2 ≤ m) : IdealRight (InBounds (dtlz2B m)) (fun v => dtlz2 v m) (dtlz2P m).ideal ∧ NadirRight (InBounds (dtlz2B m)) (fun v => dtlz2 v m) (dtlz2P m).nadir :=
  dtlz2_points hm (θ := id) (fun _ h0 h1 => ⟨h0, h1⟩) rfl rfl (fun _ _ => rfl) dtlz2G_nonneg (dtlz2G_half 10) (by simp)

/-- C67: DTLZ3. -/
theorem C67_dtlz3 (m : Nat) (hm : 2 ≤ m) : IdealRight (InBounds (dtlz3B m)) (fun v => dtlz3 v m) (dtlz3P m).ideal ∧ NadirRight (InBounds (dtlz3B m)) (fun v => dtlz3 v m) (dtlz3P m).nadir :=
  dtlz2_points hm (θ := id) (fun _ h0 h1 => ⟨h0, h1⟩) rfl rfl (fun _ _ => rfl) dtlz1G_nonneg (dtlz1G_half 10) (by simp)

/-- C67: DTLZ4. -/
theorem C67_dtlz4 (m : Nat) (hm : 2 ≤ m) : IdealRight (InBounds (dtlz4B m)) (fun v => dtlz4 v m) (dtlz4P m).ideal ∧ NadirRight (InBounds (dtlz4B m)) (fun v => dtlz4 v m) (dtlz4P m).nadir :=
  dtlz2_points hm (θ := fun x => x ^ 100) (fun _ h0 h1 => ⟨pow_nonneg h0 _, pow_le_one₀ h0 h1⟩) (by norm_num) (by norm_num) (fun _ _ => rfl) dtlz2G_nonneg (dtlz2G_half 10) (by simp; omega)

end Gapp.Props
