import Verif.Props.BenchmarkFronts
import Mathlib.Topology.Algebra.Monoid
import Mathlib.Analysis.SpecialFunctions.Pow.Continuity
import Mathlib.Analysis.Convex.SpecificFunctions.Deriv
/-!
# C67: the ideal and nadir points of DTLZ5 and DTLZ6
-/

namespace Gapp.Props
open Gapp.Model Gapp.Spec Real

/-! ## Pareto-optimal points of continuous problems -/

/-- If the chromosomes are the image of a compact space on which the objectives are continuous, then for each chromosome there is a Pareto-optimal one that is at least as good. -/
theorem exists_pareto {X W : Type} [TopologicalSpace W] [CompactSpace W] {dom : X → Prop} {fit : X → List ℝ} {m : Nat} (e : W → X) (he : ∀ w, dom (e w)) (hs : ∀ x, dom x → ∃ w, e w = x)
    (hlen : ∀ x, dom x → (fit x).length = m) (hc : ∀ i, Continuous fun w => (fit (e w)).getD i 0) (q : X) (hq : dom q) :
    ∃ p, ParetoOptimal dom fit p ∧ ∀ (i : Nat) (a b : ℝ), (fit q)[i]? = some a → (fit p)[i]? = some b → a ≤ b := by
  have hcl : IsClosed {w | ∀ i, (fit q).getD i 0 ≤ (fit (e w)).getD i 0} := by
    rw [Set.setOf_forall]
    exact isClosed_iInter fun i => isClosed_le continuous_const (hc i)
  obtain ⟨wq, hwq⟩ := hs q hq
  obtain ⟨w, hw, hmax⟩ := hcl.isCompact.exists_isMaxOn (f := fun w => ((List.range m).map (fun i => (fit (e w)).getD i 0)).sum) ⟨wq, fun i => by rw [hwq]⟩
    (continuous_list_sum _ fun i _ => hc i).continuousOn
  refine ⟨e w, ⟨he w, fun y hy hb => ?_⟩, fun i a b ha hb => ?_⟩
  · obtain ⟨wy, rfl⟩ := hs y hy
    obtain ⟨hl, hall, j, x, z, hx, hz, hlt⟩ := hb
    have hle : ∀ i, (fit (e w)).getD i 0 ≤ (fit (e wy)).getD i 0 := by
      intro i
      rw [List.getD_eq_getElem?_getD, List.getD_eq_getElem?_getD]
      by_cases hi : i < m
      · have h1 := List.getElem?_eq_getElem (l := fit (e w)) (i := i) (by rw [hlen _ (he w)]; exact hi)
        have h2 := List.getElem?_eq_getElem (l := fit (e wy)) (i := i) (by rw [hlen _ hy]; exact hi)
        rw [h1, h2]
        exact hall i _ _ h2 h1
      · rw [List.getElem?_eq_none (by rw [hlen _ (he w)]; omega), List.getElem?_eq_none (by rw [hlen _ hy]; omega)]
    have hmem : wy ∈ {w | ∀ i, (fit q).getD i 0 ≤ (fit (e w)).getD i 0} := fun i => (hw i).trans (hle i)
    have h1 := hmax hmem
    have h1 : ((List.range m).map (fun i => (fit (e wy)).getD i 0)).sum ≤ ((List.range m).map (fun i => (fit (e w)).getD i 0)).sum := h1
    have hj : j < m := by
      have := (List.getElem?_eq_some_iff.mp hx).1
      rwa [hlen _ hy] at this
    have h2 : ((List.range m).map (fun i => (fit (e w)).getD i 0)).sum < ((List.range m).map (fun i => (fit (e wy)).getD i 0)).sum := by
      refine List.sum_lt_sum _ _ (fun i _ => hle i) ⟨j, List.mem_range.mpr hj, ?_⟩
      rw [List.getD_eq_getElem?_getD, List.getD_eq_getElem?_getD, hx, hz]
      exact hlt
    linarith
  · have := hw i
    rw [List.getD_eq_getElem?_getD, List.getD_eq_getElem?_getD, ha, hb] at this
    exact this

theorem getD_snoc (l : List ℝ) (a : ℝ) (k : Nat) : (l ++ [a]).getD k 0 = if k < l.length then l.getD k 0 else if k = l.length then a else 0 := by
  rw [List.getD_eq_getElem?_getD, List.getD_eq_getElem?_getD]
  rcases Nat.lt_trichotomy k l.length with hk | hk | hk
  · rw [List.getElem?_append_left hk, if_pos hk]
  · rw [List.getElem?_append_right (by omega), hk, Nat.sub_self, if_neg (by omega), if_pos rfl]
    rfl
  · rw [List.getElem?_eq_none (by simp; omega), if_neg (by omega), if_neg (by omega)]
    rfl

/-- The loop of the DTLZ problems is continuous. -/
theorem continuous_split {W ι : Type} [TopologicalSpace W] (near far : W → ℝ → ℝ) (x : W → ι → ℝ) : ∀ (l : List ι) (f : W → ℝ), Continuous f →
    (∀ i ∈ l, Continuous fun w => near w (x w i)) → (∀ i ∈ l, Continuous fun w => far w (x w i)) → ∀ k, Continuous fun w => (dtlzSplit (near w) (far w) (f w) (l.map (x w))).getD k 0
  | [], f, hf, _, _, k => by
    match k with
    | 0 => exact hf
    | k + 1 => exact continuous_const
  | i :: l, f, hf, hn, hfar, k => by
    have ih := continuous_split near far x l (fun w => f w * far w (x w i)) (hf.mul (hfar i (List.mem_cons_self ..)))
      (fun j hj => hn j (List.mem_cons_of_mem _ hj)) (fun j hj => hfar j (List.mem_cons_of_mem _ hj)) k
    have hlen : ∀ w, (dtlzSplit (near w) (far w) (f w * far w (x w i)) (l.map (x w))).length = l.length + 1 := fun w => by
      rw [dtlzSplit_length, List.length_map]
    simp only [List.map_cons]
    unfold dtlzSplit
    rcases Nat.lt_trichotomy k (l.length + 1) with hk | hk | hk
    · have : ∀ w, (dtlzSplit (near w) (far w) (f w * far w (x w i)) (l.map (x w)) ++ [f w * near w (x w i)]).getD k 0 =
          (dtlzSplit (near w) (far w) (f w * far w (x w i)) (l.map (x w))).getD k 0 := fun w => by
        rw [getD_snoc, hlen, if_pos hk]
      simp only [this]
      exact ih
    · have : ∀ w, (dtlzSplit (near w) (far w) (f w * far w (x w i)) (l.map (x w)) ++ [f w * near w (x w i)]).getD k 0 = f w * near w (x w i) := fun w => by
        rw [getD_snoc, hlen, if_neg (by omega), if_pos hk]
      simp only [this]
      exact hf.mul (hn i (List.mem_cons_self ..))
    · have : ∀ w, (dtlzSplit (near w) (far w) (f w * far w (x w i)) (l.map (x w)) ++ [f w * near w (x w i)]).getD k 0 = 0 := fun w => by
        rw [getD_snoc, hlen, if_neg (by omega), if_neg (by omega)]
      simp only [this]
      exact continuous_const

/-- The chromosomes with variables between 0 and 1 are the image of a compact space. -/
theorem box_lists {N : Nat} {opt val : List ℝ} {f : List ℝ → List ℝ} (hN : opt.length = N) :
    (∀ w : Set.Icc (0 : Fin N → ℝ) 1, InBounds (uniformBenchmark 0 1 opt val f) ((List.finRange N).map (fun i => w.1 i))) ∧
      ∀ v, InBounds (uniformBenchmark 0 1 opt val f) v → ∃ w : Set.Icc (0 : Fin N → ℝ) 1, (List.finRange N).map (fun i => w.1 i) = v := by
  constructor
  · intro w
    refine inBounds_uniform.mpr ⟨by simp [hN], fun x hx => ?_⟩
    obtain ⟨i, _, rfl⟩ := List.mem_map.mp hx
    exact ⟨w.2.1 i, w.2.2 i⟩
  · intro v hv
    obtain ⟨hl, hv⟩ := inBounds_uniform.mp hv
    have hl : v.length = N := hl.trans hN
    subst hl
    refine ⟨⟨fun i => v[i], fun i => (hv _ (List.getElem_mem i.2)).1, fun i => (hv _ (List.getElem_mem i.2)).2⟩, ?_⟩
    apply List.ext_getElem
    · simp
    · intro i h1 h2
      simp

/-! ## DTLZ5 and DTLZ6 -/

/-- What DTLZ5 and DTLZ6 have in common: `G` is not negative and continuous, and it is zero and one for some variables. -/
structure Dtlz5Like (m k : Nat) (G : List ℝ → ℝ) (opt : List ℝ) (t0 t1 : List ℝ) : Prop where
  hm : 2 ≤ m
  hopt : opt.length = m - 1 + k
  nonneg : ∀ xs : List ℝ, (∀ x ∈ xs, 0 ≤ x) → 0 ≤ G xs
  cont : ∀ {W ι : Type} [TopologicalSpace W] (l : List ι) (x : W → ι → ℝ), (∀ i, Continuous fun w => x w i) → Continuous fun w => G (l.map (x w))
  len0 : t0.length = k
  box0 : ∀ x ∈ t0, 0 ≤ x ∧ x ≤ 1
  g0 : G t0 = 0
  len1 : t1.length = k
  box1 : ∀ x ∈ t1, 0 ≤ x ∧ x ≤ 1
  g1 : G t1 = 1

theorem dtlz5Like : ∀ m, 2 ≤ m → Dtlz5Like m 10 dtlz2G (dtlz5B m).optimum (List.replicate 10 0.5) (List.replicate 4 0 ++ List.replicate 6 0.5) := by
  intro m hm
  refine ⟨hm, ?_, fun xs _ => dtlz2G_nonneg xs, ?_, by simp, ?_, dtlz2G_half 10, by simp, ?_, ?_⟩
  · show (List.replicate (m - 1) (0 : ℝ) ++ List.replicate 10 0.5).length = _
    simp
  · intro W ι _ l x hx
    unfold dtlz2G
    simp only [foldl_add_sum (fun x : ℝ => (x - 0.5) ^ 2), List.map_map]
    exact continuous_const.add (continuous_list_sum _ fun i _ => by simp only [Function.comp]; exact ((hx i).sub continuous_const).pow 2)
  · intro x hx
    rw [List.eq_of_mem_replicate hx]; norm_num
  · intro x hx
    rcases List.mem_append.mp hx with h | h <;> rw [List.eq_of_mem_replicate h] <;> norm_num
  · unfold dtlz2G
    norm_num [List.replicate]

theorem dtlz6Like : ∀ m, 2 ≤ m → Dtlz5Like m 10 dtlz6G (dtlz6B m).optimum (List.replicate 10 0) (1 :: List.replicate 9 0) := by
  intro m hm
  refine ⟨hm, ?_, dtlz6G_nonneg, ?_, by simp, ?_, dtlz6G_zero 10, by simp, ?_, ?_⟩
  · show (List.replicate (m + 10 - 1) (0 : ℝ)).length = _
    rw [List.length_replicate]
    omega
  · intro W ι _ l x hx
    unfold dtlz6G
    simp only [foldl_add_sum (fun x : ℝ => x ^ (0.1 : ℝ)), List.map_map]
    exact continuous_const.add (continuous_list_sum _ fun i _ => by
      simp only [Function.comp]
      exact (Real.continuous_rpow_const (by norm_num)).comp (hx i))
  · intro x hx
    rw [List.eq_of_mem_replicate hx]; norm_num
  · intro x hx
    rcases List.mem_cons.mp hx with h | h
    · rw [h]; norm_num
    · rw [List.eq_of_mem_replicate h]; norm_num
  · have hz : (0 : ℝ) ^ (0.1 : ℝ) = 0 := zero_rpow (by norm_num)
    unfold dtlz6G
    simp only [List.replicate, List.foldl_cons, List.foldl_nil, hz, one_rpow]
    norm_num

section
variable {m k : Nat} {G : List ℝ → ℝ} {opt t0 t1 val : List ℝ}

theorem dtlz5F_length (xs : List ℝ) (g : ℝ) (h : xs ≠ []) : (dtlz5F xs g).length = xs.length + 1 := by
  unfold dtlz5F
  rw [List.length_append, dtlzSplit_length, List.length_tail]
  have := List.length_pos_iff.mpr h
  simp
  omega

/-- The chromosomes with a given distance from the front. -/
theorem dtlz5_at (h : Dtlz5Like m k G opt t0 t1) {xs t : List ℝ} (hl : xs.length = m - 1) (hx : ∀ x ∈ xs, 0 ≤ x ∧ x ≤ 1) (tl : t.length = k) (tx : ∀ x ∈ t, 0 ≤ x ∧ x ≤ 1) :
    InBounds (uniformBenchmark 0 1 opt val (fun v => dtlz dtlz5F G v m)) (xs ++ t) ∧ dtlz dtlz5F G (xs ++ t) m = (dtlz5F xs (G t)).map (fun val => val * -(1 + G t)) := by
  refine ⟨inBounds_uniform.mpr ⟨by rw [List.length_append, hl, tl, h.hopt], fun x hx' => ?_⟩, ?_⟩
  · rcases List.mem_append.mp hx' with h | h
    · exact hx x h
    · exact tx x h
  · unfold dtlz
    dsimp only
    rw [List.take_left' hl, List.drop_left' hl]

theorem dtlz5_split (h : Dtlz5Like m k G opt t0 t1) {v : List ℝ} (hv : InBounds (uniformBenchmark 0 1 opt val (fun v => dtlz dtlz5F G v m)) v) :
    (v.take (m - 1)).length = m - 1 ∧ (∀ x ∈ v.take (m - 1), 0 ≤ x ∧ x ≤ 1) ∧ 0 ≤ G (v.drop (m - 1)) ∧ v.take (m - 1) ≠ [] := by
  obtain ⟨hl, hv⟩ := inBounds_uniform.mp hv
  have hm := h.hm
  have hl := hl.trans h.hopt
  have : (v.take (m - 1)).length = m - 1 := by rw [List.length_take]; omega
  exact ⟨this, fun x hx => hv x (List.mem_of_mem_take hx), h.nonneg _ (fun x hx => (hv x (List.mem_of_mem_drop hx)).1), List.ne_nil_of_length_pos (by omega)⟩

theorem dtlz5_pareto (h : Dtlz5Like m k G opt t0 t1) {xs : List ℝ} (hl : xs.length = m - 1) (hx : ∀ x ∈ xs, 0 ≤ x ∧ x ≤ 1) :
    ParetoOptimal (InBounds (uniformBenchmark 0 1 opt val (fun v => dtlz dtlz5F G v m))) (fun v => dtlz dtlz5F G v m) (xs ++ t0) := by
  obtain ⟨e1, e2⟩ := dtlz5_at (val := val) h hl hx h.len0 h.box0
  have hm := h.hm
  refine ⟨e1, fun y hy hb => ?_⟩
  dsimp only at hb
  rw [e2, h.g0] at hb
  obtain ⟨d1, d2, d3, d4⟩ := dtlz5_split h hy
  refine sphere_not_better _ _ (G (y.drop (m - 1))) d3 (dtlz5F_nonneg _ _ d3 d2 d4) ?_ (dtlz5F_sq _ _) ?_ hb
  · intro x hx'
    obtain ⟨z, hz, rfl⟩ := List.mem_map.mp hx'
    have := dtlz5F_nonneg _ _ le_rfl hx (List.ne_nil_of_length_pos (by omega)) z hz
    linarith
  · rw [List.map_map]
    refine Eq.trans ?_ (dtlz5F_sq xs 0)
    congr 1
    apply List.map_congr_left
    intro y _
    simp

theorem dtlz5_length (h : Dtlz5Like m k G opt t0 t1) {v : List ℝ} (hv : InBounds (uniformBenchmark 0 1 opt val (fun v => dtlz dtlz5F G v m)) v) : (dtlz dtlz5F G v m).length = m := by
  obtain ⟨d1, d2, d3, d4⟩ := dtlz5_split h hv
  have hm := h.hm
  unfold dtlz
  dsimp only
  rw [List.length_map, dtlz5F_length _ _ d4, d1]
  omega

theorem dtlzSplit_zero (near far : ℝ → ℝ) : ∀ xs : List ℝ, dtlzSplit near far 0 xs = List.replicate (xs.length + 1) 0
  | [] => rfl
  | x :: xs => by
    unfold dtlzSplit
    rw [zero_mul, zero_mul, dtlzSplit_zero near far xs, ← List.replicate_succ', List.length_cons]

theorem dtlz5_ideal (h : Dtlz5Like m k G opt t0 t1) :
    IdealRight (InBounds (uniformBenchmark 0 1 opt val (fun v => dtlz dtlz5F G v m))) (fun v => dtlz dtlz5F G v m) (List.replicate m 0) := by
  have hm := h.hm
  refine ⟨fun x hx => ⟨by rw [List.length_replicate]; exact dtlz5_length h hx, fun i a b ha hb => ?_⟩, fun i b hb => ?_⟩
  · obtain ⟨d1, d2, d3, d4⟩ := dtlz5_split h hx
    have ha := List.mem_of_getElem? ha
    unfold dtlz at ha
    dsimp only at ha
    obtain ⟨y, hy, rfl⟩ := List.mem_map.mp ha
    rw [List.eq_of_mem_replicate (List.mem_of_getElem? hb)]
    have := dtlz5F_nonneg _ _ d3 d2 d4 y hy
    nlinarith
  · have hi : i < m := by
      have := (List.getElem?_eq_some_iff.mp hb).1
      rwa [List.length_replicate] at this
    rw [List.eq_of_mem_replicate (List.mem_of_getElem? hb)]
    by_cases hi' : i < m - 1
    · have hl : (List.replicate (m - 1) (1 : ℝ)).length = m - 1 := by simp
      have hx : ∀ x ∈ List.replicate (m - 1) (1 : ℝ), 0 ≤ x ∧ x ≤ 1 := fun x hx => by rw [List.eq_of_mem_replicate hx]; norm_num
      refine ⟨_, dtlz5_pareto h hl hx, ?_⟩
      dsimp only
      rw [(dtlz5_at (val := val) h hl hx h.len0 h.box0).2, h.g0, List.getElem?_map]
      unfold dtlz5F
      have e0 : (List.replicate (m - 1) (1 : ℝ)).getD 0 0 = 1 := hx _ (getD_mem' (by rw [hl]; omega)) |> fun _ => List.eq_of_mem_replicate (getD_mem' (by rw [hl]; omega))
      dsimp only
      rw [e0, one_mul, cos_pi_div_two, dtlzSplit_zero, List.getElem?_append_left (by simp; omega), List.getElem?_replicate, if_pos (by simp; omega)]
      simp
    · have hl : (List.replicate (m - 1) (0 : ℝ)).length = m - 1 := by simp
      have hx : ∀ x ∈ List.replicate (m - 1) (0 : ℝ), 0 ≤ x ∧ x ≤ 1 := fun x hx => by rw [List.eq_of_mem_replicate hx]; norm_num
      refine ⟨_, dtlz5_pareto h hl hx, ?_⟩
      dsimp only
      rw [(dtlz5_at (val := val) h hl hx h.len0 h.box0).2, h.g0, List.getElem?_map]
      unfold dtlz5F
      dsimp only
      rw [getD_replicate_zero, zero_mul, zero_div, sin_zero, List.getElem?_append_right (by rw [dtlzSplit_length]; simp; omega)]
      rw [show i - (dtlzSplit _ _ _ (List.replicate (m - 1) (0 : ℝ)).tail).length = 0 by rw [dtlzSplit_length]; simp; omega]
      simp

theorem dtlz5_continuous (h : Dtlz5Like m k G opt t0 t1) (i : Nat) :
    Continuous fun w : Set.Icc (0 : Fin (m - 1 + k) → ℝ) 1 => (dtlz dtlz5F G ((List.finRange (m - 1 + k)).map (fun j => w.1 j)) m).getD i 0 := by
  set W := Set.Icc (0 : Fin (m - 1 + k) → ℝ) 1
  have hm := h.hm
  have hx : ∀ j, Continuous fun w : W => w.1 j := fun j => (continuous_apply j).comp continuous_subtype_val
  unfold dtlz
  dsimp only
  simp only [← List.map_take, ← List.map_drop]
  have hg : Continuous fun w : W => G (((List.finRange (m - 1 + k)).drop (m - 1)).map (fun j => w.1 j)) := h.cont _ (fun (w : W) j => w.1 j) hx
  have hg0 : ∀ w : W, 0 ≤ G (((List.finRange (m - 1 + k)).drop (m - 1)).map (fun j => w.1 j)) := fun w => h.nonneg _ fun x hx => by
    obtain ⟨j, _, rfl⟩ := List.mem_map.mp hx
    exact w.2.1 j
  have hne : (List.finRange (m - 1 + k)).take (m - 1) ≠ [] := List.ne_nil_of_length_pos (by rw [List.length_take, List.length_finRange]; omega)
  have hmap : ∀ (l : List ℝ) (c : ℝ), (l.map (fun val => val * c)).getD i 0 = l.getD i 0 * c := by
    intro l c
    rw [List.getD_eq_getElem?_getD, List.getD_eq_getElem?_getD, List.getElem?_map]
    cases l[i]? with
    | none => simp
    | some a => rfl
  simp only [hmap]
  refine Continuous.mul ?_ (continuous_const.add hg).neg
  obtain ⟨j0, l, hl⟩ : ∃ j0 l, (List.finRange (m - 1 + k)).take (m - 1) = j0 :: l := List.exists_cons_of_ne_nil hne
  rw [hl]
  unfold dtlz5F
  simp only [List.map_cons, List.tail_cons, getD_snoc, dtlzSplit_length, List.length_map, List.getD_cons_zero]
  have hth : ∀ j, Continuous fun w : W => (G (((List.finRange (m - 1 + k)).drop (m - 1)).map (fun j => w.1 j)) * w.1 j + 0.5) /
      (1 + G (((List.finRange (m - 1 + k)).drop (m - 1)).map (fun j => w.1 j))) * π / 2 := by
    intro j
    refine Continuous.div_const (Continuous.mul_const (Continuous.div ((hg.mul (hx j)).add continuous_const) (continuous_const.add hg) fun w => ?_) _) _
    have h1 : 0 < 1 + G (((List.finRange (m - 1 + k)).drop (m - 1)).map (fun j => w.1 j)) := by linarith [hg0 w]
    exact h1.ne'
  have h0 : Continuous fun w : W => w.1 j0 * π / 2 := ((hx j0).mul_const _).div_const _
  split
  · exact continuous_split (fun (w : W) x => sin ((G (((List.finRange (m - 1 + k)).drop (m - 1)).map (fun j => w.1 j)) * x + 0.5) /
        (1 + G (((List.finRange (m - 1 + k)).drop (m - 1)).map (fun j => w.1 j))) * π / 2))
      (fun (w : W) x => cos ((G (((List.finRange (m - 1 + k)).drop (m - 1)).map (fun j => w.1 j)) * x + 0.5) /
        (1 + G (((List.finRange (m - 1 + k)).drop (m - 1)).map (fun j => w.1 j))) * π / 2))
      (fun w j => w.1 j) l (fun w => cos (w.1 j0 * π / 2)) (continuous_cos.comp h0) (fun j _ => continuous_sin.comp (hth j)) (fun j _ => continuous_cos.comp (hth j)) i
  · split
    · exact continuous_sin.comp h0
    · exact continuous_const

theorem dtlz5Nadir_get {i : Nat} (hi : i < m - 1) : (dtlz5Value m)[i]? = (dtlz5Nadir m)[i]? := by
  unfold dtlz5Value dtlz5Nadir
  dsimp only
  rw [List.getElem?_set_ne (by omega)]

theorem dtlz5Nadir_length : (dtlz5Nadir m).length = m := by
  unfold dtlz5Nadir
  simp

theorem dtlz5Value_last (hm : 2 ≤ m) : (dtlz5Value m)[m - 1]? = some 0 := by
  unfold dtlz5Value
  dsimp only
  rw [List.getElem?_set_self (by simp; omega)]

theorem dtlz5Nadir_third (hm : 4 ≤ m) : (dtlz5Nadir m)[m - 3]? = some (-1 / 2) := by
  unfold dtlz5Nadir
  dsimp only
  rw [List.getElem?_set_ne (by omega), List.getElem?_map, List.getElem?_range (by omega)]
  rw [Option.map_some, show m - 1 - (m - 3) = 2 by omega, Real.sq_sqrt (by norm_num)]

/-- For four or more objectives, the nadir point of DTLZ5 and DTLZ6 is not a bound. -/
theorem dtlz5_nadir_wrong (h : Dtlz5Like m k G opt t0 t1) (hm4 : 4 ≤ m) (hval : ∀ v, InBounds (uniformBenchmark 0 1 opt val (fun v => dtlz dtlz5F G v m)) v → ¬ Better (dtlz dtlz5F G v m) (dtlz5Value m)) :
    ∃ (x : List ℝ) (i : Nat) (a b : ℝ), ParetoOptimal (InBounds (uniformBenchmark 0 1 opt val (fun v => dtlz dtlz5F G v m))) (fun v => dtlz dtlz5F G v m) x ∧ (dtlz dtlz5F G x m)[i]? = some a ∧
      (dtlz5Nadir m)[i]? = some b ∧ a < b := by
  have hm := h.hm
  obtain ⟨r, rfl⟩ : ∃ r, m = r + 4 := ⟨m - 4, by omega⟩
  have hl : ((0 : ℝ) :: 1 :: 0 :: List.replicate r 0).length = r + 4 - 1 := by simp
  have hx : ∀ x ∈ (0 : ℝ) :: 1 :: 0 :: List.replicate r 0, 0 ≤ x ∧ x ≤ 1 := by
    intro x hx
    rcases List.mem_cons.mp hx with rfl | hx
    · norm_num
    · rcases List.mem_cons.mp hx with rfl | hx
      · norm_num
      · rcases List.mem_cons.mp hx with rfl | hx
        · norm_num
        · rw [List.eq_of_mem_replicate hx]; norm_num
  obtain ⟨q1, q2⟩ := dtlz5_at (val := val) h hl hx h.len1 h.box1
  obtain ⟨b1, b2⟩ := box_lists (opt := opt) (val := val) (f := fun v => dtlz dtlz5F G v (r + 4)) h.hopt
  obtain ⟨p, hp, hge⟩ := exists_pareto _ b1 b2 (fun x hx => dtlz5_length h hx) (dtlz5_continuous h) _ q1
  rw [q2, h.g1] at hge
  have hlp := dtlz5_length h hp.1
  refine Classical.byContradiction fun hno => hval p hp.1 ?_
  push Not at hno
  have hge' : ∀ (i : Nat) (a b : ℝ), (dtlz dtlz5F G p (r + 4))[i]? = some a → (dtlz5Nadir (r + 4))[i]? = some b → b ≤ a := fun i a b ha hb => hno p i a b hp ha hb
  have s8 : sin ((1 * 0 + 0.5) / (1 + 1) * π / 2) = sin (π / 8) := by congr 1; ring
  have c8 : cos ((1 * 1 + 0.5) / (1 + 1) * π / 2) = sin (π / 8) := by
    rw [show (1 * 1 + 0.5) / (1 + 1) * π / 2 = π / 2 - π / 8 by ring, cos_pi_div_two_sub]
  have hq3 : ((dtlz5F (0 :: 1 :: 0 :: List.replicate r 0) 1).map (fun val => val * -(1 + 1)))[r + 1]? = some (sin (π / 8) * sin (π / 8) * -(1 + 1)) := by
    rw [List.getElem?_map]
    unfold dtlz5F
    simp only [List.tail_cons, List.getD_cons_zero, zero_mul, zero_div, cos_zero, sin_zero]
    unfold dtlzSplit
    unfold dtlzSplit
    rw [List.getElem?_append_left (by simp [dtlzSplit_length]), List.getElem?_append_left (by simp [dtlzSplit_length]), List.getElem?_append_right (by simp [dtlzSplit_length])]
    simp only [dtlzSplit_length, List.length_replicate, Nat.sub_self, List.getElem?_cons_zero, Option.map_some]
    rw [s8, c8, one_mul]
  have hq4 : ((dtlz5F (0 :: 1 :: 0 :: List.replicate r 0) 1).map (fun val => val * -(1 + 1)))[r + 3]? = some 0 := by
    rw [List.getElem?_map]
    unfold dtlz5F
    simp only [List.tail_cons, List.getD_cons_zero, zero_mul, zero_div, cos_zero, sin_zero]
    rw [List.getElem?_append_right (by simp [dtlzSplit_length])]
    simp [dtlzSplit_length]
  have hsin : sin (π / 8) * sin (π / 8) * -(1 + 1) > -1 / 2 := by
    have e := cos_two_mul' (π / 8)
    rw [show 2 * (π / 8) = π / 4 by ring, cos_pi_div_four] at e
    have e2 := sin_sq_add_cos_sq (π / 8)
    have : (1 : ℝ) < √2 := by rw [Real.lt_sqrt (by norm_num)]; norm_num
    nlinarith
  have hvl : (dtlz5Value (r + 4)).length = r + 4 := by unfold dtlz5Value; simp
  refine ⟨by rw [hlp, hvl], fun i a b ha hb => ?_, ?_⟩
  · have hi : i < r + 4 := by
      have := (List.getElem?_eq_some_iff.mp hb).1
      rwa [hvl] at this
    by_cases hi' : i < r + 4 - 1
    · rw [dtlz5Nadir_get hi'] at hb
      exact hge' i a b ha hb
    · have : i = r + 3 := by omega
      subst this
      have e := dtlz5Value_last (m := r + 4) (by omega)
      rw [show r + 4 - 1 = r + 3 by omega, hb] at e
      cases e
      exact hge (r + 3) 0 a hq4 ha
  · obtain ⟨a, ha⟩ : ∃ a, (dtlz dtlz5F G p (r + 4))[r + 1]? = some a := ⟨_, List.getElem?_eq_getElem (by rw [hlp]; omega)⟩
    have e := dtlz5Nadir_third (m := r + 4) (by omega)
    rw [show r + 4 - 3 = r + 1 by omega] at e
    refine ⟨r + 1, a, -1 / 2, ha, by rw [dtlz5Nadir_get (by omega)]; exact e, ?_⟩
    have := hge (r + 1) _ a hq3 ha
    linarith

/-! ### Two and three objectives -/

theorem sin_scale {t y : ℝ} (h0 : 0 ≤ t) (h1 : t ≤ 1) (hy0 : 0 ≤ y) (hy1 : y ≤ π) : t * sin y ≤ sin (t * y) := by
  have h := strictConcaveOn_sin_Icc.concaveOn.2 (show (0 : ℝ) ∈ Set.Icc 0 π from ⟨le_rfl, pi_pos.le⟩) (show y ∈ Set.Icc 0 π from ⟨hy0, hy1⟩) (show 0 ≤ 1 - t by linarith) h0 (by ring)
  simpa using h

/-- The elements at distance `g` are not smaller than those on the front, for up to three objectives. -/
theorem dtlz5_scale {g x : ℝ} (hg : 0 ≤ g) (h0 : 0 ≤ x) (h1 : x ≤ 1) :
    √2 / 2 ≤ sin ((g * x + 0.5) / (1 + g) * π / 2) * (1 + g) ∧ √2 / 2 ≤ cos ((g * x + 0.5) / (1 + g) * π / 2) * (1 + g) := by
  have hp := pi_pos
  have hgp : 0 < 1 + g := by linarith
  have key : ∀ z : ℝ, 0 ≤ z → z ≤ 1 → √2 / 2 ≤ sin ((g * z + 0.5) / (1 + g) * π / 2) * (1 + g) := by
    intro z z0 z1
    have hs := sin_scale (t := 1 / (1 + g)) (y := π / 4) (by positivity) (by rw [div_le_one hgp]; linarith) (by positivity) (by linarith)
    rw [sin_pi_div_four] at hs
    have hmono : sin (1 / (1 + g) * (π / 4)) ≤ sin ((g * z + 0.5) / (1 + g) * π / 2) := by
      apply sin_le_sin_of_le_of_le_pi_div_two
      · have : 0 ≤ 1 / (1 + g) * (π / 4) := by positivity
        linarith
      · have : (g * z + 0.5) / (1 + g) ≤ 1 := by
          rw [div_le_one hgp]
          nlinarith
        nlinarith
      · rw [show (g * z + 0.5) / (1 + g) * π / 2 = 1 / (1 + g) * (π / 4) + g * z * π / (2 * (1 + g)) by field_simp; ring]
        have : 0 ≤ g * z * π / (2 * (1 + g)) := by positivity
        linarith
    have h2 : 1 / (1 + g) * (√2 / 2) * (1 + g) ≤ sin ((g * z + 0.5) / (1 + g) * π / 2) * (1 + g) := mul_le_mul_of_nonneg_right (hs.trans hmono) hgp.le
    rwa [show 1 / (1 + g) * (√2 / 2) * (1 + g) = √2 / 2 by field_simp] at h2
  refine ⟨key x h0 h1, ?_⟩
  have h := key (1 - x) (by linarith) (by linarith)
  rwa [show (g * (1 - x) + 0.5) / (1 + g) * π / 2 = π / 2 - (g * x + 0.5) / (1 + g) * π / 2 by field_simp; ring, sin_pi_div_two_sub] at h

theorem better_of_sq {a b : List ℝ} (hl : a.length = b.length) (hall : ∀ (i : Nat) (x y : ℝ), a[i]? = some x → b[i]? = some y → y ≤ x) (hne : a ≠ b) : Better a b := by
  refine ⟨hl, hall, Classical.byContradiction fun hno => hne ?_⟩
  push Not at hno
  apply List.ext_getElem hl
  intro i h1 h2
  exact le_antisymm (hno i _ _ (List.getElem?_eq_getElem h1) (List.getElem?_eq_getElem h2)) (hall i _ _ (List.getElem?_eq_getElem h1) (List.getElem?_eq_getElem h2))

/-- A Pareto-optimal chromosome has distance zero, if moving it to the front makes no objective worse. -/
theorem dtlz5_distance (h : Dtlz5Like m k G opt t0 t1) {v : List ℝ} (hv : ParetoOptimal (InBounds (uniformBenchmark 0 1 opt val (fun v => dtlz dtlz5F G v m))) (fun v => dtlz dtlz5F G v m) v)
    (hle : ∀ (i : Nat) (x y : ℝ), ((dtlz5F (v.take (m - 1)) 0).map (fun val => val * -(1 + 0)))[i]? = some x →
      ((dtlz5F (v.take (m - 1)) (G (v.drop (m - 1)))).map (fun val => val * -(1 + G (v.drop (m - 1)))))[i]? = some y → y ≤ x) : G (v.drop (m - 1)) = 0 := by
  obtain ⟨d1, d2, d3, d4⟩ := dtlz5_split h hv.1
  obtain ⟨e1, e2⟩ := dtlz5_at (val := val) h d1 d2 h.len0 h.box0
  rw [h.g0] at e2
  have hb := hv.2 _ e1
  dsimp only at hb
  rw [e2, show dtlz dtlz5F G v m = (dtlz5F (v.take (m - 1)) (G (v.drop (m - 1)))).map (fun val => val * -(1 + G (v.drop (m - 1)))) from rfl] at hb
  generalize G (v.drop (m - 1)) = g at *
  refine Classical.byContradiction fun hne => hb (better_of_sq (by rw [List.length_map, List.length_map, dtlz5F_length _ _ d4, dtlz5F_length _ _ d4]) hle fun heq => hne ?_)
  have hsq : (_ : List ℝ).sum = (_ : List ℝ).sum := congrArg (fun l => (l.map (fun y : ℝ => y ^ 2)).sum) heq
  rw [List.map_map, List.map_map] at hsq
  have e : ∀ g : ℝ, ((fun y : ℝ => y ^ 2) ∘ fun val => val * -(1 + g)) = fun y => (1 + g) ^ 2 * y ^ 2 := by
    intro g; funext y; simp only [Function.comp]; ring
  rw [e, e, List.sum_map_mul_left, List.sum_map_mul_left, dtlz5F_sq, dtlz5F_sq] at hsq
  nlinarith

theorem dtlz5Nadir_two : dtlz5Nadir 2 = [-1, -1] := by
  unfold dtlz5Nadir
  simp [List.range_succ]

theorem dtlz5Nadir_three : dtlz5Nadir 3 = [-(√2 / 2), -(√2 / 2), -1] := by
  have e : -1 / √2 = -(√2 / 2) := by
    rw [neg_div, neg_inj, div_eq_div_iff (by positivity) (by norm_num), Real.mul_self_sqrt (by norm_num)]
    norm_num
  unfold dtlz5Nadir
  simp [List.range_succ, e]

/-- The nadir point of DTLZ5 and DTLZ6 is right for two objectives. -/
theorem dtlz5_nadir_two (h : Dtlz5Like 2 k G opt t0 t1) :
    NadirRight (InBounds (uniformBenchmark 0 1 opt val (fun v => dtlz dtlz5F G v 2))) (fun v => dtlz dtlz5F G v 2) (dtlz5Nadir 2) := by
  have hF : ∀ x g : ℝ, dtlz5F [x] g = [cos (x * π / 2), sin (x * π / 2)] := fun x g => rfl
  rw [dtlz5Nadir_two]
  have hcorner : ∀ x : ℝ, 0 ≤ x → x ≤ 1 → ParetoOptimal (InBounds (uniformBenchmark 0 1 opt val (fun v => dtlz dtlz5F G v 2))) (fun v => dtlz dtlz5F G v 2) ([x] ++ t0) ∧
      dtlz dtlz5F G ([x] ++ t0) 2 = [-cos (x * π / 2), -sin (x * π / 2)] := by
    intro x h0 h1
    have hx : ∀ y ∈ [x], 0 ≤ y ∧ y ≤ 1 := fun y hy => by rw [List.mem_singleton.mp hy]; exact ⟨h0, h1⟩
    refine ⟨dtlz5_pareto h rfl hx, ?_⟩
    rw [(dtlz5_at (val := val) h rfl hx h.len0 h.box0).2, h.g0, hF]
    simp
  refine ⟨fun v hv => ⟨by rw [dtlz5_length h hv.1]; rfl, fun i a b ha hb => ?_⟩, fun i b hb => ?_⟩
  · obtain ⟨d1, d2, d3, d4⟩ := dtlz5_split h hv.1
    obtain ⟨x, hx⟩ := List.length_eq_one_iff.mp d1
    have hxr := d2 x (by rw [hx]; exact List.mem_singleton_self x)
    have ht := trig_range hxr.1 hxr.2
    have hg : G (v.drop (2 - 1)) = 0 := by
      refine dtlz5_distance h hv ?_
      rw [hx, hF, hF]
      intro i p q hp hq
      match i, hp, hq with
      | 0, hp, hq => cases hp; cases hq; nlinarith
      | 1, hp, hq => cases hp; cases hq; nlinarith
      | n + 2, hp, hq => simp at hp
    have ha : ((dtlz5F (v.take (2 - 1)) (G (v.drop (2 - 1)))).map (fun val => val * -(1 + G (v.drop (2 - 1)))))[i]? = some a := ha
    rw [hg, hx, hF] at ha
    have c1 := cos_le_one (x * π / 2)
    have s1 := sin_le_one (x * π / 2)
    match i, ha, hb with
    | 0, ha, hb => cases ha; cases hb; linarith
    | 1, ha, hb => cases ha; cases hb; linarith
    | n + 2, ha, hb => simp at hb
  · match i, hb with
    | 0, hb =>
      cases hb
      obtain ⟨h1, h2⟩ := hcorner 0 le_rfl zero_le_one
      exact ⟨_, h1, by dsimp only; rw [h2]; simp⟩
    | 1, hb =>
      cases hb
      obtain ⟨h1, h2⟩ := hcorner 1 zero_le_one le_rfl
      exact ⟨_, h1, by dsimp only; rw [h2, one_mul, sin_pi_div_two]; simp⟩
    | n + 2, hb => simp at hb

/-- The nadir point of DTLZ5 and DTLZ6 is right for three objectives. -/
theorem dtlz5_nadir_three (h : Dtlz5Like 3 k G opt t0 t1) :
    NadirRight (InBounds (uniformBenchmark 0 1 opt val (fun v => dtlz dtlz5F G v 3))) (fun v => dtlz dtlz5F G v 3) (dtlz5Nadir 3) := by
  have hF : ∀ x y g : ℝ, dtlz5F [x, y] g = [cos (x * π / 2) * cos ((g * y + 0.5) / (1 + g) * π / 2), cos (x * π / 2) * sin ((g * y + 0.5) / (1 + g) * π / 2), sin (x * π / 2)] :=
    fun x y g => rfl
  have hF0 : ∀ x y : ℝ, dtlz5F [x, y] 0 = [cos (x * π / 2) * (√2 / 2), cos (x * π / 2) * (√2 / 2), sin (x * π / 2)] := by
    intro x y
    rw [hF, show (0 * y + 0.5) / (1 + 0) * π / 2 = π / 4 by ring, cos_pi_div_four, sin_pi_div_four]
  rw [dtlz5Nadir_three]
  have hcorner : ∀ x : ℝ, 0 ≤ x → x ≤ 1 → ParetoOptimal (InBounds (uniformBenchmark 0 1 opt val (fun v => dtlz dtlz5F G v 3))) (fun v => dtlz dtlz5F G v 3) ([x, 0] ++ t0) ∧
      dtlz dtlz5F G ([x, 0] ++ t0) 3 = [-(cos (x * π / 2) * (√2 / 2)), -(cos (x * π / 2) * (√2 / 2)), -sin (x * π / 2)] := by
    intro x h0 h1
    have hx : ∀ y ∈ [x, 0], 0 ≤ y ∧ y ≤ 1 := fun y hy => by
      rcases List.mem_pair.mp hy with rfl | rfl
      · exact ⟨h0, h1⟩
      · exact ⟨le_rfl, zero_le_one⟩
    refine ⟨dtlz5_pareto h rfl hx, ?_⟩
    rw [(dtlz5_at (val := val) h rfl hx h.len0 h.box0).2, h.g0, hF0]
    simp
  have hs2 : 0 ≤ √2 := Real.sqrt_nonneg 2
  refine ⟨fun v hv => ⟨by rw [dtlz5_length h hv.1]; rfl, fun i a b ha hb => ?_⟩, fun i b hb => ?_⟩
  · obtain ⟨d1, d2, d3, d4⟩ := dtlz5_split h hv.1
    obtain ⟨x, y, hx⟩ := List.length_eq_two.mp d1
    have hxr := d2 x (by rw [hx]; simp)
    have hyr := d2 y (by rw [hx]; simp)
    have ht := trig_range hxr.1 hxr.2
    have hg : G (v.drop (3 - 1)) = 0 := by
      refine dtlz5_distance h hv ?_
      rw [hx, hF0, hF]
      obtain ⟨k1, k2⟩ := dtlz5_scale d3 hyr.1 hyr.2
      generalize G (v.drop (3 - 1)) = g at *
      intro i p q hp hq
      match i, hp, hq with
      | 0, hp, hq => cases hp; cases hq; nlinarith [mul_le_mul_of_nonneg_left k2 ht.2]
      | 1, hp, hq => cases hp; cases hq; nlinarith [mul_le_mul_of_nonneg_left k1 ht.2]
      | 2, hp, hq => cases hp; cases hq; nlinarith
      | n + 3, hp, hq => simp at hp
    have ha : ((dtlz5F (v.take (3 - 1)) (G (v.drop (3 - 1)))).map (fun val => val * -(1 + G (v.drop (3 - 1)))))[i]? = some a := ha
    rw [hg, hx, hF0] at ha
    have c1 := cos_le_one (x * π / 2)
    have s1 := sin_le_one (x * π / 2)
    match i, ha, hb with
    | 0, ha, hb => cases ha; cases hb; nlinarith
    | 1, ha, hb => cases ha; cases hb; nlinarith
    | 2, ha, hb => cases ha; cases hb; linarith
    | n + 3, ha, hb => simp at hb
  · match i, hb with
    | 0, hb =>
      cases hb
      obtain ⟨h1, h2⟩ := hcorner 0 le_rfl zero_le_one
      exact ⟨_, h1, by dsimp only; rw [h2]; simp⟩
    | 1, hb =>
      cases hb
      obtain ⟨h1, h2⟩ := hcorner 0 le_rfl zero_le_one
      exact ⟨_, h1, by dsimp only; rw [h2]; simp⟩
    | 2, hb =>
      cases hb
      obtain ⟨h1, h2⟩ := hcorner 1 zero_le_one le_rfl
      exact ⟨_, h1, by dsimp only; rw [h2, one_mul, sin_pi_div_two]; simp⟩
    | n + 3, hb => simp at hb

end

/-- C67, DTLZ5: the ideal point is right, the nadir point is right for two and three objectives. Missing: the nadir point is wrong for more objectives, see `C67_dtlz5_nadir_violated`. -/
theorem C67_dtlz5_partial (m : Nat) (hm : 2 ≤ m) : IdealRight (InBounds (dtlz5B m)) (fun v => dtlz5 v m) (dtlz5P m).ideal ∧
    (m ≤ 3 → NadirRight (InBounds (dtlz5B m)) (fun v => dtlz5 v m) (dtlz5P m).nadir) := by
  refine ⟨dtlz5_ideal (dtlz5Like m hm), fun h3 => ?_⟩
  rcases (by omega : m = 2 ∨ m = 3) with rfl | rfl
  · exact dtlz5_nadir_two (dtlz5Like 2 hm)
  · exact dtlz5_nadir_three (dtlz5Like 3 hm)

/-- C67, DTLZ5: for four or more objectives, a Pareto-optimal point is worse than the documented nadir point in an objective. -/
theorem C67_dtlz5_nadir_violated (m : Nat) (hm : 4 ≤ m) : ¬ NadirBound (InBounds (dtlz5B m)) (fun v => dtlz5 v m) (dtlz5P m).nadir := by
  obtain ⟨x, i, a, b, hx, ha, hb, hlt⟩ := dtlz5_nadir_wrong (dtlz5Like m (by omega)) hm (C60_dtlz5 m (by omega)).2.2
  exact fun h => absurd ((h x hx).2 i a b ha hb) (not_le.mpr hlt)

/-- C67, DTLZ6: the ideal point is right, the nadir point is right for two and three objectives. Missing: the nadir point is wrong for more objectives, see `C67_dtlz6_nadir_violated`. -/
theorem C67_dtlz6_partial (m : Nat) (hm : 2 ≤ m) : IdealRight (InBounds (dtlz6B m)) (fun v => dtlz6 v m) (dtlz6P m).ideal ∧
    (m ≤ 3 → NadirRight (InBounds (dtlz6B m)) (fun v => dtlz6 v m) (dtlz6P m).nadir) := by
  refine ⟨dtlz5_ideal (dtlz6Like m hm), fun h3 => ?_⟩
  rcases (by omega : m = 2 ∨ m = 3) with rfl | rfl
  · exact dtlz5_nadir_two (dtlz6Like 2 hm)
  · exact dtlz5_nadir_three (dtlz6Like 3 hm)

/-- C67, DTLZ6: for four or more objectives, a Pareto-optimal point is worse than the documented nadir point in an objective. -/
theorem C67_dtlz6_nadir_violated (m : Nat) (hm : 4 ≤ m) : ¬ NadirBound (InBounds (dtlz6B m)) (fun v => dtlz6 v m) (dtlz6P m).nadir := by
  obtain ⟨x, i, a, b, hx, ha, hb, hlt⟩ := dtlz5_nadir_wrong (dtlz6Like m (by omega)) hm (C60_dtlz6 m (by omega)).2.2
  exact fun h => absurd ((h x hx).2 i a b ha hb) (not_le.mpr hlt)

/-! A concrete case: three objectives. -/

example : NadirRight (InBounds (dtlz5B 3)) (fun v => dtlz5 v 3) (dtlz5P 3).nadir := (C67_dtlz5_partial 3 (by norm_num)).2 (le_refl 3)

end Gapp.Props
