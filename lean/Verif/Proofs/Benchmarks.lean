import Verif.Spec.Benchmarks
import Mathlib.Tactic.Ring
import Mathlib.Tactic.Linarith
import Mathlib.Tactic.FieldSimp
import Mathlib.Tactic.NormNum
import Mathlib.Tactic.Positivity
import Mathlib.Algebra.BigOperators.Group.List.Lemmas
/-!
# Proofs about the benchmark functions
-/

namespace Gapp.Model

open Gapp.Spec Real

theorem foldl_add_sum {α : Type} (f : α → ℝ) (l : List α) (c : ℝ) : l.foldl (fun a x => a + f x) c = c + (l.map f).sum := by
  induction l generalizing c with
  | nil => simp
  | cons x l ih => rw [List.foldl_cons, ih, List.map_cons, List.sum_cons]; ring

theorem map_sum_nonneg {α : Type} (f : α → ℝ) (l : List α) (h : ∀ x ∈ l, 0 ≤ f x) : 0 ≤ (l.map f).sum := by
  induction l with
  | nil => simp
  | cons x l ih =>
    rw [List.map_cons, List.sum_cons]
    exact add_nonneg (h x (List.mem_cons_self ..)) (ih (fun y hy => h y (List.mem_cons_of_mem _ hy)))

theorem map_sum_zero {α : Type} (f : α → ℝ) (l : List α) (h : ∀ x ∈ l, 0 ≤ f x) (h0 : (l.map f).sum ≤ 0) : ∀ x ∈ l, f x = 0 := by
  induction l with
  | nil => intro x hx; exact absurd hx (List.not_mem_nil)
  | cons x l ih =>
    rw [List.map_cons, List.sum_cons] at h0
    have h1 := h x (List.mem_cons_self ..)
    have h2 := map_sum_nonneg f l (fun y hy => h y (List.mem_cons_of_mem _ hy))
    intro y hy
    rcases List.mem_cons.mp hy with rfl | hy
    · linarith
    · exact ih (fun y hy => h y (List.mem_cons_of_mem _ hy)) (by linarith) y hy

theorem map_sum_add_const {α : Type} (f : α → ℝ) (c : ℝ) (l : List α) : c * l.length + (l.map f).sum = (l.map (fun x => c + f x)).sum := by
  induction l with
  | nil => simp
  | cons x l ih =>
    rw [List.map_cons, List.map_cons, List.sum_cons, List.sum_cons, ← ih, List.length_cons]
    push_cast
    ring

theorem map_sum_congr_zero {α : Type} (f : α → ℝ) (l : List α) (h : ∀ x ∈ l, f x = 0) : (l.map f).sum = 0 := by
  induction l with
  | nil => simp
  | cons x l ih =>
    rw [List.map_cons, List.sum_cons, h x (List.mem_cons_self ..), ih (fun y hy => h y (List.mem_cons_of_mem _ hy)), add_zero]

theorem eq_replicate_of {l : List ℝ} {c : ℝ} (h : ∀ x ∈ l, x = c) : l = List.replicate l.length c :=
  List.eq_replicate_iff.mpr ⟨rfl, h⟩

theorem sum_replicate_zero (n : Nat) : (List.replicate n (0 : ℝ)).sum = 0 := by
  induction n with
  | zero => rfl
  | succ n ih => rw [List.replicate_succ, List.sum_cons, ih, add_zero]

/-! ## One objective -/

theorem sphere_eq (v : List ℝ) : sphere v = -(v.map (fun x => x * x)).sum := by
  unfold sphere
  rw [foldl_add_sum (fun x : ℝ => x * x), zero_add]

theorem sphere_le (v : List ℝ) : sphere v ≤ 0 := by
  rw [sphere_eq]
  have := map_sum_nonneg (fun x : ℝ => x * x) v (fun x _ => mul_self_nonneg x)
  linarith

theorem sphere_zero (v : List ℝ) : sphere v = 0 ↔ ∀ x ∈ v, x = 0 := by
  rw [sphere_eq, neg_eq_zero]
  refine ⟨fun h x hx => mul_self_eq_zero.mp (map_sum_zero (fun x : ℝ => x * x) v (fun x _ => mul_self_nonneg x) h.le x hx), fun h => ?_⟩
  exact map_sum_congr_zero _ _ (fun x hx => by rw [h x hx]; ring)

theorem rastrigin_eq (v : List ℝ) : rastrigin v = -(v.map (fun x => 10 + (x ^ 2 - 10 * cos (2 * π * x)))).sum := by
  unfold rastrigin
  rw [foldl_add_sum (fun var : ℝ => var ^ 2 - 10 * cos (2 * π * var)), map_sum_add_const]

theorem rastrigin_term (x : ℝ) : 0 ≤ 10 + (x ^ 2 - 10 * cos (2 * π * x)) := by
  have := cos_le_one (2 * π * x)
  have := sq_nonneg x
  linarith

theorem rastrigin_le (v : List ℝ) : rastrigin v ≤ 0 := by
  rw [rastrigin_eq]
  have := map_sum_nonneg _ v (fun x _ => rastrigin_term x)
  linarith

theorem rastrigin_zero (v : List ℝ) : rastrigin v = 0 ↔ ∀ x ∈ v, x = 0 := by
  rw [rastrigin_eq, neg_eq_zero]
  refine ⟨fun h x hx => ?_, fun h => ?_⟩
  · have h1 := map_sum_zero _ v (fun x _ => rastrigin_term x) h.le x hx
    have h2 := cos_le_one (2 * π * x)
    have h3 := sq_nonneg x
    have h4 : x ^ 2 = 0 := by linarith
    exact pow_eq_zero_iff (by norm_num) |>.mp h4
  · refine map_sum_congr_zero _ _ (fun x hx => ?_)
    rw [h x hx]
    simp

/-- The terms of the Rosenbrock function. -/
noncomputable def rosenbrockTerm (v : List ℝ) (i : Nat) : ℝ := 100 * (v.getD (i + 1) 0 - v.getD i 0 ^ 2) ^ 2 + (v.getD i 0 - 1) ^ 2

theorem rosenbrockTerm_nonneg (v : List ℝ) (i : Nat) : 0 ≤ rosenbrockTerm v i := by
  unfold rosenbrockTerm
  positivity

theorem rosenbrock_eq (v : List ℝ) : rosenbrock v = -((List.range (v.length - 1)).map (rosenbrockTerm v)).sum := by
  unfold rosenbrock
  rw [foldl_add_sum (fun i => 100 * (v.getD (i + 1) 0 - v.getD i 0 ^ 2) ^ 2 + (v.getD i 0 - 1) ^ 2), zero_add]
  rfl

theorem rosenbrock_le (v : List ℝ) : rosenbrock v ≤ 0 := by
  rw [rosenbrock_eq]
  have := map_sum_nonneg (rosenbrockTerm v) (List.range (v.length - 1)) (fun i _ => rosenbrockTerm_nonneg v i)
  linarith

theorem getD_of_lt' {l : List ℝ} {i : Nat} (h : i < l.length) : l.getD i 0 = l[i] := by
  rw [List.getD_eq_getElem?_getD, List.getElem?_eq_getElem h]; rfl

theorem getD_mem' {l : List ℝ} {i : Nat} (h : i < l.length) : l.getD i 0 ∈ l := by
  rw [getD_of_lt' h]; exact List.getElem_mem h

theorem all_of_getD {l : List ℝ} {P : ℝ → Prop} (h : ∀ i < l.length, P (l.getD i 0)) : ∀ x ∈ l, P x := by
  intro x hx
  obtain ⟨i, hi, rfl⟩ := List.mem_iff_getElem.mp hx
  have := h i hi
  rwa [getD_of_lt' hi] at this

theorem rosenbrock_zero (v : List ℝ) (h2 : 2 ≤ v.length) : rosenbrock v = 0 ↔ ∀ x ∈ v, x = 1 := by
  rw [rosenbrock_eq, neg_eq_zero]
  constructor
  · intro h
    have h1 : ∀ i < v.length - 1, v.getD i 0 = 1 ∧ v.getD (i + 1) 0 = 1 := by
      intro i hi
      have h3 := map_sum_zero (rosenbrockTerm v) _ (fun i _ => rosenbrockTerm_nonneg v i) h.le i (List.mem_range.mpr hi)
      unfold rosenbrockTerm at h3
      have h4 := sq_nonneg (v.getD (i + 1) 0 - v.getD i 0 ^ 2)
      have h5 := sq_nonneg (v.getD i 0 - 1)
      have h6 : (v.getD i 0 - 1) ^ 2 = 0 := by linarith
      have h7 : (v.getD (i + 1) 0 - v.getD i 0 ^ 2) ^ 2 = 0 := by linarith
      have h8 := pow_eq_zero_iff (by norm_num) |>.mp h6
      have h9 := pow_eq_zero_iff (by norm_num) |>.mp h7
      have h10 : v.getD i 0 = 1 := by linarith
      rw [h10] at h9
      exact ⟨h10, by linarith⟩
    apply all_of_getD
    intro i hi
    by_cases h3 : i < v.length - 1
    · exact (h1 i h3).1
    · have := (h1 (i - 1) (by omega)).2
      rwa [show i - 1 + 1 = i by omega] at this
  · intro h
    refine map_sum_congr_zero _ _ (fun i hi => ?_)
    rw [List.mem_range] at hi
    unfold rosenbrockTerm
    rw [h _ (getD_mem' (show i < v.length by omega)), h _ (getD_mem' (show i + 1 < v.length by omega))]
    norm_num

theorem griewankFold (v : List ℝ) (l : List Nat) (a b : ℝ) :
    l.foldl (fun (s : ℝ × ℝ) i => (s.1 + v.getD i 0 ^ 2, s.2 * cos (v.getD i 0 / √(i + 1)))) (a, b) =
      (a + (l.map (fun i => v.getD i 0 ^ 2)).sum, b * (l.map (fun i : Nat => cos (v.getD i 0 / √(i + 1)))).prod) := by
  induction l generalizing a b with
  | nil => simp
  | cons i l ih =>
    rw [List.foldl_cons, ih, List.map_cons, List.map_cons, List.sum_cons, List.prod_cons]
    rw [add_assoc, mul_assoc]

theorem prod_abs_le (l : List Nat) (f : Nat → ℝ) (h : ∀ i, |f i| ≤ 1) : |(l.map f).prod| ≤ 1 := by
  induction l with
  | nil => simp
  | cons i l ih =>
    rw [List.map_cons, List.prod_cons, abs_mul]
    exact mul_le_one₀ (h i) (abs_nonneg _) ih

theorem griewank_eq (v : List ℝ) : griewank v =
    -((List.range v.length).map (fun i => v.getD i 0 ^ 2)).sum / 4000 - 1 +
      ((List.range v.length).map (fun i : Nat => cos (v.getD i 0 / √(i + 1)))).prod := by
  unfold griewank griewankLoop
  rw [griewankFold]
  dsimp only
  ring

theorem griewank_le (v : List ℝ) : griewank v ≤ 0 := by
  rw [griewank_eq]
  have h1 := map_sum_nonneg (fun i => v.getD i 0 ^ 2) (List.range v.length) (fun i _ => sq_nonneg _)
  have h2 := le_of_abs_le (prod_abs_le (List.range v.length) (fun i : Nat => cos (v.getD i 0 / √(i + 1))) (fun i => abs_cos_le_one _))
  linarith

theorem griewank_zero (v : List ℝ) : griewank v = 0 ↔ ∀ x ∈ v, x = 0 := by
  rw [griewank_eq]
  have h2 := le_of_abs_le (prod_abs_le (List.range v.length) (fun i : Nat => cos (v.getD i 0 / √(i + 1))) (fun i => abs_cos_le_one _))
  constructor
  · intro h
    have h3 := map_sum_zero (fun i => v.getD i 0 ^ 2) (List.range v.length) (fun i _ => sq_nonneg _) (by linarith)
    apply all_of_getD
    intro i hi
    exact pow_eq_zero_iff (by norm_num) |>.mp (h3 i (List.mem_range.mpr hi))
  · intro h
    have e1 : ((List.range v.length).map (fun i => v.getD i 0 ^ 2)).sum = 0 := by
      refine map_sum_congr_zero _ _ (fun i hi => ?_)
      rw [h _ (getD_mem' (List.mem_range.mp hi))]; norm_num
    have e2 : ((List.range v.length).map (fun i : Nat => cos (v.getD i 0 / √(i + 1)))).prod = 1 := by
      apply List.prod_eq_one
      intro x hx
      obtain ⟨i, hi, rfl⟩ := List.mem_map.mp hx
      rw [h _ (getD_mem' (List.mem_range.mp hi))]
      simp
    rw [e1, e2]
    norm_num

theorem ackley_le (v : List ℝ) (hne : v ≠ []) : ackley v ≤ 0 ∧ (ackley v = 0 ↔ ∀ x ∈ v, x = 0) := by
  unfold ackley
  dsimp only
  rw [foldl_add_sum (fun x : ℝ => x ^ 2), foldl_add_sum (fun x : ℝ => cos (2 * π * x)), zero_add, zero_add]
  have hlen : (0 : ℝ) < v.length := by exact_mod_cast List.length_pos_iff.mpr hne
  have hs := map_sum_nonneg (fun x : ℝ => x ^ 2) v (fun x _ => sq_nonneg x)
  have hq : 0 ≤ √((v.map (fun x : ℝ => x ^ 2)).sum / v.length) := Real.sqrt_nonneg _
  have h1 : exp (-0.2 * √((v.map (fun x : ℝ => x ^ 2)).sum / v.length)) ≤ 1 := by
    rw [exp_le_one_iff]
    linarith
  have hc : (v.map (fun x : ℝ => cos (2 * π * x))).sum ≤ v.length := by
    have := map_sum_nonneg (fun x : ℝ => 1 - cos (2 * π * x)) v (fun x _ => by have := cos_le_one (2 * π * x); linarith)
    have e := map_sum_add_const (fun x : ℝ => -cos (2 * π * x)) 1 v
    have e' : (v.map (fun x : ℝ => -cos (2 * π * x))).sum = -(v.map (fun x : ℝ => cos (2 * π * x))).sum := by
      clear this e hs hq h1 hlen hne
      induction v with
      | nil => simp
      | cons x v ih => rw [List.map_cons, List.map_cons, List.sum_cons, List.sum_cons, ih]; ring
    have e2 : (v.map (fun x : ℝ => 1 + -cos (2 * π * x))).sum = (v.map (fun x : ℝ => 1 - cos (2 * π * x))).sum := by
      simp only [sub_eq_add_neg]
    rw [e', e2] at e
    linarith
  have h2 : exp ((v.map (fun x : ℝ => cos (2 * π * x))).sum / v.length) ≤ exp 1 := by
    rw [exp_le_exp, div_le_one hlen]
    exact hc
  refine ⟨by linarith, fun h => ?_, fun h => ?_⟩
  · have h3 : exp (-0.2 * √((v.map (fun x : ℝ => x ^ 2)).sum / v.length)) = 1 := by linarith
    rw [exp_eq_one_iff] at h3
    have h4 : √((v.map (fun x : ℝ => x ^ 2)).sum / v.length) = 0 := by linarith
    rw [Real.sqrt_eq_zero (div_nonneg hs hlen.le), div_eq_zero_iff] at h4
    have h5 := h4.resolve_right hlen.ne'
    intro x hx
    exact pow_eq_zero_iff (by norm_num) |>.mp (map_sum_zero (fun x : ℝ => x ^ 2) v (fun x _ => sq_nonneg x) h5.le x hx)
  · have e1 : (v.map (fun x : ℝ => x ^ 2)).sum = 0 := map_sum_congr_zero _ _ (fun x hx => by rw [h x hx]; norm_num)
    have e2 : (v.map (fun x : ℝ => cos (2 * π * x))).sum = v.length := by
      have e : v.map (fun x : ℝ => cos (2 * π * x)) = v.map (fun _ => (1 : ℝ)) := by
        apply List.map_congr_left
        intro x hx
        rw [h x hx]; simp
      rw [e]; simp
    rw [e1, e2, div_self hlen.ne', zero_div, Real.sqrt_zero, mul_zero, exp_zero]
    ring

theorem levy_le (v : List ℝ) (hne : v ≠ []) : levy v ≤ 0 ∧ (levy v = 0 ↔ ∀ x ∈ v, x = 1) := by
  unfold levy
  dsimp only
  rw [foldl_add_sum (fun i => (levyW (v.getD i 0) - 1) ^ 2 * (1 + 10 * sin (π * levyW (v.getD i 0) + 1) ^ 2))]
  have hlen := List.length_pos_iff.mpr hne
  have hterm : ∀ i ∈ List.range (v.length - 1), 0 ≤ (levyW (v.getD i 0) - 1) ^ 2 * (1 + 10 * sin (π * levyW (v.getD i 0) + 1) ^ 2) :=
    fun i _ => by positivity
  have h1 := map_sum_nonneg (fun i => (levyW (v.getD i 0) - 1) ^ 2 * (1 + 10 * sin (π * levyW (v.getD i 0) + 1) ^ 2)) _ hterm
  have h0 : 0 ≤ sin (π * levyW (v.getD 0 0)) ^ 2 := sq_nonneg _
  have h2 : 0 ≤ (levyW (v.getD (v.length - 1) 0) - 1) ^ 2 * (1 + sin (2 * π * levyW (v.getD (v.length - 1) 0)) ^ 2) := by positivity
  have hw : ∀ (x c : ℝ), 0 ≤ c → (levyW x - 1) ^ 2 * (1 + c) = 0 → x = 1 := by
    intro x c hc h
    rcases mul_eq_zero.mp h with h | h
    · have := pow_eq_zero_iff (by norm_num) |>.mp h
      unfold levyW at this
      linarith
    · linarith
  refine ⟨by linarith, fun h => ?_, fun h => ?_⟩
  · apply all_of_getD
    intro i hi
    by_cases h3 : i < v.length - 1
    · have := map_sum_zero (fun i => (levyW (v.getD i 0) - 1) ^ 2 * (1 + 10 * sin (π * levyW (v.getD i 0) + 1) ^ 2)) _ hterm
        (by linarith) i (List.mem_range.mpr h3)
      exact hw _ _ (by positivity) this
    · have e : i = v.length - 1 := by omega
      rw [e]
      exact hw _ _ (sq_nonneg _) (by linarith)
  · have e1 : ∀ i < v.length, v.getD i 0 = 1 := fun i hi => h _ (getD_mem' hi)
    have hw1 : levyW 1 = 1 := by unfold levyW; norm_num
    have es : ((List.range (v.length - 1)).map
        (fun i => (levyW (v.getD i 0) - 1) ^ 2 * (1 + 10 * sin (π * levyW (v.getD i 0) + 1) ^ 2))).sum = 0 := by
      refine map_sum_congr_zero _ _ (fun i hi => ?_)
      rw [List.mem_range] at hi
      rw [e1 i (by omega), hw1]
      ring
    rw [es, e1 0 hlen, e1 (v.length - 1) (by omega), hw1, mul_one, sin_pi]
    ring

/-! ## Domination -/

theorem better_two {a b c d : ℝ} (h : Better [a, b] [c, d]) : c ≤ a ∧ d ≤ b ∧ (c < a ∨ d < b) := by
  obtain ⟨_, h1, i, x, y, hx, hy, hlt⟩ := h
  refine ⟨h1 0 a c rfl rfl, h1 1 b d rfl rfl, ?_⟩
  match i, hx, hy with
  | 0, hx, hy => cases hx; cases hy; exact Or.inl hlt
  | 1, hx, hy => cases hx; cases hy; exact Or.inr hlt
  | n + 2, hx, hy => simp at hx

theorem better_one {a b : ℝ} (h : Better [a] [b]) : b < a := by
  obtain ⟨_, h1, i, x, y, hx, hy, hlt⟩ := h
  match i, hx, hy with
  | 0, hx, hy => cases hx; cases hy; exact hlt
  | n + 1, hx, hy => simp at hx

theorem le_sum_of (f : ℝ → ℝ) (P : ℝ → Prop) (hf : ∀ x y, P x → P y → y ≤ x → f x ≤ f y) : ∀ (a b : List ℝ), (∀ x ∈ a, P x) → (∀ x ∈ b, P x) →
    a.length = b.length → (∀ (i : Nat) (x y : ℝ), a[i]? = some x → b[i]? = some y → y ≤ x) → (a.map f).sum ≤ (b.map f).sum
  | [], [], _, _, _, _ => le_rfl
  | [], _ :: _, _, _, h, _ => by simp at h
  | _ :: _, [], _, _, h, _ => by simp at h
  | w :: a, z :: b, pa, pb, hlen, hall => by
    rw [List.map_cons, List.map_cons, List.sum_cons, List.sum_cons]
    exact add_le_add (hf w z (pa w (List.mem_cons_self ..)) (pb z (List.mem_cons_self ..)) (hall 0 w z rfl rfl))
      (le_sum_of f P hf a b (fun q hq => pa q (List.mem_cons_of_mem _ hq)) (fun q hq => pb q (List.mem_cons_of_mem _ hq))
        (by simpa using hlen) (fun i x y hx hy => hall (i + 1) x y hx hy))

theorem better_sum (f : ℝ → ℝ) (P : ℝ → Prop) (hf : ∀ x y, P x → P y → y ≤ x → f x ≤ f y) (hf' : ∀ x y, P x → P y → y < x → f x < f y) :
    ∀ (a b : List ℝ), (∀ x ∈ a, P x) → (∀ x ∈ b, P x) → Better a b → (a.map f).sum < (b.map f).sum
  | [], [], _, _, h => by
    obtain ⟨_, _, i, x, y, hx, _⟩ := h
    simp at hx
  | [], _ :: _, _, _, h => by have := h.1; simp at this
  | _ :: _, [], _, _, h => by have := h.1; simp at this
  | x :: a, y :: b, ha, hb, h => by
    rw [List.map_cons, List.map_cons, List.sum_cons, List.sum_cons]
    obtain ⟨hl, h1, i, x', y', hx, hy, hlt⟩ := h
    have hxy : y ≤ x := h1 0 x y rfl rfl
    have px := ha x (List.mem_cons_self ..)
    have py := hb y (List.mem_cons_self ..)
    have pa : ∀ z ∈ a, P z := fun z hz => ha z (List.mem_cons_of_mem _ hz)
    have pb : ∀ z ∈ b, P z := fun z hz => hb z (List.mem_cons_of_mem _ hz)
    have hall : ∀ (i : Nat) (x y : ℝ), a[i]? = some x → b[i]? = some y → y ≤ x := fun i x y hx hy => h1 (i + 1) x y hx hy
    have hlen : a.length = b.length := by simpa using hl
    match i, hx, hy with
    | 0, hx, hy =>
      cases hx; cases hy
      have hle := le_sum_of f P hf a b pa pb hlen hall
      exact add_lt_add_of_lt_of_le (hf' x y px py hlt) hle
    | i + 1, hx, hy =>
      exact add_lt_add_of_le_of_lt (hf x y px py hxy) (better_sum f P hf hf' a b pa pb ⟨hlen, hall, i, x', y', hx, hy, hlt⟩)

/-! ## Bounds -/

theorem inBounds_uniform {lo up : ℝ} {opt val : List ℝ} {f : List ℝ → List ℝ} {v : List ℝ} :
    InBounds (uniformBenchmark lo up opt val f) v ↔ v.length = opt.length ∧ ∀ x ∈ v, lo ≤ x ∧ x ≤ up := by
  unfold InBounds uniformBenchmark
  dsimp only
  rw [List.length_replicate]
  refine and_congr_right (fun hl => ⟨fun h x hx => ?_, fun h i x b hx hb => ?_⟩)
  · obtain ⟨i, hi, rfl⟩ := List.mem_iff_getElem.mp hx
    exact h i _ (lo, up) (List.getElem?_eq_getElem hi) (by rw [List.getElem?_replicate, if_pos (by omega)])
  · rw [List.getElem?_replicate] at hb
    split at hb
    · cases hb
      exact h x (List.mem_of_getElem? hx)
    · cases hb

/-! ## Two objectives -/

theorem kursawe_eq (v : List ℝ) : kursawe v =
    [((List.range (v.length - 1)).map (fun i => 10 * exp (-0.2 * √(v.getD i 0 ^ 2 + v.getD (i + 1) 0 ^ 2)))).sum,
     -(((List.range (v.length - 1)).map (fun i => |v.getD i 0| ^ (0.8 : ℝ) + 5 * sin (v.getD i 0 ^ 3))).sum +
       (|v.getD (v.length - 1) 0| ^ (0.8 : ℝ) + 5 * sin (v.getD (v.length - 1) 0 ^ 3)))] := by
  have hfold : ∀ (l : List Nat) (a b : ℝ), l.foldl (fun (s : ℝ × ℝ) i =>
      (s.1 - 10 * exp (-0.2 * √(v.getD i 0 ^ 2 + v.getD (i + 1) 0 ^ 2)),
        s.2 + (|v.getD i 0| ^ (0.8 : ℝ) + 5 * sin (v.getD i 0 ^ 3)))) (a, b) =
      (a - (l.map (fun i => 10 * exp (-0.2 * √(v.getD i 0 ^ 2 + v.getD (i + 1) 0 ^ 2)))).sum,
        b + (l.map (fun i => |v.getD i 0| ^ (0.8 : ℝ) + 5 * sin (v.getD i 0 ^ 3))).sum) := by
    intro l
    induction l with
    | nil => intro a b; simp
    | cons i l ih =>
      intro a b
      rw [List.foldl_cons, ih, List.map_cons, List.map_cons, List.sum_cons, List.sum_cons]
      rw [sub_sub, add_assoc]
  unfold kursawe
  rw [hfold]
  dsimp only
  rw [zero_sub, neg_neg, zero_add]

theorem zdtG_ge (v : List ℝ) (h2 : 2 ≤ v.length) (hv : ∀ x ∈ v, 0 ≤ x) : 1 ≤ zdtG v := by
  unfold zdtG
  have hs : 0 ≤ v.tail.sum := by
    have := map_sum_nonneg id v.tail (fun x hx => hv x (List.mem_of_mem_tail hx))
    simpa using this
  have hl : (2 : ℝ) ≤ v.length := by exact_mod_cast h2
  have : 0 ≤ 9 * v.tail.sum / ((v.length : ℝ) - 1) := div_nonneg (by linarith) (by linarith)
  linarith

theorem zdtG_zero (n : Nat) : zdtG (List.replicate n 0) = 1 := by
  unfold zdtG
  rw [List.tail_replicate, sum_replicate_zero]
  simp

theorem getD_replicate_zero (n i : Nat) : (List.replicate n (0 : ℝ)).getD i 0 = 0 := by
  rw [List.getD_eq_getElem?_getD, List.getElem?_replicate]
  split <;> rfl

/-! ## Many objectives -/

theorem dtlzSplit_length (near far : ℝ → ℝ) : ∀ (xs : List ℝ) (f : ℝ), (dtlzSplit near far f xs).length = xs.length + 1
  | [], f => rfl
  | x :: xs, f => by
    unfold dtlzSplit
    rw [List.length_append, dtlzSplit_length near far xs]
    rfl

theorem dtlzSplit_sum (near far : ℝ → ℝ) (h : ∀ x, near x + far x = 1) : ∀ (xs : List ℝ) (f : ℝ), (dtlzSplit near far f xs).sum = f
  | [], f => by simp [dtlzSplit]
  | x :: xs, f => by
    unfold dtlzSplit
    rw [List.sum_append, dtlzSplit_sum near far h xs, List.sum_singleton, ← mul_add, add_comm, h, mul_one]

theorem dtlzSplit_sq (near far : ℝ → ℝ) (h : ∀ x, near x ^ 2 + far x ^ 2 = 1) : ∀ (xs : List ℝ) (f : ℝ),
    ((dtlzSplit near far f xs).map (fun y => y ^ 2)).sum = f ^ 2
  | [], f => by simp [dtlzSplit]
  | x :: xs, f => by
    unfold dtlzSplit
    rw [List.map_append, List.sum_append, dtlzSplit_sq near far h xs, List.map_singleton, List.sum_singleton, mul_pow, mul_pow, ← mul_add,
      add_comm, h, mul_one]

theorem dtlzSplit_nonneg (near far : ℝ → ℝ) : ∀ (xs : List ℝ), (∀ x ∈ xs, 0 ≤ near x ∧ 0 ≤ far x) → ∀ (f : ℝ), 0 ≤ f →
    ∀ y ∈ dtlzSplit near far f xs, 0 ≤ y
  | [], _, f, hf, y, hy => by
    rw [dtlzSplit, List.mem_singleton] at hy
    rw [hy]; exact hf
  | x :: xs, h, f, hf, y, hy => by
    unfold dtlzSplit at hy
    have hx := h x (List.mem_cons_self ..)
    rcases List.mem_append.mp hy with hy | hy
    · exact dtlzSplit_nonneg near far xs (fun z hz => h z (List.mem_cons_of_mem _ hz)) _ (mul_nonneg hf hx.2) y hy
    · rw [List.mem_singleton] at hy
      rw [hy]; exact mul_nonneg hf hx.1

theorem dtlz1G_nonneg (xs : List ℝ) : 0 ≤ dtlz1G xs := by
  unfold dtlz1G
  rw [foldl_add_sum (fun x : ℝ => (x - 0.5) ^ 2 - cos (20 * π * (x - 0.5)))]
  have e := map_sum_add_const (fun x : ℝ => (x - 0.5) ^ 2 - cos (20 * π * (x - 0.5))) 1 xs
  rw [one_mul] at e
  rw [e]
  refine mul_nonneg (by norm_num) (map_sum_nonneg _ _ (fun x _ => ?_))
  have := cos_le_one (20 * π * (x - 0.5))
  have := sq_nonneg (x - 0.5)
  linarith

theorem dtlz1G_half (n : Nat) : dtlz1G (List.replicate n 0.5) = 0 := by
  unfold dtlz1G
  rw [foldl_add_sum (fun x : ℝ => (x - 0.5) ^ 2 - cos (20 * π * (x - 0.5)))]
  have e := map_sum_add_const (fun x : ℝ => (x - 0.5) ^ 2 - cos (20 * π * (x - 0.5))) 1 (List.replicate n 0.5)
  rw [one_mul] at e
  rw [e, map_sum_congr_zero, mul_zero]
  intro x hx
  rw [List.eq_of_mem_replicate hx]
  simp

theorem dtlz2G_nonneg (xs : List ℝ) : 0 ≤ dtlz2G xs := by
  unfold dtlz2G
  rw [foldl_add_sum (fun x : ℝ => (x - 0.5) ^ 2), zero_add]
  exact map_sum_nonneg _ _ (fun x _ => sq_nonneg _)

theorem dtlz2G_half (n : Nat) : dtlz2G (List.replicate n 0.5) = 0 := by
  unfold dtlz2G
  rw [foldl_add_sum (fun x : ℝ => (x - 0.5) ^ 2), zero_add]
  refine map_sum_congr_zero _ _ (fun x hx => ?_)
  rw [List.eq_of_mem_replicate hx]
  norm_num

theorem dtlz6G_nonneg (xs : List ℝ) (h : ∀ x ∈ xs, 0 ≤ x) : 0 ≤ dtlz6G xs := by
  unfold dtlz6G
  rw [foldl_add_sum (fun x : ℝ => x ^ (0.1 : ℝ)), zero_add]
  exact map_sum_nonneg _ _ (fun x hx => rpow_nonneg (h x hx) _)

theorem dtlz6G_zero (n : Nat) : dtlz6G (List.replicate n 0) = 0 := by
  unfold dtlz6G
  rw [foldl_add_sum (fun x : ℝ => x ^ (0.1 : ℝ)), zero_add]
  refine map_sum_congr_zero _ _ (fun x hx => ?_)
  rw [List.eq_of_mem_replicate hx]
  exact zero_rpow (by norm_num)

theorem trig_range {x : ℝ} (h0 : 0 ≤ x) (h1 : x ≤ 1) : 0 ≤ sin (x * π / 2) ∧ 0 ≤ cos (x * π / 2) := by
  have hp := pi_pos
  constructor
  · apply sin_nonneg_of_nonneg_of_le_pi
    · positivity
    · nlinarith
  · apply cos_nonneg_of_neg_pi_div_two_le_of_le
    · have : 0 ≤ x * π / 2 := by positivity
      linarith
    · nlinarith

/-- A point of the unit sphere with non-positive coordinates, scaled by a factor of at least 1, is not better than another such point. -/
theorem sphere_not_better (a b : List ℝ) (g : ℝ) (hg : 0 ≤ g) (ha : ∀ x ∈ a, 0 ≤ x) (hb : ∀ x ∈ b, x ≤ 0)
    (hsa : (a.map (fun y => y ^ 2)).sum = 1) (hsb : (b.map (fun y => y ^ 2)).sum = 1) :
    ¬ Better (a.map (fun val => val * -(1 + g))) b := by
  intro h
  have h1 := better_sum (fun y => y ^ 2) (fun x => x ≤ 0) (fun x y hx hy hxy => by nlinarith)
    (fun x y hx hy hxy => by nlinarith) _ b
    (by
      intro x hx
      obtain ⟨y, hy, rfl⟩ := List.mem_map.mp hx
      have := mul_nonneg (ha y hy) (show 0 ≤ 1 + g by linarith)
      linarith) hb h
  rw [hsb, List.map_map] at h1
  have e : ((fun y : ℝ => y ^ 2) ∘ fun val => val * -(1 + g)) = fun y => (1 + g) ^ 2 * y ^ 2 := by
    funext y; simp only [Function.comp]; ring
  rw [e, List.sum_map_mul_left, hsa] at h1
  nlinarith

theorem dtlzSplit_const (s : ℝ) (near far : ℝ → ℝ) (hn : near 0 = s) (hf : far 0 = s) : ∀ (k : Nat) (f : ℝ),
    dtlzSplit near far f (List.replicate k 0) = f * s ^ k :: (List.range k).map (fun i => f * s ^ (k - i))
  | 0, f => by simp [dtlzSplit]
  | k + 1, f => by
    rw [List.replicate_succ]
    unfold dtlzSplit
    rw [dtlzSplit_const s near far hn hf k, hn, hf, List.range_succ, List.map_append, List.cons_append]
    congr 1
    · ring
    · congr 1
      · apply List.map_congr_left
        intro i hi
        rw [List.mem_range] at hi
        rw [show k + 1 - i = (k - i) + 1 by omega, pow_succ]
        ring
      · simp

theorem dtlzSplit_zero_far (near far : ℝ → ℝ) (hn : near 0 = 1) (hf : far 0 = 0) : ∀ (k : Nat) (f : ℝ), 0 < k →
    dtlzSplit near far f (List.replicate k 0) = List.replicate k 0 ++ [f]
  | 0, f, h => absurd h (lt_irrefl 0)
  | 1, f, _ => by simp [dtlzSplit, hn, hf]
  | k + 2, f, _ => by
    rw [List.replicate_succ]
    unfold dtlzSplit
    rw [dtlzSplit_zero_far near far hn hf (k + 1) _ (by omega), hf, hn, mul_zero, mul_one, ← List.replicate_succ', ← List.replicate_succ]

theorem dtlzSplit_zero_near (near far : ℝ → ℝ) (hn : near 0 = 0) (hf : far 0 = 1) : ∀ (k : Nat) (f : ℝ),
    dtlzSplit near far f (List.replicate k 0) = f :: List.replicate k 0
  | 0, f => rfl
  | k + 1, f => by
    rw [List.replicate_succ]
    unfold dtlzSplit
    rw [dtlzSplit_zero_near near far hn hf k, hf, hn, mul_one, mul_zero, List.cons_append, ← List.replicate_succ', List.replicate_succ]

end Gapp.Model
