import Verif.Proofs.ConeTree
import Mathlib.Analysis.SpecialFunctions.Pow.NNReal
import Mathlib.Algebra.Order.Field.Rat
/-!
# C47: the cone tree returns the point with the largest inner product
-/

namespace Gapp.Props
open Gapp.Model Gapp.Spec

variable {K : Type} [Field K] [LinearOrder K] [IsStrictOrderedRing K]

/-- The finished tree. -/
theorem coneTree_inv (sqrt : K → K) (hs : UpperSqrt sqrt) (cap d : Nat) (points : List (List K)) (hd : ∀ p ∈ points, p.length = d) (hne : points ≠ []) (t : ConeTree K)
    (h : coneTree sqrt cap points = some t) :
    BuildInv d points t.nodes.length t ∧ (t.nodes.length = 1 ∨ t.nodes.length ≤ cap) ∧ ((∀ p ∈ points, ∀ q ∈ points, p = q) → t.nodes.length = maxNodes points.length) := by
  match points, hne with
  | p :: rest, hne =>
    unfold coneTree at h
    dsimp only at h
    rw [if_pos (fun q hq => by rw [hd q hq, hd p (by simp)])] at h
    obtain ⟨h1, h2, h3⟩ := (buildLoop_spec sqrt hs cap d (p :: rest) hd _ 0 _ (rootTree_inv d (p :: rest) hne)).1 t h
    refine ⟨h1, h2, fun heq => ?_⟩
    rw [h3 heq]
    simp [nodesLeft]

/-- The tree is built, for points of the same dimension, if the vector of nodes is never reallocated: `2 (n - 8) + 1` nodes are enough for `n` points. The points of the tree are the given
ones in another order. -/
theorem C47_build_partial (sqrt : K → K) (hs : UpperSqrt sqrt) (cap d : Nat) (points : List (List K)) (hd : ∀ p ∈ points, p.length = d)
    (hcap : 2 * (points.length - 8) + 1 ≤ cap) : ∃ t, coneTree sqrt cap points = some t ∧ t.points.Perm points := by
  match points with
  | [] => exact ⟨_, rfl, List.Perm.refl _⟩
  | p :: rest =>
    have hm : maxNodes (p :: rest).length ≤ 2 * ((p :: rest).length - 8) + 1 ∧ maxNodes (p :: rest).length ≤ 2 * (p :: rest).length := by
      unfold maxNodes maxLeafElements
      rw [List.length_cons]
      split <;> omega
    obtain ⟨t, ht⟩ := (buildLoop_spec sqrt hs cap d (p :: rest) hd (2 * (p :: rest).length) 0 _ (rootTree_inv d (p :: rest) (by simp))).2
      (by simp only [nodesLeft, List.drop_zero, List.map_cons, List.map_nil, List.sum_cons, List.sum_nil, Nat.sub_zero]; omega)
      (by simp only [nodesLeft, List.drop_zero, List.map_cons, List.map_nil, List.sum_cons, List.sum_nil, Nat.sub_zero]; omega)
    have hc : coneTree sqrt cap (p :: rest) = some t := by
      unfold coneTree
      dsimp only
      rw [if_pos (fun q hq => by rw [hd q hq, hd p (by simp)])]
      exact ht
    exact ⟨t, hc, (coneTree_inv sqrt hs cap d _ hd (by simp) t hc).1.perm⟩

/-- With the capacity that the constructor reserves, at most ten points always work. -/
theorem C47_build_reserved (sqrt : K → K) (hs : UpperSqrt sqrt) (d : Nat) (points : List (List K)) (hd : ∀ p ∈ points, p.length = d) (h : points.length ≤ 10) :
    ∃ t, coneTree sqrt (reservedNodes points.length) points = some t ∧ t.points.Perm points := by
  by_cases h8 : points.length ≤ 8
  · exact C47_build_partial sqrt hs _ d points hd (by unfold reservedNodes; omega)
  · exact C47_build_partial sqrt hs _ d points hd (by unfold reservedNodes maxLeafElements; omega)

/-- The capacity that the constructor reserves is not enough for any number of equal points from eleven on: the vector of nodes is reallocated while `buildTree` uses a reference to one of
its elements. -/
theorem C47_build_violated (sqrt : K → K) (hs : UpperSqrt sqrt) (n : Nat) (hn : 11 ≤ n) (p : List K) : coneTree sqrt (reservedNodes n) (List.replicate n p) = none := by
  rcases hc : coneTree sqrt (reservedNodes n) (List.replicate n p) with _ | t
  · rfl
  · exfalso
    obtain ⟨_, h2, h3⟩ := coneTree_inv sqrt hs _ p.length (List.replicate n p) (fun q hq => by rw [List.eq_of_mem_replicate hq]) (by
      intro h; have := congrArg List.length h; simp only [List.length_replicate, List.length_nil] at this; omega) t hc
    have h3 := h3 (fun a ha b hb => by rw [List.eq_of_mem_replicate ha, List.eq_of_mem_replicate hb])
    rw [List.length_replicate] at h3
    unfold maxNodes reservedNodes maxLeafElements at *
    split at h3 <;> omega

/-- Once the tree is built, the search returns the position of a point with the largest inner product and this product. -/
theorem C47_find_partial (sqrt : K → K) (hs : UpperSqrt sqrt) (cap d : Nat) (points : List (List K)) (hd : ∀ p ∈ points, p.length = d) (hne : points ≠ []) (t : ConeTree K)
    (ht : coneTree sqrt cap points = some t) (query : List K) (hq : query.length = d) :
    ∃ (i : Nat) (p : List K) (prod : K), findBestMatch sqrt t query = some (i, (prod : WithBot K)) ∧ t.points[i]? = some p ∧ IsBestMatch points query p prod := by
  obtain ⟨hinv, _, _⟩ := coneTree_inv sqrt hs cap d points hd hne t ht
  obtain ⟨root, hroot, r1, r2⟩ := hinv.root
  have hrl := (List.getElem?_eq_some_iff.mp hroot).1
  have hnorm := hs (innerProduct query query) (innerProduct_self_nonneg query)
  obtain ⟨r, e, hf, _, hmax⟩ := findLoop_spec d points t hd hinv query hq (sqrt (innerProduct query query)) hnorm.1 hnorm.2 (2 * t.points.length) [0] (none, ⊥)
    (by intro j hj; rw [List.mem_singleton.mp hj]; exact hrl) (by rw [visitsLeft_cons t 0 [] root hroot]; simp only [visitsLeft, List.map_nil, List.sum_nil]; omega) (Or.inl rfl)
  have hmax' : ∀ p ∈ points, ((innerProduct query p : K) : WithBot K) ≤ r.2 := by
    intro p hp
    have hp' := hinv.perm.mem_iff.mpr hp
    obtain ⟨k, hk⟩ := List.mem_iff_getElem?.mp hp'
    exact hmax 0 (by simp) root hroot p (mem_rowsOf.mpr ⟨k, by omega, by rw [r2]; exact (List.getElem?_eq_some_iff.mp hk).1, hk⟩)
  rcases hf with hf | ⟨k, p, hk, hf⟩
  · exfalso
    obtain ⟨p, hp⟩ := List.exists_mem_of_ne_nil points hne
    have := hmax' p hp
    rw [hf] at this
    simp at this
  · refine ⟨k, p, innerProduct query p, ?_, hk, hinv.perm.mem_iff.mp (List.mem_of_getElem? hk), rfl, ?_⟩
    · have hpne : t.points ≠ [] := by intro h0; rw [h0] at hk; simp at hk
      unfold findBestMatch
      match hpts : t.points, hpne with
      | q :: rest, _ =>
        have hqd := hd q (hinv.perm.mem_iff.mp (by rw [hpts]; simp))
        dsimp only
        rw [if_pos (by omega), ← hpts, e]
        simp only [Option.bind_eq_bind, Option.bind_some, hf]
        rfl
    · intro p' hp'
      have := hmax' p' hp'
      rw [hf] at this
      exact WithBot.coe_le_coe.mp this

/-- The search in a tree without points returns its end and zero. -/
theorem C47_find_empty (sqrt : K → K) (cap : Nat) (query : List K) : ∃ t, coneTree sqrt cap ([] : List (List K)) = some t ∧ findBestMatch sqrt t query = some (t.points.length, 0) :=
  ⟨_, rfl, rfl⟩

/-- The square root of the real numbers meets the hypothesis. -/
theorem upperSqrt_real : UpperSqrt Real.sqrt := fun x hx => ⟨Real.sqrt_nonneg x, by rw [Real.sq_sqrt hx]⟩

theorem upperSqrt_rat : UpperSqrt (fun x : ℚ => x + 1) := fun x hx => ⟨by linarith, by nlinarith⟩

/-- Nine points on a parabola: two leaves. -/
def parabola : List (List ℚ) := [[0, 0], [1, 1], [2, 4], [3, 9], [4, 16], [5, 25], [6, 36], [7, 49], [8, 64]]

example : (coneTree (fun x : ℚ => x + 1) 3 parabola).map (fun t => t.nodes.map (fun n => (n.first, n.last, n.left, n.right))) =
    some [(0, 9, 1, 2), (0, 6, 0, 0), (6, 9, 0, 0)] := by decide +kernel

example : (coneTree (fun x : ℚ => x + 1) 3 parabola).bind (fun t => (findBestMatch (fun x : ℚ => x + 1) t [10, -1]).map (fun r => (t.points[r.1]?, r.2))) =
    some (some [5, 25], ((25 : ℚ) : WithBot ℚ)) := by decide +kernel

example : ∃ t, coneTree (fun x : ℚ => x + 1) 3 parabola = some t ∧ ∃ (i : Nat) (p : List ℚ) (prod : ℚ),
    findBestMatch (fun x : ℚ => x + 1) t [10, -1] = some (i, (prod : WithBot ℚ)) ∧ t.points[i]? = some p ∧ IsBestMatch parabola [10, -1] p prod := by
  obtain ⟨t, ht, _⟩ := C47_build_partial (fun x : ℚ => x + 1) upperSqrt_rat 3 2 parabola (by decide) (by decide)
  exact ⟨t, ht, C47_find_partial _ upperSqrt_rat 3 2 parabola (by decide) (by decide) t ht _ rfl⟩

end Gapp.Props
