import Verif.Proofs.RefLines
import Verif.Spec.Nsga3
import Mathlib.Data.Rat.Floor
import Mathlib.Data.List.Sort
import Mathlib.Analysis.SpecialFunctions.Pow.NNReal
/-!
# C49: the generated reference directions are on the unit simplex
-/

namespace Gapp.Props
open Gapp.Model Gapp.Spec

section
variable {K : Type} [Field K] [LinearOrder K] [IsStrictOrderedRing K]

/-! ## The quasi-random sequence -/

section
variable [FloorRing K]

/-- After `n` calls, the next call returns the fractional parts of `seed + (n + 1) / phid ^ (i + 1)`: a point of the half-open unit cube. -/
theorem C49_qrng_sequence (phid : K) (hp : 1 ≤ phid) (dim : Nat) (seed : K) (h0 : 0 ≤ seed) (h1 : seed + 1 < 2 ^ 64) (n : Nat) :
    ∃ (g g' : QuasiRandom K) (point : List K), qrngDiscard n (qrngCtor phid dim seed) = some g ∧ qrngNext g = some (point, g') ∧ point.length = dim ∧
      ∀ (i : Nat) (x : K), point[i]? = some x → 0 ≤ x ∧ x < 1 ∧ x = Int.fract (seed + ((n + 1 : Nat) : K) * (1 / phid ^ (i + 1))) := by
  have hok := qrngCtor_ok phid hp dim seed h0 h1
  obtain ⟨g, e, g1, g2, g3, g4⟩ := qrngDiscard_spec n _ hok
  obtain ⟨⟨point, g'⟩, e', _, _, _, _, _, r6, r7, r8⟩ := qrngNext_spec g g1
  dsimp only at r6 r7 r8
  refine ⟨g, g', point, e, e', by rw [r6, g2]; rfl, ?_⟩
  intro i x hx
  have hxu := r7 x (List.mem_of_getElem? hx)
  refine ⟨hxu.1, hxu.2, ?_⟩
  have hid : i < dim := by
    have := (List.getElem?_eq_some_iff.mp hx).1
    rw [r6, g2] at this
    exact this
  have ha : (qrngCtor phid dim seed).alpha[i]? = some (1 / (phid * phid ^ i)) := qrngAlpha_get phid dim phid i hid
  have hpt : (qrngCtor phid dim seed).point[i]? = some seed := by simp [qrngCtor, hid]
  obtain ⟨q, hq, hf⟩ := g4 i seed _ hpt ha
  have hn := r8 i q _ hq (by rw [g3]; exact ha)
  rw [hx, Option.some.injEq] at hn
  rw [hn, Int.fract_eq_fract]
  obtain ⟨z, hz⟩ := Int.fract_eq_fract.mp hf
  refine ⟨z, ?_⟩
  rw [← hz, pow_succ']
  push_cast
  ring

/-- The operations on a generator. -/
inductive QrngOp (K : Type) where
  | next
  | discard (n : Nat)
  | reset (seed : K)

/-- The points that a sequence of operations returns. -/
def qrngRun : List (QrngOp K) → QuasiRandom K → Option (List (List K))
  | [], _ => some []
  | .next :: ops, g => do
    let r ← qrngNext g
    let rest ← qrngRun ops r.2
    return r.1 :: rest
  | .discard n :: ops, g => do
    let g ← qrngDiscard n g
    qrngRun ops g
  | .reset seed :: ops, g => qrngRun ops (qrngReset g seed)

/-- Every point that is returned, in any history of calls, `discard`s and `reset`s, has `dim` coordinates in `[0, 1)`. -/
theorem C49_qrng_history (phid : K) (hp : 1 ≤ phid) (dim : Nat) (seed : K) (h0 : 0 ≤ seed) (h1 : seed + 1 < 2 ^ 64) (ops : List (QrngOp K))
    (hops : ∀ s, QrngOp.reset s ∈ ops → 0 ≤ s ∧ s + 1 < 2 ^ 64) :
    ∃ points, qrngRun ops (qrngCtor phid dim seed) = some points ∧ ∀ p ∈ points, p.length = dim ∧ ∀ x ∈ p, 0 ≤ x ∧ x < 1 := by
  suffices h : ∀ (ops : List (QrngOp K)) (g : QuasiRandom K), (∀ s, QrngOp.reset s ∈ ops → 0 ≤ s ∧ s + 1 < 2 ^ 64) → QrngOk g → g.dim = dim →
      ∃ points, qrngRun ops g = some points ∧ ∀ p ∈ points, p.length = dim ∧ ∀ x ∈ p, 0 ≤ x ∧ x < 1 from
    h ops _ hops (qrngCtor_ok phid hp dim seed h0 h1) rfl
  intro ops
  induction ops with
  | nil => intro g _ _ _; exact ⟨[], rfl, by simp⟩
  | cons op ops ih =>
    intro g hops hg hd
    have hops' : ∀ s, QrngOp.reset s ∈ ops → 0 ≤ s ∧ s + 1 < 2 ^ 64 := fun s hs => hops s (by simp [hs])
    cases op with
    | next =>
      obtain ⟨r, e, r1, r2, _, _, _, r6, r7, _⟩ := qrngNext_spec g hg
      obtain ⟨pts, ep, hpts⟩ := ih r.2 hops' r1 (by rw [r2, hd])
      refine ⟨r.1 :: pts, ?_, ?_⟩
      · unfold qrngRun
        simp only [e, ep, Option.bind_eq_bind, Option.bind_some]
        rfl
      · intro p hp
        rcases List.mem_cons.mp hp with rfl | hp
        · exact ⟨by rw [r6, hd], r7⟩
        · exact hpts p hp
    | discard n =>
      obtain ⟨g', e, g1, g2, _, _⟩ := qrngDiscard_spec n g hg
      obtain ⟨pts, ep, hpts⟩ := ih g' hops' g1 (by rw [g2, hd])
      refine ⟨pts, ?_, hpts⟩
      unfold qrngRun
      simp only [e, ep, Option.bind_eq_bind, Option.bind_some]
    | reset s =>
      obtain ⟨hs0, hs1⟩ := hops s (by simp)
      exact ih (qrngReset g s) hops' (qrngReset_ok g hg s hs0 hs1) hd
end

/-- `phi(dim)` is greater than one, so that the theorems about the sequence apply. -/
theorem C49_phi (dim : Nat) : 1 < qrngPhi dim := by
  have h : ∀ (n : Nat) (x : ℝ), 1 ≤ x → 1 ≤ qrngPhiLoop dim n x ∧ (0 < n → 1 < qrngPhiLoop dim n x) := by
    intro n
    induction n with
    | zero => intro x hx; exact ⟨hx, fun h0 => absurd h0 (lt_irrefl _)⟩
    | succ n ih =>
      intro x hx
      have hstep : 1 < (1 + x) ^ (1 / ((dim : ℝ) + 1)) := Real.one_lt_rpow (by linarith) (by positivity)
      unfold qrngPhiLoop
      refine ⟨(ih _ hstep.le).1, fun _ => ?_⟩
      rcases Nat.eq_zero_or_pos n with rfl | hn
      · exact hstep
      · exact (ih _ hstep.le).2 hn
  exact (h 30 1 (le_refl _)).2 (by norm_num)

/-! ## The mappings -/

/-- Sorting maps the unit cube to the unit simplex with one more coordinate. -/
theorem C49_map_sort (sort : List K → List K) (hsort : ∀ l, (sort l).Perm l ∧ (sort l).Pairwise (· ≤ ·)) (point : List K) (h : ∀ p ∈ point, 0 ≤ p ∧ p ≤ 1) :
    ∃ r, simplexMappingSort sort point = some r ∧ r.length = point.length + 1 ∧ OnSimplex r :=
  simplexMappingSort_spec sort hsort point h

/-- Whenever the mirroring ends, it returns a point of the simplex. -/
theorem C49_map_mirror_result (fuel : Nat) (point r : List K) (h : ∀ p ∈ point, 0 ≤ p ∧ p ≤ 1) (hr : simplexMappingMirror fuel point = some r) :
    r.length = point.length + 1 ∧ OnSimplex r :=
  simplexMappingMirror_done fuel point r h hr

omit [LinearOrder K] [IsStrictOrderedRing K] in
theorem common_denominator : ∀ (point : List ℚ), ∃ N : Nat, 0 < N ∧ ∀ p ∈ point, ∃ z : ℤ, (N : ℚ) * p = z
  | [] => ⟨1, Nat.one_pos, by simp⟩
  | q :: qs => by
      obtain ⟨N, hN, h⟩ := common_denominator qs
      refine ⟨q.den * N, Nat.mul_pos q.den_pos hN, ?_⟩
      intro p hp
      rcases List.mem_cons.mp hp with rfl | hp
      · refine ⟨N * p.num, ?_⟩
        have := Rat.mul_den_eq_num p
        push_cast
        rw [← this]
        ring
      · obtain ⟨z, hz⟩ := h p hp
        refine ⟨q.den * z, ?_⟩
        push_cast
        rw [mul_assoc, hz]

/-- The mirroring ends for every rational point of the cube (floating-point numbers are rational). -/
theorem C49_map_mirror (point : List ℚ) (h : ∀ p ∈ point, 0 ≤ p ∧ p ≤ 1) :
    ∃ fuel r, simplexMappingMirror fuel point = some r ∧ r.length = point.length + 1 ∧ OnSimplex r := by
  obtain ⟨N, hN, hg⟩ := common_denominator point
  obtain ⟨fuel, r, hr⟩ := simplexMappingMirror_ends N hN point h hg
  exact ⟨fuel, r, hr, simplexMappingMirror_done fuel point r h hr⟩

theorem rootLoop_sorted : ∀ (ps : List ℝ) (prev : ℝ), 0 ≤ prev → (∀ p ∈ ps, 0 ≤ p ∧ p ≤ 1) →
    (rootLoop prev ps).length = ps.length ∧ (prev :: rootLoop prev ps).Pairwise (· ≥ ·) ∧ ∀ x ∈ rootLoop prev ps, 0 ≤ x
  | [], _, _, _ => ⟨rfl, by simp [rootLoop], by simp [rootLoop]⟩
  | p :: ps, prev, h0, h => by
      have hp := h p (by simp)
      have hpow0 : 0 ≤ p ^ (1 / ((ps.length : ℝ) + 1)) := Real.rpow_nonneg hp.1 _
      have hpow1 : p ^ (1 / ((ps.length : ℝ) + 1)) ≤ 1 := Real.rpow_le_one hp.1 hp.2 (by positivity)
      have hv0 : 0 ≤ prev * p ^ (1 / ((ps.length : ℝ) + 1)) := mul_nonneg h0 hpow0
      have hv1 : prev * p ^ (1 / ((ps.length : ℝ) + 1)) ≤ prev := mul_le_of_le_one_right h0 hpow1
      obtain ⟨i1, i2, i3⟩ := rootLoop_sorted ps (prev * p ^ (1 / ((ps.length : ℝ) + 1))) hv0 (fun q hq => h q (by simp [hq]))
      unfold rootLoop
      refine ⟨by rw [List.length_cons, i1, List.length_cons], ?_, ?_⟩
      · rw [List.pairwise_cons]
        refine ⟨?_, i2⟩
        intro x hx
        rcases List.mem_cons.mp hx with rfl | hx
        · exact hv1
        · exact le_trans ((List.pairwise_cons.mp i2).1 x hx) hv1
      · intro x hx
        rcases List.mem_cons.mp hx with rfl | hx
        · exact hv0
        · exact i3 x hx

/-- The roots map the unit cube to the unit simplex with one more coordinate. -/
theorem C49_map_root (point : List ℝ) (h : ∀ p ∈ point, 0 ≤ p ∧ p ≤ 1) : ∃ r, simplexMappingRoot point = some r ∧ r.length = point.length + 1 ∧ OnSimplex r := by
  unfold simplexMappingRoot
  rw [if_pos (show inUnitCube point from h)]
  have hrev : point.length = point.reverse.length := by simp
  have hmem : ∀ p ∈ point.reverse, 0 ≤ p ∧ p ≤ 1 := fun p hp => h p (by simpa using hp)
  generalize point.reverse = l at hrev hmem
  cases l with
  | nil =>
    refine ⟨[1], rfl, by simp at hrev; simp [hrev], ?_, by simp⟩
    intro x hx
    rw [List.mem_singleton.mp hx]
    exact zero_le_one
  | cons p rest =>
    have hp := hmem p (by simp)
    have hpow0 : 0 ≤ p ^ (1 / ((rest.length : ℝ) + 1)) := Real.rpow_nonneg hp.1 _
    have hpow1 : p ^ (1 / ((rest.length : ℝ) + 1)) ≤ 1 := Real.rpow_le_one hp.1 hp.2 (by positivity)
    obtain ⟨i1, i2, i3⟩ := rootLoop_sorted rest (p ^ (1 / ((rest.length : ℝ) + 1))) hpow0 (fun q hq => hmem q (by simp [hq]))
    have hle : ∀ x ∈ p ^ (1 / ((rest.length : ℝ) + 1)) :: rootLoop (p ^ (1 / ((rest.length : ℝ) + 1))) rest, 0 ≤ x ∧ x ≤ 1 := by
      intro x hx
      rcases List.mem_cons.mp hx with rfl | hx
      · exact ⟨hpow0, hpow1⟩
      · exact ⟨i3 x hx, le_trans ((List.pairwise_cons.mp i2).1 x hx) hpow1⟩
    refine ⟨_, rfl, ?_, onSimplex_of_sorted _ ?_ ?_ ?_⟩
    · rw [adjacentDifference_length, hrev, List.length_append, List.length_reverse, List.length_cons, i1]
      rfl
    · rw [List.pairwise_append]
      refine ⟨List.pairwise_reverse.mpr i2, by simp, ?_⟩
      intro x hx y hy
      rw [List.mem_singleton.mp hy]
      exact (hle x (List.mem_reverse.mp hx)).2
    · intro x hx
      rcases List.mem_append.mp hx with hx | hx
      · exact (hle x (List.mem_reverse.mp hx)).1
      · rw [List.mem_singleton.mp hx]; exact zero_le_one
    · simp

/-- The logarithms map the points of the unit cube that are not all ones to the unit simplex with as many coordinates. -/
theorem C49_map_log (small : ℝ) (h0 : 0 < small) (h1 : small < 1) (point : List ℝ) (h : ∀ p ∈ point, 0 ≤ p ∧ p ≤ 1) (hlt : ∃ p ∈ point, p < 1) :
    ∃ r, simplexMappingLog small point = some r ∧ r.length = point.length ∧ OnSimplex r := by
  unfold simplexMappingLog
  rw [if_pos (show inUnitCube point from h)]
  have hnn : ∀ p ∈ point, 0 ≤ -Real.log (max p small) := by
    intro p hp
    have := Real.log_nonpos (le_trans h0.le (le_max_right p small)) (max_le (h p hp).2 h1.le)
    linarith
  have hnn' : ∀ x ∈ point.map (fun p => -Real.log (max p small)), 0 ≤ x := by
    intro x hx
    obtain ⟨p, hp, rfl⟩ := List.mem_map.mp hx
    exact hnn p hp
  have hpos : 0 < (point.map (fun p => -Real.log (max p small))).sum := by
    obtain ⟨p, hp, hp1⟩ := hlt
    have h2 : 0 < -Real.log (max p small) := by
      have := Real.log_neg (lt_of_lt_of_le h0 (le_max_right p small)) (max_lt hp1 h1)
      linarith
    exact lt_of_lt_of_le h2 (List.single_le_sum hnn' _ (List.mem_map.mpr ⟨p, hp, rfl⟩))
  refine ⟨_, rfl, by simp, ?_, ?_⟩
  · intro x hx
    obtain ⟨y, hy, rfl⟩ := List.mem_map.mp hx
    exact div_nonneg (hnn' y hy) hpos.le
  · generalize point.map (fun p => -Real.log (max p small)) = l at hpos
    have : ∀ (l : List ℝ) (c : ℝ), (l.map (fun x => x / c)).sum = l.sum / c := by
      intro l c
      induction l with
      | nil => simp
      | cons x l ih => simp only [List.map_cons, List.sum_cons, ih]; ring
    rw [this]
    exact div_self (ne_of_gt hpos)

/-! ## The generated points -/

section
variable [FloorRing K]

/-- The default seed is one half. -/
theorem default_seed : (0 : K) ≤ 1 / 2 ∧ (1 / 2 : K) + 1 < 2 ^ 64 := by constructor <;> norm_num

theorem simplexPoints_of_map (F : List K → Option (List K)) (phid : K) (hp : 1 ≤ phid) (inputDim dim n : Nat) (hdim : dim ≠ 0) (hF : MapsToSimplex F inputDim dim) :
    ∃ pts, quasirandomSimplexPoints F inputDim phid dim n = some pts ∧ SimplexPoints dim n pts := by
  unfold quasirandomSimplexPoints
  rw [if_neg hdim]
  exact simplexPointsLoop_spec F inputDim dim hF n _ (qrngCtor_ok phid hp inputDim _ default_seed.1 default_seed.2) rfl

/-- `quasirandomSimplexPointsSort` returns the requested number of points of the simplex, in every dimension. -/
theorem C49_points_sort (sort : List K → List K) (hsort : ∀ l, (sort l).Perm l ∧ (sort l).Pairwise (· ≤ ·)) (phid : K) (hp : 1 ≤ phid) (dim n : Nat) (hdim : dim ≠ 0) :
    ∃ pts, quasirandomSimplexPoints (simplexMappingSort sort) (dim - 1) phid dim n = some pts ∧ SimplexPoints dim n pts := by
  refine simplexPoints_of_map _ phid hp _ _ _ hdim ?_
  intro p hl hx
  obtain ⟨r, e, h1, h2⟩ := C49_map_sort sort hsort p (fun x h => ⟨(hx x h).1, (hx x h).2.le⟩)
  exact ⟨r, e, by omega, h2⟩
end

/-- `quasirandomSimplexPointsRoot`, with the `phi` of the generator. -/
theorem C49_points_root (dim n : Nat) (hdim : dim ≠ 0) :
    ∃ pts, quasirandomSimplexPoints simplexMappingRoot (dim - 1) (qrngPhi (dim - 1)) dim n = some pts ∧ SimplexPoints dim n pts := by
  refine simplexPoints_of_map _ _ (C49_phi _).le _ _ _ hdim ?_
  intro p hl hx
  obtain ⟨r, e, h1, h2⟩ := C49_map_root p (fun x h => ⟨(hx x h).1, (hx x h).2.le⟩)
  exact ⟨r, e, by omega, h2⟩

/-- `quasirandomSimplexPointsLog`. -/
theorem C49_points_log (small : ℝ) (h0 : 0 < small) (h1 : small < 1) (dim n : Nat) (hdim : dim ≠ 0) :
    ∃ pts, quasirandomSimplexPoints (simplexMappingLog small) dim (qrngPhi dim) dim n = some pts ∧ SimplexPoints dim n pts := by
  refine simplexPoints_of_map _ _ (C49_phi _).le _ _ _ hdim ?_
  intro p hl hx
  have hne : p ≠ [] := by intro h; rw [h] at hl; exact hdim hl.symm
  obtain ⟨q, hq⟩ := List.exists_mem_of_ne_nil p hne
  obtain ⟨r, e, h3, h4⟩ := C49_map_log small h0 h1 p (fun x h => ⟨(hx x h).1, (hx x h).2.le⟩) ⟨q, hq, (hx q hq).2⟩
  exact ⟨r, e, by omega, h4⟩

theorem mirrorLoop_mono : ∀ (fuel fuel' last : Nat) (x r : List K), fuel ≤ fuel' → mirrorLoop fuel last x = some r → mirrorLoop fuel' last x = some r := by
  intro fuel
  induction fuel with
  | zero => intro fuel' last x r _ h; simp [mirrorLoop] at h
  | succ fuel ih =>
    intro fuel' last x r hf h
    obtain ⟨f, rfl⟩ : ∃ f, fuel' = f + 1 := ⟨fuel' - 1, by omega⟩
    unfold mirrorLoop at h ⊢
    obtain ⟨y, ey, h⟩ := Option.bind_eq_some_iff.mp h
    rw [ey]
    show (if y.2 = false ∧ last = 0 then pure y.1 else if y.2 = false then mirrorLoop f (last - 1) y.1 else mirrorLoop f last y.1) = some r
    split at h
    · rename_i hc; rw [if_pos hc]; exact h
    · rename_i hc
      rw [if_neg hc]
      split at h
      · rename_i hb; rw [if_pos hb]; exact ih f _ _ _ (by omega) h
      · rename_i hb; rw [if_neg hb]; exact ih f _ _ _ (by omega) h

theorem simplexMappingMirror_mono (fuel fuel' : Nat) (point r : List K) (hf : fuel ≤ fuel') (h : simplexMappingMirror fuel point = some r) : simplexMappingMirror fuel' point = some r := by
  unfold simplexMappingMirror at h ⊢
  split at h
  · rename_i hc
    rw [if_pos hc]
    split at h
    · rename_i h0; rw [if_pos h0]; exact h
    · rename_i h0
      rw [if_neg h0]
      obtain ⟨x, ex, h⟩ := Option.bind_eq_some_iff.mp h
      rw [mirrorLoop_mono fuel fuel' _ _ x hf ex]
      exact h
  · cases h

theorem simplexPointsLoop_mono [FloorRing K] (F F' : List K → Option (List K)) (hF : ∀ p r, F p = some r → F' p = some r) (dim : Nat) :
    ∀ (n : Nat) (g : QuasiRandom K) (pts : List (List K)), simplexPointsLoop F dim n g = some pts → simplexPointsLoop F' dim n g = some pts
  | 0, _, _, h => h
  | n + 1, g, pts, h => by
      unfold simplexPointsLoop at h ⊢
      obtain ⟨r, er, h⟩ := Option.bind_eq_some_iff.mp h
      obtain ⟨p, ep, h⟩ := Option.bind_eq_some_iff.mp h
      simp only [er, hF _ _ ep, Option.bind_eq_bind, Option.bind_some]
      split at h
      · rename_i hl
        rw [if_pos hl]
        obtain ⟨rest, e, h⟩ := Option.bind_eq_some_iff.mp h
        rw [simplexPointsLoop_mono F F' hF dim n r.2 rest e]
        exact h
      · cases h

/-- `quasirandomSimplexPointsMirror` (the default of NSGA-III) ends and returns the requested number of points of the simplex, for any rational value of `phi`. -/
theorem C49_points_mirror (phid : ℚ) (hp : 1 ≤ phid) (dim n : Nat) (hdim : dim ≠ 0) :
    ∃ (fuel : Nat) (pts : List (List ℚ)), quasirandomSimplexPoints (simplexMappingMirror fuel) (dim - 1) phid dim n = some pts ∧ SimplexPoints dim n pts := by
  have key : ∀ (n : Nat) (g : QuasiRandom ℚ), QrngOk g → g.dim = dim - 1 → ∃ (fuel : Nat) (pts : List (List ℚ)), simplexPointsLoop (simplexMappingMirror fuel) dim n g = some pts ∧ SimplexPoints dim n pts := by
    intro n
    induction n with
    | zero => intro g _ _; exact ⟨0, [], rfl, rfl, by simp⟩
    | succ n ih =>
      intro g hg hd
      obtain ⟨r, e, r1, r2, _, _, _, r6, r7, _⟩ := qrngNext_spec g hg
      obtain ⟨f1, p, ep, p1, p2⟩ := C49_map_mirror r.1 (fun x h => ⟨(r7 x h).1, (r7 x h).2.le⟩)
      obtain ⟨f2, pts, e', l1, l2⟩ := ih r.2 r1 (by rw [r2, hd])
      have e1 := simplexMappingMirror_mono f1 (max f1 f2) _ _ (le_max_left _ _) ep
      have e2 := simplexPointsLoop_mono _ (simplexMappingMirror (max f1 f2)) (fun q s hq => simplexMappingMirror_mono f2 (max f1 f2) q s (le_max_right _ _) hq) dim n _ _ e'
      have hpl : p.length = dim := by omega
      refine ⟨max f1 f2, p :: pts, ?_, by simp [l1], ?_⟩
      · unfold simplexPointsLoop
        simp only [e, e1, Option.bind_eq_bind, Option.bind_some, if_pos hpl, e2]
        rfl
      · intro q hq
        rcases List.mem_cons.mp hq with rfl | hq
        · exact ⟨hpl, p2⟩
        · exact l2 q hq
  obtain ⟨fuel, pts, e, h⟩ := key n _ (qrngCtor_ok phid hp (dim - 1) _ default_seed.1 default_seed.2) rfl
  refine ⟨fuel, pts, ?_, h⟩
  unfold quasirandomSimplexPoints
  rw [if_neg hdim]
  exact e

/-! ## The sparse subset -/

/-- `pickSparseSubset` returns the requested number of the generated points, each of them as far as possible from those picked before it. -/
theorem C49_sparse (dim n k : Nat) (hd : dim ≠ 0) (hn : n ≠ 0) (hk : k ≠ 0) (generator : Nat → Nat → Option (List (List K))) (cands : List (List K))
    (hg : generator dim (k * n) = some cands) (hc : cands.length = k * n) :
    ∃ picked, pickSparseSubset dim n generator k = some picked ∧ SparseSubset cands n picked := by
  have hkn : n ≤ k * n := Nat.le_mul_of_pos_left n (by omega)
  have hne : cands ≠ [] := by intro h; rw [h] at hc; simp only [List.length_nil] at hc; omega
  have hperm : ([cands.getLast hne] ++ cands.dropLast).Perm cands := by
    conv_rhs => rw [← List.dropLast_append_getLast hne]
    exact List.perm_append_comm
  obtain ⟨s, e, hinv, hlen⟩ := sparseLoop_spec cands (n - 1) ⟨[cands.getLast hne], cands.dropLast, cands.dropLast.map (euclideanDistanceSq (cands.getLast hne))⟩ (by
    refine ⟨hperm, by simp, ?_, ?_⟩
    · intro j c d hj hd
      dsimp only at hj hd ⊢
      rw [List.getElem?_map, hj, Option.map_some, Option.some.injEq] at hd
      subst hd
      exact ⟨⟨_, by simp, rfl⟩, fun a ha => by rw [List.mem_singleton.mp ha]; exact le_refl _⟩
    · intro i p hi hp
      have := (List.getElem?_eq_some_iff.mp hp).1
      simp only [List.length_singleton] at this
      omega) (by dsimp only; rw [List.length_dropLast, hc]; omega)
  refine ⟨s.points, ?_, ?_, s.candidates, hinv.perm, hinv.greedy⟩
  · unfold pickSparseSubset
    rw [if_neg (by simp [hd, hn]), hg]
    simp only [Option.bind_eq_bind, Option.bind_some, List.getLast?_eq_some_getLast hne, e]
    rfl
  · rw [hlen]
    simp only [List.length_singleton]
    omega

/-- Without dimensions or points the result is empty. -/
theorem C49_sparse_empty (dim n k : Nat) (h : dim = 0 ∨ n = 0) (generator : Nat → Nat → Option (List (List K))) : pickSparseSubset dim n generator k = some [] := by
  unfold pickSparseSubset
  rw [if_pos (by rcases h with rfl | rfl <;> simp)]

/-- The sparse subset of points of the simplex. -/
theorem C49_sparse_simplex (cands : List (List K)) (dim m n : Nat) (picked : List (List K)) (hc : SimplexPoints dim m cands) (h : SparseSubset cands n picked) : SimplexPoints dim n picked := by
  obtain ⟨h1, left, h2, _⟩ := h
  exact ⟨h1, fun p hp => hc.2 p (h2.mem_iff.mp (List.mem_append_left _ hp))⟩

end

/-! ## The reference lines of NSGA-III -/

/-- Points of the simplex become reference lines of length one without negative coordinates. -/
theorem C49_reference_lines (generator : Nat → Nat → Option (List (List ℝ))) (dim n : Nat) (pts : List (List ℝ)) (hg : generator dim n = some pts) (hp : SimplexPoints dim n pts) :
    ∃ lines, generateReferencePoints Real.sqrt generator dim n = some lines ∧ lines.length = n ∧ (∀ l ∈ lines, l.length = dim) ∧ UnitDirections lines := by
  refine ⟨pts.map (normalizeVector Real.sqrt), ?_, by rw [List.length_map]; exact hp.1, ?_, ?_⟩
  · unfold generateReferencePoints
    rw [hg]
    rfl
  · intro l hl
    obtain ⟨p, hpm, rfl⟩ := List.mem_map.mp hl
    unfold normalizeVector
    rw [List.length_map]
    exact (hp.2 p hpm).1
  · intro l hl
    obtain ⟨p, hpm, rfl⟩ := List.mem_map.mp hl
    obtain ⟨_, h0, h1⟩ := hp.2 p hpm
    have hip : 0 < innerProduct p p := by
      rcases lt_or_eq_of_le (innerProduct_self_nonneg p) with h | h
      · exact h
      · exfalso
        rw [innerProduct_self] at h
        have hz : ∀ x ∈ p, x = 0 := by
          intro x hx
          have := List.single_le_sum (l := p.map (fun x => x ^ 2)) (fun y hy => by obtain ⟨z, _, rfl⟩ := List.mem_map.mp hy; exact sq_nonneg z) (x ^ 2) (List.mem_map.mpr ⟨x, hx, rfl⟩)
          rw [← h] at this
          exact pow_eq_zero_iff two_ne_zero |>.mp (le_antisymm this (sq_nonneg x))
        have : p.sum = 0 := List.sum_eq_zero hz
        rw [this] at h1
        exact zero_ne_one h1
    have hs : 0 < Real.sqrt (innerProduct p p) := Real.sqrt_pos.mpr hip
    have hs2 : Real.sqrt (innerProduct p p) ^ 2 = innerProduct p p := Real.sq_sqrt hip.le
    unfold normalizeVector
    constructor
    · rw [List.map_map]
      have : ∀ (l : List ℝ) (c : ℝ), (l.map ((fun x => x ^ 2) ∘ fun x => x / c)).sum = (l.map (fun x => x ^ 2)).sum / c ^ 2 := by
        intro l c
        induction l with
        | nil => simp
        | cons x l ih => simp only [List.map_cons, List.sum_cons, ih, Function.comp]; ring
      rw [this, hs2, ← innerProduct_self]
      exact div_self (ne_of_gt hip)
    · intro x hx
      obtain ⟨y, hy, rfl⟩ := List.mem_map.mp hx
      exact div_nonneg (h0 y hy) hs.le

/-! ## Concrete cases -/

/-- The mirroring of a point that needs several passes. -/
example : simplexMappingMirror 20 [(2 : ℚ) / 12, 0, 1, 1 / 12] = some [1 / 6, 3 / 4, 0, 0, 1 / 12] := by decide +kernel

example : ∃ fuel r, simplexMappingMirror fuel [(2 : ℚ) / 12, 0, 1, 1 / 12] = some r ∧ r.length = 5 ∧ OnSimplex r := C49_map_mirror _ (by decide +kernel)

theorem insertionSort_ok (l : List ℚ) : (l.insertionSort (· ≤ ·)).Perm l ∧ (l.insertionSort (· ≤ ·)).Pairwise (· ≤ ·) :=
  ⟨List.perm_insertionSort _ l, List.pairwise_insertionSort _ l⟩

example : simplexMappingSort (List.insertionSort (· ≤ ·)) [(1 : ℚ) / 2, 1 / 3] = some [1 / 3, 1 / 6, 1 / 2] := by decide +kernel

example : ∃ pts, quasirandomSimplexPoints (simplexMappingSort (List.insertionSort (· ≤ ·))) 2 (3 / 2 : ℚ) 3 5 = some pts ∧ SimplexPoints 3 5 pts :=
  C49_points_sort _ insertionSort_ok (3 / 2) (by norm_num) 3 5 (by decide)

example : pickSparseSubset 1 3 (fun _ _ => some [[(0 : ℚ)], [1], [5], [6], [9], [10]]) 2 = some [[10], [0], [5]] := by decide +kernel

example : ∃ picked, pickSparseSubset 1 3 (fun _ _ => some [[(0 : ℚ)], [1], [5], [6], [9], [10]]) 2 = some picked ∧ SparseSubset [[(0 : ℚ)], [1], [5], [6], [9], [10]] 3 picked :=
  C49_sparse 1 3 2 (by decide) (by decide) (by decide) _ _ rfl rfl

example : ∃ lines, generateReferencePoints Real.sqrt (quasirandomSimplexPoints simplexMappingRoot 2 (qrngPhi 2)) 3 10 = some lines ∧ lines.length = 10 ∧ (∀ l ∈ lines, l.length = 3) ∧ UnitDirections lines := by
  obtain ⟨pts, h1, h2⟩ := C49_points_root 3 10 (by decide)
  exact C49_reference_lines _ 3 10 pts h1 h2

example : ∃ points, qrngRun [.next, .discard 3, .next, .reset (7 : ℚ), .next] (qrngCtor (3 / 2) 2 (1 / 2)) = some points ∧ ∀ p ∈ points, p.length = 2 ∧ ∀ x ∈ p, 0 ≤ x ∧ x < 1 :=
  C49_qrng_history (3 / 2) (by norm_num) 2 (1 / 2) (by norm_num) (by norm_num) _ (by
    intro s hs
    simp only [List.mem_cons, reduceCtorEq, QrngOp.reset.injEq, List.not_mem_nil, or_false, false_or] at hs
    subst hs
    norm_num)

end Gapp.Props
