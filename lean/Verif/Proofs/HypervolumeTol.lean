import Verif.Proofs.Hypervolume
import Verif.Spec.HypervolumeTol
/-!
# The hypervolume with tolerant comparisons
-/

namespace Gapp.Props
open Gapp.Model Gapp.Spec MeasureTheory

/-- Every coordinate of the points is a coordinate of the same objective of some point of `orig`. -/
def ColsFrom (m : Nat) (orig ps : List (List ℝ)) : Prop := ∀ p ∈ ps, ∀ i : Fin m, ∃ q ∈ orig, p.getD i 0 = q.getD i 0

theorem colsFrom_limit (m : Nat) (orig : List (List ℝ)) (p : List ℝ) (ps : List (List ℝ)) (hm : IsMatrix m (p :: ps)) (h : ColsFrom m orig (p :: ps)) :
    ColsFrom m orig (ps.map (fun r => List.zipWith min r p)) := by
  intro q hq i
  obtain ⟨r, hr, rfl⟩ := List.mem_map.mp hq
  rw [getD_zipWith_min m r p (hm r (by simp [hr])) (hm p (by simp)) i]
  rcases le_total (r.getD i 0) (p.getD i 0) with hle | hle
  · rw [min_eq_left hle]
    exact h r (by simp [hr]) i
  · rw [min_eq_right hle]
    exact h p (by simp) i

/-- No coordinate of `p` is greater than that of `q` by more than the tolerance. -/
def TolBelow (m : Nat) (t : Tol ℝ) (p q : List ℝ) : Prop := ∀ i : Fin m, p.getD i 0 - q.getD i 0 ≤ t.at (max |p.getD i 0| |q.getD i 0|)

theorem tolBelow_of_less (m : Nat) (t : Tol ℝ) (p q : List ℝ) (hp : p.length = m) (hq : q.length = m) (h : paretoCompareLess t (p.map Flt.fin) (q.map Flt.fin) = true) : TolBelow m t p q := by
  unfold paretoCompareLess at h
  split at h
  · cases h
  · rename_i hn
    intro i
    have h1 : (i : Nat) < p.length := by rw [hp]; exact i.2
    have h2 : (i : Nat) < q.length := by rw [hq]; exact i.2
    by_contra hc
    apply hn
    rw [List.any_eq_true]
    refine ⟨(Flt.fin (p.getD i 0), Flt.fin (q.getD i 0)), ?_, ?_⟩
    · refine List.mem_iff_getElem?.mpr ⟨i, ?_⟩
      rw [List.getElem?_zip_eq_some]
      simp [List.getD_eq_getElem?_getD, h1, h2]
    · show decide _ = true
      rw [decide_eq_true_eq, max_comm]
      exact not_le.mp hc

theorem volume_union_loss (m : Nat) (ref : List ℝ) (front : List (List ℝ)) (D : ℝ) (hD : 0 ≤ D) : ∀ ps : List (List ℝ),
    (∀ p ∈ ps, ∃ q ∈ front, (volume (box m ref p \ box m ref q)).toReal ≤ D) → dominatedVolume m ref ps ≤ dominatedVolume m ref front + ps.length * D := by
  intro ps h
  have key : ∀ ps : List (List ℝ), (∀ p ∈ ps, ∃ q ∈ front, (volume (box m ref p \ box m ref q)).toReal ≤ D) →
      (volume (dominatedRegion m ref ps \ dominatedRegion m ref front)).toReal ≤ ps.length * D := by
    intro ps
    induction ps with
    | nil => intro _; rw [region_nil]; simp
    | cons p ps ih =>
      intro h
      obtain ⟨q, hq, hl⟩ := h p (by simp)
      have hfin1 : volume (box m ref p \ box m ref q) ≠ ⊤ := ne_top_of_le_ne_top (box_finite m ref p) (measure_mono Set.diff_subset)
      have hfin2 : volume (dominatedRegion m ref ps \ dominatedRegion m ref front) ≠ ⊤ := ne_top_of_le_ne_top (region_finite m ref ps) (measure_mono Set.diff_subset)
      have hsub : dominatedRegion m ref (p :: ps) \ dominatedRegion m ref front ⊆ (box m ref p \ box m ref q) ∪ (dominatedRegion m ref ps \ dominatedRegion m ref front) := by
        rw [region_cons]
        rintro x ⟨hx | hx, hn⟩
        · exact Or.inl ⟨hx, fun hxq => hn ⟨q, hq, hxq⟩⟩
        · exact Or.inr ⟨hx, hn⟩
      have h1 := ENNReal.toReal_mono (ENNReal.add_ne_top.mpr ⟨hfin1, hfin2⟩) ((measure_mono hsub).trans (measure_union_le (μ := volume) _ _))
      rw [ENNReal.toReal_add hfin1 hfin2] at h1
      have h2 := ih (fun p' hp' => h p' (by simp [hp']))
      rw [List.length_cons, Nat.cast_succ, add_mul, one_mul]
      linarith
  have hk := key ps h
  have hsub : dominatedRegion m ref ps ⊆ dominatedRegion m ref front ∪ (dominatedRegion m ref ps \ dominatedRegion m ref front) := by
    intro x hx
    by_cases hf : x ∈ dominatedRegion m ref front
    · exact Or.inl hf
    · exact Or.inr ⟨hx, hf⟩
  have hfin2 : volume (dominatedRegion m ref ps \ dominatedRegion m ref front) ≠ ⊤ := ne_top_of_le_ne_top (region_finite m ref ps) (measure_mono Set.diff_subset)
  have h1 := ENNReal.toReal_mono (ENNReal.add_ne_top.mpr ⟨region_finite m ref front, hfin2⟩) ((measure_mono hsub).trans (measure_union_le (μ := volume) _ _))
  rw [ENNReal.toReal_add (region_finite m ref front) hfin2] at h1
  unfold dominatedVolume
  linarith

/-- The bound of the volume that is lost by leaving out one point. -/
def LossBound (m : Nat) (t : Tol ℝ) (ref : List ℝ) (orig : List (List ℝ)) (D : ℝ) : Prop :=
  0 ≤ D ∧ ∀ ps : List (List ℝ), IsMatrix m ps → ColsFrom m orig ps → RefBelow ref ps → ∀ p ∈ ps, ∀ q ∈ ps, TolBelow m t p q → (volume (box m ref p \ box m ref q)).toReal ≤ D

theorem uniqueSortedParetoFront_tol (m : Nat) (t : Tol ℝ) (sort : RowSort ℝ) (fmat : List (List ℝ)) (hm : IsMatrix m fmat) (hs : (sort fmat).Perm (List.range fmat.length)) :
    ∃ front, uniqueSortedParetoFront t sort fmat = some front ∧ front.length ≤ fmat.length ∧ (∀ p ∈ front, p ∈ fmat) ∧ ∀ p ∈ fmat, ∃ q ∈ front, p = q ∨ TolBelow m t p q := by
  obtain ⟨c1, c2, c3⟩ := frontSortLoop_cover (rowLess t (finRows fmat)) (sort fmat)
  have hidx : ∀ i ∈ sort fmat, i < fmat.length := fun i hi => List.mem_range.mp (hs.mem_iff.mp hi)
  obtain ⟨front, e, _, f2, f3, f4⟩ := appendUnique_spec fmat (findParetoFrontSort t (finRows fmat) (sort fmat)) [] (fun i hi => hidx i (c1 i hi))
  have hsub : ∀ p ∈ front, p ∈ fmat := by
    intro p hp
    rcases f3 p hp with h | ⟨i, _, h⟩
    · simp at h
    · exact List.mem_of_getElem? h
  refine ⟨front, e, ?_, hsub, ?_⟩
  · have hl := hs.length_eq
    rw [List.length_range] at hl
    unfold findParetoFrontSort at f4
    simp only [List.length_nil, Nat.zero_add] at f4
    omega
  · intro p hp
    obtain ⟨i, hi, rfl⟩ := List.mem_iff_getElem.mp hp
    rcases c2 i (hs.mem_iff.mpr (List.mem_range.mpr hi)) with h | ⟨o, ho, hl⟩
    · exact ⟨fmat[i], f2 i h _ (List.getElem?_eq_getElem hi), Or.inl rfl⟩
    · have ho' := hidx o (c1 o ho)
      refine ⟨fmat[o], f2 o ho _ (List.getElem?_eq_getElem ho'), Or.inr (tolBelow_of_less m t _ _ (hm _ (List.getElem_mem hi)) (hm _ (List.getElem_mem ho')) ?_)⟩
      unfold rowLess at hl
      rwa [finRows_getD fmat i hi, finRows_getD fmat o ho'] at hl

theorem front_volume_tol (m : Nat) (t : Tol ℝ) (ref : List ℝ) (orig : List (List ℝ)) (D : ℝ) (hD : LossBound m t ref orig D) (fmat front : List (List ℝ)) (hm : IsMatrix m fmat)
    (hc : ColsFrom m orig fmat) (hb : RefBelow ref fmat) (hsub : ∀ p ∈ front, p ∈ fmat) (hcov : ∀ p ∈ fmat, ∃ q ∈ front, p = q ∨ TolBelow m t p q) :
    |dominatedVolume m ref front - dominatedVolume m ref fmat| ≤ fmat.length * D := by
  have h1 : dominatedVolume m ref front ≤ dominatedVolume m ref fmat := by
    refine ENNReal.toReal_mono (region_finite m ref fmat) (measure_mono ?_)
    rintro x ⟨p, hp, hx⟩
    exact ⟨p, hsub p hp, hx⟩
  have h2 := volume_union_loss m ref front D hD.1 fmat (fun p hp => by
    obtain ⟨q, hq, h⟩ := hcov p hp
    refine ⟨q, hq, ?_⟩
    rcases h with rfl | h
    · simp only [Set.diff_self, measure_empty, ENNReal.toReal_zero]
      exact hD.1
    · exact hD.2 fmat hm hc hb p hp q (hsub q hq) h)
  rw [abs_le]
  constructor <;> linarith [show (0 : ℝ) ≤ fmat.length * D from mul_nonneg (Nat.cast_nonneg _) hD.1]

theorem exclusive_tol (m : Nat) (ref : List ℝ) (hr : ref.length = m) (hv : List (List ℝ) → Option ℝ) (p : List ℝ) (ps : List (List ℝ)) (hps : IsMatrix m (p :: ps)) (hb : RefBelow ref (p :: ps))
    (v E : ℝ) (hhv : hv (ps.map (fun r => List.zipWith min r p)) = some v) (hE : |v - dominatedVolume m ref (ps.map (fun r => List.zipWith min r p))| ≤ E) :
    ∃ e, exclusiveHypervolume hv p ps ref = some e ∧ |e - (dominatedVolume m ref (p :: ps) - dominatedVolume m ref ps)| ≤ E := by
  have hp : p.length = m := hps p (by simp)
  have hps' : IsMatrix m ps := fun r h => hps r (by simp [h])
  have h0 := exclusive_spec m ref hr (fun _ => some (dominatedVolume m ref (ps.map (fun r => List.zipWith min r p)))) p ps hps hb rfl
  unfold exclusiveHypervolume at h0 ⊢
  cases hi : inclusiveHypervolume p ref with
  | none => rw [hi] at h0; simp at h0
  | some a =>
    have hlim : limitSet ps p = some (ps.map (fun r => List.zipWith min r p)) := by
      unfold limitSet
      rw [if_pos (fun r h => by rw [hps' r h, hp])]
    rw [hi, hlim] at h0
    rw [hlim]
    simp only [Option.bind_eq_bind, Option.bind_some, Option.pure_def, Option.some.injEq] at h0
    simp only [Option.bind_eq_bind, Option.bind_some, hhv, Option.pure_def]
    refine ⟨_, rfl, ?_⟩
    rw [← h0]
    rw [show a - v - (a - dominatedVolume m ref (ps.map (fun r => List.zipWith min r p))) = -(v - dominatedVolume m ref (ps.map (fun r => List.zipWith min r p))) by ring, abs_neg]
    exact hE

/-- The errors of the nested volumes add up. -/
theorem geom_errors (D : ℝ) (n : Nat) : ((List.range n).map (fun k => ((2 : ℝ) ^ k - 1) * D)).sum = ((2 : ℝ) ^ n - 1 - n) * D := by
  induction n with
  | zero => simp
  | succ n ih =>
    rw [List.range_succ, List.map_append, List.sum_append, ih]
    simp only [List.map_cons, List.map_nil, List.sum_cons, List.sum_nil, Nat.cast_succ]
    ring

theorem hypervolumeLoop_tol (m : Nat) (ref : List ℝ) (hr : ref.length = m) (orig : List (List ℝ)) (hv : List (List ℝ) → Option ℝ) (E : Nat → ℝ) :
    ∀ (ps : List (List ℝ)) (acc : ℝ), IsMatrix m ps → ColsFrom m orig ps → RefBelow ref ps →
      (∀ qs : List (List ℝ), qs.length < ps.length → IsMatrix m qs → ColsFrom m orig qs → RefBelow ref qs → ∃ v, hv qs = some v ∧ |v - dominatedVolume m ref qs| ≤ E qs.length) →
      ∃ r, hypervolumeLoop hv ref ps acc = some r ∧ |r - (acc + dominatedVolume m ref ps)| ≤ ((List.range ps.length).map E).sum
  | [], acc, _, _, _, _ => by
      refine ⟨acc, rfl, ?_⟩
      unfold dominatedVolume
      rw [region_nil]
      simp
  | p :: ps, acc, hm, hc, hb, h => by
      have hps' : IsMatrix m ps := fun r h => hm r (by simp [h])
      have hb' : RefBelow ref ps := fun r h => hb r (by simp [h])
      have hc' : ColsFrom m orig ps := fun r h => hc r (by simp [h])
      obtain ⟨v, e1, e2⟩ := h _ (by simp) (isMatrix_limit m p (hm p (by simp)) ps hps') (colsFrom_limit m orig p ps hm hc) (refBelow_limit ref p ps hb)
      obtain ⟨e, e3, e4⟩ := exclusive_tol m ref hr hv p ps hm hb v _ e1 e2
      obtain ⟨r, e5, e6⟩ := hypervolumeLoop_tol m ref hr orig hv E ps (acc + e) hps' hc' hb' (fun qs hq => h qs (by simp only [List.length_cons]; omega))
      refine ⟨r, ?_, ?_⟩
      · unfold hypervolumeLoop
        rw [e3]
        exact e5
      · rw [List.length_cons, List.range_succ, List.map_append, List.sum_append]
        simp only [List.map_cons, List.map_nil, List.sum_cons, List.sum_nil, add_zero]
        rw [List.length_map] at e4
        have := abs_add_le (r - (acc + e + dominatedVolume m ref ps)) (e - (dominatedVolume m ref (p :: ps) - dominatedVolume m ref ps))
        rw [show r - (acc + e + dominatedVolume m ref ps) + (e - (dominatedVolume m ref (p :: ps) - dominatedVolume m ref ps)) = r - (acc + dominatedVolume m ref (p :: ps)) by ring] at this
        linarith

theorem err_mono (D : ℝ) (hD : 0 ≤ D) (k n : Nat) (h : k ≤ n) : ((2 : ℝ) ^ k - 1 - k) * D + n * D ≤ ((2 : ℝ) ^ n - 1) * D := by
  rw [← add_mul]
  refine mul_le_mul_of_nonneg_right ?_ hD
  obtain ⟨d, rfl⟩ := Nat.exists_eq_add_of_le h
  have h1 : (1 : ℝ) ≤ 2 ^ k := one_le_pow₀ (by norm_num)
  have h2 : (d : ℝ) + 1 ≤ 2 ^ d := by
    have : d + 1 ≤ 2 ^ d := Nat.lt_two_pow_self
    exact_mod_cast this
  rw [pow_add]
  push_cast
  nlinarith

theorem hypervolumeSeq_tol (m : Nat) (t : Tol ℝ) (ref : List ℝ) (hr : ref.length = m) (orig : List (List ℝ)) (D : ℝ) (hD : LossBound m t ref orig D)
    (sort : RowSort ℝ) (hs : ∀ fmat, IsMatrix m fmat → (sort fmat).Perm (List.range fmat.length)) :
    ∀ (fuel : Nat) (fmat : List (List ℝ)), fmat.length < fuel → IsMatrix m fmat → ColsFrom m orig fmat → RefBelow ref fmat →
      ∃ v, hypervolumeSeq t sort fuel fmat ref = some v ∧ |v - dominatedVolume m ref fmat| ≤ ((2 : ℝ) ^ fmat.length - 1) * D
  | 0, _, h, _, _, _ => absurd h (Nat.not_lt_zero _)
  | fuel + 1, fmat, h, hm, hc, hb => by
      obtain ⟨front, e, f1, f2, f3⟩ := uniqueSortedParetoFront_tol m t sort fmat hm (hs fmat hm)
      obtain ⟨v, e1, e2⟩ := hypervolumeLoop_tol m ref hr orig (fun q => hypervolumeSeq t sort fuel q ref) (fun k => ((2 : ℝ) ^ k - 1) * D) front 0 (fun p hp => hm p (f2 p hp))
        (fun p hp => hc p (f2 p hp)) (fun p hp => hb p (f2 p hp)) (fun qs hq hqm hqc hqb => hypervolumeSeq_tol m t ref hr orig D hD sort hs fuel qs (by omega) hqm hqc hqb)
      refine ⟨v, ?_, ?_⟩
      · unfold hypervolumeSeq
        rw [e]
        exact e1
      · rw [geom_errors, zero_add] at e2
        have h2 := front_volume_tol m t ref orig D hD fmat front hm hc hb f2 f3
        have h3 := abs_add_le (v - dominatedVolume m ref front) (dominatedVolume m ref front - dominatedVolume m ref fmat)
        rw [sub_add_sub_cancel] at h3
        linarith [err_mono D hD.1 front.length fmat.length f1]

/-- The value of the parallel loop is a sum over the schedule. -/
theorem hypervolumeParLoop_sum (hv : List (List ℝ) → Option ℝ) (ref : List ℝ) (front : List (List ℝ)) (ex : Nat → ℝ) :
    ∀ (order : List Nat) (acc : ℝ), (∀ i ∈ order, i < front.length) → (∀ (i : Nat) (h : i < front.length), exclusiveHypervolume hv front[i] (front.drop (i + 1)) ref = some (ex i)) →
      hypervolumeParLoop hv ref front order acc = some (acc + (order.map ex).sum)
  | [], acc, _, _ => by simp [hypervolumeParLoop]
  | i :: order, acc, ho, h => by
      have hi : i < front.length := ho i (by simp)
      unfold hypervolumeParLoop
      rw [List.getElem?_eq_getElem hi]
      simp only [Option.bind_eq_bind, Option.bind_some, h i hi]
      rw [hypervolumeParLoop_sum hv ref front ex order _ (fun j hj => ho j (by simp [hj])) h, List.map_cons, List.sum_cons, add_assoc]

theorem hypervolumeLoop_sum (hv : List (List ℝ) → Option ℝ) (ref : List ℝ) :
    ∀ (front : List (List ℝ)) (ex : Nat → ℝ) (acc : ℝ), (∀ (i : Nat) (h : i < front.length), exclusiveHypervolume hv front[i] (front.drop (i + 1)) ref = some (ex i)) →
      hypervolumeLoop hv ref front acc = some (acc + ((List.range front.length).map ex).sum)
  | [], ex, acc, _ => by simp [hypervolumeLoop]
  | p :: front, ex, acc, h => by
      unfold hypervolumeLoop
      have h0 := h 0 (by simp)
      simp only [List.getElem_cons_zero, Nat.zero_add, List.drop_succ_cons, List.drop_zero] at h0
      rw [h0]
      simp only [Option.bind_eq_bind, Option.bind_some]
      rw [hypervolumeLoop_sum hv ref front (fun i => ex (i + 1)) _ (fun i hi => by
        have := h (i + 1) (by simpa using hi)
        simpa using this), List.length_cons, List.range_succ_eq_map, List.map_cons, List.sum_cons, List.map_map, add_assoc]
      rfl

/-- The parallel version computes what the sequential one does, for every schedule and any tolerances. -/
theorem hypervolume_par_tol (m : Nat) (t : Tol ℝ) (ref : List ℝ) (hr : ref.length = m) (orig : List (List ℝ)) (D : ℝ) (hD : LossBound m t ref orig D)
    (sort : RowSort ℝ) (hs : ∀ fmat, IsMatrix m fmat → (sort fmat).Perm (List.range fmat.length)) (schedule : Nat → List Nat) (hsched : ∀ n, (schedule n).Perm (List.range n))
    (fuel : Nat) (fmat : List (List ℝ)) (hf : fmat.length ≤ fuel) (hm : IsMatrix m fmat) (hc : ColsFrom m orig fmat) (hb : RefBelow ref fmat) :
    hypervolume t sort schedule fuel fmat ref = hypervolumeSeq t sort (fuel + 1) fmat ref := by
  obtain ⟨front, e, f1, f2, f3⟩ := uniqueSortedParetoFront_tol m t sort fmat hm (hs fmat hm)
  have hex : ∀ (i : Nat) (h : i < front.length), ∃ x, exclusiveHypervolume (fun q => hypervolumeSeq t sort fuel q ref) front[i] (front.drop (i + 1)) ref = some x := by
    intro i hi
    have hd : front.drop i = front[i] :: front.drop (i + 1) := List.drop_eq_getElem_cons hi
    have hsub : ∀ p ∈ front[i] :: front.drop (i + 1), p ∈ fmat := by
      rw [← hd]
      exact fun p hp => f2 p (List.mem_of_mem_drop hp)
    have hm' : IsMatrix m (front[i] :: front.drop (i + 1)) := fun p hp => hm p (hsub p hp)
    have hb' : RefBelow ref (front[i] :: front.drop (i + 1)) := fun p hp => hb p (hsub p hp)
    have hc' : ColsFrom m orig (front[i] :: front.drop (i + 1)) := fun p hp => hc p (hsub p hp)
    obtain ⟨v, e1, e2⟩ := hypervolumeSeq_tol m t ref hr orig D hD sort hs fuel ((front.drop (i + 1)).map (fun r => List.zipWith min r front[i])) (by
      simp only [List.length_map, List.length_drop]; omega) (isMatrix_limit m _ (hm' _ List.mem_cons_self) _ (fun p hp => hm' p (List.mem_cons_of_mem _ hp)))
      (colsFrom_limit m orig _ _ hm' hc') (refBelow_limit ref _ _ hb')
    obtain ⟨x, hx, _⟩ := exclusive_tol m ref hr (fun q => hypervolumeSeq t sort fuel q ref) front[i] (front.drop (i + 1)) hm' hb' v _ e1 e2
    exact ⟨x, hx⟩
  have hex' : ∃ ex : Nat → ℝ, ∀ (i : Nat) (h : i < front.length), exclusiveHypervolume (fun q => hypervolumeSeq t sort fuel q ref) front[i] (front.drop (i + 1)) ref = some (ex i) := by
    have : ∀ i : Nat, ∃ x : ℝ, ∀ h : i < front.length, exclusiveHypervolume (fun q => hypervolumeSeq t sort fuel q ref) front[i] (front.drop (i + 1)) ref = some x := by
      intro i
      by_cases h : i < front.length
      · obtain ⟨x, hx⟩ := hex i h
        exact ⟨x, fun _ => hx⟩
      · exact ⟨0, fun h' => absurd h' h⟩
    choose ex h using this
    exact ⟨ex, h⟩
  obtain ⟨ex, hex⟩ := hex'
  rw [show hypervolumeSeq t sort (fuel + 1) fmat ref = (uniqueSortedParetoFront t sort fmat).bind (fun front => hypervolumeLoop (fun q => hypervolumeSeq t sort fuel q ref) ref front 0) from rfl]
  unfold hypervolume
  rw [e]
  simp only [Option.bind_eq_bind, Option.bind_some]
  rw [hypervolumeParLoop_sum _ ref front ex _ 0 (fun i hi => List.mem_range.mp ((hsched _).mem_iff.mp hi)) hex, hypervolumeLoop_sum _ ref front ex 0 hex, ((hsched front.length).map ex).sum_eq]

/-! ## The front as a function of the sorted rows -/

/-- The rows that are kept, in order. -/
noncomputable def keptRows (t : Tol ℝ) (rows : List (List ℝ)) : List (List ℝ) :=
  rows.foldl (fun opt r => if opt.any (fun o => paretoCompareLess t (r.map Flt.fin) (o.map Flt.fin)) then opt else opt ++ [r]) []

/-- The rows without repetitions. -/
noncomputable def uniqRows (front : List (List ℝ)) (rows : List (List ℝ)) : List (List ℝ) :=
  rows.foldl (fun front row => if front = [] ∨ front.getLast? ≠ some row then front ++ [row] else front) front

theorem appendUnique_rows (fmat : List (List ℝ)) : ∀ (idxs : List Nat) (front : List (List ℝ)), (∀ i ∈ idxs, i < fmat.length) →
    appendUnique fmat idxs front = some (uniqRows front (idxs.map (fun i => fmat.getD i [])))
  | [], front, _ => rfl
  | idx :: rest, front, h => by
      have hi : idx < fmat.length := h idx (by simp)
      have hg : fmat.getD idx [] = fmat[idx] := by simp [List.getD_eq_getElem?_getD, hi]
      unfold appendUnique
      rw [List.getElem?_eq_getElem hi]
      simp only [Option.bind_eq_bind, Option.bind_some]
      rw [appendUnique_rows fmat rest _ (fun i hi => h i (by simp [hi])), List.map_cons, hg]
      rfl

theorem frontSort_rows (t : Tol ℝ) (fmat : List (List ℝ)) (idxs : List Nat) (h : ∀ i ∈ idxs, i < fmat.length) :
    (frontSortLoop (rowLess t (finRows fmat)) idxs).map (fun i => fmat.getD i []) = keptRows t (idxs.map (fun i => fmat.getD i [])) ∧
      ∀ i ∈ frontSortLoop (rowLess t (finRows fmat)) idxs, i < fmat.length := by
  induction idxs using Gapp.ListAux.snoc_induction with
  | nil => exact ⟨rfl, by simp [frontSortLoop]⟩
  | append_singleton xs x ih =>
    obtain ⟨ih1, ih2⟩ := ih (fun i hi => h i (by simp [hi]))
    have hx : x < fmat.length := h x (by simp)
    have hrow : ∀ i < fmat.length, (finRows fmat).getD i [] = (fmat.getD i []).map Flt.fin := by
      intro i hi
      rw [finRows_getD fmat i hi]
      simp [List.getD_eq_getElem?_getD, hi]
    unfold frontSortLoop at ih1 ih2 ⊢
    unfold keptRows at ih1 ⊢
    rw [List.foldl_append, List.map_append, List.foldl_append]
    simp only [List.foldl_cons, List.foldl_nil, List.map_cons, List.map_nil]
    rw [← ih1]
    generalize List.foldl (fun opt idx => if (opt.any fun o => rowLess t (finRows fmat) idx o) = true then opt else opt ++ [idx]) [] xs = opt at ih1 ih2
    have hany : (opt.any fun o => rowLess t (finRows fmat) x o) =
        ((opt.map (fun i => fmat.getD i [])).any fun o => paretoCompareLess t ((fmat.getD x []).map Flt.fin) (o.map Flt.fin)) := by
      rw [List.any_map, Bool.eq_iff_iff, List.any_eq_true, List.any_eq_true]
      constructor
      · rintro ⟨o, ho, hl⟩
        refine ⟨o, ho, ?_⟩
        unfold rowLess at hl
        rw [hrow x hx, hrow o (ih2 o ho)] at hl
        exact hl
      · rintro ⟨o, ho, hl⟩
        refine ⟨o, ho, ?_⟩
        unfold rowLess
        rw [hrow x hx, hrow o (ih2 o ho)]
        exact hl
    rw [hany]
    split
    · exact ⟨rfl, ih2⟩
    · refine ⟨by rw [List.map_append]; rfl, ?_⟩
      intro i hi
      rcases List.mem_append.mp hi with hi | hi
      · exact ih2 i hi
      · rw [List.mem_singleton.mp hi]; exact hx

/-- The rows in descending lexicographic order. -/
def sortedRows (sort : RowSort ℝ) (fmat : List (List ℝ)) : List (List ℝ) := (sort fmat).map (fun i => fmat.getD i [])

theorem uniqueSortedParetoFront_rows (t : Tol ℝ) (sort : RowSort ℝ) (fmat : List (List ℝ)) (hs : (sort fmat).Perm (List.range fmat.length)) :
    uniqueSortedParetoFront t sort fmat = some (uniqRows [] (keptRows t (sortedRows sort fmat))) := by
  obtain ⟨h1, h2⟩ := frontSort_rows t fmat (sort fmat) (fun i hi => List.mem_range.mp (hs.mem_iff.mp hi))
  unfold uniqueSortedParetoFront findParetoFrontSort
  rw [appendUnique_rows fmat _ [] h2, h1]
  rfl

theorem map_getD_range (fmat : List (List ℝ)) : (List.range fmat.length).map (fun i => fmat.getD i []) = fmat := by
  apply List.ext_getElem (by simp)
  intro i h1 h2
  simp [List.getD_eq_getElem?_getD, h2]

theorem sortedRows_perm (sort : RowSort ℝ) (fmat : List (List ℝ)) (hs : (sort fmat).Perm (List.range fmat.length)) : (sortedRows sort fmat).Perm fmat := by
  have := hs.map (fun i => fmat.getD i [])
  rwa [map_getD_range] at this

theorem lexGreater_antisymm : ∀ (a b : List ℝ), a.length = b.length → lexGreater (a.map Flt.fin) (b.map Flt.fin) = false → lexGreater (b.map Flt.fin) (a.map Flt.fin) = false → a = b
  | [], b, h, _, _ => (List.length_eq_zero_iff.mp h.symm).symm
  | a :: as, b :: bs, h, h1, h2 => by
      simp only [List.map_cons] at h1 h2
      unfold lexGreater at h1 h2
      by_cases hab : a = b
      · subst hab
        rw [if_neg (by simp)] at h1 h2
        rw [lexGreater_antisymm as bs (by simpa using h) h1 h2]
      · have hne : Flt.fin a ≠ Flt.fin b := fun h => hab (Flt.fin.inj h)
        rw [if_pos hne] at h1
        rw [if_pos hne.symm] at h2
        exact absurd (le_antisymm (not_lt.mp (of_decide_eq_false h1)) (not_lt.mp (of_decide_eq_false h2))) hne

theorem sortedRows_sorted (m : Nat) (sort : RowSort ℝ) (fmat : List (List ℝ)) (hm : IsMatrix m fmat) (hs : IsArgsort (rowLexLess (finRows fmat)) fmat.length (sort fmat)) :
    (sortedRows sort fmat).Pairwise (fun a b => lexGreater (b.map Flt.fin) (a.map Flt.fin) = false) := by
  unfold sortedRows
  rw [List.pairwise_map]
  refine hs.2.imp_of_mem ?_
  intro a b ha hb h
  have ha' : a < fmat.length := List.mem_range.mp (hs.1.mem_iff.mp ha)
  have hb' : b < fmat.length := List.mem_range.mp (hs.1.mem_iff.mp hb)
  unfold rowLexLess at h
  rw [finRows_getD fmat a ha', finRows_getD fmat b hb'] at h
  simpa [List.getD_eq_getElem?_getD, ha', hb'] using h

/-- Two results of the sort are the same rows. -/
theorem sortedRows_unique (m : Nat) (sort sort' : RowSort ℝ) (fmat : List (List ℝ)) (hm : IsMatrix m fmat) (hs : IsArgsort (rowLexLess (finRows fmat)) fmat.length (sort fmat))
    (hs' : IsArgsort (rowLexLess (finRows fmat)) fmat.length (sort' fmat)) : sortedRows sort fmat = sortedRows sort' fmat := by
  have p1 := sortedRows_perm sort fmat hs.1
  have p2 := sortedRows_perm sort' fmat hs'.1
  refine List.Perm.eq_of_pairwise (le := fun a b => lexGreater (b.map Flt.fin) (a.map Flt.fin) = false) ?_ (sortedRows_sorted m sort fmat hm hs) (sortedRows_sorted m sort' fmat hm hs') (p1.trans p2.symm)
  intro a b ha hb h1 h2
  exact lexGreater_antisymm a b (by rw [hm a (p1.mem_iff.mp ha), hm b (p2.mem_iff.mp hb)]) h2 h1

theorem exclusive_congr (m : Nat) (ref : List ℝ) (hv hv' : List (List ℝ) → Option ℝ) (p : List ℝ) (ps : List (List ℝ)) (hm : IsMatrix m (p :: ps))
    (h : ∀ qs, IsMatrix m qs → hv qs = hv' qs) : exclusiveHypervolume hv p ps ref = exclusiveHypervolume hv' p ps ref := by
  unfold exclusiveHypervolume
  have hp := hm p (by simp)
  have hlim : limitSet ps p = some (ps.map (fun r => List.zipWith min r p)) := by
    unfold limitSet
    rw [if_pos (fun r hr => by rw [hm r (by simp [hr]), hp])]
  rw [hlim]
  simp only [Option.bind_eq_bind, Option.bind_some]
  rw [h _ (isMatrix_limit m p hp ps (fun r hr => hm r (by simp [hr])))]

theorem hypervolumeLoop_congr (m : Nat) (ref : List ℝ) (hv hv' : List (List ℝ) → Option ℝ) (h : ∀ qs, IsMatrix m qs → hv qs = hv' qs) :
    ∀ (ps : List (List ℝ)) (acc : ℝ), IsMatrix m ps → hypervolumeLoop hv ref ps acc = hypervolumeLoop hv' ref ps acc
  | [], _, _ => rfl
  | p :: ps, acc, hm => by
      unfold hypervolumeLoop
      rw [exclusive_congr m ref hv hv' p ps hm h]
      cases exclusiveHypervolume hv' p ps ref with
      | none => rfl
      | some e => exact hypervolumeLoop_congr m ref hv hv' h ps _ (fun r hr => hm r (by simp [hr]))

theorem uniqRows_mem (rows front : List (List ℝ)) : ∀ p ∈ uniqRows front rows, p ∈ front ∨ p ∈ rows := by
  induction rows generalizing front with
  | nil => intro p hp; exact Or.inl hp
  | cons r rows ih =>
    intro p hp
    rcases ih _ p hp with h | h
    · dsimp only at h
      split at h
      · rcases List.mem_append.mp h with h | h
        · exact Or.inl h
        · exact Or.inr (by rw [List.mem_singleton.mp h]; simp)
      · exact Or.inl h
    · exact Or.inr (by simp [h])

theorem keptRows_snoc (t : Tol ℝ) (rows : List (List ℝ)) (r : List ℝ) :
    keptRows t (rows ++ [r]) = if (keptRows t rows).any (fun o => paretoCompareLess t (r.map Flt.fin) (o.map Flt.fin)) then keptRows t rows else keptRows t rows ++ [r] := by
  unfold keptRows
  rw [List.foldl_append]
  rfl

theorem keptRows_sublist (t : Tol ℝ) (rows : List (List ℝ)) : (keptRows t rows).Sublist rows := by
  induction rows using Gapp.ListAux.snoc_induction with
  | nil => exact List.Sublist.refl _
  | append_singleton xs x ih =>
    rw [keptRows_snoc]
    split
    · exact ih.trans (List.sublist_append_left _ _)
    · exact ih.append (List.Sublist.refl _)

theorem keptRows_head (t : Tol ℝ) (r : List ℝ) (rows : List (List ℝ)) : ∃ rest, keptRows t (r :: rows) = r :: rest := by
  induction rows using Gapp.ListAux.snoc_induction with
  | nil => exact ⟨[], rfl⟩
  | append_singleton xs x ih =>
    obtain ⟨rest, h⟩ := ih
    rw [← List.cons_append, keptRows_snoc, h]
    split
    · exact ⟨rest, rfl⟩
    · exact ⟨rest ++ [x], rfl⟩

theorem uniqRows_sublist (rows front : List (List ℝ)) : (uniqRows front rows).Sublist (front ++ rows) := by
  induction rows generalizing front with
  | nil => simp [uniqRows]
  | cons r rows ih =>
    have h := ih (if front = [] ∨ front.getLast? ≠ some r then front ++ [r] else front)
    refine h.trans ?_
    split
    · simp
    · exact (List.Sublist.refl front).append (List.sublist_cons_self _ _)

theorem uniqRows_prefix (rows front : List (List ℝ)) : ∃ rest, uniqRows front rows = front ++ rest := by
  induction rows generalizing front with
  | nil => exact ⟨[], by simp [uniqRows]⟩
  | cons r rows ih =>
    obtain ⟨rest, h⟩ := ih (if front = [] ∨ front.getLast? ≠ some r then front ++ [r] else front)
    show ∃ rest, uniqRows _ rows = front ++ rest
    rw [h]
    split
    · exact ⟨[r] ++ rest, by simp⟩
    · exact ⟨rest, rfl⟩

theorem hypervolumeSeq_sort (m : Nat) (t : Tol ℝ) (ref : List ℝ) (sort sort' : RowSort ℝ) (hs : ∀ fmat, IsMatrix m fmat → IsArgsort (rowLexLess (finRows fmat)) fmat.length (sort fmat))
    (hs' : ∀ fmat, IsMatrix m fmat → IsArgsort (rowLexLess (finRows fmat)) fmat.length (sort' fmat)) :
    ∀ (fuel : Nat) (fmat : List (List ℝ)), IsMatrix m fmat → hypervolumeSeq t sort fuel fmat ref = hypervolumeSeq t sort' fuel fmat ref
  | 0, _, _ => rfl
  | fuel + 1, fmat, hm => by
      unfold hypervolumeSeq
      rw [uniqueSortedParetoFront_rows t sort fmat (hs fmat hm).1, uniqueSortedParetoFront_rows t sort' fmat (hs' fmat hm).1, sortedRows_unique m sort sort' fmat hm (hs fmat hm) (hs' fmat hm)]
      simp only [Option.bind_eq_bind, Option.bind_some]
      refine hypervolumeLoop_congr m ref _ _ (fun qs hq => hypervolumeSeq_sort m t ref sort sort' hs hs' fuel qs hq) _ 0 ?_
      intro p hp
      rcases uniqRows_mem _ _ p hp with h | h
      · simp at h
      · exact hm p ((sortedRows_perm sort' fmat (hs' fmat hm).1).mem_iff.mp ((keptRows_sublist t _).subset h))

/-! ## One objective -/

theorem lexGreater_one (a b : ℝ) : lexGreater ([b].map Flt.fin) ([a].map Flt.fin) = false ↔ b ≤ a := by
  simp only [List.map_cons, List.map_nil]
  unfold lexGreater
  by_cases h : b = a
  · subst h
    simp [lexGreater]
  · have hne : Flt.fin b ≠ Flt.fin a := fun e => h (Flt.fin.inj e)
    rw [if_pos hne, decide_eq_false_iff_not, not_lt, flt_fin_le]

/-- A list of rows with one column. -/
def oneCol (l : List ℝ) : List (List ℝ) := l.map (fun x => [x])

theorem isMatrix_one (fmat : List (List ℝ)) (h : IsMatrix 1 fmat) : ∃ l, fmat = oneCol l := by
  induction fmat with
  | nil => exact ⟨[], rfl⟩
  | cons r fmat ih =>
    obtain ⟨l, rfl⟩ := ih (fun p hp => h p (by simp [hp]))
    obtain ⟨x, rfl⟩ := List.length_eq_one_iff.mp (h r (by simp))
    exact ⟨x :: l, rfl⟩

/-- With one objective every tolerance gives the distance of the best value from the reference point. -/
theorem hypervolumeLoop_one (ref : ℝ) (hv : List (List ℝ) → Option ℝ) (n : Nat)
    (h : ∀ (x : ℝ) (l : List ℝ), (x :: l).Pairwise (fun a b => b ≤ a) → (∀ y ∈ x :: l, ref ≤ y) → (x :: l).length < n → hv (oneCol (x :: l)) = some (x - ref)) (h0 : hv [] = some 0) :
    ∀ (l : List ℝ) (x acc : ℝ), (x :: l).Pairwise (fun a b => b ≤ a) → (∀ y ∈ x :: l, ref ≤ y) → (x :: l).length ≤ n → hypervolumeLoop hv [ref] (oneCol (x :: l)) acc = some (acc + (x - ref)) := by
  have hinc : ∀ x, ref ≤ x → inclusiveHypervolume [x] [ref] = some (x - ref) := by
    intro x hx
    unfold inclusiveHypervolume
    rw [if_pos (by simp [hx])]
    unfold volumeBetween
    rw [if_pos (by simp)]
    simp [abs_of_nonneg (sub_nonneg.mpr hx)]
  have hlim : ∀ (x : ℝ) (l : List ℝ), (∀ y ∈ l, y ≤ x) → limitSet (oneCol l) [x] = some (oneCol l) := by
    intro x l hl
    unfold limitSet
    rw [if_pos (by intro r hr; obtain ⟨y, _, rfl⟩ := List.mem_map.mp hr; simp)]
    congr 1
    unfold oneCol
    rw [List.map_map]
    refine List.map_congr_left ?_
    intro y hy
    simp [hl y hy]
  intro l
  induction l with
  | nil =>
    intro x acc hp hr hn
    show hypervolumeLoop hv [ref] [[x]] acc = _
    have hl0 : limitSet [] [x] = some [] := hlim x [] (by simp)
    simp only [hypervolumeLoop, exclusiveHypervolume, hinc x (hr x (by simp)), hl0, Option.bind_eq_bind, Option.bind_some, h0, Option.pure_def, sub_zero]
  | cons y l ih =>
    intro x acc hp hr hn
    show hypervolumeLoop hv [ref] ([x] :: oneCol (y :: l)) acc = _
    rw [List.pairwise_cons] at hp
    have hr' : ∀ z ∈ y :: l, ref ≤ z := fun z hz => hr z (by simp [List.mem_cons.mp hz])
    have hl := hlim x (y :: l) hp.1
    have hh := h y l hp.2 hr' (by simp only [List.length_cons] at hn ⊢; omega)
    unfold hypervolumeLoop exclusiveHypervolume
    rw [hinc x (hr x (by simp)), hl]
    simp only [Option.bind_eq_bind, Option.bind_some, hh, Option.pure_def]
    rw [ih y _ hp.2 hr' (by simp only [List.length_cons] at hn ⊢; omega)]
    congr 1
    ring

theorem uniqRows_one (t : Tol ℝ) (sort : RowSort ℝ) (l : List ℝ) (hne : l ≠ []) (hs : IsArgsort (rowLexLess (finRows (oneCol l))) (oneCol l).length (sort (oneCol l))) :
    ∃ (x : ℝ) (rest : List ℝ), uniqRows [] (keptRows t (sortedRows sort (oneCol l))) = oneCol (x :: rest) ∧ (x :: rest).Pairwise (fun a b => b ≤ a) ∧ (∀ y ∈ x :: rest, y ∈ l) ∧ (∀ y ∈ l, y ≤ x) ∧
      (x :: rest).length ≤ l.length := by
  have hm : IsMatrix 1 (oneCol l) := by
    intro r hr
    obtain ⟨y, _, rfl⟩ := List.mem_map.mp hr
    rfl
  have hperm := sortedRows_perm sort (oneCol l) hs.1
  have hsorted := sortedRows_sorted 1 sort (oneCol l) hm hs
  obtain ⟨s, es⟩ := isMatrix_one (sortedRows sort (oneCol l)) (fun r hr => hm r (hperm.mem_iff.mp hr))
  rw [es] at hperm hsorted ⊢
  have hsp : s.Perm l := by
    have := hperm.map (fun r => r.getD 0 0)
    unfold oneCol at this
    simpa [List.map_map, Function.comp_def] using this
  have hsd : s.Pairwise (fun a b => b ≤ a) := by
    unfold oneCol at hsorted
    rw [List.pairwise_map] at hsorted
    exact hsorted.imp (fun h => (lexGreater_one _ _).mp h)
  cases s with
  | nil => exact absurd hsp.symm.eq_nil hne
  | cons x s =>
    obtain ⟨rest, hk⟩ := keptRows_head t [x] (oneCol s)
    have hkl := keptRows_sublist t (oneCol (x :: s))
    change (keptRows t ([x] :: oneCol s)).Sublist ([x] :: oneCol s) at hkl
    rw [hk] at hkl
    have hul := uniqRows_sublist rest [[x]]
    obtain ⟨rest', hu⟩ := uniqRows_prefix rest [[x]]
    have heq : uniqRows [] (keptRows t (oneCol (x :: s))) = [x] :: rest' := by
      show uniqRows [] (keptRows t ([x] :: oneCol s)) = [x] :: rest'
      rw [hk]
      exact hu
    rw [hu] at hul
    have hsub : ([x] :: rest').Sublist (oneCol (x :: s)) := hul.trans hkl
    obtain ⟨w, hw1, hw2⟩ := List.sublist_map_iff.mp hsub
    cases w with
    | nil => simp at hw2
    | cons y w =>
      simp only [List.map_cons, List.cons.injEq, and_true] at hw2
      obtain ⟨rfl, rfl⟩ := hw2
      refine ⟨x, w, heq, hsd.sublist hw1, fun z hz => hsp.mem_iff.mp (hw1.subset hz), ?_, ?_⟩
      · intro z hz
        rcases List.mem_cons.mp (hsp.mem_iff.mpr hz) with rfl | hz
        · exact le_refl _
        · exact (List.pairwise_cons.mp hsd).1 z hz
      · exact hw1.length_le.trans hsp.length_eq.le

theorem hypervolumeSeq_one (t : Tol ℝ) (ref : ℝ) (sort : RowSort ℝ) (hs : ∀ fmat, IsMatrix 1 fmat → IsArgsort (rowLexLess (finRows fmat)) fmat.length (sort fmat)) :
    ∀ (fuel : Nat) (l : List ℝ), l.length < fuel → (∀ y ∈ l, ref ≤ y) →
      (l = [] → hypervolumeSeq t sort fuel (oneCol l) [ref] = some 0) ∧ ∀ x ∈ l, (∀ y ∈ l, y ≤ x) → hypervolumeSeq t sort fuel (oneCol l) [ref] = some (x - ref)
  | 0, _, h, _ => absurd h (Nat.not_lt_zero _)
  | fuel + 1, l, h, hr => by
      have hm : ∀ l : List ℝ, IsMatrix 1 (oneCol l) := by
        intro l r hr
        obtain ⟨y, _, rfl⟩ := List.mem_map.mp hr
        rfl
      constructor
      · rintro rfl
        have hf := uniqueSortedParetoFront_rows t sort (oneCol []) (hs _ (hm [])).1
        have : sortedRows sort (oneCol []) = [] := (sortedRows_perm sort (oneCol []) (hs _ (hm [])).1).eq_nil
        rw [this] at hf
        unfold hypervolumeSeq
        rw [hf]
        rfl
      · intro x hx hmax
        obtain ⟨x', rest, e, hp, hsub, hmax', hlen⟩ := uniqRows_one t sort l (List.ne_nil_of_mem hx) (hs _ (hm l))
        have hxx : x' = x := le_antisymm (hmax x' (hsub x' (by simp))) (hmax' x hx)
        subst hxx
        unfold hypervolumeSeq
        rw [uniqueSortedParetoFront_rows t sort (oneCol l) (hs _ (hm l)).1, e]
        simp only [Option.bind_eq_bind, Option.bind_some]
        rw [hypervolumeLoop_one ref _ l.length (fun z w hpw hrw hlw => by
            have := (hypervolumeSeq_one t ref sort hs fuel (z :: w) (by omega) hrw).2 z (by simp) (fun y hy => by
              rcases List.mem_cons.mp hy with rfl | hy
              · exact le_refl _
              · exact (List.pairwise_cons.mp hpw).1 y hy)
            exact this) ((hypervolumeSeq_one t ref sort hs fuel [] (by
              have : 0 < l.length := List.length_pos_of_mem hx
              simp only [List.length_nil]; omega) (by simp)).1 rfl) rest x' 0 hp (fun y hy => hr y (hsub y hy)) hlen, zero_add]

/-! ## Bounds of the loss -/

theorem getD_of_getElem? {l : List ℝ} {i : Nat} {x : ℝ} (h : l[i]? = some x) : l.getD i 0 = x := by simp [List.getD_eq_getElem?_getD, h]

theorem getElem?_getD_of {m : Nat} {l : List ℝ} (h : l.length = m) (i : Fin m) : l[(i : Nat)]? = some (l.getD i 0) := by
  have : (i : Nat) < l.length := by rw [h]; exact i.2
  simp [List.getD_eq_getElem?_getD, this]

theorem lossBound_apart (m : Nat) (t : Tol ℝ) (ref : List ℝ) (orig : List (List ℝ)) (hm : IsMatrix m orig) (h : ValuesApart t.abs t.rel orig) : LossBound m t ref orig 0 := by
  refine ⟨le_refl _, fun ps hps hc _ p hp q hq ht => ?_⟩
  have hsub : box m ref p \ box m ref q = ∅ := by
    rw [Set.diff_eq_empty]
    intro x hx i
    refine ⟨(hx i).1, (hx i).2.trans ?_⟩
    by_contra hn
    obtain ⟨p', hp', e1⟩ := hc p hp i
    obtain ⟨q', hq', e2⟩ := hc q hq i
    have hti := ht i
    rw [e1, e2] at hti hn
    have := h p' hp' q' hq' i _ _ (getElem?_getD_of (hm p' hp') i) (getElem?_getD_of (hm q' hq') i) (fun e => hn (by rw [e]))
    rw [abs_of_pos (a := p'.getD i 0 - q'.getD i 0) (by linarith [not_le.mp hn])] at this
    unfold Tol.at at hti
    linarith
  rw [hsub]
  simp

/-- What one point dominates above another one that is at most `tol` worse is in slabs. -/
theorem slab_loss (m : Nat) (ref p q : List ℝ) (len tol : Fin m → ℝ) (hrp : ∀ i : Fin m, ref.getD i 0 ≤ p.getD i 0) (hrq : ∀ i : Fin m, ref.getD i 0 ≤ q.getD i 0)
    (hlen : ∀ i : Fin m, p.getD i 0 - ref.getD i 0 ≤ len i) (htol : ∀ i : Fin m, p.getD i 0 - q.getD i 0 ≤ tol i) (ht0 : ∀ i, 0 ≤ tol i) :
    (volume (box m ref p \ box m ref q)).toReal ≤ slabVolume m len tol := by
  classical
  have hl0 : ∀ i, 0 ≤ len i := fun i => le_trans (sub_nonneg.mpr (hrp i)) (hlen i)
  let S : Fin m → Set (Fin m → ℝ) := fun i => Set.Icc (fun j => if j = i then q.getD j 0 else ref.getD j 0) (fun j => p.getD j 0)
  have hsub : box m ref p \ box m ref q ⊆ ⋃ i ∈ (Finset.univ : Finset (Fin m)), S i := by
    rintro x ⟨hx, hn⟩
    have : ∃ i : Fin m, q.getD i 0 < x i := by
      by_contra hc
      push Not at hc
      exact hn (fun i => ⟨(hx i).1, hc i⟩)
    obtain ⟨i, hi⟩ := this
    simp only [Set.mem_iUnion]
    refine ⟨i, Finset.mem_univ _, ?_, fun j => (hx j).2⟩
    intro j
    dsimp only
    split
    · rename_i e; rw [e]; exact hi.le
    · exact (hx j).1
  have hfin : ∀ i, volume (S i) ≠ ⊤ := fun i => isCompact_Icc.measure_ne_top
  have h1 : volume (box m ref p \ box m ref q) ≤ ∑ i : Fin m, volume (S i) := (measure_mono hsub).trans (measure_biUnion_finset_le _ _)
  have h2 := ENNReal.toReal_mono (ENNReal.sum_ne_top.mpr (fun i _ => hfin i)) h1
  rw [ENNReal.toReal_sum (fun i _ => hfin i)] at h2
  refine h2.trans (Finset.sum_le_sum (fun i _ => ?_))
  have hnn : 0 ≤ tol i * ∏ j ∈ Finset.univ.erase i, len j := mul_nonneg (ht0 i) (Finset.prod_nonneg (fun j _ => hl0 j))
  by_cases hle : q.getD i 0 ≤ p.getD i 0
  · have hlow : ∀ j : Fin m, (if j = i then q.getD j 0 else ref.getD j 0) ≤ p.getD j 0 := by
      intro j
      split
      · rename_i e; rw [e]; exact hle
      · exact hrp j
    rw [Real.volume_Icc_pi_toReal hlow, ← Finset.mul_prod_erase Finset.univ _ (Finset.mem_univ i), if_pos rfl]
    refine mul_le_mul (htol i) (Finset.prod_le_prod ?_ ?_) (Finset.prod_nonneg ?_) (ht0 i)
    · intro j hj
      exact sub_nonneg.mpr (hlow j)
    · intro j hj
      rw [if_neg (Finset.ne_of_mem_erase hj)]
      exact hlen j
    · intro j hj
      exact sub_nonneg.mpr (hlow j)
  · have : S i = ∅ := by
      refine Set.Icc_eq_empty ?_
      intro h
      have := h i
      simp only [if_true] at this
      exact hle this
    rw [this]
    simpa using hnn

theorem lossBound_slab (m : Nat) (t : Tol ℝ) (ref : List ℝ) (hr : ref.length = m) (orig : List (List ℝ)) (hm : IsMatrix m orig) (len tol : Fin m → ℝ) (ht0 : ∀ i, 0 ≤ tol i) (hl0 : ∀ i, 0 ≤ len i)
    (hl : ExtentAtMost m ref len orig) (ht : ToleranceAtMost m t.abs t.rel tol orig) : LossBound m t ref orig (slabVolume m len tol) := by
  refine ⟨Finset.sum_nonneg (fun i _ => mul_nonneg (ht0 i) (Finset.prod_nonneg (fun j _ => hl0 j))), fun ps hps hc hb p hp q hq h => ?_⟩
  refine slab_loss m ref p q len tol (getD_le_of_refBelow m ref ps hr hps hb p hp) (getD_le_of_refBelow m ref ps hr hps hb q hq) ?_ ?_ ht0
  · intro i
    obtain ⟨p', hp', e1⟩ := hc p hp i
    rw [e1]
    exact hl p' hp' i _ _ (getElem?_getD_of (hm p' hp') i) (getElem?_getD_of hr i)
  · intro i
    obtain ⟨p', hp', e1⟩ := hc p hp i
    obtain ⟨q', hq', e2⟩ := hc q hq i
    refine (h i).trans ?_
    rw [e1, e2]
    exact ht p' hp' q' hq' i _ _ (getElem?_getD_of (hm p' hp') i) (getElem?_getD_of (hm q' hq') i)

theorem colsFrom_self (m : Nat) (ps : List (List ℝ)) : ColsFrom m ps ps := fun p hp _ => ⟨p, hp, rfl⟩

/-- For every matrix and every tolerance there is a bound. -/
theorem exists_lossBound (m : Nat) (t : Tol ℝ) (ref : List ℝ) (orig : List (List ℝ)) : ∃ D, LossBound m t ref orig D := by
  have hex : ∃ u : Fin m → ℝ, ∀ p ∈ orig, ∀ i : Fin m, p.getD i 0 ≤ u i := by
    induction orig with
    | nil => exact ⟨fun _ => 0, by simp⟩
    | cons r orig ih =>
      obtain ⟨u, hu⟩ := ih
      refine ⟨fun i => max (u i) (r.getD i 0), ?_⟩
      intro p hp i
      rcases List.mem_cons.mp hp with rfl | hp
      · exact le_max_right _ _
      · exact (hu p hp i).trans (le_max_left _ _)
  obtain ⟨u, hu⟩ := hex
  refine ⟨(volume (Set.Icc (fun i : Fin m => ref.getD i 0) u)).toReal, ENNReal.toReal_nonneg, fun ps _ hc _ p hp q _ _ => ?_⟩
  refine ENNReal.toReal_mono isCompact_Icc.measure_ne_top (measure_mono ?_)
  rintro x ⟨hx, _⟩
  refine ⟨fun i => (hx i).1, fun i => (hx i).2.trans ?_⟩
  obtain ⟨p', hp', e⟩ := hc p hp i
  rw [e]
  exact hu p' hp' i

end Gapp.Props
