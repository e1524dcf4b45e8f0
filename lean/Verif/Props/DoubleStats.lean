import Verif.Proofs.DoubleStats
import Verif.Proofs.DblOrder
import Verif.Props.Stats
/-!
# C87: statistics of a population in binary64 arithmetic
-/

namespace Gapp.Model
open Gapp.Spec Gapp.Props Dbl

theorem foldl_minD_spec (vals : List Dbl) (a : Dbl) (h : ∀ x ∈ a :: vals, x ≠ nan) : IsMinD (a :: vals) (vals.foldl Dbl.min a) := by
  induction vals generalizing a with
  | nil =>
    refine ⟨by simp, fun y hy => ?_⟩
    rw [List.mem_singleton.mp hy, List.foldl_nil, le_iff_key (h a (by simp)) (h a (by simp))]
  | cons b vals ih =>
    have ha := h a (by simp)
    have hb := h b (by simp)
    have hm : Dbl.min a b = a ∨ Dbl.min a b = b := by unfold Dbl.min; split <;> simp
    have hmn : Dbl.min a b ≠ nan := by rcases hm with e | e <;> rw [e] <;> assumption
    obtain ⟨h1, h2⟩ := ih (Dbl.min a b) (by
      intro x hx
      rcases List.mem_cons.mp hx with rfl | hx
      · exact hmn
      · exact h x (by simp [hx]))
    rw [List.foldl_cons]
    have hres : vals.foldl Dbl.min (Dbl.min a b) ∈ a :: b :: vals := by
      rcases List.mem_cons.mp h1 with e | e
      · rw [e]; rcases hm with e | e <;> simp [e]
      · simp [e]
    have hrn := h _ hres
    refine ⟨hres, ?_⟩
    have h0 := h2 _ List.mem_cons_self
    rw [le_iff_key hrn hmn] at h0
    have hlt := lt_iff_key hb ha
    intro y hy
    rcases List.mem_cons.mp hy with rfl | hy
    · rw [le_iff_key hrn ha]
      refine h0.trans ?_
      unfold Dbl.min
      split
      · next hc => exact (hlt.1 hc).le
      · exact le_rfl
    · rcases List.mem_cons.mp hy with rfl | hy
      · rw [le_iff_key hrn hb]
        refine h0.trans ?_
        unfold Dbl.min
        split
        · exact le_rfl
        · next hc => exact not_lt.1 (fun hh => hc (hlt.2 hh))
      · exact h2 y (by simp [hy])

theorem foldl_maxD_spec (vals : List Dbl) (a : Dbl) (h : ∀ x ∈ a :: vals, x ≠ nan) : IsMaxD (a :: vals) (vals.foldl Dbl.max a) := by
  induction vals generalizing a with
  | nil =>
    refine ⟨by simp, fun y hy => ?_⟩
    rw [List.mem_singleton.mp hy, List.foldl_nil, le_iff_key (h a (by simp)) (h a (by simp))]
  | cons b vals ih =>
    have ha := h a (by simp)
    have hb := h b (by simp)
    have hm : Dbl.max a b = a ∨ Dbl.max a b = b := by unfold Dbl.max; split <;> simp
    have hmn : Dbl.max a b ≠ nan := by rcases hm with e | e <;> rw [e] <;> assumption
    obtain ⟨h1, h2⟩ := ih (Dbl.max a b) (by
      intro x hx
      rcases List.mem_cons.mp hx with rfl | hx
      · exact hmn
      · exact h x (by simp [hx]))
    rw [List.foldl_cons]
    have hres : vals.foldl Dbl.max (Dbl.max a b) ∈ a :: b :: vals := by
      rcases List.mem_cons.mp h1 with e | e
      · rw [e]; rcases hm with e | e <;> simp [e]
      · simp [e]
    have hrn := h _ hres
    refine ⟨hres, ?_⟩
    have h0 := h2 _ List.mem_cons_self
    rw [le_iff_key hmn hrn] at h0
    have hlt := lt_iff_key ha hb
    intro y hy
    rcases List.mem_cons.mp hy with rfl | hy
    · rw [le_iff_key ha hrn]
      refine le_trans ?_ h0
      unfold Dbl.max
      split
      · next hc => exact (hlt.1 hc).le
      · exact le_rfl
    · rcases List.mem_cons.mp hy with rfl | hy
      · rw [le_iff_key hb hrn]
        refine le_trans ?_ h0
        unfold Dbl.max
        split
        · exact le_rfl
        · next hc => exact not_lt.1 (fun hh => hc (hlt.2 hh))
      · exact h2 y (by simp [hy])

theorem column_mem {V : Type} {rows : List (List V)} {i : Nat} {x : V} (h : x ∈ column rows i) : ∃ r ∈ rows, x ∈ r := by
  obtain ⟨r, hr, e⟩ := List.mem_filterMap.mp h
  exact ⟨r, hr, List.mem_of_getElem? e⟩

theorem elementwise_perObjective (g : Dbl → Dbl → Dbl) (P : List Dbl → Dbl → Prop)
    (hP : ∀ vals a, (∀ x ∈ a :: vals, x ≠ nan) → P (a :: vals) (vals.foldl g a)) {m : Nat} (first : List Dbl) (rest : List (List Dbl))
    (hmat : IsMatrix m (first :: rest)) (hnan : ∀ r ∈ first :: rest, ∀ x ∈ r, x ≠ nan) :
    ∃ v, rest.foldlM (fun a b => if a.length = b.length then some (List.zipWith g a b) else none) first = some v ∧ PerObjective m (first :: rest) v P := by
  have hf := hmat first (by simp)
  obtain ⟨r, h1, h2, h3⟩ := foldlM_rows (m := m) (fun a b => if a.length = b.length then some (List.zipWith g a b) else none) g
    (fun a b ha hb => if_pos (ha.trans hb.symm)) rest (fun r hr => hmat r (by simp [hr])) first hf
  refine ⟨r, h1, h2, ?_⟩
  intro i x hx
  have hi : i < m := by
    rw [← h2]
    exact (List.getElem?_eq_some_iff.mp hx).1
  rw [h3 i hi, List.getElem?_eq_getElem (show i < first.length by omega)] at hx
  rw [column_cons rest hf hi]
  have : x = (column rest i).foldl g first[i] := (Option.some.inj hx).symm
  rw [this]
  apply hP
  rw [← column_cons rest hf hi]
  intro y hy
  obtain ⟨r, hr, hy⟩ := column_mem hy
  exact hnan r hr y hy

/-! ## The mean and the variance -/

theorem foldl_isDbl {α : Type} (f : Dbl → α → Dbl) (hf : ∀ s x, IsDbl (f s x)) (l : List α) (s : Dbl) (hs : IsDbl s) : IsDbl (l.foldl f s) := by
  induction l generalizing s with
  | nil => exact hs
  | cons x l ih => exact ih _ (hf s x)

theorem isDbl_fin_zero : IsDbl (.fin 0) := by
  have := isDouble_nat (n := 0) (by norm_num)
  rw [Nat.cast_zero] at this
  exact this

theorem areNumbers_length {k : ℤ} {vals : List Dbl} {qs : List ℚ} (h : AreNumbers k vals qs) : vals.length = qs.length := by rw [h.1, List.length_map]

theorem areNumbers_mono {k l : ℤ} (hkl : k ≤ l) {vals : List Dbl} {qs : List ℚ} (h : AreNumbers k vals qs) : AreNumbers l vals qs :=
  ⟨h.1, fun q hq => ⟨(h.2 q hq).1, (h.2 q hq).2.trans (two_zpow_le hkl)⟩⟩

/-- The mean of a column. -/
def meanOf (fused : Bool) (w : Dbl) (vals : List Dbl) : Dbl := vals.foldl (fun m f => mulAdd fused f w m) (.fin 0)

/-- The variance of a column, with a given mean. -/
def varianceOf (fused : Bool) (w m : Dbl) (vals : List Dbl) : Dbl := vals.foldl (fun v f => mulAdd fused (mul (sub f m) (sub f m)) w v) (.fin 0)

theorem mean_column (fused : Bool) {fmat : List (List Dbl)} {m : Nat} (hmat : IsMatrix m fmat) (hne : fmat ≠ []) :
    ∃ v, fitnessMeanD fused fmat = some v ∧ v.length = m ∧
      ∀ i, i < m → v[i]? = some (meanOf fused (div (.fin 1) (ofNatD fmat.length)) (column fmat i)) := by
  obtain ⟨first, rest, rfl⟩ := List.exists_cons_of_ne_nil hne
  have hf := hmat first (by simp)
  obtain ⟨h1, h2⟩ := foldl_rows (m := m) (fun mean fvec => List.zipWith (fun m f => mulAdd fused f (div (.fin 1) (ofNatD (first :: rest).length)) m) mean fvec)
    (fun _ m f => mulAdd fused f (div (.fin 1) (ofNatD (first :: rest).length)) m) (fun a b ha hb => by simp [ha, hb])
    (fun a b ha hb i x y hx hy => by rw [List.getElem?_zipWith, hx, hy]) (first :: rest) hmat (List.replicate first.length (.fin 0)) (by simp [hf])
  refine ⟨_, rfl, h1, fun i hi => ?_⟩
  rw [h2 i hi, List.getElem?_replicate, if_pos (by omega)]
  rfl

theorem variance_column (fused : Bool) {fmat : List (List Dbl)} {m : Nat} (hmat : IsMatrix m fmat) (hne : fmat ≠ []) (mean : List Dbl) (hmean : mean.length = m) :
    ∃ v, fitnessVarianceOfD fused mean fmat = some v ∧ v.length = m ∧
      ∀ i, i < m → ∀ μ, mean[i]? = some μ → v[i]? = some (if fmat.length = 1 then .fin 0
        else varianceOf fused (div (.fin 1) (sub (ofNatD fmat.length) (.fin 1))) μ (column fmat i)) := by
  obtain ⟨first, rest, rfl⟩ := List.exists_cons_of_ne_nil hne
  have hf := hmat first (by simp)
  simp only [fitnessVarianceOfD]
  rw [if_pos (hf.trans hmean.symm)]
  by_cases h1 : (first :: rest).length = 1
  · simp only [h1, if_true]
    refine ⟨_, rfl, by simp [hf], fun i hi μ _ => ?_⟩
    rw [List.getElem?_replicate, if_pos (by omega)]
  · simp only [h1, if_false]
    obtain ⟨h2, h3⟩ := foldl_rows (m := m)
      (fun var fvec => List.zipWith (fun v (p : Dbl × Dbl) => mulAdd fused (mul (sub p.1 p.2) (sub p.1 p.2)) (div (.fin 1) (sub (ofNatD (first :: rest).length) (.fin 1))) v) var (fvec.zip mean))
      (fun i v f => mulAdd fused (mul (sub f (mean.getD i .nan)) (sub f (mean.getD i .nan))) (div (.fin 1) (sub (ofNatD (first :: rest).length) (.fin 1))) v)
      (fun a b ha hb => by simp [ha, hb, hmean])
      (fun a b ha hb i x y hx hy => by
        have hi : i < mean.length := by
          have := (List.getElem?_eq_some_iff.mp hy).1
          omega
        have hm : mean[i]? = some mean[i] := List.getElem?_eq_getElem hi
        have hz : (b.zip mean)[i]? = some (y, mean[i]) := List.getElem?_zip_eq_some.2 ⟨hy, hm⟩
        rw [List.getElem?_zipWith, hx, hz]
        simp [List.getD, hm]) (first :: rest) hmat (List.replicate first.length (.fin 0)) (by simp [hf])
    refine ⟨_, rfl, h2, fun i hi μ hμ => ?_⟩
    rw [h3 i hi, List.getElem?_replicate, if_pos (by omega)]
    simp only [List.getD, hμ, Option.getD_some, Option.map_some]
    rfl

/-- The sum of the squared differences is smallest around the mean. -/
theorem squaresQ_shift (qs : List ℚ) (c : ℚ) (hne : qs ≠ []) : squaresQ qs c = squaresQ qs (meanQ qs) + qs.length * (c - meanQ qs) ^ 2 := by
  have hlen : (qs.length : ℚ) ≠ 0 := by
    have := List.length_pos_of_ne_nil hne
    positivity
  have expand : ∀ (l : List ℚ) (d : ℚ), squaresQ l d = (l.map (fun x => x ^ 2)).sum - 2 * d * l.sum + l.length * d ^ 2 := by
    intro l d
    unfold squaresQ
    induction l with
    | nil => simp
    | cons x l ih =>
      simp only [List.map_cons, List.sum_cons, List.length_cons, Nat.cast_add, Nat.cast_one]
      rw [ih]
      ring
  have hmean : qs.sum = qs.length * meanQ qs := by
    unfold meanQ
    rw [mul_div_cancel₀ _ hlen]
  rw [expand, expand, hmean]
  ring

theorem squaresQ_nonneg (qs : List ℚ) (c : ℚ) : 0 ≤ squaresQ qs c := by
  apply List.sum_nonneg
  intro x hx
  obtain ⟨y, _, rfl⟩ := List.mem_map.mp hx
  exact sq_nonneg _

theorem meanOf_spec (fused : Bool) (vals : List Dbl) (hne : 1 ≤ vals.length) (hn : vals.length ≤ 2 ^ 46) :
    MeanSpec vals (meanOf fused (div (.fin 1) (ofNatD vals.length)) vals) := by
  rw [ofNatD_eq (hn.trans (by norm_num))]
  obtain ⟨w, hw, hw0, hw1, hwe⟩ := ninv_err hne hn
  rw [hw]
  constructor
  · intro qs hqs
    have hlen := areNumbers_length hqs
    obtain ⟨r, hr, -, hre⟩ := mean_prefix_err fused hne hn ⟨hw0, hw1⟩ hwe qs hlen.ge (fun q hq => (hqs.2 q hq).2)
    refine ⟨r, by rw [meanOf, hqs.1]; exact hr, ?_⟩
    rw [hlen] at hre
    unfold meanQ meanErrorQ meanAbsQ
    refine hre.trans (le_of_eq ?_)
    ring
  · intro i hi hmem hv
    exact mean_pinf fused hne hn ⟨hw0, hw1⟩ hwe i hi vals le_rfl hv hmem

theorem meanErrorQ_small {qs : List ℚ} (hne : 1 ≤ qs.length) (hn : qs.length ≤ 2 ^ 46) (hq : ∀ q ∈ qs, |q| ≤ 2 ^ (400 : ℤ)) : |meanQ qs| + meanErrorQ qs ≤ 2 ^ (401 : ℤ) := by
  have hN : (1 : ℚ) ≤ qs.length := by exact_mod_cast hne
  have hn2 : (qs.length : ℚ) ≤ 2 ^ 46 := by exact_mod_cast hn
  have hA : meanAbsQ qs ≤ 2 ^ (400 : ℤ) := by
    unfold meanAbsQ
    rw [div_le_iff₀ (by linarith)]
    refine (sum_map_le (fun x => |x|) _ qs hq).trans (le_of_eq (mul_comm _ _))
  have hA0 : 0 ≤ meanAbsQ qs := by
    unfold meanAbsQ
    apply div_nonneg _ (by linarith)
    apply List.sum_nonneg
    intro x hx
    obtain ⟨y, _, rfl⟩ := List.mem_map.mp hx
    exact abs_nonneg _
  have hM : |meanQ qs| ≤ meanAbsQ qs := by
    unfold meanQ meanAbsQ
    rw [abs_div, abs_of_pos (show (0 : ℚ) < qs.length by linarith)]
    apply div_le_div_of_nonneg_right _ (by linarith)
    clear hA hA0 hq hn hne hN hn2
    induction qs with
    | nil => simp
    | cons x l ih =>
      simp only [List.map_cons, List.sum_cons]
      exact (abs_add_le _ _).trans (add_le_add le_rfl ih)
  have hη := eta_small hn
  have hη0 := two_zpow_pos (-1075)
  have hu : (2 * (qs.length : ℚ) + 6) / 2 ^ 53 ≤ 1 / 4 := by
    rw [div_le_iff₀ (by positivity)]
    linarith
  have hmul := mul_le_mul_of_nonneg_right hu hA0
  have e401 : (2 : ℚ) ^ (401 : ℤ) = 2 * 2 ^ (400 : ℤ) := by rw [show (401 : ℤ) = 400 + 1 by norm_num, two_zpow_add]; norm_num; ring
  have h4 : (4 : ℚ) ≤ 2 ^ (400 : ℤ) := by
    rw [show (4 : ℚ) = 2 ^ (2 : ℤ) by norm_num]
    exact two_zpow_le (by norm_num)
  unfold meanErrorQ
  rw [e401]
  clear e401 hq
  generalize (2 : ℚ) ^ (400 : ℤ) = T at *
  generalize (2 : ℚ) ^ (-1075 : ℤ) = e at *
  generalize meanAbsQ qs = A at *
  generalize (2 * (qs.length : ℚ) + 6) / 2 ^ 53 = c at *
  linarith

theorem varianceOf_spec (fused : Bool) (vals : List Dbl) (h1 : 1 ≤ vals.length) (hn : vals.length ≤ 2 ^ 46) :
    VarianceSpec vals (if vals.length = 1 then .fin 0
      else varianceOf fused (div (.fin 1) (sub (ofNatD vals.length) (.fin 1))) (meanOf fused (div (.fin 1) (ofNatD vals.length)) vals) vals) := by
  have hmean := meanOf_spec fused vals h1 hn
  rw [ofNatD_eq (hn.trans (by norm_num))] at hmean ⊢
  by_cases hone : vals.length = 1
  · rw [if_pos hone]
    exact ⟨fun _ => rfl, fun _ _ => le_rfl, fun h => absurd h (by omega), fun h => absurd h (by omega)⟩
  rw [if_neg hone]
  have h2 : 2 ≤ vals.length := by omega
  obtain ⟨w, hw, hw0, hw1, hwe⟩ := ninv_err (n := vals.length - 1) (by omega) (by omega)
  have hcast : ((vals.length - 1 : ℕ) : ℚ) = (vals.length : ℚ) - 1 := by
    rw [Nat.cast_sub (by omega), Nat.cast_one]
  have hsub : sub (.fin (vals.length : ℚ)) (.fin 1) = .fin ((vals.length : ℚ) - 1) := by
    rw [sub_eq_roundD, ← hcast]
    exact ofNatD_eq (by omega)
  rw [hcast] at hw hwe
  rw [hsub, hw]
  obtain ⟨w0, hw', hw0', hw1', hwe'⟩ := ninv_err h1 hn
  rw [hw'] at hmean ⊢
  refine ⟨fun h => absurd h hone, ?_, fun _ => ?_, fun _ => ?_⟩
  · intro qs hqs
    obtain ⟨μ, hμ, _⟩ := hmean.1 qs hqs
    rw [hμ, hqs.1, varianceOf]
    exact variance_nonneg fused hw0 qs (.fin 0) le_rfl
  · intro qs hqs
    have hlen := areNumbers_length hqs
    obtain ⟨μ, hμ, hμe⟩ := hmean.1 qs (areNumbers_mono (by norm_num) hqs)
    have hμd : IsDbl (meanOf fused (.fin w0) vals) := foldl_isDbl _ (fun _ _ => isDbl_mulAdd _ _ _ _) _ _ isDbl_fin_zero
    rw [hμ] at hμd
    rw [hμ]
    rw [hlen] at h1 hn h2 hwe
    have hsmall := meanErrorQ_small h1 hn (fun q hq => (hqs.2 q hq).2)
    have hμ2 : |μ| ≤ 2 ^ (401 : ℤ) := by
      have := abs_add_le (μ - meanQ qs) (meanQ qs)
      rw [sub_add_cancel] at this
      generalize (2 : ℚ) ^ (401 : ℤ) = T at *
      linarith
    obtain ⟨r, hr, -, hre⟩ := variance_err fused h2 hn ⟨hw0, hw1⟩ hwe qs rfl hμd.1 hμ2 (fun q hq => ⟨(hqs.2 q hq).1.1, (hqs.2 q hq).2⟩)
    refine ⟨r, by rw [varianceOf, hqs.1]; exact hr, ?_⟩
    have hN : (2 : ℚ) ≤ qs.length := by exact_mod_cast h2
    have hn2 : (qs.length : ℚ) ≤ 2 ^ 46 := by exact_mod_cast hn
    have hN0 : (0 : ℚ) < (qs.length : ℚ) - 1 := by linarith
    have hshift := squaresQ_shift qs μ (by intro h; rw [h] at h1; simp at h1)
    have hV : squaresQ qs μ / ((qs.length : ℚ) - 1) = varianceQ qs + qs.length / ((qs.length : ℚ) - 1) * (μ - meanQ qs) ^ 2 := by
      unfold varianceQ
      rw [hshift]
      ring
    have hc : (qs.length : ℚ) / ((qs.length : ℚ) - 1) ≤ 2 := by
      rw [div_le_iff₀ hN0]
      linarith
    have hE : (μ - meanQ qs) ^ 2 ≤ meanErrorQ qs ^ 2 := by
      rw [← sq_abs]
      exact pow_le_pow_left₀ (abs_nonneg _) hμe 2
    have hD : qs.length / ((qs.length : ℚ) - 1) * (μ - meanQ qs) ^ 2 ≤ 2 * meanErrorQ qs ^ 2 :=
      mul_le_mul hc hE (sq_nonneg _) (by norm_num)
    have hD0 : 0 ≤ qs.length / ((qs.length : ℚ) - 1) * (μ - meanQ qs) ^ 2 := by positivity
    rw [hV] at hre
    have hcu : (2 * (qs.length : ℚ) + 11) * (1 / 2 ^ 53) ≤ 1 / 2 := by
      rw [mul_one_div, div_le_iff₀ (by positivity)]
      linarith
    have hcu0 : 0 ≤ (2 * (qs.length : ℚ) + 11) * (1 / 2 ^ 53) := by positivity
    unfold varianceErrorQ
    rw [show (2 * (qs.length : ℚ) + 11) / 2 ^ 53 = (2 * (qs.length : ℚ) + 11) * (1 / 2 ^ 53) by ring]
    generalize (2 * (qs.length : ℚ) + 11) * (1 / 2 ^ 53) = c at *
    generalize qs.length / ((qs.length : ℚ) - 1) * (μ - meanQ qs) ^ 2 = D at *
    generalize (2 : ℚ) ^ (-1075 : ℤ) = e at *
    have hcD : c * D ≤ 1 / 2 * D := mul_le_mul_of_nonneg_right hcu hD0
    have htri := abs_add_le (r - (varianceQ qs + D)) D
    rw [show r - (varianceQ qs + D) + D = r - varianceQ qs by ring, abs_of_nonneg hD0] at htri
    rw [mul_add] at hre
    linarith
  · rintro ⟨x, hx, hfin⟩
    have hor := mean_infinite_or_nan fused hw0'
    have hmi : sub x (meanOf fused (.fin w0) vals) = nan := by
      cases x with
      | fin q => simp [isFinite] at hfin
      | nan => rfl
      | pinf =>
        rcases hor pinf (Or.inl rfl) vals (.fin 0) (Or.inr (Or.inr hx)) with h | h
        · rw [meanOf, h]; rfl
        · rw [meanOf, h]; rfl
      | ninf =>
        rcases hor ninf (Or.inr rfl) vals (.fin 0) (Or.inr (Or.inr hx)) with h | h
        · rw [meanOf, h]; rfl
        · rw [meanOf, h]; rfl
    exact variance_nan fused _ _ x hmi vals _ (Or.inr hx)

theorem perObjective_of_columns {m : Nat} {fmat : List (List Dbl)} (hmat : IsMatrix m fmat) {v : List Dbl} (hv : v.length = m) (f : List Dbl → Dbl) (P : List Dbl → Dbl → Prop)
    (hcol : ∀ i, i < m → v[i]? = some (f (column fmat i))) (hP : ∀ vals, vals.length = fmat.length → P vals (f vals)) : PerObjective m fmat v P := by
  refine ⟨hv, fun i x hx => ?_⟩
  have hi : i < m := by
    rw [← hv]
    exact (List.getElem?_eq_some_iff.mp hx).1
  rw [hcol i hi] at hx
  rw [← Option.some.inj hx]
  exact hP _ (column_length hmat hi)

theorem stdDev_of_variance {sqrt : Dbl → Dbl} (hsqrt : SqrtContract sqrt) {vals : List Dbl} {x : Dbl} (hx : IsDbl x) (h : VarianceSpec vals x) : StdDevSpec vals (sqrt x) := by
  obtain ⟨h1, h2, h3, h4⟩ := h
  have h0d : IsDouble 0 := isDbl_fin_zero
  refine ⟨fun h => ?_, fun qs hqs => ?_, fun hl qs hqs lo hi hlo hhi hlod hhid hlo2 hhi2 => ?_, fun hl hn => by rw [h4 hl hn, hsqrt.nan]⟩
  · rw [h1 h]
    obtain ⟨y, hy, h5, h6⟩ := hsqrt.between 0 0 0 le_rfl h0d h0d le_rfl (by norm_num) (by norm_num)
    rw [hy, le_antisymm h6 h5]
  · have hn := h2 qs hqs
    cases x with
    | nan => exact hn.elim
    | ninf => exact hn.elim
    | pinf => rw [hsqrt.pinf]; trivial
    | fin q =>
      have hd : IsDouble (2 ^ (512 : ℤ)) := ⟨isBinary53_zpow (by norm_num), by
        rw [abs_of_pos (two_zpow_pos _)]
        exact lt_two_pow_1024 (k := 512) (by norm_num) le_rfl⟩
      obtain ⟨y, hy, h5, -⟩ := hsqrt.between q 0 (2 ^ (512 : ℤ)) le_rfl h0d hd (two_zpow_pos _).le (by rw [zero_pow (by norm_num)]; exact hn) (by
        have := (abs_lt.1 hx.2).2.le
        refine this.trans (le_of_eq ?_)
        rw [show (512 : ℤ) = ((512 : ℕ) : ℤ) by norm_num, zpow_natCast, ← pow_mul])
      rw [hy]
      exact h5
  · obtain ⟨r, hr, hre⟩ := h3 hl qs hqs
    rw [hr]
    have h5 := abs_le.1 hre
    obtain ⟨y, hy, h6, h7⟩ := hsqrt.between r lo hi hlo hlod hhid hhi (by linarith) (by linarith)
    exact ⟨y, hy, h6, h7⟩

end Gapp.Model

namespace Gapp.Props
open Gapp.Model Gapp.Spec Dbl

/-- C87: The smallest fitness of each objective, for every population in which no fitness value is a NaN; infinities are allowed. -/
theorem C87_min (m : Nat) (fmat : List (List Dbl)) (hmat : IsMatrix m fmat) (hne : fmat ≠ []) (hnan : ∀ r ∈ fmat, ∀ x ∈ r, x ≠ nan) :
    ∃ v, minFitnessD fmat = some v ∧ PerObjective m fmat v IsMinD := by
  obtain ⟨first, rest, rfl⟩ := List.exists_cons_of_ne_nil hne
  exact elementwise_perObjective Dbl.min IsMinD foldl_minD_spec first rest hmat hnan

/-- C87: The largest fitness of each objective. -/
theorem C87_max (m : Nat) (fmat : List (List Dbl)) (hmat : IsMatrix m fmat) (hne : fmat ≠ []) (hnan : ∀ r ∈ fmat, ∀ x ∈ r, x ≠ nan) :
    ∃ v, maxFitnessRowD fmat = some v ∧ PerObjective m fmat v IsMaxD := by
  obtain ⟨first, rest, rfl⟩ := List.exists_cons_of_ne_nil hne
  exact elementwise_perObjective Dbl.max IsMaxD foldl_maxD_spec first rest hmat hnan

/-- C87: The mean fitness of each objective. -/
theorem C87_mean (fused : Bool) (m : Nat) (fmat : List (List Dbl)) (hmat : IsMatrix m fmat) (hne : fmat ≠ []) (hn : fmat.length ≤ 2 ^ 46) :
    ∃ v, fitnessMeanD fused fmat = some v ∧ PerObjective m fmat v MeanSpec := by
  obtain ⟨v, h1, h2, h3⟩ := mean_column fused hmat hne
  have hpos := List.length_pos_of_ne_nil hne
  refine ⟨v, h1, perObjective_of_columns hmat h2 (fun vals => meanOf fused (div (.fin 1) (ofNatD fmat.length)) vals) MeanSpec h3 (fun vals hl => ?_)⟩
  rw [← hl]
  exact meanOf_spec fused vals (by omega) (by omega)

/-- C87: The variance of the fitness of each objective. -/
theorem C87_variance (fused : Bool) (m : Nat) (fmat : List (List Dbl)) (hmat : IsMatrix m fmat) (hne : fmat ≠ []) (hn : fmat.length ≤ 2 ^ 46) :
    ∃ v, fitnessVarianceD fused fmat = some v ∧ PerObjective m fmat v VarianceSpec := by
  obtain ⟨mean, h1, h2, h3⟩ := mean_column fused hmat hne
  obtain ⟨v, h4, h5, h6⟩ := variance_column fused hmat hne mean h2
  have hpos := List.length_pos_of_ne_nil hne
  refine ⟨v, by unfold fitnessVarianceD; rw [h1]; exact h4, perObjective_of_columns hmat h5
    (fun vals => if fmat.length = 1 then .fin 0
        else varianceOf fused (div (.fin 1) (sub (ofNatD fmat.length) (.fin 1))) (meanOf fused (div (.fin 1) (ofNatD fmat.length)) vals) vals)
    VarianceSpec (fun i hi => h6 i hi _ (h3 i hi)) (fun vals hl => ?_)⟩
  rw [← hl]
  exact varianceOf_spec fused vals (by omega) (by omega)

/-- C87: The standard deviation of the fitness of each objective. -/
theorem C87_stddev (fused : Bool) (sqrt : Dbl → Dbl) (hsqrt : SqrtContract sqrt) (m : Nat) (fmat : List (List Dbl)) (hmat : IsMatrix m fmat) (hne : fmat ≠ [])
    (hn : fmat.length ≤ 2 ^ 46) : ∃ v, fitnessStdDevD fused sqrt fmat = some v ∧ PerObjective m fmat v StdDevSpec := by
  obtain ⟨mean, h1, h2, h3⟩ := mean_column fused hmat hne
  obtain ⟨v, h4, h5, h6⟩ := variance_column fused hmat hne mean h2
  have hpos := List.length_pos_of_ne_nil hne
  refine ⟨v.map sqrt, by unfold fitnessStdDevD; rw [h1]; simp [h4], perObjective_of_columns hmat (by simpa using h5)
    (fun vals => sqrt (if fmat.length = 1 then .fin 0
        else varianceOf fused (div (.fin 1) (sub (ofNatD fmat.length) (.fin 1))) (meanOf fused (div (.fin 1) (ofNatD fmat.length)) vals) vals))
    StdDevSpec (fun i hi => by rw [List.getElem?_map, h6 i hi _ (h3 i hi)]; rfl) (fun vals hl => ?_)⟩
  rw [← hl]
  refine stdDev_of_variance hsqrt ?_ (varianceOf_spec fused vals (by omega) (by omega))
  split
  · exact isDbl_fin_zero
  · exact foldl_isDbl _ (fun _ _ => isDbl_mulAdd _ _ _ _) _ _ isDbl_fin_zero

/-- C87: The computed mean need not be between the smallest and the largest value: for ten candidates with the fitness 1, it is less than 1. -/
theorem C87_mean_within_violated : ∃ fmat : List (List Dbl), fmat.length = 10 ∧ (∀ r ∈ fmat, r = [.fin 1]) ∧ ∀ fused, ∃ q, fitnessMeanD fused fmat = some [.fin q] ∧ q < 1 :=
  ⟨List.replicate 10 [.fin 1], by simp, fun r hr => List.eq_of_mem_replicate hr, fun fused => ⟨1 - 1 / 2 ^ 53, by cases fused <;> decide +kernel, by norm_num⟩⟩

/-- C87: The computed variance of equal values need not be zero. -/
theorem C87_variance_constant_violated : ∃ fmat : List (List Dbl), fmat.length = 10 ∧ (∀ r ∈ fmat, r = [.fin 1]) ∧ ∀ fused, ∃ q, fitnessVarianceD fused fmat = some [.fin q] ∧ 0 < q :=
  ⟨List.replicate 10 [.fin 1], by simp, fun r hr => List.eq_of_mem_replicate hr, fun fused => ⟨5003999585967219 / 2 ^ 158, by cases fused <;> decide +kernel, by positivity⟩⟩

/-! ## Concrete cases -/

/-- A square root that satisfies the contract: rounded from 1074 binary digits after the point. -/
def refSqrt : Dbl → Dbl
  | .fin x => roundD ((Nat.sqrt ⌊x * (2 ^ 1074) ^ 2⌋₊ : ℚ) / 2 ^ 1074)
  | .pinf => .pinf
  | _ => .nan

theorem refSqrt_contract : SqrtContract refSqrt where
  pinf := rfl
  nan := rfl
  between := by
    intro x lo hi hlo hlod hhid hhi h1 h2
    have hmul : ∀ {y : ℚ}, 0 ≤ y → IsDouble y → ∃ k : ℕ, y = k / 2 ^ 1074 := by
      intro y hy hyd
      obtain ⟨n, hn⟩ := binary53_multiple hyd.1
      have hp : (0 : ℚ) < 2 ^ (-1074 : ℤ) := two_zpow_pos _
      have hn0 : 0 ≤ n := by
        have : (0 : ℚ) ≤ n := by
          by_contra hc
          exact absurd hy (not_le.2 (hn ▸ mul_neg_of_neg_of_pos (not_le.1 hc) hp))
        exact_mod_cast this
      refine ⟨n.toNat, ?_⟩
      have e : ((n.toNat : ℕ) : ℚ) = n := by
        have := Int.toNat_of_nonneg hn0
        exact_mod_cast this
      rw [hn, e, zpow_neg, div_eq_mul_inv]
      congr 2
    obtain ⟨k, hk⟩ := hmul hlo hlod
    obtain ⟨j, hj⟩ := hmul hhi hhid
    have hP : (0 : ℚ) < 2 ^ 1074 := by positivity
    have hx0 : 0 ≤ x := (sq_nonneg lo).trans h1
    show ∃ y, roundD ((Nat.sqrt ⌊x * (2 ^ 1074) ^ 2⌋₊ : ℚ) / 2 ^ 1074) = fin y ∧ _
    generalize (2 : ℚ) ^ 1074 = P at *
    have hb1 : k ≤ Nat.sqrt ⌊x * P ^ 2⌋₊ := by
      rw [Nat.le_sqrt, Nat.le_floor_iff (by positivity)]
      rw [hk, div_pow, div_le_iff₀ (by positivity)] at h1
      push_cast
      rw [← sq]
      exact h1
    have hb2 : Nat.sqrt ⌊x * P ^ 2⌋₊ ≤ j := by
      rw [hj, div_pow, le_div_iff₀ (by positivity)] at h2
      have h3 : ⌊x * P ^ 2⌋₊ ≤ j * j := by
        apply Nat.floor_le_of_le
        push_cast
        rw [← sq]
        exact h2
      exact (Nat.sqrt_le_sqrt h3).trans (Nat.sqrt_eq j).le
    obtain ⟨q, hq, -, hq1, hq2⟩ := roundD_between hlod hhid (x := (Nat.sqrt ⌊x * P ^ 2⌋₊ : ℚ) / P)
      (by rw [hk]; exact div_le_div_of_nonneg_right (by exact_mod_cast hb1) hP.le) (by rw [hj]; exact div_le_div_of_nonneg_right (by exact_mod_cast hb2) hP.le)
    exact ⟨q, hq, hq1, hq2⟩

/-- Three candidates with two objectives; one of the values is infinite. -/
def statsMatrix : List (List Dbl) := [[.fin 1, .fin 3], [.fin (-2), .pinf], [.fin 4, .fin 3]]

example : IsMatrix 2 statsMatrix ∧ statsMatrix ≠ [] ∧ (∀ r ∈ statsMatrix, ∀ x ∈ r, x ≠ nan) ∧ statsMatrix.length ≤ 2 ^ 46 ∧
    minFitnessD statsMatrix = some [.fin (-2), .fin 3] ∧ maxFitnessRowD statsMatrix = some [.fin 4, .pinf] := by
  refine ⟨?_, ?_, ?_, ?_, ?_, ?_⟩
  · unfold IsMatrix; decide +kernel
  all_goals decide +kernel

example : AreNumbers 400 (column statsMatrix 0) [1, -2, 4] := by
  refine ⟨rfl, ?_⟩
  have h : ∀ z : ℤ, |z| ≤ 4 → IsDouble z ∧ |(z : ℚ)| ≤ 2 ^ (400 : ℤ) := by
    intro z hz
    have hq : |(z : ℚ)| ≤ 2 ^ (2 : ℤ) := by
      have : ((|z| : ℤ) : ℚ) ≤ ((4 : ℤ) : ℚ) := by exact_mod_cast hz
      push_cast at this
      norm_num
      exact this
    exact ⟨⟨⟨z, 0, hz.trans (by norm_num), by norm_num, by norm_num⟩, lt_two_pow_1024 (k := 2) (by norm_num) hq⟩, hq.trans (two_zpow_le (by norm_num))⟩
  intro q hq
  simp only [List.mem_cons, List.not_mem_nil, or_false] at hq
  rcases hq with rfl | rfl | rfl
  · exact_mod_cast h 1 (by norm_num)
  · exact_mod_cast h (-2) (by norm_num)
  · exact_mod_cast h 4 (by norm_num)

/-- The mean and the variance of the infinite objective. -/
example (fused : Bool) : fitnessMeanD fused statsMatrix = some [.fin 1, .pinf] ∧ fitnessVarianceD fused statsMatrix = some [.fin 9, .nan] := by
  cases fused <;> decide +kernel

end Gapp.Props
