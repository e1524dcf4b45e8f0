import Mathlib.Tactic.Linarith
import Mathlib.Tactic.NormNum
import Mathlib.Tactic.Ring
import Verif.Model.RealCrossover
import Verif.Spec.RealCrossover
import Verif.Proofs.Float
import Verif.Proofs.Mutation
/-!
# C57: the real-coded crossovers

The parents are legal: as many genes as bounds, and each gene within its bounds.
-/

namespace Gapp.Model
open Gapp.Spec
section
variable {K : Type} [Field K] [LinearOrder K] [IsStrictOrderedRing K]

omit [IsStrictOrderedRing K] in
theorem nearest_stdClamp {lo hi : K} (h : lo ≤ hi) (v : K) : NearestIn lo hi v (stdClamp v lo hi) := by
  unfold stdClamp NearestIn
  split
  · next h1 => exact ⟨le_rfl, h, fun _ => Or.inl rfl, fun h2 => absurd h1 (not_lt.mpr h2)⟩
  · next h1 =>
    rw [not_lt] at h1
    split
    · next h2 => exact ⟨h, le_rfl, fun h3 => absurd h2 (not_lt.mpr h3), fun _ => Or.inl rfl⟩
    · next h2 =>
      rw [not_lt] at h2
      exact ⟨h1, h2, fun _ => Or.inr rfl, fun _ => Or.inr rfl⟩

omit [LinearOrder K] [IsStrictOrderedRing K] [Field K] in
theorem geneLoop_ok (gene : Nat → GeneBounds K → K → K → K × K) (bs : List (GeneBounds K)) :
    ∀ (i : Nat) (xs ys : List K), xs.length = bs.length → ys.length = bs.length →
    ∃ c1 c2, geneLoop gene i bs xs ys = some (c1, c2) ∧ c1.length = bs.length ∧ c2.length = bs.length ∧
      ∀ (j : Nat) (b : GeneBounds K) (x y : K), bs[j]? = some b → xs[j]? = some x → ys[j]? = some y →
        c1[j]? = some (gene (i + j) b x y).1 ∧ c2[j]? = some (gene (i + j) b x y).2 := by
  induction bs with
  | nil =>
    intro i xs ys hx hy
    match xs, ys, hx, hy with
    | [], [], _, _ => exact ⟨[], [], rfl, rfl, rfl, fun j b x y h => by simp at h⟩
  | cons b bs ih =>
    intro i xs ys hx hy
    match xs, ys, hx, hy with
    | x :: xs, y :: ys, hx, hy =>
      obtain ⟨c1, c2, h1, h2, h3, h4⟩ := ih (i + 1) xs ys (by simpa using hx) (by simpa using hy)
      refine ⟨(gene i b x y).1 :: c1, (gene i b x y).2 :: c2, by simp [geneLoop, h1], by simp [h2], by simp [h3], ?_⟩
      intro j b' x' y' hb hx hy
      match j with
      | 0 =>
        simp at hb hx hy
        subst hb; subst hx; subst hy
        simp
      | j + 1 =>
        have := h4 j b' x' y' (by simpa using hb) (by simpa using hx) (by simpa using hy)
        rw [show i + (j + 1) = i + 1 + j by omega]
        simpa using this

end
end Gapp.Model

namespace Gapp.Props
open Gapp.Model Gapp.Spec
variable {K : Type} [Field K] [LinearOrder K] [IsStrictOrderedRing K]

/-- C57, arithmetic crossover: the children are legal, and are the two weighted means of the parents, gene by gene. -/
theorem C57_arithmetic (alpha : K) (h0 : 0 ≤ alpha) (h1 : alpha ≤ 1) (bounds : List (GeneBounds K)) (p1 p2 : List K)
    (hp1 : LegalGenes bounds p1) (hp2 : LegalGenes bounds p2) :
    ∃ c1 c2, arithmeticCrossover alpha bounds p1 p2 = some (c1, c2) ∧ LegalGenes bounds c1 ∧ LegalGenes bounds c2 ∧
      ∀ (i : Nat) (x y : K), p1[i]? = some x → p2[i]? = some y →
        c1[i]? = some (alpha * x + (1 - alpha) * y) ∧ c2[i]? = some ((1 - alpha) * x + alpha * y) := by
  obtain ⟨c1, c2, hc, l1, l2, hg⟩ := geneLoop_ok (fun _ b x y =>
    let c1 := alpha * x + (1 - alpha) * y
    let c2 := (1 - alpha) * x + alpha * y
    (stdClamp c1 b.lower b.upper, stdClamp c2 b.lower b.upper)) bounds 0 p1 p2 hp1.1 hp2.1
  have hin : ∀ (i : Nat) (b : GeneBounds K) (x y : K), bounds[i]? = some b → p1[i]? = some x → p2[i]? = some y →
      (b.lower ≤ alpha * x + (1 - alpha) * y ∧ alpha * x + (1 - alpha) * y ≤ b.upper) ∧
      (b.lower ≤ (1 - alpha) * x + alpha * y ∧ (1 - alpha) * x + alpha * y ≤ b.upper) := by
    intro i b x y hb hx hy
    obtain ⟨a1, a2⟩ := hp1.2 i b x hb hx
    obtain ⟨b1, b2⟩ := hp2.2 i b y hb hy
    have h1' : 0 ≤ 1 - alpha := by linarith
    have e1 := mul_le_mul_of_nonneg_left a1 h0
    have e2 := mul_le_mul_of_nonneg_left a2 h0
    have e3 := mul_le_mul_of_nonneg_left b1 h1'
    have e4 := mul_le_mul_of_nonneg_left b2 h1'
    have e5 := mul_le_mul_of_nonneg_left a1 h1'
    have e6 := mul_le_mul_of_nonneg_left a2 h1'
    have e7 := mul_le_mul_of_nonneg_left b1 h0
    have e8 := mul_le_mul_of_nonneg_left b2 h0
    have f1 : alpha * b.lower + (1 - alpha) * b.lower = b.lower := by ring
    have f2 : alpha * b.upper + (1 - alpha) * b.upper = b.upper := by ring
    refine ⟨⟨?_, ?_⟩, ⟨?_, ?_⟩⟩ <;> linarith
  have key : ∀ (i : Nat) (x y : K), p1[i]? = some x → p2[i]? = some y →
        c1[i]? = some (alpha * x + (1 - alpha) * y) ∧ c2[i]? = some ((1 - alpha) * x + alpha * y) := by
    intro i x y hx hy
    have hi : i < bounds.length := by rw [← hp1.1]; exact (List.getElem?_eq_some_iff.mp hx).1
    have hb : bounds[i]? = some bounds[i] := List.getElem?_eq_getElem hi
    obtain ⟨g1, g2⟩ := hg i _ x y hb hx hy
    obtain ⟨⟨a1, a2⟩, ⟨b1, b2⟩⟩ := hin i _ x y hb hx hy
    rw [g1, g2]
    exact ⟨congrArg some (stdClamp_eq _ _ _ a1 a2), congrArg some (stdClamp_eq _ _ _ b1 b2)⟩
  have hpar : ∀ (i : Nat) (b : GeneBounds K), bounds[i]? = some b → ∃ x y, p1[i]? = some x ∧ p2[i]? = some y := by
    intro i b hb
    have hi := (List.getElem?_eq_some_iff.mp hb).1
    exact ⟨_, _, List.getElem?_eq_getElem (by rw [hp1.1]; exact hi), List.getElem?_eq_getElem (by rw [hp2.1]; exact hi)⟩
  refine ⟨c1, c2, hc, ⟨l1, ?_⟩, ⟨l2, ?_⟩, key⟩
  · intro i b g hb hgi
    obtain ⟨x, y, hx, hy⟩ := hpar i b hb
    rw [(key i x y hx hy).1] at hgi
    cases hgi
    exact (hin i b x y hb hx hy).1
  · intro i b g hb hgi
    obtain ⟨x, y, hx, hy⟩ := hpar i b hb
    rw [(key i x y hx hy).2] at hgi
    cases hgi
    exact (hin i b x y hb hx hy).2

example : arithmeticCrossover (K := ℚ) (1/4) [⟨0, 8⟩, ⟨-1, 1⟩] [4, 0] [8, 1] = some ([7, 3/4], [5, 1/4]) := by
  norm_num [arithmeticCrossover, geneLoop, stdClamp]

/-- The bounds of a legal chromosome are in order. -/
theorem legal_bounds {bounds : List (GeneBounds K)} {p : List K} (hp : LegalGenes bounds p) (i : Nat) (b : GeneBounds K)
    (hb : bounds[i]? = some b) : ∃ x, p[i]? = some x ∧ b.lower ≤ x ∧ x ≤ b.upper := by
  have hi := (List.getElem?_eq_some_iff.mp hb).1
  have hi' : i < p.length := by rw [hp.1]; exact hi
  have hx : p[i]? = some p[i] := List.getElem?_eq_getElem hi'
  exact ⟨_, hx, hp.2 i b _ hb hx⟩

/-- C57, BLX-α crossover: the children are legal, and every gene is in the interval spanned by the genes of the parents, extended on both sides by `alpha` times its
length. -/
theorem C57_blx (alpha : K) (h0 : 0 ≤ alpha) (draws : Nat → K × K)
    (hd : ∀ i, (0 ≤ (draws i).1 ∧ (draws i).1 ≤ 1) ∧ (0 ≤ (draws i).2 ∧ (draws i).2 ≤ 1)) (bounds : List (GeneBounds K)) (p1 p2 : List K)
    (hp1 : LegalGenes bounds p1) (hp2 : LegalGenes bounds p2) :
    ∃ c1 c2, blxCrossover alpha draws bounds p1 p2 = some (c1, c2) ∧ LegalGenes bounds c1 ∧ LegalGenes bounds c2 ∧
      ∀ (i : Nat) (x y : K), p1[i]? = some x → p2[i]? = some y → ∃ g1 g2, c1[i]? = some g1 ∧ c2[i]? = some g2 ∧
        (min x y - alpha * |x - y| ≤ g1 ∧ g1 ≤ max x y + alpha * |x - y|) ∧ (min x y - alpha * |x - y| ≤ g2 ∧ g2 ≤ max x y + alpha * |x - y|) := by
  obtain ⟨c1, c2, hc, l1, l2, hg⟩ := geneLoop_ok (fun i b x y =>
    let range_min := if y < x then y else x
    let range_max := if y < x then x else y
    let range_ext := alpha * (range_max - range_min)
    let c1 := realBetween (range_min - range_ext) (range_max + range_ext) (draws i).1
    let c2 := realBetween (range_min - range_ext) (range_max + range_ext) (draws i).2
    (stdClamp c1 b.lower b.upper, stdClamp c2 b.lower b.upper)) bounds 0 p1 p2 hp1.1 hp2.1
  -- one gene
  have one : ∀ (b : GeneBounds K) (x y r : K), b.lower ≤ x → x ≤ b.upper → b.lower ≤ y → y ≤ b.upper → 0 ≤ r → r ≤ 1 →
      let lo := if y < x then y else x
      let hi := if y < x then x else y
      let e := alpha * (hi - lo)
      let g := stdClamp (realBetween (lo - e) (hi + e) r) b.lower b.upper
      (b.lower ≤ g ∧ g ≤ b.upper) ∧ min x y - alpha * |x - y| ≤ g ∧ g ≤ max x y + alpha * |x - y| := by
    intro b x y r hx1 hx2 hy1 hy2 hr0 hr1
    have hlo : (if y < x then y else x) = min x y := by
      split
      · next h => exact (min_eq_right h.le).symm
      · next h => exact (min_eq_left (not_lt.mp h)).symm
    have hhi : (if y < x then x else y) = max x y := by
      split
      · next h => exact (max_eq_left h.le).symm
      · next h => exact (max_eq_right (not_lt.mp h)).symm
    have hab : max x y - min x y = |x - y| := max_sub_min_eq_abs' x y
    simp only [hlo, hhi, hab]
    have hle : b.lower ≤ b.upper := le_trans hx1 hx2
    refine ⟨stdClamp_bounds _ _ _ hle, ?_⟩
    have hm : min x y ≤ max x y := min_le_max
    have hmin1 : b.lower ≤ min x y := le_min hx1 hy1
    have hmin2 : min x y ≤ b.upper := le_trans (min_le_left _ _) hx2
    have hmax1 : b.lower ≤ max x y := le_trans hx1 (le_max_left _ _)
    have hmax2 : max x y ≤ b.upper := max_le hx2 hy2
    have he : 0 ≤ alpha * |x - y| := mul_nonneg h0 (abs_nonneg _)
    have hw : 0 ≤ max x y + alpha * |x - y| - (min x y - alpha * |x - y|) := by linarith
    have k1 := mul_nonneg hw hr0
    have k2 := mul_le_mul_of_nonneg_left hr1 hw
    unfold realBetween stdClamp
    split
    · next h => exact ⟨by linarith, by linarith⟩
    · split
      · next h => exact ⟨by linarith, by linarith⟩
      · exact ⟨by linarith, by linarith⟩
  have key : ∀ (i : Nat) (b : GeneBounds K) (x y : K), bounds[i]? = some b → p1[i]? = some x → p2[i]? = some y → ∃ g1 g2, c1[i]? = some g1 ∧ c2[i]? = some g2 ∧
      ((b.lower ≤ g1 ∧ g1 ≤ b.upper) ∧ min x y - alpha * |x - y| ≤ g1 ∧ g1 ≤ max x y + alpha * |x - y|) ∧
      ((b.lower ≤ g2 ∧ g2 ≤ b.upper) ∧ min x y - alpha * |x - y| ≤ g2 ∧ g2 ≤ max x y + alpha * |x - y|) := by
    intro i b x y hb hx hy
    obtain ⟨g1, g2⟩ := hg i b x y hb hx hy
    obtain ⟨hx1, hx2⟩ := hp1.2 i b x hb hx
    obtain ⟨hy1, hy2⟩ := hp2.2 i b y hb hy
    rw [Nat.zero_add] at g1 g2
    exact ⟨_, _, g1, g2, one b x y _ hx1 hx2 hy1 hy2 (hd i).1.1 (hd i).1.2, one b x y _ hx1 hx2 hy1 hy2 (hd i).2.1 (hd i).2.2⟩
  refine ⟨c1, c2, hc, ⟨l1, ?_⟩, ⟨l2, ?_⟩, ?_⟩
  · intro i b g hb hgi
    obtain ⟨x, hx, -⟩ := legal_bounds hp1 i b hb
    obtain ⟨y, hy, -⟩ := legal_bounds hp2 i b hb
    obtain ⟨g1, g2, a1, a2, a3, a4⟩ := key i b x y hb hx hy
    rw [a1] at hgi; cases hgi; exact a3.1
  · intro i b g hb hgi
    obtain ⟨x, hx, -⟩ := legal_bounds hp1 i b hb
    obtain ⟨y, hy, -⟩ := legal_bounds hp2 i b hb
    obtain ⟨g1, g2, a1, a2, a3, a4⟩ := key i b x y hb hx hy
    rw [a2] at hgi; cases hgi; exact a4.1
  · intro i x y hx hy
    have hi : i < bounds.length := by rw [← hp1.1]; exact (List.getElem?_eq_some_iff.mp hx).1
    obtain ⟨g1, g2, a1, a2, a3, a4⟩ := key i _ x y (List.getElem?_eq_getElem hi) hx hy
    exact ⟨g1, g2, a1, a2, a3.2, a4.2⟩

example : blxCrossover (K := ℚ) (1/2) (fun _ => (1/2, 0)) [⟨0, 8⟩, ⟨-1, 1⟩] [4, 0] [8, 1] = some ([6, 1/2], [2, -1/2]) := by
  norm_num [blxCrossover, geneLoop, stdClamp, realBetween]
example : LegalGenes (K := ℚ) [⟨0, 8⟩, ⟨-1, 1⟩] [4, 0] := by
  refine ⟨rfl, ?_⟩
  intro i b g hb hg
  match i with
  | 0 => simp at hb hg; subst hb; subst hg; norm_num
  | 1 => simp at hb hg; subst hb; subst hg; norm_num
  | i + 2 => simp at hb

/-- C57, simulated binary crossover: the children are legal, whatever the values of the power function and the draws, and genes that compare equal
are inherited unchanged. -/
theorem C57_sbx (t : Tol K) (pow : K → K → K) (eta : K) (draws : Nat → K × K) (bounds : List (GeneBounds K)) (p1 p2 : List K)
    (hp1 : LegalGenes bounds p1) (hp2 : LegalGenes bounds p2) :
    ∃ c1 c2, sbxCrossover t pow eta draws bounds p1 p2 = some (c1, c2) ∧ LegalGenes bounds c1 ∧ LegalGenes bounds c2 ∧
      (∀ (i : Nat) (x y : K), p1[i]? = some x → p2[i]? = some y → floatIsEqual t (.fin x) (.fin y) = true →
        c1[i]? = some x ∧ c2[i]? = some y) := by
  obtain ⟨c1, c2, hc, l1, l2, hg⟩ := geneLoop_ok (fun i b x y =>
    let gene_low := if y < x then y else x
    let gene_high := if y < x then x else y
    if floatIsEqual t (.fin gene_high) (.fin gene_low) then (x, y)
    else
      let beta1 := 1 + 2 * (gene_low - b.lower) / (gene_high - gene_low)
      let beta2 := 1 + 2 * (b.upper - gene_high) / (gene_high - gene_low)
      let alpha1 := 2 - pow beta1 (-(eta + 1))
      let alpha2 := 2 - pow beta2 (-(eta + 1))
      let beta1_prime := betaPrime pow eta alpha1 (draws i).1
      let beta2_prime := betaPrime pow eta alpha2 (draws i).2
      let c1 := 1 / 2 * (x + y - beta1_prime * |x - y|)
      let c2 := 1 / 2 * (x + y + beta2_prime * |x - y|)
      (stdClamp c1 b.lower b.upper, stdClamp c2 b.lower b.upper)) bounds 0 p1 p2 hp1.1 hp2.1
  refine ⟨c1, c2, hc, ⟨l1, ?_⟩, ⟨l2, ?_⟩, ?_⟩
  · intro i b g hb hgi
    obtain ⟨x, hx, hx1, hx2⟩ := legal_bounds hp1 i b hb
    obtain ⟨y, hy, hy1, hy2⟩ := legal_bounds hp2 i b hb
    rw [(hg i b x y hb hx hy).1] at hgi
    cases hgi
    by_cases hq : floatIsEqual t (.fin (if y < x then x else y)) (.fin (if y < x then y else x)) = true
    · simp only [hq, if_true]; exact ⟨hx1, hx2⟩
    · simp only [hq, Bool.false_eq_true, if_false]; exact stdClamp_bounds _ _ _ (le_trans hx1 hx2)
  · intro i b g hb hgi
    obtain ⟨x, hx, hx1, hx2⟩ := legal_bounds hp1 i b hb
    obtain ⟨y, hy, hy1, hy2⟩ := legal_bounds hp2 i b hb
    rw [(hg i b x y hb hx hy).2] at hgi
    cases hgi
    by_cases hq : floatIsEqual t (.fin (if y < x then x else y)) (.fin (if y < x then y else x)) = true
    · simp only [hq, if_true]; exact ⟨hy1, hy2⟩
    · simp only [hq, Bool.false_eq_true, if_false]; exact stdClamp_bounds _ _ _ (le_trans hx1 hx2)
  · intro i x y hx hy heq
    have hi : i < bounds.length := by rw [← hp1.1]; exact (List.getElem?_eq_some_iff.mp hx).1
    obtain ⟨g1, g2⟩ := hg i _ x y (List.getElem?_eq_getElem hi) hx hy
    have hsym : floatIsEqual t (.fin y) (.fin x) = true := by
      rw [floatIsEqual_iff] at heq ⊢
      exact ⟨heq.2, heq.1⟩
    have : floatIsEqual t (.fin (if y < x then x else y)) (.fin (if y < x then y else x)) = true := by
      split
      · exact heq
      · exact hsym
    rw [g1, g2]
    simp only [this, if_true]
    exact ⟨trivial, trivial⟩

/-- C57, simulated binary crossover: for genes that do not compare equal and a power function that is not negative, the first child is not above the middle of the parents and the second
not below it. -/
theorem C57_sbx_sides (t : Tol K) (pow : K → K → K) (hpow : ∀ a b, 0 ≤ pow a b) (eta : K) (draws : Nat → K × K) (bounds : List (GeneBounds K)) (p1 p2 : List K)
    (hp1 : LegalGenes bounds p1) (hp2 : LegalGenes bounds p2) (c1 c2 : List K)
    (h : sbxCrossover t pow eta draws bounds p1 p2 = some (c1, c2)) (i : Nat) (x y : K) (hx : p1[i]? = some x) (hy : p2[i]? = some y)
    (hne : floatIsEqual t (.fin x) (.fin y) = false) :
    ∃ g1 g2, c1[i]? = some g1 ∧ c2[i]? = some g2 ∧ g1 ≤ (x + y) / 2 ∧ (x + y) / 2 ≤ g2 := by
  obtain ⟨c1', c2', hc, l1, l2, hg⟩ := geneLoop_ok (fun i b x y =>
    let gene_low := if y < x then y else x
    let gene_high := if y < x then x else y
    if floatIsEqual t (.fin gene_high) (.fin gene_low) then (x, y)
    else
      let beta1 := 1 + 2 * (gene_low - b.lower) / (gene_high - gene_low)
      let beta2 := 1 + 2 * (b.upper - gene_high) / (gene_high - gene_low)
      let alpha1 := 2 - pow beta1 (-(eta + 1))
      let alpha2 := 2 - pow beta2 (-(eta + 1))
      let beta1_prime := betaPrime pow eta alpha1 (draws i).1
      let beta2_prime := betaPrime pow eta alpha2 (draws i).2
      let c1 := 1 / 2 * (x + y - beta1_prime * |x - y|)
      let c2 := 1 / 2 * (x + y + beta2_prime * |x - y|)
      (stdClamp c1 b.lower b.upper, stdClamp c2 b.lower b.upper)) bounds 0 p1 p2 hp1.1 hp2.1
  have hcc : (c1', c2') = (c1, c2) := Option.some.inj (hc.symm.trans h)
  cases hcc
  have hi : i < bounds.length := by rw [← hp1.1]; exact (List.getElem?_eq_some_iff.mp hx).1
  have hb : bounds[i]? = some bounds[i] := List.getElem?_eq_getElem hi
  obtain ⟨g1, g2⟩ := hg i _ x y hb hx hy
  obtain ⟨hx1, hx2⟩ := hp1.2 i _ x hb hx
  obtain ⟨hy1, hy2⟩ := hp2.2 i _ y hb hy
  have hsym : floatIsEqual t (.fin y) (.fin x) = false := by
    rw [← Bool.not_eq_true] at hne ⊢
    rw [floatIsEqual_iff] at hne ⊢
    exact fun h => hne ⟨h.2, h.1⟩
  have : floatIsEqual t (.fin (if y < x then x else y)) (.fin (if y < x then y else x)) = false := by
    split
    · exact hne
    · exact hsym
  refine ⟨_, _, g1, g2, ?_⟩
  simp only [this, Bool.false_eq_true, if_false]
  have hbp : ∀ a u, 0 ≤ betaPrime pow eta a u := by
    intro a u; unfold betaPrime; split <;> exact hpow _ _
  have hm1 : bounds[i].lower ≤ (x + y) / 2 := by linarith
  have hm2 : (x + y) / 2 ≤ bounds[i].upper := by linarith
  constructor
  · have hq := mul_nonneg (hbp (2 - pow (1 + 2 * ((if y < x then y else x) - bounds[i].lower) / ((if y < x then x else y) - (if y < x then y else x))) (-(eta + 1))) (draws (0 + i)).1) (abs_nonneg (x - y))
    generalize betaPrime pow eta _ _ * |x - y| = q at hq ⊢
    unfold stdClamp
    split
    · exact hm1
    · split
      · next h => linarith
      · linarith
  · have hq := mul_nonneg (hbp (2 - pow (1 + 2 * (bounds[i].upper - (if y < x then x else y)) / ((if y < x then x else y) - (if y < x then y else x))) (-(eta + 1))) (draws (0 + i)).2) (abs_nonneg (x - y))
    generalize betaPrime pow eta _ _ * |x - y| = q at hq ⊢
    unfold stdClamp
    split
    · next h => linarith
    · split
      · exact hm2
      · linarith

example : sbxCrossover (K := ℚ) ⟨0, 0⟩ (fun _ _ => 1) 2 (fun _ => (1/2, 1/2)) [⟨0, 8⟩, ⟨-1, 1⟩] [4, 0] [8, 0] = some ([4, 0], [8, 0]) := by
  norm_num [sbxCrossover, geneLoop, stdClamp, betaPrime, floatIsEqual, Tol.at]

/-- The children of Wright's crossover, with `better` and `worse` parents and the weights `w1`, `w2`: gene by gene the number nearest to
`better + w * (better - worse)` within the bounds. -/
def WrightChildren (bounds : List (GeneBounds K)) (w1 w2 : K) (better worse c1 c2 : List K) : Prop :=
  ∀ (i : Nat) (b : GeneBounds K) (x y : K), bounds[i]? = some b → better[i]? = some x → worse[i]? = some y →
    ∃ g1 g2, c1[i]? = some g1 ∧ c2[i]? = some g2 ∧ NearestIn b.lower b.upper (x + w1 * (x - y)) g1 ∧ NearestIn b.lower b.upper (x + w2 * (x - y)) g2

/-- C57, Wright's crossover: the children are legal and on the line through the parents (until clamped), starting from the better one. If the second parent dominates the first
then it is the better one; if it does not, and the comparison is exact (or the tolerance only absolute, or no fitness value of the first parent is negative), then the first parent is. -/
theorem C57_wright {t : Tol K} (ht : t.Valid) (w1 w2 : K) (bounds : List (GeneBounds K)) (parent1 parent2 : Cand K (FVec K))
    (hp1 : LegalGenes bounds parent1.chrom) (hp2 : LegalGenes bounds parent2.chrom) :
    ∃ c1 c2, wrightCrossover t w1 w2 bounds parent1 parent2 = some (c1, c2) ∧ LegalGenes bounds c1 ∧ LegalGenes bounds c2 ∧
      (Dominates t parent2.fitness parent1.fitness → WrightChildren bounds w1 w2 parent2.chrom parent1.chrom c1 c2) ∧
      (¬ Dominates t parent2.fitness parent1.fitness → (t.rel = 0 ∨ ∀ x ∈ parent1.fitness, Flt.fin 0 ≤ x) →
        WrightChildren bounds w1 w2 parent1.chrom parent2.chrom c1 c2) := by
  have gen : ∀ (better worse : List K), LegalGenes bounds better → LegalGenes bounds worse →
      ∃ c1 c2, geneLoop (fun _ b x y =>
        let c1 := w1 * (x - y) + x
        let c2 := w2 * (x - y) + x
        (stdClamp c1 b.lower b.upper, stdClamp c2 b.lower b.upper)) 0 bounds better worse = some (c1, c2) ∧ LegalGenes bounds c1 ∧ LegalGenes bounds c2 ∧
        WrightChildren bounds w1 w2 better worse c1 c2 := by
    intro better worse hb hw
    obtain ⟨c1, c2, hc, l1, l2, hg⟩ := geneLoop_ok (fun _ b x y =>
        let c1 := w1 * (x - y) + x
        let c2 := w2 * (x - y) + x
        (stdClamp c1 b.lower b.upper, stdClamp c2 b.lower b.upper)) bounds 0 better worse hb.1 hw.1
    refine ⟨c1, c2, hc, ⟨l1, ?_⟩, ⟨l2, ?_⟩, ?_⟩
    · intro i b g hbi hgi
      obtain ⟨x, hx, hx1, hx2⟩ := legal_bounds hb i b hbi
      obtain ⟨y, hy, hy1, hy2⟩ := legal_bounds hw i b hbi
      rw [(hg i b x y hbi hx hy).1] at hgi
      cases hgi
      exact stdClamp_bounds _ _ _ (le_trans hx1 hx2)
    · intro i b g hbi hgi
      obtain ⟨x, hx, hx1, hx2⟩ := legal_bounds hb i b hbi
      obtain ⟨y, hy, hy1, hy2⟩ := legal_bounds hw i b hbi
      rw [(hg i b x y hbi hx hy).2] at hgi
      cases hgi
      exact stdClamp_bounds _ _ _ (le_trans hx1 hx2)
    · intro i b x y hbi hx hy
      obtain ⟨g1, g2⟩ := hg i b x y hbi hx hy
      obtain ⟨x', hx', hx1, hx2⟩ := legal_bounds hb i b hbi
      refine ⟨_, _, g1, g2, ?_, ?_⟩
      · rw [add_comm x]; exact nearest_stdClamp (le_trans hx1 hx2) _
      · rw [add_comm x]; exact nearest_stdClamp (le_trans hx1 hx2) _
  unfold wrightCrossover
  by_cases h : paretoCompareLess t parent1.fitness parent2.fitness = true
  · simp only [h, if_true]
    obtain ⟨c1, c2, hc, h1, h2, h3⟩ := gen parent2.chrom parent1.chrom hp2 hp1
    exact ⟨c1, c2, hc, h1, h2, fun _ => h3, fun hn hs => absurd (less_imp_dominates ht hs h) hn⟩
  · simp only [h, if_false]
    obtain ⟨c1, c2, hc, h1, h2, h3⟩ := gen parent1.chrom parent2.chrom hp1 hp2
    exact ⟨c1, c2, hc, h1, h2, fun hd => absurd (dominates_imp_less ht hd) h, fun _ _ => h3⟩

example : wrightCrossover (K := ℚ) ⟨0, 0⟩ (1/2) 1 [⟨0, 8⟩, ⟨-1, 1⟩] ⟨[4, 0], [.fin 1], true⟩ ⟨[6, 1/2], [.fin 2], true⟩ =
    some ([7, 3/4], [8, 1]) := by
  norm_num [wrightCrossover, geneLoop, stdClamp, paretoCompareLess, floatIsLess, floatIsLessAssumeNotGreater, Tol.at]
example : Dominates (K := ℚ) ⟨0, 0⟩ [.fin 2] [.fin 1] := by
  rw [dominates_zero]
  refine ⟨?_, 0, by simp, by simp, ?_⟩
  · intro i h1 h2
    have : i = 0 := by simpa using h1
    subst this
    simp
  · simp

end Gapp.Props
