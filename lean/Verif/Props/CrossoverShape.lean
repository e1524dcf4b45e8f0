import Mathlib.Analysis.SpecialFunctions.Pow.Real
import Verif.Spec.CrossoverShape
import Verif.Proofs.SbxShape
import Verif.Props.RealCrossover
import Verif.Props.MutationShape
/-!
# C82: the genes of the children of the real-coded crossovers
-/

namespace Gapp.Props

open Gapp.Model Gapp.Spec Gapp.Proofs.SbxShape MeasureTheory

/-! ### BLX-α -/

theorem blx_gene (alpha : ℝ) (draws : Nat → ℝ × ℝ) (bounds : List (GeneBounds ℝ)) (p1 p2 : List ℝ)
    (hp1 : p1.length = bounds.length) (hp2 : p2.length = bounds.length) :
    ∃ c1 c2, blxCrossover alpha draws bounds p1 p2 = some (c1, c2) ∧ c1.length = bounds.length ∧ c2.length = bounds.length ∧
      ∀ (i : Nat) (b : GeneBounds ℝ) (x y : ℝ), bounds[i]? = some b → p1[i]? = some x → p2[i]? = some y →
        c1[i]? = some (stdClamp (realBetween (min x y - alpha * |x - y|) (max x y + alpha * |x - y|) (draws i).1) b.lower b.upper) ∧
        c2[i]? = some (stdClamp (realBetween (min x y - alpha * |x - y|) (max x y + alpha * |x - y|) (draws i).2) b.lower b.upper) := by
  obtain ⟨c1, c2, hc, l1, l2, hg⟩ := geneLoop_ok (fun i b x y =>
    let range_min := if y < x then y else x
    let range_max := if y < x then x else y
    let range_ext := alpha * (range_max - range_min)
    let c1 := realBetween (range_min - range_ext) (range_max + range_ext) (draws i).1
    let c2 := realBetween (range_min - range_ext) (range_max + range_ext) (draws i).2
    (stdClamp c1 b.lower b.upper, stdClamp c2 b.lower b.upper)) bounds 0 p1 p2 hp1 hp2
  refine ⟨c1, c2, hc, l1, l2, ?_⟩
  intro i b x y hb hx hy
  have := hg i b x y hb hx hy
  have hlo : (if y < x then y else x) = min x y := by
    split
    · next h => exact (min_eq_right h.le).symm
    · next h => exact (min_eq_left (not_lt.mp h)).symm
  have hhi : (if y < x then x else y) = max x y := by
    split
    · next h => exact (max_eq_left h.le).symm
    · next h => exact (max_eq_right (not_lt.mp h)).symm
  simp only [hlo, hhi, max_sub_min_eq_abs', Nat.zero_add] at this
  exact this

/-- **C82 (BLX-α).** Within the bounds, the genes of the children are uniform on the documented interval. -/
theorem C82_blx_uniform (alpha : ℝ) (h0 : 0 ≤ alpha) (draws : Nat → ℝ × ℝ) (bounds : List (GeneBounds ℝ)) (p1 p2 : List ℝ)
    (hp1 : LegalGenes bounds p1) (hp2 : LegalGenes bounds p2) (first : Bool) (i : Nat) (b : GeneBounds ℝ) (x y v : ℝ)
    (hb : bounds[i]? = some b) (hx : p1[i]? = some x) (hy : p2[i]? = some y) (hxy : x ≠ y)
    (hv1 : min x y - alpha * |x - y| ≤ v) (hv2 : v ≤ max x y + alpha * |x - y|) (hv3 : b.lower ≤ v) (hv4 : v < b.upper) :
    chanceOf (fun r => ChildGene first i (· ≤ v) (blxCrossover alpha (withDraw first i draws r) bounds p1 p2)) =
      (v - (min x y - alpha * |x - y|)) / ((max x y + alpha * |x - y|) - (min x y - alpha * |x - y|)) := by
  have hd : 0 < |x - y| := abs_pos.mpr (sub_ne_zero.mpr hxy)
  have hw : 0 < (max x y + alpha * |x - y|) - (min x y - alpha * |x - y|) := by
    have := max_sub_min_eq_abs' x y
    have := mul_nonneg h0 hd.le
    linarith
  apply chanceOf_le
  · exact div_nonneg (by linarith) hw.le
  · rw [div_le_one hw]; linarith
  · intro r _ _
    obtain ⟨c1, c2, hc, -, -, hg⟩ := blx_gene alpha (withDraw first i draws r) bounds p1 p2 hp1.1 hp2.1
    obtain ⟨g1, g2⟩ := hg i b x y hb hx hy
    have hclamp : ∀ z : ℝ, stdClamp z b.lower b.upper ≤ v ↔ z ≤ v := by
      intro z
      unfold stdClamp
      split
      · constructor <;> intro h <;> linarith
      · split
        · constructor <;> intro h <;> linarith
        · exact Iff.rfl
    rw [le_div_iff₀ hw]
    have key : ChildGene first i (· ≤ v) (blxCrossover alpha (withDraw first i draws r) bounds p1 p2) ↔
        stdClamp (realBetween (min x y - alpha * |x - y|) (max x y + alpha * |x - y|) r) b.lower b.upper ≤ v := by
      unfold ChildGene
      rw [hc]
      cases first
      · simp only [withDraw, if_true, Bool.false_eq_true, if_false] at g2
        constructor
        · rintro ⟨_, _, g, e, h1, h2⟩
          cases e
          simp only [Bool.false_eq_true, if_false] at h1
          rw [g2] at h1
          cases h1
          exact h2
        · intro h
          exact ⟨c1, c2, _, rfl, g2, h⟩
      · simp only [withDraw, if_true] at g1
        constructor
        · rintro ⟨_, _, g, e, h1, h2⟩
          cases e
          simp only [if_true] at h1
          rw [g1] at h1
          cases h1
          exact h2
        · intro h
          exact ⟨c1, c2, _, rfl, g1, h⟩
    rw [key, hclamp]
    unfold realBetween
    constructor <;> intro h <;> nlinarith

example : chanceOf (fun r => ChildGene true 1 (· ≤ 0) (blxCrossover (1 / 2) (withDraw true 1 (fun _ => (0, 0)) r) [⟨0, 1⟩, ⟨-2, 2⟩] [0, -1] [1, 1])) = 1 / 2 := by
  rw [C82_blx_uniform (1 / 2) (by norm_num) (fun _ => (0, 0)) [⟨0, 1⟩, ⟨-2, 2⟩] [0, -1] [1, 1] ?_ ?_ true 1 ⟨-2, 2⟩ (-1) 1 0 rfl rfl rfl (by norm_num)]
  · norm_num
  · norm_num
  · norm_num
  · norm_num
  · norm_num
  · refine ⟨rfl, ?_⟩
    intro i b g hb hg
    have hi : i < 2 := (List.getElem?_eq_some_iff.mp hb).1
    interval_cases i <;> simp at hb hg <;> subst hb <;> subst hg <;> constructor <;> norm_num
  · refine ⟨rfl, ?_⟩
    intro i b g hb hg
    have hi : i < 2 := (List.getElem?_eq_some_iff.mp hb).1
    interval_cases i <;> simp at hb hg <;> subst hb <;> subst hg <;> constructor <;> norm_num

/-- **C82 (alpha of BLX-α).** With a larger alpha, the genes of the children are farther from the middle of the genes of the parents, when the random numbers are the same. -/
theorem C82_blx_alpha (alpha alpha' : ℝ) (h0 : 0 ≤ alpha) (h : alpha ≤ alpha') (draws : Nat → ℝ × ℝ) (bounds : List (GeneBounds ℝ)) (p1 p2 : List ℝ)
    (hp1 : LegalGenes bounds p1) (hp2 : LegalGenes bounds p2) :
    ∃ c1 c2 c1' c2', blxCrossover alpha draws bounds p1 p2 = some (c1, c2) ∧ blxCrossover alpha' draws bounds p1 p2 = some (c1', c2') ∧
      CloserGenes (List.zipWith (fun x y => (x + y) / 2) p1 p2) c1 c1' ∧ CloserGenes (List.zipWith (fun x y => (x + y) / 2) p1 p2) c2 c2' := by
  obtain ⟨c1, c2, hc, l1, l2, hg⟩ := blx_gene alpha draws bounds p1 p2 hp1.1 hp2.1
  obtain ⟨c1', c2', hc', l1', l2', hg'⟩ := blx_gene alpha' draws bounds p1 p2 hp1.1 hp2.1
  refine ⟨c1, c2, c1', c2', hc, hc', ?_⟩
  have one : ∀ (b : GeneBounds ℝ) (x y r : ℝ), b.lower ≤ x → x ≤ b.upper → b.lower ≤ y → y ≤ b.upper →
      |stdClamp (realBetween (min x y - alpha * |x - y|) (max x y + alpha * |x - y|) r) b.lower b.upper - (x + y) / 2| ≤
      |stdClamp (realBetween (min x y - alpha' * |x - y|) (max x y + alpha' * |x - y|) r) b.lower b.upper - (x + y) / 2| := by
    intro b x y r hx1 hx2 hy1 hy2
    have hs : max x y - min x y = |x - y| := max_sub_min_eq_abs' x y
    have ha : max x y + min x y = x + y := max_add_min x y
    have form : ∀ a : ℝ, realBetween (min x y - a * |x - y|) (max x y + a * |x - y|) r = (x + y) / 2 + (1 + 2 * a) * |x - y| * (r - 1 / 2) := by
      intro a
      unfold realBetween
      rw [← ha, ← hs]
      ring
    rw [form, form]
    apply clamp_closer _ _ _ _ _ (by linarith) (by linarith)
    have hd : 0 ≤ |x - y| := abs_nonneg _
    have hm : (1 + 2 * alpha) * |x - y| ≤ (1 + 2 * alpha') * |x - y| := mul_le_mul_of_nonneg_right (by linarith) hd
    have hm0 : 0 ≤ (1 + 2 * alpha) * |x - y| := mul_nonneg (by linarith) hd
    rcases le_total (1 / 2) r with hr | hr
    · left
      constructor <;> nlinarith
    · right
      constructor <;> nlinarith
  have hlen : (List.zipWith (fun x y : ℝ => (x + y) / 2) p1 p2).length = bounds.length := by
    rw [List.length_zipWith, hp1.1, hp2.1, min_self]
  have both : ∀ (i : Nat) (o : ℝ), (List.zipWith (fun x y => (x + y) / 2) p1 p2)[i]? = some o →
      ∃ b x y, bounds[i]? = some b ∧ p1[i]? = some x ∧ p2[i]? = some y ∧ o = (x + y) / 2 := by
    intro i o ho
    have hi : i < bounds.length := by rw [← hlen]; exact (List.getElem?_eq_some_iff.mp ho).1
    have e1 : p1[i]? = some (p1[i]'(by rw [hp1.1]; exact hi)) := List.getElem?_eq_getElem _
    have e2 : p2[i]? = some (p2[i]'(by rw [hp2.1]; exact hi)) := List.getElem?_eq_getElem _
    refine ⟨_, _, _, List.getElem?_eq_getElem hi, e1, e2, ?_⟩
    rw [List.getElem?_zipWith, e1, e2] at ho
    simpa using ho.symm
  constructor
  · refine ⟨by rw [l1, hlen], by rw [l1', hlen], ?_⟩
    intro i o a a' ho h1 h2
    obtain ⟨b, x, y, hb, hx, hy, rfl⟩ := both i o ho
    rw [(hg i b x y hb hx hy).1] at h1
    rw [(hg' i b x y hb hx hy).1] at h2
    cases h1
    cases h2
    have hbx := hp1.2 i b x hb hx
    have hby := hp2.2 i b y hb hy
    exact one b x y _ hbx.1 hbx.2 hby.1 hby.2
  · refine ⟨by rw [l2, hlen], by rw [l2', hlen], ?_⟩
    intro i o a a' ho h1 h2
    obtain ⟨b, x, y, hb, hx, hy, rfl⟩ := both i o ho
    rw [(hg i b x y hb hx hy).2] at h1
    rw [(hg' i b x y hb hx hy).2] at h2
    cases h1
    cases h2
    have hbx := hp1.2 i b x hb hx
    have hby := hp2.2 i b y hb hy
    exact one b x y _ hbx.1 hbx.2 hby.1 hby.2

example : ∃ c1 c2 c1' c2', blxCrossover (0 : ℝ) (fun _ => (1 / 4, 1)) [⟨0, 8⟩] [4] [6] = some (c1, c2) ∧ blxCrossover (1 / 2 : ℝ) (fun _ => (1 / 4, 1)) [⟨0, 8⟩] [4] [6] = some (c1', c2') ∧
    CloserGenes [5] c1 c1' ∧ CloserGenes [5] c2 c2' := by
  have legal : ∀ z : ℝ, 0 ≤ z → z ≤ 8 → LegalGenes [⟨0, 8⟩] [z] := by
    intro z h1 h2
    refine ⟨rfl, ?_⟩
    intro i b g hb hg
    match i with
    | 0 => simp at hb hg; subst hb; subst hg; exact ⟨h1, h2⟩
    | i + 1 => simp at hb
  have := C82_blx_alpha 0 (1 / 2) le_rfl (by norm_num) (fun _ => (1 / 4, 1)) [⟨0, 8⟩] [4] [6] (legal 4 (by norm_num) (by norm_num)) (legal 6 (by norm_num) (by norm_num))
  norm_num at this ⊢
  exact this

/-! ### Simulated binary crossover -/

/-- The space outside the interval of the parents' genes on the side of a child. -/
def room (first : Bool) (b : GeneBounds ℝ) (x y : ℝ) : ℝ := if first then min x y - b.lower else b.upper - max x y

/-- One gene of a child, for parents' genes that do not compare equal. -/
noncomputable def sbxGene (first : Bool) (eta : ℝ) (b : GeneBounds ℝ) (x y u : ℝ) : ℝ :=
  let bp := betaPrime (fun a c => a ^ c) eta (alphaOf (1 + 2 * room first b x y / |x - y|) (eta + 1)) u
  stdClamp (1 / 2 * (x + y + (if first then -bp else bp) * |x - y|)) b.lower b.upper

theorem sbx_gene (t : Tol ℝ) (eta : ℝ) (draws : Nat → ℝ × ℝ) (bounds : List (GeneBounds ℝ)) (p1 p2 : List ℝ)
    (hp1 : LegalGenes bounds p1) (hp2 : LegalGenes bounds p2) (first : Bool) (i : Nat) (b : GeneBounds ℝ) (x y r : ℝ)
    (hb : bounds[i]? = some b) (hx : p1[i]? = some x) (hy : p2[i]? = some y) (P : ℝ → Prop) :
    ChildGene first i P (sbxCrossover t (fun a c => a ^ c) eta (withDraw first i draws r) bounds p1 p2) ↔
      P (if floatIsEqual t (.fin (max x y)) (.fin (min x y)) then (if first then x else y) else sbxGene first eta b x y r) := by
  have hlo : (if y < x then y else x) = min x y := by
    split
    · next h => exact (min_eq_right h.le).symm
    · next h => exact (min_eq_left (not_lt.mp h)).symm
  have hhi : (if y < x then x else y) = max x y := by
    split
    · next h => exact (max_eq_left h.le).symm
    · next h => exact (max_eq_right (not_lt.mp h)).symm
  obtain ⟨c1, c2, hc, l1, l2, hg⟩ := geneLoop_ok (fun k b x y =>
    let gene_low := if y < x then y else x
    let gene_high := if y < x then x else y
    if floatIsEqual t (.fin gene_high) (.fin gene_low) then (x, y)
    else
      let beta1 := 1 + 2 * (gene_low - b.lower) / (gene_high - gene_low)
      let beta2 := 1 + 2 * (b.upper - gene_high) / (gene_high - gene_low)
      let alpha1 := 2 - beta1 ^ (-(eta + 1))
      let alpha2 := 2 - beta2 ^ (-(eta + 1))
      let beta1_prime := betaPrime (fun a c => a ^ c) eta alpha1 (withDraw first i draws r k).1
      let beta2_prime := betaPrime (fun a c => a ^ c) eta alpha2 (withDraw first i draws r k).2
      let c1 := 1 / 2 * (x + y - beta1_prime * |x - y|)
      let c2 := 1 / 2 * (x + y + beta2_prime * |x - y|)
      (stdClamp c1 b.lower b.upper, stdClamp c2 b.lower b.upper)) bounds 0 p1 p2 hp1.1 hp2.1
  have hcc : sbxCrossover t (fun a c => a ^ c) eta (withDraw first i draws r) bounds p1 p2 = some (c1, c2) := hc
  have g := hg i b x y hb hx hy
  simp only [hlo, hhi, max_sub_min_eq_abs', Nat.zero_add] at g
  have hgene : (if first then c1 else c2)[i]? = some (if floatIsEqual t (.fin (max x y)) (.fin (min x y)) then (if first then x else y) else sbxGene first eta b x y r) := by
    by_cases hq : floatIsEqual t (.fin (max x y)) (.fin (min x y)) = true
    · simp only [hq, if_true] at g ⊢
      cases first
      · simp only [Bool.false_eq_true, if_false]; exact g.2
      · simp only [if_true]; exact g.1
    · simp only [hq, Bool.false_eq_true, if_false] at g ⊢
      cases first
      · simp only [Bool.false_eq_true, if_false, sbxGene, room, alphaOf]
        simp only [withDraw, if_true, Bool.false_eq_true, if_false] at g
        exact g.2
      · simp only [if_true, sbxGene, room, alphaOf]
        simp only [withDraw, if_true] at g
        rw [neg_mul, ← sub_eq_add_neg]
        exact g.1
  unfold ChildGene
  rw [hcc]
  constructor
  · rintro ⟨_, _, g', e, h1, h2⟩
    cases e
    rw [hgene] at h1
    cases h1
    exact h2
  · intro h
    exact ⟨c1, c2, _, rfl, hgene, h⟩

theorem far_low (m M lo hi p dist : ℝ) (h1 : lo ≤ m) (h2 : m < M) (h3 : M ≤ hi) (hd : 0 ≤ dist) (hp : 0 ≤ p) :
    FartherThan dist m M (stdClamp (1 / 2 * (m + M - p)) lo hi) ↔ (M - m ≤ p ∧ dist < m - lo ∧ dist < (p - (M - m)) / 2) ∨ (p < M - m ∧ dist < (M - m - p) / 2) := by
  unfold FartherThan
  rw [lt_abs, lt_abs]
  unfold stdClamp
  constructor
  · rintro ⟨a, c⟩
    rcases le_or_gt (M - m) p with hp1 | hp1
    · left
      refine ⟨hp1, ?_⟩
      split at a
      · rcases a with a | a <;> constructor <;> linarith
      · split at a
        · linarith
        · rcases a with a | a <;> constructor <;> linarith
    · right
      refine ⟨hp1, ?_⟩
      split at a
      · linarith
      · split at a
        · linarith
        · rcases a with a | a <;> linarith
  · rintro (⟨a, c, e⟩ | ⟨a, c⟩)
    · split
      · exact ⟨Or.inr (by linarith), Or.inr (by linarith)⟩
      · rw [if_neg (by linarith)]
        exact ⟨Or.inr (by linarith), Or.inr (by linarith)⟩
    · rw [if_neg (by linarith), if_neg (by linarith)]
      exact ⟨Or.inl (by linarith), Or.inr (by linarith)⟩

theorem far_high (m M lo hi p dist : ℝ) (h1 : lo ≤ m) (h2 : m < M) (h3 : M ≤ hi) (hd : 0 ≤ dist) (hp : 0 ≤ p) :
    FartherThan dist m M (stdClamp (1 / 2 * (m + M + p)) lo hi) ↔ (M - m ≤ p ∧ dist < hi - M ∧ dist < (p - (M - m)) / 2) ∨ (p < M - m ∧ dist < (M - m - p) / 2) := by
  unfold FartherThan
  rw [lt_abs, lt_abs]
  unfold stdClamp
  rw [if_neg (by linarith)]
  constructor
  · rintro ⟨a, c⟩
    rcases le_or_gt (M - m) p with hp1 | hp1
    · left
      refine ⟨hp1, ?_⟩
      split at c
      · rcases c with c | c <;> constructor <;> linarith
      · rcases c with c | c <;> constructor <;> linarith
    · right
      refine ⟨hp1, ?_⟩
      split at c
      · linarith
      · rcases c with c | c <;> linarith
  · rintro (⟨a, c, e⟩ | ⟨a, c⟩)
    · split
      · exact ⟨Or.inl (by linarith), Or.inl (by linarith)⟩
      · exact ⟨Or.inl (by linarith), Or.inl (by linarith)⟩
    · rw [if_neg (by linarith)]
      exact ⟨Or.inl (by linarith), Or.inr (by linarith)⟩

theorem FartherThan_comm (dist x y g : ℝ) : FartherThan dist x y g ↔ FartherThan dist y x g := And.comm

theorem sbx_far (first : Bool) (b : GeneBounds ℝ) (x y dist : ℝ) (hx1 : b.lower ≤ x) (hx2 : x ≤ b.upper) (hy1 : b.lower ≤ y) (hy2 : y ≤ b.upper) (hxy : x ≠ y) (hd : 0 ≤ dist) (w : ℝ) (hw : 0 ≤ w) :
    FartherThan dist x y (stdClamp (1 / 2 * (x + y + (if first then -w else w) * |x - y|)) b.lower b.upper) ↔
      (1 ≤ w ∧ dist < room first b x y ∧ dist < (w - 1) * |x - y| / 2) ∨ (w < 1 ∧ dist < (1 - w) * |x - y| / 2) := by
  have ord : ∀ x y : ℝ, b.lower ≤ x → x < y → y ≤ b.upper → (FartherThan dist x y (stdClamp (1 / 2 * (x + y + (if first then -w else w) * |x - y|)) b.lower b.upper) ↔
      (1 ≤ w ∧ dist < room first b x y ∧ dist < (w - 1) * |x - y| / 2) ∨ (w < 1 ∧ dist < (1 - w) * |x - y| / 2)) := by
    intro x y h1 h2 h3
    have hD : 0 < y - x := by linarith
    have e : |x - y| = y - x := by rw [abs_sub_comm]; exact abs_of_pos hD
    have c1 : y - x ≤ w * (y - x) ↔ 1 ≤ w := by
      constructor
      · intro h; by_contra hc; nlinarith [not_le.mp hc]
      · intro h; nlinarith
    have c2 : w * (y - x) < y - x ↔ w < 1 := by rw [← not_le, c1, not_le]
    have d1 : (w - 1) * (y - x) / 2 = (w * (y - x) - (y - x)) / 2 := by ring
    have d2 : (1 - w) * (y - x) / 2 = (y - x - w * (y - x)) / 2 := by ring
    rw [e, d1, d2, ← c1, ← c2]
    unfold room
    rw [min_eq_left h2.le, max_eq_right h2.le]
    cases first
    · simp only [Bool.false_eq_true, if_false]
      exact far_high x y b.lower b.upper (w * (y - x)) dist h1 h2 h3 hd (by positivity)
    · simp only [if_true]
      rw [neg_mul, ← sub_eq_add_neg]
      exact far_low x y b.lower b.upper (w * (y - x)) dist h1 h2 h3 hd (by positivity)
  rcases lt_or_gt_of_ne hxy with h | h
  · exact ord x y hx1 h hy2
  · have := ord y x hy1 h hx2
    rw [FartherThan_comm, add_comm x y, abs_sub_comm x y]
    have e : room first b x y = room first b y x := by unfold room; rw [min_comm, max_comm]
    rw [e]
    exact this

/-- Distances of clamped values. -/
theorem sbx_farther (first : Bool) (eta : ℝ) (b : GeneBounds ℝ) (x y u dist : ℝ) (hx1 : b.lower ≤ x) (hx2 : x ≤ b.upper) (hy1 : b.lower ≤ y) (hy2 : y ≤ b.upper) (hxy : x ≠ y) (hd : 0 ≤ dist)
    (h0 : 0 ≤ eta) (hu0 : 0 < u) (hu1 : u < 1) :
    FartherThan dist x y (sbxGene first eta b x y u) ↔
      (1 + 2 * dist / |x - y| < 1 + 2 * room first b x y / |x - y| ∧ u < (1 + 2 * dist / |x - y|) ^ (-(1 / (eta + 1))) / alphaOf (1 + 2 * room first b x y / |x - y|) (eta + 1)) ∨
      (2 * dist / |x - y| < 1 ∧ (2 - (1 - 2 * dist / |x - y|) ^ (1 / (eta + 1))) / alphaOf (1 + 2 * room first b x y / |x - y|) (eta + 1) < u) := by
  have hD : 0 < |x - y| := abs_pos.mpr (sub_ne_zero.mpr hxy)
  have hroom : 0 ≤ room first b x y := by
    unfold room
    split
    · have := le_min hx1 hy1; linarith
    · have := max_le hx2 hy2; linarith
  have hb : 1 ≤ 1 + 2 * room first b x y / |x - y| := by
    have : 0 ≤ 2 * room first b x y / |x - y| := by positivity
    linarith
  have hX : 0 ≤ 2 * dist / |x - y| := by positivity
  obtain ⟨ha1, ha2⟩ := alphaOf_bounds _ (eta + 1) hb (by linarith : (0 : ℝ) ≤ eta + 1)
  have hs : 0 < eta + 1 := by linarith
  have hout : ∀ w : ℝ, dist < (w - 1) * |x - y| / 2 ↔ 1 + 2 * dist / |x - y| < w := by
    intro w
    rw [show (1 + 2 * dist / |x - y| < w) ↔ (2 * dist / |x - y| < w - 1) by constructor <;> intro h <;> linarith, div_lt_iff₀ hD]
    constructor <;> intro h <;> linarith
  have hin : ∀ w : ℝ, dist < (1 - w) * |x - y| / 2 ↔ w < 1 - 2 * dist / |x - y| := by
    intro w
    rw [show (w < 1 - 2 * dist / |x - y|) ↔ (2 * dist / |x - y| < 1 - w) by constructor <;> intro h <;> linarith, div_lt_iff₀ hD]
    constructor <;> intro h <;> linarith
  have hrd : dist < room first b x y ↔ 1 + 2 * dist / |x - y| < 1 + 2 * room first b x y / |x - y| := by
    rw [add_lt_add_iff_left, div_lt_div_iff_of_pos_right hD]
    constructor <;> intro h <;> linarith
  unfold sbxGene
  generalize alphaOf (1 + 2 * room first b x y / |x - y|) (eta + 1) = A at *
  have hA : 0 < A := by linarith
  have hbp0 : 0 ≤ betaPrime (fun a c => a ^ c) eta A u := by
    unfold betaPrime
    split
    · exact Real.rpow_nonneg (by positivity) _
    · apply Real.rpow_nonneg
      apply one_div_nonneg.mpr
      nlinarith
  rw [sbx_far first b x y dist hx1 hx2 hy1 hy2 hxy hd _ hbp0, hout, hin, hrd]
  generalize 2 * dist / |x - y| = X at *
  generalize 1 + 2 * room first b x y / |x - y| = B at *
  have gle : (1 + X) ^ (-(1 / (eta + 1))) ≤ 1 := g_le_one X (eta + 1) hX (by linarith)
  unfold betaPrime
  by_cases hu : u ≤ 1 / A
  · simp only [hu, if_true]
    have huA : u * A ≤ 1 := by rw [le_div_iff₀ hA] at hu; exact hu
    have huA0 : 0 < u * A := by positivity
    have hge : 1 ≤ (u * A) ^ (-(eta + 1)) := Real.one_le_rpow_of_pos_of_le_one_of_nonpos huA0 huA (by linarith)
    have hnot : ¬ (X < 1 ∧ (2 - (1 - X) ^ (1 / (eta + 1))) / A < u) := by
      rintro ⟨hX1, h⟩
      have h1 := h_le_one X (eta + 1) hX hX1 (by linarith)
      rw [div_lt_iff₀ hA] at h
      linarith
    have e : 1 + X < (u * A) ^ (-(eta + 1)) ↔ u < (1 + X) ^ (-(1 / (eta + 1))) / A := by
      rw [lt_div_iff₀ hA, show -(1 / (eta + 1)) = (-(eta + 1))⁻¹ by rw [one_div, inv_neg]]
      exact (Real.lt_rpow_inv_iff_of_neg huA0 (by linarith) (by linarith)).symm
    constructor
    · rintro (⟨_, h2, h3⟩ | ⟨h2, _⟩)
      · exact Or.inl ⟨h2, e.mp h3⟩
      · linarith
    · rintro (⟨h2, h3⟩ | h2)
      · exact Or.inl ⟨hge, h2, e.mpr h3⟩
      · exact absurd h2 hnot
  · simp only [hu, if_false]
    have huA : 1 < u * A := by rw [not_le, div_lt_iff₀ hA] at hu; exact hu
    have h2u : 0 < 2 - u * A := by nlinarith
    have hpow : (1 / (2 - u * A)) ^ (-(eta + 1)) = (2 - u * A) ^ (eta + 1) := by
      rw [one_div, Real.inv_rpow h2u.le, Real.rpow_neg h2u.le, inv_inv]
    rw [hpow]
    have hlt : (2 - u * A) ^ (eta + 1) < 1 := Real.rpow_lt_one h2u.le (by linarith) hs
    have hnot : ¬ (1 + X < B ∧ u < (1 + X) ^ (-(1 / (eta + 1))) / A) := by
      rintro ⟨_, h⟩
      rw [lt_div_iff₀ hA] at h
      linarith
    have e : (2 - u * A) ^ (eta + 1) < 1 - X ↔ X < 1 ∧ (2 - (1 - X) ^ (1 / (eta + 1))) / A < u := by
      by_cases hX1 : X < 1
      · rw [div_lt_iff₀ hA, ← Real.lt_rpow_inv_iff_of_pos h2u.le (by linarith) hs, one_div]
        constructor
        · intro h; exact ⟨hX1, by linarith⟩
        · rintro ⟨_, h⟩; linarith
      · constructor
        · intro h
          have := Real.rpow_nonneg h2u.le (eta + 1)
          exact absurd (by linarith) hX1
        · rintro ⟨h, _⟩; exact absurd h hX1
    constructor
    · rintro (⟨h1, _⟩ | ⟨_, h2⟩)
      · linarith
      · exact Or.inr (e.mp h2)
    · rintro (h2 | h2)
      · exact absurd h2 hnot
      · exact Or.inr ⟨hlt, e.mpr h2⟩

/-- Two intervals of random numbers, at the ends of `[0, 1)`; the number 0 does not matter. -/
theorem chanceOf_ends (event : ℝ → Prop) (A B : Prop) (q1 q2 : ℝ) (h1 : 0 ≤ q1) (h12 : q1 ≤ q2) (hq : q1 ≤ 1) (h : ∀ r, 0 < r → r < 1 → (event r ↔ (A ∧ r < q1) ∨ (B ∧ q2 < r))) [Decidable A] [Decidable B] :
    chanceOf event = (if A then q1 else 0) + (if B then max 0 (1 - q2) else 0) := by
  have hm : volume {r : ℝ | 0 ≤ r ∧ r < 1 ∧ event r} = volume ((if A then Set.Ioo 0 q1 else ∅) ∪ (if B then Set.Ioo q2 1 else ∅)) := by
    apply measure_congr
    have hne : ∀ᵐ r : ℝ, r ≠ 0 := by
      rw [ae_iff]
      simp
    filter_upwards [hne] with r hr
    apply propext
    show (0 ≤ r ∧ r < 1 ∧ event r) ↔ r ∈ ((if A then Set.Ioo 0 q1 else ∅) ∪ (if B then Set.Ioo q2 1 else ∅) : Set ℝ)
    have hmem : r ∈ ((if A then Set.Ioo 0 q1 else ∅) ∪ (if B then Set.Ioo q2 1 else ∅) : Set ℝ) ↔ (A ∧ 0 < r ∧ r < q1) ∨ (B ∧ q2 < r ∧ r < 1) := by
      by_cases hA : A <;> by_cases hB : B <;> simp [hA, hB]
    rw [hmem]
    constructor
    · rintro ⟨a, c, d⟩
      have hpos : 0 < r := lt_of_le_of_ne a (Ne.symm hr)
      rcases (h r hpos c).mp d with ⟨hA, e⟩ | ⟨hB, e⟩
      · exact Or.inl ⟨hA, hpos, e⟩
      · exact Or.inr ⟨hB, e, c⟩
    · rintro (⟨hA, a, c⟩ | ⟨hB, a, c⟩)
      · exact ⟨a.le, by linarith, (h r a (by linarith)).mpr (Or.inl ⟨hA, c⟩)⟩
      · exact ⟨by linarith, c, (h r (by linarith) c).mpr (Or.inr ⟨hB, a⟩)⟩
  have hdisj : Disjoint (if A then Set.Ioo 0 q1 else ∅ : Set ℝ) (if B then Set.Ioo q2 1 else ∅) := by
    rw [Set.disjoint_left]
    intro r ha hb
    split at ha
    · split at hb
      · have := ha.2; have := hb.1; linarith
      · exact hb
    · exact ha
  have hmeas : MeasurableSet (if B then Set.Ioo q2 1 else ∅ : Set ℝ) := by
    split
    · exact measurableSet_Ioo
    · exact MeasurableSet.empty
  unfold chanceOf
  rw [hm, measure_union hdisj hmeas, ENNReal.toReal_add (by split <;> simp) (by split <;> simp)]
  congr 1
  · split
    · rw [Real.volume_Ioo, sub_zero, ENNReal.toReal_ofReal h1]
    · simp
  · split
    · rw [Real.volume_Ioo, ENNReal.toReal_ofReal']
      exact max_comm _ _
    · simp

theorem sbx_chance (t : Tol ℝ) (eta : ℝ) (h0 : 0 ≤ eta) (draws : Nat → ℝ × ℝ) (bounds : List (GeneBounds ℝ)) (p1 p2 : List ℝ)
    (hp1 : LegalGenes bounds p1) (hp2 : LegalGenes bounds p2) (first : Bool) (i : Nat) (b : GeneBounds ℝ) (x y dist : ℝ)
    (hb : bounds[i]? = some b) (hx : p1[i]? = some x) (hy : p2[i]? = some y) (hd : 0 ≤ dist) (hxy : floatIsEqual t (.fin (max x y)) (.fin (min x y)) = false) (hne : x ≠ y) :
    chanceOf (fun r => ChildGene first i (FartherThan dist x y) (sbxCrossover t (fun a c => a ^ c) eta (withDraw first i draws r) bounds p1 p2)) =
      outShare (1 + 2 * room first b x y / |x - y|) (2 * dist / |x - y|) (eta + 1) + inShare (1 + 2 * room first b x y / |x - y|) (2 * dist / |x - y|) (eta + 1) := by
  obtain ⟨hx1, hx2⟩ := hp1.2 i b x hb hx
  obtain ⟨hy1, hy2⟩ := hp2.2 i b y hb hy
  have hD : 0 < |x - y| := abs_pos.mpr (sub_ne_zero.mpr hne)
  have hroom : 0 ≤ room first b x y := by
    unfold room
    split
    · have := le_min hx1 hy1; linarith
    · have := max_le hx2 hy2; linarith
  have hB : 1 ≤ 1 + 2 * room first b x y / |x - y| := by
    have : 0 ≤ 2 * room first b x y / |x - y| := by positivity
    linarith
  have hX : 0 ≤ 2 * dist / |x - y| := by positivity
  obtain ⟨ha1, ha2⟩ := alphaOf_bounds _ (eta + 1) hB (by linarith : (0 : ℝ) ≤ eta + 1)
  have hA : 0 < alphaOf (1 + 2 * room first b x y / |x - y|) (eta + 1) := by linarith
  have gle : (1 + 2 * dist / |x - y|) ^ (-(1 / (eta + 1))) ≤ 1 := g_le_one _ (eta + 1) hX (by linarith)
  have g0 : 0 ≤ (1 + 2 * dist / |x - y|) ^ (-(1 / (eta + 1))) := Real.rpow_nonneg (by linarith) _
  have hev : ∀ r, 0 < r → r < 1 → (ChildGene first i (FartherThan dist x y) (sbxCrossover t (fun a c => a ^ c) eta (withDraw first i draws r) bounds p1 p2) ↔
      (1 + 2 * dist / |x - y| < 1 + 2 * room first b x y / |x - y| ∧ r < (1 + 2 * dist / |x - y|) ^ (-(1 / (eta + 1))) / alphaOf (1 + 2 * room first b x y / |x - y|) (eta + 1)) ∨
      (2 * dist / |x - y| < 1 ∧ (2 - (1 - 2 * dist / |x - y|) ^ (1 / (eta + 1))) / alphaOf (1 + 2 * room first b x y / |x - y|) (eta + 1) < r)) := by
    intro r hr0 hr1
    rw [sbx_gene t eta draws bounds p1 p2 hp1 hp2 first i b x y r hb hx hy, hxy]
    simp only [Bool.false_eq_true, if_false]
    exact sbx_farther first eta b x y r dist hx1 hx2 hy1 hy2 hne hd h0 hr0 hr1
  by_cases hX1 : 2 * dist / |x - y| < 1
  · have hl := h_le_one _ (eta + 1) hX hX1 (by linarith)
    rw [chanceOf_ends _ _ _ _ _ (div_nonneg g0 hA.le) (div_le_div_of_nonneg_right (by linarith) hA.le) (by rw [div_le_one hA]; linarith) hev]
    rfl
  · rw [chanceOf_ends _ (1 + 2 * dist / |x - y| < 1 + 2 * room first b x y / |x - y|) False ((1 + 2 * dist / |x - y|) ^ (-(1 / (eta + 1))) / alphaOf (1 + 2 * room first b x y / |x - y|) (eta + 1)) 1
      (div_nonneg g0 hA.le) (by rw [div_le_one hA]; linarith) (by rw [div_le_one hA]; linarith) (by
        intro r hr0 hr1
        rw [hev r hr0 hr1]
        simp [hX1])]
    unfold outShare inShare
    rw [if_neg hX1, if_neg not_false]

/-- **C82 (eta of the simulated binary crossover).** With a larger eta, the children are more likely to be far from the parents: for every distance, the probability that the gene of a child is farther than it from
the genes of both parents is at least as large. -/
theorem C82_sbx_eta (t : Tol ℝ) (ht : t.Valid) (eta eta' : ℝ) (h0 : 0 ≤ eta) (h : eta ≤ eta') (draws : Nat → ℝ × ℝ) (bounds : List (GeneBounds ℝ)) (p1 p2 : List ℝ)
    (hp1 : LegalGenes bounds p1) (hp2 : LegalGenes bounds p2) (first : Bool) (i : Nat) (x y dist : ℝ)
    (hx : p1[i]? = some x) (hy : p2[i]? = some y) (hd : 0 ≤ dist) :
    chanceOf (fun r => ChildGene first i (FartherThan dist x y) (sbxCrossover t (fun a c => a ^ c) eta (withDraw first i draws r) bounds p1 p2)) ≤
    chanceOf (fun r => ChildGene first i (FartherThan dist x y) (sbxCrossover t (fun a c => a ^ c) eta' (withDraw first i draws r) bounds p1 p2)) := by
  have hi : i < bounds.length := by rw [← hp1.1]; exact (List.getElem?_eq_some_iff.mp hx).1
  have hb : bounds[i]? = some bounds[i] := List.getElem?_eq_getElem hi
  have same : ∀ eta : ℝ, floatIsEqual t (.fin (max x y)) (.fin (min x y)) = true →
      chanceOf (fun r => ChildGene first i (FartherThan dist x y) (sbxCrossover t (fun a c => a ^ c) eta (withDraw first i draws r) bounds p1 p2)) = 0 := by
    intro eta heq
    apply (chanceOf_const _ False _).2 not_false
    intro r _ _
    rw [sbx_gene t eta draws bounds p1 p2 hp1 hp2 first i _ x y r hb hx hy, heq]
    simp only [if_true, iff_false]
    rintro ⟨a, c⟩
    cases first
    · simp only [Bool.false_eq_true, if_false, sub_self, abs_zero] at c; linarith
    · simp only [if_true, sub_self, abs_zero] at a; linarith
  by_cases heq : floatIsEqual t (.fin (max x y)) (.fin (min x y)) = true
  · rw [same eta heq, same eta' heq]
  · have hf : floatIsEqual t (.fin (max x y)) (.fin (min x y)) = false := by simpa using heq
    obtain ⟨hx1, hx2⟩ := hp1.2 i _ x hb hx
    obtain ⟨hy1, hy2⟩ := hp2.2 i _ y hb hy
    have hroom : 0 ≤ room first bounds[i] x y := by
      unfold room
      split
      · have := le_min hx1 hy1; linarith
      · have := max_le hx2 hy2; linarith
    have hne : x ≠ y := by
      rintro rfl
      have : (0 : ℝ) ≤ t.at |x| := le_max_of_le_right ht.abs_nonneg
      simp [floatIsEqual] at hf
      linarith
    rw [sbx_chance t eta h0 draws bounds p1 p2 hp1 hp2 first i _ x y dist hb hx hy hd hf hne, sbx_chance t eta' (by linarith) draws bounds p1 p2 hp1 hp2 first i _ x y dist hb hx hy hd hf hne]
    apply share_mono
    · have : 0 ≤ 2 * room first bounds[i] x y / |x - y| := by positivity
      linarith
    · positivity
    · linarith
    · linarith

theorem legal_one (z : ℝ) (h1 : 0 ≤ z) (h2 : z ≤ 3) : LegalGenes [⟨0, 3⟩] [z] := by
  refine ⟨rfl, ?_⟩
  intro i b g hb hg
  match i with
  | 0 => simp at hb hg; subst hb; subst hg; exact ⟨h1, h2⟩
  | i + 1 => simp at hb

/-- The probabilities compared are neither 0 nor 1: with eta 0, a gene of a child is farther than 1/2 from the genes 1 and 2 with the probability 3/10. -/
example : (chanceOf (fun r => ChildGene true 0 (FartherThan (1 / 2) 1 2) (sbxCrossover ⟨0, 0⟩ (fun a c => a ^ c) 0 (withDraw true 0 (fun _ => (0, 0)) r) [⟨0, 3⟩] [1] [2])) = 3 / 10) ∧
    (chanceOf (fun r => ChildGene true 0 (FartherThan (1 / 2) 1 2) (sbxCrossover ⟨0, 0⟩ (fun a c => a ^ c) 0 (withDraw true 0 (fun _ => (0, 0)) r) [⟨0, 3⟩] [1] [2])) ≤
     chanceOf (fun r => ChildGene true 0 (FartherThan (1 / 2) 1 2) (sbxCrossover ⟨0, 0⟩ (fun a c => a ^ c) 4 (withDraw true 0 (fun _ => (0, 0)) r) [⟨0, 3⟩] [1] [2]))) := by
  constructor
  · rw [sbx_chance ⟨0, 0⟩ 0 le_rfl (fun _ => (0, 0)) [⟨0, 3⟩] [1] [2] (legal_one 1 (by norm_num) (by norm_num)) (legal_one 2 (by norm_num) (by norm_num)) true 0 ⟨0, 3⟩ 1 2 (1 / 2) rfl rfl rfl (by norm_num)
      (by norm_num [floatIsEqual, Tol.at]) (by norm_num)]
    have e : (-(0 + 1) : ℝ) = -1 := by norm_num
    have e2 : (-(1 / (0 + 1)) : ℝ) = -1 := by norm_num
    unfold outShare inShare alphaOf room
    simp only [e, e2, Real.rpow_neg_one]
    norm_num
  · exact C82_sbx_eta ⟨0, 0⟩ ⟨le_rfl, le_rfl⟩ 0 4 le_rfl (by norm_num) (fun _ => (0, 0)) [⟨0, 3⟩] [1] [2] (legal_one 1 (by norm_num) (by norm_num)) (legal_one 2 (by norm_num) (by norm_num)) true 0 1 2 (1 / 2)
      rfl rfl (by norm_num)

/-- **C82 (simulated binary crossover, at the bounds).** The probability that the gene of a child is equal to a bound: the lower one for the first child, the upper one for the second. -/
theorem C82_sbx_at_bounds (t : Tol ℝ) (eta : ℝ) (h0 : 0 ≤ eta) (draws : Nat → ℝ × ℝ) (bounds : List (GeneBounds ℝ)) (p1 p2 : List ℝ)
    (hp1 : LegalGenes bounds p1) (hp2 : LegalGenes bounds p2) (i : Nat) (b : GeneBounds ℝ) (x y : ℝ)
    (hb : bounds[i]? = some b) (hx : p1[i]? = some x) (hy : p2[i]? = some y) (hne : x ≠ y) (hxy : floatIsEqual t (.fin (max x y)) (.fin (min x y)) = false) :
    (let beta := 1 + 2 * (min x y - b.lower) / |x - y|
     chanceOf (fun r => ChildGene true i (· = b.lower) (sbxCrossover t (fun a c => a ^ c) eta (withDraw true i draws r) bounds p1 p2)) = beta ^ (-(1 / (eta + 1))) / (2 - beta ^ (-(eta + 1)))) ∧
    (let beta := 1 + 2 * (b.upper - max x y) / |x - y|
     chanceOf (fun r => ChildGene false i (· = b.upper) (sbxCrossover t (fun a c => a ^ c) eta (withDraw false i draws r) bounds p1 p2)) = beta ^ (-(1 / (eta + 1))) / (2 - beta ^ (-(eta + 1)))) := by
  obtain ⟨hx1, hx2⟩ := hp1.2 i b x hb hx
  obtain ⟨hy1, hy2⟩ := hp2.2 i b y hb hy
  have hD : 0 < |x - y| := abs_pos.mpr (sub_ne_zero.mpr hne)
  have hs : 0 < eta + 1 := by linarith
  have hmM : max x y - min x y = |x - y| := max_sub_min_eq_abs' x y
  have hsum : max x y + min x y = x + y := max_add_min x y
  have hm : b.lower ≤ min x y := le_min hx1 hy1
  have hM : max x y ≤ b.upper := max_le hx2 hy2
  have hmM' : min x y < max x y := by linarith
  -- the bound is reached if `beta'` is large enough
  have key : ∀ B : ℝ, 1 ≤ B → ∀ u, 0 < u → u < 1 → (B ≤ betaPrime (fun a c => a ^ c) eta (alphaOf B (eta + 1)) u ↔ u ≤ B ^ (-(1 / (eta + 1))) / alphaOf B (eta + 1)) := by
    intro B hB u hu0 hu1
    obtain ⟨ha1, ha2⟩ := alphaOf_bounds B (eta + 1) hB hs.le
    have hA : 0 < alphaOf B (eta + 1) := by linarith
    have hBle : B ^ (-(1 / (eta + 1))) ≤ 1 := Real.rpow_le_one_of_one_le_of_nonpos hB (neg_nonpos.mpr (one_div_nonneg.mpr hs.le))
    rw [le_div_iff₀ hA]
    unfold betaPrime
    by_cases hu : u ≤ 1 / alphaOf B (eta + 1)
    · simp only [hu, if_true]
      rw [show -(1 / (eta + 1)) = (-(eta + 1))⁻¹ by rw [one_div, inv_neg]]
      exact (Real.le_rpow_inv_iff_of_neg (by positivity) (by linarith) (by linarith)).symm
    · simp only [hu, if_false]
      have huA : 1 < u * alphaOf B (eta + 1) := by rw [not_le, div_lt_iff₀ hA] at hu; exact hu
      have h2u : 0 < 2 - u * alphaOf B (eta + 1) := by nlinarith
      have hpow : (1 / (2 - u * alphaOf B (eta + 1))) ^ (-(eta + 1)) = (2 - u * alphaOf B (eta + 1)) ^ (eta + 1) := by
        rw [one_div, Real.inv_rpow h2u.le, Real.rpow_neg h2u.le, inv_inv]
      rw [hpow]
      have hlt : (2 - u * alphaOf B (eta + 1)) ^ (eta + 1) < 1 := Real.rpow_lt_one h2u.le (by linarith) hs
      constructor <;> intro h <;> linarith
  have chance : ∀ (B : ℝ) (E : ℝ → Prop), 1 ≤ B → (∀ r, 0 < r → r < 1 → (E r ↔ r ≤ B ^ (-(1 / (eta + 1))) / alphaOf B (eta + 1))) → chanceOf E = B ^ (-(1 / (eta + 1))) / alphaOf B (eta + 1) := by
    intro B E hB hE
    obtain ⟨ha1, ha2⟩ := alphaOf_bounds B (eta + 1) hB hs.le
    have hA : 0 < alphaOf B (eta + 1) := by linarith
    have hBle : B ^ (-(1 / (eta + 1))) ≤ 1 := Real.rpow_le_one_of_one_le_of_nonpos hB (neg_nonpos.mpr (one_div_nonneg.mpr hs.le))
    have hq0 : 0 ≤ B ^ (-(1 / (eta + 1))) / alphaOf B (eta + 1) := div_nonneg (Real.rpow_nonneg (by linarith) _) hA.le
    have hq1 : B ^ (-(1 / (eta + 1))) / alphaOf B (eta + 1) ≤ 1 := by rw [div_le_one hA]; linarith
    generalize B ^ (-(1 / (eta + 1))) / alphaOf B (eta + 1) = q at *
    have hsame : chanceOf E = chanceOf (fun r => r ≤ q) := by
      unfold chanceOf
      congr 1
      apply measure_congr
      have hne0 : ∀ᵐ r : ℝ, r ≠ 0 := by
        rw [ae_iff]
        simp
      filter_upwards [hne0] with r hr
      apply propext
      show (0 ≤ r ∧ r < 1 ∧ E r) ↔ (0 ≤ r ∧ r < 1 ∧ r ≤ q)
      constructor
      · rintro ⟨a, c, d⟩; exact ⟨a, c, (hE r (lt_of_le_of_ne a (Ne.symm hr)) c).mp d⟩
      · rintro ⟨a, c, d⟩; exact ⟨a, c, (hE r (lt_of_le_of_ne a (Ne.symm hr)) c).mpr d⟩
    rw [hsame]
    exact chanceOf_le _ q hq0 hq1 (fun _ _ _ => Iff.rfl)
  constructor
  · intro beta
    have hB : 1 ≤ beta := by
      have : 0 ≤ 2 * (min x y - b.lower) / |x - y| := div_nonneg (by linarith) hD.le
      simp only [beta]; linarith
    refine chance beta _ hB ?_
    intro r hr0 hr1
    rw [sbx_gene t eta draws bounds p1 p2 hp1 hp2 true i b x y r hb hx hy, hxy, ← key beta hB r hr0 hr1]
    simp only [Bool.false_eq_true, if_false, sbxGene, room, if_true]
    show stdClamp (1 / 2 * (x + y + -(betaPrime (fun a c => a ^ c) eta (alphaOf beta (eta + 1)) r) * |x - y|)) b.lower b.upper = b.lower ↔ _
    generalize betaPrime (fun a c => a ^ c) eta (alphaOf beta (eta + 1)) r = w
    have e : beta ≤ w ↔ 1 / 2 * (x + y + -w * |x - y|) ≤ b.lower := by
      have : beta * |x - y| = |x - y| + 2 * (min x y - b.lower) := by
        simp only [beta]; field_simp
      rw [← mul_le_mul_iff_left₀ hD, this]
      constructor <;> intro h <;> linarith
    rw [e]
    unfold stdClamp
    split
    · constructor <;> intro _ <;> linarith
    · split
      · constructor <;> intro h <;> linarith
      · constructor <;> intro h <;> linarith
  · intro beta
    have hB : 1 ≤ beta := by
      have : 0 ≤ 2 * (b.upper - max x y) / |x - y| := div_nonneg (by linarith) hD.le
      simp only [beta]; linarith
    refine chance beta _ hB ?_
    intro r hr0 hr1
    rw [sbx_gene t eta draws bounds p1 p2 hp1 hp2 false i b x y r hb hx hy, hxy, ← key beta hB r hr0 hr1]
    simp only [Bool.false_eq_true, if_false, sbxGene, room]
    show stdClamp (1 / 2 * (x + y + betaPrime (fun a c => a ^ c) eta (alphaOf beta (eta + 1)) r * |x - y|)) b.lower b.upper = b.upper ↔ _
    generalize betaPrime (fun a c => a ^ c) eta (alphaOf beta (eta + 1)) r = w
    have e : beta ≤ w ↔ b.upper ≤ 1 / 2 * (x + y + w * |x - y|) := by
      have : beta * |x - y| = |x - y| + 2 * (b.upper - max x y) := by
        simp only [beta]; field_simp
      rw [← mul_le_mul_iff_left₀ hD, this]
      constructor <;> intro h <;> linarith
    rw [e]
    unfold stdClamp
    split
    · constructor <;> intro _ <;> linarith
    · split
      · constructor <;> intro h <;> linarith
      · constructor <;> intro h <;> linarith

/-- With the default parameter, the parents' genes 1 and 2, and the bounds 0 and 3, each child is at its bound with a probability above 0.4. -/
example : (0.4 : ℝ) < chanceOf (fun r => ChildGene true 0 (· = 0) (sbxCrossover ⟨0, 0⟩ (fun a c => a ^ c) 4 (withDraw true 0 (fun _ => (0, 0)) r) [⟨0, 3⟩] [1] [2])) := by
  have h := (C82_sbx_at_bounds ⟨0, 0⟩ 4 (by norm_num) (fun _ => (0, 0)) [⟨0, 3⟩] [1] [2] (legal_one 1 (by norm_num) (by norm_num)) (legal_one 2 (by norm_num) (by norm_num)) 0 ⟨0, 3⟩ 1 2 rfl rfl rfl (by norm_num)
    (by norm_num [floatIsEqual, Tol.at])).1
  simp only at h
  rw [h]
  have e : (1 : ℝ) + 2 * (min 1 2 - 0) / |1 - 2| = 3 := by norm_num
  rw [e, lt_div_iff₀]
  · have h1 : (0.8 : ℝ) ≤ 3 ^ (-(1 / (4 + 1)) : ℝ) := by
      rw [Real.rpow_neg (by norm_num)]
      apply (le_inv_comm₀ (by norm_num) (Real.rpow_pos_of_pos (by norm_num) _)).mpr
      calc (3 : ℝ) ^ (1 / (4 + 1) : ℝ) ≤ ((1.25 : ℝ) ^ (5 : ℝ)) ^ (1 / (4 + 1) : ℝ) := Real.rpow_le_rpow (by norm_num) (by norm_num) (by norm_num)
        _ = 1.25 := by rw [← Real.rpow_mul (by norm_num)]; norm_num
        _ ≤ _ := by norm_num
    have h2 : (0 : ℝ) < 3 ^ (-(4 + 1) : ℝ) := Real.rpow_pos_of_pos (by norm_num) _
    linarith
  · have : (3 : ℝ) ^ (-(4 + 1) : ℝ) ≤ 1 := Real.rpow_le_one_of_one_le_of_nonpos (by norm_num) (by norm_num)
    linarith

end Gapp.Props
