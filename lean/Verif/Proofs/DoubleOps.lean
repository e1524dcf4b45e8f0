import Verif.Proofs.Double
import Verif.Model.DoubleOps
import Verif.Props.Mutation
/-!
# The real-coded operators in binary64 arithmetic
-/

namespace Gapp.Model
open Gapp.Spec Gapp.Props

/-! ## Numbers of bounded size -/

/-- A number that is at most `2^k` in absolute value. -/
def Bnd (k : ℤ) (a : Dbl) : Prop := ∃ x, a = .fin x ∧ IsDouble x ∧ |x| ≤ 2 ^ k

theorem two_pow_1024 : ((2 : ℚ) ^ 1024) = 2 ^ (1024 : ℤ) := (zpow_natCast (2 : ℚ) 1024).symm

theorem lt_two_pow_1024 {x : ℚ} {k : ℤ} (hk : k ≤ 1023) (h : x ≤ 2 ^ k) : x < 2 ^ 1024 := by
  rw [two_pow_1024]
  exact lt_of_le_of_lt h (zpow_lt_zpow_right₀ (by norm_num) (by omega))

theorem bnd_mono {j k : ℤ} (h : j ≤ k) {a : Dbl} (ha : Bnd j a) : Bnd k a := by
  obtain ⟨x, rfl, hx, hb⟩ := ha
  exact ⟨x, rfl, hx, hb.trans (two_zpow_le h)⟩

theorem bnd_roundD {k : ℤ} (h1 : -1074 ≤ k) (h2 : k ≤ 1023) {x : ℚ} (h : |x| ≤ 2 ^ k) : Bnd k (roundD x) := by
  have hb := abs_roundQ_le h1 h
  have hl := lt_two_pow_1024 h2 hb
  exact ⟨roundQ x, roundD_fin (abs_lt.1 hl).2 (abs_lt.1 hl).1, ⟨roundQ_binary53 x, hl⟩, hb⟩

theorem bnd_neg {k : ℤ} {a : Dbl} (ha : Bnd k a) : Bnd k (Dbl.neg a) := by
  obtain ⟨x, rfl, hx, hb⟩ := ha
  exact ⟨-x, rfl, ⟨isBinary53_neg hx.1, by rw [abs_neg]; exact hx.2⟩, by rwa [abs_neg]⟩

theorem bnd_add {k m : ℤ} (h1 : -1074 ≤ m) (h2 : m ≤ 1023) (hm : k + 1 ≤ m) {a b : Dbl} (ha : Bnd k a) (hb : Bnd k b) : Bnd m (Dbl.add a b) := by
  obtain ⟨x, rfl, _, hx⟩ := ha
  obtain ⟨y, rfl, _, hy⟩ := hb
  refine bnd_roundD h1 h2 (le_trans (abs_add_le x y) (le_trans ?_ (two_zpow_le hm)))
  rw [two_zpow_add k 1]
  linarith

theorem bnd_sub {k m : ℤ} (h1 : -1074 ≤ m) (h2 : m ≤ 1023) (hm : k + 1 ≤ m) {a b : Dbl} (ha : Bnd k a) (hb : Bnd k b) : Bnd m (Dbl.sub a b) :=
  bnd_add h1 h2 hm ha (bnd_neg hb)

theorem bnd_mul {j k m : ℤ} (h1 : -1074 ≤ m) (h2 : m ≤ 1023) (hm : j + k ≤ m) {a b : Dbl} (ha : Bnd j a) (hb : Bnd k b) : Bnd m (Dbl.mul a b) := by
  obtain ⟨x, rfl, _, hx⟩ := ha
  obtain ⟨y, rfl, _, hy⟩ := hb
  refine bnd_roundD h1 h2 ?_
  rw [abs_mul]
  refine le_trans (mul_le_mul hx hy (abs_nonneg _) (two_zpow_pos _).le) ?_
  rw [← two_zpow_add]
  exact two_zpow_le hm

theorem bnd_mulAdd (fused : Bool) {j k l m : ℤ} (h1 : -1074 ≤ l) (h2 : m ≤ 1023) (hl : j + k ≤ l) (hm : l + 1 ≤ m) {a b c : Dbl}
    (ha : Bnd j a) (hb : Bnd k b) (hc : Bnd l c) : Bnd m (Dbl.mulAdd fused a b c) := by
  cases fused
  · exact bnd_add (by omega) h2 hm hc (bnd_mul h1 (by omega) hl ha hb)
  · obtain ⟨x, rfl, _, hx⟩ := ha
    obtain ⟨y, rfl, _, hy⟩ := hb
    obtain ⟨z, rfl, _, hz⟩ := hc
    refine bnd_roundD (by omega) h2 (le_trans (abs_add_le _ _) (le_trans ?_ (two_zpow_le hm)))
    have : |x * y| ≤ 2 ^ l := by
      rw [abs_mul]
      refine le_trans (mul_le_mul hx hy (abs_nonneg _) (two_zpow_pos _).le) ?_
      rw [← two_zpow_add]
      exact two_zpow_le hl
    rw [two_zpow_add l 1]
    linarith

/-! ## Results that are not NaN -/

theorem roundD_ne_nan (x : ℚ) : roundD x ≠ .nan := by
  intro h
  by_cases h1 : 2 ^ 1024 ≤ roundQ x
  · have e : roundD x = .pinf := if_pos h1
    rw [e] at h; cases h
  · by_cases h2 : roundQ x ≤ -2 ^ 1024
    · have e : roundD x = .ninf := (if_neg h1).trans (if_pos h2)
      rw [e] at h; cases h
    · rw [roundD_fin (not_le.1 h1) (not_le.1 h2)] at h; cases h

theorem isDbl_add (a b : Dbl) : IsDbl (Dbl.add a b) := by
  cases a <;> cases b <;> first | exact isDbl_roundD _ | trivial

theorem isDbl_scaledInf (x : ℚ) : IsDbl (Dbl.scaledInf x) := by
  unfold Dbl.scaledInf
  split_ifs <;> trivial

theorem isDbl_mul (a b : Dbl) : IsDbl (Dbl.mul a b) := by
  cases a <;> cases b <;> first | exact isDbl_roundD _ | exact isDbl_scaledInf _ | trivial

theorem mulAdd_cases (fused : Bool) (a b c : Dbl) : Dbl.mulAdd fused a b c = Dbl.add c (Dbl.mul a b) ∨ ∃ x, Dbl.mulAdd fused a b c = roundD x := by
  cases fused
  · exact Or.inl rfl
  · cases a <;> cases b <;> cases c <;> first | exact Or.inl rfl | exact Or.inr ⟨_, rfl⟩

theorem isDbl_mulAdd (fused : Bool) (a b c : Dbl) : IsDbl (Dbl.mulAdd fused a b c) := by
  rcases mulAdd_cases fused a b c with h | ⟨x, h⟩
  · rw [h]; exact isDbl_add _ _
  · rw [h]; exact isDbl_roundD _

theorem add_ne_nan {x : ℚ} {a : Dbl} (ha : a ≠ .nan) : Dbl.add (.fin x) a ≠ .nan := by
  cases a with
  | nan => exact absurd rfl ha
  | fin y => exact roundD_ne_nan _
  | pinf => intro h; cases h
  | ninf => intro h; cases h

theorem mulAdd_ne_nan (fused : Bool) {a b : Dbl} {x : ℚ} (h : Dbl.mul a b ≠ .nan) : Dbl.mulAdd fused a b (.fin x) ≠ .nan := by
  rcases mulAdd_cases fused a b (.fin x) with h1 | ⟨y, h1⟩
  · rw [h1]; exact add_ne_nan h
  · rw [h1]; exact roundD_ne_nan _

theorem mul_pos_ne_nan {a : Dbl} {q : ℚ} (hq : 0 < q) (ha : a ≠ .nan) : Dbl.mul a (.fin q) ≠ .nan := by
  cases a with
  | nan => exact absurd rfl ha
  | fin y => exact roundD_ne_nan _
  | pinf => show Dbl.scaledInf q ≠ .nan; rw [Dbl.scaledInf, if_pos hq]; intro h; cases h
  | ninf =>
    show Dbl.scaledInf (-q) ≠ .nan
    rw [Dbl.scaledInf, if_neg (by linarith), if_pos (by linarith)]; intro h; cases h

theorem pos_mul_ne_nan {a : Dbl} {q : ℚ} (hq : 0 < q) (ha : a ≠ .nan) : Dbl.mul (.fin q) a ≠ .nan := by
  cases a with
  | nan => exact absurd rfl ha
  | fin y => exact roundD_ne_nan _
  | pinf => show Dbl.scaledInf q ≠ .nan; rw [Dbl.scaledInf, if_pos hq]; intro h; cases h
  | ninf =>
    show Dbl.scaledInf (-q) ≠ .nan
    rw [Dbl.scaledInf, if_neg (by linarith), if_pos (by linarith)]; intro h; cases h

theorem neg_ne_nan {a : Dbl} (ha : a ≠ .nan) : Dbl.neg a ≠ .nan := by
  cases a <;> first | (intro h; cases h; done) | exact absurd rfl ha

theorem bnd_ne_nan {k : ℤ} {a : Dbl} (h : Bnd k a) : a ≠ .nan := by
  obtain ⟨x, rfl, _, _⟩ := h
  intro h; cases h

/-- A clamped value is within the bounds unless it is a NaN. -/
theorem clamp_inBounds {v : Dbl} {lo hi : ℚ} (hv : v ≠ .nan) (hd : IsDbl v) (hlo : IsDouble lo) (hhi : IsDouble hi) (hle : lo ≤ hi) :
    DblBetween (Dbl.clamp v (.fin lo) (.fin hi)) lo hi := by
  cases v with
  | nan => exact absurd rfl hv
  | pinf => exact ⟨hi, rfl, hhi, hle, le_rfl⟩
  | ninf => exact ⟨lo, rfl, hlo, le_rfl, hle⟩
  | fin x =>
    unfold Dbl.clamp
    by_cases h1 : x < lo
    · rw [if_pos (show Dbl.lt (.fin x) (.fin lo) = true from decide_eq_true h1)]
      exact ⟨lo, rfl, hlo, le_rfl, hle⟩
    · rw [if_neg (show ¬ Dbl.lt (.fin x) (.fin lo) = true by simpa [Dbl.lt] using h1)]
      by_cases h2 : hi < x
      · rw [if_pos (show Dbl.lt (.fin hi) (.fin x) = true from decide_eq_true h2)]
        exact ⟨hi, rfl, hhi, hle, le_rfl⟩
      · rw [if_neg (show ¬ Dbl.lt (.fin hi) (.fin x) = true by simpa [Dbl.lt] using h2)]
        exact ⟨x, rfl, hd, not_lt.1 h1, not_lt.1 h2⟩

theorem clamp_within {k : ℤ} {b : GeneBounds Dbl} (hb : SaneBounds k b) {v : Dbl} (hv : v ≠ .nan) (hd : IsDbl v) :
    GeneWithin b (Dbl.clamp v b.lower b.upper) := by
  obtain ⟨lo, hi, rfl, hlo, hhi, hle, _⟩ := hb
  exact ⟨lo, hi, rfl, clamp_inBounds hv hd hlo hhi hle⟩

/-- A gene within bounds that are not above `2^k`. -/
theorem within_bnd {k : ℤ} {b : GeneBounds Dbl} (hb : SaneBounds k b) {g : Dbl} (hg : GeneWithin b g) :
    ∃ x, g = .fin x ∧ IsDouble x ∧ |x| ≤ 2 ^ k := by
  obtain ⟨lo, hi, rfl, hlo, hhi, hle, h1, h2⟩ := hb
  obtain ⟨lo', hi', he, q, rfl, hq, a1, a2⟩ := hg
  cases he
  refine ⟨q, rfl, hq, ?_⟩
  rw [abs_le] at h1 h2 ⊢
  exact ⟨by linarith, by linarith⟩

/-! ## The loops -/

theorem geneLoopD_ok (gene : Nat → GeneBounds Dbl → Dbl → Dbl → Option (Dbl × Dbl)) (bs : List (GeneBounds Dbl)) :
    ∀ (i : Nat) (xs ys : List Dbl), LegalDoubles bs xs → LegalDoubles bs ys →
    (∀ i b x y, b ∈ bs → GeneWithin b x → GeneWithin b y → ∃ g1 g2, gene i b x y = some (g1, g2) ∧ GeneWithin b g1 ∧ GeneWithin b g2) →
    ∃ c1 c2, geneLoopD gene i bs xs ys = some (c1, c2) ∧ LegalDoubles bs c1 ∧ LegalDoubles bs c2 := by
  induction bs with
  | nil =>
    intro i xs ys hx hy _
    match xs, ys, hx.1, hy.1 with
    | [], [], _, _ => exact ⟨[], [], rfl, hx, hy⟩
  | cons b bs ih =>
    intro i xs ys hx hy hg
    match xs, ys, hx, hy with
    | [], _, hx, _ => exact absurd hx.1 (by simp)
    | _ :: _, [], _, hy => exact absurd hy.1 (by simp)
    | x :: xs, y :: ys, hx, hy =>
      have hx0 : GeneWithin b x := hx.2 0 b x rfl rfl
      have hy0 : GeneWithin b y := hy.2 0 b y rfl rfl
      have hxs : LegalDoubles bs xs := ⟨by simpa using hx.1, fun j b' g hb hgj => hx.2 (j + 1) b' g (by simpa using hb) (by simpa using hgj)⟩
      have hys : LegalDoubles bs ys := ⟨by simpa using hy.1, fun j b' g hb hgj => hy.2 (j + 1) b' g (by simpa using hb) (by simpa using hgj)⟩
      obtain ⟨g1, g2, e, w1, w2⟩ := hg i b x y (List.mem_cons_self ..) hx0 hy0
      obtain ⟨c1, c2, h1, h2, h3⟩ := ih (i + 1) xs ys hxs hys (fun i b x y hb => hg i b x y (List.mem_cons_of_mem _ hb))
      have cons_legal : ∀ (g : Dbl) (c : List Dbl), GeneWithin b g → LegalDoubles bs c → LegalDoubles (b :: bs) (g :: c) := by
        intro g c w hc
        refine ⟨by simp [hc.1], ?_⟩
        intro j b' g' hb hgj
        match j with
        | 0 => simp at hb hgj; subst hb; subst hgj; exact w
        | j + 1 => exact hc.2 j b' g' (by simpa using hb) (by simpa using hgj)
      exact ⟨g1 :: c1, g2 :: c2, by simp [geneLoopD, e, h1], cons_legal g1 c1 w1 h2, cons_legal g2 c2 w2 h3⟩

theorem realMutateD_ok {β : Type} (gene : GeneBounds Dbl → β → Dbl → Option Dbl) (ok : β → Prop)
    (bounds : List (GeneBounds Dbl)) (l : List Dbl) (hl : LegalDoubles bounds l)
    (hgene : ∀ b d old, b ∈ bounds → ok d → GeneWithin b old → ∃ g, gene b d old = some g ∧ GeneWithin b g)
    (count : Nat) (hc : count ≤ l.length) (selectMany : Bool) (draws : List Int) (hd : SampleDraws l.length count selectMany draws)
    (geneDraws : List β) (hgl : geneDraws.length = count) (hgd : ∀ d ∈ geneDraws, ok d) :
    ∃ c loci, realMutateD gene bounds count selectMany draws geneDraws l = some c ∧ loci.length = count ∧ DifferOnlyAt l c loci ∧
      LegalDoubles bounds c := by
  obtain ⟨idxs, h1, h2, h3, h4⟩ := sampleIndices_ok hc hd
  have hfst : (idxs.zip geneDraws).map Prod.fst = idxs := by
    rw [List.map_fst_zip]; omega
  have hzip : ∀ i d, (i, d) ∈ idxs.zip geneDraws → i < l.length ∧ d ∈ geneDraws := by
    intro i d hm
    exact ⟨h3 i (List.of_mem_zip hm).1, (List.of_mem_zip hm).2⟩
  -- the loop runs to its end
  have key : ∀ (ps : List (Nat × β)) (l : List Dbl), LegalDoubles bounds l → (∀ p ∈ ps, p.1 < l.length ∧ ok p.2) →
      ∃ c, updateAt (fun idx d old => do
        let b ← bounds[idx]?
        gene b d old) ps l = some c ∧ LegalDoubles bounds c ∧ DifferOnlyAt l c (ps.map Prod.fst) := by
    intro ps
    induction ps with
    | nil => intro l hl _; exact ⟨l, rfl, hl, rfl, fun i _ => rfl⟩
    | cons p ps ih =>
      intro l hl hps
      obtain ⟨hp1, hp2⟩ := hps p (List.mem_cons_self ..)
      have hb : p.1 < bounds.length := by rw [← hl.1]; exact hp1
      have eb : bounds[p.1]? = some bounds[p.1] := List.getElem?_eq_getElem hb
      have el : l[p.1]? = some l[p.1] := List.getElem?_eq_getElem hp1
      obtain ⟨g, hg, hw⟩ := hgene bounds[p.1] p.2 l[p.1] (List.getElem_mem hb) hp2 (hl.2 p.1 _ _ eb el)
      have hl' : LegalDoubles bounds (l.set p.1 g) := by
        refine ⟨by rw [List.length_set]; exact hl.1, ?_⟩
        intro j b' g' hbj hgj
        by_cases hj : j = p.1
        · subst hj
          rw [List.getElem?_set_self hp1] at hgj
          rw [eb] at hbj
          cases hbj; cases hgj
          exact hw
        · rw [List.getElem?_set_ne (Ne.symm hj)] at hgj
          exact hl.2 j b' g' hbj hgj
      obtain ⟨c, h1, h2, h3⟩ := ih (l.set p.1 g) hl' (fun q hq => by
        rw [List.length_set]; exact hps q (List.mem_cons_of_mem _ hq))
      refine ⟨c, ?_, h2, ?_, ?_⟩
      · obtain ⟨i, d⟩ := p
        simp only [updateAt, el, eb, Option.bind_eq_bind, Option.bind_some, hg]
        exact h1
      · rw [h3.1, List.length_set]
      · intro j hj
        rw [List.map_cons, List.mem_cons, not_or] at hj
        rw [h3.2 j hj.2, List.getElem?_set_ne (Ne.symm hj.1)]
  obtain ⟨c, hcc, hlc, hdc⟩ := key (idxs.zip geneDraws) l hl (by
    intro p hp
    exact ⟨(hzip p.1 p.2 hp).1, hgd _ (hzip p.1 p.2 hp).2⟩)
  rw [hfst] at hdc
  refine ⟨c, idxs, ?_, h2, hdc, hlc⟩
  simp only [realMutateD, h1, Option.bind_eq_bind, Option.bind_some, h2, hgl, if_true]
  exact hcc

/-! ## Random numbers -/

theorem unitReal_bnd {k : ℕ} (hk : k < 2 ^ 53) : Bnd 0 (unitReal k) := by
  have hk' : (k : ℚ) < 2 ^ 53 := by exact_mod_cast hk
  refine ⟨_, rfl, ⟨⟨k, -53, ?_, by norm_num, ?_⟩, ?_⟩, ?_⟩
  · rw [abs_of_nonneg (by positivity)]; exact_mod_cast hk.le
  · rw [zpow_neg]; push_cast; rw [div_eq_mul_inv]; norm_cast
  · rw [abs_of_nonneg (by positivity), div_lt_iff₀ (by positivity)]
    exact lt_of_lt_of_le hk' (le_mul_of_one_le_left (by positivity) (one_le_pow₀ (by norm_num)))
  · rw [abs_of_nonneg (by positivity), zpow_zero, div_le_one (by positivity)]
    exact hk'.le

/-! ## Signs -/

theorem roundQ_nonpos {x : ℚ} (h : x ≤ 0) : roundQ x ≤ 0 := by
  have := roundQ_mono h
  rwa [roundQ_zero] at this

theorem mulAdd_fin (fused : Bool) {x y z r : ℚ} (h : Dbl.mulAdd fused (.fin x) (.fin y) (.fin z) = .fin r) :
    r = roundQ (z + x * y) ∨ r = roundQ (z + roundQ (x * y)) := by
  cases fused
  · right
    change Dbl.add (.fin z) (roundD (x * y)) = .fin r at h
    cases h1 : roundD (x * y) with
    | nan => rw [h1] at h; cases h
    | pinf => rw [h1] at h; cases h
    | ninf => rw [h1] at h; cases h
    | fin p =>
      rw [h1] at h
      have := (roundD_fin_iff.1 h).1
      rw [(roundD_fin_iff.1 h1).1] at this
      exact this
  · left
    exact (roundD_fin_iff.1 h).1

theorem mulAdd_le (fused : Bool) {x y z r : ℚ} (hz : IsDouble z) (hxy : x * y ≤ 0) (h : Dbl.mulAdd fused (.fin x) (.fin y) (.fin z) = .fin r) : r ≤ z := by
  rcases mulAdd_fin fused h with rfl | rfl
  · exact roundQ_le_of_binary53 (by linarith) hz.1
  · exact roundQ_le_of_binary53 (by linarith [roundQ_nonpos hxy]) hz.1

theorem le_mulAdd (fused : Bool) {x y z r : ℚ} (hz : IsDouble z) (hxy : 0 ≤ x * y) (h : Dbl.mulAdd fused (.fin x) (.fin y) (.fin z) = .fin r) : z ≤ r := by
  rcases mulAdd_fin fused h with rfl | rfl
  · exact le_roundQ_of_binary53 (by linarith) hz.1
  · exact le_roundQ_of_binary53 (by linarith [roundQ_nonneg hxy]) hz.1

theorem le_zero_roundD {x : ℚ} (h : 0 ≤ x) : Dbl.le (.fin 0) (roundD x) = true := by
  have h0 := roundQ_nonneg h
  by_cases h1 : 2 ^ 1024 ≤ roundQ x
  · have e : roundD x = .pinf := if_pos h1
    rw [e]; rfl
  · rw [roundD_fin (not_le.1 h1) (lt_of_lt_of_le (by rw [neg_lt_zero]; positivity) h0)]
    exact decide_eq_true h0

/-- A value that is at least 0 is a number or the positive infinity. -/
theorem nonneg_cases {a : Dbl} (h : Dbl.le (.fin 0) a = true) : a = .pinf ∨ ∃ x, a = .fin x ∧ 0 ≤ x := by
  cases a with
  | nan => cases h
  | pinf => exact Or.inl rfl
  | ninf => cases h
  | fin x => exact Or.inr ⟨x, rfl, of_decide_eq_true h⟩

/-- A value in `[0, 1]`. -/
theorem unit_cases {a : Dbl} (hd : IsDbl a) (h0 : Dbl.le (.fin 0) a = true) (h1 : Dbl.le a (.fin 1) = true) : ∃ x, a = .fin x ∧ IsDouble x ∧ 0 ≤ x ∧ x ≤ 1 := by
  rcases nonneg_cases h0 with rfl | ⟨x, rfl, hx⟩
  · cases h1
  · exact ⟨x, rfl, hd, hx, of_decide_eq_true h1⟩

/-- The difference of two different numbers does not vanish. -/
theorem roundQ_sub_pos {x y : ℚ} (hx : IsDouble x) (hy : IsDouble y) (h : y < x) : 0 < roundQ (x - y) := by
  obtain ⟨a, ha⟩ := binary53_multiple hx.1
  obtain ⟨b, hb⟩ := binary53_multiple hy.1
  have hp := two_zpow_pos (-1074)
  have hab : (b : ℚ) < a := by
    rw [ha, hb] at h
    exact lt_of_mul_lt_mul_right h hp.le
  have hab' : (b : ℚ) + 1 ≤ a := by
    have : b < a := by exact_mod_cast hab
    exact_mod_cast this
  have : (2 : ℚ) ^ (-1074 : ℤ) ≤ x - y := by
    rw [ha, hb, ← sub_mul]
    exact le_mul_of_one_le_left hp.le (by linarith)
  exact lt_of_lt_of_le hp (le_roundQ_of_binary53 this (isBinary53_zpow le_rfl))

/-- The smaller and the larger one of two numbers. -/
theorem minmax_fin (x y : ℚ) :
    (if Dbl.lt (.fin y) (.fin x) then Dbl.fin y else .fin x) = .fin (min x y) ∧
    (if Dbl.lt (.fin y) (.fin x) then Dbl.fin x else .fin y) = .fin (max x y) := by
  by_cases h : y < x
  · have : Dbl.lt (.fin y) (.fin x) = true := decide_eq_true h
    rw [if_pos this, if_pos this, min_eq_right h.le, max_eq_left h.le]
    exact ⟨rfl, rfl⟩
  · have : ¬ Dbl.lt (.fin y) (.fin x) = true := by simpa [Dbl.lt] using h
    rw [if_neg this, if_neg this, min_eq_left (not_lt.1 h), max_eq_right (not_lt.1 h)]
    exact ⟨rfl, rfl⟩

theorem roundQ_half_ulp {x : ℚ} (hx : x ≠ 0) : |roundQ x - x| ≤ 2 ^ ulpExp x / 2 := by
  have h := nearestEven_near (x / 2 ^ ulpExp x)
  have hp := two_zpow_pos (ulpExp x)
  have e : roundQ x - x = ((nearestEven (x / 2 ^ ulpExp x) : ℚ) - x / 2 ^ ulpExp x) * 2 ^ ulpExp x := by
    have e1 : roundQ x = (nearestEven (x / 2 ^ ulpExp x) : ℚ) * 2 ^ ulpExp x := if_neg hx
    rw [e1, sub_mul, div_mul_cancel₀ _ hp.ne']
  rw [e, abs_mul, abs_of_pos hp]
  nlinarith

/-- The relative error of rounding a number that is not tiny. -/
theorem roundQ_rel_up {y : ℚ} (hy : 2 ^ (-64 : ℤ) ≤ y) : roundQ y ≤ y * (1 + 1 / 2 ^ 53) := by
  have hy0 : 0 < y := lt_of_lt_of_le (two_zpow_pos _) hy
  have h := roundQ_half_ulp hy0.ne'
  obtain ⟨b1, b2⟩ := binExp_spec hy0.ne'
  rw [abs_of_pos hy0] at b1 b2
  have hk : -64 ≤ binExp y := by
    by_contra hc
    have := two_zpow_le (show binExp y + 1 ≤ -64 by omega)
    linarith
  have e : ulpExp y = binExp y - 52 := max_eq_left (by omega)
  rw [e, show binExp y - 52 = binExp y + (-52) by ring, two_zpow_add] at h
  have h2 := le_of_abs_le h
  norm_num at h2 ⊢
  nlinarith

end Gapp.Model
