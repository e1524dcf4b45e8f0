import Mathlib.Tactic.FieldSimp
import Verif.Proofs.Reach
/-!
# What repeated mutations can reach (C84)

A search can only find the best solution if its mutations can produce it: from every chromosome, every other chromosome of the encoding has to be reachable. For the mutations of `/repo/src/mutation`
this holds except for `Swap3`, which only reaches half of the permutations, and for the `Boundary` mutation of real genes.
-/

namespace Gapp.Props
open Gapp.Model Gapp.Spec Gapp.Proofs.Reach

/-! ## Permutations -/

section
variable {α : Type}

/-- C84: `Inversion` can reach every order of the genes, with every value of `range_max`. -/
theorem C84_inversion (scaled : Nat) (l c : List α) (h : l.Perm c) : Reaches (InversionStep scaled) l c :=
  reaches_of_adjacent _ l.length (fun pre x y post _ => inversion_adjacent scaled pre x y post) h [] rfl

/-- C84: `Shuffle` can reach every order of the genes, with every value of `range_max`. -/
theorem C84_shuffle (scaled : Nat) (l c : List α) (h : l.Perm c) : Reaches (ShuffleStep scaled) l c :=
  reaches_of_adjacent _ l.length (fun pre x y post _ => shuffle_adjacent scaled pre x y post) h [] rfl

/-- C84: `Swap2` can reach every order of the genes. -/
theorem C84_swap2 (sel : Nat → Nat → Bool) (l c : List α) (hn : l.length < 65536) (h : l.Perm c) : Reaches (Swap2Step sel) l c :=
  reaches_of_adjacent _ l.length (fun pre x y post e => swap2_adjacent sel pre x y post (by omega)) h [] rfl

/-- C84: `Shift` can reach every order of the genes, with every value of `range_max`, although it does not choose the places uniformly (`C76_shift_violated`). -/
theorem C84_shift (scaled : Nat) (sel : Nat → Nat → Bool) (l c : List α) (hn : l.length < 65536) (h : l.Perm c) : Reaches (ShiftStep scaled sel) l c :=
  reaches_of_adjacent _ l.length (fun pre x y post e => shift_adjacent scaled sel pre x y post (by omega)) h [] rfl

/-- C84 (`Swap3`): exactly the orders that differ from the first one by an even permutation can be reached. -/
theorem C84_swap3_partial (sel : Nat → Nat → Bool) (l c : List α) (h3 : 3 ≤ l.length) (hn : l.length < 65536) : Reaches (Swap3Step sel) l c ↔ EvenRearrangement l c := by
  have hl : l = List.ofFn l.get := (List.ofFn_get l).symm
  constructor
  · intro h
    rw [hl] at h
    obtain ⟨σ, h1, rfl⟩ := reached_even h3 hn sel _ _ h
    refine ⟨by simp, σ, h1, fun i => by simp⟩
  · rintro ⟨hlen, σ, h1, h2⟩
    have hc : c = List.ofFn (l.get ∘ σ) := by
      apply List.ext_getElem?
      intro j
      by_cases hj : j < l.length
      · rw [h2 ⟨j, hj⟩]
        simp [hj]
      · rw [List.getElem?_eq_none (by omega), List.getElem?_eq_none (by simp; omega)]
    rw [hc]
    have := canReach_even (α := α) hn sel σ h1 l.get
    rwa [List.ofFn_get] at this

/-- **C84 violated for `Swap3`**: no number of mutations leads from a chromosome to the one with two genes exchanged. -/
theorem C84_swap3_violated (sel : Nat → Nat → Bool) (l c : List α) (hnd : l.Nodup) (h3 : 3 ≤ l.length) (hn : l.length < 65536) (i j : Nat) (hi : i < l.length) (hj : j < l.length) (hij : i ≠ j)
    (hc : SwappedAt l i j c) : l.Perm c ∧ ¬ Reaches (Swap3Step sel) l c := by
  obtain ⟨hlen, hci, hcj, hco⟩ := hc
  have hget : ∀ k : Fin l.length, c[k.val]? = l[(Equiv.swap (⟨i, hi⟩ : Fin l.length) ⟨j, hj⟩ k).val]? := by
    intro k
    by_cases h1 : k.val = i
    · have : k = ⟨i, hi⟩ := Fin.ext h1
      rw [this, Equiv.swap_apply_left]; exact hci
    · by_cases h2 : k.val = j
      · have : k = ⟨j, hj⟩ := Fin.ext h2
        rw [this, Equiv.swap_apply_right]; exact hcj
      · rw [Equiv.swap_apply_of_ne_of_ne (by intro e; apply h1; rw [e]) (by intro e; apply h2; rw [e])]
        exact hco k.val h1 h2
  constructor
  · have hcl : c = List.ofFn (l.get ∘ Equiv.swap (⟨i, hi⟩ : Fin l.length) ⟨j, hj⟩) := by
      apply List.ext_getElem?
      intro k
      by_cases hk : k < l.length
      · rw [hget ⟨k, hk⟩]; simp [hk]
      · rw [List.getElem?_eq_none (by omega), List.getElem?_eq_none (by simp; omega)]
    rw [hcl]
    conv_lhs => rw [← List.ofFn_get l]
    exact (Equiv.Perm.ofFn_comp_perm _ _).symm
  · rw [C84_swap3_partial sel l c h3 hn]
    rintro ⟨-, σ, hs, hσ⟩
    have : σ = Equiv.swap (⟨i, hi⟩ : Fin l.length) ⟨j, hj⟩ := by
      ext k
      have e := (hσ k).symm.trans (hget k)
      rw [List.getElem?_eq_getElem (σ k).isLt, List.getElem?_eq_getElem (Fin.isLt _), Option.some.injEq] at e
      exact (List.Nodup.getElem_inj_iff hnd).mp e
    rw [this, Equiv.Perm.sign_swap (by intro e; apply hij; exact congrArg Fin.val e)] at hs
    exact absurd hs (by decide)
end

/-- The four permutation mutations on a chromosome with five genes, and the exchange that `Swap3` cannot make. -/
example : Reaches (InversionStep 0) [3, 1, 4, 0, 2] [0, 1, 2, 3, 4] ∧ Reaches (ShuffleStep 2) [3, 1, 4, 0, 2] [0, 1, 2, 3, 4] ∧
    Reaches (Swap2Step (fun n k => decide (k ≥ 6 * n / 10))) [3, 1, 4, 0, 2] [0, 1, 2, 3, 4] ∧ Reaches (ShiftStep 3 (fun n k => decide (k ≥ 6 * n / 10))) [3, 1, 4, 0, 2] [0, 1, 2, 3, 4] ∧
    ¬ Reaches (Swap3Step (fun n k => decide (k ≥ 6 * n / 10))) [0, 1, 2, 3, 4] [0, 4, 2, 3, 1] :=
  ⟨C84_inversion _ _ _ (by decide), C84_shuffle _ _ _ (by decide), C84_swap2 _ _ _ (by decide) (by decide), C84_shift _ _ _ _ (by decide) (by decide),
    (C84_swap3_violated _ [0, 1, 2, 3, 4] [0, 4, 2, 3, 1] (by decide) (by decide) (by decide) 1 4 (by decide) (by decide) (by decide)
      ⟨rfl, rfl, rfl, fun k h1 h4 => by
        rcases k with _ | _ | _ | _ | _ | k
        · rfl
        · exact absurd rfl h1
        · rfl
        · rfl
        · exact absurd rfl h4
        · rfl⟩).2⟩

/-! ## Bits and integers -/

/-- C84: one `Flip` mutation can turn every bit string into every other one of its length. -/
theorem C84_flip (sel : Nat → Nat → Bool) (l c : List Nat) (hl : ∀ g ∈ l, g ≤ 1) (hn : l.length < 65536) (hcl : c.length = l.length) (hcb : ∀ g ∈ c, g ≤ 1) : FlipStep sel l c := by
  have hle : hammingDist l c ≤ l.length := by
    unfold hammingDist
    refine le_trans (List.length_filter_le _ _) (by simp)
  obtain ⟨h1, h2⟩ := C76_flip_partial l hl hn (sel l.length (hammingDist l c)) c hcl hcb
  have hne : ({draws ∈ SampleInputs 0 l.length (hammingDist l c) (sel l.length (hammingDist l c)) | Model.flip (hammingDist l c) (sel l.length (hammingDist l c)) draws l = some c}).Nonempty := by
    rw [Set.nonempty_iff_ne_empty]
    intro he
    rw [he, Set.ncard_empty, Nat.zero_mul] at h1
    omega
  obtain ⟨draws, hd, hf⟩ := hne
  exact ⟨_, draws, hle, hd, hf⟩

example : FlipStep (fun n k => decide (k ≥ 6 * n / 10)) [0, 0, 1, 1] [1, 0, 1, 0] := C84_flip _ _ _ (by decide) (by decide) rfl (by decide)

/-- C84: `Uniform` mutations can turn every integer chromosome into every other one within the bounds. -/
theorem C84_int_uniform (sel : Nat → Nat → Bool) (lower upper : Nat → Int) (l c : List Int) (hn : l.length < 65536) (hcl : c.length = l.length) (hl : WithinBounds lower upper l)
    (hc : WithinBounds lower upper c) : Reaches (IntUniformStep sel lower upper) l c := by
  refine reaches_of_set _ l.length (fun i v => lower i ≤ v ∧ v ≤ upper i) _ (fun _ _ h => h) ?_ l c rfl hcl hl hc
  intro l' i v hlen _ hi hv hne
  obtain ⟨draws, h1, h2⟩ := exists_draw_one (n := l'.length) (by omega) (sel l'.length 1) i (by omega)
  refine ⟨1, draws, [[v]], by omega, h1, ?_, ?_⟩
  · intro idxs k ds e hm x hx
    rw [h2] at e
    obtain rfl := Option.some.inj e
    simp only [List.zip_cons_cons, List.zip_nil_right, List.mem_singleton, Prod.mk.injEq] at hm
    obtain ⟨rfl, rfl⟩ := hm
    rw [List.mem_singleton] at hx
    rw [hx]; exact hv
  · obtain ⟨o, ho⟩ : ∃ o, l'[i]? = some o := ⟨_, List.getElem?_eq_getElem (by omega)⟩
    have hov : v ≠ o := fun e => hne (by rw [ho, e])
    simp [intUniform, h2, updateAt, ho, newIntGene, hov]

example : Reaches (IntUniformStep (fun _ _ => false) (fun _ => 0) (fun _ => 9)) [3, 1] [0, 9] :=
  C84_int_uniform _ _ _ _ _ (by decide) rfl (by
    intro i g h
    have := List.mem_of_getElem? h
    simp at this; show (0 : Int) ≤ g ∧ g ≤ 9; omega) (by
    intro i g h
    have := List.mem_of_getElem? h
    simp at this; show (0 : Int) ≤ g ∧ g ≤ 9; omega)

/-! ## Real genes -/

/-- What a single gene can become. -/
theorem real_reaches {β : Type} (sel : Nat → Nat → Bool) (gene : GeneBounds ℝ → β → ℝ → ℝ) (ok : β → Prop)
    (hgene : ∀ (b : GeneBounds ℝ) (old t : ℝ), b.lower ≤ old → old ≤ b.upper → b.lower ≤ t → t < b.upper → t ≠ old → ∃ d, ok d ∧ gene b d old = t)
    (bounds : List (GeneBounds ℝ)) (l c : List ℝ) (hn : l.length < 65536) (hl : l.length = bounds.length)
    (hlb : ∀ (i : Nat) (g : ℝ) (b : GeneBounds ℝ), l[i]? = some g → bounds[i]? = some b → b.lower ≤ g ∧ g ≤ b.upper) (hc : InsideBounds bounds c) :
    Reaches (RealStep sel gene ok bounds) l c := by
  refine reaches_of_set (RealStep sel gene ok bounds) l.length (fun i v => ∀ b, bounds[i]? = some b → b.lower ≤ v ∧ v ≤ b.upper)
    (fun i v => ∀ b, bounds[i]? = some b → b.lower ≤ v ∧ (v < b.upper ∨ b.lower = b.upper ∧ v = b.upper)) ?_ ?_ l c rfl (hc.1.trans hl.symm)
    (fun j g hg b hb => hlb j g b hg hb) (fun j g hg b hb => hc.2 j g b hg hb)
  · intro i v h b hb
    rcases h b hb with ⟨h1, h2 | ⟨h2, h3⟩⟩
    · exact ⟨h1, h2.le⟩
    · exact ⟨h1, h3.le⟩
  · intro l' i v hlen hl' hi hv hne
    obtain ⟨draws, h1, h2⟩ := exists_draw_one (n := l'.length) (by omega) (sel l'.length 1) i (by omega)
    obtain ⟨o, ho⟩ : ∃ o, l'[i]? = some o := ⟨_, List.getElem?_eq_getElem (by omega)⟩
    obtain ⟨b, hb⟩ : ∃ b, bounds[i]? = some b := ⟨_, List.getElem?_eq_getElem (by omega)⟩
    obtain ⟨a1, a2⟩ := hl' i o ho b hb
    obtain ⟨b1, b2⟩ := hv b hb
    have hvo : v ≠ o := fun e => hne (by rw [ho, e])
    have hlt : v < b.upper := by
      rcases b2 with b2 | ⟨b2, b3⟩
      · exact b2
      · exact absurd (le_antisymm (by linarith) (by linarith)) hvo
    obtain ⟨d, hd, he⟩ := hgene b o v a1 a2 b1 hlt hvo
    refine ⟨1, draws, [d], by omega, h1, rfl, by simpa using hd, ?_⟩
    simp [realMutate, h2, updateAt, ho, hb, he]

theorem stdClamp_inside (v lo hi : ℝ) (h1 : lo ≤ v) (h2 : v ≤ hi) : stdClamp v lo hi = v := by
  unfold stdClamp
  rw [if_neg (not_lt.mpr h1), if_neg (not_lt.mpr h2)]

/-- C84: `Uniform`, `NonUniform` (before the last generation), `Gauss` and `Polynomial` mutations can turn every chromosome of real genes into every other one within the bounds (the upper bounds
themselves are excluded). -/
theorem C84_real (sel : Nat → Nat → Bool) (bounds : List (GeneBounds ℝ)) (l c : List ℝ) (hn : l.length < 65536) (hl : l.length = bounds.length)
    (hlb : ∀ (i : Nat) (g : ℝ) (b : GeneBounds ℝ), l[i]? = some g → bounds[i]? = some b → b.lower ≤ g ∧ g ≤ b.upper) (hc : InsideBounds bounds c) :
    Reaches (RealStep sel realUniformGene (fun r => 0 ≤ r ∧ r < 1) bounds) l c ∧
    (∀ (beta : ℝ) (gen maxGen : Nat), gen < maxGen → Reaches (RealStep sel (nonUniformGene beta gen maxGen) (fun d => 0 ≤ d.1 ∧ d.1 < 1) bounds) l c) ∧
    (∀ sigma : ℝ, 0 < sigma → Reaches (RealStep sel (realGaussGene sigma) (fun _ => True) bounds) l c) ∧
    (∀ eta : ℝ, 0 ≤ eta → Reaches (RealStep sel (polynomialGene eta) (fun r => 0 ≤ r ∧ r < 1) bounds) l c) := by
  refine ⟨?_, ?_, ?_, ?_⟩
  · refine real_reaches sel _ _ ?_ bounds l c hn hl hlb hc
    intro b old t _ _ h1 h2 _
    have hpos : 0 < b.upper - b.lower := by linarith
    refine ⟨(t - b.lower) / (b.upper - b.lower), ⟨div_nonneg (by linarith) hpos.le, by rw [div_lt_one hpos]; linarith⟩, ?_⟩
    unfold realUniformGene
    field_simp
    ring
  · intro beta gen maxGen hg
    refine real_reaches sel _ _ ?_ bounds l c hn hl hlb hc
    intro b old t ho1 ho2 h1 h2 hne
    have hT : (0 : ℝ) < maxGen := by exact_mod_cast (by omega : 0 < maxGen)
    have hbase : 0 < 1 - (gen : ℝ) / maxGen := by
      rw [sub_pos, div_lt_one hT]
      exact_mod_cast hg
    have he : 0 < (1 - (gen : ℝ) / maxGen) ^ beta := Real.rpow_pos_of_pos hbase beta
    -- the random number that gives the multiplier `m`
    have hrand : ∀ m : ℝ, 0 < m → m ≤ 1 → ∃ r : ℝ, 0 ≤ r ∧ r < 1 ∧ nonUniformMultiplier beta gen maxGen r = m := by
      intro m hm0 hm1
      refine ⟨(1 - m) ^ (1 / ((1 - (gen : ℝ) / maxGen) ^ beta)), Real.rpow_nonneg (by linarith) _, Real.rpow_lt_one (by linarith) (by linarith) (by positivity), ?_⟩
      unfold nonUniformMultiplier
      dsimp only
      rw [← Real.rpow_mul (by linarith), one_div, inv_mul_cancel₀ he.ne', Real.rpow_one]
      ring
    rcases lt_or_gt_of_ne hne with hlt | hgt
    · have hpos : 0 < old - b.lower := by linarith
      obtain ⟨r, hr0, hr1, hr⟩ := hrand ((old - t) / (old - b.lower)) (div_pos (by linarith) hpos) (by rw [div_le_one hpos]; linarith)
      refine ⟨(r, true), ⟨hr0, hr1⟩, ?_⟩
      unfold nonUniformGene realNonUniformGene
      simp only [hr, if_true]
      have e : old + (b.lower - old) * ((old - t) / (old - b.lower)) = t := by
        field_simp
        ring
      rw [e]
      exact stdClamp_inside _ _ _ h1 h2.le
    · have hpos : 0 < b.upper - old := by linarith
      obtain ⟨r, hr0, hr1, hr⟩ := hrand ((t - old) / (b.upper - old)) (div_pos (by linarith) hpos) (by rw [div_le_one hpos]; linarith)
      refine ⟨(r, false), ⟨hr0, hr1⟩, ?_⟩
      unfold nonUniformGene realNonUniformGene
      simp only [hr, Bool.false_eq_true, if_false]
      have e : old + (b.upper - old) * ((t - old) / (b.upper - old)) = t := by
        field_simp
        ring
      rw [e]
      exact stdClamp_inside _ _ _ h1 h2.le
  · intro sigma hs
    refine real_reaches sel _ _ ?_ bounds l c hn hl hlb hc
    intro b old t _ _ h1 h2 _
    have hpos : 0 < b.upper - b.lower := by linarith
    refine ⟨(t - old) * sigma / (b.upper - b.lower), trivial, ?_⟩
    unfold realGaussGene
    dsimp only
    have e : old + ((b.upper - b.lower) / sigma * ((t - old) * sigma / (b.upper - b.lower)) + 0) = t := by
      field_simp
      ring
    rw [e]
    exact stdClamp_inside _ _ _ h1 h2.le
  · intro eta he
    refine real_reaches sel _ _ ?_ bounds l c hn hl hlb hc
    intro b old t ho1 ho2 h1 h2 hne
    have he1 : (0 : ℝ) < 1 + eta := by linarith
    rcases lt_or_gt_of_ne hne with hlt | hgt
    · have hpos : 0 < old - b.lower := by linarith
      obtain ⟨p, hp⟩ : ∃ p, p = (t - b.lower) / (old - b.lower) := ⟨_, rfl⟩
      have hp0 : 0 ≤ p := by rw [hp]; exact div_nonneg (by linarith) hpos.le
      have hp1 : p < 1 := by rw [hp, div_lt_one hpos]; linarith
      have hq0 : 0 ≤ p ^ (1 + eta) := Real.rpow_nonneg hp0 _
      have hq1 : p ^ (1 + eta) < 1 := Real.rpow_lt_one hp0 hp1 he1
      refine ⟨p ^ (1 + eta) / 2, ⟨by linarith, by linarith⟩, ?_⟩
      have hpow : polynomialPower eta (p ^ (1 + eta) / 2) = p := by
        unfold polynomialPower
        rw [if_pos (by linarith), show 2 * (p ^ (1 + eta) / 2) = p ^ (1 + eta) by ring, ← Real.rpow_mul hp0, mul_one_div_cancel he1.ne', Real.rpow_one]
      unfold polynomialGene realPolynomialGene
      dsimp only
      rw [hpow, if_pos (by linarith)]
      have e : old + (p - 1) * (old - b.lower) = t := by
        rw [hp]
        field_simp
        ring
      rw [e]
      exact stdClamp_inside _ _ _ h1 h2.le
    · have hpos : 0 < b.upper - old := by linarith
      obtain ⟨p, hp⟩ : ∃ p, p = (b.upper - t) / (b.upper - old) := ⟨_, rfl⟩
      have hp0 : 0 < p := by rw [hp]; exact div_pos (by linarith) hpos
      have hp1 : p < 1 := by rw [hp, div_lt_one hpos]; linarith
      have hq0 : 0 < p ^ (1 + eta) := Real.rpow_pos_of_pos hp0 _
      have hq1 : p ^ (1 + eta) < 1 := Real.rpow_lt_one hp0.le hp1 he1
      refine ⟨1 - p ^ (1 + eta) / 2, ⟨by linarith, by linarith⟩, ?_⟩
      have hpow : polynomialPower eta (1 - p ^ (1 + eta) / 2) = p := by
        unfold polynomialPower
        rw [if_neg (by linarith), show 2 - 2 * (1 - p ^ (1 + eta) / 2) = p ^ (1 + eta) by ring, ← Real.rpow_mul hp0.le, mul_one_div_cancel he1.ne', Real.rpow_one]
      unfold polynomialGene realPolynomialGene
      dsimp only
      rw [hpow, if_neg (by linarith)]
      have e : old + (1 - p) * (b.upper - old) = t := by
        rw [hp]
        field_simp
        ring
      rw [e]
      exact stdClamp_inside _ _ _ h1 h2.le

/-- **C84 violated for `Boundary`**: whatever is reached by mutations of this kind, each gene is the old one or one of its bounds. -/
theorem C84_boundary_violated (sel : Nat → Nat → Bool) (bounds : List (GeneBounds ℝ)) (l c : List ℝ) (h : Reaches (RealStep sel realBoundaryGene (fun _ => True) bounds) l c) :
    c.length = l.length ∧ ∀ (i : Nat) (g : ℝ), c[i]? = some g → l[i]? = some g ∨ ∃ b, bounds[i]? = some b ∧ (g = b.lower ∨ g = b.upper) := by
  induction h with
  | refl => exact ⟨rfl, fun i g hg => Or.inl hg⟩
  | tail _ hstep ih =>
    obtain ⟨ih1, ih2⟩ := ih
    obtain ⟨count, draws, gd, -, -, -, -, hm⟩ := hstep
    unfold realMutate at hm
    simp only [Option.bind_eq_bind, Option.bind_eq_some_iff] at hm
    obtain ⟨idxs, -, hm⟩ := hm
    split at hm
    swap
    · cases hm
    have key : ∀ (L : List (Nat × Bool)) (a b : List ℝ), updateAt (fun idx d old => (bounds[idx]?).bind (fun b => some (realBoundaryGene b d old))) L a = some b →
        b.length = a.length ∧ ∀ (i : Nat) (g : ℝ), b[i]? = some g → a[i]? = some g ∨ ∃ b, bounds[i]? = some b ∧ (g = b.lower ∨ g = b.upper) := by
      intro L
      induction L with
      | nil => intro a b hab; cases hab; exact ⟨rfl, fun i g hg => Or.inl hg⟩
      | cons q L ihL =>
        intro a b hab
        obtain ⟨idx, d⟩ := q
        rw [updateAt] at hab
        simp only [Option.bind_eq_bind, Option.bind_eq_some_iff, Option.some.injEq] at hab
        obtain ⟨g0, hg0, g1, ⟨bb, hbb, rfl⟩, hab⟩ := hab
        obtain ⟨e1, e2⟩ := ihL _ _ hab
        rw [List.length_set] at e1
        refine ⟨e1, fun i g hg => ?_⟩
        rcases e2 i g hg with h1 | h1
        · by_cases hi : i = idx
          · subst hi
            have hlt : i < a.length := by
              rw [List.getElem?_eq_some_iff] at hg0
              exact hg0.1
            rw [List.getElem?_set_self hlt, Option.some.injEq] at h1
            right
            refine ⟨bb, hbb, ?_⟩
            rw [← h1]
            unfold realBoundaryGene
            split
            · exact Or.inl rfl
            · exact Or.inr rfl
          · rw [List.getElem?_set_ne (fun e => hi e.symm)] at h1
            exact Or.inl h1
        · exact Or.inr h1
    obtain ⟨e1, e2⟩ := key _ _ _ hm
    refine ⟨e1.trans ih1, fun i g hg => ?_⟩
    rcases e2 i g hg with h1 | h1
    · exact ih2 i g h1
    · exact Or.inr h1

/-- From the chromosome (0) within the bounds 0 and 1, `Boundary` cannot reach the chromosome (1/2), but the other mutations can. -/
example : ¬ Reaches (RealStep (fun _ _ => false) realBoundaryGene (fun _ => True) [⟨0, 1⟩]) [0] [1 / 2] ∧
    Reaches (RealStep (fun _ _ => false) (polynomialGene 40) (fun r => 0 ≤ r ∧ r < 1) [⟨0, 1⟩]) [0] [1 / 2] := by
  constructor
  · intro h
    rcases (C84_boundary_violated _ _ _ _ h).2 0 (1 / 2) rfl with h1 | ⟨b, hb, h1⟩
    · simp at h1
    · simp only [List.getElem?_cons_zero, Option.some.injEq] at hb
      subst hb
      norm_num at h1
  · refine (C84_real _ [⟨0, 1⟩] [0] [1 / 2] (by simp) rfl ?_ ⟨rfl, ?_⟩).2.2.2 40 (by norm_num)
    · intro i g b hg hb
      rcases i with _ | i
      · simp only [List.getElem?_cons_zero, Option.some.injEq] at hg hb
        subst hg hb; norm_num
      · simp at hg
    · intro i g b hg hb
      rcases i with _ | i
      · simp only [List.getElem?_cons_zero, Option.some.injEq] at hg hb
        subst hg hb; norm_num
      · simp at hg

end Gapp.Props
