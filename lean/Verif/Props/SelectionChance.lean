import Mathlib.MeasureTheory.Measure.Lebesgue.Basic
import Verif.Proofs.SelectionCount
import Verif.Props.Selection
import Verif.Model.Nsga2
import Verif.Model.Nsga3

/-!
# C77: how likely a candidate is selected
-/

namespace Gapp.Props

open Gapp.Model Gapp.Spec Gapp.Proofs.SelectionCount

section
variable {K : Type} [Field K] [LinearOrder K] [IsStrictOrderedRing K]

/-! ### Tournaments -/

/-- The possible sequences of the random indices of a tournament in a population of `n` candidates. All of them are equally likely. -/
def TourneyDraws (n size : Nat) : Set (List Nat) := {draws | draws.length = size ∧ ∀ d ∈ draws, d < n}

theorem tourneyDraws_eq (n size : Nat) : TourneyDraws n size = (listsOf (Finset.range n) size : Set (List Nat)) := by
  ext d
  simp [TourneyDraws, mem_listsOf]

/-- The sequences for which the candidate `i` is selected. -/
def WonBy (size : Nat) (f : List K) (i : Nat) : Set (List Nat) := {draws ∈ TourneyDraws f.length size | tournamentSelect size f draws = some i}

theorem wonBy_finite (size : Nat) (f : List K) (i : Nat) : (WonBy size f i).Finite := by
  apply Set.Finite.subset (Finset.finite_toSet (listsOf (Finset.range f.length) size))
  intro d hd
  rw [← tourneyDraws_eq]
  exact hd.1

omit [Field K] [IsStrictOrderedRing K] in
theorem tournamentSelect_map (size : Nat) (f : List K) (σ : Equiv.Perm Nat) (hσ : ∀ k, f[σ k]? = f[k]?) (draws : List Nat) :
    tournamentSelect size f (draws.map σ) = (tournamentSelect size f draws).map σ := by
  have hm : (draws.map σ).mapM (fun i => f[i]?) = draws.mapM (fun i => f[i]?) := by
    induction draws with
    | nil => rfl
    | cons a r ih => simp only [List.map_cons, List.mapM_cons, hσ, ih]
  unfold tournamentSelect
  rw [List.length_map]
  split
  · simp only [hm, Option.bind_eq_bind]
    cases draws.mapM (fun i => f[i]?) with
    | none => rfl
    | some vals => simp
  · rfl

/-- Exchanging two candidates, of which the second is not worse: the sequences that select the first one are mapped to sequences that select the second one. -/
theorem wonBy_swap (size : Nat) (hs : 0 < size) (f : List K) (hf : size ≤ f.length) (i j : Nat) (fi fj : K) (hi : f[i]? = some fi) (hj : f[j]? = some fj)
    (hle : fi ≤ fj) (draws : List Nat) (hd : draws ∈ WonBy size f i) : draws.map (Equiv.swap i j) ∈ WonBy size f j := by
  have hil := (List.getElem?_eq_some_iff.mp hi).1
  have hjl := (List.getElem?_eq_some_iff.mp hj).1
  obtain ⟨⟨hdl, hdr⟩, hsel⟩ := hd
  have hr' : ∀ d ∈ draws.map (Equiv.swap i j), d < f.length := by
    intro d hd
    obtain ⟨e, he, rfl⟩ := List.mem_map.mp hd
    rw [Equiv.swap_apply_def]
    have := hdr e he
    split
    · exact hjl
    · split
      · exact hil
      · exact this
  refine ⟨⟨by rw [List.length_map, hdl], hr'⟩, ?_⟩
  rcases eq_or_lt_of_le hle with heq | hlt
  · rw [tournamentSelect_map, hsel]
    · simp
    · intro k
      rw [Equiv.swap_apply_def]
      split
      · rename_i h; rw [h, hi, hj, heq]
      · split
        · rename_i h; rw [h, hi, hj, heq]
        · rfl
  · obtain ⟨k, fk, h1, h2, h3, h4⟩ := C29_tournament size hs f hf (draws.map (Equiv.swap i j)) (by rw [List.length_map, hdl]) hr'
    obtain ⟨k', fk', h1', h2', h3', h4'⟩ := C29_tournament size hs f hf draws hdl hdr
    rw [hsel] at h1'
    cases h1'
    rw [hi] at h3'
    cases h3'
    rw [h1]
    congr 1
    have hmem : j ∈ draws.map (Equiv.swap i j) := List.mem_map.mpr ⟨i, h2', by simp⟩
    have hge := h4 j hmem fj hj
    obtain ⟨e, he, rfl⟩ := List.mem_map.mp h2
    by_cases hei : e = i
    · rw [hei]; simp
    · exfalso
      have hej : e ≠ j := by
        rintro rfl
        exact absurd (h4' e he fj hj) (not_le.mpr hlt)
      rw [Equiv.swap_apply_of_ne_of_ne hei hej] at h3
      exact absurd (h4' e he fk h3) (not_le.mpr (lt_of_lt_of_le hlt hge))

theorem map_swap_injective (i j : Nat) : Function.Injective (fun draws : List Nat => draws.map (Equiv.swap i j)) :=
  List.map_injective_iff.mpr (Equiv.injective _)

/-- **C77 (tournament, order).** A candidate that is not worse than another one is selected by at least as many of the equally likely sequences of random indices,
and by more of them if it is better and there are at least two participants. -/
theorem C77_tournament_order (size : Nat) (hs : 0 < size) (f : List K) (hf : size ≤ f.length) (i j : Nat) (fi fj : K) (hi : f[i]? = some fi) (hj : f[j]? = some fj)
    (hle : fi ≤ fj) :
    Set.ncard {draws ∈ TourneyDraws f.length size | tournamentSelect size f draws = some i} ≤
        Set.ncard {draws ∈ TourneyDraws f.length size | tournamentSelect size f draws = some j} ∧
      (fi < fj → 2 ≤ size → Set.ncard {draws ∈ TourneyDraws f.length size | tournamentSelect size f draws = some i} <
        Set.ncard {draws ∈ TourneyDraws f.length size | tournamentSelect size f draws = some j}) := by
  show (WonBy size f i).ncard ≤ (WonBy size f j).ncard ∧ (_ → _ → (WonBy size f i).ncard < (WonBy size f j).ncard)
  have hil := (List.getElem?_eq_some_iff.mp hi).1
  have hjl := (List.getElem?_eq_some_iff.mp hj).1
  have hsub : (fun draws : List Nat => draws.map (Equiv.swap i j)) '' WonBy size f i ⊆ WonBy size f j := by
    rintro _ ⟨d, hd, rfl⟩
    exact wonBy_swap size hs f hf i j fi fj hi hj hle d hd
  rw [← Set.ncard_image_of_injective (WonBy size f i) (map_swap_injective i j)]
  refine ⟨Set.ncard_le_ncard hsub (wonBy_finite size f j), ?_⟩
  intro hlt h2
  apply Set.ncard_lt_ncard _ (wonBy_finite size f j)
  rw [Set.ssubset_iff_of_subset hsub]
  have hlen : (j :: List.replicate (size - 1) i).length = size := by simp; omega
  have hr : ∀ d ∈ j :: List.replicate (size - 1) i, d < f.length := by
    intro d hd
    rcases List.mem_cons.mp hd with rfl | hd
    · exact hjl
    · rw [(List.mem_replicate.mp hd).2]; exact hil
  have hi' : i ∈ List.replicate (size - 1) i := List.mem_replicate.mpr ⟨by omega, rfl⟩
  refine ⟨j :: List.replicate (size - 1) i, ⟨⟨hlen, hr⟩, ?_⟩, ?_⟩
  · obtain ⟨k, fk, h1, h2, h3, h4⟩ := C29_tournament size hs f hf _ hlen hr
    rw [h1]
    congr 1
    rcases List.mem_cons.mp h2 with h | h
    · exact h
    · exfalso
      rw [(List.mem_replicate.mp h).2, hi] at h3
      cases h3
      exact absurd (h4 j (by simp) fj hj) (not_le.mpr hlt)
  · rintro ⟨d, ⟨⟨hdl, hdr⟩, hsel⟩, he⟩
    obtain ⟨k', fk', h1', h2', h3', h4'⟩ := C29_tournament size hs f hf d hdl hdr
    rw [hsel] at h1'
    cases h1'
    rw [hi] at h3'
    cases h3'
    have hjd : j ∈ d := by
      have : i ∈ d.map (Equiv.swap i j) := by
        rw [show d.map (Equiv.swap i j) = _ from he]
        exact List.mem_cons_of_mem _ hi'
      obtain ⟨e, he, hee⟩ := List.mem_map.mp this
      have : e = j := by
        have := congrArg (Equiv.swap i j) hee
        simpa using this
      rw [← this]; exact he
    exact absurd (h4' j hjd fj hj) (not_le.mpr hlt)

/-- **C77 (tournament).** The number of the equally likely sequences of random indices that select the candidate `i`: all sequences of candidates that are not better have a winner
with this fitness or with a lower one, and the candidates with the same fitness share the former equally. -/
theorem C77_tournament (size : Nat) (hs : 0 < size) (f : List K) (hf : size ≤ f.length) (i : Nat) (fi : K) (hi : f[i]? = some fi) :
    Set.ncard {draws ∈ TourneyDraws f.length size | tournamentSelect size f draws = some i} * f.countP (fun x => decide (x = fi)) +
        f.countP (fun x => decide (x < fi)) ^ size = f.countP (fun x => decide (x ≤ fi)) ^ size ∧
      Set.ncard (TourneyDraws f.length size) = f.length ^ size := by
  constructor
  swap
  · rw [tourneyDraws_eq, Set.ncard_coe_finset, card_listsOf, Finset.card_range]
  show (WonBy size f i).ncard * _ + _ = _
  classical
  let N : Nat → Finset (List Nat) := fun k => (wonBy_finite size f k).toFinset
  have hN : ∀ k, (WonBy size f k).ncard = (N k).card := fun k => Set.ncard_eq_toFinset_card _ _
  have hmemN : ∀ k d, d ∈ N k ↔ d ∈ WonBy size f k := fun k d => Set.Finite.mem_toFinset _
  let E := positions f (fun x => decide (x = fi))
  have hE : ∀ k, k ∈ E ↔ f[k]? = some fi := by
    intro k
    rw [mem_positions]
    simp
  have hsame : ∀ k ∈ E, (N k).card = (N i).card := by
    intro k hk
    rw [← hN, ← hN]
    exact le_antisymm (C77_tournament_order size hs f hf k i fi fi ((hE k).mp hk) hi le_rfl).1
      (C77_tournament_order size hs f hf i k fi fi hi ((hE k).mp hk) le_rfl).1
  have hdisj : Set.PairwiseDisjoint (E : Set Nat) N := by
    intro a _ b _ hab
    rw [Function.onFun, Finset.disjoint_left]
    intro d h1 h2
    rw [hmemN] at h1 h2
    have := h1.2.symm.trans h2.2
    exact hab (Option.some.inj this)
  have hunion : listsOf (positions f (fun x => decide (x ≤ fi))) size =
      E.biUnion N ∪ listsOf (positions f (fun x => decide (x < fi))) size := by
    ext d
    rw [Finset.mem_union, Finset.mem_biUnion, mem_listsOf, mem_listsOf]
    simp only [mem_positions, decide_eq_true_eq]
    constructor
    · rintro ⟨h1, h2⟩
      have hr : ∀ e ∈ d, e < f.length := by
        intro e he
        obtain ⟨x, hx, _⟩ := h2 e he
        exact (List.getElem?_eq_some_iff.mp hx).1
      obtain ⟨k, fk, h3, h4, h5, h6⟩ := C29_tournament size hs f hf d h1 hr
      obtain ⟨x, hx, hxle⟩ := h2 k h4
      rw [h5] at hx
      cases hx
      rcases eq_or_lt_of_le hxle with h | h
      · left
        exact ⟨k, (hE k).mpr (by rw [h5, h]), (hmemN k d).mpr ⟨⟨h1, hr⟩, h3⟩⟩
      · right
        refine ⟨h1, fun e he => ?_⟩
        obtain ⟨x, hx, _⟩ := h2 e he
        exact ⟨x, hx, lt_of_le_of_lt (h6 e he x hx) h⟩
    · rintro (⟨k, hk, hd⟩ | ⟨h1, h2⟩)
      · obtain ⟨⟨h1, hr⟩, hsel⟩ := (hmemN k d).mp hd
        obtain ⟨k', fk, h3, h4, h5, h6⟩ := C29_tournament size hs f hf d h1 hr
        rw [hsel] at h3
        cases h3
        rw [(hE k).mp hk] at h5
        cases h5
        refine ⟨h1, fun e he => ?_⟩
        have := List.getElem?_eq_getElem (hr e he)
        exact ⟨_, this, h6 e he _ this⟩
      · exact ⟨h1, fun e he => by obtain ⟨x, hx, hl⟩ := h2 e he; exact ⟨x, hx, le_of_lt hl⟩⟩
  have hd2 : Disjoint (E.biUnion N) (listsOf (positions f (fun x => decide (x < fi))) size) := by
    rw [Finset.disjoint_left]
    intro d h1 h2
    obtain ⟨k, hk, hd⟩ := Finset.mem_biUnion.mp h1
    obtain ⟨⟨h1, hr⟩, hsel⟩ := (hmemN k d).mp hd
    obtain ⟨k', fk, h3, h4, h5, h6⟩ := C29_tournament size hs f hf d h1 hr
    rw [hsel] at h3
    cases h3
    obtain ⟨x, hx, hlt⟩ := (mem_positions _ _ _).mp (((mem_listsOf _ _ _).mp h2).2 k h4)
    rw [(hE k).mp hk] at hx
    cases hx
    simp at hlt
  rw [← card_positions, ← card_positions, ← card_positions, ← card_listsOf, ← card_listsOf, hunion, Finset.card_union_of_disjoint hd2,
    Finset.card_biUnion hdisj, Finset.sum_congr rfl hsame, Finset.sum_const, hN, smul_eq_mul, Nat.mul_comm]

/-- Three of six candidates: the two candidates with the fitness 4, one better, three worse. One of these two is selected by 49 of the 216 sequences (49 * 2 + 27 = 125). -/
example : Set.ncard {draws ∈ TourneyDraws 6 3 | tournamentSelect 3 [(1 : ℚ), 4, 2, 4, 9, 0] draws = some 1} = 49 ∧ Set.ncard (TourneyDraws 6 3) = 216 := by
  have h := C77_tournament 3 (by decide) [(1 : ℚ), 4, 2, 4, 9, 0] (by decide) 1 4 rfl
  have e1 : [(1 : ℚ), 4, 2, 4, 9, 0].countP (fun x => decide (x = 4)) = 2 := by decide +kernel
  have e2 : [(1 : ℚ), 4, 2, 4, 9, 0].countP (fun x => decide (x < 4)) = 3 := by decide +kernel
  have e3 : [(1 : ℚ), 4, 2, 4, 9, 0].countP (fun x => decide (x ≤ 4)) = 5 := by decide +kernel
  rw [e1, e2, e3] at h
  refine ⟨?_, h.2⟩
  have h1 := h.1
  simp only [List.length_cons, List.length_nil, Nat.reduceAdd] at h1
  omega

/-! ### NSGA-II -/

/-- The candidate `i` is better than `k` for NSGA-II: it has a lower rank, or the same rank and a larger crowding distance. -/
def CrowdedBetter (ranks : List Nat) (dists : List (WithTop K)) (i k : Nat) : Prop :=
  ∃ ri rk di dk, ranks[i]? = some ri ∧ ranks[k]? = some rk ∧ dists[i]? = some di ∧ dists[k]? = some dk ∧ (ri < rk ∨ (ri = rk ∧ dk < di))

/-- The possible pairs of random indices of the candidates. All of them are equally likely. -/
def IndexPairs (n : Nat) : Set (Nat × Nat) := {p | p.1 < n ∧ p.2 < n}

omit [Field K] [IsStrictOrderedRing K] in
theorem nsga2_select_iff (s : Nsga2 K) (n : Nat) (hr : s.ranks.length = n) (hd : s.dists.length = n) (a b k : Nat) (ha : a < n) (hb : b < n) :
    s.select a b = some k ↔ (CrowdedBetter s.ranks s.dists a b ∧ k = a) ∨ (¬ CrowdedBetter s.ranks s.dists a b ∧ k = b) := by
  have e1 : s.ranks[a]? = some (s.ranks[a]'(by omega)) := List.getElem?_eq_getElem _
  have e2 : s.ranks[b]? = some (s.ranks[b]'(by omega)) := List.getElem?_eq_getElem _
  have e3 : s.dists[a]? = some (s.dists[a]'(by omega)) := List.getElem?_eq_getElem _
  have e4 : s.dists[b]? = some (s.dists[b]'(by omega)) := List.getElem?_eq_getElem _
  generalize s.ranks[a]'(by omega) = ra at e1
  generalize s.ranks[b]'(by omega) = rb at e2
  generalize s.dists[a]'(by omega) = da at e3
  generalize s.dists[b]'(by omega) = db at e4
  have hcb : CrowdedBetter s.ranks s.dists a b ↔ ra < rb ∨ (ra = rb ∧ db < da) := by
    unfold CrowdedBetter
    rw [e1, e2, e3, e4]
    simp
  rw [hcb]
  unfold Nsga2.select
  simp only [e1, e2, e3, e4, Option.bind_eq_bind, Option.bind_some]
  by_cases h1 : ra < rb
  · rw [if_pos h1]
    simp [h1, eq_comm]
  · rw [if_neg h1]
    by_cases h2 : ra > rb
    · rw [if_pos h2]
      have : ¬ (ra < rb ∨ ra = rb ∧ db < da) := by rintro (h | h) <;> omega
      simp [this, eq_comm]
    · rw [if_neg h2]
      have hab : ra = rb := by omega
      subst hab
      by_cases h3 : da > db
      · rw [if_pos h3]
        have : (ra < ra ∨ ra = ra ∧ db < da) := Or.inr ⟨rfl, h3⟩
        rw [or_iff_left (fun h => h.1 this), and_iff_right this]
        simp [eq_comm]
      · rw [if_neg h3]
        have : ¬ (ra < ra ∨ ra = ra ∧ db < da) := by rintro (h | h); omega; exact h3 h.2
        rw [or_iff_right (fun h => this h.1), and_iff_right this]
        simp [eq_comm]

open Classical in
/-- The pairs for which a tournament of two selects the candidate `i`: `better a b` decides if the first participant wins. -/
theorem duel_count (n : Nat) (better : Nat → Nat → Prop) (i : Nat) (hi : i < n) (hirr : ¬ better i i) :
    Set.ncard {p ∈ IndexPairs n | (better p.1 p.2 ∧ i = p.1) ∨ (¬ better p.1 p.2 ∧ i = p.2)} =
      ((Finset.range n).filter (fun k => better i k)).card + ((Finset.range n).filter (fun k => ¬ better k i)).card := by
  have e : {p ∈ IndexPairs n | (better p.1 p.2 ∧ i = p.1) ∨ (¬ better p.1 p.2 ∧ i = p.2)} =
      ((((Finset.range n).filter (fun k => better i k)).image (fun k => (i, k)) ∪ ((Finset.range n).filter (fun k => ¬ better k i)).image (fun k => (k, i)) :
        Finset (Nat × Nat)) : Set (Nat × Nat)) := by
    ext ⟨a, b⟩
    simp only [IndexPairs, Set.mem_setOf_eq, Finset.coe_union, Set.mem_union, Finset.mem_coe, Finset.mem_image, Finset.mem_filter, Finset.mem_range,
      Prod.mk.injEq]
    constructor
    · rintro ⟨⟨h1, h2⟩, ⟨h3, rfl⟩ | ⟨h3, rfl⟩⟩
      · exact Or.inl ⟨b, ⟨h2, h3⟩, rfl, rfl⟩
      · exact Or.inr ⟨a, ⟨h1, h3⟩, rfl, rfl⟩
    · rintro (⟨k, ⟨h1, h2⟩, rfl, rfl⟩ | ⟨k, ⟨h1, h2⟩, rfl, rfl⟩)
      · exact ⟨⟨hi, h1⟩, Or.inl ⟨h2, rfl⟩⟩
      · exact ⟨⟨h1, hi⟩, Or.inr ⟨h2, rfl⟩⟩
  rw [e, Set.ncard_coe_finset, Finset.card_union_of_disjoint, Finset.card_image_of_injective, Finset.card_image_of_injective]
  · intro a b h; simpa using h
  · intro a b h; simpa using h
  · rw [Finset.disjoint_left]
    rintro ⟨a, b⟩ h1 h2
    simp only [Finset.mem_image, Finset.mem_filter, Finset.mem_range, Prod.mk.injEq] at h1 h2
    obtain ⟨k, ⟨_, h3⟩, rfl, rfl⟩ := h1
    obtain ⟨k', ⟨_, h4⟩, rfl, rfl⟩ := h2
    exact hirr h3

omit [Field K] [IsStrictOrderedRing K] in
theorem crowdedBetter_irrefl (ranks : List Nat) (dists : List (WithTop K)) (i : Nat) : ¬ CrowdedBetter ranks dists i i := by
  rintro ⟨ri, rk, di, dk, h1, h2, h3, h4, h⟩
  rw [h1] at h2
  rw [h3] at h4
  cases h2
  cases h4
  rcases h with h | h
  · omega
  · exact lt_irrefl _ h.2

omit [Field K] [IsStrictOrderedRing K] in
theorem crowdedBetter_trans (ranks : List Nat) (dists : List (WithTop K)) {i j k : Nat} (h : CrowdedBetter ranks dists i j) (h' : CrowdedBetter ranks dists j k) :
    CrowdedBetter ranks dists i k := by
  obtain ⟨ri, rj, di, dj, h1, h2, h3, h4, h⟩ := h
  obtain ⟨rj', rk, dj', dk, h1', h2', h3', h4', h'⟩ := h'
  rw [h2] at h1'
  rw [h4] at h3'
  cases h1'
  cases h3'
  refine ⟨ri, rk, di, dk, h1, h2', h3, h4', ?_⟩
  rcases h with h | h
  · rcases h' with h' | h'
    · left; omega
    · left; omega
  · rcases h' with h' | h'
    · left; omega
    · right; exact ⟨by omega, lt_trans h'.2 h.2⟩

open Classical in
omit [Field K] [IsStrictOrderedRing K] in
/-- **C77 (NSGA-II).** The number of the equally likely pairs of random indices that select the candidate `i` is the number of the candidates that are worse plus the number
of those that are not better; so a better candidate is always selected by more pairs. -/
theorem C77_nsga2 (s : Nsga2 K) (n : Nat) (hr : s.ranks.length = n) (hd : s.dists.length = n) (i : Nat) (hi : i < n) :
    Set.ncard {p ∈ IndexPairs n | s.select p.1 p.2 = some i} =
      ((Finset.range n).filter (fun k => CrowdedBetter s.ranks s.dists i k)).card +
      ((Finset.range n).filter (fun k => ¬ CrowdedBetter s.ranks s.dists k i)).card ∧
    Set.ncard (IndexPairs n) = n * n ∧
    ∀ j, j < n → CrowdedBetter s.ranks s.dists j i →
      Set.ncard {p ∈ IndexPairs n | s.select p.1 p.2 = some i} < Set.ncard {p ∈ IndexPairs n | s.select p.1 p.2 = some j} := by
  have hcount : ∀ i, i < n → Set.ncard {p ∈ IndexPairs n | s.select p.1 p.2 = some i} =
      ((Finset.range n).filter (fun k => CrowdedBetter s.ranks s.dists i k)).card +
      ((Finset.range n).filter (fun k => ¬ CrowdedBetter s.ranks s.dists k i)).card := by
    intro i hi
    rw [← duel_count n (CrowdedBetter s.ranks s.dists) i hi (crowdedBetter_irrefl _ _ i)]
    congr 1
    ext ⟨a, b⟩
    simp only [IndexPairs, Set.mem_setOf_eq]
    constructor
    · rintro ⟨⟨h1, h2⟩, h⟩
      exact ⟨⟨h1, h2⟩, (nsga2_select_iff s n hr hd a b i h1 h2).mp h⟩
    · rintro ⟨⟨h1, h2⟩, h⟩
      exact ⟨⟨h1, h2⟩, (nsga2_select_iff s n hr hd a b i h1 h2).mpr h⟩
  refine ⟨hcount i hi, ?_, ?_⟩
  · have : IndexPairs n = ((Finset.range n ×ˢ Finset.range n : Finset (Nat × Nat)) : Set (Nat × Nat)) := by
      ext ⟨a, b⟩
      simp [IndexPairs]
    rw [this, Set.ncard_coe_finset, Finset.card_product, Finset.card_range]
  · intro j hj hji
    rw [hcount i hi, hcount j hj]
    apply add_lt_add_of_lt_of_le
    · apply Finset.card_lt_card
      rw [Finset.ssubset_iff_of_subset]
      · exact ⟨i, by simp [hi, hji], by simp [crowdedBetter_irrefl]⟩
      · intro k
        simp only [Finset.mem_filter]
        exact fun h => ⟨h.1, crowdedBetter_trans _ _ hji h.2⟩
    · apply Finset.card_le_card
      intro k
      simp only [Finset.mem_filter]
      exact fun h => ⟨h.1, fun h' => h.2 (crowdedBetter_trans _ _ h' hji)⟩

/-- Four candidates: one with rank 0, two with rank 1 and different distances, one with rank 2. The first one is selected by 7 of the 16 pairs, the others by 5, 3 and 1. -/
example : ∀ i : Fin 4, ((List.range 4 ×ˢ List.range 4).filter (fun p => (⟨[1, 0, 1, 2], [2, 3, 1, 5]⟩ : Nsga2 ℚ).select p.1 p.2 = some i.1)).length =
    [5, 7, 3, 1].getD i.1 0 := by decide +kernel

/-! ### NSGA-III -/

/-- The candidate `i` is better than `k` for NSGA-III: they belong to the same reference line, and `i` has a lower rank, or the same rank and is closer to the line. -/
def NicheBetter (info : List (CandInfo K)) (i k : Nat) : Prop :=
  ∃ a b, info[i]? = some a ∧ info[k]? = some b ∧ a.refIdx = b.refIdx ∧ (a.rank < b.rank ∨ (a.rank = b.rank ∧ a.refDist < b.refDist))

/-- The candidates belong to different reference lines. -/
def OtherNiche (info : List (CandInfo K)) (i k : Nat) : Prop :=
  ∃ a b, info[i]? = some a ∧ info[k]? = some b ∧ a.refIdx ≠ b.refIdx

/-- The possible pairs of random indices and a random bit. All of them are equally likely. -/
def IndexPairsCoin (n : Nat) : Set ((Nat × Nat) × Bool) := {p | p.1.1 < n ∧ p.1.2 < n}

omit [Field K] [IsStrictOrderedRing K] in
theorem nsga3_select_iff (s : Nsga3 K) (n : Nat) (hn : s.info.length = n) (coin : Bool) (a b k : Nat) (ha : a < n) (hb : b < n) :
    s.select coin a b = some k ↔ ((NicheBetter s.info a b ∨ (OtherNiche s.info a b ∧ coin = true)) ∧ k = a) ∨
      (¬ (NicheBetter s.info a b ∨ (OtherNiche s.info a b ∧ coin = true)) ∧ k = b) := by
  have e1 : s.info[a]? = some (s.info[a]'(by omega)) := List.getElem?_eq_getElem _
  have e2 : s.info[b]? = some (s.info[b]'(by omega)) := List.getElem?_eq_getElem _
  generalize s.info[a]'(by omega) = x at e1
  generalize s.info[b]'(by omega) = y at e2
  have h1 : NicheBetter s.info a b ↔ x.refIdx = y.refIdx ∧ (x.rank < y.rank ∨ (x.rank = y.rank ∧ x.refDist < y.refDist)) := by
    unfold NicheBetter; rw [e1, e2]; simp
  have h2 : OtherNiche s.info a b ↔ x.refIdx ≠ y.refIdx := by
    unfold OtherNiche; rw [e1, e2]; simp
  rw [h1, h2]
  obtain ⟨w, hw, hwi⟩ : ∃ w, nichedCompare s.info coin a b = some w ∧
      (w = true ↔ (x.refIdx = y.refIdx ∧ (x.rank < y.rank ∨ (x.rank = y.rank ∧ x.refDist < y.refDist)) ∨ (x.refIdx ≠ y.refIdx ∧ coin = true))) := by
    unfold nichedCompare
    simp only [e1, e2, Option.bind_eq_bind, Option.bind_some]
    by_cases hr : x.refIdx = y.refIdx
    · rw [if_pos hr]
      by_cases hk : x.rank = y.rank
      · rw [if_neg (by simpa using hk)]
        exact ⟨_, rfl, by simp [hr, hk]⟩
      · rw [if_pos hk]
        exact ⟨_, rfl, by simp [hr, hk]⟩
    · rw [if_neg hr]
      exact ⟨_, rfl, by simp [hr]⟩
  rw [← hwi]
  simp only [Nsga3.select, hw, Option.bind_eq_bind, Option.bind_some, Option.pure_def, Option.some.injEq]
  cases w with
  | false => simp [eq_comm]
  | true => simp [eq_comm]

omit [Field K] [IsStrictOrderedRing K] in
theorem nicheBetter_irrefl (info : List (CandInfo K)) (i : Nat) : ¬ NicheBetter info i i := by
  rintro ⟨a, b, h1, h2, _, h⟩
  rw [h1] at h2
  cases h2
  rcases h with h | h
  · omega
  · exact lt_irrefl _ h.2

omit [Field K] [IsStrictOrderedRing K] in
theorem nicheBetter_trans (info : List (CandInfo K)) {i j k : Nat} (h : NicheBetter info i j) (h' : NicheBetter info j k) : NicheBetter info i k := by
  obtain ⟨a, b, h1, h2, h3, h⟩ := h
  obtain ⟨b', c, h1', h2', h3', h'⟩ := h'
  rw [h2] at h1'
  cases h1'
  refine ⟨a, c, h1, h2', by omega, ?_⟩
  rcases h with h | h
  · rcases h' with h' | h'
    · left; omega
    · left; omega
  · rcases h' with h' | h'
    · left; omega
    · right; exact ⟨by omega, lt_trans h.2 h'.2⟩

open Classical in
omit [Field K] [IsStrictOrderedRing K] in
/-- **C77 (NSGA-III).** The number of the equally likely outcomes, pairs of random indices and a random bit, that select the candidate `i` is twice the number of the candidates that
are worse plus twice the number of those that are not better, where only candidates of the same reference line are compared. So of two candidates of a
reference line the better one is selected more often. -/
theorem C77_nsga3 (s : Nsga3 K) (n : Nat) (hn : s.info.length = n) (i : Nat) (hi : i < n) :
    Set.ncard {p ∈ IndexPairsCoin n | s.select p.2 p.1.1 p.1.2 = some i} =
      2 * (((Finset.range n).filter (fun k => NicheBetter s.info i k)).card + ((Finset.range n).filter (fun k => ¬ NicheBetter s.info k i)).card) ∧
    Set.ncard (IndexPairsCoin n) = 2 * (n * n) ∧
    ∀ j, j < n → NicheBetter s.info j i →
      Set.ncard {p ∈ IndexPairsCoin n | s.select p.2 p.1.1 p.1.2 = some i} < Set.ncard {p ∈ IndexPairsCoin n | s.select p.2 p.1.1 p.1.2 = some j} := by
  have hfin : (IndexPairs n).Finite := by
    apply Set.Finite.subset (Finset.finite_toSet (Finset.range n ×ˢ Finset.range n))
    rintro ⟨a, b⟩ h
    simpa [IndexPairs] using h
  have hsplit : ∀ P : Bool → Nat × Nat → Prop, Set.ncard {p ∈ IndexPairsCoin n | P p.2 p.1} =
      Set.ncard {p ∈ IndexPairs n | P true p} + Set.ncard {p ∈ IndexPairs n | P false p} := by
    intro P
    have e : {p ∈ IndexPairsCoin n | P p.2 p.1} = (fun p => (p, true)) '' {p ∈ IndexPairs n | P true p} ∪ (fun p => (p, false)) '' {p ∈ IndexPairs n | P false p} := by
      ext ⟨p, c⟩
      simp only [Set.mem_union, Set.mem_image, Set.mem_setOf_eq, Prod.mk.injEq, IndexPairsCoin, IndexPairs]
      cases c <;> simp
    rw [e, Set.ncard_union_eq ?_ ((hfin.subset (Set.sep_subset _ _)).image _) ((hfin.subset (Set.sep_subset _ _)).image _), Set.ncard_image_of_injective,
      Set.ncard_image_of_injective]
    · intro a b h; simpa using h
    · intro a b h; simpa using h
    · rw [Set.disjoint_left]
      rintro _ ⟨a, _, rfl⟩ ⟨b, _, hb⟩
      simp at hb
  have hother : ∀ a b, OtherNiche s.info a b ↔ OtherNiche s.info b a := by
    intro a b
    constructor <;> rintro ⟨x, y, h1, h2, h3⟩ <;> exact ⟨y, x, h2, h1, h3.symm⟩
  have hno : ∀ a b, OtherNiche s.info a b → ¬ NicheBetter s.info a b := by
    rintro a b ⟨x, y, h1, h2, h3⟩ ⟨x', y', h1', h2', h3', _⟩
    rw [h1] at h1'
    rw [h2] at h2'
    cases h1'
    cases h2'
    exact h3 h3'
  have hcount : ∀ i, i < n → Set.ncard {p ∈ IndexPairsCoin n | s.select p.2 p.1.1 p.1.2 = some i} =
      2 * (((Finset.range n).filter (fun k => NicheBetter s.info i k)).card + ((Finset.range n).filter (fun k => ¬ NicheBetter s.info k i)).card) := by
    intro i hi
    have hone : ∀ coin, Set.ncard {p ∈ IndexPairs n | s.select coin p.1 p.2 = some i} =
        ((Finset.range n).filter (fun k => NicheBetter s.info i k ∨ (OtherNiche s.info i k ∧ coin = true))).card +
        ((Finset.range n).filter (fun k => ¬ (NicheBetter s.info k i ∨ (OtherNiche s.info k i ∧ coin = true)))).card := by
      intro coin
      refine (Eq.trans ?_ (duel_count n (fun a b => NicheBetter s.info a b ∨ (OtherNiche s.info a b ∧ coin = true)) i hi ?_)).trans (by congr!)
      · congr 1
        ext ⟨a, b⟩
        simp only [IndexPairs, Set.mem_setOf_eq]
        constructor
        · rintro ⟨⟨h1, h2⟩, h⟩
          exact ⟨⟨h1, h2⟩, (nsga3_select_iff s n hn coin a b i h1 h2).mp h⟩
        · rintro ⟨⟨h1, h2⟩, h⟩
          exact ⟨⟨h1, h2⟩, (nsga3_select_iff s n hn coin a b i h1 h2).mpr h⟩
      · rintro (h | h)
        · exact nicheBetter_irrefl _ _ h
        · obtain ⟨⟨x, y, h1, h2, h3⟩, _⟩ := h
          rw [h1] at h2
          cases h2
          exact h3 rfl
    rw [hsplit (fun c p => s.select c p.1 p.2 = some i), hone true, hone false]
    simp only [and_true, Bool.false_eq_true, and_false, or_false]
    have e1 : ((Finset.range n).filter (fun k => NicheBetter s.info i k ∨ OtherNiche s.info i k)).card =
        ((Finset.range n).filter (fun k => NicheBetter s.info i k)).card + ((Finset.range n).filter (fun k => OtherNiche s.info i k)).card := by
      rw [Finset.filter_or, Finset.card_union_of_disjoint]
      rw [Finset.disjoint_filter]
      exact fun k _ h1 h2 => hno i k h2 h1
    have e2 : ((Finset.range n).filter (fun k => ¬ NicheBetter s.info k i)).card =
        ((Finset.range n).filter (fun k => ¬ (NicheBetter s.info k i ∨ OtherNiche s.info k i))).card + ((Finset.range n).filter (fun k => OtherNiche s.info i k)).card := by
      rw [← Finset.card_union_of_disjoint]
      · congr 1
        ext k
        simp only [Finset.mem_union, Finset.mem_filter, not_or]
        have := hno k i
        have := hother i k
        tauto
      · rw [Finset.disjoint_filter]
        intro k _ h1 h2
        exact h1 (Or.inr ((hother i k).mp h2))
    rw [e1, e2]
    omega
  refine ⟨hcount i hi, ?_, ?_⟩
  · have h1 := hsplit (fun _ _ => True)
    have h2 : IndexPairs n = ((Finset.range n ×ˢ Finset.range n : Finset (Nat × Nat)) : Set (Nat × Nat)) := by
      ext ⟨a, b⟩
      simp [IndexPairs]
    have h3 : Set.ncard (IndexPairs n) = n * n := by
      rw [h2, Set.ncard_coe_finset, Finset.card_product, Finset.card_range]
    simp only [and_true, Set.setOf_mem_eq, h3] at h1
    omega
  · intro j hj hji
    rw [hcount i hi, hcount j hj]
    apply Nat.mul_lt_mul_of_pos_left _ (by decide)
    apply add_lt_add_of_lt_of_le
    · apply Finset.card_lt_card
      rw [Finset.ssubset_iff_of_subset]
      · exact ⟨i, by simp [hi, hji], by simp [nicheBetter_irrefl]⟩
      · intro k
        simp only [Finset.mem_filter]
        exact fun h => ⟨h.1, nicheBetter_trans _ hji h.2⟩
    · apply Finset.card_le_card
      intro k
      simp only [Finset.mem_filter]
      exact fun h => ⟨h.1, fun h' => h.2 (nicheBetter_trans _ h' hji)⟩

/-- Four candidates, three of them of the reference line 0. Of the 32 outcomes, 12, 8 and 4 select these three, and 8 select the candidate of the other line. -/
example : ∀ i : Fin 4, (((List.range 4 ×ˢ List.range 4) ×ˢ [true, false]).filter (fun p =>
    (⟨[], [⟨0, 0, 1⟩, ⟨1, 0, 1⟩, ⟨1, 0, 2⟩, ⟨7, 1, 1⟩], [], [], [], []⟩ : Nsga3 ℚ).select p.2 p.1.1 p.1.2 = some i.1)).length = [12, 8, 4, 8].getD i.1 0 := by
  decide +kernel
end

/-! ### Selection by weights -/

open MeasureTheory in
/-- **C77 (selection by weights).** If the random number is uniform on `[0, 1)`, the probability that a candidate is selected is the share of its weight in the sum of the weights; if all weights
are 0 the candidates are equally likely. -/
theorem C77_share (w : List ℝ) (select : ℝ → Option Nat) (h : SelectsByWeight w select) (hw : ∀ x ∈ w, 0 ≤ x) (i : Nat) (wi : ℝ) (hi : w[i]? = some wi) :
    volume {r | 0 ≤ r ∧ r < 1 ∧ select r = some i} = ENNReal.ofReal (if w.sum = 0 then 1 / w.length else wi / w.sum) := by
  have hil := (List.getElem?_eq_some_iff.mp hi).1
  have key : ∀ a b : ℝ, 0 ≤ a → b ≤ 1 → (∀ r, 0 < r → r < 1 → (select r = some i ↔ a < r ∧ r ≤ b)) →
      volume {r | 0 ≤ r ∧ r < 1 ∧ select r = some i} = ENNReal.ofReal (b - a) := by
    intro a b ha hb hsel
    apply le_antisymm
    · have hsub : {r | 0 ≤ r ∧ r < 1 ∧ select r = some i} ⊆ Set.Ioc a b ∪ {0} := by
        rintro r ⟨h0, h1, h2⟩
        rcases eq_or_lt_of_le h0 with h | h
        · right; exact h.symm
        · left; exact (hsel r h h1).mp h2
      calc volume {r | 0 ≤ r ∧ r < 1 ∧ select r = some i} ≤ volume (Set.Ioc a b ∪ {0}) := measure_mono hsub
        _ ≤ volume (Set.Ioc a b) + volume ({0} : Set ℝ) := measure_union_le _ _
        _ = ENNReal.ofReal (b - a) := by rw [Real.volume_Ioc, Real.volume_singleton, add_zero]
    · have hsub : Set.Ioo a b ⊆ {r | 0 ≤ r ∧ r < 1 ∧ select r = some i} := by
        rintro r ⟨h1, h2⟩
        have h3 : 0 < r := lt_of_le_of_lt ha h1
        have h4 : r < 1 := lt_of_lt_of_le h2 hb
        exact ⟨le_of_lt h3, h4, (hsel r h3 h4).mpr ⟨h1, le_of_lt h2⟩⟩
      calc ENNReal.ofReal (b - a) = volume (Set.Ioo a b) := by rw [Real.volume_Ioo]
        _ ≤ _ := measure_mono hsub
  have hnn : ∀ l : List ℝ, (∀ x ∈ l, 0 ≤ x) → 0 ≤ l.sum := fun l hl => List.sum_nonneg hl
  by_cases hs : w.sum = 0
  · rw [if_pos hs]
    have hlen : (0 : ℝ) < w.length := by exact_mod_cast (by omega : 0 < w.length)
    rw [key (i / w.length) ((i + 1) / w.length)]
    · congr 1
      field_simp
      ring
    · positivity
    · rw [div_le_one hlen]
      exact_mod_cast hil
    · intro r h0 h1
      rw [h.uniform hs r h0 h1 i, div_lt_iff₀ hlen, le_div_iff₀ hlen]
      exact ⟨fun h => h.2, fun h => ⟨hil, h⟩⟩
  · rw [if_neg hs]
    have hpos : 0 < w.sum := lt_of_le_of_ne (hnn w hw) (Ne.symm hs)
    have hsplit : w.sum = (w.take (i + 1)).sum + (w.drop (i + 1)).sum := by
      rw [← List.sum_append, List.take_append_drop]
    have hstep : (w.take (i + 1)).sum = (w.take i).sum + wi := by
      rw [List.take_add_one, hi]
      simp
    rw [key ((w.take i).sum / w.sum) ((w.take (i + 1)).sum / w.sum)]
    · congr 1
      rw [hstep]
      field_simp
      ring
    · exact div_nonneg (hnn _ (fun x hx => hw x (List.mem_of_mem_take hx))) (le_of_lt hpos)
    · rw [div_le_one hpos, hsplit]
      have := hnn (w.drop (i + 1)) (fun x hx => hw x (List.mem_of_mem_drop hx))
      linarith
    · intro r h0 h1
      rw [h.share hpos r h0 h1 i, div_lt_iff₀ hpos, le_div_iff₀ hpos]
      exact ⟨fun h => h.2, fun h => ⟨hil, h⟩⟩

open MeasureTheory in
/-- A selection method never selects a candidate with a lower probability than a worse one. -/
def FavoursTheFitter (f : List ℝ) (select : ℝ → Option Nat) : Prop :=
  ∀ (i j : Nat) (fi fj : ℝ), f[i]? = some fi → f[j]? = some fj → fi < fj →
    volume {r | 0 ≤ r ∧ r < 1 ∧ select r = some i} ≤ volume {r | 0 ≤ r ∧ r < 1 ∧ select r = some j}

theorem favours_of_weights {f w : List ℝ} {select : ℝ → Option Nat} (h : SelectsByWeight w select) (hf : WeightsFollowFitness f w) : FavoursTheFitter f select := by
  obtain ⟨hl, hnn, hmono⟩ := hf
  intro i j fi fj hi hj hlt
  have hil := (List.getElem?_eq_some_iff.mp hi).1
  have hjl := (List.getElem?_eq_some_iff.mp hj).1
  have ewi : w[i]? = some (w[i]'(by omega)) := List.getElem?_eq_getElem _
  have ewj : w[j]? = some (w[j]'(by omega)) := List.getElem?_eq_getElem _
  rw [C77_share w select h hnn i _ ewi, C77_share w select h hnn j _ ewj]
  apply ENNReal.ofReal_le_ofReal
  split
  · exact le_rfl
  · exact div_le_div_of_nonneg_right (hmono i j fi fj _ _ hi hj ewi ewj hlt) (List.sum_nonneg hnn)

/-- **C77 (roulette, sigma, Boltzmann and rank selection).** None of these methods ever selects a candidate with a lower probability than a worse one: for all fitness
values (roulette: within the range of the type) and all parameters; rank selection in populations of two or more candidates. -/
theorem C77_favours_the_fitter (f : List ℝ) (hne : f ≠ []) (small large : ℝ) (hs : 0 < small) (hl : small ≤ large) :
    ((∀ x ∈ f, -large ≤ x ∧ x ≤ large) → FavoursTheFitter f (rouletteSelect small large f)) ∧
    (∀ sqrt : ℝ → ℝ, FavoursTheFitter f (sigmaSelect sqrt small large f)) ∧
    (∀ temperature : ℝ, 0 < temperature → FavoursTheFitter f (boltzmannSelect Real.exp small large temperature f)) ∧
    (∀ (minW maxW : ℝ) (indices : List Nat), 0 ≤ minW → minW ≤ maxW → maxW ≤ large → 2 ≤ f.length →
      IsArgsortOf false (fun a b => decide (a < b)) f indices → FavoursTheFitter f (rankSelect small large minW maxW indices)) := by
  refine ⟨?_, ?_, ?_, ?_⟩
  · intro hf
    obtain ⟨w, h1, h2, _⟩ := C29_roulette small large hs f hne hf
    exact favours_of_weights h1 h2
  · intro sqrt
    obtain ⟨w, h1, h2⟩ := C29_sigma sqrt small large hs hl f hne
    exact favours_of_weights h1 h2
  · intro t ht
    obtain ⟨w, h1, h2, _⟩ := C29_boltzmann Real.exp Real.exp_pos (fun x y h => Real.exp_le_exp.mpr h) small large t hs hl ht f hne
    exact favours_of_weights h1 h2
  · intro minW maxW indices h0 h1 h2 hn hsort
    obtain ⟨w, h1, h2, _⟩ := C29_rank_partial small large minW maxW hs h0 h1 h2 f hn indices hsort
    exact favours_of_weights h1 h2

open MeasureTheory in
/-- **C77 (roulette).** If no fitness value is negative and they are not all 0, the probability of a candidate is the share of its fitness in the sum of the fitness values. -/
theorem C77_roulette (f : List ℝ) (small large : ℝ) (hs : 0 < small) (hf : ∀ x ∈ f, 0 ≤ x ∧ x ≤ large) (hsum : 0 < f.sum)
    (i : Nat) (fi : ℝ) (hi : f[i]? = some fi) :
    volume {r | 0 ≤ r ∧ r < 1 ∧ rouletteSelect small large f r = some i} = ENNReal.ofReal (fi / f.sum) := by
  have hne : f ≠ [] := by rintro rfl; simp at hi
  have hl0 : 0 ≤ large := by
    obtain ⟨h1, h2⟩ := hf fi (List.mem_of_getElem? hi)
    linarith
  obtain ⟨w, h1, h2, h3, _⟩ := C29_roulette small large hs f hne (fun x hx => ⟨by linarith [(hf x hx).1], (hf x hx).2⟩)
  have hwf := h3 (fun x hx => (hf x hx).1)
  subst hwf
  rw [C77_share w _ h1 h2.2.1 i fi hi, if_neg (ne_of_gt hsum)]

open MeasureTheory in
/-- The fitness values 1, 5, 2, 0: the second candidate is selected with the probability 5/8. -/
example : volume {r | 0 ≤ r ∧ r < 1 ∧ rouletteSelect (1 / 1000 : ℝ) 1000 [1, 5, 2, 0] r = some 1} = ENNReal.ofReal (5 / 8) := by
  have h := C77_roulette [1, 5, 2, 0] (1 / 1000) 1000 (by norm_num) (by
    intro x hx
    simp only [List.mem_cons, List.not_mem_nil, or_false] at hx
    rcases hx with rfl | rfl | rfl | rfl <;> norm_num) (by norm_num) 1 5 rfl
  rw [h]
  norm_num

end Gapp.Props
