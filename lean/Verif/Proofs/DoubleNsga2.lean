import Mathlib.Tactic.NormNum
import Mathlib.Tactic.Linarith
import Mathlib.Tactic.Ring
import Verif.Spec.DoubleMulti
import Verif.Proofs.DblOrder
import Verif.Proofs.DoubleOps
import Verif.Proofs.Nsga2
/-! # Proofs about crowding distances in binary64 arithmetic -/

namespace Gapp.Model
open Gapp.Spec Gapp.Props Dbl

theorem eps8D_eq : eps8D = roundD (1 / 10 ^ 8) := by rw [eps8D]; norm_num

theorem eps8D_pos : ∃ e : ℚ, eps8D = .fin e ∧ 0 < e ∧ e ≤ 1 := by
  have h1 : roundQ (1 / 100000000) ≤ 1 := roundQ_le_of_binary53 (by norm_num) ⟨1, 0, by norm_num, by norm_num, by norm_num⟩
  have h2 : (2 : ℚ) ^ (-27 : ℤ) ≤ roundQ (1 / 100000000) := le_roundQ_of_binary53 (by norm_num) (isBinary53_zpow (by norm_num))
  have h3 : (0 : ℚ) < 2 ^ (-27 : ℤ) := by positivity
  refine ⟨roundQ (1 / 100000000), roundD_fin (lt_two_pow_1024 (k := 0) (by norm_num) (by simpa using h1)) (lt_of_lt_of_le (neg_neg_iff_pos.mpr (by positivity)) (h3.le.trans h2)), by linarith, h1⟩

theorem moderate_ne_nan {v : Dbl} (h : ModerateD v) : v ≠ nan := by
  obtain ⟨x, rfl, -⟩ := h; simp

theorem nonneg_ne_nan {v : Dbl} (h : NonnegD v) : v ≠ nan := by
  rcases h with rfl | ⟨x, rfl, -⟩ <;> simp

theorem le_of_not_lt {a b : Dbl} (ha : a ≠ nan) (hb : b ≠ nan) (h : Dbl.lt b a = false) : Dbl.le a b = true := by
  rw [le_iff_key ha hb, ← not_lt, ← lt_iff_key hb ha, h]; simp

theorem nonneg_roundD {x : ℚ} (h : 0 ≤ x) : NonnegD (roundD x) := by
  rcases nonneg_cases (le_zero_roundD h) with h | h
  · exact Or.inl h
  · exact Or.inr h

theorem nonneg_add {a b : Dbl} (ha : NonnegD a) (hb : NonnegD b) : NonnegD (add a b) := by
  rcases ha with rfl | ⟨x, rfl, hx⟩ <;> rcases hb with rfl | ⟨y, rfl, hy⟩
  · exact Or.inl rfl
  · exact Or.inl rfl
  · exact Or.inl rfl
  · exact nonneg_roundD (add_nonneg hx hy)

theorem add_pinf {a : Dbl} (ha : NonnegD a) : add a pinf = pinf := by
  rcases ha with rfl | ⟨x, rfl, hx⟩ <;> rfl

/-- The difference of two moderate numbers is a number. -/
theorem sub_moderate {a b : Dbl} (ha : ModerateD a) (hb : ModerateD b) (h : Dbl.lt a b = false) : ∃ x : ℚ, sub a b = .fin x ∧ 0 ≤ x := by
  obtain ⟨x, rfl, hx⟩ := ha
  obtain ⟨y, rfl, hy⟩ := hb
  have hxy : y ≤ x := by simpa [Dbl.lt] using h
  rw [abs_le] at hx hy
  have hmax : IsBinary53 (2 ^ 1024 - 2 ^ 971) := ⟨2 ^ 53 - 1, 971, by norm_num, by norm_num, by
    rw [show (1024 : ℕ) = 53 + 971 by norm_num, pow_add, show (2 : ℚ) ^ (971 : ℤ) = 2 ^ 971 from zpow_natCast 2 971]; push_cast; ring⟩
  have h1 : roundQ (x - y) ≤ 2 ^ 1024 - 2 ^ 971 := roundQ_le_of_binary53 (by
    have e1 : (2 : ℚ) ^ 1024 = 2 ^ 1023 * 2 := pow_succ 2 1023
    have e2 : (2 : ℚ) ^ 971 = 2 ^ 970 * 2 := pow_succ 2 970
    rw [e1, e2]; linarith [hx.2, hy.1]) hmax
  have h0 : 0 ≤ roundQ (x - y) := roundQ_nonneg (by linarith)
  refine ⟨roundQ (x - y), ?_, h0⟩
  rw [sub_eq_roundD]
  exact roundD_fin (lt_of_le_of_lt h1 (sub_lt_self _ (by positivity))) (lt_of_lt_of_le (neg_neg_iff_pos.mpr (by positivity)) h0)

theorem max_eps8D {x : ℚ} : ∃ m : ℚ, Dbl.max (.fin x) eps8D = .fin m ∧ ∃ e : ℚ, 0 < e ∧ eps8D = .fin e ∧ e ≤ m := by
  obtain ⟨e, he, h0, -⟩ := eps8D_pos
  rw [he]
  simp only [Dbl.max, Dbl.lt, decide_eq_true_eq]
  split
  · exact ⟨e, rfl, e, h0, rfl, le_refl _⟩
  · exact ⟨x, rfl, e, h0, rfl, by linarith⟩

theorem divR_nonneg (recip : Bool) {x m : ℚ} (hx : 0 ≤ x) (hm : 2 ^ (-27 : ℤ) ≤ m) : NonnegD (divR recip (.fin x) (.fin m)) := by
  have hm0 : 0 < m := lt_of_lt_of_le (by positivity) hm
  unfold divR
  split
  · have hd : Dbl.div (.fin 1) (.fin m) = roundD (1 / m) := by simp [Dbl.div, hm0.ne']
    have hle : 1 / m ≤ 2 ^ (27 : ℤ) := by
      rw [div_le_iff₀ hm0]
      calc (1 : ℚ) = 2 ^ (27 : ℤ) * 2 ^ (-27 : ℤ) := by norm_num
        _ ≤ _ := by gcongr
    have h0 : 0 ≤ 1 / m := by positivity
    have hr := roundQ_le_of_binary53 hle (isBinary53_zpow (by norm_num))
    have hf : roundD (1 / m) = .fin (roundQ (1 / m)) := roundD_fin (lt_two_pow_1024 (by norm_num) hr) (lt_of_lt_of_le (neg_neg_iff_pos.mpr (by positivity)) (roundQ_nonneg h0))
    rw [hd, hf]
    exact nonneg_roundD (mul_nonneg hx (roundQ_nonneg h0))
  · simp only [Dbl.div, hm0.ne', if_false]
    exact nonneg_roundD (by positivity)

/-- The gap inside a front. -/
theorem gapD_nonneg (recip : Bool) {next prev last first : Dbl} (h1 : ModerateD next) (h2 : ModerateD prev) (h3 : ModerateD last) (h4 : ModerateD first)
    (h : Dbl.lt next prev = false) (h' : Dbl.lt last first = false) : NonnegD (divR recip (sub next prev) (Dbl.max (sub last first) eps8D)) := by
  obtain ⟨x, hx, hx0⟩ := sub_moderate h1 h2 h
  obtain ⟨y, hy, hy0⟩ := sub_moderate h3 h4 h'
  obtain ⟨m, hm, e, he0, he, hem⟩ := max_eps8D (x := y)
  rw [hx, hy, hm]
  refine divR_nonneg recip hx0 (le_trans ?_ hem)
  obtain ⟨e', he', -⟩ := eps8D_pos
  have : roundD (1 / 100000000) = .fin e := he
  rw [roundD_fin_iff] at this
  rw [this.1]
  exact le_roundQ_of_binary53 (by norm_num) (isBinary53_zpow (by norm_num))

/-- The gap of `i`, as it is computed. -/
def gapIdxD (recip : Bool) (val : Nat → Dbl) (order : List Nat) (i : Nat) : Dbl :=
  let k := order.idxOf i
  if k = 0 ∨ k + 1 = order.length then pinf
  else divR recip (sub (val (order.getD (k + 1) 0)) (val (order.getD (k - 1) 0))) (Dbl.max (sub (val (order.getD (order.length - 1) 0)) (val (order.getD 0 0))) eps8D)

theorem isGapD_gapIdx (recip : Bool) (val : Nat → Dbl) (order : List Nat) (i : Nat) (hi : i ∈ order) : IsGapD recip val order i (gapIdxD recip val order i) := by
  have hk : order.idxOf i < order.length := List.idxOf_lt_length_iff.mpr hi
  refine ⟨order.idxOf i, ?_, ?_⟩
  · rw [List.getElem?_eq_getElem hk, List.getElem_idxOf]
  · unfold gapIdxD
    simp only
    split
    · rename_i h; exact Or.inl ⟨h, rfl⟩
    · rename_i h
      have hg : ∀ j, j < order.length → order[j]? = some (order.getD j 0) := by
        intro j hj
        rw [List.getElem?_eq_getElem hj, List.getD_eq_getElem?_getD, List.getElem?_eq_getElem hj]; rfl
      exact Or.inr ⟨_, _, _, _, by omega, hg _ (by omega), hg _ (by omega), hg _ (by omega), hg _ (by omega), by rw [eps8D_eq]⟩

/-- The value read from a column. -/
def colValD (fvec : List Dbl) (i : Nat) : Dbl := fvec.getD i (.fin 0)

theorem colValD_get (fvec : List Dbl) (i : Nat) (h : i < fvec.length) : fvec[i]? = some (colValD fvec i) := by
  rw [List.getElem?_eq_getElem h, colValD, List.getD_eq_getElem?_getD, List.getElem?_eq_getElem h]; rfl

theorem colValD_moderate (fvec : List Dbl) (h : ∀ v ∈ fvec, ModerateD v) (i : Nat) : ModerateD (colValD fvec i) := by
  by_cases hi : i < fvec.length
  · have := colValD_get fvec i hi
    exact h _ (List.mem_of_getElem? this)
  · refine ⟨0, ?_, by rw [abs_zero, sub_nonneg]; exact pow_le_pow_right₀ (by norm_num) (by norm_num)⟩
    simp [colValD, List.getD_eq_getElem?_getD, List.getElem?_eq_none (not_lt.mp hi)]

theorem swo_of_dblKey {α : Type} (f : α → Dbl) (h : ∀ a, f a ≠ nan) : StrictWeakOrder (fun a b => Dbl.lt (f a) (f b)) := by
  have := swo_of_key (fun a => dblKey (f a))
  have heq : (fun a b => Dbl.lt (f a) (f b)) = (fun a b => decide (dblKey (f a) < dblKey (f b))) := by
    funext a b
    rw [Bool.eq_iff_iff, lt_iff_key (h a) (h b)]; simp
  rw [heq]; exact this

theorem swo_of_dblKey_gt {α : Type} (f : α → Dbl) (h : ∀ a, f a ≠ nan) : StrictWeakOrder (fun a b => Dbl.lt (f b) (f a)) := by
  have := swo_of_dblKey f h
  exact ⟨fun a => this.irrefl a, fun a b c h1 h2 => this.trans c b a h2 h1, fun a b c h1 h2 h3 h4 => this.incomp c b a h3 h4 h1 h2⟩

theorem objectiveLessD_swo (fvec : List Dbl) (h : ∀ v ∈ fvec, ModerateD v) : StrictWeakOrder (objectiveLessD fvec) :=
  swo_of_dblKey (fun e : Nat × Nat => colValD fvec e.1) (fun e => moderate_ne_nan (colValD_moderate fvec h e.1))

theorem gapIdxD_nonneg (recip : Bool) (val : Nat → Dbl) (hv : ∀ i, ModerateD (val i)) (order : List Nat) (ho : order.Pairwise (fun a b => Dbl.lt (val b) (val a) = false)) (i : Nat) (hi : i ∈ order) :
    NonnegD (gapIdxD recip val order i) := by
  unfold gapIdxD
  simp only
  have hself : ∀ a : Dbl, Dbl.lt a a = false := by intro a; cases a <;> simp [Dbl.lt]
  have hmono : ∀ p q, p ≤ q → q < order.length → Dbl.lt (val (order.getD q 0)) (val (order.getD p 0)) = false := by
    intro p q hpq hq
    have hp : p < order.length := by omega
    rcases Nat.lt_or_eq_of_le hpq with h | rfl
    · have := List.pairwise_iff_getElem.mp ho p q hp hq h
      simpa [List.getD_eq_getElem?_getD, hp, hq] using this
    · exact hself _
  split
  · exact Or.inl rfl
  · rename_i h
    have hi : order.idxOf i < order.length := List.idxOf_lt_length_iff.mpr hi
    exact gapD_nonneg recip (hv _) (hv _) (hv _) (hv _) (hmono _ _ (by omega) (by omega)) (hmono _ _ (by omega) (by omega))

/-- The inner loop. -/
theorem crowdInnerD (recip : Bool) (fvec : List Dbl) (finterval : Dbl) (front : List (Nat × Nat)) (hnd : (front.map (·.1)).Nodup) (hlt : ∀ e ∈ front, e.1 < fvec.length)
    (dists : List Dbl) (hd : dists.length = fvec.length) : ∀ c, c + 2 ≤ front.length →
    ∃ d', (List.range' 1 c).foldlM (fun dists it => do
      let next ← front[it + 1]?
      let prev ← front[it - 1]?
      let cur ← front[it]?
      let fnext ← fvec[next.1]?
      let fprev ← fvec[prev.1]?
      let old ← dists[cur.1]?
      storeAt dists cur.1 (add old (divR recip (sub fnext fprev) finterval))) dists = some d' ∧ d'.length = dists.length ∧
      (∀ i, (∀ k e, 1 ≤ k → k ≤ c → front[k]? = some e → e.1 ≠ i) → d'[i]? = dists[i]?) ∧
      ∀ k (hk : 1 ≤ k) (hkc : k ≤ c) (hl : k + 1 < front.length), ∃ old, dists[front[k].1]? = some old ∧
        d'[front[k].1]? = some (add old (divR recip (sub (colValD fvec front[k + 1].1) (colValD fvec front[k - 1].1)) finterval)) := by
  intro c
  induction c with
  | zero => intro _; exact ⟨dists, by simp, rfl, fun _ _ => rfl, fun k hk hkc => by omega⟩
  | succ c ih =>
    intro hc
    obtain ⟨d, h1, h2, h3, h4⟩ := ih (by omega)
    have hmem : ∀ k (h : k < front.length), front[k].1 < fvec.length := fun k h => hlt _ (List.getElem_mem h)
    have hinj : ∀ j k (hj : j < front.length) (hk : k < front.length), front[j].1 = front[k].1 → j = k := by
      intro j k hj hk h
      have := (List.Nodup.getElem_inj_iff hnd (i := j) (j := k) (hi := by simpa using hj) (hj := by simpa using hk)).mp (by simpa using h)
      exact this
    have hcur : c + 1 < front.length := by omega
    have hold : d[front[c + 1].1]? = dists[front[c + 1].1]? := by
      apply h3
      intro k e hk hkc he heq
      obtain ⟨hl, rfl⟩ := List.getElem?_eq_some_iff.mp he
      have := hinj k (c + 1) hl hcur heq
      omega
    have hidx : front[c + 1].1 < d.length := by rw [h2, hd]; exact hmem _ hcur
    have hval : d[front[c + 1].1]? = some d[front[c + 1].1] := List.getElem?_eq_getElem hidx
    refine ⟨d.set front[c + 1].1 (add d[front[c + 1].1] (divR recip (sub (colValD fvec front[c + 1 + 1].1) (colValD fvec front[c + 1 - 1].1)) finterval)), ?_, by simpa using h2, ?_, ?_⟩
    · rw [List.range'_concat, List.foldlM_append, h1]
      simp only [Option.bind_eq_bind, Option.bind_some, List.foldlM_cons, List.foldlM_nil, one_mul]
      rw [show 1 + c = c + 1 by omega]
      simp only [List.getElem?_eq_getElem (show c + 1 + 1 < front.length by omega), List.getElem?_eq_getElem (show c + 1 - 1 < front.length by omega),
        List.getElem?_eq_getElem hcur, Option.bind_some, colValD_get fvec _ (hmem (c + 1 + 1) (by omega)), colValD_get fvec _ (hmem (c + 1 - 1) (by omega)), hval]
      rw [storeAt_eq _ _ _ hidx]
      rfl
    · intro i hi
      rw [List.getElem?_set_ne (hi (c + 1) _ (by omega) (by omega) (List.getElem?_eq_getElem hcur))]
      exact h3 i (fun k e hk hkc he => hi k e hk (by omega) he)
    · intro k hk hkc hl
      rcases Nat.lt_or_ge k (c + 1) with hlt' | hge
      · obtain ⟨old, ho1, ho2⟩ := h4 k hk (by omega) hl
        refine ⟨old, ho1, ?_⟩
        rw [List.getElem?_set_ne]
        · exact ho2
        · intro heq
          have := hinj (c + 1) k hcur (by omega) heq
          omega
      · obtain rfl : k = c + 1 := by omega
        exact ⟨d[front[c + 1].1], by rw [← hold, hval], by rw [List.getElem?_set_self hidx]⟩

/-- One front, one objective. -/
theorem crowdFrontD_spec (recip : Bool) (fvec : List Dbl) (front : List (Nat × Nat)) (hne : front ≠ []) (hnd : (front.map (·.1)).Nodup) (hlt : ∀ e ∈ front, e.1 < fvec.length)
    (dists : List Dbl) (hd : dists.length = fvec.length) (hnn : ∀ x ∈ dists, NonnegD x) :
    ∃ d', crowdFrontD recip fvec front dists = some d' ∧ d'.length = dists.length ∧ (∀ i, i ∉ front.map (·.1) → d'[i]? = dists[i]?) ∧
      ∀ i, i ∈ front.map (·.1) → ∃ old, dists[i]? = some old ∧ d'[i]? = some (add old (gapIdxD recip (colValD fvec) (front.map (·.1)) i)) := by
  have hpos : 0 < front.length := List.length_pos_iff.mpr hne
  have hmem : ∀ k (h : k < front.length), front[k].1 < fvec.length := fun k h => hlt _ (List.getElem_mem h)
  have hinj : ∀ j k (hj : j < front.length) (hk : k < front.length), front[j].1 = front[k].1 → j = k := by
    intro j k hj hk h
    exact (List.Nodup.getElem_inj_iff hnd (i := j) (j := k) (hi := by simpa using hj) (hj := by simpa using hk)).mp (by simpa using h)
  have hidx : ∀ k (h : k < front.length), (front.map (·.1)).idxOf front[k].1 = k := by
    intro k h
    have := hnd.idxOf_getElem k (by simpa using h)
    simpa using this
  set fint : Dbl := Dbl.max (sub (colValD fvec front[front.length - 1].1) (colValD fvec front[0].1)) eps8D with hfint
  set d1 : List Dbl := (dists.set front[0].1 pinf).set front[front.length - 1].1 pinf with hd1
  have hd1l : d1.length = dists.length := by simp [hd1]
  have hstep : crowdFrontD recip fvec front dists = (List.range' 1 (front.length - 2)).foldlM (fun dists it => do
      let next ← front[it + 1]?
      let prev ← front[it - 1]?
      let cur ← front[it]?
      let fnext ← fvec[next.1]?
      let fprev ← fvec[prev.1]?
      let old ← dists[cur.1]?
      storeAt dists cur.1 (add old (divR recip (sub fnext fprev) fint))) d1 := by
    unfold crowdFrontD
    rw [List.head?_eq_getElem?, List.getLast?_eq_getElem?, List.getElem?_eq_getElem hpos, List.getElem?_eq_getElem (show front.length - 1 < front.length by omega)]
    simp only [Option.bind_eq_bind, Option.bind_some, colValD_get fvec _ (hmem 0 hpos), colValD_get fvec _ (hmem (front.length - 1) (by omega)), ← hfint]
    rw [storeAt_eq _ _ _ (by rw [hd]; exact hmem 0 hpos)]
    simp only [Option.bind_some]
    rw [storeAt_eq _ _ _ (by rw [List.length_set, hd]; exact hmem _ (by omega))]
    simp only [Option.bind_some, ← hd1]
  have hget1 : ∀ i, i ≠ front[0].1 → i ≠ front[front.length - 1].1 → d1[i]? = dists[i]? := by
    intro i h0 hl
    rw [hd1, List.getElem?_set_ne (Ne.symm hl), List.getElem?_set_ne (Ne.symm h0)]
  have htop0 : d1[front[0].1]? = some pinf := by
    rw [hd1]
    by_cases h : front[front.length - 1].1 = front[0].1
    · rw [h, List.getElem?_set_self (by rw [List.length_set, hd]; exact hmem 0 hpos)]
    · rw [List.getElem?_set_ne h, List.getElem?_set_self (by rw [hd]; exact hmem 0 hpos)]
  have htopl : d1[front[front.length - 1].1]? = some pinf := by
    rw [hd1, List.getElem?_set_self (by rw [List.length_set, hd]; exact hmem _ (by omega))]
  have hold : ∀ k (h : k < front.length), dists[front[k].1]? = some (dists.getD front[k].1 (.fin 0)) := by
    intro k h
    have : front[k].1 < dists.length := by rw [hd]; exact hmem k h
    rw [List.getD_eq_getElem?_getD, List.getElem?_eq_getElem this]; rfl
  have holdn : ∀ k (h : k < front.length), NonnegD (dists.getD front[k].1 (.fin 0)) := fun k h => hnn _ (List.mem_of_getElem? (hold k h))
  by_cases hlen : front.length = 1
  · -- a single candidate
    refine ⟨d1, by rw [hstep, hlen]; simp, hd1l, ?_, ?_⟩
    · intro i hi
      apply hget1
      · intro h; exact hi (List.mem_map.mpr ⟨_, List.getElem_mem hpos, h.symm⟩)
      · intro h; exact hi (List.mem_map.mpr ⟨_, List.getElem_mem (by omega), h.symm⟩)
    · intro i hi
      obtain ⟨e, he, rfl⟩ := List.mem_map.mp hi
      obtain ⟨k, hk, rfl⟩ := List.getElem_of_mem he
      have hk0 : k = 0 := by omega
      subst hk0
      refine ⟨_, hold 0 hpos, ?_⟩
      rw [htop0]
      rw [show gapIdxD recip (colValD fvec) (front.map (·.1)) front[0].1 = pinf by simp [gapIdxD, hidx 0 hpos], add_pinf (holdn 0 hpos)]
  · obtain ⟨d', h1, h2, h3, h4⟩ := crowdInnerD recip fvec fint front hnd hlt d1 (by rw [hd1l, hd]) (front.length - 2) (by omega)
    refine ⟨d', by rw [hstep]; exact h1, by rw [h2, hd1l], ?_, ?_⟩
    · intro i hi
      rw [h3 i (fun k e _ _ he h => hi (List.mem_map.mpr ⟨e, List.mem_of_getElem? he, h⟩))]
      apply hget1
      · intro h; exact hi (List.mem_map.mpr ⟨_, List.getElem_mem hpos, h.symm⟩)
      · intro h; exact hi (List.mem_map.mpr ⟨_, List.getElem_mem (by omega), h.symm⟩)
    · intro i hi
      obtain ⟨e, he, rfl⟩ := List.mem_map.mp hi
      obtain ⟨k, hk, rfl⟩ := List.getElem_of_mem he
      refine ⟨_, hold k hk, ?_⟩
      by_cases hend : k = 0 ∨ k + 1 = front.length
      · -- first or last
        have hkeep : d'[front[k].1]? = d1[front[k].1]? := by
          apply h3
          intro j e' hj hjc he' heq
          obtain ⟨hjl, rfl⟩ := List.getElem?_eq_some_iff.mp he'
          have := hinj j k hjl hk heq
          omega
        rw [hkeep]
        have : d1[front[k].1]? = some pinf := by
          rcases hend with rfl | h
          · exact htop0
          · have : k = front.length - 1 := by omega
            subst this; exact htopl
        rw [this]
        rw [show gapIdxD recip (colValD fvec) (front.map (·.1)) front[k].1 = pinf by simp [gapIdxD, hidx k hk, List.length_map, if_pos hend], add_pinf (holdn k hk)]
      · obtain ⟨old, ho1, ho2⟩ := h4 k (by omega) (by omega) (by omega)
        have hne0 : front[k].1 ≠ front[0].1 := fun h => by have := hinj k 0 hk hpos h; omega
        have hnel : front[k].1 ≠ front[front.length - 1].1 := fun h => by have := hinj k (front.length - 1) hk (by omega) h; omega
        rw [hget1 _ hne0 hnel, hold k hk] at ho1
        rw [ho2, ← Option.some.inj ho1]
        have hgD : ∀ j (hj : j < front.length), (front.map (·.1)).getD j 0 = front[j].1 := by
          intro j hj
          rw [List.getD_eq_getElem?_getD, List.getElem?_map, List.getElem?_eq_getElem hj]; rfl
        simp only [gapIdxD, hidx k hk, List.length_map, if_neg hend]
        rw [hgD (k + 1) (by omega), hgD (k - 1) (by omega), hgD (front.length - 1) (by omega), hgD 0 hpos]

/-- One objective, all the fronts. -/
theorem crowdObjectiveD_spec (sort : SortFn) (hs : SortContract sort) (recip : Bool) (fvec : List Dbl) (hmod : ∀ v ∈ fvec, ModerateD v) :
    ∀ (fronts : List (List (Nat × Nat))) (dists : List Dbl), dists.length = fvec.length → (∀ x ∈ dists, NonnegD x) → (∀ f ∈ fronts, f ≠ []) →
      (fronts.flatten.map (·.1)).Nodup → (∀ e ∈ fronts.flatten, e.1 < fvec.length) →
      ∃ d', crowdObjectiveD sort recip fvec fronts dists = some (fronts.map (sort (objectiveLessD fvec)), d') ∧ d'.length = dists.length ∧ (∀ x ∈ d', NonnegD x) ∧
        (∀ i, i ∉ fronts.flatten.map (·.1) → d'[i]? = dists[i]?) ∧
        ∀ f ∈ fronts, ∀ i ∈ f.map (·.1), ∃ old, dists[i]? = some old ∧
          d'[i]? = some (add old (gapIdxD recip (colValD fvec) ((sort (objectiveLessD fvec) f).map (·.1)) i))
  | [], dists, _, hnn, _, _, _ => ⟨dists, rfl, rfl, hnn, fun _ _ => rfl, by simp⟩
  | f :: fs, dists, hd, hnn, hne, hnd, hlt => by
      have hsf := hs (objectiveLessD fvec) (objectiveLessD_swo fvec hmod) f
      have hpm : ((sort (objectiveLessD fvec) f).map (·.1)).Perm (f.map (·.1)) := hsf.1.map _
      simp only [List.flatten_cons, List.map_append, List.nodup_append] at hnd
      obtain ⟨hnd1, hnd2, hdisj⟩ := hnd
      obtain ⟨d1, h1, h2, h3, h4⟩ := crowdFrontD_spec recip fvec (sort (objectiveLessD fvec) f)
        (by intro h; have := hsf.1.length_eq; rw [h] at this; exact hne f List.mem_cons_self (List.length_eq_zero_iff.mp this.symm))
        (hpm.nodup_iff.mpr hnd1) (fun e he => hlt e (by simp only [List.flatten_cons, List.mem_append]; exact Or.inl (hsf.1.mem_iff.mp he))) dists hd hnn
      have hnn1 : ∀ x ∈ d1, NonnegD x := by
        intro x hx
        obtain ⟨i, hi, rfl⟩ := List.getElem_of_mem hx
        by_cases hif : i ∈ (sort (objectiveLessD fvec) f).map (·.1)
        · obtain ⟨old, ho1, ho2⟩ := h4 i hif
          rw [List.getElem?_eq_getElem hi] at ho2
          rw [Option.some.inj ho2]
          refine nonneg_add (hnn _ (List.mem_of_getElem? ho1)) (gapIdxD_nonneg recip _ (fun j => colValD_moderate fvec hmod j) _ ?_ i hif)
          rw [List.pairwise_map]
          exact hsf.2.imp (fun h => h)
        · have := h3 i hif
          rw [List.getElem?_eq_getElem hi] at this
          exact hnn _ (List.mem_of_getElem? this.symm)
      obtain ⟨d', g1, g2, gn, g3, g4⟩ := crowdObjectiveD_spec sort hs recip fvec hmod fs d1 (by rw [h2, hd]) hnn1 (fun g hg => hne g (List.mem_cons_of_mem _ hg)) hnd2
        (fun e he => hlt e (by simp only [List.flatten_cons, List.mem_append]; exact Or.inr he))
      refine ⟨d', ?_, by rw [g2, h2], gn, ?_, ?_⟩
      · simp [crowdObjectiveD, h1, g1]
      · intro i hi
        simp only [List.flatten_cons, List.map_append, List.mem_append, not_or] at hi
        rw [g3 i hi.2, h3 i (fun h => hi.1 (hpm.mem_iff.mp h))]
      · intro g hg i hi
        rcases List.mem_cons.mp hg with rfl | hg
        · obtain ⟨old, ho1, ho2⟩ := h4 i (hpm.mem_iff.mpr hi)
          refine ⟨old, ho1, ?_⟩
          rw [g3 i (fun h => hdisj i hi i h rfl)]
          exact ho2
        · obtain ⟨old, ho1, ho2⟩ := g4 g hg i hi
          refine ⟨old, ?_, ho2⟩
          rw [← ho1, h3 i]
          intro h
          have h5 : i ∈ fs.flatten.map (·.1) := by
            obtain ⟨e, he, rfl⟩ := List.mem_map.mp hi
            exact List.mem_map.mpr ⟨e, List.mem_flatten.mpr ⟨g, hg, he⟩, rfl⟩
          exact hdisj i (hpm.mem_iff.mp h) i h5 rfl

/-- The column of an objective. -/
def objColumnD (fmat : List (List Dbl)) (obj : Nat) : List Dbl := fmat.map (fun r => r.getD obj (.fin 0))

theorem objColumnD_mapM (fmat : List (List Dbl)) (ncols obj : Nat) (hm : ∀ r ∈ fmat, r.length = ncols) (h : obj < ncols) :
    fmat.mapM (fun r => r[obj]?) = some (objColumnD fmat obj) := by
  refine ListAux.mapM_eq_some_of_forall _ _ _ (by simp [objColumnD]) ?_
  intro i h1 h2
  have : obj < fmat[i].length := by rw [hm _ (List.getElem_mem h1)]; exact h
  simp [objColumnD, this]

theorem objColumnD_moderate (fmat : List (List Dbl)) (hmod : ∀ r ∈ fmat, ∀ v ∈ r, ModerateD v) (obj : Nat) : ∀ v ∈ objColumnD fmat obj, ModerateD v := by
  intro v hv
  obtain ⟨r, hr, rfl⟩ := List.mem_map.mp hv
  exact colValD_moderate r (hmod r hr) obj

/-- A front after the sorts of the first `t` objectives. -/
def sortChainD (sort : SortFn) (fmat : List (List Dbl)) : Nat → List (Nat × Nat) → List (Nat × Nat)
  | 0, f => f
  | t + 1, f => sort (objectiveLessD (objColumnD fmat t)) (sortChainD sort fmat t f)

theorem sortChainD_perm (sort : SortFn) (hs : SortContract sort) (fmat : List (List Dbl)) (hmod : ∀ r ∈ fmat, ∀ v ∈ r, ModerateD v) (t : Nat) (f : List (Nat × Nat)) : (sortChainD sort fmat t f).Perm f := by
  induction t with
  | zero => exact List.Perm.refl _
  | succ t ih => exact (hs _ (objectiveLessD_swo _ (objColumnD_moderate fmat hmod t)) _).1.trans ih

/-- All the objectives. -/
theorem crowdingDistancesD_spec (sort : SortFn) (hs : SortContract sort) (recip : Bool) (ncols : Nat) (fmat : List (List Dbl)) (hm : ∀ r ∈ fmat, r.length = ncols) (hmod : ∀ r ∈ fmat, ∀ v ∈ r, ModerateD v)
    (fronts : List (List (Nat × Nat))) (hne : ∀ f ∈ fronts, f ≠ []) (hnd : (fronts.flatten.map (·.1)).Nodup) (hlt : ∀ e ∈ fronts.flatten, e.1 < fmat.length) :
    ∃ d, crowdingDistancesD sort recip ncols fmat fronts = some (fronts.map (sortChainD sort fmat ncols), d) ∧ d.length = fmat.length ∧ (∀ x ∈ d, NonnegD x) ∧
      (∀ i, i < fmat.length → i ∉ fronts.flatten.map (·.1) → d[i]? = some (.fin 0)) ∧
      ∀ f ∈ fronts, ∀ i ∈ f.map (·.1), d[i]? = some (((List.range ncols).map (fun obj =>
        gapIdxD recip (colValD (objColumnD fmat obj)) ((sortChainD sort fmat (obj + 1) f).map (·.1)) i)).foldl add (.fin 0)) := by
  have key : ∀ t, t ≤ ncols → ∃ d, (List.range t).foldlM (fun (s : List (List (Nat × Nat)) × List Dbl) obj => do
        let fvec ← fmat.mapM (fun r => r[obj]?)
        crowdObjectiveD sort recip fvec s.1 s.2) (fronts, List.replicate fmat.length (.fin 0)) = some (fronts.map (sortChainD sort fmat t), d) ∧ d.length = fmat.length ∧ (∀ x ∈ d, NonnegD x) ∧
      (∀ i, i < fmat.length → i ∉ fronts.flatten.map (·.1) → d[i]? = some (.fin 0)) ∧
      ∀ f ∈ fronts, ∀ i ∈ f.map (·.1), d[i]? = some (((List.range t).map (fun obj =>
        gapIdxD recip (colValD (objColumnD fmat obj)) ((sortChainD sort fmat (obj + 1) f).map (·.1)) i)).foldl add (.fin 0)) := by
    intro t
    induction t with
    | zero =>
      intro _
      refine ⟨List.replicate fmat.length (.fin 0), ?_, by simp, fun x hx => Or.inr ⟨0, (List.mem_replicate.mp hx).2, le_refl 0⟩, ?_, ?_⟩
      · simp [sortChainD]
      · intro i hi _; simp [hi]
      · intro f hf i hi
        obtain ⟨e, he, rfl⟩ := List.mem_map.mp hi
        have := hlt e (List.mem_flatten.mpr ⟨f, hf, he⟩)
        simp [this]
    | succ t ih =>
      intro ht
      obtain ⟨d, h1, h2, hn, h3, h4⟩ := ih (by omega)
      have hpm := flatten_map_perm (sortChainD sort fmat t) (sortChainD_perm sort hs fmat hmod t) fronts
      obtain ⟨d', g1, g2, gn, g3, g4⟩ := crowdObjectiveD_spec sort hs recip (objColumnD fmat t) (objColumnD_moderate fmat hmod t) (fronts.map (sortChainD sort fmat t)) d (by simp [h2, objColumnD]) hn
        (by
          intro g hg
          obtain ⟨f, hf, rfl⟩ := List.mem_map.mp hg
          intro hnil
          have := (sortChainD_perm sort hs fmat hmod t f).length_eq
          rw [hnil] at this
          exact hne f hf (List.length_eq_zero_iff.mp this.symm))
        ((hpm.map _).nodup_iff.mpr hnd)
        (fun e he => by simp only [objColumnD, List.length_map]; exact hlt e (hpm.mem_iff.mp he))
      refine ⟨d', ?_, by rw [g2, h2], gn, ?_, ?_⟩
      · rw [List.range_succ, List.foldlM_append, h1]
        simp only [Option.bind_eq_bind, Option.bind_some, List.foldlM_cons, List.foldlM_nil]
        rw [objColumnD_mapM fmat ncols t hm (by omega)]
        simp only [Option.bind_some, g1, List.map_map]
        rfl
      · intro i hi hni
        rw [g3 i (fun h => hni ((hpm.map _).mem_iff.mp h))]
        exact h3 i hi hni
      · intro f hf i hi
        have hi' : i ∈ (sortChainD sort fmat t f).map (·.1) := ((sortChainD_perm sort hs fmat hmod t f).map _).mem_iff.mpr hi
        obtain ⟨old, ho1, ho2⟩ := g4 _ (List.mem_map_of_mem hf) i hi'
        rw [h4 f hf i hi] at ho1
        rw [ho2, ← Option.some.inj ho1, List.range_succ, List.map_append, List.foldl_append]
        simp [sortChainD]
  exact key ncols le_rfl

/-- The computed distances are crowding distances of each front. -/
theorem crowdingDistancesD_isCrowding (sort : SortFn) (hs : SortContract sort) (recip : Bool) (ncols : Nat) (fmat : List (List Dbl)) (hm : ∀ r ∈ fmat, r.length = ncols) (hmod : ∀ r ∈ fmat, ∀ v ∈ r, ModerateD v)
    (fronts : List (List (Nat × Nat))) (hne : ∀ f ∈ fronts, f ≠ []) (hnd : (fronts.flatten.map (·.1)).Nodup) (hlt : ∀ e ∈ fronts.flatten, e.1 < fmat.length) :
    ∃ d, crowdingDistancesD sort recip ncols fmat fronts = some (fronts.map (sortChainD sort fmat ncols), d) ∧ d.length = fmat.length ∧ (∀ x ∈ d, NonnegD x) ∧
      ∀ f ∈ fronts, IsCrowdingD recip ncols fmat (f.map (·.1)) (fun i => d.getD i (.fin 0)) := by
  obtain ⟨d, h1, h2, hn, h3, h4⟩ := crowdingDistancesD_spec sort hs recip ncols fmat hm hmod fronts hne hnd hlt
  refine ⟨d, h1, h2, hn, ?_⟩
  intro f hf
  refine ⟨fun obj => colValD (objColumnD fmat obj), fun obj => (sortChainD sort fmat (obj + 1) f).map (·.1),
    fun obj i => gapIdxD recip (colValD (objColumnD fmat obj)) ((sortChainD sort fmat (obj + 1) f).map (·.1)) i, ?_, ?_⟩
  · intro obj hobj
    have hp := (sortChainD_perm sort hs fmat hmod (obj + 1) f).map (·.1)
    refine ⟨hp, ?_, ?_⟩
    · rw [List.pairwise_map]
      have := (hs (objectiveLessD (objColumnD fmat obj)) (objectiveLessD_swo _ (objColumnD_moderate fmat hmod obj)) (sortChainD sort fmat obj f)).2
      refine this.imp ?_
      intro a b hab
      exact le_of_not_lt (moderate_ne_nan (colValD_moderate _ (objColumnD_moderate fmat hmod obj) _)) (moderate_ne_nan (colValD_moderate _ (objColumnD_moderate fmat hmod obj) _)) hab
    · intro i hi
      refine ⟨?_, isGapD_gapIdx _ _ _ _ (hp.mem_iff.mpr hi)⟩
      obtain ⟨e, he, rfl⟩ := List.mem_map.mp hi
      have hel := hlt e (List.mem_flatten.mpr ⟨f, hf, he⟩)
      refine ⟨fmat[e.1], List.getElem?_eq_getElem hel, ?_⟩
      have hol : obj < fmat[e.1].length := by rw [hm _ (List.getElem_mem hel)]; exact hobj
      simp [colValD, objColumnD, hel, hol]
  · intro i hi
    have := h4 f hf i hi
    simp only [List.getD_eq_getElem?_getD, this, Option.getD_some]

end Gapp.Model
