import Verif.Model.EdgeCrossover
import Verif.Proofs.CrossoverCycle
/-! Proofs about edge crossover. -/

namespace Gapp.Model
open Gapp.Spec
variable {α : Type}

theorem _root_.Gapp.Spec.Adjacent.symm {p : List α} {x y : α} (h : Adjacent p x y) : Adjacent p y x := by
  obtain ⟨i, h⟩ := h; exact ⟨i, h.symm⟩

theorem _root_.Gapp.Spec.Adjacent.mem {p : List α} {x y : α} (h : Adjacent p x y) : x ∈ p ∧ y ∈ p := by
  obtain ⟨i, h | h⟩ := h
  · exact ⟨List.mem_of_getElem? h.1, List.mem_of_getElem? h.2⟩
  · exact ⟨List.mem_of_getElem? h.2, List.mem_of_getElem? h.1⟩

theorem _root_.Gapp.Spec.Adjacent.ne {p : List α} (hn : p.Nodup) {x y : α} (h : Adjacent p x y) : x ≠ y := by
  rintro rfl
  have key : ∀ i, p[i]? = some x → p[i + 1]? = some x → False := by
    intro i h1 h2
    have := getElem?_inj' hn (List.getElem?_eq_some_iff.1 h1).1 (h1.trans h2.symm)
    omega
  obtain ⟨i, h | h⟩ := h
  · exact key i h.1 h.2
  · exact key i h.1 h.2

/-- Adjacency in a chromosome, seen from one side. -/
theorem adjacent_iff {p : List α} {x y : α} :
    Adjacent p x y ↔ ∃ i j, p[i]? = some x ∧ p[j]? = some y ∧ (j = i + 1 ∨ i = j + 1) := by
  constructor
  · rintro ⟨i, h | h⟩
    · exact ⟨i, i + 1, h.1, h.2, Or.inl rfl⟩
    · exact ⟨i + 1, i, h.2, h.1, Or.inr rfl⟩
  · rintro ⟨i, j, h1, h2, rfl | rfl⟩
    · exact ⟨i, Or.inl ⟨h1, h2⟩⟩
    · exact ⟨j, Or.inr ⟨h2, h1⟩⟩

/-- The calls of `add` made by `makeNeighbourLists`. -/
theorem neighbourPairs_spec {p1 p2 : List α} (hl : p1.length = p2.length) (h2 : 2 ≤ p1.length) :
    ∃ pairs, neighbourPairs p1 p2 = some pairs ∧
      (∀ x y, (x, y) ∈ pairs ↔ Adjacent p1 x y ∨ Adjacent p2 x y) ∧
      ∀ [DecidableEq α] (x : α), p1.Nodup → p2.Nodup → pairs.countP (fun p => decide (p.1 = x)) ≤ 4 := by
  have hget1 : ∀ i, i < p1.length → p1[i]? = some (p1[i]?.getD p1[0]) := by
    intro i hi; rw [List.getElem?_eq_getElem hi]; rfl
  have hget2 : ∀ i, i < p2.length → p2[i]? = some (p2[i]?.getD p1[0]) := by
    intro i hi; rw [List.getElem?_eq_getElem hi]; rfl
  generalize hf : (fun i : Nat => p1[i]?.getD p1[0]) = f at *
  generalize hg : (fun i : Nat => p2[i]?.getD p1[0]) = g at *
  have hget1 : ∀ i, i < p1.length → p1[i]? = some (f i) := by intro i hi; rw [← hf]; exact hget1 i hi
  have hget2 : ∀ i, i < p1.length → p2[i]? = some (g i) := by intro i hi; rw [← hg]; exact hget2 i (by omega)
  have hmid : (List.range' 1 (p1.length - 2)).mapM (fun i => (do
      return [(← p1[i]?, ← p1[i - 1]?), (← p1[i]?, ← p1[i + 1]?), (← p2[i]?, ← p2[i - 1]?), (← p2[i]?, ← p2[i + 1]?)] :
        Option (List (α × α)))) =
      some ((List.range' 1 (p1.length - 2)).map
        (fun i => [(f i, f (i - 1)), (f i, f (i + 1)), (g i, g (i - 1)), (g i, g (i + 1))])) := by
    apply Gapp.ListAux.mapM_eq_some_of_forall
    · simp
    · intro i h1 h2
      simp only [List.length_range', List.length_map] at h1
      simp only [List.getElem_range', List.getElem_map, Nat.one_mul]
      rw [hget1 _ (by omega), hget1 _ (by omega), hget1 _ (by omega), hget2 _ (by omega), hget2 _ (by omega), hget2 _ (by omega)]
      rfl
  refine ⟨(f 0, f 1) :: (g 0, g 1) :: ((List.range' 1 (p1.length - 2)).map
      (fun i => [(f i, f (i - 1)), (f i, f (i + 1)), (g i, g (i - 1)), (g i, g (i + 1))])).flatten ++
      [(f (p1.length - 1), f (p1.length - 2)), (g (p1.length - 1), g (p1.length - 2))], ?_, ?_, ?_⟩
  · simp only [neighbourPairs, Option.bind_eq_bind, Option.pure_def] at hmid ⊢
    simp only [Option.bind_assoc, Option.bind_some] at hmid ⊢
    rw [hget1 0 (by omega), hget1 1 (by omega), hget2 0 (by omega), hget2 1 (by omega), hget1 (p1.length - 1) (by omega),
      hget1 (p1.length - 2) (by omega), hget2 (p1.length - 1) (by omega), hget2 (p1.length - 2) (by omega)]
    simp only [Option.bind_some]
    rw [hmid]
    rfl
  · intro x y
    have hadj : ∀ (p : List α) (h : Nat → α), p.length = p1.length → (∀ i, i < p1.length → p[i]? = some (h i)) →
        (Adjacent p x y ↔ ∃ i j, i < p1.length ∧ j < p1.length ∧ h i = x ∧ h j = y ∧ (j = i + 1 ∨ i = j + 1)) := by
      intro p h hpl hp
      rw [adjacent_iff]
      constructor
      · rintro ⟨i, j, h1, h2, h3⟩
        have hi := (List.getElem?_eq_some_iff.1 h1).1
        have hj := (List.getElem?_eq_some_iff.1 h2).1
        rw [hpl] at hi hj
        rw [hp i hi, Option.some.injEq] at h1
        rw [hp j hj, Option.some.injEq] at h2
        exact ⟨i, j, hi, hj, h1, h2, h3⟩
      · rintro ⟨i, j, hi, hj, h1, h2, h3⟩
        exact ⟨i, j, by rw [hp i hi, h1], by rw [hp j hj, h2], h3⟩
    rw [hadj p1 f rfl hget1, hadj p2 g hl.symm hget2]
    simp only [List.cons_append, List.mem_cons, List.mem_append, List.mem_flatten, List.mem_map, List.mem_range'_1, Prod.mk.injEq,
      List.not_mem_nil, or_false, exists_exists_and_eq_and]
    constructor
    · rintro (⟨rfl, rfl⟩ | ⟨rfl, rfl⟩ | ⟨i, hi, h⟩ | ⟨rfl, rfl⟩ | ⟨rfl, rfl⟩)
      · exact Or.inl ⟨0, 1, by omega, by omega, rfl, rfl, by omega⟩
      · exact Or.inr ⟨0, 1, by omega, by omega, rfl, rfl, by omega⟩
      · rcases h with ⟨rfl, rfl⟩ | ⟨rfl, rfl⟩ | ⟨rfl, rfl⟩ | ⟨rfl, rfl⟩
        · exact Or.inl ⟨i, i - 1, by omega, by omega, rfl, rfl, by omega⟩
        · exact Or.inl ⟨i, i + 1, by omega, by omega, rfl, rfl, by omega⟩
        · exact Or.inr ⟨i, i - 1, by omega, by omega, rfl, rfl, by omega⟩
        · exact Or.inr ⟨i, i + 1, by omega, by omega, rfl, rfl, by omega⟩
      · exact Or.inl ⟨p1.length - 1, p1.length - 2, by omega, by omega, rfl, rfl, by omega⟩
      · exact Or.inr ⟨p1.length - 1, p1.length - 2, by omega, by omega, rfl, rfl, by omega⟩
    · rintro (⟨i, j, hi, hj, rfl, rfl, hij⟩ | ⟨i, j, hi, hj, rfl, rfl, hij⟩)
      · by_cases h0 : i = 0
        · have : j = 1 := by omega
          subst h0; subst this; exact Or.inl ⟨rfl, rfl⟩
        · by_cases hN : i = p1.length - 1
          · have : j = p1.length - 2 := by omega
            subst hN; subst this; exact Or.inr (Or.inr (Or.inr (Or.inl ⟨rfl, rfl⟩)))
          · refine Or.inr (Or.inr (Or.inl ⟨i, by omega, ?_⟩))
            rcases hij with rfl | h
            · exact Or.inr (Or.inl ⟨rfl, rfl⟩)
            · exact Or.inl ⟨rfl, by congr 1; omega⟩
      · by_cases h0 : i = 0
        · have : j = 1 := by omega
          subst h0; subst this; exact Or.inr (Or.inl ⟨rfl, rfl⟩)
        · by_cases hN : i = p1.length - 1
          · have : j = p1.length - 2 := by omega
            subst hN; subst this; exact Or.inr (Or.inr (Or.inr (Or.inr ⟨rfl, rfl⟩)))
          · refine Or.inr (Or.inr (Or.inl ⟨i, by omega, ?_⟩))
            rcases hij with rfl | h
            · exact Or.inr (Or.inr (Or.inr ⟨rfl, rfl⟩))
            · exact Or.inr (Or.inr (Or.inl ⟨rfl, by congr 1; omega⟩))
  · intro _ x hn1 hn2
    -- each chromosome contributes at most two
    have hinj : ∀ (p : List α) (h : Nat → α), p.length = p1.length → p.Nodup → (∀ i, i < p1.length → p[i]? = some (h i)) →
        ∀ i j, i < p1.length → j < p1.length → h i = h j → i = j := by
      intro p h hpl hpn hp i j hi hj he
      exact getElem?_inj' hpn (by omega) (by rw [hp i hi, hp j hj, he])
    have hf' := hinj p1 f rfl hn1 hget1
    have hg' := hinj p2 g hl.symm hn2 hget2
    have hc : ∀ (m : Nat), m ≤ p1.length - 2 →
        (((List.range' 1 m).map
          (fun i => [(f i, f (i - 1)), (f i, f (i + 1)), (g i, g (i - 1)), (g i, g (i + 1))])).flatten).countP
            (fun p => decide (p.1 = x)) =
        2 * ((List.range' 1 m).countP (fun i => decide (f i = x)) + (List.range' 1 m).countP (fun i => decide (g i = x))) := by
      intro m
      induction m with
      | zero => intro _; rfl
      | succ m ih =>
        intro hm
        rw [List.range'_1_concat, List.map_append, List.flatten_append, List.countP_append, ih (by omega), List.countP_append,
          List.countP_append]
        simp only [List.map_cons, List.map_nil, List.flatten_cons, List.flatten_nil, List.append_nil, List.countP_cons, List.countP_nil]
        split <;> split <;> omega
    have hone : ∀ (h : Nat → α), (∀ i j, i < p1.length → j < p1.length → h i = h j → i = j) →
        2 * (List.range' 1 (p1.length - 2)).countP (fun i => decide (h i = x)) +
          (if h 0 = x then 1 else 0) + (if h (p1.length - 1) = x then 1 else 0) ≤ 2 := by
      intro h hinj
      by_cases hex : ∃ i, i < p1.length ∧ h i = x
      · obtain ⟨i, hi, hix⟩ := hex
        have hcount : (List.range' 1 (p1.length - 2)).countP (fun j => decide (h j = x)) =
            (List.range' 1 (p1.length - 2)).count i := by
          rw [List.count, List.countP_congr]
          intro j hj
          rw [List.mem_range'_1] at hj
          simp only [decide_eq_true_eq, beq_iff_eq]
          constructor
          · intro hjx; exact hinj j i (by omega) hi (by rw [hjx, hix])
          · rintro rfl; exact hix
        rw [hcount, count_range']
        have e0 : h 0 = x ↔ i = 0 := by
          constructor
          · intro h0; exact hinj i 0 hi (by omega) (by rw [h0, hix])
          · rintro rfl; exact hix
        have e1 : h (p1.length - 1) = x ↔ i = p1.length - 1 := by
          constructor
          · intro h0; exact hinj i _ hi (by omega) (by rw [h0, hix])
          · rintro rfl; exact hix
        simp only [e0, e1]
        split <;> split <;> split <;> omega
      · push Not at hex
        have : (List.range' 1 (p1.length - 2)).countP (fun i => decide (h i = x)) = 0 := by
          rw [List.countP_eq_zero]
          intro i hi
          rw [List.mem_range'_1] at hi
          simpa using hex i (by omega)
        rw [this, if_neg (hex 0 (by omega)), if_neg (hex _ (by omega))]
        omega
    have h1 := hone f hf'
    have h2 := hone g hg'
    simp only [List.cons_append, List.countP_cons, List.countP_append, List.countP_nil]
    rw [hc _ (le_refl _)]
    simp only [decide_eq_true_eq]
    omega

section Generic
variable [DecidableEq α]

theorem NbMap.set_self (nb : NbMap α) (g : α) (l : List α) : nb.set g l g = l := by simp [NbMap.set]
theorem NbMap.set_ne (nb : NbMap α) {g x : α} (l : List α) (h : x ≠ g) : nb.set g l x = nb x := by simp [NbMap.set, h]

theorem nbAdd_fold (pairs : List (α × α)) : ∀ (nb : NbMap α), (∀ x, (nb x).Nodup) →
    (∀ x, (pairs.foldl nbAdd nb x).Nodup) ∧ ∀ x y, y ∈ pairs.foldl nbAdd nb x ↔ y ∈ nb x ∨ (x, y) ∈ pairs := by
  induction pairs with
  | nil => intro nb h; exact ⟨h, by simp⟩
  | cons p rest ih =>
    intro nb h
    obtain ⟨a, b⟩ := p
    have hadd : (∀ x, (nbAdd nb (a, b) x).Nodup) ∧ ∀ x y, y ∈ nbAdd nb (a, b) x ↔ y ∈ nb x ∨ (x = a ∧ y = b) := by
      unfold nbAdd
      split
      · next hm =>
        refine ⟨h, ?_⟩
        intro x y
        constructor
        · exact Or.inl
        · rintro (h1 | ⟨rfl, rfl⟩)
          · exact h1
          · exact hm
      · next hm =>
        constructor
        · intro x
          by_cases hx : x = a
          · subst hx
            rw [NbMap.set_self, List.nodup_append]
            refine ⟨h x, List.nodup_singleton _, ?_⟩
            intro c hc d hd; rw [List.mem_singleton] at hd; subst hd
            intro e; exact hm (e ▸ hc)
          · rw [NbMap.set_ne _ _ hx]; exact h x
        · intro x y
          by_cases hx : x = a
          · subst hx; rw [NbMap.set_self]; simp
          · rw [NbMap.set_ne _ _ hx]; simp [hx]
    obtain ⟨h1, h2⟩ := ih _ hadd.1
    refine ⟨h1, ?_⟩
    intro x y
    rw [List.foldl_cons, h2, hadd.2, List.mem_cons, Prod.mk.injEq, or_assoc]

/-- The state of the main loop: the lists of the genes that are not done hold their neighbours that are not done. A gene is done when
it has been added to the child and has had a successor chosen, i.e. all but the last gene of the child are done. -/
def EdgeInv (p1 p2 done : List α) (nb : NbMap α) : Prop :=
  ∀ x, x ∈ p1 → x ∉ done → (nb x).Nodup ∧ ∀ y, y ∈ nb x ↔ UnusedNeighbour p1 p2 done x y

theorem edgeInv_init {p1 p2 : List α} (h : PermParents p1 p2) (h2 : 2 ≤ p1.length) :
    ∃ nb, makeNbMap p1 p2 = some nb ∧ EdgeInv p1 p2 [] nb := by
  obtain ⟨pairs, hp, hm, _⟩ := neighbourPairs_spec h.2.length_eq.symm h2
  obtain ⟨h1, h3⟩ := nbAdd_fold pairs (fun _ => []) (fun _ => List.nodup_nil)
  refine ⟨_, by simp only [makeNbMap, hp]; rfl, ?_⟩
  intro x _ _
  refine ⟨h1 x, ?_⟩
  intro y
  rw [h3 x y, hm]
  simp [UnusedNeighbour]

theorem unusedDegree_eq {p1 p2 : List α} (h : PermParents p1 p2) {used : List α} {x : α} {l : List α} (hn : l.Nodup)
    (hl : ∀ y, y ∈ l ↔ UnusedNeighbour p1 p2 used x y) : unusedDegree p1 p2 used x = l.length := by
  classical
  unfold unusedDegree
  apply List.Perm.length_eq
  rw [List.perm_ext_iff_of_nodup (h.1.filter _) hn]
  intro y
  rw [List.mem_filter, hl, decide_eq_true_eq]
  constructor
  · exact fun h => h.2
  · intro hu
    refine ⟨?_, hu⟩
    rcases hu.1 with h1 | h1
    · exact h1.mem.2
    · exact h.2.mem_iff.1 h1.mem.2

/-- The loop over the neighbours of the last gene. `N` are its neighbours; `Q` those that have been processed. -/
theorem edgePick_spec {p1 p2 : List α} (h : PermParents p1 p2) {done : List α} {last d : α} (hlast : last ∈ p1)
    (hlastnd : last ∉ done) :
    ∀ (rest Q : List α) (next : α) (nb : NbMap α),
      (Q ++ rest).Nodup → (∀ y, y ∈ Q ++ rest ↔ UnusedNeighbour p1 p2 done last y) →
      -- the lists of the processed neighbours do not have `last` any more
      (∀ x, x ∈ p1 → x ∉ done → x ≠ last → (nb x).Nodup ∧
        ∀ y, y ∈ nb x ↔ UnusedNeighbour p1 p2 done x y ∧ (x ∈ Q → y ≠ last)) →
      -- the candidate so far
      ((next ∈ Q ∧ (∀ x ∈ Q, (nb next).length ≤ (nb x).length)) ∨
        (next = d ∧ d ∉ Q ∧ ∀ x ∈ Q, (nb d).length < (nb x).length)) →
      ∃ next' nb', edgePick last rest next nb = some (next', nb') ∧
        (∀ x, x ∈ p1 → x ∉ done → x ≠ last → (nb' x).Nodup ∧
          ∀ y, y ∈ nb' x ↔ UnusedNeighbour p1 p2 done x y ∧ (x ∈ Q ++ rest → y ≠ last)) ∧
        ((next' ∈ Q ++ rest ∧ (∀ x ∈ Q ++ rest, (nb' next').length ≤ (nb' x).length)) ∨
          (next' = d ∧ d ∉ Q ++ rest ∧ ∀ x ∈ Q ++ rest, (nb' d).length < (nb' x).length)) := by
  intro rest
  induction rest with
  | nil =>
    intro Q next nb _ _ hnb hc
    refine ⟨next, nb, rfl, ?_, ?_⟩
    · simpa using hnb
    · simpa using hc
  | cons a rest ih =>
    intro Q next nb hn hmem hnb hc
    have haN : UnusedNeighbour p1 p2 done last a := (hmem a).1 (by simp)
    have hal : a ≠ last := by
      rcases haN.1 with h1 | h1
      · exact (h1.ne h.1).symm
      · exact (h1.ne (h.2.nodup_iff.2 h.1)).symm
    have hap : a ∈ p1 := by
      rcases haN.1 with h1 | h1
      · exact h1.mem.2
      · exact h.2.mem_iff.1 h1.mem.2
    have had : a ∉ done := haN.2
    have haQ : a ∉ Q := by
      intro hq
      rw [List.nodup_append] at hn
      exact hn.2.2 a hq a List.mem_cons_self rfl
    have happ : Q ++ a :: rest = (Q ++ [a]) ++ rest := by simp
    obtain ⟨hna, hma⟩ := hnb a hap had hal
    -- properties of the updated lists
    have hnb' : ∀ x, x ∈ p1 → x ∉ done → x ≠ last → (nb.set a ((nb a).erase last) x).Nodup ∧
        ∀ y, y ∈ nb.set a ((nb a).erase last) x ↔ UnusedNeighbour p1 p2 done x y ∧ (x ∈ Q ++ [a] → y ≠ last) := by
      intro x hx hxd hxl
      by_cases hxa : x = a
      · subst hxa
        rw [NbMap.set_self]
        refine ⟨hna.erase _, ?_⟩
        intro y
        rw [hna.mem_erase_iff, hma]
        simp only [List.mem_append, List.mem_singleton, or_true, true_implies]
        constructor
        · rintro ⟨h1, h2, _⟩; exact ⟨h2, h1⟩
        · rintro ⟨h1, h2⟩; exact ⟨h2, h1, fun hq => absurd hq haQ⟩
      · rw [NbMap.set_ne _ _ hxa]
        refine ⟨(hnb x hx hxd hxl).1, ?_⟩
        intro y
        rw [(hnb x hx hxd hxl).2 y]
        simp [hxa]
    -- how the sizes change
    have hlt : ((nb.set a ((nb a).erase last)) a).length < (nb a).length := by
      rw [NbMap.set_self]
      have hin : last ∈ nb a := by
        rw [hma]
        refine ⟨⟨?_, ?_⟩, fun hq => absurd hq haQ⟩
        · rcases haN.1 with h1 | h1
          · exact Or.inl h1.symm
          · exact Or.inr h1.symm
        · -- `last` is not done: it is the owner of the list
          exact hlastnd
      rw [List.length_erase_of_mem hin]
      have := List.length_pos_of_mem hin
      omega
    have hsize : ∀ x, x ≠ a → (nb.set a ((nb a).erase last) x) = nb x := fun x hx => NbMap.set_ne _ _ hx
    have hstep : edgePick last (a :: rest) next nb = edgePick last rest
        (if (nb.set a ((nb a).erase last) a).length ≤ (nb.set a ((nb a).erase last) next).length then a else next)
        (nb.set a ((nb a).erase last)) := by
      simp only [edgePick, if_neg hal]
    rw [hstep, happ]
    rw [happ] at hn hmem
    apply ih _ _ _ hn hmem hnb'
    split
    · next hle =>
      refine Or.inl ⟨by simp, ?_⟩
      intro x hx
      rw [List.mem_append, List.mem_singleton] at hx
      rcases hx with hx | rfl
      · have hxa : x ≠ a := fun e => haQ (e ▸ hx)
        rw [hsize x hxa]
        rcases hc with ⟨hc1, hc2⟩ | ⟨rfl, hc1, hc2⟩
        · have hna : next ≠ a := fun e => haQ (e ▸ hc1)
          rw [hsize next hna] at hle
          exact le_trans hle (hc2 x hx)
        · by_cases hna : next = a
          · subst hna; have := hc2 x hx; omega
          · rw [hsize next hna] at hle
            exact le_trans hle (le_of_lt (hc2 x hx))
      · exact le_refl _
    · next hgt =>
      have hna : next ≠ a := by rintro rfl; exact hgt (le_refl _)
      rw [hsize next hna] at hgt
      rcases hc with ⟨hc1, hc2⟩ | ⟨rfl, hc1, hc2⟩
      · refine Or.inl ⟨by simp [hc1], ?_⟩
        intro x hx
        rw [hsize next hna]
        rw [List.mem_append, List.mem_singleton] at hx
        rcases hx with hx | rfl
        · rw [hsize x (fun e => haQ (e ▸ hx))]; exact hc2 x hx
        · omega
      · refine Or.inr ⟨rfl, by simp [hc1, hna], ?_⟩
        intro x hx
        rw [hsize next hna]
        rw [List.mem_append, List.mem_singleton] at hx
        rcases hx with hx | rfl
        · rw [hsize x (fun e => haQ (e ▸ hx))]; exact hc2 x hx
        · omega

/-- One iteration of the main loop. -/
theorem edge_step {p1 p2 : List α} (h : PermParents p1 p2) {done : List α} {last d : α} {nb : NbMap α} (hlast : last ∈ p1)
    (hlastnd : last ∉ done) (hd : d ∈ p1) (hdu : d ∉ done ++ [last]) (hI : EdgeInv p1 p2 done nb) :
    ∃ next nb', edgePick last (nb last) d nb = some (next, nb') ∧ EdgeInv p1 p2 (done ++ [last]) nb' ∧
      next ∈ p1 ∧ next ∉ done ++ [last] ∧ IsEdgeChoice p1 p2 (done ++ [last]) last d next := by
  obtain ⟨hln, hlm⟩ := hI last hlast hlastnd
  have hNne : ∀ y, UnusedNeighbour p1 p2 done last y → y ∈ p1 ∧ y ≠ last := by
    rintro y ⟨h1 | h1, _⟩
    · exact ⟨h1.mem.2, (h1.ne h.1).symm⟩
    · exact ⟨h.2.mem_iff.1 h1.mem.2, (h1.ne (h.2.nodup_iff.2 h.1)).symm⟩
  obtain ⟨next, nb', hpick, hnb', hc⟩ := edgePick_spec (d := d) h hlast hlastnd (nb last) [] d nb (by simpa using hln) (by simpa using hlm)
    (by intro x hx hxd _; simpa using hI x hx hxd) (Or.inr ⟨rfl, by simp, by simp⟩)
  rw [List.nil_append] at hnb' hc
  have hU : ∀ x y, UnusedNeighbour p1 p2 (done ++ [last]) x y ↔ UnusedNeighbour p1 p2 done x y ∧ y ≠ last := by
    intro x y; simp only [UnusedNeighbour, List.mem_append, List.mem_singleton, not_or, and_assoc]
  have hUl : ∀ y, UnusedNeighbour p1 p2 (done ++ [last]) last y ↔ y ∈ nb last := by
    intro y; rw [hU, hlm]
    exact ⟨fun h => h.1, fun h => ⟨h, (hNne y h).2⟩⟩
  have hI' : EdgeInv p1 p2 (done ++ [last]) nb' := by
    intro x hx hxd
    rw [List.mem_append, List.mem_singleton, not_or] at hxd
    obtain ⟨h1, h2⟩ := hnb' x hx hxd.1 hxd.2
    refine ⟨h1, ?_⟩
    intro y
    rw [h2 y, hU]
    constructor
    · rintro ⟨h3, h4⟩
      refine ⟨h3, ?_⟩
      rintro rfl
      apply h4 _ rfl
      rw [hlm]
      refine ⟨?_, hxd.1⟩
      rcases h3.1 with h5 | h5
      · exact Or.inl h5.symm
      · exact Or.inr h5.symm
    · rintro ⟨h3, h4⟩; exact ⟨h3, fun _ => h4⟩
  have hnext : next ∈ p1 ∧ next ∉ done ++ [last] := by
    rcases hc with ⟨h1, _⟩ | ⟨rfl, _⟩
    · rw [hlm] at h1
      refine ⟨(hNne _ h1).1, ?_⟩
      rw [List.mem_append, List.mem_singleton, not_or]
      exact ⟨h1.2, (hNne _ h1).2⟩
    · exact ⟨hd, hdu⟩
  have hdeg : ∀ x, x ∈ p1 → x ∉ done ++ [last] → unusedDegree p1 p2 (done ++ [last]) x = (nb' x).length := by
    intro x hx hxd
    obtain ⟨h1, h2⟩ := hI' x hx hxd
    exact unusedDegree_eq h h1 h2
  have hdegN : ∀ x, x ∈ nb last → unusedDegree p1 p2 (done ++ [last]) x = (nb' x).length := by
    intro x hx
    rw [hlm] at hx
    apply hdeg x (hNne x hx).1
    rw [List.mem_append, List.mem_singleton, not_or]
    exact ⟨hx.2, (hNne x hx).2⟩
  refine ⟨next, nb', hpick, hI', hnext.1, hnext.2, ?_, ?_, ?_⟩
  · rcases hc with ⟨h1, _⟩ | ⟨rfl, _⟩
    · exact Or.inl ((hUl _).2 h1)
    · exact Or.inr rfl
  · intro x hx
    rw [hUl] at hx
    rw [hdeg next hnext.1 hnext.2, hdegN x hx]
    rcases hc with ⟨_, h1⟩ | ⟨rfl, _, h1⟩
    · exact h1 x hx
    · exact le_of_lt (h1 x hx)
  · intro hno x hx
    rw [hUl] at hno hx
    rw [hdeg d hd hdu, hdegN x hx]
    rcases hc with ⟨h1, _⟩ | ⟨_, _, h1⟩
    · exact absurd h1 hno
    · exact h1 x hx

omit [DecidableEq α] in
/-- Adding one gene to a child that satisfies the rule. -/
theorem edgeRule_snoc {p1 p2 : List α} {F : List α → α → Prop} {child : List α} {last next : α}
    (hg : ∀ t last next, child[t]? = some last → child[t + 1]? = some next →
      ∃ d, F (child.take (t + 1)) d ∧ IsEdgeChoice p1 p2 (child.take (t + 1)) last d next)
    (hl : child.getLast? = some last) (hn : ∃ d, F child d ∧ IsEdgeChoice p1 p2 child last d next) :
    ∀ t last' next', (child ++ [next])[t]? = some last' → (child ++ [next])[t + 1]? = some next' →
      ∃ d, F ((child ++ [next]).take (t + 1)) d ∧ IsEdgeChoice p1 p2 ((child ++ [next]).take (t + 1)) last' d next' := by
  intro t last' next' h1 h2
  have ht := (List.getElem?_eq_some_iff.1 h2).1
  rw [List.length_append, List.length_singleton] at ht
  rw [List.getElem?_append_left (by omega)] at h1
  rw [List.take_append_of_le_length (by omega)]
  by_cases he : t + 1 < child.length
  · rw [List.getElem?_append_left he] at h2
    exact hg t last' next' h1 h2
  · have he : t + 1 = child.length := by omega
    rw [List.getElem?_append_right (by omega), he, Nat.sub_self] at h2
    simp only [List.getElem?_cons_zero, Option.some.injEq] at h2
    subst h2
    rw [List.getLast?_eq_getElem?, ← he, Nat.add_sub_cancel, h1] at hl
    obtain rfl := Option.some.inj hl
    rw [he, List.take_length]
    exact hn

theorem edgeLoop_spec {p1 p2 : List α} (h : PermParents p1 p2) : ∀ (m : Nat) (done : List α) (last : α) (nb : NbMap α),
    (done ++ [last]).Nodup → (∀ x ∈ done ++ [last], x ∈ p1) → (done ++ [last]).length + m = p1.length → (done ++ [last])[0]? = p1[0]? →
    EdgeInv p1 p2 done nb →
    (∀ t last' next', (done ++ [last])[t]? = some last' → (done ++ [last])[t + 1]? = some next' →
      ∃ d, FirstUnused p1 ((done ++ [last]).take (t + 1)) d ∧
        IsEdgeChoice p1 p2 ((done ++ [last]).take (t + 1)) last' d next') →
    ∃ child, edgeLoop m (done ++ [last]) (p1.filter (fun g => decide (g ∉ done ++ [last]))) nb = some child ∧
      IsEdgeChild p1 p2 (FirstUnused p1) child := by
  intro m
  induction m with
  | zero =>
    intro done last nb hn hs hlen h0 _ hg
    refine ⟨_, rfl, ?_, h0, hg⟩
    exact (perm_of_subset hn hs (by omega)).symm
  | succ m ih =>
    intro done last nb hn hs hlen h0 hI hg
    -- the first gene that has not been used
    have hex : p1.filter (fun g => decide (g ∉ done ++ [last])) ≠ [] := by
      intro he
      rw [List.filter_eq_nil_iff] at he
      have : p1 ⊆ done ++ [last] := by
        intro x hx
        have := he x hx
        rw [decide_eq_true_eq, not_not] at this
        exact this
      have := (List.subperm_of_subset h.1 this).length_le
      omega
    obtain ⟨d, rem, hdr⟩ := List.exists_cons_of_ne_nil hex
    have hdm : d ∈ p1.filter (fun g => decide (g ∉ done ++ [last])) := by rw [hdr]; simp
    rw [List.mem_filter, decide_eq_true_eq] at hdm
    have hfirst : FirstUnused p1 (done ++ [last]) d := by
      obtain ⟨l1, l2, he, hl1, hl2, -⟩ := List.filter_eq_cons_iff.1 hdr
      refine ⟨l1.length, by rw [he]; simp, hdm.2, ?_⟩
      intro j x hj hx
      rw [he, List.getElem?_append_left hj] at hx
      have := hl1 x (List.mem_of_getElem? hx)
      rw [decide_eq_true_eq, not_not] at this
      exact this
    have hlast : last ∈ p1 := hs last (by simp)
    have hlastnd : last ∉ done := by
      rw [List.nodup_append] at hn
      intro hl; exact hn.2.2 last hl last (by simp) rfl
    obtain ⟨next, nb', hpick, hI', hnp, hnu, hch⟩ := edge_step h hlast hlastnd hdm.1 hdm.2 hI
    have := ih (done ++ [last]) next nb' (by
        rw [List.nodup_append]
        refine ⟨hn, List.nodup_singleton _, ?_⟩
        intro a ha b hb; rw [List.mem_singleton] at hb; subst hb
        intro e; exact hnu (e ▸ ha))
      (by
        intro x hx
        rw [List.mem_append, List.mem_singleton] at hx
        rcases hx with hx | rfl
        · exact hs x hx
        · exact hnp)
      (by rw [List.length_append, List.length_singleton]; omega)
      (by rw [List.getElem?_append_left (by simp)]; exact h0) hI'
      (edgeRule_snoc hg (by simp) ⟨d, hfirst, hch⟩)
    obtain ⟨child, hc1, hc2⟩ := this
    refine ⟨child, ?_, hc2⟩
    rw [← hc1]
    have hf : (p1.filter (fun g => decide (g ∉ done ++ [last]))).filter (fun g => g != next) =
        p1.filter (fun g => decide (g ∉ done ++ [last] ++ [next])) := by
      rw [List.filter_filter]
      apply List.filter_congr
      intro x _
      rw [Bool.eq_iff_iff]
      simp only [Bool.and_eq_true, bne_iff_ne, ne_eq, decide_eq_true_eq, List.mem_append, List.mem_singleton, not_or]
      tauto
    rw [← hf]
    have hgl : (done ++ [last]).getLast? = some last := by simp
    have hhead : (p1.filter (fun g => decide (g ∉ done ++ [last]))).head? = some d := by rw [hdr]; rfl
    simp only [edgeLoop, hgl, hhead, Option.bind_eq_bind, Option.bind_some, hpick]

/-- Edge crossover for any gene type. -/
theorem edgeGeneric_spec {p1 p2 : List α} (h : PermParents p1 p2) (h2 : 2 ≤ p1.length) :
    ∃ child, edgeGeneric p1 p2 = some child ∧ IsEdgeChild p1 p2 (FirstUnused p1) child := by
  obtain ⟨nb, hnb, hI⟩ := edgeInv_init h h2
  obtain ⟨g, rest, rfl⟩ := List.exists_cons_of_ne_nil (l := p1) (by rintro rfl; simp at h2)
  have := edgeLoop_spec h rest.length [] g nb (by simp) (by simp) (by simp [Nat.add_comm]) (by simp) hI (by
    intro t l n _ hn
    simp at hn)
  obtain ⟨child, hc, hs⟩ := this
  refine ⟨child, ?_, hs⟩
  rw [← hc]
  have hf : (g :: rest).filter (fun x => decide (x ∉ [] ++ [g])) = rest := by
    have hgr : g ∉ rest := (List.nodup_cons.1 h.1).1
    rw [List.filter_cons_of_neg (by simp), List.filter_eq_self]
    intro x hx
    have : x ≠ g := fun e => hgr (e ▸ hx)
    simpa using this
  rw [hf]
  simp only [edgeGeneric, hnb, List.head?_cons, Option.bind_eq_bind, Option.bind_some, List.length_cons, Nat.add_sub_cancel,
    List.tail_cons, List.nil_append]

end Generic

/-- What the four slots of an array represent. -/
def NbArray.genes (l : NbArray) : List Nat := l.slots.filterMap id

/-- The table of arrays represents the map `nb` for the genes `0, …, n - 1`. -/
def NbRep (n : Nat) (table : List NbArray) (nb : NbMap Nat) : Prop :=
  table.length = n ∧ ∀ x, x < n → (nb x).Nodup ∧ (∀ y ∈ nb x, y < n) ∧
    ∃ l, table[x]? = some l ∧ l.genes = nb x ∧ l.size = (nb x).length

theorem remove_genes {l : NbArray} (hn : l.genes.Nodup) (hs : l.size = l.genes.length) (v : Nat) :
    (l.remove v).genes = l.genes.erase v ∧ (l.remove v).size = (l.genes.erase v).length := by
  obtain ⟨slots, size⟩ := l
  simp only [NbArray.genes, NbArray.remove] at *
  have h1 : (slots.map (fun s => if s = some v then none else s)).filterMap id = (slots.filterMap id).erase v := by
    rw [hn.erase_eq_filter]
    clear hn hs
    induction slots with
    | nil => rfl
    | cons s rest ih =>
      cases s with
      | none => simpa using ih
      | some w =>
        by_cases hw : w = v
        · subst hw; simpa using ih
        · rw [List.map_cons, if_neg (by simpa using hw)]
          simp only [List.filterMap_cons, id, ih]
          rw [List.filter_cons_of_pos (by simpa using hw)]
          exact congrArg _ ih
  refine ⟨h1, ?_⟩
  have h2 : slots.countP (fun s => s = some v) = (slots.filterMap id).count v := by
    clear hn hs h1
    induction slots with
    | nil => rfl
    | cons s rest ih =>
      cases s with
      | none => simpa using ih
      | some w =>
        by_cases hw : w = v
        · subst hw; simpa using ih
        · simp [hw, ih]
  rw [h2, hs]
  by_cases hv : v ∈ slots.filterMap id
  · rw [List.length_erase_of_mem hv, List.count_eq_one_of_mem hn hv]
  · rw [List.erase_of_not_mem hv, List.count_eq_zero_of_not_mem hv, Nat.sub_zero]

theorem NbRep.remove {n : Nat} {table : List NbArray} {nb : NbMap Nat} (h : NbRep n table nb) {x v : Nat} (hx : x < n) :
    ∃ l, table[x]? = some l ∧ NbRep n (table.set x (l.remove v)) (nb.set x ((nb x).erase v)) := by
  obtain ⟨hn, hb, l, hl, hg, hs⟩ := h.2 x hx
  refine ⟨l, hl, by rw [List.length_set]; exact h.1, ?_⟩
  intro y hy
  have hr := remove_genes (l := l) (by rw [hg]; exact hn) (by rw [hg]; exact hs) v
  rw [hg] at hr
  by_cases hyx : y = x
  · subst hyx
    rw [NbMap.set_self]
    refine ⟨hn.erase _, fun z hz => hb z (List.mem_of_mem_erase hz), l.remove v, ?_, hr⟩
    rw [List.getElem?_set_self (by rw [h.1]; exact hx)]
  · rw [NbMap.set_ne _ _ hyx]
    refine ⟨(h.2 y hy).1, (h.2 y hy).2.1, ?_⟩
    rw [List.getElem?_set_ne (Ne.symm hyx)]
    exact (h.2 y hy).2.2

/-- The loop over the slots does what the loop over the list does. -/
theorem edgePickU_sim {n : Nat} {last : Nat} : ∀ (slots : List (Option Nat)) (next : Nat) (table : List NbArray) (nb : NbMap Nat)
    (r : Nat × NbMap Nat), NbRep n table nb → (∀ y ∈ slots.filterMap id, y < n) → next < n →
    edgePick last (slots.filterMap id) next nb = some r →
    ∃ table', edgePickU last slots next table = some (r.1, table') ∧ NbRep n table' r.2 := by
  intro slots
  induction slots with
  | nil =>
    intro next table nb r hR _ _ h
    simp only [List.filterMap_nil, edgePick, Option.some.injEq] at h
    subst h
    exact ⟨table, rfl, hR⟩
  | cons s rest ih =>
    intro next table nb r hR hb hnext h
    cases s with
    | none =>
      have he : (none :: rest : List (Option Nat)).filterMap id = rest.filterMap id := rfl
      rw [he] at h hb
      exact ih next table nb r hR hb hnext h
    | some x =>
      have he : (some x :: rest : List (Option Nat)).filterMap id = x :: rest.filterMap id := rfl
      rw [he] at h hb
      have hx : x < n := hb x (by simp)
      simp only [edgePick] at h
      split at h
      · cases h
      · next hxl =>
        obtain ⟨l, hl, hR'⟩ := hR.remove (v := last) hx
        obtain ⟨_, _, lx, hlx, _, hsx⟩ := hR'.2 x hx
        obtain ⟨_, _, ln, hln, _, hsn⟩ := hR'.2 next hnext
        obtain ⟨table', h1, h2⟩ := ih _ _ _ r hR' (fun y hy => hb y (List.mem_cons_of_mem _ hy)) (by split <;> assumption) h
        refine ⟨table', ?_, h2⟩
        rw [← h1]
        simp only [edgePickU, if_neg hxl, hl, Option.bind_eq_bind, Option.bind_some, hlx, hln, hsx, hsn]

theorem addSlot_spec {v : Nat} : ∀ {k : Nat} {l : List Nat}, (v ∈ l ∨ 0 < k) →
    ∃ st k', addSlot v (l.map some ++ List.replicate k none) =
      some ((if v ∈ l then l else l ++ [v]).map some ++ List.replicate k' none, st) ∧
      (if v ∈ l then l else l ++ [v]).length + k' = l.length + k ∧ st = decide (v ∉ l) := by
  intro k l
  induction l with
  | nil =>
    intro h
    obtain ⟨k, rfl⟩ : ∃ k', k = k' + 1 := ⟨k - 1, by simp at h; omega⟩
    refine ⟨true, k, rfl, by simp; omega, by simp⟩
  | cons a l ih =>
    intro h
    by_cases hva : a = v
    · subst hva
      refine ⟨false, k, ?_, ?_, ?_⟩
      · simp [addSlot]
      · simp
      · simp
    · have : v ∈ l ∨ 0 < k := by
        rcases h with h | h
        · rw [List.mem_cons] at h
          rcases h with h | h
          · exact absurd h.symm hva
          · exact Or.inl h
        · exact Or.inr h
      obtain ⟨st, k', h1, h2, h3⟩ := ih this
      have hm : (v ∈ a :: l) ↔ v ∈ l := by
        rw [List.mem_cons]
        exact ⟨fun h => h.resolve_left (fun e => hva e.symm), Or.inr⟩
      refine ⟨st, k', ?_, ?_, ?_⟩
      · simp only [List.map_cons, List.cons_append, addSlot, if_neg hva, h1, Option.map_some]
        by_cases hvl : v ∈ l
        · rw [if_pos hvl, if_pos (hm.2 hvl)]; rfl
        · rw [if_neg hvl, if_neg (fun h => hvl (hm.1 h))]; rfl
      · by_cases hvl : v ∈ l
        · rw [if_pos hvl] at h2
          rw [if_pos (hm.2 hvl), List.length_cons]; omega
        · rw [if_neg hvl] at h2
          rw [if_neg (fun h => hvl (hm.1 h)), List.cons_append, List.length_cons, List.length_cons]; omega
      · rw [h3, decide_eq_decide]; exact not_congr hm.symm

/-- While the lists are being built the used slots come first. -/
theorem makeNbTable_sim {n : Nat} : ∀ (pairs : List (Nat × Nat)) (table : List NbArray) (nb : NbMap Nat),
    (∀ p ∈ pairs, p.1 < n) → table.length = n →
    (∀ x, x < n → ∃ k, table[x]? = some ⟨(nb x).map some ++ List.replicate k none, (nb x).length⟩ ∧
      pairs.countP (fun p => decide (p.1 = x)) ≤ k) →
    ∃ table', pairs.foldlM nbTableAdd table = some table' ∧ table'.length = n ∧
      ∀ x, x < n → ∃ k, table'[x]? = some ⟨(pairs.foldl nbAdd nb x).map some ++ List.replicate k none, (pairs.foldl nbAdd nb x).length⟩ := by
  intro pairs
  induction pairs with
  | nil =>
    intro table nb _ hl h
    refine ⟨table, rfl, hl, ?_⟩
    intro x hx
    obtain ⟨k, hk, _⟩ := h x hx
    exact ⟨k, hk⟩
  | cons p rest ih =>
    intro table nb hp hl h
    obtain ⟨a, b⟩ := p
    have ha : a < n := hp (a, b) (by simp)
    obtain ⟨k, hk, hc⟩ := h a ha
    rw [List.countP_cons_of_pos (by simp)] at hc
    obtain ⟨st, k', h1, h2, h3⟩ := addSlot_spec (v := b) (l := nb a) (k := k) (Or.inr (by omega))
    have hadd : nbTableAdd table (a, b) = some (table.set a
        ⟨(nbAdd nb (a, b) a).map some ++ List.replicate k' none, (nbAdd nb (a, b) a).length⟩) := by
      simp only [nbTableAdd, hk, NbArray.add, h1, Option.bind_eq_bind, Option.bind_some, Option.pure_def]
      congr 2
      simp only [nbAdd]
      by_cases hb : b ∈ nb a
      · rw [if_pos hb] at h2 ⊢
        simp [h3, hb]
      · rw [if_neg hb] at h2 ⊢
        simp [h3, hb, NbMap.set_self]
    have := ih (table.set a ⟨(nbAdd nb (a, b) a).map some ++ List.replicate k' none, (nbAdd nb (a, b) a).length⟩) (nbAdd nb (a, b))
      (fun p hp' => hp p (by simp [hp'])) (by rw [List.length_set]; exact hl) (by
        intro x hx
        by_cases hxa : x = a
        · subst hxa
          refine ⟨k', by rw [List.getElem?_set_self (by omega)], ?_⟩
          split at h2
          · omega
          · rw [List.length_append, List.length_singleton] at h2; omega
        · obtain ⟨kx, hkx, hcx⟩ := h x hx
          refine ⟨kx, ?_, ?_⟩
          · rw [List.getElem?_set_ne (Ne.symm hxa), hkx]
            have : nbAdd nb (a, b) x = nb x := by
              simp only [nbAdd]
              split
              · rfl
              · exact NbMap.set_ne _ _ hxa
            rw [this]
          · rw [List.countP_cons_of_neg (by simpa using Ne.symm hxa)] at hcx
            exact hcx)
    obtain ⟨table', h4, h5⟩ := this
    refine ⟨table', ?_, h5⟩
    rw [List.foldlM_cons, hadd]
    exact h4

theorem makeNbTable_spec {p1 p2 : List Nat} (h1 : IsIntPerm p1) (h : PermParents p1 p2) (h2 : 2 ≤ p1.length) :
    ∃ nb table, makeNbMap p1 p2 = some nb ∧ makeNbTable p1 p2 = some table ∧ NbRep p1.length table nb := by
  obtain ⟨pairs, hp, hm, hc⟩ := neighbourPairs_spec h.2.length_eq.symm h2
  have hlt : ∀ x y, (x, y) ∈ pairs → x < p1.length ∧ y < p1.length := by
    intro x y hxy
    rw [hm] at hxy
    rcases hxy with h3 | h3
    · exact ⟨IsIntPerm.lt h1 h3.mem.1, IsIntPerm.lt h1 h3.mem.2⟩
    · exact ⟨IsIntPerm.lt h1 (h.2.mem_iff.1 h3.mem.1), IsIntPerm.lt h1 (h.2.mem_iff.1 h3.mem.2)⟩
  obtain ⟨table, ht, hl, htab⟩ := makeNbTable_sim (n := p1.length) pairs (List.replicate p1.length NbArray.empty) (fun _ => [])
    (fun p hp' => (hlt p.1 p.2 hp').1) (by simp) (by
      intro x hx
      refine ⟨4, ?_, hc x h.1 (h.2.nodup_iff.2 h.1)⟩
      rw [List.getElem?_replicate, if_pos hx]
      rfl)
  obtain ⟨hn, hmem⟩ := nbAdd_fold pairs (fun _ => []) (fun _ => List.nodup_nil)
  refine ⟨_, table, by simp only [makeNbMap, hp]; rfl, by simp only [makeNbTable, hp]; exact ht, hl, ?_⟩
  intro x hx
  obtain ⟨k, hk⟩ := htab x hx
  refine ⟨hn x, ?_, _, hk, ?_, rfl⟩
  · intro y hy
    rw [hmem] at hy
    rcases hy with hy | hy
    · simp at hy
    · exact (hlt x y hy).2
  · simp [NbArray.genes, List.filterMap_append, List.filterMap_map]

theorem edgeLoopU_spec {p1 p2 : List Nat} (hi : IsIntPerm p1) (h : PermParents p1 p2) :
    ∀ (m : Nat) (done : List Nat) (last : Nat) (nb : NbMap Nat) (table : List NbArray) (used : List Bool),
    (done ++ [last]).Nodup → (∀ x ∈ done ++ [last], x ∈ p1) → (done ++ [last]).length + m = p1.length → (done ++ [last])[0]? = p1[0]? →
    EdgeInv p1 p2 done nb → NbRep p1.length table nb → used.length = p1.length →
    (∀ x, x < p1.length → (used[x]? = some true ↔ x ∈ done ++ [last])) →
    (∀ t last' next', (done ++ [last])[t]? = some last' → (done ++ [last])[t + 1]? = some next' →
      ∃ d, SmallestUnused p1 ((done ++ [last]).take (t + 1)) d ∧
        IsEdgeChoice p1 p2 ((done ++ [last]).take (t + 1)) last' d next') →
    ∃ child, edgeLoopU m (done ++ [last]) used table = some child ∧ IsEdgeChild p1 p2 (SmallestUnused p1) child := by
  have hmemlt : ∀ x, x ∈ p1 ↔ x < p1.length := by
    intro x; rw [hi.mem_iff, List.mem_range]
  intro m
  induction m with
  | zero =>
    intro done last nb table used hn hs hlen h0 _ _ _ _ hg
    refine ⟨_, rfl, ?_, h0, hg⟩
    exact (perm_of_subset hn hs (by omega)).symm
  | succ m ih =>
    intro done last nb table used hn hs hlen h0 hI hR hul hused hg
    have hex : ∃ x ∈ p1, x ∉ done ++ [last] := by
      by_contra hcon
      push Not at hcon
      have := (List.subperm_of_subset h.1 (fun x hx => hcon x hx)).length_le
      omega
    generalize hd : used.findIdx (· == false) = d
    have hdlt : d < used.length := by
      rw [← hd]
      obtain ⟨x, hx, hxd⟩ := hex
      have hxl := (hmemlt x).1 hx
      apply List.findIdx_lt_length_of_exists
      refine ⟨used[x], List.getElem_mem (by omega), ?_⟩
      have : ¬ used[x]? = some true := by rw [hused x hxl]; exact hxd
      rw [List.getElem?_eq_getElem (by omega), Option.some.injEq] at this
      simpa using this
    have hdu : d ∉ done ++ [last] := by
      rw [← hused d (by omega)]
      have : used.findIdx (· == false) < used.length := by rw [hd]; exact hdlt
      have h1 := List.findIdx_getElem (w := this)
      simp only [beq_iff_eq, hd] at h1
      rw [List.getElem?_eq_getElem hdlt, h1]
      simp
    have hdp : d ∈ p1 := (hmemlt d).2 (by omega)
    have hsm : SmallestUnused p1 (done ++ [last]) d := by
      refine ⟨hdp, hdu, ?_⟩
      intro x hx hxu
      by_contra hlt
      push Not at hlt
      rw [← hd] at hlt
      have h1 := List.not_of_lt_findIdx hlt
      have hxl := (hmemlt x).1 hx
      apply hxu
      rw [← hused x hxl, List.getElem?_eq_getElem (by omega)]
      simpa using h1
    have hlast : last ∈ p1 := hs last (by simp)
    have hlastnd : last ∉ done := by
      rw [List.nodup_append] at hn
      intro hl; exact hn.2.2 last hl last (by simp) rfl
    obtain ⟨next, nb', hpick, hI', hnp, hnu, hch⟩ := edge_step h hlast hlastnd hdp hdu hI
    obtain ⟨_, hbl, l, hl, hlg, _⟩ := hR.2 last ((hmemlt last).1 hlast)
    obtain ⟨table', hpu, hR'⟩ := edgePickU_sim l.slots d table nb (next, nb') hR
      (by intro y hy; exact hbl y (by rw [← hlg]; exact hy)) (by omega)
      (by have : l.slots.filterMap id = nb last := hlg
          rw [this]; exact hpick)
    have hnl : next < used.length := by rw [hul]; exact (hmemlt next).1 hnp
    have := ih (done ++ [last]) next nb' table' (used.set next true) (by
        rw [List.nodup_append]
        refine ⟨hn, List.nodup_singleton _, ?_⟩
        intro a ha b hb; rw [List.mem_singleton] at hb; subst hb
        intro e; exact hnu (e ▸ ha))
      (by
        intro x hx
        rw [List.mem_append, List.mem_singleton] at hx
        rcases hx with hx | rfl
        · exact hs x hx
        · exact hnp)
      (by rw [List.length_append, List.length_singleton]; omega)
      (by rw [List.getElem?_append_left (by simp)]; exact h0) hI' hR' (by rw [List.length_set]; exact hul)
      (by
        intro x hx
        by_cases hxn : x = next
        · subst hxn
          rw [List.getElem?_set_self (by omega)]; simp
        · rw [List.getElem?_set_ne (Ne.symm hxn), hused x hx, List.mem_append (t := [next]), List.mem_singleton]
          exact ⟨Or.inl, fun h => h.resolve_right hxn⟩)
      (edgeRule_snoc hg (by simp) ⟨d, hsm, hch⟩)
    obtain ⟨child, hc1, hc2⟩ := this
    refine ⟨child, ?_, hc2⟩
    rw [← hc1]
    have hgl : (done ++ [last]).getLast? = some last := by simp
    simp only [edgeLoopU, hgl, hl, hd, Option.bind_eq_bind, Option.bind_some, hpu, if_pos hnl]

/-- Edge crossover for unsigned integers. -/
theorem edgeUnsigned_spec {p1 p2 : List Nat} (h1 : IsIntPerm p1) (hp2 : IsIntPerm p2) (hl : p1.length = p2.length)
    (h2 : 2 ≤ p1.length) : ∃ child, edgeUnsigned p1 p2 = some child ∧ IsEdgeChild p1 p2 (SmallestUnused p1) child := by
  have h := IsIntPerm.permParents h1 hp2 hl
  obtain ⟨nb, table, hnb, ht, hR⟩ := makeNbTable_spec h1 h h2
  obtain ⟨nb', hnb', hI⟩ := edgeInv_init h h2
  obtain rfl : nb = nb' := Option.some.inj (hnb.symm.trans hnb')
  have hg0 : ∃ g, p1[0]? = some g := ⟨p1[0], List.getElem?_eq_getElem (by omega)⟩
  obtain ⟨g, hg⟩ := hg0
  have hgm : g ∈ p1 := List.mem_of_getElem? hg
  have hgl := IsIntPerm.lt h1 hgm
  have := edgeLoopU_spec h1 h (p1.length - 1) [] g nb table ((List.replicate p1.length false).set g true) (by simp)
    (by simpa using hgm) (by simp; omega) (by simp [hg]) hI hR (by simp) (by
      intro x hx
      by_cases hxg : x = g
      · subst hxg
        rw [List.getElem?_set_self (by simpa using hx)]; simp
      · rw [List.getElem?_set_ne (Ne.symm hxg), List.getElem?_replicate, if_pos hx]
        simp [hxg])
    (by intro t l n _ hn; simp at hn)
  obtain ⟨child, hc, hs⟩ := this
  refine ⟨child, ?_, hs⟩
  rw [← hc]
  have hh : p1.head? = some g := by rw [List.head?_eq_getElem?, hg]
  simp only [edgeUnsigned, ht, hh, Option.bind_eq_bind, Option.bind_some, if_pos hgl, List.nil_append]

end Gapp.Model
