import Verif.Model.StopCondition
import Verif.Spec.StopCondition
import Verif.Proofs.Float
import Verif.Props.Stats
/-!
# C26, C27, C28: stop conditions
-/

namespace Gapp.Props
open Gapp.Model Gapp.Spec

/-! ## C26: composite conditions -/

section
variable {L I : Type}

/-- C26: whatever the tree and its leaves, it stops in the last generation. -/
theorem C26_stops_at_max_gen (step : L → I → L × Bool) (ga : I) (t : StopTree L) : (t.call step ga true).2 = true := by
  cases t with
  | leaf l => simp [StopTree.call]
  | or a b =>
    simp only [StopTree.call]
    split <;> simp
  | and a b => simp [StopTree.call]
  | not a => simp [StopTree.call]

/-- C26: if the leaves have no state then before the last generation the tree stops exactly when the formula holds, and the tree does not change. -/
theorem C26_formula (step : L → I → L × Bool) (v : L → I → Bool) (hstep : ∀ l ga, step l ga = (l, v l ga)) (ga : I) (t : StopTree L) :
    t.call step ga false = (t, formula (fun l => v l ga) t) := by
  induction t with
  | leaf l => simp [StopTree.call, hstep, formula]
  | or a b iha ihb =>
    simp only [StopTree.call, iha, ihb, formula]
    cases h : formula (fun l => v l ga) a <;> simp
  | and a b iha ihb => simp [StopTree.call, iha, ihb, formula]
  | not a iha => simp [StopTree.call, iha, formula]

/-- C26: for leaves with a state too, the verdict before the last generation is the formula over the verdicts of the leaves. -/
theorem C26_formula_stateful (step : L → I → L × Bool) (ga : I) (t : StopTree L) :
    (t.call step ga false).2 = formula (fun l => (step l ga).2) t := by
  induction t with
  | leaf l => simp [StopTree.call, formula]
  | or a b iha ihb =>
    simp only [StopTree.call, formula]
    rw [iha] at *
    cases h : formula (fun l => (step l ga).2) a <;> simp [ihb]
  | and a b iha ihb => simp [StopTree.call, iha, ihb, formula]
  | not a iha => simp [StopTree.call, iha, formula]

theorem orFree_call (step : L → I → L × Bool) (ga : I) (atEnd : Bool) (t : StopTree L) (h : orFree t) :
    (t.call step ga atEnd).1 = mapLeaves (fun l => (step l ga).1) t := by
  induction t with
  | leaf l => rfl
  | or a b => exact h.elim
  | and a b iha ihb => simp [StopTree.call, iha h.1, ihb h.2, mapLeaves]
  | not a iha => simp [StopTree.call, iha h, mapLeaves]

/-- C26: if no `||` is inside of a `&&` or a `!` then as long as the tree does not stop the algorithm every leaf is evaluated in every generation, as if it were used alone. -/
theorem C26_every_leaf_evaluated_partial (step : L → I → L × Bool) (ga : I) (atEnd : Bool) (t : StopTree L) (h : orOnTop t)
    (hgo : (t.call step ga atEnd).2 = false) : (t.call step ga atEnd).1 = mapLeaves (fun l => (step l ga).1) t := by
  induction t with
  | leaf l => rfl
  | or a b iha ihb =>
    simp only [StopTree.call] at hgo ⊢
    cases ha : (a.call step ga atEnd).2 with
    | true => simp [ha] at hgo
    | false =>
      simp only [ha, Bool.false_eq_true, if_false] at hgo ⊢
      rw [Bool.or_eq_false_iff] at hgo
      rw [iha h.1 ha, ihb h.2 hgo.1]; rfl
  | and a b => exact orFree_call step ga atEnd _ h
  | not a => exact orFree_call step ga atEnd _ h

/-- C26: a leaf on the right of a `||` that is inside of a `&&` or a `!` can be skipped, and its state then misses a generation although the algorithm goes on: here the leaf counts
the generations. -/
theorem C26_leaf_skipped :
    ∃ (step : Nat → Unit → Nat × Bool) (t : StopTree Nat), (t.call step () false).2 = false ∧
      (t.call step () false).1 ≠ mapLeaves (fun l => (step l ()).1) t :=
  ⟨fun n _ => (n + 1, n == 0), .not (.or (.leaf 0) (.leaf 5)), by decide, by decide⟩

/-- C26: initializing a tree initializes all of its leaves. -/
theorem C26_initialize (init0 : L → I → L) (ga : I) (t : StopTree L) : t.init init0 ga = mapLeaves (fun l => init0 l ga) t := by
  induction t with
  | leaf l => rfl
  | or a b iha ihb => simp [StopTree.init, mapLeaves, iha, ihb]
  | and a b iha ihb => simp [StopTree.init, mapLeaves, iha, ihb]
  | not a iha => simp [StopTree.init, mapLeaves, iha]

example : orOnTop (.or (.leaf 0) (.and (.leaf 1) (.not (.leaf 2)))) := ⟨trivial, trivial, trivial⟩
example : (StopTree.call (fun (n : Nat) (_ : Unit) => (n + 1, n == 9)) () false (.or (.leaf 0) (.and (.leaf 1) (.not (.leaf 2))))).2 = false := by decide
end

/-! ## C27: stall conditions -/

section
variable {K : Type} [CommRing K] [LinearOrder K] [IsStrictOrderedRing K]

omit [IsStrictOrderedRing K] in
theorem ge_addFin_iff (delta : K) (b x : Flt K) : x ≥ b.addFin delta ↔ AtLeastBy delta b x := by
  cases b <;> cases x <;> simp [Flt.addFin, AtLeastBy, ← not_lt]

omit [IsStrictOrderedRing K] in
theorem metricImproved_spec (delta : K) : ∀ (best new : FVec K), best.length = new.length →
    (metricImproved delta best new).1.length = new.length ∧
    (∀ (i : Nat) (b x : Flt K), best[i]? = some b → new[i]? = some x → (AtLeastBy delta b x → (metricImproved delta best new).1[i]? = some x) ∧
      (¬ AtLeastBy delta b x → (metricImproved delta best new).1[i]? = some b)) ∧
    ((metricImproved delta best new).2 = true ↔ ∃ (i : Nat) (b x : Flt K), best[i]? = some b ∧ new[i]? = some x ∧ AtLeastBy delta b x)
  | [], [], _ => by simp [metricImproved]
  | b :: best, v :: new, h => by
    obtain ⟨h1, h2, h3⟩ := metricImproved_spec delta best new (by simpa using h)
    simp only [metricImproved]
    by_cases hv : v ≥ b.addFin delta
    · have ha := (ge_addFin_iff delta b v).mp hv
      simp only [hv, if_true]
      refine ⟨by simp [h1], ?_, ?_⟩
      · intro i b' x hb hx
        match i with
        | 0 =>
          simp at hb hx
          subst hb; subst hx
          exact ⟨fun _ => rfl, fun hn => absurd ha hn⟩
        | i + 1 => simpa using h2 i b' x (by simpa using hb) (by simpa using hx)
      · simp only [true_iff]
        exact ⟨0, b, v, rfl, rfl, ha⟩
    · have ha : ¬ AtLeastBy delta b v := fun h => hv ((ge_addFin_iff delta b v).mpr h)
      simp only [hv, if_false]
      refine ⟨by simp [h1], ?_, ?_⟩
      · intro i b' x hb hx
        match i with
        | 0 =>
          simp at hb hx
          subst hb; subst hx
          exact ⟨fun hn => absurd hn ha, fun _ => rfl⟩
        | i + 1 => simpa using h2 i b' x (by simpa using hb) (by simpa using hx)
      · rw [h3]
        constructor
        · rintro ⟨i, b', x, e1, e2, e3⟩
          exact ⟨i + 1, b', x, by simpa using e1, by simpa using e2, e3⟩
        · rintro ⟨i, b', x, e1, e2, e3⟩
          match i with
          | 0 =>
            simp at e1 e2
            subst e1; subst e2
            exact absurd e3 ha
          | i + 1 => exact ⟨i, b', x, by simpa using e1, by simpa using e2, e3⟩

/-- The state of a stall condition after the given history, the latest generation first. -/
def stallAfter (s : Stall K) : List (FVec K) → Stall K
  | [] => s
  | now :: earlier => ((stallAfter s earlier).step now).1

/-- The invariant of the stall conditions. -/
structure StallInv (delta : K) (m patience : Nat) (base history : List (FVec K)) (s : Stall K) : Prop where
  delta_eq : s.delta = delta
  patience_eq : s.patience = patience
  best_length : s.best.length = m
  best_eq : ∀ i, i < m → s.best[i]? = some (record delta ((history ++ base).filterMap (fun v => v[i]?)))
  cntr_le : s.cntr ≤ patience + 1
  cntr_iff : ∀ n, n ≤ patience + 1 → (s.cntr ≤ patience + 1 - n ↔ StalledSince delta m n base history)

omit [IsStrictOrderedRing K] in
theorem stalledSince_zero (delta : K) (m : Nat) (base h : List (FVec K)) : StalledSince delta m 0 base h := ⟨Nat.zero_le _, fun k hk => absurd hk (Nat.not_lt_zero _)⟩

omit [IsStrictOrderedRing K] in
theorem stalledSince_nil (delta : K) (m n : Nat) (h : List (FVec K)) : StalledSince delta m n [] h ↔ StalledFor delta m n h := by
  simp [StalledSince, StalledFor]

omit [IsStrictOrderedRing K] in
theorem stalledSince_succ (delta : K) (m n : Nat) (now : FVec K) (base h : List (FVec K)) :
    StalledSince delta m (n + 1) base (now :: h) ↔ ¬ Improved delta m (now :: (h ++ base)) ∧ StalledSince delta m n base h := by
  unfold StalledSince
  constructor
  · rintro ⟨h1, h2⟩
    refine ⟨h2 0 (by omega), by simpa using h1, fun k hk => ?_⟩
    have := h2 (k + 1) (by omega)
    simpa using this
  · rintro ⟨h0, h1, h2⟩
    refine ⟨by simpa using h1, fun k hk => ?_⟩
    match k with
    | 0 => exact h0
    | k + 1 => simpa using h2 k (by omega)

omit [IsStrictOrderedRing K] in
theorem stallInv_step {delta : K} {m patience : Nat} (hp : patience + 1 < 2 ^ 64) {base history : List (FVec K)} {s : Stall K} (hs : StallInv delta m patience base history s)
    (now : FVec K) (hnow : now.length = m) :
    StallInv delta m patience base (now :: history) (s.step now).1 ∧ ((s.step now).2 = true ↔ StalledSince delta m (patience + 1) base (now :: history)) := by
  obtain ⟨hdel, hpat, hbl, hbe, hcl, hci⟩ := hs
  obtain ⟨h1, h2, h3⟩ := metricImproved_spec delta s.best now (by omega)
  have himp : (metricImproved delta s.best now).2 = true ↔ Improved delta m (now :: (history ++ base)) := by
    rw [h3]
    constructor
    · rintro ⟨i, b, x, e1, e2, e3⟩
      have hi : i < m := by rw [← hbl]; exact (List.getElem?_eq_some_iff.mp e1).1
      rw [hbe i hi] at e1
      cases e1
      exact ⟨i, x, hi, e2, e3⟩
    · rintro ⟨i, x, hi, e2, e3⟩
      exact ⟨i, _, x, hbe i hi, e2, e3⟩
  have hinv : StallInv delta m patience base (now :: history) (s.step now).1 := by
    have hbest : (s.step now).1.best = (metricImproved delta s.best now).1 := by
      simp only [Stall.step, hdel]
      split <;> rfl
    refine ⟨?_, ?_, ?_, ?_, ?_, ?_⟩
    · simp only [Stall.step]; split <;> exact hdel
    · simp only [Stall.step]; split <;> exact hpat
    · rw [hbest, h1, hnow]
    · intro i hi
      rw [hbest]
      have hx : now[i]? = some (now[i]'(by omega)) := List.getElem?_eq_getElem (by omega)
      obtain ⟨a, b⟩ := h2 i _ _ (hbe i hi) hx
      have hc : ((now :: history) ++ base).filterMap (fun v => v[i]?) = now[i]'(by omega) :: (history ++ base).filterMap (fun v => v[i]?) := by
        rw [List.cons_append, List.filterMap_cons, hx]
      rw [hc]
      simp only [record]
      split
      · next h => exact a h
      · next h => exact b h
    · simp only [Stall.step]
      split
      · simp only [Stall.reset, hpat]; exact Nat.mod_le _ _
      · dsimp only; omega
    · intro n hn
      by_cases hi : Improved delta m (now :: (history ++ base))
      · have hc : (s.step now).1.cntr = patience + 1 := by
          simp only [Stall.step, hdel, himp.mpr hi, if_true, Stall.reset, hpat]; exact Nat.mod_eq_of_lt hp
        rw [hc]
        match n with
        | 0 => simp [stalledSince_zero]
        | n + 1 =>
          rw [stalledSince_succ]
          constructor
          · intro h; omega
          · rintro ⟨h, -⟩; exact absurd hi h
      · have hf : (metricImproved delta s.best now).2 = false := by
          rw [← Bool.not_eq_true, himp]; exact hi
        have hc : (s.step now).1.cntr = s.cntr - 1 := by
          simp only [Stall.step, hdel, hf, Bool.false_eq_true, if_false]
          split <;> omega
        rw [hc]
        match n with
        | 0 =>
          simp only [stalledSince_zero, iff_true]
          omega
        | n + 1 =>
          rw [stalledSince_succ, ← hci n (by omega)]
          constructor
          · intro h; exact ⟨hi, by omega⟩
          · rintro ⟨-, h⟩; omega
  refine ⟨hinv, ?_⟩
  have : (s.step now).2 = ((s.step now).1.cntr == 0) := rfl
  rw [this, beq_iff_eq, ← hinv.cntr_iff (patience + 1) (Nat.le_refl _)]
  omega

omit [IsStrictOrderedRing K] in
/-- Directly after a reset of the counter. -/
theorem stallInv_reset (s : Stall K) (m : Nat) (hp : s.patience + 1 < 2 ^ 64) (base : List (FVec K)) (hl : s.best.length = m)
    (hb : ∀ i, i < m → s.best[i]? = some (record s.delta (base.filterMap (fun v => v[i]?)))) : StallInv s.delta m s.patience base [] s.reset := by
  have hc : s.reset.cntr = s.patience + 1 := Nat.mod_eq_of_lt hp
  refine ⟨rfl, rfl, hl, hb, hc.le, ?_⟩
  intro n hn
  rw [hc]
  match n with
  | 0 => simp [stalledSince_zero]
  | n + 1 =>
    simp only [StalledSince, List.length_nil]
    constructor
    · intro h; omega
    · rintro ⟨h, -⟩; omega

omit [IsStrictOrderedRing K] in
theorem stallInv_init (s : Stall K) (m : Nat) (hp : s.patience + 1 < 2 ^ 64) : StallInv s.delta m s.patience [] [] (s.init m) :=
  stallInv_reset { s with best := List.replicate m .ninf } m hp [] (by simp) (fun i hi => by simp [hi, record])

omit [IsStrictOrderedRing K] in
theorem stallInv_after {delta : K} {m patience : Nat} (hp : patience + 1 < 2 ^ 64) {base : List (FVec K)} {s : Stall K} (hs : StallInv delta m patience base [] s) :
    ∀ (history : List (FVec K)), (∀ v ∈ history, v.length = m) → StallInv delta m patience base history (stallAfter s history)
  | [], _ => hs
  | now :: earlier, h => (stallInv_step hp (stallInv_after hp hs earlier (fun v hv => h v (by simp [hv]))) now (h now (by simp))).1

omit [IsStrictOrderedRing K] in
/-- C27: a stall condition, initialized and then evaluated once in each generation, stops exactly when none of the last `patience + 1` generations improved the metric. The largest value of the patience
is the exception (`C27_patience_max_violated`). -/
theorem C27_stall_partial (s : Stall K) (hp : s.patience + 1 < 2 ^ 64) (m : Nat) (now : FVec K) (earlier : List (FVec K)) (h : ∀ v ∈ now :: earlier, v.length = m) :
    ((stallAfter (s.init m) earlier).step now).2 = true ↔ StalledFor s.delta m (s.patience + 1) (now :: earlier) :=
  (stallInv_step hp (stallInv_after hp (stallInv_init s m hp) earlier (fun v hv => h v (by simp [hv]))) now (h now (by simp))).2.trans (stalledSince_nil _ _ _ _)

omit [IsStrictOrderedRing K] in
/-- C27: if the patience is set between two generations of a run, then only the generations after this are counted, but the records of the earlier ones remain: the condition stops exactly when none of the last
`patience + 1` generations improved the metric and all of them came after the change. -/
theorem C27_set_patience_partial (s : Stall K) (hs : s.patience + 1 < 2 ^ 64) (patience : Nat) (hp : patience + 1 < 2 ^ 64) (m : Nat) (now : FVec K) (later earlier : List (FVec K))
    (h : ∀ v ∈ now :: (later ++ earlier), v.length = m) :
    ((stallAfter ((stallAfter (s.init m) earlier).setPatience patience) later).step now).2 = true ↔ StalledSince s.delta m (patience + 1) earlier (now :: later) := by
  have h1 := stallInv_after hs (stallInv_init s m hs) earlier (fun v hv => h v (by simp [hv]))
  have hd := h1.delta_eq
  have h2 := stallInv_reset { stallAfter (s.init m) earlier with patience := patience } m hp earlier h1.best_length (fun i hi => by
    have := h1.best_eq i hi
    rw [List.append_nil] at this
    simp only [hd]; exact this)
  have e : StallInv s.delta m patience earlier [] ((stallAfter (s.init m) earlier).setPatience patience) := by
    rw [← hd]; exact h2
  exact (stallInv_step hp (stallInv_after hp e later (fun v hv => h v (by simp [hv]))) now (h now (by simp))).2

omit [IsStrictOrderedRing K] in
/-- C27: with the largest value of the patience the counter wraps around to 0, and the condition stops in every generation, the first one and those with improvements too. -/
theorem C27_patience_max_violated (s : Stall K) (hp : s.patience = 2 ^ 64 - 1) (m : Nat) (now : FVec K) (earlier : List (FVec K)) : ((stallAfter (s.init m) earlier).step now).2 = true := by
  have hstep : ∀ (t : Stall K) (v : FVec K), t.patience = 2 ^ 64 - 1 ∧ t.cntr = 0 → (t.step v).1.patience = 2 ^ 64 - 1 ∧ (t.step v).1.cntr = 0 := by
    rintro t v ⟨h1, h2⟩
    simp only [Stall.step]
    split
    · simp [Stall.reset, h1]
    · simp [h1, h2]
  have hall : ∀ h : List (FVec K), (stallAfter (s.init m) h).patience = 2 ^ 64 - 1 ∧ (stallAfter (s.init m) h).cntr = 0 := by
    intro h
    induction h with
    | nil => simp [stallAfter, Stall.init, Stall.reset, hp]
    | cons v h ih => exact hstep _ v ih
  have := (hstep _ now (hall earlier)).2
  exact beq_iff_eq.mpr this

omit [IsStrictOrderedRing K] in
/-- C27: `initialize` forgets everything about earlier runs. -/
theorem C27_initialize_forgets (s s' : Stall K) (h1 : s.patience = s'.patience) (h2 : s.delta = s'.delta) (m : Nat) : s.init m = s'.init m := by
  cases s; cases s'
  simp only at h1 h2
  subst h1; subst h2
  rfl

omit [IsStrictOrderedRing K] in
/-- C27: the first generation always counts as an improvement. -/
theorem C27_first_generation (delta : K) (m : Nat) (hm : 0 < m) (now : FVec K) (h : now.length = m) : Improved delta m [now] := by
  refine ⟨0, now[0]'(by omega), hm, List.getElem?_eq_getElem (by omega), ?_⟩
  simp only [List.filterMap_nil, record]
  cases now[0]'(by omega) <;> simp [AtLeastBy]

/-- C27: with `delta <= 0` an unchanged metric counts as improved, so the condition never stops on it. -/
theorem C27_delta_not_positive (delta : K) (hd : delta ≤ 0) (m : Nat) (hm : 0 < m) (now : FVec K) (h : now.length = m) (n : Nat) :
    Improved delta m (List.replicate (n + 1) now) := by
  refine ⟨0, now[0]'(by omega), hm, List.getElem?_eq_getElem (by omega), ?_⟩
  have hx : now[0]? = some (now[0]'(by omega)) := List.getElem?_eq_getElem (by omega)
  generalize now[0]'(by omega) = x at hx
  have hrep : ∀ n, (List.replicate n now).filterMap (fun v => v[0]?) = List.replicate n x := by
    intro n
    induction n with
    | zero => rfl
    | succ n ih => rw [List.replicate_succ, List.filterMap_cons, hx, ih]; rfl
  have : ∀ n, AtLeastBy delta (record delta (List.replicate n x)) x ∧ (record delta (List.replicate n x) = .ninf ∨ record delta (List.replicate n x) = x) := by
    intro n
    induction n with
    | zero => refine ⟨?_, Or.inl rfl⟩; cases x <;> simp [record, AtLeastBy]
    | succ n ih =>
      rw [List.replicate_succ]
      simp only [record, ih.1, if_true]
      refine ⟨?_, Or.inr trivial⟩
      cases x <;> simp [AtLeastBy, hd]
  have hh := (this n).1
  rw [← hrep n] at hh
  exact hh

omit [IsStrictOrderedRing K] in
/-- C27: `FitnessBestStall`: the metric is the vector of the largest values of the objectives. Evaluated on the populations of the generations it does what `C27_stall_partial` says, with this
metric. -/
theorem C27_best_stall_partial (s : Stall K) (hp : s.patience + 1 < 2 ^ 64) (m : Nat) (pops : List (List (FVec K))) (hpops : ∀ p ∈ pops, p ≠ [] ∧ IsMatrix m p) :
    ∃ metrics : List (FVec K), List.Forall₂ (fun p v => PerObjective m p v IsMax) pops metrics ∧
      ∀ now earlier, metrics = now :: earlier → ∀ p, pops.head? = some p → ∃ s', bestStallStep (stallAfter (s.init m) earlier) p =
        some (s', open Classical in decide (StalledFor s.delta m (s.patience + 1) metrics)) := by
  classical
  obtain ⟨metrics, hm⟩ : ∃ metrics : List (FVec K), List.Forall₂ (fun p v => maxFitness p = some v ∧ PerObjective m p v IsMax) pops metrics := by
    induction pops with
    | nil => exact ⟨[], .nil⟩
    | cons p pops ih =>
      obtain ⟨ms, h⟩ := ih (fun p hp => hpops p (by simp [hp]))
      obtain ⟨v, h1, h2⟩ := C52_max m p (hpops p (by simp)).2 (hpops p (by simp)).1
      exact ⟨v :: ms, .cons ⟨h1, h2⟩ h⟩
  refine ⟨metrics, hm.imp (fun _ _ h => h.2), ?_⟩
  intro now earlier he p hpp
  subst he
  have hlen : ∀ v ∈ now :: earlier, v.length = m := by
    intro v hv
    obtain ⟨i, hi, rfl⟩ := List.getElem_of_mem hv
    have := List.Forall₂.get hm (i := i) (by rw [hm.length_eq]; exact hi) hi
    exact this.2.1
  cases hm with
  | cons h _ =>
    simp at hpp
    subst hpp
    simp only [bestStallStep, h.1, Option.bind_eq_bind, Option.bind_some, Option.pure_def, Option.some.injEq]
    refine ⟨((stallAfter (s.init m) earlier).step now).1, ?_⟩
    rw [Prod.ext_iff]
    refine ⟨rfl, ?_⟩
    rw [Bool.eq_iff_iff, decide_eq_true_iff]
    exact C27_stall_partial s hp m now earlier hlen

/-- C27: `FitnessMeanStall`, likewise with the means of the objectives. -/
theorem C27_mean_stall_partial {K : Type} [Field K] [LinearOrder K] [IsStrictOrderedRing K] (s : Stall K) (hp : s.patience + 1 < 2 ^ 64) (m : Nat) (pops : List (List (List K))) (hpops : ∀ p ∈ pops, p ≠ [] ∧ IsMatrix m p) :
    ∃ metrics : List (List K), List.Forall₂ (fun p v => PerObjective m p v IsMean) pops metrics ∧
      ∀ now earlier, metrics = now :: earlier → ∀ p, pops.head? = some p → ∃ s', meanStallStep (stallAfter (s.init m) (earlier.map (List.map Flt.fin))) p =
        some (s', open Classical in decide (StalledFor s.delta m (s.patience + 1) (metrics.map (List.map Flt.fin)))) := by
  classical
  obtain ⟨metrics, hm⟩ : ∃ metrics : List (List K), List.Forall₂ (fun p v => fitnessMean p = some v ∧ PerObjective m p v IsMean) pops metrics := by
    induction pops with
    | nil => exact ⟨[], .nil⟩
    | cons p pops ih =>
      obtain ⟨ms, h⟩ := ih (fun p hp => hpops p (by simp [hp]))
      obtain ⟨v, h1, h2⟩ := C52_mean m p (hpops p (by simp)).2 (hpops p (by simp)).1
      exact ⟨v :: ms, .cons ⟨h1, h2⟩ h⟩
  refine ⟨metrics, hm.imp (fun _ _ h => h.2), ?_⟩
  intro now earlier he p hpp
  subst he
  have hlen : ∀ v ∈ (now :: earlier).map (List.map Flt.fin), v.length = m := by
    intro v hv
    obtain ⟨w, hw, rfl⟩ := List.mem_map.mp hv
    obtain ⟨i, hi, rfl⟩ := List.getElem_of_mem hw
    have := List.Forall₂.get hm (i := i) (by rw [hm.length_eq]; exact hi) hi
    rw [List.length_map]
    exact this.2.1
  cases hm with
  | cons h _ =>
    simp at hpp
    subst hpp
    simp only [meanStallStep, h.1, Option.bind_eq_bind, Option.bind_some, Option.pure_def, Option.some.injEq]
    refine ⟨((stallAfter (s.init m) (earlier.map (List.map Flt.fin))).step (now.map Flt.fin)).1, ?_⟩
    rw [Prod.ext_iff]
    refine ⟨rfl, ?_⟩
    rw [Bool.eq_iff_iff, decide_eq_true_iff]
    exact C27_stall_partial s hp m _ _ hlen

end

example : -- patience 1, delta 2: the best value goes 5, 6, 7, 8, 8: improvements in generation 0, 2; stops in generation 4
    let s : Stall ℤ := (⟨[], 1, 2, 0⟩ : Stall ℤ).init 1
    [([] : List (FVec ℤ)), [[.fin 5]], [[.fin 6], [.fin 5]], [[.fin 7], [.fin 6], [.fin 5]], [[.fin 8], [.fin 7], [.fin 6], [.fin 5]]].map
      (fun h => ((stallAfter s h).step [.fin (if h.length = 0 then 5 else if h.length = 1 then 6 else if h.length = 2 then 7 else 8)]).2) =
    [false, false, false, false, true] := by decide

example : -- the patience is 5 for two stalled generations, then 0: the next stalled generation stops; without the change it does not
    let s : Stall ℤ := (⟨[], 5, 1, 0⟩ : Stall ℤ).init 1
    ((stallAfter ((stallAfter s [[.fin 3], [.fin 3], [.fin 3]]).setPatience 0) []).step [.fin 3]).2 = true ∧ ((stallAfter s [[.fin 3], [.fin 3], [.fin 3]]).step [.fin 3]).2 = false := by decide
example : ((stallAfter ((⟨[], 2 ^ 64 - 1, 1, 0⟩ : Stall ℤ).init 1) []).step [.fin 3]).2 = true := C27_patience_max_violated _ rfl 1 _ _

/-! ## C28: FitnessValue -/

section
variable {K : Type} [CommRing K] [LinearOrder K] [IsStrictOrderedRing K]

/-- The fitness vector is nowhere definitely worse than the threshold. -/
def ReachesThreshold (t : Tol K) (threshold fvec : FVec K) : Prop :=
  ∀ (i : Nat) (x y : Flt K), fvec[i]? = some x → threshold[i]? = some y → ¬ DefinitelyLess t x y

/-- C28, what the condition computes: it stops iff the threshold does not dominate some fitness vector (exact comparison). -/
theorem C28_stops_iff_not_dominated (threshold : FVec K) (fmat : List (FVec K)) :
    fitnessValueStop ⟨0, 0⟩ threshold fmat = true ↔ ∃ fvec ∈ fmat, ¬ ExactDominates threshold fvec := by
  simp only [fitnessValueStop, List.any_eq_true]
  constructor
  · rintro ⟨v, h1, h2⟩
    refine ⟨v, h1, fun h => ?_⟩
    rw [(paretoCompareLess_zero v threshold).mpr h] at h2
    cases h2
  · rintro ⟨v, h1, h2⟩
    refine ⟨v, h1, ?_⟩
    rw [Bool.not_eq_true', ← Bool.not_eq_true, paretoCompareLess_zero]
    exact h2

/-- C28: it stops when a solution is equal to the threshold or better (exact comparison). -/
theorem C28_stops_when_reached (threshold : FVec K) (fmat : List (FVec K)) (h : ∃ fvec ∈ fmat, ReachesThreshold ⟨0, 0⟩ threshold fvec) :
    fitnessValueStop ⟨0, 0⟩ threshold fmat = true := by
  rw [C28_stops_iff_not_dominated]
  obtain ⟨v, h1, h2⟩ := h
  refine ⟨v, h1, ?_⟩
  rintro ⟨-, i, ha, hb, hlt⟩
  refine h2 i v[i] threshold[i] (List.getElem?_eq_getElem ha) (List.getElem?_eq_getElem hb) ?_
  exact (definitelyLess_zero _ _).mpr hlt

/-- C28 for one objective: the condition stops iff some fitness value reaches the threshold. The general case is refuted by `C28_violated`. -/
theorem C28_one_objective_partial (threshold : Flt K) (fmat : List (FVec K)) (hm : ∀ v ∈ fmat, v.length = 1) :
    fitnessValueStop ⟨0, 0⟩ [threshold] fmat = true ↔ ∃ fvec ∈ fmat, ReachesThreshold ⟨0, 0⟩ [threshold] fvec := by
  constructor
  · intro h
    rw [C28_stops_iff_not_dominated] at h
    obtain ⟨v, h1, h2⟩ := h
    refine ⟨v, h1, ?_⟩
    match v, hm v h1 with
    | [x], _ =>
      intro i a b ha hb hlt
      match i with
      | 0 =>
        simp at ha hb
        subst ha; subst hb
        have := (definitelyLess_zero _ _).mp hlt
        exact h2 ⟨fun i h1 h2 => by
          have : i = 0 := by simpa using h1
          subst this
          exact this.le, 0, by simp, by simp, this⟩
      | i + 1 => simp at ha
  · exact C28_stops_when_reached _ _

/-- C28: with two objectives the condition also stops on solutions that miss the threshold in an objective. -/
theorem C28_violated :
    ∃ (threshold : FVec ℤ) (fmat : List (FVec ℤ)), fitnessValueStop ⟨0, 0⟩ threshold fmat = true ∧
      ¬ ∃ fvec ∈ fmat, ReachesThreshold ⟨0, 0⟩ threshold fvec := by
  refine ⟨[.fin 10, .fin 10], [[.fin 11, .fin 0]], by decide, ?_⟩
  rintro ⟨v, hv, h⟩
  simp at hv
  subst hv
  exact h 1 (.fin 0) (.fin 10) rfl rfl (by simp [DefinitelyLess])

end

/-- C26: `FitnessEvals` stops iff the number of evaluations reached the limit. -/
theorem C26_fitness_evals (maxEvals numEvals : Nat) : fitnessEvalsStop maxEvals numEvals = true ↔ maxEvals ≤ numEvals := by
  simp [fitnessEvalsStop]

end Gapp.Props
