import Verif.Proofs.CacheVarsRun
/-!
# C92: fitness caches are independent values, also when calls throw
-/

namespace Gapp.Props
open Gapp.Model Gapp.Spec
variable {κ ν : Type} [DecidableEq κ]

/-- C92. Programs over any number of caches, in which any call may fail in the middle. Full statement: the program has undefined behaviour only if it violates a precondition, and the variables are
independent FIFO maps. Missing: a `reset` to another capacity whose second allocation throws (`C92_reset_violated`), and standard libraries whose empty maps have no buckets
(`C92_default_insert_violated`).

The ideal maps (`MapVars.step`) tell whether the program is valid, which calls throw, and what each variable holds, also after a call that threw. The iterators that a cache keeps for the eviction
refer to its own elements, to each of them once, and no element belongs to two caches. -/
theorem C92_caches_partial (E : CvEnv ν) (hdefault : 1 ≤ E.defaultBuckets) (hinit : ∀ n, n ≤ E.initBuckets n) (hrehash : ∀ old n, n ≤ E.rehash old n)
    (n : Nat) (prog : List (Option Nat × CvOp κ ν)) (hsafe : MapVars.SafeProgram E.torn (List.replicate n none) prog) :
    match MapVars.program E.torn (List.replicate n none) prog with
    | none => cvRun E (cvStart κ ν n) prog = .undefined
    | some (d, flags) => ∃ s, cvRun E (cvStart κ ν n) prog = .returned (s, flags) ∧
        (∀ x : Nat, cvObserve s x = ((d[x]?).join).map (fun q => (q.cap, q.entries))) ∧
        (∀ (x : Nat) c q, s.vars[x]? = some (some c) → d[x]? = some (some q) →
          (∀ k, cvGet c k = q.lookup k) ∧ (∀ k, cvHas c.nodes k = true ↔ k ∈ q.entries.map (·.1)) ∧ c.nodes.length = q.entries.length ∧
          q.entries.length ≤ q.cap ∧ (q.entries.map (·.1)).Nodup ∧ c.order.contents = some (c.nodes.map (·.1)) ∧ (c.nodes.map (·.1)).Nodup) ∧
        ∀ (x y : Nat) c e, s.vars[x]? = some (some c) → s.vars[y]? = some (some e) → ∀ p ∈ c.nodes, ∀ r ∈ e.nodes, p.1 = r.1 → x = y := by
  rcases cvRun_ok E ⟨hdefault, hinit, hrehash⟩ prog (cvStart_ok n) hsafe with ⟨h1, h2⟩ | ⟨d, flags, s, h1, h2, h3⟩
  · rw [h1]; exact h2
  · rw [h1]
    refine ⟨s, h2, h3.observe, ?_, ?_⟩
    · intro x c q e1 e2
      have h := h3.ok x c q e1 e2
      exact ⟨h.get, h.has, h.length, h.le_cap, h.nodup, h.order.contents, h.ids⟩
    · intro x y c e hx hy p hp r hr heq
      by_contra hxy
      exact h3.disj x y c e hxy hx hy p hp r hr heq

/-- C92. `==` compares the elements in the order of their insertion; the capacities do not matter. -/
theorem C92_equality [DecidableEq ν] (E : CvEnv ν) (hdefault : 1 ≤ E.defaultBuckets) (hinit : ∀ n, n ≤ E.initBuckets n) (hrehash : ∀ old n, n ≤ E.rehash old n)
    (n : Nat) (prog : List (Option Nat × CvOp κ ν)) (hsafe : MapVars.SafeProgram E.torn (List.replicate n none) prog) (s : CvMem κ ν) (flags : List Bool)
    (hrun : cvRun E (cvStart κ ν n) prog = .returned (s, flags)) (x y : Nat) (a b : CvCache κ ν) (hx : s.vars[x]? = some (some a)) (hy : s.vars[y]? = some (some b)) :
    cvEq a b = some (decide ((cvObserve s x).map (·.2) = (cvObserve s y).map (·.2))) := by
  rcases cvRun_ok E ⟨hdefault, hinit, hrehash⟩ prog (cvStart_ok n) hsafe with ⟨_, h2⟩ | ⟨d, fl, t, _, h2, h3⟩
  · rw [h2] at hrun; cases hrun
  · rw [h2] at hrun; cases hrun
    rcases h3.cases x with ⟨g1, _⟩ | ⟨g1, _⟩ | ⟨c, q, g1, g2, g3⟩
    · rw [g1] at hx; cases hx
    · rw [g1] at hx; cases hx
    · rw [g1] at hx; cases hx
      rcases h3.cases y with ⟨k1, _⟩ | ⟨k1, _⟩ | ⟨c', q', k1, k2, k3⟩
      · rw [k1] at hy; cases hy
      · rw [k1] at hy; cases hy
      · rw [k1] at hy; cases hy
        rw [g3.eq k3, h3.observe, h3.observe, g2, k2]
        simp

/-- C92. The strong guarantee: if a constructor, a copy, an assignment, or the insertion of a key that is not in the cache throws, nothing changes. -/
theorem C92_strong_guarantee (E : CvEnv ν) (hdefault : 1 ≤ E.defaultBuckets) (hinit : ∀ n, n ≤ E.initBuckets n) (hrehash : ∀ old n, n ≤ E.rehash old n)
    (n : Nat) (prog : List (Option Nat × CvOp κ ν)) (hsafe : MapVars.SafeProgram E.torn (List.replicate n none) prog) (s : CvMem κ ν) (flags : List Bool)
    (hrun : cvRun E (cvStart κ ν n) prog = .returned (s, flags)) (limit : Option Nat) (op : CvOp κ ν)
    (hop : match op with
      | .ctor _ _ | .copy _ _ | .assignCopy _ _ | .tryInsert _ _ _ => True
      | .insert x k _ => ∀ c, s.vars[x]? = some (some c) → cvHas c.nodes k = false
      | _ => False)
    (s' : CvMem κ ν) (hthrew : cvStep E s limit op = .threw s') : ∀ x : Nat, cvObserve s' x = cvObserve s x := by
  have hE : E.Good := ⟨hdefault, hinit, hrehash⟩
  rcases cvRun_ok E hE prog (cvStart_ok n) hsafe with ⟨_, h2⟩ | ⟨d, fl, t, _, h2, h3⟩
  · rw [h2] at hrun; cases hrun
  · rw [h2] at hrun; cases hrun
    have hs := cvStep_ok E hE h3 limit op (by rintro x m q rfl; exact absurd hop id)
    rcases hst : d.step E.torn limit op with _ | ⟨d', threw⟩
    · rw [hst] at hs
      simp only at hs
      rw [hs] at hthrew; cases hthrew
    · rw [hst] at hs
      obtain ⟨s1, h4, h5⟩ := hs
      rw [h4] at hthrew
      cases threw with
      | false => simp at hthrew
      | true =>
        simp only [if_true, CbOut.threw.injEq] at hthrew
        subst hthrew
        suffices ∀ x : Nat, d'[x]? = d[x]? by
          intro x; rw [h5.observe, h3.observe, this]
        have put : ∀ (x : Nat) (q : FifoMap κ ν) k v, d[x]? = some (some q) → k ∉ q.entries.map (·.1) →
            d.put x ((q.tryPut E.torn k v limit).1, (q.tryPut E.torn k v limit).2.1) = (d', true) → ∀ y : Nat, d'[y]? = d[y]? := by
          intro x q k v hx hk hp y
          simp only [MapVars.put, Prod.mk.injEq, Bool.not_eq_true'] at hp
          rw [← hp.1]
          have hq : (q.tryPut E.torn k v limit).1 = q := by
            have h6 := hp.2
            unfold FifoMap.tryPut at h6 ⊢
            by_cases hc : q.cap = 0
            · rw [if_pos hc] at h6; cases h6
            · rw [if_neg hc] at h6 ⊢
              cases ht : DequeVars.throws limit 1 with
              | true =>
                rw [if_pos rfl]
                have := map_absent q.entries k (fun p => (k, E.torn p.2 v)) hk
                simp only [this]
              | false => rw [ht, if_neg (by simp)] at h6; cases h6
          rw [hq, cv_set_same hx]
        cases op with
        | ctor x cap =>
          simp only [MapVars.step] at hst
          split at hst
          · split at hst <;> simp at hst
            intro y; rw [hst]
          · simp at hst
        | copy x y =>
          simp only [MapVars.step] at hst
          split at hst
          · split at hst <;> simp at hst
            intro y; rw [hst]
          · simp at hst
        | assignCopy x y =>
          simp only [MapVars.step] at hst
          split at hst
          · split at hst <;> simp at hst
            intro y; rw [hst]
          · simp at hst
        | insert x k v =>
          simp only [MapVars.step] at hst
          split at hst
          · rename_i q hx
            simp only [Option.some.injEq] at hst
            rcases h3.cases x with ⟨_, g2⟩ | ⟨_, g2⟩ | ⟨c, q', g1, g2, g3⟩
            · rw [g2] at hx; cases hx
            · rw [g2] at hx; cases hx
            · rw [g2] at hx; cases hx
              refine put x q k v g2 ?_ hst
              rw [← g3.has k, hop c g1]; simp
          · simp at hst
        | tryInsert x k v =>
          simp only [MapVars.step] at hst
          split at hst
          · rename_i q hx
            split at hst
            · simp at hst
            · rename_i hk
              simp only [Option.some.injEq] at hst
              exact put x q k v hx hk hst
          · simp at hst
        | _ => exact absurd hop (by simp)

/-- One bucket more than is asked for; an assignment that throws leaves 0. -/
def cvExampleEnv : CvEnv Nat := ⟨1, fun n => n + 1, fun _ n => n + 1, fun _ _ => 0⟩

/-- Three caches. The calls that throw: a copy at its second element, the second insertion of a range, an assignment to a value, and a `reset` in its first allocation. -/
def cvExample : List (Option Nat × CvOp Nat Nat) :=
  [(none, .ctor 0 2), (none, .insert 0 1 10), (none, .insert 0 2 20), (some 3, .copy 1 0), (none, .copy 1 0), (none, .insert 0 3 30), (none, .insert 1 1 11), (none, .default 2), (none, .insert 2 7 70),
   (none, .swap 0 2), (none, .assignCopy 0 1), (some 1, .insertRange 1 [(9, 9), (4, 40), (5, 50)]), (some 0, .insert 2 3 31), (none, .ctor 3 1), (none, .assignMove 3 2), (some 0, .reset 1 7)]

example : MapVars.SafeProgram cvExampleEnv.torn (List.replicate 4 none) cvExample := by
  simp only [cvExample, MapVars.SafeProgram]
  simp

example : (MapVars.program (fun _ _ => 0) (List.replicate 4 none) cvExample).map (fun r => (r.1.map (Option.map (fun q => (q.cap, q.entries))), r.2)) =
    some ([some (2, [(1, 11), (2, 20)]), some (2, []), some (0, []), some (2, [(2, 20), (3, 0)])],
      [false, false, false, true, false, false, false, false, false, false, false, true, true, false, false, true]) := by
  rfl

example : (match cvRun cvExampleEnv (cvStart Nat Nat 4) cvExample with
    | .returned (s, flags) => some ((List.range 4).map (cvObserve s), flags)
    | _ => none) =
    some ([some (2, [(1, 11), (2, 20)]), some (2, []), some (0, []), some (2, [(2, 20), (3, 0)])],
      [false, false, false, true, false, false, false, false, false, false, false, true, true, false, false, true]) := by
  rfl

/-- A call as in `C92_strong_guarantee`: the insertion of a new key throws. -/
example : (match cvRun cvExampleEnv (cvStart Nat Nat 1) [(none, .ctor 0 2), (none, .insert 0 1 10)] with
    | .returned (s, _) => (match cvStep cvExampleEnv s (some 0) (.insert 0 2 20) with
      | .threw s' => some (cvObserve s' 0)
      | _ => none)
    | _ => none) = some (some (2, [(1, 10)])) := by decide +kernel

/-- Two caches that are equal, with different capacities. -/
example : (match cvRun cvExampleEnv (cvStart Nat Nat 2) [(none, .ctor 0 2), (none, .ctor 1 3), (none, .insert 0 1 10), (none, .insert 1 1 10)] with
    | .returned (⟨_, [some a, some b]⟩, _) => cvEq a b
    | _ => none) = some true := by decide +kernel

/-- C92. `reset` to another capacity frees the memory of its queue before it allocates; if that throws, the cache keeps the pointer: destroying it, or inserting into it, is undefined.
By the specification both programs are valid. -/
theorem C92_reset_violated :
    (match cvRun cvExampleEnv (cvStart Nat Nat 1) [(none, .ctor 0 2), (some 1, .reset 0 3), (none, .destroy 0)] with | .undefined => true | _ => false) = true ∧
    (match cvRun cvExampleEnv (cvStart Nat Nat 1) [(none, .ctor 0 2), (some 1, .reset 0 3), (none, .insert 0 1 1)] with | .undefined => true | _ => false) = true ∧
    (MapVars.program (κ := Nat) (fun _ _ => 0) (List.replicate 1 none) [(none, .ctor 0 2), (some 1, .reset 0 3), (none, .destroy 0)]).isSome = true ∧
    (MapVars.program (κ := Nat) (fun _ _ => 0) (List.replicate 1 none) [(none, .ctor 0 2), (some 1, .reset 0 3), (none, .insert 0 1 1)]).isSome = true := by
  refine ⟨by decide +kernel, by decide +kernel, by decide +kernel, by decide +kernel⟩

/-- C92. With a standard library whose empty maps have no buckets (libc++), inserting into a cache that was default-constructed or moved from fails an assertion; a cache with the capacity 0 that was
constructed with its capacity ignores insertions. -/
theorem C92_default_insert_violated :
    (match cvRun { cvExampleEnv with defaultBuckets := 0 } (cvStart Nat Nat 1) [(none, .default 0), (none, .insert 0 1 1)] with | .undefined => true | _ => false) = true ∧
    (match cvRun { cvExampleEnv with defaultBuckets := 0 } (cvStart Nat Nat 2) [(none, .ctor 0 2), (none, .move 1 0), (none, .insert 0 1 1)] with | .undefined => true | _ => false) = true ∧
    (match cvRun { cvExampleEnv with defaultBuckets := 0 } (cvStart Nat Nat 1) [(none, .ctor 0 0), (none, .insert 0 1 1)] with | .returned _ => true | _ => false) = true := by
  refine ⟨by decide +kernel, by decide +kernel, by decide +kernel⟩

end Gapp.Props
