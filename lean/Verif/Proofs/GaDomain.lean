import Verif.Proofs.GaLoop
import Verif.Spec.GaDomain
/-!
# The domain of the chromosomes during a run

The operators are arbitrary functions that map chromosomes of a domain to chromosomes of the domain. No assumption about the algorithm, the stop condition, the comparison of the candidates or the
schedules is needed: what they can do is choose among the candidates, or have the run fail.
-/

namespace Gapp.Model
open Gapp.Spec

section
variable {G K A S V : Type} [DecidableEq G] [CommRing K] [LinearOrder K]

/-- Everything that makes chromosomes in a run stays within the domain `D`. -/
structure KeepsDomain (env : GaEnv G K A S V) (initial : List (Cand G (FVec K))) (D : List G → Prop) : Prop where
  generate : ∀ k, D (env.generate k)
  cross : ∀ g k p q, D p.chrom → D q.chrom → D (env.crossMethod g k p q).1.chrom ∧ D (env.crossMethod g k p q).2.chrom
  mutate : ∀ g k c, D c.chrom → D (env.mutate g k c)
  user : UserParts env initial D

theorem selectCopy_mem {α : Type} {v : List α} {idx : List Nat} {r : List α} (h : selectCopy v idx = some r) : ∀ x ∈ r, x ∈ v := by
  unfold selectCopy at h
  induction idx generalizing r with
  | nil => simp at h; subst h; simp
  | cons i idx ih =>
    rw [List.mapM_cons] at h
    cases hi : v[i]? with
    | none => simp [hi] at h
    | some y =>
      cases ht : idx.mapM (fun i => v[i]?) with
      | none => simp [hi, ht] at h
      | some ys =>
        simp [hi, ht] at h
        subst h
        intro x hx
        rcases List.mem_cons.mp hx with rfl | hx
        · exact List.mem_of_getElem? hi
        · exact ih ht x hx

theorem selectMove_mem {α : Type} : ∀ (idx : List Nat) (v : List (Option α)) (r : List (Option α)), selectMove v idx = some r → ∀ x, some x ∈ r → some x ∈ v := by
  intro idx
  induction idx with
  | nil => intro v r h; simp [selectMove] at h; subst h; simp
  | cons i idx ih =>
    intro v r h x hx
    unfold selectMove at h
    cases hi : v[i]? with
    | none => simp [hi] at h
    | some y =>
      cases ht : selectMove (v.set i none) idx with
      | none => simp [hi, ht] at h
      | some ys =>
        simp [hi, ht] at h
        subst h
        rcases List.mem_cons.mp hx with rfl | hx
        · exact List.mem_of_getElem? hi
        · have := ih _ _ ht x hx
          rcases List.mem_or_eq_of_mem_set this with h | h
          · exact h
          · cases h

theorem mapM_id_mem {α : Type} : ∀ (l : List (Option α)) (r : List α), l.mapM id = some r → ∀ x ∈ r, some x ∈ l := by
  intro l
  induction l with
  | nil => intro r h; simp at h; subst h; simp
  | cons y l ih =>
    intro r h x hx
    rw [List.mapM_cons] at h
    cases y with
    | none => simp at h
    | some y =>
      cases ht : l.mapM id with
      | none => simp [ht] at h
      | some ys =>
        simp [ht] at h
        subst h
        rcases List.mem_cons.mp hx with rfl | hx
        · exact List.mem_cons_self
        · exact List.mem_cons_of_mem _ (ih _ ht x hx)

theorem mergeParetoSets_mem {α : Type} (t : Tol K) (fitness : α → FVec K) (lhs rhs : List α) (sched : List Nat) (r : List α) (h : mergeParetoSets t fitness lhs rhs sched = some r) :
    ∀ x ∈ r, x ∈ lhs ∨ x ∈ rhs := by
  unfold mergeParetoSets at h
  split at h
  · obtain rfl := Option.some.inj h; exact fun x hx => Or.inr hx
  split at h
  · obtain rfl := Option.some.inj h; exact fun x hx => Or.inl hx
  have hp : (if rhs.length > lhs.length then (rhs, lhs) else (lhs, rhs)) = (rhs, lhs) ∨ (if rhs.length > lhs.length then (rhs, lhs) else (lhs, rhs)) = (lhs, rhs) := by
    split
    · exact Or.inl rfl
    · exact Or.inr rfl
  generalize (if rhs.length > lhs.length then (rhs, lhs) else (lhs, rhs)) = p at h hp
  dsimp only at h
  split at h
  swap
  · cases h
  obtain rfl := Option.some.inj h
  intro x hx
  have key : ∀ (l : List α) (q : α × Nat → Bool), x ∈ (l.zipIdx.filter q).map (·.1) → x ∈ l := by
    intro l q h
    obtain ⟨p, hp, rfl⟩ := List.mem_map.mp h
    obtain ⟨h1, -⟩ := List.mem_filter.mp hp
    exact (List.mem_zipIdx' h1).2 ▸ List.getElem_mem _
  rcases List.mem_append.mp hx with h | h
  · have := key _ _ h
    rcases hp with rfl | rfl
    · exact Or.inr this
    · exact Or.inl this
  · have := key _ _ h
    rcases hp with rfl | rfl
    · exact Or.inl this
    · exact Or.inr this

theorem uniqueChroms_mem {F : Type} (l : List (Cand G F)) : ∀ c ∈ uniqueChroms l, c ∈ l := by
  have go : ∀ (l : List (Cand G F)) (last : Cand G F), ∀ c ∈ uniqueChroms.go last l, c ∈ l := by
    intro l
    induction l with
    | nil => intro last c hc; simp [uniqueChroms.go] at hc
    | cons y ys ih =>
      intro last c hc
      unfold uniqueChroms.go at hc
      split at hc
      · exact List.mem_cons_of_mem _ (ih _ _ hc)
      · rcases List.mem_cons.mp hc with rfl | hc
        · exact List.mem_cons_self
        · exact List.mem_cons_of_mem _ (ih _ _ hc)
  cases l with
  | nil => simp [uniqueChroms]
  | cons x xs =>
    intro c hc
    unfold uniqueChroms at hc
    rcases List.mem_cons.mp hc with rfl | hc
    · exact List.mem_cons_self
    · exact List.mem_cons_of_mem _ (go _ _ _ hc)

/-- The evaluation does not change the chromosomes, and calls the fitness function for chromosomes of the candidates only. -/
theorem evalAll_domain (env : GaEnv G K A S V) (cache : FifoCache (List G) (FVec K)) (cands : List (Cand G (FVec K))) (evals : Nat) (calls : List (List G)) (sched : List Nat) (res)
    (D : List G → Prop) (hc : ∀ c ∈ cands, D c.chrom) (hl : ∀ x ∈ calls, D x) (h : evalAll env cache cands evals calls sched = some res) :
    (∀ c ∈ res.1, D c.chrom) ∧ ∀ x ∈ res.2.2, D x := by
  have inv : (∀ i, i < cands.length → D ((sched.foldl (evalStep env cache cands.length) ⟨fun i => cands.getD i emptyCand, fun _ => 0, evals, calls, false⟩).cands i).chrom) ∧
      ∀ x ∈ (sched.foldl (evalStep env cache cands.length) ⟨fun i => cands.getD i emptyCand, fun _ => 0, evals, calls, false⟩).calls, D x := by
    have h0 : (∀ i, i < cands.length → D ((⟨fun i => cands.getD i emptyCand, fun _ => 0, evals, calls, false⟩ : EvalState G (FVec K)).cands i).chrom) ∧
        ∀ x ∈ (⟨fun i => cands.getD i emptyCand, fun _ => 0, evals, calls, false⟩ : EvalState G (FVec K)).calls, D x := by
      refine ⟨fun i hi => ?_, hl⟩
      show D (cands.getD i emptyCand).chrom
      rw [List.getD_eq_getElem?_getD, List.getElem?_eq_getElem hi]
      exact hc _ (List.getElem_mem hi)
    generalize (⟨fun i => cands.getD i emptyCand, fun _ => 0, evals, calls, false⟩ : EvalState G (FVec K)) = st0 at h0 ⊢
    clear h
    induction sched generalizing st0 with
    | nil => exact h0
    | cons i sched ih =>
      refine ih _ ?_
      obtain ⟨a, b⟩ := h0
      have hup : ∀ (c : Cand G (FVec K)), c.chrom = (st0.cands i).chrom → ∀ j, j < cands.length → D (upd st0.cands i c j).chrom := by
        intro c hce j hj
        unfold upd
        split
        · subst_vars; rw [hce]; exact a _ hj
        · exact a _ hj
      unfold evalStep
      split
      swap
      · exact ⟨a, b⟩
      rename_i hi
      dsimp only
      split
      · split
        · exact ⟨a, b⟩
        · split
          · split
            · exact ⟨a, b⟩
            · split
              · exact ⟨hup _ rfl, b⟩
              · exact ⟨a, b⟩
          · exact ⟨a, b⟩
      · exact ⟨a, b⟩
      · refine ⟨hup _ rfl, fun x hx => ?_⟩
        rcases List.mem_append.mp hx with hx | hx
        · exact b x hx
        · rw [List.mem_singleton.mp hx]; exact a i hi
      · exact ⟨a, b⟩
  unfold evalAll at h
  dsimp only at h
  split at h
  swap
  · cases h
  obtain rfl := Option.some.inj h
  refine ⟨fun c hc' => ?_, inv.2⟩
  obtain ⟨i, hi, rfl⟩ := List.mem_map.mp hc'
  exact inv.1 i (List.mem_range.mp hi)

theorem crossover_domain (D : List G → Prop) (eq : List G → List G → Bool) (pc r : K) (method : Cand G (FVec K) → Cand G (FVec K) → Cand G (FVec K) × Cand G (FVec K))
    (p q : Cand G (FVec K)) (hp : D p.chrom) (hq : D q.chrom) (hm : D (method p q).1.chrom ∧ D (method p q).2.chrom) :
    D (crossoverOp eq pc r method p q).1.chrom ∧ D (crossoverOp eq pc r method p q).2.chrom := by
  have hf : ∀ c : Cand G (FVec K), (childFlags eq p q c).chrom = c.chrom := by
    intro c; unfold childFlags; dsimp only; split
    · rfl
    · split <;> rfl
  unfold crossoverOp
  split
  · exact ⟨hp, hq⟩
  · split
    · exact ⟨hp, hq⟩
    · dsimp only
      rw [hf, hf]; exact hm

theorem makePair_domain (env : GaEnv G K A S V) (initial : List (Cand G (FVec K))) (D : List G → Prop) (h : KeepsDomain env initial D) (st : GaState G (FVec K) A V) (alg : A) (k : Nat)
    (hp : ∀ c ∈ st.pop, D c.chrom) (pair) (hpair : makePair env st alg k = some pair) : D pair.1.chrom ∧ D pair.2.chrom := by
  unfold makePair at hpair
  cases h1 : st.pop[env.algSelect alg st.fmat (st.gen + 1) (2 * k)]? with
  | none => simp [h1] at hpair
  | some p =>
    cases h2 : st.pop[env.algSelect alg st.fmat (st.gen + 1) (2 * k + 1)]? with
    | none => simp [h1, h2] at hpair
    | some q =>
      simp only [h1, h2, Option.bind_eq_bind, Option.bind_some] at hpair
      obtain rfl := Option.some.inj hpair
      have d1 := hp p (List.mem_of_getElem? h1)
      have d2 := hp q (List.mem_of_getElem? h2)
      exact crossover_domain D _ _ _ _ _ _ d1 d2 (h.cross _ _ _ _ d1 d2)

theorem assignAt_some {α : Type} {v w : List α} {i : Nat} {x : α} (h : assignAt v i x = some w) : i < v.length ∧ w = v.set i x := by
  unfold assignAt at h
  split at h
  · exact ⟨by assumption, (Option.some.inj h).symm⟩
  · cases h

theorem makeChildren_domain (env : GaEnv G K A S V) (initial : List (Cand G (FVec K))) (D : List G → Prop) (h : KeepsDomain env initial D) (st : GaState G (FVec K) A V) (alg : A)
    (hp : ∀ c ∈ st.pop, D c.chrom) (children) (hch : makeChildren env st alg = some children) : ∀ c ∈ children, D c.chrom := by
  have hloop : ∀ n ch, (List.range n).foldlM (fun children i => do
      let pair ← makePair env st alg i
      let children ← assignAt children (2 * i) pair.1
      assignAt children (2 * i + 1) pair.2) (List.replicate env.popSize emptyCand) = some ch →
      ch.length = env.popSize ∧ ∀ (j : Nat) (c : Cand G (FVec K)), j < 2 * n → ch[j]? = some c → D c.chrom := by
    intro n
    induction n with
    | zero => intro ch h0; simp at h0; subst h0; exact ⟨by simp, fun j c hj => by omega⟩
    | succ n ih =>
      intro ch h0
      rw [List.range_succ, List.foldlM_append] at h0
      cases h1 : (List.range n).foldlM (fun children i => do
        let pair ← makePair env st alg i
        let children ← assignAt children (2 * i) pair.1
        assignAt children (2 * i + 1) pair.2) (List.replicate env.popSize emptyCand) with
      | none => rw [h1] at h0; simp at h0
      | some ch1 =>
        rw [h1] at h0
        obtain ⟨i1, i2⟩ := ih ch1 h1
        simp only [Option.bind_eq_bind, Option.bind_some, List.foldlM_cons, List.foldlM_nil] at h0
        cases h2 : makePair env st alg n with
        | none => simp [h2] at h0
        | some pair =>
          obtain ⟨d1, d2⟩ := makePair_domain env initial D h st alg n hp pair h2
          simp only [h2, Option.bind_some] at h0
          cases h3 : assignAt ch1 (2 * n) pair.1 with
          | none => simp [h3] at h0
          | some ch2 =>
            simp only [h3, Option.bind_some] at h0
            cases h4 : assignAt ch2 (2 * n + 1) pair.2 with
            | none => simp [h4] at h0
            | some ch3 =>
              simp only [h4, Option.bind_some] at h0
              obtain rfl : ch3 = ch := by simpa using h0
              obtain ⟨l1, rfl⟩ := assignAt_some h3
              obtain ⟨l2, rfl⟩ := assignAt_some h4
              refine ⟨by simpa using i1, fun j c hj hc => ?_⟩
              rw [List.getElem?_set] at hc
              split at hc
              · obtain rfl := Option.some.inj hc; exact d2
              · rw [List.getElem?_set] at hc
                split at hc
                · obtain rfl := Option.some.inj hc; exact d1
                · exact i2 j c (by omega) hc
  unfold makeChildren at hch
  dsimp only at hch
  simp only [Option.bind_eq_bind] at hch hloop
  cases h1 : (List.range (env.popSize / 2)).foldlM (fun children i => (makePair env st alg i).bind fun pair =>
        (assignAt children (2 * i) pair.1).bind fun children => assignAt children (2 * i + 1) pair.2) (List.replicate env.popSize emptyCand) with
  | none => rw [h1] at hch; simp at hch
  | some ch1 =>
    obtain ⟨i1, i2⟩ := hloop _ _ h1
    rw [h1] at hch
    simp only [Option.bind_some] at hch
    split at hch
    · rename_i hodd
      cases h2 : makePair env st alg (env.popSize / 2) with
      | none => simp [h2] at hch
      | some pair =>
        obtain ⟨d1, d2⟩ := makePair_domain env initial D h st alg _ hp pair h2
        simp only [h2, Option.bind_some] at hch
        obtain ⟨l1, rfl⟩ := assignAt_some hch
        intro c hc
        obtain ⟨j, hj⟩ := List.getElem?_of_mem hc
        rw [List.getElem?_set] at hj
        split at hj
        · obtain rfl := Option.some.inj hj; exact d1
        · rename_i hne
          have hlt : j < ch1.length := by
            by_contra hge
            rw [List.getElem?_eq_none (by omega)] at hj; cases hj
          exact i2 j c (by omega) hj
    · rename_i hodd
      obtain rfl := Option.some.inj hch
      intro c hc
      obtain ⟨j, hj⟩ := List.getElem?_of_mem hc
      have hlt : j < ch1.length := by
        by_contra hge
        rw [List.getElem?_eq_none (by omega)] at hj; cases hj
      exact i2 j c (by omega) hj

theorem popParetoFront_mem (env : GaEnv G K A S V) (pop r : List (Cand G (FVec K))) (h : popParetoFront env pop = some r) : ∀ c ∈ r, c ∈ pop := by
  unfold popParetoFront at h
  cases h1 : findParetoFront env.tol env.numObj (pop.map (·.fitness)) with
  | none => simp [h1] at h
  | some idx =>
    simp only [h1, Option.bind_eq_bind, Option.bind_some] at h
    exact selectCopy_mem h

theorem updateOptimal_domain (env : GaEnv G K A S V) (initial : List (Cand G (FVec K))) (D : List G → Prop) (h : KeepsDomain env initial D) (st st' : GaState G (FVec K) A V) (hd : InDomain D st)
    (hu : updateOptimal env st = some st') : InDomain D st' := by
  unfold updateOptimal at hu
  cases h1 : optimalSolutions env st.alg st.pop with
  | none => simp [h1] at hu
  | some opt =>
    simp only [h1, Option.bind_eq_bind, Option.bind_some] at hu
    cases h2 : mergeParetoSets env.tol (·.fitness) st.sols opt (env.mergeSched st.gen st.sols.length opt.length) with
    | none => simp [h2] at hu
    | some merged =>
      simp only [h2, Option.bind_some] at hu
      obtain rfl := Option.some.inj hu
      refine ⟨hd.pop, fun c hc => ?_, hd.calls⟩
      rcases mergeParetoSets_mem _ _ _ _ _ _ h2 c (h.user.sort _ _ (uniqueChroms_mem _ c hc)) with h3 | h3
      · exact hd.sols c h3
      · unfold optimalSolutions at h1
        dsimp only at h1
        split at h1
        · exact hd.pop c (popParetoFront_mem env _ _ h1 c h3)
        · exact hd.pop c (selectCopy_mem h1 c h3)

theorem nextPopulation_mem (env : GaEnv G K A S V) (alg : A) (gen : Nat) (parents children : List (Cand G (FVec K))) (r) (h : nextPopulation env alg gen parents children = some r) :
    ∀ c ∈ r.1, c ∈ parents ∨ c ∈ children := by
  unfold nextPopulation at h
  dsimp only at h
  cases h1 : selectMove ((parents ++ children).map some) (env.algNext alg ((parents ++ children).map (·.fitness)) gen).1 with
  | none => rw [h1] at h; cases h
  | some moved =>
    simp only [h1, Option.bind_eq_bind, Option.bind_some] at h
    cases h2 : moved.mapM id with
    | none => rw [h2] at h; cases h
    | some pop =>
      rw [h2] at h
      simp only [Option.bind_some] at h
      obtain rfl := Option.some.inj h
      intro c hc
      have h3 := selectMove_mem _ _ _ h1 c (mapM_id_mem _ _ h2 c hc)
      obtain ⟨c', hc', he⟩ := List.mem_map.mp h3
      obtain rfl := Option.some.inj he
      exact List.mem_append.mp hc'

theorem repair_domain (D : List G → Prop) (repair : Option (List G → List G)) (hr : ∀ r, repair = some r → ∀ x, D x → D (r x)) (c : Cand G (FVec K)) (hc : D c.chrom) :
    D (repairOp repair c).chrom := by
  unfold repairOp
  split
  · exact hc
  · rename_i r
    dsimp only
    split
    · exact hr r rfl _ hc
    · exact hc

theorem mutation_domain (D : List G → Prop) (eq : List G → List G → Bool) (mutate : Cand G (FVec K) → List G) (c : Cand G (FVec K)) (hm : D (mutate c)) : D (mutationOp eq mutate c).chrom := by
  unfold mutationOp
  split <;> exact hm

theorem gaInit_domain (env : GaEnv G K A S V) (prev : GaState G (FVec K) A V) (initial : List (Cand G (FVec K))) (D : List G → Prop) (h : KeepsDomain env initial D) (st)
    (hs : gaInit env prev initial = some st) : InDomain D st := by
  have hgen : ∀ c ∈ generatePopulation env initial, D c.chrom := by
    rw [generatePopulation_eq]
    intro c hc
    rcases List.mem_append.mp hc with hc | hc
    · exact h.user.initial c (List.mem_of_mem_take hc)
    · obtain ⟨j, -, rfl⟩ := List.mem_map.mp hc
      exact h.generate _
  unfold gaInit at hs
  dsimp only at hs
  cases h1 : prev.cache.reset ((if env.dynamic then 0 else 1) * env.cachedGens * env.popSize) env.cacheExtra with
  | none => simp only [h1, Option.bind_eq_bind, Option.bind_none] at hs; cases hs
  | some cache =>
    simp only [h1, Option.bind_eq_bind, Option.bind_some] at hs
    cases h2 : evalAll env cache (generatePopulation env initial) 0 [env.generate 0] (env.evalSched 0) with
    | none => simp only [h2, Option.bind_none] at hs; cases hs
    | some res =>
      obtain ⟨r1, r2⟩ := evalAll_domain env cache _ 0 _ _ res D hgen (by intro x hx; rw [List.mem_singleton.mp hx]; exact h.generate 0) h2
      simp only [h2, Option.bind_some] at hs
      cases h3 : initialSols env res.1 with
      | none => simp only [h3, Option.bind_none] at hs; cases hs
      | some sols =>
        simp only [h3, Option.bind_some] at hs
        obtain rfl := Option.some.inj hs
        refine ⟨r1, fun c hc => ?_, r2⟩
        have hc : c ∈ sols := hc
        unfold initialSols at h3
        split at h3
        · exact r1 c (popParetoFront_mem env _ _ h3 c hc)
        · obtain rfl := Option.some.inj h3; simp at hc

theorem advance_domain (env : GaEnv G K A S V) (initial : List (Cand G (FVec K))) (D : List G → Prop) (h : KeepsDomain env initial D) (st st' : GaState G (FVec K) A V) (hd : InDomain D st)
    (hs : advance env st = some st') : InDomain D st' := by
  unfold advance at hs
  split at hs
  swap
  · cases hs
  dsimp only at hs
  simp only [Option.bind_eq_bind] at hs
  cases h1 : makeChildren env { st with alg := env.algPrepare st.alg st.fmat } (env.algPrepare st.alg st.fmat) with
  | none => simp [h1] at hs
  | some children =>
    have c1 := makeChildren_domain env initial D h _ _ (by exact hd.pop) children h1
    simp only [h1, Option.bind_some] at hs
    have c2 : ∀ c ∈ children.zipIdx.map (fun p => repairOp env.repair (mutationOp env.eq (env.mutate (st.gen + 1) p.2) p.1)), D c.chrom := by
      intro c hc
      obtain ⟨p, hp, rfl⟩ := List.mem_map.mp hc
      have hm : p.1 ∈ children := by
        obtain ⟨h3, h4⟩ := List.mem_zipIdx' hp
        rw [h4]; exact List.getElem_mem _
      exact repair_domain D _ h.user.repair _ (mutation_domain D _ _ _ (h.mutate _ _ _ (c1 _ hm)))
    cases h2 : evalAll env st.cache (children.zipIdx.map (fun p => repairOp env.repair (mutationOp env.eq (env.mutate (st.gen + 1) p.2) p.1))) st.evals st.calls (env.evalSched (st.gen + 1)) with
    | none => simp [h2] at hs
    | some res =>
      obtain ⟨r1, r2⟩ := evalAll_domain env _ _ _ _ _ res D c2 hd.calls h2
      simp only [h2, Option.bind_some] at hs
      cases h3 : updatePopulation env { st with alg := env.algPrepare st.alg st.fmat, evals := res.2.1, calls := res.2.2 } res.1 with
      | none => simp [h3] at hs
      | some st1 =>
        have d1 : InDomain D st1 := by
          unfold updatePopulation at h3
          simp only [Option.bind_eq_bind] at h3
          cases h4 : st.cache.insertRange (st.pop.map (fun c => (c.chrom, c.fitness))) with
          | none => simp [h4] at h3
          | some cache =>
            simp only [h4, Option.bind_some] at h3
            cases h5 : nextPopulation env (env.algPrepare st.alg st.fmat) (st.gen + 1) st.pop res.1 with
            | none => simp [h5] at h3
            | some np =>
              simp only [h5, Option.bind_some] at h3
              obtain rfl := Option.some.inj h3
              refine ⟨fun c hc => ?_, hd.sols, r2⟩
              rcases nextPopulation_mem env _ _ _ _ _ h5 c hc with hc | hc
              · exact hd.pop c hc
              · exact r1 c hc
        simp only [h3, Option.bind_some] at hs
        cases h4 : collectOptimal env st1 with
        | none => simp [h4] at hs
        | some st2 =>
          simp only [h4, Option.bind_some] at hs
          obtain rfl := Option.some.inj hs
          have d2 : InDomain D st2 := by
            unfold collectOptimal at h4
            split at h4
            · exact updateOptimal_domain env initial D h _ _ d1 h4
            · obtain rfl := Option.some.inj h4; exact d1
          exact ⟨d2.pop, d2.sols, d2.calls⟩

theorem gaGens_domain (env : GaEnv G K A S V) (prev : GaState G (FVec K) A V) (initial : List (Cand G (FVec K))) (D : List G → Prop) (h : KeepsDomain env initial D) :
    ∀ n st, gaGens env prev initial n = some st → InDomain D st := by
  intro n
  induction n with
  | zero => intro st hs; exact gaInit_domain env prev initial D h st hs
  | succ n ih =>
    intro st hs
    unfold gaGens at hs
    cases h1 : gaGens env prev initial n with
    | none => simp [h1] at hs
    | some st0 =>
      simp only [h1, Option.bind_eq_bind, Option.bind_some] at hs
      exact advance_domain env initial D h st0 st (ih st0 h1) hs

theorem solveLoop_domain (env : GaEnv G K A S V) (initial : List (Cand G (FVec K))) (D : List G → Prop) (h : KeepsDomain env initial D) :
    ∀ fuel s st st', InDomain D st → solveLoop env fuel s st = some st' → InDomain D st' := by
  intro fuel
  induction fuel with
  | zero => intro s st st' _ hs; cases hs
  | succ fuel ih =>
    intro s st st' hd hs
    unfold solveLoop at hs
    dsimp only at hs
    split at hs
    · obtain rfl := Option.some.inj hs; exact hd
    · cases h1 : advance env st with
      | none => simp [h1] at hs
      | some st1 =>
        simp only [h1, Option.bind_eq_bind, Option.bind_some] at hs
        exact ih _ _ _ (advance_domain env initial D h st st1 hd h1) hs

theorem gaSolve_domain (env : GaEnv G K A S V) (prev : GaState G (FVec K) A V) (initial : List (Cand G (FVec K))) (D : List G → Prop) (h : KeepsDomain env initial D) (st)
    (hs : gaSolve env prev initial = some st) : InDomain D st := by
  unfold gaSolve at hs
  cases h1 : gaInit env prev initial with
  | none => simp [h1] at hs
  | some st0 =>
    simp only [h1, Option.bind_eq_bind, Option.bind_some] at hs
    cases h2 : solveLoop env (env.maxGen + 1) (env.stopInit st0) st0 with
    | none => simp [h2] at hs
    | some st1 =>
      simp only [h2, Option.bind_some] at hs
      have d1 := solveLoop_domain env initial D h _ _ _ _ (gaInit_domain env prev initial D h st0 h1) h2
      split at hs
      · obtain rfl := Option.some.inj hs; exact d1
      · exact updateOptimal_domain env initial D h _ _ d1 hs
end

end Gapp.Model
