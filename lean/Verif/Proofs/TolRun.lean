import Verif.Proofs.TolFront
import Verif.Proofs.GaSolve
import Verif.Props.ParetoFront
/-! Proofs about whole runs of the genetic algorithm for any tolerances. -/

namespace Gapp.Model
open Gapp.Spec Gapp.Props

section
variable {G K A S V : Type} [LinearOrder G] [CommRing K] [LinearOrder K] [IsStrictOrderedRing K]

/-- Contract of an algorithm for any tolerances: it reports no optimal solutions, or a front of the population. -/
def TolOptimal (env : GaEnv G K A S V) (I : A → List (FVec K) → Prop) : Prop :=
  ∀ a fmat, fmat.length = env.popSize → FitMatrix env fmat → I a fmat → env.algOptimal a = [] ∨ FrontTol env.tol fmat (env.algOptimal a)

/-- One step of a chain between the fitness vectors of candidates. -/
def CandRel (t : Tol K) (Q : Cand G (FVec K) → Prop) (a b : FVec K) : Prop :=
  (∃ x, Q x ∧ x.fitness = a) ∧ (∃ y, Q y ∧ y.fitness = b) ∧ Beats t b a

/-- What is known of the candidates of a front. -/
structure CandFront (t : Tol K) (pop o : List (Cand G (FVec K))) : Prop where
  sub : ∀ c ∈ o, c ∈ pop
  cover : ∀ x ∈ pop, x ∈ o ∨ ∃ y ∈ pop, Beats t y.fitness x.fitness
  leads : ∀ x ∈ pop, ∃ y ∈ o, Relation.ReflTransGen (CandRel t (· ∈ pop)) x.fitness y.fitness

omit [LinearOrder G] [IsStrictOrderedRing K] in
theorem front_positions {t : Tol K} (pop : List (Cand G (FVec K))) (idx : List Nat) (h : FrontTol t (pop.map (·.fitness)) idx) :
    ∃ o, selectCopy pop idx = some o ∧ CandFront t pop o ∧ ∀ c, c ∈ o ↔ ∃ i ∈ idx, pop[i]? = some c := by
  have hlt : ∀ i ∈ idx, i < pop.length := fun i hi => by simpa using h.lt i hi
  obtain ⟨o, h1, h2⟩ := C48_select_copy pop idx hlt
  have hmem : ∀ c, c ∈ o ↔ ∃ i ∈ idx, pop[i]? = some c := by
    intro c
    have : some c ∈ o.map some ↔ c ∈ o := by simp
    rw [← this, show o.map some = idx.map (fun i => pop[i]?) from h2.symm, List.mem_map]
  have hget : ∀ (i : Nat) (c : Cand G (FVec K)), pop[i]? = some c → (pop.map (·.fitness)).getD i [] = c.fitness := by
    intro i c hc; simp [List.getD, hc]
  refine ⟨o, h1, ⟨?_, ?_, ?_⟩, hmem⟩
  · intro c hc
    obtain ⟨i, -, hi⟩ := (hmem c).1 hc
    exact List.mem_of_getElem? hi
  · intro x hx
    obtain ⟨i, hi⟩ := List.getElem?_of_mem hx
    have hil := (List.getElem?_eq_some_iff.1 hi).1
    rcases h.cover i (by simpa using hil) with hh | ⟨j, hj, hb⟩
    · exact Or.inl ((hmem x).2 ⟨i, hh, hi⟩)
    · have hj' : j < pop.length := by simpa using hj
      refine Or.inr ⟨pop[j], List.getElem_mem hj', ?_⟩
      have : Beats t ((pop.map (·.fitness)).getD j []) ((pop.map (·.fitness)).getD i []) := hb
      rwa [hget i x hi, hget j _ (List.getElem?_eq_getElem hj')] at this
  · intro x hx
    obtain ⟨i, hi⟩ := List.getElem?_of_mem hx
    have hil := (List.getElem?_eq_some_iff.1 hi).1
    obtain ⟨j, hj, hp⟩ := h.leads i (by simpa using hil)
    have hjl := hlt j hj
    refine ⟨pop[j], (hmem _).2 ⟨j, hj, List.getElem?_eq_getElem hjl⟩, ?_⟩
    have key : Relation.ReflTransGen (CandRel t (· ∈ pop)) ((pop.map (·.fitness)).getD i []) ((pop.map (·.fitness)).getD j []) := by
      refine Relation.ReflTransGen.lift (fun k => (pop.map (·.fitness)).getD k []) ?_ _ _ hp
      rintro a b ⟨ha, hb, hab⟩
      rw [List.length_map] at ha hb
      exact ⟨⟨pop[a], List.getElem_mem ha, (hget a _ (List.getElem?_eq_getElem ha)).symm⟩, ⟨pop[b], List.getElem_mem hb, (hget b _ (List.getElem?_eq_getElem hb)).symm⟩, hab⟩
    rwa [hget i x hi, hget j _ (List.getElem?_eq_getElem hjl)] at key

theorem popParetoFront_tol (env : GaEnv G K A S V) (ht : env.tol.Valid) (hr : env.tol.rel ≤ 1) (pop : List (Cand G (FVec K))) (hm : IsMatrix env.numObj (pop.map (·.fitness))) :
    ∃ o, popParetoFront env pop = some o ∧ CandFront env.tol pop o := by
  obtain ⟨res, h1, h2⟩ := findParetoFront_tol ht hr hm
  unfold popParetoFront
  rw [h1]
  obtain ⟨o, e1, e2, -⟩ := front_positions pop res h2
  exact ⟨o, e1, e2⟩

theorem optimalSolutions_tol (env : GaEnv G K A S V) (ht : env.tol.Valid) (hr : env.tol.rel ≤ 1) (P : List G → FVec K → Prop) (I : A → List (FVec K) → Prop) (hO : TolOptimal env I)
    (hlen : ∀ x v, P x v → v.length = env.numObj ∧ ∃ y, v = env.fitness y) (st : GaState G (FVec K) A V) (inv : GaInv env P I st) :
    ∃ o, optimalSolutions env st.alg st.pop = some o ∧ CandFront env.tol st.pop o := by
  have hm := isMatrix_fitness env P hlen st.pop inv.evaluated
  unfold optimalSolutions
  dsimp only
  split
  · exact popParetoFront_tol env ht hr st.pop hm.1
  · rename_i hne
    have hI := inv.alg
    rw [inv.fmat] at hI
    rcases hO _ _ (by simpa using inv.size) hm hI with h | h
    · simp [h] at hne
    · obtain ⟨o, e1, e2, -⟩ := front_positions st.pop _ h
      exact ⟨o, e1, e2⟩

/-- What `updateOptimalSolutions` does, for any tolerances. -/
structure UpdatedTol (t : Tol K) (sols pop sols' : List (Cand G (FVec K))) : Prop where
  nodup : (sols'.map (·.chrom)).Nodup
  sub : ∀ c ∈ sols', c ∈ sols ∨ c ∈ pop
  cover : ∀ x, x ∈ sols ∨ x ∈ pop → (∃ c ∈ sols', c.chrom = x.chrom) ∨ ∃ y, (y ∈ sols ∨ y ∈ pop) ∧ Beats t y.fitness x.fitness
  leads : ∀ x, x ∈ sols ∨ x ∈ pop → ∃ c ∈ sols', Relation.ReflTransGen (CandRel t (fun z => z ∈ sols ∨ z ∈ pop)) x.fitness c.fitness

theorem updateOptimal_tol (env : GaEnv G K A S V) (ht : env.tol.Valid) (hr : env.tol.rel ≤ 1) (P : List G → FVec K → Prop) (hfun : ∀ x v w, P x v → P x w → v = w) (I : A → List (FVec K) → Prop) (hO : TolOptimal env I)
    (hlen : ∀ x v, P x v → v.length = env.numObj ∧ ∃ y, v = env.fitness y) (hs : SortSolsOk env) (st st' : GaState G (FVec K) A V) (inv : GaInv env P I st) (hP : ∀ c ∈ st.sols, P c.chrom c.fitness)
    (h : updateOptimal env st = some st') :
    UpdatedTol env.tol st.sols st.pop st'.sols ∧ ∃ o merged, optimalSolutions env st.alg st.pop = some o ∧ CandFront env.tol st.pop o ∧
      mergeParetoSets env.tol (·.fitness) st.sols o (env.mergeSched st.gen st.sols.length o.length) = some merged ∧ ∀ c ∈ st'.sols, c ∈ merged := by
  obtain ⟨o, ho1, ho2⟩ := optimalSolutions_tol env ht hr P I hO hlen st inv
  unfold updateOptimal at h
  simp only [Option.bind_eq_bind, ho1, Option.bind_some] at h
  rw [Option.bind_eq_some_iff] at h
  obtain ⟨merged, hm, h⟩ := h
  obtain rfl := Option.some.inj h
  obtain ⟨hmt, -⟩ := mergeParetoSets_tol ht _ _ _ _ _ hm
  obtain ⟨hp, hsorted⟩ := hs merged
  obtain ⟨u1, u2, u3⟩ := uniqueChroms_spec _ hsorted
  have hPall : ∀ c, c ∈ st.sols ∨ c ∈ st.pop → P c.chrom c.fitness := fun c hc => hc.elim (hP c) (fun hc => (inv.evaluated c hc).2)
  have hsub : ∀ c ∈ merged, c ∈ st.sols ∨ c ∈ st.pop := fun c hc => (hmt.mem c hc).imp id (ho2.sub c)
  have hu2 : ∀ c ∈ uniqueChroms (env.sortSols merged), c ∈ merged := fun c hc => hp.mem_iff.mp (u2 c hc)
  have hrep : ∀ x ∈ merged, ∃ c ∈ uniqueChroms (env.sortSols merged), c.chrom = x.chrom ∧ c.fitness = x.fitness := by
    intro x hx
    obtain ⟨c, hc, he⟩ := u3 x (hp.mem_iff.mpr hx)
    refine ⟨c, hc, he, hfun _ _ _ (hPall c (hsub c (hu2 c hc))) ?_⟩
    rw [he]; exact hPall x (hsub x hx)
  refine ⟨⟨u1, fun c hc => hsub c (hu2 c hc), ?_, ?_⟩, o, merged, ho1, ho2, hm, hu2⟩
  · intro x hx
    have : x ∈ merged ∨ ∃ y, (y ∈ st.sols ∨ y ∈ st.pop) ∧ Beats env.tol y.fitness x.fitness := by
      rcases hx with hx | hx
      · exact (hmt.left x hx).imp id fun ⟨y, hy, hb⟩ => ⟨y, Or.inr (ho2.sub y hy), hb⟩
      · rcases ho2.cover x hx with hxo | ⟨y, hy, hb⟩
        · exact (hmt.right x hxo).imp id fun ⟨y, hy, hb⟩ => ⟨y, Or.inl hy, hb⟩
        · exact Or.inr ⟨y, Or.inr hy, hb⟩
    refine this.imp (fun hx => ?_) id
    obtain ⟨c, hc, he, -⟩ := hrep x hx
    exact ⟨c, hc, he⟩
  · intro x hx
    have h1 : ∃ y, (y ∈ st.sols ∨ y ∈ o) ∧ Relation.ReflTransGen (CandRel env.tol (fun z => z ∈ st.sols ∨ z ∈ st.pop)) x.fitness y.fitness := by
      rcases hx with hx | hx
      · exact ⟨x, Or.inl hx, .refl⟩
      · obtain ⟨y, hy, hpth⟩ := ho2.leads x hx
        refine ⟨y, Or.inr hy, Relation.ReflTransGen.mono ?_ _ _ hpth⟩
        rintro a b ⟨⟨x1, hx1, e1⟩, ⟨y1, hy1, e2⟩, hb⟩
        exact ⟨⟨x1, Or.inr hx1, e1⟩, ⟨y1, Or.inr hy1, e2⟩, hb⟩
    obtain ⟨y, hy, hxy⟩ := h1
    obtain ⟨z, hz, hyz⟩ := hmt.leads y hy
    obtain ⟨c, hc, -, he⟩ := hrep z hz
    refine ⟨c, hc, ?_⟩
    rw [he]
    refine hxy.trans (Relation.ReflTransGen.lift (fun c : Cand G (FVec K) => c.fitness) ?_ _ _ hyz)
    rintro a b ⟨ha, hb, hab⟩
    exact ⟨⟨a, ha.imp id (ho2.sub a), rfl⟩, ⟨b, hb.imp id (ho2.sub b), rfl⟩, hab⟩

theorem updateOptimal_ok_tol (env : GaEnv G K A S V) (ht : env.tol.Valid) (hr : env.tol.rel ≤ 1) (P : List G → FVec K → Prop) (I : A → List (FVec K) → Prop) (hO : TolOptimal env I)
    (hlen : ∀ x v, P x v → v.length = env.numObj ∧ ∃ y, v = env.fitness y)
    (hsched : ∀ g l r i, i < max l r → 2 * min l r ≤ (env.mergeSched g l r).count i) (st : GaState G (FVec K) A V) (inv : GaInv env P I st) : ∃ st', updateOptimal env st = some st' := by
  obtain ⟨o, ho1, -⟩ := optimalSolutions_tol env ht hr P I hO hlen st inv
  obtain ⟨m, hm⟩ := C09_merge_completes (·.fitness) env.tol st.sols o (env.mergeSched st.gen st.sols.length o.length) (hsched _ _ _)
  unfold updateOptimal
  simp only [Option.bind_eq_bind, ho1, Option.bind_some, hm]
  exact ⟨_, rfl⟩

/-- The archive of a run with `keep_all_optimal_solutions`, for any tolerances; `seen` are the candidates of all the populations so far. -/
structure TolArchive (t : Tol K) (seen : Cand G (FVec K) → Prop) (sols : List (Cand G (FVec K))) : Prop where
  found : ∀ c ∈ sols, seen c
  cover : ∀ x, seen x → (∃ c ∈ sols, c.chrom = x.chrom) ∨ ∃ y, seen y ∧ Beats t y.fitness x.fitness
  leads : ∀ x, seen x → ∃ c ∈ sols, Relation.ReflTransGen (CandRel t seen) x.fitness c.fitness

omit [LinearOrder G] [IsStrictOrderedRing K] in
theorem CandRel.mono {t : Tol K} {Q R : Cand G (FVec K) → Prop} (h : ∀ x, Q x → R x) {a b : FVec K} (hab : Relation.ReflTransGen (CandRel t Q) a b) : Relation.ReflTransGen (CandRel t R) a b := by
  refine Relation.ReflTransGen.mono ?_ _ _ hab
  rintro a b ⟨⟨x, hx, e1⟩, ⟨y, hy, e2⟩, hb⟩
  exact ⟨⟨x, h x hx, e1⟩, ⟨y, h y hy, e2⟩, hb⟩

/-- The candidates of the generations up to `n`. -/
def SeenUpTo (env : GaEnv G K A S V) (prev : GaState G (FVec K) A V) (initial : List (Cand G (FVec K))) (n : Nat) (c : Cand G (FVec K)) : Prop :=
  ∃ i st, i ≤ n ∧ gaGens env prev initial i = some st ∧ c ∈ st.pop

theorem gaGens_tolArchive (env : GaEnv G K A S V) (prev : GaState G (FVec K) A V) (initial : List (Cand G (FVec K))) (P : List G → FVec K → Prop) (I J : A → List (FVec K) → Prop) (h : RunOk env prev initial P I J)
    (hfun : ∀ x v w, P x v → P x w → v = w) (ht : env.tol.Valid) (hr : env.tol.rel ≤ 1) (hO : TolOptimal env I) (hs : SortSolsOk env) (hk : env.keepAll = true) :
    ∀ (n : Nat) (st : GaState G (FVec K) A V), gaGens env prev initial n = some st →
      TolArchive env.tol (SeenUpTo env prev initial n) st.sols ∧ (1 ≤ n → (st.sols.map (·.chrom)).Nodup)
  | 0, st, hst => by
      obtain ⟨_, _, _, _, hsol, _⟩ := gaInit_spec env prev initial P I J h st hst
      have inv := gaInit_inv env prev initial P I J h st hst
      obtain ⟨o, ho1, ho2⟩ := popParetoFront_tol env ht hr st.pop (isMatrix_fitness env P h.lenOk _ inv.evaluated).1
      unfold initialSols at hsol
      rw [hk, if_pos rfl, ho1] at hsol
      obtain rfl := Option.some.inj hsol
      have hp0 : ∀ c, SeenUpTo env prev initial 0 c ↔ c ∈ st.pop := by
        intro c
        constructor
        · rintro ⟨i, st', hi, hst', hc⟩
          rw [Nat.le_zero.mp hi, hst] at hst'
          obtain rfl := Option.some.inj hst'
          exact hc
        · intro hc; exact ⟨0, st, Nat.le_refl _, hst, hc⟩
      refine ⟨⟨fun c hc => (hp0 c).2 (ho2.sub c hc), ?_, ?_⟩, fun h => by omega⟩
      · intro x hx
        rcases ho2.cover x ((hp0 x).1 hx) with hh | ⟨y, hy, hb⟩
        · exact Or.inl ⟨x, hh, rfl⟩
        · exact Or.inr ⟨y, (hp0 y).2 hy, hb⟩
      · intro x hx
        obtain ⟨y, hy, hp⟩ := ho2.leads x ((hp0 x).1 hx)
        exact ⟨y, hy, CandRel.mono (fun c hc => (hp0 c).2 hc) hp⟩
  | n + 1, st, hst => by
      have hst' := hst
      rw [gaGens_succ, Option.bind_eq_some_iff] at hst
      obtain ⟨st0, h0, hadv⟩ := hst
      obtain ⟨i0, -⟩ := gaGens_inv env prev initial P I J h n st0 h0
      obtain ⟨⟨a1, a2, a3⟩, -⟩ := gaGens_tolArchive env prev initial P I J h hfun ht hr hO hs hk n st0 h0
      obtain ⟨i1, _, _, _, _, _, _, _, _, _, _, hkk⟩ := advance_spec env P I J h.alg h.eqOk h.fitOk h.dynCache h.lenOk st0 st i0 hadv
      obtain ⟨st1, st2, e1, e2, e3, e4, inv1, hu, e5⟩ := hkk hk
      have hev : ∀ c, SeenUpTo env prev initial (n + 1) c → P c.chrom c.fitness := by
        rintro c ⟨i, sti, -, hsti, hc⟩
        exact ((gaGens_inv env prev initial P I J h i sti hsti).1.evaluated c hc).2
      have hmono : ∀ c, SeenUpTo env prev initial n c → SeenUpTo env prev initial (n + 1) c := by
        rintro c ⟨i, sti, hi, hsti, hc⟩
        exact ⟨i, sti, by omega, hsti, hc⟩
      have hnew : ∀ c ∈ st.pop, SeenUpTo env prev initial (n + 1) c := fun c hc => ⟨n + 1, st, Nat.le_refl _, hst', hc⟩
      have hcase : ∀ c, SeenUpTo env prev initial (n + 1) c → SeenUpTo env prev initial n c ∨ c ∈ st.pop := by
        rintro c ⟨i, sti, hi, hsti, hc⟩
        by_cases hin : i = n + 1
        · rw [hin, hst'] at hsti
          obtain rfl := Option.some.inj hsti
          exact Or.inr hc
        · exact Or.inl ⟨i, sti, by omega, hsti, hc⟩
      obtain ⟨⟨u1, u2, u3, u4⟩, -⟩ := updateOptimal_tol env ht hr P hfun I hO h.lenOk hs st1 st2 inv1 (by
        rw [e1]; intro c hc; exact hev c (hmono c (a1 c hc))) hu
      rw [e5, e1, e2] at u2 u3 u4
      rw [e5] at u1
      have hboth : ∀ c, c ∈ st0.sols ∨ c ∈ st.pop → SeenUpTo env prev initial (n + 1) c := fun c hc => hc.elim (fun hc => hmono c (a1 c hc)) (hnew c)
      have hfit : ∀ c x, SeenUpTo env prev initial (n + 1) c → SeenUpTo env prev initial (n + 1) x → c.chrom = x.chrom → c.fitness = x.fitness := by
        intro c x hc hx he
        exact hfun _ _ _ (hev c hc) (by rw [he]; exact hev x hx)
      refine ⟨⟨fun c hc => hboth c (u2 c hc), ?_, ?_⟩, fun _ => u1⟩
      · intro x hx
        rcases hcase x hx with hx' | hx'
        · rcases a2 x hx' with ⟨c, hc, he⟩ | ⟨y, hy, hb⟩
          · rcases u3 c (Or.inl hc) with ⟨c', hc', he'⟩ | ⟨y, hy, hb⟩
            · exact Or.inl ⟨c', hc', he'.trans he⟩
            · refine Or.inr ⟨y, hboth y hy, ?_⟩
              rwa [hfit c x (hmono c (a1 c hc)) hx he] at hb
          · exact Or.inr ⟨y, hmono y hy, hb⟩
        · exact (u3 x (Or.inr hx')).imp id fun ⟨y, hy, hb⟩ => ⟨y, hboth y hy, hb⟩
      · intro x hx
        rcases hcase x hx with hx' | hx'
        · obtain ⟨c, hc, hp⟩ := a3 x hx'
          obtain ⟨c', hc', hp'⟩ := u4 c (Or.inl hc)
          exact ⟨c', hc', (CandRel.mono hmono hp).trans (CandRel.mono hboth hp')⟩
        · obtain ⟨c', hc', hp'⟩ := u4 x (Or.inr hx')
          exact ⟨c', hc', CandRel.mono hboth hp'⟩

/-- Nothing goes wrong in a run, for any tolerances. -/
theorem gaGens_ok_tol (env : GaEnv G K A S V) (prev : GaState G (FVec K) A V) (initial : List (Cand G (FVec K))) (P : List G → FVec K → Prop) (I J : A → List (FVec K) → Prop) (h : RunOk env prev initial P I J)
    (hev : ∀ g i, i < env.popSize → 3 ≤ (env.evalSched g).count i)
    (hk : env.keepAll = true → (env.tol.Valid ∧ env.tol.rel ≤ 1) ∧ TolOptimal env I ∧ ∀ g l r i, i < max l r → 2 * min l r ≤ (env.mergeSched g l r).count i) :
    ∀ n, ∃ st, gaGens env prev initial n = some st
  | 0 => by
      obtain ⟨d, hd⟩ := h.prevCache
      obtain ⟨c', hc1, hc2⟩ := hd.reset ((if env.dynamic then 0 else 1) * env.cachedGens * env.popSize) env.cacheExtra
      have hct : CacheTrue P c' := ⟨_, hc2, by simp⟩
      obtain ⟨r, hr⟩ := evalAll_completes env h.dynCache c' (generatePopulation env initial) 0 [env.generate 0] (env.evalSched 0)
        (by rw [generatePopulation_length]; exact hev 0)
      obtain ⟨e1, -, -⟩ := evalAll_spec env h.dynCache c' _ _ _ _ _ hr
      have hevd : ∀ c ∈ r.1, Evaluated P c := by
        intro c hc
        rw [e1] at hc
        simp only [List.mem_map] at hc
        obtain ⟨c0, h0, rfl⟩ := hc
        exact (evalOne_evaluated env P h.fitOk h.dynCache _ hct c0 (generatePopulation_trusted env P initial h.initialOk c0 h0)).1
      have hsol : ∃ s, initialSols env r.1 = some s := by
        unfold initialSols
        split
        · rename_i hkt
          obtain ⟨o, ho, -⟩ := popParetoFront_tol env (hk hkt).1.1 (hk hkt).1.2 r.1 (isMatrix_fitness env P h.lenOk _ hevd).1
          exact ⟨o, ho⟩
        · exact ⟨_, rfl⟩
      obtain ⟨s, hs⟩ := hsol
      rw [gaGens]
      unfold gaInit
      simp only [Option.bind_eq_bind, hc1, Option.bind_some, hr, hs]
      exact ⟨_, rfl⟩
  | n + 1 => by
      obtain ⟨st0, h0⟩ := gaGens_ok_tol env prev initial P I J h hev hk n
      obtain ⟨i0, -⟩ := gaGens_inv env prev initial P I J h n st0 h0
      obtain ⟨children, hch, hcl, hct, hrest⟩ := advance_steps env P I J h.alg h.eqOk h.fitOk h.dynCache h.lenOk st0 i0
      obtain ⟨r, hr⟩ := evalAll_completes env h.dynCache st0.cache (children.zipIdx.map (fun p => repairOp env.repair (mutationOp env.eq (env.mutate (st0.gen + 1) p.2) p.1)))
        st0.evals st0.calls (env.evalSched (st0.gen + 1)) (by rw [List.length_map, List.length_zipIdx, hcl]; exact hev _)
      obtain ⟨-, -, st1, hu, inv1, -⟩ := hrest _ r hr
      have hcol : ∃ st2, collectOptimal env st1 = some st2 := by
        unfold collectOptimal
        split
        · rename_i hkt
          obtain ⟨k1, k2, k3⟩ := hk hkt
          exact updateOptimal_ok_tol env k1.1 k1.2 P I k2 h.lenOk k3 st1 inv1
        · exact ⟨_, rfl⟩
      obtain ⟨st2, hst2⟩ := hcol
      rw [gaGens_succ, h0]
      simp only [Option.bind_some]
      unfold advance
      rw [if_pos i0.size]
      dsimp only
      simp only [Option.bind_eq_bind, hch, Option.bind_some, hr, hu, hst2]
      exact ⟨_, rfl⟩

/-! ### One objective -/

omit [LinearOrder G] in
/-- With one objective a chain leads to a value that is not less. -/
theorem candRel_le {t : Tol K} (ht : t.Valid) {Q : Cand G (FVec K) → Prop} (hQ : ∀ x, Q x → x.fitness.length = 1) {a b : FVec K} (ha : a.length = 1)
    (h : Relation.ReflTransGen (CandRel t Q) a b) : b.length = 1 ∧ a.headD .ninf ≤ b.headD .ninf := by
  induction h with
  | refl => exact ⟨ha, le_rfl⟩
  | tail _ hbc ih =>
    obtain ⟨-, ⟨y, hy, rfl⟩, hb⟩ := hbc
    refine ⟨hQ y hy, le_trans ih.2 ?_⟩
    obtain ⟨v, hv⟩ := List.length_eq_one_iff.1 ih.1
    obtain ⟨w, hw⟩ := List.length_eq_one_iff.1 (hQ y hy)
    rw [hv, hw] at hb
    rw [hv, hw]
    exact (greaterBy_lt ht (beats_one hb)).le

theorem dominates_of_le {t : Tol K} (ht : t.Valid) (hr : t.rel ≤ 1) {a b c : FVec K} (ha : a.length = 1) (hb : b.length = 1) (hc : c.length = 1)
    (h1 : Dominates t b a) (h2 : b.headD .ninf ≤ c.headD .ninf) : Dominates t c a := by
  obtain ⟨a, rfl⟩ := List.length_eq_one_iff.1 ha
  obtain ⟨b, rfl⟩ := List.length_eq_one_iff.1 hb
  obtain ⟨c, rfl⟩ := List.length_eq_one_iff.1 hc
  exact one_dominates ht (definitelyLess_mono ht hr (dominates_one h1) le_rfl h2)
/-- Contract of an algorithm with one objective: a solution that it reports is not dominated, within the tolerances, by any row. -/
def TolOptimalOne (env : GaEnv G K A S V) (I : A → List (FVec K) → Prop) : Prop :=
  ∀ a fmat, fmat.length = env.popSize → FitMatrix env fmat → I a fmat →
    ∀ i ∈ env.algOptimal a, ∀ j, j < fmat.length → ¬ Dominates env.tol (fmat.getD j []) (fmat.getD i [])

omit [LinearOrder G] [IsStrictOrderedRing K] in
theorem front_positions_one {t : Tol K} (pop o : List (Cand G (FVec K))) (idx : List Nat) (ho : selectCopy pop idx = some o) (hlt : ∀ i ∈ idx, i < pop.length)
    (h : ∀ i ∈ idx, ∀ j, j < pop.length → ¬ Dominates t ((pop.map (·.fitness)).getD j []) ((pop.map (·.fitness)).getD i [])) :
    ∀ c ∈ o, ∀ y ∈ pop, ¬ Dominates t y.fitness c.fitness := by
  obtain ⟨o', h1, h2⟩ := C48_select_copy pop idx hlt
  rw [ho] at h1
  obtain rfl := Option.some.inj h1
  intro c hc y hy hd
  have : some c ∈ o.map some := List.mem_map_of_mem hc
  rw [show o.map some = idx.map (fun i => pop[i]?) from h2.symm, List.mem_map] at this
  obtain ⟨i, hi, hic⟩ := this
  obtain ⟨j, hj⟩ := List.getElem?_of_mem hy
  refine h i hi j (List.getElem?_eq_some_iff.1 hj).1 ?_
  have hget : ∀ (i : Nat) (c : Cand G (FVec K)), pop[i]? = some c → (pop.map (·.fitness)).getD i [] = c.fitness := by
    intro i c hc; simp [List.getD, hc]
  rwa [hget i c hic, hget j y hj]

theorem popParetoFront_one (env : GaEnv G K A S V) (ht : env.tol.Valid) (hr : env.tol.rel ≤ 1) (h1 : env.numObj = 1) (pop o : List (Cand G (FVec K))) (hm : IsMatrix env.numObj (pop.map (·.fitness)))
    (ho : popParetoFront env pop = some o) : ∀ c ∈ o, ∀ y ∈ pop, ¬ Dominates env.tol y.fitness c.fitness := by
  rw [h1] at hm
  unfold popParetoFront at ho
  rw [h1] at ho
  obtain ⟨res, e1, e2⟩ := C08_pareto_front_single_objective ht hr hm
  rw [e1] at ho
  refine front_positions_one pop o res ho (fun i hi => by simpa using ((e2.2 i).1 hi).1) ?_
  intro i hi j hj
  exact ((e2.2 i).1 hi).2 j (by simpa using hj)

theorem optimalSolutions_one (env : GaEnv G K A S V) (ht : env.tol.Valid) (hr : env.tol.rel ≤ 1) (h1 : env.numObj = 1) (P : List G → FVec K → Prop) (I : A → List (FVec K) → Prop) (hO : TolOptimal env I)
    (hO1 : TolOptimalOne env I) (hlen : ∀ x v, P x v → v.length = env.numObj ∧ ∃ y, v = env.fitness y) (st : GaState G (FVec K) A V) (inv : GaInv env P I st) (o : List (Cand G (FVec K)))
    (ho : optimalSolutions env st.alg st.pop = some o) : ∀ c ∈ o, ∀ y ∈ st.pop, ¬ Dominates env.tol y.fitness c.fitness := by
  have hm := isMatrix_fitness env P hlen st.pop inv.evaluated
  unfold optimalSolutions at ho
  dsimp only at ho
  split at ho
  · exact popParetoFront_one env ht hr h1 st.pop o hm.1 ho
  · rename_i hne
    have hI := inv.alg
    rw [inv.fmat] at hI
    refine front_positions_one st.pop o _ ho ?_ ?_
    · rcases hO _ _ (by simpa using inv.size) hm hI with h | h
      · simp [h] at hne
      · intro i hi; simpa using h.lt i hi
    · intro i hi j hj
      exact hO1 _ _ (by simpa using inv.size) hm hI i hi j (by simpa using hj)

theorem updateOptimal_one (env : GaEnv G K A S V) (ht : env.tol.Valid) (hr : env.tol.rel ≤ 1) (h1 : env.numObj = 1) (P : List G → FVec K → Prop) (hfun : ∀ x v w, P x v → P x w → v = w) (I : A → List (FVec K) → Prop)
    (hO : TolOptimal env I) (hO1 : TolOptimalOne env I) (hlen : ∀ x v, P x v → v.length = env.numObj ∧ ∃ y, v = env.fitness y) (hs : SortSolsOk env) (st st' : GaState G (FVec K) A V)
    (inv : GaInv env P I st) (hP : ∀ c ∈ st.sols, P c.chrom c.fitness) (hnd : ∀ c ∈ st.sols, ∀ y ∈ st.sols, ¬ Dominates env.tol y.fitness c.fitness) (h : updateOptimal env st = some st') :
    ∀ c ∈ st'.sols, ∀ y, y ∈ st.sols ∨ y ∈ st.pop → ¬ Dominates env.tol y.fitness c.fitness := by
  obtain ⟨⟨-, u2, -, -⟩, o, merged, ho, hf, hm, hsub⟩ := updateOptimal_tol env ht hr P hfun I hO hlen hs st st' inv hP h
  have hone := optimalSolutions_one env ht hr h1 P I hO hO1 hlen st inv o ho
  have hl : ∀ c, c ∈ st.sols ∨ c ∈ st.pop → c.fitness.length = 1 := by
    intro c hc
    rw [← h1]
    exact (hlen _ _ (hc.elim (hP c) (fun hc => (inv.evaluated c hc).2))).1
  have hl' : ∀ c, c ∈ st.sols ∨ c ∈ o → c.fitness.length = 1 := fun c hc => hl c (hc.imp id (hf.sub c))
  have hmerge := (mergeParetoSets_tol ht _ _ _ _ _ hm).2 (fun x hx y hy => hnd y hy x hx) (fun x hx y hy => hone y hy x (hf.sub x hx)) (by
    intro a b c ha hb hc hba hcb
    exact dominates_chain ht hr (hl' a ha) (hl' b hb) (hl' c hc) hba hcb)
  intro c hc y hy hd
  rcases hy with hy | hy
  · exact hmerge c (hsub c hc) y (Or.inl hy) hd
  · obtain ⟨z, hz, hp⟩ := hf.leads y hy
    obtain ⟨hz1, hz2⟩ := candRel_le ht (fun x hx => hl x (Or.inr hx)) (hl y (Or.inr hy)) hp
    exact hmerge c (hsub c hc) z (Or.inr hz) (dominates_of_le ht hr (hl c (u2 c hc)) (hl y (Or.inr hy)) hz1 hd hz2)

/-- With one objective none of the candidates seen so far dominates, within the tolerances, an element of the archive. -/
theorem gaGens_tolArchive_one (env : GaEnv G K A S V) (prev : GaState G (FVec K) A V) (initial : List (Cand G (FVec K))) (P : List G → FVec K → Prop) (I J : A → List (FVec K) → Prop) (h : RunOk env prev initial P I J)
    (hfun : ∀ x v w, P x v → P x w → v = w) (ht : env.tol.Valid) (hr : env.tol.rel ≤ 1) (h1 : env.numObj = 1) (hO : TolOptimal env I) (hO1 : TolOptimalOne env I) (hs : SortSolsOk env) (hk : env.keepAll = true) :
    ∀ (n : Nat) (st : GaState G (FVec K) A V), gaGens env prev initial n = some st → ∀ c ∈ st.sols, ∀ y, SeenUpTo env prev initial n y → ¬ Dominates env.tol y.fitness c.fitness
  | 0, st, hst => by
      obtain ⟨_, _, _, _, hsol, _⟩ := gaInit_spec env prev initial P I J h st hst
      have inv := gaInit_inv env prev initial P I J h st hst
      unfold initialSols at hsol
      rw [hk, if_pos rfl] at hsol
      rintro c hc y ⟨i, st', hi, hst', hy⟩
      rw [Nat.le_zero.mp hi, hst] at hst'
      obtain rfl := Option.some.inj hst'
      exact popParetoFront_one env ht hr h1 st.pop _ (isMatrix_fitness env P h.lenOk _ inv.evaluated).1 hsol c hc y hy
  | n + 1, st, hst => by
      have hst' := hst
      rw [gaGens_succ, Option.bind_eq_some_iff] at hst
      obtain ⟨st0, h0, hadv⟩ := hst
      obtain ⟨i0, -⟩ := gaGens_inv env prev initial P I J h n st0 h0
      obtain ⟨⟨a1, a2, a3⟩, -⟩ := gaGens_tolArchive env prev initial P I J h hfun ht hr hO hs hk n st0 h0
      have ih := gaGens_tolArchive_one env prev initial P I J h hfun ht hr h1 hO hO1 hs hk n st0 h0
      obtain ⟨i1, _, _, _, _, _, _, _, _, _, _, hkk⟩ := advance_spec env P I J h.alg h.eqOk h.fitOk h.dynCache h.lenOk st0 st i0 hadv
      obtain ⟨st1, st2, e1, e2, e3, e4, inv1, hu, e5⟩ := hkk hk
      have hev : ∀ n c, SeenUpTo env prev initial n c → P c.chrom c.fitness := by
        rintro n c ⟨i, sti, -, hsti, hc⟩
        exact ((gaGens_inv env prev initial P I J h i sti hsti).1.evaluated c hc).2
      have hl : ∀ n c, SeenUpTo env prev initial n c → c.fitness.length = 1 := by
        intro n c hc
        rw [← h1]; exact (h.lenOk _ _ (hev n c hc)).1
      have hP1 : ∀ c ∈ st1.sols, P c.chrom c.fitness := by rw [e1]; exact fun c hc => hev n c (a1 c hc)
      have hupd := updateOptimal_one env ht hr h1 P hfun I hO hO1 h.lenOk hs st1 st2 inv1 hP1 (by
        rw [e1]; intro c hc y hy; exact ih c hc y (a1 y hy)) hu
      obtain ⟨⟨-, u2, -, -⟩, -⟩ := updateOptimal_tol env ht hr P hfun I hO h.lenOk hs st1 st2 inv1 hP1 hu
      rw [e5, e1, e2] at hupd u2
      have hlc : ∀ c ∈ st.sols, c.fitness.length = 1 := by
        intro c hc
        rcases u2 c hc with hc | hc
        · exact hl n c (a1 c hc)
        · exact hl (n + 1) c ⟨n + 1, st, Nat.le_refl _, hst', hc⟩
      rintro c hc y ⟨i, sti, hi, hsti, hy⟩ hd
      by_cases hin : i = n + 1
      · rw [hin, hst'] at hsti
        obtain rfl := Option.some.inj hsti
        exact hupd c hc y (Or.inr hy) hd
      · have hseen : SeenUpTo env prev initial n y := ⟨i, sti, by omega, hsti, hy⟩
        obtain ⟨z, hz, hp⟩ := a3 y hseen
        obtain ⟨hz1, hz2⟩ := candRel_le ht (hl n) (hl n y hseen) hp
        exact hupd c hc z (Or.inl hz) (dominates_of_le ht hr (hlc c hc) (hl n y hseen) hz1 hd hz2)
end

end Gapp.Model
