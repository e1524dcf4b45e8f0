import Verif.Proofs.Rng
/-! The bookkeeping of the generators of the threads; the boolean distribution. -/

namespace Gapp.Model

/-! ### Distinct points of the orbit -/

theorem iterate_inj_of_lt {s : XState} (hs : s ≠ xzero) {p q : Nat} (hp : 0 < p) (hq : 0 < q) (hp' : p ≤ xperiod) (hq' : q ≤ xperiod)
    (h : xoroStep^[p] s = xoroStep^[q] s) : p = q := by
  have hinj := Function.iterate_injOn_Iio_minimalPeriod (f := xoroStep) (x := s)
  rw [minimalPeriod_all s hs] at hinj
  have hper : xoroStep^[xperiod] s = s := by
    have h := Function.iterate_minimalPeriod (f := xoroStep) (x := s)
    rwa [minimalPeriod_all s hs] at h
  have key : ∀ n, 0 < n → n ≤ xperiod → xoroStep^[n % xperiod] s = xoroStep^[n] s := by
    intro n _ hn
    rcases Nat.lt_or_ge n xperiod with h | h
    · rw [Nat.mod_eq_of_lt h]
    · have : n = xperiod := by omega
      rw [this, Nat.mod_self, hper]; rfl
  have h2 : p % xperiod = q % xperiod :=
    hinj (Set.mem_Iio.mpr (Nat.mod_lt _ (by decide))) (Set.mem_Iio.mpr (Nat.mod_lt _ (by decide)))
      (by show xoroStep^[p % xperiod] s = xoroStep^[q % xperiod] s; rw [key p hp hp', key q hq hq', h])
  rcases Nat.lt_or_ge p xperiod with h3 | h3 <;> rcases Nat.lt_or_ge q xperiod with h4 | h4
  · rwa [Nat.mod_eq_of_lt h3, Nat.mod_eq_of_lt h4] at h2
  · have : q = xperiod := by omega
    subst this
    rw [Nat.mod_eq_of_lt h3, Nat.mod_self] at h2; omega
  · have : p = xperiod := by omega
    subst this
    rw [Nat.mod_eq_of_lt h4, Nat.mod_self] at h2; omega
  · omega

theorem streams_disjoint {s : XState} (hs : s ≠ xzero) {i j a b : Nat} (hi : 1 ≤ i) (hj : 1 ≤ j) (hi' : i < 2 ^ 32) (hj' : j < 2 ^ 32)
    (hij : i ≠ j) (ha : a < 2 ^ 96) (hb : b < 2 ^ 96) :
    xoroStep^[a] (xoroJump^[i] s) ≠ xoroStep^[b] (xoroJump^[j] s) := by
  intro h
  rw [xoroJump_iterate, xoroJump_iterate, ← Function.iterate_add_apply, ← Function.iterate_add_apply] at h
  have hx : xperiod = 2 ^ 128 - 1 := rfl
  have := iterate_inj_of_lt hs (by omega) (by omega) (by omega) (by omega) h
  omega

/-! ### Uses of one generator -/

variable {D : StdDists}

theorem RegGen.use_id (r : RegGen D) (u : Use D) : (r.use u).2.id = r.id := by
  cases u with
  | word => rfl
  | bool => simp only [RegGen.use]; split <;> rfl
  | normal => rfl
  | poisson m => simp only [RegGen.use]; split <;> rfl

theorem RegGen.use_state (r : RegGen D) (u : Use D) :
    ∃ k, (r.use u).2.state = xoroStep^[k] r.state ∧ (r.use u).2.drawn = r.drawn + k := by
  cases u with
  | word => exact ⟨1, rfl, rfl⟩
  | bool =>
    simp only [RegGen.use]
    split
    · exact ⟨1, rfl, rfl⟩
    · exact ⟨0, rfl, rfl⟩
  | normal => exact ⟨_, rfl, rfl⟩
  | poisson m =>
    simp only [RegGen.use]
    split
    · exact ⟨_, rfl, rfl⟩
    · exact ⟨_, rfl, rfl⟩

/-- Equal up to the remembered mean of an unused Poisson distribution. -/
def ObsEq (r1 r2 : RegGen D) : Prop :=
  r1.state = r2.state ∧ r1.pool = r2.pool ∧ r1.normal = r2.normal ∧
    ((r1.mean = r2.mean ∧ r1.poisson = r2.poisson) ∨ (r1.poisson = D.poissonFresh ∧ r2.poisson = D.poissonFresh))

theorem ObsEq.use {r1 r2 : RegGen D} (h : ObsEq r1 r2) (u : Use D) :
    (r1.use u).1 = (r2.use u).1 ∧ ObsEq (r1.use u).2 (r2.use u).2 := by
  obtain ⟨i1, s1, p1, n1, m1, q1, d1⟩ := r1
  obtain ⟨i2, s2, p2, n2, m2, q2, d2⟩ := r2
  obtain ⟨rfl, rfl, rfl, h⟩ : s1 = s2 ∧ p1 = p2 ∧ n1 = n2 ∧ ((m1 = m2 ∧ q1 = q2) ∨ (q1 = D.poissonFresh ∧ q2 = D.poissonFresh)) := h
  cases u with
  | word => exact ⟨rfl, rfl, rfl, rfl, h⟩
  | bool =>
    simp only [RegGen.use]
    split
    · exact ⟨rfl, rfl, rfl, rfl, h⟩
    · exact ⟨rfl, rfl, rfl, rfl, h⟩
  | normal => exact ⟨rfl, rfl, rfl, rfl, h⟩
  | poisson m =>
    simp only [RegGen.use]
    rcases h with ⟨rfl, rfl⟩ | ⟨rfl, rfl⟩
    · by_cases hm : m1 = m
      · simp only [hm, ne_eq, not_true, if_false]
        exact ⟨trivial, rfl, rfl, rfl, Or.inl ⟨rfl, rfl⟩⟩
      · simp only [hm, ne_eq, not_false_iff, if_true]
        exact ⟨trivial, rfl, rfl, rfl, Or.inl ⟨rfl, rfl⟩⟩
    · have e : ∀ (i : Nat) (d : Nat) (m' : D.Mean),
          (if m' ≠ m then ({ id := i, state := s1, pool := p1, normal := n1, mean := m, poisson := D.poissonFresh, drawn := d } : RegGen D)
            else { id := i, state := s1, pool := p1, normal := n1, mean := m', poisson := D.poissonFresh, drawn := d }) =
          { id := i, state := s1, pool := p1, normal := n1, mean := m, poisson := D.poissonFresh, drawn := d } := by
        intro i d m'
        by_cases hm : m' = m
        · rw [if_neg (by simpa using hm), hm]
        · rw [if_pos hm]
      rw [e, e]
      exact ⟨rfl, rfl, rfl, rfl, Or.inl ⟨rfl, rfl⟩⟩

theorem ObsEq.uses {r1 r2 : RegGen D} (h : ObsEq r1 r2) (us : List (Use D)) : (r1.uses us).1 = (r2.uses us).1 := by
  induction us generalizing r1 r2 with
  | nil => rfl
  | cons u us ih =>
    obtain ⟨h1, h2⟩ := h.use u
    simp only [RegGen.uses, h1, ih h2]

/-! ### Seeding -/

theorem reseed_global : ∀ (l : List (RegGen D)) (g : XState), (reseedGens g l).1 = xoroJump^[l.length] g := by
  intro l
  induction l with
  | nil => intro g; rfl
  | cons r l ih => intro g; simp only [reseedGens, ih, List.length_cons, Function.iterate_succ_apply]

theorem reseed_gens : ∀ (l : List (RegGen D)) (g : XState),
    (reseedGens g l).2 = l.zipIdx.map (fun p => p.1.reseeded (xoroJump^[p.2 + 1] g)) := by
  suffices h : ∀ (l : List (RegGen D)) (g : XState) (n : Nat),
      (reseedGens (xoroJump^[n] g) l).2 = (l.zipIdx n).map (fun p => p.1.reseeded (xoroJump^[p.2 + 1] g)) by
    intro l g
    exact h l g 0
  intro l
  induction l with
  | nil => intro g n; rfl
  | cons r l ih =>
    intro g n
    simp only [reseedGens, List.zipIdx_cons, List.map_cons]
    rw [← Function.iterate_succ_apply' xoroJump n g, ih g (n + 1)]

theorem reseed_getElem {l : List (RegGen D)} {g : XState} {i : Nat} {r : RegGen D} (h : (reseedGens g l).2[i]? = some r) :
    r.state = xoroJump^[i + 1] g ∧ r.pool = 1#64 ∧ r.normal = D.normalFresh ∧ r.poisson = D.poissonFresh ∧ r.drawn = 0 ∧
      ∃ r0, l[i]? = some r0 ∧ r.id = r0.id := by
  rw [reseed_gens, List.getElem?_map, List.getElem?_zipIdx] at h
  cases hl : l[i]? with
  | none => rw [hl] at h; simp at h
  | some r0 =>
    rw [hl] at h
    simp only [Option.map_some, Option.some.injEq, Nat.zero_add] at h
    subst h
    exact ⟨rfl, rfl, rfl, rfl, rfl, r0, rfl, rfl⟩

/-! ### Histories -/

/-- Is the operation a call of `seed`? -/
def RngOp.isSeed : RngOp D → Bool
  | .seed _ => true
  | _ => false

/-- The number of registrations. -/
def registrations (ops : List (RngOp D)) : Nat := ops.countP (fun | .register _ => true | _ => false)

/-- Every generator is somewhere in its own stream. -/
def StreamInv (s : XState) (g : RngGlobal D) (m : Nat) : Prop :=
  g.global = xoroJump^[m] s ∧
    ∃ l : List (RegGen D × Nat), l.map Prod.fst = g.gens ∧ (l.map Prod.snd).Nodup ∧
      ∀ p ∈ l, 1 ≤ p.2 ∧ p.2 ≤ m ∧ p.1.state = xoroStep^[p.1.drawn] (xoroJump^[p.2] s)

theorem StreamInv.step {s : XState} {g : RngGlobal D} {m : Nat} (h : StreamInv s g m) (op : RngOp D) (hop : op.isSeed = false) :
    StreamInv s (rngStep g op).1 (m + registrations [op]) := by
  obtain ⟨hg, l, h1, h2, h3⟩ := h
  cases op with
  | seed _ => simp [RngOp.isSeed] at hop
  | register id =>
    have hr : registrations [RngOp.register (D := D) id] = 1 := rfl
    rw [hr]
    have hg' : xoroJump g.global = xoroJump^[m + 1] s := by rw [Function.iterate_succ_apply', hg]
    refine ⟨hg', l ++ [(newGen D id (xoroJump g.global), m + 1)], ?_, ?_, ?_⟩
    · simp [rngStep, h1]
    · rw [List.map_append, List.nodup_append]
      refine ⟨h2, by simp, ?_⟩
      intro a ha b hb
      obtain ⟨p, hp, rfl⟩ := List.mem_map.mp ha
      simp only [List.map_cons, List.map_nil, List.mem_singleton] at hb
      have := (h3 p hp).2.1
      omega
    · intro p hp
      rcases List.mem_append.mp hp with hp | hp
      · have := h3 p hp
        exact ⟨this.1, by omega, this.2.2⟩
      · rw [List.mem_singleton] at hp
        subst hp
        exact ⟨by simp, by simp, hg'⟩
  | unregister id =>
    have hr : registrations [RngOp.unregister (D := D) id] = 0 := rfl
    rw [hr]
    refine ⟨hg, l.filter (fun p => p.1.id != id), ?_, ?_, ?_⟩
    · simp only [rngStep, ← h1, List.filter_map]; rfl
    · exact List.Nodup.sublist (List.Sublist.map _ List.filter_sublist) h2
    · intro p hp
      exact h3 p (List.mem_of_mem_filter hp)
  | use id u =>
    have hr : registrations [RngOp.use (D := D) id u] = 0 := rfl
    rw [hr]
    refine ⟨hg, l.map (fun p => (if p.1.id = id then (p.1.use u).2 else p.1, p.2)), ?_, ?_, ?_⟩
    · simp only [rngStep, useAt, ← h1, List.map_map]; rfl
    · rw [List.map_map]; exact h2
    · intro p hp
      obtain ⟨q, hq, rfl⟩ := List.mem_map.mp hp
      obtain ⟨a1, a2, a3⟩ := h3 q hq
      refine ⟨a1, a2, ?_⟩
      simp only
      split
      · obtain ⟨k, e1, e2⟩ := q.1.use_state u
        rw [e1, e2, a3, ← Function.iterate_add_apply, Nat.add_comm k]
      · exact a3

theorem registrations_cons (op : RngOp D) (ops : List (RngOp D)) :
    registrations (op :: ops) = registrations [op] + registrations ops := by
  simp only [registrations, List.countP_cons, List.countP_nil]; omega

theorem StreamInv.run {s : XState} {g : RngGlobal D} {m : Nat} (h : StreamInv s g m) (ops : List (RngOp D))
    (hops : ∀ op ∈ ops, op.isSeed = false) : StreamInv s (rngRun g ops).1 (m + registrations ops) := by
  induction ops generalizing g m with
  | nil => exact h
  | cons op ops ih =>
    have := ih (h.step op (hops op (by simp))) (fun o ho => hops o (by simp [ho]))
    rw [registrations_cons, ← Nat.add_assoc]
    exact this

theorem streamInv_reseed (l : List (RegGen D)) (s : XState) : StreamInv s ⟨(reseedGens s l).1, (reseedGens s l).2⟩ l.length := by
  refine ⟨reseed_global l s, (reseedGens s l).2.zipIdx 1, ?_, ?_, ?_⟩
  · exact List.zipIdx_map_fst 1 (reseedGens s l).2
  · rw [List.zipIdx_map_snd]; exact List.nodup_range'
  · intro p hp
    obtain ⟨r, k⟩ := p
    obtain ⟨h1, h2, h3⟩ := List.mem_zipIdx hp
    have hget : (reseedGens s l).2[k - 1]? = some r := by
      rw [h3, List.getElem?_eq_getElem]
    obtain ⟨a1, -, -, -, a5, -⟩ := reseed_getElem hget
    have hlen : (reseedGens s l).2.length = l.length := by
      rw [reseed_gens, List.length_map, List.length_zipIdx]
    refine ⟨h1, by rw [hlen] at h2; simp only; omega, ?_⟩
    simp only [a1, a5, Function.iterate_zero, id]
    rw [show k - 1 + 1 = k by omega]

theorem streamInv_seed (g : RngGlobal D) (s : BitVec 64) : StreamInv (seedSequence s) (rngStep g (.seed s)).1 g.gens.length :=
  streamInv_reseed g.gens (seedSequence s)

theorem streamInv_init (s : BitVec 64) : StreamInv (seedSequence s) (rngInit D s) 0 := by
  refine ⟨rfl, [], rfl, List.nodup_nil, by simp⟩

/-- The uses made by one thread. -/
def usesOf (id : Nat) : List (RngOp D) → List (Use D)
  | [] => []
  | .use i u :: ops => if i = id then u :: usesOf id ops else usesOf id ops
  | _ :: ops => usesOf id ops

/-- The operation does not seed, start or end the thread `id`. -/
def RngOp.keeps (id : Nat) : RngOp D → Prop
  | .seed _ => False
  | .register i => i ≠ id
  | .unregister i => i ≠ id
  | .use _ _ => True

/-- The results one thread got. -/
def resultsOf {α : Type} (id : Nat) (log : List (Nat × α)) : List α := (log.filter (fun p => p.1 == id)).map Prod.snd

theorem run_results (id : Nat) (ops : List (RngOp D)) (hk : ∀ op ∈ ops, op.keeps id) (g : RngGlobal D) (r : RegGen D)
    (hr : g.gens.find? (fun r => r.id == id) = some r) :
    resultsOf id (rngRun g ops).2 = (r.uses (usesOf id ops)).1 := by
  induction ops generalizing g r with
  | nil => rfl
  | cons op ops ih =>
    have ih := fun g r h => ih (fun o ho => hk o (by simp [ho])) g r h
    have hop := hk op (by simp)
    have hid : r.id = id := by simpa using List.find?_some hr
    have hstep : resultsOf id (rngRun g (op :: ops)).2 =
        resultsOf id (rngStep g op).2.toList ++ resultsOf id (rngRun (rngStep g op).1 ops).2 := by
      simp only [rngRun, resultsOf, List.filter_append, List.map_append]
    rw [hstep]
    cases op with
    | seed _ => exact absurd hop (by simp [RngOp.keeps])
    | register i =>
      have : ((rngStep g (.register i)).1.gens.find? (fun r => r.id == id)) = some r := by
        simp only [rngStep, List.find?_append, hr, Option.some_or]
      rw [ih _ r this]
      simp [rngStep, resultsOf, usesOf]
    | unregister i =>
      have hne : i ≠ id := hop
      have : ((rngStep g (.unregister i)).1.gens.find? (fun r => r.id == id)) = some r := by
        simp only [rngStep, List.find?_filter]
        rw [← hr]
        congr 1
        funext x
        by_cases hx : x.id = id
        · simp [hx, hne.symm]
        · simp [hx]
      rw [ih _ r this]
      simp [rngStep, resultsOf, usesOf]
    | use i u =>
      by_cases hi : i = id
      · subst hi
        have : ((rngStep g (.use i u)).1.gens.find? (fun r => r.id == i)) = some (r.use u).2 := by
          simp only [rngStep, useAt, List.find?_map]
          have : (fun r : RegGen D => r.id == i) ∘ (fun r => if r.id = i then (r.use u).2 else r) = fun r => r.id == i := by
            funext x
            simp only [Function.comp]
            split
            · rw [RegGen.use_id]
            · rfl
          rw [this, hr]
          simp [hid]
        rw [ih _ _ this]
        simp [rngStep, resultsOf, usesOf, hr, RegGen.uses]
      · have : ((rngStep g (.use i u)).1.gens.find? (fun r => r.id == id)) = some r := by
          simp only [rngStep, useAt, List.find?_map]
          have : (fun r : RegGen D => r.id == id) ∘ (fun r => if r.id = i then (r.use u).2 else r) = fun r => r.id == id := by
            funext x
            simp only [Function.comp]
            split
            · rw [RegGen.use_id]
            · rfl
          rw [this, hr]
          simp [hid, Ne.symm hi]
        rw [ih _ _ this]
        have : resultsOf id (rngStep g (.use i u)).2.toList = [] := by
          simp only [rngStep, resultsOf]
          cases g.gens.find? (fun r => r.id == i) with
          | none => rfl
          | some x => simp [hi]
        rw [this]
        simp [usesOf, hi]

/-! ### The boolean distribution -/

theorem pool_shift (w : BitVec 64) (k : Nat) (hk : k < 63) : (w ||| (1#64 <<< 63)) >>> k ≠ 1#64 := by
  intro h
  have h1 := congrArg (fun x => BitVec.getLsbD x (63 - k)) h
  simp only [BitVec.getLsbD_ushiftRight, BitVec.getLsbD_or] at h1
  have h2 : k + (63 - k) = 63 := by omega
  rw [h2] at h1
  have h3 : (1#64 <<< 63).getLsbD 63 = true := by decide
  have h4 : (1#64).getLsbD (63 - k) = false := by
    rw [BitVec.getLsbD_one]; simp; omega
  rw [h3, h4] at h1
  simp at h1

theorem pool_end (w : BitVec 64) : (w ||| (1#64 <<< 63)) >>> 63 = 1#64 := by
  apply BitVec.eq_of_getLsbD_eq
  intro i hi
  rw [BitVec.getLsbD_ushiftRight, BitVec.getLsbD_or]
  by_cases h : i = 0
  · subst h
    have h3 : (1#64 <<< 63).getLsbD 63 = true := by decide
    rw [show 63 + 0 = 63 from rfl, h3]; simp
  · have h1 : w.getLsbD (63 + i) = false := BitVec.getLsbD_of_ge _ _ (by omega)
    have h2 : (1#64 <<< 63).getLsbD (63 + i) = false := BitVec.getLsbD_of_ge _ _ (by omega)
    rw [h1, h2, BitVec.getLsbD_one]; simp [h]

theorem pool_bit (w : BitVec 64) (k : Nat) (hk : k < 63) : ((w ||| (1#64 <<< 63)) >>> k).getLsbD 0 = w.getLsbD k := by
  rw [BitVec.getLsbD_ushiftRight, BitVec.getLsbD_or, Nat.add_zero]
  have h1 : (1#64 <<< 63).getLsbD k = false := by
    rw [BitVec.getLsbD_shiftLeft]; simp [hk]
  rw [h1, Bool.or_false]

theorem boolDraws_inv : ∀ (n k : Nat) (w : BitVec 64) (gen : List (BitVec 64)), k ≤ 63 → n + k ≤ 63 * (gen.length + 1) →
    ∃ bs pool, boolDraws n ((w ||| (1#64 <<< 63)) >>> k) gen = some (bs, pool, gen.drop ((n + k + 62) / 63 - 1)) ∧ bs.length = n ∧
      ∀ i < n, bs[i]? = (w :: gen)[(i + k) / 63]?.map (fun x => x.getLsbD ((i + k) % 63)) := by
  intro n
  induction n with
  | zero =>
    intro k w gen hk _
    refine ⟨[], (w ||| (1#64 <<< 63)) >>> k, ?_, rfl, by simp⟩
    have : (0 + k + 62) / 63 - 1 = 0 := by omega
    rw [this]; rfl
  | succ n ih =>
    intro k w gen hk hn
    rcases Nat.lt_or_ge k 63 with hlt | hge
    · obtain ⟨bs, pool, h1, h2, h3⟩ := ih (k + 1) w gen (by omega) (by omega)
      refine ⟨w.getLsbD k :: bs, pool, ?_, by simp [h2], ?_⟩
      · have hs : ((w ||| (1#64 <<< 63)) >>> k) >>> 1 = (w ||| (1#64 <<< 63)) >>> (k + 1) := by
          rw [BitVec.shiftRight_add]
        have he : n + 1 + k + 62 = n + (k + 1) + 62 := by omega
        simp only [boolDraws, boolDraw, pool_shift w k hlt, if_false, pool_bit w k hlt, Option.pure_def, Option.bind_eq_bind,
          Option.bind_some, hs, h1, he]
      · intro i hi
        cases i with
        | zero =>
          have a1 : (0 + k) / 63 = 0 := by omega
          have a2 : (0 + k) % 63 = k := by omega
          rw [a1, a2]; rfl
        | succ i =>
          have : i + 1 + k = i + (k + 1) := by omega
          rw [List.getElem?_cons_succ, h3 i (by omega), this]
    · have hk63 : k = 63 := by omega
      subst hk63
      cases gen with
      | nil => simp at hn
      | cons w' gen =>
        obtain ⟨bs, pool, h1, h2, h3⟩ := ih 1 w' gen (by omega) (by simp only [List.length_cons] at hn; omega)
        refine ⟨w'.getLsbD 0 :: bs, pool, ?_, by simp [h2], ?_⟩
        · have hd : (n + 1 + 63 + 62) / 63 - 1 = ((n + 1 + 62) / 63 - 1) + 1 := by omega
          have hb := pool_bit w' 0 (by omega)
          rw [BitVec.ushiftRight_zero] at hb
          rw [hd, List.drop_succ_cons]
          simp only [boolDraws, boolDraw, pool_end, if_true, Option.pure_def, Option.bind_eq_bind, Option.bind_some, h1, hb]
        · intro i hi
          cases i with
          | zero => simp
          | succ i =>
            have a1 : (i + 1 + 63) / 63 = (i + 1) / 63 + 1 := by omega
            have a2 : (i + 1 + 63) % 63 = (i + 1) % 63 := by omega
            rw [List.getElem?_cons_succ, h3 i (by omega), a1, a2, List.getElem?_cons_succ (a := w)]

end Gapp.Model
