import Verif.Model.SeededRun
import Verif.Proofs.RngThreads
import Verif.Proofs.ThreadPoolShape
import Verif.Proofs.MergePareto
import Mathlib.Algebra.BigOperators.Group.Finset.Basic
/-! Runs on the thread pool give what a sequential evaluation gives, if the generators of the threads are the same. -/

namespace Gapp.Proofs.SeededRun

open Gapp.Model

variable {D : StdDists} {A R : Type}

/-! ### The sequential evaluation -/

/-- A function run with a generator. -/
def runProg : Option (RegGen D) → RandProg D A → Option (A × Option (RegGen D))
  | g, .ret a => some (a, g)
  | none, .use _ _ => none
  | some r, .use u k => runProg (some (r.use u).2) (k (r.use u).1)

/-- The elements of a worker, one after the other. -/
def runItems : Option (RegGen D) → List (Nat × RandProg D A) → Option (List (Nat × A) × Option (RegGen D))
  | g, [] => some ([], g)
  | g, (i, p) :: rest =>
    match runProg g p with
    | none => none
    | some (a, g) =>
      match runItems g rest with
      | none => none
      | some (l, g) => some ((i, a) :: l, g)

/-- The elements of the tasks that go to worker `t`. -/
def assigned (W : Nat) : Nat → List (List (Nat × RandProg D A)) → Nat → List (Nat × RandProg D A)
  | _, [], _ => []
  | turn, b :: bs, t => (if turn % W = t then b else []) ++ assigned W (turn + 1) bs t

/-- The elements that thread `t` handles in a loop. -/
def work (W turn : Nat) (bl : List (List (Nat × RandProg D A)) × List (Nat × RandProg D A)) (t : Nat) : List (Nat × RandProg D A) :=
  if t < W then assigned W turn bl.1 t else if t = W then bl.2 else []

/-- The sequential evaluation of a run with the given generators of the threads. -/
inductive RefEval (W : Nat) : MainProg D A R → Nat → (Nat → Option (RegGen D)) → R → Prop
  | done (a : R) (n : Nat) (G : Nat → Option (RegGen D)) : RefEval W (.done a) n G a
  | use (u : Use D) (k : D.Out → MainProg D A R) (n : Nat) (G : Nat → Option (RegGen D)) (r : RegGen D) (a : R) :
      G W = some r → RefEval W (k (r.use u).1) n (upd G W (some (r.use u).2)) a → RefEval W (.use u k) n G a
  | empty (b : Nat) (next : (Nat → Option A) → MainProg D A R) (n : Nat) (G : Nat → Option (RegGen D)) (a : R) :
      RefEval W (next (fun _ => none)) n G a → RefEval W (.loop [] b next) n G a
  | loop (p : RandProg D A) (ps : List (RandProg D A)) (b : Nat) (next : (Nat → Option A) → MainProg D A R) (n : Nat) (G : Nat → Option (RegGen D)) (a : R)
      (logs : Nat → List (Nat × A)) (G' : Nat → Option (RegGen D)) (out : Nat → Option A) :
      (∀ t, runItems (G t) (work W n (loopBlocks W (b + 1) ((p :: ps).zipIdx.map (fun x => (x.2, x.1)))) t) = some (logs t, G' t)) →
      (∀ i c, out i = some c ↔ ∃ t, (i, c) ∈ logs t) →
      RefEval W (next out) (n + (loopBlocks W (b + 1) ((p :: ps).zipIdx.map (fun x => (x.2, x.1)))).1.length) G' a →
      RefEval W (.loop (p :: ps) b next) n G a

/-! ### More generators, the same result -/

/-- The generators of `G1` are there in `G2` and give the same numbers. -/
def GenLe (g1 g2 : Option (RegGen D)) : Prop := ∀ r1, g1 = some r1 → ∃ r2, g2 = some r2 ∧ ObsEq r1 r2

theorem runProg_le (p : RandProg D A) : ∀ (g1 g2 : Option (RegGen D)), GenLe g1 g2 → ∀ a g1', runProg g1 p = some (a, g1') →
    ∃ g2', runProg g2 p = some (a, g2') ∧ GenLe g1' g2' := by
  induction p with
  | ret a =>
    intro g1 g2 h a' g1' e
    simp only [runProg, Option.some.injEq, Prod.mk.injEq] at e
    obtain ⟨rfl, rfl⟩ := e
    exact ⟨g2, by simp [runProg], h⟩
  | use u k ih =>
    intro g1 g2 h a g1' e
    cases g1 with
    | none => simp [runProg] at e
    | some r1 =>
      obtain ⟨r2, rfl, hr⟩ := h r1 rfl
      obtain ⟨e1, e2⟩ := hr.use u
      simp only [runProg] at e ⊢
      rw [← e1]
      exact ih _ _ _ (by intro r hr'; cases hr'; exact ⟨_, rfl, e2⟩) _ _ e

theorem runItems_le (l : List (Nat × RandProg D A)) : ∀ (g1 g2 : Option (RegGen D)), GenLe g1 g2 → ∀ a g1', runItems g1 l = some (a, g1') →
    ∃ g2', runItems g2 l = some (a, g2') ∧ GenLe g1' g2' := by
  induction l with
  | nil =>
    intro g1 g2 h a g1' e
    simp only [runItems, Option.some.injEq, Prod.mk.injEq] at e
    obtain ⟨rfl, rfl⟩ := e
    exact ⟨g2, by simp [runItems], h⟩
  | cons x l ih =>
    obtain ⟨i, p⟩ := x
    intro g1 g2 h a g1' e
    simp only [runItems] at e
    cases h1 : runProg g1 p with
    | none => simp [h1] at e
    | some y =>
      obtain ⟨b, g3⟩ := y
      simp only [h1] at e
      cases h2 : runItems g3 l with
      | none => simp [h2] at e
      | some z =>
        obtain ⟨c, g4⟩ := z
        simp only [h2, Option.some.injEq, Prod.mk.injEq] at e
        obtain ⟨rfl, rfl⟩ := e
        obtain ⟨g5, e5, h5⟩ := runProg_le p g1 g2 h b g3 h1
        obtain ⟨g6, e6, h6⟩ := ih g3 g5 h5 c g4 h2
        exact ⟨g6, by simp only [runItems, e5, e6], h6⟩

theorem RefEval.det {W : Nat} {p : MainProg D A R} {n : Nat} {G1 : Nat → Option (RegGen D)} {a : R} (h1 : RefEval W p n G1 a) :
    ∀ {G2 : Nat → Option (RegGen D)} {b : R}, (∀ t, GenLe (G1 t) (G2 t)) → RefEval W p n G2 b → a = b := by
  induction h1 with
  | done a n G => intro G2 b _ h2; cases h2; rfl
  | use u k n G r a hr _ ih =>
    intro G2 b hle h2
    cases h2 with
    | use _ _ _ _ r2 _ hr2 h2 =>
      obtain ⟨r2', e, ho⟩ := hle W r hr
      rw [hr2] at e
      cases e
      obtain ⟨e1, e2⟩ := ho.use u
      refine ih ?_ (e1 ▸ h2)
      intro t
      by_cases ht : t = W
      · subst ht
        rw [upd_same, upd_same]
        intro r' hr'
        cases hr'
        exact ⟨_, rfl, e2⟩
      · rw [upd_ne _ _ ht, upd_ne _ _ ht]; exact hle t
  | empty b next n G a _ ih =>
    intro G2 b' hle h2
    cases h2 with
    | empty _ _ _ _ _ h2 => exact ih hle h2
  | loop p ps b next n G a logs G' out hrun hout _ ih =>
    intro G2 b' hle h2
    cases h2 with
    | loop _ _ _ _ _ _ _ logs2 G2' out2 hrun2 hout2 h2 =>
      have key : ∀ t, logs t = logs2 t ∧ GenLe (G' t) (G2' t) := by
        intro t
        obtain ⟨g, e, hg⟩ := runItems_le _ _ _ (hle t) _ _ (hrun t)
        rw [hrun2 t] at e
        simp only [Option.some.injEq, Prod.mk.injEq] at e
        exact ⟨e.1.symm, e.2 ▸ hg⟩
      have ho : out = out2 := by
        funext i
        apply Option.ext
        intro c
        rw [hout, hout2]
        simp only [fun t => (key t).1]
      subst ho
      exact ih (fun t => (key t).2) h2

/-! ### The generators that the threads will have -/

/-- The numbers of the registered threads. -/
def ids (g : RngGlobal D) : List Nat := g.gens.map (·.id)

/-- The generator of thread `t`, or the one that it is going to get if the threads register in the order `L`. -/
def virt (s0 : XState) (L : List Nat) (g : RngGlobal D) (t : Nat) : Option (RegGen D) :=
  match g.gens.find? (fun r => r.id == t) with
  | some r => some r
  | none => if t ∈ L then some (newGen D t (xoroJump^[L.idxOf t + 1] s0)) else none

theorem find_none {g : RngGlobal D} {t : Nat} : g.gens.find? (fun r => r.id == t) = none ↔ t ∉ ids g := by
  simp only [List.find?_eq_none, ids, List.mem_map, not_exists, not_and, beq_iff_eq]

theorem virt_register {s0 : XState} {L : List Nat} {g : RngGlobal D} {t : Nat} (hg : g.global = xoroJump^[g.gens.length] s0)
    (hf : g.gens.find? (fun r => r.id == t) = none) (hL : ids (rngStep g (.register t)).1 <+: L) :
    virt s0 L (rngStep g (.register t)).1 = virt s0 L g := by
  have hn := find_none.mp hf
  have hids : ids (rngStep g (.register t)).1 = ids g ++ [t] := by simp [ids, rngStep, newGen]
  rw [hids] at hL
  obtain ⟨L', rfl⟩ := hL
  funext t'
  unfold virt
  simp only [rngStep, List.find?_append]
  cases hf' : g.gens.find? (fun r => r.id == t') with
  | some r => simp
  | none =>
    by_cases ht : t = t'
    · subst ht
      have hm : t ∈ ids g ++ [t] ++ L' := by simp
      rw [if_pos hm]
      have hi : (ids g ++ [t] ++ L').idxOf t = g.gens.length := by
        rw [List.append_assoc, List.idxOf_append_of_notMem hn]
        simp [ids]
      rw [hi, Function.iterate_succ_apply', ← hg]
      simp [newGen]
    · have : (newGen D t (xoroJump g.global)).id ≠ t' := ht
      simp [this]

theorem find_use {g : RngGlobal D} {t : Nat} {r : RegGen D} (u : Use D) (hf : g.gens.find? (fun r => r.id == t) = some r) (t' : Nat) :
    (rngStep g (.use t u)).1.gens.find? (fun r => r.id == t') = if t' = t then some (r.use u).2 else g.gens.find? (fun r => r.id == t') := by
  have hcomp : ((fun r : RegGen D => r.id == t') ∘ fun r => if r.id = t then (r.use u).2 else r) = (fun r => r.id == t') := by
    funext x
    simp only [Function.comp]
    split <;> simp [RegGen.use_id]
  simp only [rngStep, useAt, List.find?_map, hcomp]
  by_cases ht : t' = t
  · subst ht
    have hid : r.id = t' := by simpa using List.find?_some hf
    simp [hf, hid]
  · rw [if_neg ht]
    cases hf' : g.gens.find? (fun r => r.id == t') with
    | none => rfl
    | some r' =>
      have hid : r'.id = t' := by simpa using List.find?_some hf'
      simp [hid, ht]

theorem virt_use {s0 : XState} {L : List Nat} {g : RngGlobal D} {t : Nat} {r : RegGen D} (u : Use D) (hf : g.gens.find? (fun r => r.id == t) = some r) :
    virt s0 L (rngStep g (.use t u)).1 = upd (virt s0 L g) t (some (r.use u).2) := by
  funext t'
  unfold virt
  rw [find_use u hf]
  by_cases ht : t' = t
  · subst ht; simp [upd_same]
  · rw [upd_ne _ _ ht, if_neg ht]

/-! ### The invariant -/

/-- The tasks that have not been submitted. -/
def unsent : MainAt D A R → List (List (Nat × RandProg D A))
  | .submit bs _ _ => bs
  | _ => []

/-- The elements that the calling thread has to handle. -/
def ownTodo : MainAt D A R → List (Nat × RandProg D A)
  | .submit _ own _ => own
  | .own todo _ => todo
  | _ => []

/-- The elements that thread `t` has to handle. -/
def rem (W : Nat) (s : SeededState D A R) (t : Nat) : List (Nat × RandProg D A) :=
  if t < W then (s.cur t).getD [] ++ ((s.queues t).flatten ++ assigned W s.turn (unsent s.main) t) else if t = W then ownTodo s.main else []

/-- The number of tasks of worker `t`. -/
def load (s : SeededState D A R) (t : Nat) : Nat := (s.queues t).length + (s.cur t).toList.length

/-- Each element is handled by one thread, once. -/
def Owned (rem : Nat → List (Nat × RandProg D A)) (out : Nat → Option A) : Prop :=
  ∃ owner : Nat → Nat, ∀ t, ((rem t).map Prod.fst).Nodup ∧ ∀ x ∈ rem t, owner x.1 = t ∧ out x.1 = none

/-- Is the calling thread outside of the loops? -/
def isRun : MainAt D A R → Prop
  | .run _ => True
  | _ => False

structure Inv (W : Nat) (s : SeededState D A R) : Prop where
  idle : isRun s.main → ∀ t < W, load s t = 0
  latch : ¬ isRun s.main → s.latch = (unsent s.main).length + ∑ t ∈ Finset.range W, load s t
  owned : ¬ isRun s.main → Owned (rem W s) s.out
  pos : unsent s.main ≠ [] → 0 < W

/-! ### Evaluating the rest of a run -/

/-- The rest of a loop and of the program gives `a`. -/
def LoopEval (W n : Nat) (next : (Nat → Option A) → MainProg D A R) (G : Nat → Option (RegGen D)) (rem : Nat → List (Nat × RandProg D A)) (out : Nat → Option A) (a : R) : Prop :=
  ∃ (logs : Nat → List (Nat × A)) (G' : Nat → Option (RegGen D)) (out' : Nat → Option A),
    (∀ t, runItems (G t) (rem t) = some (logs t, G' t)) ∧ (∀ i c, out' i = some c ↔ out i = some c ∨ ∃ t, (i, c) ∈ logs t) ∧ RefEval W (next out') n G' a

/-- The rest of the run gives `a`. -/
def Completes (W : Nat) (s : SeededState D A R) (G : Nat → Option (RegGen D)) (a : R) : Prop :=
  match s.main with
  | .run p => RefEval W p s.turn G a
  | .submit bs _ next => LoopEval W (s.turn + bs.length) next G (rem W s) s.out a
  | .own _ next => LoopEval W s.turn next G (rem W s) s.out a
  | .wait next => LoopEval W s.turn next G (rem W s) s.out a

theorem owned_pop {rm : Nat → List (Nat × RandProg D A)} {out : Nat → Option A} {t i : Nat} {p : RandProg D A} {rest : List (Nat × RandProg D A)} (h : Owned rm out)
    (hr : rm t = (i, p) :: rest) (v : Option A) : Owned (upd rm t rest) (upd out i v) := by
  obtain ⟨owner, h⟩ := h
  have h0 := h t
  rw [hr] at h0
  refine ⟨owner, fun t' => ?_⟩
  by_cases ht : t' = t
  · subst ht
    rw [upd_same]
    simp only [List.map_cons, List.nodup_cons] at h0
    refine ⟨h0.1.2, fun x hx => ?_⟩
    have h1 := h0.2 x (by simp [hx])
    refine ⟨h1.1, ?_⟩
    have hne : x.1 ≠ i := fun he => h0.1.1 (by rw [← he]; exact List.mem_map_of_mem hx)
    rw [upd_ne _ _ hne, h1.2]
  · rw [upd_ne _ _ ht]
    refine ⟨(h t').1, fun x hx => ?_⟩
    have h1 := (h t').2 x hx
    refine ⟨h1.1, ?_⟩
    have hne : x.1 ≠ i := by
      intro he
      have h2 := (h0.2 (i, p) (by simp)).1
      simp only at h2
      rw [he, h2] at h1
      exact ht h1.1.symm
    rw [upd_ne _ _ hne, h1.2]

theorem owned_replace {rm : Nat → List (Nat × RandProg D A)} {out : Nat → Option A} {t i : Nat} {p q : RandProg D A} {rest : List (Nat × RandProg D A)} (h : Owned rm out)
    (hr : rm t = (i, p) :: rest) : Owned (upd rm t ((i, q) :: rest)) out := by
  obtain ⟨owner, h⟩ := h
  have h0 := h t
  rw [hr] at h0
  refine ⟨owner, fun t' => ?_⟩
  by_cases ht : t' = t
  · subst ht
    rw [upd_same]
    refine ⟨h0.1, fun x hx => ?_⟩
    rcases List.mem_cons.mp hx with rfl | hx
    · exact h0.2 (i, p) (by simp)
    · exact h0.2 x (by simp [hx])
  · rw [upd_ne _ _ ht]; exact h t'

theorem upd_self {β : Type} (f : Nat → β) (i : Nat) (v : β) (h : f i = v) : upd f i v = f := by
  funext j
  by_cases hj : j = i
  · subst hj; rw [upd_same, h]
  · rw [upd_ne _ _ hj]

theorem owned_items {rm : Nat → List (Nat × RandProg D A)} {out : Nat → Option A} {t i : Nat} {p : RandProg D A} {rest : List (Nat × RandProg D A)} {rest' : List (Nat × RandProg D A)} (g : RngGlobal D) (h : Owned rm out)
    (hr : rm t = (i, p) :: (rest ++ rest')) :
    Owned (upd rm t ((itemsStep g out t i p rest).2.2 ++ rest')) (itemsStep g out t i p rest).2.1 := by
  cases p with
  | ret a => exact owned_pop h hr _
  | use u k =>
    simp only [itemsStep]
    split
    · exact owned_replace h hr
    · exact owned_replace h hr

theorem ids_access (g : RngGlobal D) (t : Nat) (u : Use D) : ids g <+: ids (rngAccess g t u).1 := by
  unfold rngAccess
  split
  · exact ⟨[t], by simp [ids, rngStep, newGen]⟩
  · have : ids (rngStep g (.use t u)).1 = ids g := by
      simp only [ids, rngStep, useAt, List.map_map]
      apply List.map_congr_left
      intro x _
      simp only [Function.comp]
      split <;> simp [RegGen.use_id]
    rw [this]

theorem global_access {g : RngGlobal D} {s0 : XState} (h : g.global = xoroJump^[g.gens.length] s0) (t : Nat) (u : Use D) :
    (rngAccess g t u).1.global = xoroJump^[(rngAccess g t u).1.gens.length] s0 := by
  unfold rngAccess
  split
  · simp only [rngStep, List.length_append, List.length_singleton]
    rw [Function.iterate_succ_apply', h]
  · simp only [rngStep, useAt, List.length_map, h]

theorem items_rng (g : RngGlobal D) (out : Nat → Option A) (t i : Nat) (p : RandProg D A) (rest : List (Nat × RandProg D A)) :
    (itemsStep g out t i p rest).1 = g ∨ ∃ u, (itemsStep g out t i p rest).1 = (rngAccess g t u).1 := by
  cases p with
  | ret a => exact Or.inl rfl
  | use u k =>
    refine Or.inr ⟨u, ?_⟩
    simp only [itemsStep]
    split <;> rename_i h <;> rw [h]

/-- The evaluation of the rest of a loop does not change when a thread goes on with its elements. -/
theorem loopEval_items {W n : Nat} {next : (Nat → Option A) → MainProg D A R} {s0 : XState} {L : List Nat} {g : RngGlobal D} {rm : Nat → List (Nat × RandProg D A)} {out : Nat → Option A} {a : R}
    {t i : Nat} {p : RandProg D A} {rest rest' : List (Nat × RandProg D A)} (hg : g.global = xoroJump^[g.gens.length] s0)
    (hL : ids (itemsStep g out t i p rest).1 <+: L) (ho : Owned rm out) (hr : rm t = (i, p) :: (rest ++ rest'))
    (h : LoopEval W n next (virt s0 L (itemsStep g out t i p rest).1) (upd rm t ((itemsStep g out t i p rest).2.2 ++ rest')) (itemsStep g out t i p rest).2.1 a) :
    LoopEval W n next (virt s0 L g) rm out a := by
  cases p with
  | ret c =>
    simp only [itemsStep] at h
    obtain ⟨logs, G', out', h1, h2, h3⟩ := h
    refine ⟨upd logs t ((i, c) :: logs t), G', out', ?_, ?_, h3⟩
    · intro t'
      by_cases ht : t' = t
      · subst ht
        have := h1 t'
        rw [upd_same] at this
        rw [upd_same, hr]
        simp only [runItems, runProg, this]
      · have := h1 t'
        rw [upd_ne _ _ ht] at this
        rw [upd_ne _ _ ht, this]
    · intro j d
      rw [h2]
      obtain ⟨owner, ho⟩ := ho
      have hnone : out i = none := by
        have := ((ho t).2 (i, .ret c) (by rw [hr]; simp)).2
        exact this
      constructor
      · rintro (hj | ⟨t', ht'⟩)
        · by_cases hji : j = i
          · subst hji
            rw [upd_same] at hj
            cases hj
            exact Or.inr ⟨t, by rw [upd_same]; simp⟩
          · rw [upd_ne _ _ hji] at hj; exact Or.inl hj
        · refine Or.inr ⟨t', ?_⟩
          by_cases ht : t' = t
          · subst ht; rw [upd_same]; simp [ht']
          · rw [upd_ne _ _ ht]; exact ht'
      · rintro (hj | ⟨t', ht'⟩)
        · have hji : j ≠ i := by rintro rfl; rw [hnone] at hj; cases hj
          exact Or.inl (by rw [upd_ne _ _ hji]; exact hj)
        · by_cases ht : t' = t
          · subst ht
            rw [upd_same] at ht'
            rcases List.mem_cons.mp ht' with e | e
            · cases e
              exact Or.inl (upd_same _ _ _)
            · exact Or.inr ⟨t', e⟩
          · rw [upd_ne _ _ ht] at ht'; exact Or.inr ⟨t', ht'⟩
  | use u k =>
    cases hf : g.gens.find? (fun r => r.id == t) with
    | none =>
      have ha : rngAccess g t u = ((rngStep g (.register t)).1, none) := by simp only [rngAccess, hf]
      simp only [itemsStep, ha] at h hL
      rw [virt_register hg hf hL] at h
      rw [upd_self rm t _ (by rw [hr]; rfl)] at h
      exact h
    | some r =>
      have ha : rngAccess g t u = ((rngStep g (.use t u)).1, some (r.use u).1) := by simp only [rngAccess, hf]
      simp only [itemsStep, ha] at h hL
      rw [virt_use u hf] at h
      obtain ⟨logs, G', out', h1, h2, h3⟩ := h
      refine ⟨logs, G', out', ?_, h2, h3⟩
      intro t'
      have := h1 t'
      by_cases ht : t' = t
      · subst ht
        rw [upd_same, upd_same] at this
        rw [hr]
        have hv : virt s0 L g t' = some r := by simp only [virt, hf]
        rw [hv]
        simp only [List.cons_append, runItems, runProg] at this ⊢
        exact this
      · rw [upd_ne _ _ ht, upd_ne _ _ ht] at this; exact this

/-! ### Steps of the workers -/

theorem sum_upd {W t : Nat} (ht : t < W) (f : Nat → Nat) (v : Nat) : (∑ i ∈ Finset.range W, upd f t v i) + f t = (∑ i ∈ Finset.range W, f i) + v := by
  have hm : t ∈ Finset.range W := Finset.mem_range.mpr ht
  rw [← Finset.add_sum_erase _ _ hm, ← Finset.add_sum_erase _ f hm, upd_same]
  have : ∑ i ∈ (Finset.range W).erase t, upd f t v i = ∑ i ∈ (Finset.range W).erase t, f i := by
    apply Finset.sum_congr rfl
    intro i hi
    exact upd_ne _ _ (Finset.ne_of_mem_erase hi)
  rw [this]; omega

theorem load_upd {s s' : SeededState D A R} {t : Nat} (h : ∀ t', t' ≠ t → load s' t' = load s t') : load s' = upd (load s) t (load s' t) := by
  funext t'
  by_cases ht : t' = t
  · subst ht; rw [upd_same]
  · rw [upd_ne _ _ ht, h t' ht]

/-- The loop that the calling thread is in. -/
def nextOf : MainAt D A R → Option ((Nat → Option A) → MainProg D A R)
  | .run _ => none
  | .submit _ _ next => some next
  | .own _ next => some next
  | .wait next => some next

theorem completes_iff {W : Nat} {s : SeededState D A R} {G : Nat → Option (RegGen D)} {a : R} {next : (Nat → Option A) → MainProg D A R} (h : nextOf s.main = some next) :
    Completes W s G a ↔ LoopEval W (s.turn + (unsent s.main).length) next G (rem W s) s.out a := by
  unfold Completes
  cases hm : s.main with
  | run p => rw [hm] at h; simp [nextOf] at h
  | submit bs own n => rw [hm] at h; simp only [nextOf, Option.some.injEq] at h; subst h; simp [unsent]
  | own todo n => rw [hm] at h; simp only [nextOf, Option.some.injEq] at h; subst h; simp [unsent]
  | wait n => rw [hm] at h; simp only [nextOf, Option.some.injEq] at h; subst h; simp [unsent]

theorem isRun_iff (m : MainAt D A R) : isRun m ↔ nextOf m = none := by cases m <;> simp [isRun, nextOf]

/-- What a step does to the generators, and how the rest of the run is evaluated. -/
structure StepOk (W : Nat) (s0 : XState) (s s' : SeededState D A R) : Prop where
  inv : Inv W s'
  ids : ids s.rng <+: ids s'.rng
  global : s'.rng.global = xoroJump^[s'.rng.gens.length] s0
  back : ∀ (L : List Nat) (a : R), Gapp.Proofs.SeededRun.ids s'.rng <+: L → Completes W s' (virt s0 L s'.rng) a → Completes W s (virt s0 L s.rng) a

theorem StepOk.refl {W : Nat} {s0 : XState} {s : SeededState D A R} (hi : Inv W s) (hg : s.rng.global = xoroJump^[s.rng.gens.length] s0) : StepOk W s0 s s :=
  ⟨hi, List.prefix_refl _, hg, fun _ _ _ h => h⟩

/-- A step in a loop that keeps the generators, the elements, and what remains to be done. -/
theorem stepOk_quiet {W : Nat} {s0 : XState} {s s' : SeededState D A R} {next : (Nat → Option A) → MainProg D A R} (hi : Inv W s) (hg : s.rng.global = xoroJump^[s.rng.gens.length] s0)
    (h1 : nextOf s.main = some next) (h2 : nextOf s'.main = some next) (hrng : s'.rng = s.rng) (hout : s'.out = s.out) (hrem : rem W s' = rem W s)
    (hturn : s'.turn + (unsent s'.main).length = s.turn + (unsent s.main).length) (hpos : unsent s'.main ≠ [] → 0 < W)
    (hlatch : s'.latch + (unsent s.main).length + ∑ t ∈ Finset.range W, load s t = s.latch + (unsent s'.main).length + ∑ t ∈ Finset.range W, load s' t) :
    StepOk W s0 s s' := by
  have hn : ¬ isRun s.main := by rw [isRun_iff, h1]; simp
  have hn' : ¬ isRun s'.main := by rw [isRun_iff, h2]; simp
  refine ⟨⟨fun h => absurd h hn', fun _ => ?_, fun _ => ?_, hpos⟩, by rw [hrng], by rw [hrng]; exact hg, ?_⟩
  · have := hi.latch hn
    omega
  · rw [hrem, hout]; exact hi.owned hn
  · intro L a _ h
    rw [completes_iff h2, hturn, hrem, hout, hrng] at h
    rw [completes_iff h1]
    exact h

/-- A step in a loop in which a thread goes on with its elements. -/
theorem stepOk_items {W : Nat} {s0 : XState} {s s' : SeededState D A R} {next : (Nat → Option A) → MainProg D A R} {t i : Nat} {p : RandProg D A} {rest rest' : List (Nat × RandProg D A)}
    (hi : Inv W s) (hg : s.rng.global = xoroJump^[s.rng.gens.length] s0)
    (h1 : nextOf s.main = some next) (h2 : nextOf s'.main = some next) (hr : rem W s t = (i, p) :: (rest ++ rest'))
    (hrng : s'.rng = (itemsStep s.rng s.out t i p rest).1) (hout : s'.out = (itemsStep s.rng s.out t i p rest).2.1)
    (hrem : rem W s' = upd (rem W s) t ((itemsStep s.rng s.out t i p rest).2.2 ++ rest'))
    (hturn : s'.turn = s.turn) (hun : unsent s'.main = unsent s.main)
    (hlatch : s'.latch = s.latch) (hload : load s' = load s) : StepOk W s0 s s' := by
  have hn : ¬ isRun s.main := by rw [isRun_iff, h1]; simp
  have hn' : ¬ isRun s'.main := by rw [isRun_iff, h2]; simp
  refine ⟨⟨fun h => absurd h hn', fun _ => ?_, fun _ => ?_, by rw [hun]; exact hi.pos⟩, ?_, ?_, ?_⟩
  · rw [hlatch, hun, hload]; exact hi.latch hn
  · rw [hrem, hout]; exact owned_items _ (hi.owned hn) hr
  · rw [hrng]
    rcases items_rng s.rng s.out t i p rest with h | ⟨u, h⟩
    · rw [h]
    · rw [h]; exact ids_access _ _ _
  · rw [hrng]
    rcases items_rng s.rng s.out t i p rest with h | ⟨u, h⟩
    · rw [h]; exact hg
    · rw [h]; exact global_access hg _ _
  · intro L a hL h
    rw [completes_iff h2, hturn, hrem, hout, hrng, hun] at h
    rw [completes_iff h1]
    rw [hrng] at hL
    exact loopEval_items hg hL (hi.owned hn) hr h

theorem worker_ok {W : Nat} {s0 : XState} {s : SeededState D A R} {t : Nat} (ht : t < W) (hi : Inv W s) (hg : s.rng.global = xoroJump^[s.rng.gens.length] s0) :
    StepOk W s0 s (workerStep s t) := by
  unfold workerStep
  cases hn : nextOf s.main with
  | none =>
    have hl := hi.idle ((isRun_iff _).mpr hn) t ht
    unfold load at hl
    have hc : s.cur t = none := by
      cases h : s.cur t with
      | none => rfl
      | some x => rw [h] at hl; simp at hl
    have hq : s.queues t = [] := by
      cases h : s.queues t with
      | nil => rfl
      | cons x y => rw [h] at hl; simp at hl
    rw [hc]
    simp only
    rw [hq]
    exact StepOk.refl hi hg
  | some next =>
    cases hc : s.cur t with
    | none =>
      simp only
      cases hq : s.queues t with
      | nil => exact StepOk.refl hi hg
      | cons k q =>
        simp only
        refine stepOk_quiet (next := next) hi hg hn hn rfl rfl ?_ rfl hi.pos ?_
        · funext t'
          unfold rem
          simp only
          by_cases h : t' = t
          · subst h
            rw [if_pos ht, if_pos ht, upd_same, upd_same, hc, hq]
            simp
          · rw [upd_ne _ _ h, upd_ne _ _ h]
        · have : load (A := A) (R := R) { s with cur := upd s.cur t (some k), queues := upd s.queues t q } = load s := by
            funext t'
            unfold load
            simp only
            by_cases h : t' = t
            · subst h; rw [upd_same, upd_same, hc, hq]; simp
            · rw [upd_ne _ _ h, upd_ne _ _ h]
          rw [this]
    | some c =>
      cases c with
      | nil =>
        simp only
        have hl := hi.latch (by rw [isRun_iff, hn]; simp)
        refine stepOk_quiet (next := next) hi hg hn hn rfl rfl ?_ rfl hi.pos ?_
        · funext t'
          unfold rem
          simp only
          by_cases h : t' = t
          · subst h
            rw [if_pos ht, if_pos ht, upd_same, hc]
            simp
          · rw [upd_ne _ _ h]
        · have hlo : load (A := A) (R := R) { s with cur := upd s.cur t none, latch := s.latch - 1 } = upd (load s) t (load s t - 1) := by
            rw [load_upd (s := s) (t := t)]
            · congr 1
              unfold load
              simp only [upd_same, hc]
              simp
            · intro t' h
              unfold load
              simp only
              rw [upd_ne _ _ h]
          have h1 : 1 ≤ load s t := by unfold load; rw [hc]; simp
          have h2 := sum_upd ht (load s) (load s t - 1)
          rw [hlo]
          simp only
          have h3 : load s t ≤ ∑ t ∈ Finset.range W, load s t :=
            Finset.single_le_sum (f := load s) (fun _ _ => Nat.zero_le _) (Finset.mem_range.mpr ht)
          omega
      | cons x rest =>
        obtain ⟨i, p⟩ := x
        simp only
        refine stepOk_items (next := next) (t := t) (i := i) (p := p) (rest := rest) (rest' := (s.queues t).flatten ++ assigned W s.turn (unsent s.main) t) hi hg hn hn ?_ rfl rfl ?_ rfl rfl rfl ?_
        · unfold rem
          rw [if_pos ht, hc]
          simp
        · funext t'
          unfold rem
          simp only
          by_cases h : t' = t
          · subst h
            rw [if_pos ht, upd_same, upd_same]
            simp
          · rw [upd_ne _ _ h, upd_ne _ _ h]
        · funext t'
          unfold load
          simp only
          by_cases h : t' = t
          · subst h; rw [upd_same, hc]; simp
          · rw [upd_ne _ _ h]

/-! ### Steps of the calling thread -/

theorem assigned_mem {W : Nat} {bs : List (List (Nat × RandProg D A))} : ∀ {n t : Nat} {x : Nat × RandProg D A}, x ∈ assigned W n bs t → ∃ b ∈ bs, x ∈ b := by
  induction bs with
  | nil => intro n t x h; simp [assigned] at h
  | cons b bs ih =>
    intro n t x h
    simp only [assigned, List.mem_append] at h
    rcases h with h | h
    · split at h
      · exact ⟨b, by simp, h⟩
      · simp at h
    · obtain ⟨c, hc, hx⟩ := ih h
      exact ⟨c, by simp [hc], hx⟩

theorem assigned_sublist {W : Nat} {bs : List (List (Nat × RandProg D A))} : ∀ (n t : Nat), (assigned W n bs t).Sublist bs.flatten := by
  induction bs with
  | nil => intro n t; simp [assigned]
  | cons b bs ih =>
    intro n t
    simp only [assigned, List.flatten_cons]
    apply List.Sublist.append _ (ih _ _)
    split
    · exact List.Sublist.refl _
    · exact List.nil_sublist _

/-- Two workers get different elements. -/
theorem assigned_inj {W : Nat} {bs : List (List (Nat × RandProg D A))} : ∀ {n t t' : Nat} {x y : Nat × RandProg D A}, (bs.flatten.map Prod.fst).Nodup →
    x ∈ assigned W n bs t → y ∈ assigned W n bs t' → x.1 = y.1 → t = t' := by
  induction bs with
  | nil => intro n t t' x y _ h; simp [assigned] at h
  | cons b bs ih =>
    intro n t t' x y hn hx hy he
    simp only [List.flatten_cons, List.map_append, List.nodup_append] at hn
    simp only [assigned, List.mem_append] at hx hy
    have cross : ∀ {t t' : Nat} {x y : Nat × RandProg D A}, x ∈ (if n % W = t then b else []) → y ∈ assigned W (n + 1) bs t' → x.1 = y.1 → False := by
      intro t t' x y hx hy he
      split at hx
      · have h1 := (assigned_sublist (bs := bs) (n + 1) t').subset hy
        exact hn.2.2 x.1 (List.mem_map_of_mem hx) y.1 (List.mem_map_of_mem h1) he
      · simp at hx
    rcases hx with hx | hx <;> rcases hy with hy | hy
    · split at hx
      · split at hy
        · omega
        · simp at hy
      · simp at hx
    · exact (cross hx hy he).elim
    · exact (cross hy hx he.symm).elim
    · exact ih hn.2.1 hx hy he

theorem work_owned (W n b : Nat) (items : List (RandProg D A)) :
    Owned (work W n (loopBlocks W (b + 1) (items.zipIdx.map (fun x => (x.2, x.1))))) (fun _ => (none : Option A)) := by
  set bl := loopBlocks W (b + 1) (items.zipIdx.map (fun x => (x.2, x.1))) with hbl
  have hfl : bl.1.flatten ++ bl.2 = items.zipIdx.map (fun x => (x.2, x.1)) := loopBlocks_flatten _ _ _
  have hnd : ((bl.1.flatten ++ bl.2).map Prod.fst).Nodup := by
    rw [hfl, List.map_map]
    have : (Prod.fst ∘ fun x : RandProg D A × Nat => (x.2, x.1)) = Prod.snd := rfl
    rw [this, List.zipIdx_map_snd]
    exact List.nodup_range'
  rw [List.map_append, List.nodup_append] at hnd
  classical
  refine ⟨fun i => if h : ∃ t x, x ∈ work W n bl t ∧ x.1 = i then h.choose else 0, fun t => ⟨?_, fun x hx => ⟨?_, rfl⟩⟩⟩
  · unfold work
    split
    · exact List.Nodup.sublist (List.Sublist.map _ (assigned_sublist n t)) hnd.1
    · split
      · exact hnd.2.1
      · exact List.nodup_nil
  · have hex : ∃ t x', x' ∈ work W n bl t ∧ x'.1 = x.1 := ⟨t, x, hx, rfl⟩
    simp only
    rw [dif_pos hex]
    obtain ⟨y, hy, he⟩ := hex.choose_spec
    generalize hex.choose = t' at hy
    unfold work at hx hy
    split at hx
    · rename_i ht
      split at hy
      · exact (assigned_inj hnd.1 hx hy he.symm).symm
      · split at hy
        · exact (hnd.2.2 x.1 (List.mem_map_of_mem ((assigned_sublist n t).subset hx)) y.1 (List.mem_map_of_mem hy) he.symm).elim
        · simp at hy
    · split at hx
      · split at hy
        · exact (hnd.2.2 y.1 (List.mem_map_of_mem ((assigned_sublist n t').subset hy)) x.1 (List.mem_map_of_mem hx) he).elim
        · split at hy
          · omega
          · simp at hy
      · simp at hx

theorem load_zero {s : SeededState D A R} {t : Nat} (h : load s t = 0) : s.cur t = none ∧ s.queues t = [] := by
  unfold load at h
  constructor
  · cases hc : s.cur t with
    | none => rfl
    | some x => rw [hc] at h; simp at h
  · cases hq : s.queues t with
    | nil => rfl
    | cons x y => rw [hq] at h; simp at h

theorem main_ok {W : Nat} {s0 : XState} {s : SeededState D A R} (hi : Inv W s) (hg : s.rng.global = xoroJump^[s.rng.gens.length] s0) :
    StepOk W s0 s (mainStep W s) := by
  unfold mainStep
  cases hm : s.main with
  | run p =>
    have hrun : isRun s.main := by rw [hm]; trivial
    have hidle := hi.idle hrun
    cases p with
    | done a => exact StepOk.refl hi hg
    | use u k =>
      simp only
      cases hf : s.rng.gens.find? (fun r => r.id == W) with
      | none =>
        have ha : rngAccess s.rng W u = ((rngStep s.rng (.register W)).1, none) := by simp only [rngAccess, hf]
        rw [ha]
        simp only
        refine ⟨⟨fun _ => hidle, fun h => absurd trivial h, fun h => absurd trivial h, by simp [unsent]⟩, ?_, ?_, ?_⟩
        · have := ids_access s.rng W u; rw [ha] at this; exact this
        · have := global_access hg W u; rw [ha] at this; exact this
        · intro L a hL h
          unfold Completes at h ⊢
          simp only [hm] at h ⊢
          simp only at hL
          rwa [virt_register hg hf hL] at h
      | some r =>
        have ha : rngAccess s.rng W u = ((rngStep s.rng (.use W u)).1, some (r.use u).1) := by simp only [rngAccess, hf]
        rw [ha]
        simp only
        refine ⟨⟨fun _ => hidle, fun h => absurd trivial h, fun h => absurd trivial h, by simp [unsent]⟩, ?_, ?_, ?_⟩
        · have := ids_access s.rng W u; rw [ha] at this; exact this
        · have := global_access hg W u; rw [ha] at this; exact this
        · intro L a hL h
          unfold Completes at h ⊢
          simp only [hm] at h ⊢
          rw [virt_use u hf] at h
          exact RefEval.use u k _ _ r a (by simp only [virt, hf]) h
    | loop items b next =>
      cases items with
      | nil =>
        simp only
        refine ⟨⟨fun _ => hidle, fun h => absurd trivial h, fun h => absurd trivial h, by simp [unsent]⟩, List.prefix_refl _, hg, ?_⟩
        intro L a hL h
        unfold Completes at h ⊢
        simp only [hm] at h ⊢
        exact RefEval.empty _ _ _ _ _ h
      | cons p ps =>
        simp only
        set bl := loopBlocks W (b + 1) ((p :: ps).zipIdx.map (fun x => (x.2, x.1))) with hbl
        set s' : SeededState D A R := { s with main := .submit bl.1 bl.2 next, latch := poolTaskCount W (p :: ps).length (b + 1) - 1, out := fun _ => none } with hs'
        have hlen : bl.1.length = poolTaskCount W (p :: ps).length (b + 1) - 1 := by
          rw [hbl, loopBlocks_length, List.length_map, List.length_zipIdx]
        have hrem : rem W s' = work W s.turn bl := by
          funext t
          unfold rem work
          by_cases ht : t < W
          · rw [if_pos ht, if_pos ht]
            obtain ⟨hc, hq⟩ := load_zero (hidle t ht)
            simp [hs', hc, hq, unsent]
          · rw [if_neg ht, if_neg ht]
            simp [hs', ownTodo]
        have hload : load s' = load s := rfl
        refine ⟨⟨fun h => h.elim, fun _ => ?_, fun _ => ?_, ?_⟩, List.prefix_refl _, hg, ?_⟩
        · rw [hload, Finset.sum_eq_zero (fun t ht => hidle t (Finset.mem_range.mp ht))]
          simp [hs', unsent, hlen]
        · rw [hrem]; exact work_owned W s.turn b (p :: ps)
        · intro h
          by_contra hW
          have hW : W = 0 := by omega
          apply h
          have : bl.1.length = 0 := by
            rw [hlen, hW]
            unfold poolTaskCount
            simp only [if_true]
            omega
          simpa [hs', unsent] using List.length_eq_zero_iff.mp this
        · intro L a hL h
          unfold Completes at h ⊢
          simp only [hm]
          simp only [hs'] at h
          obtain ⟨logs, G', out', h1, h2, h3⟩ := h
          rw [← hs', hrem] at h1
          exact RefEval.loop p ps b next _ _ a logs G' out' h1 (fun i c => by rw [h2]; simp) h3
  | submit bs own next =>
    have hn : nextOf s.main = some next := by rw [hm]; rfl
    cases bs with
    | cons c bs =>
      simp only
      have hW : 0 < W := hi.pos (by rw [hm]; simp [unsent])
      have hlt : s.turn % W < W := Nat.mod_lt _ hW
      refine stepOk_quiet (next := next) hi hg hn rfl rfl rfl ?_ ?_ ?_ ?_
      · funext t
        unfold rem
        simp only [hm, unsent, ownTodo, assigned]
        by_cases ht : t < W
        · rw [if_pos ht, if_pos ht]
          by_cases h : t = s.turn % W
          · subst h
            rw [upd_same]
            simp
          · rw [upd_ne _ _ h, if_neg (fun h' => h h'.symm)]
            simp
        · rw [if_neg ht, if_neg ht]
      · simp only [hm, unsent, List.length_cons]; omega
      · intro _; exact hW
      · have hlo : load (A := A) (R := R) { s with main := .submit bs own next, turn := s.turn + 1, queues := upd s.queues (s.turn % W) (s.queues (s.turn % W) ++ [c]) } =
            upd (load s) (s.turn % W) (load s (s.turn % W) + 1) := by
          rw [load_upd (s := s) (t := s.turn % W)]
          · congr 1
            unfold load
            simp only [upd_same, List.length_append, List.length_singleton]
            omega
          · intro t' h
            unfold load
            simp only
            rw [upd_ne _ _ h]
        have h2 := sum_upd hlt (load s) (load s (s.turn % W) + 1)
        rw [hlo]
        simp only [hm, unsent, List.length_cons]
        omega
    | nil =>
      simp only
      refine stepOk_quiet (next := next) hi hg hn rfl rfl rfl ?_ ?_ ?_ ?_
      · funext t
        unfold rem
        simp only [hm, unsent, ownTodo]
      · simp [hm, unsent]
      · simp [unsent]
      · simp only [hm, unsent]; rfl
  | own todo next =>
    have hn : nextOf s.main = some next := by rw [hm]; rfl
    cases todo with
    | nil =>
      simp only
      refine stepOk_quiet (next := next) hi hg hn rfl rfl rfl ?_ ?_ ?_ ?_
      · funext t
        unfold rem
        simp only [hm, unsent, ownTodo]
      · simp [hm, unsent]
      · simp [unsent]
      · simp only [hm, unsent]; rfl
    | cons x rest =>
      obtain ⟨i, p⟩ := x
      simp only
      refine stepOk_items (next := next) (t := W) (i := i) (p := p) (rest := rest) (rest' := []) hi hg hn rfl ?_ rfl rfl ?_ rfl ?_ rfl rfl
      · unfold rem
        rw [if_neg (by omega), if_pos rfl, hm]
        simp [ownTodo]
      · funext t
        unfold rem
        simp only [hm, unsent]
        by_cases h : t = W
        · subst h
          rw [if_neg (by omega), if_pos rfl, upd_same]
          simp [ownTodo]
        · rw [upd_ne _ _ h]
          simp only [if_neg h]
      · rw [hm]; rfl
  | wait next =>
    simp only
    have hn : nextOf s.main = some next := by rw [hm]; rfl
    have hnr : ¬ isRun s.main := by rw [isRun_iff, hn]; simp
    by_cases hz : s.latch = 0
    · rw [if_pos hz]
      have hl := hi.latch hnr
      rw [hz] at hl
      have hload : ∀ t < W, load s t = 0 := by
        intro t ht
        have h3 : load s t ≤ ∑ t ∈ Finset.range W, load s t :=
          Finset.single_le_sum (f := load s) (fun _ _ => Nat.zero_le _) (Finset.mem_range.mpr ht)
        omega
      refine ⟨⟨fun _ => hload, fun h => absurd trivial h, fun h => absurd trivial h, by simp [unsent]⟩, List.prefix_refl _, hg, ?_⟩
      intro L a hL h
      have hrem : ∀ t, rem W s t = [] := by
        intro t
        unfold rem
        by_cases ht : t < W
        · obtain ⟨hc, hq⟩ := load_zero (hload t ht)
          rw [if_pos ht]
          simp [hc, hq, hm, unsent, assigned]
        · rw [if_neg ht]
          simp [hm, ownTodo]
      rw [completes_iff hn]
      unfold Completes at h
      simp only at h
      refine ⟨fun _ => [], virt s0 L s.rng, s.out, ?_, by simp, ?_⟩
      · intro t; rw [hrem]; rfl
      · simpa [hm, unsent] using h
    · rw [if_neg hz]; exact StepOk.refl hi hg

theorem step_ok {W : Nat} {s0 : XState} {s : SeededState D A R} (t : Nat) (hi : Inv W s) (hg : s.rng.global = xoroJump^[s.rng.gens.length] s0) :
    StepOk W s0 s (seededStep W s t) := by
  unfold seededStep
  split
  · rename_i h; exact worker_ok h hi hg
  · split
    · exact main_ok hi hg
    · exact StepOk.refl hi hg

theorem steps_ok {W : Nat} {s0 : XState} (es : List Nat) : ∀ {s : SeededState D A R}, Inv W s → s.rng.global = xoroJump^[s.rng.gens.length] s0 →
    StepOk W s0 s (es.foldl (seededStep W) s) := by
  induction es with
  | nil => intro s hi hg; exact StepOk.refl hi hg
  | cons t es ih =>
    intro s hi hg
    have h1 := step_ok (W := W) t hi hg
    have h2 := ih h1.inv h1.global
    refine ⟨h2.inv, h1.ids.trans h2.ids, h2.global, fun L a hL h => ?_⟩
    exact h1.back L a (h2.ids.trans hL) (h2.back L a hL h)

theorem inv_start (W : Nat) (g : RngGlobal D) (turn : Nat) (prog : MainProg D A R) : Inv W (solveStart g turn prog) :=
  ⟨fun _ _ _ => rfl, fun h => absurd trivial h, fun h => absurd trivial h, fun h => absurd rfl h⟩

/-- A run that has ended gave what the sequential evaluation gives. -/
theorem run_eval {W : Nat} {s0 : XState} {g : RngGlobal D} {turn : Nat} {prog : MainProg D A R} {es : List Nat} {a : R} (hg : g.global = xoroJump^[g.gens.length] s0)
    (h : (seededRun W g turn prog es).result = some a) : RefEval W prog 0 (virt s0 (ids (seededRun W g turn prog es).rng) g) a := by
  have hok := steps_ok (W := W) (s0 := s0) es (inv_start W g turn prog) hg
  refine hok.back _ a (List.prefix_refl _) ?_
  unfold seededRun at h
  unfold SeededState.result at h
  unfold Completes
  split at h
  · rename_i b hb
    cases h
    rw [hb]
    exact RefEval.done _ _ _
  · simp at h

/-! ### After `seed` -/

theorem seed_global (g : RngGlobal D) (s : BitVec 64) : (rngStep g (.seed s)).1.global = xoroJump^[(rngStep g (.seed s)).1.gens.length] (seedSequence s) := by
  simp only [rngStep, reseed_global, reseed_gens, List.length_map, List.length_zipIdx]

theorem seed_ids (g : RngGlobal D) (s : BitVec 64) : ids (rngStep g (.seed s)).1 = ids g := by
  simp only [ids, rngStep, reseed_gens, List.map_map]
  apply List.ext_getElem?
  intro i
  simp only [List.getElem?_map, List.getElem?_zipIdx]
  cases g.gens[i]? <;> rfl

/-- The generator has not been used since it was seeded, as the one of thread `t` in the order `L`. -/
def FreshAt (s0 : XState) (L : List Nat) (t : Nat) (r : RegGen D) : Prop :=
  r.state = xoroJump^[L.idxOf t + 1] s0 ∧ r.pool = 1#64 ∧ r.normal = D.normalFresh ∧ r.poisson = D.poissonFresh

theorem idxOf_prefix {l L : List Nat} {t : Nat} (h : l <+: L) (ht : t ∈ l) : L.idxOf t = l.idxOf t := by
  obtain ⟨m, rfl⟩ := h
  exact List.idxOf_append_of_mem ht

theorem seed_find {g : RngGlobal D} {s : BitVec 64} {t : Nat} {r : RegGen D} (h : (rngStep g (.seed s)).1.gens.find? (fun r => r.id == t) = some r) :
    FreshAt (seedSequence s) (ids g) t r := by
  rw [List.find?_eq_some_iff_getElem] at h
  obtain ⟨hid, i, hi, he, hfirst⟩ := h
  have hget : (reseedGens (seedSequence s) g.gens).2[i]? = some r := by
    rw [List.getElem?_eq_some_iff]; exact ⟨hi, he⟩
  obtain ⟨a1, a2, a3, a4, -, r0, e0, e1⟩ := reseed_getElem hget
  refine ⟨?_, a2, a3, a4⟩
  have hidx : (ids g).idxOf t = i := by
    rw [← seed_ids g s]
    have hlen : i < (ids (rngStep g (.seed s)).1).length := by simpa [ids] using hi
    unfold List.idxOf
    rw [List.findIdx_eq hlen]
    constructor
    · simp only [ids, List.getElem_map]; rw [he]; simpa using hid
    · intro j hj
      have := hfirst j hj
      simp only [ids, List.getElem_map]
      simpa using this
  rw [a1, hidx]

theorem seed_virt {g : RngGlobal D} {s : BitVec 64} {L : List Nat} {t : Nat} (hL : ids g <+: L) :
    (∀ r, virt (seedSequence s) L (rngStep g (.seed s)).1 t = some r → t ∈ L ∧ FreshAt (seedSequence s) L t r) ∧
      (t ∈ L → ∃ r, virt (seedSequence s) L (rngStep g (.seed s)).1 t = some r) := by
  unfold virt
  cases hf : (rngStep g (.seed s)).1.gens.find? (fun r => r.id == t) with
  | some r =>
    refine ⟨fun r' h => ?_, fun _ => ⟨r, rfl⟩⟩
    cases h
    have hm : t ∈ ids g := by
      rw [← seed_ids g s]
      by_contra h
      rw [find_none.mpr h] at hf
      cases hf
    have := seed_find hf
    unfold FreshAt at this ⊢
    rw [idxOf_prefix hL hm]
    exact ⟨hL.subset hm, this⟩
  | none =>
    by_cases h : t ∈ L
    · simp only [if_pos h]
      refine ⟨fun r hr => ?_, fun _ => ⟨_, rfl⟩⟩
      cases hr
      exact ⟨h, rfl, rfl, rfl, rfl⟩
    · simp only [if_neg h]
      exact ⟨fun r hr => (by cases hr), fun h' => absurd h' h⟩

theorem start_ids {W : Nat} {g : RngGlobal D} {s : BitVec 64} (turn : Nat) (prog : MainProg D A R) (es : List Nat) :
    ids g <+: ids (seededRun W (rngStep g (.seed s)).1 turn prog es).rng := by
  have := (steps_ok (W := W) es (inv_start W (rngStep g (.seed s)).1 turn prog) (seed_global g s)).ids
  rw [show (solveStart (rngStep g (.seed s)).1 turn prog).rng = (rngStep g (.seed s)).1 from rfl, seed_ids] at this
  exact this

/-- Two runs give the same result if the threads are registered in the same order. -/
theorem same_order {W : Nat} {g1 g2 : RngGlobal D} {s : BitVec 64} {turn1 turn2 : Nat} {prog : MainProg D A R} {es1 es2 : List Nat} {a b : R}
    (h1 : (seededRun W (rngStep g1 (.seed s)).1 turn1 prog es1).result = some a) (h2 : (seededRun W (rngStep g2 (.seed s)).1 turn2 prog es2).result = some b)
    (hL : ids (seededRun W (rngStep g1 (.seed s)).1 turn1 prog es1).rng <+: ids (seededRun W (rngStep g2 (.seed s)).1 turn2 prog es2).rng) : a = b := by
  have e1 := run_eval (seed_global g1 s) h1
  have e2 := run_eval (seed_global g2 s) h2
  refine e1.det (fun t r1 hr1 => ?_) e2
  obtain ⟨hm, f1, f2, f3, f4⟩ := (seed_virt (start_ids turn1 prog es1)).1 r1 hr1
  obtain ⟨r2, hr2⟩ := (seed_virt (s := s) (start_ids (W := W) (s := s) turn2 prog es2)).2 (hL.subset hm)
  obtain ⟨-, k1, k2, k3, k4⟩ := (seed_virt (start_ids turn2 prog es2)).1 r2 hr2
  rw [idxOf_prefix hL hm] at k1
  exact ⟨r2, hr2, f1.trans k1.symm, f2.trans k2.symm, f3.trans k3.symm, Or.inr ⟨f4, k4⟩⟩

/-! ### Runs can always go on to their end -/

theorem foldl_app (W : Nat) (s : SeededState D A R) (es es' : List Nat) :
    (es ++ es').foldl (seededStep W) s = es'.foldl (seededStep W) (es.foldl (seededStep W) s) := List.foldl_append

theorem access_some (g : RngGlobal D) (t : Nat) (u : Use D) : (∃ g' o, rngAccess g t u = (g', some o)) ∨
    ∃ g', rngAccess g t u = (g', none) ∧ ∀ u', ∃ g'' o, rngAccess g' t u' = (g'', some o) := by
  cases hf : g.gens.find? (fun r => r.id == t) with
  | some r => left; exact ⟨(rngStep g (.use t u)).1, (r.use u).1, by simp only [rngAccess, hf]⟩
  | none =>
    right
    refine ⟨(rngStep g (.register t)).1, by simp only [rngAccess, hf], fun u' => ?_⟩
    have : (rngStep g (.register t)).1.gens.find? (fun r => r.id == t) = some (newGen D t (xoroJump g.global)) := by
      simp only [rngStep, List.find?_append, hf]
      simp [newGen]
    exact ⟨(rngStep (rngStep g (.register t)).1 (.use t u')).1, ((newGen D t (xoroJump g.global)).use u').1, by simp only [rngAccess, this]⟩

/-- A worker can end its task. -/
theorem drain_task {W t : Nat} (ht : t < W) (items : List (Nat × RandProg D A)) : ∀ (s : SeededState D A R), s.cur t = some items →
    ∃ es : List Nat, (es.foldl (seededStep W) s).cur t = none ∧ (es.foldl (seededStep W) s).queues = s.queues ∧ (es.foldl (seededStep W) s).main = s.main ∧
      ∀ t', t' ≠ t → (es.foldl (seededStep W) s).cur t' = s.cur t' := by
  induction items with
  | nil =>
    intro s hs
    refine ⟨[t], ?_⟩
    simp only [List.foldl_cons, List.foldl_nil, seededStep, if_pos ht, workerStep, hs]
    exact ⟨upd_same _ _ _, trivial, trivial, fun t' h => upd_ne _ _ h⟩
  | cons x rest ih =>
    obtain ⟨i, p⟩ := x
    induction p with
    | ret a =>
      intro s hs
      have hstep : seededStep W s t = { s with out := upd s.out i (some a), cur := upd s.cur t (some rest) } := by
        simp only [seededStep, if_pos ht, workerStep, hs, itemsStep]
      obtain ⟨es, h1, h2, h3, h4⟩ := ih (seededStep W s t) (by rw [hstep]; exact upd_same _ _ _)
      refine ⟨t :: es, ?_⟩
      simp only [List.foldl_cons]
      refine ⟨h1, h2.trans (by rw [hstep]), h3.trans (by rw [hstep]), fun t' h => (h4 t' h).trans (by rw [hstep]; exact upd_ne _ _ h)⟩
    | use u k ihp =>
      have one : ∀ (s : SeededState D A R), s.cur t = some ((i, .use u k) :: rest) → (∃ g o, rngAccess s.rng t u = (g, some o)) →
          ∃ es : List Nat, (es.foldl (seededStep W) s).cur t = none ∧ (es.foldl (seededStep W) s).queues = s.queues ∧ (es.foldl (seededStep W) s).main = s.main ∧
            ∀ t', t' ≠ t → (es.foldl (seededStep W) s).cur t' = s.cur t' := by
        rintro s hs ⟨g, o, ha⟩
        have hstep : seededStep W s t = { s with rng := g, cur := upd s.cur t (some ((i, k o) :: rest)) } := by
          simp only [seededStep, if_pos ht, workerStep, hs, itemsStep, ha]
        obtain ⟨es, h1, h2, h3, h4⟩ := ihp o (seededStep W s t) (by rw [hstep]; exact upd_same _ _ _)
        refine ⟨t :: es, ?_⟩
        simp only [List.foldl_cons]
        exact ⟨h1, h2.trans (by rw [hstep]), h3.trans (by rw [hstep]), fun t' h => (h4 t' h).trans (by rw [hstep]; exact upd_ne _ _ h)⟩
      intro s hs
      rcases access_some s.rng t u with h | ⟨g, ha, hnext⟩
      · exact one s hs h
      · have hstep : seededStep W s t = { s with rng := g, cur := upd s.cur t (some ((i, .use u k) :: rest)) } := by
          simp only [seededStep, if_pos ht, workerStep, hs, itemsStep, ha]
        obtain ⟨es, h1, h2, h3, h4⟩ := one (seededStep W s t) (by rw [hstep]; exact upd_same _ _ _) (by rw [hstep]; exact hnext u)
        refine ⟨t :: es, ?_⟩
        simp only [List.foldl_cons]
        exact ⟨h1, h2.trans (by rw [hstep]), h3.trans (by rw [hstep]), fun t' h => (h4 t' h).trans (by rw [hstep]; exact upd_ne _ _ h)⟩

/-- A worker can end all of its tasks. -/
theorem drain_worker {W t : Nat} (ht : t < W) (n : Nat) : ∀ (s : SeededState D A R), (s.queues t).length = n →
    ∃ es : List Nat, load (es.foldl (seededStep W) s) t = 0 ∧ (es.foldl (seededStep W) s).main = s.main ∧ ∀ t', t' ≠ t → load (es.foldl (seededStep W) s) t' = load s t' := by
  have idle : ∀ (s : SeededState D A R), ∃ es : List Nat, (es.foldl (seededStep W) s).cur t = none ∧ (es.foldl (seededStep W) s).queues = s.queues ∧ (es.foldl (seededStep W) s).main = s.main ∧
      ∀ t', t' ≠ t → (es.foldl (seededStep W) s).cur t' = s.cur t' := by
    intro s
    cases hc : s.cur t with
    | none => exact ⟨[], hc, rfl, rfl, fun _ _ => rfl⟩
    | some items => exact drain_task ht items s hc
  induction n with
  | zero =>
    intro s hq
    obtain ⟨es, h1, h2, h3, h4⟩ := idle s
    refine ⟨es, ?_, h3, fun t' h => ?_⟩
    · unfold load; rw [h1, h2, hq]; rfl
    · unfold load; rw [h2, h4 t' h]
  | succ n ih =>
    intro s hq
    obtain ⟨es, h1, h2, h3, h4⟩ := idle s
    generalize he : es.foldl (seededStep W) s = s1 at h1 h2 h3 h4
    cases hq1 : s1.queues t with
    | nil => rw [← h2, hq1] at hq; simp at hq
    | cons k q =>
      have hstep : seededStep W s1 t = { s1 with cur := upd s1.cur t (some k), queues := upd s1.queues t q } := by
        simp only [seededStep, if_pos ht, workerStep, h1, hq1]
      have hl : ((seededStep W s1 t).queues t).length = n := by
        rw [hstep]
        simp only [upd_same]
        rw [← h2, hq1, List.length_cons] at hq
        omega
      obtain ⟨es2, k1, k2, k3⟩ := ih _ hl
      refine ⟨es ++ t :: es2, ?_⟩
      rw [foldl_app, he, List.foldl_cons]
      refine ⟨k1, k2.trans ?_, fun t' h => (k3 t' h).trans ?_⟩
      · rw [hstep]; exact h3
      · rw [hstep]
        unfold load
        simp only [upd_ne _ _ h]
        rw [h2, h4 t' h]

theorem drain_all {W : Nat} (n : Nat) (hn : n ≤ W) (s : SeededState D A R) :
    ∃ es : List Nat, (∀ t < n, load (es.foldl (seededStep W) s) t = 0) ∧ (es.foldl (seededStep W) s).main = s.main := by
  induction n with
  | zero => exact ⟨[], fun t h => by omega, rfl⟩
  | succ n ih =>
    obtain ⟨es, h1, h2⟩ := ih (by omega)
    obtain ⟨es2, k1, k2, k3⟩ := drain_worker (W := W) (t := n) (by omega) _ (es.foldl (seededStep W) s) rfl
    refine ⟨es ++ es2, ?_, ?_⟩
    · intro t ht
      rw [foldl_app]
      by_cases h : t = n
      · subst h; exact k1
      · rw [k3 t h]; exact h1 t (by omega)
    · rw [foldl_app, k2, h2]

/-- The run can end. -/
def CanEnd (W : Nat) (s : SeededState D A R) : Prop := ∃ (es : List Nat) (a : R), (es.foldl (seededStep W) s).result = some a

theorem CanEnd.of_steps {W : Nat} {s : SeededState D A R} (es : List Nat) (h : CanEnd W (es.foldl (seededStep W) s)) : CanEnd W s := by
  obtain ⟨es2, a, h⟩ := h
  exact ⟨es ++ es2, a, by rw [foldl_app]; exact h⟩

theorem CanEnd.of_step {W : Nat} {s : SeededState D A R} (t : Nat) (h : CanEnd W (seededStep W s t)) : CanEnd W s := CanEnd.of_steps [t] h

theorem main_seededStep (W : Nat) (s : SeededState D A R) : seededStep W s W = mainStep W s := by
  simp [seededStep]

/-- The states that are reached. -/
def Good (W : Nat) (s0 : XState) (s : SeededState D A R) : Prop := Inv W s ∧ s.rng.global = xoroJump^[s.rng.gens.length] s0

theorem Good.steps {W : Nat} {s0 : XState} {s : SeededState D A R} (h : Good W s0 s) (es : List Nat) : Good W s0 (es.foldl (seededStep W) s) :=
  ⟨(steps_ok es h.1 h.2).inv, (steps_ok es h.1 h.2).global⟩

theorem Good.step {W : Nat} {s0 : XState} {s : SeededState D A R} (h : Good W s0 s) (t : Nat) : Good W s0 (seededStep W s t) := h.steps [t]

theorem wait_end {W : Nat} {s0 : XState} {next : (Nat → Option A) → MainProg D A R} (hnext : ∀ out (s : SeededState D A R), Good W s0 s → s.main = .run (next out) → CanEnd W s)
    (s : SeededState D A R) (hs : Good W s0 s) (hm : s.main = .wait next) : CanEnd W s := by
  obtain ⟨es, h1, h2⟩ := drain_all (W := W) W (Nat.le_refl _) s
  apply CanEnd.of_steps es
  have hg := hs.steps es
  generalize es.foldl (seededStep W) s = s1 at h1 h2 hg
  rw [hm] at h2
  have hl : s1.latch = 0 := by
    rw [hg.1.latch (by rw [h2]; exact fun h => h), h2, Finset.sum_eq_zero (fun t ht => h1 t (Finset.mem_range.mp ht))]
    rfl
  have hstep : seededStep W s1 W = { s1 with main := .run (next s1.out) } := by
    rw [main_seededStep]
    simp only [mainStep, h2, if_pos hl]
  apply CanEnd.of_step W
  exact hnext s1.out _ (hg.step W) (by rw [hstep])

theorem own_end {W : Nat} {s0 : XState} {next : (Nat → Option A) → MainProg D A R} (hnext : ∀ out (s : SeededState D A R), Good W s0 s → s.main = .run (next out) → CanEnd W s)
    (todo : List (Nat × RandProg D A)) : ∀ (s : SeededState D A R), Good W s0 s → s.main = .own todo next → CanEnd W s := by
  induction todo with
  | nil =>
    intro s hs hm
    apply CanEnd.of_step W
    refine wait_end hnext _ (hs.step W) ?_
    rw [main_seededStep]
    simp only [mainStep, hm]
  | cons x rest ih =>
    obtain ⟨i, p⟩ := x
    induction p with
    | ret a =>
      intro s hs hm
      apply CanEnd.of_step W
      refine ih _ (hs.step W) ?_
      rw [main_seededStep]
      simp only [mainStep, hm, itemsStep]
    | use u k ihp =>
      have one : ∀ (s : SeededState D A R), Good W s0 s → s.main = .own ((i, .use u k) :: rest) next → (∃ g o, rngAccess s.rng W u = (g, some o)) → CanEnd W s := by
        rintro s hs hm ⟨g, o, ha⟩
        apply CanEnd.of_step W
        refine ihp o _ (hs.step W) ?_
        rw [main_seededStep]
        simp only [mainStep, hm, itemsStep, ha]
      intro s hs hm
      rcases access_some s.rng W u with h | ⟨g, ha, hn⟩
      · exact one s hs hm h
      · have hstep : seededStep W s W = { s with rng := g, main := .own ((i, .use u k) :: rest) next } := by
          rw [main_seededStep]
          simp only [mainStep, hm, itemsStep, ha]
        apply CanEnd.of_step W
        refine one _ (hs.step W) (by rw [hstep]) (by rw [hstep]; exact hn u)

theorem submit_end {W : Nat} {s0 : XState} {next : (Nat → Option A) → MainProg D A R} (hnext : ∀ out (s : SeededState D A R), Good W s0 s → s.main = .run (next out) → CanEnd W s)
    (own : List (Nat × RandProg D A)) (bs : List (List (Nat × RandProg D A))) : ∀ (s : SeededState D A R), Good W s0 s → s.main = .submit bs own next → CanEnd W s := by
  induction bs with
  | nil =>
    intro s hs hm
    apply CanEnd.of_step W
    refine own_end hnext own _ (hs.step W) ?_
    rw [main_seededStep]
    simp only [mainStep, hm]
  | cons b bs ih =>
    intro s hs hm
    apply CanEnd.of_step W
    refine ih _ (hs.step W) ?_
    rw [main_seededStep]
    simp only [mainStep, hm]

theorem run_end {W : Nat} {s0 : XState} (p : MainProg D A R) : ∀ (s : SeededState D A R), Good W s0 s → s.main = .run p → CanEnd W s := by
  induction p with
  | done a => intro s hs hm; exact ⟨[], a, by simp [SeededState.result, hm]⟩
  | use u k ih =>
    have one : ∀ (s : SeededState D A R), Good W s0 s → s.main = .run (.use u k) → (∃ g o, rngAccess s.rng W u = (g, some o)) → CanEnd W s := by
      rintro s hs hm ⟨g, o, ha⟩
      apply CanEnd.of_step W
      refine ih o _ (hs.step W) ?_
      rw [main_seededStep]
      simp only [mainStep, hm, ha]
    intro s hs hm
    rcases access_some s.rng W u with h | ⟨g, ha, hn⟩
    · exact one s hs hm h
    · have hstep : seededStep W s W = { s with rng := g } := by
        rw [main_seededStep]
        simp only [mainStep, hm, ha]
      apply CanEnd.of_step W
      refine one _ (hs.step W) (by rw [hstep]; exact hm) (by rw [hstep]; exact hn u)
  | loop items b next ih =>
    intro s hs hm
    apply CanEnd.of_step W
    cases items with
    | nil =>
      refine ih (fun _ => none) _ (hs.step W) ?_
      rw [main_seededStep]
      simp only [mainStep, hm]
    | cons p ps =>
      have hmain : (seededStep W s W).main = .submit (loopBlocks W (b + 1) ((p :: ps).zipIdx.map (fun x => (x.2, x.1)))).1
          (loopBlocks W (b + 1) ((p :: ps).zipIdx.map (fun x => (x.2, x.1)))).2 next := by
        rw [main_seededStep]
        simp only [mainStep, hm]
      exact submit_end (next := next) (fun out s hs hm => ih out s hs hm) _ _ _ (hs.step W) hmain

theorem can_end {W : Nat} {s0 : XState} {s : SeededState D A R} (hs : Good W s0 s) : CanEnd W s := by
  cases hm : s.main with
  | run p => exact run_end p s hs hm
  | submit bs own next => exact submit_end (fun out s hs hm => run_end _ s hs hm) own bs s hs hm
  | own todo next => exact own_end (fun out s hs hm => run_end _ s hs hm) todo s hs hm
  | wait next => exact wait_end (fun out s hs hm => run_end _ s hs hm) s hs hm

/-! ### Up to two threads -/

theorem ids_access_cases (g : RngGlobal D) (t : Nat) (u : Use D) : ids (rngAccess g t u).1 = ids g ∨ t ∉ ids g ∧ ids (rngAccess g t u).1 = ids g ++ [t] := by
  unfold rngAccess
  cases hf : g.gens.find? (fun r => r.id == t) with
  | none => exact Or.inr ⟨find_none.mp hf, by simp [ids, rngStep, newGen]⟩
  | some r =>
    left
    simp only [ids, rngStep, useAt, List.map_map]
    apply List.map_congr_left
    intro x _
    simp only [Function.comp]
    split <;> simp [RegGen.use_id]

/-- With at most one worker the calling thread does everything. -/
def Few (W : Nat) (l : List Nat) (s : SeededState D A R) : Prop :=
  (∀ t < W, load s t = 0) ∧ unsent s.main = [] ∧ (ids s.rng = l ∨ W ∉ l ∧ ids s.rng = l ++ [W])

theorem few_ids {W : Nat} {l : List Nat} {g g' : RngGlobal D} (h : ids g = l ∨ W ∉ l ∧ ids g = l ++ [W]) (hg : ids g' = ids g ∨ W ∉ ids g ∧ ids g' = ids g ++ [W]) :
    ids g' = l ∨ W ∉ l ∧ ids g' = l ++ [W] := by
  rcases hg with hg | ⟨hn, hg⟩
  · rw [hg]; exact h
  · rcases h with h | ⟨h1, h2⟩
    · rw [h] at hn hg; exact Or.inr ⟨hn, hg⟩
    · rw [h2] at hn; simp at hn

theorem few_step {W : Nat} (hW : W ≤ 1) {l : List Nat} {s : SeededState D A R} (t : Nat) (h : Few W l s) : Few W l (seededStep W s t) := by
  obtain ⟨h1, h2, h3⟩ := h
  unfold seededStep
  split
  · rename_i ht
    obtain ⟨hc, hq⟩ := load_zero (h1 t ht)
    unfold workerStep
    rw [hc]; simp only; rw [hq]
    exact ⟨h1, h2, h3⟩
  · split
    · unfold mainStep
      cases hm : s.main with
      | run p =>
        cases p with
        | done a => exact ⟨h1, h2, h3⟩
        | use u k =>
          simp only
          have := few_ids h3 (ids_access_cases s.rng W u)
          split
          · rename_i g' ha; rw [ha] at this; exact ⟨h1, by simp [unsent], this⟩
          · rename_i g' o ha; rw [ha] at this; exact ⟨h1, by simp [unsent], this⟩
        | loop items b next =>
          cases items with
          | nil => exact ⟨h1, by simp [unsent], h3⟩
          | cons p ps =>
            refine ⟨h1, ?_, h3⟩
            simp only [unsent]
            apply List.length_eq_zero_iff.mp
            rw [loopBlocks_length]
            have : poolTaskCount W (((p :: ps).zipIdx.map (fun x => (x.2, x.1))).length) (b + 1) ≤ 1 := by
              have hc : W = 0 ∨ W = 1 := by omega
              unfold poolTaskCount
              rcases hc with rfl | rfl
              · simp only [if_true]; omega
              · simp only [Nat.one_ne_zero, if_false]; omega
            omega
      | submit bs own next =>
        rw [hm] at h2
        simp only [unsent] at h2
        subst h2
        exact ⟨h1, by simp [unsent], h3⟩
      | own todo next =>
        cases todo with
        | nil => exact ⟨h1, by simp [unsent], h3⟩
        | cons x rest =>
          obtain ⟨i, p⟩ := x
          refine ⟨h1, by simp [unsent], ?_⟩
          simp only
          rcases items_rng s.rng s.out W i p rest with e | ⟨u, e⟩
          · rw [e]; exact h3
          · rw [e]; exact few_ids h3 (ids_access_cases s.rng W u)
      | wait next =>
        simp only
        split
        · exact ⟨h1, by simp [unsent], h3⟩
        · exact ⟨h1, h2, h3⟩
    · exact ⟨h1, h2, h3⟩

theorem few_run {W : Nat} (hW : W ≤ 1) (es : List Nat) : ∀ {l : List Nat} {s : SeededState D A R}, Few W l s → Few W l (es.foldl (seededStep W) s) := by
  induction es with
  | nil => intro l s h; exact h
  | cons t es ih => intro l s h; exact ih (few_step hW t h)

theorem few_start (W : Nat) (g : RngGlobal D) (turn : Nat) (prog : MainProg D A R) : Few W (ids g) (solveStart g turn prog) :=
  ⟨fun _ _ => rfl, rfl, Or.inl rfl⟩

end Gapp.Proofs.SeededRun
