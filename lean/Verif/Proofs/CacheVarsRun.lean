import Verif.Proofs.CacheVars
/-!
# Programs over several caches
-/

namespace Gapp.Model
open Gapp.Spec
open Spec.DequeVars (throws)
variable {κ ν : Type} [DecidableEq κ]

theorem cv_set_same {β : Type} {l : List β} {x : Nat} {b : β} (h : l[x]? = some b) : l.set x b = l := by
  obtain ⟨h1, h2⟩ := List.getElem?_eq_some_iff.mp h
  subst h2; exact List.set_getElem_self h1

/-- What the theorems require of the implementation of the map: it has as many buckets as is asked for, and an empty one has a bucket. -/
structure CvEnv.Good (E : CvEnv ν) : Prop where
  default_pos : 1 ≤ E.defaultBuckets
  init_le : ∀ n, n ≤ E.initBuckets n
  rehash_le : ∀ old n, n ≤ E.rehash old n

/-- The caches represent the ideal maps, and every node belongs to one cache. -/
structure CvRel (s : CvMem κ ν) (d : MapVars κ ν) : Prop where
  len : s.vars.length = d.length
  dead : ∀ x : Nat, s.vars[x]? = some none ↔ d[x]? = some none
  ok : ∀ (x : Nat) c q, s.vars[x]? = some (some c) → d[x]? = some (some q) → CvOk c q
  fresh : ∀ (x : Nat) c, s.vars[x]? = some (some c) → ∀ p ∈ c.nodes, p.1 < s.next
  disj : ∀ (x y : Nat) c e, x ≠ y → s.vars[x]? = some (some c) → s.vars[y]? = some (some e) → ∀ p ∈ c.nodes, ∀ r ∈ e.nodes, p.1 ≠ r.1

theorem CvRel.cases {s : CvMem κ ν} {d : MapVars κ ν} (r : CvRel s d) (x : Nat) :
    (s.vars[x]? = none ∧ d[x]? = none) ∨ (s.vars[x]? = some none ∧ d[x]? = some none) ∨
    ∃ c q, s.vars[x]? = some (some c) ∧ d[x]? = some (some q) ∧ CvOk c q := by
  have hl := r.len
  rcases h1 : s.vars[x]? with _ | _ | c
  · left; refine ⟨rfl, ?_⟩
    rw [List.getElem?_eq_none_iff] at h1 ⊢; omega
  · right; left; exact ⟨rfl, (r.dead x).mp h1⟩
  · right; right
    rcases h2 : d[x]? with _ | _ | q
    · rw [List.getElem?_eq_none_iff] at h2
      have := (List.getElem?_eq_some_iff.mp h1).1; omega
    · rw [(r.dead x).mpr h2] at h1; cases h1
    · exact ⟨c, q, rfl, rfl, r.ok x c q h1 h2⟩

/-- A variable gets a value whose nodes are new or were its own before. -/
theorem CvRel.update {s : CvMem κ ν} {d : MapVars κ ν} (r : CvRel s d) {x : Nat} {next' : Nat} {c' : CvCache κ ν} {q' : FifoMap κ ν} (hx : x < s.vars.length) (hok : CvOk c' q')
    (hn : s.next ≤ next') (hnew : ∀ p ∈ c'.nodes, (∃ c, s.vars[x]? = some (some c) ∧ ∃ t ∈ c.nodes, t.1 = p.1) ∨ (s.next ≤ p.1 ∧ p.1 < next')) :
    CvRel ⟨next', s.vars.set x (some c')⟩ (d.set x (some q')) := by
  have hxd : x < d.length := by have := r.len; omega
  have hs : ∀ y : Nat, (s.vars.set x (some c'))[y]? = if y = x then some (some c') else s.vars[y]? := by
    intro y; rw [List.getElem?_set]
    by_cases h : x = y
    · subst h; simp [hx]
    · rw [if_neg h, if_neg (fun e => h e.symm)]
  have hd : ∀ y : Nat, (d.set x (some q'))[y]? = if y = x then some (some q') else d[y]? := by
    intro y; rw [List.getElem?_set]
    by_cases h : x = y
    · subst h; simp [hxd]
    · rw [if_neg h, if_neg (fun e => h e.symm)]
  have hother : ∀ y e, y ≠ x → s.vars[y]? = some (some e) → ∀ p ∈ c'.nodes, ∀ t ∈ e.nodes, p.1 ≠ t.1 := by
    intro y e hy h1 p hp t ht
    rcases hnew p hp with ⟨c, hc, u, hu, e1⟩ | h2
    · rw [← e1]; exact r.disj x y c e (fun h => hy h.symm) hc h1 u hu t ht
    · have := r.fresh y e h1 t ht; omega
  refine ⟨by simp [r.len], ?_, ?_, ?_, ?_⟩
  · intro y; simp only [hs, hd]
    split
    · simp
    · exact r.dead y
  · intro y c q h1 h2
    simp only [hs] at h1
    rw [hd] at h2
    by_cases h : y = x
    · rw [if_pos h] at h1 h2; cases h1; cases h2; exact hok
    · rw [if_neg h] at h1 h2; exact r.ok y c q h1 h2
  · intro y c h1 p hp
    simp only [hs] at h1
    simp only []
    by_cases h : y = x
    · rw [if_pos h] at h1; cases h1
      rcases hnew p hp with ⟨c, hc, u, hu, e1⟩ | h2
      · have := r.fresh x c hc u hu; omega
      · exact h2.2
    · rw [if_neg h] at h1
      have := r.fresh y c h1 p hp; omega
  · intro y z c e hyz h1 h2 p hp t ht
    simp only [hs] at h1 h2
    by_cases hy : y = x
    · rw [if_pos hy] at h1; cases h1
      rw [if_neg (by omega)] at h2
      exact hother z e (by omega) h2 p hp t ht
    · rw [if_neg hy] at h1
      by_cases hz : z = x
      · rw [if_pos hz] at h2; cases h2
        exact fun e' => hother y c hy h1 t ht p hp e'.symm
      · rw [if_neg hz] at h2
        exact r.disj y z c e hyz h1 h2 p hp t ht

/-- The variables are permuted. -/
theorem CvRel.permute {s : CvMem κ ν} {d : MapVars κ ν} (r : CvRel s d) {vars : List (Option (CvCache κ ν))} {d' : MapVars κ ν} (σ : Nat → Nat) (hσ : Function.Injective σ)
    (hl : vars.length = d'.length) (hv : ∀ z : Nat, vars[z]? = s.vars[σ z]?) (hd : ∀ z : Nat, d'[z]? = d[σ z]?) : CvRel ⟨s.next, vars⟩ d' := by
  refine ⟨hl, ?_, ?_, ?_, ?_⟩
  · intro x; simp only [hv, hd]; exact r.dead _
  · intro x c q; simp only [hv, hd]; exact r.ok _ c q
  · intro x c; simp only [hv]; exact r.fresh _ c
  · intro x y c e hxy; simp only [hv]; exact r.disj _ _ c e (fun h => hxy (hσ h))

theorem set_set_swap {β : Type} {l : List β} {x y : Nat} {a b : β} (hx : l[x]? = some a) (hy : l[y]? = some b) (z : Nat) : ((l.set x b).set y a)[z]? = l[Equiv.swap x y z]? := by
  have h1 := (List.getElem?_eq_some_iff.mp hx).1
  have h2 := (List.getElem?_eq_some_iff.mp hy).1
  rw [List.getElem?_set]
  by_cases hz : y = z
  · subst hz
    rw [Equiv.swap_apply_right, hx, if_pos rfl]
    simp [h2]
  · rw [if_neg hz, List.getElem?_set]
    by_cases hw : x = z
    · subst hw
      rw [Equiv.swap_apply_left, hy]; simp [h1]
    · rw [if_neg hw, Equiv.swap_apply_of_ne_of_ne (fun h => hw h.symm) (fun h => hz h.symm)]

theorem CvRel.swap {s : CvMem κ ν} {d : MapVars κ ν} (r : CvRel s d) {x y : Nat} {a b : Option (CvCache κ ν)} {a' b' : Option (FifoMap κ ν)} (hx : s.vars[x]? = some a) (hy : s.vars[y]? = some b)
    (hx' : d[x]? = some a') (hy' : d[y]? = some b') : CvRel ⟨s.next, (s.vars.set x b).set y a⟩ ((d.set x b').set y a') :=
  r.permute (Equiv.swap x y) (Equiv.injective _) (by simp [r.len]) (set_set_swap hx hy) (set_set_swap hx' hy')

/-- A variable is destroyed. -/
theorem CvRel.kill {s : CvMem κ ν} {d : MapVars κ ν} (r : CvRel s d) (x : Nat) : CvRel ⟨s.next, s.vars.set x none⟩ (d.set x none) := by
  have hl := r.len
  have hs : ∀ y : Nat, ∀ c, (s.vars.set x none)[y]? = some (some c) → y ≠ x ∧ s.vars[y]? = some (some c) := by
    intro y c h; rw [List.getElem?_set] at h
    by_cases e : x = y
    · subst e; rw [if_pos rfl] at h; split at h <;> cases h
    · rw [if_neg e] at h; exact ⟨fun h => e h.symm, h⟩
  refine ⟨by simp [hl], ?_, ?_, ?_, ?_⟩
  · intro y; simp only [List.getElem?_set]
    by_cases e : x = y
    · subst e; simp [hl]
    · simp only [if_neg e]; exact r.dead y
  · intro y c q h1 h2
    obtain ⟨hy, h3⟩ := hs y c h1
    rw [List.getElem?_set, if_neg (fun h => hy h.symm)] at h2
    exact r.ok y c q h3 h2
  · intro y c h1; exact r.fresh y c (hs y c h1).2
  · intro y z c e hyz h1 h2; exact r.disj y z c e hyz (hs y c h1).2 (hs z e h2).2

theorem CvRel.later {s : CvMem κ ν} {d : MapVars κ ν} (r : CvRel s d) {next' : Nat} (h : s.next ≤ next') : CvRel ⟨next', s.vars⟩ d :=
  ⟨r.len, r.dead, r.ok, fun x c hx p hp => by have := r.fresh x c hx p hp; simp only []; omega, r.disj⟩

/-- The outcome of a modifier. -/
theorem cvDone_ok {s : CvMem κ ν} {d : MapVars κ ν} (r : CvRel s d) {x : Nat} {c : CvCache κ ν} (hx : s.vars[x]? = some (some c)) {next' : Nat} {c' : CvCache κ ν} {q' : FifoMap κ ν} {ok : Bool}
    (hok : CvOk c' q') (hnew : CvNew s.next next' c c') :
    ∃ s', cvDone s x (some (next', c', ok)) = (if !ok then .threw s' else .returned s') ∧ CvRel s' (d.put x (q', ok)).1 := by
  refine ⟨⟨next', s.vars.set x (some c')⟩, ?_, r.update (List.getElem?_eq_some_iff.mp hx).1 hok hnew.1 ?_⟩
  · cases ok <;> rfl
  · intro p hp
    rcases hnew.2 p hp with h | h
    · exact Or.inl ⟨c, hx, h⟩
    · exact Or.inr h

/-- One call. -/
theorem cvStep_ok (E : CvEnv ν) (hE : E.Good) {s : CvMem κ ν} {d : MapVars κ ν} (r : CvRel s d) (limit : Option Nat) (op : CvOp κ ν)
    (hsafe : ∀ x n q, op = .reset x n → d[x]? = some (some q) → n ≠ q.cap → limit ≠ some 1) :
    match d.step E.torn limit op with
    | none => cvStep E s limit op = .undefined
    | some (d', threw) => ∃ s', cvStep E s limit op = (if threw then .threw s' else .returned s') ∧ CvRel s' d' := by
  cases op with
  | default x =>
    simp only [MapVars.step, cvStep]
    rcases r.cases x with ⟨h1, h2⟩ | ⟨h1, h2⟩ | ⟨c, q, h1, h2, h3⟩
    · simp [h1, h2]
    · simp only [h1, h2]
      exact ⟨_, rfl, r.update (List.getElem?_eq_some_iff.mp h1).1 (cvDefault_ok E hE.default_pos) (Nat.le_refl _) (by simp [cvDefault])⟩
    · simp [h1, h2]
  | ctor x cap =>
    simp only [MapVars.step, cvStep]
    rcases r.cases x with ⟨h1, h2⟩ | ⟨h1, h2⟩ | ⟨c, q, h1, h2, h3⟩
    · simp [h1, h2]
    · simp only [h1, h2]
      rcases cvCtor_cases (κ := κ) E hE.init_le cap limit with ⟨g1, g2⟩ | ⟨c, l, g1, g2, _, g4, g5⟩
      · rw [g1, g2]; exact ⟨s, rfl, r⟩
      · rw [g1, g2]
        exact ⟨_, rfl, r.update (List.getElem?_eq_some_iff.mp h1).1 g4 (Nat.le_refl _) (by simp [g5])⟩
    · simp [h1, h2]
  | copy x y =>
    simp only [MapVars.step, cvStep]
    rcases r.cases x with ⟨h1, h2⟩ | ⟨h1, h2⟩ | ⟨c, q, h1, h2, h3⟩
    · simp [h1, h2]
    · rcases r.cases y with ⟨g1, g2⟩ | ⟨g1, g2⟩ | ⟨c, q, g1, g2, g3⟩
      · simp [h1, h2, g1, g2]
      · simp [h1, h2, g1, g2]
      · simp only [h1, h2, g1, g2]
        rcases cvCopy_ok E hE.init_le g3 s.next limit with ⟨k1, n', k2, k3⟩ | ⟨k1, n', c', k2, k3, k4, k5⟩
        · rw [k1, k3]; exact ⟨_, rfl, r.later k2⟩
        · rw [k1, k3]
          exact ⟨_, rfl, r.update (List.getElem?_eq_some_iff.mp h1).1 k4 k2 (fun p hp => Or.inr (k5 p hp))⟩
    · simp [h1, h2]
  | move x y =>
    simp only [MapVars.step, cvStep]
    rcases r.cases x with ⟨h1, h2⟩ | ⟨h1, h2⟩ | ⟨c, q, h1, h2, h3⟩
    · simp [h1, h2]
    · rcases r.cases y with ⟨g1, g2⟩ | ⟨g1, g2⟩ | ⟨c, q, g1, g2, g3⟩
      · simp [h1, h2, g1, g2]
      · simp [h1, h2, g1, g2]
      · simp only [h1, h2, g1, g2]
        refine ⟨_, rfl, ?_⟩
        have hxy : x ≠ y := by rintro rfl; rw [h1] at g1; cases g1
        have hr := (r.swap h1 g1 h2 g2).update (x := y) (by have := (List.getElem?_eq_some_iff.mp g1).1; simpa using this) (cvDefault_ok E hE.default_pos) (Nat.le_refl _) (by simp [cvDefault])
        rw [List.set_comm _ _ hxy.symm, List.set_comm _ _ hxy.symm]
        simpa using hr
    · simp [h1, h2]
  | destroy x =>
    simp only [MapVars.step, cvStep]
    rcases r.cases x with ⟨h1, h2⟩ | ⟨h1, h2⟩ | ⟨c, q, h1, h2, h3⟩
    · simp [h1, h2]
    · simp [h1, h2]
    · simp only [h1, h2, h3.valid]
      exact ⟨_, rfl, r.kill x⟩
  | assignCopy x y =>
    simp only [MapVars.step, cvStep]
    rcases r.cases x with ⟨h1, h2⟩ | ⟨h1, h2⟩ | ⟨p, p', h1, h2, h3⟩
    · simp [h1, h2]
    · simp [h1, h2]
    · rcases r.cases y with ⟨g1, g2⟩ | ⟨g1, g2⟩ | ⟨c, q, g1, g2, g3⟩
      · simp [h1, h2, g1, g2]
      · simp [h1, h2, g1, g2]
      · simp only [h1, h2, g1, g2]
        rcases cvCopy_ok E hE.init_le g3 s.next limit with ⟨k1, n', k2, k3⟩ | ⟨k1, n', c', k2, k3, k4, k5⟩
        · rw [k1, k3]; exact ⟨_, rfl, r.later k2⟩
        · rw [k1, k3]
          simp only [h3.valid]
          exact ⟨_, rfl, r.update (List.getElem?_eq_some_iff.mp h1).1 k4 k2 (fun p hp => Or.inr (k5 p hp))⟩
  | assignMove x y =>
    simp only [MapVars.step, cvStep]
    rcases r.cases x with ⟨h1, h2⟩ | ⟨h1, h2⟩ | ⟨p, p', h1, h2, h3⟩
    · simp [h1, h2]
    · simp [h1, h2]
    · rcases r.cases y with ⟨g1, g2⟩ | ⟨g1, g2⟩ | ⟨c, q, g1, g2, g3⟩
      · simp [h1, h2, g1, g2]
      · simp [h1, h2, g1, g2]
      · simp only [h1, h2, g1, g2]
        have hxl := (List.getElem?_eq_some_iff.mp h1).1
        by_cases hxy : x = y
        · subst hxy
          rw [h1] at g1; cases g1
          rw [h2] at g2; cases g2
          have e : (s.vars.set x (some (cvDefault E)))[x]? = some (some (cvDefault E)) := by simp [hxl]
          rw [e]
          simp only [cvDefault, if_true]
          refine ⟨_, rfl, ?_⟩
          rw [List.set_set, List.set_set, cv_set_same h1, cv_set_same h2]
          exact r
        · have e : (s.vars.set y (some (cvDefault E)))[x]? = some (some p) := by
            rw [List.getElem?_set, if_neg (fun h => hxy h.symm), h1]
          rw [e]
          simp only [h3.valid, if_true]
          refine ⟨_, rfl, ?_⟩
          have hr := (r.swap h1 g1 h2 g2).update (x := y) (by have := (List.getElem?_eq_some_iff.mp g1).1; simpa using this) (cvDefault_ok E hE.default_pos) (Nat.le_refl _) (by simp [cvDefault])
          rw [List.set_comm _ _ (Ne.symm hxy), List.set_comm _ _ (Ne.symm hxy)]
          simpa using hr
  | swap x y =>
    simp only [MapVars.step, cvStep]
    rcases r.cases x with ⟨h1, h2⟩ | ⟨h1, h2⟩ | ⟨p, p', h1, h2, h3⟩
    · simp [h1, h2]
    · simp [h1, h2]
    · rcases r.cases y with ⟨g1, g2⟩ | ⟨g1, g2⟩ | ⟨c, q, g1, g2, g3⟩
      · simp [h1, h2, g1, g2]
      · simp [h1, h2, g1, g2]
      · simp only [h1, h2, g1, g2]
        exact ⟨_, rfl, r.swap h1 g1 h2 g2⟩
  | insert x k v =>
    simp only [MapVars.step, cvStep]
    rcases r.cases x with ⟨h1, h2⟩ | ⟨h1, h2⟩ | ⟨c, q, h1, h2, h3⟩
    · simp [h1, h2]
    · simp [h1, h2]
    · simp only [h1, h2]
      obtain ⟨n', c', g1, g2, g3⟩ := cvInsert_ok E h3 (r.fresh x c h1) true k v limit (Or.inl rfl)
      rw [g1]
      exact cvDone_ok r h1 g2 g3
  | tryInsert x k v =>
    simp only [MapVars.step, cvStep]
    rcases r.cases x with ⟨h1, h2⟩ | ⟨h1, h2⟩ | ⟨c, q, h1, h2, h3⟩
    · simp [h1, h2]
    · simp [h1, h2]
    · simp only [h1, h2]
      by_cases hk : k ∈ q.entries.map (·.1)
      · rw [if_pos hk, cvInsert_present E h3 _ _ _ _ hk]
        refine ⟨_, rfl, ?_⟩
        rw [cv_set_same h1]; exact r
      · rw [if_neg hk]
        obtain ⟨n', c', g1, g2, g3⟩ := cvInsert_ok E h3 (r.fresh x c h1) false k v limit (Or.inr hk)
        rw [g1]
        exact cvDone_ok r h1 g2 g3
  | insertRange x xs =>
    simp only [MapVars.step, cvStep]
    rcases r.cases x with ⟨h1, h2⟩ | ⟨h1, h2⟩ | ⟨c, q, h1, h2, h3⟩
    · simp [h1, h2]
    · simp [h1, h2]
    · simp only [h1, h2]
      obtain ⟨n', c', g1, g2, g3⟩ := cvInsertRange_ok E h3 (r.fresh x c h1) xs limit
      rw [g1]
      exact cvDone_ok r h1 g2 g3
  | clear x =>
    simp only [MapVars.step, cvStep]
    rcases r.cases x with ⟨h1, h2⟩ | ⟨h1, h2⟩ | ⟨c, q, h1, h2, h3⟩
    · simp [h1, h2]
    · simp [h1, h2]
    · simp only [h1, h2]
      obtain ⟨o, g1, g2⟩ := cvClear_ok h3
      rw [g1]
      exact cvDone_ok (ok := true) r h1 g2 ⟨Nat.le_refl _, by simp⟩
  | reset x n =>
    simp only [MapVars.step, cvStep]
    rcases r.cases x with ⟨h1, h2⟩ | ⟨h1, h2⟩ | ⟨c, q, h1, h2, h3⟩
    · simp [h1, h2]
    · simp [h1, h2]
    · simp only [h1, h2]
      rcases cvReset_ok E hE.rehash_le h3 n limit (hsafe x n q rfl h2) with ⟨g1, c', g2, g3, g4⟩ | ⟨g1, c', g2, g3, g4⟩
      · rw [g1, g3]
        exact cvDone_ok (ok := false) r h1 g4 ⟨Nat.le_refl _, by rw [g2]; simp⟩
      · rw [g1, g3]
        exact cvDone_ok (ok := true) r h1 g4 ⟨Nat.le_refl _, by rw [g2]; simp⟩

/-- A program. -/
theorem cvRun_ok (E : CvEnv ν) (hE : E.Good) (prog : List (Option Nat × CvOp κ ν)) : ∀ {s : CvMem κ ν} {d : MapVars κ ν}, CvRel s d → MapVars.SafeProgram E.torn d prog →
    (d.program E.torn prog = none ∧ cvRun E s prog = .undefined) ∨
    ∃ e flags t, d.program E.torn prog = some (e, flags) ∧ cvRun E s prog = .returned (t, flags) ∧ CvRel t e := by
  induction prog with
  | nil => intro s d r _; exact Or.inr ⟨d, [], s, rfl, rfl, r⟩
  | cons p prog ih =>
    obtain ⟨limit, op⟩ := p
    intro s d r hsafe
    have hs := cvStep_ok E hE r limit op hsafe.1
    unfold MapVars.program cvRun
    rcases hst : d.step E.torn limit op with _ | ⟨d', threw⟩
    · rw [hst] at hs
      exact Or.inl ⟨rfl, by rw [hs]⟩
    · rw [hst] at hs
      obtain ⟨s', h1, h2⟩ := hs
      rcases ih h2 (hsafe.2 d' threw hst) with ⟨g1, g2⟩ | ⟨e, flags, t, g1, g2, g3⟩
      · left
        refine ⟨by simp [g1], ?_⟩
        cases threw <;> simp [h1, g2]
      · right
        refine ⟨e, threw :: flags, t, by simp [g1], ?_, g3⟩
        cases threw <;> simp [h1, g2]

theorem cvStart_ok (n : Nat) : CvRel (cvStart κ ν n) (List.replicate n none) := by
  have h : ∀ (x : Nat) (c : CvCache κ ν), (cvStart κ ν n).vars[x]? ≠ some (some c) := by
    intro x c h
    simp only [cvStart, List.getElem?_replicate] at h
    split at h <;> cases h
  refine ⟨by simp [cvStart], ?_, fun x c q h1 => absurd h1 (h x c), fun x c h1 => absurd h1 (h x c), fun x y c e _ h1 => absurd h1 (h x c)⟩
  intro x; simp [cvStart, List.getElem?_replicate]

theorem CvOk.get {c : CvCache κ ν} {q : FifoMap κ ν} (h : CvOk c q) (k : κ) : cvGet c k = q.lookup k := by
  unfold cvGet FifoMap.lookup
  rw [← h.nodes]
  split
  · rename_i h0
    rw [List.length_eq_zero_iff.mp h0]; rfl
  · generalize c.nodes = l
    induction l with
    | nil => rfl
    | cons p l ih =>
      by_cases e : p.2.1 = k
      · subst e; simp [List.lookup]
      · have e' : (k == p.2.1) = false := by simp [Ne.symm e]
        rw [List.find?_cons_of_neg (by simpa using e), ih]
        simp [List.lookup, e']

theorem CvOk.entry {c : CvCache κ ν} {q : FifoMap κ ν} (h : CvOk c q) (i : Nat) : (c.order.get i).bind (cvDeref c.nodes) = q.entries[i]? := by
  rw [h.order.get, ← h.nodes, List.getElem?_map, List.getElem?_map]
  rcases hi : c.nodes[i]? with _ | p
  · rfl
  · exact cvDeref_ok h.ids (List.mem_of_getElem? hi)

theorem CvRel.observe {s : CvMem κ ν} {d : MapVars κ ν} (r : CvRel s d) (x : Nat) : cvObserve s x = ((d[x]?).join).map (fun q => (q.cap, q.entries)) := by
  unfold cvObserve
  rcases r.cases x with ⟨h1, h2⟩ | ⟨h1, h2⟩ | ⟨c, q, h1, h2, h3⟩
  · simp [h1, h2]
  · simp [h1, h2]
  · have hm : ∀ l : List (Nat × κ × ν), (∀ p ∈ l, p ∈ c.nodes) → (l.map (·.1)).mapM (cvDeref c.nodes) = some (l.map (·.2)) := by
      intro l
      induction l with
      | nil => intro _; rfl
      | cons p l ih =>
        intro hl
        rw [List.map_cons, List.mapM_cons, cvDeref_ok h3.ids (hl p (by simp)), ih (fun t ht => hl t (List.mem_cons_of_mem _ ht))]
        rfl
    have hcap : c.order.capacity = q.cap := h3.cap
    simp only [h1, h2, Option.join_some, Option.bind_eq_bind, Option.bind_some, h3.order.contents, hm c.nodes (fun _ h => h), h3.nodes, hcap, Option.pure_def, Option.map_some]

theorem CvOk.eq [DecidableEq ν] {a b : CvCache κ ν} {p q : FifoMap κ ν} (ha : CvOk a p) (hb : CvOk b q) : cvEq a b = some (decide (p.entries = q.entries)) := by
  unfold cvEq
  rw [ha.length, hb.length]
  by_cases hl : p.entries.length = q.entries.length
  · rw [if_neg (by simpa using hl)]
    suffices ∀ n i, i + n = p.entries.length → cvEq.go a b n i = some (decide (p.entries.drop i = q.entries.drop i)) by
      simpa using this p.entries.length 0 (by omega)
    intro n
    induction n with
    | zero =>
      intro i hi
      unfold cvEq.go
      rw [List.drop_eq_nil_of_le (by omega), List.drop_eq_nil_of_le (by omega)]; simp
    | succ n ih =>
      intro i hi
      unfold cvEq.go
      have h1 : i < p.entries.length := by omega
      have h2 : i < q.entries.length := by omega
      rw [ha.entry, hb.entry, List.getElem?_eq_getElem h1, List.getElem?_eq_getElem h2, List.drop_eq_getElem_cons h1, List.drop_eq_getElem_cons h2]
      simp only [Option.bind_eq_bind, Option.bind_some, ih (i + 1) (by omega), List.cons.injEq]
      by_cases e : p.entries[i] = q.entries[i]
      · simp [e]
      · simp [e]
  · rw [if_pos hl]
    have : p.entries ≠ q.entries := fun e => hl (by rw [e])
    simp [this]

end Gapp.Model
