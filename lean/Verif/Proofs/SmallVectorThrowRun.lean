import Verif.Proofs.SmallVectorThrowSwap

namespace Gapp.Model
open Spec (IdealVec VecVars)
open Spec.DequeVars (throws)
open Spec.IdealVec (left reached copies grown attempt)
variable {α : Type}

/-- The memory and the variables represent the ideal vectors: every block that is allocated belongs to one variable. -/
structure SvtRel (S : Nat) (s : SvtMem α) (d : VecVars α) : Prop where
  len : s.vars.length = d.length
  dead : ∀ x : Nat, s.vars[x]? = some none ↔ d[x]? = some none
  ok : ∀ (x : Nat) o q, s.vars[x]? = some (some o) → d[x]? = some (some q) → SvtOk S s.heap o q
  apart : ∀ (x y : Nat) ox oy a, s.vars[x]? = some (some ox) → s.vars[y]? = some (some oy) → SvtOwns ox a → SvtOwns oy a → x = y
  owned : ∀ a, SvtLive s.heap a → ∃ (x : Nat) (o : SvtObj), s.vars[x]? = some (some o) ∧ SvtOwns o a

theorem SvtRel.cases {S : Nat} {s : SvtMem α} {d : VecVars α} (h : SvtRel S s d) (x : Nat) :
    (s.vars[x]? = none ∧ d[x]? = none) ∨ (s.vars[x]? = some none ∧ d[x]? = some none) ∨
    ∃ o q, s.vars[x]? = some (some o) ∧ d[x]? = some (some q) ∧ SvtOk S s.heap o q := by
  by_cases hx : x < s.vars.length
  · have hx' : x < d.length := by rw [← h.len]; exact hx
    rcases hv : s.vars[x] with _ | o
    · have : s.vars[x]? = some none := by rw [List.getElem?_eq_getElem hx, hv]
      exact Or.inr (Or.inl ⟨this, (h.dead x).mp this⟩)
    · have hv' : s.vars[x]? = some (some o) := by rw [List.getElem?_eq_getElem hx, hv]
      rcases hd : d[x] with _ | q
      · have : d[x]? = some none := by rw [List.getElem?_eq_getElem hx', hd]
        rw [(h.dead x).mpr this] at hv'; simp at hv'
      · have hd' : d[x]? = some (some q) := by rw [List.getElem?_eq_getElem hx', hd]
        exact Or.inr (Or.inr ⟨o, q, hv', hd', h.ok x o q hv' hd'⟩)
  · left
    exact ⟨List.getElem?_eq_none (by omega), List.getElem?_eq_none (by have := h.len; omega)⟩

theorem SvtRel.okAt {S : Nat} {s : SvtMem α} {d : VecVars α} (h : SvtRel S s d) {x : Nat} {o : SvtObj} (hx : s.vars[x]? = some (some o)) :
    ∃ q, d[x]? = some (some q) ∧ SvtOk S s.heap o q := by
  rcases h.cases x with ⟨h1, _⟩ | ⟨h1, _⟩ | ⟨o', q, h1, h2, h3⟩
  · rw [h1] at hx; simp at hx
  · rw [h1] at hx; simp at hx
  · rw [h1] at hx; cases hx; exact ⟨q, h2, h3⟩

/-- A call on one variable. -/
theorem SvtRel.update {S : Nat} {h : CbHeap α} {vars : List (Option SvtObj)} {d : VecVars α} (r : SvtRel S ⟨h, vars⟩ d) {x : Nat} {o o' : Option SvtObj} {h' : CbHeap α}
    (q' : Option (IdealVec α)) (hx : vars[x]? = some o) (loc : SvtLocal h o h' o')
    (hok : (o' = none ∧ q' = none) ∨ ∃ p q, o' = some p ∧ q' = some q ∧ SvtOk S h' p q) :
    SvtRel S ⟨h', vars.set x o'⟩ (d.set x q') := by
  have hlt : x < vars.length := (List.getElem?_eq_some_iff.mp hx).1
  have hlt' : x < d.length := by rw [← r.len]; exact hlt
  have gx : (vars.set x o')[x]? = some o' := by simp [hlt]
  have dx : (d.set x q')[x]? = some q' := by simp [hlt']
  have gy : ∀ y : Nat, y ≠ x → (vars.set x o')[y]? = vars[y]? := by intro y hy; simp [Ne.symm hy]
  have dy : ∀ y : Nat, y ≠ x → (d.set x q')[y]? = d[y]? := by intro y hy; simp [Ne.symm hy]
  have other : ∀ (y : Nat) oy a, y ≠ x → vars[y]? = some (some oy) → SvtOwns oy a → SvtLive h a ∧ ∀ p, o = some p → ¬ SvtOwns p a := by
    intro y oy a hy hvy hoy
    obtain ⟨q, _, hq⟩ := r.okAt (s := ⟨h, vars⟩) hvy
    refine ⟨hq.live hoy, ?_⟩
    intro p hp hpa
    exact hy (r.apart y x oy p a hvy (by rw [← hp]; exact hx) hoy hpa)
  have fresh : ∀ (y : Nat) oy a p, y ≠ x → vars[y]? = some (some oy) → SvtOwns oy a → o' = some p → ¬ SvtOwns p a := by
    intro y oy a p hy hvy hoy hp hpa
    obtain ⟨h1, h2⟩ := other y oy a hy hvy hoy
    rcases loc.new p a hp hpa with ⟨q, h3, h4⟩ | h3
    · exact h2 q h3 h4
    · exact h3 h1
  refine ⟨by simpa using r.len, ?_, ?_, ?_, ?_⟩
  · intro y
    by_cases hy : y = x
    · subst hy
      show (vars.set y o')[y]? = _ ↔ _
      rw [gx, dx]
      rcases hok with ⟨h1, h2⟩ | ⟨o, q, h1, h2, _⟩ <;> simp [h1, h2]
    · show (vars.set x o')[y]? = _ ↔ _
      rw [gy y hy, dy y hy]; exact r.dead y
  · intro y p q h1 h2
    change (vars.set x o')[y]? = _ at h1
    by_cases hy : y = x
    · subst hy
      rw [gx] at h1; rw [dx] at h2
      rcases hok with ⟨h3, _⟩ | ⟨o1, q1, h3, h4, h5⟩
      · rw [h3] at h1; simp at h1
      · rw [h3] at h1; rw [h4] at h2
        cases h1; cases h2; exact h5
    · rw [gy y hy] at h1; rw [dy y hy] at h2
      refine (r.ok y p q h1 h2).frame ?_
      intro a ha
      obtain ⟨h3, h4⟩ := other y p a hy h1 ha
      exact loc.frame a h3 h4
  · intro y z oy oz a h1 h2 h3 h4
    change (vars.set x o')[y]? = _ at h1
    change (vars.set x o')[z]? = _ at h2
    by_cases hy : y = x
    · by_cases hz : z = x
      · rw [hy, hz]
      · subst hy
        rw [gx] at h1; rw [gy z hz] at h2
        exact absurd h3 (fresh z oz a oy hz h2 h4 (by simpa using h1))
    · by_cases hz : z = x
      · subst hz
        rw [gx] at h2; rw [gy y hy] at h1
        exact absurd h4 (fresh y oy a oz hy h1 h3 (by simpa using h2))
      · rw [gy y hy] at h1; rw [gy z hz] at h2
        exact r.apart y z oy oz a h1 h2 h3 h4
  · intro a ha
    rcases loc.clean a ha with ⟨p, h1, h2⟩ | ⟨h1, h2⟩
    · exact ⟨x, p, by show (vars.set x o')[x]? = _; rw [gx, h1], h2⟩
    · obtain ⟨y, p, h3, h4⟩ := r.owned a h1
      have hy : y ≠ x := by
        intro e; subst e
        change vars[y]? = _ at h3
        rw [hx] at h3
        exact h2 p (by simpa using h3) h4
      exact ⟨y, p, by show (vars.set x o')[y]? = _; rw [gy y hy]; exact h3, h4⟩

/-- A call with two variables. -/
theorem SvtRel.update2 {S : Nat} {h : CbHeap α} {vars : List (Option SvtObj)} {d : VecVars α} (r : SvtRel S ⟨h, vars⟩ d) {x y : Nat} (hxy : x ≠ y) {o p o' p' : SvtObj} {h' : CbHeap α}
    {v w : IdealVec α} (hx : vars[x]? = some (some o)) (hy : vars[y]? = some (some p)) (k : SvtPair h o p h' o' p') (ho : SvtOk S h' o' v) (hp : SvtOk S h' p' w) :
    SvtRel S ⟨h', (vars.set x (some o')).set y (some p')⟩ ((d.set x (some v)).set y (some w)) := by
  have hltx : x < vars.length := (List.getElem?_eq_some_iff.mp hx).1
  have hlty : y < vars.length := (List.getElem?_eq_some_iff.mp hy).1
  have hlen : vars.length = d.length := r.len
  have gx : ((vars.set x (some o')).set y (some p'))[x]? = some (some o') := by simp [Ne.symm hxy, hltx]
  have gy : ((vars.set x (some o')).set y (some p'))[y]? = some (some p') := by simp [hlty]
  have dx : ((d.set x (some v)).set y (some w))[x]? = some (some v) := by simp [Ne.symm hxy, ← hlen, hltx]
  have dy : ((d.set x (some v)).set y (some w))[y]? = some (some w) := by simp [← hlen, hlty]
  have gz : ∀ z : Nat, z ≠ x → z ≠ y → ((vars.set x (some o')).set y (some p'))[z]? = vars[z]? := by intro z h1 h2; simp [Ne.symm h1, Ne.symm h2]
  have dz : ∀ z : Nat, z ≠ x → z ≠ y → ((d.set x (some v)).set y (some w))[z]? = d[z]? := by intro z h1 h2; simp [Ne.symm h1, Ne.symm h2]
  have other : ∀ (z : Nat) oz a, z ≠ x → z ≠ y → vars[z]? = some (some oz) → SvtOwns oz a → ¬ SvtOwns o a ∧ ¬ SvtOwns p a := by
    intro z oz a h1 h2 h3 h4
    exact ⟨fun e => h1 (r.apart z x oz o a h3 hx h4 e), fun e => h2 (r.apart z y oz p a h3 hy h4 e)⟩
  have other' : ∀ (z : Nat) oz a, z ≠ x → z ≠ y → vars[z]? = some (some oz) → SvtOwns oz a → ¬ SvtOwns o' a ∧ ¬ SvtOwns p' a := by
    intro z oz a h1 h2 h3 h4
    obtain ⟨h5, h6⟩ := other z oz a h1 h2 h3 h4
    exact ⟨fun e => ((k.own a).mp (Or.inl e)).elim h5 h6, fun e => ((k.own a).mp (Or.inr e)).elim h5 h6⟩
  refine ⟨by simpa using r.len, ?_, ?_, ?_, ?_⟩
  · intro z
    show ((vars.set x (some o')).set y (some p'))[z]? = _ ↔ _
    by_cases h1 : z = x
    · subst h1; rw [gx, dx]; simp
    · by_cases h2 : z = y
      · subst h2; rw [gy, dy]; simp
      · rw [gz z h1 h2, dz z h1 h2]; exact r.dead z
  · intro z oz q h3 h4
    change ((vars.set x (some o')).set y (some p'))[z]? = _ at h3
    by_cases h1 : z = x
    · subst h1; rw [gx] at h3; rw [dx] at h4; cases h3; cases h4; exact ho
    · by_cases h2 : z = y
      · subst h2; rw [gy] at h3; rw [dy] at h4; cases h3; cases h4; exact hp
      · rw [gz z h1 h2] at h3; rw [dz z h1 h2] at h4
        refine (r.ok z oz q h3 h4).frame ?_
        intro a ha
        obtain ⟨h5, h6⟩ := other z oz a h1 h2 h3 ha
        exact k.frame a h5 h6
  · intro z z' oz oz' a h3 h4 h5 h6
    change ((vars.set x (some o')).set y (some p'))[z]? = _ at h3
    change ((vars.set x (some o')).set y (some p'))[z']? = _ at h4
    have side : ∀ (z z' : Nat) oz oz', ((vars.set x (some o')).set y (some p'))[z]? = some (some oz) → ((vars.set x (some o')).set y (some p'))[z']? = some (some oz') →
        SvtOwns oz a → SvtOwns oz' a → z = x ∨ z = y → z = z' := by
      intro z z' oz oz' h3 h4 h5 h6 hz
      have hmem : SvtOwns o' a ∨ SvtOwns p' a := by
        rcases hz with rfl | rfl
        · rw [gx] at h3; cases h3; exact Or.inl h5
        · rw [gy] at h3; cases h3; exact Or.inr h5
      by_cases e1 : z' = x
      · rcases hz with rfl | rfl
        · exact e1.symm
        · subst e1
          rw [gy] at h3; rw [gx] at h4; cases h3; cases h4
          exact absurd ⟨h6, h5⟩ (k.disj a)
      · by_cases e2 : z' = y
        · rcases hz with rfl | rfl
          · subst e2
            rw [gx] at h3; rw [gy] at h4; cases h3; cases h4
            exact absurd ⟨h5, h6⟩ (k.disj a)
          · exact e2.symm
        · rw [gz z' e1 e2] at h4
          obtain ⟨h7, h8⟩ := other' z' oz' a e1 e2 h4 h6
          exact absurd hmem (by simp [h7, h8])
    by_cases hz : z = x ∨ z = y
    · exact side z z' oz oz' h3 h4 h5 h6 hz
    · by_cases hz' : z' = x ∨ z' = y
      · exact (side z' z oz' oz h4 h3 h6 h5 hz').symm
      · rw [not_or] at hz hz'
        rw [gz z hz.1 hz.2] at h3; rw [gz z' hz'.1 hz'.2] at h4
        exact r.apart z z' oz oz' a h3 h4 h5 h6
  · intro a ha
    by_cases hown : SvtOwns o a ∨ SvtOwns p a
    · rcases (k.own a).mpr hown with e | e
      · exact ⟨x, o', gx, e⟩
      · exact ⟨y, p', gy, e⟩
    · rw [not_or] at hown
      have hl : SvtLive h a := by
        unfold SvtLive at ha ⊢
        rw [← k.frame a hown.1 hown.2]; exact ha
      obtain ⟨z, oz, h3, h4⟩ := r.owned a hl
      change vars[z]? = _ at h3
      have h1 : z ≠ x := by rintro rfl; rw [hx] at h3; cases h3; exact hown.1 h4
      have h2 : z ≠ y := by rintro rfl; rw [hy] at h3; cases h3; exact hown.2 h4
      exact ⟨z, oz, by show ((vars.set x (some o')).set y (some p'))[z]? = _; rw [gz z h1 h2]; exact h3, h4⟩

theorem svt_set_same {β : Type} {l : List β} {x : Nat} {b : β} (h : l[x]? = some b) : l.set x b = l := by
  apply List.ext_getElem?
  intro i
  rw [List.getElem?_set]
  split
  · rename_i e; subst e
    rw [if_pos (List.getElem?_eq_some_iff.mp h).1, h]
  · rfl

theorem SvtRel.keep {S : Nat} {h : CbHeap α} {vars : List (Option SvtObj)} {d : VecVars α} (r : SvtRel S ⟨h, vars⟩ d) {x : Nat} (hx : vars[x]? = some none) {h' : CbHeap α}
    (loc : SvtLocal h none h' none) : SvtRel S ⟨h', vars⟩ d := by
  have := r.update none hx loc (Or.inl ⟨rfl, rfl⟩)
  rw [svt_set_same hx, svt_set_same ((r.dead x).mp hx)] at this
  exact this

theorem svtElems_ok {S : Nat} {h : CbHeap α} {o : SvtObj} {v : IdealVec α} (k : SvtOk S h o v) : svtElems h o = some v.items := by
  unfold svtElems
  rw [k.cur, k.size]
  simp only
  suffices ∀ n, n ≤ v.items.length → (List.range n).mapM (fun i => ((svtBody v)[i]?).join) = some (v.items.take n) by
    have := this v.items.length (Nat.le_refl _)
    rwa [List.take_length] at this
  intro n
  induction n with
  | zero => intro _; rfl
  | succ n ih =>
    intro hn
    rw [List.range_succ, List.mapM_append, ih (by omega)]
    have : (svtBody v)[n]? = some (some v.items[n]) := by
      unfold svtBody
      rw [List.getElem?_append_left (by simp; omega)]
      simp
    simp [this, List.take_add_one]

theorem svtDone_ok {S : Nat} {s : SvtMem α} {d : VecVars α} (r : SvtRel S s d) {x : Nat} {o : SvtObj} (hx : s.vars[x]? = some (some o)) (res : IdealVec α × Bool)
    {m : Option (CbHeap α × SvtObj × Bool)} (hm : ∃ h' o', m = some (h', o', res.2) ∧ SvtOk S h' o' res.1 ∧ SvtLocal s.heap (some o) h' (some o')) :
    ∃ s', svtDone s x m = (if res.2 then .returned s' else .threw s') ∧ SvtRel S s' (d.put x res).1 ∧ (d.put x res).2 = !res.2 := by
  obtain ⟨h', o', rfl, h2, h3⟩ := hm
  refine ⟨⟨h', s.vars.set x (some o')⟩, ?_, r.update _ hx h3 (Or.inr ⟨_, _, rfl, rfl, h2⟩), rfl⟩
  unfold svtDone
  cases res.2 <;> rfl

/-- One call, if it is not a constructor from an input range that throws. -/
theorem svtStep_ok (E : SvtEnv α) {s : SvtMem α} {d : VecVars α} (r : SvtRel E.inlineCap s d) (limit : Option Nat) (op : SvtOp α)
    (hsafe : ∀ d', d.step E.inlineCap E.nothrowMove E.moved limit op = some (d', true) → ∀ x xs, op ≠ .ctorInput x xs) :
    match d.step E.inlineCap E.nothrowMove E.moved limit op with
    | none => svtStep E s limit op = .undefined
    | some (d', threw) => ∃ s', svtStep E s limit op = (if threw then .threw s' else .returned s') ∧ SvtRel E.inlineCap s' d' := by
  have modifier : ∀ {x : Nat} {o : SvtObj} (res : IdealVec α × Bool) {m : Option (CbHeap α × SvtObj × Bool)}, s.vars[x]? = some (some o) →
      (∃ h' o', m = some (h', o', res.2) ∧ SvtOk E.inlineCap h' o' res.1 ∧ SvtLocal s.heap (some o) h' (some o')) →
      ∃ s', svtDone s x m = (if (d.put x res).2 then .threw s' else .returned s') ∧ SvtRel E.inlineCap s' (d.put x res).1 := by
    intro x o res m hx hm
    obtain ⟨s', h1, h2, h3⟩ := svtDone_ok r hx res hm
    refine ⟨s', ?_, h2⟩
    rw [h1, h3]
    cases res.2 <;> rfl
  have ctor : ∀ {x : Nat} (xs : List α), s.vars[x]? = some none →
      ∃ s', svtMade s x (svtCtor E s.heap xs limit) = (if (d.build E.inlineCap x xs limit).2 then .threw s' else .returned s') ∧
        SvtRel E.inlineCap s' (d.build E.inlineCap x xs limit).1 := by
    intro x xs hx
    obtain ⟨i1, i2⟩ := svtCtor_ok E s.heap xs limit
    unfold VecVars.build
    cases ht : throws limit ((if xs.length ≤ E.inlineCap then 0 else 1) + xs.length) with
    | true =>
      obtain ⟨h', e1, e2⟩ := i1 ht
      exact ⟨⟨h', s.vars⟩, by simp [svtMade, e1], by simpa using r.keep hx (e2 none)⟩
    | false =>
      obtain ⟨h', o, e1, e2, e3⟩ := i2 ht
      exact ⟨⟨h', s.vars.set x (some o)⟩, by simp [svtMade, e1], by simpa using r.update _ hx e3 (Or.inr ⟨_, _, rfl, rfl, e2⟩)⟩
  have pair : ∀ {x y : Nat} {o p : SvtObj} (res : IdealVec α × IdealVec α × Bool) {m : Option (CbHeap α × SvtObj × SvtObj × Bool)}, x ≠ y → s.vars[x]? = some (some o) →
      s.vars[y]? = some (some p) →
      (∃ h' o' p', m = some (h', o', p', res.2.2) ∧ SvtOk E.inlineCap h' o' res.1 ∧ SvtOk E.inlineCap h' p' res.2.1 ∧ SvtPair s.heap o p h' o' p') →
      ∃ s', svtDone2 s x y m = (if (d.put2 x y res).2 then .threw s' else .returned s') ∧ SvtRel E.inlineCap s' (d.put2 x y res).1 := by
    rintro x y o p res m hxy hx hy ⟨h', o', p', rfl, h2, h3, h4⟩
    refine ⟨⟨h', (s.vars.set x (some o')).set y (some p')⟩, ?_, r.update2 hxy hx hy h4 h2 h3⟩
    unfold svtDone2 VecVars.put2
    cases res.2.2 <;> rfl
  cases op with
  | default x =>
    rcases r.cases x with ⟨h1, h2⟩ | ⟨h1, h2⟩ | ⟨o, q, h1, h2, h3⟩
    · simp [VecVars.step, svtStep, h1, h2]
    · simp only [VecVars.step, svtStep, h1, h2]
      obtain ⟨e1, e2⟩ := svtDefault_ok (α := α) E.inlineCap s.heap
      exact ⟨_, rfl, r.update _ h1 e2 (Or.inr ⟨_, _, rfl, rfl, e1⟩)⟩
    · simp [VecVars.step, svtStep, h1, h2]
  | ctor x xs =>
    rcases r.cases x with ⟨h1, h2⟩ | ⟨h1, h2⟩ | ⟨o, q, h1, h2, h3⟩
    · simp [VecVars.step, svtStep, h1, h2]
    · simp only [VecVars.step, svtStep, h1, h2]
      exact ctor xs h1
    · simp [VecVars.step, svtStep, h1, h2]
  | ctorInput x xs =>
    rcases r.cases x with ⟨h1, h2⟩ | ⟨h1, h2⟩ | ⟨o, q, h1, h2, h3⟩
    · simp [VecVars.step, svtStep, h1, h2]
    · simp only [VecVars.step, svtStep, h1, h2] at hsafe ⊢
      obtain ⟨e1, e2⟩ := svtDefault_ok (α := α) E.inlineCap s.heap
      obtain ⟨h', o', f1, f2, f3⟩ := svtPushAll_ok E xs e1 limit
      rcases hp : IdealVec.pushAll E.nothrowMove ⟨E.inlineCap, []⟩ xs limit with ⟨w, ok, l⟩
      rw [hp] at f1 f2 hsafe
      cases ok with
      | false => exact absurd rfl (hsafe d rfl x xs)
      | true =>
        refine ⟨⟨h', s.vars.set x (some o')⟩, ?_, r.update _ h1 (e2.trans f3) (Or.inr ⟨_, _, rfl, rfl, f2⟩)⟩
        simp [svtCtorInput, f1, svtMade]
    · simp [VecVars.step, svtStep, h1, h2]
  | copy x y =>
    rcases r.cases x with ⟨h1, h2⟩ | ⟨h1, h2⟩ | ⟨o, q, h1, h2, h3⟩
    · simp [VecVars.step, svtStep, h1, h2]
    · rcases r.cases y with ⟨g1, g2⟩ | ⟨g1, g2⟩ | ⟨p, q, g1, g2, g3⟩
      · simp [VecVars.step, svtStep, h1, h2, g1, g2]
      · simp [VecVars.step, svtStep, h1, h2, g1, g2]
      · simp only [VecVars.step, svtStep, h1, h2, g1, g2, svtElems_ok g3, Option.bind_some]
        exact ctor q.items h1
    · simp [VecVars.step, svtStep, h1, h2]
  | move x y =>
    rcases r.cases x with ⟨h1, h2⟩ | ⟨h1, h2⟩ | ⟨o, q, h1, h2, h3⟩
    · simp [VecVars.step, svtStep, h1, h2]
    · rcases r.cases y with ⟨g1, g2⟩ | ⟨g1, g2⟩ | ⟨p, q, g1, g2, g3⟩
      · simp [VecVars.step, svtStep, h1, h2, g1, g2]
      · simp [VecVars.step, svtStep, h1, h2, g1, g2]
      · simp only [VecVars.step, svtStep, h1, h2, g1, g2]
        have hxy : y ≠ x := by intro e; rw [e, h1] at g1; simp at g1
        obtain ⟨i1, i2⟩ := svtMoveCtor_ok E g3 limit
        by_cases hc : q.cap = E.inlineCap ∧ throws limit (copies E.nothrowMove q.items.length) = true
        · obtain ⟨h', e1, e2, e3⟩ := i1 hc
          simp only [if_pos hc, e1]
          refine ⟨_, rfl, ?_⟩
          have := r.update (some ⟨E.inlineCap, (q.items.take (reached limit)).map E.moved ++ q.items.drop (reached limit)⟩) g1 e3 (Or.inr ⟨_, _, rfl, rfl, e2⟩)
          rw [svt_set_same g1] at this
          exact this
        · obtain ⟨hm, h', new, old, e1, e2, e3, e4, e5⟩ := i2 hc
          simp only [if_neg hc, e1]
          refine ⟨_, rfl, ?_⟩
          have a1 := r.update (some ⟨E.inlineCap, []⟩) g1 e3 (Or.inr ⟨_, _, rfl, rfl, e2⟩)
          exact a1.update (some q) (x := x) (o := none) (by rw [List.getElem?_set_ne hxy]; exact h1) e5 (Or.inr ⟨_, _, rfl, rfl, e4⟩)
    · simp [VecVars.step, svtStep, h1, h2]
  | destroy x =>
    rcases r.cases x with ⟨h1, h2⟩ | ⟨h1, h2⟩ | ⟨o, q, h1, h2, h3⟩
    · simp [VecVars.step, svtStep, h1, h2]
    · simp [VecVars.step, svtStep, h1, h2]
    · simp only [VecVars.step, svtStep, h1, h2]
      obtain ⟨h', e1, e2⟩ := svtDestroy_ok h3
      simp only [e1]
      exact ⟨_, rfl, r.update none h1 e2 (Or.inl ⟨rfl, rfl⟩)⟩
  | push x v =>
    rcases r.cases x with ⟨h1, h2⟩ | ⟨h1, h2⟩ | ⟨o, q, h1, h2, h3⟩
    · simp [VecVars.step, svtStep, h1, h2]
    · simp [VecVars.step, svtStep, h1, h2]
    · simp only [VecVars.step, svtStep, h1, h2]
      obtain ⟨h', o', e1, e2, e3⟩ := svtPush_ok E h3 v limit
      exact modifier _ h1 ⟨h', o', by simp [e1], e2, e3⟩
  | reserve x n =>
    rcases r.cases x with ⟨h1, h2⟩ | ⟨h1, h2⟩ | ⟨o, q, h1, h2, h3⟩
    · simp [VecVars.step, svtStep, h1, h2]
    · simp [VecVars.step, svtStep, h1, h2]
    · simp only [VecVars.step, svtStep, h1, h2]
      obtain ⟨h', o', e1, e2, e3⟩ := svtReserve_ok E h3 n limit
      exact modifier _ h1 ⟨h', o', by simp [e1], e2, e3⟩
  | shrink x =>
    rcases r.cases x with ⟨h1, h2⟩ | ⟨h1, h2⟩ | ⟨o, q, h1, h2, h3⟩
    · simp [VecVars.step, svtStep, h1, h2]
    · simp [VecVars.step, svtStep, h1, h2]
    · simp only [VecVars.step, svtStep, h1, h2, h3.size]
      by_cases hlt : E.inlineCap < q.items.length
      · simp only [if_pos hlt]
        obtain ⟨h', o', e1, e2, e3⟩ := svtReallocate_ok E h3 hlt (Nat.le_refl _) limit
        exact modifier _ h1 ⟨h', o', by simp [e1], e2, e3⟩
      · simp only [if_neg hlt]
        exact ⟨s, rfl, r⟩
  | resize x n v =>
    rcases r.cases x with ⟨h1, h2⟩ | ⟨h1, h2⟩ | ⟨o, q, h1, h2, h3⟩
    · simp [VecVars.step, svtStep, h1, h2]
    · simp [VecVars.step, svtStep, h1, h2]
    · simp only [VecVars.step, svtStep, h1, h2]
      exact modifier _ h1 (svtResize_ok E h3 n v limit)
  | clear x =>
    rcases r.cases x with ⟨h1, h2⟩ | ⟨h1, h2⟩ | ⟨o, q, h1, h2, h3⟩
    · simp [VecVars.step, svtStep, h1, h2]
    · simp [VecVars.step, svtStep, h1, h2]
    · simp only [VecVars.step, svtStep, h1, h2]
      obtain ⟨h', e1, e2, e3⟩ := svtClear_ok h3
      exact modifier (x := x) (⟨q.cap, []⟩, true) h1 ⟨h', _, by simp only [e1, Option.map_some], e2, e3⟩
  | reset x =>
    rcases r.cases x with ⟨h1, h2⟩ | ⟨h1, h2⟩ | ⟨o, q, h1, h2, h3⟩
    · simp [VecVars.step, svtStep, h1, h2]
    · simp [VecVars.step, svtStep, h1, h2]
    · simp only [VecVars.step, svtStep, h1, h2]
      obtain ⟨ha, hb, e1, e2, e3, e4⟩ := svtReset_ok h3
      exact modifier (x := x) (⟨E.inlineCap, []⟩, true) h1 ⟨hb, _, by simp only [e1, Option.bind_some, e2, Option.map_some], e3, e4⟩
  | assign x xs =>
    rcases r.cases x with ⟨h1, h2⟩ | ⟨h1, h2⟩ | ⟨o, q, h1, h2, h3⟩
    · simp [VecVars.step, svtStep, h1, h2]
    · simp [VecVars.step, svtStep, h1, h2]
    · simp only [VecVars.step, svtStep, h1, h2]
      exact modifier _ h1 (svtAssign_ok E h3 xs limit)
  | assignInput x xs =>
    rcases r.cases x with ⟨h1, h2⟩ | ⟨h1, h2⟩ | ⟨o, q, h1, h2, h3⟩
    · simp [VecVars.step, svtStep, h1, h2]
    · simp [VecVars.step, svtStep, h1, h2]
    · simp only [VecVars.step, svtStep, h1, h2]
      exact modifier _ h1 (svtAssignInput_ok E h3 xs limit)
  | assignCopy x y =>
    rcases r.cases x with ⟨h1, h2⟩ | ⟨h1, h2⟩ | ⟨o, q, h1, h2, h3⟩
    · simp [VecVars.step, svtStep, h1, h2]
    · simp [VecVars.step, svtStep, h1, h2]
    · rcases r.cases y with ⟨g1, g2⟩ | ⟨g1, g2⟩ | ⟨p, w, g1, g2, g3⟩
      · simp [VecVars.step, svtStep, h1, h2, g1, g2]
      · simp [VecVars.step, svtStep, h1, h2, g1, g2]
      · simp only [VecVars.step, svtStep, h1, h2, g1, g2, svtElems_ok g3, Option.bind_some]
        by_cases hxy : x = y
        · simp only [if_pos hxy]
          exact ⟨s, rfl, r⟩
        · simp only [if_neg hxy]
          exact modifier _ h1 (svtAssign_ok E h3 w.items limit)
  | erase x i j =>
    rcases r.cases x with ⟨h1, h2⟩ | ⟨h1, h2⟩ | ⟨o, q, h1, h2, h3⟩
    · simp [VecVars.step, svtStep, h1, h2]
    · simp [VecVars.step, svtStep, h1, h2]
    · simp only [VecVars.step, svtStep, h1, h2]
      by_cases hc : i ≤ j ∧ j ≤ q.items.length
      · simp only [if_pos hc]
        exact modifier _ h1 (svtErase_ok E h3 hc.1 hc.2 limit)
      · simp only [if_neg hc]
        unfold svtErase
        rw [h3.size, if_neg hc]
        rfl
  | emplace x i v =>
    rcases r.cases x with ⟨h1, h2⟩ | ⟨h1, h2⟩ | ⟨o, q, h1, h2, h3⟩
    · simp [VecVars.step, svtStep, h1, h2]
    · simp [VecVars.step, svtStep, h1, h2]
    · simp only [VecVars.step, svtStep, h1, h2]
      by_cases hc : i ≤ q.items.length
      · simp only [if_pos hc]
        exact modifier _ h1 (svtEmplace_ok E h3 hc v limit)
      · simp only [if_neg hc]
        unfold svtEmplace
        rw [if_pos (by rw [h3.size]; omega)]
        rfl
  | assignMove x y fwd =>
    rcases r.cases x with ⟨h1, h2⟩ | ⟨h1, h2⟩ | ⟨o, q, h1, h2, h3⟩
    · simp [VecVars.step, svtStep, h1, h2]
    · simp [VecVars.step, svtStep, h1, h2]
    · rcases r.cases y with ⟨g1, g2⟩ | ⟨g1, g2⟩ | ⟨p, w, g1, g2, g3⟩
      · simp [VecVars.step, svtStep, h1, h2, g1, g2]
      · simp [VecVars.step, svtStep, h1, h2, g1, g2]
      · simp only [VecVars.step, svtStep, h1, h2, g1, g2]
        by_cases hxy : x = y
        · simp only [if_pos hxy]
          exact ⟨s, rfl, r⟩
        · simp only [if_neg hxy]
          exact pair _ hxy h1 g1 (svtMoveAssign_ok E fwd h3 g3 (fun c e => hxy (r.apart x y o p c h1 g1 e.1 e.2)) limit)
  | swap x y =>
    rcases r.cases x with ⟨h1, h2⟩ | ⟨h1, h2⟩ | ⟨o, q, h1, h2, h3⟩
    · simp [VecVars.step, svtStep, h1, h2]
    · simp [VecVars.step, svtStep, h1, h2]
    · rcases r.cases y with ⟨g1, g2⟩ | ⟨g1, g2⟩ | ⟨p, w, g1, g2, g3⟩
      · simp [VecVars.step, svtStep, h1, h2, g1, g2]
      · simp [VecVars.step, svtStep, h1, h2, g1, g2]
      · simp only [VecVars.step, svtStep, h1, h2, g1, g2]
        by_cases hxy : x = y
        · simp only [if_pos hxy]
          exact ⟨s, rfl, r⟩
        · simp only [if_neg hxy]
          exact pair _ hxy h1 g1 (svtSwapVars_ok E h3 g3 (fun c e => hxy (r.apart x y o p c h1 g1 e.1 e.2)) limit)

theorem svtStart_ok (S n : Nat) : SvtRel S (svtStart α n) (List.replicate n none) := by
  have hv : ∀ (x : Nat) (o : SvtObj), (List.replicate n (none : Option SvtObj))[x]? ≠ some (some o) := by
    intro x o h
    rw [List.getElem?_replicate] at h
    split at h <;> simp at h
  refine ⟨by simp [svtStart], ?_, ?_, ?_, ?_⟩
  · intro x; simp [svtStart, List.getElem?_replicate]
  · intro x o q h; exact absurd h (hv x o)
  · intro x y ox oy a h; exact absurd h (hv x ox)
  · rintro a ⟨s, h⟩; simp [svtStart] at h

/-- A program. -/
theorem svtRun_ok (E : SvtEnv α) (prog : List (Option Nat × SvtOp α)) : ∀ {s : SvtMem α} {d : VecVars α}, SvtRel E.inlineCap s d →
    VecVars.SafeProgram E.inlineCap E.nothrowMove E.moved d prog →
    (d.program E.inlineCap E.nothrowMove E.moved prog = none ∧ svtRun E s prog = .undefined) ∨
    ∃ e flags t, d.program E.inlineCap E.nothrowMove E.moved prog = some (e, flags) ∧ svtRun E s prog = .returned (t, flags) ∧ SvtRel E.inlineCap t e := by
  induction prog with
  | nil => intro s d r _; exact Or.inr ⟨d, [], s, rfl, rfl, r⟩
  | cons p prog ih =>
    obtain ⟨limit, op⟩ := p
    intro s d r hsafe
    have hs := svtStep_ok E r limit op (by
      intro d' hd' x xs hop
      have := (hsafe d' true hd').1 ⟨x, xs, hop⟩
      cases this)
    unfold VecVars.program svtRun
    rcases hst : d.step E.inlineCap E.nothrowMove E.moved limit op with _ | ⟨d', threw⟩
    · rw [hst] at hs
      exact Or.inl ⟨rfl, by rw [hs]⟩
    · rw [hst] at hs
      obtain ⟨s', h1, h2⟩ := hs
      have hsp := (hsafe d' threw hst).2
      rcases ih h2 hsp with ⟨g1, g2⟩ | ⟨e, flags, t, g1, g2, g3⟩
      · left
        refine ⟨by simp [g1], ?_⟩
        cases threw <;> simp [h1, g2]
      · right
        refine ⟨e, threw :: flags, t, by simp [g1], ?_, g3⟩
        cases threw <;> simp [h1, g2]

theorem SvtRel.observe {S : Nat} {s : SvtMem α} {d : VecVars α} (r : SvtRel S s d) (x : Nat) :
    svtObserve s x = ((d[x]?).join).map (fun q => (q.cap, q.items)) := by
  unfold svtObserve
  rcases r.cases x with ⟨h1, h2⟩ | ⟨h1, h2⟩ | ⟨o, q, h1, h2, h3⟩
  · simp [h1, h2]
  · simp [h1, h2]
  · simp [h1, h2, svtElems_ok h3, h3.cap]

theorem SvtRel.unique_owner {S : Nat} {s : SvtMem α} {d : VecVars α} (r : SvtRel S s d) (a : Nat) :
    (∃ slots, s.heap[a]? = some (some slots)) ↔ ∃! x : Nat, ∃ o, s.vars[x]? = some (some o) ∧ (o.inl = a ∨ o.cur = a) := by
  constructor
  · intro h
    obtain ⟨x, o, h1, h2⟩ := r.owned a h
    refine ⟨x, ⟨o, h1, h2⟩, ?_⟩
    rintro y ⟨p, h3, h4⟩
    exact r.apart y x p o a h3 h1 h4 h2
  · rintro ⟨x, ⟨o, h1, h2⟩, _⟩
    obtain ⟨q, _, hq⟩ := r.okAt h1
    exact hq.live h2

/-- The objects in the blocks of a variable are its elements. -/
theorem SvtOk.objects {S : Nat} {h : CbHeap α} {o : SvtObj} {v : IdealVec α} (k : SvtOk S h o v) :
    h[o.cur]? = some (some (v.items.map some ++ List.replicate (v.cap - v.items.length) none)) ∧ v.items.length ≤ v.cap ∧
    (o.cur ≠ o.inl → h[o.inl]? = some (some (List.replicate S none))) ∧ (o.cur = o.inl ↔ v.cap = S) := by
  refine ⟨k.cur, k.le, ?_, ?_⟩
  · intro hne
    rcases k.place with ⟨e, _⟩ | ⟨_, _, e⟩
    · exact absurd e hne
    · exact e
  · rcases k.place with ⟨e1, e2⟩ | ⟨e1, e2, _⟩
    · simp [e1, e2]
    · constructor
      · intro e; exact absurd e e1
      · intro e; omega

end Gapp.Model
