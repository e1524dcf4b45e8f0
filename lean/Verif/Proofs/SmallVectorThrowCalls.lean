import Verif.Proofs.SmallVectorThrowOps

namespace Gapp.Model
open Spec (IdealVec VecVars)
open Spec.DequeVars (throws)
open Spec.IdealVec (left reached copies grown attempt)
variable {α : Type}

/-- `assign_range`. -/
theorem svtAssignRange_ok (a : Nat) (rest : List (Option α)) (xs : List α) : ∀ (ys zs : List α) (h : CbHeap α) (limit : Option Nat), zs.length = xs.length →
    h[a]? = some (some (ys.map some ++ (zs.map some ++ rest))) →
    (throws limit xs.length = true → ∃ h', svtAssignRange a h ys.length xs limit = some (h', false, some 0) ∧
      h'[a]? = some (some (ys.map some ++ ((xs.take (reached limit) ++ zs.drop (reached limit)).map some ++ rest))) ∧ SvtOff h' h a) ∧
    (throws limit xs.length = false → ∃ h', svtAssignRange a h ys.length xs limit = some (h', true, left limit xs.length) ∧
      h'[a]? = some (some (ys.map some ++ (xs.map some ++ rest))) ∧ SvtOff h' h a) := by
  induction xs with
  | nil =>
    intro ys zs h limit hz ha
    have : zs = [] := List.length_eq_zero_iff.mp hz
    subst this
    refine ⟨fun ht => ?_, fun _ => ⟨h, ?_, ha, fun _ _ => rfl⟩⟩
    · rw [List.length_nil, throws_zero] at ht; cases ht
    · rw [List.length_nil, left_zero]; rfl
  | cons x xs ih =>
    intro ys zs h limit hz ha
    rcases zs with _ | ⟨z, zs⟩
    · simp at hz
    · have hal : a < h.length := (List.getElem?_eq_some_iff.mp ha).1
      rw [List.length_cons]
      rcases cbSpend_cases limit with ⟨hs, hl, ht⟩ | ⟨l, hs, ht⟩
      · refine ⟨fun _ => ⟨h, ?_, ?_, fun _ _ => rfl⟩, fun hf => by rw [ht] at hf; cases hf⟩
        · unfold svtAssignRange; simp [hs]
        · rw [ha, hl]; simp [reached]
      · have hslot : (ys.map some ++ ((z :: zs).map some ++ rest))[ys.length]? = some (some z) := by
          rw [List.getElem?_append_right (by simp)]; simp
        have hset : (ys.map some ++ ((z :: zs).map some ++ rest)).set ys.length (some x) = (ys ++ [x]).map some ++ (zs.map some ++ rest) := by
          rw [List.set_append_right _ _ (by simp)]; simp
        have hstep : svtAssignRange a h ys.length (x :: xs) limit =
            svtAssignRange a (h.set a (some ((ys ++ [x]).map some ++ (zs.map some ++ rest)))) (ys ++ [x]).length xs l := by
          conv_lhs => unfold svtAssignRange
          simp only [hs, ha, hslot, hset, List.length_append, List.length_singleton]
        obtain ⟨i1, i2⟩ := ih (ys ++ [x]) zs (h.set a (some ((ys ++ [x]).map some ++ (zs.map some ++ rest)))) l (by simpa using hz)
          (by rw [List.getElem?_set_self hal])
        rw [(ht _).1, (ht _).2, hstep]
        refine ⟨fun hf => ?_, fun hf => ?_⟩
        · obtain ⟨h', f1, f2, f3⟩ := i1 hf
          refine ⟨h', f1, ?_, (SvtOff.set _ _ _).trans f3⟩
          rw [f2, cbSpend_reached hs hf]; simp
        · obtain ⟨h', f1, f2, f3⟩ := i2 hf
          refine ⟨h', f1, ?_, (SvtOff.set _ _ _).trans f3⟩
          rw [f2]; simp

theorem throws_add (limit : Option Nat) (m n : Nat) : throws limit (m + n) = (throws limit m || throws (left limit m) n) := by
  rcases limit with _ | k
  · simp [throws, left]
  · simp only [throws, left, Option.map_some]
    rcases Nat.lt_or_ge k m with h | h
    · have : k < m + n := by omega
      simp [h, this]
    · have e1 : ¬ k < m := by omega
      have e2 : (k < m + n) ↔ k - m < n := by omega
      simp [e1, e2]

theorem reached_of_throws {limit : Option Nat} {n : Nat} (h : throws limit n = true) : limit = some (reached limit) ∧ reached limit < n := by
  rcases limit with _ | k
  · simp [throws] at h
  · simp only [throws, decide_eq_true_eq] at h
    exact ⟨rfl, h⟩

/-- Assigning to the elements that are there. -/
theorem svtAssignCommon {S : Nat} {h : CbHeap α} {o : SvtObj} {v : IdealVec α} (k : SvtOk S h o v) (xs : List α) (limit : Option Nat) :
    (throws limit (min v.items.length xs.length) = true →
      ∃ h', svtAssignRange o.cur h 0 (xs.take (min v.items.length xs.length)) limit = some (h', false, some 0) ∧
        SvtOk S h' o (v.partly xs (reached limit)) ∧ SvtLocal h (some o) h' (some o)) ∧
    (throws limit (min v.items.length xs.length) = false →
      ∃ h', svtAssignRange o.cur h 0 (xs.take (min v.items.length xs.length)) limit = some (h', true, left limit (min v.items.length xs.length)) ∧
        SvtOk S h' o ⟨v.cap, xs.take (min v.items.length xs.length) ++ v.items.drop (min v.items.length xs.length)⟩ ∧ SvtLocal h (some o) h' (some o)) := by
  have hle := k.le
  generalize hc : min v.items.length xs.length = com
  have hlen : (xs.take com).length = com := by rw [List.length_take]; omega
  obtain ⟨i1, i2⟩ := svtAssignRange_ok o.cur ((v.items.drop com).map some ++ List.replicate (v.cap - v.items.length) none) (xs.take com) [] (v.items.take com) h limit
    (by rw [hlen, List.length_take]; omega)
    (by rw [k.cur, List.map_nil, List.nil_append, ← List.append_assoc, ← List.map_append, List.take_append_drop]; rfl)
  rw [hlen] at i1 i2
  have key : ∀ (h' : CbHeap α) (ys : List α), ys.length = v.items.length → SvtOff h' h o.cur → h'[o.cur]? = some (some (svtBody ⟨v.cap, ys⟩)) →
      SvtOk S h' o ⟨v.cap, ys⟩ ∧ SvtLocal h (some o) h' (some o) := by
    intro h' ys hy hoff hcur
    have := k.inPlace ys (by omega) hoff hcur
    rw [hy, ← k.size] at this
    exact this
  refine ⟨fun ht => ?_, fun ht => ?_⟩
  · obtain ⟨h', e1, e2, e3⟩ := i1 ht
    have hr := (reached_of_throws ht).2
    refine ⟨h', e1, ?_⟩
    unfold IdealVec.partly
    rw [hc, Nat.min_eq_left (by omega)]
    apply key h' _ (by simp; omega) e3
    rw [e2]
    have e5 : v.items.drop (reached limit) = (v.items.take com).drop (reached limit) ++ v.items.drop com := by
      conv_lhs => rw [← List.take_append_drop com v.items]
      rw [List.drop_append_of_le_length (by rw [List.length_take]; omega)]
    have e6 : (xs.take com).take (reached limit) = xs.take (reached limit) := by rw [List.take_take, Nat.min_eq_left (by omega)]
    have e7 : (xs.take (reached limit) ++ v.items.drop (reached limit)).length = v.items.length := by simp; omega
    show _ = some (some ((xs.take (reached limit) ++ v.items.drop (reached limit)).map some ++ List.replicate (v.cap - (xs.take (reached limit) ++ v.items.drop (reached limit)).length) none))
    rw [e7, e5, e6]
    simp only [List.map_append, List.append_assoc, List.map_nil, List.nil_append]
  · obtain ⟨h', e1, e2, e3⟩ := i2 ht
    refine ⟨h', e1, ?_⟩
    have e7 : (xs.take com ++ v.items.drop com).length = v.items.length := by simp; omega
    apply key h' _ e7 e3
    rw [e2]
    show _ = some (some ((xs.take com ++ v.items.drop com).map some ++ List.replicate (v.cap - (xs.take com ++ v.items.drop com).length) none))
    rw [e7]
    simp only [List.map_append, List.append_assoc, List.map_nil, List.nil_append]

/-- Filling a new block. -/
theorem svtFillNew (h : CbHeap α) (a n : Nat) (ha : h[a]? = some (some (List.replicate n none))) (xs : List α) (hn : xs.length ≤ n) (limit : Option Nat) :
    (throws limit xs.length = true → ∃ h', svtFill a 0 h 0 xs limit = some (h', false, some 0) ∧ h'[a]? = some (some (List.replicate n none)) ∧ SvtOff h' h a) ∧
    (throws limit xs.length = false → ∃ h', svtFill a 0 h 0 xs limit = some (h', true, left limit xs.length) ∧
      h'[a]? = some (some (svtBody ⟨n, xs⟩)) ∧ SvtOff h' h a) := by
  obtain ⟨i1, i2⟩ := svtFill_ok a [] xs [] n h limit (by rw [ha]; rfl) hn
  refine ⟨fun ht => ?_, fun ht => ?_⟩
  · obtain ⟨h', e1, e2, e3⟩ := i1 ht
    exact ⟨h', e1, by rw [e2]; simp, e3⟩
  · obtain ⟨h', e1, e2, e3⟩ := i2 ht
    exact ⟨h', e1, by rw [e2]; simp [svtBody], e3⟩

/-- `assign`. -/
theorem svtAssign_ok (E : SvtEnv α) {h : CbHeap α} {o : SvtObj} {v : IdealVec α} (k : SvtOk E.inlineCap h o v) (xs : List α) (limit : Option Nat) :
    ∃ h' o', svtAssign E h o xs limit = some (h', o', (v.assign xs limit).2) ∧ SvtOk E.inlineCap h' o' (v.assign xs limit).1 ∧ SvtLocal h (some o) h' (some o') := by
  have hkle := k.le
  have hS := k.inline_le
  unfold svtAssign IdealVec.assign
  rw [k.size, k.cap]
  by_cases hfit : xs.length ≤ v.cap
  · simp only [if_pos hfit]
    obtain ⟨i1, i2⟩ := svtAssignCommon k xs limit
    have hsum : xs.length = min v.items.length xs.length + (xs.drop (min v.items.length xs.length)).length := by rw [List.length_drop]; omega
    cases ht : throws limit (min v.items.length xs.length) with
    | true =>
      obtain ⟨h', e1, e2, e3⟩ := i1 ht
      have : throws limit xs.length = true := by rw [hsum, throws_add, ht]; rfl
      rw [if_pos this]
      exact ⟨h', o, by simp [e1], e2, e3⟩
    | false =>
      obtain ⟨h1, e1, e2, e3⟩ := i2 ht
      have hthr : throws limit xs.length = throws (left limit (min v.items.length xs.length)) (xs.drop (min v.items.length xs.length)).length := by
        conv_lhs => rw [hsum, throws_add, ht]
        rfl
      rw [e1]
      simp only [Option.bind_eq_bind, Option.bind_some, Bool.not_true, Bool.false_eq_true, if_false]
      rcases Nat.le_total xs.length v.items.length with hle | hle
      · -- nothing is constructed
        rw [Nat.min_eq_right hle] at *
        have hd : xs.drop xs.length = [] := List.drop_length
        rw [hd] at hthr ⊢
        rw [List.length_nil, throws_zero] at hthr
        rw [if_neg (by simp [hthr])]
        have e2' : SvtOk E.inlineCap h1 o ⟨v.cap, xs ++ v.items.drop xs.length⟩ := by rw [List.take_length] at e2; exact e2
        obtain ⟨h2, f1, f2, f3⟩ := svtDestroySuffix e2' (n := xs.length) (by simp)
        have hl2 : (xs ++ v.items.drop xs.length).length - xs.length = v.items.length - xs.length := by simp
        simp only [hl2, List.take_left] at f1 f3
        obtain ⟨j1, j2⟩ := e2'.inPlace xs hfit f2 f3
        rw [k.cap] at j1 j2
        refine ⟨h2, ⟨o.inl, o.cur, xs.length, v.cap⟩, ?_, j1, e3.trans j2⟩
        have hf : svtFill o.cur xs.length h1 0 [] (left limit xs.length) = some (h1, true, left limit xs.length) := rfl
        simp [hf, f1, k.cap]
      · -- nothing is destroyed
        rw [Nat.min_eq_left hle] at *
        have hd : v.items.drop v.items.length = [] := List.drop_length
        rw [hd, List.append_nil] at e2
        have hlt : (xs.take v.items.length).length = v.items.length := by rw [List.length_take]; omega
        obtain ⟨j1, j2⟩ := svtFillEnd e2 (xs.drop v.items.length) (by rw [hlt]; show _ ≤ v.cap; omega) (left limit v.items.length)
        simp only [hlt] at j1 j2
        rw [hthr]
        cases hth : throws (left limit v.items.length) (xs.drop v.items.length).length with
        | true =>
          obtain ⟨h2, f1, f2, f3⟩ := j1 hth
          obtain ⟨m1, m2⟩ := e2.same f2 f3
          rw [hth] at hthr
          have hr := reached_of_throws hthr
          have hrge : v.items.length ≤ reached limit := by
            by_contra hc
            have : throws limit v.items.length = true := by rw [hr.1]; simp [throws]; omega
            rw [this] at ht; cases ht
          refine ⟨h2, o, by simp [f1], ?_, e3.trans m2⟩
          simp only [if_true]
          unfold IdealVec.partly
          rw [Nat.min_eq_left hle, Nat.min_eq_right hrge, hd, List.append_nil]
          exact m1
        | false =>
          obtain ⟨h2, f1, f2, f3⟩ := j2 hth
          simp only [List.take_append_drop] at f3
          obtain ⟨m1, m2⟩ := e2.inPlace xs hfit f2 f3
          rw [k.cap] at m1 m2
          have hz : svtDestroyRange h2 o.cur v.items.length 0 = some h2 := rfl
          refine ⟨h2, ⟨o.inl, o.cur, xs.length, v.cap⟩, by simp [f1, hz, k.cap], m1, e3.trans m2⟩
  · simp only [if_neg hfit]
    rw [Nat.add_comm 1]
    have hg : svtNextCap v.cap (xs.length - v.items.length) = grown v.cap (xs.length - v.items.length) := rfl
    rw [hg]
    have hn1 : xs.length ≤ grown v.cap (xs.length - v.items.length) := by unfold grown; omega
    have hn2 : E.inlineCap < grown v.cap (xs.length - v.items.length) := by unfold grown; omega
    generalize grown v.cap (xs.length - v.items.length) = n at hn1 hn2 ⊢
    have hca : o.cur ≠ h.length := k.ne_length (Or.inr rfl)
    rcases cbSpend_cases limit with ⟨hs, hl, ht⟩ | ⟨l, hs, ht⟩
    · rw [if_pos (ht _)]
      exact ⟨h, o, by simp [hs], k, SvtLocal.refl _ _⟩
    · simp only [hs, (ht _).1]
      obtain ⟨i1, i2⟩ := svtFillNew (cbAllocate h n) h.length n (svtAlloc_at h n) xs hn1 l
      cases hth : throws l xs.length with
      | true =>
        obtain ⟨h1, e1, e2, e3⟩ := i1 hth
        obtain ⟨h2, f1, f2, f3⟩ := svtDealloc_ok e2
        refine ⟨h2, o, by simp [e1, f1], k.vain ?_ f2⟩
        intro c hc; rw [f3 c hc, e3 c hc, svtAlloc_off h n c hc]
      | false =>
        obtain ⟨h1, e1, e2, e3⟩ := i2 hth
        obtain ⟨h2, h3, f1, f2, f3, f4, f5⟩ := svtRetire (h := h1) (o := o) v.items (v.cap - v.items.length) k.size (by rw [k.cap]; omega)
          (by rw [e3 _ hca, svtAlloc_off h n _ hca, k.cur]; rfl)
        rw [k.size] at f1
        refine ⟨h3, ⟨o.inl, h.length, xs.length, n⟩, by simp [e1, f1, f2], ?_⟩
        refine k.regrown (w := ⟨n, xs⟩) hn2 hn1 ?_ ?_ f4 f5
        · rw [f3 _ (Ne.symm hca), e2]
        · intro c h1 h2
          rw [f3 c h2, e3 c h1, svtAlloc_off h n c h1]

/-- `assign` of an input range. -/
theorem svtAssignInput_ok (E : SvtEnv α) {h : CbHeap α} {o : SvtObj} {v : IdealVec α} (k : SvtOk E.inlineCap h o v) (xs : List α) (limit : Option Nat) :
    ∃ h' o', svtAssignInput E h o xs limit = some (h', o', (v.assignInput E.nothrowMove xs limit).2) ∧
      SvtOk E.inlineCap h' o' (v.assignInput E.nothrowMove xs limit).1 ∧ SvtLocal h (some o) h' (some o') := by
  have hkle := k.le
  unfold svtAssignInput IdealVec.assignInput
  simp only [k.size]
  obtain ⟨i1, i2⟩ := svtAssignCommon k xs limit
  cases ht : throws limit (min v.items.length xs.length) with
  | true =>
    obtain ⟨h', e1, e2, e3⟩ := i1 ht
    exact ⟨h', o, by simp [e1], e2, e3⟩
  | false =>
    obtain ⟨h1, e1, e2, e3⟩ := i2 ht
    generalize hc : min v.items.length xs.length = com at e1 e2 ⊢
    have hlt : (xs.take com).length = com := by rw [List.length_take]; omega
    obtain ⟨h2, f1, f2, f3⟩ := svtDestroySuffix e2 (n := com) (by simp; omega)
    have hl2 : (xs.take com ++ v.items.drop com).length - com = v.items.length - com := by simp; omega
    have htk : (xs.take com ++ v.items.drop com).take com = xs.take com := by
      rw [List.take_append_of_le_length (by omega), List.take_take]; simp
    simp only [hl2, htk] at f1 f3
    obtain ⟨j1, j2⟩ := e2.inPlace (xs.take com) (by show _ ≤ v.cap; omega) f2 f3
    rw [hlt] at j1 j2
    obtain ⟨h3, o3, g1, g2, g3⟩ := svtPushAll_ok E (xs.drop com) j1 (left limit com)
    rcases hp : IdealVec.pushAll E.nothrowMove ⟨v.cap, xs.take com⟩ (xs.drop com) (left limit com) with ⟨w, ok, l⟩
    simp only [hp] at g1 g2
    refine ⟨h3, o3, ?_, ?_, (e3.trans j2).trans g3⟩
    · simp [e1, f1, g1]
    · exact g2

theorem svtEndInline_ok {h : CbHeap α} {a n : Nat} (ha : h[a]? = some (some (List.replicate n none))) :
    (svtEndInline h a)[a]? = some none ∧ SvtOff (svtEndInline h a) h a := by
  have hl : a < h.length := (List.getElem?_eq_some_iff.mp ha).1
  have : svtEndInline h a = h.set a none := by unfold svtEndInline; simp [ha]
  rw [this]
  exact ⟨by simp [hl], SvtOff.set _ _ _⟩

/-- A block that does not exist yet. -/
theorem not_live_off {h h' : CbHeap α} {a b : Nat} (hoff : SvtOff h' h a) (hab : b ≠ a) (hn : ¬ SvtLive h' b) : ¬ SvtLive h b := by
  intro hl; exact hn (hl.congr (hoff b hab))

/-- The constructors from a list of elements. -/
theorem svtCtor_ok (E : SvtEnv α) (h : CbHeap α) (xs : List α) (limit : Option Nat) :
    (throws limit ((if xs.length ≤ E.inlineCap then 0 else 1) + xs.length) = true → ∃ h', svtCtor E h xs limit = some (h', none) ∧ ∀ o, SvtLocal h o h' o) ∧
    (throws limit ((if xs.length ≤ E.inlineCap then 0 else 1) + xs.length) = false → ∃ h' o, svtCtor E h xs limit = some (h', some o) ∧
      SvtOk E.inlineCap h' o ⟨max E.inlineCap xs.length, xs⟩ ∧ SvtLocal h none h' (some o)) := by
  have hna := svtNotLive_length h
  have hal := svtAlloc_at h E.inlineCap
  have hoff := svtAlloc_off h E.inlineCap
  unfold svtCtor svtAllocateN
  by_cases hle : xs.length ≤ E.inlineCap
  · simp only [if_pos hle, Nat.zero_add]
    obtain ⟨i1, i2⟩ := svtFillNew (cbAllocate h E.inlineCap) h.length E.inlineCap hal xs hle limit
    refine ⟨fun ht => ?_, fun ht => ?_⟩
    · obtain ⟨h1, e1, e2, e3⟩ := i1 ht
      obtain ⟨f1, f2⟩ := svtEndInline_ok e2
      refine ⟨svtEndInline h1 h.length, by simp [e1, svtDeallocate], fun o => SvtLocal.vain o (fun a => a = h.length) ?_ ?_ ?_⟩
      · rintro a rfl; exact hna
      · rintro a rfl; exact not_live_of_none f1
      · intro c hc; rw [f2 c hc, e3 c hc, hoff c hc]
    · obtain ⟨h1, e1, e2, e3⟩ := i2 ht
      rw [Nat.max_eq_left hle]
      refine ⟨h1, ⟨h.length, h.length, xs.length, E.inlineCap⟩, by simp [e1], ⟨rfl, rfl, hle, e2, Or.inl ⟨rfl, rfl⟩⟩, SvtLocal.made ?_ ?_⟩
      · rintro a (rfl | rfl) <;> exact hna
      · intro c hc
        have : c ≠ h.length := fun e => hc (Or.inl e.symm)
        rw [e3 c this, hoff c this]
  · simp only [if_neg hle]
    rw [Nat.add_comm 1]
    have hbl : (cbAllocate h E.inlineCap).length = h.length + 1 := by simp [cbAllocate]
    have hnb1 := svtNotLive_length (cbAllocate h E.inlineCap)
    have hbl1 := svtAlloc_at (cbAllocate h E.inlineCap) xs.length
    have hboff := svtAlloc_off (cbAllocate h E.inlineCap) xs.length
    generalize hb : (cbAllocate h E.inlineCap).length = b at *
    have hab : h.length ≠ b := by omega
    have hnb : ¬ SvtLive h b := not_live_off hoff (Ne.symm hab) hnb1
    rcases cbSpend_cases limit with ⟨hs, hl, ht⟩ | ⟨l, hs, ht⟩
    · refine ⟨fun _ => ?_, fun hf => by rw [ht] at hf; cases hf⟩
      obtain ⟨f1, f2⟩ := svtEndInline_ok hal
      simp only [hs]
      refine ⟨_, rfl, fun o => SvtLocal.vain o (fun a => a = h.length) ?_ ?_ ?_⟩
      · rintro a rfl; exact hna
      · rintro a rfl; exact not_live_of_none f1
      · intro c hc; rw [f2 c hc, hoff c hc]
    · simp only [hs, (ht _).1]
      obtain ⟨i1, i2⟩ := svtFillNew (cbAllocate (cbAllocate h E.inlineCap) xs.length) b xs.length hbl1 xs (Nat.le_refl _) l
      refine ⟨fun hth => ?_, fun hth => ?_⟩
      · obtain ⟨h1, e1, e2, e3⟩ := i1 hth
        obtain ⟨h2, d1, d2, d3⟩ := svtDealloc_ok e2
        obtain ⟨f1, f2⟩ := svtEndInline_ok (h := h2) (a := h.length) (n := E.inlineCap) (by rw [d3 _ hab, e3 _ hab, hboff _ hab, hal])
        refine ⟨svtEndInline h2 h.length, by simp [e1, svtDeallocate, Ne.symm hab, d1], fun o => SvtLocal.vain o (fun a => a = h.length ∨ a = b) ?_ ?_ ?_⟩
        · rintro a (rfl | rfl)
          · exact hna
          · exact hnb
        · rintro a (rfl | rfl)
          · exact not_live_of_none f1
          · exact not_live_of_none (by rw [f2 _ (Ne.symm hab), d2])
        · intro c hc
          have c1 : c ≠ h.length := fun e => hc (Or.inl e)
          have c2 : c ≠ b := fun e => hc (Or.inr e)
          rw [f2 c c1, d3 c c2, e3 c c2, hboff c c2, hoff c c1]
      · obtain ⟨h1, e1, e2, e3⟩ := i2 hth
        rw [Nat.max_eq_right (by omega)]
        refine ⟨h1, ⟨h.length, b, xs.length, xs.length⟩, by simp [e1], ⟨rfl, rfl, Nat.le_refl _, e2, Or.inr ⟨Ne.symm hab, by show _ < xs.length; omega, ?_⟩⟩, SvtLocal.made ?_ ?_⟩
        · show h1[h.length]? = _
          rw [e3 _ hab, hboff _ hab, hal]
        · rintro a (rfl | rfl)
          · exact hna
          · exact hnb
        · intro c hc
          have c1 : c ≠ h.length := fun e => hc (Or.inl e.symm)
          have c2 : c ≠ b := fun e => hc (Or.inr e.symm)
          rw [e3 c c2, hboff c c2, hoff c c1]

/-- The default constructor. -/
theorem svtDefault_ok (S : Nat) (h : CbHeap α) :
    SvtOk S (cbAllocate h S) ⟨h.length, h.length, 0, S⟩ (⟨S, []⟩ : IdealVec α) ∧ SvtLocal h none (cbAllocate h S) (some ⟨h.length, h.length, 0, S⟩) := by
  refine ⟨⟨rfl, rfl, Nat.zero_le _, by rw [svtAlloc_at]; simp [svtBody], Or.inl ⟨rfl, rfl⟩⟩, SvtLocal.made ?_ ?_⟩
  · rintro a (rfl | rfl) <;> exact svtNotLive_length h
  · intro c hc
    exact svtAlloc_off h S c (fun e => hc (Or.inl e.symm))

/-- `clear`. -/
theorem svtClear_ok {S : Nat} {h : CbHeap α} {o : SvtObj} {v : IdealVec α} (k : SvtOk S h o v) :
    ∃ h', svtDestroyRange h o.cur 0 o.size = some h' ∧ SvtOk S h' { o with size := 0 } ⟨v.cap, []⟩ ∧ SvtLocal h (some o) h' (some { o with size := 0 }) := by
  obtain ⟨h', e1, e2, e3⟩ := svtDestroySuffix k (n := 0) (Nat.zero_le _)
  rw [Nat.sub_zero, ← k.size] at e1
  exact ⟨h', e1, k.inPlace [] (Nat.zero_le _) e2 (by rw [e3]; rfl)⟩

/-- `reset`. -/
theorem svtReset_ok {S : Nat} {h : CbHeap α} {o : SvtObj} {v : IdealVec α} (k : SvtOk S h o v) :
    ∃ h1 h2, svtDestroyRange h o.cur 0 o.size = some h1 ∧ svtDeallocate h1 o = some h2 ∧ SvtOk S h2 ⟨o.inl, o.inl, 0, S⟩ (⟨S, []⟩ : IdealVec α) ∧
      SvtLocal h (some o) h2 (some ⟨o.inl, o.inl, 0, S⟩) := by
  obtain ⟨h1, h2, f1, f2, f3, f4, f5⟩ := svtRetire (h := h) (o := o) v.items (v.cap - v.items.length) k.size (by rw [k.cap]; have := k.le; omega) k.cur
  refine ⟨h1, h2, f1, f2, ⟨rfl, rfl, Nat.zero_le _, ?_, Or.inl ⟨rfl, rfl⟩⟩, SvtLocal.reset rfl rfl f3 (fun e => not_live_of_none (f4 e))⟩
  show h2[o.inl]? = _
  have hb : svtBody (⟨S, []⟩ : IdealVec α) = List.replicate S none := by simp [svtBody]
  rw [hb]
  rcases k.place with ⟨e1, e2⟩ | ⟨e1, e2, e3⟩
  · rw [← e1, f5 e1, k.cap, e2]
  · rw [f3 _ (Ne.symm e1), e3]

/-- The destructor. -/
theorem svtDestroy_ok {S : Nat} {h : CbHeap α} {o : SvtObj} {v : IdealVec α} (k : SvtOk S h o v) :
    ∃ h', svtDestroy h o = some h' ∧ SvtLocal h (some o) h' none := by
  obtain ⟨h1, h2, f1, f2, f3, f4⟩ := svtReset_ok k
  have hi : h2[o.inl]? = some (some (List.replicate S none)) := by
    have := f3.cur
    simpa [svtBody] using this
  obtain ⟨g1, g2⟩ := svtEndInline_ok hi
  refine ⟨svtEndInline h2 o.inl, by simp [svtDestroy, f1, f2], f4.trans ?_⟩
  refine SvtLocal.gone ?_ (not_live_of_none g1) (not_live_of_none g1)
  intro c hc _
  exact g2 c hc

/-- The move constructor. -/
theorem svtMoveCtor_ok (E : SvtEnv α) {h : CbHeap α} {o : SvtObj} {v : IdealVec α} (k : SvtOk E.inlineCap h o v) (limit : Option Nat) :
    (v.cap = E.inlineCap ∧ throws limit (copies E.nothrowMove v.items.length) = true → ∃ h', svtMoveCtor E h o limit = some (h', none) ∧
      SvtOk E.inlineCap h' o ⟨E.inlineCap, (v.items.take (reached limit)).map E.moved ++ v.items.drop (reached limit)⟩ ∧ SvtLocal h (some o) h' (some o)) ∧
    (¬ (v.cap = E.inlineCap ∧ throws limit (copies E.nothrowMove v.items.length) = true) → ∃ hm h' new old, svtMoveCtor E h o limit = some (h', some (new, old)) ∧
      SvtOk E.inlineCap hm old ⟨E.inlineCap, []⟩ ∧ SvtLocal h (some o) hm (some old) ∧ SvtOk E.inlineCap h' new v ∧ SvtLocal hm none h' (some new)) := by
  have hna := svtNotLive_length h
  have hal := svtAlloc_at h E.inlineCap
  have hoff := svtAlloc_off h E.inlineCap
  have hca : o.cur ≠ h.length := k.ne_length (Or.inr rfl)
  have hkle := k.le
  have hcl : o.cur < h.length := (List.getElem?_eq_some_iff.mp k.cur).1
  unfold svtMoveCtor
  rcases k.place with ⟨p1, p2⟩ | ⟨p1, p2, p3⟩
  · simp only [if_pos p1]
    obtain ⟨r1, r2⟩ := svtRelocate_ok E true hca v.items [] (List.replicate (v.cap - v.items.length) none)
      (List.replicate (E.inlineCap - v.items.length) none) (cbAllocate h E.inlineCap) limit
      (by rw [hoff _ hca, k.cur]; rfl) (by rw [hal, replicate_split none (show v.items.length ≤ E.inlineCap by omega)]; rfl)
    rw [List.length_nil] at r1 r2
    rw [k.size]
    refine ⟨fun ht => ?_, fun ht => ?_⟩
    · obtain ⟨hnm, htn⟩ := copies_throws ht.2
      obtain ⟨h1, e1, e2, e3, e4⟩ := r1 hnm htn
      rw [Nat.zero_add, ← replicate_split none (show v.items.length ≤ E.inlineCap by omega)] at e3
      obtain ⟨f1, f2⟩ := svtEndInline_ok e3
      have hr := (reached_of_throws htn).2
      set ys := (v.items.take (reached limit)).map E.moved ++ v.items.drop (reached limit) with hys
      have hylen : ys.length = v.items.length := by rw [hys]; simp; omega
      have e2' : h1[o.cur]? = some (some (svtBody ⟨v.cap, ys⟩)) := by
        rw [e2]
        simp only [svtBody, hylen]
        rw [hys]
        simp
      obtain ⟨j1, j2⟩ := k.inPlace (h' := h.set o.cur (some (svtBody ⟨v.cap, ys⟩))) ys (by omega) (SvtOff.set _ _ _) (by rw [List.getElem?_set_self hcl])
      rw [hylen, ← k.size] at j1 j2
      have hsame : ∀ c : Nat, c ≠ h.length → (svtEndInline h1 h.length)[c]? = (h.set o.cur (some (svtBody ⟨v.cap, ys⟩)))[c]? := by
        intro c hc
        rw [f2 c hc]
        by_cases hcc : c = o.cur
        · rw [hcc, e2', List.getElem?_set_self hcl]
        · rw [e4 c hcc hc, hoff c hc, List.getElem?_set_ne (Ne.symm hcc)]
      have hnl : ¬ SvtLive (h.set o.cur (some (svtBody ⟨v.cap, ys⟩))) h.length := by
        rintro ⟨s, hs⟩
        rw [List.getElem?_set_ne hca] at hs
        exact hna ⟨s, hs⟩
      refine ⟨svtEndInline h1 h.length, by simp [e1], ?_, j2.trans (SvtLocal.vain _ (fun a => a = h.length) ?_ ?_ hsame)⟩
      · rw [← p2]
        have j1' : SvtOk v.cap (h.set o.cur (some (svtBody ⟨v.cap, ys⟩))) o ⟨v.cap, ys⟩ := p2 ▸ j1
        exact j1'.frame (fun a ha => hsame a (fun e => hnl (e ▸ j1'.live ha)))
      · rintro a rfl; exact hnl
      · rintro a rfl; exact not_live_of_none f1
    · have ht' : throws limit (copies E.nothrowMove v.items.length) = false := by
        cases hh : throws limit (copies E.nothrowMove v.items.length) with
        | false => rfl
        | true => exact absurd ⟨p2, hh⟩ ht
      obtain ⟨h1, e1, e2, e3, e4⟩ := r2 ht'
      obtain ⟨h2, d1, d2, d3⟩ := svtDestroyRange_ok (pre := []) (rest := List.replicate (v.cap - v.items.length) none) (v.items.map (if true then E.moved else id))
        (by rw [e2]; rfl)
      rw [List.length_map, List.nil_append, ← replicate_split none hkle, p2] at d2
      rw [List.length_map] at d1
      have d1' : svtDestroyRange h1 o.cur 0 v.items.length = some h2 := d1
      obtain ⟨j1, j2⟩ := k.inPlace (h' := h.set o.cur (some (List.replicate E.inlineCap none))) [] (Nat.zero_le _) (SvtOff.set _ _ _)
        (by rw [List.getElem?_set_self hcl, p2]; simp [svtBody])
      refine ⟨h.set o.cur (some (List.replicate E.inlineCap none)), h2, ⟨h.length, h.length, v.items.length, E.inlineCap⟩, ⟨o.inl, o.cur, 0, o.cap⟩,
        by simp [e1, d1'], p2 ▸ j1, j2, ⟨rfl, p2.symm, hkle, ?_, Or.inl ⟨rfl, p2⟩⟩, SvtLocal.made ?_ ?_⟩
      · show h2[h.length]? = _
        rw [d3 _ (Ne.symm hca), e3]
        simp [svtBody, p2]
      · rintro a (rfl | rfl) <;>
        · rintro ⟨s, hs⟩
          rw [List.getElem?_set_ne hca] at hs
          exact hna ⟨s, hs⟩
      · intro c hc
        have c1 : c ≠ h.length := fun e => hc (Or.inl e.symm)
        by_cases hcc : c = o.cur
        · rw [hcc, d2, List.getElem?_set_self hcl]
        · rw [d3 c hcc, e4 c hcc c1, hoff c c1, List.getElem?_set_ne (Ne.symm hcc)]
  · simp only [if_neg p1]
    refine ⟨fun ht => by omega, fun _ => ?_⟩
    have hia : o.inl ≠ h.length := k.ne_length (Or.inl rfl)
    have hfree : (h.set o.cur none)[o.cur]? = some none := by rw [List.getElem?_set_self hcl]
    refine ⟨h.set o.cur none, cbAllocate h E.inlineCap, { o with inl := h.length }, ⟨o.inl, o.inl, 0, E.inlineCap⟩, rfl,
      ⟨rfl, rfl, Nat.zero_le _, ?_, Or.inl ⟨rfl, rfl⟩⟩, SvtLocal.reset rfl rfl (SvtOff.set _ _ _) (fun _ => not_live_of_none hfree),
      ⟨k.size, k.cap, hkle, ?_, Or.inr ⟨hca, p2, hal⟩⟩, SvtLocal.made ?_ ?_⟩
    · show (h.set o.cur none)[o.inl]? = _
      rw [List.getElem?_set_ne p1, p3]; simp [svtBody]
    · show (cbAllocate h E.inlineCap)[o.cur]? = _
      rw [hoff _ hca, k.cur]
    · rintro a (rfl | rfl)
      · rintro ⟨s, hs⟩
        have hs' : (h.set o.cur none)[h.length]? = some (some s) := hs
        rw [List.getElem?_set_ne hca] at hs'
        exact hna ⟨s, hs'⟩
      · exact not_live_of_none hfree
    · intro c hc
      have c1 : c ≠ h.length := fun e => hc (Or.inl e.symm)
      have c2 : c ≠ o.cur := fun e => hc (Or.inr e.symm)
      rw [hoff c c1, List.getElem?_set_ne (Ne.symm c2)]

end Gapp.Model
