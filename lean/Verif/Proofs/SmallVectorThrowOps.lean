import Verif.Proofs.SmallVectorThrow

namespace Gapp.Model
open Spec (IdealVec VecVars)
open Spec.DequeVars (throws)
open Spec.IdealVec (left reached copies grown attempt)
variable {α : Type}

theorem replicate_split {β : Type} (b : β) {m n : Nat} (h : m ≤ n) : List.replicate n b = List.replicate m b ++ List.replicate (n - m) b := by
  rw [List.replicate_append_replicate]; congr 1; omega

theorem not_live_of_none {h : CbHeap α} {a : Nat} (e : h[a]? = some none) : ¬ SvtLive h a := by
  rintro ⟨s, hs⟩; rw [e] at hs; cases hs

/-- Destroying all elements and giving the block back. -/
theorem svtRetire {h : CbHeap α} {o : SvtObj} (ys : List α) (r : Nat) (hs : o.size = ys.length) (hcap : o.cap = ys.length + r)
    (hcur : h[o.cur]? = some (some (ys.map some ++ List.replicate r none))) :
    ∃ h1 h2, svtDestroyRange h o.cur 0 o.size = some h1 ∧ svtDeallocate h1 o = some h2 ∧ SvtOff h2 h o.cur ∧
      (o.cur ≠ o.inl → h2[o.cur]? = some none) ∧ (o.cur = o.inl → h2[o.cur]? = some (some (List.replicate o.cap none))) := by
  obtain ⟨h1, e1, e2, e3⟩ := svtDestroyRange_ok (pre := []) (rest := List.replicate r none) ys (by rw [hcur]; rfl)
  rw [List.nil_append, List.replicate_append_replicate, ← hcap] at e2
  rw [← hs] at e1
  by_cases hc : o.cur = o.inl
  · refine ⟨h1, h1, e1, by simp [svtDeallocate, hc], e3, fun h => absurd hc h, fun _ => e2⟩
  · obtain ⟨h2, f1, f2, f3⟩ := svtDealloc_ok e2
    exact ⟨h1, h2, e1, by simp [svtDeallocate, hc, f1], e3.trans f3, fun _ => f2, fun h => absurd h hc⟩

theorem SvtOk.ne_length {S : Nat} {h : CbHeap α} {o : SvtObj} {v : IdealVec α} (k : SvtOk S h o v) {a : Nat} (ha : SvtOwns o a) : a ≠ h.length := by
  intro e
  exact svtNotLive_length h (e ▸ k.live ha)

/-- The elements are in a new block. -/
theorem SvtOk.regrown {S : Nat} {h h2 : CbHeap α} {o : SvtObj} {v w : IdealVec α} (k : SvtOk S h o v) (hn : S < w.cap) (hle : w.items.length ≤ w.cap)
    (ha : h2[h.length]? = some (some (svtBody w))) (hoff : ∀ c : Nat, c ≠ h.length → c ≠ o.cur → h2[c]? = h[c]?)
    (h4 : o.cur ≠ o.inl → h2[o.cur]? = some none) (h5 : o.cur = o.inl → h2[o.cur]? = some (some (List.replicate o.cap none))) :
    SvtOk S h2 ⟨o.inl, h.length, w.items.length, w.cap⟩ w ∧ SvtLocal h (some o) h2 (some ⟨o.inl, h.length, w.items.length, w.cap⟩) := by
  have hil : o.inl ≠ h.length := k.ne_length (Or.inl rfl)
  refine ⟨⟨rfl, rfl, hle, ha, Or.inr ⟨Ne.symm hil, hn, ?_⟩⟩, ?_⟩
  · rcases k.place with ⟨e1, e2⟩ | ⟨e1, e2, e3⟩
    · show h2[o.inl]? = _
      have := h5 e1
      rw [k.cap, e2, e1] at this
      exact this
    · show h2[o.inl]? = _
      rw [hoff _ hil (Ne.symm e1), e3]
  · exact SvtLocal.regrow (a := h.length) rfl rfl (svtNotLive_length h) hoff (fun e => not_live_of_none (h4 e))

/-- A new block that is freed again. -/
theorem SvtOk.vain {S : Nat} {h h2 : CbHeap α} {o : SvtObj} {v : IdealVec α} (k : SvtOk S h o v) (hoff : SvtOff h2 h h.length) (hn : h2[h.length]? = some none) :
    SvtOk S h2 o v ∧ SvtLocal h (some o) h2 (some o) := by
  refine ⟨k.frame (fun a ha => hoff a (k.ne_length ha)), SvtLocal.vain _ (fun a => a = h.length) ?_ ?_ hoff⟩
  · rintro a rfl; exact svtNotLive_length h
  · rintro a rfl; exact not_live_of_none hn

theorem recap_throws {nm : Bool} {v : IdealVec α} {n : Nat} {limit : Option Nat} (h : throws limit (copies nm v.items.length + 1) = true) :
    v.recap nm n limit = (v, false, some 0) := by
  unfold IdealVec.recap attempt
  rw [Nat.add_comm 1, if_pos h]

theorem recap_returns {nm : Bool} {v : IdealVec α} {n : Nat} {limit : Option Nat} (h : throws limit (copies nm v.items.length + 1) = false) :
    v.recap nm n limit = (⟨n, v.items⟩, true, left limit (copies nm v.items.length + 1)) := by
  unfold IdealVec.recap attempt
  rw [Nat.add_comm 1, if_neg (by simp [h])]

theorem copies_throws {nm : Bool} {limit : Option Nat} {n : Nat} (h : throws limit (copies nm n) = true) : nm = false ∧ throws limit n = true := by
  cases nm
  · exact ⟨rfl, h⟩
  · simp [copies, throws_zero] at h

/-- `reallocate_n`. -/
theorem svtReallocate_ok (E : SvtEnv α) {h : CbHeap α} {o : SvtObj} {v : IdealVec α} (k : SvtOk E.inlineCap h o v) {n : Nat} (hn : E.inlineCap < n)
    (hle : v.items.length ≤ n) (limit : Option Nat) :
    ∃ h' o', svtReallocate E h o n limit = some (h', o', (v.recap E.nothrowMove n limit).2.1, (v.recap E.nothrowMove n limit).2.2) ∧
      SvtOk E.inlineCap h' o' (v.recap E.nothrowMove n limit).1 ∧ SvtLocal h (some o) h' (some o') := by
  have hca : o.cur ≠ h.length := k.ne_length (Or.inr rfl)
  unfold svtReallocate
  rcases cbSpend_cases limit with ⟨hs, hl, ht⟩ | ⟨l, hs, ht⟩
  · rw [recap_throws (ht _)]
    exact ⟨h, o, by simp [hs], k, SvtLocal.refl _ _⟩
  · simp only [hs]
    obtain ⟨r1, r2⟩ := svtRelocate_ok E E.nothrowMove hca v.items [] (List.replicate (v.cap - v.items.length) none)
      (List.replicate (n - v.items.length) none) (cbAllocate h n) l
      (by rw [svtAlloc_off h n _ hca, k.cur]; rfl) (by rw [svtAlloc_at, replicate_split none hle]; rfl)
    rw [List.length_nil] at r1 r2
    rw [k.size]
    cases hth : throws l (copies E.nothrowMove v.items.length) with
    | true =>
      rw [recap_throws (by rw [(ht _).1, hth])]
      obtain ⟨hnm, htn⟩ := copies_throws hth
      obtain ⟨h1, e1, e2, e3, e4⟩ := r1 hnm htn
      rw [Nat.zero_add, ← replicate_split none hle] at e3
      obtain ⟨h2, f1, f2, f3⟩ := svtDealloc_ok e3
      refine ⟨h2, o, by simp [e1, f1], ?_⟩
      apply k.vain _ f2
      intro c hc
      rw [f3 c hc]
      by_cases hcc : c = o.cur
      · rw [hcc, e2, k.cur, hnm]
        simp [svtBody]
        rw [← List.append_assoc, ← List.map_take, ← List.map_drop, ← List.map_append, List.take_append_drop]
      · rw [e4 c hcc hc, svtAlloc_off h n c hc]
    | false =>
      rw [recap_returns (by rw [(ht _).1, hth]), (ht _).2]
      obtain ⟨h1, e1, e2, e3, e4⟩ := r2 hth
      obtain ⟨h2, h3, f1, f2, f3, f4, f5⟩ := svtRetire (h := h1) (o := o) (v.items.map (if E.nothrowMove then E.moved else id)) (v.cap - v.items.length)
        (by rw [k.size, List.length_map]) (by rw [k.cap, List.length_map]; have := k.le; omega) (by rw [e2]; rfl)
      rw [k.size] at f1
      refine ⟨h3, ⟨o.inl, h.length, v.items.length, n⟩, by simp [e1, f1, f2, k.size], ?_⟩
      refine k.regrown (w := ⟨n, v.items⟩) hn hle ?_ ?_ f4 f5
      · rw [f3 _ (Ne.symm hca), e3]; rfl
      · intro c h1 h2
        rw [f3 c h2, e4 c h2 h1, svtAlloc_off h n c h1]

/-- `reallocate_append`. -/
theorem svtReallocateAppend_ok (E : SvtEnv α) {h : CbHeap α} {o : SvtObj} {v : IdealVec α} (k : SvtOk E.inlineCap h o v) {n : Nat} (hn : E.inlineCap < n)
    (hle : v.items.length < n) (x : α) (limit : Option Nat) :
    ∃ h' o', svtReallocateAppend E h o n x limit = some (h', o', (attempt limit (2 + copies E.nothrowMove v.items.length) v ⟨n, v.items ++ [x]⟩).2.1,
        (attempt limit (2 + copies E.nothrowMove v.items.length) v ⟨n, v.items ++ [x]⟩).2.2) ∧
      SvtOk E.inlineCap h' o' (attempt limit (2 + copies E.nothrowMove v.items.length) v ⟨n, v.items ++ [x]⟩).1 ∧ SvtLocal h (some o) h' (some o') := by
  have hca : o.cur ≠ h.length := k.ne_length (Or.inr rfl)
  have hT : throws limit (2 + copies E.nothrowMove v.items.length) = true →
      attempt limit (2 + copies E.nothrowMove v.items.length) v ⟨n, v.items ++ [x]⟩ = (v, false, some 0) := by
    intro e; unfold attempt; rw [if_pos e]
  have hF : throws limit (2 + copies E.nothrowMove v.items.length) = false →
      attempt limit (2 + copies E.nothrowMove v.items.length) v ⟨n, v.items ++ [x]⟩ =
        (⟨n, v.items ++ [x]⟩, true, left limit (2 + copies E.nothrowMove v.items.length)) := by
    intro e; unfold attempt; rw [if_neg (by simp [e])]
  have h2c : 2 + copies E.nothrowMove v.items.length = copies E.nothrowMove v.items.length + 1 + 1 := by omega
  unfold svtReallocateAppend
  rcases cbSpend_cases limit with ⟨hs, hl, ht⟩ | ⟨l, hs, ht⟩
  · rw [hT (by rw [h2c]; exact ht _)]
    exact ⟨h, o, by simp [hs], k, SvtLocal.refl _ _⟩
  · simp only [hs]
    rcases cbSpend_cases l with ⟨hs', hl', ht'⟩ | ⟨l', hs', ht'⟩
    · rw [hT (by rw [h2c, (ht _).1]; exact ht' _)]
      obtain ⟨h2, f1, f2, f3⟩ := svtDealloc_ok (svtAlloc_at h n)
      refine ⟨h2, o, by simp [hs', f1], k.vain ?_ f2⟩
      intro c hc; rw [f3 c hc, svtAlloc_off h n c hc]
    · simp only [hs']
      have hsp : (List.replicate n none : List (Option α)) = List.replicate v.items.length none ++ none :: List.replicate (n - v.items.length - 1) none := by
        rw [← List.replicate_succ, replicate_split none (Nat.le_of_lt hle)]
        congr 2; omega
      obtain ⟨h0, c1, c2, c3⟩ := svtConstruct_ok (h := cbAllocate h n) (a := h.length) (pre := List.replicate v.items.length none)
        (rest := List.replicate (n - v.items.length - 1) none) x (by rw [svtAlloc_at, hsp])
      rw [List.length_replicate, ← k.size] at c1
      obtain ⟨r1, r2⟩ := svtRelocate_ok E E.nothrowMove hca v.items [] (List.replicate (v.cap - v.items.length) none)
        (some x :: List.replicate (n - v.items.length - 1) none) h0 l'
        (by rw [c3 _ hca, svtAlloc_off h n _ hca, k.cur]; rfl) (by rw [c2]; rfl)
      rw [List.length_nil] at r1 r2
      rw [c1]
      simp only [Option.bind_eq_bind, Option.bind_some]
      rw [k.size]
      cases hth : throws l' (copies E.nothrowMove v.items.length) with
      | true =>
        rw [hT (by rw [h2c, (ht _).1, (ht' _).1, hth])]
        obtain ⟨hnm, htn⟩ := copies_throws hth
        obtain ⟨h1, e1, e2, e3, e4⟩ := r1 hnm htn
        rw [Nat.zero_add] at e3
        obtain ⟨h2, d1, d2, d3⟩ := svtDestroyAt_ok e3
        rw [List.length_replicate] at d1
        rw [← hsp] at d2
        obtain ⟨h3, f1, f2, f3⟩ := svtDealloc_ok d2
        refine ⟨h3, o, by simp [e1, d1, f1], ?_⟩
        apply k.vain _ f2
        intro c hc
        rw [f3 c hc, d3 c hc]
        by_cases hcc : c = o.cur
        · rw [hcc, e2, k.cur, hnm]
          simp [svtBody]
          rw [← List.append_assoc, ← List.map_take, ← List.map_drop, ← List.map_append, List.take_append_drop]
        · rw [e4 c hcc hc, c3 c hc, svtAlloc_off h n c hc]
      | false =>
        rw [hF (by rw [h2c, (ht _).1, (ht' _).1, hth]), h2c, (ht _).2, (ht' _).2]
        obtain ⟨h1, e1, e2, e3, e4⟩ := r2 hth
        obtain ⟨h2, h3, f1, f2, f3, f4, f5⟩ := svtRetire (h := h1) (o := o) (v.items.map (if E.nothrowMove then E.moved else id)) (v.cap - v.items.length)
          (by rw [k.size, List.length_map]) (by rw [k.cap, List.length_map]; have := k.le; omega) (by rw [e2]; rfl)
        rw [k.size] at f1
        refine ⟨h3, ⟨o.inl, h.length, (v.items ++ [x]).length, n⟩, by simp [e1, f1, f2], ?_⟩
        refine k.regrown (w := ⟨n, v.items ++ [x]⟩) hn (by simp; omega) ?_ ?_ f4 f5
        · rw [f3 _ (Ne.symm hca), e3]; simp [svtBody]; omega
        · intro c h1 h2
          rw [f3 c h2, e4 c h2 h1, c3 c h1, svtAlloc_off h n c h1]

theorem SvtOk.inline_le {S : Nat} {h : CbHeap α} {o : SvtObj} {v : IdealVec α} (k : SvtOk S h o v) : S ≤ v.cap := by
  rcases k.place with ⟨_, e⟩ | ⟨_, e, _⟩ <;> omega

/-- In place: the current block has other elements now. -/
theorem SvtOk.inPlace {S : Nat} {h h' : CbHeap α} {o : SvtObj} {v : IdealVec α} (k : SvtOk S h o v) (xs : List α) (hle : xs.length ≤ v.cap)
    (hoff : SvtOff h' h o.cur) (hcur : h'[o.cur]? = some (some (svtBody ⟨v.cap, xs⟩))) :
    SvtOk S h' ⟨o.inl, o.cur, xs.length, o.cap⟩ ⟨v.cap, xs⟩ ∧ SvtLocal h (some o) h' (some ⟨o.inl, o.cur, xs.length, o.cap⟩) := by
  refine ⟨⟨rfl, k.cap, hle, hcur, ?_⟩, SvtLocal.inPlace rfl rfl hoff⟩
  rcases k.place with e | ⟨e1, e2, e3⟩
  · exact Or.inl e
  · exact Or.inr ⟨e1, e2, by rw [hoff _ (Ne.symm e1), e3]⟩

/-- `emplace_back`. -/
theorem svtPush_ok (E : SvtEnv α) {h : CbHeap α} {o : SvtObj} {v : IdealVec α} (k : SvtOk E.inlineCap h o v) (x : α) (limit : Option Nat) :
    ∃ h' o', svtPush E h o x limit = some (h', o', (v.push E.nothrowMove x limit).2.1, (v.push E.nothrowMove x limit).2.2) ∧
      SvtOk E.inlineCap h' o' (v.push E.nothrowMove x limit).1 ∧ SvtLocal h (some o) h' (some o') := by
  have hkle := k.le
  have hS := k.inline_le
  unfold svtPush IdealVec.push
  rw [k.size, k.cap]
  by_cases hlt : v.items.length < v.cap
  · rw [if_pos (by omega), if_pos hlt]
    unfold attempt
    rcases cbSpend_cases limit with ⟨hs, hl, ht⟩ | ⟨l, hs, ht⟩
    · rw [if_pos (ht 0)]
      exact ⟨h, o, by simp [hs], k, SvtLocal.refl _ _⟩
    · rw [if_neg (by rw [(ht 0).1, throws_zero]; simp), (ht 0).2, left_zero]
      obtain ⟨h', c1, c2, c3⟩ := svtConstruct_ok (h := h) (a := o.cur) (pre := v.items.map some) (rest := List.replicate (v.cap - v.items.length - 1) none) x
        (by rw [k.cur, ← List.replicate_succ]; unfold svtBody; congr 4; omega)
      rw [List.length_map] at c1
      refine ⟨h', ⟨o.inl, o.cur, (v.items ++ [x]).length, o.cap⟩, by simp [hs, c1, k.cap], ?_⟩
      exact k.inPlace (v.items ++ [x]) (by simp; omega) c3 (by rw [c2]; simp [svtBody]; omega)
  · rw [if_neg (by omega), if_neg hlt]
    have hg : svtNextCap v.cap 1 = grown v.cap 1 := rfl
    have hgt : v.cap < grown v.cap 1 := by unfold grown; omega
    rw [hg]
    exact svtReallocateAppend_ok E k (n := grown v.cap 1) (by omega) (by omega) x limit

/-- The loop that appends. -/
theorem svtPushAll_ok (E : SvtEnv α) (xs : List α) : ∀ {h : CbHeap α} {o : SvtObj} {v : IdealVec α} (_ : SvtOk E.inlineCap h o v) (limit : Option Nat),
    ∃ h' o', svtPushAll E h o xs limit = some (h', o', (v.pushAll E.nothrowMove xs limit).2.1, (v.pushAll E.nothrowMove xs limit).2.2) ∧
      SvtOk E.inlineCap h' o' (v.pushAll E.nothrowMove xs limit).1 ∧ SvtLocal h (some o) h' (some o') := by
  induction xs with
  | nil => intro h o v k limit; exact ⟨h, o, rfl, k, SvtLocal.refl _ _⟩
  | cons x xs ih =>
    intro h o v k limit
    obtain ⟨h1, o1, e1, e2, e3⟩ := svtPush_ok E k x limit
    unfold svtPushAll IdealVec.pushAll
    rcases hp : v.push E.nothrowMove x limit with ⟨w, ok, l⟩
    rw [hp] at e1 e2
    cases ok with
    | false => exact ⟨h1, o1, by simp [e1], e2, e3⟩
    | true =>
      obtain ⟨h2, o2, f1, f2, f3⟩ := ih e2 l
      exact ⟨h2, o2, by simp [e1, f1], f2, e3.trans f3⟩

/-- `reserve`. -/
theorem svtReserve_ok (E : SvtEnv α) {h : CbHeap α} {o : SvtObj} {v : IdealVec α} (k : SvtOk E.inlineCap h o v) (n : Nat) (limit : Option Nat) :
    ∃ h' o', svtReserve E h o n limit = some (h', o', (v.reserve E.nothrowMove n limit).2.1, (v.reserve E.nothrowMove n limit).2.2) ∧
      SvtOk E.inlineCap h' o' (v.reserve E.nothrowMove n limit).1 ∧ SvtLocal h (some o) h' (some o') := by
  have hkle := k.le
  have hS := k.inline_le
  unfold svtReserve IdealVec.reserve
  rw [k.cap]
  by_cases hlt : v.cap < n
  · rw [if_pos hlt, if_pos hlt]
    have hg : svtNextCap v.cap (n - v.cap) = grown v.cap (n - v.cap) := rfl
    have hgt : v.cap < grown v.cap (n - v.cap) := by unfold grown; omega
    rw [hg]
    exact svtReallocate_ok E k (by omega) (by omega) limit
  · rw [if_neg hlt, if_neg hlt]
    exact ⟨h, o, rfl, k, SvtLocal.refl _ _⟩

theorem reserve_cap (nm : Bool) (v : IdealVec α) (n : Nat) (limit : Option Nat) (w : IdealVec α) (l : Option Nat) (h : v.reserve nm n limit = (w, true, l)) :
    n ≤ w.cap ∧ w.items = v.items := by
  unfold IdealVec.reserve at h
  split at h
  · unfold IdealVec.recap attempt at h
    split at h
    · simp at h
    · simp only [Prod.mk.injEq] at h
      rw [← h.1]
      refine ⟨?_, rfl⟩
      show n ≤ grown _ _
      unfold grown; omega
  · simp only [Prod.mk.injEq] at h
    rw [← h.1]; exact ⟨by omega, rfl⟩

theorem svtDestroySuffix {S : Nat} {h : CbHeap α} {o : SvtObj} {v : IdealVec α} (k : SvtOk S h o v) {n : Nat} (hn : n ≤ v.items.length) :
    ∃ h', svtDestroyRange h o.cur n (v.items.length - n) = some h' ∧ SvtOff h' h o.cur ∧ h'[o.cur]? = some (some (svtBody ⟨v.cap, v.items.take n⟩)) := by
  have hle := k.le
  obtain ⟨h', e1, e2, e3⟩ := svtDestroyRange_ok (h := h) (a := o.cur) (pre := (v.items.take n).map some) (rest := List.replicate (v.cap - v.items.length) none) (v.items.drop n)
    (by rw [k.cur, ← List.append_assoc, ← List.map_append, List.take_append_drop]; rfl)
  rw [List.length_map, List.length_take, Nat.min_eq_left hn, List.length_drop] at e1
  refine ⟨h', e1, e3, ?_⟩
  rw [e2, List.replicate_append_replicate]
  simp only [svtBody, List.length_take, List.length_drop]
  congr 4; omega

theorem svtFillEnd {S : Nat} {h : CbHeap α} {o : SvtObj} {v : IdealVec α} (k : SvtOk S h o v) (xs : List α) (hn : v.items.length + xs.length ≤ v.cap) (limit : Option Nat) :
    (throws limit xs.length = true → ∃ h', svtFill o.cur v.items.length h 0 xs limit = some (h', false, some 0) ∧ SvtOff h' h o.cur ∧ h'[o.cur]? = h[o.cur]?) ∧
    (throws limit xs.length = false → ∃ h', svtFill o.cur v.items.length h 0 xs limit = some (h', true, left limit xs.length) ∧ SvtOff h' h o.cur ∧
      h'[o.cur]? = some (some (svtBody ⟨v.cap, v.items ++ xs⟩))) := by
  obtain ⟨i1, i2⟩ := svtFill_ok o.cur (v.items.map some) xs [] (v.cap - v.items.length) h limit (by rw [k.cur]; rfl) (by omega)
  rw [List.length_map] at i1 i2
  refine ⟨fun ht => ?_, fun ht => ?_⟩
  · obtain ⟨h', e1, e2, e3⟩ := i1 ht
    exact ⟨h', e1, e3, by rw [e2, k.cur]; simp [svtBody]⟩
  · obtain ⟨h', e1, e2, e3⟩ := i2 ht
    exact ⟨h', e1, e3, by rw [e2]; simp [svtBody, Nat.sub_sub]⟩

theorem SvtOk.same {S : Nat} {h h' : CbHeap α} {o : SvtObj} {v : IdealVec α} (k : SvtOk S h o v) (hoff : SvtOff h' h o.cur) (hcur : h'[o.cur]? = h[o.cur]?) :
    SvtOk S h' o v ∧ SvtLocal h (some o) h' (some o) := by
  have : ∀ a : Nat, h'[a]? = h[a]? := by
    intro a
    by_cases e : a = o.cur
    · rw [e, hcur]
    · exact hoff a e
  exact ⟨k.frame (fun a _ => this a), SvtLocal.inPlace rfl rfl hoff⟩

/-- `resize`. -/
theorem svtResize_ok (E : SvtEnv α) {h : CbHeap α} {o : SvtObj} {v : IdealVec α} (k : SvtOk E.inlineCap h o v) (n : Nat) (x : α) (limit : Option Nat) :
    ∃ h' o', svtResize E h o n x limit = some (h', o', (v.resize E.nothrowMove n x limit).2) ∧
      SvtOk E.inlineCap h' o' (v.resize E.nothrowMove n x limit).1 ∧ SvtLocal h (some o) h' (some o') := by
  have hkle := k.le
  unfold svtResize IdealVec.resize
  rw [k.size]
  by_cases hn : n ≤ v.items.length
  · rw [if_pos hn, if_pos hn]
    obtain ⟨h', e1, e2, e3⟩ := svtDestroySuffix k hn
    obtain ⟨i1, i2⟩ := k.inPlace (v.items.take n) (by simp; omega) e2 e3
    rw [List.length_take, Nat.min_eq_left hn] at i1 i2
    exact ⟨h', _, by simp [e1], i1, i2⟩
  · rw [if_neg hn, if_neg hn]
    obtain ⟨h1, o1, e1, e2, e3⟩ := svtReserve_ok E k n limit
    rcases hp : v.reserve E.nothrowMove n limit with ⟨w, ok, l⟩
    rw [hp] at e1 e2
    simp only at e1 e2
    cases ok with
    | false => exact ⟨h1, o1, by simp [e1], e2, e3⟩
    | true =>
      obtain ⟨hc, hi⟩ := reserve_cap _ _ _ _ _ _ hp
      obtain ⟨i1, i2⟩ := svtFillEnd e2 (List.replicate (n - v.items.length) x) (by rw [hi, List.length_replicate]; omega) l
      rw [List.length_replicate] at i1 i2
      rw [e1]
      simp only [Option.bind_eq_bind, Option.bind_some]
      rw [e2.size, hi] at *
      cases ht : throws l (n - v.items.length) with
      | true =>
        obtain ⟨h2, f1, f2, f3⟩ := i1 ht
        obtain ⟨j1, j2⟩ := e2.same f2 f3
        refine ⟨h2, o1, ?_, j1, e3.trans j2⟩
        simp [f1]
      | false =>
        obtain ⟨h2, f1, f2, f3⟩ := i2 ht
        obtain ⟨j1, j2⟩ := e2.inPlace (v.items ++ List.replicate (n - v.items.length) x) (by simp; omega) f2 (by rw [f3])
        refine ⟨h2, _, ?_, j1, e3.trans j2⟩
        have : v.items.length + (n - v.items.length) = n := by omega
        simp [f1, this]

end Gapp.Model
