import Verif.Proofs.SmallVectorRep
/-!
# Adding elements to a vector
-/

namespace Gapp.Model

/-- Arithmetic on lengths of lists. -/
macro "somega" : tactic => `(tactic| first | omega | (simp; done) | (simp; omega))

variable {α : Type}

/-- The value of an argument when the function is called. -/
def argVal (xs : List α) : SVArg α → Option α
  | .ext a => some a
  | .own i => xs[i]?

theorem argIs_of_rep {E : SVEnv α} {v : SVec α} {xs : List α} (h : SVRep E v xs) {arg : SVArg α} {a : α}
    (ha : argVal xs arg = some a) : argIs (svRegion E v) arg a := by
  cases arg with
  | ext b => exact Option.some.inj ha
  | own i =>
    have hi : i < xs.length := (List.getElem?_eq_some_iff.mp ha).1
    exact ⟨lt_of_lt_of_le hi (rep_region_cap h), by rw [h.live i hi]; exact ha⟩

theorem svPushBack_out {E : SVEnv α} (hE : SVEnvOk E) {v : SVec α} {xs : List α} (h : SVRep E v xs) (arg : SVArg α) (a : α)
    (ha : argVal xs arg = some a) : SVOut E (svPushBack E v arg) (xs ++ [a]) (xs.length + 1) := by
  have hfit := h.fit
  unfold svCap at hfit
  have harg := argRead_ok _ _ _ (argIs_of_rep h ha)
  unfold svPushBack
  split
  · rename_i hne
    unfold svCap at hne
    rw [h.size] at hne ⊢
    rw [harg, ok_bind, regConstruct_ok E _ _ a (by omega) (fun ht => h.raw ht _ le_rfl), ok_bind]
    refine SVOut.ok (rep_put h _ (xs ++ [a]) _ (by simp) rfl (by somega) ?_ ?_)
    · intro k hk
      simp only [List.length_append, List.length_cons, List.length_nil] at hk
      show upd _ _ _ k = _
      by_cases hkx : k = xs.length
      · subst hkx; rw [upd_same]; simp
      · rw [upd_ne _ _ hkx, h.live k (by omega), List.getElem?_append_left (by omega)]
    · intro ht k hk
      simp only [List.length_append, List.length_cons, List.length_nil] at hk
      show upd _ _ _ k = _
      rw [upd_ne _ _ (by omega)]
      exact h.raw ht k (by omega)
  · rename_i hne
    unfold svCap at hne
    rcases svNextCap_out E (svCap E v) 1 h.capMax with ⟨c, e, h1, h2⟩ | ⟨e, h1⟩
    · rw [e, ok_bind]
      unfold svCap at h1
      have hs := hE.slack_le c h2
      unfold svReallocateAppend
      rw [regAlloc_ok E hE c h2, ok_bind, harg, ok_bind, h.size,
        regConstruct_ok E _ _ a (by dsimp only; omega) (by intros; rfl), ok_bind,
        regRelocate_ok E xs _ _ 0 0 (by omega) (by dsimp only; omega)
          (by intro k hk; rw [Nat.zero_add]; exact h.live k hk)
          (by intro _ k h1 h2; dsimp only; rw [upd_ne _ _ (by omega)]), ok_bind]
      dsimp only
      rw [regDestroyRange_ok E xs.length _ 0 (by dsimp only; omega)
        (by intro ht k h1 h2; dsimp only; apply cput_isSome; intro hk; exfalso; apply hk; simp; omega), ok_bind]
      refine Or.inl (rep_adopt h _ _ (xs ++ [a]) _ (by simp)
        (cdel_all E (svRegion E v).cells _ _ (fun k hk => cput_out _ _ _ _ (by somega)) h.raw) (by somega)
        (by dsimp only; omega) ?_ ?_)
      · intro k hk
        simp only [List.length_append, List.length_cons, List.length_nil] at hk
        dsimp only
        by_cases hkx : k = xs.length
        · subst hkx; rw [cput_out _ _ _ _ (by omega), upd_same]; simp
        · rw [cput_at _ _ _ _ (by omega), List.getElem?_append_left (by omega)]; rfl
      · intro ht k hk
        simp only [List.length_append, List.length_cons, List.length_nil] at hk
        dsimp only
        rw [cput_out _ _ _ _ (by omega), upd_ne _ _ (by omega)]
    · rw [e, err_bind]
      refine Or.inr ⟨rfl, ?_⟩
      have := h.size
      unfold svCap at h1
      omega

theorem svPushAll_out {E : SVEnv α} (hE : SVEnvOk E) : ∀ (ys : List α) (v : SVec α) (xs : List α), SVRep E v xs →
    SVOut E (svPushAll E v ys) (xs ++ ys) (xs.length + ys.length)
  | [], v, xs, h => by rw [List.append_nil]; exact SVOut.ok h
  | y :: ys, v, xs, h => by
    unfold svPushAll
    refine SVOut.bind (svPushBack_out hE h (.ext y) y rfl) (fun w hw => ?_) (by simp)
    have := svPushAll_out hE ys w _ hw
    rw [List.append_assoc] at this
    refine this.mono ?_
    simp; omega

/-- The elements from `i` on. -/
theorem rep_drop {E : SVEnv α} {v : SVec α} {xs : List α} (h : SVRep E v xs) (i : Nat) :
    ∀ k < (xs.drop i).length, (svRegion E v).cells (i + k) = (xs.drop i)[k]? := by
  intro k hk
  rw [List.length_drop] at hk
  rw [h.live _ (by omega), List.getElem?_drop]

theorem rep_take {E : SVEnv α} {v : SVec α} {xs : List α} (h : SVRep E v xs) (i : Nat) :
    ∀ k < (xs.take i).length, (svRegion E v).cells (0 + k) = (xs.take i)[k]? := by
  intro k hk
  rw [List.length_take] at hk
  rw [Nat.zero_add, h.live _ (by omega), List.getElem?_take, if_pos (by omega)]

theorem svEmplace_out {E : SVEnv α} (hE : SVEnvOk E) {v : SVec α} {xs : List α} (h : SVRep E v xs) (pos : Nat)
    (hp : pos ≤ xs.length) (arg : SVArg α) (a : α) (ha : argVal xs arg = some a) :
    SVOut E (svEmplace E v pos arg) (xs.take pos ++ a :: xs.drop pos) (xs.length + 1) := by
  have hfit := h.fit
  unfold svCap at hfit
  have harg := argRead_ok _ _ _ (argIs_of_rep h ha)
  have hlen : (xs.take pos ++ a :: xs.drop pos).length = xs.length + 1 := by simp; omega
  unfold svEmplace
  split
  · rename_i hne
    split
    · rename_i hps
      have : xs.take pos ++ a :: xs.drop pos = xs ++ [a] := by
        rw [hps, h.size, List.take_length, List.drop_length]
      rw [this]
      exact svPushBack_out hE h arg a ha
    · rename_i hps
      unfold svCap at hne
      rw [h.size] at hne hps ⊢
      have hlast : (svRegion E v).cells (xs.length - 1) = some xs[xs.length - 1] := by
        rw [h.live _ (by omega), List.getElem?_eq_getElem (by omega)]
      rw [harg, ok_bind, regMoveOut_ok E _ _ _ (by omega) hlast, ok_bind]
      dsimp only
      rw [regConstruct_ok E _ _ _ (by dsimp only; omega) (fun ht => by
        dsimp only; rw [upd_ne _ _ (by omega)]; exact h.raw ht _ le_rfl), ok_bind]
      dsimp only
      obtain ⟨r, er, hcap, hi, hmov, hout⟩ := regShiftRight_ok E (xs.length - pos - 1)
        ⟨(svRegion E v).cap, upd (upd (svRegion E v).cells (xs.length - 1) (some (E.moved xs[xs.length - 1]))) xs.length
          (some xs[xs.length - 1])⟩ pos (by dsimp only; omega)
        (by
          intro k h1 h2
          dsimp only
          rw [upd_ne _ _ (by omega)]
          by_cases hk : k = xs.length - 1
          · rw [hk, upd_same]; rfl
          · rw [upd_ne _ _ hk]; exact rep_isSome h k (by omega))
      rw [er, ok_bind, regAssign_ok _ _ _ (by rw [hcap]; dsimp only; omega) hi, ok_bind]
      refine SVOut.ok (rep_put h _ _ _ hlen.symm hcap (by rw [hlen]; omega) ?_ ?_)
      · intro k hk
        rw [hlen] at hk
        dsimp only
        rcases Nat.lt_trichotomy k pos with hkp | hkp | hkp
        · rw [upd_ne _ _ (by omega), hout k (by omega)]
          dsimp only
          rw [upd_ne _ _ (by omega), upd_ne _ _ (by omega), h.live k (by omega),
            List.getElem?_append_left (by somega), List.getElem?_take, if_pos hkp]
        · subst hkp
          rw [upd_same, List.getElem?_append_right (by simp)]
          simp [Nat.min_eq_left hp]
        · have e : (xs.take pos ++ a :: xs.drop pos)[k]? = xs[k - 1]? := by
            rw [List.getElem?_append_right (by somega), List.length_take, Nat.min_eq_left hp,
              show k - pos = (k - 1 - pos) + 1 from by omega, List.getElem?_cons_succ, List.getElem?_drop]
            congr 1; omega
          rw [e, upd_ne _ _ (by omega)]
          by_cases hkx : k = xs.length
          · rw [hout k (by omega)]
            dsimp only
            rw [hkx, upd_same, List.getElem?_eq_getElem (by omega)]
          · have := hmov (k - 1) (by omega) (by omega)
            rw [show k - 1 + 1 = k from by omega] at this
            rw [this]
            dsimp only
            rw [upd_ne _ _ (by omega), upd_ne _ _ (by omega), h.live _ (by omega)]
      · intro ht k hk
        rw [hlen] at hk
        dsimp only
        rw [upd_ne _ _ (by omega), hout k (by omega)]
        dsimp only
        rw [upd_ne _ _ (by omega), upd_ne _ _ (by omega)]
        exact h.raw ht k (by omega)
  · rename_i hne
    unfold svCap at hne
    rcases svNextCap_out E (svCap E v) 1 h.capMax with ⟨c, e, h1, h2⟩ | ⟨e, h1⟩
    · rw [e, ok_bind]
      unfold svCap at h1
      have hs := hE.slack_le c h2
      have hlt : (xs.take pos).length = pos := by simp [hp]
      have hld : (xs.drop pos).length = xs.length - pos := by simp
      have r1 := regRelocate_ok E (xs.take pos) (svRegion E v)
        ⟨c + E.slack c, upd (fun _ => none) pos (some a)⟩ 0 0 (by omega) (by dsimp only; omega) (rep_take h pos)
        (by intro _ k h1 h2; dsimp only; rw [upd_ne _ _ (by omega)])
      rw [hlt] at r1
      have r2 := regRelocate_ok E (xs.drop pos) ⟨(svRegion E v).cap, cput (svRegion E v).cells 0 ((xs.take pos).map E.moved)⟩
        ⟨c + E.slack c, cput (upd (fun _ => none) pos (some a)) 0 (xs.take pos)⟩ pos (pos + 1) (by dsimp only; omega)
        (by dsimp only; omega)
        (by intro k hk; dsimp only; rw [cput_out _ _ _ _ (by somega)]; exact rep_drop h pos k hk)
        (by intro _ k h1 h2; dsimp only; rw [cput_out _ _ _ _ (by omega), upd_ne _ _ (by omega)])
      rw [hld] at r2
      unfold svReallocateEmplace
      rw [regAlloc_ok E hE c h2, ok_bind, harg, ok_bind, h.size,
        regConstruct_ok E _ _ a (by dsimp only; omega) (by intros; rfl), ok_bind, r1, ok_bind]
      dsimp only
      rw [r2, ok_bind]
      dsimp only
      rw [regDestroyRange_ok E xs.length _ 0 (by dsimp only; omega)
        (by
          intro ht k h1 h2
          dsimp only
          apply cput_isSome
          intro hk
          apply cput_isSome
          intro hk'
          exfalso
          simp only [List.length_map, hlt, hld] at hk hk'
          omega), ok_bind]
      refine Or.inl (rep_adopt h _ _ _ _ hlen.symm
        (cdel_all E (svRegion E v).cells _ _ (fun k hk => by
          dsimp only
          rw [cput_out _ _ _ _ (by somega), cput_out _ _ _ _ (by somega)]) h.raw) (by rw [hlen]; dsimp only; omega)
        (by dsimp only; omega) ?_ ?_)
      · intro k hk
        rw [hlen] at hk
        dsimp only
        rcases Nat.lt_trichotomy k pos with hkp | hkp | hkp
        · rw [cput_out _ _ _ _ (by omega), cput_at _ _ _ _ (by omega), List.getElem?_append_left (by omega)]
          rfl
        · subst hkp
          rw [cput_out _ _ _ _ (by omega), cput_out _ _ _ _ (by omega), upd_same, List.getElem?_append_right (by omega)]
          simp [hlt]
        · rw [cput_at _ _ _ _ (by omega), List.getElem?_append_right (by omega), hlt,
            show k - pos = (k - (pos + 1)) + 1 from by omega, List.getElem?_cons_succ]
      · intro ht k hk
        rw [hlen] at hk
        dsimp only
        rw [cput_out _ _ _ _ (by omega), cput_out _ _ _ _ (by omega), upd_ne _ _ (by omega)]
    · rw [e, err_bind]
      refine Or.inr ⟨rfl, ?_⟩
      have := h.size
      unfold svCap at h1
      omega

/-- The reallocating insertion of `vals`, which do not depend on the elements that were moved. -/
theorem svReallocateInsert_out {E : SVEnv α} (hE : SVEnvOk E) {v : SVec α} {xs : List α} (h : SVRep E v xs) (pos : Nat)
    (hp : pos ≤ xs.length) (c : Nat) (ys : List α) (hc : svCap E v + ys.length ≤ c) (hm : c ≤ E.maxSize)
    (vals : Region α → Except SVErr (List α))
    (hv : vals ⟨(svRegion E v).cap, cput (svRegion E v).cells 0 ((xs.take pos).map E.moved)⟩ = .ok ys) :
    ∃ w, svReallocateInsert E v c pos vals = .ok w ∧ SVRep E w (xs.take pos ++ ys ++ xs.drop pos) := by
  have hfit := h.fit
  unfold svCap at hfit hc
  have hlen : (xs.take pos ++ ys ++ xs.drop pos).length = xs.length + ys.length := by simp; omega
  have hs := hE.slack_le c hm
  have hlt : (xs.take pos).length = pos := by simp [hp]
  have hld : (xs.drop pos).length = xs.length - pos := by simp
  have r1 := regRelocate_ok E (xs.take pos) (svRegion E v)
    ⟨c + E.slack c, fun _ => none⟩ 0 0 (by omega) (by dsimp only; omega) (rep_take h pos) (by intros; rfl)
  rw [hlt] at r1
  have r2 := regRelocate_ok E (xs.drop pos) ⟨(svRegion E v).cap, cput (svRegion E v).cells 0 ((xs.take pos).map E.moved)⟩
    ⟨c + E.slack c, cput (cput (fun _ => none) 0 (xs.take pos)) pos ys⟩ pos (pos + ys.length) (by dsimp only; omega)
    (by dsimp only; omega)
    (by intro k hk; dsimp only; rw [cput_out _ _ _ _ (by somega)]; exact rep_drop h pos k hk)
    (by intro _ k h1 h2; dsimp only; rw [cput_out _ _ _ _ (by omega), cput_out _ _ _ _ (by omega)])
  rw [hld] at r2
  unfold svReallocateInsert
  rw [regAlloc_ok E hE c hm, ok_bind, r1, ok_bind]
  dsimp only
  rw [hv, ok_bind, regConstructRange_ok E ys _ _ (by dsimp only; omega)
    (by intro _ k h1 h2; dsimp only; rw [cput_out _ _ _ _ (by omega)]), ok_bind, h.size, r2, ok_bind]
  dsimp only
  rw [regDestroyRange_ok E xs.length _ 0 (by dsimp only; omega)
    (by
      intro ht k h1 h2
      dsimp only
      apply cput_isSome
      intro hk
      apply cput_isSome
      intro hk'
      exfalso
      simp only [List.length_map, hlt, hld] at hk hk'
      omega), ok_bind]
  refine rep_adopt h _ _ _ _ hlen.symm
    (cdel_all E (svRegion E v).cells _ _ (fun k hk => by
      dsimp only
      rw [cput_out _ _ _ _ (by somega), cput_out _ _ _ _ (by somega)]) h.raw) (by rw [hlen]; dsimp only; omega)
    (by dsimp only; omega) ?_ ?_
  · intro k hk
    rw [hlen] at hk
    dsimp only
    by_cases h1 : k < pos
    · rw [cput_out _ _ _ _ (by omega), cput_out _ _ _ _ (by omega), cput_at _ _ _ _ (by omega), List.append_assoc,
        List.getElem?_append_left (by omega)]
      rfl
    · by_cases h2 : k < pos + ys.length
      · rw [cput_out _ _ _ _ (by omega), cput_at _ _ _ _ (by omega), List.append_assoc,
          List.getElem?_append_right (by omega), List.getElem?_append_left (by omega), hlt]
      · rw [cput_at _ _ _ _ (by omega), List.getElem?_append_right (by somega), List.length_append, hlt]
  · intro ht k hk
    rw [hlen] at hk
    dsimp only
    rw [cput_out _ _ _ _ (by omega), cput_out _ _ _ _ (by omega), cput_out _ _ _ _ (by omega)]

/-- The cells after an insertion of `ys` at `m` in place, where at most `ys.length` elements follow. -/
theorem rep_inserted {E : SVEnv α} {v : SVec α} {xs : List α} (h : SVRep E v xs) (m : Nat) (ys : List α) (hm : m ≤ xs.length)
    (htail : xs.length - m ≤ ys.length) (hcap : xs.length + ys.length ≤ (svRegion E v).cap) :
    SVRep E (svPut v ⟨(svRegion E v).cap, cput (cput (cput (cput (svRegion E v).cells xs.length (ys.drop (xs.length - m))) m
      ((xs.drop m).map E.moved)) (m + ys.length) (xs.drop m)) m (ys.take (xs.length - m))⟩ (xs.length + ys.length))
      (xs.take m ++ ys ++ xs.drop m) := by
  have hlen : (xs.take m ++ ys ++ xs.drop m).length = xs.length + ys.length := by simp; omega
  have hlt : (xs.take m).length = m := by simp [hm]
  have hld : (xs.drop m).length = xs.length - m := by simp
  have hyt : (ys.take (xs.length - m)).length = xs.length - m := by simp [htail]
  have hyd : (ys.drop (xs.length - m)).length = ys.length - (xs.length - m) := by simp
  have hmd : ((xs.drop m).map E.moved).length = xs.length - m := by simp
  refine rep_put h _ _ _ hlen.symm rfl (by rw [hlen]; omega) ?_ ?_
  · intro k hk
    rw [hlen] at hk
    dsimp only
    by_cases h1 : k < m
    · rw [cput_out _ _ _ _ (by omega), cput_out _ _ _ _ (by omega), cput_out _ _ _ _ (by omega), cput_out _ _ _ _ (by omega),
        h.live k (by omega), List.append_assoc, List.getElem?_append_left (by omega), List.getElem?_take, if_pos h1]
    · by_cases h2 : k < m + ys.length
      · rw [List.append_assoc, List.getElem?_append_right (by omega), List.getElem?_append_left (by omega), hlt]
        by_cases h3 : k < xs.length
        · rw [cput_at _ _ _ _ (by omega), List.getElem?_take, if_pos (by omega)]
        · rw [cput_out _ _ _ _ (by omega), cput_out _ _ _ _ (by omega), cput_out _ _ _ _ (by omega),
            cput_at _ _ _ _ (by omega), List.getElem?_drop]
          congr 1; omega
      · rw [cput_out _ _ _ _ (by omega), cput_at _ _ _ _ (by omega), List.getElem?_append_right (by somega),
          List.length_append, hlt]
  · intro ht k hk
    rw [hlen] at hk
    dsimp only
    rw [cput_out _ _ _ _ (by omega), cput_out _ _ _ _ (by omega), cput_out _ _ _ _ (by omega), cput_out _ _ _ _ (by omega)]
    exact h.raw ht k (by omega)

/-- Insertion in place puts the values at `max (size - count) pos`, which is not always `pos`. -/
theorem svInsertRange_inplace {E : SVEnv α} {v : SVec α} {xs : List α} (h : SVRep E v xs) (pos : Nat)
    (hp : pos ≤ xs.length) (ys : List α) (hroom : xs.length + ys.length ≤ svCap E v) :
    ∃ w, svInsertRange E v pos ys = .ok w ∧
      SVRep E w (xs.take (max (xs.length - ys.length) pos) ++ ys ++ xs.drop (max (xs.length - ys.length) pos)) := by
  unfold svCap at hroom
  have hm : max (xs.length - ys.length) pos ≤ xs.length := by omega
  have htail : xs.length - max (xs.length - ys.length) pos ≤ ys.length := by omega
  refine ⟨_, ?_, rep_inserted h _ ys hm htail hroom⟩
  generalize hmd : max (xs.length - ys.length) pos = m at *
  have hld : (xs.drop m).length = xs.length - m := by simp
  have hyt : (ys.take (xs.length - m)).length = xs.length - m := by simp [htail]
  have hyd : (ys.drop (xs.length - m)).length = ys.length - (xs.length - m) := by simp
  have r2 := regRelocateIn_ok E (xs.drop m) ⟨(svRegion E v).cap, cput (svRegion E v).cells xs.length (ys.drop (xs.length - m))⟩
    m (m + ys.length) (by omega) (by dsimp only; omega)
    (by intro k hk; dsimp only; rw [cput_out _ _ _ _ (by omega)]; exact rep_drop h m k hk)
    (by intro ht k h1 h2; dsimp only; rw [cput_out _ _ _ _ (by omega)]; exact h.raw ht k (by omega))
  rw [hld] at r2
  unfold svInsertRange
  rw [if_pos (by unfold svCap; rw [h.size]; omega)]
  dsimp only
  rw [h.size, hmd, regConstructRange_ok E _ _ _ (by omega) (fun ht k h1 h2 => h.raw ht k (by omega)), ok_bind, r2, ok_bind,
    regAssignRange_ok _ _ _ (by dsimp only; omega)
    (by
      intro k h1 h2
      dsimp only
      apply cput_isSome; intro _
      apply cput_isSome; intro hk
      exfalso
      simp only [List.length_map] at hk
      omega), ok_bind]

theorem svInsertN_inplace {E : SVEnv α} {v : SVec α} {xs : List α} (h : SVRep E v xs) (pos : Nat)
    (hp : pos ≤ xs.length) (n : Nat) (a : α) (hroom : xs.length + n ≤ svCap E v) :
    ∃ w, svInsertN E v pos n (.ext a) = .ok w ∧
      SVRep E w (xs.take (max (xs.length - n) pos) ++ List.replicate n a ++ xs.drop (max (xs.length - n) pos)) := by
  unfold svCap at hroom
  have hm : max (xs.length - n) pos ≤ xs.length := by omega
  have htail : xs.length - max (xs.length - n) pos ≤ n := by omega
  have hrep := rep_inserted h _ (List.replicate n a) hm (by simpa using htail) (by simpa using hroom)
  refine ⟨_, ?_, hrep⟩
  generalize hmd : max (xs.length - n) pos = m at *
  have hld : (xs.drop m).length = xs.length - m := by simp
  have hyt : (List.replicate n a).take (xs.length - m) = List.replicate (xs.length - m) a := by
    rw [List.take_replicate, Nat.min_eq_left htail]
  have hyd : (List.replicate n a).drop (xs.length - m) = List.replicate (n - (xs.length - m)) a := List.drop_replicate
  have e : m + n - xs.length = n - (xs.length - m) := by omega
  have r2 := regRelocateIn_ok E (xs.drop m)
    ⟨(svRegion E v).cap, cput (svRegion E v).cells xs.length (List.replicate (n - (xs.length - m)) a)⟩
    m (m + n) (by omega) (by dsimp only; omega)
    (by intro k hk; dsimp only; rw [cput_out _ _ _ _ (by omega)]; exact rep_drop h m k hk)
    (by intro ht k h1 h2; dsimp only; rw [cput_out _ _ _ _ (by somega)]; exact h.raw ht k (by omega))
  rw [hld] at r2
  rw [hyt, hyd, List.length_replicate]
  unfold svInsertN
  rw [if_pos (by unfold svCap; rw [h.size]; omega)]
  dsimp only
  rw [h.size, hmd, e, regConstructArg_ok E (.ext a) a _ _ _ rfl (by omega) (fun ht k h1 h2 => h.raw ht k (by omega)), ok_bind,
    r2, ok_bind, regAssignArg_ok (.ext a) a _ _ _ rfl (by dsimp only; omega)
    (by
      intro k h1 h2
      dsimp only
      apply cput_isSome; intro _
      apply cput_isSome; intro hk
      exfalso
      simp only [List.length_map] at hk
      omega), ok_bind]

theorem svInsertRange_out {E : SVEnv α} (hE : SVEnvOk E) {v : SVec α} {xs : List α} (h : SVRep E v xs) (pos : Nat)
    (hp : pos ≤ xs.length) (ys : List α) (hsafe : xs.length ≤ pos + ys.length ∨ svCap E v < xs.length + ys.length) :
    SVOut E (svInsertRange E v pos ys) (xs.take pos ++ ys ++ xs.drop pos) (svCap E v + ys.length) := by
  by_cases hroom : xs.length + ys.length ≤ svCap E v
  · obtain ⟨w, e, hw⟩ := svInsertRange_inplace h pos hp ys hroom
    rw [Nat.max_eq_right (by omega)] at hw
    exact Or.inl ⟨w, e, hw⟩
  · unfold svInsertRange
    have hfit := h.fit
    rw [if_neg (by rw [h.size]; omega)]
    rcases svNextCap_out E (svCap E v) ys.length h.capMax with ⟨c, e, h1, h2⟩ | ⟨e, h1⟩
    · rw [e, ok_bind]
      exact Or.inl (svReallocateInsert_out hE h pos hp c ys h1 h2 _ rfl)
    · rw [e, err_bind]; exact Or.inr ⟨rfl, h1⟩

theorem svInsertN_out {E : SVEnv α} (hE : SVEnvOk E) {v : SVec α} {xs : List α} (h : SVRep E v xs) (pos : Nat)
    (hp : pos ≤ xs.length) (n : Nat) (a : α) (hsafe : xs.length ≤ pos + n ∨ svCap E v < xs.length + n) :
    SVOut E (svInsertN E v pos n (.ext a)) (xs.take pos ++ List.replicate n a ++ xs.drop pos) (svCap E v + n) := by
  by_cases hroom : xs.length + n ≤ svCap E v
  · obtain ⟨w, e, hw⟩ := svInsertN_inplace h pos hp n a hroom
    rw [Nat.max_eq_right (by omega)] at hw
    exact Or.inl ⟨w, e, hw⟩
  · unfold svInsertN
    have hfit := h.fit
    rw [if_neg (by rw [h.size]; omega)]
    rcases svNextCap_out E (svCap E v) n h.capMax with ⟨c, e, h1, h2⟩ | ⟨e, h1⟩
    · rw [e, ok_bind]
      refine Or.inl (svReallocateInsert_out hE h pos hp c (List.replicate n a) (by simpa using h1) h2 _ ?_)
      unfold argCopies
      split
      · rename_i h0; rw [h0]; rfl
      · rfl
    · rw [e, err_bind]; exact Or.inr ⟨rfl, h1⟩

theorem svInsertInput_out {E : SVEnv α} (hE : SVEnvOk E) {v : SVec α} {xs : List α} (h : SVRep E v xs) (pos : Nat)
    (hp : pos ≤ xs.length) (ys : List α) :
    SVOut E (svInsertInput E v pos ys) (xs.take pos ++ ys ++ xs.drop pos) (xs.length + ys.length) := by
  unfold svInsertInput
  refine SVOut.bind (svPushAll_out hE ys v xs h) (fun w hw => ?_) le_rfl
  have hfit := hw.fit
  unfold svCap at hfit
  rw [List.length_append] at hfit
  have hd : (xs ++ ys).drop pos = xs.drop pos ++ ys := List.drop_append_of_le_length hp
  have hdl : (xs.drop pos ++ ys).length = w.size - pos := by rw [hw.size]; simp; omega
  have e := regList_ok (xs.drop pos ++ ys) (svRegion E w) pos (by somega)
    (by rw [← hd]; exact rep_drop hw pos)
  rw [hdl] at e
  have hdx : v.size - pos = (xs.drop pos).length := by rw [h.size]; simp
  rw [e, ok_bind, hdx, List.drop_left, List.take_left, regAssignRange_ok _ _ _ (by somega)
    (by
      intro k h1 h2
      apply rep_isSome hw
      simp at h2 ⊢
      omega), ok_bind]
  have hlen : (xs.take pos ++ ys ++ xs.drop pos).length = xs.length + ys.length := by simp; omega
  refine SVOut.ok (rep_put hw _ _ _ (by rw [hw.size, hlen]; simp) rfl (by rw [hlen]; omega) ?_ ?_)
  · intro k hk
    rw [hlen] at hk
    dsimp only
    rw [List.append_assoc]
    by_cases h1 : k < pos
    · rw [cput_out _ _ _ _ (by omega), hw.live k (by somega), List.getElem?_append_left (by omega),
        List.getElem?_append_left (by somega), List.getElem?_take, if_pos h1]
    · rw [cput_at _ _ _ _ (by somega), List.getElem?_append_right (l₁ := xs.take pos) (by somega), List.length_take,
        Nat.min_eq_left hp]
  · intro ht k hk
    rw [hlen] at hk
    dsimp only
    rw [cput_out _ _ _ _ (by somega)]
    exact hw.raw ht k (by somega)

end Gapp.Model
