import Verif.Proofs.SmallVectorAdd
/-!
# The other operations of a vector
-/

namespace Gapp.Model

variable {α : Type}

/-- The elements from `n` on are destroyed. -/
theorem rep_shorten {E : SVEnv α} {v : SVec α} {xs : List α} (h : SVRep E v xs) (f : Nat → Option α) (ys : List α) (m : Nat)
    (hle : ys.length ≤ xs.length) (hm : m = xs.length - ys.length) (hf : ∀ k < ys.length, f k = ys[k]?)
    (hout : ∀ k, xs.length ≤ k → f k = (svRegion E v).cells k) :
    SVRep E (svPut v ⟨(svRegion E v).cap, cdel E f ys.length m⟩ ys.length) ys := by
  have hfit := h.fit
  unfold svCap at hfit
  refine rep_put h _ ys _ rfl rfl (by omega) ?_ ?_
  · intro k hk
    show cdel E f ys.length m k = _
    unfold cdel
    rw [if_neg (by omega)]
    exact hf k hk
  · intro ht k hk
    show cdel E f ys.length m k = _
    unfold cdel
    by_cases hkx : k < xs.length
    · rw [if_pos ⟨ht, hk, by omega⟩]
    · rw [if_neg (by omega), hout k (by omega)]
      exact h.raw ht k (by omega)

theorem svClear_out {E : SVEnv α} {v : SVec α} {xs : List α} (h : SVRep E v xs) :
    ∃ w, svClear E v = .ok w ∧ SVRep E w [] := by
  have hfit := h.fit
  unfold svCap at hfit
  unfold svClear
  rw [h.size, regDestroyRange_ok E _ _ 0 (by omega) (fun _ k _ hk => rep_isSome h k (by omega)), ok_bind]
  exact ⟨_, rfl, rep_shorten h _ [] _ (Nat.zero_le _) rfl (fun k hk => absurd hk (Nat.not_lt_zero _)) (fun _ _ => rfl)⟩

theorem svReset_out {E : SVEnv α} (hE : SVEnvOk E) {v : SVec α} {xs : List α} (h : SVRep E v xs) :
    ∃ w, svReset E v = .ok w ∧ SVRep E w [] ∧ w.heap = none := by
  have hfit := h.fit
  unfold svCap at hfit
  have hraw : E.trivial = false → ∀ k, cdel E (svRegion E v).cells 0 xs.length k = none :=
    cdel_all E (svRegion E v).cells _ _ (fun _ _ => rfl) h.raw
  unfold svReset
  rw [h.size, regDestroyRange_ok E _ _ 0 (by omega) (fun _ k _ hk => rep_isSome h k (by omega)), ok_bind]
  have hr := h.raw
  have hb := h.buf
  cases hh : v.heap with
  | none =>
    refine ⟨_, rfl, ⟨rfl, Nat.zero_le _, hE.inline_le, fun k hk => absurd hk (Nat.not_lt_zero _), ?_, fun _ hk => ?_⟩, rfl⟩
    · intro ht k _; exact hraw ht k
    · simp at hk
  | some r0 =>
    dsimp only
    rw [regFree_ok E _ (fun ht k _ => hraw ht k), ok_bind]
    refine ⟨_, rfl, ⟨rfl, Nat.zero_le _, hE.inline_le, fun k hk => absurd hk (Nat.not_lt_zero _), ?_, fun _ hk => ?_⟩, rfl⟩
    · intro ht k _; exact hb ht (by rw [hh]; rfl) k
    · simp at hk

theorem svDestroy_out {E : SVEnv α} (hE : SVEnvOk E) {v : SVec α} {xs : List α} (h : SVRep E v xs) :
    svDestroy E v = .ok () := by
  obtain ⟨w, e, hw, _⟩ := svReset_out hE h
  unfold svDestroy
  rw [e, ok_bind]
  exact regFree_ok E _ (fun ht k _ => hw.raw ht k (Nat.zero_le _))

theorem svErase_out {E : SVEnv α} {v : SVec α} {xs : List α} (h : SVRep E v xs) (i j : Nat) (hij : i ≤ j)
    (hj : j ≤ xs.length) : ∃ w, svErase E v i j = .ok w ∧ SVRep E w (xs.take i ++ xs.drop j) := by
  have hfit := h.fit
  unfold svCap at hfit
  have hlen : (xs.take i ++ xs.drop j).length = xs.length - (j - i) := by simp; omega
  unfold svErase regShiftLeft
  rw [h.size]
  by_cases h0 : j - i = 0
  · rw [if_pos h0, ok_bind]
    dsimp only
    have hji : j = i := by omega
    rw [Nat.sub_self]
    refine ⟨_, rfl, ?_⟩
    rw [hji, List.take_append_drop]
    exact rep_put h _ xs _ rfl rfl hfit h.live h.raw
  · rw [if_neg h0]
    by_cases h1 : xs.length - i ≤ j - i
    · rw [if_pos h1, ok_bind]
      dsimp only
      have hjl : j = xs.length := by omega
      rw [regDestroyRange_ok E _ _ _ (by omega) (fun _ k _ hk => rep_isSome h k (by omega)), ok_bind]
      have e : xs.take i ++ xs.drop j = xs.take i := by rw [hjl, List.drop_length, List.append_nil]
      have hl : (xs.take i).length = i := by simp; omega
      refine ⟨_, rfl, ?_⟩
      rw [e]
      have := rep_shorten h (svRegion E v).cells (xs.take i) (xs.length - i) (by omega) (by omega)
        (by intro k hk; rw [h.live k (by omega), List.getElem?_take, if_pos (by omega)]) (fun _ _ => rfl)
      rw [hl] at this
      exact this
    · rw [if_neg h1, show i + (j - i) = j from by omega]
      obtain ⟨r, er, hcap, hsome, hmov, hout⟩ := regMoveDown_ok E (xs.length - i - (j - i)) (svRegion E v) i j (by omega)
        (by omega) (fun k _ hk => rep_isSome h k (by omega))
      rw [er, ok_bind, ok_bind]
      dsimp only
      rw [regDestroyRange_ok E _ _ _ (by omega) (fun _ k h1 hk => hsome k (by omega) (by omega)), ok_bind, hcap]
      refine ⟨_, rfl, ?_⟩
      have := rep_shorten h r.cells (xs.take i ++ xs.drop j) (xs.length - (xs.length - (j - i))) (by omega) (by omega) ?_
        (fun k hk => hout k (by omega))
      · rw [hlen] at this
        exact this
      · intro k hk
        rw [hlen] at hk
        by_cases hki : k < i
        · rw [hout k (by omega), h.live k (by omega), List.getElem?_append_left (by somega), List.getElem?_take, if_pos hki]
        · have := hmov (k - i) (by omega)
          rw [show i + (k - i) = k from by omega] at this
          rw [this, h.live _ (by omega), List.getElem?_append_right (by somega), List.getElem?_drop, List.length_take,
            Nat.min_eq_left (by omega)]

theorem svResize_out {E : SVEnv α} (hE : SVEnvOk E) {v : SVec α} {xs : List α} (h : SVRep E v xs) (n : Nat) :
    SVOut E (svResize E v n) (xs.take n ++ List.replicate (n - xs.length) E.default) n := by
  have hfit := h.fit
  unfold svCap at hfit
  unfold svResize
  rw [h.size]
  split
  · rename_i hn
    rw [regDestroyRange_ok E _ _ _ (by omega) (fun _ k _ hk => rep_isSome h k (by omega)), ok_bind,
      show n - xs.length = 0 from by omega, List.replicate_zero, List.append_nil]
    have hl : (xs.take n).length = n := by simp; omega
    have := rep_shorten h (svRegion E v).cells (xs.take n) (xs.length - n) (by omega) (by omega)
      (by intro k hk; rw [h.live k (by omega), List.getElem?_take, if_pos (by omega)]) (fun _ _ => rfl)
    rw [hl] at this
    exact SVOut.ok this
  · rename_i hn
    rcases svReserve_out hE h n with ⟨w, e, hw, hc, -⟩ | ⟨e, hl⟩
    · unfold svCap at hc
      rw [e, ok_bind, hw.size, regConstructRange_ok E _ _ _ (by somega)
        (fun ht k hk _ => hw.raw ht k (by omega)), ok_bind, List.take_of_length_le (by omega)]
      have hlen : (xs ++ List.replicate (n - xs.length) E.default).length = n := by simp; omega
      refine SVOut.ok (rep_put hw _ _ _ hlen.symm rfl (by omega) ?_ ?_)
      · intro k hk
        rw [hlen] at hk
        dsimp only
        by_cases hkx : k < xs.length
        · rw [cput_out _ _ _ _ (by omega), hw.live k hkx, List.getElem?_append_left hkx]
        · rw [cput_at _ _ _ _ (by somega), List.getElem?_append_right (by omega)]
      · intro ht k hk
        rw [hlen] at hk
        dsimp only
        rw [cput_out _ _ _ _ (by somega)]
        exact hw.raw ht k (by omega)
    · rw [e, err_bind]; exact Or.inr ⟨rfl, hl⟩

theorem svResizeV_out {E : SVEnv α} (hE : SVEnvOk E) {v : SVec α} {xs : List α} (h : SVRep E v xs) (n : Nat) (arg : SVArg α) (a : α)
    (ha : argVal xs arg = some a) (hsafe : arg = .ext a ∨ n ≤ svCap E v) :
    SVOut E (svResizeV E v n arg) (xs.take n ++ List.replicate (n - xs.length) a) n := by
  have hfit := h.fit
  unfold svCap at hfit
  unfold svResizeV
  rw [h.size]
  split
  · rename_i hn
    rw [regDestroyRange_ok E _ _ _ (by omega) (fun _ k _ hk => rep_isSome h k (by omega)), ok_bind,
      show n - xs.length = 0 from by omega, List.replicate_zero, List.append_nil]
    have hl : (xs.take n).length = n := by simp; omega
    have := rep_shorten h (svRegion E v).cells (xs.take n) (xs.length - n) (by omega) (by omega)
      (by intro k hk; rw [h.live k (by omega), List.getElem?_take, if_pos (by omega)]) (fun _ _ => rfl)
    rw [hl] at this
    exact SVOut.ok this
  · rename_i hn
    rcases svReserve_out hE h n with ⟨w, e, hw, hc, hsame⟩ | ⟨e, hl⟩
    · have hlen : (xs ++ List.replicate (n - xs.length) a).length = n := by simp; omega
      have fin : SVRep E (svPut w ⟨(svRegion E w).cap, cput (svRegion E w).cells xs.length (List.replicate (n - xs.length) a)⟩ n)
          (xs ++ List.replicate (n - xs.length) a) := by
        unfold svCap at hc
        refine rep_put hw _ _ _ hlen.symm rfl (by omega) ?_ ?_
        · intro k hk
          rw [hlen] at hk
          dsimp only
          by_cases hkx : k < xs.length
          · rw [cput_out _ _ _ _ (by omega), hw.live k hkx, List.getElem?_append_left hkx]
          · rw [cput_at _ _ _ _ (by somega), List.getElem?_append_right (by omega)]
        · intro ht k hk
          rw [hlen] at hk
          dsimp only
          rw [cput_out _ _ _ _ (by somega)]
          exact hw.raw ht k (by omega)
      rw [e, ok_bind, hw.size, List.take_of_length_le (by omega)]
      unfold svCap at hc
      cases arg with
      | ext b =>
        have hb : b = a := Option.some.inj ha
        subst hb
        dsimp only
        rw [regConstructRange_ok E _ _ _ (by somega) (fun ht k hk _ => hw.raw ht k (by omega)), ok_bind]
        exact SVOut.ok fin
      | own i =>
        have hn' : n ≤ svCap E v := hsafe.resolve_left (by simp)
        dsimp only
        rw [if_neg (by omega)]
        have := hsame hn'
        subst this
        rw [regConstructArg_ok E (.own i) a _ _ _ (argIs_of_rep h ha) (by omega) (fun ht k hk _ => h.raw ht k (by omega)), ok_bind]
        exact SVOut.ok fin
    · rw [e, err_bind]; exact Or.inr ⟨rfl, hl⟩

/-! ## Assignment -/

theorem rep_replaced {E : SVEnv α} {v : SVec α} {xs : List α} (h : SVRep E v xs) (c : Nat) (ys : List α)
    (hc : ys.length ≤ c + E.slack c) (hm : c + E.slack c ≤ E.maxSize) :
    ∃ w, svAdopt E v ⟨(svRegion E v).cap, cdel E (svRegion E v).cells 0 xs.length⟩ ⟨c + E.slack c, cput (fun _ => none) 0 ys⟩ ys.length
      = .ok w ∧ SVRep E w ys :=
  rep_adopt h _ _ ys _ rfl (cdel_all E (svRegion E v).cells _ _ (fun _ _ => rfl) h.raw) hc hm
    (fun k hk => by dsimp only; rw [cput_at _ _ _ _ (by omega)]; rfl)
    (fun _ k hk => by dsimp only; rw [cput_out _ _ _ _ (by omega)])

/-- The cells after an assignment in place. -/
theorem rep_assigned {E : SVEnv α} {v : SVec α} {xs : List α} (h : SVRep E v xs) (ys : List α)
    (hfit : ys.length ≤ (svRegion E v).cap) :
    SVRep E (svPut v ⟨(svRegion E v).cap, cdel E (cput (cput (svRegion E v).cells 0 (ys.take (min xs.length ys.length)))
      (min xs.length ys.length) (ys.drop (min xs.length ys.length))) (min xs.length ys.length)
      (xs.length - min xs.length ys.length)⟩ ys.length) ys := by
  have hl1 : (ys.take (min xs.length ys.length)).length = min xs.length ys.length := by somega
  have hl2 : (ys.drop (min xs.length ys.length)).length = ys.length - min xs.length ys.length := by simp
  refine rep_put h _ _ _ rfl rfl hfit ?_ ?_
  · intro k hk
    dsimp only
    unfold cdel
    rw [if_neg (by omega)]
    by_cases hkx : k < min xs.length ys.length
    · rw [cput_out _ _ _ _ (by omega), cput_at _ _ _ _ (by omega), Nat.sub_zero, List.getElem?_take, if_pos hkx]
    · rw [cput_at _ _ _ _ (by omega), List.getElem?_drop]
      congr 1; omega
  · intro ht k hk
    dsimp only
    unfold cdel
    by_cases hkx : k < xs.length
    · rw [if_pos ⟨ht, by omega, by omega⟩]
    · rw [if_neg (by omega), cput_out _ _ _ _ (by omega), cput_out _ _ _ _ (by omega)]
      exact h.raw ht k (by omega)

theorem svAssignRange_out {E : SVEnv α} (hE : SVEnvOk E) {v : SVec α} {xs : List α} (h : SVRep E v xs) (ys : List α) :
    SVOut E (svAssignRange E v ys) ys (svCap E v + ys.length) := by
  have hfit := h.fit
  unfold svCap at hfit
  unfold svAssignRange
  dsimp only
  have hl1 : (ys.take (min xs.length ys.length)).length = min xs.length ys.length := by somega
  have hl2 : (ys.drop (min xs.length ys.length)).length = ys.length - min xs.length ys.length := by simp
  split
  · rename_i hn
    unfold svCap at hn
    rw [h.size, regAssignRange_ok _ _ _ (by omega) (fun k _ hk => rep_isSome h k (by omega)), ok_bind,
      regConstructRange_ok E _ _ _ (by dsimp only; omega)
        (fun ht k h1 h2 => by dsimp only; rw [cput_out _ _ _ _ (by omega)]; exact h.raw ht k (by omega)), ok_bind]
    dsimp only
    rw [regDestroyRange_ok E _ _ _ (by dsimp only; omega)
        (fun ht k h1 h2 => by
          dsimp only
          exact cput_isSome _ _ _ _ (fun _ => cput_isSome _ _ _ _ (fun _ => rep_isSome h k (by omega)))), ok_bind]
    exact SVOut.ok (rep_assigned h ys hn)
  · rename_i hn
    rw [h.size]
    rcases svNextCap_out E (svCap E v) (ys.length - xs.length) h.capMax with ⟨c, e, h1, h2⟩ | ⟨e, h1⟩
    · have hs := hE.slack_le c h2
      unfold svCap at h1 hn
      rw [e, ok_bind, regAlloc_ok E hE c h2, ok_bind, regConstructRange_ok E _ _ _ (by dsimp only; omega) (by intros; rfl), ok_bind,
        regDestroyRange_ok E _ _ 0 (by omega) (fun _ k _ hk => rep_isSome h k (by omega)), ok_bind]
      exact Or.inl (rep_replaced h c ys (by omega) hs)
    · rw [e, err_bind]; exact Or.inr ⟨rfl, by omega⟩

theorem argIs_cput {r : Region α} {arg : SVArg α} {a : α} (h : argIs r arg a) (i n : Nat) :
    argIs ⟨r.cap, cput r.cells i (List.replicate n a)⟩ arg a := by
  cases arg with
  | ext b => exact h
  | own k =>
    refine ⟨h.1, ?_⟩
    show cput r.cells i (List.replicate n a) k = some a
    unfold cput
    split
    · rename_i hk
      simp only [List.length_replicate] at hk
      rw [List.getElem?_replicate, if_pos (by omega)]
    · exact h.2

theorem svAssignN_out {E : SVEnv α} (hE : SVEnvOk E) {v : SVec α} {xs : List α} (h : SVRep E v xs) (n : Nat) (arg : SVArg α) (a : α)
    (ha : argVal xs arg = some a) :
    SVOut E (svAssignN E v n arg) (List.replicate n a) (svCap E v + n) := by
  have hfit := h.fit
  unfold svCap at hfit
  have harg := argIs_of_rep h ha
  unfold svAssignN
  dsimp only
  split
  · rename_i hn
    unfold svCap at hn
    have fin := rep_assigned h (List.replicate n a) (by simpa using hn)
    rw [List.length_replicate, List.take_replicate, List.drop_replicate,
      Nat.min_eq_left (Nat.min_le_right xs.length n)] at fin
    rw [h.size, regAssignArg_ok arg a _ _ _ harg (by omega) (fun k _ hk => rep_isSome h k (by omega)), ok_bind,
      regConstructArg_ok E arg a _ _ _ (argIs_cput harg _ _) (by dsimp only; omega)
        (fun ht k h1 h2 => by dsimp only; rw [cput_out _ _ _ _ (by somega)]; exact h.raw ht k (by omega)), ok_bind]
    dsimp only
    rw [regDestroyRange_ok E _ _ _ (by dsimp only; omega)
        (fun ht k h1 h2 => by
          dsimp only
          exact cput_isSome _ _ _ _ (fun _ => cput_isSome _ _ _ _ (fun _ => rep_isSome h k (by omega)))), ok_bind]
    exact SVOut.ok fin
  · rename_i hn
    rw [h.size]
    rcases svNextCap_out E (svCap E v) (n - xs.length) h.capMax with ⟨c, e, h1, h2⟩ | ⟨e, h1⟩
    · have hs := hE.slack_le c h2
      unfold svCap at h1 hn
      have ec : argCopies (svRegion E v) arg n = .ok (List.replicate n a) := by
        unfold argCopies
        rw [if_neg (by omega), argRead_ok _ _ _ harg]; rfl
      rw [e, ok_bind, regAlloc_ok E hE c h2, ok_bind, ec, ok_bind,
        regConstructRange_ok E _ _ _ (by dsimp only; simp; omega) (by intros; rfl), ok_bind,
        regDestroyRange_ok E _ _ 0 (by omega) (fun _ k _ hk => rep_isSome h k (by omega)), ok_bind]
      have := rep_replaced h c (List.replicate n a) (by simp; omega) hs
      rw [List.length_replicate] at this
      exact Or.inl this
    · rw [e, err_bind]; exact Or.inr ⟨rfl, by omega⟩

theorem svAssignInput_out {E : SVEnv α} (hE : SVEnvOk E) {v : SVec α} {xs : List α} (h : SVRep E v xs) (ys : List α) :
    SVOut E (svAssignInput E v ys) ys ys.length := by
  have hfit := h.fit
  unfold svCap at hfit
  unfold svAssignInput
  dsimp only
  have hl1 : (ys.take (min xs.length ys.length)).length = min xs.length ys.length := by somega
  rw [h.size, regAssignRange_ok _ _ _ (by omega) (fun k _ hk => rep_isSome h k (by omega)), ok_bind,
    regDestroyRange_ok E _ _ _ (by dsimp only; omega)
        (fun ht k h1 h2 => by
          dsimp only
          exact cput_isSome _ _ _ _ (fun _ => rep_isSome h k (by omega))), ok_bind]
  have h1 := rep_shorten h (cput (svRegion E v).cells 0 (ys.take (min xs.length ys.length)))
    (ys.take (min xs.length ys.length)) (xs.length - min xs.length ys.length) (by omega) (by omega)
    (by intro k hk; rw [cput_at _ _ _ _ (by omega)]; rfl)
    (by intro k hk; rw [cput_out _ _ _ _ (by omega)])
  rw [hl1] at h1
  have h2 := svPushAll_out hE (ys.drop (min xs.length ys.length)) _ _ h1
  rw [List.take_append_drop] at h2
  exact h2.mono (by somega)

/-! ## Constructors, moves and swaps -/

theorem svCtorRange_out {E : SVEnv α} (hE : SVEnvOk E) (ys : List α) : SVOut E (svCtorRange E ys) ys ys.length := by
  unfold svCtorRange svAllocate
  split
  · rename_i hn
    rw [ok_bind, regConstructRange_ok E ys _ _ (by rw [Nat.zero_add]; exact hn) (by intros; rfl), ok_bind]
    exact SVOut.ok (rep_put (rep_empty E hE) _ ys _ rfl rfl hn
      (fun k hk => by dsimp only; rw [cput_at _ _ _ _ (by omega)]; rfl)
      (fun _ k hk => by dsimp only; rw [cput_out _ _ _ _ (by omega)]; rfl))
  · by_cases hm : ys.length ≤ E.maxSize
    · have hs := hE.slack_le _ hm
      have h0 : SVRep E ⟨fun _ => none, some ⟨ys.length + E.slack ys.length, fun _ => none⟩, 0⟩ ([] : List α) :=
        ⟨rfl, Nat.zero_le _, hs, fun k hk => absurd hk (Nat.not_lt_zero _), by intros; rfl, by intros; rfl⟩
      rw [regAlloc_ok E hE _ hm, ok_bind, ok_bind, regConstructRange_ok E ys _ _
        (by show 0 + ys.length ≤ ys.length + E.slack ys.length; omega) (by intros; rfl), ok_bind]
      exact SVOut.ok (rep_put h0 _ ys _ rfl rfl (by show ys.length ≤ ys.length + E.slack ys.length; omega)
        (fun k hk => by dsimp only; rw [cput_at _ _ _ _ (by omega)]; rfl)
        (fun _ k hk => by dsimp only; rw [cput_out _ _ _ _ (by omega)]; rfl))
    · have : regAlloc E ys.length = .error .length := if_neg hm
      rw [this]
      exact Or.inr ⟨rfl, by omega⟩

theorem svCtorInput_out {E : SVEnv α} (hE : SVEnvOk E) (ys : List α) : SVOut E (svCtorInput E ys) ys ys.length := by
  have := svPushAll_out hE ys svEmpty [] (rep_empty E hE)
  rw [List.nil_append, List.length_nil, Nat.zero_add] at this
  exact this

theorem region_inline {E : SVEnv α} {v : SVec α} (h : v.heap = none) : svRegion E v = ⟨E.inlineCap, v.buf⟩ := by
  unfold svRegion; rw [h]

theorem region_heap {E : SVEnv α} {v : SVec α} {r : Region α} (h : v.heap = some r) : svRegion E v = r := by
  unfold svRegion; rw [h]

theorem rep_inline {E : SVEnv α} (hE : SVEnvOk E) (f : Nat → Option α) (ys : List α) (n : Nat) (hn : n = ys.length)
    (hfit : ys.length ≤ E.inlineCap)
    (hlive : ∀ k < ys.length, f k = ys[k]?) (hraw : E.trivial = false → ∀ k, ys.length ≤ k → f k = none) :
    SVRep E ⟨f, none, n⟩ ys :=
  ⟨hn, hfit, hE.inline_le, hlive, hraw, fun _ h => by simp at h⟩

theorem rep_heap {E : SVEnv α} {v : SVec α} {xs : List α} (h : SVRep E v xs) (r : Region α) (hr : v.heap = some r)
    (f : Nat → Option α) (hf : E.trivial = false → ∀ k, f k = none) : SVRep E ⟨f, some r, v.size⟩ xs := by
  obtain ⟨h1, h2, h3, h4, h5, h6⟩ := h
  unfold svCap at h2 h3
  rw [region_heap hr] at h2 h3 h4 h5
  exact ⟨h1, h2, h3, h4, h5, fun ht _ => hf ht⟩

theorem svMoveCtor_out {E : SVEnv α} (hE : SVEnvOk E) {w : SVec α} {ys : List α} (h : SVRep E w ys) :
    ∃ v' w', svMoveCtor E w = .ok (v', w') ∧ SVRep E v' ys ∧ SVRep E w' [] := by
  have hfit := h.fit
  unfold svCap at hfit
  unfold svMoveCtor
  cases hh : w.heap with
  | none =>
    have hreg := region_inline (E := E) hh
    have hcap : (svRegion E w).cap = E.inlineCap := by rw [hreg]
    dsimp only
    rw [h.size, regRelocate_ok E ys _ _ 0 0 (by omega) (by show 0 + ys.length ≤ E.inlineCap; omega)
      (by intro k hk; rw [Nat.zero_add]; exact h.live k hk) (by intros; rfl), ok_bind]
    dsimp only
    rw [regDestroyRange_ok E _ _ 0 (by dsimp only; omega)
      (by intro ht k h1 h2; dsimp only; apply cput_isSome; intro hk; exfalso; apply hk; simp; omega), ok_bind]
    refine ⟨_, _, rfl, rep_inline hE _ ys _ rfl (by omega) ?_ ?_, rep_inline hE _ [] _ rfl (Nat.zero_le _) ?_ ?_⟩
    · intro k hk; rw [cput_at _ _ _ _ (by omega)]; rfl
    · intro _ k hk; rw [cput_out _ _ _ _ (by omega)]; rfl
    · intro k hk; exact absurd hk (Nat.not_lt_zero _)
    · intro ht k _
      exact cdel_all E (svRegion E w).cells _ _ (fun k hk => cput_out _ _ _ _ (by simp; omega)) h.raw ht k
  | some r =>
    refine ⟨_, _, rfl, rep_heap h r hh _ (by intros; rfl), rep_inline hE _ [] _ rfl (Nat.zero_le _) ?_ ?_⟩
    · intro k hk; exact absurd hk (Nat.not_lt_zero _)
    · intro ht k _; exact h.buf ht (by rw [hh]; rfl) k

theorem svSwapInline_out {E : SVEnv α} (hE : SVEnvOk E) {big small : SVec α} {xs ys : List α} (hb : SVRep E big xs)
    (hs : SVRep E small ys) (hbh : big.heap = none) (hsh : small.heap = none) (hle : ys.length ≤ xs.length) :
    ∃ b s, svSwapInline E big small = .ok (b, s) ∧ SVRep E b ys ∧ SVRep E s xs := by
  have hfb := hb.fit
  have hfs := hs.fit
  unfold svCap at hfb hfs
  have ecb : (svRegion E big).cap = E.inlineCap := by rw [region_inline hbh]
  have ecs : (svRegion E small).cap = E.inlineCap := by rw [region_inline hsh]
  have hld : (xs.drop ys.length).length = xs.length - ys.length := by simp
  unfold svSwapInline
  rw [hs.size, hb.size, regSwapRanges_ok _ _ _ (by omega) (by omega) (fun k hk => rep_isSome hs k hk)
    (fun k hk => rep_isSome hb k (by omega)), ok_bind]
  dsimp only
  have r2 := regRelocate_ok E (xs.drop ys.length)
    ⟨(svRegion E big).cap, fun k => if k < ys.length then (svRegion E small).cells k else (svRegion E big).cells k⟩
    ⟨(svRegion E small).cap, fun k => if k < ys.length then (svRegion E big).cells k else (svRegion E small).cells k⟩
    ys.length ys.length (by dsimp only; omega) (by dsimp only; omega)
    (by intro k hk; dsimp only; rw [if_neg (by omega)]; exact rep_drop hb _ k hk)
    (by intro ht k h1 h2; dsimp only; rw [if_neg (by omega)]; exact hs.raw ht k h1)
  rw [hld] at r2
  rw [r2, ok_bind]
  dsimp only
  rw [regDestroyRange_ok E _ _ _ (by dsimp only; omega)
    (by intro ht k h1 h2; dsimp only; apply cput_isSome; intro hk; exfalso; apply hk; simp; omega), ok_bind]
  refine ⟨_, _, rfl, rep_inline hE _ ys _ rfl (by omega) ?_ ?_, rep_inline hE _ xs _ rfl (by omega) ?_ ?_⟩
  · intro k hk
    dsimp only
    unfold cdel
    rw [if_neg (by omega), cput_out _ _ _ _ (by omega), if_pos hk, hs.live k hk]
  · intro ht k hk
    dsimp only
    unfold cdel
    by_cases hkx : k < xs.length
    · rw [if_pos ⟨ht, by omega, by omega⟩]
    · rw [if_neg (by omega), cput_out _ _ _ _ (by simp; omega), if_neg (by omega), hb.raw ht k (by omega)]
  · intro k hk
    by_cases hky : k < ys.length
    · rw [cput_out _ _ _ _ (by omega), if_pos hky, hb.live k hk]
    · rw [cput_at _ _ _ _ (by omega), List.getElem?_drop]
      congr 1; omega
  · intro ht k hk
    rw [cput_out _ _ _ _ (by omega), if_neg (by omega), hs.raw ht k (by omega)]

theorem svSwapMixed_out {E : SVEnv α} (hE : SVEnvOk E) {big small : SVec α} {xs ys : List α} (hb : SVRep E big xs)
    (hs : SVRep E small ys) (r : Region α) (hbh : big.heap = some r) (hsh : small.heap = none) :
    ∃ b s, svSwapMixed E big small = .ok (b, s) ∧ SVRep E b ys ∧ SVRep E s xs := by
  have hfs := hs.fit
  unfold svCap at hfs
  have ecs : (svRegion E small).cap = E.inlineCap := by rw [region_inline hsh]
  unfold svSwapMixed
  rw [hs.size, regRelocate_ok E ys _ _ 0 0 (by omega) (by dsimp only; omega)
      (by intro k hk; rw [Nat.zero_add]; exact hs.live k hk)
      (by intro ht k _ _; exact hb.buf ht (by rw [hbh]; rfl) k), ok_bind]
  dsimp only
  rw [regDestroyRange_ok E _ _ 0 (by dsimp only; omega)
      (by intro ht k h1 h2; dsimp only; apply cput_isSome; intro hk; exfalso; apply hk; simp; omega), ok_bind, hbh]
  refine ⟨_, _, rfl, rep_inline hE _ ys _ rfl (by omega) ?_ ?_, rep_heap hb r hbh _ ?_⟩
  · intro k hk; rw [cput_at _ _ _ _ (by omega)]; rfl
  · intro ht k hk; rw [cput_out _ _ _ _ (by omega)]; exact hb.buf ht (by rw [hbh]; rfl) k
  · exact cdel_all E (svRegion E small).cells _ _ (fun k hk => cput_out _ _ _ _ (by simp; omega)) hs.raw

theorem svSwap_out {E : SVEnv α} (hE : SVEnvOk E) {v w : SVec α} {xs ys : List α} (hv : SVRep E v xs) (hw : SVRep E w ys) :
    ∃ v' w', svSwap E v w = .ok (v', w') ∧ SVRep E v' ys ∧ SVRep E w' xs := by
  unfold svSwap
  cases h1 : v.heap with
  | none =>
    cases h2 : w.heap with
    | none =>
      dsimp only
      split
      · rename_i hlt
        rw [hv.size, hw.size] at hlt
        obtain ⟨b, s, e, hb, hs⟩ := svSwapInline_out hE hw hv h2 h1 (by omega)
        rw [e, ok_bind]
        exact ⟨_, _, rfl, hs, hb⟩
      · rename_i hlt
        rw [hv.size, hw.size] at hlt
        exact svSwapInline_out hE hv hw h1 h2 (by omega)
    | some r =>
      obtain ⟨b, s, e, hb, hs⟩ := svSwapMixed_out hE hw hv r h2 h1
      dsimp only
      rw [e, ok_bind]
      exact ⟨_, _, rfl, hs, hb⟩
  | some r =>
    cases h2 : w.heap with
    | none => exact svSwapMixed_out hE hv hw r h1 h2
    | some r' =>
      exact ⟨_, _, rfl, rep_heap hw r' h2 _ (fun ht => hv.buf ht (by rw [h1]; rfl)),
        rep_heap hv r h1 _ (fun ht => hw.buf ht (by rw [h2]; rfl))⟩

theorem svMoveAssign_out {E : SVEnv α} (hE : SVEnvOk E) (fwd : Bool) {v w : SVec α} {xs ys : List α} (hv : SVRep E v xs)
    (hw : SVRep E w ys) :
    (∃ v' w' zs, svMoveAssign E fwd v w = .ok (v', w') ∧ SVRep E v' ys ∧ SVRep E w' zs) ∨
      svMoveAssign E fwd v w = .error .length ∧ E.maxSize < svCap E v + ys.length := by
  have hfv := hv.fit
  have hfw := hw.fit
  unfold svCap at hfv hfw
  unfold svMoveAssign
  have inl : (∃ v' w' zs, (do
      let (xs, src) ← regMoveList E (svRegion E w) 0 w.size
      let v' ← if fwd then svAssignRange E v xs else svAssignInput E v xs
      Except.ok (v', svPut w src w.size)) = .ok (v', w') ∧ SVRep E v' ys ∧ SVRep E w' zs) ∨
      (do
      let (xs, src) ← regMoveList E (svRegion E w) 0 w.size
      let v' ← if fwd then svAssignRange E v xs else svAssignInput E v xs
      Except.ok (v', svPut w src w.size)) = .error .length ∧ E.maxSize < svCap E v + ys.length := by
    rw [hw.size, regMoveList_ok E ys _ 0 (by omega) (by intro k hk; rw [Nat.zero_add]; exact hw.live k hk), ok_bind]
    dsimp only
    have hsrc : SVRep E (svPut w ⟨(svRegion E w).cap, cput (svRegion E w).cells 0 (ys.map E.moved)⟩ ys.length) (ys.map E.moved) :=
      rep_put hw _ _ _ (by simp) rfl (by simpa using hfw)
        (fun k hk => by dsimp only; rw [cput_at _ _ _ _ (by omega)]; rfl)
        (fun ht k hk => by dsimp only; rw [cput_out _ _ _ _ (by omega)]; exact hw.raw ht k (by simpa using hk))
    split
    · rcases svAssignRange_out hE hv ys with ⟨v', e, hv'⟩ | ⟨e, hl⟩
      · rw [e, ok_bind]
        exact Or.inl ⟨_, _, _, rfl, hv', hsrc⟩
      · rw [e, err_bind]
        exact Or.inr ⟨rfl, hl⟩
    · rcases (svAssignInput_out hE hv ys).mono (l' := svCap E v + ys.length) (by omega) with ⟨v', e, hv'⟩ | ⟨e, hl⟩
      · rw [e, ok_bind]
        exact Or.inl ⟨_, _, _, rfl, hv', hsrc⟩
      · rw [e, err_bind]
        exact Or.inr ⟨rfl, hl⟩
  cases h2 : w.heap with
  | none =>
    cases h1 : v.heap with
    | none => exact inl
    | some r => exact inl
  | some r =>
    cases h1 : v.heap with
    | none =>
      dsimp only
      rw [hv.size, regDestroyRange_ok E _ _ 0 (by omega) (fun _ k _ hk => rep_isSome hv k (by omega)), ok_bind]
      refine Or.inl ⟨_, _, [], rfl, rep_heap hw r h2 _ ?_, rep_inline hE _ [] _ rfl (Nat.zero_le _) ?_ ?_⟩
      · exact cdel_all E (svRegion E v).cells _ _ (fun _ _ => rfl) hv.raw
      · intro k hk; exact absurd hk (Nat.not_lt_zero _)
      · intro ht k _; exact hw.buf ht (by rw [h2]; rfl) k
    | some r' =>
      exact Or.inl ⟨_, _, xs, rfl, rep_heap hw r h2 _ (fun ht => hv.buf ht (by rw [h1]; rfl)),
        rep_heap hv r' h1 _ (fun ht => hw.buf ht (by rw [h2]; rfl))⟩

theorem svElems_ok {E : SVEnv α} {v : SVec α} {xs : List α} (h : SVRep E v xs) : svElems E v = .ok xs := by
  have hf := h.fit
  unfold svCap at hf
  unfold svElems
  rw [h.size]
  exact regList_ok xs _ 0 (by omega) (by intro k hk; rw [Nat.zero_add]; exact h.live k hk)

theorem svPopBack_trivial {E : SVEnv α} (ht : E.trivial = true) {v : SVec α} {xs : List α} (h : SVRep E v xs) (hne : xs ≠ []) :
    ∃ w, svPopBack E v = .ok w ∧ SVRep E w xs.dropLast := by
  have hf := h.fit
  unfold svCap at hf
  have hl : 0 < xs.length := List.length_pos_iff.mpr hne
  unfold svPopBack regDestroy
  rw [h.size, if_neg (by omega), if_pos ht, ok_bind]
  refine ⟨_, rfl, rep_put h _ _ _ (by simp) rfl (by simp; omega) ?_ (fun ht' => absurd (ht.symm.trans ht') (by simp))⟩
  intro k hk
  simp only [List.length_dropLast] at hk
  rw [h.live k (by omega), List.getElem?_dropLast, if_pos hk]

theorem svPopBack_ub {E : SVEnv α} (ht : E.trivial = false) {v : SVec α} {xs : List α} (h : SVRep E v xs) :
    svPopBack E v = .error .ub := by
  unfold svPopBack regDestroy
  split
  · rfl
  · rw [if_neg (by simp [ht]), if_neg]
    · rfl
    · rw [h.size, h.raw ht _ le_rfl]; simp

end Gapp.Model
