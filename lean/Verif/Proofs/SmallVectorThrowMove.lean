import Verif.Proofs.SmallVectorThrowCalls

namespace Gapp.Model
open Spec (IdealVec VecVars)
open Spec.DequeVars (throws)
open Spec.IdealVec (left reached copies grown shifted opened exchange)
variable {α : Type}

theorem svtSpend_cases (E : SvtEnv α) (limit : Option Nat) :
    (svtSpend E limit = none ∧ E.nothrowMove = false ∧ limit = some 0 ∧ ∀ n, throws limit (copies E.nothrowMove (n + 1)) = true) ∨
    ∃ l, svtSpend E limit = some l ∧ ∀ n, throws limit (copies E.nothrowMove (n + 1)) = throws l (copies E.nothrowMove n) ∧
      left limit (copies E.nothrowMove (n + 1)) = left l (copies E.nothrowMove n) ∧ (throws l (copies E.nothrowMove n) = true → reached limit = reached l + 1) := by
  unfold svtSpend
  cases hn : E.nothrowMove with
  | true =>
    right
    refine ⟨limit, by simp, fun n => ⟨by simp [copies], by simp [copies], ?_⟩⟩
    simp [copies, throws_zero]
  | false =>
    rcases cbSpend_cases limit with ⟨h1, h2, h3⟩ | ⟨l, h1, h2⟩
    · left
      refine ⟨by simp [h1], rfl, h2, fun n => by simpa [copies] using h3 n⟩
    · right
      refine ⟨l, by simp [h1], fun n => ⟨by simpa [copies] using (h2 n).1, by simpa [copies] using (h2 n).2, ?_⟩⟩
      intro ht
      exact cbSpend_reached h1 (by simpa [copies] using ht)

theorem svtTake_ok (E : SvtEnv α) {h : CbHeap α} {a i : Nat} {slots : List (Option α)} {x : α} (ha : h[a]? = some (some slots)) (hi : slots[i]? = some (some x)) :
    ∃ h', svtTake E true h a i = some (x, h') ∧ h'[a]? = some (some (slots.set i (some (E.moved x)))) ∧ SvtOff h' h a := by
  have hl : a < h.length := (List.getElem?_eq_some_iff.mp ha).1
  refine ⟨h.set a (some (slots.set i (some (E.moved x)))), ?_, by simp [hl], SvtOff.set _ _ _⟩
  unfold svtTake
  simp [ha, hi]

theorem svtPutAt_ok {h : CbHeap α} {a i : Nat} {slots : List (Option α)} {y : α} (x : α) (ha : h[a]? = some (some slots)) (hi : slots[i]? = some (some y)) :
    ∃ h', svtPutAt h a i x = some h' ∧ h'[a]? = some (some (slots.set i (some x))) ∧ SvtOff h' h a := by
  have hl : a < h.length := (List.getElem?_eq_some_iff.mp ha).1
  refine ⟨h.set a (some (slots.set i (some x))), ?_, by simp [hl], SvtOff.set _ _ _⟩
  unfold svtPutAt
  simp [ha, hi]

theorem svtTake_at (E : SvtEnv α) {h : CbHeap α} {a : Nat} {pre rest : List (Option α)} {x : α} (ha : h[a]? = some (some (pre ++ some x :: rest))) :
    ∃ h', svtTake E true h a pre.length = some (x, h') ∧ h'[a]? = some (some (pre ++ some (E.moved x) :: rest)) ∧ SvtOff h' h a := by
  obtain ⟨h', e1, e2, e3⟩ := svtTake_ok E ha (i := pre.length) (x := x) (by simp)
  exact ⟨h', e1, by rw [e2]; simp, e3⟩

theorem svtPutAt_at {h : CbHeap α} {a : Nat} {pre rest : List (Option α)} {y : α} (x : α) (ha : h[a]? = some (some (pre ++ some y :: rest))) :
    ∃ h', svtPutAt h a pre.length x = some h' ∧ h'[a]? = some (some (pre ++ some x :: rest)) ∧ SvtOff h' h a := by
  obtain ⟨h', e1, e2, e3⟩ := svtPutAt_ok x ha (i := pre.length) (y := y) (by simp)
  exact ⟨h', e1, by rw [e2]; simp, e3⟩

theorem SvtOk.place_off {S : Nat} {h h' : CbHeap α} {o : SvtObj} {v : IdealVec α} (k : SvtOk S h o v) (hoff : SvtOff h' h o.cur) :
    (o.cur = o.inl ∧ v.cap = S) ∨ (o.cur ≠ o.inl ∧ S < v.cap ∧ h'[o.inl]? = some (some (List.replicate S none))) := by
  rcases k.place with e | ⟨e1, e2, e3⟩
  · exact Or.inl e
  · exact Or.inr ⟨e1, e2, by rw [hoff _ (Ne.symm e1)]; exact e3⟩

/-- `relocate_range` at any place. -/
theorem svtRelocateAt_ok (E : SvtEnv α) (moving : Bool) {a b : Nat} (hab : a ≠ b) (sp dp : List (Option α)) (zs : List α) :
    ∀ (ys : List α) (srest drest : List (Option α)) (h : CbHeap α) (limit : Option Nat),
    h[a]? = some (some (sp ++ ((ys.map (if moving then E.moved else id)).map some ++ (zs.map some ++ srest)))) →
    h[b]? = some (some (dp ++ (ys.map some ++ (List.replicate zs.length none ++ drest)))) →
    (throws limit (copies E.nothrowMove zs.length) = true → ∃ h', svtRelocate E moving a sp.length b dp.length h ys.length zs.length limit = some (h', false, some 0) ∧
      h'[a]? = some (some (sp ++ ((ys.map (if moving then E.moved else id)).map some ++
        (((zs.take (reached limit)).map (if moving then E.moved else id)).map some ++ ((zs.drop (reached limit)).map some ++ srest))))) ∧
      h'[b]? = some (some (dp ++ (List.replicate (ys.length + zs.length) none ++ drest))) ∧ ∀ c : Nat, c ≠ a → c ≠ b → h'[c]? = h[c]?) ∧
    (throws limit (copies E.nothrowMove zs.length) = false → ∃ h',
      svtRelocate E moving a sp.length b dp.length h ys.length zs.length limit = some (h', true, left limit (copies E.nothrowMove zs.length)) ∧
      h'[a]? = some (some (sp ++ (((ys ++ zs).map (if moving then E.moved else id)).map some ++ srest))) ∧
      h'[b]? = some (some (dp ++ ((ys ++ zs).map some ++ drest))) ∧ ∀ c : Nat, c ≠ a → c ≠ b → h'[c]? = h[c]?) := by
  induction zs with
  | nil =>
    intro ys srest drest h limit h1 h2
    have : copies E.nothrowMove ([] : List α).length = 0 := by simp [copies]
    rw [this]
    refine ⟨fun ht => (by rw [throws_zero] at ht; cases ht), fun _ => ⟨h, ?_, by rw [h1]; simp, by rw [h2]; simp, fun _ _ _ => rfl⟩⟩
    rw [left_zero]; rfl
  | cons z zs ih =>
    intro ys srest drest h limit h1 h2
    set mv : α → α := if moving then E.moved else id with hmv
    rw [List.length_cons]
    rcases svtSpend_cases E limit with ⟨hs, _, hl, ht⟩ | ⟨l, hs, ht⟩
    · refine ⟨fun _ => ?_, fun hf => by rw [ht] at hf; cases hf⟩
      obtain ⟨h', e1, e2, e3⟩ := svtDestroyRange_ok (pre := dp) ys h2
      refine ⟨h', ?_, ?_, ?_, fun c _ hcb => e3 c hcb⟩
      · unfold svtRelocate
        unfold svtSpend at hs
        simp [hs, e1]
      · rw [e3 a hab, h1, hl]; simp [reached]
      · rw [e2, List.length_cons, ← List.append_assoc (List.replicate ys.length none), List.replicate_append_replicate]
    · have htake : ∃ hh, svtTake E moving h a (sp.length + ys.length) = some (z, hh) ∧
          hh[a]? = some (some (sp ++ ((ys.map mv).map some ++ (some (mv z) :: (zs.map some ++ srest))))) ∧ SvtOff hh h a := by
        have h1' : h[a]? = some (some ((sp ++ (ys.map mv).map some) ++ some z :: (zs.map some ++ srest))) := by rw [h1]; simp
        cases hm : moving with
        | false =>
          refine ⟨h, ?_, ?_, fun _ _ => rfl⟩
          · unfold svtTake
            simp only [h1']
            rw [List.getElem?_append_right (by simp)]
            simp
          · have : mv = id := by rw [hmv, hm]; rfl
            rw [h1, this]; simp
        | true =>
          have : mv = E.moved := by rw [hmv, hm]; rfl
          obtain ⟨hh, e1, e2, e3⟩ := svtTake_at E h1'
          refine ⟨hh, by simpa using e1, ?_, e3⟩
          rw [e2, this]; simp
      obtain ⟨hh, t1, t2, t3⟩ := htake
      obtain ⟨h', c1, c2, c3⟩ := svtConstruct_ok (h := hh) (a := b) (pre := dp ++ ys.map some) (rest := List.replicate zs.length none ++ drest) z
        (by rw [t3 b (Ne.symm hab), h2]; simp [List.replicate_succ])
      have c1' : cbConstruct hh b (dp.length + ys.length) z = some h' := by simpa using c1
      have hstep : svtRelocate E moving a sp.length b dp.length h ys.length (zs.length + 1) limit =
          svtRelocate E moving a sp.length b dp.length h' (ys ++ [z]).length zs.length l := by
        conv_lhs => unfold svtRelocate
        unfold svtSpend at hs
        rw [hs]
        simp [t1, c1']
      obtain ⟨i1, i2⟩ := ih (ys ++ [z]) srest drest h' l (by rw [c3 a hab, t2]; simp) (by rw [c2]; simp)
      have hoff : ∀ c : Nat, c ≠ a → c ≠ b → h'[c]? = h[c]? := fun c hca hcb => by rw [c3 c hcb, t3 c hca]
      rw [(ht _).1, (ht _).2.1, hstep]
      refine ⟨fun hf => ?_, fun hf => ?_⟩
      · obtain ⟨h'', f1, f2, f3, f4⟩ := i1 hf
        refine ⟨h'', f1, ?_, ?_, fun c hca hcb => by rw [f4 c hca hcb, hoff c hca hcb]⟩
        · rw [f2, (ht _).2.2 hf]; simp
        · rw [f3]; simp only [List.length_append, List.length_singleton]; rw [show ys.length + 1 + zs.length = ys.length + (zs.length + 1) by omega]
      · obtain ⟨h'', f1, f2, f3, f4⟩ := i2 hf
        refine ⟨h'', f1, ?_, ?_, fun c hca hcb => by rw [f4 c hca hcb, hoff c hca hcb]⟩
        · rw [f2]; simp
        · rw [f3]; simp

/-! ### `erase` -/

theorem shifted_length (mv : α → α) (xs : List α) (i n k : Nat) : (shifted mv xs i n k).length = xs.length := by simp [shifted]

theorem shifted_get (mv : α → α) (xs : List α) (i n k p : Nat) : (shifted mv xs i n k)[p]? =
    (xs[p]?).map (fun x => if p < i then x else if p < i + k then (xs[p + n]?).getD x else if i + n ≤ p ∧ p < i + n + k then mv x else x) := by
  simp [shifted, List.getElem?_mapIdx]

theorem shifted_zero (mv : α → α) (xs : List α) (i n : Nat) : shifted mv xs i n 0 = xs := by
  apply List.ext_getElem?
  intro p
  rw [shifted_get]
  have : ∀ x : α, (if p < i then x else if p < i + 0 then (xs[p + n]?).getD x else if i + n ≤ p ∧ p < i + n + 0 then mv x else x) = x := by
    intro x
    split
    · rfl
    · rw [if_neg (by omega), if_neg (by omega)]
  simp only [this]
  simp

theorem shifted_next (mv : α → α) (xs : List α) {i n k : Nat} (hn : 0 < n) (hk : i + n + k < xs.length) :
    (shifted mv xs i n k)[i + n + k]? = some xs[i + n + k] ∧
    ((shifted mv xs i n k).set (i + n + k) (mv xs[i + n + k])).set (i + k) xs[i + n + k] = shifted mv xs i n (k + 1) := by
  constructor
  · rw [shifted_get, List.getElem?_eq_getElem hk]
    simp only [Option.map_some]
    rw [if_neg (by omega), if_neg (by omega), if_neg (by omega)]
  · apply List.ext_getElem?
    intro p
    rw [List.getElem?_set, List.getElem?_set, shifted_get, shifted_get]
    simp only [List.length_set, shifted_length]
    by_cases h1 : i + k = p
    · subst h1
      rw [if_pos rfl, if_pos (by omega), List.getElem?_eq_getElem (show i + k < xs.length by omega)]
      simp only [Option.map_some]
      rw [if_neg (by omega), if_pos (by omega), show i + k + n = i + n + k by omega, List.getElem?_eq_getElem hk]
      rfl
    · rw [if_neg h1]
      by_cases h2 : i + n + k = p
      · subst h2
        rw [if_pos rfl, if_pos (by omega), List.getElem?_eq_getElem hk]
        simp only [Option.map_some]
        rw [if_neg (by omega), if_neg (by omega), if_pos (by omega)]
      · rw [if_neg h2]
        congr 1
        funext x
        by_cases h3 : p < i
        · simp [h3]
        · rw [if_neg h3, if_neg h3]
          by_cases h4 : p < i + k
          · rw [if_pos h4, if_pos (by omega)]
          · rw [if_neg h4, if_neg (show ¬ p < i + (k + 1) by omega)]
            by_cases h5 : i + n ≤ p ∧ p < i + n + k
            · rw [if_pos h5, if_pos (by omega)]
            · rw [if_neg h5, if_neg (by omega)]

theorem shifted_all (mv : α → α) (xs : List α) {i n : Nat} (h : i + n ≤ xs.length) :
    ∃ zs, zs.length = n ∧ shifted mv xs i n (xs.length - (i + n)) = (xs.take i ++ xs.drop (i + n)) ++ zs := by
  refine ⟨(shifted mv xs i n (xs.length - (i + n))).drop (xs.length - n), by simp [shifted_length]; omega, ?_⟩
  have key : (shifted mv xs i n (xs.length - (i + n))).take (xs.length - n) = xs.take i ++ xs.drop (i + n) := by
    apply List.ext_getElem?
    intro p
    rw [List.getElem?_take]
    by_cases h1 : p < xs.length - n
    · rw [if_pos h1, shifted_get, List.getElem?_eq_getElem (show p < xs.length by omega)]
      simp only [Option.map_some]
      by_cases h2 : p < i
      · rw [if_pos h2, List.getElem?_append_left (by simp; omega), List.getElem?_take, if_pos h2, List.getElem?_eq_getElem]
      · rw [if_neg h2, if_pos (by omega), List.getElem?_append_right (by simp; omega), List.getElem?_drop]
        simp only [List.length_take]
        rw [show i + n + (p - min i xs.length) = p + n by omega, List.getElem?_eq_getElem (show p + n < xs.length by omega)]
        rfl
    · rw [if_neg h1, List.getElem?_eq_none (by simp; omega)]
  rw [← key, List.take_append_drop]

/-- `std::shift_left`. -/
theorem svtShiftLeft_ok (E : SvtEnv α) (a : Nat) (xs : List α) (rest : List (Option α)) {i n : Nat} (hn : 0 < n) : ∀ (m k : Nat) (h : CbHeap α) (limit : Option Nat),
    i + n + k + m = xs.length → h[a]? = some (some ((shifted E.moved xs i n k).map some ++ rest)) →
    (throws limit (copies E.nothrowMove m) = true → ∃ h', svtMoveRange E a i a (i + n) h k m limit = some (h', false, some 0) ∧
      h'[a]? = some (some ((shifted E.moved xs i n (k + reached limit)).map some ++ rest)) ∧ SvtOff h' h a) ∧
    (throws limit (copies E.nothrowMove m) = false → ∃ h', svtMoveRange E a i a (i + n) h k m limit = some (h', true, left limit (copies E.nothrowMove m)) ∧
      h'[a]? = some (some ((shifted E.moved xs i n (k + m)).map some ++ rest)) ∧ SvtOff h' h a) := by
  intro m
  induction m with
  | zero =>
    intro k h limit _ ha
    have : copies E.nothrowMove 0 = 0 := by simp [copies]
    rw [this]
    refine ⟨fun ht => (by rw [throws_zero] at ht; cases ht), fun _ => ⟨h, ?_, ha, fun _ _ => rfl⟩⟩
    rw [left_zero]; rfl
  | succ m ih =>
    intro k h limit hm ha
    have hk : i + n + k < xs.length := by omega
    rcases svtSpend_cases E limit with ⟨hs, _, hl, ht⟩ | ⟨l, hs, ht⟩
    · refine ⟨fun _ => ⟨h, ?_, by rw [ha, hl]; simp [reached], fun _ _ => rfl⟩, fun hf => by rw [ht] at hf; cases hf⟩
      unfold svtMoveRange; simp [hs]
    · obtain ⟨g1, g2⟩ := shifted_next E.moved xs hn hk
      have hlen := shifted_length E.moved xs i n k
      obtain ⟨h1, e1, e2, e3⟩ := svtTake_ok E ha (i := i + n + k) (x := xs[i + n + k]) (by
        rw [List.getElem?_append_left (by simp [hlen]; omega), List.getElem?_map, g1]; rfl)
      have hy : ∃ y, (((shifted E.moved xs i n k).map some ++ rest).set (i + n + k) (some (E.moved xs[i + n + k])))[i + k]? = some (some y) := by
        refine ⟨(shifted E.moved xs i n k)[i + k]'(by omega), ?_⟩
        rw [List.getElem?_set_ne (by omega), List.getElem?_append_left (by simp [hlen]; omega), List.getElem?_map, List.getElem?_eq_getElem (by omega)]
        rfl
      obtain ⟨y, hy⟩ := hy
      obtain ⟨h2, f1, f2, f3⟩ := svtPutAt_ok xs[i + n + k] e2 hy
      have hset : (((shifted E.moved xs i n k).map some ++ rest).set (i + n + k) (some (E.moved xs[i + n + k]))).set (i + k) (some xs[i + n + k]) =
          (shifted E.moved xs i n (k + 1)).map some ++ rest := by
        rw [List.set_append_left _ _ (by simp [hlen]; omega), List.set_append_left _ _ (by simp [hlen]; omega), ← g2, List.map_set, List.map_set]
      rw [hset] at f2
      have hstep : svtMoveRange E a i a (i + n) h k (m + 1) limit = svtMoveRange E a i a (i + n) h2 (k + 1) m l := by
        conv_lhs => unfold svtMoveRange
        simp [hs, e1, f1]
      obtain ⟨i1, i2⟩ := ih (k + 1) h2 l (by omega) f2
      rw [(ht _).1, (ht _).2.1, hstep]
      refine ⟨fun hf => ?_, fun hf => ?_⟩
      · obtain ⟨h', j1, j2, j3⟩ := i1 hf
        refine ⟨h', j1, ?_, (e3.trans f3).trans j3⟩
        rw [j2, (ht m).2.2 hf, show k + 1 + reached l = k + (reached l + 1) by omega]
      · obtain ⟨h', j1, j2, j3⟩ := i2 hf
        refine ⟨h', j1, ?_, (e3.trans f3).trans j3⟩
        rw [j2, show k + 1 + m = k + (m + 1) by omega]

theorem svtErase_ok (E : SvtEnv α) {S : Nat} {h : CbHeap α} {o : SvtObj} {v : IdealVec α} (k : SvtOk S h o v) {i j : Nat} (hij : i ≤ j) (hj : j ≤ v.items.length) (limit : Option Nat) :
    ∃ h' o', svtErase E h o i j limit = some (h', o', (v.erase E.nothrowMove E.moved i j limit).2) ∧
      SvtOk S h' o' (v.erase E.nothrowMove E.moved i j limit).1 ∧ SvtLocal h (some o) h' (some o') := by
  have hcur : h[o.cur]? = some (some (v.items.map some ++ List.replicate (v.cap - v.items.length) none)) := k.cur
  have hle := k.le
  unfold svtErase IdealVec.erase
  rw [k.size, if_pos ⟨hij, hj⟩]
  by_cases he : i = j
  · subst he
    rw [if_pos rfl, if_neg (show ¬ (i < i ∧ throws limit (copies E.nothrowMove (v.items.length - i)) = true) by simp)]
    refine ⟨h, o, ?_, ?_, SvtLocal.refl _ _⟩
    · simp [svtDestroyRange, ← k.size]
    · simpa using k
  · obtain ⟨n, rfl⟩ : ∃ n, j = i + n := ⟨j - i, by omega⟩
    have hn : 0 < n := by omega
    have hsub : i + n - i = n := by omega
    rw [hsub]
    obtain ⟨i1, i2⟩ := svtShiftLeft_ok E o.cur v.items (List.replicate (v.cap - v.items.length) none) (i := i) hn (v.items.length - (i + n)) 0 h limit (by omega)
      (by rw [shifted_zero]; exact hcur)
    rw [if_neg he]
    by_cases ht : throws limit (copies E.nothrowMove (v.items.length - (i + n))) = true
    · obtain ⟨h', e1, e2, e3⟩ := i1 ht
      rw [if_pos ⟨by omega, ht⟩]
      refine ⟨h', o, ?_, ?_, SvtLocal.inPlace rfl rfl e3⟩
      · simp [e1]
      · refine ⟨by simp [shifted_length, k.size], k.cap, by simp [shifted_length, hle], ?_, k.place_off e3⟩
        rw [e2]; simp [svtBody, shifted_length]
    · rw [Bool.not_eq_true] at ht
      obtain ⟨h1, e1, e2, e3⟩ := i2 ht
      rw [if_neg (by rw [ht]; simp)]
      obtain ⟨zs, hz, hzs⟩ := shifted_all E.moved v.items (i := i) (n := n) hj
      rw [Nat.zero_add, hzs] at e2
      obtain ⟨h2, f1, f2, f3⟩ := svtDestroyRange_ok (pre := (v.items.take i ++ v.items.drop (i + n)).map some) zs (rest := List.replicate (v.cap - v.items.length) none)
        (by rw [e2]; simp)
      have hlen : (v.items.take i ++ v.items.drop (i + n)).length = v.items.length - n := by simp; omega
      refine ⟨h2, { o with size := v.items.length - n }, ?_, ?_, SvtLocal.inPlace rfl rfl (e3.trans f3)⟩
      · rw [List.length_map, hlen, hz] at f1
        simp [e1, f1]
      · refine ⟨hlen.symm, k.cap, ?_, ?_, k.place_off (e3.trans f3)⟩
        · show (v.items.take i ++ v.items.drop (i + n)).length ≤ v.cap
          omega
        · show h2[o.cur]? = _
          rw [f2, hz, List.replicate_append_replicate]
          unfold svtBody
          simp only [hlen]
          rw [show n + (v.cap - v.items.length) = v.cap - (v.items.length - n) by omega]

/-! ### `emplace` -/

theorem opened_split (mv : α → α) (xs ys : List α) (z : α) : opened mv (xs ++ z :: ys) (ys.length + 1) = xs ++ mv z :: z :: ys := by
  unfold opened
  have : (xs ++ z :: ys).length - (ys.length + 1) = xs.length := by simp
  rw [this]
  simp

/-- `std::shift_right` by one, after the last element was moved behind the end. -/
theorem svtShiftRight_ok (E : SvtEnv α) (a : Nat) (pre : List α) (rest : List (Option α)) : ∀ (m : Nat) (us ys : List α) (z : α) (h : CbHeap α) (limit : Option Nat),
    us.length = m → h[a]? = some (some ((opened E.moved (pre ++ us ++ z :: ys) (ys.length + 1)).map some ++ rest)) →
    (throws limit (copies E.nothrowMove m) = true → ∃ h', svtShiftRight E a pre.length h m limit = some (h', false, some 0) ∧
      h'[a]? = some (some ((opened E.moved (pre ++ us ++ z :: ys) (ys.length + 1 + reached limit)).map some ++ rest)) ∧ SvtOff h' h a) ∧
    (throws limit (copies E.nothrowMove m) = false → ∃ h', svtShiftRight E a pre.length h m limit = some (h', true, left limit (copies E.nothrowMove m)) ∧
      h'[a]? = some (some ((opened E.moved (pre ++ us ++ z :: ys) (ys.length + 1 + m)).map some ++ rest)) ∧ SvtOff h' h a) := by
  intro m
  induction m with
  | zero =>
    intro us ys z h limit _ ha
    have : copies E.nothrowMove 0 = 0 := by simp [copies]
    rw [this]
    refine ⟨fun ht => (by rw [throws_zero] at ht; cases ht), fun _ => ⟨h, ?_, ha, fun _ _ => rfl⟩⟩
    rw [left_zero]; rfl
  | succ m ih =>
    intro us ys z h limit hu ha
    rcases svtSpend_cases E limit with ⟨hs, _, hl, ht⟩ | ⟨l, hs, ht⟩
    · refine ⟨fun _ => ⟨h, ?_, by rw [ha, hl]; simp [reached], fun _ _ => rfl⟩, fun hf => by rw [ht] at hf; cases hf⟩
      unfold svtShiftRight; simp [hs]
    · obtain ⟨vs, w, rfl⟩ : ∃ vs w, us = vs ++ [w] := by
        rcases List.eq_nil_or_concat us with e | ⟨vs, w, e⟩
        · rw [e] at hu; simp at hu
        · exact ⟨vs, w, by simpa using e⟩
      have hv : vs.length = m := by simpa using hu
      have hxs : pre ++ (vs ++ [w]) ++ z :: ys = (pre ++ vs ++ [w]) ++ z :: ys := by simp
      have hxs2 : pre ++ (vs ++ [w]) ++ z :: ys = pre ++ vs ++ w :: z :: ys := by simp
      have ha' : h[a]? = some (some ((pre ++ vs).map some ++ some w :: (some (E.moved z) :: some z :: ys.map some ++ rest))) := by
        rw [ha, hxs, opened_split]; simp
      obtain ⟨h1, e1, e2, e3⟩ := svtTake_at E ha'
      obtain ⟨h2, f1, f2, f3⟩ := svtPutAt_at w (h := h1) (a := a) (pre := (pre ++ vs).map some ++ [some (E.moved w)]) (y := E.moved z) (rest := some z :: ys.map some ++ rest)
        (by rw [e2]; simp)
      have e1' : svtTake E true h a (pre.length + m) = some (w, h1) := by
        rw [← hv]; simpa using e1
      have f1' : svtPutAt h1 a (pre.length + m + 1) w = some h2 := by
        rw [← hv]; simpa [Nat.add_assoc] using f1
      have hstep : svtShiftRight E a pre.length h (m + 1) limit = svtShiftRight E a pre.length h2 m l := by
        conv_lhs => unfold svtShiftRight
        simp [hs, e1', f1']
      obtain ⟨i1, i2⟩ := ih vs (z :: ys) w h2 l hv (by rw [f2, List.length_cons, show ys.length + 1 + 1 = (z :: ys).length + 1 by simp, opened_split]; simp)
      rw [(ht _).1, (ht _).2.1, hstep, hxs2]
      refine ⟨fun hf => ?_, fun hf => ?_⟩
      · obtain ⟨h', j1, j2, j3⟩ := i1 hf
        refine ⟨h', j1, ?_, (e3.trans f3).trans j3⟩
        rw [j2, (ht m).2.2 hf, List.length_cons, show ys.length + 1 + 1 + reached l = ys.length + 1 + (reached l + 1) by omega]
      · obtain ⟨h', j1, j2, j3⟩ := i2 hf
        refine ⟨h', j1, ?_, (e3.trans f3).trans j3⟩
        rw [j2, List.length_cons, show ys.length + 1 + 1 + m = ys.length + 1 + (m + 1) by omega]

theorem copies_add (nm : Bool) (m n : Nat) : copies nm (m + n) = copies nm m + copies nm n := by
  unfold copies; cases nm <;> simp

theorem left_add (limit : Option Nat) (m n : Nat) : left limit (m + n) = left (left limit m) n := by
  cases limit with
  | none => rfl
  | some k => simp [left, Nat.sub_sub]

theorem svtReallocateEmplace_ok (E : SvtEnv α) {h : CbHeap α} {o : SvtObj} {v : IdealVec α} (k : SvtOk E.inlineCap h o v) {n : Nat} (hn : E.inlineCap < n)
    (hle : v.items.length < n) {i : Nat} (hi : i ≤ v.items.length) (x : α) (limit : Option Nat) :
    (throws limit (2 + copies E.nothrowMove v.items.length) = true → ∃ h', svtReallocateEmplace E h o n i x limit = some (h', o, false) ∧
      SvtOk E.inlineCap h' o v ∧ SvtLocal h (some o) h' (some o)) ∧
    (throws limit (2 + copies E.nothrowMove v.items.length) = false → ∃ h' o', svtReallocateEmplace E h o n i x limit = some (h', o', true) ∧
      SvtOk E.inlineCap h' o' ⟨n, v.items.take i ++ x :: v.items.drop i⟩ ∧ SvtLocal h (some o) h' (some o')) := by
  have hca : o.cur ≠ h.length := k.ne_length (Or.inr rfl)
  have h2c : 2 + copies E.nothrowMove v.items.length = copies E.nothrowMove v.items.length + 1 + 1 := by omega
  obtain ⟨u, w, huw, hu⟩ : ∃ u w, v.items = u ++ w ∧ u.length = i := ⟨v.items.take i, v.items.drop i, by simp, by simp [hi]⟩
  have hw : v.items.length - i = w.length := by rw [huw]; simp; omega
  have hlen : v.items.length = u.length + w.length := by rw [huw]; simp
  have htake : v.items.take i = u := by rw [huw, ← hu]; simp
  have hdrop : v.items.drop i = w := by rw [huw, ← hu]; simp
  set mv : α → α := if E.nothrowMove then E.moved else id with hmv
  unfold svtReallocateEmplace
  rw [h2c]
  rcases cbSpend_cases limit with ⟨hs, hl, ht⟩ | ⟨l, hs, ht⟩
  · refine ⟨fun _ => ⟨h, by simp [hs], k, SvtLocal.refl _ _⟩, fun hf => by rw [ht] at hf; cases hf⟩
  · simp only [hs]
    rw [(ht _).1]
    rcases cbSpend_cases l with ⟨hs', hl', ht'⟩ | ⟨l', hs', ht'⟩
    · refine ⟨fun _ => ?_, fun hf => by rw [ht'] at hf; cases hf⟩
      obtain ⟨h2, f1, f2, f3⟩ := svtDealloc_ok (svtAlloc_at h n)
      refine ⟨h2, by simp [hs', f1], k.vain ?_ f2⟩
      intro c hc; rw [f3 c hc, svtAlloc_off h n c hc]
    · simp only [hs']
      rw [(ht' _).1]
      have hsp : (List.replicate n none : List (Option α)) = List.replicate i none ++ none :: List.replicate (n - i - 1) none := by
        rw [← List.replicate_succ, replicate_split none (show i ≤ n by omega)]
        congr 2; omega
      obtain ⟨h0, c1, c2, c3⟩ := svtConstruct_ok (h := cbAllocate h n) (a := h.length) (pre := List.replicate i none)
        (rest := List.replicate (n - i - 1) none) x (by rw [svtAlloc_at, hsp])
      rw [List.length_replicate] at c1
      rw [c1]
      simp only [Option.bind_eq_bind, Option.bind_some]
      obtain ⟨r1, r2⟩ := svtRelocateAt_ok E E.nothrowMove hca [] [] u [] (w.map some ++ List.replicate (v.cap - v.items.length) none)
        (some x :: List.replicate (n - i - 1) none) h0 l'
        (by rw [c3 _ hca, svtAlloc_off h n _ hca, k.cur]; simp [svtBody, huw]) (by rw [c2, hu]; simp)
      rw [List.length_nil, hu] at r1 r2
      rw [hlen, copies_add, throws_add, hu]
      have hidf : E.nothrowMove = false → mv = id := by intro e; rw [hmv, e]; rfl
      cases hth : throws l' (copies E.nothrowMove i) with
      | true =>
        simp only [Bool.true_or]
        refine ⟨fun _ => ?_, fun hf => by cases hf⟩
        obtain ⟨hnm, _⟩ := copies_throws hth
        obtain ⟨h1, e1, e2, e3, e4⟩ := r1 hth
        rw [List.length_nil, Nat.zero_add, List.nil_append] at e3
        obtain ⟨h2, d1, d2, d3⟩ := svtDestroyAt_ok e3
        rw [List.length_replicate] at d1
        rw [← hsp] at d2
        obtain ⟨h3, f1, f2, f3⟩ := svtDealloc_ok d2
        rw [List.length_nil] at e1
        refine ⟨h3, by simp [e1, d1, f1], ?_⟩
        apply k.vain _ f2
        intro c hc
        rw [f3 c hc, d3 c hc]
        by_cases hcc : c = o.cur
        · rw [hcc, e2, k.cur, ← hmv, hidf hnm]
          simp only [List.map_nil, List.nil_append, List.map_id, svtBody, huw, List.map_append, List.append_assoc]
          rw [← List.append_assoc ((u.take _).map some), ← List.map_append, List.take_append_drop]
        · rw [e4 c hcc hc, c3 c hc, svtAlloc_off h n c hc]
      | false =>
        simp only [Bool.false_or]
        obtain ⟨h1, e1, e2, e3, e4⟩ := r2 hth
        have e1' : svtRelocate E E.nothrowMove o.cur 0 h.length 0 h0 0 i l' = some (h1, true, left l' (copies E.nothrowMove i)) := e1
        rw [e1']
        simp only [Option.bind_some, Bool.not_true, Bool.false_eq_true, if_false]
        obtain ⟨q1, q2⟩ := svtRelocateAt_ok E E.nothrowMove hca ((u.map mv).map some) (u.map some ++ [some x]) w [] (List.replicate (v.cap - v.items.length) none)
          (List.replicate (n - i - 1 - w.length) none) h1 (left l' (copies E.nothrowMove i))
          (by rw [e2, ← hmv]; simp) (by
            rw [e3]
            simp only [List.nil_append, List.map_nil, List.append_assoc, List.cons_append]
            rw [List.replicate_append_replicate, show w.length + (n - i - 1 - w.length) = n - i - 1 by omega])
        simp only [List.length_map, List.length_append, List.length_singleton, List.length_nil, hu] at q1 q2
        rw [k.size, hw]
        refine ⟨fun hf => ?_, fun hf => ?_⟩
        · obtain ⟨hnm, _⟩ := copies_throws hf
          obtain ⟨h2, g1, g2, g3, g4⟩ := q1 hf
          rw [g1]
          simp only [Option.bind_some, Bool.not_false, if_true]
          rw [Nat.zero_add] at g3
          obtain ⟨h3, d1, d2, d3⟩ := svtDestroyRange_ok (pre := []) (h := h2) (a := h.length) u (rest := some x :: (List.replicate w.length none ++ List.replicate (n - i - 1 - w.length) none))
            (by rw [g3]; simp)
          rw [List.length_nil, hu] at d1
          rw [List.nil_append, hu] at d2
          obtain ⟨h4, p1, p2, p3⟩ := svtDestroyAt_ok d2
          rw [List.length_replicate] at p1
          rw [List.replicate_append_replicate, show w.length + (n - i - 1 - w.length) = n - i - 1 by omega, ← hsp] at p2
          obtain ⟨h5, f1, f2, f3⟩ := svtDealloc_ok p2
          refine ⟨h5, by simp [d1, p1, f1], ?_⟩
          apply k.vain _ f2
          intro c hc
          rw [f3 c hc, p3 c hc, d3 c hc]
          by_cases hcc : c = o.cur
          · rw [hcc, g2, k.cur, ← hmv, hidf hnm]
            simp only [List.map_nil, List.nil_append, List.map_id, svtBody, huw, List.map_append, List.append_assoc]
            rw [← List.append_assoc ((w.take _).map some), ← List.map_append, List.take_append_drop]
          · rw [g4 c hcc hc, e4 c hcc hc, c3 c hc, svtAlloc_off h n c hc]
        · obtain ⟨h2, g1, g2, g3, g4⟩ := q2 hf
          rw [g1]
          simp only [Option.bind_some, Bool.not_true, Bool.false_eq_true, if_false]
          obtain ⟨h3, h4, f1, f2, f3, f4, f5⟩ := svtRetire (h := h2) (o := o) (v.items.map mv) (v.cap - v.items.length)
            (by rw [k.size, List.length_map]) (by rw [k.cap, List.length_map]; have := k.le; omega) (by rw [g2, huw]; simp [← hmv])
          rw [k.size] at f1
          refine ⟨h4, ⟨o.inl, h.length, (u ++ x :: w).length, n⟩, by rw [f1, Option.bind_some, f2, Option.bind_some, hlen]; simp [Nat.add_assoc], ?_⟩
          rw [htake, hdrop]
          refine k.regrown (w := ⟨n, u ++ x :: w⟩) hn (by simp; omega) ?_ ?_ f4 f5
          · rw [f3 _ (Ne.symm hca), g3]; simp [svtBody]; omega
          · intro c h1 h2
            rw [f3 c h2, g4 c h2 h1, e4 c h2 h1, c3 c h1, svtAlloc_off h n c h1]

theorem svtEmplace_ok (E : SvtEnv α) {h : CbHeap α} {o : SvtObj} {v : IdealVec α} (k : SvtOk E.inlineCap h o v) {i : Nat} (hi : i ≤ v.items.length) (x : α) (limit : Option Nat) :
    ∃ h' o', svtEmplace E h o i x limit = some (h', o', (v.emplace E.nothrowMove E.moved i x limit).2) ∧
      SvtOk E.inlineCap h' o' (v.emplace E.nothrowMove E.moved i x limit).1 ∧ SvtLocal h (some o) h' (some o') := by
  have hle := k.le
  have hbody : h[o.cur]? = some (some (v.items.map some ++ List.replicate (v.cap - v.items.length) none)) := k.cur
  unfold svtEmplace IdealVec.emplace
  rw [k.size, k.cap, if_neg (show ¬ v.items.length < i by omega)]
  by_cases hfull : v.items.length = v.cap
  · simp only [if_pos hfull]
    rw [if_neg (show ¬ v.items.length ≠ v.cap by omega)]
    obtain ⟨i1, i2⟩ := svtReallocateEmplace_ok E k (n := svtNextCap v.cap 1) (by have := k.inline_le; unfold svtNextCap; omega) (by unfold svtNextCap; omega) hi x limit
    cases ht : throws limit (2 + copies E.nothrowMove v.items.length) with
    | true => obtain ⟨h', e1, e2, e3⟩ := i1 ht; exact ⟨h', o, e1, e2, e3⟩
    | false => obtain ⟨h', o', e1, e2, e3⟩ := i2 ht; exact ⟨h', o', e1, e2, e3⟩
  · simp only [if_neg hfull]
    rw [if_pos hfull]
    have hrep : List.replicate (v.cap - v.items.length) (none : Option α) = none :: List.replicate (v.cap - v.items.length - 1) none := by
      rw [← List.replicate_succ]; congr 1; omega
    rcases cbSpend_cases limit with ⟨hs, hl, ht⟩ | ⟨l, hs, ht⟩
    · simp only [hs]
      refine ⟨h, o, ?_, ?_, SvtLocal.refl _ _⟩
      · rw [show throws limit 1 = true from ht 0, show throws limit (1 + copies E.nothrowMove (v.items.length - i + 1)) = true by rw [Nat.add_comm]; exact ht _]
        simp [hl, reached]
      · rw [show throws limit 1 = true from ht 0, show throws limit (1 + copies E.nothrowMove (v.items.length - i + 1)) = true by rw [Nat.add_comm]; exact ht _]
        simp only [hl, reached]
        simpa using k
    · simp only [hs]
      by_cases hend : i = v.items.length
      · simp only [if_pos hend]
        rw [show throws limit 1 = false by rw [(ht 0).1, throws_zero]]
        obtain ⟨h1, c1, c2, c3⟩ := svtConstruct_ok (h := h) (a := o.cur) (pre := v.items.map some) (rest := List.replicate (v.cap - v.items.length - 1) none) x
          (by rw [hbody, hrep])
        rw [List.length_map] at c1
        have hap : v.items.take i ++ x :: v.items.drop i = v.items ++ [x] := by rw [hend]; simp
        obtain ⟨g1, g2⟩ := k.inPlace (v.items ++ [x]) (by simp; omega) c3 (by rw [c2]; simp [svtBody, Nat.sub_sub])
        refine ⟨h1, _, ?_, ?_, g2⟩
        · simp [c1, k.cap]
        · simpa [hap] using g1
      · simp only [if_neg hend]
        obtain ⟨pre, us, z, hitems, hpre⟩ : ∃ pre us z, v.items = pre ++ us ++ [z] ∧ pre.length = i := by
          have hne : v.items.drop i ≠ [] := by simp; omega
          refine ⟨v.items.take i, (v.items.drop i).dropLast, (v.items.drop i).getLast hne, ?_, by simp [hi]⟩
          rw [List.append_assoc, List.dropLast_append_getLast, List.take_append_drop]
        have hlen : v.items.length = i + us.length + 1 := by rw [hitems]; simp [hpre]; omega
        have hcost : 1 + copies E.nothrowMove (v.items.length - i + 1) = copies E.nothrowMove (v.items.length - i + 1) + 1 := by omega
        rw [hcost, (ht _).1]
        rcases svtSpend_cases E l with ⟨hs2, hnm, hl2, ht2⟩ | ⟨l2, hs2, ht2⟩
        · rw [ht2]
          simp only [hs2]
          have hr : reached limit = 1 := by
            have := cbSpend_reached (n := 1) hs (by rw [hl2]; rfl)
            rw [this, hl2]; rfl
          refine ⟨h, o, ?_, ?_, SvtLocal.refl _ _⟩
          · simp [hr]
          · simpa [hr] using k
        · simp only [hs2]
          rw [(ht2 _).1]
          obtain ⟨h1, t1, t2, t3⟩ := svtTake_at E (h := h) (a := o.cur) (pre := (pre ++ us).map some) (x := z) (rest := none :: List.replicate (v.cap - v.items.length - 1) none)
            (by rw [hbody, hrep, hitems]; simp)
          obtain ⟨h2, c1, c2, c3⟩ := svtConstruct_ok (h := h1) (a := o.cur) (pre := (pre ++ us).map some ++ [some (E.moved z)]) (rest := List.replicate (v.cap - v.items.length - 1) none) z
            (by rw [t2]; simp)
          have t1' : svtTake E true h o.cur (v.items.length - 1) = some (z, h1) := by
            rw [hlen]; simpa [hpre] using t1
          have c1' : cbConstruct h1 o.cur v.items.length z = some h2 := by
            rw [hlen]; simpa [hpre, Nat.add_assoc] using c1
          simp only [t1', c1', Option.bind_eq_bind, Option.bind_some]
          have hm : v.items.length - 1 - i = us.length := by omega
          obtain ⟨i1, i2⟩ := svtShiftRight_ok E o.cur pre (List.replicate (v.cap - v.items.length - 1) none) us.length us [] z h2 l2 rfl
            (by rw [List.length_nil, show (0 : Nat) + 1 = ([] : List α).length + 1 from rfl, opened_split, c2]; simp)
          rw [List.length_nil, ← hitems, hpre] at i1 i2
          rw [hm]
          have hoplen : ∀ k, 1 ≤ k → k ≤ v.items.length → (opened E.moved v.items k).length = v.items.length + 1 := by
            intro k h1 h2
            unfold opened; simp; omega
          have hoff := t3.trans c3
          have hcop : v.items.length - i = us.length + 1 := by omega
          rw [hcop, copies_add, throws_add]
          cases hth : throws l2 (copies E.nothrowMove us.length) with
          | true =>
            obtain ⟨h3, e1, e2, e3⟩ := i1 hth
            simp only [Bool.true_or, if_true]
            obtain ⟨hnm, hthn⟩ := copies_throws hth
            have hrl : reached l = reached l2 + 1 := (ht2 _).2.2 hth
            have hthl : throws l (copies E.nothrowMove (us.length + 1)) = true := by rw [(ht2 _).1, hth]
            have hr : reached limit = reached l2 + 1 + 1 := by rw [cbSpend_reached hs hthl, hrl]
            have hlt := (reached_of_throws hthn).2
            rw [e1]
            simp only [Option.bind_some, Bool.not_false, if_true]
            have hol := hoplen (1 + reached l2) (by omega) (by omega)
            obtain ⟨g1, g2⟩ := k.inPlace (opened E.moved v.items (1 + reached l2)) (by omega) (hoff.trans e3) (by
              rw [e2]; simp only [svtBody, hol]; rw [show 0 + 1 + reached l2 = 1 + reached l2 by omega, Nat.sub_sub])
            rw [if_neg (by omega), hr, show reached l2 + 1 + 1 - 1 = 1 + reached l2 by omega]
            refine ⟨h3, _, ?_, g1, g2⟩
            rw [hol]
            simp [k.cap]
          | false =>
            obtain ⟨h3, e1, e2, e3⟩ := i2 hth
            simp only [Bool.false_or]
            rw [e1]
            simp only [Option.bind_some, Bool.not_true, Bool.false_eq_true, if_false]
            rcases svtSpend_cases E (left l2 (copies E.nothrowMove us.length)) with ⟨hs3, hnm, hl3, ht3⟩ | ⟨l3, hs3, ht3⟩
            · rw [show throws (left l2 (copies E.nothrowMove us.length)) (copies E.nothrowMove 1) = true from ht3 0]
              simp only [hs3, if_true]
              have h8 : throws l2 (copies E.nothrowMove (us.length + 1)) = true := by
                rw [copies_add, throws_add, show throws (left l2 (copies E.nothrowMove us.length)) (copies E.nothrowMove 1) = true from ht3 0]; simp
              have hrl : reached l = reached l2 + 1 := (ht2 _).2.2 h8
              have h9 : throws l (copies E.nothrowMove (us.length + 1 + 1)) = true := by rw [(ht2 _).1, h8]
              have hr : reached limit = reached l2 + 1 + 1 := by rw [cbSpend_reached hs h9, hrl]
              have hreach : reached l2 = us.length := by
                obtain ⟨_, h10⟩ := copies_throws h8
                have h11 := (reached_of_throws h10)
                rw [hnm] at hth hl3
                rw [h11.1] at hl3 hth
                simp only [copies, left, Option.map_some, Option.some.injEq] at hl3
                have := h11.2
                simp only [throws, copies, Bool.false_eq_true, if_false, decide_eq_false_iff_not, Nat.not_lt] at hth
                simp at hl3
                omega
              have hol := hoplen (1 + us.length) (by omega) (by omega)
              obtain ⟨g1, g2⟩ := k.inPlace (opened E.moved v.items (1 + us.length)) (by omega) (hoff.trans e3) (by
                rw [e2]; simp only [svtBody, hol]; rw [show 0 + 1 + us.length = 1 + us.length by omega, Nat.sub_sub])
              rw [if_neg (by omega), hr, hreach, show us.length + 1 + 1 - 1 = 1 + us.length by omega]
              refine ⟨h3, _, ?_, g1, g2⟩
              rw [hol]
              simp [k.cap]
            · rw [show throws (left l2 (copies E.nothrowMove us.length)) (copies E.nothrowMove 1) = false by
                rw [(ht3 0).1]; simp [copies, throws_zero]]
              simp only [hs3, Bool.false_eq_true, if_false]
              obtain ⟨y, ys, hsp, hys⟩ : ∃ y ys, opened E.moved v.items (0 + 1 + us.length) = pre ++ y :: v.items.drop i ∧ ys = v.items.drop i := by
                have hdrop : v.items.drop i ≠ [] := by simp; omega
                obtain ⟨y, ys, hy⟩ := List.exists_cons_of_ne_nil hdrop
                refine ⟨E.moved y, _, ?_, rfl⟩
                unfold opened
                rw [show v.items.length - (0 + 1 + us.length) = i by omega, hy]
                have : v.items.take i = pre := by rw [hitems, ← hpre]; simp
                rw [this]; simp
              rw [hsp] at e2
              obtain ⟨h4, p1, p2, p3⟩ := svtPutAt_at x (h := h3) (a := o.cur) (pre := pre.map some) (y := y) (rest := (v.items.drop i).map some ++ List.replicate (v.cap - v.items.length - 1) none)
                (by rw [e2]; simp)
              rw [List.length_map, hpre] at p1
              have htk : v.items.take i = pre := by rw [hitems, ← hpre]; simp
              have hal : (v.items.take i ++ x :: v.items.drop i).length = v.items.length + 1 := by simp; omega
              obtain ⟨g1, g2⟩ := k.inPlace (v.items.take i ++ x :: v.items.drop i) (by omega) ((hoff.trans e3).trans p3) (by
                rw [p2]; simp only [svtBody, hal, Nat.sub_sub]; simp [htk])
              refine ⟨h4, _, ?_, g1, g2⟩
              rw [p1, hal]
              simp [k.cap]

end Gapp.Model
