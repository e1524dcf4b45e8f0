import Verif.Model.SmallVector
import Verif.Proofs.MergePareto
/-!
# The memory operations of the vector
-/

namespace Gapp.Model

variable {α : Type}

/-- The cells after the objects `xs` were put into the cells from `i` on. -/
def cput (f : Nat → Option α) (i : Nat) (xs : List α) : Nat → Option α :=
  fun k => if i ≤ k ∧ k < i + xs.length then xs[k - i]? else f k

/-- The cells after the objects in the `n` cells from `i` on were destroyed. -/
def cdel (E : SVEnv α) (f : Nat → Option α) (i n : Nat) : Nat → Option α :=
  fun k => if E.trivial = false ∧ i ≤ k ∧ k < i + n then none else f k

theorem cput_nil (f : Nat → Option α) (i : Nat) : cput f i [] = f := by
  funext k; unfold cput; split <;> grind

theorem cput_cons (f : Nat → Option α) (i : Nat) (a : α) (as : List α) :
    cput (upd f i (some a)) (i + 1) as = cput f i (a :: as) := by
  funext k
  unfold cput upd
  grind

theorem cdel_zero (E : SVEnv α) (f : Nat → Option α) (i : Nat) : cdel E f i 0 = f := by
  funext k; unfold cdel; split <;> grind

theorem regConstruct_ok (E : SVEnv α) (r : Region α) (i : Nat) (a : α) (hi : i < r.cap)
    (hr : E.trivial = false → r.cells i = none) :
    regConstruct E r i a = .ok ⟨r.cap, upd r.cells i (some a)⟩ := by
  unfold regConstruct
  rw [if_pos]
  refine ⟨hi, ?_⟩
  cases ht : E.trivial
  · simp [hr ht]
  · rfl

theorem regAssign_ok (r : Region α) (i : Nat) (a : α) (hi : i < r.cap) (hr : (r.cells i).isSome) :
    regAssign r i a = .ok ⟨r.cap, upd r.cells i (some a)⟩ := by
  unfold regAssign
  rw [if_pos ⟨hi, hr⟩]

theorem regRead_ok (r : Region α) (i : Nat) (a : α) (hi : i < r.cap) (hr : r.cells i = some a) :
    regRead r i = .ok a := by
  unfold regRead
  rw [if_pos hi, hr]

theorem regMoveOut_ok (E : SVEnv α) (r : Region α) (i : Nat) (a : α) (hi : i < r.cap) (hr : r.cells i = some a) :
    regMoveOut E r i = .ok (a, ⟨r.cap, upd r.cells i (some (E.moved a))⟩) := by
  unfold regMoveOut
  rw [regRead_ok r i a hi hr]
  show (do let r ← regAssign r i (E.moved a); Except.ok (a, r)) = _
  rw [regAssign_ok r i _ hi (by simp [hr])]
  rfl

theorem regConstructRange_ok (E : SVEnv α) : ∀ (xs : List α) (r : Region α) (i : Nat), i + xs.length ≤ r.cap →
    (E.trivial = false → ∀ k, i ≤ k → k < i + xs.length → r.cells k = none) →
    regConstructRange E r i xs = .ok ⟨r.cap, cput r.cells i xs⟩
  | [], r, i, _, _ => by rw [cput_nil]; rfl
  | a :: as, r, i, hc, hr => by
    simp only [List.length_cons] at hc hr
    unfold regConstructRange
    rw [regConstruct_ok E r i a (by omega) (fun ht => hr ht i (by omega) (by omega))]
    show regConstructRange E _ (i + 1) as = _
    rw [regConstructRange_ok E as _ (i + 1) (by show i + 1 + as.length ≤ r.cap; omega)
      (fun ht k h1 h2 => by
        show upd r.cells i (some a) k = none
        rw [upd_ne _ _ (by omega)]
        exact hr ht k (by omega) (by omega))]
    show Except.ok (Region.mk r.cap (cput (upd r.cells i (some a)) (i + 1) as)) = _
    rw [cput_cons]

theorem regAssignRange_ok : ∀ (xs : List α) (r : Region α) (i : Nat), i + xs.length ≤ r.cap →
    (∀ k, i ≤ k → k < i + xs.length → (r.cells k).isSome) →
    regAssignRange r i xs = .ok ⟨r.cap, cput r.cells i xs⟩
  | [], r, i, _, _ => by rw [cput_nil]; rfl
  | a :: as, r, i, hc, hr => by
    simp only [List.length_cons] at hc hr
    unfold regAssignRange
    rw [regAssign_ok r i a (by omega) (hr i (by omega) (by omega))]
    show regAssignRange _ (i + 1) as = _
    rw [regAssignRange_ok as _ (i + 1) (by show i + 1 + as.length ≤ r.cap; omega)
      (fun k h1 h2 => by
        show (upd r.cells i (some a) k).isSome
        rw [upd_ne _ _ (by omega)]
        exact hr k (by omega) (by omega))]
    show Except.ok (Region.mk r.cap (cput (upd r.cells i (some a)) (i + 1) as)) = _
    rw [cput_cons]

theorem regDestroyRange_ok (E : SVEnv α) : ∀ (n : Nat) (r : Region α) (i : Nat), i + n ≤ r.cap →
    (E.trivial = false → ∀ k, i ≤ k → k < i + n → (r.cells k).isSome) →
    regDestroyRange E r i n = .ok ⟨r.cap, cdel E r.cells i n⟩
  | 0, r, i, _, _ => by rw [cdel_zero]; rfl
  | n + 1, r, i, hc, hr => by
    unfold regDestroyRange
    cases ht : E.trivial
    · have e : regDestroy E r i = .ok ⟨r.cap, upd r.cells i none⟩ := by
        unfold regDestroy
        rw [if_neg (by simp [ht]), if_pos ⟨by omega, hr ht i (by omega) (by omega)⟩]
      rw [e]
      show regDestroyRange E _ (i + 1) n = _
      rw [regDestroyRange_ok E n _ (i + 1) (by show i + 1 + n ≤ r.cap; omega)
        (fun _ k h1 h2 => by
          show (upd r.cells i none k).isSome
          rw [upd_ne _ _ (by omega)]
          exact hr ht k (by omega) (by omega))]
      have : cdel E (upd r.cells i none) (i + 1) n = cdel E r.cells i (n + 1) := by
        funext k; unfold cdel upd; grind
      show Except.ok (Region.mk r.cap (cdel E (upd r.cells i none) (i + 1) n)) = _
      rw [this]
    · have e : regDestroy E r i = .ok r := by
        unfold regDestroy
        rw [if_pos ht]
      rw [e]
      show regDestroyRange E r (i + 1) n = _
      rw [regDestroyRange_ok E n _ (i + 1) (by omega) (fun h => absurd (ht.symm.trans h) (by simp))]
      have : cdel E r.cells (i + 1) n = cdel E r.cells i (n + 1) := by
        funext k; unfold cdel; rw [ht]; simp
      rw [this]

theorem regRelocate_ok (E : SVEnv α) : ∀ (xs : List α) (src dst : Region α) (i j : Nat), i + xs.length ≤ src.cap →
    j + xs.length ≤ dst.cap → (∀ k < xs.length, src.cells (i + k) = xs[k]?) →
    (E.trivial = false → ∀ k, j ≤ k → k < j + xs.length → dst.cells k = none) →
    regRelocate E src i dst j xs.length =
      .ok (⟨src.cap, cput src.cells i (xs.map E.moved)⟩, ⟨dst.cap, cput dst.cells j xs⟩)
  | [], src, dst, i, j, _, _, _, _ => by simp only [List.map_nil, cput_nil]; rfl
  | a :: as, src, dst, i, j, h1, h2, hs, hr => by
    simp only [List.length_cons] at h1 h2 hs hr ⊢
    unfold regRelocate
    rw [regMoveOut_ok E src i a (by omega) (by simpa using hs 0 (by omega))]
    show (do let dst ← regConstruct E dst j a; regRelocate E _ (i + 1) dst (j + 1) as.length) = _
    rw [regConstruct_ok E dst j a (by omega) (fun ht => hr ht j (by omega) (by omega))]
    show regRelocate E _ (i + 1) _ (j + 1) as.length = _
    rw [regRelocate_ok E as _ _ (i + 1) (j + 1) (by show i + 1 + as.length ≤ src.cap; omega)
      (by show j + 1 + as.length ≤ dst.cap; omega)
      (fun k hk => by
        show upd src.cells i _ (i + 1 + k) = _
        rw [upd_ne _ _ (by omega)]
        have := hs (k + 1) (by omega)
        rw [List.getElem?_cons_succ] at this
        rw [← this]
        congr 1; omega)
      (fun ht k h1 h2 => by
        show upd dst.cells j _ k = none
        rw [upd_ne _ _ (by omega)]
        exact hr ht k (by omega) (by omega))]
    show Except.ok (Region.mk src.cap (cput (upd src.cells i (some (E.moved a))) (i + 1) (as.map E.moved)),
      Region.mk dst.cap (cput (upd dst.cells j (some a)) (j + 1) as)) = _
    rw [cput_cons, cput_cons, List.map_cons]

theorem regRelocateIn_ok (E : SVEnv α) : ∀ (xs : List α) (r : Region α) (i j : Nat), i + xs.length ≤ j →
    j + xs.length ≤ r.cap → (∀ k < xs.length, r.cells (i + k) = xs[k]?) →
    (E.trivial = false → ∀ k, j ≤ k → k < j + xs.length → r.cells k = none) →
    regRelocateIn E r i j xs.length = .ok ⟨r.cap, cput (cput r.cells i (xs.map E.moved)) j xs⟩
  | [], r, i, j, _, _, _, _ => by simp only [List.map_nil, cput_nil]; rfl
  | a :: as, r, i, j, h1, h2, hs, hr => by
    simp only [List.length_cons] at h1 h2 hs hr ⊢
    unfold regRelocateIn
    rw [regMoveOut_ok E r i a (by omega) (by simpa using hs 0 (by omega))]
    show (do let r ← regConstruct E _ j a; regRelocateIn E r (i + 1) (j + 1) as.length) = _
    rw [regConstruct_ok E _ j a (by show j < r.cap; omega) (fun ht => by
      show upd r.cells i _ j = none
      rw [upd_ne _ _ (by omega)]
      exact hr ht j (by omega) (by omega))]
    show regRelocateIn E _ (i + 1) (j + 1) as.length = _
    rw [regRelocateIn_ok E as _ (i + 1) (j + 1) (by omega) (by show j + 1 + as.length ≤ r.cap; omega)
      (fun k hk => by
        show upd (upd r.cells i _) j _ (i + 1 + k) = _
        rw [upd_ne _ _ (by omega), upd_ne _ _ (by omega)]
        have := hs (k + 1) (by omega)
        rw [List.getElem?_cons_succ] at this
        rw [← this]
        congr 1; omega)
      (fun ht k h1 h2 => by
        show upd (upd r.cells i _) j _ k = none
        rw [upd_ne _ _ (by omega), upd_ne _ _ (by omega)]
        exact hr ht k (by omega) (by omega))]
    congr 2
    show cput (cput (upd (upd r.cells i (some (E.moved a))) j (some a)) (i + 1) (as.map E.moved)) (j + 1) as = _
    funext k
    unfold cput upd
    simp only [List.length_map, List.length_cons, List.map_cons]
    grind

theorem regShiftRight_ok (E : SVEnv α) : ∀ (n : Nat) (r : Region α) (i : Nat), i + n < r.cap →
    (∀ k, i ≤ k → k ≤ i + n → (r.cells k).isSome) →
    ∃ r', regShiftRight E r i n = .ok r' ∧ r'.cap = r.cap ∧ (r'.cells i).isSome ∧
      (∀ k, i ≤ k → k < i + n → r'.cells (k + 1) = r.cells k) ∧ ∀ k, k < i ∨ i + n < k → r'.cells k = r.cells k
  | 0, r, i, _, hl => ⟨r, rfl, rfl, hl i (by omega) (by omega), by intros; omega, by intros; rfl⟩
  | n + 1, r, i, hc, hl => by
    obtain ⟨a, ha⟩ := Option.isSome_iff_exists.mp (hl (i + n) (by omega) (by omega))
    have e0 : regShiftRight E r i (n + 1) = regShiftRight E
        ⟨r.cap, upd (upd r.cells (i + n) (some (E.moved a))) (i + n + 1) (some a)⟩ i n := by
      conv => lhs; unfold regShiftRight
      rw [regMoveOut_ok E r (i + n) a (by omega) ha]
      show (do let r ← regAssign _ (i + n + 1) a; regShiftRight E r i n) = _
      rw [regAssign_ok _ (i + n + 1) a (by show i + n + 1 < r.cap; omega) (by
        show (upd r.cells (i + n) _ (i + n + 1)).isSome
        rw [upd_ne _ _ (by omega)]
        exact hl _ (by omega) (by omega))]
      rfl
    rw [e0]
    obtain ⟨r', e, hcap, h1, h2, h3⟩ := regShiftRight_ok E n
      ⟨r.cap, upd (upd r.cells (i + n) (some (E.moved a))) (i + n + 1) (some a)⟩ i (by show i + n < r.cap; omega)
      (by
        intro k hk1 hk2
        show (upd (upd r.cells (i + n) _) (i + n + 1) _ k).isSome
        rw [upd_ne _ _ (by omega)]
        by_cases hk : k = i + n
        · subst hk; rw [upd_same]; rfl
        · rw [upd_ne _ _ hk]; exact hl k (by omega) (by omega))
    refine ⟨r', e, hcap, h1, ?_, ?_⟩
    · intro k hk1 hk2
      by_cases hk : k = i + n
      · subst hk
        rw [h3 _ (by omega)]
        show upd (upd r.cells (i + n) _) (i + n + 1) _ (i + n + 1) = _
        rw [upd_same, ha]
      · rw [h2 k hk1 (by omega)]
        show upd (upd r.cells (i + n) _) (i + n + 1) _ k = _
        rw [upd_ne _ _ (by omega), upd_ne _ _ hk]
    · intro k hk
      rw [h3 k (by omega)]
      show upd (upd r.cells (i + n) _) (i + n + 1) _ k = _
      rw [upd_ne _ _ (by omega), upd_ne _ _ (by omega)]

theorem regMoveDown_ok (E : SVEnv α) : ∀ (n : Nat) (r : Region α) (i j : Nat), i < j → j + n ≤ r.cap →
    (∀ k, i ≤ k → k < j + n → (r.cells k).isSome) →
    ∃ r', regMoveDown E r i j n = .ok r' ∧ r'.cap = r.cap ∧ (∀ k, i ≤ k → k < j + n → (r'.cells k).isSome) ∧
      (∀ k < n, r'.cells (i + k) = r.cells (j + k)) ∧ ∀ k, k < i ∨ j + n ≤ k → r'.cells k = r.cells k
  | 0, r, i, j, _, _, hl => ⟨r, rfl, rfl, hl, by intros; omega, by intros; rfl⟩
  | n + 1, r, i, j, hij, hc, hl => by
    obtain ⟨a, ha⟩ := Option.isSome_iff_exists.mp (hl j (by omega) (by omega))
    have e0 : regMoveDown E r i j (n + 1) = regMoveDown E
        ⟨r.cap, upd (upd r.cells j (some (E.moved a))) i (some a)⟩ (i + 1) (j + 1) n := by
      conv => lhs; unfold regMoveDown
      rw [regMoveOut_ok E r j a (by omega) ha]
      show (do let r ← regAssign _ i a; regMoveDown E r (i + 1) (j + 1) n) = _
      rw [regAssign_ok _ i a (by show i < r.cap; omega) (by
        show (upd r.cells j _ i).isSome
        rw [upd_ne _ _ (by omega)]
        exact hl _ (by omega) (by omega))]
      rfl
    rw [e0]
    obtain ⟨r', e, hcap, h1, h2, h3⟩ := regMoveDown_ok E n
      ⟨r.cap, upd (upd r.cells j (some (E.moved a))) i (some a)⟩ (i + 1) (j + 1) (by omega)
      (by show j + 1 + n ≤ r.cap; omega)
      (by
        intro k hk1 hk2
        show (upd (upd r.cells j _) i _ k).isSome
        rw [upd_ne _ _ (by omega)]
        by_cases hk : k = j
        · subst hk; rw [upd_same]; rfl
        · rw [upd_ne _ _ hk]; exact hl k (by omega) (by omega))
    have hi' : r'.cells i = some a := by
      rw [h3 i (by omega)]
      exact upd_same _ _ _
    refine ⟨r', e, hcap, ?_, ?_, ?_⟩
    · intro k hk1 hk2
      by_cases hk : k = i
      · subst hk; rw [hi']; rfl
      · exact h1 k (by omega) (by omega)
    · intro k hk
      cases k with
      | zero => rw [Nat.add_zero, hi', Nat.add_zero, ha]
      | succ k =>
        have := h2 k (by omega)
        rw [show i + (k + 1) = i + 1 + k from by omega, this]
        show upd (upd r.cells j _) i _ (j + 1 + k) = _
        rw [upd_ne _ _ (by omega), upd_ne _ _ (by omega)]
        congr 1; omega
    · intro k hk
      rw [h3 k (by omega)]
      show upd (upd r.cells j _) i _ k = _
      rw [upd_ne _ _ (by omega), upd_ne _ _ (by omega)]

theorem regSwapRanges_ok : ∀ (n : Nat) (r s : Region α), n ≤ r.cap → n ≤ s.cap → (∀ k < n, (r.cells k).isSome) →
    (∀ k < n, (s.cells k).isSome) →
    regSwapRanges r s n = .ok (⟨r.cap, fun k => if k < n then s.cells k else r.cells k⟩,
      ⟨s.cap, fun k => if k < n then r.cells k else s.cells k⟩)
  | 0, r, s, _, _, _, _ => by simp [regSwapRanges]
  | n + 1, r, s, h1, h2, hr, hs => by
    obtain ⟨a, ha⟩ := Option.isSome_iff_exists.mp (hr n (by omega))
    obtain ⟨b, hb⟩ := Option.isSome_iff_exists.mp (hs n (by omega))
    unfold regSwapRanges
    rw [regSwapRanges_ok n r s (by omega) (by omega) (fun k hk => hr k (by omega)) (fun k hk => hs k (by omega))]
    show (do
      let a ← regRead ⟨r.cap, fun k => if k < n then s.cells k else r.cells k⟩ n
      let b ← regRead ⟨s.cap, fun k => if k < n then r.cells k else s.cells k⟩ n
      let r ← regAssign _ n b
      let s ← regAssign _ n a
      Except.ok (r, s)) = _
    rw [regRead_ok _ n a (by show n < r.cap; omega) (by simp [ha]),
      regRead_ok _ n b (by show n < s.cap; omega) (by simp [hb])]
    show (do
      let r ← regAssign _ n b
      let s ← regAssign _ n a
      Except.ok (r, s)) = _
    rw [regAssign_ok _ n b (by show n < r.cap; omega) (by simp [ha]),
      regAssign_ok _ n a (by show n < s.cap; omega) (by simp [hb])]
    show Except.ok (Region.mk r.cap _, Region.mk s.cap _) = _
    congr 2
    · congr 1
      funext k; unfold upd; grind
    · congr 1
      funext k; unfold upd; grind

theorem regList_ok : ∀ (xs : List α) (r : Region α) (i : Nat), i + xs.length ≤ r.cap →
    (∀ k < xs.length, r.cells (i + k) = xs[k]?) → regList r i xs.length = .ok xs
  | [], r, i, _, _ => rfl
  | a :: as, r, i, hc, h => by
    simp only [List.length_cons] at hc h ⊢
    unfold regList
    rw [regRead_ok r i a (by omega) (by simpa using h 0 (by omega))]
    show (do let l ← regList r (i + 1) as.length; Except.ok (a :: l)) = _
    rw [regList_ok as r (i + 1) (by omega) (fun k hk => by
      have := h (k + 1) (by omega)
      rw [List.getElem?_cons_succ] at this
      rw [← this]; congr 1; omega)]
    rfl

theorem regMoveList_ok (E : SVEnv α) : ∀ (xs : List α) (r : Region α) (i : Nat), i + xs.length ≤ r.cap →
    (∀ k < xs.length, r.cells (i + k) = xs[k]?) →
    regMoveList E r i xs.length = .ok (xs, ⟨r.cap, cput r.cells i (xs.map E.moved)⟩)
  | [], r, i, _, _ => by simp only [List.map_nil, cput_nil]; rfl
  | a :: as, r, i, hc, h => by
    simp only [List.length_cons] at hc h ⊢
    unfold regMoveList
    rw [regMoveOut_ok E r i a (by omega) (by simpa using h 0 (by omega))]
    show (do let (l, r) ← regMoveList E _ (i + 1) as.length; Except.ok (a :: l, r)) = _
    rw [regMoveList_ok E as _ (i + 1) (by show i + 1 + as.length ≤ r.cap; omega) (fun k hk => by
      show upd r.cells i _ (i + 1 + k) = _
      rw [upd_ne _ _ (by omega)]
      have := h (k + 1) (by omega)
      rw [List.getElem?_cons_succ] at this
      rw [← this]; congr 1; omega)]
    show Except.ok (a :: as, Region.mk r.cap (cput (upd r.cells i (some (E.moved a))) (i + 1) (as.map E.moved))) = _
    rw [cput_cons, List.map_cons]

theorem regFree_ok (E : SVEnv α) (r : Region α) (h : E.trivial = false → ∀ k < r.cap, r.cells k = none) :
    regFree E r = .ok () := by
  unfold regFree
  rw [if_pos]
  cases ht : E.trivial
  · simp only [Bool.false_or, List.all_eq_true, List.mem_range]
    intro k hk
    rw [h ht k hk]; rfl
  · rfl

/-- The value of an argument that is in the region `r`, or outside of it. -/
def argIs (r : Region α) (arg : SVArg α) (a : α) : Prop :=
  match arg with
  | .ext b => b = a
  | .own i => i < r.cap ∧ r.cells i = some a

theorem argRead_ok (r : Region α) (arg : SVArg α) (a : α) (h : argIs r arg a) : argRead r arg = .ok a := by
  cases arg with
  | ext b => simp only [argIs] at h; rw [h]; rfl
  | own i => exact regRead_ok r i a h.1 h.2

theorem argIs_upd {r : Region α} {arg : SVArg α} {a : α} (h : argIs r arg a) (i : Nat) :
    argIs ⟨r.cap, upd r.cells i (some a)⟩ arg a := by
  cases arg with
  | ext b => exact h
  | own k =>
    refine ⟨h.1, ?_⟩
    show upd r.cells i (some a) k = some a
    unfold upd
    split
    · rfl
    · exact h.2

theorem regConstructArg_ok (E : SVEnv α) (arg : SVArg α) (a : α) : ∀ (n : Nat) (r : Region α) (i : Nat), argIs r arg a →
    i + n ≤ r.cap → (E.trivial = false → ∀ k, i ≤ k → k < i + n → r.cells k = none) →
    regConstructArg E r i arg n = .ok ⟨r.cap, cput r.cells i (List.replicate n a)⟩
  | 0, r, i, _, _, _ => by simp only [List.replicate_zero, cput_nil]; rfl
  | n + 1, r, i, ha, hc, hr => by
    unfold regConstructArg
    rw [argRead_ok r arg a ha]
    show (do let r ← regConstruct E r i a; regConstructArg E r (i + 1) arg n) = _
    rw [regConstruct_ok E r i a (by omega) (fun ht => hr ht i (by omega) (by omega))]
    show regConstructArg E _ (i + 1) arg n = _
    rw [regConstructArg_ok E arg a n _ (i + 1) (argIs_upd ha i) (by show i + 1 + n ≤ r.cap; omega)
      (fun ht k h1 h2 => by
        show upd r.cells i (some a) k = none
        rw [upd_ne _ _ (by omega)]
        exact hr ht k (by omega) (by omega))]
    show Except.ok (Region.mk r.cap (cput (upd r.cells i (some a)) (i + 1) (List.replicate n a))) = _
    rw [cput_cons, List.replicate_succ]

theorem regAssignArg_ok (arg : SVArg α) (a : α) : ∀ (n : Nat) (r : Region α) (i : Nat), argIs r arg a →
    i + n ≤ r.cap → (∀ k, i ≤ k → k < i + n → (r.cells k).isSome) →
    regAssignArg r i arg n = .ok ⟨r.cap, cput r.cells i (List.replicate n a)⟩
  | 0, r, i, _, _, _ => by simp only [List.replicate_zero, cput_nil]; rfl
  | n + 1, r, i, ha, hc, hr => by
    unfold regAssignArg
    rw [argRead_ok r arg a ha]
    show (do let r ← regAssign r i a; regAssignArg r (i + 1) arg n) = _
    rw [regAssign_ok r i a (by omega) (hr i (by omega) (by omega))]
    show regAssignArg _ (i + 1) arg n = _
    rw [regAssignArg_ok arg a n _ (i + 1) (argIs_upd ha i) (by show i + 1 + n ≤ r.cap; omega)
      (fun k h1 h2 => by
        show (upd r.cells i (some a) k).isSome
        rw [upd_ne _ _ (by omega)]
        exact hr k (by omega) (by omega))]
    show Except.ok (Region.mk r.cap (cput (upd r.cells i (some a)) (i + 1) (List.replicate n a))) = _
    rw [cput_cons, List.replicate_succ]

end Gapp.Model
