import Verif.Model.SmallVectorThrow
import Verif.Spec.SmallVectorThrow
import Verif.Proofs.CircularOwnership
import Mathlib.Tactic

namespace Gapp.Model
open Spec (IdealVec VecVars)
open Spec.DequeVars (throws)
open Spec.IdealVec (left reached copies grown)
variable {α : Type}

/-- The block `a` is the only one that may differ. -/
def SvtOff (h' h : CbHeap α) (a : Nat) : Prop := ∀ c : Nat, c ≠ a → h'[c]? = h[c]?

/-- The block is allocated. -/
def SvtLive (h : CbHeap α) (a : Nat) : Prop := ∃ slots, h[a]? = some (some slots)

theorem SvtOff.set (h : CbHeap α) (a : Nat) (b : Option (List (Option α))) : SvtOff (h.set a b) h a := by
  intro c hc; simp [Ne.symm hc]

theorem SvtOff.trans {h1 h2 h3 : CbHeap α} {a : Nat} (p : SvtOff h2 h1 a) (q : SvtOff h3 h2 a) : SvtOff h3 h1 a := by
  intro c hc; rw [q c hc, p c hc]

theorem svtAlloc_at (h : CbHeap α) (n : Nat) : (cbAllocate h n)[h.length]? = some (some (List.replicate n none)) := by
  simp [cbAllocate]

theorem svtAlloc_off (h : CbHeap α) (n : Nat) : SvtOff (cbAllocate h n) h h.length := by
  intro c hc
  unfold cbAllocate
  by_cases hlt : c < h.length
  · exact List.getElem?_append_left hlt
  · rw [List.getElem?_eq_none (by simp; omega), List.getElem?_eq_none (by omega)]

theorem svtNotLive_length (h : CbHeap α) : ¬ SvtLive h h.length := by
  rintro ⟨s, hs⟩; simp at hs

theorem svtDealloc_ok {h : CbHeap α} {a n : Nat} (ha : h[a]? = some (some (List.replicate n none))) :
    ∃ h', cbDeallocate h a n = some h' ∧ h'[a]? = some none ∧ SvtOff h' h a := by
  have hl : a < h.length := (List.getElem?_eq_some_iff.mp ha).1
  refine ⟨h.set a none, ?_, by simp [hl], SvtOff.set _ _ _⟩
  unfold cbDeallocate
  simp [ha]

theorem svtConstruct_ok {h : CbHeap α} {a : Nat} {pre rest : List (Option α)} (x : α) (ha : h[a]? = some (some (pre ++ none :: rest))) :
    ∃ h', cbConstruct h a pre.length x = some h' ∧ h'[a]? = some (some (pre ++ some x :: rest)) ∧ SvtOff h' h a := by
  have hl : a < h.length := (List.getElem?_eq_some_iff.mp ha).1
  refine ⟨h.set a (some (pre ++ some x :: rest)), ?_, by simp [hl], SvtOff.set _ _ _⟩
  unfold cbConstruct
  simp [ha]

theorem svtDestroyAt_ok {h : CbHeap α} {a : Nat} {pre rest : List (Option α)} {x : α} (ha : h[a]? = some (some (pre ++ some x :: rest))) :
    ∃ h', cbDestroyAt h a pre.length = some h' ∧ h'[a]? = some (some (pre ++ none :: rest)) ∧ SvtOff h' h a := by
  have hl : a < h.length := (List.getElem?_eq_some_iff.mp ha).1
  refine ⟨h.set a (some (pre ++ none :: rest)), ?_, by simp [hl], SvtOff.set _ _ _⟩
  unfold cbDestroyAt
  simp [ha]

theorem svtDestroyRange_ok {a : Nat} {pre rest : List (Option α)} {h : CbHeap α} (ys : List α) (ha : h[a]? = some (some (pre ++ (ys.map some ++ rest)))) :
    ∃ h', svtDestroyRange h a pre.length ys.length = some h' ∧ h'[a]? = some (some (pre ++ (List.replicate ys.length none ++ rest))) ∧ SvtOff h' h a := by
  suffices ∀ k, k ≤ ys.length → ∃ h', svtDestroyRange h a pre.length k = some h' ∧
      h'[a]? = some (some (pre ++ (List.replicate k none ++ ((ys.drop k).map some ++ rest)))) ∧ SvtOff h' h a by
    obtain ⟨h', h1, h2, h3⟩ := this ys.length (Nat.le_refl _)
    exact ⟨h', h1, by rw [h2]; simp, h3⟩
  intro k
  induction k with
  | zero => intro _; exact ⟨h, rfl, by rw [ha]; simp, fun _ _ => rfl⟩
  | succ k ih =>
    intro hk
    obtain ⟨h1, e1, e2, e3⟩ := ih (by omega)
    have hd : ys.drop k = ys[k] :: ys.drop (k + 1) := List.drop_eq_getElem_cons (by omega)
    obtain ⟨h2, f1, f2, f3⟩ := svtDestroyAt_ok (h := h1) (a := a) (pre := pre ++ List.replicate k none) (x := ys[k]) (rest := (ys.drop (k + 1)).map some ++ rest)
      (by rw [e2, hd, List.map_cons, List.cons_append, List.append_assoc])
    refine ⟨h2, ?_, ?_, e3.trans f3⟩
    · unfold svtDestroyRange at e1 ⊢
      rw [foldlM_range_succ, e1, Option.bind_some]
      simpa using f1
    · rw [f2, List.replicate_succ']; simp

theorem left_zero (limit : Option Nat) : left limit 0 = limit := by cases limit <;> simp [left]

theorem cbSpend_left {limit l : Option Nat} (n : Nat) (h : cbSpend limit = some l) : left limit (n + 1) = left l n := by
  rcases limit with _ | _ | k
  · simp only [cbSpend, Option.some.injEq] at h; subst h; rfl
  · simp [cbSpend] at h
  · simp only [cbSpend, Option.some.injEq] at h; subst h; simp [left]

theorem cbSpend_reached {limit l : Option Nat} {n : Nat} (h : cbSpend limit = some l) (ht : throws l n = true) : reached limit = reached l + 1 := by
  rcases limit with _ | _ | k
  · simp only [cbSpend, Option.some.injEq] at h; subst h; simp [throws] at ht
  · simp [cbSpend] at h
  · simp only [cbSpend, Option.some.injEq] at h; subst h; simp [reached]

theorem cbSpend_cases (limit : Option Nat) :
    (cbSpend limit = none ∧ limit = some 0 ∧ ∀ n, throws limit (n + 1) = true) ∨
    ∃ l, cbSpend limit = some l ∧ ∀ n, throws limit (n + 1) = throws l n ∧ left limit (n + 1) = left l n := by
  rcases hsp : cbSpend limit with _ | l
  · exact Or.inl ⟨rfl, (cbSpend_none 0 hsp).2, fun n => (cbSpend_none n hsp).1⟩
  · exact Or.inr ⟨l, rfl, fun n => ⟨cbSpend_some n hsp, cbSpend_left n hsp⟩⟩

/-- `construct_range`. -/
theorem svtFill_ok (a : Nat) (pre : List (Option α)) (xs : List α) : ∀ (ys : List α) (r : Nat) (h : CbHeap α) (limit : Option Nat),
    h[a]? = some (some (pre ++ (ys.map some ++ List.replicate r none))) → xs.length ≤ r →
    (throws limit xs.length = true → ∃ h', svtFill a pre.length h ys.length xs limit = some (h', false, some 0) ∧
      h'[a]? = some (some (pre ++ List.replicate (ys.length + r) none)) ∧ SvtOff h' h a) ∧
    (throws limit xs.length = false → ∃ h', svtFill a pre.length h ys.length xs limit = some (h', true, left limit xs.length) ∧
      h'[a]? = some (some (pre ++ ((ys ++ xs).map some ++ List.replicate (r - xs.length) none))) ∧ SvtOff h' h a) := by
  induction xs with
  | nil =>
    intro ys r h limit ha hr
    refine ⟨fun ht => ?_, fun _ => ⟨h, ?_, by rw [ha]; simp, fun _ _ => rfl⟩⟩
    · rw [List.length_nil, throws_zero] at ht; cases ht
    · rw [List.length_nil, left_zero]; rfl
  | cons x xs ih =>
    intro ys r h limit ha hr
    rw [List.length_cons] at hr ⊢
    rcases cbSpend_cases limit with ⟨hs, hl, ht⟩ | ⟨l, hs, ht⟩
    · refine ⟨fun _ => ?_, fun hf => by rw [ht] at hf; cases hf⟩
      obtain ⟨h', e1, e2, e3⟩ := svtDestroyRange_ok ys ha
      refine ⟨h', ?_, ?_, e3⟩
      · unfold svtFill; simp [hs, e1]
      · rw [e2, List.replicate_append_replicate]
    · obtain ⟨r', rfl⟩ : ∃ r', r = r' + 1 := ⟨r - 1, by omega⟩
      obtain ⟨h1, e1, e2, e3⟩ := svtConstruct_ok (pre := pre ++ ys.map some) (rest := List.replicate r' none) (a := a) (h := h) x
        (by rw [ha, List.replicate_succ]; simp)
      have e1' : cbConstruct h a (pre.length + ys.length) x = some h1 := by simpa using e1
      have hstep : svtFill a pre.length h ys.length (x :: xs) limit = svtFill a pre.length h1 (ys ++ [x]).length xs l := by
        conv_lhs => unfold svtFill
        simp [hs, e1']
      obtain ⟨i1, i2⟩ := ih (ys ++ [x]) r' h1 l (by rw [e2]; simp) (by omega)
      rw [(ht _).1, (ht _).2, hstep]
      refine ⟨fun hf => ?_, fun hf => ?_⟩
      · obtain ⟨h', f1, f2, f3⟩ := i1 hf
        refine ⟨h', f1, ?_, e3.trans f3⟩
        rw [f2]; simp only [List.length_append, List.length_singleton]
        rw [show ys.length + 1 + r' = ys.length + (r' + 1) by omega]
      · obtain ⟨h', f1, f2, f3⟩ := i2 hf
        refine ⟨h', f1, ?_, e3.trans f3⟩
        rw [f2]; simp

/-- `relocate_range`. -/
theorem svtRelocate_ok (E : SvtEnv α) (moving : Bool) {a b : Nat} (hab : a ≠ b) (zs : List α) :
    ∀ (ys : List α) (srest drest : List (Option α)) (h : CbHeap α) (limit : Option Nat),
    h[a]? = some (some ((ys.map (if moving then E.moved else id)).map some ++ (zs.map some ++ srest))) →
    h[b]? = some (some (ys.map some ++ (List.replicate zs.length none ++ drest))) →
    (E.nothrowMove = false → throws limit zs.length = true → ∃ h', svtRelocate E moving a 0 b 0 h ys.length zs.length limit = some (h', false, some 0) ∧
      h'[a]? = some (some ((ys.map (if moving then E.moved else id)).map some ++
        (((zs.take (reached limit)).map (if moving then E.moved else id)).map some ++ ((zs.drop (reached limit)).map some ++ srest)))) ∧
      h'[b]? = some (some (List.replicate (ys.length + zs.length) none ++ drest)) ∧ ∀ c : Nat, c ≠ a → c ≠ b → h'[c]? = h[c]?) ∧
    (throws limit (copies E.nothrowMove zs.length) = false → ∃ h',
      svtRelocate E moving a 0 b 0 h ys.length zs.length limit = some (h', true, left limit (copies E.nothrowMove zs.length)) ∧
      h'[a]? = some (some (((ys ++ zs).map (if moving then E.moved else id)).map some ++ srest)) ∧
      h'[b]? = some (some ((ys ++ zs).map some ++ drest)) ∧ ∀ c : Nat, c ≠ a → c ≠ b → h'[c]? = h[c]?) := by
  induction zs with
  | nil =>
    intro ys srest drest h limit h1 h2
    refine ⟨fun _ ht => ?_, fun _ => ⟨h, ?_, by rw [h1]; simp, by rw [h2]; simp, fun _ _ _ => rfl⟩⟩
    · rw [List.length_nil, throws_zero] at ht; cases ht
    · have : copies E.nothrowMove ([] : List α).length = 0 := by simp [copies]
      rw [this, left_zero]; rfl
  | cons z zs ih =>
    intro ys srest drest h limit h1 h2
    set mv : α → α := if moving then E.moved else id with hmv
    have hal : a < h.length := (List.getElem?_eq_some_iff.mp h1).1
    have hstep : ∀ l, (if E.nothrowMove then some limit else cbSpend limit) = some l →
        ∃ h', svtRelocate E moving a 0 b 0 h ys.length (zs.length + 1) limit = svtRelocate E moving a 0 b 0 h' (ys ++ [z]).length zs.length l ∧
          h'[a]? = some (some (((ys ++ [z]).map mv).map some ++ (zs.map some ++ srest))) ∧
          h'[b]? = some (some ((ys ++ [z]).map some ++ (List.replicate zs.length none ++ drest))) ∧ ∀ c : Nat, c ≠ a → c ≠ b → h'[c]? = h[c]? := by
      intro l hl
      have htake : ∃ hh, svtTake E moving h a ys.length = some (z, hh) ∧
          hh[a]? = some (some ((ys.map mv).map some ++ (some (mv z) :: (zs.map some ++ srest)))) ∧ SvtOff hh h a := by
        have hslot : ((ys.map mv).map some ++ ((z :: zs).map some ++ srest))[ys.length]? = some (some z) := by
          rw [List.getElem?_append_right (by simp)]; simp
        cases hm : moving with
        | false =>
          refine ⟨h, ?_, ?_, fun _ _ => rfl⟩
          · unfold svtTake; simp only [h1, hslot]; rfl
          · have : mv = id := by rw [hmv, hm]; rfl
            rw [h1, this]; simp
        | true =>
          have : mv = E.moved := by rw [hmv, hm]; rfl
          refine ⟨h.set a (some (((ys.map mv).map some ++ ((z :: zs).map some ++ srest)).set ys.length (some (E.moved z)))), ?_, ?_, SvtOff.set _ _ _⟩
          · unfold svtTake; simp only [h1, hslot]; rfl
          · rw [List.getElem?_set_self hal, List.set_append_right _ _ (by simp), this]
            simp
      obtain ⟨hh, t1, t2, t3⟩ := htake
      obtain ⟨h', c1, c2, c3⟩ := svtConstruct_ok (h := hh) (a := b) (pre := ys.map some) (rest := List.replicate zs.length none ++ drest) z
        (by rw [t3 b (Ne.symm hab), h2]; simp [List.replicate_succ])
      refine ⟨h', ?_, ?_, ?_, ?_⟩
      · conv_lhs => unfold svtRelocate
        rw [hl]
        have c1' : cbConstruct hh b ys.length z = some h' := by simpa using c1
        simp [t1, c1']
      · rw [c3 a hab, t2]; simp
      · rw [c2]; simp
      · intro c hca hcb; rw [c3 c hcb, t3 c hca]
    rw [List.length_cons]
    cases hn : E.nothrowMove with
    | true =>
      refine ⟨fun hf => (by cases hf), fun _ => ?_⟩
      obtain ⟨h', e1, e2, e3, e4⟩ := hstep limit (by simp [hn])
      obtain ⟨_, i2⟩ := ih (ys ++ [z]) srest drest h' limit e2 e3
      rw [hn] at i2
      obtain ⟨h'', f1, f2, f3, f4⟩ := i2 (by simp [copies, throws_zero])
      refine ⟨h'', ?_, ?_, ?_, ?_⟩
      · rw [e1, f1]; simp [copies]
      · rw [f2]; simp
      · rw [f3]; simp
      · intro c hca hcb; rw [f4 c hca hcb, e4 c hca hcb]
    | false =>
      have hcp : ∀ n, copies false n = n := fun n => rfl
      rw [hn] at ih
      simp only [hcp] at ih ⊢
      rcases cbSpend_cases limit with ⟨hs, hl, ht⟩ | ⟨l, hs, ht⟩
      · refine ⟨fun _ _ => ?_, fun hf => by rw [ht] at hf; cases hf⟩
        obtain ⟨h', e1, e2, e3⟩ := svtDestroyRange_ok (pre := []) ys (by rw [h2]; rfl)
        refine ⟨h', ?_, ?_, ?_, fun c _ hcb => e3 c hcb⟩
        · unfold svtRelocate
          have e1' : svtDestroyRange h b 0 ys.length = some h' := e1
          simp [hn, hs, e1']
        · rw [e3 a hab, h1, hl]; simp [reached]
        · rw [e2, List.nil_append, ← List.append_assoc, List.replicate_append_replicate]; rfl
      · obtain ⟨h', e1, e2, e3, e4⟩ := hstep l (by simp [hn, hs])
        obtain ⟨i1, i2⟩ := ih (ys ++ [z]) srest drest h' l e2 e3
        rw [(ht _).1, (ht _).2, e1]
        refine ⟨fun _ hf => ?_, fun hf => ?_⟩
        · obtain ⟨h'', f1, f2, f3, f4⟩ := i1 trivial hf
          refine ⟨h'', f1, ?_, ?_, ?_⟩
          · rw [f2, cbSpend_reached hs hf]; simp
          · rw [f3]; simp only [List.length_append, List.length_singleton]; rw [show ys.length + 1 + zs.length = ys.length + (zs.length + 1) by omega]
          · intro c hca hcb; rw [f4 c hca hcb, e4 c hca hcb]
        · obtain ⟨h'', f1, f2, f3, f4⟩ := i2 hf
          refine ⟨h'', f1, ?_, ?_, ?_⟩
          · rw [f2]; simp
          · rw [f3]; simp
          · intro c hca hcb; rw [f4 c hca hcb, e4 c hca hcb]

/-- The blocks of a variable. -/
def SvtOwns (o : SvtObj) (a : Nat) : Prop := o.inl = a ∨ o.cur = a

/-- What a block with the elements of the vector looks like. -/
def svtBody (v : IdealVec α) : List (Option α) := v.items.map some ++ List.replicate (v.cap - v.items.length) none

/-- The memory of a variable represents the ideal vector. -/
structure SvtOk (S : Nat) (h : CbHeap α) (o : SvtObj) (v : IdealVec α) : Prop where
  size : o.size = v.items.length
  cap : o.cap = v.cap
  le : v.items.length ≤ v.cap
  cur : h[o.cur]? = some (some (svtBody v))
  place : (o.cur = o.inl ∧ v.cap = S) ∨ (o.cur ≠ o.inl ∧ S < v.cap ∧ h[o.inl]? = some (some (List.replicate S none)))

theorem SvtOk.inl_live {S : Nat} {h : CbHeap α} {o : SvtObj} {v : IdealVec α} (k : SvtOk S h o v) : SvtLive h o.inl := by
  rcases k.place with ⟨e, _⟩ | ⟨_, _, e⟩
  · exact ⟨_, by rw [← e]; exact k.cur⟩
  · exact ⟨_, e⟩

theorem SvtOk.live {S : Nat} {h : CbHeap α} {o : SvtObj} {v : IdealVec α} (k : SvtOk S h o v) {a : Nat} (ha : SvtOwns o a) : SvtLive h a := by
  rcases ha with rfl | rfl
  · exact k.inl_live
  · exact ⟨_, k.cur⟩

theorem SvtOk.frame {S : Nat} {h h' : CbHeap α} {o : SvtObj} {v : IdealVec α} (k : SvtOk S h o v) (hf : ∀ a, SvtOwns o a → h'[a]? = h[a]?) : SvtOk S h' o v := by
  refine ⟨k.size, k.cap, k.le, by rw [hf _ (Or.inr rfl)]; exact k.cur, ?_⟩
  rcases k.place with e | ⟨e1, e2, e3⟩
  · exact Or.inl e
  · exact Or.inr ⟨e1, e2, by rw [hf _ (Or.inl rfl)]; exact e3⟩

/-- A call that only touches the blocks of one variable and new ones. -/
structure SvtLocal (h : CbHeap α) (o : Option SvtObj) (h' : CbHeap α) (o' : Option SvtObj) : Prop where
  frame : ∀ a, SvtLive h a → (∀ p, o = some p → ¬ SvtOwns p a) → h'[a]? = h[a]?
  new : ∀ p a, o' = some p → SvtOwns p a → (∃ q, o = some q ∧ SvtOwns q a) ∨ ¬ SvtLive h a
  clean : ∀ a, SvtLive h' a → (∃ p, o' = some p ∧ SvtOwns p a) ∨ (SvtLive h a ∧ ∀ p, o = some p → ¬ SvtOwns p a)

theorem SvtLive.congr {h h' : CbHeap α} {a : Nat} (e : h'[a]? = h[a]?) (k : SvtLive h a) : SvtLive h' a := by
  obtain ⟨s, hs⟩ := k; exact ⟨s, by rw [e, hs]⟩

theorem SvtLocal.refl (h : CbHeap α) (o : Option SvtObj) : SvtLocal h o h o := by
  refine ⟨fun _ _ _ => rfl, fun p a e k => Or.inl ⟨p, e, k⟩, fun a k => ?_⟩
  by_cases e : ∃ p, o = some p ∧ SvtOwns p a
  · exact Or.inl e
  · exact Or.inr ⟨k, fun p hp hq => e ⟨p, hp, hq⟩⟩

theorem SvtLocal.trans {h1 h2 h3 : CbHeap α} {o1 o2 o3 : Option SvtObj} (p : SvtLocal h1 o1 h2 o2) (q : SvtLocal h2 o2 h3 o3) : SvtLocal h1 o1 h3 o3 := by
  refine ⟨?_, ?_, ?_⟩
  · intro a hl hn
    have e := p.frame a hl hn
    rw [q.frame a (hl.congr e) ?_, e]
    intro o ho hoa
    rcases p.new o a ho hoa with ⟨r, h4, h5⟩ | h4
    · exact hn r h4 h5
    · exact h4 hl
  · intro o a ho hoa
    rcases q.new o a ho hoa with ⟨r, h4, h5⟩ | h4
    · exact p.new r a h4 h5
    · by_cases hl : SvtLive h1 a
      · left
        by_contra hc
        exact h4 (hl.congr (p.frame a hl (fun r hr hra => hc ⟨r, hr, hra⟩)))
      · exact Or.inr hl
  · intro a hl
    rcases q.clean a hl with h4 | ⟨h4, h5⟩
    · exact Or.inl h4
    · rcases p.clean a h4 with ⟨r, h6, h7⟩ | h6
      · exact absurd h7 (h5 r h6)
      · exact Or.inr h6

/-- In place. -/
theorem SvtLocal.inPlace {h h' : CbHeap α} {o o' : SvtObj} (hi : o'.inl = o.inl) (hc : o'.cur = o.cur) (hoff : SvtOff h' h o.cur) :
    SvtLocal h (some o) h' (some o') := by
  have own : ∀ a, SvtOwns o' a ↔ SvtOwns o a := by intro a; unfold SvtOwns; rw [hi, hc]
  refine ⟨?_, ?_, ?_⟩
  · intro a _ hn
    exact hoff a (fun e => hn o rfl (Or.inr e.symm))
  · intro p a e k
    cases e; exact Or.inl ⟨o, rfl, (own a).mp k⟩
  · intro a k
    by_cases e : SvtOwns o a
    · exact Or.inl ⟨o', rfl, (own a).mpr e⟩
    · refine Or.inr ⟨k.congr (hoff a (fun e' => e (Or.inr e'.symm))).symm, ?_⟩
      intro p hp; cases hp; exact e

/-- Into a new block; the old one is freed unless it is the inline buffer. -/
theorem SvtLocal.regrow {h h' : CbHeap α} {o o' : SvtObj} {a : Nat} (hi : o'.inl = o.inl) (hc : o'.cur = a) (ha : ¬ SvtLive h a)
    (hoff : ∀ c : Nat, c ≠ a → c ≠ o.cur → h'[c]? = h[c]?) (hfree : o.cur ≠ o.inl → ¬ SvtLive h' o.cur) : SvtLocal h (some o) h' (some o') := by
  refine ⟨?_, ?_, ?_⟩
  · intro c hl hn
    exact hoff c (fun e => ha (e ▸ hl)) (fun e => hn o rfl (Or.inr e.symm))
  · intro p c e k
    cases e
    rcases k with k | k
    · exact Or.inl ⟨o, rfl, Or.inl (by rw [← hi, k])⟩
    · right; rw [← k, hc]; exact ha
  · intro c k
    by_cases e1 : c = a
    · exact Or.inl ⟨o', rfl, Or.inr (by rw [hc, e1])⟩
    · by_cases e2 : c = o.cur
      · by_cases e3 : o.cur = o.inl
        · exact Or.inl ⟨o', rfl, Or.inl (by rw [hi, e2, e3])⟩
        · exact absurd (e2 ▸ k) (hfree e3)
      · by_cases e3 : c = o.inl
        · exact Or.inl ⟨o', rfl, Or.inl (by rw [hi, e3])⟩
        · refine Or.inr ⟨k.congr (hoff c e1 e2).symm, ?_⟩
          intro p hp hpc; cases hp
          rcases hpc with r | r
          · exact e3 r.symm
          · exact e2 r.symm

/-- Back to the inline buffer. -/
theorem SvtLocal.reset {h h' : CbHeap α} {o o' : SvtObj} (hi : o'.inl = o.inl) (hc : o'.cur = o.inl)
    (hoff : SvtOff h' h o.cur) (hfree : o.cur ≠ o.inl → ¬ SvtLive h' o.cur) : SvtLocal h (some o) h' (some o') := by
  have own : ∀ a, SvtOwns o' a ↔ o.inl = a := by intro a; unfold SvtOwns; rw [hi, hc]; simp
  refine ⟨?_, ?_, ?_⟩
  · intro a _ hn
    exact hoff a (fun e => hn o rfl (Or.inr e.symm))
  · intro p a e k
    cases e; exact Or.inl ⟨o, rfl, Or.inl ((own a).mp k)⟩
  · intro a k
    by_cases e : o.inl = a
    · exact Or.inl ⟨o', rfl, (own a).mpr e⟩
    · by_cases e2 : a = o.cur
      · exact absurd (e2 ▸ k) (hfree (fun e' => e (by rw [e2, e'])))
      · refine Or.inr ⟨k.congr (hoff a e2).symm, ?_⟩
        intro p hp hpc; cases hp
        rcases hpc with r | r
        · exact e r
        · exact e2 r.symm

/-- The end of a variable. -/
theorem SvtLocal.gone {h h' : CbHeap α} {o : SvtObj} (hoff : ∀ c : Nat, c ≠ o.inl → c ≠ o.cur → h'[c]? = h[c]?)
    (h1 : ¬ SvtLive h' o.inl) (h2 : ¬ SvtLive h' o.cur) : SvtLocal h (some o) h' none := by
  refine ⟨?_, (fun p a e => by cases e), ?_⟩
  · intro a _ hn
    exact hoff a (fun e => hn o rfl (Or.inl e.symm)) (fun e => hn o rfl (Or.inr e.symm))
  · intro a k
    have e1 : a ≠ o.inl := fun e => h1 (e ▸ k)
    have e2 : a ≠ o.cur := fun e => h2 (e ▸ k)
    refine Or.inr ⟨k.congr (hoff a e1 e2).symm, ?_⟩
    intro p hp hpc; cases hp
    rcases hpc with r | r
    · exact e1 r.symm
    · exact e2 r.symm

/-- Blocks that come and go. -/
theorem SvtLocal.vain {h h' : CbHeap α} (o : Option SvtObj) (B : Nat → Prop) (hB : ∀ a, B a → ¬ SvtLive h a) (hB' : ∀ a, B a → ¬ SvtLive h' a)
    (hoff : ∀ c : Nat, ¬ B c → h'[c]? = h[c]?) : SvtLocal h o h' o := by
  refine ⟨?_, (fun p a e k => Or.inl ⟨p, e, k⟩), ?_⟩
  · intro a hl _
    exact hoff a (fun e => hB a e hl)
  · intro a k
    by_cases e : ∃ p, o = some p ∧ SvtOwns p a
    · exact Or.inl e
    · exact Or.inr ⟨k.congr (hoff a (fun e => hB' a e k)).symm, fun p hp hq => e ⟨p, hp, hq⟩⟩

/-- A new variable. -/
theorem SvtLocal.made {h h' : CbHeap α} {o : SvtObj} (h1 : ∀ a, SvtOwns o a → ¬ SvtLive h a) (hoff : ∀ c : Nat, ¬ SvtOwns o c → h'[c]? = h[c]?) :
    SvtLocal h none h' (some o) := by
  refine ⟨?_, ?_, ?_⟩
  · intro a hl _
    exact hoff a (fun e => h1 a e hl)
  · intro p a e k
    cases e; exact Or.inr (h1 a k)
  · intro a k
    by_cases e : SvtOwns o a
    · exact Or.inl ⟨o, rfl, e⟩
    · exact Or.inr ⟨k.congr (hoff a e).symm, fun p hp => by cases hp⟩

end Gapp.Model
