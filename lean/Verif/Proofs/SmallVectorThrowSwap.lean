import Verif.Proofs.SmallVectorThrowMove

namespace Gapp.Model
open Spec (IdealVec VecVars)
open Spec.DequeVars (throws)
open Spec.IdealVec (left reached copies grown exchange)
variable {α : Type}

/-- A call that only touches the blocks of two variables, without allocating or freeing one. -/
structure SvtPair (h : CbHeap α) (o p : SvtObj) (h' : CbHeap α) (o' p' : SvtObj) : Prop where
  own : ∀ c, (SvtOwns o' c ∨ SvtOwns p' c) ↔ (SvtOwns o c ∨ SvtOwns p c)
  disj : ∀ c, ¬ (SvtOwns o' c ∧ SvtOwns p' c)
  frame : ∀ c : Nat, ¬ SvtOwns o c → ¬ SvtOwns p c → h'[c]? = h[c]?

theorem SvtPair.inPlace {h h' : CbHeap α} {o p o' p' : SvtObj} (hd : ∀ c, ¬ (SvtOwns o c ∧ SvtOwns p c)) (hoi : o'.inl = o.inl) (hoc : o'.cur = o.cur) (hpi : p'.inl = p.inl)
    (hpc : p'.cur = p.cur) (hoff : ∀ c : Nat, c ≠ o.cur → c ≠ p.cur → h'[c]? = h[c]?) : SvtPair h o p h' o' p' := by
  have own1 : ∀ a, SvtOwns o' a ↔ SvtOwns o a := by intro a; unfold SvtOwns; rw [hoi, hoc]
  have own2 : ∀ a, SvtOwns p' a ↔ SvtOwns p a := by intro a; unfold SvtOwns; rw [hpi, hpc]
  refine ⟨fun c => by rw [own1, own2], fun c => by rw [own1, own2]; exact hd c, ?_⟩
  intro c h1 h2
  exact hoff c (fun e => h1 (Or.inr e.symm)) (fun e => h2 (Or.inr e.symm))

theorem SvtPair.swap {h h' : CbHeap α} {o p o' p' : SvtObj} (k : SvtPair h o p h' o' p') : SvtPair h p o h' p' o' := by
  refine ⟨fun c => ?_, fun c e => k.disj c e.symm, fun c h1 h2 => k.frame c h2 h1⟩
  rw [or_comm, k.own c, or_comm]

/-- Other elements in the same place. -/
theorem SvtOk.write {S : Nat} {h h' : CbHeap α} {o : SvtObj} {v : IdealVec α} (k : SvtOk S h o v) (xs : List α) (hle : xs.length ≤ v.cap)
    (hcur : h'[o.cur]? = some (some (xs.map some ++ List.replicate (v.cap - xs.length) none))) (hinl : o.cur ≠ o.inl → h'[o.inl]? = h[o.inl]?) :
    SvtOk S h' ⟨o.inl, o.cur, xs.length, o.cap⟩ ⟨v.cap, xs⟩ := by
  refine ⟨rfl, k.cap, hle, hcur, ?_⟩
  rcases k.place with e | ⟨e1, e2, e3⟩
  · exact Or.inl e
  · exact Or.inr ⟨e1, e2, by rw [hinl e1]; exact e3⟩

/-- `std::copy` with move iterators. -/
theorem svtMoveInto_ok (E : SvtEnv α) {a b : Nat} (hab : a ≠ b) (rest srest : List (Option α)) (xs : List α) : ∀ (ys zs : List α) (h : CbHeap α) (limit : Option Nat), zs.length = xs.length →
    h[a]? = some (some (ys.map some ++ (zs.map some ++ rest))) → h[b]? = some (some ((ys.map E.moved).map some ++ (xs.map some ++ srest))) →
    (throws limit (copies E.nothrowMove xs.length) = true → ∃ h', svtMoveRange E a 0 b 0 h ys.length xs.length limit = some (h', false, some 0) ∧
      h'[a]? = some (some (ys.map some ++ ((xs.take (reached limit) ++ zs.drop (reached limit)).map some ++ rest))) ∧
      h'[b]? = some (some ((ys.map E.moved).map some ++ (((xs.take (reached limit)).map E.moved ++ xs.drop (reached limit)).map some ++ srest))) ∧
      ∀ c : Nat, c ≠ a → c ≠ b → h'[c]? = h[c]?) ∧
    (throws limit (copies E.nothrowMove xs.length) = false → ∃ h', svtMoveRange E a 0 b 0 h ys.length xs.length limit = some (h', true, left limit (copies E.nothrowMove xs.length)) ∧
      h'[a]? = some (some ((ys ++ xs).map some ++ rest)) ∧ h'[b]? = some (some (((ys ++ xs).map E.moved).map some ++ srest)) ∧
      ∀ c : Nat, c ≠ a → c ≠ b → h'[c]? = h[c]?) := by
  induction xs with
  | nil =>
    intro ys zs h limit hz h1 h2
    have : zs = [] := List.length_eq_zero_iff.mp hz
    subst this
    have hc : copies E.nothrowMove ([] : List α).length = 0 := by simp [copies]
    rw [hc]
    refine ⟨fun ht => (by rw [throws_zero] at ht; cases ht), fun _ => ⟨h, ?_, by rw [h1]; simp, by rw [h2]; simp, fun _ _ _ => rfl⟩⟩
    rw [left_zero]; rfl
  | cons x xs ih =>
    intro ys zs h limit hz h1 h2
    rcases zs with _ | ⟨z, zs⟩
    · simp at hz
    · rw [List.length_cons]
      rcases svtSpend_cases E limit with ⟨hs, _, hl, ht⟩ | ⟨l, hs, ht⟩
      · refine ⟨fun _ => ⟨h, ?_, by rw [h1, hl]; simp [reached], by rw [h2, hl]; simp [reached], fun _ _ _ => rfl⟩, fun hf => by rw [ht] at hf; cases hf⟩
        unfold svtMoveRange; simp [hs]
      · obtain ⟨g1, t1, t2, t3⟩ := svtTake_at E (h := h) (a := b) (pre := (ys.map E.moved).map some) (x := x) (rest := xs.map some ++ srest) (by rw [h2]; simp)
        obtain ⟨g2, p1, p2, p3⟩ := svtPutAt_at x (h := g1) (a := a) (pre := ys.map some) (y := z) (rest := zs.map some ++ rest) (by rw [t3 a hab, h1]; simp)
        have hoff : ∀ c : Nat, c ≠ a → c ≠ b → g2[c]? = h[c]? := fun c hca hcb => by rw [p3 c hca, t3 c hcb]
        have hstep : svtMoveRange E a 0 b 0 h ys.length (xs.length + 1) limit = svtMoveRange E a 0 b 0 g2 (ys ++ [x]).length xs.length l := by
          conv_lhs => unfold svtMoveRange
          have t1' : svtTake E true h b ys.length = some (x, g1) := by simpa using t1
          have p1' : svtPutAt g1 a ys.length x = some g2 := by simpa using p1
          simp [hs, t1', p1']
        obtain ⟨i1, i2⟩ := ih (ys ++ [x]) zs g2 l (by simpa using hz) (by rw [p2]; simp) (by rw [p3 b (Ne.symm hab), t2]; simp)
        rw [(ht _).1, (ht _).2.1, hstep]
        refine ⟨fun hf => ?_, fun hf => ?_⟩
        · obtain ⟨h', f1, f2, f3, f4⟩ := i1 hf
          refine ⟨h', f1, ?_, ?_, fun c hca hcb => by rw [f4 c hca hcb, hoff c hca hcb]⟩
          · rw [f2, (ht _).2.2 hf]; simp
          · rw [f3, (ht _).2.2 hf]; simp
        · obtain ⟨h', f1, f2, f3, f4⟩ := i2 hf
          refine ⟨h', f1, ?_, ?_, fun c hca hcb => by rw [f4 c hca hcb, hoff c hca hcb]⟩
          · rw [f2]; simp
          · rw [f3]; simp

/-- Appending one by one. -/
theorem svtAppendMoved_ok (E : SvtEnv α) {a b : Nat} (hab : a ≠ b) (dp sp drest srest : List (Option α)) (zs : List α) : ∀ (ys : List α) (h : CbHeap α) (limit : Option Nat),
    h[a]? = some (some (dp ++ (ys.map some ++ (List.replicate zs.length none ++ drest)))) → h[b]? = some (some (sp ++ ((ys.map E.moved).map some ++ (zs.map some ++ srest)))) →
    (throws limit (copies E.nothrowMove zs.length) = true → ∃ h', svtAppendMoved E a dp.length b sp.length h ys.length zs.length limit = some (h', false, ys.length + reached limit) ∧
      h'[a]? = some (some (dp ++ ((ys ++ zs.take (reached limit)).map some ++ (List.replicate (zs.length - reached limit) none ++ drest)))) ∧
      h'[b]? = some (some (sp ++ (((ys ++ zs.take (reached limit)).map E.moved).map some ++ ((zs.drop (reached limit)).map some ++ srest)))) ∧
      ∀ c : Nat, c ≠ a → c ≠ b → h'[c]? = h[c]?) ∧
    (throws limit (copies E.nothrowMove zs.length) = false → ∃ h', svtAppendMoved E a dp.length b sp.length h ys.length zs.length limit = some (h', true, ys.length + zs.length) ∧
      h'[a]? = some (some (dp ++ ((ys ++ zs).map some ++ drest))) ∧ h'[b]? = some (some (sp ++ (((ys ++ zs).map E.moved).map some ++ srest))) ∧
      ∀ c : Nat, c ≠ a → c ≠ b → h'[c]? = h[c]?) := by
  induction zs with
  | nil =>
    intro ys h limit h1 h2
    have hc : copies E.nothrowMove ([] : List α).length = 0 := by simp [copies]
    rw [hc]
    exact ⟨fun ht => (by rw [throws_zero] at ht; cases ht), fun _ => ⟨h, rfl, by rw [h1]; simp, by rw [h2]; simp, fun _ _ _ => rfl⟩⟩
  | cons z zs ih =>
    intro ys h limit h1 h2
    rw [List.length_cons] at h1 ⊢
    rcases svtSpend_cases E limit with ⟨hs, _, hl, ht⟩ | ⟨l, hs, ht⟩
    · refine ⟨fun _ => ⟨h, ?_, by rw [h1, hl]; simp [reached], by rw [h2, hl]; simp [reached], fun _ _ _ => rfl⟩, fun hf => by rw [ht] at hf; cases hf⟩
      unfold svtAppendMoved; rw [hs]; simp [hl, reached]
    · obtain ⟨g1, t1, t2, t3⟩ := svtTake_at E (h := h) (a := b) (pre := sp ++ (ys.map E.moved).map some) (x := z) (rest := zs.map some ++ srest) (by rw [h2]; simp)
      obtain ⟨g2, p1, p2, p3⟩ := svtConstruct_ok (h := g1) (a := a) (pre := dp ++ ys.map some) (rest := List.replicate zs.length none ++ drest) z
        (by rw [t3 a hab, h1]; simp [List.replicate_succ])
      have hoff : ∀ c : Nat, c ≠ a → c ≠ b → g2[c]? = h[c]? := fun c hca hcb => by rw [p3 c hca, t3 c hcb]
      have hstep : svtAppendMoved E a dp.length b sp.length h ys.length (zs.length + 1) limit = svtAppendMoved E a dp.length b sp.length g2 (ys ++ [z]).length zs.length l := by
        conv_lhs => unfold svtAppendMoved
        have t1' : svtTake E true h b (sp.length + ys.length) = some (z, g1) := by simpa using t1
        have p1' : cbConstruct g1 a (dp.length + ys.length) z = some g2 := by simpa using p1
        simp [hs, t1', p1']
      obtain ⟨i1, i2⟩ := ih (ys ++ [z]) g2 l (by rw [p2]; simp) (by rw [p3 b (Ne.symm hab), t2]; simp)
      rw [(ht _).1, hstep]
      refine ⟨fun hf => ?_, fun hf => ?_⟩
      · obtain ⟨h', f1, f2, f3, f4⟩ := i1 hf
        have hr := (ht _).2.2 hf
        refine ⟨h', ?_, ?_, ?_, fun c hca hcb => by rw [f4 c hca hcb, hoff c hca hcb]⟩
        · rw [f1, hr]; simp; omega
        · rw [f2, hr]; simp
        · rw [f3, hr]; simp
      · obtain ⟨h', f1, f2, f3, f4⟩ := i2 hf
        refine ⟨h', ?_, ?_, ?_, fun c hca hcb => by rw [f4 c hca hcb, hoff c hca hcb]⟩
        · rw [f1]; simp; omega
        · rw [f2]; simp
        · rw [f3]; simp

theorem exchange_three (mv : α → α) (a b : α) (as bs : List α) (k : Nat) :
    exchange mv (a :: as) (b :: bs) (k + 3) = (b :: (exchange mv as bs k).1, a :: (exchange mv as bs k).2) := rfl

/-- `std::swap_ranges`. -/
theorem svtSwapRanges_ok (E : SvtEnv α) {a b : Nat} (hab : a ≠ b) (ra rb : List (Option α)) (as : List α) : ∀ (bs us vs : List α) (h : CbHeap α) (limit : Option Nat),
    as.length ≤ bs.length → us.length = vs.length → h[a]? = some (some (us.map some ++ (as.map some ++ ra))) → h[b]? = some (some (vs.map some ++ (bs.map some ++ rb))) →
    (throws limit (copies E.nothrowMove (3 * as.length)) = true → ∃ h', svtSwapRanges E a b h us.length as.length limit = some (h', false, some 0) ∧
      h'[a]? = some (some (us.map some ++ ((exchange E.moved as bs (reached limit)).1.map some ++ ra))) ∧
      h'[b]? = some (some (vs.map some ++ ((exchange E.moved as bs (reached limit)).2.map some ++ rb))) ∧ ∀ c : Nat, c ≠ a → c ≠ b → h'[c]? = h[c]?) ∧
    (throws limit (copies E.nothrowMove (3 * as.length)) = false → ∃ h', svtSwapRanges E a b h us.length as.length limit = some (h', true, left limit (copies E.nothrowMove (3 * as.length))) ∧
      h'[a]? = some (some (us.map some ++ ((bs.take as.length).map some ++ ra))) ∧
      h'[b]? = some (some (vs.map some ++ ((as ++ bs.drop as.length).map some ++ rb))) ∧ ∀ c : Nat, c ≠ a → c ≠ b → h'[c]? = h[c]?) := by
  induction as with
  | nil =>
    intro bs us vs h limit _ _ h1 h2
    have hc : copies E.nothrowMove (3 * ([] : List α).length) = 0 := by simp [copies]
    rw [hc]
    refine ⟨fun ht => (by rw [throws_zero] at ht; cases ht), fun _ => ⟨h, ?_, by rw [h1]; simp, by rw [h2]; simp, fun _ _ _ => rfl⟩⟩
    rw [left_zero]; rfl
  | cons x as ih =>
    intro bs us vs h limit hle huv h1 h2
    rcases bs with _ | ⟨y, bs⟩
    · simp at hle
    · rw [List.length_cons, show 3 * (as.length + 1) = 3 * as.length + 1 + 1 + 1 by omega]
      rcases svtSpend_cases E limit with ⟨hs, _, hl, ht⟩ | ⟨l, hs, ht⟩
      · refine ⟨fun _ => ⟨h, ?_, by rw [h1, hl]; rfl, by rw [h2, hl]; rfl, fun _ _ _ => rfl⟩, fun hf => by rw [ht] at hf; cases hf⟩
        unfold svtSwapRanges; simp [hs]
      · obtain ⟨g1, t1, t2, t3⟩ := svtTake_at E (h := h) (a := a) (pre := us.map some) (x := x) (rest := as.map some ++ ra) (by rw [h1]; simp)
        rw [List.length_map] at t1
        rw [(ht _).1, (ht _).2.1]
        rcases svtSpend_cases E l with ⟨hs2, _, hl2, ht2⟩ | ⟨l2, hs2, ht2⟩
        · refine ⟨fun hf => ?_, fun hf => by rw [ht2] at hf; cases hf⟩
          have hr : reached limit = 1 := by rw [(ht _).2.2 hf, hl2]; rfl
          refine ⟨g1, ?_, ?_, ?_, fun c hca _ => t3 c hca⟩
          · unfold svtSwapRanges; simp [hs, t1, hs2]
          · rw [t2, hr]; simp [exchange]
          · rw [t3 b (Ne.symm hab), h2, hr]; simp [exchange]
        · obtain ⟨g2, q1, q2, q3⟩ := svtTake_at E (h := g1) (a := b) (pre := vs.map some) (x := y) (rest := bs.map some ++ rb) (by rw [t3 b (Ne.symm hab), h2]; simp)
          rw [List.length_map, ← huv] at q1
          obtain ⟨g3, p1, p2, p3⟩ := svtPutAt_at y (h := g2) (a := a) (pre := us.map some) (y := E.moved x) (rest := as.map some ++ ra) (by rw [q3 a hab, t2])
          rw [List.length_map] at p1
          rw [(ht2 _).1, (ht2 _).2.1]
          rcases svtSpend_cases E l2 with ⟨hs3, _, hl3, ht3⟩ | ⟨l3, hs3, ht3⟩
          · refine ⟨fun hf => ?_, fun hf => by rw [ht3] at hf; cases hf⟩
            have hr : reached limit = 2 := by rw [(ht _).2.2 (by rw [(ht2 _).1]; exact hf), (ht2 _).2.2 hf, hl3]; rfl
            refine ⟨g3, ?_, ?_, ?_, fun c hca hcb => by rw [p3 c hca, q3 c hcb, t3 c hca]⟩
            · unfold svtSwapRanges; simp [hs, t1, hs2, q1, p1, hs3]
            · rw [p2, hr]; simp [exchange]
            · rw [p3 b (Ne.symm hab), q2, hr]; simp [exchange]
          · obtain ⟨g4, w1, w2, w3⟩ := svtPutAt_at x (h := g3) (a := b) (pre := vs.map some) (y := E.moved y) (rest := bs.map some ++ rb) (by rw [p3 b (Ne.symm hab), q2])
            rw [List.length_map, ← huv] at w1
            have hoff : ∀ c : Nat, c ≠ a → c ≠ b → g4[c]? = h[c]? := fun c hca hcb => by rw [w3 c hcb, p3 c hca, q3 c hcb, t3 c hca]
            have hstep : svtSwapRanges E a b h us.length (as.length + 1) limit = svtSwapRanges E a b g4 (us ++ [y]).length as.length l3 := by
              conv_lhs => unfold svtSwapRanges
              simp [hs, t1, hs2, q1, p1, hs3, w1]
            obtain ⟨i1, i2⟩ := ih bs (us ++ [y]) (vs ++ [x]) g4 l3 (by simpa using hle) (by simp [huv]) (by rw [w3 a hab, p2]; simp) (by rw [w2]; simp)
            rw [(ht3 _).1, (ht3 _).2.1, hstep]
            refine ⟨fun hf => ?_, fun hf => ?_⟩
            · obtain ⟨h', f1, f2, f3, f4⟩ := i1 hf
              have hr : reached limit = reached l3 + 3 := by
                rw [(ht _).2.2 (by rw [(ht2 _).1, (ht3 _).1]; exact hf), (ht2 _).2.2 (by rw [(ht3 _).1]; exact hf), (ht3 _).2.2 hf]
              refine ⟨h', f1, ?_, ?_, fun c hca hcb => by rw [f4 c hca hcb, hoff c hca hcb]⟩
              · rw [f2, hr, exchange_three]; simp
              · rw [f3, hr, exchange_three]; simp
            · obtain ⟨h', f1, f2, f3, f4⟩ := i2 hf
              refine ⟨h', f1, ?_, ?_, fun c hca hcb => by rw [f4 c hca hcb, hoff c hca hcb]⟩
              · rw [f2]; simp
              · rw [f3]; simp

/-- Two variables that exchange their blocks. -/
theorem svtExchange_ok {S : Nat} {h : CbHeap α} {o p : SvtObj} {v w : IdealVec α} (k : SvtOk S h o v) (m : SvtOk S h p w) (hd : ∀ c, ¬ (SvtOwns o c ∧ SvtOwns p c))
    (ho : o.cur ≠ o.inl) (hp : p.cur ≠ p.inl) :
    SvtOk S h { p with inl := o.inl } w ∧ SvtOk S h { o with inl := p.inl } v ∧ SvtPair h o p h { p with inl := o.inl } { o with inl := p.inl } := by
  have e1 : p.cur ≠ o.inl := fun e => hd p.cur ⟨Or.inl e.symm, Or.inr rfl⟩
  have e2 : o.cur ≠ p.inl := fun e => hd o.cur ⟨Or.inr rfl, Or.inl e.symm⟩
  have hik : h[o.inl]? = some (some (List.replicate S none)) := by
    rcases k.place with ⟨e, _⟩ | ⟨_, _, e⟩
    · exact absurd e ho
    · exact e
  have him : h[p.inl]? = some (some (List.replicate S none)) := by
    rcases m.place with ⟨e, _⟩ | ⟨_, _, e⟩
    · exact absurd e hp
    · exact e
  have hkc : S < v.cap := by
    rcases k.place with ⟨e, _⟩ | ⟨_, e, _⟩
    · exact absurd e ho
    · exact e
  have hmc : S < w.cap := by
    rcases m.place with ⟨e, _⟩ | ⟨_, e, _⟩
    · exact absurd e hp
    · exact e
  refine ⟨⟨m.size, m.cap, m.le, m.cur, Or.inr ⟨e1, hmc, hik⟩⟩, ⟨k.size, k.cap, k.le, k.cur, Or.inr ⟨e2, hkc, him⟩⟩, ?_, ?_, fun _ _ _ => rfl⟩
  · intro c
    unfold SvtOwns
    simp only
    tauto
  · rintro c ⟨h1, h2⟩
    have := hd c
    unfold SvtOwns at this h1 h2
    simp only at h1 h2
    rcases h1 with h1 | h1 <;> rcases h2 with h2 | h2
    · exact this ⟨Or.inl h1, Or.inl h2⟩
    · exact ho (by rw [h1, h2])
    · exact hp (by rw [h1, h2])
    · exact this ⟨Or.inr h2, Or.inr h1⟩

theorem SvtOk.inline_iff {S : Nat} {h : CbHeap α} {o : SvtObj} {v : IdealVec α} (k : SvtOk S h o v) : o.cur = o.inl ↔ v.cap = S := by
  rcases k.place with ⟨e1, e2⟩ | ⟨e1, e2, _⟩
  · simp [e1, e2]
  · constructor
    · intro e; exact absurd e e1
    · intro e; omega

/-- Move assignment. -/
theorem svtMoveAssign_ok (E : SvtEnv α) (fwd : Bool) {h : CbHeap α} {o p : SvtObj} {v w : IdealVec α} (k : SvtOk E.inlineCap h o v) (m : SvtOk E.inlineCap h p w)
    (hd : ∀ c, ¬ (SvtOwns o c ∧ SvtOwns p c)) (limit : Option Nat) :
    ∃ h' o' p', svtMoveAssign E fwd h o p limit = some (h', o', p', (v.assignMove E.inlineCap E.nothrowMove E.moved fwd w limit).2.2) ∧
      SvtOk E.inlineCap h' o' (v.assignMove E.inlineCap E.nothrowMove E.moved fwd w limit).1 ∧ SvtOk E.inlineCap h' p' (v.assignMove E.inlineCap E.nothrowMove E.moved fwd w limit).2.1 ∧
      SvtPair h o p h' o' p' := by
  have hab : o.cur ≠ p.cur := fun e => hd o.cur ⟨Or.inr rfl, Or.inr e.symm⟩
  unfold svtMoveAssign IdealVec.assignMove
  by_cases hp : p.cur = p.inl
  · have hwS : w.cap = E.inlineCap := m.inline_iff.mp hp
    rw [if_neg (by simp [hp]), if_neg (by simp [hp]), if_neg (by simp [hwS])]
    have hvle := k.le
    have hwle := m.le
    have hSv := k.inline_le
    have hkb : h[o.cur]? = some (some (v.items.map some ++ List.replicate (v.cap - v.items.length) none)) := k.cur
    have hmb : h[p.cur]? = some (some (w.items.map some ++ List.replicate (w.cap - w.items.length) none)) := m.cur
    have hoi : o.inl ≠ p.cur := fun e => hd p.cur ⟨Or.inl e, Or.inr rfl⟩
    have hpi : p.inl ≠ o.cur := fun e => hd o.cur ⟨Or.inr rfl, Or.inl e⟩
    have finish : ∀ (h' : CbHeap α) (xs ys : List α), xs.length ≤ v.cap → ys.length = w.items.length → h'[o.cur]? = some (some (xs.map some ++ List.replicate (v.cap - xs.length) none)) →
        h'[p.cur]? = some (some (ys.map some ++ List.replicate (w.cap - w.items.length) none)) → (∀ c : Nat, c ≠ o.cur → c ≠ p.cur → h'[c]? = h[c]?) →
        SvtOk E.inlineCap h' ⟨o.inl, o.cur, xs.length, o.cap⟩ ⟨v.cap, xs⟩ ∧ SvtOk E.inlineCap h' p ⟨E.inlineCap, ys⟩ ∧ SvtPair h o p h' ⟨o.inl, o.cur, xs.length, o.cap⟩ p := by
      intro h' xs ys h1 h2 h3 h4 h5
      refine ⟨k.write xs h1 h3 (fun e => h5 _ (Ne.symm e) hoi), ?_, SvtPair.inPlace hd rfl rfl rfl rfl h5⟩
      have := m.write ys (by omega) (by rw [h4, h2]) (fun e => absurd hp e)
      rw [h2, ← m.size, hwS] at this
      exact this
    simp only [k.size, m.size]
    rcases Nat.lt_or_ge w.items.length v.items.length with hlt | hge
    · -- more elements than are needed
      have hmin : min v.items.length w.items.length = w.items.length := by omega
      rw [hmin, Nat.sub_self]
      obtain ⟨i1, i2⟩ := svtMoveInto_ok E hab ((v.items.drop w.items.length).map some ++ List.replicate (v.cap - v.items.length) none) (List.replicate (w.cap - w.items.length) none)
        w.items [] (v.items.take w.items.length) h limit (by simp; omega)
        (by rw [hkb]; simp only [List.map_nil, List.nil_append]; rw [← List.append_assoc, ← List.map_append, List.take_append_drop])
        (by rw [hmb]; simp)
      rw [List.length_nil] at i1 i2
      cases ht : throws limit (copies E.nothrowMove w.items.length) with
      | true =>
        obtain ⟨h', e1, e2, e3, e4⟩ := i1 ht
        have hr : reached limit < w.items.length := by
          obtain ⟨_, h1⟩ := copies_throws ht
          exact (reached_of_throws h1).2
        simp only [e1, Option.bind_eq_bind, Option.bind_some, Bool.not_false, if_true]
        rw [if_pos (Or.inr hr)]
        unfold IdealVec.partly
        rw [hmin, show min (reached limit) w.items.length = reached limit by omega]
        have hlen : (w.items.take (reached limit) ++ v.items.drop (reached limit)).length = v.items.length := by simp; omega
        obtain ⟨f1, f2, f3⟩ := finish h' (w.items.take (reached limit) ++ v.items.drop (reached limit)) ((w.items.take (reached limit)).map E.moved ++ w.items.drop (reached limit))
          (by omega) (by simp; omega) (by
            rw [e2, hlen]
            have : v.items.drop (reached limit) = (v.items.take w.items.length).drop (reached limit) ++ v.items.drop w.items.length := by
              rw [List.drop_take, show w.items.length = reached limit + (w.items.length - reached limit) by omega, ← List.drop_drop]
              simp
            rw [this]; simp) (by rw [e3]; simp) e4
        rw [hlen, ← k.size] at f1 f3
        exact ⟨h', o, p, rfl, f1, f2, f3⟩
      | false =>
        obtain ⟨h1, e1, e2, e3, e4⟩ := i2 ht
        simp only [e1, Option.bind_eq_bind, Option.bind_some, Bool.not_true, Bool.false_eq_true, if_false]
        obtain ⟨h2, d1, d2, d3⟩ := svtDestroyRange_ok (h := h1) (a := o.cur) (pre := w.items.map some) (v.items.drop w.items.length) (rest := List.replicate (v.cap - v.items.length) none)
          (by rw [e2]; simp)
        rw [List.length_map, List.length_drop] at d1
        obtain ⟨f1, f2, f3⟩ := finish h2 w.items (w.items.map E.moved) (by omega) (by simp)
          (by rw [d2, List.length_drop, List.replicate_append_replicate, show v.items.length - w.items.length + (v.cap - v.items.length) = v.cap - w.items.length by omega])
          (by rw [d3 _ (Ne.symm hab), e3]; simp) (fun c hca hcb => by rw [d3 c hca, e4 c hca hcb])
        refine ⟨h2, _, p, ?_, f1, f2, f3⟩
        cases fwd
        · simp [d1, svtAppendMoved]
        · simp [d1, svtRelocate]
    · -- all elements are assigned, the rest are appended
      have hmin : min v.items.length w.items.length = v.items.length := by omega
      rw [hmin, Nat.sub_self]
      set u := w.items.take v.items.length with hu
      set t := w.items.drop v.items.length with htd
      have hw : w.items = u ++ t := by rw [hu, htd, List.take_append_drop]
      have hul : u.length = v.items.length := by rw [hu]; simp; omega
      have htl : w.items.length - v.items.length = t.length := by rw [htd]; simp
      have hwl : w.items.length = v.items.length + t.length := by omega
      obtain ⟨i1, i2⟩ := svtMoveInto_ok E hab (List.replicate (v.cap - v.items.length) none) (t.map some ++ List.replicate (w.cap - w.items.length) none)
        u [] v.items h limit hul.symm (by rw [hkb]; simp) (by rw [hmb, hw]; simp)
      rw [List.length_nil, hul] at i1 i2
      have hcost : copies E.nothrowMove w.items.length = copies E.nothrowMove v.items.length + copies E.nothrowMove t.length := by rw [hwl, copies_add]
      rw [hcost, throws_add, htl]
      cases ht : throws limit (copies E.nothrowMove v.items.length) with
      | true =>
        obtain ⟨h', e1, e2, e3, e4⟩ := i1 ht
        have hr : reached limit < v.items.length := by
          obtain ⟨_, h1⟩ := copies_throws ht
          exact (reached_of_throws h1).2
        simp only [e1, Option.bind_eq_bind, Option.bind_some, Bool.not_false, if_true, Bool.true_or]
        rw [if_pos (Or.inr hr)]
        unfold IdealVec.partly
        rw [hmin, show min (reached limit) v.items.length = reached limit by omega]
        have htk : w.items.take (reached limit) = u.take (reached limit) := by rw [hw, List.take_append_of_le_length (by omega)]
        have hdr : w.items.drop (reached limit) = u.drop (reached limit) ++ t := by rw [hw, List.drop_append_of_le_length (by omega)]
        have hlen : (w.items.take (reached limit) ++ v.items.drop (reached limit)).length = v.items.length := by simp; omega
        obtain ⟨f1, f2, f3⟩ := finish h' (w.items.take (reached limit) ++ v.items.drop (reached limit)) ((w.items.take (reached limit)).map E.moved ++ w.items.drop (reached limit))
          (by omega) (by simp; omega) (by rw [e2, hlen, htk]; simp) (by rw [e3, htk, hdr]; simp) e4
        rw [hlen, ← k.size] at f1 f3
        exact ⟨h', o, p, rfl, f1, f2, f3⟩
      | false =>
        obtain ⟨h1, e1, e2, e3, e4⟩ := i2 ht
        simp only [e1, Option.bind_eq_bind, Option.bind_some, Bool.not_true, Bool.false_eq_true, if_false, Bool.false_or]
        have hrep : List.replicate (v.cap - v.items.length) (none : Option α) = List.replicate t.length none ++ List.replicate (v.cap - w.items.length) none := by
          rw [List.replicate_append_replicate]; congr 1; omega
        have hreach : throws (left limit (copies E.nothrowMove v.items.length)) (copies E.nothrowMove t.length) = true →
            reached limit = v.items.length + reached (left limit (copies E.nothrowMove v.items.length)) ∧ reached (left limit (copies E.nothrowMove v.items.length)) < t.length := by
          intro hf
          obtain ⟨hnm, h2⟩ := copies_throws hf
          obtain ⟨h3, h4⟩ := reached_of_throws h2
          rw [hnm] at hf ht h3 h4 ⊢
          rcases limit with _ | r
          · simp [left, throws] at hf
          · simp only [copies, left, reached, throws, Option.map_some, Option.getD_some, Bool.false_eq_true, if_false, decide_eq_false_iff_not, decide_eq_true_eq] at *
            omega
        cases fwd with
        | true =>
          simp only [if_true]
          obtain ⟨q1, q2⟩ := svtRelocateAt_ok E true (Ne.symm hab) ((u.map E.moved).map some) (u.map some) t [] (List.replicate (w.cap - w.items.length) none)
            (List.replicate (v.cap - w.items.length) none) h1 (left limit (copies E.nothrowMove v.items.length))
            (by rw [e3]; simp) (by rw [e2, hrep]; simp)
          simp only [List.length_map, List.length_nil, hul] at q1 q2
          cases hf : throws (left limit (copies E.nothrowMove v.items.length)) (copies E.nothrowMove t.length) with
          | true =>
            obtain ⟨h2, g1, g2, g3, g4⟩ := q1 hf
            obtain ⟨hr, hr2⟩ := hreach hf
            simp only [g1, Option.bind_some, Bool.not_false, if_true, true_or]
            unfold IdealVec.partly
            rw [hmin, show min (reached limit) v.items.length = v.items.length by omega]
            have hdn : v.items.drop v.items.length = [] := by simp
            rw [hdn, List.append_nil, ← hu]
            obtain ⟨f1, f2, f3⟩ := finish h2 u ((w.items.take (reached limit)).map E.moved ++ w.items.drop (reached limit)) (by omega) (by simp; omega)
              (by rw [g3, hul, Nat.zero_add, hrep]) (by
                rw [g2, hr, hw, show v.items.length = u.length by omega, List.take_length_add_append, List.drop_length_add_append]
                simp) (fun c hca hcb => by rw [g4 c hcb hca, e4 c hca hcb])
            rw [hul, ← k.size] at f1 f3
            exact ⟨h2, o, p, rfl, f1, f2, f3⟩
          | false =>
            obtain ⟨h2, g1, g2, g3, g4⟩ := q2 hf
            simp only [g1, Option.bind_some, Bool.not_true, Bool.false_eq_true, if_false]
            obtain ⟨f1, f2, f3⟩ := finish h2 w.items (w.items.map E.moved) (by omega) (by simp) (by rw [g3, hw]; simp) (by rw [g2, hw]; simp)
              (fun c hca hcb => by rw [g4 c hcb hca, e4 c hca hcb])
            exact ⟨h2, _, p, by simp [svtDestroyRange], f1, f2, f3⟩
        | false =>
          simp only [Bool.false_eq_true, if_false]
          obtain ⟨q1, q2⟩ := svtAppendMoved_ok E hab (u.map some) ((u.map E.moved).map some) (List.replicate (v.cap - w.items.length) none) (List.replicate (w.cap - w.items.length) none)
            t [] h1 (left limit (copies E.nothrowMove v.items.length)) (by rw [e2, hrep]; simp) (by rw [e3]; simp)
          simp only [List.length_map, List.length_nil, hul] at q1 q2
          cases hf : throws (left limit (copies E.nothrowMove v.items.length)) (copies E.nothrowMove t.length) with
          | true =>
            obtain ⟨h2, g1, g2, g3, g4⟩ := q1 hf
            obtain ⟨hr, hr2⟩ := hreach hf
            rw [if_pos rfl, if_neg (by simp; omega)]
            have hlen : (w.items.take (reached limit)).length = v.items.length + (0 + reached (left limit (copies E.nothrowMove v.items.length))) := by simp; omega
            obtain ⟨f1, f2, f3⟩ := finish h2 (w.items.take (reached limit)) ((w.items.take (reached limit)).map E.moved ++ w.items.drop (reached limit)) (by simp; omega) (by simp; omega)
              (by
                have htk : w.items.take (reached limit) = u ++ t.take (reached (left limit (copies E.nothrowMove v.items.length))) := by
                  rw [hr, hw]
                  generalize reached (left limit (copies E.nothrowMove v.items.length)) = r
                  rw [← hul, List.take_length_add_append]
                rw [g2, hlen, htk]
                simp only [List.nil_append, List.map_append, List.append_assoc]
                rw [List.replicate_append_replicate, show t.length - reached (left limit (copies E.nothrowMove v.items.length)) + (v.cap - w.items.length) =
                  v.cap - (v.items.length + (0 + reached (left limit (copies E.nothrowMove v.items.length)))) by omega])
              (by
                rw [g3, hr, hw, show v.items.length = u.length by omega, List.take_length_add_append, List.drop_length_add_append]
                simp) (fun c hca hcb => by rw [g4 c hca hcb, e4 c hca hcb])
            rw [hlen] at f1 f3
            exact ⟨h2, _, p, by simp [svtDestroyRange, g1], f1, f2, f3⟩
          | false =>
            obtain ⟨h2, g1, g2, g3, g4⟩ := q2 hf
            obtain ⟨f1, f2, f3⟩ := finish h2 w.items (w.items.map E.moved) (by omega) (by simp) (by rw [g2, hw]; simp) (by rw [g3, hw]; simp)
              (fun c hca hcb => by rw [g4 c hca hcb, e4 c hca hcb])
            exact ⟨h2, _, p, by simp [svtDestroyRange, g1, hwl], f1, f2, f3⟩
  · have hwS : w.cap ≠ E.inlineCap := fun e => hp (m.inline_iff.mpr e)
    by_cases ho : o.cur = o.inl
    · have hvS : v.cap = E.inlineCap := k.inline_iff.mp ho
      rw [if_neg (by simp [ho]), if_pos hp]
      obtain ⟨h1, d1, d2, d3⟩ := svtDestroyRange_ok (h := h) (a := o.cur) (pre := []) v.items (rest := List.replicate (v.cap - v.items.length) none) (by rw [k.cur]; rfl)
      rw [List.length_nil, ← k.size] at d1
      rw [List.nil_append, List.replicate_append_replicate, show v.items.length + (v.cap - v.items.length) = E.inlineCap by have := k.le; omega] at d2
      simp only [d1, Option.bind_eq_bind, Option.bind_some, if_pos hwS, if_neg (show ¬ v.cap ≠ E.inlineCap by simp [hvS])]
      have hpc : p.cur ≠ o.inl := fun e => hd p.cur ⟨Or.inl e.symm, Or.inr rfl⟩
      obtain ⟨hmc, him⟩ : E.inlineCap < w.cap ∧ h[p.inl]? = some (some (List.replicate E.inlineCap none)) := by
        rcases m.place with ⟨e, _⟩ | ⟨_, e1, e2⟩
        · exact absurd e hp
        · exact ⟨e1, e2⟩
      have hpi : p.inl ≠ o.cur := fun e => hd o.cur ⟨Or.inr rfl, Or.inl e⟩
      refine ⟨h1, _, _, rfl, ⟨m.size, m.cap, m.le, by rw [d3 _ (Ne.symm hab)]; exact m.cur, Or.inr ⟨hpc, hmc, by rw [← ho]; exact d2⟩⟩,
        ⟨rfl, rfl, Nat.zero_le _, by rw [d3 _ hpi, him]; simp [svtBody], Or.inl ⟨rfl, rfl⟩⟩, ?_, ?_, ?_⟩
      · intro c
        unfold SvtOwns
        simp only [ho]
        tauto
      · rintro c ⟨h2, h3⟩
        have := hd c
        unfold SvtOwns at this h2 h3
        simp only at h2 h3
        rcases h2 with h2 | h2 <;> rcases h3 with h3 | h3
        · exact this ⟨Or.inl h2, Or.inl h3⟩
        · exact this ⟨Or.inl h2, Or.inl h3⟩
        · exact hp (by rw [h2, h3])
        · exact hp (by rw [h2, h3])
      · intro c h2 _
        exact d3 c (fun e => h2 (Or.inr e.symm))
    · have hvS : v.cap ≠ E.inlineCap := fun e => ho (k.inline_iff.mpr e)
      rw [if_pos ⟨ho, hp⟩, if_pos hwS]
      simp only [if_pos hvS]
      obtain ⟨e1, e2, e3⟩ := svtExchange_ok k m hd ho hp
      exact ⟨h, _, _, rfl, e1, e2, e3⟩

theorem svtSwapInlineOrdered_ok (E : SvtEnv α) {h : CbHeap α} {o p : SvtObj} {v w : IdealVec α} (k : SvtOk E.inlineCap h o v) (m : SvtOk E.inlineCap h p w)
    (hd : ∀ c, ¬ (SvtOwns o c ∧ SvtOwns p c)) (ho : o.cur = o.inl) (hp : p.cur = p.inl) (hle : v.items.length ≤ w.items.length) (limit : Option Nat) :
    ∃ h' o' p', svtSwapInlineOrdered E h o p limit = some (h', o', p', (v.swapInline E.nothrowMove E.moved w limit).2.2) ∧
      SvtOk E.inlineCap h' o' (v.swapInline E.nothrowMove E.moved w limit).1 ∧ SvtOk E.inlineCap h' p' (v.swapInline E.nothrowMove E.moved w limit).2.1 ∧ SvtPair h o p h' o' p' := by
  have hab : o.cur ≠ p.cur := fun e => hd o.cur ⟨Or.inr rfl, Or.inr e.symm⟩
  have hvS : v.cap = E.inlineCap := k.inline_iff.mp ho
  have hwS : w.cap = E.inlineCap := m.inline_iff.mp hp
  have hvle := k.le
  have hwle := m.le
  have hkb : h[o.cur]? = some (some (v.items.map some ++ List.replicate (v.cap - v.items.length) none)) := k.cur
  have hmb : h[p.cur]? = some (some (w.items.map some ++ List.replicate (w.cap - w.items.length) none)) := m.cur
  have finish : ∀ (h' : CbHeap α) (xs ys : List α), xs.length ≤ v.cap → ys.length ≤ w.cap → h'[o.cur]? = some (some (xs.map some ++ List.replicate (v.cap - xs.length) none)) →
      h'[p.cur]? = some (some (ys.map some ++ List.replicate (w.cap - ys.length) none)) → (∀ c : Nat, c ≠ o.cur → c ≠ p.cur → h'[c]? = h[c]?) →
      SvtOk E.inlineCap h' ⟨o.inl, o.cur, xs.length, o.cap⟩ ⟨v.cap, xs⟩ ∧ SvtOk E.inlineCap h' ⟨p.inl, p.cur, ys.length, p.cap⟩ ⟨w.cap, ys⟩ ∧
      SvtPair h o p h' ⟨o.inl, o.cur, xs.length, o.cap⟩ ⟨p.inl, p.cur, ys.length, p.cap⟩ := by
    intro h' xs ys h1 h2 h3 h4 h5
    exact ⟨k.write xs h1 h3 (fun e => absurd ho e), m.write ys h2 h4 (fun e => absurd hp e), SvtPair.inPlace hd rfl rfl rfl rfl h5⟩
  have hosz : o = ⟨o.inl, o.cur, v.items.length, o.cap⟩ := by rw [← k.size]
  have hpsz : p = ⟨p.inl, p.cur, w.items.length, p.cap⟩ := by rw [← m.size]
  obtain ⟨i1, i2⟩ := svtSwapRanges_ok E hab (List.replicate (v.cap - v.items.length) none) (List.replicate (w.cap - w.items.length) none) v.items w.items [] [] h limit hle rfl
    (by rw [hkb]; simp) (by rw [hmb]; simp)
  rw [List.length_nil] at i1 i2
  unfold svtSwapInlineOrdered IdealVec.swapInline
  simp only [k.size, m.size]
  have hex : ∀ (n : Nat) (as bs : List α), as.length ≤ bs.length → (exchange E.moved as bs n).1.length = as.length ∧ (exchange E.moved as bs n).2.length = bs.length := by
    intro n as
    induction as generalizing n with
    | nil =>
      intro bs _
      rcases n with _ | _ | _ | n <;> simp [exchange]
    | cons a as ih =>
      intro bs hl
      rcases bs with _ | ⟨b, bs⟩
      · simp at hl
      · rcases n with _ | _ | _ | n
        · simp [exchange]
        · simp [exchange]
        · simp [exchange]
        · rw [exchange_three]
          obtain ⟨e1, e2⟩ := ih n bs (by simpa using hl)
          simp [e1, e2]
  cases ht : throws limit (copies E.nothrowMove (3 * v.items.length)) with
  | true =>
    obtain ⟨h', e1, e2, e3, e4⟩ := i1 ht
    simp only [e1, Option.bind_eq_bind, Option.bind_some, Bool.not_false, if_true]
    obtain ⟨l1, l2⟩ := hex (reached limit) v.items w.items hle
    obtain ⟨f1, f2, f3⟩ := finish h' _ _ (by rw [l1]; exact hvle) (by rw [l2]; exact hwle) (by rw [e2, l1]; rfl) (by rw [e3, l2]; rfl) e4
    rw [l1, ← hosz] at f1 f3
    rw [l2, ← hpsz] at f2 f3
    exact ⟨h', o, p, rfl, f1, f2, f3⟩
  | false =>
    obtain ⟨h1, e1, e2, e3, e4⟩ := i2 ht
    simp only [e1, Option.bind_eq_bind, Option.bind_some, Bool.not_true, Bool.false_eq_true, if_false]
    set u := w.items.take v.items.length with hu
    set t := w.items.drop v.items.length with htd
    have hw : w.items = u ++ t := by rw [hu, htd, List.take_append_drop]
    have hul : u.length = v.items.length := by rw [hu]; simp; omega
    have htl : w.items.length - v.items.length = t.length := by rw [htd]; simp
    have hrep : List.replicate (v.cap - v.items.length) (none : Option α) = List.replicate t.length none ++ List.replicate (v.cap - w.items.length) none := by
      rw [List.replicate_append_replicate]; congr 1; omega
    set mv : α → α := if E.nothrowMove then E.moved else id with hmv
    obtain ⟨q1, q2⟩ := svtRelocateAt_ok E E.nothrowMove (Ne.symm hab) (v.items.map some) (u.map some) t [] (List.replicate (w.cap - w.items.length) none)
      (List.replicate (v.cap - w.items.length) none) h1 (left limit (copies E.nothrowMove (3 * v.items.length)))
      (by rw [e3]; simp) (by rw [e2, hrep]; simp)
    simp only [List.length_map, List.length_nil, hul] at q1 q2
    rw [htl]
    cases hf : throws (left limit (copies E.nothrowMove (3 * v.items.length))) (copies E.nothrowMove t.length) with
    | true =>
      obtain ⟨h2, g1, g2, g3, g4⟩ := q1 hf
      simp only [g1, Option.bind_some, Bool.not_false, if_true]
      obtain ⟨hnm, _⟩ := copies_throws hf
      have hid : mv = id := by rw [hmv, hnm]; rfl
      have hyl : (v.items ++ t).length = w.items.length := by simp; omega
      obtain ⟨f1, f2, f3⟩ := finish h2 u (v.items ++ t) (by omega) (by omega) (by rw [g3, Nat.zero_add, hul, hrep]) (by
          rw [g2, ← hmv, hid, hyl]
          simp only [List.map_nil, List.nil_append, List.map_id, List.map_append, List.append_assoc]
          rw [← List.append_assoc ((t.take _).map some), ← List.map_append, List.take_append_drop])
        (fun c hca hcb => by rw [g4 c hcb hca, e4 c hca hcb])
      rw [hul, ← hosz] at f1 f3
      rw [hyl, ← hpsz] at f2 f3
      exact ⟨h2, o, p, rfl, f1, f2, f3⟩
    | false =>
      obtain ⟨h2, g1, g2, g3, g4⟩ := q2 hf
      simp only [g1, Option.bind_some, Bool.not_true, Bool.false_eq_true, if_false]
      obtain ⟨h3, d1, d2, d3⟩ := svtDestroyRange_ok (h := h2) (a := p.cur) (pre := v.items.map some) (t.map mv) (rest := List.replicate (w.cap - w.items.length) none)
        (by rw [g2]; simp [← hmv])
      rw [List.length_map, List.length_map] at d1
      obtain ⟨f1, f2, f3⟩ := finish h3 w.items v.items (by omega) (by omega) (by rw [d3 _ hab, g3, hw]; simp) (by
          rw [d2, List.length_map, List.replicate_append_replicate, show t.length + (w.cap - w.items.length) = w.cap - v.items.length by omega])
        (fun c hca hcb => by rw [d3 c hcb, g4 c hcb hca, e4 c hca hcb])
      refine ⟨h3, _, _, by simp [d1], ?_, ?_, f3⟩
      · have : w = ⟨v.cap, w.items⟩ := by rw [hvS, ← hwS]
        rw [this]; exact f1
      · have : v = ⟨w.cap, v.items⟩ := by rw [hwS, ← hvS]
        rw [this]; exact f2

theorem svtSwapMixedOrdered_ok (E : SvtEnv α) {h : CbHeap α} {o p : SvtObj} {v w : IdealVec α} (k : SvtOk E.inlineCap h o v) (m : SvtOk E.inlineCap h p w)
    (hd : ∀ c, ¬ (SvtOwns o c ∧ SvtOwns p c)) (ho : o.cur = o.inl) (hp : p.cur ≠ p.inl) (limit : Option Nat) :
    (throws limit (copies E.nothrowMove v.items.length) = true → ∃ h', svtSwapMixedOrdered E h o p limit = some (h', o, p, false) ∧
      SvtOk E.inlineCap h' o v ∧ SvtOk E.inlineCap h' p w ∧ SvtPair h o p h' o p) ∧
    (throws limit (copies E.nothrowMove v.items.length) = false → ∃ h' o' p', svtSwapMixedOrdered E h o p limit = some (h', o', p', true) ∧
      SvtOk E.inlineCap h' o' w ∧ SvtOk E.inlineCap h' p' v ∧ SvtPair h o p h' o' p') := by
  have hab : o.cur ≠ p.cur := fun e => hd o.cur ⟨Or.inr rfl, Or.inr e.symm⟩
  have hai : o.cur ≠ p.inl := fun e => hd o.cur ⟨Or.inr rfl, Or.inl e.symm⟩
  have hvS : v.cap = E.inlineCap := k.inline_iff.mp ho
  obtain ⟨hwS, him⟩ : E.inlineCap < w.cap ∧ h[p.inl]? = some (some (List.replicate E.inlineCap none)) := by
    rcases m.place with ⟨e, _⟩ | ⟨_, e1, e2⟩
    · exact absurd e hp
    · exact ⟨e1, e2⟩
  have hvle := k.le
  have hkb : h[o.cur]? = some (some (v.items.map some ++ List.replicate (v.cap - v.items.length) none)) := k.cur
  set mv : α → α := if E.nothrowMove then E.moved else id with hmv
  have hrep : List.replicate E.inlineCap (none : Option α) = List.replicate v.items.length none ++ List.replicate (E.inlineCap - v.items.length) none := by
    rw [List.replicate_append_replicate]; congr 1; omega
  obtain ⟨q1, q2⟩ := svtRelocateAt_ok E E.nothrowMove hai [] [] v.items [] (List.replicate (v.cap - v.items.length) none)
    (List.replicate (E.inlineCap - v.items.length) none) h limit (by rw [hkb]; simp) (by rw [him, hrep]; simp)
  rw [List.length_nil, List.length_nil] at q1 q2
  unfold svtSwapMixedOrdered
  rw [k.size]
  refine ⟨fun hf => ?_, fun hf => ?_⟩
  · obtain ⟨h1, g1, g2, g3, g4⟩ := q1 hf
    obtain ⟨hnm, _⟩ := copies_throws hf
    have hid : mv = id := by rw [hmv, hnm]; rfl
    have hsame : ∀ c : Nat, h1[c]? = h[c]? := by
      intro c
      by_cases h1 : c = o.cur
      · rw [h1, g2, hkb, ← hmv, hid]
        simp only [List.map_nil, List.nil_append, List.map_id]
        rw [← List.append_assoc, ← List.map_append, List.take_append_drop]
      · by_cases h2 : c = p.inl
        · rw [h2, g3, him, hrep]; simp
        · exact g4 c h1 h2
    exact ⟨h1, by simp [g1], k.frame (fun c _ => hsame c), m.frame (fun c _ => hsame c), SvtPair.inPlace hd rfl rfl rfl rfl (fun c _ _ => hsame c)⟩
  · obtain ⟨h1, g1, g2, g3, g4⟩ := q2 hf
    simp only [g1, Option.bind_eq_bind, Option.bind_some, Bool.not_true, Bool.false_eq_true, if_false]
    obtain ⟨h2, d1, d2, d3⟩ := svtDestroyRange_ok (h := h1) (a := o.cur) (pre := []) (v.items.map mv) (rest := List.replicate (v.cap - v.items.length) none)
      (by rw [g2]; simp [← hmv])
    rw [List.length_map, List.length_nil] at d1
    rw [List.length_map, List.nil_append, List.replicate_append_replicate, show v.items.length + (v.cap - v.items.length) = E.inlineCap by omega] at d2
    have hpc : p.cur ≠ o.inl := fun e => hd p.cur ⟨Or.inl e.symm, Or.inr rfl⟩
    refine ⟨h2, _, _, by simp only [d1, Option.bind_some]; rfl, ?_, ?_, ?_, ?_, ?_⟩
    · exact ⟨m.size, m.cap, m.le, by rw [d3 _ (Ne.symm hab), g4 _ (Ne.symm hab) hp]; exact m.cur, Or.inr ⟨hpc, hwS, by rw [← ho]; exact d2⟩⟩
    · exact ⟨rfl, hvS.symm, hvle, by rw [d3 _ (Ne.symm hai), g3]; simp [svtBody, hvS], Or.inl ⟨rfl, hvS⟩⟩
    · intro c
      unfold SvtOwns
      simp only [ho]
      tauto
    · rintro c ⟨h2, h3⟩
      have := hd c
      unfold SvtOwns at this h2 h3
      simp only at h2 h3
      rcases h2 with h2 | h2 <;> rcases h3 with h3 | h3
      · exact this ⟨Or.inl h2, Or.inl h3⟩
      · exact this ⟨Or.inl h2, Or.inl h3⟩
      · exact hp (by rw [h2, h3])
      · exact hp (by rw [h2, h3])
    · intro c h2 h3
      rw [d3 c (fun e => h2 (Or.inr e.symm)), g4 c (fun e => h2 (Or.inr e.symm)) (fun e => h3 (Or.inl e.symm))]

/-- `swap`. -/
theorem svtSwapVars_ok (E : SvtEnv α) {h : CbHeap α} {o p : SvtObj} {v w : IdealVec α} (k : SvtOk E.inlineCap h o v) (m : SvtOk E.inlineCap h p w)
    (hd : ∀ c, ¬ (SvtOwns o c ∧ SvtOwns p c)) (limit : Option Nat) :
    ∃ h' o' p', svtSwapVars E h o p limit = some (h', o', p', (v.swap E.inlineCap E.nothrowMove E.moved w limit).2.2) ∧
      SvtOk E.inlineCap h' o' (v.swap E.inlineCap E.nothrowMove E.moved w limit).1 ∧ SvtOk E.inlineCap h' p' (v.swap E.inlineCap E.nothrowMove E.moved w limit).2.1 ∧
      SvtPair h o p h' o' p' := by
  have hd' : ∀ c, ¬ (SvtOwns p c ∧ SvtOwns o c) := fun c e => hd c e.symm
  unfold svtSwapVars IdealVec.swap
  by_cases ho : o.cur = o.inl
  · have hvS : v.cap = E.inlineCap := k.inline_iff.mp ho
    by_cases hp : p.cur = p.inl
    · have hwS : w.cap = E.inlineCap := m.inline_iff.mp hp
      rw [if_neg (show ¬ (o.cur ≠ o.inl ∧ p.cur ≠ p.inl) from fun e => e.1 ho), if_pos (show o.cur = o.inl ∧ p.cur = p.inl from ⟨ho, hp⟩),
        if_neg (show ¬ (v.cap ≠ E.inlineCap ∧ w.cap ≠ E.inlineCap) from fun e => e.1 hvS), if_pos (show v.cap = E.inlineCap ∧ w.cap = E.inlineCap from ⟨hvS, hwS⟩), k.size, m.size]
      by_cases hlt : v.items.length < w.items.length
      · rw [if_pos hlt, if_pos hlt]
        exact svtSwapInlineOrdered_ok E k m hd ho hp (by omega) limit
      · rw [if_neg hlt, if_neg hlt]
        obtain ⟨h', o', p', e1, e2, e3, e4⟩ := svtSwapInlineOrdered_ok E m k hd' hp ho (by omega) limit
        exact ⟨h', p', o', by rw [e1]; rfl, e3, e2, e4.swap⟩
    · have hwS : w.cap ≠ E.inlineCap := fun e => hp (m.inline_iff.mpr e)
      rw [if_neg (by simp [ho]), if_neg (by simp [hp]), if_pos ho, if_neg (by simp [hvS]), if_neg (by simp [hwS]), if_pos hvS]
      obtain ⟨i1, i2⟩ := svtSwapMixedOrdered_ok E k m hd ho hp limit
      cases ht : throws limit (copies E.nothrowMove v.items.length) with
      | true => obtain ⟨h', e1, e2, e3, e4⟩ := i1 ht; exact ⟨h', o, p, e1, e2, e3, e4⟩
      | false => obtain ⟨h', o', p', e1, e2, e3, e4⟩ := i2 ht; exact ⟨h', o', p', e1, e2, e3, e4⟩
  · have hvS : v.cap ≠ E.inlineCap := fun e => ho (k.inline_iff.mpr e)
    by_cases hp : p.cur = p.inl
    · have hwS : w.cap = E.inlineCap := m.inline_iff.mp hp
      rw [if_neg (by simp [hp]), if_neg (by simp [ho]), if_neg ho, if_neg (by simp [hwS]), if_neg (by simp [hvS]), if_neg hvS]
      obtain ⟨i1, i2⟩ := svtSwapMixedOrdered_ok E m k hd' hp ho limit
      cases ht : throws limit (copies E.nothrowMove w.items.length) with
      | true => obtain ⟨h', e1, e2, e3, e4⟩ := i1 ht; exact ⟨h', o, p, by rw [e1]; rfl, e3, e2, e4.swap⟩
      | false => obtain ⟨h', o', p', e1, e2, e3, e4⟩ := i2 ht; exact ⟨h', p', o', by rw [e1]; rfl, e3, e2, e4.swap⟩
    · have hwS : w.cap ≠ E.inlineCap := fun e => hp (m.inline_iff.mpr e)
      rw [if_pos ⟨ho, hp⟩, if_pos ⟨hvS, hwS⟩]
      obtain ⟨e1, e2, e3⟩ := svtExchange_ok k m hd ho hp
      exact ⟨h, _, _, rfl, e1, e2, e3⟩

end Gapp.Model
