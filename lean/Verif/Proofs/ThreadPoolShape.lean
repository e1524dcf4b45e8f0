import Verif.Proofs.ThreadPoolStep

/-! The blocks of a loop, and the shape of the call stacks. -/

namespace Gapp.Model

variable {E : Type}

/-! ## Blocks -/

theorem cutBlocks_flatten {α : Type} (step rem : Nat) (k : Nat) : ∀ (i : Nat) (xs : List α),
    (cutBlocks step rem k i xs).1.flatten ++ (cutBlocks step rem k i xs).2 = xs := by
  induction k with
  | zero => intro i xs; rfl
  | succ k ih =>
    intro i xs
    unfold cutBlocks
    simp only
    rw [List.flatten_cons, List.append_assoc, ih, List.take_append_drop]

theorem cutBlocks_length {α : Type} (step rem : Nat) (k : Nat) : ∀ (i : Nat) (xs : List α),
    (cutBlocks step rem k i xs).1.length = k := by
  induction k with
  | zero => intro i xs; rfl
  | succ k ih =>
    intro i xs
    unfold cutBlocks
    simp only
    rw [List.length_cons, ih]

theorem loopBlocks_flatten {α : Type} (W b : Nat) (xs : List α) : (loopBlocks W b xs).1.flatten ++ (loopBlocks W b xs).2 = xs :=
  cutBlocks_flatten _ _ _ _ _

theorem loopBlocks_length {α : Type} (W b : Nat) (xs : List α) :
    (loopBlocks W b xs).1.length = poolTaskCount W xs.length b - 1 := cutBlocks_length _ _ _ _ _

theorem poolTaskCount_le (W n b : Nat) : poolTaskCount W n b ≤ n := by
  unfold poolTaskCount
  simp only
  omega

theorem poolTaskCount_zero (n b : Nat) : poolTaskCount 0 n b ≤ 1 := by
  unfold poolTaskCount
  simp only [if_true]
  omega

theorem poolTaskCount_pos {W n b : Nat} (hn : 0 < n) (hb : 0 < b) : 0 < poolTaskCount W n b := by
  unfold poolTaskCount
  simp only
  have h1 : 0 < W + (if W = 0 then 1 else 0) := by split <;> omega
  have h2 : 0 < n / b + (if n % b ≠ 0 then 1 else 0) := by
    by_cases h : n % b = 0
    · have : b ≤ n := Nat.le_of_dvd hn (Nat.dvd_of_mod_eq_zero h)
      have := Nat.div_pos this hb
      omega
    · rw [if_pos h]; exact Nat.succ_pos _
  omega

theorem loopBlocks_workers {α : Type} (W b : Nat) (xs : List α) (h : (loopBlocks W b xs).1 ≠ []) : 0 < W := by
  rcases Nat.eq_zero_or_pos W with h0 | h0
  · exfalso
    subst h0
    have h1 := loopBlocks_length 0 b xs
    have h2 := poolTaskCount_zero xs.length b
    exact h (List.length_eq_zero_iff.1 (by omega))
  · exact h0

/-! ## Shape -/

def CallOk (W t : Nat) (c : PoolCall E) (rest : List (PoolCall E)) : Prop :=
  match c.frame with
  | .body none _ => rest = []
  | .body (some (l, _)) _ => ∃ τ todo r, rest = ⟨τ, .own l todo⟩ :: r ∨ rest = ⟨τ, .task l todo⟩ :: r
  | .submit l bs _ slot => c.time = l ∧ (bs ≠ [] → 0 < W) ∧ (bs = [] → slot = none) ∧
      ∃ τ tag p r, rest = ⟨τ, .body tag p⟩ :: r
  | .own l _ => c.time = l ∧ ∃ τ tag p r, rest = ⟨τ, .body tag p⟩ :: r
  | .check l => c.time = l ∧ ∃ τ tag p r, rest = ⟨τ, .body tag p⟩ :: r
  | .wait l => c.time = l ∧ t < W ∧ ∃ τ tag p r, rest = ⟨τ, .body tag p⟩ :: r
  | .taking l => c.time = l ∧ t < W ∧ ∃ τ tag p r, rest = ⟨τ, .body tag p⟩ :: r
  | .task l _ => l < c.time ∧ t < W ∧ (rest = [] ∨ ∃ τ l' r, rest = ⟨τ, .wait l'⟩ :: r)

def StackOk (W t : Nat) : List (PoolCall E) → Prop
  | [] => True
  | c :: rest => CallOk W t c rest ∧ (∀ c' ∈ rest, c'.time < c.time) ∧ StackOk W t rest

structure PInv (T W : Nat) (s : PoolState E) : Prop where
  shape : ∀ t, StackOk W t (s.calls t)
  times : ∀ t, ∀ c ∈ s.calls t, c.time < s.clock
  out : ∀ t, T ≤ t → s.calls t = []
  qout : ∀ w, W ≤ w → s.queues w = []
  qloop : ∀ w, ∀ k ∈ s.queues w, k.loop < s.clock
  taking : ∀ t τ l rest, s.calls t = ⟨τ, .taking l⟩ :: rest → s.queues t ≠ []
  le : W ≤ T

theorem PInv.lt {T W : Nat} {s : PoolState E} (h : PInv T W s) {t : Nat} {c : PoolCall E} {rest : List (PoolCall E)}
    (hs : s.calls t = c :: rest) : t < T := by
  by_contra hc
  rw [h.out t (by omega)] at hs
  cases hs

theorem throwInto_body (e : E) (τ : Nat) (tag : Option (Nat × Nat)) (p : PoolProg E) (r : List (PoolCall E)) :
    throwInto e (⟨τ, .body tag p⟩ :: r) = ⟨τ, .body tag (.throw e)⟩ :: r := rfl

theorem head_time {τ : Nat} {f : PoolFrame E} {rest : List (PoolCall E)} {b : Nat} (h : ∀ x ∈ ⟨τ, f⟩ :: rest, x.time < b) :
    τ < b := h ⟨τ, f⟩ List.mem_cons_self

/-- The invariant, when only the stack of thread `t` changes. -/
theorem PInv.update {T W : Nat} {s : PoolState E} (h : PInv T W s) {t : Nat} (ht : t < T) {new : List (PoolCall E)} {clock : Nat}
    {s' : PoolState E} (h1 : s'.calls = upd s.calls t new) (h2 : s'.queues = s.queues) (h3 : s'.clock = clock)
    (hc : s.clock ≤ clock) (hnew : StackOk W t new) (htimes : ∀ c ∈ new, c.time < clock)
    (htake : ∀ τ l rest, new = ⟨τ, .taking l⟩ :: rest → s.queues t ≠ []) : PInv T W s' := by
  have hu : ∀ u, u ≠ t → s'.calls u = s.calls u := fun u hu => by rw [h1, upd_ne _ _ hu]
  have ht' : s'.calls t = new := by rw [h1, upd_same]
  refine ⟨fun u => ?_, fun u c hcu => ?_, fun u hu' => ?_, fun w hw => ?_, fun w k hk => ?_, fun u τ l rest hr => ?_, h.le⟩
  · by_cases hut : u = t
    · rw [hut, ht']; exact hnew
    · rw [hu u hut]; exact h.shape u
  · rw [h3]
    by_cases hut : u = t
    · rw [hut, ht'] at hcu; exact htimes c hcu
    · rw [hu u hut] at hcu; exact Nat.lt_of_lt_of_le (h.times u c hcu) hc
  · rw [hu u (by omega)]; exact h.out u hu'
  · rw [h2]; exact h.qout w hw
  · rw [h2] at hk; rw [h3]; exact Nat.lt_of_lt_of_le (h.qloop w k hk) hc
  · rw [h2]
    by_cases hut : u = t
    · rw [hut, ht'] at hr; rw [hut]; exact htake τ l rest hr
    · rw [hu u hut] at hr; exact h.taking u τ l rest hr

theorem stackOk_tail {W t : Nat} {c : PoolCall E} {rest : List (PoolCall E)} (h : StackOk W t (c :: rest)) : StackOk W t rest :=
  h.2.2

theorem stackOk_throwInto {W t : Nat} (e : E) {rest : List (PoolCall E)} (h : StackOk W t rest) : StackOk W t (throwInto e rest) := by
  unfold throwInto
  split
  · rename_i τ tag p r
    refine ⟨?_, h.2.1, h.2.2⟩
    have := h.1
    unfold CallOk at this ⊢
    cases tag with
    | none => exact this
    | some x => exact this
  · exact h

theorem mem_throwInto {e : E} {rest : List (PoolCall E)} {c : PoolCall E} (h : c ∈ throwInto e rest) :
    ∃ c' ∈ rest, c'.time = c.time := by
  unfold throwInto at h
  split at h
  · rename_i τ tag p r
    rcases List.mem_cons.1 h with h | h
    · subst h; exact ⟨_, List.mem_cons_self, rfl⟩
    · exact ⟨c, List.mem_cons_of_mem _ h, rfl⟩
  · exact ⟨c, h, rfl⟩

theorem throwInto_no_taking {e : E} {W t : Nat} {c : PoolCall E} {rest : List (PoolCall E)} (h : StackOk W t (c :: rest))
    (hb : ∃ τ tag p r, rest = ⟨τ, .body tag p⟩ :: r) : ∀ τ l r, throwInto e rest ≠ ⟨τ, .taking l⟩ :: r := by
  obtain ⟨τ', tag, p, r', rfl⟩ := hb
  intro τ l r hc
  rw [throwInto_body] at hc
  cases hc

theorem pinv_step {T W : Nat} {s s' : PoolState E} {t : Nat} (h : PInv T W s) (hstep : PStep W s t s') : PInv T W s' := by
  have hsh := h.shape t
  have hti := h.times t
  cases hstep with
  | same => exact h
  | takeIdle k q hs ht hq =>
    have hk : k.loop < s.clock := h.qloop t k (by rw [hq]; exact List.mem_cons_self)
    have hq' : ∀ w, ∀ x ∈ upd s.queues t q w, x ∈ s.queues w := by
      intro w x hx
      by_cases hw : w = t
      · subst hw; rw [upd_same] at hx; rw [hq]; exact List.mem_cons_of_mem _ hx
      · rwa [upd_ne _ _ hw] at hx
    refine ⟨fun u => ?_, fun u c hc => ?_, fun u hu => ?_, fun w hw => ?_, fun w x hx => ?_, fun u τ l rest hr => ?_, h.le⟩
    · show StackOk W u (upd s.calls t _ u)
      by_cases hut : u = t
      · subst hut; rw [upd_same]; exact ⟨⟨hk, ht, Or.inl rfl⟩, fun c hc => (by cases hc), trivial⟩
      · rw [upd_ne _ _ hut]; exact h.shape u
    · have hc : c ∈ upd s.calls t _ u := hc
      show c.time < s.clock + 1
      by_cases hut : u = t
      · subst hut; rw [upd_same] at hc; rw [List.mem_singleton.1 hc]; exact Nat.lt_succ_self _
      · rw [upd_ne _ _ hut] at hc; exact Nat.lt_succ_of_lt (h.times u c hc)
    · show upd s.calls t _ u = []
      have := h.le
      rw [upd_ne _ _ (by omega)]; exact h.out u hu
    · show upd s.queues t q w = []
      rw [upd_ne _ _ (by omega)]; exact h.qout w hw
    · exact Nat.lt_succ_of_lt (h.qloop w x (hq' w x hx))
    · have hr : upd s.calls t _ u = _ := hr
      show upd s.queues t q u ≠ []
      by_cases hut : u = t
      · subst hut; rw [upd_same] at hr; cases hr
      · rw [upd_ne _ _ hut] at hr ⊢; exact h.taking u τ l rest hr
  | bodyDone τ tag rest hs =>
    rw [hs] at hsh hti
    refine h.update (h.lt hs) rfl rfl rfl (Nat.le_refl _) (stackOk_tail hsh) (fun c hc => hti c (List.mem_cons_of_mem _ hc)) ?_
    rintro τ' l r rfl
    have := hsh.1
    unfold CallOk at this
    rcases tag with _ | ⟨l', i⟩
    · cases this
    · obtain ⟨_, _, _, h1 | h1⟩ := this <;> cases h1
  | throwTask τ tag e τ' l todo rest hs =>
    rw [hs] at hsh hti
    refine h.update (h.lt hs) rfl rfl rfl (Nat.le_refl _) ⟨hsh.2.2.1, hsh.2.2.2⟩ (fun c hc => ?_) ?_
    · rcases List.mem_cons.1 hc with hc | hc
      · subst hc; exact hti ⟨τ', .task l todo⟩ (by simp)
      · exact hti c (by simp [hc])
    · intro _ _ _ hc; cases hc
  | throwOwn τ tag e τ' l todo rest hs =>
    rw [hs] at hsh hti
    refine h.update (h.lt hs) rfl rfl rfl (Nat.le_refl _) (stackOk_throwInto e hsh.2.2.2.2) (fun c hc => ?_) ?_
    · obtain ⟨c', hc', he⟩ := mem_throwInto hc
      rw [← he]
      exact hti c' (by simp [hc'])
    · intro τ'' l'' r'' hc
      exact absurd hc (throwInto_no_taking hsh.2.2 hsh.2.2.1.2 _ _ _)
  | throwOut τ tag e rest h1 h2 hs =>
    rw [hs] at hsh hti
    refine h.update (h.lt hs) rfl rfl rfl (Nat.le_refl _) (stackOk_tail hsh) (fun c hc => hti c (List.mem_cons_of_mem _ hc)) ?_
    rintro τ' l r rfl
    have := hsh.1
    unfold CallOk at this
    rcases tag with _ | ⟨l', i⟩
    · cases this
    · obtain ⟨_, _, _, h1 | h1⟩ := this <;> cases h1
  | emptyLoop τ tag b next rest hs =>
    rw [hs] at hsh hti
    refine h.update (h.lt hs) rfl rfl rfl (Nat.le_refl _) ⟨?_, hsh.2⟩ (fun c hc => ?_) ?_
    · have := hsh.1
      unfold CallOk at this ⊢
      cases tag <;> exact this
    · rcases List.mem_cons.1 hc with hc | hc
      · subst hc; exact head_time hti
      · exact hti c (List.mem_cons_of_mem _ hc)
    · intro _ _ _ hc; cases hc
  | start τ tag iters b next rest hne hs =>
    rw [hs] at hsh hti
    refine h.update (h.lt hs) rfl rfl rfl (Nat.le_succ _) ⟨⟨rfl, fun hb => loopBlocks_workers _ _ _ hb, fun _ => rfl, ?_⟩, ?_, ?_, hsh.2⟩ (fun c hc => ?_) ?_
    · exact ⟨τ, tag, next, rest, rfl⟩
    · intro c hc
      rcases List.mem_cons.1 hc with hc | hc
      · subst hc; exact head_time hti
      · exact hti c (List.mem_cons_of_mem _ hc)
    · have := hsh.1
      unfold CallOk at this ⊢
      cases tag <;> exact this
    · rcases List.mem_cons.1 hc with hc | hc
      · subst hc; exact Nat.lt_succ_self _
      · rcases List.mem_cons.1 hc with hc | hc
        · subst hc; exact Nat.lt_succ_of_lt (head_time hti)
        · exact Nat.lt_succ_of_lt (hti c (List.mem_cons_of_mem _ hc))
    · intro _ _ _ hc; cases hc
  | fetch τ l b bs own rest hs =>
    rw [hs] at hsh hti
    obtain ⟨⟨h1, h2, _, h4⟩, h5, h6⟩ := hsh
    refine h.update (h.lt hs) rfl rfl rfl (Nat.le_refl _) ⟨⟨h1, h2, fun h => (by cases h), h4⟩, h5, h6⟩ (fun c hc => ?_) ?_
    · rcases List.mem_cons.1 hc with hc | hc
      · subst hc; exact head_time hti
      · exact hti c (List.mem_cons_of_mem _ hc)
    · intro _ _ _ hc; cases hc
  | push τ l b bs own n rest hs =>
    rw [hs] at hsh hti
    obtain ⟨⟨h1, h2, _, h4⟩, h5, h6⟩ := hsh
    have hqW := Nat.mod_lt n (h2 (List.cons_ne_nil _ _))
    generalize n % W = q at hqW ⊢
    have hl : l < s.clock := by
      have := head_time hti
      rw [← h1]; exact this
    refine ⟨fun u => ?_, fun u c hc => ?_, fun u hu => ?_, fun w hw => ?_, fun w x hx => ?_, fun u τ' l' rest' hr => ?_, h.le⟩
    · show StackOk W u (upd s.calls t _ u)
      by_cases hut : u = t
      · subst hut; rw [upd_same]
        exact ⟨⟨h1, fun _ => Nat.lt_of_le_of_lt (Nat.zero_le _) hqW, fun _ => rfl, h4⟩, h5, h6⟩
      · rw [upd_ne _ _ hut]; exact h.shape u
    · have hc : c ∈ upd s.calls t _ u := hc
      show c.time < s.clock
      by_cases hut : u = t
      · subst hut; rw [upd_same] at hc
        rcases List.mem_cons.1 hc with hc | hc
        · subst hc; exact head_time hti
        · exact hti c (List.mem_cons_of_mem _ hc)
      · rw [upd_ne _ _ hut] at hc; exact h.times u c hc
    · show upd s.calls t _ u = []
      have := h.lt hs
      rw [upd_ne _ _ (by omega)]; exact h.out u hu
    · show upd s.queues q _ w = []
      rw [upd_ne _ _ (by omega)]; exact h.qout w hw
    · have hx : x ∈ upd s.queues q _ w := hx
      show x.loop < s.clock
      by_cases hwq : w = q
      · subst hwq; rw [upd_same] at hx
        rcases List.mem_append.1 hx with hx | hx
        · exact h.qloop _ x hx
        · rw [List.mem_singleton.1 hx]; exact hl
      · rw [upd_ne _ _ hwq] at hx; exact h.qloop w x hx
    · have hr : upd s.calls t _ u = _ := hr
      show upd s.queues q _ u ≠ []
      by_cases hut : u = t
      · subst hut; rw [upd_same] at hr; cases hr
      · rw [upd_ne _ _ hut] at hr
        have := h.taking u τ' l' rest' hr
        by_cases huq : u = q
        · subst huq; rw [upd_same]; simp
        · rw [upd_ne _ _ huq]; exact this
  | submitted τ l own slot rest hs =>
    rw [hs] at hsh hti
    obtain ⟨⟨h1, h2, _, h4⟩, h5, h6⟩ := hsh
    refine h.update (h.lt hs) rfl rfl rfl (Nat.le_refl _) ⟨⟨h1, h4⟩, h5, h6⟩ (fun c hc => ?_) ?_
    · rcases List.mem_cons.1 hc with hc | hc
      · subst hc; exact head_time hti
      · exact hti c (List.mem_cons_of_mem _ hc)
    · intro _ _ _ hc; cases hc
  | ownStart τ l i todo rest hs =>
    rw [hs] at hsh hti
    obtain ⟨⟨h1, h4⟩, h5, h6⟩ := hsh
    have hall : ∀ c ∈ (⟨τ, .own l todo⟩ :: rest : List (PoolCall E)), c.time < s.clock := by
      intro c hc
      rcases List.mem_cons.1 hc with hc | hc
      · subst hc; exact head_time hti
      · exact hti c (List.mem_cons_of_mem _ hc)
    refine h.update (h.lt hs) rfl rfl rfl (Nat.le_succ _) ⟨⟨τ, todo, rest, Or.inl rfl⟩, hall, ⟨h1, h4⟩, h5, h6⟩ (fun c hc => ?_) ?_
    · rcases List.mem_cons.1 hc with hc | hc
      · subst hc; exact Nat.lt_succ_self _
      · exact Nat.lt_succ_of_lt (hall c hc)
    · intro _ _ _ hc; cases hc
  | ownEndW τ l rest ht hs =>
    rw [hs] at hsh hti
    obtain ⟨⟨h1, h4⟩, h5, h6⟩ := hsh
    refine h.update (h.lt hs) rfl rfl rfl (Nat.le_refl _) ⟨⟨h1, ht, h4⟩, h5, h6⟩ (fun c hc => ?_) ?_
    · rcases List.mem_cons.1 hc with hc | hc
      · subst hc; exact head_time hti
      · exact hti c (List.mem_cons_of_mem _ hc)
    · intro _ _ _ hc; cases hc
  | ownEndU τ l rest ht hs =>
    rw [hs] at hsh hti
    obtain ⟨⟨h1, h4⟩, h5, h6⟩ := hsh
    refine h.update (h.lt hs) rfl rfl rfl (Nat.le_refl _) ⟨⟨h1, h4⟩, h5, h6⟩ (fun c hc => ?_) ?_
    · rcases List.mem_cons.1 hc with hc | hc
      · subst hc; exact head_time hti
      · exact hti c (List.mem_cons_of_mem _ hc)
    · intro _ _ _ hc; cases hc
  | pollTake τ l rest hq hs =>
    rw [hs] at hsh hti
    obtain ⟨⟨h1, ht, h4⟩, h5, h6⟩ := hsh
    refine h.update (h.lt hs) rfl rfl rfl (Nat.le_refl _) ⟨⟨h1, ht, h4⟩, h5, h6⟩ (fun c hc => ?_) ?_
    · rcases List.mem_cons.1 hc with hc | hc
      · subst hc; exact head_time hti
      · exact hti c (List.mem_cons_of_mem _ hc)
    · intro _ _ _ _; exact hq
  | pollCheck τ l rest hq hs =>
    rw [hs] at hsh hti
    obtain ⟨⟨h1, ht, h4⟩, h5, h6⟩ := hsh
    refine h.update (h.lt hs) rfl rfl rfl (Nat.le_refl _) ⟨⟨h1, h4⟩, h5, h6⟩ (fun c hc => ?_) ?_
    · rcases List.mem_cons.1 hc with hc | hc
      · subst hc; exact head_time hti
      · exact hti c (List.mem_cons_of_mem _ hc)
    · intro _ _ _ hc; cases hc
  | pollWait τ l rest ht hl hs =>
    rw [hs] at hsh hti
    obtain ⟨⟨h1, h4⟩, h5, h6⟩ := hsh
    refine h.update (h.lt hs) rfl rfl rfl (Nat.le_refl _) ⟨⟨h1, ht, h4⟩, h5, h6⟩ (fun c hc => ?_) ?_
    · rcases List.mem_cons.1 hc with hc | hc
      · subst hc; exact head_time hti
      · exact hti c (List.mem_cons_of_mem _ hc)
    · intro _ _ _ hc; cases hc
  | takeLocal τ l k q rest hq hs =>
    rw [hs] at hsh hti
    obtain ⟨⟨h1, ht, h4⟩, h5, h6⟩ := hsh
    have hk : k.loop < s.clock := h.qloop t k (by rw [hq]; exact List.mem_cons_self)
    have hq' : ∀ w, ∀ x ∈ upd s.queues t q w, x ∈ s.queues w := by
      intro w x hx
      by_cases hw : w = t
      · subst hw; rw [upd_same] at hx; rw [hq]; exact List.mem_cons_of_mem _ hx
      · rwa [upd_ne _ _ hw] at hx
    have hall : ∀ c ∈ (⟨τ, .wait l⟩ :: rest : List (PoolCall E)), c.time < s.clock := by
      intro c hc
      rcases List.mem_cons.1 hc with hc | hc
      · subst hc; exact head_time hti
      · exact hti c (List.mem_cons_of_mem _ hc)
    refine ⟨fun u => ?_, fun u c hc => ?_, fun u hu => ?_, fun w hw => ?_, fun w x hx => ?_, fun u τ' l' rest' hr => ?_, h.le⟩
    · show StackOk W u (upd s.calls t _ u)
      by_cases hut : u = t
      · subst hut; rw [upd_same]
        exact ⟨⟨hk, ht, Or.inr ⟨τ, l, rest, rfl⟩⟩, hall, ⟨h1, ht, h4⟩, h5, h6⟩
      · rw [upd_ne _ _ hut]; exact h.shape u
    · have hc : c ∈ upd s.calls t _ u := hc
      show c.time < s.clock + 1
      by_cases hut : u = t
      · subst hut; rw [upd_same] at hc
        rcases List.mem_cons.1 hc with hc | hc
        · subst hc; exact Nat.lt_succ_self _
        · exact Nat.lt_succ_of_lt (hall c hc)
      · rw [upd_ne _ _ hut] at hc; exact Nat.lt_succ_of_lt (h.times u c hc)
    · show upd s.calls t _ u = []
      have := h.le
      rw [upd_ne _ _ (by omega)]; exact h.out u hu
    · show upd s.queues t q w = []
      rw [upd_ne _ _ (by omega)]; exact h.qout w hw
    · exact Nat.lt_succ_of_lt (h.qloop w x (hq' w x hx))
    · have hr : upd s.calls t _ u = _ := hr
      show upd s.queues t q u ≠ []
      by_cases hut : u = t
      · subst hut; rw [upd_same] at hr; cases hr
      · rw [upd_ne _ _ hut] at hr ⊢; exact h.taking u τ' l' rest' hr
  | retOk τ l rest hl he hs =>
    rw [hs] at hsh hti
    obtain ⟨⟨h1, h4⟩, h5, h6⟩ := hsh
    refine h.update (h.lt hs) rfl rfl rfl (Nat.le_refl _) h6 (fun c hc => hti c (List.mem_cons_of_mem _ hc)) ?_
    obtain ⟨τ', tag, p, r, rfl⟩ := h4
    intro _ _ _ hc; cases hc
  | retThrow τ l e rest hl he hs =>
    rw [hs] at hsh hti
    refine h.update (h.lt hs) rfl rfl rfl (Nat.le_refl _) (stackOk_throwInto e hsh.2.2) (fun c hc => ?_) ?_
    · obtain ⟨c', hc', he⟩ := mem_throwInto hc
      rw [← he]
      exact hti c' (by simp [hc'])
    · intro τ'' l'' r'' hc
      exact absurd hc (throwInto_no_taking hsh hsh.1.2 _ _ _)
  | taskStart τ l i todo rest hs =>
    rw [hs] at hsh hti
    obtain ⟨⟨h1, ht, h4⟩, h5, h6⟩ := hsh
    have hall : ∀ c ∈ (⟨τ, .task l todo⟩ :: rest : List (PoolCall E)), c.time < s.clock := by
      intro c hc
      rcases List.mem_cons.1 hc with hc | hc
      · subst hc; exact head_time hti
      · exact hti c (List.mem_cons_of_mem _ hc)
    refine h.update (h.lt hs) rfl rfl rfl (Nat.le_succ _) ⟨⟨τ, todo, rest, Or.inr rfl⟩, hall, ⟨h1, ht, h4⟩, h5, h6⟩ (fun c hc => ?_) ?_
    · rcases List.mem_cons.1 hc with hc | hc
      · subst hc; exact Nat.lt_succ_self _
      · exact Nat.lt_succ_of_lt (hall c hc)
    · intro _ _ _ hc; cases hc
  | taskEnd τ l rest hs =>
    rw [hs] at hsh hti
    obtain ⟨⟨h1, ht, h4⟩, h5, h6⟩ := hsh
    refine h.update (h.lt hs) rfl rfl rfl (Nat.le_refl _) h6 (fun c hc => hti c (List.mem_cons_of_mem _ hc)) ?_
    rcases h4 with rfl | ⟨τ', l', r, rfl⟩
    · intro _ _ _ hc; cases hc
    · intro _ _ _ hc; cases hc

theorem pinv_init (W : Nat) (progs : List (PoolProg E)) : PInv (W + progs.length) W (poolInit W progs) := by
  have hst : ∀ t, (poolInit W progs).calls t = [] ∨ ∃ p, (poolInit W progs).calls t = [⟨0, .body none p⟩] := by
    intro t
    show (if t < W then [] else _) = [] ∨ ∃ p, (if t < W then [] else _) = _
    split
    · exact Or.inl rfl
    · cases progs[t - W]? with
      | none => exact Or.inl rfl
      | some p => exact Or.inr ⟨p, rfl⟩
  refine ⟨fun t => ?_, fun t c hc => ?_, fun t ht => ?_, fun _ _ => rfl, fun w k hk => (by cases hk), fun t τ l rest hr => ?_, Nat.le_add_right _ _⟩
  · rcases hst t with h | ⟨p, h⟩
    · rw [h]; trivial
    · rw [h]; exact ⟨rfl, fun c hc => (by cases hc), trivial⟩
  · rcases hst t with h | ⟨p, h⟩
    · rw [h] at hc; cases hc
    · rw [h] at hc; rw [List.mem_singleton.1 hc]; exact Nat.zero_lt_one
  · show (if t < W then [] else _) = []
    rw [if_neg (by omega), List.getElem?_eq_none (by omega)]
  · rcases hst t with h | ⟨p, h⟩ <;> rw [h] at hr <;> cases hr

theorem poolRun_snoc (W : Nat) (progs : List (PoolProg E)) (es : List Nat) (t : Nat) :
    poolRun W progs (es ++ [t]) = poolStep W (poolRun W progs es) t := by
  unfold poolRun; rw [List.foldl_append]; rfl

theorem pinv_run (W : Nat) (progs : List (PoolProg E)) (es : List Nat) :
    PInv (W + progs.length) W (poolRun W progs es) := by
  induction es using Gapp.ListAux.snoc_induction with
  | nil => exact pinv_init W progs
  | append_singleton es t ih =>
    rw [poolRun_snoc]
    exact pinv_step ih (poolStep_view W _ t)

end Gapp.Model
