import Mathlib.Data.List.OfFn
import Verif.Props.Uniform
import Verif.Spec.Reach
/-! # Proofs about what repeated mutations can reach -/

namespace Gapp.Proofs.Reach
open Gapp.Model Gapp.Spec Gapp.Props

section
variable {α : Type}

/-- If neighbouring genes can be exchanged then every order can be reached. -/
theorem reaches_of_adjacent (step : List α → List α → Prop) (n : Nat)
    (h : ∀ (pre : List α) (x y : α) (post : List α), (pre ++ x :: y :: post).length = n → step (pre ++ x :: y :: post) (pre ++ y :: x :: post))
    {l c : List α} (hp : l.Perm c) : ∀ pre : List α, (pre ++ l).length = n → Reaches step (pre ++ l) (pre ++ c) := by
  induction hp with
  | nil => intro pre _; exact .refl
  | cons x _ ih =>
    intro pre hn
    have := ih (pre ++ [x]) (by simp only [List.append_assoc, List.singleton_append]; exact hn)
    simpa using this
  | swap x y l => intro pre hn; exact .single (h pre y x l hn)
  | trans h1 _ ih1 ih2 => intro pre hn; exact (ih1 pre hn).trans (ih2 pre (by rw [List.length_append, ← h1.length_eq, ← List.length_append]; exact hn))

/-- `sampleUnique` can return every set. -/
theorem exists_draws {n count : Nat} (hc : count ≤ n) (hn : n < 65536) (selectMany : Bool) (target : List Nat) (hlen : target.length = count) (hnd : target.Nodup) (hlt : ∀ i ∈ target, i < n) :
    ∃ draws idxs, SampleDraws n count selectMany draws ∧ sampleIndices n count selectMany draws = some idxs ∧ idxs.Perm target := by
  have ht : IsSample 0 n count (target.map (fun i : Nat => (i : Int))) := by
    refine ⟨by rw [List.length_map, hlen], hnd.map (fun a b h => by simpa using h), ?_⟩
    intro x hx
    obtain ⟨i, hi, rfl⟩ := List.mem_map.mp hx
    have := hlt i hi
    omega
  obtain ⟨h1, h2⟩ := C76_sample_uniform_partial 0 n count (by omega) (by omega) selectMany _ ht
  have hne : ({draws ∈ SampleInputs 0 n count selectMany | ∃ numbers, sampleUnique 0 n count selectMany draws = some numbers ∧ numbers.Perm (target.map (fun i : Nat => (i : Int)))}).Nonempty := by
    rw [Set.nonempty_iff_ne_empty]
    intro he
    rw [he, Set.ncard_empty, Nat.zero_mul] at h1
    omega
  obtain ⟨draws, hd, numbers, hs, hp⟩ := hne
  refine ⟨draws, numbers.map Int.toNat, hd, by simp only [sampleIndices, hc, if_true, hs, Option.map_some], ?_⟩
  have := hp.map Int.toNat
  rw [List.map_map] at this
  refine this.trans ?_
  rw [show (Int.toNat ∘ fun i : Nat => (i : Int)) = id from funext (fun i => by simp), List.map_id]

theorem exists_draws_pair {n : Nat} (hn : n < 65536) (selectMany : Bool) (i j : Nat) (hi : i < n) (hj : j < n) (hij : i ≠ j) :
    ∃ draws, SampleDraws n 2 selectMany draws ∧ (sampleIndices n 2 selectMany draws = some [i, j] ∨ sampleIndices n 2 selectMany draws = some [j, i]) := by
  obtain ⟨draws, idxs, h1, h2, h3⟩ := exists_draws (count := 2) (by omega) hn selectMany [i, j] rfl (by simpa using hij) (by simp [hi, hj])
  obtain ⟨a, b, rfl⟩ : ∃ a b, idxs = [a, b] := List.length_eq_two.mp (by rw [h3.length_eq]; rfl)
  have ha : a = i ∨ a = j := by simpa using h3.subset (show a ∈ [a, b] by simp)
  have hb : b = i ∨ b = j := by simpa using h3.subset (show b ∈ [a, b] by simp)
  have hnd : a ≠ b := by simpa using h3.nodup_iff.mpr (show [i, j].Nodup by simpa using hij)
  refine ⟨draws, h1, ?_⟩
  rcases ha with rfl | rfl
  · rcases hb with rfl | rfl
    · exact absurd rfl hnd
    · exact Or.inl h2
  · rcases hb with rfl | rfl
    · exact Or.inr h2
    · exact absurd rfl hnd

theorem exists_draw_one {n : Nat} (hn : n < 65536) (selectMany : Bool) (i : Nat) (hi : i < n) :
    ∃ draws, SampleDraws n 1 selectMany draws ∧ sampleIndices n 1 selectMany draws = some [i] := by
  obtain ⟨draws, idxs, h1, h2, h3⟩ := exists_draws (count := 1) (by omega) hn selectMany [i] rfl (by simp) (by simp [hi])
  rw [List.perm_singleton] at h3
  subst h3
  exact ⟨draws, h1, h2⟩

theorem take_pre (pre : List α) (x y : α) (post : List α) : (pre ++ x :: y :: post).take pre.length = pre := by simp
theorem drop_pre (pre : List α) (x y : α) (post : List α) : (pre ++ x :: y :: post).drop (pre.length + 2) = post := by
  rw [List.drop_append]; simp
theorem mid_pre (pre : List α) (x y : α) (post : List α) : ((pre ++ x :: y :: post).take (pre.length + 2)).drop pre.length = [x, y] := by
  rw [List.take_append]; simp

theorem inversion_adjacent (scaled : Nat) (pre : List α) (x y : α) (post : List α) : InversionStep scaled (pre ++ x :: y :: post) (pre ++ y :: x :: post) := by
  refine ⟨2, pre.length, by omega, by simp [maxRangeLen], by simp; omega, ?_⟩
  unfold inversion reverseRange
  rw [if_neg (by simp; omega), if_pos rfl, if_pos (by simp), take_pre, drop_pre, mid_pre]
  simp

theorem shuffle_adjacent (scaled : Nat) (pre : List α) (x y : α) (post : List α) : ShuffleStep scaled (pre ++ x :: y :: post) (pre ++ y :: x :: post) := by
  refine ⟨2, pre.length, [y, x], by omega, by simp [maxRangeLen], by simp; omega, ?_, ?_⟩
  · simpa using List.Perm.swap x y []
  · unfold shuffleMut
    rw [if_neg (by simp; omega), if_pos rfl, if_pos (by simp), take_pre, drop_pre]
    simp

theorem swap?_adjacent (pre : List α) (x y : α) (post : List α) :
    swap? (pre ++ x :: y :: post) pre.length (pre.length + 1) = some (pre ++ y :: x :: post) ∧ swap? (pre ++ x :: y :: post) (pre.length + 1) pre.length = some (pre ++ y :: x :: post) := by
  have h1 : (pre ++ x :: y :: post)[pre.length]? = some x := by simp
  have h2 : (pre ++ x :: y :: post)[pre.length + 1]? = some y := by simp [List.getElem?_append_right]
  unfold swap?
  simp only [h1, h2, Option.bind_eq_bind, Option.bind_some, Option.pure_def, Option.some.injEq]
  constructor
  · rw [List.set_append_right _ _ (by omega), List.set_append_right _ _ (by omega)]
    simp
  · rw [List.set_append_right _ _ (by omega), List.set_append_right _ _ (by omega)]
    simp

theorem swap2_adjacent (sel : Nat → Nat → Bool) (pre : List α) (x y : α) (post : List α) (hn : (pre ++ x :: y :: post).length < 65536) :
    Swap2Step sel (pre ++ x :: y :: post) (pre ++ y :: x :: post) := by
  obtain ⟨draws, h1, h2⟩ := exists_draws_pair hn (sel (pre ++ x :: y :: post).length 2) pre.length (pre.length + 1) (by simp) (by simp) (by omega)
  refine ⟨draws, fun _ => h1, ?_⟩
  unfold swap2
  rw [if_neg (by simp; omega)]
  simp only [if_true]
  rcases h2 with h2 | h2
  · simp only [h2, Option.bind_eq_bind, Option.bind_some, List.getElem?_cons_zero, List.getElem?_cons_succ]
    exact (swap?_adjacent pre x y post).1
  · simp only [h2, Option.bind_eq_bind, Option.bind_some, List.getElem?_cons_zero, List.getElem?_cons_succ]
    exact (swap?_adjacent pre x y post).2

theorem shift_adjacent (scaled : Nat) (sel : Nat → Nat → Bool) (pre : List α) (x y : α) (post : List α) (hn : (pre ++ x :: y :: post).length < 65536) :
    ShiftStep scaled sel (pre ++ x :: y :: post) (pre ++ y :: x :: post) := by
  have hlen : (pre ++ x :: y :: post).length - 1 + 1 = (pre ++ x :: y :: post).length := by simp; omega
  obtain ⟨draws, h1, h2⟩ := exists_draws_pair hn (sel (pre ++ x :: y :: post).length 2) pre.length (pre.length + 1) (by simp) (by simp) (by omega)
  refine ⟨1, draws, by omega, by simp [maxRangeLen], fun _ => by rw [hlen]; exact h1, ?_⟩
  have hrot : rotateRange (pre ++ x :: y :: post) pre.length (pre.length + 1) (pre.length + 2) = some (pre ++ y :: x :: post) := by
    unfold rotateRange
    rw [if_pos (by simp), take_pre, drop_pre]
    simp [List.take_append, List.drop_append]
  unfold shift
  rw [if_neg (by simp; omega)]
  simp only [if_true]
  rw [if_neg (by simp), hlen]
  rcases h2 with h2 | h2
  · simp only [h2, Option.bind_eq_bind, Option.bind_some, List.getElem?_cons_zero, List.getElem?_cons_succ]
    rw [if_neg (by omega)]
    exact hrot
  · simp only [h2, Option.bind_eq_bind, Option.bind_some, List.getElem?_cons_zero, List.getElem?_cons_succ]
    rw [if_pos (by omega)]
    exact hrot

/-- If every gene can be set to a value that is allowed for it, then every chromosome of allowed values can be reached. -/
theorem reaches_of_set (step : List α → List α → Prop) (n : Nat) (ok target : Nat → α → Prop) (hok : ∀ i v, target i v → ok i v)
    (h : ∀ (l : List α) (i : Nat) (v : α), l.length = n → (∀ j g, l[j]? = some g → ok j g) → i < n → target i v → l[i]? ≠ some v → step l (l.set i v))
    (l c : List α) (hl : l.length = n) (hc : c.length = n) (hlo : ∀ j g, l[j]? = some g → ok j g) (hco : ∀ j g, c[j]? = some g → target j g) : Reaches step l c := by
  have key : ∀ k, k ≤ n → Reaches step l (c.take k ++ l.drop k) := by
    intro k
    induction k with
    | zero => intro _; exact .refl
    | succ k ih =>
      intro hk
      have hr := ih (by omega)
      obtain ⟨v, hv⟩ : ∃ v, c[k]? = some v := ⟨_, List.getElem?_eq_getElem (by omega)⟩
      have hmid : (c.take (k + 1) ++ l.drop (k + 1)) = (c.take k ++ l.drop k).set k v := by
        apply List.ext_getElem?
        intro j
        by_cases hj : j = k
        · subst hj
          rw [List.getElem?_append_left (by simp; omega), List.getElem?_take_of_lt (by omega), hv, List.getElem?_set_self (by simp; omega)]
        · rw [List.getElem?_set_ne (by omega)]
          by_cases hjk : j < k
          · rw [List.getElem?_append_left (by simp; omega), List.getElem?_append_left (by simp; omega), List.getElem?_take_of_lt (by omega), List.getElem?_take_of_lt (by omega)]
          · rw [List.getElem?_append_right (by simp; omega), List.getElem?_append_right (by simp; omega), List.getElem?_drop, List.getElem?_drop]
            congr 1
            simp
            omega
      rw [hmid]
      by_cases he : (c.take k ++ l.drop k)[k]? = some v
      · have : (c.take k ++ l.drop k).set k v = c.take k ++ l.drop k := by
          apply List.ext_getElem?
          intro j
          by_cases hj : j = k
          · subst hj; rw [List.getElem?_set_self (by simp; omega), he]
          · rw [List.getElem?_set_ne (by omega)]
        rw [this]; exact hr
      · refine hr.tail (h _ k v (by simp; omega) ?_ (by omega) (hco k v hv) he)
        intro j g hg
        by_cases hjk : j < k
        · rw [List.getElem?_append_left (by simp; omega), List.getElem?_take_of_lt hjk] at hg
          exact hok j g (hco j g hg)
        · rw [List.getElem?_append_right (by simp; omega), List.getElem?_drop] at hg
          refine hlo j g ?_
          rw [← hg]; congr 1; simp; omega
  have := key n (Nat.le_refl _)
  rwa [List.drop_eq_nil_of_le (by omega), List.append_nil, List.take_of_length_le (by omega)] at this
end

/-! ## `Swap3` -/

section
variable {α : Type}

theorem swap?_ofFn {n : Nat} (v : Fin n → α) (a b : Fin n) : swap? (List.ofFn v) a.val b.val = some (List.ofFn (v ∘ Equiv.swap a b)) := by
  have h1 : ∀ i : Fin n, (List.ofFn v)[i.val]? = some (v i) := fun i => by simp
  unfold swap?
  simp only [h1, Option.bind_eq_bind, Option.bind_some, Option.pure_def, Option.some.injEq]
  apply List.ext_getElem?
  intro j
  by_cases hj : j < n
  · have hr : (List.ofFn (v ∘ Equiv.swap a b))[j]? = some (v (Equiv.swap a b ⟨j, hj⟩)) := by simp [hj]
    rw [hr]
    by_cases hb : j = b.val
    · subst hb
      rw [List.getElem?_set_self (by simp), show (⟨b.val, hj⟩ : Fin n) = b from rfl, Equiv.swap_apply_right]
    · rw [List.getElem?_set_ne (by omega)]
      by_cases ha : j = a.val
      · subst ha
        rw [List.getElem?_set_self (by simp), show (⟨a.val, hj⟩ : Fin n) = a from rfl, Equiv.swap_apply_left]
      · rw [List.getElem?_set_ne (by omega), Equiv.swap_apply_of_ne_of_ne (by intro h; apply ha; rw [← h]) (by intro h; apply hb; rw [← h])]
        exact h1 ⟨j, hj⟩
  · rw [List.getElem?_eq_none (by simp; omega), List.getElem?_eq_none (by simp; omega)]

/-- The steps of `Swap3`, on chromosomes as functions of the locus. -/
theorem swap3_step {n : Nat} (hn3 : 3 ≤ n) (hn : n < 65536) (sel : Nat → Nat → Bool) (v : Fin n → α) (c : List α) (h : Swap3Step sel (List.ofFn v) c) :
    ∃ a b d : Fin n, a ≠ b ∧ a ≠ d ∧ b ≠ d ∧ c = List.ofFn (v ∘ (Equiv.swap a b * Equiv.swap a d)) := by
  obtain ⟨draws, h1, h2⟩ := h
  simp only [List.length_ofFn] at h1 h2
  obtain ⟨idxs, e1, e2, e3, e4⟩ := sampleIndices_ok (n := n) (count := 3) hn3 (h1 hn3)
  obtain ⟨a, b, d, rfl⟩ : ∃ a b d, idxs = [a, b, d] := List.length_eq_three.mp e2
  have hnd := e4 hn
  simp only [List.nodup_cons, List.mem_cons, List.not_mem_nil, or_false, not_or, not_false_eq_true, List.nodup_nil, and_true] at hnd
  have ha : a < n := e3 a (by simp)
  have hb : b < n := e3 b (by simp)
  have hd : d < n := e3 d (by simp)
  unfold swap3 at h2
  simp only [List.length_ofFn] at h2
  rw [if_neg (by omega)] at h2
  simp only [if_true, e1, Option.bind_eq_bind, Option.bind_some, List.getElem?_cons_zero, List.getElem?_cons_succ] at h2
  rw [swap?_ofFn v ⟨a, ha⟩ ⟨b, hb⟩] at h2
  simp only [Option.bind_some] at h2
  rw [swap?_ofFn _ ⟨a, ha⟩ ⟨d, hd⟩] at h2
  refine ⟨⟨a, ha⟩, ⟨b, hb⟩, ⟨d, hd⟩, by simpa using hnd.1.1, by simpa using hnd.1.2, by simpa using hnd.2, ?_⟩
  exact (Option.some.inj h2).symm

/-- For any three loci, `Swap3` can perform one of the two cyclic exchanges. -/
theorem swap3_can {n : Nat} (hn : n < 65536) (sel : Nat → Nat → Bool) (i j k : Fin n) (hij : i ≠ j) (hik : i ≠ k) (hjk : j ≠ k) :
    ∃ a b d : Fin n, [a, b, d].Perm [i, j, k] ∧ ∀ v : Fin n → α, Swap3Step sel (List.ofFn v) (List.ofFn (v ∘ (Equiv.swap a b * Equiv.swap a d))) := by
  have hv : ∀ x y : Fin n, x ≠ y → x.val ≠ y.val := fun x y h e => h (Fin.ext e)
  have h3 : 3 ≤ n := by
    have := hv _ _ hij; have := hv _ _ hik; have := hv _ _ hjk
    omega
  obtain ⟨draws, idxs, h1, h2, hp⟩ := exists_draws (count := 3) h3 hn (sel n 3) [i.val, j.val, k.val] rfl
    (by simp [hv _ _ hij, hv _ _ hik, hv _ _ hjk]) (by simp)
  obtain ⟨a, b, d, rfl⟩ : ∃ a b d, idxs = [a, b, d] := List.length_eq_three.mp (by rw [hp.length_eq]; rfl)
  have hlt : ∀ x ∈ [a, b, d], x < n := by
    intro x hx
    have := hp.subset hx
    simp only [List.mem_cons, List.not_mem_nil, or_false] at this
    omega
  have ha := hlt a (by simp)
  have hb := hlt b (by simp)
  have hd := hlt d (by simp)
  refine ⟨⟨a, ha⟩, ⟨b, hb⟩, ⟨d, hd⟩, ?_, ?_⟩
  · have : ([(⟨a, ha⟩ : Fin n), ⟨b, hb⟩, ⟨d, hd⟩].map Fin.val).Perm ([i, j, k].map Fin.val) := by simpa using hp
    exact (List.map_perm_map_iff Fin.val_injective).mp this
  · intro v
    refine ⟨draws, fun _ => by simp only [List.length_ofFn]; exact h1, ?_⟩
    unfold swap3
    simp only [List.length_ofFn]
    rw [if_neg (by omega)]
    simp only [if_true, h2, Option.bind_eq_bind, Option.bind_some, List.getElem?_cons_zero, List.getElem?_cons_succ]
    rw [swap?_ofFn v ⟨a, ha⟩ ⟨b, hb⟩]
    simp only [Option.bind_some]
    rw [swap?_ofFn _ ⟨a, ha⟩ ⟨d, hd⟩]
    rfl

/-- Rearrangements that `Swap3` can reach from every chromosome. -/
def CanReach (sel : Nat → Nat → Bool) {n : Nat} (α : Type) (ρ : Equiv.Perm (Fin n)) : Prop := ∀ v : Fin n → α, Reaches (Swap3Step sel) (List.ofFn v) (List.ofFn (v ∘ ρ))

theorem CanReach.one (sel : Nat → Nat → Bool) {n : Nat} : CanReach sel α (1 : Equiv.Perm (Fin n)) := fun _ => .refl

theorem CanReach.mul {sel : Nat → Nat → Bool} {n : Nat} {ρ ρ' : Equiv.Perm (Fin n)} (h : CanReach sel α ρ) (h' : CanReach sel α ρ') : CanReach sel α (ρ * ρ') :=
  fun v => (h v).trans (h' (v ∘ ρ))

theorem swap_cycle {n : Nat} (a b d : Fin n) (hab : a ≠ b) (had : a ≠ d) (hbd : b ≠ d) :
    Equiv.swap a b * Equiv.swap a d = Equiv.swap b d * Equiv.swap b a ∧ Equiv.swap a b * Equiv.swap a d = Equiv.swap d a * Equiv.swap d b ∧
      (Equiv.swap a b * Equiv.swap a d) * (Equiv.swap a b * Equiv.swap a d) = Equiv.swap a d * Equiv.swap a b := by
  refine ⟨?_, ?_, ?_⟩
  all_goals
    ext x
    by_cases h1 : x = a
    · subst h1; simp [Equiv.swap_apply_def, hab, had, hbd, hab.symm, had.symm, hbd.symm]
    · by_cases h2 : x = b
      · subst h2; simp [Equiv.swap_apply_def, hab, had, hbd, hab.symm, had.symm, hbd.symm]
      · by_cases h3 : x = d
        · subst h3; simp [Equiv.swap_apply_def, hab, had, hbd, hab.symm, had.symm, hbd.symm]
        · simp [Equiv.swap_apply_def, h1, h2, h3]

theorem canReach_cycle {n : Nat} (hn : n < 65536) (sel : Nat → Nat → Bool) (i j k : Fin n) (hij : i ≠ j) (hik : i ≠ k) (hjk : j ≠ k) :
    CanReach sel α (Equiv.swap i j * Equiv.swap i k) := by
  obtain ⟨a, b, d, hp, hs⟩ := swap3_can (α := α) hn sel i j k hij hik hjk
  have hc : CanReach sel α (Equiv.swap a b * Equiv.swap a d) := fun v => .single (hs v)
  have hnd : [a, b, d].Nodup := hp.nodup_iff.mpr (by simp [hij, hik, hjk])
  simp only [List.nodup_cons, List.mem_cons, List.not_mem_nil, or_false, not_or, not_false_eq_true, List.nodup_nil, and_true] at hnd
  obtain ⟨⟨hab, had⟩, hbd⟩ := hnd
  have hm : ∀ x ∈ [a, b, d], x = i ∨ x = j ∨ x = k := by
    intro x hx
    simpa using hp.subset hx
  obtain ⟨c1, c2, c3⟩ := swap_cycle a b d hab had hbd
  have hinv : CanReach sel α (Equiv.swap a d * Equiv.swap a b) := by rw [← c3]; exact hc.mul hc
  obtain ⟨d1, d2, -⟩ := swap_cycle a d b had hab (Ne.symm hbd)
  rcases hm a (by simp) with rfl | rfl | rfl <;> rcases hm b (by simp) with rfl | rfl | rfl <;> rcases hm d (by simp) with rfl | rfl | rfl <;>
    first
    | exact absurd rfl hab
    | exact absurd rfl had
    | exact absurd rfl hbd
    | exact hc
    | exact hinv
    | (rw [← c1]; exact hc)
    | (rw [← c2]; exact hc)
    | (rw [← d1]; exact hinv)
    | (rw [← d2]; exact hinv)

theorem canReach_swaps {n : Nat} (hn : n < 65536) (sel : Nat → Nat → Bool) (σ τ : Equiv.Perm (Fin n)) (hσ : σ.IsSwap) (hτ : τ.IsSwap) : CanReach sel α (σ * τ) := by
  obtain ⟨a, b, hab, rfl⟩ := hσ
  obtain ⟨c, d, hcd, rfl⟩ := hτ
  by_cases hac : a = c
  · subst hac
    by_cases hbd : b = d
    · subst hbd; rw [Equiv.swap_mul_self]; exact CanReach.one sel
    · exact canReach_cycle hn sel a b d hab hcd hbd
  · by_cases had : a = d
    · subst had
      rw [Equiv.swap_comm c a]
      by_cases hbc : b = c
      · subst hbc; rw [Equiv.swap_mul_self]; exact CanReach.one sel
      · exact canReach_cycle hn sel a b c hab hac hbc
    · by_cases hbc : b = c
      · subst hbc
        rw [Equiv.swap_comm a b]
        exact canReach_cycle hn sel b a d hab.symm hcd had
      · by_cases hbd : b = d
        · subst hbd
          rw [Equiv.swap_comm a b, Equiv.swap_comm c b]
          exact canReach_cycle hn sel b a c hab.symm hbc hac
        · have e : Equiv.swap a b * Equiv.swap c d = (Equiv.swap a b * Equiv.swap a c) * (Equiv.swap c a * Equiv.swap c d) := by
            rw [Equiv.swap_comm c a, mul_assoc, ← mul_assoc (Equiv.swap a c), Equiv.swap_mul_self, one_mul]
          rw [e]
          exact (canReach_cycle hn sel a b c hab hac hbc).mul (canReach_cycle hn sel c a d (Ne.symm hac) hcd had)

theorem canReach_prod {n : Nat} (hn : n < 65536) (sel : Nat → Nat → Bool) : ∀ L : List (Equiv.Perm (Fin n)), (∀ g ∈ L, g.IsSwap) → L.length % 2 = 0 → CanReach sel α L.prod
  | [], _, _ => CanReach.one sel
  | [_], _, h => by simp at h
  | σ :: τ :: L, hs, h => by
      rw [List.prod_cons, List.prod_cons, ← mul_assoc]
      exact (canReach_swaps hn sel σ τ (hs σ (by simp)) (hs τ (by simp))).mul
        (canReach_prod hn sel L (fun g hg => hs g (by simp [hg])) (by simp only [List.length_cons] at h; omega))

theorem canReach_even {n : Nat} (hn : n < 65536) (sel : Nat → Nat → Bool) (σ : Equiv.Perm (Fin n)) (h : Equiv.Perm.sign σ = 1) : CanReach sel α σ := by
  obtain ⟨L, hL, hs⟩ := (Equiv.Perm.truncSwapFactors σ).out
  have hsign := Equiv.Perm.sign_prod_list_swap hs
  rw [hL, h] at hsign
  rw [← hL]
  refine canReach_prod hn sel L hs ?_
  rcases Nat.even_or_odd L.length with he | ho
  · exact Nat.even_iff.mp he
  · rw [ho.neg_one_pow] at hsign
    exact absurd hsign (by decide)

theorem reached_even {n : Nat} (hn3 : 3 ≤ n) (hn : n < 65536) (sel : Nat → Nat → Bool) (v : Fin n → α) (c : List α) (h : Reaches (Swap3Step sel) (List.ofFn v) c) :
    ∃ σ : Equiv.Perm (Fin n), Equiv.Perm.sign σ = 1 ∧ c = List.ofFn (v ∘ σ) := by
  induction h with
  | refl => exact ⟨1, by simp, rfl⟩
  | tail _ hstep ih =>
    obtain ⟨σ, h1, rfl⟩ := ih
    obtain ⟨a, b, d, hab, had, -, rfl⟩ := swap3_step hn3 hn sel _ _ hstep
    refine ⟨σ * (Equiv.swap a b * Equiv.swap a d), ?_, rfl⟩
    rw [Equiv.Perm.sign_mul, Equiv.Perm.sign_mul, Equiv.Perm.sign_swap hab, Equiv.Perm.sign_swap had, h1]
    decide
end

end Gapp.Proofs.Reach
