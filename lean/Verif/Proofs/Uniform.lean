import Mathlib.Data.Finset.Card
import Mathlib.Data.Finset.Prod
import Mathlib.Data.Int.Interval
import Mathlib.Algebra.BigOperators.Group.Finset.Basic
import Mathlib.Algebra.BigOperators.Group.Finset.Sigma
import Mathlib.Data.Nat.Factorial.Basic
import Mathlib.Data.Nat.Choose.Basic
import Mathlib.Data.Set.Card
import Mathlib.Algebra.Module.NatInt
import Mathlib.Data.Finset.Dedup
import Verif.Proofs.Sample

/-! The number of draws with which `sampleUnique` returns a given set (for C76). -/

namespace Gapp.Proofs.Uniform

open Gapp.Model Gapp.Spec

/-- The numbers that Floyd's algorithm chooses. -/
def floydList (limit : Int) (draws : List Int) : List Int :=
  draws.foldl (fun acc n => acc ++ [if n ∈ acc then limit + acc.length else n]) []

theorem floydList_snoc (limit : Int) (draws : List Int) (n : Int) : floydList limit (draws ++ [n]) =
    floydList limit draws ++ [if n ∈ floydList limit draws then limit + (floydList limit draws).length else n] := by
  unfold floydList
  rw [List.foldl_append]
  rfl

theorem floydList_length (limit : Int) (draws : List Int) : (floydList limit draws).length = draws.length := by
  induction draws using Gapp.ListAux.snoc_induction with
  | nil => rfl
  | append_singleton draws n ih => rw [floydList_snoc, List.length_append, ih, List.length_append]; rfl

theorem floydList_props {lb limit : Int} (hlim : lb ≤ limit) (draws : List Int) (hd : DrawsFrom lb limit draws) :
    (floydList limit draws).Nodup ∧ ∀ x ∈ floydList limit draws, lb ≤ x ∧ x < limit + draws.length := by
  induction draws using Gapp.ListAux.snoc_induction with
  | nil => simp [floydList]
  | append_singleton draws n ih =>
    obtain ⟨hd', hn1, hn2⟩ := DrawsFrom.init hd
    obtain ⟨hnd, hr⟩ := ih hd'
    rw [floydList_snoc, floydList_length]
    have hlen : ((draws ++ [n]).length : Int) = draws.length + 1 := by simp
    rw [hlen]
    constructor
    · rw [List.nodup_append]
      refine ⟨hnd, List.nodup_singleton _, ?_⟩
      intro a ha b hb e
      rw [List.mem_singleton] at hb
      subst hb
      split at e
      · have := hr a ha
        omega
      · next h => exact h (e ▸ ha)
    · intro x hx
      rw [List.mem_append, List.mem_singleton] at hx
      rcases hx with hx | rfl
      · have := hr x hx
        omega
      · split <;> omega

theorem floyd_eq {lb limit : Int} {N : Nat} (hlim : lb ≤ limit) : ∀ (draws : List Int), DrawsFrom lb limit draws →
    limit + draws.length ≤ lb + N →
    ∃ sel, draws.foldlM (floydStep lb) (limit, List.replicate N false, []) = some (limit + draws.length, sel, floydList limit draws) ∧
      sel.length = N ∧ (∀ x : Int, lb ≤ x → x < lb + N → (sel[(x - lb).toNat]? = some (decide (x ∈ floydList limit draws)))) := by
  intro draws
  induction draws using Gapp.ListAux.snoc_induction with
  | nil =>
    intro _ _
    refine ⟨List.replicate N false, by simp [floydList], by simp, ?_⟩
    intro x h1 h2
    rw [List.getElem?_replicate, if_pos (by omega)]
    simp [floydList]
  | append_singleton draws n ih =>
    intro hd hN
    obtain ⟨hd', hn1, hn2⟩ := DrawsFrom.init hd
    rw [List.length_append, List.length_singleton] at hN
    obtain ⟨sel, he, hl, hs⟩ := ih hd' (by omega)
    have hsel := hs n hn1 (by omega)
    have hnum : ∃ number, (if n ∈ floydList limit draws then limit + draws.length else n) = number := ⟨_, rfl⟩
    obtain ⟨number, hnumber⟩ := hnum
    have hnb : lb ≤ number ∧ number < limit + draws.length + 1 := by
      rw [← hnumber]; split <;> omega
    have hfl : floydList limit (draws ++ [n]) = floydList limit draws ++ [number] := by
      rw [floydList_snoc, floydList_length, hnumber]
    refine ⟨sel.set (number - lb).toNat true, ?_, by rw [List.length_set]; exact hl, ?_⟩
    · rw [List.foldlM_append, he, hfl]
      simp only [Option.bind_eq_bind, Option.bind_some, List.foldlM_cons, List.foldlM_nil, floydStep, bitIdx_some hn1, hsel,
        decide_eq_true_eq, hnumber, bitIdx_some hnb.1]
      rw [if_pos (by omega)]
      simp only [Option.bind_some, Option.pure_def, List.length_append, List.length_singleton]
      congr 2
      omega
    · intro x h1 h2
      rw [hfl]
      by_cases hx : x = number
      · subst hx
        rw [List.getElem?_set_self (by omega)]; simp
      · rw [List.getElem?_set_ne (by omega), hs x h1 h2]
        simp [hx]

theorem remove_eq {lb limit : Int} {N : Nat} (hlim : lb ≤ limit) : ∀ (draws : List Int), DrawsFrom lb limit draws →
    limit + draws.length ≤ lb + N →
    ∃ sel : List Bool, draws.foldlM (removeStep lb) (limit, List.replicate N true) = some (limit + draws.length, sel) ∧
      sel.length = N ∧ (∀ x : Int, lb ≤ x → x < lb + N → (sel[(x - lb).toNat]? = some (decide (x ∉ floydList limit draws)))) := by
  intro draws
  induction draws using Gapp.ListAux.snoc_induction with
  | nil =>
    intro _ _
    refine ⟨_, by simp; rfl, by simp, ?_⟩
    intro x h1 h2
    rw [List.getElem?_replicate, if_pos (by omega)]
    simp [floydList]
  | append_singleton draws n ih =>
    intro hd hN
    obtain ⟨hd', hn1, hn2⟩ := DrawsFrom.init hd
    rw [List.length_append, List.length_singleton] at hN
    obtain ⟨sel, he, hl, hs⟩ := ih hd' (by omega)
    have hsel := hs n hn1 (by omega)
    have hnum : ∃ number, (if n ∈ floydList limit draws then limit + draws.length else n) = number := ⟨_, rfl⟩
    obtain ⟨number, hnumber⟩ := hnum
    have hnb : lb ≤ number ∧ number < limit + draws.length + 1 := by
      rw [← hnumber]; split <;> omega
    have hfl : floydList limit (draws ++ [n]) = floydList limit draws ++ [number] := by
      rw [floydList_snoc, floydList_length, hnumber]
    refine ⟨sel.set (number - lb).toNat false, ?_, by rw [List.length_set]; exact hl, ?_⟩
    · rw [List.foldlM_append, he]
      have hlimlb : lb ≤ limit + draws.length := by omega
      simp only [Option.bind_eq_bind, Option.bind_some, List.foldlM_cons, List.foldlM_nil, removeStep, bitIdx_some hn1, hsel,
        bitIdx_some hlimlb]
      by_cases hm : n ∈ floydList limit draws
      · rw [if_pos hm] at hnumber
        subst hnumber
        rw [if_neg (by simpa using hm), if_pos (by omega)]
        simp only [Option.bind_some, Option.pure_def, List.length_append, List.length_singleton]
        congr 2
        omega
      · rw [if_neg hm] at hnumber
        subst hnumber
        rw [if_pos (by simpa using hm)]
        simp only [Option.bind_some, Option.pure_def, List.length_append, List.length_singleton]
        congr 2
        omega
    · intro x h1 h2
      rw [hfl]
      by_cases hx : x = number
      · subst hx
        rw [List.getElem?_set_self (by omega)]; simp
      · rw [List.getElem?_set_ne (by omega), hs x h1 h2]
        simp [hx]

/-! ## Counting -/

/-- All the sequences of `k` draws. -/
def allDraws (lb limit : Int) : Nat → Finset (List Int)
  | 0 => {[]}
  | k + 1 => ((allDraws lb limit k) ×ˢ (Finset.Icc lb (limit + k))).image (fun p => p.1 ++ [p.2])

theorem snoc_injective : Function.Injective (fun p : List Int × Int => p.1 ++ [p.2]) := by
  rintro ⟨a, x⟩ ⟨b, y⟩ h
  have := List.append_inj' h rfl
  simp only [List.cons.injEq, and_true] at this
  exact Prod.ext this.1 this.2

theorem mem_allDraws {lb limit : Int} : ∀ {k : Nat} {d : List Int}, d ∈ allDraws lb limit k ↔ d.length = k ∧ DrawsFrom lb limit d
  | 0, d => by
    simp only [allDraws, Finset.mem_singleton]
    constructor
    · rintro rfl
      exact ⟨rfl, fun i n h => by simp at h⟩
    · rintro ⟨h, -⟩
      exact List.length_eq_zero_iff.mp h
  | k + 1, d => by
    simp only [allDraws, Finset.mem_image, Finset.mem_product, Finset.mem_Icc, Prod.exists]
    constructor
    · rintro ⟨d, n, ⟨hd, h1, h2⟩, rfl⟩
      obtain ⟨hl, hd⟩ := mem_allDraws.mp hd
      refine ⟨by simp [hl], hd.snoc h1 (by rw [hl]; exact h2)⟩
    · rintro ⟨hl, hd⟩
      induction d using Gapp.ListAux.snoc_induction with
      | nil => simp at hl
      | append_singleton d n _ =>
        rw [List.length_append, List.length_singleton] at hl
        obtain ⟨hd', h1, h2⟩ := DrawsFrom.init hd
        have hl' : d.length = k := by omega
        exact ⟨d, n, ⟨mem_allDraws.mpr ⟨hl', hd'⟩, h1, by rw [← hl']; exact h2⟩, rfl⟩

theorem sum_allDraws (lb limit : Int) (k : Nat) (f : List Int → Nat) : ∑ d ∈ allDraws lb limit (k + 1), f d =
    ∑ n ∈ Finset.Icc lb (limit + k), ∑ d ∈ allDraws lb limit k, f (d ++ [n]) := by
  unfold allDraws
  rw [Finset.sum_image (fun a _ b _ h => snoc_injective h), Finset.sum_product_right]
  cases k <;> rfl

theorem card_allDraws (lb limit : Int) (hlim : lb ≤ limit) : ∀ k : Nat,
    (allDraws lb limit k).card = ((limit - lb).toNat + 1).ascFactorial k
  | 0 => by simp [allDraws]
  | k + 1 => by
    unfold allDraws
    rw [Finset.card_image_of_injective _ snoc_injective, Finset.card_product, card_allDraws lb limit hlim k, Int.card_Icc,
      Nat.ascFactorial_succ, Nat.mul_comm]
    congr 1
    omega

/-- The number of draws that choose the set `T`. -/
def hits (lb limit : Int) (k : Nat) (T : Finset Int) : Nat :=
  ∑ d ∈ allDraws lb limit k, if (floydList limit d).toFinset = T then 1 else 0

theorem hits_eq {lb limit : Int} (hlim : lb ≤ limit) : ∀ (k : Nat) (T : Finset Int), T.card = k →
    (∀ x ∈ T, lb ≤ x ∧ x < limit + k) → hits lb limit k T = k.factorial
  | 0, T, hc, _ => by
    rw [Finset.card_eq_zero] at hc
    subst hc
    simp [hits, allDraws, floydList]
  | k + 1, T, hc, hT => by
    obtain ⟨L, hL⟩ : ∃ L, L = limit + (k : Int) := ⟨_, rfl⟩
    have hsub : T ⊆ Finset.Icc lb L := by
      intro x hx
      have := hT x hx
      rw [Finset.mem_Icc]
      push_cast at this
      omega
    -- the sets of the draws before the last one
    have hA : ∀ d ∈ allDraws lb limit k, (floydList limit d).length = k ∧ ∀ x ∈ (floydList limit d).toFinset, lb ≤ x ∧ x < L := by
      intro d hd
      obtain ⟨hl, hd⟩ := mem_allDraws.mp hd
      have h := floydList_props hlim d hd
      refine ⟨by rw [floydList_length, hl], ?_⟩
      intro x hx
      rw [List.mem_toFinset] at hx
      have := h.2 x hx
      rw [hl] at this
      rw [hL]
      exact this
    have hstep : ∀ d ∈ allDraws lb limit k, ∀ n, (floydList limit (d ++ [n])).toFinset =
        insert (if n ∈ (floydList limit d).toFinset then L else n) (floydList limit d).toFinset := by
      intro d hd n
      rw [floydList_snoc, (hA d hd).1, ← hL]
      ext x
      simp only [List.mem_toFinset, List.mem_append, List.mem_singleton, Finset.mem_insert]
      exact or_comm
    -- for every last draw there is one set the other draws have to choose
    obtain ⟨before, hb⟩ : ∃ before : Int → Finset Int, ∀ n, n ∈ T → (before n).card = k ∧ (∀ x ∈ before n, lb ≤ x ∧ x < limit + k) ∧
        ∀ A : Finset Int, (∀ x ∈ A, lb ≤ x ∧ x < L) → (insert (if n ∈ A then L else n) A = T ↔ A = before n) := by
      by_cases hLT : L ∈ T
      · refine ⟨fun _ => T.erase L, fun n hn => ⟨by rw [Finset.card_erase_of_mem hLT, hc]; rfl, ?_, ?_⟩⟩
        · intro x hx
          rw [Finset.mem_erase] at hx
          have := hT x hx.2
          push_cast at this
          have := hx.1
          omega
        · intro A hA
          have hLA : L ∉ A := fun h => by have := (hA L h).2; omega
          constructor
          · intro h
            by_cases hnA : n ∈ A
            · rw [if_pos hnA] at h
              rw [← h, Finset.erase_insert hLA]
            · rw [if_neg hnA] at h
              have : L = n := by
                rw [← h, Finset.mem_insert] at hLT
                exact hLT.resolve_right hLA
              subst this
              rw [← h, Finset.erase_insert hLA]
          · rintro rfl
            by_cases hnA : n ∈ T.erase L
            · rw [if_pos hnA, Finset.insert_erase hLT]
            · rw [if_neg hnA]
              have : n = L := by
                by_contra hne
                exact hnA (Finset.mem_erase.mpr ⟨hne, hn⟩)
              rw [this, Finset.insert_erase hLT]
      · refine ⟨fun n => T.erase n, fun n hn => ⟨by rw [Finset.card_erase_of_mem hn, hc]; rfl, ?_, ?_⟩⟩
        · intro x hx
          rw [Finset.mem_erase] at hx
          have h1 := hT x hx.2
          push_cast at h1
          have : x ≠ L := fun e => hLT (e ▸ hx.2)
          omega
        · intro A hA
          constructor
          · intro h
            by_cases hnA : n ∈ A
            · rw [if_pos hnA] at h
              exact absurd (h ▸ Finset.mem_insert_self L A) hLT
            · rw [if_neg hnA] at h
              show A = T.erase n
              rw [← h, Finset.erase_insert hnA]
          · rintro rfl
            rw [if_neg (Finset.notMem_erase n T), Finset.insert_erase hn]
    have hnot : ∀ n, n ∉ T → ∀ A : Finset Int, (∀ x ∈ A, lb ≤ x ∧ x < L) → insert (if n ∈ A then L else n) A ≠ T := by
      intro n hn A hA h
      apply hn
      rw [← h]
      by_cases hnA : n ∈ A
      · exact Finset.mem_insert_of_mem hnA
      · rw [if_neg hnA]
        exact Finset.mem_insert_self n A
    unfold hits
    rw [sum_allDraws, ← hL]
    have hin : ∀ n ∈ Finset.Icc lb L, (∑ d ∈ allDraws lb limit k, if (floydList limit (d ++ [n])).toFinset = T then 1 else 0) =
        if n ∈ T then k.factorial else 0 := by
      intro n _
      by_cases hn : n ∈ T
      · rw [if_pos hn]
        obtain ⟨h1, h2, h3⟩ := hb n hn
        rw [← hits_eq hlim k (before n) h1 h2]
        unfold hits
        apply Finset.sum_congr rfl
        intro d hd
        rw [hstep d hd]
        simp only [h3 _ (hA d hd).2]
      · rw [if_neg hn]
        apply Finset.sum_eq_zero
        intro d hd
        rw [hstep d hd, if_neg (hnot n hn _ (hA d hd).2)]
    rw [Finset.sum_congr rfl hin, ← Finset.sum_filter, Finset.filter_mem_eq_inter, Finset.inter_eq_right.mpr hsub, Finset.sum_const, hc,
      Nat.factorial_succ, smul_eq_mul]

/-- The number of sequences of draws that choose a set. -/
theorem ncard_hits {lb limit : Int} (hlim : lb ≤ limit) (k : Nat) (target : List Int) (hn : target.Nodup) (hl : target.length = k)
    (hT : ∀ x ∈ target, lb ≤ x ∧ x < limit + k) :
    Set.ncard {d : List Int | (d.length = k ∧ DrawsFrom lb limit d) ∧ (floydList limit d).Perm target} = k.factorial := by
  have h := hits_eq hlim k target.toFinset (by rw [List.toFinset_card_of_nodup hn, hl]) (fun x hx => hT x (List.mem_toFinset.mp hx))
  rw [hits, ← Finset.card_filter] at h
  rw [← h, ← Set.ncard_coe_finset]
  congr 1
  ext d
  simp only [Set.mem_setOf_eq, Finset.coe_filter, mem_allDraws]
  constructor
  · rintro ⟨h1, h2⟩
    exact ⟨h1, List.toFinset_eq_of_perm _ _ h2⟩
  · rintro ⟨h1, h2⟩
    exact ⟨h1, (List.toFinset_eq_iff_perm_dedup.mp h2 |> fun hp => by
      rwa [(floydList_props hlim d h1.2).1.dedup, hn.dedup] at hp)⟩

theorem ncard_allDraws {lb limit : Int} (hlim : lb ≤ limit) (k : Nat) :
    Set.ncard {d : List Int | d.length = k ∧ DrawsFrom lb limit d} = ((limit - lb).toNat + 1).ascFactorial k := by
  rw [← card_allDraws lb limit hlim k, ← Set.ncard_coe_finset]
  congr 1
  ext d
  simp only [Set.mem_setOf_eq, Finset.mem_coe, mem_allDraws]

end Gapp.Proofs.Uniform
