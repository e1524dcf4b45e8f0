import Verif.Model.Sample
import Verif.Spec.Sample
import Verif.Proofs.ListAux
import Mathlib.Data.List.Perm.Subperm
/-! Proofs about `sampleUnique`. -/

namespace Gapp.Model
open Gapp.Spec

theorem DrawsFrom.init {lb limit : Int} {draws : List Int} {n : Int} (h : DrawsFrom lb limit (draws ++ [n])) :
    DrawsFrom lb limit draws ∧ lb ≤ n ∧ n ≤ limit + draws.length := by
  constructor
  · intro i m hm
    have hi := (List.getElem?_eq_some_iff.1 hm).1
    exact h i m (by rw [List.getElem?_append_left hi]; exact hm)
  · exact h draws.length n (by simp)

theorem _root_.Gapp.Spec.DrawsFrom.snoc {lb limit : Int} {draws : List Int} {n : Int} (h : DrawsFrom lb limit draws) (h1 : lb ≤ n)
    (h2 : n ≤ limit + draws.length) : DrawsFrom lb limit (draws ++ [n]) := by
  intro i m hm
  by_cases hi : i < draws.length
  · rw [List.getElem?_append_left hi] at hm; exact h i m hm
  · rw [List.getElem?_append_right (by omega)] at hm
    have := (List.getElem?_eq_some_iff.1 hm).1
    simp only [List.length_singleton] at this
    obtain rfl : i = draws.length := by omega
    simp at hm; subst hm; exact ⟨h1, h2⟩

theorem bitIdx_some {lb n : Int} (h : lb ≤ n) : bitIdx lb n = some (n - lb).toNat := by simp [bitIdx, h]

/-- The state of Floyd's algorithm after some draws: `k` distinct numbers below the limit, which are the selected ones. -/
theorem floyd_inv {lb limit : Int} {N : Nat} (hlim : lb ≤ limit) : ∀ (draws : List Int), DrawsFrom lb limit draws →
    limit + draws.length ≤ lb + N →
    ∃ sel acc, draws.foldlM (floydStep lb) (limit, List.replicate N false, []) = some (limit + draws.length, sel, acc) ∧
      sel.length = N ∧ acc.length = draws.length ∧ acc.Nodup ∧ (∀ x ∈ acc, lb ≤ x ∧ x < limit + draws.length) ∧
      (∀ x : Int, lb ≤ x → x < lb + N → (sel[(x - lb).toNat]? = some (decide (x ∈ acc)))) := by
  intro draws
  induction draws using Gapp.ListAux.snoc_induction with
  | nil =>
    intro _ _
    refine ⟨_, _, by simp; rfl, by simp, rfl, by simp, by simp, ?_⟩
    intro x h1 h2
    rw [List.getElem?_replicate, if_pos (by omega)]
    simp
  | append_singleton draws n ih =>
    intro hd hN
    obtain ⟨hd', hn1, hn2⟩ := DrawsFrom.init hd
    rw [List.length_append, List.length_singleton] at hN
    obtain ⟨sel, acc, he, hl, hal, hnd, hr, hs⟩ := ih hd' (by omega)
    have hsel := hs n hn1 (by omega)
    have hnum : ∃ number, (if decide (n ∈ acc) = true then limit + draws.length else n) = number := ⟨_, rfl⟩
    obtain ⟨number, hnumber⟩ := hnum
    have hnb : lb ≤ number ∧ number < limit + draws.length + 1 := by
      rw [← hnumber]; split <;> omega
    have hna : number ∉ acc := by
      rw [← hnumber]
      split
      · intro hm; have := hr _ hm; omega
      · next h => simpa using h
    refine ⟨sel.set (number - lb).toNat true, acc ++ [number], ?_, by rw [List.length_set]; exact hl, by simp [hal], ?_, ?_, ?_⟩
    · rw [List.foldlM_append, he]
      simp only [Option.bind_eq_bind, Option.bind_some, List.foldlM_cons, List.foldlM_nil, floydStep, bitIdx_some hn1, hsel, hnumber,
        bitIdx_some hnb.1]
      rw [if_pos (by omega)]
      simp only [Option.bind_some, Option.pure_def, List.length_append, List.length_singleton]
      congr 2
      omega
    · rw [List.nodup_append]
      refine ⟨hnd, List.nodup_singleton _, ?_⟩
      intro a ha b hb; rw [List.mem_singleton] at hb; subst hb
      intro e; exact hna (e ▸ ha)
    · intro x hx
      rw [List.mem_append, List.mem_singleton] at hx
      rw [List.length_append, List.length_singleton]
      rcases hx with hx | rfl
      · have := hr x hx; omega
      · omega
    · intro x h1 h2
      by_cases hx : x = number
      · subst hx
        rw [List.getElem?_set_self (by omega)]; simp
      · rw [List.getElem?_set_ne (by omega), hs x h1 h2]
        simp [hx]

/-- Every set of numbers can be the result of Floyd's algorithm. -/
theorem floyd_onto {lb limit : Int} {N : Nat} (hlim : lb ≤ limit) : ∀ (k : Nat) (target : List Int), target.length = k →
    target.Nodup → (∀ x ∈ target, lb ≤ x ∧ x < limit + k) → limit + k ≤ lb + N →
    ∃ draws sel acc, draws.length = k ∧ DrawsFrom lb limit draws ∧
      draws.foldlM (floydStep lb) (limit, List.replicate N false, []) = some (limit + k, sel, acc) ∧ acc.Perm target := by
  intro k
  induction k with
  | zero =>
    intro target hl _ _ _
    rw [List.length_eq_zero_iff] at hl; subst hl
    exact ⟨[], _, [], rfl, by intro i n h; simp at h, by simp; rfl, List.Perm.refl _⟩
  | succ k ih =>
    intro target hl hn hr hN
    -- the number that the last step adds
    obtain ⟨y, hy, hrest⟩ : ∃ y ∈ target, ∀ x ∈ target.erase y, x < limit + k := by
      by_cases hm : limit + k ∈ target
      · refine ⟨_, hm, ?_⟩
        intro x hx
        rw [hn.mem_erase_iff] at hx
        have := hr x hx.2; push_cast at this; omega
      · obtain ⟨y, hy⟩ := List.exists_mem_of_length_pos (l := target) (by omega)
        refine ⟨y, hy, ?_⟩
        intro x hx
        have hx' := List.mem_of_mem_erase hx
        have := hr x hx'
        have hne : x ≠ limit + k := fun e => hm (e ▸ hx')
        push_cast at this; omega
    push_cast at hN
    obtain ⟨draws, sel, acc, hdl, hdf, he, hp⟩ := ih (target.erase y) (by rw [List.length_erase_of_mem hy]; omega) (hn.erase _)
      (fun x hx => ⟨(hr x (List.mem_of_mem_erase hx)).1, hrest x hx⟩) (by omega)
    have hyb := hr y hy
    push_cast at hyb
    have hdf' : DrawsFrom lb limit (draws ++ [y]) := hdf.snoc hyb.1 (by omega)
    obtain ⟨sel0, acc0, he0, hl0, _, _, hr0, hs0⟩ := floyd_inv (N := N) hlim draws hdf (by omega)
    rw [he0, hdl] at he
    simp only [Option.some.injEq, Prod.mk.injEq, true_and] at he
    obtain ⟨rfl, rfl⟩ := he
    have hya : y ∉ acc0 := by
      rw [hp.mem_iff, hn.mem_erase_iff]; simp
    refine ⟨draws ++ [y], sel0.set (y - lb).toNat true, acc0 ++ [y], by simp [hdl], hdf', ?_, ?_⟩
    · rw [List.foldlM_append, he0]
      have hsel := hs0 y hyb.1 (by omega)
      simp only [Option.bind_eq_bind, Option.bind_some, List.foldlM_cons, List.foldlM_nil, floydStep, bitIdx_some hyb.1, hsel, hya,
        decide_false, Bool.false_eq_true, if_false]
      rw [if_pos (by omega)]
      simp only [Option.bind_some, Option.pure_def, hdl]
      congr 2
      push_cast; omega
    · refine (List.perm_append_comm).trans ?_
      exact (List.Perm.cons y hp).trans (List.perm_cons_erase hy).symm

/-- The state of the removing loop after some draws: `k` distinct numbers below the limit have been removed. -/
theorem remove_inv {lb limit : Int} {N : Nat} (hlim : lb ≤ limit) : ∀ (draws : List Int), DrawsFrom lb limit draws →
    limit + draws.length ≤ lb + N →
    ∃ (sel : List Bool) (removed : List Int), draws.foldlM (removeStep lb) (limit, List.replicate N true) = some (limit + draws.length, sel) ∧
      sel.length = N ∧ removed.length = draws.length ∧ removed.Nodup ∧ (∀ x ∈ removed, lb ≤ x ∧ x < limit + draws.length) ∧
      (∀ x : Int, lb ≤ x → x < lb + N → (sel[(x - lb).toNat]? = some (decide (x ∉ removed)))) := by
  intro draws
  induction draws using Gapp.ListAux.snoc_induction with
  | nil =>
    intro _ _
    refine ⟨_, [], by simp; rfl, by simp, rfl, by simp, by simp, ?_⟩
    intro x h1 h2
    rw [List.getElem?_replicate, if_pos (by omega)]
    simp
  | append_singleton draws n ih =>
    intro hd hN
    obtain ⟨hd', hn1, hn2⟩ := DrawsFrom.init hd
    rw [List.length_append, List.length_singleton] at hN
    obtain ⟨sel, acc, he, hl, hal, hnd, hr, hs⟩ := ih hd' (by omega)
    have hsel := hs n hn1 (by omega)
    have hnum : ∃ number, (if n ∈ acc then limit + draws.length else n) = number := ⟨_, rfl⟩
    obtain ⟨number, hnumber⟩ := hnum
    have hnb : lb ≤ number ∧ number < limit + draws.length + 1 := by
      rw [← hnumber]; split <;> omega
    have hna : number ∉ acc := by
      rw [← hnumber]
      split
      · intro hm; have := hr _ hm; omega
      · assumption
    refine ⟨sel.set (number - lb).toNat false, acc ++ [number], ?_, by rw [List.length_set]; exact hl, by simp [hal], ?_, ?_, ?_⟩
    · rw [List.foldlM_append, he]
      have hlimlb : lb ≤ limit + draws.length := by omega
      simp only [Option.bind_eq_bind, Option.bind_some, List.foldlM_cons, List.foldlM_nil, removeStep, bitIdx_some hn1, hsel,
        bitIdx_some hlimlb]
      by_cases hm : n ∈ acc
      · rw [if_pos hm] at hnumber
        subst hnumber
        rw [if_neg (by simpa using hm), if_pos (by omega)]
        simp only [Option.bind_some, Option.pure_def, List.length_append, List.length_singleton]
        congr 2
        omega
      · rw [if_neg hm] at hnumber
        subst hnumber
        rw [if_pos (by simpa using hm)]
        simp only [Option.bind_some, Option.pure_def, List.length_append, List.length_singleton]
        congr 2
        omega
    · rw [List.nodup_append]
      refine ⟨hnd, List.nodup_singleton _, ?_⟩
      intro a ha b hb; rw [List.mem_singleton] at hb; subst hb
      intro e; exact hna (e ▸ ha)
    · intro x hx
      rw [List.mem_append, List.mem_singleton] at hx
      rw [List.length_append, List.length_singleton]
      rcases hx with hx | rfl
      · have := hr x hx; omega
      · omega
    · intro x h1 h2
      by_cases hx : x = number
      · subst hx
        rw [List.getElem?_set_self (by omega)]; simp
      · rw [List.getElem?_set_ne (by omega), hs x h1 h2]
        simp [hx]

/-- The removed numbers can be any set. -/
theorem remove_onto {lb limit : Int} {N : Nat} (hlim : lb ≤ limit) : ∀ (k : Nat) (target : List Int), target.length = k →
    target.Nodup → (∀ x ∈ target, lb ≤ x ∧ x < limit + k) → limit + k ≤ lb + N →
    ∃ draws sel, draws.length = k ∧ DrawsFrom lb limit draws ∧
      draws.foldlM (removeStep lb) (limit, List.replicate N true) = some (limit + k, sel) ∧ sel.length = N ∧
      (∀ x : Int, lb ≤ x → x < lb + N → (sel[(x - lb).toNat]? = some (decide (x ∉ target)))) := by
  intro k
  induction k with
  | zero =>
    intro target hl _ _ _
    rw [List.length_eq_zero_iff] at hl; subst hl
    refine ⟨[], _, rfl, by intro i n h; simp at h, by simp; rfl, by simp, ?_⟩
    intro x h1 h2
    rw [List.getElem?_replicate, if_pos (by omega)]
    simp
  | succ k ih =>
    intro target hl hn hr hN
    obtain ⟨y, hy, hrest⟩ : ∃ y ∈ target, ∀ x ∈ target.erase y, x < limit + k := by
      by_cases hm : limit + k ∈ target
      · refine ⟨_, hm, ?_⟩
        intro x hx
        rw [hn.mem_erase_iff] at hx
        have := hr x hx.2; push_cast at this; omega
      · obtain ⟨y, hy⟩ := List.exists_mem_of_length_pos (l := target) (by omega)
        refine ⟨y, hy, ?_⟩
        intro x hx
        have hx' := List.mem_of_mem_erase hx
        have := hr x hx'
        have hne : x ≠ limit + k := fun e => hm (e ▸ hx')
        push_cast at this; omega
    push_cast at hN
    obtain ⟨draws, sel, hdl, hdf, he, hsl, hs⟩ := ih (target.erase y) (by rw [List.length_erase_of_mem hy]; omega) (hn.erase _)
      (fun x hx => ⟨(hr x (List.mem_of_mem_erase hx)).1, hrest x hx⟩) (by omega)
    have hyb := hr y hy
    push_cast at hyb
    refine ⟨draws ++ [y], sel.set (y - lb).toNat false, by simp [hdl], hdf.snoc hyb.1 (by omega), ?_, by rw [List.length_set]; exact hsl, ?_⟩
    · rw [List.foldlM_append, he]
      have hsel := hs y hyb.1 (by omega)
      have hlimlb : lb ≤ limit + k := by omega
      have hye : y ∉ target.erase y := by rw [hn.mem_erase_iff]; simp
      simp only [Option.bind_eq_bind, Option.bind_some, List.foldlM_cons, List.foldlM_nil, removeStep, bitIdx_some hyb.1, hsel,
        bitIdx_some hlimlb, hye, not_false_eq_true, decide_true, if_true, Option.pure_def]
      congr 2
      push_cast; omega
    · intro x h1 h2
      by_cases hx : x = y
      · subst hx
        rw [List.getElem?_set_self (by omega)]; simp [hy]
      · rw [List.getElem?_set_ne (by omega), hs x h1 h2]
        rw [Option.some.injEq, decide_eq_decide, hn.mem_erase_iff]
        simp [hx]

/-- What the last loop collects. -/
theorem mem_collectSelected {lb : Int} {sel : List Bool} {x : Int} :
    x ∈ collectSelected lb sel ↔ lb ≤ x ∧ sel[(x - lb).toNat]? = some true := by
  simp only [collectSelected, List.mem_map, List.mem_filter]
  constructor
  · rintro ⟨⟨b, i⟩, ⟨hm, hb⟩, rfl⟩
    simp only at hb; subst hb
    rw [List.mk_mem_zipIdx_iff_getElem?] at hm
    refine ⟨by omega, ?_⟩
    rw [show (lb + (i : Int) - lb).toNat = i by omega]
    exact hm
  · rintro ⟨h1, h2⟩
    refine ⟨(true, (x - lb).toNat), ⟨?_, rfl⟩, by simp; omega⟩
    rw [List.mk_mem_zipIdx_iff_getElem?]
    exact h2

theorem nodup_collectSelected (lb : Int) (sel : List Bool) : (collectSelected lb sel).Nodup := by
  unfold collectSelected
  have h1 : (sel.zipIdx.map (fun p => lb + (p.2 : Int))).Nodup := by
    have : sel.zipIdx.map (fun p => lb + (p.2 : Int)) = (sel.zipIdx.map (·.2)).map (fun i : Nat => lb + (i : Int)) := by
      rw [List.map_map]; rfl
    rw [this]
    apply List.Nodup.map
    · intro a b h; simp only at h; omega
    · rw [List.zipIdx_map_snd]; exact List.nodup_range' ..
  exact h1.sublist (List.filter_sublist.map _)

/-- The integers of `[lb, lb + N)`. -/
def intRange (lb : Int) (N : Nat) : List Int := (List.range N).map (fun i : Nat => lb + (i : Int))

theorem mem_intRange {lb x : Int} {N : Nat} : x ∈ intRange lb N ↔ lb ≤ x ∧ x < lb + N := by
  simp only [intRange, List.mem_map, List.mem_range]
  constructor
  · rintro ⟨i, hi, rfl⟩; omega
  · rintro ⟨h1, h2⟩; exact ⟨(x - lb).toNat, by omega, by omega⟩

theorem nodup_intRange (lb : Int) (N : Nat) : (intRange lb N).Nodup := by
  apply List.Nodup.map
  · intro a b h; simp only at h; omega
  · exact List.nodup_range

/-- The numbers that are not removed. -/
theorem collect_complement {lb : Int} {N : Nat} {sel : List Bool} {removed : List Int} (hl : sel.length = N) (hn : removed.Nodup)
    (hr : ∀ x ∈ removed, lb ≤ x ∧ x < lb + N)
    (hs : ∀ x : Int, lb ≤ x → x < lb + N → (sel[(x - lb).toNat]? = some (decide (x ∉ removed)))) :
    (∀ x, x ∈ collectSelected lb sel ↔ (lb ≤ x ∧ x < lb + N) ∧ x ∉ removed) ∧
    (collectSelected lb sel).length = N - removed.length := by
  have hm : ∀ x, x ∈ collectSelected lb sel ↔ (lb ≤ x ∧ x < lb + N) ∧ x ∉ removed := by
    intro x
    rw [mem_collectSelected]
    constructor
    · rintro ⟨h1, h2⟩
      have h3 := (List.getElem?_eq_some_iff.1 h2).1
      have h4 : x < lb + N := by omega
      rw [hs x h1 h4, Option.some.injEq, decide_eq_true_eq] at h2
      exact ⟨⟨h1, h4⟩, h2⟩
    · rintro ⟨⟨h1, h2⟩, h3⟩
      refine ⟨h1, ?_⟩
      rw [hs x h1 h2]; simpa using h3
  refine ⟨hm, ?_⟩
  have hp : (collectSelected lb sel ++ removed).Perm (intRange lb N) := by
    rw [List.perm_ext_iff_of_nodup _ (nodup_intRange _ _)]
    · intro x
      rw [List.mem_append, hm, mem_intRange]
      constructor
      · rintro (h | h)
        · exact h.1
        · exact hr x h
      · intro h
        by_cases hx : x ∈ removed
        · exact Or.inr hx
        · exact Or.inl ⟨h, hx⟩
    · rw [List.nodup_append]
      refine ⟨nodup_collectSelected _ _, hn, ?_⟩
      intro a ha b hb e
      rw [hm] at ha
      exact ha.2 (e ▸ hb)
  have := hp.length_eq
  rw [List.length_append] at this
  simp only [intRange, List.length_map, List.length_range] at this
  omega

end Gapp.Model
