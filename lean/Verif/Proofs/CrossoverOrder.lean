import Verif.Model.Crossover
import Verif.Spec.Crossover
import Mathlib.Data.List.Rotate
import Mathlib.Data.Nat.ModEq
import Mathlib.Data.List.Perm.Subperm
import Mathlib.Data.List.Nodup
/-! Proofs about order-1, order-2 and position crossover. -/

namespace Gapp.Model
open Gapp.Spec
variable {α : Type}

section Common

theorem nextMod_cyc {n s k : Nat} (hn : 0 < n) :
    CircularBuffer.nextMod ((s + k) % n) n = some ((s + (k + 1)) % n) := by
  have h1 : (s + k) % n < n := Nat.mod_lt _ hn
  simp only [CircularBuffer.nextMod, hn, h1, and_self, if_true, Option.some.injEq]
  rw [← Nat.add_assoc, Nat.add_mod (s + k) 1]
  split
  · next h =>
    rcases Nat.lt_or_ge 1 n with h' | h'
    · rw [Nat.mod_eq_of_lt h', h, Nat.mod_self]
    · have : n = 1 := by omega
      subst this; omega
  · next h =>
    have h' : 1 < n := by omega
    rw [Nat.mod_eq_of_lt h', Nat.mod_eq_of_lt (show (s + k) % n + 1 < n by omega)]

theorem getElem?_rotate' (l : List α) (s k : Nat) (hk : k < l.length) : l[(s + k) % l.length]? = (l.rotate s)[k]? := by
  have h1 : (s + k) % l.length < l.length := Nat.mod_lt _ (by omega)
  rw [List.getElem?_eq_getElem h1, List.getElem?_eq_getElem (by simpa using hk), List.getElem_rotate]
  simp [Nat.add_comm]

theorem set_rotate (l : List α) (s k : Nat) (hk : k < l.length) (g : α) :
    (l.set ((s + k) % l.length) g).rotate s = (l.rotate s).set k g := by
  apply List.ext_getElem (by simp)
  intro i h1 h2
  have hi : i < l.length := by simpa using h1
  rw [List.getElem_rotate, List.getElem_set, List.getElem_set]
  simp only [List.length_set]
  by_cases h : k = i
  · subst h
    simp [Nat.add_comm]
  · rw [if_neg h, if_neg, List.getElem_rotate]
    intro he
    apply h
    rw [Nat.add_comm i s] at he
    have := Nat.ModEq.add_left_cancel' s (show Nat.ModEq l.length (s + k) (s + i) from he)
    exact Nat.ModEq.eq_of_lt_of_lt this hk hi

theorem genesIn_eq_segment (p : List α) (first last : Nat) : genesIn p first last = segment p first last := by
  rw [genesIn, segment, List.drop_take]

theorem split_seg (p : List α) {first last : Nat} (h1 : first ≤ last) :
    p = p.take first ++ segment p first last ++ p.drop last := by
  rw [segment]
  conv_lhs => rw [← List.take_append_drop first p, ← List.take_append_drop (last - first) (p.drop first)]
  rw [List.drop_drop, show first + (last - first) = last by omega, List.append_assoc]

theorem filter_not_seg [DecidableEq α] {p : List α} (hn : p.Nodup) {first last : Nat} (h1 : first ≤ last) :
    p.filter (fun g => decide (g ∉ segment p first last)) = p.take first ++ p.drop last := by
  have hs := split_seg p h1
  have hn' := hn
  rw [hs] at hn'
  have hn1 := (List.nodup_append.1 hn')
  have hn2 := (List.nodup_append.1 hn1.1)
  conv_lhs => arg 2; rw [hs]
  rw [List.filter_append, List.filter_append]
  rw [List.filter_eq_self.2, List.filter_eq_nil_iff.2, List.filter_eq_self.2]
  · simp
  · intro a ha
    have : a ∉ segment p first last := fun h => hn1.2.2 a (List.mem_append_right _ h) a ha rfl
    simpa using this
  · intro a ha; simpa using ha
  · intro a ha
    have : a ∉ segment p first last := fun h => hn2.2.2 a ha a h rfl
    simpa using this

theorem length_segment (p : List α) {first last : Nat} (h1 : first ≤ last) (h2 : last ≤ p.length) :
    (segment p first last).length = last - first := by
  simp [segment]; omega

theorem length_filter_not_seg [DecidableEq α] {p1 p2 : List α} (h : PermParents p1 p2) {first last : Nat} (h1 : first ≤ last)
    (h2 : last ≤ p1.length) :
    (p2.filter (fun g => decide (g ∉ segment p1 first last))).length = p1.length - (last - first) := by
  rw [(h.2.filter _).length_eq, filter_not_seg h.1 h1]
  simp; omega

/-- A child that is the other genes plus the segment is a permutation. -/
theorem perm_of_filter_seg [DecidableEq α] {p1 p2 c : List α} (h : PermParents p1 p2) {first last : Nat} (h1 : first ≤ last)
    (hc : c.Perm (p2.filter (fun g => decide (g ∉ segment p1 first last)) ++ segment p1 first last)) : c.Perm p1 := by
  refine hc.trans (((h.2.filter _).append_right _).trans ?_)
  rw [filter_not_seg h.1 h1]
  conv_rhs => rw [split_seg p1 h1]
  rw [List.append_assoc, List.append_assoc]
  exact List.Perm.append_left _ List.perm_append_comm

/-- Reading off the range of a child given in three parts. -/
theorem keepsRange_of_segment {p1 c : List α} {first last : Nat} (hl : c.length = p1.length)
    (hs : segment c first last = segment p1 first last) : KeepsRange p1 first last c := by
  refine ⟨hl, ?_⟩
  intro i hi1 hi2
  have := congrArg (fun l => l[i - first]?) hs
  simp only [segment] at this
  rw [List.getElem?_take_of_lt (by omega), List.getElem?_take_of_lt (by omega), List.getElem?_drop, List.getElem?_drop,
    show first + (i - first) = i by omega] at this
  exact this

/-- A query that knows the direct genes. -/
def DirectFor [DecidableEq α] (genes : List α) (domain : List α) (direct : α → Option Bool) : Prop :=
  ∀ g ∈ domain, direct g = some (decide (g ∈ genes))

theorem hashSetOf_direct [DecidableEq α] (genes domain : List α) : DirectFor genes domain (hashSetOf genes) :=
  fun _ _ => rfl

theorem setBits_spec (n : Nat) : ∀ (genes : List Nat) (acc : List Bool), acc.length = n → (∀ g ∈ genes, g < n) →
    ∃ bits, genes.foldlM (fun bits g => if g < bits.length then some (bits.set g true) else none) acc = some bits ∧
      bits.length = n ∧ ∀ i, i < n → bits[i]? = some (decide (i ∈ genes) || acc[i]?.getD false) := by
  intro genes
  induction genes with
  | nil =>
    intro acc hl _
    refine ⟨acc, rfl, hl, ?_⟩
    intro i hi
    simp [List.getElem?_eq_getElem (l := acc) (i := i) (by omega)]
  | cons g rest ih =>
    intro acc hl hg
    have hgn : g < n := hg g List.mem_cons_self
    obtain ⟨bits, hb, hbl, hbv⟩ := ih (acc.set g true) (by simpa using hl) (fun x hx => hg x (List.mem_cons_of_mem _ hx))
    refine ⟨bits, ?_, hbl, ?_⟩
    · simp only [List.foldlM_cons]
      rw [if_pos (by omega)]
      exact hb
    · intro i hi
      rw [hbv i hi, List.getElem?_set]
      by_cases h : g = i
      · subst h
        simp [hl, hgn]
      · simp [h, Ne.symm h]

theorem setBits_direct {n : Nat} {genes domain : List Nat} (hg : ∀ g ∈ genes, g < n) (hd : ∀ g ∈ domain, g < n) :
    ∃ bits, setBits n genes = some bits ∧ DirectFor genes domain (bitsQuery bits) := by
  obtain ⟨bits, hb, _, hv⟩ := setBits_spec n genes (List.replicate n false) (by simp) hg
  refine ⟨bits, hb, ?_⟩
  intro g hgd
  rw [bitsQuery, hv g (hd g hgd)]
  simp [hd g hgd]

theorem IsIntPerm.lt {p : List Nat} (h : IsIntPerm p) {g : Nat} (hg : g ∈ p) : g < p.length := by
  have := h.mem_iff.1 hg
  simpa using this

theorem IsIntPerm.permParents {p1 p2 : List Nat} (h1 : IsIntPerm p1) (h2 : IsIntPerm p2) (hl : p1.length = p2.length) :
    PermParents p1 p2 := by
  refine ⟨h1.nodup_iff.2 List.nodup_range, ?_⟩
  unfold IsIntPerm at h1 h2
  rw [← hl] at h2
  exact h2.trans h1.symm

theorem segment_subset (p : List α) (first last : Nat) : ∀ g ∈ segment p first last, g ∈ p :=
  fun _ h => List.mem_of_mem_drop (List.mem_of_mem_take h)

end Common

section Order1
variable [DecidableEq α]

theorem skipDirect_spec {genes p2 : List α} {direct : α → Option Bool} (hd : DirectFor genes p2 direct) (s : Nat) :
    ∀ (pre : List α) (fuel k : Nat) (g : α) (post : List α), (p2.rotate s).drop k = pre ++ g :: post →
      (∀ x ∈ pre, x ∈ genes) → g ∉ genes → pre.length < fuel →
      skipDirect direct p2 fuel ((s + k) % p2.length) = some ((s + (k + pre.length)) % p2.length) := by
  intro pre
  induction pre with
  | nil =>
    intro fuel k g post hdrop _ hg hf
    obtain ⟨f, rfl⟩ : ∃ f, fuel = f + 1 := ⟨fuel - 1, by simp at hf; omega⟩
    have hk : (p2.rotate s)[k]? = some g := by
      have := congrArg (fun l => l[0]?) hdrop
      simpa using this
    have hkl : k < p2.length := by
      have := (List.getElem?_eq_some_iff.1 hk).1
      simpa using this
    have hmem : g ∈ p2 := by
      have := List.mem_of_getElem? hk
      simpa using this
    simp [skipDirect, getElem?_rotate' p2 s k hkl, hk, hd g hmem, hg]
  | cons x pre ih =>
    intro fuel k g post hdrop hpre hg hf
    obtain ⟨f, rfl⟩ : ∃ f, fuel = f + 1 := ⟨fuel - 1, by simp at hf; omega⟩
    have hk : (p2.rotate s)[k]? = some x := by
      have := congrArg (fun l => l[0]?) hdrop
      simpa using this
    have hkl : k < p2.length := by
      have := (List.getElem?_eq_some_iff.1 hk).1
      simpa using this
    have hmem : x ∈ p2 := by
      have := List.mem_of_getElem? hk
      simpa using this
    have hx : x ∈ genes := hpre x List.mem_cons_self
    have hdrop' : (p2.rotate s).drop (k + 1) = pre ++ g :: post := by
      have := congrArg (List.drop 1) hdrop
      simpa [List.drop_drop] using this
    have := ih f (k + 1) g post hdrop' (fun y hy => hpre y (List.mem_cons_of_mem _ hy)) hg (by simp at hf; omega)
    simp only [skipDirect, getElem?_rotate' p2 s k hkl, hk, hd x hmem, hx, decide_true, Option.bind_eq_bind,
      Option.bind_some, if_true, nextMod_cyc (show 0 < p2.length by omega), this, List.length_cons]
    congr 2
    omega

theorem order1Loop_spec {genes p2 : List α} {direct : α → Option Bool} (hd : DirectFor genes p2 direct) (s : Nat) :
    ∀ (m k j : Nat) (child : List α), child.length = p2.length → j + m ≤ p2.length →
      m ≤ (((p2.rotate s).drop k).filter (fun g => decide (g ∉ genes))).length →
      ∃ child', order1Loop direct p2 m ((s + k) % p2.length) ((s + j) % p2.length) child = some child' ∧
        child'.length = p2.length ∧
        child'.rotate s = (child.rotate s).take j ++
          (((p2.rotate s).drop k).filter (fun g => decide (g ∉ genes))).take m ++ (child.rotate s).drop (j + m) := by
  intro m
  induction m with
  | zero =>
    intro k j child hl _ _
    exact ⟨child, rfl, hl, by simp⟩
  | succ m ih =>
    intro k j child hl hjm hm
    -- split at the first gene that is not direct
    obtain ⟨pre, g, post, hdrop, hpre, hg⟩ : ∃ pre g post, (p2.rotate s).drop k = pre ++ g :: post ∧
        (∀ x ∈ pre, x ∈ genes) ∧ g ∉ genes := by
      generalize (p2.rotate s).drop k = R at hm
      induction R with
      | nil => simp at hm
      | cons x R ihR =>
        by_cases hx : x ∈ genes
        · rw [List.filter_cons_of_neg (by simpa using hx)] at hm
          obtain ⟨pre, g, post, he, h1, h2⟩ := ihR hm
          refine ⟨x :: pre, g, post, by rw [he]; rfl, ?_, h2⟩
          intro y hy
          rcases List.mem_cons.1 hy with rfl | hy
          · exact hx
          · exact h1 y hy
        · exact ⟨[], x, R, rfl, by simp, hx⟩
    have hlenR : pre.length < p2.length := by
      have := congrArg List.length hdrop
      simp at this; omega
    have hkl : k + pre.length < p2.length := by
      have := congrArg List.length hdrop
      simp at this; omega
    have hskip := skipDirect_spec hd s pre (p2.length + 1) k g post hdrop hpre hg (by omega)
    have hgk : (p2.rotate s)[k + pre.length]? = some g := by
      rw [← List.getElem?_drop, hdrop]
      simp
    have hpos : 0 < p2.length := by omega
    have hdrop' : (p2.rotate s).drop (k + pre.length + 1) = post := by
      have := congrArg (List.drop (pre.length + 1)) hdrop
      rw [List.drop_drop, show k + (pre.length + 1) = k + pre.length + 1 by omega] at this
      rw [this]; simp
    have hfil : ((p2.rotate s).drop k).filter (fun g => decide (g ∉ genes)) =
        g :: post.filter (fun g => decide (g ∉ genes)) := by
      rw [hdrop, List.filter_append, List.filter_eq_nil_iff.2 (by intro a ha; simpa using hpre a ha),
        List.nil_append, List.filter_cons_of_pos (by simpa using hg)]
    rw [hfil] at hm ⊢
    obtain ⟨child', hc', hl', hr'⟩ := ih (k + pre.length + 1) (j + 1) (child.set ((s + j) % p2.length) g) (by simpa using hl)
      (by omega) (by rw [hdrop']; rw [List.length_cons] at hm; omega)
    refine ⟨child', ?_, hl', ?_⟩
    · have hcp : (s + j) % p2.length < child.length := by rw [hl]; exact Nat.mod_lt _ hpos
      simp only [order1Loop, hskip, Option.bind_eq_bind, Option.bind_some, getElem?_rotate' p2 s _ hkl, hgk, hcp, if_true,
        nextMod_cyc hpos]
      exact hc'
    · rw [hr', hdrop', ← hl, set_rotate child s j (by omega), List.take_succ_cons]
      rw [List.take_add_one, List.take_set_of_le (by omega), List.getElem?_set_self (by simp; omega),
        List.drop_set_of_lt (by omega), show j + 1 + m = j + (m + 1) by omega]
      simp

theorem order1With_spec {p1 p2 : List α} (h : PermParents p1 p2) {first last : Nat} (h1 : first ≤ last)
    (h2 : last ≤ p1.length) {direct : α → Option Bool} (hd : DirectFor (segment p1 first last) p2 direct) :
    ∃ child, order1With direct p1 p2 first last = some child ∧ IsOrder1Child p1 p2 first last child ∧
      (∀ child', IsOrder1Child p1 p2 first last child' → child' = child) := by
  have hlen : p2.length = p1.length := h.2.length_eq
  have hflen : ((p2.rotate last).filter (fun g => decide (g ∉ segment p1 first last))).length = p1.length - (last - first) := by
    rw [((List.rotate_perm p2 last).filter _).length_eq, length_filter_not_seg h h1 h2]
  obtain ⟨child, hc, hl, hr⟩ := order1Loop_spec hd last (p1.length - (last - first)) 0 0 p1 hlen.symm (by omega) (by
    rw [List.drop_zero, hflen])
  have hstart : (if last = p1.length then 0 else last) = (last + 0) % p2.length := by
    split
    · next h => simp [h, hlen]
    · next h => rw [Nat.add_zero, Nat.mod_eq_of_lt (by omega)]
  rw [List.drop_zero, ← hflen, List.take_length, hflen, List.take_zero, List.nil_append, Nat.zero_add] at hr
  -- the rotated child
  have hseg : (p1.rotate last).drop (p1.length - (last - first)) = segment p1 first last := by
    rw [List.rotate_eq_drop_append_take h2, List.drop_append]
    rw [List.drop_of_length_le (by simp; omega), List.nil_append, List.length_drop,
      show p1.length - (last - first) - (p1.length - last) = first by omega]
    exact genesIn_eq_segment p1 first last
  rw [hseg] at hr
  have hrot2 : p2.rotate last = p2.drop last ++ p2.take last := List.rotate_eq_drop_append_take (by omega)
  have hrotc : child.rotate last = child.drop last ++ child.take last := List.rotate_eq_drop_append_take (by omega)
  have hparts : child.drop last ++ child.take first = (p2.rotate last).filter (fun g => decide (g ∉ segment p1 first last)) ∧
      segment child first last = segment p1 first last := by
    have hst : child.take last = child.take first ++ segment child first last := by
      rw [← genesIn_eq_segment, genesIn]
      conv_lhs => rw [← List.take_append_drop first (child.take last)]
      rw [List.take_take, Nat.min_eq_left h1]
    rw [hrotc, hst, ← List.append_assoc] at hr
    refine List.append_inj hr ?_
    rw [hflen]; simp; omega
  have hperm : child.Perm p1 := by
    apply perm_of_filter_seg h h1
    refine ((List.rotate_perm child last).symm.trans (by rw [hr])).trans ?_
    exact ((List.rotate_perm p2 last).filter _).append_right _
  refine ⟨child, ?_, ⟨hperm, keepsRange_of_segment (by omega) hparts.2, ?_⟩, ?_⟩
  · rw [order1With, hstart]; exact hc
  · rw [genesIn_eq_segment, ← hrot2]; exact hparts.1
  · rintro c' ⟨hp', ⟨hl', hk'⟩, ho'⟩
    rw [genesIn_eq_segment, ← hrot2, ← hparts.1] at ho'
    have hinj := List.append_inj ho' (by simp; omega)
    have hs : segment c' first last = segment child first last := by
      rw [hparts.2]
      apply List.ext_getElem?
      intro i
      by_cases hi : i < last - first
      · simp only [segment]
        rw [List.getElem?_take_of_lt hi, List.getElem?_take_of_lt hi, List.getElem?_drop, List.getElem?_drop]
        exact hk' _ (by omega) (by omega)
      · rw [List.getElem?_eq_none (by rw [length_segment _ h1 (by omega)]; omega),
          List.getElem?_eq_none (by rw [length_segment _ h1 (by omega)]; omega)]
    rw [split_seg c' h1, split_seg child h1, hinj.1, hinj.2, hs]

end Order1

section Order2
variable [DecidableEq α]

theorem segment_set (c : List α) (first last pos : Nat) (g : α) (h : pos < first ∨ last ≤ pos) :
    segment (c.set pos g) first last = segment c first last := by
  apply List.ext_getElem?
  intro i
  simp only [segment]
  by_cases hi : i < last - first
  · rw [List.getElem?_take_of_lt hi, List.getElem?_take_of_lt hi, List.getElem?_drop, List.getElem?_drop,
      List.getElem?_set_ne (by omega)]
  · rw [List.getElem?_eq_none (by simp; omega), List.getElem?_eq_none (by simp; omega)]

/-- The positions outside of the range, as one list. -/
theorem outer_set (c : List α) {first last : Nat} (h1 : first ≤ last) (h2 : last ≤ c.length) (j : Nat) (g : α)
    (hj : j < c.length - (last - first)) :
    (c.set (if j < first then j else j + (last - first)) g).take first ++
      (c.set (if j < first then j else j + (last - first)) g).drop last = (c.take first ++ c.drop last).set j g := by
  by_cases h : j < first
  · rw [if_pos h, List.set_append_left _ _ (by simp; omega), List.take_set, List.drop_set_of_lt (by omega)]
  · rw [if_neg h, List.set_append_right _ _ (by simp; omega), List.take_set_of_le (by omega), List.drop_set,
      if_neg (by omega), List.length_take, Nat.min_eq_left (by omega)]
    congr 2
    omega

theorem order2Loop_spec {genes : List α} {direct : α → Option Bool} {first last : Nat} (h1 : first ≤ last) :
    ∀ (rest : List α) (j : Nat) (child : List α), DirectFor genes rest direct → last ≤ child.length →
      j + (rest.filter (fun g => decide (g ∉ genes))).length ≤ child.length - (last - first) →
      ∃ child', order2Loop direct first last rest (if j ≤ first then j else j + (last - first)) child = some child' ∧
        child'.length = child.length ∧ segment child' first last = segment child first last ∧
        child'.take first ++ child'.drop last = (child.take first ++ child.drop last).take j ++
          rest.filter (fun g => decide (g ∉ genes)) ++
          (child.take first ++ child.drop last).drop (j + (rest.filter (fun g => decide (g ∉ genes))).length) := by
  intro rest
  induction rest with
  | nil =>
    intro j child _ _ _
    refine ⟨child, rfl, rfl, rfl, ?_⟩
    simp only [List.filter_nil, List.append_nil, List.length_nil, Nat.add_zero]
    exact (List.take_append_drop j _).symm
  | cons g rest ih =>
    intro j child hd hl hj
    have hd' : DirectFor genes rest direct := fun x hx => hd x (List.mem_cons_of_mem _ hx)
    have hg : direct g = some (decide (g ∈ genes)) := hd g List.mem_cons_self
    by_cases hgm : g ∈ genes
    · rw [List.filter_cons_of_neg (by simpa using hgm)] at hj ⊢
      obtain ⟨c', h, hrest⟩ := ih j child hd' hl hj
      refine ⟨c', ?_, hrest⟩
      simp [order2Loop, hg, hgm, h]
    · rw [List.filter_cons_of_pos (by simpa using hgm)] at hj ⊢
      rw [List.length_cons] at hj ⊢
      have hpos : (if (if j ≤ first then j else j + (last - first)) = first then last
          else (if j ≤ first then j else j + (last - first))) = (if j < first then j else j + (last - first)) := by
        split <;> split <;> split <;> omega
      have hnext : (if j < first then j else j + (last - first)) + 1 =
          (if j + 1 ≤ first then j + 1 else j + 1 + (last - first)) := by
        split <;> split <;> omega
      obtain ⟨c', h, hl', hs', ho'⟩ := ih (j + 1) (child.set (if j < first then j else j + (last - first)) g) hd'
        (by simpa using hl) (by rw [List.length_set]; omega)
      refine ⟨c', ?_, by rw [hl']; simp, ?_, ?_⟩
      · simp only [order2Loop, hg, hgm, decide_false, Option.bind_eq_bind, Option.bind_some, Bool.false_eq_true, if_false]
        rw [hpos, if_pos (by split <;> omega), hnext, h]
      · rw [hs', segment_set _ _ _ _ _ (by split <;> omega)]
      · rw [ho', outer_set child h1 hl j g (by omega)]
        rw [List.take_add_one, List.take_set_of_le (by omega), List.getElem?_set_self (by simp; omega),
          List.drop_set_of_lt (by omega),
          show j + 1 + (rest.filter (fun g => decide (g ∉ genes))).length =
            j + ((rest.filter (fun g => decide (g ∉ genes))).length + 1) by omega]
        simp

theorem order2With_spec {p1 p2 : List α} (h : PermParents p1 p2) {first last : Nat} (h1 : first ≤ last)
    (h2 : last ≤ p1.length) {direct : α → Option Bool} (hd : DirectFor (segment p1 first last) p2 direct) :
    ∃ child, order2Loop direct first last p2 0 p1 = some child ∧ IsOrder2Child p1 p2 first last child ∧
      (∀ child', IsOrder2Child p1 p2 first last child' → child' = child) := by
  have hflen := length_filter_not_seg h h1 h2
  obtain ⟨child, hc, hl, hs, ho⟩ := order2Loop_spec h1 p2 0 p1 hd h2 (by omega)
  rw [if_pos (Nat.zero_le _)] at hc
  have ho' : child.take first ++ child.drop last = p2.filter (fun g => decide (g ∉ segment p1 first last)) := by
    have hz : (p1.take first ++ p1.drop last).drop (0 + (p1.length - (last - first))) = [] :=
      List.drop_of_length_le (by rw [List.length_append, List.length_take, List.length_drop]; omega)
    rw [ho, hflen, hz]; simp
  refine ⟨child, hc, ⟨?_, keepsRange_of_segment hl hs, ?_⟩, ?_⟩
  · apply perm_of_filter_seg h h1
    rw [← ho', ← hs]
    conv_lhs => rw [split_seg child h1]
    rw [List.append_assoc, List.append_assoc]
    exact List.Perm.append_left _ List.perm_append_comm
  · rw [genesIn_eq_segment]; exact ho'
  · rintro c' ⟨hp', ⟨hl', hk'⟩, hoc⟩
    rw [genesIn_eq_segment, ← ho'] at hoc
    have hinj := List.append_inj hoc (by simp; omega)
    have hs : segment c' first last = segment child first last := by
      rw [hs]
      apply List.ext_getElem?
      intro i
      by_cases hi : i < last - first
      · simp only [segment]
        rw [List.getElem?_take_of_lt hi, List.getElem?_take_of_lt hi, List.getElem?_drop, List.getElem?_drop]
        exact hk' _ (by omega) (by omega)
      · rw [List.getElem?_eq_none (by rw [length_segment _ h1 (by omega)]; omega),
          List.getElem?_eq_none (by rw [length_segment _ h1 (by omega)]; omega)]
    rw [split_seg c' h1, split_seg child h1, hinj.1, hinj.2, hs]

end Order2

section Position
variable [DecidableEq α]

/-- The child of position crossover: the direct genes stay, the others are replaced in turn. -/
def fill (genes : List α) : List α → List α → List α
  | [], _ => []
  | x :: xs, gs => if x ∈ genes then x :: fill genes xs gs else
      match gs with
      | [] => x :: xs
      | g :: gs => g :: fill genes xs gs

theorem fill_nil (genes : List α) : ∀ xs, fill genes xs [] = xs := by
  intro xs
  induction xs with
  | nil => rfl
  | cons x xs ih => simp [fill, ih]

/-- `skipChild` splits off a prefix of direct genes. -/
theorem skipChild_spec {genes : List α} {direct : α → Option Bool} :
    ∀ (pre : List α) (pos : Nat) (g : α) (post : List α), DirectFor genes (pre ++ g :: post) direct →
      (∀ x ∈ pre, x ∈ genes) → g ∉ genes → skipChild direct (pre ++ g :: post) pos = some (pos + pre.length) := by
  intro pre
  induction pre with
  | nil =>
    intro pos g post hd _ hg
    have := hd g (by simp)
    simp [skipChild, this, hg]
  | cons x pre ih =>
    intro pos g post hd hpre hg
    have hx := hd x (by simp)
    have hxm : x ∈ genes := hpre x List.mem_cons_self
    have := ih (pos + 1) g post (fun y hy => hd y (List.mem_cons_of_mem _ hy)) (fun y hy => hpre y (List.mem_cons_of_mem _ hy)) hg
    simp only [List.cons_append, skipChild, hx, hxm, decide_true, Option.bind_eq_bind, Option.bind_some, if_true, this,
      List.length_cons]
    congr 1; omega

theorem split_first {genes : List α} {R : List α} (hm : 0 < (R.filter (fun g => decide (g ∉ genes))).length) :
    ∃ pre g post, R = pre ++ g :: post ∧ (∀ x ∈ pre, x ∈ genes) ∧ g ∉ genes := by
  induction R with
  | nil => simp at hm
  | cons x R ihR =>
    by_cases hx : x ∈ genes
    · rw [List.filter_cons_of_neg (by simpa using hx)] at hm
      obtain ⟨pre, g, post, he, h1, h2⟩ := ihR hm
      refine ⟨x :: pre, g, post, by rw [he]; rfl, ?_, h2⟩
      intro y hy
      rcases List.mem_cons.1 hy with rfl | hy
      · exact hx
      · exact h1 y hy
    · exact ⟨[], x, R, rfl, by simp, hx⟩

theorem fill_append (genes : List α) : ∀ (pre : List α), (∀ x ∈ pre, x ∈ genes) → ∀ rest gs,
    fill genes (pre ++ rest) gs = pre ++ fill genes rest gs := by
  intro pre
  induction pre with
  | nil => intro _ rest gs; rfl
  | cons x pre ih =>
    intro hpre rest gs
    have hx : x ∈ genes := hpre x List.mem_cons_self
    simp only [List.cons_append, fill, hx, if_true]
    rw [ih (fun y hy => hpre y (List.mem_cons_of_mem _ hy))]

theorem positionLoop_spec {genes : List α} {direct : α → Option Bool} :
    ∀ (gs : List α) (done rest : List α), DirectFor genes gs direct → DirectFor genes rest direct →
      (gs.filter (fun g => decide (g ∉ genes))).length ≤ (rest.filter (fun g => decide (g ∉ genes))).length →
      positionLoop direct gs done.length (done ++ rest) =
        some (done ++ fill genes rest (gs.filter (fun g => decide (g ∉ genes)))) := by
  intro gs
  induction gs with
  | nil => intro done rest _ _ _; simp [positionLoop, fill_nil]
  | cons g gs ih =>
    intro done rest hd hr hlen
    have hd' : DirectFor genes gs direct := fun x hx => hd x (List.mem_cons_of_mem _ hx)
    have hg : direct g = some (decide (g ∈ genes)) := hd g List.mem_cons_self
    by_cases hgm : g ∈ genes
    · rw [List.filter_cons_of_neg (by simpa using hgm)] at hlen ⊢
      simp [positionLoop, hg, hgm, ih done rest hd' hr hlen]
    · rw [List.filter_cons_of_pos (by simpa using hgm)] at hlen ⊢
      rw [List.length_cons] at hlen
      obtain ⟨pre, x, post, rfl, hpre, hx⟩ := split_first (genes := genes) (R := rest) (by omega)
      have hpost : DirectFor genes post direct := fun y hy => hr y (by simp [hy])
      have hskip := skipChild_spec pre done.length x post hr hpre hx
      have hset : (done ++ (pre ++ x :: post)).set (done.length + pre.length) g = (done ++ pre ++ [g]) ++ post := by
        rw [List.set_append_right _ _ (by omega), List.set_append_right _ _ (by omega)]
        simp
      have hlen' : (done ++ pre ++ [g]).length = done.length + pre.length + 1 := by simp; omega
      have := ih (done ++ pre ++ [g]) post hd' hpost (by
        have hz : pre.filter (fun g => decide (g ∉ genes)) = [] :=
          List.filter_eq_nil_iff.2 (by intro a ha; simpa using hpre a ha)
        rw [List.filter_append, hz, List.nil_append,
          List.filter_cons_of_pos (by simpa using hx), List.length_cons] at hlen
        omega)
      simp only [positionLoop, hg, hgm, decide_false, Option.bind_eq_bind, Option.bind_some, Bool.false_eq_true, if_false,
        List.drop_left, hskip, hset]
      rw [← hlen', this, fill_append genes pre hpre]
      simp [fill, hx]

theorem length_fill (genes : List α) : ∀ xs gs, (fill genes xs gs).length = xs.length := by
  intro xs
  induction xs with
  | nil => intro gs; rfl
  | cons x xs ih =>
    intro gs
    simp only [fill]
    split
    · simp [ih]
    · cases gs with
      | nil => rfl
      | cons g gs => simp [ih]

/-- What `fill` returns, for a list of replacements of the right length. -/
theorem fill_spec (genes : List α) (indices : List Nat) :
    ∀ (xs gs : List α) (k : Nat), gs.length = (xs.filter (fun g => decide (g ∉ genes))).length →
      (∀ i x, xs[i]? = some x → (x ∈ genes ↔ k + i ∈ indices)) →
      (∀ i, k + i ∈ indices → (fill genes xs gs)[i]? = xs[i]?) ∧
      (((fill genes xs gs).zipIdx k).filter (fun x => decide (x.2 ∉ indices))).map (·.1) = gs ∧
      (fill genes xs gs).Perm (gs ++ xs.filter (fun g => decide (g ∈ genes))) := by
  intro xs
  induction xs with
  | nil =>
    intro gs k hl _
    have : gs = [] := List.length_eq_zero_iff.1 (by simpa using hl)
    subst this
    simp [fill]
  | cons x xs ih =>
    intro gs k hl hidx
    have hidx' : ∀ i y, xs[i]? = some y → (y ∈ genes ↔ k + 1 + i ∈ indices) := by
      intro i y hy
      have := hidx (i + 1) y (by simpa using hy)
      rwa [show k + (i + 1) = k + 1 + i by omega] at this
    have h0 : x ∈ genes ↔ k ∈ indices := hidx 0 x rfl
    by_cases hx : x ∈ genes
    · rw [List.filter_cons_of_neg (by simpa using hx)] at hl
      obtain ⟨h1, h2, h3⟩ := ih gs (k + 1) hl hidx'
      simp only [fill, hx, if_true]
      refine ⟨?_, ?_, ?_⟩
      · intro i hi
        cases i with
        | zero => rfl
        | succ i =>
          simp only [List.getElem?_cons_succ]
          exact h1 i (by rwa [show k + 1 + i = k + (i + 1) by omega])
      · rw [List.zipIdx_cons, List.filter_cons_of_neg (by simpa using h0.1 hx)]
        exact h2
      · rw [List.filter_cons_of_pos (by simpa using hx)]
        exact (List.Perm.cons x h3).trans (List.perm_middle.symm)
    · rw [List.filter_cons_of_pos (by simpa using hx)] at hl
      match gs, hl with
      | g :: gs, hl =>
        obtain ⟨h1, h2, h3⟩ := ih gs (k + 1) (by simpa using hl) hidx'
        simp only [fill, hx, if_false]
        have hk : k ∉ indices := fun h => hx (h0.2 h)
        refine ⟨?_, ?_, ?_⟩
        · intro i hi
          cases i with
          | zero => exact absurd hi hk
          | succ i =>
            simp only [List.getElem?_cons_succ]
            exact h1 i (by rwa [show k + 1 + i = k + (i + 1) by omega])
        · rw [List.zipIdx_cons, List.filter_cons_of_pos (by simpa using hk), List.map_cons, h2]
        · rw [List.filter_cons_of_neg (by simpa using hx), List.cons_append]
          exact List.Perm.cons g h3

theorem genesAt_spec {p : List α} {indices : List Nat} (hi : ∀ i ∈ indices, i < p.length) :
    ∃ genes, genesAt p indices = some genes ∧ ∀ x, x ∈ genes ↔ ∃ i ∈ indices, p[i]? = some x := by
  induction indices with
  | nil => exact ⟨[], rfl, by simp⟩
  | cons i rest ih =>
    obtain ⟨genes, hg, hm⟩ := ih (fun j hj => hi j (List.mem_cons_of_mem _ hj))
    have hil : i < p.length := hi i List.mem_cons_self
    refine ⟨p[i] :: genes, ?_, ?_⟩
    · rw [genesAt] at hg ⊢
      rw [List.mapM_cons, hg, List.getElem?_eq_getElem hil]
      rfl
    · intro x
      simp only [List.mem_cons, hm, exists_eq_or_imp]
      rw [List.getElem?_eq_getElem hil, Option.some.injEq, eq_comm]

theorem mem_genesOutside {p : List α} {indices : List Nat} {x : α} :
    x ∈ genesOutside p indices ↔ ∃ i, i ∉ indices ∧ p[i]? = some x := by
  simp only [genesOutside, List.mem_map, List.mem_filter, decide_eq_true_eq, Prod.exists]
  constructor
  · rintro ⟨a, b, ⟨h1, h2⟩, rfl⟩
    exact ⟨b, h2, List.mem_zipIdx_iff_getElem?.1 h1⟩
  · rintro ⟨i, h1, h2⟩
    exact ⟨x, i, ⟨List.mem_zipIdx_iff_getElem?.2 h2, h1⟩, rfl⟩

/-- Which genes of a permutation are direct. -/
theorem direct_iff {p : List α} (hn : p.Nodup) {indices : List Nat} {genes : List α}
    (hm : ∀ x, x ∈ genes ↔ ∃ i ∈ indices, p[i]? = some x) {i : Nat} {x : α} (hx : p[i]? = some x) :
    x ∈ genes ↔ i ∈ indices := by
  rw [hm]
  constructor
  · rintro ⟨j, hj, hjx⟩
    obtain ⟨hj', hje⟩ := List.getElem?_eq_some_iff.1 hjx
    obtain ⟨hi', hie⟩ := List.getElem?_eq_some_iff.1 hx
    have : i = j := (List.Nodup.getElem_inj_iff hn).1 (hie.trans hje.symm)
    rwa [this]
  · intro h; exact ⟨i, h, hx⟩

theorem not_direct_iff {p : List α} (hn : p.Nodup) {indices : List Nat} {genes : List α}
    (hm : ∀ x, x ∈ genes ↔ ∃ i ∈ indices, p[i]? = some x) {x : α} (hx : x ∈ p) :
    x ∉ genes ↔ x ∈ genesOutside p indices := by
  obtain ⟨i, hi⟩ := List.mem_iff_getElem?.1 hx
  rw [direct_iff hn hm hi, mem_genesOutside]
  constructor
  · intro h; exact ⟨i, h, hi⟩
  · rintro ⟨j, hj, hjx⟩ hii
    have : x ∈ genes := (hm x).2 ⟨i, hii, hi⟩
    exact hj ((direct_iff hn hm hjx).1 this)

theorem fill_isPositionChild {p1 p2 : List α} (h : PermParents p1 p2) {indices : List Nat} {genes : List α}
    (hm : ∀ x, x ∈ genes ↔ ∃ i ∈ indices, p1[i]? = some x) :
    IsPositionChild p1 p2 indices (fill genes p1 (p2.filter (fun g => decide (g ∉ genes)))) ∧
    (p2.filter (fun g => decide (g ∉ genes))).length ≤ (p1.filter (fun g => decide (g ∉ genes))).length := by
  have hl := (h.2.filter (fun g => decide (g ∉ genes))).length_eq
  obtain ⟨h1, h2, h3⟩ := fill_spec genes indices p1 (p2.filter (fun g => decide (g ∉ genes))) 0 hl (by
    intro i x hx
    rw [Nat.zero_add]
    exact direct_iff h.1 hm hx)
  refine ⟨⟨?_, ?_, ?_⟩, le_of_eq hl⟩
  · refine h3.trans (((h.2.filter _).append_right _).trans ?_)
    have := List.filter_append_perm (fun g => decide (g ∉ genes)) p1
    simpa using this
  · intro i hi; exact h1 i (by rwa [Nat.zero_add])
  · rw [genesOutside]
    refine h2.trans (List.filter_congr ?_)
    intro x hx
    exact decide_eq_decide.2 (not_direct_iff h.1 hm (h.2.mem_iff.1 hx))

theorem position_unique {p1 p2 : List α} {indices : List Nat} {c c' : List α}
    (hc : IsPositionChild p1 p2 indices c) (hc' : IsPositionChild p1 p2 indices c') : c = c' := by
  have hl : c.length = c'.length := by rw [hc.1.length_eq, hc'.1.length_eq]
  have hk : ∀ i ∈ indices, c[i]? = c'[i]? := fun i hi => (hc.2.1 i hi).trans (hc'.2.1 i hi).symm
  have ho : genesOutside c indices = genesOutside c' indices := hc.2.2.trans hc'.2.2.symm
  clear hc hc'
  -- general statement with an offset
  have key : ∀ (c c' : List α) (k : Nat), c.length = c'.length → (∀ i, k + i ∈ indices → c[i]? = c'[i]?) →
      ((c.zipIdx k).filter (fun x => decide (x.2 ∉ indices))).map (·.1) =
        ((c'.zipIdx k).filter (fun x => decide (x.2 ∉ indices))).map (·.1) → c = c' := by
    intro c
    induction c with
    | nil => intro c' k hl _ _; exact (List.length_eq_zero_iff.1 hl.symm).symm
    | cons x c ih =>
      intro c' k hl hk ho
      match c', hl with
      | y :: c', hl =>
        have hk' : ∀ i, k + 1 + i ∈ indices → c[i]? = c'[i]? := by
          intro i hi
          have := hk (i + 1) (by rwa [show k + (i + 1) = k + 1 + i by omega])
          simpa using this
        rw [List.zipIdx_cons, List.zipIdx_cons] at ho
        by_cases hki : k ∈ indices
        · rw [List.filter_cons_of_neg (by simpa using hki), List.filter_cons_of_neg (by simpa using hki)] at ho
          have h0 := hk 0 (by simpa using hki)
          simp only [List.getElem?_cons_zero, Option.some.injEq] at h0
          rw [h0, ih c' (k + 1) (by simpa using hl) hk' ho]
        · rw [List.filter_cons_of_pos (by simpa using hki), List.filter_cons_of_pos (by simpa using hki)] at ho
          rw [List.map_cons, List.map_cons, List.cons.injEq] at ho
          rw [show x = y from ho.1, ih c' (k + 1) (by simpa using hl) hk' ho.2]
  exact key c c' 0 hl (fun i hi => hk i (by simpa using hi)) ho

theorem positionGeneric_spec {p1 p2 : List α} (h : PermParents p1 p2) {indices : List Nat} (hi : ∀ i ∈ indices, i < p1.length) :
    ∃ child, positionGeneric p1 p2 indices = some child ∧ IsPositionChild p1 p2 indices child := by
  obtain ⟨genes, hg, hm⟩ := genesAt_spec hi
  obtain ⟨hpos, hle⟩ := fill_isPositionChild h hm
  refine ⟨_, ?_, hpos⟩
  have := positionLoop_spec p2 [] p1 (hashSetOf_direct genes p2) (hashSetOf_direct genes p1) hle
  simp only [positionGeneric, hg, Option.bind_eq_bind, Option.bind_some]
  simpa using this

omit [DecidableEq α] in
/-- The table of the integer overload holds the positions that `skipChild` would find. -/
theorem nextIndirect_spec {direct : Nat → Option Bool} :
    ∀ (xs : List Nat) (k : Nat), (∀ x ∈ xs, ∃ b, direct x = some b) →
      ∃ table, nextIndirect direct xs k = some table ∧
        ∀ i, (table[i]?).join = skipChild direct (xs.drop i) (k + i) := by
  intro xs
  induction xs with
  | nil => intro k _; exact ⟨[], rfl, by intro i; simp [skipChild]⟩
  | cons x xs ih =>
    intro k hd
    obtain ⟨table, ht, hs⟩ := ih (k + 1) (fun y hy => hd y (List.mem_cons_of_mem _ hy))
    obtain ⟨b, hb⟩ := hd x List.mem_cons_self
    refine ⟨(if b = true then table.head?.join else some k) :: table, ?_, ?_⟩
    · simp only [nextIndirect, ht, hb, Option.bind_eq_bind, Option.bind_some]
      rfl
    · intro i
      cases i with
      | zero =>
        have h0 := hs 0
        simp only [List.drop_zero, Nat.add_zero] at h0 ⊢
        simp only [List.getElem?_cons_zero, Option.join_some, skipChild, hb, Option.bind_eq_bind, Option.bind_some]
        cases b with
        | true => simp only [if_true]; rw [← h0, List.head?_eq_getElem?]
        | false => simp
      | succ i =>
        rw [List.getElem?_cons_succ, hs i, List.drop_succ_cons, show k + 1 + i = k + (i + 1) by omega]

omit [DecidableEq α] in
theorem skipChild_bounds {β : Type} {direct : β → Option Bool} : ∀ (xs : List β) (k pos : Nat),
    skipChild direct xs k = some pos → k ≤ pos ∧ pos < k + xs.length := by
  intro xs
  induction xs with
  | nil => intro k pos h; simp [skipChild] at h
  | cons x xs ih =>
    intro k pos h
    simp only [skipChild, Option.bind_eq_bind] at h
    cases hx : direct x with
    | none => simp [hx] at h
    | some b =>
      cases b with
      | true =>
        simp [hx] at h
        have := ih _ _ h
        simp; omega
      | false =>
        simp [hx] at h
        simp; omega

omit [DecidableEq α] in
theorem positionTable_eq {direct : Nat → Option Bool} {table : List (Option Nat)} {p1 : List Nat}
    (ht : ∀ i, (table[i]?).join = skipChild direct (p1.drop i) i) :
    ∀ (gs : List Nat) (pos : Nat) (child : List Nat), child.length = p1.length → child.drop pos = p1.drop pos →
      positionTableLoop direct table gs pos child = positionLoop direct gs pos child := by
  intro gs
  induction gs with
  | nil => intro pos child _ _; rfl
  | cons g gs ih =>
    intro pos child hl hc
    simp only [positionTableLoop, positionLoop, Option.bind_eq_bind]
    cases hg : direct g with
    | none => rfl
    | some b =>
      cases b with
      | true =>
        simp only [Option.bind_some, if_true]
        exact ih pos child hl hc
      | false =>
        simp only [Option.bind_some, Bool.false_eq_true, if_false, ht pos, ← hc]
        cases hsk : skipChild direct (child.drop pos) pos with
        | none => rfl
        | some q =>
          have hb := skipChild_bounds _ _ _ hsk
          rw [List.length_drop] at hb
          simp only [Option.bind_some]
          rw [if_pos (by omega)]
          refine ih (q + 1) (child.set q g) (by simpa using hl) ?_
          rw [List.drop_set_of_lt (by omega)]
          have := congrArg (List.drop (q + 1 - pos)) hc
          rw [List.drop_drop, List.drop_drop, show pos + (q + 1 - pos) = q + 1 by omega] at this
          exact this

omit [DecidableEq α] in
theorem positionUnsigned_spec {p1 p2 : List Nat} (h1 : IsIntPerm p1) (h2 : IsIntPerm p2) (hl : p1.length = p2.length)
    {indices : List Nat} (hi : ∀ i ∈ indices, i < p1.length) :
    ∃ child, positionUnsigned p1 p2 indices = some child ∧ IsPositionChild p1 p2 indices child := by
  have h := IsIntPerm.permParents h1 h2 hl
  obtain ⟨genes, hg, hm⟩ := genesAt_spec hi
  obtain ⟨hpos, hle⟩ := fill_isPositionChild h hm
  obtain ⟨bits, hb, hbd⟩ := setBits_direct (n := p1.length) (genes := genes) (domain := p1)
    (by
      intro g hgm
      obtain ⟨i, _, hi'⟩ := (hm g).1 hgm
      exact IsIntPerm.lt h1 (List.mem_of_getElem? hi')) (fun g hg => IsIntPerm.lt h1 hg)
  have hbd2 : DirectFor genes p2 (bitsQuery bits) := fun g hg => hbd g (h.2.mem_iff.1 hg)
  obtain ⟨table, ht, hts⟩ := nextIndirect_spec (direct := bitsQuery bits) p1 0 (fun x hx => ⟨_, hbd x hx⟩)
  refine ⟨_, ?_, hpos⟩
  simp only [positionUnsigned, hg, hb, ht, Option.bind_eq_bind, Option.bind_some]
  rw [positionTable_eq (p1 := p1) (by intro i; rw [hts i, Nat.zero_add]) p2 0 p1 rfl rfl]
  have := positionLoop_spec p2 [] p1 hbd2 hbd hle
  simpa using this

end Position

end Gapp.Model
