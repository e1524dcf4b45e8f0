import Verif.Spec.Bitset
import Verif.Proofs.ListAux
/-! Proofs about the bitset model. -/

namespace Gapp.Model.Bitset
open Gapp

/-- Bit `i` of a sequence of blocks. -/
def bitAt (bs : List (BitVec 64)) (i : Nat) : Bool := (bs.getD (i / 64) 0#64).getLsbD (i % 64)

/-- The visible bits. -/
def bits (b : Bitset) : List Bool := (List.range b.size).map (bitAt b.blocks)

/-- Structural invariant. -/
def Wf (b : Bitset) : Prop := b.blocks.length = blockCount b.size

theorem blockCount_eq (n : Nat) : blockCount n = (n + 63) / 64 := by
  unfold blockCount; split <;> omega

@[simp] theorem length_bits (b : Bitset) : b.bits.length = b.size := by simp [bits]

theorem bits_get (b : Bitset) (i : Nat) (h : i < b.bits.length) : b.bits[i] = bitAt b.blocks i := by
  simp [bits]

theorem getLsbD_ones (j : Nat) (h : j < 64) : (BitVec.allOnes 64).getLsbD j = true := by
  rw [BitVec.getLsbD_allOnes]; simp [h]

theorem getLsbD_blockOf (v : Bool) (j : Nat) (h : j < 64) : (blockOf v).getLsbD j = v := by
  unfold blockOf; cases v
  · simp
  · exact getLsbD_ones j h

theorem getLsbD_mask (n j : Nat) (hn : n < 64) (hj : j < 64) :
    (maskRightN n).getLsbD j = decide (j < n) := by
  unfold maskRightN
  split
  · simp only [BitVec.getLsbD_ushiftRight, BitVec.getLsbD_allOnes]
    congr 1
    simp; omega
  · have : n = 0 := by omega
    subst this; simp

theorem and_bit_ne_zero (x : BitVec 64) (j : Nat) (h : j < 64) :
    ((x &&& (1#64 <<< j)) != 0#64) = x.getLsbD j := by
  cases hx : x.getLsbD j
  · have : x &&& (1#64 <<< j) = 0#64 := by
      apply BitVec.eq_of_getLsbD_eq
      intro i hi
      simp only [BitVec.getLsbD_and, BitVec.getLsbD_shiftLeft, BitVec.getLsbD_zero]
      by_cases hij : i = j
      · subst hij; simp [hx]
      · by_cases hlt : i < j
        · simp [hlt]
        · simp [hlt]
          intros
          omega
    simp [this]
  · have : x &&& (1#64 <<< j) ≠ 0#64 := by
      intro h0
      have := congrArg (fun y => BitVec.getLsbD y j) h0
      simp only [BitVec.getLsbD_and, BitVec.getLsbD_shiftLeft, hx, BitVec.getLsbD_zero] at this
      simp [h] at this
    simpa using this

theorem Wf.block_lt {b : Bitset} (h : b.Wf) {i : Nat} (hi : i < b.size) : i / 64 < b.blocks.length := by
  rw [h, blockCount_eq]; omega

theorem get_eq {b : Bitset} (h : b.Wf) (i : Nat) : b.get i = b.bits[i]? := by
  unfold get
  split
  · rename_i hi
    have hb := h.block_lt hi
    rw [List.getElem?_eq_getElem (l := b.blocks) hb,
      List.getElem?_eq_getElem (l := b.bits) (by simpa using hi), bits_get]
    simp only [Option.map_some]
    rw [and_bit_ne_zero _ _ (by omega)]
    simp [bitAt, List.getD, List.getElem?_eq_getElem (l := b.blocks) hb]
  · rw [List.getElem?_eq_none (l := b.bits) (by simp; omega)]

theorem contents_eq {b : Bitset} (h : b.Wf) : b.contents = some b.bits := by
  unfold contents
  refine ListAux.mapM_range_eq_some _ _ _ (by simp) ?_
  intro i hi
  rw [get_eq h, List.getElem?_eq_getElem]

theorem wf_init (n : Nat) (v : Bool) : (init n v).Wf := by simp [Wf, init]

theorem bits_init (n : Nat) (v : Bool) : (init n v).bits = List.replicate n v := by
  apply List.ext_getElem
  · simp [init]
  · intro i h1 h2
    rw [bits_get]
    have hi : i < n := by simpa using h2
    have : i / 64 < blockCount n := by rw [blockCount_eq]; omega
    simp only [bitAt, init, List.getD, List.getElem?_replicate, this, if_true, Option.getD_some]
    rw [getLsbD_blockOf _ _ (by omega), List.getElem_replicate]

theorem bitAt_set (bs : List (BitVec 64)) (k : Nat) (x : BitVec 64) (hk : k < bs.length) (i : Nat) :
    bitAt (bs.set k x) i = if i / 64 = k then x.getLsbD (i % 64) else bitAt bs i := by
  unfold bitAt
  split
  · rename_i h; subst h; simp [List.getD, hk]
  · rename_i h
    simp [List.getD, List.getElem?_set, Ne.symm h]

theorem getLsbD_one_shl (j i : Nat) (hi : i < 64) : (1#64 <<< j).getLsbD i = decide (i = j) := by
  simp only [BitVec.getLsbD_shiftLeft, BitVec.getLsbD_one]
  by_cases h : i < j
  · simp [h]; omega
  · by_cases h2 : i = j
    · subst h2; simp [hi]
    · simp [h, h2, hi]; omega

theorem modifyBlock_eq {b : Bitset} (h : b.Wf) (idx : Nat) (f : BitVec 64 → BitVec 64 → BitVec 64)
    (g : Bool → Bool)
    (hf : ∀ x j i, i < 64 → (f x (1#64 <<< j)).getLsbD i =
      if i = j then g (x.getLsbD i) else x.getLsbD i) :
    (¬ idx < b.size ∧ b.modifyBlock idx f = none) ∨
    ∃ (hi : idx < b.bits.length) (c : Bitset), b.modifyBlock idx f = some c ∧ c.Wf ∧
      c.bits = b.bits.set idx (g b.bits[idx]) := by
  by_cases hi : idx < b.size
  · right
    have hb := h.block_lt hi
    refine ⟨by simpa using hi,
      ⟨b.blocks.set (idx / 64) (f b.blocks[idx / 64] (1#64 <<< (idx % 64))), b.size⟩, ?_, ?_, ?_⟩
    · simp [modifyBlock, hi, hb]
    · simpa [Wf] using h
    · apply List.ext_getElem
      · simp
      · intro i h1 h2
        have hi2 : i < b.size := by simpa using h1
        rw [bits_get, List.getElem_set, bitAt_set _ _ _ hb]
        split
        · rename_i hq
          rw [hf _ _ _ (Nat.mod_lt _ (by omega))]
          have hx : b.blocks[idx / 64].getLsbD (i % 64) = bitAt b.blocks i := by
            simp [bitAt, List.getD, hq, hb]
          rw [hx]
          by_cases e : idx = i
          · subst e; simp [bits_get]
          · have : i % 64 ≠ idx % 64 := by omega
            simp [e, this, bits_get]
        · rename_i hq
          have : idx ≠ i := by rintro rfl; exact hq rfl
          simp [this, bits_get]
  · left; exact ⟨hi, by simp [modifyBlock, hi]⟩

theorem assign_eq {b : Bitset} (h : b.Wf) (idx : Nat) (v : Bool) :
    (¬ idx < b.size ∧ b.assign idx v = none) ∨
    ∃ (_ : idx < b.bits.length) (c : Bitset), b.assign idx v = some c ∧ c.Wf ∧
      c.bits = b.bits.set idx v := by
  refine modifyBlock_eq h idx _ (fun _ => v) ?_
  intro x j i hi
  cases v
  · simp only [Bool.false_eq_true, if_false]
    rw [BitVec.getLsbD_and, BitVec.getLsbD_not, getLsbD_one_shl _ _ hi]
    split <;> simp_all
  · simp only [if_true]
    rw [BitVec.getLsbD_or, getLsbD_one_shl _ _ hi]
    split <;> simp_all

theorem flip_eq {b : Bitset} (h : b.Wf) (idx : Nat) :
    (¬ idx < b.size ∧ b.flip idx = none) ∨
    ∃ (hi : idx < b.bits.length) (c : Bitset), b.flip idx = some c ∧ c.Wf ∧
      c.bits = b.bits.set idx (!b.bits[idx]) := by
  refine modifyBlock_eq h idx _ (fun x => !x) ?_
  intro x j i hi
  rw [BitVec.getLsbD_xor, getLsbD_one_shl _ _ hi]
  split <;> simp_all

theorem fill_eq {b : Bitset} (h : b.Wf) (v : Bool) :
    (b.fill v).Wf ∧ (b.fill v).bits = b.bits.map (fun _ => v) := by
  refine ⟨by simpa [Wf, fill] using h, ?_⟩
  apply List.ext_getElem
  · simp [fill]
  · intro i h1 h2
    have hi : i < b.size := by simpa using h2
    have hb := h.block_lt hi
    rw [bits_get]
    simp only [bitAt, fill, List.getD, List.getElem?_map, List.getElem?_eq_getElem hb,
      Option.map_some, Option.getD_some, List.getElem_map]
    rw [getLsbD_blockOf _ _ (by omega)]

theorem complement_eq {b : Bitset} (h : b.Wf) :
    b.complement.Wf ∧ b.complement.bits = b.bits.map (!·) := by
  refine ⟨by simpa [Wf, complement] using h, ?_⟩
  apply List.ext_getElem
  · simp [complement]
  · intro i h1 h2
    have hi : i < b.size := by simpa using h2
    have hb := h.block_lt hi
    rw [bits_get, List.getElem_map, bits_get]
    have : i % 64 < 64 := by omega
    simp [bitAt, complement, List.getD, hb, this]

/-- The exact effect of `resize` on every bit. -/
theorem resize_eq {b : Bitset} (h : b.Wf) (n : Nat) (v : Bool) :
    ∃ c, b.resize n v = some c ∧ c.Wf ∧ c.size = n ∧
      ∀ i, i < n → bitAt c.blocks i =
        if i < b.size then bitAt b.blocks i
        else if i / 64 < b.blocks.length ∧ b.blocks.length < blockCount n then bitAt b.blocks i
        else v := by
  have hlen : b.blocks.length = (b.size + 63) / 64 := by rw [h, blockCount_eq]
  have hnb := blockCount_eq n
  unfold resize
  dsimp only
  generalize hbl : b.blocks.take (blockCount n) ++
    List.replicate (blockCount n - b.blocks.length) (blockOf v) = bl
  have hbll : bl.length = blockCount n := by
    rw [← hbl]; simp; omega
  have hblg : ∀ i, i < n → bitAt bl i = if i / 64 < b.blocks.length then bitAt b.blocks i else v := by
    intro i hi
    have : i / 64 < blockCount n := by omega
    rw [← hbl]
    unfold bitAt
    split
    · rename_i hlt
      rw [List.getD, List.getElem?_append_left (by simp; omega), List.getElem?_take_of_lt this]
      rfl
    · rename_i hge
      rw [List.getD, List.getElem?_append_right (by simp; omega), List.getElem?_replicate]
      rw [if_pos (by simp; omega)]
      exact getLsbD_blockOf _ _ (by omega)
  split
  · rename_i hgt
    have hne : bl ≠ [] := by
      intro h0; simp [h0] at hbll; omega
    rw [List.getLast?_eq_some_getLast hne]
    refine ⟨_, rfl, ?_, rfl, ?_⟩
    · simp only [Wf, List.length_append, List.length_dropLast, hbll, List.length_singleton]
      omega
    · intro i hi
      simp only []
      have hlast : bl.length - 1 < bl.length := by omega
      generalize hL : (bl.getLast hne &&& b.partialBlockMask ||| ~~~b.partialBlockMask &&& blockOf v) = L
      have hset : bl.dropLast ++ [L] = bl.set (bl.length - 1) L := by
        apply List.ext_getElem
        · simp; omega
        · intro k hk1 hk2
          simp only [List.length_set] at hk2
          rw [List.getElem_set]
          by_cases hk : k < bl.length - 1
          · rw [List.getElem_append_left (by simpa using hk), List.getElem_dropLast, if_neg (by omega)]
          · rw [List.getElem_append_right (by simp; omega), if_pos (by omega)]
            simp
      rw [hset, bitAt_set _ _ _ hlast]
      have hm : i % 64 < 64 := by omega
      have hLi : L.getLsbD (i % 64) =
          if i % 64 < b.size % 64 then (bl.getLast hne).getLsbD (i % 64) else v := by
        rw [← hL, BitVec.getLsbD_or, BitVec.getLsbD_and, BitVec.getLsbD_and, BitVec.getLsbD_not,
          partialBlockMask, partialBlockSize, getLsbD_mask _ _ (by omega) hm, getLsbD_blockOf _ _ hm]
        by_cases hlt : i % 64 < b.size % 64 <;> simp [hlt, hm]
      have hgl : i / 64 = bl.length - 1 → (bl.getLast hne).getLsbD (i % 64) = bitAt bl i := by
        intro e
        rw [List.getLast_eq_getElem]
        simp only [bitAt, List.getD, e, List.getElem?_eq_getElem (l := bl) hlast, Option.getD_some]
      by_cases hq : i / 64 = bl.length - 1
      · rw [if_pos hq, hLi, hgl hq, hblg i hi]
        by_cases h1 : i < b.size
        · rw [if_pos h1]
          have : i % 64 < b.size % 64 := by omega
          rw [if_pos this, if_pos (by omega)]
        · rw [if_neg h1]
          rw [if_neg (c := i / 64 < b.blocks.length ∧ _) (by omega)]
          by_cases h3 : i % 64 < b.size % 64
          · rw [if_pos h3, if_neg (by omega)]
          · rw [if_neg h3]
      · rw [if_neg hq, hblg i hi]
        by_cases h1 : i < b.size
        · rw [if_pos h1, if_pos (by omega)]
        · rw [if_neg h1]
          by_cases h2 : i / 64 < b.blocks.length
          · rw [if_pos h2, if_pos ⟨h2, by omega⟩]
          · rw [if_neg h2, if_neg (by omega)]
  · rename_i hle
    refine ⟨_, rfl, hbll, rfl, ?_⟩
    intro i hi
    simp only []
    rw [hblg i hi, if_pos (by omega), if_pos (by omega)]

theorem resize_safe {b : Bitset} (h : b.Wf) (n : Nat) (v : Bool) (hs : Spec.Bits.SafeResize b.size n) :
    ∃ c, b.resize n v = some c ∧ c.Wf ∧
      c.bits = b.bits.take n ++ List.replicate (n - b.size) v := by
  obtain ⟨c, h1, h2, h3, h4⟩ := resize_eq h n v
  refine ⟨c, h1, h2, ?_⟩
  have hlen : b.blocks.length = (b.size + 63) / 64 := by rw [h, blockCount_eq]
  have hnb := blockCount_eq n
  apply List.ext_getElem
  · simp [h3]; omega
  · intro i hi1 hi2
    have hi : i < n := by simpa [h3] using hi1
    rw [bits_get, h4 i hi]
    by_cases hb : i < b.size
    · rw [if_pos hb, List.getElem_append_left (by simp; omega), List.getElem_take, bits_get]
    · rw [if_neg hb, if_neg ?_, List.getElem_append_right (by simp; omega), List.getElem_replicate]
      rcases hs with hs | hs | hs <;> omega

/-! ### Queries -/

theorem fullBlocks_eq {b : Bitset} (h : b.Wf) :
    b.fullBlocks = some (b.blocks.take (b.size / 64)) := by
  have hlen : b.blocks.length = (b.size + 63) / 64 := by rw [h, blockCount_eq]
  refine ListAux.mapM_range_eq_some _ _ _ (by simp [fullBlockCount]; omega) ?_
  intro i hi
  simp only [List.length_take] at hi
  rw [List.getElem_take, List.getElem?_eq_getElem (by omega)]

theorem partialBlock_eq {b : Bitset} (h : b.Wf) (hs : 0 < b.size) :
    ∃ x, b.partialBlock = some x ∧ ∀ j, j < 64 →
      x.getLsbD j = (decide (j < b.size % 64) && bitAt b.blocks (b.size / 64 * 64 + j)) := by
  have hlen : b.blocks.length = (b.size + 63) / 64 := by rw [h, blockCount_eq]
  have hne : b.blocks ≠ [] := by intro h0; simp [h0] at hlen; omega
  refine ⟨_, by rw [partialBlock, List.getLast?_eq_some_getLast hne]; rfl, ?_⟩
  intro j hj
  rw [BitVec.getLsbD_and, partialBlockMask, partialBlockSize, getLsbD_mask _ _ (by omega) hj]
  by_cases hlt : j < b.size % 64
  · have e1 : (b.size / 64 * 64 + j) / 64 = b.blocks.length - 1 := by omega
    have e2 : (b.size / 64 * 64 + j) % 64 = j := by omega
    simp only [hlt, decide_true, Bool.and_true, Bool.true_and, bitAt, e1, e2, List.getD]
    rw [List.getElem?_eq_getElem (by omega), List.getLast_eq_getElem]
    rfl
  · simp [hlt]

theorem range_split (q r : Nat) :
    List.range (q * 64 + r) = (List.range (q * 64)) ++ (List.range r).map (q * 64 + ·) := by
  exact List.range_add

theorem range_mul_succ (q : Nat) :
    List.range ((q + 1) * 64) = (List.range (q * 64)) ++ (List.range 64).map (q * 64 + ·) := by
  rw [← range_split]; congr 1; omega

theorem bitAt_block (bs : List (BitVec 64)) (q j : Nat) (hj : j < 64) :
    bitAt bs (q * 64 + j) = (bs.getD q 0#64).getLsbD j := by
  unfold bitAt
  rw [show (q * 64 + j) / 64 = q by omega, show (q * 64 + j) % 64 = j by omega]

theorem count_full (bs : List (BitVec 64)) (q : Nat) (hq : q ≤ bs.length) :
    (bs.take q).foldl (fun c blk => c + popcount64 blk) 0 =
      (List.range (q * 64)).countP (bitAt bs) := by
  induction q with
  | zero => simp
  | succ q ih =>
    have hlt : q < bs.length := by omega
    rw [List.take_add_one, List.getElem?_eq_getElem hlt, Option.toList_some, List.foldl_append,
      ih (by omega), range_mul_succ, List.countP_append, List.countP_map]
    simp only [List.foldl_cons, List.foldl_nil, popcount64]
    congr 1
    apply List.countP_congr
    intro j hj
    simp only [List.mem_range] at hj
    simp only [Function.comp]
    rw [bitAt_block _ _ _ hj, List.getD, List.getElem?_eq_getElem hlt]
    rfl

theorem countP_range_and (p : Nat → Bool) (n r : Nat) (h : r ≤ n) :
    (List.range n).countP (fun j => decide (j < r) && p j) = (List.range r).countP p := by
  obtain ⟨k, rfl⟩ : ∃ k, n = r + k := ⟨n - r, by omega⟩
  rw [List.range_add, List.countP_append, List.countP_map]
  have h1 : (List.range r).countP (fun j => decide (j < r) && p j) = (List.range r).countP p := by
    apply List.countP_congr
    intro j hj; simp only [List.mem_range] at hj; simp [hj]
  have h2 : (List.range k).countP ((fun j => decide (j < r) && p j) ∘ fun x => r + x) = 0 := by
    rw [List.countP_eq_zero]; intro j _; simp; omega
  omega

theorem popcount_eq {b : Bitset} (h : b.Wf) (hs : 0 < b.size) :
    b.popcount = some (b.bits.count true) := by
  obtain ⟨x, hx, hxb⟩ := partialBlock_eq h hs
  have hlen : b.blocks.length = (b.size + 63) / 64 := by rw [h, blockCount_eq]
  unfold popcount
  rw [fullBlocks_eq h, hx]
  simp only [Option.bind_eq_bind, Option.bind_some, Option.pure_def]
  congr 1
  rw [count_full _ _ (by omega)]
  have hp : popcount64 x = (List.range (b.size % 64)).countP (bitAt b.blocks ∘ (b.size / 64 * 64 + ·)) := by
    unfold popcount64
    rw [← countP_range_and _ 64 (b.size % 64) (by omega)]
    apply List.countP_congr
    intro j hj; simp only [List.mem_range] at hj
    rw [hxb j hj]; rfl
  rw [hp, ← List.countP_map, ← List.countP_append, ← range_split]
  rw [show b.size / 64 * 64 + b.size % 64 = b.size by omega]
  rw [bits, List.count, List.countP_map]
  apply List.countP_congr
  intro j _; simp

theorem ne_zero_iff (x : BitVec 64) : (x ≠ 0#64) ↔ ∃ j, j < 64 ∧ x.getLsbD j = true := by
  constructor
  · intro h
    apply Classical.byContradiction
    intro hc
    apply h
    apply BitVec.eq_of_getLsbD_eq
    intro i hi
    cases e : x.getLsbD i
    · simp
    · exact absurd ⟨i, hi, e⟩ hc
  · rintro ⟨j, _, h⟩ rfl
    simp at h

theorem ne_ones_iff (x : BitVec 64) :
    (x ≠ BitVec.allOnes 64) ↔ ∃ j, j < 64 ∧ x.getLsbD j = false := by
  constructor
  · intro h
    apply Classical.byContradiction
    intro hc
    apply h
    apply BitVec.eq_of_getLsbD_eq
    intro i hi
    cases e : x.getLsbD i
    · exact absurd ⟨i, hi, e⟩ hc
    · exact (getLsbD_ones i hi).symm
  · rintro ⟨j, hj, h⟩ rfl
    rw [getLsbD_ones j hj] at h; cases h

theorem exists_full (bs : List (BitVec 64)) (q : Nat) (hq : q ≤ bs.length) (v : Bool)
    (P : BitVec 64 → Prop) (hP : ∀ x, P x ↔ ∃ j, j < 64 ∧ x.getLsbD j = v) :
    (∃ x ∈ bs.take q, P x) ↔ ∃ i, i < q * 64 ∧ bitAt bs i = v := by
  constructor
  · rintro ⟨x, hx, hpx⟩
    obtain ⟨k, hk, rfl⟩ := List.getElem_of_mem hx
    obtain ⟨j, hj, hb⟩ := (hP _).1 hpx
    simp only [List.length_take] at hk
    refine ⟨k * 64 + j, by omega, ?_⟩
    rw [bitAt_block _ _ _ hj, List.getD, List.getElem?_eq_getElem (by omega)]
    simpa using hb
  · rintro ⟨i, hi, hb⟩
    have hk : i / 64 < bs.length := by omega
    have hk' : i / 64 < (bs.take q).length := by simp; omega
    refine ⟨(bs.take q)[i / 64], List.getElem_mem _, (hP _).2 ⟨i % 64, by omega, ?_⟩⟩
    rw [List.getElem_take]
    rw [← hb]; simp [bitAt, List.getD, hk]

theorem anySet_eq {b : Bitset} (h : b.Wf) (hs : 0 < b.size) :
    b.anySet = some (b.bits.any id) := by
  obtain ⟨x, hx, hxb⟩ := partialBlock_eq h hs
  have hlen : b.blocks.length = (b.size + 63) / 64 := by rw [h, blockCount_eq]
  have hfull := exists_full b.blocks (b.size / 64) (by omega) true (· ≠ 0#64) ne_zero_iff
  have hany : b.bits.any id = true ↔ ∃ i, i < b.size ∧ bitAt b.blocks i = true := by
    simp [bits]
  unfold anySet
  rw [fullBlocks_eq h, hx]
  simp only [Option.bind_eq_bind, Option.bind_some, Option.pure_def]
  split
  · rename_i ht
    have : ∃ i, i < b.size / 64 * 64 ∧ bitAt b.blocks i = true := by
      rw [← hfull]; simpa using ht
    obtain ⟨i, hi, hb⟩ := this
    rw [hany.2 ⟨i, by omega, hb⟩]
  · rename_i hf
    congr 1
    rw [Bool.eq_iff_iff, hany, bne_iff_ne, ne_zero_iff]
    constructor
    · rintro ⟨j, hj, hb⟩
      rw [hxb j hj] at hb
      simp at hb
      exact ⟨_, by omega, hb.2⟩
    · rintro ⟨i, hi, hb⟩
      have : ¬ i < b.size / 64 * 64 := by
        intro hlt
        apply hf
        have := hfull.2 ⟨i, hlt, hb⟩
        simpa using this
      refine ⟨i - b.size / 64 * 64, by omega, ?_⟩
      rw [hxb _ (by omega), show b.size / 64 * 64 + (i - b.size / 64 * 64) = i by omega, hb]
      simp; omega

theorem allSet_eq {b : Bitset} (h : b.Wf) (hs : 0 < b.size) :
    b.allSet = some (b.bits.all id) := by
  obtain ⟨x, hx, hxb⟩ := partialBlock_eq h hs
  have hlen : b.blocks.length = (b.size + 63) / 64 := by rw [h, blockCount_eq]
  have hfull := exists_full b.blocks (b.size / 64) (by omega) false (· ≠ BitVec.allOnes 64) ne_ones_iff
  have hall : b.bits.all id = true ↔ ∀ i, i < b.size → bitAt b.blocks i = true := by
    simp [bits]
  unfold allSet
  rw [fullBlocks_eq h, hx]
  simp only [Option.bind_eq_bind, Option.bind_some, Option.pure_def]
  split
  · rename_i ht
    have : ∃ i, i < b.size / 64 * 64 ∧ bitAt b.blocks i = false := by
      rw [← hfull]; simpa using ht
    obtain ⟨i, hi, hb⟩ := this
    congr 1
    symm
    rw [Bool.eq_false_iff]
    intro hc
    rw [hall.1 hc i (by omega)] at hb
    cases hb
  · rename_i hf
    congr 1
    rw [Bool.eq_iff_iff, hall, beq_iff_eq]
    have hp : popcount64 x = (List.range (b.size % 64)).countP (bitAt b.blocks ∘ (b.size / 64 * 64 + ·)) := by
      unfold popcount64
      rw [← countP_range_and _ 64 (b.size % 64) (by omega)]
      apply List.countP_congr
      intro j hj; simp only [List.mem_range] at hj
      rw [hxb j hj]; rfl
    have hp2 : popcount64 x = b.partialBlockSize ↔
        ∀ j, j < b.size % 64 → bitAt b.blocks (b.size / 64 * 64 + j) = true := by
      rw [hp, partialBlockSize]
      have := List.countP_eq_length (p := bitAt b.blocks ∘ (b.size / 64 * 64 + ·)) (l := List.range (b.size % 64))
      simp only [List.length_range, List.mem_range] at this
      exact this
    rw [hp2]
    constructor
    · intro hj i hi
      by_cases hlt : i < b.size / 64 * 64
      · cases e : bitAt b.blocks i
        · exact absurd (by simpa using hfull.2 ⟨i, hlt, e⟩) hf
        · rfl
      · have := hj (i - b.size / 64 * 64) (by omega)
        rwa [show b.size / 64 * 64 + (i - b.size / 64 * 64) = i by omega] at this
    · intro hi j hj
      exact hi _ (by omega)

theorem findLoop_spec (skip : BitVec 64) (cnt : BitVec 64 → Nat) (size : Nat) (v : Bool)
    (hskip : ∀ x, x = skip ↔ ∀ j, j < 64 → x.getLsbD j = !v)
    (hcnt : ∀ x, x ≠ skip → cnt x < 64 ∧ x.getLsbD (cnt x) = v ∧ ∀ j, j < cnt x → x.getLsbD j = !v) :
    ∀ (suf pre : List (BitVec 64)), size ≤ (pre ++ suf).length * 64 →
      (∀ i, i < pre.length * 64 → bitAt (pre ++ suf) i = !v) →
      findLoop skip cnt size pre.length suf ≤ size ∧
      (∀ i, i < findLoop skip cnt size pre.length suf → bitAt (pre ++ suf) i = !v) ∧
      (findLoop skip cnt size pre.length suf < size →
        bitAt (pre ++ suf) (findLoop skip cnt size pre.length suf) = v)
  | [], pre, hsz, hpre => by
      simp only [findLoop]
      refine ⟨Nat.le_refl _, ?_, fun h => absurd h (Nat.lt_irrefl _)⟩
      intro i hi
      exact hpre i (by simp at hsz; omega)
  | x :: suf, pre, hsz, hpre => by
      have hx : ∀ j, j < 64 → bitAt (pre ++ x :: suf) (pre.length * 64 + j) = x.getLsbD j := by
        intro j hj
        rw [bitAt_block _ _ _ hj]
        simp [List.getD]
      simp only [findLoop]
      split
      · rename_i he
        have := findLoop_spec skip cnt size v hskip hcnt suf (pre ++ [x]) (by simpa using hsz) (by
          intro i hi
          simp only [List.length_append, List.length_singleton] at hi
          rw [List.append_assoc]
          by_cases hlt : i < pre.length * 64
          · exact hpre i hlt
          · have := hx (i - pre.length * 64) (by omega)
            rw [show pre.length * 64 + (i - pre.length * 64) = i by omega] at this
            simp only [List.singleton_append]
            rw [this]
            exact (hskip x).1 he _ (by omega))
        simpa using this
      · rename_i hne
        obtain ⟨h1, h2, h3⟩ := hcnt x hne
        refine ⟨Nat.min_le_left _ _, ?_, ?_⟩
        · intro i hi
          by_cases hlt : i < pre.length * 64
          · exact hpre i hlt
          · have := hx (i - pre.length * 64) (by omega)
            rw [show pre.length * 64 + (i - pre.length * 64) = i by omega] at this
            rw [this]
            exact h3 _ (by omega)
        · intro hlt
          rw [show min size (pre.length * 64 + cnt x) = pre.length * 64 + cnt x by omega]
          rw [hx _ h1, h2]

theorem findIdx_range_spec (p : Nat → Bool) (n : Nat) (h : ∃ j, j < n ∧ p j = true) :
    (List.range n).findIdx p < n ∧ p ((List.range n).findIdx p) = true ∧
      ∀ j, j < (List.range n).findIdx p → p j = false := by
  have hlt : (List.range n).findIdx p < (List.range n).length := by
    rw [List.findIdx_lt_length]
    obtain ⟨j, hj, hp⟩ := h
    exact ⟨j, by simpa using hj, hp⟩
  refine ⟨by simpa using hlt, ?_, ?_⟩
  · have := List.findIdx_getElem (w := hlt)
    simpa using this
  · intro j hj
    have := List.not_of_lt_findIdx hj
    simpa using this

theorem findIdx_eq_of_spec (b : Bitset) (v : Bool) (n : Nat) (h1 : n ≤ b.size)
    (h2 : ∀ i, i < n → bitAt b.blocks i = !v) (h3 : n < b.size → bitAt b.blocks n = v) :
    n = b.bits.findIdx (· == v) := by
  by_cases hn : n < b.size
  · symm
    rw [List.findIdx_eq (h := by simpa using hn)]
    refine ⟨by rw [bits_get, h3 hn]; simp, ?_⟩
    intro j hj
    rw [bits_get, h2 j hj]; cases v <;> rfl
  · have : n = b.size := by omega
    subst this
    symm
    have := List.findIdx_eq_length (p := (· == v)) (xs := b.bits)
    rw [length_bits] at this
    rw [this]
    intro x hx
    obtain ⟨i, hi, rfl⟩ := List.getElem_of_mem hx
    rw [bits_get, h2 i (by simpa using hi)]; cases v <;> rfl

theorem findFirst_eq {b : Bitset} (h : b.Wf) (v : Bool) :
    b.findFirst v = b.bits.findIdx (· == v) := by
  have hlen : b.blocks.length = (b.size + 63) / 64 := by rw [h, blockCount_eq]
  unfold findFirst
  cases v
  · simp only [Bool.false_eq_true, if_false]
    have := findLoop_spec (BitVec.allOnes 64) countrOne b.size false (by
        intro x
        constructor
        · rintro rfl j hj; exact getLsbD_ones j hj
        · intro hx
          apply Classical.byContradiction
          intro hc
          obtain ⟨j, hj, hb⟩ := (ne_ones_iff x).1 hc
          rw [hx j hj] at hb; cases hb) (by
        intro x hx
        have := findIdx_range_spec (fun i => !x.getLsbD i) 64 (by
          obtain ⟨j, hj, hb⟩ := (ne_ones_iff x).1 hx
          exact ⟨j, hj, by simp [hb]⟩)
        refine ⟨this.1, by have := this.2.1; simpa [countrOne] using this, ?_⟩
        intro j hj
        simpa using this.2.2 j hj) b.blocks [] (by simp; omega) (by simp)
    simp only [List.nil_append, List.length_nil] at this
    exact findIdx_eq_of_spec b false _ this.1 this.2.1 this.2.2
  · simp only [if_true]
    have := findLoop_spec 0#64 countrZero b.size true (by
        intro x
        constructor
        · rintro rfl j hj; simp
        · intro hx
          apply Classical.byContradiction
          intro hc
          obtain ⟨j, hj, hb⟩ := (ne_zero_iff x).1 hc
          rw [hx j hj] at hb; cases hb) (by
        intro x hx
        have := findIdx_range_spec (fun i => x.getLsbD i) 64 ((ne_zero_iff x).1 hx)
        refine ⟨this.1, this.2.1, ?_⟩
        intro j hj
        simpa using this.2.2 j hj) b.blocks [] (by simp; omega) (by simp)
    simp only [List.nil_append, List.length_nil] at this
    exact findIdx_eq_of_spec b true _ this.1 this.2.1 this.2.2

theorem take_blocks_eq_iff {l r : List (BitVec 64)} (q : Nat) (hl : q ≤ l.length) (hr : q ≤ r.length) :
    l.take q = r.take q ↔ ∀ i, i < q * 64 → bitAt l i = bitAt r i := by
  constructor
  · intro e i hi
    have : (l.take q)[i / 64]? = (r.take q)[i / 64]? := by rw [e]
    rw [List.getElem?_take_of_lt (by omega), List.getElem?_take_of_lt (by omega)] at this
    simp [bitAt, List.getD, this]
  · intro hb
    apply List.ext_getElem
    · simp; omega
    · intro i h1 h2
      simp only [List.length_take] at h1 h2
      rw [List.getElem_take, List.getElem_take]
      apply BitVec.eq_of_getLsbD_eq
      intro j hj
      have := hb (i * 64 + j) (by omega)
      rw [bitAt_block _ _ _ hj, bitAt_block _ _ _ hj, List.getD, List.getD,
        List.getElem?_eq_getElem (by omega), List.getElem?_eq_getElem (by omega)] at this
      simpa using this

theorem eq_eq {l r : Bitset} (hl : l.Wf) (hr : r.Wf) (hs : 0 < l.size) :
    l.eq r = some (decide (l.bits = r.bits)) := by
  unfold eq
  split
  · rename_i hne
    congr 1
    symm
    rw [decide_eq_false_iff_not]
    intro e
    apply hne
    have := congrArg List.length e
    simpa using this
  · rename_i hsz
    have hsz : l.size = r.size := by omega
    have hfr : (List.range l.fullBlockCount).mapM (fun i => r.blocks[i]?) =
        some (r.blocks.take (r.size / 64)) := by
      have := fullBlocks_eq hr
      rw [fullBlocks] at this
      rw [← this]; simp [fullBlockCount, hsz]
    have hlen : l.blocks.length = (l.size + 63) / 64 := by rw [hl, blockCount_eq]
    have hlen' : r.blocks.length = (r.size + 63) / 64 := by rw [hr, blockCount_eq]
    obtain ⟨x, hx, hxb⟩ := partialBlock_eq hl hs
    obtain ⟨y, hy, hyb⟩ := partialBlock_eq hr (by omega)
    rw [fullBlocks_eq hl, hfr, hx, hy]
    simp only [Option.bind_eq_bind, Option.bind_some, Option.pure_def]
    have hbits : l.bits = r.bits ↔ ∀ i, i < l.size → bitAt l.blocks i = bitAt r.blocks i := by
      simp only [bits, ← hsz]
      rw [List.map_inj_left]
      simp
    have hfull := take_blocks_eq_iff (l := l.blocks) (r := r.blocks) (l.size / 64) (by omega) (by omega)
    rw [← hsz]
    split
    · rename_i hne
      congr 1
      symm
      rw [decide_eq_false_iff_not, hbits]
      intro hall
      exact hne (hfull.2 (fun i hi => hall i (by omega)))
    · rename_i heq
      have heq := hfull.1 (Classical.byContradiction fun hc => heq hc)
      congr 1
      rw [Bool.eq_iff_iff, decide_eq_true_iff, beq_iff_eq, hbits]
      constructor
      · rintro rfl i hi
        by_cases hlt : i < l.size / 64 * 64
        · exact heq i hlt
        · have e1 := hxb (i - l.size / 64 * 64) (by omega)
          have e2 := hyb (i - l.size / 64 * 64) (by omega)
          rw [← hsz] at e2
          rw [show l.size / 64 * 64 + (i - l.size / 64 * 64) = i by omega] at e1 e2
          have hlt2 : i - l.size / 64 * 64 < l.size % 64 := by omega
          simp only [hlt2, decide_true, Bool.true_and] at e1 e2
          rw [← e1, ← e2]
      · intro hall
        apply BitVec.eq_of_getLsbD_eq
        intro j hj
        rw [hxb j hj, hyb j hj, ← hsz]
        by_cases hlt : j < l.size % 64
        · rw [hall _ (by omega)]
        · simp [hlt]

theorem any_id_eq (xs : List Bool) : xs.any id = decide (true ∈ xs) := by
  induction xs with
  | nil => rfl
  | cons x xs ih => cases x <;> simp_all

theorem all_id_eq (xs : List Bool) : xs.all id = decide (false ∉ xs) := by
  induction xs with
  | nil => rfl
  | cons x xs ih => cases x <;> simp_all

/-! ### Histories -/

theorem step_refines {b : Bitset} (h : b.Wf) (op : Op)
    (hs : match op with | .resize n _ => Spec.Bits.SafeResize b.size n | _ => True) :
    (b.step op = none ∧ Spec.Bits.step b.bits op = none) ∨
    ∃ c, b.step op = some c ∧ c.Wf ∧ Spec.Bits.step b.bits op = some c.bits := by
  cases op with
  | assign i v =>
    rcases assign_eq h i v with ⟨h1, h2⟩ | ⟨h1, c, h2, h3, h4⟩
    · left; exact ⟨h2, by simp [Spec.Bits.step, h1]⟩
    · right; refine ⟨c, h2, h3, ?_⟩
      rw [Spec.Bits.step, if_pos h1, h4]
  | flip i =>
    rcases flip_eq h i with ⟨h1, h2⟩ | ⟨h1, c, h2, h3, h4⟩
    · left; refine ⟨h2, ?_⟩
      rw [Spec.Bits.step, List.getElem?_eq_none (by simp; omega)]; rfl
    · right; refine ⟨c, h2, h3, ?_⟩
      rw [Spec.Bits.step, List.getElem?_eq_getElem h1, h4]; rfl
  | fill v => right; exact ⟨_, rfl, (fill_eq h v).1, by rw [(fill_eq h v).2]; rfl⟩
  | clear =>
    right; refine ⟨_, rfl, by simp [Wf, clear, blockCount], ?_⟩
    simp [Spec.Bits.step, bits, clear]
  | complement => right; exact ⟨_, rfl, (complement_eq h).1, by rw [(complement_eq h).2]; rfl⟩
  | resize n v =>
    right
    obtain ⟨c, h1, h2, h3⟩ := resize_safe h n v hs
    exact ⟨c, h1, h2, by rw [h3]; simp [Spec.Bits.step]⟩

theorem run_refines (ops : List Op) : ∀ {b : Bitset}, b.Wf → Spec.Bits.SafeHistory b.bits ops →
    (b.run ops = none ∧ Spec.Bits.run b.bits ops = none) ∨
    ∃ c, b.run ops = some c ∧ c.Wf ∧ Spec.Bits.run b.bits ops = some c.bits := by
  induction ops with
  | nil => intro b h _; right; exact ⟨b, rfl, h, rfl⟩
  | cons op ops ih =>
    intro b h hs
    rcases step_refines h op (by have := hs.1; cases op <;> simp_all) with ⟨h1, h2⟩ | ⟨c, h1, h2, h3⟩
    · left; simp [run, Spec.Bits.run, h1, h2, List.foldlM_cons]
    · have := ih h2 (hs.2 _ h3)
      simpa [run, Spec.Bits.run, List.foldlM_cons, h1, h3] using this

/-- The structural invariant holds after every history, whether or not its resizes are safe. -/
theorem step_wf {b c : Bitset} (h : b.Wf) (op : Op) (hs : b.step op = some c) : c.Wf := by
  cases op with
  | resize n v =>
    obtain ⟨c', h1, h2, -, -⟩ := resize_eq h n v
    simp only [step] at hs
    rw [h1] at hs; cases hs; exact h2
  | assign i v =>
    rcases step_refines h (.assign i v) trivial with ⟨h1, h2⟩ | ⟨c', h1, h2, h3⟩ <;>
      (rw [hs] at h1; cases h1); exact h2
  | flip i =>
    rcases step_refines h (.flip i) trivial with ⟨h1, h2⟩ | ⟨c', h1, h2, h3⟩ <;>
      (rw [hs] at h1; cases h1); exact h2
  | fill v => cases hs; exact (fill_eq h v).1
  | clear => cases hs; simp [Wf, clear, blockCount]
  | complement => cases hs; exact (complement_eq h).1

theorem run_wf (ops : List Op) : ∀ {b c : Bitset}, b.Wf → b.run ops = some c → c.Wf := by
  induction ops with
  | nil => intro b c h hr; cases hr; exact h
  | cons op ops ih =>
    intro b c h hr
    simp only [run, List.foldlM_cons] at hr
    cases hst : b.step op with
    | none => simp [hst] at hr
    | some d =>
      simp only [hst] at hr
      exact ih (step_wf h op hst) hr

end Gapp.Model.Bitset
