import Verif.Props.Nsga3
/-! # The initialization of NSGA-III forgets earlier runs -/

namespace Gapp.Model
open Gapp.Spec Gapp.Props

variable {K : Type} [Field K] [LinearOrder K] [IsStrictOrderedRing K]

omit [IsStrictOrderedRing K] in
theorem associatePopWithRefs_points (lines : List (List K)) (ideal : List K) (extreme fmat : List (List K)) (els : List (Nat × Nat)) (info info' : List (CandInfo K)) (niche niche' : List Nat)
    (nadir nadir' : List K) (s s' : Nsga3 K) (h : associatePopWithRefs ⟨lines, info, niche, ideal, nadir, extreme⟩ fmat els = some s)
    (h' : associatePopWithRefs ⟨lines, info', niche', ideal, nadir', extreme⟩ fmat els = some s') : s'.ideal = s.ideal ∧ s'.extreme = s.extreme ∧ s'.nadir = s.nadir := by
  unfold associatePopWithRefs at h h'
  split at h
  swap
  · cases h
  rename_i hc
  rw [if_pos (show fmat.length > 0 ∧ lines ≠ [] from hc)] at h'
  simp only [Option.bind_eq_bind] at h h'
  rw [Option.bind_eq_some_iff] at h h'
  obtain ⟨i, hi, h⟩ := h
  obtain ⟨i', hi', h'⟩ := h'
  rw [hi] at hi'; cases hi'
  rw [Option.bind_eq_some_iff] at h h'
  obtain ⟨x, hx, h⟩ := h
  obtain ⟨x', hx', h'⟩ := h'
  rw [hx] at hx'; cases hx'
  rw [Option.bind_eq_some_iff] at h h'
  obtain ⟨n, hn, h⟩ := h
  obtain ⟨n', hn', h'⟩ := h'
  rw [hn] at hn'; cases hn'
  rw [Option.bind_eq_some_iff] at h h'
  obtain ⟨_, _, h⟩ := h
  obtain ⟨_, _, h'⟩ := h'
  obtain rfl := Option.some.inj h
  obtain rfl := Option.some.inj h'
  exact ⟨rfl, rfl, rfl⟩

theorem nsga3Init_prev (m : Nat) (hm0 : 0 < m) (refLines : List (List K)) (hl : IsMatrix m refLines) (hne : refLines ≠ []) (nadir nadir' : List K) (info info' : List (CandInfo K))
    (niche niche' : List Nat) (fmat : List (List K)) (hm : IsMatrix m fmat) (hf : fmat ≠ []) (els : List (Nat × Nat)) (hp : (els.map (·.1)).Perm (List.range fmat.length)) :
    nsga3Init refLines nadir info niche fmat els = nsga3Init refLines nadir' info' niche' fmat els := by
  have hnd : (els.map (·.1)).Nodup := hp.nodup_iff.mpr List.nodup_range
  have hb : ∀ e ∈ els, e.1 < fmat.length := fun e he => by simpa using hp.mem_iff.mp (List.mem_map.mpr ⟨e, he, rfl⟩)
  have hpos : ∀ i, i < fmat.length → ∃ e ∈ els, e.1 = i := by
    intro i hi
    obtain ⟨e, he, rfl⟩ := List.mem_map.mp (hp.mem_iff.mpr (by simpa using hi : i ∈ List.range fmat.length))
    exact ⟨e, he, rfl⟩
  obtain ⟨ideal, hi1, hi2, -⟩ := C52_max m fmat hm hf
  -- one of the runs
  have run : ∀ (nadir : List K) (info : List (CandInfo K)) (niche : List Nat), ∃ (info1 : List (CandInfo K)) (s : Nsga3 K),
      storeRanks (resizeInfo info fmat.length) els = some info1 ∧
      associatePopWithRefs ⟨refLines, info1, niche.take refLines.length ++ List.replicate (refLines.length - niche.length) 0, ideal, nadir, []⟩ fmat els = some s ∧
      s.refLines = refLines ∧ s.nicheCounts.length = refLines.length ∧ s.info.length = fmat.length ∧
      ∀ e ∈ els, ∃ row i d, fmat[e.1]? = some row ∧ associateOne refLines s.ideal s.nadir row = some (i, d) ∧ s.info[e.1]? = some ⟨e.2, i, d⟩ := by
    intro nadir info niche
    obtain ⟨info', hj1, hj2, hj3⟩ := storeRanks_spec (resizeInfo info fmat.length) els hnd (fun e he => by rw [resizeInfo_length]; exact hb e he)
    rw [resizeInfo_length] at hj2
    obtain ⟨s, ha1, ha2, ha3, ha4, ha5, ha6, ha7, ha8, -⟩ := associatePopWithRefs_spec m hm0
      ⟨refLines, info', niche.take refLines.length ++ List.replicate (refLines.length - niche.length) 0, ideal, nadir, []⟩
      ⟨hl, hne, (by show (List.take refLines.length niche ++ List.replicate (refLines.length - niche.length) 0).length = refLines.length
                    rw [List.length_append, List.length_take, List.length_replicate]; omega), hi2, by intro r hr; simp at hr⟩ fmat hm hf hj2 els hnd hb
    refine ⟨info', s, hj1, ha1, ha3, by rw [ha2.niche, ha3], ha5, ?_⟩
    intro e he
    obtain ⟨row, i, d, h1, h2, h3⟩ := ha8 e he
    have h4 := hj3 e he
    rw [List.getElem?_eq_getElem (l := resizeInfo info fmat.length) (by rw [resizeInfo_length]; exact hb e he)] at h4
    refine ⟨row, i, d, h1, h2, ?_⟩
    rw [h3]; show (info'[e.1]?).map _ = _; rw [h4]; rfl
  obtain ⟨i1, s, a1, a2, a3, a4, a5, a6⟩ := run nadir info niche
  obtain ⟨i2, s', b1, b2, b3, b4, b5, b6⟩ := run nadir' info' niche'
  obtain ⟨e1, e2, e3⟩ := associatePopWithRefs_points _ _ _ _ _ _ _ _ _ _ _ _ _ a2 b2
  have einfo : s'.info = s.info := by
    apply List.ext_getElem?
    intro i
    by_cases hi : i < fmat.length
    · obtain ⟨e, he, rfl⟩ := hpos i hi
      obtain ⟨row, j, d, h1, h2, h3⟩ := a6 e he
      obtain ⟨row', j', d', h1', h2', h3'⟩ := b6 e he
      rw [h1] at h1'
      cases h1'
      rw [e1, e3, h2] at h2'
      cases h2'
      rw [h3, h3']
    · rw [List.getElem?_eq_none (by omega), List.getElem?_eq_none (by omega)]
  have eniche : recalcNicheCounts s'.info s'.nicheCounts els = recalcNicheCounts s.info s.nicheCounts els := by
    unfold recalcNicheCounts
    rw [einfo, a4, b4]
  unfold nsga3Init
  simp only [hi1, a1, b1, a2, b2, Option.bind_eq_bind, Option.bind_some]
  rw [eniche]
  congr 1
  funext n
  rw [← a3] at b3
  cases s; cases s'
  simp only at e1 e2 e3 einfo b3
  subst e1 e2 e3 einfo b3
  rfl

end Gapp.Model
