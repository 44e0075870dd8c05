import Verif.Lemmas.AnalyzeI

/-! Entries without canopy of two calls of `calc` whose parameters agree at an index. -/

namespace RT1

noncomputable section
open Classical

/-- The interaction entry of `calc` is zero where the optical depth is zero, if it is negative
nowhere and no direction is nadir. -/
theorem Parts.int_zero {b : Backend} {o : Obj} {T : List ℕ} {Is Iv Ii z : Arr} (P : Parts b o Is Iv Ii z)
    (hc : CompleteI b o T) (hg : o.geom.Named) {nV nS : ℕ} (hV : o.V.ncoefs = .ok (nV + 1))
    (hS : o.SRF.ncoefs = .ok (nS + 1)) (hz : z.shape = T ++ [4]) {site : List ℕ → Site}
    (hx : ∀ i, Arr.Valid T i → FSite b o i (site i) ∧ 0 < (site i).mu0 ∧ (site i).mu0 < 1 ∧ 0 < (site i).muEx ∧
      (site i).muEx < 1 ∧ 0 ≤ (site i).tau)
    {idx : List ℕ} (hv : Arr.Valid T idx) (h0 : (site idx).tau = 0) : Ii.get idx = XR.fin 0 := by
  obtain ⟨r1, -, r3, -⟩ := P.rows
  have e1 : Ii.shape = T := by
    rw [r3 hc.intQ]
    rw [hz] at r1
    exact (List.append_inj' r1 rfl).1.symm
  have e2 : Is.shape = T := by rw [← r3 hc.intQ, e1]
  obtain ⟨t, ht, hT⟩ := P.tau
  have hta : ∀ i, Arr.Valid T i → t.at' i = XR.fin (site i).tau := by
    intro i hi
    obtain ⟨t', h1, h2⟩ := (hx i hi).1.tau
    rw [ht] at h1; cases h1; exact h2
  by_cases hsc : t.shape = []
  · have hn : t.shape = [] ∧ ¬ (t.get []).isPos = true := by
      refine ⟨hsc, ?_⟩
      have : t.get [] = t.at' idx := by unfold Arr.at'; rw [hsc]; rfl
      rw [this, hta idx hv, h0]
      simp [XR.isPos]
    rw [if_pos hn] at hT
    rw [hT.2]; rfl
  · rw [if_neg fun h => hsc h.1] at hT
    obtain ⟨I, hI1, hI2⟩ := hT.2 hc.intQ
    rw [if_neg hsc] at hI2
    obtain ⟨f1, -, f3⟩ := fixNan_spec hI2
    have hshape : I.shape = T := by rw [← f1, e1]
    have hnan : ∀ i, Arr.Valid T i → (site i).tau = 0 → I.get i = XR.nan := by
      intro i hi h0
      obtain ⟨hs, c1, -, c3, -, c5⟩ := hx i hi
      have := interaction_nan hc.objOK hc.fnI hc.fneI hI1 hV hS hc.aligned hi.length.symm.le hs
        ⟨c1, c3, c5, .inr (.inr h0)⟩
      rwa [Arr.at'_valid (by rw [hshape]; exact hi)] at this
    refine f3 t ht (Below.interaction_tau ht _ hI1) (fun i hi => ?_) idx (by rw [hshape]; exact hv)
      (by rw [hnan idx hv h0]; rfl)
    rw [hshape] at hi
    rw [hta i hi]
    by_cases h0 : (site i).tau = 0
    · rw [hnan i hi h0, h0]
      simp [XR.isnan, XR.isZero]
    · obtain ⟨hs, c1, c2, c3, c4, c5⟩ := hx i hi
      have := interaction_at hc.objOK hc.fnI hc.fneI hg hI1 hV hS hc.aligned hi.length.symm.le hs
        ⟨c1, c2, c3, c4, lt_of_le_of_ne c5 (Ne.symm h0)⟩
      rw [Arr.at'_valid (by rw [hshape]; exact hi)] at this
      rw [this]
      simp [XR.isnan, XR.isZero, h0]

/-- Rows of two calls of `calc` whose parameters agree at an index, where the optical depth is
zero. -/
theorem AgreeAt.rowZ {b : Backend} {o : Obj} {d' : Dict} {idx : List ℕ} (h : AgreeAt o.params d' idx)
    {S S' : List ℕ} (hc : CompleteI b o S) (hc' : CompleteI b (o.withValues d') S') (hg : o.geom.Named)
    {z z' : Arr} (hz : Fresh.calcAll b o = .ok z) (hz' : Fresh.calcAll b (o.withValues d') = .ok z')
    (hs : z.shape = S ++ [4]) (hs' : z'.shape = S' ++ [4])
    (hv : Arr.Valid S idx) (hv' : Arr.Valid S' (Arr.bidx S' idx)) {site site' : List ℕ → Site}
    (hx : ∀ i, Arr.Valid S i → FSite b o i (site i) ∧ 0 < (site i).mu0 ∧ (site i).mu0 < 1 ∧ 0 < (site i).muEx ∧
      (site i).muEx < 1 ∧ 0 ≤ (site i).tau)
    (hx' : ∀ i, Arr.Valid S' i → FSite b (o.withValues d') i (site' i) ∧ 0 < (site' i).mu0 ∧ (site' i).mu0 < 1 ∧
      0 < (site' i).muEx ∧ (site' i).muEx < 1 ∧ 0 ≤ (site' i).tau)
    (h0 : (site' (Arr.bidx S' idx)).tau = 0) {k : ℕ} (hk : k < 4) :
    z.get (idx ++ [k]) = z'.get (Arr.bidx S' idx ++ [k]) := by
  obtain ⟨Is, Iv, Ii, P⟩ := calc_parts hz
  obtain ⟨Is', Iv', Ii', P'⟩ := calc_parts hz'
  obtain ⟨nV, hV⟩ := hc.V
  obtain ⟨nS, hSr⟩ := hc.SRF
  have hx0 := h.fsite hc.base hc'.base (hx' _ hv').1
  have e0 : (site idx).tau = 0 := by
    rw [← h0]
    exact ((hx idx hv).1.tau.unique hx0.tau)
  refine h.rowParts P P' hs hs' hv hv' (by rw [hc.intQ]; exact hk) fun _ _ => ?_
  rw [P.int_zero hc hg hV hSr hs hx hv e0, P'.int_zero hc' hg hV hSr hs' hx' hv' h0]

end

end RT1
