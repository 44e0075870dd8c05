import Verif.Props.IntRows

/-!
# The rows of `calc` at nadir (C38)
-/

namespace RT1

noncomputable section
open Classical in

/-- The interaction entry at nadir, for every canopy. -/
theorem RowP.int_nan {k : ℕ} {c : Cfg} {md : Mode} {x : Site} {r : XR} {idx : List ℕ} {b : Backend} {o : Obj}
    {Is Iv Ii z : Arr} {n : ℕ} (h : RowP k c md x r idx b o Is Iv Ii z n) (hq : o.intQ = true) {nV nS : ℕ}
    (hV : c.V.ncoefs = .ok (nV + 1)) (hS : c.SRF.ncoefs = .ok (nS + 1)) (hx : x.Degenerate) (hpos : 0 < x.tau) :
    Ii.get idx = XR.nan := by
  obtain ⟨t, ht1, ht2⟩ := h.info.parts.tau
  have hta := h.tau_at ht1
  have hn : ¬ (t.shape = [] ∧ ¬ (t.get []).isPos = true) := by
    rintro ⟨e1, e2⟩
    apply e2
    have : t.get [] = t.at' idx := by
      unfold Arr.at'
      rw [e1]
      cases idx <;> rfl
    rw [this, hta]
    simp [XR.isPos, hpos]
  rw [if_neg hn] at ht2
  obtain ⟨I, hI1, hI2⟩ := ht2.2 hq
  have hat := interaction_nan h.objOK h.geomOK.fnI h.geomOK.fneI hI1
    (by rw [h.V_eq]; exact hV) (by rw [h.SRF_eq]; exact hS) h.al h.len h.info.site hx
  have hvI := h.info.validI hq
  by_cases hs : t.shape = []
  · rw [if_pos hs] at hI2
    subst hI2
    rwa [Arr.at'_valid hvI] at hat
  · rw [if_neg hs] at hI2
    have hvI' : Arr.Valid I.shape idx := by rw [← (fixNan_spec hI2).1]; exact hvI
    rw [Arr.at'_valid hvI'] at hat
    unfold Acc.fixNan at hI2
    by_cases ha : I.anyNan
    · rw [if_pos ha] at hI2
      obtain ⟨t2, hp2, hr2⟩ := ok_bind hI2
      obtain ⟨c', hc, hr3⟩ := ok_bind hr2
      rw [liftPy_py] at hc
      have hp2 : Fresh.par b o .tau = .ok t2 := hp2
      rw [ht1] at hp2
      cases hp2
      have hI : Ii = if c' = true then Arr.nanToZero I else I := (Except.ok.inj hr3).symm
      unfold Arr.nanIffZero at hc
      rw [Arr.bshape_comm, Arr.bshape_eq_of_fits (Below.interaction_tau ht1 _ hI1)] at hc
      have hc := Except.ok.inj hc
      have : c' = false := by
        rw [← hc]
        refine decide_eq_false fun hall' => ?_
        have := hall' idx hvI'
        rw [Arr.at'_valid hvI', hat, hta] at this
        simp [XR.isnan, XR.isZero, hpos.ne'] at this
      rw [hI, this]
      exact hat
    · rw [if_neg ha] at hI2
      rw [← Except.ok.inj hI2]
      exact hat

/-- Nadir: the interaction contribution and the total that `calc` returns are nan for every canopy, in all
units and modes, whatever the shapes of the inputs and whatever is at the other indices. -/
theorem C38_calc_nadir {c : Cfg} {md : Mode} {x : Site} {k : ℕ} {r : XR} (h : ObservesRowP k c md x r)
    (hk : k = 0 ∨ k = 3) (hq : c.intQ = true) {nV nS : ℕ} (hV : c.V.ncoefs = .ok (nV + 1)) (hS : c.SRF.ncoefs = .ok (nS + 1))
    (h0 : 0 < x.mu0) (h1 : 0 < x.muEx) (ht : 0 < x.tau) (hn : x.mu0 = 1 ∨ x.muEx = 1) : r = XR.nan := by
  obtain ⟨w, id, kw, arr, w', idx, hw, hcall, hv, rfl, hs, o, ho, rfl, rfl, n, hal⟩ := h
  obtain ⟨Is, Iv, Ii, hpp, -, hrow⟩ := calc_rowP hw hcall ho hal
  have hr := hrow k idx x hv hs
  have e : o.intQ = true := hq
  have key := hr.int_nan e hV hS ⟨h0, h1, ht.le, by tauto⟩ ht
  rw [hr.info.val, key]
  have hv : rowVal o.intQ (Is.get idx) (Iv.get idx) XR.nan k = XR.nan := by
    rcases hk with rfl | rfl
    · simp only [rowVal, e, if_true]
      cases Is.get idx + Iv.get idx <;> rfl
    · rfl
  rw [hv, XSite.convert_nan]

/-- `calc` with `t_0=[pi/3, 0]`: nan for nadir only. -/
example : ∃ arr, CalcP ⟨hgV (1/4), hgS (1/3), true, false, false⟩ ⟨true, []⟩ arr [2]
      (fun idx => if idx = [0] then tauSite (Real.pi / 3) 1 else tauSite 0 1) ∧
    arr.get [1, 0] = XR.nan ∧ arr.get [1, 3] = XR.nan ∧ ∃ v, arr.get [0, 3] = XR.fin v := by
  obtain ⟨arr, hsh, h⟩ := wit_calc .sympy (1/4) (1/3) false false 2
    (fun idx => if idx = [0] then tauSite (Real.pi / 3) 1 else tauSite 0 1)
    fun idx _ => by split <;> exact tauSite_ok _ _
  have hrow : ∀ i < 2, ∀ k < 4, ObservesRowP k ⟨hgV (1/4), hgS (1/3), true, false, false⟩ ⟨true, []⟩
      (if [i] = [0] then tauSite (Real.pi / 3) 1 else tauSite 0 1) (arr.get [i, k]) := by
    intro i hi k hk
    exact h.row (idx := [i]) (by simp [Arr.Valid, hi]) (k := k) (by rw [hsh]; simp [Arr.Valid, hi, hk])
  refine ⟨arr, h, ?_, ?_, ?_⟩
  · exact C38_calc_nadir (hrow 1 (by norm_num) 0 (by norm_num)) (.inl rfl) rfl (hgV_ncoefs _) (hgS_ncoefs _)
      (by simp [tauSite, witSite, Site.mu0]) (by simp [tauSite, witSite, Site.muEx]) (by simp [tauSite])
      (.inl (by simp [tauSite, witSite, Site.mu0]))
  · exact C38_calc_nadir (hrow 1 (by norm_num) 3 (by norm_num)) (.inr rfl) rfl (hgV_ncoefs _) (hgS_ncoefs _)
      (by simp [tauSite, witSite, Site.mu0]) (by simp [tauSite, witSite, Site.muEx]) (by simp [tauSite])
      (.inl (by simp [tauSite, witSite, Site.mu0]))
  · have := hrow 0 (by norm_num) 3 (by norm_num)
    obtain ⟨g, -, hg⟩ := this.geom (hgV_ncoefs _) (hgS_ncoefs _)
      ⟨by simp [tauSite, witSite, Site.mu0], by simp [tauSite, witSite, Site.mu0]; norm_num,
       by simp [tauSite, witSite, Site.muEx], by simp [tauSite, witSite, Site.muEx]; norm_num, by simp [tauSite]⟩ (by simp)
    exact ⟨_, hg⟩

end

end RT1
