import Verif.Props.Energy
import Verif.Props.NadirRow

/-!
# No energy balance at nadir with interaction term (C74)
-/

namespace RT1

noncomputable section
open Classical

/-- Incidence from nadir on a canopy, with interaction term: the totals that `calc` returns
are nan in all directions, there is no balance to speak of (whatever the scattering functions). -/
theorem C74_nadir_negation {c : Cfg} (hq : c.intQ = true) {x : Site} (h0 : x.t0 = 0) (hτ : 0 < x.tau) {md : Mode}
    {nV nS : ℕ} (hV : c.V.ncoefs = .ok (nV + 1)) (hS : c.SRF.ncoefs = .ok (nS + 1)) {J : ℝ → ℝ → XR}
    (hJ : AllDirs fun t p => ObservesRowP 0 c md (x.toward t p) (J t p)) : AllDirs fun t p => J t p = XR.nan := by
  intro t ht p hp
  have e : (x.toward t p).mu0 = 1 := by
    show Real.cos x.t0 = 1
    rw [h0, Real.cos_zero]
  have hc : 0 < Real.cos t := Real.cos_pos_of_mem_Ioo ⟨by linarith [ht.1, Real.pi_pos], ht.2⟩
  exact C38_calc_nadir (hJ t ht p hp) (.inl rfl) hq hV hS (by rw [e]; exact one_pos) hc hτ (.inl e)

example : ∃ J : ℝ → ℝ → XR, (AllDirs fun t p => ObservesRowP 0 ⟨isoV, isoS, true, true, false⟩ ⟨false, []⟩
    (nadirSite.toward t p) (J t p)) ∧ nadirSite.t0 = 0 ∧ 0 < nadirSite.tau ∧ nadirSite.Passive 1 := by
  have key : ∀ t p, ∃ v : XR, ObservesRowP 0 ⟨isoV, isoS, true, true, false⟩ ⟨false, []⟩ (nadirSite.toward t p) v := fun t p =>
    scalar_total .sympy true true false (Site.toward_reports nadirSite_reports t p) isoV_plain isoS_plain
      (fun _ => iso_fnCoefs) (fun _ => ⟨0, isoV_ncoefs⟩) (fun _ => ⟨0, isoS_ncoefs⟩)
  choose J hJ using key
  exact ⟨J, fun t _ p _ => hJ t p, rfl, by simp [nadirSite], nadirSite_passive⟩

end

end RT1
