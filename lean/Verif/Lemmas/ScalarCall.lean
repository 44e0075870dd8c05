import Verif.Lemmas.Unique
import Verif.Lemmas.DemoInt
import Verif.Lemmas.IntRow

/-! The scalar evaluation: every input is a python number. -/

namespace RT1

noncomputable section
open Classical

theorem scalar_site_call (b : Backend) {V SRF : Scatter} (q s d : Bool) {x : Site} {mono : Bool}
    (fx : AngN → Bool)
    {l : List (String × ℝ)} (hx : mono = true → x.tex = x.t0 ∧ x.pex = x.p0 + Real.pi)
    (hr : x.Reports l)
    (hV : ∀ s ∈ V.phase.free, s ∈ ["theta_0", "theta_ex", "phi_0", "phi_ex"] ++ l.map Prod.fst)
    (hS : ∀ s ∈ SRF.phase.free, s ∈ ["theta_0", "theta_ex", "phi_0", "phi_ex"] ++ l.map Prod.fst) :
    (∃ arr w', surface 0 [] (scalarW b V SRF q s d x mono fx (scalarKw x l)) = (.ok arr, w') ∧
      arr.shape = [1] ∧ Observes RT1.surface ⟨V, SRF, q, s, d⟩ x (arr.get [0])) ∧
    (∃ arr w', volume 0 [] (scalarW b V SRF q s d x mono fx (scalarKw x l)) = (.ok arr, w') ∧
      arr.shape = [1] ∧ Observes RT1.volume ⟨V, SRF, q, s, d⟩ x (arr.get [0])) := by
  have hsc := scalar_scalar q s d fx hx hr hV hS
  have hg := scalar_geom V SRF q s d x mono fx (scalarKw x l)
  have hw := (scalarW_reachableP b V SRF q s d x mono fx (scalarKw x l)).reachable
  have ho := scalarW_obj b V SRF q s d x mono fx (scalarKw x l)
  have hb := scalarW_backend b V SRF q s d x mono fx (scalarKw x l)
  have hc := scalar_cfg V SRF q s d x mono fx (scalarKw x l)
  have hu := scalar_update V SRF q s d x mono fx (scalarKw x l)
  generalize scalarW b V SRF q s d x mono fx (scalarKw x l) = w at *
  generalize scalarObj V SRF q s d x mono fx (scalarKw x l) = o at *
  have hcp := hsc.complete
  have ha : Fresh.mu0 o = .ok (Arr.cos (arr1 x.t0)) := by
    unfold Fresh.mu0 Fresh.ang
    rw [hsc.t0]; rfl
  constructor
  · obtain ⟨y, hy, hfy⟩ := hcp.s_surface b (Fresh.dVol b o) (Fresh.dSrf b o)
    obtain ⟨z, hz, hfz⟩ := hcp.s_convert b (Fresh.dVol b o) (Fresh.dSrf b o) hfy
    have hF : Fresh.surface b o = .ok z := by
      unfold Fresh.surface Fresh.acc0
      rw [hy]
      exact hz
    have hfm := Below.surface_mu0 ha y hy
    have hzs := convert_shape hz ha hfm (by rw [hsc.I0]; simp [Arr.lit, Arr.num])
    have hsh : z.shape = [1] := by
      rw [hzs]
      exact Arr.Fits.antisymm hfy hfm
    have hF' : Fresh.surface w.backend (Fresh.update o []) = .ok z := by rw [hb, hu]; exact hF
    refine ⟨z, (surface 0 [] w).2, ?_, hsh, ?_⟩
    · rw [← hF', ← (surface_eq hw.inv ho []).1]
    · have := Observes.of_surface hw ho [] (idx := [0]) hF' (by rw [hsh]; simp [Arr.Valid])
        (by rw [hb, hu]; exact hsc.fsite b)
      rw [hc] at this
      exact this
  · obtain ⟨y, hy, hfy⟩ := hcp.s_volume b (Fresh.dVol b o) (Fresh.dSrf b o)
    obtain ⟨z, hz, hfz⟩ := hcp.s_convert b (Fresh.dVol b o) (Fresh.dSrf b o) hfy
    have hF : Fresh.volume b o = .ok z := by
      unfold Fresh.volume Fresh.acc0
      rw [hy]
      exact hz
    have hfm := Below.volume_mu0 ha y hy
    have hzs := convert_shape hz ha hfm (by rw [hsc.I0]; simp [Arr.lit, Arr.num])
    have hsh : z.shape = [1] := by
      rw [hzs]
      exact Arr.Fits.antisymm hfy hfm
    have hF' : Fresh.volume w.backend (Fresh.update o []) = .ok z := by rw [hb, hu]; exact hF
    refine ⟨z, (volume 0 [] w).2, ?_, hsh, ?_⟩
    · rw [← hF', ← (volume_eq hw.inv ho []).1]
    · have := Observes.of_volume hw ho [] (idx := [0]) hF' (by rw [hsh]; simp [Arr.Valid])
        (by rw [hb, hu]; exact hsc.fsite b)
      rw [hc] at this
      exact this

theorem scalar_interaction_call (b : Backend) {V SRF : Scatter} (s d : Bool) {x : Site} {mono : Bool}
    {l : List (String × ℝ)} (hx : mono = true → x.tex = x.t0 ∧ x.pex = x.p0 + Real.pi)
    (hr : x.Reports l)
    (hV : ∀ s ∈ V.phase.free, s ∈ ["theta_0", "theta_ex", "phi_0", "phi_ex"] ++ l.map Prod.fst)
    (hS : ∀ s ∈ SRF.phase.free, s ∈ ["theta_0", "theta_ex", "phi_0", "phi_ex"] ++ l.map Prod.fst)
    (hfn : ∀ g, ∃ fs, fnCoefs V SRF g = .ok fs) (hnV : ∃ n, V.ncoefs = .ok (n + 1))
    (hnS : ∃ n, SRF.ncoefs = .ok (n + 1)) :
    ∃ arr w', interaction 0 [] (scalarW b V SRF true s d x mono (fun _ => false) (scalarKw x l)) = (.ok arr, w') ∧
      Arr.Valid arr.shape [0] ∧ ObservesP ⟨V, SRF, true, s, d⟩ ⟨mono, []⟩ x (arr.get [0]) := by
  have hsc := scalar_scalar true s d (fun _ => false) hx hr hV hS
  have hg := scalar_geom V SRF true s d x mono (fun _ => false) (scalarKw x l)
  have hw := scalarW_reachableP b V SRF true s d x mono (fun _ => false) (scalarKw x l)
  have ho := scalarW_obj b V SRF true s d x mono (fun _ => false) (scalarKw x l)
  have hb := scalarW_backend b V SRF true s d x mono (fun _ => false) (scalarKw x l)
  have hc := scalar_cfg V SRF true s d x mono (fun _ => false) (scalarKw x l)
  have hu := scalar_update V SRF true s d x mono (fun _ => false) (scalarKw x l)
  generalize scalarW b V SRF true s d x mono (fun _ => false) (scalarKw x l) = w at *
  generalize scalarObj V SRF true s d x mono (fun _ => false) (scalarKw x l) = o at *
  have eV : o.V = V := by have := congrArg Cfg.V hc; exact this
  have eS : o.SRF = SRF := by have := congrArg Cfg.SRF hc; exact this
  have hci : CompleteI b o [1] := hsc.completeI (by have := congrArg Cfg.intQ hc; exact this)
    (ObjOK.none hg.fn_ hg.fnevals_) (hw.geomOK ho) (by rw [eV, eS]; exact hfn _)
    (by rw [eV]; exact hnV) (by rw [eS]; exact hnS)
    (fun l hl => by rw [hg.fnevals_] at hl; cases hl)
  obtain ⟨arr, hF, hv⟩ := interaction_shape_one hsc hci
  have hF' : Fresh.interaction w.backend (Fresh.update o []) = .ok arr := by rw [hb, hu]; exact hF
  refine ⟨arr, (interaction 0 [] w).2, ?_, hv, ?_⟩
  · rw [← hF', ← (interaction_eq hw.reachable.inv ho []).1]
  · have := ObservesP.of hw ho [] (arr := arr) (idx := [0]) (x := x) (r := 1) hF'
      (by rw [hb, hu]; exact hsc.aligned b) hv (by rw [hb, hu]; exact hsc.fsite b)
    rw [hc] at this
    have hm : o.mode = ⟨mono, []⟩ := by
      show Mode.mk o.mono o.fixed = _
      rw [hg.mono, hg.fixed_none fun _ => rfl]
    rw [hm] at this
    exact this

end

end RT1
