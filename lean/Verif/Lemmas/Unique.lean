import Verif.Lemmas.DemoInt
import Verif.Lemmas.RowVals

/-! Observed contributions are functions of the settings and the reported values. -/

namespace RT1

noncomputable section
open Classical

/-- A site as extended numbers. -/
def Site.toX (x : Site) : XSite where
  I0 := XR.fin x.I0
  t0 := XR.fin x.t0
  tex := XR.fin x.tex
  p0 := XR.fin x.p0
  pex := XR.fin x.pex
  par := fun p => XR.fin (x.par p)
  ρ := fun s => XR.fin (x.ρ s)

/-- Value of a scattering function at a site. -/
def Scatter.atX (s : Scatter) (x : Site) : XR := s.phase.evalX fun n => XR.fin (x.env n)

/-- Surface contribution in the selected units. -/
def Cfg.surfaceX (c : Cfg) (x : Site) : XR := x.toX.convert c.sig0 c.dB (x.toX.surface (c.SRF.atX x))
/-- Volume contribution in the selected units. -/
def Cfg.volumeX (c : Cfg) (x : Site) : XR := x.toX.convert c.sig0 c.dB (x.toX.volume (c.V.atX x))

theorem FSite.toX_convert {b : Backend} {o : Obj} {idx : List ℕ} {x : Site} (h : FSite b o idx x)
    (s d : Bool) (v : XR) : (XSite.of b o idx).convert s d v = x.toX.convert s d v := by
  unfold XSite.convert
  rw [h.x_mu0, h.x_I0]
  rfl

theorem FSite.toX_surface {b : Backend} {o : Obj} {idx : List ℕ} {x : Site} (h : FSite b o idx x)
    (v : XR) : (XSite.of b o idx).surface v = x.toX.surface v := by
  unfold XSite.surface XSite.atten
  rw [h.x_mu0, h.x_muEx, h.x_I0]
  simp only [h.x_par]
  rfl

theorem FSite.toX_volume {b : Backend} {o : Obj} {idx : List ℕ} {x : Site} (h : FSite b o idx x)
    (v : XR) : (XSite.of b o idx).volume v = x.toX.volume v := by
  unfold XSite.volume XSite.atten
  rw [h.x_mu0, h.x_muEx, h.x_I0]
  simp only [h.x_par]
  rfl

/-- An observed surface value is determined by the settings and the reported values. -/
theorem Observes.surface_x {c : Cfg} {x : Site} {r : XR} (h : Observes RT1.surface c x r) :
    r = c.surfaceX x := by
  obtain ⟨idx, b, o, arr, hv, rfl, hobs⟩ := h.surface
  have hc := hobs.cfg
  subst hc
  have := PW.freshSurface (PW.srfCalc fun n hn => hobs.site.x_env hn) arr hobs.ok
  rw [Arr.at'_valid hv, hobs.site.toX_surface, hobs.site.toX_convert] at this
  exact this

/-- An observed volume value is determined by the settings and the reported values. -/
theorem Observes.volume_x {c : Cfg} {x : Site} {r : XR} (h : Observes RT1.volume c x r) :
    r = c.volumeX x := by
  obtain ⟨idx, b, o, arr, hv, rfl, hobs⟩ := h.volume
  have hc := hobs.cfg
  subst hc
  have := PW.freshVolume (PW.vCalc fun n hn => hobs.site.x_env hn) arr hobs.ok
  rw [Arr.at'_valid hv, hobs.site.toX_volume, hobs.site.toX_convert] at this
  exact this

theorem Observes.surface_unique {c : Cfg} {x : Site} {r r' : XR} (h : Observes RT1.surface c x r)
    (h' : Observes RT1.surface c x r') : r = r' := by rw [h.surface_x, h'.surface_x]

theorem Observes.volume_unique {c : Cfg} {x : Site} {r r' : XR} (h : Observes RT1.volume c x r)
    (h' : Observes RT1.volume c x r') : r = r' := by rw [h.volume_x, h'.volume_x]

theorem ObservesM.observes {call : ℕ → Dict → M Arr} {c : Cfg} {md : Mode} {x : Site} {r : XR}
    (h : ObservesM call c md x r) : Observes call c x r := by
  obtain ⟨w, id, kw, arr, w', idx, h1, h2, h3, h4, h5, o, h6, h7, h8⟩ := h
  exact ⟨w, id, kw, arr, w', idx, h1, h2, h3, h4, h5, o, h6, h7⟩

theorem Filled.mode {b : Backend} {o o' : Obj} (h : Filled b o o') : o'.mode = o.mode := by
  unfold Obj.mode
  rw [h.mono, h.fixed]

theorem observesM_of {call : ℕ → Dict → M Arr} {F : Backend → Obj → Py Arr} {x : Site}
    {w : World} (hw : Reachable w) {id : ℕ} {o : Obj} (ho : w.objs id = some o) (kw : Dict)
    (heq : ∀ w id o kw, Inv true w → w.objs id = some o →
      (call id kw w).1 = F w.backend (Fresh.update o kw) ∧
      DuringE true (w.updated id o kw) id (Fresh.update o kw) (call id kw w).2)
    {arr : Arr} (hF : F w.backend (Fresh.update o kw) = .ok arr) {idx : List ℕ}
    (hv : Arr.Valid arr.shape idx)
    (hs : FSite w.backend (Fresh.update o kw) idx x) :
    ObservesM call o.cfg o.mode x (arr.get idx) := by
  obtain ⟨h1, h2⟩ := heq w id o kw hw.inv ho
  obtain ⟨o', ho', hf⟩ := h2.obj
  refine ⟨w, id, kw, arr, (call id kw w).2, idx, hw.keeps, ?_, hv, rfl, ?_, o', ho', ?_, ?_⟩
  · rw [← hF, ← h1]
  · refine SiteAt.of_fsite h2.inv ho' ?_
    rw [h2.backend]
    exact FSite.filled hf hs
  · rw [hf.cfg]; rfl
  · rw [hf.mode]; rfl

/-- `surface()` and `volume()` of the example objects return values. -/
theorem scalar_surface_volume (b : Backend) {V SRF : Scatter} (q s d : Bool) {x : Site} {mono : Bool}
    (fx : AngN → Bool)
    {l : List (String × ℝ)} (hx : mono = true → x.tex = x.t0 ∧ x.pex = x.p0 + Real.pi)
    (hr : x.Reports l)
    (hV : ∀ s ∈ V.phase.free, s ∈ ["theta_0", "theta_ex", "phi_0", "phi_ex"] ++ l.map Prod.fst)
    (hS : ∀ s ∈ SRF.phase.free, s ∈ ["theta_0", "theta_ex", "phi_0", "phi_ex"] ++ l.map Prod.fst) :
    ∃ F, (∀ n, n ∈ F ↔ fx n = true ∧ (mono = true → n = .p0)) ∧
      ((∀ n, fx n = false) → F = []) ∧
      (mono = true → fx .p0 = true → F = [.p0]) ∧
      (∃ r, ObservesM RT1.surface ⟨V, SRF, q, s, d⟩ ⟨mono, F⟩ x r) ∧
      ∃ r, ObservesM RT1.volume ⟨V, SRF, q, s, d⟩ ⟨mono, F⟩ x r := by
  have hsc := scalar_scalar q s d fx hx hr hV hS
  have hg := scalar_geom V SRF q s d x mono fx (scalarKw x l)
  have hw := (scalarW_reachableP b V SRF q s d x mono fx (scalarKw x l)).reachable
  have ho := scalarW_obj b V SRF q s d x mono fx (scalarKw x l)
  have hb := scalarW_backend b V SRF q s d x mono fx (scalarKw x l)
  have hc := scalar_cfg V SRF q s d x mono fx (scalarKw x l)
  have hu := scalar_update V SRF q s d x mono fx (scalarKw x l)
  generalize scalarObj V SRF q s d x mono fx (scalarKw x l) = o at *
  have hcp := hsc.complete
  have hm : o.mode = ⟨mono, o.fixed⟩ := by
    show Mode.mk o.mono o.fixed = _
    rw [hg.mono]
  have ha : Fresh.mu0 o = .ok (Arr.cos (arr1 x.t0)) := by
    unfold Fresh.mu0 Fresh.ang
    rw [hsc.t0]; rfl
  refine ⟨o.fixed, hg.fixed, hg.fixed_none, hg.fixed_p0, ?_, ?_⟩
  · obtain ⟨y, hy, hfy⟩ := hcp.s_surface b (Fresh.dVol b o) (Fresh.dSrf b o)
    obtain ⟨z, hz, hfz⟩ := hcp.s_convert b (Fresh.dVol b o) (Fresh.dSrf b o) hfy
    have hF : Fresh.surface b o = .ok z := by
      unfold Fresh.surface Fresh.acc0
      rw [hy]
      exact hz
    have hfm := Below.surface_mu0 ha y hy
    have hzs := convert_shape hz ha hfm (by rw [hsc.I0]; simp [Arr.lit, Arr.num])
    have := observesM_of hw ho [] (fun _ _ _ _ hw ho => surface_eq hw ho _) (arr := z) (idx := [0])
      (by rw [hb, hu]; exact hF) (by rw [hzs]; exact shape_one rfl hfm hfy)
      (by rw [hb, hu]; exact hsc.fsite b)
    rw [hc, hm] at this
    exact ⟨_, this⟩
  · obtain ⟨y, hy, hfy⟩ := hcp.s_volume b (Fresh.dVol b o) (Fresh.dSrf b o)
    obtain ⟨z, hz, hfz⟩ := hcp.s_convert b (Fresh.dVol b o) (Fresh.dSrf b o) hfy
    have hF : Fresh.volume b o = .ok z := by
      unfold Fresh.volume Fresh.acc0
      rw [hy]
      exact hz
    have hfm := Below.volume_mu0 ha y hy
    have hzs := convert_shape hz ha hfm (by rw [hsc.I0]; simp [Arr.lit, Arr.num])
    have := observesM_of hw ho [] (fun _ _ _ _ hw ho => volume_eq hw ho _) (arr := z) (idx := [0])
      (by rw [hb, hu]; exact hF) (by rw [hzs]; exact shape_one rfl hfm hfy)
      (by rw [hb, hu]; exact hsc.fsite b)
    rw [hc, hm] at this
    exact ⟨_, this⟩

end

end RT1
