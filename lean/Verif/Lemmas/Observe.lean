import Verif.Lemmas.Point

/-! From observations (states, getters) to the memo-free evaluation of one object. -/

namespace RT1

noncomputable section
open Classical

theorem Filled.f_par {b b' : Backend} {o o' : Obj} (h : Filled b' o o') (p : PName) :
    Fresh.par b o' p = Fresh.par b o p := by
  simp only [Fresh.par, Fresh.pfun, h.f_symbs, h.pdef, h.params]

theorem Filled.acc {b : Backend} {o o' : Obj} (h : Filled b o o') (dv ds : String → Py Lam) :
    Fresh.acc b o' dv ds = Fresh.acc b o dv ds := by
  unfold Fresh.acc
  simp only [h.V, h.SRF, h.intQ, h.sig0, h.dB, h.I0, h.f_ang, h.f_tex, h.f_pex, h.f_mu0, h.f_muEx,
    h.f_mu0x, h.f_muExx, h.f_symbs, h.pdef, h.params, h.fnevals]
  congr 1
  funext p
  exact h.f_par p

theorem Filled.acc0 {b : Backend} {o o' : Obj} (h : Filled b o o') :
    Fresh.acc0 b o' = Fresh.acc0 b o := by
  unfold Fresh.acc0
  rw [h.acc]
  congr 1
  · funext k; exact h.f_dVol k
  · funext k; exact h.f_dSrf k

theorem Filled.cfg {b : Backend} {o o' : Obj} (h : Filled b o o') : o'.cfg = o.cfg := by
  simp only [Obj.cfg, h.V, h.SRF, h.intQ, h.sig0, h.dB]

/-- The attributes of the object have the values of the site. -/
structure FSite (b : Backend) (o : Obj) (idx : List ℕ) (x : Site) : Prop where
  t0 : HasVal (Fresh.ang o .t0) idx x.t0
  tex : HasVal (Fresh.tex o) idx x.tex
  p0 : HasVal (Fresh.ang o .p0) idx x.p0
  pex : HasVal (Fresh.pex o) idx x.pex
  tau : HasVal (Fresh.par b o .tau) idx x.tau
  omega : HasVal (Fresh.par b o .omega) idx x.omega
  NormBRDF : HasVal (Fresh.par b o .NormBRDF) idx x.NormBRDF
  bsf : HasVal (Fresh.par b o .bsf) idx x.bsf
  I0 : o.I0.at' idx = XR.fin x.I0
  params : ∀ k a, o.params.get? k = some a → a.at' idx = XR.fin (x.ρ k)

/-- Value of a parameter at a site. -/
def Site.par (x : Site) : PName → ℝ
  | .tau => x.tau
  | .omega => x.omega
  | .NormBRDF => x.NormBRDF
  | .bsf => x.bsf

theorem HasVal.valAt {x : Py Arr} {idx : List ℕ} {v : ℝ} (h : HasVal x idx v) :
    RT1.valAt x idx = XR.fin v := by
  obtain ⟨a, rfl, h⟩ := h
  exact h

section
variable {b : Backend} {o : Obj} {idx : List ℕ} {x : Site}

theorem FSite.x_t0 (h : FSite b o idx x) : (XSite.of b o idx).t0 = XR.fin x.t0 := h.t0.valAt
theorem FSite.x_tex (h : FSite b o idx x) : (XSite.of b o idx).tex = XR.fin x.tex := h.tex.valAt
theorem FSite.x_p0 (h : FSite b o idx x) : (XSite.of b o idx).p0 = XR.fin x.p0 := h.p0.valAt
theorem FSite.x_pex (h : FSite b o idx x) : (XSite.of b o idx).pex = XR.fin x.pex := h.pex.valAt
theorem FSite.x_I0 (h : FSite b o idx x) : (XSite.of b o idx).I0 = XR.fin x.I0 := h.I0
theorem FSite.x_par (h : FSite b o idx x) (p : PName) :
    (XSite.of b o idx).par p = XR.fin (x.par p) := by
  cases p
  · exact h.tau.valAt
  · exact h.omega.valAt
  · exact h.NormBRDF.valAt
  · exact h.bsf.valAt
theorem FSite.x_mu0 (h : FSite b o idx x) : (XSite.of b o idx).mu0 = XR.fin x.mu0 := by
  simp [XSite.mu0, h.x_t0, Site.mu0]
theorem FSite.x_muEx (h : FSite b o idx x) : (XSite.of b o idx).muEx = XR.fin x.muEx := by
  simp [XSite.muEx, h.x_tex, Site.muEx]
theorem FSite.x_env (h : FSite b o idx x) {n : String}
    (hn : n ∈ ["theta_0", "theta_ex", "phi_0", "phi_ex"] ∨ n ∈ o.params.keys) :
    (XSite.of b o idx).env n = XR.fin (x.env n) := by
  unfold XSite.env angEnv Site.env
  rw [h.x_t0, h.x_tex, h.x_p0, h.x_pex]
  split_ifs with h1 h2 h3 h4
  · rfl
  · rfl
  · rfl
  · rfl
  · have hk : n ∈ o.params.keys := by
      rcases hn with hn | hn
      · simp [h1, h2, h3, h4] at hn
      · exact hn
    obtain ⟨a, ha⟩ := Dict.get?_of_mem hk
    show o.params.valAt idx n = _
    unfold Dict.valAt
    rw [ha]
    exact h.params n a ha

theorem FSite.srf (h : FSite b o idx x) {f : ℝ} (hf : o.SRF.ValueAt x f) {dv ds : String → Py Lam} :
    PW (Fresh.acc b o dv ds).srfCalc idx (XR.fin f) := by
  rw [← hf]
  exact PW.srfCalc fun n hn => h.x_env hn

theorem FSite.vol (h : FSite b o idx x) {f : ℝ} (hf : o.V.ValueAt x f) {dv ds : String → Py Lam} :
    PW (Fresh.acc b o dv ds).vCalc idx (XR.fin f) := by
  rw [← hf]
  exact PW.vCalc fun n hn => h.x_env hn

theorem FSite.x_atten (h : FSite b o idx x) (h0 : x.mu0 ≠ 0) (h1 : x.muEx ≠ 0) :
    (XSite.of b o idx).atten = XR.fin (Real.exp (-(x.tau / x.mu0) - x.tau / x.muEx)) := by
  simp only [XSite.atten, h.x_par, h.x_mu0, h.x_muEx, XR.fin_div _ _ h0, XR.fin_div _ _ h1,
    XR.fin_neg, XR.fin_sub, XR.exp_fin, Site.par]

theorem FSite.x_surface (h : FSite b o idx x) (h0 : x.mu0 ≠ 0) (h1 : x.muEx ≠ 0) (f : ℝ) :
    (XSite.of b o idx).surface (XR.fin f) = XR.fin (x.surface f) := by
  simp only [XSite.surface, h.x_par, h.x_mu0, h.x_I0, h.x_atten h0 h1, XR.fin_mul, XR.fin_add,
    XR.fin_sub, Site.par, Site.surface]
  congr 1
  ring

theorem FSite.x_volume (h : FSite b o idx x) (h0 : x.mu0 ≠ 0) (h1 : x.muEx ≠ 0)
    (h2 : x.mu0 + x.muEx ≠ 0) (f : ℝ) :
    (XSite.of b o idx).volume (XR.fin f) = XR.fin (x.volume f) := by
  simp only [XSite.volume, h.x_par, h.x_mu0, h.x_muEx, h.x_I0, h.x_atten h0 h1, XR.fin_mul,
    XR.fin_add, XR.fin_div _ _ h2, XR.fin_sub, Site.par, Site.volume]
  rw [sub_eq_add_neg (-(x.tau / x.mu0)), Real.exp_add]
  congr 1
  ring
end

theorem evalParam_eq {full : Bool} {w : World} (hw : Inv full w) {id : ℕ} {o : Obj}
    (ho : w.objs id = some o) (p : PName) : (Self.evalParam id p w).1 = Fresh.par w.backend o p :=
  (Refines.evalParam (S := fun _ _ => True) p w (During.init hw ho trivial)).1

theorem SiteAt.fsite {full : Bool} {w : World} (hw : Inv full w) {id : ℕ} {o : Obj}
    (ho : w.objs id = some o) {idx : List ℕ} {x : Site} (h : SiteAt w id idx x) :
    FSite w.backend o idx x := by
  have hd : DuringE full w id o w := During.init hw ho trivial
  refine ⟨?_, ?_, ?_, ?_, ?_, ?_, ?_, ?_, h.I0 o ho, h.params o ho⟩
  · rw [← (Refines.t0 w hd).1]; exact h.t0
  · rw [← (Refines.tex w hd).1]; exact h.tex
  · rw [← (Refines.p0 w hd).1]; exact h.p0
  · rw [← (Refines.pex w hd).1]; exact h.pex
  · rw [← evalParam_eq hw ho]; exact h.tau
  · rw [← evalParam_eq hw ho]; exact h.omega
  · rw [← evalParam_eq hw ho]; exact h.NormBRDF
  · rw [← evalParam_eq hw ho]; exact h.bsf

theorem ReachableK.inv {w : World} (h : ReachableK w) : Inv false w := by
  obtain ⟨b, ops, hp, rfl⟩ := h
  refine run_induction (fun op hop => ?_) (Inv.init false b)
  refine Inv.step (fun h => by cases h) ?_
  rintro id n a rfl
  exact hp _ hop

theorem Reachable.keeps {w : World} (h : Reachable w) : ReachableK w := by
  obtain ⟨b, ops, hp, rfl⟩ := h
  refine ⟨b, ops, fun op hop => ?_, rfl⟩
  have := hp op hop
  cases op <;> trivial

theorem ReachableK.any {w : World} (h : ReachableK w) : ReachableAny w := by
  obtain ⟨b, ops, hp, rfl⟩ := h
  exact ⟨b, ops, rfl⟩

/-- What an observation says about one object. -/
structure Obs (full : Bool) (F : Backend → Obj → Py Arr) (c : Cfg) (x : Site) (r : XR) (idx : List ℕ)
    (b : Backend) (o : Obj) (arr : Arr) : Prop where
  ok : F b o = .ok arr
  objOK : full = true → ObjOK b o
  cfg : o.cfg = c
  site : FSite b o idx x

theorem obs_of {full : Bool} {call : ℕ → Dict → M Arr} {F : Backend → Obj → Py Arr} {c : Cfg} {x : Site}
    {w : World} (hw : Inv full w) {id : ℕ} {kw : Dict} {arr : Arr} {w' : World}
    (hcall : call id kw w = (.ok arr, w'))
    (hnone : ∀ w id kw, w.objs id = none → (call id kw w).1 = .error .attributeError)
    (heq : ∀ w id o kw, Inv full w → w.objs id = some o →
      (call id kw w).1 = F w.backend (Fresh.update o kw) ∧
      DuringE full (w.updated id o kw) id (Fresh.update o kw) (call id kw w).2)
    (hF : ∀ b o o', Filled b o o' → F b o' = F b o)
    {idx : List ℕ} (hs : SiteAt w' id idx x) {o : Obj} (ho : w'.objs id = some o)
    (hc : o.cfg = c) (r : XR) : Obs full F c x r idx w'.backend o arr := by
  cases ho0 : w.objs id with
  | none =>
    have := hnone w id kw ho0
    rw [hcall] at this
    cases this
  | some o0 =>
    have h := heq w id o0 kw hw ho0
    rw [hcall] at h
    obtain ⟨h1, h2⟩ := h
    simp only at h1 h2
    obtain ⟨o', ho', hf⟩ := h2.obj
    rw [ho] at ho'
    cases ho'
    have hb : w'.backend = w.backend := h2.backend
    refine ⟨?_, fun h => h2.inv.obj h id o ho, hc, hs.fsite h2.inv ho⟩
    have hf' : Filled w'.backend (Fresh.update o0 kw) o := by rw [h2.backend]; exact hf
    rw [hF _ _ _ hf', hb]
    exact h1.symm

theorem fresh_surface_filled {b : Backend} {o o' : Obj} (h : Filled b o o') :
    Fresh.surface b o' = Fresh.surface b o := by unfold Fresh.surface; rw [h.acc0]
theorem fresh_volume_filled {b : Backend} {o o' : Obj} (h : Filled b o o') :
    Fresh.volume b o' = Fresh.volume b o := by unfold Fresh.volume; rw [h.acc0]
theorem fresh_interaction_filled {b : Backend} {o o' : Obj} (h : Filled b o o') :
    Fresh.interaction b o' = Fresh.interaction b o := by unfold Fresh.interaction; rw [h.acc0]
theorem fresh_calc_filled {b : Backend} {o o' : Obj} (h : Filled b o o') :
    Fresh.calcAll b o' = Fresh.calcAll b o := by unfold Fresh.calcAll; rw [h.acc0]

theorem surface_none {w : World} {id : ℕ} (h : w.objs id = none) (kw : Dict) :
    (surface id kw w).1 = .error .attributeError := by
  unfold surface; rw [evalOp_none h]
theorem volume_none {w : World} {id : ℕ} (h : w.objs id = none) (kw : Dict) :
    (volume id kw w).1 = .error .attributeError := by
  unfold volume; rw [evalOp_none h]
theorem interaction_none {w : World} {id : ℕ} (h : w.objs id = none) (kw : Dict) :
    (interaction id kw w).1 = .error .attributeError := by
  unfold interaction; rw [evalOp_none h]
theorem calcOp_none {w : World} {id : ℕ} (h : w.objs id = none) (kw : Dict) :
    (calcOp id kw w).1 = .error .attributeError := by
  unfold calcOp; rw [evalOp_none h]

theorem Observes.surface {c : Cfg} {x : Site} {r : XR} (h : Observes RT1.surface c x r) :
    ∃ idx b o arr, Arr.Valid arr.shape idx ∧ arr.get idx = r ∧ Obs false Fresh.surface c x r idx b o arr := by
  obtain ⟨w, id, kw, arr, w', idx, hw, hcall, hv, hr, hs, o, ho, hc⟩ := h
  exact ⟨idx, w'.backend, o, arr, hv, hr, obs_of hw.inv hcall (fun _ _ _ h => surface_none h _)
    (fun _ _ _ _ hw ho => surface_eq hw ho _) (fun _ _ _ h => fresh_surface_filled h) hs ho hc r⟩

theorem Observes.volume {c : Cfg} {x : Site} {r : XR} (h : Observes RT1.volume c x r) :
    ∃ idx b o arr, Arr.Valid arr.shape idx ∧ arr.get idx = r ∧ Obs false Fresh.volume c x r idx b o arr := by
  obtain ⟨w, id, kw, arr, w', idx, hw, hcall, hv, hr, hs, o, ho, hc⟩ := h
  exact ⟨idx, w'.backend, o, arr, hv, hr, obs_of hw.inv hcall (fun _ _ _ h => volume_none h _)
    (fun _ _ _ _ hw ho => volume_eq hw ho _) (fun _ _ _ h => fresh_volume_filled h) hs ho hc r⟩

theorem ObservesI.interaction {c : Cfg} {x : Site} {r : XR} (h : ObservesI c x r) :
    ∃ idx b o arr, Arr.Valid arr.shape idx ∧ arr.get idx = r ∧
      Obs true Fresh.interaction c x r idx b o arr := by
  obtain ⟨w, id, kw, arr, w', idx, hw, hcall, hv, hr, hs, o, ho, hc⟩ := h
  exact ⟨idx, w'.backend, o, arr, hv, hr, obs_of hw.inv hcall (fun _ _ _ h => interaction_none h _)
    (fun _ _ _ _ hw ho => interaction_eq hw ho _) (fun _ _ _ h => fresh_interaction_filled h) hs
    ho hc r⟩

theorem ObservesRow.calc {k : ℕ} {c : Cfg} {x : Site} {r : XR} (h : ObservesRow k c x r) :
    ∃ idx b o arr, Arr.Valid arr.shape (idx ++ [k]) ∧ arr.get (idx ++ [k]) = r ∧
      Obs true Fresh.calcAll c x r idx b o arr := by
  obtain ⟨w, id, kw, arr, w', idx, hw, hcall, hv, hr, hs, o, ho, hc⟩ := h
  exact ⟨idx, w'.backend, o, arr, hv, hr, obs_of hw.inv hcall (fun _ _ _ h => calcOp_none h _)
    (fun _ _ _ _ hw ho => calcOp_eq hw ho _) (fun _ _ _ h => fresh_calc_filled h) hs ho hc r⟩

theorem XR.ten_log10 (v : ℝ) : (XR.fin 10 * XR.log10 (XR.fin v) : XR) = dBValue v := by
  unfold dBValue XR.log10
  by_cases h : 0 < v
  · simp [h]
  · by_cases h0 : v = 0
    · subst h0
      simp only [lt_irrefl, if_false, if_true]
      show XR.mul (XR.fin 10) XR.ninf = _
      simp [XR.mul, XR.sgn, XR.infOfSign]
    · simp only [h, h0, if_false]
      show XR.mul (XR.fin 10) XR.nan = _
      simp [XR.mul, XR.sgn]

theorem FSite.x_convert {b : Backend} {o : Obj} {idx : List ℕ} {x : Site} (h : FSite b o idx x)
    {s d : Bool} (hI : s = true → x.I0 ≠ 0) (v : ℝ) :
    (XSite.of b o idx).convert s d (XR.fin v) = x.inUnits s d v := by
  unfold XSite.convert Site.inUnits
  rw [h.x_mu0, h.x_I0]
  cases s with
  | true =>
    have : (XR.fin (4 * Real.pi) * XR.fin x.mu0 / XR.fin x.I0 : XR) = XR.fin x.signorm := by
      rw [XR.fin_mul, XR.fin_div _ _ (hI rfl)]; rfl
    simp only [if_true]
    rw [this, XR.fin_mul, XR.ten_log10]
  | false =>
    simp only [Bool.false_eq_true, if_false, XR.fin_mul, mul_one, XR.ten_log10]

/-- Value of an observed surface contribution. -/
theorem Observes.surface_val {c : Cfg} {x : Site} {r : XR} (h : Observes RT1.surface c x r) {f : ℝ}
    (hf : c.SRF.ValueAt x f) (h0 : x.mu0 ≠ 0) (h1 : x.muEx ≠ 0) (hI : c.sig0 = true → x.I0 ≠ 0) :
    r = x.inUnits c.sig0 c.dB (x.surface f) := by
  obtain ⟨idx, b, o, arr, hv, rfl, hobs⟩ := h.surface
  have hc := hobs.cfg
  have e1 : o.SRF = c.SRF := by rw [← hc]; rfl
  have e2 : o.sig0 = c.sig0 := by rw [← hc]; rfl
  have e3 : o.dB = c.dB := by rw [← hc]; rfl
  rw [← e1] at hf
  have := PW.freshSurface (hobs.site.srf hf) arr hobs.ok
  rw [Arr.at'_valid hv, hobs.site.x_surface h0 h1, e2, e3, hobs.site.x_convert hI] at this
  exact this

/-- Value of an observed volume contribution. -/
theorem Observes.volume_val {c : Cfg} {x : Site} {r : XR} (h : Observes RT1.volume c x r) {f : ℝ}
    (hf : c.V.ValueAt x f) (hx : x.Regular c.sig0) :
    r = x.inUnits c.sig0 c.dB (x.volume f) := by
  obtain ⟨idx, b, o, arr, hv, rfl, hobs⟩ := h.volume
  have hc := hobs.cfg
  have e1 : o.V = c.V := by rw [← hc]; rfl
  have e2 : o.sig0 = c.sig0 := by rw [← hc]; rfl
  have e3 : o.dB = c.dB := by rw [← hc]; rfl
  rw [← e1] at hf
  have := PW.freshVolume (hobs.site.vol hf) arr hobs.ok
  rw [Arr.at'_valid hv, hobs.site.x_volume hx.mu0 hx.muEx hx.sum, e2, e3,
    hobs.site.x_convert hx.I0] at this
  exact this

end

end RT1
