import Verif.Lemmas.AnalyzeY

/-! `int_Q` is switched on while an analyzer is open. -/

namespace RT1

noncomputable section
open Classical

/-- Values of the object of an analyzer at the first incidence angle. -/
theorem ana_fsite {b : Backend} {o : Obj} (hc : Complete o [100, 1]) (hm : o.mono = true)
    (ht : o.ang .t0 = some analyzeT0) (hp0 : o.ang .p0 = some (arr1 0)) (hpd : o.pdef = defaultDefs)
    {I τ ω N : ℝ} (hI : o.I0 = arr1 I) (h1 : o.params.get? "bsf" = some (Arr.lit 0))
    (h2 : o.params.get? "tau" = some (arr1 τ)) (h3 : o.params.get? "omega" = some (arr1 ω))
    (h4 : o.params.get? "NormBRDF" = some (arr1 N))
    (hfin : ∀ k a, o.params.get? k = some a → ∃ r, a.at' [0, 0] = XR.fin r) :
    ∃ ρ, FSite b o [0, 0] ⟨deg2rad 10, deg2rad 10, 0, 0 + Real.pi, I, τ, ω, N, 0, ρ⟩ := by
  have hpar : ∀ pn k r, defaultDefs pn = .str (.sym k) → Dict.valAt o.params [0, 0] k = XR.fin r →
      HasVal (Fresh.par b o pn) [0, 0] r := by
    intro pn k r hd hv
    refine HasVal.of_succ (hc.s_par b pn) ?_
    have := PW.parStr (b := b) (o := o) (p := pn) (e := .sym k) (by rw [hpd, hd]) [0, 0]
    simp only [Expr.evalX] at this
    rw [hv] at this
    exact this
  have hang0 : Fresh.ang o .t0 = .ok analyzeT0 := by simp [Fresh.ang, ht]
  have hang1 : Fresh.ang o .p0 = .ok (arr1 0) := by simp [Fresh.ang, hp0]
  have hv0 : analyzeT0.at' [0, 0] = XR.fin (deg2rad 10) := by
    show XR.fin (deg2rad (linspace 10 80 100 0)) = _
    congr 2
    unfold linspace
    push_cast
    ring
  have hex : ∀ k, ∃ r, ∀ a, o.params.get? k = some a → a.at' [0, 0] = XR.fin r := by
    intro k
    cases hk : o.params.get? k with
    | none => exact ⟨0, fun a h => by cases h⟩
    | some a =>
      obtain ⟨r, hr⟩ := hfin k a hk
      exact ⟨r, fun a' h => by cases h; exact hr⟩
  choose ρ hρ using hex
  refine ⟨ρ, ⟨_, hang0, hv0⟩, ⟨_, ?_, hv0⟩, ⟨_, hang1, rfl⟩, ?_, ?_, ?_, ?_, ?_, by rw [hI]; rfl, hρ⟩
  · unfold Fresh.tex; rw [if_pos hm, hang0]
  · refine HasVal.of_succ hc.s_pex ?_
    unfold Fresh.pex
    rw [if_pos hm, hang1]
    exact PW.bind fun x hx => by
      cases hx
      exact PW.map2 (u := XR.fin 0) (v := XR.fin Real.pi) rfl rfl
  · exact hpar .tau "tau" _ rfl (by unfold Dict.valAt; rw [h2]; rfl)
  · exact hpar .omega "omega" _ rfl (by unfold Dict.valAt; rw [h3]; rfl)
  · exact hpar .NormBRDF "NormBRDF" _ rfl (by unfold Dict.valAt; rw [h4]; rfl)
  · exact hpar .bsf "bsf" _ rfl (by unfold Dict.valAt; rw [h1]; rfl)

theorem cos_ten : 0 < Real.cos (deg2rad 10) := by
  refine Real.cos_pos_of_mem_Ioo ⟨?_, ?_⟩ <;> unfold deg2rad <;> linarith [Real.pi_pos]

/-- Surface + volume differs from volume. -/
theorem dashed_not_volume {b : Backend} {o : Obj} (hc : Complete o [100, 1])
    (ht : o.ang .t0 = some analyzeT0) (hV : o.V = isoV) (hS : o.SRF = isoS)
    (hs : o.sig0 = false) (hd : o.dB = false) {I τ ω N : ℝ} (hI : I ≠ 0) (hN : N ≠ 0) {ρ : String → ℝ}
    (hx : FSite b o [0, 0] ⟨deg2rad 10, deg2rad 10, 0, 0 + Real.pi, I, τ, ω, N, 0, ρ⟩) {y res : Arr}
    (hy : Fresh.surfaceVolume b o = .ok y) (hr : Fresh.calcAll b o = .ok res)
    (hp : ∀ t, Fresh.par b o .tau = .ok t → t.shape ≠ []) : ¬ IsRow y.squeeze res 2 := by
  rintro ⟨S, n, r1, r2, r3, r4⟩
  obtain ⟨Is, Iv, Ii, hparts⟩ := calc_parts hr
  obtain ⟨q1, q2, q3, q4⟩ := hparts.rows
  obtain ⟨Is', s1, s2⟩ := hc.surface_shape b (a := analyzeT0) ht rfl
  rw [hparts.surf] at s1
  cases s1
  have hvol : (Fresh.acc0 b o).volume = .ok Iv := by
    obtain ⟨t, t1, t2⟩ := hparts.tau
    rw [if_neg (fun h => hp t t1 h.1)] at t2
    exact t2.1
  have eS : S = [100, 1] := by
    rw [r1] at q1
    have := (List.append_inj' q1 rfl).1
    rw [this, s2]
  subst eS
  have hv : Arr.Valid [100, 1] [0, 0] := .cons (by omega) (.cons (by omega) .nil)
  have hfS : o.SRF.ValueAt ⟨deg2rad 10, deg2rad 10, 0, 0 + Real.pi, I, τ, ω, N, 0, ρ⟩ (1 / Real.pi) := by
    unfold Scatter.ValueAt
    rw [hS]
    simp [isoS, Scatter.phase, Scatter.primPhase, Expr.evalX]
  have hfV : o.V.ValueAt ⟨deg2rad 10, deg2rad 10, 0, 0 + Real.pi, I, τ, ω, N, 0, ρ⟩ (1 / (4 * Real.pi)) := by
    unfold Scatter.ValueAt
    rw [hV]
    simp [isoV, Scatter.phase, Scatter.primPhase, Expr.evalX]
  have hmu : Site.mu0 ⟨deg2rad 10, deg2rad 10, 0, 0 + Real.pi, I, τ, ω, N, 0, ρ⟩ = Real.cos (deg2rad 10) := rfl
  have hmx : Site.muEx ⟨deg2rad 10, deg2rad 10, 0, 0 + Real.pi, I, τ, ω, N, 0, ρ⟩ = Real.cos (deg2rad 10) := rfl
  have hc10 := cos_ten
  have hmu0 : Site.mu0 ⟨deg2rad 10, deg2rad 10, 0, 0 + Real.pi, I, τ, ω, N, 0, ρ⟩ ≠ 0 := by rw [hmu]; exact hc10.ne'
  have hmx0 : Site.muEx ⟨deg2rad 10, deg2rad 10, 0, 0 + Real.pi, I, τ, ω, N, 0, ρ⟩ ≠ 0 := by rw [hmx]; exact hc10.ne'
  have PS : PW (Fresh.acc0 b o).surface [0, 0] _ := PW.surface (hx.srf hfS)
  have PV : PW (Fresh.acc0 b o).volume [0, 0] _ := PW.volume (hx.vol hfV)
  rw [hx.x_surface hmu0 hmx0] at PS
  rw [hx.x_volume hmu0 hmx0 (by rw [hmu, hmx]; linarith)] at PV
  generalize hsv : Site.surface ⟨deg2rad 10, deg2rad 10, 0, 0 + Real.pi, I, τ, ω, N, 0, ρ⟩ (1 / Real.pi) = sv at PS
  generalize Site.volume ⟨deg2rad 10, deg2rad 10, 0, 0 + Real.pi, I, τ, ω, N, 0, ρ⟩ (1 / (4 * Real.pi)) = vv at PV
  have hns : sv ≠ 0 := by
    rw [← hsv]
    unfold Site.surface
    simp only [hmu]
    have : (1 - 0 : ℝ) * Real.exp (-(τ / Real.cos (deg2rad 10)) - τ / Site.muEx ⟨deg2rad 10, deg2rad 10, 0, 0 + Real.pi, I, τ, ω, N, 0, ρ⟩) + 0 ≠ 0 := by
      have := Real.exp_pos (-(τ / Real.cos (deg2rad 10)) - τ / Site.muEx ⟨deg2rad 10, deg2rad 10, 0, 0 + Real.pi, I, τ, ω, N, 0, ρ⟩)
      simp only [sub_zero, one_mul, add_zero]
      exact this.ne'
    exact mul_ne_zero (mul_ne_zero (mul_ne_zero (mul_ne_zero hN this) hI) hc10.ne') (by
      have := Real.pi_pos; positivity)
  have hx1 : ∃ x, Arr.map2 (· + ·) Is Iv = .ok x ∧ (Fresh.acc0 b o).convert x = .ok y := by
    unfold Fresh.surfaceVolume addM at hy
    rw [hparts.surf, okb, hvol, okb] at hy
    cases hadd : Arr.add Is Iv with
    | error e => rw [hadd] at hy; cases hy
    | ok x => rw [hadd] at hy; exact ⟨x, hadd, hy⟩
  obtain ⟨x, hadd, hcv⟩ := hx1
  have hyshape : y.shape = [100, 1] := by
    obtain ⟨g1, -⟩ := Arr.bshape_fits (Arr.shape_map2 hadd)
    rw [s2] at g1
    obtain ⟨y', h1, h2⟩ := hc.s_convert b (Fresh.dVol b o) (Fresh.dSrf b o) (a := x) (by
      obtain ⟨x', u1, u2⟩ := Succ.map2 (f := (· + ·)) (a := Is) (b := Iv) (by rw [s2]; exact Arr.Fits.refl _)
        (by rw [q2, s2]; exact Arr.Fits.refl [100, 1])
      rw [hadd] at u1; cases u1; exact u2)
    have hcv' : (Fresh.acc b o (Fresh.dVol b o) (Fresh.dSrf b o)).convert x = .ok y := hcv
    rw [hcv'] at h1; cases h1
    exact Arr.Fits.antisymm h2 (Below.convert g1 _ hcv')
  have vIs : Is.get [0, 0] = XR.fin sv := by
    rw [← Arr.at'_valid (x := Is) (by rw [s2]; exact hv)]; exact PS Is hparts.surf
  have vIv : Iv.get [0, 0] = XR.fin vv := by
    rw [← Arr.at'_valid (x := Iv) (by rw [q2, s2]; exact hv)]; exact PV Iv hvol
  have py := PW.convert (b := b) (o := o) (dv := Fresh.dVol b o) (ds := Fresh.dSrf b o) (idx := [0, 0])
    (a := x) (Arr.at'_map2 hadd [0, 0]) y hcv
  rw [PS Is hparts.surf, PV Iv hvol, XR.fin_add, hx.x_convert (by rw [hs]; intro h; cases h), hs, hd] at py
  have e4 := r4 [0, 0] hv
  have e5 : y.squeeze.get (dropOnes [100, 1] [0, 0]) = y.get [0, 0] := by
    have := squeeze_get (x := y) (idx := [0, 0]) (by rw [hyshape]; exact hv)
    rw [hyshape] at this
    exact this
  rw [e5, ← Arr.at'_valid (x := y) (by rw [hyshape]; exact hv), py,
    q4 2 (by cases o.intQ <;> decide) [0, 0] (by rw [s2]; exact hv)] at e4
  rw [show rowVal o.intQ (Is.get [0, 0]) (Iv.get [0, 0]) (Ii.get [0, 0]) 2 = XR.fin vv from vIv,
    hx.x_convert (by rw [hs]; intro h; cases h), hs, hd] at e4
  simp only [Site.inUnits, Bool.false_eq_true, if_false, XR.fin.injEq] at e4
  apply hns
  linarith

theorem slider_arr1 {o : Obj} (hb : "bsf" ∈ o.params.keys) {sl : List (String × Slider)} {k : String}
    (hk : k ∈ sl.map Prod.fst) : ∃ v, (Fresh.update o (sliderVals sl)).params.get? k = some (arr1 v) := by
  rw [Fresh.update_eq hb]
  show ∃ v, (Dict.update _ _).get? k = _
  rw [Dict.get?_update]
  obtain ⟨v, hv⟩ := lastValue_isSome (kw := (sliderVals sl).map fun p => (p.1, p.2.atleast1d)) (k := k) (by
    simpa [sliderVals, Dict.keys, List.map_map, Function.comp_def] using hk)
  rw [hv]
  have := lastValue_mem hv
  simp only [sliderVals, List.map_map, List.mem_map, Function.comp_def] at this
  obtain ⟨q, hq, he⟩ := this
  cases he
  exact ⟨q.2.val, rfl⟩

theorem Complete.congr {o o' : Obj} {S : List ℕ} (hc : Complete o S) (h1 : o'.ang = o.ang) (h2 : o'.mono = o.mono)
    (h3 : o'.I0 = o.I0) (h4 : o'.params = o.params) (h5 : o'.pdef = o.pdef) (h6 : o'.V = o.V)
    (h7 : o'.SRF = o.SRF) : Complete o' S := by
  refine ⟨?_, ?_, ?_, ?_, ?_, ?_, ?_, ?_, ?_⟩
  · rw [h1]; exact hc.t0
  · rw [h1]; exact hc.p0
  · rw [h1, h2]; exact hc.tex
  · rw [h1, h2]; exact hc.pex
  · rw [h3]; exact hc.I0
  · rw [h4]; exact hc.params
  · rw [h4, h5]; exact hc.defs
  · rw [h4, h6]; exact hc.V
  · rw [h4, h7]; exact hc.SRF

/-- The analyzer is created without interaction term, then `int_Q` is switched on. -/
theorem switch_on {w : World} (hw : Reachable w) {o : Obj} (ho : w.objs 0 = some o)
    (hbk : w.backend = .symengine)
    (hneeds : ∀ n, o.Needs n ↔ n = "tau" ∨ n = "omega" ∨ n = "NormBRDF" ∨ n = "bsf")
    {I τ ω N : ℝ} (hI : I ≠ 0) (hN : N ≠ 0)
    (hpars : o.params = [("bsf", Arr.lit 0), ("tau", arr1 τ), ("omega", arr1 ω), ("NormBRDF", arr1 N)])
    (hpd : o.pdef = defaultDefs) (hV : o.V = isoV) (hSRF : o.SRF = isoS) (hI0 : o.I0 = arr1 I)
    (hs : o.sig0 = false) (hd : o.dB = false)
    (hq : o.intQ = false) (hfi : o.fnInput = none) (hfei : o.fnevalsInput = none) :
    ∃ w' A o' lines line, (∃ w0 w1 A0, analyze 0 none [("omega", [.number 0, .number 1])] w = (.ok A0, w0) ∧
        step (.setIntQ 0 true) w0 = (.ok (), w1) ∧ A0.event 0 (.select none) w1 = (.ok A, w')) ∧
      w'.objs 0 = some o' ∧ o'.intQ = true ∧
      A.lines = some lines ∧ lines.map Prod.fst = [some "Total", some "Surface", some "Volume"] ∧
      (some "Volume", line) ∈ lines ∧
      ∀ res, (calcOp 0 (A.sliders.map fun p => (p.1, Arr.lit p.2.val)) w').1 = .ok res → ¬ IsRow line res 2 := by
  have hkeys : o.params.keys = ["bsf", "tau", "omega", "NormBRDF"] := by rw [hpars]; rfl
  obtain ⟨sl, w3, o3, r3, ho3, hb3, hst, hm3, ht, ⟨hp0, hg, hfne, hfi3, hfei3⟩, hc, hn, he, -⟩ := analyze_ready hw ho
    (ps := [("omega", [.number 0, .number 1])])
    (fun n h => by
      rw [hneeds] at h
      rw [hkeys]
      rcases h with rfl | rfl | rfl | rfl <;> simp)
    (fun p hp => by
      rw [List.mem_singleton.mp hp]
      exact ⟨0, 1, [], rfl, Or.inl rfl⟩) (by rw [hI0]; exact ⟨Or.inl rfl, trivial⟩)
    (fun k x hx _ => by
      rw [hpars] at hx
      have := Dict.mem_of_get? hx
      simp only [List.mem_cons, Prod.mk.injEq, List.not_mem_nil, or_false] at this
      rcases this with ⟨-, rfl⟩ | ⟨-, rfl⟩ | ⟨-, rfl⟩ | ⟨-, rfl⟩
      · trivial
      all_goals exact ⟨Or.inl rfl, trivial⟩)
    (fun p => by
      rw [hpd]
      cases p <;> simp [defaultDefs, Expr.free])
  rw [hbk] at hb3
  have hq3 : o3.intQ = false := (intQ_still hst).trans hq
  have hkm : "omega" ∈ sl.map Prod.fst := (hn _).mpr ⟨by simp, (hneeds _).mpr (Or.inr (Or.inl rfl))⟩
  have hno : ∀ k, k ≠ "omega" → k ∉ sl.map Prod.fst := fun k h h' => h (by simpa using ((hn k).mp h').1)
  obtain ⟨res, hres, -⟩ := hc.calcAll_three w3.backend (a := analyzeT0) ht rfl hq3
  obtain ⟨A, w', hA⟩ := update_succ r3 ho3 (A := ⟨sl, none, none, none⟩) (res := res) hres
    (fun h => by rw [hq3] at h; cases h) (fun k hk => by cases hk)
  have hstart : Session (fun _ => True) 0 w' A := .start hw (he.trans hA)
  obtain ⟨o3', o', res1, contribs, sv, hU⟩ := update_ok r3 hA
  have e3 := hU.before
  rw [ho3] at e3
  cases e3
  have hlines := hU.drawn (by simp)
  rw [hq3] at hlines
  have hAs : A.sliders = sl := hU.sliders
  have hcall := hstart.call (.setIntQ 0 true) trivial trivial
  have ho4 : (step (.setIntQ 0 true) w').2.objs 0 = some { o' with intQ := true } := modObj_get hU.after _
  have hb4 : (step (.setIntQ 0 true) w').2.backend = .symengine := by
    show w'.backend = _; rw [hU.backend, hb3]
  have hstep : step (.setIntQ 0 true) w' = (.ok (), (step (.setIntQ 0 true) w').2) := rfl
  generalize (step (.setIntQ 0 true) w').2 = w4 at hcall ho4 hb4 hstep
  have r4 := hcall.reachable
  have hF : Filled .symengine (Fresh.update o3 (sliderVals sl)) (Fresh.update o' (sliderVals sl)) := by
    have := hU.again r3
    rw [hb3, hAs] at this
    exact this
  have hF' : Filled .symengine (Fresh.update o3 (sliderVals sl)) o' := by
    have := hU.over.2
    rw [hb3] at this
    exact this
  have hfne' : o'.fnevals_ = none := by
    have h1 := hF'.fnevals
    have h2 : Fresh.fnevals .symengine (Fresh.update o3 (sliderVals sl)) = .ok none := by
      have a1 : (Fresh.update o3 (sliderVals sl)).fnevals_ = none := hfne
      have a2 : (Fresh.update o3 (sliderVals sl)).fnevalsInput = none := hfei3.trans hfei
      have a3 : (Fresh.update o3 (sliderVals sl)).intQ = false := hq3
      unfold Fresh.fnevals
      rw [a1, a2, a3]
      rfl
    rw [h2] at h1
    cases h3 : o'.fnevals_ with
    | none => rfl
    | some l =>
      unfold Fresh.fnevals at h1
      rw [h3] at h1
      cases h1
  have hb0 := r3.keeps.any.bsfOK ho3
  have hp3 := params_still hst
  simp only [Obj.still, Prod.mk.injEq] at hst
  have hpar : ∀ k, (Fresh.update { o' with intQ := true } (sliderVals sl)).params.get? k =
      (Fresh.update o3 (sliderVals sl)).params.get? k := fun k => congrArg (Dict.get? · k) hF.params
  have hframe : ∀ k, k ≠ "omega" → (Fresh.update { o' with intQ := true } (sliderVals sl)).params.get? k = o.params.get? k :=
    fun k hk => by rw [hpar, slider_frame hb0.1 (hno k hk), hp3]
  obtain ⟨ω', hω⟩ := slider_arr1 hb0.1 hkm
  rw [← hpar] at hω
  have hc5 : Complete (Fresh.update { o' with intQ := true } (sliderVals sl)) [100, 1] :=
    hc.congr hF.ang hF.mono hF.I0 hF.params hF.pdef hF.V hF.SRF
  have hbs := (r4.keeps.any.bsfOK ho4).update (sliderVals sl)
  have hok : ObjOK w4.backend (Fresh.update { o' with intQ := true } (sliderVals sl)) :=
    (r4.inv.updated ho4 (sliderVals sl)).obj rfl _ _ (World.updated_objs ..)
  have t5 : (Fresh.update { o' with intQ := true } (sliderVals sl)).ang .t0 = some analyzeT0 :=
    (congrFun hF'.ang .t0).trans ht
  have p5 : (Fresh.update { o' with intQ := true } (sliderVals sl)).ang .p0 = some (arr1 0) :=
    (congrFun hF'.ang .p0).trans hp0
  have m5 : (Fresh.update { o' with intQ := true } (sliderVals sl)).mono = true := hF'.mono.trans hm3
  have V5 : (Fresh.update { o' with intQ := true } (sliderVals sl)).V = isoV := hF'.V.trans (hst.1.trans hV)
  have S5 : (Fresh.update { o' with intQ := true } (sliderVals sl)).SRF = isoS := hF'.SRF.trans (hst.2.1.trans hSRF)
  have f5 : (Fresh.update { o' with intQ := true } (sliderVals sl)).fnInput = none :=
    hF'.fnInput.trans (hfi3.trans hfi)
  have e5 : (Fresh.update { o' with intQ := true } (sliderVals sl)).fnevalsInput = none :=
    hF'.fnevalsInput.trans (hfei3.trans hfei)
  have n5 : (Fresh.update { o' with intQ := true } (sliderVals sl)).fnevals_ = none := hfne'
  have q5 : (Fresh.update { o' with intQ := true } (sliderVals sl)).intQ = true := rfl
  have I5 : (Fresh.update { o' with intQ := true } (sliderVals sl)).I0 = arr1 I :=
    hF'.I0.trans (hst.2.2.1.trans hI0)
  have s5 : (Fresh.update { o' with intQ := true } (sliderVals sl)).sig0 = false :=
    hF'.sig0.trans (hst.2.2.2.1.trans hs)
  have d5 : (Fresh.update { o' with intQ := true } (sliderVals sl)).dB = false :=
    hF'.dB.trans (hst.2.2.2.2.2.1.trans hd)
  have pd5 : (Fresh.update { o' with intQ := true } (sliderVals sl)).pdef = defaultDefs :=
    hF'.pdef.trans (hst.2.2.2.2.2.2.1.trans hpd)
  have hup : ∀ {A' : Analyzer} {w5 : World}, Analyzer.update 0 { A with range := none } w4 = (.ok A', w5) →
      ∃ o'' res2 contribs' sv', Updated 0 { A with range := none } A' w4 w5 { o' with intQ := true } o'' res2 contribs' sv' := by
    intro A' w5 h
    obtain ⟨o4, o'', res2, contribs', sv', hU2⟩ := update_ok r4 h
    have := hU2.before
    rw [ho4] at this
    cases this
    exact ⟨o'', res2, contribs', sv', hU2⟩
  have hsucc := @update_succ w4 r4 0 _ ho4 { A with range := none }
  have hq4 : ({ o' with intQ := true } : Obj).intQ = true := rfl
  have hAs' : ({ A with range := none } : Analyzer).sliders = sl := hAs
  generalize ({ o' with intQ := true } : Obj) = o4 at *
  obtain ⟨fs, hfs⟩ := iso_fnCoefs (Fresh.update o4 (sliderVals sl)).geom
  have hci := ready_interaction (b := w4.backend) (fs := fs) hc5 hbs hok t5 m5 p5 q5 f5 e5
    (fun l hl => by rw [n5] at hl; cases hl) (by rw [V5, S5]; exact hfs) (Or.inl hb4)
    (by rw [V5]; exact ⟨0, isoV_ncoefs⟩) (by rw [S5]; exact ⟨0, isoS_ncoefs⟩)
  obtain ⟨res2, hres2, -⟩ := hci.calcAll (a := analyzeT0) t5 rfl
  obtain ⟨A', w5, hA'⟩ := @hsucc res2 (by rw [hAs']; exact hres2)
    (fun _ => by rw [hAs']; exact hc5.surfaceVolume w4.backend) (fun k hk => by cases hk)
  obtain ⟨o'', res3, contribs', sv', hU2⟩ := hup hA'
  have hdrawn : Drawn (fun _ => True) 0 w5 A' := .event (.select none) hcall hA'
  obtain ⟨S, -, c4, -, -⟩ := hU2.shape
  rw [hq4] at c4
  obtain ⟨x0, x1, x2, x3, rfl⟩ := list_four c4
  have hda := hU2.dashed
  rw [if_pos hq4, hAs'] at hda
  obtain ⟨y, hy, rfl⟩ := hda
  have hl2 := hU2.lines
  rw [show ({ A with range := none } : Analyzer).lines = A.lines from rfl, hlines] at hl2
  refine ⟨w5, A', o'', _, y.squeeze, ⟨w', w4, A, he.trans hA, hstep, hA'⟩, hU2.after, hU2.intQ.trans hq4, hl2, rfl, ?_, ?_⟩
  · simp [newLines, drawnLines, setLines, setLast]
  · intro r hr
    have hr5 := hdrawn.session.reachable
    have : (calcOp 0 (sliderVals A'.sliders) w5).1 = .ok res3 := by
      rw [(calcOp_eq hr5.inv hU2.after _).1, hU2.backend, fresh_calc_filled (hU2.again r4), hU2.calc_]
    rw [show (calcOp 0 (sliderVals A'.sliders) w5).1 = .ok r from hr] at this
    cases this
    have hcc := hU2.calc_
    rw [hAs'] at hcc
    obtain ⟨ρ, hx⟩ := ana_fsite (b := w4.backend) (I := I) (τ := τ) (ω := ω') (N := N) hc5 m5 t5 p5 pd5 I5
      (by rw [hframe _ (by decide), hpars]; simp [Dict.get?])
      (by rw [hframe _ (by decide), hpars]; simp [Dict.get?]) hω
      (by rw [hframe _ (by decide), hpars]; simp [Dict.get?])
      (by
        intro k a hk
        by_cases h : k = "omega"
        · subst h
          rw [hω] at hk; cases hk
          exact ⟨ω', rfl⟩
        · rw [hframe k h, hpars] at hk
          have := Dict.mem_of_get? hk
          simp only [List.mem_cons, Prod.mk.injEq, List.not_mem_nil, or_false] at this
          rcases this with ⟨-, rfl⟩ | ⟨-, rfl⟩ | ⟨-, rfl⟩ | ⟨-, rfl⟩
          exacts [⟨0, rfl⟩, ⟨τ, rfl⟩, ⟨ω, rfl⟩, ⟨N, rfl⟩])
    refine dashed_not_volume hc5 t5 V5 S5 s5 d5 hI hN hx hy hcc ?_
    intro t ht'
    have htau : (Fresh.update o4 (sliderVals sl)).params.get? "tau" = some (arr1 τ) := by
      rw [hframe _ (by decide), hpars]; simp [Dict.get?]
    have := (par_below (e := .sym "tau") (by rw [pd5]; rfl) ht' (by simp [Expr.free]) htau).length
    intro h0
    rw [h0] at this
    exact absurd this (by show ¬ 1 ≤ 0; omega)

end

end RT1
