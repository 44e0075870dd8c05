import Verif.Lemmas.AnalyzeX

/-! The analyzer for an example object; an overlay that fails. -/

namespace RT1

noncomputable section
open Classical

/-- Isotropic surface and the sympy backend: the values of the BRDF are a number. -/
theorem iso_srf {o : Obj} {T : List ℕ} (hc : Complete o T) (hS : o.SRF = isoS) (dv ds : String → Py Lam) :
    Succ (Fresh.acc .sympy o dv ds).srfCalc [] := by
  obtain ⟨z, hz, -⟩ := hc.s_srf .sympy dv ds
  refine ⟨z, hz, ?_⟩
  obtain ⟨a1, e1, f1⟩ := hc.s_t0
  obtain ⟨a2, e2, f2⟩ := hc.s_tex
  obtain ⟨a3, e3, f3⟩ := hc.s_p0
  obtain ⟨a4, e4, f4⟩ := hc.s_pex
  have hz' : ((do
    let a ← Fresh.ang o .t0
    let b' ← Fresh.tex o
    let c ← Fresh.ang o .p0
    let d' ← Fresh.pex o
    liftPy (o.SRF.calcVal .sympy a b' c d' o.params)) : Py Arr) = .ok z := hz
  rw [e1, e2, e3, e4, hS] at hz'
  simp only [okb, liftPy_py] at hz'
  unfold Scatter.calcVal Lam.compile Lam.call at hz'
  simp only [okb] at hz'
  cases hb : Lam.bindArgs .sympy (["theta_0", "theta_ex", "phi_0", "phi_ex"] ++ o.params.keys)
      [a1, a2, a3, a4] o.params with
  | error e => rw [hb] at hz'; cases hz'
  | ok bnd =>
    rw [hb] at hz'
    simp only [okb] at hz'
    have hfree : isoS.phase.free = [] := by simp [isoS, Scatter.phase, Scatter.primPhase, Expr.free]
    unfold Lam.evalBound at hz'
    simp only [hfree] at hz'
    simp [Arr.bshapes] at hz'
    rw [← hz']
    trivial

/-- Shape of the surface contribution: omega does not matter. -/
theorem iso_surface {o : Obj} {S T : List ℕ} (hc : Complete o T) (hS : o.SRF = isoS) (hm : o.mono = true)
    {a : Arr} (ha : o.ang .t0 = some a) (haS : Arr.Fits a.shape S) (hI : Arr.Fits o.I0.shape S)
    (hp : ∀ p, p ≠ .omega → Succ (Fresh.par .sympy o p) S) (dv ds : String → Py Lam) :
    Succ (Fresh.acc .sympy o dv ds).surface S := by
  have ha' : Fresh.ang o .t0 = .ok a := by simp [Fresh.ang, ha]
  have m0 : Succ (Fresh.mu0 o) S := by
    unfold Fresh.mu0
    rw [ha']
    exact ⟨_, rfl, haS⟩
  have m1 : Succ (Fresh.muEx o) S := by
    unfold Fresh.muEx Fresh.tex
    rw [if_pos hm, ha']
    exact ⟨_, rfl, haS⟩
  have hI : Succ (Fresh.acc .sympy o dv ds).I0 S := Succ.of_ok hI
  have hsrf : Succ (Fresh.acc .sympy o dv ds).srfCalc S := by
    obtain ⟨z, h1, h2⟩ := iso_srf hc hS dv ds
    exact ⟨z, h1, by rw [Fits.nil h2]; trivial⟩
  have hat : Succ (Fresh.acc .sympy o dv ds).atten S :=
    Succ.expM (Succ.subM (Succ.negM (Succ.divM (hp .tau (by decide)) m0)) (Succ.divM (hp .tau (by decide)) m1))
  unfold Acc.surface
  refine Succ.bind (Succ.mulM (Succ.mulM hI m0) hsrf) fun a1 h1 => ?_
  refine Succ.bind (Succ.mulM hat (Succ.pure h1)) fun a2 h2 => ?_
  exact Succ.mulM (hp .NormBRDF (by decide)) (Succ.addM (Succ.mulM (Succ.subM (Succ.lit 1) (hp .bsf (by decide))) (Succ.pure h2))
    (Succ.mulM (hp .bsf (by decide)) (Succ.pure h1)))

theorem Below.volume_omega {b : Backend} {o : Obj} {dv ds : String → Py Lam} {t : Arr}
    (ht : Fresh.par b o .omega = .ok t) : Below t.shape (Fresh.acc b o dv ds).volume :=
  Below.bind fun a ha => Below.mul_right (Below.pure
    (Below.mul_left (Below.mul_left (Below.div_left (Below.mul_left (Below.mul_right (Below.self ht))))) a ha))

/-- Several values of omega only: `calc` fails. -/
theorem calc_omega_only {o : Obj} {S T : List ℕ} (hc : Complete o T) (hS : o.SRF = isoS) (hm : o.mono = true)
    {a : Arr} (ha : o.ang .t0 = some a) (haS : Arr.Fits a.shape S) (hI : Arr.Fits o.I0.shape S)
    (hp : ∀ p, p ≠ .omega → Succ (Fresh.par .sympy o p) S) (hq : o.intQ = false)
    {t om : Arr} (ht : Fresh.par .sympy o .tau = .ok t) (htS : t.shape ≠ [])
    (hom : Fresh.par .sympy o .omega = .ok om) (hn : ¬ Arr.Fits om.shape S) :
    Fresh.calcAll .sympy o = .error .valueError := by
  obtain ⟨Is, s1, s2⟩ := iso_surface hc hS hm ha haS hI hp (Fresh.dVol .sympy o) (Fresh.dSrf .sympy o)
  obtain ⟨Iv, v1, v2⟩ := hc.s_volume .sympy (Fresh.dVol .sympy o) (Fresh.dSrf .sympy o)
  refine calcAll_diff hq s1 v1 ht (fun h => hn ?_) (fun h => absurd h htS)
  have := Below.volume_omega hom _ v1
  rw [h] at this
  exact this.trans s2

theorem range_frame {o : Obj} (hb : "bsf" ∈ o.params.keys) {sl : List (String × Slider)} {key k : String}
    (hk : k ∉ sl.map Prod.fst) : (Fresh.update o (rangeVals sl key)).params.get? k = o.params.get? k := by
  rw [Fresh.update_eq hb]
  show (Dict.update _ _).get? k = _
  rw [Dict.get?_update, lastValue_none (by
    simpa [rangeVals, Dict.keys, List.map_map, Function.comp_def] using hk)]
  rfl

theorem slider_frame {o : Obj} (hb : "bsf" ∈ o.params.keys) {sl : List (String × Slider)} {k : String}
    (hk : k ∉ sl.map Prod.fst) : (Fresh.update o (sliderVals sl)).params.get? k = o.params.get? k := by
  rw [Fresh.update_eq hb]
  show (Dict.update _ _).get? k = _
  rw [Dict.get?_update, lastValue_none (by
    simpa [sliderVals, Dict.keys, List.map_map, Function.comp_def] using hk)]
  rfl

/-- The evaluation for the overlay fails if there is only a slider for omega. -/
theorem overlay_fail {o : Obj} (hc : Complete o [100, 1]) (hb : "bsf" ∈ o.params.keys)
    {sl : List (String × Slider)} {key : String} (hk : "omega" ∈ sl.map Prod.fst)
    (hno : ∀ k ∈ sl.map Prod.fst, k = "omega") (hpd : o.pdef = defaultDefs) (hS : o.SRF = isoS)
    (hm : o.mono = true) (ht : o.ang .t0 = some analyzeT0) (hq : o.intQ = false) {τ : ℝ}
    (hτ : o.params.get? "tau" = some (arr1 τ)) :
    Fresh.calcAll .sympy (Fresh.update o (rangeVals sl key)) = .error .valueError := by
  have hc2 : Complete (Fresh.update o (rangeVals sl key)) [100, 20] :=
    hc.updated (by simp [Arr.Fits]) hb fun p hp => by rw [rangeVals_shape p hp]; simp [Arr.Fits]
  have hfr : ∀ k, k ≠ "omega" → (Fresh.update o (rangeVals sl key)).params.get? k = o.params.get? k :=
    fun k hk => range_frame hb fun h => hk (hno k h)
  obtain ⟨xo, hxo, hxo'⟩ := rangeVals_get hb (k := key) hk
  have e0 : (Fresh.update o (rangeVals sl key)).pdef = o.pdef ∧ (Fresh.update o (rangeVals sl key)).ang = o.ang ∧
      (Fresh.update o (rangeVals sl key)).SRF = o.SRF ∧ (Fresh.update o (rangeVals sl key)).I0 = o.I0 ∧
      (Fresh.update o (rangeVals sl key)).mono = o.mono ∧
      (Fresh.update o (rangeVals sl key)).intQ = o.intQ := ⟨rfl, rfl, rfl, rfl, rfl, rfl⟩
  generalize Fresh.update o (rangeVals sl key) = o2 at *
  obtain ⟨d1, d2, d3, d4, d5, d6⟩ := e0
  have hsym : ∀ p : PName, ∃ k, o.pdef p = .str (.sym k) ∧ (p ≠ .omega → k ≠ "omega") ∧ k ∈ o.params.keys := by
    intro p
    have h1 := hc.defs p
    rw [hpd] at h1 ⊢
    cases p <;> exact ⟨_, rfl, by simp, h1 _ (by simp [Expr.free])⟩
  have hpS : ∀ p, p ≠ .omega → Succ (Fresh.par .sympy o2 p) [100, 1] := by
    intro p hp
    obtain ⟨k, h1, h2, h3⟩ := hsym p
    obtain ⟨x, hx⟩ := Dict.get?_of_mem h3
    obtain ⟨y, h4, h5⟩ := par_sym (o := o2) (p := p) (k := k) (by rw [d1, h1]) ((hfr k (h2 hp)).trans hx)
    exact ⟨y, h4, by rw [h5]; exact hc.params k x hx⟩
  obtain ⟨ta, t1, t2⟩ := par_sym (o := o2) (p := .tau) (k := "tau") (by rw [d1, hpd]; rfl)
    ((hfr "tau" (by decide)).trans hτ)
  obtain ⟨om, m1, m2⟩ := par_sym (o := o2) (p := .omega) (k := "omega") (by rw [d1, hpd]; rfl) hxo
  refine calc_omega_only (S := [100, 1]) hc2 (d3.trans hS) (d5.trans hm) (a := analyzeT0) (by rw [d2, ht])
    (Arr.Fits.refl _) (by rw [d4]; exact hc.I0) hpS (d6.trans hq) t1 (by rw [t2]; exact List.cons_ne_nil 1 []) m1 ?_
  rw [m2, hxo']
  simp [Arr.Fits]

/-! ### The example -/

/-- Values of the parameters of the example, as numbers. -/
def numKw (τ ω N : ℝ) : Dict := [("tau", Arr.lit τ), ("omega", Arr.lit ω), ("NormBRDF", Arr.lit N)]

/-- The state of the example. -/
def numW (b : Backend) (V SRF : Scatter) (q s d : Bool) (I t p τ ω N : ℝ) : World :=
  demoW b V SRF q s d (arr1 I) (arr1 t) (arr1 p) (numKw τ ω N)

/-- The object of the example. -/
def numObj (V SRF : Scatter) (q s d : Bool) (I t p τ ω N : ℝ) : Obj :=
  demoObj V SRF q s d (arr1 I) (arr1 t) (arr1 p) (numKw τ ω N)

variable (b : Backend) (V SRF : Scatter) (q s d : Bool) (I t p τ ω N : ℝ)

theorem num_reachable : Reachable (numW b V SRF q s d I t p τ ω N) := demo_reachable ..

theorem num_objs : (numW b V SRF q s d I t p τ ω N).objs 0 = some (numObj V SRF q s d I t p τ ω N) := demo_objs ..

theorem num_backend : (numW b V SRF q s d I t p τ ω N).backend = b := demo_backend ..

theorem num_params : (numObj V SRF q s d I t p τ ω N).params =
    [("bsf", Arr.lit 0), ("tau", arr1 τ), ("omega", arr1 ω), ("NormBRDF", arr1 N)] := by
  simp [numObj, demoObj, numKw, Dict.update, Dict.set, arr1]

theorem num_keys : (numObj V SRF q s d I t p τ ω N).params.keys = ["bsf", "tau", "omega", "NormBRDF"] := by
  rw [num_params]; rfl

theorem num_pdef : (numObj V SRF q s d I t p τ ω N).pdef = defaultDefs := rfl

theorem needs_default {o : Obj} (hpd : o.pdef = defaultDefs) (hV : o.V.Plain) (hS : o.SRF.Plain) (n : String) :
    o.Needs n ↔ n = "tau" ∨ n = "omega" ∨ n = "NormBRDF" ∨ n = "bsf" := by
  unfold Obj.Needs
  rw [hpd]
  constructor
  · rintro ⟨h, h'⟩
    rcases h with ⟨p, e, hp, hn⟩ | h | h
    · cases p <;> simp only [defaultDefs, PDef.str.injEq] at hp <;> subst hp <;>
        simp only [Expr.free, List.mem_singleton] at hn <;> simp [hn]
    · exact absurd (hV n h) h'
    · exact absurd (hS n h) h'
  · rintro (rfl | rfl | rfl | rfl)
    · exact ⟨Or.inl ⟨.tau, _, rfl, by simp [Expr.free]⟩, by decide⟩
    · exact ⟨Or.inl ⟨.omega, _, rfl, by simp [Expr.free]⟩, by decide⟩
    · exact ⟨Or.inl ⟨.NormBRDF, _, rfl, by simp [Expr.free]⟩, by decide⟩
    · exact ⟨Or.inl ⟨.bsf, _, rfl, by simp [Expr.free]⟩, by decide⟩

theorem num_needs (hV : V.Plain) (hS : SRF.Plain) (n : String) : (numObj V SRF q s d I t p τ ω N).Needs n ↔
    n = "tau" ∨ n = "omega" ∨ n = "NormBRDF" ∨ n = "bsf" :=
  needs_default (num_pdef V SRF q s d I t p τ ω N) hV hS n

theorem num_val {k : String} {x : Arr} (h : (numObj V SRF q s d I t p τ ω N).params.get? k = some x) (m : ℕ) :
    Arr.Fits x.shape [m, 1] := by
  rw [num_params] at h
  have := Dict.mem_of_get? h
  simp only [List.mem_cons, Prod.mk.injEq, List.not_mem_nil, or_false] at this
  rcases this with ⟨-, rfl⟩ | ⟨-, rfl⟩ | ⟨-, rfl⟩ | ⟨-, rfl⟩
  · trivial
  all_goals exact ⟨Or.inl rfl, trivial⟩

theorem omega_only {w : World} (hw : Reachable w) {o : Obj} (ho : w.objs 0 = some o)
    (hbk : w.backend = .sympy)
    (hneeds : ∀ n, o.Needs n ↔ n = "tau" ∨ n = "omega" ∨ n = "NormBRDF" ∨ n = "bsf")
    (hkeys : o.params.keys = ["bsf", "tau", "omega", "NormBRDF"])
    (hval : ∀ {k x}, o.params.get? k = some x → ∀ m, Arr.Fits x.shape [m, 1])
    (hpd : o.pdef = defaultDefs) (hSRF : o.SRF = isoS) (hI : Arr.Fits o.I0.shape [100, 1])
    (hq : o.intQ = false) {τ : ℝ} (hτ : o.params.get? "tau" = some (arr1 τ)) :
    (∃ A w', analyze 0 none [("omega", [.number 0, .number 1])] w = (.ok A, w')) ∧
    (analyze 0 (some "omega") [("omega", [.number 0, .number 1])] w).1 = .error .valueError := by
  obtain ⟨sl, w3, o3, r3, ho3, hb3, hst, hm3, ht, -, hc, hn, he, heq⟩ := analyze_ready hw ho
    (ps := [("omega", [.number 0, .number 1])])
    (fun n h => by
      rw [hneeds] at h
      rw [hkeys]
      rcases h with rfl | rfl | rfl | rfl <;> simp)
    (fun p hp => by
      rw [List.mem_singleton.mp hp]
      exact ⟨0, 1, [], rfl, Or.inl rfl⟩) hI (fun k x hx _ => hval hx 100)
    (fun p => by
      rw [hpd]
      cases p <;> simp [defaultDefs, Expr.free])
  have hq2 : o3.intQ = false := (intQ_still hst).trans hq
  have hkm : "omega" ∈ sl.map Prod.fst := (hn _).mpr ⟨by simp, (hneeds _).mpr (Or.inr (Or.inl rfl))⟩
  have hno : ∀ k ∈ sl.map Prod.fst, k = "omega" := fun k h => by simpa using ((hn k).mp h).1
  rw [hbk] at hb3
  obtain ⟨res, hres, -⟩ := hc.calcAll_three w3.backend (a := analyzeT0) ht rfl hq2
  refine ⟨?_, ?_⟩
  · obtain ⟨A, w', hA⟩ := update_succ r3 ho3 (A := ⟨sl, none, none, none⟩) (res := res) hres
      (fun h => by rw [hq2] at h; cases h) (fun k hk => by cases hk)
    exact ⟨A, w', he.trans hA⟩
  refine (congrArg Prod.fst (heq "omega" hkm)).trans ?_
  refine update_fail (A := ⟨sl, some "omega", none, none⟩) (k := "omega") r3 ho3 hres
    (fun h => by rw [hq2] at h; cases h) rfl hkm ?_
  have hb0 := r3.keeps.any.bsfOK ho3
  have hS3 : o3.SRF = o.SRF := by
    simp only [Obj.still, Prod.mk.injEq] at hst; exact hst.2.1
  have hτ' : (Fresh.update o3 (sliderVals sl)).params.get? "tau" = some (arr1 τ) := by
    rw [slider_frame hb0.1 (fun h => by simpa using hno _ h), params_still hst, hτ]
  have hb1 := (hb0.update (sliderVals sl)).1
  rw [hb3]
  exact overlay_fail hc hb1 hkm hno (show o3.pdef = _ by rw [pdef_still hst, hpd])
    (show o3.SRF = _ by rw [hS3, hSRF]) hm3 ht hq2 hτ'

end

end RT1
