import Verif.Lemmas.Rows

/-! Concrete objects for examples: histories, the states they lead to, and observations. -/

namespace RT1

noncomputable section
open Classical

/-- Getters report what the attributes hold. -/
theorem SiteAt.of_fsite {full : Bool} {w : World} (hw : Inv full w) {id : ℕ} {o : Obj}
    (ho : w.objs id = some o) {idx : List ℕ} {x : Site} (h : FSite w.backend o idx x) :
    SiteAt w id idx x := by
  have hd : DuringE full w id o w := During.init hw ho trivial
  refine ⟨?_, ?_, ?_, ?_, ?_, ?_, ?_, ?_, ?_, ?_⟩
  · rw [(Refines.t0 w hd).1]; exact h.t0
  · rw [(Refines.tex w hd).1]; exact h.tex
  · rw [(Refines.p0 w hd).1]; exact h.p0
  · rw [(Refines.pex w hd).1]; exact h.pex
  · rw [evalParam_eq hw ho]; exact h.tau
  · rw [evalParam_eq hw ho]; exact h.omega
  · rw [evalParam_eq hw ho]; exact h.NormBRDF
  · rw [evalParam_eq hw ho]; exact h.bsf
  · intro o' ho'; rw [ho] at ho'; cases ho'; exact h.I0
  · intro o' ho'; rw [ho] at ho'; cases ho'; exact h.params

theorem FSite.filled {b b' : Backend} {o o' : Obj} {idx : List ℕ} {x : Site} (hf : Filled b' o o')
    (h : FSite b o idx x) : FSite b o' idx x := by
  refine ⟨?_, ?_, ?_, ?_, ?_, ?_, ?_, ?_, ?_, ?_⟩
  · rw [hf.f_ang]; exact h.t0
  · rw [hf.f_tex]; exact h.tex
  · rw [hf.f_ang]; exact h.p0
  · rw [hf.f_pex]; exact h.pex
  · rw [hf.f_par]; exact h.tau
  · rw [hf.f_par]; exact h.omega
  · rw [hf.f_par]; exact h.NormBRDF
  · rw [hf.f_par]; exact h.bsf
  · rw [hf.I0]; exact h.I0
  · rw [hf.params]; exact h.params

/-- Observations exist wherever the memo-free evaluation succeeds. -/
theorem observes_of {call : ℕ → Dict → M Arr} {F : Backend → Obj → Py Arr} {x : Site}
    {w : World} (hw : Reachable w) {id : ℕ} {o : Obj} (ho : w.objs id = some o) (kw : Dict)
    (heq : ∀ w id o kw, Inv true w → w.objs id = some o →
      (call id kw w).1 = F w.backend (Fresh.update o kw) ∧
      DuringE true (w.updated id o kw) id (Fresh.update o kw) (call id kw w).2)
    {arr : Arr} (hF : F w.backend (Fresh.update o kw) = .ok arr) {idx : List ℕ}
    (hs : FSite w.backend (Fresh.update o kw) idx x) :
    ∃ w', call id kw w = (.ok arr, w') ∧ SiteAt w' id idx x ∧
      ∃ o', w'.objs id = some o' ∧ o'.cfg = o.cfg := by
  obtain ⟨h1, h2⟩ := heq w id o kw hw.inv ho
  obtain ⟨o', ho', hf⟩ := h2.obj
  refine ⟨(call id kw w).2, ?_, ?_, o', ho', ?_⟩
  · rw [← hF, ← h1]
  · refine SiteAt.of_fsite h2.inv ho' ?_
    rw [h2.backend]
    exact FSite.filled hf hs
  · rw [hf.cfg]; rfl

theorem Observes.of_surface {w : World} (hw : Reachable w) {id : ℕ} {o : Obj}
    (ho : w.objs id = some o) (kw : Dict) {arr : Arr}
    (hF : Fresh.surface w.backend (Fresh.update o kw) = .ok arr) {idx : List ℕ} {x : Site}
    (hv : Arr.Valid arr.shape idx) (hs : FSite w.backend (Fresh.update o kw) idx x) :
    Observes RT1.surface o.cfg x (arr.get idx) := by
  obtain ⟨w', h1, h2, o', h3, h4⟩ := observes_of hw ho kw
    (fun _ _ _ _ hw ho => surface_eq hw ho _) hF hs
  exact ⟨w, id, kw, arr, w', idx, hw.keeps, h1, hv, rfl, h2, o', h3, h4⟩

theorem Observes.of_volume {w : World} (hw : Reachable w) {id : ℕ} {o : Obj}
    (ho : w.objs id = some o) (kw : Dict) {arr : Arr}
    (hF : Fresh.volume w.backend (Fresh.update o kw) = .ok arr) {idx : List ℕ} {x : Site}
    (hv : Arr.Valid arr.shape idx) (hs : FSite w.backend (Fresh.update o kw) idx x) :
    Observes RT1.volume o.cfg x (arr.get idx) := by
  obtain ⟨w', h1, h2, o', h3, h4⟩ := observes_of hw ho kw
    (fun _ _ _ _ hw ho => volume_eq hw ho _) hF hs
  exact ⟨w, id, kw, arr, w', idx, hw.keeps, h1, hv, rfl, h2, o', h3, h4⟩

/-! ### a monostatic object -/

/-- A constructor call, the angles, the parameters. -/
def demoOps (V SRF : Scatter) (q s d : Bool) (I t p : Arr) (kw : Dict) : List Op :=
  [.new V SRF q s d none none I,
   .setGeometry 0 [("t_0", some t), ("p_0", some p)],
   .updateParams 0 kw]

/-- The object after `demoOps`. -/
def demoObj (V SRF : Scatter) (q s d : Bool) (I t p : Arr) (kw : Dict) : Obj where
  V := V
  SRF := SRF
  intQ := q
  sig0 := s
  dB := d
  I0 := I
  pdef := defaultDefs
  params := Dict.update [("bsf", Arr.lit 0)] (kw.map fun p => (p.1, p.2.atleast1d))
  fixed := []
  mono := true
  ang := Function.update (Function.update (fun _ => none) .t0 (some t.atleast1d)) .p0
    (some p.atleast1d)
  geom := ⟨.sym "theta_0", .sym "theta_0", .sym "phi_0", .sym "phi_0"⟩
  fn_ := none
  fnevals_ := none
  fnInput := none
  fnevalsInput := none
  analyze := true

/-- The state after `demoOps`. -/
def demoW (b : Backend) (V SRF : Scatter) (q s d : Bool) (I t p : Arr) (kw : Dict) : World :=
  run (initWorld b) (demoOps V SRF q s d I t p kw)

theorem demo_reachable (b : Backend) (V SRF : Scatter) (q s d : Bool) (I t p : Arr) (kw : Dict) :
    Reachable (demoW b V SRF q s d I t p kw) := by
  refine ⟨b, _, ?_, rfl⟩
  intro op hop
  simp only [demoOps, List.mem_cons, List.not_mem_nil, or_false] at hop
  rcases hop with rfl | rfl | rfl <;> trivial

theorem run_nil (w : World) : run w [] = w := rfl

theorem setGeometry_mono_eq {w : World} {id : ℕ} {o : Obj} (ho : w.objs id = some o)
    (hf : o.fixed = []) (t p : Arr) :
    setGeometry id [("t_0", some t), ("p_0", some p)] w =
      (let a' := Function.update (Function.update o.ang .t0 (some t.atleast1d)) .p0 (some p.atleast1d)
       let c' := { w.caches with mu0 := [], muEx := [], mu0x := [], muExx := [] }
       let f' := Function.update w.objs id (some { o with ang := a' })
       (.ok (), { w with caches := c', objs := f' })) := by
  have h1 : ¬ ∃ q ∈ [("t_0", some t), ("p_0", some p)], AngN.ofName q.1 = none := by
    simp [AngN.ofName]
  have h2 : ¬ ((∃ q ∈ [("t_0", some t), ("p_0", some p)], q.1 = "t_ex" ∨ q.1 = "p_ex") ∧
      o.mono = true) := by simp
  unfold setGeometry
  rw [if_neg h1, bind_ok (getObj_some ho), if_neg h2]
  simp [setAngles, AngN.ofName, clearGeom, modW, modObj, getObj, ho, hf, bind, pure]

theorem demo_objs (b : Backend) (V SRF : Scatter) (q s d : Bool) (I t p : Arr) (kw : Dict) :
    (demoW b V SRF q s d I t p kw).objs 0 = some (demoObj V SRF q s d I t p kw) := by
  unfold demoW demoOps
  rw [run_cons]
  have h1 : (step (.new V SRF q s d none none I) (initWorld b)).2.objs 0 =
      some { demoObj V SRF q s d I t p kw with
        params := [("bsf", Arr.lit 0)], ang := fun _ => none } := by
    simp [step, newObj, getW, modW, initWorld, setMonostatic, resetGeom, clearGeom, modObj, bind, pure,
      demoObj]
  generalize hw1 : (step (.new V SRF q s d none none I) (initWorld b)).2 = w1 at h1 ⊢
  rw [run_cons]
  have h2 : (step (.setGeometry 0 [("t_0", some t), ("p_0", some p)]) w1).2.objs 0 =
      some { demoObj V SRF q s d I t p kw with params := [("bsf", Arr.lit 0)] } := by
    show (setGeometry 0 [("t_0", some t), ("p_0", some p)] w1).2.objs 0 = _
    rw [setGeometry_mono_eq h1 rfl]
    simp [demoObj]
  generalize hw2 : (step (.setGeometry 0 [("t_0", some t), ("p_0", some p)]) w1).2 = w2 at h2 ⊢
  rw [run_cons, run_nil]
  show (updateParams 0 kw w2).2.objs 0 = _
  rw [updateParams_eq h2]
  show Function.update w2.objs 0 _ 0 = _
  rw [Function.update_self]
  simp [Fresh.update, demoObj, defaultDefs, Dict.keys]

theorem step_backend (op : Op) (w : World) : (step op w).2.backend = w.backend := by
  cases ht : op.target with
  | none =>
    cases op <;> simp only [Op.target, reduceCtorEq] at ht
    rfl
  | some id =>
    by_cases hc : op.creates
    · cases op <;> simp only [Op.target, Op.creates, reduceCtorEq, Option.some.injEq] at ht hc
      rename_i id'
      subst ht
      show ((pickle _ >>= fun _ => pure ()) w).2.backend = _
      have h := pickle_eq id' w
      cases ho : w.objs id' with
      | none => rw [ho] at h; rw [bind_error h]; rfl
      | some o => rw [ho] at h; rw [bind_ok h]; rfl
    · exact (frame_step ht hc w w (FrameP.refl w id)).backend

theorem demo_backend (b : Backend) (V SRF : Scatter) (q s d : Bool) (I t p : Arr) (kw : Dict) :
    (demoW b V SRF q s d I t p kw).backend = b := by
  unfold demoW
  have : ∀ (ops : List Op) w, (run w ops).backend = w.backend := by
    intro ops
    induction ops with
    | nil => intro w; rfl
    | cons op ops ih =>
      intro w
      rw [run_cons, ih]
      exact step_backend op w
  rw [this]
  rfl

/-! ### parameter values -/

theorem tryCatch_ok {α : Type} {x : Py α} {h : PyErr → Py α} {z : α} (hh : ∀ e, h e ≠ .ok z)
    (hz : tryCatch x h = .ok z) : x = .ok z := by
  cases x with
  | ok a => exact hz
  | error e => exact absurd hz (hh e)

/-- A parameter defined by an expression has the value of the expression for the current
entries of the parameter dictionary. -/
theorem PW.parStr {b : Backend} {o : Obj} {p : PName} {e : Expr} (hp : o.pdef p = .str e)
    (idx : List ℕ) : PW (Fresh.par b o p) idx (e.evalX (o.params.valAt idx)) := by
  intro z hz
  unfold Fresh.par Fresh.pfun Fresh.symbs at hz
  rw [hp] at hz
  simp only at hz
  obtain ⟨f, hf, hz⟩ := ok_bind hz
  obtain ⟨l, hl, hf⟩ := ok_bind hf
  cases hf
  have hz' := tryCatch_ok (by
    intro e' h
    split_ifs at h) hz
  obtain ⟨kw, hkw, hcall⟩ := ok_bind hz'
  rw [Lam.compile_ok hl] at hcall
  obtain ⟨bnd, hb, hev⟩ := ok_bind hcall
  obtain ⟨vals, hv, rfl⟩ := Lam.bindArgs_ok hb
  rw [Lam.evalBound_at hev idx]
  refine Expr.evalX_congr fun s hs => ?_
  have hv' : e.free.dedup.mapM (fun k => kw.get? k) = some vals := by simpa using hv
  have hs' : s ∈ e.free.dedup := by simpa using hs
  rw [List.nil_append, Lam.envAt_zip hv', if_pos hs']
  unfold Dict.valAt
  rw [pick_get? hkw hs']

theorem PW.parVal {b : Backend} {o : Obj} {p : PName} {a : Arr} (hp : o.pdef p = .val a)
    (idx : List ℕ) : PW (Fresh.par b o p) idx (a.at' idx) := by
  intro z hz
  unfold Fresh.par Fresh.pfun at hz
  rw [hp] at hz
  cases hz
  rfl

/-- Value of a parameter that can be evaluated. -/
theorem HasVal.of_succ {x : Py Arr} {S idx : List ℕ} {v : ℝ} (h : Succ x S)
    (hp : PW x idx (XR.fin v)) : HasVal x idx v := by
  obtain ⟨a, ha, -⟩ := h
  exact ⟨a, ha, hp a ha⟩

/-! ### scalar inputs -/

/-- Values for tau, omega, NormBRDF, bsf. -/
def demoKw (τ ω N β : ℝ) : Dict :=
  [("tau", Arr.lit τ), ("omega", Arr.lit ω), ("NormBRDF", Arr.lit N), ("bsf", Arr.lit β)]

/-- Additional parameters do not matter. -/
def demoSite (I t p τ ω N β : ℝ) : Site where
  t0 := t
  tex := t
  p0 := p
  pex := p + Real.pi
  I0 := I
  tau := τ
  omega := ω
  NormBRDF := N
  bsf := β
  ρ := fun k => if k = "tau" then τ else if k = "omega" then ω else if k = "NormBRDF" then N else β

theorem demo_params (V SRF : Scatter) (q s d : Bool) (I t p : Arr) (τ ω N β : ℝ) :
    (demoObj V SRF q s d I t p (demoKw τ ω N β)).params =
      [("bsf", arr1 β), ("tau", arr1 τ), ("omega", arr1 ω), ("NormBRDF", arr1 N)] := by
  simp [demoObj, demoKw, Dict.update, Dict.set, arr1]

/-- A scattering function without own parameters. -/
def Scatter.Plain (s : Scatter) : Prop :=
  ∀ n ∈ s.phase.free, n ∈ ["theta_0", "theta_ex", "phi_0", "phi_ex"]

theorem demo_complete {V SRF : Scatter} (hV : V.Plain) (hS : SRF.Plain) (q s d : Bool)
    (I t p τ ω N β : ℝ) :
    Complete (demoObj V SRF q s d (Arr.lit I) (Arr.lit t) (Arr.lit p) (demoKw τ ω N β)) [1] where
  t0 := ⟨arr1 t, by simp [demoObj, arr1], by simp [arr1, Arr.atleast1d, Arr.lit, Arr.num, Arr.Fits]⟩
  p0 := ⟨arr1 p, by simp [demoObj, arr1], by simp [arr1, Arr.atleast1d, Arr.lit, Arr.num, Arr.Fits]⟩
  tex := Or.inl rfl
  pex := Or.inl rfl
  I0 := by simp [demoObj, Arr.lit, Arr.num]
  params := by
    intro k a hk
    rw [demo_params] at hk
    have : ∀ r, Arr.Fits (arr1 r).shape [1] := fun r => by
      simp [arr1, Arr.atleast1d, Arr.lit, Arr.num, Arr.Fits]
    simp only [Dict.get?, List.find?_cons] at hk
    split at hk
    · cases hk; exact this _
    split at hk
    · cases hk; exact this _
    split at hk
    · cases hk; exact this _
    split at hk
    · cases hk; exact this _
    · cases hk
  defs := by
    intro p'
    rw [demo_params]
    cases p' <;> simp [demoObj, defaultDefs, Expr.free, Dict.keys]
  V := fun n hn => List.mem_append_left _ (hV n hn)
  SRF := fun n hn => List.mem_append_left _ (hS n hn)

theorem demo_fsite (b : Backend) {V SRF : Scatter} (hV : V.Plain) (hS : SRF.Plain) (q s d : Bool)
    (I t p τ ω N β : ℝ) :
    FSite b (demoObj V SRF q s d (Arr.lit I) (Arr.lit t) (Arr.lit p) (demoKw τ ω N β)) [0]
      (demoSite I t p τ ω N β) := by
  have hc := demo_complete hV hS q s d I t p τ ω N β
  have h1 : ∀ r, (arr1 r).at' [0] = XR.fin r := fun r => by
    unfold arr1; rw [Arr.at'_atleast1d]; rfl
  have hpar : ∀ pn k r, defaultDefs pn = .str (.sym k) →
      Dict.valAt [("bsf", arr1 β), ("tau", arr1 τ), ("omega", arr1 ω), ("NormBRDF", arr1 N)] [0] k =
        XR.fin r →
      HasVal (Fresh.par b (demoObj V SRF q s d (Arr.lit I) (Arr.lit t) (Arr.lit p)
        (demoKw τ ω N β)) pn) [0] r := by
    intro pn k r hd hv
    refine HasVal.of_succ (hc.s_par b pn) ?_
    have := PW.parStr (b := b) (o := demoObj V SRF q s d (Arr.lit I) (Arr.lit t) (Arr.lit p)
      (demoKw τ ω N β)) (p := pn) (e := .sym k) hd [0]
    rw [demo_params] at this
    simp only [Expr.evalX] at this
    rw [hv] at this
    exact this
  refine ⟨⟨arr1 t, by simp [Fresh.ang, demoObj, arr1], h1 t⟩,
    ⟨arr1 t, by simp [Fresh.tex, Fresh.ang, demoObj, arr1], h1 t⟩,
    ⟨arr1 p, by simp [Fresh.ang, demoObj, arr1], h1 p⟩, ?_, ?_, ?_, ?_, ?_, rfl, ?_⟩
  · have := hc.s_pex
    refine HasVal.of_succ this ?_
    unfold Fresh.pex
    have hm : (demoObj V SRF q s d (Arr.lit I) (Arr.lit t) (Arr.lit p) (demoKw τ ω N β)).mono = true := rfl
    rw [if_pos hm]
    refine PW.bind fun a ha => ?_
    have ha' : a = arr1 p := by simp [Fresh.ang, demoObj] at ha; exact ha.symm
    subst ha'
    exact PW.map2 (u := XR.fin p) (v := XR.fin Real.pi) (h1 p) rfl
  · exact hpar .tau "tau" τ rfl (by simp [Dict.valAt, Dict.get?, h1])
  · exact hpar .omega "omega" ω rfl (by simp [Dict.valAt, Dict.get?, h1])
  · exact hpar .NormBRDF "NormBRDF" N rfl (by simp [Dict.valAt, Dict.get?, h1])
  · exact hpar .bsf "bsf" β rfl (by simp [Dict.valAt, Dict.get?, h1])
  · intro k a hk
    rw [demo_params] at hk
    simp only [Dict.get?, List.find?_cons] at hk
    simp only [demoSite]
    split at hk
    · rename_i h; simp only [decide_eq_true_eq] at h; subst h; cases hk; simp [h1]
    split at hk
    · rename_i h; simp only [decide_eq_true_eq] at h; subst h; cases hk; simp [h1]
    split at hk
    · rename_i h; simp only [decide_eq_true_eq] at h; subst h; cases hk; simp [h1]
    split at hk
    · rename_i h; simp only [decide_eq_true_eq] at h; subst h; cases hk; simp [h1]
    · cases hk

theorem demo_update (V SRF : Scatter) (q s d : Bool) (I t p : Arr) (τ ω N β : ℝ) :
    Fresh.update (demoObj V SRF q s d I t p (demoKw τ ω N β)) [] =
      demoObj V SRF q s d I t p (demoKw τ ω N β) := by
  have h : "bsf" ∈ (demoObj V SRF q s d I t p (demoKw τ ω N β)).params.keys := by
    rw [demo_params]; simp [Dict.keys]
  unfold Fresh.update
  simp [demoObj, defaultDefs] at h ⊢
  simp [h]
  simp [Dict.update]

/-- Settings of the examples. -/
def demoCfg (V SRF : Scatter) (q s d : Bool) : Cfg := ⟨V, SRF, q, s, d⟩

theorem shape_one {m z : Arr} (h1 : m.shape = [1]) (h2 : Arr.Fits m.shape z.shape)
    (h3 : Arr.Fits z.shape [1]) : Arr.Valid z.shape [0] := by
  rw [h1] at h2
  rw [Arr.Fits.antisymm h3 h2]
  simp [Arr.Valid]

theorem demo_mu0 (V SRF : Scatter) (q s d : Bool) (I : Arr) (t : ℝ) (p : Arr) (kw : Dict) :
    ∃ m, Fresh.mu0 (demoObj V SRF q s d I (Arr.lit t) p kw) = .ok m ∧ m.shape = [1] := by
  refine ⟨Arr.cos (arr1 t), ?_, rfl⟩
  simp [Fresh.mu0, Fresh.ang, demoObj, arr1]
  rfl

/-- `surface()` of the example object returns a value. -/
theorem demo_surface {V SRF : Scatter} (hV : V.Plain) (hS : SRF.Plain) (q s d : Bool)
    (I t p τ ω N β : ℝ) :
    ∃ r, Observes RT1.surface (demoCfg V SRF q s d) (demoSite I t p τ ω N β) r := by
  have hc := demo_complete hV hS q s d I t p τ ω N β
  have ho := demo_objs .sympy V SRF q s d (Arr.lit I) (Arr.lit t) (Arr.lit p) (demoKw τ ω N β)
  have hr := demo_reachable .sympy V SRF q s d (Arr.lit I) (Arr.lit t) (Arr.lit p) (demoKw τ ω N β)
  have hb := demo_backend .sympy V SRF q s d (Arr.lit I) (Arr.lit t) (Arr.lit p) (demoKw τ ω N β)
  obtain ⟨x, hx, hfx⟩ := hc.s_surface .sympy
    (Fresh.dVol .sympy _) (Fresh.dSrf .sympy _)
  obtain ⟨z, hz, hfz⟩ := hc.s_convert .sympy (Fresh.dVol .sympy _) (Fresh.dSrf .sympy _) hfx
  have hF : Fresh.surface .sympy (demoObj V SRF q s d (Arr.lit I) (Arr.lit t) (Arr.lit p)
      (demoKw τ ω N β)) = .ok z := by
    unfold Fresh.surface Fresh.acc0
    rw [hx]
    exact hz
  obtain ⟨m, hm, hms⟩ := demo_mu0 V SRF q s d (Arr.lit I) t (Arr.lit p) (demoKw τ ω N β)
  have hfm := Below.surface_mu0 hm x hx
  have hzs := convert_shape hz hm hfm (by simp [demoObj, Arr.lit, Arr.num])
  refine ⟨z.get [0], Observes.of_surface hr ho [] ?_ ?_ ?_⟩
  · rw [hb, demo_update]; exact hF
  · rw [hzs]; exact shape_one hms hfm hfx
  · rw [hb, demo_update]; exact demo_fsite .sympy hV hS q s d I t p τ ω N β

/-- `volume()` of the example object returns a value. -/
theorem demo_volume {V SRF : Scatter} (hV : V.Plain) (hS : SRF.Plain) (q s d : Bool)
    (I t p τ ω N β : ℝ) :
    ∃ r, Observes RT1.volume (demoCfg V SRF q s d) (demoSite I t p τ ω N β) r := by
  have hc := demo_complete hV hS q s d I t p τ ω N β
  have ho := demo_objs .sympy V SRF q s d (Arr.lit I) (Arr.lit t) (Arr.lit p) (demoKw τ ω N β)
  have hr := demo_reachable .sympy V SRF q s d (Arr.lit I) (Arr.lit t) (Arr.lit p) (demoKw τ ω N β)
  have hb := demo_backend .sympy V SRF q s d (Arr.lit I) (Arr.lit t) (Arr.lit p) (demoKw τ ω N β)
  obtain ⟨x, hx, hfx⟩ := hc.s_volume .sympy
    (Fresh.dVol .sympy _) (Fresh.dSrf .sympy _)
  obtain ⟨z, hz, hfz⟩ := hc.s_convert .sympy (Fresh.dVol .sympy _) (Fresh.dSrf .sympy _) hfx
  have hF : Fresh.volume .sympy (demoObj V SRF q s d (Arr.lit I) (Arr.lit t) (Arr.lit p)
      (demoKw τ ω N β)) = .ok z := by
    unfold Fresh.volume Fresh.acc0
    rw [hx]
    exact hz
  obtain ⟨m, hm, hms⟩ := demo_mu0 V SRF q s d (Arr.lit I) t (Arr.lit p) (demoKw τ ω N β)
  have hfm := Below.volume_mu0 hm x hx
  have hzs := convert_shape hz hm hfm (by simp [demoObj, Arr.lit, Arr.num])
  refine ⟨z.get [0], Observes.of_volume hr ho [] ?_ ?_ ?_⟩
  · rw [hb, demo_update]; exact hF
  · rw [hzs]; exact shape_one hms hfm hfx
  · rw [hb, demo_update]; exact demo_fsite .sympy hV hS q s d I t p τ ω N β

end

end RT1
