import Verif.Lemmas.ScalarCall
import Verif.Props.IntRows
import Verif.Lemmas.Lopsided
import Verif.Lemmas.DemoAny
import Verif.Props.Contrib

/-! Array evaluation is elementwise (C55, C56); which arrays calc() accepts (C57). -/

namespace RT1

noncomputable section
open Classical

/-- **C55**: any entry of a surface array observed at a site is the number returned by the
evaluation in which every input is a python number taken from that site (and that evaluation
succeeds).  `l` lists the custom parameters of the site, as in `param_dict`. -/
theorem C55_surface {c : Cfg} {x : Site} {r : XR} (h : Observes RT1.surface c x r) (b : Backend)
    {mono : Bool} (hx : mono = true → x.tex = x.t0 ∧ x.pex = x.p0 + Real.pi)
    {l : List (String × ℝ)} (hr : x.Reports l)
    (hV : ∀ s ∈ c.V.phase.free, s ∈ ["theta_0", "theta_ex", "phi_0", "phi_ex"] ++ l.map Prod.fst)
    (hS : ∀ s ∈ c.SRF.phase.free, s ∈ ["theta_0", "theta_ex", "phi_0", "phi_ex"] ++ l.map Prod.fst) :
    ∃ arr w', surface 0 [] (scalarW b c.V c.SRF c.intQ c.sig0 c.dB x mono (fun _ => false)
      (scalarKw x l)) = (.ok arr, w') ∧ arr.shape = [1] ∧ arr.get [0] = r := by
  obtain ⟨⟨arr, w', he, hs, ho⟩, -⟩ := scalar_site_call b c.intQ c.sig0 c.dB (fun _ => false) hx hr hV hS
  exact ⟨arr, w', he, hs, ho.surface_unique h⟩

/-- **C55** for the volume contribution. -/
theorem C55_volume {c : Cfg} {x : Site} {r : XR} (h : Observes RT1.volume c x r) (b : Backend)
    {mono : Bool} (hx : mono = true → x.tex = x.t0 ∧ x.pex = x.p0 + Real.pi)
    {l : List (String × ℝ)} (hr : x.Reports l)
    (hV : ∀ s ∈ c.V.phase.free, s ∈ ["theta_0", "theta_ex", "phi_0", "phi_ex"] ++ l.map Prod.fst)
    (hS : ∀ s ∈ c.SRF.phase.free, s ∈ ["theta_0", "theta_ex", "phi_0", "phi_ex"] ++ l.map Prod.fst) :
    ∃ arr w', volume 0 [] (scalarW b c.V c.SRF c.intQ c.sig0 c.dB x mono (fun _ => false)
      (scalarKw x l)) = (.ok arr, w') ∧ arr.shape = [1] ∧ arr.get [0] = r := by
  obtain ⟨-, arr, w', he, hs, ho⟩ := scalar_site_call b c.intQ c.sig0 c.dB (fun _ => false) hx hr hV hS
  exact ⟨arr, w', he, hs, ho.volume_unique h⟩

/-- **C56** (partial): any entry of an interaction array whose inputs are aligned with the
fn-coefficient axis (`ObservesP`; that is what fails in the counterexample below) is, for
directions strictly between nadir and horizon, the number returned by the scalar evaluation at
that site.  Missing: arrays of rank ≥ 2 with a sympy-constant fn-coefficient. -/
theorem C56_interaction_partial {c : Cfg} {x : Site} {r : XR} {mono : Bool}
    (h : ObservesP c ⟨mono, []⟩ x r) (hq : c.intQ = true) (b : Backend) (hob : x.Oblique)
    (hx : mono = true → x.tex = x.t0 ∧ x.pex = x.p0 + Real.pi)
    {l : List (String × ℝ)} (hr : x.Reports l)
    (hV : ∀ s ∈ c.V.phase.free, s ∈ ["theta_0", "theta_ex", "phi_0", "phi_ex"] ++ l.map Prod.fst)
    (hS : ∀ s ∈ c.SRF.phase.free, s ∈ ["theta_0", "theta_ex", "phi_0", "phi_ex"] ++ l.map Prod.fst)
    {nV nS : ℕ} (hnV : c.V.ncoefs = .ok (nV + 1)) (hnS : c.SRF.ncoefs = .ok (nS + 1))
    (hfn : ∀ g, ∃ fs, fnCoefs c.V c.SRF g = .ok fs) (hI : c.sig0 = true → x.I0 ≠ 0) :
    ∃ arr w', interaction 0 [] (scalarW b c.V c.SRF true c.sig0 c.dB x mono (fun _ => false)
      (scalarKw x l)) = (.ok arr, w') ∧ Arr.Valid arr.shape [0] ∧ arr.get [0] = r := by
  obtain ⟨arr, w', he, hs, ho⟩ := scalar_interaction_call b c.sig0 c.dB hx hr hV hS hfn ⟨nV, hnV⟩ ⟨nS, hnS⟩
  obtain ⟨V, S, q, sg, d⟩ := c
  subst hq
  exact ⟨arr, w', he, hs, C11_own_values hnV hnS hob hI ho h⟩

/-- C56 is false in general: for isotropic functions (sympy backend) and arrays of the shape
`(3, m)` the interaction contribution raises `ValueError`, although all inputs have the same
shape, and the scalar evaluation succeeds at every index. -/
theorem C56_rank_two_counterexample (s d : Bool) (m : ℕ) (site : List ℕ → Site) :
    (interaction 0 [] (tensW .sympy isoV isoS true s d [m, 3] site)).1 = .error .valueError ∧
    ∀ idx, (site idx).tex = (site idx).t0 → (site idx).pex = (site idx).p0 + Real.pi →
      (site idx).Reports [] →
      ∃ arr w', interaction 0 [] (scalarW .sympy isoV isoS true s d (site idx) true (fun _ => false)
        (scalarKw (site idx) [])) = (.ok arr, w') ∧ Arr.Valid arr.shape [0] := by
  constructor
  · have hw := tensW_reachableP true s d m [3] site .sympy isoV isoS
    have ho : (tensW .sympy isoV isoS true s d (m :: [3]) site).objs 0 =
      some (tensObj isoV isoS true s d (m :: [3]) site) := demo_objs ..
    rw [(interaction_eq hw.reachable.inv ho []).1, tens_update,
      show (tensW .sympy isoV isoS true s d (m :: [3]) site).backend = .sympy from demo_backend ..]
    unfold Fresh.interaction Acc.interaction Fresh.acc0
    rw [iso_fint_error]
    rfl
  · intro idx h1 h2 h3
    obtain ⟨arr, w', he, hv, -⟩ := scalar_interaction_call .sympy s d (mono := true) (fun _ => ⟨h1, h2⟩) h3
      (fun n hn => List.mem_append_left _ (isoV_plain n hn))
      (fun n hn => List.mem_append_left _ (isoS_plain n hn)) iso_fnCoefs ⟨0, isoV_ncoefs⟩ ⟨0, isoS_ncoefs⟩
    exact ⟨arr, w', he, hv⟩

/-- A site as in the hypothesis. -/
example : (witSite 1 1 0 Real.pi).tex = (witSite 1 1 0 Real.pi).t0 ∧
    (witSite 1 1 0 Real.pi).pex = (witSite 1 1 0 Real.pi).p0 + Real.pi ∧
    (witSite 1 1 0 Real.pi).Reports [] := ⟨rfl, by simp [witSite], witSite_reports ..⟩

/-! ## C57 -/

/-- **C57** (partial), without interaction term: if all inputs are given and can be broadcast to
the shape of `t_0`, `calc` returns total, surface and volume in that shape.  Missing: inputs
whose broadcast shape is larger than that of `t_0` (false, see below). -/
theorem C57_calc_partial {w : World} (hw : Reachable w) {id : ℕ} {o : Obj} (ho : w.objs id = some o)
    (kw : Dict) {S : List ℕ} (hq : o.intQ = false) (hc : Complete (Fresh.update o kw) S) {a : Arr}
    (ha : o.ang .t0 = some a) (hs : a.shape = S) :
    ∃ arr w', calcOp id kw w = (.ok arr, w') ∧ arr.shape = S ++ [3] := by
  obtain ⟨z, h1, h2⟩ := hc.calcAll_three w.backend (a := a) ha hs hq
  exact ⟨z, (calcOp id kw w).2, by rw [← h1, ← (calcOp_eq hw.inv ho kw).1], h2⟩

/-- **C57**, without interaction term, exactly: if `surface()` and `volume()` return arrays, `calc`
returns total, surface and volume in the shape of `surface()` if the two shapes agree (or tau is a
python number that is not positive, where the volume is not evaluated), and raises `ValueError`
otherwise. -/
theorem C57_exact {w : World} (hw : Reachable w) {id : ℕ} {o : Obj} (ho : w.objs id = some o)
    (kw : Dict) (hq : o.intQ = false) {s v t : Arr} (hs : (surface id kw w).1 = .ok s)
    (hv : (volume id kw w).1 = .ok v) (ht : (Self.evalParam id .tau (updateParams id kw w).2).1 = .ok t) :
    if v.shape = s.shape ∨ (t.shape = [] ∧ ¬ (t.get []).isPos = true) then
      ∃ arr w', calcOp id kw w = (.ok arr, w') ∧ arr.shape = s.shape ++ [3]
    else (calcOp id kw w).1 = .error .valueError := by
  rw [(surface_eq hw.keeps.inv ho kw).1] at hs
  rw [(volume_eq hw.keeps.inv ho kw).1] at hv
  rw [updateParams_eq ho kw] at ht
  have ht : Fresh.par w.backend (Fresh.update o kw) .tau = .ok t := (evalParam_eq (hw.inv.updated ho kw) (World.updated_objs ..) .tau).symm.trans ht
  obtain ⟨Is, h1, hs⟩ := ok_bind hs
  obtain ⟨Iv, h2, hv⟩ := ok_bind hv
  obtain ⟨m, hm⟩ := surface_mu0_ok h1
  have e1 : s.shape = Is.shape := convert_shape hs hm (Below.surface_mu0 hm _ h1) (Below.surface_I0 _ h1)
  have e2 : v.shape = Iv.shape := convert_shape hv hm (Below.volume_mu0 hm _ h2) (Below.volume_I0 _ h2)
  rw [e1, e2]
  split_ifs with h
  · obtain ⟨z, z1, z2⟩ := calcAll_same (o := Fresh.update o kw) hq h1 h2 ht h
    exact ⟨z, (calcOp id kw w).2, by rw [← z1, ← (calcOp_eq hw.inv ho kw).1], z2⟩
  · rw [not_or, not_and, not_not] at h
    rw [(calcOp_eq hw.inv ho kw).1, calcAll_diff (o := Fresh.update o kw) hq h1 h2 ht h.1 h.2]

/-- **C57** (partial), without interaction term: it is enough that no shape smaller than the common
one holds all of t_0, I_0, tau, bsf.  Missing: a common shape that stems from omega, NormBRDF, the
azimuth angles or a parameter of a scattering function (false, see below). -/
theorem C57_common_partial {w : World} (hw : Reachable w) {id : ℕ} {o : Obj} (ho : w.objs id = some o)
    (kw : Dict) {S : List ℕ} (hq : o.intQ = false) (hc : Complete (Fresh.update o kw) S) {a t β : Arr}
    (ha : o.ang .t0 = some a) (ht : (Self.evalParam id .tau (updateParams id kw w).2).1 = .ok t)
    (hβ : (Self.evalParam id .bsf (updateParams id kw w).2).1 = .ok β)
    (hS : ∀ T, Arr.Fits a.shape T → Arr.Fits o.I0.shape T → Arr.Fits t.shape T → Arr.Fits β.shape T →
      Arr.Fits S T) :
    ∃ arr w', calcOp id kw w = (.ok arr, w') ∧ arr.shape = S ++ [3] := by
  rw [updateParams_eq ho kw] at ht hβ
  have ht : Fresh.par w.backend (Fresh.update o kw) .tau = .ok t := (evalParam_eq (hw.inv.updated ho kw) (World.updated_objs ..) .tau).symm.trans ht
  have hβ : Fresh.par w.backend (Fresh.update o kw) .bsf = .ok β := (evalParam_eq (hw.inv.updated ho kw) (World.updated_objs ..) .bsf).symm.trans hβ
  obtain ⟨z, z1, z2⟩ := hc.calcAll_common w.backend ha hq ht hβ hS
  exact ⟨z, (calcOp id kw w).2, by rw [← z1, ← (calcOp_eq hw.inv ho kw).1], z2⟩

/-- **C57** (partial), with interaction term: in addition, both scattering functions have an
`ncoefs`, the coefficients can be computed, the numbers of axes fit (`Aligned`), and no
parameter name was added since the first evaluation of the interaction term. -/
theorem C57_calc_interaction_partial {w : World} (hw : ReachableP w) {id : ℕ} {o : Obj}
    (ho : w.objs id = some o) (kw : Dict) {S : List ℕ} (hq : o.intQ = true)
    (hc : Complete (Fresh.update o kw) S) {a : Arr} (ha : o.ang .t0 = some a) (hs : a.shape = S)
    (hal : Aligned w.backend (Fresh.update o kw) S.length)
    (hfn : ∃ fs, fnCoefs o.V o.SRF o.geom = .ok fs)
    (hnV : ∃ n, o.V.ncoefs = .ok (n + 1)) (hnS : ∃ n, o.SRF.ncoefs = .ok (n + 1))
    (hpar : ∀ b ∈ (Fresh.update o kw).params.map Prod.snd, Arr.Fits b.shape S)
    (hv : ∀ l, o.fnevals_ = some l →
      l.vars = ["theta_0", "phi_0", "theta_ex", "phi_ex"] ++ (Fresh.update o kw).params.keys) :
    ∃ arr w', calcOp id kw w = (.ok arr, w') ∧ arr.shape = S ++ [4] := by
  have hg := hw.geomOK ho
  have hci : CompleteI w.backend (Fresh.update o kw) S :=
    { base := hc
      aligned := hal
      intQ := hq
      objOK := (hw.reachable.inv.updated ho kw).obj rfl _ _ (World.updated_objs ..)
      fnI := hg.fnI
      fneI := hg.fneI
      fn := hfn
      V := hnV
      SRF := hnS
      params := hpar
      vars := hv }
  obtain ⟨z, h1, h2⟩ := hci.calcAll (a := a) ha hs
  exact ⟨z, (calcOp id kw w).2, by rw [← h1, ← (calcOp_eq hw.reachable.inv ho kw).1], h2⟩

/-- C57 is false for arrays of rank two with isotropic functions and the sympy backend: `calc`
raises `ValueError`. -/
theorem C57_rank_two_counterexample (s d : Bool) (m : ℕ) (site : List ℕ → Site) :
    (calcOp 0 [] (tensW .sympy isoV isoS true s d [m, 3] site)).1 = .error .valueError := by
  have hw := tensW_reachableP true s d m [3] site .sympy isoV isoS
  have ho : (tensW .sympy isoV isoS true s d (m :: [3]) site).objs 0 =
    some (tensObj isoV isoS true s d (m :: [3]) site) := demo_objs ..
  rw [(calcOp_eq hw.reachable.inv ho []).1, tens_update,
    show (tensW .sympy isoV isoS true s d (m :: [3]) site).backend = .sympy from demo_backend ..]
  have hc := tens_complete true s d m [3] site isoV_plain isoS_plain
  have ha : (tensObj isoV isoS true s d (m :: [3]) site).ang .t0 = some (tens (m :: [3]) fun i => (site i).t0) := by
    simp [tensObj, demoObj, tens_atleast1d]
  obtain ⟨Is, s1, s2⟩ := hc.surface_shape .sympy ha rfl
  obtain ⟨Iv, v1, v2⟩ := hc.volume_shape .sympy ha rfl
  obtain ⟨t, t1, t2⟩ := hc.s_par .sympy .tau
  have t3 : t.shape ≠ [] := by
    obtain ⟨y, h, hy⟩ := par_sym (o := tensObj isoV isoS true s d (m :: [3]) site) (p := .tau) (k := "tau")
      (x := tens (m :: [3]) fun i => (site i).tau) rfl (by rw [tens_params]; simp [Dict.get?])
    rw [t1] at h
    rw [Except.ok.inj h, hy]; simp [tens]
  have i1 : (Fresh.acc0 .sympy (tensObj isoV isoS true s d (m :: [3]) site)).interaction = .error .valueError := by
    unfold Acc.interaction Fresh.acc0
    rw [iso_fint_error]
    rfl
  have q1 : (Fresh.acc0 .sympy (tensObj isoV isoS true s d (m :: [3]) site)).intQ = .ok true := rfl
  have t1 : (Fresh.acc0 .sympy (tensObj isoV isoS true s d (m :: [3]) site)).par .tau = .ok t := t1
  unfold Fresh.calcAll Acc.calcTry Acc.calcBody
  simp only [t1, s1, v1, q1, i1, okb, if_neg t3, if_true]
  rfl

/-- C57 is false if the broadcast shape is larger than the shape of `t_0` (sympy backend): one
incidence angle and two values of omega, `calc` raises `ValueError` although all inputs are given
and can be broadcast to two entries. -/
theorem C57_shapes_counterexample (s d : Bool) (I t p τ ω ω' N β : ℝ) :
    Reachable (lopW s d I t p τ ω ω' N β) ∧
    (∃ o, (lopW s d I t p τ ω ω' N β).objs 0 = some o ∧ o.intQ = false ∧
      Complete (Fresh.update o []) [2]) ∧
    (calcOp 0 [] (lopW s d I t p τ ω ω' N β)).1 = .error .valueError := by
  have hw : Reachable (lopW s d I t p τ ω ω' N β) := demo_reachable ..
  have ho : (lopW s d I t p τ ω ω' N β).objs 0 = some (lopObj s d I t p τ ω ω' N β) := demo_objs ..
  refine ⟨hw, ⟨_, ho, rfl, ?_⟩, ?_⟩
  · rw [lop_update]; exact lop_complete ..
  · rw [(calcOp_eq hw.inv ho []).1, lop_update,
      show (lopW s d I t p τ ω ω' N β).backend = .sympy from demo_backend .., lop_calc]

/-- The hypotheses of `C57_calc_partial` hold for arrays of every shape. -/
example (b : Backend) (s d : Bool) (n m : ℕ) (site : List ℕ → Site) :
    ∃ arr w', calcOp 0 [] (tensW b isoV isoS false s d [n, m] site) = (.ok arr, w') ∧
      arr.shape = [n, m] ++ [3] := by
  have hw := tensW_reachableP false s d n [m] site b isoV isoS
  have ho : (tensW b isoV isoS false s d (n :: [m]) site).objs 0 =
    some (tensObj isoV isoS false s d (n :: [m]) site) := demo_objs ..
  refine C57_calc_partial hw.reachable ho [] rfl ?_ (a := tens (n :: [m]) fun i => (site i).t0)
    (by simp [tensObj, demoObj, tens_atleast1d]) rfl
  rw [tens_update]
  exact tens_complete false s d n [m] site isoV_plain isoS_plain

/-- One incidence angle and several values of tau: the hypotheses of `C57_common_partial` hold. -/
example (s d : Bool) (n : ℕ) (τ : List ℕ → ℝ) (I t p ω N : ℝ) :
    ∃ arr w', calcOp 0 [] (demoW .sympy isoV isoS false s d (arr1 I) (arr1 t) (arr1 p) (tauKw n τ ω N)) =
      (.ok arr, w') ∧ arr.shape = [n] ++ [3] := by
  have hw := demo_reachable .sympy isoV isoS false s d (arr1 I) (arr1 t) (arr1 p) (tauKw n τ ω N)
  have ho := demo_objs .sympy isoV isoS false s d (arr1 I) (arr1 t) (arr1 p) (tauKw n τ ω N)
  have hb := demo_backend .sympy isoV isoS false s d (arr1 I) (arr1 t) (arr1 p) (tauKw n τ ω N)
  have hf : Arr.Fits [1] [n] := ⟨Or.inl rfl, trivial⟩
  have hc := tau_complete isoV_plain isoS_plain false s d (I := arr1 I) (t := arr1 t) (p := arr1 p) n τ ω N hf hf hf
  have hu := Fresh.update_nil (demo_bsf isoV isoS false s d (arr1 I) (arr1 t) (arr1 p) (tauKw n τ ω N))
  obtain ⟨ta, t1, t2⟩ := par_sym (o := demoObj isoV isoS false s d (arr1 I) (arr1 t) (arr1 p) (tauKw n τ ω N))
    (p := .tau) (k := "tau") rfl (tau_get ..)
  obtain ⟨β, b1, -⟩ := hc.s_par .sympy .bsf
  have e : ∀ q, (Self.evalParam 0 q (updateParams 0 [] (demoW .sympy isoV isoS false s d (arr1 I) (arr1 t) (arr1 p)
      (tauKw n τ ω N))).2).1 = Fresh.par .sympy (demoObj isoV isoS false s d (arr1 I) (arr1 t) (arr1 p) (tauKw n τ ω N)) q := by
    generalize demoW .sympy isoV isoS false s d (arr1 I) (arr1 t) (arr1 p) (tauKw n τ ω N) = w at *
    intro q
    rw [updateParams_eq ho []]
    have := evalParam_eq (hw.inv.updated ho []) (World.updated_objs ..) q
    rw [hu] at this
    rw [← hb]
    exact this
  refine C57_common_partial hw ho [] rfl (by rw [hu]; exact hc) (a := arr1 t) (by simp [demoObj]; rfl)
    ((e .tau).trans t1) ((e .bsf).trans b1) ?_
  intro T _ _ h _
  rw [t2] at h
  exact h

/-- The hypotheses of `C57_exact` hold for arrays of every shape. -/
example (b : Backend) (s d : Bool) (n m : ℕ) (site : List ℕ → Site) :
    ∃ s' v t, (surface 0 [] (tensW b isoV isoS false s d [n, m] site)).1 = .ok s' ∧
      (volume 0 [] (tensW b isoV isoS false s d [n, m] site)).1 = .ok v ∧
      (Self.evalParam 0 .tau (updateParams 0 [] (tensW b isoV isoS false s d [n, m] site)).2).1 = .ok t := by
  have hw := tensW_reachableP false s d n [m] site b isoV isoS
  have ho : (tensW b isoV isoS false s d (n :: [m]) site).objs 0 =
    some (tensObj isoV isoS false s d (n :: [m]) site) := demo_objs ..
  have hc := tens_complete false s d n [m] site isoV_plain isoS_plain
  have hu := tens_update isoV isoS false s d n [m] site
  generalize tensW b isoV isoS false s d [n, m] site = w at *
  generalize tensObj isoV isoS false s d (n :: [m]) site = o at *
  obtain ⟨Is, s1, s2⟩ := hc.s_surface w.backend (Fresh.dVol w.backend o) (Fresh.dSrf w.backend o)
  obtain ⟨Iv, v1, v2⟩ := hc.s_volume w.backend (Fresh.dVol w.backend o) (Fresh.dSrf w.backend o)
  obtain ⟨s', s3, -⟩ := hc.s_convert w.backend (Fresh.dVol w.backend o) (Fresh.dSrf w.backend o) s2
  obtain ⟨v', v3, -⟩ := hc.s_convert w.backend (Fresh.dVol w.backend o) (Fresh.dSrf w.backend o) v2
  obtain ⟨t, t1, -⟩ := hc.s_par w.backend .tau
  refine ⟨s', v', t, ?_, ?_, ?_⟩
  · rw [(surface_eq hw.reachable.keeps.inv ho []).1, hu]
    show ((Fresh.acc0 w.backend o).surface >>= _) = _
    rw [show (Fresh.acc0 w.backend o).surface = .ok Is from s1]
    exact s3
  · rw [(volume_eq hw.reachable.keeps.inv ho []).1, hu]
    show ((Fresh.acc0 w.backend o).volume >>= _) = _
    rw [show (Fresh.acc0 w.backend o).volume = .ok Iv from v1]
    exact v3
  · rw [updateParams_eq ho []]
    have := evalParam_eq (hw.reachable.inv.updated ho []) (World.updated_objs ..) .tau
    rw [hu] at this
    exact this.trans t1

/-- The hypotheses of C55 hold for an entry of an observed array. -/
example : ∃ r, Observes RT1.surface ⟨hgV (1/4), hgS (1/3), true, true, true⟩
    (witSite (Real.pi / 3) (Real.pi / 3) 0 Real.pi) r := by
  obtain ⟨⟨arr, w', -, -, h⟩, -⟩ := scalar_site_call .sympy (V := hgV (1/4)) (SRF := hgS (1/3)) true true true
    (x := witSite (Real.pi / 3) (Real.pi / 3) 0 Real.pi) (mono := true) (l := []) (fun _ => false)
    (fun _ => ⟨rfl, by simp [witSite]⟩) (witSite_reports ..)
    (fun n hn => List.mem_append_left _ (hgV_plain _ n hn))
    (fun n hn => List.mem_append_left _ (hgS_plain _ n hn))
  exact ⟨_, h⟩

end

end RT1
