import Verif.Lemmas.CallL
import Verif.Lemmas.DemoVec
import Verif.Lemmas.ScalarCall
import Verif.Props.Contrib

/-!
# Rows of calc() and units (C20, C25)
-/

namespace RT1

noncomputable section
open Classical

/-- `calc()` of the example object without interaction. -/
theorem demo_calc (b : Backend) {V SRF : Scatter} (hV : V.Plain) (hS : SRF.Plain) (s d : Bool)
    (I t p τ ω N β : ℝ) :
    ∃ arr w', calcOp 0 [] (demoW b V SRF false s d (Arr.lit I) (Arr.lit t) (Arr.lit p)
      (demoKw τ ω N β)) = (.ok arr, w') ∧ arr.shape = [1, 3] := by
  have hc := demo_complete hV hS false s d I t p τ ω N β
  have ho := demo_objs b V SRF false s d (Arr.lit I) (Arr.lit t) (Arr.lit p) (demoKw τ ω N β)
  have hr := demo_reachable b V SRF false s d (Arr.lit I) (Arr.lit t) (Arr.lit p) (demoKw τ ω N β)
  have hb := demo_backend b V SRF false s d (Arr.lit I) (Arr.lit t) (Arr.lit p) (demoKw τ ω N β)
  obtain ⟨z, z1, z2⟩ := hc.calcAll_three b (a := arr1 t) (by simp [demoObj, arr1]) rfl rfl
  have e := (calcOp_eq hr.inv ho []).1
  rw [demo_update, hb, z1] at e
  exact ⟨z, _, Prod.ext e rfl, z2⟩

/-- A successful `calc()` of the example object, with the values that the getters report. -/
theorem demo_rows (b : Backend) {V SRF : Scatter} (hV : V.Plain) (hS : SRF.Plain) (s d : Bool)
    (I t p τ ω N β : ℝ) :
    ∃ w arr w' o, Reachable w ∧ calcOp 0 [] w = (.ok arr, w') ∧ arr.shape = [1, 3] ∧
      w'.objs 0 = some o ∧ o.cfg = demoCfg V SRF false s d ∧ SiteAt w' 0 [0] (demoSite I t p τ ω N β) := by
  obtain ⟨arr, w', h, hs⟩ := demo_calc b hV hS s d I t p τ ω N β
  have hr := demo_reachable b V SRF false s d (Arr.lit I) (Arr.lit t) (Arr.lit p) (demoKw τ ω N β)
  have ho := demo_objs b V SRF false s d (Arr.lit I) (Arr.lit t) (Arr.lit p) (demoKw τ ω N β)
  have hb := demo_backend b V SRF false s d (Arr.lit I) (Arr.lit t) (Arr.lit p) (demoKw τ ω N β)
  have hu := demo_update V SRF false s d (Arr.lit I) (Arr.lit t) (Arr.lit p) τ ω N β
  have hf := demo_fsite b hV hS false s d I t p τ ω N β
  have hc : (demoObj V SRF false s d (Arr.lit I) (Arr.lit t) (Arr.lit p) (demoKw τ ω N β)).cfg =
    demoCfg V SRF false s d := rfl
  generalize demoObj V SRF false s d (Arr.lit I) (Arr.lit t) (Arr.lit p) (demoKw τ ω N β) = o at ho hc hu hf
  generalize demoW b V SRF false s d (Arr.lit I) (Arr.lit t) (Arr.lit p) (demoKw τ ω N β) = w at h hr ho hb
  obtain ⟨o1, o2, hk⟩ := calc_callOK hr h
  have e := hk.before
  rw [ho] at e
  cases e
  refine ⟨w, arr, w', o2, hr, h, hs, hk.after, ?_, SiteAt.of_fsite hk.inv hk.after ?_⟩
  · have e : o2.core.cfg = (Fresh.update o []).core.cfg := congrArg Obj.cfg hk.filled.core
    rw [hu] at e
    exact e.trans hc
  · rw [hk.backend, hb]
    exact FSite.filled hk.filled (by rw [hu]; exact hf)

/-- Decibel values stand for the linear ones. -/
theorem linOf_dBValue {v : ℝ} (hv : 0 ≤ v) : linOf (dBValue v) = some v := by
  unfold dBValue
  rcases hv.lt_or_eq with h | h
  · rw [if_pos h]
    show some ((10 : ℝ) ^ (10 * Real.logb 10 v / 10)) = some v
    rw [mul_div_cancel_left₀ _ (by norm_num : (10 : ℝ) ≠ 0), Real.rpow_logb (by norm_num) (by norm_num) h]
  · rw [if_neg (by rw [← h]; exact lt_irrefl _), if_pos h.symm, ← h]
    rfl

/-- The example object with a number assigned to tau. -/
def tauObj (V SRF : Scatter) (q s d : Bool) (I t p τ ω N β τ' : ℝ) : Obj :=
  { demoObj V SRF q s d (Arr.lit I) (Arr.lit t) (Arr.lit p) (demoKw τ ω N β) with
    pdef := Function.update defaultDefs .tau (.val (Arr.lit τ')) }

theorem tau_scalar {V SRF : Scatter} (hV : V.Plain) (hS : SRF.Plain) (q s d : Bool) (I t p τ ω N β τ' : ℝ) :
    ScalarObj (tauObj V SRF q s d I t p τ ω N β τ') { demoSite I t p τ ω N β with tau := τ' } := by
  have hp : (tauObj V SRF q s d I t p τ ω N β τ').params =
      [("bsf", arr1 β), ("tau", arr1 τ), ("omega", arr1 ω), ("NormBRDF", arr1 N)] :=
    demo_params V SRF q s d (Arr.lit I) (Arr.lit t) (Arr.lit p) τ ω N β
  refine ⟨?_, ?_, .inl ⟨rfl, rfl, rfl⟩, rfl, ?_, ?_, fun n hn => List.mem_append_left _ (hV n hn),
    fun n hn => List.mem_append_left _ (hS n hn)⟩
  · simp [tauObj, demoObj, arr1, demoSite]
  · simp [tauObj, demoObj, arr1, demoSite]
  · intro q' hq'
    rw [hp] at hq'
    simp only [List.mem_cons, List.not_mem_nil, or_false] at hq'
    rcases hq' with rfl | rfl | rfl | rfl <;> simp [demoSite]
  · intro pn
    rw [hp]
    cases pn
    · exact .inl rfl
    · exact .inr (.inr ⟨.sym "omega", rfl, by simp [Expr.free, Dict.keys], rfl⟩)
    · exact .inr (.inr ⟨.sym "NormBRDF", rfl, by simp [Expr.free, Dict.keys], rfl⟩)
    · exact .inr (.inr ⟨.sym "bsf", rfl, by simp [Expr.free, Dict.keys], rfl⟩)

/-- A successful `calc()` after a number was assigned to tau. -/
theorem tau_rows (b : Backend) {V SRF : Scatter} (hV : V.Plain) (hS : SRF.Plain) (s d : Bool)
    (I t p τ ω N β τ' : ℝ) :
    ∃ w arr w' o, Reachable w ∧ calcOp 0 [] w = (.ok arr, w') ∧ arr.shape = [1, 3] ∧
      w'.objs 0 = some o ∧ o.cfg = demoCfg V SRF false s d ∧
      SiteAt w' 0 [0] { demoSite I t p τ ω N β with tau := τ' } ∧
      (Self.evalParam 0 .tau w').1 = .ok (Arr.lit τ') := by
  have hr : Reachable (step (.setParamDef 0 .tau (.val (Arr.lit τ')))
      (demoW b V SRF false s d (Arr.lit I) (Arr.lit t) (Arr.lit p) (demoKw τ ω N β))).2 :=
    (demo_reachable b V SRF false s d (Arr.lit I) (Arr.lit t) (Arr.lit p) (demoKw τ ω N β)).run
      (l := [.setParamDef 0 .tau (.val (Arr.lit τ'))]) (by intro op hop; rw [List.mem_singleton] at hop; subst hop; trivial)
  have ho : (step (.setParamDef 0 .tau (.val (Arr.lit τ')))
      (demoW b V SRF false s d (Arr.lit I) (Arr.lit t) (Arr.lit p) (demoKw τ ω N β))).2.objs 0 =
      some (tauObj V SRF false s d I t p τ ω N β τ') :=
    sets_obj (demo_objs b V SRF false s d (Arr.lit I) (Arr.lit t) (Arr.lit p) (demoKw τ ω N β)) (op := .setParamDef 0 .tau
      (.val (Arr.lit τ'))) rfl
  have hb : (step (.setParamDef 0 .tau (.val (Arr.lit τ')))
      (demoW b V SRF false s d (Arr.lit I) (Arr.lit t) (Arr.lit p) (demoKw τ ω N β))).2.backend = b :=
    (step_backend _ _).trans (demo_backend ..)
  have hsc := tau_scalar hV hS false s d I t p τ ω N β τ'
  have hu : Fresh.update (tauObj V SRF false s d I t p τ ω N β τ') [] = tauObj V SRF false s d I t p τ ω N β τ' := by
    show { tauObj V SRF false s d I t p τ ω N β τ' with
      params := (Fresh.update (demoObj V SRF false s d (Arr.lit I) (Arr.lit t) (Arr.lit p) (demoKw τ ω N β)) []).params } = _
    rw [demo_update]
    rfl
  have hc : (tauObj V SRF false s d I t p τ ω N β τ').cfg = demoCfg V SRF false s d := rfl
  have hd : (tauObj V SRF false s d I t p τ ω N β τ').pdef .tau = .val (Arr.lit τ') := rfl
  have hq : (tauObj V SRF false s d I t p τ ω N β τ').intQ = false := rfl
  generalize tauObj V SRF false s d I t p τ ω N β τ' = o at *
  generalize (step (.setParamDef 0 .tau (.val (Arr.lit τ')))
      (demoW b V SRF false s d (Arr.lit I) (Arr.lit t) (Arr.lit p) (demoKw τ ω N β))).2 = w at *
  obtain ⟨z, z1, z2⟩ := hsc.complete.calcAll_three b hsc.t0 rfl hq
  have e := (calcOp_eq hr.inv ho []).1
  rw [hu, hb, z1] at e
  have h : calcOp 0 [] w = (.ok z, (calcOp 0 [] w).2) := Prod.ext e rfl
  generalize (calcOp 0 [] w).2 = w' at h
  obtain ⟨o1, o2, hk⟩ := calc_callOK hr h
  have e := hk.before
  rw [ho] at e
  cases e
  have hcore : o2.core = o.core := by rw [hk.filled.core, hu]
  refine ⟨w, z, w', o2, hr, h, z2, hk.after, ?_, SiteAt.of_fsite hk.inv hk.after ?_, ?_⟩
  · have e : o2.core.cfg = o.core.cfg := congrArg Obj.cfg hcore
    exact e.trans hc
  · rw [hk.backend, hb]
    exact FSite.filled hk.filled (by rw [hu]; exact hsc.fsite b)
  · rw [evalParam_eq hk.inv hk.after, hk.filled.f_par, hu]
    unfold Fresh.par Fresh.pfun
    simp only [hd]
    rfl

/-! ## C20 -/

/-- Linear units: the first row is the sum of the others. `calc()` returns exactly the rows
total, surface, volume (interaction only with int_Q). -/
theorem C20_total_linear {w : World} (hw : Reachable w) {id : ℕ} {kw : Dict} {arr : Arr} {w' : World}
    (h : calcOp id kw w = (.ok arr, w')) {o : Obj} (ho : w'.objs id = some o) (hd : o.dB = false) :
    ∃ S, arr.shape = S ++ [if o.intQ = true then 4 else 3] ∧ ∀ idx, Arr.Valid S idx → ∀ s v,
      arr.get (idx ++ [1]) = XR.fin s → arr.get (idx ++ [2]) = XR.fin v →
      (o.intQ = false → arr.get (idx ++ [0]) = XR.fin (s + v)) ∧
      (o.intQ = true → ∀ i, arr.get (idx ++ [3]) = XR.fin i →
        arr.get (idx ++ [0]) = XR.fin (s + v + i)) := by
  obtain ⟨o0, o', hc⟩ := calc_callOK hw h
  have e := hc.after
  rw [ho] at e
  cases e
  obtain ⟨Is, Iv, Ii, hp⟩ := calc_parts hc.ok
  obtain ⟨h1, -, -, h4⟩ := hp.rows
  rw [hc.intQ] at h1 h4
  rw [hc.dB, hd] at h4
  refine ⟨Is.shape, h1, fun idx hv s v hs hvv => ?_⟩
  have hn : 2 < nrows o.intQ := by unfold nrows; split_ifs <;> omega
  rw [h4 1 (by omega) idx hv, XSite.convert_linear] at hs
  rw [h4 2 hn idx hv, XSite.convert_linear] at hvv
  obtain ⟨s1, n1, hs1, hn1, rfl⟩ := XR.mul_eq_fin hs
  obtain ⟨v1, n2, hv1, hn2, rfl⟩ := XR.mul_eq_fin hvv
  rw [hn1] at hn2
  cases hn2
  simp only [rowVal] at hs1 hv1
  refine ⟨fun hq => ?_, fun hq i hi => ?_⟩
  · rw [h4 0 (by omega) idx hv, XSite.convert_linear, hn1]
    simp only [rowVal, hq, Bool.false_eq_true, if_false]
    rw [hs1, hv1, XR.fin_add, XR.fin_mul, add_mul]
  · have h3 : 3 < nrows o.intQ := by unfold nrows; rw [if_pos hq]; omega
    rw [h4 3 h3 idx hv, XSite.convert_linear] at hi
    obtain ⟨i1, n3, hi1, hn3, rfl⟩ := XR.mul_eq_fin hi
    rw [hn1] at hn3
    cases hn3
    simp only [rowVal] at hi1
    rw [h4 0 (by omega) idx hv, XSite.convert_linear, hn1]
    simp only [rowVal, hq, if_true]
    rw [hs1, hv1, hi1, XR.fin_add, XR.fin_add, XR.fin_mul, add_mul, add_mul]

/-- Decibel units: the first row stands for the sum of what the other rows stand for
(`10^(d/10)`, zero for `-inf`). -/
theorem C20_total_dB {w : World} (hw : Reachable w) {id : ℕ} {kw : Dict} {arr : Arr} {w' : World}
    (h : calcOp id kw w = (.ok arr, w')) {o : Obj} (ho : w'.objs id = some o) (hd : o.dB = true) :
    ∃ S, arr.shape = S ++ [if o.intQ = true then 4 else 3] ∧ ∀ idx, Arr.Valid S idx → ∀ s v,
      linOf (arr.get (idx ++ [1])) = some s → linOf (arr.get (idx ++ [2])) = some v →
      (o.intQ = false → arr.get (idx ++ [0]) = dBValue (s + v)) ∧
      (o.intQ = true → ∀ i, linOf (arr.get (idx ++ [3])) = some i →
        arr.get (idx ++ [0]) = dBValue (s + v + i)) := by
  obtain ⟨o0, o', hc⟩ := calc_callOK hw h
  have e := hc.after
  rw [ho] at e
  cases e
  obtain ⟨Is, Iv, Ii, hp⟩ := calc_parts hc.ok
  obtain ⟨h1, -, -, h4⟩ := hp.rows
  rw [hc.intQ] at h1 h4
  rw [hc.dB, hd] at h4
  refine ⟨Is.shape, h1, fun idx hv s v hs hvv => ?_⟩
  have hn : 2 < nrows o.intQ := by unfold nrows; split_ifs <;> omega
  rw [h4 1 (by omega) idx hv, XSite.convert_dB] at hs
  rw [h4 2 hn idx hv, XSite.convert_dB] at hvv
  obtain ⟨hs, -⟩ := dBOf_eq_lin hs
  obtain ⟨hvv, -⟩ := dBOf_eq_lin hvv
  rw [XSite.convert_linear] at hs hvv
  obtain ⟨s1, n1, hs1, hn1, rfl⟩ := XR.mul_eq_fin hs
  obtain ⟨v1, n2, hv1, hn2, rfl⟩ := XR.mul_eq_fin hvv
  rw [hn1] at hn2
  cases hn2
  simp only [rowVal] at hs1 hv1
  refine ⟨fun hq => ?_, fun hq i hi => ?_⟩
  · rw [h4 0 (by omega) idx hv, XSite.convert_dB, XSite.convert_linear, hn1]
    simp only [rowVal, hq, Bool.false_eq_true, if_false]
    rw [hs1, hv1, XR.fin_add, XR.fin_mul, add_mul]
    rfl
  · have h3 : 3 < nrows o.intQ := by unfold nrows; rw [if_pos hq]; omega
    rw [h4 3 h3 idx hv, XSite.convert_dB] at hi
    obtain ⟨hi, -⟩ := dBOf_eq_lin hi
    rw [XSite.convert_linear] at hi
    obtain ⟨i1, n3, hi1, hn3, rfl⟩ := XR.mul_eq_fin hi
    rw [hn1] at hn3
    cases hn3
    simp only [rowVal] at hi1
    rw [h4 0 (by omega) idx hv, XSite.convert_dB, XSite.convert_linear, hn1]
    simp only [rowVal, hq, if_true]
    rw [hs1, hv1, hi1, XR.fin_add, XR.fin_add, XR.fin_mul, add_mul, add_mul]
    rfl

/-- The surface row of `calc()` is what `surface()` returns in the same state. -/
theorem C20_surface_row {w : World} (hw : Reachable w) {id : ℕ} {kw : Dict} {arr : Arr} {w' : World}
    (h : calcOp id kw w = (.ok arr, w')) : ∃ s w'', surface id kw w = (.ok s, w'') ∧
      (∃ n, arr.shape = s.shape ++ [n]) ∧
      ∀ idx, Arr.Valid s.shape idx → arr.get (idx ++ [1]) = s.get idx := by
  obtain ⟨o, o', hc⟩ := calc_callOK hw h
  obtain ⟨Is, Iv, Ii, hp⟩ := calc_parts hc.ok
  obtain ⟨h1, -, -, h4⟩ := hp.rows
  obtain ⟨m, hm, f1, f2⟩ := surface_fits hp.surf
  obtain ⟨s, hs, g1, g2⟩ := convert_whole (b := w.backend) hm f1 f2
  obtain ⟨e, -⟩ := surface_eq hw.inv hc.before kw
  have e' : Fresh.surface w.backend (Fresh.update o kw) = .ok s := by
    unfold Fresh.surface
    rw [hp.surf]; exact hs
  refine ⟨s, (surface id kw w).2, ?_, ⟨_, by rw [g1]; exact h1⟩, fun idx hv => ?_⟩
  · rw [← e', ← e]
  · rw [g1] at hv
    rw [h4 1 (by unfold nrows; split_ifs <;> omega) idx hv, g2 idx hv]
    rfl

/-- `calc()` in linear units and in dB: the rows add up. -/
example : (∃ w arr w' o, Reachable w ∧ calcOp 0 [] w = (.ok arr, w') ∧ w'.objs 0 = some o ∧
    o.dB = false ∧ o.intQ = false ∧ ∃ s v, 0 < s ∧ arr.get [0, 1] = XR.fin s ∧
    arr.get [0, 2] = XR.fin v ∧ arr.get [0, 0] = XR.fin (s + v)) ∧
    ∃ w arr w' o, Reachable w ∧ calcOp 0 [] w = (.ok arr, w') ∧ w'.objs 0 = some o ∧
    o.dB = true ∧ o.intQ = false ∧ ∃ s v, 0 < s ∧ linOf (arr.get [0, 1]) = some s ∧
    linOf (arr.get [0, 2]) = some v ∧ arr.get [0, 0] = dBValue (s + v) := by
  have hreg := demo_regular false (I := 1) (by norm_num) 0 1 1 1 0
  have hp := demo_physical (I := 1) (τ := 1) (ω := 1) (N := 1) (β := 0) (by norm_num)
    (by norm_num) (by norm_num) (by norm_num) (by norm_num) (by norm_num) 0
  have m0 : 0 < Real.cos (demoSite 1 (Real.pi / 3) 0 1 1 1 0).t0 := hp.mu0
  have hpi := Real.pi_pos
  constructor
  · obtain ⟨w, arr, w', o, hr, h, hs, ho, hc, hx⟩ := demo_rows .sympy exV_plain exS_plain false false 1
      (Real.pi / 3) 0 1 1 1 0
    have hd : o.dB = false := congrArg Cfg.dB hc
    have hq : o.intQ = false := congrArg Cfg.intQ hc
    have hv : ∀ k < 3, Arr.Valid arr.shape ([0] ++ [k]) := fun k hk => by
      rw [hs]; simp [Arr.Valid, hk]
    have e1 := C18_surface_linear (Or.inr ⟨w, 0, [], arr, w', [0], hr, h, hv 1 (by norm_num), rfl, hx, o, ho, hc⟩)
      (exS_value _) hreg.mu0 hreg.muEx rfl rfl
    have e2 := C19_volume_linear (Or.inr ⟨⟨w, 0, [], arr, w', [0], hr, h, hv 2 (by norm_num), rfl, hx, o, ho, hc⟩,
      by simp [demoSite]⟩) (exV_value _) hreg.mu0 hreg.muEx hreg.sum rfl rfl
    obtain ⟨S, hS, hrows⟩ := C20_total_linear hr h ho hd
    have hS' : S = [1] := by
      rw [hs, hq] at hS
      exact (List.append_inj_left' (s₁ := [1]) hS rfl).symm
    refine ⟨w, arr, w', o, hr, h, ho, hd, hq, _, _, ?_, e1, e2,
      (hrows [0] (by rw [hS']; simp [Arr.Valid]) _ _ e1 e2).1 hq⟩
    simp only [demoSite] at m0 ⊢
    positivity
  · obtain ⟨w, arr, w', o, hr, h, hs, ho, hc, hx⟩ := demo_rows .sympy exV_plain exS_plain false true 1
      (Real.pi / 3) 0 1 1 1 0
    have hd : o.dB = true := congrArg Cfg.dB hc
    have hq : o.intQ = false := congrArg Cfg.intQ hc
    have hv : ∀ k < 3, Arr.Valid arr.shape ([0] ++ [k]) := fun k hk => by
      rw [hs]; simp [Arr.Valid, hk]
    have e1 := C18_surface (Or.inr ⟨w, 0, [], arr, w', [0], hr, h, hv 1 (by norm_num), rfl, hx, o, ho, hc⟩)
      (exS_value _) hreg.mu0 hreg.muEx hreg.I0
    have e2 := C19_volume (Or.inr ⟨⟨w, 0, [], arr, w', [0], hr, h, hv 2 (by norm_num), rfl, hx, o, ho, hc⟩,
      by simp [demoSite]⟩) (exV_value _) hreg.mu0 hreg.muEx hreg.sum hreg.I0
    obtain ⟨S, hS, hrows⟩ := C20_total_dB hr h ho hd
    have hS' : S = [1] := by
      rw [hs, hq] at hS
      exact (List.append_inj_left' (s₁ := [1]) hS rfl).symm
    have pos1 : 0 < 1 * ((1 - 0) * Real.exp (-(1 / Real.cos (Real.pi / 3)) - 1 / Real.cos (Real.pi / 3)) + 0)
        * 1 * Real.cos (Real.pi / 3) * (1 / Real.pi) := by
      simp only [demoSite] at m0
      positivity
    have l1 := linOf_dBValue pos1.le
    have pos2 : 0 ≤ (1 - 0) * 1 * 1 * (Real.cos (Real.pi / 3) / (Real.cos (Real.pi / 3) + Real.cos (Real.pi / 3)))
        * (1 - Real.exp (-(1 / Real.cos (Real.pi / 3))) * Real.exp (-(1 / Real.cos (Real.pi / 3))))
        * Phase.rayleigh (Phase.cosTheta (-1) 1 1 (Real.pi / 3) (Real.pi / 3) 0 (0 + Real.pi)) := by
      simp only [demoSite] at m0
      have : Real.exp (-(1 / Real.cos (Real.pi / 3))) * Real.exp (-(1 / Real.cos (Real.pi / 3))) ≤ 1 := by
        rw [← Real.exp_add]
        exact Real.exp_le_one_iff.mpr (by have : 0 < 1 / Real.cos (Real.pi / 3) := by positivity
                                          linarith)
      have h3 : 0 ≤ 1 - Real.exp (-(1 / Real.cos (Real.pi / 3))) * Real.exp (-(1 / Real.cos (Real.pi / 3))) := by
        linarith
      unfold Phase.rayleigh
      positivity
    have l2 := linOf_dBValue pos2
    have e1' : linOf (arr.get [0, 1]) = some _ := (congrArg linOf e1).trans l1
    have e2' : linOf (arr.get [0, 2]) = some _ := (congrArg linOf e2).trans l2
    exact ⟨w, arr, w', o, hr, h, ho, hd, hq, _, _, pos1, e1', e2',
      (hrows [0] (by rw [hS']; simp [Arr.Valid]) _ _ e1' e2').1 hq⟩

/-- The value that `R.tau` reports is a python number that is not positive. -/
def TauOff (id : ℕ) (w : World) : Prop :=
  ∃ t, (Self.evalParam id .tau w).1 = .ok t ∧ t.shape = [] ∧ (t.get []).isPos = false

/-- The volume row of `calc()` is what `volume()` returns in the same state, unless tau is a
number that is not positive (then it stands for zero). -/
theorem C20_volume_row {w : World} (hw : Reachable w) {id : ℕ} {kw : Dict} {arr : Arr} {w' : World}
    (h : calcOp id kw w = (.ok arr, w')) (ht : ¬ TauOff id w') :
    ∃ s w'', volume id kw w = (.ok s, w'') ∧ (∃ n, arr.shape = s.shape ++ [n]) ∧
      ∀ idx, Arr.Valid s.shape idx → arr.get (idx ++ [2]) = s.get idx := by
  obtain ⟨o, o', hc⟩ := calc_callOK hw h
  obtain ⟨Is, Iv, Ii, hp⟩ := calc_parts hc.ok
  obtain ⟨h1, h2, -, h4⟩ := hp.rows
  obtain ⟨t, ht1, ht2⟩ := hp.tau
  have hoff : ¬ (t.shape = [] ∧ ¬ (t.get []).isPos = true) := by
    rintro ⟨a, b⟩
    refine ht ⟨t, ?_, a, by simpa using b⟩
    rw [evalParam_eq hc.inv hc.after, hc.filled.f_par, hc.backend]
    exact ht1
  rw [if_neg hoff] at ht2
  obtain ⟨m, hm, f1, f2⟩ := volume_fits ht2.1
  obtain ⟨s, hs, g1, g2⟩ := convert_whole (b := w.backend) hm f1 f2
  obtain ⟨e, -⟩ := volume_eq hw.inv hc.before kw
  have e' : Fresh.volume w.backend (Fresh.update o kw) = .ok s := by
    unfold Fresh.volume
    rw [ht2.1]; exact hs
  refine ⟨s, (volume id kw w).2, ?_, ⟨_, by rw [g1, h2]; exact h1⟩, fun idx hv => ?_⟩
  · rw [← e', ← e]
  · rw [g1] at hv
    rw [h4 2 (by unfold nrows; split_ifs <;> omega) idx (by rw [← h2]; exact hv), g2 idx hv]
    rfl

/-- A number that is not positive for tau: the volume row (and the interaction row) stand for
zero. -/
theorem C20_off_rows {w : World} (hw : Reachable w) {id : ℕ} {kw : Dict} {arr : Arr} {w' : World}
    (h : calcOp id kw w = (.ok arr, w')) (ht : TauOff id w') {o : Obj} (ho : w'.objs id = some o) :
    ∃ S, arr.shape = S ++ [if o.intQ = true then 4 else 3] ∧ ∀ idx, Arr.Valid S idx →
      ∀ x, SiteAt w' id idx x → (o.sig0 = true → x.I0 ≠ 0) →
        arr.get (idx ++ [2]) = (if o.dB = true then XR.ninf else XR.fin 0) ∧
        (o.intQ = true → arr.get (idx ++ [3]) = (if o.dB = true then XR.ninf else XR.fin 0)) := by
  obtain ⟨o0, o', hc⟩ := calc_callOK hw h
  have e := hc.after
  rw [ho] at e
  cases e
  obtain ⟨Is, Iv, Ii, hp⟩ := calc_parts hc.ok
  obtain ⟨h1, h2, h3, h4⟩ := hp.rows
  obtain ⟨t, ht1, ht2⟩ := hp.tau
  obtain ⟨t', ha, hb, hd⟩ := ht
  rw [evalParam_eq hc.inv ho, hc.filled.f_par, hc.backend, ht1] at ha
  cases ha
  rw [if_pos ⟨hb, by simp [hd]⟩] at ht2
  rw [hc.intQ, hc.dB, hc.sig0] at h4
  rw [hc.intQ] at h1
  refine ⟨Is.shape, h1, fun idx hv x hx hI => ?_⟩
  have hf : FSite w.backend (Fresh.update o0 kw) idx x := by
    have := hx.fsite hc.inv ho
    rw [hc.backend] at this
    exact FSite.filled hc.filled.symm this
  have hz : ∀ v : XR, v = XR.fin 0 → (XSite.of w.backend (Fresh.update o0 kw) idx).convert o.sig0 o.dB v =
      (if o.dB = true then XR.ninf else XR.fin 0) := by
    intro v hv
    rw [hv, hf.x_convert hI]
    unfold Site.inUnits dBValue
    cases o.sig0 <;> simp
  refine ⟨?_, fun hq => ?_⟩
  · rw [h4 2 (by unfold nrows; split_ifs <;> omega) idx hv]
    exact hz _ (by simp only [rowVal]; rw [ht2.1]; rfl)
  · rw [h4 3 (by unfold nrows; rw [if_pos hq]; omega) idx hv]
    exact hz _ (by simp only [rowVal]; rw [ht2.2]; rfl)

/-- The rows of calc are what `surface()` and `volume()` return (tau = 1 from the dictionary);
with the number 0 assigned to tau the volume row is -inf dB. -/
example : (∃ w arr w' s v w1 w2, Reachable w ∧ calcOp 0 [] w = (.ok arr, w') ∧ ¬ TauOff 0 w' ∧
      surface 0 [] w = (.ok s, w1) ∧ volume 0 [] w = (.ok v, w2) ∧ s.shape = [1] ∧ v.shape = [1] ∧
      arr.get [0, 1] = s.get [0] ∧ arr.get [0, 2] = v.get [0]) ∧
    ∃ w arr w', Reachable w ∧ calcOp 0 [] w = (.ok arr, w') ∧ TauOff 0 w' ∧ arr.get [0, 2] = XR.ninf := by
  constructor
  · obtain ⟨w, arr, w', o, hr, h, hs, ho, hc, hx, ht⟩ := tau_rows .sympy exV_plain exS_plain true true 2
      (Real.pi / 3) 0 1 1 1 0 1
    have hoff : ¬ TauOff 0 w' := by
      rintro ⟨t, h1, -, h2⟩
      rw [ht] at h1
      cases h1
      simp [Arr.lit, Arr.num, XR.isPos] at h2
    obtain ⟨s, w1, e1, ⟨n, s1⟩, r1⟩ := C20_surface_row hr h
    obtain ⟨v, w2, e2, ⟨m, s2⟩, r2⟩ := C20_volume_row hr h hoff
    rw [hs] at s1 s2
    have s1 : s.shape = [1] := ((List.append_inj' (s₁ := [1]) s1 rfl).1).symm
    have s2 : v.shape = [1] := ((List.append_inj' (s₁ := [1]) s2 rfl).1).symm
    exact ⟨w, arr, w', s, v, w1, w2, hr, h, hoff, e1, e2, s1, s2, r1 [0] (by rw [s1]; simp [Arr.Valid]),
      r2 [0] (by rw [s2]; simp [Arr.Valid])⟩
  · obtain ⟨w, arr, w', o, hr, h, hs, ho, hc, hx, ht⟩ := tau_rows .sympy exV_plain exS_plain true true 2
      (Real.pi / 3) 0 1 1 1 0 0
    have hoff : TauOff 0 w' := ⟨_, ht, rfl, by simp [Arr.lit, Arr.num, XR.isPos]⟩
    have hd : o.dB = true := congrArg Cfg.dB hc
    obtain ⟨S, hS, hrows⟩ := C20_off_rows hr h hoff ho
    have hq : o.intQ = false := congrArg Cfg.intQ hc
    have hS' : S = [1] := by
      rw [hs, hq] at hS
      exact (List.append_inj_left' (s₁ := [1]) hS rfl).symm
    have := (hrows [0] (by rw [hS']; simp [Arr.Valid]) _ hx (fun _ => by simp [demoSite])).1
    rw [hd] at this
    exact ⟨w, arr, w', hr, h, hoff, this⟩

/-! ## C25 -/

/-- Switching an object to decibel turns every entry of every result into `10 log10` of the
linear one (`-inf` for 0, nan for negative values) and changes nothing else. -/
theorem C25_calls {w : World} (hw : Reachable w) (id : ℕ) (kw : Dict) {call : ℕ → Dict → M Arr}
    (hc : call ∈ [surface, volume, interaction, calcOp]) :
    let lin := (call id kw (run w [.setDB id false])).1
    let dec := (call id kw (run w [.setDB id true])).1
    (∀ e, dec = .error e ↔ lin = .error e) ∧
    ∀ a, lin = .ok a → ∃ d, dec = .ok d ∧ d.shape = a.shape ∧
      ∀ idx, Arr.Valid a.shape idx →
        d.get idx = (match a.get idx with
          | .fin v => if 0 < v then XR.fin (10 * Real.logb 10 v) else if v = 0 then XR.ninf else XR.nan
          | .pinf => XR.pinf
          | .ninf => XR.nan
          | .nan => XR.nan) := by
  intro lin dec
  have hr : ∀ d, Reachable (run w [.setDB id d]) := fun d =>
    hw.run (by intro op hop; rw [List.mem_singleton] at hop; subst hop; trivial)
  have key : IsDB dec lin := by
    cases ho : w.objs id with
    | none =>
      have hn : ∀ d, (run w [.setDB id d]).objs id = none := by
        intro d
        show Function.update w.objs id _ id = none
        rw [Function.update_self, ho]; rfl
      have he : ∀ d, (call id kw (run w [.setDB id d])).1 = .error .attributeError := by
        intro d
        simp only [List.mem_cons, List.not_mem_nil, or_false] at hc
        rcases hc with rfl | rfl | rfl | rfl
        · exact surface_none (hn d) kw
        · exact volume_none (hn d) kw
        · exact interaction_none (hn d) kw
        · exact calcOp_none (hn d) kw
      show IsDB (call id kw (run w [.setDB id true])).1 (call id kw (run w [.setDB id false])).1
      rw [he, he]
      exact ⟨fun _ => Iff.rfl, fun a ha => by cases ha⟩
    | some o =>
      have hn : ∀ d, (run w [.setDB id d]).objs id = some (o.withDB d) := fun d => modObj_get ho _
      have hb : ∀ d, (run w [.setDB id d]).backend = w.backend := fun d => run_backend w _
      show IsDB (call id kw (run w [.setDB id true])).1 (call id kw (run w [.setDB id false])).1
      simp only [List.mem_cons, List.not_mem_nil, or_false] at hc
      rcases hc with rfl | rfl | rfl | rfl
      · rw [(surface_eq (hr _).inv (hn _) kw).1, (surface_eq (hr _).inv (hn _) kw).1, hb, hb,
          Fresh.update_withDB, Fresh.update_withDB]
        exact Fresh.surface_dB _ _
      · rw [(volume_eq (hr _).inv (hn _) kw).1, (volume_eq (hr _).inv (hn _) kw).1, hb, hb,
          Fresh.update_withDB, Fresh.update_withDB]
        exact Fresh.volume_dB _ _
      · rw [(interaction_eq (hr _).inv (hn _) kw).1, (interaction_eq (hr _).inv (hn _) kw).1, hb, hb,
          Fresh.update_withDB, Fresh.update_withDB]
        exact Fresh.interaction_dB _ _
      · rw [(calcOp_eq (hr _).inv (hn _) kw).1, (calcOp_eq (hr _).inv (hn _) kw).1, hb, hb,
          Fresh.update_withDB, Fresh.update_withDB]
        exact Fresh.calcAll_dB _ _
  refine ⟨key.1, fun a ha => ?_⟩
  obtain ⟨d, h1, h2, h3⟩ := key.2 a ha
  refine ⟨d, h1, h2, fun idx hv => ?_⟩
  rw [h3 idx hv]
  cases a.get idx <;> rfl

/-- The decibel value of a positive number is finite, is inverted by `10^(d/10)`, and keeps
the order. -/
theorem C25_inverse {v v' : ℝ} (hv : 0 < v) (hv' : 0 < v') : ∃ d d', dBValue v = XR.fin d ∧
    dBValue v' = XR.fin d' ∧ (10 : ℝ) ^ (d / 10) = v ∧ (d < d' ↔ v < v') := by
  refine ⟨_, _, if_pos hv, if_pos hv', ?_, ?_⟩
  · rw [mul_div_cancel_left₀ _ (by norm_num : (10 : ℝ) ≠ 0)]
    exact Real.rpow_logb (by norm_num) (by norm_num) hv
  · rw [mul_lt_mul_iff_right₀ (by norm_num : (0 : ℝ) < 10)]
    exact Real.logb_lt_logb_iff (by norm_num) hv hv'

/-- The surface value of the example object is positive and finite, so its decibel value is
finite and stands for it. -/
example : ∃ w a d v e, Reachable w ∧ (surface 0 [] (run w [.setDB 0 false])).1 = .ok a ∧
    (surface 0 [] (run w [.setDB 0 true])).1 = .ok d ∧ a.get [0] = XR.fin v ∧ 0 < v ∧
    d.get [0] = XR.fin e ∧ (10 : ℝ) ^ (e / 10) = v := by
  have hr : (demoSite 1 (Real.pi / 3) 0 1 1 1 0).Reports [] := by
    refine ⟨?_, ?_, ?_, ?_, by simp⟩ <;> simp [demoSite]
  have hreg := demo_regular false (I := 1) (by norm_num) 0 1 1 1 0
  have hp := demo_physical (I := 1) (τ := 1) (ω := 1) (N := 1) (β := 0) (by norm_num)
    (by norm_num) (by norm_num) (by norm_num) (by norm_num) (by norm_num) 0
  obtain ⟨⟨arr, w', h, hs, hO⟩, -⟩ := scalar_site_call .sympy (V := exV) (SRF := exS) false false false
    (x := demoSite 1 (Real.pi / 3) 0 1 1 1 0) (mono := true) (fun _ => false) (l := [])
    (fun _ => ⟨rfl, rfl⟩) hr (fun n hn => List.mem_append_left _ (exV_plain n hn))
    (fun n hn => List.mem_append_left _ (exS_plain n hn))
  have hw := (scalarW_reachableP .sympy exV exS false false false (demoSite 1 (Real.pi / 3) 0 1 1 1 0) true
    (fun _ => false) (scalarKw (demoSite 1 (Real.pi / 3) 0 1 1 1 0) [])).reachable
  have ho := scalarW_obj .sympy exV exS false false false (demoSite 1 (Real.pi / 3) 0 1 1 1 0) true
    (fun _ => false) (scalarKw (demoSite 1 (Real.pi / 3) 0 1 1 1 0) [])
  have hd : (scalarObj exV exS false false false (demoSite 1 (Real.pi / 3) 0 1 1 1 0) true
    (fun _ => false) (scalarKw (demoSite 1 (Real.pi / 3) 0 1 1 1 0) [])).dB = false :=
    congrArg Cfg.dB (scalar_cfg exV exS false false false (demoSite 1 (Real.pi / 3) 0 1 1 1 0) true
      (fun _ => false) (scalarKw (demoSite 1 (Real.pi / 3) 0 1 1 1 0) []))
  have e := C18_surface_linear (Or.inl hO) (exS_value _) hreg.mu0 hreg.muEx rfl rfl
  generalize scalarObj exV exS false false false (demoSite 1 (Real.pi / 3) 0 1 1 1 0) true
    (fun _ => false) (scalarKw (demoSite 1 (Real.pi / 3) 0 1 1 1 0) []) = o at *
  generalize scalarW .sympy exV exS false false false (demoSite 1 (Real.pi / 3) 0 1 1 1 0) true
    (fun _ => false) (scalarKw (demoSite 1 (Real.pi / 3) 0 1 1 1 0) []) = w at *
  have ho' : (run w [.setDB 0 false]).objs 0 = some o := by
    have : (run w [.setDB 0 false]).objs 0 = some (o.withDB false) := modObj_get ho _
    rw [this]
    congr 1
    show { o with dB := false } = o
    rw [← hd]
  have hw' : Reachable (run w [.setDB 0 false]) :=
    hw.run (by intro op hop; rw [List.mem_singleton] at hop; subst hop; trivial)
  have hlin : (surface 0 [] (run w [.setDB 0 false])).1 = .ok arr := by
    have e1 := (surface_eq hw.inv ho []).1
    rw [(surface_eq hw'.inv ho' []).1, show (run w [.setDB 0 false]).backend = w.backend from run_backend w _,
      ← e1, h]
  obtain ⟨dec, hdec, -, hval⟩ := (C25_calls hw 0 [] (call := surface) (by simp)).2 arr hlin
  have m0 : 0 < Real.cos (demoSite 1 (Real.pi / 3) 0 1 1 1 0).t0 := hp.mu0
  have hpi := Real.pi_pos
  have hv := hval [0] (by rw [hs]; simp [Arr.Valid])
  rw [e] at hv
  have pos : 0 < (demoSite 1 (Real.pi / 3) 0 1 1 1 0).NormBRDF
      * ((1 - (demoSite 1 (Real.pi / 3) 0 1 1 1 0).bsf)
        * Real.exp (-((demoSite 1 (Real.pi / 3) 0 1 1 1 0).tau / Real.cos (demoSite 1 (Real.pi / 3) 0 1 1 1 0).t0)
          - (demoSite 1 (Real.pi / 3) 0 1 1 1 0).tau / Real.cos (demoSite 1 (Real.pi / 3) 0 1 1 1 0).tex)
        + (demoSite 1 (Real.pi / 3) 0 1 1 1 0).bsf)
      * (demoSite 1 (Real.pi / 3) 0 1 1 1 0).I0 * Real.cos (demoSite 1 (Real.pi / 3) 0 1 1 1 0).t0
      * (1 / Real.pi) := by
    simp only [demoSite] at m0 ⊢
    positivity
  obtain ⟨x, -, hx, -, hx', -⟩ := C25_inverse pos pos
  refine ⟨w, arr, dec, _, x, hw, hlin, hdec, e, pos, ?_, hx'⟩
  rw [hv]
  exact hx

end

end RT1
