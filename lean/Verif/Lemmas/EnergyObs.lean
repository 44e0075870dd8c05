import Verif.Lemmas.Energy
import Verif.Lemmas.IntRow
import Verif.Lemmas.DemoVec
import Verif.Lemmas.NormL
import Verif.Lemmas.IsoErr

/-!
# From observed values to the energy balance

Values of the first row of `calc`; the predefined scattering functions as functions of two
directions; objects whose `calc` can be observed for every exit direction.
-/

namespace RT1

noncomputable section
open Classical

/-! ### the total -/

theorem ObservesRow.total_val {c : Cfg} {x : Site} {r : XR} (h : ObservesRow 0 c x r) (hq : c.intQ = false)
    {f p : ℝ} (hf : c.SRF.ValueAt x f) (hp : c.V.ValueAt x p) (hx : x.Regular c.sig0) (ht : 0 ≤ x.tau) :
    r = x.inUnits c.sig0 c.dB (x.surface f + x.volume p) := by
  obtain ⟨idx, b, o, Is, Iv, Ii, z, hi⟩ := h.info
  rw [hi.val]
  have e : o.intQ = false := hi.intQ_eq.trans hq
  simp only [rowVal, e, Bool.false_eq_true, if_false]
  rw [hi.srf hf hx.mu0 hx.muEx, hi.vol hp hx.mu0 hx.muEx hx.sum ht, hi.sig0_eq, hi.dB_eq]
  exact hi.site.x_convert hx.I0 _

theorem ObservesRowP.total_val {c : Cfg} {md : Mode} {x : Site} {r : XR} (h : ObservesRowP 0 c md x r)
    (hq : c.intQ = true) {f p : ℝ} (hf : c.SRF.ValueAt x f) (hp : c.V.ValueAt x p)
    {nV nS : ℕ} (hV : c.V.ncoefs = .ok (nV + 1)) (hS : c.SRF.ncoefs = .ok (nS + 1))
    (hx : x.Oblique) (hI : c.sig0 = true → x.I0 ≠ 0) :
    ∃ g : Geom4, GeomAt md g x ∧
      r = x.inUnits c.sig0 c.dB (x.surface f + x.volume p + geomInteraction c.V c.SRF g x) := by
  obtain ⟨w, id, kw, arr, w', idx, hw, hcall, hv, rfl, hs, o, ho, rfl, rfl, n, hal⟩ := h
  obtain ⟨Is, Iv, Ii, hpp, -, hrow⟩ := calc_rowP hw hcall ho hal
  have hr := hrow 0 idx x hv hs
  refine ⟨o.geom, hr.geom, ?_⟩
  have e : o.intQ = true := hq
  have hi := hr.info
  rw [hi.val]
  simp only [rowVal, e, if_true]
  rw [hi.srf hf hx.mu0.ne' hx.muEx.ne', hi.vol hp hx.mu0.ne' hx.muEx.ne' (add_pos hx.mu0 hx.muEx).ne' hx.tau.le,
    hr.int_val e hV hS hx]
  exact hi.site.x_convert hI _

theorem Site.inUnits_inj {x : Site} {s d : Bool} (hs : s = true → 0 < x.signorm) {v j : ℝ} (hv : 0 ≤ v)
    (h : x.inUnits s d j = x.inUnits s d v) : j = v := by
  have key : ∀ a b : ℝ, 0 ≤ b → (if d = true then dBValue a else XR.fin a) = (if d = true then dBValue b else XR.fin b) →
      a = b := by
    intro a b hb h
    cases d with
    | false => simpa using h
    | true =>
      simp only [if_true] at h
      unfold dBValue at h
      rcases hb.eq_or_lt with rfl | hb
      · by_cases h1 : 0 < a
        · rw [if_pos h1] at h; simp at h
        · by_cases h2 : a = 0
          · exact h2
          · rw [if_neg h1, if_neg h2] at h; simp at h
      · rw [if_pos hb] at h
        by_cases h1 : 0 < a
        · rw [if_pos h1] at h
          have h := XR.fin.inj h
          have h : Real.logb 10 a = Real.logb 10 b := by linarith
          exact Real.logb_injOn_pos (by norm_num) (Set.mem_Ioi.mpr h1) (Set.mem_Ioi.mpr hb) h
        · by_cases h2 : a = 0
          · rw [if_neg h1, if_pos h2] at h; cases h
          · rw [if_neg h1, if_neg h2] at h; cases h
  unfold Site.inUnits at h
  cases s with
  | false => exact key _ _ hv (by simpa using h)
  | true =>
    have hp := hs rfl
    have := key _ _ (mul_nonneg hv hp.le) (by simpa using h)
    exact mul_right_cancel₀ hp.ne' this

/-! ### the predefined functions as functions of two directions -/

/-- A predefined function with `a = [a0, 1, 1]` and parameter `t`. -/
def Kind.bidir (k : Kind) (a0 t : ℝ) : Bidir := fun t0 tex p0 pex => k.val a0 t (Phase.cosTheta a0 1 1 t0 tex p0 pex)

theorem cosTheta_symm (a0 a1 a2 t0 tex p0 pex : ℝ) :
    Phase.cosTheta a0 a1 a2 t0 tex p0 pex = Phase.cosTheta a0 a1 a2 tex t0 pex p0 := by
  unfold Phase.cosTheta; ring

theorem cosTheta_le {a0 : ℝ} (h : |a0| ≤ 1) (t0 tex p0 pex : ℝ) : |Phase.cosTheta a0 1 1 t0 tex p0 pex| ≤ 1 :=
  Phase.cosTheta_abs_le h (by simp) (by simp) _ _ _ _

theorem Kind.bidir_symm (k : Kind) (a0 t : ℝ) (t0 tex p0 pex : ℝ) :
    k.bidir a0 t t0 tex p0 pex = k.bidir a0 t tex t0 pex p0 := by
  unfold bidir; rw [cosTheta_symm]

theorem Kind.bidir_nonneg {k : Kind} {a0 t : ℝ} (ha : |a0| ≤ 1) (ht : |t| < 1) (hk : ¬ k.IsNadirnorm) (t0 tex p0 pex : ℝ) :
    0 ≤ k.bidir a0 t t0 tex p0 pex := k.val_nonneg ha ht (cosTheta_le ha _ _ _ _) fun h => absurd h hk

theorem Kind.bidir_cont (k : Kind) {a0 t : ℝ} (ha : |a0| ≤ 1) (ht : |t| < 1) : (k.bidir a0 t).Cont := by
  have hc : Continuous fun x : (ℝ × ℝ) × (ℝ × ℝ) => Phase.cosTheta a0 1 1 x.1.1 x.2.1 x.1.2 x.2.2 := by
    unfold Phase.cosTheta; fun_prop
  have hb : Continuous fun x : (ℝ × ℝ) × (ℝ × ℝ) =>
      (1 + t ^ 2 - 2 * t * Phase.cosTheta a0 1 1 x.1.1 x.2.1 x.1.2 x.2.2) ^ (3 / 2 : ℝ) :=
    Continuous.rpow_const (by fun_prop) fun x => .inl (hg_base_pos ht (cosTheta_le ha _ _ _ _)).ne'
  have hb0 : ∀ x : (ℝ × ℝ) × (ℝ × ℝ),
      (1 + t ^ 2 - 2 * t * Phase.cosTheta a0 1 1 x.1.1 x.2.1 x.1.2 x.2.2) ^ (3 / 2 : ℝ) ≠ 0 := fun x =>
    (Real.rpow_pos_of_pos (hg_base_pos ht (cosTheta_le ha _ _ _ _)) _).ne'
  unfold Bidir.Cont bidir
  cases k <;> simp only [val, Phase.rayleigh, Phase.hg, Phase.hgRayleigh, Phase.cosineLobe]
  · fun_prop
  · fun_prop
  · exact continuous_const.mul (continuous_const.div hb hb0)
  · exact continuous_const.mul (Continuous.div (by fun_prop) hb hb0)
  · fun_prop
  · fun_prop
  · exact continuous_const.mul (continuous_const.div hb hb0)
  · exact continuous_const.mul (continuous_const.mul (continuous_const.div hb hb0))

theorem hemReflectance_const : hemReflectance (fun _ _ => 1 / Real.pi) = 1 := by
  unfold hemReflectance
  have h : ∀ θ, 1 / Real.pi * Real.cos θ * Real.sin θ = 1 / Real.pi * (Real.cos θ ^ 1 * Real.sin θ) := fun θ => by ring
  have hpi := Real.pi_ne_zero
  simp only [h, intervalIntegral.integral_const_mul, cos_pow_sin, intervalIntegral.integral_const, smul_eq_mul]
  push_cast
  field_simp
  norm_num

/-- Bounds for the hemispherical reflectance of surface functions, for every incidence direction
(HG_nadirnorm excluded). -/
def Kind.reflMax : Kind → ℝ
  | .srfHG _ => 4
  | _ => 1

theorem hemReflectance_mono {f g : ℝ → ℝ → ℝ} (hf : Continuous fun z : ℝ × ℝ => f z.1 z.2)
    (hg : Continuous fun z : ℝ × ℝ => g z.1 z.2) (h : ∀ t p, f t p ≤ g t p) : hemReflectance f ≤ hemReflectance g := by
  have e : ∀ f : ℝ → ℝ → ℝ, Continuous (fun z : ℝ × ℝ => f z.1 z.2) →
      hemReflectance f = ∫ z, f z.1 z.2 * Real.cos z.1 * Real.sin z.1 ∂Energy.ν := fun f hf =>
    Energy.eq_iter (g := fun z : ℝ × ℝ => f z.1 z.2 * Real.cos z.1 * Real.sin z.1) (by fun_prop)
  rw [e f hf, e g hg]
  refine Energy.mono (by fun_prop) (by fun_prop) fun t ht p _ => ?_
  have h1 := Energy.sin_nonneg' ht
  have h2 := Energy.cs_nonneg t
  rw [Energy.cs_eq ht] at h2
  exact mul_le_mul_of_nonneg_right (mul_le_mul_of_nonneg_right (h t p) h2) h1

/-- The hemispherical reflectance is at most the integral over the sphere. -/
theorem hemReflectance_le_sphere {f : ℝ → ℝ → ℝ} (hf : Continuous fun z : ℝ × ℝ => f z.1 z.2) (h0 : ∀ t p, 0 ≤ f t p) :
    hemReflectance f ≤ sphereIntegral f := by
  unfold hemReflectance sphereIntegral
  have hc : ∀ b, Continuous fun p => ∫ t in (0 : ℝ)..b, f t p * Real.sin t := fun b =>
    intervalIntegral.continuous_parametric_intervalIntegral_of_continuous' (f := fun p t => f t p * Real.sin t)
      ((hf.comp (by fun_prop : Continuous fun y : ℝ × ℝ => (y.2, y.1))).mul (by fun_prop)) _ _
  have hc' : Continuous fun p => ∫ t in (0 : ℝ)..Real.pi / 2, f t p * Real.cos t * Real.sin t :=
    intervalIntegral.continuous_parametric_intervalIntegral_of_continuous' (f := fun p t => f t p * Real.cos t * Real.sin t)
      (((hf.comp (by fun_prop : Continuous fun y : ℝ × ℝ => (y.2, y.1))).mul (by fun_prop)).mul (by fun_prop)) _ _
  refine intervalIntegral.integral_mono_on (by positivity) (hc'.intervalIntegrable _ _)
    ((hc _).intervalIntegrable _ _) fun p _ => ?_
  have hcp : Continuous fun t => f t p := hf.comp (by fun_prop : Continuous fun t : ℝ => (t, p))
  have hi : ∀ a b, IntervalIntegrable (fun t => f t p * Real.sin t) MeasureTheory.volume a b := fun a b =>
    Continuous.intervalIntegrable (by fun_prop) _ _
  have hpi := Real.pi_pos
  rw [← intervalIntegral.integral_add_adjacent_intervals (hi 0 (Real.pi / 2)) (hi (Real.pi / 2) Real.pi)]
  have h1 : ∫ t in (0 : ℝ)..Real.pi / 2, f t p * Real.cos t * Real.sin t ≤ ∫ t in (0 : ℝ)..Real.pi / 2, f t p * Real.sin t := by
    refine intervalIntegral.integral_mono_on (by positivity) (Continuous.intervalIntegrable (by fun_prop) _ _) (hi _ _)
      fun t ht => ?_
    exact mul_le_mul_of_nonneg_right (mul_le_of_le_one_right (h0 t p) (Real.cos_le_one t)) (Energy.sin_nonneg' ht)
  have h2 : 0 ≤ ∫ t in (Real.pi / 2)..Real.pi, f t p * Real.sin t :=
    intervalIntegral.integral_nonneg (by linarith) fun t ht =>
      mul_nonneg (h0 t p) (Real.sin_nonneg_of_nonneg_of_le_pi (by linarith [ht.1]) ht.2)
  linarith

theorem Kind.refl_le {k : Kind} (hk : k = .srfIsotropic ∨ (∃ i, k = .srfCosineLobe i) ∨ ∃ te, k = .srfHG te) {t : ℝ}
    (ht : |t| < 1) (t0 p0 : ℝ) : hemReflectance (fun tex pex => k.bidir 1 t t0 tex p0 pex) ≤ k.reflMax := by
  have hc : Continuous fun z : ℝ × ℝ => k.bidir 1 t t0 z.1 p0 z.2 :=
    (k.bidir_cont (a0 := 1) (by simp) ht).comp (by fun_prop) (by fun_prop) (by fun_prop) (by fun_prop)
  rcases hk with rfl | ⟨i, rfl⟩ | ⟨te, rfl⟩
  · exact hemReflectance_const.le
  · refine (hemReflectance_mono hc continuous_const fun tex pex => ?_).trans hemReflectance_const.le
    have h1 := (abs_le.mp (cosTheta_le (a0 := 1) (by simp) t0 tex p0 pex)).2
    have h2 : (max (Phase.cosTheta 1 1 1 t0 tex p0 pex) 0) ^ i ≤ 1 :=
      pow_le_one₀ (le_max_right _ _) (max_le h1 zero_le_one)
    exact mul_le_of_le_one_right (by positivity) h2
  · refine (hemReflectance_le_sphere hc fun tex pex => bidir_nonneg (k := .srfHG te) (by simp) ht (fun h => h) _ _ _ _).trans ?_
    have e : (fun tex pex => (Kind.srfHG te).bidir 1 t t0 tex p0 pex) = fun tex pex =>
        4 * (Kind.volHG te).val (-1) t (Phase.cosTheta (-1) 1 1 (Real.pi - t0) tex p0 pex) := by
      funext tex pex
      have : Phase.cosTheta 1 1 1 t0 tex p0 pex = Phase.cosTheta (-1) 1 1 (Real.pi - t0) tex p0 pex := by
        unfold Phase.cosTheta
        rw [Real.cos_pi_sub, Real.sin_pi_sub]
        ring
      simp only [bidir, val, Phase.hg, this]
      have := Real.pi_ne_zero
      field_simp
    rw [e]
    have hn := Kind.vol_normalised (k := .volHG te) trivial (a0 := -1) ht (Real.pi - t0) p0
    unfold sphereIntegral at hn ⊢
    simp only [mul_assoc, intervalIntegral.integral_const_mul]
    rw [hn]
    simp [reflMax]

/-- The predefined functions (default `a`) are balanced. -/
theorem Kind.balanced {kV kS : Kind} (hV : kV.IsVol)
    (hS : kS = .srfIsotropic ∨ (∃ i, kS = .srfCosineLobe i) ∨ ∃ te, kS = .srfHG te) {tV tS : ℝ} (h1 : |tV| < 1) (h2 : |tS| < 1) :
    Balanced (kV.bidir (-1) tV) (kS.bidir 1 tS) kS.reflMax where
  contP := kV.bidir_cont (by simp) h1
  contF := kS.bidir_cont (by simp) h2
  P0 := bidir_nonneg (by simp) h1 (by cases kV <;> simp_all [IsVol, IsNadirnorm])
  F0 := bidir_nonneg (by simp) h2 (by rcases hS with rfl | ⟨i, rfl⟩ | ⟨te, rfl⟩ <;> exact fun h => h)
  norm := fun t p => kV.vol_normalised hV h1 t p
  refl := fun t _ p => refl_le hS h2 t p
  symP := kV.bidir_symm _ _
  symF := kS.bidir_symm _ _

/-- Value of a predefined function at a site. -/
theorem Kind.valueAt {k : Kind} {a : A3} {nc : Option ℕ} {y : Site} {a0 t : ℝ} (h : a.Is y.env a0 1 1) (ha : |a0| ≤ 1)
    (ht : k.TIs y.env t) (ht1 : |t| < 1) (hk : ¬ k.IsNadirnorm) :
    (Scatter.prim k a nc).ValueAt y (k.bidir a0 t y.t0 y.tex y.p0 y.pex) :=
  (Kind.is (x := ⟨y.t0, y.tex, y.p0, y.pex, y.ρ⟩) h ht (hg_base_pos ht1 (cosTheta_le ha _ _ _ _))
    (k.nadirOK ha ht1 fun h => absurd h hk)).evalX

/-! ### objects -/

theorem Site.toward_reports {x : Site} (h : x.Reports []) (t p : ℝ) : (x.toward t p).Reports [] :=
  ⟨h.bsf, h.tau, h.omega, h.NormBRDF, by simp⟩

/-- The first row of `calc()` of bistatic objects. -/
theorem scalar_total (b : Backend) {V SRF : Scatter} (q s d : Bool) {x : Site} (hr : x.Reports []) (hV : V.Plain)
    (hS : SRF.Plain) (hfn : q = true → ∀ g, ∃ fs, fnCoefs V SRF g = .ok fs) (hnV : q = true → ∃ n, V.ncoefs = .ok (n + 1))
    (hnS : q = true → ∃ n, SRF.ncoefs = .ok (n + 1)) :
    ∃ r, ObservesRowP 0 ⟨V, SRF, q, s, d⟩ ⟨false, []⟩ x r := by
  have hsc := scalar_scalar (V := V) (SRF := SRF) q s d (mono := false) (fun _ => false) (l := [])
    (by simp) hr (fun k hk => List.mem_append_left _ (hV k hk)) (fun k hk => List.mem_append_left _ (hS k hk))
  have hg := scalar_geom V SRF q s d x false (fun _ => false) (scalarKw x [])
  have hw := scalarW_reachableP b V SRF q s d x false (fun _ => false) (scalarKw x [])
  have ho := scalarW_obj b V SRF q s d x false (fun _ => false) (scalarKw x [])
  have hb := scalarW_backend b V SRF q s d x false (fun _ => false) (scalarKw x [])
  have hc := scalar_cfg V SRF q s d x false (fun _ => false) (scalarKw x [])
  have hu := scalar_update V SRF q s d x false (fun _ => false) (scalarKw x [])
  generalize scalarObj V SRF q s d x false (fun _ => false) (scalarKw x []) = o at *
  have eV : o.V = V := by have := congrArg Cfg.V hc; exact this
  have eS : o.SRF = SRF := by have := congrArg Cfg.SRF hc; exact this
  have eq : o.intQ = q := by have := congrArg Cfg.intQ hc; exact this
  obtain ⟨arr, n, h1, h2, hn⟩ : ∃ arr n, Fresh.calcAll b o = .ok arr ∧ arr.shape = [1] ++ [n] ∧ 0 < n := by
    cases q with
    | false =>
      obtain ⟨arr, h1, h2⟩ := hsc.complete.calcAll_three b hsc.t0 rfl eq
      exact ⟨arr, 3, h1, h2, by norm_num⟩
    | true =>
      have hci : CompleteI b o [1] := hsc.completeI eq
        (ObjOK.none hg.fn_ hg.fnevals_) (hw.geomOK ho) (by rw [eV, eS]; exact hfn rfl _)
        (by rw [eV]; exact hnV rfl) (by rw [eS]; exact hnS rfl)
        (fun l hl => by rw [hg.fnevals_] at hl; cases hl)
      obtain ⟨arr, h1, h2⟩ := hci.calcAll hsc.t0 rfl
      exact ⟨arr, 4, h1, h2, by norm_num⟩
  have key := CalcP.of hw ho [] (arr := arr) (S := [1]) (r := 1) (site := fun _ => x) (by rw [hb, hu]; exact h1) h2
    (by rw [hb, hu]; exact hsc.aligned b) fun idx hv => by
      rw [hb, hu]
      obtain rfl : idx = [0] := by
        cases idx with
        | nil => simp [Arr.Valid] at hv
        | cons a l => cases l <;> simp [Arr.Valid] at hv ⊢; omega
      exact hsc.fsite b
  have hm : o.mode = ⟨false, []⟩ := by
    show Mode.mk o.mono o.fixed = _
    rw [hg.mono, hg.fixed_none fun _ => rfl]
  rw [hc, hm] at key
  exact ⟨_, key.row (idx := [0]) (k := 0) (by simp [Arr.Valid]) (by rw [h2]; simp [Arr.Valid, hn])⟩

end

end RT1
