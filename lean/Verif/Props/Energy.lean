import Verif.Lemmas.EnergyObs
import Verif.Lemmas.EnergyShift
import Verif.Props.Interaction
import Verif.Props.Contrib

/-!
# C74: energy balance

The radiances returned by `calc` for all exit directions, summed over the upper hemisphere, do not
exceed the incoming energy.
-/

namespace RT1

noncomputable section
open Classical

/-- The functions of two directions that the scattering functions stand for, for the parameter
values of the site `x`. -/
structure StandsFor (c : Cfg) (x : Site) (P F : Bidir) : Prop where
  V : ∀ y : Site, y.ρ = x.ρ → c.V.ValueAt y (P y.t0 y.tex y.p0 y.pex)
  SRF : ∀ y : Site, y.ρ = x.ρ → c.SRF.ValueAt y (F y.t0 y.tex y.p0 y.pex)

/-- The Legendre expansions of the scattering functions have the same values as the functions. -/
structure ExactSeries (c : Cfg) (x : Site) (P F : Bidir) : Prop where
  V : ∀ y : Site, y.ρ = x.ρ → ∀ a b u v, c.V.expVal y.env a b u v = P a b u v
  SRF : ∀ y : Site, y.ρ = x.ρ → ∀ a b u v, c.SRF.expVal y.env a b u v = F a b u v

/-- Values used by the energy balance. -/
def Site.setting (x : Site) : Energy.Setting := ⟨x.I0, x.tau, x.omega, x.NormBRDF, x.bsf, x.t0, x.p0⟩

theorem Site.Passive.ok {x : Site} {R : ℝ} (h : x.Passive R) : x.setting.OK R where
  I0 := h.I0
  τ := h.tau
  ω0 := h.omega0
  ω1 := h.omega1
  N := h.NormBRDF
  NR := h.refl
  b0 := h.bsf0
  b1 := h.bsf1
  mu0 := Real.cos_pos_of_mem_Ioo ⟨lt_of_lt_of_le (by linarith [Real.pi_pos]) h.t0, h.t0'⟩
  t0 := ⟨h.t0, h.t0'.le⟩

theorem Site.signorm_pos {x : Site} {R : ℝ} (h : x.Passive R) (hI : x.I0 ≠ 0) : 0 < x.signorm := by
  have h1 := h.ok.mu0
  have h2 : 0 < x.I0 := lt_of_le_of_ne h.I0 (Ne.symm hI)
  have := Real.pi_pos
  have h1 : 0 < x.mu0 := h1
  unfold Site.signorm
  positivity

/-- Non-negative energy in every direction. -/
theorem energy_nonneg {P F : Bidir} {R : ℝ} (hb : Balanced P F R) {x : Site} (hx : x.Passive R) {k : ℝ}
    (hk0 : 0 ≤ k) (hk1 : k ≤ 1) {t : ℝ} (ht : t ∈ Set.Ioo 0 (Real.pi / 2)) (p : ℝ) :
    0 ≤ x.setting.srf F t p + x.setting.vol P t p + k * x.setting.inter P F t p := by
  have h := (Energy.le_bound hb hx.ok hk0 hk1 ht p).1
  have h1 : 0 < Real.cos t := Real.cos_pos_of_mem_Ioo ⟨by linarith [ht.1, Real.pi_pos], ht.2⟩
  have h2 : 0 < Real.sin t := Real.sin_pos_of_pos_of_lt_pi ht.1 (by linarith [ht.2, Real.pi_pos])
  rw [mul_assoc] at h
  exact nonneg_of_mul_nonneg_left h (mul_pos h1 h2)

theorem energy_nonneg_shift {P F : Bidir} {R : ℝ} (hb : Balanced P F R) (hF : F.Turns) {x : Site} (hx : x.Passive R)
    {t : ℝ} (ht : t ∈ Set.Ioo 0 (Real.pi / 2)) (p : ℝ) :
    0 ≤ x.setting.srf F t p + x.setting.vol P t p + x.setting.inter P F.shift t p := by
  have h1 : 0 < Real.cos t := Real.cos_pos_of_mem_Ioo ⟨by linarith [ht.1, Real.pi_pos], ht.2⟩
  have ok := hx.ok
  have hb1 : 0 ≤ 1 - x.setting.b := by linarith [ok.b1]
  refine add_nonneg (add_nonneg ?_ ?_) ?_
  · unfold Energy.Setting.srf
    exact mul_nonneg (mul_nonneg (mul_nonneg (mul_nonneg ok.N (add_nonneg (mul_nonneg hb1 (Real.exp_pos _).le) ok.b0)) ok.I0) ok.mu0.le)
      (hb.F0 _ _ _ _)
  · have h := energy_nonneg hb (x := { x with NormBRDF := 0 }) ⟨hx.I0, hx.tau, hx.omega0, hx.omega1, le_rfl, by simp, hx.bsf0, hx.bsf1,
      hx.t0, hx.t0'⟩ (k := 0) le_rfl zero_le_one ht p
    have e : ({ x with NormBRDF := 0 } : Site).setting.srf F t p = 0 := by simp [Energy.Setting.srf, Site.setting]
    rw [e, zero_mul, add_zero, zero_add] at h
    exact h
  · unfold Energy.Setting.inter
    refine mul_nonneg (mul_nonneg (mul_nonneg (mul_nonneg (mul_nonneg ok.N hb1) ok.I0) ok.mu0.le) ok.ω0) ?_
    exact add_nonneg (mul_nonneg (Real.exp_pos _).le (hemi_nonneg ok.mu0 ok.τ fun _ _ => mul_nonneg (hb.P0 _ _ _ _) (hb.F0 _ _ _ _)))
      (mul_nonneg (Real.exp_pos _).le (hemi_nonneg h1 ok.τ fun _ _ => mul_nonneg (hb.P0 _ _ _ _) (hb.F0 _ _ _ _)))

/-- Without interaction term: the first rows of `calc` for all exit directions (in any of the units,
`J` is the intensity they stand for), summed over the upper hemisphere, are at most the incoming
energy `I0 cos(t_0)`. -/
theorem C74_first_order {c : Cfg} (hq : c.intQ = false) {x : Site} {P F : Bidir} {R : ℝ} (hs : StandsFor c x P F)
    (hb : Balanced P F R) (hx : x.Passive R) (hI : c.sig0 = true → x.I0 ≠ 0) {J : ℝ → ℝ → ℝ}
    (hJ : AllDirs fun t p => ObservesRow 0 c (x.toward t p) (x.inUnits c.sig0 c.dB (J t p))) :
    AtMost J (x.I0 * Real.cos x.t0) := by
  refine Energy.balance hb hx.ok (k := 0) le_rfl zero_le_one fun t ht p hp => ?_
  have hc : 0 < Real.cos t := Real.cos_pos_of_mem_Ioo ⟨by linarith [ht.1, Real.pi_pos], ht.2⟩
  have h0 : 0 < Real.cos x.t0 := hx.ok.mu0
  have e := (hJ t ht p hp).total_val hq (hs.SRF (x.toward t p) rfl) (hs.V (x.toward t p) rfl)
    ⟨h0.ne', hc.ne', (add_pos h0 hc).ne', hI⟩ hx.tau
  have hn := energy_nonneg hb hx (k := 0) le_rfl zero_le_one ht p
  rw [zero_mul, add_zero] at hn ⊢
  exact Site.inUnits_inj (x := x) (s := c.sig0) (d := c.dB) (fun h => x.signorm_pos hx (hI h)) hn e

/-- The same with interaction term, for bistatic objects without fixed angles whose scattering
functions are equal to their Legendre expansions (the interaction term is computed from the
expansions), a canopy and oblique incidence. The azimuth of the surface function that is shifted by pi
in the interaction term (see C36) does not change the balance. -/
theorem C74_interaction_partial {c : Cfg} (hq : c.intQ = true) {x : Site} {P F : Bidir} {R : ℝ} (hs : StandsFor c x P F)
    (he : ExactSeries c x P F) (hF : F.Turns)
    {nV nS : ℕ} (hV : c.V.ncoefs = .ok (nV + 1)) (hS : c.SRF.ncoefs = .ok (nS + 1))
    (hb : Balanced P F R) (hx : x.Passive R) (ht0 : 0 < x.t0) (hτ : 0 < x.tau) (hI : c.sig0 = true → x.I0 ≠ 0)
    {J : ℝ → ℝ → ℝ}
    (hJ : AllDirs fun t p => ObservesRowP 0 c ⟨false, []⟩ (x.toward t p) (x.inUnits c.sig0 c.dB (J t p))) :
    AtMost J (x.I0 * Real.cos x.t0) := by
  refine Energy.balance_shift hb hF hx.ok fun t ht p hp => ?_
  have lt1 : ∀ s, 0 < s → s < Real.pi / 2 → Real.cos s < 1 := fun s h1 h2 => by
    have := Real.cos_lt_cos_of_nonneg_of_le_pi le_rfl (show s ≤ Real.pi by linarith [Real.pi_pos]) h1
    rwa [Real.cos_zero] at this
  have hc : 0 < Real.cos t := Real.cos_pos_of_mem_Ioo ⟨by linarith [ht.1, Real.pi_pos], ht.2⟩
  have h0 : 0 < Real.cos x.t0 := hx.ok.mu0
  obtain ⟨g, hg, e⟩ := (hJ t ht p hp).total_val hq (hs.SRF (x.toward t p) rfl) (hs.V (x.toward t p) rfl) hV hS
    ⟨h0, lt1 _ ht0 hx.t0', hc, lt1 _ ht.1 ht.2, hτ⟩ hI
  rw [geomInteraction_bi hg rfl rfl] at e
  have ei : (x.toward t p).interactionAz c.V c.SRF Real.pi = x.setting.inter P F.shift t p := by
    unfold Site.interactionAz Site.FintAz Energy.Setting.inter
    simp only [he.V (x.toward t p) rfl, he.SRF (x.toward t p) rfl, he.V (x.toward t p).swap rfl,
      he.SRF (x.toward t p).swap rfl]
    rfl
  rw [ei] at e
  have hn := energy_nonneg_shift hb hF hx ht p
  exact Site.inUnits_inj (x := x) (s := c.sig0) (d := c.dB) (fun h => x.signorm_pos hx (hI h)) hn e

/-! ### the predefined functions -/

/-- The predefined functions with default `a`, volume parameter `tV`, surface parameter `tS`. -/
theorem Kind.stands {kV kS : Kind} {n m : Option ℕ} {q s d : Bool} {x : Site} (hV : kV.IsVol)
    (hS : kS = .srfIsotropic ∨ (∃ i, kS = .srfCosineLobe i) ∨ ∃ te, kS = .srfHG te) {tV tS : ℝ}
    (eV : ∀ y : Site, y.ρ = x.ρ → kV.TIs y.env tV) (eS : ∀ y : Site, y.ρ = x.ρ → kS.TIs y.env tS)
    (h1 : |tV| < 1) (h2 : |tS| < 1) :
    StandsFor ⟨.prim kV volA n, .prim kS srfA m, q, s, d⟩ x (kV.bidir (-1) tV) (kS.bidir 1 tS) where
  V := fun y hy => Kind.valueAt (volA_is _) (by simp) (eV y hy) h1 (by cases kV <;> simp_all [IsVol, IsNadirnorm])
  SRF := fun y hy => Kind.valueAt (srfA_is _) (by simp) (eS y hy) h2
    (by rcases hS with rfl | ⟨i, rfl⟩ | ⟨te, rfl⟩ <;> exact fun h => h)

/-- Without interaction term, any predefined volume function with default `a` above an Isotropic or
CosineLobe surface with `NormBRDF ≤ 1` or a HenyeyGreenstein surface with `NormBRDF ≤ 1/4`
(`Kind.reflMax` is 1 or 4). -/
theorem C74_predefined {kV kS : Kind} {n m : Option ℕ} {s d : Bool} {x : Site} (hV : kV.IsVol)
    (hS : kS = .srfIsotropic ∨ (∃ i, kS = .srfCosineLobe i) ∨ ∃ te, kS = .srfHG te) {tV tS : ℝ}
    (eV : ∀ y : Site, y.ρ = x.ρ → kV.TIs y.env tV) (eS : ∀ y : Site, y.ρ = x.ρ → kS.TIs y.env tS)
    (h1 : |tV| < 1) (h2 : |tS| < 1) (hx : x.Passive kS.reflMax) (hI : s = true → x.I0 ≠ 0) {J : ℝ → ℝ → ℝ}
    (hJ : AllDirs fun t p => ObservesRow 0 ⟨.prim kV volA n, .prim kS srfA m, false, s, d⟩ (x.toward t p)
      (x.inUnits s d (J t p))) :
    AtMost J (x.I0 * Real.cos x.t0) :=
  C74_first_order rfl (Kind.stands hV hS eV eS h1 h2) (Kind.balanced hV hS h1 h2) hx hI hJ

/-- With interaction term: an Isotropic or Rayleigh layer above an Isotropic surface, `NormBRDF ≤ 1`,
`omega ≤ 1`. -/
theorem C74_isotropic_partial {kV : Kind} (hk : kV = .volIsotropic ∨ kV = .volRayleigh) {n m : Option ℕ} {s d : Bool}
    {x : Site} (hx : x.Passive 1) (ht0 : 0 < x.t0) (hτ : 0 < x.tau) (hI : s = true → x.I0 ≠ 0) {J : ℝ → ℝ → ℝ}
    (hJ : AllDirs fun t p => ObservesRowP 0 ⟨.prim kV volA n, .prim .srfIsotropic srfA m, true, s, d⟩ ⟨false, []⟩
      (x.toward t p) (x.inUnits s d (J t p))) :
    AtMost J (x.I0 * Real.cos x.t0) := by
  have hV : kV.IsVol := by rcases hk with rfl | rfl <;> trivial
  have h0 : |(0 : ℝ)| < 1 := by simp
  have hs := Kind.stands (kV := kV) (kS := .srfIsotropic) (n := n) (m := m) (q := true) (s := s) (d := d) (x := x) hV (.inl rfl)
    (fun y _ => by rcases hk with rfl | rfl <;> trivial) (fun y _ => trivial) h0 h0
  obtain ⟨nV, hnV⟩ : ∃ nV, (Scatter.prim kV volA n).ncoefs = .ok (nV + 1) := by
    rcases hk with rfl | rfl
    · exact ⟨0, rfl⟩
    · exact ⟨2, rfl⟩
  refine C74_interaction_partial (nS := 0) rfl hs ⟨fun y _ a b u v => ?_, fun y _ a b u v => ?_⟩ ⟨fun a b u v => rfl, fun a b u v => rfl⟩ hnV rfl
    (Kind.balanced hV (.inl rfl) h0 h0) hx ht0 hτ hI hJ
  · refine Scatter.expVal_of_ok ?_
    rcases hk with rfl | rfl
    · unfold Scatter.expansionAt Scatter.legExpansion
      simp [Scatter.ncoefs, okb, Scatter.legSum, Scatter.primCoef, legendre, Kind.bidir, Kind.val]
    · unfold Scatter.expansionAt Scatter.legExpansion
      simp only [Scatter.ncoefs, okb]
      rw [if_pos (by norm_num), angleR_val (volA_is _)]
      unfold Scatter.legSum
      rw [Finset.sum_range_succ, Finset.sum_range_succ, Finset.sum_range_one]
      simp [Scatter.primCoef, legendre, Kind.bidir, Kind.val, Phase.rayleigh]
      ring
  · refine Scatter.expVal_of_ok ?_
    unfold Scatter.expansionAt Scatter.legExpansion
    simp [Scatter.ncoefs, okb, Scatter.legSum, Scatter.primCoef, legendre, Kind.bidir, Kind.val]

/-! ### witnesses -/

/-- Without interaction term, the intensities of bistatic objects at every site and in all units. -/
theorem energy_observed {c : Cfg} (hq : c.intQ = false) (hV : c.V.Plain) (hS : c.SRF.Plain) {x : Site} (hr : x.Reports [])
    {P F : Bidir} {R : ℝ} (hs : StandsFor c x P F) (hx : x.Passive R) (hI : c.sig0 = true → x.I0 ≠ 0) :
    AllDirs fun t p => ObservesRow 0 c (x.toward t p) (x.inUnits c.sig0 c.dB
      (x.setting.srf F t p + x.setting.vol P t p)) := fun t ht p _ => by
  obtain ⟨V, SRF, q, s, d⟩ := c
  obtain rfl : q = false := hq
  obtain ⟨r, h⟩ := scalar_total .sympy (V := V) (SRF := SRF) false s d (Site.toward_reports hr t p) hV hS
    (fun h => by cases h) (fun h => by cases h) (fun h => by cases h)
  have hc : 0 < Real.cos t := Real.cos_pos_of_mem_Ioo ⟨by linarith [ht.1, Real.pi_pos], ht.2⟩
  have h0 : 0 < Real.cos x.t0 := hx.ok.mu0
  have e := h.row.total_val rfl (hs.SRF (x.toward t p) rfl) (hs.V (x.toward t p) rfl)
    ⟨h0.ne', hc.ne', (add_pos h0 hc).ne', hI⟩ hx.tau
  have h := h.row
  rw [e] at h
  exact h

/-- A site with incidence from nadir and without canopy (`bsf = 1`), the surface is not weakened
(`NormBRDF = 1`). -/
def nadirSite : Site where
  t0 := 0
  tex := 0
  p0 := 0
  pex := 0
  I0 := 1
  tau := 1
  omega := 1 / 2
  NormBRDF := 1
  bsf := 1
  ρ := fun s => if s = "omega" then 1 / 2 else 1

theorem nadirSite_reports : nadirSite.Reports [] := by
  refine ⟨?_, ?_, ?_, ?_, by simp⟩ <;> simp [nadirSite]

theorem nadirSite_passive : nadirSite.Passive 1 := by
  have := Real.pi_pos
  constructor <;> simp [nadirSite] <;> first | assumption | norm_num

theorem witSite_passive {t0 : ℝ} (h0 : 0 ≤ t0) (h1 : t0 < Real.pi / 2) (p0 : ℝ) : (witSite t0 0 p0 0).Passive 1 := by
  constructor <;> simp [witSite] <;> first | assumption | norm_num

example : ∃ J : ℝ → ℝ → ℝ,
    (AllDirs fun t p => ObservesRow 0 ⟨exV, exS, false, true, true⟩ ((witSite (Real.pi / 3) 0 0 0).toward t p)
      ((witSite (Real.pi / 3) 0 0 0).inUnits true true (J t p))) ∧ (witSite (Real.pi / 3) 0 0 0).Passive 1 := by
  have hπ := Real.pi_pos
  have hx := witSite_passive (t0 := Real.pi / 3) (by positivity) (by linarith) 0
  have h0 : |(0 : ℝ)| < 1 := by simp
  exact ⟨_, energy_observed (c := ⟨exV, exS, false, true, true⟩) rfl exV_plain exS_plain (witSite_reports _ _ _ _)
    (Kind.stands (kV := .volRayleigh) (kS := .srfIsotropic) trivial (.inl rfl) (fun _ _ => trivial) (fun _ _ => trivial) h0 h0)
    hx (fun _ => by simp [witSite]), hx⟩

/-- The Henyey-Greenstein surface function with `t = 3/4` is not balanced for `NormBRDF = 1`: `calc`
reports more energy than comes in (28/9 of it for incidence from nadir). The bound `NormBRDF ≤ 1/4`
of `C74_predefined` cannot be dropped. -/
theorem C74_hg_surface_amplifies :
    ∃ (x : Site) (J : ℝ → ℝ → ℝ), x.Passive 1 ∧ x.NormBRDF = 1 ∧
      (AllDirs fun t p => ObservesRow 0
        ⟨.prim .volIsotropic volA none, .prim (.srfHG (.num (3 / 4))) srfA (some 2), false, false, false⟩ (x.toward t p)
        (x.inUnits false false (J t p))) ∧
      hemReflectance J = 28 / 9 * (x.I0 * Real.cos x.t0) := by
  have h34 : |(3 / 4 : ℝ)| < 1 := by rw [abs_of_pos] <;> norm_num
  refine ⟨nadirSite, fun t p => Phase.hg Real.pi (3 / 4) (1 * Real.cos t), nadirSite_passive, rfl, fun t ht p hp => ?_, ?_⟩
  · have h := energy_observed (c := ⟨.prim .volIsotropic volA none, .prim (.srfHG (.num (3 / 4))) srfA (some 2), false, false, false⟩)
      rfl (fun k hk => by simp [Scatter.phase, Scatter.primPhase] at hk) (fun k hk => hgS_free (3 / 4) k hk) nadirSite_reports
      (Kind.stands (kV := .volIsotropic) (kS := .srfHG (.num (3 / 4))) (tV := 0) trivial (.inr (.inr ⟨_, rfl⟩)) (fun _ _ => trivial)
        (fun _ _ => Expr.Is.num _) (by simp) h34) nadirSite_passive (fun h => by cases h) t ht p hp
    have e : nadirSite.setting.srf ((Kind.srfHG (.num (3 / 4))).bidir 1 (3 / 4)) t p
        + nadirSite.setting.vol (Kind.volIsotropic.bidir (-1) 0) t p = Phase.hg Real.pi (3 / 4) (1 * Real.cos t) := by
      simp [Energy.Setting.srf, Energy.Setting.vol, Site.setting, nadirSite, Kind.bidir, Kind.val, Phase.cosTheta]
    simp only [e] at h
    exact h
  · have h := hgNadir_integral (a0 := 1) (t := 3 / 4) (by norm_num) (by norm_num) (by norm_num) h34
    have e : Phase.hgNadir 1 (3 / 4) = 28 / 9 := by
      unfold Phase.hgNadir
      rw [show (1 + (3 / 4 : ℝ) ^ 2 - 2 * 1 * (3 / 4)) * (1 + (3 / 4) ^ 2) = (5 / 16) ^ 2 by norm_num,
        show (1 + (3 / 4 : ℝ) ^ 2 - 2 * 1 * (3 / 4)) = (1 / 4) ^ 2 by norm_num,
        Real.sqrt_sq (by norm_num), Real.sqrt_sq (by norm_num)]
      norm_num
    unfold hemReflectance
    simp only [intervalIntegral.integral_const, smul_eq_mul, sub_zero]
    rw [h, e]
    simp [nadirSite]

/-- With interaction term, for an isotropic layer above an isotropic surface. -/
example : ∃ J : ℝ → ℝ → ℝ,
    (AllDirs fun t p => ObservesRowP 0 ⟨isoV, isoS, true, true, false⟩ ⟨false, []⟩ ((witSite (Real.pi / 3) 0 0 0).toward t p)
      ((witSite (Real.pi / 3) 0 0 0).inUnits true false (J t p))) ∧ (witSite (Real.pi / 3) 0 0 0).Passive 1 := by
  have hπ := Real.pi_pos
  have hx := witSite_passive (t0 := Real.pi / 3) (by positivity) (by linarith) 0
  have h0 : |(0 : ℝ)| < 1 := by simp
  have hs := Kind.stands (kV := .volIsotropic) (kS := .srfIsotropic) (n := none) (m := none) (q := true) (s := true) (d := false)
    (x := witSite (Real.pi / 3) 0 0 0) trivial (.inl rfl) (fun _ _ => trivial) (fun _ _ => trivial) h0 h0
  have key : ∀ t p, ∃ v : ℝ, t ∈ Set.Ioo 0 (Real.pi / 2) → ObservesRowP 0 ⟨isoV, isoS, true, true, false⟩ ⟨false, []⟩
      ((witSite (Real.pi / 3) 0 0 0).toward t p) ((witSite (Real.pi / 3) 0 0 0).inUnits true false v) := by
    intro t p
    by_cases ht : t ∈ Set.Ioo 0 (Real.pi / 2)
    · obtain ⟨r, h⟩ := scalar_total .sympy true true false (Site.toward_reports (witSite_reports (Real.pi / 3) 0 0 0) t p) isoV_plain isoS_plain
        (fun _ => iso_fnCoefs) (fun _ => ⟨0, isoV_ncoefs⟩) (fun _ => ⟨0, isoS_ncoefs⟩)
      obtain ⟨g, hg, e⟩ := h.total_val rfl (hs.SRF _ rfl) (hs.V _ rfl) isoV_ncoefs isoS_ncoefs
        (witSite_oblique (t0 := Real.pi / 3) (tex := t) (p0 := 0) (pex := p) (by positivity) (by linarith) ht.1 ht.2) (fun _ => by simp [witSite, Site.toward])
      rw [e] at h
      exact ⟨_, fun _ => h⟩
    · exact ⟨0, fun h => absurd h ht⟩
  choose J hJ using key
  exact ⟨J, fun t ht p _ => hJ t p ht, hx⟩

end

end RT1
