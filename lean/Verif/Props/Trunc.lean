import Verif.Lemmas.Trunc
import Verif.Props.Contrib
import Verif.Props.Limit

/-!
# C78: how far the interaction contribution is off for a given number of coefficients
# C79: the optically thick canopy
-/

namespace RT1

noncomputable section
open Filter Topology

theorem Truncated.simple {x : Site} {N : ℕ} {o : Scatter} {P : Bidir} {e M : ℝ} (h : Truncated x N o P e M) : o.Simple := by
  cases h with
  | prim h => exact .inl ⟨_, Kind.isPart _ _ N⟩
  | lin l a hl => exact .inr ⟨_, _, _, rfl, by simpa using hl, comb_part l N⟩

theorem Truncated.valueAt {x : Site} {N : ℕ} {o : Scatter} {P : Bidir} {e M : ℝ} (h : Truncated x N o P e M) :
    o.ValueAt x (P x.t0 x.tex x.p0 x.pex) := by
  cases h with
  | prim h => exact (Family.prim h).valueAt N
  | lin l a hl => exact (Family.lin l a hl).valueAt N

theorem inUnits_linear (x : Site) (s : Bool) (v : ℝ) : x.inUnits s false v = XR.fin (v * x.unit s) := by
  unfold Site.inUnits Site.unit
  cases s <;> simp

/-- Values in decibel, if the linear values differ by less than the exact value. -/
theorem dB_close {u v e : ℝ} (h : |u - v| ≤ e) (he : e < v) :
    ∃ l, dBValue u = XR.fin l ∧ |l - 10 * Real.logb 10 v| ≤ -(10 * Real.logb 10 (1 - e / v)) := by
  have he0 : 0 ≤ e := (abs_nonneg _).trans h
  have hv : 0 < v := he0.trans_lt he
  obtain ⟨h1, h2⟩ := abs_le.mp h
  have hu : 0 < u := by linarith
  refine ⟨10 * Real.logb 10 u, if_pos hu, ?_⟩
  rw [← mul_sub, ← Real.logb_div hu.ne' hv.ne', abs_mul, abs_of_pos (by norm_num : (0 : ℝ) < 10), ← mul_neg]
  refine mul_le_mul_of_nonneg_left (abs_le.mpr ⟨?_, ?_⟩) (by norm_num)
  · rw [neg_neg]
    refine Real.logb_le_logb_of_le (by norm_num) (sub_pos.mpr ((div_lt_one hv).mpr he)) ?_
    rw [le_div_iff₀ hv, sub_mul, div_mul_cancel₀ _ hv.ne']
    linarith
  · rw [← Real.logb_inv]
    refine Real.logb_le_logb_of_le (by norm_num) (div_pos hu hv) ?_
    have hq : 0 < 1 - e / v := sub_pos.mpr ((div_lt_one hv).mpr he)
    have hr : 0 ≤ e / v := div_nonneg he0 hv.le
    have h3 : u / v ≤ 1 + e / v := by
      rw [div_le_iff₀ hv, add_mul, div_mul_cancel₀ _ hv.ne']
      linarith
    refine h3.trans ?_
    rw [← one_div, le_div_iff₀ hq]
    nlinarith

/-! ### theorems: truncation -/

section
variable {x : Site} {N M : ℕ} {V S : Scatter} {P F : Bidir} {eV MV eS MS : ℝ}

theorem int_geom {s d q : Bool} {md : Mode} (hV : Truncated x N V P eV MV) (hS : Truncated x M S F eS MS) (hx : x.Oblique)
    (hI : s = true → x.I0 ≠ 0) {r : XR} (h : ObservesAny ⟨V, S, q, s, d⟩ md x r) :
    ∃ g : Geom4, GeomAt md g x ∧ r = x.inUnits s d (geomInteraction V S g x) := by
  obtain ⟨nV, h1⟩ := hV.simple.ncoefs
  obtain ⟨nS, h2⟩ := hS.simple.ncoefs
  exact h.geom h1 h2 hx hI

theorem total_geom {s d : Bool} {md : Mode} (hV : Truncated x N V P eV MV) (hS : Truncated x M S F eS MS) (hx : x.Oblique)
    (hI : s = true → x.I0 ≠ 0) {r : XR} (h : ObservesRowP 0 ⟨V, S, true, s, d⟩ md x r) :
    ∃ g : Geom4, GeomAt md g x ∧ r = x.inUnits s d (x.surface (F x.t0 x.tex x.p0 x.pex) + x.volume (P x.t0 x.tex x.p0 x.pex)
      + geomInteraction V S g x) := by
  obtain ⟨nV, h1⟩ := hV.simple.ncoefs
  obtain ⟨nS, h2⟩ := hS.simple.ncoefs
  exact h.total_val rfl hS.valueAt hV.valueAt h1 h2 hx hI

theorem close_unit {x : Site} {s : Bool} {u v e : ℝ} (h : |u - v| ≤ e) : |u * x.unit s - v * x.unit s| ≤ e * |x.unit s| := by
  rw [← sub_mul, abs_mul]
  exact mul_le_mul_of_nonneg_right h (abs_nonneg _)

/-- Monostatic, linear units: the value returned by `interaction()` and the fourth row of `calc()` differ
from the documented contribution of the scattering functions themselves by at most the stated error. -/
theorem C78_error (hV : Truncated x N V P eV MV) (hS : Truncated x M S F eS MS) {q s : Bool} {md : Mode} (hm : md.mono = true)
    (hx : x.Oblique) (hI : s = true → x.I0 ≠ 0) {r : XR} (h : ObservesAny ⟨V, S, q, s, false⟩ md x r) :
    ∃ v, r = XR.fin v ∧ |v - x.interactionOf P F 0 * x.unit s| ≤ x.truncError eV MV eS MS * |x.unit s| := by
  obtain ⟨g, hg, rfl⟩ := int_geom hV hS hx hI h
  rw [geomInteraction_mono hg hm, ← Site.interactionAz_zero]
  exact ⟨_, inUnits_linear _ _ _, close_unit (hV.near.interaction hS.near hx 0)⟩

/-- The same in decibel, if the error is smaller than the contribution itself. -/
theorem C78_error_dB (hV : Truncated x N V P eV MV) (hS : Truncated x M S F eS MS) {q s : Bool} {md : Mode} (hm : md.mono = true)
    (hx : x.Oblique) (hI : s = true → x.I0 ≠ 0) {r : XR} (h : ObservesAny ⟨V, S, q, s, true⟩ md x r) {l : ℝ}
    (hl : x.inUnits s true (x.interactionOf P F 0) = XR.fin l)
    (he : x.truncError eV MV eS MS * |x.unit s| < x.interactionOf P F 0 * x.unit s) :
    ∃ v, r = XR.fin v ∧ |v - l| ≤ -(10 * Real.logb 10 (1 - x.truncError eV MV eS MS * |x.unit s| / (x.interactionOf P F 0 * x.unit s))) := by
  obtain ⟨g, hg, rfl⟩ := int_geom hV hS hx hI h
  rw [geomInteraction_mono hg hm, ← Site.interactionAz_zero]
  have e : ∀ v, x.inUnits s true v = dBValue (v * x.unit s) := fun v => by
    unfold Site.inUnits Site.unit; cases s <;> simp
  rw [e] at hl ⊢
  obtain ⟨-, rfl⟩ := dBValue_fin hl
  exact dB_close (close_unit (hV.near.interaction hS.near hx 0)) he

/-- The first row of `calc()` (linear units). -/
theorem C78_total (hV : Truncated x N V P eV MV) (hS : Truncated x M S F eS MS) {s : Bool} {md : Mode} (hm : md.mono = true)
    (hx : x.Oblique) (hI : s = true → x.I0 ≠ 0) {r : XR} (h : ObservesRowP 0 ⟨V, S, true, s, false⟩ md x r) :
    ∃ v, r = XR.fin v ∧ |v - (x.surface (F x.t0 x.tex x.p0 x.pex) + x.volume (P x.t0 x.tex x.p0 x.pex) + x.interactionOf P F 0) * x.unit s|
      ≤ x.truncError eV MV eS MS * |x.unit s| := by
  obtain ⟨g, hg, rfl⟩ := total_geom hV hS hx hI h
  rw [geomInteraction_mono hg hm, ← Site.interactionAz_zero]
  refine ⟨_, inUnits_linear _ _ _, close_unit ?_⟩
  rw [add_sub_add_left_eq_sub]
  exact hV.near.interaction hS.near hx 0

/-- Exact if nothing is left out of the expansions (isotropic functions, Rayleigh), in all units. -/
theorem C78_exact (hV : Truncated x N V P 0 MV) (hS : Truncated x M S F 0 MS) {q s d : Bool} {md : Mode} (hm : md.mono = true)
    (hx : x.Oblique) (hI : s = true → x.I0 ≠ 0) {r : XR} (h : ObservesAny ⟨V, S, q, s, d⟩ md x r) :
    r = x.inUnits s d (x.interactionOf P F 0) := by
  obtain ⟨g, hg, rfl⟩ := int_geom hV hS hx hI h
  rw [geomInteraction_mono hg hm, ← Site.interactionAz_zero]
  have := hV.near.interaction hS.near hx 0
  simp only [zero_mul, mul_zero, add_zero, abs_nonpos_iff, sub_eq_zero] at this
  rw [this]

/-- Bistatic without fixed angles: the error with respect to the contribution with the exit azimuth of
the surface function shifted by pi.  (The full claim C78 asks for the documented contribution; that the
shift is wrong is shown in C36.) -/
theorem C78_bistatic_partial (hV : Truncated x N V P eV MV) (hS : Truncated x M S F eS MS) {q s : Bool}
    (hx : x.Oblique) (hI : s = true → x.I0 ≠ 0) {r : XR} (h : ObservesAny ⟨V, S, q, s, false⟩ ⟨false, []⟩ x r) :
    ∃ v, r = XR.fin v ∧ |v - x.interactionOf P F Real.pi * x.unit s| ≤ x.truncError eV MV eS MS * |x.unit s| := by
  obtain ⟨g, hg, rfl⟩ := int_geom hV hS hx hI h
  rw [geomInteraction_bi hg rfl rfl]
  exact ⟨_, inUnits_linear _ _ _, close_unit (hV.near.interaction hS.near hx Real.pi)⟩

/-- Bistatic with fixed angles: the error with respect to the contribution with the shifted azimuth for
which fixed angles keep their values along the reverse path. -/
theorem C78_fixed_partial (hV : Truncated x N V P eV MV) (hS : Truncated x M S F eS MS) {q s : Bool} {md : Mode} (hm : md.mono = false)
    (hx : x.Oblique) (hI : s = true → x.I0 ≠ 0) {r : XR} (h : ObservesAny ⟨V, S, q, s, false⟩ md x r) :
    ∃ v, r = XR.fin v ∧ |v - x.interactionPinned md.fixed P F Real.pi * x.unit s| ≤ x.truncError eV MV eS MS * |x.unit s| := by
  obtain ⟨g, hg, rfl⟩ := int_geom hV hS hx hI h
  exact ⟨_, inUnits_linear _ _ _, close_unit (hV.near.pinned hS.near hx hg hm)⟩

/-- The first row of `calc()` of bistatic objects, with or without fixed angles. -/
theorem C78_total_bistatic_partial (hV : Truncated x N V P eV MV) (hS : Truncated x M S F eS MS) {s : Bool} {md : Mode} (hm : md.mono = false)
    (hx : x.Oblique) (hI : s = true → x.I0 ≠ 0) {r : XR} (h : ObservesRowP 0 ⟨V, S, true, s, false⟩ md x r) :
    ∃ v, r = XR.fin v ∧ |v - (x.surface (F x.t0 x.tex x.p0 x.pex) + x.volume (P x.t0 x.tex x.p0 x.pex) +
      x.interactionPinned md.fixed P F Real.pi) * x.unit s| ≤ x.truncError eV MV eS MS * |x.unit s| := by
  obtain ⟨g, hg, rfl⟩ := total_geom hV hS hx hI h
  refine ⟨_, inUnits_linear _ _ _, close_unit ?_⟩
  rw [add_sub_add_left_eq_sub]
  exact hV.near.pinned hS.near hx hg hm

/-! ### theorems: optically thick canopy -/

theorem Site.total_thick (x : Site) (f p : ℝ) : x.surface f + x.volume p - x.thick f p =
    (1 - x.bsf) * x.I0 * x.mu0 * (x.NormBRDF * f - x.omega / (x.mu0 + x.muEx) * p) * Real.exp (-(x.tau / x.mu0) - x.tau / x.muEx) := by
  unfold Site.surface Site.volume Site.thick
  rw [← Real.exp_add, ← sub_eq_add_neg]
  ring

theorem Site.total_fade {x : Site} (h0 : 0 < x.mu0) (h1 : 0 < x.muEx) (f p : ℝ) {u K : ℝ} (hu : |u| ≤ x.coupling * K) :
    |x.surface f + x.volume p + u - x.thick f p| ≤ x.fade f p K := by
  rw [show x.surface f + x.volume p + u - x.thick f p = (x.surface f + x.volume p - x.thick f p) + u by ring, Site.total_thick]
  refine (abs_add_le _ _).trans (add_le_add ?_ hu)
  have hs := add_pos h0 h1
  rw [abs_mul _ (Real.exp _), abs_of_pos (Real.exp_pos _), abs_mul _ (x.NormBRDF * f - _), abs_mul _ x.mu0, abs_of_pos h0]
  refine mul_le_mul_of_nonneg_right (mul_le_mul_of_nonneg_left ?_ (mul_nonneg (abs_nonneg _) h0.le)) (Real.exp_pos _).le
  refine (abs_sub _ _).trans (add_le_add le_rfl (le_of_eq ?_))
  rw [div_mul_eq_mul_div, abs_div, abs_of_pos hs]

/-- Without interaction term: the first row of `calc()` differs from the signal of a canopy without end
by an amount that decreases exponentially with the optical depth. -/
theorem C79_first_order {c : Cfg} (hd : c.dB = false) (hq : c.intQ = false) {f p : ℝ} (hf : c.SRF.ValueAt x f) (hp : c.V.ValueAt x p)
    (h0 : 0 < x.mu0) (h1 : 0 < x.muEx) (hI : c.sig0 = true → x.I0 ≠ 0) (ht : 0 ≤ x.tau) {r : XR} (h : ObservesRow 0 c x r) :
    ∃ v, r = XR.fin v ∧ |v - x.thick f p * x.unit c.sig0| ≤ x.fade f p 0 * |x.unit c.sig0| := by
  refine ⟨(x.surface f + x.volume p) * x.unit c.sig0, (h.total_val hq hf hp ⟨h0.ne', h1.ne', (add_pos h0 h1).ne', hI⟩ ht).trans ?_, ?_⟩
  · rw [hd, inUnits_linear]
  · have := close_unit (x := x) (s := c.sig0) (Site.total_fade h0 h1 f p (u := 0) (K := 0) (by simp))
    rwa [add_zero] at this

/-- With interaction term, in every geometry mode. -/
theorem C79_interaction (hV : Truncated x N V P eV MV) (hS : Truncated x M S F eS MS) {s : Bool} {md : Mode} (hx : x.Oblique)
    (hI : s = true → x.I0 ≠ 0) {r : XR} (h : ObservesRowP 0 ⟨V, S, true, s, false⟩ md x r) :
    ∃ v, r = XR.fin v ∧ |v - x.thick (F x.t0 x.tex x.p0 x.pex) (P x.t0 x.tex x.p0 x.pex) * x.unit s| ≤
      x.fade (F x.t0 x.tex x.p0 x.pex) (P x.t0 x.tex x.p0 x.pex) ((MV + eV) * (MS + eS)) * |x.unit s| := by
  obtain ⟨g, hg, rfl⟩ := total_geom hV hS hx hI h
  refine ⟨_, inUnits_linear _ _ _, close_unit (Site.total_fade hx.mu0 hx.muEx _ _ ?_)⟩
  exact geomInteraction_abs_le (fun y hy => hV.near.exp_le hy) (fun y hy => hS.near.exp_le hy) hV.near.contE hS.near.contE hx g

theorem fade_tendsto {x : Site} (h0 : 0 < x.mu0) (h1 : 0 < x.muEx) (f p K : ℝ) {τ : ℕ → ℝ} (ρ : ℕ → String → ℝ)
    (hτ : Tendsto τ atTop atTop) : Tendsto (fun n => (x.withTau (τ n) (ρ n)).fade f p K) atTop (𝓝 0) := by
  have e : ∀ {μ : ℝ}, 0 < μ → Tendsto (fun n => Real.exp (-τ n / μ)) atTop (𝓝 0) := fun {μ} hμ =>
    Real.tendsto_exp_atBot.comp ((tendsto_neg_atTop_atBot.comp hτ).atBot_div_const hμ)
  have e0 := e h0
  have e1 := e h1
  have a := e0.mul e1
  have b := ((e1.mul (e0.const_sub 1)).add (e0.mul (e1.const_sub 1))).const_mul
    (|x.NormBRDF * (1 - x.bsf) * x.I0 * x.omega| * x.mu0 * (2 * Real.pi))
  have c := (a.const_mul (|(1 - x.bsf) * x.I0| * x.mu0 * (|x.NormBRDF * f| + |x.omega * p| / (x.mu0 + x.muEx)))).add (b.mul_const K)
  simp only [zero_mul, mul_zero, add_zero] at c
  refine c.congr fun n => ?_
  rw [← Real.exp_add]
  unfold Site.fade Site.coupling
  simp only [neg_div, ← sub_eq_add_neg]
  rfl

/-- As the canopy grows the total converges to the signal of a canopy without end, in all units and
geometry modes. -/
theorem C79_limit {τ : ℕ → ℝ} {ρ : ℕ → String → ℝ} (hV : ∀ n, Truncated (x.withTau (τ n) (ρ n)) N V P eV MV)
    (hS : ∀ n, Truncated (x.withTau (τ n) (ρ n)) M S F eS MS) {s d : Bool} {md : Mode} (hx : x.Oblique)
    (hI : s = true → x.I0 ≠ 0) (hτ : Tendsto τ atTop atTop) (hτ0 : ∀ n, 0 < τ n) {r : ℕ → XR}
    (h : ∀ n, ObservesRowP 0 ⟨V, S, true, s, d⟩ md (x.withTau (τ n) (ρ n)) (r n)) {l : ℝ}
    (hl : x.inUnits s d (x.thick (F x.t0 x.tex x.p0 x.pex) (P x.t0 x.tex x.p0 x.pex)) = XR.fin l) : Approach r l := by
  have hxn : ∀ n, (x.withTau (τ n) (ρ n)).Oblique := fun n => ⟨hx.mu0, hx.mu0', hx.muEx, hx.muEx', hτ0 n⟩
  choose g hg hr using fun n => total_geom (hV n) (hS n) (hxn n) hI (h n)
  set u : ℕ → ℝ := fun n => (x.withTau (τ n) (ρ n)).surface (F x.t0 x.tex x.p0 x.pex) +
    (x.withTau (τ n) (ρ n)).volume (P x.t0 x.tex x.p0 x.pex) + geomInteraction V S (g n) (x.withTau (τ n) (ρ n)) with hu
  have e : r = fun n => x.inUnits s d (u n) := funext hr
  have hb : ∀ n, |u n - x.thick (F x.t0 x.tex x.p0 x.pex) (P x.t0 x.tex x.p0 x.pex)| ≤
      (x.withTau (τ n) (ρ n)).fade (F x.t0 x.tex x.p0 x.pex) (P x.t0 x.tex x.p0 x.pex) ((MV + eV) * (MS + eS)) := fun n =>
    Site.total_fade (x := x.withTau (τ n) (ρ n)) hx.mu0 hx.muEx _ _
      (geomInteraction_abs_le (fun y hy => (hV n).near.exp_le hy) (fun y hy => (hS n).near.exp_le hy) (hV n).near.contE
        (hS n).near.contE (hxn n) (g n))
  rw [e]
  refine approach_units ?_ hl
  exact tendsto_iff_dist_tendsto_zero.mpr (squeeze_zero (fun _ => dist_nonneg) hb (fade_tendsto hx.mu0 hx.muEx _ _ _ ρ hτ))

/-- The same without interaction term, for any scattering functions. -/
theorem C79_limit_first_order {c : Cfg} (hq : c.intQ = false) {τ : ℕ → ℝ} {ρ : ℕ → String → ℝ} {f p : ℝ}
    (hf : ∀ n, c.SRF.ValueAt (x.withTau (τ n) (ρ n)) f) (hp : ∀ n, c.V.ValueAt (x.withTau (τ n) (ρ n)) p)
    (h0 : 0 < x.mu0) (h1 : 0 < x.muEx) (hI : c.sig0 = true → x.I0 ≠ 0) (hτ : Tendsto τ atTop atTop) (hτ0 : ∀ n, 0 ≤ τ n)
    {r : ℕ → XR} (h : ∀ n, ObservesRow 0 c (x.withTau (τ n) (ρ n)) (r n)) {l : ℝ}
    (hl : x.inUnits c.sig0 c.dB (x.thick f p) = XR.fin l) : Approach r l := by
  have e : r = fun n => x.inUnits c.sig0 c.dB ((x.withTau (τ n) (ρ n)).surface f + (x.withTau (τ n) (ρ n)).volume p) := funext fun n =>
    (h n).total_val hq (hf n) (hp n) ⟨h0.ne', h1.ne', (add_pos h0 h1).ne', hI⟩ (hτ0 n)
  rw [e]
  refine approach_units ?_ hl
  refine tendsto_iff_dist_tendsto_zero.mpr (squeeze_zero (fun _ => dist_nonneg) (fun n => ?_) (fade_tendsto h0 h1 f p 0 ρ hτ))
  have := Site.total_fade (x := x.withTau (τ n) (ρ n)) h0 h1 f p (u := 0) (K := 0) (by simp)
  rwa [add_zero] at this

/-- Without bare soil the surface is hidden: whatever the surface function, the totals have the same
limit. -/
theorem C79_hidden {τ : ℕ → ℝ} {ρ : ℕ → String → ℝ} (hV : ∀ n, Truncated (x.withTau (τ n) (ρ n)) N V P eV MV)
    (hS : ∀ n, Truncated (x.withTau (τ n) (ρ n)) M S F eS MS) {M' : ℕ} {S' : Scatter} {F' : Bidir} {eS' MS' : ℝ}
    (hS' : ∀ n, Truncated (x.withTau (τ n) (ρ n)) M' S' F' eS' MS') {s d : Bool} {md md' : Mode} (hx : x.Oblique)
    (hI : s = true → x.I0 ≠ 0) (hb : x.bsf = 0) (hτ : Tendsto τ atTop atTop) (hτ0 : ∀ n, 0 < τ n) {r r' : ℕ → XR}
    (h : ∀ n, ObservesRowP 0 ⟨V, S, true, s, d⟩ md (x.withTau (τ n) (ρ n)) (r n))
    (h' : ∀ n, ObservesRowP 0 ⟨V, S', true, s, d⟩ md' (x.withTau (τ n) (ρ n)) (r' n)) {l : ℝ}
    (hl : x.inUnits s d (x.I0 * x.omega * x.mu0 / (x.mu0 + x.muEx) * P x.t0 x.tex x.p0 x.pex) = XR.fin l) :
    Approach r l ∧ Approach r' l := by
  have e : ∀ f p, x.thick f p = x.I0 * x.omega * x.mu0 / (x.mu0 + x.muEx) * p := fun f p => by
    unfold Site.thick; rw [hb]; ring
  exact ⟨C79_limit hV hS hx hI hτ hτ0 h (by rw [e]; exact hl), C79_limit hV hS' hx hI hτ hτ0 h' (by rw [e]; exact hl)⟩

end

/-! ### examples -/

theorem isoV_trunc (x : Site) : Truncated x 1 isoV (Kind.dirs .volIsotropic (-1) 1 1 0) 0 (1 / (4 * Real.pi)) := by
  have := Truncated.prim (x := x) (N := 1) (k := .volIsotropic) (a := volA) (a0 := -1) (a1 := 1) (a2 := 1) (t := 0)
    ⟨fun _ _ => ⟨Expr.Is.num _, Expr.Is.num _, Expr.Is.num _⟩, by simp, by simp, by simp, fun _ _ => trivial, by simp,
      fun h => h.elim, by simp⟩ (by simp) le_rfl
  simp only [Kind.rest, mul_zero] at this
  exact this

theorem isoS_trunc (x : Site) : Truncated x 1 isoS (Kind.dirs .srfIsotropic 1 1 1 0) 0 (1 / Real.pi) := by
  have := Truncated.prim (x := x) (N := 1) (k := .srfIsotropic) (a := srfA) (a0 := 1) (a1 := 1) (a2 := 1) (t := 0)
    ⟨fun _ _ => ⟨Expr.Is.num _, Expr.Is.num _, Expr.Is.num _⟩, by simp, by simp, by simp, fun _ _ => trivial, by simp,
      fun h => h.elim, by simp⟩ (by simp) le_rfl
  simp only [Kind.rest, mul_zero] at this
  exact this

/-- Henyey-Greenstein phase function. -/
theorem hgV_trunc {t : ℝ} (ht : |t| < 1) (x : Site) {N : ℕ} (hN : 1 ≤ N) : Truncated x N (growV t N) (Kind.dirs (.volHG (.num t)) (-1) 1 1 t)
    (1 / (4 * Real.pi) * ((1 + |t|) / (1 - |t|) ^ 2) * ((2 * (N + 1 : ℕ) + 1) * |t| ^ (N + 1)))
    (1 / (4 * Real.pi) * ((1 + |t|) / (1 - |t|) ^ 2)) :=
  .prim (k := .volHG (.num t)) ⟨fun _ _ => ⟨Expr.Is.num _, Expr.Is.num _, Expr.Is.num _⟩, by simp, by simp, by simp,
    fun _ _ => Expr.Is.num _, ht, fun h => h.elim, by simp⟩ (by simp) hN

theorem trunc_observed (b : Backend) {x : Site} {N M : ℕ} {V S : Scatter} {P F : Bidir} {eV MV eS MS : ℝ} (hV : Truncated x N V P eV MV)
    (hS : Truncated x M S F eS MS) (pV : V.Plain) (pS : S.Plain) (s d : Bool) (hr : x.Reports []) (hm : x.tex = x.t0 ∧ x.pex = x.p0 + Real.pi) :
    ∃ r, ObservesAny ⟨V, S, true, s, d⟩ ⟨true, []⟩ x r := by
  obtain ⟨r, F, -, h2, -, h⟩ := scalar_interaction b s d (mono := true) (fun _ => false) (l := []) (fun _ => hm) hr
    (fun k hk => List.mem_append_left _ (pV k hk)) (fun k hk => List.mem_append_left _ (pS k hk))
    (Scatter.Simple.fnCoefs hV.simple hS.simple) hV.simple.ncoefs hS.simple.ncoefs
  rw [h2 fun _ => rfl] at h
  exact ⟨r, .inl h⟩

theorem trunc_total (b : Backend) {x : Site} {N M : ℕ} {V S : Scatter} {P F : Bidir} {eV MV eS MS : ℝ} (hV : Truncated x N V P eV MV)
    (hS : Truncated x M S F eS MS) (pV : V.Plain) (pS : S.Plain) (s d : Bool) (hr : x.Reports []) :
    ∃ r, ObservesRowP 0 ⟨V, S, true, s, d⟩ ⟨false, []⟩ x r :=
  scalar_total b true s d hr pV pS (fun _ => Scatter.Simple.fnCoefs hV.simple hS.simple) (fun _ => hV.simple.ncoefs)
    (fun _ => hS.simple.ncoefs)

/-- Ten coefficients, t = 1/4, isotropic surface: the value returned is off by less than 2 * 10^-6. -/
example : ∃ v, ObservesAny ⟨growV (1/4) 9, isoS, true, false, false⟩ ⟨true, []⟩ (witSite (Real.pi / 3) (Real.pi / 3) 0 Real.pi) (XR.fin v) ∧
    |v - (witSite (Real.pi / 3) (Real.pi / 3) 0 Real.pi).interactionOf (Kind.dirs (.volHG (.num (1/4))) (-1) 1 1 (1/4))
      (Kind.dirs .srfIsotropic 1 1 1 0) 0| < 1 / 500000 := by
  have hV := hgV_trunc (t := 1/4) (by rw [abs_of_pos] <;> norm_num) (witSite (Real.pi / 3) (Real.pi / 3) 0 Real.pi) (N := 9) (by norm_num)
  have hS := isoS_trunc (witSite (Real.pi / 3) (Real.pi / 3) 0 Real.pi)
  obtain ⟨r, h⟩ := trunc_observed .sympy hV hS (growV_plain _ _) isoS_plain false false (witSite_reports _ _ _ _) ⟨rfl, by simp [witSite]⟩
  obtain ⟨v, rfl, hv⟩ := C78_error hV hS rfl (wit_oblique _ _) (by simp) h
  refine ⟨v, h, ?_⟩
  simp only [Site.unit, Bool.false_eq_true, if_false, mul_one, abs_one] at hv
  refine hv.trans_lt ?_
  have hπ := Real.two_le_pi
  have hc : (witSite (Real.pi / 3) (Real.pi / 3) 0 Real.pi).coupling ≤ Real.pi / 4 := by
    unfold Site.coupling Site.mu0 Site.muEx
    simp only [witSite, Real.cos_pi_div_three]
    rw [abs_of_pos (by norm_num)]
    generalize Real.exp (-1 / (1 / 2)) = u
    nlinarith [sq_nonneg (u - 1 / 2), Real.pi_pos, mul_nonneg Real.pi_pos.le (sq_nonneg (u - 1 / 2))]
  have hn : 1 / (4 * Real.pi) * ((1 + |1 / 4|) / (1 - |1 / 4|) ^ 2) * ((2 * ((9 + 1 : ℕ) : ℝ) + 1) * |1 / 4| ^ (9 + 1)) * (1 / Real.pi + 0)
      + 1 / (4 * Real.pi) * ((1 + |1 / 4|) / (1 - |(1 / 4 : ℝ)|) ^ 2) * 0 = (35 / 3145728) / (Real.pi * Real.pi) := by
    rw [abs_of_pos (by norm_num)]
    push_cast
    field_simp
    norm_num
  unfold Site.truncError
  rw [hn]
  calc _ ≤ Real.pi / 4 * ((35 / 3145728) / (Real.pi * Real.pi)) := mul_le_mul_of_nonneg_right hc (by positivity)
    _ = 35 / 12582912 / Real.pi := by field_simp; norm_num
    _ < 1 / 500000 := by
      rw [div_lt_iff₀ (by linarith)]
      linarith

theorem iso_pos {x : Site} (hx : x.Oblique) (hb : x.bsf < 1) (hN : 0 < x.NormBRDF) (hI : 0 < x.I0) (hω : 0 < x.omega) :
    0 < x.interactionOf (Kind.dirs .volIsotropic (-1) 1 1 0) (Kind.dirs .srfIsotropic 1 1 1 0) 0 := by
  have hπ := Real.pi_pos
  have hf : ∀ y : Site, 0 < y.mu0 → 0 < y.tau →
      0 < y.FintOf (Kind.dirs .volIsotropic (-1) 1 1 0) (Kind.dirs .srfIsotropic 1 1 1 0) 0 := fun y h0 h1 => by
    unfold Site.FintOf
    rw [hemi_eq h0 h1.le (L := 1) (c := fun _ => 2 * Real.pi * (1 / (4 * Real.pi) * (1 / Real.pi))) fun θ => by
      simp [Kind.dirs, Kind.val]
      field_simp]
    simp only [Finset.sum_range_one]
    exact mul_pos (by positivity) (polar_pos h0 h1 0)
  have h1 := hf x hx.mu0 hx.tau
  have h2 := hf x.swap hx.muEx hx.tau
  have h3 := hx.mu0
  have h4 : 0 < 1 - x.bsf := by linarith
  unfold Site.interactionOf
  positivity

theorem wit_iso_pos : 0 < (witSite (Real.pi / 3) (Real.pi / 3) 0 Real.pi).interactionOf (Kind.dirs .volIsotropic (-1) 1 1 0)
    (Kind.dirs .srfIsotropic 1 1 1 0) 0 :=
  iso_pos (wit_oblique _ _) (by simp [witSite]) (by simp [witSite]) (by simp [witSite]) (by simp [witSite])

/-- Isotropic functions: sigma0 in decibel. -/
example : ∃ r l, ObservesAny ⟨isoV, isoS, true, true, true⟩ ⟨true, []⟩ (witSite (Real.pi / 3) (Real.pi / 3) 0 Real.pi) r ∧
    r = XR.fin l := by
  have hV := isoV_trunc (witSite (Real.pi / 3) (Real.pi / 3) 0 Real.pi)
  have hS := isoS_trunc (witSite (Real.pi / 3) (Real.pi / 3) 0 Real.pi)
  obtain ⟨r, h⟩ := trunc_observed .sympy hV hS isoV_plain isoS_plain true true (witSite_reports _ _ _ _) ⟨rfl, by simp [witSite]⟩
  have hp := wit_iso_pos
  have hu : 0 < (witSite (Real.pi / 3) (Real.pi / 3) 0 Real.pi).unit true :=
    div_pos (mul_pos (by positivity) (wit_oblique 0 Real.pi).mu0) (by simp [witSite])
  have hpos := mul_pos hp hu
  obtain ⟨v, rfl, -⟩ := C78_error_dB hV hS rfl (wit_oblique _ _) (by simp [witSite]) h (l := _)
    (if_pos hpos) (by simpa [Site.truncError] using hpos)
  exact ⟨_, v, h, rfl⟩

example : ∃ r, ObservesAny ⟨isoV, isoS, true, true, true⟩ ⟨true, []⟩ (witSite (Real.pi / 3) (Real.pi / 3) 0 Real.pi) r ∧
    r = (witSite (Real.pi / 3) (Real.pi / 3) 0 Real.pi).inUnits true true
      ((witSite (Real.pi / 3) (Real.pi / 3) 0 Real.pi).interactionOf (Kind.dirs .volIsotropic (-1) 1 1 0) (Kind.dirs .srfIsotropic 1 1 1 0) 0) := by
  have hV := isoV_trunc (witSite (Real.pi / 3) (Real.pi / 3) 0 Real.pi)
  have hS := isoS_trunc (witSite (Real.pi / 3) (Real.pi / 3) 0 Real.pi)
  obtain ⟨r, h⟩ := trunc_observed .sympy hV hS isoV_plain isoS_plain true true (witSite_reports _ _ _ _) ⟨rfl, by simp [witSite]⟩
  exact ⟨r, h, C78_exact hV hS rfl (wit_oblique _ _) (by simp [witSite]) h⟩

/-- The site with the optical depth `n + 1`. -/
def thickSite (n : ℕ) : Site := (witSite (Real.pi / 3) (Real.pi / 3) 0 1).withTau (n + 1)
  (Function.update (witSite (Real.pi / 3) (Real.pi / 3) 0 1).ρ "tau" (n + 1))

theorem thickSite_reports (n : ℕ) : (thickSite n).Reports [] := by
  refine ⟨?_, ?_, ?_, ?_, by simp⟩ <;> simp [thickSite, Site.withTau, witSite]

/-- A growing canopy over two surfaces, bistatic: the same limit. -/
example : ∃ r r' : ℕ → XR, (∀ n, ObservesRowP 0 ⟨growV (1/4) 9, isoS, true, true, false⟩ ⟨false, []⟩ (thickSite n) (r n)) ∧
    (∀ n, ObservesRowP 0 ⟨growV (1/4) 9, .prim (.srfHG (.num (1/3))) srfA (some 8), true, true, false⟩ ⟨false, []⟩ (thickSite n) (r' n)) ∧
    ∃ l, Approach r l ∧ Approach r' l := by
  have hV := fun n => hgV_trunc (t := 1/4) (by rw [abs_of_pos] <;> norm_num) (thickSite n) (N := 9) (by norm_num)
  have hS := fun n => isoS_trunc (thickSite n)
  have hS' := fun n => Truncated.prim (x := thickSite n) (N := 7) (k := .srfHG (.num (1/3))) (a := srfA) (a0 := 1) (a1 := 1) (a2 := 1)
    (t := 1/3) ⟨fun _ _ => ⟨Expr.Is.num _, Expr.Is.num _, Expr.Is.num _⟩, by simp, by simp, by simp, fun _ _ => Expr.Is.num _,
      by rw [abs_of_pos] <;> norm_num, fun h => h.elim, by simp⟩ (by simp) (by norm_num)
  choose r hr using fun n => trunc_total .sympy (hV n) (hS n) (growV_plain _ _) isoS_plain true false (thickSite_reports n)
  choose r' hr' using fun n => trunc_total .sympy (hV n) (hS' n) (growV_plain _ _) (by
    intro k hk
    simp [Scatter.phase, Scatter.primPhase, Scatter.angleExpr, Scatter.hgExpr, srfA] at hk
    simp
    tauto) true false (thickSite_reports n)
  refine ⟨r, r', hr, hr', _, C79_hidden (x := witSite (Real.pi / 3) (Real.pi / 3) 0 1) hV hS hS' (wit_oblique _ _) (by simp [witSite])
    rfl ?_ (fun n => by positivity) hr hr' rfl⟩
  exact tendsto_atTop_add_const_right _ _ tendsto_natCast_atTop_atTop

example : ∃ r v, ObservesRowP 0 ⟨growV (1/4) 9, isoS, true, true, false⟩ ⟨false, []⟩ (thickSite 20) r ∧ r = XR.fin v := by
  have hV := hgV_trunc (t := 1/4) (by rw [abs_of_pos] <;> norm_num) (thickSite 20) (N := 9) (by norm_num)
  have hS := isoS_trunc (thickSite 20)
  obtain ⟨r, hr⟩ := trunc_total .sympy hV hS (growV_plain _ _) isoS_plain true false (thickSite_reports 20)
  have hw := wit_oblique 0 1
  obtain ⟨v, hv, -⟩ := C79_interaction hV hS ⟨hw.mu0, hw.mu0', hw.muEx, hw.muEx', by simp [thickSite, Site.withTau]; positivity⟩
    (by simp [thickSite, Site.withTau, witSite]) hr
  exact ⟨r, v, hr, hv⟩

/-- Bistatic, interaction and total; without interaction term. -/
example : ∃ r v, ObservesAny ⟨growV (1/4) 9, isoS, true, true, false⟩ ⟨false, []⟩ (thickSite 0) r ∧ r = XR.fin v := by
  have hV := hgV_trunc (t := 1/4) (by rw [abs_of_pos] <;> norm_num) (thickSite 0) (N := 9) (by norm_num)
  have hS := isoS_trunc (thickSite 0)
  obtain ⟨r, F, -, h2, -, h⟩ := scalar_interaction .sympy true false (mono := false) (fun _ => false) (l := []) (by simp) (thickSite_reports 0)
    (fun k hk => List.mem_append_left _ (growV_plain (1/4) 9 k hk)) (fun k hk => List.mem_append_left _ (isoS_plain k hk))
    (Scatter.Simple.fnCoefs hV.simple hS.simple) hV.simple.ncoefs hS.simple.ncoefs
  rw [h2 fun _ => rfl] at h
  have hw := wit_oblique 0 1
  obtain ⟨v, hv, -⟩ := C78_bistatic_partial hV hS ⟨hw.mu0, hw.mu0', hw.muEx, hw.muEx', by simp [thickSite, Site.withTau]⟩
    (by simp [thickSite, Site.withTau, witSite]) (.inl h)
  exact ⟨r, v, .inl h, hv⟩

/-- Bistatic with a fixed incidence azimuth. -/
example : ∃ r F v, (∀ n, n ∈ F ↔ n = AngN.p0) ∧ ObservesAny ⟨growV (1/4) 9, isoS, true, true, false⟩ ⟨false, F⟩ (thickSite 0) r ∧ r = XR.fin v := by
  have hV := hgV_trunc (t := 1/4) (by rw [abs_of_pos] <;> norm_num) (thickSite 0) (N := 9) (by norm_num)
  have hS := isoS_trunc (thickSite 0)
  obtain ⟨r, F, h1, -, -, h⟩ := scalar_interaction .sympy true false (mono := false) (fun n => n = .p0) (l := []) (by simp) (thickSite_reports 0)
    (fun k hk => List.mem_append_left _ (growV_plain (1/4) 9 k hk)) (fun k hk => List.mem_append_left _ (isoS_plain k hk))
    (Scatter.Simple.fnCoefs hV.simple hS.simple) hV.simple.ncoefs hS.simple.ncoefs
  have hw := wit_oblique 0 1
  obtain ⟨v, hv, -⟩ := C78_fixed_partial hV hS rfl ⟨hw.mu0, hw.mu0', hw.muEx, hw.muEx', by simp [thickSite, Site.withTau]⟩
    (by simp [thickSite, Site.withTau, witSite]) (.inl h)
  exact ⟨r, F, v, fun n => by simp [h1], .inl h, hv⟩

example : ∃ r v, ObservesRowP 0 ⟨growV (1/4) 9, isoS, true, true, false⟩ ⟨false, []⟩ (thickSite 20) r ∧ r = XR.fin v := by
  have hV := hgV_trunc (t := 1/4) (by rw [abs_of_pos] <;> norm_num) (thickSite 20) (N := 9) (by norm_num)
  have hS := isoS_trunc (thickSite 20)
  obtain ⟨r, hr⟩ := trunc_total .sympy hV hS (growV_plain _ _) isoS_plain true false (thickSite_reports 20)
  have hw := wit_oblique 0 1
  obtain ⟨v, hv, -⟩ := C78_total_bistatic_partial hV hS rfl ⟨hw.mu0, hw.mu0', hw.muEx, hw.muEx', by simp [thickSite, Site.withTau]; positivity⟩
    (by simp [thickSite, Site.withTau, witSite]) hr
  exact ⟨r, v, hr, hv⟩

example : ∃ r v, ObservesRow 0 ⟨growV (1/4) 9, isoS, false, true, false⟩ (thickSite 20) r ∧ r = XR.fin v := by
  have hV := hgV_trunc (t := 1/4) (by rw [abs_of_pos] <;> norm_num) (thickSite 20) (N := 9) (by norm_num)
  have hS := isoS_trunc (thickSite 20)
  obtain ⟨r, hr⟩ := scalar_total .sympy false true false (thickSite_reports 20) (growV_plain (1/4) 9) isoS_plain (by simp) (by simp) (by simp)
  have hw := wit_oblique 0 1
  obtain ⟨v, hv, -⟩ := C79_first_order (x := thickSite 20) rfl rfl hS.valueAt hV.valueAt hw.mu0 hw.muEx (by simp [thickSite, Site.withTau, witSite])
    (show (0 : ℝ) ≤ ((20 : ℕ) : ℝ) + 1 by positivity) hr.row
  exact ⟨r, v, hr.row, hv⟩

example : ∃ r : ℕ → XR, (∀ n, ObservesRow 0 ⟨growV (1/4) 9, isoS, false, true, false⟩ (thickSite n) (r n)) ∧ ∃ l, Approach r l := by
  have hV := fun n => hgV_trunc (t := 1/4) (by rw [abs_of_pos] <;> norm_num) (thickSite n) (N := 9) (by norm_num)
  have hS := fun n => isoS_trunc (thickSite n)
  choose r hr using fun n => scalar_total .sympy false true false (thickSite_reports n) (growV_plain (1/4) 9) isoS_plain (by simp) (by simp)
    (by simp)
  have hw := wit_oblique 0 1
  exact ⟨r, fun n => (hr n).row, _, C79_limit_first_order (x := witSite (Real.pi / 3) (Real.pi / 3) 0 1)
    (p := Kind.dirs (.volHG (.num (1/4))) (-1) 1 1 (1/4) (Real.pi / 3) (Real.pi / 3) 0 1) rfl
    (fun n => (hS n).valueAt) (fun n => (hV n).valueAt) hw.mu0 hw.muEx (by simp [witSite])
    (tendsto_atTop_add_const_right _ _ tendsto_natCast_atTop_atTop) (fun n => by positivity) (fun n => (hr n).row) rfl⟩

/-- Monostatic, the first row of `calc()`. -/
example : ∃ r v, ObservesRowP 0 ⟨growV (1/4) 9, growV (1/4) 9, true, true, false⟩ ⟨true, []⟩
    (witSite (Real.pi / 3) (Real.pi / 3) 0 Real.pi) r ∧ r = XR.fin v := by
  have hV := hgV_trunc (t := 1/4) (by rw [abs_of_pos] <;> norm_num) (witSite (Real.pi / 3) (Real.pi / 3) 0 Real.pi) (N := 9) (by norm_num)
  obtain ⟨arr, h1, h2⟩ := tens_calc true false 1 [] (fun _ => witSite (Real.pi / 3) (Real.pi / 3) 0 Real.pi) .sympy
    (growV_plain (1/4) 9) (growV_plain (1/4) 9) (.inl rfl) (Scatter.Simple.fnCoefs hV.simple hV.simple _)
    hV.simple.ncoefs hV.simple.ncoefs fun _ _ => ⟨rfl, by simp [witSite], witSite_reports _ _ _ _⟩
  have h := h2.row (idx := [0]) (k := 0) (by simp [Arr.Valid]) (by rw [h1]; simp [Arr.Valid])
  obtain ⟨v, hv, -⟩ := C78_total hV hV rfl (wit_oblique _ _) (by simp [witSite]) h
  exact ⟨_, v, h, hv⟩

end

end RT1
