import Verif.Lemmas.EnergyObs
import Verif.Lemmas.IsoErr
import Verif.Props.Contrib
import Verif.Props.IntRows
import Verif.Props.Rows
import Mathlib.Analysis.Convex.SpecificFunctions.Basic
import Mathlib.Analysis.Convex.Slope

/-!
# C76: what observations say about the parameters

How the total returned by `calc` (its first row) depends on each parameter, and which parameters are
determined by observations.
-/

namespace RT1

noncomputable section
open Classical

/-! ### units -/

theorem inUnits_lt {x : Site} {s d : Bool} (hs : s = true → 0 < x.signorm) {v v' l l' : ℝ}
    (h : x.inUnits s d v = XR.fin l) (h' : x.inUnits s d v' = XR.fin l') : l < l' ↔ v < v' := by
  have key : ∀ a b : ℝ, (if d = true then dBValue a else XR.fin a) = XR.fin l →
      (if d = true then dBValue b else XR.fin b) = XR.fin l' → (l < l' ↔ a < b) := by
    intro a b ha hb
    cases d with
    | false => rw [XR.fin.inj ha, XR.fin.inj hb]
    | true =>
      simp only [if_true] at ha hb
      unfold dBValue at ha hb
      split_ifs at ha hb with h1 h2
      rw [← XR.fin.inj ha, ← XR.fin.inj hb, mul_lt_mul_iff_right₀ (by norm_num), Real.logb_lt_logb_iff (by norm_num) h1 h2]
  unfold Site.inUnits at h h'
  have := key _ _ h h'
  rw [this]
  cases s with
  | false => rfl
  | true => exact mul_lt_mul_iff_left₀ (hs rfl)

theorem Site.signorm_pos' {x : Site} (h0 : 0 < x.mu0) (hI : 0 < x.I0) : 0 < x.signorm :=
  div_pos (mul_pos (by positivity) h0) hI

/-- Attenuation of the two paths. -/
def Site.atten (x : Site) (τ : ℝ) : ℝ := Real.exp (-(τ / x.mu0)) * Real.exp (-(τ / x.muEx))

theorem Site.atten_pos (x : Site) (τ : ℝ) : 0 < x.atten τ := mul_pos (Real.exp_pos _) (Real.exp_pos _)

theorem Site.atten_lt {x : Site} (h0 : 0 < x.mu0) (h1 : 0 < x.muEx) {τ τ' : ℝ} : x.atten τ' < x.atten τ ↔ τ < τ' := by
  have key : ∀ τ, x.atten τ = Real.exp (-(τ * (1 / x.mu0 + 1 / x.muEx))) := fun τ => by
    unfold atten; rw [← Real.exp_add]; congr 1; ring
  have hp : 0 < 1 / x.mu0 + 1 / x.muEx := by positivity
  rw [key, key, Real.exp_lt_exp, neg_lt_neg_iff, mul_lt_mul_iff_left₀ hp]

theorem Site.atten_lt_one {x : Site} (h0 : 0 < x.mu0) (h1 : 0 < x.muEx) {τ : ℝ} (h : 0 < τ) : x.atten τ < 1 := by
  have := (atten_lt h0 h1).mpr h
  simpa [atten] using this

theorem Site.total_eq (x : Site) (f p : ℝ) : x.surface f + x.volume p =
    x.I0 * x.mu0 * (x.NormBRDF * f * ((1 - x.bsf) * x.atten x.tau + x.bsf)
      + (1 - x.bsf) * x.omega * p * (1 - x.atten x.tau) / (x.mu0 + x.muEx)) := by
  unfold Site.surface Site.volume Site.atten
  rw [sub_eq_add_neg (-(x.tau / x.mu0)), Real.exp_add]
  ring

/-- Nonzero incoming intensity, directions above the horizon. -/
structure Site.Lit (x : Site) : Prop where
  mu0 : 0 < x.mu0
  muEx : 0 < x.muEx
  I0 : 0 < x.I0

theorem Site.Lit.regular {x : Site} (h : x.Lit) (s : Bool) : x.Regular s :=
  ⟨h.mu0.ne', h.muEx.ne', (add_pos h.mu0 h.muEx).ne', fun _ => h.I0.ne'⟩

/-- Two totals of sites with the same directions and intensity compare like the linear values. -/
theorem total_lt {c : Cfg} {x y : Site} (hx : x.Lit) (hq : c.intQ = false) (e0 : y.t0 = x.t0) (e1 : y.tex = x.tex)
    (eI : y.I0 = x.I0) (ht : 0 ≤ x.tau) (ht' : 0 ≤ y.tau) {f p f' p' l l' : ℝ} (hf : c.SRF.ValueAt x f) (hp : c.V.ValueAt x p)
    (hf' : c.SRF.ValueAt y f') (hp' : c.V.ValueAt y p')
    (h : ObservesRow 0 c x (XR.fin l)) (h' : ObservesRow 0 c y (XR.fin l')) :
    l < l' ↔ x.surface f + x.volume p < y.surface f' + y.volume p' := by
  have hy : y.Lit := ⟨by simpa only [Site.mu0, e0] using hx.mu0, by simpa only [Site.muEx, e1] using hx.muEx, eI ▸ hx.I0⟩
  have h1 := h.total_val hq hf hp (hx.regular _) ht
  have h2 := h'.total_val hq hf' hp' (hy.regular _) ht'
  have e : y.inUnits c.sig0 c.dB (y.surface f' + y.volume p') = x.inUnits c.sig0 c.dB (y.surface f' + y.volume p') := by
    unfold Site.inUnits Site.signorm Site.mu0
    rw [e0, eI]
  rw [e] at h2
  exact inUnits_lt (fun _ => Site.signorm_pos' hx.mu0 hx.I0) h1.symm h2.symm

theorem affine_lt {A k u u' a b : ℝ} (hk : 0 < k) (ha : a = A + k * u) (hb : b = A + k * u') : a < b ↔ u < u' := by
  rw [ha, hb, add_lt_add_iff_left, mul_lt_mul_iff_right₀ hk]

theorem eq_of_lt_iff {l l' u u' : ℝ} (h1 : l < l' ↔ u < u') (h2 : l' < l ↔ u' < u) (e : l = l') : u = u' := by
  rw [e] at h1 h2
  simp only [lt_self_iff_false, false_iff, not_lt] at h1 h2
  exact le_antisymm h2 h1

theorem mul_pos_neg {k u : ℝ} (hk : k < 0) : 0 < k * u ↔ u < 0 :=
  ⟨fun h => by by_contra hu; exact absurd (mul_nonpos_of_nonpos_of_nonneg hk.le (not_lt.mp hu)) (not_le.mpr h),
    fun h => mul_pos_of_neg_of_neg hk h⟩

/-! ### one parameter -/

theorem total_omega {c : Cfg} {x : Site} (hx : x.Lit) (hq : c.intQ = false) (hb : x.bsf < 1) (ht : 0 < x.tau) {f p : ℝ}
    (hp0 : 0 < p) {ω ω' : ℝ} {ρ ρ' : String → ℝ} {l l' : ℝ}
    (hf : c.SRF.ValueAt (x.withOmega ω ρ) f) (hp : c.V.ValueAt (x.withOmega ω ρ) p)
    (hf' : c.SRF.ValueAt (x.withOmega ω' ρ') f) (hp' : c.V.ValueAt (x.withOmega ω' ρ') p)
    (h : ObservesRow 0 c (x.withOmega ω ρ) (XR.fin l)) (h' : ObservesRow 0 c (x.withOmega ω' ρ') (XR.fin l')) :
    l < l' ↔ ω < ω' := by
  rw [total_lt (x := x.withOmega ω ρ) (y := x.withOmega ω' ρ') ⟨hx.mu0, hx.muEx, hx.I0⟩ hq rfl rfl rfl ht.le ht.le hf hp hf' hp' h h',
    Site.total_eq, Site.total_eq]
  have k : 0 < x.I0 * x.mu0 * ((1 - x.bsf) * p * (1 - x.atten x.tau) / (x.mu0 + x.muEx)) := by
    have h1 := Site.atten_lt_one hx.mu0 hx.muEx ht
    have := hx.mu0; have := hx.muEx; have := hx.I0
    have : 0 < 1 - x.bsf := by linarith
    have : 0 < 1 - x.atten x.tau := by linarith
    positivity
  refine affine_lt (A := x.I0 * x.mu0 * (x.NormBRDF * f * ((1 - x.bsf) * x.atten x.tau + x.bsf))) k ?_ ?_
  · show x.I0 * x.mu0 * (x.NormBRDF * f * ((1 - x.bsf) * x.atten x.tau + x.bsf)
        + (1 - x.bsf) * ω * p * (1 - x.atten x.tau) / (x.mu0 + x.muEx)) = _
    ring
  · show x.I0 * x.mu0 * (x.NormBRDF * f * ((1 - x.bsf) * x.atten x.tau + x.bsf)
        + (1 - x.bsf) * ω' * p * (1 - x.atten x.tau) / (x.mu0 + x.muEx)) = _
    ring

/-- Without interaction term the total grows strictly with omega, in all units: equal totals mean equal
values of omega. -/
theorem C76_omega {c : Cfg} {x : Site} (hx : x.Lit) (hq : c.intQ = false) (hb : x.bsf < 1) (ht : 0 < x.tau) {f p : ℝ}
    (hp0 : 0 < p) {ω ω' : ℝ} {ρ ρ' : String → ℝ} {l l' : ℝ}
    (hf : c.SRF.ValueAt (x.withOmega ω ρ) f) (hp : c.V.ValueAt (x.withOmega ω ρ) p)
    (hf' : c.SRF.ValueAt (x.withOmega ω' ρ') f) (hp' : c.V.ValueAt (x.withOmega ω' ρ') p)
    (h : ObservesRow 0 c (x.withOmega ω ρ) (XR.fin l)) (h' : ObservesRow 0 c (x.withOmega ω' ρ') (XR.fin l')) :
    (l < l' ↔ ω < ω') ∧ (l = l' → ω = ω') :=
  ⟨total_omega hx hq hb ht hp0 hf hp hf' hp' h h', eq_of_lt_iff (total_omega hx hq hb ht hp0 hf hp hf' hp' h h')
    (total_omega hx hq hb ht hp0 hf' hp' hf hp h' h)⟩

theorem total_norm {c : Cfg} {x : Site} (hx : x.Lit) (hq : c.intQ = false) (hb : 0 ≤ x.bsf) (hb' : x.bsf ≤ 1) (ht : 0 ≤ x.tau)
    {f p : ℝ} (hf0 : 0 < f) {n n' : ℝ} {ρ ρ' : String → ℝ} {l l' : ℝ}
    (hf : c.SRF.ValueAt (x.withNorm n ρ) f) (hp : c.V.ValueAt (x.withNorm n ρ) p)
    (hf' : c.SRF.ValueAt (x.withNorm n' ρ') f) (hp' : c.V.ValueAt (x.withNorm n' ρ') p)
    (h : ObservesRow 0 c (x.withNorm n ρ) (XR.fin l)) (h' : ObservesRow 0 c (x.withNorm n' ρ') (XR.fin l')) :
    l < l' ↔ n < n' := by
  rw [total_lt (x := x.withNorm n ρ) (y := x.withNorm n' ρ') ⟨hx.mu0, hx.muEx, hx.I0⟩ hq rfl rfl rfl ht ht hf hp hf' hp' h h',
    Site.total_eq, Site.total_eq]
  have k : 0 < x.I0 * x.mu0 * (f * ((1 - x.bsf) * x.atten x.tau + x.bsf)) := by
    have h1 := x.atten_pos x.tau
    have := hx.mu0; have := hx.I0
    have : 0 < (1 - x.bsf) * x.atten x.tau + x.bsf := by
      rcases hb'.eq_or_lt with h2 | h2
      · rw [h2]; norm_num
      · have := mul_pos (sub_pos.mpr h2) h1; linarith
    positivity
  refine affine_lt (A := x.I0 * x.mu0 * ((1 - x.bsf) * x.omega * p * (1 - x.atten x.tau) / (x.mu0 + x.muEx))) k ?_ ?_
  · show x.I0 * x.mu0 * (n * f * ((1 - x.bsf) * x.atten x.tau + x.bsf)
        + (1 - x.bsf) * x.omega * p * (1 - x.atten x.tau) / (x.mu0 + x.muEx)) = _
    ring
  · show x.I0 * x.mu0 * (n' * f * ((1 - x.bsf) * x.atten x.tau + x.bsf)
        + (1 - x.bsf) * x.omega * p * (1 - x.atten x.tau) / (x.mu0 + x.muEx)) = _
    ring

/-- Without interaction term the total grows strictly with NormBRDF, in all units, whatever the optical
depth: equal totals mean equal values of NormBRDF. -/
theorem C76_norm {c : Cfg} {x : Site} (hx : x.Lit) (hq : c.intQ = false) (hb : 0 ≤ x.bsf) (hb' : x.bsf ≤ 1) (ht : 0 ≤ x.tau)
    {f p : ℝ} (hf0 : 0 < f) {n n' : ℝ} {ρ ρ' : String → ℝ} {l l' : ℝ}
    (hf : c.SRF.ValueAt (x.withNorm n ρ) f) (hp : c.V.ValueAt (x.withNorm n ρ) p)
    (hf' : c.SRF.ValueAt (x.withNorm n' ρ') f) (hp' : c.V.ValueAt (x.withNorm n' ρ') p)
    (h : ObservesRow 0 c (x.withNorm n ρ) (XR.fin l)) (h' : ObservesRow 0 c (x.withNorm n' ρ') (XR.fin l')) :
    (l < l' ↔ n < n') ∧ (l = l' → n = n') :=
  ⟨total_norm hx hq hb hb' ht hf0 hf hp hf' hp' h h', eq_of_lt_iff (total_norm hx hq hb hb' ht hf0 hf hp hf' hp' h h')
    (total_norm hx hq hb hb' ht hf0 hf' hp' hf hp h' h)⟩

theorem total_tau {c : Cfg} {x : Site} (hx : x.Lit) (hq : c.intQ = false) {f p : ℝ} {τ τ' : ℝ} (ht : 0 ≤ τ) (ht' : 0 ≤ τ')
    {ρ ρ' : String → ℝ} {l l' : ℝ}
    (hf : c.SRF.ValueAt (x.withTau τ ρ) f) (hp : c.V.ValueAt (x.withTau τ ρ) p)
    (hf' : c.SRF.ValueAt (x.withTau τ' ρ') f) (hp' : c.V.ValueAt (x.withTau τ' ρ') p)
    (h : ObservesRow 0 c (x.withTau τ ρ) (XR.fin l)) (h' : ObservesRow 0 c (x.withTau τ' ρ') (XR.fin l')) :
    l < l' ↔ (1 - x.bsf) * (x.NormBRDF * f - x.omega * p / (x.mu0 + x.muEx)) * (x.atten τ' - x.atten τ) > 0 := by
  rw [total_lt (x := x.withTau τ ρ) (y := x.withTau τ' ρ') ⟨hx.mu0, hx.muEx, hx.I0⟩ hq rfl rfl rfl ht ht' hf hp hf' hp' h h',
    Site.total_eq, Site.total_eq, ← sub_pos]
  have k : 0 < x.I0 * x.mu0 := mul_pos hx.I0 hx.mu0
  rw [gt_iff_lt, ← mul_pos_iff_of_pos_left k (b := _ * (x.atten τ' - x.atten τ))]
  refine iff_of_eq (congrArg (0 < ·) ?_)
  show x.I0 * x.mu0 * (x.NormBRDF * f * ((1 - x.bsf) * x.atten τ' + x.bsf)
        + (1 - x.bsf) * x.omega * p * (1 - x.atten τ') / (x.mu0 + x.muEx)) -
      x.I0 * x.mu0 * (x.NormBRDF * f * ((1 - x.bsf) * x.atten τ + x.bsf)
        + (1 - x.bsf) * x.omega * p * (1 - x.atten τ) / (x.mu0 + x.muEx)) = _
  ring

/-- Without interaction term the total depends strictly monotonically on tau, or not at all.  It grows if
the saturated volume signal is larger than that of the bare surface, it decreases if it is smaller,
and if they are equal the total is the same for every tau (then no observation in this geometry
says anything about tau). -/
theorem C76_tau {c : Cfg} {x : Site} (hx : x.Lit) (hq : c.intQ = false) (hb : x.bsf < 1) {f p : ℝ} {τ τ' : ℝ} (ht : 0 ≤ τ)
    (ht' : 0 ≤ τ') {ρ ρ' : String → ℝ} {l l' : ℝ}
    (hf : c.SRF.ValueAt (x.withTau τ ρ) f) (hp : c.V.ValueAt (x.withTau τ ρ) p)
    (hf' : c.SRF.ValueAt (x.withTau τ' ρ') f) (hp' : c.V.ValueAt (x.withTau τ' ρ') p)
    (h : ObservesRow 0 c (x.withTau τ ρ) (XR.fin l)) (h' : ObservesRow 0 c (x.withTau τ' ρ') (XR.fin l')) :
    (x.NormBRDF * f < x.omega * p / (Real.cos x.t0 + Real.cos x.tex) → ((l < l' ↔ τ < τ') ∧ (l = l' → τ = τ'))) ∧
    (x.omega * p / (Real.cos x.t0 + Real.cos x.tex) < x.NormBRDF * f → ((l' < l ↔ τ < τ') ∧ (l = l' → τ = τ'))) ∧
    (x.NormBRDF * f = x.omega * p / (Real.cos x.t0 + Real.cos x.tex) → l = l') := by
  have h1 := total_tau hx hq ht ht' hf hp hf' hp' h h'
  have h2 := total_tau hx hq ht' ht hf' hp' hf hp h' h
  have b0 : 0 < 1 - x.bsf := by linarith
  have a1 := Site.atten_lt hx.mu0 hx.muEx (τ := τ) (τ' := τ')
  have a2 := Site.atten_lt hx.mu0 hx.muEx (τ := τ') (τ' := τ)
  refine ⟨fun hk => ?_, fun hk => ?_, fun hk => ?_⟩
  · have k : (1 - x.bsf) * (x.NormBRDF * f - x.omega * p / (x.mu0 + x.muEx)) < 0 :=
      mul_neg_of_pos_of_neg b0 (by show x.NormBRDF * f - x.omega * p / (Real.cos x.t0 + Real.cos x.tex) < 0; linarith)
    have g1 : l < l' ↔ τ < τ' := by
      rw [h1, gt_iff_lt, mul_pos_neg k, sub_neg, a1]
    have g2 : l' < l ↔ τ' < τ := by
      rw [h2, gt_iff_lt, mul_pos_neg k, sub_neg, a2]
    exact ⟨g1, eq_of_lt_iff g1 g2⟩
  · have k : 0 < (1 - x.bsf) * (x.NormBRDF * f - x.omega * p / (x.mu0 + x.muEx)) :=
      mul_pos b0 (by show 0 < x.NormBRDF * f - x.omega * p / (Real.cos x.t0 + Real.cos x.tex); linarith)
    have g1 : l < l' ↔ τ' < τ := by
      rw [h1, gt_iff_lt, mul_pos_iff_of_pos_left k, sub_pos, a2]
    have g2 : l' < l ↔ τ < τ' := by
      rw [h2, gt_iff_lt, mul_pos_iff_of_pos_left k, sub_pos, a1]
    exact ⟨g2, fun e => (eq_of_lt_iff g1 g2 e).symm⟩
  · have k : x.NormBRDF * f - x.omega * p / (x.mu0 + x.muEx) = 0 := by
      show x.NormBRDF * f - x.omega * p / (Real.cos x.t0 + Real.cos x.tex) = 0
      linarith
    rw [k] at h1 h2
    simp only [mul_zero, zero_mul, gt_iff_lt, lt_self_iff_false, iff_false, not_lt] at h1 h2
    exact le_antisymm h2 h1

theorem total_bsf {c : Cfg} {x : Site} (hx : x.Lit) (hq : c.intQ = false) (ht : 0 ≤ x.tau) {f p : ℝ} {β β' : ℝ}
    {ρ ρ' : String → ℝ} {l l' : ℝ}
    (hf : c.SRF.ValueAt (x.withBsf β ρ) f) (hp : c.V.ValueAt (x.withBsf β ρ) p)
    (hf' : c.SRF.ValueAt (x.withBsf β' ρ') f) (hp' : c.V.ValueAt (x.withBsf β' ρ') p)
    (h : ObservesRow 0 c (x.withBsf β ρ) (XR.fin l)) (h' : ObservesRow 0 c (x.withBsf β' ρ') (XR.fin l')) :
    l < l' ↔ 0 < (x.NormBRDF * f - x.omega * p / (x.mu0 + x.muEx)) * (1 - x.atten x.tau) * (β' - β) := by
  rw [total_lt (x := x.withBsf β ρ) (y := x.withBsf β' ρ') ⟨hx.mu0, hx.muEx, hx.I0⟩ hq rfl rfl rfl ht ht hf hp hf' hp' h h',
    Site.total_eq, Site.total_eq, ← sub_pos]
  have k : 0 < x.I0 * x.mu0 := mul_pos hx.I0 hx.mu0
  rw [← mul_pos_iff_of_pos_left k (b := _ * (β' - β))]
  refine iff_of_eq (congrArg (0 < ·) ?_)
  show x.I0 * x.mu0 * (x.NormBRDF * f * ((1 - β') * x.atten x.tau + β')
        + (1 - β') * x.omega * p * (1 - x.atten x.tau) / (x.mu0 + x.muEx)) -
      x.I0 * x.mu0 * (x.NormBRDF * f * ((1 - β) * x.atten x.tau + β)
        + (1 - β) * x.omega * p * (1 - x.atten x.tau) / (x.mu0 + x.muEx)) = _
  ring

/-- The same trichotomy for the bare soil fraction: with a canopy (tau > 0) the total grows strictly with
bsf, decreases strictly or does not depend on it. -/
theorem C76_bsf {c : Cfg} {x : Site} (hx : x.Lit) (hq : c.intQ = false) (ht : 0 < x.tau) {f p : ℝ} {β β' : ℝ}
    {ρ ρ' : String → ℝ} {l l' : ℝ}
    (hf : c.SRF.ValueAt (x.withBsf β ρ) f) (hp : c.V.ValueAt (x.withBsf β ρ) p)
    (hf' : c.SRF.ValueAt (x.withBsf β' ρ') f) (hp' : c.V.ValueAt (x.withBsf β' ρ') p)
    (h : ObservesRow 0 c (x.withBsf β ρ) (XR.fin l)) (h' : ObservesRow 0 c (x.withBsf β' ρ') (XR.fin l')) :
    (x.omega * p / (Real.cos x.t0 + Real.cos x.tex) < x.NormBRDF * f → ((l < l' ↔ β < β') ∧ (l = l' → β = β'))) ∧
    (x.NormBRDF * f < x.omega * p / (Real.cos x.t0 + Real.cos x.tex) → ((l' < l ↔ β < β') ∧ (l = l' → β = β'))) ∧
    (x.NormBRDF * f = x.omega * p / (Real.cos x.t0 + Real.cos x.tex) → l = l') := by
  have h1 := total_bsf hx hq ht.le hf hp hf' hp' h h'
  have h2 := total_bsf hx hq ht.le hf' hp' hf hp h' h
  have a0 : 0 < 1 - x.atten x.tau := sub_pos.mpr (Site.atten_lt_one hx.mu0 hx.muEx ht)
  refine ⟨fun hk => ?_, fun hk => ?_, fun hk => ?_⟩
  · have k : 0 < (x.NormBRDF * f - x.omega * p / (x.mu0 + x.muEx)) * (1 - x.atten x.tau) :=
      mul_pos (by show 0 < x.NormBRDF * f - x.omega * p / (Real.cos x.t0 + Real.cos x.tex); linarith) a0
    rw [mul_pos_iff_of_pos_left k, sub_pos] at h1 h2
    exact ⟨h1, eq_of_lt_iff h1 h2⟩
  · have k : (x.NormBRDF * f - x.omega * p / (x.mu0 + x.muEx)) * (1 - x.atten x.tau) < 0 :=
      mul_neg_of_neg_of_pos (by show x.NormBRDF * f - x.omega * p / (Real.cos x.t0 + Real.cos x.tex) < 0; linarith) a0
    rw [mul_pos_neg k, sub_neg] at h1 h2
    exact ⟨h2, fun e => (eq_of_lt_iff h1 h2 e).symm⟩
  · have k : x.NormBRDF * f - x.omega * p / (x.mu0 + x.muEx) = 0 := by
      show x.NormBRDF * f - x.omega * p / (Real.cos x.t0 + Real.cos x.tex) = 0
      linarith
    rw [k] at h1 h2
    simp only [zero_mul, lt_self_iff_false, iff_false, not_lt] at h1 h2
    exact le_antisymm h2 h1

/-! ### with the interaction term -/

theorem GeomAt.same {md : Mode} {g : Geom4} {x y : Site} (hg : GeomAt md g x) (e1 : y.t0 = x.t0) (e2 : y.tex = x.tex)
    (e3 : y.p0 = x.p0) (e4 : y.pex = x.pex) : GeomAt md g y := by
  have ea : ∀ n, y.angle n = x.angle n := by intro n; cases n <;> assumption
  refine ⟨fun hm => ?_, fun hm n => ?_⟩
  · rw [e1, e2, e3, e4]; exact hg.mono hm
  · rw [ea]; exact hg.bi hm n

/-- The expansions of the scattering functions have no negative values at the site. -/
def Cfg.NonnegAt (c : Cfg) (x : Site) : Prop := ∀ a b u v, 0 ≤ c.V.expVal x.env a b u v ∧ 0 ≤ c.V.expVal x.swap.env a b u v ∧
  0 ≤ c.SRF.expVal x.env a b u v ∧ 0 ≤ c.SRF.expVal x.swap.env a b u v

theorem pathSum_nonneg {c : Cfg} {g : Geom4} {x : Site} (hx : x.Oblique) (hn : c.NonnegAt x) :
    0 ≤ pathSum c.V c.SRF g x := by
  refine add_nonneg (mul_nonneg (Real.exp_pos _).le ?_) (mul_nonneg (Real.exp_pos _).le ?_)
  · exact hemi_nonneg hx.mu0 hx.tau.le fun θ φ => mul_nonneg (hn _ _ _ _).1 (hn _ _ _ _).2.2.1
  · exact hemi_nonneg hx.muEx hx.tau.le fun θ φ => mul_nonneg (hn _ _ _ _).2.1 (hn _ _ _ _).2.2.2

theorem SameScatter.symm {c : Cfg} {x y : Site} (h : SameScatter c x y) : SameScatter c y x := fun a b u v =>
  ⟨(h a b u v).1.symm, (h a b u v).2.1.symm, (h a b u v).2.2.1.symm, (h a b u v).2.2.2.symm⟩

theorem Cfg.NonnegAt.same {c : Cfg} {x y : Site} (hn : c.NonnegAt x) (h : SameScatter c x y) : c.NonnegAt y := fun a b u v => by
  rw [(h a b u v).1, (h a b u v).2.1, (h a b u v).2.2.1, (h a b u v).2.2.2]
  exact hn a b u v

/-- Two totals with interaction term of sites with the same directions, optical depth and intensity. -/
theorem totalP_lt {c : Cfg} {md : Mode} {x y : Site} (hx : x.Oblique) (hI : 0 < x.I0) (hq : c.intQ = true)
    (e1 : y.t0 = x.t0) (e2 : y.tex = x.tex) (e3 : y.p0 = x.p0) (e4 : y.pex = x.pex)
    (eI : y.I0 = x.I0) (e5 : y.tau = x.tau) (hs : SameScatter c x y) {nV nS : ℕ}
    (hV : c.V.ncoefs = .ok (nV + 1)) (hS : c.SRF.ncoefs = .ok (nS + 1)) {f p l l' : ℝ}
    (hf : c.SRF.ValueAt x f) (hp : c.V.ValueAt x p) (hf' : c.SRF.ValueAt y f) (hp' : c.V.ValueAt y p)
    (h : ObservesRowP 0 c md x (XR.fin l)) (h' : ObservesRowP 0 c md y (XR.fin l')) :
    ∃ g : Geom4, l < l' ↔ x.surface f + x.volume p + x.NormBRDF * (1 - x.bsf) * (x.I0 * x.mu0 * x.omega * pathSum c.V c.SRF g x)
      < y.surface f + y.volume p + y.NormBRDF * (1 - y.bsf) * (x.I0 * x.mu0 * y.omega * pathSum c.V c.SRF g x) := by
  have hy : y.Oblique := by
    refine ⟨?_, ?_, ?_, ?_, ?_⟩
    · simpa only [Site.mu0, e1] using hx.mu0
    · simpa only [Site.mu0, e1] using hx.mu0'
    · simpa only [Site.muEx, e2] using hx.muEx
    · simpa only [Site.muEx, e2] using hx.muEx'
    · rw [e5]; exact hx.tau
  obtain ⟨g, hg, h1⟩ := h.total_val hq hf hp hV hS hx fun _ => hI.ne'
  obtain ⟨g', hg', h2⟩ := h'.total_val hq hf' hp' hV hS hy fun _ => by rw [eI]; exact hI.ne'
  rw [hg'.unique (hg.same e1 e2 e3 e4), geomInteraction_eq, pathSum_congr hg e1 e2 e3 e4 e5 hs] at h2
  rw [geomInteraction_eq] at h1
  have m0 : y.mu0 = x.mu0 := by simp only [Site.mu0, e1]
  have e : ∀ v, y.inUnits c.sig0 c.dB v = x.inUnits c.sig0 c.dB v := fun v => by
    unfold Site.inUnits Site.signorm
    rw [m0, eI]
  rw [e, eI, m0] at h2
  exact ⟨g, inUnits_lt (fun _ => Site.signorm_pos' hx.mu0 hI) h1.symm h2.symm⟩

theorem totalP_omega {c : Cfg} {md : Mode} {x : Site} (hx : x.Oblique) (hI : 0 < x.I0) (hq : c.intQ = true) (hb : x.bsf < 1)
    (hN : 0 ≤ x.NormBRDF) {nV nS : ℕ}
    (hV : c.V.ncoefs = .ok (nV + 1)) (hS : c.SRF.ncoefs = .ok (nS + 1)) {f p : ℝ} (hp0 : 0 < p) {ω ω' : ℝ}
    {ρ ρ' : String → ℝ} {l l' : ℝ} (hn : c.NonnegAt (x.withOmega ω ρ)) (hs : SameScatter c (x.withOmega ω ρ) (x.withOmega ω' ρ'))
    (hf : c.SRF.ValueAt (x.withOmega ω ρ) f) (hp : c.V.ValueAt (x.withOmega ω ρ) p)
    (hf' : c.SRF.ValueAt (x.withOmega ω' ρ') f) (hp' : c.V.ValueAt (x.withOmega ω' ρ') p)
    (h : ObservesRowP 0 c md (x.withOmega ω ρ) (XR.fin l)) (h' : ObservesRowP 0 c md (x.withOmega ω' ρ') (XR.fin l')) :
    l < l' ↔ ω < ω' := by
  have hy : (x.withOmega ω ρ).Oblique := ⟨hx.mu0, hx.mu0', hx.muEx, hx.muEx', hx.tau⟩
  obtain ⟨g, hg⟩ := totalP_lt (x := x.withOmega ω ρ) (y := x.withOmega ω' ρ')
    hy hI hq rfl rfl rfl rfl rfl rfl hs hV hS hf hp hf' hp' h h'
  have hw : 0 ≤ pathSum c.V c.SRF g (x.withOmega ω ρ) := pathSum_nonneg hy hn
  rw [hg, Site.total_eq, Site.total_eq]
  generalize pathSum c.V c.SRF g (x.withOmega ω ρ) = S at hw
  have k : 0 < x.I0 * x.mu0 * ((1 - x.bsf) * p * (1 - x.atten x.tau) / (x.mu0 + x.muEx))
      + x.NormBRDF * (1 - x.bsf) * (x.I0 * x.mu0 * S) := by
    have h1 := Site.atten_lt_one hx.mu0 hx.muEx hx.tau
    have := hx.mu0; have := hx.muEx
    have : 0 < 1 - x.bsf := by linarith
    have : 0 < 1 - x.atten x.tau := by linarith
    positivity
  refine affine_lt (A := x.I0 * x.mu0 * (x.NormBRDF * f * ((1 - x.bsf) * x.atten x.tau + x.bsf))) k ?_ ?_
  · show x.I0 * x.mu0 * (x.NormBRDF * f * ((1 - x.bsf) * x.atten x.tau + x.bsf)
        + (1 - x.bsf) * ω * p * (1 - x.atten x.tau) / (x.mu0 + x.muEx))
        + x.NormBRDF * (1 - x.bsf) * (x.I0 * x.mu0 * ω * S) = _
    ring
  · show x.I0 * x.mu0 * (x.NormBRDF * f * ((1 - x.bsf) * x.atten x.tau + x.bsf)
        + (1 - x.bsf) * ω' * p * (1 - x.atten x.tau) / (x.mu0 + x.muEx))
        + x.NormBRDF * (1 - x.bsf) * (x.I0 * x.mu0 * ω' * S) = _
    ring

/-- With interaction term the total grows strictly with omega if the expansions have no negative values. -/
theorem C76_omega_interaction {c : Cfg} {md : Mode} {x : Site} (hx : x.Oblique) (hI : 0 < x.I0) (hq : c.intQ = true)
    (hb : x.bsf < 1) (hN : 0 ≤ x.NormBRDF) {nV nS : ℕ}
    (hV : c.V.ncoefs = .ok (nV + 1)) (hS : c.SRF.ncoefs = .ok (nS + 1)) {f p : ℝ} (hp0 : 0 < p) {ω ω' : ℝ}
    {ρ ρ' : String → ℝ} {l l' : ℝ} (hn : c.NonnegAt (x.withOmega ω ρ)) (hs : SameScatter c (x.withOmega ω ρ) (x.withOmega ω' ρ'))
    (hf : c.SRF.ValueAt (x.withOmega ω ρ) f) (hp : c.V.ValueAt (x.withOmega ω ρ) p)
    (hf' : c.SRF.ValueAt (x.withOmega ω' ρ') f) (hp' : c.V.ValueAt (x.withOmega ω' ρ') p)
    (h : ObservesRowP 0 c md (x.withOmega ω ρ) (XR.fin l)) (h' : ObservesRowP 0 c md (x.withOmega ω' ρ') (XR.fin l')) :
    (l < l' ↔ ω < ω') ∧ (l = l' → ω = ω') :=
  ⟨totalP_omega hx hI hq hb hN hV hS hp0 hn hs hf hp hf' hp' h h',
    eq_of_lt_iff (totalP_omega hx hI hq hb hN hV hS hp0 hn hs hf hp hf' hp' h h')
      (totalP_omega hx hI hq hb hN hV hS hp0 (hn.same hs) hs.symm hf' hp' hf hp h' h)⟩

theorem totalP_norm {c : Cfg} {md : Mode} {x : Site} (hx : x.Oblique) (hI : 0 < x.I0) (hq : c.intQ = true) (hb : 0 ≤ x.bsf)
    (hb' : x.bsf ≤ 1) (hω : 0 ≤ x.omega) {nV nS : ℕ}
    (hV : c.V.ncoefs = .ok (nV + 1)) (hS : c.SRF.ncoefs = .ok (nS + 1)) {f p : ℝ} (hf0 : 0 < f) {n n' : ℝ}
    {ρ ρ' : String → ℝ} {l l' : ℝ} (hn : c.NonnegAt (x.withNorm n ρ)) (hs : SameScatter c (x.withNorm n ρ) (x.withNorm n' ρ'))
    (hf : c.SRF.ValueAt (x.withNorm n ρ) f) (hp : c.V.ValueAt (x.withNorm n ρ) p)
    (hf' : c.SRF.ValueAt (x.withNorm n' ρ') f) (hp' : c.V.ValueAt (x.withNorm n' ρ') p)
    (h : ObservesRowP 0 c md (x.withNorm n ρ) (XR.fin l)) (h' : ObservesRowP 0 c md (x.withNorm n' ρ') (XR.fin l')) :
    l < l' ↔ n < n' := by
  have hy : (x.withNorm n ρ).Oblique := ⟨hx.mu0, hx.mu0', hx.muEx, hx.muEx', hx.tau⟩
  obtain ⟨g, hg⟩ := totalP_lt (x := x.withNorm n ρ) (y := x.withNorm n' ρ')
    hy hI hq rfl rfl rfl rfl rfl rfl hs hV hS hf hp hf' hp' h h'
  have hw : 0 ≤ pathSum c.V c.SRF g (x.withNorm n ρ) := pathSum_nonneg hy hn
  rw [hg, Site.total_eq, Site.total_eq]
  generalize pathSum c.V c.SRF g (x.withNorm n ρ) = S at hw
  have k : 0 < x.I0 * x.mu0 * (f * ((1 - x.bsf) * x.atten x.tau + x.bsf))
      + (1 - x.bsf) * (x.I0 * x.mu0 * x.omega * S) := by
    have h1 := x.atten_pos x.tau
    have := hx.mu0
    have h3 : 0 < (1 - x.bsf) * x.atten x.tau + x.bsf := by
      rcases hb'.eq_or_lt with h2 | h2
      · rw [h2]; norm_num
      · have := mul_pos (sub_pos.mpr h2) h1; linarith
    have : 0 ≤ 1 - x.bsf := by linarith
    positivity
  refine affine_lt (A := x.I0 * x.mu0 * ((1 - x.bsf) * x.omega * p * (1 - x.atten x.tau) / (x.mu0 + x.muEx))) k ?_ ?_
  · show x.I0 * x.mu0 * (n * f * ((1 - x.bsf) * x.atten x.tau + x.bsf)
        + (1 - x.bsf) * x.omega * p * (1 - x.atten x.tau) / (x.mu0 + x.muEx))
        + n * (1 - x.bsf) * (x.I0 * x.mu0 * x.omega * S) = _
    ring
  · show x.I0 * x.mu0 * (n' * f * ((1 - x.bsf) * x.atten x.tau + x.bsf)
        + (1 - x.bsf) * x.omega * p * (1 - x.atten x.tau) / (x.mu0 + x.muEx))
        + n' * (1 - x.bsf) * (x.I0 * x.mu0 * x.omega * S) = _
    ring

/-- With interaction term the total grows strictly with NormBRDF if the expansions have no negative values. -/
theorem C76_norm_interaction {c : Cfg} {md : Mode} {x : Site} (hx : x.Oblique) (hI : 0 < x.I0) (hq : c.intQ = true)
    (hb : 0 ≤ x.bsf) (hb' : x.bsf ≤ 1) (hω : 0 ≤ x.omega) {nV nS : ℕ}
    (hV : c.V.ncoefs = .ok (nV + 1)) (hS : c.SRF.ncoefs = .ok (nS + 1)) {f p : ℝ} (hf0 : 0 < f) {n n' : ℝ}
    {ρ ρ' : String → ℝ} {l l' : ℝ} (hn : c.NonnegAt (x.withNorm n ρ)) (hs : SameScatter c (x.withNorm n ρ) (x.withNorm n' ρ'))
    (hf : c.SRF.ValueAt (x.withNorm n ρ) f) (hp : c.V.ValueAt (x.withNorm n ρ) p)
    (hf' : c.SRF.ValueAt (x.withNorm n' ρ') f) (hp' : c.V.ValueAt (x.withNorm n' ρ') p)
    (h : ObservesRowP 0 c md (x.withNorm n ρ) (XR.fin l)) (h' : ObservesRowP 0 c md (x.withNorm n' ρ') (XR.fin l')) :
    (l < l' ↔ n < n') ∧ (l = l' → n = n') :=
  ⟨totalP_norm hx hI hq hb hb' hω hV hS hf0 hn hs hf hp hf' hp' h h',
    eq_of_lt_iff (totalP_norm hx hI hq hb hb' hω hV hS hf0 hn hs hf hp hf' hp' h h')
      (totalP_norm hx hI hq hb hb' hω hV hS hf0 (hn.same hs) hs.symm hf' hp' hf hp h' h)⟩

/-! ### two parameters -/

theorem secant_inj {a b u v : ℝ} (hb : 0 < b) (hab : b < a) (hu : 0 < u) (hv : 0 < v)
    (h : (1 - Real.exp (-(a * u))) * (1 - Real.exp (-(b * v))) = (1 - Real.exp (-(a * v))) * (1 - Real.exp (-(b * u)))) :
    u = v := by
  have hr : 1 < a / b := (one_lt_div hb).mpr hab
  have e : ∀ w, Real.exp (-(a * w)) = Real.exp (-(b * w)) ^ (a / b) := fun w => by
    rw [← Real.exp_mul]; congr 1; field_simp
  have lt1 : ∀ w, 0 < w → Real.exp (-(b * w)) < 1 := fun w hw => by
    rw [Real.exp_lt_one_iff]; have := mul_pos hb hw; linarith
  have key : ∀ u v, 0 < u → 0 < v → v < u →
      (1 - Real.exp (-(a * u))) * (1 - Real.exp (-(b * v))) < (1 - Real.exp (-(a * v))) * (1 - Real.exp (-(b * u))) := by
    intro u v hu hv huv
    have h1 : Real.exp (-(b * u)) < Real.exp (-(b * v)) := by
      rw [Real.exp_lt_exp]; have := mul_lt_mul_of_pos_left huv hb; linarith
    have := (strictConvexOn_rpow hr).secant_strict_mono (a := 1) (x := Real.exp (-(b * u))) (y := Real.exp (-(b * v)))
      (by simp) (Real.exp_pos _).le (Real.exp_pos _).le (lt1 u hu).ne (lt1 v hv).ne h1
    rw [e u, e v]
    have c1 := lt1 u hu
    have c2 := lt1 v hv
    have e2 : ∀ x y : ℝ, (x - 1) / (y - 1) = (1 - x) / (1 - y) := fun x y => by rw [← neg_div_neg_eq, neg_sub, neg_sub]
    rw [Real.one_rpow, e2, e2, div_lt_div_iff₀ (by linarith) (by linarith)] at this
    nlinarith
  rcases lt_trichotomy u v with h1 | h1 | h1
  · exact absurd h (key v u hv hu h1).ne'
  · exact h1
  · exact absurd h (key u v hu hv h1).ne

theorem exp_pair {a b u v k k' : ℝ} (ha : 0 < a) (hb : 0 < b) (hab : a ≠ b) (hu : 0 < u) (hv : 0 < v) (hk : k ≠ 0)
    (h1 : k * (1 - Real.exp (-(a * u))) = k' * (1 - Real.exp (-(a * v))))
    (h2 : k * (1 - Real.exp (-(b * u))) = k' * (1 - Real.exp (-(b * v)))) : u = v ∧ k = k' := by
  have lt1 : ∀ w z, 0 < w → 0 < z → 0 < 1 - Real.exp (-(z * w)) := fun w z hw hz => by
    rw [sub_pos, Real.exp_lt_one_iff]; have := mul_pos hz hw; linarith
  have hk' : k' ≠ 0 := by
    rintro rfl
    rw [zero_mul] at h1
    exact hk ((mul_eq_zero.mp h1).resolve_right (lt1 u a hu ha).ne')
  have key : (1 - Real.exp (-(a * u))) * (1 - Real.exp (-(b * v))) = (1 - Real.exp (-(a * v))) * (1 - Real.exp (-(b * u))) := by
    apply mul_left_cancel₀ (mul_ne_zero hk hk')
    calc _ = (k * (1 - Real.exp (-(a * u)))) * (k' * (1 - Real.exp (-(b * v)))) := by ring
      _ = (k' * (1 - Real.exp (-(a * v)))) * (k * (1 - Real.exp (-(b * u)))) := by rw [h1, h2]
      _ = _ := by ring
  have e : u = v := by
    rcases hab.lt_or_gt with h | h
    · exact secant_inj ha h hu hv (by rw [mul_comm, ← key, mul_comm])
    · exact secant_inj hb h hu hv key
  subst e
  exact ⟨rfl, mul_right_cancel₀ (lt1 u a hu ha).ne' h1⟩

/-- Sum of the lengths of the two paths per unit of optical depth. -/
def Site.airmass (x : Site) : ℝ := 1 / x.mu0 + 1 / x.muEx

theorem Site.atten_eq (x : Site) (τ : ℝ) : x.atten τ = Real.exp (-(x.airmass * τ)) := by
  unfold Site.atten Site.airmass
  rw [← Real.exp_add]; congr 1; ring

theorem inUnits_eq {x : Site} {s d : Bool} (hs : s = true → 0 < x.signorm) {v v' l : ℝ}
    (h : x.inUnits s d v = XR.fin l) (h' : x.inUnits s d v' = XR.fin l) : v = v' :=
  eq_of_lt_iff (inUnits_lt hs h h') (inUnits_lt hs h' h) rfl

/-- One volume observation of a site with the given tau and omega. -/
def VolumeObs (c : Cfg) (x : Site) (τ ω p l : ℝ) : Prop := ∃ ρ, c.V.ValueAt ((x.withTau τ ρ).withOmega ω ρ) p ∧
  (Observes volume c ((x.withTau τ ρ).withOmega ω ρ) (XR.fin l) ∨ ObservesRow 2 c ((x.withTau τ ρ).withOmega ω ρ) (XR.fin l))

/-- One surface observation of a site with the given tau and NormBRDF. -/
def SurfaceObs (c : Cfg) (x : Site) (τ n f l : ℝ) : Prop := ∃ ρ, c.SRF.ValueAt ((x.withTau τ ρ).withNorm n ρ) f ∧
  (Observes surface c ((x.withTau τ ρ).withNorm n ρ) (XR.fin l) ∨ ObservesRow 1 c ((x.withTau τ ρ).withNorm n ρ) (XR.fin l))

theorem VolumeObs.val {c : Cfg} {x : Site} {τ ω p l : ℝ} (h : VolumeObs c x τ ω p l) (hx : x.Lit) (ht : 0 ≤ τ) :
    x.inUnits c.sig0 c.dB ((1 - x.bsf) * x.I0 * (x.mu0 / (x.mu0 + x.muEx)) * p * (ω * (1 - x.atten τ))) = XR.fin l := by
  obtain ⟨ρ, hp, h⟩ := h
  have := C19_volume (h.imp id fun h => ⟨h, ht⟩) hp hx.mu0.ne' hx.muEx.ne' (add_pos hx.mu0 hx.muEx).ne' fun _ => hx.I0.ne'
  rw [this]
  show x.inUnits _ _ _ = x.inUnits _ _ _
  congr 1
  show _ = (1 - x.bsf) * x.I0 * ω * (x.mu0 / (x.mu0 + x.muEx)) * (1 - Real.exp (-(τ / x.mu0)) * Real.exp (-(τ / x.muEx))) * p
  unfold Site.atten
  ring

theorem SurfaceObs.val {c : Cfg} {x : Site} {τ n f l : ℝ} (h : SurfaceObs c x τ n f l) (hx : x.Lit) (hb : x.bsf = 0) :
    x.inUnits c.sig0 c.dB (x.I0 * x.mu0 * f * (n * x.atten τ)) = XR.fin l := by
  obtain ⟨ρ, hp, h⟩ := h
  have := C18_surface h hp hx.mu0.ne' hx.muEx.ne' fun _ => hx.I0.ne'
  rw [this]
  show x.inUnits _ _ _ = x.inUnits _ _ _
  congr 1
  show _ = n * ((1 - x.bsf) * Real.exp (-(τ / x.mu0) - τ / x.muEx) + x.bsf) * x.I0 * x.mu0 * f
  rw [hb, sub_eq_add_neg (-(τ / x.mu0)), Real.exp_add]
  unfold Site.atten
  ring

/-- Two geometries with different path lengths: the volume contributions determine tau and omega. -/
theorem C76_volume_pair {c : Cfg} {x y : Site} (hx : x.Lit) (hy : y.Lit) (hb : x.bsf < 1) (hb' : y.bsf < 1)
    (hxy : 1 / Real.cos x.t0 + 1 / Real.cos x.tex ≠ 1 / Real.cos y.t0 + 1 / Real.cos y.tex) {p q : ℝ} (hp : p ≠ 0) (hq : q ≠ 0)
    {τ τ' ω ω' : ℝ} (ht : 0 < τ) (ht' : 0 < τ') (hω : ω ≠ 0) {l m : ℝ}
    (h1 : VolumeObs c x τ ω p l) (h2 : VolumeObs c y τ ω q m)
    (h1' : VolumeObs c x τ' ω' p l) (h2' : VolumeObs c y τ' ω' q m) : τ = τ' ∧ ω = ω' := by
  have key : ∀ {x : Site} {p l : ℝ}, x.Lit → x.bsf < 1 → p ≠ 0 → VolumeObs c x τ ω p l → VolumeObs c x τ' ω' p l →
      ω * (1 - Real.exp (-(x.airmass * τ))) = ω' * (1 - Real.exp (-(x.airmass * τ'))) := by
    intro x p l hx hb hp h h'
    have := inUnits_eq (fun _ => Site.signorm_pos' hx.mu0 hx.I0) (h.val hx ht.le) (h'.val hx ht'.le)
    rw [Site.atten_eq, Site.atten_eq] at this
    refine mul_left_cancel₀ (mul_ne_zero ?_ hp) this
    have := hx.mu0; have := hx.muEx; have := hx.I0
    have : 0 < 1 - x.bsf := by linarith
    positivity
  have pos : ∀ {x : Site}, x.Lit → 0 < x.airmass := fun hx => by
    have := hx.mu0; have := hx.muEx
    unfold Site.airmass
    positivity
  exact exp_pair (pos hx) (pos hy) hxy ht ht' hω (key hx hb hp h1 h1') (key hy hb' hq h2 h2')

/-- Two geometries with different path lengths: the surface contributions (no bare soil fraction)
determine tau and NormBRDF. -/
theorem C76_surface_pair {c : Cfg} {x y : Site} (hx : x.Lit) (hy : y.Lit) (hb : x.bsf = 0) (hb' : y.bsf = 0)
    (hxy : 1 / Real.cos x.t0 + 1 / Real.cos x.tex ≠ 1 / Real.cos y.t0 + 1 / Real.cos y.tex) {f e : ℝ} (hf : f ≠ 0) (he : e ≠ 0)
    {τ τ' n n' : ℝ} (hn : n ≠ 0) {l m : ℝ}
    (h1 : SurfaceObs c x τ n f l) (h2 : SurfaceObs c y τ n e m)
    (h1' : SurfaceObs c x τ' n' f l) (h2' : SurfaceObs c y τ' n' e m) : τ = τ' ∧ n = n' := by
  have key : ∀ {x : Site} {f l : ℝ}, x.Lit → x.bsf = 0 → f ≠ 0 → SurfaceObs c x τ n f l → SurfaceObs c x τ' n' f l →
      n * Real.exp (-(x.airmass * τ)) = n' * Real.exp (-(x.airmass * τ')) := by
    intro x f l hx hb hf h h'
    have := inUnits_eq (fun _ => Site.signorm_pos' hx.mu0 hx.I0) (h.val hx hb) (h'.val hx hb)
    rw [Site.atten_eq, Site.atten_eq] at this
    exact mul_left_cancel₀ (mul_ne_zero (mul_ne_zero hx.I0.ne' hx.mu0.ne') hf) this
  have k1 := key hx hb hf h1 h1'
  have k2 := key hy hb' he h2 h2'
  have hxy' : x.airmass ≠ y.airmass := hxy
  -- n' = n exp(-a (τ - τ')) for both path lengths
  have f1 : ∀ a : ℝ, n * Real.exp (-(a * τ)) = n' * Real.exp (-(a * τ')) → n' = n * Real.exp (-(a * (τ - τ'))) := fun a h => by
    have : n' = n * Real.exp (-(a * τ)) * Real.exp (a * τ') := by
      rw [h, mul_assoc, ← Real.exp_add]; simp
    rw [this, mul_assoc, ← Real.exp_add]; congr 2; ring
  have e1 := f1 _ k1
  have e2 := f1 _ k2
  have e3 := Real.exp_injective (mul_left_cancel₀ hn (e1.symm.trans e2))
  have e4 : (x.airmass - y.airmass) * (τ - τ') = 0 := by linarith
  have e5 : τ = τ' := by
    rcases mul_eq_zero.mp e4 with h | h
    · exact absurd (sub_eq_zero.mp h) hxy'
    · exact sub_eq_zero.mp h
  refine ⟨e5, ?_⟩
  rw [e1, e5]; simp

/-! ### examples -/

theorem demo_lit {I : ℝ} (hI : 0 < I) (p τ ω N β : ℝ) : (demoSite I (Real.pi / 3) p τ ω N β).Lit := by
  obtain ⟨h1, h2⟩ := demo_cos I p τ ω N β
  exact ⟨by rw [h1]; norm_num, by rw [h2]; norm_num, hI⟩

/-- The first row of `calc()` of the example objects, in dB. -/
theorem demo_total {τ ω N β : ℝ} (hτ : 0 ≤ τ) (hω : 0 ≤ ω) (hN : 0 < N) (hβ : 0 ≤ β) (hβ' : β ≤ 1) :
    ∃ l, ObservesRow 0 (demoCfg exV exS false true true) (demoSite 1 (Real.pi / 3) 0 τ ω N β) (XR.fin l) := by
  obtain ⟨w, arr, w', o, hr, h, hs, ho, hc, hx⟩ := demo_rows .sympy exV_plain exS_plain true true 1
      (Real.pi / 3) 0 τ ω N β
  have hl := demo_lit one_pos 0 τ ω N β
  have hobs : ObservesRow 0 (demoCfg exV exS false true true) (demoSite 1 (Real.pi / 3) 0 τ ω N β) (arr.get ([0] ++ [0])) :=
    ⟨w, 0, [], arr, w', [0], hr, h, by rw [hs]; simp [Arr.Valid], rfl, hx, o, ho, hc⟩
  have e := hobs.total_val rfl (exS_value _) (exV_value _) (hl.regular _) hτ
  rw [Site.total_eq] at e
  have hpos : 0 < (demoSite 1 (Real.pi / 3) 0 τ ω N β).I0 * (demoSite 1 (Real.pi / 3) 0 τ ω N β).mu0 *
      ((demoSite 1 (Real.pi / 3) 0 τ ω N β).NormBRDF * (1 / Real.pi) * ((1 - (demoSite 1 (Real.pi / 3) 0 τ ω N β).bsf)
        * (demoSite 1 (Real.pi / 3) 0 τ ω N β).atten (demoSite 1 (Real.pi / 3) 0 τ ω N β).tau + (demoSite 1 (Real.pi / 3) 0 τ ω N β).bsf)
      + (1 - (demoSite 1 (Real.pi / 3) 0 τ ω N β).bsf) * (demoSite 1 (Real.pi / 3) 0 τ ω N β).omega
        * Phase.rayleigh (Phase.cosTheta (-1) 1 1 (demoSite 1 (Real.pi / 3) 0 τ ω N β).t0 (demoSite 1 (Real.pi / 3) 0 τ ω N β).tex
          (demoSite 1 (Real.pi / 3) 0 τ ω N β).p0 (demoSite 1 (Real.pi / 3) 0 τ ω N β).pex)
        * (1 - (demoSite 1 (Real.pi / 3) 0 τ ω N β).atten (demoSite 1 (Real.pi / 3) 0 τ ω N β).tau)
        / ((demoSite 1 (Real.pi / 3) 0 τ ω N β).mu0 + (demoSite 1 (Real.pi / 3) 0 τ ω N β).muEx)) := by
    have a1 : (demoSite 1 (Real.pi / 3) 0 τ ω N β).atten (demoSite 1 (Real.pi / 3) 0 τ ω N β).tau ≤ 1 := by
      rcases hτ.eq_or_lt with h | h
      · show (demoSite 1 (Real.pi / 3) 0 τ ω N β).atten τ ≤ 1
        rw [← h]; simp [Site.atten]
      · exact (Site.atten_lt_one hl.mu0 hl.muEx h).le
    have a0 := (demoSite 1 (Real.pi / 3) 0 τ ω N β).atten_pos (demoSite 1 (Real.pi / 3) 0 τ ω N β).tau
    generalize (demoSite 1 (Real.pi / 3) 0 τ ω N β).atten (demoSite 1 (Real.pi / 3) 0 τ ω N β).tau = E at a0 a1
    have m0 := hl.mu0; have m1 := hl.muEx; have i0 := hl.I0
    have hr : 0 ≤ Phase.rayleigh (Phase.cosTheta (-1) 1 1 (demoSite 1 (Real.pi / 3) 0 τ ω N β).t0
        (demoSite 1 (Real.pi / 3) 0 τ ω N β).tex
          (demoSite 1 (Real.pi / 3) 0 τ ω N β).p0 (demoSite 1 (Real.pi / 3) 0 τ ω N β).pex) := by
      unfold Phase.rayleigh; positivity
    have b0 : 0 < (1 - (demoSite 1 (Real.pi / 3) 0 τ ω N β).bsf) * E + (demoSite 1 (Real.pi / 3) 0 τ ω N β).bsf := by
      show 0 < (1 - β) * E + β
      rcases hβ'.eq_or_lt with h2 | h2
      · rw [h2]; norm_num
      · have := mul_pos (sub_pos.mpr h2) a0; linarith
    have b1 : 0 ≤ 1 - (demoSite 1 (Real.pi / 3) 0 τ ω N β).bsf := by show 0 ≤ 1 - β; linarith
    have n0 : 0 < (demoSite 1 (Real.pi / 3) 0 τ ω N β).NormBRDF := hN
    have w0 : 0 ≤ (demoSite 1 (Real.pi / 3) 0 τ ω N β).omega := hω
    have e1 : 0 ≤ 1 - E := by linarith
    have hπ := Real.pi_pos
    positivity
  have sp := Site.signorm_pos' hl.mu0 hl.I0
  have : ∀ v : ℝ, 0 < v → ∃ l, (demoSite 1 (Real.pi / 3) 0 τ ω N β).inUnits true true v = XR.fin l := fun v hv =>
    ⟨_, if_pos (mul_pos hv sp)⟩
  obtain ⟨l, hl⟩ := this _ hpos
  rw [e.trans hl] at hobs
  exact ⟨l, hobs⟩

/-- Totals in dB for two values of omega. -/
example : ∃ l l', ObservesRow 0 (demoCfg exV exS false true true) (demoSite 1 (Real.pi / 3) 0 1 (1/4) 1 0) (XR.fin l) ∧
    ObservesRow 0 (demoCfg exV exS false true true) (demoSite 1 (Real.pi / 3) 0 1 (1/2) 1 0) (XR.fin l') ∧ l < l' := by
  obtain ⟨l, h⟩ := demo_total (τ := 1) (ω := 1/4) (N := 1) (β := 0) (by norm_num) (by norm_num) (by norm_num) (by norm_num) (by norm_num)
  obtain ⟨l', h'⟩ := demo_total (τ := 1) (ω := 1/2) (N := 1) (β := 0) (by norm_num) (by norm_num) (by norm_num) (by norm_num) (by norm_num)
  exact ⟨l, l', h, h', (C76_omega (x := demoSite 1 (Real.pi / 3) 0 1 (1/4) 1 0) (ω := 1/4) (ω' := 1/2)
    (demo_lit one_pos _ _ _ _ _) rfl (show (0:ℝ) < 1 by norm_num) (show (0:ℝ) < 1 by norm_num)
    (by unfold Phase.rayleigh; positivity) (exS_value _) (exV_value _) (exS_value _) (exV_value _) h h').1.mpr (by norm_num)⟩

/-- Totals in dB for two values of NormBRDF. -/
example : ∃ l l', ObservesRow 0 (demoCfg exV exS false true true) (demoSite 1 (Real.pi / 3) 0 1 (1/4) 1 (1/8)) (XR.fin l) ∧
    ObservesRow 0 (demoCfg exV exS false true true) (demoSite 1 (Real.pi / 3) 0 1 (1/4) 2 (1/8)) (XR.fin l') ∧ l < l' := by
  obtain ⟨l, h⟩ := demo_total (τ := 1) (ω := 1/4) (N := 1) (β := 1/8) (by norm_num) (by norm_num) (by norm_num) (by norm_num) (by norm_num)
  obtain ⟨l', h'⟩ := demo_total (τ := 1) (ω := 1/4) (N := 2) (β := 1/8) (by norm_num) (by norm_num) (by norm_num) (by norm_num) (by norm_num)
  exact ⟨l, l', h, h', (C76_norm (x := demoSite 1 (Real.pi / 3) 0 1 (1/4) 1 (1/8)) (n := 1) (n' := 2)
    (demo_lit one_pos _ _ _ _ _) rfl (show (0:ℝ) ≤ 1/8 by norm_num) (show (1/8:ℝ) ≤ 1 by norm_num) (show (0:ℝ) ≤ 1 by norm_num)
    (show 0 < 1 / Real.pi by positivity) (exS_value _) (exV_value _) (exS_value _) (exV_value _) h h').1.mpr (by norm_num)⟩

/-- The value of the Rayleigh function in the backscattering direction. -/
theorem demo_rayleigh (τ ω N β : ℝ) : Phase.rayleigh (Phase.cosTheta (-1) 1 1 (demoSite 1 (Real.pi / 3) 0 τ ω N β).t0
    (demoSite 1 (Real.pi / 3) 0 τ ω N β).tex (demoSite 1 (Real.pi / 3) 0 τ ω N β).p0 (demoSite 1 (Real.pi / 3) 0 τ ω N β).pex)
    = 3 / (8 * Real.pi) := by
  have h2 : Real.sin (Real.pi / 3) * Real.sin (Real.pi / 3) = 3 / 4 := by
    have := Real.sin_sq_add_cos_sq (Real.pi / 3)
    rw [Real.cos_pi_div_three] at this
    linarith
  have : Phase.cosTheta (-1) 1 1 (demoSite 1 (Real.pi / 3) 0 τ ω N β).t0
    (demoSite 1 (Real.pi / 3) 0 τ ω N β).tex (demoSite 1 (Real.pi / 3) 0 τ ω N β).p0 (demoSite 1 (Real.pi / 3) 0 τ ω N β).pex = -1 := by
    simp only [demoSite, Phase.cosTheta]
    simp
    nlinarith [Real.sq_sqrt (show (0 : ℝ) ≤ 3 by norm_num)]
  rw [this]
  unfold Phase.rayleigh
  field_simp
  norm_num

/-- All three cases of tau occur: the total grows, decreases, does not change. -/
example : ∃ l1 l2 m1 m2 k1 k2,
    (ObservesRow 0 (demoCfg exV exS false true true) (demoSite 1 (Real.pi / 3) 0 1 (1/2) (1/16) 0) (XR.fin l1) ∧
      ObservesRow 0 (demoCfg exV exS false true true) (demoSite 1 (Real.pi / 3) 0 2 (1/2) (1/16) 0) (XR.fin l2) ∧ l1 < l2) ∧
    (ObservesRow 0 (demoCfg exV exS false true true) (demoSite 1 (Real.pi / 3) 0 1 (1/2) 1 0) (XR.fin m1) ∧
      ObservesRow 0 (demoCfg exV exS false true true) (demoSite 1 (Real.pi / 3) 0 2 (1/2) 1 0) (XR.fin m2) ∧ m2 < m1) ∧
    (ObservesRow 0 (demoCfg exV exS false true true) (demoSite 1 (Real.pi / 3) 0 1 (1/2) (3/16) 0) (XR.fin k1) ∧
      ObservesRow 0 (demoCfg exV exS false true true) (demoSite 1 (Real.pi / 3) 0 2 (1/2) (3/16) 0) (XR.fin k2) ∧ k1 = k2) := by
  have hπ := Real.pi_pos
  have key : ∀ N : ℝ, 0 < N → ∃ l l', ObservesRow 0 (demoCfg exV exS false true true) (demoSite 1 (Real.pi / 3) 0 1 (1/2) N 0) (XR.fin l) ∧
      ObservesRow 0 (demoCfg exV exS false true true) (demoSite 1 (Real.pi / 3) 0 2 (1/2) N 0) (XR.fin l') ∧
      (N < 3/16 → l < l') ∧ (3/16 < N → l' < l) ∧ (N = 3/16 → l = l') := by
    intro N hN
    obtain ⟨l, h⟩ := demo_total (τ := 1) (ω := 1/2) (N := N) (β := 0) (by norm_num) (by norm_num) hN (by norm_num) (by norm_num)
    obtain ⟨l', h'⟩ := demo_total (τ := 2) (ω := 1/2) (N := N) (β := 0) (by norm_num) (by norm_num) hN (by norm_num) (by norm_num)
    have hC := C76_tau (x := demoSite 1 (Real.pi / 3) 0 1 (1/2) N 0) (τ := 1) (τ' := 2)
      (demo_lit one_pos _ _ _ _ _) rfl (show (0:ℝ) < 1 by norm_num) (by norm_num) (by norm_num)
      (exS_value _) (exV_value _) (exS_value _) (exV_value _) h h'
    have e : (demoSite 1 (Real.pi / 3) 0 1 (1/2) N 0).omega * (3 / (8 * Real.pi))
        / (Real.cos (demoSite 1 (Real.pi / 3) 0 1 (1/2) N 0).t0 + Real.cos (demoSite 1 (Real.pi / 3) 0 1 (1/2) N 0).tex)
        = 3 / 16 * (1 / Real.pi) := by
      show 1/2 * (3 / (8 * Real.pi)) / (Real.cos (Real.pi / 3) + Real.cos (Real.pi / 3)) = _
      rw [Real.cos_pi_div_three]
      field_simp
      norm_num
    have hv := demo_rayleigh 1 (1/2) N 0
    have e' := e
    rw [← hv] at e'
    obtain ⟨c1, c2, c3⟩ := hC
    have hi : 0 < 1 / Real.pi := by positivity
    refine ⟨l, l', h, h', fun hl => (c1 ?_).1.mpr (by norm_num), fun hl => (c2 ?_).1.mpr (by norm_num), fun hl => c3 ?_⟩
    · refine lt_of_lt_of_eq ?_ e'.symm
      exact mul_lt_mul_of_pos_right hl hi
    · refine lt_of_eq_of_lt e' ?_
      exact mul_lt_mul_of_pos_right hl hi
    · refine Eq.trans ?_ e'.symm
      exact congrArg (· * _) hl
  obtain ⟨l1, l2, a1, a2, a3, -, -⟩ := key (1/16) (by norm_num)
  obtain ⟨m1, m2, b1, b2, -, b3, -⟩ := key 1 (by norm_num)
  obtain ⟨k1, k2, c1, c2, -, -, c3⟩ := key (3/16) (by norm_num)
  exact ⟨l1, l2, m1, m2, k1, k2, ⟨a1, a2, a3 (by norm_num)⟩, ⟨b1, b2, b3 (by norm_num)⟩, ⟨c1, c2, c3 rfl⟩⟩

/-- Totals in dB for two bare soil fractions. -/
example : ∃ l l', ObservesRow 0 (demoCfg exV exS false true true) (demoSite 1 (Real.pi / 3) 0 1 (1/2) 1 0) (XR.fin l) ∧
    ObservesRow 0 (demoCfg exV exS false true true) (demoSite 1 (Real.pi / 3) 0 1 (1/2) 1 (1/4)) (XR.fin l') ∧ l < l' := by
  obtain ⟨l, h⟩ := demo_total (τ := 1) (ω := 1/2) (N := 1) (β := 0) (by norm_num) (by norm_num) (by norm_num) (by norm_num) (by norm_num)
  obtain ⟨l', h'⟩ := demo_total (τ := 1) (ω := 1/2) (N := 1) (β := 1/4) (by norm_num) (by norm_num) (by norm_num) (by norm_num) (by norm_num)
  refine ⟨l, l', h, h', ((C76_bsf (x := demoSite 1 (Real.pi / 3) 0 1 (1/2) 1 0) (β := 0) (β' := 1/4)
    (demo_lit one_pos _ _ _ _ _) rfl (show (0:ℝ) < 1 by norm_num)
    (exS_value _) (exV_value _) (exS_value _) (exV_value _) h h').1 ?_).1.mpr (by norm_num)⟩
  have hv := demo_rayleigh 1 (1/2) 1 0
  have hπ := Real.pi_pos
  refine lt_of_eq_of_lt (congrArg (fun z => 1/2 * z / (Real.cos (Real.pi / 3) + Real.cos (Real.pi / 3))) hv) ?_
  show _ < 1 * (1 / Real.pi)
  rw [Real.cos_pi_div_three]
  field_simp
  norm_num

/-- Volume values of the example objects, linear units. -/
theorem demo_volumeObs (t : ℝ) {τ ω : ℝ} (ht : 0 ≤ τ) (hl : (demoSite 1 t 0 τ ω 0 0).Lit) (x : Site) (hx : x = demoSite 1 t 0 1 1 0 0) :
    ∃ p, p = Phase.rayleigh (Phase.cosTheta (-1) 1 1 t t 0 (0 + Real.pi)) ∧
      VolumeObs (demoCfg exV exS false false false) x τ ω p (x.mu0 / (x.mu0 + x.muEx) * p * (ω * (1 - x.atten τ))) := by
  subst hx
  obtain ⟨r, hr⟩ := demo_volume exV_plain exS_plain false false false 1 t 0 τ ω 0 0
  refine ⟨_, rfl, (demoSite 1 t 0 τ ω 0 0).ρ, exV_value _, .inl ?_⟩
  have e := C19_volume (.inl hr) (exV_value _) hl.mu0.ne' hl.muEx.ne' (add_pos hl.mu0 hl.muEx).ne' fun _ => hl.I0.ne'
  have e2 : r = XR.fin ((demoSite 1 t 0 1 1 0 0).mu0 / ((demoSite 1 t 0 1 1 0 0).mu0 + (demoSite 1 t 0 1 1 0 0).muEx)
      * Phase.rayleigh (Phase.cosTheta (-1) 1 1 t t 0 (0 + Real.pi)) * (ω * (1 - (demoSite 1 t 0 1 1 0 0).atten τ))) := by
    rw [e]
    show XR.fin ((1 - 0) * 1 * ω * (Real.cos t / (Real.cos t + Real.cos t)) * (1 - Real.exp (-(τ / Real.cos t)) * Real.exp (-(τ / Real.cos t)))
      * Phase.rayleigh (Phase.cosTheta (-1) 1 1 t t 0 (0 + Real.pi))) = XR.fin (Real.cos t / (Real.cos t + Real.cos t)
        * Phase.rayleigh (Phase.cosTheta (-1) 1 1 t t 0 (0 + Real.pi)) * (ω * (1 - Real.exp (-(τ / Real.cos t)) * Real.exp (-(τ / Real.cos t)))))
    congr 1
    ring
  exact e2 ▸ hr

/-- One geometry does not determine tau and omega: two different pairs (both physically meaningful) with
the same volume contribution. -/
theorem C76_single_counterexample : ∃ (c : Cfg) (x : Site) (τ τ' ω ω' p l : ℝ), x.Lit ∧ x.bsf < 1 ∧ p ≠ 0 ∧ 0 < τ ∧ 0 < τ' ∧
    0 < ω ∧ ω < 1 ∧ 0 < ω' ∧ ω' < 1 ∧ VolumeObs c x τ ω p l ∧ VolumeObs c x τ' ω' p l ∧ τ ≠ τ' := by
  set x := demoSite 1 (Real.pi / 3) 0 1 1 0 0 with hx
  have hl := demo_lit one_pos 0 1 1 0 0
  have a1 : x.atten 2 < x.atten 1 := (Site.atten_lt hl.mu0 hl.muEx).mpr (by norm_num)
  have a2 : x.atten 1 < 1 := Site.atten_lt_one hl.mu0 hl.muEx one_pos
  have hk : 0 < (1 - x.atten 1) / (1 - x.atten 2) := div_pos (by linarith) (by linarith)
  have hk1 : (1 - x.atten 1) / (1 - x.atten 2) < 1 := (div_lt_one (by linarith)).mpr (by linarith)
  obtain ⟨p, hp, h1⟩ := demo_volumeObs (Real.pi / 3) (τ := 1) (ω := 1/2) (by norm_num) (demo_lit one_pos _ _ _ _ _) x hx
  obtain ⟨p', hp', h2⟩ := demo_volumeObs (Real.pi / 3) (τ := 2) (ω := 1/2 * ((1 - x.atten 1) / (1 - x.atten 2))) (by norm_num)
    (demo_lit one_pos _ _ _ _ _) x hx
  obtain rfl : p' = p := hp'.trans hp.symm
  refine ⟨_, x, 1, 2, 1/2, 1/2 * ((1 - x.atten 1) / (1 - x.atten 2)), p', _, hl, show (0 : ℝ) < 1 by norm_num, ?_,
    by norm_num, by norm_num, by norm_num, by norm_num, mul_pos (by norm_num) hk, by linarith, h1, ?_, by norm_num⟩
  · rw [hp]
    unfold Phase.rayleigh
    positivity
  · have h0 : 1 - x.atten 2 ≠ 0 := by linarith
    have e : 1/2 * ((1 - x.atten 1) / (1 - x.atten 2)) * (1 - x.atten 2) = 1/2 * (1 - x.atten 1) := by field_simp
    rw [e] at h2
    exact h2

/-- Two geometries. -/
example : ∃ (c : Cfg) (x y : Site) (p q l m : ℝ), x.Lit ∧ y.Lit ∧ x.bsf < 1 ∧ y.bsf < 1 ∧ p ≠ 0 ∧ q ≠ 0 ∧
    1 / Real.cos x.t0 + 1 / Real.cos x.tex ≠ 1 / Real.cos y.t0 + 1 / Real.cos y.tex ∧
    VolumeObs c x 1 (1/2) p l ∧ VolumeObs c y 1 (1/2) q m := by
  have hl := demo_lit one_pos 0 1 1 0 0
  have hl0 : ∀ ω, (demoSite 1 0 0 1 ω 0 0).Lit := fun ω =>
    ⟨by simp [Site.mu0, demoSite], by simp [Site.muEx, demoSite], by simp [demoSite]⟩
  obtain ⟨p, hp, h1⟩ := demo_volumeObs (Real.pi / 3) (τ := 1) (ω := 1/2) (by norm_num) (demo_lit one_pos _ _ _ _ _) _ rfl
  obtain ⟨q, hq, h2⟩ := demo_volumeObs 0 (τ := 1) (ω := 1/2) (by norm_num) (hl0 _) _ rfl
  refine ⟨_, _, _, p, q, _, _, hl, hl0 1, show (0 : ℝ) < 1 by norm_num, show (0 : ℝ) < 1 by norm_num, ?_, ?_, ?_, h1, h2⟩
  · rw [hp]; unfold Phase.rayleigh; positivity
  · rw [hq]; unfold Phase.rayleigh; positivity
  · show 1 / Real.cos (Real.pi / 3) + 1 / Real.cos (Real.pi / 3) ≠ 1 / Real.cos 0 + 1 / Real.cos 0
    rw [Real.cos_pi_div_three, Real.cos_zero]
    norm_num

/-- Surface values of the example objects, linear units. -/
theorem demo_surfaceObs (t : ℝ) {τ n : ℝ} (hl : (demoSite 1 t 0 τ 0 n 0).Lit) :
    ∃ l, SurfaceObs (demoCfg exV exS false false false) (demoSite 1 t 0 1 0 1 0) τ n (1 / Real.pi) l := by
  obtain ⟨r, hr⟩ := demo_surface exV_plain exS_plain false false false 1 t 0 τ 0 n 0
  have e := C18_surface (.inl hr) (exS_value _) hl.mu0.ne' hl.muEx.ne' fun _ => hl.I0.ne'
  rw [e] at hr
  exact ⟨_, (demoSite 1 t 0 τ 0 n 0).ρ, exS_value _, .inl hr⟩

example : ∃ (c : Cfg) (x y : Site) (f e l m : ℝ), x.Lit ∧ y.Lit ∧ x.bsf = 0 ∧ y.bsf = 0 ∧ f ≠ 0 ∧ e ≠ 0 ∧
    1 / Real.cos x.t0 + 1 / Real.cos x.tex ≠ 1 / Real.cos y.t0 + 1 / Real.cos y.tex ∧
    SurfaceObs c x 1 2 f l ∧ SurfaceObs c y 1 2 e m := by
  have hl0 : ∀ τ n, (demoSite 1 0 0 τ 0 n 0).Lit := fun τ n =>
    ⟨by simp [Site.mu0, demoSite], by simp [Site.muEx, demoSite], by simp [demoSite]⟩
  have hp : (1 / Real.pi) ≠ 0 := (one_div_pos.mpr Real.pi_pos).ne'
  obtain ⟨l, h1⟩ := demo_surfaceObs (Real.pi / 3) (τ := 1) (n := 2) (demo_lit one_pos _ _ _ _ _)
  obtain ⟨m, h2⟩ := demo_surfaceObs 0 (τ := 1) (n := 2) (hl0 _ _)
  refine ⟨_, _, _, _, _, l, m, demo_lit one_pos _ _ _ _ _, hl0 1 1, rfl, rfl, hp, hp, ?_, h1, h2⟩
  show 1 / Real.cos (Real.pi / 3) + 1 / Real.cos (Real.pi / 3) ≠ 1 / Real.cos 0 + 1 / Real.cos 0
  rw [Real.cos_pi_div_three, Real.cos_zero]
  norm_num

theorem iso_nonneg (q s d : Bool) (x : Site) : Cfg.NonnegAt ⟨isoV, isoS, q, s, d⟩ x := fun a b u v => by
  simp only [isoV_val, isoS_val]
  have := Real.pi_pos
  exact ⟨by positivity, by positivity, by positivity, by positivity⟩

theorem iso_same (q s d : Bool) (x y : Site) : SameScatter ⟨isoV, isoS, q, s, d⟩ x y := fun a b u v => by
  simp only [isoV_val, isoS_val, and_self]

/-- Totals with interaction term for two values of omega. -/
example : ∃ l l' : ℝ, ∃ ρ ρ', ObservesRowP 0 ⟨isoV, isoS, true, true, false⟩ ⟨false, []⟩
      ((witSite (Real.pi / 3) (Real.pi / 3) 0 1).withOmega (1/4) ρ) (XR.fin l) ∧
    ObservesRowP 0 ⟨isoV, isoS, true, true, false⟩ ⟨false, []⟩
      ((witSite (Real.pi / 3) (Real.pi / 3) 0 1).withOmega (1/2) ρ') (XR.fin l') ∧ l < l' := by
  have hπ := Real.pi_pos
  have ho : (witSite (Real.pi / 3) (Real.pi / 3) 0 1).Oblique :=
    witSite_oblique (by positivity) (by linarith) (by positivity) (by linarith)
  have hI : 0 < (witSite (Real.pi / 3) (Real.pi / 3) 0 1).I0 := by simp [witSite]
  have vV : ∀ y : Site, isoV.ValueAt y (1 / (4 * Real.pi)) := fun _ => rfl
  have vS : ∀ y : Site, isoS.ValueAt y (1 / Real.pi) := fun _ => rfl
  have key : ∀ ω : ℝ, ∃ l : ℝ, ∃ ρ, ObservesRowP 0 ⟨isoV, isoS, true, true, false⟩ ⟨false, []⟩
      ((witSite (Real.pi / 3) (Real.pi / 3) 0 1).withOmega ω ρ) (XR.fin l) := by
    intro ω
    have hr : ((witSite (Real.pi / 3) (Real.pi / 3) 0 1).withOmega ω
        fun s => if s = "tau" then 1 else if s = "omega" then ω else if s = "NormBRDF" then 1 else 0).Reports [] := by
      refine ⟨?_, ?_, ?_, ?_, by simp⟩ <;> simp [witSite, Site.withOmega]
    obtain ⟨r, h⟩ := scalar_total .sympy true true false hr isoV_plain isoS_plain
        (fun _ => iso_fnCoefs) (fun _ => ⟨0, isoV_ncoefs⟩) (fun _ => ⟨0, isoS_ncoefs⟩)
    obtain ⟨g, hg, e⟩ := h.total_val rfl (vS _) (vV _) isoV_ncoefs isoS_ncoefs
      (show ((witSite (Real.pi / 3) (Real.pi / 3) 0 1).withOmega ω _).Oblique from ⟨ho.mu0, ho.mu0', ho.muEx, ho.muEx', ho.tau⟩)
      (fun _ => hI.ne')
    rw [e] at h
    exact ⟨_, _, h⟩
  obtain ⟨l, ρ, h⟩ := key (1/4)
  obtain ⟨l', ρ', h'⟩ := key (1/2)
  exact ⟨l, l', ρ, ρ', h, h', (C76_omega_interaction ho hI rfl (by simp [witSite]) (by simp [witSite]) isoV_ncoefs isoS_ncoefs
    (by positivity) (iso_nonneg _ _ _ _) (iso_same _ _ _ _ _) (vS _) (vV _) (vS _) (vV _) h h').1.mpr (by norm_num)⟩

/-- Totals with interaction term for two values of NormBRDF. -/
example : ∃ l l' : ℝ, ∃ ρ ρ', ObservesRowP 0 ⟨isoV, isoS, true, true, false⟩ ⟨false, []⟩
      ((witSite (Real.pi / 3) (Real.pi / 3) 0 1).withNorm 1 ρ) (XR.fin l) ∧
    ObservesRowP 0 ⟨isoV, isoS, true, true, false⟩ ⟨false, []⟩
      ((witSite (Real.pi / 3) (Real.pi / 3) 0 1).withNorm 2 ρ') (XR.fin l') ∧ l < l' := by
  have hπ := Real.pi_pos
  have ho : (witSite (Real.pi / 3) (Real.pi / 3) 0 1).Oblique :=
    witSite_oblique (by positivity) (by linarith) (by positivity) (by linarith)
  have hI : 0 < (witSite (Real.pi / 3) (Real.pi / 3) 0 1).I0 := by simp [witSite]
  have vV : ∀ y : Site, isoV.ValueAt y (1 / (4 * Real.pi)) := fun _ => rfl
  have vS : ∀ y : Site, isoS.ValueAt y (1 / Real.pi) := fun _ => rfl
  have key : ∀ n : ℝ, ∃ l : ℝ, ∃ ρ, ObservesRowP 0 ⟨isoV, isoS, true, true, false⟩ ⟨false, []⟩
      ((witSite (Real.pi / 3) (Real.pi / 3) 0 1).withNorm n ρ) (XR.fin l) := by
    intro n
    have hr : ((witSite (Real.pi / 3) (Real.pi / 3) 0 1).withNorm n
        fun s => if s = "tau" then 1 else if s = "omega" then 1 / 2 else if s = "NormBRDF" then n else 0).Reports [] := by
      refine ⟨?_, ?_, ?_, ?_, by simp⟩ <;> simp [witSite, Site.withNorm]
    obtain ⟨r, h⟩ := scalar_total .sympy true true false hr isoV_plain isoS_plain
        (fun _ => iso_fnCoefs) (fun _ => ⟨0, isoV_ncoefs⟩) (fun _ => ⟨0, isoS_ncoefs⟩)
    obtain ⟨g, hg, e⟩ := h.total_val rfl (vS _) (vV _) isoV_ncoefs isoS_ncoefs
      (show ((witSite (Real.pi / 3) (Real.pi / 3) 0 1).withNorm n _).Oblique from ⟨ho.mu0, ho.mu0', ho.muEx, ho.muEx', ho.tau⟩)
      (fun _ => hI.ne')
    rw [e] at h
    exact ⟨_, _, h⟩
  obtain ⟨l, ρ, h⟩ := key 1
  obtain ⟨l', ρ', h'⟩ := key 2
  exact ⟨l, l', ρ, ρ', h, h', (C76_norm_interaction ho hI rfl (by simp [witSite]) (by simp [witSite]) (by simp [witSite])
    isoV_ncoefs isoS_ncoefs
    (by positivity) (iso_nonneg _ _ _ _) (iso_same _ _ _ _ _) (vS _) (vV _) (vS _) (vV _) h h').1.mpr (by norm_num)⟩

end

end RT1
