import Verif.Lemmas.JacL
import Verif.Spec.Jac
import Mathlib.Analysis.SpecialFunctions.Log.Deriv
import Mathlib.Analysis.SpecialFunctions.Log.Base
import Mathlib.Analysis.SpecialFunctions.ExpDeriv

/-! Values of the entries of `jacobian()` and derivatives of the documented formulas. -/

namespace RT1

noncomputable section
open Classical

/-! ### units -/

/-- The factor that the code uses. -/
def Site.codeNorm (x : Site) (sig0 dB : Bool) (v : ℝ) : ℝ :=
  if sig0 = true ∧ dB = false then 4 * Real.pi * x.mu0
  else if dB = true then 10 / (Real.log 10 * v) else 1

theorem Site.Positive.ne {x : Site} {s d : Bool} {v : ℝ} (h : x.Positive s d v) (hd : d = true) :
    v ≠ 0 := by
  intro h0
  have := h hd
  rw [h0] at this
  split_ifs at this <;> simp at this

theorem hasXDeriv_units {L : ℝ → ℝ} {L' t0 : ℝ} (hL : HasDerivAt L L' t0) {X : ℝ → Site}
    (hX : ∀ t, (X t).signorm = (X t0).signorm) {s d : Bool} (hp : (X t0).Positive s d (L t0)) :
    HasXDeriv (fun t => (X t).inUnits s d (L t)) (XR.fin (L' * (X t0).trueNorm s d (L t0))) t0 := by
  unfold Site.inUnits Site.trueNorm
  simp only [hX]
  have hS : ∃ S : ℝ, ∀ v : ℝ, (if s = true then v * (X t0).signorm else v) = v * S := by
    by_cases hs : s = true
    · exact ⟨_, fun v => by rw [if_pos hs]⟩
    · exact ⟨1, fun v => by rw [if_neg hs, mul_one]⟩
  by_cases hd : d = true
  · simp only [if_pos hd]
    have hpos := hp hd
    obtain ⟨S, hS⟩ := hS
    simp only [hS] at hpos ⊢
    have hLS : HasDerivAt (fun t => L t * S) (L' * S) t0 := hL.mul_const S
    refine ⟨fun t => 10 * Real.logb 10 (L t * S), _, ?_, ?_, rfl⟩
    · have : ∀ᶠ t in nhds t0, 0 < L t * S :=
        hLS.continuousAt.eventually (lt_mem_nhds hpos)
      filter_upwards [this] with t ht
      unfold dBValue
      rw [if_pos ht]
    · have h1 := (hLS.log hpos.ne').div_const (Real.log 10) |>.const_mul 10
      refine HasDerivAt.congr_deriv h1 ?_
      have hl : L t0 ≠ 0 := fun h => by rw [h] at hpos; simp at hpos
      have hS0 : S ≠ 0 := fun h => by rw [h] at hpos; simp at hpos
      have h10 : Real.log 10 ≠ 0 := (Real.log_pos (by norm_num)).ne'
      field_simp
  · simp only [if_neg hd]
    by_cases hs : s = true
    · simp only [if_pos hs]
      exact ⟨fun t => L t * (X t0).signorm, _, Filter.Eventually.of_forall fun _ => rfl,
        hL.mul_const _, rfl⟩
    · simp only [if_neg hs]
      exact ⟨L, _, Filter.Eventually.of_forall fun _ => rfl, hL, by rw [mul_one]⟩

theorem codeNorm_eq {x : Site} {s d : Bool} (v : ℝ) (h : s = true → d = false → x.I0 = 1) :
    x.codeNorm s d v = x.trueNorm s d v := by
  unfold Site.codeNorm Site.trueNorm
  cases s <;> cases d <;> simp
  have := h rfl rfl
  unfold Site.signorm
  rw [this, div_one]

theorem codeNorm_scaled {x : Site} {s d : Bool} (v : ℝ) (hs : s = true) (hd : d = false)
    (h : x.I0 ≠ 0) : x.codeNorm s d v = x.trueNorm s d v * x.I0 := by
  subst hs hd
  simp only [Site.codeNorm, Site.trueNorm, Site.signorm]
  simp
  field_simp

/-! ### derivatives of the formulas -/

/-- The attenuation on both paths. -/
def Site.att (x : Site) : ℝ := Real.exp (-(x.tau / x.mu0) - x.tau / x.muEx)

def Site.dVolTauR (x : Site) (p : ℝ) : ℝ :=
  (1 - x.bsf) * (x.I0 * x.omega * (x.mu0 / (x.mu0 + x.muEx)) *
    ((1 / x.mu0 + x.muEx) * x.att) * p)
def Site.dVolTauTrue (x : Site) (p : ℝ) : ℝ :=
  (1 - x.bsf) * (x.I0 * x.omega * (x.mu0 / (x.mu0 + x.muEx)) *
    ((1 / x.mu0 + 1 / x.muEx) * x.att) * p)
def Site.dSurfTauR (x : Site) (f : ℝ) : ℝ :=
  x.NormBRDF * (1 - x.bsf) * (x.I0 * (-1 / x.mu0 - 1 / x.muEx) * x.att * x.mu0 * f)
def Site.dVolOmegaR (x : Site) (p : ℝ) : ℝ :=
  (1 - x.bsf) * ((x.I0 * x.mu0 / (x.mu0 + x.muEx)) * (1 - x.att) * p)
def Site.dVolBsfR (x : Site) (p : ℝ) : ℝ :=
  -((x.I0 * x.omega * x.mu0 / (x.mu0 + x.muEx)) * (1 - x.att) * p)
def Site.dSurfNormR (x : Site) (f : ℝ) : ℝ :=
  (1 - x.bsf) * (x.att * (x.I0 * x.mu0 * f)) + x.bsf * (x.I0 * x.mu0 * f)
def Site.dSurfBsfR (x : Site) (f : ℝ) : ℝ :=
  x.NormBRDF * ((x.I0 * x.mu0 * f) - x.att * (x.I0 * x.mu0 * f))

theorem Site.volume_att (x : Site) (p : ℝ) : x.volume p =
    (1 - x.bsf) * x.I0 * x.omega * (x.mu0 / (x.mu0 + x.muEx)) * (1 - x.att) * p := by
  unfold Site.volume Site.att
  rw [← Real.exp_add, sub_eq_add_neg (-(x.tau / x.mu0))]

theorem Site.surface_att (x : Site) (f : ℝ) : x.surface f =
    x.NormBRDF * ((1 - x.bsf) * x.att + x.bsf) * x.I0 * x.mu0 * f := rfl

section
variable {b : Backend} {o : Obj} {idx : List ℕ} {x : Site} (h : FSite b o idx x) (h0 : x.mu0 ≠ 0)
  (h1 : x.muEx ≠ 0) (h2 : x.mu0 + x.muEx ≠ 0)
include h h0 h1 h2

theorem FSite.x_entries (f p : ℝ) :
    (XSite.of b o idx).dVolTau (XR.fin p) = XR.fin (x.dVolTauR p) ∧
    (XSite.of b o idx).dSurfTau (XR.fin f) = XR.fin (x.dSurfTauR f) ∧
    (XSite.of b o idx).dVolOmega (XR.fin p) = XR.fin (x.dVolOmegaR p) ∧
    (XSite.of b o idx).dVolBsf (XR.fin p) = XR.fin (x.dVolBsfR p) ∧
    (XSite.of b o idx).dSurfNorm (XR.fin f) = XR.fin (x.dSurfNormR f) ∧
    (XSite.of b o idx).dSurfBsf (XR.fin f) = XR.fin (x.dSurfBsfR f) := by
  have hm : (1 / x.muEx) ≠ 0 := one_div_ne_zero h1
  refine ⟨?_, ?_, ?_, ?_, ?_, ?_⟩
  · simp only [XSite.dVolTau, h.x_par, h.x_mu0, h.x_muEx, h.x_I0, XR.fin_mul, XR.fin_add,
      XR.fin_div _ _ h2, XR.fin_div _ _ h0, XR.fin_div _ _ h1, XR.fin_div _ _ hm, XR.fin_sub,
      XR.fin_neg, XR.exp_fin, Site.par, Site.dVolTauR, Site.att, one_div_one_div, neg_div]
  · simp only [XSite.dSurfTau, h.x_par, h.x_mu0, h.x_muEx, h.x_I0, XR.fin_mul,
      XR.fin_div _ _ h0, XR.fin_div _ _ h1, XR.fin_sub,
      XR.fin_neg, XR.exp_fin, Site.par, Site.dSurfTauR, Site.att, neg_div]
  · simp only [XSite.dVolOmega, h.x_par, h.x_mu0, h.x_muEx, h.x_I0, h.x_atten h0 h1, XR.fin_mul,
      XR.fin_add, XR.fin_div _ _ h2, XR.fin_sub, Site.par, Site.dVolOmegaR, Site.att]
  · simp only [XSite.dVolBsf, h.x_par, h.x_mu0, h.x_muEx, h.x_I0, h.x_atten h0 h1, XR.fin_mul,
      XR.fin_add, XR.fin_div _ _ h2, XR.fin_sub, XR.fin_neg, Site.par, Site.dVolBsfR, Site.att]
  · simp only [XSite.dSurfNorm, h.x_par, h.x_mu0, h.x_I0, h.x_atten h0 h1, XR.fin_mul,
      XR.fin_add, XR.fin_sub, Site.par, Site.dSurfNormR, Site.att]
  · simp only [XSite.dSurfBsf, h.x_par, h.x_mu0, h.x_I0, h.x_atten h0 h1, XR.fin_mul,
      XR.fin_sub, Site.par, Site.dSurfBsfR, Site.att, mul_one]

theorem FSite.x_norm (s d : Bool) (f p : ℝ) (hp : d = true → x.lin f p ≠ 0) :
    (XSite.of b o idx).norm s d (XR.fin f) (XR.fin p) = XR.fin (x.codeNorm s d (x.lin f p)) := by
  unfold XSite.norm Site.codeNorm
  by_cases c1 : s = true ∧ d = false
  · rw [if_pos c1, if_pos c1, h.x_mu0, XR.fin_mul]
  rw [if_neg c1, if_neg c1]
  by_cases c2 : d = true
  · rw [if_pos c2, if_pos c2, h.x_surface h0 h1, h.x_volume h0 h1 h2, XR.fin_add, XR.fin_mul]
    have hne : Real.log 10 * x.lin f p ≠ 0 :=
      mul_ne_zero (Real.log_pos (by norm_num)).ne' (hp c2)
    exact XR.fin_div _ _ hne
  · rw [if_neg c2, if_neg c2]

end

end

end RT1
