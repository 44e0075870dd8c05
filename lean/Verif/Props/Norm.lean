import Verif.Lemmas.NormL
import Verif.Props.Scatter

/-!
# Normalisation of the scattering functions
-/

namespace RT1

noncomputable section
open Classical

/-! ## C39: volume phase functions -/

/-- The predefined volume functions with default `a`: the values returned by `calc` integrate to 1 over
the sphere of exit directions, for every incidence direction and every `|t| < 1`. -/
theorem C39_normalised {te : Expr} {k : Kind}
    (hk : k = .volIsotropic ∨ k = .volRayleigh ∨ k = .volHG te ∨ k = .volHGRayleigh te) {nc : Option ℕ}
    {t0 p0 t : ℝ} {ρ : String → ℝ} (ht : ∀ tex pex, te.Is (Dirs.env ⟨t0, tex, p0, pex, ρ⟩) t) (ht1 : |t| < 1)
    {f : ℝ → ℝ → ℝ} (hf : ∀ tex pex, (Scatter.prim k volA nc).Returns ⟨t0, tex, p0, pex, ρ⟩ (XR.fin (f tex pex))) :
    sphereIntegral f = 1 := by
  have hv : k.IsVol := by rcases hk with rfl | rfl | rfl | rfl <;> trivial
  have hT : ∀ tex pex, k.TIs (Dirs.env ⟨t0, tex, p0, pex, ρ⟩) t := by
    intro tex pex
    rcases hk with rfl | rfl | rfl | rfl
    · trivial
    · trivial
    · exact ht tex pex
    · exact ht tex pex
  have hN : k.NadirOK (-1) t := by rcases hk with rfl | rfl | rfl | rfl <;> trivial
  have : f = fun tex pex => k.val (-1) t (Phase.cosTheta (-1) 1 1 t0 tex p0 pex) := by
    funext tex pex
    exact XR.fin.inj ((hf tex pex).prim (volA_is _) (hT tex pex)
      (hg_base_pos ht1 (Phase.cosTheta_abs_le (by simp) (by simp) (by simp) _ _ _ _)) hN)
  rw [this]
  exact k.vol_normalised hv ht1 t0 p0

/-- Free parameters of the volume functions do not occur in the directions. -/
theorem Dirs.env_num (r : ℝ) (x : Dirs) : (Expr.num r).Is x.env r := .num r

/-- The hypotheses hold for the symbol `t` given as parameter with value 0.3. -/
example (t0 p0 : ℝ) : ∃ f : ℝ → ℝ → ℝ, (∀ tex pex, (Expr.sym "t").Is (Dirs.env ⟨t0, tex, p0, pex, fun _ => 0.3⟩) 0.3) ∧
    ∀ tex pex, (Scatter.prim (.volHG (.sym "t")) volA (some 8)).Returns ⟨t0, tex, p0, pex, fun _ => 0.3⟩
      (XR.fin (f tex pex)) := by
  have h : ∀ tex pex, (Expr.sym "t").Is (Dirs.env ⟨t0, tex, p0, pex, fun _ => 0.3⟩) 0.3 := fun tex pex =>
    ⟨trivial, by simp [Expr.evalR, Dirs.env]⟩
  refine ⟨fun tex pex => (Kind.volHG (.sym "t")).val (-1) 0.3 (Phase.cosTheta (-1) 1 1 t0 tex p0 pex), h,
    fun tex pex => ?_⟩
  have hr := Scatter.returns_of (s := Scatter.prim (.volHG (.sym "t")) volA (some 8))
    ⟨t0, tex, p0, pex, fun _ => 0.3⟩ ["t"] (by
      intro n hn
      simp [Scatter.phase, Scatter.primPhase, Scatter.hgExpr, Scatter.angleExpr, volA, Expr.free] at hn
      aesop)
  have h1 : |(0.3 : ℝ)| < 1 := by rw [abs_of_pos] <;> norm_num
  rw [hr.prim (k := .volHG (.sym "t")) (volA_is _) (h tex pex)
    (hg_base_pos h1 (Phase.cosTheta_abs_le (by simp) (by simp) (by simp) _ _ _ _)) trivial] at hr
  exact hr

/-! ## C40: hemispherical reflectances -/

/-- surface.Isotropic: reflectance 1 for every incidence direction and every `a`. -/
theorem C40_isotropic {a : A3} {nc : Option ℕ} {t0 p0 : ℝ} {ρ : String → ℝ} {f : ℝ → ℝ → ℝ}
    (hf : ∀ tex pex, (Scatter.prim .srfIsotropic a nc).Returns ⟨t0, tex, p0, pex, ρ⟩ (XR.fin (f tex pex))) :
    hemReflectance f = 1 := by
  have : f = fun _ _ => 1 / Real.pi := by
    funext tex pex
    exact XR.fin.inj (hf tex pex).eval
  subst this
  unfold hemReflectance
  have h : ∀ θ, 1 / Real.pi * Real.cos θ * Real.sin θ = 1 / Real.pi * (Real.cos θ ^ 1 * Real.sin θ) := fun θ => by ring
  have hpi := Real.pi_ne_zero
  simp only [h, intervalIntegral.integral_const_mul, cos_pow_sin, intervalIntegral.integral_const, smul_eq_mul]
  push_cast
  field_simp
  norm_num

/-- CosineLobe(i) with default `a`: reflectance `2 / (i + 2)` at nadir. -/
theorem C40_cosineLobe {i : ℕ} {nc : Option ℕ} {p0 : ℝ} {ρ : String → ℝ} {f : ℝ → ℝ → ℝ}
    (hf : ∀ tex pex, (Scatter.prim (.srfCosineLobe i) srfA nc).Returns ⟨0, tex, p0, pex, ρ⟩ (XR.fin (f tex pex))) :
    hemReflectance f = 2 / (i + 2) := by
  have : f = fun tex _ => Phase.cosineLobe i (Real.cos tex) := by
    funext tex pex
    have := XR.fin.inj (((hf tex pex).eval).trans (cosineLobe_is (srfA_is _) i).evalX)
    rw [this]
    simp [Dirs.cosTheta, Phase.cosTheta]
  subst this
  unfold hemReflectance
  have h : ∫ θ in (0 : ℝ)..Real.pi / 2, Phase.cosineLobe i (Real.cos θ) * Real.cos θ * Real.sin θ =
      ∫ θ in (0 : ℝ)..Real.pi / 2, 1 / Real.pi * (Real.cos θ ^ (i + 1) * Real.sin θ) := by
    refine intervalIntegral.integral_congr fun θ hθ => ?_
    rw [Set.uIcc_of_le (by positivity)] at hθ
    have hc : 0 ≤ Real.cos θ := Real.cos_nonneg_of_neg_pi_div_two_le_of_le (by linarith [hθ.1, Real.pi_pos]) hθ.2
    simp only [Phase.cosineLobe, max_eq_left hc, pow_succ]
    ring
  have hpi := Real.pi_ne_zero
  have hi : (i : ℝ) + 2 ≠ 0 := by positivity
  simp only [h, intervalIntegral.integral_const_mul, cos_pow_sin, intervalIntegral.integral_const, smul_eq_mul]
  push_cast
  rw [show (i : ℝ) + 1 + 1 = i + 2 by ring]
  field_simp
  ring

/-- Both functions return values for all exit directions. -/
example (p0 : ℝ) (ρ : String → ℝ) :
    (∃ f : ℝ → ℝ → ℝ, (∀ tex pex, (Scatter.prim .srfIsotropic srfA none).Returns ⟨1, tex, p0, pex, ρ⟩
      (XR.fin (f tex pex))) ∧ hemReflectance f = 1) ∧
    ∃ f : ℝ → ℝ → ℝ, (∀ tex pex, (Scatter.prim (.srfCosineLobe 3) srfA (some 5)).Returns ⟨0, tex, p0, pex, ρ⟩
      (XR.fin (f tex pex))) ∧ hemReflectance f = 2 / 5 := by
  constructor
  · have h : ∀ tex pex, (Scatter.prim .srfIsotropic srfA none).Returns ⟨1, tex, p0, pex, ρ⟩
        (XR.fin (1 / Real.pi)) := fun tex pex =>
      Scatter.returns_of (s := Scatter.prim .srfIsotropic srfA none) ⟨1, tex, p0, pex, ρ⟩ [] (by
        intro n hn
        simp [Scatter.phase, Scatter.primPhase, Expr.free] at hn)
    exact ⟨_, h, C40_isotropic h⟩
  · have h : ∀ tex pex, (Scatter.prim (.srfCosineLobe 3) srfA (some 5)).Returns ⟨0, tex, p0, pex, ρ⟩
        (XR.fin (Phase.cosineLobe 3 (Dirs.cosTheta ⟨0, tex, p0, pex, ρ⟩ 1 1 1))) := fun tex pex => by
      have hr := Scatter.returns_of (s := Scatter.prim (.srfCosineLobe 3) srfA (some 5)) ⟨0, tex, p0, pex, ρ⟩ [] (by
        intro n hn
        simp [Scatter.phase, Scatter.primPhase, Scatter.angleExpr, srfA, Expr.free] at hn
        aesop)
      have e := (cosineLobe_is (srfA_is (Dirs.env ⟨0, tex, p0, pex, ρ⟩)) 3).evalX
      have e' : (Scatter.prim (.srfCosineLobe 3) srfA (some 5)).phase.evalX
          (fun n => XR.fin (Dirs.env ⟨0, tex, p0, pex, ρ⟩ n)) = _ := e
      rw [e'] at hr
      exact hr
    refine ⟨_, h, ?_⟩
    rw [C40_cosineLobe h]
    norm_num

/-- HG_nadirnorm: reflectance 1 at nadir, for non-zero `|t| < 1` and non-zero `|a[0]| ≤ 1`. For `t = 0`
or `a[0] = 0` the code returns nan (`C44_nadirnorm_nan`). -/
theorem C40_nadirnorm_partial {te : Expr} {a : A3} {nc : Option ℕ} {p0 a0 a1 a2 t : ℝ} {ρ : String → ℝ}
    (ha : ∀ tex pex, a.Is (Dirs.env ⟨0, tex, p0, pex, ρ⟩) a0 a1 a2)
    (ht : ∀ tex pex, te.Is (Dirs.env ⟨0, tex, p0, pex, ρ⟩) t)
    (h0 : a0 ≠ 0) (h1 : |a0| ≤ 1) (ht0 : t ≠ 0) (ht1 : |t| < 1) {f : ℝ → ℝ → ℝ}
    (hf : ∀ tex pex, (Scatter.prim (.srfHGnadirnorm te) a nc).Returns ⟨0, tex, p0, pex, ρ⟩ (XR.fin (f tex pex))) :
    hemReflectance f = 1 := by
  have hb : ∀ θ, |a0 * Real.cos θ| ≤ 1 := fun θ => by
    rw [abs_mul]; exact mul_le_one₀ h1 (abs_nonneg _) (Real.abs_cos_le_one θ)
  have hn := Kind.nadirOK (k := .srfHGnadirnorm te) h1 ht1 (fun _ => ⟨h0, ht0⟩)
  have : f = fun tex _ => 1 / Phase.hgNadir a0 t * Phase.hg Real.pi t (a0 * Real.cos tex) := by
    funext tex pex
    have hc : (⟨0, tex, p0, pex, ρ⟩ : Dirs).cosTheta a0 a1 a2 = a0 * Real.cos tex := by
      simp [Dirs.cosTheta, Phase.cosTheta]
    have := (hf tex pex).prim (k := .srfHGnadirnorm te) (ha tex pex) (ht tex pex)
      (by rw [hc]; exact hg_base_pos ht1 (hb tex)) hn
    rw [hc] at this
    exact XR.fin.inj this
  subst this
  unfold hemReflectance
  have e : ∀ θ, 1 / Phase.hgNadir a0 t * Phase.hg Real.pi t (a0 * Real.cos θ) * Real.cos θ * Real.sin θ =
      1 / Phase.hgNadir a0 t * (Phase.hg Real.pi t (a0 * Real.cos θ) * Real.cos θ * Real.sin θ) := fun θ => by ring
  simp only [e, intervalIntegral.integral_const_mul, intervalIntegral.integral_const, smul_eq_mul, sub_zero]
  rw [hgNadir_integral h0 h1 ht0 ht1]
  have := (Phase.hgNadir_pos h0 h1 ht0 ht1).ne'
  field_simp

example (p0 : ℝ) (ρ : String → ℝ) : ∃ f : ℝ → ℝ → ℝ, ∀ tex pex,
    (Scatter.prim (.srfHGnadirnorm (.num (1 / 2))) srfA (some 8)).Returns ⟨0, tex, p0, pex, ρ⟩ (XR.fin (f tex pex)) := by
  refine ⟨fun tex pex => (Kind.srfHGnadirnorm (.num (1 / 2))).val 1 (1 / 2) (Phase.cosTheta 1 1 1 0 tex p0 pex),
    fun tex pex => ?_⟩
  have hr := Scatter.returns_of (s := Scatter.prim (.srfHGnadirnorm (.num (1 / 2))) srfA (some 8))
    ⟨0, tex, p0, pex, ρ⟩ [] (by
      intro n hn
      simp [Scatter.phase, Scatter.primPhase, Scatter.nadirHemreflect, Scatter.hgExpr, Scatter.angleExpr, srfA,
        Expr.free] at hn
      aesop)
  have h1 : |(1 / 2 : ℝ)| < 1 := by rw [abs_of_pos] <;> norm_num
  rw [hr.prim (k := .srfHGnadirnorm (.num (1 / 2))) (srfA_is _) (t := 1 / 2) (.num _)
    (hg_base_pos h1 (Phase.cosTheta_abs_le (by simp) (by simp) (by simp) _ _ _ _))
    (Kind.nadirOK (by simp) h1 fun _ => ⟨one_ne_zero, by norm_num⟩)] at hr
  exact hr

/-! ## C46: combinations of normalised functions -/

theorem double_lin {F G : ℝ → ℝ → ℝ} (c a b d e : ℝ) (hF : Continuous fun q : ℝ × ℝ => F q.1 q.2)
    (hG : Continuous fun q : ℝ × ℝ => G q.1 q.2) :
    ∫ p in a..b, ∫ t in d..e, (c * F p t + G p t) =
      c * (∫ p in a..b, ∫ t in d..e, F p t) + ∫ p in a..b, ∫ t in d..e, G p t := by
  have row : ∀ {F : ℝ → ℝ → ℝ}, (Continuous fun q : ℝ × ℝ => F q.1 q.2) → ∀ p, Continuous fun t => F p t := fun h p =>
    h.comp (by fun_prop : Continuous fun t : ℝ => (p, t))
  have h1 : ∀ p, ∫ t in d..e, (c * F p t + G p t) = c * (∫ t in d..e, F p t) + ∫ t in d..e, G p t := fun p => by
    rw [← intervalIntegral.integral_const_mul]
    exact intervalIntegral.integral_add ((continuous_const.mul (row hF p)).intervalIntegrable _ _)
      ((row hG p).intervalIntegrable _ _)
  simp only [h1]
  rw [← intervalIntegral.integral_const_mul]
  exact intervalIntegral.integral_add
    ((continuous_const.mul (cont_inner (F := F) hF d e)).intervalIntegrable _ _)
    ((cont_inner (F := G) hG d e).intervalIntegrable _ _)

theorem sphereIntegral_sum {cs : List ℝ} {fs : List (ℝ → ℝ → ℝ)} (hl : cs.length = fs.length)
    (hc : ∀ f ∈ fs, Continuous fun q : ℝ × ℝ => f q.1 q.2) :
    (Continuous fun q : ℝ × ℝ => (List.zipWith (fun c f => c * f q.1 q.2) cs fs).sum) ∧
    sphereIntegral (fun t p => (List.zipWith (fun c f => c * f t p) cs fs).sum) =
      (List.zipWith (fun c f => c * sphereIntegral f) cs fs).sum ∧
    hemReflectance (fun t p => (List.zipWith (fun c f => c * f t p) cs fs).sum) =
      (List.zipWith (fun c f => c * hemReflectance f) cs fs).sum := by
  induction cs generalizing fs with
  | nil => cases fs with
    | nil => exact ⟨by simpa using continuous_const, by simp [sphereIntegral], by simp [hemReflectance]⟩
    | cons _ _ => cases hl
  | cons c cs ih => cases fs with
    | nil => cases hl
    | cons f fs =>
      obtain ⟨h1, h2, h3⟩ := ih (fs := fs) (by simpa using hl) fun g hg => hc g (List.mem_cons_of_mem _ hg)
      have hf := hc f List.mem_cons_self
      have hfs : Continuous fun q : ℝ × ℝ => f q.2 q.1 := hf.comp continuous_swap
      have hgs : Continuous fun q : ℝ × ℝ => (List.zipWith (fun c f => c * f q.2 q.1) cs fs).sum :=
        h1.comp continuous_swap
      simp only [List.zipWith_cons_cons, List.sum_cons]
      refine ⟨(continuous_const.mul hf).add h1, ?_, ?_⟩
      · rw [← h2]
        unfold sphereIntegral
        have k1 : Continuous fun q : ℝ × ℝ => f q.2 q.1 * Real.sin q.2 := hfs.mul (by fun_prop)
        have k2 : Continuous fun q : ℝ × ℝ => (List.zipWith (fun c f => c * f q.2 q.1) cs fs).sum * Real.sin q.2 :=
          hgs.mul (by fun_prop)
        rw [← double_lin (F := fun p t => f t p * Real.sin t)
          (G := fun p t => (List.zipWith (fun c f => c * f t p) cs fs).sum * Real.sin t) c _ _ _ _ k1 k2]
        simp only [add_mul, mul_assoc]
      · rw [← h3]
        unfold hemReflectance
        have k1 : Continuous fun q : ℝ × ℝ => f q.2 q.1 * Real.cos q.2 * Real.sin q.2 :=
          (hfs.mul (by fun_prop)).mul (by fun_prop)
        have k2 : Continuous fun q : ℝ × ℝ => (List.zipWith (fun c f => c * f q.2 q.1) cs fs).sum * Real.cos q.2 * Real.sin q.2 :=
          (hgs.mul (by fun_prop)).mul (by fun_prop)
        rw [← double_lin (F := fun p t => f t p * Real.cos t * Real.sin t)
          (G := fun p t => (List.zipWith (fun c f => c * f t p) cs fs).sum * Real.cos t * Real.sin t) c _ _ _ _ k1 k2]
        simp only [add_mul, mul_assoc]

theorem zipWith_one {cs : List ℝ} {fs : List (ℝ → ℝ → ℝ)} (hl : cs.length = fs.length) {I : (ℝ → ℝ → ℝ) → ℝ} {v : ℝ}
    (h : ∀ f ∈ fs, I f = v) : (List.zipWith (fun c f => c * I f) cs fs).sum = cs.sum * v := by
  induction cs generalizing fs with
  | nil => simp
  | cons c cs ih => cases fs with
    | nil => cases hl
    | cons f fs =>
      simp only [List.zipWith_cons_cons, List.sum_cons]
      rw [ih (by simpa using hl) fun g hg => h g (List.mem_cons_of_mem _ hg), h f List.mem_cons_self]
      ring

/-- The combination returns the combination of the values of its parts, seen as functions of the
exit direction. -/
theorem lin_values {ws : List Expr} {os : List Scatter} {a : A3} {t0 p0 : ℝ} {ρ : String → ℝ} {cs : List ℝ}
    {fs : List (ℝ → ℝ → ℝ)} {f : ℝ → ℝ → ℝ}
    (hw : ∀ tex pex, List.Forall₂ (fun w c => w.Is (Dirs.env ⟨t0, tex, p0, pex, ρ⟩) c) ws cs)
    (ho : List.Forall₂ (fun o g => ∀ tex pex, Scatter.Returns o ⟨t0, tex, p0, pex, ρ⟩ (XR.fin (g tex pex))) os fs)
    (hf : ∀ tex pex, (Scatter.lin ws os a).Returns ⟨t0, tex, p0, pex, ρ⟩ (XR.fin (f tex pex))) :
    f = fun t p => (List.zipWith (fun c f => c * f t p) cs fs).sum := by
  funext tex pex
  have h : List.Forall₂ (fun o v => Scatter.Returns o ⟨t0, tex, p0, pex, ρ⟩ (XR.fin v)) os (fs.map fun g => g tex pex) := by
    rw [List.forall₂_map_right_iff]; exact ho.imp fun o g h => h tex pex
  rw [XR.fin.inj (C46_weighted_sum (hf tex pex) (hw tex pex) h), List.zipWith_map_right]

/-- Volume functions: if every part is normalised (and continuous in the exit direction) and the weights
sum to 1, the combination is normalised. -/
theorem C46_normalised {ws : List Expr} {os : List Scatter} {a : A3} {t0 p0 : ℝ} {ρ : String → ℝ} {cs : List ℝ}
    {fs : List (ℝ → ℝ → ℝ)} {f : ℝ → ℝ → ℝ} (hl : ws.length = os.length)
    (hw : ∀ tex pex, List.Forall₂ (fun w c => w.Is (Dirs.env ⟨t0, tex, p0, pex, ρ⟩) c) ws cs) (hs : cs.sum = 1)
    (ho : List.Forall₂ (fun o g => ∀ tex pex, Scatter.Returns o ⟨t0, tex, p0, pex, ρ⟩ (XR.fin (g tex pex))) os fs)
    (hc : ∀ g ∈ fs, Continuous fun q : ℝ × ℝ => g q.1 q.2)
    (hf : ∀ tex pex, (Scatter.lin ws os a).Returns ⟨t0, tex, p0, pex, ρ⟩ (XR.fin (f tex pex))) :
    ((∀ g ∈ fs, sphereIntegral g = 1) → sphereIntegral f = 1) ∧
    ((∀ g ∈ fs, hemReflectance g = 1) → hemReflectance f = 1) := by
  have hl' : cs.length = fs.length := by rw [← (hw 0 0).length_eq, hl, ho.length_eq]
  obtain ⟨_, h2, h3⟩ := sphereIntegral_sum hl' hc
  rw [lin_values hw ho hf]
  refine ⟨fun h1 => ?_, fun h1 => ?_⟩
  · rw [h2, zipWith_one hl' h1, hs, one_mul]
  · rw [h3, zipWith_one hl' h1, hs, one_mul]

/-- Any combination of predefined volume functions (default `a`, `|t| < 1`) with weights that sum to 1 is
normalised. -/
theorem C46_predefined_normalised {ws : List Expr} {os : List Scatter} {a : A3} {t0 p0 : ℝ} {ρ : String → ℝ}
    {cs : List ℝ} {f : ℝ → ℝ → ℝ} (hl : ws.length = os.length)
    (hw : ∀ tex pex, List.Forall₂ (fun w c => w.Is (Dirs.env ⟨t0, tex, p0, pex, ρ⟩) c) ws cs) (hs : cs.sum = 1)
    (ho : ∀ o ∈ os, ∃ k nc te t, o = Scatter.prim k volA nc ∧
      (k = .volIsotropic ∨ k = .volRayleigh ∨ k = .volHG te ∨ k = .volHGRayleigh te) ∧
      (∀ tex pex, te.Is (Dirs.env ⟨t0, tex, p0, pex, ρ⟩) t) ∧ |t| < 1 ∧
      ∀ tex pex, ∃ r, o.Returns ⟨t0, tex, p0, pex, ρ⟩ r)
    (hf : ∀ tex pex, (Scatter.lin ws os a).Returns ⟨t0, tex, p0, pex, ρ⟩ (XR.fin (f tex pex))) :
    sphereIntegral f = 1 := by
  have key : ∃ fs : List (ℝ → ℝ → ℝ), List.Forall₂ (fun o g => ∀ tex pex,
      Scatter.Returns o ⟨t0, tex, p0, pex, ρ⟩ (XR.fin (g tex pex))) os fs ∧
      ∀ g ∈ fs, (Continuous fun q : ℝ × ℝ => g q.1 q.2) ∧ sphereIntegral g = 1 := by
    clear hf hw hl
    induction os with
    | nil => exact ⟨[], .nil, fun g hg => by cases hg⟩
    | cons o os ih =>
      obtain ⟨fs, h1, h2⟩ := ih fun o' h => ho o' (List.mem_cons_of_mem _ h)
      obtain ⟨k, nc, te, t, rfl, hk, ht, ht1, hr⟩ := ho o List.mem_cons_self
      have hv : k.IsVol := by rcases hk with rfl | rfl | rfl | rfl <;> trivial
      have hT : ∀ tex pex, k.TIs (Dirs.env ⟨t0, tex, p0, pex, ρ⟩) t := by
        intro tex pex
        rcases hk with rfl | rfl | rfl | rfl
        · trivial
        · trivial
        · exact ht tex pex
        · exact ht tex pex
      have hN : k.NadirOK (-1) t := by rcases hk with rfl | rfl | rfl | rfl <;> trivial
      have hval : ∀ tex pex, Scatter.Returns (Scatter.prim k volA nc) ⟨t0, tex, p0, pex, ρ⟩
          (XR.fin (k.val (-1) t (Phase.cosTheta (-1) 1 1 t0 tex p0 pex))) := by
        intro tex pex
        obtain ⟨r, hr⟩ := hr tex pex
        have := hr.prim (volA_is _) (hT tex pex)
          (hg_base_pos ht1 (Phase.cosTheta_abs_le (by simp) (by simp) (by simp) _ _ _ _)) hN
        rw [this] at hr
        exact hr
      refine ⟨_ :: fs, .cons hval h1, fun g hg => ?_⟩
      rcases List.mem_cons.mp hg with rfl | hg
      · exact ⟨k.vol_continuous hv ht1 t0 p0, k.vol_normalised hv ht1 t0 p0⟩
      · exact h2 g hg
  obtain ⟨fs, h1, h2⟩ := key
  exact (C46_normalised hl hw hs h1 (fun g hg => (h2 g hg).1) hf).1 fun g hg => (h2 g hg).2

/-- A quarter isotropic and three quarters Rayleigh scattering. -/
example (t0 p0 : ℝ) (ρ : String → ℝ) : ∃ f : ℝ → ℝ → ℝ, (∀ tex pex,
    (Scatter.lin [.num (1/4), .num (3/4)] [.prim .volIsotropic volA none, .prim .volRayleigh volA none] volA).Returns
      ⟨t0, tex, p0, pex, ρ⟩ (XR.fin (f tex pex))) ∧ sphereIntegral f = 1 := by
  have part : ∀ k : Kind, k = .volIsotropic ∨ k = .volRayleigh → ∀ tex pex,
      (Scatter.prim k volA none).Returns ⟨t0, tex, p0, pex, ρ⟩
        (XR.fin (k.val (-1) 0 (Phase.cosTheta (-1) 1 1 t0 tex p0 pex))) := by
    intro k hk tex pex
    have hr := Scatter.returns_of (s := Scatter.prim k volA none) ⟨t0, tex, p0, pex, ρ⟩ [] (by
      intro n hn
      rcases hk with rfl | rfl
      · simp [Scatter.phase, Scatter.primPhase, Expr.free] at hn
      · simp [Scatter.phase, Scatter.primPhase, Scatter.angleExpr, volA, Expr.free] at hn
        aesop)
    rw [hr.prim (k := k) (volA_is _) (t := 0) (by rcases hk with rfl | rfl <;> trivial)
      (hg_base_pos (by simp) (Phase.cosTheta_abs_le (by simp) (by simp) (by simp) _ _ _ _))
      (by rcases hk with rfl | rfl <;> trivial)] at hr
    exact hr
  have hw : ∀ tex pex, List.Forall₂ (fun w c => w.Is (Dirs.env ⟨t0, tex, p0, pex, ρ⟩) c)
      [Expr.num (1/4), .num (3/4)] [1/4, 3/4] := fun tex pex =>
    .cons (.num _) (.cons (.num _) .nil)
  have h : ∀ tex pex, (Scatter.lin [.num (1/4), .num (3/4)]
      [.prim .volIsotropic volA none, .prim .volRayleigh volA none] volA).Returns ⟨t0, tex, p0, pex, ρ⟩
      (XR.fin (List.zipWith (· * ·) [1/4, 3/4]
        [Kind.volIsotropic.val (-1) 0 (Phase.cosTheta (-1) 1 1 t0 tex p0 pex),
         Kind.volRayleigh.val (-1) 0 (Phase.cosTheta (-1) 1 1 t0 tex p0 pex)]).sum) := by
    intro tex pex
    have hr := Scatter.returns_of (s := Scatter.lin [.num (1/4), .num (3/4)]
      [.prim .volIsotropic volA none, .prim .volRayleigh volA none] volA) ⟨t0, tex, p0, pex, ρ⟩ [] (by
      intro n hn
      simp [Scatter.phase, Scatter.phaseL, Scatter.primPhase, Scatter.angleExpr, volA, Expr.free] at hn
      aesop)
    rw [C46_weighted_sum hr (hw tex pex) (.cons (part _ (.inl rfl) tex pex) (.cons (part _ (.inr rfl) tex pex) .nil))]
      at hr
    exact hr
  refine ⟨_, h, C46_predefined_normalised rfl hw (by norm_num) ?_ h⟩
  intro o ho
  simp only [List.mem_cons, List.not_mem_nil, or_false] at ho
  rcases ho with rfl | rfl
  · exact ⟨_, _, .num 0, 0, rfl, .inl rfl, fun _ _ => .num 0, by simp, fun tex pex => ⟨_, part _ (.inl rfl) tex pex⟩⟩
  · exact ⟨_, _, .num 0, 0, rfl, .inr (.inl rfl), fun _ _ => .num 0, by simp,
      fun tex pex => ⟨_, part _ (.inr rfl) tex pex⟩⟩

end

end RT1
