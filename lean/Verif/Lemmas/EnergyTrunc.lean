import Verif.Lemmas.EnergyShift
import Verif.Lemmas.Trunc

/-!
# Energy balance of truncated expansions (C74)
-/

namespace RT1

noncomputable section
open Filter Topology MeasureTheory

/-! ### the same objects at sites with other angles -/

theorem Kind.Admissible.move {k : Kind} {a : A3} {x y : Site} {a0 a1 a2 t : ℝ} (h : k.Admissible a x a0 a1 a2 t) (hy : y.ρ = x.ρ) :
    k.Admissible a y a0 a1 a2 t :=
  ⟨fun z hz => h.aIs z (hz.trans hy), h.le0, h.le1, h.le2, fun z hz => h.tIs z (hz.trans hy), h.lt, h.nadir, h.lobe⟩

/-- The same summand at a site with other angles. -/
def Summand.move {x y : Site} (hy : y.ρ = x.ρ) (s : Summand x) : Summand y :=
  ⟨s.w, s.k, s.a, s.c, s.a0, s.a1, s.a2, s.t, fun z hz => s.weight z (hz.trans hy), s.ok.move hy⟩

theorem comb_move {x y : Site} (hy : y.ρ = x.ρ) (l : List (Summand x)) (a : A3) : comb (l.map (Summand.move hy)) a = comb l a := by
  funext N
  simp [comb, Function.comp_def, Summand.move]

theorem combDirs_move {x y : Site} (hy : y.ρ = x.ρ) (l : List (Summand x)) : combDirs (l.map (Summand.move hy)) = combDirs l := by
  funext a b u v
  simp [combDirs, Function.comp_def, Summand.move]

theorem Family.move {x y : Site} {o : ℕ → Scatter} {P : Bidir} (h : Family x o P) (hy : y.ρ = x.ρ) : Family y o P := by
  cases h with
  | prim h => exact .prim (h.move hy)
  | lin l a hl =>
    rw [← comb_move hy, ← combDirs_move hy]
    exact .lin _ a (by simpa using hl)

theorem Truncated.move {x y : Site} {N : ℕ} {o : Scatter} {P : Bidir} {e M : ℝ} (h : Truncated x N o P e M) (hy : y.ρ = x.ρ) :
    Truncated y N o P e M := by
  cases h with
  | prim h hk hN => exact .prim (h.move hy) hk hN
  | lin l a hl hk hN =>
    have := Truncated.lin (x := y) (N := N) (l.map (Summand.move hy)) a (by simpa using hl)
      (by simp only [List.mem_map]; rintro _ ⟨s, hs, rfl⟩; exact hk s hs) hN
    rw [comb_move, combDirs_move] at this
    simpa [Function.comp_def, Summand.move] using this

theorem comb_same {x : Site} (l : List (Summand x)) (a : A3) (N : ℕ) {y z : Site} (hy : y.ρ = x.ρ) (hz : z.ρ = x.ρ) (t0 tex p0 pex : ℝ) :
    (comb l a N).expVal y.env t0 tex p0 pex = (comb l a N).expVal z.env t0 tex p0 pex := by
  rw [comb_expVal, comb_expVal]
  congr 1
  refine List.map_congr_left fun g hg => ?_
  obtain ⟨-, hgs⟩ := comb_groups l N (g := g) hg
  unfold Scatter.groupSum
  rw [Scatter.legSum_list, Scatter.legSum_list]
  congr 1
  refine List.map_congr_left fun q hq => ?_
  obtain ⟨s, hs, rfl, ha⟩ := hgs q hq
  have coef : ∀ (y : Site), y.ρ = x.ρ → ∀ n, ((s.pair N).2.coefOf n).evalR y.env = s.k.coefAll s.a0 s.t n := fun y hy n =>
    Kind.coefAll_evalR (s.ok.aIs y hy) (s.ok.tIs y hy) s.ok.nadirOK n
  have e2 : ∀ (y : Site), y.ρ = x.ρ → (s.pair N).1.evalR y.env = s.c := fun y hy => (s.weight y hy).2
  rw [e2 y hy, e2 z hz, legSum_real, legSum_real, ← ha, angleR_val (s.ok.aIs y hy), angleR_val (s.ok.aIs z hz)]
  simp only [coef y hy, coef z hz]

/-- The expansion does not depend on the angles of the site. -/
theorem Truncated.same {x : Site} {N : ℕ} {o : Scatter} {P : Bidir} {e M : ℝ} (h : Truncated x N o P e M) {y : Site} (hy : y.ρ = x.ρ) :
    o.expVal y.env = o.expVal x.env := by
  funext a b u v
  cases h with
  | prim h hk hN => rw [h.expVal N hy, h.expVal N rfl]
  | lin l a hl hk hN => exact comb_same l a N hy rfl _ _ _ _

namespace Energy
open Real

/-- Like `inter_meas`, for bounded functions. -/
theorem inter_meas_bounded {P F : Bidir} (cP : P.Cont) (cF : F.Cont) {K L : ℝ} (hK : ∀ a b u v, |P a b u v| ≤ K)
    (hL : ∀ a b u v, |F a b u v| ≤ L) {x : Setting} (hτ : 0 ≤ x.τ) (h0 : 0 < cos x.t0) :
    ∃ g : ℝ × ℝ → ℝ, Measurable g ∧ ∀ t, 0 < cos t → ∀ p, x.inter P F t p = g (t, p) := by
  have w := weight_meas x.τ
  have hKL : ∀ a b u v a' b' u' v', |P a b u v * F a' b' u' v'| ≤ K * L := fun a b u v a' b' u' v' => by
    rw [abs_mul]
    exact mul_le_mul (hK _ _ _ _) (hL _ _ _ _) (abs_nonneg _) ((abs_nonneg _).trans (hK a b u v))
  refine ⟨fun z => x.N * (1 - x.b) * x.I0 * cos x.t0 * x.ω
    * (exp (-x.τ / cos z.1) * (∫ y, weight x.τ (cos x.t0) (cs y.1) * (P x.t0 (π - y.1) x.p0 y.2 * F y.1 z.1 y.2 z.2) * sin y.1 ∂ν)
      + exp (-x.τ / cos x.t0) * (∫ y, weight x.τ (cos z.1) (cs y.1) * (P z.1 (π - y.1) z.2 y.2 * F y.1 x.t0 y.2 x.p0) * sin y.1 ∂ν)),
    ?_, fun t ht p => ?_⟩
  · have m1 : Measurable fun z : ℝ × ℝ =>
        ∫ y, weight x.τ (cos x.t0) (cs y.1) * (P x.t0 (π - y.1) x.p0 y.2 * F y.1 z.1 y.2 z.2) * sin y.1 ∂ν := by
      refine (StronglyMeasurable.integral_prod_right (ν := ν) (f := fun z y : ℝ × ℝ =>
        weight x.τ (cos x.t0) (cs y.1) * (P x.t0 (π - y.1) x.p0 y.2 * F y.1 z.1 y.2 z.2) * sin y.1) ?_).measurable
      refine Measurable.stronglyMeasurable ?_
      have h0 : Measurable fun x' : (ℝ × ℝ) × (ℝ × ℝ) => weight x.τ (cos x.t0) (cs x'.2.1) :=
        w.comp (measurable_const.prodMk (cs_cont.measurable.comp (by fun_prop)))
      have h1 : Continuous fun x' : (ℝ × ℝ) × (ℝ × ℝ) => P x.t0 (π - x'.2.1) x.p0 x'.2.2 :=
        cP.comp (by fun_prop) (by fun_prop) (by fun_prop) (by fun_prop)
      have h2 : Continuous fun x' : (ℝ × ℝ) × (ℝ × ℝ) => F x'.2.1 x'.1.1 x'.2.2 x'.1.2 :=
        cF.comp (by fun_prop) (by fun_prop) (by fun_prop) (by fun_prop)
      have h3 : Measurable fun x' : (ℝ × ℝ) × (ℝ × ℝ) => sin x'.2.1 := by fun_prop
      exact (h0.mul (h1.mul h2).measurable).mul h3
    have m2 : Measurable fun z : ℝ × ℝ =>
        ∫ y, weight x.τ (cos z.1) (cs y.1) * (P z.1 (π - y.1) z.2 y.2 * F y.1 x.t0 y.2 x.p0) * sin y.1 ∂ν := by
      refine (StronglyMeasurable.integral_prod_right (ν := ν) (f := fun z y : ℝ × ℝ =>
        weight x.τ (cos z.1) (cs y.1) * (P z.1 (π - y.1) z.2 y.2 * F y.1 x.t0 y.2 x.p0) * sin y.1) ?_).measurable
      refine Measurable.stronglyMeasurable ?_
      have h0 : Measurable fun x' : (ℝ × ℝ) × (ℝ × ℝ) => weight x.τ (cos x'.1.1) (cs x'.2.1) :=
        w.comp (Measurable.prodMk (by fun_prop) (cs_cont.measurable.comp (by fun_prop)))
      have h1 : Continuous fun x' : (ℝ × ℝ) × (ℝ × ℝ) => P x'.1.1 (π - x'.2.1) x'.1.2 x'.2.2 :=
        cP.comp (by fun_prop) (by fun_prop) (by fun_prop) (by fun_prop)
      have h2 : Continuous fun x' : (ℝ × ℝ) × (ℝ × ℝ) => F x'.2.1 x.t0 x'.2.2 x.p0 :=
        cF.comp (by fun_prop) (by fun_prop) (by fun_prop) (by fun_prop)
      have h3 : Measurable fun x' : (ℝ × ℝ) × (ℝ × ℝ) => sin x'.2.1 := by fun_prop
      exact (h0.mul (h1.mul h2).measurable).mul h3
    fun_prop
  · unfold Setting.inter
    have e1 := hemi_bounded hτ h0 (q := fun s q => P x.t0 (π - s) x.p0 q * F s t q p) (K := K * L)
      ((cP.comp (by fun_prop) (by fun_prop) (by fun_prop) (by fun_prop)).mul
        (cF.comp (by fun_prop) (by fun_prop) (by fun_prop) (by fun_prop))).measurable (fun s q => hKL _ _ _ _ _ _ _ _)
    have e2 := hemi_bounded hτ ht (q := fun s q => P t (π - s) p q * F s x.t0 q x.p0) (K := K * L)
      ((cP.comp (by fun_prop) (by fun_prop) (by fun_prop) (by fun_prop)).mul
        (cF.comp (by fun_prop) (by fun_prop) (by fun_prop) (by fun_prop))).measurable (fun s q => hKL _ _ _ _ _ _ _ _)
    rw [e1, e2]

theorem hem_one : ∫ z : ℝ × ℝ, cos z.1 * sin z.1 ∂ν = π := by
  have hc : Continuous fun z : ℝ × ℝ => cos z.1 * sin z.1 := by fun_prop
  rw [← eq_iter hc]
  simp only [intervalIntegral.integral_const, smul_eq_mul, sub_zero]
  have : ∫ x in (0 : ℝ)..(π / 2), cos x * sin x = 1 / 2 := by
    have h := integral_sin_mul_cos₁ (a := 0) (b := π / 2)
    simp only [sin_pi_div_two, sin_zero] at h
    simp only [mul_comm (cos _)]
    rw [h]; norm_num
  rw [this]; ring

/-- Energies of radiances that differ by at most `K`. -/
theorem hem_close {g j : ℝ → ℝ → ℝ} {m : ℝ × ℝ → ℝ} (hm : Measurable m) {K : ℝ}
    (hgm : ∀ t ∈ Set.Ioo 0 (π / 2), ∀ p ∈ Set.Ioo 0 (2 * π), g t p = m (t, p))
    (hj : IntegrableOn (fun z : ℝ × ℝ => j z.1 z.2 * cos z.1 * sin z.1) (Set.Ioc 0 (π / 2) ×ˢ Set.Ioc 0 (2 * π)))
    (hK : ∀ t ∈ Set.Ioo 0 (π / 2), ∀ p ∈ Set.Ioo 0 (2 * π), |g t p - j t p| ≤ K) :
    IntegrableOn (fun z : ℝ × ℝ => g z.1 z.2 * cos z.1 * sin z.1) (Set.Ioc 0 (π / 2) ×ˢ Set.Ioc 0 (2 * π)) ∧
    |hemReflectance g - hemReflectance j| ≤ π * K := by
  unfold IntegrableOn at hj ⊢
  rw [← ν_eq] at hj ⊢
  have hc : Continuous fun z : ℝ × ℝ => K * (cos z.1 * sin z.1) := by fun_prop
  have hd : ∀ᵐ z ∂ν, |g z.1 z.2 * cos z.1 * sin z.1 - j z.1 z.2 * cos z.1 * sin z.1| ≤ K * (cos z.1 * sin z.1) := by
    filter_upwards [ae_mem] with z hz
    have h1 : 0 ≤ cos z.1 := (cos_pos_of_mem_Ioo ⟨by linarith [hz.1.1, pi_pos], hz.1.2⟩).le
    have h2 : 0 ≤ sin z.1 := sin_nonneg' (Set.Ioo_subset_Icc_self hz.1)
    rw [show g z.1 z.2 * cos z.1 * sin z.1 - j z.1 z.2 * cos z.1 * sin z.1 = (g z.1 z.2 - j z.1 z.2) * (cos z.1 * sin z.1) by ring, abs_mul,
      abs_of_nonneg (mul_nonneg h1 h2)]
    exact mul_le_mul_of_nonneg_right (hK _ hz.1 _ hz.2) (mul_nonneg h1 h2)
  have ha : AEStronglyMeasurable (fun z : ℝ × ℝ => g z.1 z.2 * cos z.1 * sin z.1) ν := by
    refine AEStronglyMeasurable.congr (f := fun z : ℝ × ℝ => m z * cos z.1 * sin z.1) (Measurable.aestronglyMeasurable (by fun_prop)) ?_
    filter_upwards [ae_mem] with z hz
    rw [hgm _ hz.1 _ hz.2]
  have hdi : Integrable (fun z : ℝ × ℝ => g z.1 z.2 * cos z.1 * sin z.1 - j z.1 z.2 * cos z.1 * sin z.1) ν :=
    Integrable.mono' (integrable hc) (ha.sub hj.aestronglyMeasurable) hd
  have hg : Integrable (fun z : ℝ × ℝ => g z.1 z.2 * cos z.1 * sin z.1) ν :=
    (hdi.add hj).congr (Eventually.of_forall fun z => by simp only [Pi.add_apply]; ring)
  refine ⟨hg, ?_⟩
  rw [hemReflectance_eq hg, hemReflectance_eq hj, ← integral_sub hg hj, ← norm_eq_abs]
  refine (norm_integral_le_of_norm_le (integrable hc) hd).trans (le_of_eq ?_)
  rw [integral_const_mul, hem_one, mul_comm]

end Energy

end

end RT1
