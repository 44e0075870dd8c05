import Verif.Lemmas.IntMath
import Verif.Lemmas.LimitL
import Verif.Spec.Trunc

/-!
# Bounds of the interaction contribution
-/

namespace RT1

noncomputable section
open Classical Filter Topology MeasureTheory

namespace Energy
open Real

theorem hemi_abs_le {τ μ K : ℝ} (hτ : 0 ≤ τ) (hμ : 0 < μ) {q : ℝ → ℝ → ℝ} (hq : Measurable fun z : ℝ × ℝ => q z.1 z.2)
    (hK : ∀ s φ, |q s φ| ≤ K) : |hemi μ τ q| ≤ 2 * π * (1 - exp (-τ / μ)) * K := by
  rw [hemi_bounded hτ hμ hq hK]
  have hK0 : 0 ≤ K := (abs_nonneg _).trans (hK 0 0)
  have hE : 0 ≤ 1 - exp (-τ / μ) := (weight_nonneg hτ hμ le_rfl).trans (weight_le hτ hμ le_rfl)
  have hd : Integrable (fun z : ℝ × ℝ => (1 - exp (-τ / μ)) * K * sin z.1) ν := by
    refine Integrable.mono' (integrable_const ((1 - exp (-τ / μ)) * K)) (by fun_prop) (Eventually.of_forall fun z => ?_)
    rw [norm_eq_abs, abs_mul, abs_of_nonneg (mul_nonneg hE hK0)]
    exact mul_le_of_le_one_right (mul_nonneg hE hK0) (abs_sin_le_one _)
  have h1 : |∫ z, weight τ μ (cs z.1) * q z.1 z.2 * sin z.1 ∂ν| ≤ ∫ z, (1 - exp (-τ / μ)) * K * sin z.1 ∂ν := by
    rw [← norm_eq_abs]
    refine norm_integral_le_of_norm_le hd ?_
    filter_upwards [ae_mem] with z hz
    have hs : 0 ≤ sin z.1 := sin_nonneg_of_nonneg_of_le_pi hz.1.1.le (by linarith [hz.1.2, pi_pos])
    rw [norm_eq_abs, abs_mul, abs_mul, abs_of_nonneg (weight_nonneg hτ hμ (cs_nonneg z.1)), abs_of_nonneg hs]
    exact mul_le_mul_of_nonneg_right (mul_le_mul (weight_le hτ hμ (cs_nonneg z.1)) (hK _ _) (abs_nonneg _) hE) hs
  refine h1.trans (le_of_eq ?_)
  unfold ν at hd ⊢
  rw [integral_prod _ hd]
  simp only [MeasureTheory.integral_const, smul_eq_mul]
  rw [MeasureTheory.integral_const_mul, MeasureTheory.integral_const_mul, ← intervalIntegral.integral_of_le half_pi_nonneg,
    integral_sin]
  simp [Measure.real, pi_pos.le]
  ring

theorem hemi_sub_le {τ μ K : ℝ} (hτ : 0 ≤ τ) (hμ : 0 < μ) {q q' : ℝ → ℝ → ℝ} (hq : Measurable fun z : ℝ × ℝ => q z.1 z.2)
    (hq' : Measurable fun z : ℝ × ℝ => q' z.1 z.2) {B : ℝ} (hB : ∀ s φ, |q s φ| ≤ B) {B' : ℝ} (hB' : ∀ s φ, |q' s φ| ≤ B')
    (hK : ∀ s φ, |q s φ - q' s φ| ≤ K) : |hemi μ τ q - hemi μ τ q'| ≤ 2 * π * (1 - exp (-τ / μ)) * K := by
  have hi : ∀ {f : ℝ → ℝ → ℝ} {C : ℝ}, (Measurable fun z : ℝ × ℝ => f z.1 z.2) → (∀ s φ, |f s φ| ≤ C) →
      Integrable (fun z : ℝ × ℝ => weight τ μ (cs z.1) * f z.1 z.2 * sin z.1) ν := fun {f C} hf hC =>
    Integrable.mono' (integrable_const C) (weight_q_meas hf μ).aestronglyMeasurable
      (Eventually.of_forall (weight_q_le hτ hμ (q := fun z => f z.1 z.2) fun z => hC _ _))
  have e : hemi μ τ q - hemi μ τ q' = hemi μ τ fun s φ => q s φ - q' s φ := by
    rw [hemi_bounded hτ hμ hq hB, hemi_bounded hτ hμ hq' hB', hemi_bounded hτ hμ (hq.sub hq') hK, ← integral_sub (hi hq hB) (hi hq' hB')]
    exact integral_congr_ae (Eventually.of_forall fun z => by ring)
  rw [e]
  exact hemi_abs_le hτ hμ (hq.sub hq') hK

end Energy

/-! ### deviations -/

/-- The expansion of a scattering object deviates from the function `P` by at most `e` in all
directions, and `P` is bounded by `M`. -/
structure Near (o : Scatter) (x : Site) (P : Bidir) (e M : ℝ) : Prop where
  close : ∀ y : Site, y.ρ = x.ρ → ∀ a b u v, |o.expVal y.env a b u v - P a b u v| ≤ e
  bound : ∀ a b u v, |P a b u v| ≤ M
  cont : Bidir.Cont P
  contE : ∀ y : Site, y.ρ = x.ρ → Bidir.Cont (o.expVal y.env)

theorem Near.nonneg {o : Scatter} {x : Site} {P : Bidir} {e M : ℝ} (h : Near o x P e M) : 0 ≤ e ∧ 0 ≤ M :=
  ⟨(abs_nonneg _).trans (h.close x rfl 0 0 0 0), (abs_nonneg _).trans (h.bound 0 0 0 0)⟩

theorem Near.exp_le {o : Scatter} {x : Site} {P : Bidir} {e M : ℝ} (h : Near o x P e M) {y : Site} (hy : y.ρ = x.ρ) (a b u v : ℝ) :
    |o.expVal y.env a b u v| ≤ M + e := by
  have h1 := h.close y hy a b u v
  have h2 := h.bound a b u v
  have h3 := abs_add_le (o.expVal y.env a b u v - P a b u v) (P a b u v)
  rw [sub_add_cancel] at h3
  linarith

theorem Near.fint {V S : Scatter} {x : Site} {P F : Bidir} {eV MV eS MS : ℝ} (hV : Near V x P eV MV) (hS : Near S x F eS MS) {y : Site}
    (hy : y.ρ = x.ρ) (hτ : 0 ≤ y.tau) (hμ : 0 < y.mu0) (δ : ℝ) :
    |y.FintAz V S δ - y.FintOf P F δ| ≤ 2 * Real.pi * (1 - Real.exp (-y.tau / y.mu0)) * (eV * (MS + eS) + MV * eS) := by
  refine Energy.hemi_sub_le (B := (MV + eV) * (MS + eS)) (B' := MV * MS) hτ hμ ?_ ?_ (fun s φ => ?_) (fun s φ => ?_) fun s φ => ?_
  · exact (((hV.contE y hy).comp (by fun_prop) (by fun_prop) (by fun_prop) (by fun_prop)).mul
      ((hS.contE y hy).comp (by fun_prop) (by fun_prop) (by fun_prop) (by fun_prop))).measurable
  · exact ((hV.cont.comp (by fun_prop) (by fun_prop) (by fun_prop) (by fun_prop)).mul
      (hS.cont.comp (by fun_prop) (by fun_prop) (by fun_prop) (by fun_prop))).measurable
  · rw [abs_mul]
    exact mul_le_mul (hV.exp_le hy _ _ _ _) (hS.exp_le hy _ _ _ _) (abs_nonneg _) (by linarith [hV.nonneg.1, hV.nonneg.2])
  · rw [abs_mul]
    exact mul_le_mul (hV.bound _ _ _ _) (hS.bound _ _ _ _) (abs_nonneg _) hV.nonneg.2
  · generalize hA : V.expVal y.env y.t0 (Real.pi - s) y.p0 φ = A
    generalize hB : S.expVal y.env s y.tex φ (y.pex + δ) = B
    generalize hC : P y.t0 (Real.pi - s) y.p0 φ = C
    generalize hD : F s y.tex φ (y.pex + δ) = D
    have e : A * B - C * D = (A - C) * B + C * (B - D) := by ring
    rw [e]
    refine (abs_add_le _ _).trans ?_
    rw [abs_mul, abs_mul]
    have h1 : |A - C| ≤ eV := by rw [← hA, ← hC]; exact hV.close y hy _ _ _ _
    have h2 : |B| ≤ MS + eS := by rw [← hB]; exact hS.exp_le hy _ _ _ _
    have h3 : |C| ≤ MV := by rw [← hC]; exact hV.bound _ _ _ _
    have h4 : |B - D| ≤ eS := by rw [← hB, ← hD]; exact hS.close y hy _ _ _ _
    exact add_le_add (mul_le_mul h1 h2 (abs_nonneg _) hV.nonneg.1) (mul_le_mul h3 h4 (abs_nonneg _) hV.nonneg.2)

theorem pre_le {N b I ω μ e1 e2 A A' B B' C E1 E2 : ℝ} (hμ : 0 ≤ μ) (h1 : 0 ≤ e1) (h2 : 0 ≤ e2)
    (hA : |A - A'| ≤ 2 * Real.pi * E1 * C) (hB : |B - B'| ≤ 2 * Real.pi * E2 * C) :
    |N * (1 - b) * I * μ * ω * (e1 * A + e2 * B) - N * (1 - b) * I * μ * ω * (e1 * A' + e2 * B')| ≤
      |N * (1 - b) * I * ω| * μ * (2 * Real.pi) * (e1 * E1 + e2 * E2) * C := by
  have e : N * (1 - b) * I * μ * ω * (e1 * A + e2 * B) - N * (1 - b) * I * μ * ω * (e1 * A' + e2 * B') =
      N * (1 - b) * I * ω * (μ * (e1 * (A - A') + e2 * (B - B'))) := by ring
  rw [e, abs_mul, abs_mul μ, abs_of_nonneg hμ]
  have h3 : |e1 * (A - A') + e2 * (B - B')| ≤ e1 * (2 * Real.pi * E1 * C) + e2 * (2 * Real.pi * E2 * C) := by
    refine (abs_add_le _ _).trans ?_
    rw [abs_mul, abs_mul, abs_of_nonneg h1, abs_of_nonneg h2]
    exact add_le_add (mul_le_mul_of_nonneg_left hA h1) (mul_le_mul_of_nonneg_left hB h2)
  calc |N * (1 - b) * I * ω| * (μ * |e1 * (A - A') + e2 * (B - B')|)
      ≤ |N * (1 - b) * I * ω| * (μ * (e1 * (2 * Real.pi * E1 * C) + e2 * (2 * Real.pi * E2 * C))) := by gcongr
    _ = _ := by ring

theorem Near.interaction {V S : Scatter} {x : Site} {P F : Bidir} {eV MV eS MS : ℝ} (hV : Near V x P eV MV) (hS : Near S x F eS MS)
    (hx : x.Oblique) (δ : ℝ) :
    |x.interactionAz V S δ - x.interactionOf P F δ| ≤ x.coupling * (eV * (MS + eS) + MV * eS) :=
  pre_le hx.mu0.le (Real.exp_pos _).le (Real.exp_pos _).le (hV.fint hS rfl hx.tau.le hx.mu0 δ)
    (hV.fint hS (y := x.swap) rfl hx.tau.le hx.muEx δ)

/-- Bound of the interaction contribution by bounds of the expansions. -/
theorem interaction_abs_le {V S : Scatter} {x : Site} {KV KS : ℝ} (hV : ∀ y : Site, y.ρ = x.ρ → ∀ a b u v, |V.expVal y.env a b u v| ≤ KV)
    (hS : ∀ y : Site, y.ρ = x.ρ → ∀ a b u v, |S.expVal y.env a b u v| ≤ KS)
    (cV : ∀ y : Site, y.ρ = x.ρ → Bidir.Cont (V.expVal y.env)) (cS : ∀ y : Site, y.ρ = x.ρ → Bidir.Cont (S.expVal y.env))
    (hx : x.Oblique) (δ : ℝ) : |x.interactionAz V S δ| ≤ x.coupling * (KV * KS) := by
  have hf : ∀ y : Site, y.ρ = x.ρ → 0 ≤ y.tau → 0 < y.mu0 →
      |y.FintAz V S δ - 0| ≤ 2 * Real.pi * (1 - Real.exp (-y.tau / y.mu0)) * (KV * KS) := fun y hy hτ hμ => by
    rw [sub_zero]
    refine Energy.hemi_abs_le hτ hμ ?_ fun s φ => ?_
    · exact (((cV y hy).comp (by fun_prop) (by fun_prop) (by fun_prop) (by fun_prop)).mul
        ((cS y hy).comp (by fun_prop) (by fun_prop) (by fun_prop) (by fun_prop))).measurable
    · rw [abs_mul]
      exact mul_le_mul (hV y hy _ _ _ _) (hS y hy _ _ _ _) (abs_nonneg _) ((abs_nonneg _).trans (hV y hy 0 0 0 0))
  have := pre_le (N := x.NormBRDF) (b := x.bsf) (I := x.I0) (ω := x.omega) hx.mu0.le (Real.exp_pos (-x.tau / x.muEx)).le
    (Real.exp_pos (-x.tau / x.mu0)).le (hf x rfl hx.tau.le hx.mu0) (hf x.swap rfl hx.tau.le hx.muEx)
  simp only [mul_zero, add_zero, sub_zero] at this
  exact this

/-- The same for every geometry (also with fixed angles). -/
theorem geomInteraction_abs_le {V S : Scatter} {x : Site} {KV KS : ℝ} (hV : ∀ y : Site, y.ρ = x.ρ → ∀ a b u v, |V.expVal y.env a b u v| ≤ KV)
    (hS : ∀ y : Site, y.ρ = x.ρ → ∀ a b u v, |S.expVal y.env a b u v| ≤ KS)
    (cV : ∀ y : Site, y.ρ = x.ρ → Bidir.Cont (V.expVal y.env)) (cS : ∀ y : Site, y.ρ = x.ρ → Bidir.Cont (S.expVal y.env))
    (hx : x.Oblique) (g : Geom4) : |geomInteraction V S g x| ≤ x.coupling * (KV * KS) := by
  have hf : ∀ y : Site, y.ρ = x.ρ → 0 ≤ y.tau → 0 < y.mu0 →
      |geomFint V S g y.mu0 y.tau y.env - 0| ≤ 2 * Real.pi * (1 - Real.exp (-y.tau / y.mu0)) * (KV * KS) := fun y hy hτ hμ => by
    rw [sub_zero]
    refine Energy.hemi_abs_le hτ hμ ?_ fun s φ => ?_
    · exact (((cV y hy).comp (by fun_prop) (by fun_prop) (by fun_prop) (by fun_prop)).mul
        ((cS y hy).comp (by fun_prop) (by fun_prop) (by fun_prop) (by fun_prop))).measurable
    · rw [abs_mul]
      exact mul_le_mul (hV y hy _ _ _ _) (hS y hy _ _ _ _) (abs_nonneg _) ((abs_nonneg _).trans (hV y hy 0 0 0 0))
  have := pre_le (N := x.NormBRDF) (b := x.bsf) (I := x.I0) (ω := x.omega) hx.mu0.le (Real.exp_pos (-x.tau / x.muEx)).le
    (Real.exp_pos (-x.tau / x.mu0)).le (hf x rfl hx.tau.le hx.mu0) (hf x.swap rfl hx.tau.le hx.muEx)
  simp only [mul_zero, add_zero, sub_zero] at this
  refine le_trans (le_of_eq (congrArg abs ?_)) this
  unfold geomInteraction
  show _ = x.NormBRDF * (1 - x.bsf) * x.I0 * x.mu0 * x.omega * (Real.exp (-x.tau / x.muEx) * geomFint V S g x.mu0 x.tau x.env +
    Real.exp (-x.tau / x.mu0) * geomFint V S g x.muEx x.tau x.swap.env)
  ring

/-! ### predefined functions -/

theorem hg_sum {t : ℝ} (ht : |t| < 1) : HasSum (fun n : ℕ => (2 * (n : ℝ) + 1) * |t| ^ n) ((1 + |t|) / (1 - |t|) ^ 2) := by
  have h1 : HasSum (fun n : ℕ => (n : ℝ) * |t| ^ n) (|t| / (1 - |t|) ^ 2) :=
    hasSum_coe_mul_geometric_of_norm_lt_one (𝕜 := ℝ) (r := |t|) (by simpa using ht)
  have h2 := hasSum_geometric_of_lt_one (abs_nonneg t) ht
  have h3 : HasSum (fun n : ℕ => 2 * ((n : ℝ) * |t| ^ n) + |t| ^ n) (2 * (|t| / (1 - |t|) ^ 2) + (1 - |t|)⁻¹) := (h1.mul_left 2).add h2
  have h0 : 1 - |t| ≠ 0 := by linarith
  have e1 : (1 + |t|) / (1 - |t|) ^ 2 = 2 * (|t| / (1 - |t|) ^ 2) + (1 - |t|)⁻¹ := by field_simp; ring
  have e2 : (fun n : ℕ => (2 * (n : ℝ) + 1) * |t| ^ n) = fun n : ℕ => 2 * ((n : ℝ) * |t| ^ n) + |t| ^ n := by funext n; ring
  rw [e1, e2]
  exact h3

/-- Tail of a series whose terms are bounded by those of a Henyey-Greenstein function. -/
theorem tail_geo {t c : ℝ} (ht : |t| < 1) {f : ℕ → ℝ} {n p : ℕ} (hc : 0 ≤ c)
    (hf : ∀ m, |f (m + n)| ≤ c * ((2 * ((m + n : ℕ) : ℝ) + 1) * |t| ^ (m + p))) :
    ∑' m, |f (m + n)| ≤ c * ((1 + |t|) / (1 - |t|) ^ 2) * ((2 * n + 1) * |t| ^ p) := by
  have hs := (hg_sum ht).mul_left (c * ((2 * n + 1) * |t| ^ p))
  have h1 : ∀ m, |f (m + n)| ≤ c * ((2 * n + 1) * |t| ^ p) * ((2 * (m : ℝ) + 1) * |t| ^ m) := fun m => by
    refine (hf m).trans ?_
    have e : c * ((2 * n + 1) * |t| ^ p) * ((2 * (m : ℝ) + 1) * |t| ^ m) = c * (((2 * n + 1) * (2 * m + 1)) * |t| ^ (m + p)) := by
      rw [pow_add]; ring
    rw [e]
    have h2 : (2 * ((m + n : ℕ) : ℝ) + 1) ≤ (2 * n + 1) * (2 * m + 1) := by
      push_cast
      have := mul_nonneg (Nat.cast_nonneg (α := ℝ) m) (Nat.cast_nonneg (α := ℝ) n)
      nlinarith
    gcongr
  have h3 : Summable fun m => |f (m + n)| := Summable.of_nonneg_of_le (fun _ => abs_nonneg _) h1 hs.summable
  refine (h3.tsum_le_tsum h1 hs.summable).trans (le_of_eq ?_)
  rw [hs.tsum_eq]
  ring

theorem hgrCoef_le {t : ℝ} (ht : |t| < 1) {n : ℕ} (hn : 2 ≤ n) : |hgrCoef t n| ≤ 2 * ((2 * (n : ℝ) + 1) * |t| ^ (n - 2)) := by
  obtain ⟨m, rfl⟩ := Nat.exists_eq_add_of_le' hn
  unfold hgrCoef
  rw [if_neg (by omega)]
  simp only [Nat.add_sub_cancel]
  push_cast
  have hm : (0 : ℝ) ≤ m := Nat.cast_nonneg m
  have h0 := abs_nonneg t
  have p1 : |t ^ (m + 2)| ≤ |t| ^ m := by
    rw [abs_pow]; exact pow_le_pow_of_le_one h0 ht.le (by omega)
  have p2 : |t ^ (m + 2 + 2)| ≤ |t| ^ m := by
    rw [abs_pow]; exact pow_le_pow_of_le_one h0 ht.le (by omega)
  have p0 : |t ^ m| ≤ |t| ^ m := by rw [abs_pow]
  have e : (2 : ℝ) * ((2 * (m + 2) + 1) * |t| ^ m) = ((m : ℝ) + 2) * (m + 2 - 1) / (2 * (m + 2) - 1) * |t| ^ m
      + (m + 2 + 2) * (m + 2 + 1) / (2 * (m + 2) + 3) * |t| ^ m + (m + 2 + 1) ^ 2 / (2 * (m + 2) + 3) * |t| ^ m
      + (5 * (m + 2) ^ 2 - 1) / (2 * (m + 2) - 1) * |t| ^ m := by
    have h3 : (2 * ((m : ℝ) + 2) - 1) ≠ 0 := by linarith
    have h7 : (2 * ((m : ℝ) + 2) + 3) ≠ 0 := by positivity
    field_simp
    ring
  rw [e]
  have key : ∀ {c u v : ℝ}, 0 ≤ c → |u| ≤ v → |c * u| ≤ c * v := fun {c u v} hc hu => by
    rw [abs_mul, abs_of_nonneg hc]; gcongr
  have q1 : (0 : ℝ) ≤ 2 * ((m : ℝ) + 2) - 1 := by linarith
  refine (abs_add_le _ _).trans (add_le_add ((abs_add_le _ _).trans (add_le_add ((abs_add_le _ _).trans (add_le_add ?_ ?_)) ?_)) ?_)
  · exact key (div_nonneg (mul_nonneg (by linarith) (by linarith)) q1) p0
  · exact key (by positivity) p2
  · exact key (by positivity) p1
  · exact key (div_nonneg (by nlinarith) q1) p1

theorem Kind.tail_rest (k : Kind) {a0 t : ℝ} (ht : |t| < 1) (hk : ∀ i, k ≠ .srfCosineLobe i) {N : ℕ} (hN : 1 ≤ N) :
    k.tail a0 t N ≤ k.peak a0 t * k.rest t (N + 1) := by
  have hπ := Real.pi_pos
  have hg : ∀ c : ℝ, ∑' m, |c * ((2 * ((m + (N + 1) : ℕ) : ℝ) + 1) * t ^ (m + (N + 1)))| ≤
      |c| * ((1 + |t|) / (1 - |t|) ^ 2) * ((2 * ((N + 1 : ℕ) : ℝ) + 1) * |t| ^ (N + 1)) := fun c =>
    tail_geo ht (f := fun n => c * ((2 * (n : ℝ) + 1) * t ^ n)) (abs_nonneg c) fun m => by
      rw [abs_mul, abs_mul, abs_pow, abs_of_nonneg (by positivity : (0 : ℝ) ≤ 2 * ((m + (N + 1) : ℕ) : ℝ) + 1)]
  cases k with
  | volIsotropic => simp [tail, rest, coefAll, count]
  | volRayleigh => simp [tail, rest, coefAll, count]
  | srfIsotropic => simp [tail, rest, coefAll, count]
  | srfCosineLobe i => exact absurd rfl (hk i)
  | volHG te =>
    have := hg (1 / (4 * Real.pi))
    rw [abs_of_pos (by positivity)] at this
    exact this
  | srfHG te =>
    have := hg (1 / Real.pi)
    rw [abs_of_pos (by positivity)] at this
    exact this
  | srfHGnadirnorm te =>
    have := hg (1 / Phase.hgNadir a0 t * (1 / Real.pi))
    rw [abs_mul, abs_of_pos (by positivity : 0 < 1 / Real.pi)] at this
    simp only [mul_assoc] at this
    show ∑' m, |1 / Phase.hgNadir a0 t * (1 / Real.pi * ((2 * ((m + (N + 1) : ℕ) : ℝ) + 1) * t ^ (m + (N + 1))))| ≤ _
    simp only [peak, rest, mul_assoc]
    exact this
  | volHGRayleigh te =>
    have h0 : (0 : ℝ) < 3 / (8 * Real.pi) * (1 / (2 + t ^ 2)) := by positivity
    have := tail_geo ht (f := fun n => 3 / (8 * Real.pi) * (1 / (2 + t ^ 2)) * hgrCoef t n) (n := N + 1) (p := N - 1)
      (c := 3 / (8 * Real.pi) * (1 / (2 + t ^ 2)) * 2) (by positivity) fun m => by
        rw [abs_mul, abs_of_pos h0, mul_assoc (3 / (8 * Real.pi) * (1 / (2 + t ^ 2))) 2]
        refine mul_le_mul_of_nonneg_left ?_ h0.le
        have := hgrCoef_le ht (n := m + (N + 1)) (by omega)
        rwa [show m + (N + 1) - 2 = m + (N - 1) by omega] at this
    refine this.trans (le_of_eq ?_)
    simp only [peak, rest]
    rw [show N + 1 - 2 = N - 1 by omega]
    field_simp
    ring

theorem Kind.val_peak (k : Kind) {a0 t x : ℝ} (ht : |t| < 1) (hx : |x| ≤ 1) : |k.val a0 t x| ≤ k.peak a0 t := by
  have hπ := Real.pi_pos
  have hb : |(1 - t ^ 2) / (1 + t ^ 2 - 2 * t * x) ^ (3 / 2 : ℝ)| ≤ (1 + |t|) / (1 - |t|) ^ 2 := by
    rw [← (hg_hasSum hx ht).tsum_eq]
    refine tsum_of_norm_bounded (f := fun n : ℕ => (2 * (n : ℝ) + 1) * t ^ n * legP n x) (hg_sum ht) fun n => ?_
    rw [Real.norm_eq_abs, abs_mul, abs_mul, abs_pow, abs_of_nonneg (by positivity : (0 : ℝ) ≤ 2 * (n : ℝ) + 1)]
    exact mul_le_of_le_one_right (by positivity) (legP_abs_le hx n)
  have hx2 : x ^ 2 ≤ 1 := by rw [← sq_abs]; exact pow_le_one₀ (abs_nonneg _) hx
  have key : ∀ {c u v : ℝ}, 0 ≤ c → |u| ≤ v → |c * u| ≤ c * v := fun {c u v} hc hu => by
    rw [abs_mul, abs_of_nonneg hc]; gcongr
  cases k with
  | volIsotropic => exact le_of_eq (abs_of_pos (show 0 < 1 / (4 * Real.pi) by positivity))
  | srfIsotropic => exact le_of_eq (abs_of_pos (show 0 < 1 / Real.pi by positivity))
  | volRayleigh =>
    refine (key (v := 2) (by positivity) ?_).trans (le_of_eq ?_)
    · rw [abs_of_nonneg (by positivity)]; linarith
    · simp only [peak]; field_simp; ring
  | srfCosineLobe i =>
    refine (key (v := 1) (by positivity) ?_).trans (le_of_eq (mul_one _))
    rw [abs_of_nonneg (by positivity)]
    exact pow_le_one₀ (le_max_right _ _) (max_le (le_of_abs_le hx) zero_le_one)
  | volHG te => exact key (by positivity) hb
  | srfHG te => exact key (by positivity) hb
  | srfHGnadirnorm te =>
    simp only [val, peak]
    rw [abs_mul]
    exact mul_le_mul_of_nonneg_left (key (by positivity) hb) (abs_nonneg _)
  | volHGRayleigh te =>
    have h1 : |(1 + x ^ 2) * (1 - t ^ 2) / (1 + t ^ 2 - 2 * t * x) ^ (3 / 2 : ℝ)| ≤ 2 * ((1 + |t|) / (1 - |t|) ^ 2) := by
      rw [mul_div_assoc, abs_mul, abs_of_nonneg (by positivity : (0 : ℝ) ≤ 1 + x ^ 2)]
      exact mul_le_mul (by linarith) hb (abs_nonneg _) (by norm_num)
    refine (key (by positivity) h1).trans (le_of_eq ?_)
    simp only [peak]
    field_simp
    ring

theorem Kind.Admissible.dirs_cont {k : Kind} {a : A3} {x : Site} {a0 a1 a2 t : ℝ} (h : k.Admissible a x a0 a1 a2 t) :
    Bidir.Cont (k.dirs a0 a1 a2 t) := by
  have hu : TendstoUniformly (fun N (z : (ℝ × ℝ) × (ℝ × ℝ)) => (Scatter.prim k a (k.order N)).expVal x.env z.1.1 z.2.1 z.1.2 z.2.2)
      (fun z => k.dirs a0 a1 a2 t z.1.1 z.2.1 z.1.2 z.2.2) atTop := by
    rw [Metric.tendstoUniformly_iff]
    intro e he
    filter_upwards [(k.tail_tendsto (a0 := a0) (t := t)).eventually (gt_mem_nhds he)] with N hN z
    rw [dist_comm, Real.dist_eq, h.expVal N rfl]
    exact (k.trunc h.lt h.lobe (h.cos_le _ _ _ _) le_rfl).trans_lt hN
  exact hu.continuous (Frequently.of_forall fun N => h.growing.cont N x rfl)

theorem Truncated.near {x : Site} {N : ℕ} {o : Scatter} {P : Bidir} {e M : ℝ} (h : Truncated x N o P e M) : Near o x P e M := by
  cases h with
  | prim h hk hN =>
    exact {
      close := fun y hy a b u v => by
        rw [h.expVal N hy]
        exact (Kind.trunc _ h.lt h.lobe (h.cos_le _ _ _ _) le_rfl).trans (Kind.tail_rest _ h.lt hk hN)
      bound := fun a b u v => Kind.val_peak _ h.lt (h.cos_le _ _ _ _)
      cont := h.dirs_cont
      contE := fun y hy => h.growing.cont N y hy }
  | lin l a hl hk hN =>
    exact {
      close := fun y hy t0 tex p0 pex => by
        refine (comb_close l a N hy t0 tex p0 pex).trans (List.sum_le_sum fun s hs => ?_)
        exact mul_le_mul_of_nonneg_left (Kind.tail_rest _ s.ok.lt (hk s hs) hN) (abs_nonneg _)
      bound := fun t0 tex p0 pex => by
        have := list_sum_close (l := l) (f := fun s => s.c * s.k.dirs s.a0 s.a1 s.a2 s.t t0 tex p0 pex) (T := fun _ => 0)
          (E := fun s => |s.c| * s.k.peak s.a0 s.t) fun s _ => by
            rw [sub_zero, abs_mul]
            exact mul_le_mul_of_nonneg_left (Kind.val_peak _ s.ok.lt (s.ok.cos_le _ _ _ _)) (abs_nonneg _)
        simpa [combDirs] using this
      cont := by
        unfold Bidir.Cont combDirs
        exact continuous_list_sum _ fun s _ => continuous_const.mul s.ok.dirs_cont
      contE := fun y hy => comb_cont l a N y }

end

end RT1
