import Verif.Spec.Legendre
import Mathlib.RingTheory.PowerSeries.Derivative
import Mathlib.Analysis.Complex.Trigonometric
import Mathlib.Analysis.SpecialFunctions.Trigonometric.Inverse
import Mathlib.Analysis.SpecificLimits.Normed
import Mathlib.Analysis.Normed.Ring.InfiniteSum
import Mathlib.Data.Nat.Choose.Central
import Mathlib.Analysis.Complex.Basic
import Mathlib.Analysis.SpecialFunctions.Pow.Real

/-! Legendre polynomials: bound on [-1, 1], generating functions. -/

namespace RT1

noncomputable section
open PowerSeries

/-- Value of the Legendre polynomial. -/
def legP (n : ℕ) (x : ℝ) : ℝ := (legendre n).eval x

theorem legP_zero (x : ℝ) : legP 0 x = 1 := by simp [legP, legendre]
theorem legP_one (x : ℝ) : legP 1 x = x := by simp [legP, legendre]
theorem legP_rec (n : ℕ) (x : ℝ) :
    ((n : ℝ) + 2) * legP (n + 2) x = (2 * n + 3) * x * legP (n + 1) x - (n + 1) * legP n x := by
  have h : ((n : ℝ) + 2) ≠ 0 := by positivity
  simp only [legP, legendre, Polynomial.eval_sub, Polynomial.eval_mul, Polynomial.eval_C, Polynomial.eval_X]
  push_cast
  field_simp

theorem legP_at_one (n : ℕ) : legP n 1 = 1 := by
  induction n using Nat.strong_induction_on with
  | _ n ih =>
    match n with
    | 0 => exact legP_zero 1
    | 1 => exact legP_one 1
    | n + 2 =>
      have h := legP_rec n 1
      rw [ih (n + 1) (by omega), ih n (by omega)] at h
      have h2 : ((n : ℝ) + 2) ≠ 0 := by positivity
      have : ((n : ℝ) + 2) * (legP (n + 2) 1 - 1) = 0 := by linarith
      rcases mul_eq_zero.mp this with h3 | h3
      · exact absurd h3 h2
      · linarith

/-- A sequence with Bonnet's recurrence is the sequence of Legendre polynomials. -/
theorem legP_unique {x : ℝ} {b : ℕ → ℂ} (h0 : b 0 = 1) (h1 : b 1 = x)
    (hr : ∀ n : ℕ, ((n : ℂ) + 2) * b (n + 2) = (2 * n + 3) * x * b (n + 1) - (n + 1) * b n) (n : ℕ) :
    b n = legP n x := by
  induction n using Nat.strong_induction_on with
  | _ n ih =>
    match n with
    | 0 => rw [h0, legP_zero]; simp
    | 1 => rw [h1, legP_one]
    | n + 2 =>
      have h2 : ((n : ℂ) + 2) ≠ 0 := by
        have : ((n + 2 : ℕ) : ℂ) ≠ 0 := Nat.cast_ne_zero.mpr (by omega)
        push_cast at this
        exact this
      refine mul_left_cancel₀ h2 ?_
      rw [hr n, ih (n + 1) (by omega), ih n (by omega)]
      have := congrArg (fun r : ℝ => (r : ℂ)) (legP_rec n x)
      push_cast at this
      exact this.symm

/-- Coefficients of `(1 - X)^(-1/2)`. -/
def invSqrtCoef (k : ℕ) : ℝ := (Nat.centralBinom k : ℝ) / 4 ^ k

theorem invSqrtCoef_nonneg (k : ℕ) : 0 ≤ invSqrtCoef k := by unfold invSqrtCoef; positivity
theorem invSqrtCoef_zero : invSqrtCoef 0 = 1 := by simp [invSqrtCoef]
theorem invSqrtCoef_succ (k : ℕ) : ((k : ℝ) + 1) * invSqrtCoef (k + 1) = (k + 1 / 2) * invSqrtCoef k := by
  unfold invSqrtCoef
  have h := Nat.succ_mul_centralBinom_succ k
  have h' : ((k : ℝ) + 1) * (Nat.centralBinom (k + 1) : ℝ) = 2 * (2 * k + 1) * (Nat.centralBinom k : ℝ) := by
    exact_mod_cast h
  rw [pow_succ, ← mul_div_assoc, h']
  field_simp
  ring

theorem invSqrtCoef_le_one (k : ℕ) : invSqrtCoef k ≤ 1 := by
  induction k with
  | zero => rw [invSqrtCoef_zero]
  | succ k ih =>
    have h := invSqrtCoef_succ k
    have h1 := invSqrtCoef_nonneg k
    have h2 : ((k : ℝ) + 1) * invSqrtCoef (k + 1) ≤ (k + 1) * 1 := by
      rw [h]; nlinarith [(Nat.cast_nonneg k : (0 : ℝ) ≤ k)]
    exact le_of_mul_le_mul_left h2 (by positivity)

/-- `(1 - z X)^(-1/2)`. -/
def invSqrt (z : ℂ) : PowerSeries ℂ := PowerSeries.mk fun n => (invSqrtCoef n : ℂ) * z ^ n

theorem invSqrt_ode (z : ℂ) :
    (1 - C z * X) * (PowerSeries.derivative ℂ (invSqrt z)) = C (z / 2) * invSqrt z := by
  ext n
  have hs : ∀ n : ℕ, ((n : ℂ) + 1) * (invSqrtCoef (n + 1) : ℂ) = (n + 1 / 2) * (invSqrtCoef n : ℂ) := by
    intro n
    have := congrArg (fun r : ℝ => (r : ℂ)) (invSqrtCoef_succ n)
    push_cast at this
    exact this
  rw [sub_mul, one_mul, map_sub, mul_assoc, coeff_C_mul, coeff_C_mul, coeff_derivative, invSqrt, coeff_mk, coeff_mk]
  cases n with
  | zero =>
    rw [coeff_zero_X_mul]
    have := hs 0
    simp at this ⊢
    rw [this, invSqrtCoef_zero]
    ring
  | succ n =>
    rw [coeff_succ_X_mul, coeff_derivative, coeff_mk]
    have := hs (n + 1)
    push_cast at this ⊢
    have e : (invSqrtCoef (n + 1 + 1) : ℂ) * z ^ (n + 1 + 1) * (n + 1 + 1) =
        ((n + 1 + 1) * (invSqrtCoef (n + 1 + 1) : ℂ)) * z ^ (n + 1 + 1) := by ring
    rw [e, this]
    ring

/-- The product for `z` and `1/z`. -/
theorem legendre_ode {z w x : ℂ} (hzw : z * w = 1) (hx : z + w = 2 * x) :
    (1 - C (2 * x) * X + X * X) * (PowerSeries.derivative ℂ (invSqrt z * invSqrt w)) =
      (C x - X) * (invSqrt z * invSqrt w) := by
  have h1 := invSqrt_ode z
  have h2 := invSqrt_ode w
  have hd : (1 - C (2 * x) * X + X * X : PowerSeries ℂ) = (1 - C z * X) * (1 - C w * X) := by
    rw [← hx, map_add]
    have : (C z * C w : PowerSeries ℂ) = 1 := by rw [← map_mul, hzw, map_one]
    linear_combination (-(X * X : PowerSeries ℂ)) * this
  have hC : (C (z / 2) + C (w / 2) : PowerSeries ℂ) = C x := by
    rw [← map_add]; congr 1; linear_combination hx / 2
  have e1 : (C (z / 2) * C w : PowerSeries ℂ) = C (1 / 2) := by
    rw [← map_mul]; congr 1; linear_combination hzw / 2
  have e2 : (C (w / 2) * C z : PowerSeries ℂ) = C (1 / 2) := by
    rw [← map_mul]; congr 1; linear_combination hzw / 2
  have e3 : (C (1 / 2) + C (1 / 2) : PowerSeries ℂ) = 1 := by
    rw [← map_add]; norm_num
  rw [hd, Derivation.leibniz]
  simp only [smul_eq_mul]
  linear_combination (1 - C z * X) * invSqrt z * h2 + (1 - C w * X) * invSqrt w * h1
    + (invSqrt z * invSqrt w) * hC - X * (invSqrt z * invSqrt w) * (e1 + e2 + e3)

theorem bonnet_of_ode {x : ℂ} {B : PowerSeries ℂ}
    (h : (1 - C (2 * x) * X + X * X) * (PowerSeries.derivative ℂ B) = (C x - X) * B) :
    coeff 1 B = x * coeff 0 B ∧ ∀ n : ℕ, ((n : ℂ) + 2) * coeff (n + 2) B =
      (2 * n + 3) * x * coeff (n + 1) B - (n + 1) * coeff n B := by
  have key : ∀ n, coeff n ((1 - C (2 * x) * X + X * X) * (PowerSeries.derivative ℂ B)) = coeff n ((C x - X) * B) :=
    fun n => by rw [h]
  have ex : ∀ n, coeff n ((1 - C (2 * x) * X + X * X) * (PowerSeries.derivative ℂ B)) =
      coeff n (PowerSeries.derivative ℂ B) - 2 * x * coeff n (X * PowerSeries.derivative ℂ B)
        + coeff n (X * (X * PowerSeries.derivative ℂ B)) := by
    intro n
    rw [add_mul, sub_mul, one_mul, map_add, map_sub, mul_assoc, coeff_C_mul, mul_assoc X X]
  have ey : ∀ n, coeff n ((C x - X) * B) = x * coeff n B - coeff n (X * B) := by
    intro n
    rw [sub_mul, map_sub, coeff_C_mul]
  constructor
  · have := key 0
    rw [ex, ey, coeff_zero_X_mul, coeff_zero_X_mul, coeff_zero_X_mul, coeff_derivative] at this
    simpa using this
  · intro n
    have := key (n + 1)
    rw [ex, ey, coeff_succ_X_mul, coeff_succ_X_mul, coeff_succ_X_mul, coeff_derivative, coeff_derivative] at this
    cases n with
    | zero =>
      rw [coeff_zero_X_mul] at this
      push_cast at this ⊢
      linear_combination this
    | succ n =>
      rw [coeff_succ_X_mul, coeff_derivative] at this
      push_cast at this ⊢
      linear_combination this

/-- Explicit form for `x = (z + 1/z) / 2`. -/
theorem legP_explicit {z w : ℂ} {x : ℝ} (hzw : z * w = 1) (hx : z + w = 2 * x) (n : ℕ) :
    (legP n x : ℂ) = ∑ p ∈ Finset.antidiagonal n,
      ((invSqrtCoef p.1 : ℂ) * z ^ p.1) * ((invSqrtCoef p.2 : ℂ) * w ^ p.2) := by
  obtain ⟨h1, h2⟩ := bonnet_of_ode (legendre_ode hzw hx)
  have h0 : coeff 0 (invSqrt z * invSqrt w) = 1 := by
    rw [coeff_mul]
    simp [invSqrt, invSqrtCoef_zero]
  have := legP_unique (x := x) (b := fun n => coeff n (invSqrt z * invSqrt w)) h0
    (by rw [h1, h0, mul_one]) h2 n
  rw [← this]
  simp only [coeff_mul, invSqrt, coeff_mk]

theorem legP_one_explicit (n : ℕ) :
    ∑ p ∈ Finset.antidiagonal n, invSqrtCoef p.1 * invSqrtCoef p.2 = 1 := by
  have := legP_explicit (z := 1) (w := 1) (x := 1) (by norm_num) (by norm_num) n
  rw [legP_at_one] at this
  have h : ((∑ p ∈ Finset.antidiagonal n, invSqrtCoef p.1 * invSqrtCoef p.2 : ℝ) : ℂ) = ((1 : ℝ) : ℂ) := by
    rw [this]; push_cast; simp
  exact_mod_cast h

/-- The unit circle point with real part `x`. -/
theorem circle_point {x : ℝ} (hx : |x| ≤ 1) :
    ∃ z w : ℂ, z * w = 1 ∧ z + w = 2 * x ∧ ‖z‖ = 1 ∧ w = starRingEnd ℂ z := by
  have h := abs_le.mp hx
  refine ⟨Complex.exp (Real.arccos x * Complex.I), Complex.exp (-(Real.arccos x * Complex.I)), ?_, ?_, ?_, ?_⟩
  · rw [← Complex.exp_add]; simp
  · have h1 : Complex.cos (Real.arccos x) = x := by
      rw [← Complex.ofReal_cos, Real.cos_arccos h.1 h.2]
    rw [← h1, Complex.cos, neg_mul]
    ring
  · rw [Complex.norm_exp_ofReal_mul_I]
  · rw [← Complex.exp_conj]
    simp

theorem legP_abs_le {x : ℝ} (hx : |x| ≤ 1) (n : ℕ) : |legP n x| ≤ 1 := by
  obtain ⟨z, w, h1, h2, h3, h4⟩ := circle_point hx
  have hw : ‖w‖ = 1 := by rw [h4]; simpa using h3
  have := legP_explicit h1 h2 n
  rw [← Real.norm_eq_abs, ← Complex.norm_real, this]
  refine (norm_sum_le _ _).trans ?_
  rw [← legP_one_explicit n]
  refine Finset.sum_le_sum fun p _ => ?_
  rw [norm_mul, norm_mul, norm_mul, norm_pow, norm_pow, h3, hw, one_pow, one_pow, mul_one, mul_one,
    Complex.norm_real, Complex.norm_real, Real.norm_of_nonneg (invSqrtCoef_nonneg _),
    Real.norm_of_nonneg (invSqrtCoef_nonneg _)]

/-! ## Generating functions -/

theorem invSqrt_summable {w : ℂ} (hw : ‖w‖ < 1) : Summable fun n => ‖(invSqrtCoef n : ℂ) * w ^ n‖ := by
  refine Summable.of_nonneg_of_le (fun _ => norm_nonneg _) (fun n => ?_) (summable_geometric_of_lt_one (norm_nonneg w) hw)
  rw [norm_mul, norm_pow, Complex.norm_real, Real.norm_of_nonneg (invSqrtCoef_nonneg n)]
  exact mul_le_of_le_one_left (by positivity) (invSqrtCoef_le_one n)

/-- `(1 - w)^(-1/2)`. -/
def invSqrtSum (w : ℂ) : ℂ := ∑' n, (invSqrtCoef n : ℂ) * w ^ n

theorem invSqrtSum_sq {w : ℂ} (hw : ‖w‖ < 1) : invSqrtSum w * invSqrtSum w = (1 - w)⁻¹ := by
  unfold invSqrtSum
  rw [tsum_mul_tsum_eq_tsum_sum_antidiagonal_of_summable_norm (invSqrt_summable hw) (invSqrt_summable hw),
    ← tsum_geometric_of_norm_lt_one hw]
  refine tsum_congr fun n => ?_
  have h : ∑ p ∈ Finset.antidiagonal n, (invSqrtCoef p.1 : ℂ) * w ^ p.1 * ((invSqrtCoef p.2 : ℂ) * w ^ p.2) =
      (∑ p ∈ Finset.antidiagonal n, (invSqrtCoef p.1 : ℂ) * (invSqrtCoef p.2 : ℂ)) * w ^ n := by
    rw [Finset.sum_mul]
    refine Finset.sum_congr rfl fun p hp => ?_
    rw [← Finset.mem_antidiagonal.mp hp, pow_add]
    ring
  rw [h]
  have := congrArg (fun r : ℝ => (r : ℂ)) (legP_one_explicit n)
  push_cast at this
  rw [this, one_mul]

theorem invSqrtSum_norm {w : ℂ} (hw : ‖w‖ < 1) : ‖invSqrtSum w‖ ^ 2 = ‖1 - w‖⁻¹ := by
  rw [sq, ← norm_mul, invSqrtSum_sq hw, norm_inv]

theorem legP_summable {x t : ℝ} (hx : |x| ≤ 1) (ht : |t| < 1) : Summable fun n => legP n x * t ^ n := by
  refine Summable.of_norm_bounded (g := fun n => |t| ^ n) (summable_geometric_of_lt_one (abs_nonneg t) ht) fun n => ?_
  rw [Real.norm_eq_abs, abs_mul, abs_pow]
  exact mul_le_of_le_one_left (by positivity) (legP_abs_le hx n)

/-- The generating function of the Legendre polynomials. -/
theorem legP_gen {x t : ℝ} (hx : |x| ≤ 1) (ht : |t| < 1) :
    ∑' n, legP n x * t ^ n = (Real.sqrt (1 + t ^ 2 - 2 * t * x))⁻¹ := by
  obtain ⟨z, w, h1, h2, h3, h4⟩ := circle_point hx
  have hz : ‖(t : ℂ) * z‖ < 1 := by rw [norm_mul, h3, mul_one, Complex.norm_real]; exact ht
  have hw : ‖(t : ℂ) * w‖ < 1 := by rw [h4, norm_mul, RCLike.norm_conj, h3, mul_one, Complex.norm_real]; exact ht
  have e1 : ((∑' n, legP n x * t ^ n : ℝ) : ℂ) = invSqrtSum (t * z) * invSqrtSum (t * w) := by
    unfold invSqrtSum
    rw [tsum_mul_tsum_eq_tsum_sum_antidiagonal_of_summable_norm (invSqrt_summable hz) (invSqrt_summable hw),
      Complex.ofReal_tsum]
    refine tsum_congr fun n => ?_
    push_cast
    rw [legP_explicit h1 h2, Finset.sum_mul]
    refine Finset.sum_congr rfl fun p hp => ?_
    rw [← Finset.mem_antidiagonal.mp hp, pow_add]
    ring
  have e2 : invSqrtSum (t * w) = starRingEnd ℂ (invSqrtSum (t * z)) := by
    unfold invSqrtSum
    rw [Complex.conj_tsum]
    refine tsum_congr fun n => ?_
    simp [h4]
  rw [e2, Complex.mul_conj, Complex.normSq_eq_norm_sq, invSqrtSum_norm hz] at e1
  have e3 : ∑' n, legP n x * t ^ n = ‖1 - (t : ℂ) * z‖⁻¹ := by exact_mod_cast e1
  rw [e3]
  congr 1
  rw [← Real.sqrt_sq (norm_nonneg (1 - (t : ℂ) * z)), ← Complex.normSq_eq_norm_sq]
  congr 1
  have hre : z.re = x := by
    have := congrArg Complex.re h2
    rw [h4] at this
    simp at this
    linarith
  have hn : z.re * z.re + z.im * z.im = 1 := by
    rw [← Complex.normSq_apply, Complex.normSq_eq_norm_sq, h3]; norm_num
  rw [Complex.normSq_apply]
  simp [hre]
  rw [hre] at hn
  linear_combination t ^ 2 * hn

/-- `(n + 1) P_{n+1}`. -/
theorem legP_der_summable {x t : ℝ} (hx : |x| ≤ 1) (ht : |t| < 1) :
    Summable fun n : ℕ => ((n : ℝ) + 1) * legP (n + 1) x * t ^ n := by
  have hb : Summable fun n : ℕ => ((n : ℝ) + 1) * |t| ^ n := by
    have h1 := summable_pow_mul_geometric_of_norm_lt_one (R := ℝ) 1 (r := |t|) (by simpa using ht)
    have h2 := summable_geometric_of_lt_one (abs_nonneg t) ht
    refine (h1.add h2).congr fun n => ?_
    simp; ring
  refine Summable.of_norm_bounded hb fun n => ?_
  rw [Real.norm_eq_abs, abs_mul, abs_mul, abs_pow, abs_of_nonneg (by positivity : (0 : ℝ) ≤ (n : ℝ) + 1)]
  have := legP_abs_le hx (n + 1)
  refine mul_le_mul_of_nonneg_right ?_ (by positivity)
  exact mul_le_of_le_one_right (by positivity) this

/-- Derivative of the generating function. -/
theorem legP_gen_der {x t : ℝ} (hx : |x| ≤ 1) (ht : |t| < 1) :
    (1 + t ^ 2 - 2 * t * x) * ∑' n : ℕ, ((n : ℝ) + 1) * legP (n + 1) x * t ^ n =
      (x - t) * ∑' n, legP n x * t ^ n := by
  have hp := legP_summable hx ht
  have hq := legP_der_summable hx ht
  by_cases h0 : t = 0
  · subst h0
    have e1 : ∑' n : ℕ, ((n : ℝ) + 1) * legP (n + 1) x * (0 : ℝ) ^ n = legP 1 x := by
      rw [tsum_eq_single 0 (fun n hn => by simp [hn])]; simp
    have e2 : ∑' n : ℕ, legP n x * (0 : ℝ) ^ n = 1 := by
      rw [tsum_eq_single 0 (fun n hn => by simp [hn])]; simp [legP_zero]
    rw [e1, e2, legP_one]
    ring
  have hp1 : Summable fun n => legP (n + 1) x * t ^ n := by
    have := (summable_nat_add_iff 1).mpr hp
    refine (this.mul_right t⁻¹).congr fun n => ?_
    rw [pow_succ]; field_simp
  have hp2 : Summable fun n => legP (n + 2) x * t ^ n := by
    have := (summable_nat_add_iff 2).mpr hp
    refine (this.mul_right (t ^ 2)⁻¹).congr fun n => ?_
    rw [pow_add]; field_simp
  have hq1 : Summable fun n : ℕ => ((n : ℝ) + 2) * legP (n + 2) x * t ^ n := by
    have := (summable_nat_add_iff 1).mpr hq
    refine (this.mul_right t⁻¹).congr fun n => ?_
    rw [pow_succ]; push_cast; field_simp; ring
  have hq2 : Summable fun n : ℕ => ((n : ℝ) + 3) * legP (n + 3) x * t ^ n := by
    have := (summable_nat_add_iff 2).mpr hq
    refine (this.mul_right (t ^ 2)⁻¹).congr fun n => ?_
    rw [pow_add]; push_cast; field_simp; ring
  have sp : ∑' n, legP n x * t ^ n = 1 + t * ∑' n, legP (n + 1) x * t ^ n := by
    rw [hp.tsum_eq_zero_add, ← tsum_mul_left]
    congr 1
    · simp [legP_zero]
    · exact tsum_congr fun n => by rw [pow_succ]; ring
  have sp1 : ∑' n, legP (n + 1) x * t ^ n = x + t * ∑' n, legP (n + 2) x * t ^ n := by
    rw [hp1.tsum_eq_zero_add, ← tsum_mul_left]
    congr 1
    · simp [legP_one]
    · exact tsum_congr fun n => by rw [pow_succ]; ring
  have sq : ∑' n : ℕ, ((n : ℝ) + 1) * legP (n + 1) x * t ^ n =
      x + t * ∑' n : ℕ, ((n : ℝ) + 2) * legP (n + 2) x * t ^ n := by
    rw [hq.tsum_eq_zero_add, ← tsum_mul_left]
    congr 1
    · simp [legP_one]
    · exact tsum_congr fun n => by rw [pow_succ]; push_cast; ring
  have sq1 : ∑' n : ℕ, ((n : ℝ) + 2) * legP (n + 2) x * t ^ n =
      2 * legP 2 x + t * ∑' n : ℕ, ((n : ℝ) + 3) * legP (n + 3) x * t ^ n := by
    rw [hq1.tsum_eq_zero_add, ← tsum_mul_left]
    congr 1
    · simp
    · exact tsum_congr fun n => by rw [pow_succ]; push_cast; ring
  have hrec : ∑' n : ℕ, ((n : ℝ) + 3) * legP (n + 3) x * t ^ n =
      2 * x * ∑' n : ℕ, ((n : ℝ) + 2) * legP (n + 2) x * t ^ n
        - ∑' n : ℕ, ((n : ℝ) + 1) * legP (n + 1) x * t ^ n
        + (x * ∑' n, legP (n + 2) x * t ^ n - ∑' n, legP (n + 1) x * t ^ n) := by
    rw [← tsum_mul_left, ← tsum_mul_left, ← Summable.tsum_sub (hq1.mul_left _) hq,
      ← Summable.tsum_sub (hp2.mul_left _) hp1, ← Summable.tsum_add ((hq1.mul_left _).sub hq) ((hp2.mul_left _).sub hp1)]
    refine tsum_congr fun n => ?_
    have := legP_rec (n + 1) x
    push_cast at this
    have e : ((n : ℝ) + 3) * legP (n + 3) x = (2 * (n + 1) + 3) * x * legP (n + 2) x - (n + 1 + 1) * legP (n + 1) x := by
      rw [← this]; ring_nf
    rw [e]
    ring
  have h2 := legP_rec 0 x
  rw [legP_zero, legP_one] at h2
  norm_num at h2
  set P0 := ∑' n, legP n x * t ^ n
  set P1 := ∑' n, legP (n + 1) x * t ^ n
  set P2 := ∑' n, legP (n + 2) x * t ^ n
  set Q0 := ∑' n : ℕ, ((n : ℝ) + 1) * legP (n + 1) x * t ^ n
  set Q1 := ∑' n : ℕ, ((n : ℝ) + 2) * legP (n + 2) x * t ^ n
  set Q2 := ∑' n : ℕ, ((n : ℝ) + 3) * legP (n + 3) x * t ^ n
  linear_combination (1 - 2 * t * x) * sq + t * sq1 + t ^ 2 * hrec - (x - t) * sp - t * x * sp1 + t * h2

/-- The expansion of the Henyey-Greenstein function. -/
theorem hg_hasSum {x t : ℝ} (hx : |x| ≤ 1) (ht : |t| < 1) :
    HasSum (fun n : ℕ => (2 * (n : ℝ) + 1) * t ^ n * legP n x)
      ((1 - t ^ 2) / (1 + t ^ 2 - 2 * t * x) ^ (3 / 2 : ℝ)) := by
  have hp := legP_summable hx ht
  have hq := legP_der_summable hx ht
  have hD : 0 < 1 + t ^ 2 - 2 * t * x := by
    have h1 := abs_le.mp hx
    have h2 := abs_lt.mp ht
    nlinarith [sq_nonneg (t - x), sq_nonneg (t + x), mul_nonneg (sub_nonneg.mpr h1.2) (by linarith : (0:ℝ) ≤ 1 + x),
      mul_pos (sub_pos.mpr h2.2) (by linarith : (0:ℝ) < 1 + t)]
  have hs : Summable fun n : ℕ => (2 * (n : ℝ) + 1) * t ^ n * legP n x := by
    refine (summable_nat_add_iff 1).mp ?_
    have hp1 := (summable_nat_add_iff 1).mpr hp
    refine ((hq.mul_left (2 * t)).add hp1).congr fun n => ?_
    push_cast
    rw [pow_succ]
    ring
  have e : ∑' n : ℕ, (2 * (n : ℝ) + 1) * t ^ n * legP n x =
      2 * t * (∑' n : ℕ, ((n : ℝ) + 1) * legP (n + 1) x * t ^ n) + ∑' n, legP n x * t ^ n := by
    rw [hs.tsum_eq_zero_add, hp.tsum_eq_zero_add, ← tsum_mul_left]
    have hp1 := (summable_nat_add_iff 1).mpr hp
    rw [show ∀ a b c : ℝ, a + (b + c) = b + (a + c) from fun a b c => by ring,
      ← Summable.tsum_add (hq.mul_left _) hp1]
    congr 1
    · simp
    · refine tsum_congr fun n => ?_
      push_cast
      rw [pow_succ]
      ring
  have hd := legP_gen_der hx ht
  have hg := legP_gen hx ht
  convert hs.hasSum using 1
  rw [e]
  have hsq : 0 < Real.sqrt (1 + t ^ 2 - 2 * t * x) := Real.sqrt_pos.mpr hD
  have h32 : (1 + t ^ 2 - 2 * t * x) ^ (3 / 2 : ℝ) = (1 + t ^ 2 - 2 * t * x) * Real.sqrt (1 + t ^ 2 - 2 * t * x) := by
    rw [Real.sqrt_eq_rpow, show (3 / 2 : ℝ) = 1 + 1 / 2 by norm_num, Real.rpow_add hD, Real.rpow_one]
  have h1 : ∑' n : ℕ, ((n : ℝ) + 1) * legP (n + 1) x * t ^ n =
      (x - t) * (Real.sqrt (1 + t ^ 2 - 2 * t * x))⁻¹ / (1 + t ^ 2 - 2 * t * x) := by
    rw [← hg, eq_div_iff hD.ne', mul_comm, hd]
  rw [h1, hg, h32]
  have hD0 := hD.ne'
  have hs0 := hsq.ne'
  generalize Real.sqrt (1 + t ^ 2 - 2 * t * x) = σ at hs0 ⊢
  have e2 : 1 - t ^ 2 = 2 * t * (x - t) + (1 + t ^ 2 - 2 * t * x) := by ring
  rw [e2]
  generalize 1 + t ^ 2 - 2 * t * x = D at hD0 ⊢
  field_simp

end

end RT1
