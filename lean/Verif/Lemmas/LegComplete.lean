import Verif.Lemmas.LegendreL
import Mathlib.Topology.ContinuousMap.Weierstrass
import Mathlib.MeasureTheory.Integral.IntervalIntegral.FundThmCalculus
import Mathlib.Analysis.Calculus.Deriv.Polynomial
import Mathlib.Analysis.Normed.Group.FunctionSeries
import Mathlib.Tactic.LinearCombination

/-!
# Orthogonality and completeness of the Legendre polynomials

A continuous function on [-1, 1] whose Legendre coefficients are absolutely summable is the sum of
its Legendre series.
-/

namespace RT1

noncomputable section
open Polynomial

theorem bonnet (n : ℕ) : ((n : ℝ[X]) + 2) * legendre (n + 2)
    = (2 * (n : ℝ[X]) + 3) * X * legendre (n + 1) - ((n : ℝ[X]) + 1) * legendre n := by
  have h2 : (C 2 : ℝ[X]) = 2 := map_ofNat C 2
  have h3 : (C 3 : ℝ[X]) = 3 := map_ofNat C 3
  have h : ((n : ℝ) + 2) ≠ 0 := by positivity
  have e1 : ((n : ℝ[X]) + 2) * C (((2 * n + 3 : ℕ) : ℝ) / ((n + 2 : ℕ) : ℝ)) = 2 * n + 3 := by
    rw [show ((n : ℝ[X]) + 2) = C ((n : ℝ) + 2) by simp [h2], ← C_mul]
    push_cast
    rw [mul_div_cancel₀ _ h]
    simp [h2, h3]
  have e2 : ((n : ℝ[X]) + 2) * C (((n + 1 : ℕ) : ℝ) / ((n + 2 : ℕ) : ℝ)) = n + 1 := by
    rw [show ((n : ℝ[X]) + 2) = C ((n : ℝ) + 2) by simp [h2], ← C_mul]
    push_cast
    rw [mul_div_cancel₀ _ h]
    simp [h2, h3]
  rw [legendre]
  linear_combination (X * legendre (n + 1)) * e1 - legendre n * e2

theorem natcast_ne (n : ℕ) : ((n : ℝ[X]) + 2) ≠ 0 := by
  rw [show ((n : ℝ[X]) + 2) = ((n + 2 : ℕ) : ℝ[X]) by push_cast; ring]
  exact Nat.cast_ne_zero.mpr (by omega)

/-- Both relations between derivatives of neighbouring Legendre polynomials. -/
theorem legendre_der (n : ℕ) :
    derivative (legendre (n + 1)) = X * derivative (legendre n) + ((n : ℝ[X]) + 1) * legendre n ∧
    X * derivative (legendre (n + 1)) = derivative (legendre n) + ((n : ℝ[X]) + 1) * legendre (n + 1) := by
  induction n with
  | zero => simp [legendre]
  | succ n ih =>
    obtain ⟨h1, h2⟩ := ih
    have hb := bonnet n
    have hd := congrArg derivative hb
    simp only [derivative_mul, derivative_sub, derivative_add, derivative_natCast, derivative_X, derivative_one,
      derivative_ofNat, zero_mul, mul_zero, zero_add, add_zero, mul_one] at hd
    have k1 : derivative (legendre (n + 2)) = X * derivative (legendre (n + 1)) + ((n : ℝ[X]) + 2) * legendre (n + 1) := by
      refine mul_left_cancel₀ (natcast_ne n) ?_
      linear_combination hd + (n + 1) * h2
    have k1' := k1
    refine ⟨by push_cast; linear_combination k1, ?_⟩
    push_cast
    linear_combination X * k1 + X * h2 - h1 - hb

theorem legendre_ode' (n : ℕ) : derivative ((1 - X ^ 2) * derivative (legendre n)) = -((n : ℝ[X]) * ((n : ℝ[X]) + 1)) * legendre n := by
  cases n with
  | zero => simp [legendre]
  | succ n =>
    obtain ⟨h1, h2⟩ := legendre_der n
    have e : (1 - X ^ 2) * derivative (legendre (n + 1)) = ((n : ℝ[X]) + 1) * (legendre n - X * legendre (n + 1)) := by
      linear_combination h1 - X * h2
    rw [e]
    simp only [derivative_mul, derivative_sub, derivative_add, derivative_natCast, derivative_X, derivative_one,
      zero_mul, zero_add, add_zero, one_mul]
    push_cast
    linear_combination -(n + 1) * h2

/-- Integral over [-1, 1]. -/
theorem poly_integral_der (p : ℝ[X]) : ∫ x in (-1 : ℝ)..1, (derivative p).eval x = p.eval 1 - p.eval (-1) :=
  intervalIntegral.integral_eq_sub_of_hasDerivAt (fun x _ => p.hasDerivAt x) ((derivative p).continuous.intervalIntegrable _ _)

theorem legendre_orthogonal {n m : ℕ} (h : n ≠ m) : ∫ x in (-1 : ℝ)..1, legP n x * legP m x = 0 := by
  have e : derivative ((1 - X ^ 2) * derivative (legendre n) * legendre m - (1 - X ^ 2) * derivative (legendre m) * legendre n)
      = ((m : ℝ[X]) * ((m : ℝ[X]) + 1) - (n : ℝ[X]) * ((n : ℝ[X]) + 1)) * (legendre n * legendre m) := by
    rw [derivative_sub, derivative_mul (f := (1 - X ^ 2) * derivative (legendre n)),
      derivative_mul (f := (1 - X ^ 2) * derivative (legendre m)), legendre_ode', legendre_ode']
    ring
  have hi := poly_integral_der ((1 - X ^ 2) * derivative (legendre n) * legendre m - (1 - X ^ 2) * derivative (legendre m) * legendre n)
  rw [e] at hi
  simp only [eval_sub, eval_mul, eval_add, eval_natCast, eval_one, eval_pow, eval_X, one_pow, sub_self, zero_mul,
    even_two.neg_pow, intervalIntegral.integral_const_mul] at hi
  rcases mul_eq_zero.mp hi with h0 | h0
  · exfalso
    have hn : ((m : ℝ) - n) * (m + n + 1) = 0 := by linear_combination h0
    rcases mul_eq_zero.mp hn with h1 | h1
    · exact h (by exact_mod_cast (sub_eq_zero.mp h1).symm)
    · have : (0 : ℝ) < m + n + 1 := by positivity
      linarith
  · exact h0

@[fun_prop] theorem legP_cont (n : ℕ) : Continuous (legP n) := (legendre n).continuous

theorem legendre_norm (n : ℕ) : ∫ x in (-1 : ℝ)..1, legP n x * legP n x = 2 / (2 * n + 1) := by
  have ii : ∀ f : ℝ → ℝ, Continuous f → IntervalIntegrable f MeasureTheory.volume (-1) 1 := fun f hf => hf.intervalIntegrable _ _
  induction n with
  | zero => simp [legP_zero]; norm_num
  | succ n ih =>
    -- ∫ x P_{n+1} P_n in two ways
    have a1 : ∀ k : ℕ, ∫ x in (-1 : ℝ)..1, (2 * (k : ℝ) + 3) * (x * legP (k + 1) x * legP k x) = (k + 1) * ∫ x in (-1 : ℝ)..1, legP k x * legP k x := by
      intro k
      have e : ∀ x, (2 * (k : ℝ) + 3) * (x * legP (k + 1) x * legP k x)
          = (k + 2) * (legP (k + 2) x * legP k x) + (k + 1) * (legP k x * legP k x) := fun x => by
        have := legP_rec k x
        linear_combination -legP k x * this
      simp only [e]
      rw [intervalIntegral.integral_add (ii (fun x => ((k : ℝ) + 2) * (legP (k + 2) x * legP k x)) (by fun_prop))
        (ii (fun x => ((k : ℝ) + 1) * (legP k x * legP k x)) (by fun_prop)), intervalIntegral.integral_const_mul,
        intervalIntegral.integral_const_mul, legendre_orthogonal (by omega), mul_zero, zero_add]
    have a2 : ((n : ℝ) + 1) * ∫ x in (-1 : ℝ)..1, legP (n + 1) x * legP (n + 1) x
        = (2 * n + 1) * ∫ x in (-1 : ℝ)..1, x * legP (n + 1) x * legP n x := by
      cases n with
      | zero =>
        have e : ∀ x, x * legP (0 + 1) x * legP 0 x = legP (0 + 1) x * legP (0 + 1) x := fun x => by
          rw [legP_zero, zero_add, legP_one]; ring
        simp only [e]
        norm_num
      | succ n =>
        have e : ∀ x, (2 * ((n + 1 : ℕ) : ℝ) + 1) * (x * legP (n + 1 + 1) x * legP (n + 1) x)
            = ((n + 1 : ℕ) + 1) * (legP (n + 2) x * legP (n + 2) x) + (n + 1) * (legP n x * legP (n + 2) x) := fun x => by
          have := legP_rec n x
          push_cast
          linear_combination -legP (n + 2) x * this
        rw [← intervalIntegral.integral_const_mul (2 * ((n + 1 : ℕ) : ℝ) + 1)]
        simp only [e]
        rw [intervalIntegral.integral_add
          (ii (fun x => (((n + 1 : ℕ) : ℝ) + 1) * (legP (n + 2) x * legP (n + 2) x)) (by fun_prop))
          (ii (fun x => ((n : ℝ) + 1) * (legP n x * legP (n + 2) x)) (by fun_prop)), intervalIntegral.integral_const_mul,
          intervalIntegral.integral_const_mul, legendre_orthogonal (n := n) (m := n + 2) (by omega), mul_zero, add_zero]
    have a3 := a1 n
    rw [intervalIntegral.integral_const_mul, ih] at a3
    have p1 : (0 : ℝ) < 2 * n + 1 := by positivity
    have p2 : (0 : ℝ) < 2 * n + 3 := by positivity
    have p3 : (0 : ℝ) < n + 1 := by positivity
    have a4 : ∫ x in (-1 : ℝ)..1, x * legP (n + 1) x * legP n x = (n + 1) * (2 / (2 * n + 1)) / (2 * n + 3) := by
      rw [eq_div_iff p2.ne']; linear_combination a3
    rw [a4] at a2
    have a5 : ∫ x in (-1 : ℝ)..1, legP (n + 1) x * legP (n + 1) x = 2 / (2 * n + 3) := by
      refine mul_left_cancel₀ p3.ne' (a2.trans ?_)
      field_simp
    rw [a5]
    push_cast
    congr 1
    ring

/-- Polynomials are linear combinations of Legendre polynomials. -/
theorem poly_mem_span (p : ℝ[X]) : p ∈ Submodule.span ℝ (Set.range legendre) := by
  have hm : ∀ n, legendre n ∈ Submodule.span ℝ (Set.range legendre) := fun n => Submodule.subset_span ⟨n, rfl⟩
  have hX : ∀ q ∈ Submodule.span ℝ (Set.range legendre), X * q ∈ Submodule.span ℝ (Set.range legendre) := by
    intro q hq
    induction hq using Submodule.span_induction with
    | mem q hq =>
      obtain ⟨n, rfl⟩ := hq
      cases n with
      | zero => simpa [legendre] using hm 1
      | succ n =>
        have hp : (2 * (n : ℝ) + 3) ≠ 0 := by positivity
        have e : X * legendre (n + 1) = ((n + 2) / (2 * n + 3) : ℝ) • legendre (n + 2) + ((n + 1) / (2 * n + 3) : ℝ) • legendre n := by
          have hb := bonnet n
          have hc : (2 * (n : ℝ[X]) + 3) = C (2 * (n : ℝ) + 3) := by
            rw [C_add, C_mul, map_natCast, map_ofNat, map_ofNat]
          refine mul_left_cancel₀ (a := C (2 * (n : ℝ) + 3)) (C_ne_zero.mpr hp) ?_
          rw [smul_eq_C_mul, smul_eq_C_mul, mul_add, ← mul_assoc (C _) (C _), ← mul_assoc (C _) (C _), ← C_mul, ← C_mul,
            mul_div_cancel₀ _ hp, mul_div_cancel₀ _ hp, ← hc]
          simp only [C_add, C_1, map_natCast, map_ofNat]
          linear_combination -hb
        rw [e]
        exact Submodule.add_mem _ (Submodule.smul_mem _ _ (hm _)) (Submodule.smul_mem _ _ (hm _))
    | zero => simp
    | add a b _ _ ha hb => rw [mul_add]; exact Submodule.add_mem _ ha hb
    | smul c a _ ha => rw [mul_smul_comm]; exact Submodule.smul_mem _ _ ha
  induction p using Polynomial.induction_on' with
  | add p q hp hq => exact Submodule.add_mem _ hp hq
  | monomial n a =>
    rw [← C_mul_X_pow_eq_monomial, ← smul_eq_C_mul]
    refine Submodule.smul_mem _ _ ?_
    induction n with
    | zero => simpa [legendre] using hm 0
    | succ n ih => rw [pow_succ']; exact hX _ ih

/-- A continuous function that is orthogonal to all Legendre polynomials vanishes. -/
theorem legendre_complete {h : ℝ → ℝ} (hc : Continuous h) (h0 : ∀ n, ∫ x in (-1 : ℝ)..1, h x * legP n x = 0) :
    ∀ x ∈ Set.Icc (-1 : ℝ) 1, h x = 0 := by
  have ii : ∀ f : ℝ → ℝ, Continuous f → IntervalIntegrable f MeasureTheory.volume (-1) 1 := fun f hf => hf.intervalIntegrable _ _
  have hp : ∀ p : ℝ[X], ∫ x in (-1 : ℝ)..1, h x * p.eval x = 0 := by
    intro p
    have := poly_mem_span p
    induction this using Submodule.span_induction with
    | mem q hq => obtain ⟨n, rfl⟩ := hq; exact h0 n
    | zero => simp
    | add a b _ _ ha hb =>
      simp only [eval_add, mul_add]
      rw [intervalIntegral.integral_add (ii (fun x => h x * a.eval x) (hc.mul a.continuous)) (ii (fun x => h x * b.eval x) (hc.mul b.continuous)), ha, hb, add_zero]
    | smul c a _ ha =>
      simp only [eval_smul, smul_eq_mul]
      have e : ∀ x, h x * (c * a.eval x) = c * (h x * a.eval x) := fun x => by ring
      simp only [e, intervalIntegral.integral_const_mul, ha, mul_zero]
  have hsq : ∫ x in (-1 : ℝ)..1, h x * h x = 0 := by
    refine le_antisymm (le_of_forall_pos_le_add fun ε hε => ?_)
      (intervalIntegral.integral_nonneg (by norm_num) fun x _ => mul_self_nonneg _)
    set K := ∫ x in (-1 : ℝ)..1, |h x| with hK
    have hK0 : 0 ≤ K := intervalIntegral.integral_nonneg (by norm_num) fun x _ => abs_nonneg _
    obtain ⟨p, hpe⟩ := exists_polynomial_near_of_continuousOn (-1) 1 h hc.continuousOn (ε / (K + 1)) (by positivity)
    have e : ∫ x in (-1 : ℝ)..1, h x * h x = ∫ x in (-1 : ℝ)..1, h x * (h x - p.eval x) := by
      simp only [mul_sub]
      rw [intervalIntegral.integral_sub (ii (fun x => h x * h x) (hc.mul hc)) (ii (fun x => h x * p.eval x) (hc.mul p.continuous)), hp, sub_zero]
    rw [e, zero_add]
    calc ∫ x in (-1 : ℝ)..1, h x * (h x - p.eval x) ≤ ∫ x in (-1 : ℝ)..1, |h x| * (ε / (K + 1)) := by
          refine intervalIntegral.integral_mono_on (by norm_num) (ii _ (hc.mul (hc.sub p.continuous)))
            (ii _ (hc.abs.mul continuous_const)) fun x hx => ?_
          calc h x * (h x - p.eval x) ≤ |h x * (h x - p.eval x)| := le_abs_self _
            _ = |h x| * |p.eval x - h x| := by rw [abs_mul, abs_sub_comm]
            _ ≤ |h x| * (ε / (K + 1)) := mul_le_mul_of_nonneg_left (hpe x hx).le (abs_nonneg _)
      _ = K * (ε / (K + 1)) := by rw [intervalIntegral.integral_mul_const]
      _ ≤ ε := by
          rw [← mul_div_assoc, div_le_iff₀ (by positivity)]
          nlinarith
  intro x hx
  by_contra hne
  have := intervalIntegral.integral_pos (a := (-1 : ℝ)) (b := 1) (f := fun x => h x * h x) (by norm_num)
    (hc.mul hc).continuousOn (fun x _ => mul_self_nonneg _) ⟨x, hx, mul_self_pos.mpr hne⟩
  linarith

/-- A continuous function with absolutely summable Legendre coefficients is the sum of its Legendre
series on [-1, 1]. -/
theorem legendre_series {f : ℝ → ℝ} (hf : Continuous f) {c : ℕ → ℝ}
    (hcoef : ∀ n, c n = (2 * n + 1) / 2 * ∫ x in (-1 : ℝ)..1, f x * legP n x) (hs : Summable fun n => |c n|) {x : ℝ}
    (hx : |x| ≤ 1) : HasSum (fun n => c n * legP n x) (f x) := by
  -- the argument is clamped to [-1, 1]
  set cl : ℝ → ℝ := fun x => max (-1) (min 1 x) with hcl
  have clc : Continuous cl := continuous_const.max (continuous_const.min continuous_id)
  have cl1 : ∀ x, |cl x| ≤ 1 := fun x => abs_le.mpr ⟨le_max_left _ _, max_le (by norm_num) (min_le_left _ _)⟩
  have cle : ∀ x, |x| ≤ 1 → cl x = x := fun x hx => by
    obtain ⟨h1, h2⟩ := abs_le.mp hx
    simp [hcl, min_eq_right h2, max_eq_right h1]
  have hb : ∀ n x, ‖c n * legP n (cl x)‖ ≤ |c n| := fun n x => by
    rw [Real.norm_eq_abs, abs_mul]
    exact mul_le_of_le_one_right (abs_nonneg _) (legP_abs_le (cl1 x) n)
  set g : ℝ → ℝ := fun x => ∑' n, c n * legP n (cl x) with hg
  have gc : Continuous g := continuous_tsum (fun n => continuous_const.mul ((legP_cont n).comp clc)) hs hb
  have gs : ∀ x, HasSum (fun n => c n * legP n (cl x)) (g x) := fun x =>
    (Summable.of_norm_bounded hs (fun n => hb n x)).hasSum
  have hproj : ∀ m, ∫ x in (-1 : ℝ)..1, g x * legP m x = c m * (2 / (2 * m + 1)) := by
    intro m
    have hsum : HasSum (fun n => ∫ x in (-1 : ℝ)..1, c n * legP n (cl x) * legP m x) (∫ x in (-1 : ℝ)..1, g x * legP m x) := by
      refine intervalIntegral.hasSum_integral_of_dominated_convergence (fun n _ => |c n|)
        (fun n => ((continuous_const.mul ((legP_cont n).comp clc)).mul (legP_cont m)).aestronglyMeasurable)
        (fun n => Filter.Eventually.of_forall fun x hx => ?_) (Filter.Eventually.of_forall fun x _ => hs)
        (continuous_const.intervalIntegrable _ _) (Filter.Eventually.of_forall fun x _ => (gs x).mul_right _)
      rw [Set.uIoc_of_le (by norm_num)] at hx
      rw [norm_mul]
      calc ‖c n * legP n (cl x)‖ * ‖legP m x‖ ≤ |c n| * 1 :=
            mul_le_mul (hb n x) (legP_abs_le (abs_le.mpr ⟨hx.1.le, hx.2⟩) m) (norm_nonneg _) (abs_nonneg _)
        _ = |c n| := mul_one _
    have e : ∀ n, ∫ x in (-1 : ℝ)..1, c n * legP n (cl x) * legP m x = c n * ∫ x in (-1 : ℝ)..1, legP n x * legP m x := by
      intro n
      rw [← intervalIntegral.integral_const_mul]
      refine intervalIntegral.integral_congr fun x hx => ?_
      rw [Set.uIcc_of_le (by norm_num)] at hx
      rw [cle x (abs_le.mpr ⟨hx.1, hx.2⟩), mul_assoc]
    simp only [e] at hsum
    have h1 : HasSum (fun n => c n * ∫ x in (-1 : ℝ)..1, legP n x * legP m x) (c m * ∫ x in (-1 : ℝ)..1, legP m x * legP m x) :=
      hasSum_single m fun n hn => by rw [legendre_orthogonal hn, mul_zero]
    rw [legendre_norm] at h1
    exact hsum.unique h1
  have hz := legendre_complete (h := fun x => f x - g x) (hf.sub gc) (fun m => by
    have ii : ∀ f : ℝ → ℝ, Continuous f → IntervalIntegrable f MeasureTheory.volume (-1) 1 := fun f hf => hf.intervalIntegrable _ _
    simp only [sub_mul]
    rw [intervalIntegral.integral_sub (ii (fun x => f x * legP m x) (hf.mul (legP_cont m))) (ii (fun x => g x * legP m x) (gc.mul (legP_cont m))), hproj m, hcoef m]
    have : (2 * (m : ℝ) + 1) ≠ 0 := by positivity
    field_simp
    ring) x ⟨(abs_le.mp hx).1, (abs_le.mp hx).2⟩
  have := gs x
  rw [cle x hx] at this
  rwa [show f x = g x by linarith]

end

end RT1
