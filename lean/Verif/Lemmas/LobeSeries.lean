import Verif.Lemmas.LegComplete
import Verif.Lemmas.LobeL

/-! Convergence of the Legendre expansion of cosine lobes. -/

namespace RT1

noncomputable section
open Classical Filter

theorem lobe_kummer {i n : ℕ} (hi : i ≠ 0) (hn : i ≤ n) :
    (2 * (n : ℝ) + 1) * |momentG i n| / 3
      ≤ n * ((2 * n + 1) * |momentG i n|) - (n + 2) * ((2 * (n + 2) + 1) * |momentG i (n + 2)|) := by
  have hi1 : (1 : ℝ) ≤ i := by exact_mod_cast Nat.one_le_iff_ne_zero.mpr hi
  have hni : (i : ℝ) ≤ n := by exact_mod_cast hn
  have hp : (0 : ℝ) < i + n + 3 := by positivity
  have e : |momentG i (n + 2)| = (n - i) * |momentG i n| / (i + n + 3) := by
    have h := congrArg abs (momentG_two i n)
    rw [abs_mul, abs_mul, abs_of_pos hp, abs_sub_comm, abs_of_nonneg (sub_nonneg.mpr hni)] at h
    rw [eq_div_iff hp.ne']
    linarith
  rw [e]
  have hm := abs_nonneg (momentG i n)
  generalize |momentG i n| = m at hm
  have k : 0 ≤ ((n : ℝ) * (2 * n + 1) - (2 * n + 1) / 3) * (i + n + 3) - (n + 2) * (2 * (n + 2) + 1) * (n - i) := by
    have h1 := mul_nonneg (sub_nonneg.mpr hi1) (sq_nonneg (n : ℝ))
    have h2 := mul_nonneg (sub_nonneg.mpr hni) (by positivity : (0 : ℝ) ≤ n)
    have h3 := mul_nonneg (sub_nonneg.mpr hi1) (by positivity : (0 : ℝ) ≤ (n : ℝ))
    nlinarith
  have : (n : ℝ) * ((2 * n + 1) * m) - (n + 2) * ((2 * (n + 2) + 1) * ((n - i) * m / (i + n + 3))) - (2 * n + 1) * m / 3
      = m * (((n : ℝ) * (2 * n + 1) - (2 * n + 1) / 3) * (i + n + 3) - (n + 2) * (2 * (n + 2) + 1) * (n - i)) / (i + n + 3) := by
    field_simp
    ring
  have := div_nonneg (mul_nonneg hm k) hp.le
  linarith

/-- Legendre coefficients of the cosine lobe. -/
def lobeCoef (i n : ℕ) : ℝ := 1 / Real.pi * ((2 * n + 1) / 2 * momentG i n)

theorem lobe_summable {i : ℕ} (hi : i ≠ 0) : Summable fun n => |lobeCoef i n| := by
  have hu : Summable fun n : ℕ => (2 * (n : ℝ) + 1) * |momentG i n| := by
    refine (summable_nat_add_iff i).mp ?_
    set u : ℕ → ℝ := fun n => (2 * (n : ℝ) + 1) * |momentG i n| with hu
    have u0 : ∀ n, 0 ≤ u n := fun n => by simp only [hu]; positivity
    set v : ℕ → ℝ := fun n => n * u n + (n + 1) * u (n + 1) with hv
    have v0 : ∀ n, 0 ≤ v n := fun n => add_nonneg (mul_nonneg (by positivity) (u0 _)) (mul_nonneg (by positivity) (u0 _))
    have step : ∀ n, i ≤ n → u n ≤ 3 * (v n - v (n + 1)) := fun n hn => by
      have h := lobe_kummer hi hn
      have e : v n - v (n + 1) = n * u n - (n + 2) * u (n + 2) := by
        simp only [hv]; push_cast; ring
      rw [e]
      simp only [hu] at h ⊢
      push_cast
      linarith
    refine summable_of_sum_range_le (c := 3 * v i) (fun n => u0 _) fun N => ?_
    have : ∑ n ∈ Finset.range N, u (n + i) ≤ 3 * (v i - v (N + i)) := by
      induction N with
      | zero => simp
      | succ N ih =>
        rw [Finset.sum_range_succ]
        have := step (N + i) (by omega)
        rw [show N + 1 + i = N + i + 1 by omega]
        linarith
    have := v0 (N + i)
    linarith
  refine (hu.mul_left (1 / Real.pi / 2)).congr fun n => ?_
  unfold lobeCoef
  rw [abs_mul, abs_mul, abs_of_pos (by positivity : (0 : ℝ) < 1 / Real.pi), abs_of_nonneg (by positivity : (0 : ℝ) ≤ (2 * n + 1) / 2)]
  ring

theorem cosineLobe_continuous (i : ℕ) : Continuous (Phase.cosineLobe i) := by
  unfold Phase.cosineLobe
  exact continuous_const.mul ((continuous_id.max continuous_const).pow i)

theorem lobe_hasSum {i : ℕ} (hi : i ≠ 0) {x : ℝ} (hx : |x| ≤ 1) :
    HasSum (fun n => lobeCoef i n * legP n x) (Phase.cosineLobe i x) :=
  legendre_series (cosineLobe_continuous i) (fun n => by
    rw [lobe_integral hi, moment_eq, lobeCoef]; ring) (lobe_summable hi) hx

theorem momentG_zero_even (n : ℕ) : momentG 0 (2 * n + 2) = 0 := by
  induction n with
  | zero =>
    have h := momentG_two 0 0
    simp at h
    exact h
  | succ n ih =>
    have h := momentG_two 0 (2 * n + 2)
    rw [ih, mul_zero] at h
    exact (mul_eq_zero.mp h).resolve_left (by positivity)

theorem legP_odd_zero (n : ℕ) : legP (2 * n + 1) 0 = 0 := by
  induction n with
  | zero => simp [legP_one]
  | succ n ih =>
    have h := legP_rec (2 * n + 1) 0
    rw [ih] at h
    simp only [mul_zero, zero_mul, sub_zero] at h
    exact (mul_eq_zero.mp h).resolve_left (by positivity)

theorem lobe_zero_term (n : ℕ) : lobeCoef 0 (n + 1) * legP (n + 1) 0 = 0 := by
  rcases Nat.even_or_odd' n with ⟨m, rfl | rfl⟩
  · rw [legP_odd_zero, mul_zero]
  · rw [lobeCoef, momentG_zero_even]; simp

end

end RT1
