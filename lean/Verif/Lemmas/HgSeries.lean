import Verif.Lemmas.LegendreL
import Verif.Lemmas.ScatterL

/-! Convergence of the Legendre expansions of the Henyey-Greenstein family. -/

namespace RT1

noncomputable section
open Classical Filter

/-- Coefficients of `x * Σ a_n P_n`. -/
def mulX (a : ℕ → ℝ) : ℕ → ℝ
  | 0 => 1 / 3 * a 1
  | n + 1 => (n + 1) / (2 * n + 1) * a n + (n + 2) / (2 * n + 5) * a (n + 2)

theorem legP_mul_x (n : ℕ) (x : ℝ) : x * legP (n + 1) x =
    (n + 2) / (2 * n + 3) * legP (n + 2) x + (n + 1) / (2 * n + 3) * legP n x := by
  have h := legP_rec n x
  have h3 : (2 * (n : ℝ) + 3) ≠ 0 := by positivity
  field_simp
  linarith

theorem mulX_summable {a : ℕ → ℝ} (h : Summable fun n => |a n|) : Summable fun n => |mulX a n| := by
  refine (summable_nat_add_iff 1).mp ?_
  have h2 := (summable_nat_add_iff 2).mpr h
  refine Summable.of_nonneg_of_le (fun _ => abs_nonneg _) (fun n => ?_) (h.add h2)
  show |(n + 1) / (2 * n + 1) * a n + (n + 2) / (2 * n + 5) * a (n + 2)| ≤ _
  refine (abs_add_le _ _).trans (add_le_add ?_ ?_)
  · rw [abs_mul]
    refine mul_le_of_le_one_left (abs_nonneg _) ?_
    rw [abs_of_nonneg (by positivity), div_le_one (by positivity)]
    linarith [(Nat.cast_nonneg n : (0 : ℝ) ≤ n)]
  · rw [abs_mul]
    refine mul_le_of_le_one_left (abs_nonneg _) ?_
    rw [abs_of_nonneg (by positivity), div_le_one (by positivity)]
    linarith [(Nat.cast_nonneg n : (0 : ℝ) ≤ n)]

theorem coef_summable {a : ℕ → ℝ} (h : Summable fun n => |a n|) {x : ℝ} (hx : |x| ≤ 1) (f : ℕ → ℝ)
    (hf : ∀ n, |f n| ≤ 1) (s : ℕ → ℕ) : Summable fun n => f n * a n * legP (s n) x := by
  refine Summable.of_norm_bounded h fun n => ?_
  rw [Real.norm_eq_abs, abs_mul, abs_mul]
  have h1 := legP_abs_le hx (s n)
  have h2 := hf n
  calc |f n| * |a n| * |legP (s n) x| ≤ 1 * |a n| * 1 := by gcongr
    _ = |a n| := by ring

theorem mulX_tsum {a : ℕ → ℝ} (h : Summable fun n => |a n|) {x : ℝ} (hx : |x| ≤ 1) :
    ∑' n, mulX a n * legP n x = x * ∑' n, a n * legP n x := by
  have hu : Summable fun n : ℕ => ((n : ℝ) + 1) / (2 * n + 1) * a n * legP (n + 1) x :=
    coef_summable h hx _ (fun n => by
      rw [abs_of_nonneg (by positivity), div_le_one (by positivity)]
      linarith [(Nat.cast_nonneg n : (0 : ℝ) ≤ n)]) _
  have hv : Summable fun n : ℕ => ((n : ℝ) + 1) / (2 * n + 3) * a (n + 1) * legP n x :=
    coef_summable ((summable_nat_add_iff 1).mpr h) hx _ (fun n => by
      rw [abs_of_nonneg (by positivity), div_le_one (by positivity)]
      linarith [(Nat.cast_nonneg n : (0 : ℝ) ≤ n)]) _
  have ha : Summable fun n => a n * legP n x := by
    have := coef_summable h hx (fun _ => 1) (fun _ => by simp) id
    simpa using this
  have hb : Summable fun n => mulX a n * legP n x := by
    have := coef_summable (mulX_summable h) hx (fun _ => 1) (fun _ => by simp) id
    simpa using this
  have e1 : ∑' n, mulX a n * legP n x =
      (∑' n : ℕ, ((n : ℝ) + 1) / (2 * n + 1) * a n * legP (n + 1) x)
        + ∑' n : ℕ, ((n : ℝ) + 1) / (2 * n + 3) * a (n + 1) * legP n x := by
    rw [hb.tsum_eq_zero_add, hv.tsum_eq_zero_add]
    have hv1 := (summable_nat_add_iff 1).mpr hv
    rw [show ∀ p q r : ℝ, p + (q + r) = q + (p + r) from fun p q r => by ring, ← Summable.tsum_add hu hv1]
    congr 1
    · simp [mulX, legP_zero]
    · refine tsum_congr fun n => ?_
      show ((n + 1) / (2 * n + 1) * a n + (n + 2) / (2 * n + 5) * a (n + 2)) * _ = _
      push_cast
      ring_nf
  have e2 : x * ∑' n, a n * legP n x =
      (∑' n : ℕ, ((n : ℝ) + 1) / (2 * n + 1) * a n * legP (n + 1) x)
        + ∑' n : ℕ, ((n : ℝ) + 1) / (2 * n + 3) * a (n + 1) * legP n x := by
    rw [ha.tsum_eq_zero_add, hu.tsum_eq_zero_add, mul_add, ← tsum_mul_left]
    have hu1 := (summable_nat_add_iff 1).mpr hu
    rw [add_assoc, ← Summable.tsum_add hu1 hv]
    congr 1
    · simp [legP_zero, legP_one]; ring
    · refine tsum_congr fun n => ?_
      rw [show x * (a (n + 1) * legP (n + 1) x) = a (n + 1) * (x * legP (n + 1) x) by ring, legP_mul_x]
      push_cast
      ring_nf
  rw [e1, e2]

theorem hg_abs_summable {t : ℝ} (ht : |t| < 1) : Summable fun n : ℕ => |(2 * (n : ℝ) + 1) * t ^ n| := by
  have h1 := summable_pow_mul_geometric_of_norm_lt_one (R := ℝ) 1 (r := |t|) (by simpa using ht)
  have h2 := summable_geometric_of_lt_one (abs_nonneg t) ht
  refine ((h1.mul_left 2).add h2).congr fun n => ?_
  rw [abs_mul, abs_pow, abs_of_nonneg (by positivity : (0 : ℝ) ≤ 2 * n + 1)]
  simp; ring

/-- Coefficients of HGRayleigh, up to a factor. -/
def hgrCoef (t : ℝ) (n : ℕ) : ℝ :=
  (if n < 2 then 0 else n * (n - 1) / (2 * n - 1) * t ^ (n - 2)) + (n + 2) * (n + 1) / (2 * n + 3) * t ^ (n + 2)
    + (n + 1) ^ 2 / (2 * n + 3) * t ^ n + (5 * n ^ 2 - 1) / (2 * n - 1) * t ^ n

theorem hgrCoef_eq (t : ℝ) (n : ℕ) : hgrCoef t n = (2 * (n : ℝ) + 1) * t ^ n
    + mulX (mulX fun n : ℕ => (2 * (n : ℝ) + 1) * t ^ n) n := by
  match n with
  | 0 => simp [hgrCoef, mulX]; ring
  | 1 => simp [hgrCoef, mulX]; ring
  | n + 2 =>
    have h1 : (2 * (n : ℝ) + 1) ≠ 0 := by positivity
    have h3 : (2 * (n : ℝ) + 3) ≠ 0 := by positivity
    have h5 : (2 * (n : ℝ) + 5) ≠ 0 := by positivity
    have h7 : (2 * (n : ℝ) + 7) ≠ 0 := by positivity
    have h9 : (2 * (n : ℝ) + 9) ≠ 0 := by positivity
    unfold hgrCoef
    rw [if_neg (by omega)]
    simp only [mulX, Nat.add_sub_cancel]
    push_cast
    rw [show 2 * ((n : ℝ) + 2) - 1 = 2 * n + 3 by ring, show 2 * ((n : ℝ) + 2) + 3 = 2 * n + 7 by ring,
      show 2 * ((n : ℝ) + 1) + 1 = 2 * n + 3 by ring, show 2 * ((n : ℝ) + 1) + 5 = 2 * n + 7 by ring,
      show 2 * ((n : ℝ) + 2) + 5 = 2 * n + 9 by ring,
      show 2 * ((n : ℝ) + 2) + 1 = 2 * n + 5 by ring]
    simp only [pow_add]
    field_simp
    ring

theorem hgr_hasSum {x t : ℝ} (hx : |x| ≤ 1) (ht : |t| < 1) :
    HasSum (fun n : ℕ => hgrCoef t n * legP n x)
      ((1 + x ^ 2) * (1 - t ^ 2) / (1 + t ^ 2 - 2 * t * x) ^ (3 / 2 : ℝ)) := by
  have h0 := hg_abs_summable ht
  have h1 := mulX_summable h0
  have h2 := mulX_summable h1
  have hs : ∀ {a : ℕ → ℝ}, Summable (fun n => |a n|) → Summable fun n => a n * legP n x := fun h => by
    have := coef_summable h hx (fun _ => 1) (fun _ => by simp) id
    simpa using this
  have e : (fun n : ℕ => hgrCoef t n * legP n x) = fun n : ℕ => (2 * (n : ℝ) + 1) * t ^ n * legP n x
      + mulX (mulX fun n : ℕ => (2 * (n : ℝ) + 1) * t ^ n) n * legP n x := by
    funext n; rw [hgrCoef_eq, add_mul]
  rw [e]
  have := (hs h0).hasSum.add (hs h2).hasSum
  rw [mulX_tsum h1 hx, mulX_tsum h0 hx, (hg_hasSum hx ht).tsum_eq] at this
  convert this using 1
  ring

/-! ## Values of the coefficients of the code -/

theorem Expr.Is.evalR {e : Expr} {ρ : String → ℝ} {v : ℝ} (h : e.Is ρ v) : e.evalR ρ = v := h.2

theorem nadir_evalR {te : Expr} {a : A3} {ρ : String → ℝ} {a0 t : ℝ} (h : a.a0.Is ρ a0) (ht : te.Is ρ t)
    (hp : 0 < 1 + t ^ 2 - 2 * a0 * t) (h0 : a0 ≠ 0) (ht0 : t ≠ 0) :
    (Scatter.nadirHemreflect te a).evalR ρ = Phase.hgNadir a0 t := (hgNadir_is h ht hp h0 ht0).2

/-- The value of a coefficient. -/
def Kind.coefVal (a0 t : ℝ) : Kind → ℕ → ℝ
  | .volHG _, n => 1 / (4 * Real.pi) * ((2 * (n : ℝ) + 1) * t ^ n)
  | .srfHG _, n => 1 / Real.pi * ((2 * (n : ℝ) + 1) * t ^ n)
  | .srfHGnadirnorm _, n => 1 / Phase.hgNadir a0 t * (1 / Real.pi * ((2 * (n : ℝ) + 1) * t ^ n))
  | .volHGRayleigh _, n => 3 / (8 * Real.pi) * (1 / (2 + t ^ 2)) * hgrCoef t n
  | _, _ => 0

theorem Kind.coef_evalR {k : Kind} (hk : k.IsHG) {a : A3} {ρ : String → ℝ} {a0 a1 a2 t : ℝ} (h : a.Is ρ a0 a1 a2)
    (ht : k.TIs ρ t) (hn : k.NadirOK a0 t) (n : ℕ) :
    (Scatter.primCoef a k n).evalR ρ = k.coefVal a0 t n := by
  cases k with
  | volIsotropic => exact hk.elim
  | volRayleigh => exact hk.elim
  | srfIsotropic => exact hk.elim
  | srfCosineLobe i => exact hk.elim
  | volHG te =>
    simp only [Scatter.primCoef, Expr.evalR_mul, Expr.evalR_num, Expr.evalR_pow, ht.2, Real.rpow_natCast, coefVal]
    ring
  | srfHG te =>
    simp only [Scatter.primCoef, Expr.evalR_mul, Expr.evalR_num, Expr.evalR_pow, ht.2, Real.rpow_natCast, coefVal]
    ring
  | srfHGnadirnorm te =>
    simp only [Scatter.primCoef, Expr.evalR_mul, Expr.evalR_div, Expr.evalR_num, Expr.evalR_pow, ht.2, Real.rpow_natCast,
      coefVal, nadir_evalR h.h0 ht hn.2.2.1 hn.1 hn.2.1]
    ring
  | volHGRayleigh te =>
    have e2 : t ^ ((n : ℝ) + 2) = t ^ (n + 2) := by
      rw [← Real.rpow_natCast]; push_cast; rfl
    have e0 : t ^ (2 : ℝ) = t ^ 2 := by exact_mod_cast Real.rpow_natCast t 2
    simp only [Scatter.primCoef, coefVal, hgrCoef]
    by_cases hn : n < 2
    · simp only [if_pos hn, Expr.evalR_mul, Expr.evalR_div, Expr.evalR_num, Expr.evalR_pow, Expr.evalR_add, ht.2,
        Real.rpow_natCast, e2, e0]
      ring
    · have e3 : t ^ ((n : ℝ) - 2) = t ^ (n - 2) := by
        rw [← Real.rpow_natCast, Nat.cast_sub (by omega)]; push_cast; rfl
      simp only [if_neg hn, Expr.evalR_mul, Expr.evalR_div, Expr.evalR_num, Expr.evalR_pow, Expr.evalR_add, ht.2,
        Real.rpow_natCast, e2, e0, e3]
      ring

theorem HasSum.congr_fun' {f g : ℕ → ℝ} {s : ℝ} (h : HasSum f s) (e : ∀ n, g n = f n) : HasSum g s := by
  have : g = f := funext e
  rw [this]; exact h

theorem Kind.hasSum {k : Kind} (hk : k.IsHG) {a0 t x : ℝ} (ht : |t| < 1) (hx : |x| ≤ 1) :
    HasSum (fun n => k.coefVal a0 t n * legP n x) (k.val a0 t x) := by
  have h := hg_hasSum hx ht
  cases k with
  | volIsotropic => exact hk.elim
  | volRayleigh => exact hk.elim
  | srfIsotropic => exact hk.elim
  | srfCosineLobe i => exact hk.elim
  | volHG te =>
    exact HasSum.congr_fun' (h.mul_left (1 / (4 * Real.pi))) fun n => by simp only [coefVal]; ring
  | srfHG te =>
    exact HasSum.congr_fun' (h.mul_left (1 / Real.pi)) fun n => by simp only [coefVal]; ring
  | srfHGnadirnorm te =>
    exact HasSum.congr_fun' ((h.mul_left (1 / Real.pi)).mul_left (1 / Phase.hgNadir a0 t)) fun n => by simp only [coefVal]; ring
  | volHGRayleigh te =>
    exact HasSum.congr_fun' ((hgr_hasSum hx ht).mul_left (3 / (8 * Real.pi) * (1 / (2 + t ^ 2)))) fun n => by
      simp only [coefVal]; ring

theorem legSum_real (N : ℕ) (c : ℕ → ℝ) (x : ℝ) : Scatter.legSum N c x = ∑ n ∈ Finset.range N, c n * legP n x := by
  unfold Scatter.legSum legP
  refine Finset.sum_congr rfl fun n _ => ?_
  rw [Polynomial.coe_aeval_eq_eval]

end

end RT1
