import Verif.Lemmas.Demo
import Verif.Spec.Calc

/-! Expressions: numerical and mathematical value agree where everything is defined. -/

namespace RT1

noncomputable section
open Classical

namespace Expr

theorem evalX_of_def {ρ : String → ℝ} {e : Expr} (h : e.Def ρ) :
    e.evalX (fun s => XR.fin (ρ s)) = XR.fin (e.evalR ρ) := by
  induction e with
  | num r => rfl
  | sym s => rfl
  | add a b iha ihb => simp [evalX, evalR, iha h.1, ihb h.2]
  | mul a b iha ihb => simp [evalX, evalR, iha h.1, ihb h.2]
  | pow a r iha =>
    simp only [evalX, evalR, iha h.1]
    rcases h.2 with hp | ⟨n, rfl⟩ | ⟨hne, k, rfl⟩
    · exact XR.rpow_fin_pos _ _ hp
    · rw [XR.rpow_fin_nat, Real.rpow_natCast]
    · unfold XR.rpow
      by_cases h0 : (k : ℝ) = 0
      · simp [h0]
      · rw [if_neg h0]
        simp only [hne, if_false]
        by_cases hp : 0 < evalR ρ a
        · simp [hp]
        · simp only [hp, if_false]
          rw [if_pos ⟨k, rfl⟩]
  | sin a iha => simp [evalX, evalR, iha h]
  | cos a iha => simp [evalX, evalR, iha h]
  | sign a iha =>
    rw [evalX, iha h, evalR]
    unfold XR.sign XR.sgn
    rfl
  | exp a iha => simp [evalX, evalR, iha h]

@[simp] theorem evalR_add (ρ : String → ℝ) (a b : Expr) : (a + b).evalR ρ = a.evalR ρ + b.evalR ρ := rfl
@[simp] theorem evalR_mul (ρ : String → ℝ) (a b : Expr) : (a * b).evalR ρ = a.evalR ρ * b.evalR ρ := rfl
@[simp] theorem evalR_neg (ρ : String → ℝ) (a : Expr) : (-a).evalR ρ = -a.evalR ρ := by
  show (-1 : ℝ) * a.evalR ρ = _; ring
@[simp] theorem evalR_sub (ρ : String → ℝ) (a b : Expr) : (a - b).evalR ρ = a.evalR ρ - b.evalR ρ := by
  show a.evalR ρ + (-1 : ℝ) * b.evalR ρ = _; ring
@[simp] theorem evalR_div (ρ : String → ℝ) (a b : Expr) : (a / b).evalR ρ = a.evalR ρ / b.evalR ρ := by
  show a.evalR ρ * (b.evalR ρ) ^ (-1 : ℝ) = _
  rw [Real.rpow_neg_one, div_eq_mul_inv]
@[simp] theorem evalR_num (ρ : String → ℝ) (r : ℝ) : (num r).evalR ρ = r := rfl
@[simp] theorem evalR_sym (ρ : String → ℝ) (s : String) : (sym s).evalR ρ = ρ s := rfl
@[simp] theorem evalR_pow (ρ : String → ℝ) (a : Expr) (r : ℝ) : (pow a r).evalR ρ = a.evalR ρ ^ r := rfl
@[simp] theorem evalR_cos (ρ : String → ℝ) (a : Expr) : (cos a).evalR ρ = Real.cos (a.evalR ρ) := rfl
@[simp] theorem evalR_sin (ρ : String → ℝ) (a : Expr) : (sin a).evalR ρ = Real.sin (a.evalR ρ) := rfl
@[simp] theorem evalR_exp (ρ : String → ℝ) (a : Expr) : (exp a).evalR ρ = Real.exp (a.evalR ρ) := rfl
@[simp] theorem evalR_sign (ρ : String → ℝ) (a : Expr) : (sign a).evalR ρ =
    if 0 < a.evalR ρ then 1 else if a.evalR ρ < 0 then -1 else 0 := rfl

@[simp] theorem free_add (a b : Expr) : (a + b).free = a.free ++ b.free := rfl
@[simp] theorem free_mul (a b : Expr) : (a * b).free = a.free ++ b.free := rfl
@[simp] theorem free_neg (a : Expr) : (-a).free = a.free := rfl
@[simp] theorem free_sub (a b : Expr) : (a - b).free = a.free ++ b.free := rfl
@[simp] theorem free_div (a b : Expr) : (a / b).free = a.free ++ b.free := rfl
@[simp] theorem free_num (r : ℝ) : (num r).free = [] := rfl
@[simp] theorem free_sym (s : String) : (sym s).free = [s] := rfl
@[simp] theorem free_pow (a : Expr) (r : ℝ) : (pow a r).free = a.free := rfl
@[simp] theorem free_cos (a : Expr) : (cos a).free = a.free := rfl
@[simp] theorem free_sin (a : Expr) : (sin a).free = a.free := rfl
@[simp] theorem free_sign (a : Expr) : (sign a).free = a.free := rfl
@[simp] theorem free_exp (a : Expr) : (exp a).free = a.free := rfl

@[simp] theorem def_add (ρ : String → ℝ) (a b : Expr) : (a + b).Def ρ ↔ a.Def ρ ∧ b.Def ρ := Iff.rfl
@[simp] theorem def_mul (ρ : String → ℝ) (a b : Expr) : (a * b).Def ρ ↔ a.Def ρ ∧ b.Def ρ := Iff.rfl
@[simp] theorem def_neg (ρ : String → ℝ) (a : Expr) : (-a).Def ρ ↔ a.Def ρ := by
  show True ∧ _ ↔ _; simp
@[simp] theorem def_sub (ρ : String → ℝ) (a b : Expr) : (a - b).Def ρ ↔ a.Def ρ ∧ b.Def ρ := by
  show a.Def ρ ∧ (True ∧ _) ↔ _; simp
theorem def_div (ρ : String → ℝ) {a b : Expr} (ha : a.Def ρ) (hb : b.Def ρ) (h0 : b.evalR ρ ≠ 0) :
    (a / b).Def ρ := ⟨ha, hb, Or.inr (Or.inr ⟨h0, -1, by simp⟩)⟩
@[simp] theorem def_num (ρ : String → ℝ) (r : ℝ) : (num r).Def ρ ↔ True := Iff.rfl
@[simp] theorem def_sym (ρ : String → ℝ) (s : String) : (sym s).Def ρ ↔ True := Iff.rfl
@[simp] theorem def_cos (ρ : String → ℝ) (a : Expr) : (cos a).Def ρ ↔ a.Def ρ := Iff.rfl
@[simp] theorem def_sin (ρ : String → ℝ) (a : Expr) : (sin a).Def ρ ↔ a.Def ρ := Iff.rfl
@[simp] theorem def_sign (ρ : String → ℝ) (a : Expr) : (sign a).Def ρ ↔ a.Def ρ := Iff.rfl
theorem def_pow_pos (ρ : String → ℝ) {a : Expr} {r : ℝ} (ha : a.Def ρ) (h : 0 < a.evalR ρ) :
    (pow a r).Def ρ := ⟨ha, Or.inl h⟩
theorem def_pow_nat (ρ : String → ℝ) {a : Expr} (n : ℕ) (ha : a.Def ρ) : (pow a n).Def ρ :=
  ⟨ha, Or.inr (Or.inl ⟨n, rfl⟩)⟩
theorem def_sq (ρ : String → ℝ) {a : Expr} (ha : a.Def ρ) : (pow a 2).Def ρ :=
  ⟨ha, Or.inr (Or.inl ⟨2, by norm_num⟩)⟩

end Expr

open Expr

/-- Values of the parameters `a` of a scattering angle. -/
structure A3.Def (a : A3) (ρ : String → ℝ) : Prop where
  d0 : a.a0.Def ρ
  d1 : a.a1.Def ρ
  d2 : a.a2.Def ρ

theorem angle_def {a : A3} {ρ : String → ℝ} (h : a.Def ρ) : (Scatter.angleExpr a).Def ρ := by
  simp [Scatter.angleExpr, h.d0, h.d1, h.d2]

/-- Value of the scattering angle expression. -/
theorem angle_evalR (a : A3) (ρ : String → ℝ) : (Scatter.angleExpr a).evalR ρ =
    Phase.cosTheta (a.a0.evalR ρ) (a.a1.evalR ρ) (a.a2.evalR ρ) (ρ "theta_0") (ρ "theta_ex")
      (ρ "phi_0") (ρ "phi_ex") := by
  simp [Scatter.angleExpr, Phase.cosTheta]
  ring

theorem hg_base_pos {t x : ℝ} (ht : |t| < 1) (hx : |x| ≤ 1) : 0 < 1 + t ^ 2 - 2 * t * x := by
  have h1 : |t * x| ≤ |t| := by
    rw [abs_mul]; exact mul_le_of_le_one_right (abs_nonneg t) hx
  have h2 : t * x ≤ |t| := (le_abs_self _).trans h1
  nlinarith [sq_abs t, abs_nonneg t]

end

end RT1
