import Mathlib.Data.Real.Basic
import Mathlib.Analysis.SpecialFunctions.Pow.Real
import Mathlib.Analysis.SpecialFunctions.Log.Base
import Mathlib.Analysis.SpecialFunctions.Trigonometric.Basic

/-!
# Numbers as numpy sees them

`XR` models a numpy `float64` value: a finite real, `+inf`, `-inf` or `nan`.
Simplifications: no rounding, and zero carries no sign (a zero divisor counts as `+0`).
This file models no file of the repository; it models the number type used by all of them.
-/

namespace RT1

/-- A numpy float: finite real number, plus/minus infinity or not-a-number. -/
inductive XR where
  | fin (r : ℝ)
  | pinf
  | ninf
  | nan

namespace XR

noncomputable section
open Classical

/-- Sign used for products and quotients that involve an infinity; `none` for nan. -/
def sgn : XR → Option ℝ
  | fin r => some (if 0 < r then 1 else if r < 0 then -1 else 0)
  | pinf => some 1
  | ninf => some (-1)
  | nan => none

/-- The infinity with the given sign; `nan` if the sign is zero. -/
def infOfSign (s : ℝ) : XR :=
  if 0 < s then pinf else if s < 0 then ninf else nan

/-- IEEE addition. -/
def add : XR → XR → XR
  | fin a, fin b => fin (a + b)
  | nan, _ => nan
  | _, nan => nan
  | pinf, ninf => nan
  | ninf, pinf => nan
  | pinf, _ => pinf
  | _, pinf => pinf
  | ninf, _ => ninf
  | _, ninf => ninf

/-- IEEE negation. -/
def neg : XR → XR
  | fin a => fin (-a)
  | pinf => ninf
  | ninf => pinf
  | nan => nan

/-- IEEE subtraction. -/
def sub (x y : XR) : XR := add x (neg y)

/-- IEEE multiplication (`0 * inf = nan`). -/
def mul : XR → XR → XR
  | fin a, fin b => fin (a * b)
  | x, y =>
    match sgn x, sgn y with
    | some s, some t => infOfSign (s * t)
    | _, _ => nan

/-- numpy division: a zero divisor gives an infinity, or nan for `0/0`. -/
def div : XR → XR → XR
  | fin a, fin b => if b = 0 then infOfSign a else fin (a / b)
  | nan, _ => nan
  | _, nan => nan
  | fin _, _ => fin 0
  | x, fin b => mul x (fin (if b < 0 then -1 else 1))
  | _, _ => nan

/-- `np.exp`. -/
def exp : XR → XR
  | fin a => fin (Real.exp a)
  | pinf => pinf
  | ninf => fin 0
  | nan => nan

/-- `np.log`: `-inf` at zero, `nan` below zero. -/
def log : XR → XR
  | fin a => if 0 < a then fin (Real.log a) else if a = 0 then ninf else nan
  | pinf => pinf
  | ninf => nan
  | nan => nan

/-- `np.log10`: `-inf` at zero, `nan` below zero. -/
def log10 : XR → XR
  | fin a => if 0 < a then fin (Real.logb 10 a) else if a = 0 then ninf else nan
  | pinf => pinf
  | ninf => nan
  | nan => nan

/-- `np.cos` (nan at infinities). -/
def cos : XR → XR
  | fin a => fin (Real.cos a)
  | _ => nan

/-- `np.sin` (nan at infinities). -/
def sin : XR → XR
  | fin a => fin (Real.sin a)
  | _ => nan

/-- `np.sign`. -/
def sign (x : XR) : XR :=
  match sgn x with
  | some s => fin s
  | none => nan

/-- `x ** n` for a natural number `n` (`x ** 0 = 1`, also for nan and infinities). -/
def npow (x : XR) : ℕ → XR
  | 0 => fin 1
  | n + 1 => mul (npow x n) x

/-- `x ** r` for a real exponent `r`: nan for a negative base with non-integer
exponent, `inf` for a zero base with negative exponent. Powers of infinities are only
modelled for the signs that matter here (simplified: `inf ** r`, `(-inf) ** r = nan`). -/
def rpow (x : XR) (r : ℝ) : XR :=
  if r = 0 then fin 1 else
  match x with
  | fin a =>
    if a = 0 then (if r < 0 then pinf else fin 0)
    else if 0 < a then fin (a ^ r)
    else if ∃ k : ℤ, r = k then fin (a ^ r)
    else nan
  | pinf => if r < 0 then fin 0 else pinf
  | ninf => nan
  | nan => nan

/-- `np.isnan`. -/
def isnan : XR → Bool
  | nan => true
  | _ => false

/-- `x == 0.0`. -/
def isZero : XR → Bool
  | fin a => decide (a = 0)
  | _ => false

/-- `x > 0.0`. -/
def isPos : XR → Bool
  | fin a => decide (0 < a)
  | pinf => true
  | _ => false

/-- `np.isfinite`. -/
def isFin : XR → Bool
  | fin _ => true
  | _ => false

/-- The real value of a finite number (0 for the others; always guarded by `isFin`). -/
def toReal : XR → ℝ
  | fin a => a
  | _ => 0

instance : Add XR := ⟨add⟩
instance : Neg XR := ⟨neg⟩
instance : Sub XR := ⟨sub⟩
instance : Mul XR := ⟨mul⟩
instance : Div XR := ⟨div⟩
instance : Inhabited XR := ⟨nan⟩

@[simp] theorem fin_add (a b : ℝ) : (fin a + fin b : XR) = fin (a + b) := rfl
@[simp] theorem fin_neg (a : ℝ) : (-fin a : XR) = fin (-a) := rfl
@[simp] theorem fin_sub (a b : ℝ) : (fin a - fin b : XR) = fin (a - b) := by
  show add (fin a) (neg (fin b)) = _
  simp [neg, add, sub_eq_add_neg]
@[simp] theorem fin_mul (a b : ℝ) : (fin a * fin b : XR) = fin (a * b) := rfl
theorem fin_div (a b : ℝ) (h : b ≠ 0) : (fin a / fin b : XR) = fin (a / b) := by
  show div (fin a) (fin b) = _
  simp [div, h]
@[simp] theorem exp_fin (a : ℝ) : exp (fin a) = fin (Real.exp a) := rfl
theorem log_fin (a : ℝ) (h : 0 < a) : log (fin a) = fin (Real.log a) := by simp [log, h]
theorem log10_fin (a : ℝ) (h : 0 < a) : log10 (fin a) = fin (Real.logb 10 a) := by
  simp [log10, h]
@[simp] theorem cos_fin (a : ℝ) : cos (fin a) = fin (Real.cos a) := rfl
@[simp] theorem sin_fin (a : ℝ) : sin (fin a) = fin (Real.sin a) := rfl
@[simp] theorem npow_fin (a : ℝ) (n : ℕ) : npow (fin a) n = fin (a ^ n) := by
  induction n with
  | zero => simp [npow]
  | succ n ih =>
    simp only [npow, ih]
    show fin (a ^ n) * fin a = _
    simp [pow_succ]
theorem rpow_fin_pos (a r : ℝ) (h : 0 < a) : rpow (fin a) r = fin (a ^ r) := by
  unfold rpow
  by_cases h0 : r = 0
  · subst h0; simp
  · simp [h, h.ne', h0]
theorem rpow_fin_nat (a : ℝ) (n : ℕ) : rpow (fin a) (n : ℝ) = fin (a ^ n) := by
  unfold rpow
  by_cases h0 : (n : ℝ) = 0
  · have : n = 0 := by exact_mod_cast h0
    subst this; simp
  · have hn : n ≠ 0 := by
      rintro rfl; simp at h0
    have hneg : ¬ ((n : ℝ) < 0) := not_lt.mpr (Nat.cast_nonneg n)
    rw [if_neg h0]
    by_cases ha : a = 0
    · subst ha; simp [hn, hneg]
    · by_cases hp : 0 < a
      · simp [ha, hp]
      · have : ∃ k : ℤ, (n : ℝ) = k := ⟨n, by simp⟩
        simp only [ha, hp, this, if_true, if_false, Real.rpow_natCast]

end

end XR

end RT1
