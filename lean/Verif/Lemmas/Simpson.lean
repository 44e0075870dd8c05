import Verif.Model.HemReflect
import Mathlib.MeasureTheory.Integral.IntervalIntegral.Basic
import Mathlib.MeasureTheory.Integral.DominatedConvergence

/-! Convergence of Simpson's rule. -/

namespace RT1

noncomputable section
open Classical

def panelsR (f : ℕ → ℝ) (h : ℝ) (s m : ℕ) : ℝ :=
  ∑ k ∈ Finset.range m, h / 3 * (f (s + 2 * k) + 4 * f (s + 2 * k + 1) + f (s + 2 * k + 2))

def trapR (f : ℕ → ℝ) (h : ℝ) (k : ℕ) : ℝ := h / 2 * (f (k + 1) + f k)

def simpsR (r : EvenRule) (f : ℕ → ℝ) (h : ℝ) (n : ℕ) : ℝ :=
  if n % 2 = 1 then panelsR f h 0 ((n - 1) / 2)
  else
    match r with
    | .avg =>
      1 / 2 * ((trapR f h (n - 2) + panelsR f h 0 ((n - 2) / 2))
        + (trapR f h 0 + panelsR f h 1 ((n - 2) / 2)))
    | .correct =>
      if n = 2 then trapR f h 0
      else panelsR f h 0 ((n - 2) / 2) + (5 / 12 * h * f (n - 1)
        + 2 / 3 * h * f (n - 2) - 1 / 12 * h * f (n - 3))

theorem sumX_range (g : ℕ → ℝ) (m : ℕ) (G : ℕ → XR) (hG : ∀ k < m, G k = XR.fin (g k)) :
    Arr.sumX ((List.range m).map G) = XR.fin (∑ k ∈ Finset.range m, g k) := by
  induction m generalizing g G with
  | zero => rfl
  | succ m ih =>
    rw [List.range_succ_eq_map, List.map_cons, List.map_map]
    show G 0 + Arr.sumX _ = _
    rw [ih (fun k => g (k + 1)) (G ∘ Nat.succ) (fun k hk => hG (k + 1) (by omega)), hG 0 (by omega),
      Finset.sum_range_succ', add_comm]
    rfl

theorem panels_fin {F : ℕ → XR} {f : ℕ → ℝ} {n : ℕ} (hF : ∀ i < n, F i = XR.fin (f i)) {h : ℝ} {s m : ℕ}
    (hm : s + 2 * m < n) : panels F h s m = XR.fin (panelsR f h s m) := by
  unfold panels panelsR
  refine sumX_range _ _ _ fun k hk => ?_
  rw [hF _ (by omega), hF _ (by omega), hF _ (by omega)]
  rfl

theorem simpsX_fin {F : ℕ → XR} {f : ℕ → ℝ} {n : ℕ} (hF : ∀ i < n, F i = XR.fin (f i)) (hn : 0 < n) (r : EvenRule)
    (h : ℝ) : simpsX r F h n = XR.fin (simpsR r f h n) := by
  unfold simpsX simpsR
  split_ifs with h1 h2
  · exact panels_fin hF (by omega)
  · cases r with
    | avg =>
      simp only [trapezoid]
      rw [panels_fin hF (by omega), panels_fin hF (by omega), hF _ (by omega), hF _ (by omega), hF _ (by omega),
        hF _ (by omega)]
      rfl
    | correct =>
      simp only [trapezoid, if_pos h2]
      rw [hF _ (by omega), hF _ (by omega)]
      rfl
  · cases r with
    | avg =>
      simp only [trapezoid]
      rw [panels_fin hF (by omega), panels_fin hF (by omega), hF _ (by omega), hF _ (by omega), hF _ (by omega),
        hF _ (by omega)]
      rfl
    | correct =>
      simp only [if_neg h2]
      rw [panels_fin hF (by omega), hF _ (by omega), hF _ (by omega), hF _ (by omega)]
      rfl

/-! ## Stability -/

theorem panelsR_sub (f g : ℕ → ℝ) (h : ℝ) (s m : ℕ) :
    panelsR f h s m - panelsR g h s m = panelsR (fun i => f i - g i) h s m := by
  unfold panelsR
  rw [← Finset.sum_sub_distrib]
  exact Finset.sum_congr rfl fun k _ => by ring

theorem panelsR_abs {f : ℕ → ℝ} {h e : ℝ} (hh : 0 ≤ h) {s m n : ℕ} (hf : ∀ i < n, |f i| ≤ e) (hm : s + 2 * m < n) :
    |panelsR f h s m| ≤ 2 * m * h * e := by
  unfold panelsR
  refine (Finset.abs_sum_le_sum_abs _ _).trans ?_
  have : ∀ k ∈ Finset.range m, |h / 3 * (f (s + 2 * k) + 4 * f (s + 2 * k + 1) + f (s + 2 * k + 2))| ≤ 2 * h * e := by
    intro k hk
    have hk := Finset.mem_range.mp hk
    have h1 := abs_le.mp (hf (s + 2 * k) (by omega))
    have h2 := abs_le.mp (hf (s + 2 * k + 1) (by omega))
    have h3 := abs_le.mp (hf (s + 2 * k + 2) (by omega))
    rw [abs_mul, abs_of_nonneg (by positivity)]
    have : |f (s + 2 * k) + 4 * f (s + 2 * k + 1) + f (s + 2 * k + 2)| ≤ 6 * e :=
      abs_le.mpr ⟨by linarith, by linarith⟩
    nlinarith
  refine (Finset.sum_le_sum this).trans (le_of_eq ?_)
  simp; ring

theorem trapR_abs {f : ℕ → ℝ} {h e : ℝ} (hh : 0 ≤ h) {k n : ℕ} (hf : ∀ i < n, |f i| ≤ e) (hk : k + 1 < n) :
    |trapR f h k| ≤ h * e := by
  unfold trapR
  have h1 := abs_le.mp (hf k (by omega))
  have h2 := abs_le.mp (hf (k + 1) hk)
  rw [abs_mul, abs_of_nonneg (by positivity)]
  have : |f (k + 1) + f k| ≤ 2 * e := abs_le.mpr ⟨by linarith, by linarith⟩
  nlinarith

theorem simpsR_sub (r : EvenRule) (f g : ℕ → ℝ) (h : ℝ) (n : ℕ) :
    simpsR r f h n - simpsR r g h n = simpsR r (fun i => f i - g i) h n := by
  unfold simpsR
  cases r <;> split_ifs <;> simp only [← panelsR_sub, trapR] <;> ring

theorem simpsR_abs (r : EvenRule) {f : ℕ → ℝ} {h e : ℝ} (hh : 0 ≤ h) {n : ℕ} (hn : 0 < n)
    (hf : ∀ i < n, |f i| ≤ e) : |simpsR r f h n| ≤ 2 * ((n : ℝ) - 1) * h * e := by
  have he : 0 ≤ e := (abs_nonneg _).trans (hf 0 hn)
  have hhe : 0 ≤ h * e := mul_nonneg hh he
  have hhalf : ∀ m k : ℕ, 2 * m + k = n → (n : ℝ) = 2 * m + k := fun m k h => by rw [← h]; push_cast; ring
  unfold simpsR
  split_ifs with h1 h2
  · have h3 := panelsR_abs (m := (n - 1) / 2) (s := 0) hh hf (by omega)
    have h4 := hhalf ((n - 1) / 2) 1 (by omega)
    push_cast at h4
    nlinarith [(Nat.cast_nonneg ((n - 1) / 2) : (0 : ℝ) ≤ _)]
  all_goals
    have h3 := abs_le.mp (panelsR_abs (m := (n - 2) / 2) (s := 0) hh hf (by omega))
    have h4 := hhalf ((n - 2) / 2) 2 (by omega)
    push_cast at h4
    have h0 : (0 : ℝ) ≤ ((n - 2) / 2 : ℕ) := Nat.cast_nonneg _
    have h5 := abs_le.mp (trapR_abs (k := 0) hh hf (by omega))
    cases r with
    | avg =>
      have h6 := abs_le.mp (trapR_abs (k := n - 2) hh hf (by omega))
      have h7 := abs_le.mp (panelsR_abs (m := (n - 2) / 2) (s := 1) hh hf (by omega))
      simp only
      have := mul_nonneg h0 hhe
      rw [h4]
      exact abs_le.mpr ⟨by nlinarith, by nlinarith⟩
    | correct =>
      have := mul_nonneg h0 hhe
      first
      | simp only [if_pos h2]
        rw [h4]
        exact abs_le.mpr ⟨by nlinarith, by nlinarith⟩
      | simp only [if_neg h2]
        have a1 := abs_le.mp (hf (n - 1) (by omega))
        have a2 := abs_le.mp (hf (n - 2) (by omega))
        have a3 := abs_le.mp (hf (n - 3) (by omega))
        have b1 := mul_le_mul_of_nonneg_left a1.2 hh
        have b2 := mul_le_mul_of_nonneg_left a2.2 hh
        have b3 := mul_le_mul_of_nonneg_left a3.2 hh
        have c1 := mul_le_mul_of_nonneg_left a1.1 hh
        have c2 := mul_le_mul_of_nonneg_left a2.1 hh
        have c3 := mul_le_mul_of_nonneg_left a3.1 hh
        rw [h4]
        exact abs_le.mpr ⟨by nlinarith, by nlinarith⟩

/-! ## Error bounds -/

theorem integral_near {g : ℝ → ℝ} (hg : Continuous g) {u v c e : ℝ} (huv : u ≤ v)
    (h : ∀ s, u ≤ s → s ≤ v → |g s - c| ≤ e) : |(∫ s in u..v, g s) - (v - u) * c| ≤ (v - u) * e := by
  have e1 : (∫ s in u..v, g s) - (v - u) * c = ∫ s in u..v, (g s - c) := by
    rw [intervalIntegral.integral_sub (hg.intervalIntegrable _ _) (continuous_const.intervalIntegrable _ _)]
    simp
  rw [e1, ← Real.norm_eq_abs]
  refine (intervalIntegral.norm_integral_le_of_norm_le_const (C := e) fun s hs => ?_).trans ?_
  · rw [Set.uIoc_of_le huv] at hs
    exact h s hs.1.le hs.2
  · rw [abs_of_nonneg (by linarith)]; linarith

/-- Values of `g` on neighbouring grid points differ by at most `e`. -/
def Close (g : ℝ → ℝ) (a b d e : ℝ) : Prop :=
  ∀ s t, a ≤ s → s ≤ b → a ≤ t → t ≤ b → |s - t| ≤ d → |g s - g t| ≤ e

theorem panelsR_error {g : ℝ → ℝ} (hg : Continuous g) {a b h e : ℝ} (hh : 0 ≤ h) (hc : Close g a b (2 * h) e)
    (s m : ℕ) (hb : a + (s + 2 * m : ℕ) * h ≤ b) :
    |panelsR (fun i => g (a + i * h)) h s m - ∫ x in (a + s * h)..(a + (s + 2 * m : ℕ) * h), g x| ≤ 4 * m * h * e := by
  induction m with
  | zero => simp [panelsR]
  | succ m ih =>
    have hs : (0 : ℝ) ≤ s := Nat.cast_nonneg _
    have hm : (0 : ℝ) ≤ m := Nat.cast_nonneg _
    have hsh := mul_nonneg hs hh
    have hmh := mul_nonneg hm hh
    push_cast at hb ih ⊢
    have h1 := ih (by nlinarith)
    set u := a + (s + 2 * m) * h with hu
    have hau : a ≤ u := by rw [hu]; nlinarith
    have hub : u + 2 * h ≤ b := by rw [hu]; nlinarith
    have e1 : a + (s + 2 * (m + 1)) * h = u + 2 * h := by rw [hu]; ring
    rw [e1, ← intervalIntegral.integral_add_adjacent_intervals (b := u) (hg.intervalIntegrable _ _)
      (hg.intervalIntegrable _ _)]
    have h2 := integral_near hg (u := u) (v := u + 2 * h) (c := g u) (e := e) (by linarith) fun x hx hx' =>
      hc x u (by linarith) (by linarith) hau (by linarith) (by rw [abs_of_nonneg] <;> linarith)
    have e2 : panelsR (fun i => g (a + i * h)) h s (m + 1) = panelsR (fun i => g (a + i * h)) h s m +
        h / 3 * (g u + 4 * g (u + h) + g (u + 2 * h)) := by
      unfold panelsR
      rw [Finset.sum_range_succ]
      congr 3
      · congr 2
        · rw [hu]; push_cast; rfl
        · congr 1; rw [hu]; push_cast; ring
      · rw [hu]; push_cast; ring
    rw [e2]
    have h3 := abs_le.mp (hc (u + h) u (by linarith) (by linarith) hau (by linarith)
      (by rw [abs_of_nonneg] <;> linarith))
    have h4 := abs_le.mp (hc (u + 2 * h) u (by linarith) (by linarith) hau (by linarith)
      (by rw [abs_of_nonneg] <;> linarith))
    have h1 := abs_le.mp h1
    have h2 := abs_le.mp h2
    have b1 := mul_le_mul_of_nonneg_left h3.2 hh
    have b2 := mul_le_mul_of_nonneg_left h4.2 hh
    have c1 := mul_le_mul_of_nonneg_left h3.1 hh
    have c2 := mul_le_mul_of_nonneg_left h4.1 hh
    have he : 0 ≤ h * e := by nlinarith
    exact abs_le.mpr ⟨by nlinarith, by nlinarith⟩

theorem trapR_error {g : ℝ → ℝ} (hg : Continuous g) {a b h e : ℝ} (hh : 0 ≤ h) (hc : Close g a b (2 * h) e)
    (k : ℕ) (hb : a + (k + 1 : ℕ) * h ≤ b) :
    |trapR (fun i => g (a + i * h)) h k - ∫ x in (a + k * h)..(a + (k + 1 : ℕ) * h), g x| ≤ 2 * h * e := by
  have hk : (0 : ℝ) ≤ k := Nat.cast_nonneg _
  have hkh := mul_nonneg hk hh
  unfold trapR
  push_cast at hb ⊢
  set u := a + k * h with hu
  have e1 : a + (k + 1) * h = u + h := by rw [hu]; ring
  rw [e1] at hb ⊢
  have hau : a ≤ u := by rw [hu]; nlinarith
  have h2 := abs_le.mp (integral_near hg (u := u) (v := u + h) (c := g u) (e := e) (by linarith) fun x hx hx' =>
    hc x u (by linarith) (by linarith) hau (by linarith) (by rw [abs_of_nonneg] <;> linarith))
  have h3 := abs_le.mp (hc (u + h) u (by linarith) (by linarith) hau (by linarith)
      (by rw [abs_of_nonneg] <;> linarith))
  have b1 := mul_le_mul_of_nonneg_left h3.2 hh
  have c1 := mul_le_mul_of_nonneg_left h3.1 hh
  have he : 0 ≤ h * e := by nlinarith
  exact abs_le.mpr ⟨by nlinarith, by nlinarith⟩

theorem simpsR_error (r : EvenRule) {g : ℝ → ℝ} (hg : Continuous g) {a b h e : ℝ} {n : ℕ} (hn : 0 < n) (hh : 0 ≤ h)
    (hb : a + ((n : ℝ) - 1) * h = b) (hc : Close g a b (2 * h) e) :
    |simpsR r (fun i => g (a + i * h)) h n - ∫ x in a..b, g x| ≤ 4 * ((n : ℝ) - 1) * h * e := by
  have hn1 : (1 : ℝ) ≤ n := by exact_mod_cast hn
  have hab : a ≤ b := by nlinarith [mul_nonneg (sub_nonneg.mpr hn1) hh]
  have he : 0 ≤ e := (abs_nonneg _).trans (hc a a le_rfl hab le_rfl hab (by simp; linarith))
  have hhe : 0 ≤ h * e := mul_nonneg hh he
  have hhalf : ∀ m k : ℕ, 2 * m + k = n → (n : ℝ) = 2 * m + k := fun m k h => by rw [← h]; push_cast; ring
  have hint : ∀ u v w, (∫ x in u..v, g x) + ∫ x in v..w, g x = ∫ x in u..w, g x := fun u v w =>
    intervalIntegral.integral_add_adjacent_intervals (hg.intervalIntegrable _ _) (hg.intervalIntegrable _ _)
  have ea : a + ((0 : ℕ) : ℝ) * h = a := by simp
  unfold simpsR
  by_cases h1 : n % 2 = 1
  · rw [if_pos h1]
    have h4 := hhalf ((n - 1) / 2) 1 (by omega)
    have eb : a + ((0 + 2 * ((n - 1) / 2) : ℕ) : ℝ) * h = b := by
      rw [← hb, h4]; push_cast; ring
    have h3 := panelsR_error hg hh hc 0 ((n - 1) / 2) eb.le
    rw [ea, eb] at h3
    push_cast at h4
    refine h3.trans ?_
    rw [h4]
    have hm0 : (0 : ℝ) ≤ ((n - 1) / 2 : ℕ) := Nat.cast_nonneg _
    nlinarith [mul_nonneg hm0 hhe]
  · rw [if_neg h1]
    set m := (n - 2) / 2 with hm
    have h4 := hhalf m 2 (by omega)
    push_cast at h4
    have hm0 : (0 : ℝ) ≤ m := Nat.cast_nonneg _
    have hmh := mul_nonneg hm0 hh
    have hmhe := mul_nonneg hm0 hhe
    have eb : a + ((0 + 2 * m + 1 : ℕ) : ℝ) * h = b := by rw [← hb, h4]; push_cast; ring
    have p0 := panelsR_error hg hh hc 0 m (by rw [← eb]; push_cast; nlinarith)
    rw [ea] at p0
    have e2 : n - 2 = 0 + 2 * m := by omega
    have p0 := abs_le.mp p0
    cases r with
    | avg =>
      have p1 := panelsR_error hg hh hc 1 m (by rw [← eb]; push_cast; nlinarith)
      have t0 := trapR_error hg hh hc 0 (by rw [← eb]; push_cast; nlinarith)
      have t1 := trapR_error hg hh hc (0 + 2 * m) eb.le
      have e3 : a + ((1 + 2 * m : ℕ) : ℝ) * h = b := by rw [← eb]; push_cast; ring
      rw [e3] at p1
      rw [eb] at t1
      rw [ea] at t0
      have p1 := abs_le.mp p1
      have t0 := abs_le.mp t0
      have t1 := abs_le.mp t1
      have i1 := hint a (a + ((0 + 2 * m : ℕ) : ℝ) * h) b
      have i2 := hint a (a + ((0 + 1 : ℕ) : ℝ) * h) b
      simp only [e2]
      rw [h4]
      simp only [zero_add] at *
      exact abs_le.mpr ⟨by nlinarith, by nlinarith⟩
    | correct =>
      have i1 := hint a (a + ((0 + 2 * m : ℕ) : ℝ) * h) b
      simp only
      split_ifs with h2
      · have hm' : m = 0 := by omega
        have t0 := trapR_error hg hh hc 0 (by rw [← eb]; push_cast; nlinarith)
        rw [ea, show ((0 + 1 : ℕ)) = 0 + 2 * m + 1 by omega, eb] at t0
        refine t0.trans ?_
        rw [h4]; nlinarith
      · have hm1 : 1 ≤ m := by omega
        set u := a + ((0 + 2 * m : ℕ) : ℝ) * h with hu
        have hub : u + h = b := by rw [← eb, hu]; push_cast; ring
        have hau : a ≤ u - h := by
          have : (1 : ℝ) ≤ m := by exact_mod_cast hm1
          rw [hu]; push_cast; nlinarith
        have q := abs_le.mp (integral_near hg (u := u) (v := b) (c := g u) (e := e) (by linarith) fun x hx hx' =>
          hc x u (by linarith) (by linarith) (by linarith) (by linarith) (by rw [abs_of_nonneg] <;> linarith))
        have v1 : g (a + ((n - 1 : ℕ) : ℝ) * h) = g b := by
          rw [show n - 1 = 0 + 2 * m + 1 by omega, eb]
        have v2 : g (a + ((n - 2 : ℕ) : ℝ) * h) = g u := by rw [e2]
        have v3 : g (a + ((n - 3 : ℕ) : ℝ) * h) = g (u - h) := by
          congr 1
          have : ((n - 3 : ℕ) : ℝ) + 1 = ((0 + 2 * m : ℕ) : ℝ) := by
            have : n - 3 + 1 = 0 + 2 * m := by omega
            exact_mod_cast this
          rw [hu, ← this]; ring
        rw [v1, v2, v3]
        have h3 := abs_le.mp (hc b u (by linarith) le_rfl (by linarith) (by linarith)
          (by rw [abs_of_nonneg] <;> linarith))
        have h5 := abs_le.mp (hc (u - h) u hau (by linarith) (by linarith) (by linarith)
          (by rw [abs_of_nonpos] <;> linarith))
        have b1 := mul_le_mul_of_nonneg_left h3.2 hh
        have b2 := mul_le_mul_of_nonneg_left h5.2 hh
        have c1 := mul_le_mul_of_nonneg_left h3.1 hh
        have c2 := mul_le_mul_of_nonneg_left h5.1 hh
        have hbu : b - u = h := by linarith
        rw [hbu] at q
        rw [h4]
        exact abs_le.mpr ⟨by linarith, by linarith⟩

/-! ## Convergence -/

theorem step_mul {A : ℝ} {n : ℕ} (hn : 2 ≤ n) : ((n : ℝ) - 1) * stepOf 0 A n = A := by
  have : (2 : ℝ) ≤ n := by exact_mod_cast hn
  unfold stepOf
  field_simp [(by linarith : (n : ℝ) - 1 ≠ 0)]
  ring

theorem step_nonneg {A : ℝ} (hA : 0 ≤ A) {n : ℕ} (hn : 1 ≤ n) : 0 ≤ stepOf 0 A n := by
  have : (1 : ℝ) ≤ n := by exact_mod_cast hn
  unfold stepOf
  exact div_nonneg (by linarith) (by linarith)

theorem linspace_step (a b : ℝ) (n k : ℕ) : linspace a b n k = a + k * stepOf a b n := rfl

theorem linspace_mem {A : ℝ} (hA : 0 ≤ A) {n k : ℕ} (hn : 2 ≤ n) (hk : k < n) :
    0 ≤ linspace 0 A n k ∧ linspace 0 A n k ≤ A := by
  have h1 := step_nonneg hA (show 1 ≤ n by omega)
  have h2 : (k : ℝ) ≤ n - 1 := by
    have : k + 1 ≤ n := hk
    have : (k : ℝ) + 1 ≤ n := by exact_mod_cast this
    linarith
  rw [linspace_step, zero_add]
  refine ⟨mul_nonneg (Nat.cast_nonneg _) h1, ?_⟩
  calc (k : ℝ) * stepOf 0 A n ≤ ((n : ℝ) - 1) * stepOf 0 A n := mul_le_mul_of_nonneg_right h2 h1
    _ = A := step_mul hn

theorem step_tendsto (A : ℝ) : Filter.Tendsto (fun n => stepOf 0 A n) Filter.atTop (nhds 0) := by
  unfold stepOf
  refine Filter.Tendsto.div_atTop tendsto_const_nhds ?_
  exact Filter.tendsto_atTop_add_const_right _ _ tendsto_natCast_atTop_atTop

/-- Simpson's rule in two variables, the second variable first. -/
def simps2R (r : EvenRule) (G : ℝ → ℝ → ℝ) (A B : ℝ) (n : ℕ) : ℝ :=
  simpsR r (fun i => simpsR r (fun j => G (linspace 0 A n i) (linspace 0 B n j)) (stepOf 0 B n) n) (stepOf 0 A n) n

theorem simps2R_error (r : EvenRule) {G : ℝ → ℝ → ℝ} (hG : Continuous (Function.uncurry G)) {A B e : ℝ}
    (hA : 0 ≤ A) (hB : 0 ≤ B) {n : ℕ} (hn : 2 ≤ n)
    (h1 : ∀ p, 0 ≤ p → p ≤ B → Close (fun t => G t p) 0 A (2 * stepOf 0 A n) e)
    (h2 : ∀ t, 0 ≤ t → t ≤ A → Close (G t) 0 B (2 * stepOf 0 B n) e) :
    |simps2R r G A B n - ∫ t in (0 : ℝ)..A, ∫ p in (0 : ℝ)..B, G t p| ≤ 12 * A * B * e := by
  have hcI : Continuous fun t => ∫ p in (0 : ℝ)..B, G t p :=
    intervalIntegral.continuous_parametric_intervalIntegral_of_continuous' hG 0 B
  have hct : ∀ t, Continuous (G t) := fun t => hG.comp (Continuous.prodMk_right t)
  have hsA := step_nonneg hA (show 1 ≤ n by omega)
  have hsB := step_nonneg hB (show 1 ≤ n by omega)
  have hin : ∀ i < n, |simpsR r (fun j => G (linspace 0 A n i) (linspace 0 B n j)) (stepOf 0 B n) n -
      ∫ p in (0 : ℝ)..B, G (linspace 0 A n i) p| ≤ 4 * B * e := by
    intro i hi
    have hm := linspace_mem hA hn hi
    have := simpsR_error r (hct (linspace 0 A n i)) (show 0 < n by omega) hsB (a := 0) (b := B) (e := e)
      (by rw [zero_add]; exact step_mul hn) (h2 _ hm.1 hm.2)
    rw [mul_assoc 4, step_mul hn] at this
    exact this
  have h3 := simpsR_abs r hsA (show 0 < n by omega) hin
  rw [← simpsR_sub, mul_assoc 2, step_mul hn] at h3
  have hclose : Close (fun t => ∫ p in (0 : ℝ)..B, G t p) 0 A (2 * stepOf 0 A n) (B * e) := by
    intro s t hs hs' ht ht' hst
    rw [← intervalIntegral.integral_sub ((hct s).intervalIntegrable _ _) ((hct t).intervalIntegrable _ _),
      ← Real.norm_eq_abs]
    refine (intervalIntegral.norm_integral_le_of_norm_le_const (C := e) fun p hp => ?_).trans ?_
    · rw [Set.uIoc_of_le hB] at hp
      exact h1 p hp.1.le hp.2 s t hs hs' ht ht' hst
    · rw [sub_zero, abs_of_nonneg hB, mul_comm]
  have h4 := simpsR_error r hcI (show 0 < n by omega) hsA (a := 0) (b := A)
      (by rw [zero_add]; exact step_mul hn) hclose
  rw [mul_assoc 4, step_mul hn] at h4
  have h3 := abs_le.mp h3
  have h4 := abs_le.mp h4
  unfold simps2R
  simp only [linspace_step] at *
  exact abs_le.mpr ⟨by linarith, by linarith⟩

theorem simps2R_tendsto (r : EvenRule) {G : ℝ → ℝ → ℝ} (hG : Continuous (Function.uncurry G)) {A B : ℝ}
    (hA : 0 ≤ A) (hB : 0 ≤ B) :
    Filter.Tendsto (simps2R r G A B) Filter.atTop (nhds (∫ t in (0 : ℝ)..A, ∫ p in (0 : ℝ)..B, G t p)) := by
  rw [Metric.tendsto_atTop]
  intro ε hε
  have hK : IsCompact (Set.Icc (0 : ℝ) A ×ˢ Set.Icc (0 : ℝ) B) := isCompact_Icc.prod isCompact_Icc
  have hU := hK.uniformContinuousOn_of_continuous hG.continuousOn
  have hAB := mul_nonneg hA hB
  obtain ⟨δ, hδ, hU⟩ := Metric.uniformContinuousOn_iff.mp hU (ε / (12 * A * B + 1)) (by positivity)
  have hlim : ∀ C : ℝ, ∃ N, ∀ n ≥ N, 2 * stepOf 0 C n < δ := by
    intro C
    have := (step_tendsto C).const_mul 2
    rw [mul_zero] at this
    exact Filter.eventually_atTop.mp (this.eventually (gt_mem_nhds hδ))
  obtain ⟨N1, hN1⟩ := hlim A
  obtain ⟨N2, hN2⟩ := hlim B
  refine ⟨N1 + N2 + 2, fun n hn => ?_⟩
  rw [Real.dist_eq]
  refine (simps2R_error r hG (e := ε / (12 * A * B + 1)) hA hB (by omega) ?_ ?_).trans_lt ?_
  · intro p hp hp' s t hs hs' ht ht' hst
    refine (hU (s, p) ⟨⟨hs, hs'⟩, ⟨hp, hp'⟩⟩ (t, p) ⟨⟨ht, ht'⟩, ⟨hp, hp'⟩⟩ ?_).le
    rw [Prod.dist_eq, dist_self, max_eq_left dist_nonneg, Real.dist_eq]
    exact hst.trans_lt (hN1 n (by omega))
  · intro t ht ht' p q hp hp' hq hq' hpq
    refine (hU (t, p) ⟨⟨ht, ht'⟩, ⟨hp, hp'⟩⟩ (t, q) ⟨⟨ht, ht'⟩, ⟨hq, hq'⟩⟩ ?_).le
    rw [Prod.dist_eq, dist_self, max_eq_right dist_nonneg, Real.dist_eq]
    exact hpq.trans_lt (hN2 n (by omega))
  · rw [mul_div_assoc', div_lt_iff₀ (by positivity)]
    nlinarith

end

end RT1
