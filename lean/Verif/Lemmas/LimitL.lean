import Verif.Lemmas.Energy
import Verif.Lemmas.HgSeries
import Verif.Lemmas.LobeSeries
import Verif.Lemmas.LinL
import Verif.Spec.Limit
import Mathlib.MeasureTheory.Constructions.BorelSpace.Metrizable

/-!
# Limits of interaction contributions

Dominated convergence for the documented double integral; truncated expansions of predefined
functions and of their linear combinations are bounded and converge.
-/

namespace RT1

noncomputable section
open Classical Filter Topology MeasureTheory

namespace Energy
open Real

theorem weight_q_meas {τ : ℝ} {q : ℝ × ℝ → ℝ} (hq : Measurable q) (μ : ℝ) :
    Measurable fun z : ℝ × ℝ => weight τ μ (cs z.1) * q z * sin z.1 := by
  have : Measurable fun z : ℝ × ℝ => weight τ μ (cs z.1) :=
    (weight_meas τ).comp (measurable_const.prodMk (cs_cont.measurable.comp measurable_fst))
  exact (this.mul hq).mul (by fun_prop)

theorem weight_q_le {τ μ K : ℝ} (hτ : 0 ≤ τ) (hμ : 0 < μ) {q : ℝ × ℝ → ℝ} (hK : ∀ z, |q z| ≤ K) (z : ℝ × ℝ) :
    ‖weight τ μ (cs z.1) * q z * sin z.1‖ ≤ K := by
  have h1 := weight_nonneg hτ hμ (cs_nonneg z.1)
  have h2 := weight_le_one hτ hμ (cs_nonneg z.1)
  have h3 := hK z
  have hK0 : 0 ≤ K := (abs_nonneg _).trans h3
  rw [norm_eq_abs, abs_mul, abs_mul, abs_of_nonneg h1]
  calc weight τ μ (cs z.1) * |q z| * |sin z.1| ≤ 1 * K * 1 := by
        gcongr
        exact abs_sin_le_one _
    _ = K := by ring

/-- The double integral of the documentation as one integral. -/
theorem hemi_bounded {τ μ K : ℝ} (hτ : 0 ≤ τ) (hμ : 0 < μ) {q : ℝ → ℝ → ℝ} (hq : Measurable fun z : ℝ × ℝ => q z.1 z.2)
    (hK : ∀ s φ, |q s φ| ≤ K) : hemi μ τ q = ∫ z, weight τ μ (cs z.1) * q z.1 z.2 * sin z.1 ∂ν := by
  have hi : Integrable (fun z : ℝ × ℝ => weight τ μ (cs z.1) * q z.1 z.2 * sin z.1) ν :=
    Integrable.mono' (integrable_const K) (weight_q_meas hq μ).aestronglyMeasurable
      (Eventually.of_forall (weight_q_le hτ hμ (q := fun z => q z.1 z.2) fun z => hK _ _))
  have e : hemi μ τ q = ∫ t in (0 : ℝ)..π / 2, ∫ p in (0 : ℝ)..2 * π, weight τ μ (cs t) * q t p * sin t := by
    unfold hemi
    refine intervalIntegral.integral_congr fun s hs => intervalIntegral.integral_congr fun p _ => ?_
    rw [Set.uIcc_of_le half_pi_nonneg] at hs
    rw [cs_eq hs]
    rfl
  rw [e, intervalIntegral.integral_of_le half_pi_nonneg]
  simp only [intervalIntegral.integral_of_le two_pi_nonneg]
  exact (integral_prod (μ := MeasureTheory.volume.restrict (Set.Ioc 0 (π / 2))) (ν := MeasureTheory.volume.restrict (Set.Ioc 0 (2 * π))) _ hi).symm

theorem hemi_tendsto {τ μ K : ℝ} (hτ : 0 ≤ τ) (hμ : 0 < μ) {q : ℕ → ℝ → ℝ → ℝ} {q' : ℝ → ℝ → ℝ}
    (hq : ∀ N, Continuous fun z : ℝ × ℝ => q N z.1 z.2) (hK : ∀ N s φ, |q N s φ| ≤ K)
    (hl : ∀ s φ, Tendsto (fun N => q N s φ) atTop (𝓝 (q' s φ))) :
    Tendsto (fun N => hemi μ τ (q N)) atTop (𝓝 (hemi μ τ q')) := by
  have hm : Measurable fun z : ℝ × ℝ => q' z.1 z.2 :=
    measurable_of_tendsto_metrizable (fun N => (hq N).measurable) (tendsto_pi_nhds.mpr fun z => hl z.1 z.2)
  have hK' : ∀ s φ, |q' s φ| ≤ K := fun s φ =>
    le_of_tendsto ((hl s φ).abs) (Eventually.of_forall fun N => hK N s φ)
  rw [hemi_bounded hτ hμ hm hK']
  have e : (fun N => hemi μ τ (q N)) = fun N => ∫ z, weight τ μ (cs z.1) * q N z.1 z.2 * sin z.1 ∂ν :=
    funext fun N => hemi_bounded hτ hμ (hq N).measurable (hK N)
  rw [e]
  refine tendsto_integral_of_dominated_convergence (fun _ => K)
    (fun N => (weight_q_meas (hq N).measurable μ).aestronglyMeasurable) (integrable_const K)
    (fun N => Eventually.of_forall (weight_q_le hτ hμ (q := fun z => q N z.1 z.2) fun z => hK N _ _))
    (Eventually.of_forall fun z => ((hl z.1 z.2).const_mul _).mul_const _)

end Energy

/-! ### expansions that converge -/

/-- Expansions of a sequence of scattering objects converge to a function of two directions. -/
structure Growing (o : ℕ → Scatter) (x : Site) (P : Bidir) : Prop where
  lim : ∀ y : Site, y.ρ = x.ρ → ∀ a b u v, Tendsto (fun N => (o N).expVal y.env a b u v) atTop (𝓝 (P a b u v))
  bound : ∃ K, ∀ N, ∀ y : Site, y.ρ = x.ρ → ∀ a b u v, |(o N).expVal y.env a b u v| ≤ K
  cont : ∀ N, ∀ y : Site, y.ρ = x.ρ → Bidir.Cont ((o N).expVal y.env)

theorem Growing.fint {V S : ℕ → Scatter} {x : Site} {P F : Bidir} (hV : Growing V x P) (hS : Growing S x F) {y : Site}
    (hy : y.ρ = x.ρ) (hτ : 0 ≤ y.tau) (hμ : 0 < y.mu0) (δ : ℝ) :
    Tendsto (fun N => y.FintAz (V N) (S N) δ) atTop (𝓝 (y.FintOf P F δ)) := by
  obtain ⟨K, hK⟩ := hV.bound
  obtain ⟨L, hL⟩ := hS.bound
  refine Energy.hemi_tendsto (K := K * L) hτ hμ (fun N => ?_) (fun N s φ => ?_) fun s φ => ?_
  · exact ((hV.cont N y hy).comp (by fun_prop) (by fun_prop) (by fun_prop) (by fun_prop)).mul
      ((hS.cont N y hy).comp (by fun_prop) (by fun_prop) (by fun_prop) (by fun_prop))
  · rw [abs_mul]
    exact mul_le_mul (hK N y hy _ _ _ _) (hL N y hy _ _ _ _) (abs_nonneg _) ((abs_nonneg _).trans (hK N y hy 0 0 0 0))
  · exact (hV.lim y hy _ _ _ _).mul (hS.lim y hy _ _ _ _)

theorem Growing.interaction {V S : ℕ → Scatter} {x : Site} {P F : Bidir} (hV : Growing V x P) (hS : Growing S x F)
    (hx : x.Oblique) (δ : ℝ) :
    Tendsto (fun N => x.interactionAz (V N) (S N) δ) atTop (𝓝 (x.interactionOf P F δ)) :=
  ((((hV.fint hS rfl hx.tau.le hx.mu0 δ).const_mul _).add
    ((hV.fint hS (y := x.swap) rfl hx.tau.le hx.muEx δ).const_mul _))).const_mul _

/-! ### predefined functions -/

/-- All coefficients of a predefined function. -/
def Kind.coefAll (a0 t : ℝ) (k : Kind) (n : ℕ) : ℝ :=
  match k with
  | .volIsotropic => 1 / (4 * Real.pi) * (if n = 0 then 1 else 0)
  | .volRayleigh => 3 / (16 * Real.pi) * (4 / 3 * (if n = 0 then 1 else 0) + 2 / 3 * (if n = 2 then 1 else 0))
  | .srfIsotropic => 1 / Real.pi * (if n = 0 then 1 else 0)
  | .srfCosineLobe i => lobeCoef i n
  | k => k.coefVal a0 t n

theorem Kind.coefAll_evalR {k : Kind} {a : A3} {ρ : String → ℝ} {a0 a1 a2 t : ℝ} (h : a.Is ρ a0 a1 a2)
    (ht : k.TIs ρ t) (hn : k.NadirOK a0 t) (n : ℕ) : (Scatter.primCoef a k n).evalR ρ = k.coefAll a0 t n := by
  cases k with
  | volIsotropic => rfl
  | volRayleigh => rfl
  | srfIsotropic => rfl
  | srfCosineLobe i => exact lobe_coef i n a ρ
  | volHG te => exact Kind.coef_evalR (k := .volHG te) trivial h ht hn n
  | volHGRayleigh te => exact Kind.coef_evalR (k := .volHGRayleigh te) trivial h ht hn n
  | srfHG te => exact Kind.coef_evalR (k := .srfHG te) trivial h ht hn n
  | srfHGnadirnorm te => exact Kind.coef_evalR (k := .srfHGnadirnorm te) trivial h ht hn n

theorem hgr_abs_summable {t : ℝ} (ht : |t| < 1) : Summable fun n => |hgrCoef t n| := by
  have h0 := hg_abs_summable ht
  have h2 := mulX_summable (mulX_summable h0)
  refine Summable.of_nonneg_of_le (fun _ => abs_nonneg _) (fun n => ?_) (h0.add h2)
  rw [hgrCoef_eq]
  exact abs_add_le _ _

theorem Kind.coefAll_summable (k : Kind) {a0 t : ℝ} (ht : |t| < 1) (hl : k ≠ .srfCosineLobe 0) :
    Summable fun n => |k.coefAll a0 t n| := by
  have fin : ∀ (f : ℕ → ℝ) (m : ℕ), (∀ n, m ≤ n → f n = 0) → Summable fun n => |f n| := fun f m hf =>
    summable_of_ne_finset_zero (s := Finset.range m) fun n hn => by rw [hf n (by simpa using hn), abs_zero]
  have sc : ∀ (c : ℝ) (f : ℕ → ℝ), Summable (fun n => |f n|) → Summable fun n => |c * f n| := fun c f hf => by
    simp only [abs_mul]; exact hf.mul_left _
  cases k with
  | volIsotropic => exact fin _ 1 fun n hn => by simp [coefAll, show n ≠ 0 by omega]
  | volRayleigh => exact fin _ 3 fun n hn => by simp [coefAll, show n ≠ 0 by omega, show n ≠ 2 by omega]
  | srfIsotropic => exact fin _ 1 fun n hn => by simp [coefAll, show n ≠ 0 by omega]
  | srfCosineLobe i => exact lobe_summable fun h => hl (by rw [h])
  | volHG te => exact sc _ _ (hg_abs_summable ht)
  | volHGRayleigh te => exact sc _ _ (hgr_abs_summable ht)
  | srfHG te => exact sc _ _ (hg_abs_summable ht)
  | srfHGnadirnorm te => exact sc _ _ (sc _ _ (hg_abs_summable ht))

theorem Kind.coefAll_hasSum (k : Kind) {a0 t x : ℝ} (ht : |t| < 1) (hl : k ≠ .srfCosineLobe 0) (hx : |x| ≤ 1) :
    HasSum (fun n => k.coefAll a0 t n * legP n x) (k.val a0 t x) := by
  have fin : ∀ (f : ℕ → ℝ) (m : ℕ) (v : ℝ), (∀ n, m ≤ n → f n = 0) → ∑ n ∈ Finset.range m, f n * legP n x = v →
      HasSum (fun n => f n * legP n x) v := fun f m v hf hv => by
    rw [← hv]
    exact hasSum_sum_of_ne_finset_zero fun n hn => by rw [hf n (by simpa using hn), zero_mul]
  have h2 : legP 2 x = (3 * x ^ 2 - 1) / 2 := by
    have := legP_rec 0 x
    rw [legP_zero, legP_one] at this
    push_cast at this
    linear_combination this / 2
  cases k with
  | volIsotropic =>
    refine fin _ 1 _ (fun n hn => by simp [coefAll, show n ≠ 0 by omega]) ?_
    simp [coefAll, legP_zero, val]
  | volRayleigh =>
    refine fin _ 3 _ (fun n hn => by simp [coefAll, show n ≠ 0 by omega, show n ≠ 2 by omega]) ?_
    simp [Finset.sum_range_succ, coefAll, legP_zero, h2, val, Phase.rayleigh]
    ring
  | srfIsotropic =>
    refine fin _ 1 _ (fun n hn => by simp [coefAll, show n ≠ 0 by omega]) ?_
    simp [coefAll, legP_zero, val]
  | srfCosineLobe i => exact lobe_hasSum (fun h => hl (by rw [h])) hx
  | volHG te => exact Kind.hasSum (k := .volHG te) trivial ht hx
  | volHGRayleigh te => exact Kind.hasSum (k := .volHGRayleigh te) trivial ht hx
  | srfHG te => exact Kind.hasSum (k := .srfHG te) trivial ht hx
  | srfHGnadirnorm te => exact Kind.hasSum (k := .srfHGnadirnorm te) trivial ht hx

/-- Number of coefficients. -/
def Kind.count (N : ℕ) : Kind → ℕ
  | .volIsotropic => 1
  | .volRayleigh => 3
  | .srfIsotropic => 1
  | _ => N + 1

theorem Kind.isPart (k : Kind) (a : A3) (N : ℕ) : (Scatter.prim k a (k.order N)).IsPart (k.count N) := by
  refine ⟨⟨_, _, _, rfl⟩, ?_, ?_⟩
  · cases k <;> simp [count]
  · cases k <;> simp [count, order, Scatter.ncoefs]

/-- What the coefficients left out can contribute. -/
def Kind.tail (a0 t : ℝ) (k : Kind) (N : ℕ) : ℝ := ∑' n, |k.coefAll a0 t (n + k.count N)|

theorem Kind.tail_nonneg (k : Kind) (a0 t : ℝ) (N : ℕ) : 0 ≤ k.tail a0 t N := tsum_nonneg fun _ => abs_nonneg _

theorem Kind.tail_tendsto (k : Kind) {a0 t : ℝ} : Tendsto (k.tail a0 t) atTop (𝓝 0) := by
  have fin : ∀ m, (∀ N, k.count N = m) → (∀ n, m ≤ n → k.coefAll a0 t n = 0) → Tendsto (k.tail a0 t) atTop (𝓝 0) := by
    intro m h1 h2
    have : k.tail a0 t = fun _ => 0 := funext fun N => by
      unfold tail
      rw [h1]
      simp [h2 _ (Nat.le_add_left m _)]
    rw [this]
    exact tendsto_const_nhds
  have inf : (∀ N, k.count N = N + 1) → Tendsto (k.tail a0 t) atTop (𝓝 0) := fun h1 => by
    have e : k.tail a0 t = fun N => ∑' n, |k.coefAll a0 t (n + (N + 1))| := funext fun N => by unfold tail; rw [h1]
    rw [e]
    exact (tendsto_sum_nat_add fun n => |k.coefAll a0 t n|).comp (tendsto_add_atTop_nat 1)
  cases k with
  | volIsotropic => exact fin 1 (fun _ => rfl) fun n hn => by simp [coefAll, show n ≠ 0 by omega]
  | volRayleigh => exact fin 3 (fun _ => rfl) fun n hn => by simp [coefAll, show n ≠ 0 by omega, show n ≠ 2 by omega]
  | srfIsotropic => exact fin 1 (fun _ => rfl) fun n hn => by simp [coefAll, show n ≠ 0 by omega]
  | _ => exact inf fun _ => rfl

/-- Truncation error with any number `M` of coefficients that is large enough. -/
theorem Kind.trunc (k : Kind) {a0 t x : ℝ} (ht : |t| < 1) (hl : k ≠ .srfCosineLobe 0) (hx : |x| ≤ 1) {N M : ℕ}
    (hM : k.count N ≤ M) : |(∑ n ∈ Finset.range M, k.coefAll a0 t n * legP n x) - k.val a0 t x| ≤ k.tail a0 t N := by
  have hs := k.coefAll_summable (a0 := a0) ht hl
  have hh := k.coefAll_hasSum (a0 := a0) ht hl hx
  have hb : ∀ n, ‖k.coefAll a0 t n * legP n x‖ ≤ |k.coefAll a0 t n| := fun n => by
    rw [Real.norm_eq_abs, abs_mul]
    exact mul_le_of_le_one_right (abs_nonneg _) (legP_abs_le hx n)
  have e := hh.summable.sum_add_tsum_nat_add M
  rw [hh.tsum_eq] at e
  rw [← e, sub_add_cancel_left, abs_neg]
  have h1 := (summable_nat_add_iff M).mpr hs
  refine (tsum_of_norm_bounded (f := fun n => k.coefAll a0 t (n + M) * legP (n + M) x) h1.hasSum fun n => hb _).trans ?_
  have h2 := (summable_nat_add_iff (k.count N)).mpr hs
  obtain ⟨d, rfl⟩ := Nat.exists_eq_add_of_le hM
  have h3 := h2.sum_add_tsum_nat_add d
  unfold tail
  rw [← h3]
  have h4 : 0 ≤ ∑ n ∈ Finset.range d, |k.coefAll a0 t (n + k.count N)| := Finset.sum_nonneg fun _ _ => abs_nonneg _
  have h5 : ∑' n, |k.coefAll a0 t (n + (k.count N + d))| = ∑' n, |k.coefAll a0 t (n + d + k.count N)| :=
    tsum_congr fun n => by rw [show n + (k.count N + d) = n + d + k.count N by omega]
  rw [h5]
  linarith

theorem Kind.val_bound (k : Kind) {a0 t x : ℝ} (ht : |t| < 1) (hl : k ≠ .srfCosineLobe 0) (hx : |x| ≤ 1) :
    |k.val a0 t x| ≤ ∑' n, |k.coefAll a0 t n| := by
  have hs := k.coefAll_summable (a0 := a0) ht hl
  have hh := k.coefAll_hasSum (a0 := a0) ht hl hx
  rw [← hh.tsum_eq]
  refine tsum_of_norm_bounded (f := fun n => k.coefAll a0 t n * legP n x) hs.hasSum fun n => ?_
  rw [Real.norm_eq_abs, abs_mul]
  exact mul_le_of_le_one_right (abs_nonneg _) (legP_abs_le hx n)

theorem Kind.tail_le (k : Kind) {a0 t : ℝ} (ht : |t| < 1) (hl : k ≠ .srfCosineLobe 0) (N : ℕ) :
    k.tail a0 t N ≤ ∑' n, |k.coefAll a0 t n| := by
  have hs := k.coefAll_summable (a0 := a0) ht hl
  have h3 := hs.sum_add_tsum_nat_add (k.count N)
  have h4 : 0 ≤ ∑ n ∈ Finset.range (k.count N), |k.coefAll a0 t n| := Finset.sum_nonneg fun _ _ => abs_nonneg _
  unfold tail
  linarith

theorem Kind.Admissible.nadirOK {k : Kind} {a : A3} {x : Site} {a0 a1 a2 t : ℝ} (h : k.Admissible a x a0 a1 a2 t) :
    k.NadirOK a0 t := k.nadirOK h.le0 h.lt h.nadir

theorem Kind.Admissible.cos_le {k : Kind} {a : A3} {x : Site} {a0 a1 a2 t : ℝ} (h : k.Admissible a x a0 a1 a2 t)
    (t0 tex p0 pex : ℝ) : |Phase.cosTheta a0 a1 a2 t0 tex p0 pex| ≤ 1 := Phase.cosTheta_abs_le h.le0 h.le1 h.le2 _ _ _ _

theorem cosTheta_cont (a0 a1 a2 : ℝ) : Bidir.Cont (Phase.cosTheta a0 a1 a2) := by
  unfold Bidir.Cont Phase.cosTheta; fun_prop

theorem Kind.Admissible.expVal {k : Kind} {a : A3} {x : Site} {a0 a1 a2 t : ℝ} (h : k.Admissible a x a0 a1 a2 t) (N : ℕ)
    {y : Site} (hy : y.ρ = x.ρ) (t0 tex p0 pex : ℝ) : (Scatter.prim k a (k.order N)).expVal y.env t0 tex p0 pex =
      ∑ n ∈ Finset.range (k.count N), k.coefAll a0 t n * legP n (Phase.cosTheta a0 a1 a2 t0 tex p0 pex) := by
  refine Scatter.expVal_of_ok ?_
  unfold Scatter.expansionAt
  rw [(k.isPart a N).expansion, (k.isPart a N).ncOf, legSum_real]
  congr 1
  refine Finset.sum_congr rfl fun n _ => ?_
  have e1 : (Scatter.prim k a (k.order N)).a = a := rfl
  rw [e1, angleR_val (h.aIs y hy)]
  exact congrArg (· * _) (Kind.coefAll_evalR (h.aIs y hy) (h.tIs y hy) h.nadirOK n)

theorem Kind.Admissible.growing {k : Kind} {a : A3} {x : Site} {a0 a1 a2 t : ℝ} (h : k.Admissible a x a0 a1 a2 t) :
    Growing (fun N => .prim k a (k.order N)) x (k.dirs a0 a1 a2 t) where
  lim := fun y hy t0 tex p0 pex => by
    refine tendsto_iff_dist_tendsto_zero.mpr (squeeze_zero (fun _ => dist_nonneg) (fun N => ?_) (k.tail_tendsto (a0 := a0) (t := t)))
    rw [Real.dist_eq, h.expVal N hy]
    exact k.trunc h.lt h.lobe (h.cos_le _ _ _ _) le_rfl
  bound := ⟨∑' n, |k.coefAll a0 t n|, fun N y hy t0 tex p0 pex => by
    rw [h.expVal N hy]
    refine (Finset.abs_sum_le_sum_abs _ _).trans (le_trans (Finset.sum_le_sum fun n _ => ?_)
      ((k.coefAll_summable h.lt h.lobe).sum_le_tsum (Finset.range (k.count N)) fun _ _ => abs_nonneg _))
    rw [abs_mul]
    exact mul_le_of_le_one_right (abs_nonneg _) (legP_abs_le (h.cos_le _ _ _ _) n)⟩
  cont := fun N y hy => by
    unfold Bidir.Cont
    simp only [h.expVal N hy]
    exact continuous_finsetSum _ fun n _ => continuous_const.mul ((legP_cont n).comp (cosTheta_cont a0 a1 a2))

/-! ### linear combinations -/

theorem list_sum_close {α : Type} {f T E : α → ℝ} {l : List α} (h : ∀ q ∈ l, |f q - T q| ≤ E q) :
    |(l.map f).sum - (l.map T).sum| ≤ (l.map E).sum := by
  induction l with
  | nil => simp
  | cons q l ih =>
    simp only [List.map_cons, List.sum_cons]
    have h1 := h q (by simp)
    have h2 := ih fun q hq => h q (List.mem_cons_of_mem _ hq)
    calc |f q + (l.map f).sum - (T q + (l.map T).sum)| = |(f q - T q) + ((l.map f).sum - (l.map T).sum)| := by
          congr 1; ring
      _ ≤ _ := (abs_add_le _ _).trans (add_le_add h1 h2)

section
variable {x : Site} (l : List (Summand x)) (a : A3) (N : ℕ)

/-- The summand as in the argument of LinComb. -/
def Summand.pair (N : ℕ) (s : Summand x) : Expr × Scatter := (s.w, .prim s.k s.a (s.k.order N))

theorem comb_zip : (l.map (·.w)).zip (l.map fun s => Scatter.prim s.k s.a (s.k.order N)) = l.map (Summand.pair N) := by
  induction l with
  | nil => rfl
  | cons s l ih => simp only [List.map_cons, List.zip_cons_cons, ih]; rfl

theorem comb_part : ∀ o ∈ l.map (fun s => Scatter.prim s.k s.a (s.k.order N)), ∃ n, Scatter.IsPart o n := by
  intro o ho
  obtain ⟨s, -, rfl⟩ := List.mem_map.mp ho
  exact ⟨_, s.k.isPart s.a N⟩

theorem comb_groups {g : A3 × List (Expr × Scatter)}
    (hg : g ∈ Scatter.aGroups (l.map (·.w)) (l.map fun s => Scatter.prim s.k s.a (s.k.order N))) :
    g.2 ≠ [] ∧ ∀ q ∈ g.2, ∃ s ∈ l, q = s.pair N ∧ s.a = g.1 := by
  obtain ⟨h1, h2⟩ := Scatter.aGroups_facts ((l.map (·.w)).zip (l.map fun s => Scatter.prim s.k s.a (s.k.order N))) [] (by simp)
  refine ⟨h1 g hg, fun q hq => ?_⟩
  rcases h2 g hg q hq with h3 | ⟨g', hg', -⟩
  · rw [comb_zip] at h3
    obtain ⟨s, hs, rfl⟩ := List.mem_map.mp h3
    exact ⟨s, hs, rfl, Scatter.aGroups_a _ _ g hg _ hq⟩
  · cases hg'

theorem comb_expVal (y : Site) (t0 tex p0 pex : ℝ) : (comb l a N).expVal y.env t0 tex p0 pex =
    ((Scatter.aGroups (l.map (·.w)) (l.map fun s => Scatter.prim s.k s.a (s.k.order N))).map
      (Scatter.groupSum (fun e => e.evalR y.env) ⟨Real.cos t0, Real.sin t0⟩ ⟨Real.cos tex, Real.sin tex⟩
        ⟨Real.cos p0, Real.sin p0⟩ ⟨Real.cos pex, Real.sin pex⟩)).sum := by
  refine Scatter.expVal_of_ok ?_
  unfold Scatter.expansionAt comb Scatter.legExpansion
  exact Scatter.groupsExpansion_parts _ _ _ _ _ (fun g hg q hq => by
    obtain ⟨s, -, rfl, -⟩ := (comb_groups l N hg).2 q hq
    exact ⟨_, s.k.isPart s.a N⟩) fun g hg => (comb_groups l N hg).1

theorem comb_cont (y : Site) : Bidir.Cont ((comb l a N).expVal y.env) := by
  unfold Bidir.Cont
  simp only [comb_expVal]
  refine continuous_list_sum _ fun g _ => ?_
  unfold Scatter.groupSum
  simp only [legSum_real]
  refine continuous_finsetSum _ fun n _ => continuous_const.mul ((legP_cont n).comp ?_)
  unfold Scatter.angleR
  fun_prop

theorem comb_close {y : Site} (hy : y.ρ = x.ρ) (t0 tex p0 pex : ℝ) :
    |(comb l a N).expVal y.env t0 tex p0 pex - combDirs l t0 tex p0 pex|
      ≤ (l.map fun s => |s.c| * s.k.tail s.a0 s.t N).sum := by
  -- value and error of one summand
  set T : Expr × Scatter → ℝ := fun q => q.1.evalR y.env * ∑' n, (q.2.coefOf n).evalR y.env *
    legP n (Scatter.angleR (fun e => e.evalR y.env) ⟨Real.cos t0, Real.sin t0⟩ ⟨Real.cos tex, Real.sin tex⟩
        ⟨Real.cos p0, Real.sin p0⟩ ⟨Real.cos pex, Real.sin pex⟩ q.2.a) with hT
  set E : Expr × Scatter → ℝ := fun q => |q.1.evalR y.env| * ∑' n, |(q.2.coefOf (n + q.2.ncOf)).evalR y.env| with hE
  have coef : ∀ (s : Summand x) n, ((s.pair N).2.coefOf n).evalR y.env = s.k.coefAll s.a0 s.t n := fun s n =>
    Kind.coefAll_evalR (s.ok.aIs y hy) (s.ok.tIs y hy) s.ok.nadirOK n
  have eT : ∀ s : Summand x, T (s.pair N) = s.c * s.k.dirs s.a0 s.a1 s.a2 s.t t0 tex p0 pex := fun s => by
    simp only [hT, coef]
    have e1 : (s.pair N).2.a = s.a := rfl
    have e2 : (s.pair N).1.evalR y.env = s.c := (s.weight y hy).2
    rw [e1, e2, angleR_val (s.ok.aIs y hy), (s.k.coefAll_hasSum s.ok.lt s.ok.lobe (s.ok.cos_le _ _ _ _)).tsum_eq]
    rfl
  have eE : ∀ s : Summand x, E (s.pair N) = |s.c| * s.k.tail s.a0 s.t N := fun s => by
    simp only [hE, coef]
    have e1 : (s.pair N).2.ncOf = s.k.count N := (s.k.isPart s.a N).ncOf
    have e2 : (s.pair N).1.evalR y.env = s.c := (s.weight y hy).2
    rw [e1, e2]
    rfl
  have sT := Scatter.foldl_addGroup_sum T ((l.map (·.w)).zip (l.map fun s => Scatter.prim s.k s.a (s.k.order N))) []
  have sE := Scatter.foldl_addGroup_sum E ((l.map (·.w)).zip (l.map fun s => Scatter.prim s.k s.a (s.k.order N))) []
  rw [comb_zip] at sT sE
  simp only [List.map_nil, List.sum_nil, zero_add, List.map_map, Function.comp_def, eT] at sT
  simp only [List.map_nil, List.sum_nil, zero_add, List.map_map, Function.comp_def, eE] at sE
  rw [comb_expVal]
  unfold combDirs
  rw [← sT, ← sE, ← comb_zip]
  refine list_sum_close fun g hg => ?_
  obtain ⟨-, hgs⟩ := comb_groups l N (g := g) hg
  unfold Scatter.groupSum
  rw [Scatter.legSum_list]
  refine list_sum_close fun q hq => ?_
  obtain ⟨s, hs, rfl, ha⟩ := hgs q hq
  have e2 : (s.pair N).1.evalR y.env = s.c := (s.weight y hy).2
  have hM : s.k.count N ≤ Scatter.maxN g.2 := by
    have := Scatter.le_maxN hq
    rwa [show (s.pair N).2.ncOf = s.k.count N from (s.k.isPart s.a N).ncOf] at this
  rw [eT, eE, e2, legSum_real, ← ha, angleR_val (s.ok.aIs y hy)]
  simp only [coef]
  rw [← mul_sub, abs_mul]
  exact mul_le_mul_of_nonneg_left (s.k.trunc s.ok.lt s.ok.lobe (s.ok.cos_le _ _ _ _) hM) (abs_nonneg _)

theorem combDirs_bound (t0 tex p0 pex : ℝ) :
    |combDirs l t0 tex p0 pex| ≤ (l.map fun s => |s.c| * ∑' n, |s.k.coefAll s.a0 s.t n|).sum := by
  have := list_sum_close (l := l) (f := fun s => s.c * s.k.dirs s.a0 s.a1 s.a2 s.t t0 tex p0 pex) (T := fun _ => 0)
    (E := fun s => |s.c| * ∑' n, |s.k.coefAll s.a0 s.t n|) fun s _ => by
      rw [sub_zero, abs_mul]
      exact mul_le_mul_of_nonneg_left (s.k.val_bound s.ok.lt s.ok.lobe (s.ok.cos_le _ _ _ _)) (abs_nonneg _)
  simpa [combDirs] using this

theorem comb_growing : Growing (comb l a) x (combDirs l) where
  lim := fun y hy t0 tex p0 pex => by
    refine tendsto_iff_dist_tendsto_zero.mpr (squeeze_zero (fun _ => dist_nonneg) (fun N => ?_)
      (g := fun N => (l.map fun s => |s.c| * s.k.tail s.a0 s.t N).sum) ?_)
    · rw [Real.dist_eq]
      exact comb_close l a N hy t0 tex p0 pex
    · induction l with
      | nil => simp
      | cons s l ih =>
        simp only [List.map_cons, List.sum_cons]
        simpa using ((s.k.tail_tendsto (a0 := s.a0) (t := s.t)).const_mul |s.c|).add ih
  bound := ⟨(l.map fun s => |s.c| * ∑' n, |s.k.coefAll s.a0 s.t n|).sum + (l.map fun s => |s.c| * ∑' n, |s.k.coefAll s.a0 s.t n|).sum,
    fun N y hy t0 tex p0 pex => by
      have h1 := comb_close l a N hy t0 tex p0 pex
      have h2 := combDirs_bound l t0 tex p0 pex
      have h3 : (l.map fun s => |s.c| * s.k.tail s.a0 s.t N).sum ≤ (l.map fun s => |s.c| * ∑' n, |s.k.coefAll s.a0 s.t n|).sum :=
        List.sum_le_sum fun s _ => mul_le_mul_of_nonneg_left (s.k.tail_le s.ok.lt s.ok.lobe N) (abs_nonneg _)
      have h4 : |(comb l a N).expVal y.env t0 tex p0 pex| ≤
          |(comb l a N).expVal y.env t0 tex p0 pex - combDirs l t0 tex p0 pex| + |combDirs l t0 tex p0 pex| := by
        have := abs_add_le ((comb l a N).expVal y.env t0 tex p0 pex - combDirs l t0 tex p0 pex) (combDirs l t0 tex p0 pex)
        rwa [sub_add_cancel] at this
      linarith⟩
  cont := fun N y _ => comb_cont l a N y

end

end

end RT1
