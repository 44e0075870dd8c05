import Verif.Lemmas.PhaseVal
import Verif.Lemmas.ExpansionL
import Verif.Lemmas.Shape

/-! Bounds and values of the predefined scattering functions. -/

namespace RT1

noncomputable section
open Classical

/-- `calc` can be called with numbers if all symbols are supplied. -/
theorem Scatter.returns_of {s : Scatter} (x : Dirs) (l : List String)
    (hs : ∀ n ∈ s.phase.free, n ∈ ["theta_0", "theta_ex", "phi_0", "phi_ex"] ++ l) :
    s.Returns x (s.phase.evalX fun n => XR.fin (x.env n)) := by
  have hk : Dict.keys (l.map fun k => (k, Arr.num (XR.fin (x.ρ k)))) = l := by
    unfold Dict.keys; rw [List.map_map]; simp [Function.comp_def]
  have hs' : ∀ n ∈ s.phase.free, n ∈ ["theta_0", "theta_ex", "phi_0", "phi_ex"] ++
      Dict.keys (l.map fun k => (k, Arr.num (XR.fin (x.ρ k)))) := by rw [hk]; exact hs
  have hg : ∀ k a, Dict.get? (l.map fun k => (k, Arr.num (XR.fin (x.ρ k)))) k = some a →
      a = Arr.num (XR.fin (x.ρ k)) := by
    intro k a h
    unfold Dict.get? at h
    cases hf : (l.map fun k => (k, Arr.num (XR.fin (x.ρ k)))).find? fun p => p.1 = k with
    | none => rw [hf] at h; cases h
    | some p =>
      rw [hf] at h
      have h1 := List.mem_of_find?_eq_some hf
      have h2 := List.find?_some hf
      simp only [decide_eq_true_eq] at h2
      obtain ⟨k', _, rfl⟩ := List.mem_map.mp h1
      simp only at h2
      subst h2
      exact (Option.some.inj h).symm
  have hf : ∀ r, Arr.Fits (Arr.num r).shape [] := fun r => trivial
  have hsucc : Succ (s.calcVal .sympy (Arr.num (XR.fin x.t0)) (Arr.num (XR.fin x.tex)) (Arr.num (XR.fin x.p0))
      (Arr.num (XR.fin x.pex)) (l.map fun k => (k, Arr.num (XR.fin (x.ρ k))))) [] := by
    unfold Scatter.calcVal
    rw [Lam.compile_of_free hs']
    refine Lam.call_succ (Lam.compile_of_free hs') hs' (by simp) ?_ ?_ ?_ ?_
    · intro a ha
      simp only [List.mem_cons, List.not_mem_nil, or_false] at ha
      rcases ha with rfl | rfl | rfl | rfl <;> exact hf _
    · intro k a h
      rw [hg k a h]; exact hf _
    · intro k hk; simpa using hk
    · intro k hk; simpa using hk
  obtain ⟨arr, ha, hfit⟩ := hsucc
  have hsh : arr.shape = [] := by
    cases h : arr.shape with
    | nil => rfl
    | cons a t => rw [h] at hfit; exact hfit.elim
  have hr : s.Returns x (arr.get []) :=
    ⟨_, _, _, _, _, _, arr, [], ha, by rw [hsh]; exact List.Forall₂.nil, rfl, rfl, rfl, rfl,
      fun k a h => by rw [hg k a h]; rfl, rfl⟩
  rw [← hr.eval]
  exact hr

namespace Phase

theorem cosTheta_swap (a0 a1 a2 t0 tex p0 pex : ℝ) :
    cosTheta a0 a1 a2 tex t0 pex p0 = cosTheta a0 a1 a2 t0 tex p0 pex := by
  unfold cosTheta; ring

theorem dot_unitVec (t p t' p' : ℝ) :
    dot (unitVec t p) (unitVec t' p') = Real.cos t * Real.cos t' + Real.sin t * Real.sin t' * Real.cos (p - p') := by
  simp only [dot, unitVec]; rw [Real.cos_sub]; ring

theorem abs_bilin {a b u v w z : ℝ} (ha : |a| ≤ 1) (hb : |b| ≤ 1) (h1 : u ^ 2 + v ^ 2 = 1) (h2 : w ^ 2 + z ^ 2 = 1) :
    |a * u * w + b * v * z| ≤ 1 := by
  have h3 : |a * u * w| ≤ |u * w| := by
    rw [mul_assoc, abs_mul]; exact mul_le_of_le_one_left (abs_nonneg _) ha
  have h4 : |b * v * z| ≤ |v * z| := by
    rw [mul_assoc, abs_mul]; exact mul_le_of_le_one_left (abs_nonneg _) hb
  have h5 : |u * w| ≤ (u ^ 2 + w ^ 2) / 2 := abs_le.mpr ⟨by nlinarith [sq_nonneg (u + w)], by nlinarith [sq_nonneg (u - w)]⟩
  have h6 : |v * z| ≤ (v ^ 2 + z ^ 2) / 2 := abs_le.mpr ⟨by nlinarith [sq_nonneg (v + z)], by nlinarith [sq_nonneg (v - z)]⟩
  have := abs_add_le (a * u * w) (b * v * z)
  linarith

theorem cosTheta_abs_le {a0 a1 a2 : ℝ} (h0 : |a0| ≤ 1) (h1 : |a1| ≤ 1) (h2 : |a2| ≤ 1) (t0 tex p0 pex : ℝ) :
    |cosTheta a0 a1 a2 t0 tex p0 pex| ≤ 1 := by
  have hi : |a1 * Real.cos p0 * Real.cos pex + a2 * Real.sin p0 * Real.sin pex| ≤ 1 :=
    abs_bilin h1 h2 (by rw [add_comm]; exact Real.sin_sq_add_cos_sq p0) (by rw [add_comm]; exact Real.sin_sq_add_cos_sq pex)
  have := abs_bilin (a := a0) (u := Real.cos t0) (w := Real.cos tex) (v := Real.sin t0) (z := Real.sin tex) h0 hi
    (by rw [add_comm]; exact Real.sin_sq_add_cos_sq t0) (by rw [add_comm]; exact Real.sin_sq_add_cos_sq tex)
  unfold cosTheta
  have e : a0 * Real.cos t0 * Real.cos tex + Real.sin t0 * Real.sin tex *
      (a1 * Real.cos p0 * Real.cos pex + a2 * Real.sin p0 * Real.sin pex) =
      a0 * Real.cos t0 * Real.cos tex + (a1 * Real.cos p0 * Real.cos pex + a2 * Real.sin p0 * Real.sin pex)
        * Real.sin t0 * Real.sin tex := by ring
  rw [e]
  exact this

theorem hg_nonneg {c t x : ℝ} (hc : 0 < c) (ht : |t| < 1) (hx : |x| ≤ 1) : 0 ≤ hg c t x := by
  have h := hg_base_pos ht hx
  have h2 : 0 ≤ 1 - t ^ 2 := by nlinarith [abs_lt.mp ht, sq_abs t]
  unfold hg
  have := Real.rpow_pos_of_pos h (3 / 2)
  positivity

theorem hgNadir_pos {a0 t : ℝ} (h0 : a0 ≠ 0) (ha : |a0| ≤ 1) (ht0 : t ≠ 0) (ht : |t| < 1) : 0 < hgNadir a0 t := by
  have hb : 0 < 1 + t ^ 2 - 2 * a0 * t := by
    have := hg_base_pos ht ha
    linarith
  have ht' := abs_lt.mp ht
  have ha' := abs_le.mp ha
  have h1 : 0 < 1 - t ^ 2 := by nlinarith
  have hA : 0 < 1 - t * (-t + a0) := by
    have : |t * a0| ≤ |t| := by rw [abs_mul]; exact mul_le_of_le_one_right (abs_nonneg _) ha
    have h3 := (abs_le.mp this).2
    nlinarith [sq_nonneg t]
  have hs : Real.sqrt ((1 + t ^ 2 - 2 * a0 * t) * (1 + t ^ 2)) < 1 - t * (-t + a0) := by
    rw [Real.sqrt_lt' hA]
    have : 0 < a0 ^ 2 * t ^ 2 := by positivity
    nlinarith
  unfold hgNadir
  have h5 : 0 < 1 - t * (-t + a0) - Real.sqrt ((1 + t ^ 2 - 2 * a0 * t) * (1 + t ^ 2)) := by linarith
  have h6 : 0 < Real.sqrt (1 + t ^ 2 - 2 * a0 * t) := Real.sqrt_pos.mpr hb
  positivity

end Phase

/-- Admissible parameters of HG_nadirnorm. -/
theorem Kind.nadirOK {k : Kind} {a0 t : ℝ} (ha : |a0| ≤ 1) (ht : |t| < 1)
    (h : k.IsNadirnorm → a0 ≠ 0 ∧ t ≠ 0) : k.NadirOK a0 t := by
  cases k <;> try trivial
  obtain ⟨h0, h1⟩ := h trivial
  have := hg_base_pos ht ha
  exact ⟨h0, h1, by linarith, (Phase.hgNadir_pos h0 ha h1 ht).ne'⟩

theorem Kind.val_nonneg {k : Kind} {a0 t x : ℝ} (ha : |a0| ≤ 1) (ht : |t| < 1) (hx : |x| ≤ 1)
    (h : k.IsNadirnorm → a0 ≠ 0 ∧ t ≠ 0) : 0 ≤ k.val a0 t x := by
  cases k with
  | volIsotropic => simp only [val]; positivity
  | volRayleigh => simp only [val, Phase.rayleigh]; positivity
  | volHG te => exact Phase.hg_nonneg (by positivity) ht hx
  | volHGRayleigh te =>
    simp only [val, Phase.hgRayleigh]
    have := Real.rpow_pos_of_pos (hg_base_pos ht hx) (3 / 2)
    have h2 : 0 ≤ 1 - t ^ 2 := by nlinarith [abs_lt.mp ht, sq_abs t]
    positivity
  | srfIsotropic => simp only [val]; positivity
  | srfCosineLobe i =>
    simp only [val, Phase.cosineLobe]
    have : 0 ≤ max x 0 := le_max_right _ _
    positivity
  | srfHG te => exact Phase.hg_nonneg (by positivity) ht hx
  | srfHGnadirnorm te =>
    simp only [val]
    obtain ⟨h0, h1⟩ := h trivial
    have h3 := Phase.hgNadir_pos h0 ha h1 ht
    have h4 := Phase.hg_nonneg (c := Real.pi) (by positivity) ht hx
    positivity

theorem angleR_val {a : A3} {ρ : String → ℝ} {a0 a1 a2 : ℝ} (h : a.Is ρ a0 a1 a2) (t0 tex p0 pex : ℝ) :
    Scatter.angleR (fun e => e.evalR ρ) ⟨Real.cos t0, Real.sin t0⟩ ⟨Real.cos tex, Real.sin tex⟩
      ⟨Real.cos p0, Real.sin p0⟩ ⟨Real.cos pex, Real.sin pex⟩ a = Phase.cosTheta a0 a1 a2 t0 tex p0 pex := by
  simp only [Scatter.angleR, Phase.cosTheta, h.h0.2, h.h1.2, h.h2.2]
  ring

end

end RT1
