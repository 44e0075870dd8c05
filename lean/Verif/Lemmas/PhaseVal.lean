import Verif.Lemmas.ExprL
import Verif.Spec.Calc

/-! Values of the predefined phase functions. -/

namespace RT1

noncomputable section
open Classical

theorem Scatter.Returns.eval {s : Scatter} {x : Dirs} {r : XR} (h : s.Returns x r) :
    r = s.phase.evalX (fun n => XR.fin (x.env n)) := by
  obtain ⟨b, a1, a2, a3, a4, pd, arr, idx, hc, hv, h1, h2, h3, h4, hp, rfl⟩ := h
  rw [← Arr.at'_valid hv]
  refine PW.calcVal' s (fun n hn => ?_) arr hc
  unfold angEnv Dirs.env
  by_cases n1 : n = "theta_0"
  · simp [n1, h1]
  by_cases n2 : n = "theta_ex"
  · simp [n2, h2]
  by_cases n3 : n = "phi_0"
  · simp [n3, h3]
  by_cases n4 : n = "phi_ex"
  · simp [n4, h4]
  simp only [n1, n2, n3, n4, if_false]
  have hk : n ∈ Dict.keys pd := by
    rcases hn with hn | hn
    · simp [n1, n2, n3, n4] at hn
    · exact hn
  obtain ⟨a, ha⟩ := Dict.get?_of_mem hk
  unfold Dict.valAt
  rw [ha]
  exact hp n a ha

namespace Expr.Is
variable {e f : Expr} {ρ : String → ℝ} {u v : ℝ}

theorem evalX (h : e.Is ρ u) : e.evalX (fun s => XR.fin (ρ s)) = XR.fin u := by
  rw [Expr.evalX_of_def h.1, h.2]
theorem num (r : ℝ) : (Expr.num r).Is ρ r := ⟨trivial, rfl⟩
theorem sym (n : String) : (Expr.sym n).Is ρ (ρ n) := ⟨trivial, rfl⟩
theorem add (h : e.Is ρ u) (h' : f.Is ρ v) : (e + f).Is ρ (u + v) :=
  ⟨⟨h.1, h'.1⟩, by rw [Expr.evalR_add, h.2, h'.2]⟩
theorem mul (h : e.Is ρ u) (h' : f.Is ρ v) : (e * f).Is ρ (u * v) :=
  ⟨⟨h.1, h'.1⟩, by rw [Expr.evalR_mul, h.2, h'.2]⟩
theorem neg (h : e.Is ρ u) : (-e).Is ρ (-u) := ⟨(Expr.def_neg _ _).mpr h.1, by rw [Expr.evalR_neg, h.2]⟩
theorem sub (h : e.Is ρ u) (h' : f.Is ρ v) : (e - f).Is ρ (u - v) :=
  ⟨(Expr.def_sub _ _ _).mpr ⟨h.1, h'.1⟩, by rw [Expr.evalR_sub, h.2, h'.2]⟩
theorem powNat (h : e.Is ρ u) (n : ℕ) : (Expr.pow e n).Is ρ (u ^ n) :=
  ⟨⟨h.1, Or.inr (Or.inl ⟨n, rfl⟩)⟩, by rw [Expr.evalR_pow, h.2, Real.rpow_natCast]⟩
theorem sq (h : e.Is ρ u) : (Expr.pow e 2).Is ρ (u ^ 2) := by
  have := h.powNat 2
  simpa using this
theorem rpow (h : e.Is ρ u) (hu : 0 < u) (r : ℝ) : (Expr.pow e r).Is ρ (u ^ r) :=
  ⟨⟨h.1, Or.inl (by rw [h.2]; exact hu)⟩, by rw [Expr.evalR_pow, h.2]⟩
theorem inv (h : e.Is ρ u) (hu : u ≠ 0) : (Expr.pow e (-1)).Is ρ (u⁻¹) :=
  ⟨⟨h.1, Or.inr (Or.inr ⟨by rw [h.2]; exact hu, -1, by simp⟩)⟩, by
    rw [Expr.evalR_pow, h.2, Real.rpow_neg_one]⟩
theorem div (h : e.Is ρ u) (h' : f.Is ρ v) (hv : v ≠ 0) : (e / f).Is ρ (u / v) := by
  rw [div_eq_mul_inv]
  exact mul h (inv h' hv)
theorem cos (h : e.Is ρ u) : (Expr.cos e).Is ρ (Real.cos u) := ⟨h.1, by rw [Expr.evalR_cos, h.2]⟩
theorem sin (h : e.Is ρ u) : (Expr.sin e).Is ρ (Real.sin u) := ⟨h.1, by rw [Expr.evalR_sin, h.2]⟩
theorem sign (h : e.Is ρ u) : (Expr.sign e).Is ρ (if 0 < u then 1 else if u < 0 then -1 else 0) :=
  ⟨h.1, by rw [Expr.evalR_sign, h.2]⟩
theorem unique (h : e.Is ρ u) (h' : e.Is ρ v) : u = v := h.2.symm.trans h'.2

end Expr.Is

open Expr

theorem env_t0 (x : Dirs) : x.env "theta_0" = x.t0 := by simp [Dirs.env]
theorem env_tex (x : Dirs) : x.env "theta_ex" = x.tex := by simp [Dirs.env]
theorem env_p0 (x : Dirs) : x.env "phi_0" = x.p0 := by simp [Dirs.env]
theorem env_pex (x : Dirs) : x.env "phi_ex" = x.pex := by simp [Dirs.env]

theorem A3.Is.angle {a : A3} {x : Dirs} {a0 a1 a2 : ℝ} (h : a.Is x.env a0 a1 a2) :
    (Scatter.angleExpr a).Is x.env (x.cosTheta a0 a1 a2) := by
  have s1 := Expr.Is.sym (ρ := x.env) "theta_0"
  have s2 := Expr.Is.sym (ρ := x.env) "theta_ex"
  have s3 := Expr.Is.sym (ρ := x.env) "phi_0"
  have s4 := Expr.Is.sym (ρ := x.env) "phi_ex"
  rw [env_t0] at s1
  rw [env_tex] at s2
  rw [env_p0] at s3
  rw [env_pex] at s4
  have := (((h.h0.mul s1.cos).mul s2.cos).add ((((h.h1.mul s1.sin).mul s2.sin).mul s3.cos).mul s4.cos)).add
    ((((h.h2.mul s1.sin).mul s2.sin).mul s3.sin).mul s4.sin)
  unfold Dirs.cosTheta Phase.cosTheta
  have e : a0 * Real.cos x.t0 * Real.cos x.tex + Real.sin x.t0 * Real.sin x.tex *
      (a1 * Real.cos x.p0 * Real.cos x.pex + a2 * Real.sin x.p0 * Real.sin x.pex) =
      a0 * Real.cos x.t0 * Real.cos x.tex + a1 * Real.sin x.t0 * Real.sin x.tex * Real.cos x.p0 * Real.cos x.pex
      + a2 * Real.sin x.t0 * Real.sin x.tex * Real.sin x.p0 * Real.sin x.pex := by ring
  rw [e]
  exact this

/-- Default angle of volume functions. -/
theorem volA_is (ρ : String → ℝ) : volA.Is ρ (-1) 1 1 := ⟨.num _, .num _, .num _⟩
/-- Default angle of surface functions. -/
theorem srfA_is (ρ : String → ℝ) : srfA.Is ρ 1 1 1 := ⟨.num _, .num _, .num _⟩

theorem hg_is {c t : ℝ} {te : Expr} {a : A3} {x : Dirs} {a0 a1 a2 : ℝ} (h : a.Is x.env a0 a1 a2)
    (ht : te.Is x.env t) (hp : 0 < 1 + t ^ 2 - 2 * t * x.cosTheta a0 a1 a2) (hc : c ≠ 0) :
    (Scatter.hgExpr c te a).Is x.env (Phase.hg c t (x.cosTheta a0 a1 a2)) := by
  have hb := (((Is.num 1).add ht.sq).sub (((Is.num 2).mul ht).mul h.angle)).rpow hp (3 / 2)
  have := ((Is.num 1).sub ht.sq).div ((Is.num c).mul hb)
    (mul_ne_zero hc (Real.rpow_pos_of_pos hp _).ne')
  have e : Phase.hg c t (x.cosTheta a0 a1 a2) = (1 - t ^ 2) / (c * (1 + t ^ 2 - 2 * t * x.cosTheta a0 a1 a2) ^ (3 / 2 : ℝ)) := by
    unfold Phase.hg
    rw [div_mul_div_comm, one_mul]
  rw [e]
  exact this

theorem hgNadir_is {t : ℝ} {te : Expr} {a : A3} {ρ : String → ℝ} {a0 : ℝ} (h : a.a0.Is ρ a0)
    (ht : te.Is ρ t) (hp : 0 < 1 + t ^ 2 - 2 * a0 * t) (h0 : a0 ≠ 0) (ht0 : t ≠ 0) :
    (Scatter.nadirHemreflect te a).Is ρ (Phase.hgNadir a0 t) := by
  have b1 := ((Is.num 1).add ht.sq).sub (((Is.num 2).mul h).mul ht)
  have b2 := (b1.mul ((Is.num 1).add ht.sq)).rpow (by positivity) (1 / 2)
  have b3 := b1.rpow hp (1 / 2)
  have hs : 0 < (1 + t ^ 2 - 2 * a0 * t) ^ (1 / 2 : ℝ) := Real.rpow_pos_of_pos hp _
  have := (Is.num (ρ := ρ) 4).mul ((((Is.num 1).sub ht.sq).mul (((Is.num 1).sub (ht.mul (ht.neg.add h))).sub b2)).div
    ((((Is.num 2).mul h.sq).mul ht.sq).mul b3) (by positivity))
  unfold Phase.hgNadir
  rw [Real.sqrt_eq_rpow, Real.sqrt_eq_rpow]
  exact this

theorem rayleigh_is {a : A3} {x : Dirs} {a0 a1 a2 : ℝ} (h : a.Is x.env a0 a1 a2) :
    (Scatter.primPhase a .volRayleigh).Is x.env (Phase.rayleigh (x.cosTheta a0 a1 a2)) :=
  (Is.num _).mul ((Is.num 1).add h.angle.sq)

theorem hgRayleigh_is {t : ℝ} {te : Expr} {a : A3} {x : Dirs} {a0 a1 a2 : ℝ} (h : a.Is x.env a0 a1 a2)
    (ht : te.Is x.env t) (hp : 0 < 1 + t ^ 2 - 2 * t * x.cosTheta a0 a1 a2) :
    (Scatter.primPhase a (.volHGRayleigh te)).Is x.env (Phase.hgRayleigh t (x.cosTheta a0 a1 a2)) := by
  have hb := (((Is.num 1).add ht.sq).sub (((Is.num 2).mul ht).mul h.angle)).rpow hp (3 / 2)
  have h2 : (2 : ℝ) + t ^ 2 ≠ 0 := by positivity
  have := (Is.num (ρ := x.env) (3 / (8 * Real.pi))).mul (((((Is.num 1).div ((Is.num 2).add ht.sq) h2).mul
    ((Is.num 1).add h.angle.sq)).mul ((Is.num 1).sub ht.sq)).div hb (Real.rpow_pos_of_pos hp _).ne')
  have e : Phase.hgRayleigh t (x.cosTheta a0 a1 a2) = 3 / (8 * Real.pi) * (1 / (2 + t ^ 2) * (1 + x.cosTheta a0 a1 a2 ^ 2)
      * (1 - t ^ 2) / (1 + t ^ 2 - 2 * t * x.cosTheta a0 a1 a2) ^ (3 / 2 : ℝ)) := by
    unfold Phase.hgRayleigh
    ring
  rw [e]
  exact this

theorem cosineLobe_is {a : A3} {x : Dirs} {a0 a1 a2 : ℝ} (h : a.Is x.env a0 a1 a2) (i : ℕ) :
    (Scatter.primPhase a (.srfCosineLobe i)).Is x.env (Phase.cosineLobe i (x.cosTheta a0 a1 a2)) := by
  have := (Is.num (ρ := x.env) (1 / Real.pi)).mul
    (((h.angle.mul ((Is.num 1).add h.angle.sign)).div (Is.num 2) two_ne_zero).powNat i)
  have e : ∀ y : ℝ, y * (1 + if 0 < y then 1 else if y < 0 then -1 else 0) / 2 = max y 0 := by
    intro y
    rcases lt_trichotomy y 0 with hy | hy | hy
    · rw [if_neg hy.not_gt, if_pos hy, max_eq_right hy.le]; ring
    · subst hy; simp
    · rw [if_pos hy, max_eq_left hy.le]; ring
  unfold Phase.cosineLobe
  rw [← e]
  exact this

theorem Kind.is {k : Kind} {a : A3} {x : Dirs} {a0 a1 a2 t : ℝ} (h : a.Is x.env a0 a1 a2)
    (ht : k.TIs x.env t) (hp : 0 < 1 + t ^ 2 - 2 * t * x.cosTheta a0 a1 a2) (hn : k.NadirOK a0 t) :
    (Scatter.primPhase a k).Is x.env (k.val a0 t (x.cosTheta a0 a1 a2)) := by
  cases k with
  | volIsotropic => exact Is.num _
  | volRayleigh => exact rayleigh_is h
  | volHG te => exact hg_is h ht hp (by positivity)
  | volHGRayleigh te => exact hgRayleigh_is h ht hp
  | srfIsotropic => exact Is.num _
  | srfCosineLobe i => exact cosineLobe_is h i
  | srfHG te => exact hg_is h ht hp (by positivity)
  | srfHGnadirnorm te =>
    exact ((Is.num 1).div (hgNadir_is h.h0 ht hn.2.2.1 hn.1 hn.2.1) hn.2.2.2).mul
      (hg_is h ht hp (by positivity))

/-- The value returned by `calc`. -/
theorem Scatter.Returns.prim {k : Kind} {a : A3} {nc : Option ℕ} {x : Dirs} {r : XR}
    (hr : (Scatter.prim k a nc).Returns x r) {a0 a1 a2 t : ℝ} (h : a.Is x.env a0 a1 a2)
    (ht : k.TIs x.env t) (hp : 0 < 1 + t ^ 2 - 2 * t * x.cosTheta a0 a1 a2) (hn : k.NadirOK a0 t) :
    r = XR.fin (k.val a0 t (x.cosTheta a0 a1 a2)) := by
  rw [hr.eval]
  exact (Kind.is h ht hp hn).evalX

end

end RT1
