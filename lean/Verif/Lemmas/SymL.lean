import Verif.Spec.Symmetry
import Verif.Lemmas.IntMath
import Verif.Lemmas.ExprL

/-! Values of scattering functions and expansions for exchanged or rotated directions. -/

namespace RT1

noncomputable section
open Classical

theorem XR.mul_fin_comm (A : XR) (r s : ℝ) : A * XR.fin r * XR.fin s = A * XR.fin s * XR.fin r := by
  cases A with
  | fin a => simp only [XR.fin_mul]; congr 1; ring
  | nan => rfl
  | pinf =>
    show XR.mul (XR.mul _ _) _ = XR.mul (XR.mul _ _) _
    rcases lt_trichotomy r 0 with h | h | h <;> rcases lt_trichotomy s 0 with h' | h' | h' <;>
      simp [XR.mul, XR.sgn, XR.infOfSign, h, h', h.le, h'.le, not_lt.mpr h.le, not_lt.mpr h'.le,
        (by norm_num : ¬ (1 : ℝ) < 0)]
  | ninf =>
    show XR.mul (XR.mul _ _) _ = XR.mul (XR.mul _ _) _
    rcases lt_trichotomy r 0 with h | h | h <;> rcases lt_trichotomy s 0 with h' | h' | h' <;>
      simp [XR.mul, XR.sgn, XR.infOfSign, h, h', h.le, h'.le, not_lt.mpr h.le, not_lt.mpr h'.le,
        (by norm_num : ¬ (1 : ℝ) < 0)]

namespace Scatter

theorem Over.mono {P P' : Expr → Prop} {Q Q' : A3 → Prop} (hP : ∀ e, P e → P' e) (hQ : ∀ a, Q a → Q' a)
    {s : Scatter} (h : s.Over P Q) : s.Over P' Q' := by
  induction h with
  | prim h1 h2 => exact .prim (fun e he => hP e (h1 e he)) (hQ _ h2)
  | lin h1 _ h3 ih => exact .lin (fun e he => hP e (h1 e he)) ih (hQ _ h3)

theorem Over.a {P : Expr → Prop} {Q : A3 → Prop} {s : Scatter} (h : s.Over P Q) : Q s.a := by
  cases h <;> assumption

/-- The value of the phase function depends on the symbols only through the own parameters, `a[0]`
and the scattering angle. -/
theorem Over.phase_evalX {P : Expr → Prop} {Q : A3 → Prop} {ρ ρ' : String → XR}
    (hP : ∀ e, P e → e.evalX ρ = e.evalX ρ')
    (hQ : ∀ a, Q a → a.a0.evalX ρ = a.a0.evalX ρ' ∧ (angleExpr a).evalX ρ = (angleExpr a).evalX ρ')
    {s : Scatter} (h : s.Over P Q) : s.phase.evalX ρ = s.phase.evalX ρ' := by
  induction h with
  | @prim k a nc h1 h2 =>
    obtain ⟨ha0, hang⟩ := hQ a h2
    have ht : ∀ e ∈ k.params, e.evalX ρ = e.evalX ρ' := fun e he => hP e (h1 e he)
    rw [phase]
    cases k <;> simp only [Kind.params, List.mem_singleton, forall_eq] at ht <;>
      simp only [primPhase, hgExpr, nadirHemreflect, HAdd.hAdd, Add.add, HMul.hMul, Mul.mul,
        HSub.hSub, Sub.sub, HDiv.hDiv, Div.div, Neg.neg, Expr.evalX] at hang ht ⊢ <;>
      first | rfl | (simp only [hang]; done) | (simp only [hang, ht]; done) | simp only [hang, ht, ha0]
  | @lin ws os a h1 h2 h3 ih =>
    rw [phase]
    clear h3
    induction ws generalizing os with
    | nil => simp [phaseL, Expr.evalX]
    | cons w ws ihw =>
      cases os with
      | nil => simp [phaseL, Expr.evalX]
      | cons o os =>
        rw [phaseL]
        show w.evalX ρ * (phase o).evalX ρ + (phaseL ws os).evalX ρ =
          w.evalX ρ' * (phase o).evalX ρ' + (phaseL ws os).evalX ρ'
        rw [hP w (h1 w (by simp)), ih o (by simp), ihw (fun e he => h1 e (by simp [he]))
          (fun e he => h2 e (by simp [he])) (fun e he => ih e (by simp [he]))]

theorem coef_evalR {ρ ρ' : String → ℝ} {k : Kind} {a : A3}
    (ht : ∀ e ∈ k.params, e.evalR ρ = e.evalR ρ') (ha0 : a.a0.evalR ρ = a.a0.evalR ρ') (n : ℕ) :
    (primCoef a k n).evalR ρ = (primCoef a k n).evalR ρ' := by
  cases k with
  | volHGRayleigh t =>
    simp only [Kind.params, List.mem_singleton, forall_eq] at ht
    by_cases h : n < 2
    · simp only [primCoef, if_pos h]
      simp only [Expr.evalR_add, Expr.evalR_mul, Expr.evalR_div, Expr.evalR_num, Expr.evalR_pow, ht]
    · simp only [primCoef, if_neg h]
      simp only [Expr.evalR_add, Expr.evalR_mul, Expr.evalR_div, Expr.evalR_num, Expr.evalR_pow, ht]
  | _ =>
    simp only [Kind.params, List.mem_singleton, forall_eq] at ht
    simp only [primCoef, nadirHemreflect, Expr.evalR_add, Expr.evalR_mul, Expr.evalR_div, Expr.evalR_sub,
      Expr.evalR_neg, Expr.evalR_num, Expr.evalR_pow]
    try simp only [ht, ha0]

/-- The value of the expansion depends on the symbols and angles only through the own parameters,
`a[0]` and the scattering angle. -/
theorem Over.expansionAt {P : Expr → Prop} {Q : A3 → Prop} {ρ ρ' : String → ℝ}
    {t0 tex p0 pex t0' tex' p0' pex' : ℝ}
    (hP : ∀ e, P e → e.evalR ρ = e.evalR ρ')
    (hQ : ∀ a, Q a → a.a0.evalR ρ = a.a0.evalR ρ' ∧
      angleR (fun e => e.evalR ρ) ⟨Real.cos t0, Real.sin t0⟩ ⟨Real.cos tex, Real.sin tex⟩
        ⟨Real.cos p0, Real.sin p0⟩ ⟨Real.cos pex, Real.sin pex⟩ a =
      angleR (fun e => e.evalR ρ') ⟨Real.cos t0', Real.sin t0'⟩ ⟨Real.cos tex', Real.sin tex'⟩
        ⟨Real.cos p0', Real.sin p0'⟩ ⟨Real.cos pex', Real.sin pex'⟩ a)
    {o : Scatter} (h : o.Over P Q) :
    o.expansionAt ρ t0 tex p0 pex = o.expansionAt ρ' t0' tex' p0' pex' := by
  cases h with
  | @prim k a nc h1 h2 =>
    unfold Scatter.expansionAt legExpansion
    obtain ⟨ha0, hang⟩ := hQ a h2
    have e : (fun n => (primCoef a k n).evalR ρ) = fun n => (primCoef a k n).evalR ρ' :=
      funext fun n => coef_evalR (fun e he => hP e (h1 e he)) ha0 n
    simp only [e, hang]
  | @lin ws os a h1 h2 h3 =>
    unfold Scatter.expansionAt legExpansion
    have hm : ∀ g ∈ aGroups ws os, ∀ q ∈ g.2, P q.1 ∧ q.2.Over P Q ∧ q.2.a = g.1 := fun g hg q hq => by
      have := List.of_mem_zip (aGroups_mem hg hq)
      exact ⟨h1 _ this.1, h2 _ this.2, aGroups_a ws os g hg q hq⟩
    show groupsExpansion _ _ _ _ _ (aGroups ws os) = groupsExpansion _ _ _ _ _ (aGroups ws os)
    generalize aGroups ws os = gs at hm
    induction gs with
    | nil => rfl
    | cons g gs ih =>
      obtain ⟨b, l⟩ := g
      unfold groupsExpansion
      rw [ih fun g hg => hm g (List.mem_cons_of_mem _ hg)]
      have hl := hm (b, l) (by simp)
      have ec : groupCoefs (fun e => e.evalR ρ) l = groupCoefs (fun e => e.evalR ρ') l := by
        have hl' : ∀ q ∈ l, P q.1 ∧ q.2.Over P Q := fun q hq => ⟨(hl q hq).1, (hl q hq).2.1⟩
        clear hl hm
        induction l with
        | nil => rfl
        | cons q l ihl =>
          obtain ⟨w, s⟩ := q
          unfold groupCoefs
          rw [ihl fun q hq => hl' q (List.mem_cons_of_mem _ hq)]
          obtain ⟨hw, hs⟩ := hl' (w, s) (by simp)
          cases hs with
          | lin _ _ _ => rfl
          | @prim k a' nc h4 h5 =>
            have e : (fun n => (primCoef a' k n).evalR ρ) = fun n => (primCoef a' k n).evalR ρ' :=
              funext fun n => coef_evalR (fun e he => hP e (h4 e he)) (hQ a' h5).1 n
            have e' : ∀ n, (primCoef a' k n).evalR ρ = (primCoef a' k n).evalR ρ' := congrFun e
            simp only [legCoef, hP w hw, okb, e']
      rw [ec]
      cases l with
      | nil => rfl
      | cons q l =>
        obtain ⟨-, hq, hqa⟩ := hl q (by simp)
        have := hq.a
        rw [hqa] at this
        simp only [(hQ b this).2]

theorem Over.expVal {P : Expr → Prop} {Q : A3 → Prop} {ρ ρ' : String → ℝ}
    {t0 tex p0 pex t0' tex' p0' pex' : ℝ}
    (hP : ∀ e, P e → e.evalR ρ = e.evalR ρ')
    (hQ : ∀ a, Q a → a.a0.evalR ρ = a.a0.evalR ρ' ∧
      angleR (fun e => e.evalR ρ) ⟨Real.cos t0, Real.sin t0⟩ ⟨Real.cos tex, Real.sin tex⟩
        ⟨Real.cos p0, Real.sin p0⟩ ⟨Real.cos pex, Real.sin pex⟩ a =
      angleR (fun e => e.evalR ρ') ⟨Real.cos t0', Real.sin t0'⟩ ⟨Real.cos tex', Real.sin tex'⟩
        ⟨Real.cos p0', Real.sin p0'⟩ ⟨Real.cos pex', Real.sin pex'⟩ a)
    {o : Scatter} (h : o.Over P Q) :
    o.expVal ρ t0 tex p0 pex = o.expVal ρ' t0' tex' p0' pex' := by
  unfold Scatter.expVal
  rw [h.expansionAt hP hQ]

end Scatter

theorem Site.env_other {x y : Site} (h : y.ρ = x.ρ) {n : String}
    (hn : n ≠ "theta_0" ∧ n ≠ "theta_ex" ∧ n ≠ "phi_0" ∧ n ≠ "phi_ex") : y.env n = x.env n := by
  obtain ⟨h1, h2, h3, h4⟩ := hn
  simp [Site.env, h1, h2, h3, h4, h]

theorem Expr.NoAngles.evalR {e : Expr} (he : e.NoAngles) {x y : Site} (h : y.ρ = x.ρ) :
    e.evalR y.env = e.evalR x.env := Expr.evalR_congr fun n hn => Site.env_other h (he n hn)

theorem Expr.NoAngles.evalX {e : Expr} (he : e.NoAngles) {x y : Site} (h : y.ρ = x.ρ) :
    e.evalX (fun n => XR.fin (y.env n)) = e.evalX (fun n => XR.fin (x.env n)) :=
  Expr.evalX_congr fun n hn => by rw [Site.env_other h (he n hn)]

theorem angleExpr_evalX (a : A3) (x : Site) :
    (Scatter.angleExpr a).evalX (fun n => XR.fin (x.env n)) =
      a.a0.evalX (fun n => XR.fin (x.env n)) * XR.fin (Real.cos x.t0) * XR.fin (Real.cos x.tex)
      + a.a1.evalX (fun n => XR.fin (x.env n)) * XR.fin (Real.sin x.t0) * XR.fin (Real.sin x.tex)
        * XR.fin (Real.cos x.p0) * XR.fin (Real.cos x.pex)
      + a.a2.evalX (fun n => XR.fin (x.env n)) * XR.fin (Real.sin x.t0) * XR.fin (Real.sin x.tex)
        * XR.fin (Real.sin x.p0) * XR.fin (Real.sin x.pex) := by
  rw [← x.env_t0, ← x.env_tex, ← x.env_p0, ← x.env_pex]
  rfl

/-- Scattering functions are symmetric in the directions. -/
theorem Scatter.NoAngles.swap {s : Scatter} (h : s.NoAngles) {x : Site} {f : ℝ} (hf : s.ValueAt x f) :
    s.ValueAt x.swap f := by
  unfold ValueAt at *
  rw [← hf]
  refine Over.phase_evalX (P := Expr.NoAngles) (Q := A3.NoAngles)
    (fun e he => he.evalX (x := x) (y := x.swap) rfl)
    (fun a ha => ⟨ha.1.evalX (x := x) (y := x.swap) rfl, ?_⟩) h
  rw [angleExpr_evalX, angleExpr_evalX, ha.1.evalX (x := x) (y := x.swap) rfl,
    ha.2.1.evalX (x := x) (y := x.swap) rfl, ha.2.2.evalX (x := x) (y := x.swap) rfl]
  show _ * XR.fin (Real.cos x.tex) * XR.fin (Real.cos x.t0) + _ * XR.fin (Real.sin x.tex) * XR.fin (Real.sin x.t0)
    * XR.fin (Real.cos x.pex) * XR.fin (Real.cos x.p0) + _ * XR.fin (Real.sin x.tex) * XR.fin (Real.sin x.t0)
    * XR.fin (Real.sin x.pex) * XR.fin (Real.sin x.p0) = _
  rw [XR.mul_fin_comm _ (Real.cos x.tex), XR.mul_fin_comm _ (Real.sin x.tex) (Real.sin x.t0),
    XR.mul_fin_comm _ (Real.sin x.tex) (Real.sin x.t0),
    XR.mul_fin_comm _ (Real.cos x.pex), XR.mul_fin_comm _ (Real.sin x.pex)]

theorem Expr.Is.evalX_eq {e : Expr} {ρ : String → ℝ} {v : ℝ} (h : e.Is ρ v) :
    e.evalX (fun n => XR.fin (ρ n)) = XR.fin v := by
  rw [← h.2]; exact Expr.evalX_of_def h.1

/-- Rotating both directions does not change the scattering angle if `a[1] == a[2]`. -/
theorem rot_trig {p0 pex q0 qex : ℝ} (h : q0 - qex = p0 - pex) :
    Real.cos q0 * Real.cos qex + Real.sin q0 * Real.sin qex =
      Real.cos p0 * Real.cos pex + Real.sin p0 * Real.sin pex := by
  rw [← Real.cos_sub, ← Real.cos_sub, h]

theorem XR.finAdd_cancel (A : XR) {u v : ℝ} (h : u = v) : A + XR.fin u = A + XR.fin v := by rw [h]

theorem XR.add_fin_assoc (A : XR) (u v : ℝ) : A + XR.fin u + XR.fin v = A + XR.fin (u + v) := by
  cases A with
  | fin a => simp only [XR.fin_add]; congr 1; ring
  | _ => rfl

theorem Scatter.Azimuthal.rotate {s : Scatter} {x : Site} (h : s.Azimuthal x.env) {p q : ℝ}
    (hpq : p - q = x.p0 - x.pex) {f : ℝ} (hf : s.ValueAt x f) : s.ValueAt (x.withAz p q) f := by
  unfold ValueAt at *
  rw [← hf]
  refine Over.phase_evalX (P := Expr.NoAngles) (fun e he => he.evalX (x := x) (y := x.withAz p q) rfl)
    (fun a ha => ⟨ha.1.1.evalX (x := x) (y := x.withAz p q) rfl, ?_⟩) h
  obtain ⟨ha, v, h1, h2⟩ := ha
  rw [angleExpr_evalX, angleExpr_evalX, ha.1.evalX (x := x) (y := x.withAz p q) rfl,
    ha.2.1.evalX (x := x) (y := x.withAz p q) rfl, ha.2.2.evalX (x := x) (y := x.withAz p q) rfl,
    h1.evalX_eq, h2.evalX_eq]
  show _ * XR.fin (Real.cos x.t0) * XR.fin (Real.cos x.tex) + _ * XR.fin (Real.sin x.t0) * XR.fin (Real.sin x.tex)
    * XR.fin (Real.cos p) * XR.fin (Real.cos q) + _ * XR.fin (Real.sin x.t0) * XR.fin (Real.sin x.tex)
    * XR.fin (Real.sin p) * XR.fin (Real.sin q) = _
  simp only [XR.fin_mul, XR.add_fin_assoc]
  refine XR.finAdd_cancel _ ?_
  linear_combination v * Real.sin x.t0 * Real.sin x.tex * rot_trig hpq

/-- Expansions for rotated directions. -/
theorem Scatter.Azimuthal.expVal {s : Scatter} {x y : Site} (h : s.Azimuthal x.env) (hy : y.ρ = x.ρ)
    {t0 tex p0 pex q0 qex : ℝ} (hpq : q0 - qex = p0 - pex) :
    s.expVal y.env t0 tex q0 qex = s.expVal x.env t0 tex p0 pex := by
  refine Over.expVal (P := Expr.NoAngles) (fun e he => he.evalR hy) (fun a ha => ⟨ha.1.1.evalR hy, ?_⟩) h
  obtain ⟨ha, v, h1, h2⟩ := ha
  unfold angleR
  simp only [ha.1.evalR hy, ha.2.1.evalR hy, ha.2.2.evalR hy, h1.2, h2.2]
  linear_combination v * Real.sin t0 * Real.sin tex * rot_trig hpq

theorem Expr.Def.congr {e : Expr} {ρ ρ' : String → ℝ} (h : ∀ n ∈ e.free, ρ' n = ρ n) (hd : e.Def ρ) :
    e.Def ρ' := by
  induction e with
  | num r => trivial
  | sym s => trivial
  | add a b iha ihb =>
    exact ⟨iha (fun n hn => h n (List.mem_append_left _ hn)) hd.1,
      ihb (fun n hn => h n (List.mem_append_right _ hn)) hd.2⟩
  | mul a b iha ihb =>
    exact ⟨iha (fun n hn => h n (List.mem_append_left _ hn)) hd.1,
      ihb (fun n hn => h n (List.mem_append_right _ hn)) hd.2⟩
  | pow a r iha =>
    refine ⟨iha h hd.1, ?_⟩
    rw [Expr.evalR_congr (e := a) h]
    exact hd.2
  | sin a iha => exact iha h hd
  | cos a iha => exact iha h hd
  | sign a iha => exact iha h hd
  | exp a iha => exact iha h hd

theorem Expr.Is.congr {e : Expr} {ρ ρ' : String → ℝ} {v : ℝ} (h : ∀ n ∈ e.free, ρ' n = ρ n)
    (hi : e.Is ρ v) : e.Is ρ' v := ⟨hi.1.congr h, by rw [Expr.evalR_congr h]; exact hi.2⟩

theorem Scatter.Azimuthal.congr {s : Scatter} {x y : Site} (h : s.Azimuthal x.env) (hy : y.ρ = x.ρ) :
    s.Azimuthal y.env := by
  refine Over.mono (fun e he => he) (fun a ha => ?_) h
  obtain ⟨ha, v, h1, h2⟩ := ha
  refine ⟨ha, v, ?_, ?_⟩
  · exact h1.congr fun n hn => Site.env_other hy (ha.2.1 n hn)
  · exact h2.congr fun n hn => Site.env_other hy (ha.2.2 n hn)

theorem hemi_rotate {V S : Scatter} {x y : Site} (hV : V.Azimuthal x.env) (hS : S.Azimuthal x.env)
    (hy : y.ρ = x.ρ) {μ τ t tex p q δ : ℝ} :
    hemi μ τ (fun θ φ => V.expVal y.env t θ (p + δ) φ * S.expVal y.env θ tex φ (q + δ)) =
      hemi μ τ (fun θ φ => V.expVal x.env t θ p φ * S.expVal x.env θ tex φ q) := by
  rw [← hemi_shift (q := fun θ φ => V.expVal y.env t θ (p + δ) φ * S.expVal y.env θ tex φ (q + δ))
    (fun θ φ => by rw [expVal_period, expVal_period']) δ]
  refine hemi_congr fun θ φ => ?_
  congr 1
  · exact hV.expVal hy (by ring)
  · exact hS.expVal hy (by ring)

end

end RT1
