import Verif.Lemmas.LinL
import Verif.Lemmas.RowVals
import Verif.Props.Contrib
import Verif.Props.Interaction

/-!
# Scattering functions

`s.Returns x r`: some successful `s.calc(...)` call returned `r` at an index where the arguments
have the values `x`.  `s.expansionAt`: the value of `s.legendre_expansion(...)`.
-/

namespace RT1

noncomputable section
open Classical

/-! ## C30: the scattering angle -/

/-- `calc_scattering_angle` does not change if the directions are exchanged. -/
theorem C30_symmetric {R : Type} [CommRing R] [Algebra ℝ R] (emb : Expr → R)
    (t0 tex p0 pex : Scatter.Trig R) (a : A3) :
    Scatter.angleR emb tex t0 pex p0 a = Scatter.angleR emb t0 tex p0 pex a := by
  unfold Scatter.angleR; ring

/-- The symbolic scattering angle does not change if the directions are exchanged. -/
theorem C30_symmetric_symbolic {a : A3} {x : Dirs} {a0 a1 a2 v : ℝ} (h : a.Is x.env a0 a1 a2)
    (h' : a.Is x.swap.env a0 a1 a2) (hv : (Scatter.angleExpr a).Is x.env v) :
    (Scatter.angleExpr a).Is x.swap.env v := by
  rw [hv.unique h.angle]
  have := h'.angle
  unfold Dirs.cosTheta Dirs.swap at this
  rw [Phase.cosTheta_swap] at this
  exact this

/-- Both forms of the scattering angle have the documented value. -/
theorem C30_value {a : A3} {x : Dirs} {a0 a1 a2 : ℝ} (h : a.Is x.env a0 a1 a2) :
    (Scatter.angleExpr a).Is x.env (a0 * Real.cos x.t0 * Real.cos x.tex + Real.sin x.t0 * Real.sin x.tex
      * (a1 * Real.cos x.p0 * Real.cos x.pex + a2 * Real.sin x.p0 * Real.sin x.pex)) ∧
    Scatter.angleR (fun e => e.evalR x.env) ⟨Real.cos x.t0, Real.sin x.t0⟩ ⟨Real.cos x.tex, Real.sin x.tex⟩
      ⟨Real.cos x.p0, Real.sin x.p0⟩ ⟨Real.cos x.pex, Real.sin x.pex⟩ a =
      a0 * Real.cos x.t0 * Real.cos x.tex + Real.sin x.t0 * Real.sin x.tex
        * (a1 * Real.cos x.p0 * Real.cos x.pex + a2 * Real.sin x.p0 * Real.sin x.pex) :=
  ⟨h.angle, angleR_val h x.t0 x.tex x.p0 x.pex⟩

/-- Default `a` of surface functions: cosine of the angle between the directions; default `a` of
volume functions: the same with the downward direction of zenith angle `π - t_0`. -/
theorem C30_default (x : Dirs) :
    (Scatter.angleExpr srfA).Is x.env (Phase.dot (Phase.unitVec x.t0 x.p0) (Phase.unitVec x.tex x.pex)) ∧
    (Scatter.angleExpr volA).Is x.env
      (Phase.dot (Phase.unitVec (Real.pi - x.t0) x.p0) (Phase.unitVec x.tex x.pex)) := by
  constructor
  · have := (srfA_is x.env).angle
    rw [Phase.dot_unitVec, Real.cos_sub]
    unfold Dirs.cosTheta Phase.cosTheta at this
    simpa using this
  · have := (volA_is x.env).angle
    rw [Phase.dot_unitVec, Real.cos_pi_sub, Real.sin_pi_sub, Real.cos_sub]
    unfold Dirs.cosTheta Phase.cosTheta at this
    simpa using this

theorem C30_bound {a : A3} {x : Dirs} {a0 a1 a2 v : ℝ} (h : a.Is x.env a0 a1 a2) (h0 : |a0| ≤ 1)
    (h1 : |a1| ≤ 1) (h2 : |a2| ≤ 1) (hv : (Scatter.angleExpr a).Is x.env v) : -1 ≤ v ∧ v ≤ 1 := by
  rw [hv.unique h.angle]
  exact abs_le.mp (Phase.cosTheta_abs_le h0 h1 h2 _ _ _ _)

/-- A parameter `a` with a custom name. -/
example : (⟨.num (-1), .sym "a_1", .num (1 / 2)⟩ : A3).Is (Dirs.env ⟨1, 2, 3, 4, fun _ => 1 / 4⟩) (-1) (1 / 4) (1 / 2) :=
  ⟨.num _, ⟨trivial, by simp [Dirs.env]⟩, .num _⟩

/-! ## C41: exact expansions -/

/-- volume.Isotropic, surface.Isotropic: the expansion is the phase function. -/
theorem C41_isotropic (a : A3) (nc : Option ℕ) (x : Dirs) :
    (∃ v, (Scatter.prim .volIsotropic a nc).expansionAt x.env x.t0 x.tex x.p0 x.pex = .ok v ∧
      ∀ r, (Scatter.prim .volIsotropic a nc).Returns x r → r = XR.fin v) ∧
    ∃ v, (Scatter.prim .srfIsotropic a nc).expansionAt x.env x.t0 x.tex x.p0 x.pex = .ok v ∧
      ∀ r, (Scatter.prim .srfIsotropic a nc).Returns x r → r = XR.fin v := by
  constructor
  · refine ⟨1 / (4 * Real.pi), ?_, fun r hr => hr.eval⟩
    unfold Scatter.expansionAt Scatter.legExpansion
    simp [Scatter.ncoefs, okb, Scatter.legSum, Scatter.primCoef, legendre]
  · refine ⟨1 / Real.pi, ?_, fun r hr => hr.eval⟩
    unfold Scatter.expansionAt Scatter.legExpansion
    simp [Scatter.ncoefs, okb, Scatter.legSum, Scatter.primCoef, legendre]

/-- volume.Rayleigh, for every `a`. -/
theorem C41_rayleigh {a : A3} {nc : Option ℕ} {x : Dirs} {a0 a1 a2 : ℝ} (h : a.Is x.env a0 a1 a2) :
    ∃ v, (Scatter.prim .volRayleigh a nc).expansionAt x.env x.t0 x.tex x.p0 x.pex = .ok v ∧
      ∀ r, (Scatter.prim .volRayleigh a nc).Returns x r → r = XR.fin v := by
  refine ⟨Phase.rayleigh (x.cosTheta a0 a1 a2), ?_, fun r hr =>
    by rw [hr.eval]; exact (rayleigh_is h).evalX⟩
  unfold Scatter.expansionAt Scatter.legExpansion
  simp only [Scatter.ncoefs, okb]
  rw [if_pos (by norm_num), angleR_val h]
  unfold Scatter.legSum
  rw [Finset.sum_range_succ, Finset.sum_range_succ, Finset.sum_range_one]
  unfold Phase.rayleigh Dirs.cosTheta
  simp [Scatter.primCoef, legendre]
  ring

example (x : Dirs) : ∃ r, (Scatter.prim .volRayleigh volA none).Returns x r :=
  ⟨_, Scatter.returns_of x [] (by
    intro n hn
    simp [Scatter.phase, Scatter.primPhase, Scatter.angleExpr, volA, Expr.free] at hn
    aesop)⟩

/-! ## C44: finite and non-negative -/

/-- Every predefined function with parameters `|t| < 1`, `|a_i| ≤ 1`. HG_nadirnorm also needs
`t ≠ 0` and `a[0] ≠ 0`. -/
theorem C44_nonneg_partial {k : Kind} {a : A3} {nc : Option ℕ} {x : Dirs} {r : XR}
    (hr : (Scatter.prim k a nc).Returns x r) {a0 a1 a2 t : ℝ} (h : a.Is x.env a0 a1 a2)
    (h0 : |a0| ≤ 1) (h1 : |a1| ≤ 1) (h2 : |a2| ≤ 1) (ht : k.TIs x.env t) (ht1 : |t| < 1)
    (hn : k.IsNadirnorm → a0 ≠ 0 ∧ t ≠ 0) : ∃ v, r = XR.fin v ∧ 0 ≤ v := by
  have hb := Phase.cosTheta_abs_le h0 h1 h2 x.t0 x.tex x.p0 x.pex
  exact ⟨_, hr.prim h ht (hg_base_pos ht1 hb) (Kind.nadirOK h0 ht1 hn), Kind.val_nonneg h0 ht1 hb hn⟩

/-- The full statement of C44 fails for HG_nadirnorm: `t = 0` always returns nan. -/
theorem C44_nadirnorm_nan (nc : Option ℕ) (x : Dirs) :
    (∃ r, (Scatter.prim (.srfHGnadirnorm (.num 0)) srfA nc).Returns x r) ∧
    ∀ r, (Scatter.prim (.srfHGnadirnorm (.num 0)) srfA nc).Returns x r → r = XR.nan := by
  refine ⟨⟨_, Scatter.returns_of x [] ?_⟩, fun r hr => ?_⟩
  · intro n hn
    simp [Scatter.phase, Scatter.primPhase, Scatter.nadirHemreflect, Scatter.hgExpr, Scatter.angleExpr, srfA,
      Expr.free] at hn
    aesop
  · rw [hr.eval]
    have hz : (Expr.num 0).Is x.env 0 := .num 0
    have ha := (srfA_is x.env).h0
    have b1 := ((Expr.Is.num 1).add hz.sq).sub (((Expr.Is.num 2).mul ha).mul hz)
    have b2 := (b1.mul ((Expr.Is.num 1).add hz.sq)).rpow (by norm_num) (1 / 2)
    have b3 := b1.rpow (by norm_num) (1 / 2)
    have hA := ((Expr.Is.num 1).sub hz.sq).mul (((Expr.Is.num 1).sub (hz.mul (hz.neg.add ha))).sub b2)
    have hB := (((Expr.Is.num 2).mul ha.sq).mul hz.sq).mul b3
    have eA := hA.evalX
    have eB := hB.evalX
    have vA : (1 - (0 : ℝ) ^ 2) * (1 - 0 * (-0 + 1) - ((1 + 0 ^ 2 - 2 * 1 * 0) * (1 + 0 ^ 2)) ^ (1 / 2 : ℝ)) = 0 := by
      norm_num
    have vB : (2 : ℝ) * 1 ^ 2 * 0 ^ 2 * (1 + 0 ^ 2 - 2 * 1 * 0) ^ (1 / 2 : ℝ) = 0 := by norm_num
    rw [vA] at eA
    rw [vB] at eB
    show XR.fin 1 * XR.rpow (XR.fin 4 * (Expr.evalX _ (_ * _) * XR.rpow (Expr.evalX _ (_ * _)) (-1))) (-1) * _ = _
    rw [eA, eB]
    have h1 : XR.rpow (XR.fin 0) (-1) = XR.pinf := by unfold XR.rpow; norm_num
    have h2 : XR.fin 0 * XR.pinf = XR.nan := by
      show XR.mul _ _ = _; simp [XR.mul, XR.infOfSign, XR.sgn]
    rw [h1, h2]
    have h3 : XR.fin 4 * XR.nan = XR.nan := rfl
    have h4 : XR.rpow XR.nan (-1) = XR.nan := by unfold XR.rpow; norm_num
    have h5 : XR.fin 1 * XR.nan = XR.nan := rfl
    rw [h3, h4, h5]
    rfl

example (x : Dirs) : ∃ r, (Scatter.prim (.srfHGnadirnorm (.sym "t")) srfA (some 5)).Returns x r :=
  ⟨_, Scatter.returns_of x ["t"] (by
    intro n hn
    simp [Scatter.phase, Scatter.primPhase, Scatter.nadirHemreflect, Scatter.hgExpr, Scatter.angleExpr, srfA,
      Expr.free] at hn
    aesop)⟩

/-! ## C45: symmetries of the Henyey-Greenstein family -/

theorem C45_hg_zero {te : Expr} {a a' : A3} {nc nc' : Option ℕ} {x : Dirs} {r r' : XR}
    (hr : (Scatter.prim (.volHG te) a nc).Returns x r) (hr' : (Scatter.prim .volIsotropic a' nc').Returns x r')
    {a0 a1 a2 : ℝ} (h : a.Is x.env a0 a1 a2) (ht : te.Is x.env 0) : r = r' := by
  rw [hr.prim h (t := 0) ht (by norm_num) trivial, hr'.eval]
  simp [Kind.val, Phase.hg, Scatter.phase, Scatter.primPhase, Expr.evalX]

theorem C45_hgRayleigh_zero {te : Expr} {a : A3} {nc nc' : Option ℕ} {x : Dirs} {r r' : XR}
    (hr : (Scatter.prim (.volHGRayleigh te) a nc).Returns x r)
    (hr' : (Scatter.prim .volRayleigh a nc').Returns x r')
    {a0 a1 a2 : ℝ} (h : a.Is x.env a0 a1 a2) (ht : te.Is x.env 0) : r = r' := by
  rw [hr.prim h (t := 0) ht (by norm_num) trivial, hr'.prim h (t := 0) trivial (by norm_num) trivial]
  simp only [Kind.val, Phase.hgRayleigh, Phase.rayleigh]
  norm_num
  ring_nf
  simp

/-- Both signs flipped: `t` and the scattering angle (all `a`). -/
theorem C45_flip {te te' : Expr} {a a' : A3} {nc nc' : Option ℕ} {x : Dirs} {r r' : XR} {k k' : Kind}
    (hk : (k = .volHG te ∧ k' = .volHG te') ∨ (k = .srfHG te ∧ k' = .srfHG te') ∨
      (k = .volHGRayleigh te ∧ k' = .volHGRayleigh te'))
    (hr : (Scatter.prim k a nc).Returns x r) (hr' : (Scatter.prim k' a' nc').Returns x r')
    {a0 a1 a2 t : ℝ} (h : a.Is x.env a0 a1 a2) (h' : a'.Is x.env (-a0) (-a1) (-a2))
    (h0 : |a0| ≤ 1) (h1 : |a1| ≤ 1) (h2 : |a2| ≤ 1) (ht1 : |t| < 1)
    (ht : te.Is x.env t) (ht' : te'.Is x.env (-t)) : r = r' := by
  have hb := Phase.cosTheta_abs_le h0 h1 h2 x.t0 x.tex x.p0 x.pex
  have hp := hg_base_pos ht1 hb
  have e : x.cosTheta (-a0) (-a1) (-a2) = -x.cosTheta a0 a1 a2 := by
    unfold Dirs.cosTheta Phase.cosTheta; ring
  have hp' : 0 < 1 + (-t) ^ 2 - 2 * (-t) * x.cosTheta (-a0) (-a1) (-a2) := by
    rw [e]; have : 0 < 1 + t ^ 2 - 2 * t * x.cosTheta a0 a1 a2 := hp
    linarith
  rcases hk with ⟨rfl, rfl⟩ | ⟨rfl, rfl⟩ | ⟨rfl, rfl⟩
  · rw [hr.prim h (t := t) ht hp trivial, hr'.prim h' (t := -t) ht' hp' trivial, e]
    simp [Kind.val, Phase.hg]
  · rw [hr.prim h (t := t) ht hp trivial, hr'.prim h' (t := -t) ht' hp' trivial, e]
    simp [Kind.val, Phase.hg]
  · rw [hr.prim h (t := t) ht hp trivial, hr'.prim h' (t := -t) ht' hp' trivial, e]
    simp [Kind.val, Phase.hgRayleigh]

example (x : Dirs) : ∃ r, (Scatter.prim (.volHG (.num (1 / 2))) volA (some 5)).Returns x r :=
  ⟨_, Scatter.returns_of x [] (by
    intro n hn
    simp [Scatter.phase, Scatter.primPhase, Scatter.hgExpr, Scatter.angleExpr, volA, Expr.free] at hn
    aesop)⟩

/-! ## C46: linear combinations -/

/-- `calc` of a linear combination, for any values of the parts (also inf and nan). -/
theorem C46_calc {ws : List Expr} {os : List Scatter} {a : A3} {x : Dirs} {r : XR}
    (hr : (Scatter.lin ws os a).Returns x r) {cs : List ℝ}
    (hw : List.Forall₂ (fun w c => w.Is x.env c) ws cs) {rs : List XR}
    (ho : List.Forall₂ (fun o q => Scatter.Returns o x q) os rs) :
    r = (List.zipWith (fun c q => XR.fin c * q) cs rs).foldr (· + ·) (XR.fin 0) := by
  rw [hr.eval, Scatter.phase]
  clear hr
  induction hw generalizing os rs with
  | nil => simp [Scatter.phaseL, Expr.evalX]
  | cons h1 _ ih =>
    cases ho with
    | nil => simp [Scatter.phaseL, Expr.evalX]
    | cons h2 h3 =>
      rw [Scatter.phaseL, List.zipWith_cons_cons, List.foldr_cons, ← ih h3, h2.eval]
      show Expr.evalX _ _ * Expr.evalX _ _ + Expr.evalX _ _ = _
      rw [h1.evalX]

/-- For finite values: the weighted sum. -/
theorem C46_weighted_sum {ws : List Expr} {os : List Scatter} {a : A3} {x : Dirs} {r : XR}
    (hr : (Scatter.lin ws os a).Returns x r) {cs : List ℝ}
    (hw : List.Forall₂ (fun w c => w.Is x.env c) ws cs) {vs : List ℝ}
    (ho : List.Forall₂ (fun o v => Scatter.Returns o x (XR.fin v)) os vs) :
    r = XR.fin (List.zipWith (· * ·) cs vs).sum := by
  have ho' : List.Forall₂ (fun o q => Scatter.Returns o x q) os (vs.map XR.fin) := by
    rw [List.forall₂_map_right_iff]; exact ho
  rw [C46_calc hr hw ho']
  clear hr ho ho' hw
  induction cs generalizing vs with
  | nil => rfl
  | cons c cs ih =>
    cases vs with
    | nil => rfl
    | cons v vs => simp [ih]

/-- The values of the parts at a site determine the value of the combination. -/
theorem ValueAt.lin {ws : List Expr} {os : List Scatter} {a : A3} {x : Site} {cs vs : List ℝ}
    (hw : List.Forall₂ (fun w c => w.Is x.env c) ws cs)
    (ho : List.Forall₂ (fun o v => Scatter.ValueAt o x v) os vs) :
    (Scatter.lin ws os a).ValueAt x (List.zipWith (· * ·) cs vs).sum := by
  unfold Scatter.ValueAt at ho ⊢
  rw [Scatter.phase]
  induction hw generalizing os vs with
  | nil => simp [Scatter.phaseL, Expr.evalX]
  | cons h1 _ ih =>
    cases ho with
    | nil => simp [Scatter.phaseL, Expr.evalX]
    | cons h2 h3 =>
      rw [Scatter.phaseL]
      show Expr.evalX _ _ * Expr.evalX _ _ + Expr.evalX _ _ = _
      rw [ih h3, h1.evalX, h2]
      simp

theorem zipWith_scale (K : ℝ) (cs vs : List ℝ) :
    (List.zipWith (· * ·) cs (vs.map (K * ·))).sum = K * (List.zipWith (· * ·) cs vs).sum := by
  induction cs generalizing vs with
  | nil => simp
  | cons c cs ih =>
    cases vs with
    | nil => simp
    | cons v vs => simp [ih]; ring

theorem Site.inUnits_scale (x : Site) (s : Bool) (K v : ℝ) :
    x.inUnits s false (K * v) = XR.fin ((if s = true then K * x.signorm else K) * v) := by
  unfold Site.inUnits
  cases s <;> simp
  ring

/-- Surface contribution (linear units): the weighted sum of the contributions of the parts, i.e.
of the values `rs` observed at the same site with the single parts as surface function. -/
theorem C46_surface {c : Cfg} {ws : List Expr} {os : List Scatter} {a : A3} {x : Site} {r : XR}
    (hc : c.SRF = .lin ws os a) (hd : c.dB = false)
    (h : Observes surface c x r ∨ ObservesRow 1 c x r) {cs vs rs : List ℝ}
    (hw : List.Forall₂ (fun w k => w.Is x.env k) ws cs)
    (hv : List.Forall₂ (fun o v => Scatter.ValueAt o x v) os vs)
    (ho : List.Forall₂ (fun o q => Observes surface { c with SRF := o } x (XR.fin q) ∨
      ObservesRow 1 { c with SRF := o } x (XR.fin q)) os rs)
    (hx : x.Regular c.sig0) : r = XR.fin (List.zipWith (· * ·) cs rs).sum := by
  obtain ⟨K, hK⟩ : ∃ K : ℝ, ∀ f, x.inUnits c.sig0 c.dB (x.NormBRDF
      * ((1 - x.bsf) * Real.exp (-(x.tau / Real.cos x.t0) - x.tau / Real.cos x.tex) + x.bsf)
      * x.I0 * Real.cos x.t0 * f) = XR.fin (K * f) :=
    ⟨_, fun f => by rw [hd]; exact x.inUnits_scale c.sig0 _ f⟩
  have hrs : rs = vs.map (K * ·) := by
    clear hw h hc
    induction hv generalizing rs with
    | nil => cases ho; rfl
    | cons h1 _ ih =>
      cases ho with
      | cons h2 h3 =>
        have := C18_surface h2 h1 hx.mu0 hx.muEx hx.I0
        rw [hK] at this
        rw [ih h3, List.map_cons, XR.fin.inj this]
  rw [C18_surface h (f := (List.zipWith (· * ·) cs vs).sum) (by rw [hc]; exact ValueAt.lin hw hv)
    hx.mu0 hx.muEx hx.I0, hK, hrs, zipWith_scale]

/-- Volume contribution (linear units): the weighted sum of the contributions of the parts. -/
theorem C46_volume {c : Cfg} {ws : List Expr} {os : List Scatter} {a : A3} {x : Site} {r : XR}
    (hc : c.V = .lin ws os a) (hd : c.dB = false)
    (h : Observes volume c x r ∨ ObservesRow 2 c x r ∧ 0 ≤ x.tau) {cs vs rs : List ℝ}
    (hw : List.Forall₂ (fun w k => w.Is x.env k) ws cs)
    (hv : List.Forall₂ (fun o v => Scatter.ValueAt o x v) os vs)
    (ho : List.Forall₂ (fun o q => Observes volume { c with V := o } x (XR.fin q) ∨
      ObservesRow 2 { c with V := o } x (XR.fin q) ∧ 0 ≤ x.tau) os rs)
    (hx : x.Regular c.sig0) : r = XR.fin (List.zipWith (· * ·) cs rs).sum := by
  obtain ⟨K, hK⟩ : ∃ K : ℝ, ∀ p, x.inUnits c.sig0 c.dB ((1 - x.bsf) * x.I0 * x.omega
      * (Real.cos x.t0 / (Real.cos x.t0 + Real.cos x.tex))
      * (1 - Real.exp (-(x.tau / Real.cos x.t0)) * Real.exp (-(x.tau / Real.cos x.tex))) * p) = XR.fin (K * p) :=
    ⟨_, fun f => by rw [hd]; exact x.inUnits_scale c.sig0 _ f⟩
  have hrs : rs = vs.map (K * ·) := by
    clear hw h hc
    induction hv generalizing rs with
    | nil => cases ho; rfl
    | cons h1 _ ih =>
      cases ho with
      | cons h2 h3 =>
        have := C19_volume h2 h1 hx.mu0 hx.muEx hx.sum hx.I0
        rw [hK] at this
        rw [ih h3, List.map_cons, XR.fin.inj this]
  rw [C19_volume h (p := (List.zipWith (· * ·) cs vs).sum) (by rw [hc]; exact ValueAt.lin hw hv)
    hx.mu0 hx.muEx hx.sum hx.I0, hK, hrs, zipWith_scale]

/-- Parts that are combinations themselves. -/
example (x : Dirs) : (Scatter.lin [.num 2, .num 3]
    [.prim .volIsotropic volA none, .lin [.num 5] [.prim .volIsotropic volA none] volA] volA).Returns x
    (XR.fin (17 / (4 * Real.pi))) := by
  have := Scatter.returns_of (s := Scatter.lin [.num 2, .num 3]
    [.prim .volIsotropic volA none, .lin [.num 5] [.prim .volIsotropic volA none] volA] volA) x []
    (by intro n hn; simp [Scatter.phase, Scatter.phaseL, Scatter.primPhase, Expr.free] at hn)
  convert this using 1
  simp [Scatter.phase, Scatter.phaseL, Scatter.primPhase, Expr.evalX]
  ring

/-! ## C47, C48: expansions of linear combinations -/

/-- Combinations of predefined functions. The expansion is the weighted sum of the expansions
if, within each group of parts with the same `a`, the coefficients of a part beyond its own
`ncoefs` (but below the `ncoefs` of another part of the group) vanish. -/
theorem C47_expansion_partial {ws : List Expr} {os : List Scatter} {a : A3} (_hl : ws.length = os.length)
    (hp : ∀ o ∈ os, ∃ n, o.IsPart n) (ρ : String → ℝ)
    (hv : ∀ k a nc k' nc' n n', Scatter.prim k a nc ∈ os → Scatter.prim k' a nc' ∈ os →
      (Scatter.prim k a nc).ncoefs = .ok n → (Scatter.prim k' a nc').ncoefs = .ok n' →
      ∀ j, n ≤ j → j < n' → (Scatter.primCoef a k j).evalR ρ = 0) (t0 tex p0 pex : ℝ) :
    ∃ vs, List.Forall₂ (fun o v => Scatter.expansionAt o ρ t0 tex p0 pex = .ok v) os vs ∧
      (Scatter.lin ws os a).expansionAt ρ t0 tex p0 pex =
        .ok (List.zipWith (fun w v => w.evalR ρ * v) ws vs).sum := by
  refine ⟨os.map fun o => Scatter.legSum o.ncOf (fun n => (o.coefOf n).evalR ρ)
    (Scatter.angleR (fun e => e.evalR ρ) ⟨Real.cos t0, Real.sin t0⟩ ⟨Real.cos tex, Real.sin tex⟩
    ⟨Real.cos p0, Real.sin p0⟩ ⟨Real.cos pex, Real.sin pex⟩ o.a), ?_, ?_⟩
  · rw [List.forall₂_map_right_iff, List.forall₂_same]
    intro o ho
    obtain ⟨n, hn⟩ := hp o ho
    exact hn.expansion _ _ _ _ _
  · unfold Scatter.expansionAt
    rw [Scatter.lin_expansion_sum _ _ _ _ _ hp]
    · congr 2
      clear _hl hp hv
      induction ws generalizing os with
      | nil => rfl
      | cons w ws ih =>
        cases os with
        | nil => rfl
        | cons o os =>
          simp only [List.zip_cons_cons, List.map_cons, List.zipWith_cons_cons]
          rw [ih]
          rfl
    · intro o ho o' ho' haa j h1 h2
      obtain ⟨n, hn⟩ := hp o ho
      obtain ⟨n', hn'⟩ := hp o' ho'
      rw [hn.ncOf] at h1
      rw [hn'.ncOf] at h2
      have e1 := hn.ncoefs
      have e2 := hn'.ncoefs
      obtain ⟨⟨k, b, nc, rfl⟩, -, -⟩ := hn
      obtain ⟨⟨k', b', nc', rfl⟩, -, -⟩ := hn'
      have hb : b = b' := haa
      subst hb
      exact hv k b nc k' nc' n n' ho ho' e1 e2 j h1 h2

/-- The full statement of C47 fails: two Henyey-Greenstein functions with the same `a` and
different `ncoefs`. -/
theorem C47_ncoefs_counterexample (ρ : String → ℝ) : ∃ v v' w,
    (Scatter.prim (.volHG (.num (1 / 2))) volA (some 1)).expansionAt ρ 0 0 0 0 = .ok v ∧
    (Scatter.prim (.volHG (.num (1 / 2))) volA (some 2)).expansionAt ρ 0 0 0 0 = .ok v' ∧
    (Scatter.lin [.num 1, .num 1] [.prim (.volHG (.num (1 / 2))) volA (some 1),
      .prim (.volHG (.num (1 / 2))) volA (some 2)] volA).expansionAt ρ 0 0 0 0 = .ok w ∧
    w ≠ 1 * v + 1 * v' := by
  have hP : (0 : ℝ) < Real.pi := Real.pi_pos
  refine ⟨1 / (4 * Real.pi), 1 / (4 * Real.pi) * (1 - 3 / 2), 1 / (4 * Real.pi) * (2 - 3), ?_, ?_, ?_, ?_⟩
  · simp [Scatter.expansionAt, Scatter.legExpansion, Scatter.ncoefs, okb, Scatter.legSum, Scatter.primCoef,
      legendre]
  · simp [Scatter.expansionAt, Scatter.legExpansion, Scatter.ncoefs, okb, Scatter.legSum, Scatter.primCoef,
      legendre, Finset.sum_range_succ, Scatter.angleR, volA]
    ring
  · simp [Scatter.expansionAt, Scatter.legExpansion, Scatter.aGroups, Scatter.addGroup, Scatter.a,
      Scatter.groupsExpansion, Scatter.groupNcoefs, Scatter.ncoefsL, Scatter.ncoefs, Scatter.groupCoefs,
      Scatter.legCoef, okb, Scatter.legSum, Scatter.primCoef, legendre, Finset.sum_range_succ,
      Scatter.angleR, volA]
    ring
  · intro h
    field_simp at h
    norm_num at h

/-- The full statement of C47 fails: combinations of combinations have no expansion. -/
theorem C47_nested_counterexample (ρ : String → ℝ) (t0 tex p0 pex : ℝ) :
    (Scatter.lin [.num 1] [.prim .volIsotropic volA none] volA).expansionAt ρ t0 tex p0 pex =
      .ok (1 / (4 * Real.pi)) ∧
    (Scatter.lin [.num 1] [.lin [.num 1] [.prim .volIsotropic volA none] volA] volA).expansionAt ρ t0 tex p0 pex =
      .error .notImplementedError := by
  constructor
  · simp [Scatter.expansionAt, Scatter.legExpansion, Scatter.aGroups, Scatter.addGroup, Scatter.a,
      Scatter.groupsExpansion, Scatter.groupNcoefs, Scatter.ncoefsL, Scatter.ncoefs, Scatter.groupCoefs,
      Scatter.legCoef, okb, Scatter.legSum, Scatter.primCoef, legendre]
  · simp [Scatter.expansionAt, Scatter.legExpansion, Scatter.aGroups, Scatter.addGroup, Scatter.a,
      Scatter.groupsExpansion, Scatter.groupNcoefs, Scatter.ncoefsL, Scatter.ncoefs, Scatter.groupCoefs,
      Scatter.legCoef, okb]
    rfl

/-- Combinations of predefined functions can be used with the interaction term: the coefficients
exist and solve their defining equation, with the expansions of the combinations themselves. -/
theorem C48_fn_coefficients {V SRF : Scatter} (hV : V.Simple) (hS : SRF.Simple) (g : Geom4) :
    ∃ fs, fnCoefs V SRF g = .ok fs ∧ ∀ (ρ : String → ℝ) (θ : ℝ),
      (∃ v, V.expansionAt ρ (Real.pi - g.t0.val ρ) θ (g.p0.val ρ) 0 = .ok v) ∧
      (∃ s, SRF.expansionAt ρ θ (g.tex.val ρ) 0 (g.pex.val ρ + Real.pi) = .ok s) ∧
      ∑ n ∈ Finset.range fs.length, (fs.getD n 0).coeff 0 ρ * Real.cos θ ^ n =
        ∫ φ in (0 : ℝ)..(2 * Real.pi), V.expVal ρ (Real.pi - g.t0.val ρ) θ (g.p0.val ρ) φ
          * SRF.expVal ρ θ (g.tex.val ρ) φ (g.pex.val ρ + Real.pi) := by
  obtain ⟨fs, h⟩ := hV.fnCoefs hS g
  exact ⟨fs, h, fun ρ θ => ⟨hV.expansion _ _ _ _ _, hS.expansion _ _ _ _ _, (C33_fn_coefficients h).2 ρ θ⟩⟩

example : (Scatter.lin [.sym "x", .num 1 - .sym "x"] [.prim .volIsotropic volA none,
    .prim (.volHG (.sym "t")) volA (some 7)] volA).Simple := by
  refine .inr ⟨_, _, _, rfl, by simp, fun o ho => ?_⟩
  simp only [List.mem_cons, List.not_mem_nil, or_false] at ho
  rcases ho with rfl | rfl
  · exact ⟨1, ⟨_, _, _, rfl⟩, by norm_num, by simp [Scatter.ncoefs]⟩
  · exact ⟨7, ⟨_, _, _, rfl⟩, by norm_num, by simp [Scatter.ncoefs]⟩

end

end RT1
