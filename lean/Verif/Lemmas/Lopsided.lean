import Verif.Lemmas.IsoErr

/-! One incidence angle, two values of omega: surface and volume contributions have different
shapes, `np.stack` fails. -/

namespace RT1

noncomputable section
open Classical

theorem one_fits_two : Arr.Fits [1] [2] := ⟨Or.inl rfl, trivial⟩

/-- Parameters of the example: all arrays have one entry, except omega. -/
def lopKw (τ ω ω' N β : ℝ) : Dict :=
  [("tau", tens [1] fun _ => τ), ("omega", tens [2] fun i => if i = [0] then ω else ω'),
    ("NormBRDF", tens [1] fun _ => N), ("bsf", tens [1] fun _ => β)]

/-- The object. -/
def lopObj (s d : Bool) (I t p τ ω ω' N β : ℝ) : Obj :=
  demoObj isoV isoS false s d (tens [1] fun _ => I) (tens [1] fun _ => t) (tens [1] fun _ => p)
    (lopKw τ ω ω' N β)

/-- The state. -/
def lopW (s d : Bool) (I t p τ ω ω' N β : ℝ) : World :=
  demoW .sympy isoV isoS false s d (tens [1] fun _ => I) (tens [1] fun _ => t) (tens [1] fun _ => p)
    (lopKw τ ω ω' N β)

variable (s d : Bool) (I t p τ ω ω' N β : ℝ)

theorem lop_params : (lopObj s d I t p τ ω ω' N β).params =
    [("bsf", tens [1] fun _ => β), ("tau", tens [1] fun _ => τ),
      ("omega", tens [2] fun i => if i = [0] then ω else ω'), ("NormBRDF", tens [1] fun _ => N)] := by
  simp [lopObj, demoObj, lopKw, Dict.update, Dict.set, tens_atleast1d]

theorem lop_update : Fresh.update (lopObj s d I t p τ ω ω' N β) [] = lopObj s d I t p τ ω ω' N β := by
  have h : "bsf" ∈ (lopObj s d I t p τ ω ω' N β).params.keys := by
    rw [lop_params]; simp [Dict.keys]
  unfold Fresh.update
  simp [lopObj, demoObj, defaultDefs] at h ⊢
  simp [h]
  simp [Dict.update]

theorem lop_complete : Complete (lopObj s d I t p τ ω ω' N β) [2] where
  t0 := by
    refine ⟨_, by simp [lopObj, demoObj, tens_atleast1d]; rfl, ?_⟩
    exact one_fits_two
  p0 := by
    refine ⟨_, by simp [lopObj, demoObj, tens_atleast1d]; rfl, ?_⟩
    exact one_fits_two
  tex := Or.inl rfl
  pex := Or.inl rfl
  I0 := one_fits_two
  params := by
    intro k x hk
    rw [lop_params] at hk
    have := Dict.mem_of_get? hk
    simp only [List.mem_cons, Prod.mk.injEq, List.not_mem_nil, or_false] at this
    rcases this with ⟨-, rfl⟩ | ⟨-, rfl⟩ | ⟨-, rfl⟩ | ⟨-, rfl⟩
    · exact one_fits_two
    · exact one_fits_two
    · exact Arr.Fits.refl _
    · exact one_fits_two
  defs := by
    intro p'
    rw [lop_params]
    cases p' <;> simp [lopObj, demoObj, defaultDefs, Expr.free, Dict.keys]
  V := fun n hn => List.mem_append_left _ (isoV_plain n hn)
  SRF := fun n hn => List.mem_append_left _ (isoS_plain n hn)

theorem lop_par {p' : PName} {k : String} {r : ℝ} (hd : defaultDefs p' = .str (.sym k))
    (hx : (lopObj s d I t p τ ω ω' N β).params.get? k = some (tens [1] fun _ => r)) :
    Succ (Fresh.par .sympy (lopObj s d I t p τ ω ω' N β) p') [1] := by
  obtain ⟨y, h1, h2⟩ := par_sym (o := lopObj s d I t p τ ω ω' N β) (p := p') hd hx
  exact ⟨y, h1, by rw [h2]; exact Arr.Fits.refl _⟩

theorem lop_srf (dv ds : String → Py Lam) :
    Succ (Fresh.acc .sympy (lopObj s d I t p τ ω ω' N β) dv ds).srfCalc [1] := by
  have hc := lop_complete s d I t p τ ω ω' N β
  obtain ⟨z, hz, -⟩ := hc.s_srf .sympy dv ds
  refine ⟨z, hz, ?_⟩
  obtain ⟨a1, e1, f1⟩ := hc.s_t0
  obtain ⟨a2, e2, f2⟩ := hc.s_tex
  obtain ⟨a3, e3, f3⟩ := hc.s_p0
  obtain ⟨a4, e4, f4⟩ := hc.s_pex
  have hz' : ((do
    let a ← Fresh.ang (lopObj s d I t p τ ω ω' N β) .t0
    let b' ← Fresh.tex (lopObj s d I t p τ ω ω' N β)
    let c ← Fresh.ang (lopObj s d I t p τ ω ω' N β) .p0
    let d' ← Fresh.pex (lopObj s d I t p τ ω ω' N β)
    liftPy (isoS.calcVal .sympy a b' c d' (lopObj s d I t p τ ω ω' N β).params)) : Py Arr) = .ok z := hz
  rw [e1, e2, e3, e4] at hz'
  simp only [okb, liftPy_py] at hz'
  unfold Scatter.calcVal Lam.compile Lam.call at hz'
  simp only [okb] at hz'
  cases hb : Lam.bindArgs .sympy (["theta_0", "theta_ex", "phi_0", "phi_ex"] ++ (lopObj s d I t p τ ω ω' N β).params.keys)
      [a1, a2, a3, a4] (lopObj s d I t p τ ω ω' N β).params with
  | error e => rw [hb] at hz'; cases hz'
  | ok bnd =>
    rw [hb] at hz'
    simp only [okb] at hz'
    have hfree : isoS.phase.free = [] := by simp [isoS, Scatter.phase, Scatter.primPhase, Expr.free]
    unfold Lam.evalBound at hz'
    simp only [hfree] at hz'
    simp [Arr.bshapes] at hz'
    rw [← hz']
    trivial

theorem lop_surface (dv ds : String → Py Lam) :
    Succ (Fresh.acc .sympy (lopObj s d I t p τ ω ω' N β) dv ds).surface [1] := by
  have hg := lop_params s d I t p τ ω ω' N β
  have pτ := lop_par s d I t p τ ω ω' N β (p' := .tau) (k := "tau") (r := τ) rfl
    (by rw [hg]; simp [Dict.get?])
  have pN := lop_par s d I t p τ ω ω' N β (p' := .NormBRDF) (k := "NormBRDF") (r := N) rfl
    (by rw [hg]; simp [Dict.get?])
  have pβ := lop_par s d I t p τ ω ω' N β (p' := .bsf) (k := "bsf") (r := β) rfl
    (by rw [hg]; simp [Dict.get?])
  have ha : Fresh.ang (lopObj s d I t p τ ω ω' N β) .t0 = .ok (tens [1] fun _ => t) := by
    simp [Fresh.ang, lopObj, demoObj, tens_atleast1d]
  have m0 : Succ (Fresh.mu0 (lopObj s d I t p τ ω ω' N β)) [1] := by
    unfold Fresh.mu0
    rw [ha]
    exact ⟨_, rfl, Arr.Fits.refl _⟩
  have m1 : Succ (Fresh.muEx (lopObj s d I t p τ ω ω' N β)) [1] := by
    unfold Fresh.muEx Fresh.tex
    rw [if_pos (show (lopObj s d I t p τ ω ω' N β).mono = true from rfl), ha]
    exact ⟨_, rfl, Arr.Fits.refl _⟩
  have hI : Succ (Fresh.acc .sympy (lopObj s d I t p τ ω ω' N β) dv ds).I0 [1] :=
    Succ.of_ok (Arr.Fits.refl _)
  have hat : Succ (Fresh.acc .sympy (lopObj s d I t p τ ω ω' N β) dv ds).atten [1] :=
    Succ.expM (Succ.subM (Succ.negM (Succ.divM pτ m0)) (Succ.divM pτ m1))
  unfold Acc.surface
  refine Succ.bind (Succ.mulM (Succ.mulM hI m0) (lop_srf s d I t p τ ω ω' N β dv ds)) fun a1 h1 => ?_
  refine Succ.bind (Succ.mulM hat (Succ.pure h1)) fun a2 h2 => ?_
  exact Succ.mulM pN (Succ.addM (Succ.mulM (Succ.subM (Succ.lit 1) pβ) (Succ.pure h2))
    (Succ.mulM pβ (Succ.pure h1)))

theorem lop_calc : Fresh.calcAll .sympy (lopObj s d I t p τ ω ω' N β) = .error .valueError := by
  have hc := lop_complete s d I t p τ ω ω' N β
  obtain ⟨Is, s1, s2⟩ := lop_surface s d I t p τ ω ω' N β (Fresh.dVol .sympy _) (Fresh.dSrf .sympy _)
  obtain ⟨Iv, v1, v2⟩ := hc.s_volume .sympy (Fresh.dVol .sympy _) (Fresh.dSrf .sympy _)
  obtain ⟨om, o1, o2⟩ := par_sym (o := lopObj s d I t p τ ω ω' N β) (p := .omega) (k := "omega")
    (x := tens [2] fun i => if i = [0] then ω else ω') rfl (by rw [lop_params]; simp [Dict.get?])
  obtain ⟨ta, t1, t2⟩ := par_sym (o := lopObj s d I t p τ ω ω' N β) (p := .tau) (k := "tau")
    (x := tens [1] fun _ => τ) rfl (by rw [lop_params]; simp [Dict.get?])
  have b1 : Below om.shape (Fresh.acc0 .sympy (lopObj s d I t p τ ω ω' N β)).volume :=
    Below.bind fun a ha => Below.mul_right (Below.pure
      (Below.mul_left (Below.mul_left (Below.div_left (Below.mul_left (Below.mul_right (Below.self o1))))) a ha))
  have v3 : Iv.shape = [2] := by
    have := b1 _ v1
    rw [o2] at this
    exact v2.antisymm this
  have s1 : (Fresh.acc0 .sympy (lopObj s d I t p τ ω ω' N β)).surface = .ok Is := s1
  have v1 : (Fresh.acc0 .sympy (lopObj s d I t p τ ω ω' N β)).volume = .ok Iv := v1
  have t1 : (Fresh.acc0 .sympy (lopObj s d I t p τ ω ω' N β)).par .tau = .ok ta := t1
  have q1 : (Fresh.acc0 .sympy (lopObj s d I t p τ ω ω' N β)).intQ = .ok false := rfl
  have t3 : ta.shape ≠ [] := by rw [t2]; simp [tens]
  obtain ⟨tot, h1, h2⟩ := Succ.addM (Succ.pure (s2.trans one_fits_two)) (Succ.pure v2)
  have b2 : Arr.Fits Iv.shape tot.shape := Below.add_right (Below.pure (Arr.Fits.refl _)) tot h1
  have hst : Arr.stack [tot, Is, Iv] = .error .valueError := by
    unfold Arr.stack
    simp only
    rw [if_neg]
    intro hall
    have e1 := hall Is (by simp)
    have hl := e1 ▸ b2
    rw [v3] at hl
    have := hl.trans s2
    rcases this.1 with h | h <;> omega
  have hfin : (Fresh.acc0 .sympy (lopObj s d I t p τ ω ω' N β)).finish false Is Iv (Arr.lit 0) =
      .error .valueError := by
    unfold Acc.finish
    simp only [Bool.false_eq_true, if_false]
    rw [h1]
    simp only [okb, liftPy_py]
    rw [hst]
    rfl
  unfold Fresh.calcAll Acc.calcTry Acc.calcBody
  simp only [t1, s1, v1, q1, okb, if_neg t3, Bool.false_eq_true, if_false]
  rw [hfin]
  rfl

end

end RT1
