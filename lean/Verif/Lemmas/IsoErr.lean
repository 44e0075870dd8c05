import Verif.Lemmas.DemoVec
import Verif.Lemmas.ScalarCall

/-! Isotropic volume and surface: the fn-coefficients are constants (`[1/(2π), 0]`), which the
sympy backend returns as numbers.  For arrays of rank two the coefficient axis is then aligned
with an axis of the input arrays. -/

namespace RT1

noncomputable section
open Classical MvPolynomial

/-- Isotropic volume. -/
def isoV : Scatter := .prim .volIsotropic volA none
/-- Isotropic surface. -/
def isoS : Scatter := .prim .srfIsotropic srfA none

theorem isoV_ncoefs : isoV.ncoefs = .ok 1 := by simp [isoV, Scatter.ncoefs]
theorem isoS_ncoefs : isoS.ncoefs = .ok 1 := by simp [isoS, Scatter.ncoefs]

theorem iso_fnCoefs (g : Geom4) : ∃ fs, fnCoefs isoV isoS g = .ok fs := by
  unfold fnCoefs interactionExpansion fPoly
  simp only [Scatter.legExpansion, isoV, isoS, Scatter.ncoefs, okb]
  exact ⟨_, rfl⟩

theorem isoV_val (ρ : String → ℝ) (t0 tex p0 pex : ℝ) :
    isoV.expVal ρ t0 tex p0 pex = 1 / (4 * Real.pi) := by
  refine Scatter.expVal_of_ok ?_
  unfold Scatter.expansionAt isoV
  simp only [Scatter.legExpansion, Scatter.ncoefs, okb]
  rw [if_pos (by norm_num)]
  congr 1
  unfold Scatter.legSum Scatter.angleR
  rw [Finset.sum_range_one]
  simp [Scatter.primCoef, legendre]

theorem isoS_val (ρ : String → ℝ) (t0 tex p0 pex : ℝ) :
    isoS.expVal ρ t0 tex p0 pex = 1 / Real.pi := by
  refine Scatter.expVal_of_ok ?_
  unfold Scatter.expansionAt isoS
  simp only [Scatter.legExpansion, Scatter.ncoefs, okb]
  rw [if_pos (by norm_num)]
  congr 1
  unfold Scatter.legSum Scatter.angleR
  rw [Finset.sum_range_one]
  simp [Scatter.primCoef, legendre]

/-- The two coefficients do not contain a symbol. -/
theorem iso_const {g : Geom4} {fs : List P} (h : fnCoefs isoV isoS g = .ok fs) :
    fs.length = 2 ∧ ∀ p ∈ fs, isConstFn p ∧ p.vars = ∅ := by
  obtain ⟨nS, nV, c, hS, hV, rfl, -, s, v, hs, hv, hint⟩ := fnCoefs_spec h
  rw [isoS_ncoefs] at hS
  rw [isoV_ncoefs] at hV
  cases hS; cases hV
  have hn : nFn 1 1 = 2 := rfl
  rw [hn] at hint ⊢
  refine ⟨by simp, fun p hp => ?_⟩
  obtain ⟨n, hn, rfl⟩ := List.mem_map.mp hp
  refine ⟨fun ρ ρ' => ?_, vars_C⟩
  have key : ∀ ρ θ, c 0 ρ + c 1 ρ * Real.cos θ =
      ∫ φ in (0 : ℝ)..(2 * Real.pi), 1 / (4 * Real.pi) * (1 / Real.pi) := by
    intro ρ θ
    have h1 := hint ρ θ
    rw [intervalIntegral.integral_congr (g := fun φ => 1 / (4 * Real.pi) * (1 / Real.pi)) (fun φ _ => by
      rw [← Scatter.expVal_of_ok (vol_value hv ρ θ φ), ← Scatter.expVal_of_ok (srf_value hs ρ θ φ),
        isoV_val, isoS_val])] at h1
    rw [← h1, Finset.sum_range_succ, Finset.sum_range_one]
    simp
  have k0 : ∀ ρ ρ', c 0 ρ = c 0 ρ' := by
    intro ρ ρ'
    have h1 := key ρ (Real.pi / 2)
    have h2 := key ρ' (Real.pi / 2)
    rw [Real.cos_pi_div_two] at h1 h2
    linarith
  have k1 : ∀ ρ ρ', c 1 ρ = c 1 ρ' := by
    intro ρ ρ'
    have h1 := key ρ 0
    have h2 := key ρ' 0
    have := k0 ρ ρ'
    rw [Real.cos_zero] at h1 h2
    linarith
  rw [show coeff 0 (C (c n) : P) = c n by simp]
  have : n < 2 := List.mem_range.mp hn
  interval_cases n
  · exact k0 ρ ρ'
  · exact k1 ρ ρ'

theorem isoV_plain : isoV.Plain := by intro n hn; simp [isoV, Scatter.phase, Scatter.primPhase, Expr.free] at hn
theorem isoS_plain : isoS.Plain := by intro n hn; simp [isoS, Scatter.phase, Scatter.primPhase, Expr.free] at hn

/-- A parameter that is a single symbol has the value from the dictionary. -/
theorem par_sym {o : Obj} {p : PName} {k : String} {x : Arr} (hd : o.pdef p = .str (.sym k))
    (hx : o.params.get? k = some x) : ∃ y, Fresh.par .sympy o p = .ok y ∧ y.shape = x.shape := by
  have hsy : Fresh.symbs o p = [k] := by unfold Fresh.symbs; rw [hd]; rfl
  have hf : Fresh.pfun .sympy o p = .ok (some ⟨[k], .sym k⟩) := by
    unfold Fresh.pfun
    rw [hd]
    simp only
    rw [hsy]
    rfl
  have hp : Self.pick o.params [k] = .ok [(k, x)] := by
    simp [Self.pick, hx]
  refine ⟨⟨x.shape, fun idx => (Expr.sym k).evalX (Lam.envAt [(k, x)] idx)⟩, ?_, rfl⟩
  have hb : Lam.call .sympy ⟨[k], .sym k⟩ [] [(k, x)] = .ok ⟨x.shape, fun idx => (Expr.sym k).evalX (Lam.envAt [(k, x)] idx)⟩ := by
    unfold Lam.call Lam.bindArgs Lam.evalBound
    simp [okb, Dict.get?, Expr.free, Arr.bshapes]
    cases x.shape <;> rfl
  unfold Fresh.par
  rw [hf]
  simp only [okb]
  rw [hsy, hp]
  simp only [okb]
  rw [hb]
  rfl

/-- Three rows of one observation each: `ValueError`. -/
theorem iso_fint_error (s d : Bool) (m : ℕ) (site : List ℕ → Site) (dv ds : String → Py Lam) :
    (Fresh.acc .sympy (tensObj isoV isoS true s d (m :: [3]) site) dv ds).fint1 = .error .valueError := by
  set o := tensObj isoV isoS true s d (m :: [3]) site with ho
  have hc : Complete o (m :: [3]) := tens_complete true s d m [3] site isoV_plain isoS_plain
  set a1 := tens (m :: [3]) fun i => (site i).t0
  have e1 : Fresh.ang o .t0 = .ok a1 := by
    simp [ho, Fresh.ang, tensObj, demoObj, tens_atleast1d, a1]
  obtain ⟨a3, e3, f3⟩ := hc.s_tex
  obtain ⟨a2, e2, f2⟩ := hc.s_p0
  obtain ⟨a4, e4, f4⟩ := hc.s_pex
  obtain ⟨tau, et, ft⟩ := hc.s_par .sympy .tau
  obtain ⟨fs, hfs⟩ := iso_fnCoefs o.geom
  obtain ⟨hl, hcst⟩ := iso_const hfs
  have hN : Fresh.nmax o = .ok 1 := by
    unfold Fresh.nmax
    rw [show o.V = isoV from rfl, show o.SRF = isoS from rfl, isoV_ncoefs, isoS_ncoefs]
    rfl
  set lam : FnLam := ⟨["theta_0", "phi_0", "theta_ex", "phi_ex"] ++ o.params.keys,
      isoV.phase.free ++ isoS.phase.free, fs⟩ with hlamd
  have hlam : Fresh.fnevals .sympy o = .ok (some lam) := by
    have hfn : Fresh.fn o = .ok (some fs) := by
      unfold Fresh.fn
      rw [show o.fn_ = none from rfl, show o.fnInput = none from rfl]
      simp only [if_pos (show o.intQ = true from rfl)]
      rw [show fnCoefs o.V o.SRF o.geom = .ok fs from hfs]
      rfl
    unfold Fresh.fnevals
    rw [show o.fnevals_ = none from rfl, show o.fnevalsInput = none from rfl]
    simp only [if_pos (show o.intQ = true from rfl)]
    rw [hfn]
    simp only [okb]
    unfold Fresh.fnCompile
    simp only
    rw [if_neg (by rintro ⟨h, -⟩; cases h)]
    rfl
  obtain ⟨args, hargs, hargl, sh, hsh⟩ : ∃ args, Arr.broadcastArrays ([a1, a2, a3, a4] ++ o.params.map Prod.snd) = .ok args ∧
      args.length = 4 + o.params.length ∧ ∃ sh, Arr.bshapes (args.map Arr.shape) = some sh := by
    obtain ⟨sh, hsh, -⟩ := Arr.bshapes_of_fits (l := ([a1, a2, a3, a4] ++ o.params.map Prod.snd).map Arr.shape)
      (u := m :: [3]) (by
        intro s hs
        obtain ⟨a, ha, rfl⟩ := List.mem_map.mp hs
        rcases List.mem_append.mp ha with ha | ha
        · simp only [List.mem_cons, List.not_mem_nil, or_false] at ha
          rcases ha with rfl | rfl | rfl | rfl
          · exact Arr.Fits.refl _
          all_goals assumption
        · rw [ho, tens_params] at ha
          simp only [List.map_cons, List.map_nil, List.mem_cons, List.not_mem_nil, or_false] at ha
          rcases ha with rfl | rfl | rfl | rfl <;> exact Arr.Fits.refl _)
    refine ⟨([a1, a2, a3, a4] ++ o.params.map Prod.snd).map (Arr.broadcastTo sh), ?_, by simp; omega, ?_⟩
    · unfold Arr.broadcastArrays
      rw [hsh]
    · obtain ⟨sh2, hsh2, -⟩ := Arr.bshapes_of_fits (u := sh)
        (l := (([a1, a2, a3, a4] ++ o.params.map Prod.snd).map (Arr.broadcastTo sh)).map Arr.shape) (by
          intro s hs
          obtain ⟨a, ha, rfl⟩ := List.mem_map.mp hs
          obtain ⟨a', -, rfl⟩ := List.mem_map.mp ha
          exact Arr.Fits.refl _)
      exact ⟨sh2, hsh2⟩
  obtain ⟨p0, p1, rfl⟩ := List.length_eq_two.mp hl
  have hcall : lam.call .sympy args = .ok [Arr.num (XR.fin (coeff 0 p0 fun _ => 0)), Arr.num (XR.fin (coeff 0 p1 fun _ => 0))] := by
    unfold FnLam.call
    rw [if_neg (by rw [hargl]; simp [hlamd, Dict.keys]; omega), if_neg, if_neg, hsh]
    · simp [hlamd, (hcst p0 (by simp)).1, (hcst p1 (by simp)).1]
    · rintro ⟨p, hp, hpv⟩
      exact hpv (hcst p hp).2
    · rintro ⟨n, hn, -⟩
      simp [hlamd, isoV, isoS, Scatter.phase, Scatter.primPhase, Expr.free] at hn
  obtain ⟨U, hU, fU⟩ : ∃ U, Arr.bshape (Arr.cos a1).shape tau.shape = some U ∧ U = m :: [3] := by
    obtain ⟨z, hz, hz'⟩ := Arr.map2_fits_right (f := fun x _ => x) (a := Arr.cos a1) (b := tau) (U := m :: [3]) rfl ft
    unfold Arr.map2 at hz
    cases hb : Arr.bshape (Arr.cos a1).shape tau.shape with
    | none => rw [hb] at hz; cases hz
    | some U => rw [hb] at hz; cases hz; exact ⟨U, rfl, hz'⟩
  subst fU
  obtain ⟨s2, hs2, hs2s⟩ := S2mu_succ hU (le_refl 1)
  obtain ⟨mx, hmx, hmxs⟩ := muPowers_succ (le_refl 1) (Arr.cos a1)
  have hmxs' : mx.shape = [m, 3, 1] := hmxs
  have hs2s' : s2.shape = [m, 3, 1] := hs2s
  obtain ⟨mul, hmul, hmuls⟩ := Arr.map2_fits_right (f := (· * ·)) (a := mx) (b := s2) (U := [m, 3, 1]) hmxs'
    (by rw [hs2s']; exact Arr.Fits.refl _)
  have hm0 : Fresh.mu0 o = .ok (Arr.cos a1) := by unfold Fresh.mu0; rw [e1]; rfl
  have hang : (do
        let a ← Fresh.ang o .t0
        let b ← Fresh.ang o .p0
        let c ← Fresh.tex o
        let d ← Fresh.pex o
        pure [a, b, c, d] : Py (List Arr)) = .ok [a1, a2, a3, a4] := by
    rw [e1, e2, e3, e4]; rfl
  have hmux : Fresh.mu0x o = .ok mx := by
    unfold Fresh.mu0x
    rw [hN, hm0]
    exact hmx
  set fn := [Arr.broadcastTo [1] (Arr.num (XR.fin (coeff 0 p0 fun _ => 0))).atleast1d,
    Arr.broadcastTo [1] (Arr.num (XR.fin (coeff 0 p1 fun _ => 0))).atleast1d] with hfn
  have hb2 : Arr.broadcastArrays ([Arr.num (XR.fin (coeff 0 p0 fun _ => 0)), Arr.num (XR.fin (coeff 0 p1 fun _ => 0))].map Arr.atleast1d)
      = .ok fn := by
    simp [Arr.broadcastArrays, Arr.bshapes, Arr.bshape, Arr.atleast1d, Arr.num, hfn]
  obtain ⟨fnA, hfnA, hfnAs⟩ := Arr.stack_same (l := fn) (U := [1]) (by simp [hfn])
    (by intro y hy; simp [hfn] at hy; rcases hy with rfl | rfl <;> rfl)
  have hfnAs' : fnA.shape = [1, 2] := hfnAs
  have hprod : Arr.mul fnA mul = .error .valueError := by
    show Arr.map2 (· * ·) fnA mul = _
    unfold Arr.map2
    have : Arr.bshape fnA.shape mul.shape = none := by
      rw [hfnAs', hmuls]
      simp [Arr.bshape]
    rw [this]
  unfold Acc.fint1 Acc.fint
  have hmul' : Arr.mul mx s2 = .ok mul := hmul
  have hang' : (do
        let a ← (Fresh.acc .sympy o dv ds).t0
        let b ← (Fresh.acc .sympy o dv ds).p0
        let c ← (Fresh.acc .sympy o dv ds).tex
        let d ← (Fresh.acc .sympy o dv ds).pex
        pure [a, b, c, d] : Py (List Arr)) = .ok [a1, a2, a3, a4] := hang
  rw [hang']
  have hp : (Fresh.acc .sympy o dv ds).params = .ok o.params := rfl
  have hl' : (Fresh.acc .sympy o dv ds).fnevals = .ok (some lam) := hlam
  have hb' : (Fresh.acc .sympy o dv ds).fnCall lam args = lam.call .sympy args := liftPy_py _
  have hx' : (Fresh.acc .sympy o dv ds).mu0x = .ok mx := hmux
  have hm' : (Fresh.acc .sympy o dv ds).mu0 = .ok (Arr.cos a1) := hm0
  have ht' : (Fresh.acc .sympy o dv ds).par .tau = .ok tau := et
  have hn' : (Fresh.acc .sympy o dv ds).nmax = .ok 1 := by rw [acc_nmax]; exact hN
  simp only [okb, hp, hargs, liftPy_py, hl', hb', hcall, hb2, hx', hm', ht', hn', hs2, hmul', hfnA, hprod]
  rfl

end

end RT1
