import Verif.Props.State
import Verif.Props.Contrib
import Verif.Lemmas.Stale

/-!
# Arrays reused by the caller, re-assigned scattering functions

`np.atleast_1d` does not copy arrays, so an object holds the very array the caller passed to
`set_geometry`; `overwriteArg` is the caller overwriting its contents.
-/

namespace RT1

noncomputable section
open Classical

/-! ## C02: arrays reused by the caller -/

/-- Calls that clear the stored cosines: a mode call on any object, or a `set_geometry` call
that succeeds. -/
def Op.Resets (w : World) : Op → Prop
  | .setMonostatic _ _ => True
  | .setBistatic _ _ _ _ _ => True
  | .setGeometry id kw => (RT1.setGeometry id kw w).1 = .ok ()
  | _ => False

theorem GeoNil.modObj {id : ℕ} {f : Obj → Obj} : Safe GeoNil (RT1.modObj id f) := fun _ h => h

theorem GeoNil.resetGeom {id : ℕ} {m : Bool} {w : World} : GeoNil (RT1.resetGeom id m w).2 :=
  ⟨rfl, rfl, rfl, rfl⟩

theorem GeoNil.of_resets {w : World} {op : Op} (h : op.Resets w) : GeoNil (step op w).2 := by
  cases op <;> simp only [Op.Resets] at h
  case setMonostatic id p =>
    have : ∀ w, True → GeoNil (RT1.setMonostatic id p w).2 := by
      unfold RT1.setMonostatic
      refine Safe.bind_of (P := fun _ => True) (fun _ _ => GeoNil.resetGeom) fun _ => ?_
      refine Safe.bind ?_ fun _ => GeoNil.modObj
      cases p with
      | none => exact Safe.pure _
      | some a =>
        cases a with
        | other => exact Safe.throw _
        | number r => exact Safe.bind GeoNil.modObj fun _ => Safe.pure _
    exact this w trivial
  case setBistatic id a b c d =>
    have hb : ∀ n s p, Safe GeoNil (RT1.bistaticAngle id n s p) := by
      intro n s p
      cases p with
      | none => exact Safe.pure _
      | some a =>
        cases a with
        | other => exact Safe.throw _
        | number r => exact Safe.bind GeoNil.modObj fun _ => Safe.pure _
    have : ∀ w, True → GeoNil (RT1.setBistatic id a b c d w).2 := by
      unfold RT1.setBistatic
      refine Safe.bind_of (P := fun _ => True) (fun _ _ => GeoNil.resetGeom) fun _ => ?_
      exact Safe.bind (hb _ _ _) fun _ => Safe.bind (hb _ _ _) fun _ => Safe.bind (hb _ _ _) fun _ =>
        Safe.bind (hb _ _ _) fun _ => GeoNil.modObj
    exact this w trivial
  case setGeometry id kw =>
    show GeoNil (RT1.setGeometry id kw w).2
    unfold RT1.setGeometry at h ⊢
    by_cases h1 : ∃ p ∈ kw, AngN.ofName p.1 = none
    · rw [if_pos h1] at h; cases h
    rw [if_neg h1] at h ⊢
    cases ho : w.objs id with
    | none => rw [getObj_bind_none ho] at h; cases h
    | some o =>
      rw [bind_ok (getObj_some ho)] at h ⊢
      by_cases h2 : (∃ p ∈ kw, p.1 = "t_ex" ∨ p.1 = "p_ex") ∧ o.mono = true
      · rw [if_pos h2] at h; cases h
      rw [if_neg h2] at h ⊢
      refine Safe.bind_of (P := fun _ => True) (fun w _ => ⟨rfl, rfl, rfl, rfl⟩) (fun _ => ?_) w trivial
      exact Safe.setAngles (fun _ _ => GeoNil.modObj) kw

/-- After any history, in which angle arrays may have been overwritten in place, a call that
sets the geometry makes all later evaluations consistent with the reported angles (as long as
no array is overwritten again). -/
theorem C02_partial {w : World} (h : ReachableAny w) {op : Op} (hop : op.Resets w) {ops : List Op}
    (hops : ∀ op ∈ ops, ∀ id n a, op ≠ .overwriteArg id n a) (id : ℕ) (kw : Dict) :
    let w' := run (step op w).2 ops
    ((w'.objs id).isSome → (Self.mu0 id w').1 = (Self.t0 id w').1.map Arr.cos ∧
      (Self.muEx id w').1 = (Self.tex id w').1.map Arr.cos) ∧
    (surface id kw w').1 = (surface id kw w'.forget).1 ∧
    (volume id kw w').1 = (volume id kw w'.forget).1 := by
  intro w'
  have hinv : Inv false w' :=
    run_induction (P := Inv false) (fun op hop => Inv.step (fun h => by cases h) (hops op hop))
      (Inv.of_cleared (InvP.step op w h.invP) (GeoNil.of_resets hop))
  refine ⟨?_, ?_⟩
  · intro hsome
    obtain ⟨o, ho⟩ := Option.isSome_iff_exists.mp hsome
    have hd : DuringE false w' id o w' := During.init hinv ho trivial
    rw [(Refines.mu0 w' hd).1, (Refines.t0 w' hd).1, (Refines.muEx w' hd).1, (Refines.tex w' hd).1]
    unfold Fresh.mu0 Fresh.muEx
    constructor
    · cases Fresh.ang o .t0 <;> rfl
    · cases Fresh.tex o <;> rfl
  · cases ho : w'.objs id with
    | none =>
      have ho' : w'.forget.objs id = none := ho
      rw [surface_none ho, surface_none ho', volume_none ho, volume_none ho']
      exact ⟨rfl, rfl⟩
    | some o =>
      have ho' : w'.forget.objs id = some o := ho
      rw [(surface_eq hinv ho kw).1, (surface_eq hinv.forget ho' kw).1, (volume_eq hinv ho kw).1,
        (volume_eq hinv.forget ho' kw).1]
      exact ⟨rfl, rfl⟩

/-- After a successful `surface` call, overwriting the angle array changes the angle the
object reports but not the cosine its evaluations use. -/
theorem C02_stale {w : World} {id : ℕ} {kw : Dict} {z : Arr} {w1 : World}
    (h : surface id kw w = (.ok z, w1)) {o : Obj} (ho : w1.objs id = some o)
    {a : Arr} (ha : o.ang .t0 = some a) (a' : Arr) :
    let w2 := (step (.overwriteArg id .t0 a') w1).2
    (Self.t0 id w2).1 = .ok a' ∧ (Self.mu0 id w2).1 = (Self.mu0 id w1).1 := by
  intro w2
  have ho2 : w2.objs id = some { o with ang := Function.update o.ang .t0 (some a') } := by
    have := modObj_get ho fun o => { o with ang := Function.update o.ang .t0 ((o.ang .t0).map fun _ => a') }
    rw [ha] at this
    exact this
  constructor
  · unfold Self.t0
    rw [getObj_run ho2]
    simp only [Function.update_self]
    rfl
  · have hs := (surface_stores id kw w z (by rw [h])).1
    rw [h] at hs
    obtain ⟨m, hm⟩ := Option.isSome_iff_exists.mp hs
    have hm2 : LRU.find w2.caches.mu0 id = some m := hm
    unfold Self.mu0 memo
    rw [hm2, show LRU.find w1.caches.mu0 id = some m from hm]

/-- The counterexample: sensor at 60 degrees, `surface()`, then the caller overwrites the
array by nadir: `R.t_0` reports nadir, `surface()` still returns the value for 60 degrees,
while a state without stored cosines returns the value for nadir. -/
def staleOps : List Op :=
  demoOps exV exS false false false (Arr.lit 1) (Arr.lit (Real.pi / 3)) (Arr.lit 0) (demoKw 1 0 1 1) ++
    [.surface 0 [], .overwriteArg 0 .t0 (arr1 0)]

theorem demo_surface_at (q : Bool) {t : ℝ} (ht : Real.cos t ≠ 0) :
    ∃ z, Fresh.surface .sympy (demoObj exV exS q false false (Arr.lit 1) (Arr.lit t) (Arr.lit 0)
      (demoKw 1 0 1 1)) = .ok z ∧ z.get [0] = XR.fin (Real.cos t / Real.pi) := by
  set O := demoObj exV exS q false false (Arr.lit 1) (Arr.lit t) (Arr.lit 0) (demoKw 1 0 1 1) with hO
  have hc := demo_complete exV_plain exS_plain q false false 1 t 0 1 0 1 1
  have ho := demo_objs .sympy exV exS q false false (Arr.lit 1) (Arr.lit t) (Arr.lit 0) (demoKw 1 0 1 1)
  have hr := demo_reachable .sympy exV exS q false false (Arr.lit 1) (Arr.lit t) (Arr.lit 0) (demoKw 1 0 1 1)
  have hb := demo_backend .sympy exV exS q false false (Arr.lit 1) (Arr.lit t) (Arr.lit 0) (demoKw 1 0 1 1)
  obtain ⟨x, hx, hfx⟩ := hc.s_surface .sympy (Fresh.dVol .sympy O) (Fresh.dSrf .sympy O)
  obtain ⟨z, hz, hfz⟩ := hc.s_convert .sympy (Fresh.dVol .sympy O) (Fresh.dSrf .sympy O) hfx
  have hF : Fresh.surface .sympy (demoObj exV exS q false false (Arr.lit 1) (Arr.lit t) (Arr.lit 0)
      (demoKw 1 0 1 1)) = .ok z := by
    unfold Fresh.surface Fresh.acc0
    rw [hx]
    exact hz
  obtain ⟨m, hm, hms⟩ := demo_mu0 exV exS q false false (Arr.lit 1) t (Arr.lit 0) (demoKw 1 0 1 1)
  have hfm := Below.surface_mu0 hm x hx
  have hzs := convert_shape hz hm hfm (by simp [demoObj, Arr.lit, Arr.num])
  refine ⟨z, hF, ?_⟩
  have hobs : Observes RT1.surface (demoCfg exV exS q false false) (demoSite 1 t 0 1 0 1 1) (z.get [0]) := by
    refine Observes.of_surface hr ho [] ?_ ?_ ?_
    · rw [hb, demo_update]; exact hF
    · rw [hzs]; exact shape_one hms hfm hfx
    · rw [hb, demo_update]; exact demo_fsite .sympy exV_plain exS_plain q false false 1 t 0 1 0 1 1
  rw [C18_surface_linear (Or.inl hobs) (exS_value _) ht ht rfl rfl]
  congr 1
  show (1 : ℝ) * ((1 - 1) * _ + 1) * 1 * Real.cos t * (1 / Real.pi) = _
  ring

theorem call_const {vars : List String} {body : Expr} {pos pos' : List Arr} (kw : Dict)
    (hl : pos.length = pos'.length) (hfree : body.free = [])
    (hc : ∀ e e', body.evalX e = body.evalX e') :
    Lam.call .sympy ⟨vars, body⟩ pos kw = Lam.call .sympy ⟨vars, body⟩ pos' kw := by
  unfold Lam.call Lam.bindArgs
  dsimp only
  rw [hl]
  by_cases h1 : vars.length < pos'.length
  · rw [if_pos h1, if_pos h1]
  rw [if_neg h1, if_neg h1]
  by_cases h : ∃ p ∈ kw, p.1 ∉ List.drop pos'.length vars
  · rw [if_pos h, if_pos h]
  rw [if_neg h, if_neg h]
  cases List.mapM (fun k => kw.get? k) (List.drop pos'.length vars) with
  | none => rfl
  | some vals =>
    show Lam.evalBound .sympy body _ = Lam.evalBound .sympy body _
    unfold Lam.evalBound
    simp only [hfree, List.not_mem_nil, false_implies, implies_true, if_true, decide_false,
      List.filter_false, List.map_nil]
    cases Arr.bshapes [] with
    | none => rfl
    | some sh =>
      show (Except.ok (Arr.mk _ _) : Py Arr) = .ok (Arr.mk _ _)
      congr 2
      funext idx
      exact hc _ _

/-- The isotropic surface function does not depend on the angles. -/
theorem exS_calc (a a' c d : Arr) (pd : Dict) :
    exS.calcVal .sympy a a c d pd = exS.calcVal .sympy a' a' c d pd := by
  unfold Scatter.calcVal
  show Lam.call .sympy ⟨_, exS.phase⟩ _ _ = Lam.call .sympy ⟨_, exS.phase⟩ _ _
  refine call_const pd rfl ?_ fun _ _ => rfl
  simp [exS, Scatter.phase, Scatter.primPhase, Expr.free]

/-- The full claim C02 is false. -/
theorem C02_counterexample :
    let w := run (initWorld .sympy) staleOps
    ReachableAny w ∧ (Self.t0 0 w).1 = .ok (arr1 0) ∧
    (∃ z, (surface 0 [] w).1 = .ok z ∧ z.get [0] = XR.fin (1 / 2 / Real.pi)) ∧
    ∃ z, (surface 0 [] w.forget).1 = .ok z ∧ z.get [0] = XR.fin (1 / Real.pi) := by
  intro w
  set w0 := demoW .sympy exV exS false false false (Arr.lit 1) (Arr.lit (Real.pi / 3)) (Arr.lit 0)
    (demoKw 1 0 1 1) with hw0
  set o := demoObj exV exS false false false (Arr.lit 1) (Arr.lit (Real.pi / 3)) (Arr.lit 0)
    (demoKw 1 0 1 1) with hoo
  set o' := demoObj exV exS false false false (Arr.lit 1) (Arr.lit 0) (Arr.lit 0)
    (demoKw 1 0 1 1) with hoo'
  have hr := demo_reachable .sympy exV exS false false false (Arr.lit 1) (Arr.lit (Real.pi / 3))
    (Arr.lit 0) (demoKw 1 0 1 1)
  have ho : w0.objs 0 = some o := demo_objs ..
  have hb : w0.backend = .sympy := demo_backend ..
  have hu : Fresh.update o [] = o := demo_update ..
  have hu' : Fresh.update o' [] = o' := demo_update ..
  obtain ⟨z, hz, hv⟩ := demo_surface_at (t := Real.pi / 3) false (by rw [Real.cos_pi_div_three]; norm_num)
  obtain ⟨z', hz', hv'⟩ := demo_surface_at (t := 0) false (by rw [Real.cos_zero]; norm_num)
  rw [← hoo] at hz
  rw [← hoo'] at hz'
  -- the first call
  have hS := surface_eq hr.inv ho []
  rw [hu, hb, hz] at hS
  obtain ⟨hS1, hS2⟩ := hS
  set w1 := (surface 0 [] w0).2 with hw1
  have hcall : surface 0 [] w0 = (.ok z, w1) := by rw [← hS1]
  obtain ⟨o1, ho1, hf1⟩ := hS2.obj
  have hst := surface_stores 0 [] w0 z hS1
  obtain ⟨m0, hm0⟩ := Option.isSome_iff_exists.mp hst.1
  obtain ⟨mE, hmE⟩ := Option.isSome_iff_exists.mp hst.2
  have hcore : o1 = { o with fn_ := o1.fn_, fnevals_ := o1.fnevals_ } := by
    have := hf1.core
    cases o1
    simpa [Obj.core] using this
  generalize o1.fn_ = f at hcore
  generalize o1.fnevals_ = g at hcore
  subst hcore
  have hi1 := hS2.inv
  have hm0' : Fresh.mu0 o = .ok m0 := by
    obtain ⟨o2, ho2, h2⟩ := hi1.mu0 _ _ hm0
    rw [ho1] at ho2
    cases ho2
    exact h2
  have hmE' : Fresh.muEx o = .ok mE := by
    obtain ⟨o2, ho2, h2⟩ := hi1.muEx _ _ hmE
    rw [ho1] at ho2
    cases ho2
    exact h2
  -- the overwritten array
  set o2 : Obj := { o' with fn_ := f, fnevals_ := g } with ho2
  have hw : w = { w1 with objs := Function.update w1.objs 0 (some o2) } := by
    have e1 : w = (step (.overwriteArg 0 .t0 (arr1 0)) (step (.surface 0 []) w0).2).2 := by
      show run _ _ = _
      unfold staleOps
      unfold run
      rw [List.foldl_append]
      rfl
    have e2 : (step (.surface 0 []) w0).2 = w1 := bind_pure_state _ _
    rw [e1, e2]
    show ({ w1 with objs := Function.update w1.objs 0 ((w1.objs 0).map _) } : World) = _
    rw [ho1]
    have hang : Function.update o.ang .t0 ((o.ang .t0).map fun _ => arr1 0) = o'.ang := by
      funext n
      cases n <;> rfl
    congr 2
    show some { o with fn_ := f, fnevals_ := g, ang := Function.update o.ang .t0 ((o.ang .t0).map fun _ => arr1 0) } = _
    rw [hang]
    rfl
  have hwo : w.objs 0 = some o2 := by rw [hw]; exact Function.update_self (0 : ℕ) _ w1.objs
  have hu2 : Fresh.update o2 [] = o2 := by
    show { Fresh.update o' [] with fn_ := f, fnevals_ := g } = _
    rw [hu']
  have hwb : w.backend = .sympy := by
    rw [hw]
    show w1.backend = _
    rw [hS2.backend]
    exact hb
  have hra : ReachableAny w := ⟨.sympy, staleOps, rfl⟩
  have hsame : w.updated 0 o2 [] = w := by
    unfold World.updated
    rw [hu2]
    have : Function.update w.objs 0 (some o2) = w.objs := by rw [← hwo]; exact Function.update_eq_self ..
    rw [this]
  refine ⟨hra, ?_, ⟨z, ?_, ?_⟩, z', ?_, ?_⟩
  · unfold Self.t0
    rw [bind_ok (getObj_some hwo)]
    rfl
  · obtain ⟨c, hfr⟩ := Frozen.exists hra.invP hwo
    rw [hwb] at hfr
    have hc0 : c.a0 = .ok m0 := hfr.mu0.1 m0 (by rw [hw]; exact hm0)
    have hcE : c.aE = .ok mE := hfr.muEx.1 mE (by rw [hw]; exact hmE)
    unfold RT1.surface
    rw [bind_ok (updateParams_eq hwo [])]
    show ((do let x ← (Self.acc w.backend 0).surface; (Self.acc w.backend 0).convert x) (w.updated 0 o2 [])).1 = _
    rw [hsame, hwb]
    have hA := Frozen.acc (b := .sympy) (id := 0) (o := o2) (c := c)
    have := (Refines.bind hA.surface fun x _ => hA.convert x) w hfr
    rw [this.1, ← hz]
    have e1 : (Fresh.accWith .sympy o2 c).srfCalc = (Fresh.acc0 .sympy o).srfCalc := by
      show (Fresh.pex o >>= fun d => exS.calcVal .sympy (arr1 0) (arr1 0) (arr1 0) d o.params) =
        (Fresh.pex o >>= fun d => exS.calcVal .sympy (arr1 (Real.pi / 3)) (arr1 (Real.pi / 3)) (arr1 0) d o.params)
      congr 1
    have e2 : (Fresh.accWith .sympy o2 c).mu0 = (Fresh.acc0 .sympy o).mu0 := hc0.trans hm0'.symm
    have e3 : (Fresh.accWith .sympy o2 c).muEx = (Fresh.acc0 .sympy o).muEx := hcE.trans hmE'.symm
    unfold Fresh.surface Acc.surface Acc.atten
    rw [e1, e2, e3]
    rfl
  · rw [hv, Real.cos_pi_div_three]
  · have hi : Inv false w.forget :=
      Inv.of_cleared ⟨hra.invP.next, TabOK.nil _, TabOK.nil _⟩ ⟨rfl, rfl, rfl, rfl⟩
    rw [(surface_eq hi (show w.forget.objs 0 = some o2 from hwo) []).1, hu2,
      show w.forget.backend = .sympy from hwb, ← hz']
    rfl
  · rw [hv', Real.cos_zero]

/-- After the history of the counterexample a `set_monostatic` call repairs the object. -/
example : (surface 0 [] (run (run (initWorld .sympy) staleOps) [.setMonostatic 0 none, .setDB 0 true])).1 =
    (surface 0 [] (run (run (initWorld .sympy) staleOps) [.setMonostatic 0 none, .setDB 0 true]).forget).1 :=
  (C02_partial (op := .setMonostatic 0 none) (ops := [.setDB 0 true]) ⟨.sympy, staleOps, rfl⟩ trivial
    (by simp) 0 []).2.1

/-- `C02_stale` applies to the history of the counterexample. -/
example {z : Arr} {w1 : World} {o : Obj}
    (h : surface 0 [] (demoW .sympy exV exS false false false (Arr.lit 1) (Arr.lit (Real.pi / 3))
      (Arr.lit 0) (demoKw 1 0 1 1)) = (.ok z, w1)) (ho : w1.objs 0 = some o)
    {a : Arr} (ha : o.ang .t0 = some a) :
    (Self.t0 0 (step (.overwriteArg 0 .t0 (arr1 0)) w1).2).1 = .ok (arr1 0) :=
  (C02_stale h ho ha (arr1 0)).1

end

end RT1
