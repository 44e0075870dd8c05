import Verif.Props.Order
import Verif.Props.RetrievalInt
import Verif.Props.Scatter

/-!
# The order of settings: coefficients supplied by the user (C84)
-/

namespace RT1

noncomputable section
open Classical

/-- Records with the same values of tau, omega, NormBRDF, bsf that pass the same values to the same compiled coefficients. -/
theorem interaction_positions {b : Backend} {r r' : Record} {n n' : Option (List String)}
    (hr : ({ r with fnevalsInput := r'.fnevalsInput, params := r'.params } : Record) = r')
    (hpar : ∀ p, r.param b p = r'.param b p) (hv : r.params.map Prod.snd = r'.params.map Prod.snd)
    (hc : Remembered.coefs b ⟨r, n⟩ = Remembered.coefs b ⟨r', n'⟩) :
    Remembered.interaction b ⟨r, n⟩ = Remembered.interaction b ⟨r', n'⟩ := by
  generalize hd : r'.params = d at *
  generalize hf : r'.fnevalsInput = f at *
  subst hr
  set A := Remembered.acc b ⟨r, n⟩ with hA
  set A' := Remembered.acc b ⟨{ r with fnevalsInput := f, params := d }, n'⟩ with hA'
  have hp : A.par = A'.par := funext fun p => hpar p
  have ho : ∀ a, fnOuts A a = fnOuts A' a := by
    intro a
    show (do
      let args ← Arr.broadcastArrays (a ++ r.params.map Prod.snd)
      let f ← Remembered.coefs b ⟨r, n⟩
      match f with
      | none => .error (.typeError [])
      | some f => (liftPy (f.call b args) : Py (List Arr))) = (do
      let args ← Arr.broadcastArrays (a ++ d.map Prod.snd)
      let f ← Remembered.coefs b ⟨{ r with fnevalsInput := f, params := d }, n'⟩
      match f with
      | none => .error (.typeError [])
      | some f => (liftPy (f.call b args) : Py (List Arr)))
    rw [hv, hc]
  have hx : A.mu0x = A'.mu0x ∧ A.muExx = A'.muExx ∧ A.nmax = A'.nmax ∧ A.mu0 = A'.mu0 ∧ A.muEx = A'.muEx ∧ A.I0 = A'.I0 ∧
      A.t0 = A'.t0 ∧ A.p0 = A'.p0 ∧ A.tex = A'.tex ∧ A.pex = A'.pex ∧ A.sig0 = A'.sig0 ∧ A.dB = A'.dB :=
    ⟨rfl, rfl, rfl, rfl, rfl, rfl, rfl, rfl, rfl, rfl, rfl, rfl⟩
  obtain ⟨x1, x2, x3, x4, x5, x6, x7, x8, x9, x10, x11, x12⟩ := hx
  have f1 : A.fint1 = A'.fint1 := by
    unfold Acc.fint1
    rw [fint_outs, fint_outs, x7, x8, x9, x10, x4, x1, x3, hp]
    simp only [ho]
  have f2 : A.fint2 = A'.fint2 := by
    unfold Acc.fint2
    rw [fint_outs, fint_outs, x7, x8, x9, x10, x5, x2, x3, hp]
    simp only [ho]
  have hI : A.interaction = A'.interaction := by
    unfold Acc.interaction
    rw [f1, f2, x6, x4, x5, hp]
  have hC : ∀ x, A.convert x = A'.convert x := by
    intro x
    unfold Acc.convert
    rw [x11, x12, x4, x6]
  unfold Remembered.interaction
  rw [← hA, ← hA', hI]
  simp only [hC]

/-- The values of the parameters only depend on the values of the names in their definition. -/
theorem param_names {b : Backend} {r r' : Record} (hp : r.pdef = r'.pdef) {p : PName}
    (h : ∀ k ∈ Fresh.symbs r.fresh p, r.params.get? k = r'.params.get? k ∧ (k ∈ r.params.keys ↔ k ∈ r'.params.keys)) :
    r.param b p = r'.param b p := by
  have hsy : Fresh.symbs r.fresh p = Fresh.symbs r'.fresh p := by
    unfold Fresh.symbs
    rw [show r.fresh.pdef = r.pdef from rfl, show r'.fresh.pdef = r'.pdef from rfl, hp]
  have hpf : Fresh.pfun b r.fresh p = Fresh.pfun b r'.fresh p := by
    unfold Fresh.pfun
    rw [show r.fresh.pdef = r.pdef from rfl, show r'.fresh.pdef = r'.pdef from rfl, hp, hsy]
  have hm : ((Fresh.symbs r.fresh p).filter fun k => decide (k ∉ r.params.keys)) =
      (Fresh.symbs r.fresh p).filter fun k => decide (k ∉ r'.params.keys) := by
    refine List.filter_congr fun k hk => ?_
    rw [decide_eq_decide, (h k hk).2]
  have hpk : Self.pick r.params (Fresh.symbs r.fresh p) = Self.pick r'.params (Fresh.symbs r.fresh p) := by
    unfold Self.pick
    have : ∀ l : List String, (∀ k ∈ l, r.params.get? k = r'.params.get? k) →
        l.mapM (fun k => (r.params.get? k).map fun v => (k, v)) = l.mapM (fun k => (r'.params.get? k).map fun v => (k, v)) := by
      intro l
      induction l with
      | nil => intro _; rfl
      | cons k l ih =>
        intro hl
        rw [List.mapM_cons, List.mapM_cons, hl k (by simp), ih fun x hx => hl x (by simp [hx])]
    rw [this _ fun k hk => (h k hk).1]
  show Fresh.par b r.fresh p = Fresh.par b r'.fresh p
  unfold Fresh.par
  rw [hpf, show r.fresh.params = r.params from rfl, show r'.fresh.params = r'.params from rfl, ← hsy, hpk, hm,
    show r.fresh.pdef = r.pdef from rfl, show r'.fresh.pdef = r'.pdef from rfl, hp]

/-! ### the program -/

/-- An isotropic volume whose weight is the parameter u. -/
def uV : Scatter := .lin [.sym "u"] [isoV] volA

theorem isoV_part : isoV.IsPart 1 := ⟨⟨_, _, _, rfl⟩, one_pos, isoV_ncoefs⟩

theorem uV_simple : uV.Simple := Or.inr ⟨_, _, _, rfl, by simp, fun o ho => by
  rw [List.mem_singleton.1 ho]; exact ⟨1, isoV_part⟩⟩

theorem isoS_simple : isoS.Simple := Or.inl ⟨1, ⟨_, _, _, rfl⟩, one_pos, isoS_ncoefs⟩

theorem uV_val (ρ : String → ℝ) (t0 tex p0 pex : ℝ) : uV.expVal ρ t0 tex p0 pex = ρ "u" * (1 / (4 * Real.pi)) := by
  obtain ⟨vs, h1, h2⟩ := C47_expansion_partial (ws := [.sym "u"]) (os := [isoV]) (a := volA) rfl
    (fun o ho => by rw [List.mem_singleton.1 ho]; exact ⟨1, isoV_part⟩) ρ (by
      intro k a nc k' nc' n n' h h' hn hn' j hj hj'
      rw [List.mem_singleton] at h h'
      rw [h] at hn; rw [h'] at hn'
      rw [isoV_ncoefs] at hn hn'
      cases hn; cases hn'; omega) t0 tex p0 pex
  refine Scatter.expVal_of_ok (h2.trans ?_)
  cases h1 with
  | cons h h' =>
    cases h'
    have := Scatter.expVal_of_ok h
    rw [isoV_val] at this
    rw [← this]
    simp [Expr.evalR]

/-- The site with given values of u and v. -/
def uSite (u v : ℝ) : Site := { witSite 1 1 0 Real.pi with
  ρ := fun s => if s = "u" then u else if s = "v" then v else (witSite 1 1 0 Real.pi).ρ s }

def uKw (u v : ℝ) : Dict := scalarKw (uSite u v) [("u", u), ("v", v)]

/-- The constructor, angles, parameters, the interaction term. -/
def uOps (fe : Option FnLam) (kw : Dict) : List Op :=
  .new uV isoS true false false none fe (Arr.lit 1) :: scalarOps (uSite 0 0) true (fun _ => false) kw ++ [.interaction 0 []]

/-- The record before the parameters are set. -/
def uBase (fe : Option FnLam) : Record :=
  (((Record.default uV isoS true false false none fe (Arr.lit 1)).selectMono none).2.setAngles
    [("t_0", some (Arr.lit 1)), ("p_0", some (Arr.lit 0))]).2

/-- The record that is evaluated. -/
def uRecord (fe : Option FnLam) (kw : Dict) : Record := ((uBase fe).update kw).update []

theorem uOps_trace (b : Backend) (fe : Option FnLam) (kw : Dict) : Remembered.trace b [] (uOps fe kw) =
    [.ok (.obj 0), .ok .done, .ok .done, .ok .done, (Remembered.interaction b ⟨uRecord fe kw, none⟩).map .arr] := by
  rfl

def uParams (l : List (String × ℝ)) : Dict :=
  [("bsf", arr1 0), ("tau", arr1 1), ("omega", arr1 (1/2)), ("NormBRDF", arr1 1)] ++ l.map fun q => (q.1, arr1 q.2)

theorem uRecord_eq (fe : Option FnLam) (u v : ℝ) :
    uRecord fe (scalarKw (uSite u v) [("u", u), ("v", v)]) = { uBase fe with params := uParams [("u", u), ("v", v)] } ∧
    uRecord fe (scalarKw (uSite u v) [("v", v), ("u", u)]) = { uBase fe with params := uParams [("v", v), ("u", u)] } := by
  have h0 : (uBase fe).params = [("bsf", Arr.lit 0)] := rfl
  have hb : "bsf" ∈ (uBase fe).params.keys := by rw [h0]; simp [Dict.keys]
  have key : ∀ kw, uRecord fe kw = { uBase fe with params := Dict.update [("bsf", Arr.lit 0)] (kw.map fun p => (p.1, p.2.atleast1d)) } := by
    intro kw
    unfold uRecord
    rw [Record.update_bsf ((Record.update_prefix _ _).subset hb), Record.update_bsf hb, h0]
    rfl
  constructor <;> rw [key] <;> congr 1 <;>
    simp [scalarKw, uSite, witSite, Dict.update, Dict.set, uParams, arr1]

theorem uOps_sound (fe : Option FnLam) (kw : Dict) : (∀ x ∈ uOps fe kw, x.Plain) ∧ (∀ x ∈ uOps fe kw, x.OwnJac) ∧ Sound 0 (uOps fe kw) := by
  refine ⟨?_, ?_, ?_⟩
  · intro x hx
    simp only [uOps, scalarOps, if_true, List.cons_append, List.nil_append, List.mem_cons, List.not_mem_nil, or_false] at hx
    rcases hx with rfl | rfl | rfl | rfl | rfl <;> trivial
  · intro x hx
    simp only [uOps, scalarOps, if_true, List.cons_append, List.nil_append, List.mem_cons, List.not_mem_nil, or_false] at hx
    rcases hx with rfl | rfl | rfl | rfl | rfl <;> trivial
  · simp [Sound, uOps, scalarOps, Op.on]

theorem uSite_reports (u v : ℝ) : (uSite u v).Reports [("u", u), ("v", v)] := by
  refine ⟨?_, ?_, ?_, ?_, ?_⟩ <;> simp [uSite, witSite]

theorem trace_snoc (l : List Op) (op : Op) : ∀ w : World, trace w (l ++ [op]) = trace w l ++ [(answer op (run w l)).1] := by
  induction l with
  | nil => intro w; rfl
  | cons x l ih =>
    intro w
    show (answer x w).1 :: trace (answer x w).2 (l ++ [op]) = (answer x w).1 :: (trace (answer x w).2 l ++ [(answer op (run w (x :: l))).1])
    rw [ih, run_cons, answer_state]

theorem last_answer {b : Backend} {l : List Op} {op : Op} (h1 : ∀ x ∈ l ++ [op], x.Plain) (h2 : ∀ x ∈ l ++ [op], x.OwnJac)
    (h3 : Sound 0 (l ++ [op])) {A : List (Py Answer)} {y : Py Answer} (h : Remembered.trace b [] (l ++ [op]) = A ++ [y]) :
    (answer op (run (initWorld b) l)).1 = y := by
  rw [← C82_trace_interaction h1 h2 h3, trace_snoc] at h
  have := congrArg List.getLast? h
  rw [List.getLast?_concat, List.getLast?_concat] at this
  exact Option.some.inj this

theorem hemi_const {μ τ : ℝ} (hμ : 0 < μ) (hτ : 0 ≤ τ) (c : ℝ) : hemi μ τ (fun _ _ => c) = 2 * Real.pi * c * polar μ τ 0 := by
  rw [hemi_eq (L := 1) (c := fun _ => 2 * Real.pi * c) hμ hτ]
  · rw [Finset.sum_range_one]
  · intro θ
    simp

/-- The value of the interaction term without supplied coefficients. -/
theorem u_value (b : Backend) (u v : ℝ) : ∃ arr k, Remembered.interaction b ⟨uRecord none (uKw u v), none⟩ = .ok arr ∧
    arr.get [0] = XR.fin (u * k) ∧ 0 < k := by
  obtain ⟨arr, w', h, -, ho⟩ := scalar_interaction_call b (V := uV) (SRF := isoS) false false (x := uSite u v) (mono := true)
    (l := [("u", u), ("v", v)]) (fun _ => ⟨rfl, by simp [uSite, witSite]⟩) (uSite_reports u v)
    (by
      intro n hn
      have : n ∈ ["u"] := hn
      rw [List.mem_singleton.1 this]
      simp) (fun n hn => List.mem_append_left _ (isoS_plain n hn))
    (Scatter.Simple.fnCoefs uV_simple isoS_simple) uV_simple.ncoefs ⟨0, isoS_ncoefs⟩
  have hx : (uSite u v).Oblique := by
    have hπ := Real.pi_gt_three
    obtain ⟨h1, h2, h3, h4, h5⟩ := witSite_oblique (t0 := 1) (tex := 1) (p0 := 0) (pex := Real.pi) one_pos (by linarith) one_pos (by linarith)
    exact ⟨h1, h2, h3, h4, h5⟩
  obtain ⟨nV, hV⟩ := uV_simple.ncoefs
  obtain ⟨g, hg, e⟩ := ho.geom hV isoS_ncoefs hx (by simp)
  have hpos := hx.mu0
  have hpos' := hx.muEx
  have hτ := hx.tau
  refine ⟨arr, (uSite u v).NormBRDF * (1 - (uSite u v).bsf) * ((uSite u v).I0 * (uSite u v).mu0 * (uSite u v).omega
    * (Real.exp (-(uSite u v).tau / (uSite u v).muEx) * (2 * Real.pi * (1 / (4 * Real.pi) * (1 / Real.pi)) * polar (uSite u v).mu0 (uSite u v).tau 0)
      + Real.exp (-(uSite u v).tau / (uSite u v).mu0) * (2 * Real.pi * (1 / (4 * Real.pi) * (1 / Real.pi)) * polar (uSite u v).muEx (uSite u v).tau 0))),
    ?_, ?_, ?_⟩
  · obtain ⟨s1, s2, s3⟩ := uOps_sound none (uKw u v)
    have ha : (answer (.interaction 0 []) (scalarW b uV isoS true false false (uSite u v) true (fun _ => false)
        (scalarKw (uSite u v) [("u", u), ("v", v)]))).1 = Except.ok (Answer.arr arr) := by
      generalize scalarW b uV isoS true false false (uSite u v) true (fun _ => false)
        (scalarKw (uSite u v) [("u", u), ("v", v)]) = w at h ⊢
      exact map_answer (interaction 0 []) Answer.arr _ (congrArg Prod.fst h)
    have ht := last_answer (b := b) (l := .new uV isoS true false false none none (Arr.lit (uSite u v).I0) ::
      scalarOps (uSite u v) true (fun _ => false) (scalarKw (uSite u v) [("u", u), ("v", v)])) s1 s2 s3
      (A := [.ok (.obj 0), .ok .done, .ok .done, .ok .done]) (uOps_trace b none (uKw u v))
    have ht2 : (answer (.interaction 0 []) (scalarW b uV isoS true false false (uSite u v) true (fun _ => false)
        (scalarKw (uSite u v) [("u", u), ("v", v)]))).1 = _ := ht
    rw [ha] at ht2
    revert ht2
    generalize Remembered.interaction b ⟨uRecord none (uKw u v), none⟩ = z
    intro ht2
    cases z with
    | error e => cases ht2
    | ok z => cases ht2; rfl
  · rw [e]
    refine congrArg XR.fin (?_ : geomInteraction uV isoS g (uSite u v) = _)
    unfold geomInteraction geomFint
    simp only [uV_val, isoS_val]
    have e1 : (uSite u v).env "u" = u := by simp [Site.env, uSite]
    have e2 : (uSite u v).swap.env "u" = u := by simp [Site.env, uSite, Site.swap]
    rw [e1, e2, hemi_const hpos hτ.le, hemi_const hpos' hτ.le]
    ring
  · have h1 := polar_pos hpos hτ 0
    have h2 := polar_pos hpos' hτ 0
    have := Real.pi_pos
    have n1 : (uSite u v).NormBRDF = 1 := rfl
    have n2 : (uSite u v).bsf = 0 := rfl
    have n3 : (uSite u v).I0 = 1 := rfl
    have n4 : (uSite u v).omega = 1 / 2 := rfl
    rw [n1, n2, n3, n4]
    have e1 := Real.exp_pos (-(uSite u v).tau / (uSite u v).muEx)
    have e2 := Real.exp_pos (-(uSite u v).tau / (uSite u v).mu0)
    have : (0 : ℝ) < 1 - 0 := by norm_num
    positivity

/-- The coefficients compiled by an object with the names bsf, tau, omega, NormBRDF, u, v. -/
def uLam (fs : List P) : FnLam :=
  ⟨["theta_0", "phi_0", "theta_ex", "phi_ex"] ++ ["bsf", "tau", "omega", "NormBRDF", "u", "v"], uV.phase.free ++ isoS.phase.free, fs⟩

/-- The same keywords with u and v exchanged. -/
def uKw' (u v : ℝ) : Dict := scalarKw (uSite u v) [("v", v), ("u", u)]

theorem u_coefs (b : Backend) {fs : List P} (h : fnCoefs uV isoS (uBase none).geom = .ok fs) (u v : ℝ) :
    Remembered.coefs b ⟨{ uBase none with params := uParams [("u", u), ("v", v)] }, none⟩ = .ok (some (uLam fs)) := by
  rw [coefs_none rfl, if_pos (show (uBase none).intQ = true from rfl)]
  have hs : Remembered.symbolic { uBase none with params := uParams [("u", u), ("v", v)] } = .ok fs := h
  rw [hs, okb, if_neg]
  · rfl
  · rintro ⟨-, n, hn, hn'⟩
    have : n ∈ ["u"] := hn
    rw [List.mem_singleton.1 this] at hn'
    exact hn' (by show "u" ∈ ["theta_0", "phi_0", "theta_ex", "phi_ex", "bsf", "tau", "omega", "NormBRDF", "u", "v"]; simp)

theorem u_coefs' (b : Backend) (fs : List P) (d : Dict) :
    Remembered.coefs b ⟨{ uBase (some (uLam fs)) with params := d }, none⟩ = .ok (some (uLam fs)) := by
  have key : ∀ (r : Record) (l : FnLam), r.fnevalsInput = some l → Remembered.coefs b ⟨r, none⟩ = .ok (some l) := by
    intro r l h
    unfold Remembered.coefs
    simp only [h]
  exact key _ _ rfl

theorem u_base (fs : List P) (d : Dict) :
    ({ uBase none with fnevalsInput := some (uLam fs), params := d } : Record) = { uBase (some (uLam fs)) with params := d } := rfl

theorem u_swap {b : Backend} {fs : List P} (h : fnCoefs uV isoS (uBase none).geom = .ok fs) {u v : ℝ} {d : Dict}
    (hd : ∀ k ∈ ["tau", "omega", "NormBRDF", "bsf"], (uParams [("u", u), ("v", v)]).get? k = d.get? k ∧ (k ∈ (uParams [("u", u), ("v", v)]).keys ↔ k ∈ d.keys))
    (hv : (uParams [("u", u), ("v", v)]).map Prod.snd = d.map Prod.snd) :
    Remembered.interaction b ⟨{ uBase none with params := uParams [("u", u), ("v", v)] }, none⟩ =
      Remembered.interaction b ⟨{ uBase (some (uLam fs)) with params := d }, none⟩ := by
  refine interaction_positions (u_base fs d) (fun p => param_names (r := { uBase none with params := uParams [("u", u), ("v", v)] })
    (r' := { uBase (some (uLam fs)) with params := d }) rfl ?_) hv ?_
  · intro k hk
    refine hd k ?_
    cases p <;> · have : k ∈ [_] := hk
                  rw [List.mem_singleton.1 this]; simp
  · rw [u_coefs b h, u_coefs']

/-- Compiled coefficients supplied by the user get the parameters by position, in the order in which they have been set for
the first time: with the keywords of `update_params` in another order the interaction term has another value.  The
coefficients supplied are those of the same scattering functions in the same geometry, compiled for the same
parameters. -/
theorem C84_supplied_counterexample (b : Backend) : ∃ (fs : List P) (arr arr' : Arr) (v : ℝ) (A : List (Py Answer)),
    fnCoefs uV isoS (uBase none).geom = .ok fs ∧
    List.Forall₂ Op.Alike (uOps (some (uLam fs)) (uKw 1 0)) (uOps (some (uLam fs)) (uKw' 1 0)) ∧
    trace (initWorld b) (uOps (some (uLam fs)) (uKw 1 0)) = A ++ [.ok (.arr arr)] ∧
    trace (initWorld b) (uOps (some (uLam fs)) (uKw' 1 0)) = A ++ [.ok (.arr arr')] ∧
    arr.get [0] = XR.fin v ∧ 0 < v ∧ arr'.get [0] = XR.fin 0 := by
  obtain ⟨fs, hfs⟩ := Scatter.Simple.fnCoefs uV_simple isoS_simple (uBase none).geom
  obtain ⟨arr, v, h1, h2, h3⟩ := u_value b 1 0
  obtain ⟨arr', v', h1', h2', h3'⟩ := u_value b 0 1
  refine ⟨fs, arr, arr', 1 * v, [.ok (.obj 0), .ok .done, .ok .done, .ok .done], hfs, ?_, ?_, ?_, h2, by linarith, ?_⟩
  · refine .cons (.refl _) (.cons (.refl _) (.cons (.refl _) (.cons (.updateParams 0 ?_ ?_) (.cons (.refl _) .nil))))
    · exact ((((List.Perm.swap _ _ _).cons _).cons _).cons _).cons _
    · show (["bsf", "tau", "omega", "NormBRDF", "u", "v"] : List String).Nodup
      simp
  · obtain ⟨s1, s2, s3⟩ := uOps_sound (some (uLam fs)) (uKw 1 0)
    rw [C82_trace_interaction (b := b) s1 s2 s3, uOps_trace]
    have : Remembered.interaction b ⟨uRecord (some (uLam fs)) (uKw 1 0), none⟩ = .ok arr := by
      rw [← h1]
      unfold uKw
      rw [(uRecord_eq _ 1 0).1, (uRecord_eq _ 1 0).1]
      exact (u_swap hfs (fun k _ => ⟨rfl, Iff.rfl⟩) rfl).symm
    rw [this]
    rfl
  · obtain ⟨s1, s2, s3⟩ := uOps_sound (some (uLam fs)) (uKw' 1 0)
    rw [C82_trace_interaction (b := b) s1 s2 s3, uOps_trace]
    have : Remembered.interaction b ⟨uRecord (some (uLam fs)) (uKw' 1 0), none⟩ = .ok arr' := by
      rw [← h1']
      unfold uKw uKw'
      rw [(uRecord_eq _ 1 0).2, (uRecord_eq _ 0 1).1]
      refine (u_swap hfs ?_ ?_).symm
      · intro k hk
        simp only [List.mem_cons, List.not_mem_nil, or_false] at hk
        rcases hk with rfl | rfl | rfl | rfl <;> simp [uParams, Dict.get?, Dict.keys]
      · simp [uParams]
    rw [this]
    rfl
  · rw [h2', zero_mul]

end

end RT1
