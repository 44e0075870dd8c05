import Verif.Lemmas.JacStale
import Verif.Lemmas.DemoKey
import Verif.Props.Extend
import Verif.Props.JacKeys

/-! # Properties C10 and C12 for `jacobian()`

The derivatives of the phase functions are memoised for all objects in two tables; each compiled
derivative remembers the parameter names at the time it was compiled. -/

namespace RT1

noncomputable section
open Classical

/-! ## C10: objects do not influence each other -/

/-- A successful `jacobian()` (sympy) does not depend on calls on other objects: whenever the
call succeeds both without and with calls on other objects in between, the results are the same,
for all lists of names and both formats.

Missing: a call that raises may succeed after calls on other objects
(`C10_jacobian_counterexample`); symengine (`C10_jacobian_values`). -/
theorem C10_jacobian_partial {w : World} (hw : Reachable w) (hb : w.backend = .sympy) {id : ℕ}
    {o : Obj} (ho : w.objs id = some o) {ops : List Op} (hk : ∀ op ∈ ops, op.Plain)
    (h : ∀ op ∈ ops, op.target ≠ some id) (keys : List String) (format : String)
    {r r' : List Arr ⊕ List (List XR)} (hr : (jacobian id keys format w).1 = .ok r)
    (hr' : (jacobian id keys format (run w ops)).1 = .ok r') : r = r' := by
  have ho' := run_get hw.keeps.any.next ho h
  have hb' : (run w ops).backend = .sympy := by rw [run_backend]; exact hb
  have h1 := jacobianList_fresh hw hb ho keys
  have h2 := jacobianList_fresh (hw.run hk) hb' ho' keys
  rw [jacobian_fmt hw ho] at hr
  rw [jacobian_fmt (hw.run hk) ho'] at hr'
  cases hx : (jacobianList id keys w).1 with
  | error e => rw [hx] at hr; cases hr
  | ok l =>
    cases hy : (jacobianList id keys (run w ops)).1 with
    | error e => rw [hy] at hr'; cases hr'
    | ok l' =>
      have e1 := h1 l hx
      have e2 := h2 l' hy
      rw [e1] at e2
      cases e2
      rw [hx, okb] at hr
      rw [hy, okb, hr] at hr'
      cases hr'
      rfl

/-- For both backends: the lists have the same length and the same value at every index.

(With symengine a derivative compiled for fewer names may give an array of another shape: the
call broadcasts all arguments it was compiled for.) -/
theorem C10_jacobian_values {w : World} (hw : Reachable w) {id : ℕ} {o : Obj}
    (ho : w.objs id = some o) {ops : List Op} (hk : ∀ op ∈ ops, op.Plain)
    (h : ∀ op ∈ ops, op.target ≠ some id) (keys : List String) {l l' : List Arr}
    {w1 w2 : World} (hr : jacobian id keys "list" w = (.ok (.inl l), w1))
    (hr' : jacobian id keys "list" (run w ops) = (.ok (.inl l'), w2)) :
    l.length = l'.length ∧ ∀ (i : ℕ) (z z' : Arr), l[i]? = some z → l'[i]? = some z' →
      ∀ idx x, FSite w.backend o idx x →
      (∃ f p, o.SRF.ValueAt x f ∧ o.V.ValueAt x p) → z.at' idx = z'.at' idx := by
  have ho' := run_get hw.keeps.any.next ho h
  obtain ⟨h1, -⟩ := jacobianList_spec hw ho keys
  obtain ⟨h2, -⟩ := jacobianList_spec (hw.run hk) ho' keys
  rw [jacobian_list.mp hr] at h1
  rw [jacobian_list.mp hr'] at h2
  rw [run_backend] at h2
  cases hn : (Fresh.acc0 w.backend o).jacNorm with
  | error e => rw [hn] at h1; cases h1
  | ok norm =>
    rw [hn] at h1 h2
    have h1' : JacSpec w.backend o norm keys (.ok l) := h1
    have h2' : JacSpec w.backend o norm keys (.ok l') := h2
    refine ⟨h1'.get.1.symm.trans h2'.get.1, ?_⟩
    intro i z z' hz hz' idx x hx
    rintro ⟨f, p, hF, hP⟩
    have hi : ∃ key, keys[i]? = some key := by
      have hlt : i < l.length := (List.getElem?_eq_some_iff.mp hz).1
      rw [← h1'.get.1] at hlt
      exact ⟨keys[i], List.getElem?_eq_getElem hlt⟩
    obtain ⟨key, hkey⟩ := hi
    obtain ⟨y, dv, ds, hy, hd, he⟩ := h1'.get.2 i key hkey
    obtain ⟨y', dv', ds', hy', hd', he'⟩ := h2'.get.2 i key hkey
    rw [hz] at hy; cases hy
    rw [hz'] at hy'; cases hy'
    have hnv := PW.jacNorm (hx.srf hF) (hx.vol hP) norm hn
    rw [PW.jacEntry hd (hx.srf hF) (hx.vol hP) hnv key (E := fun n => XR.fin (x.env n))
      (fun n hn => hx.x_env hn) z he,
      PW.jacEntry hd' (hx.srf hF) (hx.vol hP) hnv key (E := fun n => XR.fin (x.env n))
      (fun n hn => hx.x_env hn) z' he']

/-- A successful `jacobian([key])` (sympy) still succeeds after calls on other objects, with the
same result. Missing: lists of several names, symengine. -/
theorem C10_jacobian_one_key_partial {w : World} (hw : Reachable w) (hb : w.backend = .sympy) {id : ℕ}
    {o : Obj} (ho : w.objs id = some o) {ops : List Op} (hk : ∀ op ∈ ops, op.Plain)
    (h : ∀ op ∈ ops, op.target ≠ some id) (key format : String)
    {r : List Arr ⊕ List (List XR)} (hr : (jacobian id [key] format w).1 = .ok r) :
    (jacobian id [key] format (run w ops)).1 = .ok r := by
  have ho' := run_get hw.keeps.any.next ho h
  rw [jacobian_fmt hw ho] at hr
  rw [jacobian_fmt (hw.run hk) ho']
  cases hx : (jacobianList id [key] w).1 with
  | error e => rw [hx] at hr; cases hr
  | ok l =>
    rw [jacobian1_stable hw hb ho hk h key l hx]
    rw [hx] at hr
    exact hr

/-! ## C12: parameters may be added at any time -/

/-- After `jacobian([key])` for a parameter of the phase functions, supplying a parameter with a
new name makes the same call raise (sympy): the derivative that was compiled without the new name
is called with it. -/
theorem C12_jacobian_fails {w w1 : World} (hw : Reachable w) (hb : w.backend = .sympy) {id : ℕ}
    {o : Obj} (ho : w.objs id = some o) {key : String}
    (hbuiltin : key ∉ ["omega", "tau", "NormBRDF", "bsf"])
    (h1 : ∀ e, o.pdef .NormBRDF = .str e → key ∉ e.free)
    (h2 : ∀ e, o.pdef .bsf = .str e → key ∉ e.free) {r : List Arr}
    (h : jacobian id [key] "list" w = (.ok (.inl r), w1)) {kw : Dict}
    (hk : ∃ k ∈ kw.keys, k ∉ o.params.keys) (format : String) :
    ∃ e, (jacobian id [key] format (run w1 [.updateParams id kw])).1 = .error e := by
  have hs : ∀ p, (∀ e, o.pdef p = .str e → key ∉ e.free) → key ∉ Fresh.symbs o p := by
    intro p hp hmem
    obtain ⟨e, he, hme⟩ := Fresh.symbs_str hmem
    exact hp e he hme
  have hnb : ¬ builtin key := by
    intro hb
    apply hbuiltin
    rcases hb with h | h | h | h <;> subst h <;> simp
  obtain ⟨e, he⟩ := jacobian1_added hw hb ho hnb (hs _ h1) (hs _ h2) (jacobian_list.mp h) hk
  refine ⟨e, ?_⟩
  generalize run w1 [.updateParams id kw] = w2 at he ⊢
  unfold jacobian
  rw [bind_error (Prod.ext he rfl)]

/-! ## A history in which the derivative goes out of date -/

/-- `R.tau = "x"` and values for all parameters. -/
def staleW (V SRF : Scatter) (I t p τ ω N β v : ℝ) : World :=
  run (demoW .sympy V SRF false true false (Arr.lit I) (Arr.lit t) (Arr.lit p) (keyKw τ ω N β v))
    [.setParamDef 0 .tau (.str (.sym "x"))]

section
variable (V SRF : Scatter) (I t p τ ω N β v : ℝ)

theorem staleW_ok : Reachable (staleW V SRF I t p τ ω N β v) ∧
    (staleW V SRF I t p τ ω N β v).backend = .sympy ∧
    (staleW V SRF I t p τ ω N β v).objs 0 =
      some (keyObj V SRF false true false .tau (.sym "x") I t p τ ω N β v) ∧
    (staleW V SRF I t p τ ω N β v).caches.dVol = [] ∧
    (staleW V SRF I t p τ ω N β v).caches.dSrf = [] := by
  have hr := demo_reachable .sympy V SRF false true false (Arr.lit I) (Arr.lit t) (Arr.lit p) (keyKw τ ω N β v)
  have ho := demo_objs .sympy V SRF false true false (Arr.lit I) (Arr.lit t) (Arr.lit p) (keyKw τ ω N β v)
  have hb := demo_backend .sympy V SRF false true false (Arr.lit I) (Arr.lit t) (Arr.lit p) (keyKw τ ω N β v)
  refine ⟨hr.step (op := .setParamDef 0 .tau (.str (.sym "x"))) trivial, ?_, ?_, rfl, rfl⟩
  · unfold staleW
    rw [run_backend, hb]
  · unfold staleW
    generalize demoW .sympy V SRF false true false (Arr.lit I) (Arr.lit t) (Arr.lit p) (keyKw τ ω N β v) = w at *
    exact modObj_get (w := (clearParam w).2) ho _

variable (hV : ∀ n ∈ V.phase.free, n ∈ ["theta_0", "theta_ex", "phi_0", "phi_ex", "x"])
  (hS : ∀ n ∈ SRF.phase.free, n ∈ ["theta_0", "theta_ex", "phi_0", "phi_ex", "x"])
include hV hS

/-- `jacobian(["x"])` succeeds at first, raises after `y` was supplied, and succeeds again once
the tables are cleared. -/
theorem stale_history : ∃ r w1 r', jacobian 0 ["x"] "list" (staleW V SRF I t p τ ω N β v) =
      (.ok (.inl r), w1) ∧ Reachable w1 ∧ w1.backend = .sympy ∧
    (∃ o1, w1.objs 0 = some o1) ∧
    (∃ e, (jacobian 0 ["x"] "list" (run w1 [.updateParams 0 [("y", Arr.lit 1)]])).1 = .error e) ∧
    (jacobian 0 ["x"] "list" (run w1 [.updateParams 0 [("y", Arr.lit 1)],
      .new V SRF true true false none none (Arr.lit 1), .clearCaches 1])).1 = .ok (.inl r') := by
  obtain ⟨hr, hb, ho, hv, hs⟩ := staleW_ok V SRF I t p τ ω N β v
  have hc := key_complete V SRF false true false .tau (.sym "x") I t p τ ω N β v hV hS
    (by simp [Expr.free])
  generalize staleW V SRF I t p τ ω N β v = w at *
  obtain ⟨l, w1, hl⟩ := jacobian1_cleared hr ho hc (key := "x")
    (Or.inr (by rw [key_params]; simp [Dict.keys])) (by rw [hv]; rfl) (by rw [hs]; rfl)
  have hj := jacobian_list.mpr hl
  have hw1 : Reachable w1 := by
    have := hr.step (op := .jacobian 0 ["x"] "list") trivial
    have e : (step (.jacobian 0 ["x"] "list") w).2 = w1 := by
      show ((jacobian 0 ["x"] "list" >>= fun _ => pure ()) w).2 = w1
      rw [bind_ok hj]; rfl
    rwa [e] at this
  obtain ⟨-, hD⟩ := jacobianList_spec hr ho ["x"]
  rw [hl] at hD
  obtain ⟨o1, ho1, hf⟩ := hD.1.obj
  have hf1 := C12_jacobian_fails hr hb ho (key := "x") (by simp)
    (by intro e he; have : e = .sym "NormBRDF" := by cases he; rfl
        subst this; simp [Expr.free])
    (by intro e he; have : e = .sym "bsf" := by cases he; rfl
        subst this; simp [Expr.free]) hj (kw := [("y", Arr.lit 1)])
    ⟨"y", by simp [Dict.keys], by rw [key_params]; simp [Dict.keys]⟩ "list"
  have hb1 : w1.backend = .sympy := hD.1.backend.trans hb
  have e2 : run w1 [.updateParams 0 [("y", Arr.lit 1)]] =
      { w1 with objs := Function.update w1.objs 0 (some (Fresh.update o1 [("y", Arr.lit 1)])) } := by
    show (updateParams 0 _ w1).2 = _
    rw [updateParams_eq ho1]
  have hw2 : Reachable (run w1 [.updateParams 0 [("y", Arr.lit 1)]]) :=
    hw1.step (op := .updateParams 0 _) trivial
  have ho2 : (run w1 [.updateParams 0 [("y", Arr.lit 1)]]).objs 0 =
      some (Fresh.update o1 [("y", Arr.lit 1)]) := by
    rw [e2]
    simp
  have hp2 : (Fresh.update o1 [("y", Arr.lit 1)]).params =
      [("bsf", arr1 β), ("tau", arr1 τ), ("omega", arr1 ω), ("NormBRDF", arr1 N), ("x", arr1 v),
        ("y", arr1 1)] := by
    have hp := hf.params
    rw [key_params] at hp
    have hd : o1.pdef .bsf = .str (.sym "bsf") := by rw [hf.pdef]; rfl
    simp [Fresh.update, hd, hp, Dict.keys, Dict.update, Dict.set, arr1]
  have hm := update_more (o := o1) (kw := [("y", Arr.lit 1)]) (fun _ => by
      rw [hf.params, key_params]; simp [Dict.keys]) (by
      intro k hk
      simp only [Dict.keys, List.map_cons, List.map_nil, List.mem_singleton] at hk
      subst hk
      rw [hf.params, key_params]; simp [Dict.keys]) (by simp [Dict.keys])
  have hc1 : Complete o1 [1] := hc.of_core hf.core.symm
  have hc2 : Complete (Fresh.update o1 [("y", Arr.lit 1)]) [1] := by
    rw [hm]
    refine hc1.more ?_ ?_
    · intro k hk
      simp only [Dict.keys, List.map_cons, List.map_nil, List.mem_singleton] at hk
      subst hk
      rw [hf.params, key_params]; simp [Dict.keys]
    · intro k a hka
      simp only [List.map_cons, List.map_nil, Dict.get?, List.find?_cons, List.find?_nil] at hka
      split at hka
      · cases hka
        simp [Arr.atleast1d, Arr.lit, Arr.num, Arr.Fits]
      · cases hka
  generalize hww : run w1 [.updateParams 0 [("y", Arr.lit 1)]] = w2 at *
  have hops : ∀ op ∈ [Op.new V SRF true true false none none (Arr.lit 1), Op.clearCaches 1],
      op.Plain ∧ op.target ≠ some 0 := by
    intro op hop
    fin_cases hop <;> simp [Op.Plain, Op.target]
  have hw3 := hw2.run fun op hop => (hops op hop).1
  have ho3 := run_get hw2.keeps.any.next ho2 fun op hop => (hops op hop).2
  obtain ⟨l', w3, hl'⟩ := jacobian1_cleared hw3 ho3 hc2 (key := "x")
    (Or.inr (by rw [hp2]; simp [Dict.keys])) rfl rfl
  refine ⟨l, w1, l', hj, hw1, hb1, ⟨o1, ho1⟩, by rw [hww]; exact hf1, ?_⟩
  have e3 : run w1 [.updateParams 0 [("y", Arr.lit 1)],
      .new V SRF true true false none none (Arr.lit 1), .clearCaches 1] =
      run w2 [Op.new V SRF true true false none none (Arr.lit 1), Op.clearCaches 1] := by
    rw [← hww]; rfl
  rw [e3, jacobian_list.mpr hl']

end

/-- Henyey-Greenstein functions with asymmetry `x`. -/
def hgxV : Scatter := .prim (.volHG (.sym "x")) volA (some 5)
/-- The surface function with asymmetry `x`. -/
def hgxS : Scatter := .prim (.srfHG (.sym "x")) srfA (some 5)

theorem hgxV_names : ∀ n ∈ hgxV.phase.free, n ∈ ["theta_0", "theta_ex", "phi_0", "phi_ex", "x"] := by
  simp [hgxV, Scatter.phase, Scatter.primPhase, Scatter.hgExpr, Scatter.angleExpr, volA, Expr.free]

theorem hgxS_names : ∀ n ∈ hgxS.phase.free, n ∈ ["theta_0", "theta_ex", "phi_0", "phi_ex", "x"] := by
  simp [hgxS, Scatter.phase, Scatter.primPhase, Scatter.hgExpr, Scatter.angleExpr, srfA, Expr.free]

/-- The supplied parameter is what makes `jacobian(["x"])` raise. -/
theorem C12_jacobian_counterexample : ∃ (w w1 : World) (r : List Arr), Reachable w ∧
    jacobian 0 ["x"] "list" w = (.ok (.inl r), w1) ∧
    ∃ e, (jacobian 0 ["x"] "list" (run w1 [.updateParams 0 [("y", Arr.lit 1)]])).1 = .error e := by
  obtain ⟨r, w1, r', h1, -, -, -, h2, -⟩ := stale_history hgxV hgxS 1 1 0 1 1 1 0 1
    hgxV_names hgxS_names
  exact ⟨_, w1, r, (staleW_ok ..).1, h1, h2⟩

/-- A call that raises succeeds after calls on another object. -/
theorem C10_jacobian_counterexample : ∃ (w : World) (o : Obj) (ops : List Op)
    (r : List Arr ⊕ List (List XR)), Reachable w ∧
    w.objs 0 = some o ∧ (∀ op ∈ ops, op.Plain ∧ op.target ≠ some 0) ∧
    (∃ e, (jacobian 0 ["x"] "list" w).1 = .error e) ∧
    (jacobian 0 ["x"] "list" (run w ops)).1 = .ok r := by
  obtain ⟨r, w1, r', -, hw, -, ⟨o1, ho⟩, h1, h2⟩ := stale_history hgxV hgxS 1 1 0 1 1 1 0 1
    hgxV_names hgxS_names
  refine ⟨run w1 [.updateParams 0 [("y", Arr.lit 1)]], Fresh.update o1 [("y", Arr.lit 1)],
    [.new hgxV hgxS true true false none none (Arr.lit 1), .clearCaches 1], _,
    hw.step (op := .updateParams 0 _) trivial, ?_, ?_, h1, h2⟩
  · show (updateParams 0 _ w1).2.objs 0 = _
    rw [updateParams_eq ho]
    simp
  · intro op hop
    fin_cases hop <;> simp [Op.Plain, Op.target]

/-- The entries for omega, tau, NormBRDF and bsf, and all entries with symengine, still exist after
parameters with new names were supplied whose values fit the other inputs.
Missing: other names with sympy, for which it is false (`C12_jacobian_fails`). -/
theorem C12_jacobian_partial {w : World} (hw : Reachable w) {id : ℕ} {o : Obj}
    (ho : w.objs id = some o) {S : List ℕ} (hc : Complete o S) {ext : Dict} (hn : New o ext)
    (hf : ∀ p ∈ ext, Arr.Fits p.2.atleast1d.shape S) {keys : List String}
    (hk : ∀ k ∈ keys, k ∈ ["omega", "tau", "NormBRDF", "bsf"] ∨
      w.backend = .symengine ∧ k ∈ o.params.keys) :
    ∃ r w1, jacobian id keys "list" (run w [.updateParams id ext]) = (.ok (.inl r), w1) := by
  have hm := update_more (o := o) (kw := ext) (fun _ => (ReachableAny.bsfOK hw.keeps.any ho).1)
    hn.new hn.nodup
  have hw2 : Reachable (run w [.updateParams id ext]) := hw.step (op := .updateParams id _) trivial
  have ho2 : (run w [.updateParams id ext]).objs id = some (Fresh.update o ext) := by
    show (updateParams id ext w).2.objs id = _
    rw [updateParams_eq ho]
    simp
  have hc2 : Complete (Fresh.update o ext) S := by
    rw [hm]
    refine hc.more ?_ ?_
    · intro k hk
      refine hn.new k ?_
      simpa [Dict.keys] using hk
    · intro k a hka
      obtain ⟨p, hp, e⟩ := List.mem_map.1 (Dict.mem_of_get? hka)
      cases e
      exact hf p hp
  obtain ⟨l, w1, hl⟩ := jacobianList_succ hw2 ho2 hc2 (keys := keys) (by
    intro k hkk
    rw [run_backend]
    rcases hk k hkk with h | ⟨h1, h2⟩
    · left
      simp only [List.mem_cons, List.not_mem_nil, or_false] at h
      exact h
    · right
      refine ⟨h1, ?_⟩
      show k ∈ (o.params.update _).keys
      rw [Dict.mem_keys_update]
      exact Or.inl h2)
  exact ⟨l, w1, jacobian_list.mpr hl⟩

/-- Calls on a second object. -/
def otherOps : List Op :=
  [.new hgxV hgxS true true false none none (Arr.lit 1), .updateParams 1 [("tau", Arr.lit 2)],
    .clearCaches 1]

theorem otherOps_ok : ∀ op ∈ otherOps, op.Plain ∧ op.target ≠ some 0 := by
  intro op hop
  unfold otherOps at hop
  fin_cases hop <;> simp [Op.Plain, Op.target]

/-- The hypotheses of `C10_jacobian_partial` and `C10_jacobian_one_key_partial` are met by an object
with Henyey-Greenstein functions whose asymmetry is the parameter of the derivative. -/
example : ∃ (w : World) (o : Obj) (r r' : List Arr ⊕ List (List XR)), Reachable w ∧
    w.backend = .sympy ∧ w.objs 0 = some o ∧ (∀ op ∈ otherOps, op.Plain ∧ op.target ≠ some 0) ∧
    (jacobian 0 ["x"] "list" w).1 = .ok r ∧ (jacobian 0 ["x"] "list" (run w otherOps)).1 = .ok r' := by
  obtain ⟨hr, hb, ho, hv, hs⟩ := staleW_ok hgxV hgxS 1 1 0 1 1 1 0 1
  have hc := key_complete hgxV hgxS false true false .tau (.sym "x") 1 1 0 1 1 1 0 1
    hgxV_names hgxS_names (by simp [Expr.free])
  generalize staleW hgxV hgxS 1 1 0 1 1 1 0 1 = w at *
  obtain ⟨l, w1, hl⟩ := jacobian1_cleared hr ho hc (key := "x")
    (Or.inr (by rw [key_params]; simp [Dict.keys])) (by rw [hv]; rfl) (by rw [hs]; rfl)
  have h1 : (jacobian 0 ["x"] "list" w).1 = .ok (.inl l) := by rw [jacobian_list.mpr hl]
  exact ⟨w, _, _, _, hr, hb, ho, otherOps_ok, h1,
    C10_jacobian_one_key_partial hr hb ho (fun op h => (otherOps_ok op h).1)
      (fun op h => (otherOps_ok op h).2) "x" "list" h1⟩

/-- The hypotheses of `C10_jacobian_values` and `C12_jacobian_partial` are met with symengine. -/
example : ∃ (w : World) (o : Obj) (l l' : List Arr) (w1 w2 : World), Reachable w ∧
    w.objs 0 = some o ∧ jacobian 0 ["x", "tau"] "list" w = (.ok (.inl l), w1) ∧
    jacobian 0 ["x", "tau"] "list" (run w otherOps) = (.ok (.inl l'), w2) ∧
    (∃ x, FSite w.backend o [0] x ∧ ∃ f p, o.SRF.ValueAt x f ∧ o.V.ValueAt x p) ∧
    ∃ r w3, jacobian 0 ["x", "tau"] "list" (run w [.updateParams 0 [("y", Arr.lit 1)]]) =
      (.ok (.inl r), w3) := by
  have hr := demo_reachable .symengine exS exS false true false (Arr.lit 1) (Arr.lit 1) (Arr.lit 0)
    (keyKw 1 1 1 0 1)
  have ho := demo_objs .symengine exS exS false true false (Arr.lit 1) (Arr.lit 1) (Arr.lit 0)
    (keyKw 1 1 1 0 1)
  have hb := demo_backend .symengine exS exS false true false (Arr.lit 1) (Arr.lit 1) (Arr.lit 0)
    (keyKw 1 1 1 0 1)
  generalize demoW .symengine exS exS false true false (Arr.lit 1) (Arr.lit 1) (Arr.lit 0)
    (keyKw 1 1 1 0 1) = w at *
  have hr' := hr.step (op := .setParamDef 0 .tau (.str (.sym "x"))) trivial
  have ho' : (step (.setParamDef 0 .tau (.str (.sym "x"))) w).2.objs 0 =
      some (keyObj exS exS false true false .tau (.sym "x") 1 1 0 1 1 1 0 1) :=
    modObj_get (w := (clearParam w).2) ho _
  have hb' : (step (.setParamDef 0 .tau (.str (.sym "x"))) w).2.backend = .symengine :=
    (step_backend _ _).trans hb
  generalize (step (.setParamDef 0 .tau (.str (.sym "x"))) w).2 = w' at *
  have hc := key_complete exS exS false true false .tau (.sym "x") 1 1 0 1 1 1 0 1
    exS_names exS_names (by simp [Expr.free])
  have hs := key_fsite exS exS false true false .tau (.sym "x") 1 1 0 1 1 1 0 1
    exS_names exS_names (by simp [Expr.free]) .symengine trivial
  have hkeys' : ∀ k ∈ ["x", "tau"], w'.backend = .symengine ∧
      k ∈ (keyObj exS exS false true false .tau (.sym "x") 1 1 0 1 1 1 0 1).params.keys := by
    intro k hk
    rw [key_params]
    refine ⟨hb', ?_⟩
    fin_cases hk <;> simp [Dict.keys]
  have hkeys : ∀ k ∈ ["x", "tau"], builtin k ∨ w'.backend = .symengine ∧
      k ∈ (keyObj exS exS false true false .tau (.sym "x") 1 1 0 1 1 1 0 1).params.keys :=
    fun k hk => Or.inr (hkeys' k hk)
  obtain ⟨l, w1, hl⟩ := jacobianList_succ hr' ho' hc (keys := ["x", "tau"]) hkeys
  have hr2 := hr'.run fun op h => (otherOps_ok op h).1
  have ho2 := run_get hr'.keeps.any.next ho' fun op h => (otherOps_ok op h).2
  obtain ⟨l', w2, hl'⟩ := jacobianList_succ hr2 ho2 hc (keys := ["x", "tau"])
    (by rw [run_backend]; exact hkeys)
  refine ⟨w', _, l, l', w1, w2, hr', ho', jacobian_list.mpr hl, jacobian_list.mpr hl',
    ⟨_, by rw [hb']; exact hs, 1 / Real.pi, 1 / Real.pi, ?_, ?_⟩, ?_⟩
  · exact exS_value _
  · exact exS_value _
  · refine C12_jacobian_partial hr' ho' hc ⟨?_, ?_, ?_⟩ ?_ ?_
    · rw [key_params]; simp [Dict.keys]
    · simp [Dict.keys]
    · simp [Dict.keys]
    · simp [Arr.atleast1d, Arr.lit, Arr.num, Arr.Fits]
    · intro k hk
      exact Or.inr (hkeys' k hk)

end

end RT1
