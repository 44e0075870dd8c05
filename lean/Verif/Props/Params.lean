import Verif.Lemmas.ParL
import Verif.Props.State
import Verif.Props.Contrib

/-!
# Parameters, definitions, modes, copies
-/

namespace RT1

noncomputable section
open Classical

/-! ## C06: geometry setters are all-or-nothing -/

/-- A raising `set_geometry` with one keyword changes no object. (Missing for the full claim:
several keywords and the mode calls, see the two theorems below.) -/
theorem C06_single_keyword_partial {w : World} {id : ℕ} {k : String} {v : Option Arr} {e : PyErr}
    (h : (setGeometry id [(k, v)] w).1 = .error e) :
    (setGeometry id [(k, v)] w).2.objs = w.objs := by
  unfold setGeometry at h ⊢
  by_cases h1 : ∃ p ∈ [(k, v)], AngN.ofName p.1 = none
  · rw [if_pos h1] at h ⊢; rfl
  rw [if_neg h1] at h ⊢
  cases ho : w.objs id with
  | none => rw [bind_error (getObj_none ho)]
  | some o =>
    rw [bind_ok (getObj_some ho)] at h ⊢
    by_cases h2 : (∃ p ∈ [(k, v)], p.1 = "t_ex" ∨ p.1 = "p_ex") ∧ o.mono = true
    · rw [if_pos h2]; rfl
    rw [if_neg h2] at h ⊢
    rw [bind_ok (show clearGeom w = (.ok (), (clearGeom w).2) from rfl)] at h ⊢
    have ho' : (clearGeom w).2.objs id = some o := ho
    have he : (clearGeom w).2.objs = w.objs := rfl
    rw [← he]
    generalize (clearGeom w).2 = w1 at h ho' ⊢
    unfold setAngles at h ⊢
    cases hk : AngN.ofName k with
    | none => exact absurd ⟨_, List.mem_singleton_self _, hk⟩ h1
    | some n =>
      rw [hk] at h
      simp only at h ⊢
      rw [bind_ok (getObj_some ho')] at h ⊢
      by_cases hn : n ∈ o.fixed
      · simp only [hn, if_true] at h ⊢; rfl
      · simp only [hn, if_false] at h ⊢
        cases v with
        | none => rfl
        | some a => cases h

/-- The full claim is false: after fixing `p_0`, the call `set_geometry(t_0=2, p_0=2)` raises
but has already replaced `t_0`. -/
theorem C06_set_geometry_fails : ∃ w, Reachable w ∧
    (setGeometry 0 [("t_0", some (Arr.lit 2)), ("p_0", some (Arr.lit 2))] w).1 =
      .error .assertionError ∧
    (Self.t0 0 w).1 = .ok (arr1 1) ∧
    (Self.t0 0 (setGeometry 0 [("t_0", some (Arr.lit 2)), ("p_0", some (Arr.lit 2))] w).2).1 =
      .ok (arr1 2) := by
  have hr := (demo_reachable .sympy exV exS true true false (Arr.lit 1) (Arr.lit 1) (Arr.lit 0)
    (demoKw 0 0 0 0)).step (op := .setMonostatic 0 (some (.number 0))) trivial
  have ho := setMonostatic_obj (demo_objs .sympy exV exS true true false (Arr.lit 1) (Arr.lit 1)
    (Arr.lit 0) (demoKw 0 0 0 0)) (some (.number 0))
  refine ⟨_, hr, ?_, ?_, ?_⟩
  · refine (C04_raises (n := .p0) (k := "p_0") (v := some (Arr.lit 2)) ho ?_ ?_ rfl ?_ ?_).1
    · simp [Obj.afterMono, Obj.fix]
    · simp
    · simp
    · right; simp
  · show (Self.t0 0 (setMonostatic 0 (some (.number 0)) _).2).1 = _
    unfold Self.t0
    rw [getObj_run ho]
    simp [Obj.afterMono, Obj.fix, Obj.reset, demoObj, arr1]
    rfl
  · have ho2 := setGeometry_obj ho [("t_0", some (Arr.lit 2)), ("p_0", some (Arr.lit 2))]
    show (Self.t0 0 (setGeometry 0 _ (setMonostatic 0 (some (.number 0)) _).2).2).1 = _
    unfold Self.t0
    rw [getObj_run ho2]
    simp [Obj.afterGeom, Obj.angLoop, AngN.ofName, Obj.afterMono, Obj.fix, Obj.reset, demoObj, arr1]
    rfl

/-- The full claim is false for the mode calls, too: a raising `set_monostatic("a")` has
already switched a bistatic object to monostatic mode. -/
theorem C06_set_monostatic_fails : ∃ w, Reachable w ∧
    (setMonostatic 0 (some .other) w).1 = .error .assertionError ∧
    (Self.tex 0 w).1 = .ok (arr1 2) ∧
    (Self.tex 0 (setMonostatic 0 (some .other) w).2).1 = .ok (arr1 1) := by
  have hr := (demo_reachable .sympy exV exS true true false (Arr.lit 1) (Arr.lit 1) (Arr.lit 0)
    (demoKw 0 0 0 0)).step (op := .setBistatic 0 none (some (.number 2)) none none) trivial
  have ho := setBistatic_obj (demo_objs .sympy exV exS true true false (Arr.lit 1) (Arr.lit 1)
    (Arr.lit 0) (demoKw 0 0 0 0)) none (some (.number 2)) none none
  have ho2 := setMonostatic_obj ho (some .other)
  refine ⟨_, hr, rfl, ?_, ?_⟩
  · show (Self.tex 0 (setBistatic 0 _ _ _ _ _).2).1 = _
    unfold Self.tex
    rw [getObj_run ho]
    simp [Obj.afterBi, Obj.fixLoop, Obj.fix, Obj.reset, PyArg.ok]
    rfl
  · show (Self.tex 0 (setMonostatic 0 _ (setBistatic 0 _ _ _ _ _).2).2).1 = _
    unfold Self.tex Self.t0
    rw [getObj_run ho2, if_pos (by rfl), getObj_run ho2]
    simp [Obj.afterMono, Obj.afterBi, Obj.fixLoop, Obj.fix, Obj.reset, PyArg.ok, demoObj, arr1]
    rfl

example : ∃ w, Reachable w ∧ (setGeometry 0 [("p_0", some (Arr.lit 2))] w).1 = .error .assertionError := by
  have hr := (demo_reachable .sympy exV exS true true false (Arr.lit 1) (Arr.lit 1) (Arr.lit 0)
    (demoKw 0 0 0 0)).step (op := .setMonostatic 0 (some (.number 0))) trivial
  have ho := setMonostatic_obj (demo_objs .sympy exV exS true true false (Arr.lit 1) (Arr.lit 1)
    (Arr.lit 0) (demoKw 0 0 0 0)) (some (.number 0))
  exact ⟨_, hr, (C04_raises (n := .p0) (k := "p_0") (v := some (Arr.lit 2)) ho
    (by simp [Obj.afterMono, Obj.fix]) (by simp) rfl (by simp) (by right; simp)).1⟩

/-! ## C07: the parameter dictionary -/

theorem params_run {id : ℕ} (ops : List Op) : ∀ {w : World} {o : Obj}
    (_ : NextOK w) (_ : w.objs id = some o) (_ : BsfOK o),
    ∃ o', (run w ops).objs id = some o' ∧ BsfOK o' ∧
      o'.params = o.params.update ((suppliedBy id ops).map fun p => (p.1, p.2.atleast1d)) := by
  induction ops with
  | nil => intro w o _ ho hb; exact ⟨o, ho, hb, rfl⟩
  | cons op ops ih =>
    intro w o hn ho hb
    rw [run_cons]
    have hn' := (step_other hn op).1
    by_cases ht : op.target = some id
    · obtain ⟨o1, ho1, hc⟩ := step_core hn ho ht
      have hp : o1.params = _ := (core_fields hc).2.2.2.1
      have hb1 : BsfOK o1 := by
        unfold BsfOK; rw [hp]; exact hb.after op
      obtain ⟨o', ho', hb', he⟩ := ih hn' ho1 hb1
      refine ⟨o', ho', hb', ?_⟩
      rw [he, hp, after_params hb.1 ht]
      show Dict.update _ _ = Dict.update _ (List.map _ (Op.supplied id op ++ suppliedBy id ops))
      rw [List.map_append]
      unfold Dict.update
      rw [List.foldl_append]
    · have ho1 : (step op w).2.objs id = some o := by
        rw [(step_other hn op).2.2 id ht (lt_next hn ho), ho]
      obtain ⟨o', ho', hb', he⟩ := ih hn' ho1 hb
      refine ⟨o', ho', hb', ?_⟩
      rw [he]
      show _ = Dict.update _ (List.map _ (Op.supplied id op ++ suppliedBy id ops))
      rw [supplied_other ht, List.nil_append]

theorem lastValue_map (l : Dict) (k : String) :
    lastValue (l.map fun p => (p.1, p.2.atleast1d)) k = (lastValue l k).map Arr.atleast1d := by
  induction l with
  | nil => rfl
  | cons p l ih =>
    rw [List.map_cons, lastValue_cons, lastValue_cons, ih]
    by_cases h : p.1 = k <;> cases lastValue l k <;> simp [h]

/-- After any history (any calls on any objects, failing calls included): the dictionary maps
every name to the last value supplied for it, names supplied before the history keep their
values, names are never dropped or reordered, none is duplicated, `bsf` is always there. -/
theorem C07_last_write_wins {w : World} (hw : ReachableAny w) {id : ℕ} {o : Obj}
    (ho : w.objs id = some o) (ops : List Op) :
    ∃ o', (run w ops).objs id = some o' ∧
      (∀ k, o'.params.get? k =
        ((lastValue (suppliedBy id ops) k).map Arr.atleast1d).or (o.params.get? k)) ∧
      (∀ k, k ∈ o'.params.keys ↔ k ∈ o.params.keys ∨ k ∈ (suppliedBy id ops).keys) ∧
      o.params.keys <+: o'.params.keys ∧ "bsf" ∈ o'.params.keys ∧ o'.params.keys.Nodup := by
  obtain ⟨o', ho', hb', he⟩ := params_run ops hw.next ho (hw.bsfOK ho)
  refine ⟨o', ho', ?_, ?_, ?_, hb'.1, hb'.2⟩
  · intro k; rw [he, Dict.get?_update, lastValue_map]
  · intro k
    rw [he, Dict.mem_keys_update, Dict.keys_map_snd _ Arr.atleast1d]
  · rw [he]; exact Dict.keys_update_prefix _ _

/-- For a new object: the last value supplied since its construction, `bsf` is 0 until it is
supplied. -/
theorem C07_new {w : World} (hw : ReachableAny w) (V SRF : Scatter) (q s d : Bool)
    (fnI : Option (List P)) (fneI : Option FnLam) (I0 : Arr) (ops : List Op) :
    ∃ o', (run (step (.new V SRF q s d fnI fneI I0) w).2 ops).objs w.next = some o' ∧
      ∀ k, o'.params.get? k = ((lastValue (suppliedBy w.next ops) k).map Arr.atleast1d).or
        (if k = "bsf" then some (Arr.lit 0) else none) := by
  have ho := new_obj V SRF q s d fnI fneI I0 w
  obtain ⟨o', ho', h, -⟩ := C07_last_write_wins (hw.step _) ho ops
  refine ⟨o', ho', fun k => ?_⟩
  rw [h k]
  congr 1
  show Dict.get? [("bsf", Arr.lit 0)] k = _
  rw [Dict.get?_cons]
  by_cases hk : k = "bsf"
  · simp [hk]
  · simp [Ne.symm hk, hk, Dict.get?]

example (V SRF : Scatter) : ReachableAny (exW .symengine V SRF) ∧
    (∃ o, (exW .symengine V SRF).objs 0 = some o) ∧
    suppliedBy 0 [.surface 0 [("a", Arr.lit 1)], .updateParams 1 [("c", Arr.lit 5)],
      .updateParams 0 [("b", Arr.lit 2), ("a", Arr.lit 3)], .setMonostatic 0 (some .other)] =
      [("a", Arr.lit 1), ("b", Arr.lit 2), ("a", Arr.lit 3)] ∧
    lastValue [("a", Arr.lit 1), ("b", Arr.lit 2), ("a", Arr.lit 3)] "a" = some (Arr.lit 3) :=
  ⟨(demo_reachable ..).keeps.any, ⟨_, demo_objs ..⟩, by simp [suppliedBy, Op.supplied],
    by simp [lastValue]⟩

/-! ## C08: parameter getters -/

/-- The getter `R.p` follows the definition `d` and the current parameters: it returns the
assigned value, or the expression evaluated at the current entries (which succeeds if all
names are there and the shapes fit), or raises TypeError with exactly the missing names. -/
structure GetterSpec (id : ℕ) (p : PName) (d : PDef) (params : Dict) (w : World) : Prop where
  val : ∀ a, d = .val a → (Self.evalParam id p w).1 = .ok a
  str : ∀ e z idx ρ, d = .str e → (Self.evalParam id p w).1 = .ok z →
    (∀ k ∈ e.free, ∃ a, params.get? k = some a ∧ ρ k = a.at' idx) → z.at' idx = e.evalX ρ
  ok : ∀ e S, d = .str e → (∀ k ∈ e.free, ∃ a, params.get? k = some a ∧ Arr.Fits a.shape S) →
    ∃ z, (Self.evalParam id p w).1 = .ok z ∧ Arr.Fits z.shape S
  missing : ∀ e, d = .str e → (∃ k ∈ e.free, k ∉ params.keys) →
    ∃ ns, (Self.evalParam id p w).1 = .error (.typeError ns) ∧
      ∀ k, k ∈ ns ↔ k ∈ e.free ∧ k ∉ params.keys

theorem getterSpec {full : Bool} {w : World} (hw : Inv full w) {id : ℕ} {o : Obj}
    (ho : w.objs id = some o) (p : PName) : GetterSpec id p (o.pdef p) o.params w where
  val := by
    intro a ha
    rw [evalParam_eq hw ho]; exact par_val ha
  str := by
    intro e z idx ρ he hz hρ
    rw [evalParam_eq hw ho] at hz
    rw [PW.parStr he idx z hz]
    refine Expr.evalX_congr fun k hk => ?_
    obtain ⟨a, ha, h⟩ := hρ k hk
    unfold Dict.valAt
    rw [ha, h]
  ok := by
    intro e S he h
    rw [evalParam_eq hw ho]; exact par_str_ok he h
  missing := by
    intro e he h
    refine ⟨_, by rw [evalParam_eq hw ho, par_str_missing he h], fun k => ?_⟩
    simp

theorem keepsDef_after {id : ℕ} {p : PName} {op : Op} (h : op.KeepsDef id p)
    (ht : op.target = some id) (o : Obj) : (o.after op).pdef p = o.pdef p := by
  cases op <;> simp only [Op.target, Option.some.injEq, reduceCtorEq] at ht <;> try rfl
  case setMonostatic q => rw [Obj.after, (afterMono_params o q).2]
  case setBistatic j a b c d => rw [Obj.after, (afterBi_params o a b c d).2]
  case setGeometry j kw => rw [Obj.after, (afterGeom_params o kw).2]
  case setParamDef j q d =>
    show Function.update o.pdef q d p = _
    rw [Function.update_of_ne]
    rintro rfl
    exact h ⟨ht, rfl⟩

/-- After assigning a definition, and any further calls that do not assign another one to this
parameter, the getter follows the assigned definition and the current parameters. -/
theorem C08_assigned {w : World} (hw : ReachableK w) {id : ℕ} {o : Obj} (ho : w.objs id = some o)
    (p : PName) (d : PDef) {ops : List Op} (hk : ∀ op ∈ ops, op.Keeps)
    (hd : ∀ op ∈ ops, op.KeepsDef id p) :
    ∃ o', (run (step (.setParamDef id p d) w).2 ops).objs id = some o' ∧
      GetterSpec id p d o'.params (run (step (.setParamDef id p d) w).2 ops) := by
  have hw1 : ReachableK (step (.setParamDef id p d) w).2 := hw.step trivial
  have h1 : Holds (step (.setParamDef id p d) w).2 id fun o => o.pdef p = d := by
    obtain ⟨o1, ho1, hc⟩ := step_core (op := .setParamDef id p d) hw.any.next ho rfl
    refine ⟨o1, ho1, ?_⟩
    show o1.pdef p = d
    rw [(core_fields hc).2.2.1]
    show Function.update o.pdef p d p = d
    simp
  obtain ⟨o', ho', hp⟩ := run_obj (Q := fun o => o.pdef p = d)
    (fun o o' hc h => by rw [← (core_fields hc).2.2.1]; exact h)
    (fun op hop ht o h => by rw [keepsDef_after (hd op hop) ht o]; exact h) hw1.any.next h1
  refine ⟨o', ho', ?_⟩
  have := getterSpec (hw1.run hk).inv ho' p
  rw [hp] at this
  exact this

/-- The attribute name of a parameter. -/
def PName.attr : PName → String
  | .tau => "tau"
  | .omega => "omega"
  | .NormBRDF => "NormBRDF"
  | .bsf => "bsf"

/-- A new object: the definitions are the parameters of the same name. -/
theorem C08_default {w : World} (hw : ReachableK w) (V SRF : Scatter) (q s d : Bool)
    (fnI : Option (List P)) (fneI : Option FnLam) (I0 : Arr) (p : PName) {ops : List Op}
    (hk : ∀ op ∈ ops, op.Keeps) (hd : ∀ op ∈ ops, op.KeepsDef w.next p) :
    ∃ o', (run (step (.new V SRF q s d fnI fneI I0) w).2 ops).objs w.next = some o' ∧
      GetterSpec w.next p (.str (.sym p.attr)) o'.params
        (run (step (.new V SRF q s d fnI fneI I0) w).2 ops) := by
  have hw1 : ReachableK (step (.new V SRF q s d fnI fneI I0) w).2 := hw.step trivial
  have h1 : Holds (step (.new V SRF q s d fnI fneI I0) w).2 w.next fun o => o.pdef p =
      (.str (.sym p.attr)) := by
    refine ⟨_, new_obj .., ?_⟩
    cases p <;> rfl
  obtain ⟨o', ho', hp⟩ := run_obj (Q := fun o => o.pdef p = _)
    (fun o o' hc h => by rw [← (core_fields hc).2.2.1]; exact h)
    (fun op hop ht o h => by rw [keepsDef_after (hd op hop) ht o]; exact h) hw1.any.next h1
  refine ⟨o', ho', ?_⟩
  have := getterSpec (hw1.run hk).inv ho' p
  rw [hp] at this
  exact this

example (V SRF : Scatter) : ReachableK (exW .sympy V SRF) ∧
    (∃ o, (exW .sympy V SRF).objs 0 = some o) ∧
    (∀ op ∈ [Op.surface 0 [("x", Arr.lit 1)], Op.setParamDef 0 .omega (.str (.sym "y")),
      Op.setGeometry 0 [("t_0", some (Arr.lit 3))], Op.updateParams 0 [("x", Arr.lit 2)]],
      op.Keeps ∧ op.KeepsDef 0 .tau) := by
  refine ⟨(demo_reachable ..).keeps, ⟨_, demo_objs ..⟩, ?_⟩
  intro op hop
  fin_cases hop <;> simp [Op.Keeps, Op.KeepsDef]

/-! ## C09: calc(**p) is update_params(**p) then calc() -/

/-- In every state: `calc(**p)` and `update_params(**p)` followed by `calc()` have the same
outcome (array or exception) and lead to the same state. -/
theorem C09_update_then_calc (w : World) (id : ℕ) (kw : Dict) :
    calcOp id kw w = calcOp id [] (updateParams id kw w).2 := by
  cases ho : w.objs id with
  | none =>
    have h1 : updateParams id kw w = (.error .attributeError, w) := updateParams_none ho kw
    unfold calcOp
    rw [h1, evalOp_none ho, evalOp_none ho]
  | some o =>
    have ho' : (updateParams id kw w).2.objs id = some (Fresh.update o kw) := by
      rw [updateParams_eq ho]; simp
    unfold calcOp
    rw [bind_ok (updateParams_eq ho' []), update_update_nil, updateParams_eq ho,
      bind_ok (updateParams_eq ho kw)]
    simp

/-- Calling `calc()` again returns the same arrays (or raises the same exception); the
parameters stay as they are. -/
theorem C09_repeat {w : World} (hw : Reachable w) (id : ℕ) (kw : Dict) :
    (calcOp id [] (calcOp id kw w).2).1 = (calcOp id kw w).1 ∧
    ((calcOp id [] (calcOp id kw w).2).2.objs id).map Obj.params =
      ((calcOp id kw w).2.objs id).map Obj.params := by
  cases ho : w.objs id with
  | none =>
    have h1 : calcOp id kw w = (.error .attributeError, w) := by unfold calcOp; rw [evalOp_none ho]
    have h2 : calcOp id [] w = (.error .attributeError, w) := by unfold calcOp; rw [evalOp_none ho]
    rw [h1]; simp only; rw [h2]; exact ⟨rfl, rfl⟩
  | some o =>
    obtain ⟨h1, h2⟩ := calcOp_eq hw.inv ho kw
    obtain ⟨o', ho', hf⟩ := h2.obj
    obtain ⟨h3, h4⟩ := calcOp_eq h2.inv ho' []
    obtain ⟨o'', ho'', hf''⟩ := h4.obj
    have hp : (Fresh.update o' []).params = o'.params := by
      have h5 := congrArg Obj.params (update_update_nil o kw)
      have h6 : (Fresh.update o' []).params = (Fresh.update (Fresh.update o kw) []).params := by
        unfold Fresh.update
        simp only [hf.pdef, hf.params]
        rfl
      rw [h6, h5, hf.params]
    refine ⟨?_, ?_⟩
    · rw [h1, h3, h2.backend]
      have hff : Filled w.backend (Fresh.update o kw) (Fresh.update o' []) := by
        have : Fresh.update o' [] = o' := by
          have : Fresh.update o' [] = { o' with params := (Fresh.update o' []).params } := rfl
          rw [this, hp]
        rw [this]; exact hf
      exact fresh_calc_filled hff
    · rw [ho', ho'']
      simp only [Option.map_some, hf''.params, hp]

/-! ## C10: objects do not influence each other -/

/-- Calls on other objects (and creating objects) leave all attributes of the object alone:
angles, parameters, definitions, settings. -/
theorem C10_attributes {w : World} (hw : ReachableAny w) {id : ℕ} {o : Obj}
    (ho : w.objs id = some o) {ops : List Op} (h : ∀ op ∈ ops, op.target ≠ some id) :
    (run w ops).objs id = some o := run_get hw.next ho h

/-- ... and the results of `surface` and `volume` and of the getters. -/
theorem C10_surface_volume {w : World} (hw : ReachableK w) {id : ℕ} {o : Obj}
    (ho : w.objs id = some o) {ops : List Op} (hk : ∀ op ∈ ops, op.Keeps)
    (h : ∀ op ∈ ops, op.target ≠ some id) (kw : Dict) :
    (surface id kw (run w ops)).1 = (surface id kw w).1 ∧
    (volume id kw (run w ops)).1 = (volume id kw w).1 ∧
    (∀ p, (Self.evalParam id p (run w ops)).1 = (Self.evalParam id p w).1) ∧
    (∀ n, (readAngle id n (run w ops)).1 = (readAngle id n w).1) := by
  have ho' := run_get hw.any.next ho h
  have hi := (hw.run hk).inv
  have hb := run_backend w ops
  have hd : DuringE false w id o w := During.init hw.inv ho trivial
  have hd' : DuringE false (run w ops) id o (run w ops) := During.init hi ho' trivial
  refine ⟨?_, ?_, fun p => ?_, fun n => ?_⟩
  · rw [(surface_eq hi ho' kw).1, (surface_eq hw.inv ho kw).1, hb]
  · rw [(volume_eq hi ho' kw).1, (volume_eq hw.inv ho kw).1, hb]
  · rw [evalParam_eq hi ho', evalParam_eq hw.inv ho, hb]
  · cases n
    · show (Self.t0 id _).1 = (Self.t0 id _).1
      rw [(Refines.t0 _ hd').1, (Refines.t0 _ hd).1]
    · show (Self.tex id _).1 = (Self.tex id _).1
      rw [(Refines.tex _ hd').1, (Refines.tex _ hd).1]
    · show (Self.p0 id _).1 = (Self.p0 id _).1
      rw [(Refines.p0 _ hd').1, (Refines.p0 _ hd).1]
    · show (Self.pex id _).1 = (Self.pex id _).1
      rw [(Refines.pex _ hd').1, (Refines.pex _ hd).1]

/-- ... and the results of `calc` and `interaction`. -/
theorem C10_calc_interaction {w : World} (hw : Reachable w) {id : ℕ} {o : Obj}
    (ho : w.objs id = some o) {ops : List Op} (hk : ∀ op ∈ ops, op.Plain)
    (h : ∀ op ∈ ops, op.target ≠ some id) (kw : Dict) :
    (calcOp id kw (run w ops)).1 = (calcOp id kw w).1 ∧
    (interaction id kw (run w ops)).1 = (interaction id kw w).1 := by
  have ho' := run_get hw.keeps.any.next ho h
  have hi := (hw.run hk).inv
  have hb := run_backend w ops
  rw [(calcOp_eq hi ho' kw).1, (calcOp_eq hw.inv ho kw).1, (interaction_eq hi ho' kw).1,
    (interaction_eq hw.inv ho kw).1, hb]
  exact ⟨rfl, rfl⟩

example (V SRF : Scatter) : Reachable (exW .sympy V SRF) ∧
    (∃ o, (exW .sympy V SRF).objs 0 = some o) ∧
    ∀ op ∈ [Op.new V SRF true true true none none (Arr.lit 3), Op.setBistatic 1 none none none none,
      Op.updateParams 1 [("tau", Arr.lit 2)], Op.setParamDef 1 .tau (.val (Arr.lit 7)),
      Op.evalCalc 1 [("omega", Arr.lit 1)], Op.pickle 1],
      op.Plain ∧ op.target ≠ some 0 := by
  refine ⟨demo_reachable .., ⟨_, demo_objs ..⟩, ?_⟩
  intro op hop
  fin_cases hop <;> simp [Op.Plain, Op.target]

/-! ## C13: coefficients follow the geometry mode -/

/-- Geometry, scattering functions and the absence of user-supplied coefficients. -/
def CoefQ (V SRF : Scatter) (G : Geom4) (o : Obj) : Prop :=
  o.V = V ∧ o.SRF = SRF ∧ o.geom = G ∧ o.fnInput = none ∧ o.fnevalsInput = none

theorem afterGeom_rest (o : Obj) (kw : List (String × Option Arr)) :
    (o.afterGeom kw).V = o.V ∧ (o.afterGeom kw).SRF = o.SRF ∧ (o.afterGeom kw).fnInput = o.fnInput ∧
      (o.afterGeom kw).fnevalsInput = o.fnevalsInput ∧ (o.afterGeom kw).intQ = o.intQ := by
  have hl : ∀ (l : List (String × Option Arr)) (o : Obj), (Obj.angLoop l o).V = o.V ∧
      (Obj.angLoop l o).SRF = o.SRF ∧ (Obj.angLoop l o).fnInput = o.fnInput ∧
      (Obj.angLoop l o).fnevalsInput = o.fnevalsInput ∧ (Obj.angLoop l o).intQ = o.intQ := by
    intro l
    induction l with
    | nil => intro o; exact ⟨rfl, rfl, rfl, rfl, rfl⟩
    | cons p l ih =>
      intro o
      obtain ⟨k, v⟩ := p
      unfold Obj.angLoop
      cases AngN.ofName k with
      | none => exact ih o
      | some n =>
        simp only
        by_cases hn : n ∈ o.fixed
        · simp [hn]
        · simp only [hn, if_false]
          cases v with
          | none => exact ⟨rfl, rfl, rfl, rfl, rfl⟩
          | some a => exact ih { o with ang := Function.update o.ang n (some a.atleast1d) }
  unfold Obj.afterGeom
  split_ifs
  · exact ⟨rfl, rfl, rfl, rfl, rfl⟩
  · exact ⟨rfl, rfl, rfl, rfl, rfl⟩
  · exact hl kw o

theorem core_inputs {o o' : Obj} (h : o.core = o'.core) :
    o.fnInput = o'.fnInput ∧ o.fnevalsInput = o'.fnevalsInput ∧ o.intQ = o'.intQ := by
  refine ⟨?_, ?_, ?_⟩
  · have := congrArg Obj.fnInput h; exact this
  · have := congrArg Obj.fnevalsInput h; exact this
  · have := congrArg Obj.intQ h; exact this

theorem CoefQ.core {V SRF : Scatter} {G : Geom4} (o o' : Obj) (hc : o.core = o'.core)
    (h : CoefQ V SRF G o) : CoefQ V SRF G o' := by
  obtain ⟨h1, h2, -, -, -, -, -, h8⟩ := core_fields hc
  obtain ⟨h9, h10, -⟩ := core_inputs hc
  unfold CoefQ
  rw [← h1, ← h2, ← h8, ← h9, ← h10]
  exact h

theorem CoefQ.after {V SRF : Scatter} {G : Geom4} {id : ℕ} {op : Op} (hp : op.Plain)
    (hm : op.KeepsMode id) (ht : op.target = some id) (o : Obj) (h : CoefQ V SRF G o) :
    CoefQ V SRF G (o.after op) := by
  cases op <;> simp only [Op.target, Option.some.injEq, reduceCtorEq] at ht <;>
    first | exact h | exact absurd ht hm | exact hp.elim | skip
  case setGeometry j kw =>
    obtain ⟨h1, h2, h3, h4, -⟩ := afterGeom_rest o kw
    unfold CoefQ
    rw [Obj.after, h1, h2, h3, h4, (afterGeom_keeps o kw).2.2.2.2.1]
    exact h

/-- The coefficients that are used belong to the given geometry. -/
structure CoefSpec (id : ℕ) (V SRF : Scatter) (G : Geom4) (w : World) : Prop where
  fn : ∀ f, (Self.fn id w).1 = .ok (some f) → fnCoefs V SRF G = .ok f
  fnevals : ∀ l, (Self.fnevals id w).1 = .ok (some l) → fnCoefs V SRF G = .ok l.fns
  computed : ∀ o, w.objs id = some o → o.intQ = true →
    (Self.fn id w).1 = (fnCoefs V SRF G).map some

theorem coefSpec {w : World} (hw : Inv true w) {id : ℕ} {V SRF : Scatter} {G : Geom4}
    (h : Holds w id (CoefQ V SRF G)) : CoefSpec id V SRF G w := by
  obtain ⟨o, ho, rfl, rfl, rfl, hi, hei⟩ := h
  have hd : DuringE true w id o w := During.init hw ho trivial
  have hok := hw.obj rfl id o ho
  have hfn : ∀ f, Fresh.fn o = .ok (some f) → fnCoefs o.V o.SRF o.geom = .ok f := by
    intro f hf
    rcases Fresh.fn_source hok hf with h | h
    · rw [hi] at h; cases h
    · exact h.2
  refine ⟨?_, ?_, ?_⟩
  · intro f hf
    rw [(Refines.fn _ hd).1] at hf
    exact hfn f hf
  · intro l hl
    rw [(Refines.fnevals _ hd).1] at hl
    unfold Fresh.fnevals at hl
    cases h1 : o.fnevals_ with
    | some l' =>
      simp only [h1, Except.ok.injEq, Option.some.injEq] at hl
      subst hl
      obtain ⟨-, ks, f, -, rfl, hsrc, -⟩ := hok.fnevals _ h1
      rcases hsrc with h | h
      · rw [hi] at h; cases h
      · exact h.2
    | none =>
      simp only [h1, hei] at hl
      by_cases hq : o.intQ = true
      · rw [if_pos hq] at hl
        obtain ⟨f, hf, hl⟩ := ok_bind hl
        cases f with
        | none => cases hl
        | some f =>
          obtain ⟨l', hl', hl⟩ := ok_bind hl
          cases hl
          unfold Fresh.fnCompile at hl'
          simp only at hl'
          split_ifs at hl'
          cases hl'
          exact hfn f hf
      · rw [if_neg hq] at hl; cases hl
  · intro o' ho' hq
    rw [ho] at ho'; cases ho'
    rw [(Refines.fn _ hd).1]
    cases h1 : o.fn_ with
    | some f =>
      unfold Fresh.fn
      rw [h1, (hok.fn f h1).2]
      rfl
    | none =>
      unfold Fresh.fn
      rw [h1, hi]
      simp only [hq, if_true]
      cases fnCoefs o.V o.SRF o.geom <;> rfl

/-- After a successful `set_monostatic` and any calls other than mode calls on this object,
the coefficients are those of the monostatic geometry with the given (or a symbolic) azimuth. -/
theorem C13_monostatic {w : World} (hw : Reachable w) {id : ℕ} {o : Obj} (ho : w.objs id = some o)
    (hin : o.fnInput = none) (hein : o.fnevalsInput = none) (p : Option PyArg)
    (hok : (setMonostatic id p w).1 = .ok ()) {ops : List Op} (hp : ∀ op ∈ ops, op.Plain)
    (hm : ∀ op ∈ ops, op.KeepsMode id) :
    CoefSpec id o.V o.SRF
      ⟨.sym "theta_0", .sym "theta_0",
        (match p with | some (.number r) => .num r | _ => .sym "phi_0"),
        (match p with | some (.number r) => .num r | _ => .sym "phi_0")⟩
      (run (step (.setMonostatic id p) w).2 ops) := by
  have hw1 : Reachable (step (.setMonostatic id p) w).2 := hw.step trivial
  refine coefSpec (hw1.run hp).inv (run_obj CoefQ.core
    (fun op hop ht o h => h.after (hp op hop) (hm op hop) ht o) hw1.keeps.any.next ?_)
  refine ⟨_, setMonostatic_obj ho p, ?_⟩
  cases p with
  | none => exact ⟨rfl, rfl, rfl, hin, hein⟩
  | some a =>
    cases a with
    | other => cases hok
    | number r => exact ⟨rfl, rfl, rfl, hin, hein⟩

/-- Symbol or fixed value of an angle. -/
def fixedOr (s : String) : Option PyArg → AngS
  | some (.number r) => .num r
  | _ => .sym s

theorem fixLoop_rest (l : List (AngN × Option PyArg)) : ∀ o : Obj,
    (Obj.fixLoop l o).V = o.V ∧ (Obj.fixLoop l o).SRF = o.SRF ∧
      (Obj.fixLoop l o).fnInput = o.fnInput ∧ (Obj.fixLoop l o).fnevalsInput = o.fnevalsInput := by
  induction l with
  | nil => intro o; exact ⟨rfl, rfl, rfl, rfl⟩
  | cons p l ih =>
    intro o
    obtain ⟨n, v⟩ := p
    cases v with
    | none => exact ih o
    | some a =>
      cases a with
      | other => exact ⟨rfl, rfl, rfl, rfl⟩
      | number r => exact ih (o.fix n r)

theorem setBistatic_ok {w : World} {id : ℕ} {o : Obj} (ho : w.objs id = some o)
    {a b c d : Option PyArg} (hok : (setBistatic id a b c d w).1 = .ok ()) :
    PyArg.ok a = true ∧ PyArg.ok b = true ∧ PyArg.ok c = true ∧ PyArg.ok d = true := by
  by_contra hc
  obtain ⟨h1, h2⟩ := resetGeom_obj ho false
  have hx : resetGeom id false w = (.ok (), (resetGeom id false w).2) := by rw [← h1]
  unfold setBistatic at hok
  rw [bind_ok hx] at hok
  obtain ⟨w1, e1, o1⟩ := bistaticAngle_obj h2 .t0 "theta_0" a
  by_cases ha : PyArg.ok a = true
  · rw [if_pos ha] at e1
    rw [bind_ok e1] at hok
    obtain ⟨w2, e2, o2⟩ := bistaticAngle_obj o1 .tex "theta_ex" b
    by_cases hb : PyArg.ok b = true
    · rw [if_pos hb] at e2
      rw [bind_ok e2] at hok
      obtain ⟨w3, e3, o3⟩ := bistaticAngle_obj o2 .p0 "phi_0" c
      by_cases hcc : PyArg.ok c = true
      · rw [if_pos hcc] at e3
        rw [bind_ok e3] at hok
        obtain ⟨w4, e4, o4⟩ := bistaticAngle_obj o3 .pex "phi_ex" d
        by_cases hd : PyArg.ok d = true
        · exact hc ⟨ha, hb, hcc, hd⟩
        · rw [if_neg hd] at e4
          rw [bind_error e4] at hok; cases hok
      · rw [if_neg hcc] at e3
        rw [bind_error e3] at hok; cases hok
    · rw [if_neg hb] at e2
      rw [bind_error e2] at hok; cases hok
  · rw [if_neg ha] at e1
    rw [bind_error e1] at hok; cases hok

/-- After a successful `set_bistatic` and any calls other than mode calls on this object, the
coefficients are those of the bistatic geometry with the given fixed angles. -/
theorem C13_bistatic {w : World} (hw : Reachable w) {id : ℕ} {o : Obj} (ho : w.objs id = some o)
    (hin : o.fnInput = none) (hein : o.fnevalsInput = none) {a b c d : Option PyArg}
    (hok : (setBistatic id a b c d w).1 = .ok ()) {ops : List Op} (hp : ∀ op ∈ ops, op.Plain)
    (hm : ∀ op ∈ ops, op.KeepsMode id) :
    CoefSpec id o.V o.SRF
      ⟨fixedOr "theta_0" a, fixedOr "theta_ex" b, fixedOr "phi_0" c, fixedOr "phi_ex" d⟩
      (run (step (.setBistatic id a b c d) w).2 ops) := by
  have hw1 : Reachable (step (.setBistatic id a b c d) w).2 := hw.step trivial
  refine coefSpec (hw1.run hp).inv (run_obj CoefQ.core
    (fun op hop ht o h => h.after (hp op hop) (hm op hop) ht o) hw1.keeps.any.next ?_)
  refine ⟨_, setBistatic_obj ho a b c d, ?_⟩
  have hall := setBistatic_ok ho hok
  obtain ⟨h1, h2, h3, h4⟩ :=
    fixLoop_rest [(.t0, a), (.tex, b), (.p0, c), (.pex, d)] (o.reset false)
  unfold Obj.afterBi
  rw [if_pos hall]
  exact ⟨h1, h2, rfl, h3.trans hin, h4.trans hein⟩

example (V SRF : Scatter) : ∃ o, Reachable (exW .sympy V SRF) ∧ (exW .sympy V SRF).objs 0 = some o ∧
    o.fnInput = none ∧ o.fnevalsInput = none ∧
    (setMonostatic 0 (some (.number 1)) (exW .sympy V SRF)).1 = .ok () ∧
    (setBistatic 0 none (some (.number 1)) none none (exW .sympy V SRF)).1 = .ok () ∧
    ∀ op ∈ [Op.evalCalc 0 [], Op.setGeometry 0 [("t_0", some (Arr.lit 3))],
      Op.setBistatic 1 none none none none], op.Plain ∧ op.KeepsMode 0 := by
  refine ⟨_, demo_reachable .., demo_objs .., rfl, rfl, rfl, rfl, ?_⟩
  intro op hop
  fin_cases hop <;> simp [Op.Plain, Op.KeepsMode]

/-! ## C16: pickling -/

theorem update_analyze (o : Obj) (kw : Dict) :
    Fresh.update { o with analyze := false } kw = { Fresh.update o kw with analyze := false } := rfl

/-- The live object after pickling and the loaded object return what the object returned
before (arrays or exceptions), for every evaluation; attributes other than the plot methods
are unchanged. (Missing for the full claim: the plot methods, see `C16_plot_methods_lost`.) -/
theorem C16_results_partial {w : World} (hw : Reachable w) {id : ℕ} {o : Obj}
    (ho : w.objs id = some o) :
    (pickle id w).1 = .ok w.next ∧
    (∀ j, j = id ∨ j = w.next →
      (pickle id w).2.objs j = some { o with analyze := false } ∧ ∀ kw,
        (calcOp j kw (pickle id w).2).1 = (calcOp id kw w).1 ∧
        (surface j kw (pickle id w).2).1 = (surface id kw w).1 ∧
        (volume j kw (pickle id w).2).1 = (volume id kw w).1 ∧
        (interaction j kw (pickle id w).2).1 = (interaction id kw w).1) := by
  have hw' : Reachable (step (.pickle id) w).2 := hw.step trivial
  have e : (step (.pickle id) w).2 = (pickle id w).2 := bind_pure_state _ _
  rw [e] at hw'
  have hlt := lt_next hw.keeps.any.next ho
  refine ⟨by rw [pickle_eq, ho], fun j hj => ?_⟩
  have hoj : (pickle id w).2.objs j = some { o with analyze := false } := by
    rw [pickle_eq, ho]
    show Function.update (Function.update w.objs id _) w.next _ j = _
    rcases hj with rfl | rfl
    · rw [Function.update_of_ne (by omega), Function.update_self, ho]; rfl
    · rw [Function.update_self]
  refine ⟨hoj, fun kw => ?_⟩
  have hb : (pickle id w).2.backend = w.backend := by rw [← e, step_backend]
  refine ⟨?_, ?_, ?_, ?_⟩
  · rw [(calcOp_eq hw'.inv hoj kw).1, (calcOp_eq hw.inv ho kw).1, hb, update_analyze]; rfl
  · rw [(surface_eq hw'.inv hoj kw).1, (surface_eq hw.inv ho kw).1, hb, update_analyze]; rfl
  · rw [(volume_eq hw'.inv hoj kw).1, (volume_eq hw.inv ho kw).1, hb, update_analyze]; rfl
  · rw [(interaction_eq hw'.inv hoj kw).1, (interaction_eq hw.inv ho kw).1, hb, update_analyze]; rfl

/-- The full claim is false: pickling a new object takes its plot methods away, and the
loaded object has none. -/
theorem C16_plot_methods_lost : ∃ w, Reachable w ∧
    (∃ o, w.objs 0 = some o ∧ o.analyze = true) ∧
    (∃ o, (pickle 0 w).2.objs 0 = some o ∧ o.analyze = false) ∧
    (∃ o, (pickle 0 w).2.objs w.next = some o ∧ o.analyze = false) := by
  have ho := demo_objs .sympy exV exV true true false
    (Arr.lit 1) (Arr.lit 1) (Arr.lit 0) (demoKw 0 0 0 0)
  have hr := demo_reachable .sympy exV exV true true false
    (Arr.lit 1) (Arr.lit 1) (Arr.lit 0) (demoKw 0 0 0 0)
  refine ⟨_, hr, ⟨_, ho, rfl⟩, ⟨_, ((C16_results_partial hr ho).2 0 (Or.inl rfl)).1, rfl⟩,
    ⟨_, ((C16_results_partial hr ho).2 _ (Or.inr rfl)).1, rfl⟩⟩

/-! ## C60: pre-computed coefficients -/

theorem inputs_after {id : ℕ} {op : Op} (ht : op.target = some id) (o : Obj) :
    (o.after op).fnInput = o.fnInput ∧ (o.after op).fnevalsInput = o.fnevalsInput := by
  cases op <;> simp only [Op.target, Option.some.injEq, reduceCtorEq] at ht <;> try exact ⟨rfl, rfl⟩
  case setMonostatic j q =>
    cases q with
    | none => exact ⟨rfl, rfl⟩
    | some a => cases a <;> exact ⟨rfl, rfl⟩
  case setBistatic j a b c d =>
    obtain ⟨-, -, h3, h4⟩ :=
      fixLoop_rest [(.t0, a), (.tex, b), (.p0, c), (.pex, d)] (o.reset false)
    show (o.afterBi a b c d).fnInput = _ ∧ (o.afterBi a b c d).fnevalsInput = _
    unfold Obj.afterBi
    simp only
    split_ifs
    · exact ⟨h3, h4⟩
    · exact ⟨h3, h4⟩
  case setGeometry j kw => exact ⟨(afterGeom_rest o kw).2.2.1, (afterGeom_rest o kw).2.2.2.1⟩

theorem inputs_run {w : World} (hn : NextOK w) {id : ℕ} {o : Obj} (ho : w.objs id = some o)
    (ops : List Op) : ∃ o', (run w ops).objs id = some o' ∧ o'.fnInput = o.fnInput ∧
      o'.fnevalsInput = o.fnevalsInput :=
  run_obj (Q := fun o' => o'.fnInput = o.fnInput ∧ o'.fnevalsInput = o.fnevalsInput)
    (fun o1 o2 hc h => by
      obtain ⟨h1, h2, -⟩ := core_inputs hc
      rw [← h1, ← h2]; exact h)
    (fun op _ ht o1 h => by rw [(inputs_after ht o1).1, (inputs_after ht o1).2]; exact h) hn
    ⟨o, ho, rfl, rfl⟩

/-- An object constructed with `fnevals_input` uses exactly these functions, after any history. -/
theorem C60_fnevals_input {w : World} (hw : Reachable w) (V SRF : Scatter) (q s d : Bool)
    (fnI : Option (List P)) (g : FnLam) (I0 : Arr) {ops : List Op} (hp : ∀ op ∈ ops, op.Plain) :
    (Self.fnevals w.next (run (step (.new V SRF q s d fnI (some g) I0) w).2 ops)).1 =
      .ok (some g) := by
  have hw1 : Reachable (step (.new V SRF q s d fnI (some g) I0) w).2 := hw.step trivial
  have ho := new_obj V SRF q s d fnI (some g) I0 w
  obtain ⟨o', ho', -, hi⟩ := inputs_run hw1.keeps.any.next ho ops
  have hi' : o'.fnevalsInput = some g := hi
  have hinv := (hw1.run hp).inv
  have hd : DuringE true _ w.next o' _ := During.init hinv ho' trivial
  rw [(Refines.fnevals _ hd).1]
  unfold Fresh.fnevals
  cases h1 : o'.fnevals_ with
  | some l =>
    have := (hinv.obj rfl _ _ ho').fnevals l h1
    rw [hi'] at this
    cases this.1
  | none => simp only [hi']

/-- An object constructed with `fn_input` uses exactly these coefficients; whatever it
compiles are these coefficients. -/
theorem C60_fn_input {w : World} (hw : Reachable w) (V SRF : Scatter) (q s d : Bool)
    (f : List P) (I0 : Arr) {ops : List Op} (hp : ∀ op ∈ ops, op.Plain) :
    (Self.fn w.next (run (step (.new V SRF q s d (some f) none I0) w).2 ops)).1 = .ok (some f) ∧
    ∀ l, (Self.fnevals w.next (run (step (.new V SRF q s d (some f) none I0) w).2 ops)).1 =
      .ok (some l) → l.fns = f := by
  have hw1 : Reachable (step (.new V SRF q s d (some f) none I0) w).2 := hw.step trivial
  have ho := new_obj V SRF q s d (some f) none I0 w
  obtain ⟨o', ho', hi, hei⟩ := inputs_run hw1.keeps.any.next ho ops
  have hi' : o'.fnInput = some f := hi
  have hei' : o'.fnevalsInput = none := hei
  have hinv := (hw1.run hp).inv
  have hok := hinv.obj rfl _ _ ho'
  have hd : DuringE true _ w.next o' _ := During.init hinv ho' trivial
  have hfn : Fresh.fn o' = .ok (some f) := by
    unfold Fresh.fn
    cases h1 : o'.fn_ with
    | some l =>
      have := hok.fn l h1
      rw [hi'] at this
      cases this.1
    | none => simp only [hi']
  refine ⟨by rw [(Refines.fn _ hd).1, hfn], fun l hl => ?_⟩
  rw [(Refines.fnevals _ hd).1] at hl
  unfold Fresh.fnevals at hl
  cases h1 : o'.fnevals_ with
  | some l' =>
    simp only [h1, Except.ok.injEq, Option.some.injEq] at hl
    subst hl
    obtain ⟨-, ks, g, -, rfl, hsrc, -⟩ := hok.fnevals _ h1
    rcases hsrc with h | h
    · rw [hi'] at h; cases h; rfl
    · rw [hi'] at h; cases h.1
  | none =>
    simp only [h1, hei'] at hl
    by_cases hq : o'.intQ = true
    · rw [if_pos hq] at hl
      obtain ⟨f', hf', hl⟩ := ok_bind hl
      rw [hfn] at hf'
      cases hf'
      obtain ⟨l', hl', hl⟩ := ok_bind hl
      cases hl
      unfold Fresh.fnCompile at hl'
      simp only at hl'
      split_ifs at hl'
      cases hl'
      rfl
    · rw [if_neg hq] at hl; cases hl

example (V SRF : Scatter) : Reachable (exW .sympy V SRF) ∧
    ∀ op ∈ [Op.setBistatic 1 none none none none, Op.evalCalc 1 [("tau", Arr.lit 1)]], op.Plain :=
  ⟨demo_reachable .., by intro op hop; fin_cases hop <;> trivial⟩

end

end RT1
