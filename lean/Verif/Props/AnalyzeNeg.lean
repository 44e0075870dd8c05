import Verif.Props.Analyze3D
import Verif.Props.Missing

/-!
# Models the check of the analyzers accepts although they cannot be evaluated (C64)
-/

namespace RT1

noncomputable section
open Classical

/-- `calc` needs a value for every symbol in the definition of tau, also if it is called like an angle. -/
theorem calcAll_tau_missing {b : Backend} {o : Obj} {e : Expr} (he : o.pdef .tau = .str e) {a : String}
    (ha : a ∈ e.free) (hk : a ∉ o.params.keys) (res : Arr) : Fresh.calcAll b o ≠ .ok res := by
  have hp := par_str_missing (b := b) he ⟨a, ha, hk⟩
  have hb : (Fresh.acc0 b o).calcBody = .error
      (.typeError (e.free.dedup.filter fun k => decide (k ∉ o.params.keys))) := by
    unfold Acc.calcBody
    rw [show (Fresh.acc0 b o).par .tau = .error _ from hp]
    rfl
  intro h
  obtain ⟨names, h1, -⟩ := mem_missing (b := b) (o := o) (dv := Fresh.dVol b o) (ds := Fresh.dSrf b o)
  have h2 : Fresh.calcAll b o = ((Fresh.acc0 b o).missingNames >>= fun names => if names ≠ [] then
      throw (.typeError names) else
      throw (.typeError (e.free.dedup.filter fun k => decide (k ∉ o.params.keys))) : Py Arr) := by
    unfold Fresh.calcAll Acc.calcTry
    rw [hb]
    rfl
  rw [h2, show (Fresh.acc0 b o).missingNames = .ok names from h1] at h
  simp only [okb] at h
  split_ifs at h <;> cases h

theorem forall2_right {α β : Type} {R : α → β → Prop} {l : List α} {l' : List β} (h : List.Forall₂ R l l') {b : β}
    (hb : b ∈ l') : ∃ a ∈ l, R a b := by
  induction h with
  | nil => exact absurd hb List.not_mem_nil
  | cons h1 _ ih =>
    rcases List.mem_cons.mp hb with rfl | hb
    · exact ⟨_, List.mem_cons_self, h1⟩
    · obtain ⟨a, h2, h3⟩ := ih hb
      exact ⟨a, List.mem_cons_of_mem _ h2, h3⟩

/-- C64 is false if the definition of tau uses a symbol that is called like an angle and that has
neither a slider nor a value: the check does not report it, but the analyzer cannot be created. -/
theorem C64_angle_negation {w : World} (hw : Reachable w) {id : ℕ} {o : Obj} (ho : w.objs id = some o)
    (r : Option String) (ps : List (String × List SliderArg)) {e : Expr} (he : o.pdef .tau = .str e) {a : String}
    (ha : a ∈ e.free) (hk : a ∉ o.params.keys) (hps : a ∉ ps.map Prod.fst) :
    ¬ ∃ A w', analyze id r ps w = (.ok A, w') := by
  rintro ⟨A, w', h⟩
  obtain ⟨o1, h1, h2, -⟩ := C69_analyze hw ho r ps
  rw [h] at h1
  have hD : Drawn (fun op => ∀ b, op ≠ .setIntQ id b) id w' A := .start hw h
  obtain ⟨o', lines, res, h3, -, h4, -⟩ := C65_lines_partial hD
  rw [h1] at h3
  cases h3
  have hr : Reachable w' := (Session.start (P := fun _ => True) hw h).reachable
  rw [(calcOp_eq hr.inv h1 _).1] at h4
  have hb := (hr.keeps.any.bsfOK h1).1
  refine calcAll_tau_missing (o := Fresh.update o1 _) (by rw [Fresh.update_eq hb]; exact (congrFun h2.pdef .tau).trans he) ha ?_ res h4
  have hk1 : a ∉ o1.params.keys := fun hm => by
    obtain ⟨v, hv⟩ := Dict.get?_of_mem hm
    rw [h2.params a hps] at hv
    exact hk (Lam.mem_of_get? hv)
  rw [update_params hb, Dict.mem_keys_update]
  rintro (hm | hm)
  · exact hk1 hm
  · simp only [Dict.keys, List.map_map, List.mem_map, Function.comp] at hm
    obtain ⟨p, hp, rfl⟩ := hm
    have hs := (C64_sliders hw ho h).1
    obtain ⟨q, hq, hqp, -⟩ := forall2_right hs hp
    refine hps (List.mem_map.mpr ⟨q, List.mem_of_mem_filter hq, hqp.symm⟩)

/-- C64 is false in 3D if the definition of tau uses a parameter called "inc" that has no value in the
object: its slider satisfies the check, but its value is never passed on and creation fails. -/
theorem C64_inc_negation {w : World} (hw : Reachable w) {id : ℕ} {o : Obj} (ho : w.objs id = some o)
    (n : ℕ) (cs : List Char) (ps : List (String × List SliderArg)) {e : Expr} (he : o.pdef .tau = .str e)
    (ha : "inc" ∈ e.free) (hk : "inc" ∉ o.params.keys) :
    ¬ ∃ A w', analyze3d id n cs ps w = (.ok A, w') := by
  rintro ⟨A, w', h⟩
  obtain ⟨w4, o4, r4, h4, -, hst, ⟨g4, -⟩, h5⟩ := analyze3d_start (n := n) (ps := ps) hw ho (analyze3d_shows h)
  rw [h5] at h
  obtain ⟨sl, w5, hs, h⟩ := bind_ok_inv h
  have e5 : w5.objs = w4.objs := by
    have := ObjsKept.sliders id ps w4
    rw [hs] at this
    exact this
  have r5 : Reachable w5 := by
    have := (Runs.sliders (P := AnaOp2 id []) (id := id) (ps := ps) (.check _)).reachable
      (fun _ h => h.toAna.plain) r4
    rw [hs] at this
    exact this
  have h5 : w5.objs id = some o4 := by rw [e5, h4]
  obtain ⟨o', res, x, y, z, ks, hU⟩ := update3_ok r5 h5 g4 (first3_ok h).1
  have hb := (r5.keeps.any.bsfOK h5).1
  have hp : o4.params = o.params := (params_still hst :)
  have hd : o4.pdef = o.pdef := (pdef_still hst :)
  refine calcAll_tau_missing (e := e) (a := "inc") ?_ ha ?_ res hU.calc_
  · show (Fresh.update o4 (sliderVals (noInc sl))).pdef .tau = _
    rw [Fresh.update_eq hb]
    exact (congrFun hd _).trans he
  · show "inc" ∉ (Fresh.update o4 (sliderVals (noInc sl))).params.keys
    rw [update_params hb, Dict.mem_keys_update, hp]
    rintro (hm | hm)
    · exact hk hm
    · simp [Dict.keys, sliderVals, noInc] at hm

/-- The example with the definition of tau replaced by a symbol. -/
def symW (b : Backend) (k : String) : World :=
  (step (.setParamDef 0 .tau (.str (.sym k))) (numW b isoV isoS false false false 1 1 0 1 (1/2) 1)).2

theorem sym_obj (b : Backend) (k : String) : ∃ o, Reachable (symW b k) ∧ (symW b k).objs 0 = some o ∧
    o.pdef = Function.update defaultDefs .tau (.str (.sym k)) ∧ o.params.keys = ["bsf", "tau", "omega", "NormBRDF"] ∧
    o.V = isoV ∧ o.SRF = isoS := by
  have ho := num_objs b isoV isoS false false false 1 1 0 1 (1/2) 1
  have hr := num_reachable b isoV isoS false false false 1 1 0 1 (1/2) 1
  have hk := num_keys isoV isoS false false false 1 1 0 1 (1/2) 1
  have hd := num_pdef isoV isoS false false false 1 1 0 1 (1/2) 1
  have hV : (numObj isoV isoS false false false 1 1 0 1 (1/2) 1).V = isoV := rfl
  have hS : (numObj isoV isoS false false false 1 1 0 1 (1/2) 1).SRF = isoS := rfl
  unfold symW
  generalize numW b isoV isoS false false false 1 1 0 1 (1/2) 1 = w at *
  generalize numObj isoV isoS false false false 1 1 0 1 (1/2) 1 = o at *
  refine ⟨{ o with pdef := Function.update o.pdef .tau (.str (.sym k)) },
    hr.step (op := .setParamDef 0 .tau (.str (.sym k))) trivial, ?_, ?_, hk, hV, hS⟩
  · exact modObj_get (w := (clearParam w).2) (show (clearParam w).2.objs 0 = some o from ho) _
  · show Function.update o.pdef _ _ = _
    rw [hd]

theorem sym_needs {k n : String} {o : Obj} (hd : o.pdef = Function.update defaultDefs .tau (.str (.sym k)))
    (hV : o.V = isoV) (hS : o.SRF = isoS) (h : o.Needs n) :
    (n = k ∧ n ∉ ["theta_0", "theta_ex", "phi_0", "phi_ex"]) ∨ n = "omega" ∨ n = "NormBRDF" ∨ n = "bsf" := by
  obtain ⟨h, h'⟩ := h
  rcases h with ⟨p, e, hp, hn⟩ | h | h
  · rw [hd] at hp
    cases p <;> simp [Function.update, defaultDefs] at hp <;> subst hp <;>
        simp only [Expr.free, List.mem_singleton] at hn
    · exact .inl ⟨hn, h'⟩
    all_goals simp [hn]
  · rw [hV] at h
    exact absurd (isoV_plain n h) h'
  · rw [hS] at h
    exact absurd (isoS_plain n h) h'

/-- C64 is false: after `R.tau = "theta_0"` every symbol the check asks for has a value, but the
analyzer cannot be created. -/
theorem C64_angle_counterexample (b : Backend) : ∃ w o, Reachable w ∧ w.objs 0 = some o ∧
    (∀ n, o.Needs n → n ∈ o.params.keys) ∧ ¬ ∃ A w', analyze 0 none [] w = (.ok A, w') := by
  obtain ⟨o, hr, ho, hd, hk, hV, hS⟩ := sym_obj b "theta_0"
  refine ⟨symW b "theta_0", o, hr, ho, fun n hn => ?_,
    C64_angle_negation hr ho none [] (e := .sym "theta_0") (a := "theta_0") (by rw [hd]; simp) (by simp [Expr.free])
      (by rw [hk]; simp) (by simp)⟩
  rw [hk]
  rcases sym_needs hd hV hS hn with ⟨rfl, h⟩ | rfl | rfl | rfl
  · exact absurd (by simp) h
  all_goals simp

/-- C64 is false in 3D: after `R.tau = "inc"`, with a slider for `inc`, every symbol has a slider or a
value, but the analyzer cannot be created. -/
theorem C64_inc_counterexample (b : Backend) (n : ℕ) (cs : List Char) : ∃ w o, Reachable w ∧ w.objs 0 = some o ∧
    (∀ s, o.Needs s → s ∈ [("inc", [SliderArg.number 0, .number 1])].map Prod.fst ∨ s ∈ o.params.keys) ∧
    ¬ ∃ A w', analyze3d 0 n cs [("inc", [.number 0, .number 1])] w = (.ok A, w') := by
  obtain ⟨o, hr, ho, hd, hk, hV, hS⟩ := sym_obj b "inc"
  refine ⟨symW b "inc", o, hr, ho, fun n hn => ?_,
    C64_inc_negation hr ho n cs _ (e := .sym "inc") (by rw [hd]; simp) (by simp [Expr.free])
      (by rw [hk]; simp)⟩
  rw [hk]
  rcases sym_needs hd hV hS hn with ⟨rfl, h⟩ | rfl | rfl | rfl
  · simp
  all_goals simp

end

end RT1
