import Verif.Spec.Names
import Verif.Lemmas.ScalarCall
import Verif.Lemmas.CallL
import Verif.Lemmas.Stale
import Verif.Props.Params
import Verif.Props.Extend

/-!
# The names of parameters (C89)
-/

namespace RT1

noncomputable section
open Classical

/-- The names in the dictionaries of the objects are `bsf` and the names the program supplies. -/
theorem names_supplied {ops : List Op} (b : Backend) {id : ℕ} {o : Obj} (ho : (run (initWorld b) ops).objs id = some o)
    {k : String} (hk : k ∈ o.params.keys) : k = "bsf" ∨ Supplies ops k := by
  have := allObj_history (Q := fun o => BsfOK o ∧ ∀ k ∈ o.params.keys, k = "bsf" ∨ Supplies ops k) (ops := ops)
    (fun o o' hc h => by
      unfold BsfOK
      rw [← (core_fields hc).2.2.2.1]
      exact h)
    (fun op hop o h => by
      refine ⟨h.1.after op, fun k hk => ?_⟩
      cases ht : op.target with
      | none =>
        obtain ⟨V, SRF, q, s, d, f, fe, i, rfl⟩ := Op.target_none ht
        exact h.2 k hk
      | some id =>
        rw [after_params h.1.1 ht, Dict.mem_keys_update, Dict.keys_map_snd _ Arr.atleast1d] at hk
        rcases hk with hk | hk
        · exact h.2 k hk
        · exact .inr ⟨op, hop, id, hk⟩)
    (fun V SRF q s d f fe i _ => by
      refine ⟨BsfOK.after ⟨by simp [initObj, Dict.keys], by simp [initObj, Dict.keys]⟩ _, fun k hk => ?_⟩
      have e : ((initObj V SRF q s d f fe i).after (.setMonostatic 0 none)).params = [("bsf", Arr.lit 0)] :=
        (afterMono_params _ _).1
      rw [e] at hk
      left
      simpa [Dict.keys] using hk) b ho
  exact this.2 k hk

theorem bsf_free : "bsf" ∉ moduleNames := by decide

theorem angles_free {n : String} (h : n ∈ ["theta_0", "phi_0", "theta_ex", "phi_ex"]) : n ∉ moduleNames := by
  simp only [List.mem_cons, List.not_mem_nil, or_false] at h
  rcases h with rfl | rfl | rfl | rfl <;> decide

/-- The names after a call in an intact state: a name of the module is only assigned if the program
supplies a parameter of that name. -/
theorem ScopedCall.clash {α : Type} {m : M α} {ns : List String} {b : Backend} {ops : List Op} {s s' : Scoped} {r : Py α} {op : Op}
    (h : ScopedCall m ns s r s') (hw : s.world = run (initWorld b) ops) (hi : Intact s.names)
    (hm : (m s.world).2 = (step op s.world).2) {n : String} (hn : n ∈ s'.names) (hmod : n ∈ moduleNames) :
    Supplies (ops ++ [op]) n := by
  rcases h.only hi n hn with h1 | h1 | ⟨id, o, ho, hk⟩
  · exact absurd hmod (hi n h1)
  · exact absurd hmod (angles_free h1)
  · rw [hm, hw] at ho
    have ho : (run (initWorld b) (ops ++ [op])).objs id = some o := by rw [run_append]; exact ho
    rcases names_supplied b ho hk with rfl | h2
    · exact absurd hmod bsf_free
    · exact h2

theorem ScopedExec.mono {ops : List Op} {s s' : Scoped} (h : ScopedExec ops s s') : s.names ⊆ s'.names := by
  induction h with
  | nil => exact subset_rfl
  | cons h _ ih => exact h.mono.trans ih

theorem ScopedExec.split {ops : List Op} {b : Backend} : ∀ {pre : List Op} {s s' : Scoped} (_ : ScopedExec ops s s')
    (_ : s.world = run (initWorld b) pre) (_ : Intact s.names),
    (∃ n ∈ s'.names, n ∈ moduleNames ∧ Supplies (pre ++ ops) n) ∨
      s'.world = run (initWorld b) (pre ++ ops) ∧ Intact s'.names := by
  induction ops with
  | nil =>
    intro pre s s' h hw hi
    cases h
    rw [List.append_nil]
    exact .inr ⟨hw, hi⟩
  | cons op ops ih =>
    intro pre s s' h hw hi
    cases h with
    | cons h hs =>
      rename_i s1 r
      by_cases h1 : Intact s1.names
      · have e := h.intact hi h1
        have hw1 : s1.world = run (initWorld b) (pre ++ [op]) := by
          rw [run_append, ← hw]
          show _ = (step op s.world).2
          rw [e]
        have := ih hs hw1 h1
        rwa [List.append_assoc] at this
      · left
        unfold Intact at h1
        push Not at h1
        obtain ⟨n, hn, hm⟩ := h1
        obtain ⟨o, ho, id, hk⟩ := h.clash hw hi rfl hn hm
        refine ⟨n, hs.mono hn, hm, o, ?_, id, hk⟩
        simp only [List.mem_append, List.mem_cons, List.not_mem_nil, or_false] at ho ⊢
        tauto

theorem ScopedExec.append {l l' : List Op} : ∀ {s s' : Scoped}, ScopedExec (l ++ l') s s' → ∃ t, ScopedExec l s t ∧ ScopedExec l' t s' := by
  induction l with
  | nil => intro s s' h; exact ⟨s, .nil s, h⟩
  | cons op l ih =>
    intro s s' h
    cases h with
    | cons h hs =>
      obtain ⟨t, h1, h2⟩ := ih hs
      exact ⟨t, .cons h h1, h2⟩

theorem Op.needs_module {op : Op} {n : String} (h : n ∈ op.needs) : n ∈ moduleNames := by
  have key : ∀ l : List String, l ⊆ moduleNames → n ∈ l → n ∈ moduleNames := fun l hl hn => hl hn
  cases op <;> simp only [Op.needs] at h
  case setGeometry kw => split_ifs at h <;> exact key _ (by decide) h
  case updateParams kw => split_ifs at h <;> exact key _ (by decide) h
  all_goals exact key _ (by decide) h

/-- Every call of a plain program is possible in every state. -/
theorem ScopedCall.exists {s : Scoped} (hs : Intact s.names → Reachable s.world) {op : Op} (hop : op.Plain) :
    ∃ r s', ScopedCall (step op) op.needs s r s' ∧ (Intact s'.names → Reachable s'.world) := by
  by_cases hi : Intact s.names
  · have hR := (hs hi).step hop
    refine ⟨(step op s.world).1, ⟨(step op s.world).2, s.names ∪ { n | Compiles (step op) s.world n }⟩,
      ⟨Set.subset_union_left, fun _ n hn => .inr hn, fun _ n hn => ?_, fun _ _ => rfl, fun n hn hin => ?_⟩, fun _ => hR⟩
    · rcases hn with hn | ⟨id, o, o', lam, -, -, ho', hl, hmem⟩
      · exact .inl hn
      · right
        obtain ⟨-, ks, f, hks, hlv, -⟩ := (hR.inv.obj rfl id o' ho').fnevals lam hl
        rw [hlv] at hmem
        rcases List.mem_append.1 hmem with h | h
        · exact .inl h
        · exact .inr ⟨id, o', ho', hks.subset h⟩
    · exact absurd (Op.needs_module hn) (hi n hin)
  · exact ⟨.error .attributeError, s, ⟨subset_rfl, fun h => absurd h hi, fun h => absurd h hi, fun h => absurd h hi,
      fun _ _ _ => ⟨_, rfl⟩⟩, fun h => absurd h hi⟩

/-- Every plain program has an execution. -/
theorem ScopedExec.exists {ops : List Op} : ∀ {s : Scoped} (_ : Intact s.names → Reachable s.world) (_ : ∀ op ∈ ops, op.Plain),
    ∃ s', ScopedExec ops s s' := by
  induction ops with
  | nil => intro s _ _; exact ⟨s, .nil s⟩
  | cons op ops ih =>
    intro s hs hp
    obtain ⟨r, s1, h1, h2⟩ := ScopedCall.exists hs (hp op List.mem_cons_self)
    obtain ⟨s', h3⟩ := ih h2 fun op h => hp op (List.mem_cons_of_mem _ h)
    exact ⟨s', .cons h1 h3⟩

/-- As long as no parameter is called like a name the module needs, programs behave as modelled in
`Model/State.lean`: the objects after every program, and what every further call returns. -/
theorem C89_names_partial {ops : List Op} (hn : ∀ k, Supplies ops k → k ∉ moduleNames) {b : Backend} {s : Scoped}
    (h : ScopedExec ops (Scoped.init b) s) :
    s.world = run (initWorld b) ops ∧
    (∀ {id : ℕ} {kw : Dict} {ns : List String} {r : Py Arr} {s' : Scoped}, (∀ k ∈ kw.keys, k ∉ moduleNames) →
      (ScopedCall (calcOp id kw) ns s r s' → r = (calcOp id kw (run (initWorld b) ops)).1) ∧
      (ScopedCall (surface id kw) ns s r s' → r = (surface id kw (run (initWorld b) ops)).1) ∧
      (ScopedCall (volume id kw) ns s r s' → r = (volume id kw (run (initWorld b) ops)).1) ∧
      (ScopedCall (interaction id kw) ns s r s' → r = (interaction id kw (run (initWorld b) ops)).1)) ∧
    (∀ {id : ℕ} {keys : List String} {format : String} {ns : List String} {r : Py (List Arr ⊕ List (List XR))} {s' : Scoped},
      ScopedCall (jacobian id keys format) ns s r s' → r = (jacobian id keys format (run (initWorld b) ops)).1) := by
  have key : s.world = run (initWorld b) ops ∧ Intact s.names := by
    rcases h.split (pre := []) rfl (fun n hn => by cases hn) with ⟨n, -, h1, h2⟩ | h1
    · exact absurd h1 (hn n h2)
    · exact h1
  obtain ⟨hw, hi⟩ := key
  have call : ∀ {α : Type} {m : M α} {ns : List String} {r : Py α} {s' : Scoped} (op : Op),
      (m s.world).2 = (step op s.world).2 → (∀ id, ∀ k ∈ (op.supplied id).keys, k ∉ moduleNames) →
      ScopedCall m ns s r s' → r = (m (run (initWorld b) ops)).1 := by
    intro α m ns r s' op hm hk hR
    have h1 : Intact s'.names := fun n hn1 hmod => by
      obtain ⟨o, ho, id, hmem⟩ := hR.clash hw hi hm hn1 hmod
      rcases List.mem_append.1 ho with ho | ho
      · exact hn n ⟨o, ho, id, hmem⟩ hmod
      · rw [List.mem_singleton.1 ho] at hmem
        exact hk id n hmem hmod
    rw [← hw, hR.intact hi h1]
  have sup : ∀ {kw : Dict} {id j : ℕ} {k : String}, k ∈ Dict.keys (if j = id then kw else []) → k ∈ kw.keys := by
    intro kw id j k hk
    split at hk
    · exact hk
    · cases hk
  refine ⟨hw, fun hk => ⟨fun hR => ?_, fun hR => ?_, fun hR => ?_, fun hR => ?_⟩, fun hR => ?_⟩
  · exact call (.evalCalc _ _) (bind_pure_state _ _).symm (fun id k h => hk k (sup h)) hR
  · exact call (.surface _ _) (bind_pure_state _ _).symm (fun id k h => hk k (sup h)) hR
  · exact call (.volume _ _) (bind_pure_state _ _).symm (fun id k h => hk k (sup h)) hR
  · exact call (.interaction _ _) (bind_pure_state _ _).symm (fun id k h => hk k (sup h)) hR
  · exact call (.jacobian _ _ _) (bind_pure_state _ _).symm (fun id k h => by cases h) hR

/-- A program with two objects and three calls of `calc`. -/
example (V SRF : Scatter) (d : Dict) (hd : d.keys = ["omega", "tau", "NormBRDF"]) (b : Backend) :
    let ops := [Op.new V SRF true true true none none (Arr.lit 1), .evalCalc 0 d, .new SRF V true true true none none (Arr.lit 1),
      .evalCalc 1 d, .evalCalc 0 []]
    (∃ s, ScopedExec ops (Scoped.init b) s) ∧ ∀ k, Supplies ops k → k ∉ moduleNames := by
  intro ops
  constructor
  · refine ScopedExec.exists (fun _ => ⟨b, [], by simp, rfl⟩) fun op h => ?_
    simp only [ops, List.mem_cons, List.not_mem_nil, or_false] at h
    rcases h with rfl | rfl | rfl | rfl | rfl <;> trivial
  · rintro k ⟨op, h, id, hk⟩
    have hk : k ∈ d.keys := by
      simp only [ops, List.mem_cons, List.not_mem_nil, or_false] at h
      rcases h with rfl | rfl | rfl | rfl | rfl
      · cases hk
      · replace hk : k ∈ Dict.keys (if 0 = id then d else []) := hk
        split at hk
        · exact hk
        · cases hk
      · cases hk
      · replace hk : k ∈ Dict.keys (if 1 = id then d else []) := hk
        split at hk
        · exact hk
        · cases hk
      · replace hk : k ∈ Dict.keys (if 0 = id then [] else []) := hk
        split at hk <;> cases hk
    rw [hd] at hk
    simp only [List.mem_cons, List.not_mem_nil, or_false] at hk
    rcases hk with rfl | rfl | rfl <;> decide

/-- A call that compiles the coefficients of *some* object with a parameter called `n` makes all later
calls that need the name `n` raise, for *all* objects. -/
theorem C89_clash_negation {α : Type} {m : M α} {ns : List String} {s s' : Scoped} {r : Py α} (h : ScopedCall m ns s r s')
    (hi : Intact s.names) {n : String} (hc : Compiles m s.world n) : BrokenFor n s' := by
  intro more s1 hs op r' s2 hneeds hR
  exact hR.fails n hneeds (hs.mono (h.assigns hi _ hc))

/-- Such programs, for all names: one object, `interaction()` is evaluated with a parameter called `n` (which
nothing uses).  Without the effect of `sp.var`, the call returns an array. -/
theorem C89_clash_counterexample (b : Backend) {n : String} (hmod : n ∈ moduleNames) : ∃ ops : List Op, (∀ op ∈ ops, op.Plain) ∧
    (∃ s, ScopedExec (ops ++ [.interaction 0 []]) (Scoped.init b) s) ∧
    (∀ s, ScopedExec (ops ++ [.interaction 0 []]) (Scoped.init b) s → BrokenFor n s) ∧
    ∃ arr, (interaction 0 [] (run (initWorld b) ops)).1 = .ok arr := by
  obtain ⟨x, hx⟩ : ∃ x : Site, x.tex = x.t0 ∧ x.pex = x.p0 + Real.pi ∧ x.Reports [(n, 1)] := by
    refine ⟨{ witSite 1 1 0 Real.pi with ρ := fun s => if s = n then 1 else (witSite 1 1 0 Real.pi).ρ s }, rfl,
      by simp [witSite], ?_⟩
    obtain ⟨h1, h2, h3, h4, -⟩ := witSite_reports 1 1 0 Real.pi
    have ne : ∀ {k : String}, k ∉ moduleNames → k ≠ n := fun hk e => hk (e ▸ hmod)
    refine ⟨?_, ?_, ?_, ?_, by simp⟩ <;> simp only
    · rw [if_neg (ne (by decide))]; exact h1
    · rw [if_neg (ne (by decide))]; exact h2
    · rw [if_neg (ne (by decide))]; exact h3
    · rw [if_neg (ne (by decide))]; exact h4
  obtain ⟨arr, w1, he, -, -⟩ := scalar_interaction_call b (V := isoV) (SRF := isoS) false false
    (x := x) (mono := true) (l := [(n, 1)]) (fun _ => ⟨hx.1, hx.2.1⟩) hx.2.2
    (fun n hn => List.mem_append_left _ (isoV_plain n hn))
    (fun n hn => List.mem_append_left _ (isoS_plain n hn)) iso_fnCoefs ⟨0, isoV_ncoefs⟩ ⟨0, isoS_ncoefs⟩
  have hwP := scalarW_reachableP b isoV isoS true false false x true (fun _ => false) (scalarKw x [(n, 1)])
  have ho := scalarW_obj b isoV isoS true false false x true (fun _ => false) (scalarKw x [(n, 1)])
  have hu := scalar_update isoV isoS true false false x true (fun _ => false) (scalarKw x [(n, 1)])
  have hk := (scalar_keys isoV isoS true false false x true (fun _ => false) [(n, 1)] n).2 (by simp)
  have hg := scalar_geom isoV isoS true false false x true (fun _ => false) (scalarKw x [(n, 1)])
  have hcomp : Compiles (step (.interaction 0 []))
      (scalarW b isoV isoS true false false x true (fun _ => false) (scalarKw x [(n, 1)])) n := by
    generalize scalarW b isoV isoS true false false x true (fun _ => false) (scalarKw x [(n, 1)]) = w at *
    generalize scalarObj isoV isoS true false false x true (fun _ => false) (scalarKw x [(n, 1)]) = o at *
    obtain ⟨u, o', hco⟩ := interaction_callOK hwP.reachable he
    have : u = o := by have := hco.before; rw [ho] at this; cases this; rfl
    subst this
    have hF := hco.filled.fnevals
    have hcore := hco.filled.core
    rw [hu] at hF hcore
    have hq : u.intQ = true := congrArg Cfg.intQ hg.cfg
    have hq' : o'.intQ = true := by
      have e : o'.core.intQ = u.core.intQ := congrArg Obj.intQ hcore
      have e : o'.intQ = u.intQ := e
      rw [e, hq]
    have hfi := (hwP.geomOK ho).fneI
    have hfi' : o'.fnevalsInput = none := by
      have e : o'.core.fnevalsInput = u.core.fnevalsInput := congrArg Obj.fnevalsInput hcore
      have e : o'.fnevalsInput = u.fnevalsInput := e
      rw [e, hfi]
    have hready : o'.Compiled := by
      have h1 := interaction_ready 0 [] w arr (by rw [he])
      rw [he] at h1
      exact h1 o' hco.after
    obtain ⟨lam, hl⟩ : ∃ l, o'.fnevals_ = some l := by
      rcases hready with h1 | h1 | h1
      · exact Option.isSome_iff_exists.1 h1
      · rw [hfi'] at h1; cases h1
      · rw [hq'] at h1; cases h1
    refine ⟨0, u, o', lam, ho, hg.fnevals_, ?_, hl, ?_⟩
    · show ((interaction 0 [] >>= fun _ => pure ()) w).2.objs 0 = _
      rw [bind_pure_state, he]
      exact hco.after
    · unfold Fresh.fnevals at hF
      rw [hl, hg.fnevals_, hfi, if_pos hq] at hF
      simp only at hF
      obtain ⟨f, -, h2⟩ := ok_bind hF.symm
      cases f with
      | none => cases h2
      | some f =>
        obtain ⟨lam', h3, h4⟩ := ok_bind h2
        cases h4
        unfold Fresh.fnCompile at h3
        simp only at h3
        split_ifs at h3
        cases h3
        exact List.mem_append_right _ hk
  have hplain : ∀ op ∈ Op.new isoV isoS true false false none none (Arr.lit x.I0) ::
      scalarOps x true (fun _ => false) (scalarKw x [(n, 1)]), op.Plain := by
    intro op hop
    simp only [scalarOps, if_true, List.mem_cons, List.not_mem_nil, or_false] at hop
    rcases hop with rfl | rfl | rfl | rfl <;> trivial
  refine ⟨_, hplain, ScopedExec.exists (fun _ => ⟨b, [], by simp, rfl⟩) fun op h => ?_, fun s hs => ?_, arr, ?_⟩
  · rcases List.mem_append.1 h with h | h
    · exact hplain op h
    · rw [List.mem_singleton.1 h]; trivial
  · obtain ⟨t, h1, h2⟩ := hs.append
    cases h2 with
    | cons hR hs' =>
      cases hs'
      rcases h1.split (pre := []) rfl (fun n hn => by cases hn) with ⟨k, hn, hm, op, hop, id, hk⟩ | ⟨hw, hi⟩
      · have : k = n := by
          have hk : k ∈ (scalarKw x [(n, 1)]).keys := by
            simp only [List.nil_append, scalarOps, if_true, List.mem_cons, List.not_mem_nil, or_false] at hop
            rcases hop with rfl | rfl | rfl | rfl
            · cases hk
            · cases hk
            · cases hk
            · replace hk : k ∈ Dict.keys (if 0 = id then scalarKw x [(n, 1)] else []) := hk
              split at hk
              · exact hk
              · cases hk
          simp only [scalarKw, Dict.keys, List.map_cons, List.map_nil, List.cons_append, List.nil_append, List.mem_cons,
            List.not_mem_nil, or_false] at hk
          rcases hk with rfl | rfl | rfl | rfl | rfl
          · exact absurd hm (by decide)
          · exact absurd hm (by decide)
          · exact absurd hm (by decide)
          · exact absurd hm (by decide)
          · rfl
        subst this
        intro more s1 hs op r' s2 hneeds hR'
        exact hR'.fails _ hneeds (hs.mono (hR.mono hn))
      · refine C89_clash_negation hR hi ?_
        rw [hw]
        exact hcomp
  · exact congrArg Prod.fst he

/-- The names for which calls are known to fail. -/
example : ∀ n ∈ ["dict", "set", "sp", "enumerate", "zip", "setattr", "np", "isinstance", "str", "int", "_log", "get_lambda_backend",
    "getattr", "type"], ∃ op : Op, n ∈ op.needs := by
  simp only [List.forall_mem_cons, List.not_mem_nil, false_imp_iff, implies_true, and_true]
  refine ⟨⟨.new exV exS true true true none none (Arr.lit 1), ?_⟩, ⟨.new exV exS true true true none none (Arr.lit 1), ?_⟩,
    ⟨.setMonostatic 0 none, ?_⟩, ⟨.setBistatic 0 none none none none, ?_⟩, ⟨.setBistatic 0 none none none none, ?_⟩,
    ⟨.setGeometry 0 [("t_0", none)], ?_⟩, ⟨.evalCalc 0 [], ?_⟩, ⟨.evalCalc 0 [], ?_⟩, ⟨.evalCalc 0 [], ?_⟩, ⟨.evalCalc 0 [], ?_⟩,
    ⟨.pickle 0, ?_⟩, ⟨.pickle 0, ?_⟩, ⟨.clearCaches 0, ?_⟩, ⟨.clearCaches 0, ?_⟩⟩ <;> simp [Op.needs]

end

end RT1
