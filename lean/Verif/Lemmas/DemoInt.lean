import Verif.Lemmas.IntSucc

/-! Concrete objects with scalar inputs, in any mode; observed interaction contributions. -/

namespace RT1

noncomputable section
open Classical

/-! ### histories of setter calls -/

/-- Calls that only set attributes of the object `id`. -/
def Op.Sets (id : ℕ) : Op → Prop
  | .setMonostatic i _ => i = id
  | .setBistatic i _ _ _ _ => i = id
  | .setGeometry i _ => i = id
  | .updateParams i _ => i = id
  | .setParamDef i _ _ => i = id
  | .setIntQ i _ => i = id
  | .setSig0 i _ => i = id
  | .setDB i _ => i = id
  | .setI0 i _ => i = id
  | .setV i _ => i = id
  | .setSRF i _ => i = id
  | .overwriteArg i _ _ => i = id
  | _ => False

theorem sets_obj {w : World} {id : ℕ} {o : Obj} (ho : w.objs id = some o) {op : Op} (h : op.Sets id) :
    (step op w).2.objs id = some (o.after op) := by
  cases op <;> first | exact h.elim | (have h' := h; simp only [Op.Sets] at h'; subst h')
  case setMonostatic => exact setMonostatic_obj ho _
  case setBistatic => exact setBistatic_obj ho _ _ _ _
  case setGeometry => exact setGeometry_obj ho _
  case updateParams =>
    show (updateParams _ _ w).2.objs _ = _
    rw [updateParams_eq ho]
    show Function.update w.objs _ _ _ = _
    rw [Function.update_self]; rfl
  all_goals exact modObj_get ho _

theorem sets_run {id : ℕ} (ops : List Op) : ∀ {w : World} {o : Obj}, w.objs id = some o →
    (∀ op ∈ ops, op.Sets id) → (run w ops).objs id = some (ops.foldl Obj.after o) := by
  induction ops with
  | nil => intro w o ho _; exact ho
  | cons op ops ih =>
    intro w o ho h
    rw [run_cons]
    exact ih (sets_obj ho (h op (List.mem_cons_self ..))) fun op' h' => h op' (List.mem_cons_of_mem _ h')

/-- A constructor call followed by setter calls. -/
theorem built_obj (b : Backend) (V SRF : Scatter) (q s d : Bool) (I : Arr) {ops : List Op}
    (h : ∀ op ∈ ops, op.Sets 0) :
    (run (initWorld b) (.new V SRF q s d none none I :: ops)).objs 0 =
      some (ops.foldl Obj.after ((initObj V SRF q s d none none I).afterMono none)) := by
  rw [run_cons]
  exact sets_run ops (new_obj V SRF q s d none none I (initWorld b)) h

/-! ### scalar inputs -/

/-- All inputs of the object are numbers. -/
structure ScalarObj (o : Obj) (x : Site) : Prop where
  t0 : o.ang .t0 = some (arr1 x.t0)
  p0 : o.ang .p0 = some (arr1 x.p0)
  ex : o.mono = true ∧ x.tex = x.t0 ∧ x.pex = x.p0 + Real.pi ∨
    o.mono = false ∧ o.ang .tex = some (arr1 x.tex) ∧ o.ang .pex = some (arr1 x.pex)
  I0 : o.I0 = Arr.lit x.I0
  params : ∀ q ∈ o.params, q.2 = arr1 (x.ρ q.1)
  defs : ∀ p, o.pdef p = .val (Arr.lit (x.par p)) ∨ o.pdef p = .val (arr1 (x.par p)) ∨
    ∃ e, o.pdef p = .str e ∧ (∀ s ∈ e.free, s ∈ o.params.keys) ∧
      e.evalX (fun k => XR.fin (x.ρ k)) = XR.fin (x.par p)
  V : ∀ s ∈ o.V.phase.free, s ∈ ["theta_0", "theta_ex", "phi_0", "phi_ex"] ++ o.params.keys
  SRF : ∀ s ∈ o.SRF.phase.free, s ∈ ["theta_0", "theta_ex", "phi_0", "phi_ex"] ++ o.params.keys

theorem arr1_fits (r : ℝ) : Arr.Fits (arr1 r).shape [1] := by
  simp [arr1, Arr.atleast1d, Arr.lit, Arr.num, Arr.Fits]

theorem Dict.mem_of_get? {d : Dict} {k : String} {a : Arr} (h : d.get? k = some a) : (k, a) ∈ d := by
  unfold Dict.get? at h
  cases hf : d.find? (fun p => decide (p.1 = k)) with
  | none => rw [hf] at h; cases h
  | some p =>
    rw [hf] at h
    cases h
    have h1 := List.mem_of_find?_eq_some hf
    have h2 := List.find?_some hf
    simp only [decide_eq_true_eq] at h2
    rw [← h2]
    exact h1

namespace ScalarObj
variable {o : Obj} {x : Site} (h : ScalarObj o x)
include h

theorem complete : Complete o [1] where
  t0 := ⟨_, h.t0, arr1_fits _⟩
  p0 := ⟨_, h.p0, arr1_fits _⟩
  tex := h.ex.imp (fun h => h.1) fun h => ⟨_, h.2.1, arr1_fits _⟩
  pex := h.ex.imp (fun h => h.1) fun h => ⟨_, h.2.2, arr1_fits _⟩
  I0 := by rw [h.I0]; simp [Arr.lit, Arr.num]
  params := by
    intro k a hk
    have := h.params _ (Dict.mem_of_get? hk)
    simp only at this
    rw [this]
    exact arr1_fits _
  defs := by
    intro p
    rcases h.defs p with e | e | ⟨e', e, hf, -⟩
    · rw [e]; simp [Arr.lit, Arr.num]
    · rw [e]; exact arr1_fits _
    · rw [e]; exact hf
  V := h.V
  SRF := h.SRF

theorem fsite (b : Backend) : FSite b o [0] x := by
  have hpar : ∀ p, HasVal (Fresh.par b o p) [0] (x.par p) := by
    intro p
    refine HasVal.of_succ (h.complete.s_par b p) ?_
    rcases h.defs p with e | e | ⟨e', e, hf, hv⟩
    · exact PW.parVal e [0]
    · exact PW.parVal e [0]
    · have := PW.parStr (b := b) e [0]
      rw [← hv]
      refine fun z hz => (this z hz).trans (Expr.evalX_congr fun s hs => ?_)
      obtain ⟨a, ha⟩ := Dict.get?_of_mem (hf s hs)
      unfold Dict.valAt
      rw [ha]
      have := h.params _ (Dict.mem_of_get? ha)
      simp only at this
      rw [this]
      exact arr1_at _ _
  have ht0 : Fresh.ang o .t0 = .ok (arr1 x.t0) := by unfold Fresh.ang; rw [h.t0]
  have hp0 : Fresh.ang o .p0 = .ok (arr1 x.p0) := by unfold Fresh.ang; rw [h.p0]
  refine ⟨⟨_, ht0, arr1_at _ _⟩, ?_, ⟨_, hp0, arr1_at _ _⟩, ?_, hpar .tau, hpar .omega, hpar .NormBRDF,
    hpar .bsf, by rw [h.I0]; rfl, ?_⟩
  · rcases h.ex with ⟨hm, e1, e2⟩ | ⟨hm, e1, e2⟩
    · exact ⟨arr1 x.t0, by unfold Fresh.tex; rw [if_pos hm, ht0], by rw [e1]; exact arr1_at _ _⟩
    · refine ⟨arr1 x.tex, ?_, arr1_at _ _⟩
      unfold Fresh.tex Fresh.ang
      rw [if_neg (by simp [hm]), e1]
  · rcases h.ex with ⟨hm, e1, e2⟩ | ⟨hm, e1, e2⟩
    · refine HasVal.of_succ h.complete.s_pex ?_
      unfold Fresh.pex
      rw [if_pos hm, hp0, e2]
      exact PW.map2 (f := XR.add) (a := arr1 x.p0) (b := Arr.lit Real.pi) (idx := [0]) (arr1_at _ _) rfl
    · refine ⟨arr1 x.pex, ?_, arr1_at _ _⟩
      unfold Fresh.pex Fresh.ang
      rw [if_neg (by simp [hm]), e2]
  · intro k a hk
    have := h.params _ (Dict.mem_of_get? hk)
    simp only at this
    rw [this]
    exact arr1_at _ _

theorem aligned (b : Backend) : Aligned b o 1 where
  pos := le_refl _
  t0 a ha := by rw [h.t0] at ha; cases ha; rfl
  p0 a ha := by rw [h.p0] at ha; cases ha; exact le_refl _
  tex hm a ha := by
    rcases h.ex with ⟨hm', -⟩ | ⟨-, e, -⟩
    · rw [hm'] at hm; cases hm
    · rw [e] at ha; cases ha; rfl
  pex hm a ha := by
    rcases h.ex with ⟨hm', -⟩ | ⟨-, -, e⟩
    · rw [hm'] at hm; cases hm
    · rw [e] at ha; cases ha; exact le_refl _
  params p hp := by rw [h.params p hp]; exact le_refl _
  tau a ha := by
    obtain ⟨a', ha', hf⟩ := h.complete.s_par b .tau
    rw [ha] at ha'; cases ha'
    exact hf.length
  const := .inl rfl

theorem completeI {b : Backend} (hq : o.intQ = true) (hok : ObjOK b o) (hg : GeomOK o)
    (hfn : ∃ fs, fnCoefs o.V o.SRF o.geom = .ok fs) (hV : ∃ n, o.V.ncoefs = .ok (n + 1))
    (hS : ∃ n, o.SRF.ncoefs = .ok (n + 1))
    (hv : ∀ l, o.fnevals_ = some l → l.vars = ["theta_0", "phi_0", "theta_ex", "phi_ex"] ++ o.params.keys) :
    CompleteI b o [1] where
  base := h.complete
  aligned := h.aligned b
  intQ := hq
  objOK := hok
  fnI := hg.fnI
  fneI := hg.fneI
  fn := hfn
  V := hV
  SRF := hS
  params a ha := by
    obtain ⟨q, hq, rfl⟩ := List.mem_map.mp ha
    rw [h.params q hq]
    exact arr1_fits _
  vars := hv

end ScalarObj

theorem Aligned.filled {b b' : Backend} {o o' : Obj} (hf : Filled b' o o') {r : ℕ} (h : Aligned b o r) :
    Aligned b o' r where
  pos := h.pos
  t0 := by rw [hf.ang]; exact h.t0
  tex := by rw [hf.ang, hf.mono]; exact h.tex
  p0 := by rw [hf.ang]; exact h.p0
  pex := by rw [hf.ang, hf.mono]; exact h.pex
  params := by rw [hf.params]; exact h.params
  tau := by rw [hf.f_par]; exact h.tau
  const := by rw [hf.V, hf.SRF, hf.geom]; exact h.const

/-- An interaction contribution can be observed wherever the memo-free evaluation succeeds. -/
theorem ObservesP.of {w : World} (hw : ReachableP w) {id : ℕ} {o : Obj}
    (ho : w.objs id = some o) (kw : Dict) {arr : Arr}
    (hF : Fresh.interaction w.backend (Fresh.update o kw) = .ok arr) {idx : List ℕ} {x : Site} {r : ℕ}
    (hal : Aligned w.backend (Fresh.update o kw) r)
    (hv : Arr.Valid arr.shape idx) (hs : FSite w.backend (Fresh.update o kw) idx x) :
    ObservesP o.cfg o.mode x (arr.get idx) := by
  obtain ⟨h1, h2⟩ := interaction_eq hw.reachable.inv ho kw
  obtain ⟨o', ho', hf⟩ := h2.obj
  refine ⟨w, id, kw, arr, (interaction id kw w).2, idx, hw, ?_, hv, rfl, ?_, o', ho', ?_, ?_, r, ?_⟩
  · rw [← hF, ← h1]
  · refine SiteAt.of_fsite h2.inv ho' ?_
    rw [h2.backend]
    exact FSite.filled hf hs
  · rw [hf.cfg]; rfl
  · show Mode.mk o'.mono o'.fixed = _
    rw [hf.mono, hf.fixed]; rfl
  · rw [h2.backend]
    exact hal.filled hf

theorem interaction_shape_one {b : Backend} {o : Obj} {x : Site} (h : ScalarObj o x)
    (hc : CompleteI b o [1]) : ∃ arr, Fresh.interaction b o = .ok arr ∧ Arr.Valid arr.shape [0] := by
  obtain ⟨arr, e, hf⟩ := hc.freshInteraction
  refine ⟨arr, e, ?_⟩
  obtain ⟨z, hz, hz'⟩ := ok_bind e
  have hm : Fresh.mu0 o = .ok (Arr.cos (arr1 x.t0)) := by
    unfold Fresh.mu0 Fresh.ang; rw [h.t0]; rfl
  have := Below.convert (Below.interaction_mu0 hm z hz) arr hz'
  exact shape_one (m := Arr.cos (arr1 x.t0)) rfl this hf

theorem ReachableP.of_ops {b : Backend} {ops : List Op} (h : ∀ op ∈ ops, op.Proper) :
    ReachableP (run (initWorld b) ops) := ⟨b, ops, h, rfl⟩

theorem ObjOK.none {b : Backend} {o : Obj} (h1 : o.fn_ = none) (h2 : o.fnevals_ = none) : ObjOK b o :=
  ⟨fun f hf => (by rw [h1] at hf; cases hf), fun l hl => (by rw [h2] at hl; cases hl)⟩

/-! ### interaction contributions of objects built by setter calls -/

/-- Values of the four parameters and of further parameters `l`. -/
def scalarKw (x : Site) (l : List (String × ℝ)) : Dict :=
  [("bsf", Arr.lit x.bsf), ("tau", Arr.lit x.tau), ("omega", Arr.lit x.omega),
    ("NormBRDF", Arr.lit x.NormBRDF)] ++ l.map fun q => (q.1, Arr.lit q.2)

/-- The setter calls: the mode with fixed angles, the other angles, the parameters. -/
def scalarOps (x : Site) (mono : Bool) (fx : AngN → Bool) (kw : Dict) : List Op :=
  let arg (n : AngN) : Option PyArg := if fx n then some (.number (x.angle n)) else none
  let set (s : String) (n : AngN) : List (String × Option Arr) :=
    if fx n then [] else [(s, some (Arr.lit (x.angle n)))]
  if mono then
    [.setMonostatic 0 (arg .p0),
     .setGeometry 0 (("t_0", some (Arr.lit x.t0)) :: set "p_0" .p0), .updateParams 0 kw]
  else
    [.setBistatic 0 (arg .t0) (arg .tex) (arg .p0) (arg .pex),
     .setGeometry 0 (set "t_0" .t0 ++ set "t_ex" .tex ++ set "p_0" .p0 ++ set "p_ex" .pex),
     .updateParams 0 kw]

/-- The object after the constructor and `scalarOps`. -/
def scalarObj (V SRF : Scatter) (q s d : Bool) (x : Site) (mono : Bool) (fx : AngN → Bool)
    (kw : Dict) : Obj :=
  (scalarOps x mono fx kw).foldl Obj.after ((initObj V SRF q s d none none (Arr.lit x.I0)).afterMono none)

/-- The state after the constructor and `scalarOps`. -/
def scalarW (b : Backend) (V SRF : Scatter) (q s d : Bool) (x : Site) (mono : Bool) (fx : AngN → Bool)
    (kw : Dict) : World :=
  run (initWorld b) (.new V SRF q s d none none (Arr.lit x.I0) :: scalarOps x mono fx kw)

theorem scalarOps_sets (x : Site) (mono : Bool) (fx : AngN → Bool) (kw : Dict) :
    ∀ op ∈ scalarOps x mono fx kw, op.Sets 0 := by
  intro op hop
  cases mono <;>
    simp only [scalarOps, if_true, if_false, Bool.false_eq_true, List.mem_cons, List.not_mem_nil,
      or_false] at hop <;> rcases hop with rfl | rfl | rfl <;> rfl

theorem scalarW_obj (b : Backend) (V SRF : Scatter) (q s d : Bool) (x : Site) (mono : Bool)
    (fx : AngN → Bool) (kw : Dict) :
    (scalarW b V SRF q s d x mono fx kw).objs 0 = some (scalarObj V SRF q s d x mono fx kw) :=
  built_obj b V SRF q s d _ (scalarOps_sets x mono fx kw)

theorem scalarW_backend (b : Backend) (V SRF : Scatter) (q s d : Bool) (x : Site) (mono : Bool)
    (fx : AngN → Bool) (kw : Dict) : (scalarW b V SRF q s d x mono fx kw).backend = b :=
  run_backend _ _

theorem scalarW_reachableP (b : Backend) (V SRF : Scatter) (q s d : Bool) (x : Site) (mono : Bool)
    (fx : AngN → Bool) (kw : Dict) : ReachableP (scalarW b V SRF q s d x mono fx kw) := by
  refine .of_ops ?_
  have harg : ∀ n, (if fx n then some (PyArg.number (x.angle n)) else none) ≠ some .other := by
    intro n; split_ifs <;> simp
  intro op hop
  cases mono <;>
    simp only [scalarOps, if_true, if_false, Bool.false_eq_true, List.mem_cons, List.not_mem_nil,
      or_false] at hop <;> rcases hop with rfl | rfl | rfl | rfl
  · exact ⟨rfl, rfl⟩
  · exact ⟨harg _, harg _, harg _, harg _⟩
  · trivial
  · trivial
  · exact ⟨rfl, rfl⟩
  · exact harg _
  · trivial
  · trivial

theorem Dict.get?_of_nodup {d : Dict} (hd : d.keys.Nodup) {q : String × Arr} (h : q ∈ d) :
    d.get? q.1 = some q.2 := by
  induction d with
  | nil => cases h
  | cons p d ih =>
    rw [Dict.get?_cons]
    have hd' : (p.1 :: Dict.keys d).Nodup := hd
    rw [List.nodup_cons] at hd'
    rcases List.mem_cons.mp h with h | h
    · rw [h]; simp
    · rw [if_neg]
      · exact ih hd'.2 h
      · intro e
        exact hd'.1 (by rw [e]; exact List.mem_map_of_mem h)

theorem lastValue_mem {l : Dict} {k : String} {v : Arr} (h : lastValue l k = some v) : (k, v) ∈ l := by
  induction l with
  | nil => cases h
  | cons p l ih =>
    rw [lastValue_cons] at h
    cases hl : lastValue l k with
    | some v' =>
      rw [hl] at h
      cases h
      exact List.mem_cons_of_mem _ (ih hl)
    | none =>
      rw [hl] at h
      by_cases hp : p.1 = k
      · rw [if_pos hp] at h
        cases h
        rw [← hp]
        exact List.mem_cons_self ..
      · rw [if_neg hp] at h
        cases h

theorem lastValue_ne_none {l : Dict} {k : String} (h : k ∈ l.keys) : lastValue l k ≠ none := by
  induction l with
  | nil => cases h
  | cons p l ih =>
    rw [lastValue_cons]
    rcases List.mem_cons.mp (show k ∈ p.1 :: Dict.keys l from h) with h | h
    · rw [if_pos h.symm]; cases lastValue l k <;> simp
    · cases hv : lastValue l k with
      | none => exact absurd hv (ih h)
      | some v => simp

/-- The site belongs to the parameter values. -/
structure Site.Reports (x : Site) (l : List (String × ℝ)) : Prop where
  bsf : x.ρ "bsf" = x.bsf
  tau : x.ρ "tau" = x.tau
  omega : x.ρ "omega" = x.omega
  NormBRDF : x.ρ "NormBRDF" = x.NormBRDF
  more : ∀ q ∈ l, x.ρ q.1 = q.2

theorem scalar_params (V SRF : Scatter) (q s d : Bool) (x : Site) (mono : Bool) (fx : AngN → Bool)
    (kw : Dict) : (scalarObj V SRF q s d x mono fx kw).params =
      Dict.update [("bsf", Arr.lit 0)] (kw.map fun p => (p.1, p.2.atleast1d)) := by
  cases mono <;> simp only [scalarObj, scalarOps, if_true, if_false, Bool.false_eq_true, List.foldl_cons,
    List.foldl_nil, Obj.after]
  all_goals
    rw [update_params]
    · rw [(afterGeom_params _ _).1]
      first
      | rw [(afterBi_params _ _ _ _ _).1]; rfl
      | rw [(afterMono_params _ _).1]; rfl
    · rw [(afterGeom_params _ _).1]
      first
      | rw [(afterBi_params _ _ _ _ _).1]; simp [Dict.keys, Obj.afterMono, Obj.reset, initObj]
      | rw [(afterMono_params _ _).1]; simp [Dict.keys, Obj.afterMono, Obj.reset, initObj]

theorem scalar_keys (V SRF : Scatter) (q s d : Bool) (x : Site) (mono : Bool) (fx : AngN → Bool)
    (l : List (String × ℝ)) (k : String) :
    k ∈ (scalarObj V SRF q s d x mono fx (scalarKw x l)).params.keys ↔
      k ∈ ["bsf", "tau", "omega", "NormBRDF"] ++ l.map Prod.fst := by
  rw [scalar_params, Dict.mem_keys_update, Dict.keys_map_snd _ Arr.atleast1d]
  simp only [scalarKw, Dict.keys, List.map_cons, List.map_nil, List.map_append, List.map_map,
    Function.comp_def, List.mem_append, List.mem_cons, List.not_mem_nil, or_false]
  tauto

theorem scalar_pdef (V SRF : Scatter) (q s d : Bool) (x : Site) (mono : Bool) (fx : AngN → Bool)
    (kw : Dict) : (scalarObj V SRF q s d x mono fx kw).pdef = defaultDefs := by
  cases mono <;> simp only [scalarObj, scalarOps, if_true, if_false, Bool.false_eq_true, List.foldl_cons,
    List.foldl_nil, Obj.after]
  all_goals
    show (Obj.afterGeom _ _).pdef = _
    rw [(afterGeom_params _ _).2]
    first
    | rw [(afterBi_params _ _ _ _ _).2]; rfl
    | rw [(afterMono_params _ _).2]; rfl

/-- The remaining attributes. -/
structure ScalarGeom (o : Obj) (V SRF : Scatter) (q s d : Bool) (x : Site) (m : Bool)
    (fx : AngN → Bool) : Prop where
  cfg : o.cfg = ⟨V, SRF, q, s, d⟩
  mono : o.mono = m
  fixed : ∀ n, n ∈ o.fixed ↔ fx n = true ∧ (m = true → n = .p0)
  fixed_none : (∀ n, fx n = false) → o.fixed = []
  fixed_p0 : m = true → fx .p0 = true → o.fixed = [.p0]
  I0 : o.I0 = Arr.lit x.I0
  t0 : o.ang .t0 = some (arr1 x.t0)
  p0 : o.ang .p0 = some (arr1 x.p0)
  ex : m = false → o.ang .tex = some (arr1 x.tex) ∧ o.ang .pex = some (arr1 x.pex)
  fn_ : o.fn_ = none
  fnevals_ : o.fnevals_ = none

theorem scalar_geom (V SRF : Scatter) (q s d : Bool) (x : Site) (mono : Bool) (fx : AngN → Bool)
    (kw : Dict) : ScalarGeom (scalarObj V SRF q s d x mono fx kw) V SRF q s d x mono fx := by
  suffices H : ∀ o : Obj, ScalarGeom o V SRF q s d x mono fx →
      ScalarGeom (Fresh.update o kw) V SRF q s d x mono fx by
    cases mono <;> simp only [scalarObj, scalarOps, if_true, if_false, Bool.false_eq_true,
      List.foldl_cons, List.foldl_nil, Obj.after]
    · refine H _ ?_
      cases h1 : fx .t0 <;> cases h2 : fx .tex <;> cases h3 : fx .p0 <;> cases h4 : fx .pex <;>
        refine ⟨?_, ?_, ?_, ?_, ?_, ?_, ?_, ?_, ?_, ?_, ?_⟩ <;>
        first
        | (intro n; cases n <;> simp [Obj.afterGeom, Obj.angLoop, AngN.ofName, Obj.afterBi,
            Obj.fixLoop, Obj.fix, Obj.reset, PyArg.ok, h1, h2, h3, h4]; done)
        | (intro h
           have e1 := h .t0; have e2 := h .tex; have e3 := h .p0; have e4 := h .pex
           rw [h1] at e1; rw [h2] at e2; rw [h3] at e3; rw [h4] at e4
           contradiction)
        | simp [Obj.afterGeom, Obj.angLoop, AngN.ofName, Obj.afterBi,
            Obj.fixLoop, Obj.fix, Obj.reset, PyArg.ok, Site.angle, arr1, Obj.cfg, initObj, Obj.afterMono]
    · refine H _ ?_
      cases h3 : fx .p0 <;>
        refine ⟨?_, ?_, ?_, ?_, ?_, ?_, ?_, ?_, ?_, ?_, ?_⟩ <;>
        first
        | (intro n; cases n <;> simp [Obj.afterGeom, Obj.angLoop, AngN.ofName, Obj.afterMono,
            Obj.fix, Obj.reset, h3])
        | (intro h; have e3 := h .p0; rw [h3] at e3; contradiction)
        | simp [Obj.afterGeom, Obj.angLoop, AngN.ofName, Obj.afterMono,
            Obj.fix, Obj.reset, Site.angle, arr1, Obj.cfg, initObj]
  intro o h
  exact ⟨h.cfg, h.mono, h.fixed, h.fixed_none, h.fixed_p0, h.I0, h.t0, h.p0, h.ex, h.fn_, h.fnevals_⟩

theorem scalar_scalar {V SRF : Scatter} (q s d : Bool) {x : Site} {mono : Bool} (fx : AngN → Bool)
    {l : List (String × ℝ)} (hx : mono = true → x.tex = x.t0 ∧ x.pex = x.p0 + Real.pi)
    (hr : x.Reports l)
    (hV : ∀ s ∈ V.phase.free, s ∈ ["theta_0", "theta_ex", "phi_0", "phi_ex"] ++ l.map Prod.fst)
    (hS : ∀ s ∈ SRF.phase.free, s ∈ ["theta_0", "theta_ex", "phi_0", "phi_ex"] ++ l.map Prod.fst) :
    ScalarObj (scalarObj V SRF q s d x mono fx (scalarKw x l)) x := by
  have hg := scalar_geom V SRF q s d x mono fx (scalarKw x l)
  have hk := scalar_keys V SRF q s d x mono fx l
  have hp := scalar_params V SRF q s d x mono fx (scalarKw x l)
  have hd := scalar_pdef V SRF q s d x mono fx (scalarKw x l)
  have hB : BsfOK (scalarObj V SRF q s d x mono fx (scalarKw x l)) :=
    (ReachableAny.bsfOK (w := scalarW .sympy V SRF q s d x mono fx (scalarKw x l)) ⟨_, _, rfl⟩
      (scalarW_obj .sympy V SRF q s d x mono fx _))
  have hfree : ∀ k, k ∈ ["theta_0", "theta_ex", "phi_0", "phi_ex"] ++ l.map Prod.fst →
      k ∈ ["theta_0", "theta_ex", "phi_0", "phi_ex"] ++
        (scalarObj V SRF q s d x mono fx (scalarKw x l)).params.keys := by
    intro s hs
    rcases List.mem_append.mp hs with h | h
    · exact List.mem_append_left _ h
    · exact List.mem_append_right _ ((hk s).mpr (List.mem_append_right _ h))
  refine ⟨hg.t0, hg.p0, ?_, hg.I0, ?_, ?_, ?_, ?_⟩
  · cases mono with
    | true => exact .inl ⟨hg.mono, (hx rfl).1, (hx rfl).2⟩
    | false => exact .inr ⟨hg.mono, (hg.ex rfl).1, (hg.ex rfl).2⟩
  · intro q' hq'
    have h1 := Dict.get?_of_nodup hB.2 hq'
    rw [hp, Dict.get?_update] at h1
    have key : ∀ q' ∈ scalarKw x l, q'.2.atleast1d = arr1 (x.ρ q'.1) := by
      intro q' h
      simp only [scalarKw, List.mem_append, List.mem_cons, List.not_mem_nil, or_false,
        List.mem_map] at h
      rcases h with (rfl | rfl | rfl | rfl) | ⟨y, hy, rfl⟩
      · simp only [hr.bsf]; rfl
      · simp only [hr.tau]; rfl
      · simp only [hr.omega]; rfl
      · simp only [hr.NormBRDF]; rfl
      · simp only [hr.more y hy]; rfl
    cases hv : lastValue (List.map (fun p => (p.1, p.2.atleast1d)) (scalarKw x l)) q'.1 with
    | some v =>
      rw [hv] at h1
      cases h1
      obtain ⟨y, hy, e⟩ := List.mem_map.mp (lastValue_mem hv)
      obtain ⟨e1, e2⟩ := Prod.mk.inj e
      rw [← e1, ← e2]
      exact key y hy
    | none =>
      exfalso
      rw [hv] at h1
      have h2 : ("bsf", Arr.lit 0).1 = q'.1 := by
        by_contra hne
        rw [Dict.get?_cons, if_neg hne] at h1
        cases h1
      refine lastValue_ne_none (k := q'.1) ?_ hv
      rw [Dict.keys_map_snd _ Arr.atleast1d, ← h2]
      simp [scalarKw, Dict.keys]
  · intro p
    refine .inr (.inr ?_)
    rw [hd]
    cases p
    · exact ⟨.sym "tau", rfl, by intro s hs; simp [Expr.free] at hs; subst hs; rw [hk]; simp, by
        simp only [Expr.evalX, hr.tau]; rfl⟩
    · exact ⟨.sym "omega", rfl, by intro s hs; simp [Expr.free] at hs; subst hs; rw [hk]; simp, by
        simp only [Expr.evalX, hr.omega]; rfl⟩
    · exact ⟨.sym "NormBRDF", rfl, by intro s hs; simp [Expr.free] at hs; subst hs; rw [hk]; simp, by
        simp only [Expr.evalX, hr.NormBRDF]; rfl⟩
    · exact ⟨.sym "bsf", rfl, by intro s hs; simp [Expr.free] at hs; subst hs; rw [hk]; simp, by
        simp only [Expr.evalX, hr.bsf]; rfl⟩
  · have e : (scalarObj V SRF q s d x mono fx (scalarKw x l)).V = V := by
      have := congrArg Cfg.V hg.cfg; exact this
    rw [e]; exact fun s hs => hfree s (hV s hs)
  · have e : (scalarObj V SRF q s d x mono fx (scalarKw x l)).SRF = SRF := by
      have := congrArg Cfg.SRF hg.cfg; exact this
    rw [e]; exact fun s hs => hfree s (hS s hs)

theorem scalar_cfg (V SRF : Scatter) (q s d : Bool) (x : Site) (mono : Bool) (fx : AngN → Bool)
    (kw : Dict) : (scalarObj V SRF q s d x mono fx kw).cfg = ⟨V, SRF, q, s, d⟩ :=
  (scalar_geom V SRF q s d x mono fx kw).cfg

theorem scalar_update (V SRF : Scatter) (q s d : Bool) (x : Site) (mono : Bool) (fx : AngN → Bool)
    (kw : Dict) : Fresh.update (scalarObj V SRF q s d x mono fx kw) [] =
      scalarObj V SRF q s d x mono fx kw := by
  cases mono <;> exact update_update_nil _ _

/-- `interaction()` of the example objects returns a value. -/
theorem scalar_interaction (b : Backend) {V SRF : Scatter} (s d : Bool) {x : Site} {mono : Bool}
    (fx : AngN → Bool)
    {l : List (String × ℝ)} (hx : mono = true → x.tex = x.t0 ∧ x.pex = x.p0 + Real.pi)
    (hr : x.Reports l)
    (hV : ∀ s ∈ V.phase.free, s ∈ ["theta_0", "theta_ex", "phi_0", "phi_ex"] ++ l.map Prod.fst)
    (hS : ∀ s ∈ SRF.phase.free, s ∈ ["theta_0", "theta_ex", "phi_0", "phi_ex"] ++ l.map Prod.fst)
    (hfn : ∀ g, ∃ fs, fnCoefs V SRF g = .ok fs) (hnV : ∃ n, V.ncoefs = .ok (n + 1))
    (hnS : ∃ n, SRF.ncoefs = .ok (n + 1)) :
    ∃ r F, (∀ n, n ∈ F ↔ fx n = true ∧ (mono = true → n = .p0)) ∧
      ((∀ n, fx n = false) → F = []) ∧
      (mono = true → fx .p0 = true → F = [.p0]) ∧
      ObservesP ⟨V, SRF, true, s, d⟩ ⟨mono, F⟩ x r := by
  have hsc := scalar_scalar true s d fx hx hr hV hS
  have hg := scalar_geom V SRF true s d x mono fx (scalarKw x l)
  have hw := scalarW_reachableP b V SRF true s d x mono fx (scalarKw x l)
  have ho := scalarW_obj b V SRF true s d x mono fx (scalarKw x l)
  have hb := scalarW_backend b V SRF true s d x mono fx (scalarKw x l)
  have hc := scalar_cfg V SRF true s d x mono fx (scalarKw x l)
  have hu := scalar_update V SRF true s d x mono fx (scalarKw x l)
  generalize scalarObj V SRF true s d x mono fx (scalarKw x l) = o at *
  have eV : o.V = V := by have := congrArg Cfg.V hc; exact this
  have eS : o.SRF = SRF := by have := congrArg Cfg.SRF hc; exact this
  have hci : CompleteI b o [1] := hsc.completeI (by have := congrArg Cfg.intQ hc; exact this)
    (ObjOK.none hg.fn_ hg.fnevals_) (hw.geomOK ho) (by rw [eV, eS]; exact hfn _)
    (by rw [eV]; exact hnV) (by rw [eS]; exact hnS)
    (fun l hl => by rw [hg.fnevals_] at hl; cases hl)
  obtain ⟨arr, hF, hv⟩ := interaction_shape_one hsc hci
  refine ⟨arr.get [0], o.fixed, hg.fixed, hg.fixed_none, hg.fixed_p0, ?_⟩
  have := ObservesP.of hw ho [] (arr := arr) (idx := [0]) (x := x) (r := 1) (by rw [hb, hu]; exact hF)
    (by rw [hb, hu]; exact hsc.aligned b) hv (by rw [hb, hu]; exact hsc.fsite b)
  rw [hc] at this
  have hm : o.mode = ⟨mono, o.fixed⟩ := by
    show Mode.mk o.mono o.fixed = _
    rw [hg.mono]
  rw [hm] at this
  exact this

end

end RT1
