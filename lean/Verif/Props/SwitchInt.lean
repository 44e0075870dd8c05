import Verif.Lemmas.SwitchExact
import Verif.Spec.SwitchInt
import Verif.Props.Switch
import Verif.Props.Remembered
import Verif.Lemmas.ScalarCall

/-!
# Programs that switch the lambdify backend: interaction term and `calc`
-/

namespace RT1

noncomputable section
open Classical

/-! ### from evaluations to calls -/

theorem coefBackend_eq {s : World × Tags} {id : ℕ} {o : Obj} (ho : s.1.objs id = some o) :
    (o.fnevals_.isSome = true → s.2.fn id = Switch.coefBackend s id) ∧
      (o.fnevals_.isSome = false → s.1.backend = Switch.coefBackend s id) := by
  unfold Switch.coefBackend
  constructor
  · intro h
    rw [if_pos ⟨o, ho, fun h' => by rw [h'] at h; cases h⟩]
  · intro h
    rw [if_neg]
    rintro ⟨o', ho', h'⟩
    rw [ho] at ho'
    cases ho'
    exact h' (by simpa using h)

/-- The state in which a call with parameters is evaluated. -/
theorem Switch.kw_sf {s : World × Tags} {id : ℕ} {o : Obj} (hI : InvK s.1) (ho : s.1.objs id = some o) (kw : Dict)
    {kV kS : Backend} {u : Bool}
    (hu : u = true → Switch.backendOf s o.V (Fresh.update o kw).params.keys = kV ∧
      Switch.backendOf s o.SRF (Fresh.update o kw).params.keys = kS ∧
      ((kV = s.1.backend ∧ kS = s.1.backend) ∨
        Room s.2.scatter (o.V, (Fresh.update o kw).params.keys) (o.SRF, (Fresh.update o kw).params.keys))) :
    ∃ s' : World × Tags, SF s'.1 id (Fresh.update o kw) kV kS (Switch.coefBackend s id) u s' ∧
      s'.1.objs id = some (Fresh.update o kw) ∧
      ∀ {α : Type} (x : SM Tags α), (Switch.plain (updateParams id kw) >>= fun _ => x) s = x s' := by
  have e : (Switch.plain (updateParams id kw) : SM Tags Unit) s =
      (.ok (), ({ s.1 with objs := Function.update s.1.objs id (some (Fresh.update o kw)) }, s.2)) := by
    show ((updateParams id kw s.1).1, ((updateParams id kw s.1).2, s.2)) = _
    rw [updateParams_eq ho]
  have hself : (Function.update s.1.objs id (some (Fresh.update o kw))) id = some (Fresh.update o kw) :=
    Function.update_self ..
  refine ⟨({ s.1 with objs := Function.update s.1.objs id (some (Fresh.update o kw)) }, s.2), ?_, hself,
    fun x => by rw [SM.bind_ok e]⟩
  obtain ⟨h1, h2⟩ := coefBackend_eq ho
  exact ⟨⟨⟨hI.invC.updated ho kw, rfl, fun _ _ => rfl, Fresh.update o kw, hself, rfl⟩, hI.updated ho kw⟩,
    ⟨Fresh.update o kw, hself, rfl, h1, h2⟩, hu⟩

theorem mix_eq {kV kS k : Backend} {o : Obj} (h : ObjOK .sympy o) :
    Fresh.mix kV kS k o = (o.remembered.acc k).withBackends kV kS k := by
  unfold Fresh.mix
  rw [acc_eq (b := k) h]

theorem mix_same (k : Backend) (o : Obj) : (Fresh.mix k k k o).interaction = (Fresh.acc0 k o).interaction := rfl

theorem InvK.objOK {w : World} (h : InvK w) {id : ℕ} {o : Obj} (ho : w.objs id = some o) : ObjOK .sympy o :=
  h.full.obj rfl id o ho

theorem remembered_update (o : Obj) (kw : Dict) : (Fresh.update o kw).remembered = o.remembered.update kw := by
  unfold Obj.remembered Remembered.update
  rw [show (Fresh.update o kw).names = o.names from rfl]
  exact congrArg (fun r => (⟨r, o.names⟩ : Remembered)) (record_update o kw)

/-- `interaction` in any state of a program that switches. -/
theorem Switch.interaction_iff {s : World × Tags} {id : ℕ} {o : Obj} (hI : InvK s.1) (ho : s.1.objs id = some o) (kw : Dict)
    (z : Arr) : (Switch.interaction realPolicy id kw s).1 = .ok z ↔
      (o.remembered.update kw).interaction (Switch.coefBackend s id) = .ok z := by
  obtain ⟨s', hs, ho', e⟩ := Switch.kw_sf (kV := Switch.coefBackend s id) (kS := Switch.coefBackend s id) (u := false)
    hI ho kw (fun h => by cases h)
  have hx : (Switch.interaction realPolicy id kw s).1 = (((Switch.acc realPolicy id).interaction >>= fun x =>
      (Switch.acc realPolicy id).convert x) s').1 := congrArg Prod.fst (e _)
  rw [hx, ((Exact.bind SFx.interaction fun x => SFx.convert x) s' hs).2 z]
  have hok := hs.sk.k.objOK ho'
  rw [← remembered_update]
  unfold Remembered.interaction
  rw [← acc_eq (b := Switch.coefBackend s id) hok]
  rfl

/-- `calc` in any state of a program that switches. -/
theorem Switch.calc_iff {s : World × Tags} {id : ℕ} {o : Obj} (hI : InvK s.1) (ho : s.1.objs id = some o) (kw : Dict)
    {kV kS : Backend} (hV : Switch.backendOf s o.V (Fresh.update o kw).params.keys = kV)
    (hS : Switch.backendOf s o.SRF (Fresh.update o kw).params.keys = kS)
    (h : (kV = s.1.backend ∧ kS = s.1.backend) ∨
      Room s.2.scatter (o.V, (Fresh.update o kw).params.keys) (o.SRF, (Fresh.update o kw).params.keys)) (z : Arr) :
    (Switch.calcOp realPolicy id kw s).1 = .ok z ↔
      (o.remembered.update kw).total3 kV kS (Switch.coefBackend s id) = .ok z := by
  obtain ⟨s', hs, ho', e⟩ := Switch.kw_sf (u := true) hI ho kw (fun _ => ⟨hV, hS, h⟩)
  have hx : (Switch.calcOp realPolicy id kw s).1 = ((Switch.acc realPolicy id).calcTry s').1 := congrArg Prod.fst (e _)
  rw [hx, SFx.calcTry hs z]
  have hok := hs.sk.k.objOK ho'
  rw [← remembered_update]
  unfold Remembered.total3
  rw [← mix_eq hok]

/-! ## C73 -/

/-- **C73** (partial), the exact effect of `set_lambda_backend` on the interaction term: after any program, with calls
of `set_lambda_backend` at any place, `interaction` returns an array if and only if the plain record of the settings
and compiled names of the object returns this array with the backend of its coefficients: the one that was set when
they were compiled, and the current one if they have not been compiled since the last mode call.  Missing: the effect is
not immediate. -/
theorem C73_interaction_partial (b0 : Backend) {ops : List SOp} (hp : ∀ x ∈ ops, x.Plain) {id : ℕ} {o : Obj}
    (ho : (Switch.run realPolicy (initWorld b0, Tags.init) ops).1.objs id = some o) (kw : Dict) (z : Arr) :
    let s := Switch.run realPolicy (initWorld b0, Tags.init) ops
    (Switch.interaction realPolicy id kw s).1 = .ok z ↔
      (o.remembered.update kw).interaction (Switch.coefBackend s id) = .ok z :=
  Switch.interaction_iff (InvK.history realPolicy b0 Tags.init hp) ho kw z

/-- **C73** (partial), the exact effect of `set_lambda_backend` on `calc`: if not more than 126 phase functions have been
compiled, `calc` returns an array if and only if the record returns it with the backends that the volume phase
function, the surface phase function and the coefficients run with.  Without limit on the number of compiled
functions this holds if both phase functions are compiled with the current backend (or not compiled). -/
theorem C73_calc_partial (b0 : Backend) {ops : List SOp} (hp : ∀ x ∈ ops, x.Plain) {id : ℕ} {o : Obj}
    (ho : (Switch.run realPolicy (initWorld b0, Tags.init) ops).1.objs id = some o) (kw : Dict) (z : Arr) :
    let s := Switch.run realPolicy (initWorld b0, Tags.init) ops
    let names := (Fresh.update o kw).params.keys
    let kV := Switch.backendOf s o.V names
    let kS := Switch.backendOf s o.SRF names
    (s.2.scatter.length ≤ 126 ∨ (kV = s.1.backend ∧ kS = s.1.backend)) →
    ((Switch.calcOp realPolicy id kw s).1 = .ok z ↔
      (o.remembered.update kw).total3 kV kS (Switch.coefBackend s id) = .ok z) := by
  intro s names kV kS h
  refine Switch.calc_iff (InvK.history realPolicy b0 Tags.init hp) ho kw rfl rfl ?_ z
  rcases h with h | h
  · refine .inr ?_
    have hl : ∀ a, lacks s.2.scatter a ≤ 1 := fun a => by unfold lacks; split <;> omega
    have h1 := hl (o.V, names)
    have h2 := hl (o.SRF, names)
    show s.2.scatter.length + lacks s.2.scatter (o.V, names) + lacks s.2.scatter (o.SRF, names) ≤ 128
    omega
  · exact .inl h

/-! ### when the setting takes effect -/

theorem Fresh.update_again (o : Obj) (kw : Dict) : Fresh.update (Fresh.update o kw) [] = Fresh.update o kw := by
  by_cases hb : "bsf" ∈ (Fresh.update o kw).params.keys
  · exact Fresh.update_nil hb
  · have hd : ∀ e, (Fresh.update o kw).pdef .bsf = .str e → e ≠ .sym "bsf" := by
      rintro e he rfl
      apply hb
      have he : o.pdef .bsf = .str (.sym "bsf") := he
      unfold Fresh.update
      rw [he]
      simp only
      rw [Dict.mem_keys_update]
      have m2 : ∀ x : Dict, Dict.keys (x.map fun p => (p.1, p.2.atleast1d)) = x.keys :=
        fun x => Dict.keys_map_snd x Arr.atleast1d
      rw [m2]
      split_ifs with h
      · exact h
      · right
        simp [Dict.keys]
    generalize Fresh.update o kw = u at *
    unfold Fresh.update
    split
    · rename_i he
      exact (hd _ he rfl).elim
    · rfl

/-- A successful step leaves `P`. -/
def Est {T : Type} (P : World → Prop) {α : Type} (x : SM T α) : Prop := ∀ s a, (x s).1 = .ok a → P (x s).2.1

theorem Est.left {T : Type} {P : World → Prop} {α β : Type} {x : SM T α} {f : α → SM T β} (h : Est P x)
    (hf : ∀ a, SSafe P (f a)) : Est P (x >>= f) := by
  intro s a ha
  cases hx : x s with
  | mk r s' =>
    cases r with
    | error e => rw [SM.bind_error hx] at ha; cases ha
    | ok b =>
      have := h s b (by rw [hx])
      rw [hx] at this
      rw [SM.bind_ok hx]
      exact hf b s' this

theorem Est.right {T : Type} {P : World → Prop} {α β : Type} {x : SM T α} {f : α → SM T β} (hf : ∀ a, Est P (f a)) :
    Est P (x >>= f) := by
  intro s a ha
  cases hx : x s with
  | mk r s' =>
    cases r with
    | error e => rw [SM.bind_error hx] at ha; cases ha
    | ok b =>
      rw [SM.bind_ok hx] at ha ⊢
      exact hf b s' a ha

/-- The coefficients of the object `id` are supplied by the user or compiled. -/
def HasCoefs (id : ℕ) (w : World) : Prop := ∀ o, w.objs id = some o → o.fnevalsInput = none → o.fnevals_ ≠ none

theorem HasCoefs.safe {id : ℕ} {α : Type} {x : M α} (h : ObjsKept x) : Safe (HasCoefs id) x := by
  intro w hw o ho
  rw [h w] at ho
  exact hw o ho

theorem fnevals_has (id : ℕ) (w : World) {l : FnLam} (h : (Self.fnevals id w).1 = .ok (some l)) :
    HasCoefs id (Self.fnevals id w).2 := by
  cases ho : w.objs id with
  | none =>
    unfold Self.fnevals at h
    rw [getObj_bind_none ho] at h
    cases h
  | some o =>
    obtain ⟨hr, o', ho', hc, hl⟩ := fnevals_result ho
    intro o2 ho2 hi
    rw [ho'] at ho2
    cases ho2
    have hi' : o.fnevalsInput = none := by
      rw [← core_same Obj.fnevalsInput (fun _ => rfl) hc]; exact hi
    rw [hl]
    unfold Obj.lamAfter
    rw [hr] at h
    split_ifs with hcond
    · rw [h]; simp
    · intro hn
      have hq : ¬ o.intQ = true := fun hq => hcond ⟨hn, hi', hq⟩
      unfold Fresh.fnevals at h
      rw [hn, hi'] at h
      simp only [hq] at h
      cases h

theorem HasCoefs.stable (id : ℕ) : MemoStable (HasCoefs id) id where
  mu0 := HasCoefs.safe (.mu0 id)
  muEx := HasCoefs.safe (.muEx id)
  mu0x := HasCoefs.safe (.mu0x id)
  muExx := HasCoefs.safe (.muExx id)
  psym := fun p => HasCoefs.safe (.memo _ _ _ (.bind (.obj id) fun _ => .pure _))
  pfun := fun p => HasCoefs.safe (.paramFuncs id p)
  fnevals := by
    intro w hw
    cases ho : w.objs id with
    | none =>
      have : (Self.fnevals id w).2 = w := by
        unfold Self.fnevals
        rw [getObj_bind_none ho]
      rw [this]; exact hw
    | some o =>
      by_cases hi : o.fnevalsInput = none
      · obtain ⟨-, o', ho', hc, hl⟩ := fnevals_result ho
        intro o2 ho2 _
        rw [ho'] at ho2
        cases ho2
        rw [hl]
        unfold Obj.lamAfter
        rw [if_neg (fun h => hw o ho hi h.1)]
        exact hw o ho hi
      · obtain ⟨-, o', ho', hc, hl⟩ := fnevals_result ho
        intro o2 ho2 hi2
        rw [ho'] at ho2
        cases ho2
        exact (hi (by rw [← core_same Obj.fnevalsInput (fun _ => rfl) hc]; exact hi2)).elim
  dVol := fun k => HasCoefs.safe fun w => (kept_dVol w k w ⟨rfl, rfl, rfl⟩).1
  dSrf := fun k => HasCoefs.safe fun w => (kept_dSrf w k w ⟨rfl, rfl, rfl⟩).1

theorem interaction_has {T : Type} (P : Policy T) (id : ℕ) :
    Est (HasCoefs id) ((Switch.acc P id).interaction >>= fun x => (Switch.acc P id).convert x) := by
  have hS : AccSSafe (HasCoefs id) (Switch.acc P id) := (HasCoefs.stable id).sacc (fun _ _ h => h) P
  have hF : ∀ (g : SM T (List Arr)) (x y : SM T Arr), SSafe (HasCoefs id) x → SSafe (HasCoefs id) y →
      Est (HasCoefs id) ((Switch.acc P id).fint g x y) := by
    intro g x y hx hy
    unfold Acc.fint
    refine Est.right fun _ => Est.right fun _ => Est.right fun args => ?_
    intro s a ha
    cases he : (Switch.acc P id).fnevals s with
    | mk r s' =>
      cases r with
      | error e => rw [SM.bind_error he] at ha; cases ha
      | ok f =>
        rw [SM.bind_ok he] at ha ⊢
        cases f with
        | none => cases ha
        | some l =>
          have h1 : (Self.fnevals id (s.1.on (P.pick id .fn s.1 s.2).1)).1 = .ok (some l) := congrArg Prod.fst he
          have h2 := fnevals_has id _ h1
          have h3 : s'.1 = (Self.fnevals id (s.1.on (P.pick id .fn s.1 s.2).1)).2.on s.1.backend :=
            (congrArg (fun r => r.2.1) he).symm
          have h4 : HasCoefs id s'.1 := by rw [h3]; exact h2
          refine SSafe.bind (x := (Switch.acc P id).fnCall l args) ?_ (fun _ => ?_) s' h4
          · exact SSafe.bind (hS.backend _) fun _ => SSafe.lift _
          · exact SSafe.bind (SSafe.lift _) fun _ => SSafe.bind hx fun _ => SSafe.bind hy fun _ =>
              SSafe.bind (hS.par _) fun _ => SSafe.bind hS.nmax fun _ => SSafe.bind (SSafe.lift _) fun _ =>
                SSafe.bind (SSafe.lift _) fun _ => SSafe.bind (SSafe.lift _) fun _ => SSafe.bind (SSafe.lift _) fun _ =>
                  SSafe.lift _
  refine Est.left ?_ fun _ => hS.convert _
  unfold Acc.interaction
  refine Est.right fun F1 => Est.left (hF _ _ _ hS.muExx hS.muEx) fun F2 => ?_
  exact SSafe.bind (SSafe.mulM (SSafe.mulM (SSafe.mulM hS.I0 hS.mu0) (hS.par _)) (SSafe.addM
    (SSafe.mulM (SSafe.mapM' _ (SSafe.divM (SSafe.mapM' _ (hS.par _)) hS.muEx)) (SSafe.pure _))
    (SSafe.mulM (SSafe.mapM' _ (SSafe.divM (SSafe.mapM' _ (hS.par _)) hS.mu0)) (SSafe.pure _)))) fun _ =>
      SSafe.mulM (SSafe.mulM (hS.par _) (SSafe.subM (SSafe.pure _) (hS.par _))) (SSafe.pure _)

theorem setBackends_run {T : Type} (P : Policy T) (s : World × T) (l : List String) :
    ∃ b, Switch.run P s (l.map .setBackend) = (s.1.on b, s.2) := by
  induction l using List.reverseRecOn with
  | nil => exact ⟨s.1.backend, rfl⟩
  | append_singleton l x ih =>
    obtain ⟨b, hb⟩ := ih
    rw [List.map_append, List.map_singleton, Switch.run_snoc, hb]
    show ∃ b', (Switch.setBackend x (s.1.on b, s.2)).2 = _
    unfold Switch.setBackend
    cases Backend.ofName x with
    | none => exact ⟨b, rfl⟩
    | some k => exact ⟨k, rfl⟩

/-- **C73** (partial), `set_lambda_backend` has no effect on compiled coefficients: if `interaction` returns an array,
then it returns the same array again after any calls of `set_lambda_backend`. -/
theorem C73_interaction_repeat_partial (b0 : Backend) {ops : List SOp} (hp : ∀ x ∈ ops, x.Plain) {id : ℕ} {o : Obj}
    (ho : (Switch.run realPolicy (initWorld b0, Tags.init) ops).1.objs id = some o) (hi : o.fnevalsInput = none)
    (kw : Dict) {z : Arr}
    (hz : (Switch.interaction realPolicy id kw (Switch.run realPolicy (initWorld b0, Tags.init) ops)).1 = .ok z)
    (l : List String) :
    (Switch.interaction realPolicy id [] (Switch.run realPolicy (initWorld b0, Tags.init)
      (ops ++ [.op (.interaction id kw)] ++ l.map .setBackend))).1 = .ok z := by
  have hI := InvK.history realPolicy b0 Tags.init hp
  rw [Switch.run_append, Switch.run_snoc]
  have e : (Switch.step realPolicy (.op (.interaction id kw)) (Switch.run realPolicy (initWorld b0, Tags.init) ops)).2 =
      (Switch.interaction realPolicy id kw (Switch.run realPolicy (initWorld b0, Tags.init) ops)).2 := SM.bind_pure_state _ _
  rw [e]
  generalize Switch.run realPolicy (initWorld b0, Tags.init) ops = s at *
  obtain ⟨s', hs, ho', e'⟩ := Switch.kw_sf (kV := Switch.coefBackend s id) (kS := Switch.coefBackend s id) (u := false)
    hI ho kw (fun h => by cases h)
  have hx : Switch.interaction realPolicy id kw s = ((Switch.acc realPolicy id).interaction >>= fun x =>
      (Switch.acc realPolicy id).convert x) s' := e' _
  have hE := (Exact.bind SFx.interaction fun x => SFx.convert x) s' hs
  have hH := interaction_has realPolicy id s' z (by rw [← hx]; exact hz)
  have hz1 := (hE.2 z).1 (by rw [← hx]; exact hz)
  rw [← hx] at hE hH
  have hQ := hE.1
  generalize (Switch.interaction realPolicy id kw s).2 = s1 at *
  obtain ⟨o1, ho1, hc1⟩ := hQ.sk.si.obj
  obtain ⟨o2, ho2, hf2, ht2, -⟩ := hQ.fn
  rw [ho1] at ho2
  cases ho2
  have hi1 : o1.fnevalsInput = none := by
    rw [core_same Obj.fnevalsInput (fun _ => rfl) hc1]; exact hi
  have hn1 := hH o1 ho1 hi1
  have hsome : o1.fnevals_.isSome = true := by
    cases hx : o1.fnevals_ with
    | none => exact (hn1 hx).elim
    | some l => rfl
  have htag := ht2 hsome
  obtain ⟨b, hb⟩ := setBackends_run realPolicy s1 l
  rw [hb]
  rw [Switch.interaction_iff (s := (s1.1.on b, s1.2)) (hQ.sk.k.on b) (o := o1) ho1]
  have hk : Switch.coefBackend (s1.1.on b, s1.2) id = Switch.coefBackend s id := by
    rw [← (coefBackend_eq (s := (s1.1.on b, s1.2)) (o := o1) ho1).1 hsome]
    exact htag
  rw [hk, ← remembered_update]
  have hup : Fresh.update o1 [] = o1 := by
    have h1 : (Fresh.update o1 []).params = (Fresh.update o1.core []).params := rfl
    have h2 : (Fresh.update o1 []).params = o1.params := by
      rw [h1, hc1]
      exact (congrArg Obj.params (Fresh.update_again o kw)).trans (core_fields hc1).2.2.2.1.symm
    show { o1 with params := (Fresh.update o1 []).params } = o1
    rw [h2]
  rw [hup]
  unfold Remembered.interaction
  rw [← acc_eq (b := Switch.coefBackend s id) (hQ.sk.k.objOK ho1)]
  rw [← hz1]
  have hacc : Fresh.acc0 (Switch.coefBackend s id) o1 = Fresh.acc0 (Switch.coefBackend s id) (Fresh.update o kw) := by
    have e1 : ∀ u : Obj, Fresh.acc0 (Switch.coefBackend s id) u = { Fresh.acc0 (Switch.coefBackend s id) u.core with
      fnevals := Fresh.fnevals (Switch.coefBackend s id) u } := fun _ => rfl
    rw [e1 o1, e1 (Fresh.update o kw), hc1, hf2]
  rw [hacc]
  rfl

/-- **C73** (partial), the setting takes effect for coefficients that have not been compiled: after
`set_lambda_backend(name)`, `interaction` of such an object returns what the record returns with this backend. -/
theorem C73_interaction_effect_partial (b0 : Backend) {ops : List SOp} (hp : ∀ x ∈ ops, x.Plain) {name : String} {k : Backend}
    (hk : (name = "sympy" ∧ k = .sympy) ∨ (name = "symengine" ∧ k = .symengine)) {id : ℕ} {o : Obj}
    (ho : (Switch.run realPolicy (initWorld b0, Tags.init) (ops ++ [.setBackend name])).1.objs id = some o)
    (hn : o.fnevals_ = none) (kw : Dict) (z : Arr) :
    (Switch.interaction realPolicy id kw (Switch.run realPolicy (initWorld b0, Tags.init) (ops ++ [.setBackend name]))).1 =
      .ok z ↔ (o.remembered.update kw).interaction k = .ok z := by
  have hp' : ∀ x ∈ ops ++ [SOp.setBackend name], x.Plain := by
    intro x hx
    rcases List.mem_append.1 hx with hx | hx
    · exact hp x hx
    · rw [List.mem_singleton.1 hx]; trivial
  rw [Switch.interaction_iff (InvK.history realPolicy b0 Tags.init hp') ho kw z]
  have : Switch.coefBackend (Switch.run realPolicy (initWorld b0, Tags.init) (ops ++ [.setBackend name])) id = k := by
    rw [← (coefBackend_eq ho).2 (by rw [hn]; rfl), Switch.run_snoc]
    show (Switch.setBackend name _).2.1.backend = k
    unfold Switch.setBackend
    rcases hk with ⟨rfl, rfl⟩ | ⟨rfl, rfl⟩ <;> rfl
  rw [this]

/-! ## C17 -/

theorem interaction_entry {k c : Backend} {o : Obj} (hok : ObjOK c o) (hgeo : GeomOK o) {arr : Arr}
    (h : Fresh.interaction k o = .ok arr) {idx : List ℕ} (hv : Arr.Valid arr.shape idx) {r : ℕ} (hal : Aligned k o r)
    {x : Site} (hs : FSite k o idx x) {nV nS : ℕ} (hV : o.V.ncoefs = .ok (nV + 1)) (hS : o.SRF.ncoefs = .ok (nS + 1))
    (hx : x.Oblique) (hI : o.sig0 = true → x.I0 ≠ 0) :
    arr.get idx = x.inUnits o.sig0 o.dB (geomInteraction o.V o.SRF o.geom x) := by
  obtain ⟨z, hz, hz'⟩ := ok_bind h
  obtain ⟨a1, ha1, e1⟩ := hs.t0.obtain
  have hm0 : Fresh.mu0 o = .ok (Arr.cos a1) := by unfold Fresh.mu0; rw [ha1]; rfl
  have hl : r ≤ idx.length := by
    have h1 := (Below.convert (Below.interaction_mu0 hm0 z hz) arr hz').length
    rw [hv.length]
    have h2 : (Arr.cos a1).shape.length = r := hal.t0 a1 (ang_ok ha1)
    omega
  have hval := interaction_at hok hgeo.fnI hgeo.fneI hgeo.named hz hV hS hal hl hs hx
  have := PW.convert hval arr hz'
  rw [Arr.at'_valid hv, hs.x_convert (s := o.sig0) hI] at this
  exact this

theorem FSite.core {k : Backend} {o o' : Obj} (hc : o.core = o'.core) {idx : List ℕ} {x : Site} (h : FSite k o idx x) :
    FSite k o' idx x := by
  have h1 : FSite k o.core idx x :=
    ⟨h.t0, h.tex, h.p0, h.pex, h.tau, h.omega, h.NormBRDF, h.bsf, h.I0, h.params⟩
  rw [hc] at h1
  exact ⟨h1.t0, h1.tex, h1.p0, h1.pex, h1.tau, h1.omega, h1.NormBRDF, h1.bsf, h1.I0, h1.params⟩

theorem Aligned.core {k : Backend} {o o' : Obj} (hc : o.core = o'.core) {r : ℕ} (h : Aligned k o r) : Aligned k o' r := by
  have h1 : Aligned k o.core r := ⟨h.pos, h.t0, h.tex, h.p0, h.pex, h.params, h.tau, h.const⟩
  rw [hc] at h1
  exact ⟨h1.pos, h1.t0, h1.tex, h1.p0, h1.pex, h1.params, h1.tau, h1.const⟩

theorem Aligned.of_sympy {k : Backend} {o : Obj} {r : ℕ} (h : Aligned .sympy o r) : Aligned k o r := by
  refine ⟨h.pos, h.t0, h.tex, h.p0, h.pex, h.params, fun a ha => h.tau a (par_backend ha), ?_⟩
  rcases h.const with h | h | h
  · exact .inl h
  · cases h
  · exact .inr (.inr h)

/-- **C17** (partial), interaction term in programs that switch: if a program with calls of `set_lambda_backend` at any
place and the same program without them (with any backend `k`) both return an array from `interaction`, then the
entries at the same index agree, for directions strictly between nadir and horizon and a canopy.  Missing: other
directions, inputs whose numbers of axes do not fit. -/
theorem C17_switching_interaction_partial (b0 k : Backend) {ops : List SOp} (hp : ∀ x ∈ ops, x.Plain)
    (hpp : ∀ op ∈ Switch.calls ops, op.Proper) {id : ℕ} {kw : Dict} {arr arr' : Arr} {v : World}
    (h : interaction id kw (run (initWorld k) (Switch.calls ops)) = (.ok arr, v))
    (h' : (Switch.interaction realPolicy id kw (Switch.run realPolicy (initWorld b0, Tags.init) ops)).1 = .ok arr')
    {idx : List ℕ} (hv : Arr.Valid arr.shape idx) (hv' : Arr.Valid arr'.shape idx) {x : Site} (hs : SiteAt v id idx x)
    {o : Obj} (ho : v.objs id = some o) (hal : ∃ r, Aligned .sympy o r) {nV nS : ℕ}
    (hV : o.V.ncoefs = .ok (nV + 1)) (hS : o.SRF.ncoefs = .ok (nS + 1)) (hx : x.Oblique)
    (hI : o.sig0 = true → x.I0 ≠ 0) : arr'.get idx = arr.get idx := by
  have hw : ReachableP (run (initWorld k) (Switch.calls ops)) := ⟨_, _, hpp, rfl⟩
  obtain ⟨a, b, hc⟩ := interaction_callOK hw.reachable h
  have hoo : b = o := by have := hc.after; rw [ho] at this; cases this; rfl
  subst hoo
  obtain ⟨r, hr⟩ := hal
  have hbk : v.backend = k := hc.backend.trans (initRun_backend _ _)
  have hfs : FSite k b idx x := by
    have := hs.fsite hc.inv ho
    rwa [hbk] at this
  have hcore : b.core = (Fresh.update a kw).core := hc.filled.core
  have hR := Ref.of_run realPolicy (b0 := b0) (t0 := Tags.init) (fun y hy => (hp y hy).fine) k
  have hK := InvK.history realPolicy b0 Tags.init hp
  generalize Switch.run realPolicy (initWorld b0, Tags.init) ops = s at *
  cases ha : s.1.objs id with
  | none =>
    have : (Switch.interaction realPolicy id kw s).1 = .error .attributeError := plain_none ha kw _
    rw [this] at h'; cases h'
  | some a' =>
    obtain ⟨a2, ha2, hc2⟩ := hR.twin.get ha
    rw [hc.before] at ha2
    cases ha2
    have hc3 : (Fresh.update a kw).core = (Fresh.update a' kw).core := by
      have : ∀ u : Obj, (Fresh.update u kw).core = (Fresh.update u.core kw).core := fun _ => rfl
      rw [this a, this a', hc2]
    obtain ⟨s', hs', ho', -⟩ := Switch.kw_sf (kV := .sympy) (kS := .sympy) (u := false) hK ha kw (fun h => by cases h)
    have hok' := hs'.sk.k.objOK ho'
    rw [Switch.interaction_iff hK ha kw, ← remembered_update] at h'
    unfold Remembered.interaction at h'
    rw [← acc_eq (b := Switch.coefBackend s id) hok'] at h'
    have hgeo : GeomOK (Fresh.update a kw) :=
      GeomOK.core hcore ((show ReachableP v from by
        have := hw.step (op := .interaction id kw) trivial
        have e : (RT1.step (.interaction id kw) (run (initWorld k) (Switch.calls ops))).2 =
          (interaction id kw (run (initWorld k) (Switch.calls ops))).2 := bind_pure_state _ _
        rw [e, h] at this
        exact this).geomOK ho)
    have hok : ObjOK k (Fresh.update a kw) := by
      have := (hw.reachable.inv.updated hc.before kw).obj rfl id _ (World.updated_objs _ id a kw)
      have hb : (run (initWorld k) (Switch.calls ops)).backend = k := initRun_backend _ _
      rwa [show ((run (initWorld k) (Switch.calls ops)).updated id a kw).backend = k from hb] at this
    have F1 : Fresh.interaction k (Fresh.update a kw) = .ok arr := by
      have := hc.ok
      rwa [initRun_backend] at this
    have g := fun {α : Type} (f : Obj → α) (hf : ∀ u : Obj, f u.core = f u) => core_same f hf hcore
    have g' := fun {α : Type} (f : Obj → α) (hf : ∀ u : Obj, f u.core = f u) => core_same f hf hc3
    have eV := g Obj.V fun _ => rfl
    have eS := g Obj.SRF fun _ => rfl
    have eg := g Obj.sig0 fun _ => rfl
    have eV' := g' Obj.V fun _ => rfl
    have eS' := g' Obj.SRF fun _ => rfl
    have eg' := g' Obj.sig0 fun _ => rfl
    have ed' := g' Obj.dB fun _ => rfl
    have ee' := g' Obj.geom fun _ => rfl
    rw [eV] at hV
    rw [eS] at hS
    rw [eg] at hI
    have v1 := interaction_entry hok hgeo F1 hv (hr.core hcore).of_sympy (hfs.core hcore) hV hS hx hI
    rw [eV'] at hV
    rw [eS'] at hS
    rw [eg'] at hI
    have v2 := interaction_entry hok' (hgeo.core hc3) h' hv' ((hr.core hcore).core hc3).of_sympy
      (fsite_backend ((hfs.core hcore).core hc3)) hV hS hx hI
    rw [v1, v2, eV', eS', eg', ed', ee']

/-! ## the hypotheses are met -/

/-- A program without switches that ends before the first evaluation. -/
def switchDemo : List SOp :=
  (Op.new isoV isoS true false false none none (Arr.lit (witSite 1 1 0 Real.pi).I0) ::
    scalarOps (witSite 1 1 0 Real.pi) true (fun _ => false) (scalarKw (witSite 1 1 0 Real.pi) [])).map SOp.op

/-- Its object. -/
def switchDemoObj : Obj := scalarObj isoV isoS true false false (witSite 1 1 0 Real.pi) true (fun _ => false)
  (scalarKw (witSite 1 1 0 Real.pi) [])

theorem switchDemo_run (b : Backend) : Switch.run realPolicy (initWorld b, Tags.init) switchDemo =
    (scalarW b isoV isoS true false false (witSite 1 1 0 Real.pi) true (fun _ => false)
      (scalarKw (witSite 1 1 0 Real.pi) []), Tags.init) := rfl

theorem switchDemo_plain : ∀ x ∈ switchDemo, x.Plain := by
  intro x hx
  simp only [switchDemo, scalarOps, if_true, List.map_cons, List.map_nil, List.mem_cons, List.not_mem_nil, or_false] at hx
  rcases hx with rfl | rfl | rfl | rfl <;> exact ⟨trivial, trivial⟩

theorem switchDemo_obj (b : Backend) :
    (Switch.run realPolicy (initWorld b, Tags.init) switchDemo).1.objs 0 = some switchDemoObj := by
  rw [switchDemo_run]
  exact scalarW_obj b isoV isoS true false false (witSite 1 1 0 Real.pi) true (fun _ => false) (scalarKw (witSite 1 1 0 Real.pi) [])

theorem switchDemo_fields : switchDemoObj.fnevals_ = none ∧ switchDemoObj.fn_ = none ∧ switchDemoObj.fnevalsInput = none := by
  have hg := scalar_geom isoV isoS true false false (witSite 1 1 0 Real.pi) true (fun _ => false)
    (scalarKw (witSite 1 1 0 Real.pi) [])
  exact ⟨hg.fnevals_, hg.fn_, ((scalarW_reachableP .sympy isoV isoS true false false (witSite 1 1 0 Real.pi) true
    (fun _ => false) (scalarKw (witSite 1 1 0 Real.pi) [])).geomOK (scalarW_obj .sympy isoV isoS true false false
      (witSite 1 1 0 Real.pi) true (fun _ => false) (scalarKw (witSite 1 1 0 Real.pi) []))).fneI⟩

/-- The interaction term of the record is an array with each backend. -/
theorem switchDemo_value (b : Backend) :
    ∃ z, (switchDemoObj.remembered.update []).interaction b = .ok z ∧ Arr.Valid z.shape [0] := by
  obtain ⟨arr, w1, he, hv, -⟩ := scalar_interaction_call b (V := isoV) (SRF := isoS) false false
    (x := witSite 1 1 0 Real.pi) (mono := true) (l := []) (fun _ => ⟨rfl, by simp [witSite]⟩) (witSite_reports ..)
    (fun n hn => List.mem_append_left _ (isoV_plain n hn))
    (fun n hn => List.mem_append_left _ (isoS_plain n hn)) iso_fnCoefs ⟨0, isoV_ncoefs⟩ ⟨0, isoS_ncoefs⟩
  have hw := (scalarW_reachableP b isoV isoS true false false (witSite 1 1 0 Real.pi) true (fun _ => false)
    (scalarKw (witSite 1 1 0 Real.pi) [])).reachable
  have ho := scalarW_obj b isoV isoS true false false (witSite 1 1 0 Real.pi) true (fun _ => false)
    (scalarKw (witSite 1 1 0 Real.pi) [])
  have hb := scalarW_backend b isoV isoS true false false (witSite 1 1 0 Real.pi) true (fun _ => false)
    (scalarKw (witSite 1 1 0 Real.pi) [])
  have h := (interaction_eq hw.inv ho []).1
  rw [he, hb] at h
  refine ⟨arr, ?_, hv⟩
  rw [← remembered_update]
  unfold Remembered.interaction
  rw [← acc_eq (b := b) (c := b) (o := Fresh.update switchDemoObj []) (ObjOK.none switchDemo_fields.2.1 switchDemo_fields.1)]
  exact h.symm

/-- `C73_interaction_partial` and `C73_interaction_repeat_partial` apply to this program, which evaluates the term
in symengine and then selects sympy. -/
example : ∃ z, (Switch.interaction realPolicy 0 [] (Switch.run realPolicy (initWorld .symengine, Tags.init)
      switchDemo)).1 = .ok z ∧
    (Switch.interaction realPolicy 0 [] (Switch.run realPolicy (initWorld .symengine, Tags.init)
      (switchDemo ++ [.op (.interaction 0 [])] ++ ["sympy"].map .setBackend))).1 = .ok z := by
  obtain ⟨z, hz, -⟩ := switchDemo_value .symengine
  have ho := switchDemo_obj .symengine
  have hk : Switch.coefBackend (Switch.run realPolicy (initWorld .symengine, Tags.init) switchDemo) 0 = .symengine := by
    rw [← (coefBackend_eq ho).2 (by rw [switchDemo_fields.1]; rfl), switchDemo_run]
    exact scalarW_backend .symengine isoV isoS true false false (witSite 1 1 0 Real.pi) true (fun _ => false)
      (scalarKw (witSite 1 1 0 Real.pi) [])
  have h := (C73_interaction_partial .symengine switchDemo_plain ho [] z).2 (by
    show (switchDemoObj.remembered.update []).interaction
      (Switch.coefBackend (Switch.run realPolicy (initWorld .symengine, Tags.init) switchDemo) 0) = _
    rw [hk]; exact hz)
  exact ⟨z, h, C73_interaction_repeat_partial .symengine switchDemo_plain ho switchDemo_fields.2.2 [] h ["sympy"]⟩

/-- The hypotheses of `C17_switching_interaction_partial` hold for this program, and the two values agree. -/
example : ∃ arr arr' v, interaction 0 [] (run (initWorld .sympy) (Switch.calls (switchDemo ++ [.setBackend "symengine"]))) =
      (.ok arr, v) ∧
    (Switch.interaction realPolicy 0 [] (Switch.run realPolicy (initWorld .sympy, Tags.init)
      (switchDemo ++ [.setBackend "symengine"]))).1 = .ok arr' ∧ Arr.Valid arr.shape [0] ∧
    Arr.Valid arr'.shape [0] ∧ arr'.get [0] = arr.get [0] := by
  obtain ⟨arr, w1, he, hv, -⟩ := scalar_interaction_call .sympy (V := isoV) (SRF := isoS) false false
    (x := witSite 1 1 0 Real.pi) (mono := true) (l := []) (fun _ => ⟨rfl, by simp [witSite]⟩) (witSite_reports ..)
    (fun n hn => List.mem_append_left _ (isoV_plain n hn))
    (fun n hn => List.mem_append_left _ (isoS_plain n hn)) iso_fnCoefs ⟨0, isoV_ncoefs⟩ ⟨0, isoS_ncoefs⟩
  have ho : (Switch.run realPolicy (initWorld .sympy, Tags.init) (switchDemo ++ [.setBackend "symengine"])).1.objs 0 =
      some switchDemoObj := by
    rw [Switch.run_snoc]; exact switchDemo_obj .sympy
  obtain ⟨arr', hz, hv'⟩ := switchDemo_value .symengine
  have he' := (C73_interaction_effect_partial .sympy switchDemo_plain (.inr ⟨rfl, rfl⟩) ho
      switchDemo_fields.1 [] arr').2 hz
  have hr : run (initWorld .sympy) (Switch.calls (switchDemo ++ [.setBackend "symengine"])) =
    scalarW .sympy isoV isoS true false false (witSite 1 1 0 Real.pi) true (fun _ => false)
      (scalarKw (witSite 1 1 0 Real.pi) []) := rfl
  refine ⟨arr, arr', w1, by rw [hr]; exact he, he', hv, hv', ?_⟩
  have hw := scalarW_reachableP .sympy isoV isoS true false false (witSite 1 1 0 Real.pi) true (fun _ => false)
    (scalarKw (witSite 1 1 0 Real.pi) [])
  have hb := scalarW_backend .sympy isoV isoS true false false (witSite 1 1 0 Real.pi) true (fun _ => false)
    (scalarKw (witSite 1 1 0 Real.pi) [])
  obtain ⟨a, o, hc⟩ := interaction_callOK hw.reachable he
  have ho0 := scalarW_obj .sympy isoV isoS true false false (witSite 1 1 0 Real.pi) true (fun _ => false)
    (scalarKw (witSite 1 1 0 Real.pi) [])
  have ha : a = switchDemoObj := by have := hc.before; rw [ho0] at this; cases this; rfl
  subst ha
  have hu : Fresh.update switchDemoObj [] = switchDemoObj :=
    scalar_update isoV isoS true false false (witSite 1 1 0 Real.pi) true (fun _ => false) (scalarKw (witSite 1 1 0 Real.pi) [])
  have hsc : ScalarObj switchDemoObj _ := scalar_scalar true false false (fun _ => false) (V := isoV) (SRF := isoS) (mono := true)
    (x := witSite 1 1 0 Real.pi) (l := []) (fun _ => ⟨rfl, by simp [witSite]⟩) (witSite_reports ..)
    (fun n hn => List.mem_append_left _ (isoV_plain n hn)) (fun n hn => List.mem_append_left _ (isoS_plain n hn))
  have hcore : switchDemoObj.core = o.core := by
    have := hc.filled.core
    rw [hu] at this
    exact this.symm
  have hbk : w1.backend = .sympy := hc.backend.trans hb
  have eV := core_same Obj.V (fun _ => rfl) hcore
  have eS := core_same Obj.SRF (fun _ => rfl) hcore
  have eg := core_same Obj.sig0 (fun _ => rfl) hcore
  have hcfg := scalar_cfg isoV isoS true false false (witSite 1 1 0 Real.pi) true (fun _ => false)
    (scalarKw (witSite 1 1 0 Real.pi) [])
  refine C17_switching_interaction_partial .sympy .sympy (ops := switchDemo ++ [.setBackend "symengine"]) ?_ ?_ (v := w1)
    (by rw [hr]; exact he) he' hv hv' (x := witSite 1 1 0 Real.pi)
    (SiteAt.of_fsite hc.inv hc.after (by rw [hbk]; exact (hsc.fsite .sympy).core hcore)) hc.after
    ⟨1, (hsc.aligned .sympy).core hcore⟩ (nV := 0) (nS := 0) ?_ ?_ ?_ ?_
  · intro x hx
    rcases List.mem_append.1 hx with hx | hx
    · exact switchDemo_plain x hx
    · rw [List.mem_singleton.1 hx]; trivial
  · intro op hop
    have : Switch.calls (switchDemo ++ [.setBackend "symengine"]) =
      Op.new isoV isoS true false false none none (Arr.lit (witSite 1 1 0 Real.pi).I0) ::
        scalarOps (witSite 1 1 0 Real.pi) true (fun _ => false) (scalarKw (witSite 1 1 0 Real.pi) []) := rfl
    rw [this] at hop
    simp only [scalarOps, if_true, List.mem_cons, List.not_mem_nil, or_false] at hop
    rcases hop with rfl | rfl | rfl | rfl
    · exact ⟨rfl, rfl⟩
    · exact fun h => by cases h
    · trivial
    · trivial
  · rw [← eV]; exact isoV_ncoefs
  · rw [← eS]; exact isoS_ncoefs
  · have h3 := Real.pi_gt_three
    exact witSite_oblique (by norm_num) (by linarith) (by norm_num) (by linarith)
  · intro h
    rw [← eg] at h
    have := congrArg Cfg.sig0 hcfg
    exact absurd (this.symm.trans h) (by simp)

/-- The hypotheses of `C73_calc_partial` and `C73_interaction_effect_partial` are met. -/
example : (Switch.run realPolicy (initWorld .symengine, Tags.init) (switchDemo ++ [.setBackend "sympy"])).2.scatter.length ≤ 126 ∧
    (Switch.run realPolicy (initWorld .symengine, Tags.init) (switchDemo ++ [.setBackend "sympy"])).1.objs 0 =
      some switchDemoObj ∧ switchDemoObj.fnevals_ = none ∧
    ∃ z, (Switch.interaction realPolicy 0 [] (Switch.run realPolicy (initWorld .symengine, Tags.init)
      (switchDemo ++ [.setBackend "sympy"]))).1 = .ok z := by
  have ho : (Switch.run realPolicy (initWorld .symengine, Tags.init) (switchDemo ++ [.setBackend "sympy"])).1.objs 0 =
      some switchDemoObj := by
    rw [Switch.run_snoc]; exact switchDemo_obj .symengine
  refine ⟨?_, ho, switchDemo_fields.1, ?_⟩
  · rw [Switch.run_snoc, switchDemo_run]
    exact Nat.zero_le _
  · obtain ⟨z, hz, -⟩ := switchDemo_value .sympy
    exact ⟨z, (C73_interaction_effect_partial .symengine switchDemo_plain (.inl ⟨rfl, rfl⟩) ho
      switchDemo_fields.1 [] z).2 hz⟩

end

end RT1
