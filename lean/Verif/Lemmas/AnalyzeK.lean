import Verif.Lemmas.AnalyzeS

/-! What the analyzers leave as it is. -/

namespace RT1

noncomputable section
open Classical

/-- The attributes that setting the geometry does not touch. -/
def Obj.still (o : Obj) : Scatter × Scatter × Arr × Bool × Bool × Bool × (PName → PDef) × Dict :=
  (o.V, o.SRF, o.I0, o.sig0, o.intQ, o.dB, o.pdef, o.params)

/-- The attributes that belong to the geometry. -/
def Obj.geomAttrs (o : Obj) : List AngN × Bool × (AngN → Option Arr) × Geom4 :=
  (o.fixed, o.mono, o.ang, o.geom)

theorem still_mono (o : Obj) (p : Option PyArg) : (o.afterMono p).still = o.still := by
  cases p with
  | none => rfl
  | some a => cases a <;> rfl

theorem still_geom (o : Obj) (kw : List (String × Option Arr)) : (o.afterGeom kw).still = o.still := by
  have hl : ∀ (l : List (String × Option Arr)) (o : Obj), (Obj.angLoop l o).still = o.still := by
    intro l
    induction l with
    | nil => intro o; rfl
    | cons p l ih =>
      intro o
      obtain ⟨k, v⟩ := p
      unfold Obj.angLoop
      cases AngN.ofName k with
      | none => exact ih o
      | some n =>
        simp only
        by_cases hn : n ∈ o.fixed
        · simp [hn]
        · simp only [hn, if_false]
          cases v with
          | none => rfl
          | some a => exact ih { o with ang := Function.update o.ang n (some a.atleast1d) }
  unfold Obj.afterGeom
  split_ifs
  · rfl
  · rfl
  · exact hl _ _

theorem still_bi (o : Obj) (a b c d : Option PyArg) : (o.afterBi a b c d).still = o.still := by
  have hf : ∀ (l : List (AngN × Option PyArg)) (o : Obj), (Obj.fixLoop l o).still = o.still := by
    intro l
    induction l with
    | nil => intro o; rfl
    | cons p l ih =>
      intro o
      obtain ⟨n, v⟩ := p
      cases v with
      | none => exact ih o
      | some a =>
        cases a with
        | other => rfl
        | number r => exact ih (o.fix n r)
  unfold Obj.afterBi
  simp only
  split_ifs
  · exact hf _ _
  · exact hf _ _

/-- `SameBut` without `int_Q`. -/
structure Rest (keys : List String) (o o' : Obj) : Prop where
  V : o'.V = o.V
  SRF : o'.SRF = o.SRF
  I0 : o'.I0 = o.I0
  sig0 : o'.sig0 = o.sig0
  pdef : o'.pdef = o.pdef
  params : ∀ k, k ∉ keys → o'.params.get? k = o.params.get? k

namespace Rest
variable {keys : List String} {o o' o'' : Obj}

theorem refl (keys : List String) (o : Obj) : Rest keys o o := ⟨rfl, rfl, rfl, rfl, rfl, fun _ _ => rfl⟩

theorem trans (h : Rest keys o o') (h' : Rest keys o' o'') : Rest keys o o'' :=
  ⟨h'.V.trans h.V, h'.SRF.trans h.SRF, h'.I0.trans h.I0, h'.sig0.trans h.sig0, h'.pdef.trans h.pdef,
    fun k hk => (h'.params k hk).trans (h.params k hk)⟩

theorem of_still (h : o'.still = o.still) : Rest keys o o' := by
  simp only [Obj.still, Prod.mk.injEq] at h
  obtain ⟨h1, h2, h3, h4, -, -, h5, h6⟩ := h
  exact ⟨h1, h2, h3, h4, h5, fun k _ => by rw [h6]⟩

theorem of_core (h : o.core = o'.core) : Rest keys o o' := by
  obtain ⟨h1, h2, h3, h4, -⟩ := core_fields h
  refine ⟨h1.symm, h2.symm, ?_, ?_, h3.symm, fun k _ => by rw [h4]⟩
  · have := congrArg Obj.I0 h; exact this.symm
  · have := congrArg Obj.sig0 h; exact this.symm

theorem update (hb : "bsf" ∈ o.params.keys) {kw : Dict} (hk : ∀ k ∈ kw.keys, k ∈ keys) :
    Rest keys o (Fresh.update o kw) := by
  refine ⟨rfl, rfl, rfl, rfl, rfl, fun k h => ?_⟩
  rw [update_params hb, Dict.get?_update, lastValue_none]
  · rfl
  · rw [Dict.keys_map_snd kw Arr.atleast1d]; exact fun h' => h (hk k h')

end Rest

theorem AnaOp.rest {id : ℕ} {keys : List String} {op : Op} (h : AnaOp id keys op) {o : Obj} (hb : BsfOK o) :
    Rest keys o (o.after op) := by
  cases h with
  | mono => exact .of_still (still_mono o _)
  | bi => exact .of_still (still_bi o _ _ _ _)
  | geom kw => exact .of_still (still_geom o kw)
  | upd kw h => exact Rest.update hb.1 h
  | «calc» => exact Rest.update hb.1 (by simp [Dict.keys])
  | intQ b => exact ⟨rfl, rfl, rfl, rfl, rfl, fun _ _ => rfl⟩
  | dB => exact ⟨rfl, rfl, rfl, rfl, rfl, fun _ _ => rfl⟩
  | clear => exact .refl _ _
  | sv => exact .refl _ _
  | check n => exact .refl _ _

theorem frame_run {id : ℕ} {keys : List String} {ops : List Op} (hops : ∀ op ∈ ops, AnaOp id keys op)
    (w : World) : FrameP w id (run w ops) :=
  run_induction (P := FrameP w id) (fun op hop w' hw' =>
    frame_step (hops op hop).target (hops op hop).creates w w' hw') (FrameP.refl w id)

/-- The effect of a program that consists of calls of the analyzers. -/
theorem Runs.rest {id : ℕ} {keys : List String} {α : Type} {x : M α} (h : Runs (AnaOp id keys) x)
    {w : World} (hw : Reachable w) {o : Obj} (ho : w.objs id = some o) :
    ∃ o', (x w).2.objs id = some o' ∧ Rest keys o o' ∧ FrameP w id (x w).2 := by
  obtain ⟨ops, hops, he⟩ := h w
  have hb := hw.keeps.any.bsfOK ho
  have := run_obj (Q := fun o' => BsfOK o' ∧ Rest keys o o') (id := id) (ops := ops)
    (fun a b hc ⟨h1, h2⟩ => ⟨by
      unfold BsfOK; rw [← (core_fields hc).2.2.2.1]; exact h1, h2.trans (.of_core hc)⟩)
    (fun op hop ht a ⟨h1, h2⟩ => ⟨h1.after op, h2.trans ((hops op hop).rest h1)⟩)
    hw.keeps.any.next ⟨o, ho, hb, .refl _ _⟩
  obtain ⟨o', ho', h1, h2⟩ := this
  exact ⟨o', by rw [he]; exact ho', h2, by rw [he]; exact frame_run hops w⟩

/-- The units and `int_Q`, for the calls of `Analyze`. -/
theorem Runs.flags {id : ℕ} {keys : List String} {α : Type} {x : M α} (h : Runs (AnaOp2 id keys) x)
    {w : World} (hw : Reachable w) {o : Obj} (ho : w.objs id = some o) :
    ∃ o', (x w).2.objs id = some o' ∧ o'.intQ = o.intQ ∧ o'.dB = o.dB := by
  obtain ⟨ops, hops, he⟩ := h w
  have := run_obj (Q := fun o' => o'.intQ = o.intQ ∧ o'.dB = o.dB) (id := id) (ops := ops)
    (fun a b hc ⟨h1, h2⟩ => by
      have e1 := congrArg Obj.intQ hc
      have e2 := congrArg Obj.dB hc
      have e1 : a.intQ = b.intQ := e1
      have e2 : a.dB = b.dB := e2
      exact ⟨e1 ▸ h1, e2 ▸ h2⟩)
    (fun op hop ht a ⟨h1, h2⟩ => by
      have key : ∀ a', Obj.still a' = a.still → a'.intQ = o.intQ ∧ a'.dB = o.dB := by
        intro a' h
        simp only [Obj.still, Prod.mk.injEq] at h
        exact ⟨h.2.2.2.2.1.trans h1, h.2.2.2.2.2.1.trans h2⟩
      cases hops op hop with
      | mono => exact key _ (still_mono _ _)
      | geom => exact key _ (still_geom _ _)
      | upd kw h => exact ⟨h1, h2⟩
      | «calc» => exact ⟨h1, h2⟩
      | sv => exact ⟨h1, h2⟩
      | check n => exact ⟨h1, h2⟩)
    hw.keeps.any.next ⟨o, ho, rfl, rfl⟩
  obtain ⟨o', ho', h1, h2⟩ := this
  exact ⟨o', by rw [he]; exact ho', h1, h2⟩

/-- The geometry, for the calls of one update of `Analyze`. -/
theorem Runs.geomAttrs {id : ℕ} {keys : List String} {α : Type} {x : M α} (h : Runs (UpdOp id keys) x)
    {w : World} (hw : Reachable w) {o : Obj} (ho : w.objs id = some o) :
    ∃ o', (x w).2.objs id = some o' ∧ o'.geomAttrs = o.geomAttrs := by
  obtain ⟨ops, hops, he⟩ := h w
  have := run_obj (Q := fun o' => o'.geomAttrs = o.geomAttrs) (id := id) (ops := ops)
    (fun a b hc h1 => by
      have e1 := congrArg Obj.geomAttrs hc
      have e1 : a.geomAttrs = b.geomAttrs := e1
      exact e1 ▸ h1)
    (fun op hop ht a h1 => by
      cases hops op hop with
      | upd kw h => exact h1
      | «calc» => exact h1
      | sv => exact h1
      | check n => exact h1)
    hw.keeps.any.next ⟨o, ho, rfl⟩
  obtain ⟨o', ho', h1⟩ := this
  exact ⟨o', by rw [he]; exact ho', h1⟩

/-! ### `int_Q` in the 3D analyzer -/

/-- The program leaves `int_Q` and the units of the object. -/
def Quiet (id : ℕ) {α : Type} (x : M α) : Prop :=
  ∀ w, Reachable w → ∀ o, w.objs id = some o →
    Reachable (x w).2 ∧ ∃ o', (x w).2.objs id = some o' ∧ o'.intQ = o.intQ ∧ o'.dB = o.dB

theorem Quiet.bind {id : ℕ} {α β : Type} {x : M α} {f : α → M β} (h : Quiet id x)
    (hf : ∀ a, Quiet id (f a)) : Quiet id (x >>= f) := by
  intro w hw o ho
  obtain ⟨h1, o1, ho1, q1, d1⟩ := h w hw o ho
  cases hx : x w with
  | mk r w' =>
    rw [hx] at h1 ho1
    cases r with
    | error e => rw [bind_error hx]; exact ⟨h1, o1, ho1, q1, d1⟩
    | ok a =>
      rw [bind_ok hx]
      obtain ⟨h2, o2, ho2, q2, d2⟩ := hf a w' h1 o1 ho1
      exact ⟨h2, o2, ho2, q2.trans q1, d2.trans d1⟩

/-- Calls that change neither. -/
theorem Quiet.of_runs {id : ℕ} {α : Type} {P : Op → Prop} {x : M α} (h : Runs P x) {keys : List String}
    (hp : ∀ op, P op → AnaOp id keys op)
    (hq : ∀ op, P op → ∀ o : Obj, (o.after op).intQ = o.intQ ∧ (o.after op).dB = o.dB) : Quiet id x := by
  intro w hw o ho
  refine ⟨h.reachable (fun op h => (hp op h).plain) hw, ?_⟩
  obtain ⟨ops, hops, he⟩ := h w
  have := run_obj (Q := fun o' => o'.intQ = o.intQ ∧ o'.dB = o.dB) (id := id) (ops := ops)
    (fun a b hc ⟨h1, h2⟩ => by
      have e1 := congrArg Obj.intQ hc
      have e2 := congrArg Obj.dB hc
      have e1 : a.intQ = b.intQ := e1
      have e2 : a.dB = b.dB := e2
      exact ⟨e1 ▸ h1, e2 ▸ h2⟩)
    (fun op hop ht a ⟨h1, h2⟩ => by
      obtain ⟨q1, q2⟩ := hq op (hops op hop) a
      exact ⟨q1.trans h1, q2.trans h2⟩)
    hw.keeps.any.next ⟨o, ho, rfl, rfl⟩
  obtain ⟨o', ho', h1, h2⟩ := this
  exact ⟨o', by rw [he]; exact ho', h1, h2⟩

theorem Quiet.same {id : ℕ} {α : Type} {x : M α} (h : ∀ w, (x w).2 = w) : Quiet id x := by
  intro w hw o ho
  rw [h w]
  exact ⟨hw, o, ho, rfl, rfl⟩

theorem Quiet.lift {id : ℕ} {α : Type} (x : Py α) : Quiet id (liftPy x : M α) :=
  Quiet.same fun w => by cases x <;> rfl

/-- One call. -/
theorem Quiet.call {id : ℕ} {α : Type} {x : M α} {op : Op} {keys : List String} (hop : AnaOp id keys op)
    (hq : ∀ o : Obj, (o.after op).intQ = o.intQ ∧ (o.after op).dB = o.dB)
    (h : ∀ w, (x w).2 = (step op w).2) : Quiet id x :=
  Quiet.of_runs (P := fun op' => op' = op) (Runs.call rfl h) (by rintro _ rfl; exact hop)
    (by rintro _ rfl; exact hq)

theorem Quiet.calc (id : ℕ) : Quiet id (calcOp id []) :=
  Quiet.call (op := .evalCalc id []) (keys := []) .calc (fun _ => ⟨rfl, rfl⟩) fun _ => (bind_pure_state _ _).symm

/-- `int_Q` is restored, whatever happens inside. -/
theorem Quiet.withIntQ {id : ℕ} {α : Type} {cs : List Char} {x : M α} (h : Quiet id x) :
    Quiet id (withIntQ id cs x) := by
  intro w hw o ho
  unfold RT1.withIntQ
  rw [bind_ok (getObj_some ho)]
  have s1 : Reachable ((modObj id fun o' => { o' with intQ := decide ('i' ∈ cs) }) w).2 :=
    hw.step (op := .setIntQ id (decide ('i' ∈ cs))) trivial
  have g1 := modObj_get ho fun o' => { o' with intQ := decide ('i' ∈ cs) }
  obtain ⟨h2, o2, ho2, q2, d2⟩ := h _ s1 _ g1
  have h3 := h2.step (op := .setIntQ id o.intQ) trivial
  exact ⟨h3, _, modObj_get ho2 fun o' => { o' with intQ := o.intQ }, rfl, d2⟩

theorem Quiet.tex (id : ℕ) : Quiet id (Self.tex id) :=
  Quiet.of_runs (P := fun _ => False) (keys := []) (Runs.tex id) (fun _ h => h.elim) fun _ h => h.elim
theorem Quiet.pex (id : ℕ) : Quiet id (Self.pex id) :=
  Quiet.of_runs (P := fun _ => False) (keys := []) (Runs.pex id) (fun _ h => h.elim) fun _ h => h.elim

theorem Quiet.geom (id : ℕ) (kw : List (String × Option Arr)) : Quiet id (setGeometry id kw) :=
  Quiet.call (op := .setGeometry id kw) (keys := []) (.geom kw) (fun o => by
    have h := still_geom o kw
    simp only [Obj.still, Prod.mk.injEq] at h
    exact ⟨h.2.2.2.2.1, h.2.2.2.2.2.1⟩) fun _ => rfl

theorem Quiet.bi (id : ℕ) : Quiet id (setBistatic id none none (some (.number 0)) none) :=
  Quiet.call (op := .setBistatic id none none (some (.number 0)) none) (keys := []) .bi (fun o => by
    have h := still_bi o none none (some (.number 0)) none
    simp only [Obj.still, Prod.mk.injEq] at h
    exact ⟨h.2.2.2.2.1, h.2.2.2.2.2.1⟩) fun _ => rfl

theorem Quiet.upd (id : ℕ) (kw : Dict) : Quiet id (updateParams id kw) :=
  Quiet.call (op := .updateParams id kw) (keys := kw.keys) (.upd kw fun _ h => h) (fun _ => ⟨rfl, rfl⟩) fun _ => rfl

theorem Quiet.getvals (id : ℕ) (cs : List Char) (inc : ℝ) : Quiet id (getvals id cs inc) := by
  unfold RT1.getvals
  refine Quiet.bind (Quiet.tex id) fun _ => Quiet.bind (Quiet.pex id) fun _ =>
    Quiet.bind (Quiet.geom id _) fun _ => Quiet.bind (Quiet.withIntQ (Quiet.calc id)) fun _ =>
    Quiet.bind (Quiet.tex id) fun _ => Quiet.bind (Quiet.pex id) fun _ => ?_
  exact Quiet.bind (Quiet.lift _) fun _ => Quiet.bind (Quiet.lift _) fun _ => Quiet.bind (Quiet.lift _) fun _ =>
    Quiet.bind (Quiet.lift _) fun _ => Quiet.bind (Quiet.lift _) fun _ => Quiet.same fun _ => rfl

theorem Quiet.update3d (id : ℕ) (A : Analyzer3D) : Quiet id (Analyzer3D.update id A) := by
  unfold Analyzer3D.update
  refine Quiet.bind (Quiet.upd id _) fun _ => Quiet.bind (Quiet.getvals id _ _) fun _ =>
    Quiet.bind (Quiet.lift _) fun _ => Quiet.bind (Quiet.lift _) fun _ => Quiet.same fun w => ?_
  split_ifs <;> rfl

theorem Quiet.first3d (id : ℕ) (A : Analyzer3D) : Quiet id (Analyzer3D.first id A) := by
  unfold Analyzer3D.first
  refine Quiet.bind (Quiet.update3d id A) fun _ => Quiet.same fun w => ?_
  split_ifs <;> rfl

theorem Quiet.sliders (id : ℕ) (ps : List (String × List SliderArg)) : Quiet id (analyzerSliders id ps) :=
  Quiet.of_runs (P := fun op => op = .checkParams id (ps.map Prod.fst)) (keys := [])
    (Runs.sliders rfl) (by rintro _ rfl; exact .check _) (by rintro _ rfl o; exact ⟨rfl, rfl⟩)

end

end RT1
