import Verif.Lemmas.Hist
import Verif.Lemmas.Demo

/-!
# Object state: angles, parameters, memo tables

`step op w` executes a public call in the state `w`; `run w ops` a history, in which any call
may raise.
-/

namespace RT1

noncomputable section
open Classical

/-- The same state with empty memo tables. -/
def World.forget (w : World) : World := { w with caches := ⟨[], [], [], [], [], [], [], []⟩ }

theorem Inv.forget {full : Bool} {w : World} (h : Inv full w) : Inv full w.forget where
  next := h.next
  mu0 := TabOK.nil _
  muEx := TabOK.nil _
  psym := TabOK.nil _
  pfun := TabOK.nil _
  mu0x := fun _ => TabOK.nil _
  muExx := fun _ => TabOK.nil _
  obj := h.obj

/-! ## C01: no stale cosines -/

/-- After any history (without overwriting an angle array in place) the cosines used by
evaluations are those of the angles the object reports. -/
theorem C01_cosines {w : World} (h : ReachableK w) {id : ℕ} {o : Obj} (ho : w.objs id = some o) :
    (Self.mu0 id w).1 = (Self.t0 id w).1.map Arr.cos ∧
    (Self.muEx id w).1 = (Self.tex id w).1.map Arr.cos := by
  have hd : DuringE false w id o w := During.init h.inv ho trivial
  rw [(Refines.mu0 w hd).1, (Refines.t0 w hd).1, (Refines.muEx w hd).1, (Refines.tex w hd).1]
  unfold Fresh.mu0 Fresh.muEx
  constructor
  · cases Fresh.ang o .t0 <;> rfl
  · cases Fresh.tex o <;> rfl

/-- After any history, `surface` and `volume` return what they return with empty memo tables. -/
theorem C01_surface_volume {w : World} (h : ReachableK w) (id : ℕ) (kw : Dict) :
    (surface id kw w).1 = (surface id kw w.forget).1 ∧
    (volume id kw w).1 = (volume id kw w.forget).1 := by
  cases ho : w.objs id with
  | none =>
    have ho' : w.forget.objs id = none := ho
    rw [surface_none ho, surface_none ho', volume_none ho, volume_none ho']
    exact ⟨rfl, rfl⟩
  | some o =>
    have ho' : w.forget.objs id = some o := ho
    rw [(surface_eq h.inv ho kw).1, (surface_eq h.inv.forget ho' kw).1, (volume_eq h.inv ho kw).1,
      (volume_eq h.inv.forget ho' kw).1]
    exact ⟨rfl, rfl⟩

/-- After any history (in which V and SRF are not re-assigned), `calc` and `interaction`
return what they return with empty memo tables. -/
theorem C01_calc_interaction {w : World} (h : Reachable w) (id : ℕ) (kw : Dict) :
    (calcOp id kw w).1 = (calcOp id kw w.forget).1 ∧
    (interaction id kw w).1 = (interaction id kw w.forget).1 := by
  cases ho : w.objs id with
  | none =>
    have ho' : w.forget.objs id = none := ho
    rw [calcOp_none ho, calcOp_none ho', interaction_none ho, interaction_none ho']
    exact ⟨rfl, rfl⟩
  | some o =>
    have ho' : w.forget.objs id = some o := ho
    rw [(calcOp_eq h.inv ho kw).1, (calcOp_eq h.inv.forget ho' kw).1, (interaction_eq h.inv ho kw).1,
      (interaction_eq h.inv.forget ho' kw).1]
    exact ⟨rfl, rfl⟩

/-- A scalar example state: constructor, angles, parameters. -/
abbrev exW (b : Backend) (V SRF : Scatter) : World :=
  demoW b V SRF true true false (Arr.lit 1) (Arr.lit 1) (Arr.lit 0) (demoKw (1/2) (1/4) 1 (1/8))

example (b : Backend) (V SRF : Scatter) : Reachable (exW b V SRF) ∧
    (exW b V SRF).objs 0 = some (demoObj V SRF true true false (Arr.lit 1) (Arr.lit 1) (Arr.lit 0)
      (demoKw (1/2) (1/4) 1 (1/8))) :=
  ⟨demo_reachable .., demo_objs ..⟩

/-! ## C03: monostatic relations -/

theorem getObj_run {α : Type} {w : World} {id : ℕ} {o : Obj} (ho : w.objs id = some o)
    (f : Obj → M α) : (getObj id >>= f) w = f o w := by rw [bind_ok (getObj_some ho)]

theorem afterGeom_keeps (o : Obj) (kw : List (String × Option Arr)) :
    (o.afterGeom kw).mono = o.mono ∧ (o.afterGeom kw).fixed = o.fixed ∧
      (o.afterGeom kw).params = o.params ∧ (o.afterGeom kw).pdef = o.pdef ∧
      (o.afterGeom kw).geom = o.geom ∧ ∀ n ∈ o.fixed, (o.afterGeom kw).ang n = o.ang n := by
  have hl : ∀ (l : List (String × Option Arr)) (o : Obj), (Obj.angLoop l o).mono = o.mono ∧
      (Obj.angLoop l o).fixed = o.fixed ∧ (Obj.angLoop l o).params = o.params ∧
      (Obj.angLoop l o).pdef = o.pdef ∧ (Obj.angLoop l o).geom = o.geom ∧
      ∀ n ∈ o.fixed, (Obj.angLoop l o).ang n = o.ang n := by
    intro l
    induction l with
    | nil => intro o; exact ⟨rfl, rfl, rfl, rfl, rfl, fun _ _ => rfl⟩
    | cons p l ih =>
      intro o
      obtain ⟨k, v⟩ := p
      unfold Obj.angLoop
      cases AngN.ofName k with
      | none => exact ih o
      | some n =>
        simp only
        by_cases hn : n ∈ o.fixed
        · simp only [hn, if_true]
          exact ⟨trivial, trivial, trivial, trivial, trivial, fun _ _ => trivial⟩
        · simp only [hn, if_false]
          cases v with
          | none => exact ⟨rfl, rfl, rfl, rfl, rfl, fun _ _ => rfl⟩
          | some a =>
            obtain ⟨h1, h2, h3, h4, h5, h6⟩ :=
              ih { o with ang := Function.update o.ang n (some a.atleast1d) }
            refine ⟨h1, h2, h3, h4, h5, fun m hm => ?_⟩
            rw [h6 m hm]
            show Function.update o.ang n _ m = _
            rw [Function.update_of_ne]
            rintro rfl; exact hn hm
  unfold Obj.afterGeom
  split_ifs
  · exact ⟨rfl, rfl, rfl, rfl, rfl, fun _ _ => rfl⟩
  · exact ⟨rfl, rfl, rfl, rfl, rfl, fun _ _ => rfl⟩
  · exact hl kw o

theorem update_keeps (o : Obj) (kw : Dict) : (Fresh.update o kw).mono = o.mono ∧
    (Fresh.update o kw).fixed = o.fixed ∧ (Fresh.update o kw).ang = o.ang ∧
    (Fresh.update o kw).pdef = o.pdef ∧ (Fresh.update o kw).geom = o.geom :=
  ⟨rfl, rfl, rfl, rfl, rfl⟩

theorem afterMono_mono (o : Obj) (p : Option PyArg) : (o.afterMono p).mono = true := by
  cases p with
  | none => rfl
  | some a => cases a <;> rfl

/-- Calls that leave the geometry mode of `id` alone. -/
def Op.NotBistatic (id : ℕ) : Op → Prop
  | .setBistatic j _ _ _ _ => j ≠ id
  | _ => True

theorem mono_after {id : ℕ} {op : Op} (h : op.NotBistatic id) (ht : op.target = some id) (o : Obj)
    (hm : o.mono = true) : (o.after op).mono = true := by
  cases op <;> simp only [Op.target, Option.some.injEq, reduceCtorEq] at ht <;> try exact hm
  case setMonostatic p => exact afterMono_mono o p
  case setBistatic j a b c d => exact absurd ht h
  case setGeometry j kw => exact (afterGeom_keeps o kw).1.trans hm

theorem mono_relations {w : World} {id : ℕ} (h : Holds w id fun o => o.mono = true) :
    (Self.tex id w).1 = (Self.t0 id w).1 ∧
    (∀ e, (Self.p0 id w).1 = .error e → (Self.pex id w).1 = .error e) ∧
    ∀ a, (Self.p0 id w).1 = .ok a → ∃ b, (Self.pex id w).1 = .ok b ∧ b.shape = a.shape ∧
      ∀ idx, Arr.Valid a.shape idx → b.get idx = a.get idx + XR.fin Real.pi := by
  obtain ⟨o, ho, hm⟩ := h
  refine ⟨?_, ?_, ?_⟩
  · unfold Self.tex
    rw [getObj_run ho, if_pos hm]
  · intro e he
    unfold Self.pex
    rw [getObj_run ho, if_pos hm]
    cases hp : Self.p0 id w with
    | mk r w' =>
      rw [hp] at he
      simp only at he
      subst he
      rw [bind_error hp]
  · intro a ha
    unfold Self.pex
    rw [getObj_run ho, if_pos hm]
    cases hp : Self.p0 id w with
    | mk r w' =>
      rw [hp] at ha
      simp only at ha
      subst ha
      rw [bind_ok hp]
      have hfit : Arr.Fits [] a.shape := by simp [Arr.Fits]
      have hb : Arr.add a (Arr.lit Real.pi) =
          .ok ⟨a.shape, fun i => a.at' i + (Arr.lit Real.pi).at' i⟩ := by
        unfold Arr.add Arr.map2
        have : Arr.bshape a.shape (Arr.lit Real.pi).shape = some a.shape := by
          show Arr.bshape a.shape [] = some a.shape
          cases a.shape <;> rfl
        rw [this]
      rw [hb]
      refine ⟨_, rfl, rfl, fun idx hv => ?_⟩
      show a.at' idx + (Arr.lit Real.pi).at' idx = _
      rw [Arr.at'_valid hv]
      congr 1

/-- In monostatic mode (after `set_monostatic`, even one that raised, and any calls other than
`set_bistatic` on this object) the exit angles are `t_0` and `p_0 + pi`. -/
theorem C03_monostatic {w : World} (hn : ReachableAny w) {id : ℕ} {o : Obj}
    (ho : w.objs id = some o) (p : Option PyArg) {ops : List Op}
    (hops : ∀ op ∈ ops, op.NotBistatic id) :
    let w' := run (step (.setMonostatic id p) w).2 ops
    (Self.tex id w').1 = (Self.t0 id w').1 ∧
    (∀ e, (Self.p0 id w').1 = .error e → (Self.pex id w').1 = .error e) ∧
    ∀ a, (Self.p0 id w').1 = .ok a → ∃ b, (Self.pex id w').1 = .ok b ∧ b.shape = a.shape ∧
      ∀ idx, Arr.Valid a.shape idx → b.get idx = a.get idx + XR.fin Real.pi := by
  refine mono_relations ?_
  refine run_obj (Q := fun o => o.mono = true) (fun o o' hc h => by
    rw [← (core_fields hc).2.2.2.2.2.1]; exact h) (fun op hop ht o h => mono_after (hops op hop) ht o h)
    (step_other hn.next _).1 ?_
  exact ⟨_, setMonostatic_obj ho p, afterMono_mono o p⟩

/-- New objects are in monostatic mode. -/
theorem C03_new {w : World} (hn : ReachableAny w) (V SRF : Scatter) (q s d : Bool)
    (fnI : Option (List P)) (fneI : Option FnLam) (I0 : Arr) {ops : List Op}
    (hops : ∀ op ∈ ops, op.NotBistatic w.next) :
    let w' := run (step (.new V SRF q s d fnI fneI I0) w).2 ops
    (Self.tex w.next w').1 = (Self.t0 w.next w').1 ∧
    (∀ e, (Self.p0 w.next w').1 = .error e → (Self.pex w.next w').1 = .error e) ∧
    ∀ a, (Self.p0 w.next w').1 = .ok a → ∃ b, (Self.pex w.next w').1 = .ok b ∧ b.shape = a.shape ∧
      ∀ idx, Arr.Valid a.shape idx → b.get idx = a.get idx + XR.fin Real.pi := by
  refine mono_relations ?_
  refine run_obj (Q := fun o => o.mono = true) (fun o o' hc h => by
    rw [← (core_fields hc).2.2.2.2.2.1]; exact h) (fun op hop ht o h => mono_after (hops op hop) ht o h)
    (step_other hn.next _).1 ?_
  have e : (step (.new V SRF q s d fnI fneI I0) w).2 =
    (setMonostatic w.next none (w.addObj (initObj V SRF q s d fnI fneI I0))).2 := rfl
  rw [e]
  exact ⟨_, setMonostatic_obj (o := initObj V SRF q s d fnI fneI I0)
    (by show Function.update w.objs w.next _ w.next = _; simp) none, afterMono_mono _ _⟩

example (V SRF : Scatter) : ReachableAny (exW .sympy V SRF) ∧ ∃ o, (exW .sympy V SRF).objs 0 = some o ∧
    ∀ op ∈ [Op.setGeometry 0 [("t_0", some (Arr.lit 2))], Op.surface 0 [], Op.setBistatic 1 none none none none],
      op.NotBistatic 0 := by
  refine ⟨(demo_reachable ..).keeps.any, _, demo_objs .., ?_⟩
  intro op hop
  fin_cases hop <;> simp [Op.NotBistatic]

/-! ## C04: fixed angles -/

/-- Calls that may change a fixed angle of `id`: the mode calls (and overwriting an array). -/
def Op.KeepsFixed (id : ℕ) : Op → Prop
  | .setMonostatic j _ => j ≠ id
  | .setBistatic j _ _ _ _ => j ≠ id
  | .overwriteArg j _ _ => j ≠ id
  | _ => True

/-- Reading an angle. -/
def readAngle (id : ℕ) : AngN → M Arr
  | .t0 => Self.t0 id
  | .tex => Self.tex id
  | .p0 => Self.p0 id
  | .pex => Self.pex id

/-- The angle is fixed to `r`. -/
def IsFixed (n : AngN) (r : ℝ) (m : Bool) (o : Obj) : Prop :=
  n ∈ o.fixed ∧ o.ang n = some (arr1 r) ∧ o.mono = m

theorem isFixed_after {id : ℕ} {op : Op} (h : op.KeepsFixed id) (ht : op.target = some id) (o : Obj)
    {n : AngN} {r : ℝ} {m : Bool} (hf : IsFixed n r m o) : IsFixed n r m (o.after op) := by
  cases op <;> simp only [Op.target, Option.some.injEq, reduceCtorEq] at ht <;> try exact hf
  case setMonostatic j p => exact absurd ht h
  case setBistatic j a b c d => exact absurd ht h
  case setGeometry j kw =>
    obtain ⟨h1, h2, -, -, -, h3⟩ := afterGeom_keeps o kw
    exact ⟨by rw [Obj.after, h2]; exact hf.1, by rw [Obj.after, h3 n hf.1]; exact hf.2.1,
      by rw [Obj.after, h1]; exact hf.2.2⟩
  case overwriteArg j n a => exact absurd ht h

theorem isFixed_run {w : World} (hn : NextOK w) {id : ℕ} {n : AngN} {r : ℝ} {m : Bool}
    (h : Holds w id (IsFixed n r m)) {ops : List Op} (hops : ∀ op ∈ ops, op.KeepsFixed id) :
    Holds (run w ops) id (IsFixed n r m) :=
  run_obj (fun o o' hc h => by
    obtain ⟨-, -, -, -, h5, h6, h7, -⟩ := core_fields hc
    exact ⟨by rw [← h5]; exact h.1, by rw [← h7]; exact h.2.1, by rw [← h6]; exact h.2.2⟩)
    (fun op hop ht o h => isFixed_after (hops op hop) ht o h) hn h

theorem readAngle_fixed {w : World} {id : ℕ} {n : AngN} {r : ℝ} {m : Bool}
    (h : Holds w id (IsFixed n r m)) (hm : m = true → n = .t0 ∨ n = .p0) :
    (readAngle id n w).1 = .ok (arr1 r) := by
  obtain ⟨o, ho, h1, h2, h3⟩ := h
  cases n with
  | t0 => show (Self.t0 id w).1 = _; unfold Self.t0; rw [getObj_run ho, h2]; rfl
  | p0 => show (Self.p0 id w).1 = _; unfold Self.p0; rw [getObj_run ho, h2]; rfl
  | tex =>
    have : m = false := by
      cases m
      · rfl
      · rcases hm rfl with h | h <;> cases h
    show (Self.tex id w).1 = _
    unfold Self.tex
    rw [getObj_run ho, if_neg (by rw [h3, this]; simp), h2]; rfl
  | pex =>
    have : m = false := by
      cases m
      · rfl
      · rcases hm rfl with h | h <;> cases h
    show (Self.pex id w).1 = _
    unfold Self.pex
    rw [getObj_run ho, if_neg (by rw [h3, this]; simp), h2]; rfl

/-- An azimuth fixed by `set_monostatic` keeps its value until the next mode call. -/
theorem C04_monostatic {w : World} (hn : ReachableAny w) {id : ℕ} {o : Obj}
    (ho : w.objs id = some o) (r : ℝ) {ops : List Op} (hops : ∀ op ∈ ops, op.KeepsFixed id) :
    (Self.p0 id (run (step (.setMonostatic id (some (.number r))) w).2 ops)).1 = .ok (arr1 r) := by
  refine readAngle_fixed (n := .p0) (m := true) (isFixed_run (step_other hn.next _).1 ?_ hops)
    fun _ => Or.inr rfl
  exact ⟨_, setMonostatic_obj ho _, by simp [Obj.afterMono, Obj.fix],
    by simp [Obj.afterMono, Obj.fix], rfl⟩

/-- The argument of `set_bistatic` for an angle. -/
def biArg (a b c d : Option PyArg) : AngN → Option PyArg
  | .t0 => a
  | .tex => b
  | .p0 => c
  | .pex => d

/-- Angles fixed by `set_bistatic` keep their value until the next mode call. -/
theorem C04_bistatic {w : World} (hn : ReachableAny w) {id : ℕ} {o : Obj}
    (ho : w.objs id = some o) {a b c d : Option PyArg}
    (hok : (setBistatic id a b c d w).1 = .ok ()) {n : AngN} {r : ℝ}
    (harg : biArg a b c d n = some (.number r)) {ops : List Op}
    (hops : ∀ op ∈ ops, op.KeepsFixed id) :
    (readAngle id n (run (step (.setBistatic id a b c d) w).2 ops)).1 = .ok (arr1 r) := by
  refine readAngle_fixed (m := false) (isFixed_run (step_other hn.next _).1 ?_ hops)
    fun h => by cases h
  refine ⟨_, setBistatic_obj ho a b c d, ?_⟩
  have hall : PyArg.ok a = true ∧ PyArg.ok b = true ∧ PyArg.ok c = true ∧ PyArg.ok d = true := by
    by_contra hc
    obtain ⟨h1, h2⟩ := resetGeom_obj ho false
    have hx : resetGeom id false w = (.ok (), (resetGeom id false w).2) := by rw [← h1]
    unfold setBistatic at hok
    rw [bind_ok hx] at hok
    obtain ⟨w1, e1, o1⟩ := bistaticAngle_obj h2 .t0 "theta_0" a
    by_cases ha : PyArg.ok a = true
    · rw [if_pos ha] at e1
      rw [bind_ok e1] at hok
      obtain ⟨w2, e2, o2⟩ := bistaticAngle_obj o1 .tex "theta_ex" b
      by_cases hb : PyArg.ok b = true
      · rw [if_pos hb] at e2
        rw [bind_ok e2] at hok
        obtain ⟨w3, e3, o3⟩ := bistaticAngle_obj o2 .p0 "phi_0" c
        by_cases hcc : PyArg.ok c = true
        · rw [if_pos hcc] at e3
          rw [bind_ok e3] at hok
          obtain ⟨w4, e4, o4⟩ := bistaticAngle_obj o3 .pex "phi_ex" d
          by_cases hd : PyArg.ok d = true
          · exact hc ⟨ha, hb, hcc, hd⟩
          · rw [if_neg hd] at e4
            rw [bind_error e4] at hok; cases hok
        · rw [if_neg hcc] at e3
          rw [bind_error e3] at hok; cases hok
      · rw [if_neg hb] at e2
        rw [bind_error e2] at hok; cases hok
    · rw [if_neg ha] at e1
      rw [bind_error e1] at hok; cases hok
  obtain ⟨ha, hb, hc, hd⟩ := hall
  unfold Obj.afterBi
  rw [if_pos ⟨ha, hb, hc, hd⟩]
  have hval : ∀ p : Option PyArg, PyArg.ok p = true → p = none ∨ ∃ r, p = some (.number r) := by
    intro p hp
    cases p with
    | none => exact Or.inl rfl
    | some q =>
      cases q with
      | other => cases hp
      | number r => exact Or.inr ⟨r, rfl⟩
  rcases hval a ha with rfl | ⟨ra, rfl⟩ <;> rcases hval b hb with rfl | ⟨rb, rfl⟩ <;>
    rcases hval c hc with rfl | ⟨rc, rfl⟩ <;> rcases hval d hd with rfl | ⟨rd, rfl⟩ <;>
    cases n <;> simp only [biArg, Option.some.injEq, PyArg.number.injEq, reduceCtorEq] at harg <;>
    subst harg <;>
    simp [IsFixed, Obj.fixLoop, Obj.fix, Obj.reset, Function.update]

example (V SRF : Scatter) : ∃ w, ReachableAny w ∧ (∃ o, w.objs 0 = some o) ∧
    (setBistatic 0 none (some (.number 1)) none none w).1 = .ok () ∧
    biArg none (some (.number 1)) none none .tex = some (.number 1) ∧
    ∀ op ∈ [Op.setGeometry 0 [("t_ex", some (Arr.lit 2))]], op.KeepsFixed 0 :=
  ⟨exW .sympy V SRF, (demo_reachable ..).keeps.any, ⟨_, demo_objs ..⟩, rfl, rfl, by
    intro op hop; fin_cases hop; trivial⟩

/-- `set_geometry` with a keyword for a fixed angle raises AssertionError and leaves this
angle alone (names valid, no exit angle in monostatic mode). -/
theorem C04_raises {w : World} {id : ℕ} {o : Obj} (ho : w.objs id = some o) {n : AngN}
    (hf : n ∈ o.fixed) {kw : List (String × Option Arr)} {k : String} {v : Option Arr}
    (hkw : (k, v) ∈ kw) (hk : AngN.ofName k = some n)
    (hnames : ∀ p ∈ kw, p.1 ∈ ["t_0", "t_ex", "p_0", "p_ex"])
    (hexit : o.mono = false ∨ ∀ p ∈ kw, p.1 ≠ "t_ex" ∧ p.1 ≠ "p_ex") :
    (setGeometry id kw w).1 = .error .assertionError ∧
    ∃ o', (setGeometry id kw w).2.objs id = some o' ∧ o'.ang n = o.ang n := by
  refine ⟨?_, _, setGeometry_obj ho kw, (afterGeom_keeps o kw).2.2.2.2.2 n hf⟩
  have h1 : ¬ ∃ p ∈ kw, AngN.ofName p.1 = none := by
    rintro ⟨p, hp, hnone⟩
    have := hnames p hp
    simp only [List.mem_cons, List.not_mem_nil, or_false] at this
    rcases this with h | h | h | h <;> rw [h] at hnone <;> cases hnone
  have h2 : ¬ ((∃ p ∈ kw, p.1 = "t_ex" ∨ p.1 = "p_ex") ∧ o.mono = true) := by
    rintro ⟨⟨p, hp, hpe⟩, hm⟩
    rcases hexit with h | h
    · rw [h] at hm; cases hm
    · rcases hpe with hpe | hpe
      · exact (h p hp).1 hpe
      · exact (h p hp).2 hpe
  unfold setGeometry
  rw [if_neg h1, bind_ok (getObj_some ho), if_neg h2, bind_ok (show clearGeom w = (.ok (), _) from rfl)]
  have key : ∀ (l : List (String × Option Arr)), (k, v) ∈ l → ∀ (w : World) (o : Obj),
      w.objs id = some o → n ∈ o.fixed → (setAngles id l w).1 = .error .assertionError := by
    intro l
    induction l with
    | nil => intro h; cases h
    | cons p l ih =>
      intro hmem w o ho hf
      obtain ⟨k', v'⟩ := p
      unfold setAngles
      cases hk' : AngN.ofName k' with
      | none =>
        refine ih ?_ w o ho hf
        rcases List.mem_cons.mp hmem with h | h
        · cases h; rw [hk] at hk'; cases hk'
        · exact h
      | some n' =>
        simp only
        rw [bind_ok (getObj_some ho)]
        by_cases hn : n' ∈ o.fixed
        · simp only [hn, if_true]
          rfl
        · simp only [hn, if_false]
          cases v' with
          | none => rfl
          | some a =>
            refine ih ?_ _ _ (modObj_get ho _) hf
            rcases List.mem_cons.mp hmem with h | h
            · cases h; rw [hk] at hk'; cases hk'; exact absurd hf hn
            · exact h
  exact key kw hkw _ o ho hf

/-! ## C05: invalid set_geometry calls -/

/-- An unknown angle name: TypeError, and nothing changes at all. -/
theorem C05_unknown_name {w : World} {id : ℕ} {kw : List (String × Option Arr)}
    (h : ∃ p ∈ kw, p.1 ∉ ["t_0", "t_ex", "p_0", "p_ex"]) :
    setGeometry id kw w = (.error (.typeError []), w) := by
  have h' : ∃ p ∈ kw, AngN.ofName p.1 = none := by
    obtain ⟨p, hp, hn⟩ := h
    refine ⟨p, hp, ?_⟩
    simp only [List.mem_cons, List.not_mem_nil, or_false, not_or] at hn
    unfold AngN.ofName
    split <;> simp_all
  unfold setGeometry
  rw [if_pos h']
  rfl

/-- An exit angle in monostatic mode: AssertionError, and nothing changes at all. -/
theorem C05_exit_angle {w : World} {id : ℕ} {o : Obj} (ho : w.objs id = some o)
    (hm : o.mono = true) {kw : List (String × Option Arr)}
    (hnames : ∀ p ∈ kw, p.1 ∈ ["t_0", "t_ex", "p_0", "p_ex"])
    (h : ∃ p ∈ kw, p.1 = "t_ex" ∨ p.1 = "p_ex") :
    setGeometry id kw w = (.error .assertionError, w) := by
  have h1 : ¬ ∃ p ∈ kw, AngN.ofName p.1 = none := by
    rintro ⟨p, hp, hnone⟩
    have := hnames p hp
    simp only [List.mem_cons, List.not_mem_nil, or_false] at this
    rcases this with h | h | h | h <;> rw [h] at hnone <;> cases hnone
  unfold setGeometry
  rw [if_neg h1, bind_ok (getObj_some ho), if_pos ⟨h, hm⟩]
  rfl

example (V SRF : Scatter) : ∃ o, (exW .sympy V SRF).objs 0 = some o ∧ o.mono = true ∧
    (∀ p ∈ [("t_0", some (Arr.lit 1)), ("t_ex", some (Arr.lit 2))], p.1 ∈ ["t_0", "t_ex", "p_0", "p_ex"]) ∧
    ∃ p ∈ [("t_0", some (Arr.lit 1)), ("t_ex", some (Arr.lit 2))], p.1 = "t_ex" ∨ p.1 = "p_ex" :=
  ⟨_, demo_objs .., rfl, by simp, by simp⟩

end

end RT1
