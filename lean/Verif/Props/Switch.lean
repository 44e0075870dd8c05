import Verif.Lemmas.SwitchHist
import Verif.Props.Backend

/-!
# Programs that switch the lambdify backend

`set_lambda_backend` may be called at any time.  Compiled functions that are memoised keep the
backend they were compiled with.
-/

namespace RT1

noncomputable section
open Classical

/-! ### from evaluations to calls -/

section
variable {T : Type} (P : Policy T)

/-- A call with parameters, after the parameters have been updated. -/
theorem Switch.kw_eq {s : World × T} {id : ℕ} {o : Obj} (hI : InvC s.1) (ho : s.1.objs id = some o) (kw : Dict) :
    ∃ s' : World × T, SI s'.1 id (Fresh.update o kw) s'.1 ∧ s'.2 = s.2 ∧ s'.1.backend = s.1.backend ∧
      ∀ {α : Type} (x : SM T α), (Switch.plain (updateParams id kw) >>= fun _ => x) s = x s' := by
  have e : (Switch.plain (updateParams id kw) : SM T Unit) s =
      (.ok (), ({ s.1 with objs := Function.update s.1.objs id (some (Fresh.update o kw)) }, s.2)) := by
    show ((updateParams id kw s.1).1, ((updateParams id kw s.1).2, s.2)) = _
    rw [updateParams_eq ho]
  refine ⟨({ s.1 with objs := Function.update s.1.objs id (some (Fresh.update o kw)) }, s.2), ?_, rfl, rfl,
    fun x => by rw [SM.bind_ok e]⟩
  exact ⟨hI.updated ho kw, rfl, fun _ _ => rfl, Fresh.update o kw, Function.update_self .., rfl⟩

theorem Switch.surface_sim {s : World × T} {id : ℕ} {o : Obj} (hI : InvC s.1) (ho : s.1.objs id = some o) (kw : Dict) :
    (∀ z, Fresh.surface .symengine (Fresh.update o kw) = .ok z →
      ∃ y, (Switch.surface P id kw s).1 = .ok y ∧ Arr.Sub y z) ∧
    ∀ z, (Switch.surface P id kw s).1 = .ok z →
      ∃ y, Fresh.surface .sympy (Fresh.update o kw) = .ok y ∧ Arr.Sub y z := by
  obtain ⟨s', h1, -, -, h2⟩ := Switch.kw_eq (T := T) hI ho kw
  have hx : (Switch.surface P id kw s).1 =
      (((Switch.acc P id).surface >>= fun x => (Switch.acc P id).convert x) s').1 :=
    congrArg Prod.fst (h2 _)
  have hs := fun up => Sim.bind (Sim.surface (up := up) (w0 := s'.1) (o := Fresh.update o kw) P)
    (fun a => (SI.acc P).convert a) (fun a a' ha => Sim.convert P ha) s' h1
  rw [hx]
  exact ⟨(hs true).2.1 rfl, (hs false).2.2 rfl⟩

theorem Switch.volume_sim {s : World × T} {id : ℕ} {o : Obj} (hI : InvC s.1) (ho : s.1.objs id = some o) (kw : Dict) :
    (∀ z, Fresh.volume .symengine (Fresh.update o kw) = .ok z →
      ∃ y, (Switch.volume P id kw s).1 = .ok y ∧ Arr.Sub y z) ∧
    ∀ z, (Switch.volume P id kw s).1 = .ok z →
      ∃ y, Fresh.volume .sympy (Fresh.update o kw) = .ok y ∧ Arr.Sub y z := by
  obtain ⟨s', h1, -, -, h2⟩ := Switch.kw_eq (T := T) hI ho kw
  have hx : (Switch.volume P id kw s).1 =
      (((Switch.acc P id).volume >>= fun x => (Switch.acc P id).convert x) s').1 :=
    congrArg Prod.fst (h2 _)
  have hs := fun up => Sim.bind (Sim.volume (up := up) (w0 := s'.1) (o := Fresh.update o kw) P)
    (fun a => (SI.acc P).convert a) (fun a a' ha => Sim.convert P ha) s' h1
  rw [hx]
  exact ⟨(hs true).2.1 rfl, (hs false).2.2 rfl⟩

theorem plain_none {s : World × T} {id : ℕ} (ho : s.1.objs id = none) (kw : Dict) {α : Type} (x : SM T α) :
    ((Switch.plain (updateParams id kw) >>= fun _ => x) s).1 = .error .attributeError := by
  have e : (Switch.plain (updateParams id kw) : SM T Unit) s = (.error .attributeError, s) := by
    show ((updateParams id kw s.1).1, ((updateParams id kw s.1).2, s.2)) = _
    rw [updateParams_none ho]
  rw [SM.bind_error e]

theorem calcAll_core_noInt {b : Backend} {o o' : Obj} (hq : o.intQ = false) (hc : o.core = o'.core) :
    Fresh.calcAll b o = Fresh.calcAll b o' := by
  have hq' : o'.intQ = false := by
    have e : o.core.intQ = o'.core.intQ := congrArg Obj.intQ hc
    exact e.symm.trans hq
  have hbody : (Fresh.acc0 b o).calcBody = (Fresh.acc0 b o').calcBody := by
    have h1 : (Fresh.acc0 b o).calcBody = (Fresh.acc0 b o.core).calcBody :=
      Acc.calcBody_congr (congrArg Except.ok hq) (congrArg Except.ok hq) rfl rfl rfl fun _ _ _ _ => rfl
    have h2 : (Fresh.acc0 b o').calcBody = (Fresh.acc0 b o'.core).calcBody :=
      Acc.calcBody_congr (congrArg Except.ok hq') (congrArg Except.ok hq') rfl rfl rfl fun _ _ _ _ => rfl
    rw [h1, h2, hc]
  have hm : (Fresh.acc0 b o).missingNames = (Fresh.acc0 b o').missingNames := by
    show (Fresh.acc0 b o.core).missingNames = (Fresh.acc0 b o'.core).missingNames
    rw [hc]
  unfold Fresh.calcAll Acc.calcTry
  rw [hbody, hm]

/-- The state of the same program without switches. -/
structure Ref (w : World) (k : Backend) (w' : World) : Prop where
  twin : Twin w w'
  inv : Inv false w'
  backend : w'.backend = k

theorem Ref.of_run {b0 : Backend} {t0 : T} {ops : List SOp} (hf : ∀ x ∈ ops, x.Fine) (k : Backend) :
    Ref (Switch.run P (initWorld b0, t0) ops).1 k (run (initWorld k) (Switch.calls ops)) := by
  refine ⟨(Switch.history P b0 t0 k hf).1, (ReachableK.of_run (b := k) fun op hop => ?_).inv, initRun_backend _ _⟩
  obtain ⟨y, hy, hyo⟩ := List.mem_filterMap.1 hop
  cases y with
  | setBackend n => cases hyo
  | op o1 => cases hyo; exact (hf _ hy).1

theorem Ref.surface {w w' : World} {k : Backend} (h : Ref w k w') {id : ℕ} {o : Obj} (ho : w.objs id = some o)
    (kw : Dict) : (RT1.surface id kw w').1 = Fresh.surface k (Fresh.update o kw) := by
  obtain ⟨o', ho', hc⟩ := h.twin.get ho
  rw [(surface_eq h.inv ho' kw).1, h.backend]
  show Fresh.surface k (Fresh.update o'.core kw) = Fresh.surface k (Fresh.update o.core kw)
  rw [hc]

theorem Ref.volume {w w' : World} {k : Backend} (h : Ref w k w') {id : ℕ} {o : Obj} (ho : w.objs id = some o)
    (kw : Dict) : (RT1.volume id kw w').1 = Fresh.volume k (Fresh.update o kw) := by
  obtain ⟨o', ho', hc⟩ := h.twin.get ho
  rw [(volume_eq h.inv ho' kw).1, h.backend]
  show Fresh.volume k (Fresh.update o'.core kw) = Fresh.volume k (Fresh.update o.core kw)
  rw [hc]

theorem Ref.calcOp {w w' : World} {k : Backend} (h : Ref w k w') {id : ℕ} {o : Obj} (ho : w.objs id = some o)
    (hq : o.intQ = false) (kw : Dict) : (RT1.calcOp id kw w').1 = Fresh.calcAll k (Fresh.update o kw) := by
  obtain ⟨o', ho', hc⟩ := h.twin.get ho
  have hq' : o'.intQ = false := by
    have e : o.core.intQ = o'.core.intQ := congrArg Obj.intQ hc
    exact e.symm.trans hq
  rw [calcOp_noInt h.inv ho' hq' kw, h.backend]
  exact calcAll_core_noInt (o := Fresh.update o' kw) hq' (after_core hc.symm (.updateParams id kw))

theorem Ref.jacobian {w w' : World} {k : Backend} (h : Ref w k w') {id : ℕ} {o : Obj} (ho : w.objs id = some o)
    {keys : List String} (hk : ∀ key ∈ keys, key ∈ ["omega", "tau", "NormBRDF", "bsf"]) :
    (RT1.jacobian id keys "list" w').1 = ((Fresh.acc0 k o).jacList keys).map Sum.inl := by
  obtain ⟨o', ho', hc⟩ := h.twin.get ho
  have hR := accRef (full := false) (w0 := w') (id := id) (o := o') (S := fun _ _ => True)
    (Fresh.dVol w'.backend o') (Fresh.dSrf w'.backend o')
  have hE : ∀ (n : Arr) key, key ∈ ["omega", "tau", "NormBRDF", "bsf"] →
      Refines (During false w' id o' fun _ _ => True) ((Self.acc w'.backend id).jacEntry n key)
        ((Fresh.acc0 w'.backend o').jacEntry n key) := by
    intro n key hkey
    simp only [List.mem_cons, List.not_mem_nil, or_false] at hkey
    rcases hkey with rfl | rfl | rfl | rfl
    · exact Refines.mulM (Refines.addM (Refines.litM 0) hR.dvolumeDomega) (Refines.pure n)
    · exact Refines.mulM (Refines.addM hR.dsurfaceDtau hR.dvolumeDtau) (Refines.pure n)
    · exact Refines.mulM (Refines.addM hR.dsurfaceDNormBRDF (Refines.litM 0)) (Refines.pure n)
    · exact Refines.mulM (Refines.addM hR.dsurfaceDbsf hR.dvolumeDbsf) (Refines.pure n)
  have hL : ∀ (n : Arr) (l : List String), (∀ key ∈ l, key ∈ ["omega", "tau", "NormBRDF", "bsf"]) →
      Refines (During false w' id o' fun _ _ => True) ((Self.acc w'.backend id).jacLoop n l)
        ((Fresh.acc0 w'.backend o').jacLoop n l) := by
    intro n l
    induction l with
    | nil => exact fun _ => Refines.pure _
    | cons a l ih =>
      exact fun hl => Refines.bind (hE n a (hl a (by simp))) fun _ _ =>
        Refines.bind (ih fun key hkey => hl key (by simp [hkey])) fun _ _ => Refines.pure _
  have hJ := (Refines.bind hR.jacNorm fun n _ => hL n keys hk) w' (During.init h.inv ho' trivial)
  have e1 : (jacobianList id keys w').1 = (Fresh.acc0 k o).jacList keys := by
    unfold jacobianList
    rw [bind_ok (show getW w' = (.ok w', w') from rfl)]
    refine hJ.1.trans ?_
    show (Fresh.acc0 w'.backend o').jacList keys = _
    have hl : ∀ (n : Arr) (l : List String), (∀ key ∈ l, key ∈ ["omega", "tau", "NormBRDF", "bsf"]) →
        (Fresh.acc0 k o').jacLoop n l = (Fresh.acc0 k o).jacLoop n l := by
      intro n l
      induction l with
      | nil => exact fun _ => rfl
      | cons a l ih =>
        intro hl
        have e : (Fresh.acc0 k o').jacEntry n a = (Fresh.acc0 k o).jacEntry n a := by
          have ha := hl a (by simp)
          simp only [List.mem_cons, List.not_mem_nil, or_false] at ha
          rcases ha with rfl | rfl | rfl | rfl
          all_goals
            show (Fresh.acc0 k o'.core).jacEntry n _ = (Fresh.acc0 k o.core).jacEntry n _
            rw [hc]
        show ((Fresh.acc0 k o').jacEntry n a >>= fun x => (Fresh.acc0 k o').jacLoop n l >>= fun l' => pure (x :: l')) =
          ((Fresh.acc0 k o).jacEntry n a >>= fun x => (Fresh.acc0 k o).jacLoop n l >>= fun l' => pure (x :: l'))
        rw [e, ih fun key hkey => hl key (by simp [hkey])]
    have hn : (Fresh.acc0 k o').jacNorm = (Fresh.acc0 k o).jacNorm := by
      show (Fresh.acc0 k o'.core).jacNorm = (Fresh.acc0 k o.core).jacNorm
      rw [hc]
    rw [h.backend]
    unfold Acc.jacList
    rw [hn]
    cases (Fresh.acc0 k o).jacNorm with
    | error e => rfl
    | ok n => exact hl n keys hk
  unfold RT1.jacobian
  cases hx : jacobianList id keys w' with
  | mk r v =>
    rw [hx] at e1
    have e1 : r = _ := e1
    cases r with
    | error e => rw [bind_error hx, ← e1]; rfl
    | ok l => rw [bind_ok hx, ← e1]; rfl

end

/-! ## C17 -/

/-- **C17** (partial), programs that switch: whatever backend each compiled function runs with
(`P`), after any history with any calls of `set_lambda_backend` in between, `surface` and `volume`
lie between the two backends.  If the program without switches returns an array with symengine, so
does the program with switches; if the program with switches returns an array, so does the program
without switches with sympy; the entries agree (the shapes may be smaller, see
`C17_counterexample`). -/
theorem C17_switching_partial {T : Type} (P : Policy T) (b0 : Backend) (t0 : T) {ops : List SOp}
    (hf : ∀ x ∈ ops, x.Fine) (id : ℕ) (kw : Dict) :
    (∀ z, (surface id kw (run (initWorld .symengine) (Switch.calls ops))).1 = .ok z →
      ∃ y, (Switch.surface P id kw (Switch.run P (initWorld b0, t0) ops)).1 = .ok y ∧ Arr.Sub y z) ∧
    (∀ z, (Switch.surface P id kw (Switch.run P (initWorld b0, t0) ops)).1 = .ok z →
      ∃ y, (surface id kw (run (initWorld .sympy) (Switch.calls ops))).1 = .ok y ∧ Arr.Sub y z) ∧
    (∀ z, (volume id kw (run (initWorld .symengine) (Switch.calls ops))).1 = .ok z →
      ∃ y, (Switch.volume P id kw (Switch.run P (initWorld b0, t0) ops)).1 = .ok y ∧ Arr.Sub y z) ∧
    (∀ z, (Switch.volume P id kw (Switch.run P (initWorld b0, t0) ops)).1 = .ok z →
      ∃ y, (volume id kw (run (initWorld .sympy) (Switch.calls ops))).1 = .ok y ∧ Arr.Sub y z) := by
  have hI := (Switch.history P b0 t0 .sympy hf).2
  have h1 := Ref.of_run P (b0 := b0) (t0 := t0) hf .sympy
  have h2 := Ref.of_run P (b0 := b0) (t0 := t0) hf .symengine
  generalize Switch.run P (initWorld b0, t0) ops = s at *
  cases ho : s.1.objs id with
  | none =>
    refine ⟨fun z hz => ?_, fun z hz => ?_, fun z hz => ?_, fun z hz => ?_⟩
    · rw [surface_none (h2.twin.get_none ho)] at hz; cases hz
    · have : (Switch.surface P id kw s).1 = .error .attributeError := plain_none ho kw _
      rw [this] at hz; cases hz
    · rw [volume_none (h2.twin.get_none ho)] at hz; cases hz
    · have : (Switch.volume P id kw s).1 = .error .attributeError := plain_none ho kw _
      rw [this] at hz; cases hz
  | some o =>
    rw [h1.surface ho, h2.surface ho, h1.volume ho, h2.volume ho]
    obtain ⟨g1, g2⟩ := Switch.surface_sim P hI ho kw
    obtain ⟨g3, g4⟩ := Switch.volume_sim P hI ho kw
    exact ⟨g1, g2, g3, g4⟩

/-- **C17** (partial), `calc` without interaction term and derivatives with respect to tau, omega,
NormBRDF, bsf in programs that switch: if both backends return arrays of the same shape from `calc`,
then so does the program with switches, with the same entries; the derivatives lie between the two
backends like `surface` and `volume`. -/
theorem C17_switching_calc_partial {T : Type} (P : Policy T) (b0 : Backend) (t0 : T) {ops : List SOp}
    (hf : ∀ x ∈ ops, x.Fine) {id : ℕ} {o : Obj} (ho : (Switch.run P (initWorld b0, t0) ops).1.objs id = some o) :
    (∀ kw z z', o.intQ = false → (calcOp id kw (run (initWorld .sympy) (Switch.calls ops))).1 = .ok z →
      (calcOp id kw (run (initWorld .symengine) (Switch.calls ops))).1 = .ok z' → z.shape = z'.shape →
      ∃ y, (Switch.calcOp P id kw (Switch.run P (initWorld b0, t0) ops)).1 = .ok y ∧ SameArr y z ∧ SameArr y z') ∧
    ∀ keys, (∀ key ∈ keys, key ∈ ["omega", "tau", "NormBRDF", "bsf"]) →
      (∀ l, (jacobian id keys "list" (run (initWorld .symengine) (Switch.calls ops))).1 = .ok (.inl l) →
        ∃ l', (Switch.jacobian P id keys "list" (Switch.run P (initWorld b0, t0) ops)).1 = .ok (.inl l') ∧
          List.Forall₂ Arr.Sub l' l) ∧
      (∀ l, (Switch.jacobian P id keys "list" (Switch.run P (initWorld b0, t0) ops)).1 = .ok (.inl l) →
        ∃ l', (jacobian id keys "list" (run (initWorld .sympy) (Switch.calls ops))).1 = .ok (.inl l') ∧
          List.Forall₂ Arr.Sub l' l) := by
  have hI := (Switch.history P b0 t0 .sympy hf).2
  have h1 := Ref.of_run P (b0 := b0) (t0 := t0) hf .sympy
  have h2 := Ref.of_run P (b0 := b0) (t0 := t0) hf .symengine
  generalize Switch.run P (initWorld b0, t0) ops = s at *
  refine ⟨fun kw z z' hq hz hz' hs => ?_, fun keys hk => ?_⟩
  · rw [h1.calcOp ho hq] at hz
    rw [h2.calcOp ho hq] at hz'
    obtain ⟨s', e1, -, -, e2⟩ := Switch.kw_eq (T := T) hI ho kw
    have hx : (Switch.calcOp P id kw s).1 = ((Switch.acc P id).calcTry s').1 :=
      congrArg Prod.fst (e2 _)
    rw [hx]
    obtain ⟨-, y, hy, hr⟩ := SRuns.calcTry (w0 := s'.1) (o := Fresh.update o kw) P hq hz hz' hs s' e1
    have hyz : SameArr y z := ⟨hr.1, fun idx hv => by
      have := hr.2 idx
      rwa [Arr.at'_valid hv, Arr.at'_valid (by rw [← hr.1]; exact hv)] at this⟩
    refine ⟨y, hy, hyz, hyz.1.trans hs, fun idx hv => ?_⟩
    rw [hyz.2 idx hv]
    obtain ⟨Is, Iv, Ii, hp⟩ := calc_parts hz
    have r1 := hp.rows.1
    have hn : nrows (Fresh.update o kw).intQ = 3 := by
      have : (Fresh.update o kw).intQ = false := hq
      rw [this]; rfl
    rw [hn] at r1
    rw [hyz.1, r1] at hv
    obtain ⟨i, k, rfl⟩ : ∃ i k, idx = i ++ [k] := by
      have hl := hv.length
      rcases List.eq_nil_or_concat idx with rfl | ⟨i, k, rfl⟩
      · simp at hl
      · exact ⟨i, k, by simp⟩
    obtain ⟨v1, v2⟩ := Arr.valid_append_iff.1 hv
    exact calc_backend (o := Fresh.update o kw) hq hz hz' r1 (hs.symm.trans r1) (by first | exact v2 | exact v1)
      (by first | exact v1 | exact v2)
  · rw [h1.jacobian ho hk, h2.jacobian ho hk]
    have hsi : SI s.1 id o s.1 := ⟨hI, rfl, fun _ _ => rfl, o, ho, rfl⟩
    have hx : ∀ l, (Switch.jacobian P id keys "list" s).1 = .ok (.inl l) ↔ ((Switch.acc P id).jacList keys s).1 = .ok l := by
      intro l
      unfold Switch.jacobian
      cases hx : (Switch.acc P id).jacList keys s with
      | mk r v =>
        cases r with
        | error e =>
          rw [SM.bind_error hx]
          exact ⟨(fun h => by cases h), (fun h => by cases h)⟩
        | ok l' =>
          rw [SM.bind_ok hx]
          constructor
          · intro h
            have h' : (Except.ok (.inl l') : Py (List Arr ⊕ List (List XR))) = .ok (.inl l) := h
            cases h'
            rfl
          · intro h
            cases h
            rfl
    have ex : ∀ {x : Py (List Arr)} {l : List Arr},
        x.map (Sum.inl : List Arr → List Arr ⊕ List (List XR)) = .ok (.inl l) ↔ x = .ok l := by
      intro x l
      cases x with
      | error e => exact ⟨(fun h => by cases h), (fun h => by cases h)⟩
      | ok l' =>
        constructor
        · intro h; cases h; rfl
        · intro h; cases h; rfl
    constructor
    · intro l hl
      obtain ⟨l', g1, g2⟩ := (Sim.jacList (up := true) P hk s hsi).2.1 rfl l (ex.1 hl)
      exact ⟨l', (hx l').2 g1, g2⟩
    · intro l hl
      obtain ⟨l', g1, g2⟩ := (Sim.jacList (up := false) P hk s hsi).2.2 rfl l ((hx l).1 hl)
      refine ⟨l', ex.2 g1, ?_⟩
      exact List.Forall₂.flip g2

/-! ## C73 -/

/-- **C73** (partial): the exact effect of `set_lambda_backend` on `surface` and `volume`.  A call
returns what the same program without switches returns with the backend that the phase function was
compiled with: the current one if it has not been compiled for these parameter names, otherwise the
one that was set when it was compiled first.  Missing: the effect is not immediate
(`C73_counterexample`); `jacobian` (see `C17_switching_calc_partial` for bounds).  The interaction term and
`calc` are in `C73_interaction_partial` and `C73_calc_partial`. -/
theorem C73_exact_partial (b0 : Backend) {ops : List SOp} (hf : ∀ x ∈ ops, x.Fine) {id : ℕ} {o : Obj}
    (ho : (Switch.run realPolicy (initWorld b0, Tags.init) ops).1.objs id = some o) (kw : Dict) (z : Arr) :
    let s := Switch.run realPolicy (initWorld b0, Tags.init) ops
    let names := (Fresh.update o kw).params.keys
    ((Switch.surface realPolicy id kw s).1 = .ok z ↔
      (surface id kw (run (initWorld (Switch.backendOf s o.SRF names)) (Switch.calls ops))).1 = .ok z) ∧
    ((Switch.volume realPolicy id kw s).1 = .ok z ↔
      (volume id kw (run (initWorld (Switch.backendOf s o.V names)) (Switch.calls ops))).1 = .ok z) := by
  intro s names
  have hI := (Switch.history realPolicy b0 Tags.init .sympy hf).2
  have hR := Ref.of_run realPolicy (b0 := b0) (t0 := Tags.init) hf
  have hs : s = Switch.run realPolicy (initWorld b0, Tags.init) ops := rfl
  rw [← hs] at hI hR ho
  obtain ⟨s', e1, e2, e3, e4⟩ := Switch.kw_eq hI ho kw
  rw [(hR _).surface ho, (hR _).volume ho]
  constructor
  · have hx : (Switch.surface realPolicy id kw s).1 =
        (((Switch.acc realPolicy id).surface >>= fun x => (Switch.acc realPolicy id).convert x) s').1 :=
      congrArg Prod.fst (e4 _)
    rw [hx]
    have hq : SQ s'.1 id (Fresh.update o kw) o.SRF (Switch.backendOf s o.SRF names) s' := by
      refine ⟨e1, ?_⟩
      unfold Switch.backendOf
      rw [e2, e3]
    exact (Exact.bind (Exact.surface rfl) fun x => Exact.convert x) s' hq |>.2 z
  · have hx : (Switch.volume realPolicy id kw s).1 =
        (((Switch.acc realPolicy id).volume >>= fun x => (Switch.acc realPolicy id).convert x) s').1 :=
      congrArg Prod.fst (e4 _)
    rw [hx]
    have hq : SQ s'.1 id (Fresh.update o kw) o.V (Switch.backendOf s o.V names) s' := by
      refine ⟨e1, ?_⟩
      unfold Switch.backendOf
      rw [e2, e3]
    exact (Exact.bind (Exact.volume rfl) fun x => Exact.convert x) s' hq |>.2 z

/-! ### what a call leaves in the memo table -/

/-- The step does not touch the memo table of the phase functions. -/
def NoScat {α : Type} (x : SM Tags α) : Prop := ∀ s, (x s).2.2.scatter = s.2.scatter

namespace NoScat
variable {α β : Type}

theorem bind {x : SM Tags α} {f : α → SM Tags β} (h : NoScat x) (hf : ∀ a, NoScat (f a)) : NoScat (x >>= f) := by
  intro s
  cases hx : x s with
  | mk r s' =>
    have e := h s
    rw [hx] at e
    cases r with
    | error e => rw [SM.bind_error hx]; exact ‹_›
    | ok a => rw [SM.bind_ok hx, hf a s']; exact e

theorem pure (a : α) : NoScat (Pure.pure a : SM Tags α) := fun _ => rfl
theorem plain (x : M α) : NoScat (Switch.plain x) := fun _ => rfl
theorem lift (x : Py α) : NoScat (liftPy x) := by
  intro s
  cases x <;> rfl
theorem par (id : ℕ) (p : PName) : NoScat ((Switch.acc realPolicy id).par p) := fun s =>
  pick_par_scatter id p s.1 s.2

variable {x y : SM Tags Arr}
theorem mulM (h : NoScat x) (h' : NoScat y) : NoScat (RT1.mulM x y) := bind h fun _ => bind h' fun _ => lift _
theorem divM (h : NoScat x) (h' : NoScat y) : NoScat (RT1.divM x y) := bind h fun _ => bind h' fun _ => lift _
theorem addM (h : NoScat x) (h' : NoScat y) : NoScat (RT1.addM x y) := bind h fun _ => bind h' fun _ => lift _
theorem subM (h : NoScat x) (h' : NoScat y) : NoScat (RT1.subM x y) := bind h fun _ => bind h' fun _ => lift _
theorem mapM' (f : XR → XR) (h : NoScat x) : NoScat (RT1.mapM' f x) := bind h fun _ => pure _

theorem atten (id : ℕ) : NoScat (Switch.acc realPolicy id).atten :=
  mapM' _ (subM (mapM' _ (divM (par id _) (plain _))) (divM (par id _) (plain _)))

theorem convert (id : ℕ) (a : Arr) : NoScat ((Switch.acc realPolicy id).convert a) := by
  refine bind (plain _) fun s => bind (plain _) fun db => ?_
  have e2 : ∀ {x : SM Tags Arr}, NoScat x → NoScat (x >>= fun signorm => do
      let ret ← liftPy (Arr.mul a signorm)
      if db = true then RT1.litM 10 *. Pure.pure (Arr.map XR.log10 ret) else Pure.pure ret) := fun hx =>
    bind hx fun _ => bind (lift _) fun _ => by
      cases db
      · exact pure _
      · exact mulM (pure _) (pure _)
  cases s
  · exact e2 (pure _)
  · exact e2 (divM (mulM (pure _) (plain _)) (plain _))

end NoScat

/-- After the step the phase function `f` has been compiled for `names`, with backend `k`. -/
def Marks (Q : World × Tags → Prop) (f : Scatter) (names : List String) (k : Backend) {α : Type}
    (x : SM Tags α) : Prop :=
  ∀ s, Q s → LRU.find (x s).2.2.scatter (f, names) = some k

namespace Marks
variable {Q : World × Tags → Prop} {f : Scatter} {names : List String} {k : Backend} {α β : Type}

theorem left {x : SM Tags α} {g : α → SM Tags β} (h : Marks Q f names k x) (hg : ∀ a, NoScat (g a)) :
    Marks Q f names k (x >>= g) := by
  intro s hs
  have h := h s hs
  cases hx : x s with
  | mk r s' =>
    rw [hx] at h
    cases r with
    | error e => rw [SM.bind_error hx]; exact h
    | ok a => rw [SM.bind_ok hx, hg a s']; exact h

theorem right {x : SM Tags α} {y : Py α} {a : α} (hx : Exact Q x y) (hy : y = .ok a) {g : α → SM Tags β}
    (hg : Marks Q f names k (g a)) : Marks Q f names k (x >>= g) := by
  intro s hs
  obtain ⟨q, h1⟩ := hx s hs
  have h1 := (h1 a).2 hy
  cases hx : x s with
  | mk r s' =>
    rw [hx] at h1 q
    have h1 : r = .ok a := h1
    subst h1
    rw [SM.bind_ok hx]
    exact hg s' q

end Marks

/-- The geometry is set and the incoming intensity fits it. -/
structure Obj.Placed (o : Obj) : Prop where
  t0 : ∃ a, Fresh.ang o .t0 = .ok a
  tex : ∃ a, Fresh.tex o = .ok a
  p0 : ∃ a, Fresh.ang o .p0 = .ok a
  pex : ∃ a, Fresh.pex o = .ok a
  I0 : ∃ m a, Fresh.mu0 o = .ok m ∧ Arr.mul o.I0 m = .ok a

theorem surface_marks {w0 : World} {id : ℕ} {o : Obj} {k : Backend} (hp : o.Placed)
    (hc : ∀ n ∈ o.SRF.phase.free, n ∈ ["theta_0", "theta_ex", "phi_0", "phi_ex"] ++ o.params.keys) :
    Marks (SQ w0 id o o.SRF k) o.SRF o.params.keys k
      ((Switch.acc realPolicy id).surface >>= fun x => (Switch.acc realPolicy id).convert x) := by
  obtain ⟨a, ha⟩ := hp.t0
  obtain ⟨b, hb⟩ := hp.tex
  obtain ⟨c, hc0⟩ := hp.p0
  obtain ⟨d, hd⟩ := hp.pex
  obtain ⟨m, i, hm, hi⟩ := hp.I0
  have hcomp : ∀ b, ∃ l, Lam.compile b (["theta_0", "theta_ex", "phi_0", "phi_ex"] ++ o.params.keys) o.SRF.phase = .ok l := by
    intro b
    cases b with
    | sympy => exact ⟨_, rfl⟩
    | symengine => exact ⟨_, if_pos hc⟩
  have hB : Marks (SQ w0 id o o.SRF k) o.SRF o.params.keys k ((Switch.acc realPolicy id).backend .SRF) := by
    intro s hs
    obtain ⟨o', ho, hcr⟩ := hs.si.obj
    obtain ⟨-, c2, -, c4, -⟩ := core_fields hcr
    have e : ((Switch.acc realPolicy id).backend .SRF s).2.2.scatter =
        (Tags.scat s.1.backend o'.SRF o'.params.keys s.2.scatter).2 := by
      show (realPolicy.pick id .SRF s.1 s.2).2.scatter = _
      show (match s.1.objs id with
        | none => (s.1.backend, s.2)
        | some o => _ : Backend × Tags).2.scatter = _
      rw [ho]
    rw [e, c2, c4]
    have hbk := hs.back
    unfold Switch.backendOf at hbk
    unfold Tags.scat
    cases hf : LRU.find s.2.scatter (o.SRF, o.params.keys) with
    | some b =>
      rw [hf] at hbk
      have hbk : b = k := hbk
      simp only
      rw [LRU.find_put_self, hbk]
    | none =>
      rw [hf] at hbk
      have hbk : s.1.backend = k := hbk
      obtain ⟨l, hl⟩ := hcomp s.1.backend
      simp only [hl]
      rw [LRU.find_put_self, hbk]
  have hS : Marks (SQ w0 id o o.SRF k) o.SRF o.params.keys k (Switch.acc realPolicy id).srfCalc :=
    Marks.right Exact.SRF rfl <| Marks.right Exact.t0 ha <| Marks.right Exact.tex hb <| Marks.right Exact.p0 hc0 <|
      Marks.right Exact.pex hd <| Marks.right Exact.params rfl <| Marks.left hB fun _ => NoScat.lift _
  have hI : RT1.mulM (Fresh.acc0 k o).I0 (Fresh.acc0 k o).mu0 = .ok i := by
    show (Except.ok o.I0 >>= fun x => Fresh.mu0 o >>= fun y => liftPy (Arr.mul x y) : Py Arr) = _
    rw [hm]
    show liftPy (Arr.mul o.I0 m) = _
    rw [hi]
    rfl
  refine Marks.left (Marks.left (Marks.right (Exact.mulM Exact.I0 Exact.mu0) hI ?_) fun Ibs => ?_)
    fun x => NoScat.convert id x
  · exact Marks.left hS fun _ => NoScat.lift _
  · exact NoScat.bind (NoScat.mulM (NoScat.atten id) (NoScat.pure _)) fun _ =>
      NoScat.mulM (NoScat.par id _) (NoScat.addM (NoScat.mulM (NoScat.subM (NoScat.pure _) (NoScat.par id _)) (NoScat.pure _))
        (NoScat.mulM (NoScat.par id _) (NoScat.pure _)))

/-- **C73** (partial), the setting takes effect for phase functions that have not been compiled yet:
after a history in which neither the same surface phase function nor the same volume phase function
has been compiled for these parameter names, a call after `set_lambda_backend(name)` returns what
the same program returns that selects this backend at the start and never changes it. -/
theorem C73_takes_effect_partial (b0 : Backend) {ops : List SOp} (hf : ∀ x ∈ ops, x.Fine) {name : String} {k : Backend}
    (hk : (name = "sympy" ∧ k = .sympy) ∨ (name = "symengine" ∧ k = .symengine)) {id : ℕ} {o : Obj}
    (ho : (Switch.run realPolicy (initWorld b0, Tags.init) (ops ++ [.setBackend name])).1.objs id = some o) (kw : Dict)
    (z : Arr) :
    let s := Switch.run realPolicy (initWorld b0, Tags.init) (ops ++ [.setBackend name])
    let names := (Fresh.update o kw).params.keys
    (LRU.find s.2.scatter (o.SRF, names) = none →
      ((Switch.surface realPolicy id kw s).1 = .ok z ↔ (surface id kw (run (initWorld k) (Switch.calls ops))).1 = .ok z)) ∧
    (LRU.find s.2.scatter (o.V, names) = none →
      ((Switch.volume realPolicy id kw s).1 = .ok z ↔ (volume id kw (run (initWorld k) (Switch.calls ops))).1 = .ok z)) := by
  intro s names
  have hf' : ∀ x ∈ ops ++ [SOp.setBackend name], x.Fine := by
    intro x hx
    rcases List.mem_append.1 hx with hx | hx
    · exact hf x hx
    · rw [List.mem_singleton.1 hx]; trivial
  have hc : Switch.calls (ops ++ [.setBackend name]) = Switch.calls ops := by
    unfold Switch.calls
    rw [List.filterMap_append]
    exact List.append_nil _
  have hb : s.1.backend = k := by
    show (Switch.run realPolicy (initWorld b0, Tags.init) (ops ++ [.setBackend name])).1.backend = k
    rw [Switch.run_snoc]
    rcases hk with ⟨rfl, rfl⟩ | ⟨rfl, rfl⟩ <;> rfl
  obtain ⟨h1, h2⟩ := C73_exact_partial b0 hf' ho kw z
  rw [hc] at h1 h2
  constructor
  · intro hn
    have e : Switch.backendOf s o.SRF names = k := by
      unfold Switch.backendOf
      rw [hn, hb]; rfl
    rw [← e]; exact h1
  · intro hn
    have e : Switch.backendOf s o.V names = k := by
      unfold Switch.backendOf
      rw [hn, hb]; rfl
    rw [← e]; exact h2

theorem Switch.switches (s : World × Tags) (l : List String) :
    (Switch.run realPolicy s (l.map .setBackend)).2 = s.2 ∧
      (Switch.run realPolicy s (l.map .setBackend)).1.objs = s.1.objs := by
  induction l using List.reverseRecOn with
  | nil => exact ⟨rfl, rfl⟩
  | append_singleton l x ih =>
    rw [List.map_append, List.map_singleton, Switch.run_snoc]
    generalize Switch.run realPolicy s (l.map .setBackend) = s' at *
    have e : (Switch.step realPolicy (.setBackend x) s').2.2 = s'.2 ∧
        (Switch.step realPolicy (.setBackend x) s').2.1.objs = s'.1.objs := by
      show (Switch.setBackend x s').2.2 = s'.2 ∧ (Switch.setBackend x s').2.1.objs = s'.1.objs
      unfold Switch.setBackend
      cases Backend.ofName x <;> exact ⟨rfl, rfl⟩
    exact ⟨e.1.trans ih.1, e.2.trans ih.2⟩

theorem Switch.run_append {T : Type} (P : Policy T) (s : World × T) (l l' : List SOp) :
    Switch.run P s (l ++ l') = Switch.run P (Switch.run P s l) l' := by
  unfold Switch.run
  rw [List.foldl_append]

/-- **C73** (partial), the setting does not take effect for phase functions that have been compiled:
after a call of `surface`, whether it succeeded or not, any calls of `set_lambda_backend` leave the
values of `surface` as they are with the backend `k` that was used by that call.  Nothing is assumed
about `k` and the new backends. -/
theorem C73_no_effect_partial (b0 : Backend) {ops : List SOp} (hf : ∀ x ∈ ops, x.Fine) {id : ℕ} {o : Obj} (kw : Dict)
    (ho : (Switch.run realPolicy (initWorld b0, Tags.init) ops).1.objs id = some o) (hp : (Fresh.update o kw).Placed)
    (hn : ∀ n ∈ o.SRF.phase.free, n ∈ ["theta_0", "theta_ex", "phi_0", "phi_ex"] ++ (Fresh.update o kw).params.keys)
    (l : List String) (z : Arr) :
    let k := Switch.backendOf (Switch.run realPolicy (initWorld b0, Tags.init) ops) o.SRF (Fresh.update o kw).params.keys
    let s := Switch.run realPolicy (initWorld b0, Tags.init) (ops ++ [.op (.surface id kw)] ++ l.map .setBackend)
    ((Switch.surface realPolicy id [] s).1 = .ok z ↔
      (surface id [] (run (initWorld k) (Switch.calls ops ++ [.surface id kw]))).1 = .ok z) := by
  intro k s
  have hf' : ∀ x ∈ ops ++ [.op (.surface id kw)] ++ l.map SOp.setBackend, x.Fine := by
    intro x hx
    rcases List.mem_append.1 hx with hx | hx
    · rcases List.mem_append.1 hx with hx | hx
      · exact hf x hx
      · rw [List.mem_singleton.1 hx]; exact ⟨trivial, trivial⟩
    · obtain ⟨n, -, rfl⟩ := List.mem_map.1 hx
      trivial
  have hc : Switch.calls (ops ++ [.op (.surface id kw)] ++ l.map .setBackend) = Switch.calls ops ++ [.surface id kw] := by
    have h2 : ∀ l : List String, Switch.calls (l.map .setBackend) = [] := by
      intro l
      induction l with
      | nil => rfl
      | cons a l ih => exact ih
    have h1 : ∀ a b : List SOp, Switch.calls (a ++ b) = Switch.calls a ++ Switch.calls b := fun a b =>
      List.filterMap_append
    rw [h1, h1, h2, List.append_nil]
    rfl
  have hI := (Switch.history realPolicy b0 Tags.init .sympy hf).2
  have hs : s = Switch.run realPolicy (Switch.step realPolicy (.op (.surface id kw))
      (Switch.run realPolicy (initWorld b0, Tags.init) ops)).2 (l.map .setBackend) := by
    show Switch.run realPolicy (initWorld b0, Tags.init) (ops ++ [.op (.surface id kw)] ++ l.map .setBackend) = _
    rw [Switch.run_append, Switch.run_snoc]
  have hk : k = Switch.backendOf (Switch.run realPolicy (initWorld b0, Tags.init) ops) o.SRF
    (Fresh.update o kw).params.keys := rfl
  clear_value k
  generalize Switch.run realPolicy (initWorld b0, Tags.init) ops = s0 at *
  obtain ⟨s', e1, e2, e3, e4⟩ := Switch.kw_eq hI ho kw
  have est : (Switch.step realPolicy (.op (.surface id kw)) s0).2 =
      (((Switch.acc realPolicy id).surface >>= fun x => (Switch.acc realPolicy id).convert x) s').2 := by
    have h1 : (Switch.step realPolicy (.op (.surface id kw)) s0).2 = (Switch.surface realPolicy id kw s0).2 :=
      SM.bind_pure_state _ _
    rw [h1]
    exact congrArg Prod.snd (e4 _)
  have hq : SQ s'.1 id (Fresh.update o kw) o.SRF k s' := by
    refine ⟨e1, ?_⟩
    rw [hk]
    unfold Switch.backendOf
    rw [e2, e3]
  have hm := surface_marks (w0 := s'.1) (id := id) (k := k) hp hn s' hq
  have hx := ((Exact.bind (Exact.surface rfl) fun x => Exact.convert x) s' hq).1.si
  rw [← est] at hm hx
  obtain ⟨w1, w2⟩ := Switch.switches (Switch.step realPolicy (.op (.surface id kw)) s0).2 l
  rw [← hs] at w1 w2
  obtain ⟨o2, ho2, hc2⟩ := hx.obj
  obtain ⟨-, c2, -, c4, -⟩ := core_fields hc2
  have e5 : (Fresh.update o2 []).params = (Fresh.update o kw).params := by
    show (Fresh.update o2.core []).params = _
    rw [hc2]
    show (Fresh.update (Fresh.update o kw) []).params = _
    rw [update_update_nil]
  have hb : Switch.backendOf s o2.SRF (Fresh.update o2 []).params.keys = k := by
    unfold Switch.backendOf
    rw [e5, c2, w1]
    show (LRU.find _ ((Fresh.update o kw).SRF, (Fresh.update o kw).params.keys)).getD _ = k
    rw [hm]
    rfl
  have h := (C73_exact_partial b0 hf' (id := id) (o := o2) (by rw [← w2] at ho2; exact ho2) [] z).1
  rw [hc] at h
  rw [← hb]
  exact h

/-- The demo of `C17_counterexample`: `surface` with the parameter `x` in the two backends. -/
theorem demo_x : let o := Fresh.update (demoObj exV exS false true true (Arr.lit 1) vec2 (Arr.lit 0) (demoKw (1/2) (1/4) 1 0)) [("x", vec3)]
    (∃ z, Fresh.surface .sympy o = .ok z) ∧ ∃ e, Fresh.surface .symengine o = .error e := by
  have h := C17_counterexample
  have ho := fun b => demo_objs b exV exS false true true (Arr.lit 1) vec2 (Arr.lit 0) (demoKw (1/2) (1/4) 1 0)
  have hr := fun b => (demo_reachable b exV exS false true true (Arr.lit 1) vec2 (Arr.lit 0) (demoKw (1/2) (1/4) 1 0)).inv
  have hb := fun b => demo_backend b exV exS false true true (Arr.lit 1) vec2 (Arr.lit 0) (demoKw (1/2) (1/4) 1 0)
  change (∃ z, (surface 0 [("x", vec3)] (demoW .sympy exV exS false true true (Arr.lit 1) vec2 (Arr.lit 0)
    (demoKw (1/2) (1/4) 1 0))).1 = .ok z) ∧ ∃ e, (surface 0 [("x", vec3)] (demoW .symengine exV exS false true true
    (Arr.lit 1) vec2 (Arr.lit 0) (demoKw (1/2) (1/4) 1 0))).1 = .error e at h
  rw [(surface_eq (hr .sympy) (ho .sympy) _).1, (surface_eq (hr .symengine) (ho .symengine) _).1, hb, hb] at h
  exact h

theorem demo_fine : ∀ x ∈ (demoOps exV exS false true true (Arr.lit 1) vec2 (Arr.lit 0) (demoKw (1/2) (1/4) 1 0)).map SOp.op,
    x.Fine := by
  intro x hx
  simp only [demoOps, List.map_cons, List.map_nil, List.mem_cons, List.not_mem_nil, or_false] at hx
  rcases hx with rfl | rfl | rfl <;> exact ⟨trivial, trivial⟩

theorem demo_placed (kw : Dict) : (Fresh.update (demoObj exV exS false true true (Arr.lit 1) vec2 (Arr.lit 0)
    (demoKw (1/2) (1/4) 1 0)) kw).Placed where
  t0 := ⟨vec2.atleast1d, by simp [Fresh.ang, Fresh.update, demoObj]⟩
  tex := ⟨vec2.atleast1d, by simp [Fresh.tex, Fresh.ang, Fresh.update, demoObj]⟩
  p0 := ⟨(Arr.lit 0).atleast1d, by simp [Fresh.ang, Fresh.update, demoObj]⟩
  pex := ⟨_, rfl⟩
  I0 := ⟨_, _, rfl, rfl⟩

/-- **C73** is false: in symengine a call fails because a parameter does not fit the angles; after
switching to sympy it still fails, although the same calls succeed if sympy is selected at the
start. -/
theorem C73_counterexample :
    let ops := (demoOps exV exS false true true (Arr.lit 1) vec2 (Arr.lit 0) (demoKw (1/2) (1/4) 1 0)).map SOp.op ++
      [.op (.surface 0 [("x", vec3)]), .setBackend "sympy"]
    (∃ e, (Switch.surface realPolicy 0 [] (Switch.run realPolicy (initWorld .symengine, Tags.init) ops)).1 = .error e) ∧
    ∃ z, (surface 0 [] (run (initWorld .sympy) (Switch.calls ops))).1 = .ok z := by
  intro ops
  have hrun : Switch.run realPolicy (initWorld .symengine, Tags.init)
      ((demoOps exV exS false true true (Arr.lit 1) vec2 (Arr.lit 0) (demoKw (1/2) (1/4) 1 0)).map SOp.op) =
      (demoW .symengine exV exS false true true (Arr.lit 1) vec2 (Arr.lit 0) (demoKw (1/2) (1/4) 1 0), Tags.init) := rfl
  have ho := fun b => demo_objs b exV exS false true true (Arr.lit 1) vec2 (Arr.lit 0) (demoKw (1/2) (1/4) 1 0)
  have hr := fun b => (demo_reachable b exV exS false true true (Arr.lit 1) vec2 (Arr.lit 0) (demoKw (1/2) (1/4) 1 0)).inv
  have hb := fun b => demo_backend b exV exS false true true (Arr.lit 1) vec2 (Arr.lit 0) (demoKw (1/2) (1/4) 1 0)
  obtain ⟨⟨z, hz⟩, e, he⟩ := demo_x
  have key : ∀ b, (surface 0 [] (run (initWorld b) (Switch.calls ops))).1 = Fresh.surface b
      (Fresh.update (demoObj exV exS false true true (Arr.lit 1) vec2 (Arr.lit 0) (demoKw (1/2) (1/4) 1 0)) [("x", vec3)]) := by
    intro b
    have hR := Ref.of_run realPolicy (b0 := b) (t0 := Tags.init) (ops := ops) (by
      intro x hx
      rcases List.mem_append.1 hx with hx | hx
      · exact demo_fine x hx
      · simp only [List.mem_cons, List.not_mem_nil, or_false] at hx
        rcases hx with rfl | rfl
        · exact ⟨trivial, trivial⟩
        · trivial) b
    have hcalls : Switch.calls ops = demoOps exV exS false true true (Arr.lit 1) vec2 (Arr.lit 0)
      (demoKw (1/2) (1/4) 1 0) ++ [.surface 0 [("x", vec3)]] := rfl
    have hi := hR.inv
    have hk := hR.backend
    rw [hcalls, RT1.run_snoc] at hi hk ⊢
    obtain ⟨o', ho', hc⟩ := step_core (op := .surface 0 [("x", vec3)]) (Switch.history realPolicy b Tags.init b demo_fine).1.ok' (ho b) rfl
    rw [(surface_eq hi ho' []).1, hk]
    show Fresh.surface b (Fresh.update o'.core []) = _
    rw [hc]
    show Fresh.surface b (Fresh.update (Fresh.update (demoObj exV exS false true true (Arr.lit 1) vec2 (Arr.lit 0)
      (demoKw (1/2) (1/4) 1 0)) [("x", vec3)]) []) = _
    rw [update_update_nil]
  refine ⟨?_, z, (key .sympy).trans hz⟩
  have h := C73_no_effect_partial .symengine demo_fine (id := 0) [("x", vec3)] (by rw [hrun]; exact ho _)
    (demo_placed _) (by
      intro n hn
      exact absurd hn (by simp [demoObj, exS, Scatter.phase, Scatter.primPhase, Expr.free])) ["sympy"]
  have hk : Switch.backendOf (Switch.run realPolicy (initWorld .symengine, Tags.init)
      ((demoOps exV exS false true true (Arr.lit 1) vec2 (Arr.lit 0) (demoKw (1/2) (1/4) 1 0)).map SOp.op)) exS
      (Fresh.update (demoObj exV exS false true true (Arr.lit 1) vec2 (Arr.lit 0) (demoKw (1/2) (1/4) 1 0))
        [("x", vec3)]).params.keys = .symengine := by
    rw [hrun]
    exact hb .symengine
  have hops : (demoOps exV exS false true true (Arr.lit 1) vec2 (Arr.lit 0) (demoKw (1/2) (1/4) 1 0)).map SOp.op ++
      [.op (.surface 0 [("x", vec3)])] ++ ["sympy"].map SOp.setBackend = ops := rfl
  cases hx : (Switch.surface realPolicy 0 [] (Switch.run realPolicy (initWorld .symengine, Tags.init) ops)).1 with
  | error e => exact ⟨e, rfl⟩
  | ok y =>
    exfalso
    have h := (h y).1 hx
    have hS : (demoObj exV exS false true true (Arr.lit 1) vec2 (Arr.lit 0) (demoKw (1/2) (1/4) 1 0)).SRF = exS := rfl
    rw [hS, hk] at h
    have h : (surface 0 [] (run (initWorld .symengine) (Switch.calls ops))).1 = .ok y := h
    rw [key, he] at h
    cases h

/-! ## the hypotheses are met -/

example : ∃ (ops : List SOp) (o : Obj), (∀ x ∈ ops, x.Fine) ∧ SOp.setBackend "sympy" ∈ ops ∧
    (Switch.run realPolicy (initWorld .symengine, Tags.init) ops).1.objs 0 = some o ∧ o.intQ = false := by
  have ho := demo_objs .symengine exV exS false true true (Arr.lit 1) vec2 (Arr.lit 0) (demoKw (1/2) (1/4) 1 0)
  refine ⟨(demoOps exV exS false true true (Arr.lit 1) vec2 (Arr.lit 0) (demoKw (1/2) (1/4) 1 0)).map SOp.op ++
    [.setBackend "sympy"], demoObj exV exS false true true (Arr.lit 1) vec2 (Arr.lit 0) (demoKw (1/2) (1/4) 1 0), fun x hx => ?_, by simp, ?_, rfl⟩
  · rcases List.mem_append.1 hx with hx | hx
    · exact demo_fine x hx
    · rw [List.mem_singleton.1 hx]; trivial
  · rw [Switch.run_snoc]
    exact ho

/-- Nothing has been compiled before the first evaluation, so `C73_takes_effect_partial` applies. -/
example : LRU.find (Switch.run realPolicy (initWorld .symengine, Tags.init)
    ((demoOps exV exS false true true (Arr.lit 1) vec2 (Arr.lit 0) (demoKw (1/2) (1/4) 1 0)).map SOp.op ++
      [.setBackend "sympy"])).2.scatter (exS, ["bsf", "tau", "omega", "NormBRDF"]) = none := rfl

end

end RT1
