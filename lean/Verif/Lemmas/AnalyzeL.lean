import Verif.Lemmas.ParL
import Verif.Lemmas.Observe
import Verif.Model.Analyze

/-! The analyzers as histories of calls on the analyzed object. -/

namespace RT1

noncomputable section
open Classical

/-- The state `x` leaves behind is that after a history of calls of the given kind. -/
def Runs (P : Op → Prop) {α : Type} (x : M α) : Prop :=
  ∀ w, ∃ ops : List Op, (∀ op ∈ ops, P op) ∧ (x w).2 = run w ops

namespace Runs
variable {P : Op → Prop} {α β : Type}

theorem same {x : M α} (h : ∀ w, (x w).2 = w) : Runs P x := fun w => ⟨[], by simp, h w⟩

theorem pure (a : α) : Runs P (Pure.pure a : M α) := same fun _ => rfl
theorem throw (e : PyErr) : Runs P (MonadExcept.throw e : M α) := same fun _ => rfl
theorem lift (x : Py α) : Runs P (liftPy x : M α) := same fun _ => by cases x <;> rfl
theorem getObj (id : ℕ) : Runs P (RT1.getObj id) := same fun w => by
  unfold RT1.getObj; cases w.objs id <;> rfl

theorem bind {x : M α} {f : α → M β} (h : Runs P x) (hf : ∀ a, Runs P (f a)) : Runs P (x >>= f) := by
  intro w
  obtain ⟨ops, hp, he⟩ := h w
  cases hx : x w with
  | mk r w' =>
    rw [hx] at he
    cases r with
    | error e => rw [bind_error hx]; exact ⟨ops, hp, he⟩
    | ok a =>
      rw [bind_ok hx]
      obtain ⟨ops', hp', he'⟩ := hf a w'
      refine ⟨ops ++ ops', ?_, ?_⟩
      · intro op hop
        rcases List.mem_append.mp hop with h | h
        · exact hp op h
        · exact hp' op h
      · rw [he', run_append, ← he]

theorem ite {c : Prop} [Decidable c] {x y : M α} (h : c → Runs P x) (h' : ¬ c → Runs P y) :
    Runs P (if c then x else y) := by
  by_cases hc : c
  · simp only [hc, if_true]; exact h hc
  · simp only [hc, if_false]; exact h' hc

/-- One call. -/
theorem call {x : M α} {op : Op} (hop : P op) (h : ∀ w, (x w).2 = (step op w).2) : Runs P x :=
  fun w => ⟨[op], by simpa using hop, h w⟩

theorem mono {Q : Op → Prop} {x : M α} (h : Runs P x) (hq : ∀ op, P op → Q op) : Runs Q x := by
  intro w
  obtain ⟨ops, hp, he⟩ := h w
  exact ⟨ops, fun op hop => hq op (hp op hop), he⟩

end Runs

/-- The calls the analyzers make: on the object, parameter updates only with the given names. -/
inductive AnaOp (id : ℕ) (keys : List String) : Op → Prop
  | mono : AnaOp id keys (.setMonostatic id (some (.number 0)))
  | bi : AnaOp id keys (.setBistatic id none none (some (.number 0)) none)
  | geom (kw : List (String × Option Arr)) : AnaOp id keys (.setGeometry id kw)
  | upd (kw : Dict) (h : ∀ k ∈ kw.keys, k ∈ keys) : AnaOp id keys (.updateParams id kw)
  | calc : AnaOp id keys (.evalCalc id [])
  | intQ (b : Bool) : AnaOp id keys (.setIntQ id b)
  | dB : AnaOp id keys (.setDB id false)
  | clear : AnaOp id keys (.clearCaches id)
  | sv : AnaOp id keys (.surfaceVolume id)
  | check (names : List String) : AnaOp id keys (.checkParams id names)

theorem AnaOp.plain {id : ℕ} {keys : List String} {op : Op} (h : AnaOp id keys op) : op.Plain := by
  cases h <;> trivial

theorem AnaOp.target {id : ℕ} {keys : List String} {op : Op} (h : AnaOp id keys op) :
    op.target = some id := by
  cases h <;> rfl

theorem AnaOp.creates {id : ℕ} {keys : List String} {op : Op} (h : AnaOp id keys op) : ¬ op.creates := by
  cases h <;> exact fun h => h

theorem AnaOp.supplied {id : ℕ} {keys : List String} {op : Op} (h : AnaOp id keys op) :
    ∀ k ∈ (op.supplied id).keys, k ∈ keys := by
  cases h <;> simp [Op.supplied, Dict.keys] 
  case upd kw h => simpa [Dict.keys] using h

/-- The calls that `Analyze` makes. -/
inductive AnaOp2 (id : ℕ) (keys : List String) : Op → Prop
  | mono : AnaOp2 id keys (.setMonostatic id (some (.number 0)))
  | geom : AnaOp2 id keys (.setGeometry id [("t_0", some analyzeT0)])
  | upd (kw : Dict) (h : ∀ k ∈ kw.keys, k ∈ keys) : AnaOp2 id keys (.updateParams id kw)
  | calc : AnaOp2 id keys (.evalCalc id [])
  | sv : AnaOp2 id keys (.surfaceVolume id)
  | check (names : List String) : AnaOp2 id keys (.checkParams id names)

theorem AnaOp2.toAna {id : ℕ} {keys : List String} {op : Op} (h : AnaOp2 id keys op) :
    AnaOp id keys op := by
  cases h with
  | mono => exact .mono
  | geom => exact .geom _
  | upd kw h => exact .upd kw h
  | «calc» => exact .calc
  | sv => exact .sv
  | check n => exact .check n

/-- The calls that an update of `Analyze` makes. -/
inductive UpdOp (id : ℕ) (keys : List String) : Op → Prop
  | upd (kw : Dict) (h : ∀ k ∈ kw.keys, k ∈ keys) : UpdOp id keys (.updateParams id kw)
  | calc : UpdOp id keys (.evalCalc id [])
  | sv : UpdOp id keys (.surfaceVolume id)
  | check (names : List String) : UpdOp id keys (.checkParams id names)

theorem UpdOp.toAna2 {id : ℕ} {keys : List String} {op : Op} (h : UpdOp id keys op) :
    AnaOp2 id keys op := by
  cases h with
  | upd kw h => exact .upd kw h
  | «calc» => exact .calc
  | sv => exact .sv
  | check n => exact .check n

theorem sliderVals_keys (l : List (String × Slider)) : (sliderVals l).keys = l.map Prod.fst := by
  simp [sliderVals, Dict.keys, List.map_map, Function.comp_def]

theorem rangeVals_keys (l : List (String × Slider)) (k : String) :
    (rangeVals l k).keys = l.map Prod.fst := by
  simp [rangeVals, Dict.keys, List.map_map, Function.comp_def]

theorem Runs.calc {P : Op → Prop} {id : ℕ} (h : P (.evalCalc id [])) : Runs P (calcOp id []) :=
  Runs.call h fun _ => (bind_pure_state _ _).symm

theorem Runs.update {id : ℕ} {A : Analyzer} {keys : List String}
    (h : ∀ k ∈ A.sliders.map Prod.fst, k ∈ keys) : Runs (UpdOp id keys) (Analyzer.update id A) := by
  unfold Analyzer.update
  refine Runs.bind (Runs.call (op := .updateParams id _) (.upd _ ?_) fun _ => rfl) fun _ => ?_
  · rw [sliderVals_keys]; exact h
  refine Runs.bind (Runs.calc .calc) fun _ => Runs.bind (Runs.lift _) fun _ =>
    Runs.bind (Runs.getObj id) fun _ => Runs.bind (Runs.ite (fun _ => ?_) fun _ => Runs.pure _) fun _ => ?_
  · exact Runs.bind (Runs.call .sv fun _ => (bind_pure_state _ _).symm) fun _ => Runs.pure _
  · cases A.range with
    | none => exact Runs.pure _
    | some k =>
      refine Runs.bind ?_ fun _ => Runs.pure _
      unfold rangeLines
      refine Runs.ite (fun _ => Runs.throw _) fun _ => Runs.bind (Runs.call (op := .updateParams id _) (.upd _ ?_) fun _ => rfl)
        fun _ => Runs.calc .calc
      rw [rangeVals_keys]; exact h

theorem mkSliders_keys : ∀ {l : List (String × SliderParams)} {r : List (String × Slider)},
    mkSliders l = .ok r → r.map Prod.fst = l.map Prod.fst
  | [], r, h => by cases h; rfl
  | (k, p) :: l, r, h => by
    unfold mkSliders at h
    cases hs : mkSlider p with
    | error e => rw [hs] at h; cases h
    | ok s =>
      rw [hs] at h
      have h : (do let r ← mkSliders l; Except.ok ((k, s) :: r)) = Except.ok r := h
      cases hr : mkSliders l with
      | error e => rw [hr] at h; cases h
      | ok r' =>
        rw [hr] at h
        cases h
        simp [mkSliders_keys hr]

theorem parseParameters_keys : ∀ {l : List (String × List SliderArg)} {r : List (String × SliderParams)},
    parseParameters l = .ok r → r.map Prod.fst = l.map Prod.fst
  | [], r, h => by cases h; rfl
  | (k, p) :: l, r, h => by
    unfold parseParameters at h
    cases hs : parseParameter k p with
    | error e => rw [hs] at h; cases h
    | ok s =>
      rw [hs] at h
      have h : (do let r ← parseParameters l; Except.ok ((k, s) :: r)) = Except.ok r := h
      cases hr : parseParameters l with
      | error e => rw [hr] at h; cases h
      | ok r' =>
        rw [hr] at h
        cases h
        simp [parseParameters_keys hr]

/-- The result of a computation that succeeds satisfies `Q`. -/
def Gives {α : Type} (Q : α → Prop) (x : M α) : Prop := ∀ w a w', x w = (.ok a, w') → Q a

theorem Runs.bind_gives {P : Op → Prop} {α β : Type} {Q : α → Prop} {x : M α} {f : α → M β}
    (h : Runs P x) (hq : Gives Q x) (hf : ∀ a, Q a → Runs P (f a)) : Runs P (x >>= f) := by
  intro w
  obtain ⟨ops, hp, he⟩ := h w
  cases hx : x w with
  | mk r w' =>
    rw [hx] at he
    cases r with
    | error e => rw [bind_error hx]; exact ⟨ops, hp, he⟩
    | ok a =>
      rw [bind_ok hx]
      obtain ⟨ops', hp', he'⟩ := hf a (hq w a w' hx) w'
      refine ⟨ops ++ ops', ?_, ?_⟩
      · intro op hop
        rcases List.mem_append.mp hop with h | h
        · exact hp op h
        · exact hp' op h
      · rw [he', run_append, ← he]

theorem Gives.bind {α β : Type} {Q : β → Prop} {x : M α} {f : α → M β}
    (hf : ∀ a, Gives Q (f a)) : Gives Q (x >>= f) := by
  intro w b w' h
  cases hx : x w with
  | mk r w1 =>
    cases r with
    | error e => rw [bind_error hx] at h; cases h
    | ok a => rw [bind_ok hx] at h; exact hf a _ _ _ h

theorem lift_ok {α : Type} {x : Py α} {w w' : World} {a : α} (h : (liftPy x : M α) w = (.ok a, w')) :
    x = .ok a ∧ w = w' := by
  cases x with
  | error e => cases h
  | ok b => cases h; exact ⟨rfl, rfl⟩

theorem analyzerSliders_gives (id : ℕ) (ps : List (String × List SliderArg)) :
    Gives (fun l => ∀ k ∈ l.map Prod.fst, k ∈ ps.map Prod.fst) (analyzerSliders id ps) := by
  unfold analyzerSliders
  refine Gives.bind fun symbs => ?_
  intro w l w' h
  change ((liftPy (parseParameters (ps.filter fun p => decide (p.1 ∈ symbs))) : M _) >>=
    fun ps => (liftPy (mkSliders ps) : M _)) w = _ at h
  cases hp : parseParameters (ps.filter fun p => decide (p.1 ∈ symbs)) with
  | error e => rw [hp] at h; cases h
  | ok r =>
    rw [hp, bind_ok (show (liftPy (Except.ok r) : M _) w = (.ok r, w) from rfl)] at h
    have := (lift_ok h).1
    rw [mkSliders_keys this, parseParameters_keys hp]
    intro k hk
    simp only [List.mem_map, List.mem_filter] at hk ⊢
    obtain ⟨a, ⟨ha, -⟩, rfl⟩ := hk
    exact ⟨a, ha, rfl⟩

theorem Runs.sliders {P : Op → Prop} {id : ℕ} {ps : List (String × List SliderArg)}
    (h : P (.checkParams id (ps.map Prod.fst))) : Runs P (analyzerSliders id ps) := by
  unfold analyzerSliders
  exact Runs.bind (Runs.call h fun _ => (bind_pure_state _ _).symm) fun _ =>
    Runs.bind (Runs.lift _) fun _ => Runs.lift _

/-- `Analyze(R, ...)` as a history. -/
theorem Runs.analyze (id : ℕ) (range : Option String) (ps : List (String × List SliderArg)) :
    Runs (AnaOp2 id (ps.map Prod.fst)) (analyze id range ps) := by
  unfold RT1.analyze
  refine Runs.bind (Runs.call .mono fun _ => rfl) fun _ => Runs.bind (Runs.call .geom fun _ => rfl) fun _ => ?_
  refine Runs.bind_gives (Runs.sliders (.check _)) (analyzerSliders_gives id ps) fun sl hsl => ?_
  have key : ∀ r, Runs (AnaOp2 id (ps.map Prod.fst)) (Analyzer.update id ⟨sl, r, none, none⟩) :=
    fun r => (Runs.update (A := ⟨sl, r, none, none⟩) hsl).mono fun _ h => h.toAna2
  cases range with
  | none => exact key none
  | some k => exact Runs.ite (fun _ => key _) fun _ => Runs.throw _

theorem Runs.withIntQ {id : ℕ} {keys : List String} {α : Type} {cs : List Char} {x : M α}
    (h : Runs (AnaOp id keys) x) : Runs (AnaOp id keys) (withIntQ id cs x) := by
  unfold RT1.withIntQ
  refine Runs.bind (Runs.getObj id) fun o => Runs.bind (Runs.call (.intQ _) fun _ => rfl) fun _ => ?_
  intro w
  obtain ⟨ops, hp, he⟩ := h w
  refine ⟨ops ++ [.setIntQ id o.intQ], ?_, ?_⟩
  · intro op hop
    rcases List.mem_append.mp hop with h | h
    · exact hp op h
    · rw [List.mem_singleton.mp h]; exact .intQ _
  · show ((modObj id fun o' => { o' with intQ := o.intQ }) (x w).2).2 = _
    rw [run_append, he]; rfl

theorem Runs.tex {P : Op → Prop} (id : ℕ) : Runs P (Self.tex id) := by
  have t0 : Runs P (Self.t0 id) := by
    unfold Self.t0
    refine Runs.bind (Runs.getObj id) fun o => ?_
    cases o.ang .t0 with
    | none => exact Runs.throw _
    | some a => exact Runs.pure _
  unfold Self.tex
  refine Runs.bind (Runs.getObj id) fun o => Runs.ite (fun _ => t0) fun _ => ?_
  cases o.ang .tex with
  | none => exact Runs.throw _
  | some a => exact Runs.pure _

theorem Runs.pex {P : Op → Prop} (id : ℕ) : Runs P (Self.pex id) := by
  have p0 : Runs P (Self.p0 id) := by
    unfold Self.p0
    refine Runs.bind (Runs.getObj id) fun o => ?_
    cases o.ang .p0 with
    | none => exact Runs.throw _
    | some a => exact Runs.pure _
  unfold Self.pex
  refine Runs.bind (Runs.getObj id) fun o => Runs.ite
    (fun _ => Runs.bind p0 fun _ => Runs.lift _) fun _ => ?_
  cases o.ang .pex with
  | none => exact Runs.throw _
  | some a => exact Runs.pure _

theorem Runs.getvals {id : ℕ} {keys : List String} (cs : List Char) (inc : ℝ) :
    Runs (AnaOp id keys) (getvals id cs inc) := by
  unfold RT1.getvals
  refine Runs.bind (Runs.tex id) fun _ => Runs.bind (Runs.pex id) fun _ =>
    Runs.bind (Runs.call (.geom _) fun _ => rfl) fun _ => Runs.bind (Runs.withIntQ (Runs.calc .calc)) fun _ =>
    Runs.bind (Runs.tex id) fun _ => Runs.bind (Runs.pex id) fun _ => ?_
  exact Runs.bind (Runs.lift _) fun _ => Runs.bind (Runs.lift _) fun _ => Runs.bind (Runs.lift _) fun _ =>
    Runs.bind (Runs.lift _) fun _ => Runs.bind (Runs.lift _) fun _ => Runs.pure _

theorem Runs.update3d {id : ℕ} {A : Analyzer3D} {keys : List String}
    (h : ∀ k ∈ A.sliders.map Prod.fst, k ∈ keys) : Runs (AnaOp id keys) (Analyzer3D.update id A) := by
  unfold Analyzer3D.update
  refine Runs.bind (Runs.call (op := .updateParams id _) (.upd _ ?_) fun _ => rfl) fun _ => ?_
  · intro k hk
    rw [sliderVals_keys] at hk
    simp only [List.mem_map, List.mem_filter] at hk
    obtain ⟨a, ⟨ha, -⟩, rfl⟩ := hk
    exact h _ (List.mem_map_of_mem ha)
  refine Runs.bind (Runs.getvals _ _) fun _ => ?_
  exact Runs.bind (Runs.lift _) fun _ => Runs.bind (Runs.lift _) fun _ =>
    Runs.ite (fun _ => Runs.throw _) fun _ => Runs.pure _

theorem Runs.first3d {id : ℕ} {A : Analyzer3D} {keys : List String}
    (h : ∀ k ∈ A.sliders.map Prod.fst, k ∈ keys) : Runs (AnaOp id keys) (Analyzer3D.first id A) := by
  unfold Analyzer3D.first
  exact Runs.bind (Runs.update3d h) fun _ => Runs.ite (fun _ => Runs.pure _) fun _ => Runs.throw _

/-- `Analyze3D(R, ...)` as a history. -/
theorem Runs.analyze3d (id n : ℕ) (cs : List Char) (ps : List (String × List SliderArg)) :
    Runs (AnaOp id (ps.map Prod.fst)) (analyze3d id n cs ps) := by
  unfold RT1.analyze3d
  refine Runs.bind (Runs.call .dB fun _ => rfl) fun _ => Runs.bind (Runs.call .clear fun _ => rfl) fun _ =>
    Runs.bind (Runs.lift _) fun _ => Runs.bind (Runs.call .bi fun _ => rfl) fun _ =>
    Runs.bind (Runs.call (.geom _) fun _ => rfl) fun _ => ?_
  exact Runs.bind_gives (Runs.sliders (.check _)) (analyzerSliders_gives id ps) fun sl hsl =>
    Runs.first3d (A := ⟨sl, 45, cs, []⟩) hsl

end

end RT1
