import Verif.Lemmas.AnalyzeK
import Verif.Lemmas.DemoVec

/-! Creation of the analyzers: geometry, check of the parameters, sliders. -/

namespace RT1

noncomputable section
open Classical

theorem needed_iff (o : Obj) (n : String) : n ∈ Fresh.needed o ↔ o.Needs n := by
  unfold Fresh.needed Obj.Needs
  have hs : ∀ p, n ∈ Fresh.symbs o p ↔ ∃ e, o.pdef p = .str e ∧ n ∈ e.free := by
    intro p
    unfold Fresh.symbs
    cases o.pdef p with
    | val a => simp
    | basic e => simp
    | str e => simp
  have hp : (∃ p e, o.pdef p = .str e ∧ n ∈ e.free) ↔
      n ∈ Fresh.symbs o .tau ∨ n ∈ Fresh.symbs o .omega ∨ n ∈ Fresh.symbs o .NormBRDF ∨ n ∈ Fresh.symbs o .bsf := by
    simp only [hs]
    constructor
    · rintro ⟨p, e, h⟩
      cases p
      · exact .inl ⟨e, h⟩
      · exact .inr (.inl ⟨e, h⟩)
      · exact .inr (.inr (.inl ⟨e, h⟩))
      · exact .inr (.inr (.inr ⟨e, h⟩))
    · rintro (⟨e, h⟩ | ⟨e, h⟩ | ⟨e, h⟩ | ⟨e, h⟩) <;> exact ⟨_, e, h⟩
  rw [hp]
  simp only [List.mem_filter, List.mem_append, decide_eq_true_eq, List.mem_cons, List.not_mem_nil, or_false]
  tauto

theorem setAngles_ok {id : ℕ} (l : List (String × Option Arr)) : ∀ {w : World} {o : Obj},
    w.objs id = some o → (∀ p ∈ l, (∃ n, AngN.ofName p.1 = some n ∧ n ∉ o.fixed) ∧ ∃ a, p.2 = some a) →
    (setAngles id l w).1 = .ok () := by
  induction l with
  | nil => intro w o _ _; rfl
  | cons p l ih =>
    intro w o ho hp
    obtain ⟨k, v⟩ := p
    obtain ⟨⟨n, hn, hf⟩, a, ha⟩ := hp (k, v) List.mem_cons_self
    simp only at hn ha
    subst ha
    unfold RT1.setAngles
    rw [hn]
    simp only
    rw [bind_ok (getObj_some ho)]
    simp only [hf, if_false]
    exact ih (modObj_get ho _) fun p hp' => hp p (List.mem_cons_of_mem _ hp')

theorem setGeometry_ok {id : ℕ} {w : World} {o : Obj} (ho : w.objs id = some o)
    {l : List (String × Option Arr)}
    (hp : ∀ p ∈ l, (∃ n, AngN.ofName p.1 = some n ∧ n ∉ o.fixed) ∧ ∃ a, p.2 = some a)
    (hm : (∃ p ∈ l, p.1 = "t_ex" ∨ p.1 = "p_ex") → o.mono = false) :
    (setGeometry id l w).1 = .ok () := by
  unfold setGeometry
  rw [if_neg, bind_ok (getObj_some ho), if_neg, bind_ok (show clearGeom w = (.ok (), _) from rfl)]
  · exact setAngles_ok l (by exact ho) hp
  · rintro ⟨h1, h2⟩
    rw [hm h1] at h2; cases h2
  · rintro ⟨p, h1, h2⟩
    obtain ⟨⟨n, hn, -⟩, -⟩ := hp p h1
    rw [hn] at h2; cases h2

/-- The state in which `Analyze` checks the parameters. -/
theorem analyze_start {w : World} (hw : Reachable w) {id : ℕ} {o : Obj} (ho : w.objs id = some o) :
    ∃ w2 o2, Reachable w2 ∧ w2.objs id = some o2 ∧ o2.still = o.still ∧ w2.backend = w.backend ∧
      o2.mono = true ∧ o2.ang .t0 = some analyzeT0 ∧ o2.ang .p0 = some (arr1 0) ∧
      o2.geom = ⟨.sym "theta_0", .sym "theta_0", .num 0, .num 0⟩ ∧
      o2.fn_ = none ∧ o2.fnevals_ = none ∧ o2.fnInput = o.fnInput ∧ o2.fnevalsInput = o.fnevalsInput ∧
      setMonostatic id (some (.number 0)) w = (.ok (), (setMonostatic id (some (.number 0)) w).2) ∧
      setGeometry id [("t_0", some analyzeT0)] (setMonostatic id (some (.number 0)) w).2 = (.ok (), w2) := by
  set w1 := (setMonostatic id (some (.number 0)) w).2 with hw1
  have e1 : setMonostatic id (some (.number 0)) w = (.ok (), w1) := rfl
  have o1 : w1.objs id = some (o.afterMono (some (.number 0))) := setMonostatic_obj ho _
  have e2 : (setGeometry id [("t_0", some analyzeT0)] w1).1 = .ok () := by
    refine setGeometry_ok o1 ?_ ?_
    · intro p hp
      rw [List.mem_singleton.mp hp]
      exact ⟨⟨.t0, rfl, by simp [Obj.afterMono, Obj.fix, Obj.reset]⟩, _, rfl⟩
    · rintro ⟨p, hp, h⟩
      rw [List.mem_singleton.mp hp] at h
      simp at h
  have r1 : Reachable w1 := hw.step (op := .setMonostatic id (some (.number 0))) trivial
  have r2 := r1.step (op := .setGeometry id [("t_0", some analyzeT0)]) trivial
  have hb : (setGeometry id [("t_0", some analyzeT0)] w1).2.backend = w.backend := by
    have f1 := frame_step (op := .setMonostatic id (some (.number 0))) rfl (fun h => h) w w (FrameP.refl w id)
    have f2 := frame_step (op := .setGeometry id [("t_0", some analyzeT0)]) rfl (fun h => h) w w1 f1
    exact f2.backend
  have o2 := setGeometry_obj o1 [("t_0", some analyzeT0)]
  refine ⟨_, _, r2, o2, (still_geom _ _).trans (still_mono _ _), hb, ?_, ?_, ?_, ?_, ?_, ?_, ?_, ?_, e1, Prod.ext e2 rfl⟩
  all_goals simp [Obj.afterGeom, Obj.angLoop, AngN.ofName, Obj.afterMono, Obj.fix, Obj.reset,
    Function.update_of_ne, analyzeT0, Arr.atleast1d]

/-- The check fails if a symbol has no value. -/
theorem checkParams_missing {w : World} (hw : Reachable w) {id : ℕ} {o : Obj} (ho : w.objs id = some o)
    {names : List String} (h : ∃ n, o.Needs n ∧ n ∉ names ∧ n ∉ o.params.keys) :
    ∃ l, (checkParams id names w).1 = .error (.assertMissing l) ∧
      ∀ n, n ∈ l ↔ o.Needs n ∧ n ∉ names ∧ n ∉ o.params.keys := by
  set l := ((Fresh.needed o).filter fun k => decide (k ∉ names)).filter
    (fun k => decide (k ∉ o.params.keys)) with hl
  have hm : ∀ n, n ∈ l ↔ o.Needs n ∧ n ∉ names ∧ n ∉ o.params.keys := by
    intro n
    simp only [hl, List.mem_filter, needed_iff, decide_eq_true_eq, and_assoc]
  refine ⟨l, ?_, hm⟩
  rw [(checkParams_eq hw.inv ho names).1]
  unfold Fresh.checkParams
  rw [if_pos]
  obtain ⟨n, hn⟩ := h
  exact List.ne_nil_of_mem ((hm n).mpr hn)

theorem checkParams_ok {w : World} (hw : Reachable w) {id : ℕ} {o : Obj} (ho : w.objs id = some o)
    {names : List String} (h : ∀ n, o.Needs n → n ∈ names ∨ n ∈ o.params.keys) :
    (checkParams id names w).1 = .ok (Fresh.needed o) := by
  rw [(checkParams_eq hw.inv ho names).1]
  unfold Fresh.checkParams
  rw [if_neg]
  rw [not_not, List.filter_eq_nil_iff]
  intro n hn
  simp only [List.mem_filter, needed_iff, decide_eq_true_eq] at hn ⊢
  rcases h n hn.1 with h | h
  · exact absurd h hn.2
  · exact not_not.mpr h

theorem checkParams_inv {w w' : World} (hw : Reachable w) {id : ℕ} {o : Obj} (ho : w.objs id = some o)
    {names symbs : List String} (h : checkParams id names w = (.ok symbs, w')) :
    symbs = Fresh.needed o ∧ ∀ n, o.Needs n → n ∈ names ∨ n ∈ o.params.keys := by
  by_cases hm : ∃ n, o.Needs n ∧ n ∉ names ∧ n ∉ o.params.keys
  · obtain ⟨l, hl, -⟩ := checkParams_missing hw ho hm
    rw [h] at hl; cases hl
  · have hm : ∀ n, o.Needs n → n ∈ names ∨ n ∈ o.params.keys := by
      intro n hn
      by_contra hc
      rw [not_or] at hc
      exact hm ⟨n, hn, hc⟩
    have := checkParams_ok hw ho hm
    rw [h] at this
    cases this
    exact ⟨rfl, hm⟩

/-- The sliders belong to the supplied parameters that the model uses. -/
theorem analyzerSliders_ok {w w' : World} (hw : Reachable w) {id : ℕ} {o : Obj} (ho : w.objs id = some o)
    {ps : List (String × List SliderArg)} {sl : List (String × Slider)}
    (h : analyzerSliders id ps w = (.ok sl, w')) :
    (∀ n, o.Needs n → n ∈ ps.map Prod.fst ∨ n ∈ o.params.keys) ∧
    ∃ l, parseParameters (ps.filter fun p => decide (o.Needs p.1)) = .ok l ∧ mkSliders l = .ok sl := by
  unfold analyzerSliders at h
  obtain ⟨symbs, w1, h1, h⟩ := bind_ok_inv h
  obtain ⟨rfl, h2⟩ := checkParams_inv hw ho h1
  refine ⟨h2, ?_⟩
  change ((liftPy (parseParameters (ps.filter fun p => decide (p.1 ∈ Fresh.needed o))) : M _) >>=
    fun ps => (liftPy (mkSliders ps) : M _)) w1 = _ at h
  obtain ⟨l, w2, h3, h⟩ := bind_ok_inv h
  obtain ⟨h4, -⟩ := lift_ok h3
  refine ⟨l, ?_, (lift_ok h).1⟩
  rw [← h4]
  congr 1
  refine List.filter_congr fun p _ => ?_
  simp only [needed_iff]

theorem mkSlider_for {k : String} {args : List SliderArg} {p : SliderParams} {s : Slider}
    (h : parseParameter k args = .ok p) (h' : mkSlider p = .ok s) : SliderFor args s := by
  have ha : ∃ a b rest, args = .number a :: .number b :: rest := by
    cases args with
    | nil => cases h
    | cons x l =>
      cases l with
      | nil => cases h
      | cons y l => cases x <;> cases y <;> first | exact ⟨_, _, _, rfl⟩ | cases h
  obtain ⟨a, b, rest, rfl⟩ := ha
  · simp only [parseParameter, halfRange] at h
    cases h
    unfold mkSlider at h'
    simp only at h'
    have key : ∀ c : ℝ, s = ⟨a, b, if c ≤ a then a else if b ≤ c then b else c⟩ →
        s.lo = a ∧ s.hi = b ∧ (a ≤ b → a ≤ s.val ∧ s.val ≤ b) ∧ (a ≤ c → c ≤ b → s.val = c) := by
      rintro c rfl
      refine ⟨rfl, rfl, fun hab => ?_, fun h1 h2 => ?_⟩
      · simp only
        split_ifs with h1 h2
        · exact ⟨le_refl _, hab⟩
        · exact ⟨hab, le_refl _⟩
        · exact ⟨(not_le.mp h1).le, (not_le.mp h2).le⟩
      · simp only
        split_ifs with h3 h4
        · exact le_antisymm h1 h3
        · exact le_antisymm h4 h2
        · rfl
    cases rest with
    | nil =>
      cases h'
      obtain ⟨k1, k2, k3, -⟩ := key _ rfl
      exact ⟨a, b, [], rfl, k1, k2, k3, by simp⟩
    | cons c rest =>
      cases c with
      | name n => cases h'
      | number c =>
        cases h'
        obtain ⟨k1, k2, k3, k4⟩ := key _ rfl
        refine ⟨a, b, _, rfl, k1, k2, k3, fun c' r hr => ?_⟩
        cases hr
        exact k4

theorem mkSliders_for : ∀ {ps : List (String × List SliderArg)} {l : List (String × SliderParams)}
    {sl : List (String × Slider)}, parseParameters ps = .ok l → mkSliders l = .ok sl →
    List.Forall₂ (fun p q => q.1 = p.1 ∧ SliderFor p.2 q.2) ps sl
  | [], l, sl, h, h' => by cases h; cases h'; exact .nil
  | (k, v) :: ps, l, sl, h, h' => by
    unfold parseParameters at h
    cases hs : parseParameter k v with
    | error e => rw [hs] at h; cases h
    | ok s =>
      rw [hs] at h
      have h : (do let r ← parseParameters ps; Except.ok ((k, s) :: r)) = Except.ok l := h
      cases hr : parseParameters ps with
      | error e => rw [hr] at h; cases h
      | ok r =>
        rw [hr] at h
        cases h
        unfold mkSliders at h'
        cases ht : mkSlider s with
        | error e => rw [ht] at h'; cases h'
        | ok t =>
          rw [ht] at h'
          have h' : (do let r ← mkSliders r; Except.ok ((k, t) :: r)) = Except.ok sl := h'
          cases hu : mkSliders r with
          | error e => rw [hu] at h'; cases h'
          | ok u =>
            rw [hu] at h'
            cases h'
            exact .cons ⟨rfl, mkSlider_for hs ht⟩ (mkSliders_for hr hu)

/-- Numeric tuples give sliders. -/
theorem mkSliders_ok : ∀ {ps : List (String × List SliderArg)},
    (∀ p ∈ ps, ∃ a b rest, p.2 = .number a :: .number b :: rest ∧
      (rest = [] ∨ ∃ c r, rest = .number c :: r)) →
    ∃ l sl, parseParameters ps = .ok l ∧ mkSliders l = .ok sl
  | [], _ => ⟨[], [], rfl, rfl⟩
  | (k, v) :: ps, h => by
    obtain ⟨l, sl, h1, h2⟩ := mkSliders_ok fun p hp => h p (List.mem_cons_of_mem _ hp)
    obtain ⟨a, b, rest, rfl, hr⟩ : ∃ a b rest, v = .number a :: .number b :: rest ∧
      (rest = [] ∨ ∃ c r, rest = .number c :: r) := h (k, v) List.mem_cons_self
    have : ∃ p s, parseParameter k (.number a :: .number b :: rest) = .ok p ∧ mkSlider p = .ok s := by
      rcases hr with rfl | ⟨c, r, rfl⟩ <;> exact ⟨_, _, rfl, rfl⟩
    obtain ⟨p, s, h3, h4⟩ := this
    refine ⟨(k, p) :: l, (k, s) :: sl, ?_, ?_⟩
    · simp only [parseParameters, h3, okb, h1]
    · simp only [mkSliders, h4, okb, h2]

end

end RT1
