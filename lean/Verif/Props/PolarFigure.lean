import Verif.Model.PolarFigure
import Verif.Props.PolarPlot

/-!
# Colours, arrows, ticks and legend of polar plots
-/

namespace RT1

noncomputable section
open Classical

/-! ## Specification -/

/-- `key` assigns colours to the incidence angles (degrees): the lines of an angle, its arrow and its entry in the
legend have its colour. -/
structure PolarFigure.Keyed (f : PolarFigure) (inc : List ℝ) (key : List String) : Prop where
  length : key.length = inc.length
  arrows : f.arrows = (inc.zip key).map fun x => (-(x.1 * Real.pi / 180), x.2)
  legend : ∀ es, f.legend = some es → ∃ as, (es = as ∨ es = as ++ [.approx]) ∧
    List.Forall₂ (fun (x : ℝ × String) e => ∃ m : ℤ, e = .angle x.2 m ∧ |(m : ℝ) / 10 - x.1| ≤ 1 / 20 ∧
      ∀ k : ℤ, x.1 = k / 10 → m = k) (inc.zip key) as

/-- The lines of one incidence angle have the colour `c`. -/
structure PaintedCurve.In (p : PaintedCurve) (c : String) : Prop where
  solid : p.solid = c
  fill : p.fill = c
  dashed : p.dashed = if p.curve.approx.isSome then some (c ++ "--") else none

/-! ## Lemmas -/

theorem cycleColours_length {pal : List String} (hp : pal ≠ []) (n : ℕ) (r : List String) :
    (cycleColours pal n r).length = n := by
  induction n generalizing r with
  | zero => rfl
  | succ n ih =>
    cases r with
    | cons c r => simp [cycleColours, ih]
    | nil =>
      cases pal with
      | nil => exact absurd rfl hp
      | cons c r => simp [cycleColours, ih]

/-- The colour number `k` from the remainder `r` of the palette on. -/
theorem cycleColours_get {pal : List String} (hp : pal ≠ []) (n : ℕ) (pre r : List String) (h : pre ++ r = pal)
    {k : ℕ} (hk : k < n) : (cycleColours pal n r)[k]? = pal[(pre.length + k) % pal.length]? := by
  induction n generalizing pre r k with
  | zero => omega
  | succ n ih =>
    have step : ∀ (c : String) (pre' r' : List String), pre' ++ c :: r' = pal →
        pre'.length % pal.length = pre.length % pal.length →
        (c :: cycleColours pal n r')[k]? = pal[(pre.length + k) % pal.length]? := by
      intro c pre' r' h' hlen
      have hlt : pre'.length < pal.length := by rw [← h']; simp
      cases k with
      | zero =>
        rw [Nat.add_zero, ← hlen, Nat.mod_eq_of_lt hlt, ← h']
        simp
      | succ k =>
        rw [List.getElem?_cons_succ, ih (pre' ++ [c]) r' (by simpa using h') (by omega)]
        congr 1
        rw [List.length_append, List.length_singleton, show pre'.length + 1 + k = pre'.length + (k + 1) by omega,
          Nat.add_mod, hlen, ← Nat.add_mod]
    cases r with
    | cons c r => exact step c pre r h rfl
    | nil =>
      cases hpal : pal with
      | nil => exact absurd hpal hp
      | cons c r =>
        rw [← hpal]
        have := step c [] r (by rw [hpal]; rfl) (by
          rw [List.append_nil] at h
          rw [h]; simp)
        rw [← this]
        conv_lhs => rw [show pal = c :: r from hpal]
        rw [cycleColours, ← hpal]

theorem usedColors_length (inc : List ℝ) : (usedColors inc).length = inc.length :=
  cycleColours_length (by simp [useColors]) _ _

theorem usedColors_get (inc : List ℝ) {k : ℕ} (hk : k < inc.length) : (usedColors inc)[k]? = useColors[k % 7]? := by
  unfold usedColors
  have := cycleColours_get (pal := useColors) (by simp [useColors]) inc.length [] useColors rfl hk
  rw [this]
  simp [useColors]

theorem useColors_inj {i j : ℕ} (hi : i < 7) (hj : j < 7) : useColors[i]? = useColors[j]? ↔ i = j := by
  constructor
  · intro h
    have hn : useColors.Nodup := by simp [useColors]
    have hi' : i < useColors.length := by simpa [useColors] using hi
    exact (List.getElem?_inj hi' hn).mp h
  · rintro rfl; rfl

theorem rad2deg_deg2rad (t : ℝ) : rad2deg (deg2rad t) = t := by
  unfold rad2deg deg2rad
  have := Real.pi_ne_zero
  field_simp

theorem roundTenths_near (x : ℝ) : |(roundTenths x : ℝ) / 10 - x| ≤ 1 / 20 := by
  have hf := Int.self_sub_floor (10 * x)
  unfold roundTenths
  split_ifs with h1 h2
  · rw [h1] at hf
    rw [abs_le]; constructor <;> linarith
  · rw [h1] at hf
    push_cast
    rw [abs_le]; constructor <;> linarith
  · have := abs_sub_round (10 * x)
    rw [abs_le] at this ⊢
    constructor <;> linarith [this.1, this.2]

theorem roundTenths_exact {x : ℝ} {k : ℤ} (h : x = k / 10) : roundTenths x = k := by
  have : 10 * x = (k : ℝ) := by rw [h]; ring
  unfold roundTenths
  rw [this, if_neg (by simp), round_intCast]

theorem zip_flatten_const {α β : Type} (cols : List β) (l : List (List α)) (ps : List Dict)
    (hl : l.length = ps.length) (h : ∀ cs ∈ l, cs.length = cols.length) :
    l.flatten.zip (ps.flatMap fun _ => cols) = (l.map fun cs => cs.zip cols).flatten := by
  induction l generalizing ps with
  | nil => simp
  | cons cs l ih =>
    cases ps with
    | nil => simp at hl
    | cons p ps =>
      rw [List.flatten_cons, List.flatMap_cons, List.zip_append (h cs (by simp)), List.map_cons, List.flatten_cons,
        ih ps (by simpa using hl) fun c hc => h c (by simp [hc])]

theorem forall₂_paint {P : ℝ → Curve → Prop} {inc : List ℝ} {cs : List Curve} (h : List.Forall₂ P inc cs)
    (key : List String) (hk : key.length = inc.length) :
    List.Forall₂ (fun (x : ℝ × String) (p : PaintedCurve) => P x.1 p.curve ∧ p.In x.2) (inc.zip key)
      ((cs.zip key).map fun x => paintCurve x.1 x.2) := by
  induction h generalizing key with
  | nil => simp
  | @cons t c inc cs h1 h2 ih =>
    cases key with
    | nil => simp at hk
    | cons k key =>
      simp only [List.zip_cons_cons, List.map_cons]
      refine .cons ⟨h1, rfl, rfl, ?_⟩ (ih key (by simpa using hk))
      unfold paintCurve
      cases c.approx <;> simp

theorem polarFigure_ok {b : Backend} {kept : Bool} {src : PolarSrc} {g : PolarArgs} {dg : DecoArgs} {f : PolarFigure}
    (h : polarFigure b kept src g dg = .ok f) :
    ∃ out, polarplot b kept src g = .ok out ∧ f = decorate src g dg (g.inc.getD []) out.curves := by
  unfold polarFigure at h
  obtain ⟨out, ho, h⟩ := ok_bind h
  simp only [Except.ok.injEq] at h
  exact ⟨out, ho, h.symm⟩

/-! ## C94 -/

/-- Colours: there is one colour for every incidence angle, used for the lines of all parameter dictionaries, the
arrow and the entry in the legend; the colours repeat after seven angles and not before. -/
theorem C94_colours {b : Backend} {kept surf : Bool} {s : Scatter} {src : PolarSrc} (hs : src.Is surf s)
    {g : PolarArgs} {inc : List ℝ} (hi : g.inc = some inc) {ρ : Dict → String → ℝ}
    (hp : ∀ d ∈ g.params.toList, d.Numbers (ρ d)) {dg : DecoArgs} {f : PolarFigure}
    (h : polarFigure b kept src g dg = .ok f) :
    ∃ key, f.Keyed inc key ∧
      (∀ i j, i < inc.length → j < inc.length → (key[i]? = key[j]? ↔ i % 7 = j % 7)) ∧
      ∃ l : List (List PaintedCurve), f.lines = l.flatten ∧ List.Forall₂ (fun d ps => List.Forall₂
        (fun (x : ℝ × String) p => p.curve.Shows surf s (ρ d) (g.aprox = true ∧ ∃ n, s.ncoefs = .ok n) x.1 ∧ p.In x.2)
        (inc.zip key) ps) g.params.toList l := by
  obtain ⟨out, ho, rfl⟩ := polarFigure_ok h
  simp only [hi, Option.getD_some, decorate]
  obtain ⟨-, l, hl, hall⟩ := C71_draws hs hi hp ho
  refine ⟨usedColors inc, ⟨usedColors_length inc, ?_, ?_⟩, ?_, ?_⟩
  · simp only [List.zip_map_left, List.map_map]
    refine List.map_congr_left fun x _ => ?_
    simp only [Function.comp, Prod.map, id, Prod.mk.injEq, and_true]
    unfold deg2rad; ring
  · intro es hes
    simp only at hes
    split_ifs at hes with hlg
    simp only [Option.some.injEq] at hes
    subst hes
    refine ⟨(inc.zip (usedColors inc)).map fun x => .angle x.2 (roundTenths x.1), ?_, ?_⟩
    · unfold polarLegend
      have : ((inc.map deg2rad).zip (usedColors inc)).map
            (fun x => LegendLine.angle x.2 (roundTenths (rad2deg x.1))) =
          (inc.zip (usedColors inc)).map fun x => .angle x.2 (roundTenths x.1) := by
        simp only [List.zip_map_left, List.map_map]
        refine List.map_congr_left fun x _ => ?_
        simp only [Function.comp, Prod.map, id, rad2deg_deg2rad]
      rw [this]
      split_ifs
      · exact Or.inr rfl
      · exact Or.inl (by simp)
    · rw [List.forall₂_map_right_iff]
      refine List.forall₂_same.mpr fun x _ => ⟨_, rfl, roundTenths_near _, fun k hk => roundTenths_exact hk⟩
  · intro i j hi' hj
    rw [usedColors_get inc hi', usedColors_get inc hj]
    exact useColors_inj (Nat.mod_lt _ (by norm_num)) (Nat.mod_lt _ (by norm_num))
  · have hlen : ∀ cs ∈ l, cs.length = (usedColors inc).length := by
      intro cs hcs
      obtain ⟨n, hn, rfl⟩ := List.getElem_of_mem hcs
      have hn' : n < g.params.toList.length := by rw [hall.length_eq]; exact hn
      rw [usedColors_length]
      exact (List.Forall₂.get hall hn' hn).length_eq.symm
    refine ⟨l.map fun cs => (cs.zip (usedColors inc)).map fun x => paintCurve x.1 x.2, ?_, ?_⟩
    · rw [hl, zip_flatten_const _ _ _ hall.length_eq.symm hlen, List.map_flatten, List.map_map]
      rfl
    · rw [List.forall₂_map_right_iff]
      exact hall.imp fun d cs hcs => forall₂_paint hcs _ (usedColors_length inc)

/-- Up to seven incidence angles have different colours. -/
theorem C94_distinct {f : PolarFigure} {inc : List ℝ} {key : List String} (hk : f.Keyed inc key)
    (h7 : ∀ i j, i < inc.length → j < inc.length → (key[i]? = key[j]? ↔ i % 7 = j % 7)) :
    key.Nodup ↔ inc.length ≤ 7 := by
  constructor
  · intro hn
    by_contra hc
    have := (h7 0 7 (by omega) (by omega)).mpr rfl
    have := (List.getElem?_inj (by rw [hk.length]; omega) hn).mp this
    omega
  · intro hle
    rw [List.nodup_iff_getElem?_ne_getElem?]
    intro i j hij hj hc
    rw [hk.length] at hj
    have := (h7 i j (by omega) hj).mp hc
    omega

/-- The legend exists if it is requested; it has an entry for every incidence angle and ends with one for the dashed
lines if these are drawn. -/
theorem C94_legend {b : Backend} {kept surf : Bool} {s : Scatter} {src : PolarSrc} (hs : src.Is surf s)
    {g : PolarArgs} {inc : List ℝ} (hi : g.inc = some inc) {dg : DecoArgs} {f : PolarFigure}
    (h : polarFigure b kept src g dg = .ok f) :
    (dg.legend = false → f.legend = none) ∧ (dg.legend = true → ∃ es, f.legend = some es ∧
      (LegendLine.approx ∈ es ↔ g.aprox = true ∧ ∃ n, s.ncoefs = .ok n) ∧
      es.length = inc.length + if g.aprox = true ∧ ∃ n, s.ncoefs = .ok n then 1 else 0) := by
  obtain ⟨out, ho, rfl⟩ := polarFigure_ok h
  unfold decorate
  have hnc : src.hasNcoefs = true ↔ ∃ n, s.ncoefs = .ok n := by
    unfold PolarSrc.Is at hs
    subst hs
    cases surf <;> simp only [Bool.false_eq_true, if_true, if_false, PolarSrc.hasNcoefs] <;>
      cases s.ncoefs <;> simp [Except.toBool]
  refine ⟨fun hl => by simp [hl], fun hl => ⟨_, if_pos hl, ?_, ?_⟩⟩
  · unfold polarLegend
    rw [List.mem_append, ← hnc]
    by_cases ha : g.aprox && src.hasNcoefs
    · simp only [ha, if_true]
      simpa using ha
    · simp only [ha]
      simp only [Bool.and_eq_true, not_and, Bool.not_eq_true] at ha
      simpa using ha
  · unfold polarLegend
    rw [← hnc, List.length_append, List.length_map, List.length_zip, usedColors_length, hi]
    simp only [Option.getD_some, List.length_map, min_self]
    by_cases ha : g.aprox = true ∧ src.hasNcoefs = true
    · rw [if_pos ha, if_pos (by simpa using ha)]; rfl
    · rw [if_neg ha, if_neg (by simpa using ha)]; rfl

/-- Ground and title. -/
theorem C94_ground_title {b : Backend} {kept surf : Bool} {s : Scatter} {src : PolarSrc} (hs : src.Is surf s)
    {g : PolarArgs} {inc : List ℝ} (hi : g.inc = some inc) {dg : DecoArgs} {f : PolarFigure}
    (h : polarFigure b kept src g dg = .ok f) :
    f.ground = (if surf then dg.groundcolor else none) ∧ (inc ≠ [] → f.title = some ((match dg.label with
      | some l => l
      | none => (if surf then "Surface" else "Volume") ++ "-Scattering Phase Function") ++ "\n")) := by
  obtain ⟨out, ho, rfl⟩ := polarFigure_ok h
  unfold PolarSrc.Is at hs
  subst hs
  simp only [hi, Option.getD_some, decorate]
  constructor
  · cases surf <;> rfl
  · intro hne
    rw [if_neg hne]
    cases surf <;> cases dg.label <;> rfl

/-- The labels of the ticks give the polar angle, except for the one of 135 degrees. -/
theorem C94_ticks_partial {b : Backend} {kept : Bool} {src : PolarSrc} {g : PolarArgs} {dg : DecoArgs}
    {f : PolarFigure} (h : polarFigure b kept src g dg = .ok f) {θ : ℝ} {n : ℕ} (hx : (θ, n) ∈ f.ticks)
    (hn : n ≠ 135) : θ = n * Real.pi / 180 := by
  obtain ⟨out, ho, rfl⟩ := polarFigure_ok h
  simp only [decorate] at hx
  split_ifs at hx with he
  · cases hx
  · simp only [polarTicks, deg2rad, List.map_cons, List.map_nil, List.zip_cons_cons, List.zip_nil_right, List.mem_cons,
      Prod.mk.injEq, List.not_mem_nil, or_false] at hx
    rcases hx with ⟨rfl, rfl⟩ | ⟨rfl, rfl⟩ | ⟨rfl, rfl⟩ | ⟨rfl, rfl⟩ | ⟨rfl, rfl⟩
    · simp
    · push_cast; ring
    · push_cast; ring
    · exact absurd rfl hn
    · push_cast; ring

/-- False: in every figure with incidence angles the label of 135 degrees stands at 125 degrees. -/
theorem C94_ticks_negation {b : Backend} {kept : Bool} {src : PolarSrc} {g : PolarArgs} {inc : List ℝ}
    (hi : g.inc = some inc) (hne : inc ≠ []) {dg : DecoArgs} {f : PolarFigure}
    (h : polarFigure b kept src g dg = .ok f) :
    ∃ θ : ℝ, (θ, 135) ∈ f.ticks ∧ θ = 125 * Real.pi / 180 ∧ θ ≠ 135 * Real.pi / 180 := by
  obtain ⟨out, ho, rfl⟩ := polarFigure_ok h
  simp only [hi, Option.getD_some, decorate, if_neg hne]
  refine ⟨deg2rad 125, by simp [polarTicks], by unfold deg2rad; ring, ?_⟩
  unfold deg2rad
  intro hc
  have := Real.pi_pos
  linarith

/-- A figure of the isotropic function. -/
theorem C94_ticks_counterexample : ∃ f, polarFigure .symengine false (.volume (.prim .volIsotropic volA none)) {} {} = .ok f ∧
    (deg2rad 125, 135) ∈ f.ticks := by
  obtain ⟨out, ho⟩ := C71_isotropic_counterexample.2
  unfold polarFigure
  rw [ho]
  exact ⟨_, rfl, by simp [decorate, polarTicks]⟩

/-- Eight incidence angles: the first and the last have the same colour. -/
example : (usedColors [10, 20, 30, 40, 50, 60, 70, 80])[0]? = (usedColors [10, 20, 30, 40, 50, 60, 70, 80])[7]? := by
  simp [usedColors, useColors, cycleColours]

/-- The hypotheses of `C94_colours` hold for the default figure of the isotropic function. -/
example : ∃ f, polarFigure .symengine false (.volume (.prim .volIsotropic volA none)) {} {} = .ok f ∧
    ∃ key, f.Keyed [15, 35, 55, 75] key ∧ key.Nodup := by
  obtain ⟨f, hf, -⟩ := C94_ticks_counterexample
  obtain ⟨key, hk, h7, -⟩ := C94_colours (surf := false) (s := .prim .volIsotropic volA none) rfl rfl
    (ρ := fun _ _ => 0) (fun d hd => by
      have : d = [] := by simpa [PolarParams.toList] using hd
      subst this
      intro k a hk; cases hk) hf
  exact ⟨f, hf, key, hk, (C94_distinct hk h7).mpr (by simp)⟩

end

end RT1
