import Verif.Model.PolarPlot
import Verif.Lemmas.HemL
import Verif.Lemmas.SymL
import Verif.Props.Series
import Verif.Props.Scatter

/-!
# Polar plots
-/

namespace RT1

noncomputable section
open Classical Filter

/-! ## Specification -/

/-- The surface or volume function `s` is given. -/
def PolarSrc.Is (src : PolarSrc) (surf : Bool) (s : Scatter) : Prop :=
  src = if surf then .surface s else .volume s

/-- The polar angles: steps of 0.01 in the upper half plane for surface functions, in the whole plane for volume
functions. -/
def PolarAngles (surf : Bool) (l : List ℝ) : Prop :=
  (∀ (k : ℕ) (t : ℝ), l[k]? = some t ↔
    t = (if surf then -(Real.pi / 2) else 0) + k / 100 ∧ t < if surf then Real.pi / 2 else 2 * Real.pi)

/-- The names that a phase function needs besides the angles. -/
def Scatter.Needs (s : Scatter) (n : String) : Prop :=
  n ∈ s.phase.free ∧ n ≠ "phi_0" ∧ n ≠ "phi_ex" ∧ n ≠ "theta_0" ∧ n ≠ "theta_ex"

/-- None of the angle names used in polar plots. -/
def Expr.NoPolar (e : Expr) : Prop :=
  ∀ n ∈ e.free, n ≠ "theta_0" ∧ n ≠ "theta_ex" ∧ n ≠ "phi_0" ∧ n ≠ "phi_ex" ∧ n ≠ "theta_s" ∧ n ≠ "phi_s"

/-- The own parameters, weights and `a` do not use angle names. -/
def Scatter.NoPolar (s : Scatter) : Prop :=
  s.Over Expr.NoPolar fun a => a.a0.NoPolar ∧ a.a1.NoPolar ∧ a.a2.NoPolar

/-- The lines for the incidence angle `t` in degrees: the solid line shows the values of `s.calc` in the plane of
incidence, the dashed line those of `s.legendre_expansion`; the arrow starts at the angle `-t`. -/
structure Curve.Shows (c : Curve) (surf : Bool) (s : Scatter) (ρ : String → ℝ) (aprox : Prop) (t : ℝ) : Prop where
  theta : PolarAngles surf c.theta
  arrow : c.arrow = -(t * Real.pi / 180)
  rad : ∀ i θ, c.theta[i]? = some θ → s.Returns ⟨t * Real.pi / 180, θ, 0, 0, ρ⟩ (c.rad i)
  dashed : c.approx.isSome ↔ aprox
  approx : s.NoPolar → ∀ f, c.approx = some f → ∀ i θ, c.theta[i]? = some θ →
    s.expansionAt (Dirs.env ⟨t * Real.pi / 180, θ, 0, 0, ρ⟩) (t * Real.pi / 180) θ 0 0 = .ok (f i)

/-! ## Lemmas -/

theorem polarGrid_ok (surf : Bool) : ∃ l, polarGrid surf = .ok l ∧ PolarAngles surf l := by
  have key : ∀ a b : ℝ, ∀ (k : ℕ) (t : ℝ),
      ((List.range ⌈(b - a) / (1 / 100)⌉₊).map fun (k : ℕ) => a + k * (1 / 100))[k]? = some t ↔
        t = a + k / 100 ∧ t < b := by
    intro a b k t
    have hlt : k < ⌈(b - a) / (1 / 100)⌉₊ ↔ a + k / 100 < b := by
      rw [Nat.lt_ceil, lt_div_iff₀ (by norm_num)]
      constructor <;> intro h <;> linarith
    simp only [List.getElem?_map, List.getElem?_range']
    by_cases hk : k < ⌈(b - a) / (1 / 100)⌉₊
    · rw [List.getElem?_range hk]
      simp only [Option.map_some, Option.some.injEq]
      have := hlt.mp hk
      constructor
      · rintro rfl; constructor <;> linarith
      · rintro ⟨rfl, -⟩; ring
    · rw [List.getElem?_eq_none (by simpa using hk)]
      simp only [Option.map_none, reduceCtorEq, false_iff, not_and]
      rintro rfl h
      exact hk (hlt.mpr h)
  have hne : (1 / 100 : ℝ) ≠ 0 := by norm_num
  cases surf with
  | true =>
    refine ⟨_, by unfold polarGrid arange; rw [if_pos rfl, if_neg hne], fun k t => ?_⟩
    rw [key]
    simp only [if_true]
    constructor <;> rintro ⟨rfl, h⟩ <;> refine ⟨by ring, by linarith⟩
  | false =>
    refine ⟨_, by unfold polarGrid arange; rw [if_neg (by simp), if_neg hne], fun k t => ?_⟩
    rw [key]
    simp

theorem groupCoefs_ok {R R' : Type} [CommRing R] [Algebra ℝ R] [CommRing R'] [Algebra ℝ R'] (emb : Expr → R)
    (emb' : Expr → R') (l : List (Expr × Scatter)) (h : ∃ f, Scatter.groupCoefs emb l = .ok f) :
    ∃ f, Scatter.groupCoefs emb' l = .ok f := by
  induction l with
  | nil => exact ⟨_, rfl⟩
  | cons q l ih =>
    obtain ⟨w, o⟩ := q
    unfold Scatter.groupCoefs at h ⊢
    obtain ⟨f, hf⟩ := h
    obtain ⟨c, hc, hf⟩ := ok_bind hf
    obtain ⟨g, hg, -⟩ := ok_bind hf
    obtain ⟨g', hg'⟩ := ih ⟨g, hg⟩
    rw [hc, hg']
    exact ⟨_, rfl⟩

theorem polarExpansion_ok {s : Scatter} {ρ : String → ℝ} {t0 t v : ℝ} (h : polarExpansion s ρ t0 t = .ok v)
    (ρ' : String → ℝ) (t0' t' : ℝ) : ∃ v', polarExpansion s ρ' t0' t' = .ok v' := by
  unfold polarExpansion Scatter.legExpansion at *
  cases s with
  | prim k a nc =>
    simp only at h ⊢
    obtain ⟨N, hN, h⟩ := ok_bind h
    rw [hN]
    simp only [okb]
    by_cases h0 : 0 < N
    · rw [if_pos h0]; exact ⟨_, rfl⟩
    · rw [if_neg h0] at h; cases h
  | lin ws os a =>
    simp only at h ⊢
    generalize Scatter.aGroups ws os = gs at h
    induction gs generalizing v with
    | nil => exact ⟨_, rfl⟩
    | cons g gs ih =>
      obtain ⟨b, l⟩ := g
      unfold Scatter.groupsExpansion at h ⊢
      obtain ⟨N, hN, h⟩ := ok_bind h
      obtain ⟨f, hf, h⟩ := ok_bind h
      obtain ⟨r, hr, -⟩ := ok_bind h
      obtain ⟨f', hf'⟩ := groupCoefs_ok (fun e => e.evalR ρ) (fun e => e.evalR ρ') l ⟨f, hf⟩
      obtain ⟨r', hr'⟩ := ih hr
      rw [hN, hf', hr']
      exact ⟨_, rfl⟩

theorem polarEnv_value {surf : Bool} {d : Dict} {ρ : String → ℝ} (hp : d.Numbers ρ) {n : String} (hn : n ∈ d.keys)
    (h1 : n ≠ "theta_0") (h2 : n ≠ "theta_ex") (h3 : n ≠ "phi_0") (h4 : n ≠ "phi_ex") (h5 : n ≠ "theta_s")
    (h6 : n ≠ "phi_s") (t0 t : ℝ) (i : ℕ) : polarEnv surf d t0 t i n = ρ n := by
  obtain ⟨a, ha⟩ := Dict.get?_of_mem hn
  have hv : a.at' [i] = XR.fin (ρ n) := by rw [hp n a ha]; rfl
  unfold polarEnv
  cases surf <;> simp [h1, h2, h3, h4, h5, h6, ha, hv]

theorem polarExpansion_eq {surf : Bool} {s : Scatter} {d : Dict} {ρ : String → ℝ} (hp : d.Numbers ρ)
    (hg : s.Given d) (hs : s.NoPolar) {t0 t v : ℝ} {i : ℕ}
    (h : polarExpansion s (polarEnv surf d t0 t i) t0 t = .ok v) :
    s.expansionAt (Dirs.env ⟨t0, t, 0, 0, ρ⟩) t0 t 0 0 = .ok v := by
  let x : Dirs := ⟨t0, t, 0, 0, ρ⟩
  let ρ' : String → ℝ := fun n => if n = "theta_0" ∨ n = "theta_ex" ∨ n = "phi_0" ∨ n = "phi_ex" ∨ n = "theta_s" ∨
    n = "phi_s" then x.env n else polarEnv surf d t0 t i n
  have hP : ∀ e : Expr, e.NoPolar → e.evalR (polarEnv surf d t0 t i) = e.evalR ρ' := fun e he =>
    Expr.evalR_congr fun n hn => by
      obtain ⟨h1, h2, h3, h4, h5, h6⟩ := he n hn
      simp only [ρ', h1, h2, h3, h4, h5, h6, or_self, if_false]
  have h' : s.expansionAt (polarEnv surf d t0 t i) t0 t 0 0 = .ok v := h
  rw [Scatter.Over.expansionAt (P := Expr.NoPolar) (ρ' := ρ') (t0' := t0) (tex' := t) (p0' := 0) (pex' := 0) hP
    (fun a ha => ⟨hP _ ha.1, by
      unfold Scatter.angleR
      simp only
      rw [hP _ ha.1, hP _ ha.2.1, hP _ ha.2.2]⟩) hs] at h'
  refine Scatter.expansion_congr (fun n hn => ?_) h'
  by_cases hc : n = "theta_0" ∨ n = "theta_ex" ∨ n = "phi_0" ∨ n = "phi_ex" ∨ n = "theta_s" ∨ n = "phi_s"
  · simp only [ρ', if_pos hc, x]
  · simp only [ρ', if_neg hc]
    simp only [not_or] at hc
    obtain ⟨h1, h2, h3, h4, h5, h6⟩ := hc
    have hk : n ∈ d.keys := by
      have := hg n hn
      simpa [h1, h2, h3, h4] using this
    rw [polarEnv_value hp hk h1 h2 h3 h4 h5 h6]
    simp [Dirs.env, h1, h2, h3, h4]

/-- The array of polar angles. -/
theorem grid_at {grid : List ℝ} {i : ℕ} {θ : ℝ} (h : grid[i]? = some θ) :
    (⟨[grid.length], fun i => XR.fin (grid.getD (i.getD 0 0) 0)⟩ : Arr).at' [i] = XR.fin θ := by
  have hi : i < grid.length := (List.getElem?_eq_some_iff.mp h).1
  have hv : Arr.Valid (⟨[grid.length], fun i => XR.fin (grid.getD (i.getD 0 0) 0)⟩ : Arr).shape [i] := .cons hi .nil
  rw [Arr.at'_valid hv]
  simp [List.getD, h]

theorem polarCurve_shows {b : Backend} {surf : Bool} {s : Scatter} {kept aprox : Bool} {d : Dict} {ρ : String → ℝ}
    (hp : d.Numbers ρ) (hg : s.Given d) {grid : List ℝ} (hgrid : PolarAngles surf grid) {t : ℝ} {c : Curve}
    (he : aprox = true → ∃ v, polarExpansion s (fun _ => 0) 0 0 = .ok v)
    (h : polarCurve b surf s kept aprox d grid (deg2rad t) = .ok c) : c.Shows surf s ρ (aprox = true) t := by
  have ht : deg2rad t = t * Real.pi / 180 := by unfold deg2rad; ring
  unfold polarCurve at h
  obtain ⟨rad, hrad, h⟩ := ok_bind h
  obtain ⟨_, hsh, h⟩ := ok_bind h
  have hrs : rad.shape = [grid.length] := by
    unfold polarShape at hsh
    split_ifs at hsh with hs
    exact hs
  have hret : ∀ i θ, grid[i]? = some θ → s.Returns ⟨t * Real.pi / 180, θ, 0, 0, ρ⟩ (rad.get [i]) := by
    intro i θ hi
    rw [ht] at hrad
    refine ⟨b, _, _, _, _, d, rad, [i], hrad, ?_, rfl, grid_at hi, rfl, rfl, fun k a hk => ?_, rfl⟩
    · rw [hrs]; exact .cons (List.getElem?_eq_some_iff.mp hi).1 .nil
    · rw [hp k a hk]; rfl
  by_cases ha : aprox = true
  · rw [if_pos ha] at h
    obtain ⟨f, hf, h⟩ := ok_bind h
    simp only [Except.ok.injEq] at h
    subst h
    refine ⟨hgrid, by rw [ht], hret, by simp [ha], fun hs f' hf' i θ hi => ?_⟩
    simp only [Option.some.injEq] at hf'
    subst hf'
    unfold polarApprox at hf
    split at hf
    · cases hf
    · obtain ⟨_, -, hf⟩ := ok_bind hf
      simp only [Except.ok.injEq] at hf
      subst hf
      obtain ⟨v, hv⟩ := he ha
      obtain ⟨v', hv'⟩ := polarExpansion_ok hv (polarEnv surf d (deg2rad t) (grid.getD i 0) i) (deg2rad t) (grid.getD i 0)
      simp only [hv']
      have hθ : grid.getD i 0 = θ := by simp [List.getD, show grid[i]? = some θ from hi]
      rw [hθ, ht] at hv'
      exact polarExpansion_eq hp hg hs hv'
  · rw [if_neg ha] at h
    simp only [Except.ok.injEq] at h
    subst h
    exact ⟨hgrid, by rw [ht], hret, by simp [ha], fun _ f' hf' => by cases hf'⟩

theorem polarMissing_nil {s : Scatter} {d : Dict} (h : polarMissing s d = []) : s.Given d := by
  intro n hn
  by_contra hc
  have : n ∈ polarMissing s d := by
    unfold polarMissing
    refine List.mem_filter.mpr ⟨hn, ?_⟩
    simp only [List.mem_append, List.mem_cons, List.not_mem_nil, or_false, not_or] at hc
    simp only [List.mem_cons, List.not_mem_nil, or_false, decide_eq_true_eq, not_or]
    tauto
  rw [h] at this
  cases this

theorem polarMissing_mem {s : Scatter} {d : Dict} {n : String} : n ∈ polarMissing s d ↔ s.Needs n ∧ n ∉ d.keys := by
  unfold polarMissing Scatter.Needs
  rw [List.mem_filter]
  simp only [List.mem_cons, List.not_mem_nil, or_false, decide_eq_true_eq, not_or]
  tauto

theorem polarplot_eq (b : Backend) (kept : Bool) {surf : Bool} {s : Scatter} {src : PolarSrc} (hs : src.Is surf s)
    {g : PolarArgs} {inc : List ℝ} (hi : g.inc = some inc) (hm : g.multipFloat = true) :
    polarplot b kept src g = (do
      let l ← polarOne b surf s kept (g.aprox && s.ncoefs.toBool) inc g
      .ok ⟨l, g.aprox && !s.ncoefs.toBool⟩) := by
  unfold polarplot
  rw [hi]
  simp only [hm, if_true]
  unfold PolarSrc.Is at hs
  cases surf <;> (simp only [Bool.false_eq_true, if_true, if_false] at hs; subst hs; rfl)

/-! ## C71 -/

/-- What a successful call draws: for every parameter dictionary and every incidence angle, in this order, the
curves of the phase function and, if requested and `ncoefs` is known, of the expansion. -/
theorem C71_draws {b : Backend} {kept surf : Bool} {s : Scatter} {src : PolarSrc} (hs : src.Is surf s) {g : PolarArgs}
    {inc : List ℝ} (hi : g.inc = some inc) {ρ : Dict → String → ℝ} (hp : ∀ d ∈ g.params.toList, d.Numbers (ρ d))
    {out : PolarOut} (h : polarplot b kept src g = .ok out) :
    (out.warned = true ↔ g.aprox = true ∧ ¬∃ n, s.ncoefs = .ok n) ∧
    ∃ l : List (List Curve), out.curves = l.flatten ∧
      List.Forall₂ (fun d cs => List.Forall₂ (fun t c =>
        Curve.Shows c surf s (ρ d) (g.aprox = true ∧ ∃ n, s.ncoefs = .ok n) t) inc cs) g.params.toList l := by
  have hm : g.multipFloat = true := by
    by_contra hm
    unfold polarplot at h
    rw [hi] at h
    simp only [if_neg hm] at h
    cases h
  rw [polarplot_eq b kept hs hi hm] at h
  obtain ⟨l, hl, h⟩ := ok_bind h
  simp only [Except.ok.injEq] at h
  subst h
  have hnc : s.ncoefs.toBool = true ↔ ∃ n, s.ncoefs = .ok n := by
    cases s.ncoefs <;> simp [Except.toBool]
  refine ⟨?_, ?_⟩
  · rw [← hnc]; simp
  unfold polarOne at hl
  split at hl
  · cases hl
  · rename_i hmiss
    rw [List.find?_eq_none] at hmiss
    by_cases hax : g.axPolar = true
    · rw [if_pos hax] at hl
      by_cases he : g.params.toList = []
      · rw [if_pos he] at hl; cases hl
      · rw [if_neg he] at hl
        obtain ⟨grid, hgrid, hl⟩ := ok_bind hl
        obtain ⟨ls, hls, hl⟩ := ok_bind hl
        simp only [Except.ok.injEq] at hl
        refine ⟨ls, hl.symm, ?_⟩
        obtain ⟨grid', hgrid', hang⟩ := polarGrid_ok surf
        rw [hgrid] at hgrid'
        simp only [Except.ok.injEq] at hgrid'
        subst hgrid'
        have h2 := mapM_ok hls
        have hmem : ∀ d ∈ g.params.toList, s.Given d ∧ d.Numbers (ρ d) := fun d hd =>
          ⟨polarMissing_nil (by simpa using hmiss d hd), hp d hd⟩
        refine List.Forall₂.imp ?_ ((List.forall₂_and_left (p := fun d => s.Given d ∧ d.Numbers (ρ d)) _ _).mpr ⟨hmem, h2⟩)
        rintro d cs ⟨⟨hgv, hnum⟩, hcs⟩
        have key : ∀ apx : Bool, (apx = true ↔ g.aprox = true ∧ ∃ n, s.ncoefs = .ok n) →
            (apx = true → ∃ v, polarExpansion s (fun _ => 0) 0 0 = .ok v) →
            inc.mapM (fun t => polarCurve b surf s kept apx d grid (deg2rad t)) = .ok cs →
            List.Forall₂ (fun t c => Curve.Shows c surf s (ρ d) (g.aprox = true ∧ ∃ n, s.ncoefs = .ok n) t) inc cs := by
          intro apx hapx hex hmap
          refine List.Forall₂.imp (fun t c hc => ?_) (mapM_ok hmap)
          have := polarCurve_shows hnum hgv hang hex hc
          rw [← hapx]
          exact this
        have hapx : (g.aprox && s.ncoefs.toBool) = true ↔ g.aprox = true ∧ ∃ n, s.ncoefs = .ok n := by
          rw [Bool.and_eq_true, hnc]
        unfold polarCurves at hcs
        split_ifs at hcs with hA
        · obtain ⟨v, hv, hcs⟩ := ok_bind hcs
          exact key _ hapx (fun _ => ⟨v, hv⟩) hcs
        · exact key _ hapx (fun hB => absurd hB hA) hcs
    · rw [if_neg hax] at hl; cases hl

/-- A missing parameter: AssertionError with exactly the names that one of the dictionaries lacks. -/
theorem C71_missing (b : Backend) (kept : Bool) {surf : Bool} {s : Scatter} {src : PolarSrc} (hs : src.Is surf s)
    {g : PolarArgs} {inc : List ℝ} (hi : g.inc = some inc) (hm : g.multipFloat = true)
    {d : Dict} (hd : d ∈ g.params.toList) {n : String} (hn : s.Needs n) (hnd : n ∉ d.keys) :
    ∃ l, polarplot b kept src g = .error (.assertMissing l) ∧
      ∃ d' ∈ g.params.toList, ∀ k, k ∈ l ↔ s.Needs k ∧ k ∉ d'.keys := by
  rw [polarplot_eq b kept hs hi hm]
  unfold polarOne
  cases hf : g.params.toList.find? fun d => polarMissing s d ≠ [] with
  | none =>
    rw [List.find?_eq_none] at hf
    have := hf d hd
    simp only [ne_eq, decide_not, Bool.not_eq_true', decide_eq_false_iff_not, not_not] at this
    have hmem := polarMissing_mem.mpr ⟨hn, hnd⟩
    rw [this] at hmem
    cases hmem
  | some d' =>
    exact ⟨polarMissing s d', rfl, d', List.mem_of_find?_eq_some hf, fun k => polarMissing_mem⟩

/-- The call succeeds if all parameters are given as numbers, the phase function uses the exit angle (or the backend
is symengine), and, if the approximation is drawn, the expansion exists and uses the exit angle. -/
theorem C71_succeeds_partial {b : Backend} {kept surf : Bool} {s : Scatter} {src : PolarSrc} (hs : src.Is surf s)
    {g : PolarArgs} (hi : g.inc ≠ none) (hm : g.multipFloat = true) (hax : g.axPolar = true)
    (hne : g.params.toList ≠ []) (hp : ∀ d ∈ g.params.toList, ∃ ρ, d.Numbers ρ)
    (hall : ∀ d ∈ g.params.toList, ∀ n, s.Needs n → n ∈ d.keys)
    (hu : b = .symengine ∨ "theta_ex" ∈ s.phase.free)
    (ha : g.aprox = true → ∀ n, s.ncoefs = .ok n → (b = .symengine ∨ kept = true) ∧
      ∃ ρ t0 t v, s.expansionAt ρ t0 t 0 0 = .ok v) :
    ∃ out, polarplot b kept src g = .ok out := by
  obtain ⟨inc, hi⟩ := Option.ne_none_iff_exists'.mp hi
  rw [polarplot_eq b kept hs hi hm]
  have hfind : g.params.toList.find? (fun d => polarMissing s d ≠ []) = none := by
    rw [List.find?_eq_none]
    intro d hd
    simp only [ne_eq, decide_not, Bool.not_eq_true', decide_eq_false_iff_not, not_not]
    rw [List.eq_nil_iff_forall_not_mem]
    intro n hn
    obtain ⟨h1, h2⟩ := polarMissing_mem.mp hn
    exact h2 (hall d hd n h1)
  obtain ⟨grid, hgrid, -⟩ := polarGrid_ok surf
  have hcurves : ∀ d ∈ g.params.toList, ∃ cs,
      polarCurves b surf s kept (g.aprox && s.ncoefs.toBool) inc grid d = .ok cs := by
    intro d hd
    obtain ⟨ρ, hnum⟩ := hp d hd
    have hgv : s.Given d := polarMissing_nil (by
      have := List.find?_eq_none.mp hfind d hd
      simpa using this)
    have hcurve : ∀ apx : Bool, (apx = true → b = .symengine ∨ kept = true) → ∀ t0 : ℝ,
        ∃ c, polarCurve b surf s kept apx d grid t0 = .ok c := by
      intro apx hk t0
      obtain ⟨rad, hrad, hfit⟩ := Scatter.calcVal_succ (b := b) (S := [grid.length]) hgv (a1 := Arr.lit t0)
        (a2 := ⟨[grid.length], fun i => XR.fin (grid.getD (i.getD 0 0) 0)⟩) (a3 := Arr.lit 0) (a4 := Arr.lit 0)
        trivial (Arr.Fits.refl _) trivial trivial hnum.fits
      have hsh : rad.shape = [grid.length] := hfit.antisymm (Scatter.calcVal_theta hrad hu)
      unfold polarCurve
      rw [hrad]
      simp only [okb]
      have hps : polarShape grid.length rad.shape = .ok () := by unfold polarShape; rw [if_pos hsh]
      rw [hps]
      simp only [okb]
      by_cases hA : apx = true
      · rw [if_pos hA]
        have hb : Arr.bshapes ((if b = .symengine ∨ kept = true then [[grid.length]] else []) ++
            d.keys.filterMap fun k => (Dict.get? d k).map Arr.shape) = some [grid.length] := by
          rw [if_pos (hk hA)]
          obtain ⟨u, hu1, hu2⟩ := Arr.bshapes_of_fits (u := [grid.length]) (l := [[grid.length]] ++
            d.keys.filterMap fun k => (Dict.get? d k).map Arr.shape) (by
              intro t ht
              rcases List.mem_append.mp ht with ht | ht
              · rw [List.mem_singleton.mp ht]; exact Arr.Fits.refl _
              · obtain ⟨k, -, hk⟩ := List.mem_filterMap.mp ht
                obtain ⟨a, ha, rfl⟩ := Option.map_eq_some_iff.mp hk
                exact hnum.fits k a ha)
          have := Arr.bshapes_fits hu1 (List.mem_append_left _ (List.mem_singleton.mpr rfl))
          rw [hu1, hu2.antisymm this]
        unfold polarApprox
        rw [hb]
        simp only
        have hps' : polarShape grid.length [grid.length] = .ok () := by unfold polarShape; rw [if_pos rfl]
        rw [hps']
        exact ⟨_, rfl⟩
      · rw [if_neg hA]; exact ⟨_, rfl⟩
    unfold polarCurves
    by_cases hA : (g.aprox && s.ncoefs.toBool) = true
    · rw [if_pos hA]
      rw [Bool.and_eq_true] at hA
      obtain ⟨n, hn⟩ : ∃ n, s.ncoefs = .ok n := by
        cases hn : s.ncoefs with
        | ok n => exact ⟨n, rfl⟩
        | error e => rw [hn] at hA; simp [Except.toBool] at hA
      obtain ⟨hk, ρ', t0, t, v, hv⟩ := ha hA.1 n hn
      have hv' : polarExpansion s ρ' t0 t = .ok v := hv
      obtain ⟨v0, hv0⟩ := polarExpansion_ok hv' (fun _ => 0) 0 0
      rw [hv0]
      simp only [okb]
      exact mapM_each fun t _ => hcurve _ (fun _ => hk) _
    · rw [if_neg hA]
      exact mapM_each fun t _ => hcurve _ (fun h => absurd h hA) _
  obtain ⟨ls, hls⟩ := mapM_each hcurves
  unfold polarOne
  rw [hfind]
  simp only [if_pos hax, if_neg hne, hgrid, okb, hls]
  exact ⟨_, rfl⟩

/-- Where the direction with the polar angle `α` is drawn: clockwise from the zenith. -/
def drawn (α : ℝ) : ℝ × ℝ := (Real.sin α, Real.cos α)

/-- The radius of the solid line for a predefined volume function with default `a`: its value at the angle between
the incident ray, which runs from the start of the arrow to the centre, and the drawn direction. -/
theorem C71_picture_volume {c : Curve} {surf : Bool} {k : Kind} {nc : Option ℕ} {ρ : String → ℝ} {ap : Prop} {t T : ℝ}
    (h : c.Shows surf (.prim k volA nc) ρ ap t) (hT : ∀ θ, k.TIs (Dirs.env ⟨t * Real.pi / 180, θ, 0, 0, ρ⟩) T)
    (hT1 : |T| < 1) (hn : ¬k.IsNadirnorm) {i : ℕ} {θ : ℝ} (hi : c.theta[i]? = some θ) :
    c.rad i = XR.fin (k.val (-1) T (-(drawn c.arrow).1 * (drawn θ).1 + -(drawn c.arrow).2 * (drawn θ).2)) := by
  have hr := h.rad i θ hi
  have hb := Phase.cosTheta_abs_le (a0 := -1) (a1 := 1) (a2 := 1) (by simp) (by simp) (by simp) (t * Real.pi / 180) θ 0 0
  have := hr.prim (volA_is _) (hT θ) (hg_base_pos hT1 hb) (Kind.nadirOK (by simp) hT1 fun hk => absurd hk hn)
  rw [this]
  congr 2
  rw [h.arrow]
  unfold drawn Dirs.cosTheta Phase.cosTheta
  simp only [Real.sin_neg, Real.cos_neg, Real.cos_zero, Real.sin_zero]
  ring

/-- The same for surface functions: the angle between the mirrored ray and the drawn direction. -/
theorem C71_picture_surface {c : Curve} {surf : Bool} {k : Kind} {nc : Option ℕ} {ρ : String → ℝ} {ap : Prop} {t T : ℝ}
    (h : c.Shows surf (.prim k srfA nc) ρ ap t) (hT : ∀ θ, k.TIs (Dirs.env ⟨t * Real.pi / 180, θ, 0, 0, ρ⟩) T)
    (hT1 : |T| < 1) (hn : k.IsNadirnorm → T ≠ 0) {i : ℕ} {θ : ℝ} (hi : c.theta[i]? = some θ) :
    c.rad i = XR.fin (k.val 1 T (-(drawn c.arrow).1 * (drawn θ).1 + (drawn c.arrow).2 * (drawn θ).2)) := by
  have hr := h.rad i θ hi
  have hb := Phase.cosTheta_abs_le (a0 := 1) (a1 := 1) (a2 := 1) (by simp) (by simp) (by simp) (t * Real.pi / 180) θ 0 0
  have := hr.prim (srfA_is _) (hT θ) (hg_base_pos hT1 hb) (Kind.nadirOK (by simp) hT1 fun hk => ⟨by norm_num, hn hk⟩)
  rw [this]
  congr 2
  rw [h.arrow]
  unfold drawn Dirs.cosTheta Phase.cosTheta
  simp only [Real.sin_neg, Real.cos_neg, Real.cos_zero, Real.sin_zero]
  ring

/-- Isotropic and Rayleigh functions: the dashed line coincides with the solid line. -/
theorem C71_dashed_exact {c : Curve} {surf : Bool} {k : Kind} (hk : k = .volIsotropic ∨ k = .srfIsotropic ∨ k = .volRayleigh)
    {a : A3} {nc : Option ℕ} {ρ : String → ℝ} {ap : Prop} {t : ℝ} (h : c.Shows surf (.prim k a nc) ρ ap t)
    (hno : (Scatter.prim k a nc).NoPolar) {a0 a1 a2 : ℝ}
    (ha : ∀ θ, a.Is (Dirs.env ⟨t * Real.pi / 180, θ, 0, 0, ρ⟩) a0 a1 a2) {f : ℕ → ℝ} (hf : c.approx = some f)
    {i : ℕ} {θ : ℝ} (hi : c.theta[i]? = some θ) : c.rad i = XR.fin (f i) := by
  have he := h.approx hno f hf i θ hi
  have hr := h.rad i θ hi
  have key : ∀ {v : ℝ}, (Scatter.prim k a nc).expansionAt (Dirs.env ⟨t * Real.pi / 180, θ, 0, 0, ρ⟩)
      (t * Real.pi / 180) θ 0 0 = .ok v → (∀ r, (Scatter.prim k a nc).Returns ⟨t * Real.pi / 180, θ, 0, 0, ρ⟩ r →
      r = XR.fin v) → c.rad i = XR.fin (f i) := by
    intro v h1 h2
    rw [h2 _ hr]
    rw [he] at h1
    simpa using h1.symm
  rcases hk with rfl | rfl | rfl
  · obtain ⟨⟨v, h1, h2⟩, -⟩ := C41_isotropic a nc ⟨t * Real.pi / 180, θ, 0, 0, ρ⟩
    exact key h1 h2
  · obtain ⟨-, ⟨v, h1, h2⟩⟩ := C41_isotropic a nc ⟨t * Real.pi / 180, θ, 0, 0, ρ⟩
    exact key h1 h2
  · obtain ⟨v, h1, h2⟩ := C41_rayleigh (nc := nc) (ha θ)
    exact key h1 h2

/-- Henyey-Greenstein functions and HGRayleigh: with a growing number of coefficients the dashed line converges to the
solid line, which does not depend on that number. -/
theorem C71_dashed_converges {surf : Bool} {te : Expr} {k : Kind}
    (hk : k = .volHG te ∨ k = .srfHG te ∨ k = .volHGRayleigh te) {a : A3} {ρ : String → ℝ} {t T a0 a1 a2 : ℝ}
    {c : ℕ → Curve} (h : ∀ N > 0, (c N).Shows surf (.prim k a (some N)) ρ True t)
    (hno : te.NoPolar ∧ a.a0.NoPolar ∧ a.a1.NoPolar ∧ a.a2.NoPolar)
    (ha : ∀ θ, a.Is (Dirs.env ⟨t * Real.pi / 180, θ, 0, 0, ρ⟩) a0 a1 a2)
    (h0 : |a0| ≤ 1) (h1 : |a1| ≤ 1) (h2 : |a2| ≤ 1)
    (hT : ∀ θ, te.Is (Dirs.env ⟨t * Real.pi / 180, θ, 0, 0, ρ⟩) T) (hT1 : |T| < 1)
    {i : ℕ} {θ : ℝ} (hi : ∀ N > 0, (c N).theta[i]? = some θ) :
    ∃ (v : ℝ) (e : ℕ → ℝ), (∀ N > 0, (c N).rad i = XR.fin v ∧ ∃ f, (c N).approx = some f ∧ f i = e N) ∧
      Tendsto e atTop (nhds v) := by
  obtain ⟨v, hv, e, he, hlim⟩ := C42_converges hk (x := ⟨t * Real.pi / 180, θ, 0, 0, ρ⟩) (ha θ) h0 h1 h2 (hT θ) hT1
  refine ⟨v, e, fun N hN => ⟨hv _ _ ((h N hN).rad i θ (hi N hN)), ?_⟩, hlim⟩
  obtain ⟨f, hf⟩ := Option.isSome_iff_exists.mp ((h N hN).dashed.mpr trivial)
  refine ⟨f, hf, ?_⟩
  have hnp : (Scatter.prim k a (some N)).NoPolar := by
    refine .prim ?_ hno.2
    rcases hk with rfl | rfl | rfl <;> simpa [Kind.params] using hno.1
  have h3 := (h N hN).approx hnp f hf i θ (hi N hN)
  have h4 := he N hN
  rw [h3] at h4
  simpa using h4

/-- sympy: no plot of a function that does not use the exit angle. -/
theorem C71_isotropic_negation {kept surf : Bool} {s : Scatter} {src : PolarSrc} (hs : src.Is surf s) {g : PolarArgs}
    {inc : List ℝ} (hi : g.inc = some inc) (hinc : inc ≠ []) (hp : ∀ d ∈ g.params.toList, ∃ ρ, d.Numbers ρ)
    (hu : "theta_ex" ∉ s.phase.free) (out : PolarOut) : polarplot .sympy kept src g ≠ .ok out := by
  intro h
  have hm : g.multipFloat = true := by
    by_contra hm
    unfold polarplot at h
    rw [hi] at h
    simp only [if_neg hm] at h
    cases h
  rw [polarplot_eq .sympy kept hs hi hm] at h
  obtain ⟨l, hl, h⟩ := ok_bind h
  unfold polarOne at hl
  split at hl
  · cases hl
  by_cases hax : g.axPolar = true
  · rw [if_pos hax] at hl
    by_cases he : g.params.toList = []
    · rw [if_pos he] at hl; cases hl
    · rw [if_neg he] at hl
      obtain ⟨grid, hgrid, hl⟩ := ok_bind hl
      obtain ⟨ls, hls, hl⟩ := ok_bind hl
      obtain ⟨d, hd⟩ := List.exists_mem_of_ne_nil _ he
      obtain ⟨cs, hcs⟩ : ∃ cs, polarCurves .sympy surf s kept (g.aprox && s.ncoefs.toBool) inc grid d = .ok cs := by
        have h2 := mapM_ok hls
        obtain ⟨n, hn, rfl⟩ := List.mem_iff_getElem.mp hd
        exact ⟨_, (List.forall₂_iff_get.mp h2).2 n hn (by rw [← h2.length_eq]; exact hn)⟩
      have key : ∀ apx : Bool, inc.mapM (fun t => polarCurve .sympy surf s kept apx d grid (deg2rad t)) ≠ .ok cs := by
        intro apx hmap
        have h2 := mapM_ok hmap
        cases inc with
        | nil => exact hinc rfl
        | cons t ts =>
          cases h2 with
          | cons hc _ =>
            unfold polarCurve at hc
            obtain ⟨rad, hrad, hc⟩ := ok_bind hc
            obtain ⟨_, hsh, hc⟩ := ok_bind hc
            obtain ⟨ρ, hnum⟩ := hp d hd
            have := Scatter.calcVal_notheta (S := []) hrad hu trivial trivial trivial hnum.fits
            have hlen := this.length
            unfold polarShape at hsh
            split_ifs at hsh with hs'
            rw [hs'] at hlen
            simp at hlen
      unfold polarCurves at hcs
      split_ifs at hcs
      · obtain ⟨v, hv, hcs⟩ := ok_bind hcs
        exact key _ hcs
      · exact key _ hcs
  · rw [if_neg hax] at hl; cases hl

/-- The default plot of the isotropic volume function fails with sympy and succeeds with symengine. -/
theorem C71_isotropic_counterexample :
    (∀ out, polarplot .sympy false (.volume (.prim .volIsotropic volA none)) {} ≠ .ok out) ∧
    ∃ out, polarplot .symengine false (.volume (.prim .volIsotropic volA none)) {} = .ok out := by
  constructor
  · intro out
    refine C71_isotropic_negation (surf := false) (s := .prim .volIsotropic volA none) rfl rfl (by simp)
      (fun d hd => ⟨fun _ => 0, ?_⟩) (by simp [Scatter.phase, Scatter.primPhase, Expr.free]) out
    have : d = [] := by simpa [PolarParams.toList] using hd
    subst this
    intro k a hk; cases hk
  · refine C71_succeeds_partial (surf := false) (s := .prim .volIsotropic volA none) rfl (by simp) rfl rfl
      (by simp [PolarParams.toList]) (fun d hd => ⟨fun _ => 0, ?_⟩) ?_ (Or.inl rfl) fun _ n hn => ⟨Or.inl rfl, ?_⟩
    · have : d = [] := by simpa [PolarParams.toList] using hd
      subst this
      intro k a hk; cases hk
    · intro d hd n hn
      have := hn.1
      simp [Scatter.phase, Scatter.primPhase, Expr.free] at this
    · obtain ⟨⟨v, h1, -⟩, -⟩ := C41_isotropic volA none ⟨0, 0, 0, 0, fun _ => 0⟩
      exact ⟨_, _, _, v, h1⟩

/-- A nested combination has `ncoefs` but no expansion: its default plot fails, also with symengine. -/
theorem C71_nested_counterexample (kept : Bool) :
    polarplot .symengine kept (.volume (.lin [.num 1] [.lin [.num 1] [.prim .volIsotropic volA none] volA] volA)) {} =
      .error .notImplementedError := by
  have h := (C47_nested_counterexample (fun _ => 0) 0 0 0 0).2
  obtain ⟨grid, hgrid, -⟩ := polarGrid_ok false
  have hm : polarMissing (.lin [.num 1] [.lin [.num 1] [.prim .volIsotropic volA none] volA] volA) [] = [] := by
    simp [polarMissing, Scatter.phase, Scatter.phaseL, Scatter.primPhase, Expr.free]
  have hn : (Scatter.lin [.num 1] [.lin [.num 1] [.prim .volIsotropic volA none] volA] volA).ncoefs.toBool = true := by
    simp [Scatter.ncoefs, Scatter.ncoefsL, okb, Except.toBool]
  have hc : polarCurves .symengine false (.lin [.num 1] [.lin [.num 1] [.prim .volIsotropic volA none] volA] volA) kept
      true [15, 35, 55, 75] grid [] = .error .notImplementedError := by
    unfold polarCurves
    rw [if_pos rfl]
    have h' : polarExpansion (.lin [.num 1] [.lin [.num 1] [.prim .volIsotropic volA none] volA] volA) (fun _ => 0) 0 0 =
      .error .notImplementedError := h
    rw [h']; rfl
  rw [polarplot_eq .symengine kept (src := .volume _) (surf := false) (g := {}) (inc := [15, 35, 55, 75])
    (s := .lin [.num 1] [.lin [.num 1] [.prim .volIsotropic volA none] volA] volA) rfl rfl rfl, hn]
  unfold polarOne
  simp only [PolarParams.toList, List.find?_cons, hm, ne_eq, not_true_eq_false, decide_false, List.find?_nil, if_true,
    hgrid, okb, List.mapM_cons, Bool.and_self, hc]
  rfl

/-- The Henyey-Greenstein function with a symbolic parameter: both lines are drawn. -/
example (N : ℕ) (hN : 0 < N) (v : ℝ) : ∃ out, polarplot .sympy true (.volume (.prim (.volHG (.sym "t")) volA (some N)))
    { params := .dict [("t", Arr.num (XR.fin v))] } = .ok out := by
  refine C71_succeeds_partial (surf := false) (s := .prim (.volHG (.sym "t")) volA (some N)) rfl (by simp) rfl rfl
    (by simp [PolarParams.toList]) (fun d hd => ⟨fun _ => v, ?_⟩) ?_ (Or.inr ?_) fun _ n hn => ⟨Or.inr rfl, ?_⟩
  · have : d = [("t", Arr.num (XR.fin v))] := by simpa [PolarParams.toList] using hd
    subst this
    intro k a hk
    simp only [Dict.get?, List.find?_cons] at hk
    split at hk
    · simpa using hk.symm
    · simp at hk
  · intro d hd n hn
    have : d = [("t", Arr.num (XR.fin v))] := by simpa [PolarParams.toList] using hd
    subst this
    obtain ⟨h1, h2⟩ := hn
    simp [Scatter.phase, Scatter.primPhase, Scatter.hgExpr, Scatter.angleExpr, volA, Expr.free] at h1
    simp [Dict.keys]
    tauto
  · simp [Scatter.phase, Scatter.primPhase, Scatter.hgExpr, Scatter.angleExpr, volA, Expr.free]
  · refine ⟨fun _ => 0, 0, 0, ?_⟩
    unfold Scatter.expansionAt Scatter.legExpansion
    simp [Scatter.ncoefs, okb, hN]

end

end RT1
