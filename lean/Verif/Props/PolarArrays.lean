import Verif.Props.PolarPlot
import Verif.Lemmas.HemColsL
import Mathlib.Analysis.Real.Pi.Bounds

/-!
# Polar plots with arrays as parameters
-/

namespace RT1

noncomputable section
open Classical

/-! ## Specification -/

/-- The number of drawn directions. -/
def PolarCount (surf : Bool) : ℕ := if surf then 315 else 629

/-- A number, an array with one element or an array with an element for every drawn direction. -/
def Arr.PerDirection (a : Arr) (surf : Bool) : Prop := a.shape = [] ∨ a.shape = [1] ∨ a.shape = [PolarCount surf]

/-- All values are such arrays. -/
def Dict.PerDirection (d : Dict) (surf : Bool) : Prop := ∀ k a, Dict.get? d k = some a → a.PerDirection surf

/-- The values given for the direction number `i`. -/
def Dict.At (d : Dict) (i : ℕ) (ρ : String → ℝ) : Prop := ∀ k a, Dict.get? d k = some a → a.at' [i] = XR.fin (ρ k)

/-- The lines for the incidence angle `t` in degrees: as `Curve.Shows`, but with the parameter values `ρ i` for the
direction number `i`. -/
structure Curve.ShowsEach (c : Curve) (surf : Bool) (s : Scatter) (ρ : ℕ → String → ℝ) (aprox : Prop) (t : ℝ) :
    Prop where
  theta : PolarAngles surf c.theta
  arrow : c.arrow = -(t * Real.pi / 180)
  rad : ∀ i θ, c.theta[i]? = some θ → s.Returns ⟨t * Real.pi / 180, θ, 0, 0, ρ i⟩ (c.rad i)
  dashed : c.approx.isSome ↔ aprox
  approx : s.NoPolar → ∀ f, c.approx = some f → ∀ i θ, c.theta[i]? = some θ →
    s.expansionAt (Dirs.env ⟨t * Real.pi / 180, θ, 0, 0, ρ i⟩) (t * Real.pi / 180) θ 0 0 = .ok (f i)

/-! ## Lemmas -/

theorem polarAngles_length {surf : Bool} {l : List ℝ} (h : PolarAngles surf l) : l.length = PolarCount surf := by
  have h1 := Real.pi_gt_d4
  have h2 := Real.pi_lt_d4
  have key : ∀ k : ℕ, k < l.length ↔
      (if surf then -(Real.pi / 2) else 0) + k / 100 < if surf then Real.pi / 2 else 2 * Real.pi := by
    intro k
    constructor
    · intro hk
      obtain ⟨hv, hlt⟩ := (h k l[k]).mp (List.getElem?_eq_getElem hk)
      rw [← hv]; exact hlt
    · intro hk
      exact (List.getElem?_eq_some_iff.mp ((h k _).mpr ⟨rfl, hk⟩)).1
  cases surf with
  | true =>
    simp only [if_true] at key
    refine le_antisymm (not_lt.mp fun hc => ?_) (not_lt.mp fun hc => ?_)
    · have := (key 315).mp hc
      push_cast at this; linarith
    · have := (key 314).not.mp (by simp only [PolarCount, if_true] at hc; omega)
      push_cast at this; linarith
  | false =>
    simp only [Bool.false_eq_true, if_false] at key
    refine le_antisymm (not_lt.mp fun hc => ?_) (not_lt.mp fun hc => ?_)
    · have := (key 629).mp hc
      push_cast at this; linarith
    · have := (key 628).not.mp (by simp only [PolarCount, Bool.false_eq_true, if_false] at hc; omega)
      push_cast at this; linarith

theorem Arr.PerDirection.fits {a : Arr} {surf : Bool} (h : a.PerDirection surf) : Arr.Fits a.shape [PolarCount surf] := by
  rcases h with h | h | h <;> rw [h]
  · trivial
  · exact ⟨Or.inl rfl, trivial⟩
  · exact Arr.Fits.refl _

theorem Arr.PerDirection.of_fits {a : Arr} {surf : Bool} (h : Arr.Fits a.shape [PolarCount surf]) : a.PerDirection surf := by
  unfold Arr.PerDirection
  match hs : a.shape, h with
  | [], _ => exact Or.inl rfl
  | [x], h =>
    rcases h.1 with h | h
    · exact Or.inr (Or.inl (by rw [h]))
    · exact Or.inr (Or.inr (by rw [h]))
  | x :: y :: r, h =>
    have := h.length
    simp at this

theorem polarEnv_at {surf : Bool} {d : Dict} {ρ : String → ℝ} {i : ℕ} (hp : d.At i ρ) {n : String} (hn : n ∈ d.keys)
    (h1 : n ≠ "theta_0") (h2 : n ≠ "theta_ex") (h3 : n ≠ "phi_0") (h4 : n ≠ "phi_ex") (h5 : n ≠ "theta_s")
    (h6 : n ≠ "phi_s") (t0 t : ℝ) : polarEnv surf d t0 t i n = ρ n := by
  obtain ⟨a, ha⟩ := Dict.get?_of_mem hn
  have hv : a.at' [i] = XR.fin (ρ n) := hp n a ha
  unfold polarEnv
  cases surf <;> simp [h1, h2, h3, h4, h5, h6, ha, hv]

theorem polarExpansion_at {surf : Bool} {s : Scatter} {d : Dict} {ρ : String → ℝ} {i : ℕ} (hp : d.At i ρ)
    (hg : s.Given d) (hs : s.NoPolar) {t0 t v : ℝ}
    (h : polarExpansion s (polarEnv surf d t0 t i) t0 t = .ok v) :
    s.expansionAt (Dirs.env ⟨t0, t, 0, 0, ρ⟩) t0 t 0 0 = .ok v := by
  let x : Dirs := ⟨t0, t, 0, 0, ρ⟩
  let ρ' : String → ℝ := fun n => if n = "theta_0" ∨ n = "theta_ex" ∨ n = "phi_0" ∨ n = "phi_ex" ∨ n = "theta_s" ∨
    n = "phi_s" then x.env n else polarEnv surf d t0 t i n
  have hP : ∀ e : Expr, e.NoPolar → e.evalR (polarEnv surf d t0 t i) = e.evalR ρ' := fun e he =>
    Expr.evalR_congr fun n hn => by
      obtain ⟨h1, h2, h3, h4, h5, h6⟩ := he n hn
      simp only [ρ', h1, h2, h3, h4, h5, h6, or_self, if_false]
  have h' : s.expansionAt (polarEnv surf d t0 t i) t0 t 0 0 = .ok v := h
  rw [Scatter.Over.expansionAt (P := Expr.NoPolar) (ρ' := ρ') (t0' := t0) (tex' := t) (p0' := 0) (pex' := 0) hP
    (fun a ha => ⟨hP _ ha.1, by
      unfold Scatter.angleR
      simp only
      rw [hP _ ha.1, hP _ ha.2.1, hP _ ha.2.2]⟩) hs] at h'
  refine Scatter.expansion_congr (fun n hn => ?_) h'
  by_cases hc : n = "theta_0" ∨ n = "theta_ex" ∨ n = "phi_0" ∨ n = "phi_ex" ∨ n = "theta_s" ∨ n = "phi_s"
  · simp only [ρ', if_pos hc, x]
  · simp only [ρ', if_neg hc]
    simp only [not_or] at hc
    obtain ⟨h1, h2, h3, h4, h5, h6⟩ := hc
    have hk : n ∈ d.keys := by
      have := hg n hn
      simpa [h1, h2, h3, h4] using this
    rw [polarEnv_at hp hk h1 h2 h3 h4 h5 h6]
    simp [Dirs.env, h1, h2, h3, h4]

theorem polarCurve_each {b : Backend} {surf : Bool} {s : Scatter} {kept aprox : Bool} {d : Dict} {ρ : ℕ → String → ℝ}
    (hp : ∀ i, i < PolarCount surf → d.At i (ρ i)) (hg : s.Given d) {grid : List ℝ} (hgrid : PolarAngles surf grid) {t : ℝ} {c : Curve}
    (he : aprox = true → ∃ v, polarExpansion s (fun _ => 0) 0 0 = .ok v)
    (h : polarCurve b surf s kept aprox d grid (deg2rad t) = .ok c) : c.ShowsEach surf s ρ (aprox = true) t := by
  have ht : deg2rad t = t * Real.pi / 180 := by unfold deg2rad; ring
  have hcount : ∀ {i : ℕ} {θ : ℝ}, grid[i]? = some θ → i < PolarCount surf := fun hi => by
    rw [← polarAngles_length hgrid]; exact (List.getElem?_eq_some_iff.mp hi).1
  unfold polarCurve at h
  obtain ⟨rad, hrad, h⟩ := ok_bind h
  obtain ⟨_, hsh, h⟩ := ok_bind h
  have hrs : rad.shape = [grid.length] := by
    unfold polarShape at hsh
    split_ifs at hsh with hs
    exact hs
  have hret : ∀ i θ, grid[i]? = some θ → s.Returns ⟨t * Real.pi / 180, θ, 0, 0, ρ i⟩ (rad.get [i]) := by
    intro i θ hi
    rw [ht] at hrad
    refine ⟨b, _, _, _, _, d, rad, [i], hrad, ?_, rfl, grid_at hi, rfl, rfl, fun k a hk => ?_, rfl⟩
    · rw [hrs]; exact .cons (List.getElem?_eq_some_iff.mp hi).1 .nil
    · exact hp i (hcount hi) k a hk
  by_cases ha : aprox = true
  · rw [if_pos ha] at h
    obtain ⟨f, hf, h⟩ := ok_bind h
    simp only [Except.ok.injEq] at h
    subst h
    refine ⟨hgrid, by rw [ht], hret, by simp [ha], fun hs f' hf' i θ hi => ?_⟩
    simp only [Option.some.injEq] at hf'
    subst hf'
    unfold polarApprox at hf
    split at hf
    · cases hf
    · obtain ⟨_, -, hf⟩ := ok_bind hf
      simp only [Except.ok.injEq] at hf
      subst hf
      obtain ⟨v, hv⟩ := he ha
      obtain ⟨v', hv'⟩ := polarExpansion_ok hv (polarEnv surf d (deg2rad t) (grid.getD i 0) i) (deg2rad t) (grid.getD i 0)
      simp only [hv']
      have hθ : grid.getD i 0 = θ := by simp [List.getD, show grid[i]? = some θ from hi]
      rw [hθ, ht] at hv'
      exact polarExpansion_at (hp i (hcount hi)) hg hs hv'
  · rw [if_neg ha] at h
    simp only [Except.ok.injEq] at h
    subst h
    exact ⟨hgrid, by rw [ht], hret, by simp [ha], fun _ f' hf' => by cases hf'⟩

/-! ## C71 for arrays -/

/-- What a successful call draws if parameters are given as arrays: in the direction number `i` the function with the
elements number `i` of the arrays. -/
theorem C71_arrays {b : Backend} {kept surf : Bool} {s : Scatter} {src : PolarSrc} (hs : src.Is surf s) {g : PolarArgs}
    {inc : List ℝ} (hi : g.inc = some inc) {ρ : Dict → ℕ → String → ℝ}
    (hp : ∀ d ∈ g.params.toList, ∀ i, i < PolarCount surf → d.At i (ρ d i))
    {out : PolarOut} (h : polarplot b kept src g = .ok out) :
    (out.warned = true ↔ g.aprox = true ∧ ¬∃ n, s.ncoefs = .ok n) ∧
    ∃ l : List (List Curve), out.curves = l.flatten ∧
      List.Forall₂ (fun d cs => List.Forall₂ (fun t c =>
        Curve.ShowsEach c surf s (ρ d) (g.aprox = true ∧ ∃ n, s.ncoefs = .ok n) t) inc cs) g.params.toList l := by
  have hm : g.multipFloat = true := by
    by_contra hm
    unfold polarplot at h
    rw [hi] at h
    simp only [if_neg hm] at h
    cases h
  rw [polarplot_eq b kept hs hi hm] at h
  obtain ⟨l, hl, h⟩ := ok_bind h
  simp only [Except.ok.injEq] at h
  subst h
  have hnc : s.ncoefs.toBool = true ↔ ∃ n, s.ncoefs = .ok n := by
    cases s.ncoefs <;> simp [Except.toBool]
  refine ⟨?_, ?_⟩
  · rw [← hnc]; simp
  unfold polarOne at hl
  split at hl
  · cases hl
  · rename_i hmiss
    rw [List.find?_eq_none] at hmiss
    by_cases hax : g.axPolar = true
    · rw [if_pos hax] at hl
      by_cases he : g.params.toList = []
      · rw [if_pos he] at hl; cases hl
      · rw [if_neg he] at hl
        obtain ⟨grid, hgrid, hl⟩ := ok_bind hl
        obtain ⟨ls, hls, hl⟩ := ok_bind hl
        simp only [Except.ok.injEq] at hl
        refine ⟨ls, hl.symm, ?_⟩
        obtain ⟨grid', hgrid', hang⟩ := polarGrid_ok surf
        rw [hgrid] at hgrid'
        simp only [Except.ok.injEq] at hgrid'
        subst hgrid'
        have h2 := mapM_ok hls
        have hmem : ∀ d ∈ g.params.toList, s.Given d ∧ ∀ i, i < PolarCount surf → d.At i (ρ d i) := fun d hd =>
          ⟨polarMissing_nil (by simpa using hmiss d hd), hp d hd⟩
        refine List.Forall₂.imp ?_ ((List.forall₂_and_left (p := fun d => s.Given d ∧ ∀ i, i < PolarCount surf → d.At i (ρ d i)) _ _).mpr ⟨hmem, h2⟩)
        rintro d cs ⟨⟨hgv, hnum⟩, hcs⟩
        have key : ∀ apx : Bool, (apx = true ↔ g.aprox = true ∧ ∃ n, s.ncoefs = .ok n) →
            (apx = true → ∃ v, polarExpansion s (fun _ => 0) 0 0 = .ok v) →
            inc.mapM (fun t => polarCurve b surf s kept apx d grid (deg2rad t)) = .ok cs →
            List.Forall₂ (fun t c => Curve.ShowsEach c surf s (ρ d) (g.aprox = true ∧ ∃ n, s.ncoefs = .ok n) t) inc cs := by
          intro apx hapx hex hmap
          refine List.Forall₂.imp (fun t c hc => ?_) (mapM_ok hmap)
          have := polarCurve_each hnum hgv hang hex hc
          rw [← hapx]
          exact this
        have hapx : (g.aprox && s.ncoefs.toBool) = true ↔ g.aprox = true ∧ ∃ n, s.ncoefs = .ok n := by
          rw [Bool.and_eq_true, hnc]
        unfold polarCurves at hcs
        split_ifs at hcs with hA
        · obtain ⟨v, hv, hcs⟩ := ok_bind hcs
          exact key _ hapx (fun _ => ⟨v, hv⟩) hcs
        · exact key _ hapx (fun hB => absurd hB hA) hcs
    · rw [if_neg hax] at hl; cases hl

/-- Parameters that are numbers or have one element, or one element per direction: the plot succeeds.  Partial: with
sympy the exit angle has to occur in the phase function, as in `C71_succeeds_partial`. -/
theorem C71_arrays_succeed_partial {b : Backend} {kept surf : Bool} {s : Scatter} {src : PolarSrc} (hs : src.Is surf s)
    {g : PolarArgs} (hi : g.inc ≠ none) (hm : g.multipFloat = true) (hax : g.axPolar = true)
    (hne : g.params.toList ≠ []) (hp : ∀ d ∈ g.params.toList, d.PerDirection surf)
    (hall : ∀ d ∈ g.params.toList, ∀ n, s.Needs n → n ∈ d.keys)
    (hu : b = .symengine ∨ "theta_ex" ∈ s.phase.free)
    (ha : g.aprox = true → ∀ n, s.ncoefs = .ok n → (b = .symengine ∨ kept = true) ∧
      ∃ ρ t0 t v, s.expansionAt ρ t0 t 0 0 = .ok v) :
    ∃ out, polarplot b kept src g = .ok out := by
  obtain ⟨inc, hi⟩ := Option.ne_none_iff_exists'.mp hi
  rw [polarplot_eq b kept hs hi hm]
  have hfind : g.params.toList.find? (fun d => polarMissing s d ≠ []) = none := by
    rw [List.find?_eq_none]
    intro d hd
    simp only [ne_eq, decide_not, Bool.not_eq_true', decide_eq_false_iff_not, not_not]
    rw [List.eq_nil_iff_forall_not_mem]
    intro n hn
    obtain ⟨h1, h2⟩ := polarMissing_mem.mp hn
    exact h2 (hall d hd n h1)
  obtain ⟨grid, hgrid, hang⟩ := polarGrid_ok surf
  have hlen := polarAngles_length hang
  have hcurves : ∀ d ∈ g.params.toList, ∃ cs,
      polarCurves b surf s kept (g.aprox && s.ncoefs.toBool) inc grid d = .ok cs := by
    intro d hd
    have hnum : ∀ k a, Dict.get? d k = some a → Arr.Fits a.shape [grid.length] := by
      rw [hlen]; exact fun k a hk => (hp d hd k a hk).fits
    have hgv : s.Given d := polarMissing_nil (by
      have := List.find?_eq_none.mp hfind d hd
      simpa using this)
    have hcurve : ∀ apx : Bool, (apx = true → b = .symengine ∨ kept = true) → ∀ t0 : ℝ,
        ∃ c, polarCurve b surf s kept apx d grid t0 = .ok c := by
      intro apx hk t0
      obtain ⟨rad, hrad, hfit⟩ := Scatter.calcVal_succ (b := b) (S := [grid.length]) hgv (a1 := Arr.lit t0)
        (a2 := ⟨[grid.length], fun i => XR.fin (grid.getD (i.getD 0 0) 0)⟩) (a3 := Arr.lit 0) (a4 := Arr.lit 0)
        trivial (Arr.Fits.refl _) trivial trivial hnum
      have hsh : rad.shape = [grid.length] := hfit.antisymm (Scatter.calcVal_theta hrad hu)
      unfold polarCurve
      rw [hrad]
      simp only [okb]
      have hps : polarShape grid.length rad.shape = .ok () := by unfold polarShape; rw [if_pos hsh]
      rw [hps]
      simp only [okb]
      by_cases hA : apx = true
      · rw [if_pos hA]
        have hb : Arr.bshapes ((if b = .symengine ∨ kept = true then [[grid.length]] else []) ++
            d.keys.filterMap fun k => (Dict.get? d k).map Arr.shape) = some [grid.length] := by
          rw [if_pos (hk hA)]
          obtain ⟨u, hu1, hu2⟩ := Arr.bshapes_of_fits (u := [grid.length]) (l := [[grid.length]] ++
            d.keys.filterMap fun k => (Dict.get? d k).map Arr.shape) (by
              intro t ht
              rcases List.mem_append.mp ht with ht | ht
              · rw [List.mem_singleton.mp ht]; exact Arr.Fits.refl _
              · obtain ⟨k, -, hk⟩ := List.mem_filterMap.mp ht
                obtain ⟨a, ha, rfl⟩ := Option.map_eq_some_iff.mp hk
                exact hnum k a ha)
          have := Arr.bshapes_fits hu1 (List.mem_append_left _ (List.mem_singleton.mpr rfl))
          rw [hu1, hu2.antisymm this]
        unfold polarApprox
        rw [hb]
        simp only
        have hps' : polarShape grid.length [grid.length] = .ok () := by unfold polarShape; rw [if_pos rfl]
        rw [hps']
        exact ⟨_, rfl⟩
      · rw [if_neg hA]; exact ⟨_, rfl⟩
    unfold polarCurves
    by_cases hA : (g.aprox && s.ncoefs.toBool) = true
    · rw [if_pos hA]
      rw [Bool.and_eq_true] at hA
      obtain ⟨n, hn⟩ : ∃ n, s.ncoefs = .ok n := by
        cases hn : s.ncoefs with
        | ok n => exact ⟨n, rfl⟩
        | error e => rw [hn] at hA; simp [Except.toBool] at hA
      obtain ⟨hk, ρ', t0, t, v, hv⟩ := ha hA.1 n hn
      have hv' : polarExpansion s ρ' t0 t = .ok v := hv
      obtain ⟨v0, hv0⟩ := polarExpansion_ok hv' (fun _ => 0) 0 0
      rw [hv0]
      simp only [okb]
      exact mapM_each fun t _ => hcurve _ (fun _ => hk) _
    · rw [if_neg hA]
      exact mapM_each fun t _ => hcurve _ (fun h => absurd h hA) _
  obtain ⟨ls, hls⟩ := mapM_each hcurves
  unfold polarOne
  rw [hfind]
  simp only [if_pos hax, if_neg hne, hgrid, okb, hls]
  exact ⟨_, rfl⟩

/-- A parameter that the function uses (for symengine: any parameter in the dictionary) has another shape: the plot
fails. -/
theorem C71_arrays_negation {b : Backend} {kept surf : Bool} {s : Scatter} {src : PolarSrc} (hs : src.Is surf s) {g : PolarArgs}
    {inc : List ℝ} (hi : g.inc = some inc) (hinc : inc ≠ []) {d : Dict} (hd : d ∈ g.params.toList)
    {k : String} {a : Arr} (hk : Dict.get? d k = some a)
    (hu : b = .symengine ∨ k ∈ s.phase.free) (hsh : ¬a.PerDirection surf) (out : PolarOut) : polarplot b kept src g ≠ .ok out := by
  intro h
  have hm : g.multipFloat = true := by
    by_contra hm
    unfold polarplot at h
    rw [hi] at h
    simp only [if_neg hm] at h
    cases h
  rw [polarplot_eq b kept hs hi hm] at h
  obtain ⟨l, hl, h⟩ := ok_bind h
  unfold polarOne at hl
  split at hl
  · cases hl
  rename_i hmiss
  rw [List.find?_eq_none] at hmiss
  by_cases hax : g.axPolar = true
  · rw [if_pos hax] at hl
    by_cases he : g.params.toList = []
    · rw [if_pos he] at hl; cases hl
    · rw [if_neg he] at hl
      obtain ⟨grid, hgrid, hl⟩ := ok_bind hl
      obtain ⟨ls, hls, hl⟩ := ok_bind hl
      have hgv : s.Given d := polarMissing_nil (by simpa using hmiss d hd)
      obtain ⟨grid', hgrid', hang⟩ := polarGrid_ok surf
      rw [hgrid] at hgrid'
      simp only [Except.ok.injEq] at hgrid'
      subst hgrid'
      obtain ⟨cs, hcs⟩ : ∃ cs, polarCurves b surf s kept (g.aprox && s.ncoefs.toBool) inc grid d = .ok cs := by
        have h2 := mapM_ok hls
        obtain ⟨n, hn, rfl⟩ := List.mem_iff_getElem.mp hd
        exact ⟨_, (List.forall₂_iff_get.mp h2).2 n hn (by rw [← h2.length_eq]; exact hn)⟩
      have key : ∀ apx : Bool, inc.mapM (fun t => polarCurve b surf s kept apx d grid (deg2rad t)) ≠ .ok cs := by
        intro apx hmap
        have h2 := mapM_ok hmap
        cases inc with
        | nil => exact hinc rfl
        | cons t ts =>
          cases h2 with
          | cons hc _ =>
            unfold polarCurve at hc
            obtain ⟨rad, hrad, hc⟩ := ok_bind hc
            obtain ⟨_, hsh', hc⟩ := ok_bind hc
            unfold polarShape at hsh'
            split_ifs at hsh' with hs'
            rcases Scatter.calcVal_shape (b := b) hgv (a1 := Arr.lit (deg2rad t))
              (a2 := ⟨[grid.length], fun i => XR.fin (grid.getD (i.getD 0 0) 0)⟩) (a3 := Arr.lit 0) (a4 := Arr.lit 0)
              with hz | ⟨z, hz, -, hz2⟩
            · rw [hrad] at hz; cases hz
            · rw [hrad] at hz
              simp only [Except.ok.injEq] at hz
              subst hz
              have := hz2 k a hk hu
              rw [hs', polarAngles_length hang] at this
              exact hsh (Arr.PerDirection.of_fits this)
      unfold polarCurves at hcs
      split_ifs at hcs
      · obtain ⟨v, hv, hcs⟩ := ok_bind hcs
        exact key _ hcs
      · exact key _ hcs
  · rw [if_neg hax] at hl; cases hl


/-- Henyey-Greenstein with an asymmetry factor for every direction is drawn; with two values it is not, although
`calc` accepts them (for the two angles of an array). -/
theorem C71_arrays_counterexample (b : Backend) (v : ℕ → ℝ) :
    (∃ out, polarplot b true (.volume (.prim (.volHG (.sym "t")) volA none))
      { params := .dict [("t", ⟨[629], fun i => XR.fin (v (i.getD 0 0))⟩)] } = .ok out) ∧
    (∀ out, polarplot b true (.volume (.prim (.volHG (.sym "t")) volA none))
      { params := .dict [("t", ⟨[2], fun i => XR.fin (v (i.getD 0 0))⟩)] } ≠ .ok out) ∧
    ∃ z, (Scatter.prim (.volHG (.sym "t")) volA none).calcVal b (Arr.lit 0) (Arr.lit 0) (Arr.lit 0) (Arr.lit 0)
      [("t", ⟨[2], fun i => XR.fin (v (i.getD 0 0))⟩)] = .ok z ∧ Arr.Fits z.shape [2] := by
  have hget : ∀ {x a : Arr} {k : String}, Dict.get? [("t", x)] k = some a → a = x := by
    intro x a k hk
    simp only [Dict.get?, List.find?_cons] at hk
    split at hk
    · simpa using hk.symm
    · simp at hk
  have hgv : ∀ x : Arr, (Scatter.prim (.volHG (.sym "t")) volA none).Given [("t", x)] := by
    intro x n h1
    simp [Scatter.phase, Scatter.primPhase, Scatter.hgExpr, Scatter.angleExpr, volA, Expr.free] at h1
    simp [Dict.keys]
    tauto
  refine ⟨?_, ?_, ?_⟩
  · refine C71_arrays_succeed_partial (surf := false) (s := .prim (.volHG (.sym "t")) volA none) rfl (by simp) rfl rfl
      (by simp [PolarParams.toList]) (fun d hd k a hk => ?_) ?_ (Or.inr ?_) fun _ n hn => ?_
    · simp only [PolarParams.toList, List.mem_singleton] at hd
      subst hd
      rw [hget hk]
      exact Or.inr (Or.inr rfl)
    · intro d hd n hn
      simp only [PolarParams.toList, List.mem_singleton] at hd
      subst hd
      have := hgv ⟨[629], fun i => XR.fin (v (i.getD 0 0))⟩ n hn.1
      obtain ⟨-, h1, h2, h3, h4⟩ := hn
      simpa [h1, h2, h3, h4] using this
    · simp [Scatter.phase, Scatter.primPhase, Scatter.hgExpr, Scatter.angleExpr, volA, Expr.free]
    · simp [Scatter.ncoefs] at hn
  · intro out
    refine C71_arrays_negation (surf := false) (s := .prim (.volHG (.sym "t")) volA none) rfl rfl (by simp)
      (d := [("t", ⟨[2], fun i => XR.fin (v (i.getD 0 0))⟩)]) (by simp [PolarParams.toList]) (k := "t")
      (a := ⟨[2], fun i => XR.fin (v (i.getD 0 0))⟩) (by simp [Dict.get?]) (Or.inr ?_) ?_ out
    · simp [Scatter.phase, Scatter.primPhase, Scatter.hgExpr, Scatter.angleExpr, volA, Expr.free]
    · simp [Arr.PerDirection, PolarCount]
  · exact Scatter.calcVal_succ (hgv _) trivial trivial trivial trivial fun k a hk => by
      rw [hget hk]; exact Arr.Fits.refl _

end

end RT1
