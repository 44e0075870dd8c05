import Verif.Spec.HemFigure
import Verif.Lemmas.HemFigureL
import Verif.Props.HemReflect

/-!
# C88: the figure of the hemispherical reflectance
-/

namespace RT1

noncomputable section
open Classical Filter

/-- The figure is drawn from the array that is returned otherwise. -/
theorem hem_split {r : EvenRule} {src : HemSource} {pd : Dict} {g : HemArgs} {w : World} (hw : Reachable w)
    (he : src.Exists w) {out : HemOut} (h : (hemreflect r src pd g w).1 = .ok out) :
    ∃ N, src.Norm pd w N ∧ g.step ≠ 0 ∧ ∀ pts, (hemFigure r src pd g pts w).1 = hemDraw pts g.degrees N out.sol := by
  have key : ∀ {b s N}, hemLoop r b s pd N g = .ok out → g.step ≠ 0 ∧
      ∀ pts, hemFigLoop r b s pd N g pts = hemDraw pts g.degrees N out.sol := by
    intro b s N hl
    have hs := hemLoop_step hl
    refine ⟨hs, fun pts => ?_⟩
    unfold hemFigLoop
    rw [hl, okb, arange_degrees hs, okb]
  cases src with
  | R id =>
    obtain ⟨o, ho⟩ := he id rfl
    rw [hemreflect_R r hw.inv ho] at h
    cases hN : Fresh.par w.backend o .NormBRDF with
    | error e => rw [hN] at h; cases h
    | ok N =>
      rw [hN, okb] at h
      obtain ⟨hs, hk⟩ := key h
      refine ⟨N, ?_, hs, fun pts => ?_⟩
      · show (Self.evalParam id .NormBRDF w).1 = .ok N
        rw [evalParam_eq hw.inv ho, hN]
      · rw [hemFigure_R r hw.inv ho, hN, okb, hk]
  | SRF s =>
    have hl : ∀ {α : Type} (x : Py α), ((liftPy x : M α) w).1 = x := fun x => by cases x <;> rfl
    have h' : hemLoop r w.backend s pd ((pd.get? "NormBRDF").getD (Arr.lit 1)) g = .ok out :=
      (hl _).symm.trans h
    obtain ⟨hs, hk⟩ := key h'
    refine ⟨(pd.get? "NormBRDF").getD (Arr.lit 1), ?_, hs, fun pts => (hl _).trans (hk pts)⟩
    show pd.get? "NormBRDF" = some _ ∨ _
    cases pd.get? "NormBRDF" with
    | some a => exact .inl rfl
    | none => exact .inr ⟨rfl, rfl⟩
  | none => cases h

theorem degrees_length (g : HemArgs) : g.degrees.length = g.count := by simp [HemArgs.degrees]

/-- If the reflectance is one number per incidence angle, the figure shows exactly the numbers that are returned
with `returnarray=True`: one line with all points, labelled with the value of NormBRDF, and the same points in red
if they are wanted.  The vertical axis ends 10 % above the largest number, so no number that is not negative is cut
off. -/
theorem C88_curve {r : EvenRule} {src : HemSource} {pd : Dict} {g : HemArgs} {w : World} (hw : Reachable w)
    (he : src.Exists w) {out : HemOut} (h : (hemreflect r src pd g w).1 = .ok out) {m : ℕ} {v : ℕ → ℝ}
    (hr : out.Reports m v) (hm : m = g.count) (h0 : 0 < m) (pts : Bool) :
    ∃ fig N line, (hemFigure r src pd g pts w).1 = .ok fig ∧ src.Norm pd w N ∧ line.Shows g m v ∧
      line.label = some N.entries ∧
      fig.lines = line :: (if pts then [{ line with label := none }] else []) ∧
      (∃ k < m, fig.top = 1.1 * v k ∧ ∀ j < m, v j ≤ v k) ∧
      ∀ k < m, 0 ≤ v k → fig.Visible (v k) := by
  subst hm
  obtain ⟨N, hN, hs, hd⟩ := hem_split hw he h
  obtain ⟨h1, h2, -⟩ := hr
  obtain ⟨k, hk, hmax, hle⟩ := npMax_fin h1 h0 h2
  have hys : (List.range g.count).map (fun j => out.sol.get [j]) = (List.range g.count).map fun j => XR.fin (v j) :=
    List.map_congr_left fun j hj => h2 j (List.mem_range.mp hj)
  have hl : hemDraw pts g.degrees N out.sol = .ok
      ⟨⟨some N.entries, g.degrees, (List.range g.count).map fun j => XR.fin (v j)⟩ ::
        (if pts then [⟨none, g.degrees, (List.range g.count).map fun j => XR.fin (v j)⟩] else []), v k * 1.1⟩ := by
    unfold hemDraw hemLines
    rw [if_neg (by rw [h1]; simp), hemPlot_one (by rw [h1, degrees_length]), degrees_length, hys]
    simp only [okb, pure, Except.pure]
    rw [hmax]
    rfl
  refine ⟨_, N, ⟨some N.entries, g.degrees, _⟩, (hd pts).trans hl, hN, ⟨rfl, rfl⟩, rfl, ?_, ⟨k, hk, by ring, hle⟩, fun j hj hp => ⟨hp, ?_⟩⟩
  · cases pts <;> rfl
  · have := hle j hj
    show v j ≤ v k * 1.1
    linarith

/-- Without any incidence angle there is an (empty) array but no figure. -/
theorem C88_empty {r : EvenRule} {src : HemSource} {pd : Dict} {g : HemArgs} {w : World} (hw : Reachable w)
    (he : src.Exists w) {out : HemOut} (h : (hemreflect r src pd g w).1 = .ok out) {v : ℕ → ℝ}
    (hr : out.Reports 0 v) (hm : g.count = 0) (pts : Bool) :
    (hemFigure r src pd g pts w).1 = .error .valueError := by
  obtain ⟨N, hN, hs, hd⟩ := hem_split hw he h
  rw [hd]
  obtain ⟨h1, -, -⟩ := hr
  unfold hemDraw hemLines
  rw [if_neg (by rw [h1]; simp), hemPlot_one (by rw [h1, degrees_length, hm])]
  simp only [okb, pure, Except.pure]
  unfold npMax
  rw [if_pos (by rw [entries_one h1]; rfl)]
  rfl

/-- A value that is nan prevents the figure (matplotlib rejects the limit of the axis). -/
theorem C88_nan {r : EvenRule} {src : HemSource} {pd : Dict} {g : HemArgs} {w : World} (hw : Reachable w)
    (he : src.Exists w) {out : HemOut} (h : (hemreflect r src pd g w).1 = .ok out)
    (hm : out.sol.shape = [g.count]) {k : ℕ} (hk : k < g.count) (hnan : out.sol.get [k] = .nan) (pts : Bool) :
    (hemFigure r src pd g pts w).1 = .error .valueError := by
  obtain ⟨N, hN, hs, hd⟩ := hem_split hw he h
  rw [hd]
  unfold hemDraw hemLines
  rw [if_neg (by rw [hm]; simp), hemPlot_one (by rw [hm, degrees_length])]
  simp only [okb, pure, Except.pure]
  rw [npMax_nan (by rw [entries_one hm]; exact List.mem_map.mpr ⟨k, List.mem_range.mpr hk, hnan⟩)]
  rfl

/-- The figure for a column of `m` values of NormBRDF. -/
theorem hem_norms {r : EvenRule} {w : World} (hw : Reachable w) {id : ℕ} {o : Obj}
    (ho : w.objs id = some o) {pd : Dict} {ρ : String → ℝ}
    (hp : pd.Numbers ρ) (hg : o.SRF.Given pd) (hphi : w.backend = .symengine ∨ "phi_ex" ∈ o.SRF.phase.free)
    {g : HemArgs} (hs : g.step ≠ 0) (hn : 0 < g.n) (hc : 0 < g.count) {f : ℝ → ℝ → ℝ → ℝ} (hf : o.SRF.Brdf g.phi0 ρ f)
    {N : Arr} {m : ℕ} {Nv : ℕ → ℝ}
    (hN : (Self.evalParam id .NormBRDF w).1 = .ok N) (hm : 0 < m) (hNs : N.shape = [1, m])
    (hNv : ∀ i < m, N.get [0, i] = XR.fin (Nv i)) (pts : Bool) {R : ℕ → ℝ}
    (hR : ∀ k, R k = simps2R r (fun t p => Real.sin t * Real.cos t * f (g.angle k) t p) (Real.pi / 2) (2 * Real.pi) g.n) :
    ∃ (out : HemOut) (fig : HemFig) (line : ℕ → HemLine), (hemreflect r (.R id) pd g w).1 = .ok out ∧ (hemFigure r (.R id) pd g pts w).1 = .ok fig ∧
      out.sol.shape = [g.count, m] ∧ (∀ k < g.count, ∀ i < m, out.sol.get [k, i] = .fin (Nv i * R k)) ∧
      (∀ i < m, (line i).Shows g g.count (fun k => Nv i * R k) ∧ (line i).label = some [.fin (Nv i)]) ∧
      fig.lines = ((List.range m).flatMap fun i => line i :: if pts then [{ line i with label := none }] else []) ∧
      ∃ k < g.count, fig.top = 1.1 * (Nv (m - 1) * R k) ∧ ∀ j < g.count, Nv (m - 1) * R j ≤ Nv (m - 1) * R k := by
  rw [evalParam_eq hw.inv ho] at hN
  obtain ⟨out, h1, h2, h3⟩ := hemLoop_norms r hp hg hphi hn hs (fun t0 t p => (hf t0 t p).eval.symm) hNs hNv
  have h3' : ∀ k < g.count, ∀ i < m, out.sol.get [k, i] = .fin (Nv i * R k) := fun k hk i hi => by
    rw [h3 k hk i hi, hR, mul_comm]
  have ha : (hemreflect r (.R id) pd g w).1 = .ok out := by rw [hemreflect_R r hw.inv ho, hN, okb, h1]
  obtain ⟨N', hN', -, hd⟩ := hem_split hw (fun i hi => by cases hi; exact ⟨o, ho⟩) ha
  have hNN : N' = N := by
    have : (Self.evalParam id .NormBRDF w).1 = .ok N' := hN'
    rw [evalParam_eq hw.inv ho, hN] at this
    simpa using this.symm
  rw [hNN] at hd
  obtain ⟨k, hk, hmax, hle⟩ := npMax_fin (a := ⟨[g.count], fun j => out.sol.get (j ++ [m - 1])⟩) rfl hc
    (v := fun k => Nv (m - 1) * R k) fun k hk => h3' k hk (m - 1) (by omega)
  refine ⟨out, ⟨_, Nv (m - 1) * R k * 1.1⟩, fun i => ⟨some [.fin (Nv i)], g.degrees,
    (List.range g.count).map fun k => .fin (Nv i * R k)⟩, ha, (hd pts).trans ?_, h2, h3', fun i hi => ⟨⟨rfl, rfl⟩, rfl⟩, rfl, k, hk, by ring, hle⟩
  unfold hemDraw
  rw [hemLines_rows hNs (by rw [h2, degrees_length]) hm, okb]
  simp only [degrees_length]
  rw [hmax, okb]
  have hfl : ((List.range m).flatMap fun i =>
      ((⟨some [N.get [0, i]], g.degrees, (List.range g.count).map fun j => out.sol.get [j, i]⟩ ::
        if pts then [⟨none, g.degrees, (List.range g.count).map fun j => out.sol.get [j, i]⟩] else []) : List HemLine)) =
      (List.range m).flatMap fun i => (⟨some [.fin (Nv i)], g.degrees, (List.range g.count).map fun k => .fin (Nv i * R k)⟩ ::
        if pts then [⟨none, g.degrees, (List.range g.count).map fun k => .fin (Nv i * R k)⟩] else []) := by
    rw [List.flatMap_def, List.flatMap_def]
    congr 1
    refine List.map_congr_left fun i hi => ?_
    have hi := List.mem_range.mp hi
    rw [hNv i hi, List.map_congr_left (g := fun k => XR.fin (Nv i * R k)) fun k hk => h3' k (List.mem_range.mp hk) i hi]
  rw [hfl]
  rfl

/-- With a column of values of NormBRDF (shape `(m, 1)`) in an object, `returnarray=True` returns one row for each
value, and the figure shows one labelled line for each row.  The vertical axis ends 10 % above the largest number of
the last row: its numbers are visible, those of the other rows if no NormBRDF exceeds the last one.  Missing: figures
in which the values of NormBRDF come in another order (see `C88_cut_negation`), parameters given as arrays. -/
theorem C88_norms_partial {r : EvenRule} {w : World} (hw : Reachable w) {id : ℕ} {o : Obj}
    (ho : w.objs id = some o) {pd : Dict} {ρ : String → ℝ}
    (hp : pd.Numbers ρ) (hg : o.SRF.Given pd) (hphi : w.backend = .symengine ∨ "phi_ex" ∈ o.SRF.phase.free)
    {g : HemArgs} (hs : g.step ≠ 0) (hn : 0 < g.n) (hc : 0 < g.count) {f : ℝ → ℝ → ℝ → ℝ} (hf : o.SRF.Brdf g.phi0 ρ f)
    {N : Arr} {m : ℕ} {Nv : ℕ → ℝ}
    (hN : (Self.evalParam id .NormBRDF w).1 = .ok N) (hm : 0 < m) (hNs : N.shape = [1, m])
    (hNv : ∀ i < m, N.get [0, i] = XR.fin (Nv i)) (pts : Bool) :
    ∃ (out : HemOut) (fig : HemFig) (line : ℕ → HemLine) (R : ℕ → ℝ), (hemreflect r (.R id) pd g w).1 = .ok out ∧ (hemFigure r (.R id) pd g pts w).1 = .ok fig ∧
      out.sol.shape = [g.count, m] ∧ (∀ k < g.count, ∀ i < m, out.sol.get [k, i] = .fin (Nv i * R k)) ∧
      (∀ i < m, (line i).Shows g g.count (fun k => Nv i * R k) ∧ (line i).label = some [.fin (Nv i)]) ∧
      fig.lines = ((List.range m).flatMap fun i => line i :: if pts then [{ line i with label := none }] else []) ∧
      (∀ k < g.count, 0 ≤ Nv (m - 1) * R k → fig.Visible (Nv (m - 1) * R k)) ∧
      ((∀ i < m, 0 ≤ Nv i ∧ Nv i ≤ Nv (m - 1)) → (∀ k < g.count, 0 ≤ R k) →
        ∀ k < g.count, ∀ i < m, fig.Visible (Nv i * R k)) := by
  obtain ⟨out, fig, line, h1, h2, h3, h4, h5, h6, k, hk, ht, hle⟩ := hem_norms (r := r) hw ho hp hg hphi hs hn hc hf hN hm hNs
    hNv pts fun k => rfl
  refine ⟨out, fig, line, _, h1, h2, h3, h4, h5, h6, fun j hj h0 => ⟨h0, ?_⟩, fun hNl hR j hj i hi =>
    ⟨mul_nonneg (hNl i hi).1 (hR j hj), ?_⟩⟩
  · rw [ht]
    linarith [hle j hj]
  · rw [ht]
    have h7 := mul_le_mul_of_nonneg_right (hNl i hi).2 (hR j hj)
    have h8 := mul_nonneg (hNl i hi).1 (hR j hj)
    linarith [hle j hj]

/-- A line whose NormBRDF exceeds the last one by more than 10 % is cut off: the largest number it shows is beyond
the end of the axis.  (The loop over the rows binds the name of the array from which the limit is computed.) -/
theorem C88_cut_negation {r : EvenRule} {w : World} (hw : Reachable w) {id : ℕ} {o : Obj}
    (ho : w.objs id = some o) {pd : Dict} {ρ : String → ℝ}
    (hp : pd.Numbers ρ) (hg : o.SRF.Given pd) (hphi : w.backend = .symengine ∨ "phi_ex" ∈ o.SRF.phase.free)
    {g : HemArgs} (hs : g.step ≠ 0) (hn : 0 < g.n) (hc : 0 < g.count) {f : ℝ → ℝ → ℝ → ℝ} (hf : o.SRF.Brdf g.phi0 ρ f)
    {N : Arr} {m : ℕ} {Nv : ℕ → ℝ}
    (hN : (Self.evalParam id .NormBRDF w).1 = .ok N) (hm : 0 < m) (hNs : N.shape = [1, m])
    (hNv : ∀ i < m, N.get [0, i] = XR.fin (Nv i)) (pts : Bool) {i : ℕ} (hi : i < m) (h0 : 0 ≤ Nv (m - 1))
    (hlt : 1.1 * Nv (m - 1) < Nv i) {R : ℕ → ℝ}
    (hR : ∀ k, R k = simps2R r (fun t p => Real.sin t * Real.cos t * f (g.angle k) t p) (Real.pi / 2) (2 * Real.pi) g.n)
    (hpos : ∃ k < g.count, 0 < R k) :
    ∃ out fig, (hemreflect r (.R id) pd g w).1 = .ok out ∧ (hemFigure r (.R id) pd g pts w).1 = .ok fig ∧
      ∃ k < g.count, ∃ y, out.sol.get [k, i] = .fin y ∧ 0 < y ∧ ¬fig.Visible y := by
  obtain ⟨out, fig, line, h1, h2, h3, h4, h5, h6, k, hk, ht, hle⟩ := hem_norms (r := r) hw ho hp hg hphi hs hn hc hf hN hm hNs
    hNv pts hR
  obtain ⟨j, hj, hmax⟩ := Finset.exists_max_image (Finset.range g.count) R ⟨0, Finset.mem_range.mpr hc⟩
  have hj' := Finset.mem_range.mp hj
  obtain ⟨q, hq, hq0⟩ := hpos
  have hRj : 0 < R j := lt_of_lt_of_le hq0 (hmax q (Finset.mem_range.mpr hq))
  have hNi : 0 < Nv i := by linarith
  refine ⟨out, fig, h1, h2, j, hj', _, h4 j hj' i hi, mul_pos hNi hRj, fun hv => ?_⟩
  have h7 := hv.2
  rw [ht] at h7
  have h8 := mul_le_mul_of_nonneg_left (hmax k (Finset.mem_range.mpr hk)) h0
  have h9 := mul_lt_mul_of_pos_right hlt hRj
  linarith

/-- Two values of NormBRDF: 1 and 0.5. -/
def twoNorms : Arr := ⟨[1, 2], fun i => XR.fin (if i.getD 1 0 = 0 then 1 else 1 / 2)⟩

/-- An object with a CosineLobe surface after `R.NormBRDF = np.array([[1.], [0.5]])`. -/
def normsW (b : Backend) (i : ℕ) : World :=
  (step (.setParamDef 0 .NormBRDF (.val twoNorms))
    (numW b isoV (.prim (.srfCosineLobe (i + 1)) srfA (some 3)) false true false 1 1 0 1 0.3 1)).2

theorem norms_reachable (b : Backend) (i : ℕ) : Reachable (normsW b i) :=
  (num_reachable ..).step trivial

theorem setParamDef_objs (w : World) (p : PName) (d : PDef) :
    (step (.setParamDef 0 p d) w).2.objs 0 = (w.objs 0).map fun o => { o with pdef := Function.update o.pdef p d } := by
  show Function.update w.objs 0 ((w.objs 0).map _) 0 = _
  rw [Function.update_self]

theorem norms_objs (b : Backend) (i : ℕ) : ∃ o, (normsW b i).objs 0 = some o ∧
    o.SRF = .prim (.srfCosineLobe (i + 1)) srfA (some 3) ∧ o.pdef .NormBRDF = .val twoNorms := by
  unfold normsW
  refine ⟨{ numObj isoV (.prim (.srfCosineLobe (i + 1)) srfA (some 3)) false true false 1 1 0 1 0.3 1 with
    pdef := Function.update (numObj isoV (.prim (.srfCosineLobe (i + 1)) srfA (some 3)) false true false 1 1 0 1 0.3 1).pdef
      .NormBRDF (.val twoNorms) }, ?_, rfl, by simp⟩
  rw [setParamDef_objs, num_objs]
  rfl

/-- `hemreflect(R=R)` for this object with sufficiently many points: the maximum of the line for NormBRDF = 1 is not
visible. -/
theorem C88_cut_counterexample (r : EvenRule) (b : Backend) (i : ℕ) (pts : Bool) :
    ∃ n out fig, (hemreflect r (.R 0) [] { n := n } (normsW b i)).1 = .ok out ∧
      (hemFigure r (.R 0) [] { n := n } pts (normsW b i)).1 = .ok fig ∧
      ∃ k < 18, ∃ y, out.sol.get [k, 0] = .fin y ∧ 0 < y ∧ ¬fig.Visible y := by
  obtain ⟨o, ho, hS, hN⟩ := norms_objs b i
  have hg : (Scatter.prim (.srfCosineLobe (i + 1)) srfA (some 3)).Given [] := by
    intro n hn
    simp [Scatter.phase, Scatter.primPhase, Scatter.angleExpr, srfA, Expr.free] at hn
    aesop
  have hp : Dict.Numbers [] fun _ => 0 := fun k a h => by cases h
  have hd : ∀ n, HemArgs.count { n := n } = 18 := by
    intro n
    unfold HemArgs.count
    norm_num
  have hb := Kind.brdf (p0 := 0) (t := 1 / 2) (ρ := fun _ => 0) hg (fun _ _ _ => srfA_is _) (fun _ _ _ => trivial) (by simp)
    (by simp) (by simp) (by rw [abs_of_pos] <;> norm_num) (fun h => h.elim)
  have ha : HemArgs.angle {} 0 = 0 := by simp [HemArgs.angle, deg2rad]
  have hlim := hem_limit r (f := fun tex pex => (Kind.srfCosineLobe (i + 1)).val 1 (1 / 2)
    (Phase.cosTheta 1 1 1 0 tex 0 pex)) ?_ 1
  swap
  · exact (Kind.srfCosineLobe (i + 1)).val_continuous (a0 := 1) (t := 1 / 2) (by rw [abs_of_pos] <;> norm_num) (cosTheta_continuous 1 1 1 0 0)
      fun q => Phase.cosTheta_abs_le (by simp) (by simp) (by simp) _ _ _ _
  rw [C40_cosineLobe (i := i + 1) (fun tex pex => hb 0 tex pex)] at hlim
  have hpos : (0 : ℝ) < 1 * (2 / (((i + 1 : ℕ) : ℝ) + 2)) := by positivity
  obtain ⟨n, hn, hn0⟩ := ((hlim.eventually (lt_mem_nhds hpos)).and (eventually_gt_atTop 0)).exists
  have hphi : (normsW b i).backend = .symengine ∨ "phi_ex" ∈ o.SRF.phase.free := by
    right; rw [hS]; simp [Scatter.phase, Scatter.primPhase, Scatter.angleExpr, Expr.free]
  have hNe : (Self.evalParam 0 .NormBRDF (normsW b i)).1 = .ok twoNorms := by
    rw [evalParam_eq (norms_reachable b i).inv ho]
    unfold Fresh.par Fresh.pfun
    rw [hN]
    rfl
  obtain ⟨out, fig, h1, h2, k, hk, h3⟩ := C88_cut_negation (r := r) (norms_reachable b i) ho hp (by rw [hS]; exact hg) hphi
    (g := { n := n }) (by norm_num) hn0 (by rw [hd]; norm_num) (by rw [hS]; exact hb) hNe (m := 2) (Nv := fun i => if i = 0 then 1 else 1 / 2)
    (by norm_num) rfl (fun i _ => by simp [twoNorms]) pts (i := 0) (by norm_num) (by norm_num) (by norm_num) (fun k => rfl)
    ⟨0, by rw [hd]; norm_num, by
      have : HemArgs.angle { n := n } 0 = 0 := by simp [HemArgs.angle, deg2rad]
      rw [this]
      simpa using hn⟩
  exact ⟨n, out, fig, h1, h2, k, by rwa [hd] at hk, h3⟩

/-- The default call for a CosineLobe function meets the hypotheses of `C88_curve`; the object above those of
`C88_norms_partial`. -/
example (r : EvenRule) (b : Backend) (i : ℕ) (pts : Bool) :
    (∃ fig v, (hemFigure r (.SRF (.prim (.srfCosineLobe (i + 1)) srfA none)) [] {} pts (normsW b i)).1 = .ok fig ∧
      ∃ line, fig.lines = line :: (if pts then [{ line with label := none }] else []) ∧ line.Shows {} 18 v) ∧
    ∃ (out : HemOut) (fig : HemFig) (line : ℕ → HemLine) (R : ℕ → ℝ),
      (hemreflect r (.R 0) [] {} (normsW b i)).1 = .ok out ∧ (hemFigure r (.R 0) [] {} pts (normsW b i)).1 = .ok fig ∧
      (∀ j < 2, (line j).Shows {} 18 fun k => (if j = 0 then 1 else 1 / 2) * R k) := by
  have hd : HemArgs.count {} = 18 := by
    unfold HemArgs.count
    norm_num
  have hp : Dict.Numbers [] fun _ => 0 := fun k a h => by cases h
  constructor
  · obtain ⟨v, h1, -⟩ := C70_nadir r (normsW b i) i none
    obtain ⟨out, h2, h3⟩ := h1 1000 (by norm_num)
    obtain ⟨fig, N, line, h4, -, h5, -, h6, -⟩ := C88_curve (norms_reachable b i)
      (src := .SRF (.prim (.srfCosineLobe (i + 1)) srfA none)) (fun id h => by cases h)
      (by rw [show (({ n := 1000 } : HemArgs)) = {} from rfl] at h2; exact congrArg Prod.fst h2) h3 hd.symm (by norm_num) pts
    exact ⟨fig, _, h4, line, h6, h5⟩
  · obtain ⟨o, ho, hS, hN⟩ := norms_objs b i
    have hg : (Scatter.prim (.srfCosineLobe (i + 1)) srfA (some 3)).Given [] := by
      intro n hn
      simp [Scatter.phase, Scatter.primPhase, Scatter.angleExpr, srfA, Expr.free] at hn
      aesop
    have hb := Kind.brdf (p0 := 0) (t := 1 / 2) (ρ := fun _ => 0) hg (fun _ _ _ => srfA_is _) (fun _ _ _ => trivial) (by simp)
      (by simp) (by simp) (by rw [abs_of_pos] <;> norm_num) (fun h => h.elim)
    have hphi : (normsW b i).backend = .symengine ∨ "phi_ex" ∈ o.SRF.phase.free := by
      right; rw [hS]; simp [Scatter.phase, Scatter.primPhase, Scatter.angleExpr, Expr.free]
    have hNe : (Self.evalParam 0 .NormBRDF (normsW b i)).1 = .ok twoNorms := by
      rw [evalParam_eq (norms_reachable b i).inv ho]
      unfold Fresh.par Fresh.pfun
      rw [hN]
      rfl
    obtain ⟨out, fig, line, R, h1, h2, -, -, h3, -⟩ := C88_norms_partial (r := r) (norms_reachable b i) ho hp
      (by rw [hS]; exact hg) hphi (g := {}) (by norm_num) (by norm_num) (by rw [hd]; norm_num) (by rw [hS]; exact hb) hNe
      (m := 2) (Nv := fun i => if i = 0 then 1 else 1 / 2) (by norm_num) rfl (fun i _ => by simp [twoNorms]) pts
    rw [hd] at h3
    exact ⟨out, fig, line, R, h1, h2, fun j hj => (h3 j hj).1⟩

end

end RT1
