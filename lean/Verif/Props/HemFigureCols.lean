import Verif.Props.HemFigure
import Verif.Props.HemCols

/-!
# The figure of the hemispherical reflectance for several values of the parameters (C88)
-/

namespace RT1

noncomputable section
open Classical

theorem mapM_first_error {α β : Type} {f : α → Py β} {a : α} {l : List α} {e : PyErr} (h : f a = .error e) :
    (a :: l).mapM f = .error e := by
  rw [List.mapM_cons, h]
  rfl

theorem hemLines_first {pts : Bool} {inc : List ℝ} {N sol : Arr} {m c : ℕ} (hs : sol.shape = [m, c]) (hc : 0 < c)
    {e : PyErr} (h : (do
      let y ← sol.item 0
      let n ← N.item 0
      let ls ← hemPlot pts inc n.entries y
      pure (ls, y) : Py (List HemLine × Arr)) = .error e) : hemLines pts inc N sol = .error e := by
  unfold hemLines
  rw [if_pos (by rw [hs]; simp), hs]
  obtain ⟨c', rfl⟩ : ∃ c', c = c' + 1 := ⟨c - 1, by omega⟩
  show ((List.range (c' + 1)).mapM _ >>= _) = _
  rw [List.range_succ_eq_map, mapM_first_error (f := fun i => (do
      let y ← sol.item i
      let n ← N.item i
      let ls ← hemPlot pts inc n.entries y
      pure (ls, y) : Py (List HemLine × Arr))) (a := 0) h]
  rfl

theorem norm_unique {src : HemSource} {pd : Dict} {w : World} {N' N : Arr} (hN' : src.Norm pd w N') (hN : src.Norm pd w N) :
    N' = N := by
  cases src with
  | R id =>
    have h1 : (Self.evalParam id .NormBRDF w).1 = .ok N' := hN'
    rw [show (Self.evalParam id .NormBRDF w).1 = .ok N from hN] at h1
    cases h1
    rfl
  | SRF s =>
    rcases hN' with h1 | ⟨h1, h1'⟩ <;> rcases hN with h2 | ⟨h2, h2'⟩ <;> rw [h1] at h2 <;> cases h2
    · rfl
    · rw [h1', h2']
  | none => exact hN.elim

/-- C88 is false for parameters of the surface function given as arrays.  With `returnarray=True` such a call
returns one number per incidence angle and value of the parameters (C70_columns_partial), but the figure
cannot be drawn: TypeError if NormBRDF is a number, and in any case an exception if there are not as many values
as incidence angles. -/
theorem C88_columns_negation {r : EvenRule} {src : HemSource} {pd : Dict} {g : HemArgs} {w : World} (hw : Reachable w)
    (he : src.Exists w) {out : HemOut} (h : (hemreflect r src pd g w).1 = .ok out) {m : ℕ}
    (hm : out.sol.shape = [m, g.count]) (hc : 0 < g.count) (pts : Bool) :
    (∀ N, src.Norm pd w N → N.shape = [] → (hemFigure r src pd g pts w).1 = .error (.typeError [])) ∧
    (m ≠ g.count → ∃ e, (hemFigure r src pd g pts w).1 = .error e) := by
  obtain ⟨N, hN, hs, hd⟩ := hem_split hw he h
  have hi : out.sol.item 0 = .ok ⟨[m], fun j => out.sol.get (j ++ [0])⟩ := by
    unfold Arr.item
    rw [if_neg (by rw [hm]; simp), if_pos (by rw [hm]; exact hc), hm]
    rfl
  refine ⟨fun N' hN' h0 => ?_, fun hne => ?_⟩
  · have : N' = N := norm_unique hN' hN
    subst this
    rw [hd]
    have : hemLines pts g.degrees N' out.sol = .error (.typeError []) := by
      refine hemLines_first hm hc ?_
      rw [hi]
      show (N'.item 0 >>= _) = _
      unfold Arr.item
      rw [if_pos h0]
      rfl
    unfold hemDraw
    rw [this]
    rfl
  · rw [hd]
    have : ∃ e, hemLines pts g.degrees N out.sol = .error e := by
      cases hn : N.item 0 with
      | error e =>
        refine ⟨e, hemLines_first hm hc ?_⟩
        rw [hi, hn]
        rfl
      | ok n =>
        refine ⟨.valueError, hemLines_first hm hc ?_⟩
        rw [hi, hn]
        show (hemPlot pts g.degrees n.entries _ >>= _) = _
        unfold hemPlot axPlot
        simp only [degrees_length, if_neg hne]
        rfl
    obtain ⟨e, this⟩ := this
    exact ⟨e, by unfold hemDraw; rw [this]; rfl⟩

/-- The case is met: `HG_nadirnorm(t="t").hemreflect(param_dict={"t": np.array([[[0.1]], [[0.2]], [[0.3]]])})` draws
no figure, although the same call with `returnarray=True` returns an array with a column for each value. -/
theorem C88_columns_counterexample (r : EvenRule) {w : World} (hw : Reachable w) (pts : Bool) :
    ∃ pd out, hemreflect r (.SRF nadirT) pd {} w = (.ok out, w) ∧ out.sol.shape = [3, 18] ∧
      (hemFigure r (.SRF nadirT) pd {} pts w).1 = .error (.typeError []) := by
  obtain ⟨v, h, -⟩ := nadirT_columns r w (fun _ => 1 / 2) fun _ => by norm_num
  obtain ⟨out, h1, h2, -⟩ := h 1000 (by norm_num)
  have hd : HemArgs.count {} = 18 := by
    unfold HemArgs.count
    norm_num
  refine ⟨_, out, h1, h2, ?_⟩
  refine (C88_columns_negation hw (src := .SRF nadirT) (fun id h => by cases h) (r := r) (g := {}) (out := out)
    (by rw [show (({} : HemArgs)) = { n := 1000 } from rfl, h1]) (m := 3) (by rw [hd]; exact h2) (by rw [hd]; norm_num) pts).1
    (Arr.lit 1) (.inr ⟨by simp [Dict.get?], rfl⟩) rfl

/-- If there happen to be as many values of the parameters as incidence angles and NormBRDF has a row for each of
them, the figure is drawn, but the lines are the wrong ones: line `k` consists of the numbers for the incidence
angle `k` and all values of the parameters, drawn above the incidence angles. -/
theorem C88_transposed_negation {r : EvenRule} {src : HemSource} {pd : Dict} {g : HemArgs} {w : World} (hw : Reachable w)
    (he : src.Exists w) {out : HemOut} (h : (hemreflect r src pd g w).1 = .ok out) {v : ℕ → ℕ → ℝ}
    (hr : out.ReportsAll g.count g.count v) (hc : 0 < g.count) {N : Arr} (hN : src.Norm pd w N)
    (hNs : N.shape = [1, g.count]) :
    ∃ fig, (hemFigure r src pd g false w).1 = .ok fig ∧ fig.lines.length = g.count ∧
      ∀ k < g.count, ∃ line, fig.lines[k]? = some line ∧ line.Shows g g.count fun j => v j k := by
  obtain ⟨N', hN', -, hd⟩ := hem_split hw he h
  rw [norm_unique hN' hN] at hd
  obtain ⟨h1, h2, -⟩ := hr
  obtain ⟨k, hk, hmax, -⟩ := npMax_fin (a := ⟨[g.count], fun j => out.sol.get (j ++ [g.count - 1])⟩) rfl hc
    (v := fun k => v k (g.count - 1)) fun k hk => h2 k hk (g.count - 1) (by omega)
  refine ⟨⟨(List.range g.count).map fun i => ⟨some [N.get [0, i]], g.degrees,
    (List.range g.count).map fun j => out.sol.get [j, i]⟩, v k (g.count - 1) * 1.1⟩, (hd false).trans ?_, by simp, ?_⟩
  · unfold hemDraw
    rw [hemLines_rows hNs (by rw [h1, degrees_length]) hc, okb]
    simp only [degrees_length]
    rw [hmax, okb]
    simp only [Bool.false_eq_true, if_false]
    rw [← List.map_eq_flatMap]
    rfl
  · intro i hi
    refine ⟨_, by rw [List.getElem?_map, List.getElem?_range hi]; rfl, rfl, ?_⟩
    exact List.map_congr_left fun j hj => h2 j (List.mem_range.mp hj) i hi

/-- 18 values of NormBRDF as a column. -/
def colNorms : Arr := ⟨[1, 18], fun i => XR.fin (1 / ((i.getD 1 0 : ℝ) + 1))⟩

/-- An object with the surface `HG_nadirnorm(t="t")` after `R.NormBRDF = colNorms`. -/
def colNormsW (b : Backend) : World :=
  (step (.setParamDef 0 .NormBRDF (.val colNorms)) (numW b isoV nadirT false true false 1 1 0 1 0.3 1)).2

theorem colNorms_objs (b : Backend) : ∃ o, (colNormsW b).objs 0 = some o ∧ o.SRF = nadirT ∧
    o.pdef .NormBRDF = .val colNorms := by
  unfold colNormsW
  refine ⟨{ numObj isoV nadirT false true false 1 1 0 1 0.3 1 with
    pdef := Function.update (numObj isoV nadirT false true false 1 1 0 1 0.3 1).pdef .NormBRDF (.val colNorms) },
    ?_, rfl, by simp⟩
  rw [setParamDef_objs, num_objs]
  rfl

/-- The case is met: 18 values of `t` and the 18 default incidence angles. -/
example (r : EvenRule) (b : Backend) : ∃ pd out v fig, (hemreflect r (.R 0) pd {} (colNormsW b)).1 = .ok out ∧
    out.ReportsAll 18 18 v ∧ (hemFigure r (.R 0) pd {} false (colNormsW b)).1 = .ok fig ∧ fig.lines.length = 18 ∧
    ∀ k < 18, ∃ line, fig.lines[k]? = some line ∧ line.Shows {} 18 fun j => v j k := by
  obtain ⟨o, ho, hS, hN⟩ := colNorms_objs b
  have hw : Reachable (colNormsW b) := (num_reachable ..).step trivial
  have hd : HemArgs.count {} = 18 := by
    unfold HemArgs.count
    norm_num
  have hNe : (Self.evalParam 0 .NormBRDF (colNormsW b)).1 = .ok colNorms := by
    rw [evalParam_eq hw.inv ho]
    unfold Fresh.par Fresh.pfun
    rw [hN]
    rfl
  have h1 : |(1 / 2 : ℝ)| < 1 := by rw [abs_of_pos] <;> norm_num
  have hk : Dict.get? [("t", (⟨[1, 1, 18], fun _ => XR.fin (1 / 2)⟩ : Arr))] "t" =
      some ⟨[1, 1, 18], fun _ => XR.fin (1 / 2)⟩ := by simp [Dict.get?]
  have hp : Dict.Stacked [("t", ⟨[1, 1, 18], fun _ => XR.fin (1 / 2)⟩)] 18 fun _ _ => 1 / 2 := by
    intro k a h
    simp only [Dict.get?, List.find?_cons, List.find?_nil] at h
    by_cases hk : "t" = k
    · subst hk
      simp at h
      subst h
      exact ⟨Or.inr rfl, fun i hi => by simp [Arr.at']⟩
    · simp [hk] at h
  have hT : ∀ t0 tex pex, (Kind.srfHGnadirnorm (.sym "t")).TIs
      (Dirs.env ⟨t0, tex, 0, pex, fun _ => 1 / 2⟩) (1 / 2) := fun t0 tex pex =>
    ⟨trivial, by simp [Expr.evalR, Dirs.env]⟩
  have hg : nadirT.Given [("t", Arr.num (XR.fin 0))] := nadirT_given (by simp [Dict.keys])
  have hb := Kind.brdf (k := .srfHGnadirnorm (.sym "t")) (a := srfA) (nc := some 8) (p0 := 0) (t := 1 / 2)
    (ρ := fun _ => 1 / 2) hg (fun _ _ _ => srfA_is _) hT (by simp) (by simp) (by simp) h1
    (fun h => ⟨one_ne_zero, by norm_num⟩)
  have hcont : ∀ t0, Continuous (Function.uncurry fun tex pex =>
      Kind.val 1 (1 / 2) (Phase.cosTheta 1 1 1 t0 tex 0 pex) (Kind.srfHGnadirnorm (Expr.sym "t"))) := fun t0 =>
    Kind.val_continuous (.srfHGnadirnorm (.sym "t")) (a0 := 1) h1 (cosTheta_continuous 1 1 1 t0 0)
      fun q => Phase.cosTheta_abs_le (by simp) (by simp) (by simp) _ _ _ _
  obtain ⟨v, h3, -⟩ := C70_object_columns_partial r hw ho hp (by rw [hS]; exact nadirT_given (by simp [Dict.keys]))
    (by rw [hS]; exact Or.inr nadirT_uses.1) hk rfl (by rw [hS]; exact Or.inr nadirT_uses.2) (g := {}) (by norm_num)
    (by rw [hd]; norm_num) (fun _ => by rw [hS]; exact hb) (fun _ => hcont) hNe
    (Nv := fun _ k => 1 / ((k : ℝ) + 1)) (by rw [hd]; simp [colNorms, Arr.Fits])
    (fun i _ k _ => by simp [colNorms, Arr.at', Arr.bidx])
  obtain ⟨out, h4, h5⟩ := h3 1000 (by norm_num)
  rw [hd] at h5
  obtain ⟨fig, h6, h7, h8⟩ := C88_transposed_negation hw (src := .R 0) (r := r) (fun i hi => by cases hi; exact ⟨o, ho⟩) (g := {}) h4
    (by rw [hd]; exact h5) (by rw [hd]; norm_num) hNe (by rw [hd]; rfl)
  rw [hd] at h7 h8
  exact ⟨_, out, _, fig, h4, h5, h6, h7, h8⟩

end

end RT1
