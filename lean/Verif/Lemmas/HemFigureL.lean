import Verif.Model.HemFigure
import Verif.Lemmas.HemL
import Verif.Lemmas.Frame3

/-!
Lemmas about the figure of the hemispherical reflectance.
-/

namespace RT1

noncomputable section
open Classical

/-- The incidence angles in degrees. -/
def HemArgs.degrees (g : HemArgs) : List ℝ := (List.range g.count).map fun (k : ℕ) => g.tmin + k * g.step

theorem arange_degrees {g : HemArgs} (hs : g.step ≠ 0) : arange g.tmin g.tmax g.step = .ok g.degrees := by
  unfold arange; rw [if_neg hs]; rfl

theorem hemLoop_step {r : EvenRule} {b : Backend} {s : Scatter} {pd : Dict} {N : Arr} {g : HemArgs} {out : HemOut}
    (h : hemLoop r b s pd N g = .ok out) : g.step ≠ 0 := by
  intro h0
  unfold hemLoop arange at h
  rw [if_pos h0] at h
  cases h

/-- The integrals, for all incidence angles, before they are multiplied with NormBRDF. -/
theorem hemLoop_stack (r : EvenRule) {b : Backend} {s : Scatter} {pd : Dict} {ρ : String → ℝ} (hp : pd.Numbers ρ)
    (hgv : s.Given pd) (hphi : b = .symengine ∨ "phi_ex" ∈ s.phase.free) {g : HemArgs} (hn : 0 < g.n) (hs : g.step ≠ 0)
    {f : ℝ → ℝ → ℝ → ℝ}
    (hf : ∀ t0 t p, s.phase.evalX (fun k => XR.fin (Dirs.env ⟨t0, t, g.phi0, p, ρ⟩ k)) = XR.fin (f t0 t p)) :
    ∃ st : Arr, st.shape = [g.count] ∧
      (∀ k < g.count, st.get [k] = XR.fin (simps2R r (fun t p => Real.sin t * Real.cos t * f (g.angle k) t p)
        (Real.pi / 2) (2 * Real.pi) g.n)) ∧
      ∀ N, hemLoop r b s pd N g = (Arr.mul st N >>= fun sol =>
        pure ⟨sol, ∃ i, Arr.Valid sol.shape i ∧ (sol.get i).gtOne⟩) := by
  have hr := arange_degrees hs
  have hval := fun t0 => hemAt_value r hp hgv hphi hn (f := f t0) (hf t0)
  obtain ⟨l, hl⟩ := mapM_each (f := fun d => hemAt r b s pd g.n g.phi0 (deg2rad d))
    (l := g.degrees) fun d _ => by
      obtain ⟨a, ha, -⟩ := hval (deg2rad d)
      exact ⟨a, ha⟩
  have h2 := mapM_ok hl
  have hlen : l.length = g.count := by rw [← h2.length_eq]; simp [HemArgs.degrees]
  have hk : ∀ k < g.count, ∃ a, l[k]? = some a ∧ hemAt r b s pd g.n g.phi0 (g.angle k) = .ok a := by
    intro k hk
    have h3 := (List.forall₂_iff_get.mp h2).2 k (by simpa [HemArgs.degrees] using hk) (by omega)
    refine ⟨l[k]'(by omega), by simp [hlen, hk], ?_⟩
    simpa [HemArgs.angle, HemArgs.degrees] using h3
  have hget : ∀ k < g.count, ∃ a : Arr, l[k]? = some a ∧ a.shape = [] ∧ a.get [] = XR.fin (simps2R r
      (fun t p => Real.sin t * Real.cos t * f (g.angle k) t p) (Real.pi / 2) (2 * Real.pi) g.n) := by
    intro k hk'
    obtain ⟨a, ha, hv⟩ := hk k hk'
    obtain ⟨a', ha', h1, h2⟩ := hval (g.angle k)
    have : a' = a := by
      have := ha'.symm.trans hv
      simpa using this
    exact ⟨a, ha, this ▸ h1, this ▸ h2⟩
  obtain ⟨st, hst, hsh, hsv⟩ := stack_scalars (l := l) fun a ha => by
    obtain ⟨k, hk', rfl⟩ := List.mem_iff_getElem.mp ha
    obtain ⟨a', h1, h2, -⟩ := hget k (by omega)
    rw [List.getElem?_eq_getElem hk'] at h1
    simp only [Option.some.injEq] at h1
    rw [h1]; exact h2
  rw [hlen] at hsh
  refine ⟨st, hsh, fun k hk' => ?_, fun N => ?_⟩
  · obtain ⟨a, h1, -, h3⟩ := hget k hk'
    rw [hsv k a h1, h3]
  · unfold hemLoop
    rw [hr]; simp only [okb]; rw [hl]; simp only [okb]; rw [hst]; rfl

/-- A column of values of NormBRDF gives one row for each. -/
theorem hemLoop_norms (r : EvenRule) {b : Backend} {s : Scatter} {pd : Dict} {ρ : String → ℝ} (hp : pd.Numbers ρ)
    (hgv : s.Given pd) (hphi : b = .symengine ∨ "phi_ex" ∈ s.phase.free) {g : HemArgs} (hn : 0 < g.n) (hs : g.step ≠ 0)
    {f : ℝ → ℝ → ℝ → ℝ}
    (hf : ∀ t0 t p, s.phase.evalX (fun k => XR.fin (Dirs.env ⟨t0, t, g.phi0, p, ρ⟩ k)) = XR.fin (f t0 t p))
    {N : Arr} {m : ℕ} {Nv : ℕ → ℝ} (hN : N.shape = [1, m]) (hNv : ∀ i < m, N.get [0, i] = XR.fin (Nv i)) :
    ∃ out, hemLoop r b s pd N g = .ok out ∧ out.sol.shape = [g.count, m] ∧
      ∀ k < g.count, ∀ i < m, out.sol.get [k, i] = XR.fin (simps2R r
        (fun t p => Real.sin t * Real.cos t * f (g.angle k) t p) (Real.pi / 2) (2 * Real.pi) g.n * Nv i) := by
  obtain ⟨st, h1, h2, h3⟩ := hemLoop_stack r hp hgv hphi hn hs hf
  have hbs : Arr.bshape st.shape N.shape = some [g.count, m] := by
    rw [h1, hN]
    by_cases hc : g.count = 1 <;> simp [Arr.bshape, hc]
  obtain ⟨sol, hsol⟩ : ∃ z, Arr.mul st N = .ok z := by
    unfold Arr.mul Arr.map2; rw [hbs]; exact ⟨_, rfl⟩
  have hss : sol.shape = [g.count, m] := by
    have := (Arr.shape_map2 hsol).symm.trans hbs
    simpa using this
  refine ⟨_, by rw [h3, hsol]; rfl, hss, fun k hk i hi => ?_⟩
  have hv : Arr.Valid sol.shape [k, i] := by rw [hss]; exact .cons hk (.cons hi .nil)
  have e1 : st.at' [k, i] = st.get [k] := by
    have hv' : Arr.Valid st.shape [k] := by rw [h1]; exact .cons hk .nil
    rw [← Arr.at'_valid hv']
    unfold Arr.at'
    rw [h1]; rfl
  have e2 : N.at' [k, i] = N.get [0, i] := by
    unfold Arr.at'
    rw [hN]
    simp only [Arr.bidx, if_true]
    by_cases hm : m = 1
    · subst hm
      have : i = 0 := by omega
      subst this; rfl
    · rw [if_neg hm]
  show sol.get [k, i] = _
  rw [← Arr.at'_valid hv, Arr.at'_map2 hsol, e1, e2, h2 k hk, hNv i hi]
  rfl

theorem hemFigure_R (r : EvenRule) {full : Bool} {w : World} (hw : Inv full w) {id : ℕ} {o : Obj}
    (ho : w.objs id = some o) (pd : Dict) (g : HemArgs) (pts : Bool) : (hemFigure r (.R id) pd g pts w).1 =
      (Fresh.par w.backend o .NormBRDF >>= fun N => hemFigLoop r w.backend o.SRF pd N g pts) := by
  have hd : During full w id o (fun _ _ => True) w := During.init hw ho trivial
  refine (?_ : Refines (During full w id o (fun _ _ => True)) (hemFigure r (.R id) pd g pts) _) w hd |>.1
  unfold hemFigure hemNorm
  simp only
  have h1 : Refines (During full w id o (fun _ _ => True)) (MonadExcept.tryCatch
      (Self.evalParam id .NormBRDF >>= fun _ => throw .attributeError) (fun _ => Self.evalParam id .NormBRDF))
      (Fresh.par w.backend o .NormBRDF) := by
    rw [← tryCatch_retry (Fresh.par w.backend o .NormBRDF)]
    exact Refines.tryCatch (Refines.bind (Refines.evalParam _) fun _ _ => Refines.throw _)
      fun _ => Refines.evalParam _
  refine Refines.bind h1 fun N _ => Refines.getObj_bind fun o' hf => Refines.getW_bind fun w' hw' => ?_
  rw [hf.SRF, hw']
  exact Refines.lift _

/-! ## The drawn lines -/

theorem entries_one {a : Arr} {n : ℕ} (h : a.shape = [n]) : a.entries = (List.range n).map fun j => a.get [j] := by
  unfold Arr.entries
  rw [h]
  simp only [Arr.idxs, List.map_flatMap, List.map_cons, List.map_nil]
  rw [List.map_eq_flatMap]

/-- The largest of finitely many numbers. -/
theorem npMax_fin {a : Arr} {n : ℕ} (h : a.shape = [n]) (hn : 0 < n) {v : ℕ → ℝ} (hv : ∀ k < n, a.get [k] = .fin (v k)) :
    ∃ k < n, npMax a = .ok (.fin (v k)) ∧ ∀ j < n, v j ≤ v k := by
  have hm : ∀ x, x ∈ a.entries ↔ ∃ k < n, x = .fin (v k) := by
    intro x
    rw [entries_one h, List.mem_map]
    constructor
    · rintro ⟨k, hk, rfl⟩
      exact ⟨k, List.mem_range.mp hk, hv k (List.mem_range.mp hk)⟩
    · rintro ⟨k, hk, rfl⟩
      exact ⟨k, List.mem_range.mpr hk, hv k hk⟩
  obtain ⟨M, h1, h2, h3⟩ := nanmax_fin (l := a.entries)
    (fun x hx => by obtain ⟨k, -, rfl⟩ := (hm x).mp hx; exact .inr ⟨_, rfl⟩) ⟨v 0, (hm _).mpr ⟨0, hn, rfl⟩⟩
  obtain ⟨k, hk, he⟩ := (hm _).mp h2
  obtain rfl : M = v k := by simpa using he
  refine ⟨k, hk, ?_, fun j hj => h3 _ ((hm _).mpr ⟨j, hj, rfl⟩)⟩
  unfold npMax
  rw [if_neg (fun h0 => by rw [h0] at h2; cases h2), if_neg, h1]
  rintro hnan
  obtain ⟨j, -, hj⟩ := (hm _).mp hnan
  cases hj

theorem npMax_nan {a : Arr} (h : XR.nan ∈ a.entries) : npMax a = .ok .nan := by
  unfold npMax
  rw [if_neg (fun h0 => by rw [h0] at h; cases h), if_pos h]

theorem axPlot_one {lab : Option (List XR)} {xs : List ℝ} {y : Arr} (h : y.shape = [xs.length]) :
    axPlot lab xs y = .ok [⟨lab, xs, (List.range xs.length).map fun j => y.get [j]⟩] := by
  unfold axPlot
  rw [h]
  simp

theorem hemPlot_one {pts : Bool} {xs : List ℝ} {lab : List XR} {y : Arr} (h : y.shape = [xs.length]) :
    hemPlot pts xs lab y = .ok (⟨some lab, xs, (List.range xs.length).map fun j => y.get [j]⟩ ::
      if pts then [⟨none, xs, (List.range xs.length).map fun j => y.get [j]⟩] else []) := by
  unfold hemPlot
  rw [axPlot_one h, axPlot_one h]
  cases pts <;> rfl

theorem mapM_map {α β : Type} {f : α → Py β} {h : α → β} {l : List α} (hf : ∀ x ∈ l, f x = .ok (h x)) :
    l.mapM f = .ok (l.map h) := by
  induction l with
  | nil => rfl
  | cons x l ih =>
    rw [List.mapM_cons, hf x (by simp), okb, ih fun y hy => hf y (by simp [hy]), okb]
    rfl

theorem item_row {a : Arr} {n m i : ℕ} (h : a.shape = [n, m]) (hi : i < m) :
    a.item i = .ok ⟨[n], fun j => a.get (j ++ [i])⟩ := by
  unfold Arr.item
  rw [h]
  simp [hi]

theorem hemLines_rows {pts : Bool} {xs : List ℝ} {N sol : Arr} {m : ℕ} (hN : N.shape = [1, m])
    (hs : sol.shape = [xs.length, m]) (hm : 0 < m) :
    hemLines pts xs N sol = .ok ((List.range m).flatMap fun i =>
      ⟨some [N.get [0, i]], xs, (List.range xs.length).map fun j => sol.get [j, i]⟩ ::
        if pts then [⟨none, xs, (List.range xs.length).map fun j => sol.get [j, i]⟩] else [],
      ⟨[xs.length], fun j => sol.get (j ++ [m - 1])⟩) := by
  unfold hemLines
  rw [if_pos (by rw [hs]; simp)]
  rw [show sol.shape.getLastD 0 = m by rw [hs]; rfl]
  rw [mapM_map (h := fun i => ((⟨some [N.get [0, i]], xs, (List.range xs.length).map fun j => sol.get [j, i]⟩ ::
        if pts then [⟨none, xs, (List.range xs.length).map fun j => sol.get [j, i]⟩] else [] : List HemLine),
        (⟨[xs.length], fun j => sol.get (j ++ [i])⟩ : Arr)))
    (fun i hi => by
      have hi := List.mem_range.mp hi
      rw [item_row hs hi, okb, item_row hN hi, okb, hemPlot_one rfl, okb]
      rfl)]
  rw [okb]
  obtain ⟨k, rfl⟩ : ∃ k, m = k + 1 := ⟨m - 1, by omega⟩
  simp [List.flatMap_map, List.range_succ, pure, Except.pure]

end

end RT1
