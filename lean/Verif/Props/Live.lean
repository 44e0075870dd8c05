import Verif.Lemmas.Live
import Verif.Lemmas.PhaseVal
import Verif.Lemmas.HemL

/-! Programs that change the attributes of scattering functions (C83). -/

namespace RT1

noncomputable section
open Classical Live

/-- The Rayleigh function, both directions at nadir. -/
theorem rayleigh_nadir (b : Backend) (a0 : ℝ) (nc : Option ℕ) : ∃ r, (Scatter.prim .volRayleigh ⟨.num a0, .num 1, .num 1⟩ nc).calcVal b
    (Arr.lit 0) (Arr.lit 0) (Arr.lit 0) (Arr.lit 0) [] = .ok r ∧ r.at' [] = XR.fin (3 / (16 * Real.pi) * (1 + a0 ^ 2)) := by
  have hf : Arr.Fits (Arr.lit 0).shape [] := by show Arr.Fits [] []; simp [Arr.Fits]
  obtain ⟨r, hr, -⟩ := Scatter.calcVal_succ (b := b) (s := .prim .volRayleigh ⟨.num a0, .num 1, .num 1⟩ nc) (pd := []) (S := [])
    (by
      intro n hn
      simp [Scatter.phase, Scatter.primPhase, Scatter.angleExpr, Expr.free] at hn
      simp only [List.mem_append, List.mem_cons]
      tauto) hf hf hf hf (fun k a h => by cases h)
  refine ⟨r, hr, ?_⟩
  let x : Dirs := ⟨0, 0, 0, 0, fun _ => 0⟩
  have h1 := PW.calcVal' (b := b) (idx := []) (.prim .volRayleigh ⟨.num a0, .num 1, .num 1⟩ nc) (E := fun n => XR.fin (x.env n)) (by
    intro n hn
    rcases hn with hn | hn
    · simp only [List.mem_cons, List.not_mem_nil, or_false] at hn
      rcases hn with rfl | rfl | rfl | rfl <;> simp [angEnv, Dirs.env, x]
    · cases hn) r hr
  rw [h1]
  have h2 := (rayleigh_is (x := x) (a := ⟨.num a0, .num 1, .num 1⟩) ⟨.num a0, .num 1, .num 1⟩).evalX
  have h3 : x.cosTheta a0 1 1 = a0 := by simp [Dirs.cosTheta, Phase.cosTheta, x]
  rw [h3] at h2
  exact h2

/-- A change of an attribute takes effect: an evaluation with parameter names that have not been used with this
scattering function before gives the value for the current attributes of the function and its parts. -/
theorem C83_takes_effect_partial {b : Backend} {ops : List LOp} (hs : Sound 0 ops) {i : ℕ} {s : Scatter} (h : Means ops i s) {pd : Dict}
    (hn : (i, pd.keys) ∉ evaluated ops) (t0 tex p0 pex : Arr) :
    (evalFn i t0 tex p0 pex pd (exec (start b) ops)).1 = s.calcVal (selected b ops) t0 tex p0 pex pd := by
  rw [evalFn_new (find_run hn rfl) (h.scatterOf hs), backend_run]
  rfl

/-- A function, a combination of it, then `t` of the part is changed. -/
def partOps : List LOp :=
  [.prim (.volHG (.sym "t")) volA (some 3), .lin [(.num 2, 0)] volA, .setT 0 (.num (1 / 2))]

example (t0 tex p0 pex : Arr) : (evalFn 1 t0 tex p0 pex [] (exec (start .sympy) partOps)).1 =
    (Scatter.lin [.num 2] [.prim (.volHG (.num (1 / 2))) volA (some 3)] volA).calcVal .sympy t0 tex p0 pex [] := by
  refine C83_takes_effect_partial (b := .sympy) (ops := partOps) (by simp [partOps, Sound]) (i := 1) ?_ (by simp [evaluated, partOps, LOp.evaluated]) t0 tex p0 pex
  refine Means.lin (cs := [(.num 2, 0)]) (by simp [partOps, attrs, Def.assign]) rfl fun k c s hc hk => ?_
  cases k with
  | zero =>
    cases hc; cases hk
    exact .prim (by simp [partOps, attrs, Def.assign])
  | succ k => simp at hc

/-- No change of an attribute takes effect for parameter names that have been used before (unless the function is
forgotten because of 128 others): the value is that of the attributes, and of the backend, at the first evaluation
with these names. -/
theorem C83_first_negation {b : Backend} {pre post : List LOp} {i : ℕ} {x0 x1 x2 x3 : Arr} {pd : Dict}
    (hs : Sound 0 (pre ++ .eval i x0 x1 x2 x3 pd :: post)) {s : Scatter} (h : Means pre i s) (hn : (i, pd.keys) ∉ evaluated pre) {r : Arr}
    (hr : (evalFn i x0 x1 x2 x3 pd (exec (start b) pre)).1 = .ok r) (hc : ((evaluated post).toFinset.erase (i, pd.keys)).card < 128)
    {pd' : Dict} (hk : pd'.keys = pd.keys) (t0 tex p0 pex : Arr) :
    (evalFn i t0 tex p0 pex pd' (exec (start b) (pre ++ .eval i x0 x1 x2 x3 pd :: post))).1 =
      s.calcVal (selected b pre) t0 tex p0 pex pd' := by
  have hf := find_run (h := start b) hn rfl
  have hsc := h.scatterOf (b := b) hs.left
  have hb : (exec (start b) pre).backend = selected b pre := backend_run pre (start b)
  cases hcomp : Lam.compile (selected b pre) (["theta_0", "theta_ex", "phi_0", "phi_ex"] ++ pd.keys) s.phase with
  | error e =>
    rw [evalFn_new hf hsc, hb] at hr
    unfold Scatter.calcVal at hr
    rw [hcomp] at hr; cases hr
  | ok f =>
    have hmem : (act (exec (start b) pre) (.eval i x0 x1 x2 x3 pd)).memo = LRU.put (exec (start b) pre).memo (i, pd.keys) (f, selected b pre) := by
      show (evalFn i x0 x1 x2 x3 pd (exec (start b) pre)).2.memo = _
      rw [evalFn_snd]
      unfold lambdaFunc
      rw [hf]
      dsimp only
      rw [hsc]
      dsimp only
      rw [hb, hcomp]
    have hbeh : LRU.Behind (exec (act (exec (start b) pre) (.eval i x0 x1 x2 x3 pd)) post).memo (i, pd.keys) (f, selected b pre)
        ((evaluated post).toFinset.erase (i, pd.keys)) := by
      refine behind_run (Finset.notMem_erase _ _) hc (fun k hk hne => Finset.mem_erase.mpr ⟨hne, List.mem_toFinset.mpr hk⟩) ?_
      rw [hmem]; exact LRU.behind_put _ _ _ _
    rw [Live.run_append, Live.run_cons, evalFn_old (f := (f, selected b pre)) (by rw [hk]; exact hbeh.find (Finset.notMem_erase _ _))]
    exact calcVal_of_compile (by rw [hk]; exact hcomp) t0 tex p0 pex

/-- In every program an evaluation gives the value for the attributes at some moment: now, or at an earlier evaluation with
the same names. -/
theorem C83_moment {b : Backend} {ops : List LOp} (hs : Sound 0 ops) {i : ℕ} (hi : i < created ops) (t0 tex p0 pex : Arr) (pd : Dict) :
    ∃ pre post s, ops = pre ++ post ∧ Means pre i s ∧ (post = [] ∨ ∃ e ∈ post.head?, e.evaluated = some (i, pd.keys)) ∧
      (evalFn i t0 tex p0 pex pd (exec (start b) ops)).1 = s.calcVal (selected b pre) t0 tex p0 pex pd := by
  cases hf : LRU.find (exec (start b) ops).memo (i, pd.keys) with
  | none =>
    obtain ⟨s, h⟩ := means_total hs hi
    exact ⟨ops, [], s, (List.append_nil _).symm, h, .inl rfl, by rw [evalFn_new hf (h.scatterOf hs), backend_run]; rfl⟩
  | some f =>
    obtain ⟨pre, e, post, s, e1, e2, h, e3, hc⟩ := run_from b ops hs _ _ hf
    refine ⟨pre, e :: post, s, e1, h, .inr ⟨e, rfl, e2⟩, ?_⟩
    rw [evalFn_old hf, e3]
    exact calcVal_of_compile hc t0 tex p0 pex

/-- The witness for `C83_first_negation` is `changeOps` below; here an evaluation, a change of `t` and an evaluation with the same names. -/
example (t0 tex p0 pex : Arr) : ∃ pre post s, ([.prim (.volHG (.sym "t")) volA none, .eval 0 (Arr.lit 0) (Arr.lit 0) (Arr.lit 0) (Arr.lit 0) [("t", Arr.lit 0)],
      .setT 0 (.num (1 / 2))] : List LOp) = pre ++ post ∧ Means pre 0 s ∧
      (post = [] ∨ ∃ e ∈ post.head?, e.evaluated = some (0, ["t"])) ∧
      (evalFn 0 t0 tex p0 pex [("t", Arr.lit 0)] (exec (start .sympy) [.prim (.volHG (.sym "t")) volA none,
        .eval 0 (Arr.lit 0) (Arr.lit 0) (Arr.lit 0) (Arr.lit 0) [("t", Arr.lit 0)], .setT 0 (.num (1 / 2))])).1 =
        s.calcVal (selected .sympy pre) t0 tex p0 pex [("t", Arr.lit 0)] :=
  C83_moment (by simp [Sound]) (by simp [created, LOp.new]) t0 tex p0 pex [("t", Arr.lit 0)]

/-- Without assignments the memo table has no effect: an object behaves like the value that was given to its constructor, whatever
was evaluated before, however many objects there are. -/
theorem C83_constant {b : Backend} {ops : List LOp} (hs : Sound 0 ops) (hst : ∀ op ∈ ops, op.Still) {i : ℕ} {s : Scatter} (h : Means ops i s)
    (t0 tex p0 pex : Arr) (pd : Dict) : (evalFn i t0 tex p0 pex pd (exec (start b) ops)).1 = s.calcVal b t0 tex p0 pex pd := by
  have hi : i < created ops := by
    have hl := run_length ops (start b) hs
    have := h.scatterOf (b := b) hs
    by_contra hn
    rw [scatterOf, List.getElem?_eq_none (by rw [hl]; show 0 + created ops ≤ i; omega)] at this
    cases this
  obtain ⟨pre, post, s', rfl, h', -, hv⟩ := C83_moment (b := b) hs hi t0 tex p0 pex pd
  rw [(h'.still fun op ho => hst op (List.mem_append_right _ ho)).unique hs h] at hv
  rw [selected_still b fun op ho => hst op (List.mem_append_left _ ho)] at hv
  exact hv

/-- A function, a combination that contains it twice, and evaluations of both. -/
def sharedOps : List LOp :=
  [.prim (.volHG (.sym "t")) volA (some 3), .eval 0 (Arr.lit 0) (Arr.lit 0) (Arr.lit 0) (Arr.lit 0) [("t", Arr.lit 0)],
    .lin [(.num 2, 0), (.sym "w", 0)] volA, .eval 1 (Arr.lit 0) (Arr.lit 0) (Arr.lit 0) (Arr.lit 0) [("t", Arr.lit 0), ("w", Arr.lit 1)]]

example (t0 tex p0 pex : Arr) (pd : Dict) : (evalFn 1 t0 tex p0 pex pd (exec (start .sympy) sharedOps)).1 =
    (Scatter.lin [.num 2, .sym "w"] [.prim (.volHG (.sym "t")) volA (some 3), .prim (.volHG (.sym "t")) volA (some 3)] volA).calcVal .sympy t0 tex p0 pex pd := by
  refine C83_constant (by simp [sharedOps, Sound]) (by simp [sharedOps, LOp.Still]) (i := 1) ?_ t0 tex p0 pex pd
  refine Means.lin (cs := [(.num 2, 0), (.sym "w", 0)]) (by simp [sharedOps, attrs, Def.assign]) rfl fun k c s hc hk => ?_
  rcases k with _ | _ | k
  · cases hc; cases hk
    exact .prim (by simp [sharedOps, attrs, Def.assign])
  · cases hc; cases hk
    exact .prim (by simp [sharedOps, attrs, Def.assign])
  · simp at hc

/-- The expansion of an object, as used for the interaction term, follows all changes of its own attributes and those of its parts,
unless `a` of a part of some combination is assigned. -/
theorem C83_expansion_partial {b : Backend} {ops : List LOp} (hs : Sound 0 ops)
    (ha : ∀ j a, LOp.setA j a ∈ ops → ∀ cs a', LOp.lin cs a' ∈ ops → ∀ c ∈ cs, c.2 ≠ j) {i : ℕ} {s : Scatter} (h : Means ops i s)
    {R : Type} [CommRing R] [Algebra ℝ R] (emb : Expr → R) (t0 tex p0 pex : Scatter.Trig R) :
    expansionOf emb (exec (start b) ops).objs t0 tex p0 pex i = s.legExpansion emb t0 tex p0 pex :=
  expansionOf_eq emb (run_grouped ha ops (start b) (fun _ h => h) fun i ws os gs a hi => by simp [start] at hi) (h.scatterOf hs) t0 tex p0 pex

/-- `t` of the part is changed after the combination was made: the expansion follows. -/
example (t0 tex p0 pex : Scatter.Trig ℝ) : expansionOf (Expr.evalR fun _ => 0) (exec (start .sympy) partOps).objs t0 tex p0 pex 1 =
    (Scatter.lin [.num 2] [.prim (.volHG (.num (1 / 2))) volA (some 3)] volA).legExpansion (Expr.evalR fun _ => 0) t0 tex p0 pex := by
  refine C83_expansion_partial (b := .sympy) (ops := partOps) (by simp [partOps, Sound]) (by simp [partOps]) (i := 1) ?_ _ t0 tex p0 pex
  refine Means.lin (cs := [(.num 2, 0)]) (by simp [partOps, attrs, Def.assign]) rfl fun k c s hc hk => ?_
  cases k with
  | zero =>
    cases hc; cases hk
    exact .prim (by simp [partOps, attrs, Def.assign])
  | succ k => simp at hc

/-- The Rayleigh function is evaluated, then its attribute `a` is changed. -/
def changeOps : List LOp :=
  [.prim .volRayleigh ⟨.num (-1), .num 1, .num 1⟩ none, .eval 0 (Arr.lit 0) (Arr.lit 0) (Arr.lit 0) (Arr.lit 0) [], .setA 0 ⟨.num 0, .num 1, .num 1⟩]

theorem changeOps_means : Means changeOps 0 (.prim .volRayleigh ⟨.num 0, .num 1, .num 1⟩ none) :=
  .prim (by simp [changeOps, attrs, Def.assign])

theorem changeOps_value : ∃ r, (evalFn 0 (Arr.lit 0) (Arr.lit 0) (Arr.lit 0) (Arr.lit 0) [] (exec (start .sympy) changeOps)).1 = .ok r ∧
    r.at' [] = XR.fin (3 / (16 * Real.pi) * (1 + (-1) ^ 2)) := by
  obtain ⟨r, hr, hv⟩ := rayleigh_nadir .sympy (-1) none
  have hm : Means [.prim .volRayleigh ⟨.num (-1), .num 1, .num 1⟩ none] 0 (.prim .volRayleigh ⟨.num (-1), .num 1, .num 1⟩ none) :=
    .prim (by simp [attrs])
  have hr0 := C83_takes_effect_partial (b := .sympy) (ops := [.prim .volRayleigh ⟨.num (-1), .num 1, .num 1⟩ none]) (by simp [Sound]) hm
    (pd := []) (by simp [evaluated, LOp.evaluated]) (Arr.lit 0) (Arr.lit 0) (Arr.lit 0) (Arr.lit 0)
  refine ⟨r, ?_, hv⟩
  rw [← hr]
  exact C83_first_negation (b := .sympy) (pre := [.prim .volRayleigh ⟨.num (-1), .num 1, .num 1⟩ none]) (post := [.setA 0 ⟨.num 0, .num 1, .num 1⟩])
    (by simp [Sound]) hm (by simp [evaluated, LOp.evaluated]) (hr0.trans hr)
    (by show ((List.toFinset ([] : List (ℕ × List String))).erase _).card < 128; simp) rfl _ _ _ _

/-- Rayleigh function at nadir, evaluated with a[0] = -1, then a[0] is set to 0: the value returned is twice the value of the current
function. -/
theorem C83_counterexample : ∃ (ops : List LOp) (s : Scatter) (r r' : Arr), Sound 0 ops ∧ Means ops 0 s ∧
    (evalFn 0 (Arr.lit 0) (Arr.lit 0) (Arr.lit 0) (Arr.lit 0) [] (exec (start .sympy) ops)).1 = .ok r ∧
    s.calcVal .sympy (Arr.lit 0) (Arr.lit 0) (Arr.lit 0) (Arr.lit 0) [] = .ok r' ∧
    r'.at' [] = XR.fin (3 / (16 * Real.pi)) ∧ r.at' [] = XR.fin (2 * (3 / (16 * Real.pi))) := by
  obtain ⟨r, hr, hv⟩ := changeOps_value
  obtain ⟨r', hr', hv'⟩ := rayleigh_nadir .sympy 0 none
  refine ⟨changeOps, _, r, r', by simp [changeOps, Sound], changeOps_means, hr, hr', ?_, ?_⟩
  · rw [hv']; congr 1; ring
  · rw [hv]; congr 1; ring

/-- A combination is made, then `a` of its part is changed: the phase function of the combination uses the new `a`, its expansion the old one. -/
def regroupOps : List LOp :=
  [.prim .volRayleigh ⟨.num (-1), .num 1, .num 1⟩ none, .lin [(.num 1, 0)] volA, .setA 0 ⟨.num 0, .num 1, .num 1⟩]

theorem regroupOps_means : Means regroupOps 1 (.lin [.num 1] [.prim .volRayleigh ⟨.num 0, .num 1, .num 1⟩ none] volA) := by
  refine Means.lin (cs := [(.num 1, 0)]) (by simp [regroupOps, attrs, Def.assign]) rfl fun k c s hc hk => ?_
  cases k with
  | zero =>
    cases hc; cases hk
    exact .prim (by simp [regroupOps, attrs, Def.assign])
  | succ k => simp at hc

theorem group_value (a a' : ℝ) : Scatter.groupsExpansion (Expr.evalR fun _ => 0) ⟨1, 0⟩ ⟨1, 0⟩ ⟨1, 0⟩ ⟨1, 0⟩
    [(⟨.num a, .num 1, .num 1⟩, [(.num 1, .prim .volRayleigh ⟨.num a', .num 1, .num 1⟩ none)])] =
    .ok (3 / (16 * Real.pi) * (4 / 3 + 2 / 3 * ((3 * a ^ 2 - 1) / 2))) := by
  show Except.ok _ = _
  congr 1
  have h2 : Polynomial.eval a (legendre 2) = (3 * a ^ 2 - 1) / 2 := by
    simp [legendre]; ring
  have h0 : Polynomial.eval a (legendre 0) = 1 := by simp [legendre]
  simp [Scatter.legSum, Finset.sum_range_succ, Scatter.primCoef, Scatter.angleR, h2, h0]
  ring

theorem C83_expansion_counterexample : ∃ (ops : List LOp) (s : Scatter) (v v' : ℝ), Sound 0 ops ∧ Means ops 1 s ∧
    expansionOf (Expr.evalR fun _ => 0) (exec (start .sympy) ops).objs ⟨1, 0⟩ ⟨1, 0⟩ ⟨1, 0⟩ ⟨1, 0⟩ 1 = .ok v ∧
    s.legExpansion (Expr.evalR fun _ => 0) ⟨1, 0⟩ ⟨1, 0⟩ ⟨1, 0⟩ ⟨1, 0⟩ = .ok v' ∧ v = 2 * v' ∧ v' ≠ 0 := by
  refine ⟨regroupOps, _, 3 / (16 * Real.pi) * 2, 3 / (16 * Real.pi), by simp [regroupOps, Sound], regroupOps_means, ?_, ?_, by ring, by positivity⟩
  · have e : (exec (start .sympy) regroupOps).objs = [.prim .volRayleigh ⟨.num 0, .num 1, .num 1⟩ none,
        .lin [.num 1] [0] [(⟨.num (-1), .num 1, .num 1⟩, [(.num 1, 0)])] volA] := rfl
    rw [e]
    have e0 : scatterOf [.prim .volRayleigh ⟨.num 0, .num 1, .num 1⟩ none,
        .lin [.num 1] [0] [(⟨.num (-1), .num 1, .num 1⟩, [(.num 1, 0)])] volA] 0 = some (.prim .volRayleigh ⟨.num 0, .num 1, .num 1⟩ none) := by
      rw [scatterOf]; rfl
    have e1 : expansionOf (Expr.evalR fun _ => 0) [.prim .volRayleigh ⟨.num 0, .num 1, .num 1⟩ none,
        .lin [.num 1] [0] [(⟨.num (-1), .num 1, .num 1⟩, [(.num 1, 0)])] volA] ⟨1, 0⟩ ⟨1, 0⟩ ⟨1, 0⟩ ⟨1, 0⟩ 1 =
        Scatter.groupsExpansion (Expr.evalR fun _ => 0) ⟨1, 0⟩ ⟨1, 0⟩ ⟨1, 0⟩ ⟨1, 0⟩
          [(⟨.num (-1), .num 1, .num 1⟩, [(.num 1, .prim .volRayleigh ⟨.num 0, .num 1, .num 1⟩ none)])] := by
      unfold expansionOf
      simp [e0]
    rw [e1]
    exact (group_value (-1) 0).trans (by congr 1; ring)
  · exact (group_value 0 0).trans (by congr 1; ring)

end

end RT1
