import Verif.Spec.Parse
import Verif.Lemmas.ExprL
import Verif.Props.Params

/-!
# Definitions given as texts (C90)
-/

namespace RT1

noncomputable section
open Classical

theorem lookup_local (n : String) : localSymbols.lookup n = if n = "N" then some (.sym "N") else none := by
  unfold localSymbols
  by_cases h : n = "N"
  · subst h; rfl
  · have : (n == "N") = false := by simpa using h
    simp [List.lookup, this, h]

theorem parse_name (ns : SympyNames) {n : String} {e : Expr} (h : parseText ns (.name n) = .ok e) (ρ : String → ℝ) :
    e.evalX (fun s => .fin (ρ s)) = .fin (ns.reads ρ n) ∧ ∀ k, k ∈ e.free ↔ k = n ∧ ns.IsPar n := by
  unfold parseText at h
  rw [lookup_local] at h
  unfold SympyNames.reads SympyNames.IsPar
  by_cases hn : n = "N"
  · subst hn
    cases h
    refine ⟨rfl, fun k => ?_⟩
    simp [Expr.free]
  · rw [if_neg hn] at h
    rw [if_neg hn]
    cases hf : ns.find n with
    | none =>
      rw [hf] at h; cases h
      refine ⟨rfl, fun k => ?_⟩
      simp [Expr.free]
    | some x =>
      rw [hf] at h
      cases x with
      | number r => cases h; refine ⟨rfl, fun k => ?_⟩; simp [Expr.free, hn]
      | func f => cases h
      | other => cases h

theorem known_find (ns : SympyNames) {f : String} (hf : f ∈ knownFuncs) : f ≠ "N" ∧ ∃ g, ns.find f = some (.func g) ∧
    (∀ e : Expr, (g e).free = e.free) ∧
    ∀ (e : Expr) (ρ : String → XR) (x v : ℝ), e.evalX ρ = .fin x → fnValue f x = some v → (g e).evalX ρ = .fin v := by
  simp only [knownFuncs, List.mem_cons, List.not_mem_nil, or_false] at hf
  rcases hf with rfl | rfl | rfl | rfl | rfl
  · refine ⟨by decide, _, ns.sin, fun _ => rfl, fun e ρ x v hx hv => ?_⟩
    simp only [fnValue, if_true, Option.some.injEq] at hv
    subst hv
    show XR.sin (e.evalX ρ) = _
    rw [hx]; rfl
  · refine ⟨by decide, _, ns.cos, fun _ => rfl, fun e ρ x v hx hv => ?_⟩
    simp [fnValue] at hv
    subst hv
    show XR.cos (e.evalX ρ) = _
    rw [hx]; rfl
  · refine ⟨by decide, _, ns.exp, fun _ => rfl, fun e ρ x v hx hv => ?_⟩
    simp [fnValue] at hv
    subst hv
    show XR.exp (e.evalX ρ) = _
    rw [hx]; rfl
  · refine ⟨by decide, _, ns.sqrt, fun _ => rfl, fun e ρ x v hx hv => ?_⟩
    simp [fnValue] at hv
    obtain ⟨h0, rfl⟩ := hv
    show XR.rpow (e.evalX ρ) (1 / 2) = _
    rw [hx]
    unfold XR.rpow
    rw [if_neg (by norm_num)]
    rcases h0.eq_or_lt with rfl | hp
    · simp
    · simp only [hp.ne', if_false, hp, if_true]
      rw [Real.sqrt_eq_rpow]
  · refine ⟨by decide, _, ns.sign, fun _ => rfl, fun e ρ x v hx hv => ?_⟩
    simp [fnValue] at hv
    subst hv
    show XR.sign (e.evalX ρ) = _
    rw [hx]
    unfold XR.sign XR.sgn
    rfl

theorem value_pow {x r v : ℝ} (h : (if 0 < x ∨ (x = 0 ∧ 0 ≤ r) ∨ (x < 0 ∧ ∃ k : ℤ, r = k) then some (x ^ r) else none) = some v) :
    XR.rpow (.fin x) r = .fin v := by
  split at h
  case isFalse => cases h
  rename_i hc
  cases h
  unfold XR.rpow
  by_cases h0 : r = 0
  · simp [h0]
  rw [if_neg h0]
  rcases hc with hp | ⟨rfl, hr⟩ | ⟨hn, hk⟩
  · simp [hp, hp.ne']
  · simp [not_lt.mpr hr, Real.zero_rpow h0]
  · simp [hn.ne, not_lt.mpr hn.le, hk]

/-- Values, names and success of parsing. -/
structure Parsed (ns : SympyNames) (s : Src) (e : Expr) : Prop where
  free : ∀ k, k ∈ e.free ↔ k ∈ s.names ∧ ns.IsPar k
  val : ∀ ρ v, s.value (ns.reads ρ) = some v → e.evalX (fun n => .fin (ρ n)) = .fin v

theorem parsed (ns : SympyNames) {s : Src} (hf : ∀ f ∈ s.funcs, f ∈ knownFuncs)
    (hn : ∀ n ∈ s.names, ns.IsPar n ∨ ∃ r, ns.find n = some (.number r)) :
    ∃ e, parseText ns s = .ok e ∧ Parsed ns s e := by
  induction s with
  | num r => exact ⟨_, rfl, by simp [Expr.free, Src.names], fun ρ v h => by cases h; rfl⟩
  | name n =>
    have : ∃ e, parseText ns (.name n) = .ok e := by
      unfold parseText
      rw [lookup_local]
      by_cases h : n = "N"
      · rw [if_pos h]; exact ⟨_, rfl⟩
      rw [if_neg h]
      rcases hn n (by simp [Src.names]) with (h1 | h1) | ⟨r, h1⟩
      · exact absurd h1 h
      · rw [h1]; exact ⟨_, rfl⟩
      · rw [h1]; exact ⟨_, rfl⟩
    obtain ⟨e, he⟩ := this
    refine ⟨e, he, fun k => ?_, fun ρ v h => ?_⟩
    · rw [(parse_name ns he fun _ => 0).2]
      simp only [Src.names, List.mem_singleton]
      constructor
      · rintro ⟨rfl, h⟩; exact ⟨rfl, h⟩
      · rintro ⟨rfl, h⟩; exact ⟨rfl, h⟩
    · rw [(parse_name ns he ρ).1]
      cases h; rfl
  | neg a iha =>
    obtain ⟨x, hx, hxf, hxv⟩ := iha hf hn
    refine ⟨-x, by simp only [parseText, hx]; rfl, fun k => ?_, fun ρ v h => ?_⟩
    · show k ∈ [] ++ x.free ↔ _
      rw [List.nil_append]; exact hxf k
    · simp only [Src.value, Option.map_eq_some_iff] at h
      obtain ⟨y, hy, rfl⟩ := h
      show XR.fin (-1) * x.evalX _ = _
      rw [hxv ρ y hy, XR.fin_mul]
      simp
  | add a b iha ihb =>
    obtain ⟨x, hx, hxf, hxv⟩ := iha (fun f h => hf f (List.mem_append_left _ h)) (fun n h => hn n (List.mem_append_left _ h))
    obtain ⟨y, hy, hyf, hyv⟩ := ihb (fun f h => hf f (List.mem_append_right _ h)) (fun n h => hn n (List.mem_append_right _ h))
    refine ⟨x + y, by simp only [parseText, hx, hy]; rfl, fun k => ?_, fun ρ v h => ?_⟩
    · show k ∈ x.free ++ y.free ↔ _
      simp only [List.mem_append, hxf, hyf, Src.names]; tauto
    · simp only [Src.value, Option.map_eq_some_iff, Option.bind_eq_some_iff] at h
      obtain ⟨u, hu, t, ht, rfl⟩ := h
      show x.evalX _ + y.evalX _ = _
      rw [hxv ρ u hu, hyv ρ t ht, XR.fin_add]
  | sub a b iha ihb =>
    obtain ⟨x, hx, hxf, hxv⟩ := iha (fun f h => hf f (List.mem_append_left _ h)) (fun n h => hn n (List.mem_append_left _ h))
    obtain ⟨y, hy, hyf, hyv⟩ := ihb (fun f h => hf f (List.mem_append_right _ h)) (fun n h => hn n (List.mem_append_right _ h))
    refine ⟨x - y, by simp only [parseText, hx, hy]; rfl, fun k => ?_, fun ρ v h => ?_⟩
    · show k ∈ x.free ++ ([] ++ y.free) ↔ _
      simp only [List.nil_append, List.mem_append, hxf, hyf, Src.names]; tauto
    · simp only [Src.value, Option.map_eq_some_iff, Option.bind_eq_some_iff] at h
      obtain ⟨u, hu, t, ht, rfl⟩ := h
      show x.evalX _ + XR.fin (-1) * y.evalX _ = _
      rw [hxv ρ u hu, hyv ρ t ht, XR.fin_mul, XR.fin_add]
      refine congrArg XR.fin ?_
      ring
  | mul a b iha ihb =>
    obtain ⟨x, hx, hxf, hxv⟩ := iha (fun f h => hf f (List.mem_append_left _ h)) (fun n h => hn n (List.mem_append_left _ h))
    obtain ⟨y, hy, hyf, hyv⟩ := ihb (fun f h => hf f (List.mem_append_right _ h)) (fun n h => hn n (List.mem_append_right _ h))
    refine ⟨x * y, by simp only [parseText, hx, hy]; rfl, fun k => ?_, fun ρ v h => ?_⟩
    · show k ∈ x.free ++ y.free ↔ _
      simp only [List.mem_append, hxf, hyf, Src.names]; tauto
    · simp only [Src.value, Option.map_eq_some_iff, Option.bind_eq_some_iff] at h
      obtain ⟨u, hu, t, ht, rfl⟩ := h
      show x.evalX _ * y.evalX _ = _
      rw [hxv ρ u hu, hyv ρ t ht, XR.fin_mul]
  | div a b iha ihb =>
    obtain ⟨x, hx, hxf, hxv⟩ := iha (fun f h => hf f (List.mem_append_left _ h)) (fun n h => hn n (List.mem_append_left _ h))
    obtain ⟨y, hy, hyf, hyv⟩ := ihb (fun f h => hf f (List.mem_append_right _ h)) (fun n h => hn n (List.mem_append_right _ h))
    refine ⟨x / y, by simp only [parseText, hx, hy]; rfl, fun k => ?_, fun ρ v h => ?_⟩
    · show k ∈ x.free ++ y.free ↔ _
      simp only [List.mem_append, hxf, hyf, Src.names]; tauto
    · simp only [Src.value, Option.bind_eq_some_iff] at h
      obtain ⟨u, hu, t, ht, h⟩ := h
      split at h
      case isTrue => cases h
      rename_i h0
      cases h
      show x.evalX _ * XR.rpow (y.evalX _) (-1) = _
      rw [hxv ρ u hu, hyv ρ t ht]
      have e : XR.rpow (.fin t) (-1) = .fin (t ^ (-1 : ℝ)) := by
        unfold XR.rpow
        rw [if_neg (by norm_num)]
        simp only [h0, if_false]
        by_cases hp : 0 < t
        · simp [hp]
        · rw [if_neg hp, if_pos ⟨-1, by norm_num⟩]
      rw [e, XR.fin_mul, Real.rpow_neg_one, div_eq_mul_inv]
  | pow a r iha =>
    obtain ⟨x, hx, hxf, hxv⟩ := iha hf hn
    refine ⟨.pow x r, by simp only [parseText, hx]; rfl, hxf, fun ρ v h => ?_⟩
    simp only [Src.value, Option.bind_eq_some_iff] at h
    obtain ⟨u, hu, h⟩ := h
    show XR.rpow (x.evalX _) r = _
    rw [hxv ρ u hu]
    exact value_pow h
  | call f a iha =>
    obtain ⟨x, hx, hxf, hxv⟩ := iha (fun g h => hf g (List.mem_cons_of_mem _ h)) hn
    obtain ⟨hN, g, hg, hfree, hval⟩ := known_find ns (hf f List.mem_cons_self)
    refine ⟨g x, ?_, fun k => ?_, fun ρ v h => ?_⟩
    · simp only [parseText, hx, lookup_local, if_neg hN, hg]; rfl
    · rw [hfree]; exact hxf k
    · simp only [Src.value, Option.bind_eq_some_iff] at h
      obtain ⟨u, hu, h⟩ := h
      exact hval x _ u v (hxv ρ u hu) h

theorem means_of_getter (ns : SympyNames) {id : ℕ} {p : PName} {s : Src} {e : Expr} {params : Dict} {w : World} (h : Parsed ns s e)
    (hg : GetterSpec id p (.str e) params w) : MeansText id p s ns.IsPar ns.reads params w where
  value := by
    intro z idx ρ v hz hρ hv
    rw [hg.str e z idx (fun n => .fin (ρ n)) rfl hz fun k hk => ?_]
    · exact h.val ρ v hv
    · obtain ⟨h1, h2⟩ := (h.free k).mp hk
      obtain ⟨a, ha, hx⟩ := hρ k h1 h2
      exact ⟨a, ha, hx.symm⟩
  ok := by
    intro S hS
    refine hg.ok e S rfl fun k hk => ?_
    obtain ⟨h1, h2⟩ := (h.free k).mp hk
    exact hS k h1 h2
  missing := by
    rintro ⟨n, h1, h2, h3⟩
    obtain ⟨l, hl, hiff⟩ := hg.missing e rfl ⟨n, (h.free n).mpr ⟨h1, h2⟩, h3⟩
    refine ⟨l, hl, fun k => ?_⟩
    rw [hiff, h.free]
    tauto

/-- **C90** with constants.  A text whose names are either unknown to sympy, or `N`, or numbers of sympy can be
assigned to a parameter.  From then on, as long as nothing else is assigned, the parameter has the value of the
formula for the current values of the names; names of sympy's numbers (`pi`, `E`) are these numbers. All other names
have to be supplied. -/
theorem C90_constants {w : World} (hw : ReachableK w) {id : ℕ} {o : Obj} (ho : w.objs id = some o) (p : PName) (ns : SympyNames)
    {s : Src} (hf : ∀ f ∈ s.funcs, f ∈ knownFuncs)
    (hn : ∀ n ∈ s.names, ns.IsPar n ∨ ∃ r, ns.find n = some (.number r)) :
    ∃ e, parseText ns s = .ok e ∧ ∀ ops : List Op, (∀ op ∈ ops, op.Keeps) → (∀ op ∈ ops, op.KeepsDef id p) →
      ∃ o', (run (step (.setParamDef id p (.str e)) w).2 ops).objs id = some o' ∧
        MeansText id p s ns.IsPar ns.reads o'.params (run (step (.setParamDef id p (.str e)) w).2 ops) := by
  obtain ⟨e, he, hp⟩ := parsed ns hf hn
  refine ⟨e, he, fun ops hk hd => ?_⟩
  obtain ⟨o', ho', hg⟩ := C08_assigned hw ho p (.str e) hk hd
  exact ⟨o', ho', means_of_getter ns hp hg⟩

/-- **C90** (partial: no name of the formula is defined by sympy, see `C90_names_negation`).  A text assigned to a
parameter means what it says: from then on, as long as nothing else is assigned, the parameter has the value of the
formula for the current values of its names, all of which have to be supplied. `N` is a name like all others. -/
theorem C90_text_partial {w : World} (hw : ReachableK w) {id : ℕ} {o : Obj} (ho : w.objs id = some o) (p : PName)
    (ns : SympyNames) {s : Src} (hf : ∀ f ∈ s.funcs, f ∈ knownFuncs) (hn : ∀ n ∈ s.names, n = "N" ∨ ns.find n = none) :
    ∃ e, parseText ns s = .ok e ∧ ∀ ops : List Op, (∀ op ∈ ops, op.Keeps) → (∀ op ∈ ops, op.KeepsDef id p) →
      ∃ o', (run (step (.setParamDef id p (.str e)) w).2 ops).objs id = some o' ∧
        MeansText id p s (fun _ => True) (fun ρ => ρ) o'.params (run (step (.setParamDef id p (.str e)) w).2 ops) := by
  obtain ⟨e, he, h⟩ := C90_constants hw ho p ns hf fun n h => .inl (hn n h)
  refine ⟨e, he, fun ops hk hd => ?_⟩
  obtain ⟨o', ho', hm⟩ := h ops hk hd
  have hv : ∀ ρ, s.value (ns.reads ρ) = s.value ρ := by
    intro ρ
    have : ∀ n ∈ s.names, ns.reads ρ n = ρ n := by
      intro n h
      unfold SympyNames.reads
      rcases hn n h with rfl | h1
      · simp
      · rw [h1]; simp
    clear * - this
    induction s with
    | num r => rfl
    | name n => simp only [Src.value]; rw [this n (by simp [Src.names])]
    | neg a iha => simp only [Src.value]; rw [iha this]
    | pow a r iha => simp only [Src.value]; rw [iha this]
    | call f a iha => simp only [Src.value]; rw [iha this]
    | add a b iha ihb =>
      simp only [Src.value]
      rw [iha fun n h => this n (List.mem_append_left _ h), ihb fun n h => this n (List.mem_append_right _ h)]
    | sub a b iha ihb =>
      simp only [Src.value]
      rw [iha fun n h => this n (List.mem_append_left _ h), ihb fun n h => this n (List.mem_append_right _ h)]
    | mul a b iha ihb =>
      simp only [Src.value]
      rw [iha fun n h => this n (List.mem_append_left _ h), ihb fun n h => this n (List.mem_append_right _ h)]
    | div a b iha ihb =>
      simp only [Src.value]
      rw [iha fun n h => this n (List.mem_append_left _ h), ihb fun n h => this n (List.mem_append_right _ h)]
  refine ⟨o', ho', ⟨fun z idx ρ v hz hρ h => ?_, fun S hS => ?_, ?_⟩⟩
  · exact hm.value z idx ρ v hz (fun n h _ => hρ n h trivial) ((hv ρ).trans h)
  · exact hm.ok S fun n h _ => hS n h trivial
  · rintro ⟨n, h1, -, h2⟩
    obtain ⟨l, hl, hiff⟩ := hm.missing ⟨n, h1, hn n h1, h2⟩
    refine ⟨l, hl, fun k => ?_⟩
    rw [hiff]
    constructor
    · rintro ⟨a, -, c⟩; exact ⟨a, trivial, c⟩
    · rintro ⟨a, -, c⟩; exact ⟨a, hn k a, c⟩

/-- **C90** is false for formulas with names of sympy's numbers: after `R.p = "E"` the parameter is Euler's number,
whatever value is supplied for a parameter `E`, or none.  The same for all other numbers sympy has a name for. -/
theorem C90_names_negation {w : World} (hw : ReachableK w) {id : ℕ} {o : Obj} (ho : w.objs id = some o) (p : PName)
    (ns : SympyNames) {n : String} (hN : n ≠ "N") {r : ℝ} (hr : ns.find n = some (.number r)) :
    ∃ e, parseText ns (.name n) = .ok e ∧ ∀ ops : List Op, (∀ op ∈ ops, op.Keeps) → (∀ op ∈ ops, op.KeepsDef id p) →
      ∃ z, (Self.evalParam id p (run (step (.setParamDef id p (.str e)) w).2 ops)).1 = .ok z ∧
        ∀ idx, z.at' idx = .fin r := by
  obtain ⟨e, he, h⟩ := C90_constants hw ho p ns (s := .name n) (by simp [Src.funcs])
    (by simp only [Src.names, List.mem_singleton]; rintro _ rfl; exact .inr ⟨r, hr⟩)
  refine ⟨e, he, fun ops hk hd => ?_⟩
  obtain ⟨o', -, hm⟩ := h ops hk hd
  have hq : ¬ ns.IsPar n := by
    rintro (h | h)
    · exact hN h
    · rw [hr] at h; cases h
  have hno : ∀ m ∈ (Src.name n).names, ns.IsPar m → False := by
    simp only [Src.names, List.mem_singleton]
    rintro _ rfl
    exact hq
  obtain ⟨z, hz, -⟩ := hm.ok [] fun m h1 h2 => (hno m h1 h2).elim
  refine ⟨z, hz, fun idx => hm.value z idx (fun _ => 0) r hz (fun m h1 h2 => (hno m h1 h2).elim) ?_⟩
  simp only [Src.value, SympyNames.reads, if_neg hN, hr]

/-! ### examples -/

/-- Some names of sympy. -/
def exNames : SympyNames where
  find n :=
    if n = "E" then some (.number (Real.exp 1)) else if n = "pi" then some (.number Real.pi)
    else if n = "sin" then some (.func .sin) else if n = "cos" then some (.func .cos)
    else if n = "exp" then some (.func .exp) else if n = "sqrt" then some (.func fun a => .pow a (1 / 2))
    else if n = "sign" then some (.func .sign)
    else if n ∈ ["I", "S", "Q", "N", "beta", "gamma", "zeta"] then some .other else none
  e := by simp
  pi := by simp
  sin := by simp
  cos := by simp
  exp := by simp
  sqrt := by simp
  sign := by simp

/-- `"N * sqrt(x) / 2"`. -/
def exText : Src := .div (.mul (.name "N") (.call "sqrt" (.name "x"))) (.num 2)

example (V SRF : Scatter) : ReachableK (exW .sympy V SRF) ∧ (∃ o, (exW .sympy V SRF).objs 0 = some o) ∧
    (∀ f ∈ exText.funcs, f ∈ knownFuncs) ∧ (∀ n ∈ exText.names, n = "N" ∨ exNames.find n = none) ∧
    exText.value (fun n => if n = "N" then 3 else 4) = some 3 := by
  refine ⟨(demo_reachable ..).keeps, ⟨_, demo_objs ..⟩, by simp [exText, Src.funcs, knownFuncs],
    by simp [exText, Src.names, exNames], ?_⟩
  have : Real.sqrt 4 = 2 := by
    rw [show (4 : ℝ) = 2 ^ 2 by norm_num]; exact Real.sqrt_sq (by norm_num)
  simp [exText, Src.value, fnValue, this]

/-- **C90** does not hold in general: after `R.tau = "E"` and `R.update_params(E=0.3)`, `R.tau` is not 0.3. -/
theorem C90_counterexample : ∃ w e z, ReachableK w ∧ (∃ o : Obj, w.objs 0 = some o) ∧ parseText exNames (.name "E") = .ok e ∧
    (Self.evalParam 0 .tau (run (step (.setParamDef 0 .tau (.str e)) w).2 [.updateParams 0 [("E", Arr.lit 0.3)]])).1 = .ok z ∧
    ∀ idx, z.at' idx = .fin (Real.exp 1) ∧ z.at' idx ≠ .fin 0.3 := by
  have hr := (demo_reachable .sympy exV exS true false false (Arr.lit 1) (Arr.lit 1) (Arr.lit 0) []).keeps
  have ho := demo_objs .sympy exV exS true false false (Arr.lit 1) (Arr.lit 1) (Arr.lit 0) []
  obtain ⟨e, he, h⟩ := C90_names_negation hr ho .tau exNames (by decide) exNames.e
  obtain ⟨z, hz, hv⟩ := h [.updateParams 0 [("E", Arr.lit 0.3)]] (by simp [Op.Keeps]) (by simp [Op.KeepsDef])
  refine ⟨_, e, z, hr, ⟨_, ho⟩, he, hz, fun idx => ⟨hv idx, fun h => ?_⟩⟩
  rw [hv idx] at h
  have h1 : Real.exp 1 = 0.3 := XR.fin.inj h
  have h2 : (1 : ℝ) < Real.exp 1 := Real.one_lt_exp_iff.mpr one_pos
  norm_num at h1
  linarith

end

end RT1
