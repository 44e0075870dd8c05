import Verif.Lemmas.ArrL
import Verif.Model.State

/-! Compiled functions return, at every index, the value of the expression for the values of
the arguments at that index (for both backends). -/

namespace RT1

noncomputable section
open Classical

theorem Expr.evalX_congr {e : Expr} {ρ ρ' : String → XR} (h : ∀ s ∈ e.free, ρ s = ρ' s) :
    e.evalX ρ = e.evalX ρ' := by
  induction e with
  | num r => rfl
  | sym s => exact h s (by simp [Expr.free])
  | add a b iha ihb =>
    simp only [Expr.free, List.mem_append] at h
    simp only [Expr.evalX, iha fun s hs => h s (Or.inl hs), ihb fun s hs => h s (Or.inr hs)]
  | mul a b iha ihb =>
    simp only [Expr.free, List.mem_append] at h
    simp only [Expr.evalX, iha fun s hs => h s (Or.inl hs), ihb fun s hs => h s (Or.inr hs)]
  | pow a r ih => simp only [Expr.evalX, ih h]
  | sin a ih => simp only [Expr.evalX, ih h]
  | cos a ih => simp only [Expr.evalX, ih h]
  | sign a ih => simp only [Expr.evalX, ih h]
  | exp a ih => simp only [Expr.evalX, ih h]

theorem Expr.evalR_congr {e : Expr} {ρ ρ' : String → ℝ} (h : ∀ s ∈ e.free, ρ s = ρ' s) :
    e.evalR ρ = e.evalR ρ' := by
  induction e with
  | num r => rfl
  | sym s => exact h s (by simp [Expr.free])
  | add a b iha ihb =>
    simp only [Expr.free, List.mem_append] at h
    simp only [Expr.evalR, iha fun s hs => h s (Or.inl hs), ihb fun s hs => h s (Or.inr hs)]
  | mul a b iha ihb =>
    simp only [Expr.free, List.mem_append] at h
    simp only [Expr.evalR, iha fun s hs => h s (Or.inl hs), ihb fun s hs => h s (Or.inr hs)]
  | pow a r ih => simp only [Expr.evalR, ih h]
  | sin a ih => simp only [Expr.evalR, ih h]
  | cos a ih => simp only [Expr.evalR, ih h]
  | sign a ih => simp only [Expr.evalR, ih h]
  | exp a ih => simp only [Expr.evalR, ih h]

theorem Arr.bidx_bshapes {l : List (List ℕ)} {sh : List ℕ} (h : bshapes l = some sh)
    {s : List ℕ} (hs : s ∈ l) (idx : List ℕ) : bidx s (bidx sh idx) = bidx s idx := by
  induction l generalizing sh idx with
  | nil => cases hs
  | cons t l ih =>
    unfold bshapes at h
    cases hu : bshapes l with
    | none => simp [hu] at h
    | some u =>
      simp only [hu] at h
      rcases List.mem_cons.mp hs with rfl | hs
      · exact bidx_bidx_left h idx
      · rw [← ih hu hs (bidx sh idx), bidx_bidx_right h, ih hu hs]

/-- Value of a bound name: the arrays at the index. -/
theorem Lam.envAt_bidx {bnd : List (String × Arr)} {s : String} {sh idx : List ℕ}
    (h : ∀ p, bnd.find? (fun p => p.1 = s) = some p →
      Arr.bidx p.2.shape (Arr.bidx sh idx) = Arr.bidx p.2.shape idx) :
    envAt bnd (Arr.bidx sh idx) s = envAt bnd idx s := by
  unfold envAt
  cases hf : bnd.find? fun p => p.1 = s with
  | none => rfl
  | some p =>
    simp only [Arr.at']
    rw [h p hf]

theorem Lam.evalBound_at {b : Backend} {e : Expr} {bnd : List (String × Arr)} {z : Arr}
    (h : evalBound b e bnd = .ok z) (idx : List ℕ) : z.at' idx = e.evalX (envAt bnd idx) := by
  cases b with
  | sympy =>
    simp only [evalBound] at h
    by_cases hf : ∀ s ∈ e.free, s ∈ bnd.map Prod.fst
    · rw [if_pos hf] at h
      cases hs : Arr.bshapes ((bnd.filter fun p => decide (p.1 ∈ e.free)).map fun p => p.2.shape) with
      | none => simp [hs] at h
      | some sh =>
        simp only [hs, Except.ok.injEq] at h
        subst h
        simp only [Arr.at']
        refine Expr.evalX_congr fun s hs' => envAt_bidx fun p hp => ?_
        refine Arr.bidx_bshapes hs ?_ idx
        have h1 := List.mem_of_find?_eq_some hp
        have h2 := List.find?_some hp
        simp only [decide_eq_true_eq] at h2
        exact List.mem_map.mpr ⟨p, List.mem_filter.mpr ⟨h1, by simp [h2, hs']⟩, rfl⟩
    · rw [if_neg hf] at h
      cases h
  | symengine =>
    simp only [evalBound] at h
    cases hs : Arr.bshapes (bnd.map fun p => p.2.shape) with
    | none => simp [hs] at h
    | some sh =>
      simp only [hs, Except.ok.injEq] at h
      subst h
      simp only [Arr.at']
      refine Expr.evalX_congr fun s hs' => envAt_bidx fun p hp => ?_
      refine Arr.bidx_bshapes hs ?_ idx
      exact List.mem_map.mpr ⟨p, List.mem_of_find?_eq_some hp, rfl⟩

theorem Lam.bindArgs_ok {b : Backend} {vars : List String} {pos : List Arr} {kw : Dict}
    {bnd : List (String × Arr)} (h : bindArgs b vars pos kw = .ok bnd) :
    ∃ vals, (vars.drop pos.length).mapM (fun k => kw.get? k) = some vals ∧
      bnd = vars.zip (pos ++ vals) := by
  unfold bindArgs at h
  cases b with
  | sympy =>
    simp only at h
    split_ifs at h
    cases hm : (vars.drop pos.length).mapM (fun k => kw.get? k) with
    | none => simp [hm] at h
    | some vals => simp only [hm, Except.ok.injEq] at h; exact ⟨vals, rfl, h.symm⟩
  | symengine =>
    simp only at h
    cases hm : (vars.drop pos.length).mapM (fun k => kw.get? k) with
    | none => simp [hm] at h
    | some vals =>
      simp only [hm] at h
      split_ifs at h
      simp only [Except.ok.injEq] at h; exact ⟨vals, rfl, h.symm⟩

theorem Lam.compile_ok {b : Backend} {vars : List String} {e : Expr} {f : Lam}
    (h : compile b vars e = .ok f) : f = ⟨vars, e⟩ := by
  cases b with
  | sympy => simp only [compile, Except.ok.injEq] at h; exact h.symm
  | symengine =>
    simp only [compile] at h
    split_ifs at h
    simp only [Except.ok.injEq] at h; exact h.symm

/-- Value of a keyword parameter at an index (nan if there is none). -/
def Dict.valAt (pd : Dict) (idx : List ℕ) (s : String) : XR :=
  match pd.get? s with
  | some a => a.at' idx
  | none => XR.nan

theorem Lam.envAt_cons (k : String) (a : Arr) (l : List (String × Arr)) (idx : List ℕ) (s : String) :
    envAt ((k, a) :: l) idx s = if k = s then a.at' idx else envAt l idx s := by
  unfold envAt
  rw [List.find?_cons]
  by_cases h : k = s <;> simp [h]

theorem Lam.envAt_zip {kw : Dict} {ks : List String} {vals : List Arr}
    (h : ks.mapM (fun k => kw.get? k) = some vals) (idx : List ℕ) (s : String) :
    envAt (ks.zip vals) idx s = if s ∈ ks then kw.valAt idx s else XR.nan := by
  induction ks generalizing vals with
  | nil => simp at h; subst h; simp [envAt]
  | cons k ks ih =>
    rw [List.mapM_cons] at h
    cases hk : kw.get? k with
    | none => simp [hk] at h
    | some v =>
      cases hm : ks.mapM (fun k => kw.get? k) with
      | none => simp [hk, hm] at h
      | some vs =>
        simp [hk, hm] at h
        subst h
        rw [List.zip_cons_cons, envAt_cons, ih hm]
        by_cases hks : k = s
        · subst hks; simp [Dict.valAt, hk]
        · have : ¬ s = k := fun h => hks h.symm
          simp [hks, this]

/-- The environment of a phase function: four angles and the parameters. -/
def angEnv (t0 tex p0 pex : XR) (ρ : String → XR) (s : String) : XR :=
  if s = "theta_0" then t0 else if s = "theta_ex" then tex else if s = "phi_0" then p0
  else if s = "phi_ex" then pex else ρ s

theorem Lam.mem_of_get? {d : Dict} {k : String} {v : Arr} (h : d.get? k = some v) : k ∈ d.keys := by
  unfold Dict.get? at h
  cases hf : d.find? fun p => p.1 = k with
  | none => simp [hf] at h
  | some p =>
    have h1 := List.mem_of_find?_eq_some hf
    have h2 := List.find?_some hf
    simp only [decide_eq_true_eq] at h2
    rw [← h2]
    exact List.mem_map.mpr ⟨p, h1, rfl⟩

theorem Dict.get?_of_mem {d : Dict} {k : String} (h : k ∈ d.keys) : ∃ v, d.get? k = some v := by
  unfold Dict.keys at h
  obtain ⟨p, hp, rfl⟩ := List.mem_map.mp h
  unfold Dict.get?
  cases hf : d.find? fun q => q.1 = p.1 with
  | none =>
    have := List.find?_eq_none.mp hf p hp
    simp at this
  | some q => exact ⟨q.2, rfl⟩

theorem Dict.valAt_of_not_mem {d : Dict} {k : String} (h : k ∉ d.keys) (idx : List ℕ) :
    d.valAt idx k = XR.nan := by
  unfold Dict.valAt
  cases hg : d.get? k with
  | none => rfl
  | some v => exact absurd (Lam.mem_of_get? hg) h

/-- A function compiled for the four angles and a prefix of the parameter names. -/
theorem Lam.call4_at {b : Backend} {ks : List String} {e : Expr} {f : Lam} {pd : Dict}
    {t0 tex p0 pex z : Arr}
    (hc : compile b (["theta_0", "theta_ex", "phi_0", "phi_ex"] ++ ks) e = .ok f)
    (h : f.call b [t0, tex, p0, pex] pd = .ok z) (idx : List ℕ)
    (hks : ∀ s ∈ e.free, s ∈ ["theta_0", "theta_ex", "phi_0", "phi_ex"] ∨ s ∈ ks ∨
      pd.valAt idx s = XR.nan) :
    z.at' idx = e.evalX
      (angEnv (t0.at' idx) (tex.at' idx) (p0.at' idx) (pex.at' idx) (pd.valAt idx)) := by
  rw [compile_ok hc] at h
  unfold call at h
  cases hb : bindArgs b (["theta_0", "theta_ex", "phi_0", "phi_ex"] ++ ks) [t0, tex, p0, pex] pd with
  | error e => rw [hb] at h; cases h
  | ok bnd =>
    rw [hb] at h
    obtain ⟨vals, hv, rfl⟩ := bindArgs_ok hb
    have h2 := evalBound_at h idx
    rw [h2]
    refine Expr.evalX_congr fun s hs => ?_
    have hv' : ks.mapM (fun k => pd.get? k) = some vals := by simpa using hv
    simp only [List.cons_append, List.nil_append, List.zip_cons_cons, envAt_cons,
      envAt_zip hv', angEnv, @eq_comm _ _ s]
    rcases hks s hs with hs' | hs' | hs'
    · simp only [List.mem_cons, List.not_mem_nil, or_false] at hs'
      rcases hs' with rfl | rfl | rfl | rfl <;> simp
    · simp [hs']
    · simp only [hs']
      split_ifs <;> rfl

/-- A function compiled for the four angles and all parameter names. -/
theorem Lam.call4_at' {b : Backend} {e : Expr} {f : Lam} {pd : Dict} {t0 tex p0 pex z : Arr}
    (hc : compile b (["theta_0", "theta_ex", "phi_0", "phi_ex"] ++ pd.keys) e = .ok f)
    (h : f.call b [t0, tex, p0, pex] pd = .ok z) (idx : List ℕ) :
    z.at' idx = e.evalX
      (angEnv (t0.at' idx) (tex.at' idx) (p0.at' idx) (pex.at' idx) (pd.valAt idx)) := by
  refine call4_at hc h idx fun s _ => ?_
  by_cases hs : s ∈ pd.keys
  · exact Or.inr (Or.inl hs)
  · exact Or.inr (Or.inr (Dict.valAt_of_not_mem hs idx))

theorem pick_get? {pd kw : Dict} {ks : List String} (h : Self.pick pd ks = .ok kw) {s : String}
    (hs : s ∈ ks) : kw.get? s = pd.get? s := by
  unfold Self.pick at h
  cases hm : ks.mapM (fun k => (pd.get? k).map fun v => (k, v)) with
  | none => simp [hm] at h
  | some d =>
    simp only [hm, Except.ok.injEq] at h
    subst h
    induction ks generalizing d with
    | nil => cases hs
    | cons k ks ih =>
      rw [List.mapM_cons] at hm
      cases hk : pd.get? k with
      | none => simp [hk] at hm
      | some v =>
        cases hm' : ks.mapM (fun k => (pd.get? k).map fun v => (k, v)) with
        | none => simp [hk, hm'] at hm
        | some d' =>
          simp [hk, hm'] at hm
          subst hm
          unfold Dict.get?
          rw [List.find?_cons]
          by_cases hks : k = s
          · subst hks
            simp only [decide_true]
            exact hk.symm
          · simp only [hks, decide_false]
            have : s ∈ ks := by
              rcases List.mem_cons.mp hs with h | h
              · exact absurd h.symm hks
              · exact h
            exact ih this d' hm'

end

end RT1
