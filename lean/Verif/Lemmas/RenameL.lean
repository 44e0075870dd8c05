import Verif.Spec.Rename
import Verif.Spec.Interaction

/-! Renaming of symbols. -/

namespace RT1

noncomputable section
open Classical

namespace Expr

theorem free_rename (σ : String → String) (e : Expr) : (e.rename σ).free = e.free.map σ := by
  induction e with
  | num q => rfl
  | sym s => rfl
  | add a b ha hb => simp only [rename, free, ha, hb, List.map_append]
  | mul a b ha hb => simp only [rename, free, ha, hb, List.map_append]
  | pow a q ha => exact ha
  | sin a ha => exact ha
  | cos a ha => exact ha
  | sign a ha => exact ha
  | exp a ha => exact ha

theorem evalX_rename (σ : String → String) (ρ : String → XR) (e : Expr) :
    (e.rename σ).evalX ρ = e.evalX fun s => ρ (σ s) := by
  induction e with
  | num q => rfl
  | sym s => rfl
  | add a b ha hb => simp only [rename, evalX, ha, hb]
  | mul a b ha hb => simp only [rename, evalX, ha, hb]
  | pow a q ha => simp only [rename, evalX, ha]
  | sin a ha => simp only [rename, evalX, ha]
  | cos a ha => simp only [rename, evalX, ha]
  | sign a ha => simp only [rename, evalX, ha]
  | exp a ha => simp only [rename, evalX, ha]

theorem evalR_rename (σ : String → String) (ρ : String → ℝ) (e : Expr) :
    (e.rename σ).evalR ρ = e.evalR fun s => ρ (σ s) := by
  induction e with
  | num q => rfl
  | sym s => rfl
  | add a b ha hb => simp only [rename, evalR, ha, hb]
  | mul a b ha hb => simp only [rename, evalR, ha, hb]
  | pow a q ha => simp only [rename, evalR, ha]
  | sin a ha => simp only [rename, evalR, ha]
  | cos a ha => simp only [rename, evalR, ha]
  | sign a ha => simp only [rename, evalR, ha]
  | exp a ha => simp only [rename, evalR, ha]

theorem rename_injective {σ : String → String} (h : Function.Injective σ) : ∀ e e' : Expr,
    e.rename σ = e'.rename σ → e = e' := by
  intro e
  induction e with
  | num q => intro e' h'; cases e' <;> simp_all [rename]
  | sym s => intro e' h'; cases e' <;> simp_all [rename]; exact h h'
  | add a b ha hb =>
    intro e' h'
    cases e' <;> simp only [rename, add.injEq, reduceCtorEq] at h'
    rw [ha _ h'.1, hb _ h'.2]
  | mul a b ha hb =>
    intro e' h'
    cases e' <;> simp only [rename, mul.injEq, reduceCtorEq] at h'
    rw [ha _ h'.1, hb _ h'.2]
  | pow a q ha =>
    intro e' h'
    cases e' <;> simp only [rename, pow.injEq, reduceCtorEq] at h'
    rw [ha _ h'.1, h'.2]
  | sin a ha =>
    intro e' h'
    cases e' <;> simp only [rename, sin.injEq, reduceCtorEq] at h'
    rw [ha _ h']
  | cos a ha =>
    intro e' h'
    cases e' <;> simp only [rename, cos.injEq, reduceCtorEq] at h'
    rw [ha _ h']
  | sign a ha =>
    intro e' h'
    cases e' <;> simp only [rename, sign.injEq, reduceCtorEq] at h'
    rw [ha _ h']
  | exp a ha =>
    intro e' h'
    cases e' <;> simp only [rename, exp.injEq, reduceCtorEq] at h'
    rw [ha _ h']

theorem subs_absent {x : String} {r : ℝ} {e : Expr} (h : x ∉ e.free) : e.subs x r = e := by
  induction e with
  | num q => rfl
  | sym s => simp only [free, List.mem_singleton] at h; simp only [subs, if_neg (Ne.symm h)]
  | add a b ha hb =>
    simp only [free, List.mem_append, not_or] at h
    simp only [subs, ha h.1, hb h.2]
  | mul a b ha hb =>
    simp only [free, List.mem_append, not_or] at h
    simp only [subs, ha h.1, hb h.2]
  | pow a q ha => simp only [subs, ha h]
  | sin a ha => simp only [subs, ha h]
  | cos a ha => simp only [subs, ha h]
  | sign a ha => simp only [subs, ha h]
  | exp a ha => simp only [subs, ha h]

end Expr

theorem A3.rename_injective {σ : String → String} (h : Function.Injective σ) {a a' : A3}
    (h' : a.rename σ = a'.rename σ) : a = a' := by
  cases a; cases a'
  simp only [A3.rename, A3.mk.injEq] at h' ⊢
  exact ⟨Expr.rename_injective h _ _ h'.1, Expr.rename_injective h _ _ h'.2.1, Expr.rename_injective h _ _ h'.2.2⟩

/-! ### numerical values -/

theorem Dict.get?_rename {σ : String → String} (h : Function.Injective σ) (d : Dict) (k : String) :
    Dict.get? (d.rename σ) (σ k) = Dict.get? d k := by
  induction d with
  | nil => rfl
  | cons p d ih =>
    unfold Dict.get? Dict.rename at ih ⊢
    by_cases hp : p.1 = k
    · simp [hp]
    · have : σ p.1 ≠ σ k := fun e => hp (h e)
      simp only [List.map_cons, List.find?_cons, decide_eq_false hp, decide_eq_false this]
      exact ih

theorem Dict.keys_rename (σ : String → String) (d : Dict) : (d.rename σ).keys = d.keys.map σ := by
  simp [Dict.keys, Dict.rename, Function.comp_def]

theorem mapM_rename {σ : String → String} (h : Function.Injective σ) (d : Dict) (l : List String) :
    (l.map σ).mapM (fun k => Dict.get? (d.rename σ) k) = l.mapM fun k => Dict.get? d k := by
  induction l with
  | nil => rfl
  | cons k l ih =>
    rw [List.map_cons, List.mapM_cons, List.mapM_cons, Dict.get?_rename h, ih]

namespace Lam

theorem envAt_rename {σ : String → String} (h : Function.Injective σ) (d : Dict) (i : List ℕ) (k : String) :
    envAt (d.rename σ) i (σ k) = envAt d i k := by
  have := Dict.get?_rename h d k
  unfold Dict.get? at this
  unfold envAt
  cases h1 : (d.rename σ).find? (fun p => decide (p.1 = σ k)) with
  | none =>
    cases h2 : d.find? (fun p => decide (p.1 = k)) with
    | none => rfl
    | some q => rw [h1, h2] at this; simp at this
  | some p =>
    cases h2 : d.find? (fun p => decide (p.1 = k)) with
    | none => rw [h1, h2] at this; simp at this
    | some q =>
      rw [h1, h2] at this
      simp only [Option.map_some, Option.some.injEq] at this
      show p.2.at' i = q.2.at' i
      rw [this]

theorem evalBound_rename {σ : String → String} (h : Function.Injective σ) (b : Backend) (e : Expr) (d : Dict) :
    evalBound b (e.rename σ) (d.rename σ) = evalBound b e d := by
  have hv : ∀ idx, (e.rename σ).evalX (envAt (d.rename σ) idx) = e.evalX (envAt d idx) := by
    intro idx
    rw [Expr.evalX_rename]
    congr 1
    funext s
    exact envAt_rename h d idx s
  have hsh : (d.rename σ).map (fun p => p.2.shape) = d.map fun p => p.2.shape := by
    simp [Dict.rename, Function.comp_def]
  cases b with
  | symengine =>
    unfold evalBound
    simp only [hsh, hv]
  | sympy =>
    have hk : (d.rename σ).map Prod.fst = (d.map Prod.fst).map σ := Dict.keys_rename σ d
    have h1 : (∀ s ∈ (e.rename σ).free, s ∈ (d.rename σ).map Prod.fst) ↔ ∀ s ∈ e.free, s ∈ d.map Prod.fst := by
      rw [Expr.free_rename, hk]
      constructor
      · intro H s hs
        obtain ⟨s', hs', e'⟩ := List.mem_map.1 (H _ (List.mem_map_of_mem hs))
        rwa [h e'] at hs'
      · intro H s hs
        obtain ⟨s', hs', rfl⟩ := List.mem_map.1 hs
        exact List.mem_map_of_mem (H _ hs')
    have h2 : ((d.rename σ).filter fun p => decide (p.1 ∈ (e.rename σ).free)).map (fun p => p.2.shape) =
        (d.filter fun p => decide (p.1 ∈ e.free)).map fun p => p.2.shape := by
      rw [Expr.free_rename]
      unfold Dict.rename
      rw [List.filter_map, List.map_map]
      congr 1
      refine List.filter_congr fun p _ => ?_
      simp only [Function.comp_apply, decide_eq_decide]
      exact List.mem_map_of_injective h
    unfold evalBound
    simp only [h1, h2, hv]

theorem bindArgs_rename {σ : String → String} (h : Function.Injective σ) (b : Backend) (vars : List String)
    (pos : List Arr) (d : Dict) :
    bindArgs b (vars.map σ) pos (d.rename σ) = (bindArgs b vars pos d).map (Dict.rename σ) := by
  have hm := mapM_rename h d (vars.drop pos.length)
  have hz : ∀ vals : List Arr, (vars.map σ).zip (pos ++ vals) = Dict.rename σ (vars.zip (pos ++ vals)) := by
    intro vals
    rw [List.zip_map_left]
    rfl
  have hu : (∃ p ∈ d.rename σ, p.1 ∉ (vars.drop pos.length).map σ) ↔ ∃ p ∈ d, p.1 ∉ vars.drop pos.length := by
    constructor
    · rintro ⟨p, hp, hn⟩
      obtain ⟨q, hq, rfl⟩ := List.mem_map.1 hp
      exact ⟨q, hq, fun hq' => hn (List.mem_map_of_mem hq')⟩
    · rintro ⟨q, hq, hn⟩
      refine ⟨_, List.mem_map_of_mem hq, fun hq' => hn ?_⟩
      obtain ⟨s, hs, e⟩ := List.mem_map.1 hq'
      rwa [h e] at hs
  unfold bindArgs
  simp only [← List.map_drop, List.length_map, hm, hz]
  cases b with
  | sympy =>
    simp only [hu]
    split_ifs
    · rfl
    · rfl
    · cases (vars.drop pos.length).mapM fun k => Dict.get? d k <;> rfl
  | symengine =>
    cases (vars.drop pos.length).mapM fun k => Dict.get? d k with
    | none => rfl
    | some v => simp only; split_ifs <;> rfl

end Lam

namespace Scatter

theorem renameL_eq (σ : String → String) (os : List Scatter) : renameL σ os = os.map (Scatter.rename σ) := by
  induction os with
  | nil => rfl
  | cons o os ih => rw [renameL, ih]; rfl

theorem angleExpr_rename {σ : String → String} (h : Renaming σ) (a : A3) :
    angleExpr (a.rename σ) = (angleExpr a).rename σ := by
  have e : (angleExpr a).rename σ =
      a.a0.rename σ * .cos (.sym (σ "theta_0")) * .cos (.sym (σ "theta_ex"))
        + a.a1.rename σ * .sin (.sym (σ "theta_0")) * .sin (.sym (σ "theta_ex"))
            * .cos (.sym (σ "phi_0")) * .cos (.sym (σ "phi_ex"))
        + a.a2.rename σ * .sin (.sym (σ "theta_0")) * .sin (.sym (σ "theta_ex"))
            * .sin (.sym (σ "phi_0")) * .sin (.sym (σ "phi_ex")) := rfl
  rw [e, h.angles "theta_0" (by simp), h.angles "theta_ex" (by simp), h.angles "phi_0" (by simp),
    h.angles "phi_ex" (by simp)]
  rfl

theorem primPhase_rename {σ : String → String} (h : Renaming σ) (a : A3) (k : Kind) :
    primPhase (a.rename σ) (k.rename σ) = (primPhase a k).rename σ := by
  cases k <;> simp only [Kind.rename, primPhase, hgExpr, angleExpr_rename h] <;> rfl

mutual
theorem phase_rename {σ : String → String} (h : Renaming σ) : ∀ o : Scatter,
    (o.rename σ).phase = o.phase.rename σ
  | prim k a _ => primPhase_rename h a k
  | lin ws os _ => phaseL_rename h ws os
theorem phaseL_rename {σ : String → String} (h : Renaming σ) : ∀ (ws : List Expr) (os : List Scatter),
    phaseL (ws.map (Expr.rename σ)) (renameL σ os) = (phaseL ws os).rename σ
  | [], [] => rfl
  | [], _ :: _ => rfl
  | _ :: _, [] => rfl
  | w :: ws, o :: os => by
    show w.rename σ * phase (o.rename σ) + phaseL (ws.map (Expr.rename σ)) (renameL σ os) = _
    rw [phase_rename h o, phaseL_rename h ws os]
    rfl
end

/-! ### the expansion -/

theorem primCoef_rename (σ : String → String) (a : A3) (k : Kind) (n : ℕ) :
    primCoef (a.rename σ) (k.rename σ) n = (primCoef a k n).rename σ := by
  cases k with
  | volHGRayleigh t =>
    simp only [Kind.rename, primCoef]
    split_ifs <;> rfl
  | _ => rfl

theorem legCoef_rename (σ : String → String) (o : Scatter) :
    (o.rename σ).legCoef = o.legCoef.map fun f n => (f n).rename σ := by
  cases o with
  | prim k a nc =>
    show Except.ok _ = Except.ok _
    congr 1
    funext n
    exact primCoef_rename σ a k n
  | lin ws os a => rfl

mutual
theorem ncoefs_rename (σ : String → String) : ∀ o : Scatter, (o.rename σ).ncoefs = o.ncoefs
  | prim k a nc => by cases k <;> cases nc <;> rfl
  | lin ws os a => by
    show (do let l ← ncoefsL (renameL σ os); _) = (do let l ← ncoefsL os; _)
    rw [ncoefsL_rename σ os]
theorem ncoefsL_rename (σ : String → String) : ∀ os : List Scatter, ncoefsL (renameL σ os) = ncoefsL os
  | [] => rfl
  | o :: os => by
    rw [renameL, ncoefsL, ncoefsL, ncoefs_rename σ o, ncoefsL_rename σ os]
end

/-- A group with other names. -/
def renameG (σ : String → String) (g : A3 × List (Expr × Scatter)) : A3 × List (Expr × Scatter) :=
  (g.1.rename σ, g.2.map fun p => (p.1.rename σ, p.2.rename σ))

theorem a_rename (σ : String → String) (o : Scatter) : (o.rename σ).a = o.a.rename σ := by cases o <;> rfl

theorem addGroup_rename {σ : String → String} (h : Function.Injective σ) (gs : List (A3 × List (Expr × Scatter)))
    (p : Expr × Scatter) :
    addGroup (gs.map (renameG σ)) (p.1.rename σ, p.2.rename σ) = (addGroup gs p).map (renameG σ) := by
  induction gs with
  | nil => simp [addGroup, renameG, a_rename]
  | cons g gs ih =>
    obtain ⟨k, l⟩ := g
    by_cases hk : k = p.2.a
    · have : k.rename σ = (p.2.rename σ).a := by rw [hk, a_rename]
      simp only [List.map_cons, renameG, addGroup, if_pos hk, if_pos this, List.map_append, List.map_nil]
    · have : k.rename σ ≠ (p.2.rename σ).a := fun e => hk (A3.rename_injective h (by rw [e, a_rename]))
      simp only [List.map_cons, addGroup, if_neg hk]
      show (if k.rename σ = (p.2.rename σ).a then _ else _) = _
      rw [if_neg this, ih]

theorem aGroups_rename {σ : String → String} (h : Function.Injective σ) (ws : List Expr) (os : List Scatter) :
    aGroups (ws.map (Expr.rename σ)) (renameL σ os) = (aGroups ws os).map (renameG σ) := by
  have key : ∀ (l : List (Expr × Scatter)) (gs : List (A3 × List (Expr × Scatter))),
      (l.map (Prod.map (Expr.rename σ) (Scatter.rename σ))).foldl addGroup (gs.map (renameG σ)) =
        (l.foldl addGroup gs).map (renameG σ) := by
    intro l
    induction l with
    | nil => intro gs; rfl
    | cons p l ih =>
      intro gs
      rw [List.map_cons, List.foldl_cons, List.foldl_cons, ← ih, ← addGroup_rename h]
      rfl
  unfold aGroups
  rw [renameL_eq, List.zip_map]
  exact key _ []

section
set_option linter.unusedSectionVars false
variable {R : Type} [CommRing R] [Algebra ℝ R] (emb : Expr → R)

theorem groupCoefs_rename (σ : String → String) (l : List (Expr × Scatter)) :
    groupCoefs emb (l.map fun p => (p.1.rename σ, p.2.rename σ)) = groupCoefs (fun e => emb (e.rename σ)) l := by
  induction l with
  | nil => rfl
  | cons p l ih =>
    obtain ⟨w, o⟩ := p
    rw [List.map_cons, groupCoefs, groupCoefs, ih, legCoef_rename]
    cases o.legCoef <;> rfl

theorem groupNcoefs_rename (σ : String → String) (l : List (Expr × Scatter)) :
    groupNcoefs (l.map fun p => (p.1.rename σ, p.2.rename σ)) = groupNcoefs l := by
  unfold groupNcoefs
  have : (l.map fun p => (p.1.rename σ, p.2.rename σ)).map Prod.snd = renameL σ (l.map Prod.snd) := by
    rw [renameL_eq, List.map_map, List.map_map]; rfl
  rw [this, ncoefsL_rename]

theorem groupsExpansion_rename (σ : String → String) (t0 tex p0 pex : Trig R)
    (gs : List (A3 × List (Expr × Scatter))) :
    groupsExpansion emb t0 tex p0 pex (gs.map (renameG σ)) =
      groupsExpansion (fun e => emb (e.rename σ)) t0 tex p0 pex gs := by
  induction gs with
  | nil => rfl
  | cons g gs ih =>
    obtain ⟨a, l⟩ := g
    rw [List.map_cons, renameG, groupsExpansion, groupsExpansion, groupNcoefs_rename, groupCoefs_rename, ih]
    rfl

theorem legExpansion_rename {σ : String → String} (h : Function.Injective σ) (t0 tex p0 pex : Trig R) (o : Scatter) :
    legExpansion emb t0 tex p0 pex (o.rename σ) = legExpansion (fun e => emb (e.rename σ)) t0 tex p0 pex o := by
  cases o with
  | prim k a nc =>
    have hn := ncoefs_rename σ (prim k a nc)
    have hc : (fun n => emb (primCoef (a.rename σ) (k.rename σ) n)) = fun n => emb ((primCoef a k n).rename σ) := by
      funext n; rw [primCoef_rename]
    rw [Scatter.rename] at hn ⊢
    unfold legExpansion
    simp only [hn, hc]
    rfl
  | lin ws os a =>
    show groupsExpansion emb t0 tex p0 pex (aGroups (ws.map (Expr.rename σ)) (renameL σ os)) = _
    rw [aGroups_rename h, groupsExpansion_rename]
    rfl

/-! ### the index -/

theorem indexed_absent {n : ℕ} {e : Expr} (h : "n" ∉ e.free) : indexed emb n e = emb e := by
  unfold indexed; rw [Expr.subs_absent h]

theorem angleR_indexed {n : ℕ} {a : A3} (h : "n" ∉ a.names) (t0 tex p0 pex : Trig R) :
    angleR (indexed emb n) t0 tex p0 pex a = angleR emb t0 tex p0 pex a := by
  simp only [A3.names, List.mem_append, not_or] at h
  unfold angleR
  rw [indexed_absent emb h.1.1, indexed_absent emb h.1.2, indexed_absent emb h.2]

theorem primCoef_names {a : A3} {k : Kind} {n : ℕ} {x : String} (hx : x ∈ (primCoef a k n).free) :
    x ∈ k.names ∨ x ∈ a.names := by
  cases k <;> simp only [primCoef, nadirHemreflect, Kind.names, A3.names] at hx ⊢
  all_goals (try split_ifs at hx)
  all_goals
    simp only [Expr.free, HAdd.hAdd, Add.add, HMul.hMul, Mul.mul, HSub.hSub, Sub.sub, HDiv.hDiv, Div.div, Neg.neg,
      List.mem_append, List.not_mem_nil] at hx ⊢
    try tauto

theorem sumIndex_absent {N : ℕ} {coef coef' : ℕ → R} (hc : ∀ n, coef n = coef' n) {a : A3} (h : "n" ∉ a.names)
    (t0 tex p0 pex : Trig R) :
    sumIndex emb N coef t0 tex p0 pex a = legSum N coef' (angleR emb t0 tex p0 pex a) := by
  unfold sumIndex legSum
  refine Finset.sum_congr rfl fun n _ => ?_
  rw [hc, angleR_indexed emb h]

/-- No part of the group has the name. -/
def Without (x : String) (l : List (Expr × Scatter)) : Prop := ∀ p ∈ l, x ∉ p.1.free ∧ x ∉ p.2.names

theorem legCoef_names {o : Scatter} {f : ℕ → Expr} (h : o.legCoef = .ok f) {x : String} (hx : x ∉ o.names) (n : ℕ) :
    x ∉ (f n).free := by
  cases o with
  | lin ws os a => cases h
  | prim k a nc =>
    cases h
    intro hm
    have := primCoef_names hm
    simp only [Scatter.names, List.mem_append] at hx
    exact hx this

theorem groupIndexed_absent {l : List (Expr × Scatter)} (h : Without "n" l) :
    groupIndexed emb l = groupCoefs emb l := by
  induction l with
  | nil => rfl
  | cons p l ih =>
    obtain ⟨w, o⟩ := p
    have h1 := h (w, o) List.mem_cons_self
    rw [groupIndexed, groupCoefs, ih fun q hq => h q (List.mem_cons_of_mem _ hq)]
    cases hf : o.legCoef with
    | error e => rfl
    | ok f =>
      cases groupCoefs emb l with
      | error e => rfl
      | ok g =>
        show Except.ok _ = Except.ok _
        congr 1
        funext n
        rw [indexed_absent emb h1.1, indexed_absent emb (legCoef_names hf h1.2 n)]

theorem groupsIndexed_absent {gs : List (A3 × List (Expr × Scatter))}
    (h : ∀ g ∈ gs, "n" ∉ g.1.names ∧ Without "n" g.2) (t0 tex p0 pex : Trig R) :
    groupsIndexed emb t0 tex p0 pex gs = groupsExpansion emb t0 tex p0 pex gs := by
  induction gs with
  | nil => rfl
  | cons g gs ih =>
    obtain ⟨a, l⟩ := g
    have h1 := h (a, l) List.mem_cons_self
    rw [groupsIndexed, groupsExpansion, groupIndexed_absent emb h1.2, ih fun q hq => h q (List.mem_cons_of_mem _ hq)]
    simp only [sumIndex_absent emb (fun _ => rfl) h1.1]

theorem names_a {o : Scatter} {x : String} (h : x ∉ o.names) : x ∉ o.a.names := by
  cases o <;> simp only [Scatter.names, List.mem_append, not_or] at h
  · exact h.2
  · exact h.2

theorem addGroup_without {gs : List (A3 × List (Expr × Scatter))} {p : Expr × Scatter} {x : String}
    (h : ∀ g ∈ gs, x ∉ g.1.names ∧ Without x g.2) (hp : x ∉ p.1.free ∧ x ∉ p.2.names) :
    ∀ g ∈ addGroup gs p, x ∉ g.1.names ∧ Without x g.2 := by
  induction gs with
  | nil =>
    intro g hg
    rw [addGroup, List.mem_singleton] at hg
    subst hg
    refine ⟨names_a hp.2, fun q hq => ?_⟩
    rw [List.mem_singleton] at hq
    rw [hq]; exact hp
  | cons k gs ih =>
    obtain ⟨k, l⟩ := k
    intro g hg
    rw [addGroup] at hg
    have h1 := h (k, l) List.mem_cons_self
    by_cases hk : k = p.2.a
    · rw [if_pos hk] at hg
      rcases List.mem_cons.1 hg with rfl | hg
      · refine ⟨h1.1, fun q hq => ?_⟩
        rcases List.mem_append.1 hq with hq | hq
        · exact h1.2 q hq
        · rw [List.mem_singleton] at hq
          rw [hq]; exact hp
      · exact h g (List.mem_cons_of_mem _ hg)
    · rw [if_neg hk] at hg
      rcases List.mem_cons.1 hg with rfl | hg
      · exact h1
      · exact ih (fun q hq => h q (List.mem_cons_of_mem _ hq)) g hg

theorem namesL_mem {x : String} {os : List Scatter} (h : x ∉ namesL os) {o : Scatter} (ho : o ∈ os) : x ∉ o.names := by
  induction os with
  | nil => cases ho
  | cons q os ih =>
    simp only [namesL, List.mem_append, not_or] at h
    rcases List.mem_cons.1 ho with rfl | ho
    · exact h.1
    · exact ih h.2 ho

theorem aGroups_without {ws : List Expr} {os : List Scatter} {x : String} (hw : x ∉ ws.flatMap Expr.free)
    (ho : x ∉ namesL os) : ∀ g ∈ aGroups ws os, x ∉ g.1.names ∧ Without x g.2 := by
  have key : ∀ (l : List (Expr × Scatter)) (gs : List (A3 × List (Expr × Scatter))), Without x l →
      (∀ g ∈ gs, x ∉ g.1.names ∧ Without x g.2) → ∀ g ∈ l.foldl addGroup gs, x ∉ g.1.names ∧ Without x g.2 := by
    intro l
    induction l with
    | nil => intro gs _ h; exact h
    | cons p l ih =>
      intro gs hl h
      rw [List.foldl_cons]
      exact ih _ (fun q hq => hl q (List.mem_cons_of_mem _ hq)) (addGroup_without h (hl p List.mem_cons_self))
  refine key _ [] ?_ (by simp)
  rintro ⟨w, o⟩ hp
  have := List.of_mem_zip hp
  exact ⟨fun h => hw (List.mem_flatMap.2 ⟨w, this.1, h⟩), namesL_mem ho this.2⟩

theorem symExpansion_absent {o : Scatter} (h : "n" ∉ o.names) (t0 tex p0 pex : Trig R) :
    symExpansion emb t0 tex p0 pex o = legExpansion emb t0 tex p0 pex o := by
  cases o with
  | prim k a nc =>
    have hc : ∀ n, indexed emb n (primCoef a k n) = emb (primCoef a k n) := fun n =>
      indexed_absent emb (legCoef_names (o := prim k a nc) rfl h n)
    have hs : ∀ N, sumIndex emb N (fun n => indexed emb n (primCoef a k n)) t0 tex p0 pex a =
        legSum N (fun n => emb (primCoef a k n)) (angleR emb t0 tex p0 pex a) := fun N =>
      sumIndex_absent emb hc (names_a h) t0 tex p0 pex
    unfold symExpansion legExpansion
    simp only [hs]
  | lin ws os a =>
    simp only [Scatter.names, List.mem_append, not_or] at h
    exact groupsIndexed_absent emb (aGroups_without h.1.1 h.1.2) t0 tex p0 pex
end

theorem calcVal_rename {σ : String → String} (h : Renaming σ) (b : Backend) (o : Scatter) (t0 tex p0 pex : Arr)
    (pd : Dict) : (o.rename σ).calcVal b t0 tex p0 pex (pd.rename σ) = o.calcVal b t0 tex p0 pex pd := by
  have hv : ["theta_0", "theta_ex", "phi_0", "phi_ex"] ++ (pd.rename σ).keys =
      (["theta_0", "theta_ex", "phi_0", "phi_ex"] ++ pd.keys).map σ := by
    rw [List.map_append, Dict.keys_rename]
    simp only [List.map_cons, List.map_nil, h.angles "theta_0" (by simp), h.angles "theta_ex" (by simp),
      h.angles "phi_0" (by simp), h.angles "phi_ex" (by simp)]
  have call : ∀ vars : List String, Lam.call b ⟨vars.map σ, o.phase.rename σ⟩ [t0, tex, p0, pex] (pd.rename σ) =
      Lam.call b ⟨vars, o.phase⟩ [t0, tex, p0, pex] pd := by
    intro vars
    unfold Lam.call
    simp only [Lam.bindArgs_rename h.inj]
    cases Lam.bindArgs b vars [t0, tex, p0, pex] pd with
    | error e => rfl
    | ok d => exact Lam.evalBound_rename h.inj b o.phase d
  unfold calcVal
  rw [hv, phase_rename h]
  generalize ["theta_0", "theta_ex", "phi_0", "phi_ex"] ++ pd.keys = vars
  cases b with
  | sympy => exact call vars
  | symengine =>
    have h1 : (∀ s ∈ (o.phase.rename σ).free, s ∈ vars.map σ) ↔ ∀ s ∈ o.phase.free, s ∈ vars := by
      rw [Expr.free_rename]
      constructor
      · intro H s hs
        exact (List.mem_map_of_injective h.inj).1 (H _ (List.mem_map_of_mem hs))
      · intro H s hs
        obtain ⟨s', hs', rfl⟩ := List.mem_map.1 hs
        exact List.mem_map_of_mem (H _ hs')
    unfold Lam.compile
    by_cases hf : ∀ s ∈ o.phase.free, s ∈ vars
    · simp only [if_pos hf, if_pos (h1.2 hf)]
      exact call vars
    · simp only [if_neg hf, if_neg (mt h1.1 hf)]
      rfl

end Scatter

end

end RT1
