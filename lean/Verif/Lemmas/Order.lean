import Verif.Spec.Order
import Verif.Lemmas.DemoInt
import Verif.Lemmas.Shape

/-! Evaluation does not depend on the order of the entries of the parameter dictionary. -/

namespace RT1

noncomputable section
open Classical

theorem Arr.bshapes_perm {l l' : List (List ℕ)} (h : l.Perm l') : Arr.bshapes l = Arr.bshapes l' := by
  have key : ∀ {l l' : List (List ℕ)}, l.Perm l' → ∀ u, Arr.bshapes l = some u → Arr.bshapes l' = some u := by
    intro l l' h u hu
    obtain ⟨v, hv, hf⟩ := Arr.bshapes_of_fits (l := l') (u := u) fun s hs => Arr.bshapes_fits hu (h.symm.subset hs)
    obtain ⟨v', hv', hf'⟩ := Arr.bshapes_of_fits (l := l) (u := v) fun s hs => Arr.bshapes_fits hv (h.subset hs)
    rw [hu] at hv'
    cases hv'
    rw [hv, Arr.Fits.antisymm hf hf']
  cases h1 : Arr.bshapes l with
  | some u => exact (key h u h1).symm
  | none =>
    cases h2 : Arr.bshapes l' with
    | none => rfl
    | some u => rw [key h.symm u h2] at h1; cases h1

/-- The same entries in another order. -/
structure Dict.Same (d d' : Dict) : Prop where
  left : d.keys.Nodup
  right : d'.keys.Nodup
  get : ∀ k, d.get? k = d'.get? k

namespace Dict.Same
variable {d d' : Dict}

theorem symm (h : Same d d') : Same d' d := ⟨h.right, h.left, fun k => (h.get k).symm⟩

theorem refl (h : d.keys.Nodup) : Same d d := ⟨h, h, fun _ => rfl⟩

theorem sub (h : Same d d') {p : String × Arr} (hp : p ∈ d) : p ∈ d' := by
  have := Dict.get?_of_nodup h.left hp
  rw [h.get] at this
  exact Dict.mem_of_get? this

theorem perm (h : Same d d') : d.Perm d' :=
  (List.perm_ext_iff_of_nodup (List.Nodup.of_map _ h.left) (List.Nodup.of_map _ h.right)).2
    fun _ => ⟨h.sub, h.symm.sub⟩

theorem keys (h : Same d d') : d.keys.Perm d'.keys := h.perm.map _

theorem mem (h : Same d d') (k : String) : k ∈ d.keys ↔ k ∈ d'.keys := h.keys.mem_iff

end Dict.Same

theorem lastValue_nodup {l : Dict} (h : l.keys.Nodup) (k : String) : lastValue l k = l.get? k := by
  induction l with
  | nil => rfl
  | cons p l ih =>
    have h' : (p.1 :: Dict.keys l).Nodup := h
    rw [List.nodup_cons] at h'
    rw [lastValue_cons, Dict.get?_cons, ih h'.2]
    by_cases hk : p.1 = k
    · have : Dict.get? l k = none := by
        cases hg : Dict.get? l k with
        | none => rfl
        | some v => exact (h'.1 (by rw [hk]; exact Lam.mem_of_get? hg)).elim
      rw [this, if_pos hk]; rfl
    · rw [if_neg hk, if_neg hk]; simp

theorem Dict.Same.of_perm {d d' : Dict} (h : d.Perm d') (hn : d.keys.Nodup) : Dict.Same d d' := by
  have hn' : Dict.keys d' |>.Nodup := (h.map Prod.fst).nodup_iff.1 hn
  refine ⟨hn, hn', fun k => ?_⟩
  cases hg : Dict.get? d k with
  | some v => exact (Dict.get?_of_nodup hn' (q := (k, v)) (h.subset (Dict.mem_of_get? hg))).symm
  | none =>
    cases hg' : Dict.get? d' k with
    | none => rfl
    | some v =>
      rw [Dict.get?_of_nodup hn (q := (k, v)) (h.symm.subset (Dict.mem_of_get? hg'))] at hg
      cases hg

theorem Dict.Same.update {d d' kw kw' : Dict} (h : Dict.Same d d') (hk : Dict.Same kw kw') :
    Dict.Same (d.update kw) (d'.update kw') := by
  refine ⟨Dict.nodup_update h.left _, Dict.nodup_update h.right _, fun k => ?_⟩
  rw [Dict.get?_update, Dict.get?_update, lastValue_nodup hk.left, lastValue_nodup hk.right, hk.get, h.get]

theorem Dict.mapM_keys {d : Dict} (h : d.keys.Nodup) :
    d.keys.mapM (fun k => d.get? k) = some (d.map Prod.snd) := by
  have key : ∀ l : Dict, (∀ p ∈ l, d.get? p.1 = some p.2) →
      (Dict.keys l).mapM (fun k => d.get? k) = some (l.map Prod.snd) := by
    intro l
    induction l with
    | nil => intro _; rfl
    | cons p l ih =>
      intro hl
      show (p.1 :: Dict.keys l).mapM (fun k => d.get? k) = _
      rw [List.mapM_cons, hl p (by simp), ih fun q hq => hl q (List.mem_cons_of_mem _ hq)]
      rfl
  exact key d fun p hp => Dict.get?_of_nodup h hp

theorem zip_keys (d : Dict) : (Dict.keys d).zip (d.map Prod.snd) = d := by
  induction d with
  | nil => rfl
  | cons p d ih => exact congrArg (p :: ·) ih

/-- The function with the names of the four angles and of all parameters. -/
def callKeys (b : Backend) (e : Expr) (a1 a2 a3 a4 : Arr) (pd : Dict) : Py Arr := do
  let f ← Lam.compile b (["theta_0", "theta_ex", "phi_0", "phi_ex"] ++ pd.keys) e
  f.call b [a1, a2, a3, a4] pd

theorem envAt_perm (l : List (String × Arr)) {d d' : Dict} (h : Dict.Same d d') (idx : List ℕ) :
    Lam.envAt (l ++ d) idx = Lam.envAt (l ++ d') idx := by
  funext s
  induction l with
  | nil =>
    have : ∀ d : Dict, Lam.envAt d idx s = match d.get? s with | some a => a.at' idx | none => XR.nan := by
      intro d
      unfold Lam.envAt Dict.get?
      cases List.find? (fun p => decide (p.1 = s)) d <;> rfl
    simp only [List.nil_append]
    rw [this d, this d', h.get]
  | cons p l ih =>
    obtain ⟨k, a⟩ := p
    rw [List.cons_append, List.cons_append, Lam.envAt_cons, Lam.envAt_cons, ih]

theorem bind4 {b : Backend} {e : Expr} (a1 a2 a3 a4 : Arr) {d : Dict} (h : d.keys.Nodup) :
    Lam.call b ⟨["theta_0", "theta_ex", "phi_0", "phi_ex"] ++ d.keys, e⟩ [a1, a2, a3, a4] d =
      Lam.evalBound b e ([("theta_0", a1), ("theta_ex", a2), ("phi_0", a3), ("phi_ex", a4)] ++ d) := by
  have hz : (["theta_0", "theta_ex", "phi_0", "phi_ex"] ++ d.keys).zip ([a1, a2, a3, a4] ++ d.map Prod.snd) =
      [("theta_0", a1), ("theta_ex", a2), ("phi_0", a3), ("phi_ex", a4)] ++ d := by
    exact congrArg ([("theta_0", a1), ("theta_ex", a2), ("phi_0", a3), ("phi_ex", a4)] ++ ·) (zip_keys d)
  have hd : (["theta_0", "theta_ex", "phi_0", "phi_ex"] ++ d.keys).drop [a1, a2, a3, a4].length = d.keys := rfl
  unfold Lam.call Lam.bindArgs
  simp only
  rw [hd, Dict.mapM_keys h]
  have hl : ¬ (["theta_0", "theta_ex", "phi_0", "phi_ex"] ++ d.keys).length < [a1, a2, a3, a4].length := by simp
  have hm : ¬ ∃ p ∈ d, p.1 ∉ d.keys := by
    rintro ⟨p, hp, h'⟩
    exact h' (List.mem_map_of_mem hp)
  cases b with
  | sympy =>
    simp only [if_neg hl, if_neg hm, hz]
    rfl
  | symengine =>
    simp only [if_neg hl, hz]
    rfl

theorem callKeys_same {b : Backend} {e : Expr} (a1 a2 a3 a4 : Arr) {d d' : Dict} (h : Dict.Same d d') :
    callKeys b e a1 a2 a3 a4 d = callKeys b e a1 a2 a3 a4 d' := by
  have hE : Lam.evalBound b e ([("theta_0", a1), ("theta_ex", a2), ("phi_0", a3), ("phi_ex", a4)] ++ d) =
      Lam.evalBound b e ([("theta_0", a1), ("theta_ex", a2), ("phi_0", a3), ("phi_ex", a4)] ++ d') := by
    have hp : ([("theta_0", a1), ("theta_ex", a2), ("phi_0", a3), ("phi_ex", a4)] ++ d).Perm
      ([("theta_0", a1), ("theta_ex", a2), ("phi_0", a3), ("phi_ex", a4)] ++ d') := h.perm.append_left _
    have he := envAt_perm [("theta_0", a1), ("theta_ex", a2), ("phi_0", a3), ("phi_ex", a4)] h
    generalize [("theta_0", a1), ("theta_ex", a2), ("phi_0", a3), ("phi_ex", a4)] ++ d = m at *
    generalize [("theta_0", a1), ("theta_ex", a2), ("phi_0", a3), ("phi_ex", a4)] ++ d' = m' at *
    have he' : (fun idx => e.evalX (Lam.envAt m idx)) = fun idx => e.evalX (Lam.envAt m' idx) := funext fun idx => by rw [he idx]
    unfold Lam.evalBound
    cases b with
    | sympy =>
      simp only
      rw [Arr.bshapes_perm ((hp.filter _).map _), he']
      have : (∀ s ∈ e.free, s ∈ m.map Prod.fst) ↔ ∀ s ∈ e.free, s ∈ m'.map Prod.fst :=
        forall_congr' fun s => imp_congr_right fun _ => (hp.map Prod.fst).mem_iff
      simp only [this]
    | symengine =>
      simp only
      rw [Arr.bshapes_perm (hp.map _), he']
  unfold callKeys Lam.compile
  cases b with
  | sympy =>
    simp only [okb]
    rw [bind4 a1 a2 a3 a4 h.left, bind4 a1 a2 a3 a4 h.right, hE]
  | symengine =>
    have : (∀ s ∈ e.free, s ∈ ["theta_0", "theta_ex", "phi_0", "phi_ex"] ++ d.keys) ↔
        ∀ s ∈ e.free, s ∈ ["theta_0", "theta_ex", "phi_0", "phi_ex"] ++ d'.keys := by
      refine forall_congr' fun s => imp_congr_right fun _ => ?_
      rw [List.mem_append, List.mem_append, h.mem]
    simp only
    by_cases hc : ∀ s ∈ e.free, s ∈ ["theta_0", "theta_ex", "phi_0", "phi_ex"] ++ d.keys
    · rw [if_pos hc, if_pos (this.1 hc)]
      simp only [okb]
      rw [bind4 a1 a2 a3 a4 h.left, bind4 a1 a2 a3 a4 h.right, hE]
    · rw [if_neg hc, if_neg (fun h => hc (this.2 h))]
      rfl

end

end RT1
