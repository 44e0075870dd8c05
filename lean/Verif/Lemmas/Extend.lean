import Verif.Lemmas.CallL

/-! Evaluations that still succeed, with the same result, after more parameter names were added. -/

namespace RT1

noncomputable section
open Classical

/-- `y` succeeds with the same result wherever `x` succeeds. -/
def Ext {α : Type} (x y : Py α) : Prop := ∀ a, x = .ok a → y = .ok a

theorem Ext.refl {α : Type} (x : Py α) : Ext x x := fun _ h => h
theorem Ext.of_eq {α : Type} {x y : Py α} (h : x = y) : Ext x y := by subst h; exact Ext.refl x

theorem Ext.bind {α β : Type} {x y : Py α} {f g : α → Py β} (h : Ext x y)
    (hf : ∀ a, x = .ok a → Ext (f a) (g a)) : Ext (x >>= f) (y >>= g) := by
  intro b hb
  obtain ⟨a, ha, hb⟩ := ok_bind hb
  rw [h a ha]
  exact hf a ha b hb

theorem Ext.bind' {α β : Type} {x y : Py α} {f g : α → Py β} (h : Ext x y)
    (hf : ∀ a, Ext (f a) (g a)) : Ext (x >>= f) (y >>= g) := Ext.bind h fun a _ => hf a

theorem Ext.mulM {x y x' y' : Py Arr} (h : Ext x x') (h' : Ext y y') :
    Ext (RT1.mulM x y) (RT1.mulM x' y') := Ext.bind' h fun _ => Ext.bind' h' fun _ => Ext.refl _
theorem Ext.divM {x y x' y' : Py Arr} (h : Ext x x') (h' : Ext y y') :
    Ext (RT1.divM x y) (RT1.divM x' y') := Ext.bind' h fun _ => Ext.bind' h' fun _ => Ext.refl _
theorem Ext.addM {x y x' y' : Py Arr} (h : Ext x x') (h' : Ext y y') :
    Ext (RT1.addM x y) (RT1.addM x' y') := Ext.bind' h fun _ => Ext.bind' h' fun _ => Ext.refl _
theorem Ext.subM {x y x' y' : Py Arr} (h : Ext x x') (h' : Ext y y') :
    Ext (RT1.subM x y) (RT1.subM x' y') := Ext.bind' h fun _ => Ext.bind' h' fun _ => Ext.refl _
theorem Ext.mapM' {f : XR → XR} {x x' : Py Arr} (h : Ext x x') :
    Ext (RT1.mapM' f x) (RT1.mapM' f x') := Ext.bind' h fun _ => Ext.refl _

/-! ### dictionaries -/

theorem Dict.keys_append (d e : Dict) : (d ++ e : Dict).keys = d.keys ++ e.keys := List.map_append

theorem Dict.get?_append_left {d e : Dict} {k : String} (h : k ∈ d.keys) :
    Dict.get? (d ++ e) k = Dict.get? d k := by
  obtain ⟨v, hv⟩ := Dict.get?_of_mem h
  unfold Dict.get? at hv ⊢
  rw [List.find?_append]
  cases hf : d.find? (fun p => decide (p.1 = k)) with
  | none => rw [hf] at hv; cases hv
  | some p => rfl

theorem Dict.set_new {d : Dict} {k : String} (v : Arr) (h : k ∉ d.keys) :
    Dict.set d k v = d ++ [(k, v)] := by
  induction d with
  | nil => rfl
  | cons p d ih =>
    obtain ⟨k', v'⟩ := p
    have hk : k' ≠ k := by rintro rfl; exact h (by simp [Dict.keys])
    unfold Dict.set
    rw [if_neg hk, ih fun hm => h (by simp only [Dict.keys, List.map_cons, List.mem_cons] at hm ⊢; exact .inr hm)]
    rfl

theorem Dict.update_new {kw : Dict} : ∀ {d : Dict}, (∀ k ∈ kw.keys, k ∉ d.keys) → kw.keys.Nodup →
    Dict.update d kw = d ++ kw := by
  induction kw with
  | nil => intro d _ _; simp [Dict.update]
  | cons p kw ih =>
    intro d h hn
    obtain ⟨k, v⟩ := p
    have e : Dict.update d ((k, v) :: kw) = Dict.update (Dict.set d k v) kw := rfl
    have hn' : k ∉ Dict.keys kw ∧ (Dict.keys kw).Nodup := by
      rw [← List.nodup_cons]; exact hn
    rw [e, Dict.set_new v (h k (by simp [Dict.keys])), ih _ hn'.2, List.append_assoc]
    · rfl
    · intro k' hk' hm
      rw [Dict.keys_append, List.mem_append] at hm
      rcases hm with hm | hm
      · exact h k' (by simp only [Dict.keys, List.map_cons, List.mem_cons] at hk' ⊢; exact .inr hk') hm
      · simp only [Dict.keys, List.map_cons, List.map_nil, List.mem_singleton] at hm
        subst hm
        exact hn'.1 hk'

/-- Values of new parameters. -/
structure NewNames (pd ext : Dict) : Prop where
  new : ∀ k ∈ ext.keys, k ∉ pd.keys
  angle : ∀ k ∈ ext.keys, k ∉ ["theta_0", "theta_ex", "phi_0", "phi_ex"]

theorem mapM_congr_some {α β : Type} {f g : α → Option β} {l : List α} (h : ∀ a ∈ l, f a = g a) :
    l.mapM f = l.mapM g := by
  induction l with
  | nil => rfl
  | cons a l ih =>
    rw [List.mapM_cons, List.mapM_cons, h a (by simp), ih fun b hb => h b (by simp [hb])]

/-- Reading known names. -/
theorem pick_ext {pd ext : Dict} {ks : List String} :
    Ext (Self.pick pd ks) (Self.pick (pd ++ ext) ks) := by
  intro kw h
  have hk : ∀ k ∈ ks, k ∈ pd.keys := by
    unfold Self.pick at h
    cases hm : ks.mapM (fun k => (pd.get? k).map fun v => (k, v)) with
    | none => rw [hm] at h; cases h
    | some d =>
      intro k hk
      by_contra hn
      have hg : pd.get? k = none := by
        cases hg : pd.get? k with
        | none => rfl
        | some v => exact absurd (Lam.mem_of_get? hg) hn
      clear h
      induction ks generalizing d with
      | nil => cases hk
      | cons a ks ih =>
        rw [List.mapM_cons] at hm
        rcases List.mem_cons.1 hk with rfl | hk
        · rw [hg] at hm; cases hm
        · cases ha : pd.get? a with
          | none => rw [ha] at hm; cases hm
          | some v =>
            cases hm' : ks.mapM (fun k => (pd.get? k).map fun v => (k, v)) with
            | none => rw [ha, hm'] at hm; cases hm
            | some d' => exact ih d' hm' hk
  unfold Self.pick at h ⊢
  rw [mapM_congr_some (g := fun k => (pd.get? k).map fun v => (k, v))]
  · exact h
  · intro a ha
    rw [Dict.get?_append_left (hk a ha)]

/-- The object with further parameters. -/
def Obj.more (o : Obj) (ext : Dict) : Obj := { o with params := o.params ++ ext }

/-- tau, omega, NormBRDF and bsf. -/
theorem par_ext {b : Backend} {o : Obj} {ext : Dict} (p : PName) :
    Ext (Fresh.par b o p) (Fresh.par b (o.more ext) p) := by
  intro a h
  unfold Fresh.par at h ⊢
  have e1 : Fresh.pfun b (o.more ext) p = Fresh.pfun b o p := rfl
  have e2 : Fresh.symbs (o.more ext) p = Fresh.symbs o p := rfl
  rw [e1, e2]
  obtain ⟨f, hf, h⟩ := ok_bind h
  rw [hf]
  cases f with
  | none => exact h
  | some f =>
    have h : tryCatch (Self.pick o.params (Fresh.symbs o p) >>= fun kw => f.call b [] kw) (fun e =>
        if (Fresh.symbs o p).filter (fun k => decide (k ∉ o.params.keys)) ≠ [] then
          throw (.typeError ((Fresh.symbs o p).filter (fun k => decide (k ∉ o.params.keys))))
        else throw e) = Except.ok a := h
    show tryCatch (Self.pick (o.params ++ ext) (Fresh.symbs o p) >>= fun kw => f.call b [] kw) _ = _
    cases hx : Self.pick o.params (Fresh.symbs o p) >>= fun kw => f.call b [] kw with
    | error e =>
      rw [hx] at h
      have h : (if (Fresh.symbs o p).filter (fun k => decide (k ∉ o.params.keys)) ≠ [] then
          throw (.typeError ((Fresh.symbs o p).filter (fun k => decide (k ∉ o.params.keys))))
        else throw e : Py Arr) = Except.ok a := h
      split_ifs at h
    | ok z =>
      rw [hx] at h
      have h : Except.ok z = (Except.ok a : Py Arr) := h
      have h : z = a := by cases h; rfl
      subst h
      rw [Ext.bind (f := fun kw => f.call b [] kw) (g := fun kw => f.call b [] kw)
        (pick_ext (ext := ext)) (fun a _ => Ext.refl _) z hx]
      rfl

/-- Calls of the compiled scattering functions (sympy backend): names that do not occur are not
touched. -/
theorem call4_ext {e : Expr} {pd ext : Dict} (hn : NewNames pd ext) {a1 a2 a3 a4 : Arr} :
    Ext (Lam.call .sympy ⟨["theta_0", "theta_ex", "phi_0", "phi_ex"] ++ pd.keys, e⟩ [a1, a2, a3, a4] pd)
      (Lam.call .sympy ⟨["theta_0", "theta_ex", "phi_0", "phi_ex"] ++ (pd ++ ext : Dict).keys, e⟩
        [a1, a2, a3, a4] (pd ++ ext)) := by
  intro z h
  obtain ⟨bnd, hb, hz⟩ := ok_bind h
  have mem_some : ∀ (d : Dict) (ks : List String), (∀ k ∈ ks, k ∈ d.keys) →
      ∃ vs : List Arr, ks.mapM (fun k => d.get? k) = some vs ∧ vs.length = ks.length := by
    intro d ks hk
    induction ks with
    | nil => exact ⟨[], rfl, rfl⟩
    | cons k ks ih =>
      obtain ⟨vs, h1, h2⟩ := ih fun k hk' => hk k (by simp [hk'])
      obtain ⟨v, hv⟩ := Dict.get?_of_mem (hk k (by simp))
      exact ⟨v :: vs, by rw [List.mapM_cons, hv, h1]; rfl, by simp [h2]⟩
  have bind_form : ∀ d : Dict, ∃ vs : List Arr, d.keys.mapM (fun k => d.get? k) = some vs ∧
      vs.length = d.keys.length ∧
      Lam.bindArgs .sympy (["theta_0", "theta_ex", "phi_0", "phi_ex"] ++ d.keys) [a1, a2, a3, a4] d =
        .ok ((["theta_0", "theta_ex", "phi_0", "phi_ex"] ++ d.keys).zip ([a1, a2, a3, a4] ++ vs)) := by
    intro d
    obtain ⟨vs, h1, h2⟩ := mem_some d d.keys fun _ h => h
    refine ⟨vs, h1, h2, ?_⟩
    unfold Lam.bindArgs
    have hd : (["theta_0", "theta_ex", "phi_0", "phi_ex"] ++ d.keys).drop [a1, a2, a3, a4].length = d.keys := rfl
    simp only [hd]
    rw [if_neg (by simp), if_neg, h1]
    rintro ⟨p, hp, hp'⟩
    exact hp' (List.mem_map.2 ⟨p, hp, rfl⟩)
  obtain ⟨vs, v1, v2, v3⟩ := bind_form pd
  rw [v3] at hb
  cases hb
  obtain ⟨vs', u1, u2, u3⟩ := bind_form (pd ++ ext)
  -- the values of the known names come first
  obtain ⟨es, hes1, hes2⟩ := mem_some (pd ++ ext) ext.keys fun k hk => by
    rw [Dict.keys_append]; exact List.mem_append_right _ hk
  have hvs' : vs' = vs ++ es := by
    have hk : (pd ++ ext : Dict).keys = pd.keys ++ ext.keys := Dict.keys_append _ _
    rw [hk, List.mapM_append, mapM_congr_some (g := fun k => pd.get? k), v1, hes1] at u1
    · simpa using u1.symm
    · intro k hk'
      exact Dict.get?_append_left hk'
  have hbnd : (["theta_0", "theta_ex", "phi_0", "phi_ex"] ++ (pd ++ ext : Dict).keys).zip
      ([a1, a2, a3, a4] ++ vs') =
      (["theta_0", "theta_ex", "phi_0", "phi_ex"] ++ pd.keys).zip ([a1, a2, a3, a4] ++ vs) ++
        ext.keys.zip es := by
    rw [Dict.keys_append, hvs', ← List.append_assoc, ← List.append_assoc]
    exact List.zip_append (by simp [v2])
  unfold Lam.call
  rw [u3]
  show Lam.evalBound .sympy e _ = _
  rw [hbnd]
  generalize hB : (["theta_0", "theta_ex", "phi_0", "phi_ex"] ++ pd.keys).zip ([a1, a2, a3, a4] ++ vs) = B at hz
  have hBf : B.map Prod.fst = ["theta_0", "theta_ex", "phi_0", "phi_ex"] ++ pd.keys := by
    rw [← hB, List.map_fst_zip]
    simp [v2]
  have hz : Lam.evalBound .sympy e B = .ok z := hz
  unfold Lam.evalBound at hz ⊢
  simp only at hz ⊢
  by_cases hfree : ∀ s ∈ e.free, s ∈ B.map Prod.fst
  · rw [if_pos hfree] at hz
    rw [if_pos fun s hs => by rw [List.map_append]; exact List.mem_append_left _ (hfree s hs)]
    have hnew : ∀ p ∈ ext.keys.zip es, p.1 ∉ e.free := by
      intro p hp hpf
      have h1 := hfree _ hpf
      rw [hBf] at h1
      have h2 : p.1 ∈ ext.keys := (List.of_mem_zip (a := p.1) (b := p.2) hp).1
      rcases List.mem_append.1 h1 with h1 | h1
      · exact hn.angle _ h2 h1
      · exact hn.new _ h2 h1
    have hfil : (B ++ ext.keys.zip es).filter (fun p => decide (p.1 ∈ e.free)) =
        B.filter (fun p => decide (p.1 ∈ e.free)) := by
      rw [List.filter_append]
      have : (ext.keys.zip es).filter (fun p => decide (p.1 ∈ e.free)) = [] := by
        rw [List.filter_eq_nil_iff]
        intro p hp
        simpa using hnew p hp
      rw [this, List.append_nil]
    rw [hfil]
    have henv : ∀ idx s, s ∈ e.free → Lam.envAt (B ++ ext.keys.zip es) idx s = Lam.envAt B idx s := by
      intro idx s hs
      unfold Lam.envAt
      rw [List.find?_append]
      obtain ⟨p, hp, rfl⟩ := List.mem_map.1 (hfree s hs)
      cases hf : B.find? (fun q => decide (q.1 = p.1)) with
      | some q => rfl
      | none =>
        rw [List.find?_eq_none] at hf
        exact absurd (hf p hp) (by simp)
    cases hsh : Arr.bshapes ((B.filter fun p => decide (p.1 ∈ e.free)).map fun p => p.2.shape) with
    | none => rw [hsh] at hz; cases hz
    | some sh =>
      rw [hsh] at hz
      simp only at hz ⊢
      rw [← hz]
      congr 1
      congr 1
      funext idx
      exact Expr.evalX_congr fun n hn => henv idx n hn
  · rw [if_neg hfree] at hz
    cases hz

theorem calcVal_ext {s : Scatter} {pd ext : Dict} (hn : NewNames pd ext) {a1 a2 a3 a4 : Arr} :
    Ext (s.calcVal .sympy a1 a2 a3 a4 pd) (s.calcVal .sympy a1 a2 a3 a4 (pd ++ ext)) := by
  intro z h
  exact call4_ext hn z h

section
variable {o : Obj} {ext : Dict} (hn : NewNames o.params ext)
include hn

local notation "o'" => Obj.more o ext
local notation "A" => Fresh.acc0 Backend.sympy o
local notation "A'" => Fresh.acc0 Backend.sympy (Obj.more o ext)

theorem srfCalc_ext : Ext (A).srfCalc (A').srfCalc := by
  unfold Acc.srfCalc
  refine Ext.bind' (Ext.refl _) fun s => Ext.bind' (Ext.refl _) fun a1 => Ext.bind' (Ext.refl _) fun a2 =>
    Ext.bind' (Ext.refl _) fun a3 => Ext.bind' (Ext.refl _) fun a4 => ?_
  show Ext (liftPy (s.calcVal .sympy a1 a2 a3 a4 o.params) : Py Arr)
    (liftPy (s.calcVal .sympy a1 a2 a3 a4 (o.params ++ ext)))
  rw [liftPy_py, liftPy_py]
  exact calcVal_ext hn

theorem vCalc_ext : Ext (A).vCalc (A').vCalc := by
  unfold Acc.vCalc
  refine Ext.bind' (Ext.refl _) fun s => Ext.bind' (Ext.refl _) fun a1 => Ext.bind' (Ext.refl _) fun a2 =>
    Ext.bind' (Ext.refl _) fun a3 => Ext.bind' (Ext.refl _) fun a4 => ?_
  show Ext (liftPy (s.calcVal .sympy a1 a2 a3 a4 o.params) : Py Arr)
    (liftPy (s.calcVal .sympy a1 a2 a3 a4 (o.params ++ ext)))
  rw [liftPy_py, liftPy_py]
  exact calcVal_ext hn

omit hn in
theorem par_ext' (p : PName) : Ext ((A).par p) ((A').par p) := par_ext p

omit hn in
theorem atten_ext : Ext (A).atten (A').atten :=
  Ext.mapM' (Ext.subM (Ext.mapM' (Ext.divM (par_ext' _) (Ext.refl _))) (Ext.divM (par_ext' _) (Ext.refl _)))

theorem surface_ext : Ext (A).surface (A').surface := by
  unfold Acc.surface
  refine Ext.bind' (Ext.mulM (Ext.refl _) (srfCalc_ext hn)) fun a1 => ?_
  refine Ext.bind' (Ext.mulM atten_ext (Ext.refl _)) fun a2 => ?_
  exact Ext.mulM (par_ext' _) (Ext.addM (Ext.mulM (Ext.subM (Ext.refl _) (par_ext' _)) (Ext.refl _))
    (Ext.mulM (par_ext' _) (Ext.refl _)))

theorem volume_ext : Ext (A).volume (A').volume := by
  unfold Acc.volume
  refine Ext.bind' (Ext.mulM (Ext.mulM (Ext.divM (Ext.mulM (Ext.mulM (Ext.refl _) (par_ext' _)) (Ext.refl _))
    (Ext.refl _)) (Ext.subM (Ext.refl _) atten_ext)) (vCalc_ext hn)) fun a1 => ?_
  exact Ext.mulM (Ext.subM (Ext.refl _) (par_ext' _)) (Ext.refl _)

omit hn in
theorem convert_same (x : Arr) : (A').convert x = (A).convert x := rfl

theorem freshSurface_ext : Ext (Fresh.surface .sympy o) (Fresh.surface .sympy o') :=
  Ext.bind' (surface_ext hn) fun _ => Ext.refl _

theorem freshVolume_ext : Ext (Fresh.volume .sympy o) (Fresh.volume .sympy o') :=
  Ext.bind' (volume_ext hn) fun _ => Ext.refl _

theorem calcBody_ext (hq : o.intQ = false) : Ext (A).calcBody (A').calcBody := by
  unfold Acc.calcBody
  have q1 : (A).intQ = .ok false := by rw [← hq]; rfl
  have q2 : (A').intQ = .ok false := by rw [← hq]; rfl
  rw [q1, q2]
  refine Ext.bind' (par_ext' _) fun t => ?_
  by_cases ht : t.shape = []
  · rw [if_pos ht, if_pos ht]
    refine Ext.bind' (surface_ext hn) fun s => Ext.bind' (par_ext' _) fun t' => ?_
    by_cases hp : (t'.get []).isPos = true
    · rw [if_pos hp, if_pos hp]
      exact Ext.bind' (volume_ext hn) fun v => Ext.refl _
    · rw [if_neg hp, if_neg hp]
      exact Ext.refl _
  · rw [if_neg ht, if_neg ht]
    exact Ext.bind' (surface_ext hn) fun s => Ext.bind' (volume_ext hn) fun v => Ext.refl _

theorem calcAll_ext (hq : o.intQ = false) : Ext (Fresh.calcAll .sympy o) (Fresh.calcAll .sympy o') := by
  intro z h
  have hb : (A).calcBody = .ok z := by
    unfold Fresh.calcAll Acc.calcTry at h
    cases hc : (A).calcBody with
    | ok a => rw [hc] at h; exact h
    | error e =>
      rw [hc] at h
      exfalso
      cases e with
      | typeError ns =>
        have h' : ((A).missingNames >>= fun names =>
          if names ≠ [] then throw (.typeError names) else throw (.typeError ns) : Py Arr) = .ok z := h
        obtain ⟨names, -, h''⟩ := ok_bind h'
        split_ifs at h''
      | _ => cases h
  unfold Fresh.calcAll Acc.calcTry
  rw [calcBody_ext hn hq z hb]
  rfl

end

end

end RT1
