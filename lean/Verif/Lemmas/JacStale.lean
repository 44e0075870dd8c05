import Verif.Lemmas.JacTab

/-! `jacobian()` leaves a compiled derivative behind, and a derivative compiled for fewer names
than there are now raises (sympy). -/

namespace RT1

noncomputable section
open Classical

/-- From states satisfying `P`, if `x` returns, the result state satisfies `Q`. -/
def EnsF (P Q : World → Prop) {α : Type} (x : M α) : Prop :=
  ∀ w, P w → ∀ a, (x w).1 = .ok a → Q (x w).2

namespace EnsF
variable {P Q : World → Prop} {α β : Type}

theorem bind_left {x : M α} {f : α → M β} (h : EnsF P Q x) (hf : ∀ a, Safe Q (f a)) :
    EnsF P Q (x >>= f) := by
  intro w hw b hb
  cases hx : x w with
  | mk r w1 =>
    cases r with
    | error e => rw [bind_error hx] at hb; cases hb
    | ok a =>
      have h1 := h w hw a (by rw [hx])
      rw [hx] at h1
      rw [bind_ok hx]
      exact hf a w1 h1

theorem bind_ref {x : M α} {y : Py α} {f : α → M β} (h : Refines P x y)
    (hf : ∀ a, y = .ok a → EnsF P Q (f a)) : EnsF P Q (x >>= f) := by
  intro w hw b hb
  obtain ⟨h1, h2⟩ := h w hw
  cases hx : x w with
  | mk r w1 =>
    rw [hx] at h1 h2
    cases r with
    | error e => rw [bind_error hx] at hb; cases hb
    | ok a =>
      rw [bind_ok hx] at hb ⊢
      exact hf a h1.symm w1 h2 b hb

end EnsF

theorem Refines.toSafe {I : World → Prop} {α : Type} {x : M α} {y : Py α} (h : Refines I x y) :
    Safe I x := fun w hw => (h w hw).2

section
variable {w0 : World} {id : ℕ} {o : Obj} {key : String} {dv : Py Lam}

/-- `_d_volume_dummy_lambda` does not touch the other table. -/
theorem Refines.dVolLam' {T : LRU (ℕ × String) Lam → Prop} :
    Refines (During true w0 id o fun tv ts => lookV w0.backend id o key tv = dv ∧ T ts)
      (Self.dVolLam id key) dv := by
  intro w hw
  obtain ⟨o', ho', hf⟩ := hw.obj
  unfold Self.dVolLam RT1.memo
  have ht := hw.tab.1
  unfold lookV at ht
  cases hfind : LRU.find w.caches.dVol (id, key) with
  | some f =>
    rw [hfind] at ht
    simp only at ht ⊢
    refine ⟨ht, hw.backend, { hw.inv with },
      hw.next, hw.frame, hw.obj, ?_, hw.tab.2⟩
    show lookV _ _ _ _ (LRU.put _ _ _) = _
    unfold lookV
    rw [LRU.find_put_self]
    exact ht
  | none =>
    rw [hfind] at ht
    simp only at ht ⊢
    rw [bind_ok (getObj_some ho'), bind_ok (show getW w = (.ok w, w) from rfl)]
    rw [hw.backend]
    have hd : Lam.compile w0.backend
        (["theta_0", "theta_ex", "phi_0", "phi_ex"] ++ o'.params.keys) (o'.V.phase.diff key) = dv := by
      rw [hf.params, hf.V]; exact ht
    rw [hd]
    cases hdv : dv with
    | error e => exact ⟨rfl, by subst hdv; exact hw⟩
    | ok f =>
      refine ⟨rfl, hw.backend, { hw.inv with },
        hw.next, hw.frame, hw.obj, ?_, hw.tab.2⟩
      · show lookV _ _ _ _ (LRU.put _ _ _) = _
        unfold lookV
        rw [LRU.find_put_self]

/-- `_d_surface_dummy_lambda` stores what it returns. -/
theorem dSrfLam_stores : EnsF
    (During true w0 id o fun tv _ => lookV w0.backend id o key tv = dv ∧ True)
    (During true w0 id o fun tv ts => lookV w0.backend id o key tv = dv ∧
      (LRU.find ts (id, key)).isSome) (Self.dSrfLam id key) := by
  intro w hw a ha
  obtain ⟨o', ho', hf⟩ := hw.obj
  unfold Self.dSrfLam RT1.memo at ha ⊢
  cases hfind : LRU.find w.caches.dSrf (id, key) with
  | some f =>
    simp only
    refine ⟨hw.backend, { hw.inv with }, hw.next, hw.frame, hw.obj, hw.tab.1, ?_⟩
    show (LRU.find (LRU.put _ _ _) _).isSome
    rw [LRU.find_put_self]; rfl
  | none =>
    rw [hfind] at ha
    simp only at ha ⊢
    rw [bind_ok (getObj_some ho'), bind_ok (show getW w = (.ok w, w) from rfl)] at ha ⊢
    cases hd : Lam.compile w.backend
        (["theta_0", "theta_ex", "phi_0", "phi_ex"] ++ o'.params.keys) (o'.SRF.phase.diff key) with
    | error e => rw [hd] at ha; cases ha
    | ok f =>
      refine ⟨hw.backend, { hw.inv with }, hw.next, hw.frame, hw.obj, hw.tab.1, ?_⟩
      show (LRU.find (LRU.put _ _ _) _).isSome
      rw [LRU.find_put_self]; rfl

/-- The entry for a parameter of the phase functions stores the derivative. -/
theorem jacEntry_stores (hb : ¬ builtin key) (h1 : key ∉ Fresh.symbs o .NormBRDF)
    (h2 : key ∉ Fresh.symbs o .bsf) (norm : Arr) : EnsF
    (During true w0 id o fun tv _ => lookV w0.backend id o key tv = dv ∧ True)
    (During true w0 id o fun tv ts => lookV w0.backend id o key tv = dv ∧
      (LRU.find ts (id, key)).isSome) ((Self.acc w0.backend id).jacEntry norm key) := by
  have hP := accRef (full := true) (w0 := w0) (id := id) (o := o)
    (S := fun tv _ => lookV w0.backend id o key tv = dv ∧ True)
    (fun _ => dv) (Fresh.dSrf w0.backend o)
  have hQ := accRef (full := true) (w0 := w0) (id := id) (o := o)
    (S := fun tv ts => lookV w0.backend id o key tv = dv ∧ (LRU.find ts (id, key)).isSome)
    (fun _ => dv) (Fresh.dSrf w0.backend o)
  unfold Acc.jacEntry
  rw [if_neg fun h => hb (Or.inl h), if_neg fun h => hb (Or.inr (Or.inl h)),
    if_neg fun h => hb (Or.inr (Or.inr (Or.inl h))), if_neg fun h => hb (Or.inr (Or.inr (Or.inr h)))]
  refine EnsF.bind_ref hP.params fun pd _ => ?_
  split_ifs
  · refine EnsF.bind_left (EnsF.bind_left ?_ fun _ =>
      Safe.bind (hQ.dVolumeDummy key Refines.dVolLam').toSafe fun _ => Safe.lift _) fun _ =>
      Safe.bind (Safe.pure _) fun _ => Safe.lift _
    unfold Acc.dSurfaceDummy
    refine EnsF.bind_ref (hP.symbs .NormBRDF) fun s hs => ?_
    rw [Fresh.acc_symbs] at hs
    cases hs
    rw [if_neg h1]
    refine EnsF.bind_ref (hP.symbs .bsf) fun s hs => ?_
    rw [Fresh.acc_symbs] at hs
    cases hs
    rw [if_neg h2]
    refine EnsF.bind_left (EnsF.bind_ref (Refines.mulM hP.I0 hP.mu0) fun _ _ =>
      EnsF.bind_left (EnsF.bind_left dSrfLam_stores fun f => ?_) fun _ => Safe.lift _) fun x => ?_
    · exact Safe.bind hQ.t0.toSafe fun _ => Safe.bind hQ.tex.toSafe fun _ => Safe.bind hQ.p0.toSafe
        fun _ => Safe.bind hQ.pex.toSafe fun _ => Safe.bind hQ.params.toSafe fun _ => Safe.lift _
    · refine Safe.bind (Safe.mulM hQ.atten.toSafe (Safe.pure _)) fun y => ?_
      exact Safe.mulM (hQ.par _).toSafe (Safe.addM (Safe.mulM (Safe.subM (Safe.litM _)
        (hQ.par _).toSafe) (Safe.pure _)) (Safe.mulM (hQ.par _).toSafe (Safe.pure _)))
  · intro w _ a ha
    cases ha

end

/-- After a successful `jacobian([key])` the derivative is stored. -/
theorem jacobian1_stores {w w' : World} (hw : Reachable w) {id : ℕ} {o : Obj}
    (ho : w.objs id = some o) {key : String} (hb : ¬ builtin key)
    (h1 : key ∉ Fresh.symbs o .NormBRDF) (h2 : key ∉ Fresh.symbs o .bsf) {l : List Arr}
    (h : jacobianList id [key] w = (.ok l, w')) : (LRU.find w'.caches.dSrf (id, key)).isSome := by
  have hd : During true w id o (fun tv _ => lookV w.backend id o key tv =
    lookV w.backend id o key w.caches.dVol ∧ True) w := During.init hw.inv ho ⟨rfl, trivial⟩
  have hP := accRef (full := true) (w0 := w) (id := id) (o := o)
    (S := fun tv _ => lookV w.backend id o key tv = lookV w.backend id o key w.caches.dVol ∧ True)
    (Fresh.dVol w.backend o) (Fresh.dSrf w.backend o)
  have hQ := (EnsF.bind_ref (f := fun norm => (Self.acc w.backend id).jacLoop norm [key])
    hP.jacNorm fun norm _ => by
      unfold Acc.jacLoop Acc.jacLoop
      exact EnsF.bind_left (jacEntry_stores hb h1 h2 norm) fun _ =>
        Safe.bind (Safe.pure _) fun _ => Safe.pure _) w hd l
  have e : ((Self.acc w.backend id).jacNorm >>= fun norm =>
      (Self.acc w.backend id).jacLoop norm [key]) w = (.ok l, w') := by
    have h' := h
    unfold jacobianList at h'
    rw [bind_ok (show getW w = (.ok w, w) from rfl)] at h'
    exact h'
  rw [e] at hQ
  exact (hQ rfl).tab.2

/-- A successful call used a derivative that was compiled for the current names. -/
theorem jacEntry_current {o : Obj} {dv ds : String → Py Lam} {key : String}
    (hn : o.params.keys.Nodup) (hd : ∀ f, ds key = .ok f → DLamOK .sympy o.params (o.SRF.phase.diff key) f)
    (hb : ¬ builtin key) (h1 : key ∉ Fresh.symbs o .NormBRDF) (h2 : key ∉ Fresh.symbs o .bsf)
    {norm z : Arr} (h : (Fresh.acc .sympy o dv ds).jacEntry norm key = .ok z) :
    ds key = .ok ⟨["theta_0", "theta_ex", "phi_0", "phi_ex"] ++ o.params.keys, o.SRF.phase.diff key⟩ := by
  have bok : ∀ {α β : Type} {x : Py α} {f : α → Py β} {b : β}, (x >>= f) = .ok b →
      ∃ a, x = .ok a ∧ f a = .ok b := by
    intro α β x f b hx
    cases x with
    | error e => cases hx
    | ok a => exact ⟨a, rfl, hx⟩
  unfold Acc.jacEntry at h
  rw [if_neg fun h => hb (Or.inl h), if_neg fun h => hb (Or.inr (Or.inl h)),
    if_neg fun h => hb (Or.inr (Or.inr (Or.inl h))), if_neg fun h => hb (Or.inr (Or.inr (Or.inr h)))] at h
  obtain ⟨pd, -, h⟩ := bok h
  split_ifs at h
  · obtain ⟨x, hx, -⟩ := bok h
    obtain ⟨y, hy, -⟩ := bok hx
    unfold Acc.dSurfaceDummy at hy
    rw [Fresh.acc_symbs, okb, if_neg h1, Fresh.acc_symbs, okb, if_neg h2] at hy
    obtain ⟨u, hu, -⟩ := bok hy
    obtain ⟨v, -, hv⟩ := bok hu
    obtain ⟨q, hq, -⟩ := bok hv
    obtain ⟨f, hf, h3⟩ := bok hq
    obtain ⟨a1, -, h3⟩ := bok h3
    obtain ⟨a2, -, h3⟩ := bok h3
    obtain ⟨a3, -, h3⟩ := bok h3
    obtain ⟨a4, -, h3⟩ := bok h3
    obtain ⟨pd', hp, h3⟩ := bok h3
    have hp' : (Except.ok o.params : Py Dict) = .ok pd' := hp
    cases hp'
    have hf' : ds key = .ok f := hf
    obtain ⟨kb, hkb, h3⟩ := bok h3
    cases hkb
    rw [Refines.liftPy_py] at h3
    rw [hf', (hd f hf').current hn h3]

/-- A stored derivative whose names are not the current ones makes the call raise. -/
theorem jacobian1_raises {w : World} (hw : Reachable w) (hs : w.backend = .sympy) {id : ℕ} {o : Obj}
    (ho : w.objs id = some o) {key : String} (hb : ¬ builtin key)
    (h1 : key ∉ Fresh.symbs o .NormBRDF) (h2 : key ∉ Fresh.symbs o .bsf) {f : Lam}
    (hf : LRU.find w.caches.dSrf (id, key) = some f)
    (hne : f.vars ≠ ["theta_0", "theta_ex", "phi_0", "phi_ex"] ++ o.params.keys) :
    ∃ e, (jacobianList id [key] w).1 = .error e := by
  have hn := (ReachableAny.bsfOK hw.keeps.any ho).2
  rw [jacobian1_look hw ho, hs]
  have hl : lookS .sympy id o key w.caches.dSrf = .ok f := by unfold lookS; rw [hf]
  cases hx : (Fresh.acc0 .sympy o).jacNorm with
  | error e => exact ⟨e, rfl⟩
  | ok norm =>
    rw [okb]
    cases hy : (Fresh.acc .sympy o (fun _ => lookV .sympy id o key w.caches.dVol)
        (fun _ => lookS .sympy id o key w.caches.dSrf)).jacEntry norm key with
    | error e => exact ⟨e, rfl⟩
    | ok z =>
      exfalso
      have := jacEntry_current hn (fun g hg => by
        have := hw.invD.lookS (w0 := w) rfl ho (Filled.refl _ _) (key := key) (f := g)
          (by rw [hs]; exact hg)
        rwa [hs] at this) hb h1 h2 hy
      rw [hl] at this
      cases this
      exact hne rfl

/-- Adding a name after `jacobian([key])` makes `jacobian([key])` raise (sympy). -/
theorem jacobian1_added {w w1 : World} (hw : Reachable w) (hs : w.backend = .sympy) {id : ℕ} {o : Obj}
    (ho : w.objs id = some o) {key : String} (hb : ¬ builtin key)
    (h1 : key ∉ Fresh.symbs o .NormBRDF) (h2 : key ∉ Fresh.symbs o .bsf) {l : List Arr}
    (h : jacobianList id [key] w = (.ok l, w1)) {kw : Dict}
    (hk : ∃ k ∈ kw.keys, k ∉ o.params.keys) :
    ∃ e, (jacobianList id [key] (run w1 [.updateParams id kw])).1 = .error e := by
  have hst := jacobian1_stores hw ho hb h1 h2 h
  obtain ⟨-, hD⟩ := jacobianList_spec hw ho [key]
  rw [h] at hD
  obtain ⟨o1, ho1, hf⟩ := hD.1.obj
  have hw1 : Reachable w1 := by
    have := hw.step (op := .jacobian id [key] "list") trivial
    have e : (step (.jacobian id [key] "list") w).2 = w1 := by
      show ((jacobian id [key] "list" >>= fun _ => pure ()) w).2 = w1
      rw [bind_ok (jacobian_list.mpr h)]; rfl
    rwa [e] at this
  have hw2 : Reachable (run w1 [.updateParams id kw]) := hw1.step (op := .updateParams id kw) trivial
  have e2 : run w1 [.updateParams id kw] =
      { w1 with objs := Function.update w1.objs id (some (Fresh.update o1 kw)) } := by
    show (updateParams id kw w1).2 = _
    rw [updateParams_eq ho1]
  have ho2 : (run w1 [.updateParams id kw]).objs id = some (Fresh.update o1 kw) := by
    rw [e2]; exact Function.update_self ..
  have hb2 : (run w1 [.updateParams id kw]).backend = .sympy := by
    rw [run_backend, hD.1.backend, hs]
  obtain ⟨f, hff⟩ := Option.isSome_iff_exists.mp hst
  obtain ⟨o1', ho1', ks, hks, hc⟩ := hw1.invD.dSrf _ _ hff
  rw [show w1.objs id = some o1 from ho1] at ho1'
  cases ho1'
  have hv : f.vars = ["theta_0", "theta_ex", "phi_0", "phi_ex"] ++ ks := by
    have hc' := hc
    rw [show w1.backend = .sympy from hD.1.backend.trans hs] at hc'
    cases hc'; rfl
  refine jacobian1_raises hw2 hb2 ho2 hb (by
      rw [show Fresh.symbs (Fresh.update o1 kw) .NormBRDF = Fresh.symbs o .NormBRDF by
        unfold Fresh.symbs; rw [← hf.pdef]; rfl]
      exact h1) (by
      rw [show Fresh.symbs (Fresh.update o1 kw) .bsf = Fresh.symbs o .bsf by
        unfold Fresh.symbs; rw [← hf.pdef]; rfl]
      exact h2) (f := f) (by rw [e2]; exact hff) ?_
  rw [hv]
  intro he
  have he' := List.append_cancel_left he
  obtain ⟨k, hk1, hk2⟩ := hk
  have h3 : k ∈ (Fresh.update o1 kw).params.keys := by
    show k ∈ (o1.params.update _).keys
    rw [Dict.mem_keys_update]
    right
    obtain ⟨p, hp, rfl⟩ := List.mem_map.mp hk1
    refine List.mem_map.mpr ⟨(p.1, p.2.atleast1d), List.mem_map.mpr ⟨p, ?_, rfl⟩, rfl⟩
    split
    · split_ifs
      · exact hp
      · exact List.mem_append_left _ hp
    · exact hp
  rw [← he'] at h3
  rw [← hf.params] at hk2
  exact hk2 (hks.subset h3)

/-- With the phase function derivatives forgotten, a complete object has every entry. -/
theorem jacobian1_cleared {w : World} (hw : Reachable w) {id : ℕ} {o : Obj}
    (ho : w.objs id = some o) {S : List ℕ} (hc : Complete o S) {key : String}
    (hk : builtin key ∨ key ∈ o.params.keys) (hv : LRU.find w.caches.dVol (id, key) = none)
    (hs : LRU.find w.caches.dSrf (id, key) = none) :
    ∃ l w', jacobianList id [key] w = (.ok l, w') := by
  suffices H : ∃ l, (jacobianList id [key] w).1 = .ok l by
    obtain ⟨l, hl⟩ := H
    exact ⟨l, _, Prod.ext hl rfl⟩
  rw [jacobian1_look hw ho]
  obtain ⟨norm, hn, hfn⟩ := hc.s_jacNorm w.backend (Fresh.dVol w.backend o) (Fresh.dSrf w.backend o)
  have hn' : (Fresh.acc0 w.backend o).jacNorm = .ok norm := hn
  rw [hn', okb]
  have e1 : lookV w.backend id o key w.caches.dVol = Fresh.dVol w.backend o key := by
    unfold lookV; rw [hv]
  have e2 : lookS w.backend id o key w.caches.dSrf = Fresh.dSrf w.backend o key := by
    unfold lookS; rw [hs]
  rw [e1, e2]
  obtain ⟨z, hz, -⟩ : Succ ((Fresh.acc w.backend o (fun _ => Fresh.dVol w.backend o key)
      (fun _ => Fresh.dSrf w.backend o key)).jacEntry norm key) S := by
    by_cases hb : builtin key
    · have := hc.s_jacEntry w.backend (DOK.fresh w.backend o) hfn (Or.inl hb)
      unfold Acc.jacEntry at this ⊢
      split_ifs at this ⊢ with c1 c2 c3 c4
      · exact this
      · exact this
      · exact this
      · exact this
      · rcases hb with hb | hb | hb | hb <;> contradiction
    · have hk' := hk.resolve_left hb
      have hd := hc.s_dummy w.backend (DOK.fresh w.backend o) key
        (fun _ f hf => by rw [Lam.compile_ok hf]) (fun _ f hf => by rw [Lam.compile_ok hf])
      unfold Acc.jacEntry
      rw [if_neg fun h => hb (Or.inl h), if_neg fun h => hb (Or.inr (Or.inl h)),
        if_neg fun h => hb (Or.inr (Or.inr (Or.inl h))),
        if_neg fun h => hb (Or.inr (Or.inr (Or.inr h)))]
      have e3 : (Fresh.acc w.backend o (fun _ => Fresh.dVol w.backend o key)
        (fun _ => Fresh.dSrf w.backend o key)).params = .ok o.params := rfl
      rw [e3, okb, if_pos hk']
      exact Succ.mulM (Succ.addM hd.2 hd.1) (Succ.pure hfn)
  rw [hz]
  exact ⟨[z], rfl⟩

end

end RT1
