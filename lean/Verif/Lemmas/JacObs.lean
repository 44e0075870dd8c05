import Verif.Lemmas.JacSucc
import Verif.Lemmas.CallL

/-! Observations of `jacobian()` compared with the memo-free evaluation. -/

namespace RT1

noncomputable section
open Classical

/-- The list format is the list that was computed. -/
theorem jacobian_list {id : ℕ} {keys : List String} {w w' : World} {l : List Arr} :
    jacobian id keys "list" w = (.ok (.inl l), w') ↔ jacobianList id keys w = (.ok l, w') := by
  unfold jacobian
  constructor
  · intro h
    cases hx : jacobianList id keys w with
    | mk r w1 =>
      cases r with
      | error e => rw [bind_error hx] at h; cases h
      | ok l1 =>
        rw [bind_ok hx, if_pos rfl] at h
        have h' : ((.ok (.inl l1), w1) : Py (List Arr ⊕ List (List XR)) × World) = (.ok (.inl l), w') := h
        simp only [Prod.mk.injEq, Except.ok.injEq, Sum.inl.injEq] at h'
        rw [h'.1, h'.2]
  · intro h
    rw [bind_ok h, if_pos rfl]
    rfl

/-- What an entry of the jacobian says about one object. -/
theorem ObservesJac.elim {key : String} {c : Cfg} {d : PName → PDef} {x : Site} {r : XR}
    (h : ObservesJac key c d x r) : ∃ b o idx, FSite b o idx x ∧ o.cfg = c ∧ o.pdef = d ∧
      ∀ f p, c.SRF.ValueAt x f → c.V.ValueAt x p →
        r = (XSite.of b o idx).entry o key (XR.fin f) (XR.fin p) (fun n => XR.fin (x.env n)) *
          (XSite.of b o idx).norm o.sig0 o.dB (XR.fin f) (XR.fin p) := by
  obtain ⟨w, id, keys, l, w', i, z, idx, hw, hj, hi, hz, hv, hg, hs, o', ho', hc, hd⟩ := h
  have hj' := jacobian_list.mp hj
  have hobj : ∃ o, w.objs id = some o := by
    cases ho : w.objs id with
    | some o => exact ⟨o, rfl⟩
    | none =>
      have h1 := (frame_step (op := .jacobian id keys "list") rfl (by simp [Op.creates]) w w
        (FrameP.refl w id)).ex
      have e : (step (.jacobian id keys "list") w).2 = w' := by
        show ((jacobian id keys "list" >>= fun _ => pure ()) w).2 = w'
        rw [bind_ok hj]; rfl
      rw [e, ho, ho'] at h1
      cases h1
  obtain ⟨o, ho⟩ := hobj
  obtain ⟨h1, h2⟩ := jacobianList_spec hw ho keys
  rw [hj'] at h1 h2
  obtain ⟨o1, ho1, hf⟩ := h2.1.obj
  rw [ho'] at ho1
  cases ho1
  have hfs : FSite w.backend o idx x := by
    have := hs.fsite h2.1.inv ho'
    rw [h2.1.backend] at this
    exact FSite.filled hf.symm this
  refine ⟨w.backend, o, idx, hfs, hf.cfg.symm.trans hc, hf.pdef.symm.trans hd, fun f p hF hP => ?_⟩
  have hcfg : o.cfg = c := hf.cfg.symm.trans hc
  have hSRF : o.SRF = c.SRF := by rw [← hcfg]; rfl
  have hV : o.V = c.V := by rw [← hcfg]; rfl
  rw [← hSRF] at hF
  rw [← hV] at hP
  cases hn : (Fresh.acc0 w.backend o).jacNorm with
  | error e => rw [hn] at h1; cases h1
  | ok norm =>
    rw [hn] at h1
    have h1' : JacSpec w.backend o norm keys (.ok l) := h1
    obtain ⟨z', dv, ds, hz', hdok, he⟩ := h1'.get.2 i key hi
    rw [hz] at hz'
    cases hz'
    have hnv := PW.jacNorm (hfs.srf hF) (hfs.vol hP) norm hn
    have := PW.jacEntry hdok (hfs.srf hF) (hfs.vol hP) hnv key
      (E := fun n => XR.fin (x.env n)) (fun n hn => hfs.x_env hn) z he
    rw [← hg, ← Arr.at'_valid hv]
    exact this

/-! ### shapes of the entries -/

namespace Below
variable {b : Backend} {o : Obj} {dv ds : String → Py Lam} {m : Arr} (hm : Fresh.mu0 o = .ok m)
include hm

local notation "A" => Fresh.acc b o dv ds

theorem dvolumeDtau : Below m.shape (A).dvolumeDtau :=
  bind fun _ h1 => mul_right (pure (mul_left (mul_left (mul_right (div_left (self hm)))) _ h1))
theorem dvolumeDomega : Below m.shape (A).dvolumeDomega :=
  bind fun _ h1 => mul_right (pure (mul_left (mul_left (div_left (mul_right (self hm)))) _ h1))
theorem dvolumeDbsf : Below m.shape (A).dvolumeDbsf :=
  bind fun a h1 => pure (show Arr.Fits m.shape a.shape from
    mul_left (mul_left (div_left (mul_right (self hm)))) _ h1)
theorem dsurfaceDNormBRDF : Below m.shape (A).dsurfaceDNormBRDF :=
  bind fun _ h1 => bind fun _ _ => add_right (mul_right (pure (mul_left (mul_right (self hm)) _ h1)))

theorem dVolumeDummy (key : String) : Below m.shape ((A).dVolumeDummy key) := by
  unfold Acc.dVolumeDummy
  refine bind fun s _ => ?_
  split_ifs
  · exact bind fun _ _ => mul_left (dvolumeDtau hm)
  refine bind fun s _ => ?_
  split_ifs
  · exact bind fun _ _ => mul_left (dvolumeDomega hm)
  refine bind fun s _ => ?_
  split_ifs
  · exact bind fun _ _ => mul_left (dvolumeDbsf hm)
  exact bind fun _ h1 => mul_right (pure (mul_left (mul_left (div_left (mul_right (self hm)))) _ h1))

theorem jacEntry (norm : Arr) (key : String) : Below m.shape ((A).jacEntry norm key) := by
  unfold Acc.jacEntry
  split_ifs
  · exact mul_left (add_right (dvolumeDomega hm))
  · exact mul_left (add_right (dvolumeDtau hm))
  · exact mul_left (add_left (dsurfaceDNormBRDF hm))
  · exact mul_left (add_right (dvolumeDbsf hm))
  · refine bind fun _ _ => ?_
    split_ifs
    · exact mul_left (add_right (dVolumeDummy hm key))
    · intro z hz; cases hz

end Below

/-- `jacobian([key])` of an object with scalar inputs returns a value at the index `[0]`. -/
theorem ObservesJac.of_complete {w : World} (hw : Reachable w) {id : ℕ} {o : Obj}
    (ho : w.objs id = some o) (hc : Complete o [1]) {m : Arr} (hm : Fresh.mu0 o = .ok m)
    (hms : m.shape = [1]) {key : String}
    (hk : builtin key ∨ w.backend = .symengine ∧ key ∈ o.params.keys) {x : Site}
    (hs : FSite w.backend o [0] x) : ∃ r, ObservesJac key o.cfg o.pdef x r := by
  obtain ⟨l, w', hl⟩ := jacobianList_succ hw ho hc (keys := [key])
    (by intro k hk'; simp only [List.mem_singleton] at hk'; rw [hk']; exact hk)
  obtain ⟨h1, h2⟩ := jacobianList_spec hw ho [key]
  rw [hl] at h1 h2
  obtain ⟨o', ho', hf⟩ := h2.1.obj
  obtain ⟨norm, hn, hfn⟩ := hc.s_jacNorm w.backend (Fresh.dVol w.backend o) (Fresh.dSrf w.backend o)
  have hn' : (Fresh.acc0 w.backend o).jacNorm = .ok norm := hn
  rw [hn'] at h1
  have h1' : JacSpec w.backend o norm [key] (.ok l) := h1
  obtain ⟨z, dv, ds, hz, hdok, he⟩ := h1'.get.2 0 key rfl
  obtain ⟨z', hz', hfz⟩ := hc.s_jacEntry w.backend hdok hfn hk
  rw [he] at hz'
  cases hz'
  refine ⟨z.get [0], w, id, [key], l, w', 0, z, [0], hw, jacobian_list.mpr hl, rfl, hz, ?_, rfl, ?_,
    o', ho', ?_, ?_⟩
  · exact shape_one hms (Below.jacEntry hm norm key z he) hfz
  · refine SiteAt.of_fsite h2.1.inv ho' ?_
    rw [h2.1.backend]
    exact FSite.filled hf hs
  · exact hf.cfg
  · exact hf.pdef

theorem demo_jac {V SRF : Scatter} (hV : V.Plain) (hS : SRF.Plain) (q s d : Bool)
    (I t p τ ω N β : ℝ) {key : String} (hk : builtin key) :
    ∃ r, ObservesJac key (demoCfg V SRF q s d) defaultDefs (demoSite I t p τ ω N β) r := by
  have hc := demo_complete hV hS q s d I t p τ ω N β
  have ho := demo_objs .sympy V SRF q s d (Arr.lit I) (Arr.lit t) (Arr.lit p) (demoKw τ ω N β)
  have hr := demo_reachable .sympy V SRF q s d (Arr.lit I) (Arr.lit t) (Arr.lit p) (demoKw τ ω N β)
  have hb := demo_backend .sympy V SRF q s d (Arr.lit I) (Arr.lit t) (Arr.lit p) (demoKw τ ω N β)
  obtain ⟨m, hm, hms⟩ := demo_mu0 V SRF q s d (Arr.lit I) t (Arr.lit p) (demoKw τ ω N β)
  have hs := demo_fsite .sympy hV hS q s d I t p τ ω N β
  rw [← hb] at hs
  exact ObservesJac.of_complete hr ho hc hm hms (Or.inl hk) hs

end

end RT1
