import Verif.Lemmas.SameShapeInt
import Verif.Props.Arrays

/-! C57 with interaction term, exactly; and when `calc` returns an array at all. -/

namespace RT1

noncomputable section
open Classical

/-! ## C57 -/

/-- **C57**, with interaction term, exactly: if `surface()`, `volume()` and `interaction()` return
arrays, `calc` returns total and the three contributions in the shape of `surface()` if the three
shapes agree (or tau is a python number that is not positive, where only the surface is
evaluated), and raises `ValueError` otherwise. -/
theorem C57_exact_interaction {w : World} (hw : Reachable w) {id : ℕ} {o : Obj} (ho : w.objs id = some o)
    (kw : Dict) (hq : o.intQ = true) {s v i t : Arr} (hs : (surface id kw w).1 = .ok s)
    (hv : (volume id kw w).1 = .ok v) (hi : (interaction id kw w).1 = .ok i)
    (ht : (Self.evalParam id .tau (updateParams id kw w).2).1 = .ok t) :
    if (v.shape = s.shape ∧ i.shape = s.shape) ∨ (t.shape = [] ∧ ¬ (t.get []).isPos = true) then
      ∃ arr w', calcOp id kw w = (.ok arr, w') ∧ arr.shape = s.shape ++ [4]
    else (calcOp id kw w).1 = .error .valueError := by
  rw [(surface_eq hw.keeps.inv ho kw).1] at hs
  rw [(volume_eq hw.keeps.inv ho kw).1] at hv
  rw [(interaction_eq hw.inv ho kw).1] at hi
  rw [updateParams_eq ho kw] at ht
  have ht : Fresh.par w.backend (Fresh.update o kw) .tau = .ok t := (evalParam_eq (hw.inv.updated ho kw) (World.updated_objs ..) .tau).symm.trans ht
  obtain ⟨Is, h1, hs⟩ := ok_bind hs
  obtain ⟨Iv, h2, hv⟩ := ok_bind hv
  obtain ⟨Ii, h3, hi⟩ := ok_bind hi
  obtain ⟨m, hm⟩ := surface_mu0_ok h1
  have e1 : s.shape = Is.shape := convert_shape hs hm (Below.surface_mu0 hm _ h1) (Below.surface_I0 _ h1)
  have e2 : v.shape = Iv.shape := convert_shape hv hm (Below.volume_mu0 hm _ h2) (Below.volume_I0 _ h2)
  have e3 : i.shape = Ii.shape := convert_shape hi hm (Below.interaction_mu0 hm _ h3) (Below.interaction_I0 _ h3)
  rw [e1, e2, e3]
  split_ifs with h
  · obtain ⟨z, z1, z2⟩ := calcAll_same4 (o := Fresh.update o kw) hq h1 h2 h3 ht h
    exact ⟨z, (calcOp id kw w).2, by rw [← z1, ← (calcOp_eq hw.inv ho kw).1], z2⟩
  · rw [not_or, not_and (a := t.shape = []), not_not] at h
    rw [(calcOp_eq hw.inv ho kw).1, calcAll_diff4 (o := Fresh.update o kw) hq h1 h2 h3 ht h.1 h.2]

/-- **C57**: when `calc` returns an array.  It does exactly if `surface()` does and either tau is a
python number that is not positive, or `volume()` and (with interaction term) `interaction()`
return arrays of the same shape; whether the other two methods work is not asked for otherwise. -/
theorem C57_returns {w : World} (hw : Reachable w) {id : ℕ} {o : Obj} (ho : w.objs id = some o) (kw : Dict) :
    (∃ arr, (calcOp id kw w).1 = .ok arr) ↔
      ∃ s t, (surface id kw w).1 = .ok s ∧ (Self.evalParam id .tau (updateParams id kw w).2).1 = .ok t ∧
        ((t.shape = [] ∧ ¬ (t.get []).isPos = true) ∨
          (∃ v, (volume id kw w).1 = .ok v ∧ v.shape = s.shape) ∧
          (o.intQ = true → ∃ i, (interaction id kw w).1 = .ok i ∧ i.shape = s.shape)) := by
  have et : (Self.evalParam id .tau (updateParams id kw w).2).1 = Fresh.par w.backend (Fresh.update o kw) .tau := by
    rw [updateParams_eq ho kw]
    exact evalParam_eq (hw.inv.updated ho kw) (World.updated_objs ..) .tau
  have conv : ∀ {f : Py Arr} {g : Py Arr} {x : Arr}, g = (f >>= (Fresh.acc0 w.backend (Fresh.update o kw)).convert) →
      f = .ok x → (∀ m, Fresh.mu0 (Fresh.update o kw) = .ok m → Below m.shape f) →
      Below (Fresh.update o kw).I0.shape f → (∃ m, Fresh.mu0 (Fresh.update o kw) = .ok m) →
      ∃ y, g = .ok y ∧ y.shape = x.shape := by
    intro f g x hg hf b1 b2 ⟨m, hm⟩
    obtain ⟨y, y1, -⟩ := convert_succ (b := w.backend) (dv := Fresh.dVol w.backend (Fresh.update o kw))
      (ds := Fresh.dSrf w.backend (Fresh.update o kw)) hm (b1 m hm _ hf) (b2 _ hf)
    refine ⟨y, by rw [hg, hf]; exact y1, convert_shape y1 hm (b1 m hm _ hf) (b2 _ hf)⟩
  constructor
  · rintro ⟨arr, h⟩
    rw [(calcOp_eq hw.inv ho kw).1] at h
    obtain ⟨Is, t, h1, ht, h⟩ := calcAll_ok h
    have hm := surface_mu0_ok h1
    obtain ⟨s, hs, es⟩ := conv (surface_eq hw.keeps.inv ho kw).1 h1 (fun m hm => Below.surface_mu0 hm) Below.surface_I0 hm
    refine ⟨s, t, hs, et.trans ht, h.imp_right ?_⟩
    rintro ⟨⟨Iv, h2, ev⟩, hi⟩
    refine ⟨?_, fun hq => ?_⟩
    · obtain ⟨v, hv, e⟩ := conv (volume_eq hw.keeps.inv ho kw).1 h2 (fun m hm => Below.volume_mu0 hm) Below.volume_I0 hm
      exact ⟨v, hv, by rw [e, ev, es]⟩
    · obtain ⟨I, h3, ei⟩ := hi hq
      obtain ⟨i, hi, e⟩ := conv (interaction_eq hw.inv ho kw).1 h3 (fun m hm => Below.interaction_mu0 hm) Below.interaction_I0 hm
      exact ⟨i, hi, by rw [e, ei, es]⟩
  · rintro ⟨s, t, hs, ht, h⟩
    by_cases hn : t.shape = [] ∧ ¬ (t.get []).isPos = true
    · rw [(surface_eq hw.keeps.inv ho kw).1] at hs
      obtain ⟨Is, h1, -⟩ := ok_bind hs
      obtain ⟨z, hz⟩ := calcAll_nonpos h1 (et.symm.trans ht) hn.1 hn.2
      exact ⟨z, by rw [(calcOp_eq hw.inv ho kw).1]; exact hz⟩
    · obtain ⟨⟨v, hv, ev⟩, hi⟩ := h.resolve_left hn
      cases hq : o.intQ with
      | false =>
        have := C57_exact hw ho kw hq hs hv ht
        rw [if_pos (Or.inl ev)] at this
        obtain ⟨arr, w', h, -⟩ := this
        exact ⟨arr, by rw [h]⟩
      | true =>
        obtain ⟨i, hi, ei⟩ := hi hq
        have := C57_exact_interaction hw ho kw hq hs hv hi ht
        rw [if_pos (Or.inl ⟨ev, ei⟩)] at this
        obtain ⟨arr, w', h, -⟩ := this
        exact ⟨arr, by rw [h]⟩

/-- The hypotheses of `C57_exact_interaction` hold for functions with parameters. -/
example (b : Backend) (s d : Bool) :
    ∃ w s' v i t, Reachable w ∧ w.backend = b ∧ (∃ o, w.objs 0 = some o ∧ o.intQ = true) ∧
      (surface 0 [] w).1 = .ok s' ∧ (volume 0 [] w).1 = .ok v ∧ (interaction 0 [] w).1 = .ok i ∧
      (Self.evalParam 0 .tau (updateParams 0 [] w).2).1 = .ok t := by
  have hx : true = true → (witSite (Real.pi / 3) (Real.pi / 3) 0 Real.pi).tex = (witSite (Real.pi / 3) (Real.pi / 3) 0 Real.pi).t0 ∧
      (witSite (Real.pi / 3) (Real.pi / 3) 0 Real.pi).pex = (witSite (Real.pi / 3) (Real.pi / 3) 0 Real.pi).p0 + Real.pi :=
    fun _ => ⟨rfl, by simp [witSite]⟩
  obtain ⟨⟨s', _, h1, -, -⟩, ⟨v, _, h2, -, -⟩⟩ := scalar_site_call b (V := isoV) (SRF := isoS) true s d
    (x := witSite (Real.pi / 3) (Real.pi / 3) 0 Real.pi) (mono := true) (l := []) (fun _ => false)
    hx (witSite_reports ..)
    (fun n hn => List.mem_append_left _ (isoV_plain n hn))
    (fun n hn => List.mem_append_left _ (isoS_plain n hn))
  obtain ⟨i, _, h3, -, -⟩ := scalar_interaction_call b (V := isoV) (SRF := isoS) s d
    (x := witSite (Real.pi / 3) (Real.pi / 3) 0 Real.pi) (mono := true) (l := [])
    hx (witSite_reports ..)
    (fun n hn => List.mem_append_left _ (isoV_plain n hn))
    (fun n hn => List.mem_append_left _ (isoS_plain n hn)) iso_fnCoefs ⟨0, isoV_ncoefs⟩ ⟨0, isoS_ncoefs⟩
  have hw := (scalarW_reachableP b isoV isoS true s d (witSite (Real.pi / 3) (Real.pi / 3) 0 Real.pi) true
    (fun _ => false) (scalarKw (witSite (Real.pi / 3) (Real.pi / 3) 0 Real.pi) [])).reachable
  have ho := scalarW_obj b isoV isoS true s d (witSite (Real.pi / 3) (Real.pi / 3) 0 Real.pi) true
    (fun _ => false) (scalarKw (witSite (Real.pi / 3) (Real.pi / 3) 0 Real.pi) [])
  have hb := scalarW_backend b isoV isoS true s d (witSite (Real.pi / 3) (Real.pi / 3) 0 Real.pi) true
    (fun _ => false) (scalarKw (witSite (Real.pi / 3) (Real.pi / 3) 0 Real.pi) [])
  have hc := scalar_cfg isoV isoS true s d (witSite (Real.pi / 3) (Real.pi / 3) 0 Real.pi) true
    (fun _ => false) (scalarKw (witSite (Real.pi / 3) (Real.pi / 3) 0 Real.pi) [])
  generalize scalarW b isoV isoS true s d (witSite (Real.pi / 3) (Real.pi / 3) 0 Real.pi) true
    (fun _ => false) (scalarKw (witSite (Real.pi / 3) (Real.pi / 3) 0 Real.pi) []) = w at *
  have hs : (surface 0 [] w).1 = .ok s' := by rw [h1]
  have hs' := hs
  rw [(surface_eq hw.keeps.inv ho []).1] at hs'
  obtain ⟨Is, k1, -⟩ := ok_bind hs'
  obtain ⟨t, ht⟩ := surface_tau_ok k1
  refine ⟨w, s', v, i, t, hw, hb, ⟨_, ho, congrArg Cfg.intQ hc⟩, hs, by rw [h2], by rw [h3], ?_⟩
  rw [updateParams_eq ho []]
  exact (evalParam_eq (hw.inv.updated ho []) (World.updated_objs ..) .tau).trans ht

end

end RT1
