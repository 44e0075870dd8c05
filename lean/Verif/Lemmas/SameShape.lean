import Verif.Lemmas.DemoVec

/-! `calc` without interaction term works exactly if surface and volume contribution have the same
shape. -/

namespace RT1

noncomputable section
open Classical

theorem calcAll_of_body {b : Backend} {o : Obj} {z : Arr} (h : (Fresh.acc0 b o).calcBody = .ok z) :
    Fresh.calcAll b o = .ok z := by
  unfold Fresh.calcAll Acc.calcTry
  rw [h]
  rfl

theorem finish_same {b : Backend} {o : Obj} {Is Iv Ii : Arr} (hs : (Fresh.acc0 b o).surface = .ok Is)
    (h : Iv.shape = Is.shape) :
    ∃ z, (Fresh.acc0 b o).finish false Is Iv Ii = .ok z ∧ z.shape = Is.shape ++ [3] := by
  obtain ⟨m, hm⟩ := surface_mu0_ok hs
  have f1 := Below.surface_mu0 hm _ hs
  have f2 := Below.surface_I0 _ hs
  obtain ⟨t1, e1, s1⟩ := Arr.map2_fits_right (f := XR.add) (a := Is) (b := Iv) rfl (by rw [h]; exact Arr.Fits.refl _)
  have e1' : addM (pure Is) (pure Iv) = (.ok t1 : Py Arr) := by
    show (liftPy (Arr.map2 XR.add Is Iv) : Py Arr) = _
    rw [liftPy_py]; exact e1
  obtain ⟨st, h1, h2⟩ := Arr.stack_same (l := [t1, Is, Iv]) (U := Is.shape) (by simp) (by simp [s1, h])
  have h2 : st.shape = Is.shape ++ [3] := h2
  have hfs : Arr.Fits Is.shape st.shape := by rw [h2]; exact Arr.Fits.append _ _
  obtain ⟨z, hz, -⟩ := convert_succ (b := b) (dv := Fresh.dVol b o) (ds := Fresh.dSrf b o) hm (f1.trans hfs) (f2.trans hfs)
  refine ⟨z, ?_, ?_⟩
  · unfold Acc.finish
    simp only [Bool.false_eq_true, if_false]
    rw [e1']
    show ((liftPy (Arr.stack [t1, Is, Iv]) : Py Arr) >>= _) = _
    rw [liftPy_py, h1]
    exact hz
  · rw [convert_shape hz hm (f1.trans hfs) (f2.trans hfs), h2]

theorem finish_diff {b : Backend} {o : Obj} {Is Iv Ii : Arr} (h : Iv.shape ≠ Is.shape) :
    (Fresh.acc0 b o).finish false Is Iv Ii = .error .valueError := by
  unfold Acc.finish
  simp only [Bool.false_eq_true, if_false]
  have e1 : addM (pure Is) (pure Iv) = (Arr.map2 XR.add Is Iv : Py Arr) := by
    show (liftPy (Arr.map2 XR.add Is Iv) : Py Arr) = _
    rw [liftPy_py]
  rw [e1]
  cases hm : Arr.map2 XR.add Is Iv with
  | error e =>
    have : e = .valueError := by
      unfold Arr.map2 at hm
      split at hm
      · cases hm; rfl
      · cases hm
    rw [this]; rfl
  | ok t =>
    have hst : Arr.stack [t, Is, Iv] = .error .valueError := by
      unfold Arr.stack
      simp only
      rw [if_neg]
      intro hall
      exact h ((hall Iv (by simp)).trans (hall Is (by simp)).symm)
    show ((liftPy (Arr.stack [t, Is, Iv]) : Py Arr) >>= _) = _
    rw [liftPy_py, hst]
    rfl

theorem calcAll_same {b : Backend} {o : Obj} {Is Iv t : Arr} (hq : o.intQ = false)
    (hs : (Fresh.acc0 b o).surface = .ok Is) (hv : (Fresh.acc0 b o).volume = .ok Iv)
    (ht : Fresh.par b o .tau = .ok t)
    (h : Iv.shape = Is.shape ∨ (t.shape = [] ∧ ¬ (t.get []).isPos = true)) :
    ∃ z, Fresh.calcAll b o = .ok z ∧ z.shape = Is.shape ++ [3] := by
  have q1 : (Fresh.acc0 b o).intQ = .ok false := by rw [← hq]; rfl
  have t1 : (Fresh.acc0 b o).par .tau = .ok t := ht
  by_cases hsc : t.shape = []
  · by_cases hpos : (t.get []).isPos = true
    · obtain ⟨z, z1, z2⟩ := finish_same (Ii := Arr.lit 0) hs (h.resolve_right fun h => h.2 hpos)
      refine ⟨z, calcAll_of_body ?_, z2⟩
      unfold Acc.calcBody
      simp only [t1, hs, hv, q1, okb, if_pos hsc, if_pos hpos]
      exact z1
    · obtain ⟨z, z1, z2⟩ := finish_same (Iv := Arr.zerosLike Is) (Ii := Arr.zerosLike Is) hs rfl
      refine ⟨z, calcAll_of_body ?_, z2⟩
      unfold Acc.calcBody
      simp only [t1, hs, q1, okb, if_pos hsc, if_neg hpos]
      exact z1
  · obtain ⟨z, z1, z2⟩ := finish_same (Ii := Arr.lit 0) hs (h.resolve_right fun h => hsc h.1)
    refine ⟨z, calcAll_of_body ?_, z2⟩
    unfold Acc.calcBody
    simp only [t1, hs, hv, q1, okb, if_neg hsc]
    exact z1

theorem calcAll_diff {b : Backend} {o : Obj} {Is Iv t : Arr} (hq : o.intQ = false)
    (hs : (Fresh.acc0 b o).surface = .ok Is) (hv : (Fresh.acc0 b o).volume = .ok Iv)
    (ht : Fresh.par b o .tau = .ok t) (h : Iv.shape ≠ Is.shape)
    (hp : t.shape = [] → (t.get []).isPos = true) :
    Fresh.calcAll b o = .error .valueError := by
  have q1 : (Fresh.acc0 b o).intQ = .ok false := by rw [← hq]; rfl
  have t1 : (Fresh.acc0 b o).par .tau = .ok t := ht
  have hf := finish_diff (b := b) (o := o) (Ii := Arr.lit 0) h
  unfold Fresh.calcAll Acc.calcTry Acc.calcBody
  by_cases hsc : t.shape = []
  · simp only [t1, hs, hv, q1, okb, if_pos hsc, if_pos (hp hsc)]
    rw [if_neg (by simp), hf]
    rfl
  · simp only [t1, hs, hv, q1, okb, if_neg hsc]
    rw [if_neg (by simp), hf]
    rfl

theorem surface_tau_ok {b : Backend} {o : Obj} {dv ds : String → Py Lam} {z : Arr}
    (h : (Fresh.acc b o dv ds).surface = .ok z) : ∃ t, Fresh.par b o .tau = .ok t := by
  obtain ⟨_, _, h1⟩ := ok_bind h
  obtain ⟨_, h2, _⟩ := ok_bind h1
  obtain ⟨_, h3, _⟩ := ok_bind h2
  obtain ⟨_, h4, _⟩ := ok_bind h3
  obtain ⟨_, h5, _⟩ := ok_bind h4
  obtain ⟨_, h6, _⟩ := ok_bind h5
  obtain ⟨t, h7, _⟩ := ok_bind h6
  exact ⟨t, h7⟩

namespace Below
variable {b : Backend} {o : Obj} {dv ds : String → Py Lam}

theorem negM {s : List ℕ} {x : Py Arr} (h : Below s x) : Below s (RT1.negM x) :=
  bind fun a ha => pure (h a ha)

theorem atten {t : Arr} (ht : Fresh.par b o .tau = .ok t) : Below t.shape (Fresh.acc b o dv ds).atten :=
  mapM' (sub_left (negM (div_left (self ht))))

theorem surface_tau {t : Arr} (ht : Fresh.par b o .tau = .ok t) :
    Below t.shape (Fresh.acc b o dv ds).surface :=
  bind fun _ _ => bind fun _ h2 => mul_right (add_left (mul_right (pure (mul_left (atten ht) _ h2))))

theorem volume_tau {t : Arr} (ht : Fresh.par b o .tau = .ok t) :
    Below t.shape (Fresh.acc b o dv ds).volume :=
  bind fun _ h1 => mul_right (pure (mul_left (mul_right (sub_right (atten ht))) _ h1))

theorem surface_bsf {t : Arr} (ht : Fresh.par b o .bsf = .ok t) :
    Below t.shape (Fresh.acc b o dv ds).surface :=
  bind fun _ _ => bind fun _ _ => mul_right (add_right (mul_left (self ht)))

theorem volume_bsf {t : Arr} (ht : Fresh.par b o .bsf = .ok t) :
    Below t.shape (Fresh.acc b o dv ds).volume :=
  bind fun _ _ => mul_left (sub_right (self ht))

theorem surface_muEx {t : Arr} (ht : Fresh.muEx o = .ok t) :
    Below t.shape (Fresh.acc b o dv ds).surface :=
  bind fun _ _ => bind fun _ h2 => mul_right (add_left (mul_right (pure (mul_left
    (mapM' (sub_right (bind fun _ _ => bind fun c hc => by
      rw [liftPy_py]; exact map2_right (self ht c hc)))) _ h2))))

theorem volume_muEx {t : Arr} (ht : Fresh.muEx o = .ok t) :
    Below t.shape (Fresh.acc b o dv ds).volume :=
  bind fun _ h1 => mul_right (pure (mul_left (mul_right (sub_right
    (mapM' (sub_right (bind fun _ _ => bind fun c hc => by
      rw [liftPy_py]; exact map2_right (self ht c hc)))))) _ h1))

end Below

theorem Complete.calcAll_common {o : Obj} {S : List ℕ} (hc : Complete o S) (b : Backend) {a t β : Arr}
    (ha : o.ang .t0 = some a) (hq : o.intQ = false) (ht : Fresh.par b o .tau = .ok t)
    (hβ : Fresh.par b o .bsf = .ok β)
    (hS : ∀ T, Arr.Fits a.shape T → Arr.Fits o.I0.shape T → Arr.Fits t.shape T → Arr.Fits β.shape T →
      Arr.Fits S T) : ∃ z, Fresh.calcAll b o = .ok z ∧ z.shape = S ++ [3] := by
  obtain ⟨Is, s1, s2⟩ := hc.s_surface b (Fresh.dVol b o) (Fresh.dSrf b o)
  obtain ⟨Iv, v1, v2⟩ := hc.s_volume b (Fresh.dVol b o) (Fresh.dSrf b o)
  have hm := ang_mu0 ha
  have e1 := s2.antisymm (hS _ (Below.surface_mu0 hm _ s1) (Below.surface_I0 _ s1) (Below.surface_tau ht _ s1)
    (Below.surface_bsf hβ _ s1))
  have e2 := v2.antisymm (hS _ (Below.volume_mu0 hm _ v1) (Below.volume_I0 _ v1) (Below.volume_tau ht _ v1)
    (Below.volume_bsf hβ _ v1))
  obtain ⟨z, z1, z2⟩ := calcAll_same hq s1 v1 ht (Or.inl (e2.trans e1.symm))
  exact ⟨z, z1, by rw [z2, e1]⟩

end

end RT1
