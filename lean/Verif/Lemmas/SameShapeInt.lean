import Verif.Lemmas.SameShape
import Verif.Lemmas.AnalyzeI

/-! `calc` with interaction term works exactly if surface, volume and interaction contribution have
the same shape. -/

namespace RT1

noncomputable section
open Classical

theorem finish_same4 {b : Backend} {o : Obj} {Is Iv Ii : Arr} (hs : (Fresh.acc0 b o).surface = .ok Is)
    (h : Iv.shape = Is.shape) (h' : Ii.shape = Is.shape) :
    ∃ z, (Fresh.acc0 b o).finish true Is Iv Ii = .ok z ∧ z.shape = Is.shape ++ [4] := by
  obtain ⟨m, hm⟩ := surface_mu0_ok hs
  have f1 := Below.surface_mu0 hm _ hs
  have f2 := Below.surface_I0 _ hs
  obtain ⟨t1, e1, s1⟩ := Arr.map2_fits_right (f := XR.add) (a := Is) (b := Iv) rfl (by rw [h]; exact Arr.Fits.refl _)
  obtain ⟨t2, e2, s2⟩ := Arr.map2_fits_right (f := XR.add) (a := t1) (b := Ii) rfl
    (by rw [h', s1]; exact Arr.Fits.refl _)
  rw [s1] at s2
  have e1' : addM (addM (pure Is) (pure Iv)) (pure Ii) = (.ok t2 : Py Arr) := by
    show ((liftPy (Arr.map2 XR.add Is Iv) : Py Arr) >>= fun t => (liftPy (Arr.map2 XR.add t Ii) : Py Arr)) = _
    rw [liftPy_py, e1]
    show (liftPy (Arr.map2 XR.add t1 Ii) : Py Arr) = _
    rw [liftPy_py, e2]
  obtain ⟨st, h1, h2⟩ := Arr.stack_same (l := [t2, Is, Iv, Ii]) (U := Is.shape) (by simp) (by simp [s2, h, h'])
  have h2 : st.shape = Is.shape ++ [4] := h2
  have hfs : Arr.Fits Is.shape st.shape := by rw [h2]; exact Arr.Fits.append _ _
  obtain ⟨z, hz, -⟩ := convert_succ (b := b) (dv := Fresh.dVol b o) (ds := Fresh.dSrf b o) hm (f1.trans hfs) (f2.trans hfs)
  refine ⟨z, ?_, ?_⟩
  · unfold Acc.finish
    simp only [if_true]
    rw [e1']
    show ((liftPy (Arr.stack [t2, Is, Iv, Ii]) : Py Arr) >>= _) = _
    rw [liftPy_py, h1]
    exact hz
  · rw [convert_shape hz hm (f1.trans hfs) (f2.trans hfs), h2]

theorem map2_error {f : XR → XR → XR} {a b : Arr} {e : PyErr} (h : Arr.map2 f a b = .error e) :
    e = .valueError := by
  unfold Arr.map2 at h
  split at h
  · cases h; rfl
  · cases h

theorem finish_diff4 {b : Backend} {o : Obj} {Is Iv Ii : Arr}
    (h : ¬ (Iv.shape = Is.shape ∧ Ii.shape = Is.shape)) :
    (Fresh.acc0 b o).finish true Is Iv Ii = .error .valueError := by
  unfold Acc.finish
  simp only [if_true]
  have e1 : addM (addM (pure Is) (pure Iv)) (pure Ii) =
      (Arr.map2 XR.add Is Iv >>= fun t => Arr.map2 XR.add t Ii : Py Arr) := by
    show ((liftPy (Arr.map2 XR.add Is Iv) : Py Arr) >>= fun t => (liftPy (Arr.map2 XR.add t Ii) : Py Arr)) = _
    simp only [liftPy_py]
  rw [e1]
  cases hm : Arr.map2 XR.add Is Iv with
  | error e => rw [map2_error hm]; rfl
  | ok t =>
    show (Arr.map2 XR.add t Ii >>= _) = _
    cases hm' : Arr.map2 XR.add t Ii with
    | error e => rw [map2_error hm']; rfl
    | ok t' =>
      have hst : Arr.stack [t', Is, Iv, Ii] = .error .valueError := by
        unfold Arr.stack
        simp only
        rw [if_neg]
        intro hall
        have := hall Is (by simp)
        exact h ⟨(hall Iv (by simp)).trans this.symm, (hall Ii (by simp)).trans this.symm⟩
      show ((liftPy (Arr.stack [t', Is, Iv, Ii]) : Py Arr) >>= _) = _
      rw [liftPy_py, hst]
      rfl

theorem calcAll_same4 {b : Backend} {o : Obj} {Is Iv I t : Arr} (hq : o.intQ = true)
    (hs : (Fresh.acc0 b o).surface = .ok Is) (hv : (Fresh.acc0 b o).volume = .ok Iv)
    (hi : (Fresh.acc0 b o).interaction = .ok I) (ht : Fresh.par b o .tau = .ok t)
    (h : (Iv.shape = Is.shape ∧ I.shape = Is.shape) ∨ (t.shape = [] ∧ ¬ (t.get []).isPos = true)) :
    ∃ z, Fresh.calcAll b o = .ok z ∧ z.shape = Is.shape ++ [4] := by
  have q1 : (Fresh.acc0 b o).intQ = .ok true := by rw [← hq]; rfl
  have t1 : (Fresh.acc0 b o).par .tau = .ok t := ht
  by_cases hsc : t.shape = []
  · by_cases hpos : (t.get []).isPos = true
    · have h := h.resolve_right fun h => h.2 hpos
      obtain ⟨z, z1, z2⟩ := finish_same4 hs h.1 h.2
      refine ⟨z, calcAll_of_body ?_, z2⟩
      unfold Acc.calcBody
      simp only [t1, hs, hv, q1, hi, okb, if_pos hsc, if_pos hpos, if_true]
      exact z1
    · obtain ⟨z, z1, z2⟩ := finish_same4 (Iv := Arr.zerosLike Is) (Ii := Arr.zerosLike Is) hs rfl rfl
      refine ⟨z, calcAll_of_body ?_, z2⟩
      unfold Acc.calcBody
      simp only [t1, hs, q1, okb, if_pos hsc, if_neg hpos]
      exact z1
  · have h := h.resolve_right fun h => hsc h.1
    obtain ⟨Ii, f1, f2⟩ := fixNan_succ (b := b) (o := o) (t := t) (I := I) ht (Below.interaction_tau ht _ hi)
    obtain ⟨z, z1, z2⟩ := finish_same4 hs h.1 (f2.trans h.2)
    refine ⟨z, calcAll_of_body ?_, z2⟩
    unfold Acc.calcBody
    simp only [t1, hs, hv, q1, hi, f1, okb, if_neg hsc, if_true]
    exact z1

theorem calcAll_diff4 {b : Backend} {o : Obj} {Is Iv I t : Arr} (hq : o.intQ = true)
    (hs : (Fresh.acc0 b o).surface = .ok Is) (hv : (Fresh.acc0 b o).volume = .ok Iv)
    (hi : (Fresh.acc0 b o).interaction = .ok I) (ht : Fresh.par b o .tau = .ok t)
    (h : ¬ (Iv.shape = Is.shape ∧ I.shape = Is.shape))
    (hp : t.shape = [] → (t.get []).isPos = true) :
    Fresh.calcAll b o = .error .valueError := by
  have q1 : (Fresh.acc0 b o).intQ = .ok true := by rw [← hq]; rfl
  have t1 : (Fresh.acc0 b o).par .tau = .ok t := ht
  unfold Fresh.calcAll Acc.calcTry Acc.calcBody
  by_cases hsc : t.shape = []
  · simp only [t1, hs, hv, q1, hi, okb, if_pos hsc, if_pos (hp hsc), if_true]
    rw [finish_diff4 h]
    rfl
  · obtain ⟨Ii, f1, f2⟩ := fixNan_succ (b := b) (o := o) (t := t) (I := I) ht (Below.interaction_tau ht _ hi)
    simp only [t1, hs, hv, q1, hi, f1, okb, if_neg hsc, if_true]
    rw [finish_diff4 (by rw [f2]; exact h)]
    rfl

/-- A python number tau that is not positive: only the surface contribution is evaluated. -/
theorem calcAll_nonpos {b : Backend} {o : Obj} {Is t : Arr} (hs : (Fresh.acc0 b o).surface = .ok Is)
    (ht : Fresh.par b o .tau = .ok t) (hsc : t.shape = []) (hpos : ¬ (t.get []).isPos = true) :
    ∃ z, Fresh.calcAll b o = .ok z := by
  have t1 : (Fresh.acc0 b o).par .tau = .ok t := ht
  have q1 : (Fresh.acc0 b o).intQ = .ok o.intQ := rfl
  have key : ∃ z, (Fresh.acc0 b o).finish o.intQ Is (Arr.zerosLike Is) (Arr.zerosLike Is) = .ok z := by
    cases o.intQ with
    | true => exact (finish_same4 (Iv := Arr.zerosLike Is) (Ii := Arr.zerosLike Is) hs rfl rfl).imp fun _ h => h.1
    | false => exact (finish_same (Iv := Arr.zerosLike Is) hs rfl).imp fun _ h => h.1
  obtain ⟨z, hz⟩ := key
  refine ⟨z, calcAll_of_body ?_⟩
  unfold Acc.calcBody
  simp only [t1, hs, q1, okb, if_pos hsc, if_neg hpos]
  exact hz

/-- What was evaluated if `calc` returns an array. -/
theorem calcAll_ok {b : Backend} {o : Obj} {z : Arr} (h : Fresh.calcAll b o = .ok z) :
    ∃ Is t, (Fresh.acc0 b o).surface = .ok Is ∧ Fresh.par b o .tau = .ok t ∧
      ((t.shape = [] ∧ ¬ (t.get []).isPos = true) ∨
        (∃ Iv, (Fresh.acc0 b o).volume = .ok Iv ∧ Iv.shape = Is.shape) ∧
        (o.intQ = true → ∃ I, (Fresh.acc0 b o).interaction = .ok I ∧ I.shape = Is.shape)) := by
  have hb : (Fresh.acc0 b o).calcBody = .ok z := by
    unfold Fresh.calcAll Acc.calcTry at h
    cases hx : (Fresh.acc0 b o).calcBody with
    | ok y => rw [hx] at h; exact h
    | error e =>
      rw [hx] at h
      cases e with
      | typeError ns =>
        have h : ((Fresh.acc0 b o).missingNames >>= fun names =>
          if names ≠ [] then throw (PyErr.typeError names) else throw (PyErr.typeError ns)) = .ok z := h
        obtain ⟨n, -, h⟩ := ok_bind h
        split at h <;> cases h
      | _ => cases h
  obtain ⟨t, ht, hb⟩ := ok_bind hb
  have ht' : Fresh.par b o .tau = .ok t := ht
  have q1 : (Fresh.acc0 b o).intQ = .ok o.intQ := rfl
  by_cases hsc : t.shape = []
  · rw [if_pos hsc] at hb
    obtain ⟨Is, hs, hb⟩ := ok_bind hb
    refine ⟨Is, t, hs, ht', ?_⟩
    obtain ⟨t', h2, hb⟩ := ok_bind hb
    rw [ht] at h2
    cases h2
    by_cases hpos : (t.get []).isPos = true
    · refine Or.inr ?_
      rw [if_pos hpos] at hb
      obtain ⟨Iv, hv, hb⟩ := ok_bind hb
      obtain ⟨q, hq, hb⟩ := ok_bind hb
      rw [q1] at hq
      cases hq
      cases hq : o.intQ with
      | false =>
        rw [hq, if_neg (by simp)] at hb
        refine ⟨⟨Iv, hv, ?_⟩, by simp⟩
        by_contra hne
        rw [finish_diff hne] at hb
        cases hb
      | true =>
        rw [hq, if_pos rfl] at hb
        obtain ⟨I, hi, hb⟩ := ok_bind hb
        by_cases hne : Iv.shape = Is.shape ∧ I.shape = Is.shape
        · exact ⟨⟨Iv, hv, hne.1⟩, fun _ => ⟨I, hi, hne.2⟩⟩
        · rw [finish_diff4 hne] at hb
          cases hb
    · exact Or.inl ⟨hsc, hpos⟩
  · rw [if_neg hsc] at hb
    obtain ⟨Is, hs, hb⟩ := ok_bind hb
    refine ⟨Is, t, hs, ht', Or.inr ?_⟩
    obtain ⟨Iv, hv, hb⟩ := ok_bind hb
    obtain ⟨q, hq, hb⟩ := ok_bind hb
    rw [q1] at hq
    cases hq
    cases hq : o.intQ with
    | false =>
      rw [hq, if_neg (by simp)] at hb
      refine ⟨⟨Iv, hv, ?_⟩, by simp⟩
      by_contra hne
      rw [finish_diff hne] at hb
      cases hb
    | true =>
      rw [hq, if_pos rfl] at hb
      obtain ⟨I, hi, hb⟩ := ok_bind hb
      obtain ⟨Ii, f1, f2⟩ := fixNan_succ (b := b) (o := o) (t := t) (I := I) ht' (Below.interaction_tau ht' _ hi)
      rw [f1] at hb
      by_cases hne : Iv.shape = Is.shape ∧ Ii.shape = Is.shape
      · exact ⟨⟨Iv, hv, hne.1⟩, fun _ => ⟨I, hi, f2.symm.trans hne.2⟩⟩
      · have hb : (Fresh.acc0 b o).finish true Is Iv Ii = .ok z := hb
        rw [finish_diff4 hne] at hb
        cases hb

end

end RT1
