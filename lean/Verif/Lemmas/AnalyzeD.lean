import Verif.Lemmas.AnalyzeS
import Verif.Lemmas.Rows

/-! The dashed line (surface + volume). -/

namespace RT1

noncomputable section
open Classical

theorem log10_eq_fin {v : XR} {r : ℝ} (h : XR.log10 v = XR.fin r) :
    ∃ x, v = XR.fin x ∧ 0 < x ∧ r = Real.logb 10 x := by
  cases v with
  | fin x =>
    simp only [XR.log10] at h
    split_ifs at h with h1 h2
    · exact ⟨x, rfl, h1, (XR.fin.inj h).symm⟩
  | pinf => cases h
  | ninf => cases h
  | nan => cases h

theorem convert_add {x : XSite} {s d : Bool} {u v : XR} {a b : ℝ} (ha : x.convert s d u = XR.fin a)
    (hb : x.convert s d v = XR.fin b) : x.convert s d (u + v) = XR.fin (unitSum d a b) := by
  unfold XSite.convert at *
  set k := (if s = true then XR.fin (4 * Real.pi) * x.mu0 / x.I0 else XR.fin 1) with hk
  clear_value k
  have prod : ∀ {a b : ℝ}, u * k = XR.fin a → v * k = XR.fin b → (u + v) * k = XR.fin (a + b) := by
    intro a b ha hb
    obtain ⟨u1, k1, rfl, rfl, rfl⟩ := XR.mul_eq_fin ha
    obtain ⟨v1, k2, rfl, h2, rfl⟩ := XR.mul_eq_fin hb
    cases h2
    show XR.fin ((u1 + v1) * k1) = _
    congr 1; ring
  cases d with
  | false =>
    simp only [Bool.false_eq_true, if_false] at *
    rw [prod ha hb]; simp [unitSum]
  | true =>
    simp only [if_true] at *
    obtain ⟨t1, l1, h1, h2, h3⟩ := XR.mul_eq_fin ha
    obtain ⟨t2, l2, h4, h5, h6⟩ := XR.mul_eq_fin hb
    cases h1; cases h4
    obtain ⟨p, e1, hp, rfl⟩ := log10_eq_fin h2
    obtain ⟨q, e2, hq, rfl⟩ := log10_eq_fin h5
    rw [prod e1 e2]
    have : (10 : ℝ) ^ (a / 10) = p := by
      rw [← h3, mul_div_cancel_left₀ _ (by norm_num), Real.rpow_logb (by norm_num) (by norm_num) hp]
    have h' : (10 : ℝ) ^ (b / 10) = q := by
      rw [← h6, mul_div_cancel_left₀ _ (by norm_num), Real.rpow_logb (by norm_num) (by norm_num) hq]
    simp only [unitSum, if_true, this, h']
    show XR.fin 10 * XR.log10 (XR.fin (p + q)) = _
    simp only [XR.log10, add_pos hp hq, if_true]
    rfl

theorem unsqueeze_all : ∀ {S idx : List ℕ}, Arr.Valid S idx →
    Arr.unsqueeze S (dropOnes S idx) = idx
  | [], idx, h => by cases h; rfl
  | a :: s, idx, h => by
    cases h with
    | cons h1 h2 =>
      rename_i i is
      have ih := unsqueeze_all h2
      by_cases ha : a = 1
      · subst ha
        have : i = 0 := by omega
        subst this
        simp [Arr.unsqueeze, dropOnes, ih]
      · simp [Arr.unsqueeze, dropOnes, ha, ih]

theorem squeeze_get {x : Arr} {idx : List ℕ} (h : Arr.Valid x.shape idx) :
    x.squeeze.get (dropOnes x.shape idx) = x.get idx := by
  show x.get (Arr.unsqueeze x.shape _) = _
  rw [unsqueeze_all h]

/-- `_surface_volume()` against `surface()` and `volume()`. -/
theorem surfaceVolume_sum {b : Backend} {o : Obj} {y : Arr} (h : Fresh.surfaceVolume b o = .ok y) :
    ∃ s v, Fresh.surface b o = .ok s ∧ Fresh.volume b o = .ok v ∧
      Arr.bshape s.shape v.shape = some y.shape ∧
      ∀ idx x1 x2, Arr.Valid y.shape idx → s.at' idx = XR.fin x1 → v.at' idx = XR.fin x2 →
        y.get idx = XR.fin (unitSum o.dB x1 x2) := by
  unfold Fresh.surfaceVolume at h
  cases hx : addM (Fresh.acc0 b o).surface (Fresh.acc0 b o).volume with
  | error e => rw [hx] at h; cases h
  | ok x =>
  rw [hx] at h
  replace h : (Fresh.acc0 b o).convert x = .ok y := h
  unfold addM at hx
  cases hs : (Fresh.acc0 b o).surface with
  | error e => rw [hs] at hx; cases hx
  | ok Is =>
  rw [hs, okb] at hx
  cases hv : (Fresh.acc0 b o).volume with
  | error e => rw [hv] at hx; cases hx
  | ok Iv =>
  rw [hv, okb] at hx
  rw [show (liftPy (Arr.add Is Iv) : Py Arr) = Arr.add Is Iv by cases Arr.add Is Iv <;> rfl] at hx
  replace hx : Arr.map2 (· + ·) Is Iv = .ok x := hx
  obtain ⟨m, hm, f1, f2⟩ := surface_fits hs
  obtain ⟨m', hm', f3, f4⟩ := volume_fits hv
  rw [hm] at hm'; cases hm'
  have hsh := Arr.shape_map2 hx
  obtain ⟨g1, g2⟩ := Arr.bshape_fits hsh
  have hy := convert_shape h hm (f1.trans g1) (f2.trans g1)
  obtain ⟨s, s1, s2, -⟩ := convert_whole (b := b) hm f1 f2
  obtain ⟨v, v1, v2, -⟩ := convert_whole (b := b) hm f3 f4
  refine ⟨s, v, ?_, ?_, ?_, ?_⟩
  · unfold Fresh.surface; rw [hs, okb]; exact s1
  · unfold Fresh.volume; rw [hv, okb]; exact v1
  · rw [s2, v2, hsh, hy]
  · intro idx x1 x2 hi h1 h2
    have c1 := PW.convert (b := b) (o := o) (dv := Fresh.dVol b o) (ds := Fresh.dSrf b o) (idx := idx)
      (a := Is) rfl s s1
    have c2 := PW.convert (b := b) (o := o) (dv := Fresh.dVol b o) (ds := Fresh.dSrf b o) (idx := idx)
      (a := Iv) rfl v v1
    have c3 := PW.convert (b := b) (o := o) (dv := Fresh.dVol b o) (ds := Fresh.dSrf b o) (idx := idx)
      (a := x) (Arr.at'_map2 hx idx) y h
    rw [c1] at h1
    rw [c2] at h2
    rw [Arr.at'_valid hi] at c3
    rw [c3]
    exact convert_add h1 h2

theorem Drawn.session {P : Op → Prop} {id : ℕ} {w : World} {A : Analyzer} (h : Drawn P id w A) :
    Session P id w A := by
  cases h with
  | start hw h => exact .start hw h
  | event e hs h => exact .event e hs h

theorem mem_drawnLines {q : Bool} {c : ℕ → Arr} {y line : Arr} {label : String} {k : ℕ}
    (hl : LabelRow label k) (h : (some label, line) ∈ drawnLines q c y) : k < nrows q ∧ line = c k := by
  cases hl <;> cases q <;> simp [drawnLines] at h <;> exact ⟨by decide, h⟩

theorem mem_dashed {q : Bool} {c : ℕ → Arr} {y line : Arr} (h : (none, line) ∈ drawnLines q c y) :
    q = true ∧ line = y := by
  cases q <;> simp [drawnLines] at h
  exact ⟨rfl, h⟩

end

end RT1
