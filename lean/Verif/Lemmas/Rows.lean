import Verif.Lemmas.Shape

/-! Lower bounds for shapes, stacked arrays, the rows returned by `calc`. -/

namespace RT1

noncomputable section
open Classical

theorem ok_bind {α β : Type} {x : Py α} {f : α → Py β} {z : β} (h : (x >>= f) = .ok z) :
    ∃ a, x = .ok a ∧ f a = .ok z := by
  cases x with
  | error e => cases h
  | ok a => exact ⟨a, rfl, h⟩

theorem liftPy_py {α : Type} (x : Py α) : (liftPy x : Py α) = x := by cases x <;> rfl

/-- The shape `s` can be broadcast to the shape of the result. -/
def Below (s : List ℕ) (x : Py Arr) : Prop := ∀ z, x = .ok z → Arr.Fits s z.shape

namespace Below
variable {s : List ℕ} {x y : Py Arr}

theorem of_ok {a : Arr} (h : Arr.Fits s a.shape) : Below s (.ok a) := by
  intro z hz; cases hz; exact h
theorem pure {a : Arr} (h : Arr.Fits s a.shape) : Below s (Pure.pure a) := of_ok h

theorem bind {α : Type} {x : Py α} {f : α → Py Arr} (h : ∀ a, x = .ok a → Below s (f a)) :
    Below s (x >>= f) := by
  intro z hz
  obtain ⟨a, ha, h'⟩ := ok_bind hz
  exact h a ha z h'

theorem map2_left {f : XR → XR → XR} {a b : Arr} (h : Arr.Fits s a.shape) :
    Below s (Arr.map2 f a b) :=
  fun _ hz => h.trans (Arr.bshape_fits (Arr.shape_map2 hz)).1
theorem map2_right {f : XR → XR → XR} {a b : Arr} (h : Arr.Fits s b.shape) :
    Below s (Arr.map2 f a b) :=
  fun _ hz => h.trans (Arr.bshape_fits (Arr.shape_map2 hz)).2

theorem mul_left (h : Below s x) : Below s (mulM x y) :=
  bind fun a ha => bind fun _ _ => by rw [liftPy_py]; exact map2_left (h a ha)
theorem mul_right (h : Below s y) : Below s (mulM x y) :=
  bind fun _ _ => bind fun b hb => by rw [liftPy_py]; exact map2_right (h b hb)
theorem div_left (h : Below s x) : Below s (divM x y) :=
  bind fun a ha => bind fun _ _ => by rw [liftPy_py]; exact map2_left (h a ha)
theorem add_left (h : Below s x) : Below s (addM x y) :=
  bind fun a ha => bind fun _ _ => by rw [liftPy_py]; exact map2_left (h a ha)
theorem add_right (h : Below s y) : Below s (addM x y) :=
  bind fun _ _ => bind fun b hb => by rw [liftPy_py]; exact map2_right (h b hb)
theorem sub_left (h : Below s x) : Below s (subM x y) :=
  bind fun a ha => bind fun _ _ => by rw [liftPy_py]; exact map2_left (h a ha)
theorem sub_right (h : Below s y) : Below s (subM x y) :=
  bind fun _ _ => bind fun b hb => by rw [liftPy_py]; exact map2_right (h b hb)
theorem mapM' {f : XR → XR} (h : Below s x) : Below s (RT1.mapM' f x) :=
  bind fun a ha => pure (h a ha)

theorem self {x : Py Arr} {a : Arr} (h : x = .ok a) : Below a.shape x := by
  intro z hz; rw [h] at hz; cases hz; exact Arr.Fits.refl _

section
variable {b : Backend} {o : Obj} {dv ds : String → Py Lam}

theorem surface_I0 : Below o.I0.shape (Fresh.acc b o dv ds).surface :=
  bind fun _ h1 => bind fun _ _ => mul_right (add_right (mul_right (pure
    (mul_left (mul_left (self (a := o.I0) rfl)) _ h1))))

theorem surface_mu0 {m : Arr} (hm : Fresh.mu0 o = .ok m) :
    Below m.shape (Fresh.acc b o dv ds).surface :=
  bind fun _ h1 => bind fun _ _ => mul_right (add_right (mul_right (pure
    (mul_left (mul_right (self hm)) _ h1))))

theorem volume_I0 : Below o.I0.shape (Fresh.acc b o dv ds).volume :=
  bind fun _ h1 => mul_right (pure (mul_left (mul_left (div_left (mul_left (mul_left
    (self (a := o.I0) rfl))))) _ h1))

theorem volume_mu0 {m : Arr} (hm : Fresh.mu0 o = .ok m) :
    Below m.shape (Fresh.acc b o dv ds).volume :=
  bind fun _ h1 => mul_right (pure (mul_left (mul_left (div_left (mul_right
    (self hm)))) _ h1))

end
end Below

theorem surface_mu0_ok {b : Backend} {o : Obj} {dv ds : String → Py Lam} {z : Arr}
    (h : (Fresh.acc b o dv ds).surface = .ok z) : ∃ m, Fresh.mu0 o = .ok m := by
  obtain ⟨_, h1, _⟩ := ok_bind h
  obtain ⟨_, h2, _⟩ := ok_bind h1
  obtain ⟨_, _, h3⟩ := ok_bind h2
  obtain ⟨m, h4, _⟩ := ok_bind h3
  exact ⟨m, h4⟩

theorem volume_mu0_ok {b : Backend} {o : Obj} {dv ds : String → Py Lam} {z : Arr}
    (h : (Fresh.acc b o dv ds).volume = .ok z) : ∃ m, Fresh.mu0 o = .ok m := by
  obtain ⟨_, h1, _⟩ := ok_bind h
  obtain ⟨_, h2, _⟩ := ok_bind h1
  obtain ⟨_, h3, _⟩ := ok_bind h2
  obtain ⟨_, h4, _⟩ := ok_bind h3
  obtain ⟨_, _, h5⟩ := ok_bind h4
  obtain ⟨m, h6, _⟩ := ok_bind h5
  exact ⟨m, h6⟩

namespace Arr

theorem Fits.append (s t : List ℕ) : Fits s (s ++ t) := by
  induction s with
  | nil => simp
  | cons a s ih => exact ⟨Or.inr rfl, ih⟩

theorem bidx_append {s idx t : List ℕ} (h : s.length ≤ idx.length) :
    bidx s (idx ++ t) = bidx s idx := by
  induction s generalizing idx with
  | nil => rfl
  | cons a s ih =>
    cases idx with
    | nil => simp at h
    | cons i idx =>
      simp only [List.cons_append, bidx]
      rw [ih (by simpa using h)]

theorem at'_append {x : Arr} {idx t : List ℕ} (h : x.shape.length ≤ idx.length) :
    x.at' (idx ++ t) = x.at' idx := by unfold at'; rw [bidx_append h]

theorem Valid.length {s idx : List ℕ} (h : Valid s idx) : idx.length = s.length :=
  List.Forall₂.length_eq h

theorem valid_append_iff {s idx : List ℕ} {n k : ℕ} :
    Valid (s ++ [n]) (idx ++ [k]) ↔ Valid s idx ∧ k < n := by
  induction s generalizing idx with
  | nil =>
    cases idx with
    | nil => simp [Valid]
    | cons i idx =>
      simp only [List.nil_append, List.cons_append, Valid]
      constructor
      · intro h
        have := h.length_eq
        simp at this
      · rintro ⟨h, -⟩
        have := h.length_eq
        simp at this
  | cons a s ih =>
    cases idx with
    | nil =>
      simp only [List.nil_append, List.cons_append, Valid]
      constructor
      · intro h
        have := h.length_eq
        simp at this
      · rintro ⟨h, -⟩
        have := h.length_eq
        simp at this
    | cons i idx =>
      have := ih (idx := idx)
      unfold Valid at this ⊢
      simp only [List.cons_append, List.forall₂_cons, this]
      tauto

/-- What `np.array([...])` of equally shaped arrays is. -/
theorem stack_ok {x : Arr} {l : List Arr} {z : Arr} (h : stack (x :: l) = .ok z) :
    z.shape = x.shape ++ [(x :: l).length] ∧ (∀ y ∈ x :: l, y.shape = x.shape) ∧
      ∀ (k : ℕ) (y : Arr), (x :: l)[k]? = some y → ∀ idx, z.get (idx ++ [k]) = y.get idx := by
  unfold stack at h
  simp only at h
  split_ifs at h with hc
  simp only [Except.ok.injEq] at h
  subst h
  refine ⟨rfl, ?_, ?_⟩
  · intro y hy
    rcases List.mem_cons.mp hy with rfl | hy
    · rfl
    · exact hc y hy
  · intro k y hk idx
    have h1 : (idx ++ [k]).getLastD 0 = k := by simp
    have h2 : (idx ++ [k]).dropLast = idx := by simp
    show (match (x :: l)[(idx ++ [k]).getLastD 0]? with
      | some y => y.get (idx ++ [k]).dropLast
      | none => XR.nan) = _
    rw [h1, h2, hk]

end Arr

section
variable {b : Backend} {o : Obj} {dv ds : String → Py Lam}
local notation "A" => Fresh.acc b o dv ds

/-- Converting units succeeds if cosines and intensity fit into the shape. -/
theorem convert_succ {a m : Arr} (hm : Fresh.mu0 o = .ok m)
    (h1 : Arr.Fits m.shape a.shape) (h2 : Arr.Fits o.I0.shape a.shape) :
    Succ ((A).convert a) a.shape := by
  have key : ∀ n : Arr, Arr.Fits n.shape a.shape → Succ (do
      let ret ← liftPy (a.mul n)
      if o.dB = true then RT1.mulM (litM 10) (Pure.pure (Arr.map XR.log10 ret)) else Pure.pure ret)
        a.shape := by
    intro n hn
    refine Succ.bind (Succ.lift (Succ.map2 (Arr.Fits.refl _) hn)) fun r hr => ?_
    by_cases h : o.dB = true
    · simp only [h, if_true]
      exact Succ.mulM (Succ.lit 10) (Succ.pure hr)
    · simp only [h]
      exact Succ.pure hr
  show Succ (if o.sig0 = true then RT1.divM (RT1.mulM (litM (4 * Real.pi)) (Fresh.mu0 o)) (.ok o.I0) >>= _
    else litM 1 >>= _) a.shape
  by_cases hs : o.sig0 = true
  · simp only [hs, if_true]
    exact Succ.bind (Succ.divM (Succ.mulM (Succ.lit _) (by rw [hm]; exact Succ.of_ok h1))
      (Succ.of_ok h2)) key
  · simp only [hs]
    exact Succ.bind (Succ.lit 1) key

/-- Converting units keeps the shape if cosines and intensity fit into it. -/
theorem convert_shape {a z m : Arr} (hz : (A).convert a = .ok z) (hm : Fresh.mu0 o = .ok m)
    (h1 : Arr.Fits m.shape a.shape) (h2 : Arr.Fits o.I0.shape a.shape) : z.shape = a.shape := by
  have hs : Succ ((A).convert a) a.shape := convert_succ hm h1 h2
  have hb : Below a.shape ((A).convert a) := by
    refine Below.bind fun s _ => Below.bind fun d _ => ?_
    have key : ∀ n : Arr, Below a.shape (do
        let ret ← liftPy (a.mul n)
        if d = true then RT1.mulM (litM 10) (Pure.pure (Arr.map XR.log10 ret)) else Pure.pure ret) := by
      intro n
      refine Below.bind fun r hr => ?_
      have hr' : Arr.Fits a.shape r.shape := by
        rw [liftPy_py] at hr
        exact Below.map2_left (Arr.Fits.refl _) r hr
      by_cases h : d = true
      · simp only [h, if_true]
        exact Below.mul_right (Below.pure hr')
      · simp only [h]
        exact Below.pure hr'
    by_cases h : s = true
    · simp only [h, if_true]
      exact Below.bind fun n _ => key n
    · simp only [h]
      exact Below.bind fun n _ => key n
  obtain ⟨z', hz', hf⟩ := hs
  rw [hz] at hz'
  cases hz'
  exact Arr.Fits.antisymm hf (hb z hz)

/-- Converting a stack of arrays converts each entry. -/
theorem convert_row {st z m : Arr} {s : List ℕ} {n k : ℕ} (hst : st.shape = s ++ [n])
    (hz : (A).convert st = .ok z) (hm : Fresh.mu0 o = .ok m)
    (h1 : Arr.Fits m.shape s) (h2 : Arr.Fits o.I0.shape s) {idx : List ℕ} (hv : Arr.Valid s idx)
    (hk : k < n) :
    z.shape = s ++ [n] ∧
      z.get (idx ++ [k]) = (XSite.of b o idx).convert o.sig0 o.dB (st.get (idx ++ [k])) := by
  have hfs : Arr.Fits s st.shape := by rw [hst]; exact Arr.Fits.append _ _
  have hsh := convert_shape hz hm (h1.trans hfs) (h2.trans hfs)
  have hv' : Arr.Valid z.shape (idx ++ [k]) := by
    rw [hsh, hst]; exact Arr.valid_append_iff.mpr ⟨hv, hk⟩
  refine ⟨by rw [hsh, hst], ?_⟩
  have hpw := PW.convert (b := b) (o := o) (dv := dv) (ds := ds) (idx := idx ++ [k]) (a := st) rfl z hz
  rw [Arr.at'_valid hv', Arr.at'_valid (by rw [← hsh]; exact hv')] at hpw
  rw [hpw]
  have hl := hv.length
  have e1 : (XSite.of b o (idx ++ [k])).mu0 = (XSite.of b o idx).mu0 := by
    obtain ⟨t, ht, hm'⟩ := ok_bind hm
    cases hm'
    show XR.cos (valAt (Fresh.ang o .t0) (idx ++ [k])) = XR.cos (valAt (Fresh.ang o .t0) idx)
    rw [ht]
    show XR.cos (t.at' (idx ++ [k])) = XR.cos (t.at' idx)
    rw [Arr.at'_append]
    rw [hl]; exact h1.length
  have e2 : (XSite.of b o (idx ++ [k])).I0 = (XSite.of b o idx).I0 := by
    show o.I0.at' _ = o.I0.at' _
    rw [Arr.at'_append]
    rw [hl]; exact h2.length
  simp only [XSite.convert, e1, e2]

/-- The arrays that `calc` puts together. -/
structure Parts (b : Backend) (o : Obj) (Is Iv Ii z : Arr) : Prop where
  surf : (Fresh.acc0 b o).surface = .ok Is
  tau : ∃ t, Fresh.par b o .tau = .ok t ∧
    if t.shape = [] ∧ ¬ (t.get []).isPos = true then Iv = Arr.zerosLike Is ∧ Ii = Arr.zerosLike Is
    else (Fresh.acc0 b o).volume = .ok Iv ∧ (o.intQ = true →
      ∃ I, (Fresh.acc0 b o).interaction = .ok I ∧
        if t.shape = [] then Ii = I else (Fresh.acc0 b o).fixNan I = .ok Ii)
  fin : (Fresh.acc0 b o).finish o.intQ Is Iv Ii = .ok z

theorem calc_parts {z : Arr} (h : Fresh.calcAll b o = .ok z) : ∃ Is Iv Ii, Parts b o Is Iv Ii z := by
  have hb : (Fresh.acc0 b o).calcBody = .ok z := by
    unfold Fresh.calcAll Acc.calcTry at h
    cases hc : (Fresh.acc0 b o).calcBody with
    | ok a => rw [hc] at h; exact h
    | error e =>
      rw [hc] at h
      exfalso
      cases e with
      | typeError ns =>
        have h' : ((Fresh.acc0 b o).missingNames >>= fun names =>
          if names ≠ [] then throw (.typeError names) else throw (.typeError ns) : Py Arr) = .ok z := h
        obtain ⟨names, -, h''⟩ := ok_bind h'
        split_ifs at h''
      | _ => cases h
  unfold Acc.calcBody at hb
  obtain ⟨t, ht, hb⟩ := ok_bind hb
  by_cases hs : t.shape = []
  · rw [if_pos hs] at hb
    obtain ⟨Is, hIs, hb⟩ := ok_bind hb
    obtain ⟨t', ht', hb⟩ := ok_bind hb
    have : t' = t := by
      have := ht.symm.trans ht'
      cases this; rfl
    subst this
    by_cases hp : (t'.get []).isPos = true
    · rw [if_pos hp] at hb
      obtain ⟨Iv, hIv, hb⟩ := ok_bind hb
      obtain ⟨q, hq, hb⟩ := ok_bind hb
      have hq' : q = o.intQ := by
        have : (Except.ok o.intQ : Py Bool) = .ok q := hq
        cases this; rfl
      subst hq'
      by_cases hq2 : o.intQ = true
      · rw [if_pos hq2] at hb
        obtain ⟨Ii, hIi, hb⟩ := ok_bind hb
        refine ⟨Is, Iv, Ii, hIs, ⟨t', ht, ?_⟩, hb⟩
        rw [if_neg (fun h => h.2 hp)]
        refine ⟨hIv, fun _ => ⟨Ii, hIi, ?_⟩⟩
        rw [if_pos hs]
      · rw [if_neg hq2] at hb
        refine ⟨Is, Iv, Arr.lit 0, hIs, ⟨t', ht, ?_⟩, hb⟩
        rw [if_neg (fun h => h.2 hp)]
        exact ⟨hIv, fun h => absurd h hq2⟩
    · rw [if_neg hp] at hb
      obtain ⟨q, hq, hb⟩ := ok_bind hb
      have hq' : q = o.intQ := by
        have : (Except.ok o.intQ : Py Bool) = .ok q := hq
        cases this; rfl
      subst hq'
      refine ⟨Is, _, _, hIs, ⟨t', ht, ?_⟩, hb⟩
      rw [if_pos ⟨hs, hp⟩]
      exact ⟨rfl, rfl⟩
  · rw [if_neg hs] at hb
    obtain ⟨Is, hIs, hb⟩ := ok_bind hb
    obtain ⟨Iv, hIv, hb⟩ := ok_bind hb
    obtain ⟨q, hq, hb⟩ := ok_bind hb
    have hq' : q = o.intQ := by
      have : (Except.ok o.intQ : Py Bool) = .ok q := hq
      cases this; rfl
    subst hq'
    by_cases hq2 : o.intQ = true
    · rw [if_pos hq2] at hb
      obtain ⟨I, hI, hb⟩ := ok_bind hb
      obtain ⟨Ii, hIi, hb⟩ := ok_bind hb
      refine ⟨Is, Iv, Ii, hIs, ⟨t, ht, ?_⟩, hb⟩
      rw [if_neg (fun h => hs h.1)]
      refine ⟨hIv, fun _ => ⟨I, hI, ?_⟩⟩
      rw [if_neg hs]
      exact hIi
    · rw [if_neg hq2] at hb
      refine ⟨Is, Iv, Arr.lit 0, hIs, ⟨t, ht, ?_⟩, hb⟩
      rw [if_neg (fun h => hs h.1)]
      exact ⟨hIv, fun h => absurd h hq2⟩

/-- Number of rows. -/
def nrows (q : Bool) : ℕ := if q = true then 4 else 3

/-- Unconverted value of the row `k`. -/
def rowVal (q : Bool) (s v i : XR) : ℕ → XR
  | 0 => if q = true then s + v + i else s + v
  | 1 => s
  | 2 => v
  | _ => i

/-- The rows of `calc` are the converted sums and parts. -/
theorem Parts.rows {Is Iv Ii z : Arr} (h : Parts b o Is Iv Ii z) :
    z.shape = Is.shape ++ [nrows o.intQ] ∧ Iv.shape = Is.shape ∧
    (o.intQ = true → Ii.shape = Is.shape) ∧
    ∀ k, k < nrows o.intQ → ∀ idx, Arr.Valid Is.shape idx →
      z.get (idx ++ [k]) = (XSite.of b o idx).convert o.sig0 o.dB
        (rowVal o.intQ (Is.get idx) (Iv.get idx) (Ii.get idx) k) := by
  have hfin := h.fin
  have hsurf := h.surf
  obtain ⟨m, hm⟩ := surface_mu0_ok hsurf
  have f1 := Below.surface_mu0 hm _ hsurf
  have f2 := Below.surface_I0 _ hsurf
  unfold Acc.finish at hfin
  by_cases hq : o.intQ = true
  · rw [if_pos hq] at hfin
    obtain ⟨tot, htot, hfin⟩ := ok_bind hfin
    obtain ⟨st, hst, hfin⟩ := ok_bind hfin
    rw [liftPy_py] at hst
    obtain ⟨g1, g2, g3⟩ := Arr.stack_ok hst
    have ht : tot.shape = Is.shape := (g2 Is (by simp)).symm
    rw [ht] at g1 g2
    have hIv : Iv.shape = Is.shape := g2 Iv (by simp)
    have hIi : Ii.shape = Is.shape := g2 Ii (by simp)
    have hn : nrows o.intQ = 4 := by simp [nrows, hq]
    have hg1 : st.shape = Is.shape ++ [4] := g1
    have hzs : z.shape = Is.shape ++ [4] := by
      have hfs : Arr.Fits Is.shape st.shape := by rw [hg1]; exact Arr.Fits.append _ _
      rw [convert_shape hfin hm (f1.trans hfs) (f2.trans hfs), hg1]
    refine ⟨by rw [hn, hzs], hIv, fun _ => hIi, ?_⟩
    intro k hk idx hv
    rw [hn] at hk
    rw [(convert_row hg1 hfin hm f1 f2 hv hk).2]
    congr 1
    have htv : tot.get idx = Is.get idx + Iv.get idx + Ii.get idx := by
      have hpw := PW.addM (PW.addM (PW.pure (a := Is) (idx := idx) rfl) (PW.pure (a := Iv) rfl))
        (PW.pure (a := Ii) rfl) tot htot
      rw [Arr.at'_valid (by rw [ht]; exact hv), Arr.at'_valid hv,
        Arr.at'_valid (by rw [hIv]; exact hv), Arr.at'_valid (by rw [hIi]; exact hv)] at hpw
      exact hpw
    interval_cases k
    · rw [g3 0 tot rfl, htv]; simp [rowVal, hq]
    · rw [g3 1 Is rfl]; rfl
    · rw [g3 2 Iv rfl]; rfl
    · rw [g3 3 Ii rfl]; rfl
  · rw [if_neg hq] at hfin
    obtain ⟨tot, htot, hfin⟩ := ok_bind hfin
    obtain ⟨st, hst, hfin⟩ := ok_bind hfin
    rw [liftPy_py] at hst
    obtain ⟨g1, g2, g3⟩ := Arr.stack_ok hst
    have ht : tot.shape = Is.shape := (g2 Is (by simp)).symm
    rw [ht] at g1 g2
    have hIv : Iv.shape = Is.shape := g2 Iv (by simp)
    have hn : nrows o.intQ = 3 := by simp [nrows, hq]
    have hg1 : st.shape = Is.shape ++ [3] := g1
    have hzs : z.shape = Is.shape ++ [3] := by
      have hfs : Arr.Fits Is.shape st.shape := by rw [hg1]; exact Arr.Fits.append _ _
      rw [convert_shape hfin hm (f1.trans hfs) (f2.trans hfs), hg1]
    refine ⟨by rw [hn, hzs], hIv, fun h => absurd h hq, ?_⟩
    intro k hk idx hv
    rw [hn] at hk
    rw [(convert_row hg1 hfin hm f1 f2 hv hk).2]
    congr 1
    have htv : tot.get idx = Is.get idx + Iv.get idx := by
      have hpw := PW.addM (PW.pure (a := Is) (idx := idx) rfl) (PW.pure (a := Iv) rfl) tot htot
      rw [Arr.at'_valid (by rw [ht]; exact hv), Arr.at'_valid hv,
        Arr.at'_valid (by rw [hIv]; exact hv)] at hpw
      exact hpw
    interval_cases k
    · rw [g3 0 tot rfl, htv]; simp [rowVal, hq]
    · rw [g3 1 Is rfl]; rfl
    · rw [g3 2 Iv rfl]; rfl

end

end

end RT1
