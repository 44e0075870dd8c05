import Verif.Props.JacLayout

/-!
# The scipy jacobian of observations with any number of axes (C53)

For parameters with one value the matrix has one row per observation, whatever the shape of the
observations.  For a timeseries it has too few rows if the observations have three axes.
-/

namespace RT1

noncomputable section
open Classical

/-- Position of an observation after `ravel()` (C order; lists have the last axis first). -/
def position : List ℕ → List ℕ → ℕ
  | n :: s, i :: idx => position s idx * n + i
  | _, _ => 0

theorem ravel_position (S : List ℕ) : (Jac.indices S).length = S.prod ∧
    ∀ idx, Arr.Valid S idx → (Jac.indices S)[position S idx]? = some idx := by
  induction S with
  | nil =>
    refine ⟨rfl, fun idx h => ?_⟩
    cases h
    rfl
  | cons n s ih =>
    have key : ∀ (L : List (List ℕ)),
        (L.flatMap fun r => (List.range n).map fun i => i :: r).length = L.length * n ∧
        ∀ p i r, L[p]? = some r → i < n →
          (L.flatMap fun r => (List.range n).map fun i => i :: r)[p * n + i]? = some (i :: r) := by
      intro L
      induction L with
      | nil => exact ⟨by simp, fun p i r h => by simp at h⟩
      | cons a L ihL =>
        refine ⟨by rw [List.flatMap_cons, List.length_append, ihL.1]; simp; ring, fun p i r h hi => ?_⟩
        rw [List.flatMap_cons]
        cases p with
        | zero =>
          simp only [List.getElem?_cons_zero, Option.some.injEq] at h
          subst h
          rw [List.getElem?_append_left (by simpa using hi)]
          simp [hi]
        | succ p =>
          simp only [List.getElem?_cons_succ] at h
          rw [List.getElem?_append_right (by simp; nlinarith)]
          have : (p + 1) * n + i - ((List.range n).map fun i => i :: a).length = p * n + i := by
            simp only [List.length_map, List.length_range]
            have : (p + 1) * n = p * n + n := by ring
            omega
          rw [this]
          exact ihL.2 p i r h hi
    obtain ⟨k1, k2⟩ := key (Jac.indices s)
    refine ⟨by unfold Jac.indices; rw [k1, ih.1, List.prod_cons, mul_comm], fun idx h => ?_⟩
    cases h with
    | cons hi hr =>
      unfold Jac.indices position
      exact k2 _ _ _ (ih.2 _ hr) hi

/-- `jacobian(format="scipy_least_squares")` rearranges what `jacobian()` returns. -/
theorem scipy_columns {w w1 : World} (hw : Reachable w) {id : ℕ} {o : Obj}
    (ho : w.objs id = some o) {keys : List String} {l : List Arr}
    (hl : jacobian id keys "list" w = (.ok (.inl l), w1)) :
    keys.length = l.length ∧ jacobian id keys "scipy_least_squares" w =
      ((match Jac.columns o.params (keys.zip l) with | .ok c => .ok (.inr c) | .error e => .error e), w1) := by
  have hl' := jacobian_list.mp hl
  obtain ⟨h1, hD⟩ := jacobianList_spec hw ho keys
  rw [hl'] at h1 hD
  obtain ⟨o', ho', hf⟩ := hD.1.obj
  constructor
  · cases hn : (Fresh.acc0 w.backend o).jacNorm with
    | error e => rw [hn] at h1; cases h1
    | ok norm =>
      rw [hn] at h1
      exact (show JacSpec w.backend o norm keys (.ok l) from h1).get.1
  · unfold jacobian
    rw [bind_ok hl', if_neg (by decide), if_pos rfl, bind_ok (getObj_some ho'), hf.params]
    cases Jac.columns o.params (keys.zip l) <;> rfl

theorem allRows_static {pd : Dict} {l : List (String × Arr)}
    (h : ∀ q ∈ l, ∃ p, pd.get? q.1 = some p ∧ p.sizeOne = true) :
    Jac.allRows pd l = .ok (l.map fun q => Jac.ravel q.2) := by
  induction l with
  | nil => rfl
  | cons q l ih =>
    obtain ⟨k, j⟩ := q
    obtain ⟨p, hp, h1⟩ := h (k, j) (List.mem_cons_self ..)
    unfold Jac.allRows
    simp only at hp
    rw [hp]
    simp only
    rw [ih fun q hq => h q (List.mem_cons_of_mem _ hq)]
    unfold Jac.rowsOf
    rw [if_pos h1]
    rfl

/-- **C53** for parameters with one value: whatever the number of axes of the observations, the
matrix has one column per parameter and one row per observation, in the order of `ravel()`.
Partial: for timeseries see `C53_partial`. -/
theorem C53_static_partial {w w1 : World} (hw : Reachable w) {id : ℕ} {o : Obj}
    (ho : w.objs id = some o) {keys : List String} {l : List Arr}
    (hl : jacobian id keys "list" w = (.ok (.inl l), w1)) (hne : keys ≠ [])
    (hone : ∀ key ∈ keys, ∃ p, o.params.get? key = some p ∧ p.shape.prod = 1)
    {S : List ℕ} (hS : ∀ j ∈ l, j.shape = S) :
    ∃ cols, jacobian id keys "scipy_least_squares" w = (.ok (.inr cols), w1) ∧ cols.length = keys.length ∧
      ∀ (m : ℕ) (j : Arr), l[m]? = some j → ∃ col, cols[m]? = some col ∧ col.length = S.prod ∧
        ∀ idx, Arr.Valid S idx → col[position S idx]? = some (j.get idx) := by
  obtain ⟨hlen, hs⟩ := scipy_columns hw ho hl
  have hr := allRows_static (pd := o.params) (l := keys.zip l) (by
    intro q hq
    obtain ⟨p, hp, h1⟩ := hone q.1 (List.of_mem_zip hq).1
    exact ⟨p, hp, by unfold Arr.sizeOne; simp [h1]⟩)
  have hmap : ((keys.zip l).map fun q => Jac.ravel q.2) = l.map Jac.ravel := by
    rw [show (fun q : String × Arr => Jac.ravel q.2) = Jac.ravel ∘ Prod.snd from rfl, ← List.map_map,
      List.map_snd_zip (by omega)]
  rw [hmap] at hr
  have hL : ∀ j ∈ l, (Jac.ravel j).length = S.prod := by
    intro j hj
    unfold Jac.ravel
    rw [List.length_map, (ravel_position _).1, hS j hj]
  have hc : Jac.columns o.params (keys.zip l) = .ok (l.map Jac.ravel) := by
    unfold Jac.columns
    rw [hr]
    cases hl0 : l.map Jac.ravel with
    | nil =>
      have : l = [] := List.map_eq_nil_iff.mp hl0
      rw [this] at hlen
      exact absurd (List.length_eq_zero_iff.mp hlen) hne
    | cons r rest =>
      show (if ∀ x ∈ rest, x.length = r.length then (Except.ok (r :: rest) : Py _) else _) = _
      have hall : ∀ x ∈ r :: rest, x.length = S.prod := by
        rw [← hl0]
        intro x hx
        obtain ⟨j, hj, rfl⟩ := List.mem_map.mp hx
        exact hL j hj
      rw [if_pos]
      intro x hx
      rw [hall x (List.mem_cons_of_mem _ hx), hall r (List.mem_cons_self ..)]
  rw [hc] at hs
  refine ⟨_, hs, by rw [List.length_map, hlen], fun m j hj => ⟨Jac.ravel j, ?_, ?_, ?_⟩⟩
  · rw [List.getElem?_map, hj]; rfl
  · exact hL j (List.mem_of_getElem? hj)
  · intro idx hv
    unfold Jac.ravel
    rw [List.getElem?_map, hS j (List.mem_of_getElem? hj), (ravel_position S).2 idx hv]
    rfl

theorem blockRows_length {k : ℕ} (bs : List (List (List XR))) (h : ∀ b ∈ bs, b ≠ [] ∧ ∀ row ∈ b, row.length = k) :
    ∀ pre, ∀ row ∈ Jac.blockRows pre bs, row.length = pre + bs.length * k := by
  induction bs with
  | nil => intro pre row hr; cases hr
  | cons b bs ih =>
    intro pre row hr
    have hw : ∀ c ∈ b :: bs, Jac.width c = k := by
      intro c hc
      obtain ⟨h1, h2⟩ := h c hc
      cases c with
      | nil => exact absurd rfl h1
      | cons r rs => exact h2 r (List.mem_cons_self ..)
    have hsum : (bs.map Jac.width).sum = bs.length * k := by
      have : bs.map Jac.width = List.replicate bs.length k := by
        rw [List.eq_replicate_iff]
        refine ⟨by simp, fun x hx => ?_⟩
        obtain ⟨c, hc, rfl⟩ := List.mem_map.mp hx
        exact hw c (List.mem_cons_of_mem _ hc)
      rw [this, List.sum_replicate, smul_eq_mul]
    unfold Jac.blockRows at hr
    rcases List.mem_append.mp hr with hr | hr
    · obtain ⟨row', hr', rfl⟩ := List.mem_map.mp hr
      simp only [List.length_append, List.length_replicate, hsum, (h b (List.mem_cons_self ..)).2 row' hr',
        List.length_cons]
      ring
    · rw [ih (fun c hc => h c (List.mem_cons_of_mem _ hc)) _ row hr, hw b (List.mem_cons_self ..)]
      simp only [List.length_cons]
      ring

theorem rowsOf_three {p j : Arr} {n m k : ℕ} (hj : j.shape = [k, m, n]) (hm : 0 < m) (hn : 0 < n)
    (hp : p.sizeOne = false) :
    ∃ rows, Jac.rowsOf p j = .ok rows ∧ rows ≠ [] ∧ ∀ row ∈ rows, row.length = n * k := by
  unfold Jac.rowsOf Jac.blocks
  rw [hp, if_neg (by simp), hj]
  refine ⟨_, rfl, ?_, ?_⟩
  · obtain ⟨n, rfl⟩ : ∃ n', n = n' + 1 := ⟨n - 1, by omega⟩
    obtain ⟨m, rfl⟩ : ∃ n', m = n' + 1 := ⟨m - 1, by omega⟩
    simp [List.range_succ_eq_map, Jac.blockRows]
  · intro row hr
    have := blockRows_length (k := k) _ (by
      intro b hb
      obtain ⟨r, -, rfl⟩ := List.mem_map.mp hb
      rw [if_neg (by omega)]
      refine ⟨by simp; omega, fun row hrow => ?_⟩
      obtain ⟨q, -, rfl⟩ := List.mem_map.mp hrow
      simp) 0 row hr
    simpa using this

theorem allRows_mem {pd : Dict} {l : List (String × Arr)} {rows : List (List XR)}
    (h : Jac.allRows pd l = .ok rows) {q : String × Arr} (hq : q ∈ l) {p : Arr} (hp : pd.get? q.1 = some p) :
    ∃ rs, Jac.rowsOf p q.2 = .ok rs ∧ ∀ r ∈ rs, r ∈ rows := by
  induction l generalizing rows with
  | nil => cases hq
  | cons a l ih =>
    obtain ⟨k, j⟩ := a
    unfold Jac.allRows at h
    cases hk : pd.get? k with
    | none => rw [hk] at h; cases h
    | some v =>
      rw [hk] at h
      simp only at h
      cases hr : Jac.rowsOf v j with
      | error e => rw [hr] at h; cases h
      | ok r =>
        rw [hr] at h
        cases hrs : Jac.allRows pd l with
        | error e => rw [hrs] at h; cases h
        | ok rs =>
          rw [hrs] at h
          have h' : (Except.ok (r ++ rs) : Py _) = .ok rows := h
          cases h'
          rcases List.mem_cons.mp hq with rfl | hq
          · simp only at hp
            rw [hp] at hk
            cases hk
            exact ⟨r, hr, fun x hx => List.mem_append_left _ hx⟩
          · obtain ⟨rs', h1, h2⟩ := ih hrs hq
            exact ⟨rs', h1, fun x hx => List.mem_append_right _ (h2 x hx)⟩

/-- Observations with three axes, `n` timestamps with `m` times `k` values each: if one of the
parameters is a timeseries, the matrix (if one is returned at all) has `n*k` rows and not one row for
each of the `n*m*k` observations. -/
theorem C53_three_axes_negation {w w1 : World} (hw : Reachable w) {id : ℕ} {o : Obj}
    (ho : w.objs id = some o) {keys : List String} {l : List Arr}
    (hl : jacobian id keys "list" w = (.ok (.inl l), w1)) {n m k : ℕ} (hn : 0 < n) (hm : 1 < m) (hk : 0 < k)
    (hS : ∀ j ∈ l, j.shape = [k, m, n]) {key : String} (hkey : key ∈ keys) {p : Arr}
    (hp : o.params.get? key = some p) (hdyn : p.shape.prod ≠ 1)
    {cols : List (List XR)} {w' : World}
    (hc : jacobian id keys "scipy_least_squares" w = (.ok (.inr cols), w')) :
    ∀ c ∈ cols, c.length = n * k ∧ c.length ≠ n * m * k := by
  obtain ⟨hlen, hs⟩ := scipy_columns hw ho hl
  have hcol : Jac.columns o.params (keys.zip l) = .ok cols := by
    rw [hc] at hs
    have := (Prod.mk.inj hs).1
    cases hx : Jac.columns o.params (keys.zip l) with
    | error e => rw [hx] at this; cases this
    | ok c => rw [hx] at this; cases this; rfl
  obtain ⟨i, hi, hik⟩ := List.mem_iff_getElem.mp hkey
  have hi' : i < l.length := hlen ▸ hi
  have hq : (key, l[i]) ∈ keys.zip l := by
    refine List.mem_of_getElem? (i := i) ?_
    rw [List.getElem?_zip_eq_some]
    exact ⟨by rw [List.getElem?_eq_getElem hi, hik], List.getElem?_eq_getElem hi'⟩
  unfold Jac.columns at hcol
  cases hr : Jac.allRows o.params (keys.zip l) with
  | error e => rw [hr] at hcol; cases hcol
  | ok rows =>
    rw [hr] at hcol
    obtain ⟨rs, h1, h2⟩ := allRows_mem hr hq hp
    obtain ⟨rs', h3, h4, h5⟩ := rowsOf_three (p := p) (hS l[i] (List.getElem_mem hi')) (by omega : 0 < m) hn
      (by unfold Arr.sizeOne; simp [hdyn])
    rw [h1] at h3
    cases h3
    obtain ⟨r0, hr0⟩ := List.exists_mem_of_ne_nil _ h4
    have hlt : n * k ≠ n * m * k := by
      have : n * k < n * m * k := by
        have h0 : 0 < n * k := Nat.mul_pos hn hk
        calc n * k < n * k * m := by nlinarith
          _ = n * m * k := by ring
      omega
    cases rows with
    | nil => exact absurd (h2 r0 hr0) (by simp)
    | cons r rest =>
      have hcol' : (if ∀ x ∈ rest, x.length = r.length then (Except.ok (r :: rest) : Py _)
        else .error .valueError) = .ok cols := hcol
      by_cases hall : ∀ x ∈ rest, x.length = r.length
      · rw [if_pos hall] at hcol'
        cases hcol'
        have e : ∀ x ∈ r :: rest, x.length = r.length := by
          intro x hx
          rcases List.mem_cons.mp hx with rfl | hx
          · rfl
          · exact hall x hx
        have er : r.length = n * k := by rw [← e r0 (h2 r0 hr0), h5 r0 hr0]
        intro c hc'
        rw [e c hc', er]
        exact ⟨rfl, hlt⟩
      · rw [if_neg hall] at hcol'
        cases hcol'

/-! ### examples -/

/-- A value for each of two timestamps, with three axes. -/
def ts3 : Arr := ⟨[1, 1, 2], fun idx => XR.fin ((idx.getLast?.getD 0 : ℕ) + 1)⟩
/-- Two times one angles for each of two timestamps. -/
def ang3 : Arr := ⟨[1, 2, 2], fun idx => XR.fin ((idx.getLast?.getD 0 : ℕ) / 4)⟩

/-- omega is a timeseries. -/
def ts3Kw : Dict := [("tau", Arr.lit 1), ("omega", ts3), ("NormBRDF", Arr.lit 1), ("bsf", Arr.lit 0)]

theorem ts3_params (V SRF : Scatter) (q s d : Bool) (I t p : Arr) :
    (demoObj V SRF q s d I t p ts3Kw).params =
      [("bsf", arr1 0), ("tau", arr1 1), ("omega", ts3), ("NormBRDF", arr1 1)] := by
  simp [demoObj, ts3Kw, Dict.update, Dict.set, arr1]
  simp [ts3, Arr.atleast1d]

theorem ts3_complete {V SRF : Scatter} (hV : V.Plain) (hS : SRF.Plain) (q s d : Bool) :
    Complete (demoObj V SRF q s d (Arr.lit 1) ang3 (Arr.lit 0) ts3Kw) [1, 2, 2] where
  t0 := ⟨ang3.atleast1d, by simp [demoObj], by simp [ang3, Arr.atleast1d, Arr.Fits]⟩
  p0 := ⟨arr1 0, by simp [demoObj, arr1], one_fits (by simp)⟩
  tex := Or.inl rfl
  pex := Or.inl rfl
  I0 := by simp [demoObj, Arr.lit, Arr.num]
  params := by
    intro k' a hk
    rw [ts3_params] at hk
    have : ∀ r, Arr.Fits (arr1 r).shape [1, 2, 2] := fun r => one_fits (by simp)
    have h2 : Arr.Fits ts3.shape [1, 2, 2] := by simp [ts3, Arr.Fits]
    simp only [Dict.get?, List.find?_cons] at hk
    split at hk
    · cases hk; exact this _
    split at hk
    · cases hk; exact this _
    split at hk
    · cases hk; exact h2
    split at hk
    · cases hk; exact this _
    · cases hk
  defs := by
    intro p'
    rw [ts3_params]
    cases p' <;> simp [demoObj, defaultDefs, Expr.free, Dict.keys]
  V := fun n hn => List.mem_append_left _ (hV n hn)
  SRF := fun n hn => List.mem_append_left _ (hS n hn)

theorem ts3_jac (key : String) (hkey : builtin key) : ∃ (w : World) (o : Obj) (j : Arr) (w1 : World),
    Reachable w ∧ w.objs 0 = some o ∧
    o.params = [("bsf", arr1 0), ("tau", arr1 1), ("omega", ts3), ("NormBRDF", arr1 1)] ∧
    jacobian 0 [key] "list" w = (.ok (.inl [j]), w1) ∧ j.shape = [1, 2, 2] := by
  have hc := ts3_complete exV_plain exS_plain true true false
  have ho := demo_objs .sympy exV exS true true false (Arr.lit 1) ang3 (Arr.lit 0) ts3Kw
  have hr := demo_reachable .sympy exV exS true true false (Arr.lit 1) ang3 (Arr.lit 0) ts3Kw
  have hp := ts3_params exV exS true true false (Arr.lit 1) ang3 (Arr.lit 0)
  have ha : (demoObj exV exS true true false (Arr.lit 1) ang3 (Arr.lit 0) ts3Kw).ang .t0 =
    some ang3.atleast1d := by simp [demoObj]
  generalize demoObj exV exS true true false (Arr.lit 1) ang3 (Arr.lit 0) ts3Kw = o at *
  generalize demoW .sympy exV exS true true false (Arr.lit 1) ang3 (Arr.lit 0) ts3Kw = w at *
  have hk : ∀ k ∈ [key], builtin k ∨ w.backend = .symengine ∧ k ∈ o.params.keys := by
    intro k hk
    simp only [List.mem_singleton] at hk
    exact Or.inl (hk ▸ hkey)
  obtain ⟨l, w1, hl⟩ := jacobianList_succ hr ho hc (keys := [key]) hk
  have hm : Fresh.mu0 o = .ok (Arr.cos ang3.atleast1d) := by
    unfold Fresh.mu0 Fresh.ang
    rw [ha]; rfl
  have hsh := jac_shapes hr ho hc hm (by simp [ang3, Arr.atleast1d, Arr.cos, Arr.map]) hk hl
  have hl' := jacobian_list.mpr hl
  have hlen := (scipy_columns hr ho hl').1
  match l, hlen with
  | [j], _ => exact ⟨w, o, j, w1, hr, ho, hp, hl', hsh j (List.mem_singleton_self _)⟩

/-- Four observations with three axes; tau has one value: one column with four rows. -/
example : ∃ (w : World) (cols : List (List XR)) (w' : World), Reachable w ∧
    jacobian 0 ["tau"] "scipy_least_squares" w = (.ok (.inr cols), w') ∧
    cols.length = 1 ∧ ∀ c ∈ cols, c.length = 4 := by
  obtain ⟨w, o, j, w1, hr, ho, hp, hl, hj⟩ := ts3_jac "tau" (Or.inr (Or.inl rfl))
  obtain ⟨cols, h1, h2, h3⟩ := C53_static_partial hr ho hl (by simp) (by
    intro key hk
    simp only [List.mem_singleton] at hk
    subst hk
    exact ⟨arr1 1, by rw [hp]; simp [Dict.get?], by simp [arr1, Arr.atleast1d, Arr.lit, Arr.num]⟩)
    (S := [1, 2, 2]) (by intro j' hj'; simp only [List.mem_singleton] at hj'; rw [hj', hj])
  refine ⟨w, cols, w1, hr, h1, h2, ?_⟩
  obtain ⟨col, hc, hlen, -⟩ := h3 0 j rfl
  match cols, h2 with
  | [c], _ =>
    simp only [List.getElem?_cons_zero, Option.some.injEq] at hc
    subst hc
    simpa using hlen

/-- Two times one values for each of two timestamps and a timeseries omega: `jacobian()` returns four
values, the matrix has only two rows. -/
theorem C53_three_axes_counterexample : ∃ (w : World) (o : Obj) (a j : Arr) (w1 : World)
    (cols : List (List XR)) (w2 : World), Reachable w ∧ w.objs 0 = some o ∧
    o.params.get? "omega" = some a ∧ a.shape = [1, 1, 2] ∧
    jacobian 0 ["omega"] "list" w = (.ok (.inl [j]), w1) ∧ j.shape = [1, 2, 2] ∧
    jacobian 0 ["omega"] "scipy_least_squares" w = (.ok (.inr cols), w2) ∧ cols ≠ [] ∧
    ∀ c ∈ cols, c.length = 2 := by
  obtain ⟨w, o, j, w1, hr, ho, hp, hl, hj⟩ := ts3_jac "omega" (Or.inl rfl)
  have hpo : o.params.get? "omega" = some ts3 := by rw [hp]; simp [Dict.get?]
  obtain ⟨-, hs⟩ := scipy_columns hr ho hl
  obtain ⟨rows, h1, h2, h3⟩ := rowsOf_three (p := ts3) hj (by norm_num) (by norm_num)
    (by simp [ts3, Arr.sizeOne])
  have hc : Jac.columns o.params (["omega"].zip [j]) = .ok rows := by
    have ha : Jac.allRows o.params (["omega"].zip [j]) = .ok rows := by
      show Jac.allRows o.params [("omega", j)] = _
      unfold Jac.allRows
      rw [hpo]
      simp only
      rw [h1]
      show (Except.ok (rows ++ []) : Py _) = _
      rw [List.append_nil]
    unfold Jac.columns
    rw [ha]
    cases rows with
    | nil => exact absurd rfl h2
    | cons r rest =>
      show (if ∀ x ∈ rest, x.length = r.length then (Except.ok (r :: rest) : Py _) else _) = _
      rw [if_pos]
      intro x hx
      rw [h3 x (List.mem_cons_of_mem _ hx), h3 r (List.mem_cons_self ..)]
  rw [hc] at hs
  exact ⟨w, o, ts3, j, w1, rows, w1, hr, ho, hpo, rfl, hl, hj, hs, h2, fun c hc => h3 c hc⟩

end

end RT1
