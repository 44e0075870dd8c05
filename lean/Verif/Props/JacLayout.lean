import Verif.Lemmas.JacObs
import Verif.Props.Contrib
import Verif.Props.Backend
import Verif.Lemmas.ParL
import Verif.Lemmas.ParSym

/-!
# The matrix returned by `jacobian(format="scipy_least_squares")` (C53)

The observations are an array with `n` timestamps and `k` values per timestamp (or a vector
with `n` timestamps and one value each).
-/

namespace RT1

noncomputable section
open Classical

/-- `j` holds `k` values for each of `n` timestamps; `val r i` is the value `i` of timestamp `r`. -/
def Obs2 (j : Arr) (n k : ℕ) (val : ℕ → ℕ → XR) : Prop :=
  (j.shape = [k, n] ∧ val = fun r i => j.get [i, r]) ∨
  (j.shape = [n] ∧ k = 1 ∧ val = fun r _ => j.get [r])

/-- A column with the value `v r i` for the observation `i` of timestamp `r`, the observations
being ravelled. -/
def Ravelled (col : List XR) (n k : ℕ) (v : ℕ → ℕ → XR) : Prop :=
  col.length = n * k ∧ ∀ r < n, ∀ i < k, col[r * k + i]? = some (v r i)

/-- The columns of one parameter with the value `p` in `param_dict`: a scalar has one column
with all values, a timeseries has one column per timestamp which is zero outside the
observations of this timestamp. -/
def Columns (p : Arr) (n k : ℕ) (val : ℕ → ℕ → XR) (cols : List (List XR)) : Prop :=
  (p.sizeOne = true ∧ ∃ col, cols = [col] ∧ Ravelled col n k val) ∨
  (p.sizeOne = false ∧ cols.length = n ∧ ∀ t < n, ∃ col, cols[t]? = some col ∧
    Ravelled col n k fun r i => if r = t then val r i else XR.fin 0)

/-! ### lists -/

theorem flatMap_range {α : Type} (n k : ℕ) (f : ℕ → ℕ → α) :
    ((List.range n).flatMap fun r => (List.range k).map (f r)).length = n * k ∧
    ∀ r < n, ∀ i < k, ((List.range n).flatMap fun r => (List.range k).map (f r))[r * k + i]? =
      some (f r i) := by
  induction n with
  | zero => simp
  | succ n ih =>
    rw [List.range_succ, List.flatMap_append, List.flatMap_singleton]
    refine ⟨by rw [List.length_append, ih.1]; simp; ring, fun r hr i hi => ?_⟩
    rcases Nat.lt_succ_iff_lt_or_eq.mp hr with h | h
    · rw [List.getElem?_append_left]
      · exact ih.2 r h i hi
      · rw [ih.1]
        calc r * k + i < r * k + k := by omega
          _ = (r + 1) * k := by ring
          _ ≤ n * k := Nat.mul_le_mul_right _ h
    · subst h
      rw [List.getElem?_append_right (by rw [ih.1]; omega), ih.1]
      simp [hi]

theorem ravel_obs {j : Arr} {n k : ℕ} {val : ℕ → ℕ → XR} (h : Obs2 j n k val) :
    Ravelled (Jac.ravel j) n k val := by
  rcases h with ⟨hs, rfl⟩ | ⟨hs, rfl, rfl⟩
  · have e : Jac.ravel j = (List.range n).flatMap fun r => (List.range k).map fun i => j.get [i, r] := by
      unfold Jac.ravel
      rw [hs]
      simp [Jac.indices, List.flatMap_map, List.map_flatMap, Function.comp_def]
    rw [e]
    exact flatMap_range n k _
  · have e : Jac.ravel j = (List.range n).map fun r => j.get [r] := by
      unfold Jac.ravel
      rw [hs]
      simp [Jac.indices, Function.comp_def]
    rw [e]
    refine ⟨by simp, fun r hr i hi => ?_⟩
    have : i = 0 := by omega
    subst this
    simp [hr]

theorem blockRows_get {k : ℕ} (bs : List (List XR)) (hk : ∀ b ∈ bs, b.length = k) :
    ∀ pre, (Jac.blockRows pre (bs.map fun b => [b])).length = bs.length ∧
    ∀ (t : ℕ) (b : List XR), bs[t]? = some b → (Jac.blockRows pre (bs.map fun b => [b]))[t]? =
      some (List.replicate (pre + t * k) (XR.fin 0) ++ b ++
        List.replicate ((bs.length - t - 1) * k) (XR.fin 0)) := by
  induction bs with
  | nil => intro pre; exact ⟨rfl, fun t b h => by simp at h⟩
  | cons b bs ih =>
    intro pre
    have hb := hk b (List.mem_cons_self ..)
    have ih' := ih (fun b hb => hk b (List.mem_cons_of_mem _ hb)) (pre + b.length)
    have hw : ∀ b : List XR, Jac.width [b] = b.length := fun b => rfl
    refine ⟨by rw [List.map_cons]; unfold Jac.blockRows; rw [hw]; simp [ih'.1], fun t b' h => ?_⟩
    have hsum : ((bs.map fun b => [b]).map Jac.width).sum = bs.length * k := by
      have : (bs.map fun b => [b]).map Jac.width = List.replicate bs.length k := by
        rw [List.eq_replicate_iff]
        refine ⟨by simp, fun x hx => ?_⟩
        rw [List.map_map] at hx
        obtain ⟨c, hc, rfl⟩ := List.mem_map.mp hx
        exact hk c (List.mem_cons_of_mem _ hc)
      rw [this, List.sum_replicate, smul_eq_mul]
    rw [List.map_cons]
    unfold Jac.blockRows
    rw [hw, hsum, List.map_singleton, List.singleton_append]
    cases t with
    | zero =>
      simp only [List.getElem?_cons_zero, Option.some.injEq] at h ⊢
      subst h
      simp
    | succ t =>
      simp only [List.getElem?_cons_succ] at h ⊢
      rw [ih'.2 t b' h, hb]
      congr 3
      · congr 1; ring
      · congr 1
        simp only [List.length_cons]
        congr 1
        omega

/-- One row of the block diagonal matrix. -/
theorem block_row {n k t : ℕ} (ht : t < n) {b : List XR} (hb : b.length = k) {v : ℕ → XR}
    (hv : ∀ i < k, b[i]? = some (v i)) :
    Ravelled (List.replicate (t * k) (XR.fin 0) ++ b ++ List.replicate ((n - t - 1) * k) (XR.fin 0))
      n k fun r i => if r = t then v i else XR.fin 0 := by
  have e : t * k + k + (n - t - 1) * k = n * k := by
    have : t + 1 + (n - t - 1) = n := by omega
    calc t * k + k + (n - t - 1) * k = (t + 1 + (n - t - 1)) * k := by ring
      _ = n * k := by rw [this]
  refine ⟨by simp [hb]; omega, fun r hr i hi => ?_⟩
  show _ = some (if r = t then v i else XR.fin 0)
  rcases lt_trichotomy r t with h | h | h
  · have h1 : r * k + i < t * k := by
      calc r * k + i < r * k + k := by omega
        _ = (r + 1) * k := by ring
        _ ≤ t * k := Nat.mul_le_mul_right _ h
    rw [if_neg h.ne, List.append_assoc, List.getElem?_append_left (by simpa using h1),
      List.getElem?_replicate, if_pos h1]
  · subst h
    rw [if_pos rfl, List.append_assoc, List.getElem?_append_right (by simp),
      List.getElem?_append_left (by simp [hb, hi])]
    simpa using hv i hi
  · have h1 : t * k + k ≤ r * k + i := by
      calc t * k + k = (t + 1) * k := by ring
        _ ≤ r * k := Nat.mul_le_mul_right _ h
        _ ≤ _ := by omega
    have h2 : r * k + i < n * k := by
      calc r * k + i < r * k + k := by omega
        _ = (r + 1) * k := by ring
        _ ≤ n * k := Nat.mul_le_mul_right _ hr
    rw [if_neg h.ne', List.getElem?_append_right (by simp [hb, h1])]
    rw [List.getElem?_replicate, if_pos]
    simp only [List.length_append, List.length_replicate, hb]
    omega

theorem rowsOf_columns {p j : Arr} {n k : ℕ} {val : ℕ → ℕ → XR} (h : Obs2 j n k val) :
    ∃ rows, Jac.rowsOf p j = .ok rows ∧ Columns p n k val rows := by
  unfold Jac.rowsOf
  by_cases hp : p.sizeOne = true
  · rw [if_pos hp]
    exact ⟨_, rfl, Or.inl ⟨hp, _, rfl, ravel_obs h⟩⟩
  rw [if_neg hp]
  have hb : ∃ bs : List (List XR), Jac.blocks j = .ok (bs.map fun b => [b]) ∧ bs.length = n ∧ ∀ t < n, ∃ b, bs[t]? = some b ∧
      b.length = k ∧ ∀ i < k, b[i]? = some (val t i) := by
    unfold Jac.blocks
    rcases h with ⟨hs, rfl⟩ | ⟨hs, rfl, rfl⟩
    · rw [hs]
      refine ⟨(List.range n).map fun r => (List.range k).map fun i => j.get [i, r], by simp [Function.comp_def],
        by simp, fun t ht => ⟨_, by simp [ht]; rfl, by simp, fun i hi => by simp [hi]⟩⟩
    · rw [hs]
      refine ⟨(List.range n).map fun r => [j.get [r]], by simp [Function.comp_def], by simp, fun t ht => ⟨_, by simp [ht]; rfl, by simp, fun i hi => ?_⟩⟩
      have : i = 0 := by omega
      subst this
      simp
  obtain ⟨bs, hbs, hlen, hget⟩ := hb
  rw [hbs]
  refine ⟨_, rfl, Or.inr ⟨by simpa using hp, ?_, ?_⟩⟩
  · rw [← hlen]
    have : ∀ b ∈ bs, b.length = k := by
      intro b hb
      obtain ⟨t, ht, rfl⟩ := List.mem_iff_getElem.mp hb
      obtain ⟨b', hb', hl, -⟩ := hget t (hlen ▸ ht)
      rw [List.getElem?_eq_getElem ht] at hb'
      cases hb'
      exact hl
    exact (blockRows_get bs this 0).1
  · have hk : ∀ b ∈ bs, b.length = k := by
      intro b hb
      obtain ⟨t, ht, rfl⟩ := List.mem_iff_getElem.mp hb
      obtain ⟨b', hb', hl, -⟩ := hget t (hlen ▸ ht)
      rw [List.getElem?_eq_getElem ht] at hb'
      cases hb'
      exact hl
    intro t ht
    obtain ⟨b, hb', hl, hv⟩ := hget t ht
    refine ⟨_, (blockRows_get bs hk 0).2 t b hb', ?_⟩
    rw [hlen, Nat.zero_add]
    have := block_row ht hl hv
    refine ⟨this.1, fun r hr i hi => ?_⟩
    rw [this.2 r hr i hi]
    show some (if r = t then val t i else XR.fin 0) = some (if r = t then val r i else XR.fin 0)
    by_cases e : r = t
    · rw [if_pos e, if_pos e, e]
    · rw [if_neg e, if_neg e]

/-- All columns, parameter by parameter. -/
def Groups (pd : Dict) (n k : ℕ) (l : List (String × Arr)) (cols : List (List XR)) : Prop :=
  ∃ groups : List (List (List XR)), cols = groups.flatten ∧ groups.length = l.length ∧
    ∀ (m : ℕ) (key : String) (j : Arr) (val : ℕ → ℕ → XR), l[m]? = some (key, j) →
      Obs2 j n k val → ∃ p g, pd.get? key = some p ∧ groups[m]? = some g ∧ Columns p n k val g

theorem allRows_groups {pd : Dict} {n k : ℕ} {l : List (String × Arr)}
    (hobs : ∀ q ∈ l, ∃ val, Obs2 q.2 n k val) (hkeys : ∀ q ∈ l, q.1 ∈ pd.keys) :
    ∃ rows, Jac.allRows pd l = .ok rows ∧ Groups pd n k l rows := by
  induction l with
  | nil => exact ⟨[], rfl, [], rfl, rfl, fun m key j val h => by simp at h⟩
  | cons q l ih =>
    obtain ⟨key, j⟩ := q
    obtain ⟨rows, hr, groups, hg, hlen, hget⟩ := ih (fun q hq => hobs q (List.mem_cons_of_mem _ hq))
      (fun q hq => hkeys q (List.mem_cons_of_mem _ hq))
    obtain ⟨p, hp⟩ := Dict.get?_of_mem (hkeys (key, j) (List.mem_cons_self ..))
    obtain ⟨val, hval⟩ := hobs (key, j) (List.mem_cons_self ..)
    obtain ⟨rs, hrs, -⟩ := rowsOf_columns (p := p) hval
    refine ⟨rs ++ rows, ?_, rs :: groups, by simp [hg], by simp [hlen], ?_⟩
    · unfold Jac.allRows
      simp only at hp
      rw [hp]
      simp only
      rw [hrs, hr]
      rfl
    · intro m key' j' val' hm hobs'
      cases m with
      | zero =>
        simp only [List.getElem?_cons_zero, Option.some.injEq, Prod.mk.injEq] at hm
        obtain ⟨rfl, rfl⟩ := hm
        obtain ⟨rs', hrs', hc⟩ := rowsOf_columns (p := p) hobs'
        have hrr : rs = rs' := by
          have := hrs.symm.trans hrs'
          cases this; rfl
        exact ⟨p, rs, hp, rfl, hrr ▸ hc⟩
      | succ m =>
        simp only [List.getElem?_cons_succ] at hm ⊢
        exact hget m key' j' val' hm hobs'

theorem Groups.lengths {pd : Dict} {n k : ℕ} {l : List (String × Arr)} {cols : List (List XR)}
    (h : Groups pd n k l cols) (hobs : ∀ q ∈ l, ∃ val, Obs2 q.2 n k val) :
    ∀ c ∈ cols, c.length = n * k := by
  obtain ⟨groups, rfl, hlen, hget⟩ := h
  intro c hc
  obtain ⟨g, hg, hcg⟩ := List.mem_flatten.mp hc
  obtain ⟨m, hm, rfl⟩ := List.mem_iff_getElem.mp hg
  have hm' : m < l.length := hlen ▸ hm
  obtain ⟨val, hval⟩ := hobs l[m] (List.getElem_mem hm')
  obtain ⟨p, g', -, hg', hC⟩ := hget m l[m].1 l[m].2 val (by rw [List.getElem?_eq_getElem hm']) hval
  rw [List.getElem?_eq_getElem hm] at hg'
  simp only [Option.some.injEq] at hg'
  subst hg'
  rcases hC with ⟨-, col, hcol, hr⟩ | ⟨-, hl, hr⟩
  · rw [hcol] at hcg
    simp only [List.mem_singleton] at hcg
    rw [hcg]; exact hr.1
  · obtain ⟨t, ht, rfl⟩ := List.mem_iff_getElem.mp hcg
    obtain ⟨col, hcol, hR⟩ := hr t (hl ▸ ht)
    rw [List.getElem?_eq_getElem ht] at hcol
    simp only [Option.some.injEq] at hcol
    rw [hcol]; exact hR.1

theorem Groups.ne_nil {pd : Dict} {n k : ℕ} {l : List (String × Arr)} {cols : List (List XR)}
    (h : Groups pd n k l cols) (hobs : ∀ q ∈ l, ∃ val, Obs2 q.2 n k val) (hn : 0 < n)
    (hl : l ≠ []) : cols ≠ [] := by
  obtain ⟨groups, rfl, hlen, hget⟩ := h
  have hm' : 0 < l.length := List.length_pos_iff.mpr hl
  obtain ⟨val, hval⟩ := hobs l[0] (List.getElem_mem hm')
  obtain ⟨p, g, -, hg, hC⟩ := hget 0 l[0].1 l[0].2 val (by rw [List.getElem?_eq_getElem hm']) hval
  have hg' : g ∈ groups := List.mem_of_getElem? hg
  have hgn : g ≠ [] := by
    rcases hC with ⟨-, col, rfl, -⟩ | ⟨-, hl, -⟩
    · simp
    · intro h; rw [h] at hl; simp at hl; omega
  intro hnil
  rw [List.flatten_eq_nil_iff] at hnil
  exact hgn (hnil g hg')

/-- If `jacobian(keys)` returns arrays with `k` values for each of `n` timestamps and all
names are in `param_dict`, then `format="scipy_least_squares"` returns the matrix with one
row per ravelled observation and the columns of the parameters one after the other.
Partial: an entry can have fewer axes than the observations (`C53_counterexample`); for more
than two axes see `C53_static_partial` and `C53_three_axes_negation`. -/
theorem C53_partial {w w1 : World} (hw : Reachable w) {id : ℕ} {o : Obj}
    (ho : w.objs id = some o) {keys : List String} {l : List Arr}
    (hl : jacobian id keys "list" w = (.ok (.inl l), w1)) {n k : ℕ} (hn : 0 < n)
    (hne : keys ≠ []) (hkeys : ∀ key ∈ keys, key ∈ o.params.keys)
    (hobs : ∀ j ∈ l, ∃ val, Obs2 j n k val) :
    ∃ cols w', jacobian id keys "scipy_least_squares" w = (.ok (.inr cols), w') ∧
      (∀ c ∈ cols, c.length = n * k) ∧
      ∃ groups : List (List (List XR)), cols = groups.flatten ∧ groups.length = keys.length ∧
        ∀ (m : ℕ) (key : String) (j : Arr) (val : ℕ → ℕ → XR), keys[m]? = some key →
          l[m]? = some j → Obs2 j n k val →
          ∃ p g, o.params.get? key = some p ∧ groups[m]? = some g ∧ Columns p n k val g := by
  have hl' := jacobian_list.mp hl
  obtain ⟨h1, hD⟩ := jacobianList_spec hw ho keys
  rw [hl'] at h1 hD
  obtain ⟨o', ho', hf⟩ := hD.1.obj
  have hlen : keys.length = l.length := by
    cases hn : (Fresh.acc0 w.backend o).jacNorm with
    | error e => rw [hn] at h1; cases h1
    | ok norm =>
      rw [hn] at h1
      exact (show JacSpec w.backend o norm keys (.ok l) from h1).get.1
  have hobs' : ∀ q ∈ keys.zip l, ∃ val, Obs2 q.2 n k val := fun q hq =>
    hobs q.2 (List.of_mem_zip hq).2
  have hkeys' : ∀ q ∈ keys.zip l, q.1 ∈ o.params.keys := fun q hq =>
    hkeys q.1 (List.of_mem_zip hq).1
  obtain ⟨rows, hr, hG⟩ := allRows_groups hobs' hkeys'
  have hlen' := hG.lengths hobs'
  have hnil := hG.ne_nil hobs' hn (by
    intro h
    have := congrArg List.length h
    rw [List.length_zip, hlen, min_self, ← hlen] at this
    exact hne (List.length_eq_zero_iff.mp this))
  have hcols : Jac.columns o.params (keys.zip l) = .ok rows := by
    unfold Jac.columns
    rw [hr]
    cases rows with
    | nil => exact absurd rfl hnil
    | cons r rest =>
      show (if ∀ x ∈ rest, x.length = r.length then (Except.ok (r :: rest) : Py _) else _) = _
      rw [if_pos]
      intro x hx
      rw [hlen' x (List.mem_cons_of_mem _ hx), hlen' r (List.mem_cons_self ..)]
  refine ⟨rows, w1, ?_, hlen', ?_⟩
  · unfold jacobian
    rw [bind_ok hl', if_neg (by decide), if_pos rfl, bind_ok (getObj_some ho'), hf.params, hcols]
    rfl
  · obtain ⟨groups, hg, hgl, hget⟩ := hG
    refine ⟨groups, hg, ?_, fun m key j val hk hj hv => ?_⟩
    · rw [hgl, List.length_zip, hlen, min_self]
    · exact hget m key j val (by rw [List.getElem?_zip_eq_some]; exact ⟨hk, hj⟩) hv

/-- All entries have the shape of the incidence angles if everything else fits it. -/
theorem jac_shapes {w w1 : World} (hw : Reachable w) {id : ℕ} {o : Obj} (ho : w.objs id = some o)
    {S : List ℕ} (hc : Complete o S) {m : Arr} (hm : Fresh.mu0 o = .ok m) (hms : m.shape = S)
    {keys : List String} (hk : ∀ k ∈ keys, builtin k ∨ w.backend = .symengine ∧ k ∈ o.params.keys)
    {l : List Arr} (hl : jacobianList id keys w = (.ok l, w1)) : ∀ j ∈ l, j.shape = S := by
  obtain ⟨h1, -⟩ := jacobianList_spec hw ho keys
  rw [hl] at h1
  obtain ⟨norm, hn, hfn⟩ := hc.s_jacNorm w.backend (Fresh.dVol w.backend o) (Fresh.dSrf w.backend o)
  have hn' : (Fresh.acc0 w.backend o).jacNorm = .ok norm := hn
  rw [hn'] at h1
  have h1' : JacSpec w.backend o norm keys (.ok l) := h1
  intro j hj
  obtain ⟨i, hi, rfl⟩ := List.mem_iff_getElem.mp hj
  have hi' : i < keys.length := by rw [h1'.get.1]; exact hi
  obtain ⟨z, dv, ds, hz, hdok, he⟩ := h1'.get.2 i keys[i] (List.getElem?_eq_getElem hi')
  rw [List.getElem?_eq_getElem hi] at hz
  simp only [Option.some.injEq] at hz
  rw [hz]
  obtain ⟨z', hz', hfz⟩ := hc.s_jacEntry w.backend hdok hfn (hk _ (List.getElem_mem hi'))
  rw [he] at hz'
  cases hz'
  exact Arr.Fits.antisymm hfz (hms ▸ Below.jacEntry hm norm _ z he)

/-- If the incidence angles have the shape of the observations (`k` values for each of `n`
timestamps), all inputs have values and fit this shape, and the names are among `tau`,
`omega`, `NormBRDF`, `bsf` and in `param_dict`, the documented matrix is returned.
Partial: see `C53_partial`. -/
theorem C53_angles_partial {w : World} (hw : Reachable w) {id : ℕ} {o : Obj}
    (ho : w.objs id = some o) {n k : ℕ} (hn : 0 < n) (hc : Complete o [k, n]) {t : Arr}
    (ht : o.ang .t0 = some t) (hts : t.shape = [k, n]) {keys : List String} (hne : keys ≠ [])
    (hb : ∀ key ∈ keys, key = "omega" ∨ key = "tau" ∨ key = "NormBRDF" ∨ key = "bsf")
    (hkeys : ∀ key ∈ keys, key ∈ o.params.keys) :
    ∃ l w1 cols w', jacobian id keys "list" w = (.ok (.inl l), w1) ∧
      (∀ j ∈ l, j.shape = [k, n]) ∧
      jacobian id keys "scipy_least_squares" w = (.ok (.inr cols), w') ∧
      (∀ c ∈ cols, c.length = n * k) ∧
      ∃ groups : List (List (List XR)), cols = groups.flatten ∧ groups.length = keys.length ∧
        ∀ (m : ℕ) (key : String) (j : Arr), keys[m]? = some key → l[m]? = some j →
          ∃ p g, o.params.get? key = some p ∧ groups[m]? = some g ∧
            Columns p n k (fun r i => j.get [i, r]) g := by
  obtain ⟨l, w1, hl⟩ := jacobianList_succ hw ho hc (keys := keys) fun key hk => Or.inl (hb key hk)
  have hm : Fresh.mu0 o = .ok (Arr.cos t) := by
    unfold Fresh.mu0 Fresh.ang
    rw [ht]; rfl
  have hsh := jac_shapes hw ho hc hm hts (fun key hk => Or.inl (hb key hk)) hl
  obtain ⟨cols, w', h1, h2, groups, h3, h4, h5⟩ := C53_partial hw ho (jacobian_list.mpr hl) (k := k) hn
    hne hkeys fun j hj => ⟨_, Or.inl ⟨hsh j hj, rfl⟩⟩
  exact ⟨l, w1, cols, w', jacobian_list.mpr hl, hsh, h1, h2, groups, h3, h4, fun m key j hm hj =>
    h5 m key j _ hm hj (Or.inl ⟨hsh j (List.mem_of_getElem? hj), rfl⟩)⟩

/-! ### examples -/

/-- Two timestamps with a value each. -/
def ts2 : Arr := ⟨[1, 2], fun idx => XR.fin ((idx.getLast?.getD 0 : ℕ) + 1)⟩
/-- Three angles for each of two timestamps. -/
def ang23 : Arr := ⟨[3, 2], fun idx => XR.fin ((idx.head?.getD 0 : ℕ) / 4)⟩

/-- omega is a timeseries. -/
def tsKw : Dict := [("tau", Arr.lit 1), ("omega", ts2), ("NormBRDF", Arr.lit 1), ("bsf", Arr.lit 0)]

theorem ts_params (V SRF : Scatter) (q s d : Bool) (I t p : Arr) :
    (demoObj V SRF q s d I t p tsKw).params =
      [("bsf", arr1 0), ("tau", arr1 1), ("omega", ts2), ("NormBRDF", arr1 1)] := by
  simp [demoObj, tsKw, Dict.update, Dict.set, arr1]
  simp [ts2, Arr.atleast1d]

theorem ts_complete {V SRF : Scatter} (hV : V.Plain) (hS : SRF.Plain) (q s d : Bool) (t : Arr) (k : ℕ)
    (ht : Arr.Fits t.atleast1d.shape [k, 2]) :
    Complete (demoObj V SRF q s d (Arr.lit 1) t (Arr.lit 0) tsKw) [k, 2] where
  t0 := ⟨t.atleast1d, by simp [demoObj], ht⟩
  p0 := ⟨arr1 0, by simp [demoObj, arr1], one_fits (by simp)⟩
  tex := Or.inl rfl
  pex := Or.inl rfl
  I0 := by simp [demoObj, Arr.lit, Arr.num]
  params := by
    intro k' a hk
    rw [ts_params] at hk
    have : ∀ r, Arr.Fits (arr1 r).shape [k, 2] := fun r => one_fits (by simp)
    have h2 : Arr.Fits ts2.shape [k, 2] := by simp [ts2, Arr.Fits]
    simp only [Dict.get?, List.find?_cons] at hk
    split at hk
    · cases hk; exact this _
    split at hk
    · cases hk; exact this _
    split at hk
    · cases hk; exact h2
    split at hk
    · cases hk; exact this _
    · cases hk
  defs := by
    intro p'
    rw [ts_params]
    cases p' <;> simp [demoObj, defaultDefs, Expr.free, Dict.keys]
  V := fun n hn => List.mem_append_left _ (hV n hn)
  SRF := fun n hn => List.mem_append_left _ (hS n hn)

/-- Three angles per timestamp, a static tau and a timeseries omega: 6 rows and 3 columns. -/
example : ∃ (w : World) (cols : List (List XR)) (w' : World), Reachable w ∧
    jacobian 0 ["tau", "omega"] "scipy_least_squares" w = (.ok (.inr cols), w') ∧
    cols.length = 3 ∧ ∀ c ∈ cols, c.length = 6 := by
  have hc := ts_complete exV_plain exS_plain true true false ang23 3 (by simp [ang23, Arr.atleast1d, Arr.Fits])
  have ho := demo_objs .sympy exV exS true true false (Arr.lit 1) ang23 (Arr.lit 0) tsKw
  have hr := demo_reachable .sympy exV exS true true false (Arr.lit 1) ang23 (Arr.lit 0) tsKw
  have hp := ts_params exV exS true true false (Arr.lit 1) ang23 (Arr.lit 0)
  have ha : (demoObj exV exS true true false (Arr.lit 1) ang23 (Arr.lit 0) tsKw).ang .t0 =
    some ang23.atleast1d := by simp [demoObj]
  generalize demoObj exV exS true true false (Arr.lit 1) ang23 (Arr.lit 0) tsKw = o at *
  generalize demoW .sympy exV exS true true false (Arr.lit 1) ang23 (Arr.lit 0) tsKw = w at *
  obtain ⟨l, w1, cols, w', h1, h2, h3, h4, groups, h5, h6, h7⟩ := C53_angles_partial hr ho (n := 2) (k := 3)
    (by norm_num) hc ha (by simp [ang23, Arr.atleast1d]) (keys := ["tau", "omega"]) (by simp)
    (by intro k hk; simp at hk; tauto) (by intro k hk; rw [hp]; simp at hk; rcases hk with rfl | rfl <;> simp [Dict.keys])
  refine ⟨w, cols, w', hr, h3, ?_, h4⟩
  have hl : l.length = 2 := by
    obtain ⟨e1, -⟩ := jacobianList_spec hr ho ["tau", "omega"]
    rw [jacobian_list.mp h1] at e1
    cases hn : (Fresh.acc0 w.backend o).jacNorm with
    | error e => rw [hn] at e1; cases e1
    | ok norm =>
      rw [hn] at e1
      exact (show JacSpec w.backend o norm ["tau", "omega"] (.ok l) from e1).get.1.symm
  match l, hl with
  | [j1, j2], _ =>
  match groups, h6 with
  | [g1, g2], _ =>
  obtain ⟨p1, g1', q1, r1, c1⟩ := h7 0 "tau" j1 rfl rfl
  obtain ⟨p2, g2', q2, r2, c2⟩ := h7 1 "omega" j2 rfl rfl
  simp only [List.getElem?_cons_zero, List.getElem?_cons_succ, Option.some.injEq] at r1 r2
  subst r1 r2
  rw [hp] at q1 q2
  have q1' : arr1 1 = p1 := by simpa [Dict.get?] using q1
  have q2' : ts2 = p2 := by simpa [Dict.get?] using q2
  subst q1' q2'
  have e1 : g1.length = 1 := by
    rcases c1 with ⟨-, col, rfl, -⟩ | ⟨h, -⟩
    · rfl
    · simp [arr1, Arr.atleast1d, Arr.lit, Arr.num, Arr.sizeOne] at h
  have e2 : g2.length = 2 := by
    rcases c2 with ⟨h, -⟩ | ⟨-, h, -⟩
    · simp [ts2, Arr.sizeOne] at h
    · exact h
  rw [h5]
  simp [e1, e2]

/-! ### angles that are broadcast -/

/-- A function of the angles only, called by the sympy backend, has the shape of the angles. -/
theorem plain_calcVal {s : Scatter} (hs : s.Plain) {a1 a2 a3 a4 : Arr} {pd : Dict} {S : List ℕ}
    (hpd : ∀ n ∈ pd.keys, n ∉ ["theta_0", "theta_ex", "phi_0", "phi_ex"])
    (h1 : Arr.Fits a1.shape S) (h2 : Arr.Fits a2.shape S)
    (h3 : Arr.Fits a3.shape S) (h4 : Arr.Fits a4.shape S) :
    Succ (s.calcVal .sympy a1 a2 a3 a4 pd) S := by
  have hfree : ∀ n ∈ s.phase.free, n ∈ ["theta_0", "theta_ex", "phi_0", "phi_ex"] ++ pd.keys :=
    fun n hn => List.mem_append_left _ (hs n hn)
  unfold Scatter.calcVal
  rw [Lam.compile_of_free hfree]
  show Succ (Lam.call .sympy ⟨["theta_0", "theta_ex", "phi_0", "phi_ex"] ++ pd.keys, s.phase⟩
    [a1, a2, a3, a4] pd) S
  unfold Lam.call
  have hm : ∃ vals, pd.keys.mapM (fun k => pd.get? k) = some vals ∧ vals.length = pd.keys.length := by
    have : ∀ ks : List String, (∀ k ∈ ks, k ∈ pd.keys) → ∃ vals, ks.mapM (fun k => pd.get? k) = some vals ∧
      vals.length = ks.length := by
      intro ks
      induction ks with
      | nil => intro _; exact ⟨[], rfl, rfl⟩
      | cons k ks ih =>
        intro h
        obtain ⟨vals, e1, e2⟩ := ih fun k' hk' => h k' (List.mem_cons_of_mem _ hk')
        obtain ⟨v, hv⟩ := Dict.get?_of_mem (h k (List.mem_cons_self ..))
        exact ⟨v :: vals, by rw [List.mapM_cons, hv, e1]; rfl, by simp [e2]⟩
    exact this pd.keys fun _ h => h
  obtain ⟨vals, hv, hl⟩ := hm
  have hb : Lam.bindArgs .sympy (["theta_0", "theta_ex", "phi_0", "phi_ex"] ++ pd.keys) [a1, a2, a3, a4] pd
      = .ok ((["theta_0", "theta_ex", "phi_0", "phi_ex"] ++ pd.keys).zip ([a1, a2, a3, a4] ++ vals)) := by
    unfold Lam.bindArgs
    simp only
    rw [if_neg (by simp), if_neg]
    · have : (["theta_0", "theta_ex", "phi_0", "phi_ex"] ++ pd.keys).drop [a1, a2, a3, a4].length = pd.keys := by
        simp
      rw [this, hv]
    · rintro ⟨p, hp, hp'⟩
      have hk : p.1 ∈ pd.keys := List.mem_map.mpr ⟨p, hp, rfl⟩
      exact hp' (by simpa using hk)
  rw [hb]
  show Succ (Lam.evalBound .sympy s.phase _) S
  simp only [Lam.evalBound]
  rw [List.map_fst_zip (by simp [hl]), if_pos hfree]
  obtain ⟨v, hv', hfit⟩ := Arr.bshapes_of_fits (u := S)
    (l := (((["theta_0", "theta_ex", "phi_0", "phi_ex"] ++ pd.keys).zip ([a1, a2, a3, a4] ++ vals)).filter
      fun p => decide (p.1 ∈ s.phase.free)).map fun p => p.2.shape) (by
      intro sh hsh
      obtain ⟨⟨n, a⟩, hp, rfl⟩ := List.mem_map.mp hsh
      obtain ⟨hp1, hp2⟩ := List.mem_filter.mp hp
      simp only [decide_eq_true_eq] at hp2
      rw [List.zip_append (by simp)] at hp1
      rcases List.mem_append.mp hp1 with h | h
      · have := (List.of_mem_zip h).2
        simp only [List.mem_cons, List.not_mem_nil, or_false] at this
        rcases this with rfl | rfl | rfl | rfl <;> assumption
      · exact absurd (hs n hp2) (hpd n (List.of_mem_zip h).1))
  rw [hv']
  exact Succ.of_ok hfit

/-- One incidence angle for all timestamps: omega has two values and `volume()` returns two
values, but the matrix for omega has one row and one column. -/
theorem C53_counterexample : ∃ (w : World) (z : Arr) (w1 : World) (o : Obj) (a : Arr)
    (cols : List (List XR)) (w2 : World), Reachable w ∧
    volume 0 [] w = (.ok z, w1) ∧ z.shape = [1, 2] ∧
    w.objs 0 = some o ∧ o.params.get? "omega" = some a ∧ a.shape = [1, 2] ∧
    jacobian 0 ["omega"] "scipy_least_squares" w = (.ok (.inr cols), w2) ∧
    cols.length = 1 ∧ ∀ c ∈ cols, c.length = 1 := by
  have hc := ts_complete exV_plain exS_plain true false false (Arr.lit 0) 1
    (by simp [Arr.lit, Arr.num, Arr.atleast1d, Arr.Fits])
  have ho := demo_objs .sympy exV exS true false false (Arr.lit 1) (Arr.lit 0) (Arr.lit 0) tsKw
  have hr := demo_reachable .sympy exV exS true false false (Arr.lit 1) (Arr.lit 0) (Arr.lit 0) tsKw
  have hb := demo_backend .sympy exV exS true false false (Arr.lit 1) (Arr.lit 0) (Arr.lit 0) tsKw
  have hp := ts_params exV exS true false false (Arr.lit 1) (Arr.lit 0) (Arr.lit 0)
  obtain ⟨m, hm, hms⟩ := demo_mu0 exV exS true false false (Arr.lit 1) 0 (Arr.lit 0) tsKw
  have hu : Fresh.update (demoObj exV exS true false false (Arr.lit 1) (Arr.lit 0) (Arr.lit 0) tsKw) [] =
      demoObj exV exS true false false (Arr.lit 1) (Arr.lit 0) (Arr.lit 0) tsKw := by
    have h : "bsf" ∈ (demoObj exV exS true false false (Arr.lit 1) (Arr.lit 0) (Arr.lit 0) tsKw).params.keys := by
      rw [hp]; simp [Dict.keys]
    unfold Fresh.update
    simp [demoObj, defaultDefs] at h ⊢
    simp [h]
    simp [Dict.update]
  have hd : (demoObj exV exS true false false (Arr.lit 1) (Arr.lit 0) (Arr.lit 0) tsKw).pdef = defaultDefs := rfl
  have hI : (demoObj exV exS true false false (Arr.lit 1) (Arr.lit 0) (Arr.lit 0) tsKw).I0 = Arr.lit 1 := rfl
  have hV : (demoObj exV exS true false false (Arr.lit 1) (Arr.lit 0) (Arr.lit 0) tsKw).V = exV := rfl
  have hs : (demoObj exV exS true false false (Arr.lit 1) (Arr.lit 0) (Arr.lit 0) tsKw).sig0 = false := rfl
  have hdb : (demoObj exV exS true false false (Arr.lit 1) (Arr.lit 0) (Arr.lit 0) tsKw).dB = false := rfl
  have hmono : (demoObj exV exS true false false (Arr.lit 1) (Arr.lit 0) (Arr.lit 0) tsKw).mono = true := rfl
  have ha : (demoObj exV exS true false false (Arr.lit 1) (Arr.lit 0) (Arr.lit 0) tsKw).ang .t0 =
    some (arr1 0) := by simp [demoObj, arr1]
  have hap : (demoObj exV exS true false false (Arr.lit 1) (Arr.lit 0) (Arr.lit 0) tsKw).ang .p0 =
    some (arr1 0) := by simp [demoObj, arr1]
  generalize demoObj exV exS true false false (Arr.lit 1) (Arr.lit 0) (Arr.lit 0) tsKw = o at *
  generalize demoW .sympy exV exS true false false (Arr.lit 1) (Arr.lit 0) (Arr.lit 0) tsKw = w at *
  -- volume
  have hv : ∃ z w1, volume 0 [] w = (.ok z, w1) ∧ z.shape = [1, 2] := by
    obtain ⟨x, hx, hfx⟩ := hc.s_volume .sympy (Fresh.dVol .sympy o) (Fresh.dSrf .sympy o)
    obtain ⟨z, hz, hfz⟩ := hc.s_convert .sympy (Fresh.dVol .sympy o) (Fresh.dSrf .sympy o) hfx
    have hF : Fresh.volume .sympy o = .ok z := by
      unfold Fresh.volume Fresh.acc0
      rw [hx]
      exact hz
    obtain ⟨om, hom, homs, -⟩ := par_name (b := .sympy) (o := o) (p := .omega) (k := "omega") (a := ts2)
      (by rw [hd]; rfl) (by rw [hp]; simp [Dict.get?])
    have hbel : Below om.shape (Fresh.acc .sympy o (Fresh.dVol .sympy o) (Fresh.dSrf .sympy o)).volume :=
      Below.bind fun _ h1 => Below.mul_right (Below.pure (Below.mul_left (Below.mul_left
        (Below.div_left (Below.mul_left (Below.mul_right (Below.self hom))))) _ h1))
    have hxs : x.shape = [1, 2] := Arr.Fits.antisymm hfx (by have := hbel x hx; rw [homs] at this; exact this)
    have hzs := convert_shape hz hm (by rw [hms, hxs]; simp [Arr.Fits]) (by rw [hI]; simp [Arr.lit, Arr.num])
    have h2 := (volume_eq hr.inv ho []).1
    rw [hb, hu, hF] at h2
    exact ⟨z, (volume 0 [] w).2, Prod.ext h2 rfl, hzs.trans hxs⟩
  obtain ⟨z, w1, hz, hzs⟩ := hv
  -- the entry
  obtain ⟨l, w2, hl⟩ := jacobianList_succ hr ho hc (keys := ["omega"])
    (fun k hk => Or.inl (by simp at hk; exact Or.inl hk))
  obtain ⟨h1, -⟩ := jacobianList_spec hr ho ["omega"]
  rw [hl] at h1
  have hn : (Fresh.acc0 w.backend o).jacNorm = .ok (Arr.lit 1) := by
    show (if o.sig0 = true ∧ o.dB = false then litM (4 * Real.pi) *. (Fresh.acc0 w.backend o).mu0
      else if o.dB = true then litM 10 /. (litM (Real.log 10) *. ((Fresh.acc0 w.backend o).surface +.
        (Fresh.acc0 w.backend o).volume))
      else litM 1) = _
    rw [hs, hdb]
    simp
    rfl
  rw [hn] at h1
  have h1' : JacSpec w.backend o (Arr.lit 1) ["omega"] (.ok l) := h1
  obtain ⟨j, dv, ds, hj, -, he⟩ := h1'.get.2 0 "omega" rfl
  have hll : l = [j] := by
    have := h1'.get.1
    match l, this with
    | [a], _ => simp at hj; rw [hj]
  have hj1 : j.shape = [1] := by
    have hbel := Below.jacEntry (b := w.backend) (dv := dv) (ds := ds) hm (Arr.lit 1) "omega" j he
    rw [hms] at hbel
    refine Arr.Fits.antisymm ?_ hbel
    have h11 : ∀ r : ℝ, Arr.Fits (arr1 r).shape [1] := fun r => one_fits (by simp)
    have hS : Succ ((Fresh.acc w.backend o dv ds).jacEntry (Arr.lit 1) "omega") [1] := by
      rw [hb]
      have st0 : Succ (Fresh.ang o .t0) [1] := by
        unfold Fresh.ang; rw [ha]; exact Succ.of_ok (h11 0)
      have sp0 : Succ (Fresh.ang o .p0) [1] := by
        unfold Fresh.ang; rw [hap]; exact Succ.of_ok (h11 0)
      have stex : Succ (Fresh.tex o) [1] := by
        unfold Fresh.tex; rw [if_pos hmono]; exact st0
      have smu0 : Succ (Fresh.mu0 o) [1] := ⟨m, hm, by rw [hms]; exact Arr.Fits.refl _⟩
      have smuEx : Succ (Fresh.muEx o) [1] := by
        unfold Fresh.muEx
        exact Succ.bind stex fun a ha => Succ.pure ha
      have spex : Succ (Fresh.pex o) [1] := by
        unfold Fresh.pex
        rw [if_pos hmono]
        exact Succ.bind sp0 fun a ha => Succ.map2 ha (by simp [Arr.lit, Arr.num])
      have spar : ∀ p k r, o.pdef p = .str (.sym k) → o.params.get? k = some (arr1 r) →
          Succ (Fresh.par .sympy o p) [1] := fun p k r hpd hk =>
        par_str_ok hpd fun k' hk' => by
          simp only [Expr.free, List.mem_singleton] at hk'
          subst hk'
          exact ⟨_, hk, h11 r⟩
      have sbsf : Succ (Fresh.par .sympy o .bsf) [1] :=
        spar .bsf "bsf" 0 (by rw [hd]; rfl) (by rw [hp]; simp [Dict.get?])
      have stau : Succ (Fresh.par .sympy o .tau) [1] :=
        spar .tau "tau" 1 (by rw [hd]; rfl) (by rw [hp]; simp [Dict.get?])
      have sI0 : Succ (Fresh.acc .sympy o dv ds).I0 [1] := by
        show Succ (.ok o.I0 : Py Arr) [1]
        rw [hI]; exact Succ.of_ok (by simp [Arr.lit, Arr.num])
      have svol : Succ (Fresh.acc .sympy o dv ds).vCalc [1] := by
        obtain ⟨a1, e1, f1⟩ := st0
        obtain ⟨a2, e2, f2⟩ := stex
        obtain ⟨a3, e3, f3⟩ := sp0
        obtain ⟨a4, e4, f4⟩ := spex
        show Succ ((do
          let a ← Fresh.ang o .t0
          let b' ← Fresh.tex o
          let c ← Fresh.ang o .p0
          let d ← Fresh.pex o
          liftPy (o.V.calcVal .sympy a b' c d o.params)) : Py Arr) [1]
        rw [e1, e2, e3, e4, hV]
        refine Succ.lift (plain_calcVal exV_plain ?_ f1 f2 f3 f4)
        rw [hp]
        intro n hn
        simp [Dict.keys] at hn
        rcases hn with rfl | rfl | rfl | rfl <;> simp
      have satt : Succ (Fresh.acc .sympy o dv ds).atten [1] :=
        Succ.expM (Succ.subM (Succ.negM (Succ.divM stau smu0)) (Succ.divM stau smuEx))
      unfold Acc.jacEntry
      rw [if_pos rfl]
      refine Succ.mulM (Succ.addM (Succ.lit 0) ?_) (Succ.pure (by simp [Arr.lit, Arr.num]))
      unfold Acc.dvolumeDomega
      refine Succ.bind (Succ.mulM (Succ.mulM (Succ.divM (Succ.mulM sI0 smu0)
        (Succ.addM smu0 smuEx)) (Succ.subM (Succ.lit 1) satt)) svol) fun a ha => ?_
      exact Succ.mulM (Succ.subM (Succ.lit 1) sbsf) (Succ.pure ha)
    obtain ⟨z', hz', hf⟩ := hS
    rw [he] at hz'
    cases hz'
    exact hf
  obtain ⟨cols, w3, c1, c2, groups, c3, c4, c5⟩ := C53_partial hr ho (jacobian_list.mpr hl) (n := 1) (k := 1)
    one_pos (by simp) (by intro k hk; rw [hp]; simp at hk; subst hk; simp [Dict.keys])
    (by intro a ha; rw [hll] at ha; simp at ha; subst ha; exact ⟨_, Or.inr ⟨hj1, rfl, rfl⟩⟩)
  refine ⟨w, z, w1, o, ts2, cols, w3, hr, hz, hzs, ho, by rw [hp]; simp [Dict.get?], rfl, c1, ?_,
    fun c hc => by simpa using c2 c hc⟩
  match groups, c4 with
  | [g], _ =>
  obtain ⟨p, g', q, r, cc⟩ := c5 0 "omega" j _ rfl hj (Or.inr ⟨hj1, rfl, rfl⟩)
  simp only [List.getElem?_cons_zero, Option.some.injEq] at r
  subst r
  rw [hp] at q
  have q' : ts2 = p := by simpa [Dict.get?] using q
  subst q'
  rw [c3]
  rcases cc with ⟨h, -⟩ | ⟨-, h, -⟩
  · simp [ts2, Arr.sizeOne] at h
  · simp [h]

end

end RT1
