import Verif.Lemmas.Rows
import Verif.Model.Fn

/-! Arrays with a leading coefficient axis: stacking, broadcasting, summation. -/

namespace RT1

noncomputable section
open Classical

namespace Arr

theorem bshape_length {s t u : List ℕ} (h : bshape s t = some u) : u.length = max s.length t.length := by
  induction s generalizing t u with
  | nil => simp only [bshape, Option.some.injEq] at h; subst h; simp
  | cons a s ih =>
    cases t with
    | nil => simp only [bshape, Option.some.injEq] at h; subst h; simp
    | cons b t =>
      simp only [bshape] at h
      cases hu : bshape s t with
      | none => simp [hu] at h
      | some v =>
        simp only [hu] at h
        have := ih hu
        split_ifs at h <;> (cases h; simp only [List.length_cons, this]; omega)

theorem bshape_append {s t u : List ℕ} {a b : ℕ} (hl : s.length = t.length)
    (h : bshape (s ++ [a]) (t ++ [b]) = some u) :
    ∃ v m, bshape s t = some v ∧ u = v ++ [m] ∧ (a = b ∧ m = a ∨ a = 1 ∧ m = b ∨ b = 1 ∧ m = a) := by
  induction s generalizing t u with
  | nil =>
    cases t with
    | cons _ _ => simp at hl
    | nil =>
      simp only [List.nil_append, bshape] at h
      split_ifs at h with h1 h2 h3
      · cases h; exact ⟨[], a, rfl, rfl, .inl ⟨h1, rfl⟩⟩
      · cases h; exact ⟨[], b, rfl, rfl, .inr (.inl ⟨h2, rfl⟩)⟩
      · cases h; exact ⟨[], a, rfl, rfl, .inr (.inr ⟨h3, rfl⟩)⟩
  | cons x s ih =>
    cases t with
    | nil => simp at hl
    | cons y t =>
      simp only [List.cons_append, bshape] at h
      cases hu : bshape (s ++ [a]) (t ++ [b]) with
      | none => simp [hu] at h
      | some w =>
        obtain ⟨v, m, hv, rfl, hm⟩ := ih (by simpa using hl) hu
        simp only [hu] at h
        simp only [bshape, hv]
        split_ifs at h with h1 h2 h3
        · cases h; exact ⟨x :: v, m, by simp [h1], rfl, hm⟩
        · cases h; exact ⟨y :: v, m, by simp [h2], rfl, hm⟩
        · cases h; exact ⟨x :: v, m, by simp [h2, h3], rfl, hm⟩

theorem bidx_append_last {s idx : List ℕ} (n k : ℕ) (h : idx.length = s.length) :
    bidx (s ++ [n]) (idx ++ [k]) = bidx s idx ++ [if n = 1 then 0 else k] := by
  induction s generalizing idx with
  | nil =>
    cases idx with
    | nil => rfl
    | cons _ _ => simp at h
  | cons a s ih =>
    cases idx with
    | nil => simp at h
    | cons i idx =>
      simp only [List.cons_append, bidx]
      rw [ih (by simpa using h)]

theorem bidx_take {s idx : List ℕ} {r : ℕ} (h : s.length ≤ r) : bidx s (idx.take r) = bidx s idx := by
  induction s generalizing idx r with
  | nil => rfl
  | cons a s ih =>
    cases r with
    | zero => simp at h
    | succ r =>
      cases idx with
      | nil => rfl
      | cons i idx =>
        simp only [List.take_succ_cons, bidx]
        rw [ih (by simpa using h)]

theorem at'_take {x : Arr} {idx : List ℕ} {r : ℕ} (h : x.shape.length ≤ r) :
    x.at' (idx.take r) = x.at' idx := by unfold at'; rw [bidx_take h]

theorem bidx_length {s idx : List ℕ} (h : idx.length = s.length) : (bidx s idx).length = s.length := by
  induction s generalizing idx with
  | nil => rfl
  | cons a s ih =>
    cases idx with
    | nil => simp at h
    | cons i idx => simp only [bidx, List.length_cons]; rw [ih (by simpa using h)]

theorem stack_shape {l : List Arr} {z : Arr} (h : stack l = .ok z) (hl : l ≠ []) :
    ∃ s, (∀ y ∈ l, y.shape = s) ∧ z.shape = s ++ [l.length] := by
  cases l with
  | nil => exact absurd rfl hl
  | cons x l =>
    simp only [stack] at h
    split_ifs at h with hs
    cases h
    refine ⟨x.shape, ?_, rfl⟩
    intro y hy
    rcases List.mem_cons.mp hy with rfl | hy
    · rfl
    · exact hs y hy

theorem stack_at {l : List Arr} {z : Arr} (h : stack l = .ok z) {r : ℕ}
    (hr : ∀ y ∈ l, y.shape.length = r) {idx : List ℕ} (hidx : idx.length = r) {k : ℕ} {y : Arr}
    (hy : l[if l.length = 1 then 0 else k]? = some y) : z.at' (idx ++ [k]) = y.at' idx := by
  cases l with
  | nil => simp at hy
  | cons x l =>
    obtain ⟨s, h1, h2⟩ := stack_shape h (by simp)
    have hxs : x.shape = s := h1 x (by simp)
    have hys : y.shape = s := h1 y (List.mem_of_getElem? hy)
    have hsr : s.length = r := by rw [← hxs]; exact hr x (by simp)
    simp only [stack] at h
    split_ifs at h with hs
    have hz : z.at' (idx ++ [k]) = (match (x :: l)[(bidx z.shape (idx ++ [k])).getLastD 0]? with
        | some y => y.get (bidx z.shape (idx ++ [k])).dropLast
        | none => XR.nan) := by cases h; rfl
    rw [hz, h2, bidx_append_last _ _ (hidx.trans hsr.symm), List.getLastD_eq_getLast?,
      List.getLast?_append, List.dropLast_concat]
    simp only [List.getLast?_singleton, Option.some_or, Option.getD_some, hy]
    unfold at'
    rw [hys]

theorem sum0_at {x z : Arr} (h : sum0 x = .ok z) {s : List ℕ} {m : ℕ} (hs : x.shape = s ++ [m])
    {idx : List ℕ} (hidx : idx.length = s.length) :
    z.shape = s ∧ z.at' idx = sumX ((List.range m).map fun k => x.at' (idx ++ [k])) := by
  have hne : x.shape ≠ [] := by rw [hs]; simp
  have hz : z = ⟨x.shape.dropLast, fun i =>
      sumX ((List.range (x.shape.getLastD 0)).map fun k => x.get (i ++ [k]))⟩ := by
    unfold sum0 at h
    cases hx : x.shape with
    | nil => exact absurd hx hne
    | cons a t => simp only [hx, Except.ok.injEq] at h; rw [← h]
  have hzs : z.shape = s := by rw [hz]; simp [hs]
  refine ⟨hzs, ?_⟩
  unfold at'
  rw [hzs]
  subst hz
  simp only
  have hlast : x.shape.getLastD 0 = m := by
    rw [hs, List.getLastD_eq_getLast?, List.getLast?_append]; simp
  rw [hlast]
  congr 1
  refine List.map_congr_left fun k hk => ?_
  rw [hs, bidx_append_last _ _ hidx]
  congr 2
  by_cases hm : m = 1
  · subst hm
    simp only [List.mem_range, Nat.lt_one_iff] at hk
    simp [hk]
  · simp [hm]

theorem sumX_fin {α : Type} (l : List α) (f : α → ℝ) :
    sumX (l.map fun a => XR.fin (f a)) = XR.fin ((l.map f).sum) := by
  induction l with
  | nil => rfl
  | cons a l ih => simp only [List.map_cons, sumX, ih, List.sum_cons]; rfl

theorem broadcastArrays_ok {l l' : List Arr} (h : broadcastArrays l = .ok l') :
    ∃ s, bshapes (l.map shape) = some s ∧ l' = l.map (broadcastTo s) := by
  unfold broadcastArrays at h
  cases hs : bshapes (l.map shape) with
  | none => simp [hs] at h
  | some s => simp only [hs, Except.ok.injEq] at h; exact ⟨s, rfl, h.symm⟩

theorem broadcastTo_at {l : List (List ℕ)} {s : List ℕ} (h : bshapes l = some s) {x : Arr}
    (hx : x.shape ∈ l) (idx : List ℕ) : (broadcastTo s x).at' idx = x.at' idx := by
  show x.get (bidx x.shape (bidx s idx)) = x.get (bidx x.shape idx)
  rw [bidx_bshapes h hx]

theorem bshapes_length {l : List (List ℕ)} {u : List ℕ} (h : bshapes l = some u) {r : ℕ}
    (h1 : ∀ s ∈ l, s.length ≤ r) (h2 : ∃ s ∈ l, s.length = r) : u.length = r := by
  have key : ∀ (l : List (List ℕ)) (u : List ℕ), bshapes l = some u → (∀ s ∈ l, s.length ≤ r) →
      u.length ≤ r := by
    intro l
    induction l with
    | nil => intro u h _; simp [bshapes] at h; subst h; simp
    | cons s l ih =>
      intro u h h1
      unfold bshapes at h
      cases hu : bshapes l with
      | none => simp [hu] at h
      | some v =>
        simp only [hu] at h
        rw [bshape_length h]
        have := ih v hu fun s hs => h1 s (List.mem_cons_of_mem _ hs)
        have := h1 s (by simp)
        omega
  obtain ⟨s, hs, rfl⟩ := h2
  exact le_antisymm (key l u h h1) (bshapes_fits h hs).length

end Arr

theorem mapM_ok {α β : Type} {f : α → Py β} {l : List α} {l' : List β} (h : l.mapM f = .ok l') :
    List.Forall₂ (fun a b => f a = .ok b) l l' := by
  induction l generalizing l' with
  | nil => simp [pure, Except.pure] at h; subst h; exact .nil
  | cons a l ih =>
    rw [List.mapM_cons] at h
    obtain ⟨b, hb, h⟩ := ok_bind h
    obtain ⟨l2, hl, h⟩ := ok_bind h
    cases h
    exact .cons hb (ih hl)

theorem mapM_range {β : Type} {f : ℕ → Py β} {n : ℕ} {l : List β} (h : (List.range n).mapM f = .ok l) :
    l.length = n ∧ ∀ k, k < n → ∃ y, l[k]? = some y ∧ f k = .ok y := by
  have h2 := mapM_ok h
  have hl : l.length = n := by rw [← h2.length_eq]; simp
  refine ⟨hl, fun k hk => ?_⟩
  have h3 := (List.forall₂_iff_get.mp h2).2 k (by simpa using hk) (by omega)
  refine ⟨l[k]'(by omega), by simp [hl, hk], ?_⟩
  simpa using h3

end

end RT1
