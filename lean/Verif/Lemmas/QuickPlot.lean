import Verif.Spec.QuickPlot
import Verif.Props.Analyze3D

/-!
# Lemmas about the assignment of arguments to parameters
-/

namespace RT1

noncomputable section
open Classical

theorem qp_mapM_iff {α β : Type} {f : α → Py β} : ∀ {l : List α} {vs : List β},
    l.mapM f = .ok vs ↔ List.Forall₂ (fun a b => f a = .ok b) l vs
  | [], vs => by
    constructor
    · intro h
      cases h
      exact .nil
    · intro h
      cases h
      rfl
  | a :: l, vs => by
    rw [List.mapM_cons]
    constructor
    · intro h
      cases ha : f a with
      | error e => rw [ha] at h; cases h
      | ok b =>
        rw [ha] at h
        cases hl : l.mapM f with
        | error e =>
          simp only [hl] at h
          cases h
        | ok bs =>
          simp only [hl] at h
          cases h
          exact .cons ha (qp_mapM_iff.mp hl)
    · intro h
      cases h with
      | cons ha hl =>
        rw [ha]
        show (l.mapM f >>= _) = _
        rw [qp_mapM_iff.mpr hl]
        rfl

theorem lookup_none_iff {α : Type} {kw : List (String × α)} {k : String} :
    kw.lookup k = none ↔ ∀ v, (k, v) ∉ kw := by
  rw [List.lookup_eq_none_iff]
  constructor
  · intro h v hv
    simpa using h _ hv
  · intro h p hp
    simp only [beq_eq_false_iff_ne, ne_eq, bne_iff_ne]
    rintro rfl
    exact h p.2 hp

theorem lookup_some_iff {α : Type} : ∀ {kw : List (String × α)} (_ : (kw.map Prod.fst).Nodup) {k : String} {v : α},
    kw.lookup k = some v ↔ (k, v) ∈ kw
  | [], _, k, v => by simp
  | (a, b) :: kw, h, k, v => by
    rw [List.map_cons, List.nodup_cons] at h
    by_cases hk : k = a
    · subst hk
      rw [List.lookup_cons_self]
      constructor
      · rintro ⟨⟩
        exact List.mem_cons_self
      · intro hm
        rcases List.mem_cons.mp hm with hm | hm
        · cases hm
          rfl
        · exact absurd (List.mem_map.mpr ⟨_, hm, rfl⟩) h.1
    · have : (k == a) = false := by simpa using hk
      rw [List.lookup_cons, this]
      simp only
      rw [lookup_some_iff h.2, List.mem_cons]
      constructor
      · exact .inr
      · rintro (hm | hm)
        · cases hm
          exact absurd rfl hk
        · exact hm

theorem takeKw_iff {α : Type} {kw : List (String × α)} (hn : (kw.map Prod.fst).Nodup) {p : String × Option α} {v : α} :
    takeKw kw p = .ok v ↔ (p.1, v) ∈ kw ∨ ((∀ u, (p.1, u) ∉ kw) ∧ p.2 = some v) := by
  unfold takeKw
  cases h : kw.lookup p.1 with
  | some u =>
    have hu := (lookup_some_iff hn).mp h
    constructor
    · intro e
      cases e
      exact .inl hu
    · rintro (hv | ⟨hv, -⟩)
      · rw [(lookup_some_iff hn).mpr hv] at h
        cases h
        rfl
      · exact absurd hu (hv u)
  | none =>
    have hu := lookup_none_iff.mp h
    cases hd : p.2 with
    | some d =>
      constructor
      · intro e
        cases e
        exact .inr ⟨hu, rfl⟩
      · rintro (hv | ⟨-, hv⟩)
        · exact absurd hv (hu v)
        · cases hv
          rfl
    | none =>
      constructor
      · intro e
        cases e
      · rintro (hv | ⟨-, hv⟩)
        · exact absurd hv (hu v)
        · cases hv

theorem takeKw_error {α : Type} {kw : List (String × α)} {p : String × Option α} {e : PyErr}
    (h : takeKw kw p = .error e) : ∃ l, e = .typeError l := by
  unfold takeKw at h
  split at h
  · cases h
  · split at h
    · cases h
    · cases h
      exact ⟨_, rfl⟩

theorem qp_mapM_error {α β : Type} {f : α → Py β} {e : PyErr} : ∀ {l : List α}, l.mapM f = .error e →
    ∃ a ∈ l, f a = .error e
  | [], h => by cases h
  | a :: l, h => by
    rw [List.mapM_cons] at h
    cases ha : f a with
    | error e' =>
      rw [ha] at h
      cases h
      exact ⟨a, List.mem_cons_self, ha⟩
    | ok b =>
      rw [ha] at h
      cases hl : l.mapM f with
      | error e' =>
        simp only [hl] at h
        cases h
        obtain ⟨c, hc, hc'⟩ := qp_mapM_error hl
        exact ⟨c, List.mem_cons_of_mem _ hc, hc'⟩
      | ok bs =>
        simp only [hl] at h
        cases h

theorem qp_mapM_congr {α β : Type} {f g : α → Py β} : ∀ {l : List α}, (∀ a ∈ l, f a = g a) → l.mapM f = l.mapM g
  | [], _ => rfl
  | a :: l, h => by
    rw [List.mapM_cons, List.mapM_cons, h a List.mem_cons_self,
      qp_mapM_congr fun b hb => h b (List.mem_cons_of_mem _ hb)]

theorem bind_error_type {α : Type} {s : Sig α} {args : List α} {kw : List (String × α)} {e : PyErr}
    (h : s.bind args kw = .error e) : ∃ l, e = .typeError l := by
  unfold Sig.bind at h
  split_ifs at h
  · cases h; exact ⟨_, rfl⟩
  · cases h; exact ⟨_, rfl⟩
  · cases h; exact ⟨_, rfl⟩
  · cases hm : (s.params.drop args.length).mapM (takeKw kw) with
    | ok l => rw [hm] at h; cases h
    | error e' =>
      rw [hm] at h
      cases h
      obtain ⟨a, -, ha⟩ := qp_mapM_error hm
      exact takeKw_error ha

end

end RT1
