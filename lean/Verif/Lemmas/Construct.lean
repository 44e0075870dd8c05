import Verif.Spec.Construct

namespace RT1

noncomputable section
open Make

variable {parse : String → Py Expr}

theorem lookup_iff {kw : Kw} (h : (kw.map Prod.fst).Nodup) (n : String) (v : Val) :
    kw.lookup n = some v ↔ (n, v) ∈ kw := by
  induction kw with
  | nil => simp
  | cons p kw ih =>
    obtain ⟨k, u⟩ := p
    rw [List.map_cons, List.nodup_cons] at h
    rw [List.lookup_cons]
    by_cases e : n = k
    · subst e
      simp only [beq_self_eq_true, Option.some.injEq, List.mem_cons, Prod.mk.injEq, true_and]
      constructor
      · rintro rfl; exact .inl rfl
      · rintro (rfl | h')
        · rfl
        · exact (h.1 (List.mem_map.mpr ⟨_, h', rfl⟩)).elim
    · have : (n == k) = false := by simpa using e
      simp only [this, ih h.2, List.mem_cons, Prod.mk.injEq, e, false_and, false_or]

theorem lookup_none {kw : Kw} (n : String) : kw.lookup n = none ↔ ∀ v, (n, v) ∉ kw := by
  rw [List.lookup_eq_none_iff]
  constructor
  · intro h v hv
    have := h _ hv
    simp at this
  · rintro h ⟨k, v⟩ hp
    simp only [bne_iff_ne, ne_eq]
    rintro rfl
    exact h v hp

theorem lookup_perm {kw kw' : Kw} (h : kw.Perm kw') (hnd : (kw.map Prod.fst).Nodup) (n : String) :
    kw.lookup n = kw'.lookup n := by
  have hnd' : (kw'.map Prod.fst).Nodup := (h.map _).nodup_iff.mp hnd
  cases e : kw.lookup n with
  | none =>
    rw [lookup_none] at e
    exact ((lookup_none n).mpr fun v hv => e v (h.mem_iff.mpr hv)).symm
  | some v =>
    rw [lookup_iff hnd] at e
    exact ((lookup_iff hnd' n v).mpr (h.mem_iff.mp e)).symm

theorem nodup_filter {kw : Kw} (hnd : (kw.map Prod.fst).Nodup) (p : String × Val → Bool) :
    ((kw.filter p).map Prod.fst).Nodup := hnd.sublist (List.filter_sublist.map _)

/-! ### Parsing -/

/-- What a string or another value is stored as. -/
inductive StoredAs (parse : String → Py Expr) : Val → Val → Prop
  | text {s : String} {e : Expr} (h : parse s = .ok e) : StoredAs parse (.text s) (.expr e)
  | keep {v : Val} (h : ∀ s, v ≠ .text s) : StoredAs parse v v

theorem parseParam_ok {v u : Val} : parseParam parse v = .ok u ↔ StoredAs parse v u := by
  constructor
  · intro h
    cases v with
    | text s =>
      cases e : parse s with
      | error x => simp [parseParam, e, bind, Except.bind] at h
      | ok y =>
        simp only [parseParam, e, bind, Except.bind, pure, Except.pure, Except.ok.injEq] at h
        subst h
        exact .text e
    | _ =>
      simp only [parseParam, pure, Except.pure, Except.ok.injEq] at h
      subst h
      exact .keep (by simp)
  · rintro (h | h)
    · simp [parseParam, *, bind, Except.bind, pure, Except.pure]
    · cases v <;> first | exact (h _ rfl).elim | rfl

theorem Readable.parsed {v : Val} (h : Readable parse v) : ∃ u, StoredAs parse v u := by
  cases v with
  | text s => obtain ⟨e, he⟩ := h s rfl; exact ⟨_, .text he⟩
  | _ => exact ⟨_, .keep (by simp)⟩

theorem StoredAs.readable {v u : Val} (h : StoredAs parse v u) : Readable parse v := by
  intro s hs
  subst hs
  cases h with
  | text h => exact ⟨_, h⟩
  | keep h => exact (h s rfl).elim

theorem mapM_forall2 {α β : Type} {f : α → Py β} {l : List α} {l' : List β} :
    l.mapM f = .ok l' ↔ List.Forall₂ (fun x y => f x = .ok y) l l' := by
  induction l generalizing l' with
  | nil =>
    simp only [List.mapM_nil, pure, Except.pure, Except.ok.injEq, List.forall₂_nil_left_iff]
    exact eq_comm
  | cons x l ih =>
    rw [List.mapM_cons]
    constructor
    · intro h
      cases e1 : f x with
      | error z => simp [e1, bind, Except.bind] at h
      | ok y =>
        cases e2 : l.mapM f with
        | error z => simp [e1, e2, bind, Except.bind] at h
        | ok ys =>
          simp only [e1, e2, bind, Except.bind, pure, Except.pure, Except.ok.injEq] at h
          subst h
          exact .cons e1 (ih.mp e2)
    · intro h
      rcases h with _ | ⟨h1, h2⟩
      simp [h1, ih.mpr h2, bind, Except.bind, pure, Except.pure]

theorem parseAll_iff {l : List Val} : (∃ l', l.mapM (parseParam parse) = .ok l') ↔ ∀ x ∈ l, Readable parse x := by
  simp only [mapM_forall2, parseParam_ok]
  constructor
  · rintro ⟨l', h⟩ x hx
    induction h with
    | nil => simp at hx
    | cons h1 _ ih =>
      rcases List.mem_cons.mp hx with rfl | hx
      · exact h1.readable
      · exact ih hx
  · intro h
    induction l with
    | nil => exact ⟨[], .nil⟩
    | cons x l ih =>
      obtain ⟨u, hu⟩ := (h x (by simp)).parsed
      obtain ⟨l', hl⟩ := ih fun y hy => h y (by simp [hy])
      exact ⟨_, .cons hu hl⟩

theorem parseAll_length {l l' : List Val} (h : l.mapM (parseParam parse) = .ok l') : l'.length = l.length :=
  ((mapM_forall2.mp h).length_eq).symm

theorem iter_ok {v : Val} {l : List Val} : iter v = .ok l ↔ Items v l := by
  constructor
  · intro h
    cases v <;> simp only [iter, pure, Except.pure, Except.ok.injEq, reduceCtorEq] at h
    · subst h; exact .text _
    · subst h; exact .seq _
  · rintro (_ | _) <;> rfl

/-! ### Arguments -/

theorem assign_ok {own : Option String} {pos : List Val} {kw : Kw} (hnd : (kw.map Prod.fst).Nodup) {p : Val} {rest : Kw} :
    assign own pos kw = .ok (p, rest) ↔
      (pos = [] ∨ ∃ v, pos = [v] ∧ own ≠ none) ∧ (pos ≠ [] → ∀ q ∈ kw, own ≠ some q.1) ∧
      (rest = kw.filter fun q => decide (own ≠ some q.1)) ∧
      ((∃ n, own = some n ∧ Arg own pos kw n p) ∨ (p = .none ∧ ∀ n v, own = some n → ¬ Arg own pos kw n v)) := by
  have hf : ∀ n, (∀ q ∈ kw, some n ≠ some q.1) → kw.filter (fun q => decide (some n ≠ some q.1)) = kw := by
    intro n h
    rw [List.filter_eq_self]
    intro q hq
    simpa using h q hq
  have key : ∀ n, (∀ q ∈ kw, some n ≠ some q.1) ↔ kw.lookup n = none := by
    intro n
    rw [lookup_none]
    constructor
    · intro h v hv; exact h _ hv rfl
    · rintro h ⟨k, v⟩ hq e
      rw [Option.some.inj e] at h
      exact h v hq
  match own, pos with
  | none, [] =>
    simp only [assign, pure, Except.pure, Except.ok.injEq, Prod.mk.injEq]
    simp [Arg, eq_comm]
    tauto
  | none, _ :: _ => simp [assign]
  | some n, [] =>
    simp only [assign, pure, Except.pure, Except.ok.injEq, Prod.mk.injEq]
    have e1 : (fun q : String × Val => decide (q.1 ≠ n)) = fun q => decide (some n ≠ some q.1) := by
      funext q
      simp [eq_comm]
    rw [e1]
    simp only [true_or, ne_eq, not_true, false_implies, true_and, Arg, Option.some.injEq]
    rw [and_comm, eq_comm (a := rest)]
    refine and_congr_right fun _ => ?_
    cases e : kw.lookup n with
    | none =>
      rw [lookup_none] at e
      simp only [Option.getD_none]
      constructor
      · rintro rfl; exact .inr ⟨rfl, by rintro _ v rfl (h | ⟨-, h⟩); exacts [e v h, by cases h]⟩
      · rintro (⟨_, rfl, h | ⟨-, h⟩⟩ | ⟨rfl, -⟩)
        · exact (e _ h).elim
        · cases h
        · rfl
    | some v =>
      have e' := (lookup_iff hnd n v).mp e
      simp only [Option.getD_some]
      constructor
      · rintro rfl; exact .inl ⟨n, rfl, .inl e'⟩
      · rintro (⟨_, rfl, h | ⟨-, h⟩⟩ | ⟨rfl, h⟩)
        · rw [← lookup_iff hnd, e] at h
          exact Option.some.inj h
        · cases h
        · exact (h n v rfl (.inl e')).elim
  | some n, [v] =>
    simp only [assign]
    by_cases h : kw.lookup n = none
    · have h' := (key n).mpr h
      rw [hf n h']
      simp only [h, Option.isSome_none, Bool.false_eq_true, if_false, pure, Except.pure, Except.ok.injEq, Prod.mk.injEq, Arg]
      rw [lookup_none] at h
      constructor
      · rintro ⟨rfl, rfl⟩
        exact ⟨.inr ⟨_, rfl, by simp⟩, fun _ => h', rfl, .inl ⟨n, rfl, .inr ⟨rfl, rfl⟩⟩⟩
      · rintro ⟨-, -, rfl, ⟨m, e, hm | ⟨-, hm⟩⟩ | ⟨rfl, hm⟩⟩
        · cases e; exact (h _ hm).elim
        · cases hm; exact ⟨rfl, rfl⟩
        · exact (hm n v rfl (.inr ⟨rfl, rfl⟩)).elim
    · have hs : (kw.lookup n).isSome = true := Option.isSome_iff_ne_none.mpr h
      rw [if_pos hs]
      simp only [reduceCtorEq, false_iff]
      rintro ⟨-, h', -⟩
      exact h ((key n).mp (h' (by simp)))
  | some n, v :: u :: l => simp [assign]

theorem base_ok {vol : Bool} {kw : Kw} (hnd : (kw.map Prod.fst).Nodup) {a : List Val} {nc : Val} :
    base parse vol kw = .ok (a, nc) ↔ (∀ p ∈ kw, p.1 = "ncoefs" ∨ p.1 = "a") ∧
      (∃ l, ((((∀ v, ("a", v) ∉ kw) ∨ ("a", Val.none) ∈ kw) ∧ l = [.real (if vol then -1 else 1), .real 1, .real 1]) ∨
        ∃ v, v ≠ .none ∧ ("a", v) ∈ kw ∧ Items v l) ∧ l.length = 3 ∧ List.Forall₂ (StoredAs parse) l a) ∧
      (("ncoefs", nc) ∈ kw ∨ nc = .none ∧ ∀ v, ("ncoefs", v) ∉ kw) := by
  unfold base
  by_cases hk : kw.all (fun p => p.1 = "ncoefs" ∨ p.1 = "a") = true
  · rw [if_pos hk]
    have hk' : ∀ p ∈ kw, p.1 = "ncoefs" ∨ p.1 = "a" := by simpa using hk
    have hnc : (kw.lookup "ncoefs").getD .none = nc ↔ (("ncoefs", nc) ∈ kw ∨ nc = .none ∧ ∀ v, ("ncoefs", v) ∉ kw) := by
      cases e : kw.lookup "ncoefs" with
      | none =>
        rw [lookup_none] at e
        simp only [Option.getD_none]
        constructor
        · rintro rfl; exact .inr ⟨rfl, e⟩
        · rintro (h | ⟨h, -⟩)
          · exact (e _ h).elim
          · exact h.symm
      | some v =>
        have e' := (lookup_iff hnd _ v).mp e
        simp only [Option.getD_some]
        constructor
        · rintro rfl; exact .inl e'
        · rintro (h | ⟨-, h⟩)
          · rw [← lookup_iff hnd, e] at h; exact Option.some.inj h
          · exact (h _ e').elim
    -- the tail of the function
    have tail : ∀ l : Py (List Val), (do
        let l ← l
        let a ← l.mapM (parseParam parse)
        if a.length = 3 then (pure (a, (kw.lookup "ncoefs").getD .none) : Py _) else .error .assertionError) = .ok (a, nc) ↔
        (∃ l', l = .ok l' ∧ l'.length = 3 ∧ List.Forall₂ (StoredAs parse) l' a) ∧ (kw.lookup "ncoefs").getD .none = nc := by
      intro l
      cases l with
      | error e => simp [bind, Except.bind]
      | ok l =>
        have hp : List.Forall₂ (StoredAs parse) l a ↔ l.mapM (parseParam parse) = .ok a := by
          rw [mapM_forall2]
          simp only [parseParam_ok]
        simp only [bind, Except.bind, Except.ok.injEq, exists_eq_left', hp]
        cases e : l.mapM (parseParam parse) with
        | error e => simp
        | ok a' =>
          have hl := parseAll_length e
          simp only [hl, pure, Except.pure]
          by_cases h3 : l.length = 3
          · simp [h3]
          · simp [h3]
    rw [tail, hnc]
    have hA : ∀ l', argA vol (kw.lookup "a") = .ok l' ↔
        (((∀ v, ("a", v) ∉ kw) ∨ ("a", Val.none) ∈ kw) ∧ l' = [.real (if vol then -1 else 1), .real 1, .real 1]) ∨
        ∃ v, v ≠ .none ∧ ("a", v) ∈ kw ∧ Items v l' := by
      intro l'
      cases e : kw.lookup "a" with
      | none =>
        rw [lookup_none] at e
        simp only [argA, pure, Except.pure, Except.ok.injEq]
        constructor
        · rintro rfl; exact .inl ⟨.inl e, rfl⟩
        · rintro (⟨-, rfl⟩ | ⟨v, -, h, -⟩)
          · rfl
          · exact (e _ h).elim
      | some v =>
        have e' := (lookup_iff hnd _ v).mp e
        have uniq : ∀ u, ("a", u) ∈ kw → u = v := fun u h => by
          rw [← lookup_iff hnd, e] at h; exact (Option.some.inj h).symm
        by_cases hv : v = .none
        · subst hv
          simp only [argA, pure, Except.pure, Except.ok.injEq]
          constructor
          · rintro rfl; exact .inl ⟨.inr e', rfl⟩
          · rintro (⟨-, rfl⟩ | ⟨u, hu, h, -⟩)
            · rfl
            · exact (hu (uniq u h)).elim
        · have : argA vol (some v) = iter v := by
            cases v <;> first | exact (hv rfl).elim | rfl
          rw [this, iter_ok]
          constructor
          · intro h; exact .inr ⟨v, hv, e', h⟩
          · rintro (⟨h | h, -⟩ | ⟨u, -, h, h'⟩)
            · exact (h _ e').elim
            · exact (hv (uniq _ h).symm).elim
            · rw [← uniq u h]; exact h'
    simp only [hA]
    constructor
    · rintro ⟨h1, h2⟩; exact ⟨hk', h1, h2⟩
    · rintro ⟨-, h1, h2⟩; exact ⟨h1, h2⟩
  · rw [if_neg hk]
    simp only [reduceCtorEq, false_iff]
    rintro ⟨h, -⟩
    exact hk (by simpa using h)

end

end RT1
