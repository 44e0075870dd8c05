import Verif.Props.Construct

/-!
# Exceptions of the constructor of linear combinations (C86)
-/

namespace RT1

noncomputable section
open Make

/-- `x` is one of the items of the argument `choices`. -/
def Item (pos : List Val) (kw : Kw) (x : Val) : Prop :=
  ∃ v items, Arg (some "choices") pos kw "choices" v ∧ Items v items ∧ x ∈ items

/-- The reasons for the exceptions of `LinComb(...)`. -/
inductive LinReason (parse : String → Py Expr) (pos : List Val) (kw : Kw) : PyErr → Prop
  /-- The arguments do not fit the signature. -/
  | call (h : ¬ Fitting (some "choices") pos kw) : LinReason parse pos kw (.typeError [])
  /-- `choices` is missing. -/
  | missing (h : ∀ v, ¬ Arg (some "choices") pos kw "choices" v) : LinReason parse pos kw (.typeError [])
  /-- `choices` is no list. -/
  | choices {v : Val} (h : Arg (some "choices") pos kw "choices" v) (hv : ∀ l, ¬ Items v l) :
      LinReason parse pos kw (.typeError [])
  /-- An item of `choices` is no list. -/
  | item {x : Val} (h : Item pos kw x) (hx : ∀ l, ¬ Items x l) : LinReason parse pos kw (.typeError [])
  /-- An item of `choices` does not consist of two values. -/
  | pair {x : Val} {l : List Val} (h : Item pos kw x) (hx : Items x l) (hl : l.length ≠ 2) :
      LinReason parse pos kw .valueError
  /-- A weight is a text that is no expression. -/
  | weight {x o : Val} {s : String} {e : PyErr} (h : Item pos kw x) (hx : Items x [.text s, o]) (hs : parse s = .error e) :
      LinReason parse pos kw e
  /-- A part is no scattering function. -/
  | part {x w o : Val} (h : Item pos kw x) (hx : Items x [w, o])
      (ho : (∀ c a nc p, o ≠ .prim c a nc p) ∧ ∀ vol ws os a nc, o ≠ .lin vol ws os a nc) :
      LinReason parse pos kw .attributeError
  /-- A part is a scattering function with a list in its attribute `a`. -/
  | hash {x w o : Val} (h : Item pos kw x) (hx : Items x [w, o])
      (ho : ∃ a l, Val.seq l ∈ a ∧ ((∃ c nc p, o = .prim c a nc p) ∨ ∃ vol ws os nc, o = .lin vol ws os a nc)) :
      LinReason parse pos kw (.typeError [])
  /-- `a` is no list. -/
  | angle {v : Val} (h : ("a", v) ∈ kw) (hv : v ≠ .none ∧ ∀ l, ¬ Items v l) : LinReason parse pos kw (.typeError [])
  /-- `a` does not consist of three values. -/
  | three {v : Val} {l : List Val} (h : ("a", v) ∈ kw) (hv : Items v l) (hl : l.length ≠ 3) :
      LinReason parse pos kw .assertionError
  /-- An entry of `a` is a text that is no expression. -/
  | text {v : Val} {l : List Val} {s : String} {e : PyErr} (h : ("a", v) ∈ kw) (hv : Items v l) (hl : .text s ∈ l)
      (hs : parse s = .error e) : LinReason parse pos kw e

variable {parse : String → Py Expr}

theorem bind_error_iff {α β : Type} {x : Py α} {f : α → Py β} {e : PyErr} :
    (x >>= f) = .error e ↔ x = .error e ∨ ∃ a, x = .ok a ∧ f a = .error e := by
  cases x <;> simp [bind, Except.bind]

theorem mapM_error {α β : Type} {f : α → Py β} {e : PyErr} : ∀ {l : List α}, l.mapM f = .error e → ∃ x ∈ l, f x = .error e
  | [], h => by simp [pure, Except.pure] at h
  | x :: l, h => by
    rw [List.mapM_cons, bind_error_iff] at h
    rcases h with h | ⟨a, -, h⟩
    · exact ⟨x, by simp, h⟩
    · rw [bind_error_iff] at h
      rcases h with h | ⟨as, -, h⟩
      · obtain ⟨y, hy, hf⟩ := mapM_error h
        exact ⟨y, by simp [hy], hf⟩
      · cases h

theorem forM_error {α : Type} {f : α → Py Unit} {e : PyErr} : ∀ {l : List α}, l.forM f = .error e → ∃ x ∈ l, f x = .error e
  | [], h => by simp [pure, Except.pure] at h
  | x :: l, h => by
    rw [show (x :: l).forM f = (f x >>= fun _ => l.forM f) from rfl, bind_error_iff] at h
    rcases h with h | ⟨a, -, h⟩
    · exact ⟨x, by simp, h⟩
    · obtain ⟨y, hy, hf⟩ := forM_error h
      exact ⟨y, by simp [hy], hf⟩

theorem iter_error {v : Val} {e : PyErr} (h : iter v = .error e) : e = .typeError [] ∧ ∀ l, ¬ Items v l := by
  cases v with
  | seq l => cases h
  | text s => cases h
  | _ => cases h; exact ⟨rfl, fun l hl => by cases hl⟩

theorem parseParam_error {v : Val} {e : PyErr} (h : parseParam parse v = .error e) : ∃ s, v = .text s ∧ parse s = .error e := by
  cases v with
  | text s =>
    refine ⟨s, rfl, ?_⟩
    cases hs : parse s with
    | ok x => simp [parseParam, hs, bind, Except.bind, pure, Except.pure] at h
    | error x => simpa [parseParam, hs, bind, Except.bind] using h
  | _ => simp [parseParam, pure, Except.pure] at h

theorem keyOf_error {o : Val} {e : PyErr} (h : keyOf o = .error e) :
    e = .attributeError ∧ ((∀ c a nc p, o ≠ .prim c a nc p) ∧ ∀ vol ws os a nc, o ≠ .lin vol ws os a nc) ∨
    e = .typeError [] ∧
      ∃ a l, Val.seq l ∈ a ∧ ((∃ c nc p, o = .prim c a nc p) ∨ ∃ vol ws os nc, o = .lin vol ws os a nc) := by
  have hc : ∀ {a : List Val}, keyOf.check a = .error e → e = .typeError [] ∧ ∃ l, Val.seq l ∈ a := by
    intro a h
    unfold keyOf.check at h
    by_cases hq : a.any Val.isSeq = true
    · rw [if_pos hq] at h
      cases h
      obtain ⟨x, hx, hq⟩ := List.any_eq_true.mp hq
      cases x <;> simp [Val.isSeq] at hq
      exact ⟨rfl, _, hx⟩
    · rw [if_neg hq] at h; cases h
  cases o with
  | prim c a nc p =>
    obtain ⟨h1, l, h2⟩ := hc (a := a) h
    exact .inr ⟨h1, a, l, h2, .inl ⟨c, nc, p, rfl⟩⟩
  | lin vol ws os a nc =>
    obtain ⟨h1, l, h2⟩ := hc (a := a) h
    exact .inr ⟨h1, a, l, h2, .inr ⟨vol, ws, os, nc, rfl⟩⟩
  | _ => cases h; exact .inl ⟨rfl, by simp, by simp⟩

theorem assignLin_error {own : String} {pos : List Val} {kw : Kw} (hnd : (kw.map Prod.fst).Nodup) {e : PyErr}
    (h : assign (some own) pos kw = .error e) : e = .typeError [] ∧ ¬ Fitting (some own) pos kw := by
  match pos with
  | [] => cases h
  | [v] =>
    simp only [assign] at h
    by_cases hs : (kw.lookup own).isSome = true
    · rw [if_pos hs] at h
      cases h
      obtain ⟨u, hu⟩ := Option.isSome_iff_exists.mp hs
      exact ⟨rfl, fun hh => hh.once (by simp) _ ((lookup_iff hnd own u).mp hu) rfl⟩
    · rw [if_neg hs] at h; cases h
  | v :: u :: l =>
    cases h
    refine ⟨rfl, fun hh => ?_⟩
    have := hh.few
    simp at this

theorem baseLin_error {vol : Bool} {rest : Kw} (hnd : (rest.map Prod.fst).Nodup) {e : PyErr} (h : base parse vol rest = .error e) :
    e = .typeError [] ∧ (¬ ∀ p ∈ rest, p.1 = "ncoefs" ∨ p.1 = "a") ∨
    (∃ v, ("a", v) ∈ rest ∧ v ≠ .none ∧ (e = .typeError [] ∧ (∀ l, ¬ Items v l) ∨
      ∃ l, Items v l ∧ (e = .assertionError ∧ l.length ≠ 3 ∨ ∃ s, .text s ∈ l ∧ parse s = .error e))) := by
  unfold base at h
  by_cases hk : rest.all (fun p => p.1 = "ncoefs" ∨ p.1 = "a") = true
  · rw [if_pos hk] at h
    right
    rw [bind_error_iff] at h
    cases hl : rest.lookup "a" with
    | none =>
      exfalso
      rw [hl] at h
      rcases h with h | ⟨l, h1, h⟩
      · cases h
      · cases h1
        simp [parseParam, bind, Except.bind, pure, Except.pure] at h
    | some v =>
      rw [hl] at h
      refine ⟨v, (lookup_iff hnd _ v).mp hl, ?_⟩
      by_cases hv : v = .none
      · exfalso
        subst hv
        rcases h with h | ⟨l, h1, h⟩
        · cases h
        · cases h1
          simp [parseParam, bind, Except.bind, pure, Except.pure] at h
      · have ha : argA vol (some v) = iter v := by cases v <;> first | rfl | exact absurd rfl hv
        rw [ha] at h
        refine ⟨hv, ?_⟩
        rcases h with h | ⟨l, h1, h⟩
        · exact .inl (iter_error h)
        · right
          have hi := iter_ok.mp h1
          refine ⟨l, hi, ?_⟩
          rw [bind_error_iff] at h
          rcases h with h | ⟨a, h2, h⟩
          · obtain ⟨x, hx, hp⟩ := mapM_error h
            obtain ⟨s, rfl, hs⟩ := parseParam_error hp
            exact .inr ⟨s, hx, hs⟩
          · split_ifs at h with h3
            · cases h
            · cases h
              refine .inl ⟨rfl, fun h4 => h3 ?_⟩
              have := (mapM_forall2.mp h2).length_eq
              omega
  · rw [if_neg hk] at h
    cases h
    left
    refine ⟨rfl, fun hh => hk ?_⟩
    rw [List.all_eq_true]
    intro p hp
    simpa using hh p hp

/-- **C86** (exceptions of linear combinations): every exception of `LinComb(...)` has one of the reasons in
`LinReason`. -/
theorem C86_lin_errors {vol : Bool} {pos : List Val} {kw : Kw} (hnd : (kw.map Prod.fst).Nodup) {e : PyErr}
    (h : makeLin parse vol pos kw = .error e) : LinReason parse pos kw e := by
  unfold makeLin at h
  rw [bind_error_iff] at h
  rcases h with h | ⟨⟨ch, rest⟩, h1, h⟩
  · obtain ⟨rfl, h2⟩ := assignLin_error hnd h
    exact .call h2
  obtain ⟨f1, f2, rfl, f3⟩ := (assign_ok hnd).mp h1
  have harg : Arg (some "choices") pos kw "choices" ch ∨ ch = .none ∧ ∀ v, ¬ Arg (some "choices") pos kw "choices" v := by
    rcases f3 with ⟨n, en, ha⟩ | ⟨rfl, hno⟩
    · cases en; exact .inl ha
    · exact .inr ⟨rfl, fun v hv => hno "choices" v rfl hv⟩
  simp only at h
  rw [bind_error_iff] at h
  rcases h with h | ⟨items, h2, h⟩
  · obtain ⟨rfl, hi⟩ := iter_error h
    rcases harg with ha | ⟨-, hno⟩
    · exact .choices ha hi
    · exact .missing hno
  have hch := iter_ok.mp h2
  have ha : Arg (some "choices") pos kw "choices" ch := by
    rcases harg with ha | ⟨rfl, -⟩
    · exact ha
    · cases hch
  have hitem : ∀ x ∈ items, Item pos kw x := fun x hx => ⟨ch, items, ha, hch, hx⟩
  rw [bind_error_iff] at h
  rcases h with h | ⟨ps, h3, h⟩
  · obtain ⟨x, hx, hp⟩ := mapM_error h
    rw [bind_error_iff] at hp
    rcases hp with hp | ⟨⟨w, o⟩, hu, hp⟩
    · unfold unpack at hp
      rw [bind_error_iff] at hp
      rcases hp with hp | ⟨l, hl, hp⟩
      · obtain ⟨rfl, hi⟩ := iter_error hp
        exact .item (hitem x hx) hi
      · match l, hl, hp with
        | [], hl, hp => cases hp; exact .pair (hitem x hx) (iter_ok.mp hl) (by simp)
        | [a], hl, hp => cases hp; exact .pair (hitem x hx) (iter_ok.mp hl) (by simp)
        | [a, b], hl, hp => cases hp
        | a :: b :: c :: l, hl, hp => cases hp; exact .pair (hitem x hx) (iter_ok.mp hl) (by simp)
    · simp only at hp
      rw [bind_error_iff] at hp
      rcases hp with hp | ⟨u, -, hp⟩
      · obtain ⟨s, rfl, hs⟩ := parseParam_error hp
        exact .weight (hitem x hx) (unpack_ok.mp hu) hs
      · cases hp
  have hps := mapM_forall2.mp h3
  have hpair : ∀ p ∈ ps, ∃ x ∈ items, ∃ w, Items x [w, p.2] := by
    intro p hp
    obtain ⟨k, hk, rfl⟩ := List.mem_iff_getElem.mp hp
    have hl := hps.length_eq
    have := (List.forall₂_iff_get.mp hps).2 k (by omega) hk
    obtain ⟨w, hw, -⟩ := pair_ok.mp this
    exact ⟨_, List.getElem_mem (by omega), w, hw⟩
  rw [bind_error_iff] at h
  rcases h with h | ⟨u, h4, h⟩
  · obtain ⟨p, hp, hk⟩ := forM_error h
    obtain ⟨x, hx, w, hw⟩ := hpair p hp
    rcases keyOf_error hk with ⟨rfl, ho⟩ | ⟨rfl, ho⟩
    · exact .part (hitem x hx) hw ho
    · exact .hash (hitem x hx) hw ho
  rw [bind_error_iff] at h
  rcases h with h | ⟨⟨a, nc⟩, -, h⟩
  · have hin : ∀ {v : Val}, ("a", v) ∈ kw.filter (fun q => decide (some "choices" ≠ some q.1)) → ("a", v) ∈ kw :=
      fun h => (rest_iff (by simp)).mp h
    rcases baseLin_error (nodup_filter hnd _) h with ⟨rfl, hk⟩ | ⟨v, hv, hne, ⟨rfl, hi⟩ | ⟨l, hi, ⟨rfl, hl⟩ | ⟨s, hs, hp⟩⟩⟩
    · exact .call fun hf => hk (rest_known.mpr hf.known)
    · exact .angle (hin hv) ⟨hne, hi⟩
    · exact .three (hin hv) hi hl
    · exact .text (hin hv) hi hs hp
  · cases h

/-- Some wrong calls: `LinComb()`, `LinComb([1, f])`, `LinComb([[1, f, f]])`, `LinComb([[1, 2]])` and
`LinComb([], a=[1, 1])`. -/
example (vol : Bool) (f : Val) : makeLin parse vol [] [] = .error (.typeError []) ∧
    makeLin parse vol [.seq [.int 1, f]] [] = .error (.typeError []) ∧
    makeLin parse vol [.seq [.seq [.int 1, f, f]]] [] = .error .valueError ∧
    makeLin parse vol [.seq [.seq [.int 1, .int 2]]] [] = .error .attributeError ∧
    makeLin parse vol [.seq []] [("a", .seq [.int 1, .int 1])] = .error .assertionError :=
  ⟨rfl, rfl, rfl, rfl, rfl⟩

end

end RT1
