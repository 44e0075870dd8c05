import Verif.Lemmas.Construct
import Verif.Props.Scatter

/-!
# Constructors of scattering functions (C86)
-/

namespace RT1

noncomputable section
open Make

variable {parse : String → Py Expr}

theorem bind_ok_iff {α β : Type} {x : Py α} {f : α → Py β} {b : β} : (x >>= f) = .ok b ↔ ∃ a, x = .ok a ∧ f a = .ok b := by
  cases x <;> simp [bind, Except.bind]

theorem checkOwn_ok {c : Cls} {p q : Val} : checkOwn parse c p = .ok q ↔
    (c.own = none ∧ q = .none) ∨ (c.own = some "t" ∧ p ≠ .none ∧ StoredAs parse p q) ∨
    (c.own = some "i" ∧ q = p ∧ ((∃ n : ℕ, p = .int n) ∨ ∃ b, p = .bool b)) := by
  have ht : ∀ p q, checkT parse p = .ok q ↔
      p ≠ .none ∧ StoredAs parse p q := by
    intro p q
    cases p <;> simp [← parseParam_ok, checkT]
  have hi : ∀ p q, checkI p = .ok q ↔ q = p ∧ ((∃ n : ℕ, p = .int n) ∨ ∃ b, p = .bool b) := by
    intro p q
    cases p with
    | int i =>
      by_cases h : 0 ≤ i
      · simp only [checkI, h, if_true, pure, Except.pure, Except.ok.injEq, Val.int.injEq, reduceCtorEq, exists_false, or_false]
        constructor
        · rintro rfl; exact ⟨rfl, i.toNat, (Int.toNat_of_nonneg h).symm⟩
        · rintro ⟨rfl, -⟩; rfl
      · simp only [checkI, h, if_false, reduceCtorEq, Val.int.injEq, exists_false, or_false, false_iff, not_and]
        rintro - ⟨n, rfl⟩
        exact h (by positivity)
    | bool b => simp [checkI, pure, Except.pure, eq_comm]
    | _ => simp [checkI]
  cases c <;> simp only [checkOwn, Cls.own, reduceCtorEq, false_and, or_false, false_or, true_and, ht, hi,
    Option.some.injEq, String.reduceEq, pure, Except.pure, Except.ok.injEq]
  all_goals exact eq_comm

theorem make_ok {c : Cls} {pos : List Val} {kw : Kw} {v : Val} : make parse c pos kw = .ok v ↔ ∃ p rest a nc q,
    assign c.own pos kw = .ok (p, rest) ∧ base parse c.vol rest = .ok (a, nc) ∧ checkOwn parse c p = .ok q ∧
    v = .prim c a nc q := by
  unfold make
  simp only [bind_ok_iff, Prod.exists, pure, Except.pure, Except.ok.injEq]
  constructor
  · rintro ⟨p, rest, h1, a, nc, h2, q, h3, h4⟩; exact ⟨p, rest, a, nc, q, h1, h2, h3, h4.symm⟩
  · rintro ⟨p, rest, a, nc, q, h1, h2, h3, h4⟩; exact ⟨p, rest, h1, a, nc, h2, q, h3, h4.symm⟩

theorem own_cases (c : Cls) : c.own = none ∨ c.own = some "t" ∨ c.own = some "i" := by cases c <;> simp [Cls.own]

/-- An argument has one value. -/
theorem Arg.unique {own : Option String} {pos : List Val} {kw : Kw} (hnd : (kw.map Prod.fst).Nodup)
    (h1 : pos ≠ [] → ∀ q ∈ kw, own ≠ some q.1) {n : String} {v u : Val} (hv : Arg own pos kw n v) (hu : Arg own pos kw n u) :
    v = u := by
  rcases hv with hv | ⟨e, hv⟩ <;> rcases hu with hu | ⟨e', hu⟩
  · rw [← lookup_iff hnd] at hv hu
    exact Option.some.inj (hv.symm.trans hu)
  · exact (h1 (by simp [hu]) _ hv e').elim
  · exact (h1 (by simp [hv]) _ hu e).elim
  · rw [hv] at hu; exact (List.cons.inj hu).1

/-- The keywords handed to the base class. -/
theorem rest_iff {own : Option String} {kw : Kw} {n : String} {v : Val} (hn : own ≠ some n) :
    (n, v) ∈ kw.filter (fun q => decide (own ≠ some q.1)) ↔ (n, v) ∈ kw := by
  simp [List.mem_filter, hn]

theorem rest_known {own : Option String} {kw : Kw} :
    (∀ p ∈ kw.filter (fun q => decide (own ≠ some q.1)), p.1 = "ncoefs" ∨ p.1 = "a") ↔
    ∀ p ∈ kw, p.1 = "ncoefs" ∨ p.1 = "a" ∨ own = some p.1 := by
  simp only [List.mem_filter, decide_eq_true_eq, and_imp]
  constructor
  · intro h p hp
    by_cases e : own = some p.1
    · exact .inr (.inr e)
    · rcases h p hp e with h | h
      · exact .inl h
      · exact .inr (.inl h)
  · intro h p hp e
    rcases h p hp with h | h | h
    · exact .inl h
    · exact .inr h
    · exact (e h).elim

theorem angle_iff {vol : Bool} {kw : Kw} (hnd : (kw.map Prod.fst).Nodup) :
    (∃ a l, ((((∀ v, ("a", v) ∉ kw) ∨ ("a", Val.none) ∈ kw) ∧ l = [.real (if vol then -1 else 1), .real 1, .real 1]) ∨
        ∃ v, v ≠ .none ∧ ("a", v) ∈ kw ∧ Items v l) ∧ l.length = 3 ∧ List.Forall₂ (StoredAs parse) l a) ↔ AngleOK parse kw := by
  have hp : ∀ l, (∃ a, List.Forall₂ (StoredAs parse) l a) ↔ ∀ x ∈ l, Readable parse x := by
    intro l
    rw [← parseAll_iff]
    simp only [mapM_forall2, parseParam_ok]
  constructor
  · rintro ⟨a, l, h, h3, h4⟩ v hv
    rcases h with ⟨h | h, rfl⟩ | ⟨u, hu, h, hi⟩
    · exact (h v hv).elim
    · rw [← lookup_iff hnd] at h hv
      exact .inl (Option.some.inj (hv.symm.trans h))
    · rw [← lookup_iff hnd] at h hv
      cases Option.some.inj (hv.symm.trans h)
      exact .inr ⟨l, hi, h3, (hp l).mp ⟨a, h4⟩⟩
  · intro h
    have hdef : ∀ x ∈ [Val.real (if vol then -1 else 1), .real 1, .real 1], Readable parse x := by
      intro x hx s e
      subst e
      simp at hx
    obtain ⟨a0, ha0⟩ := (hp _).mpr hdef
    by_cases hn : ∃ v, ("a", v) ∈ kw
    · obtain ⟨v, hv⟩ := hn
      by_cases he : v = .none
      · subst he
        exact ⟨a0, _, .inl ⟨.inr hv, rfl⟩, rfl, ha0⟩
      · obtain ⟨l, h1, h2, h3⟩ := (h v hv).resolve_left he
        obtain ⟨a, ha⟩ := (hp l).mpr h3
        exact ⟨a, l, .inr ⟨v, he, hv, h1⟩, h2, ha⟩
    · exact ⟨a0, _, .inl ⟨.inl fun v hv => hn ⟨v, hv⟩, rfl⟩, rfl, ha0⟩

/-- **C86** (accepted calls): the constructor of a predefined function succeeds if and only if the
arguments are acceptable. -/
theorem C86_accepts {c : Cls} {pos : List Val} {kw : Kw} (hnd : (kw.map Prod.fst).Nodup) :
    (∃ v, make parse c pos kw = .ok v) ↔ Accepts parse c pos kw := by
  have hne : c.own ≠ some "a" ∧ c.own ≠ some "ncoefs" := by cases c <;> simp [Cls.own]
  have hang : AngleOK parse (kw.filter fun q => decide (c.own ≠ some q.1)) ↔ AngleOK parse kw := by
    unfold AngleOK
    simp only [rest_iff hne.1]
  have hnd' := nodup_filter hnd fun q => decide (c.own ≠ some q.1)
  constructor
  · rintro ⟨v, h⟩
    obtain ⟨p, rest, a, nc, q, h1, h2, h3, -⟩ := make_ok.mp h
    obtain ⟨f1, f2, rfl, f3⟩ := (assign_ok hnd).mp h1
    obtain ⟨b1, ⟨l, b2⟩, b3⟩ := (base_ok hnd').mp h2
    refine ⟨⟨rest_known.mp b1, f1, f2⟩, hang.mp ((angle_iff hnd').mp ⟨a, l, b2⟩), fun ht => ?_, fun hi => ?_⟩
    · rcases checkOwn_ok.mp h3 with ⟨e, -⟩ | ⟨-, e1, e2⟩ | ⟨e, -⟩
      · rw [e] at ht; cases ht
      · rcases f3 with ⟨n, en, ha⟩ | ⟨rfl, -⟩
        · rw [ht] at en
          cases en
          exact ⟨p, ha, e1, e2.readable⟩
        · exact (e1 rfl).elim
      · rw [e] at ht; simp at ht
    · rcases checkOwn_ok.mp h3 with ⟨e, -⟩ | ⟨e, -⟩ | ⟨-, e1, e2⟩
      · rw [e] at hi; cases hi
      · rw [e] at hi; simp at hi
      · rcases f3 with ⟨n, en, ha⟩ | ⟨rfl, -⟩
        · rw [hi] at en
          cases en
          exact ⟨p, ha, e2⟩
        · rcases e2 with ⟨n, e⟩ | ⟨b, e⟩ <;> cases e
  · intro h
    obtain ⟨a, l, ha⟩ := (angle_iff (vol := c.vol) hnd').mpr (hang.mpr h.a)
    obtain ⟨nc, hnc⟩ : ∃ nc, ("ncoefs", nc) ∈ kw.filter (fun q => decide (c.own ≠ some q.1)) ∨
        nc = Val.none ∧ ∀ v, ("ncoefs", v) ∉ kw.filter (fun q => decide (c.own ≠ some q.1)) := by
      by_cases hn : ∃ v, ("ncoefs", v) ∈ kw.filter (fun q => decide (c.own ≠ some q.1))
      · obtain ⟨v, hv⟩ := hn; exact ⟨v, .inl hv⟩
      · exact ⟨.none, .inr ⟨rfl, fun v hv => hn ⟨v, hv⟩⟩⟩
    have hb := (base_ok (parse := parse) (vol := c.vol) hnd').mpr ⟨rest_known.mpr h.call.known, ⟨l, ha⟩, hnc⟩
    rcases own_cases c with e | e | e
    · exact ⟨_, make_ok.mpr ⟨.none, _, a, nc, .none, (assign_ok hnd).mpr ⟨h.call.few, h.call.once, rfl,
        .inr ⟨rfl, fun n v hn => by rw [e] at hn; cases hn⟩⟩, hb, checkOwn_ok.mpr (.inl ⟨e, rfl⟩), rfl⟩⟩
    · obtain ⟨v, v1, v2, v3⟩ := h.t e
      obtain ⟨u, hu⟩ := v3.parsed
      exact ⟨_, make_ok.mpr ⟨v, _, a, nc, u, (assign_ok hnd).mpr ⟨h.call.few, h.call.once, rfl,
        .inl ⟨"t", e, v1⟩⟩, hb, checkOwn_ok.mpr (.inr (.inl ⟨e, v2, hu⟩)), rfl⟩⟩
    · obtain ⟨v, v1, v2⟩ := h.i e
      exact ⟨_, make_ok.mpr ⟨v, _, a, nc, v, (assign_ok hnd).mpr ⟨h.call.few, h.call.once, rfl,
        .inl ⟨"i", e, v1⟩⟩, hb, checkOwn_ok.mpr (.inr (.inr ⟨e, rfl, v2⟩)), rfl⟩⟩

/-! ### The constructed function -/

theorem Val.Stands.parsed {ρ : String → ℝ} {v : Val} {r : ℝ} (h : Val.Stands parse ρ v r) :
    v ≠ .none ∧ ∃ u e, StoredAs parse v u ∧ u.toExpr = some e ∧ e.Is ρ r := by
  cases h with
  | real => exact ⟨by simp, _, _, .keep (by simp), rfl, ⟨trivial, rfl⟩⟩
  | int => exact ⟨by simp, _, _, .keep (by simp), rfl, ⟨trivial, rfl⟩⟩
  | expr h => exact ⟨by simp, _, _, .keep (by simp), rfl, h⟩
  | text hs h => exact ⟨by simp, _, _, .text hs, rfl, h⟩

theorem Kind.value_of {c : Cls} {q : Val} {ρ : String → ℝ} {t : ℝ} {i : ℕ}
    (ht : c.own = some "t" → ∃ e, q.toExpr = some e ∧ e.Is ρ t) (hi : c.own = some "i" → q = .int i) :
    ∃ k, c.toKind q = some k ∧ k.TIs ρ t ∧ (∀ a0 x, k.val a0 t x = c.value a0 t i x) ∧
      (k.IsNadirnorm → c = .srfHGnadirnorm) ∧ ∀ a n, (Scatter.prim k a n).ncoefs = c.coefs n := by
  cases c
  case srfCosineLobe =>
    have := hi rfl
    subst this
    exact ⟨.srfCosineLobe i, by simp [Cls.toKind, Val.toNat], trivial, fun _ _ => rfl, fun h => h.elim,
      fun a n => by cases n <;> rfl⟩
  case volIsotropic => exact ⟨_, rfl, trivial, fun _ _ => rfl, fun h => h.elim, fun a n => rfl⟩
  case srfIsotropic => exact ⟨_, rfl, trivial, fun _ _ => rfl, fun h => h.elim, fun a n => rfl⟩
  case volRayleigh => exact ⟨_, rfl, trivial, fun _ _ => rfl, fun h => h.elim, fun a n => rfl⟩
  case volHG =>
    obtain ⟨e, he, h⟩ := ht rfl
    exact ⟨.volHG e, by simp only [Cls.toKind, he, Option.map_some], h, fun _ _ => rfl, fun h => h.elim,
      fun a n => by cases n <;> rfl⟩
  case volHGRayleigh =>
    obtain ⟨e, he, h⟩ := ht rfl
    exact ⟨.volHGRayleigh e, by simp only [Cls.toKind, he, Option.map_some], h, fun _ _ => rfl, fun h => h.elim,
      fun a n => by cases n <;> rfl⟩
  case srfHG =>
    obtain ⟨e, he, h⟩ := ht rfl
    exact ⟨.srfHG e, by simp only [Cls.toKind, he, Option.map_some], h, fun _ _ => rfl, fun h => h.elim,
      fun a n => by cases n <;> rfl⟩
  case srfHGnadirnorm =>
    obtain ⟨e, he, h⟩ := ht rfl
    exact ⟨.srfHGnadirnorm e, by simp only [Cls.toKind, he, Option.map_some], h, fun _ _ => rfl, fun h => rfl,
      fun a n => by cases n <;> rfl⟩

/-- **C86** (the function that was asked for): with documented arguments in any order the constructor
succeeds, the object has the documented number of coefficients, and `calc` returns the textbook value of
the class for the passed values. -/
theorem C86_value {c : Cls} {pos : List Val} {kw : Kw} (hnd : (kw.map Prod.fst).Nodup)
    {a0 a1 a2 t : ℝ} {i : ℕ} {n : Option ℕ} {x : Dirs} (h : Documented parse x.env c pos kw a0 a1 a2 t i n) :
    ∃ v s, make parse c pos kw = .ok v ∧ v.toScatter = some s ∧ s.ncoefs = c.coefs n ∧
      ∀ r, s.Returns x r → |a0| ≤ 1 → |a1| ≤ 1 → |a2| ≤ 1 → |t| < 1 → (c = .srfHGnadirnorm → a0 ≠ 0 ∧ t ≠ 0) →
        r = .fin (c.value a0 t i (x.cosTheta a0 a1 a2)) := by
  have hne : c.own ≠ some "a" ∧ c.own ≠ some "ncoefs" := by cases c <;> simp [Cls.own]
  have hnd' := nodup_filter hnd fun q => decide (c.own ≠ some q.1)
  -- the own parameter
  obtain ⟨p, q, hp, hq, hqt, hqi⟩ : ∃ p q, assign c.own pos kw = .ok (p, kw.filter fun q => decide (c.own ≠ some q.1)) ∧
      checkOwn parse c p = .ok q ∧ (c.own = some "t" → ∃ e, q.toExpr = some e ∧ e.Is x.env t) ∧
      (c.own = some "i" → q = .int i) := by
    rcases own_cases c with e | e | e
    · exact ⟨.none, .none, (assign_ok hnd).mpr ⟨h.call.few, h.call.once, rfl, .inr ⟨rfl, fun n v hn => by rw [e] at hn; cases hn⟩⟩,
        checkOwn_ok.mpr (.inl ⟨e, rfl⟩), by simp [e], by simp [e]⟩
    · obtain ⟨v, v1, v2⟩ := h.t e
      obtain ⟨v0, u, ex, u1, u2, u3⟩ := v2.parsed
      exact ⟨v, u, (assign_ok hnd).mpr ⟨h.call.few, h.call.once, rfl, .inl ⟨"t", e, v1⟩⟩,
        checkOwn_ok.mpr (.inr (.inl ⟨e, v0, u1⟩)), fun _ => ⟨ex, u2, u3⟩, by simp [e]⟩
    · exact ⟨.int i, .int i, (assign_ok hnd).mpr ⟨h.call.few, h.call.once, rfl, .inl ⟨"i", e, h.i e⟩⟩,
        checkOwn_ok.mpr (.inr (.inr ⟨e, rfl, .inl ⟨i, rfl⟩⟩)), by simp [e], fun _ => rfl⟩
  -- the parameters of the scattering angle
  obtain ⟨a, l, A, ha, hA, hAis⟩ : ∃ a l A, ((((∀ v, ("a", v) ∉ kw) ∨ ("a", Val.none) ∈ kw) ∧
        l = [.real (if c.vol then -1 else 1), .real 1, .real 1]) ∨
        ∃ v, v ≠ .none ∧ ("a", v) ∈ kw ∧ Items v l) ∧ (l.length = 3 ∧ List.Forall₂ (StoredAs parse) l a) ∧
        toA3 a = some A ∧ A.Is x.env a0 a1 a2 := by
    rcases h.a with ⟨h1, rfl, rfl, rfl⟩ | ⟨u, v, z, h1, hu, hv, hz⟩
    · have hk : ∀ r, StoredAs parse (.real r) (.real r) := fun r => .keep (by simp)
      exact ⟨_, _, _, .inl ⟨.inl h1, rfl⟩, ⟨rfl, .cons (hk _) (.cons (hk _) (.cons (hk _) .nil))⟩, rfl,
        ⟨⟨trivial, rfl⟩, ⟨trivial, rfl⟩, ⟨trivial, rfl⟩⟩⟩
    · obtain ⟨-, u', e0, a1', b1, c1⟩ := hu.parsed
      obtain ⟨-, v', e1, a2', b2, c2⟩ := hv.parsed
      obtain ⟨-, z', e2, a3', b3, c3⟩ := hz.parsed
      exact ⟨[u', v', z'], [u, v, z], ⟨e0, e1, e2⟩, .inr ⟨_, by simp, h1, .seq _⟩, ⟨rfl, .cons a1' (.cons a2' (.cons a3' .nil))⟩,
        by simp [toA3, b1, b2, b3], ⟨c1, c2, c3⟩⟩
  -- the number of coefficients
  obtain ⟨nc, hnc, hnc2⟩ : ∃ nc, (("ncoefs", nc) ∈ kw ∨ nc = Val.none ∧ ∀ v, ("ncoefs", v) ∉ kw) ∧
      ((nc = .none ∧ n = none) ∨ ∃ k : ℕ, nc = .int k ∧ n = some k) := by
    rcases h.n with ⟨h1, rfl⟩ | ⟨k, h1, rfl⟩
    · exact ⟨.none, .inr ⟨rfl, h1⟩, .inl ⟨rfl, rfl⟩⟩
    · exact ⟨.int k, .inl h1, .inr ⟨k, rfl, rfl⟩⟩
  have hb := (base_ok (parse := parse) (vol := c.vol) hnd' (a := a) (nc := nc)).mpr ⟨rest_known.mpr h.call.known,
    ⟨l, by simpa only [rest_iff hne.1] using ha, hA⟩, by simpa only [rest_iff hne.2] using hnc⟩
  obtain ⟨k, k1, k2, k3, k4, k5⟩ := Kind.value_of hqt hqi
  refine ⟨_, .prim k A n, make_ok.mpr ⟨p, _, a, nc, q, hp, hb, hq, rfl⟩, ?_, k5 A n, fun r hr h0 h1 h2 ht hnad => ?_⟩
  · rcases hnc2 with ⟨rfl, rfl⟩ | ⟨m, rfl, rfl⟩
    · simp [Val.toScatter, k1, hAis.1]
    · simp [Val.toScatter, k1, hAis.1, Val.toNat]
  · have hbd := Phase.cosTheta_abs_le h0 h1 h2 x.t0 x.tex x.p0 x.pex
    rw [hr.prim hAis.2 k2 (hg_base_pos ht hbd) (Kind.nadirOK h0 ht fun hk => hnad (k4 hk)), k3]

/-- **C86** (order of keywords): the order of the keywords matters neither for the object nor for the
exception. -/
theorem C86_keywords {c : Cls} {pos : List Val} {kw kw' : Kw} (hnd : (kw.map Prod.fst).Nodup) (hp : kw.Perm kw') :
    make parse c pos kw = make parse c pos kw' ∧ ∀ vol, makeLin parse vol pos kw = makeLin parse vol pos kw' := by
  have hb : ∀ (vol : Bool) {r r' : Kw}, (r.map Prod.fst).Nodup → r.Perm r' → base parse vol r = base parse vol r' := by
    intro vol r r' hr h
    unfold base
    rw [lookup_perm h hr, lookup_perm h hr]
    have : r.all (fun p => p.1 = "ncoefs" ∨ p.1 = "a") = r'.all (fun p => p.1 = "ncoefs" ∨ p.1 = "a") := by
      rw [Bool.eq_iff_iff]
      simp only [List.all_eq_true]
      exact ⟨fun H x hx => H x (h.mem_iff.mpr hx), fun H x hx => H x (h.mem_iff.mp hx)⟩
    rw [this]
  have ha : ∀ own, (∃ e, assign own pos kw = .error e ∧ assign own pos kw' = .error e) ∨
      ∃ p r r', assign own pos kw = .ok (p, r) ∧ assign own pos kw' = .ok (p, r') ∧ (r.map Prod.fst).Nodup ∧ r.Perm r' := by
    intro own
    match own, pos with
    | none, [] => exact .inr ⟨_, _, _, rfl, rfl, hnd, hp⟩
    | none, _ :: _ => exact .inl ⟨_, rfl, rfl⟩
    | some n, [] =>
      refine .inr ⟨_, _, _, rfl, ?_, nodup_filter hnd _, hp.filter _⟩
      simp only [assign, lookup_perm hp hnd]; rfl
    | some n, [v] =>
      simp only [assign, ← lookup_perm hp hnd]
      by_cases h : (kw.lookup n).isSome = true
      · exact .inl ⟨_, by rw [if_pos h], by rw [if_pos h]⟩
      · exact .inr ⟨_, _, _, by rw [if_neg h]; rfl, by rw [if_neg h]; rfl, hnd, hp⟩
    | some n, v :: u :: l => exact .inl ⟨_, rfl, rfl⟩
  constructor
  · unfold make
    rcases ha c.own with ⟨e, h1, h2⟩ | ⟨p, r, r', h1, h2, h3, h4⟩
    · rw [h1, h2]
    · rw [h1, h2]
      simp only [bind, Except.bind, hb c.vol h3 h4]
  · intro vol
    unfold makeLin
    rcases ha (some "choices") with ⟨e, h1, h2⟩ | ⟨p, r, r', h1, h2, h3, h4⟩
    · rw [h1, h2]
    · rw [h1, h2]
      simp only [bind, Except.bind, hb vol h3 h4]

/-- **C86** (exceptions): a refused call raises TypeError if the arguments do not fit the signature or `a`
cannot be iterated over, and otherwise AssertionError or what the parser raises. -/
theorem C86_errors {c : Cls} {pos : List Val} {kw : Kw} (hnd : (kw.map Prod.fst).Nodup) {e : PyErr}
    (h : make parse c pos kw = .error e) :
    (Fitting c.own pos kw ∧ (∀ v, ("a", v) ∈ kw → v = .none ∨ ∃ l, Items v l) →
      e = .assertionError ∨ ∃ s, parse s = .error e) ∧
    (¬ Fitting c.own pos kw → e = .typeError []) := by
  have hne : c.own ≠ some "a" ∧ c.own ≠ some "ncoefs" := by cases c <;> simp [Cls.own]
  have hpe : ∀ {v : Val} {e : PyErr}, parseParam parse v = .error e → ∃ s, parse s = .error e := by
    intro v e h
    cases v with
    | text s =>
      refine ⟨s, ?_⟩
      cases hs : parse s with
      | ok x => simp [parseParam, hs, bind, Except.bind, pure, Except.pure] at h
      | error x => simpa [parseParam, hs, bind, Except.bind] using h
    | _ => simp [parseParam, pure, Except.pure] at h
  have hme : ∀ {l : List Val} {e : PyErr}, l.mapM (parseParam parse) = .error e → ∃ s, parse s = .error e := by
    intro l e h
    induction l with
    | nil => simp [pure, Except.pure] at h
    | cons v l ih =>
      rw [List.mapM_cons] at h
      cases h1 : parseParam parse v with
      | error x =>
        simp only [h1, bind, Except.bind, Except.error.injEq] at h
        subst h
        exact hpe h1
      | ok u =>
        cases h2 : l.mapM (parseParam parse) with
        | error x =>
          simp only [h1, h2, bind, Except.bind, Except.error.injEq] at h
          subst h
          exact ih h2
        | ok us => simp [h1, h2, bind, Except.bind, pure, Except.pure] at h
  have hae : ∀ {own : Option String} {e : PyErr}, assign own pos kw = .error e → e = .typeError [] ∧
      ¬ ((pos = [] ∨ ∃ v, pos = [v] ∧ own ≠ none) ∧ (pos ≠ [] → ∀ q ∈ kw, own ≠ some q.1)) := by
    intro own e h
    match own, pos with
    | none, [] => cases h
    | none, _ :: _ => cases h; exact ⟨rfl, by simp⟩
    | some n, [] => cases h
    | some n, [v] =>
      simp only [assign] at h
      by_cases hs : (kw.lookup n).isSome = true
      · rw [if_pos hs] at h
        cases h
        obtain ⟨u, hu⟩ := Option.isSome_iff_exists.mp hs
        exact ⟨rfl, fun hh => hh.2 (by simp) _ ((lookup_iff hnd n u).mp hu) rfl⟩
      · rw [if_neg hs] at h; cases h
    | some n, v :: u :: l => cases h; exact ⟨rfl, by simp⟩
  unfold make at h
  cases h1 : assign c.own pos kw with
  | error x =>
    simp only [h1, bind, Except.bind, Except.error.injEq] at h
    subst h
    obtain ⟨e1, e2⟩ := hae h1
    exact ⟨fun hf => (e2 ⟨hf.1.few, hf.1.once⟩).elim, fun _ => e1⟩
  | ok pr =>
    obtain ⟨p, rest⟩ := pr
    obtain ⟨f1, f2, rfl, f3⟩ := (assign_ok hnd).mp h1
    have hnd' := nodup_filter hnd fun q => decide (c.own ≠ some q.1)
    have hfit : Fitting c.own pos kw ↔ ∀ p ∈ kw.filter (fun q => decide (c.own ≠ some q.1)), p.1 = "ncoefs" ∨ p.1 = "a" := by
      rw [rest_known]
      exact ⟨fun h => h.known, fun h => ⟨h, f1, f2⟩⟩
    cases h2 : base parse c.vol (kw.filter fun q => decide (c.own ≠ some q.1)) with
    | error x =>
      simp only [h1, h2, bind, Except.bind, Except.error.injEq] at h
      subst h
      unfold base at h2
      by_cases hk : (kw.filter fun q => decide (c.own ≠ some q.1)).all (fun p => p.1 = "ncoefs" ∨ p.1 = "a") = true
      · rw [if_pos hk] at h2
        have hk' : ∀ p ∈ kw.filter (fun q => decide (c.own ≠ some q.1)), p.1 = "ncoefs" ∨ p.1 = "a" := fun p hp => by
          have := List.all_eq_true.mp hk p hp
          simpa using this
        refine ⟨fun hf => ?_, fun hf => (hf (hfit.mpr hk')).elim⟩
        cases h3 : argA c.vol ((kw.filter fun q => decide (c.own ≠ some q.1)).lookup "a") with
        | error y =>
          exfalso
          cases h4 : (kw.filter fun q => decide (c.own ≠ some q.1)).lookup "a" with
          | none => rw [h4] at h3; cases h3
          | some v =>
            rw [h4] at h3
            have hv := (rest_iff hne.1).mp ((lookup_iff hnd' _ v).mp h4)
            rcases hf.2 v hv with rfl | ⟨l, hl⟩
            · cases h3
            · cases hl <;> cases h3
        | ok l =>
          rw [h3] at h2
          simp only [bind, Except.bind] at h2
          cases h4 : l.mapM (parseParam parse) with
          | error y =>
            simp only [h4, Except.error.injEq] at h2
            subst h2
            exact .inr (hme h4)
          | ok a =>
            simp only [h4] at h2
            split_ifs at h2
            · cases h2
            · cases h2; exact .inl rfl
      · rw [if_neg hk] at h2
        cases h2
        refine ⟨fun hf => (hk ?_).elim, fun _ => rfl⟩
        rw [List.all_eq_true]
        intro p hp
        simpa using hfit.mp hf.1 p hp
    | ok r =>
      obtain ⟨a, nc⟩ := r
      refine ⟨fun _ => ?_, fun hf => (hf (hfit.mpr ((base_ok hnd').mp h2).1)).elim⟩
      cases h3 : checkOwn parse c p with
      | ok q =>
        simp only [h1, h2, h3, bind, Except.bind, pure, Except.pure] at h
        cases h
      | error y =>
        simp only [h1, h2, h3, bind, Except.bind, Except.error.injEq] at h
        subst h
        have hT : ∀ {y}, checkT parse p = .error y → y = .assertionError ∨ ∃ s, parse s = .error y := by
          intro y hy
          by_cases hp : p = .none
          · subst hp; cases hy; exact .inl rfl
          · have : checkT parse p = parseParam parse p := by cases p <;> first | exact (hp rfl).elim | rfl
            exact .inr (hpe (this ▸ hy))
        have hI : ∀ {y}, checkI p = .error y → y = .assertionError := by
          intro y hy
          unfold checkI at hy
          split at hy
          · split_ifs at hy
            · cases hy
            · cases hy; rfl
          · cases hy
          · cases hy; rfl
        cases c <;> simp only [checkOwn] at h3 <;> first | exact hT h3 | exact .inl (hI h3) | cases h3

/-! ### Linear combinations -/

theorem keyOf_ok {v : Val} : keyOf v = .ok () ↔ IsFunction v := by
  have hc : ∀ a : List Val, keyOf.check a = .ok () ↔ ∀ l, Val.seq l ∉ a := by
    intro a
    unfold keyOf.check
    by_cases h : a.any Val.isSeq = true
    · rw [if_pos h]
      simp only [reduceCtorEq, false_iff, not_forall, not_not]
      obtain ⟨x, hx, h⟩ := List.any_eq_true.mp h
      cases x <;> simp [Val.isSeq] at h
      exact ⟨_, hx⟩
    · rw [if_neg h]
      simp only [pure, Except.pure, true_iff]
      exact fun l hl => h (List.any_eq_true.mpr ⟨_, hl, rfl⟩)
  unfold IsFunction
  constructor
  · intro h
    cases v with
    | prim c a nc p => exact ⟨a, .inl ⟨c, nc, p, rfl⟩, (hc a).mp h⟩
    | lin vol ws os a nc => exact ⟨a, .inr ⟨vol, ws, os, nc, rfl⟩, (hc a).mp h⟩
    | _ => cases h
  · rintro ⟨a, ⟨c, nc, p, rfl⟩ | ⟨vol, ws, os, nc, rfl⟩, h⟩
    · exact (hc a).mpr h
    · exact (hc a).mpr h

theorem unpack_ok {v w o : Val} : unpack v = .ok (w, o) ↔ Items v [w, o] := by
  unfold unpack
  rw [bind_ok_iff]
  constructor
  · rintro ⟨l, h1, h2⟩
    rw [iter_ok] at h1
    match l, h2 with
    | [w', o'], h2 => cases h2; exact h1
  · intro h
    exact ⟨_, iter_ok.mpr h, rfl⟩

/-- The pair of stored weight and function. -/
theorem pair_ok {v : Val} {p : Val × Val} :
    (do let (w, o) ← unpack v; pure (← parseParam parse w, o) : Py (Val × Val)) = .ok p ↔
    ∃ w, Items v [w, p.2] ∧ StoredAs parse w p.1 := by
  simp only [bind_ok_iff, Prod.exists, unpack_ok, parseParam_ok, pure, Except.pure, Except.ok.injEq]
  constructor
  · rintro ⟨w, o, h1, u, h2, rfl⟩; exact ⟨w, h1, h2⟩
  · rintro ⟨w, h1, h2⟩; exact ⟨w, p.2, h1, p.1, h2, rfl⟩

theorem forM_ok {α : Type} {f : α → Py Unit} {l : List α} : l.forM f = .ok () ↔ ∀ x ∈ l, f x = .ok () := by
  induction l with
  | nil => simp [pure, Except.pure]
  | cons x l ih =>
    rw [show (x :: l).forM f = (f x >>= fun _ => l.forM f) from rfl, bind_ok_iff]
    simp only [List.mem_cons, forall_eq_or_imp]
    constructor
    · rintro ⟨u, h1, h2⟩; exact ⟨h1, ih.mp h2⟩
    · rintro ⟨h1, h2⟩; exact ⟨(), h1, ih.mpr h2⟩

theorem makeLin_ok {vol : Bool} {pos : List Val} {kw : Kw} {v : Val} : makeLin parse vol pos kw = .ok v ↔
    ∃ ch rest items ps a nc, assign (some "choices") pos kw = .ok (ch, rest) ∧ Items ch items ∧
      List.Forall₂ (fun x p => ∃ w, Items x [w, p.2] ∧ StoredAs parse w p.1) items ps ∧ (∀ p ∈ ps, IsFunction p.2) ∧
      base parse vol rest = .ok (a, nc) ∧ v = .lin vol (ps.map Prod.fst) (ps.map Prod.snd) a nc := by
  unfold makeLin
  simp only [bind_ok_iff (β := Val), Prod.exists, iter_ok, mapM_forall2, pair_ok]
  constructor
  · rintro ⟨ch, rest, h1, items, h2, ps, h3, u, h4, a, nc, h5, h6⟩
    cases h6
    exact ⟨ch, rest, items, ps, a, nc, h1, h2, h3, fun p hp => keyOf_ok.mp (forM_ok.mp h4 p hp), h5, rfl⟩
  · rintro ⟨ch, rest, items, ps, a, nc, h1, h2, h3, h4, h5, rfl⟩
    exact ⟨ch, rest, h1, items, h2, ps, h3, (), forM_ok.mpr fun p hp => keyOf_ok.mpr (h4 p hp), a, nc, h5, rfl⟩

/-- **C86** (linear combinations): a linear combination is made exactly from pairs of weights and
scattering functions, whatever their number. -/
theorem C86_lin_accepts {vol : Bool} {pos : List Val} {kw : Kw} (hnd : (kw.map Prod.fst).Nodup) :
    (∃ v, makeLin parse vol pos kw = .ok v) ↔ AcceptsLin parse pos kw := by
  have hang : AngleOK parse (kw.filter fun q => decide (some "choices" ≠ some q.1)) ↔ AngleOK parse kw := by
    unfold AngleOK
    simp only [rest_iff (own := some "choices") (n := "a") (by simp)]
  have hnd' := nodup_filter hnd fun q => decide (some "choices" ≠ some q.1)
  constructor
  · rintro ⟨v, h⟩
    obtain ⟨ch, rest, items, ps, a, nc, h1, h2, h3, h4, h5, -⟩ := makeLin_ok.mp h
    obtain ⟨f1, f2, rfl, f3⟩ := (assign_ok hnd).mp h1
    obtain ⟨b1, ⟨l, b2⟩, b3⟩ := (base_ok hnd').mp h5
    refine ⟨⟨rest_known.mp b1, f1, f2⟩, hang.mp ((angle_iff hnd').mp ⟨a, l, b2⟩), ?_⟩
    rcases f3 with ⟨n, en, ha⟩ | ⟨rfl, -⟩
    · cases en
      refine ⟨ch, items, ha, h2, fun x hx => ?_⟩
      clear h h1 h2
      induction h3 with
      | nil => simp at hx
      | cons g1 g2 ih =>
        rcases List.mem_cons.mp hx with rfl | hx
        · obtain ⟨w, w1, w2⟩ := g1
          exact ⟨w, _, w1, w2.readable, h4 _ (by simp)⟩
        · exact ih (fun p hp => h4 p (by simp [hp])) hx
    · cases h2
  · intro h
    obtain ⟨a, l, ha⟩ := (angle_iff (vol := vol) hnd').mpr (hang.mpr h.a)
    obtain ⟨nc, hnc⟩ : ∃ nc, ("ncoefs", nc) ∈ kw.filter (fun q => decide (some "choices" ≠ some q.1)) ∨
        nc = Val.none ∧ ∀ v, ("ncoefs", v) ∉ kw.filter (fun q => decide (some "choices" ≠ some q.1)) := by
      by_cases hn : ∃ v, ("ncoefs", v) ∈ kw.filter (fun q => decide (some "choices" ≠ some q.1))
      · obtain ⟨v, hv⟩ := hn; exact ⟨v, .inl hv⟩
      · exact ⟨.none, .inr ⟨rfl, fun v hv => hn ⟨v, hv⟩⟩⟩
    have hb := (base_ok (parse := parse) (vol := vol) hnd').mpr ⟨rest_known.mpr h.call.known, ⟨l, ha⟩, hnc⟩
    obtain ⟨ch, items, c1, c2, c3⟩ := h.choices
    obtain ⟨ps, p1, p2⟩ : ∃ ps : List (Val × Val),
        List.Forall₂ (fun x p => ∃ w, Items x [w, p.2] ∧ StoredAs parse w p.1) items ps ∧ ∀ p ∈ ps, IsFunction p.2 := by
      clear c2
      induction items with
      | nil => exact ⟨[], .nil, by simp⟩
      | cons x items ih =>
        obtain ⟨ps, q1, q2⟩ := ih fun y hy => c3 y (by simp [hy])
        obtain ⟨w, o, w1, w2, w3⟩ := c3 x (by simp)
        obtain ⟨u, hu⟩ := w2.parsed
        exact ⟨(u, o) :: ps, .cons ⟨w, w1, hu⟩ q1, by simpa [w3] using q2⟩
    exact ⟨_, makeLin_ok.mpr ⟨ch, _, items, ps, a, nc, (assign_ok hnd).mpr ⟨h.call.few, h.call.once, rfl,
      .inl ⟨"choices", rfl, c1⟩⟩, c2, p1, p2, hb, rfl⟩⟩

theorem toA3_noseq {a : List Val} {A : A3} (h : toA3 a = some A) : ∀ l, Val.seq l ∉ a := by
  match a, h with
  | [x, y, z], h =>
    intro l hl
    simp only [List.mem_cons, List.not_mem_nil, or_false] at hl
    rcases hl with rfl | rfl | rfl <;> simp [toA3, Val.toExpr] at h

theorem toScatter_function {v : Val} {s : Scatter} (h : v.toScatter = some s) : IsFunction v := by
  cases v with
  | prim c a nc p =>
    cases hA : toA3 a with
    | none => cases hk : c.toKind p <;> simp [Val.toScatter, hA, hk] at h
    | some A => exact ⟨a, .inl ⟨c, nc, p, rfl⟩, toA3_noseq hA⟩
  | lin vol ws os a nc =>
    cases hA : toA3 a with
    | none =>
      cases hw : ws.mapM Val.toExpr <;> cases ho : toScatters os <;> simp [Val.toScatter, hA, hw, ho] at h
    | some A => exact ⟨a, .inr ⟨vol, ws, os, nc, rfl⟩, toA3_noseq hA⟩
  | _ => simp [Val.toScatter] at h

theorem toScatters_of {os : List Val} {ss : List Scatter} (h : List.Forall₂ (fun o s => Val.toScatter o = some s) os ss) :
    toScatters os = some ss := by
  induction h with
  | nil => rfl
  | cons h1 _ ih => simp [toScatters, h1, ih]

/-- **C86** (value of linear combinations): the combination of weights (numbers or strings) and functions
that were constructed before, combinations among them, evaluates to the weighted sum of their values. -/
theorem C86_lin_value {vol : Bool} {ws os : List Val} {ss : List Scatter} {x : Dirs} {cs : List ℝ}
    (hw : List.Forall₂ (Val.Stands parse x.env) ws cs) (ho : List.Forall₂ (fun o s => Val.toScatter o = some s) os ss)
    (hlen : ws.length = os.length) :
    ∃ v s, makeLin parse vol [.seq (List.zipWith (fun w o => .seq [w, o]) ws os)] [] = .ok v ∧ v.toScatter = some s ∧
      ∀ r vs, List.Forall₂ (fun o v => Scatter.Returns o x (XR.fin v)) ss vs → s.Returns x r →
        r = XR.fin (List.zipWith (· * ·) cs vs).sum := by
  obtain ⟨us, es, h1, h2, h3⟩ : ∃ us es, List.Forall₂ (StoredAs parse) ws us ∧ us.mapM Val.toExpr = some es ∧
      List.Forall₂ (fun e c => e.Is x.env c) es cs := by
    clear hlen ho
    induction hw with
    | nil => exact ⟨[], [], .nil, rfl, .nil⟩
    | cons g1 _ ih =>
      obtain ⟨us, es, h1, h2, h3⟩ := ih
      obtain ⟨-, u, e, u1, u2, u3⟩ := g1.parsed
      exact ⟨u :: us, e :: es, .cons u1 h1, by simp [u2, h2], .cons u3 h3⟩
  have hpairs : List.Forall₂ (fun x (p : Val × Val) => ∃ w, Items x [w, p.2] ∧ StoredAs parse w p.1)
      (List.zipWith (fun w o => Val.seq [w, o]) ws os) (us.zip os) := by
    clear hw h2 h3 ho
    induction h1 generalizing os with
    | nil => exact .nil
    | cons g1 _ ih =>
      cases os with
      | nil => simp at hlen
      | cons o os => exact .cons ⟨_, .seq _, g1⟩ (ih (by simpa using hlen))
  have hfun : ∀ p ∈ us.zip os, IsFunction p.2 := by
    rintro ⟨u, o⟩ hp
    have := (List.of_mem_zip hp).2
    clear hp hpairs hlen
    induction ho with
    | nil => simp at this
    | cons g1 _ ih =>
      rcases List.mem_cons.mp this with rfl | h
      · exact toScatter_function g1
      · exact ih h
  have hl : us.length = os.length := by rw [← h1.length_eq, hlen]
  refine ⟨_, .lin es ss ⟨.num (if vol then -1 else 1), .num 1, .num 1⟩, makeLin_ok.mpr ⟨_, _, _, us.zip os,
    [.real (if vol then -1 else 1), .real 1, .real 1], .none, rfl, .seq _, hpairs, hfun, ?_, rfl⟩, ?_, fun r vs hv hr => ?_⟩
  · exact (base_ok (by simp)).mpr ⟨by simp, ⟨_, .inl ⟨.inl (by simp), rfl⟩, rfl,
      .cons (.keep (by simp)) (.cons (.keep (by simp)) (.cons (.keep (by simp)) .nil))⟩, .inr ⟨rfl, by simp⟩⟩
  · rw [List.map_fst_zip hl.le, List.map_snd_zip hl.ge]
    simp [Val.toScatter, h2, toScatters_of ho, toA3, Val.toExpr]
  · exact C46_weighted_sum hr h3 hv

/-! ### What is not checked -/

/-- A parser for the examples: every string is the name of a parameter. -/
def asSymbol (s : String) : Py Expr := .ok (.sym s)

/-- `HenyeyGreenstein(t="t", ncoefs=10, a=[-1, "b", 1.0])`. -/
example (x : Dirs) : Documented asSymbol x.env .volHG [] [("t", .text "t"), ("ncoefs", .int 10),
    ("a", .seq [.int (-1), .text "b", .real 1])] (-1) (x.ρ "b") 1 (x.ρ "t") 0 (some 10) := by
  have hs : ∀ s, s ≠ "theta_0" → s ≠ "theta_ex" → s ≠ "phi_0" → s ≠ "phi_ex" → Val.Stands asSymbol x.env (.text s) (x.ρ s) :=
    fun s h1 h2 h3 h4 => .text rfl ⟨trivial, by simp [Expr.evalR, Dirs.env, h1, h2, h3, h4]⟩
  refine ⟨⟨by simp [Cls.own], .inl rfl, by simp⟩, fun _ => ⟨.text "t", .inl (by simp), hs _ ?_ ?_ ?_ ?_⟩, by simp [Cls.own],
    .inr ⟨_, _, _, List.mem_cons_of_mem _ (List.mem_cons_of_mem _ List.mem_cons_self), by simpa using Val.Stands.int (-1), hs _ ?_ ?_ ?_ ?_, .real 1⟩, .inr ⟨10, by simp, rfl⟩⟩
    <;> simp

/-- `CosineLobe(5, ncoefs=10)`; a missing power, the power -1 and 2.0 are refused. -/
example : Accepts asSymbol .srfCosineLobe [.int 5] [("ncoefs", .int 10)] ∧
    ¬ Accepts asSymbol .srfCosineLobe [] [("ncoefs", .int 10)] ∧
    ¬ Accepts asSymbol .srfCosineLobe [.int (-1)] [] ∧ ¬ Accepts asSymbol .srfCosineLobe [.real 2] [] := by
  refine ⟨⟨⟨by simp, .inr ⟨_, rfl, by simp [Cls.own]⟩, by simp [Cls.own]⟩, by intro v hv; simp at hv, by simp [Cls.own],
    fun _ => ⟨.int 5, .inr ⟨rfl, rfl⟩, .inl ⟨5, rfl⟩⟩⟩, fun h => ?_, fun h => ?_, fun h => ?_⟩
  · obtain ⟨v, h1 | h1, -⟩ := h.i rfl <;> simp at h1
  · obtain ⟨v, h1 | h1, h2⟩ := h.i rfl
    · simp at h1
    · obtain rfl : Val.int (-1) = v := by simpa using h1.2
      rcases h2 with ⟨n, h2⟩ | ⟨b, h2⟩
      · have := Val.int.inj h2; omega
      · cases h2
  · obtain ⟨v, h1 | h1, h2⟩ := h.i rfl
    · simp at h1
    · obtain rfl : Val.real 2 = v := by simpa using h1.2
      rcases h2 with ⟨n, h2⟩ | ⟨b, h2⟩ <;> cases h2

/-- Both kinds of exceptions: `HenyeyGreenstein(ncoefs=10)` and `Isotropic(t=1)`, `Isotropic(a=1.5)`. -/
example : make parse .volHG [] [("ncoefs", .int 10)] = .error .assertionError ∧
    make parse .volIsotropic [] [("t", .int 1)] = .error (.typeError []) ∧ ¬ Fitting Cls.volIsotropic.own [] [("t", .int 1)] ∧
    make parse .volIsotropic [] [("a", .real (3 / 2))] = .error (.typeError []) :=
  ⟨rfl, rfl, fun h => by simpa [Cls.own] using h.known ("t", .int 1) (by simp), rfl⟩

/-- `LinComb([("x", Isotropic()), (0.5, LinComb([(2, Isotropic())]))])`. -/
example (x : Dirs) : ∃ os ss, List.Forall₂ (fun o s => Val.toScatter o = some s) os ss ∧
    List.Forall₂ (Val.Stands asSymbol x.env) [.text "x", .real (1 / 2)] [x.ρ "x", 1 / 2] ∧ os.length = 2 ∧
    ∃ v, makeLin asSymbol true [.seq (List.zipWith (fun w o => .seq [w, o]) [.text "x", .real (1 / 2)] os)] [] = .ok v := by
  refine ⟨[.prim .volIsotropic [.real (-1), .real 1, .real 1] .none .none,
    .lin true [.int 2] [.prim .volIsotropic [.real (-1), .real 1, .real 1] .none .none] [.real (-1), .real 1, .real 1] .none],
    [_, _], .cons (by simp [Val.toScatter, toScatters, Cls.toKind, Val.toExpr, toA3]; rfl)
      (.cons (by simp [Val.toScatter, toScatters, Cls.toKind, Val.toExpr, toA3]; rfl) .nil),
    .cons (.text rfl ⟨trivial, by simp [Expr.evalR, Dirs.env]⟩) (.cons (.real _) .nil), rfl, _, rfl⟩

/-- **C86** (the documented range `-1 < t < 1` is not checked): `HenyeyGreenstein(2, ncoefs=10)` is
accepted and every value it returns is negative. -/
theorem C86_range_counterexample (x : Dirs) : ∃ v s, make parse .volHG [.int 2] [("ncoefs", .int 10)] = .ok v ∧
    v.toScatter = some s ∧ (∃ r, s.Returns x r) ∧ ∀ r, s.Returns x r → ∃ y < 0, r = .fin y := by
  refine ⟨.prim .volHG [.real (-1), .real 1, .real 1] (.int 10) (.int 2),
    .prim (.volHG (.num 2)) ⟨.num (-1), .num 1, .num 1⟩ (some 10), rfl, ?_, ⟨_, Scatter.returns_of x [] ?_⟩, fun r hr => ?_⟩
  · simp [Val.toScatter, Cls.toKind, Val.toExpr, toA3, Val.toNat]
  · intro n hn
    simp [Scatter.phase, Scatter.primPhase, Scatter.hgExpr, Scatter.angleExpr, Expr.free] at hn
    simp only [List.mem_append, List.mem_cons, List.not_mem_nil, or_false]
    tauto
  · have hb : |x.cosTheta (-1) 1 1| ≤ 1 := Phase.cosTheta_abs_le (by simp) (by simp) (by simp) _ _ _ _
    have hb := (abs_le.mp hb).2
    have hpos : (0 : ℝ) < 1 + 2 ^ 2 - 2 * 2 * x.cosTheta (-1) 1 1 := by linarith
    refine ⟨_, ?_, hr.prim (t := 2) ⟨⟨trivial, rfl⟩, ⟨trivial, rfl⟩, ⟨trivial, rfl⟩⟩ ⟨trivial, rfl⟩ hpos trivial⟩
    simp only [Kind.val, Phase.hg]
    have := Real.rpow_pos_of_pos hpos (3 / 2 : ℝ)
    refine mul_neg_of_pos_of_neg (by positivity) (div_neg_of_neg_of_pos (by norm_num) this)

/-- **C86** (the number of coefficients is not checked): `Rayleigh`-like functions aside, `ncoefs=0` is
accepted, and the expansion of the function raises AssertionError. -/
theorem C86_ncoefs_counterexample {R : Type} [CommRing R] [Algebra ℝ R] (emb : Expr → R) (t0 tex p0 pex : Scatter.Trig R) :
    ∃ v s, make parse .srfHG [.real (1 / 2)] [("ncoefs", .int 0)] = .ok v ∧ v.toScatter = some s ∧
      Scatter.legExpansion emb t0 tex p0 pex s = .error .assertionError := by
  refine ⟨.prim .srfHG [.real 1, .real 1, .real 1] (.int 0) (.real (1 / 2)),
    .prim (.srfHG (.num (1 / 2))) ⟨.num 1, .num 1, .num 1⟩ (some 0), rfl, ?_, rfl⟩
  simp [Val.toScatter, Cls.toKind, Val.toExpr, toA3, Val.toNat]

/-- **C86** (surface and volume functions are not told apart): `volume.LinComb` accepts surface functions,
keeps the values, and ignores the number of coefficients the user asks for. -/
theorem C86_mixed_counterexample : ∃ f g v s, make parse .srfIsotropic [] [] = .ok f ∧ make parse .volIsotropic [] [] = .ok g ∧
    makeLin parse true [.seq [.seq [.real 1, f], .seq [.real 1, g]]] [("ncoefs", .int 20)] = .ok v ∧ v.toScatter = some s ∧
    s.ncoefs = .ok 1 := by
  refine ⟨_, _, _, .lin [.num 1, .num 1] [.prim .srfIsotropic ⟨.num 1, .num 1, .num 1⟩ none,
    .prim .volIsotropic ⟨.num (-1), .num 1, .num 1⟩ none] ⟨.num (-1), .num 1, .num 1⟩, rfl, rfl, rfl, ?_, rfl⟩
  simp [Val.toScatter, toScatters, Cls.toKind, Val.toExpr, toA3, Cls.vol]

end

end RT1
