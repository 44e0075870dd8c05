import Verif.Lemmas.OrderSwap
import Verif.Props.Remembered

/-!
# The order of settings (C84)
-/

namespace RT1

noncomputable section
open Classical

/-! ### keywords -/

theorem Forall₂.get {α β : Type} {R : α → β → Prop} {l : List α} {l' : List β} (h : List.Forall₂ R l l') (i : ℕ) :
    (l[i]? = none ∧ l'[i]? = none) ∨ ∃ a b, l[i]? = some a ∧ l'[i]? = some b ∧ R a b := by
  induction h generalizing i with
  | nil => exact Or.inl ⟨rfl, rfl⟩
  | cons hr _ ih =>
    cases i with
    | zero => exact Or.inr ⟨_, _, rfl, rfl, hr⟩
    | succ i => simpa using ih i

theorem Forall₂.set {α β : Type} {R : α → β → Prop} {l : List α} {l' : List β} (h : List.Forall₂ R l l') (i : ℕ) {a : α} {b : β}
    (hr : R a b) : List.Forall₂ R (l.set i a) (l'.set i b) := by
  induction h generalizing i with
  | nil => exact .nil
  | cons hr' ht ih =>
    cases i with
    | zero => exact .cons hr ht
    | succ i => exact .cons hr' (ih i)

theorem Records.act_other {b : Backend} {ks : Records} {x : Op} (hc : ¬ x.creates) :
    Records.act b ks x = match x.on with
    | none => (.error .attributeError, ks)
    | some id =>
      match ks[id]? with
      | none => (.error .attributeError, ks)
      | some k => ((k.act b x).1, ks.set id (k.act b x).2) := by
  cases x <;> first | exact absurd trivial hc | rfl

theorem Op.Alike.creates {x y : Op} (h : x.Alike y) : x.creates ↔ y.creates := by
  cases h <;> rfl

theorem alike_step {b : Backend} {ks ks' : List Remembered} (h : List.Forall₂ Remembered.Same ks ks') {x y : Op} (ha : x.Alike y)
    (hj : x.OwnJac) (hs : x.NotSupplied) :
    (Remembered.step b ks x).1 = (Remembered.step b ks' y).1 ∧
      List.Forall₂ Remembered.Same (Remembered.step b ks x).2 (Remembered.step b ks' y).2 := by
  by_cases hc : x.creates
  · cases ha with
    | refl _ =>
      cases x <;> try exact hc.elim
      case new V SRF q s d f fe i =>
        refine ⟨?_, ?_⟩
        · show Except.ok (Answer.obj _) = Except.ok (Answer.obj _)
          rw [h.length_eq]
        · refine List.rel_append h (.cons ⟨⟨_, rfl, Dict.Same.refl ?_⟩, trivial, hs⟩ .nil)
          show (["bsf"] : List String).Nodup
          simp
      case pickle i =>
        rcases Forall₂.get h i with ⟨h1, h2⟩ | ⟨k, k', h1, h2, hr⟩
        · simp only [Remembered.step, h1, h2]
          exact ⟨trivial, h⟩
        · have hk : Remembered.Same { k with settings := { k.settings with analyze := false } }
              { k' with settings := { k'.settings with analyze := false } } := by
            obtain ⟨d, hd, hdd⟩ := hr.settings
            exact ⟨⟨d, by rw [hd], hdd⟩, hr.names, hr.supplied⟩
          simp only [Remembered.step, h1, h2]
          refine ⟨by rw [h.length_eq], List.rel_append (Forall₂.set h i hk) (.cons hk .nil)⟩
    | _ => exact hc.elim
  · rw [Remembered.step_other hc, Remembered.step_other (fun h => hc (ha.creates.2 h)), ← ha.on]
    cases x.on with
    | none => exact ⟨rfl, h⟩
    | some i =>
      rcases Forall₂.get h i with ⟨h1, h2⟩ | ⟨k, k', h1, h2, hr⟩
      · simp only [h1, h2]
        exact ⟨trivial, h⟩
      · simp only [h1, h2]
        have := hr.act (b := b) ha hj
        exact ⟨this.1, Forall₂.set h i this.2⟩

/-- The other half of the hypotheses. -/
theorem Op.Alike.plain {x y : Op} (h : x.Alike y) (hx : x.Plain) : y.Plain := by
  cases h <;> exact hx

theorem Op.Alike.ownJac {x y : Op} (h : x.Alike y) (hx : x.OwnJac) : y.OwnJac := by
  cases h <;> exact hx

theorem Op.Alike.keeps {x y : Op} (h : x.Alike y) (hx : x.Keeps) : y.Keeps := by
  cases h <;> exact hx

theorem Op.Alike.noInt {x y : Op} (h : x.Alike y) (hx : x.NoInt) : y.NoInt := by
  cases h <;> exact hx

theorem alike_sound {l l' : List Op} (h : List.Forall₂ Op.Alike l l') : ∀ {n : ℕ}, Sound n l → Sound n l' := by
  induction h with
  | nil => intro n hs; exact hs
  | @cons x y l l' ha _ ih =>
    intro n hs
    cases ha with
    | refl _ =>
      cases x <;> first | exact ih hs | exact ⟨hs.1, ih hs.2⟩
    | _ => exact ⟨hs.1, ih hs.2⟩

theorem alike_all {P : Op → Prop} (hP : ∀ {x y : Op}, x.Alike y → P x → P y) {l l' : List Op}
    (h : List.Forall₂ Op.Alike l l') (hl : ∀ x ∈ l, P x) : ∀ x ∈ l', P x := by
  induction h with
  | nil => exact hl
  | cons ha _ ih =>
    intro z hz
    rcases List.mem_cons.1 hz with rfl | hz
    · exact hP ha (hl _ (by simp))
    · exact ih (fun x hx => hl x (by simp [hx])) z hz

/-- **C84**: in a program without coefficients supplied by the user the order of the keywords of `update_params`, `calc`,
`surface`, `volume` and `interaction` does not matter: with the keywords of any number of its calls in another order the
program returns the same, call by call: arrays, exceptions, object numbers. -/
theorem C84_keywords {b : Backend} {ops ops' : List Op} (ha : List.Forall₂ Op.Alike ops ops') (hk : ∀ x ∈ ops, x.Plain)
    (hj : ∀ x ∈ ops, x.OwnJac) (hf : ∀ x ∈ ops, x.NotSupplied) (hs : Sound 0 ops) :
    trace (initWorld b) ops = trace (initWorld b) ops' := by
  rw [C82_trace_interaction hk hj hs, C82_trace_interaction (alike_all Op.Alike.plain ha hk) (alike_all Op.Alike.ownJac ha hj)
    (alike_sound ha hs)]
  clear hs hk
  have key : ∀ {l l' : List Op}, List.Forall₂ Op.Alike l l' → ∀ ks ks', List.Forall₂ Remembered.Same ks ks' →
      (∀ x ∈ l, x.OwnJac) → (∀ x ∈ l, x.NotSupplied) → Remembered.trace b ks l = Remembered.trace b ks' l' := by
    intro l l' h
    induction h with
    | nil => intros; rfl
    | cons ha _ ih =>
      intro ks ks' h hj hf
      have := alike_step (b := b) h ha (hj _ (by simp)) (hf _ (by simp))
      unfold Remembered.trace
      rw [this.1, ih _ _ this.2 (fun x hx => hj x (by simp [hx])) (fun x hx => hf x (by simp [hx]))]
  exact key ha [] [] .nil hj hf

theorem alike_act {b : Backend} {ks ks' : Records} (h : List.Forall₂ Record.Same ks ks') (hq : ∀ r ∈ ks, r.intQ = false) {x y : Op}
    (ha : x.Alike y) (hj : x.OwnJac) (hn : x.NoInt) :
    (Records.act b ks x).1 = (Records.act b ks' y).1 ∧ List.Forall₂ Record.Same (Records.act b ks x).2 (Records.act b ks' y).2 := by
  by_cases hc : x.creates
  · cases ha with
    | refl _ =>
      cases x <;> try exact hc.elim
      case new V SRF q s d f fe i =>
        refine ⟨?_, ?_⟩
        · show Except.ok (Answer.obj _) = Except.ok (Answer.obj _)
          rw [h.length_eq]
        · refine List.rel_append h (.cons ⟨_, rfl, Dict.Same.refl ?_⟩ .nil)
          show (["bsf"] : List String).Nodup
          simp
      case pickle i =>
        rcases Forall₂.get h i with ⟨h1, h2⟩ | ⟨k, k', h1, h2, hr⟩
        · simp only [Records.act, h1, h2]
          exact ⟨trivial, h⟩
        · have hk : Record.Same { k with analyze := false } { k' with analyze := false } := by
            obtain ⟨d, hd, hdd⟩ := hr
            exact ⟨d, by rw [hd], hdd⟩
          simp only [Records.act, h1, h2]
          refine ⟨by rw [h.length_eq], List.rel_append (Forall₂.set h i hk) (.cons hk .nil)⟩
    | _ => exact hc.elim
  · rw [Records.act_other hc, Records.act_other (fun h => hc (ha.creates.2 h)), ← ha.on]
    cases x.on with
    | none => exact ⟨rfl, h⟩
    | some i =>
      rcases Forall₂.get h i with ⟨h1, h2⟩ | ⟨k, k', h1, h2, hr⟩
      · simp only [h1, h2]
        exact ⟨trivial, h⟩
      · simp only [h1, h2]
        refine ⟨hr.actA ha hj ?_ ?_, Forall₂.set h i (hr.actS ha)⟩
        · rintro i kw rfl; exact hn
        · rintro i kw rfl; exact hq k (List.mem_of_getElem? h1)

/-- **C84**, surface and volume contribution: without interaction term the order of the keywords never matters, whatever is
supplied and however V and SRF are assigned. -/
theorem C84_keywords_first_order {b : Backend} {ops ops' : List Op} (ha : List.Forall₂ Op.Alike ops ops') (hk : ∀ x ∈ ops, x.Keeps)
    (hn : ∀ x ∈ ops, x.NoInt) (hj : ∀ x ∈ ops, x.OwnJac) (hs : Sound 0 ops) :
    trace (initWorld b) ops = trace (initWorld b) ops' := by
  rw [C82_trace hk hn hj hs, C82_trace (alike_all Op.Alike.keeps ha hk) (alike_all Op.Alike.noInt ha hn)
    (alike_all Op.Alike.ownJac ha hj) (alike_sound ha hs)]
  have key : ∀ {l l' : List Op}, List.Forall₂ Op.Alike l l' → ∀ ks ks', List.Forall₂ Record.Same ks ks' → (∀ r ∈ ks, r.intQ = false) →
      Sound ks.length l →
      (∀ x ∈ l, x.OwnJac) → (∀ x ∈ l, x.NoInt) → Records.trace b ks l = Records.trace b ks' l' := by
    intro l l' h
    induction h with
    | nil => intros; rfl
    | cons ha _ ih =>
      intro ks ks' h hq hs hj hf
      have := alike_act (b := b) h hq ha (hj _ (by simp)) (hf _ (by simp))
      obtain ⟨s1, s2⟩ := Sound.cons (b := b) hs
      unfold Records.trace
      rw [this.1, ih _ _ this.2 (Records.act_noInt hq (hf _ (by simp)) s1) s2 (fun x hx => hj x (by simp [hx]))
        (fun x hx => hf x (by simp [hx]))]
  exact key ha [] [] .nil (by simp) hs hj hn

/-! ### settings -/

/-- The records after a program. -/
def Remembered.run (b : Backend) (ks : List Remembered) (ops : List Op) : List Remembered :=
  ops.foldl (fun ks op => (Remembered.step b ks op).2) ks

theorem Remembered.trace_append (b : Backend) (l m : List Op) : ∀ ks : List Remembered,
    Remembered.trace b ks (l ++ m) = Remembered.trace b ks l ++ Remembered.trace b (Remembered.run b ks l) m := by
  induction l with
  | nil => intro ks; rfl
  | cons x l ih =>
    intro ks
    show (Remembered.step b ks x).1 :: Remembered.trace b (Remembered.step b ks x).2 (l ++ m) = (Remembered.step b ks x).1 ::
      (Remembered.trace b (Remembered.step b ks x).2 l ++ Remembered.trace b (Remembered.run b (Remembered.step b ks x).2 l) m)
    rw [ih]

theorem Remembered.trace_length (b : Backend) (l : List Op) : ∀ ks : List Remembered, (Remembered.trace b ks l).length = l.length := by
  induction l with
  | nil => intro ks; rfl
  | cons x l ih => intro ks; exact congrArg (· + 1) (ih _)

theorem KnowBsf.step {b : Backend} {ks : List Remembered} (h : KnowBsf ks) (x : Op) : KnowBsf (Remembered.step b ks x).2 := by
  by_cases hc : x.creates
  · cases x <;> try exact hc.elim
    case new V SRF q s d f fe i =>
      intro k hk
      rcases List.mem_append.1 (show k ∈ ks ++ _ from hk) with hk | hk
      · exact h k hk
      · rw [List.mem_singleton.1 hk]
        show "bsf" ∈ ["bsf"]
        simp
    case pickle i =>
      cases hg : ks[i]? with
      | none => simp only [Remembered.step, hg]; exact h
      | some k0 =>
        have h0 := h k0 (List.mem_of_getElem? hg)
        simp only [Remembered.step, hg]
        intro k hk
        rcases List.mem_append.1 hk with hk | hk
        · rcases List.mem_or_eq_of_mem_set hk with hk | rfl
          · exact h k hk
          · exact h0
        · rw [List.mem_singleton.1 hk]; exact h0
  · rw [Remembered.step_other hc]
    cases x.on with
    | none => exact h
    | some i =>
      cases hg : ks[i]? with
      | none => simp only [hg]; exact h
      | some k0 =>
        have h0 := h k0 (List.mem_of_getElem? hg)
        simp only [hg]
        intro k hk
        rcases List.mem_or_eq_of_mem_set hk with hk | rfl
        · exact h k hk
        · rw [Remembered.act_settings]
          exact (Record.act_kept b k0.settings x).2.subset h0

theorem KnowBsf.run {b : Backend} (l : List Op) : ∀ {ks : List Remembered}, KnowBsf ks → KnowBsf (Remembered.run b ks l) := by
  induction l with
  | nil => intro ks h; exact h
  | cons x l ih => intro ks h; exact ih (h.step x)

/-- Setters of different settings: their answers and their effect. -/
theorem setters_answers {b : Backend} {xs : List Op} : ∀ {ks : List Remembered}, KnowBsf ks → (∀ x ∈ xs, x.part ≠ none) →
    xs.Pairwise (fun x y => x.part ≠ y.part) → Remembered.trace b ks xs = xs.map fun x => (Remembered.step b ks x).1 := by
  induction xs with
  | nil => intros; rfl
  | cons x xs ih =>
    intro ks h hx hp
    rw [List.pairwise_cons] at hp
    show (Remembered.step b ks x).1 :: Remembered.trace b (Remembered.step b ks x).2 xs = (Remembered.step b ks x).1 ::
      xs.map fun x => (Remembered.step b ks x).1
    rw [ih (h.step x) (fun y hy => hx y (by simp [hy])) hp.2]
    congr 1
    refine List.map_congr_left fun y hy => ?_
    exact (step_swap h (hx x (by simp)) (hx y (by simp [hy])) (hp.1 y hy)).1

theorem setters_run {b : Backend} {xs ys : List Op} (hp : xs.Perm ys) : ∀ {ks : List Remembered}, KnowBsf ks →
    (∀ x ∈ xs, x.part ≠ none) → xs.Pairwise (fun x y => x.part ≠ y.part) → Remembered.run b ks xs = Remembered.run b ks ys := by
  induction hp with
  | nil => intros; rfl
  | cons x _ ih =>
    intro ks h hx hd
    rw [List.pairwise_cons] at hd
    exact ih (h.step x) (fun y hy => hx y (by simp [hy])) hd.2
  | swap x y l =>
    intro ks h hx hd
    rw [List.pairwise_cons] at hd
    show Remembered.run b (Remembered.step b (Remembered.step b ks y).2 x).2 l = Remembered.run b (Remembered.step b (Remembered.step b ks x).2 y).2 l
    rw [(step_swap h (hx y (by simp)) (hx x (by simp)) (hd.1 x (by simp))).2]
  | trans h1 _ ih1 ih2 =>
    intro ks h hx hd
    rw [ih1 h hx hd]
    exact ih2 h (fun y hy => hx y (h1.symm.subset hy)) ((h1.pairwise_iff fun h => Ne.symm h).1 hd)

theorem Sound.append {l m : List Op} : ∀ {n : ℕ}, Sound n (l ++ m) ↔ Sound n l ∧ Sound (n + l.countP fun x => decide x.creates) m := by
  induction l with
  | nil => intro n; simp [Sound]
  | cons x l ih =>
    intro n
    cases x
    case new => 
      show Sound (n + 1) (l ++ m) ↔ Sound (n + 1) l ∧ _
      rw [ih, List.countP_cons, if_pos (by rw [decide_eq_true_iff]; exact trivial)]
      rw [show n + 1 + List.countP _ l = n + (List.countP _ l + 1) by ring]
    case pickle i =>
      show i < n ∧ Sound (n + 1) (l ++ m) ↔ (i < n ∧ Sound (n + 1) l) ∧ _
      rw [ih, List.countP_cons, if_pos (by rw [decide_eq_true_iff]; exact trivial)]
      rw [show n + 1 + List.countP _ l = n + (List.countP _ l + 1) by ring, and_assoc]
    all_goals
      show _ ∧ Sound n (l ++ m) ↔ (_ ∧ Sound n l) ∧ _
      rw [ih, List.countP_cons, if_neg (by rw [decide_eq_true_iff]; exact id), Nat.add_zero, and_assoc]

theorem Sound.setters {xs : List Op} {n : ℕ} (hx : ∀ x ∈ xs, x.part ≠ none) :
    Sound n xs ↔ ∀ x ∈ xs, ∀ id, x.on = some id → id < n := by
  induction xs with
  | nil => simp [Sound]
  | cons x xs ih =>
    have h1 := hx x (by simp)
    have h2 : Sound n (x :: xs) ↔ (∀ id, x.on = some id → id < n) ∧ Sound n xs := by
      cases x <;> first | rfl | exact absurd rfl h1
    rw [h2, ih fun y hy => hx y (by simp [hy])]
    simp

theorem creates_setters {xs : List Op} (hx : ∀ x ∈ xs, x.part ≠ none) : (xs.countP fun x => decide x.creates) = 0 := by
  rw [List.countP_eq_zero]
  intro x h
  obtain ⟨⟨i, P⟩, hp⟩ := Option.ne_none_iff_exists'.1 (hx x h)
  rw [decide_eq_true_iff]
  exact (Op.part_on hp).2

theorem setter_plain {x : Op} (hx : x.part ≠ none) : x.Plain ∧ x.OwnJac := by
  cases x <;> first | exact ⟨trivial, trivial⟩ | exact absurd rfl hx

/-- **C84**: setters of different settings may be called in any order.  `xs` are calls of setters, no two of them for the same
setting of the same object (geometry, parameter values, definition of one of the parameters, int_Q, sig0, dB, I0).  If they
are called in another order then each of them returns the same as before (also exceptions), and so does everything that is
called afterwards, with or without interaction term, also with coefficients supplied by the user. -/
theorem C84_settings {b : Backend} {pre xs ys post : List Op} (hx : ∀ x ∈ xs, x.part ≠ none)
    (hd : xs.Pairwise fun x y => x.part ≠ y.part) (hp : xs.Perm ys) (hk : ∀ x ∈ pre ++ post, x.Plain)
    (hj : ∀ x ∈ pre ++ post, x.OwnJac) (hs : Sound 0 (pre ++ xs ++ post)) :
    ∃ (A C : List (Py Answer)) (f : Op → Py Answer), A.length = pre.length ∧
      trace (initWorld b) (pre ++ xs ++ post) = A ++ xs.map f ++ C ∧
      trace (initWorld b) (pre ++ ys ++ post) = A ++ ys.map f ++ C := by
  have hy : ∀ y ∈ ys, y.part ≠ none := fun y h => hx y (hp.symm.subset h)
  have hd' : ys.Pairwise fun x y => x.part ≠ y.part := (hp.pairwise_iff fun h => Ne.symm h).1 hd
  have hs' : Sound 0 (pre ++ ys ++ post) := by
    rw [Sound.append, Sound.append, Sound.setters hx] at hs
    rw [Sound.append, Sound.append, Sound.setters hy]
    refine ⟨⟨hs.1.1, fun y h => hs.1.2 y (hp.symm.subset h)⟩, ?_⟩
    rw [List.countP_append, creates_setters hy]
    rw [List.countP_append, creates_setters hx] at hs
    exact hs.2
  have all : ∀ {P : Op → Prop} {zs : List Op}, (∀ x ∈ pre ++ post, P x) → (∀ x ∈ zs, P x) → ∀ x ∈ pre ++ zs ++ post, P x := by
    intro P zs h1 h2 x h
    simp only [List.mem_append] at h h1
    rcases h with (h | h) | h
    · exact h1 x (.inl h)
    · exact h2 x h
    · exact h1 x (.inr h)
  rw [C82_trace_interaction (all hk fun x h => (setter_plain (hx x h)).1) (all hj fun x h => (setter_plain (hx x h)).2) hs,
    C82_trace_interaction (all hk fun x h => (setter_plain (hy x h)).1) (all hj fun x h => (setter_plain (hy x h)).2) hs']
  have h0 : KnowBsf (Remembered.run b [] pre) := KnowBsf.run pre (fun k hk => by cases hk)
  have e : ∀ zs, Remembered.run b [] (pre ++ zs) = Remembered.run b (Remembered.run b [] pre) zs := fun zs => List.foldl_append
  refine ⟨Remembered.trace b [] pre, Remembered.trace b (Remembered.run b [] (pre ++ xs)) post,
    fun x => (Remembered.step b (Remembered.run b [] pre) x).1, Remembered.trace_length _ _ _, ?_, ?_⟩
  · rw [Remembered.trace_append, Remembered.trace_append, setters_answers h0 hx hd]
  · rw [Remembered.trace_append, Remembered.trace_append, setters_answers h0 hy hd', e, e, setters_run hp h0 hx hd]

theorem Remembered.run_length {b : Backend} {l : List Op} : ∀ {ks : List Remembered}, Sound ks.length l →
    (Remembered.run b ks l).length = ks.length + l.countP fun x => decide x.creates := by
  induction l with
  | nil => intro ks _; rfl
  | cons x l ih =>
    intro ks hs
    obtain ⟨h1, h2⟩ := SoundR.cons (b := b) hs
    show (Remembered.run b (Remembered.step b ks x).2 l).length = _
    rw [ih h2, List.countP_cons]
    by_cases hc : x.creates
    · rw [if_pos (decide_eq_true hc)]
      cases x <;> try exact hc.elim
      case new => 
        show (ks ++ [_]).length + _ = _
        simp; ring
      case pickle i =>
        have hg := List.getElem?_eq_getElem (h1 i rfl)
        simp only [Remembered.step, hg]
        simp; ring
    · rw [if_neg (by rw [decide_eq_true_iff]; exact hc), Remembered.step_other hc]
      cases x.on with
      | none => rfl
      | some i =>
        cases hg : ks[i]? with
        | none => simp only [hg]; rfl
        | some k0 => simp only [hg]; simp

/-- **C84**: parameters may be set in one call or one after the other: `update_params(**kw, **kw')` and `update_params(**kw)`
followed by `update_params(**kw')` leave the same state; everything called afterwards returns the same. -/
theorem C84_split {b : Backend} {pre post : List Op} {id : ℕ} {kw kw' : Dict} (hk : ∀ x ∈ pre ++ post, x.Plain)
    (hj : ∀ x ∈ pre ++ post, x.OwnJac) (hs : Sound 0 (pre ++ [.updateParams id (kw ++ kw')] ++ post)) :
    ∃ A C : List (Py Answer), A.length = pre.length ∧
      trace (initWorld b) (pre ++ [.updateParams id (kw ++ kw')] ++ post) = A ++ [.ok .done] ++ C ∧
      trace (initWorld b) (pre ++ [.updateParams id kw, .updateParams id kw'] ++ post) = A ++ [.ok .done, .ok .done] ++ C := by
  have hx : ∀ l, ∀ x ∈ [Op.updateParams id l], x.part ≠ none := by
    intro l x h
    rw [List.mem_singleton.1 h]; simp [Op.part]
  have hy : ∀ x ∈ [Op.updateParams id kw, .updateParams id kw'], x.part ≠ none := by
    intro x h
    simp only [List.mem_cons, List.not_mem_nil, or_false] at h
    rcases h with rfl | rfl <;> simp [Op.part]
  have hs0 := hs
  rw [Sound.append, Sound.append, Sound.setters (hx _)] at hs
  have hid : id < 0 + pre.countP fun x => decide x.creates := hs.1.2 _ (List.mem_singleton.2 rfl) id rfl
  have hs' : Sound 0 (pre ++ [.updateParams id kw, .updateParams id kw'] ++ post) := by
    rw [Sound.append, Sound.append, Sound.setters hy]
    refine ⟨⟨hs.1.1, ?_⟩, ?_⟩
    · intro x h i hi
      simp only [List.mem_cons, List.not_mem_nil, or_false] at h
      rcases h with rfl | rfl <;> cases hi <;> exact hid
    · rw [List.countP_append, creates_setters hy]
      rw [List.countP_append, creates_setters (hx _)] at hs
      exact hs.2
  have all : ∀ {P : Op → Prop} {zs : List Op}, (∀ x ∈ pre ++ post, P x) → (∀ x ∈ zs, P x) → ∀ x ∈ pre ++ zs ++ post, P x := by
    intro P zs h1 h2 x h
    simp only [List.mem_append] at h h1
    rcases h with (h | h) | h
    · exact h1 x (.inl h)
    · exact h2 x h
    · exact h1 x (.inr h)
  rw [C82_trace_interaction (all hk fun x h => (setter_plain (hx _ x h)).1) (all hj fun x h => (setter_plain (hx _ x h)).2) hs0,
    C82_trace_interaction (all hk fun x h => (setter_plain (hy x h)).1) (all hj fun x h => (setter_plain (hy x h)).2) hs']
  have h0 : KnowBsf (Remembered.run b [] pre) := KnowBsf.run pre (fun k hk => by cases hk)
  have e : ∀ zs, Remembered.run b [] (pre ++ zs) = Remembered.run b (Remembered.run b [] pre) zs := fun zs => List.foldl_append
  have hlen : id < (Remembered.run b [] pre).length := by
    have := Remembered.run_length (b := b) (ks := []) hs.1.1
    simp only [List.length_nil] at this
    omega
  generalize hks : Remembered.run b [] pre = ks at h0 hlen e
  have hg := List.getElem?_eq_getElem hlen
  have hb := h0 _ (List.getElem_mem hlen)
  have s1 : ∀ l, Remembered.step b ks (.updateParams id l) = (.ok .done, ks.set id (ks[id].update l)) := by
    intro l
    simp only [Remembered.step, Op.on, hg]
    rfl
  have hg' : ∀ k, (ks.set id k)[id]? = some k := fun k => List.getElem?_set_self hlen
  have s2 : Remembered.step b (ks.set id (ks[id].update kw)) (.updateParams id kw') =
      (.ok .done, ks.set id (ks[id].update (kw ++ kw'))) := by
    simp only [Remembered.step, Op.on, hg', List.set_set]
    refine congrArg (Prod.mk _) (congrArg (ks.set id) ?_)
    have hb' : "bsf" ∈ (ks[id].settings.update kw).params.keys := (Record.update_prefix _ _).subset hb
    show (⟨(ks[id].settings.update kw).update kw', _⟩ : Remembered) = ⟨ks[id].settings.update (kw ++ kw'), _⟩
    congr 1
    rw [Record.update_bsf hb', Record.update_bsf hb, Record.update_bsf hb, List.map_append]
    simp only [Dict.update, List.foldl_append]
  refine ⟨Remembered.trace b [] pre, Remembered.trace b (ks.set id (ks[id].update (kw ++ kw'))) post,
    Remembered.trace_length _ _ _, ?_, ?_⟩
  · rw [Remembered.trace_append, Remembered.trace_append, e, hks]
    show _ ++ [_] ++ Remembered.trace b (Remembered.step b ks _).2 post = _
    rw [s1]
  · rw [Remembered.trace_append, Remembered.trace_append, e, hks]
    show _ ++ [(Remembered.step b ks _).1, (Remembered.step b (Remembered.step b ks _).2 _).1] ++
      Remembered.trace b (Remembered.step b (Remembered.step b ks _).2 _).2 post = _
    rw [s1, s2]

/-! ### examples -/

/-- Keywords in two orders. -/
def orderKw : Dict := [("tau", Arr.lit 1), ("omega", Arr.lit (1/2)), ("NormBRDF", Arr.lit 1)]
def orderKw' : Dict := [("NormBRDF", Arr.lit 1), ("tau", Arr.lit 1), ("omega", Arr.lit (1/2))]

theorem orderKw_perm : orderKw.Perm orderKw' ∧ (orderKw.map Prod.fst).Nodup := by
  refine ⟨?_, by simp [orderKw]⟩
  exact ((List.Perm.swap _ _ _).symm.cons _).trans (List.Perm.swap _ _ _).symm

/-- A program with interaction term, a copy, and evaluations with keywords. -/
def orderOps (kw : Dict) : List Op :=
  [.new isoV isoS true false false none none (Arr.lit 1), .setGeometry 0 [("t_0", some (Arr.lit 1)), ("p_0", some (Arr.lit 0))],
    .updateParams 0 kw, .interaction 0 [], .surface 0 kw, .pickle 0, .evalCalc 1 kw, .volume 0 [], .interaction 1 kw]

example (b : Backend) : trace (initWorld b) (orderOps orderKw) = trace (initWorld b) (orderOps orderKw') ∧
    orderOps orderKw ≠ orderOps orderKw' := by
  obtain ⟨hp, hn⟩ := orderKw_perm
  refine ⟨C84_keywords ?_ ?_ ?_ ?_ ?_, ?_⟩
  · exact .cons (.refl _) (.cons (.refl _) (.cons (.updateParams 0 hp hn) (.cons (.refl _) (.cons (.surface 0 hp hn)
      (.cons (.refl _) (.cons (.evalCalc 1 hp hn) (.cons (.refl _) (.cons (.interaction 1 hp hn) .nil))))))))
  · intro x hx
    simp only [orderOps, List.mem_cons, List.not_mem_nil, or_false] at hx
    rcases hx with rfl | rfl | rfl | rfl | rfl | rfl | rfl | rfl | rfl <;> trivial
  · intro x hx
    simp only [orderOps, List.mem_cons, List.not_mem_nil, or_false] at hx
    rcases hx with rfl | rfl | rfl | rfl | rfl | rfl | rfl | rfl | rfl <;> trivial
  · intro x hx
    simp only [orderOps, List.mem_cons, List.not_mem_nil, or_false] at hx
    rcases hx with rfl | rfl | rfl | rfl | rfl | rfl | rfl | rfl | rfl <;> first | trivial | rfl
  · simp [Sound, orderOps, Op.on]
  · simp [orderOps, orderKw, orderKw']

/-- Without interaction term, V assigned in between. -/
def firstOrderOps (kw : Dict) : List Op :=
  [.new isoV isoS false false false none none (Arr.lit 1), .updateParams 0 kw, .setV 0 isoV, .evalCalc 0 kw, .volume 0 kw]

example (b : Backend) : trace (initWorld b) (firstOrderOps orderKw) = trace (initWorld b) (firstOrderOps orderKw') := by
  obtain ⟨hp, hn⟩ := orderKw_perm
  refine C84_keywords_first_order ?_ ?_ ?_ ?_ ?_
  · exact .cons (.refl _) (.cons (.updateParams 0 hp hn) (.cons (.refl _) (.cons (.evalCalc 0 hp hn) (.cons (.volume 0 hp hn) .nil))))
  · intro x hx
    simp only [firstOrderOps, List.mem_cons, List.not_mem_nil, or_false] at hx
    rcases hx with rfl | rfl | rfl | rfl | rfl <;> trivial
  · intro x hx
    simp only [firstOrderOps, List.mem_cons, List.not_mem_nil, or_false] at hx
    rcases hx with rfl | rfl | rfl | rfl | rfl <;> first | trivial | rfl
  · intro x hx
    simp only [firstOrderOps, List.mem_cons, List.not_mem_nil, or_false] at hx
    rcases hx with rfl | rfl | rfl | rfl | rfl <;> trivial
  · simp [Sound, firstOrderOps, Op.on]

/-- Five setters and the same in reverse order, then evaluations. -/
def orderSetters : List Op :=
  [.setIntQ 0 true, .setI0 0 (Arr.lit 2), .setGeometry 0 [("t_0", some (Arr.lit 1)), ("p_0", some (Arr.lit 0))],
    .setParamDef 0 .omega (.str (.sym "w")), .updateParams 0 [("tau", Arr.lit 1), ("w", Arr.lit (1/2)), ("NormBRDF", Arr.lit 1)]]

example (b : Backend) : ∃ (A C : List (Py Answer)) (f : Op → Py Answer), A.length = 1 ∧
    trace (initWorld b) ([.new isoV isoS false false false none none (Arr.lit 1)] ++ orderSetters ++ [.interaction 0 [], .evalCalc 0 []]) =
      A ++ orderSetters.map f ++ C ∧
    trace (initWorld b) ([.new isoV isoS false false false none none (Arr.lit 1)] ++ orderSetters.reverse ++ [.interaction 0 [], .evalCalc 0 []]) =
      A ++ orderSetters.reverse.map f ++ C := by
  refine C84_settings (pre := [.new isoV isoS false false false none none (Arr.lit 1)]) ?_ ?_ (List.reverse_perm _).symm ?_ ?_ ?_
  · intro x hx
    simp only [orderSetters, List.mem_cons, List.not_mem_nil, or_false] at hx
    rcases hx with rfl | rfl | rfl | rfl | rfl <;> simp [Op.part]
  · simp [orderSetters, Op.part]
  · intro x hx
    simp only [List.cons_append, List.nil_append, List.mem_cons, List.not_mem_nil, or_false] at hx
    rcases hx with rfl | rfl | rfl <;> trivial
  · intro x hx
    simp only [List.cons_append, List.nil_append, List.mem_cons, List.not_mem_nil, or_false] at hx
    rcases hx with rfl | rfl | rfl <;> trivial
  · simp [Sound, orderSetters, Op.on]

example (b : Backend) : ∃ A C : List (Py Answer), A.length = 1 ∧
    trace (initWorld b) ([.new isoV isoS false false false none none (Arr.lit 1)] ++
      [.updateParams 0 ([("tau", Arr.lit 1)] ++ [("omega", Arr.lit (1/2)), ("NormBRDF", Arr.lit 2)])] ++ [.evalCalc 0 []]) = A ++ [.ok .done] ++ C ∧
    trace (initWorld b) ([.new isoV isoS false false false none none (Arr.lit 1)] ++
      [.updateParams 0 [("tau", Arr.lit 1)], .updateParams 0 [("omega", Arr.lit (1/2)), ("NormBRDF", Arr.lit 2)]] ++ [.evalCalc 0 []]) =
      A ++ [.ok .done, .ok .done] ++ C := by
  refine C84_split (pre := [.new isoV isoS false false false none none (Arr.lit 1)]) ?_ ?_ ?_
  · intro x hx
    simp only [List.cons_append, List.nil_append, List.mem_cons, List.not_mem_nil, or_false] at hx
    rcases hx with rfl | rfl <;> trivial
  · intro x hx
    simp only [List.cons_append, List.nil_append, List.mem_cons, List.not_mem_nil, or_false] at hx
    rcases hx with rfl | rfl <;> trivial
  · simp [Sound, Op.on]

end

end RT1
