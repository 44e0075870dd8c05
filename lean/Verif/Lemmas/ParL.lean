import Verif.Lemmas.Hist
import Verif.Lemmas.Demo
import Verif.Spec.Params

/-! The parameter dictionary and parameter definitions over histories. -/

namespace RT1

noncomputable section
open Classical

theorem Dict.get?_cons (p : String × Arr) (d : Dict) (k : String) :
    Dict.get? (p :: d) k = if p.1 = k then some p.2 else Dict.get? d k := by
  unfold Dict.get?
  rw [List.find?_cons]
  by_cases h : p.1 = k <;> simp [h]

theorem Dict.get?_set (d : Dict) (k : String) (v : Arr) (k' : String) :
    (d.set k v).get? k' = if k = k' then some v else d.get? k' := by
  induction d with
  | nil => simp [Dict.set, Dict.get?_cons]
  | cons p d ih =>
    obtain ⟨k1, v1⟩ := p
    unfold Dict.set
    by_cases h : k1 = k
    · subst h
      by_cases h' : k1 = k' <;> simp [Dict.get?_cons, h']
    · simp only [h, if_false, Dict.get?_cons, ih]
      by_cases h' : k1 = k'
      · subst h'; simp [Ne.symm h]
      · simp [h']

theorem lastValue_nil (k : String) : lastValue [] k = none := rfl

theorem lastValue_append (l l' : Dict) (k : String) :
    lastValue (l ++ l') k = (lastValue l' k).or (lastValue l k) := by
  unfold lastValue
  rw [List.reverse_append, List.find?_append]
  cases l'.reverse.find? fun p => p.1 = k <;> simp

theorem lastValue_cons (p : String × Arr) (l : Dict) (k : String) :
    lastValue (p :: l) k = (lastValue l k).or (if p.1 = k then some p.2 else none) := by
  rw [show p :: l = [p] ++ l from rfl, lastValue_append]
  congr 1
  simp only [lastValue, List.reverse_cons, List.reverse_nil, List.nil_append, List.find?_cons,
    List.find?_nil]
  by_cases h : p.1 = k <;> simp [h]

theorem Dict.get?_update (d kw : Dict) (k : String) :
    (d.update kw).get? k = (lastValue kw k).or (d.get? k) := by
  induction kw generalizing d with
  | nil => simp [Dict.update, lastValue_nil]
  | cons p kw ih =>
    show (Dict.update (d.set p.1 p.2) kw).get? k = _
    rw [ih, Dict.get?_set, lastValue_cons]
    by_cases h : p.1 = k
    · cases lastValue kw k <;> simp [h]
    · cases lastValue kw k <;> simp [h]

theorem Dict.mem_keys_set (d : Dict) (k : String) (v : Arr) (k' : String) :
    k' ∈ (d.set k v).keys ↔ k' ∈ d.keys ∨ k' = k := by
  induction d with
  | nil => simp [Dict.set, Dict.keys]
  | cons p d ih =>
    obtain ⟨k1, v1⟩ := p
    unfold Dict.set
    by_cases h : k1 = k
    · subst h
      simp only [if_true, Dict.keys, List.map_cons, List.mem_cons]
      tauto
    · simp only [h, if_false]
      simp only [Dict.keys, List.map_cons, List.mem_cons] at ih ⊢
      rw [ih]; tauto

theorem Dict.nodup_set {d : Dict} (h : d.keys.Nodup) (k : String) (v : Arr) :
    (d.set k v).keys.Nodup := by
  induction d with
  | nil => simp [Dict.set, Dict.keys]
  | cons p d ih =>
    obtain ⟨k1, v1⟩ := p
    have h' : k1 ∉ Dict.keys d ∧ (Dict.keys d).Nodup := by
      simpa only [Dict.keys, List.map_cons, List.nodup_cons] using h
    unfold Dict.set
    by_cases hk : k1 = k
    · simp only [hk, if_true]
      rw [← hk]; exact h
    · simp only [hk, if_false]
      show (k1 :: (Dict.set d k v).keys).Nodup
      rw [List.nodup_cons, Dict.mem_keys_set]
      exact ⟨by rintro (h1 | h1); exacts [h'.1 h1, hk h1], ih h'.2⟩

theorem Dict.mem_keys_update (d kw : Dict) (k : String) :
    k ∈ (d.update kw).keys ↔ k ∈ d.keys ∨ k ∈ kw.keys := by
  induction kw generalizing d with
  | nil => simp [Dict.update, Dict.keys]
  | cons p kw ih =>
    show k ∈ (Dict.update (d.set p.1 p.2) kw).keys ↔ _
    rw [ih, Dict.mem_keys_set]
    simp only [Dict.keys, List.map_cons, List.mem_cons]
    tauto

theorem Dict.nodup_update {d : Dict} (h : d.keys.Nodup) (kw : Dict) : (d.update kw).keys.Nodup := by
  induction kw generalizing d with
  | nil => exact h
  | cons p kw ih => exact ih (Dict.nodup_set h p.1 p.2)

/-- A condition that holds for new objects and is preserved by the calls of a history holds for
all objects. -/
theorem allObj_history {Q : Obj → Prop} (hcore : ∀ o o', o.core = o'.core → Q o → Q o')
    {ops : List Op} (hQ : ∀ op ∈ ops, ∀ o, Q o → Q (o.after op))
    (hnew : ∀ V SRF q s d f fe i, Op.new V SRF q s d f fe i ∈ ops →
      Q ((initObj V SRF q s d f fe i).after (.setMonostatic 0 none)))
    (b : Backend) {id : ℕ} {o : Obj} (ho : (run (initWorld b) ops).objs id = some o) : Q o := by
  have := run_induction (P := fun w => NextOK w ∧ ∀ id o, w.objs id = some o → Q o) (ops := ops)
    (w := initWorld b) ?_ ⟨initWorld_next b, fun id o h => by cases h⟩
  · exact this.2 id o ho
  rintro op hop w ⟨hn, hall⟩
  refine ⟨(step_other hn op).1, fun id o ho => ?_⟩
  by_cases hlt : id < w.next
  · by_cases ht : op.target = some id
    · cases ho' : w.objs id with
      | some o' =>
        obtain ⟨o1, ho1, hc⟩ := step_core hn ho' ht
        rw [ho] at ho1
        cases ho1
        exact hcore _ _ hc.symm (hQ op hop o' (hall id o' ho'))
      | none =>
        exfalso
        by_cases hc : op.creates
        · cases op <;> simp only [Op.target, Op.creates, reduceCtorEq, Option.some.injEq] at ht hc
          subst ht
          rename_i i
          have e : (step (.pickle i) w).2 = (pickle i w).2 := bind_pure_state _ _
          rw [e, pickle_eq, ho'] at ho
          simp only [modObj, modW, ho'] at ho
          simp at ho
        · have := (frame_step ht hc w w (FrameP.refl w id)).ex
          rw [ho, ho'] at this
          simp at this
    · rw [(step_other hn op).2.2 id ht hlt] at ho
      exact hall id o ho
  · have hnone : w.objs id = none := hn id (not_lt.mp hlt)
    by_cases hc : op.creates
    · cases op <;> try exact hc.elim
      case new V SRF q s d f fe i =>
        have e : (step (.new V SRF q s d f fe i) w).2 =
          (setMonostatic w.next none (w.addObj (initObj V SRF q s d f fe i))).2 := rfl
        rw [e] at ho
        by_cases hid : id = w.next
        · subst hid
          rw [setMonostatic_obj (o := initObj V SRF q s d f fe i)
            (by show Function.update w.objs w.next _ w.next = _; simp) none] at ho
          cases ho
          exact hnew V SRF q s d f fe i hop
        · have hfr := FrameP.setMonostatic (id := w.next) none _
            (FrameP.refl (w.addObj (initObj V SRF q s d f fe i)) w.next)
          rw [hfr.objs id hid] at ho
          have ho' : Function.update w.objs w.next _ id = some o := ho
          rw [Function.update_of_ne hid, hnone] at ho'
          cases ho'
      case pickle i =>
        have e : (step (.pickle i) w).2 = (pickle i w).2 := bind_pure_state _ _
        rw [e, pickle_eq] at ho
        cases hoi : w.objs i with
        | none =>
          rw [hoi] at ho
          have ho' : Function.update w.objs i _ id = some o := ho
          by_cases hid : id = i
          · subst hid; simp [hnone] at ho'
          · rw [Function.update_of_ne hid, hnone] at ho'; cases ho'
        | some o1 =>
          rw [hoi] at ho
          have ho' : Function.update (Function.update w.objs i _) w.next _ id = some o := ho
          by_cases hid : id = w.next
          · subst hid
            rw [Function.update_self] at ho'
            cases ho'
            exact hQ (.pickle i) hop o1 (hall i o1 hoi)
          · rw [Function.update_of_ne hid] at ho'
            by_cases hid' : id = i
            · subst hid'; rw [hoi] at hnone; cases hnone
            · rw [Function.update_of_ne hid', hnone] at ho'; cases ho'
    · exfalso
      obtain ⟨j, hj⟩ : ∃ j, op.target = some j := by
        cases op <;> first | exact ⟨_, rfl⟩ | exact absurd trivial hc
      have hfr := frame_step hj hc w w (FrameP.refl w j)
      by_cases hid : id = j
      · subst hid
        have := hfr.ex
        rw [ho, hnone] at this
        simp at this
      · rw [hfr.objs id hid, hnone] at ho; cases ho

/-- A condition that holds for new objects and is preserved by calls holds for all objects. -/
theorem allObj_induction {Q : Obj → Prop} (hcore : ∀ o o', o.core = o'.core → Q o → Q o')
    (hQ : ∀ op o, Q o → Q (o.after op))
    (hnew : ∀ V SRF q s d f fe i, Q (initObj V SRF q s d f fe i)) {w : World} (hw : ReachableAny w)
    {id : ℕ} {o : Obj} (ho : w.objs id = some o) : Q o := by
  obtain ⟨b, ops, rfl⟩ := hw
  exact allObj_history hcore (fun op _ => hQ op)
    (fun V SRF q s d f fe i _ => hQ _ _ (hnew V SRF q s d f fe i)) b ho

theorem afterGeom_params (o : Obj) (kw : List (String × Option Arr)) :
    (o.afterGeom kw).params = o.params ∧ (o.afterGeom kw).pdef = o.pdef := by
  have hl : ∀ (l : List (String × Option Arr)) (o : Obj), (Obj.angLoop l o).params = o.params ∧
      (Obj.angLoop l o).pdef = o.pdef := by
    intro l
    induction l with
    | nil => intro o; exact ⟨rfl, rfl⟩
    | cons p l ih =>
      intro o
      obtain ⟨k, v⟩ := p
      unfold Obj.angLoop
      cases AngN.ofName k with
      | none => exact ih o
      | some n =>
        simp only
        by_cases hn : n ∈ o.fixed
        · simp [hn]
        · simp only [hn, if_false]
          cases v with
          | none => exact ⟨rfl, rfl⟩
          | some a => exact ih { o with ang := Function.update o.ang n (some a.atleast1d) }
  unfold Obj.afterGeom
  split_ifs
  · exact ⟨rfl, rfl⟩
  · exact ⟨rfl, rfl⟩
  · exact hl kw o

theorem fixLoop_params (l : List (AngN × Option PyArg)) : ∀ o : Obj,
    (Obj.fixLoop l o).params = o.params ∧ (Obj.fixLoop l o).pdef = o.pdef := by
  induction l with
  | nil => intro o; exact ⟨rfl, rfl⟩
  | cons p l ih =>
    intro o
    obtain ⟨n, v⟩ := p
    cases v with
    | none => exact ih o
    | some a =>
      cases a with
      | other => exact ⟨rfl, rfl⟩
      | number r => exact ih (o.fix n r)

theorem afterBi_params (o : Obj) (a b c d : Option PyArg) :
    (o.afterBi a b c d).params = o.params ∧ (o.afterBi a b c d).pdef = o.pdef := by
  have h := fixLoop_params [(.t0, a), (.tex, b), (.p0, c), (.pex, d)] (o.reset false)
  unfold Obj.afterBi
  simp only
  split_ifs
  · exact ⟨h.1, h.2⟩
  · exact ⟨h.1, h.2⟩

theorem afterMono_params (o : Obj) (p : Option PyArg) :
    (o.afterMono p).params = o.params ∧ (o.afterMono p).pdef = o.pdef := by
  cases p with
  | none => exact ⟨rfl, rfl⟩
  | some a => cases a <;> exact ⟨rfl, rfl⟩

theorem supplied_other {id : ℕ} {op : Op} (h : op.target ≠ some id) : op.supplied id = [] := by
  cases op <;> first | rfl | (simp only [Op.target, ne_eq, Option.some.injEq] at h; simp [Op.supplied, h])

/-- Names are distinct and contain `bsf`. -/
def BsfOK (o : Obj) : Prop := "bsf" ∈ o.params.keys ∧ o.params.keys.Nodup

theorem update_params {o : Obj} (h : "bsf" ∈ o.params.keys) (kw : Dict) :
    (Fresh.update o kw).params = o.params.update (kw.map fun p => (p.1, p.2.atleast1d)) := by
  unfold Fresh.update
  split
  · simp [h]
  · rfl

theorem after_params {o : Obj} (h : "bsf" ∈ o.params.keys) {id : ℕ} {op : Op}
    (ht : op.target = some id) :
    (o.after op).params =
      o.params.update ((op.supplied id).map fun p => (p.1, p.2.atleast1d)) := by
  cases op <;> simp only [Op.target, Option.some.injEq, reduceCtorEq] at ht <;> subst ht <;>
    first
    | rfl
    | (simp only [Op.supplied, if_true]; exact update_params h _)
    | exact (afterGeom_params o _).1
    | exact (afterBi_params o _ _ _ _).1
    | exact (afterMono_params o _).1

theorem Dict.keys_map_snd (kw : Dict) (f : Arr → Arr) :
    Dict.keys (kw.map fun p => (p.1, f p.2)) = kw.keys := by
  simp [Dict.keys, List.map_map, Function.comp_def]

theorem Op.target_none {op : Op} (h : op.target = none) : ∃ V SRF q s d f fe i,
    op = .new V SRF q s d f fe i := by
  cases op <;> simp only [Op.target, reduceCtorEq] at h
  exact ⟨_, _, _, _, _, _, _, _, rfl⟩

theorem BsfOK.after {o : Obj} (h : BsfOK o) (op : Op) : BsfOK (o.after op) := by
  cases ht : op.target with
  | none =>
    obtain ⟨V, SRF, q, s, d, f, fe, i, rfl⟩ := Op.target_none ht
    exact h
  | some id =>
    unfold BsfOK
    rw [after_params h.1 ht, Dict.mem_keys_update]
    exact ⟨Or.inl h.1, Dict.nodup_update h.2 _⟩

theorem ReachableAny.bsfOK {w : World} (hw : ReachableAny w) {id : ℕ} {o : Obj}
    (ho : w.objs id = some o) : BsfOK o :=
  allObj_induction (Q := BsfOK) (fun o o' hc h => by
      unfold BsfOK; rw [← (core_fields hc).2.2.2.1]; exact h)
    (fun op _ h => h.after op)
    (fun _ _ _ _ _ _ _ _ => ⟨by simp [initObj, Dict.keys], by simp [initObj, Dict.keys]⟩) hw ho

theorem run_append (w : World) (l l' : List Op) : run w (l ++ l') = run (run w l) l' := by
  unfold run; rw [List.foldl_append]

theorem ReachableAny.step {w : World} (h : ReachableAny w) (op : Op) : ReachableAny (step op w).2 := by
  obtain ⟨b, ops, rfl⟩ := h
  exact ⟨b, ops ++ [op], by rw [run_append]; rfl⟩

theorem ReachableK.step {w : World} (h : ReachableK w) {op : Op} (hop : op.Keeps) :
    ReachableK (step op w).2 := by
  obtain ⟨b, ops, hp, rfl⟩ := h
  refine ⟨b, ops ++ [op], ?_, by rw [run_append]; rfl⟩
  intro op' hop'
  rcases List.mem_append.mp hop' with h | h
  · exact hp op' h
  · rw [List.mem_singleton.mp h]; exact hop

theorem Reachable.step {w : World} (h : Reachable w) {op : Op} (hop : op.Plain) :
    Reachable (step op w).2 := by
  obtain ⟨b, ops, hp, rfl⟩ := h
  refine ⟨b, ops ++ [op], ?_, by rw [run_append]; rfl⟩
  intro op' hop'
  rcases List.mem_append.mp hop' with h | h
  · exact hp op' h
  · rw [List.mem_singleton.mp h]; exact hop

theorem ReachableK.run {w : World} (h : ReachableK w) {l : List Op} (hl : ∀ op ∈ l, op.Keeps) :
    ReachableK (run w l) :=
  run_induction (P := ReachableK) (fun op hop _ hw => hw.step (hl op hop)) h

theorem Reachable.run {w : World} (h : Reachable w) {l : List Op} (hl : ∀ op ∈ l, op.Plain) :
    Reachable (run w l) :=
  run_induction (P := Reachable) (fun op hop _ hw => hw.step (hl op hop)) h

theorem ReachableAny.run {w : World} (h : ReachableAny w) (l : List Op) : ReachableAny (run w l) :=
  run_induction (P := ReachableAny) (fun op _ _ hw => hw.step op) h

/-- The object after a history that may not contain calls on it. -/
theorem run_get {w : World} (hn : NextOK w) {id : ℕ} {o : Obj} (ho : w.objs id = some o)
    {ops : List Op} (h : ∀ op ∈ ops, op.target ≠ some id) : (run w ops).objs id = some o := by
  have := run_induction (P := fun w => NextOK w ∧ w.objs id = some o) (ops := ops)
    (fun op hop => by
      rintro w ⟨hn, ho⟩
      refine ⟨(step_other hn op).1, ?_⟩
      rw [(step_other hn op).2.2 id (h op hop) (lt_next hn ho), ho]) ⟨hn, ho⟩
  exact this.2

theorem run_backend (w : World) (ops : List Op) : (run w ops).backend = w.backend :=
  run_induction (P := fun w' => w'.backend = w.backend) (fun op _ w' h => by
    show (step op w').2.backend = w.backend
    rw [step_backend]; exact h) rfl

theorem new_obj (V SRF : Scatter) (q s d : Bool) (fnI : Option (List P)) (fneI : Option FnLam)
    (I0 : Arr) (w : World) : (step (.new V SRF q s d fnI fneI I0) w).2.objs w.next =
      some ((initObj V SRF q s d fnI fneI I0).afterMono none) := by
  have e : (step (.new V SRF q s d fnI fneI I0) w).2 =
    (setMonostatic w.next none (w.addObj (initObj V SRF q s d fnI fneI I0))).2 := rfl
  rw [e]
  exact setMonostatic_obj (o := initObj V SRF q s d fnI fneI I0)
    (by show Function.update w.objs w.next _ w.next = _; simp) none

/-! ### parameter values -/

theorem par_val {b : Backend} {o : Obj} {p : PName} {a : Arr} (hp : o.pdef p = .val a) :
    Fresh.par b o p = .ok a := by
  unfold Fresh.par Fresh.pfun
  rw [hp]
  rfl

theorem par_str_missing {b : Backend} {o : Obj} {p : PName} {e : Expr} (hp : o.pdef p = .str e)
    (h : ∃ k ∈ e.free, k ∉ o.params.keys) :
    Fresh.par b o p = .error (.typeError (e.free.dedup.filter fun k => decide (k ∉ o.params.keys))) := by
  have hsym : Fresh.symbs o p = e.free.dedup := by unfold Fresh.symbs; rw [hp]
  have hfree : ∀ s ∈ e.free, s ∈ e.free.dedup := fun s hs => by simpa using hs
  have hpf : Fresh.pfun b o p = .ok (some ⟨e.free.dedup, e⟩) := by
    unfold Fresh.pfun
    rw [hp]
    simp only
    rw [hsym, Lam.compile_of_free hfree]
    rfl
  unfold Fresh.par
  rw [hpf]
  have hpick : Self.pick o.params e.free.dedup = .error .keyError := by
    unfold Self.pick
    cases hm : e.free.dedup.mapM (fun k => (o.params.get? k).map fun v => (k, v)) with
    | none => rfl
    | some d =>
      exfalso
      obtain ⟨k, hk, hnk⟩ := h
      have hall : ∀ (ks : List String) (d : List (String × Arr)),
          ks.mapM (fun k => (o.params.get? k).map fun v => (k, v)) = some d →
          ∀ k ∈ ks, k ∈ o.params.keys := by
        intro ks
        induction ks with
        | nil => intro d _ k hk; cases hk
        | cons k0 ks ih =>
          intro d hd k hk
          rw [List.mapM_cons] at hd
          cases hg : o.params.get? k0 with
          | none => rw [hg] at hd; cases hd
          | some v0 =>
            rw [hg] at hd
            cases hr : ks.mapM (fun k => (o.params.get? k).map fun v => (k, v)) with
            | none => rw [hr] at hd; cases hd
            | some d' =>
              rcases List.mem_cons.mp hk with rfl | hk
              · exact Lam.mem_of_get? hg
              · exact ih d' hr k hk
      exact hnk (hall _ d hm k (hfree k hk))
  have hne : (e.free.dedup.filter fun k => decide (k ∉ o.params.keys)) ≠ [] := by
    obtain ⟨k, hk, hnk⟩ := h
    intro h0
    have : k ∈ (e.free.dedup.filter fun k => decide (k ∉ o.params.keys)) := by
      rw [List.mem_filter]; exact ⟨hfree k hk, by simpa using hnk⟩
    rw [h0] at this; cases this
  show tryCatch (Self.pick o.params (Fresh.symbs o p) >>= fun kw => Lam.call b ⟨e.free.dedup, e⟩ [] kw) _ = _
  rw [hsym, hpick]
  show (if (e.free.dedup.filter fun k => decide (k ∉ o.params.keys)) ≠ [] then _ else _) = _
  rw [if_pos hne]
  rfl

theorem par_str_ok {b : Backend} {o : Obj} {p : PName} {e : Expr} (hp : o.pdef p = .str e)
    {S : List ℕ} (h : ∀ k ∈ e.free, ∃ a, o.params.get? k = some a ∧ Arr.Fits a.shape S) :
    Succ (Fresh.par b o p) S := by
  have hfree : ∀ s ∈ e.free, s ∈ e.free.dedup := fun s hs => by simpa using hs
  unfold Fresh.par Fresh.pfun Fresh.symbs
  rw [hp]
  simp only
  rw [Lam.compile_of_free hfree]
  obtain ⟨kw, hkw, hkeys⟩ := Complete.pick_ok o.params (ks := e.free.dedup) fun k hk => by
    obtain ⟨a, ha, -⟩ := h k (by simpa using hk)
    exact Lam.mem_of_get? ha
  have hs : Succ (Lam.call b ⟨e.free.dedup, e⟩ [] kw) S := by
    refine Lam.call_succ (vars := e.free.dedup) (Lam.compile_of_free hfree) hfree (by simp) (by simp) ?_ ?_ ?_
    · intro k a hk
      have hmem : k ∈ e.free.dedup := by rw [← hkeys]; exact Lam.mem_of_get? hk
      rw [pick_get? hkw hmem] at hk
      obtain ⟨a', ha', hf⟩ := h k (by simpa using hmem)
      rw [hk] at ha'; cases ha'; exact hf
    · intro k hk; rw [hkeys] at hk; simpa using hk
    · intro k hk; rw [hkeys]; simpa using hk
  obtain ⟨z, hz, hf⟩ := hs
  refine ⟨z, ?_, hf⟩
  show tryCatch (Self.pick o.params e.free.dedup >>= fun kw => Lam.call b ⟨e.free.dedup, e⟩ [] kw) _ = _
  rw [hkw]
  show tryCatch (Lam.call b ⟨e.free.dedup, e⟩ [] kw) _ = _
  rw [hz]
  rfl

theorem update_update_nil (o : Obj) (kw : Dict) :
    Fresh.update (Fresh.update o kw) [] = Fresh.update o kw := by
  have h : ∀ o : Obj, (o.pdef .bsf = .str (.sym "bsf") → "bsf" ∈ o.params.keys) →
      Fresh.update o [] = o := by
    intro o ho
    unfold Fresh.update
    split
    · rename_i h1
      simp [ho h1, Dict.update]
    · simp [Dict.update]
  refine h _ fun hp => ?_
  have hp' : o.pdef .bsf = .str (.sym "bsf") := hp
  unfold Fresh.update
  rw [hp']
  simp only
  rw [Dict.mem_keys_update, Dict.keys_map_snd _ Arr.atleast1d]
  by_cases h1 : "bsf" ∈ o.params.keys
  · exact Or.inl h1
  · right
    by_cases h2 : "bsf" ∈ kw.keys
    · simp [h2]
    · rw [if_neg (by simp only [h1, h2, or_self, not_false_eq_true])]
      simp [Dict.keys]

end

end RT1
