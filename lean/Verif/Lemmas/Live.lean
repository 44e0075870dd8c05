import Verif.Spec.Live
import Verif.Lemmas.Inv

/-! Programs that change scattering functions (C83). -/

namespace RT1

noncomputable section
open Classical

namespace LRU
variable {κ ν : Type}

/-- The entry of `k` comes after entries of keys in `D` only. -/
def Behind (c : LRU κ ν) (k : κ) (v : ν) (D : Finset κ) : Prop :=
  ∃ l1 l2, c = l1 ++ (k, v) :: l2 ∧ (∀ p ∈ l1, p.1 ∈ D) ∧ (l1.map Prod.fst).Nodup

theorem Behind.find {c : LRU κ ν} {k : κ} {v : ν} {D : Finset κ} (h : Behind c k v D) (hk : k ∉ D) : find c k = some v := by
  obtain ⟨l1, l2, rfl, h1, -⟩ := h
  induction l1 with
  | nil => rw [List.nil_append, find_cons, if_pos rfl]
  | cons p l ih =>
    rw [List.cons_append, find_cons, if_neg (fun e : p.1 = k => hk (e ▸ h1 p List.mem_cons_self))]
    exact ih fun q hq => h1 q (List.mem_cons_of_mem _ hq)

theorem behind_put (c : LRU κ ν) (k : κ) (v : ν) (D : Finset κ) : Behind (put c k v) k v D :=
  ⟨[], (c.filter fun p => decide (p.1 ≠ k)).take 127, by rw [put, List.take_succ_cons, List.nil_append], by simp, by simp⟩

theorem Behind.put {c : LRU κ ν} {k k' : κ} {v v' : ν} {D : Finset κ} (h : Behind c k v D) (hk : k' ≠ k) (hD : k' ∈ D)
    (hc : D.card < 128) : Behind (put c k' v') k v D := by
  obtain ⟨l1, l2, rfl, h1, h2⟩ := h
  have hl : ((k', v') :: l1.filter fun p => decide (p.1 ≠ k')).length ≤ D.card := by
    have hn : (((k', v') :: l1.filter fun p => decide (p.1 ≠ k')).map Prod.fst).Nodup := by
      rw [List.map_cons, List.nodup_cons]
      refine ⟨?_, ?_⟩
      · rw [List.mem_map]
        rintro ⟨p, hp, e⟩
        have := (List.mem_filter.mp hp).2
        simp [e] at this
      · exact (List.filter_sublist.map Prod.fst).nodup h2
    have := List.toFinset_card_of_nodup hn
    rw [List.length_map] at this
    rw [← this]
    refine Finset.card_le_card fun q hq => ?_
    rw [List.mem_toFinset, List.map_cons, List.mem_cons] at hq
    rcases hq with rfl | hq
    · exact hD
    · obtain ⟨p, hp, rfl⟩ := List.mem_map.mp hq
      exact h1 p (List.mem_filter.mp hp).1
  refine ⟨(k', v') :: l1.filter fun p => decide (p.1 ≠ k'), (l2.filter fun p => decide (p.1 ≠ k')).take
    (127 - ((k', v') :: l1.filter fun p => decide (p.1 ≠ k')).length), ?_, ?_, ?_⟩
  · have e : (k', v') :: List.filter (fun p : κ × ν => decide (p.1 ≠ k')) (l1 ++ (k, v) :: l2) =
        ((k', v') :: l1.filter fun p => decide (p.1 ≠ k')) ++ (k, v) :: l2.filter fun p => decide (p.1 ≠ k') := by
      rw [List.filter_append, List.filter_cons_of_pos (by simpa using fun e => hk e.symm), List.cons_append]
    rw [LRU.put, e, List.take_append, List.take_of_length_le (by omega)]
    congr 1
    rw [show 128 - ((k', v') :: l1.filter fun p => decide (p.1 ≠ k')).length =
      (127 - ((k', v') :: l1.filter fun p => decide (p.1 ≠ k')).length) + 1 by omega, List.take_succ_cons]
  · intro p hp
    rcases List.mem_cons.mp hp with rfl | hp
    · exact hD
    · exact h1 p (List.mem_filter.mp hp).1
  · rw [List.map_cons, List.nodup_cons]
    refine ⟨?_, (List.filter_sublist.map Prod.fst).nodup h2⟩
    rw [List.mem_map]
    rintro ⟨p, hp, e⟩
    have := (List.mem_filter.mp hp).2
    simp [e] at this

end LRU

namespace Live

theorem run_cons (h : Heap) (op : LOp) (ops : List LOp) : exec h (op :: ops) = exec (act h op) ops := rfl

theorem run_append (h : Heap) (l m : List LOp) : exec h (l ++ m) = exec (exec h l) m := List.foldl_append

theorem lambdaFunc_objs (i : ℕ) (ns : List String) (h : Heap) : (lambdaFunc i ns h).2.objs = h.objs := by
  unfold lambdaFunc; repeat' split
  all_goals rfl

theorem lambdaFunc_backend (i : ℕ) (ns : List String) (h : Heap) : (lambdaFunc i ns h).2.backend = h.backend := by
  unfold lambdaFunc; repeat' split
  all_goals rfl

theorem evalFn_snd (i : ℕ) (a b c d : Arr) (pd : Dict) (h : Heap) : (evalFn i a b c d pd h).2 = (lambdaFunc i pd.keys h).2 := by
  unfold evalFn; split
  all_goals next e => rw [e]

/-- The table after an evaluation: nothing, or one entry was put. -/
theorem lambdaFunc_memo (i : ℕ) (ns : List String) (h : Heap) :
    (lambdaFunc i ns h).2.memo = h.memo ∧ LRU.find h.memo (i, ns) = none ∨
    ∃ f, (lambdaFunc i ns h).2.memo = LRU.put h.memo (i, ns) f ∧ (lambdaFunc i ns h).1 = .ok f ∧
      ∀ g, LRU.find h.memo (i, ns) = some g → g = f := by
  unfold lambdaFunc
  cases hf : LRU.find h.memo (i, ns) with
  | some f => exact .inr ⟨f, rfl, rfl, fun g hg => (Option.some.inj hg).symm⟩
  | none =>
    dsimp only
    cases scatterOf h.objs i with
    | none => exact .inl ⟨rfl, rfl⟩
    | some s =>
      dsimp only
      cases Lam.compile h.backend (["theta_0", "theta_ex", "phi_0", "phi_ex"] ++ ns) s.phase with
      | ok f => exact .inr ⟨_, rfl, rfl, fun g hg => by simp at hg⟩
      | error e => exact .inl ⟨rfl, rfl⟩

/-- An evaluation with names that are not in the table uses the current attributes. -/
theorem evalFn_new {i : ℕ} {h : Heap} {pd : Dict} {s : Scatter} (hf : LRU.find h.memo (i, pd.keys) = none)
    (hs : scatterOf h.objs i = some s) (a b c d : Arr) : (evalFn i a b c d pd h).1 = s.calcVal h.backend a b c d pd := by
  unfold evalFn lambdaFunc Scatter.calcVal
  rw [hf]
  dsimp only
  rw [hs]
  dsimp only
  cases Lam.compile h.backend (["theta_0", "theta_ex", "phi_0", "phi_ex"] ++ pd.keys) s.phase <;> rfl

/-- An evaluation with names that are in the table uses the function of the table. -/
theorem evalFn_old {i : ℕ} {h : Heap} {pd : Dict} {f : Lam × Backend} (hf : LRU.find h.memo (i, pd.keys) = some f)
    (a b c d : Arr) : (evalFn i a b c d pd h).1 = f.1.call f.2 [a, b, c, d] pd := by
  unfold evalFn lambdaFunc
  rw [hf]

theorem find_step {h : Heap} {op : LOp} {k : ℕ × List String} (hk : op.evaluated ≠ some k) (hf : LRU.find h.memo k = none) :
    LRU.find (act h op).memo k = none := by
  cases op with
  | eval i a b c d pd =>
    show LRU.find (evalFn i a b c d pd h).2.memo k = none
    rw [evalFn_snd]
    rcases lambdaFunc_memo i pd.keys h with ⟨e, -⟩ | ⟨f, e, -⟩
    · rw [e]; exact hf
    · rw [e]
      by_contra hn
      obtain ⟨x, hx⟩ := Option.ne_none_iff_exists'.mp hn
      have := LRU.find_put_of_ne (fun e' => hk (by rw [e']; rfl)) hx
      rw [hf] at this; cases this
  | lin cs a =>
    unfold act; dsimp only
    split
    · exact hf
    · exact hf
  | _ => exact hf

/-- Names that have not been used are not in the table. -/
theorem find_run {k : ℕ × List String} : ∀ {ops : List LOp} {h : Heap}, k ∉ evaluated ops → LRU.find h.memo k = none →
    LRU.find (exec h ops).memo k = none := by
  intro ops
  induction ops with
  | nil => exact fun _ hf => hf
  | cons op ops ih =>
    intro h hk hf
    rw [run_cons]
    refine ih (fun hm => hk ?_) (find_step (fun e => hk ?_) hf)
    · rw [evaluated, List.filterMap_cons]; split
      · exact hm
      · exact List.mem_cons_of_mem _ hm
    · rw [evaluated, List.filterMap_cons, e]; exact List.mem_cons_self

theorem behind_step {h : Heap} {op : LOp} {k : ℕ × List String} {f : Lam × Backend} {D : Finset (ℕ × List String)}
    (hb : LRU.Behind h.memo k f D) (hk : k ∉ D) (hop : ∀ k', op.evaluated = some k' → k' ≠ k → k' ∈ D) (hc : D.card < 128) :
    LRU.Behind (act h op).memo k f D := by
  cases op with
  | eval i a b c d pd =>
    show LRU.Behind (evalFn i a b c d pd h).2.memo k f D
    rw [evalFn_snd]
    rcases lambdaFunc_memo i pd.keys h with ⟨e, -⟩ | ⟨g, e, -, hg⟩
    · rw [e]; exact hb
    · rw [e]
      by_cases he : (i, pd.keys) = k
      · have := hg f (by rw [he]; exact hb.find hk)
        rw [he, this]
        exact LRU.behind_put _ _ _ _
      · exact hb.put he (hop _ rfl he) hc
  | lin cs a =>
    unfold act; dsimp only
    split
    · exact hb
    · exact hb
  | _ => exact hb

theorem behind_run {k : ℕ × List String} {f : Lam × Backend} {D : Finset (ℕ × List String)} (hk : k ∉ D) (hc : D.card < 128) :
    ∀ {ops : List LOp} {h : Heap}, (∀ k' ∈ evaluated ops, k' ≠ k → k' ∈ D) → LRU.Behind h.memo k f D →
      LRU.Behind (exec h ops).memo k f D := by
  intro ops
  induction ops with
  | nil => exact fun _ hb => hb
  | cons op ops ih =>
    intro h hD hb
    rw [run_cons]
    refine ih (fun k' hk' => hD k' ?_) (behind_step hb hk (fun k' e => hD k' ?_) hc)
    · rw [evaluated, List.filterMap_cons]; split
      · exact hk'
      · exact List.mem_cons_of_mem _ hk'
    · rw [evaluated, List.filterMap_cons, e]; exact List.mem_cons_self

theorem backend_step (h : Heap) (op : LOp) : (act h op).backend = selected h.backend [op] := by
  cases op with
  | eval i a b c d pd => show (evalFn i a b c d pd h).2.backend = h.backend; rw [evalFn_snd, lambdaFunc_backend]
  | lin cs a =>
    unfold act; dsimp only
    split
    · rfl
    · rfl
  | _ => rfl

theorem backend_run : ∀ (ops : List LOp) (h : Heap), (exec h ops).backend = selected h.backend ops := by
  intro ops
  induction ops with
  | nil => exact fun _ => rfl
  | cons op ops ih =>
    intro h
    rw [run_cons, ih, backend_step]
    cases op <;> rfl

/-! ### attributes -/

/-- What one call does to the attributes of the object `i`. -/
def upd (i : ℕ) (o : SObj) : LOp → SObj
  | .setA j a => if j = i then o.setA a else o
  | .setT j t => if j = i then o.setT t else o
  | .setI j n => if j = i then o.setI n else o
  | _ => o

theorem step_objs (h : Heap) (op : LOp) {i : ℕ} (hi : i < h.objs.length) : (act h op).objs[i]? = h.objs[i]?.map fun o => upd i o op := by
  have hid : ∀ l : List SObj, l[i]? = l[i]?.map fun o => o := fun l => by simp
  cases op with
  | eval j a b c d pd =>
    show (evalFn j a b c d pd h).2.objs[i]? = _
    rw [evalFn_snd, lambdaFunc_objs]; exact hid _
  | lin cs a =>
    show (if _ then _ else _ : Heap).objs[i]? = _
    split
    · rw [List.getElem?_append_left hi]; exact hid _
    · exact hid _
  | prim k a nc =>
    show (h.objs ++ _)[i]? = _
    rw [List.getElem?_append_left hi]; exact hid _
  | backend b => exact hid _
  | setA j a => exact (List.getElem?_modify _ _ _ _).trans (by by_cases e : j = i <;> simp [upd, e])
  | setT j a => exact (List.getElem?_modify _ _ _ _).trans (by by_cases e : j = i <;> simp [upd, e])
  | setI j a => exact (List.getElem?_modify _ _ _ _).trans (by by_cases e : j = i <;> simp [upd, e])

/-- How many objects a call creates, if combinations refer to existing objects. -/
def LOp.new : LOp → ℕ
  | .prim _ _ _ => 1
  | .lin _ _ => 1
  | _ => 0

theorem Sound.tail {n : ℕ} {op : LOp} {ops : List LOp} (h : Sound n (op :: ops)) : Sound (n + op.new) ops := by
  cases op with
  | lin cs a => exact h.2
  | _ => exact h

theorem step_length (h : Heap) (op : LOp) {ops : List LOp} (hs : Sound h.objs.length (op :: ops)) :
    (act h op).objs.length = h.objs.length + op.new := by
  cases op with
  | eval j a b c d pd =>
    show (evalFn j a b c d pd h).2.objs.length = _
    rw [evalFn_snd, lambdaFunc_objs]; rfl
  | lin cs a =>
    have e : act h (.lin cs a) = _ := if_pos hs.1
    rw [e]; simp [LOp.new]
  | prim k a nc => show (h.objs ++ _).length = _; simp [LOp.new]
  | backend b => rfl
  | setA j a => exact List.length_modify _ _ _
  | setT j a => exact List.length_modify _ _ _
  | setI j a => exact List.length_modify _ _ _

theorem run_old : ∀ (ops : List LOp) (h : Heap) {i : ℕ} (_ : i < h.objs.length) (_ : Sound h.objs.length ops),
    (exec h ops).objs[i]? = h.objs[i]?.map fun o => ops.foldl (upd i) o := by
  intro ops
  induction ops with
  | nil => intro h i _ _; simp [exec]
  | cons op ops ih =>
    intro h i hi hs
    have hl := step_length h op hs
    rw [run_cons, ih (act h op) (by omega) (by rw [hl]; exact hs.tail), step_objs h op hi, Option.map_map]
    rfl

/-- An object with these attributes. -/
inductive Is : Def → SObj → Prop
  | prim (k : Kind) (a : A3) (nc : Option ℕ) : Is (.prim k a nc) (.prim k a nc)
  | lin (cs : List (Expr × ℕ)) (g : List (A3 × List (Expr × ℕ))) (a : A3) : Is (.lin cs a) (.lin (cs.map Prod.fst) (cs.map Prod.snd) g a)

theorem Is.assign {d : Def} {o : SObj} (h : Is d o) (i : ℕ) (op : LOp) : Is (d.assign i op) (upd i o op) := by
  cases h with
  | prim k a nc =>
    cases op with
    | setA j a' =>
      show Is (.prim k (if j = i then a' else a) nc) (if j = i then _ else _)
      split <;> exact .prim _ _ _
    | setT j t =>
      cases k
      all_goals
        simp only [upd, SObj.setT, Def.assign]
        split <;> exact .prim _ _ _
    | setI j t =>
      cases k
      all_goals
        simp only [upd, SObj.setI, Def.assign]
        split <;> exact .prim _ _ _
    | _ => cases k <;> exact .prim _ _ _
  | lin cs g a =>
    cases op with
    | setA j a' =>
      show Is (.lin cs (if j = i then a' else a)) (if j = i then _ else _)
      split <;> exact .lin _ _ _
    | setT j t => show Is _ (if j = i then _ else _); split <;> exact .lin _ _ _
    | setI j t => show Is _ (if j = i then _ else _); split <;> exact .lin _ _ _
    | _ => exact .lin _ _ _

theorem Is.foldl {i : ℕ} : ∀ (ops : List LOp) {d : Def} {o : SObj}, Is d o → Is (ops.foldl (Def.assign i) d) (ops.foldl (upd i) o) := by
  intro ops
  induction ops with
  | nil => exact fun h => h
  | cons op ops ih => exact fun h => ih (h.assign i op)

theorem run_attrs (i : ℕ) : ∀ (ops : List LOp) (h : Heap) (_ : h.objs.length ≤ i) (_ : Sound h.objs.length ops) (d : Def),
    attrs i h.objs.length ops = some d → ∃ o, (exec h ops).objs[i]? = some o ∧ Is d o := by
  intro ops
  induction ops with
  | nil => intro h _ _ d hd; cases hd
  | cons op ops ih =>
    intro h hi hs d hd
    have hl := step_length h op hs
    have ht := hs.tail
    rw [← hl] at ht
    have hnew : ∀ (d0 : Def) (o0 : SObj), op.new = 1 → (act h op).objs = h.objs ++ [o0] → Is d0 o0 →
        (if h.objs.length = i then some (ops.foldl (Def.assign i) d0) else attrs i (h.objs.length + 1) ops) = some d →
        ∃ o, (exec h (op :: ops)).objs[i]? = some o ∧ Is d o := by
      intro d0 o0 h1 he hI hd
      by_cases e : h.objs.length = i
      · rw [if_pos e] at hd
        cases hd
        rw [run_cons, run_old ops (act h op) (by omega) ht, he, ← e, List.getElem?_concat_length]
        exact ⟨_, rfl, hI.foldl ops⟩
      · rw [if_neg e] at hd
        rw [run_cons]
        exact ih (act h op) (by omega) ht d (by rw [hl, h1]; exact hd)
    cases op with
    | prim k a nc => exact hnew _ _ rfl rfl (.prim k a nc) hd
    | lin cs a => exact hnew _ _ rfl (by rw [show act h (.lin cs a) = _ from if_pos hs.1]) (.lin cs _ a) hd
    | eval j a b c e pd => rw [run_cons]; exact ih _ (by rw [hl]; exact hi) ht d (by rw [hl]; exact hd)
    | backend b => rw [run_cons]; exact ih _ (by rw [hl]; exact hi) ht d (by rw [hl]; exact hd)
    | setA j a => rw [run_cons]; exact ih _ (by rw [hl]; exact hi) ht d (by rw [hl]; exact hd)
    | setT j a => rw [run_cons]; exact ih _ (by rw [hl]; exact hi) ht d (by rw [hl]; exact hd)
    | setI j a => rw [run_cons]; exact ih _ (by rw [hl]; exact hi) ht d (by rw [hl]; exact hd)

theorem mapM_some_of {α β : Type} {f : α → Option β} : ∀ {l : List α} {ss : List β}, ss.length = l.length →
    (∀ (k : ℕ) (c : α) (s : β), l[k]? = some c → ss[k]? = some s → f c = some s) → l.mapM f = some ss := by
  intro l
  induction l with
  | nil =>
    intro ss hl _
    rw [List.length_nil, List.length_eq_zero_iff] at hl
    subst hl; rfl
  | cons a l ih =>
    intro ss hl h
    cases ss with
    | nil => simp at hl
    | cons s ss =>
      rw [List.mapM_cons, h 0 a s rfl rfl, ih (by simpa using hl) fun k c s hc hs => h (k + 1) c s (by simpa using hc) (by simpa using hs)]
      rfl

theorem assign_lin (i : ℕ) : ∀ (ops : List LOp) {d : Def} {cs : List (Expr × ℕ)} {a : A3}, ops.foldl (Def.assign i) d = .lin cs a →
    ∃ a', d = .lin cs a' := by
  intro ops
  induction ops with
  | nil => exact fun h => ⟨_, h⟩
  | cons op ops ih =>
    intro d cs a h
    obtain ⟨a', h'⟩ := ih h
    cases d with
    | prim k b nc => cases k <;> cases op <;> cases h'
    | lin cs' b =>
      cases op <;> cases h' <;> exact ⟨_, rfl⟩

/-- The parts of a combination are older. -/
theorem attrs_older (i : ℕ) : ∀ (ops : List LOp) (n : ℕ) {cs : List (Expr × ℕ)} {a : A3}, Sound n ops → attrs i n ops = some (.lin cs a) →
    ∀ c ∈ cs, c.2 < i := by
  intro ops
  induction ops with
  | nil => intro n cs a _ h; cases h
  | cons op ops ih =>
    intro n cs a hs h
    cases op with
    | prim k b nc =>
      simp only [attrs] at h
      split at h
      · obtain ⟨a', h'⟩ := assign_lin i ops (Option.some.inj h)
        cases h'
      · exact ih _ hs h
    | lin cs' b =>
      simp only [attrs] at h
      split at h
      · next e =>
        obtain ⟨a', h'⟩ := assign_lin i ops (Option.some.inj h)
        cases h'
        rw [← e]; exact hs.1
      · exact ih _ hs.2 h
    | eval j a b c e pd => exact ih _ hs h
    | backend b => exact ih _ hs h
    | setA j a => exact ih _ hs h
    | setT j a => exact ih _ hs h
    | setI j a => exact ih _ hs h

/-- The current attributes stand for what the program says. -/
theorem Means.scatterOf {b : Backend} {ops : List LOp} (hs : Sound 0 ops) {i : ℕ} {s : Scatter} (h : Means ops i s) :
    Live.scatterOf (exec (start b) ops).objs i = some s := by
  induction h with
  | prim h =>
    obtain ⟨o, ho, hi⟩ := run_attrs _ ops (start b) (Nat.zero_le _) hs _ h
    cases hi
    rw [Live.scatterOf, ho]
  | @lin i cs ss a h hl _ ih =>
    obtain ⟨o, ho, hi⟩ := run_attrs _ ops (start b) (Nat.zero_le _) hs _ h
    cases hi
    have ho' := attrs_older _ ops 0 hs h
    rw [Live.scatterOf, ho]
    dsimp only
    rw [mapM_some_of (ss := ss) (by rw [List.length_map]; exact hl)]
    · rfl
    · intro k c s hc hk
      rw [List.getElem?_map, Option.map_eq_some_iff] at hc
      obtain ⟨c', hc', rfl⟩ := hc
      rw [dif_pos (ho' c' (List.mem_of_getElem? hc'))]
      exact ih k c' s hc' hk

/-- The number of objects a program creates. -/
def created (ops : List LOp) : ℕ := (ops.map LOp.new).sum

theorem attrs_some (i : ℕ) : ∀ (ops : List LOp) (n : ℕ), n ≤ i → i < n + created ops → ∃ d, attrs i n ops = some d := by
  intro ops
  induction ops with
  | nil => intro n h1 h2; simp [created] at h2; omega
  | cons op ops ih =>
    intro n h1 h2
    have hc : created (op :: ops) = op.new + created ops := by simp [created]
    rw [hc] at h2
    cases op with
    | prim k b nc =>
      simp only [attrs]
      split
      · exact ⟨_, rfl⟩
      · exact ih _ (by omega) (by simp only [LOp.new] at h2; omega)
    | lin cs' b =>
      simp only [attrs]
      split
      · exact ⟨_, rfl⟩
      · exact ih _ (by omega) (by simp only [LOp.new] at h2; omega)
    | eval j a b c e pd => exact ih _ h1 (by simp only [LOp.new] at h2; omega)
    | backend b => exact ih _ h1 (by simp only [LOp.new] at h2; omega)
    | setA j a => exact ih _ h1 (by simp only [LOp.new] at h2; omega)
    | setT j a => exact ih _ h1 (by simp only [LOp.new] at h2; omega)
    | setI j a => exact ih _ h1 (by simp only [LOp.new] at h2; omega)

/-- Every object stands for something. -/
theorem means_total {ops : List LOp} (hs : Sound 0 ops) {i : ℕ} : i < created ops → ∃ s, Means ops i s := by
  induction i using Nat.strong_induction_on with
  | _ i ih =>
    intro hi
    obtain ⟨d, hd⟩ := attrs_some i ops 0 (Nat.zero_le _) (by omega)
    cases d with
    | prim k a nc => exact ⟨_, .prim hd⟩
    | lin cs a =>
      have ho := attrs_older i ops 0 hs hd
      have hex : ∀ c ∈ cs, ∃ s, Means ops c.2 s := fun c hc => ih c.2 (ho c hc) (lt_trans (ho c hc) hi)
      have : Nonempty Scatter := ⟨.prim .volIsotropic volA none⟩
      choose! g hg using hex
      refine ⟨_, .lin (ss := cs.map g) hd (List.length_map _) fun k c s hc hk => ?_⟩
      rw [List.getElem?_map, hc] at hk
      cases hk
      exact hg c (List.mem_of_getElem? hc)

theorem run_length : ∀ (ops : List LOp) (h : Heap), Sound h.objs.length ops → (exec h ops).objs.length = h.objs.length + created ops := by
  intro ops
  induction ops with
  | nil => intro h _; simp [exec, created]
  | cons op ops ih =>
    intro h hs
    have hl := step_length h op hs
    rw [run_cons, ih _ (by rw [hl]; exact hs.tail), hl]
    simp [created, Nat.add_assoc]

theorem Sound.left : ∀ {l m : List LOp} {n : ℕ}, Sound n (l ++ m) → Sound n l := by
  intro l
  induction l with
  | nil => exact fun _ => trivial
  | cons op l ih =>
    intro m n h
    cases op with
    | lin cs a => exact ⟨h.1, ih h.2⟩
    | prim k a nc => exact ih (n := n + 1) h
    | eval j a b c e pd => exact ih (n := n) h
    | backend b => exact ih (n := n) h
    | setA j a => exact ih (n := n) h
    | setT j a => exact ih (n := n) h
    | setI j a => exact ih (n := n) h

theorem means_of_scatterOf {b : Backend} {ops : List LOp} (hs : Sound 0 ops) {i : ℕ} {s : Scatter}
    (h : scatterOf (exec (start b) ops).objs i = some s) : Means ops i s := by
  have hi : i < created ops := by
    have hl := run_length ops (start b) hs
    by_contra hn
    rw [scatterOf, List.getElem?_eq_none (by rw [hl]; show 0 + created ops ≤ i; omega)] at h
    cases h
  obtain ⟨s', hs'⟩ := means_total hs hi
  rw [hs'.scatterOf hs] at h
  cases h
  exact hs'

theorem Means.unique {ops : List LOp} (hs : Sound 0 ops) {i : ℕ} {s s' : Scatter} (h : Means ops i s) (h' : Means ops i s') : s = s' :=
  Option.some.inj ((h.scatterOf (b := .sympy) hs).symm.trans (h'.scatterOf hs))

/-- Where the functions in the table come from. -/
def From (b : Backend) (ops : List LOp) (k : ℕ × List String) (f : Lam × Backend) : Prop :=
  ∃ pre e post s, ops = pre ++ e :: post ∧ e.evaluated = some k ∧ Means pre k.1 s ∧ f.2 = selected b pre ∧
    Lam.compile (selected b pre) (["theta_0", "theta_ex", "phi_0", "phi_ex"] ++ k.2) s.phase = .ok f.1

theorem From.snoc {b : Backend} {ops : List LOp} {k : ℕ × List String} {f : Lam × Backend} (h : From b ops k f) (op : LOp) :
    From b (ops ++ [op]) k f := by
  obtain ⟨pre, e, post, s, rfl, h⟩ := h
  exact ⟨pre, e, post ++ [op], s, by simp, h⟩

theorem run_from (b : Backend) (ops : List LOp) (hs : Sound 0 ops) : TabOK (exec (start b) ops).memo (From b ops) := by
  induction ops using List.reverseRecOn with
  | nil => exact TabOK.nil _
  | append_singleton ops op ih =>
    have ih := (ih hs.left).mono fun k f h => h.snoc op
    rw [run_append]
    show TabOK (act (exec (start b) ops) op).memo _
    cases op with
    | eval i a1 a2 a3 a4 pd =>
      show TabOK (evalFn i a1 a2 a3 a4 pd (exec (start b) ops)).2.memo _
      rw [evalFn_snd]
      unfold lambdaFunc
      cases hf : LRU.find (exec (start b) ops).memo (i, pd.keys) with
      | some f => exact ih.put (ih _ _ hf)
      | none =>
        dsimp only
        cases hsc : scatterOf (exec (start b) ops).objs i with
        | none => exact ih
        | some s =>
          dsimp only
          cases hc : Lam.compile (exec (start b) ops).backend (["theta_0", "theta_ex", "phi_0", "phi_ex"] ++ pd.keys) s.phase with
          | error e => exact ih
          | ok f =>
            have hb := backend_run ops (start b)
            refine ih.put ⟨ops, _, [], s, rfl, rfl, means_of_scatterOf hs.left hsc, hb, ?_⟩
            rw [hb] at hc
            exact hc
    | lin cs a =>
      show TabOK (if _ then _ else _ : Heap).memo _
      split
      · exact ih
      · exact ih
    | _ => exact ih

theorem Def.assign_still (i : ℕ) (d : Def) {op : LOp} (h : op.Still) : d.assign i op = d := by
  cases op with
  | prim => cases d with
    | lin => rfl
    | prim k => cases k <;> rfl
  | lin => cases d with
    | lin => rfl
    | prim k => cases k <;> rfl
  | eval => cases d with
    | lin => rfl
    | prim k => cases k <;> rfl
  | _ => exact absurd h id

theorem attrs_still (i : ℕ) {l : List LOp} : ∀ (m : List LOp) (n : ℕ) {d : Def}, (∀ op ∈ l, op.Still) → attrs i n m = some d →
    attrs i n (m ++ l) = some d := by
  intro m
  have hfold : ∀ (l : List LOp) (d : Def), (∀ op ∈ l, op.Still) → l.foldl (Def.assign i) d = d := by
    intro l
    induction l with
    | nil => exact fun _ _ => rfl
    | cons op l ih =>
      intro d h
      rw [List.foldl_cons, Def.assign_still i d (h op List.mem_cons_self), ih d fun o ho => h o (List.mem_cons_of_mem _ ho)]
  induction m with
  | nil => intro n d _ h; cases h
  | cons op m ih =>
    intro n d hl h
    cases op with
    | prim k a nc =>
      rw [List.cons_append]
      simp only [attrs] at h ⊢
      by_cases e : n = i
      · rw [if_pos e] at h ⊢
        rw [List.foldl_append, hfold l _ hl]; exact h
      · rw [if_neg e] at h ⊢
        exact ih _ hl h
    | lin cs a =>
      rw [List.cons_append]
      simp only [attrs] at h ⊢
      by_cases e : n = i
      · rw [if_pos e] at h ⊢
        rw [List.foldl_append, hfold l _ hl]; exact h
      · rw [if_neg e] at h ⊢
        exact ih _ hl h
    | eval j a b c e pd => exact ih n hl h
    | backend b => exact ih n hl h
    | setA j a => exact ih n hl h
    | setT j a => exact ih n hl h
    | setI j a => exact ih n hl h

theorem Means.still {m l : List LOp} (hl : ∀ op ∈ l, op.Still) {i : ℕ} {s : Scatter} (h : Means m i s) : Means (m ++ l) i s := by
  induction h with
  | prim h => exact .prim (attrs_still _ _ _ hl h)
  | lin h h1 _ ih => exact .lin (attrs_still _ _ _ hl h) h1 ih

theorem selected_append (b : Backend) (l m : List LOp) : selected b (l ++ m) = selected (selected b l) m := by
  induction l generalizing b with
  | nil => rfl
  | cons op l ih => cases op <;> exact ih _

theorem selected_still (b : Backend) {l : List LOp} (hl : ∀ op ∈ l, op.Still) : selected b l = b := by
  induction l generalizing b with
  | nil => rfl
  | cons op l ih =>
    have ih := ih b fun o ho => hl o (List.mem_cons_of_mem _ ho)
    cases op with
    | backend b' => exact absurd (hl _ List.mem_cons_self) id
    | _ => exact ih

/-- A compiled function gives the value of the definition it was compiled from. -/
theorem calcVal_of_compile {b : Backend} {s : Scatter} {f : Lam} {pd : Dict}
    (h : Lam.compile b (["theta_0", "theta_ex", "phi_0", "phi_ex"] ++ pd.keys) s.phase = .ok f) (t0 tex p0 pex : Arr) :
    f.call b [t0, tex, p0, pex] pd = s.calcVal b t0 tex p0 pex pd := by
  unfold Scatter.calcVal
  rw [h]; rfl

/-! ### expansions -/

theorem addGroup_congr {l l' : List SObj} {p : Expr × ℕ} (h : l[p.2]?.map SObj.a = l'[p.2]?.map SObj.a) (gs : List (A3 × List (Expr × ℕ))) :
    addGroup l gs p = addGroup l' gs p := by
  unfold addGroup
  cases h1 : l[p.2]? with
  | none =>
    rw [h1, Option.map_none] at h
    cases h2 : l'[p.2]? with
    | none => rfl
    | some o => rw [h2] at h; cases h
  | some o =>
    rw [h1] at h
    cases h2 : l'[p.2]? with
    | none => rw [h2] at h; cases h
    | some o' =>
      rw [h2] at h
      dsimp only
      rw [Option.some.inj h]

theorem groups_congr {l l' : List SObj} : ∀ {cs : List (Expr × ℕ)} (gs : List (A3 × List (Expr × ℕ))),
    (∀ c ∈ cs, l[c.2]?.map SObj.a = l'[c.2]?.map SObj.a) → cs.foldl (addGroup l) gs = cs.foldl (addGroup l') gs := by
  intro cs
  induction cs with
  | nil => exact fun _ _ => rfl
  | cons c cs ih =>
    intro gs h
    rw [List.foldl_cons, List.foldl_cons, addGroup_congr (h c List.mem_cons_self), ih _ fun c' hc => h c' (List.mem_cons_of_mem _ hc)]

/-- The groups of the combinations are those of the current attributes. -/
def Grouped (L : List LOp) (l : List SObj) : Prop :=
  ∀ i ws os gs a, l[i]? = some (.lin ws os gs a) → ∃ cs, (∃ a', LOp.lin cs a' ∈ L) ∧ ws = cs.map Prod.fst ∧ os = cs.map Prod.snd ∧
    gs = cs.foldl (addGroup l) [] ∧ ∀ c ∈ cs, c.2 < i

theorem Grouped.append {L : List LOp} {l : List SObj} (h : Grouped L l) {o : SObj}
    (ho : ∀ ws os gs a, o = .lin ws os gs a → ∃ cs, (∃ a', LOp.lin cs a' ∈ L) ∧ ws = cs.map Prod.fst ∧ os = cs.map Prod.snd ∧
      gs = cs.foldl (addGroup l) [] ∧ ∀ c ∈ cs, c.2 < l.length) : Grouped L (l ++ [o]) := by
  have hsame : ∀ {j : ℕ}, j < l.length → l[j]?.map SObj.a = (l ++ [o])[j]?.map SObj.a := fun hj => by
    rw [List.getElem?_append_left hj]
  intro i ws os gs a hi
  by_cases hl : i < l.length
  · rw [List.getElem?_append_left hl] at hi
    obtain ⟨cs, h0, h1, h2, h3, h4⟩ := h i ws os gs a hi
    exact ⟨cs, h0, h1, h2, by rw [h3]; exact groups_congr _ fun c hc => hsame (lt_trans (h4 c hc) hl), h4⟩
  · have hlt : i < (l ++ [o]).length := by
      by_contra hn
      rw [List.getElem?_eq_none (by omega)] at hi; cases hi
    have e : i = l.length := by rw [List.length_append, List.length_singleton] at hlt; omega
    rw [e, List.getElem?_concat_length] at hi
    obtain ⟨cs, h0, h1, h2, h3, h4⟩ := ho ws os gs a (Option.some.inj hi)
    exact ⟨cs, h0, h1, h2, by rw [h3]; exact groups_congr _ fun c hc => hsame (h4 c hc), by rw [e]; exact h4⟩

theorem Grouped.modify {L : List LOp} {l : List SObj} (h : Grouped L l) {j : ℕ} {f : SObj → SObj}
    (hf : ∀ ws os gs a, ∃ a', f (.lin ws os gs a) = .lin ws os gs a') (hp : ∀ k a nc, ∃ k' a' nc', f (.prim k a nc) = .prim k' a' nc')
    (hk : (∀ o, (f o).a = o.a) ∨ ∀ cs a, LOp.lin cs a ∈ L → ∀ c ∈ cs, c.2 ≠ j) : Grouped L (l.modify j f) := by
  intro i ws os gs a hi
  have hold : ∃ a', l[i]? = some (.lin ws os gs a') := by
    rw [List.getElem?_modify] at hi
    by_cases e : j = i
    · simp only [e, if_true] at hi
      cases hli : l[i]? with
      | none => rw [hli] at hi; cases hi
      | some o =>
        rw [hli] at hi
        have hi : f o = .lin ws os gs a := Option.some.inj hi
        cases o with
        | prim k b nc =>
          obtain ⟨k', b', nc', e'⟩ := hp k b nc
          rw [e'] at hi; cases hi
        | lin ws' os' gs' b =>
          obtain ⟨b', e'⟩ := hf ws' os' gs' b
          rw [e'] at hi; cases hi
          exact ⟨_, rfl⟩
    · simp only [e, if_false] at hi
      exact ⟨a, by simpa using hi⟩
  obtain ⟨a', ha⟩ := hold
  obtain ⟨cs, ⟨a0, h0⟩, h1, h2, h3, h4⟩ := h i ws os gs a' ha
  refine ⟨cs, ⟨a0, h0⟩, h1, h2, ?_, h4⟩
  rw [h3]
  refine groups_congr _ fun c hc => ?_
  rw [List.getElem?_modify, Option.map_eq_map, Option.map_map]
  by_cases e : j = c.2
  · rcases hk with hk | hk
    · have e' : SObj.a ∘ (fun a => if j = c.2 then f a else a) = SObj.a := by
        funext o; simp only [Function.comp, e, if_true]; exact hk o
      exact (congrArg (fun g => Option.map g l[c.2]?) e').symm
    · exact absurd e.symm (hk cs a0 h0 c hc)
  · have e' : SObj.a ∘ (fun a => if j = c.2 then f a else a) = SObj.a := by
      funext o; simp only [Function.comp, e, if_false]
    exact (congrArg (fun g => Option.map g l[c.2]?) e').symm

theorem SObj.setT_a (t : Expr) (o : SObj) : (o.setT t).a = o.a := by
  cases o with
  | lin => rfl
  | prim k a nc => cases k <;> rfl

theorem SObj.setI_a (n : ℕ) (o : SObj) : (o.setI n).a = o.a := by
  cases o with
  | lin => rfl
  | prim k a nc => cases k <;> rfl

theorem run_grouped {L : List LOp} (hk : ∀ j a, LOp.setA j a ∈ L → ∀ cs a', LOp.lin cs a' ∈ L → ∀ c ∈ cs, c.2 ≠ j) :
    ∀ (ops : List LOp) (h : Heap), (∀ op ∈ ops, op ∈ L) → Grouped L h.objs → Grouped L (exec h ops).objs := by
  intro ops
  induction ops with
  | nil => exact fun _ _ hg => hg
  | cons op ops ih =>
    intro h hL hg
    rw [run_cons]
    refine ih _ (fun o ho => hL o (List.mem_cons_of_mem _ ho)) ?_
    have hop := hL op List.mem_cons_self
    cases op with
    | prim k a nc => exact hg.append fun _ _ _ _ e => by cases e
    | lin cs a =>
      show Grouped L (if _ then _ else _ : Heap).objs
      split
      · next hc =>
        refine hg.append fun ws os gs a' e => ?_
        cases e
        exact ⟨cs, ⟨a, hop⟩, rfl, rfl, rfl, hc⟩
      · exact hg
    | eval i a b c d pd =>
      show Grouped L (evalFn i a b c d pd h).2.objs
      rw [evalFn_snd, lambdaFunc_objs]; exact hg
    | backend b => exact hg
    | setA j a => exact hg.modify (fun _ _ _ _ => ⟨_, rfl⟩) (fun _ _ _ => ⟨_, _, _, rfl⟩) (.inr (hk j a hop))
    | setT j t =>
      exact hg.modify (fun _ _ _ _ => ⟨_, rfl⟩) (fun k _ _ => by cases k <;> exact ⟨_, _, _, rfl⟩) (.inl (SObj.setT_a t))
    | setI j n =>
      exact hg.modify (fun _ _ _ _ => ⟨_, rfl⟩) (fun k _ _ => by cases k <;> exact ⟨_, _, _, rfl⟩) (.inl (SObj.setI_a n))

theorem scatterOf_a {l : List SObj} {j : ℕ} {s : Scatter} (h : scatterOf l j = some s) : l[j]?.map SObj.a = some s.a := by
  rw [scatterOf] at h
  cases hj : l[j]? with
  | none => rw [hj] at h; cases h
  | some o =>
    rw [hj] at h
    cases o with
    | prim k a nc => cases h; rfl
    | lin ws os gs a =>
      dsimp only at h
      obtain ⟨ss, -, rfl⟩ := Option.map_eq_some_iff.mp h
      rfl

/-- References replaced by what they stand for. -/
def resolve (g : ℕ → Scatter) (gs : List (A3 × List (Expr × ℕ))) : List (A3 × List (Expr × Scatter)) :=
  gs.map fun p => (p.1, p.2.map fun q => (q.1, g q.2))

theorem resolve_addGroup {l : List SObj} {g : ℕ → Scatter} {p : Expr × ℕ} (hp : scatterOf l p.2 = some (g p.2)) (gs : List (A3 × List (Expr × ℕ))) :
    Scatter.addGroup (resolve g gs) (p.1, g p.2) = resolve g (addGroup l gs p) := by
  have ha := scatterOf_a hp
  cases ho : l[p.2]? with
  | none => rw [ho] at ha; cases ha
  | some o =>
    rw [ho] at ha
    have ha : o.a = (g p.2).a := Option.some.inj ha
    unfold addGroup
    rw [ho]
    dsimp only
    rw [ha]
    induction gs with
    | nil => rfl
    | cons q gs ih =>
      obtain ⟨k, m⟩ := q
      show (if k = (g p.2).a then _ else _) = resolve g (if k = (g p.2).a then _ else _)
      by_cases e : k = (g p.2).a
      · rw [if_pos e, if_pos e]
        simp [resolve]
      · rw [if_neg e, if_neg e]
        exact congrArg (List.cons _) ih

theorem resolve_groups {l : List SObj} {g : ℕ → Scatter} : ∀ {cs : List (Expr × ℕ)} (gs : List (A3 × List (Expr × ℕ))),
    (∀ c ∈ cs, scatterOf l c.2 = some (g c.2)) →
    (cs.map fun c => (c.1, g c.2)).foldl Scatter.addGroup (resolve g gs) = resolve g (cs.foldl (addGroup l) gs) := by
  intro cs
  induction cs with
  | nil => exact fun _ _ => rfl
  | cons c cs ih =>
    intro gs h
    rw [List.map_cons, List.foldl_cons, List.foldl_cons, resolve_addGroup (h c List.mem_cons_self)]
    exact ih _ fun c' hc => h c' (List.mem_cons_of_mem _ hc)

/-- The groups contain nothing but the parts. -/
theorem groups_mem {l : List SObj} {Q : Expr × ℕ → Prop} : ∀ {cs : List (Expr × ℕ)} {gs : List (A3 × List (Expr × ℕ))},
    (∀ c ∈ cs, Q c) → (∀ p ∈ gs, ∀ q ∈ p.2, Q q) → ∀ p ∈ cs.foldl (addGroup l) gs, ∀ q ∈ p.2, Q q := by
  intro cs
  induction cs with
  | nil => exact fun _ h => h
  | cons c cs ih =>
    intro gs hc hg
    refine ih (fun c' h => hc c' (List.mem_cons_of_mem _ h)) ?_
    have hQ := hc c List.mem_cons_self
    unfold addGroup
    cases l[c.2]? with
    | none => exact hg
    | some o =>
      dsimp only
      clear ih hc
      induction gs with
      | nil =>
        intro p hp q hq
        rw [show addGroup.ins c o.a [] = [(o.a, [c])] from rfl, List.mem_singleton] at hp
        subst hp
        rw [List.mem_singleton] at hq
        subst hq; exact hQ
      | cons r gs ih =>
        obtain ⟨k, m⟩ := r
        have hg' : ∀ p ∈ gs, ∀ q ∈ p.2, Q q := fun p hp => hg p (List.mem_cons_of_mem _ hp)
        have hm := hg (k, m) List.mem_cons_self
        intro p hp q hq
        rw [show addGroup.ins c o.a ((k, m) :: gs) = if k = o.a then (k, m ++ [c]) :: gs else (k, m) :: addGroup.ins c o.a gs from rfl] at hp
        split at hp
        · rcases List.mem_cons.mp hp with rfl | hp
          · rcases List.mem_append.mp hq with hq | hq
            · exact hm q hq
            · rw [List.mem_singleton] at hq; subst hq; exact hQ
          · exact hg' p hp q hq
        · rcases List.mem_cons.mp hp with rfl | hp
          · exact hm q hq
          · exact ih hg' p hp q hq

theorem mapM_map_of {α β : Type} {f : α → Option β} {g : α → β} {l : List α} (h : ∀ a ∈ l, f a = some (g a)) : l.mapM f = some (l.map g) := by
  refine mapM_some_of (List.length_map _) fun k c s hc hs => ?_
  rw [List.getElem?_map, hc] at hs
  cases hs
  exact h c (List.mem_of_getElem? hc)

/-- The expansion of an object is that of what it stands for, if the groups are current. -/
theorem expansionOf_eq {R : Type} [CommRing R] [Algebra ℝ R] (emb : Expr → R) {L : List LOp} {l : List SObj} (hg : Grouped L l) {i : ℕ} {s : Scatter}
    (hs : scatterOf l i = some s) (t0 tex p0 pex : Scatter.Trig R) :
    expansionOf emb l t0 tex p0 pex i = s.legExpansion emb t0 tex p0 pex := by
  unfold expansionOf
  rw [scatterOf] at hs
  cases ho : l[i]? with
  | none => rw [ho] at hs; cases hs
  | some o =>
    rw [ho] at hs
    cases o with
    | prim k a nc => cases hs; rfl
    | lin ws os gs a =>
      dsimp only at hs ⊢
      obtain ⟨ss, hss, rfl⟩ := Option.map_eq_some_iff.mp hs
      obtain ⟨cs, -, rfl, rfl, rfl, hlt⟩ := hg i ws os gs a ho
      have : Nonempty Scatter := ⟨.prim .volIsotropic volA none⟩
      have hex : ∀ c ∈ cs, scatterOf l c.2 = some ((scatterOf l c.2).getD (.prim .volIsotropic volA none)) := by
        intro c hc
        cases hv : scatterOf l c.2 with
        | some v => rfl
        | none =>
          exfalso
          have : ∀ {os : List ℕ} {ss : List Scatter}, (os.mapM fun j => if _ : j < i then scatterOf l j else none) = some ss →
              ∀ j ∈ os, j < i → scatterOf l j ≠ none := by
            intro os
            induction os with
            | nil => intro ss _ j hj; cases hj
            | cons a os ih =>
              intro ss h j hj hji hn
              rw [List.mapM_cons] at h
              rcases List.mem_cons.mp hj with rfl | hj
              · rw [dif_pos hji, hn] at h; cases h
              · cases h1 : (if _ : a < i then scatterOf l a else none) with
                | none => rw [h1] at h; cases h
                | some v =>
                  rw [h1] at h
                  cases h2 : (os.mapM fun j => if _ : j < i then scatterOf l j else none) with
                  | none => rw [h2] at h; cases h
                  | some vs => exact ih h2 j hj hji hn
          exact this hss c.2 (List.mem_map_of_mem hc) (hlt c hc) hv
      generalize hgd : (fun j => (scatterOf l j).getD (.prim .volIsotropic volA none)) = g at *
      have hex' : ∀ c ∈ cs, scatterOf l c.2 = some (g c.2) := fun c hc => by rw [← hgd]; exact hex c hc
      have e1 : ss = cs.map fun c => g c.2 := by
        have := mapM_map_of (l := cs.map Prod.snd) (f := fun j => if _ : j < i then scatterOf l j else none) (g := g) (by
          intro j hj
          obtain ⟨c, hc, rfl⟩ := List.mem_map.mp hj
          rw [dif_pos (hlt c hc)]; exact hex' c hc)
        rw [hss] at this
        rw [Option.some.inj this, List.map_map]; rfl
      have e2 := mapM_map_of (l := cs.foldl (addGroup l) [])
        (f := fun g => (g.2.mapM fun p => (scatterOf l p.2).map fun s => (p.1, s)).map fun m => (g.1, m))
        (g := fun p => (p.1, p.2.map fun q => (q.1, g q.2))) (by
          intro p hp
          have hq := groups_mem (l := l) (Q := fun q => scatterOf l q.2 = some (g q.2)) hex' (by simp) p hp
          rw [mapM_map_of (g := fun q => (q.1, g q.2)) (fun q hq' => by rw [hq q hq']; rfl)]
          rfl)
      rw [e2]
      dsimp only
      show _ = Scatter.groupsExpansion emb t0 tex p0 pex (Scatter.aGroups (cs.map Prod.fst) ss)
      congr 1
      rw [e1]
      have e3 : (cs.map Prod.fst).zip (cs.map fun c => g c.2) = cs.map fun c => (c.1, g c.2) := by
        rw [List.zip_map', ]
      unfold Scatter.aGroups
      rw [e3]
      exact (resolve_groups [] hex').symm

end Live

end

end RT1
