import Verif.Spec.Switch
import Verif.Lemmas.SwitchSafe
import Verif.Lemmas.ParL
import Verif.Lemmas.Rows

/-! Evaluations of a program that switches backends, compared with evaluations that use one backend
only: between the sympy and the symengine result. -/

namespace RT1

noncomputable section
open Classical

/-! ### smaller arrays with the same entries -/

theorem Arr.Sub.refl (a : Arr) : Arr.Sub a a := ⟨Arr.Fits.refl _, fun _ => rfl⟩

theorem Arr.Sub.trans {a b c : Arr} (h : Arr.Sub a b) (h' : Arr.Sub b c) : Arr.Sub a c :=
  ⟨h.fits.trans h'.fits, fun idx => (h.val idx).trans (h'.val idx)⟩

theorem Arr.Sub.map {a b : Arr} (f : XR → XR) (h : Arr.Sub a b) : Arr.Sub (a.map f) (b.map f) :=
  ⟨h.fits, fun idx => by rw [Arr.at'_map, Arr.at'_map, h.val]⟩

theorem Arr.Sub.map2 {f : XR → XR → XR} {a b a' b' z' : Arr} (ha : Arr.Sub a a') (hb : Arr.Sub b b')
    (h : Arr.map2 f a' b' = .ok z') : ∃ z, Arr.map2 f a b = .ok z ∧ Arr.Sub z z' := by
  have hs := Arr.shape_map2 h
  obtain ⟨h1, h2⟩ := Arr.bshape_fits hs
  obtain ⟨u, hu, hf⟩ := Arr.bshape_of_fits (ha.fits.trans h1) (hb.fits.trans h2)
  have hz : Arr.map2 f a b = .ok ⟨u, fun i => f (a.at' i) (b.at' i)⟩ := by
    unfold Arr.map2
    rw [hu]
  refine ⟨_, hz, hf, fun idx => ?_⟩
  rw [Arr.at'_map2 hz, Arr.at'_map2 h, ha.val, hb.val]

/-! ### one evaluation -/

/-- `x` (with switching) compared with `y` (without): with `up`, if `y` succeeds then so does `x`;
otherwise the other way round.  The results are related by `R`; `P` is preserved. -/
def Sim {T : Type} (up : Bool) (P : World → Prop) {α β : Type} (R : α → β → Prop) (x : SM T α) (y : Py β) :
    Prop :=
  ∀ s, P s.1 → P (x s).2.1 ∧
    (up = true → ∀ b, y = .ok b → ∃ a, (x s).1 = .ok a ∧ R a b) ∧
    (up = false → ∀ a, (x s).1 = .ok a → ∃ b, y = .ok b ∧ R a b)

/-- The relation between arrays. -/
def Between (up : Bool) (a b : Arr) : Prop := if up = true then Arr.Sub a b else Arr.Sub b a

/-- The backend of the reference. -/
def refB (up : Bool) : Backend := if up = true then .symengine else .sympy

theorem Between.refl (up : Bool) (a : Arr) : Between up a a := by
  cases up <;> exact Arr.Sub.refl a

theorem Between.map {up : Bool} {a b : Arr} (f : XR → XR) (h : Between up a b) :
    Between up (a.map f) (b.map f) := by
  cases up <;> exact Arr.Sub.map f h

theorem Between.fits {up : Bool} {a b : Arr} (h : Between up a b) :
    (up = true → Arr.Fits a.shape b.shape) ∧ (up = false → Arr.Fits b.shape a.shape) := by
  cases up
  · exact ⟨(fun hh => by cases hh), fun _ => Arr.Sub.fits h⟩
  · exact ⟨fun _ => Arr.Sub.fits h, (fun hh => by cases hh)⟩

namespace Sim
variable {T : Type} {up : Bool} {P : World → Prop} {α β γ δ : Type}

theorem safe {R : α → β → Prop} {x : SM T α} {y : Py β} (h : Sim up P R x y) : SSafe P x :=
  fun s hs => (h s hs).1

theorem bind {R : α → β → Prop} {S : γ → δ → Prop} {x : SM T α} {y : Py β} {f : α → SM T γ} {g : β → Py δ}
    (h : Sim up P R x y) (hs : ∀ a, SSafe P (f a)) (hf : ∀ a b, R a b → Sim up P S (f a) (g b)) :
    Sim up P S (x >>= f) (y >>= g) := by
  intro s hP
  obtain ⟨h1, h2, h3⟩ := h s hP
  refine ⟨SSafe.bind h.safe hs s hP, fun hu d hd => ?_, fun hu c hc => ?_⟩
  · obtain ⟨b, hb, hd⟩ := ok_bind hd
    obtain ⟨a, ha, hr⟩ := h2 hu b hb
    have hx : x s = (.ok a, (x s).2) := Prod.ext ha rfl
    rw [SM.bind_ok hx]
    exact (hf a b hr (x s).2 h1).2.1 hu d hd
  · cases ha : (x s).1 with
    | error e =>
      have hx : x s = (.error e, (x s).2) := Prod.ext ha rfl
      rw [SM.bind_error hx] at hc
      cases hc
    | ok a =>
      have hx : x s = (.ok a, (x s).2) := Prod.ext ha rfl
      rw [SM.bind_ok hx] at hc
      obtain ⟨b, hb, hr⟩ := h3 hu a ha
      obtain ⟨d, hd, hr'⟩ := (hf a b hr (x s).2 h1).2.2 hu c hc
      refine ⟨d, ?_, hr'⟩
      rw [hb]
      exact hd

theorem pure {R : α → β → Prop} {a : α} {b : β} (h : R a b) : Sim (T := T) up P R (Pure.pure a) (Pure.pure b) := by
  intro s hs
  refine ⟨hs, fun _ b' hb => ⟨a, rfl, ?_⟩, fun _ a' ha => ⟨b, rfl, ?_⟩⟩
  · cases hb; exact h
  · cases ha; exact h

theorem mono {R S : α → β → Prop} {x : SM T α} {y : Py β} (h : Sim up P R x y) (hr : ∀ a b, R a b → S a b) :
    Sim up P S x y := by
  intro s hs
  obtain ⟨h1, h2, h3⟩ := h s hs
  refine ⟨h1, fun hu b hb => ?_, fun hu a ha => ?_⟩
  · obtain ⟨a, ha, h⟩ := h2 hu b hb
    exact ⟨a, ha, hr a b h⟩
  · obtain ⟨b, hb, h⟩ := h3 hu a ha
    exact ⟨b, hb, hr a b h⟩

theorem lift {R : α → β → Prop} {x : Py α} {y : Py β}
    (h2 : up = true → ∀ b, y = .ok b → ∃ a, x = .ok a ∧ R a b)
    (h3 : up = false → ∀ a, x = .ok a → ∃ b, y = .ok b ∧ R a b) :
    Sim (T := T) up P R (liftPy x) (liftPy y) := by
  intro s hs
  have e : ((liftPy x : SM T α) s).1 = x := by cases x <;> rfl
  refine ⟨SSafe.lift x s hs, fun hu b hb => ?_, fun hu a ha => ?_⟩
  · rw [liftPy_py] at hb
    rw [e]
    exact h2 hu b hb
  · rw [e] at ha
    rw [liftPy_py]
    exact h3 hu a ha

theorem lift_eq {x : Py α} : Sim (T := T) up P Eq (liftPy x) (liftPy x) :=
  lift (fun _ b hb => ⟨b, hb, rfl⟩) (fun _ a ha => ⟨a, ha, rfl⟩)

theorem map2 {f : XR → XR → XR} {a b c d : Arr} (h : Between up a b) (h' : Between up c d) :
    Sim (T := T) up P (Between up) (liftPy (Arr.map2 f a c)) (liftPy (Arr.map2 f b d)) := by
  refine lift (fun hu z hz => ?_) (fun hu z hz => ?_)
  · subst hu
    obtain ⟨y, h1, h2⟩ := Arr.Sub.map2 (f := f) h h' hz
    exact ⟨y, h1, h2⟩
  · subst hu
    obtain ⟨y, h1, h2⟩ := Arr.Sub.map2 (f := f) h h' hz
    exact ⟨y, h1, h2⟩

section ops
variable {x x' : SM T Arr} {y y' : Py Arr}
local notation "B" => Between up
theorem mulM (h : Sim up P B x y) (h' : Sim up P B x' y') : Sim up P B (RT1.mulM x x') (RT1.mulM y y') :=
  bind h (fun _ => SSafe.bind h'.safe fun _ => SSafe.lift _) fun _ _ r =>
    bind h' (fun _ => SSafe.lift _) fun _ _ r' => map2 r r'
theorem divM (h : Sim up P B x y) (h' : Sim up P B x' y') : Sim up P B (RT1.divM x x') (RT1.divM y y') :=
  bind h (fun _ => SSafe.bind h'.safe fun _ => SSafe.lift _) fun _ _ r =>
    bind h' (fun _ => SSafe.lift _) fun _ _ r' => map2 r r'
theorem addM (h : Sim up P B x y) (h' : Sim up P B x' y') : Sim up P B (RT1.addM x x') (RT1.addM y y') :=
  bind h (fun _ => SSafe.bind h'.safe fun _ => SSafe.lift _) fun _ _ r =>
    bind h' (fun _ => SSafe.lift _) fun _ _ r' => map2 r r'
theorem subM (h : Sim up P B x y) (h' : Sim up P B x' y') : Sim up P B (RT1.subM x x') (RT1.subM y y') :=
  bind h (fun _ => SSafe.bind h'.safe fun _ => SSafe.lift _) fun _ _ r =>
    bind h' (fun _ => SSafe.lift _) fun _ _ r' => map2 r r'
theorem mapM' (f : XR → XR) (h : Sim up P B x y) : Sim up P B (RT1.mapM' f x) (RT1.mapM' f y) :=
  bind h (fun _ => SSafe.pure _) fun _ _ r => pure (r.map f)
theorem negM (h : Sim up P B x y) : Sim up P B (RT1.negM x) (RT1.negM y) := mapM' _ h
theorem expM (h : Sim up P B x y) : Sim up P B (RT1.expM x) (RT1.expM y) := mapM' _ h
theorem litM (r : ℝ) : Sim (T := T) up P B (RT1.litM r) (RT1.litM r) := pure (Between.refl _ _)
theorem arr (h : Sim up P Eq x y) : Sim up P B x y := mono h fun a b e => by rw [e]; exact Between.refl _ _
end ops

end Sim

/-! ### arrays with the same entries -/

/-- The same shape and the same entries. -/
def Arr.Same (a b : Arr) : Prop := a.shape = b.shape ∧ ∀ idx, a.at' idx = b.at' idx

namespace Arr.Same

theorem refl (a : Arr) : Arr.Same a a := ⟨rfl, fun _ => rfl⟩

theorem of_sub {a y b : Arr} (h1 : Arr.Sub a y) (h2 : Arr.Sub y b) (h : a.shape = b.shape) : Arr.Same y a :=
  ⟨h2.fits.antisymm (by rw [← h]; exact h1.fits) |>.trans h.symm, fun idx => (h1.val idx).symm⟩

theorem map2 {f : XR → XR → XR} {a b a' b' z' : Arr} (ha : Arr.Same a a') (hb : Arr.Same b b')
    (h : Arr.map2 f a' b' = .ok z') : ∃ z, Arr.map2 f a b = .ok z ∧ Arr.Same z z' := by
  have hs := Arr.shape_map2 h
  rw [← ha.1, ← hb.1] at hs
  have hz : Arr.map2 f a b = .ok ⟨z'.shape, fun i => f (a.at' i) (b.at' i)⟩ := by
    unfold Arr.map2
    rw [hs]
  refine ⟨_, hz, rfl, fun idx => ?_⟩
  rw [Arr.at'_map2 hz, Arr.at'_map2 h, ha.2, hb.2]

theorem _root_.RT1.Arr.bidx_dropLast (s : List ℕ) (n : ℕ) (idx : List ℕ) :
    bidx s (bidx (s ++ [n]) idx).dropLast = (bidx (s ++ [n]) idx).dropLast := by
  induction s generalizing idx with
  | nil =>
    cases idx with
    | nil => rfl
    | cons i idx => rfl
  | cons a s ih =>
    cases idx with
    | nil => rfl
    | cons i idx =>
      have hb := ih idx
      show bidx (a :: s) ((if a = 1 then 0 else i) :: bidx (s ++ [n]) idx).dropLast =
        ((if a = 1 then 0 else i) :: bidx (s ++ [n]) idx).dropLast
      cases hc : bidx (s ++ [n]) idx with
      | nil => rfl
      | cons j l =>
        rw [hc] at hb
        rw [List.dropLast_cons_of_ne_nil (by simp)]
        show (if a = 1 then 0 else if a = 1 then 0 else i) :: bidx s (j :: l).dropLast = _
        rw [hb]
        by_cases ha : a = 1 <;> simp [ha]

theorem stack3 {a b c a' b' c' z' : Arr} (ha : Arr.Same a a') (hb : Arr.Same b b') (hc : Arr.Same c c')
    (h : Arr.stack [a', b', c'] = .ok z') : ∃ z, Arr.stack [a, b, c] = .ok z ∧ Arr.Same z z' := by
  unfold Arr.stack at h ⊢
  simp only at h ⊢
  split_ifs at h with hsh
  cases h
  have s1 : b.shape = a.shape := by rw [hb.1, ha.1]; exact hsh b' (by simp)
  have s2 : c.shape = a.shape := by rw [hc.1, ha.1]; exact hsh c' (by simp)
  rw [if_pos (by
    intro y hy
    simp only [List.mem_cons, List.not_mem_nil, or_false] at hy
    rcases hy with rfl | rfl
    · exact s1
    · exact s2)]
  refine ⟨_, rfl, by show a.shape ++ _ = a'.shape ++ _; rw [ha.1]; rfl, fun idx => ?_⟩
  show (match [a, b, c][(bidx (a.shape ++ [3]) idx).getLastD 0]? with
      | some y => y.get (bidx (a.shape ++ [3]) idx).dropLast | none => XR.nan) =
    (match [a', b', c'][(bidx (a'.shape ++ [3]) idx).getLastD 0]? with
      | some y => y.get (bidx (a'.shape ++ [3]) idx).dropLast | none => XR.nan)
  rw [← ha.1]
  have key : ∀ {y y' : Arr}, Arr.Same y y' → y.shape = a.shape →
      y.get (bidx (a.shape ++ [3]) idx).dropLast = y'.get (bidx (a.shape ++ [3]) idx).dropLast := by
    intro y y' hy hs
    have := hy.2 (bidx (a.shape ++ [3]) idx).dropLast
    unfold Arr.at' at this
    rw [← hy.1, hs, Arr.bidx_dropLast] at this
    exact this
  generalize (bidx (a.shape ++ [3]) idx).getLastD 0 = k
  match k with
  | 0 => exact key ha rfl
  | 1 => exact key hb s1
  | 2 => exact key hc s2
  | k + 3 => rfl

end Arr.Same

/-- `x` succeeds, with a result that is related to `b`. -/
def SRuns {T : Type} (P : World → Prop) {α β : Type} (R : α → β → Prop) (x : SM T α) (b : β) : Prop :=
  ∀ s, P s.1 → P (x s).2.1 ∧ ∃ a, (x s).1 = .ok a ∧ R a b

namespace SRuns
variable {T : Type} {P : World → Prop} {α β γ δ : Type}

theorem bind {R : α → β → Prop} {S : γ → δ → Prop} {x : SM T α} {b : β} {f : α → SM T γ} {d : δ}
    (h : SRuns P R x b) (hf : ∀ a, R a b → SRuns P S (f a) d) : SRuns P S (x >>= f) d := by
  intro s hP
  obtain ⟨h1, a, ha, hr⟩ := h s hP
  have hx : x s = (.ok a, (x s).2) := Prod.ext ha rfl
  rw [SM.bind_ok hx]
  exact hf a hr _ h1

theorem lift {R : α → β → Prop} {x : Py α} {a : α} {b : β} (h : x = .ok a) (hr : R a b) :
    SRuns P R (liftPy x : SM T α) b := by
  subst h
  exact fun s hs => ⟨hs, a, rfl, hr⟩

theorem tryCatch {R : α → β → Prop} {x : SM T α} {b : β} {f : PyErr → SM T α} (h : SRuns P R x b) :
    SRuns P R (MonadExcept.tryCatch x f) b := by
  intro s hP
  obtain ⟨h1, a, ha, hr⟩ := h s hP
  have hx : x s = (.ok a, (x s).2) := Prod.ext ha rfl
  have e : (MonadExcept.tryCatch x f : SM T α) s = (.ok a, (x s).2) := by
    show (match x s with
      | (.ok a, w') => (.ok a, w')
      | (.error e, w') => f e w' : Py α × (World × T)) = _
    rw [hx]
  rw [e]
  exact ⟨h1, a, rfl, hr⟩

end SRuns

/-! ### the states during an evaluation -/

/-- Definitions by sympy objects contain no symbols (such definitions cannot be evaluated). -/
def Obj.Closed (o : Obj) : Prop := ∀ p e, o.pdef p = .basic e → e.free = []

theorem Obj.Closed.pfun {o : Obj} (h : o.Closed) (b b' : Backend) (p : PName) :
    Fresh.pfun b o p = Fresh.pfun b' o p := by
  unfold Fresh.pfun Fresh.symbs
  cases hd : o.pdef p with
  | val a => rfl
  | str e =>
    simp only
    rw [Lam.compile_of_free fun s hs => List.mem_dedup.2 hs, Lam.compile_of_free fun s hs => List.mem_dedup.2 hs]
  | basic e =>
    have hf := h p e hd
    simp only
    rw [Lam.compile_of_free (by rw [hf]; simp), Lam.compile_of_free (by rw [hf]; simp)]

theorem Obj.Closed.of_core {o o' : Obj} (h : o.Closed) (hc : o'.core = o.core) : o'.Closed := by
  have e : o'.pdef = o.pdef := by
    have := congrArg Obj.pdef hc
    exact this
  intro p ex hp
  rw [e] at hp
  exact h p ex hp

/-- The invariant of a program that switches backends. -/
structure InvC (w : World) : Prop where
  inv : Inv false w
  closed : ∀ id o, w.objs id = some o → o.Closed

theorem InvC.backend {w : World} (h : InvC w) (b : Backend) : InvC { w with backend := b } where
  inv :=
    { next := h.inv.next
      mu0 := h.inv.mu0
      muEx := h.inv.muEx
      psym := h.inv.psym
      pfun := fun k v hv => by
        obtain ⟨o, ho, hq⟩ := h.inv.pfun k v hv
        exact ⟨o, ho, ((h.closed k.1 o ho).pfun b w.backend k.2).trans hq⟩
      mu0x := fun h => by cases h
      muExx := fun h => by cases h
      obj := fun h => by cases h }
  closed := h.closed

/-- The states during an evaluation on the object `id` that started with the attributes `o`. -/
structure SI (w0 : World) (id : ℕ) (o : Obj) (w : World) : Prop where
  invC : InvC w
  next : w.next = w0.next
  frame : ∀ j, j ≠ id → w.objs j = w0.objs j
  obj : ∃ o', w.objs id = some o' ∧ o'.core = o.core

section
variable {T : Type} {w0 : World} {id : ℕ} {o : Obj}

theorem SI.backend {w : World} (b : Backend) (h : SI w0 id o w) : SI w0 id o { w with backend := b } :=
  ⟨h.invC.backend b, h.next, h.frame, h.obj⟩

theorem SI.of_during {w w' : World} {o' : Obj} (h : SI w0 id o w) (ho : o'.core = o.core) (hcl : o'.Closed)
    (hd : During false w id o' (fun _ _ => True) w') : SI w0 id o w' := by
  obtain ⟨o'', h1, h2⟩ := hd.obj
  have hc : o''.core = o.core := h2.core.trans ho
  refine ⟨⟨hd.inv, fun j oj hj => ?_⟩, hd.next.trans h.next, fun j hj => (hd.frame j hj).trans (h.frame j hj),
    o'', h1, hc⟩
  by_cases he : j = id
  · subst he
    rw [h1] at hj
    cases hj
    exact hcl.of_core h2.core
  · rw [hd.frame j he] at hj
    exact h.invC.closed j oj hj

theorem SI.safe {α : Type} {x : M α} (h : ∀ w o', Safe (During false w id o' fun _ _ => True) x) :
    Safe (SI w0 id o) x := by
  intro w hw
  obtain ⟨o', ho, hc⟩ := hw.obj
  exact hw.of_during hc (hw.invC.closed _ _ ho) (h w o' w (During.init hw.invC.inv ho trivial))

theorem SI.stable : MemoStable (SI w0 id o) id where
  mu0 := SI.safe fun w o' => (During.stable_false w id o').mu0
  muEx := SI.safe fun w o' => (During.stable_false w id o').muEx
  mu0x := SI.safe fun w o' => (During.stable_false w id o').mu0x
  muExx := SI.safe fun w o' => (During.stable_false w id o').muExx
  psym := fun p => SI.safe fun w o' => (During.stable_false w id o').psym p
  pfun := fun p => SI.safe fun w o' => (During.stable_false w id o').pfun p
  fnevals := SI.safe fun w o' => (During.stable_false w id o').fnevals
  dVol := fun k => SI.safe fun w o' => (During.stable_false w id o').dVol k
  dSrf := fun k => SI.safe fun w o' => (During.stable_false w id o').dSrf k

theorem SI.acc (P : Policy T) : AccSSafe (SI w0 id o) (Switch.acc P id) :=
  MemoStable.sacc SI.stable (fun _ b h => h.backend b) P

/-- A step that compiles nothing returns the value of the attributes. -/
theorem Sim.plain {up : Bool} {α : Type} {x : M α} {y : Py α}
    (h : ∀ w o', o'.core = o.core → Refines (During false w id o' fun _ _ => True) x y) :
    Sim (T := T) up (SI w0 id o) Eq (Switch.plain x) y := by
  intro s hs
  obtain ⟨o', ho, hc⟩ := hs.obj
  obtain ⟨h1, h2⟩ := h s.1 o' hc s.1 (During.init hs.invC.inv ho trivial)
  have e : ((Switch.plain x : SM T α) s).1 = y := h1
  refine ⟨hs.of_during hc (hs.invC.closed _ _ ho) h2, fun _ b hb => ⟨b, e.trans hb, rfl⟩,
    fun _ a ha => ⟨a, e.symm.trans ha, rfl⟩⟩

section acc
variable {up : Bool} (P : Policy T)

local notation "A" => Switch.acc P id
local notation "F" => Fresh.acc0 (refB up) o
local notation "S" => SI w0 id o
local notation "B" => Between up

theorem Sim.attr {α : Type} (f : Obj → α) (hf : ∀ o' : Obj, o'.core = o.core → f o' = f o) :
    Sim (T := T) up S Eq (Switch.plain (do let o ← getObj id; Pure.pure (f o))) (.ok (f o)) :=
  Sim.plain fun w o' hc => Refines.getObj_bind fun o'' h => by
    rw [hf o'' (h.core.trans hc)]
    exact Refines.pure_ok _

theorem Sim.t0 : Sim up S Eq (A).t0 (F).t0 :=
  Sim.plain fun w o' hc => by
    have : Fresh.ang o .t0 = Fresh.ang o' .t0 := by
      show Fresh.ang o.core .t0 = Fresh.ang o'.core .t0; rw [hc]
    show Refines _ _ (Fresh.ang o .t0)
    rw [this]; exact Refines.t0
theorem Sim.p0 : Sim up S Eq (A).p0 (F).p0 :=
  Sim.plain fun w o' hc => by
    have : Fresh.ang o .p0 = Fresh.ang o' .p0 := by
      show Fresh.ang o.core .p0 = Fresh.ang o'.core .p0; rw [hc]
    show Refines _ _ (Fresh.ang o .p0)
    rw [this]; exact Refines.p0
theorem Sim.tex : Sim up S Eq (A).tex (F).tex :=
  Sim.plain fun w o' hc => by
    have : Fresh.tex o = Fresh.tex o' := by
      show Fresh.tex o.core = Fresh.tex o'.core; rw [hc]
    show Refines _ _ (Fresh.tex o)
    rw [this]; exact Refines.tex
theorem Sim.pex : Sim up S Eq (A).pex (F).pex :=
  Sim.plain fun w o' hc => by
    have : Fresh.pex o = Fresh.pex o' := by
      show Fresh.pex o.core = Fresh.pex o'.core; rw [hc]
    show Refines _ _ (Fresh.pex o)
    rw [this]; exact Refines.pex
theorem Sim.mu0 : Sim up S Eq (A).mu0 (F).mu0 :=
  Sim.plain fun w o' hc => by
    have : Fresh.mu0 o = Fresh.mu0 o' := by
      show Fresh.mu0 o.core = Fresh.mu0 o'.core; rw [hc]
    show Refines _ _ (Fresh.mu0 o)
    rw [this]; exact Refines.mu0
theorem Sim.muEx : Sim up S Eq (A).muEx (F).muEx :=
  Sim.plain fun w o' hc => by
    have : Fresh.muEx o = Fresh.muEx o' := by
      show Fresh.muEx o.core = Fresh.muEx o'.core; rw [hc]
    show Refines _ _ (Fresh.muEx o)
    rw [this]; exact Refines.muEx
theorem Sim.V : Sim up S Eq (A).V (F).V :=
  Sim.attr Obj.V fun o' hc => by have := congrArg Obj.V hc; exact this
theorem Sim.SRF : Sim up S Eq (A).SRF (F).SRF :=
  Sim.attr Obj.SRF fun o' hc => by have := congrArg Obj.SRF hc; exact this
theorem Sim.intQ : Sim up S Eq (A).intQ (F).intQ :=
  Sim.attr Obj.intQ fun o' hc => by have := congrArg Obj.intQ hc; exact this
theorem Sim.sig0 : Sim up S Eq (A).sig0 (F).sig0 :=
  Sim.attr Obj.sig0 fun o' hc => by have := congrArg Obj.sig0 hc; exact this
theorem Sim.dB : Sim up S Eq (A).dB (F).dB :=
  Sim.attr Obj.dB fun o' hc => by have := congrArg Obj.dB hc; exact this
theorem Sim.I0 : Sim up S Eq (A).I0 (F).I0 :=
  Sim.attr Obj.I0 fun o' hc => by have := congrArg Obj.I0 hc; exact this
theorem Sim.params : Sim up S Eq (A).params (F).params :=
  Sim.attr Obj.params fun o' hc => by have := congrArg Obj.params hc; exact this

/-- tau, omega, NormBRDF, bsf: the value does not depend on the backend. -/
theorem Sim.par (p : PName) : Sim up S Eq ((A).par p) ((F).par p) := by
  intro s hs
  have hb := hs.backend (P.pick id (.par p) s.1 s.2).1
  obtain ⟨o', ho, hc⟩ := hb.obj
  obtain ⟨h1, h2⟩ := Refines.evalParam (full := false) p _
    (During.init hb.invC.inv ho trivial :
      During false { s.1 with backend := (P.pick id (.par p) s.1 s.2).1 } id o' (fun _ _ => True) _)
  have e : (((A).par p) s).1 = Fresh.par (P.pick id (.par p) s.1 s.2).1 o p := by
    refine h1.trans ?_
    show Fresh.par (P.pick id (.par p) s.1 s.2).1 o'.core p = Fresh.par (P.pick id (.par p) s.1 s.2).1 o.core p
    rw [hc]
  refine ⟨(hb.of_during hc (hb.invC.closed _ _ ho) h2).backend s.1.backend,
    fun _ b h => ⟨b, e.trans (par_backend h), rfl⟩, fun _ a ha => ⟨a, par_backend (e.symm.trans ha), rfl⟩⟩

/-- The backend of a compiled function. -/
theorem Sim.withBackend {α β : Type} {R : α → β → Prop} {c : Callee} {f : Backend → SM T α} {y : Backend → Py β}
    (h : ∀ k, Sim up S R (f k) (y (refB up))) :
    Sim up S R ((A).backend c >>= f) ((F).backend c >>= y) := by
  intro s hs
  exact h (P.pick id c s.1 s.2).1 (s.1, (P.pick id c s.1 s.2).2) hs

/-- Compile an expression for the angles and the names of the parameters, and call it. -/
theorem callAngles_sub {e : Expr} {a1 a2 a3 a4 z : Arr} {pd : Dict}
    (h : (do
      let f ← Lam.compile .symengine (["theta_0", "theta_ex", "phi_0", "phi_ex"] ++ pd.keys) e
      f.call .symengine [a1, a2, a3, a4] pd) = .ok z) :
    ∃ y, (do
      let f ← Lam.compile .sympy (["theta_0", "theta_ex", "phi_0", "phi_ex"] ++ pd.keys) e
      f.call .sympy [a1, a2, a3, a4] pd) = .ok y ∧ Arr.Sub y z := by
  obtain ⟨f, hf, h⟩ := ok_bind h
  have hfree : ∀ s ∈ e.free, s ∈ ["theta_0", "theta_ex", "phi_0", "phi_ex"] ++ pd.keys := by
    unfold Lam.compile at hf
    simp only at hf
    split_ifs at hf with hc
    exact hc
  have hf0 := Lam.compile_ok hf
  subst hf0
  obtain ⟨bnd, hb, hz⟩ := ok_bind h
  obtain ⟨vals, hv, rfl⟩ := Lam.bindArgs_ok hb
  have hv' : pd.keys.mapM (fun k => pd.get? k) = some vals := hv
  have hlen : vals.length = pd.keys.length := by
    clear h hb hz hv hfree hf
    generalize pd.keys = ks at hv'
    induction ks generalizing vals with
    | nil => simp at hv'; subst hv'; rfl
    | cons k ks ih =>
      rw [List.mapM_cons] at hv'
      cases hg : pd.get? k with
      | none => rw [hg] at hv'; cases hv'
      | some v =>
        cases hm : ks.mapM (fun k => pd.get? k) with
        | none => rw [hg, hm] at hv'; cases hv'
        | some vs =>
          rw [hg, hm] at hv'
          cases hv'
          simp [ih _ hm]
  have hb' : Lam.bindArgs .sympy (["theta_0", "theta_ex", "phi_0", "phi_ex"] ++ pd.keys) [a1, a2, a3, a4] pd =
      .ok ((["theta_0", "theta_ex", "phi_0", "phi_ex"] ++ pd.keys).zip ([a1, a2, a3, a4] ++ vals)) := by
    unfold Lam.bindArgs
    simp only
    have hd : (["theta_0", "theta_ex", "phi_0", "phi_ex"] ++ pd.keys).drop [a1, a2, a3, a4].length = pd.keys := rfl
    rw [if_neg (by simp), hd, if_neg, hv']
    rintro ⟨p, hp, hn⟩
    exact hn (List.mem_map.2 ⟨p, hp, rfl⟩)
  have hz : Lam.evalBound .symengine e
    ((["theta_0", "theta_ex", "phi_0", "phi_ex"] ++ pd.keys).zip ([a1, a2, a3, a4] ++ vals)) = .ok z := hz
  have hfst : ((["theta_0", "theta_ex", "phi_0", "phi_ex"] ++ pd.keys).zip ([a1, a2, a3, a4] ++ vals)).map Prod.fst =
      ["theta_0", "theta_ex", "phi_0", "phi_ex"] ++ pd.keys := by
    rw [List.map_fst_zip]
    simp [hlen]
  generalize (["theta_0", "theta_ex", "phi_0", "phi_ex"] ++ pd.keys).zip ([a1, a2, a3, a4] ++ vals) = bnd at *
  have hsh : ∃ sh, Arr.bshapes (bnd.map fun p => p.2.shape) = some sh ∧
      z = ⟨sh, fun idx => e.evalX (Lam.envAt bnd idx)⟩ := by
    unfold Lam.evalBound at hz
    simp only at hz
    cases hs : Arr.bshapes (bnd.map fun p => p.2.shape) with
    | none => rw [hs] at hz; cases hz
    | some sh => rw [hs] at hz; cases hz; exact ⟨sh, rfl, rfl⟩
  obtain ⟨sh, hsh, hz0⟩ := hsh
  obtain ⟨u, hu, hfit⟩ := Arr.bshapes_of_fits (u := sh)
    (l := (bnd.filter fun p => decide (p.1 ∈ e.free)).map fun p => p.2.shape) (by
      intro s hs
      obtain ⟨p, hp, rfl⟩ := List.mem_map.1 hs
      exact Arr.bshapes_fits hsh (List.mem_map.2 ⟨p, (List.mem_filter.1 hp).1, rfl⟩))
  have hy : Lam.evalBound .sympy e bnd = .ok ⟨u, fun idx => e.evalX (Lam.envAt bnd idx)⟩ := by
    unfold Lam.evalBound
    simp only
    rw [if_pos (by rw [hfst]; exact hfree), hu]
  refine ⟨⟨u, fun idx => e.evalX (Lam.envAt bnd idx)⟩, ?_, by rw [hz0]; exact hfit, fun idx => ?_⟩
  · show (Lam.bindArgs .sympy _ _ _ >>= fun b => Lam.evalBound .sympy e b) = _
    rw [hb']
    exact hy
  · rw [Lam.evalBound_at hy, Lam.evalBound_at hz]

theorem calcVal_between {k : Backend} {s : Scatter} {a1 a2 a3 a4 : Arr} {pd : Dict} :
    Sim (T := T) up S B (liftPy (s.calcVal k a1 a2 a3 a4 pd)) (liftPy (s.calcVal (refB up) a1 a2 a3 a4 pd)) := by
  refine Sim.lift (fun hu z hz => ?_) (fun hu z hz => ?_)
  · subst hu
    cases k with
    | symengine => exact ⟨z, hz, Arr.Sub.refl z⟩
    | sympy => exact callAngles_sub hz
  · subst hu
    cases k with
    | sympy => exact ⟨z, hz, Arr.Sub.refl z⟩
    | symengine => exact callAngles_sub hz


/-! ### the contributions -/

theorem Sim.srfCalc : Sim up S B (A).srfCalc (F).srfCalc := by
  have h := SI.acc (w0 := w0) (id := id) (o := o) P
  have sl : ∀ (k : Scatter) (a b c d : Arr) (pd : Dict), SSafe S (do
      let k' ← (A).backend .SRF
      liftPy (k.calcVal k' a b c d pd)) := fun _ _ _ _ _ _ => SSafe.bind (h.backend _) fun _ => SSafe.lift _
  refine Sim.bind (Sim.SRF P) (fun k => SSafe.bind h.t0 fun _ => SSafe.bind h.tex fun _ => SSafe.bind h.p0 fun _ =>
    SSafe.bind h.pex fun _ => SSafe.bind h.params fun _ => sl _ _ _ _ _ _) ?_
  rintro k _ rfl
  refine Sim.bind (Sim.t0 P) (fun _ => SSafe.bind h.tex fun _ => SSafe.bind h.p0 fun _ =>
    SSafe.bind h.pex fun _ => SSafe.bind h.params fun _ => sl _ _ _ _ _ _) ?_
  rintro a _ rfl
  refine Sim.bind (Sim.tex P) (fun _ => SSafe.bind h.p0 fun _ =>
    SSafe.bind h.pex fun _ => SSafe.bind h.params fun _ => sl _ _ _ _ _ _) ?_
  rintro b _ rfl
  refine Sim.bind (Sim.p0 P) (fun _ =>
    SSafe.bind h.pex fun _ => SSafe.bind h.params fun _ => sl _ _ _ _ _ _) ?_
  rintro c _ rfl
  refine Sim.bind (Sim.pex P) (fun _ => SSafe.bind h.params fun _ => sl _ _ _ _ _ _) ?_
  rintro d _ rfl
  refine Sim.bind (Sim.params P) (fun _ => sl _ _ _ _ _ _) ?_
  rintro pd _ rfl
  exact Sim.withBackend P fun k' => calcVal_between

theorem Sim.vCalc : Sim up S B (A).vCalc (F).vCalc := by
  have h := SI.acc (w0 := w0) (id := id) (o := o) P
  have sl : ∀ (k : Scatter) (a b c d : Arr) (pd : Dict), SSafe S (do
      let k' ← (A).backend .V
      liftPy (k.calcVal k' a b c d pd)) := fun _ _ _ _ _ _ => SSafe.bind (h.backend _) fun _ => SSafe.lift _
  refine Sim.bind (Sim.V P) (fun k => SSafe.bind h.t0 fun _ => SSafe.bind h.tex fun _ => SSafe.bind h.p0 fun _ =>
    SSafe.bind h.pex fun _ => SSafe.bind h.params fun _ => sl _ _ _ _ _ _) ?_
  rintro k _ rfl
  refine Sim.bind (Sim.t0 P) (fun _ => SSafe.bind h.tex fun _ => SSafe.bind h.p0 fun _ =>
    SSafe.bind h.pex fun _ => SSafe.bind h.params fun _ => sl _ _ _ _ _ _) ?_
  rintro a _ rfl
  refine Sim.bind (Sim.tex P) (fun _ => SSafe.bind h.p0 fun _ =>
    SSafe.bind h.pex fun _ => SSafe.bind h.params fun _ => sl _ _ _ _ _ _) ?_
  rintro b _ rfl
  refine Sim.bind (Sim.p0 P) (fun _ =>
    SSafe.bind h.pex fun _ => SSafe.bind h.params fun _ => sl _ _ _ _ _ _) ?_
  rintro c _ rfl
  refine Sim.bind (Sim.pex P) (fun _ => SSafe.bind h.params fun _ => sl _ _ _ _ _ _) ?_
  rintro d _ rfl
  refine Sim.bind (Sim.params P) (fun _ => sl _ _ _ _ _ _) ?_
  rintro pd _ rfl
  exact Sim.withBackend P fun k' => calcVal_between

theorem Sim.atten : Sim up S B (A).atten (F).atten :=
  Sim.expM (Sim.subM (Sim.negM (Sim.divM (Sim.par P _).arr (Sim.mu0 P).arr))
    (Sim.divM (Sim.par P _).arr (Sim.muEx P).arr))

theorem Sim.surface : Sim up S B (A).surface (F).surface := by
  have h := SI.acc (w0 := w0) (id := id) (o := o) P
  have sp : ∀ a : Arr, SSafe S (Pure.pure a : SM T Arr) := fun a => SSafe.pure a
  have e : ∀ a b : Arr, SSafe S ((A).par .NormBRDF *. ((RT1.litM 1 -. (A).par .bsf) *. Pure.pure a +. (A).par .bsf *. Pure.pure b)) :=
    fun a b => SSafe.mulM (h.par _) (SSafe.addM (SSafe.mulM (SSafe.subM (SSafe.litM 1) (h.par _)) (sp a))
      (SSafe.mulM (h.par _) (sp b)))
  refine Sim.bind (Sim.mulM (Sim.mulM (Sim.I0 P).arr (Sim.mu0 P).arr) (Sim.srfCalc P))
    (fun a => SSafe.bind (SSafe.mulM h.atten (sp a)) fun b => e _ _) fun a a' ha => ?_
  refine Sim.bind (Sim.mulM (Sim.atten P) (Sim.pure ha)) (fun b => e _ _) fun b b' hb => ?_
  exact Sim.mulM (Sim.par P _).arr (Sim.addM (Sim.mulM (Sim.subM (Sim.litM 1) (Sim.par P _).arr) (Sim.pure hb))
    (Sim.mulM (Sim.par P _).arr (Sim.pure ha)))

theorem Sim.volume : Sim up S B (A).volume (F).volume := by
  have h := SI.acc (w0 := w0) (id := id) (o := o) P
  refine Sim.bind (Sim.mulM (Sim.mulM (Sim.divM (Sim.mulM (Sim.mulM (Sim.I0 P).arr (Sim.par P _).arr) (Sim.mu0 P).arr)
    (Sim.addM (Sim.mu0 P).arr (Sim.muEx P).arr)) (Sim.subM (Sim.litM 1) (Sim.atten P))) (Sim.vCalc P))
    (fun a => SSafe.mulM (SSafe.subM (SSafe.litM 1) (h.par _)) (SSafe.pure a)) fun a a' ha => ?_
  exact Sim.mulM (Sim.subM (Sim.litM 1) (Sim.par P _).arr) (Sim.pure ha)

/-- The conversion, of related arrays or of the same array. -/
theorem Sim.convert {a a' : Arr} (ha : Between up a a') : Sim up S B ((A).convert a) ((F).convert a') := by
  have h := SI.acc (w0 := w0) (id := id) (o := o) P
  have e2 : ∀ (db : Bool) (r : Arr), SSafe S (if db = true then RT1.litM 10 *. Pure.pure (Arr.map XR.log10 r) else Pure.pure r : SM T Arr) :=
    fun db r => SSafe.ite (fun _ => SSafe.mulM (SSafe.litM _) (SSafe.pure _)) fun _ => SSafe.pure _
  have e3 : ∀ (db : Bool) {x : SM T Arr}, SSafe S x → SSafe S (x >>= fun signorm => do
      let ret ← liftPy (Arr.mul a signorm)
      if db = true then RT1.litM 10 *. Pure.pure (Arr.map XR.log10 ret) else Pure.pure ret) := fun db x hx =>
    SSafe.bind hx fun n => SSafe.bind (SSafe.lift _) fun r => e2 _ _
  have e4 : ∀ (db : Bool) {x : SM T Arr} {y : Py Arr}, Sim up S B x y → Sim up S B (x >>= fun signorm => do
      let ret ← liftPy (Arr.mul a signorm)
      if db = true then RT1.litM 10 *. Pure.pure (Arr.map XR.log10 ret) else Pure.pure ret) (y >>= fun signorm => do
      let ret ← liftPy (Arr.mul a' signorm)
      if db = true then RT1.litM 10 *. Pure.pure (Arr.map XR.log10 ret) else Pure.pure ret) := by
    intro db x y hx
    refine Sim.bind hx (fun n => SSafe.bind (SSafe.lift _) fun r => e2 _ _) fun n n' hn => ?_
    refine Sim.bind (Sim.map2 ha hn) (fun r => e2 _ _) fun r r' hr => ?_
    cases db
    · exact Sim.pure hr
    · exact Sim.mulM (Sim.litM 10) (Sim.pure (hr.map _))
  have s1 : SSafe S (RT1.litM (4 * Real.pi) *. (A).mu0 /. (A).I0) :=
    SSafe.divM (SSafe.mulM (SSafe.litM _) h.mu0) h.I0
  have s2 : SSafe S (RT1.litM 1 : SM T Arr) := SSafe.litM _
  refine Sim.bind (Sim.sig0 P) (fun s => SSafe.bind h.dB fun db => ?_) ?_
  · cases s
    · exact e3 db s2
    · exact e3 db s1
  rintro s _ rfl
  refine Sim.bind (Sim.dB P) (fun db => ?_) ?_
  · cases s
    · exact e3 db s2
    · exact e3 db s1
  rintro db _ rfl
  cases s
  · exact e4 db (Sim.litM 1)
  · exact e4 db (Sim.divM (Sim.mulM (Sim.litM _) (Sim.mu0 P).arr) (Sim.I0 P).arr)

/-! ### the derivatives with respect to tau, omega, NormBRDF, bsf -/

theorem Sim.onesT0 : Sim up S B (do let t ← (A).t0; Pure.pure (Arr.onesLike t))
    (do let t ← (F).t0; Pure.pure (Arr.onesLike t)) :=
  Sim.bind (Sim.t0 P) (fun _ => SSafe.pure _) fun a b h => by rw [h]; exact Sim.pure (Between.refl _ _)

theorem Sim.dvolumeDtau : Sim up S B (A).dvolumeDtau (F).dvolumeDtau := by
  have h := SI.acc (w0 := w0) (id := id) (o := o) P
  refine Sim.bind (Sim.mulM (Sim.mulM (Sim.mulM (Sim.mulM (Sim.I0 P).arr (Sim.par P _).arr)
    (Sim.divM (Sim.mu0 P).arr (Sim.addM (Sim.mu0 P).arr (Sim.muEx P).arr)))
    (Sim.mulM (Sim.addM (Sim.divM (Sim.litM 1) (Sim.mu0 P).arr) (Sim.divM (Sim.litM 1) (Sim.mapM' _ (Sim.muEx P).arr)))
      (Sim.expM (Sim.subM (Sim.divM (Sim.negM (Sim.par P _).arr) (Sim.mu0 P).arr)
        (Sim.divM (Sim.par P _).arr (Sim.muEx P).arr))))) (Sim.vCalc P))
    (fun a => SSafe.mulM (SSafe.subM (SSafe.litM 1) (h.par _)) (SSafe.pure a)) fun a a' ha => ?_
  exact Sim.mulM (Sim.subM (Sim.litM 1) (Sim.par P _).arr) (Sim.pure ha)

theorem Sim.dvolumeDomega : Sim up S B (A).dvolumeDomega (F).dvolumeDomega := by
  have h := SI.acc (w0 := w0) (id := id) (o := o) P
  refine Sim.bind (Sim.mulM (Sim.mulM (Sim.divM (Sim.mulM (Sim.I0 P).arr (Sim.mu0 P).arr)
    (Sim.addM (Sim.mu0 P).arr (Sim.muEx P).arr)) (Sim.subM (Sim.litM 1) (Sim.atten P))) (Sim.vCalc P))
    (fun a => SSafe.mulM (SSafe.subM (SSafe.litM 1) (h.par _)) (SSafe.pure a)) fun a a' ha => ?_
  exact Sim.mulM (Sim.subM (Sim.litM 1) (Sim.par P _).arr) (Sim.pure ha)

theorem Sim.dvolumeDbsf : Sim up S B (A).dvolumeDbsf (F).dvolumeDbsf := by
  refine Sim.bind (Sim.mulM (Sim.mulM (Sim.divM (Sim.mulM (Sim.mulM (Sim.I0 P).arr (Sim.par P _).arr) (Sim.mu0 P).arr)
    (Sim.addM (Sim.mu0 P).arr (Sim.muEx P).arr)) (Sim.subM (Sim.litM 1) (Sim.atten P))) (Sim.vCalc P))
    (fun a => SSafe.pure _) fun a a' ha => ?_
  exact Sim.pure (ha.map _)

theorem Sim.dsurfaceDtau : Sim up S B (A).dsurfaceDtau (F).dsurfaceDtau := by
  have h := SI.acc (w0 := w0) (id := id) (o := o) P
  refine Sim.bind (Sim.mulM (Sim.mulM (Sim.mulM (Sim.mulM (Sim.I0 P).arr
    (Sim.subM (Sim.divM (Sim.litM (-1)) (Sim.mu0 P).arr) (Sim.divM (Sim.litM 1) (Sim.muEx P).arr)))
    (Sim.expM (Sim.subM (Sim.divM (Sim.negM (Sim.par P _).arr) (Sim.mu0 P).arr)
        (Sim.divM (Sim.par P _).arr (Sim.muEx P).arr)))) (Sim.mu0 P).arr) (Sim.srfCalc P))
    (fun a => SSafe.mulM (SSafe.mulM (h.par _) (SSafe.subM (SSafe.litM 1) (h.par _))) (SSafe.pure a)) fun a a' ha => ?_
  exact Sim.mulM (Sim.mulM (Sim.par P _).arr (Sim.subM (Sim.litM 1) (Sim.par P _).arr)) (Sim.pure ha)

theorem Sim.dsurfaceDNormBRDF : Sim up S B (A).dsurfaceDNormBRDF (F).dsurfaceDNormBRDF := by
  have h := SI.acc (w0 := w0) (id := id) (o := o) P
  have sp : ∀ a : Arr, SSafe S (Pure.pure a : SM T Arr) := fun a => SSafe.pure a
  refine Sim.bind (Sim.mulM (Sim.mulM (Sim.I0 P).arr (Sim.mu0 P).arr) (Sim.srfCalc P))
    (fun a => SSafe.bind (SSafe.mulM h.atten (sp a)) fun b => SSafe.addM (SSafe.mulM (SSafe.subM (SSafe.litM 1) (h.par _)) (sp _))
      (SSafe.mulM (h.par _) (sp _))) fun a a' ha => ?_
  refine Sim.bind (Sim.mulM (Sim.atten P) (Sim.pure ha)) (fun b => SSafe.addM (SSafe.mulM (SSafe.subM (SSafe.litM 1) (h.par _)) (sp _))
      (SSafe.mulM (h.par _) (sp _))) fun b b' hb => ?_
  exact Sim.addM (Sim.mulM (Sim.subM (Sim.litM 1) (Sim.par P _).arr) (Sim.pure hb))
    (Sim.mulM (Sim.par P _).arr (Sim.pure ha))

theorem Sim.dsurfaceDbsf : Sim up S B (A).dsurfaceDbsf (F).dsurfaceDbsf := by
  have h := SI.acc (w0 := w0) (id := id) (o := o) P
  have sp : ∀ a : Arr, SSafe S (Pure.pure a : SM T Arr) := fun a => SSafe.pure a
  refine Sim.bind (Sim.mulM (Sim.mulM (Sim.I0 P).arr (Sim.mu0 P).arr) (Sim.srfCalc P))
    (fun a => SSafe.bind (SSafe.mulM (SSafe.mulM h.atten (sp a)) (Sim.onesT0 (up := up) P).safe) fun b =>
      SSafe.mulM (h.par _) (SSafe.subM (sp _) (sp _))) fun a a' ha => ?_
  refine Sim.bind (Sim.mulM (Sim.mulM (Sim.atten P) (Sim.pure ha)) (Sim.onesT0 P)) (fun b =>
      SSafe.mulM (h.par _) (SSafe.subM (sp _) (sp _))) fun b b' hb => ?_
  exact Sim.mulM (Sim.par P _).arr (Sim.subM (Sim.pure ha) (Sim.pure hb))

theorem Sim.jacNorm : Sim up S B (A).jacNorm (F).jacNorm := by
  have h := SI.acc (w0 := w0) (id := id) (o := o) P
  have e : ∀ s db : Bool, SSafe S (if s = true ∧ db = false then RT1.litM (4 * Real.pi) *. (A).mu0
    else if db = true then RT1.litM 10 /. (RT1.litM (Real.log 10) *. ((A).surface +. (A).volume))
    else RT1.litM 1) := fun s db => SSafe.ite (fun _ => SSafe.mulM (SSafe.litM _) h.mu0) fun _ =>
      SSafe.ite (fun _ => SSafe.divM (SSafe.litM _) (SSafe.mulM (SSafe.litM _) (SSafe.addM h.surface h.volume)))
        fun _ => SSafe.litM _
  refine Sim.bind (Sim.sig0 P) (fun s => SSafe.bind h.dB fun db => e s db) ?_
  rintro s _ rfl
  refine Sim.bind (Sim.dB P) (fun db => e s db) ?_
  rintro db _ rfl
  cases s <;> cases db
  · exact Sim.litM 1
  · exact Sim.divM (Sim.litM _) (Sim.mulM (Sim.litM _) (Sim.addM (Sim.surface P) (Sim.volume P)))
  · exact Sim.mulM (Sim.litM _) (Sim.mu0 P).arr
  · exact Sim.divM (Sim.litM _) (Sim.mulM (Sim.litM _) (Sim.addM (Sim.surface P) (Sim.volume P)))

theorem Sim.jacEntry {n n' : Arr} (hn : Between up n n') {key : String}
    (hk : key ∈ ["omega", "tau", "NormBRDF", "bsf"]) :
    Sim up S B ((A).jacEntry n key) ((F).jacEntry n' key) := by
  simp only [List.mem_cons, List.not_mem_nil, or_false] at hk
  rcases hk with rfl | rfl | rfl | rfl
  · exact Sim.mulM (Sim.addM (Sim.litM 0) (Sim.dvolumeDomega P)) (Sim.pure hn)
  · exact Sim.mulM (Sim.addM (Sim.dsurfaceDtau P) (Sim.dvolumeDtau P)) (Sim.pure hn)
  · exact Sim.mulM (Sim.addM (Sim.dsurfaceDNormBRDF P) (Sim.litM 0)) (Sim.pure hn)
  · exact Sim.mulM (Sim.addM (Sim.dsurfaceDbsf P) (Sim.dvolumeDbsf P)) (Sim.pure hn)

theorem Sim.jacLoop {n n' : Arr} (hn : Between up n n') {keys : List String}
    (hk : ∀ key ∈ keys, key ∈ ["omega", "tau", "NormBRDF", "bsf"]) :
    Sim up S (List.Forall₂ B) ((A).jacLoop n keys) ((F).jacLoop n' keys) := by
  have h := SI.acc (w0 := w0) (id := id) (o := o) P
  induction keys with
  | nil => exact Sim.pure .nil
  | cons k ks ih =>
    refine Sim.bind (Sim.jacEntry P hn (hk k (by simp)))
      (fun _ => SSafe.bind (h.jacLoop _ _) fun _ => SSafe.pure _) fun x x' hx => ?_
    exact Sim.bind (ih fun key hkey => hk key (by simp [hkey])) (fun _ => SSafe.pure _) fun l l' hl =>
      Sim.pure (.cons hx hl)

theorem Sim.jacList {keys : List String} (hk : ∀ key ∈ keys, key ∈ ["omega", "tau", "NormBRDF", "bsf"]) :
    Sim up S (List.Forall₂ B) ((A).jacList keys) ((F).jacList keys) := by
  have h := SI.acc (w0 := w0) (id := id) (o := o) P
  exact Sim.bind (Sim.jacNorm P) (fun _ => h.jacLoop _ _) fun n n' hn => Sim.jacLoop P hn hk

/-! ### all contributions together, without interaction term -/

theorem SRuns.surface {z1 z2 : Arr} (h1 : (Fresh.acc0 .sympy o).surface = .ok z1)
    (h2 : (Fresh.acc0 .symengine o).surface = .ok z2) (hs : z1.shape = z2.shape) : SRuns S Arr.Same (A).surface z1 := by
  intro s hP
  obtain ⟨g1, g2, -⟩ := Sim.surface (up := true) P s hP
  obtain ⟨a, ha, r2⟩ := g2 rfl z2 h2
  obtain ⟨b, hb, r1⟩ := (Sim.surface (up := false) P s hP).2.2 rfl a ha
  rw [show (Fresh.acc0 (refB false) o).surface = .ok z1 from h1] at hb
  cases hb
  exact ⟨g1, a, ha, Arr.Same.of_sub r1 r2 hs⟩

theorem SRuns.volume {z1 z2 : Arr} (h1 : (Fresh.acc0 .sympy o).volume = .ok z1)
    (h2 : (Fresh.acc0 .symengine o).volume = .ok z2) (hs : z1.shape = z2.shape) : SRuns S Arr.Same (A).volume z1 := by
  intro s hP
  obtain ⟨g1, g2, -⟩ := Sim.volume (up := true) P s hP
  obtain ⟨a, ha, r2⟩ := g2 rfl z2 h2
  obtain ⟨b, hb, r1⟩ := (Sim.volume (up := false) P s hP).2.2 rfl a ha
  rw [show (Fresh.acc0 (refB false) o).volume = .ok z1 from h1] at hb
  cases hb
  exact ⟨g1, a, ha, Arr.Same.of_sub r1 r2 hs⟩

theorem SRuns.convert {k : Backend} {a b z : Arr} (hr : Arr.Same a b) (h : (Fresh.acc0 k o).convert b = .ok z) :
    SRuns S Arr.Same ((A).convert a) z := by
  intro s hP
  obtain ⟨g1, g2, -⟩ := Sim.convert (up := true) P (a := a) (a' := b) ⟨by rw [hr.1]; exact Arr.Fits.refl _, hr.2⟩ s hP
  obtain ⟨y, hy, r2⟩ := g2 rfl z h
  obtain ⟨b', hb, r1⟩ := (Sim.convert (up := false) P (a := a) (a' := b)
    ⟨by rw [hr.1]; exact Arr.Fits.refl _, fun idx => (hr.2 idx).symm⟩ s hP).2.2 rfl y hy
  rw [show (Fresh.acc0 (refB false) o).convert b = .ok z from h] at hb
  cases hb
  exact ⟨g1, y, hy, Arr.Same.of_sub r1 r2 rfl⟩

theorem SRuns.finish {k : Backend} {a a' b b' c c' z : Arr} (ha : Arr.Same a a') (hb : Arr.Same b b')
    (h : (Fresh.acc0 k o).finish false a' b' c' = .ok z) :
    SRuns S Arr.Same ((A).finish false a b c) z := by
  have h' : ((Pure.pure a' +. Pure.pure b' : Py Arr) >>= fun tot => (liftPy (Arr.stack [tot, a', b']) : Py Arr) >>=
    fun st => (Fresh.acc0 k o).convert st) = .ok z := h
  obtain ⟨tot', ht, h'⟩ := ok_bind h'
  obtain ⟨st', hst, h'⟩ := ok_bind h'
  rw [liftPy_py] at hst
  have ht' : Arr.map2 (· + ·) a' b' = .ok tot' := by
    have e : (Pure.pure a' +. Pure.pure b' : Py Arr) = liftPy (Arr.add a' b') := rfl
    rw [e, liftPy_py] at ht
    exact ht
  obtain ⟨tot, t1, t2⟩ := ha.map2 hb ht'
  obtain ⟨st, s1, s2⟩ := Arr.Same.stack3 t2 ha hb hst
  have e : (A).finish false a b c = (do
      let tot ← (Pure.pure a +. Pure.pure b)
      let st ← liftPy (Arr.stack [tot, a, b])
      (A).convert st) := rfl
  rw [e]
  refine SRuns.bind (R := Eq) (b := tot) ?_ ?_
  · have e : (Pure.pure a +. Pure.pure b : SM T Arr) = liftPy (Arr.add a b) := rfl
    rw [e]
    exact SRuns.lift t1 rfl
  · rintro _ rfl
    refine SRuns.bind (R := Eq) (SRuns.lift s1 rfl) ?_
    rintro _ rfl
    exact SRuns.convert P s2 h'

/-- If both backends return arrays of the same shape, so does a program that switches backends, and
the three arrays agree. -/
theorem SRuns.calcTry (hq : o.intQ = false) {z1 z2 : Arr} (h1 : Fresh.calcAll .sympy o = .ok z1)
    (h2 : Fresh.calcAll .symengine o = .ok z2) (hs : z1.shape = z2.shape) : SRuns S Arr.Same (A).calcTry z1 := by
  refine SRuns.tryCatch ?_
  obtain ⟨Is, Iv, Ii, hp⟩ := calc_parts h1
  obtain ⟨Is', Iv', Ii', hp'⟩ := calc_parts h2
  have hsh : Is.shape = Is'.shape := by
    have r1 := hp.rows.1
    have r2 := hp'.rows.1
    rw [r1, r2] at hs
    exact List.append_cancel_right hs
  have hvs : Iv.shape = Iv'.shape := by rw [hp.rows.2.1, hp'.rows.2.1, hsh]
  have hsurf := SRuns.surface (w0 := w0) (id := id) P hp.surf hp'.surf hsh
  have hfin := hp.fin
  rw [hq] at hfin
  obtain ⟨t, ht, hc⟩ := hp.tau
  obtain ⟨t', ht', hc'⟩ := hp'.tau
  rw [par_backend ht] at ht'
  cases ht'
  have hpar : SRuns S Eq ((A).par .tau) t := fun s hP => by
    obtain ⟨g1, g2, -⟩ := Sim.par (up := true) P .tau s hP
    obtain ⟨a, ha, r⟩ := g2 rfl t (par_backend ht)
    exact ⟨g1, a, ha, r⟩
  have hint : SRuns S Eq (A).intQ false := fun s hP => by
    obtain ⟨g1, g2, -⟩ := Sim.intQ (up := true) P s hP
    obtain ⟨a, ha, r⟩ := g2 rfl o.intQ rfl
    exact ⟨g1, a, ha, r.trans hq⟩
  unfold Acc.calcBody
  refine SRuns.bind hpar fun t0 e0 => ?_
  rw [e0]
  by_cases hsc : t.shape = []
  · rw [if_pos hsc]
    refine SRuns.bind hsurf fun a ha => ?_
    refine SRuns.bind hpar fun t0 e0 => ?_
    rw [e0]
    by_cases hpos : (t.get []).isPos = true
    · rw [if_pos hpos]
      rw [if_neg (fun h => h.2 hpos)] at hc hc'
      refine SRuns.bind (SRuns.volume P hc.1 hc'.1 hvs) fun b hb => ?_
      refine SRuns.bind hint ?_
      rintro _ rfl
      exact SRuns.finish P (c := Arr.lit 0) ha hb hfin
    · rw [if_neg hpos]
      rw [if_pos ⟨hsc, hpos⟩] at hc
      refine SRuns.bind hint ?_
      rintro _ rfl
      refine SRuns.finish P ha (c := Arr.zerosLike a) (b' := Iv) ?_ hfin
      rw [hc.1]
      exact ⟨ha.1, fun idx => rfl⟩
  · rw [if_neg hsc]
    rw [if_neg (fun h => hsc h.1)] at hc hc'
    refine SRuns.bind hsurf fun a ha => ?_
    refine SRuns.bind (SRuns.volume P hc.1 hc'.1 hvs) fun b hb => ?_
    refine SRuns.bind hint ?_
    rintro _ rfl
    exact SRuns.finish P (c := Arr.lit 0) ha hb hfin

end acc

end

end

end RT1
