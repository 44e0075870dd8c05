import Verif.Model.Logging
import Mathlib.Data.List.Infix
import Mathlib.Tactic.NormNum

/-!
# Log level and format (C72)
-/

namespace RT1

/-- States of the logger: any calls of `set_loglevel`, failing ones included. -/
inductive Logged : LogState → Prop where
  | init : Logged .init
  | call {s : LogState} (level : LevelArg) (fmt : Option String) : Logged s → Logged (setLoglevel level fmt s).2

/-- The level a `level` argument stands for: a number, or the name in any case. -/
inductive Stands : LevelArg → ℤ → Prop where
  | int (n : ℤ) : Stands (.int n) n
  | debug {s : String} (h : upper s = "DEBUG".toList) : Stands (.str s) 10
  | info {s : String} (h : upper s = "INFO".toList) : Stands (.str s) 20
  | warning {s : String} (h : upper s = "WARNING".toList) : Stands (.str s) 30
  | error {s : String} (h : upper s = "ERROR".toList) : Stands (.str s) 40
  | critical {s : String} (h : upper s = "CRITICAL".toList) : Stands (.str s) 50
  | notset {s : String} (h : upper s = "NOTSET".toList) : Stands (.str s) 0

theorem Stands.check {a : LevelArg} {n : ℤ} (h : Stands a n) : checkLevel a = .ok n := by
  cases h with
  | int => rfl
  | _ h => simp [checkLevel, levelNames, h]

/-- At most one handler, the remembered one. -/
def OneHandler (s : LogState) : Prop := (s.memo = none ∧ s.handlers = []) ∨ (s.memo = some 0 ∧ ∃ h, s.handlers = [h])

theorem OneHandler.ensure {s : LogState} (h : OneHandler s) :
    ∃ h', (ensureHandler s).1 = 0 ∧ (ensureHandler s).2 = ⟨s.level, [h'], some 0⟩ ∧ ∀ x, s.handlers = [x] → h' = x := by
  rcases h with ⟨h1, h2⟩ | ⟨h1, x, h2⟩
  · refine ⟨⟨0, "%(levelname)s:%(name)s:%(message)s", none⟩, ?_⟩
    simp [ensureHandler, h1, h2]
  · refine ⟨x, ?_⟩
    obtain ⟨l, hs, m⟩ := s
    simp only at h1 h2
    subst h1 h2
    simp [ensureHandler]

/-- What a call does in a state with at most one handler. -/
theorem setLoglevel_eq {s : LogState} (h : OneHandler s) {a : LevelArg} {n : ℤ} (ha : checkLevel a = .ok n)
    (fmt : Option String) : ∃ f d, (setLoglevel a fmt s).2 = ⟨n, [⟨n, f, d⟩], some 0⟩ ∧
      (∀ x, s.handlers = [x] → (fmt = none ∨ (setLoglevel a fmt s).1 ≠ .ok ()) → f = x.fmt ∧ d = x.datefmt) ∧
      ((setLoglevel a fmt s).1 = .ok () ∨ (setLoglevel a fmt s).1 = .error .valueError) ∧
      ∀ g, fmt = some g → ((setLoglevel a fmt s).1 = .ok () ↔ validFormat (formatPreset g).1.toList = true) ∧
        ((setLoglevel a fmt s).1 = .ok () → (f, d) = formatPreset g) := by
  obtain ⟨x, h1, h2, h3⟩ := (show OneHandler { s with level := n } from h).ensure
  simp only at h2 h3
  unfold setLoglevel
  simp only [ha]
  rw [show ensureHandler { s with level := n } = (0, ⟨n, [x], some 0⟩) from Prod.ext h1 h2]
  simp only [LogState.modify, List.modify_zero_cons]
  cases fmt with
  | none => exact ⟨x.fmt, x.datefmt, rfl, fun y hy _ => by rw [h3 y hy]; exact ⟨rfl, rfl⟩, Or.inl rfl, fun g hg => by cases hg⟩
  | some g =>
    simp only [setLogfmt, ensureHandler]
    by_cases hv : validFormat (formatPreset g).1.toList = true
    · simp only [hv, if_true, LogState.modify, List.modify_zero_cons]
      refine ⟨_, _, rfl, fun y _ hy => ?_, Or.inl trivial, fun g' hg => ?_⟩
      · simp at hy
      · cases hg
        exact ⟨⟨fun _ => hv, fun _ => trivial⟩, fun _ => rfl⟩
    · simp only [hv, Bool.false_eq_true, if_false]
      refine ⟨x.fmt, x.datefmt, rfl, fun y hy _ => by rw [h3 y hy]; exact ⟨rfl, rfl⟩, Or.inr trivial, fun g' hg => ?_⟩
      cases hg
      exact ⟨⟨fun h => by simp at h, fun h => absurd h hv⟩, fun h => by simp at h⟩

theorem Logged.one {s : LogState} (h : Logged s) : OneHandler s := by
  induction h with
  | init => exact Or.inl ⟨rfl, rfl⟩
  | @call s a fmt hs ih =>
    cases ha : checkLevel a with
    | error e =>
      have : (setLoglevel a fmt s).2 = s := by simp [setLoglevel, ha]
      rw [this]
      exact ih
    | ok n =>
      obtain ⟨f, d, h, -⟩ := setLoglevel_eq ih ha fmt
      rw [h]
      exact Or.inr ⟨rfl, _, rfl⟩

/-- **C72** (partial): after a call with a level other than 0 ("notset") - whatever was called before, and even
if the call failed because of the format - a message of the package is printed by it exactly once if its level is
at least the given one and not at all otherwise; handlers of the root logger add their own lines. -/
theorem C72_level_partial {s : LogState} (hs : Logged s) {a : LevelArg} {n : ℤ} (ha : Stands a n) (hn : n ≠ 0)
    (fmt : Option String) (root : RootLogger) (l : ℤ) :
    timesPrinted root (setLoglevel a fmt s).2 l =
      if n ≤ l then 1 + (root.handlers.filter fun h => decide (h ≤ l)).length else 0 := by
  obtain ⟨f, d, h, -⟩ := setLoglevel_eq hs.one ha.check fmt
  rw [h]
  by_cases hl : n ≤ l
  · simp [timesPrinted, effectiveLevel, hn, not_lt.mpr hl, hl, List.countP_eq_length_filter]
  · simp [timesPrinted, effectiveLevel, hn, not_le.mp hl, hl]

/-- With level 0 ("notset") the level of the root logger decides. -/
theorem C72_notset_negation {s : LogState} (hs : Logged s) {a : LevelArg} (ha : Stands a 0)
    (fmt : Option String) (root : RootLogger) {l : ℤ} (h0 : 0 ≤ l) (hl : l < root.level) :
    timesPrinted root (setLoglevel a fmt s).2 l = 0 := by
  obtain ⟨f, d, h, -⟩ := setLoglevel_eq hs.one ha.check fmt
  rw [h]
  simp [timesPrinted, effectiveLevel, hl]

/-- `set_loglevel("notset")` with the default root logger: messages of level INFO (20) are not printed although
their level is above 0. -/
theorem C72_notset_counterexample (fmt : Option String) :
    timesPrinted ⟨30, []⟩ (setLoglevel (.str "notset") fmt .init).2 20 = 0 :=
  C72_notset_negation .init (.notset (by decide)) fmt ⟨30, []⟩ (by norm_num) (by norm_num)

/-- Unknown levels raise, and nothing is changed. -/
theorem C72_unknown_level (s : LogState) (fmt : Option String) (a : LevelArg)
    (ha : a = .other ∨ ∃ t, a = .str t ∧ ∀ p ∈ levelNames, p.1.toList ≠ upper t) :
    ((setLoglevel a fmt s).1 = .error .valueError ∨ (setLoglevel a fmt s).1 = .error (.typeError [])) ∧
      (setLoglevel a fmt s).2 = s := by
  rcases ha with rfl | ⟨t, rfl, ht⟩
  · exact ⟨Or.inr rfl, rfl⟩
  · have : levelNames.find? (fun p => p.1.toList = upper t) = none := by
      rw [List.find?_eq_none]
      intro p hp
      simpa using ht p hp
    have hc : checkLevel (.str t) = .error .valueError := by simp [checkLevel, this]
    simp [setLoglevel, hc]

/-! ### Formats -/

theorem validFormat_append {a b : List Char} (h : fieldAt b = true) : validFormat (a ++ b) = true := by
  unfold validFormat
  rw [List.any_eq_true]
  exact ⟨b, List.mem_tails _ _ |>.mpr (List.suffix_append ..), h⟩

theorem fieldAt_s {name post : List Char} (hne : name ≠ []) (hw : ∀ c ∈ name, wordChar c = true) :
    fieldAt ("%(".toList ++ name ++ ")s".toList ++ post) = true := by
  cases name with
  | nil => exact absurd rfl hne
  | cons c name =>
    have h1 : ("%(".toList ++ (c :: name) ++ ")s".toList ++ post) = '%' :: '(' :: c :: (name ++ ')' :: 's' :: post) := by
      simp
    have h2 : (name ++ ')' :: 's' :: post).dropWhile wordChar = ')' :: 's' :: post := by
      rw [List.dropWhile_append_of_pos fun x hx => hw x (List.mem_cons_of_mem _ hx)]
      rw [List.dropWhile_cons, if_neg (by decide)]
    rw [h1]
    simp only [fieldAt, hw c List.mem_cons_self, h2, Bool.true_and]
    simp [fieldSpec, afterNumber, fieldEnd, Char.isDigit]

theorem validFormat_none {s : List Char} (h : '%' ∉ s) : validFormat s = false := by
  unfold validFormat
  rw [List.any_eq_false]
  intro t ht
  have : '%' ∉ t := fun hm => h ((List.mem_tails _ _ |>.mp ht).subset hm)
  cases t with
  | nil => simp [fieldAt]
  | cons c t =>
    have hc : c ≠ '%' := fun e => this (e ▸ List.mem_cons_self)
    unfold fieldAt
    split
    · rename_i h1
      cases h1
      exact absurd rfl hc
    · simp

/-- The short names that exist: what the messages then look like. -/
inductive ShortName : String → String → Option String → Prop where
  | plain : ShortName "plain" "%(message)s" none
  | minimal : ShortName "minimal" "%(asctime)s.%(msecs)03d: %(message)s" (some "%H:%M:%S")
  | timed : ShortName "timed" "%(asctime)s.%(msecs)03d %(levelname)s: %(message)s" (some "%H:%M:%S")
  | debug : ShortName "debug" "%(asctime)s.%(msecs)03d %(levelname)s: %(name)s: %(message)s" (some "%H:%M:%S")

theorem valid_message {s : String} (pre : String) (h : s.toList = pre.toList ++ "%(message)s".toList) :
    validFormat s.toList = true := by
  rw [h]
  refine validFormat_append ?_
  have := fieldAt_s (name := "message".toList) (post := []) (by simp) (by decide)
  simpa using this

/-- **C72**: a known level with one of the short names succeeds and the handler of the package uses that format from
then on. -/
theorem C72_short_names {s : LogState} (hs : Logged s) {a : LevelArg} {n : ℤ} (ha : Stands a n) {name f : String}
    {d : Option String} (hf : ShortName name f d) :
    (setLoglevel a (some name) s).1 = .ok () ∧ (setLoglevel a (some name) s).2.handlers = [⟨n, f, d⟩] := by
  obtain ⟨f', d', h, -, -, h2⟩ := setLoglevel_eq hs.one ha.check (some name)
  obtain ⟨h3, h4⟩ := h2 name rfl
  have hv : formatPreset name = (f, d) ∧ validFormat f.toList = true := by
    cases hf with
    | plain => exact ⟨by simp [formatPreset], valid_message "" (by simp)⟩
    | minimal => exact ⟨by simp [formatPreset], valid_message "%(asctime)s.%(msecs)03d: " (by simp)⟩
    | timed => exact ⟨by simp [formatPreset], valid_message "%(asctime)s.%(msecs)03d %(levelname)s: " (by simp)⟩
    | debug => exact ⟨by simp [formatPreset], valid_message "%(asctime)s.%(msecs)03d %(levelname)s: %(name)s: " (by simp)⟩
  have ok := h3.mpr (by rw [hv.1]; exact hv.2)
  have e := (h4 ok).trans hv.1
  cases e
  exact ⟨ok, by rw [h]⟩

/-- **C72**: any other string is the format itself, and is accepted if it contains a field `%(name)s`. -/
theorem C72_format_string {s : LogState} (hs : Logged s) {a : LevelArg} {n : ℤ} (ha : Stands a n) {fmt : String}
    (hp : fmt ∉ ["minimal", "timed", "debug", "plain"]) {pre name post : List Char} (hne : name ≠ [])
    (hw : ∀ c ∈ name, wordChar c = true)
    (hf : fmt.toList = pre ++ ("%(".toList ++ name ++ ")s".toList ++ post)) :
    (setLoglevel a (some fmt) s).1 = .ok () ∧ (setLoglevel a (some fmt) s).2.handlers = [⟨n, fmt, none⟩] := by
  obtain ⟨f', d', h, -, -, h2⟩ := setLoglevel_eq hs.one ha.check (some fmt)
  obtain ⟨h3, h4⟩ := h2 fmt rfl
  simp only [List.mem_cons, List.not_mem_nil, or_false, not_or] at hp
  have e : formatPreset fmt = (fmt, none) := by simp [formatPreset, hp]
  have ok := h3.mpr (by rw [e, hf]; exact validFormat_append (fieldAt_s hne hw))
  have e := (h4 ok).trans e
  cases e
  exact ⟨ok, by rw [h]⟩

/-- **C72**: with `fmt=None` the format is kept. -/
theorem C72_format_kept {s : LogState} (hs : Logged s) {a : LevelArg} {n : ℤ} (ha : Stands a n) {h : LogHandler}
    (hh : s.handlers = [h]) : (setLoglevel a none s).1 = .ok () ∧
      (setLoglevel a none s).2.handlers = [{ h with level := n }] := by
  obtain ⟨f, d, h1, h2, -, -⟩ := setLoglevel_eq hs.one ha.check none
  obtain ⟨rfl, rfl⟩ := h2 h hh (Or.inl rfl)
  exact ⟨by simp [setLoglevel, ha.check], by rw [h1]⟩

/-- Format strings without `%` - unless they are short names - raise a ValueError; the level is changed nevertheless,
the format is not. -/
theorem C72_format_negation {s : LogState} (hs : Logged s) {a : LevelArg} {n : ℤ} (ha : Stands a n) {fmt : String}
    (hp : fmt ∉ ["minimal", "timed", "debug", "plain"]) (hf : '%' ∉ fmt.toList) :
    (setLoglevel a (some fmt) s).1 = .error .valueError ∧ (setLoglevel a (some fmt) s).2.level = n ∧
      ∀ h, s.handlers = [h] → (setLoglevel a (some fmt) s).2.handlers = [{ h with level := n }] := by
  obtain ⟨f', d', h, h1, h5, h2⟩ := setLoglevel_eq hs.one ha.check (some fmt)
  obtain ⟨h3, -⟩ := h2 fmt rfl
  simp only [List.mem_cons, List.not_mem_nil, or_false, not_or] at hp
  have e : formatPreset fmt = (fmt, none) := by simp [formatPreset, hp]
  rw [e, validFormat_none hf] at h3
  have hne : (setLoglevel a (some fmt) s).1 ≠ .ok () := fun h => by simpa using h3.mp h
  refine ⟨h5.resolve_left hne, by rw [h], fun x hx => ?_⟩
  obtain ⟨rfl, rfl⟩ := h1 x hx (Or.inr hne)
  rw [h]

/-- The documented short name "basic" does not exist: ValueError. -/
theorem C72_basic_counterexample :
    (setLoglevel (.str "info") (some "basic") .init).1 = .error .valueError :=
  (C72_format_negation .init (.info (by decide)) (by simp) (by decide)).1

/-- The hypotheses are met: after three calls, one of them failing, messages of level 10 are printed once. -/
example : timesPrinted ⟨30, []⟩ (setLoglevel (.str "debug") (some "plain")
    (setLoglevel (.str "info") (some "basic") (setLoglevel (.int 35) none .init).2).2).2 10 = 1 := by
  rw [C72_level_partial (.call _ _ (.call _ _ .init)) (.debug (by decide)) (by norm_num)]
  simp

example : ∃ s, Logged s ∧ (setLoglevel (.str "Warning") (some "%(levelname)s: %(message)s") s).1 = .ok () :=
  ⟨_, .call (.int 10) none .init, (C72_format_string (.call _ _ .init) (.warning (by decide)) (by simp)
    (pre := []) (name := "levelname".toList) (post := ": %(message)s".toList) (by simp) (by decide) (by simp)).1⟩

end RT1
