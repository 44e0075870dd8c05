import Verif.Model.Py
import Mathlib.Data.Int.Order.Basic
import Mathlib.Data.List.Basic

/-!
# Logging

`set_loglevel` of rt1_model/__init__.py (69-175) and the part of python's `logging` it uses.  All
modules of the package log through the one logger of the package.  The python functions are modelled
from their documentation: `Logger.setLevel`, `Handler.setLevel`, `Formatter` with `%`-style (which
rejects format strings without a field), and which handlers print a record.  Not modelled: handlers
added or removed by the user, `logging.disable`, and fields of a format that do not exist (they fail
when a message is printed).
-/

namespace RT1

/-- A handler of the logger: its level and format. -/
structure LogHandler where
  level : ℤ
  fmt : String
  datefmt : Option String

/-- The logger of the package.  `memo` is the handler remembered by the `lru_cache` of
`_ensure_handler`, as its position in the list of handlers. -/
structure LogState where
  level : ℤ
  handlers : List LogHandler
  memo : Option ℕ

/-- The state after the import (__init__.py 8-9). -/
def LogState.init : LogState := ⟨30, [], none⟩

/-- The `level` argument: a number, a string or something else. -/
inductive LevelArg where
  | int (n : ℤ)
  | str (s : String)
  | other

/-- `logging._nameToLevel`. -/
def levelNames : List (String × ℤ) :=
  [("CRITICAL", 50), ("FATAL", 50), ("ERROR", 40), ("WARN", 30), ("WARNING", 30), ("INFO", 20), ("DEBUG", 10),
    ("NOTSET", 0)]

/-- `level.upper()` for ASCII letters. -/
def upper (s : String) : List Char := s.toList.map Char.toUpper

/-- `logging._checkLevel(level)` after `level = level.upper()` for strings (__init__.py 168-169). -/
def checkLevel : LevelArg → Py ℤ
  | .int n => .ok n
  | .str s =>
    match levelNames.find? (fun p => p.1.toList = upper s) with
    | some p => .ok p.2
    | none => .error .valueError
  | .other => .error (.typeError [])

/-- `[A-Za-z0-9_]`, the characters `\w` stands for (other alphabets are not modelled). -/
def wordChar (c : Char) : Bool := c.isAlphanum || c == '_'

/-- `(\*|\d+)`: what follows a match; greedy. -/
def afterNumber : List Char → Option (List Char)
  | '*' :: l => some l
  | c :: l => if c.isDigit then some (l.dropWhile Char.isDigit) else none
  | [] => none

/-- `(\.(\*|\d+))?[diouxefgcrsa%]`. -/
def fieldEnd : List Char → Bool
  | '.' :: l =>
    match afterNumber l with
    | some (c :: _) => decide (c ∈ "diouxefgcrsa%".toList)
    | _ => false
  | c :: _ => decide (c ∈ "diouxefgcrsa%".toList)
  | [] => false

/-- `[#0+ -]*(\*|\d+)?(\.(\*|\d+))?[diouxefgcrsa%]`. -/
def fieldSpec (l : List Char) : Bool :=
  let l := l.dropWhile fun c => decide (c ∈ "#0+ -".toList)
  fieldEnd ((afterNumber l).getD l)

/-- `%\(\w+\)...` at the start of the string. -/
def fieldAt : List Char → Bool
  | '%' :: '(' :: c :: l =>
    wordChar c &&
      match l.dropWhile wordChar with
      | ')' :: l => fieldSpec l
      | _ => false
  | _ => false

/-- `PercentStyle.validate`: the format contains a field. -/
def validFormat (s : List Char) : Bool := s.tails.any fieldAt

/-- `_ensure_handler()` (__init__.py 69-83): the handler and the state. -/
def ensureHandler (s : LogState) : ℕ × LogState :=
  match s.memo with
  | some k => (k, s)
  | none => (s.handlers.length, { s with
      handlers := s.handlers ++ [⟨0, "%(levelname)s:%(name)s:%(message)s", none⟩], memo := some s.handlers.length })

/-- Change one handler. -/
def LogState.modify (s : LogState) (k : ℕ) (f : LogHandler → LogHandler) : LogState :=
  { s with handlers := s.handlers.modify k f }

/-- `_set_logfmt(fmt, datefmt)` (__init__.py 86-107) with a string as `fmt`. -/
def setLogfmt (fmt : String) (datefmt : Option String) (s : LogState) : Py Unit × LogState :=
  let (k, s) := ensureHandler s
  if validFormat fmt.toList then (.ok (), s.modify k fun h => { h with fmt := fmt, datefmt := datefmt })
  else (.error .valueError, s)

/-- `_log_format_presets.get(fmt, (fmt,))` (__init__.py 110-121, 174-175). -/
def formatPreset (fmt : String) : String × Option String :=
  if fmt = "minimal" then ("%(asctime)s.%(msecs)03d: %(message)s", some "%H:%M:%S")
  else if fmt = "timed" then ("%(asctime)s.%(msecs)03d %(levelname)s: %(message)s", some "%H:%M:%S")
  else if fmt = "debug" then ("%(asctime)s.%(msecs)03d %(levelname)s: %(name)s: %(message)s", some "%H:%M:%S")
  else if fmt = "plain" then ("%(message)s", none)
  else (fmt, none)

/-- `set_loglevel(level, fmt)` (__init__.py 124-175) with a string or `None` as `fmt`. -/
def setLoglevel (level : LevelArg) (fmt : Option String) (s : LogState) : Py Unit × LogState :=
  match checkLevel level with
  | .error e => (.error e, s)
  | .ok n =>
    let s := { s with level := n }
    let (k, s) := ensureHandler s
    let s := s.modify k fun h => { h with level := n }
    match fmt with
    | none => (.ok (), s)
    | some f => setLogfmt (formatPreset f).1 (formatPreset f).2 s

/-- The root logger of python: its level and the levels of its handlers. -/
structure RootLogger where
  level : ℤ
  handlers : List ℤ

/-- `Logger.getEffectiveLevel`. -/
def effectiveLevel (root : RootLogger) (s : LogState) : ℤ := if s.level = 0 then root.level else s.level

/-- How often a message of level `l` is printed (`Logger.isEnabledFor`, `Logger.callHandlers`): by the
handlers of the package and of the root logger; if there are none at all, by the handler of last
resort. -/
def timesPrinted (root : RootLogger) (s : LogState) (l : ℤ) : ℕ :=
  if l < effectiveLevel root s then 0
  else if s.handlers = [] ∧ root.handlers = [] then (if 30 ≤ l then 1 else 0)
  else s.handlers.countP (fun h => decide (h.level ≤ l)) + root.handlers.countP fun h => decide (h ≤ l)

end RT1
