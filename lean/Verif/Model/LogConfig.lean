import Mathlib.Data.Int.Notation
import Mathlib.Data.Nat.Notation
import Mathlib.Order.Basic

/-!
`set_default_logger_config`, `src/evotorch/tools/misc.py 2072-2140`, and the parts of Python's `logging` package it relies on: the handlers of a logger and of its ancestors, levels, propagation and
filters. Not modelled: `logging.disable`, log records of other loggers, the characters of a formatted line (a line is the list of the pieces of its format).
-/

namespace EvoTorch.LogConfig

/-- Where a handler writes. -/
inductive Stream where
  | stdout
  | stderr
  | other (n : ℕ)
deriving DecidableEq, Repr

/-- The pieces of a format, misc.py 2118-2126. -/
inductive Piece where
  | time
  | level
  | process
  | file
  | line
  | name
  | message
deriving DecidableEq, Repr

/-- A handler: its identity, its stream, its filter, its format. -/
structure Handler where
  id : ℕ
  stream : Stream
  accepts : ℤ → Bool
  format : List Piece

/-- A logger. Level 0 is `NOTSET`. -/
structure Logger where
  level : ℤ
  propagate : Bool
  handlers : List Handler

/-- A logger together with its ancestors, from its parent to the root. -/
structure Config where
  own : Logger
  ancestors : List Logger

/-- `Logger.hasHandlers` along a chain of loggers. -/
def hasHandlers : List Logger → Bool
  | [] => false
  | l :: ls => if l.handlers ≠ [] then true else if l.propagate then hasHandlers ls else false

/-- `Logger.getEffectiveLevel` along a chain of loggers. -/
def effectiveLevel : List Logger → ℤ
  | [] => 0
  | l :: ls => if l.level ≠ 0 then l.level else effectiveLevel ls

/-- `Logger.callHandlers`: the handlers of the logger, then those of its ancestors as long as messages propagate. -/
def reached : List Logger → List Handler
  | [] => []
  | l :: ls => l.handlers ++ (if l.propagate then reached ls else [])

/-- A printed line: where, and in which format. -/
abbrev Line := Stream × List Piece

/-- What logging a message of the given level prints. -/
def emit (c : Config) (level : ℤ) : List Line :=
  if level < effectiveLevel (c.own :: c.ancestors) then []
  else ((reached (c.own :: c.ancestors)).filter fun h => h.accepts level).map fun h => (h.stream, h.format)

/-- `Logger.removeHandler`: handlers are compared by identity. -/
def removeHandler (hs : List Handler) (h : Handler) : List Handler := hs.eraseP fun h' => h'.id == h.id

/-- `for handler in logger.handlers: logger.removeHandler(handler)`, misc.py 2111-2113: the list is iterated by position while it shrinks. -/
def removeLoop : ℕ → ℕ → List Handler → List Handler
  | 0, _, hs => hs
  | fuel + 1, i, hs => match hs[i]? with
    | none => hs
    | some h => removeLoop fuel (i + 1) (removeHandler hs h)

/-- `logging.INFO` and `logging.WARNING`. -/
def INFO : ℤ := 20
/-- See `INFO`. -/
def WARNING : ℤ := 30

/-- The arguments, misc.py 2072-2078. -/
structure Args where
  level : ℤ := INFO
  showProcess : Bool := true
  showLineno : Bool := false
  override : Bool := false

/-- `formatter`, misc.py 2118-2126. -/
def format (a : Args) : List Piece :=
  [.time, .level] ++ (if a.showProcess then [.process] else []) ++ (if a.showLineno then [.file, .line] else [.name]) ++ [.message]

/-- The two new handlers, misc.py 2128-2138, with new identities. -/
def newHandlers (fresh : ℕ) (a : Args) : List Handler :=
  [⟨fresh, .stdout, fun l => decide (l < WARNING), format a⟩, ⟨fresh + 1, .stderr, fun l => decide (WARNING ≤ l), format a⟩]

/-- `logger.setLevel`, `logger.propagate = False`, `logger.addHandler` twice, misc.py 2115-2138. -/
def install (fresh : ℕ) (a : Args) (c : Config) : Config := { c with own := ⟨a.level, false, c.own.handlers ++ newHandlers fresh a⟩ }

/-- `set_default_logger_config`, misc.py 2101-2140: the new configuration and what it prints. -/
def setConfig (fresh : ℕ) (a : Args) (c : Config) : Config × List Line :=
  if !a.override && hasHandlers (c.own :: c.ancestors) then (c, emit c WARNING)
  else if a.override then
    (install fresh a { c with own := { c.own with handlers := removeLoop (c.own.handlers.length + 1) 0 c.own.handlers } }, [])
  else (install fresh a c, [])

/-- Several calls one after the other; the handlers of the `i`-th call have the identities `fresh + 2 i` and `fresh + 2 i + 1`. -/
def setConfigs (fresh : ℕ) : List Args → Config → Config
  | [], c => c
  | a :: as, c => setConfigs (fresh + 2) as (setConfig fresh a c).1

end EvoTorch.LogConfig
