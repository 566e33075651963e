/-!
# Loggers of recommenders

Model of the logging set up by `RecommenderABC.__init__` (`recommender_abc.py:54-95`) and used by `_info`,
`_warn` and `_error` (`recommender_abc.py:482-501`), together with what they use of Python's `logging`:
`getLogger` returns one shared logger per name, a logger hands a record to every one of its handlers, and a
`FileHandler` appends to its file.
-/

namespace DRec

/-- A handler: the console, or the file with this name. -/
inductive LogDest where
  | console
  | file (name : List Char)
  deriving DecidableEq

/-- Levels used by the package. -/
inductive LogLevel where
  | info
  | warning
  | error
  deriving DecidableEq

/-- A record that reached a handler. -/
structure LogEntry where
  dest : LogDest
  level : LogLevel
  msg : String
  deriving DecidableEq

/-- The part of a recommender used for logging (`recommender_abc.py:55`, `:81`, `:86`, `:92`): its class,
`verbose`, and whether `_file_logger` is set.  The loggers themselves are found by name. -/
structure LogModel where
  cls : List Char
  verbose : Bool
  hasFile : Bool

/-- `f'{self.__class__.__name__}_CLOGGER'` (`recommender_abc.py:81`). -/
def consoleName (cls : List Char) : List Char := cls ++ "_CLOGGER".toList

/-- `f'{self.__class__.__name__}_FLOGGER'` (`recommender_abc.py:92`). -/
def fileLoggerName (cls : List Char) : List Char := cls ++ "_FLOGGER".toList

/-- `f'drecpy_{…}_{self.__class__.__name__}.log'` (`recommender_abc.py:89`); `time` is the formatted date
and time. -/
def logFileName (time cls : List Char) : List Char :=
  "drecpy_".toList ++ time ++ "_".toList ++ cls ++ ".log".toList

/-- The loggers of the process (`logging.getLogger`; a name never used has no handlers), the recommenders
created so far, and everything written. -/
structure LogWorld where
  handlers : List Char → List LogDest
  models : List LogModel
  written : List LogEntry

/-- Nothing logged, no recommender. -/
def LogWorld.start : LogWorld := ⟨fun _ => [], [], []⟩

/-- `handlers` with the ones of one logger replaced. -/
def setHandlers (h : List Char → List LogDest) (name : List Char) (l : List LogDest) :
    List Char → List LogDest :=
  fun n => if n = name then l else h n

/-- Creating a recommender (`recommender_abc.py:55`, `:77-95`): the handlers of the console logger are cleared
and a new one is added (`:84-85`); with `log_file` a handler for a new file is added to the file logger
(`:88-95`).  Simplifications: formatters, levels (all handlers accept all levels used) and `propagate` (off)
are left out; so is the creation of the empty file. -/
def LogWorld.new (w : LogWorld) (cls : List Char) (verbose logFile : Bool) (time : List Char) : LogWorld :=
  let h := setHandlers w.handlers (consoleName cls) [.console]
  { handlers := if logFile then
      setHandlers h (fileLoggerName cls) (h (fileLoggerName cls) ++ [.file (logFileName time cls)]) else h
    models := w.models ++ [⟨cls, verbose, logFile⟩]
    written := w.written }

/-- What a logger does with a record (`Logger.callHandlers`). -/
def emit (handlers : List LogDest) (level : LogLevel) (msg : String) : List LogEntry :=
  handlers.map fun d => ⟨d, level, msg⟩

/-- `_info`, `_warn`, `_error` (`recommender_abc.py:482-501`). -/
def LogWorld.log (w : LogWorld) (m : LogModel) (level : LogLevel) (msg : String) (console file : Bool) :
    LogWorld :=
  if !m.verbose then w else
    { w with written := w.written ++
      (if console then emit (w.handlers (consoleName m.cls)) level msg else []) ++
      (if m.hasFile && file then emit (w.handlers (fileLoggerName m.cls)) level msg else []) }

/-- Something a program does: create a recommender, or let the `i`-th one log. -/
inductive LogOp where
  | new (cls : List Char) (verbose logFile : Bool) (time : List Char)
  | log (i : Nat) (level : LogLevel) (msg : String) (console file : Bool)

/-- One operation; logging with a recommender that does not exist does nothing. -/
def LogWorld.step (w : LogWorld) : LogOp → LogWorld
  | .new cls verbose logFile time => w.new cls verbose logFile time
  | .log i level msg console file =>
    match w.models[i]? with
    | none => w
    | some m => w.log m level msg console file

/-- A program. -/
def LogWorld.run (ops : List LogOp) : LogWorld := ops.foldl LogWorld.step LogWorld.start

end DRec
