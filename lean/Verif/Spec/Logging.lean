import Verif.Model.Logging

/-! # What should be logged -/

namespace DRec.Spec

/-- The recommenders a program creates: class, `verbose`, and the name of the own log file, if any. -/
def created (ops : List LogOp) : List (List Char × Bool × Option (List Char)) :=
  ops.filterMap fun o => match o with
    | .new cls verbose logFile time => some (cls, verbose, if logFile then some (logFileName time cls) else none)
    | .log .. => none

/-- What one call should write when these recommenders exist: the message once on the console and once in
the own file. -/
def expectedOf (models : List (List Char × Bool × Option (List Char))) : LogOp → List LogEntry
  | .new .. => []
  | .log i level msg console file =>
    match models[i]? with
    | some (_, true, own) =>
      (if console then [⟨.console, level, msg⟩] else []) ++
      (if file then own.toList.map fun name => ⟨.file name, level, msg⟩ else [])
    | _ => []

/-- What a program should write. -/
def expected : List LogOp → List (List Char × Bool × Option (List Char)) → List LogEntry
  | [], _ => []
  | o :: ops, models => expectedOf models o ++ expected ops (models ++ created [o])

/-- The classes of the recommenders with a log file. -/
def fileClasses (ops : List LogOp) : List (List Char) :=
  ops.filterMap fun o => match o with
    | .new cls _ true _ => some cls
    | _ => none

end DRec.Spec
