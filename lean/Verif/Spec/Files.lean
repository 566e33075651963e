import Verif.Model.Files

/-!
# Notions the properties about files are stated with
-/

namespace DRec.Spec

open DRec

/-- The file systems a program killed at some point may leave behind. -/
def Crash {C : Type} (ops : List (FsOp C)) (fs fs' : FS C) : Prop := ∃ k, fs' = runOps (ops.take k) fs

/-- A path is on the list after a history: it was registered and since then neither unregistered nor cleaned up.
The history is given with the latest operation first. -/
def Registered (p : Path) : List TempOp → Prop
  | [] => False
  | .create _ :: h => Registered p h
  | .register q :: h => p = q ∨ Registered p h
  | .unregister q :: h => p ≠ q ∧ Registered p h
  | .cleanup :: _ => False

/-- A file exists after a history (latest operation first): it was created, and no cleanup happened while it was
registered. -/
def Present (p : Path) : List TempOp → Prop
  | [] => False
  | .create q :: h => p = q ∨ Present p h
  | .register _ :: h => Present p h
  | .unregister _ :: h => Present p h
  | .cleanup :: h => Present p h ∧ ¬ Registered p h

/-- A path without line ends and not surrounded by blanks. -/
structure CleanPath (p : Path) : Prop where
  line : '\n' ∉ p
  trim : strip p = p

/-- The paths mentioned in a history. -/
def opPaths : TempOp → List Path
  | .create p => [p]
  | .register p => [p]
  | .unregister p => [p]
  | .cleanup => []

/-- The start: no registry, no files. -/
def noTemp : Temp := ⟨none, fun _ => false⟩

/-- The paths listed in the registry file. -/
def listed (t : Temp) : List Path := (fileLines (t.registry.getD [])).map stripNl

/-- The part of a pair. -/
def half (split : List (List Char) × List (List Char)) : Half → List (List Char)
  | .train => split.1
  | .test => split.2

/-- Every half that exists is complete. -/
def Whole (split : List (List Char) × List (List Char)) (g : GenFiles) : Prop :=
  ∀ h, g.get h = none ∨ g.get h = some (half split h)

/-- The pairs of files that can be found after any number of complete and interrupted calls, starting without
files. -/
inductive GenReach (split : List (List Char) × List (List Char)) : GenFiles → Prop
  | start : GenReach split ⟨none, none⟩
  | called {g : GenFiles} (h : Half) : GenReach split g → GenReach split (getHalf split h g).1
  | killed {g g' : GenFiles} (h : Half) : GenReach split g → g.get h = none → g' ∈ genStates split g → GenReach split g'

/-- The number of datasets other than the one being saved that use the file. -/
def otherUsers (own path : Path) (users : Path → Nat) : Nat := if path = own then users path - 1 else users path

end DRec.Spec
