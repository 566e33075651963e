import Verif.Model.Download

/-! # Downloading the built-in datasets -/

namespace DRec.Spec

open Dl

variable {α : Type}

/-- The answer is the published dataset: an archive with files of different names, none of them called `tmp.zip` or like
the folder, all of them listed; or the plain file.  `file` is published with content `c`. -/
structure Published (cfg : Cfg) (s : Sched) (r : Response α) (file : String) (c : List α) : Prop where
  zip : cfg.unzip = true → ∃ l, r.archive = some l ∧ (file, c) ∈ l ∧ (l.map (·.1)).Nodup ∧ "tmp.zip" ∉ l.map (·.1) ∧
    ∀ d, cfg.folder = some d → s.order.Perm (l.map (·.1))
  plain : cfg.unzip = false → file = cfg.full ∧ c = r.data

/-- What is left when the process dies after `n` changes. -/
def diedAfter (cfg : Cfg) (s : Sched) (r : Response α) (n : Nat) : Disk α := run Disk.empty ((download cfg s r).1.take n)

/-- Calls for files one after the other, with the answers of the server and their courses. -/
def calls (cfg : Cfg) : List (Sched × Option (Response α) × String) → Disk α → Disk α
  | [], d => d
  | x :: xs, d => calls cfg xs (getDataset cfg x.1 x.2.1 x.2.2 d).1

end DRec.Spec
