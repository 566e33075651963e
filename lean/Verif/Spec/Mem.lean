import Verif.Model.Mem
import Verif.Spec.Query

/-! # Well-formedness notions for in-memory datasets used in theorem statements -/

namespace DRec.Spec

/-- The literal can be read for that column: record and internal id columns take integers, numeric
columns take numbers, text columns take anything. -/
def Fits (ds : Mem) (c : SCond) : Prop :=
  if c.col = "uid" ∨ c.col = "iid" ∨ c.col = "rid" then c.lit.isInt = true
  else ds.dtype c.col = .obj ∨ c.lit.isStr = false

/-- Conditions that are compared directly against their column: all columns but text (or float)
`user`/`item` columns of a dataset with internal ids. -/
def Direct (ds : Mem) (c : SCond) : Prop :=
  ds.hasIds = false ∨ ds.dtype c.col = .int ∨ (c.col ≠ "user" ∧ c.col ≠ "item")

instance (ds : Mem) (c : SCond) : Decidable (Fits ds c) := by unfold Fits; infer_instance

instance (ds : Mem) (c : SCond) : Decidable (Direct ds c) := by unfold Direct; infer_instance

/-- The internal id column `idCol` numbers the values of `rawCol` according to `map`. -/
structure IdsFor (ds : Mem) (rawCol idCol : String) (map : List Val) : Prop where
  nodup : map.Nodup
  hasRaw : rawCol ∈ ds.cols
  hasCol : idCol ∈ ds.cols
  code : ∀ r ∈ ds.rows, r.get rawCol ∈ map ∧ r.get idCol = .num (map.idxOf (r.get rawCol) : ℕ)

/-- Both id columns are consistent. -/
structure IdsOk (ds : Mem) : Prop where
  has : ds.hasIds = true
  user : IdsFor ds "user" "uid" ds.userMap
  item : IdsFor ds "item" "iid" ds.itemMap

/-- Build a record from a record id and a list of cells (for examples). -/
def mkRow (rid : Nat) (cs : List (String × Val)) : Row :=
  ⟨rid, fun c => match cs.find? (fun p => p.1 = c) with | some p => p.2 | none => .null⟩

/-- A dataset without internal ids (for examples): text or integer users and items. -/
def mkMem (d : DType) (rows : List (Val × Val × ℚ)) : Mem where
  cols := ["user", "item", "interaction", "rid"]
  dtype c := if c = "user" ∨ c = "item" then d else if c = "interaction" then .float else .obj
  rows := rows.zipIdx.map fun p =>
    mkRow p.2 [("user", p.1.1), ("item", p.1.2.1), ("interaction", .num p.1.2.2)]
  hasIds := false
  userMap := []
  itemMap := []
  cache := none
  cacheT := none

end DRec.Spec

namespace DRec.Spec

/-- Ids are consistent and every known user and item has a record (the state right after
`assign_internal_ids`). -/
structure Fresh (ds : Mem) : Prop where
  ids : IdsOk ds
  users : ∀ v ∈ ds.userMap, ∃ r ∈ ds.rows, r.get "user" = v
  items : ∀ v ∈ ds.itemMap, ∃ r ∈ ds.rows, r.get "item" = v
  hasInter : "interaction" ∈ ds.cols
  numeric : ∀ r ∈ ds.rows, ∃ q, r.get "interaction" = .num q

/-- Number stored in a cell. -/
def numCell (v : Val) : ℚ :=
  match v with
  | .num q => q
  | _ => 0

/-- The interaction values of the records of a pair of internal ids, added up (for at most one record
per pair: its value, or 0). -/
def pairTotal (rows : List Row) (u i : Nat) : ℚ :=
  ((rows.filter fun r => r.get "uid" = .num (u : ℚ) ∧ r.get "iid" = .num (i : ℚ)).map
    fun r => numCell (r.get "interaction")).sum

/-- A request for an interaction vector. -/
inductive VecReq where
  | user (u : Nat)
  | item (i : Nat)

/-- Answer one request (the dataset keeps its caches). -/
def serve (ds : Mem) : VecReq → Mem × Except Err (List ℚ)
  | .user u => ds.userVec u
  | .item i => ds.itemVec i

/-- Answer a sequence of requests. -/
def serveAll (ds : Mem) : List VecReq → Mem × List (Except Err (List ℚ))
  | [] => (ds, [])
  | q :: qs =>
    let p := serve ds q
    let rest := serveAll p.1 qs
    (rest.1, p.2 :: rest.2)

/-- What the answer should be. -/
def vecSpec (ds : Mem) : VecReq → List ℚ
  | .user u => (List.range ds.itemMap.length).map fun i => pairTotal ds.rows u i
  | .item i => (List.range ds.userMap.length).map fun u => pairTotal ds.rows u i

/-- The request names a known internal id. -/
def VecReq.Known (ds : Mem) : VecReq → Prop
  | .user u => u < ds.userMap.length
  | .item i => i < ds.itemMap.length

end DRec.Spec
