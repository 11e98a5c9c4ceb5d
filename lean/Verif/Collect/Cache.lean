import Verif.Py
/-
Model of `ESCache`, /repo/src/fedservice/entity_statement/cache.py.
-/
namespace Fed.Collect
open Fed

/-- What the cache looks at in a value: `none`, it is not a dict; `some e`, it is a dict with `e` as its `exp` member. -/
class CacheVal (β : Type) where
  dictExp : β → Option (Option Int)

variable {β : Type} [CacheVal β]

/-- `del self._db[item]` for an item that is there (cache.py 37, 43). -/
def drop (db : Dict β) (k : String) : Dict β := db.filter fun p => p.1 ≠ k

/-- `ESCache.__getitem__` (cache.py 25-40): the result and the cache afterwards. `delta` is `allowed_delta`. -/
def subscript (delta now : Int) (db : Dict β) (k : String) : Except PyErr (Option β) × Dict β :=
  match db.get? k with
  | none => (.ok none, db)
  | some v =>
    match CacheVal.dictExp v with
    | none => (.ok (some v), db)
    | some none => (.error .keyError, db)
    | some (some e) => if now < e - delta then (.ok (some v), db) else (.ok none, drop db k)

/-- Operations on the cache: `c[k] = v` (cache.py 22-23), `del c[k]` (42-43), `c[k]` (25-40). -/
inductive CacheOp (β : Type)
  | set (k : String) (v : β)
  | del (k : String)
  | get (k : String)
deriving Repr

/-- The cache after one operation at time `now`; `del` of an absent key raises KeyError and changes nothing. -/
def CacheOp.apply (delta now : Int) (db : Dict β) : CacheOp β → Dict β
  | .set k v => db.set k v
  | .del k => match db.del k with | .ok db' => db' | .error _ => db
  | .get k => (subscript delta now db k).2

/-- The cache after a history of operations, each with the time it happened at, from the empty cache (cache.py 17-20). -/
def runCache (delta : Int) (h : List (Int × CacheOp β)) : Dict β :=
  h.foldl (fun db op => op.2.apply delta op.1 db) []

end Fed.Collect
