import Verif.Py
/-
Model of the stores for issued trust marks, /repo/src/fedservice/trust_mark_entity/__init__.py, and of the trust mark issuer,
/repo/src/fedservice/trust_mark_entity/entity.py and /repo/src/fedservice/trust_mark_entity/server/*.py.
-/
namespace Fed.TrustMarks
open Fed

/-- The information about an issued trust mark, `tm_info`. Simplifications: `id`, `sub` and `iat` are always there
(`create_trust_mark` sets them, entity.py 74); other members are not read and left out. -/
structure Info where
  id : String
  sub : String
  iat : Int
  exp : Option Int := none
deriving DecidableEq, Repr

/-- `FileDB._match` (trust_mark_entity/__init__.py 24-31); `iat = 0` is no restriction. -/
def fmatch (sub : String) (iat : Int) (m : Info) : Bool :=
  if sub = m.sub then (if iat ≠ 0 then decide (iat = m.iat) else true) else false

/-- `FileDB` (trust_mark_entity/__init__.py 8-91): `config` gives the file for each trust mark id, `files` the lines of the files,
oldest first. Simplifications: reading back a line gives what was written (JSON round trip); the files are not touched by
anybody else (`TrustMarks.Shared` has several processes) and exist (they are created in `__init__`). -/
structure FileDB where
  config : Dict String
  files : Dict (List Info) := []
deriving DecidableEq, Repr

/-- The lines of a file. -/
def FileDB.lines (db : FileDB) (file : String) : List Info := (db.files.get? file).getD []

/-- `FileDB.add` (trust_mark_entity/__init__.py 18-22). -/
def FileDB.add (db : FileDB) (m : Info) : Except PyErr Unit × FileDB :=
  match db.config.get? m.id with
  | none => (.error .keyError, db)
  | some f => (.ok (), { db with files := db.files.set f (db.lines f ++ [m]) })

/-- The loop of `FileDB.find` (trust_mark_entity/__init__.py 36-46) over the lines, last one first. -/
def findLoop (now : Int) (sub : String) (iat : Int) : List Info → Bool
  | [] => false
  | m :: ms =>
    match m.exp with
    | some e => if now > e then false else if fmatch sub iat m then true else findLoop now sub iat ms
    | none => if fmatch sub iat m then true else findLoop now sub iat ms

/-- `FileDB.find` (trust_mark_entity/__init__.py 33-46). -/
def FileDB.find (db : FileDB) (now : Int) (id sub : String) (iat : Int) : Except PyErr Bool :=
  match db.config.get? id with
  | none => .error .keyError
  | some f => .ok (findLoop now sub iat (db.lines f).reverse)

/-- The loop of `FileDB.list` (trust_mark_entity/__init__.py 80-87); `res` so far. -/
def listLoop (sub : String) : List Info → List String → List String
  | [], res => res
  | m :: ms, res =>
    if m.sub ∉ res then
      if sub ≠ "" then
        if m.sub = sub then listLoop sub ms (res ++ [m.sub]) else listLoop sub ms res
      else listLoop sub ms (res ++ [m.sub])
    else listLoop sub ms res

/-- `FileDB.list` (trust_mark_entity/__init__.py 75-91); `sub = ""` is no restriction. -/
def FileDB.list (db : FileDB) (id sub : String) : List String :=
  match db.config.get? id with
  | none => []
  | some f => listLoop sub (db.lines f).reverse []

/-- `FileDB.dump` (trust_mark_entity/__init__.py 54-61). -/
def FileDB.dump (db : FileDB) : Dict (List Info) := db.config.map fun p => (p.1, db.lines p.2)

/-- The loop of `FileDB.load` (trust_mark_entity/__init__.py 67-70) over the items of `config`. -/
def loadLoop (info : Dict (List Info)) : List (String × String) → FileDB → Except PyErr Unit × FileDB
  | [], db => (.ok (), db)
  | (id, f) :: rest, db =>
    match info.get? id with
    | none => (.error .keyError, db)
    | some ms => loadLoop info rest { db with files := db.files.set f (db.lines f ++ ms) }

/-- `FileDB.load` (trust_mark_entity/__init__.py 66-70). -/
def FileDB.load (db : FileDB) (info : Dict (List Info)) : Except PyErr Unit × FileDB := loadLoop info db.config db

/-- `SimpleDB` (trust_mark_entity/__init__.py 94-139): trust mark id → subject → information. -/
abbrev SimpleDB := Dict (Dict Info)

/-- `SimpleDB.add` (trust_mark_entity/__init__.py 99-103): the entry for an id is a dict, which has no `append`. -/
def SimpleDB.add (db : SimpleDB) (m : Info) : Except PyErr Unit × SimpleDB :=
  match Dict.get? db m.id with
  | some _ => (.error .attributeError, db)
  | none => (.ok (), Dict.set db m.id [(m.sub, m)])

/-- `SimpleDB.find` (trust_mark_entity/__init__.py 112-121). -/
def SimpleDB.find (db : SimpleDB) (id sub : String) (iat : Int) : Except PyErr Bool :=
  match Dict.get? db id with
  | none => .error .keyError
  | some d =>
    match Dict.get? d sub with
    | none => .ok false
    | some m => .ok (if iat ≠ 0 then decide (iat = m.iat) else true)

/-- `SimpleDB.list` (trust_mark_entity/__init__.py 105-110), as the caller in entity.py 124 uses it (no subject): the keys of a dict,
or `None`. -/
def SimpleDB.list (db : SimpleDB) (id : String) : Option (List String) := (Dict.get? db id).map Dict.keys

/-- The `issued` attribute of a trust mark issuer (entity.py 46-49). -/
inductive DB
  | file (db : FileDB)
  | simple (db : SimpleDB)
deriving DecidableEq, Repr

/-- `issued.add(…)` -/
def DB.add : DB → Info → Except PyErr Unit × DB
  | .file db, m => ((db.add m).1, .file (db.add m).2)
  | .simple db, m => ((SimpleDB.add db m).1, .simple (SimpleDB.add db m).2)

/-- `issued.find(…)` -/
def DB.find (now : Int) : DB → String → String → Int → Except PyErr Bool
  | .file db, id, sub, iat => db.find now id sub iat
  | .simple db, id, sub, iat => SimpleDB.find db id sub iat

/-- What `trust_mark_specification` says about a trust mark: the lifetime (moved to `tm_lifetime`, entity.py 39-43) and an `exp`
among the fixed claims. Other fixed claims are not read; `iat`, `id` and `sub` among them are overwritten. -/
structure Spec where
  lifetime : Option Int := none
  exp : Option Int := none
deriving DecidableEq, Repr

/-- `TrustMarkEntity` (entity.py 23-143), the part that issues. -/
structure Issuer where
  spec : Dict Spec
  issued : DB
deriving DecidableEq, Repr

/-- The content of a new trust mark (entity.py 73-84); a lifetime of 0 is none. -/
def Spec.content (s : Spec) (now : Int) (id sub : String) : Info :=
  match s.lifetime with
  | some l => if l ≠ 0 then ⟨id, sub, now, some (now + l)⟩ else ⟨id, sub, now, s.exp⟩
  | none => ⟨id, sub, now, s.exp⟩

/-- `TrustMarkEntity.create_trust_mark` (entity.py 65-92) without extra claims, as the trust mark endpoint calls it
(/repo/src/fedservice/trust_mark_entity/server/trust_mark.py 39-50). The token itself is represented by its content; signing is
not modelled. -/
def Issuer.create (is : Issuer) (now : Int) (id sub : String) : Except PyErr Info × Issuer :=
  match is.spec.get? id with
  | none => (.error .valueError, is)
  | some s =>
    match is.issued.add (s.content now id sub) with
    | (.error e, db) => (.error e, { is with issued := db })
    | (.ok (), db) => (.ok (s.content now id sub), { is with issued := db })

/-- `TrustMarkEntity.find` (entity.py 118-119) with the default `iat`. -/
def Issuer.find (is : Issuer) (now : Int) (id sub : String) : Except PyErr Bool := is.issued.find now id sub 0

/-- A request to the status endpoint. `mark`: a trust mark given in the request, or the exception raised by unpacking it
(`unpack_trust_mark`, entity.py 100-111: signature and required claims). -/
structure StatusRequest where
  mark : Option (Except PyErr Info) := none
  sub : Option String := none
  trustMarkId : Option String := none
  id : Option String := none

/-- The id asked for (server/trust_mark_status.py 45-49). -/
def StatusRequest.askedId (r : StatusRequest) : String :=
  match r.trustMarkId with
  | some i => i
  | none => match r.id with | some i => i | none => ""

/-- `TrustMarkStatus.process_request` (server/trust_mark_status.py 34-55): true = active, false = the not found error. -/
def Issuer.status (is : Issuer) (now : Int) (r : StatusRequest) : Except PyErr Bool :=
  match r.mark with
  | some (.error e) => .error e
  | some (.ok m) => is.find now m.id m.sub
  | none =>
    match r.sub with
    | none => .ok false
    | some sub => if r.askedId ≠ "" then is.find now r.askedId sub else .ok false

/-- The answers of `TrustMarkList.process_request` (server/trust_mark_list.py 35-48); `single`: the subject under the key `foo`. -/
inductive ListAnswer
  | single (sub : String)
  | subjects (l : List String)
  | notFound
deriving DecidableEq, Repr

/-- `issued.list(id)` -/
def DB.list : DB → String → Option (List String)
  | .file db, id => some (db.list id "")
  | .simple db, id => SimpleDB.list db id

/-- `TrustMarkList.process_request` (server/trust_mark_list.py 35-48). -/
def Issuer.listing (is : Issuer) (now : Int) (sub id : Option String) : Except PyErr ListAnswer :=
  match sub, id with
  | some s, some i =>
    match is.find now i s with
    | .error e => .error e
    | .ok b => .ok (if b then .single s else .notFound)
  | none, some i =>
    match is.issued.list i with
    | none => .ok .notFound
    | some [] => .ok .notFound
    | some l => .ok (.subjects l)
  | _, none => .ok .notFound

end Fed.TrustMarks
