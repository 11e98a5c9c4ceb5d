import Verif.Discover.Endpoint
import Verif.Server.List
import Verif.TrustMarks.Verify
/-
Model of how requests to other entities are made, /repo/src/fedservice/entity/client/*.py, and of how the endpoints of this software read them.
-/
namespace Fed.Client.Requests
open Fed

/-- A GET request: where it goes, and the query as the endpoint's framework decodes it. Simplification: encoding and decoding a query gives the same names and texts. -/
structure Get where
  target : String
  query : Dict String
deriving DecidableEq, Repr

/-- `urlencode({k: v for k, v in args.items() if k in names})`; `text` is `str`. -/
def pick (text : Val → String) (names : List String) (args : Dict Val) : Dict String :=
  (args.filter fun p => decide (p.1 ∈ names)).map fun p => (p.1, text p.2)

/-- `fetch_endpoint`, or else `kwargs.get("endpoint")`, or MissingAttribute (trust_mark_status.py 60-63, trust_mark_list.py 50-53); an argument not given is empty. -/
def endpointOf (fetch endpoint : String) : Except PyErr String :=
  if fetch ≠ "" then .ok fetch else if endpoint ≠ "" then .ok endpoint else .error .missingAttribute

/-- `TrustMarkStatus.get_request_parameters` (/repo/src/fedservice/entity/client/trust_mark_status.py 33-67). `unverified`: the payload of a token, not verified; `none` when the token is no JWS
(`factory` gives `None`, AttributeError). Without arguments: TypeError. Simplification: a `trust_mark` that is no string is treated as no JWS. -/
def statusRequest (text : Val → String) (unverified : String → Option (Dict Val)) (args : Option (Dict Val)) (fetch endpoint : String) : Except PyErr Get :=
  match args with
  | none => .error .typeError
  | some args =>
    match args.get? "trust_mark" with
    | some (.str t) =>
      match unverified t with
      | none => .error .attributeError
      | some p =>
        match p.get? "iss" with
        | none => .error .keyError
        | some iss => .ok ⟨text iss, [("trust_mark", t)]⟩
    | some _ => .error .attributeError
    | none =>
      match endpointOf fetch endpoint with
      | .error e => .error e
      | .ok ep => .ok ⟨ep, pick text ["sub", "trust_mark_id", "iat"] args⟩

/-- `TrustMarkList.get_request_parameters` (/repo/src/fedservice/entity/client/trust_mark_list.py 30-57). Without arguments: AttributeError. -/
def markListRequest (text : Val → String) (args : Option (Dict Val)) (fetch endpoint : String) : Except PyErr Get :=
  match args with
  | none => .error .attributeError
  | some args =>
    match endpointOf fetch endpoint with
    | .error e => .error e
    | .ok ep => .ok ⟨ep, pick text ["trust_mark_id"] args⟩

/-- The query of `EntityStatement.get_request_parameters` (/repo/src/fedservice/entity/client/entity_statement.py 88-94). -/
def statementQuery (issuer subject : String) : Dict String :=
  if issuer ≠ "" then ("iss", issuer) :: (if subject ≠ "" then [("sub", subject)] else []) else []

/-- `_ec["metadata"]["federation_entity"]["federation_fetch_endpoint"]` (entity_statement.py 84-86). -/
def fetchEndpoint (text : Val → String) (md : Dict Policy.Metadata) : Except PyErr String :=
  match md.get? "federation_entity" with
  | none => .error .keyError
  | some fe =>
    match fe.get? "federation_fetch_endpoint" with
    | none => .error .keyError
    | some v => if v.truthy then .ok (text v) else .error .attributeError

/-- `EntityStatement.get_request_parameters` (entity_statement.py 47-95): where the endpoint is not given it is the one in the issuer's configuration, the cached one (expired: `None`, which has no
members) or the one `ask` gets (`client.do_request("entity_configuration", …)`, the metadata in what comes back, unverified). Returns the cache too, from which an expired entry has been removed. -/
def statementRequest (text : Val → String) (P : Collect.Params) (now : Int) (ask : String → Except PyErr (Dict Policy.Metadata)) (cache : Dict Collect.Config) (fetch issuer subject : String) :
    Except PyErr Get × Dict Collect.Config :=
  if fetch ≠ "" then (.ok ⟨fetch, statementQuery issuer subject⟩, cache)
  else
    let (md, cache) := if cache.has issuer then
        match Collect.subscript P.delta now cache issuer with
        | (.error e, db) => (.error e, db)
        | (.ok c, db) => (TrustMarks.ecMetadata c, db)
      else (ask issuer, cache)
    match md with
    | .error e => (.error e, cache)
    | .ok md =>
      match fetchEndpoint text md with
      | .error e => (.error e, cache)
      | .ok ep => (.ok ⟨ep, statementQuery issuer subject⟩, cache)

/-- One argument of `List.get_request_parameters`: passed on if it is given and true (/repo/src/fedservice/entity/client/list.py 51-53). -/
def listParam (text : Val → String) (args : Dict Val) (k : String) : Option (String × String) :=
  match args.get? k with
  | some v => if v.truthy then some (k, text v) else none
  | none => none

/-- The query of `List.get_request_parameters` (list.py 49-53). -/
def listQuery (text : Val → String) (args : Dict Val) : Dict String :=
  ["entity_type", "trust_marked", "trust_mark_id", "intermediate"].filterMap (listParam text args)

/-- `List.get_request_parameters` (list.py 29-58), for an endpoint that is given. -/
def listRequest (text : Val → String) (endpoint : String) (args : Dict Val) : Get := ⟨endpoint, listQuery text args⟩

/-! ### the endpoints -/

/-- What the status endpoint takes the query for (/repo/src/fedservice/trust_mark_entity/server/trust_mark_status.py 34-51). `unpack`: `unpack_trust_mark`. -/
def statusAsked (unpack : String → Except PyErr TrustMarks.Info) (q : Dict String) : TrustMarks.StatusRequest where
  mark := (q.get? "trust_mark").map unpack
  sub := q.get? "sub"
  trustMarkId := q.get? "trust_mark_id"
  id := q.get? "id"

/-- What the trust mark list endpoint answers (/repo/src/fedservice/trust_mark_entity/server/trust_mark_list.py 35-48). -/
def markListAnswer (is : TrustMarks.Issuer) (now : Int) (q : Dict String) : Except PyErr TrustMarks.ListAnswer :=
  is.listing now (q.get? "sub") (q.get? "trust_mark_id")

/-- What the fetch endpoint takes the query for (/repo/src/fedservice/entity/server/fetch.py 27-33). -/
def fetchAsked (q : Dict String) : Server.FetchRequest where
  iss := q.get? "iss"
  sub := q.get? "sub"

/-- What the list endpoint takes the query for (/repo/src/fedservice/entity/server/list.py 52-78). -/
def listAsked (q : Dict String) : Dict Val := q.map fun p => (p.1, .str p.2)

end Fed.Client.Requests
