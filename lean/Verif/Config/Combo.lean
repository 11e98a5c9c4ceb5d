import Verif.Py
/-
Model of how a combination of entities is made: `Combo.__init__` and `FederationCombo.__init__`, /repo/src/fedservice/combo/__init__.py 19-55, 87-108.
-/
namespace Fed.Config.Combo
open Fed

/-- The specification of a part: an entry of the configuration that is a dictionary with a class (combo/__init__.py 37). -/
def specOf (v : Val) : Option (Dict Val) :=
  match v with
  | .obj d => if Dict.has d "class" then some d else none
  | _ => none

/-- `Combo._add_httpc_params` (combo/__init__.py 48-55): the specification afterwards, which is changed in place. If it has no kwargs the parameters are put into a dictionary that is thrown away.
Simplification: arguments that are no dictionaries are TypeErrors. -/
def addParams (spec : Dict Val) (params : Val) : Except PyErr (Dict Val) :=
  match spec.get? "kwargs" with
  | none => .ok spec
  | some (.obj kw) =>
    match Dict.get? kw "config" with
    | some (.obj c) => if Dict.has c "httpc_params" then .ok spec else .ok (spec.set "kwargs" (.obj (Dict.set kw "config" (.obj (Dict.set c "httpc_params" params)))))
    | some _ => .error .typeError
    | none => if Dict.has kw "httpc_params" then .ok spec else .ok (spec.set "kwargs" (.obj (Dict.set kw "httpc_params" params)))
  | some _ => .error .typeError

/-- The arguments a part is made with: idpyoidc's `execute(spec, entity_id=…, entity_type=…, …)` (combo/__init__.py 41-43): those of the specification take precedence. Of the common ones only the two
that are data are modelled (upstream_get and httpc are functions). -/
def partArgs (entityId : Val) (key : String) (spec : Dict Val) : Except PyErr (Dict Val) :=
  match spec.get? "kwargs" with
  | none => .ok [("entity_id", entityId), ("entity_type", .str key)]
  | some (.obj kw) => .ok (Dict.update [("entity_id", entityId), ("entity_type", .str key)] kw)
  | some _ => .error .typeError

/-- `FederationCombo._get_httpc_params` (combo/__init__.py 104-108). -/
def getParams (config : Dict Val) : Except PyErr Val :=
  if ((config.get? "httpc_params").getD .null).truthy then .ok ((config.get? "httpc_params").getD .null)
  else
    match config.get? "federation_entity" with
    | none => .error .keyError
    | some (.obj fe) => .ok ((Dict.get? fe "httpc_params").getD .null)
    | some _ => .error .attributeError

/-- `if httpc_params: self._add_httpc_params(spec, httpc_params)` (combo/__init__.py 38-39). -/
def withParams (spec : Dict Val) (params : Val) : Except PyErr (Dict Val) := if params.truthy then addParams spec params else .ok spec

/-- `if not httpc_params: httpc_params = self._get_httpc_params(config)` (combo/__init__.py 30-31). -/
def paramsFor (config : Dict Val) (params : Val) : Except PyErr Val := if params.truthy then .ok params else getParams config

/-- The loop over the configuration (combo/__init__.py 36-43): the arguments of the parts made, and the configuration afterwards. -/
def parts (entityId params : Val) : Dict Val → Except PyErr (Dict (Dict Val) × Dict Val)
  | [] => .ok ([], [])
  | (k, v) :: rest =>
    match specOf v with
    | none => do
      let (ps, c) ← parts entityId params rest
      .ok (ps, (k, v) :: c)
    | some spec => do
      let spec ← withParams spec params
      let args ← partArgs entityId k spec
      let (ps, c) ← parts entityId params rest
      .ok ((k, args) :: ps, (k, .obj spec) :: c)

/-- `FederationCombo.__init__` (combo/__init__.py 29-43, 87-102); `entityId` and `params` are the arguments, if any. Result: the parts' arguments and the configuration afterwards. Simplifications:
idpyoidc's `Unit.__init__` and the making of the parts do not fail; keys are left out. -/
def federationCombo (config : Dict Val) (entityId params : Val) : Except PyErr (Dict (Dict Val) × Dict Val) := do
  let eid := if entityId.truthy then entityId else (config.get? "entity_id").getD .null
  let params ← paramsFor config params
  parts eid params config

end Fed.Config.Combo
