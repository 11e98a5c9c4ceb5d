import Verif.Py
/-
Values in files: `load_values_from_file` and `_import` (/repo/src/fedservice/utils.py 285-322).
-/
namespace Fed.Config
open Fed

/-- What is in a file, as far as it matters: its text, and what `json.loads` makes of it. -/
structure Content where
  text : String
  json : Except PyErr Val

/-- `val.startswith("file:")`. -/
def isFile (s : String) : Bool := "file:".toList.isPrefixOf s.toList

/-- `val[len("file:"):]`. -/
def path (s : String) : String := String.ofList (s.toList.drop 5)

/-- `val.endswith(e)`. -/
def endsWith (s e : String) : Bool := e.toList.isSuffixOf s.toList

/-- `_import` (utils.py 285-298). -/
def importFile (fs : String → Option Content) (s : String) : Except PyErr Val :=
  match fs (path s) with
  | none => .ok .null
  | some c => if endsWith s ".json" then c.json else if endsWith s ".py" then .ok (.str c.text) else .error .valueError

mutual
/-- `load_values_from_file` (utils.py 301-322): the result for a dict. What was read is put into the same dict, under the same keys. Simplification: what a call that raises
has already put into dicts further down is not modelled. -/
def loadDict (fs : String → Option Content) : List (String × Val) → Except PyErr (List (String × Val))
  | [] => .ok []
  | (k, v) :: d => match loadVal fs v with
    | .error e => .error e
    | .ok v' => match loadDict fs d with
      | .error e => .error e
      | .ok d' => .ok ((k, v') :: d')
/-- What becomes of one value of a dict (utils.py 304-317). -/
def loadVal (fs : String → Option Content) : Val → Except PyErr Val
  | .str s => if isFile s then importFile fs s else .ok (.str s)
  | .obj d => match loadDict fs d with
    | .error e => .error e
    | .ok d' => .ok (.obj d')
  | .arr xs => match loadList fs xs with
    | .error e => .error e
    | .ok xs' => .ok (.arr xs')
  | .null => .ok .null
  | .bool b => .ok (.bool b)
  | .int n => .ok (.int n)
/-- The loop over a list (utils.py 309-317). Line 313 asks whether the list is a string; it is not. -/
def loadList (fs : String → Option Content) : List Val → Except PyErr (List Val)
  | [] => .ok []
  | x :: xs => match loadElem fs x with
    | .error e => .error e
    | .ok x' => match loadList fs xs with
      | .error e => .error e
      | .ok xs' => .ok (x' :: xs')
/-- What becomes of one element of a list. -/
def loadElem (fs : String → Option Content) : Val → Except PyErr Val
  | .obj d => match loadDict fs d with
    | .error e => .error e
    | .ok d' => .ok (.obj d')
  | .str s => .ok (.str s)
  | .arr xs => .ok (.arr xs)
  | .null => .ok .null
  | .bool b => .ok (.bool b)
  | .int n => .ok (.int n)
end

end Fed.Config
