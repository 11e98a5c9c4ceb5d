/-
Python values, dictionaries, sets and exceptions, as far as fedservice uses them.
Not tied to one file of /repo: this is the part of the Python runtime that the model needs.
-/
namespace Fed

/-- Python exceptions raised by the modelled code (exceptions are values in the model).
`outOfFuel` is not a Python exception: it marks a run that did not finish within the given fuel. -/
inductive PyErr
  | policyError | keyError | typeError | valueError | attributeError | indexError
  | missingKey | badSignature | unknownEntity | noTrustedChains | noTrustedClaims | missingPage | connectionError
  | failedConfigurationRetrieval | unknownCriticalExtension | wrongSubject | expired
  | capabilitiesMismatch | invalidRedirectUri | jwtError | missingAttribute | outOfFuel
  | systemError | signatureFailure | responseError | otherError | unsupported | configurationError | serviceError
deriving DecidableEq, Repr

/-- JSON values as Python sees them after `json.loads`. Floats are left out.
Simplification: Python's `True == 1` is not modelled (booleans and integers are distinct), and the keys of an `obj` are
understood to be listed in a canonical order, so that structural equality is dict equality. -/
inductive Val
  | null
  | bool (b : Bool)
  | int (i : Int)
  | str (s : String)
  | arr (xs : List Val)
  | obj (kvs : List (String × Val))
deriving Repr, Inhabited

mutual
/-- Python `==` on values. -/
def Val.beq : Val → Val → Bool
  | .null, .null => true
  | .bool a, .bool b => a == b
  | .int a, .int b => a == b
  | .str a, .str b => a == b
  | .arr a, .arr b => Val.beqList a b
  | .obj a, .obj b => Val.beqKvs a b
  | _, _ => false
def Val.beqList : List Val → List Val → Bool
  | [], [] => true
  | a :: as, b :: bs => Val.beq a b && Val.beqList as bs
  | _, _ => false
def Val.beqKvs : List (String × Val) → List (String × Val) → Bool
  | [], [] => true
  | (k, a) :: as, (l, b) :: bs => k == l && Val.beq a b && Val.beqKvs as bs
  | _, _ => false
end

mutual
theorem Val.beq_iff : ∀ a b : Val, Val.beq a b = true ↔ a = b
  | .null, b => by cases b <;> simp [Val.beq]
  | .bool _, b => by cases b <;> simp [Val.beq]
  | .int _, b => by cases b <;> simp [Val.beq]
  | .str _, b => by cases b <;> simp [Val.beq]
  | .arr a, b => by
      cases b <;> simp [Val.beq]
      exact Val.beqList_iff a _
  | .obj a, b => by
      cases b <;> simp [Val.beq]
      exact Val.beqKvs_iff a _
theorem Val.beqList_iff : ∀ a b : List Val, Val.beqList a b = true ↔ a = b
  | [], b => by cases b <;> simp [Val.beqList]
  | a :: as, b => by
      cases b <;> simp [Val.beqList, Val.beq_iff a, Val.beqList_iff as]
theorem Val.beqKvs_iff : ∀ a b : List (String × Val), Val.beqKvs a b = true ↔ a = b
  | [], b => by cases b <;> simp [Val.beqKvs]
  | (k, a) :: as, b => by
      rcases b with _ | ⟨⟨l, b⟩, bs⟩ <;> simp [Val.beqKvs, Val.beq_iff a, Val.beqKvs_iff as]
end

instance : DecidableEq Val := fun a b => decidable_of_iff _ (Val.beq_iff a b)

instance {ε α} [DecidableEq ε] [DecidableEq α] : DecidableEq (Except ε α)
  | .ok a, .ok b => if h : a = b then isTrue (by rw [h]) else isFalse (by simp [h])
  | .error a, .error b => if h : a = b then isTrue (by rw [h]) else isFalse (by simp [h])
  | .ok _, .error _ => isFalse (by simp)
  | .error _, .ok _ => isFalse (by simp)

@[simp] theorem ok_bind {ε α β} (a : α) (f : α → Except ε β) : (Except.ok a >>= f) = f a := rfl
@[simp] theorem error_bind {ε α β} (e : ε) (f : α → Except ε β) : ((Except.error e : Except ε α) >>= f) = .error e := rfl
@[simp] theorem except_pure {ε α} (a : α) : (pure a : Except ε α) = .ok a := rfl
@[simp] theorem except_throw {ε α} (e : ε) : (throw e : Except ε α) = .error e := rfl

/-- Python truth value (`if v:`). -/
def Val.truthy : Val → Bool
  | .null => false
  | .bool b => b
  | .int i => i != 0
  | .str s => s != ""
  | .arr xs => !xs.isEmpty
  | .obj kvs => !kvs.isEmpty

/-- Can the value be a member of a Python set? Lists and dicts can not. -/
def Val.hashable : Val → Bool
  | .arr _ => false
  | .obj _ => false
  | _ => true

/-- `isinstance(v, list)` -/
def Val.isList : Val → Bool
  | .arr _ => true
  | _ => false

/-- The characters of a string, as Python iterates over a string. -/
def strChars (s : String) : List Val := s.toList.map fun c => .str (String.ofList [c])

/-- Iterating over a value: lists, the characters of a string, the keys of a dict; anything else raises TypeError. -/
def pyIter : Val → Except PyErr (List Val)
  | .arr xs => .ok xs
  | .str s => .ok (strChars s)
  | .obj kvs => .ok (kvs.map fun p => .str p.1)
  | _ => .error .typeError

/-- `set(xs)` of an enumerated list: TypeError if some member is not hashable. A Python set is represented by a list of
its members; order and multiplicity carry no meaning. -/
def mkSet (xs : List Val) : Except PyErr (List Val) :=
  if xs.all Val.hashable then .ok xs else .error .typeError

/-- `set(v)` -/
def pySet (v : Val) : Except PyErr (List Val) := pyIter v >>= mkSet

/-- `set(v) if isinstance(v, list) else {v}` -/
def setOrSingleton : Val → Except PyErr (List Val)
  | .arr xs => mkSet xs
  | v => mkSet [v]

/-- Substring test on characters. -/
def isInfixB (t : List Char) : List Char → Bool
  | [] => t.isEmpty
  | c :: cs => t.isPrefixOf (c :: cs) || isInfixB t cs

/-- `x in v`. Substring test when both are strings; membership of a list; key of a dict (TypeError when `x` is not
hashable); otherwise TypeError. -/
def pyIn (x v : Val) : Except PyErr Bool :=
  match v with
  | .arr xs => .ok (decide (x ∈ xs))
  | .str s =>
    match x with
    | .str t => .ok (isInfixB t.toList s.toList)
    | _ => .error .typeError
  | .obj kvs => if x.hashable then .ok (kvs.any fun p => decide (Val.str p.1 = x)) else .error .typeError
  | _ => .error .typeError

/-- How a Python process happens to enumerate its sets: the distinct members in some order. Nothing else is promised,
so a theorem about every `SetEnum` is a theorem about every hash seed. -/
structure SetEnum (α : Type) where
  enum : List α → List α
  mem_enum : ∀ l x, x ∈ enum l ↔ x ∈ l
  nodup_enum : ∀ l, (enum l).Nodup

/-- Remove later duplicates. -/
def dedup {α} [DecidableEq α] : List α → List α
  | [] => []
  | x :: xs => x :: (dedup xs).filter (· ≠ x)

theorem mem_dedup {α} [DecidableEq α] (l : List α) (x : α) : x ∈ dedup l ↔ x ∈ l := by
  induction l with
  | nil => simp [dedup]
  | cons a l ih =>
    by_cases h : x = a <;> simp [dedup, h, ih]

theorem nodup_dedup {α} [DecidableEq α] (l : List α) : (dedup l).Nodup := by
  induction l with
  | nil => simp [dedup]
  | cons a l ih =>
    simp only [dedup, List.nodup_cons]
    exact ⟨by simp, ih.filter _⟩

/-- Enumeration in insertion order. -/
def SetEnum.insertion {α} [DecidableEq α] : SetEnum α := ⟨dedup, mem_dedup, nodup_dedup⟩

/-- Enumeration in reverse insertion order. -/
def SetEnum.reversed {α} [DecidableEq α] : SetEnum α :=
  ⟨fun l => (dedup l).reverse, by simp [mem_dedup], by
    intro l; simpa [List.Nodup, List.pairwise_reverse, ne_comm] using nodup_dedup l⟩

/-- A Python dict with string keys: association list, first match counts. -/
abbrev Dict (α : Type) := List (String × α)

namespace Dict
variable {α : Type}

/-- `d.get(k)` -/
def get? : Dict α → String → Option α
  | [], _ => none
  | (k, v) :: d, q => if k = q then some v else get? d q

/-- `d[k]`: KeyError when missing. -/
def get (d : Dict α) (k : String) : Except PyErr α :=
  match d.get? k with
  | some v => .ok v
  | none => .error .keyError

/-- `k in d` -/
def has (d : Dict α) (k : String) : Bool := (d.get? k).isSome

/-- `d[k] = v`: replaces in place, else appends. -/
def set : Dict α → String → α → Dict α
  | [], q, w => [(q, w)]
  | (k, v) :: d, q, w => if k = q then (k, w) :: d else (k, v) :: set d q w

/-- `d.keys()` -/
def keys (d : Dict α) : List String := d.map (·.1)

/-- `d.update(e)`. Folded from the right so that for a repeated key (which a Python dict can not have) the first entry of
`e` counts, as in `get?`; the order in which new keys are inserted is not observed by any modelled code. -/
def update (d e : Dict α) : Dict α := e.foldr (fun p d => d.set p.1 p.2) d

/-- `del d[k]`: KeyError when missing. -/
def del (d : Dict α) (k : String) : Except PyErr (Dict α) :=
  if d.has k then .ok (d.filter fun p => p.1 ≠ k) else .error .keyError

@[simp] theorem get?_nil (k : String) : get? ([] : Dict α) k = none := rfl

theorem get?_cons (p : String × α) (d : Dict α) (q : String) :
    get? (p :: d) q = if p.1 = q then some p.2 else get? d q := by
  cases p; rfl

theorem get?_set (d : Dict α) (k q : String) (v : α) :
    (d.set k v).get? q = if k = q then some v else d.get? q := by
  induction d with
  | nil => simp [set, get?]
  | cons p d ih =>
    obtain ⟨a, b⟩ := p
    by_cases h1 : a = k
    · subst h1; by_cases h2 : a = q <;> simp [set, get?, h2]
    · by_cases h2 : a = q
      · subst h2; simp [set, get?, h1, Ne.symm h1]
      · simp [set, get?, h1, h2, ih]

@[simp] theorem get?_set_self (d : Dict α) (k : String) (v : α) : (d.set k v).get? k = some v := by
  simp [get?_set]

theorem get?_set_ne (d : Dict α) {k q : String} (v : α) (h : k ≠ q) : (d.set k v).get? q = d.get? q := by
  simp [get?_set, h]

theorem get?_update (d e : Dict α) (q : String) : (d.update e).get? q = (e.get? q).or (d.get? q) := by
  induction e with
  | nil => simp [update]
  | cons p e ih =>
    simp only [update, List.foldr] at ih ⊢
    rw [get?_set, ih, get?_cons]
    split <;> simp

theorem mem_keys_iff (d : Dict α) (k : String) : k ∈ d.keys ↔ (d.get? k).isSome := by
  induction d with
  | nil => simp [keys]
  | cons p d ih =>
    simp only [keys, List.map_cons, List.mem_cons, get?_cons] at ih ⊢
    by_cases h : p.1 = k
    · simp [h]
    · simp [h, ih, Ne.symm h]

theorem mem_keys_iff_exists (d : Dict α) (k : String) : k ∈ d.keys ↔ ∃ v, d.get? k = some v := by
  rw [mem_keys_iff, Option.isSome_iff_exists]

theorem get?_eq_none_iff (d : Dict α) (k : String) : d.get? k = none ↔ k ∉ d.keys := by
  rw [mem_keys_iff]; cases d.get? k <;> simp

theorem get?_mem {d : Dict α} {k : String} {v : α} (h : d.get? k = some v) : (k, v) ∈ d := by
  induction d with
  | nil => simp at h
  | cons p d ih =>
    rw [get?_cons] at h
    split at h
    · cases p; simp_all
    · exact List.mem_cons_of_mem _ (ih h)

theorem has_iff (d : Dict α) (k : String) : d.has k = true ↔ k ∈ d.keys := by
  simp [has, mem_keys_iff]

theorem get?_filter_ne (d : Dict α) (k q : String) :
    get? (d.filter fun p => p.1 ≠ k) q = if k = q then none else d.get? q := by
  induction d with
  | nil => simp
  | cons p d ih =>
    by_cases h : p.1 = k
    · by_cases h2 : k = q
      · subst h2; simpa [h] using ih
      · simp only [h, ne_eq, not_true_eq_false, decide_false, Bool.false_eq_true, not_false_eq_true,
          List.filter_cons_of_neg, ih, get?_cons, h2, if_false]
    · rw [List.filter_cons_of_pos (by simpa using h), get?_cons, ih, get?_cons]
      by_cases h2 : k = q
      · subst h2; simp [h]
      · simp [h2]

/-- Two dicts with the same lookups (dict equality in Python). -/
def Same (d e : Dict α) : Prop := ∀ k, d.get? k = e.get? k

end Dict

/-- Two values are equal up to the order and multiplicity of list members. -/
def Val.SetEq : Val → Val → Prop
  | .arr xs, .arr ys => ∀ x, x ∈ xs ↔ x ∈ ys
  | a, b => a = b

/-- The same for optional values (an absent claim equals only an absent claim). -/
def OptSetEq : Option Val → Option Val → Prop
  | some a, some b => a.SetEq b
  | none, none => True
  | _, _ => False

theorem Val.SetEq.refl (a : Val) : a.SetEq a := by
  cases a <;> simp [Val.SetEq]

theorem Val.SetEq.symm {a b : Val} (h : a.SetEq b) : b.SetEq a := by
  cases a <;> cases b <;> simp_all [Val.SetEq]

theorem Val.SetEq.trans {a b c : Val} (h : a.SetEq b) (h' : b.SetEq c) : a.SetEq c := by
  cases a <;> cases b <;> cases c <;> simp_all [Val.SetEq]

theorem OptSetEq.refl (a : Option Val) : OptSetEq a a := by
  cases a <;> simp [OptSetEq, Val.SetEq.refl]

theorem OptSetEq.symm {a b : Option Val} (h : OptSetEq a b) : OptSetEq b a := by
  cases a <;> cases b <;> simp_all [OptSetEq, Val.SetEq.symm]

theorem OptSetEq.trans {a b c : Option Val} (h : OptSetEq a b) (h' : OptSetEq b c) : OptSetEq a c := by
  cases a <;> cases b <;> cases c <;> simp_all [OptSetEq]
  exact h.trans h'

end Fed
