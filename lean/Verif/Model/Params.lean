import Verif.Model.Base

/-!
# Parameter container (src/global/utils/param_container.h)
-/

namespace Entity.Params

open Entity

/-- A `std::any`: the name of the stored C++ type and the value (param_container.h:39).
Simplification: values are kept as text; only the type name decides whether `any_cast` succeeds. -/
structure Any where
  type : String
  value : String
  deriving DecidableEq, Repr

/-- `prm::Parameters` (param_container.h:35-40).  `std::map` as an association list with at most
one entry per key (see `set`). -/
structure Parameters where
  vars : List (String × Any)
  promises : List String
  deriving DecidableEq, Repr

/-- A new object. -/
def empty : Parameters := ⟨[], []⟩

/-- `vars.find(key)`. -/
def find : List (String × Any) → String → Option Any
  | [], _ => none
  | (k, v) :: rest, key => if k = key then some v else find rest key

/-- `contains` (param_container.h:47-49). -/
def contains (p : Parameters) (key : String) : Bool := (find p.vars key).isSome

/-- `promiseToDefine` (param_container.h:51-55). -/
def promiseToDefine (p : Parameters) (key : String) : Parameters :=
  if key ∈ p.promises then p else { p with promises := p.promises ++ [key] }

/-- `isPromised` (param_container.h:57-59). -/
def isPromised (p : Parameters) (key : String) : Bool := decide (key ∈ p.promises)

/-- `promisesFulfilled` (param_container.h:61-65). -/
def promisesFulfilled (p : Parameters) : Bool := p.promises.all (fun k => contains p k)

/-- `vars[key] = value`: overwrite the entry or add one. -/
def assign : List (String × Any) → String → Any → List (String × Any)
  | [], key, v => [(key, v)]
  | (k, w) :: rest, key, v => if k = key then (k, v) :: rest else (k, w) :: assign rest key v

/-- `set` (param_container.h:67-69). -/
def set (p : Parameters) (key : String) (v : Any) : Parameters :=
  { p with vars := assign p.vars key v }

/-- `get<T>(key, def)` (param_container.h:71-94): `type` is the type requested. -/
def get (p : Parameters) (type key : String) (dflt : Option String) : Outcome String :=
  match find p.vars key with
  | none => match dflt with
    | some d => .ok d
    | none => .err
  | some a => if a.type = type then .ok a.value else .err

/-- The mutating operations of a run. -/
inductive Op where
  | set (key : String) (v : Any)
  | promise (key : String)

/-- One operation. -/
def step (p : Parameters) : Op → Parameters
  | .set k v => set p k v
  | .promise k => promiseToDefine p k

/-- A history of operations on a new object. -/
def run (ops : List Op) : Parameters := ops.foldl step empty

end Entity.Params
