import Verif.Model.Enums

/-!
# Options of the user in `[setup]`, and parameters as attributes of the output

The section `[setup]` of the input file (src/framework/parameters/parameters.cpp:260-353), typed access to
a parameter (src/global/utils/param_container.h:71-94) and the attributes written to the output
(src/global/utils/param_container.cpp:25-343).

Outside: the parser of the file (a table comes as a list of names and values, each name once, in any
order), and ADIOS2 (`DefineAttribute` adds an attribute and throws if the name is in use).
-/

namespace Entity.Setup

open Entity

/-- A value of the input file; `other` stands for dates, times and tables. -/
inductive Toml (K : Type) where
  | bool (b : Bool)
  | int (n : Int)
  | float (x : K)
  | str (s : String)
  | arr (l : List (Toml K))
  | other

/-- The types of C++ that occur: those for which functions are registered (param_container.cpp:222-325)
and the 8-bit index of a species (global.h:394). -/
inductive Ty where
  | bool | float | double | longDouble | short | ushort | int | uint | long | ulong | longLong
  | ulongLong | uchar | dim | str
  | enum (e : Enums.EnumTable)
  deriving DecidableEq

/-- A value of one of these types; an enumerator is its number. -/
inductive Sv (K : Type) where
  | bool (b : Bool)
  | int (n : Int)
  | real (x : K)
  | str (s : String)
  deriving DecidableEq

/-- A `std::any` in the container: a value, `std::pair`, `std::vector`, vector of pairs, vector of vectors
or `std::map` with strings as keys, and anything else (the vector of species). -/
inductive Any (K : Type) where
  | one (t : Ty) (v : Sv K)
  | pair (t : Ty) (a b : Sv K)
  | vec (t : Ty) (l : List (Sv K))
  | vecPair (t : Ty) (l : List (Sv K × Sv K))
  | vecVec (t : Ty) (l : List (List (Sv K)))
  | dict (t : Ty) (l : List (String × Sv K))
  | other

/-- The container (param_container.h:35-43), newest entry first. -/
abbrev Params (K : Type) := List (String × Any K)

/-- `vars.at(key)` (param_container.h:75); `none` stands for `std::out_of_range`. -/
def look {α : Type} : List (String × α) → String → Option α
  | [], _ => none
  | (k, v) :: rest, key => if k = key then some v else look rest key

/-- `get<T>` without a default (param_container.h:71-94): throws if there is no such parameter and if it
has another type; the type is `T` here. -/
def getOne {K : Type} (p : Params K) (key : String) (T : Ty) : Outcome (Sv K) :=
  match look p key with
  | some (.one t v) => if t = T then .ok v else .err
  | _ => .err

/-- `get<std::vector<T>>` (param_container.h:71-94). -/
def getVec {K : Type} (p : Params K) (key : String) (T : Ty) : Outcome (List (Sv K)) :=
  match look p key with
  | some (.vec t l) => if t = T then .ok l else .err
  | _ => .err

/-- `get<std::vector<std::vector<T>>>` (param_container.h:71-94). -/
def getVecVec {K : Type} (p : Params K) (key : String) (T : Ty) : Outcome (List (List (Sv K))) :=
  match look p key with
  | some (.vecVec t l) => if t = T then .ok l else .err
  | _ => .err

/-- A loop that converts all entries; an exception ends it. -/
def each {α β : Type} (f : α → Outcome β) : List α → Outcome (List β)
  | [] => .ok []
  | a :: l => do
    let b ← f a
    let r ← each f l
    return b :: r

/-- Conversion of a 64-bit integer to `int` (parameters.cpp:267, 280, 309): modulo 2^32. -/
def toInt32 (n : Int) : Int := (n + 2 ^ 31) % 2 ^ 32 - 2 ^ 31

/-- What is outside of the section: the type `real_t` of the build (global.h:349-353) and the conversion
of a double to it. -/
structure Build (K : Type) where
  realT : Ty
  rnd : K → K

/-- `as_integer` and the conversion to `int`; `as_integer` throws for another type. -/
def asInt {K : Type} : Toml K → Outcome (Sv K)
  | .int n => .ok (.int (toInt32 n))
  | _ => .err

/-- `as_floating` and the conversion to `real_t`. -/
def asReal {K : Type} (B : Build K) : Toml K → Outcome (Sv K)
  | .float x => .ok (.real (B.rnd x))
  | _ => .err

/-- `as_boolean`. -/
def asBool {K : Type} : Toml K → Outcome (Sv K)
  | .bool b => .ok (.bool b)
  | _ => .err

/-- `as_string`. -/
def asStr {K : Type} : Toml K → Outcome (Sv K)
  | .str s => .ok (.str s)
  | _ => .err

/-- `as_array` and a loop over the entries (parameters.cpp:307-311 and the like). -/
def asArr {K : Type} (f : Toml K → Outcome (Sv K)) : Toml K → Outcome (List (Sv K))
  | .arr l => each f l
  | _ => .err

/-- The parameter set for a value (parameters.cpp:264-350); `none`: nothing is set. -/
def setupVal {K : Type} (B : Build K) : Toml K → Outcome (Option (Any K))
  | .bool b => .ok (some (.one .bool (.bool b)))
  | .int n => .ok (some (.one .int (.int (toInt32 n))))
  | .float x => .ok (some (.one B.realT (.real (B.rnd x))))
  | .str s => .ok (some (.one .str (.str s)))
  | .other => .ok none
  | .arr [] => .ok none
  | .arr (v :: vs) => match v with
    | .int _ => do return some (.vec .int (← each asInt (v :: vs)))
    | .float _ => do return some (.vec B.realT (← each (asReal B) (v :: vs)))
    | .bool _ => do return some (.vec .bool (← each asBool (v :: vs)))
    | .str _ => do return some (.vec .str (← each asStr (v :: vs)))
    | .arr [] => .err
    | .arr (w :: _) => match w with
      | .int _ => do return some (.vecVec .int (← each (asArr asInt) (v :: vs)))
      | .float _ => do return some (.vecVec B.realT (← each (asArr (asReal B)) (v :: vs)))
      | .bool _ => do return some (.vecVec .bool (← each (asArr asBool) (v :: vs)))
      | .str _ => do return some (.vecVec .str (← each (asArr asStr) (v :: vs)))
      | .arr _ => .err
      | .other => .ok none
    | .other => .err

/-- `setSetupParams` (parameters.cpp:260-353): the loop over the table. -/
def setSetup {K : Type} (B : Build K) : List (String × Toml K) → Params K → Outcome (Params K)
  | [], p => .ok p
  | (key, val) :: rest, p => do
    let v ← setupVal B val
    setSetup B rest (match v with
      | some v => ("setup." ++ key, v) :: p
      | none => p)

/-- An attribute of the output: a value or an array, of a type of ADIOS2. -/
inductive Attr (K : Type) where
  | one (t : Ty) (v : Sv K)
  | arr (t : Ty) (l : List (Sv K))

/-- `io.DefineAttribute`. -/
def define {K : Type} (io : List (String × Attr K)) (name : String) (a : Attr K) :
    Outcome (List (String × Attr K)) :=
  match look io name with
  | some _ => .err
  | none => .ok (io ++ [(name, a)])

/-- Enumerations for which functions are registered (param_container.cpp:236-240 and below). -/
def writableEnums : List Enums.EnumTable :=
  [Enums.fldsBC, Enums.prtlBC, Enums.coord, Enums.metric, Enums.simEngine]

/-- Types registered for single values (param_container.cpp:222-240). -/
def regOne : Ty → Bool
  | .uchar => false
  | .enum e => decide (e ∈ writableEnums)
  | _ => true

/-- Types registered for pairs, vectors, vectors of pairs and vectors of vectors
(param_container.cpp:242-312). -/
def regMany : Ty → Bool
  | .uchar | .bool | .dim => false
  | .enum e => decide (e ∈ writableEnums)
  | _ => true

/-- Types registered for maps (param_container.cpp:314-325). -/
def regDict : Ty → Bool
  | .uchar | .bool | .dim | .enum _ => false
  | _ => true

/-- The overloads of `write` for a single value (param_container.cpp:33-52): enumerators as their name,
`bool` as `int`, `Dimension` as `unsigned short`. -/
def conv {K : Type} : Ty → Sv K → Outcome (Ty × Sv K)
  | .enum e, .int n => do return (.str, .str (← Enums.toString e n.toNat))
  | .bool, .bool b => .ok (.int, .int (if b then 1 else 0))
  | .dim, v => .ok (.ushort, v)
  | t, v => .ok (t, v)

/-- The type of the entries of an array: enumerators as their name (param_container.cpp:54-138). -/
def convTy : Ty → Ty
  | .enum _ => .str
  | t => t

/-- An entry of an array (param_container.cpp:54-138). -/
def convEntry {K : Type} : Ty → Sv K → Outcome (Sv K)
  | .enum e, .int n => do return .str (← Enums.toString e n.toNat)
  | _, v => .ok v

/-- Outcome of a call inside `try` (param_container.cpp:332-341): the attributes so far, whether or not
an exception was thrown. -/
def attempt {α : Type} (before : α) : Outcome α → Outcome α
  | .ok a => .ok a
  | .err => .ok before
  | .ub => .ub

/-- `write_dict` (param_container.cpp:140-159) inside `try`: attributes defined before an exception stay. -/
def writeDict {K : Type} (io : List (String × Attr K)) (name : String) (t : Ty) :
    List (String × Sv K) → Outcome (List (String × Attr K))
  | [] => .ok io
  | (key, v) :: rest =>
    match define io (name ++ "_" ++ key) (.one t v) with
    | .ok io' => writeDict io' name t rest
    | .err => .ok io
    | .ub => .ub

/-- `write_any` (param_container.cpp:212-219) with the functions it calls, inside `try`; it throws if no
function is registered for the type. -/
def writeAny {K : Type} (io : List (String × Attr K)) (name : String) :
    Any K → Outcome (List (String × Attr K))
  | .one t v => attempt io (if regOne t then do
      let (t', v') ← conv t v
      define io name (.one t' v')
    else .err)
  | .pair t a b => attempt io (if regMany t then do
      let l ← each (convEntry t) [a, b]
      define io name (.arr (convTy t) l)
    else .err)
  | .vec t l => attempt io (if regMany t then do
      let l ← each (convEntry t) l
      define io name (.arr (convTy t) l)
    else .err)
  | .vecPair t l => attempt io (if regMany t then do
      let l ← each (convEntry t) (l.flatMap fun p => [p.1, p.2])
      define io name (.arr (convTy t) l)
    else .err)
  | .vecVec t l => attempt io (if regMany t then do
      let l ← each (convEntry t) l.flatten
      define io name (.arr (convTy t) l)
    else .err)
  | .dict t l => attempt io (if regDict t then writeDict io name t l else .err)
  | .other => attempt io .err

/-- `Parameters::write` (param_container.cpp:221-343), the loop over the container. -/
def writeParams {K : Type} (io : List (String × Attr K)) : Params K → Outcome (List (String × Attr K))
  | [] => .ok io
  | (key, v) :: rest =>
    if key = "particles.species" then writeParams io rest
    else do
      let io' ← writeAny io key v
      writeParams io' rest

end Entity.Setup
