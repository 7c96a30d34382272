import Verif.Model.Setup

/-!
# What users expect of `[setup]` and of the attributes of the output
-/

namespace Entity.Setup

open Entity

variable {K : Type}

/-- The range of a 32-bit integer. -/
def Int32 (n : Int) : Prop := -2 ^ 31 ≤ n ∧ n < 2 ^ 31

/-- The kinds of values an array may have. -/
inductive Kind where
  | int | float | bool | str

/-- A value of that kind. -/
def IsA : Kind → Toml K → Prop
  | .int, .int _ => True
  | .float, .float _ => True
  | .bool, .bool _ => True
  | .str, .str _ => True
  | _, _ => False

/-- Values allowed in `[setup]`: anything but arrays with entries of different kinds, arrays of tables or
dates, arrays of more than two dimensions and arrays that start with an empty array.  (An array that
starts with an array that starts with a table or date is let through.) -/
def Accepted : Toml K → Prop
  | .arr (v :: vs) =>
    (∃ e, ∀ x ∈ v :: vs, IsA e x) ∨
    (∃ w ws, v = .arr (w :: ws) ∧
      (w = .other ∨ ∃ e, ∀ x ∈ v :: vs, ∃ l, x = .arr l ∧ ∀ y ∈ l, IsA e y))
  | _ => True

/-- The option `t` of the input file can be read from the parameters under this name, with its value: by
`get<bool>`, `get<int>`, `get<real_t>`, `get<std::string>`, or `get<std::vector<…>>` of these, or a vector
of vectors.  Integers are in the range of `int`. -/
def Reads (B : Build K) (q : Params K) (name : String) : Toml K → Prop
  | .bool b => getOne q name .bool = .ok (.bool b)
  | .int n => Int32 n → getOne q name .int = .ok (.int n)
  | .float x => getOne q name B.realT = .ok (.real (B.rnd x))
  | .str s => getOne q name .str = .ok (.str s)
  | .other => True
  | .arr l => l ≠ [] →
    (∀ ns : List Int, l = ns.map Toml.int → (∀ n ∈ ns, Int32 n) →
      getVec q name .int = .ok (ns.map Sv.int)) ∧
    (∀ xs : List K, l = xs.map Toml.float →
      getVec q name B.realT = .ok (xs.map fun x => Sv.real (B.rnd x))) ∧
    (∀ bs : List Bool, l = bs.map Toml.bool → getVec q name .bool = .ok (bs.map Sv.bool)) ∧
    (∀ ss : List String, l = ss.map Toml.str → getVec q name .str = .ok (ss.map Sv.str)) ∧
    (∀ nss : List (List Int), l = nss.map (fun ns => Toml.arr (ns.map Toml.int)) →
      nss.head? ≠ some [] → (∀ ns ∈ nss, ∀ n ∈ ns, Int32 n) →
      getVecVec q name .int = .ok (nss.map fun ns => ns.map Sv.int)) ∧
    (∀ xss : List (List K), l = xss.map (fun xs => Toml.arr (xs.map Toml.float)) →
      xss.head? ≠ some [] →
      getVecVec q name B.realT = .ok (xss.map fun xs => xs.map fun x => Sv.real (B.rnd x))) ∧
    (∀ bss : List (List Bool), l = bss.map (fun bs => Toml.arr (bs.map Toml.bool)) →
      bss.head? ≠ some [] →
      getVecVec q name .bool = .ok (bss.map fun bs => bs.map Sv.bool)) ∧
    (∀ sss : List (List String), l = sss.map (fun ss => Toml.arr (ss.map Toml.str)) →
      sss.head? ≠ some [] →
      getVecVec q name .str = .ok (sss.map fun ss => ss.map Sv.str))

/-- A value of a type: an enumerator has a number of the enumeration. -/
def Fits : Ty → Sv K → Prop
  | .bool, .bool _ => True
  | .str, .str _ => True
  | .float, .real _ | .double, .real _ | .longDouble, .real _ => True
  | .enum e, .int n => 0 ≤ n ∧ n.toNat ∈ e.variants
  | .short, .int _ | .ushort, .int _ | .int, .int _ | .uint, .int _ | .long, .int _ | .ulong, .int _
  | .longLong, .int _ | .ulongLong, .int _ | .uchar, .int _ | .dim, .int _ => True
  | _, _ => False

/-- All values of a parameter are of its type. -/
def Typed : Any K → Prop
  | .one t v => Fits t v
  | .pair t a b => Fits t a ∧ Fits t b
  | .vec t l => ∀ v ∈ l, Fits t v
  | .vecPair t l => ∀ p ∈ l, Fits t p.1 ∧ Fits t p.2
  | .vecVec t l => ∀ r ∈ l, ∀ v ∈ r, Fits t v
  | .dict t l => ∀ p ∈ l, Fits t p.2
  | .other => True

/-- The names of the attributes of a parameter. -/
def names (k : String) : Any K → List String
  | .dict _ l => l.map fun p => k ++ "_" ++ p.1
  | _ => [k]

/-- How a reader of the output who knows the type of a parameter decodes an entry. -/
def decode : Ty → Sv K → Option (Sv K)
  | .bool, .int 1 => some (.bool true)
  | .bool, .int 0 => some (.bool false)
  | .bool, _ => none
  | .enum e, .str s => match Enums.pick e s with
    | .ok n => some (.int n)
    | _ => none
  | .enum _, _ => none
  | _, v => some v

/-- All entries decoded. -/
def decodeAll (t : Ty) : List (Sv K) → Option (List (Sv K))
  | [] => some []
  | v :: l => match decode t v, decodeAll t l with
    | some v, some l => some (v :: l)
    | _, _ => none

/-- Entries two by two. -/
def twoByTwo {α : Type} : List α → List (α × α)
  | a :: b :: l => (a, b) :: twoByTwo l
  | _ => []

/-- The parameter can be read from the attributes of the output: by its name, except that the entries of
a map have their own names; of a vector of vectors, only the entries in order. -/
def Recorded (io : List (String × Attr K)) (k : String) : Any K → Prop
  | .one t v => ∃ t' w, look io k = some (.one t' w) ∧ decode t w = some v
  | .pair t a b => ∃ t' l, look io k = some (.arr t' l) ∧ decodeAll t l = some [a, b]
  | .vec t l => ∃ t' l', look io k = some (.arr t' l') ∧ decodeAll t l' = some l
  | .vecPair t l => ∃ t' l', look io k = some (.arr t' l') ∧ (decodeAll t l').map twoByTwo = some l
  | .vecVec t l => ∃ t' l', look io k = some (.arr t' l') ∧ decodeAll t l' = some l.flatten
  | .dict t l => ∀ p ∈ l, ∃ t' w, look io (k ++ "_" ++ p.1) = some (.one t' w) ∧ decode t w = some p.2
  | .other => False

/-- The enumerations of the parameters: boundary conditions, coordinates, metrics and engines. -/
def KnownEnum (e : Enums.EnumTable) : Prop :=
  e = Enums.fldsBC ∨ e = Enums.prtlBC ∨ e = Enums.coord ∨ e = Enums.metric ∨ e = Enums.simEngine

/-- Parameters that are recorded: all but those of 8-bit integers, arrays of truth values and of
dimensions, maps to these or to enumerators, and the list of species. -/
def Recordable : Any K → Prop
  | .one t _ => t ≠ .uchar ∧ ∀ e, t = .enum e → KnownEnum e
  | .pair t _ _ | .vec t _ | .vecPair t _ | .vecVec t _ =>
    t ≠ .uchar ∧ t ≠ .bool ∧ t ≠ .dim ∧ ∀ e, t = .enum e → KnownEnum e
  | .dict t _ => t ≠ .uchar ∧ t ≠ .bool ∧ t ≠ .dim ∧ ∀ e, t ≠ .enum e
  | .other => False

end Entity.Setup
