import Verif.Model.Prompt

/-!
# Which fields are written to the output, and under which names

Models `out::OutputField` (src/output/fields.h, fields.cpp), `Writer::defineFieldOutputs`
(src/output/writer.cpp:146-173), the list of requested fields of `InitWriter`
(src/framework/domain/metadomain_io.cpp:82-95) and the loop over the fields of `Metadomain::Write`
(metadomain_io.cpp:464-768).

* `std::string` is a list of characters.
* The buffer `bckp` is modelled by what its components hold; what a moment, a divergence or a field
  component is in each cell is modelled elsewhere (`Model/Moments`, `Model/CellOut`, `Model/VecPot`).
* ADIOS2 is a set of declared names: declaring a name twice throws, and so does writing a name that
  was not declared.
-/

namespace Entity.FieldOut

open Entity Entity.Prompt

/-- `FldsID` (enums.h:248-284) without `INVALID`. -/
inductive Id
  | E | divE | D | divD | B | H | J | A | T | Rho | Charge | N | Nppc | V | Custom
  deriving DecidableEq, Repr

/-- `FldsID::variants` (enums.h:276-278). -/
def Id.variants : List Id :=
  [.E, .divE, .D, .divD, .B, .H, .J, .A, .T, .Rho, .Charge, .N, .Nppc, .V, .Custom]

/-- `FldsID::to_string` (enums.h:279-282). -/
def Id.str : Id → List Char
  | .E => ['e']
  | .divE => ['d', 'i', 'v', 'e']
  | .D => ['d']
  | .divD => ['d', 'i', 'v', 'd']
  | .B => ['b']
  | .H => ['h']
  | .J => ['j']
  | .A => ['a']
  | .T => ['t']
  | .Rho => ['r', 'h', 'o']
  | .Charge => ['c', 'h', 'a', 'r', 'g', 'e']
  | .N => ['n']
  | .Nppc => ['n', 'p', 'p', 'c']
  | .V => ['v']
  | .Custom => ['c', 'u', 's', 't', 'o', 'm']

/-- `fmt::toLower` (formatting.h:118-122). -/
def lower (s : List Char) : List Char := s.map Char.toLower

/-- `std::string::substr(pos, n)`: `std::out_of_range` beyond the end. -/
def substr (s : List Char) (pos n : Nat) : Outcome (List Char) :=
  if s.length < pos then .err else .ok ((s.drop pos).take n)

/-- The characters at which the name is cut (fields.cpp:27). -/
def cutChars : List Char := ['0', '1', '2', '3', 'i', 'j', 'x', 'y', 'z', 't']

/-- `name_raw` (fields.cpp:23-28). -/
def stem (name : List Char) : List Char :=
  let raw := name.takeWhile (· ≠ '_')
  if lower raw ≠ Id.divE.str ∧ lower raw ≠ Id.divD.str then raw.takeWhile (fun c => c ∉ cutChars)
  else raw

/-- `FldsID::contains` and `FldsID::pick` (enums.h:94-111) search the names in order; anything else is a
user-defined field (fields.cpp:29-33). -/
def pickId (s : List Char) : Id :=
  match Id.variants.find? (fun i => i.str = s) with
  | some i => i
  | none => .Custom

/-- `m_id` (fields.cpp:29-33). -/
def fieldId (name : List Char) : Id := pickId (lower (stem name))

/-- fields.h:46-49. -/
def Id.isMoment (i : Id) : Bool :=
  i = .T || i = .Rho || i = .Nppc || i = .N || i = .Charge || i = .V

/-- fields.h:52-55. -/
def Id.isField (i : Id) : Bool := i = .E || i = .B || i = .D || i = .H

/-- fields.h:58-60. -/
def Id.isDivergence (i : Id) : Bool := i = .divE || i = .divD

/-- fields.h:63-65. -/
def Id.isCurrent (i : Id) : Bool := i = .J

/-- fields.h:68-70. -/
def Id.isEfield (i : Id) : Bool := i = .E || i = .D

/-- fields.h:73-75. -/
def Id.isAux (i : Id) : Bool := i = .E || i = .H

/-- `PrepareOutput` (global.h): conversion of the basis. -/
inductive Prep
  | none | hat | physCntrv | physCov
  deriving DecidableEq, Repr

/-- `PrepareOutput` (global.h): where the component is defined before it is interpolated. -/
inductive Interp
  | none | edges | faces
  deriving DecidableEq, Repr

/-- The members of `OutputField` (fields.h:28-38). -/
structure Field where
  name : List Char
  id : Id
  comp : List (List Nat)
  species : List Nat
  prep : Prep
  interp : Interp
  deriving DecidableEq, Repr

/-- `comp` (fields.cpp:44-66). -/
def components (gr : Bool) (id : Id) (name : List Char) : Outcome (List (List Nat)) :=
  if id.isField || id.isCurrent then .ok [[1], [2], [3]]
  else if id = .V then .ok (if gr then [[0], [1], [2], [3]] else [[1], [2], [3]])
  else if id = .A then .ok [[3]]
  else if id = .T then do
    let a ← substr name 1 1
    let b ← substr name 2 1
    interpretComponents [a, b]
  else .ok []

/-- `prepare_flag` (fields.cpp:68-75). -/
def prepFlag (gr : Bool) (id : Id) : Prep :=
  if id.isMoment || id = .Custom || id.isDivergence then .none
  else if !gr then .hat
  else if id.isAux then .physCov
  else .physCntrv

/-- `interp_flag` (fields.cpp:77-84); the error of the last branch. -/
def interpFlag (id : Id) : Outcome Interp :=
  if id.isCurrent || id.isEfield then .ok .edges
  else if id.isField || id.isAux then .ok .faces
  else if id.isMoment || id = .A || id.isDivergence || id = .Custom then .ok .none
  else .err

/-- `species` (fields.cpp:38-43). -/
def speciesOf (id : Id) (name : List Char) : Outcome (List Nat) :=
  if id.isMoment then interpretSpecies name else .ok []

/-- The constructor of `OutputField` (fields.cpp:20-85); `gr` is `S == SimEngine::GRPIC`. -/
def construct (gr : Bool) (name : List Char) : Outcome Field := do
  let id := fieldId name
  Outcome.errorIf (id = .A ∧ gr = false)
  let species ← speciesOf id name
  let comp ← components gr id name
  let interp ← interpFlag id
  return ⟨name, id, comp, species, prepFlag gr id, interp⟩

/-- `std::toupper` of element `k`. -/
def upperAt (k : Nat) (s : List Char) : List Char := s.modify k Char.toUpper

/-- The species at the end of a name (fields.h:102-109, 144-151). -/
def speciesSuffix (species : List Nat) : List Char :=
  if species.isEmpty then []
  else ('_' :: species.flatMap (fun s => Nat.toDigits 10 s ++ ['_'])).dropLast

/-- The letters at the end of a name (fields.h:110-115, 152-157). -/
def capitals (s : List Char) : List Char :=
  upperAt 0 (if s = Id.divE.str ∨ s = Id.divD.str then upperAt 3 s else s)

/-- `name()` (fields.h:87-118); `m_name.substr(1, 2)` exists for a field that was constructed. -/
def nameAll (f : Field) : List Char :=
  if f.id = .Custom then 'f' :: f.name
  else
    let middle :=
      if f.id = .T then (f.name.drop 1).take 2
      else if f.id = .A then ['3']
      else if f.id.isField || f.id = .V then ['i']
      else []
    'f' :: capitals (f.id.str ++ middle ++ speciesSuffix f.species)

/-- `name(ci)` (fields.h:121-159). -/
def nameComp (f : Field) (ci : Nat) : Outcome (List Char) := do
  Outcome.errorIf (f.comp = [])
  Outcome.errorIf (f.comp.length ≤ ci)
  let c := f.comp.getD ci []
  Outcome.errorIf (c = [])
  return 'f' :: capitals (f.id.str ++ c.flatMap (Nat.toDigits 10) ++ speciesSuffix f.species)

/-- `std::merge` (metadomain_io.cpp:87-91), as the algorithm is specified to proceed; it requires sorted
ranges, which is not checked (the requests are in the order of the input file). -/
def merge (lt : List Char → List Char → Bool) : List (List Char) → List (List Char) → List (List Char)
  | [], bs => bs
  | a :: as, [] => a :: as
  | a :: as, b :: bs =>
    if lt b a then b :: merge lt (a :: as) bs else a :: merge lt as (b :: bs)
  termination_by as bs => as.length + bs.length

/-- The names declared for one field (writer.cpp:156-172). -/
def declared (f : Field) : Outcome (List (List Char)) :=
  if f.comp.isEmpty then .ok [nameAll f]
  else (List.range f.comp.length).mapM (nameComp f)

/-- `DefineVariable` for every name; a name that exists already is rejected by ADIOS2. -/
def defineAll : List (List Char) → List (List Char) → Outcome (List (List Char))
  | vars, [] => .ok vars
  | vars, n :: ns => if n ∈ vars then .err else defineAll (vars ++ [n]) ns

/-- `defineFieldOutputs` (writer.cpp:146-173): the field writers and the declared names. -/
def defineFields (gr : Bool) (requests : List (List Char)) :
    Outcome (List Field × List (List Char)) := do
  let fs ← requests.mapM (construct gr)
  let ns ← fs.mapM declared
  let vars ← defineAll [] ns.flatten
  return (fs, vars)

/-- `InitWriter` (metadomain_io.cpp:82-95): requested and custom fields together. -/
def initFields (gr : Bool) (lt : List Char → List Char → Bool) (fields custom : List (List Char)) :
    Outcome (List Field × List (List Char)) :=
  defineFields gr (merge lt fields custom)

/-- The field arrays of a domain that are copied to the output. -/
inductive Arr
  | em | aux | cur
  deriving DecidableEq, Repr

/-- What a component of the buffer holds. -/
inductive Src
  | zero
  | moment (id : Id) (comp species : List Nat)
  | velocity (c : Nat) (species : List Nat)
  | divergence
  | custom (name : List Char)
  | potential
  | raw (a : Arr) (c : Nat)
  | prepared (a : Arr) (c : Nat) (i : Interp) (p : Prep)
  deriving DecidableEq, Repr

/-- The array and the first component of a field (metadomain_io.cpp:638-675; `em::ex1 = 0`,
`em::bx1 = em::hx1 = 3`, `cur::jx1 = 0`, global.h). -/
def fieldSource (gr : Bool) (id : Id) : Outcome (Arr × Nat) :=
  if id.isCurrent then .ok (.cur, 0)
  else if id.isField then
    if gr && id.isAux then .ok (if id.isEfield then (.aux, 0) else (.aux, 3))
    else .ok (if id.isEfield then (.em, 0) else (.em, 3))
  else .err

/-- The one quantity of the scalar branch (metadomain_io.cpp:472-566). -/
def scalarSource (gr : Bool) (dim : Nat) (hasCustom : Bool) (f : Field) : Outcome Src :=
  if f.id.isMoment then
    if f.id = .T then
      if f.comp.length ≠ 1 then .err else .ok (.moment .T (f.comp.getD 0 []) f.species)
    else if f.id = .Rho ∨ f.id = .Charge ∨ f.id = .N ∨ f.id = .Nppc then
      .ok (.moment f.id [] f.species)
    else .err
  else if f.id.isDivergence then .ok .divergence
  else if f.id = .Custom then if hasCustom then .ok (.custom ((nameAll f).drop 1)) else .err
  else if f.id = .A then if gr && dim == 2 then .ok .potential else .err
  else .err

/-- One component of the vector branch for moments (metadomain_io.cpp:576-602): tensor components, or
mass times velocity. -/
def vectorMoment (f : Field) (i : Nat) : Outcome Src :=
  let c := f.comp.getD i []
  if f.id = .T then if c.length ≠ 2 then .err else .ok (.moment .T c f.species)
  else if f.id = .V then if c.length ≠ 1 then .err else .ok (.moment .V c f.species)
  else .err

/-- What `NormalizeVectorByRho` (metadomain_io.cpp:613-634) makes of a component. -/
def normalised (gr : Bool) (f : Field) (s : Src) : Src :=
  match s with
  | .moment .V [c] sp => if !gr && f.id = .V then .velocity c sp else s
  | s => s

/-- The vector branch (metadomain_io.cpp:570-696): the buffer components 3, 4, 5. -/
def vectorSource (gr asIs : Bool) (f : Field) : Outcome (List Src) :=
  if f.id.isMoment then do
    let ss ← (List.range 3).mapM (vectorMoment f)
    return ss.map (normalised gr f)
  else do
    let s ← fieldSource gr f.id
    return (List.range 3).map fun (i : Nat) =>
      if asIs then .raw s.1 (s.2 + i) else .prepared s.1 (s.2 + i) f.interp f.prep

/-- The branch of four components (metadomain_io.cpp:697-743). -/
def fourSource (gr : Bool) (f : Field) : Outcome (List Src) :=
  if gr && f.id = .V then (List.range 4).mapM fun (i : Nat) =>
    match f.comp.getD i [] with
    | [c] => .ok (.velocity c f.species)
    | _ => .err
  else .err

/-- The branch of six components (metadomain_io.cpp:744-765). -/
def sixSource (f : Field) : Outcome (List Src) := do
  Outcome.errorIf (f.id ≠ .T)
  (List.range 6).mapM fun (i : Nat) =>
    let c := f.comp.getD i []
    if c.length ≠ 2 then .err else .ok (.moment .T c f.species)

/-- One pass of the loop over the fields (metadomain_io.cpp:466-768): the names handed to the writer
and what the component of the buffer at the address of each holds. -/
def writeOne (gr asIs : Bool) (dim : Nat) (hasCustom : Bool) (f : Field) :
    Outcome (List (List Char × Src)) :=
  if f.comp.isEmpty || f.comp.length == 1 then do
    let s ← scalarSource gr dim hasCustom f
    return [(nameAll f, s)]
  else if f.comp.length = 3 then do
    let ns ← (List.range 3).mapM (nameComp f)
    let ss ← vectorSource gr asIs f
    return ns.zip ss
  else if f.comp.length = 4 then do
    let ns ← (List.range 4).mapM (nameComp f)
    let ss ← fourSource gr f
    return ns.zip ss
  else if f.comp.length = 6 then do
    let ns ← (List.range 6).mapM (nameComp f)
    let ss ← sixSource f
    return ns.zip ss
  else .err

/-- `writeField` (writer.cpp:316-336): `InquireVariable` finds declared names only, writing to a variable
that was not found throws. -/
def put (vars : List (List Char)) (ws : List (List Char × Src)) : Outcome (List (List Char × Src)) :=
  if ∀ w ∈ ws, w.1 ∈ vars then .ok ws else .err

/-- The loop over the field writers (metadomain_io.cpp:464-768). -/
def writeFields (gr asIs : Bool) (dim : Nat) (hasCustom : Bool) (vars : List (List Char)) :
    List Field → Outcome (List (List Char × Src))
  | [] => .ok []
  | f :: fs => do
    let ws ← writeOne gr asIs dim hasCustom f
    let ws ← put vars ws
    let rest ← writeFields gr asIs dim hasCustom vars fs
    return ws ++ rest

end Entity.FieldOut
