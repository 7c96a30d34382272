import Mathlib.Algebra.Field.Defs
import Mathlib.Data.List.Basic

/-!
# Data-parallel kernels

A model of `Kokkos::parallel_for` over a range of cells, used for the kernels of the field solver and
the current filter.

* A kernel body is a list of assignments, executed for one cell.  The right-hand sides are syntax
  (`Ex`), so that the memory accesses of the body are visible.
* One thread runs per cell.  Its body is compiled to a stack machine with one memory access per
  instruction.  A run of the kernel is *any* interleaving of the instructions of the threads
  (`Launch`): nothing is assumed about the order in which the cells are processed.
* Memory is sequentially consistent.  On weaker memories the same results hold because no thread
  reads or writes what another one writes (that is what is proved about each kernel), so there are no
  data races.
-/

namespace Entity.Kernel

variable {K : Type}

/-- An element of an array: array, component, index (`EB(i1, i2, em::ex1)`). -/
structure Loc where
  arr : Nat
  comp : Nat
  idx : List Int
  deriving DecidableEq, Repr

/-- Contents of all arrays. -/
abbrev Mem (K : Type) := Loc → K

/-- Right-hand sides. -/
inductive Ex (K : Type)
  | lit (c : K)
  | ld (l : Loc)
  | add (a b : Ex K)
  | sub (a b : Ex K)
  | mul (a b : Ex K)
  | div (a b : Ex K)
  | neg (a : Ex K)

instance : Add (Ex K) := ⟨Ex.add⟩
instance : Sub (Ex K) := ⟨Ex.sub⟩
instance : Mul (Ex K) := ⟨Ex.mul⟩
instance : Div (Ex K) := ⟨Ex.div⟩
instance : Neg (Ex K) := ⟨Ex.neg⟩
instance : Coe K (Ex K) := ⟨Ex.lit⟩

/-- Value of an expression. -/
def Ex.eval [Add K] [Sub K] [Mul K] [Div K] [Neg K] (m : Mem K) : Ex K → K
  | .lit c => c
  | .ld l => m l
  | .add a b => a.eval m + b.eval m
  | .sub a b => a.eval m - b.eval m
  | .mul a b => a.eval m * b.eval m
  | .div a b => a.eval m / b.eval m
  | .neg a => -a.eval m

/-- Memory read by an expression. -/
def Ex.loads : Ex K → List Loc
  | .lit _ => []
  | .ld l => [l]
  | .add a b | .sub a b | .mul a b | .div a b => a.loads ++ b.loads
  | .neg a => a.loads

/-- `dst = rhs`. -/
structure Assign (K : Type) where
  dst : Loc
  rhs : Ex K

/-- `l += e`. -/
def plusEq (l : Loc) (e : Ex K) : Assign K := ⟨l, .ld l + e⟩

def store (m : Mem K) (l : Loc) (v : K) : Mem K := fun l' => if l' = l then v else m l'

/-- The assignments of one body, one after the other. -/
def runBody [Add K] [Sub K] [Mul K] [Div K] [Neg K] : List (Assign K) → Mem K → Mem K
  | [], m => m
  | a :: as, m => runBody as (store m a.dst (a.rhs.eval m))

/-! ## Threads -/

inductive Instr (K : Type)
  | push (c : K)
  | load (l : Loc)
  | op (f : K → K → K)
  | op1 (f : K → K)
  | put (l : Loc)

/-- Stack and memory after one instruction. -/
def Instr.run : Instr K → List K × Mem K → List K × Mem K
  | .push c, (s, m) => (c :: s, m)
  | .load l, (s, m) => (m l :: s, m)
  | .op f, (b :: a :: s, m) => (f a b :: s, m)
  | .op1 f, (a :: s, m) => (f a :: s, m)
  | .put l, (a :: s, m) => (s, store m l a)
  | _, sm => sm

def Ex.compile [Add K] [Sub K] [Mul K] [Div K] [Neg K] : Ex K → List (Instr K)
  | .lit c => [.push c]
  | .ld l => [.load l]
  | .add a b => a.compile ++ b.compile ++ [.op (· + ·)]
  | .sub a b => a.compile ++ b.compile ++ [.op (· - ·)]
  | .mul a b => a.compile ++ b.compile ++ [.op (· * ·)]
  | .div a b => a.compile ++ b.compile ++ [.op (· / ·)]
  | .neg a => a.compile ++ [.op1 (- ·)]

def compile [Add K] [Sub K] [Mul K] [Div K] [Neg K] (as : List (Assign K)) : List (Instr K) :=
  as.flatMap (fun a => a.rhs.compile ++ [.put a.dst])

/-- What is left of the code of a thread, and its stack. -/
structure Thread (K : Type) where
  code : List (Instr K)
  stack : List K

/-- The threads (named by their cell) and the shared memory. -/
abbrev State (K : Type) := (List Int → Thread K) × Mem K

/-- Thread `t` executes its next instruction. -/
def stepThread (t : List Int) (st : State K) : State K :=
  match (st.1 t).code with
  | [] => st
  | i :: rest =>
    let (s, m) := i.run ((st.1 t).stack, st.2)
    (fun u => if u = t then ⟨rest, s⟩ else st.1 u, m)

/-- All threads at the beginning of their bodies. -/
def start [Add K] [Sub K] [Mul K] [Div K] [Neg K] (cells : List (List Int)) (body : List Int → List (Assign K)) (m : Mem K) :
    State K :=
  (fun t => if t ∈ cells then ⟨compile (body t), []⟩ else ⟨[], []⟩, m)

/-- `Kokkos::parallel_for(cells, body)` may turn memory `m` into `m'`: some interleaving of the
threads runs all of them to the end and leaves `m'`. -/
def Launch [Add K] [Sub K] [Mul K] [Div K] [Neg K] (cells : List (List Int)) (body : List Int → List (Assign K)) (m m' : Mem K) :
    Prop :=
  ∃ sched : List (List Int),
    (∀ t, ((sched.foldl (fun s t => stepThread t s) (start cells body m)).1 t).code = []) ∧
    (sched.foldl (fun s t => stepThread t s) (start cells body m)).2 = m'

end Entity.Kernel
