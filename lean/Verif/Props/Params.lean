import Verif.Model.Params
import Mathlib.Tactic.Common

/-!
# C12: the parameter container is a map with promises

The specification looks only at the history of operations.
-/

namespace Entity.Params

open Entity

/-- Specification: the value last written under `key` in a history, if any. -/
def lastWritten (key : String) : List Op → Option Any
  | [] => none
  | .set k v :: rest =>
    match lastWritten key rest with
    | some w => some w
    | none => if k = key then some v else none
  | .promise _ :: rest => lastWritten key rest

/-- Specification: `key` was promised at some point. -/
def Promised (key : String) (ops : List Op) : Prop := Op.promise key ∈ ops

theorem find_assign (vars : List (String × Any)) (k key : String) (v : Any) :
    find (assign vars k v) key = if k = key then some v else find vars key := by
  induction vars with
  | nil => simp [assign, find]
  | cons x rest ih =>
    obtain ⟨k', w⟩ := x
    simp only [assign]
    by_cases h : k' = k
    · subst h
      simp only [if_true, find]
      split <;> rfl
    · simp only [if_neg h, find, ih]
      by_cases h2 : k' = key
      · subst h2
        simp [h, Ne.symm h]
      · simp [h2]

theorem find_foldl (ops : List Op) (p : Parameters) (key : String) :
    find (ops.foldl step p).vars key =
      match lastWritten key ops with
      | some w => some w
      | none => find p.vars key := by
  induction ops generalizing p with
  | nil => simp [lastWritten]
  | cons o ops ih =>
    rw [List.foldl_cons, ih]
    cases o with
    | set k v =>
      simp only [lastWritten, step, set, find_assign]
      cases lastWritten key ops <;> simp
      split <;> simp
    | promise k =>
      have : (step p (.promise k)).vars = p.vars := by
        simp only [step, promiseToDefine]; split <;> rfl
      rw [this]; rfl

theorem promises_foldl (ops : List Op) (p : Parameters) (key : String) :
    key ∈ (ops.foldl step p).promises ↔ key ∈ p.promises ∨ Op.promise key ∈ ops := by
  induction ops generalizing p with
  | nil => simp
  | cons o ops ih =>
    rw [List.foldl_cons, ih]
    cases o with
    | set k v => simp [step, set]
    | promise k =>
      simp only [step, promiseToDefine]
      split
      · rename_i h
        simp only [List.mem_cons, Op.promise.injEq]
        constructor
        · rintro (a | a) <;> simp [a]
        · rintro (a | rfl | a)
          · exact .inl a
          · exact .inl h
          · exact .inr a
      · simp [or_assoc]

/-- **C12** for every history of `set` and `promiseToDefine` calls on a new container:
* a read returns the value last written under that name if it was written with the type asked for,
  and is an error if it was written with another type;
* a read of a name never written gives the default if one is supplied, else an error;
* `contains` holds exactly for the names written;
* the promise check succeeds exactly if every promised name has been written, and `isPromised`
  exactly for the promised names. -/
theorem C12_map_with_promises (ops : List Op) :
    (∀ key type dflt a, lastWritten key ops = some a →
      get (run ops) type key dflt = if a.type = type then .ok a.value else .err) ∧
    (∀ key type d, lastWritten key ops = none → get (run ops) type key (some d) = .ok d) ∧
    (∀ key type, lastWritten key ops = none → get (run ops) type key none = .err) ∧
    (∀ key, contains (run ops) key = true ↔ ∃ a, lastWritten key ops = some a) ∧
    (∀ key, isPromised (run ops) key = true ↔ Promised key ops) ∧
    (promisesFulfilled (run ops) = true ↔
      ∀ key, Promised key ops → ∃ a, lastWritten key ops = some a) := by
  have hf : ∀ key, find (run ops).vars key = lastWritten key ops := by
    intro key
    rw [run, find_foldl]
    cases lastWritten key ops <;> simp [empty, find]
  have hp : ∀ key, key ∈ (run ops).promises ↔ Promised key ops := by
    intro key; rw [run, promises_foldl]; simp [empty, Promised]
  refine ⟨?_, ?_, ?_, ?_, ?_, ?_⟩
  · intro key type dflt a h; simp [get, hf, h]
  · intro key type d h; simp [get, hf, h]
  · intro key type h; simp [get, hf, h]
  · intro key; simp [contains, hf, Option.isSome_iff_exists]
  · intro key; simp [isPromised, hp]
  · simp [promisesFulfilled, List.all_eq_true, hp, contains, hf, Option.isSome_iff_exists]

/-- **C12**, isolation: after any history, one more write changes no read of another name. -/
theorem C12_write_isolated (ops : List Op) (k key type : String) (v : Any) (dflt : Option String)
    (h : k ≠ key) :
    get (run (ops ++ [.set k v])) type key dflt = get (run ops) type key dflt := by
  simp only [run, List.foldl_append, List.foldl_cons, List.foldl_nil, step, get, set, find_assign,
    if_neg h]

/-- A history with an overwrite, a promise kept and one not kept. -/
example :
    let ops := [.promise "a", .set "b" ⟨"int", "1"⟩, .set "b" ⟨"double", "2"⟩, .promise "b"]
    get (run ops) "double" "b" none = .ok "2" ∧ get (run ops) "int" "b" none = .err ∧
    get (run ops) "int" "a" (some "7") = .ok "7" ∧ promisesFulfilled (run ops) = false ∧
    promisesFulfilled (run (ops ++ [.set "a" ⟨"int", "3"⟩])) = true := by decide

end Entity.Params
