import Mathlib.Data.List.Basic

/-!
# What an output name denotes

Written without reference to the code: a component letter stands for one index, or (`i`, `j`) for
any spatial index; a pair of letters stands for the pairs of indices allowed by the letters, where
two equal free letters mean the diagonal and two different free letters mean each unordered pair
once.
-/

namespace Entity.Spec.Prompt

/-- The letters that may appear as a component. -/
def letters : List Char := ['t', 'x', 'y', 'z', '0', '1', '2', '3', 'i', 'j']

/-- The indices a letter stands for. -/
def indices : Char → List Nat
  | 't' | '0' => [0]
  | 'x' | '1' => [1]
  | 'y' | '2' => [2]
  | 'z' | '3' => [3]
  | 'i' | 'j' => [1, 2, 3]
  | _ => []

/-- A letter standing for any spatial index. -/
def free (c : Char) : Bool := c = 'i' || c = 'j'

/-- The pair of indices `(a, b)` is denoted by the letters `c₁ c₂`. -/
def Denotes (c₁ c₂ : Char) (a b : Nat) : Prop :=
  a ∈ indices c₁ ∧ b ∈ indices c₂ ∧
    (free c₁ → free c₂ → if c₁ = c₂ then a = b else a ≤ b)

instance (c₁ c₂ : Char) (a b : Nat) : Decidable (Denotes c₁ c₂ a b) := by
  unfold Denotes; infer_instance

/-- The name of a moment restricted to some species: `N_1_2`. -/
def withSpecies (name : List Char) (species : List Nat) : List Char :=
  name ++ species.flatMap fun s => '_' :: Nat.toDigits 10 s

end Entity.Spec.Prompt
