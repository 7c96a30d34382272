import Verif.Model.Launch

/-!
# Supported combinations of engine, metric and dimension (documentation, input.example.toml, README)
-/

namespace Entity.Launch

/-- Names of engine and metric, dimension, and the specialization that is meant. -/
def Supported (engine metric : String) (d : Nat) (s : Spec) : Prop :=
  engine = "srpic" ∧ metric = "minkowski" ∧ (d = 1 ∨ d = 2 ∨ d = 3) ∧ s = (1, 1, d) ∨
  engine = "srpic" ∧ metric = "spherical" ∧ d = 2 ∧ s = (1, 2, 2) ∨
  engine = "srpic" ∧ metric = "qspherical" ∧ d = 2 ∧ s = (1, 3, 2) ∨
  engine = "grpic" ∧ metric = "kerr_schild" ∧ d = 2 ∧ s = (2, 4, 2) ∨
  engine = "grpic" ∧ metric = "qkerr_schild" ∧ d = 2 ∧ s = (2, 5, 2) ∨
  engine = "grpic" ∧ metric = "kerr_schild_0" ∧ d = 2 ∧ s = (2, 6, 2)

end Entity.Launch
