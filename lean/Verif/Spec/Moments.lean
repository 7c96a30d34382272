import Verif.Model.Moments
import Verif.Lemmas.BSpline

/-!
# Specification of the moments
-/

namespace Entity.Moments

open Entity Entity.Push Entity.Shapes Entity.Deposit Entity.Tags

variable {K : Type} [Field K] [LinearOrder K] [IsStrictOrderedRing K]

/-- Components of a four-vector. -/
def four (u0 : K) (u : V3 K) : Nat → K
  | 0 => u0
  | 1 => u.x
  | 2 => u.y
  | _ => u.z

/-- The physical quantity a particle carries: mass, charge, one, the component `m u^a u^b / u^0` of the
stress-energy tensor, or `m u^a / u^0`; massless particles count as if `m = 1`.  In SR `u` is the
momentum in the orthonormal basis and `u^0` its energy, in GR the contravariant four-velocity. -/
def quantity (cfg : Cfg K) (env : Env K) (mass charge : K) (p : Prtl K) : K :=
  let m := if mass = 0 then 1 else mass
  let v := if cfg.cartesian then p.u else env.tetrad p
  let γ := if mass = 0 then env.sqrt v.normSq else env.sqrt (1 + v.normSq)
  let a := cfg.comps.getD 0 0
  let b := cfg.comps.getD 1 0
  match cfg.kind with
  | .Rho => mass
  | .Charge => charge
  | .N => 1
  | .Nppc => 1
  | .T =>
    if cfg.gr then
      let U := four (env.contra0 p) (env.toPU p (env.contra p))
      m * U a * U b / U 0
    else m * four γ v a * four γ v b / γ
  | .V =>
    if cfg.gr then m * four (env.contra0 p) (env.contra p) a / env.contra0 p
    else m * four γ v a / γ

/-- What a particle contributes: nothing if it is dead, one to the number of particles per cell, else
its quantity times its weight (if weights are used) over `n0` and the volume element at the centre of
its cell. -/
def contribution (cfg : Cfg K) (env : Env K) (mass charge : K) (p : Prtl K) : K :=
  if p.tag = dead then 0
  else if cfg.kind = .Nppc then 1
  else quantity cfg env mass charge p * (if cfg.useWeights then p.weight else 1) * cfg.invN0 /
    env.sqrtDetH (p.pos.map (fun a => (a.1 : K) + 1/2))

/-- The share of cell `n` of a particle at offset `dx` of cell `i`: for splines the B-spline of the
given order at the distance between particle and cell centre (at order 0 all for the particle's own
cell), for the constant method equal shares of all cells up to `ceil(O/2)` away. -/
def share (s : Smoothing) (O : Nat) (i : Int) (dx : K) (n : Int) : K :=
  match s with
  | .spline => if O = 0 then (if n = i then 1 else 0) else bspline O ((i : K) + dx - ((n : K) + 1/2))
  | .const => if |n - i| ≤ ((O + 1) / 2 : Nat) then 1 / (2 * ((O + 1) / 2 : Nat) + 1) else 0
  | .other => 0

/-- All indices of an array. -/
def arrIdx : List Nat → List (List Int)
  | [] => [[]]
  | n :: ns => (List.range n).flatMap fun (i : Nat) => (arrIdx ns).map ((i : Int) :: ·)

/-- Sum of component `c` of an array over the elements in a region. -/
def regionSum (nAll : List Nat) (P : List Int → Bool) (J : Cur K) (c : Nat) : K :=
  ((arrIdx nAll).map (fun n => if P n then J c n else 0)).sum

/-- Sum of component `c` over the whole array. -/
def arraySum (nAll : List Nat) (J : Cur K) (c : Nat) : K := regionSum nAll (fun _ => true) J c

/-- The element lies in an active row of the second axis. -/
def activeRow (NG ni2 : Nat) (n : List Int) : Bool :=
  decide ((NG : Int) ≤ n.getD 1 0) && decide (n.getD 1 0 < (NG : Int) + ni2)

/-- The request makes sense: the buffer has the component, the smoothing is one of the two methods at
an order (splines up to 11) whose window fits into the ghost cells, at most two components 0 ... 3 of
the tensor, one component of the velocity (1 ... 3 in SR), boundary conditions given, massive
particles for mass and charge density. -/
structure Sensible (cfg : Cfg K) (nAct : List Nat) (mass : K) : Prop where
  dim : nAct.length = cfg.dim
  dim1 : 1 ≤ cfg.dim
  dim3 : cfg.dim ≤ 3
  ni2 : ∀ n, nAct[1]? = some n → n = cfg.ni2
  buff : cfg.buffIdx < cfg.nBuf
  order : cfg.order < 256
  spline : cfg.smoothing ≠ .const → cfg.smoothing = .spline ∧ cfg.order ≤ 11
  window : (cfg.order + 1) / 2 ≤ cfg.NG
  massive : cfg.kind = .Rho ∨ cfg.kind = .Charge → mass ≠ 0
  bcs : cfg.cartesian = false → 2 ≤ cfg.dim → 2 ≤ cfg.bcs.length
  compT : cfg.kind = .T → cfg.comps.length ≤ 2 ∧ ∀ c ∈ cfg.comps, c ≤ 3
  compV : cfg.kind = .V → ∃ c, cfg.comps.head? = some c ∧ c ≤ 3 ∧ (cfg.gr = false → 1 ≤ c)

/-- The particle is dead, or lies in an active cell, and the energy and the volume element by which its
contribution is divided do not vanish. -/
def Inside (cfg : Cfg K) (env : Env K) (nAct : List Nat) (mass : K) (p : Prtl K) : Prop :=
  p.tag = dead ∨
  (List.Forall₂ (fun (a : Int × K) (n : Nat) => 0 ≤ a.1 ∧ a.1 < n ∧ 0 ≤ a.2 ∧ a.2 ≤ 1) p.pos nAct ∧
    (cfg.kind = .T ∨ cfg.kind = .V → (if cfg.gr then env.contra0 p else energy env mass
      (if cfg.cartesian then p.u else env.tetrad p)) ≠ 0) ∧
    env.sqrtDetH (p.pos.map (fun a => (a.1 : K) + 1/2)) ≠ 0)

end Entity.Moments
