import Verif.Model.Push
import Verif.Model.Tags
import Mathlib.Algebra.Order.Floor.Ring
import Mathlib.Order.WithBot

/-!
# Energy spectra of the particles

Models `ParticleDistribution_kernel` (src/kernels/particle_moments.hpp:713-791), the part of
`Metadomain::Write` that writes the spectra (src/framework/domain/metadomain_io.cpp:799-843) and
`Writer::writeSpectrum` (src/output/writer.cpp:353-384).

* Numbers are elements of an ordered field; square root, decimal logarithm and power are parameters.
  The logarithm takes its values in the field with a smallest element, which stands for the value `-inf`
  at zero.  Rounding is not modelled.
* The scatter view adds the weights in any order: a launch is a fold over a schedule.
-/

namespace Entity.Spectra

open Entity Entity.Push Entity.Tags

variable {K : Type} [Field K] [LinearOrder K] [IsStrictOrderedRing K] [FloorRing K]

/-- The arrays of one particle read by the kernel: tag, `(ux1, ux2, ux3)`, weight, and for GR the factor
`alpha * u^0` (particle_moments.hpp:755-773: `u_0`, `transform_4d<D, U>` and `alpha` of the metric). -/
structure Prtl (K : Type) where
  tag : Int
  u : V3 K
  weight : K
  gammaGR : K

/-- `math::sqrt`, `math::log10`, `math::pow(10, .)`. -/
structure Lib (K : Type) where
  sqrt : K → K
  log10 : K → WithBot K
  pow10 : K → K

/-- The parameters `output.spectra.*` (metadomain_io.cpp:801-805), and whether the engine is GRPIC. -/
structure Cfg (K : Type) where
  logBins : Bool
  nBins : Nat
  eMin : K
  eMax : K
  gr : Bool

/-- The energy of a particle (particle_moments.hpp:748-775): kinetic energy per mass, or the energy of
massless ones. -/
def energy (lib : Lib K) (gr : Bool) (mass : K) (p : Prtl K) : K :=
  if gr then (if mass ≠ 0 then p.gammaGR - 1 else p.gammaGR)
  else if mass ≠ 0 then lib.sqrt (1 + p.u.normSq) - 1
  else lib.sqrt p.u.normSq

/-- The bin (particle_moments.hpp:779-786). -/
def binIndex (eMin eMax : K) (n : Nat) (en : WithBot K) : Nat :=
  match en with
  | ⊥ => 0
  | (en : K) =>
    if en ≤ eMin then 0
    else if eMax ≤ en then n
    else ⌊(n : K) * (en - eMin) / (eMax - eMin)⌋.toNat

/-- `dn_acc(e_ind) += w`; outside of the array undefined. -/
def addAt (dn : List K) (k : Nat) (w : K) : Outcome (List K) :=
  if k < dn.length then .ok (dn.modify k (· + w)) else .ub

/-- The kernel for one particle (particle_moments.hpp:744-789); `eMin`, `eMax` are logarithms if
`log_bins`. -/
def one (lib : Lib K) (cfg : Cfg K) (eMin eMax : K) (mass : K) (dn : List K) (p : Prtl K) :
    Outcome (List K) :=
  if p.tag ≠ alive then .ok dn
  else
    let en := energy lib cfg.gr mass p
    let en : WithBot K := if cfg.logBins then lib.log10 en else (en : WithBot K)
    addAt dn (binIndex eMin eMax cfg.nBins en) p.weight

/-- `e_min`, `e_max` (metadomain_io.cpp:804-809); the logarithm of a limit that is not positive is not a
number with which the bins could be computed. -/
def limits (lib : Lib K) (cfg : Cfg K) : Outcome (K × K) :=
  if cfg.logBins then
    match lib.log10 cfg.eMin, lib.log10 cfg.eMax with
    | (a : K), (b : K) => .ok (a, b)
    | _, _ => .ub
  else .ok (cfg.eMin, cfg.eMax)

/-- The edges of the bins (metadomain_io.cpp:810-824). -/
def edge (lib : Lib K) (cfg : Cfg K) (eMin eMax : K) (e : Nat) : K :=
  let x := eMin + (eMax - eMin) * (e : K) / (cfg.nBins : K)
  if cfg.logBins then lib.pow10 x else x

/-- The spectrum of one species on one rank (metadomain_io.cpp:825-839): `dn` has `n_bins` elements. -/
def spectrum (lib : Lib K) (cfg : Cfg K) (mass : K) (ps : List (Prtl K)) : Outcome (List K) := do
  let l ← limits lib cfg
  ps.foldlM (one lib cfg l.1 l.2 mass) (List.replicate cfg.nBins 0)

/-- The written edges (metadomain_io.cpp:842). -/
def edges (lib : Lib K) (cfg : Cfg K) : Outcome (List K) := do
  let l ← limits lib cfg
  return (List.range (cfg.nBins + 1)).map (fun (e : Nat) => edge lib cfg l.1 l.2 e)

/-- `writeSpectrum` (writer.cpp:353-384): `MPI_Reduce` adds the arrays of all ranks element by
element. -/
def reduce (n : Nat) (dns : List (List K)) : List K :=
  (List.range n).map fun (k : Nat) => (dns.map fun dn => dn.getD k 0).sum

/-- The spectrum of a species in the file: every rank has its own particles. -/
def written (lib : Lib K) (cfg : Cfg K) (mass : K) (ranks : List (List (Prtl K))) : Outcome (List K) := do
  let dns ← ranks.mapM (spectrum lib cfg mass)
  return reduce cfg.nBins dns

end Entity.Spectra
