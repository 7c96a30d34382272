import Verif.Model.FieldSetter
import Verif.Props.FieldsToPhys

/-!
# Specification: prescribed fields
-/

namespace Entity.FieldSetter

open Entity Entity.Kernel Entity.Ranks Entity.Topology Entity.FieldOut

variable {K : Type} [Field K]

/-- The position, in code units, of component `c` of the fields (`0`-`2` electric, on edges, `3`-`5`
magnetic, on faces) with indices `n`. -/
def fieldSite (ng c : Nat) (n : List Int) : List K :=
  FieldsToPhys.site ng (if c < 3 then .edges else .faces) (c % 3) n

/-- The metrics of the ranks are the metric `G` of the global grid, each seen from the corner of its
subdomain. -/
def SeesMetric (m : Meta) (S : Nat → FMetric K) (G : FMetric K) : Prop :=
  ∀ r s, m.doms[r]? = some s → ∀ x : List K, x.length = s.offsetNcells.length →
    (S r).phys x = G.phys (List.zipWith (fun (o : Nat) y => (o : K) + y) s.offsetNcells x) ∧
    ∀ c v, (S r).toU c x v = G.toU c (List.zipWith (fun (o : Nat) y => (o : K) + y) s.offsetNcells x) v

/-- Along each axis the places nearest to a point: the point itself if the component is defined there,
otherwise the places half a cell below and above. -/
def nearest : List (Bool × Bool) → List (List Int)
  | [] => [[]]
  | (own, at') :: r =>
    if own = at' then (nearest r).map (0 :: ·)
    else if at' then (nearest r).map (0 :: ·) ++ (nearest r).map (1 :: ·)
    else (nearest r).map (-1 :: ·) ++ (nearest r).map (0 :: ·)

/-- Where the components are defined relative to the corner of a cell. -/
def halves (D c : Nat) : List Bool :=
  (List.range D).map fun (d : Nat) => FieldsToPhys.half (if c < 3 then .edges else .faces) (c % 3) d

/-- Component `k` of a field `v`, averaged over the places nearest to where component `c` of the cell `t`
is defined. -/
def nearMean (v : Mem K) (k c : Nat) (t : List Int) : K :=
  let ns := nearest ((halves t.length k).zip (halves t.length c))
  (ns.map fun o => v ⟨0, k, List.zipWith (· + ·) t o⟩).sum / ns.length

/-- What a conditional setter should leave in component `c` of cell `t` if the fields were `w`: its function is
called with the physical position of the component and the fields there in the orthonormal basis; the value
replaces the old one if the function says so. -/
def prescribed (fs : CSetter K) (met : FMetric K) (ng : Nat) (w : Mem K) (c : Nat) (t : List Int) : K :=
  match fs c with
  | none => w ⟨0, c, t⟩
  | some f =>
    let x := fieldSite ng c t
    let r := f (met.phys x) (met.toT x [nearMean w 0 c t, nearMean w 1 c t, nearMean w 2 c t])
      (met.toT x [nearMean w 3 c t, nearMean w 4 c t, nearMean w 5 c t])
    if r.1 then met.toU (c % 3) x r.2 else w ⟨0, c, t⟩

end Entity.FieldSetter
