import Verif.Model.FieldBC

/-!
# What the boundary conditions should achieve

Component `c` (`0..2` electric, `3..5` magnetic) of a cell `t`: along its own axis an electric component
sits in the middle of the cell, along the other axes on the node; a magnetic component the other way
round.  `e` is the index of the cell that starts at the wall.
-/

namespace Entity.FieldBC

open Entity Entity.Kernel

variable {K : Type} [Field K]

/-- Values of component `c` along axis `o`, by index; the other indices are those of `t`. -/
def line (m : Mem K) (c o : Nat) (t : List Int) (k : Int) : K := m ⟨0, c, t.set o k⟩

/-- Values on nodes: zero on the wall, opposite at nodes at the same distance (up to `depth`) on both
sides. -/
def OddAt (F : Int → K) (e : Int) (depth : Nat) : Prop :=
  F e = 0 ∧ ∀ k : Nat, 1 ≤ k → k ≤ depth → F (e - k) = -F (e + k)

/-- Values in the middle of cells: equal in the `k`-th cells on both sides of the wall. -/
def EvenAt (F : Int → K) (e : Int) (depth : Nat) : Prop :=
  ∀ k : Nat, 1 ≤ k → k ≤ depth → F (e - k) = F (e + k - 1)

/-- The indices across axis `o` are in the array (ghost cells included). -/
def Across (M : Mesh) (o : Nat) (t : List Int) : Prop :=
  t.length = M.n.length ∧
    ∀ d < M.n.length, d ≠ o → 0 ≤ t.getD d 0 ∧ t.getD d 0 < M.n.getD d 0 + 2 * M.ng

/-- A perfect conductor at the wall across axis `o`: the tangential electric field and the normal
magnetic field vanish there and are odd, the normal electric field and the tangential magnetic field are
even. -/
def Conducting (M : Mesh) (o : Nat) (e : Int) (setE setB : Bool) (odd even : Nat) (m : Mem K) : Prop :=
  ∀ t, Across M o t →
    (setE = true → (∀ c < 3, c ≠ o → OddAt (line m c o t) e odd) ∧ EvenAt (line m o o t) e even) ∧
    (setB = true → OddAt (line m (o + 3) o t) e odd ∧
      ∀ c < 3, c ≠ o → EvenAt (line m (c + 3) o t) e even)

/-- Where component `c` of cell `t` sits along axis `a`, in units of cells from the lower end of the
subdomain. -/
noncomputable def site (ng c : Nat) (t : List Int) (a : Nat) : ℝ :=
  ((t.getD a 0 : Int) : ℝ) - ng + if (c < 3 ∧ a = c) ∨ (3 ≤ c ∧ a ≠ c - 3) then 1 / 2 else 0

/-- The position of component `c` of cell `t`. -/
noncomputable def sites (ng c : Nat) (t : List Int) : List ℝ :=
  (List.range t.length).map (site ng c t)

/-! ## Layers along one axis -/

section
variable {R : Type} [Field R] [LinearOrder R]

/-- The layer of thickness `ds` at the upper (`P`) or lower end of the global grid. -/
def boundaryLayer (ext : R × R) (ds : R) (P : Bool) : R × R :=
  if P = true then (ext.2 - ds, ext.2) else (ext.1, ext.1 + ds)

/-- Cell `i` of a subdomain that starts at `x0`, ghost cells included. -/
def cellSpan (ng : Nat) (x0 dx : R) (i : Int) : R × R :=
  (x0 + (i - ng) * dx, x0 + (i - ng + 1) * dx)

/-- Two intervals share more than an end point. -/
def Overlaps (a b : R × R) : Prop := a.1 < b.2 ∧ b.1 < a.2

/-- The kernel visits index `i`. -/
def Visits (r : Option (Int × Int)) (i : Int) : Prop := ∃ q, r = some q ∧ q.1 ≤ i ∧ i < q.2

end

end Entity.FieldBC
