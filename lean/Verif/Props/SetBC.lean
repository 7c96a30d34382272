import Verif.Model.SetBC

/-!
# C68: setting a boundary condition changes the requested side and no other
-/

namespace Entity.Props.SetBC

open Entity Entity.Dir Entity.Topology Entity.SetBC

/-- The axis (0, 1, 2) of a side. -/
def axisOf : Side → Nat
  | .Mx1 | .Px1 => 0
  | .Mx2 | .Px2 => 1
  | .Mx3 | .Px3 => 2

/-- Is it the upper side of its axis? -/
def isUpper : Side → Bool
  | .Px1 | .Px2 | .Px3 => true
  | _ => false

/-- The condition at one side of the box. -/
def condAt {β : Type} (bcs : List (β × β)) (s : Side) : Option β :=
  (bcs[axisOf s]?).map fun p => if isUpper s then p.2 else p.1

theorem length_assign {β : Type} (d : Direction) (new : β) (bcs : List (β × β)) :
    (assign d new bcs).length = bcs.length := by
  induction bcs generalizing d with
  | nil => cases d <;> rfl
  | cons p bs ih => cases d with
    | nil => rfl
    | cons => simp [assign, ih]

/-- **C68** for the sides of the first and third axis: the request succeeds exactly if the axis
exists, the condition at that side is the new one, and the conditions at all other sides are
unchanged.  Missing: the sides of the second axis, for which the claim is false
(`C68_counterexample`). -/
theorem C68_set_boundary_partial {β : Type} (side : Side) (hside : axisOf side ≠ 1) (new : β)
    (bcs : List (β × β)) (hD : 1 ≤ bcs.length ∧ bcs.length ≤ 3) :
    (axisOf side < bcs.length → ∃ bcs', setBC side new bcs = .ok bcs' ∧
      bcs'.length = bcs.length ∧ condAt bcs' side = some new ∧
      ∀ s, s ≠ side → condAt bcs' s = condAt bcs s) ∧
    (bcs.length ≤ axisOf side → setBC side new bcs = .err) := by
  match bcs, hD with
  | [a], _ =>
    cases side <;> simp [axisOf] at hside ⊢ <;>
      first
      | (refine ⟨_, rfl, rfl, rfl, ?_⟩
         intro s hs
         cases s <;> first | rfl | exact absurd rfl hs)
      | rfl
  | [a, b], _ =>
    cases side <;> simp [axisOf] at hside ⊢ <;>
      first
      | (refine ⟨_, rfl, rfl, rfl, ?_⟩
         intro s hs
         cases s <;> first | rfl | exact absurd rfl hs)
      | rfl
  | [a, b, c], _ =>
    cases side <;> simp [axisOf] at hside ⊢ <;>
      first
      | (refine ⟨_, rfl, rfl, rfl, ?_⟩
         intro s hs
         cases s <;> first | rfl | exact absurd rfl hs)
      | rfl
  | [], h => simp at h
  | _ :: _ :: _ :: _ :: _, h => simp at h

/-- **C68**, violated for the second axis in two and three dimensions: the condition of the first
axis is changed instead, that of the second axis is left alone. -/
theorem C68_counterexample {β : Type} (new : β) (a b c : β × β) :
    setBC .Mx2 new [a, b] = .ok [(new, a.2), b] ∧
    setBC .Px2 new [a, b] = .ok [(a.1, new), b] ∧
    setBC .Mx2 new [a, b, c] = .ok [(new, a.2), b, c] ∧
    setBC .Px2 new [a, b, c] = .ok [(a.1, new), b, c] := ⟨rfl, rfl, rfl, rfl⟩

/-- The condition a subdomain gets in the direction of a side (a face direction) after
`redefineBoundaries` depends on the condition of the box at that side only. -/
theorem edgeBC_face (counts offs : List Nat) (bcs : List (BC × BC)) (s : Side)
    (h1 : counts.length = bcs.length) (h2 : offs.length = bcs.length) (hs : axisOf s < bcs.length)
    (n p : Nat) (hn : counts[axisOf s]? = some n) (hp : offs[axisOf s]? = some p) :
    edgeBC counts offs bcs (unit bcs.length (axisOf s) (if isUpper s then 1 else -1))
      = if (if isUpper s then p = n - 1 else p = 0) then (condAt bcs s).getD .INVALID
        else .SYNC := by
  have key : ∀ (k : Nat) (counts offs : List Nat) (bcs : List (BC × BC)) (v : Int)
      (_ : v = 1 ∨ v = -1) (_ : counts.length = bcs.length) (_ : offs.length = bcs.length)
      (_ : k < bcs.length) (n p : Nat) (_ : counts[k]? = some n) (_ : offs[k]? = some p),
      edgeBC counts offs bcs (unit bcs.length k v)
        = if (if v = 1 then p = n - 1 else p = 0) then
            ((bcs[k]?).map fun x => if v = 1 then x.2 else x.1).getD .INVALID else .SYNC := by
    intro k
    induction k with
    | zero =>
      intro counts offs bcs v hv h1 h2 hk n p hn hp
      match counts, offs, bcs with
      | a :: _, b :: _, (l, r) :: _ =>
        simp at hn hp
        subst hn hp
        rcases hv with rfl | rfl <;>
          simp [unit, List.replicate_succ, edgeBC]
      | _, _, [] => simp at hk
      | [], _, _ :: _ => simp at h1
      | _ :: _, [], _ :: _ => simp at h2
    | succ k ih =>
      intro counts offs bcs v hv h1 h2 hk n p hn hp
      match counts, offs, bcs with
      | a :: cs, b :: os, (l, r) :: bs =>
        simp only [List.getElem?_cons_succ] at hn hp ⊢
        rw [← ih cs os bs v hv (by simpa using h1) (by simpa using h2) (by simpa using hk) n p hn hp]
        simp [unit, List.replicate_succ, edgeBC]
      | _, _, [] => simp at hk
      | [], _, _ :: _ => simp at h1
      | _ :: _, [], _ :: _ => simp at h2
  have := key (axisOf s) counts offs bcs (if isUpper s then 1 else -1) (by split <;> simp) h1 h2 hs
    n p hn hp
  rw [this]
  cases hU : isUpper s <;> simp [condAt, hU]

/-- **C68** on the subdomains: after the change, the subdomains at the changed side have the new
condition there (before the periodic/communicating distinction), and the conditions of all
subdomains at all other sides are as before. -/
theorem C68_subdomains_partial (side : Side) (hside : axisOf side ≠ 1) (new : BC)
    (bcs bcs' : List (BC × BC)) (hD : 1 ≤ bcs.length ∧ bcs.length ≤ 3)
    (hax : axisOf side < bcs.length) (hset : setBC side new bcs = .ok bcs')
    (counts offs : List Nat) (h1 : counts.length = bcs.length) (h2 : offs.length = bcs.length) :
    (∀ n p, counts[axisOf side]? = some n → offs[axisOf side]? = some p →
      (if isUpper side then p = n - 1 else p = 0) →
      edgeBC counts offs bcs' (unit bcs.length (axisOf side) (if isUpper side then 1 else -1))
        = new) ∧
    ∀ s, s ≠ side → axisOf s < bcs.length →
      edgeBC counts offs bcs' (unit bcs.length (axisOf s) (if isUpper s then 1 else -1))
        = edgeBC counts offs bcs (unit bcs.length (axisOf s) (if isUpper s then 1 else -1)) := by
  obtain ⟨b2, hb2, hlen, hnew, hold⟩ := (C68_set_boundary_partial side hside new bcs hD).1 hax
  rw [hset] at hb2
  cases hb2
  constructor
  · intro n p hn hp hedge
    rw [← hlen, edgeBC_face counts offs bcs' side (by omega) (by omega) (by omega) n p hn hp,
      if_pos hedge, hnew]
    rfl
  · intro s hs hsax
    obtain ⟨n, hn⟩ : ∃ n, counts[axisOf s]? = some n :=
      ⟨_, List.getElem?_eq_getElem (by omega)⟩
    obtain ⟨p, hp⟩ : ∃ p, offs[axisOf s]? = some p := ⟨_, List.getElem?_eq_getElem (by omega)⟩
    have e1 := edgeBC_face counts offs bcs' s (by omega) (by omega) (by omega) n p hn hp
    have e2 := edgeBC_face counts offs bcs s (by omega) (by omega) (by omega) n p hn hp
    rw [hlen] at e1
    rw [e1, e2, hold s hs]

/-! Concrete cases. -/

example : setBC .Px3 BC.MATCH [(.PERIODIC, .PERIODIC), (.FIXED, .FIXED), (.PERIODIC, .PERIODIC)]
    = .ok [(.PERIODIC, .PERIODIC), (.FIXED, .FIXED), (.PERIODIC, .MATCH)] := rfl

example : edgeBC [2, 3] [1, 0] [(BC.FIXED, BC.MATCH), (.AXIS, .AXIS)] (unit 2 0 1) = .MATCH ∧
    edgeBC [2, 3] [0, 0] [(BC.FIXED, BC.MATCH), (.AXIS, .AXIS)] (unit 2 0 1) = .SYNC := by decide

end Entity.Props.SetBC
