import Verif.Lemmas.PrtlSort
import Mathlib.Tactic.IntervalCases

/-! # Lemmas about the flat message buffers -/

namespace Entity.Prtl

open Entity Entity.Dir Entity.Tags

theorem writeAt_eq {α : Type} (buf : List α) (off : Nat) (vs : List α)
    (h : off + vs.length ≤ buf.length) :
    writeAt buf off vs = .ok (buf.take off ++ vs ++ buf.drop (off + vs.length)) := by
  induction vs generalizing buf off with
  | nil => simp [writeAt]
  | cons v vs ih =>
    simp only [List.length_cons] at h
    rw [writeAt, if_pos (by omega), ih _ _ (by simp; omega)]
    have e1 : (buf.set off v).take (off + 1) = buf.take off ++ [v] := by
      rw [List.take_succ, List.getElem?_set_self (by omega), List.take_set_of_le (Nat.le_refl _)]
      rfl
    have e2 : off + 1 + vs.length = off + (vs.length + 1) := by omega
    rw [e1, List.drop_set_of_lt (by omega), e2]
    simp

theorem readAt_eq {α : Type} (buf : List α) (off n : Nat) (h : off + n ≤ buf.length) :
    readAt buf off n = .ok ((buf.drop off).take n) := by
  induction n generalizing off with
  | zero => simp [readAt]
  | succ n ih =>
    have hlt : off < buf.length := by omega
    rw [readAt, List.getElem?_eq_getElem hlt]
    simp only
    rw [ih (off + 1) (by omega), Outcome.bind_ok, Outcome.pure_eq,
      List.drop_eq_getElem_cons hlt, List.take_succ_cons]

/-- Blocks of equal length. -/
def Blocks {α : Type} (N : Nat) (B : List (List α)) : Prop := ∀ b ∈ B, b.length = N

theorem Blocks.len {α : Type} {N : Nat} {B : List (List α)} (h : Blocks N B) :
    B.flatten.length = N * B.length := by
  induction B with
  | nil => simp
  | cons b B ih =>
    rw [List.flatten_cons, List.length_append, ih fun x hx => h x (List.mem_cons_of_mem _ hx),
      h b (by simp), List.length_cons, Nat.mul_add]; omega

theorem Blocks.take {α : Type} {N : Nat} {B : List (List α)} (h : Blocks N B) (p : Nat)  :
    B.flatten.take (N * p) = (B.take p).flatten ∧ B.flatten.drop (N * p) = (B.drop p).flatten := by
  induction B generalizing p with
  | nil => simp
  | cons b B ih =>
    cases p with
    | zero => simp
    | succ p =>
      have hb := h b (by simp)
      have ih' := ih (fun x hx => h x (List.mem_cons_of_mem _ hx)) p
      have e : N * (p + 1) = b.length + N * p := by rw [hb, Nat.mul_add]; omega
      rw [e, List.flatten_cons]
      simp [List.take_append, List.drop_append, ih', List.take_of_length_le,
        List.drop_of_length_le]

theorem Blocks.set {α : Type} {N : Nat} {B : List (List α)} (h : Blocks N B) {p : Nat} {b : List α}
    (hb : b.length = N) : Blocks N (B.set p b) := by
  intro x hx
  rcases List.mem_or_eq_of_mem_set hx with h' | h'
  · exact h x h'
  · rw [h', hb]

/-- Writing a whole block. -/
theorem writeAt_block {α : Type} {N : Nat} {B : List (List α)} (h : Blocks N B) {p : Nat}
    (hp : p < B.length) {b : List α} (hb : b.length = N) :
    writeAt B.flatten (N * p) b = .ok (B.set p b).flatten := by
  have hle : N * p + N ≤ N * B.length := by
    have : N * (p + 1) ≤ N * B.length := Nat.mul_le_mul_left _ hp
    rw [Nat.mul_add] at this; omega
  rw [writeAt_eq _ _ _ (by rw [h.len, hb]; exact hle), hb]
  have e : N * p + N = N * (p + 1) := by rw [Nat.mul_add]; omega
  rw [e, (h.take p).1, (h.take (p + 1)).2]
  rw [List.set_eq_take_append_cons_drop, if_pos hp]
  simp

/-- Writing several blocks in a row. -/
theorem writeAt_blocks {α : Type} {N : Nat} {B : List (List α)} (h : Blocks N B) {c : Nat}
    {M : List (List α)} (hM : Blocks N M) (hc : c + M.length ≤ B.length) :
    writeAt B.flatten (c * N) M.flatten =
      .ok (B.take c ++ M ++ B.drop (c + M.length)).flatten := by
  have hle : c * N + N * M.length ≤ N * B.length := by
    have : N * (c + M.length) ≤ N * B.length := Nat.mul_le_mul_left _ hc
    rw [Nat.mul_add, Nat.mul_comm N c] at this; exact this
  rw [writeAt_eq _ _ _ (by rw [h.len, hM.len]; exact hle), hM.len]
  have e : c * N + N * M.length = N * (c + M.length) := by rw [Nat.mul_add, Nat.mul_comm c]
  rw [e, Nat.mul_comm c N, (h.take c).1, (h.take (c + M.length)).2]
  simp

/-- Reading a whole block. -/
theorem readAt_block {α : Type} {N : Nat} {B : List (List α)} (h : Blocks N B) {p : Nat}
    {b : List α} (hp : B[p]? = some b) : readAt B.flatten (N * p) N = .ok b := by
  obtain ⟨hlt, he⟩ := List.getElem?_eq_some_iff.1 hp
  have hle : N * p + N ≤ N * B.length := by
    have : N * (p + 1) ≤ N * B.length := Nat.mul_le_mul_left _ hlt
    rw [Nat.mul_add] at this; omega
  rw [readAt_eq _ _ _ (by rw [h.len]; exact hle), (h.take p).2, List.drop_eq_getElem_cons hlt,
    List.flatten_cons, he]
  have hb : b.length = N := h b (he ▸ List.getElem_mem hlt)
  rw [← hb, List.take_left]

theorem replicate_blocks {α : Type} (n N : Nat) (x : α) :
    List.replicate (n * N) x = (List.replicate n (List.replicate N x)).flatten := by
  induction n with
  | zero => simp
  | succ n ih =>
    rw [List.replicate_succ, List.flatten_cons, ← ih, List.replicate_append_replicate, Nat.add_mul]
    congr 1; omega

theorem blocks_replicate {α : Type} (n N : Nat) (x : α) :
    Blocks N (List.replicate n (List.replicate N x)) := by
  intro b hb
  rw [(List.mem_replicate.1 hb).2, List.length_replicate]

/-! ## Rows: the data of one particle in a message -/

/-- The five pieces of a message that belong to one particle. -/
structure Row (R : Type) where
  ints : List Int
  reals : List R
  dxs : List R
  pldr : List R
  pldi : List Nat

/-- Row of a particle. -/
def rowOf {R : Type} (k : Kind) (q : Prtl R) : Row R :=
  ⟨packInts k.D q, packReals k q, packDxs k.D q, q.pld_r.take k.npldr, q.pld_i.take k.npldi⟩

/-- A row has the right lengths. -/
structure RowOk {R : Type} (k : Kind) (r : Row R) : Prop where
  ints : r.ints.length = k.nints
  reals : r.reals.length = k.nreals
  dxs : r.dxs.length = k.nints
  pldr : r.pldr.length = k.npldr
  pldi : r.pldi.length = k.npldi

/-- Buffers that contain the given rows. -/
def flat {R : Type} (rows : List (Row R)) : Buffers R :=
  ⟨(rows.map (·.ints)).flatten, (rows.map (·.reals)).flatten, (rows.map (·.dxs)).flatten,
   (rows.map (·.pldr)).flatten, (rows.map (·.pldi)).flatten⟩

/-- The payload arrays have the extents of the species. -/
def PldOk {R : Type} (k : Kind) (q : Prtl R) : Prop :=
  q.pld_r.length = k.npldr ∧ q.pld_i.length = k.npldi

theorem rowOf_ok {R : Type} (k : Kind) (h1 : 1 ≤ k.D) (h3 : k.D ≤ 3) {q : Prtl R}
    (hq : PldOk k q) : RowOk k (rowOf k q) := by
  obtain ⟨D, c, nr, ni⟩ := k
  obtain ⟨h4, h5⟩ := hq
  simp only at h1 h3 h4 h5
  constructor
  · interval_cases D <;> simp [rowOf, packInts, Kind.nints]
  · cases c <;> simp [rowOf, packReals, Kind.nreals, Kind.hasPhi] <;> split <;> rfl
  · interval_cases D <;> simp [rowOf, packDxs, Kind.nints]
  · simp [rowOf, h4]
  · simp [rowOf, h5]

theorem blocks_map {R α : Type} {N : Nat} {rows : List (Row R)} (f : Row R → List α)
    (h : ∀ r ∈ rows, (f r).length = N) : Blocks N (rows.map f) := by
  intro b hb
  obtain ⟨r, hr, rfl⟩ := List.mem_map.1 hb
  exact h r hr

/-- One body of the packing kernel in terms of rows. -/
theorem populate_row {R : Type} (k : Kind) (h1 : 1 ≤ k.D) (h3 : k.D ≤ 3) {out : List Nat}
    {o p idx : Nat} {rows : List (Row R)} {arr : List (Prtl R)} {q : Prtl R}
    (hr : ∀ r ∈ rows, RowOk k r) (hp : p < rows.length) (ho : out[o + p]? = some idx)
    (ha : arr[idx]? = some q) (hq : PldOk k q) :
    populateBody k out o (flat rows, arr) p =
      .ok (flat (rows.set p (rowOf k q)), arr.set idx { q with tag := dead }) := by
  have hok := rowOf_ok k h1 h3 hq
  have w1 := writeAt_block (blocks_map (·.ints) fun r h => (hr r h).ints) (p := p)
    (by simpa using hp) hok.ints
  have w2 := writeAt_block (blocks_map (·.reals) fun r h => (hr r h).reals) (p := p)
    (by simpa using hp) hok.reals
  have w3 := writeAt_block (blocks_map (·.dxs) fun r h => (hr r h).dxs) (p := p)
    (by simpa using hp) hok.dxs
  have w4 := writeAt_block (blocks_map (·.pldr) fun r h => (hr r h).pldr) (p := p)
    (by simpa using hp) hok.pldr
  have w5 := writeAt_block (blocks_map (·.pldi) fun r h => (hr r h).pldi) (p := p)
    (by simpa using hp) hok.pldi
  simp only [populateBody, ho, ha, flat]
  simp only [rowOf] at w1 w2 w3 w4 w5
  rw [w1, Outcome.bind_ok, w3, Outcome.bind_ok, w2, Outcome.bind_ok, w4, Outcome.bind_ok, w5,
    Outcome.bind_ok, Outcome.pure_eq]
  simp [List.map_set, rowOf]

/-- Unpacking the row of `src` into a slot copies all attributes. -/
theorem unpack_row {R : Type} (k : Kind) (h1 : 1 ≤ k.D) (h3 : k.D ≤ 3) (src q : Prtl R)
    (hs : PldOk k src) :
    (do let q ← unpackInts k.D (packInts k.D src) q
        let q ← unpackDxs k.D (packDxs k.D src) q
        let q ← unpackReals k.hasPhi (packReals k src) q
        return ({ q with
          pld_r := if k.npldr > 0 then src.pld_r.take k.npldr else q.pld_r
          pld_i := if k.npldi > 0 then src.pld_i.take k.npldi else q.pld_i
          tag := alive } : Prtl R)) = .ok { copyAttrs k src q with tag := alive } := by
  obtain ⟨D, c, nr, ni⟩ := k
  obtain ⟨h4, h5⟩ := hs
  simp only at h1 h3 h4 h5
  subst h4 h5
  interval_cases D <;> cases c <;>
    simp [unpackInts, packInts, unpackDxs, packDxs, unpackReals, packReals, copyAttrs, Kind.hasPhi]

/-- One body of the extracting kernel in terms of rows. -/
theorem extract_row {R : Type} (k : Kind) (h1 : 1 ≤ k.D) (h3 : k.D ≤ 3) {out : List Nat}
    {npart p : Nat} {rows : List (Row R)} {arr : List (Prtl R)} {src q : Prtl R}
    (hr : ∀ r ∈ rows, RowOk k r) (hp : rows[p]? = some (rowOf k src)) (hs : PldOk k src)
    (ha : arr[if p ≥ out.length then npart + p - out.length else out.getD p 0]? = some q) :
    extractBody k (flat rows) npart out arr p =
      .ok (arr.set (if p ≥ out.length then npart + p - out.length else out.getD p 0)
        { copyAttrs k src q with tag := alive }) := by
  have r1 := readAt_block (blocks_map (·.ints) fun r h => (hr r h).ints) (p := p)
    (b := packInts k.D src) (by simp [hp, rowOf])
  have r2 := readAt_block (blocks_map (·.reals) fun r h => (hr r h).reals) (p := p)
    (b := packReals k src) (by simp [hp, rowOf])
  have r3 := readAt_block (blocks_map (·.dxs) fun r h => (hr r h).dxs) (p := p)
    (b := packDxs k.D src) (by simp [hp, rowOf])
  have r4 := readAt_block (blocks_map (·.pldr) fun r h => (hr r h).pldr) (p := p)
    (b := src.pld_r.take k.npldr) (by simp [hp, rowOf])
  have r5 := readAt_block (blocks_map (·.pldi) fun r h => (hr r h).pldi) (p := p)
    (b := src.pld_i.take k.npldi) (by simp [hp, rowOf])
  have hu := unpack_row k h1 h3 src q hs
  simp only [extractBody, ha, flat, r1, r2, r3, r4, r5, Outcome.bind_ok]
  obtain ⟨qa, ea, hu⟩ := Outcome.bind_eq_ok.1 hu
  obtain ⟨qb, eb, hu⟩ := Outcome.bind_eq_ok.1 hu
  obtain ⟨qc, ec, hu⟩ := Outcome.bind_eq_ok.1 hu
  simp only [ea, eb, ec, Outcome.bind_ok, Outcome.pure_eq] at hu ⊢
  rw [Outcome.ok.injEq] at hu
  rw [hu]

end Entity.Prtl
