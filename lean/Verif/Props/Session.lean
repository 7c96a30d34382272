import Verif.Model.Session
import Verif.Props.RestartStep

/-!
# C54: output sessions
-/

namespace Entity.Props.Session

open Entity Entity.Session

variable {α : Type}

/-- A complete output session as the user sees it: a kind of output, a step, a time and the data. -/
structure Sess (α : Type) where
  mode : Mode
  step : Nat
  time : α
  data : List α

/-- The calls of an unfinished session. -/
def Sess.opening (w : Sess α) : List (Op α) :=
  .begin w.mode w.step w.time false :: w.data.map .put

/-- The calls of a complete session: one begin, the data, the end of the same mode. -/
def Sess.calls (w : Sess α) : List (Op α) := w.opening ++ [.finish w.mode]

/-- The three kinds of output and the names of their directories. -/
def Kind (m : Mode) (name : List Char) : Prop :=
  (m = 1 ∧ name = "fields".toList) ∨ (m = 2 ∧ name = "particles".toList) ∨
    (m = 4 ∧ name = "spectra".toList)

/-- The last complete session of a kind and step. -/
def lastOf (ws : List (Sess α)) (m : Mode) (step : Nat) : Option (Sess α) :=
  ws.foldl (fun acc w => if w.mode = m ∧ w.step = step then some w else acc) none

theorem modeStr_iff (m : Mode) (str : List Char) : modeStr m = some str ↔ Kind m str := by
  unfold modeStr Kind
  split <;> simp_all [eq_comm]

theorem pad8_inj {a b : Nat} (h : Checkpoint.pad8 a = Checkpoint.pad8 b) : a = b := by
  have ha : Schedule.digitsVal (Checkpoint.pad8 a) = a := by
    rw [Checkpoint.pad8, Checkpoint.digitsVal_zeros, Checkpoint.digitsVal_decimal]
  have hb : Schedule.digitsVal (Checkpoint.pad8 b) = b := by
    rw [Checkpoint.pad8, Checkpoint.digitsVal_zeros, Checkpoint.digitsVal_decimal]
  rw [← ha, h, hb]

/-- **C54**: different kinds of output and different steps never share a file. -/
theorem C54_file_names (m m' : Mode) (str str' ext : List Char) (hm : Kind m str)
    (hm' : Kind m' str') (s s' : Nat) (h : fileName str s ext = fileName str' s' ext) :
    m = m' ∧ s = s' := by
  have hmode : m = m' ∧ str = str' := by
    unfold Kind at hm hm'
    rcases hm with ⟨rfl, rfl⟩ | ⟨rfl, rfl⟩ | ⟨rfl, rfl⟩ <;>
    rcases hm' with ⟨rfl, rfl⟩ | ⟨rfl, rfl⟩ | ⟨rfl, rfl⟩ <;>
    first
      | exact ⟨rfl, rfl⟩
      | (exfalso
         have := congrArg (List.take 2) h
         simp [fileName] at this)
  obtain ⟨rfl, rfl⟩ := hmode
  refine ⟨rfl, pad8_inj ?_⟩
  unfold fileName at h
  simpa using h

/-- The invariant of the writer after the accepted calls `acc`. -/
def Inv (ext : List Char) (s : St α) (acc : List (Op α)) : Prop :=
  ∃ (ws : List (Sess α)) (op : Option (Sess α)),
    acc = (ws.map Sess.calls).flatten ++ (op.elim [] Sess.opening) ∧
    (∀ w ∈ ws, ∃ n, Kind w.mode n) ∧
    (match op with
      | none => s.active = 0 ∧ s.engine = none
      | some w => s.active = w.mode ∧ ∃ n, Kind w.mode n ∧
          s.engine = some (fileName n w.step ext, ⟨w.step, w.time, w.data⟩)) ∧
    ∀ m n, Kind m n → ∀ step, s.disk (fileName n step ext)
      = (lastOf ws m step).map fun w => ⟨w.step, w.time, w.data⟩

theorem kind_ne {m : Mode} {n : List Char} (h : Kind m n) : m ≠ 0 := by
  rcases h with ⟨rfl, -⟩ | ⟨rfl, -⟩ | ⟨rfl, -⟩ <;> decide

theorem kind_fun {m : Mode} {n n' : List Char} (h : Kind m n) (h' : Kind m n') : n = n' := by
  have := (modeStr_iff m n).2 h
  rw [(modeStr_iff m n').2 h'] at this
  exact (Option.some.inj this).symm

theorem inv_call (ext : List Char) (s : St α) (acc : List (Op α)) (h : Inv ext s acc) (o : Op α)
    (r : St α × Bool) (hr : call ext s o = r) :
    Inv ext r.1 (if r.2 = true then acc ++ [o] else acc) := by
  obtain ⟨ws, op, hacc, hk, hop, hd⟩ := h
  have same : (s, false) = r → Inv ext r.1 (if r.2 = true then acc ++ [o] else acc) := by
    rintro rfl
    exact ⟨ws, op, hacc, hk, hop, hd⟩
  cases o with
  | begin m step time f =>
    simp only [call, beginWriting] at hr
    by_cases h0 : m = 0
    · rw [if_pos h0] at hr; exact same hr
    rw [if_neg h0] at hr
    by_cases h1 : s.active = 0
    · rw [if_neg (by simpa using h1)] at hr
      cases hstr : modeStr m with
      | none => rw [hstr] at hr; exact same hr
      | some str =>
        rw [hstr] at hr
        cases f with
        | true => exact same hr
        | false =>
          have hkind := (modeStr_iff m str).1 hstr
          have hnone : op = none := by
            cases op with
            | none => rfl
            | some w =>
              obtain ⟨n, hn, -⟩ := hop.2
              exact absurd (hop.1.symm.trans h1) (kind_ne hn)
          subst hnone
          simp only [Bool.false_eq_true, if_false] at hr
          subst hr
          refine ⟨ws, some ⟨m, step, time, []⟩, ?_, hk, ⟨rfl, str, hkind, rfl⟩, hd⟩
          simp [hacc, Sess.opening]
    · rw [if_pos h1] at hr; exact same hr
  | put x =>
    simp only [call, put] at hr
    cases op with
    | none =>
      rw [hop.2] at hr
      exact same hr
    | some w =>
      obtain ⟨ha, n, hn, he⟩ := hop
      rw [he] at hr
      subst hr
      refine ⟨ws, some { w with data := w.data ++ [x] }, ?_, hk, ⟨ha, n, hn, rfl⟩, hd⟩
      simp [hacc, Sess.opening]
  | finish m =>
    simp only [call, endWriting] at hr
    by_cases h0 : m = 0
    · rw [if_pos h0] at hr; exact same hr
    rw [if_neg h0] at hr
    by_cases h1 : s.active = 0
    · rw [if_pos h1] at hr; exact same hr
    rw [if_neg h1] at hr
    by_cases h2 : s.active = m
    · rw [if_neg (by simpa using h2)] at hr
      subst hr
      cases op with
      | none => exact absurd hop.1 h1
      | some w =>
        obtain ⟨ha, n, hn, he⟩ := hop
        have hwm : w.mode = m := ha.symm.trans h2
        refine ⟨ws ++ [w], none, ?_, ?_, ?_, ?_⟩
        · simp [hacc, Sess.calls, hwm]
        · intro v hv
          rcases List.mem_append.1 hv with hv | hv
          · exact hk v hv
          · rw [List.mem_singleton.1 hv]; exact ⟨n, hn⟩
        · simp [closeEngine, he]
        · intro m' n' hn' step
          simp only [closeEngine, he, lastOf, List.foldl_append, List.foldl_cons, List.foldl_nil]
          by_cases hf : fileName n' step ext = fileName n w.step ext
          · obtain ⟨e1, e2⟩ := C54_file_names _ _ _ _ ext hn' hn _ _ hf
            rw [if_pos hf, if_pos ⟨e1.symm, e2.symm⟩]
            rfl
          · rw [if_neg hf, if_neg, hd m' n' hn' step]
            · rfl
            · rintro ⟨e1, e2⟩
              subst e2
              rw [← e1] at hn'
              rw [kind_fun hn' hn] at hf
              exact hf rfl
    · rw [if_pos h2] at hr; exact same hr

theorem inv_history (ext : List Char) (ops : List (Op α)) : ∀ (s : St α) (acc : List (Op α)),
    Inv ext s acc → Inv ext (history ext s ops).1 (acc ++ (history ext s ops).2) := by
  induction ops with
  | nil => intro s acc h; simpa [history] using h
  | cons o os ih =>
    intro s acc h
    have h1 := inv_call ext s acc h o _ rfl
    have h2 := ih _ _ h1
    rw [history]
    cases hr : (call ext s o).2 <;> simp only [hr, if_true, Bool.false_eq_true, if_false] at h2 ⊢
    · exact h2
    · simpa using h2

/-- **C54**: whatever calls are made, in whatever order, the accepted ones form complete sessions
(begin, data, end of the same mode), possibly followed by one that is still open; every output file
of every kind and step holds exactly the step, time and data of the last complete session of that
kind and step, and there is no file for a session never completed. -/
theorem C54_sessions (ext : List Char) (ops : List (Op α)) :
    ∃ (ws : List (Sess α)) (op : Option (Sess α)),
      (history ext fresh ops).2 = (ws.map Sess.calls).flatten ++ (op.elim [] Sess.opening) ∧
      ∀ m n, Kind m n → ∀ step, (history ext fresh ops).1.disk (fileName n step ext)
        = (lastOf ws m step).map fun w => ⟨w.step, w.time, w.data⟩ := by
  have h0 : Inv ext (fresh : St α) [] :=
    ⟨[], none, by simp, by simp, ⟨rfl, rfl⟩, fun m n _ step => rfl⟩
  obtain ⟨ws, op, h1, -, -, h4⟩ := inv_history ext ops fresh [] h0
  exact ⟨ws, op, by simpa using h1, h4⟩

/-- **C54**: a rejected call leaves the writer unchanged, in any state. -/
theorem C54_rejected (ext : List Char) (s : St α) (o : Op α) (h : (call ext s o).2 = false) :
    (call ext s o).1 = s := by
  cases o with
  | begin m step time f =>
    simp only [call, beginWriting] at h ⊢
    by_cases h0 : m = 0
    · rw [if_pos h0]
    rw [if_neg h0] at h ⊢
    by_cases h1 : s.active = 0
    · rw [if_neg (by simpa using h1)] at h ⊢
      cases hstr : modeStr m with
      | none => rfl
      | some str => cases f <;> simp [hstr] at h ⊢
    · rw [if_pos h1]
  | put x =>
    simp only [call, put] at h ⊢
    cases he : s.engine with
    | none => rfl
    | some p => simp [he] at h
  | finish m =>
    simp only [call, endWriting] at h ⊢
    split_ifs at h ⊢ <;> simp_all

/-- The calls a user may expect to be accepted when the session open, if any, has mode `cur`
(0 for none). -/
def Allowed (cur : Mode) : Op α → Prop
  | .begin m _ _ fails => cur = 0 ∧ (∃ n, Kind m n) ∧ fails = false
  | .put _ => cur ≠ 0
  | .finish m => m ≠ 0 ∧ m = cur

/-- The mode of the session left open by a list of accepted calls. -/
def openMode (acc : List (Op α)) : Mode :=
  acc.foldl (fun cur o => match o with
    | .begin m _ _ _ => m
    | .put _ => cur
    | .finish _ => 0) 0

theorem openMode_calls (w : Sess α) (cur : Mode) :
    (w.calls).foldl (fun cur o => match o with
      | .begin m _ _ _ => m
      | .put _ => cur
      | .finish _ => 0) cur = 0 := by
  simp [Sess.calls]

theorem fold_puts (l : List α) (cur : Mode) :
    (l.map Op.put).foldl (fun cur o => match o with
      | .begin m _ _ _ => m
      | .put _ => cur
      | .finish _ => 0) cur = cur := by
  induction l with
  | nil => rfl
  | cons x l ih => simpa using ih

theorem openMode_inv (ext : List Char) (s : St α) (acc : List (Op α)) (h : Inv ext s acc) :
    openMode acc = s.active ∧ (s.engine = none ↔ s.active = 0) := by
  obtain ⟨ws, op, hacc, hk, hop, -⟩ := h
  have hz : ∀ ws : List (Sess α), ((ws.map Sess.calls).flatten).foldl (fun cur o => match o with
      | .begin m _ _ _ => m
      | .put _ => cur
      | .finish _ => 0) 0 = 0 := by
    intro ws
    induction ws with
    | nil => rfl
    | cons w ws ih =>
      rw [List.map_cons, List.flatten_cons, List.foldl_append, openMode_calls, ih]
  rw [openMode, hacc, List.foldl_append, hz]
  cases op with
  | none => exact ⟨hop.1.symm, by simp [hop.1, hop.2]⟩
  | some w =>
    obtain ⟨ha, n, hn, he⟩ := hop
    refine ⟨?_, ?_⟩
    · simp only [Option.elim, Sess.opening, List.foldl_cons]
      rw [fold_puts, ha]
    · simp only [he, ha, reduceCtorEq, false_iff]
      exact kind_ne hn

/-- **C54**: after any history a call is accepted exactly if it fits the session left open by the
accepted calls so far: a begin only when no session is open, data only inside a session, an end only
of the mode that is open. -/
theorem C54_accepted (ext : List Char) (ops : List (Op α)) (o : Op α) :
    (call ext (history ext fresh ops).1 o).2 = true ↔
      Allowed (openMode (history ext fresh ops).2) o := by
  have h0 : Inv ext (fresh : St α) [] :=
    ⟨[], none, by simp, by simp, ⟨rfl, rfl⟩, fun m n _ step => rfl⟩
  have hinv := inv_history ext ops fresh [] h0
  rw [List.nil_append] at hinv
  obtain ⟨h1, h2⟩ := openMode_inv ext _ _ hinv
  rw [h1]
  generalize (history ext fresh ops).1 = s at h2 ⊢
  cases o with
  | begin m step time f =>
    simp only [call, beginWriting, Allowed]
    by_cases hm : m = 0
    · subst hm; simp [Kind]
    rw [if_neg hm]
    by_cases ha : s.active = 0
    · rw [if_neg (by simpa using ha)]
      cases hstr : modeStr m with
      | none =>
        simp only [Bool.false_eq_true, false_iff]
        rintro ⟨-, ⟨n, hn⟩, -⟩
        rw [(modeStr_iff m n).2 hn] at hstr
        exact absurd hstr (by simp)
      | some str =>
        have := (modeStr_iff m str).1 hstr
        cases f
        · simp [ha]; exact ⟨_, this⟩
        · simp
    · rw [if_pos ha]; simp [ha]
  | put x =>
    simp only [call, put, Allowed, ne_eq, ← h2]
    cases s.engine <;> simp
  | finish m =>
    simp only [call, endWriting, Allowed]
    split_ifs with a b c <;> simp_all [eq_comm]

/-! A concrete history: a nested begin, a mismatched end, data outside a session and a bad mode are
all rejected, and the two files hold their own data. -/

def sample : List (Op Nat) :=
  [.put 1, .begin 1 10 5 false, .put 2, .begin 2 10 5 false, .finish 2, .put 3, .finish 1, .put 4,
    .begin 3 10 5 false, .begin 2 10 5 true, .begin 2 10 5 false, .put 7, .finish 2, .finish 2,
    .begin 1 11 6 false, .put 8]

example : (history "bp".toList fresh sample).2 =
      [.begin 1 10 5 false, .put 2, .put 3, .finish 1, .begin 2 10 5 false, .put 7, .finish 2,
        .begin 1 11 6 false, .put 8] ∧
    (history "bp".toList fresh sample).1.disk "fields/fields.00000010.bp".toList
      = some ⟨10, 5, [2, 3]⟩ ∧
    (history "bp".toList fresh sample).1.disk "particles/particles.00000010.bp".toList
      = some ⟨10, 5, [7]⟩ ∧
    (history "bp".toList fresh sample).1.disk "fields/fields.00000011.bp".toList = none ∧
    (history "bp".toList fresh sample).1.active = 1 := by
  decide +kernel

end Entity.Props.Session
