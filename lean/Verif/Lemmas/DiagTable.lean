import Verif.Model.Diag
import Verif.Spec.Diag

/-!
# Lemmas about tables
-/

namespace Entity.Diag
open Spec

theorem strlen_foldl (s : Bytes) (n : Nat) :
    s.foldl (fun length c => if c &&& 0xC0 != 0x80 then length + 1 else length) n =
      n + strlenUTF8 s := by
  induction s generalizing n with
  | nil => simp [strlenUTF8]
  | cons c cs ih =>
    simp only [strlenUTF8, List.foldl_cons]
    rw [ih, ih]
    split <;> omega

theorem strlen_append (a b : Bytes) : strlenUTF8 (a ++ b) = strlenUTF8 a + strlenUTF8 b := by
  rw [strlenUTF8, List.foldl_append, strlen_foldl]; rfl

theorem byte_cont (x : Nat) :
    (UInt8.ofNat (x % 64 + 128) &&& 0xC0 != 0x80) = false := by
  have h : ∀ m < 64, (UInt8.ofNat (m + 128) &&& 0xC0 != 0x80) = false := by decide
  exact h _ (Nat.mod_lt _ (by norm_num))

theorem byte_one (x : Nat) (h : x ≤ 127) : (UInt8.ofNat x &&& 0xC0 != 0x80) = true := by
  have h' : ∀ m < 128, (UInt8.ofNat m &&& 0xC0 != 0x80) = true := by decide
  exact h' _ (by omega)

theorem byte_two (x : Nat) : (UInt8.ofNat (x % 32 + 192) &&& 0xC0 != 0x80) = true := by
  have h : ∀ m < 32, (UInt8.ofNat (m + 192) &&& 0xC0 != 0x80) = true := by decide
  exact h _ (Nat.mod_lt _ (by norm_num))

theorem byte_three (x : Nat) : (UInt8.ofNat (x % 16 + 224) &&& 0xC0 != 0x80) = true := by
  have h : ∀ m < 16, (UInt8.ofNat (m + 224) &&& 0xC0 != 0x80) = true := by decide
  exact h _ (Nat.mod_lt _ (by norm_num))

theorem byte_four (x : Nat) : (UInt8.ofNat (x % 8 + 240) &&& 0xC0 != 0x80) = true := by
  have h : ∀ m < 8, (UInt8.ofNat (m + 240) &&& 0xC0 != 0x80) = true := by decide
  exact h _ (Nat.mod_lt _ (by norm_num))

theorem strlen_char (c : Char) : strlenUTF8 (String.utf8EncodeChar c) = 1 := by
  unfold String.utf8EncodeChar
  simp only
  split
  · rename_i h
    simp only [strlenUTF8, List.foldl_cons, List.foldl_nil, byte_one _ h, if_true]
  split
  · simp only [strlenUTF8, List.foldl_cons, List.foldl_nil, byte_two, byte_cont]; rfl
  split
  · simp only [strlenUTF8, List.foldl_cons, List.foldl_nil, byte_three, byte_cont]; rfl
  · simp only [strlenUTF8, List.foldl_cons, List.foldl_nil, byte_four, byte_cont]; rfl

theorem strlen_chars (cs : List Char) :
    strlenUTF8 (cs.flatMap String.utf8EncodeChar) = cs.length := by
  induction cs with
  | nil => rfl
  | cons c cs ih => rw [List.flatMap_cons, strlen_append, ih, strlen_char, List.length_cons]; omega

theorem strlen_bytesOf (s : String) : strlenUTF8 (bytesOf s) = s.length := by
  rw [bytesOf, strlen_chars]; rfl

/-- The column of the model that belongs to a cell. -/
def column (c : Cell) : Column := ⟨bytesOf c.text, c.color, c.anchor, c.filler⟩

/-- Sizes that do not leave the range of 64 bits. -/
def Small (maxSize : Nat) (c : Cell) : Prop :=
  c.anchor.natAbs ≤ maxSize ∧ c.anchor.natAbs < 2 ^ 61 ∧ c.text.length < 2 ^ 61

theorem repeat_ok {maxSize : Nat} {c : UInt8} {n : Nat} (h : n ≤ maxSize) :
    repeatChar maxSize c n = .ok (List.replicate n c) := by
  simp [repeatChar, Nat.not_lt.mpr h]

theorem repeat_err {maxSize : Nat} {c : UInt8} {n : Nat} (h : maxSize < n) :
    repeatChar maxSize c n = .err := by
  simp [repeatChar, h]

theorem column_ok {maxSize : Nat} {black reset : Bytes} {c : Cell} {pos : Nat}
    (hs : Small maxSize c)
    (hf : (pos : Int) + (if c.anchor ≤ 0 ∧ c.filler = 0x3A then 2 else 0) ≤ c.start) :
    ∃ (g : List UInt8) (pos' : Nat), Gap c g ∧ (pos : Int) + g.length = c.start ∧
      (pos' : Int) = c.stop ∧
      tableColumn maxSize black reset pos (column c) =
        .ok (black ++ g ++ c.color ++ utf8 c.text ++ reset, pos') := by
  obtain ⟨h1, h2, h3⟩ := hs
  unfold tableColumn column Gap
  simp only [strlen_bytesOf]
  by_cases ha : c.anchor ≤ 0
  · have hst : c.start = (c.anchor.natAbs : Int) := by
      simp only [Cell.start, ha, if_true]; omega
    by_cases hc : c.filler = 0x3A
    · simp only [ha, hc, and_self, if_true, true_and] at hf ⊢
      rw [hst] at hf
      have hsub : sub64 (sub64 c.anchor.natAbs pos) 2 = c.anchor.natAbs - pos - 2 := by
        unfold sub64; omega
      have hsub' : (pos + sub64 c.anchor.natAbs pos) % 2 ^ 64 = c.anchor.natAbs := by
        unfold sub64; omega
      refine ⟨[0x20, 0x3A] ++ List.replicate (c.anchor.natAbs - pos - 2) 0x20,
        c.anchor.natAbs + c.text.length, ⟨_, rfl⟩, ?_, ?_, ?_⟩
      · rw [hst]; simp only [List.length_append, List.length_replicate, List.length_cons, List.length_nil]; omega
      · rw [Cell.stop, hst]; omega
      · rw [hsub, repeat_ok (by omega), hsub']
        have : (c.anchor.natAbs + c.text.length) % 2 ^ 64 = c.anchor.natAbs + c.text.length := by
          omega
        simp only [Outcome.bind_ok, Outcome.pure_eq, this]
        rfl
    · simp only [ha, hc, and_false, if_true, if_false, add_zero] at hf ⊢
      rw [hst] at hf
      have hsub : sub64 c.anchor.natAbs pos = c.anchor.natAbs - pos := by
        unfold sub64; omega
      have hsub' : (pos + (c.anchor.natAbs - pos)) % 2 ^ 64 = c.anchor.natAbs := by omega
      refine ⟨List.replicate (c.anchor.natAbs - pos) c.filler,
        c.anchor.natAbs + c.text.length, ⟨_, rfl⟩, ?_, ?_, ?_⟩
      · rw [hst]; simp only [List.length_append, List.length_replicate, List.length_cons, List.length_nil]; omega
      · rw [Cell.stop, hst]; omega
      · rw [hsub, repeat_ok (by omega), hsub']
        have : (c.anchor.natAbs + c.text.length) % 2 ^ 64 = c.anchor.natAbs + c.text.length := by
          omega
        simp only [Outcome.bind_ok, Outcome.pure_eq, this]
        rfl
  · have hst : c.start = (c.anchor.natAbs : Int) - c.text.length := by
      simp only [Cell.start, ha, if_false]; omega
    simp only [ha, false_and, if_false, add_zero] at hf ⊢
    rw [hst] at hf
    have hsub : sub64 (sub64 c.anchor.natAbs pos) c.text.length =
        c.anchor.natAbs - pos - c.text.length := by
      unfold sub64; omega
    refine ⟨List.replicate (c.anchor.natAbs - pos - c.text.length) c.filler,
      c.anchor.natAbs, ⟨_, rfl⟩, ?_, ?_, ?_⟩
    · rw [hst]; simp only [List.length_append, List.length_replicate, List.length_cons, List.length_nil]; omega
    · rw [Cell.stop, hst]; omega
    · rw [hsub, repeat_ok (by omega)]
      have : ((pos + (c.anchor.natAbs - pos - c.text.length)) % 2 ^ 64 + c.text.length) % 2 ^ 64
          = c.anchor.natAbs := by omega
      simp only [Outcome.bind_ok, Outcome.pure_eq, this]
      rfl

theorem column_err {maxSize : Nat} {black reset : Bytes} {c : Cell} {pos : Nat}
    (hm : maxSize < 2 ^ 63) (hp : pos < 2 ^ 62)
    (hs : Small maxSize c)
    (hf : ¬ (pos : Int) + (if c.anchor ≤ 0 ∧ c.filler = 0x3A then 2 else 0) ≤ c.start) :
    tableColumn maxSize black reset pos (column c) = .err := by
  obtain ⟨h1, h2, h3⟩ := hs
  unfold tableColumn column
  simp only [strlen_bytesOf]
  by_cases ha : c.anchor ≤ 0
  · have hst : c.start = (c.anchor.natAbs : Int) := by
      simp only [Cell.start, ha, if_true]; omega
    by_cases hc : c.filler = 0x3A
    · simp only [ha, hc, and_self, if_true, true_and] at hf ⊢
      rw [hst] at hf
      have hsub : maxSize < sub64 (sub64 c.anchor.natAbs pos) 2 := by
        unfold sub64; omega
      rw [repeat_err hsub]; rfl
    · simp only [ha, hc, and_false, if_true, if_false, add_zero] at hf ⊢
      rw [hst] at hf
      have hsub : maxSize < sub64 c.anchor.natAbs pos := by
        unfold sub64; omega
      rw [repeat_err hsub]; rfl
  · have hst : c.start = (c.anchor.natAbs : Int) - c.text.length := by
      simp only [Cell.start, ha, if_false]; omega
    simp only [ha, false_and, if_false, add_zero] at hf ⊢
    rw [hst] at hf
    have hsub : maxSize < sub64 (sub64 c.anchor.natAbs pos) c.text.length := by
      unfold sub64; omega
    rw [repeat_err hsub]; rfl

theorem stop_small {maxSize : Nat} {c : Cell} {pos' : Nat} (hs : Small maxSize c)
    (h : (pos' : Int) = c.stop) : pos' < 2 ^ 62 := by
  obtain ⟨_, h2, h3⟩ := hs
  simp only [Cell.stop, Cell.start] at h
  split at h <;> omega

theorem loop_ok {maxSize : Nat} {black reset : Bytes} (cells : List Cell) (pos : Nat)
    (hs : ∀ c ∈ cells, Small maxSize c) (hf : Fits pos cells) :
    ∃ gaps, Laid pos cells gaps ∧
      tableLoop maxSize black reset pos (cells.map column) =
        .ok ((gaps.zip cells).map
          (fun gc => black ++ gc.1 ++ gc.2.color ++ utf8 gc.2.text ++ reset)).flatten := by
  induction cells generalizing pos with
  | nil => exact ⟨[], trivial, rfl⟩
  | cons c cs ih =>
    obtain ⟨hf1, hf2⟩ := hf
    obtain ⟨g, pos', hg, hpos, hstop, hcol⟩ :=
      column_ok (black := black) (reset := reset) (hs c (by simp)) hf1
    rw [← hstop] at hf2
    obtain ⟨gs, hl, hloop⟩ := ih pos' (fun c hc => hs c (by simp [hc])) hf2
    refine ⟨g :: gs, ⟨hg, hpos, by rw [← hstop]; exact hl⟩, ?_⟩
    simp only [List.map_cons, tableLoop, hcol, Outcome.bind_ok, hloop, Outcome.pure_eq,
      List.zip_cons_cons, List.flatten_cons]

theorem loop_err {maxSize : Nat} {black reset : Bytes} (hm : maxSize < 2 ^ 63)
    (cells : List Cell) (pos : Nat) (hp : pos < 2 ^ 62)
    (hs : ∀ c ∈ cells, Small maxSize c) (hf : ¬ Fits pos cells) :
    tableLoop maxSize black reset pos (cells.map column) = .err := by
  induction cells generalizing pos with
  | nil => exact absurd trivial hf
  | cons c cs ih =>
    by_cases hf1 : (pos : Int) + (if c.anchor ≤ 0 ∧ c.filler = 0x3A then 2 else 0) ≤ c.start
    · obtain ⟨g, pos', hg, hpos, hstop, hcol⟩ :=
        column_ok (black := black) (reset := reset) (hs c (by simp)) hf1
      have hf2 : ¬ Fits pos' cs := fun h => hf ⟨hf1, by rw [← hstop]; exact h⟩
      have := ih pos' (stop_small (hs c (by simp)) hstop) (fun c hc => hs c (by simp [hc])) hf2
      simp only [List.map_cons, tableLoop, hcol, Outcome.bind_ok, this, Outcome.bind_err]
    · simp only [List.map_cons, tableLoop, column_err hm hp (hs c (by simp)) hf1,
        Outcome.bind_err]

end Entity.Diag
