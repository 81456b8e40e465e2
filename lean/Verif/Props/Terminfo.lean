import Verif.Model.Terminfo
import Mathlib.Tactic.IntervalCases
import Mathlib.Data.List.TakeWhile
/-
C53 Compiled terminfo strings are read correctly.
C71 Terminfo entries are looked for where they should be.
-/
set_option autoImplicit false

namespace Anansi
namespace Tin

namespace Spec

/-- A terminfo entry, as in `term(5)`: the names, the booleans, the numbers, the offsets of the
strings in the table (`none`: absent) and the table. -/
structure Entry where
  names : Bytes
  bools : Bytes
  nums : List Nat
  strs : List (Option Nat)
  table : Bytes

/-- A little endian 16 bit number. -/
def short (n : Nat) : Bytes := [UInt8.ofNat (n % 256), UInt8.ofNat (n / 256 % 256)]

/-- Absent strings have -1 for an offset. -/
def offset : Option Nat → Nat
  | some o => o
  | none => 0xFFFF

/-- A byte to make the numbers begin at an even place. -/
def Entry.pad (e : Entry) : Bytes := if (e.names.length + e.bools.length) % 2 = 1 then [0] else []

/-- The compiled format of `term(5)`. -/
def Entry.compile (e : Entry) : Bytes :=
  short 0o432 ++ short e.names.length ++ short e.bools.length ++ short e.nums.length ++ short e.strs.length ++
    short e.table.length ++
  (e.names ++ e.bools ++ e.pad ++ e.nums.flatMap short ++ e.strs.flatMap (fun o => short (offset o)) ++ e.table)

/-- An entry as there may be: not too big, every offset is in the table, and a NUL is after it. -/
structure Entry.Ok (e : Entry) : Prop where
  size : e.compile.length < 0x8000
  strs : ∀ o, some o ∈ e.strs → 0 ∈ e.table.drop o

/-- The value of a string capability. -/
def Entry.value (e : Entry) (i : Nat) : Bytes :=
  match e.strs[i]? with
  | some (some o) => (e.table.drop o).takeWhile (· ≠ 0)
  | _ => []

/-- The keys, as they are numbered in `term.h`: `key_f1` and so on. -/
def keys : List Nat :=
  [/- key_f1 -/ 66, /- key_f2 -/ 68, /- key_f3 -/ 69, /- key_f4 -/ 70, /- key_f5 -/ 71, /- key_f6 -/ 72, /- key_f7 -/ 73,
    /- key_f8 -/ 74, /- key_f9 -/ 75, /- key_f10 -/ 67, /- key_f11 -/ 216, /- key_f12 -/ 217, /- key_ic -/ 77, /- key_dc -/ 59,
    /- key_home -/ 76, /- key_end -/ 164, /- key_ppage -/ 82, /- key_npage -/ 81, /- key_up -/ 87, /- key_down -/ 61,
    /- key_left -/ 79, /- key_right -/ 83]

/-- The functions, as they are numbered in `term.h`. -/
def funcs : List Nat :=
  [/- enter_ca_mode -/ 28, /- exit_ca_mode -/ 40, /- cursor_normal -/ 16, /- cursor_invisible -/ 13, /- clear_screen -/ 5,
    /- exit_attribute_mode -/ 39, /- enter_underline_mode -/ 36, /- enter_bold_mode -/ 27, /- enter_blink_mode -/ 26,
    /- enter_reverse_mode -/ 34, /- keypad_xmit -/ 89, /- keypad_local -/ 88]

end Spec

open Spec (Entry short offset)

/-! ### Reading bytes -/

/-- A string is read up to its NUL, however much comes at once. -/
theorem readNullString_spec (fuel : Nat) : ∀ (ks : List Nat) (d : Bytes), d.length < fuel →
    readNullString fuel ks d = if 0 ∈ d then some (d.takeWhile (· ≠ 0)) else none := by
  induction fuel with
  | zero => intro ks d h; omega
  | succ fuel ih =>
    intro ks d h
    rw [readNullString]
    simp only
    cases d with
    | nil => simp
    | cons x d =>
      have hn : 1 ≤ min (min 8 (max 1 (ks.headD 0))) (x :: d).length := by
        rw [List.length_cons]; omega
      generalize min (min 8 (max 1 (ks.headD 0))) (x :: d).length = n at *
      rw [if_neg (by omega)]
      generalize hd : x :: d = w at *
      have hw : w ≠ [] := by rw [← hd]; simp
      have hsplit := List.take_append_drop n w
      split
      · next h0 =>
        rw [if_pos (List.mem_of_mem_take h0)]
        congr 1
        conv_rhs => rw [← hsplit]
        rw [List.takeWhile_append, if_neg]
        intro hl
        have := List.takeWhile_prefix (p := fun x : UInt8 => decide (x ≠ 0)) (l := w.take n)
        have e := this.eq_of_length hl
        rw [← e] at h0
        have := List.mem_takeWhile_imp h0
        simp at this
      · next h0 =>
        have hl : (w.drop n).length < fuel := by
          have := List.length_pos_iff.mpr hw
          rw [List.length_drop]; omega
        rw [ih ks.tail _ hl]
        have hm : 0 ∈ w ↔ 0 ∈ w.drop n := by
          conv_lhs => rw [← hsplit, List.mem_append]
          simp [h0]
        have ht : w.takeWhile (· ≠ 0) = w.take n ++ (w.drop n).takeWhile (· ≠ 0) := by
          conv_lhs => rw [← hsplit]
          rw [List.takeWhile_append_of_pos]
          intro a ha
          simp only [decide_eq_true_eq]
          intro h; subst h; exact h0 ha
        by_cases hz : 0 ∈ w
        · rw [if_pos hz, if_pos (hm.mp hz), ht]; rfl
        · rw [if_neg hz, if_neg (fun h => hz (hm.mpr h))]; rfl

theorem short_length (n : Nat) : (short n).length = 2 := rfl

theorem readUint16_at (data : Bytes) (off : BitVec 16) (n : Nat) (rest : Bytes) (h : data.drop off.toNat = short n ++ rest)
    (hn : n < 2 ^ 16) : readUint16 data off = some (BitVec.ofNat 16 n) := by
  unfold readUint16
  rw [h]
  simp only [short, List.cons_append, List.nil_append, le16, Option.some.injEq]
  congr 1
  rw [UInt8.toNat_ofNat', UInt8.toNat_ofNat']
  omega

theorem flatMap_short_length {α : Type} (f : α → Nat) (l : List α) : (l.flatMap fun o => short (f o)).length = 2 * l.length := by
  induction l with
  | nil => rfl
  | cons x l ih => rw [List.flatMap_cons, List.length_append, ih, short_length, List.length_cons]; omega

theorem flatMap_short_drop {α : Type} (f : α → Nat) (l : List α) : ∀ i,
    (l.flatMap fun o => short (f o)).drop (2 * i) = (l.drop i).flatMap fun o => short (f o) := by
  induction l with
  | nil => intro i; simp
  | cons x l ih =>
    intro i
    cases i with
    | zero => rfl
    | succ i =>
      rw [List.flatMap_cons, show 2 * (i + 1) = 2 + 2 * i from by omega, ← List.drop_drop,
        List.drop_left' (short_length _), ih]
      rfl

/-- Where the offsets of the strings begin. -/
def strOff (e : Entry) : Nat := 12 + e.names.length + e.bools.length + e.pad.length + 2 * e.nums.length

theorem compile_eq (e : Entry) : ∃ pre, e.compile = pre ++ (e.strs.flatMap (fun o => short (offset o)) ++ e.table) ∧
    pre.length = strOff e := by
  refine ⟨short 0o432 ++ short e.names.length ++ short e.bools.length ++ short e.nums.length ++ short e.strs.length ++
    short e.table.length ++ (e.names ++ e.bools ++ e.pad ++ e.nums.flatMap short), ?_, ?_⟩
  · simp only [Spec.Entry.compile, List.append_assoc]
  · have := flatMap_short_length id e.nums
    simp only [id] at this
    simp only [List.length_append, short_length, strOff, this]
    omega

theorem compile_length (e : Entry) : e.compile.length = strOff e + 2 * e.strs.length + e.table.length := by
  obtain ⟨pre, h1, h2⟩ := compile_eq e
  rw [h1, List.length_append, List.length_append, h2, flatMap_short_length]
  omega

theorem drop_str (e : Entry) (i : Nat) (o : Option Nat) (h : e.strs[i]? = some o) : ∃ rest,
    e.compile.drop (strOff e + 2 * i) = short (offset o) ++ rest := by
  obtain ⟨pre, h1, h2⟩ := compile_eq e
  obtain ⟨hi, ho⟩ := List.getElem?_eq_some_iff.mp h
  rw [h1, ← List.drop_drop, List.drop_left' h2, List.drop_append, flatMap_short_drop, List.drop_eq_getElem_cons hi,
    List.flatMap_cons, ho, List.append_assoc]
  exact ⟨_, rfl⟩

theorem drop_table (e : Entry) (o : Nat) : e.compile.drop (strOff e + 2 * e.strs.length + o) = e.table.drop o := by
  obtain ⟨pre, h1, h2⟩ := compile_eq e
  rw [h1, Nat.add_assoc, ← List.drop_drop, List.drop_left' h2, ← List.drop_drop,
    List.drop_left' (by rw [flatMap_short_length])]

/-- A string that is there. -/
theorem read_present (e : Entry) (h : e.Ok) (ks : List Nat) (i o : Nat) (hi : e.strs[i]? = some (some o)) :
    readTableString e.compile ks (BitVec.ofNat 16 (strOff e + 2 * i)) (BitVec.ofNat 16 (strOff e + 2 * e.strs.length)) =
      some (e.value i) := by
  have hs := h.size
  rw [compile_length] at hs
  have h0 := h.strs o (List.mem_of_getElem? hi)
  obtain ⟨hi', _⟩ := List.getElem?_eq_some_iff.mp hi
  have ho : o < e.table.length := by
    by_contra hc
    rw [List.drop_eq_nil_of_le (by omega)] at h0
    simp at h0
  obtain ⟨rest, hr⟩ := drop_str e i (some o) hi
  unfold readTableString
  rw [readUint16_at _ _ o rest (by rw [BitVec.toNat_ofNat, Nat.mod_eq_of_lt (by omega)]; exact hr) (by omega)]
  simp only
  rw [← BitVec.ofNat_add, BitVec.toNat_ofNat, Nat.mod_eq_of_lt (by omega), drop_table, readNullString_spec _ _ _ (by
    rw [List.length_drop, compile_length]; omega), if_pos h0]
  unfold Spec.Entry.value
  rw [hi]

/-- A string that is absent: it is read from the byte before the table. -/
theorem read_absent (e : Entry) (h : e.Ok) (ks : List Nat) (i o : Nat) (hi : e.strs[i]? = some none)
    (hl : e.strs.getLast? = some (some o)) :
    readTableString e.compile ks (BitVec.ofNat 16 (strOff e + 2 * i)) (BitVec.ofNat 16 (strOff e + 2 * e.strs.length)) =
      some (if o < 256 then e.value i else UInt8.ofNat (o / 256) :: e.table.takeWhile (· ≠ 0)) := by
  have hs := h.size
  rw [compile_length] at hs
  obtain ⟨hi', _⟩ := List.getElem?_eq_some_iff.mp hi
  have h0 := h.strs o (List.mem_of_getLast? hl)
  have ho : o < e.table.length := by
    by_contra hc
    rw [List.drop_eq_nil_of_le (by omega)] at h0
    simp at h0
  rw [List.getLast?_eq_getElem?] at hl
  obtain ⟨rest, hr⟩ := drop_str e i none hi
  obtain ⟨rest', hr'⟩ := drop_str e (e.strs.length - 1) (some o) hl
  unfold readTableString
  rw [readUint16_at _ _ 0xFFFF rest (by rw [BitVec.toNat_ofNat, Nat.mod_eq_of_lt (by omega)]; exact hr) (by omega)]
  simp only
  have hn : (BitVec.ofNat 16 (strOff e + 2 * e.strs.length) + BitVec.ofNat 16 0xFFFF).toNat = strOff e + 2 * (e.strs.length - 1) + 1 := by
    rw [← BitVec.ofNat_add, BitVec.toNat_ofNat]
    omega
  have hrest : rest' = e.table := by
    have := drop_table e 0
    rw [Nat.add_zero, show strOff e + 2 * e.strs.length = strOff e + 2 * (e.strs.length - 1) + 2 from by omega, ← List.drop_drop, hr',
      List.drop_left' (short_length _)] at this
    exact this
  have hd : e.compile.drop (strOff e + 2 * (e.strs.length - 1) + 1) = UInt8.ofNat (o / 256 % 256) :: e.table := by
    rw [← List.drop_drop, hr', hrest]; rfl
  rw [hn, hd, readNullString_spec _ _ _ (by rw [List.length_cons, compile_length]; unfold strOff; omega)]
  rw [show o / 256 % 256 = o / 256 from by omega]
  have ht0 : 0 ∈ e.table := List.mem_of_mem_drop h0
  rw [if_pos (by simp [ht0]), Option.some.injEq]
  by_cases hc : o < 256
  · rw [if_pos hc, Nat.div_eq_of_lt hc]
    unfold Spec.Entry.value
    rw [hi]
    rfl
  · rw [if_neg hc, List.takeWhile_cons, if_pos]
    simp only [decide_eq_true_eq]
    intro hz
    have := congrArg UInt8.toNat hz
    rw [UInt8.toNat_ofNat'] at this
    simp at this
    omega

/-- **C53**: reading a compiled entry gives the strings of all keys and functions; when the
entry has offsets for all of them, and, if one is absent, the last string of all is within the
first 256 bytes of the table.  However much reads get at once. -/
theorem readFrom_partial (e : Entry) (h : e.Ok) (ks : Nat → List Nat)
    (hall : ∀ i ∈ Spec.keys ++ Spec.funcs, i < e.strs.length)
    (hlast : (∃ i ∈ Spec.keys ++ Spec.funcs, e.strs[i]? = some none) → ∃ o, e.strs.getLast? = some (some o) ∧ o < 256) :
    readFrom e.compile ks = some ⟨Spec.keys.map e.value, Spec.funcs.map e.value ++ [tiMouseEnter, tiMouseLeave]⟩ := by
  have hs := h.size
  rw [compile_length] at hs
  have hso : strOff e = 12 + e.names.length + e.bools.length + e.pad.length + 2 * e.nums.length := rfl
  have hpad : e.pad.length = (e.names.length + e.bools.length) % 2 := by
    unfold Spec.Entry.pad
    split <;> simp <;> omega
  have hread : ∀ i ∈ Spec.keys ++ Spec.funcs, readTableString e.compile (ks i) (BitVec.ofNat 16 (strOff e + 2 * i))
      (BitVec.ofNat 16 (strOff e + 2 * e.strs.length)) = some (e.value i) := by
    intro i hi
    have hlt := hall i hi
    cases hv : e.strs[i] with
    | some o => exact read_present e h _ i o (by rw [List.getElem?_eq_getElem hlt, hv])
    | none =>
      have hn : e.strs[i]? = some none := by rw [List.getElem?_eq_getElem hlt, hv]
      obtain ⟨o, h1, h2⟩ := hlast ⟨i, hi, hn⟩
      rw [read_absent e h _ i o hn h1, if_pos h2]
  have hhead : ∀ (k n : Nat) (rest : Bytes), e.compile.drop k = short n ++ rest → n < 2 ^ 16 → k < 2 ^ 16 →
      readUint16 e.compile (BitVec.ofNat 16 k) = some (BitVec.ofNat 16 n) := by
    intro k n rest h1 h2 h3
    exact readUint16_at _ _ _ rest (by rw [BitVec.toNat_ofNat, Nat.mod_eq_of_lt h3]; exact h1) h2
  have e0 := hhead 0 0o432 _ (by simp only [Spec.Entry.compile, List.append_assoc]; rfl) (by omega) (by omega)
  have e1 := hhead 2 e.names.length _ (by simp only [Spec.Entry.compile, List.append_assoc]; rfl) (by omega) (by omega)
  have e2 := hhead 4 e.bools.length _ (by simp only [Spec.Entry.compile, List.append_assoc]; rfl) (by omega) (by omega)
  have e3 := hhead 6 e.nums.length _ (by simp only [Spec.Entry.compile, List.append_assoc]; rfl) (by omega) (by omega)
  have e4 := hhead 8 e.strs.length _ (by simp only [Spec.Entry.compile, List.append_assoc]; rfl) (by omega) (by omega)
  have e5 := hhead 10 e.table.length _ (by simp only [Spec.Entry.compile, List.append_assoc]; rfl) (by omega) (by omega)
  have hmap : ∀ (l : List Nat), (∀ i ∈ l, i ∈ Spec.keys ++ Spec.funcs) →
      (l.mapM fun i => readTableString e.compile (ks i) (BitVec.ofNat 16 (strOff e + 2 * i))
        (BitVec.ofNat 16 (strOff e + 2 * e.strs.length))) = some (l.map e.value) := by
    intro l
    induction l with
    | nil => intro _; rfl
    | cons i l ih =>
      intro hl
      rw [List.mapM_cons, hread i (hl i (by simp)), ih (fun j hj => hl j (by simp [hj]))]
      rfl
  have hoff : (if (BitVec.ofNat 16 e.names.length + BitVec.ofNat 16 e.bools.length).toNat % 2 ≠ 0 then
      BitVec.ofNat 16 e.bools.length + 1 else BitVec.ofNat 16 e.bools.length) = BitVec.ofNat 16 (e.bools.length + e.pad.length) := by
    rw [← BitVec.ofNat_add, BitVec.toNat_ofNat,
      Nat.mod_eq_of_lt (show e.names.length + e.bools.length < 2 ^ 16 from by omega)]
    split
    · rw [hpad, show (e.names.length + e.bools.length) % 2 = 1 from by omega, BitVec.ofNat_add]; rfl
    · rw [hpad, show (e.names.length + e.bools.length) % 2 = 0 from by omega]; rfl
  have hidx : ∀ a i, BitVec.ofNat 16 a + 2 * BitVec.ofNat 16 i = BitVec.ofNat 16 (a + 2 * i) := by
    intro a i
    rw [BitVec.ofNat_add, BitVec.ofNat_mul]
    rfl
  have hstr : (12 : BitVec 16) + (BitVec.ofNat 16 e.names.length + BitVec.ofNat 16 (e.bools.length + e.pad.length) +
      2 * BitVec.ofNat 16 e.nums.length) = BitVec.ofNat 16 (strOff e) := by
    rw [← BitVec.ofNat_add, hidx, show (12 : BitVec 16) = BitVec.ofNat 16 12 from rfl, ← BitVec.ofNat_add, hso]
    congr 1
    omega
  have e0' : readUint16 e.compile 0 = _ := e0
  have e1' : readUint16 e.compile 2 = _ := e1
  have e2' : readUint16 e.compile 4 = _ := e2
  have e3' : readUint16 e.compile 6 = _ := e3
  have e4' : readUint16 e.compile 8 = _ := e4
  have e5' : readUint16 e.compile 10 = _ := e5
  unfold readFrom
  rw [e0', e1', e2', e3', e4', e5']
  simp only
  rw [if_neg (by decide), hoff, hstr, hidx]
  simp only [hidx]
  rw [hmap tiKeys (by decide), hmap tiFuncs (by decide)]
  rfl

/-- An entry with all its strings at the beginning of the table, one absent. -/
def small : Entry :=
  ⟨[0x78, 0], [1], [80], (List.replicate 217 (some 0) ++ [some 3]).set 66 none, [0x1B, 0x41, 0, 0x42, 0]⟩

example : (readFrom small.compile fun _ => []).map (fun t => t.keys.take 3) = some [[], [0x1B, 0x41], [0x1B, 0x41]] := by
  decide +kernel

/-- Negation for **C53**: if the last string of the table has an offset of 256 or more (as in
most entries), absent strings are not read as empty, but as the first string of the table with
a control character before it. -/
theorem absent_not_empty (e : Entry) (h : e.Ok) (ks : List Nat) (i o : Nat) (hi : e.strs[i]? = some none)
    (hl : e.strs.getLast? = some (some o)) (ho : 256 ≤ o) : ∃ s, s ≠ e.value i ∧ readTableString e.compile ks
      (BitVec.ofNat 16 (strOff e + 2 * i)) (BitVec.ofNat 16 (strOff e + 2 * e.strs.length)) = some s := by
  refine ⟨_, ?_, read_absent e h ks i o hi hl⟩
  rw [if_neg (by omega)]
  unfold Spec.Entry.value
  rw [hi]
  simp

/-- An entry as in the negation: `key_f1` is absent. -/
def big : Entry :=
  ⟨[0x78, 0], [1], [80], (List.replicate 217 (some 0) ++ [some 256]).set 66 none, [0x41, 0] ++ List.replicate 300 0⟩

/-- Concrete entry with an absent string, for which something is read nevertheless. -/
theorem absent_witness : (readFrom big.compile fun _ => []).map (fun t => t.keys.take 2) = some [[1, 0x41], [0x41]] ∧
    big.value 66 = [] := by decide +kernel

/-- Negation for **C53**: an entry with fewer strings than are looked for (most entries leave
out the last ones if they are absent) is not read at all, or something is read from the
table. -/
theorem few_strings : readFrom (Entry.compile ⟨[0x78, 0], [], [], [], []⟩) (fun _ => []) = none ∧
    (Entry.Ok ⟨[0x78, 0], [], [], [], []⟩) := by
  refine ⟨by decide +kernel, ⟨by decide +kernel, by simp⟩⟩

/-- Negation for **C53**, for an entry of terminal proportions: with one string only, all keys
are read from the middle of the table. -/
theorem few_strings_junk : (readFrom (Entry.compile ⟨[0x78, 0], [], [], [some 0], 0x41 :: 0 :: List.replicate 500 0⟩) fun _ => []).map
    (fun t => t.keys.take 1) = some [[0x41]] ∧
    Entry.value ⟨[0x78, 0], [], [], [some 0], 0x41 :: 0 :: List.replicate 500 0⟩ 66 = [] := by decide +kernel

/-! ### C71 -/

/-- Components joined by colons. -/
def Spec.colons : List Bytes → Bytes
  | [] => []
  | [d] => d
  | d :: ds => d ++ 0x3A :: Spec.colons ds

theorem splitColon_one (d : Bytes) (h : 0x3A ∉ d) : splitColon d = [d] := by
  induction d with
  | nil => rfl
  | cons c d ih =>
    rw [splitColon, if_neg (by intro hc; exact h (by simp [hc])), ih (fun hc => h (by simp [hc]))]

theorem splitColon_cons (d rest : Bytes) (h : 0x3A ∉ d) : splitColon (d ++ 0x3A :: rest) = d :: splitColon rest := by
  induction d with
  | nil => rw [List.nil_append, splitColon, if_pos rfl]
  | cons c d ih =>
    rw [List.cons_append, splitColon, if_neg (by intro hc; exact h (by simp [hc])), ih (fun hc => h (by simp [hc]))]

theorem splitColon_colons (ds : List Bytes) (hn : ds ≠ []) (h : ∀ d ∈ ds, 0x3A ∉ d) : splitColon (Spec.colons ds) = ds := by
  induction ds with
  | nil => exact absurd rfl hn
  | cons d ds ih =>
    cases ds with
    | nil => exact splitColon_one d (h d (by simp))
    | cons d' ds =>
      rw [Spec.colons, splitColon_cons _ _ (h d (by simp)), ih (by simp) (fun x hx => h x (by simp [hx]))]
      simp

/-- **C71**, the search path: only the directory `TERMINFO` if it is set; else the one in the
user's home, those of `TERMINFO_DIRS` in their order with the default one for an empty one,
and the default one at the end if it is not there. -/
theorem search_path (terminfo : Bytes) (ds : List Bytes) (home : Option Bytes) (hn : ds ≠ []) (h : ∀ d ∈ ds, 0x3A ∉ d) :
    (terminfo ≠ [] → searchPath terminfo (Spec.colons ds) home = [terminfo]) ∧
    (terminfo = [] → searchPath terminfo (Spec.colons ds) home =
      home.toList ++ ds.map (fun d => if d = [] then defaultPath else d) ++ if [] ∈ ds then [] else [defaultPath]) := by
  refine ⟨fun ht => by unfold searchPath; rw [if_pos ht], fun ht => ?_⟩
  unfold searchPath
  rw [if_neg (fun hc => hc ht)]
  simp only
  by_cases hd : Spec.colons ds = []
  · have := splitColon_colons ds hn h
    rw [hd] at this
    rw [hd, ← this]
    simp [splitColon]
  · rw [if_pos hd, splitColon_colons ds hn h]
    split <;> simp

example : searchPath [] (str "/a::/b") (some (str "/h/.terminfo")) =
    [str "/h/.terminfo", str "/a", str "/usr/share/terminfo", str "/b"] := by decide +kernel

/-- There is always somewhere to search. -/
theorem search_path_some (terminfo dirs : Bytes) (home : Option Bytes) : searchPath terminfo dirs home ≠ [] := by
  unfold searchPath
  split
  · simp
  · simp only
    generalize (if dirs ≠ [] then splitColon dirs else []) = ds
    split
    · next h =>
      intro hc
      have := (List.append_eq_nil_iff.mp hc).2
      rw [List.map_eq_nil_iff] at this
      rw [this] at h
      simp at h
    · simp

/-- **C71**, loading: what was loaded before is returned again. -/
theorem load_again (paths paths' : List Bytes) (file file' : Bytes → Sub → Option Bytes) (ks ks' : Nat → List Nat) (term : Bytes)
    (ti : Terminfo) (c : Option Terminfo) (h : (load c paths file ks term).1 = .file ti) :
    load (load c paths file ks term).2 paths' file' ks' term = (.file ti, some ti) := by
  have hb : ∀ ti, getBuiltin term ≠ .file ti := by
    intro ti
    unfold getBuiltin
    split
    · simp
    · split
      · simp
      · split <;> simp
  have h2 : (load c paths file ks term).2 = some ti := by
    revert h
    unfold load
    split
    · intro h
      simp only [Loaded.file.injEq] at h
      rw [h]
    · split
      · intro h; simp at h
      · split
        · split
          · intro h
            simp only [Loaded.file.injEq] at h
            rw [h]
          · intro h; simp at h
        · intro h; exact absurd h (hb ti)
  rw [h2]; rfl

/-- **C71**, loading: the first file there is in the order of the search path is read, and
the builtin entries are used if there is none.  (What is missing: they should be used as well
if the file is not readable, and for no name there should be an error.) -/
theorem load_first_partial (pre post : List Bytes) (p : Bytes) (file : Bytes → Sub → Option Bytes) (ks : Nat → List Nat) (term data : Bytes)
    (ht : term ≠ []) (hpre : ∀ q ∈ pre, ∀ s, file q s = none) :
    (file p .letter = some data → (load none (pre ++ p :: post) file ks term).1 = match readFrom data ks with
      | some ti => .file ti
      | none => .err) ∧
    (file p .letter = none → file p .hex = some data → (load none (pre ++ p :: post) file ks term).1 = match readFrom data ks with
      | some ti => .file ti
      | none => .err) ∧
    (load none pre file ks term).1 = getBuiltin term := by
  have hp : (pre.flatMap fun p => [file p .letter, file p .hex]).find? Option.isSome = none := by
    rw [List.find?_eq_none]
    intro x hx
    obtain ⟨q, h1, h2⟩ := List.mem_flatMap.mp hx
    simp only [hpre q h1, List.mem_cons, List.not_mem_nil, or_false, or_self] at h2
    simp [h2]
  refine ⟨fun h => ?_, fun h h' => ?_, ?_⟩
  · unfold load
    simp only
    rw [if_neg (fun hc => ht hc.1), List.flatMap_append, List.find?_append, hp, List.flatMap_cons]
    simp only [h, Option.none_or, List.cons_append, List.find?_cons, Option.isSome_some]
    cases readFrom data ks <;> rfl
  · unfold load
    simp only
    rw [if_neg (fun hc => ht hc.1), List.flatMap_append, List.find?_append, hp, List.flatMap_cons]
    simp only [h, h', Option.none_or, List.cons_append, List.find?_cons, Option.isSome_some, Option.isSome_none]
    cases readFrom data ks <;> rfl
  · unfold load
    simp only
    rw [if_neg (fun hc => ht hc.1), hp]

/-- Negation for **C71**: for no name there is a panic, not an error. -/
theorem load_empty_panics (terminfo dirs : Bytes) (home : Option Bytes) (file : Bytes → Sub → Option Bytes) (ks : Nat → List Nat) :
    (load none (searchPath terminfo dirs home) file ks []).1 = .panic := by
  unfold load
  simp only
  rw [if_pos ⟨trivial, search_path_some _ _ _⟩]

/-- Negation for **C71**: a file that cannot be read is an error, even if there is a builtin
entry. -/
theorem load_unreadable : (load none [defaultPath] (fun _ _ => some []) (fun _ => []) (str "xterm")).1 = .err ∧
    getBuiltin (str "xterm") = .builtin (str "xterm") := by decide +kernel

/-- The builtin entries: by name, and else by part of the name. -/
theorem builtin_named (term : Bytes) (h : term ∈ builtins) : getBuiltin term = .builtin term := by
  unfold getBuiltin
  rw [if_neg (by intro hc; subst hc; revert h; decide +kernel), if_pos h]

/-- `contains` says whether the one text occurs within the other. -/
theorem contains_iff (s sub : Bytes) : contains s sub = true ↔ ∃ a b, s = a ++ sub ++ b := by
  induction s with
  | nil =>
    rw [contains]
    simp only [Bool.or_false, List.isPrefixOf_iff_prefix, List.prefix_nil]
    constructor
    · intro h; subst h; exact ⟨[], [], rfl⟩
    · rintro ⟨a, b, h⟩
      have := List.append_eq_nil_iff.mp h.symm
      exact (List.append_eq_nil_iff.mp this.1).2
  | cons c s ih =>
    rw [contains]
    simp only [Bool.or_eq_true, List.isPrefixOf_iff_prefix, ih]
    constructor
    · rintro (⟨b, h⟩ | ⟨a, b, h⟩)
      · exact ⟨[], b, h.symm⟩
      · exact ⟨c :: a, b, by rw [h]; rfl⟩
    · rintro ⟨a, b, h⟩
      cases a with
      | nil => exact Or.inl ⟨b, h.symm⟩
      | cons x a =>
        simp only [List.cons_append, List.cons.injEq] at h
        exact Or.inr ⟨a, b, h.2⟩

/-- **C71**, the builtin entries: another name gets the first compatible one that is a part of
it, and an error if there is none. -/
theorem builtin_compat (term : Bytes) (hn : term ≠ []) (h : term ∉ builtins) :
    (∀ n, getBuiltin term = .builtin n ↔ ∃ pre k post, compatTable = pre ++ (k, n) :: post ∧ (∃ a b, term = a ++ k ++ b) ∧
      ∀ c ∈ pre, ¬ ∃ a b, term = a ++ c.1 ++ b) ∧
    (getBuiltin term = .err ↔ ∀ c ∈ compatTable, ¬ ∃ a b, term = a ++ c.1 ++ b) := by
  unfold getBuiltin
  rw [if_neg hn, if_neg h]
  constructor
  · intro n
    cases hf : compatTable.find? (fun c => contains term c.1) with
    | none =>
      simp only [reduceCtorEq, false_iff]
      rintro ⟨pre, k, post, h1, h2, _⟩
      have := List.find?_eq_none.mp hf (k, n) (by rw [h1]; simp)
      exact this ((contains_iff _ _).mpr h2)
    | some c =>
      simp only [Loaded.builtin.injEq]
      obtain ⟨h1, pre, post, h2, h3⟩ := List.find?_eq_some_iff_append.mp hf
      have h3 : ∀ c ∈ pre, ¬ ∃ a b, term = a ++ c.1 ++ b := by
        intro c hc hh
        have := h3 c hc
        rw [(contains_iff _ _).mpr hh] at this
        simp at this
      constructor
      · rintro rfl
        exact ⟨pre, c.1, post, h2, (contains_iff _ _).mp h1, h3⟩
      · rintro ⟨pre', k, post', g1, g2, g3⟩
        have hf' : compatTable.find? (fun c => contains term c.1) = some (k, n) := by
          rw [List.find?_eq_some_iff_append]
          refine ⟨(contains_iff _ _).mpr g2, pre', post', g1, fun c hc => ?_⟩
          simp only [Bool.not_eq_true']
          cases hcc : contains term c.1 with
          | false => rfl
          | true => exact absurd ((contains_iff _ _).mp hcc) (g3 c hc)
        rw [hf] at hf'
        rw [Option.some.inj hf']
  · cases hf : compatTable.find? (fun c => contains term c.1) with
    | none =>
      simp only [true_iff]
      intro c hc hh
      exact List.find?_eq_none.mp hf c hc ((contains_iff _ _).mpr hh)
    | some c =>
      simp only [reduceCtorEq, false_iff]
      intro hall
      obtain ⟨h1, pre, post, h2, h3⟩ := List.find?_eq_some_iff_append.mp hf
      exact hall c (by rw [h2]; simp) ((contains_iff _ _).mp h1)

example : getBuiltin (str "xterm-256color") = .builtin (str "xterm") := by decide +kernel

end Tin
end Anansi
