import Verif.Model.EscName
import Mathlib.Data.List.Nodup
/-
C75: escape identifiers name what they identify.
-/
set_option autoImplicit false

namespace Anansi

/-- C75: an identifier has an escape sequence name exactly when it was made from that
byte, a byte from 0x01 to 0x7E. -/
theorem esc_name_iff (id : Nat) (b : UInt8) :
    escName id = some b ↔ id = escId b ∧ 0 < b.toNat ∧ b.toNat < 0x7F := by
  have hb := b.toNat_lt
  unfold escName escId
  constructor
  · intro h
    split at h
    · rename_i hr
      simp only [Bool.and_eq_true, decide_eq_true_eq] at hr
      simp only [Option.some.injEq] at h
      have : b.toNat = id % 128 := by rw [← h, UInt8.toNat_ofNat']; omega
      omega
    · simp at h
  · rintro ⟨h1, h2, h3⟩
    rw [if_pos (by simp; omega)]
    rw [Option.some.injEq]
    apply UInt8.toNat_inj.mp
    rw [UInt8.toNat_ofNat']; omega

/-- C75: an identifier has a control sequence name exactly when it was made from that
byte, a byte from 0x01 to 0x7E. -/
theorem csi_name_iff (id : Nat) (b : UInt8) :
    csiName id = some b ↔ id = csiId b ∧ 0 < b.toNat ∧ b.toNat < 0x7F := by
  have hb := b.toNat_lt
  unfold csiName csiId
  constructor
  · intro h
    split at h
    · rename_i hr
      simp only [Bool.and_eq_true, decide_eq_true_eq] at hr
      simp only [Option.some.injEq] at h
      have : b.toNat = id % 128 := by rw [← h, UInt8.toNat_ofNat']; omega
      omega
    · simp at h
  · rintro ⟨h1, h2, h3⟩
    rw [if_pos (by simp; omega)]
    rw [Option.some.injEq]
    apply UInt8.toNat_inj.mp
    rw [UInt8.toNat_ofNat']; omega

example : escName (escId 0x4D) = some 0x4D ∧ csiName (csiId 0x6D) = some 0x6D ∧
    csiName (escId 0x4D) = none := by decide

/-- C75: escape and control sequence identifiers are the identifiers that are escapes,
and no identifier is both. -/
theorem escape_ids (b c : UInt8) :
    isEscape (escId b) = true ∧ isEscape (csiId b) = true ∧ escId b ≠ csiId c ∧
      (∀ id, isEscape id = true → ∃ b, id = escId b ∨ id = csiId b) := by
  have hb := b.toNat_lt
  have hc := c.toNat_lt
  have h1 : 0xEF00 ≤ escId b ∧ escId b ≤ 0xEFFF := by unfold escId; omega
  have h2 : 0xEF00 ≤ csiId b ∧ csiId b ≤ 0xEFFF := by unfold csiId; omega
  refine ⟨by simp [isEscape, h1], by simp [isEscape, h2],
    by unfold escId csiId; omega, fun id h => ?_⟩
  simp only [isEscape, Bool.and_eq_true, decide_eq_true_eq] at h
  refine ⟨UInt8.ofNat (id % 128), ?_⟩
  unfold escId csiId
  rw [UInt8.toNat_ofNat']
  omega

/-- A code point that is a control, an escape sequence or a control sequence, with a
final or intermediate byte that such a sequence can have. -/
def Control (id : Nat) : Prop :=
  id ≤ 0x1F ∨ id = 0x7F ∨ (0x80 ≤ id ∧ id ≤ 0x9F) ∨ (0xEF20 ≤ id ∧ id ≤ 0xEF7F) ∨
    (0xEFC0 ≤ id ∧ id ≤ 0xEFFF)

/-- A printed form whose first byte is not a quote, by the number printed. -/
theorem control_string (quote : Nat → Bytes) (id : Nat) (h : Control id) :
    ∃ s, escString quote id = some s ∧ s.head? ≠ some 0x27 := by
  unfold Control at h
  unfold escString
  split
  · exact ⟨_, rfl, by simp⟩
  split
  · exact ⟨_, rfl, by decide⟩
  split
  · rename_i h1 h2 h3
    have hl : id - 0x80 < c1Names.length := by
      have : c1Names.length = 32 := by decide +kernel
      omega
    refine ⟨_, List.getElem?_eq_getElem hl, ?_⟩
    have : ∀ s ∈ c1Names, s.head? ≠ some 0x27 := by decide +kernel
    exact this _ (List.getElem_mem _)
  split
  · exact ⟨_, rfl, by simp [ascii]⟩
  split
  · exact ⟨_, rfl, by simp [ascii]⟩
  split
  · exact ⟨_, rfl, by decide +kernel⟩
  split
  · exact ⟨_, rfl, by decide +kernel⟩
  · omega

/-- All of them. -/
def controls : List Nat :=
  List.range 0x20 ++ [0x7F] ++ (List.range 0x20).map (0x80 + ·) ++
    (List.range 0x60).map (0xEF20 + ·) ++ (List.range 0x40).map (0xEFC0 + ·)

theorem mem_controls (id : Nat) (h : Control id) : id ∈ controls := by
  unfold Control at h
  simp only [controls, List.mem_append, List.mem_range, List.mem_singleton, List.mem_map]
  rcases h with h | h | h | h | h
  · left; left; left; left; omega
  · left; left; left; right; omega
  · left; left; right; exact ⟨id - 0x80, by omega, by omega⟩
  · left; right; exact ⟨id - 0xEF20, by omega, by omega⟩
  · right; exact ⟨id - 0xEFC0, by omega, by omega⟩

theorem control_quote (q q' : Nat → Bytes) (id : Nat) (h : Control id) :
    escString q id = escString q' id := by
  unfold Control at h
  unfold escString
  repeat' split
  all_goals first | rfl | omega

theorem controls_nodup : (controls.map (escString fun _ => [])).Nodup := by decide +kernel

theorem control_inj (q : Nat → Bytes) (a b : Nat) (ha : Control a) (hb : Control b)
    (h : escString q a = escString q b) : a = b := by
  rw [control_quote q (fun _ => []) a ha, control_quote q (fun _ => []) b hb] at h
  exact List.inj_on_of_nodup_map controls_nodup (mem_controls a ha) (mem_controls b hb) h

theorem other_string (q : Nat → Bytes) (id : Nat) (h : ¬ Control id) :
    escString q id = some (q id) := by
  unfold Control at h
  unfold escString
  rw [if_neg (by omega), if_neg (by omega), if_neg (by omega), if_neg (by omega), if_neg (by omega),
    if_neg (by omega), if_neg (by omega)]

/-- C75: no identifier fails to print, and two different ones never print alike, given
only that quoted runes start with a quote and that different valid runes are quoted
differently. -/
theorem escape_string_injective (quote : Nat → Bytes) (valid : Nat → Prop)
    (hq : ∀ r, (quote r).head? = some 0x27)
    (hi : ∀ r r', valid r → valid r' → quote r = quote r' → r = r')
    (id id' : Nat) (hv : valid id) (hv' : valid id') :
    (escString quote id).isSome ∧
    (escString quote id = escString quote id' → id = id') := by
  have key : ∀ a b, Control a → ¬ Control b → escString quote a ≠ escString quote b := by
    intro a b ha hb h
    obtain ⟨s, h1, h2⟩ := control_string quote a ha
    rw [h1, other_string quote b hb, Option.some.injEq] at h
    exact h2 (by rw [h]; exact hq b)
  constructor
  · by_cases h : Control id
    · obtain ⟨s, h1, _⟩ := control_string quote id h
      simp [h1]
    · simp [other_string quote id h]
  · intro h
    by_cases h1 : Control id <;> by_cases h2 : Control id'
    · exact control_inj quote id id' h1 h2 h
    · exact absurd h (key _ _ h1 h2)
    · exact absurd h.symm (key _ _ h2 h1)
    · rw [other_string quote id h1, other_string quote id' h2, Option.some.injEq] at h
      exact hi _ _ hv hv' h

example : ∃ quote : Nat → Bytes, (∀ r, (quote r).head? = some 0x27) ∧
    ∀ r r', quote r = quote r' → r = r' :=
  ⟨fun r => 0x27 :: List.replicate r 0, fun r => rfl, fun r r' h => by
    have := congrArg List.length h; simpa using this⟩

/-- The standard names of the C1 controls (ECMA-48, with ISO 6429's reserved ones shown by
the letter of their `ESC` form). -/
def c1Name (b : Nat) : String :=
  match b with
  | 0x84 => "IND" | 0x85 => "NEL" | 0x86 => "SSA" | 0x87 => "ESA" | 0x88 => "HTS" | 0x89 => "HTJ"
  | 0x8A => "VTS" | 0x8B => "PLD" | 0x8C => "PLU" | 0x8D => "RI" | 0x8E => "SS2" | 0x8F => "SS3"
  | 0x90 => "DCS" | 0x91 => "PU1" | 0x92 => "PU2" | 0x93 => "STS" | 0x94 => "CCH" | 0x95 => "MW"
  | 0x96 => "SPA" | 0x97 => "EPA" | 0x9B => "CSI" | 0x9C => "ST" | 0x9D => "OSC" | 0x9E => "PM" | 0x9F => "APC"
  | n => "RES" ++ String.singleton (Char.ofNat (n - 0x40))

/-- C75: what is printed for each identifier that is not a plain rune: a C0 control as a
caret and the key typed with control, a C1 control by its standard name, an escape or a
control sequence by its byte, and the invalid ones as such. -/
theorem printed_forms (quote : Nat → Bytes) :
    (∀ id, id ≤ 0x1F → escString quote id = some [0x5E, UInt8.ofNat (id + 0x40)]) ∧
    escString quote 0x7F = some [0x5E, 0x3F] ∧
    (∀ id, 0x80 ≤ id → id ≤ 0x9F → escString quote id = some (ascii ("<" ++ c1Name id ++ ">"))) ∧
    (∀ b : UInt8, 0x20 ≤ b.toNat → b.toNat ≤ 0x7E → escString quote (escId b) = some (ascii "ESC+" ++ [b])) ∧
    (∀ b : UInt8, 0x40 ≤ b.toNat → b.toNat ≤ 0x7E → escString quote (csiId b) = some (ascii "CSI+" ++ [b])) ∧
    escString quote 0xEF7F = some (ascii "ESC+INVALID") ∧ escString quote 0xEFFF = some (ascii "CSI+INVALID") := by
  refine ⟨?_, rfl, ?_, ?_, ?_, rfl, rfl⟩
  · intro id h
    unfold escString
    rw [if_pos h]
    have : ∀ id, id < 0x20 → (0x40 ^^^ id) = id + 0x40 := by decide +kernel
    rw [this id (by omega)]
  · intro id h1 h2
    unfold escString
    rw [if_neg (by omega), if_neg (by omega), if_pos ⟨h1, h2⟩]
    have : ∀ k, k < 0x20 → c1Names[k]? = some (ascii ("<" ++ c1Name (0x80 + k) ++ ">")) := by decide +kernel
    rw [this _ (by omega), show 0x80 + (id - 0x80) = id by omega]
  · intro b h1 h2
    have : escId b = 0xEF00 + b.toNat := by unfold escId; omega
    unfold escString
    rw [if_neg (by omega), if_neg (by omega), if_neg (by omega), if_pos (by omega), this]
    have : UInt8.ofNat ((0xEF00 + b.toNat) % 256) = b := by
      apply UInt8.toNat_inj.mp; rw [UInt8.toNat_ofNat']; omega
    rw [this]
  · intro b h1 h2
    have : csiId b = 0xEF80 + b.toNat := by unfold csiId; omega
    unfold escString
    rw [if_neg (by omega), if_neg (by omega), if_neg (by omega), if_neg (by omega), if_pos (by omega), this]
    have : UInt8.ofNat ((0xEF80 + b.toNat) % 128) = b := by
      apply UInt8.toNat_inj.mp; rw [UInt8.toNat_ofNat']; omega
    rw [this]

/-- C75: what the printed forms say, on one identifier of each kind. -/
example : escString (fun _ => []) 0x1B = some (ascii "^[") ∧
    escString (fun _ => []) 0x9B = some (ascii "<CSI>") ∧
    escString (fun _ => []) (escId 0x4D) = some (ascii "ESC+M") ∧
    escString (fun _ => []) (csiId 0x6D) = some (ascii "CSI+m") := by decide +kernel

end Anansi
