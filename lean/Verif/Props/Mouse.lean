import Verif.Model.Mouse
import Verif.Spec.Mouse
import Verif.Props.Numbers
/-
C57 Mouse reports decode exactly.
-/
set_option autoImplicit false

namespace Anansi
namespace Mouse
open Spec

/-- The argument bytes of a report: `<Cb;Cx;Cy`. -/
def reportArg (cb x y : Nat) : Bytes := 0x3C :: (itoaNat cb ++ (0x3B :: (itoaNat x ++ (0x3B :: itoaNat y))))

/-- The final byte: `M` for a press, `m` for a release. -/
def reportId (released : Bool) : Nat := if released then csiId 0x6D else csiId 0x4D

theorem reportId_cases (rel : Bool) : (reportId rel = csiId 0x4D ∨ reportId rel = csiId 0x6D) := by
  cases rel
  · exact Or.inl rfl
  · exact Or.inr rfl

theorem noDigit_sep (t : Bytes) : noDigit (0x3B :: t) := by
  intro d h
  simp only [List.head?_cons, Option.some.injEq] at h
  subst h; right; decide

theorem noDigit_nil : noDigit [] := by intro d h; cases h

/-- **C57**: every report of a code up to 255 at a point up to 2^32-1 in each direction
decodes without error to that point, and to the code with the release bit added for a
release. -/
theorem decode_report (cb x y : Nat) (rel : Bool) (hb : cb ≤ 255) (hx : x ≤ 2 ^ 32 - 1) (hy : y ≤ 2 ^ 32 - 1) :
    decodeMouse (reportId rel) (reportArg cb x y) =
      (if rel then BitVec.ofNat 8 cb ||| release else BitVec.ofNat 8 cb, ⟨x, y⟩, none) := by
  unfold decodeMouse reportArg
  rw [if_pos ⟨reportId_cases rel, rfl⟩]
  have e1 := decodeNumber_itoa cb (0x3B :: (itoaNat x ++ (0x3B :: itoaNat y))) (by unfold numMaxVal; omega)
    (noDigit_sep _)
  simp only [List.drop_succ_cons, List.drop_zero, e1]
  rw [if_neg (by simp; omega)]
  rw [List.drop_left]
  have e2 := decodeNumber_sep_itoa x (0x3B :: itoaNat y) (by unfold numMaxVal; omega) (noDigit_sep _)
  simp only [e2]
  rw [if_neg (by simp)]
  have hd : List.drop (1 + (itoaNat x).length) (0x3B :: (itoaNat x ++ (0x3B :: itoaNat y))) = 0x3B :: itoaNat y := by
    rw [Nat.add_comm, List.drop_succ_cons, List.drop_left]
  rw [hd]
  have e3 := decodeNumber_sep_itoa y [] (by unfold numMaxVal; omega) noDigit_nil
  rw [List.append_nil] at e3
  simp only [e3]
  rw [if_neg (by simp), if_neg (by simp; omega)]
  have hi : BitVec.ofInt 8 (cb : Int) = BitVec.ofNat 8 cb := BitVec.ofInt_natCast 8 cb
  rw [hi]
  cases rel
  · rw [if_neg (by decide), if_neg (by decide)]
  · rw [if_pos (show reportId true = csiId 0x6D from rfl), if_pos rfl]

example : decodeMouse (reportId true) (reportArg 34 120 7) = (34 ||| 128, ⟨120, 7⟩, none) :=
  decode_report 34 120 7 true (by decide) (by decide) (by decide)

/-- The state a report stands for. -/
def stateOf (r : MouseReport) : MState :=
  if r.released then BitVec.ofNat 8 r.code ||| release else BitVec.ofNat 8 r.code

theorem code_lt (r : MouseReport) : r.code < 128 := by
  have key : ∀ b s m c mv, mouseCode b s m c mv < 128 := by
    intro b s m c mv
    cases b <;> cases s <;> cases m <;> cases c <;> cases mv <;> decide
  exact key _ _ _ _ _

/-- **C57**: the state decoded from any report of a button or of the upright wheel has
exactly the reported button, modifiers, motion and release; it is a press just if it is
neither a motion nor a release, and a drag just if it is a motion with a button held. -/
theorem report_features_partial (r : MouseReport) (hx : r.x ≤ 2 ^ 32 - 1) (hy : r.y ≤ 2 ^ 32 - 1)
    (hb : r.button ≠ .wheelRight) :
    ∃ ms, decodeMouse (reportId r.released) (reportArg r.code r.x r.y) = (ms, ⟨r.x, r.y⟩, none) ∧
      (buttonID ms).toNat = r.button.number ∧
      (modifier ms &&& modShift ≠ 0 ↔ r.shift) ∧ (modifier ms &&& modMeta ≠ 0 ↔ r.meta') ∧
      (modifier ms &&& modControl ≠ 0 ↔ r.control) ∧
      modifier ms &&& ~~~(modShift ||| modMeta ||| modControl) = 0 ∧
      (isMotion ms ↔ r.moved) ∧ (isRelease ms ↔ r.released) ∧
      isPress ms = (if r.moved || r.released then none else some (BitVec.ofNat 8 r.button.number)) ∧
      (isDrag ms ↔ r.moved ∧ ¬ r.released ∧ r.button ≠ .none) := by
  refine ⟨stateOf r, decode_report r.code r.x r.y r.released (by have := code_lt r; omega) hx hy, ?_⟩
  have key : ∀ b s m c mv rel, b ≠ MouseButton.wheelRight →
      ∀ ms, ms = (if rel = true then BitVec.ofNat 8 (mouseCode b s m c mv) ||| release
        else BitVec.ofNat 8 (mouseCode b s m c mv)) →
      (buttonID ms).toNat = b.number ∧
      (modifier ms &&& modShift ≠ 0 ↔ s = true) ∧ (modifier ms &&& modMeta ≠ 0 ↔ m = true) ∧
      (modifier ms &&& modControl ≠ 0 ↔ c = true) ∧
      modifier ms &&& ~~~(modShift ||| modMeta ||| modControl) = 0 ∧
      (isMotion ms ↔ mv = true) ∧ (isRelease ms ↔ rel = true) ∧
      isPress ms = (if mv || rel then none else some (BitVec.ofNat 8 b.number)) ∧
      (isDrag ms ↔ mv = true ∧ ¬ rel = true ∧ b ≠ .none) := by
    intro b s m c mv rel hb ms hms
    subst hms
    cases b <;> cases s <;> cases m <;> cases c <;> cases mv <;> cases rel <;>
      first
      | exact absurd rfl hb
      | decide
  exact key _ _ _ _ _ _ hb _ rfl

/-- Negation for **C57**: a report of the wheel's fourth direction is taken for one of the
right button, whatever the modifiers. -/
theorem wheel_right_is_right (r : MouseReport) (hb : r.button = .wheelRight) :
    buttonID (stateOf r) = buttonID (stateOf { r with button := .right }) := by
  have key : ∀ s m c mv rel,
      buttonID (if rel = true then BitVec.ofNat 8 (mouseCode .wheelRight s m c mv) ||| release
        else BitVec.ofNat 8 (mouseCode .wheelRight s m c mv)) =
      buttonID (if rel = true then BitVec.ofNat 8 (mouseCode .right s m c mv) ||| release
        else BitVec.ofNat 8 (mouseCode .right s m c mv)) := by decide
  unfold stateOf MouseReport.code
  rw [hb]
  exact key _ _ _ _ _

/-- Negation for **C57**: pressing one of the buttons xterm reports with codes from 128 on
looks like a release, and never like a press. -/
theorem extra_button_is_release (cb : Nat) (h : 128 ≤ cb) (h' : cb ≤ 255) :
    isRelease (decodeMouse (reportId false) (reportArg cb 1 1)).1 = true ∧
    isPress (decodeMouse (reportId false) (reportArg cb 1 1)).1 = none := by
  rw [decode_report cb 1 1 false h' (by decide) (by decide)]
  simp only [Bool.false_eq_true, if_false]
  have key : ∀ b : BitVec 8, 128 ≤ b.toNat → isRelease b = true ∧ isPress b = none := by decide
  apply key
  rw [BitVec.toNat_ofNat]; omega

/-! ### Malformed reports -/

/-- How a number may be written: an optional separator, an optional sign, digits. -/
def NumText (t : Bytes) : Prop :=
  ∃ (sep : Bool) (sg : Sign) (ds : Bytes), t = sepText sep ++ sg.text ++ ds ∧ ∀ b ∈ ds, IsDigit b

theorem numLoop_text (neg : Bool) (l : Bytes) : ∀ (un k : Nat), ∃ ds rest, l = ds ++ rest ∧ (∀ b ∈ ds, IsDigit b) ∧
    (numLoop neg un k l).n = k + ds.length := by
  induction l with
  | nil => intro un k; exact ⟨[], [], rfl, by simp, rfl⟩
  | cons c t ih =>
    intro un k
    have hcut : ¬ (numMaxVal ≥ numCutoff) := by decide
    have hcut' : ¬ (numMaxVal > numCutoff) := by decide
    simp only [numLoop]
    by_cases hc : c.toNat < 0x30 ∨ 0x39 < c.toNat
    · rw [if_pos hc]; exact ⟨[], c :: t, rfl, by simp, rfl⟩
    · rw [if_neg hc]
      simp only [hcut, hcut', decide_false, Bool.and_false, Bool.false_eq_true, if_false, ite_self]
      obtain ⟨ds, rest, h1, h2, h3⟩ := ih (numStep un (c.toNat - 0x30)).1 (k + 1)
      refine ⟨c :: ds, rest, by rw [h1]; rfl, ?_, ?_⟩
      · intro b hb
        rcases List.mem_cons.mp hb with rfl | hb
        · unfold IsDigit; omega
        · exact h2 b hb
      · rw [h3, List.length_cons]; omega

theorem numSign_text (k : Nat) (l : Bytes) (h : (numSign k l).err = none) : ∃ (sg : Sign) (ds rest : Bytes),
    l = sg.text ++ ds ++ rest ∧ (∀ b ∈ ds, IsDigit b) ∧ (numSign k l).n = k + (sg.text ++ ds).length := by
  match l with
  | [] => simp [numSign] at h
  | c :: t =>
    by_cases hc : c = 0x2D ∨ c = 0x2B
    · by_cases ht : t = []
      · simp [numSign, hc, ht] at h
      · have e : numSign k (c :: t) = numLoop (c = 0x2D) 0 (k + 1) t := by
          simp only [numSign, hc, if_true, ht, if_false]
        rw [e]
        obtain ⟨ds, rest, h1, h2, h3⟩ := numLoop_text (c = 0x2D) t 0 (k + 1)
        rcases hc with rfl | rfl
        · exact ⟨.minus, ds, rest, by rw [h1]; rfl, h2, by rw [h3]; simp [Sign.text]; omega⟩
        · exact ⟨.plus, ds, rest, by rw [h1]; rfl, h2, by rw [h3]; simp [Sign.text]; omega⟩
    · have e : numSign k (c :: t) = numLoop false 0 k (c :: t) := by
        simp only [numSign, hc, if_false]
      rw [e]
      obtain ⟨ds, rest, h1, h2, h3⟩ := numLoop_text false (c :: t) 0 k
      exact ⟨.none, ds, rest, h1, h2, h3⟩

/-- What `decodeNumber` reads is the text of a number. -/
theorem decodeNumber_text (p : Bytes) (h : (decodeNumber p).err = none) :
    ∃ t rest, p = t ++ rest ∧ NumText t ∧ p.drop (decodeNumber p).n = rest := by
  match p with
  | [] => simp [decodeNumber] at h
  | c :: l =>
    by_cases hc : c = 0x3B
    · subst hc
      have e : decodeNumber (0x3B :: l) = numSign 1 l := by simp [decodeNumber]
      rw [e] at h ⊢
      obtain ⟨sg, ds, rest, h1, h2, h3⟩ := numSign_text 1 l h
      refine ⟨0x3B :: (sg.text ++ ds), rest, by rw [h1]; simp, ⟨true, sg, ds, rfl, h2⟩, ?_⟩
      rw [h3, h1]
      have : 1 + (sg.text ++ ds).length = (0x3B :: (sg.text ++ ds)).length := by rw [List.length_cons, Nat.add_comm]
      rw [this]
      exact List.drop_left
    · have e : decodeNumber (c :: l) = numSign 0 (c :: l) := by simp [decodeNumber, hc]
      rw [e] at h ⊢
      obtain ⟨sg, ds, rest, h1, h2, h3⟩ := numSign_text 0 (c :: l) h
      refine ⟨sg.text ++ ds, rest, h1, ⟨false, sg, ds, rfl, h2⟩, ?_⟩
      rw [h3, h1, Nat.zero_add]
      exact List.drop_left

/-- **C57**: a report accepted without error consists of `<` and three numbers, the first
between 0 and 255, and nothing else; every other argument beginning with `<` is rejected.
Each number may lack its digits or have a sign, or the first a separator (which the
documentation does not allow): see `accepts_odd`. -/
theorem accepts_only_partial (id : Nat) (t : Bytes) (hid : id = csiId 0x4D ∨ id = csiId 0x6D)
    (h : (decodeMouse id (0x3C :: t)).2.2 = none) :
    ∃ t1 t2 t3, t = t1 ++ t2 ++ t3 ∧ NumText t1 ∧ NumText t2 ∧ NumText t3 ∧
      0 ≤ (decodeNumber t).val ∧ (decodeNumber t).val ≤ 255 := by
  unfold decodeMouse at h
  rw [if_pos ⟨hid, rfl⟩] at h
  simp only [List.drop_succ_cons, List.drop_zero] at h
  split at h
  · cases h
  · rename_i h1
    rw [not_or, not_or, Classical.not_not] at h1
    split at h
    · cases h
    · rename_i h2
      rw [Classical.not_not] at h2
      split at h
      · cases h
      · rename_i h3
        rw [Classical.not_not] at h3
        split at h
        · cases h
        · rename_i h4
          obtain ⟨t1, r1, e1, n1, d1⟩ := decodeNumber_text t h1.1
          rw [d1] at h2 h3 h4
          obtain ⟨t2, r2, e2, n2, d2⟩ := decodeNumber_text r1 h2
          rw [d2] at h3 h4
          obtain ⟨t3, r3, e3, n3, d3⟩ := decodeNumber_text r2 h3
          rw [d3] at h4
          have h4 : r3 = [] := List.length_eq_zero_iff.mp (by omega)
          subst h4
          exact ⟨t1, t2, t3, by rw [e1, e2, e3, List.append_nil, List.append_assoc], n1, n2, n3, by omega, by omega⟩

/-- In particular any byte other than digits, separators and signs is rejected. -/
theorem rejects_byte (id : Nat) (t : Bytes) (c : UInt8) (hid : id = csiId 0x4D ∨ id = csiId 0x6D) (hc : c ∈ t)
    (h1 : ¬ IsDigit c) (h2 : c ≠ 0x3B) (h3 : c ≠ 0x2B) (h4 : c ≠ 0x2D) :
    (decodeMouse id (0x3C :: t)).2.2 ≠ none := by
  intro h
  obtain ⟨t1, t2, t3, rfl, n1, n2, n3, _⟩ := accepts_only_partial id t hid h
  have key : ∀ t, NumText t → c ∉ t := by
    rintro t ⟨sep, sg, ds, rfl, hd⟩ hm
    rcases List.mem_append.mp hm with hm | hm
    · rcases List.mem_append.mp hm with hm | hm
      · cases sep
        · cases hm
        · exact h2 (List.mem_singleton.mp hm)
      · cases sg
        · cases hm
        · exact h3 (List.mem_singleton.mp hm)
        · exact h4 (List.mem_singleton.mp hm)
    · exact h1 (hd c hm)
  rcases List.mem_append.mp hc with hm | hm
  · rcases List.mem_append.mp hm with hm | hm
    · exact key t1 n1 hm
    · exact key t2 n2 hm
  · exact key t3 n3 hm

example : (decodeMouse (csiId 0x4D) [0x3C, 0x30, 0x3B, 0x31, 0x78, 0x3B, 0x32]).2.2 ≠ none :=
  rejects_byte _ _ 0x78 (Or.inl rfl) (by simp) (by unfold IsDigit; decide) (by decide) (by decide) (by decide)

/-- Negation for **C57**: the malformed report `<;-0;;+5` is accepted, and so is one whose
column is too large to be read. -/
theorem accepts_odd :
    decodeMouse (csiId 0x4D) [0x3C, 0x3B, 0x2D, 0x30, 0x3B, 0x3B, 0x2B, 0x35] = (0, ⟨0, 5⟩, none) ∧
    decodeMouse (csiId 0x4D) (reportArg 0 (2 ^ 32) 1) = (0, ⟨4294967290, 1⟩, none) := by
  constructor
  · decide
  · decide +kernel

/-- Sequences that are not extended mouse reports are not touched. -/
theorem not_a_report (id : Nat) (arg : Bytes)
    (h : (id ≠ csiId 0x4D ∧ id ≠ csiId 0x6D) ∨ arg.head? ≠ some 0x3C) : decodeMouse id arg = (0, ⟨0, 0⟩, none) := by
  unfold decodeMouse
  rw [if_neg]
  rintro ⟨h1, h2⟩
  rcases h with ⟨h3, h4⟩ | h
  · rcases h1 with h1 | h1
    · exact h3 h1
    · exact h4 h1
  · exact h h2

end Mouse
end Anansi
