import Verif.Spec.Attr
import Mathlib.Tactic.IntervalCases
import Mathlib.Tactic.Tauto
/-
C41: terminal attributes.
-/
set_option autoImplicit false

namespace Anansi
namespace Tty

theorem bit_BRKINT (i : Nat) : BRKINT.getLsbD i = decide (i = 1) := by
  by_cases h : i < 32
  · interval_cases i <;> decide
  · rw [BitVec.getLsbD_of_ge _ _ (by omega)]; simp; omega

theorem bit_ICRNL (i : Nat) : ICRNL.getLsbD i = decide (i = 8) := by
  by_cases h : i < 32
  · interval_cases i <;> decide
  · rw [BitVec.getLsbD_of_ge _ _ (by omega)]; simp; omega

theorem bit_INPCK (i : Nat) : INPCK.getLsbD i = decide (i = 4) := by
  by_cases h : i < 32
  · interval_cases i <;> decide
  · rw [BitVec.getLsbD_of_ge _ _ (by omega)]; simp; omega

theorem bit_ISTRIP (i : Nat) : ISTRIP.getLsbD i = decide (i = 5) := by
  by_cases h : i < 32
  · interval_cases i <;> decide
  · rw [BitVec.getLsbD_of_ge _ _ (by omega)]; simp; omega

theorem bit_IXON (i : Nat) : IXON.getLsbD i = decide (i = 10) := by
  by_cases h : i < 32
  · interval_cases i <;> decide
  · rw [BitVec.getLsbD_of_ge _ _ (by omega)]; simp; omega

theorem bit_OPOST (i : Nat) : OPOST.getLsbD i = decide (i = 0) := by
  by_cases h : i < 32
  · interval_cases i <;> decide
  · rw [BitVec.getLsbD_of_ge _ _ (by omega)]; simp; omega

theorem bit_PARENB (i : Nat) : PARENB.getLsbD i = decide (i = 8) := by
  by_cases h : i < 32
  · interval_cases i <;> decide
  · rw [BitVec.getLsbD_of_ge _ _ (by omega)]; simp; omega

theorem bit_ECHO (i : Nat) : ECHO.getLsbD i = decide (i = 3) := by
  by_cases h : i < 32
  · interval_cases i <;> decide
  · rw [BitVec.getLsbD_of_ge _ _ (by omega)]; simp; omega

theorem bit_ICANON (i : Nat) : ICANON.getLsbD i = decide (i = 1) := by
  by_cases h : i < 32
  · interval_cases i <;> decide
  · rw [BitVec.getLsbD_of_ge _ _ (by omega)]; simp; omega

theorem bit_IEXTEN (i : Nat) : IEXTEN.getLsbD i = decide (i = 15) := by
  by_cases h : i < 32
  · interval_cases i <;> decide
  · rw [BitVec.getLsbD_of_ge _ _ (by omega)]; simp; omega

theorem bit_ISIG (i : Nat) : ISIG.getLsbD i = decide (i = 0) := by
  by_cases h : i < 32
  · interval_cases i <;> decide
  · rw [BitVec.getLsbD_of_ge _ _ (by omega)]; simp; omega

theorem bit_CSIZE (i : Nat) : CSIZE.getLsbD i = decide (i = 4 ∨ i = 5) := by
  by_cases h : i < 32
  · interval_cases i <;> decide
  · rw [BitVec.getLsbD_of_ge _ _ (by omega)]; simp; omega

theorem bit_CS8 (i : Nat) : CS8.getLsbD i = decide (i = 4 ∨ i = 5) := by
  by_cases h : i < 32
  · interval_cases i <;> decide
  · rw [BitVec.getLsbD_of_ge _ _ (by omega)]; simp; omega

theorem not_bit (v m : BitVec 32) (i : Nat) : (v &&& ~~~m).getLsbD i = (v.getLsbD i && !m.getLsbD i) := by
  rw [BitVec.getLsbD_and, BitVec.getLsbD_not]
  by_cases h : i < 32
  · simp [h]
  · rw [BitVec.getLsbD_of_ge v _ (by omega)]; simp

/-- The modification is the configured one. -/
theorem modify_configured (a : Attr) (o : Termios) : Configured a.raw a.echo o (a.modify o) := by
  unfold Attr.modify
  cases hr : a.raw <;> cases he : a.echo
  all_goals
    constructor
    all_goals simp only [if_true, if_false, Bool.false_eq_true]
    all_goals first
      | (intro i hi
         simp only [Bool.false_and, Bool.false_eq_true, if_false, Bool.true_and, decide_eq_true_eq, VMIN, VTIME])
      | (intro i
         simp only [not_bit, BitVec.getLsbD_or, bit_BRKINT, bit_ICRNL, bit_INPCK, bit_ISTRIP, bit_IXON, bit_OPOST, bit_PARENB, bit_ECHO, bit_ICANON, bit_IEXTEN, bit_ISIG, bit_CSIZE, bit_CS8,
           Bool.false_and, Bool.not_false, Bool.and_true, Bool.true_and, Bool.false_eq_true, if_false, if_true])
      | simp
  all_goals first
    | (rw [List.getElem?_set, List.getElem?_set, List.length_set]
       split
       · subst i; simp [hi]
       · split
         · subst i; simp [hi]
         · rw [if_neg (by omega), if_neg (by omega)])
    | (by_cases h3 : i = 3
       · subst h3; simp
       · try simp only [h3, if_false, decide_false, Bool.not_false, Bool.and_true, Bool.or_false]
         try rw [Bool.eq_iff_iff]
         try simp
         try tauto)

/-- Setting or clearing the echo flag of modified attributes is modifying with that echo. -/
theorem modify_echo (a : Attr) (o : Termios) (e : Bool) :
    { a.modify o with lflag := if e then (a.modify o).lflag ||| ECHO else (a.modify o).lflag &&& ~~~ECHO } =
      ({ a with echo := e } : Attr).modify o := by
  have hb : ∀ v : BitVec 32, (v &&& ~~~ECHO) ||| ECHO = v ||| ECHO := by
    intro v; apply BitVec.eq_of_getLsbD_eq; intro i hi
    rw [BitVec.getLsbD_or, not_bit, BitVec.getLsbD_or]
    cases v.getLsbD i <;> cases ECHO.getLsbD i <;> rfl
  have hc : ∀ v : BitVec 32, (v ||| ECHO) &&& ~~~ECHO = v &&& ~~~ECHO := by
    intro v; apply BitVec.eq_of_getLsbD_eq; intro i hi
    rw [not_bit, not_bit, BitVec.getLsbD_or]
    cases v.getLsbD i <;> cases ECHO.getLsbD i <;> rfl
  have hd : ∀ v : BitVec 32, v ||| ECHO ||| ECHO = v ||| ECHO := by
    intro v; rw [BitVec.or_assoc]; rfl
  have he : ∀ v : BitVec 32, v &&& ~~~ECHO &&& ~~~ECHO = v &&& ~~~ECHO := by
    intro v; rw [BitVec.and_assoc]; rfl
  unfold Attr.modify
  cases a.echo <;> cases e <;> cases a.raw <;> simp only [if_true, if_false, Bool.false_eq_true, hb, hc, hd, he]

/-- An attribute set in use: it remembers what it found. -/
structure InUse (o : Termios) (s : State) : Prop where
  file : s.at_.file = true
  own : s.at_.own = false
  orig : s.at_.orig = o

theorem call_inUse (o : Termios) (s : State) (c : Call) (h : InUse o s) : InUse o (s.call c).1 := by
  obtain ⟨h1, h2, h3⟩ := h
  cases c with
  | setRaw r ok =>
    unfold State.call State.put
    by_cases h : r = s.at_.raw
    · simp only [h, if_true]; exact ⟨h1, h2, h3⟩
    · simp only [h, if_false, h1, Bool.not_true, Bool.false_eq_true]
      cases ok <;> exact ⟨rfl, h2, h3⟩
  | setEcho r ok =>
    unfold State.call State.put
    by_cases h : r = s.at_.echo
    · simp only [h, if_true]; exact ⟨h1, h2, h3⟩
    · simp only [h, if_false, h1, Bool.not_true, Bool.false_eq_true]
      cases ok <;> exact ⟨rfl, h2, h3⟩

theorem calls_inUse (o : Termios) (l : List Call) : ∀ s : State, InUse o s → InUse o (s.calls l) := by
  induction l with
  | nil => exact fun s h => h
  | cons c l ih => exact fun s h => ih _ (call_inUse o s c h)

/-- In step: the terminal has the configured attributes. -/
structure InStep (o : Termios) (s : State) : Prop where
  use : InUse o s
  cur : s.at_.cur = s.at_.modify o
  tty : s.tty = s.at_.modify o

theorem call_inStep (o : Termios) (s : State) (c : Call) (h : InStep o s) (hc : c.succeeds = true) :
    InStep o (s.call c).1 ∧
      ((s.call c).1.at_.raw, (s.call c).1.at_.echo) = wants s.at_.raw s.at_.echo [c] := by
  obtain ⟨⟨h1, h2, h3⟩, h4, h5⟩ := h
  cases c with
  | setRaw r ok =>
    change ok = true at hc
    subst hc
    unfold State.call State.put
    by_cases h : r = s.at_.raw
    · simp only [h, if_true]; exact ⟨⟨⟨h1, h2, h3⟩, h4, h5⟩, rfl⟩
    · simp only [h, if_false, h1, Bool.not_true, Bool.false_eq_true, if_true]
      refine ⟨⟨⟨rfl, h2, h3⟩, ?_, ?_⟩, rfl⟩
      · rw [h3]; rfl
      · rw [h3]; rfl
  | setEcho r ok =>
    change ok = true at hc
    subst hc
    unfold State.call State.put
    by_cases h : r = s.at_.echo
    · simp only [h, if_true]; exact ⟨⟨⟨h1, h2, h3⟩, h4, h5⟩, rfl⟩
    · simp only [h, if_false, h1, Bool.not_true, Bool.false_eq_true, if_true]
      refine ⟨⟨⟨rfl, h2, h3⟩, ?_, ?_⟩, rfl⟩
      · rw [h4]; exact modify_echo s.at_ o r
      · rw [h4]; exact modify_echo s.at_ o r

theorem calls_inStep (o : Termios) (l : List Call) : ∀ s : State, InStep o s →
    (∀ c ∈ l, c.succeeds = true) →
    InStep o (s.calls l) ∧
      ((s.calls l).at_.raw, (s.calls l).at_.echo) = wants s.at_.raw s.at_.echo l := by
  induction l with
  | nil => exact fun s h _ => ⟨h, rfl⟩
  | cons c l ih =>
    intro s h hc
    have h1 := call_inStep o s c h (hc c (List.mem_cons_self ..))
    have h2 := ih _ h1.1 (fun d hd => hc d (List.mem_cons_of_mem _ hd))
    refine ⟨h2.1, ?_⟩
    show ((((s.call c).1).calls l).at_.raw, (((s.call c).1).calls l).at_.echo) = _
    rw [h2.2]
    have h3 := h1.2
    cases c <;> simp only [wants, Prod.mk.injEq] at h3 ⊢ <;> rw [h3.1, h3.2]

/-- **C41.** Entering on a terminal with any attributes and then making any sequence of
successful changes, the terminal always has its original attributes as configured last. -/
theorem attr_between (a : Attr) (o : Termios) (l : List Call) (ha : a.file = false)
    (hl : ∀ c ∈ l, c.succeeds = true) :
    ((State.mk a o).enter true true true).2 = true ∧
    Configured (wants a.raw a.echo l).1 (wants a.raw a.echo l).2 o
      (((State.mk a o).enter true true true).1.calls l).tty := by
  have he : InStep o ((State.mk a o).enter true true true).1 ∧
      ((State.mk a o).enter true true true).2 = true ∧
      ((State.mk a o).enter true true true).1.at_.raw = a.raw ∧
      ((State.mk a o).enter true true true).1.at_.echo = a.echo := by
    unfold State.enter State.put
    simp only [ha, if_false, Bool.false_eq_true, Bool.not_true, if_true]
    exact ⟨⟨⟨rfl, rfl, rfl⟩, rfl, rfl⟩, trivial, trivial, trivial⟩
  refine ⟨he.2.1, ?_⟩
  have h := calls_inStep o l _ he.1 hl
  rw [he.2.2.1, he.2.2.2] at h
  rw [← h.2, h.1.tty]
  exact modify_configured _ o

/-- **C41.** After entering on any terminal, and any sequence of changes, failing ones
included, exiting leaves exactly the attributes found on entering, and the attributes
forget the file. -/
theorem exit_restores (a : Attr) (o : Termios) (l : List Call) (setOk : Bool) (ha : a.file = false) :
    ((((State.mk a o).enter true true setOk).1.calls l).exit true).1.tty = o ∧
    ((((State.mk a o).enter true true setOk).1.calls l).exit true).2 = true ∧
    ((((State.mk a o).enter true true setOk).1.calls l).exit true).1.at_.file = false := by
  have he : InUse o ((State.mk a o).enter true true setOk).1 := by
    unfold State.enter State.put
    simp only [ha, if_false, Bool.false_eq_true, Bool.not_true]
    cases setOk <;> exact ⟨rfl, rfl, rfl⟩
  obtain ⟨h1, h2, h3⟩ := calls_inUse o l _ he
  unfold State.exit State.put
  simp only [h1, h2, h3, Bool.not_true, Bool.not_false, Bool.false_eq_true, if_false, if_true]
  exact ⟨trivial, trivial, trivial⟩

/-- Without an output file nothing touches the terminal. -/
theorem no_file (a : Attr) (o : Termios) (l : List Call) (g s : Bool) (ha : a.file = false) :
    (((State.mk a o).enter false g s).1.calls l).tty = o := by
  have h : ∀ (l : List Call) (st : State), st.at_.file = false → (st.calls l).tty = st.tty := by
    intro l
    induction l with
    | nil => exact fun _ _ => rfl
    | cons c l ih =>
      intro st hs
      have h1 : (st.call c).1.at_.file = false ∧ (st.call c).1.tty = st.tty := by
        cases c with
        | setRaw r ok =>
          unfold State.call
          by_cases h : r = st.at_.raw <;> simp [h, hs]
        | setEcho r ok =>
          unfold State.call
          by_cases h : r = st.at_.echo <;> simp [h, hs]
      show (((st.call c).1).calls l).tty = st.tty
      rw [ih _ h1.1, h1.2]
  have he : ((State.mk a o).enter false g s).1.at_.file = false ∧
      ((State.mk a o).enter false g s).1.tty = o := by
    unfold State.enter; simp [ha]
  rw [h l _ he.1, he.2]

/-- A failed change to raw mode is remembered as made: asking again reports success, and
the terminal never becomes raw. -/
theorem failed_raw_not_retried (o : Termios) :
    let s := ((State.mk {} o).enter true true true).1
    (s.call (.setRaw true false)).2 = false ∧
    (((s.call (.setRaw true false)).1).call (.setRaw true true)).2 = true ∧
    (((s.call (.setRaw true false)).1).call (.setRaw true true)).1.tty = s.tty := by
  simp only [State.enter, State.call, State.put, Bool.false_eq_true, if_false, if_true, Bool.not_true,
    Bool.true_eq_false]
  exact ⟨trivial, trivial, trivial⟩

/-- When the attributes cannot be read on entering, exiting sets all attributes to zero. -/
theorem failed_enter_zeroes (o : Termios) :
    (((State.mk {} o).enter true false true).1.exit true).1.tty = {} := by
  simp [State.enter, State.exit, State.put]

/-- The hypotheses are met: raw mode with echo on a terminal in its usual mode. -/
example : (((State.mk {} { iflag := 0x500, oflag := 5, cflag := 0xbf, lflag := 0x8a3b, cc := [3, 28, 127, 21, 4, 0, 1] }).enter
    true true true).1.calls [.setRaw true true, .setEcho true true]).tty =
    { iflag := 0, oflag := 4, cflag := 0xbf, lflag := 0xa38, cc := [3, 28, 127, 21, 4, 0, 1] } := by
  decide

end Tty
end Anansi
