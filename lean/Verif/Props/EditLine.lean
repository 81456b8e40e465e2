import Verif.Lemmas.Runes
import Verif.Spec.EditLine
/-
C48 Line editor implements text editing; C65 Enter and Escape end the editing.
-/
set_option autoImplicit false

namespace Anansi
namespace Edl
open Evq Spec

/-- The line of the code holds a text and a cursor within it. -/
structure Holds (l : EditLine) (s : Line) : Prop where
  buf : l.buf = encodeRunes s.text
  valid : ∀ r ∈ s.text, validRune r = true
  cur : l.cur = s.cur
  ok : s.Ok

/-- What an event means to a line editor. -/
def keyOf (gr : Nat → Bool) (e : Ev) : Key :=
  match e.kind with
  | .rune => if gr e.esc then .type e.esc else if e.esc = 0x7F then .back else .other
  | .escape => match decodeCursorCardinal e.esc e.arg with
    | some d => .move d.x
    | none => .other
  | _ => .other

theorem press_ok (s : Line) (k : Key) (h : s.Ok) : (s.press k).Ok := by
  unfold Line.Ok at h ⊢
  cases k with
  | type r => simp [Line.press]; omega
  | back => simp [Line.press]; omega
  | move d => simp only [Line.press]; exact Nat.min_le_right _ _
  | other => exact h

theorem press_valid (s : Line) (k : Key) (h : ∀ r ∈ s.text, validRune r = true)
    (hk : ∀ r, k = .type r → validRune r = true) : ∀ r ∈ (s.press k).text, validRune r = true := by
  cases k with
  | type c =>
    intro r hr
    simp only [Line.press, List.mem_append, List.mem_cons] at hr
    rcases hr with hr | rfl | hr
    · exact h r (List.mem_of_mem_take hr)
    · exact hk r rfl
    · exact h r (List.mem_of_mem_drop hr)
  | back =>
    intro r hr
    simp only [Line.press, List.mem_append] at hr
    rcases hr with hr | hr
    · exact h r (List.mem_of_mem_take hr)
    · exact h r (List.mem_of_mem_drop hr)
  | move d => exact h
  | other => exact h

/-- Cutting the bytes of a text at a rune. -/
theorem cut_at (text : List Nat) (b : Bytes) (k : Nat) (_ : k ≤ text.length) :
    (encodeRunes text ++ b).take ((encodeRunes text ++ b).length - (encodeRunes (text.drop k) ++ b).length) =
      encodeRunes (text.take k) := by
  have e : encodeRunes text = encodeRunes (text.take k) ++ encodeRunes (text.drop k) := by
    rw [← encodeRunes_append, List.take_append_drop]
  rw [e, List.append_assoc]
  simp

/-- **C48**, typing: a typed character is inserted at the cursor, wherever it is and
whatever the text. -/
theorem insert_holds (gr : Nat → Bool) (l : EditLine) (s : Line) (e : Ev) (h : Holds l s)
    (hk : e.kind = .rune) (hg : gr e.esc = true) (hv : validRune e.esc = true) :
    Holds (l.handleGraphicRune gr e).1 (s.press (.type e.esc)) ∧ (l.handleGraphicRune gr e).2 = e.struck := by
  unfold EditLine.handleGraphicRune
  rw [if_neg (by simp [hk, hg])]
  refine ⟨⟨?_, ?_, ?_, press_ok _ _ h.ok⟩, rfl⟩
  · simp only
    have hn : runeCount l.buf = s.text.length := by rw [h.buf]; exact runeCount_encodeRunes _ h.valid
    have hc : l.cur.toNat = s.cur := by rw [h.cur]; rfl
    have hok : s.cur ≤ s.text.length := h.ok
    rw [hn, hc, h.cur, h.buf]
    by_cases hlt : (s.cur : Int) < s.text.length
    · rw [if_pos hlt, skipRunes_encodeRunes _ _ _ h.valid hok, cut_at _ _ _ hok]
      simp only [Line.press, encodeRunes_append, encodeRunes_cons]
      congr 2
      simp
    · rw [if_neg hlt]
      have he : s.cur = s.text.length := by omega
      simp only [Line.press, encodeRunes_append, encodeRunes_cons, he, List.take_length, List.drop_length]
      simp [encodeRunes]
  · exact press_valid s _ h.valid (fun r hr => by cases hr; exact hv)
  · simp only [Line.press, h.cur]; push_cast; rfl

/-- What backspace does instead in the middle of the text: it removes the character at
the cursor, and moves the cursor back. -/
def deleteAt (s : Line) : Line :=
  if s.cur = 0 then s
  else if s.cur < s.text.length then ⟨s.text.take s.cur ++ s.text.drop (s.cur + 1), s.cur - 1⟩
  else s.press .back

/-- Backspace as it is. -/
theorem delete_holds (l : EditLine) (s : Line) (h : Holds l s) : Holds l.delete (deleteAt s) := by
  have hn : runeCount l.buf = s.text.length := by rw [h.buf]; exact runeCount_encodeRunes _ h.valid
  have hc : l.cur.toNat = s.cur := by rw [h.cur]; rfl
  have hok : s.cur ≤ s.text.length := h.ok
  unfold EditLine.delete deleteAt
  by_cases h0 : s.cur = 0
  · rw [if_neg (by rw [h.cur, h0]; simp), if_pos h0]; exact h
  · rw [if_pos (by rw [h.cur]; omega), if_neg h0]
    by_cases hlt : s.cur < s.text.length
    · rw [if_pos hlt]
      obtain ⟨r, hr⟩ : ∃ r, s.text.drop s.cur = r :: s.text.drop (s.cur + 1) :=
        ⟨s.text[s.cur], List.drop_eq_getElem_cons hlt⟩
      have hvr : validRune r = true := h.valid r (List.mem_of_mem_drop (i := s.cur) (by rw [hr]; simp))
      refine ⟨?_, ?_, ?_, ?_⟩
      · simp only
        rw [if_pos (by rw [hn, h.cur]; omega), hc, h.buf]
        have hs := skipRunes_encodeRunes s.cur s.text [] h.valid hok
        rw [List.append_nil, List.append_nil] at hs
        have hcut := cut_at s.text [] s.cur hok
        rw [List.append_nil, List.append_nil] at hcut
        rw [hs, hcut, hr, encodeRunes_cons, decodeRune_encodeRune r hvr]
        simp only [List.drop_left]
        rw [← List.append_assoc, ← encodeRunes_append]
        apply List.take_left'
        have e : encodeRunes s.text = encodeRunes (s.text.take s.cur) ++ encodeRunes (s.text.drop s.cur) := by
          rw [← encodeRunes_append, List.take_append_drop]
        rw [e, hr, encodeRunes_cons, encodeRunes_append]
        simp only [List.length_append]; omega
      · intro x hx
        simp only [List.mem_append] at hx
        rcases hx with hx | hx
        · exact h.valid x (List.mem_of_mem_take hx)
        · exact h.valid x (List.mem_of_mem_drop hx)
      · simp only [h.cur]; omega
      · unfold Line.Ok; simp; omega
    · rw [if_neg hlt]
      have he : s.cur = s.text.length := by omega
      have hb := press_ok s .back h.ok
      have hval := press_valid s .back h.valid (fun r hr => by cases hr)
      refine ⟨?_, hval, ?_, hb⟩
      · simp only
        rw [if_neg (by rw [hn, h.cur]; omega), h.buf]
        rcases List.eq_nil_or_concat s.text with ht | ⟨t, r, ht⟩
        · rw [ht] at he; simp at he; omega
        · rw [List.concat_eq_append] at ht
          have hvr : validRune r = true := h.valid r (by rw [ht]; simp)
          rw [ht, take_last t r hvr]
          simp only [Line.press, he, ht]
          congr 1
          simp
      · simp only [Line.press, h.cur]; omega

/-- **C48**, backspace at the end of the text (or the start) removes the character before
the cursor. -/
theorem backspace_holds_partial (l : EditLine) (s : Line) (h : Holds l s) (hs : s.Simple .back) :
    Holds l.delete (s.press .back) := by
  have hd := delete_holds l s h
  have e : deleteAt s = s.press .back := by
    unfold deleteAt
    rcases hs with h0 | he
    · rw [if_pos h0]
      cases s with
      | mk t c => simp only at h0; subst h0; simp [Line.press]
    · by_cases h0 : s.cur = 0
      · rw [if_pos h0]
        cases s with
        | mk t c => simp only at h0; subst h0; simp [Line.press]
      · rw [if_neg h0, if_neg (by omega)]
  rwa [e] at hd

/-- **C48**, arrows: the cursor moves within the text, which stays as it is. -/
theorem arrow_holds (l : EditLine) (s : Line) (e : Ev) (h : Holds l s) (hk : e.kind = .escape) (d : Pt)
    (hd : decodeCursorCardinal e.esc e.arg = some d) :
    Holds (l.handleArrowKeys e).1 (s.press (.move d.x)) ∧ (l.handleArrowKeys e).2 = e.struck := by
  unfold EditLine.handleArrowKeys
  rw [if_neg (by simp [hk]), hd]
  have hn : runeCount l.buf = s.text.length := by rw [h.buf]; exact runeCount_encodeRunes _ h.valid
  refine ⟨⟨h.buf, h.valid, ?_, press_ok _ _ h.ok⟩, rfl⟩
  simp only [Line.press, h.cur, hn]
  split
  · omega
  · split <;> omega

/-- A rune that is not graphic is left to the second handler. -/
theorem handle_control (gr : Nat → Bool) (l : EditLine) (e : Ev) (hk : e.kind = .rune) (hg : gr e.esc = false) :
    (l.handle gr e).1 = (l.handleControlRune e).1 := by
  have e1 : l.handleGraphicRune gr e = (l, e) := by
    unfold EditLine.handleGraphicRune; rw [if_pos (Or.inr hg)]
  have h2 : (l.handleControlRune e).2 = e ∨ (l.handleControlRune e).2.kind = .none := by
    unfold EditLine.handleControlRune
    repeat' split
    all_goals first | exact Or.inl rfl | exact Or.inr rfl
  unfold EditLine.handle
  rw [if_neg (by simp [hk])]
  simp only [e1]
  rw [if_neg (by simp [hk])]
  rcases h2 with h2 | h2
  · rw [h2, if_neg (by simp [hk])]
    unfold EditLine.handleArrowKeys; rw [if_pos (by simp [hk])]
  · rw [if_pos h2]

/-- A graphic rune is left to the first handler. -/
theorem handle_graphic (gr : Nat → Bool) (l : EditLine) (e : Ev) (hk : e.kind = .rune) (hg : gr e.esc = true) :
    (l.handle gr e).1 = (l.handleGraphicRune gr e).1 := by
  have h2 : (l.handleGraphicRune gr e).2.kind = .none := by
    unfold EditLine.handleGraphicRune
    rw [if_neg (by simp [hk, hg])]
    rfl
  unfold EditLine.handle
  rw [if_neg (by simp [hk])]
  simp only
  rw [if_pos h2]

/-- **C48**: every event does to the line what its key does to the text, except that a
backspace in the middle of the text does something else. -/
theorem handle_holds_partial (gr : Nat → Bool) (hgr : ∀ r, gr r = true → validRune r = true) (l : EditLine) (s : Line)
    (e : Ev) (h : Holds l s) (hs : s.Simple (keyOf gr e)) :
    Holds (l.handle gr e).1 (s.press (keyOf gr e)) := by
  cases hk : e.kind with
  | none =>
    unfold EditLine.handle keyOf
    simp [hk, Line.press, h]
  | mouse =>
    unfold EditLine.handle keyOf
    simp [EditLine.handleGraphicRune, EditLine.handleControlRune, EditLine.handleArrowKeys, hk, Line.press, h]
  | escape =>
    have hkey : keyOf gr e = match decodeCursorCardinal e.esc e.arg with
        | some d => .move d.x
        | none => .other := by unfold keyOf; rw [hk]
    have e1 : (l.handle gr e).1 = (l.handleArrowKeys e).1 := by
      unfold EditLine.handle
      simp [EditLine.handleGraphicRune, EditLine.handleControlRune, hk]
    rw [e1, hkey]
    cases hd : decodeCursorCardinal e.esc e.arg with
    | some d => exact (arrow_holds l s e h hk d hd).1
    | none =>
      unfold EditLine.handleArrowKeys
      rw [if_neg (by simp [hk]), hd]
      exact h
  | rune =>
    have hkey : keyOf gr e = if gr e.esc then .type e.esc else if e.esc = 0x7F then .back else .other := by
      unfold keyOf; rw [hk]
    cases hg : gr e.esc with
    | true =>
      have hi := insert_holds gr l s e h hk hg (hgr _ hg)
      rw [handle_graphic gr l e hk hg, hkey, hg]
      exact hi.1
    | false =>
      rw [hkey, hg] at hs ⊢
      simp only [Bool.false_eq_true, if_false] at hs ⊢
      rw [handle_control gr l e hk hg]
      have hst : ∀ st, Holds { l with state := st } s := fun st => ⟨h.buf, h.valid, h.cur, h.ok⟩
      unfold EditLine.handleControlRune
      rw [if_neg (by simp [hk])]
      by_cases c1 : e.esc = 0x0D
      · rw [if_pos c1, if_neg (by omega)]
        exact hst .done
      by_cases c2 : e.esc = 0x1B
      · rw [if_neg c1, if_pos c2, if_neg (by omega)]
        exact hst .canceled
      by_cases c3 : e.esc = 0x7F
      · rw [if_neg c1, if_neg c2, if_pos c3]
        rw [if_pos c3] at hs ⊢
        exact backspace_holds_partial l s h hs
      · rw [if_neg c1, if_neg c2, if_neg c3, if_neg c3]
        exact h

/-- **C48**, whole sessions: after any events, in any number and mixture, the line holds
the text and cursor that the same keys give — for sessions without a backspace in the
middle of the text. -/
theorem session_holds_partial (gr : Nat → Bool) (hgr : ∀ r, gr r = true → validRune r = true) (es : Events) :
    ∀ (l : EditLine) (s : Line), Holds l s → s.SimpleAll (es.map (keyOf gr)) →
      Holds (l.handleAll gr es).1 ((es.map (keyOf gr)).foldl Line.press s) := by
  induction es with
  | nil => intro l s h _; exact h
  | cons e es ih =>
    intro l s h hs
    rw [EditLine.handleAll]
    exact ih _ _ (handle_holds_partial gr hgr l s e h hs.1) hs.2

/-- The part of a `Holds` that drawing leaves. -/
theorem Holds.view {l : EditLine} {s : Line} (h : Holds l s) (v : Int) : Holds { l with view := v } s :=
  ⟨h.buf, h.valid, h.cur, h.ok⟩

theorem draw_line (gr : Nat → Bool) (l : EditLine) (es : Events) (v : VScreen) (u : Cursor) (f : Frame)
    (h : l.draw gr es v u = .ok f) : f.line = { l with view := l.window.1 } ∧ f.input = es := by
  unfold EditLine.draw at h
  simp only at h
  generalize Except.bind _ _ = o at h
  cases o with
  | error x => cases h
  | ok v1 => cases h; exact ⟨rfl, rfl⟩

/-- **C48**, a frame: an update of an active line does the keys of its events to the text,
and drawing does not change it. -/
theorem update_holds_partial (gr : Nat → Bool) (hgr : ∀ r, gr r = true → validRune r = true) (l : EditLine) (s : Line)
    (es : Events) (v : VScreen) (u : Cursor) (f : Frame) (h : Holds l s) (hr : l.state = .ready)
    (hs : s.SimpleAll (es.map (keyOf gr))) (hf : l.update gr es v u = .ok f) :
    Holds f.line ((es.map (keyOf gr)).foldl Line.press s) := by
  have hh := session_holds_partial gr hgr es l s h hs
  unfold EditLine.update at hf
  rw [if_neg (by simp [hr])] at hf
  simp only at hf
  split at hf
  · cases hf; exact hh
  · rw [(draw_line gr _ _ _ _ _ hf).1]
    exact hh.view _

/-- The reset line is the empty text. -/
theorem reset_holds (l : EditLine) : Holds l.reset ⟨[], 0⟩ ∧ l.reset.state = .ready :=
  ⟨⟨rfl, by simp, rfl, Nat.le_refl 0⟩, rfl⟩

/-- Typing "aé", moving left, typing "€" and moving beyond the end, then backspace. -/
example : let gr := fun r => decide (0x20 ≤ r ∧ r ≠ 0x7F ∧ r < 0xD800)
    let es := [entry 0x61 [], entry 0xE9 [], entry CUB [], entry 0x20AC [], entry CUF [0x39], entry 0x7F []]
    Holds (({} : EditLine).reset.handleAll gr es).1 ⟨[0x61, 0x20AC], 2⟩ := by
  intro gr es
  have := session_holds_partial gr (by intro r hr; simp [gr] at hr; simp [validRune]; omega) es
    ({} : EditLine).reset ⟨[], 0⟩ (reset_holds _).1 (by
      simp only [es, List.map]
      refine ⟨trivial, trivial, trivial, trivial, trivial, ?_, trivial⟩
      right; decide +kernel)
  have e : (es.map (keyOf gr)).foldl Line.press ⟨[], 0⟩ = ⟨[0x61, 0x20AC], 2⟩ := by decide +kernel
  rwa [e] at this

/-- Negation for **C48**: in "aXb" with the cursor after "a", backspace does not remove the
"a" but the "X". -/
theorem backspace_middle : ∃ (l : EditLine) (s : Line), Holds l s ∧ s = ⟨[0x61, 0x58, 0x62], 1⟩ ∧
    Holds l.delete ⟨[0x61, 0x62], 0⟩ ∧ ¬ Holds l.delete (s.press .back) := by
  refine ⟨{ buf := [0x61, 0x58, 0x62], cur := 1 }, ⟨[0x61, 0x58, 0x62], 1⟩, ⟨by decide, by decide, rfl, by unfold Line.Ok; decide⟩,
    rfl, ⟨by decide, by decide, by decide, by unfold Line.Ok; decide⟩, ?_⟩
  intro h
  have := h.buf
  revert this
  decide

/-! ### The end of editing -/

/-- **C65**: a line that is done or cancelled stays as it is, and the events too. -/
theorem ended_stays (gr : Nat → Bool) (l : EditLine) (es : Events) (v : VScreen) (u : Cursor) (h : l.state ≠ .ready) :
    l.update gr es v u = .ok ⟨l, es, v, u⟩ := by
  unfold EditLine.update; rw [if_pos h]

/-- What the event does to the state. -/
theorem handle_state (gr : Nat → Bool) (l : EditLine) (e : Ev) :
    (l.handle gr e).1.state = if e.kind = .rune ∧ gr e.esc = false ∧ e.esc = 0x0D then .done
      else if e.kind = .rune ∧ gr e.esc = false ∧ e.esc = 0x1B then .canceled else l.state := by
  have hdel : l.delete.state = l.state := by unfold EditLine.delete; split <;> rfl
  have harr : ∀ e, (l.handleArrowKeys e).1.state = l.state := by
    intro e; unfold EditLine.handleArrowKeys; split
    · rfl
    · split <;> rfl
  cases hk : e.kind with
  | none => unfold EditLine.handle; simp [hk]
  | mouse =>
    unfold EditLine.handle
    simp [EditLine.handleGraphicRune, EditLine.handleControlRune, EditLine.handleArrowKeys, hk]
  | escape =>
    have e1 : (l.handle gr e).1 = (l.handleArrowKeys e).1 := by
      unfold EditLine.handle
      simp [EditLine.handleGraphicRune, EditLine.handleControlRune, hk]
    rw [e1, harr]; simp
  | rune =>
    cases hg : gr e.esc with
    | true =>
      rw [handle_graphic gr l e hk hg]
      simp [EditLine.handleGraphicRune, hk, hg]
    | false =>
      rw [handle_control gr l e hk hg]
      unfold EditLine.handleControlRune
      rw [if_neg (by simp [hk])]
      by_cases c1 : e.esc = 0x0D
      · simp [c1]
      by_cases c2 : e.esc = 0x1B
      · simp [c2]
      by_cases c3 : e.esc = 0x7F
      · simp [c3, hdel]
      · rw [if_neg c1, if_neg c2, if_neg c3]
        simp [c1, c2]

/-- **C65**: a session with neither key leaves the line active, and one that ends in Enter
or Escape ends it, with the text as edited by the keys before. -/
theorem enter_ends_partial (gr : Nat → Bool) (hgr : ∀ r, gr r = true → validRune r = true)
    (hc : gr 0x0D = false ∧ gr 0x1B = false) (l : EditLine) (s : Line) (es : Events) (last : Ev)
    (v : VScreen) (u : Cursor) (h : Holds l s) (hr : l.state = .ready)
    (hk : last.kind = .rune) (he : last.esc = 0x0D ∨ last.esc = 0x1B)
    (hs : s.SimpleAll (es.map (keyOf gr))) :
    ∃ f, l.update gr (es ++ [last]) v u = .ok f ∧
      f.line.state = (if last.esc = 0x0D then .done else .canceled) ∧
      Holds f.line ((es.map (keyOf gr)).foldl Line.press s) ∧ f.out = v ∧ f.user = u := by
  have happ : ∀ (es : Events) (l : EditLine), (l.handleAll gr (es ++ [last])).1 =
      ((l.handleAll gr es).1.handle gr last).1 := by
    intro es
    induction es with
    | nil => intro l; rfl
    | cons e es ih => intro l; simp only [List.cons_append, EditLine.handleAll]; exact ih _
  have hst : (l.handleAll gr (es ++ [last])).1.state = (if last.esc = 0x0D then .done else .canceled) := by
    rw [happ, handle_state, hk]
    rcases he with he | he
    · rw [he]; simp [hc.1]
    · rw [he]; simp [hc.2]
  have hne : (l.handleAll gr (es ++ [last])).1.state ≠ .ready := by
    rw [hst]; split <;> simp
  have hkey : keyOf gr last = .other := by
    unfold keyOf; rw [hk]
    rcases he with he | he
    · rw [he]; simp [hc.1]
    · rw [he]; simp [hc.2]
  have hold : Holds (l.handleAll gr (es ++ [last])).1 ((es.map (keyOf gr)).foldl Line.press s) := by
    rw [happ]
    have h1 := session_holds_partial gr hgr es l s h hs
    have h2 := handle_holds_partial gr hgr _ _ last h1 (by rw [hkey]; trivial)
    rwa [hkey] at h2
  refine ⟨⟨_, (l.handleAll gr (es ++ [last])).2, v, u⟩, ?_, hst, hold, rfl, rfl⟩
  unfold EditLine.update
  rw [if_neg (by simp [hr])]
  simp only
  rw [if_pos hne]

/-- Negation for **C65**: keys typed after Enter, but read in the same frame, still change
the submitted text, and Escape after Enter cancels it. -/
theorem typed_after_enter :
    let gr := fun r => decide (0x20 ≤ r ∧ r ≠ 0x7F ∧ r < 0xD800)
    let l := ({} : EditLine).reset
    ((l.handleAll gr [entry 0x61 [], entry 0x0D [], entry 0x62 []]).1.state = .done ∧
      (l.handleAll gr [entry 0x61 [], entry 0x0D [], entry 0x62 []]).1.buf = [0x61, 0x62]) ∧
    (l.handleAll gr [entry 0x61 [], entry 0x0D [], entry 0x1B []]).1.state = .canceled := by decide +kernel

end Edl
end Anansi
