import Verif.Model.Events
import Verif.Props.InputDecode
import Verif.Props.Mouse
import Verif.Props.Geom
/-
C49 Event queries consume exactly the matching events.
-/
set_option autoImplicit false

namespace Anansi
namespace Evq
open Spec

/-- The queue with the entries for which `p` holds marked as handled, and all others as
they were. -/
def strikeIf (p : Ev → Bool) (es : Events) : Events := es.map fun e => if p e then e.struck else e

/-! ### Runes -/

theorem countIn_spec (rs : List Nat) : ∀ (e : Ev) (n : Nat),
    countIn e n rs = (if e.esc ∈ rs then e.struck else e, n + rs.count e.esc) := by
  induction rs with
  | nil => intro e n; simp [countIn]
  | cons r rs ih =>
    intro e n
    rw [countIn]
    by_cases h : e.esc = r
    · rw [if_pos h, ih]
      have hs : e.struck.esc = e.esc := rfl
      have hss : e.struck.struck = e.struck := rfl
      rw [hs, hss, ite_self, if_pos (by rw [h]; exact List.mem_cons_self), ← h, List.count_cons_self]
      congr 1; omega
    · rw [if_neg h, ih]
      have : (e.esc ∈ r :: rs) ↔ e.esc ∈ rs := by simp [h]
      rw [List.count_cons_of_ne (fun hh => h hh.symm)]
      simp only [this]

/-- What a query for some runes matches. -/
def isRune (rs : List Nat) (e : Ev) : Bool := e.kind = .rune && decide (e.esc ∈ rs)

/-- **C49**: a query for runes marks exactly the entries of these runes and leaves all
others, and counts each as often as it is asked for. -/
theorem countRune_strikes (rs : List Nat) (es : Events) : ∀ n,
    (countRune rs n es).1 = strikeIf (isRune rs) es ∧
    (countRune rs n es).2 = n + ((es.filter fun e => e.kind = .rune).map fun e => rs.count e.esc).sum := by
  induction es with
  | nil => intro n; exact ⟨rfl, rfl⟩
  | cons e l ih =>
    intro n
    rw [countRune]
    by_cases h : e.kind = .rune
    · rw [if_neg (by simp [h]), countIn_spec]
      obtain ⟨i1, i2⟩ := ih (n + rs.count e.esc)
      simp only
      refine ⟨?_, ?_⟩
      · rw [i1]
        simp [strikeIf, isRune, h]
      · rw [i2]
        rw [List.filter_cons_of_pos (by simp [h]), List.map_cons, List.sum_cons]
        omega
    · rw [if_pos h]
      obtain ⟨i1, i2⟩ := ih n
      simp only
      refine ⟨?_, ?_⟩
      · rw [i1]
        simp [strikeIf, isRune, h]
      · rw [i2, List.filter_cons_of_neg (by simp [h])]

/-- **C49**: if no rune is asked for twice, the result is the exact number of matching
entries. -/
theorem countRune_exact_partial (rs : List Nat) (es : Events) (h : rs.Nodup) :
    (countRune rs 0 es).2 = es.countP (isRune rs) := by
  rw [(countRune_strikes rs es 0).2, Nat.zero_add]
  induction es with
  | nil => rfl
  | cons e l ih =>
    by_cases hk : e.kind = .rune
    · rw [List.filter_cons_of_pos (by simp [hk]), List.map_cons, List.sum_cons, ih]
      by_cases hm : e.esc ∈ rs
      · have h1 : rs.count e.esc ≤ 1 := List.nodup_iff_count.mp h e.esc
        have h2 : 0 < rs.count e.esc := List.count_pos_iff.mpr hm
        rw [List.countP_cons_of_pos (by simp [isRune, hk, hm])]
        omega
      · rw [List.countP_cons_of_neg (by simp [isRune, hm]), List.count_eq_zero_of_not_mem hm, Nat.zero_add]
    · rw [List.filter_cons_of_neg (by simp [hk]), List.countP_cons_of_neg (by simp [isRune, hk])]
      exact ih

/-- Negation for **C49**: asking twice for the same rune counts one entry twice. -/
theorem countRune_twice : (countRune [0x61, 0x61] 0 [entry 0x61 []]).2 = 2 ∧
    [entry 0x61 []].countP (isRune [0x61, 0x61]) = 1 := by decide

/-- The first matching entry splits the queue. -/
theorem hasTerminal_spec (r : Nat) (es : Events) :
    ((∀ e ∈ es, isRune [r] e = false) ∧ hasTerminal r es = (es, false)) ∨
    ∃ a e b, es = a ++ e :: b ∧ (∀ x ∈ a, isRune [r] x = false) ∧ isRune [r] e = true ∧
      hasTerminal r es = (a ++ (e :: b).map Ev.struck, true) := by
  induction es with
  | nil => exact Or.inl ⟨by simp, rfl⟩
  | cons e l ih =>
    rw [hasTerminal]
    by_cases h : e.kind = .rune ∧ e.esc = r
    · rw [if_pos h]
      exact Or.inr ⟨[], e, l, rfl, by simp, by simp [isRune, h], rfl⟩
    · rw [if_neg h]
      have hn : isRune [r] e = false := by
        simp only [isRune, List.mem_singleton]
        by_cases h1 : e.kind = .rune
        · have : e.esc ≠ r := fun h2 => h ⟨h1, h2⟩
          simp [this]
        · simp [h1]
      rcases ih with ⟨h1, h2⟩ | ⟨a, x, b, rfl, h2, h3, h4⟩
      · left
        refine ⟨?_, by rw [h2]⟩
        intro y hy
        rcases List.mem_cons.mp hy with rfl | hy
        · exact hn
        · exact h1 y hy
      · right
        refine ⟨e :: a, x, b, rfl, ?_, h3, by rw [h4]; rfl⟩
        intro y hy
        rcases List.mem_cons.mp hy with rfl | hy
        · exact hn
        · exact h2 y hy

/-- **C49**: testing for a rune that ends things finds it just if it is there, and marks
it and everything after it, and nothing before. -/
theorem hasTerminal_strikes (r : Nat) (es : Events) :
    ((hasTerminal r es).2 = true ↔ ∃ e ∈ es, isRune [r] e = true) ∧
    ((hasTerminal r es).2 = false → (hasTerminal r es).1 = es) ∧
    ((hasTerminal r es).2 = true → (hasTerminal r es).1 =
      es.takeWhile (fun e => !isRune [r] e) ++ (es.dropWhile (fun e => !isRune [r] e)).map Ev.struck) := by
  rcases hasTerminal_spec r es with ⟨h1, h2⟩ | ⟨a, x, b, rfl, h2, h3, h4⟩
  · rw [h2]
    refine ⟨⟨by simp, ?_⟩, fun _ => rfl, by simp⟩
    rintro ⟨e, he, hr⟩
    rw [h1 e he] at hr; cases hr
  · rw [h4]
    refine ⟨⟨fun _ => ⟨x, by simp, h3⟩, fun _ => rfl⟩, by simp, fun _ => ?_⟩
    have e1 : (a ++ x :: b).takeWhile (fun e => !isRune [r] e) = a := by
      rw [List.takeWhile_append_of_pos (by intro y hy; rw [h2 y hy]; rfl), List.takeWhile_cons_of_neg (by simp [h3]),
        List.append_nil]
    have e2 : (a ++ x :: b).dropWhile (fun e => !isRune [r] e) = x :: b := by
      rw [List.dropWhile_append_of_pos (by intro y hy; rw [h2 y hy]; rfl), List.dropWhile_cons_of_neg (by simp [h3])]
    rw [e1, e2]

/-! ### The mouse -/

/-- A press of a button within a box. -/
def pressIn (box : Rect) (button : BitVec 8) (e : Ev) : Bool :=
  e.kind = .mouse && Mouse.isPress e.ms = some button && Geom.ptIn e.pt box

/-- **C49**: counting presses marks exactly the presses of that button in the box, and
returns their number. -/
theorem countPressesIn_exact (box : Rect) (button : BitVec 8) (es : Events) : ∀ n,
    countPressesIn box button n es = (strikeIf (pressIn box button) es, n + es.countP (pressIn box button)) := by
  induction es with
  | nil => intro n; rfl
  | cons e l ih =>
    intro n
    rw [countPressesIn]
    by_cases h : e.kind = .mouse ∧ Mouse.isPress e.ms = some button ∧ Geom.ptIn e.pt box = true
    · have hp : pressIn box button e = true := by simp [pressIn, h]
      rw [if_pos h, ih, List.countP_cons_of_pos hp]
      simp only [strikeIf, List.map_cons, hp, if_true]
      congr 1; omega
    · have hp : pressIn box button e = false := by
        unfold pressIn
        by_cases h1 : e.kind = .mouse
        · by_cases h2 : Mouse.isPress e.ms = some button
          · have : Geom.ptIn e.pt box = false := by
              cases hh : Geom.ptIn e.pt box with
              | false => rfl
              | true => exact absurd ⟨h1, h2, hh⟩ h
            simp [this]
          · simp [h2]
        · simp [h1]
      rw [if_neg h, ih, List.countP_cons_of_neg (by simp [hp])]
      simp [strikeIf, hp]

/-- **C49**: whether there is any press outside the box. -/
theorem anyPressesOutside_iff (box : Rect) (es : Events) :
    anyPressesOutside box es = true ↔
      ∃ e ∈ es, e.kind = .mouse ∧ (∃ b, Mouse.isPress e.ms = some b) ∧ ¬ Geom.Mem e.pt box := by
  have hin : ∀ p, Geom.ptIn p box = false ↔ ¬ Geom.Mem p box := by
    intro p
    rw [← Geom.ptIn_iff]; simp
  induction es with
  | nil => simp [anyPressesOutside]
  | cons e l ih =>
    rw [anyPressesOutside]
    split
    · rename_i h
      simp only [true_iff]
      exact ⟨e, List.mem_cons_self, h.1, Option.isSome_iff_exists.mp h.2.1, (hin _).mp h.2.2⟩
    · rename_i h
      refine Iff.trans ih ?_
      constructor
      · rintro ⟨x, hx, hr⟩; exact ⟨x, List.mem_cons_of_mem _ hx, hr⟩
      · rintro ⟨x, hx, h1, h2, h3⟩
        rcases List.mem_cons.mp hx with rfl | hx
        · exact absurd ⟨h1, Option.isSome_iff_exists.mpr h2, (hin _).mpr h3⟩ h
        · exact ⟨x, hx, h1, h2, h3⟩

/-- A turn of the wheel within a box. -/
def scrollIn (box : Rect) (button : BitVec 8) (e : Ev) : Bool :=
  e.kind = .mouse && Geom.ptIn e.pt box && Mouse.buttonID e.ms = button

/-- **C49**: the total scroll is the number of turns downward less those upward, and
exactly these entries are marked. -/
theorem totalScrollIn_exact (box : Rect) (es : Events) : ∀ n,
    totalScrollIn box n es = (strikeIf (fun e => scrollIn box 4 e || scrollIn box 5 e) es,
      n + (es.countP (scrollIn box 5) - es.countP (scrollIn box 4) : Int)) := by
  induction es with
  | nil => intro n; simp [totalScrollIn, strikeIf]
  | cons e l ih =>
    intro n
    rw [totalScrollIn]
    by_cases h : e.kind = .mouse ∧ Geom.ptIn e.pt box = true
    · rw [if_pos h]
      by_cases h4 : Mouse.buttonID e.ms = 4
      · have hs4 : scrollIn box 4 e = true := by simp [scrollIn, h, h4]
        have hs5 : ¬ scrollIn box 5 e = true := by simp [scrollIn, h, h4]
        rw [if_pos h4, ih]
        simp only [strikeIf, List.map_cons, hs4, Bool.true_or, if_true, List.countP_cons_of_pos,
          List.countP_cons_of_neg hs5]
        congr 1; push_cast; omega
      · have hs4 : ¬ scrollIn box 4 e = true := by
          simp only [scrollIn, Bool.and_eq_true, decide_eq_true_eq]
          exact fun hh => h4 hh.2
        rw [if_neg h4]
        by_cases h5 : Mouse.buttonID e.ms = 5
        · have hs5 : scrollIn box 5 e = true := by simp [scrollIn, h, h5]
          rw [if_pos h5, ih]
          simp only [strikeIf, List.map_cons, hs5, Bool.or_true, if_true, List.countP_cons_of_pos,
            List.countP_cons_of_neg hs4]
          congr 1; push_cast; omega
        · have hs5 : ¬ scrollIn box 5 e = true := by
            simp only [scrollIn, Bool.and_eq_true, decide_eq_true_eq]
            exact fun hh => h5 hh.2
          rw [if_neg h5, ih]
          simp only [strikeIf, List.map_cons, Bool.or_eq_true, hs4, hs5, or_self, if_false,
            List.countP_cons_of_neg hs4, List.countP_cons_of_neg hs5]
          rfl
    · have hs : ∀ b, ¬ scrollIn box b e = true := by
        intro b hb
        simp only [scrollIn, Bool.and_eq_true, decide_eq_true_eq] at hb
        exact h hb.1
      rw [if_neg h, ih]
      simp only [strikeIf, List.map_cons, Bool.or_eq_true, hs, or_self, if_false,
        List.countP_cons_of_neg (hs 4), List.countP_cons_of_neg (hs 5)]
      rfl

/-- **C49**: the last mouse entry is found, and just all mouse entries are marked if they
are to be consumed. -/
theorem lastMouse_exact (consume : Bool) (es : Events) : ∀ m,
    lastMouse consume m es = (strikeIf (fun e => consume && e.kind = .mouse) es,
      ((es.filter fun e => e.kind = .mouse).getLast?.map fun e => (e.ms, e.pt)).or m) := by
  induction es with
  | nil => intro m; simp [lastMouse, strikeIf]
  | cons e l ih =>
    intro m
    rw [lastMouse]
    by_cases h : e.kind = .mouse
    · rw [if_pos h, ih, List.filter_cons_of_pos (by simp [h])]
      have e1 : (if consume = true then e.struck else e) =
          if (consume && decide (e.kind = .mouse)) = true then e.struck else e := by simp [h]
      simp only [strikeIf, List.map_cons, e1]
      congr 1
      rw [List.getLast?_cons]
      cases (l.filter fun e => decide (e.kind = .mouse)).getLast? <;> rfl
    · rw [if_neg h, ih, List.filter_cons_of_neg (by simp [h])]
      simp [strikeIf, h]

/-! ### Cursor movements -/

/-- The displacement of an entry, if it is a cursor movement not yet handled. -/
def moveOf (e : Ev) : Option Pt := if e.kind = .escape then decodeCursorCardinal e.esc e.arg else none

/-- **C49**: the total movement is the sum of all displacements, and exactly the movements
are marked. -/
theorem totalCursorMovement_exact (es : Events) : ∀ m,
    totalCursorMovement m es = (strikeIf (fun e => (moveOf e).isSome) es,
      ⟨m.x + ((es.filterMap moveOf).map (·.x)).sum, m.y + ((es.filterMap moveOf).map (·.y)).sum⟩) := by
  induction es with
  | nil => intro m; simp [totalCursorMovement, strikeIf]
  | cons e l ih =>
    intro m
    rw [totalCursorMovement]
    change (match moveOf e with
      | some d => _
      | none => _) = _
    cases h : moveOf e with
    | none =>
      simp only
      rw [ih, List.filterMap_cons_none h]
      simp [strikeIf, h]
    | some d =>
      simp only
      rw [ih, List.filterMap_cons_some h]
      simp only [strikeIf, List.map_cons, h, Option.isSome_some, if_true, List.sum_cons, Geom.ptAdd]
      congr 2 <;> omega

/-- **C49**: the queue is empty when nothing is left to handle. -/
theorem isEmpty_iff (es : Events) : isEmpty es = true ↔ ∀ e ∈ es, e.kind = .none := by
  induction es with
  | nil => simp [isEmpty]
  | cons e l ih =>
    rw [isEmpty]
    by_cases h : e.kind = .none
    · rw [if_neg (by simp [h]), ih]; simp [h]
    · rw [if_pos h]; simp [h]

/-- A mixed queue. -/
example : countPressesIn ⟨⟨1, 1⟩, ⟨10, 10⟩⟩ 1 0
    [entry 0x61 [], entry (csiId 0x4D) (Mouse.reportArg 0 3 4), entry (csiId 0x4D) (Mouse.reportArg 0 30 4),
      entry (csiId 0x6D) (Mouse.reportArg 0 3 4)] =
    ([entry 0x61 [], (entry (csiId 0x4D) (Mouse.reportArg 0 3 4)).struck, entry (csiId 0x4D) (Mouse.reportArg 0 30 4),
      entry (csiId 0x6D) (Mouse.reportArg 0 3 4)], 1) := by decide +kernel

/-! ### Decoding -/

theorem decodeEscape_zero_arg (p : Bytes) (h : (decodeEscape p).e = 0) : (decodeEscape p).arg = [] := by
  have hloop : ∀ (fuel : Nat) (pre mid rest : Bytes), (decodeESCLoop fuel pre mid rest).e = 0 →
      (decodeESCLoop fuel pre mid rest).arg = [] := by
    intro fuel
    induction fuel with
    | zero => intro pre mid rest _; rfl
    | succ f ih =>
      intro pre mid rest he
      revert he
      simp only [decodeESCLoop]
      repeat' split
      all_goals
        first
          | (intro; rfl)
          | (intro he; exact ih _ _ _ he)
          | (intro he; exfalso; revert he; unfold escId; simp)
          | (intro he; exfalso; revert he; simp)
  revert h
  unfold decodeEscape
  simp only
  split
  · intro h; exact hloop _ _ _ _ h
  · split
    · split
      · rename_i e a n hc
        intro h
        exfalso
        have h : e = 0 := h
        subst h
        unfold decodeCSI at hc
        split at hc
        · cases hc
        · simp only [Option.some.injEq, Prod.mk.injEq] at hc
          have := hc.1
          unfold csiId at this; omega
      · intro _; unfold decodeEscapeNone; split <;> rfl
    · split
      · rename_i hr
        split
        · intro h
          exfalso
          have h : (ansiDecodeRune p).1 = 0 := h
          rw [h] at hr; omega
        · intro _; unfold decodeEscapeNone; split <;> rfl
      · intro _; unfold decodeEscapeNone; split <;> rfl

theorem decodeStep_shorter (b : Bytes) (h : b ≠ []) : (decodeStep b).2.length < b.length := by
  obtain ⟨h1, h2, h3, h4⟩ := decodeEscape_progress b h
  have hpos : 0 < b.length := List.length_pos_iff.mpr h
  unfold decodeStep
  simp only
  split
  · have := decodeRune_width_le ((decodeEscape b).buf.drop (decodeEscape b).n)
    simp only [List.length_drop] at this ⊢; omega
  · rename_i he
    have := h3 he
    simp only [List.length_drop]; omega

theorem itemsAux_fuel (n : Nat) : ∀ (b : Bytes) (f : Nat), b.length ≤ n → b.length ≤ f → itemsAux f b = itemsAux n b := by
  induction n with
  | zero =>
    intro b f h1 _
    have : b = [] := List.length_eq_zero_iff.mp (by omega)
    subst this
    cases f <;> simp [itemsAux]
  | succ n ih =>
    intro b f h1 h2
    cases f with
    | zero =>
      have : b = [] := List.length_eq_zero_iff.mp (by omega)
      subst this
      simp [itemsAux]
    | succ f =>
      simp only [itemsAux]
      by_cases hb : b = []
      · simp [hb]
      · have := decodeStep_shorter b hb
        rw [if_neg hb, if_neg hb, ih (decodeStep b).2 f (by omega) (by omega)]

theorem items_nil : items [] = [] := rfl

/-- `DecodeBytes` goes on until no bytes are left. -/
theorem items_step (b : Bytes) (h : b ≠ []) : items b = (decodeStep b).1 :: items (decodeStep b).2 := by
  have hs := decodeStep_shorter b h
  obtain ⟨n, hn⟩ : ∃ n, b.length = n + 1 := ⟨b.length - 1, by
    have := List.length_pos_iff.mpr h; omega⟩
  rw [items, hn, itemsAux]
  simp only [h, if_false]
  rw [items, itemsAux_fuel n _ (decodeStep b).2.length (by omega) (by omega)]

theorem decodeStep_of_decode (s s' : Inp.Input) (ev : Event) (ha : s.ateof = true) (h : s.decode = (s', some ev)) :
    decodeStep s.buf = (ev, s'.buf) := by
  unfold Inp.Input.decode at h
  unfold decodeStep
  split at h
  · cases h
  · simp only at h ⊢
    by_cases he : (decodeEscape s.buf).e = 0
    · rw [if_neg (by simp [he])] at h
      rw [if_pos he, decodeEscape_zero_arg _ he]
      split at h
      · cases h
      · rw [if_neg (by simp [ha])] at h
        injection h with h1 h2
        injection h2 with h2
        subst h1 h2; rfl
    · rw [if_pos he] at h
      rw [if_neg he]
      injection h with h1 h2
      injection h2 with h2
      subst h1 h2; rfl

/-- **C49**: decoding bytes appends one entry for each thing the terminal sent, in order,
and leaves the entries already there. -/
theorem decodeBytes_items (is : List InItem) (h : ∀ i ∈ is, i.Ok) (es : Events) :
    decodeBytes es (is.flatMap InItem.bytes) = es ++ is.map fun i => entry i.event.1 i.event.2 := by
  unfold decodeBytes
  congr 1
  rw [show (is.map fun i => entry i.event.1 i.event.2) = (is.map InItem.event).map fun x => entry x.1 x.2 by
    rw [List.map_map]; rfl]
  congr 1
  induction is with
  | nil => rfl
  | cons i l ih =>
    have hd := Inp.decode_item i (h i (by simp)) { ateof := true, buf := i.bytes ++ l.flatMap InItem.bytes }
      (l.flatMap InItem.bytes) rfl
    have hs := decodeStep_of_decode _ _ _ rfl hd
    have hne : i.bytes ++ l.flatMap InItem.bytes ≠ [] := by
      intro hc
      have := Inp.decode_progress _ _ _ hd
      simp only at this
      rw [hc] at this
      simp at this
    rw [List.flatMap_cons, items_step _ hne, hs, List.map_cons, ih (fun j hj => h j (by simp [hj]))]

/-- **C49**: decoding an input appends one entry for each thing the terminal sent, if what
has been read is made of whole things. -/
theorem decodeInput_items (is : List InItem) (h : ∀ i ∈ is, i.Ok) (es : Events) (s : Inp.Input)
    (hs : s.buf = is.flatMap InItem.bytes) :
    (decodeInput es s).1 = es ++ is.map (fun i => entry i.event.1 i.event.2) ∧ (decodeInput es s).2.buf = [] := by
  have hd := Inp.drain_items is h s [] (by rw [List.append_nil]; exact hs)
  have hn : ({ s with buf := [] } : Inp.Input).drain = ({ s with buf := [] }, []) :=
    Inp.drain_stop _ _ (by unfold Inp.Input.decode; simp)
  rw [hn] at hd
  unfold decodeInput
  rw [hd]
  refine ⟨?_, rfl⟩
  simp only [List.append_nil, List.map_map]
  rfl

/-- **C49**: every mouse report becomes a mouse entry with its state and point, unless it
is a press of the left button at a point outside the screen. -/
theorem entry_report (cb x y : Nat) (rel : Bool) (hb : cb ≤ 255) (hx : x ≤ 2 ^ 32 - 1) (hy : y ≤ 2 ^ 32 - 1)
    (h : (1 ≤ x ∧ 1 ≤ y) ∨ cb ≠ 0 ∨ rel = true) :
    entry (Mouse.reportId rel) (Mouse.reportArg cb x y) =
      ⟨.mouse, Mouse.reportId rel, Mouse.reportArg cb x y,
        if rel then BitVec.ofNat 8 cb ||| Mouse.release else BitVec.ofNat 8 cb, ⟨x, y⟩⟩ := by
  unfold entry
  rw [if_pos (Mouse.reportId_cases rel), Mouse.decode_report cb x y rel hb hx hy]
  simp only
  rw [if_neg (by simp), if_pos]
  rcases h with ⟨h1, h2⟩ | h | h
  · right; unfold Geom.valid; simp; omega
  · left
    have h1 : BitVec.ofNat 8 cb ≠ 0 := by
      intro hc
      have := congrArg BitVec.toNat hc
      simp at this; omega
    cases rel
    · simpa using h1
    · rw [if_pos rfl]
      intro hc
      have := congrArg (fun v : BitVec 8 => v.getLsbD 7) hc
      revert this
      simp only [BitVec.getLsbD_or, show Mouse.release.getLsbD 7 = true from rfl, Bool.or_true]
      decide
  · left
    subst h
    rw [if_pos rfl]
    intro hc
    have := congrArg (fun v : BitVec 8 => v.getLsbD 7) hc
    revert this
    simp only [BitVec.getLsbD_or, show Mouse.release.getLsbD 7 = true from rfl, Bool.or_true]
    decide

/-- **C49**: other things become runes or escapes. -/
theorem entry_other (i : InItem) (hm : ¬ (i.event.1 = csiId 0x4D ∨ i.event.1 = csiId 0x6D)) :
    entry i.event.1 i.event.2 =
      ⟨if 0xEF00 ≤ i.event.1 ∧ i.event.1 ≤ 0xEFFF then .escape else .rune, i.event.1, i.event.2, 0, ⟨0, 0⟩⟩ := by
  unfold entry
  rw [if_neg hm]
  congr 1
  unfold isEscape
  by_cases h : 0xEF00 ≤ i.event.1 ∧ i.event.1 ≤ 0xEFFF
  · simp [h]
  · rw [if_neg h]
    have : (decide (0xEF00 ≤ i.event.1) && decide (i.event.1 ≤ 0xEFFF)) = false := by
      rw [Bool.and_eq_false_iff]
      by_cases h1 : 0xEF00 ≤ i.event.1
      · right; simpa using fun h2 => h ⟨h1, h2⟩
      · left; simpa using h1
    rw [this]; rfl

/-- Negation for **C49**: a typed character from the private use area is taken for an
escape sequence, here for the "cursor up" key. -/
theorem private_rune_is_escape : ∃ i : InItem, i.Ok ∧ i = .rune 0xEFC1 ∧
    decodeBytes [] i.bytes = [⟨.escape, CUU, [], 0, ⟨0, 0⟩⟩] := by
  refine ⟨.rune 0xEFC1, ?_, rfl, by decide +kernel⟩
  show plainRune 0xEFC1
  unfold plainRune startsEscape
  decide +kernel

/-- Negation for **C49**: a cancelled escape sequence at the end adds an entry for a
character never sent, and one before an escape sequence makes that fall apart. -/
theorem cancelled_adds :
    (decodeBytes [] [0x1B, 0x18]).map (fun e => (e.kind, e.esc)) = [(.rune, 0xFFFD)] ∧
    (decodeBytes [] [0x1B, 0x18, 0x1B, 0x5B, 0x41]).map (fun e => (e.kind, e.esc)) =
      [(.rune, 0x1B), (.rune, 0x5B), (.rune, 0x41)] := by decide

end Evq
end Anansi
