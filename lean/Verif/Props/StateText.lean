import Verif.Model.StateText
import Verif.Props.GeomText
import Verif.Props.SgrName
import Verif.Props.MouseName
import Verif.Props.EscName
import Verif.Props.HudUpdate
/-
C150: the texts of cursors, screens, events and of the overlay's header say what they hold.
-/
set_option autoImplicit false

namespace Anansi

open Geom

/-- A byte that is in neither rest splits from the right. -/
theorem split_last {b : UInt8} {a c r s : Bytes} (h1 : b ∉ r) (h2 : b ∉ s) (h : a ++ b :: r = c ++ b :: s) : a = c ∧ r = s := by
  have h := congrArg List.reverse h
  simp only [List.reverse_append, List.reverse_cons, List.append_assoc, List.cons_append, List.nil_append] at h
  obtain ⟨e1, e2⟩ := split_at (by simpa using h1) (by simpa using h2) h
  exact ⟨List.reverse_injective e2, List.reverse_injective e1⟩

theorem itoa_plain (i : Int) : ∀ b ∈ itoa i, b = 0x2D ∨ 0x30 ≤ b.toNat ∧ b.toNat ≤ 0x39 := by
  intro b hb
  unfold itoa at hb
  split at hb
  · rcases List.mem_cons.1 hb with h | h
    · exact .inl h
    · exact .inr (itoaNat_digits _ b h)
  · exact .inr (itoaNat_digits _ b hb)

/-- The bytes of a point's text. -/
theorem point_bytes (p : Pt) : ∀ b ∈ ptString p, b ∈ ascii "(,)-" ∨ 0x30 ≤ b.toNat ∧ b.toNat ≤ 0x39 := by
  intro b hb
  simp only [ptString, List.mem_append, List.mem_singleton] at hb
  have hi : ∀ i, b ∈ itoa i → b ∈ ascii "(,)-" ∨ 0x30 ≤ b.toNat ∧ b.toNat ≤ 0x39 := by
    intro i h
    rcases itoa_plain i b h with rfl | h
    · exact .inl (by decide)
    · exact .inr h
  rcases hb with (((rfl | h) | rfl) | h) | rfl
  · exact .inl (by decide)
  · exact hi _ h
  · exact .inl (by decide)
  · exact hi _ h
  · exact .inl (by decide)

theorem rect_bytes (r : Rect) : ∀ b ∈ rectString r, b ∈ ascii "(,)-" ∨ 0x30 ≤ b.toNat ∧ b.toNat ≤ 0x39 := by
  intro b hb
  simp only [rectString, List.mem_append, List.mem_singleton] at hb
  rcases hb with (h | rfl) | h
  · exact point_bytes _ b h
  · exact .inl (by decide)
  · exact point_bytes _ b h

theorem no_v {b : UInt8} (h : b ∈ ascii "(,)-" ∨ 0x30 ≤ b.toNat ∧ b.toNat ≤ 0x39) : b ≠ 0x76 := by
  rintro rfl
  revert h; decide

/-- A cursor's text and something after it without the letter `v`. -/
theorem cursor_then {c d : Cursor} {s t : Sgr.Style} (hc : c.attr = s.build) (hd : d.attr = t.build) {q r : Bytes}
    (hq : (0x76 : UInt8) ∉ q) (hr : (0x76 : UInt8) ∉ r) (h : c.string ++ q = d.string ++ r) :
    c.pt = d.pt ∧ c.attr = d.attr ∧ c.visible = d.visible ∧ q = r := by
  unfold Cursor.string at h
  simp only [List.append_assoc] at h
  have h := List.append_cancel_left h
  obtain ⟨e1, h⟩ := point_then h
  have h := List.append_cancel_left h
  have hb : ∀ b, (0x76 : UInt8) ∉ boolString b := by decide
  rw [show ascii " v:" = [0x20, 0x76, 0x3A] by decide] at h
  have h' : (Sgr.attrString c.attr ++ [0x20]) ++ 0x76 :: ([0x3A] ++ boolString c.visible ++ q) =
      (Sgr.attrString d.attr ++ [0x20]) ++ 0x76 :: ([0x3A] ++ boolString d.visible ++ r) := by
    simpa only [List.append_assoc, List.cons_append, List.nil_append] using h
  obtain ⟨e2, h⟩ := split_last (by simp [hb, hq]) (by simp [hb, hr]) h'
  have e2 := List.append_cancel_right e2
  rw [hc, hd] at e2
  have e2 := Sgr.attr_names_differ s t e2
  simp only [List.append_assoc] at h
  have h := List.append_cancel_left h
  refine ⟨e1, by rw [hc, hd, e2], ?_⟩
  cases hv : c.visible <;> cases hw : d.visible <;> rw [hv, hw] at h
  · exact ⟨rfl, List.append_cancel_left h⟩
  · exact absurd (congrArg List.head? h) (by rw [show boolString false = 0x66 :: ascii "alse" by decide, show boolString true = 0x74 :: ascii "rue" by decide]; simp)
  · exact absurd (congrArg List.head? h) (by rw [show boolString false = 0x66 :: ascii "alse" by decide, show boolString true = 0x74 :: ascii "rue" by decide]; simp)
  · exact ⟨rfl, List.append_cancel_left h⟩

/-- **C150**, the text of a cursor: its place, the words of its style, and whether it is visible. -/
theorem cursor_text (c : Cursor) (s : Sgr.Style) (hc : c.attr = s.build) :
    c.string = ascii ("@(" ++ Geom.Spec.decimal c.pt.x ++ "," ++ Geom.Spec.decimal c.pt.y ++ ") a:" ++ Sgr.Spec.spaced (Sgr.Spec.words s) ++
      (if c.visible then " v:true" else " v:false")) := by
  unfold Cursor.string
  rw [hc, Sgr.attr_printed, (text_form ⟨c.pt, c.pt⟩).1]
  cases c.visible <;> simp only [ascii_append, List.append_assoc, boolString, if_true, if_false, Bool.false_eq_true] <;> rfl

/-- **C150**: cursors print alike just if they are at the same place, in the same style, and both visible or both not.  Whether a style
or the visibility is known is not printed. -/
theorem cursor_tells (c d : Cursor) (s t : Sgr.Style) (hc : c.attr = s.build) (hd : d.attr = t.build) :
    c.string = d.string ↔ c.pt = d.pt ∧ c.attr = d.attr ∧ c.visible = d.visible := by
  constructor
  · intro h
    obtain ⟨h1, h2, h3, -⟩ := cursor_then hc hd (q := []) (r := []) (by simp) (by simp) (by rw [h])
    exact ⟨h1, h2, h3⟩
  · rintro ⟨h1, h2, h3⟩
    unfold Cursor.string
    rw [h1, h2, h3]

/-- **C150**: screens print alike just if their cursors do and their grids have the same bounds. -/
theorem screen_tells (a b : Screen) (s t : Sgr.Style) (ha : a.cur.attr = s.build) (hb : b.cur.attr = t.build) :
    a.string = b.string ↔
      a.cur.pt = b.cur.pt ∧ a.cur.attr = b.cur.attr ∧ a.cur.visible = b.cur.visible ∧ a.grid.rect = b.grid.rect := by
  have hv : ∀ r : Rect, (0x76 : UInt8) ∉ ascii " gridBounds:" ++ rectString r := by
    intro r h
    rcases List.mem_append.1 h with h | h
    · revert h; decide
    · exact no_v (rect_bytes r _ h) rfl
  constructor
  · intro h
    unfold Screen.string at h
    rw [List.append_assoc, List.append_assoc] at h
    obtain ⟨h1, h2, h3, h4⟩ := cursor_then ha hb (hv _) (hv _) h
    exact ⟨h1, h2, h3, (text_tells _ _).2.1 (List.append_cancel_left h4)⟩
  · rintro ⟨h1, h2, h3, h4⟩
    unfold Screen.string
    rw [(cursor_tells a.cur b.cur s t ha hb).2 ⟨h1, h2, h3⟩, h4]

namespace Evq

theorem name_bytes : ∀ ms : Mouse.MState, ∀ s, Mouse.mouseString ms = some s → ∀ b ∈ s, b ≠ 0x40 ∧ 0x20 ≤ b.toNat ∧ b.toNat < 0x7F := by
  have : ∀ ms : Mouse.MState, ((Mouse.mouseString ms).getD []).all (fun b => b != 0x40 && 0x20 ≤ b.toNat && b.toNat < 0x7F) = true := by
    decide +kernel
  intro ms s h b hb
  have := this ms
  rw [h] at this
  have := (List.all_eq_true.1 this) b hb
  simpa [and_assoc] using this

/-- A mouse event's text and what comes after it. -/
theorem mouse_then {m m' : Mouse.MState} {p p' : Pt} (h : Mouse.Plain m) (h' : Mouse.Plain m') {t t' q r : Bytes}
    (ht : mouseString m p = some t) (ht' : mouseString m' p' = some t') (he : t ++ q = t' ++ r) : m = m' ∧ p = p' ∧ q = r := by
  unfold mouseString at ht ht'
  rw [Option.map_eq_some_iff] at ht ht'
  obtain ⟨n, hn, rfl⟩ := ht
  obtain ⟨n', hn', rfl⟩ := ht'
  rw [show ascii "@" = [0x40] by decide] at he
  simp only [List.append_assoc, List.cons_append, List.nil_append] at he
  obtain ⟨e1, he⟩ := split_at (fun k => (name_bytes _ _ hn _ k).1 rfl) (fun k => (name_bytes _ _ hn' _ k).1 rfl) he
  obtain ⟨e2, he⟩ := point_then he
  exact ⟨Mouse.name_tells_partial m m' h h' (by rw [hn, hn', e1]), e2, he⟩

/-- **C150**, mouse events: they always have a text, which is the name of what was done, and where.  Two events print alike just if they
are the same, but for the fourth direction of the wheel, which is named as the right button (`Mouse.wheel_right_named_right`). -/
theorem mouse_tells_partial (m m' : Mouse.MState) (p p' : Pt) :
    (∃ n, Mouse.mouseString m = some n ∧ mouseString m p = some (n ++ ascii ("@(" ++ Geom.Spec.decimal p.x ++ "," ++ Geom.Spec.decimal p.y ++ ")"))) ∧
    (Mouse.Plain m → Mouse.Plain m' → (mouseString m p = mouseString m' p' ↔ m = m' ∧ p = p')) := by
  have hsome : ∀ m, ∃ n, Mouse.mouseString m = some n := fun m => Option.ne_none_iff_exists'.1 (Mouse.name_total m).2.2
  constructor
  · obtain ⟨n, hn⟩ := hsome m
    refine ⟨n, hn, ?_⟩
    unfold mouseString
    rw [hn, (text_form ⟨p, p⟩).1]
    simp only [Option.map_some, ascii_append, List.append_assoc, Option.some.injEq]
    rfl
  · intro h h'
    constructor
    · intro he
      obtain ⟨n, hn⟩ := hsome m
      have h1 : mouseString m p = some (n ++ ascii "@" ++ ptString p) := by unfold mouseString; rw [hn]; rfl
      obtain ⟨e1, e2, -⟩ := mouse_then h h' (q := []) (r := []) h1 (by rw [← he, h1]) rfl
      exact ⟨e1, e2⟩
    · rintro ⟨rfl, rfl⟩; rfl

/-- **C150**, the exception: turning the wheel to the right prints as a press of the right button. -/
theorem mouse_text_wrong (p : Pt) : mouseString (Mouse.stateOf ⟨.wheelRight, false, false, false, false, false, 1, 1⟩) p =
      mouseString (Mouse.stateOf ⟨.right, false, false, false, false, false, 1, 1⟩) p ∧
    Mouse.stateOf ⟨.wheelRight, false, false, false, false, false, 1, 1⟩ ≠ Mouse.stateOf ⟨.right, false, false, false, false, false, 1, 1⟩ := by
  have := Mouse.wheel_right_named_right false false false false false
  unfold mouseString
  exact ⟨by rw [this.1], this.2⟩

theorem controls_apart : ∀ a ∈ controls, ∀ b ∈ controls,
    ((escString (fun _ => []) a).getD [] ++ [0x20]).isPrefixOf ((escString (fun _ => []) b).getD [] ++ [0x20]) = true → a = b := by
  decide +kernel

/-- **C150**, escape and control sequences: the text has the sequence's name and its argument, and those of two sequences are alike just
if the sequences are the same. -/
theorem escape_tells (quote : Nat → Bytes) (a b : Nat) (x y : Bytes) (ha : Control a) (hb : Control b) :
    (∃ n, escString quote a = some n ∧ escapeString quote a x = some (n ++ [0x20] ++ x)) ∧
    (escapeString quote a x = escapeString quote b y ↔ a = b ∧ x = y) := by
  obtain ⟨n, hn, -⟩ := control_string quote a ha
  obtain ⟨m, hm, -⟩ := control_string quote b hb
  have hs : ascii " " = [0x20] := by decide
  have h1 : escapeString quote a x = some (n ++ [0x20] ++ x) := by unfold escapeString; rw [hn, hs]; rfl
  have h2 : escapeString quote b y = some (m ++ [0x20] ++ y) := by unfold escapeString; rw [hm, hs]; rfl
  refine ⟨⟨n, hn, h1⟩, ?_⟩
  constructor
  · intro h
    rw [h1, h2, Option.some.injEq] at h
    have p1 : n ++ [0x20] <+: m ++ [0x20] ++ y := ⟨x, h⟩
    have p2 : m ++ [0x20] <+: m ++ [0x20] ++ y := ⟨y, rfl⟩
    have hn' : (escString (fun _ => []) a).getD [] = n := by rw [control_quote _ quote a ha, hn]; rfl
    have hm' : (escString (fun _ => []) b).getD [] = m := by rw [control_quote _ quote b hb, hm]; rfl
    have e : a = b := by
      rcases Nat.le_total (n ++ [0x20]).length (m ++ [0x20]).length with hle | hle
      · exact controls_apart a (mem_controls a ha) b (mem_controls b hb)
          (by rw [hn', hm', List.isPrefixOf_iff_prefix]; exact List.prefix_of_prefix_length_le p1 p2 hle)
      · exact (controls_apart b (mem_controls b hb) a (mem_controls a ha)
          (by rw [hn', hm', List.isPrefixOf_iff_prefix]; exact List.prefix_of_prefix_length_le p2 p1 hle)).symm
    subst e
    rw [hn, Option.some.injEq] at hm
    subst hm
    exact ⟨rfl, List.append_cancel_left h⟩
  · rintro ⟨rfl, rfl⟩; rfl

end Evq

namespace Hud

/-- **C150**, the number of bytes flushed: after `W:` the digits, with blanks before them, one at least, up to five characters. -/
theorem flushed_text (n : Nat) : ∃ k, flushedString n = ascii "W:" ++ List.replicate k 0x20 ++ ascii n.repr ∧ 1 ≤ k ∧
    (k + n.repr.length = 5 ∨ k = 1 ∧ 5 ≤ n.repr.length) := by
  have hl : (itoaNat n).length = n.repr.length := by
    rw [← ascii_repr]; unfold ascii; rw [List.length_map]; rfl
  refine ⟨5 - (1 + (itoaNat n).length) + 1, ?_, by omega, by omega⟩
  unfold flushedString
  rw [ascii_repr, List.replicate_succ']
  simp

/-- **C150**, the size of a screen of `w` columns and `h` rows. -/
theorem size_text {sc : Screen} {w h : Nat} (W : sc.Whole w h) : sizeString sc.grid.rect = ascii ("(" ++ w.repr ++ "," ++ h.repr ++ ")") := by
  unfold sizeString size
  rw [W.rect, (text_form ⟨_, ⟨0, 0⟩⟩).1]
  congr 5
  all_goals (unfold Geom.Spec.decimal; rw [if_neg (by simp)]; congr 1; simp)

theorem blanks_then {j k : Nat} {a b : Bytes} (ha : ∀ t, a ≠ 0x20 :: t) (hb : ∀ t, b ≠ 0x20 :: t)
    (h : List.replicate j 0x20 ++ a = List.replicate k 0x20 ++ b) : a = b := by
  induction j generalizing k with
  | zero =>
    cases k with
    | zero => exact h
    | succ k => exact absurd h (ha _)
  | succ j ih =>
    cases k with
    | zero => exact absurd h.symm (hb _)
    | succ k =>
      rw [List.replicate_succ, List.replicate_succ, List.cons_append, List.cons_append] at h
      exact ih (List.cons.inj h).2

theorem flushed_then {n m : Nat} {q r : Bytes} (h : flushedString n ++ 0x20 :: q = flushedString m ++ 0x20 :: r) : n = m ∧ q = r := by
  have hd : ∀ n, (0x20 : UInt8) ∉ itoaNat n := by
    intro n h
    have := itoaNat_digits n _ h
    revert this; decide
  have hne : ∀ n t q, itoaNat n ++ q ≠ (0x20 : UInt8) :: t := by
    intro n t q h
    cases hi : itoaNat n with
    | nil => exact itoaNat_ne_nil n hi
    | cons x l =>
      rw [hi] at h
      exact hd n (by rw [hi, ← (List.cons.inj h).1]; exact List.mem_cons_self)
  unfold flushedString at h
  simp only [List.append_assoc] at h
  have h := List.append_cancel_left h
  have e : ∀ j (a : Bytes), List.replicate j (0x20 : UInt8) ++ (0x20 :: a) = List.replicate (j + 1) 0x20 ++ a := by
    intro j a
    rw [List.replicate_succ']; simp
  rw [List.cons_append, List.cons_append, e, e] at h
  obtain ⟨e1, e2⟩ := split_at (hd _) (hd _) (blanks_then (fun t => hne _ t _) (fun t => hne _ t _) h)
  exact ⟨itoaNat_inj e1, e2⟩

/-- **C150**, the left half of the header, as it is read in its row, with one blank after each segment: it tells the last mouse event,
the number of bytes flushed and the size of the output, whatever comes after. -/
theorem header_tells_partial (m m' : Mouse.MState) (p p' : Pt) (h : Mouse.Plain m) (h' : Mouse.Plain m') (n n' : Nat) (r r' : Rect)
    (t t' rest rest' : Bytes) (ht : Evq.mouseString m p = some t) (ht' : Evq.mouseString m' p' = some t')
    (he : t ++ [0x20] ++ flushedString n ++ [0x20] ++ sizeString r ++ rest = t' ++ [0x20] ++ flushedString n' ++ [0x20] ++ sizeString r' ++ rest') :
    m = m' ∧ p = p' ∧ n = n' ∧ size r = size r' ∧ rest = rest' := by
  simp only [List.append_assoc] at he
  obtain ⟨e1, e2, he⟩ := Evq.mouse_then h h' ht ht' he
  have he := List.append_cancel_left he
  obtain ⟨e3, he⟩ := flushed_then he
  obtain ⟨e4, he⟩ := point_then he
  exact ⟨e1, e2, e3, e4, he⟩

theorem ascii_shown {gr : Nat → Bool} (hgr : ∀ r, 0x20 ≤ r → r < 0x7F → Screen.Printable gr r) {b : Bytes} (hne : b ≠ [])
    (h : ∀ x ∈ b, 0x20 ≤ x.toNat ∧ x.toNat < 0x7F) : ∃ l, b = encodeRunes l ∧ l ≠ [] ∧ ∀ x ∈ l, Screen.Printable gr x := by
  refine ⟨b.map UInt8.toNat, (ascii_runes b fun x hx => by have := h x hx; omega).symm, by simpa using hne, fun x hx => ?_⟩
  obtain ⟨y, hy, rfl⟩ := List.mem_map.1 hx
  exact hgr _ (h y hy).1 (h y hy).2

/-- **C150**: these three segments are made of characters that can be drawn, as the theorems about the overlay ask for. -/
theorem header_printable {gr : Nat → Bool} (hgr : ∀ r, 0x20 ≤ r → r < 0x7F → Screen.Printable gr r) (m : Mouse.MState) (p : Pt) (n : Nat)
    (r : Rect) (t : Bytes) (ht : Evq.mouseString m p = some t) :
    ∀ b ∈ [sizeString r, flushedString n, t], ∃ l, b = encodeRunes l ∧ l ≠ [] ∧ ∀ x ∈ l, Screen.Printable gr x := by
  have hp : ∀ q : Pt, ∀ x ∈ ptString q, 0x20 ≤ x.toNat ∧ x.toNat < 0x7F := by
    intro q x hx
    rcases point_bytes q x hx with h | h
    · have : ∀ x ∈ ascii "(,)-", 0x20 ≤ x.toNat ∧ x.toNat < 0x7F := by decide
      exact this x h
    · omega
  intro b hb
  simp only [List.mem_cons, List.not_mem_nil, or_false] at hb
  rcases hb with rfl | rfl | rfl
  · exact ascii_shown hgr (by simp [sizeString, ptString]) (hp _)
  · refine ascii_shown hgr (by simp [flushedString]) fun x hx => ?_
    unfold flushedString at hx
    simp only [List.mem_append, List.mem_cons, List.mem_replicate] at hx
    rcases hx with (h | h) | h | h
    · have : ∀ x ∈ ascii "W:", 0x20 ≤ x.toNat ∧ x.toNat < 0x7F := by decide
      exact this x h
    · rw [h.2]; decide
    · rw [h]; decide
    · have := Anansi.itoaNat_digits n x h; omega
  · unfold Evq.mouseString at ht
    rw [Option.map_eq_some_iff] at ht
    obtain ⟨k, hk, rfl⟩ := ht
    refine ascii_shown hgr (by simp [ptString]) fun x hx => ?_
    simp only [List.mem_append] at hx
    rcases hx with (h | h) | h
    · exact (Evq.name_bytes _ _ hk x h).2
    · have : ∀ x ∈ ascii "@", 0x20 ≤ x.toNat ∧ x.toNat < 0x7F := by decide
      exact this x h
    · exact hp _ x h

/-! ### Examples -/

/-- A bold cursor that is shown, and a screen with it. -/
example : let c : Cursor := { pt := ⟨3, 7⟩, attr := Sgr.Style.build { bold := true, fg := some (.indexed 3) }, visible := true }
    c.string = ascii "@(3,7) a:bold fg:yellow v:true" ∧
    ({ cur := c, grid := { rect := ⟨⟨1, 1⟩, ⟨81, 25⟩⟩ } } : Screen).string = ascii "@(3,7) a:bold fg:yellow v:true gridBounds:(1,1)-(81,25)" := by
  decide +kernel

/-- Cursors that differ in what is known of them only. -/
example : ({ pt := ⟨1, 1⟩, attrKnown := true } : Cursor).string = ({ pt := ⟨1, 1⟩ } : Cursor).string ∧
    ({ pt := ⟨1, 1⟩, attrKnown := true } : Cursor) ≠ { pt := ⟨1, 1⟩ } := by decide +kernel

example : Mouse.Plain 0 ∧ Mouse.Plain 0x51 ∧ Evq.mouseString 0 ⟨12, 3⟩ = some (ascii "left@(12,3)") ∧
    Evq.mouseString 0x51 ⟨1, 1⟩ = some (ascii "ctrl+wheelDown@(1,1)") := by decide +kernel

example : Control (csiId 0x6D) ∧ Evq.escapeString (fun _ => []) (csiId 0x6D) (ascii "1;31") = some (ascii "CSI+m 1;31") :=
  ⟨by unfold Control csiId; decide, by decide +kernel⟩

example : flushedString 0 = ascii "W:    0" ∧ flushedString 1234 = ascii "W: 1234" ∧ flushedString 123456 = ascii "W: 123456" ∧
    sizeString ⟨⟨1, 1⟩, ⟨81, 25⟩⟩ = ascii "(80,24)" := by decide +kernel

end Hud
end Anansi
