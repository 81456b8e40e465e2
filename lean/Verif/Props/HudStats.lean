import Verif.Model.HudStats
import Verif.Props.HudTiming
import Verif.Props.TeleLog
/-
C122 The frame rate panel shows the telemetry and its headings switch it.
-/
set_option autoImplicit false

namespace Anansi.Hud
open Geom Evq Screen

variable {α : Type}

namespace Spec

/-- Lines one below the other from row `y` on: each is a text and the number of columns left
free to the right of it. -/
def column (w : Nat) (st : Attr) : Nat → List (List Nat × Nat) → (Nat → Nat → Option Cell) → Nat → Nat → Option Cell
  | _, [], f => f
  | y, l :: ls, f => column w st (y + 1) ls (lay l.1 (w - l.2 - l.1.length) y st f)

/-- A heading: its title, a blank and the rule, up to the last column. -/
def head (sep title : List Nat) : List Nat × Nat := (title ++ [0x20] ++ sep, 0)

/-- A row: a key and a value, up to the column before the last. -/
def entry (dw : Nat) (r : List Nat × List Nat) : List Nat × Nat := (pair dw r.1 r.2, 1)

/-- The place of a heading with a title of `k` characters. -/
def bar (w dw k y : Nat) : Rect := box (w - dw - 1 - k) y (k + 1 + dw)

/-- What frames last: the estimated and the measured rate, and the shortest, the quartiles and the
longest. -/
def timingTable (s : Says) (p : Tel.Tele α) : List (List Nat × List Nat) :=
  [(runes "estimate", s.estimate), (runes "actual", s.fps p.timing), (runes "∂t min", s.ms p.timing.stats.min),
   (runes "q1", s.ms p.timing.stats.q1), (runes "q2", s.ms p.timing.stats.q2), (runes "q3", s.ms p.timing.stats.q3),
   (runes "max", s.ms p.timing.stats.max)]

/-- How output stalls: how often, the shortest, the longest, in all, and as a share. -/
def stallTable (s : Says) (p : Tel.Tele α) : List (List Nat × List Nat) :=
  [(runes "Stalls", s.num p.stats.n), (runes "min t", s.dur p.stats.min), (runes "max t", s.dur p.stats.max),
   (runes "∑ t", s.dur p.stats.sum), (runes "% t", s.pct p.pct)]

/-- The panel: each table is below its heading if it is switched on. -/
def statLines (dw : Nat) (sep : List Nat) (s : Says) (p : Tel.Tele α) : List (List Nat × Nat) :=
  [head sep (runes "# Frame Control:"), head sep (runes "# Frame Timing:")] ++
  (if p.sw.timing then (timingTable s p).map (entry dw) else []) ++
  [head sep (runes "# Output Stalls:")] ++
  (if p.sw.stalls then (stallTable s p).map (entry dw) else [])

/-- A switch turned by an odd number of left presses. -/
def turn (b : Rect) (es : Events) (o : Tel.Op) (p : Tel.Tele α) : Tel.Tele α := if odd b es then p.op o else p

end Spec

/-! ### Columns -/

theorem column_congr {w h : Nat} (st : Attr) : ∀ (l : List (List Nat × Nat)) (y : Nat)
    (f g : Nat → Nat → Option Cell) (_ : ∀ a b, a < w → b < h → f a b = g a b),
    ∀ a b, a < w → b < h → Spec.column w st y l f a b = Spec.column w st y l g a b
  | [], _, _, _, hfg => hfg
  | _ :: ls, y, _, _, hfg => column_congr st ls (y + 1) _ _ (lay_congr hfg _ _ _ _)

theorem column_append (w : Nat) (st : Attr) : ∀ (l m : List (List Nat × Nat)) (y : Nat) (f : Nat → Nat → Option Cell),
    Spec.column w st y (l ++ m) f = Spec.column w st (y + l.length) m (Spec.column w st y l f)
  | [], _, _, _ => rfl
  | l :: ls, m, y, f => by
    show Spec.column w st (y + 1) (ls ++ m) _ = _
    rw [column_append w st ls m (y + 1)]
    simp only [List.length_cons, Spec.column]
    rw [show y + 1 + ls.length = y + (ls.length + 1) by omega]

/-- Rows above or below a column are not touched. -/
theorem column_outside (w : Nat) (st : Attr) : ∀ (l : List (List Nat × Nat)) (y : Nat) (f : Nat → Nat → Option Cell) (a b : Nat),
    b < y ∨ y + l.length ≤ b → Spec.column w st y l f a b = f a b
  | [], _, _, _, _, _ => rfl
  | l :: ls, y, f, a, b, h => by
    simp only [List.length_cons] at h
    rw [Spec.column, column_outside w st ls (y + 1) _ a b (by omega)]
    unfold Spec.lay
    rw [if_neg (by omega)]

/-- Every row of a column shows its line. -/
theorem column_row (w : Nat) (st : Attr) : ∀ (l : List (List Nat × Nat)) (y : Nat) (f : Nat → Nat → Option Cell) (i : Nat)
    (x : List Nat × Nat) (_ : l[i]? = some x) (a : Nat),
    Spec.column w st y l f a (y + i) = Spec.lay x.1 (w - x.2 - x.1.length) (y + i) st f a (y + i)
  | [], _, _, _, _, h, _ => by simp at h
  | l :: ls, y, f, 0, x, h, a => by
    simp only [List.getElem?_cons_zero, Option.some.injEq] at h
    subst h
    rw [Spec.column, column_outside w st ls (y + 1) _ a (y + 0) (by omega)]
    rfl
  | l :: ls, y, f, i + 1, x, h, a => by
    rw [Spec.column, show y + (i + 1) = y + 1 + i by omega, column_row w st ls (y + 1) _ i x (by simpa using h) a]
    unfold Spec.lay
    rw [if_neg (c := y + 1 + i = y ∧ _) (by omega)]

/-- What a row needs: characters that can be seen, and room. -/
structure Fits (gr : Nat → Bool) (w dw : Nat) (r : List Nat × List Nat) : Prop where
  key : ∀ c ∈ r.1, Screen.Printable gr c
  val : ∀ c ∈ r.2, Screen.Printable gr c
  len : r.2.length ≤ dw
  room : r.1.length + 2 + dw ≤ w

theorem pair_length {dw : Nat} {k v : List Nat} (h : v.length ≤ dw) : (Spec.pair dw k v).length = k.length + 1 + dw := by
  simp only [Spec.pair, List.length_append, List.length_replicate, List.length_cons, List.length_nil]
  omega

/-- A row as a line of a column. -/
theorem row_line (gr : Nat → Bool) (hsp : Screen.Printable gr 0x20) {w h y : Nat} (v : VScreen) (R : Ready v w h (w - 1) y) (dw : Nat)
    (r : List Nat × List Nat) (F : Fits gr w dw r) :
    ∃ b v', detailRow gr dw v (encodeRunes r.1) (encodeRunes r.2) = .ok (b, v') ∧
      Ready v' w h (w - 1) (min (h - 1) (y + 1)) ∧ v'.sc.cur.attr = v.sc.cur.attr ∧ v'.sc.cur.attrKnown = v.sc.cur.attrKnown ∧
      ∀ a b, a < w → b < h → v'.sc.look w a b =
        Spec.lay (Spec.entry dw r).1 (w - (Spec.entry dw r).2 - (Spec.entry dw r).1.length) y v.sc.cur.attr (v.sc.look w) a b := by
  obtain ⟨v', e, R', A, K, L⟩ := row_drawn_partial gr hsp v R dw r.1 r.2 F.key F.val F.len F.room
  refine ⟨_, v', e, R', A, K, fun a b ha hb => ?_⟩
  have := F.room
  rw [L a b ha hb]
  simp only [Spec.entry]
  rw [pair_length F.len, show w - 1 - (r.1.length + 1 + dw) = w - dw - 2 - r.1.length by omega]
  unfold Spec.lay
  rw [pair_length F.len]
  have : (b = y ∧ w - dw - 2 - r.1.length ≤ a ∧ a < w - 1) ↔
      (b = y ∧ w - dw - 2 - r.1.length ≤ a ∧ a < w - dw - 2 - r.1.length + (r.1.length + 1 + dw)) := by omega
  simp only [this]
  rfl

/-- A heading as a line of a column. -/
theorem head_line (gr : Nat → Bool) (hsp : Screen.Printable gr 0x20) {w h c y : Nat} (v : VScreen) (R : Ready v w h c y) (dw : Nat)
    (hdw : 1 ≤ dw) (sep title : List Nat) (hs : ∀ r ∈ sep, Screen.Printable gr r) (hl : sep.length = dw)
    (ht : ∀ r ∈ title, Screen.Printable gr r) (hw : title.length + 1 + dw ≤ w) :
    ∃ v', detailHeader gr dw (encodeRunes sep) v (encodeRunes title) = .ok (Spec.bar w dw title.length y, v') ∧
      Ready v' w h (w - 1) (min (h - 1) (y + 1)) ∧ v'.sc.cur.attr = v.sc.cur.attr ∧
      ∀ a b, a < w → b < h → v'.sc.look w a b =
        Spec.lay (Spec.head sep title).1 (w - (Spec.head sep title).2 - (Spec.head sep title).1.length) y v.sc.cur.attr
          (v.sc.look w) a b := by
  obtain ⟨v', e, R', A, -, L⟩ := heading_drawn gr hsp v R dw hdw sep title hs hl ht hw
  refine ⟨v', e, R', A, fun a b ha hb => ?_⟩
  rw [L a b ha hb]
  have hlen : (title ++ [0x20] ++ sep).length = title.length + 1 + dw := by simp [hl]; omega
  simp only [Spec.head]
  unfold Spec.lay
  rw [hlen, show w - 0 - (title.length + 1 + dw) = w - dw - 1 - title.length by omega]
  have : (b = y ∧ w - dw - 1 - title.length ≤ a) ↔
      (b = y ∧ w - dw - 1 - title.length ≤ a ∧ a < w - dw - 1 - title.length + (title.length + 1 + dw)) := by omega
  simp only [this]

/-- Rows, wherever they are: on a screen with room they make a column. -/
theorem rows_column (gr : Nat → Bool) (hsp : Screen.Printable gr 0x20) {w h : Nat} (dw : Nat) : ∀ (l : List (List Nat × List Nat))
    (_ : ∀ r ∈ l, Fits gr w dw r) (v : VScreen) (y : Nat) (_ : Ready v w h (w - 1) y),
    ∃ v', rows gr dw (l.map fun r => (encodeRunes r.1, encodeRunes r.2)) v = .ok v' ∧
      Ready v' w h (w - 1) (min (h - 1) (y + l.length)) ∧ v'.sc.cur.attr = v.sc.cur.attr ∧
      (y + l.length ≤ h → ∀ a b, a < w → b < h → v'.sc.look w a b =
        Spec.column w v.sc.cur.attr y (l.map (Spec.entry dw)) (v.sc.look w) a b)
  | [], _, v, y, R => by
    refine ⟨v, rfl, ?_, rfl, fun _ a b _ _ => rfl⟩
    have := R.hy
    rw [show min (h - 1) (y + ([] : List (List Nat × List Nat)).length) = y by simp; omega]
    exact R
  | r :: l, F, v, y, R => by
    obtain ⟨b, v1, e1, R1, A1, K1, L1⟩ := row_line gr hsp v R dw r (F r (by simp))
    obtain ⟨v2, e2, R2, A2, L2⟩ := rows_column gr hsp dw l (fun r hr => F r (by simp [hr])) v1 _ R1
    refine ⟨v2, ?_, ?_, A2.trans A1, ?_⟩
    · simp only [List.map_cons, rows]
      rw [e1]
      exact e2
    · have hy := R.hy
      rw [show min (h - 1) (y + (r :: l).length) = min (h - 1) (min (h - 1) (y + 1) + l.length) by
        simp only [List.length_cons]; omega]
      exact R2
    · intro hh a b ha hb
      simp only [List.length_cons] at hh
      cases l with
      | nil =>
        rw [L2 (by simp) a b ha hb]
        exact L1 a b ha hb
      | cons r' l' =>
        simp only [List.length_cons] at hh
        have m : min (h - 1) (y + 1) = y + 1 := by omega
        rw [m] at L2
        rw [L2 (by simp; omega) a b ha hb, A1]
        exact column_congr _ _ _ _ _ L1 a b ha hb

/-! ### The texts -/

theorem timing_texts (s : Says) (p : Tel.Tele α) :
    timingRows s p = (Spec.timingTable s p).map fun r => (encodeRunes r.1, encodeRunes r.2) := by
  have h : ascii "estimate" = encodeRunes (Spec.runes "estimate") ∧ ascii "actual" = encodeRunes (Spec.runes "actual") ∧
      ([0xE2, 0x88, 0x82] ++ ascii "t min" : Bytes) = encodeRunes (Spec.runes "∂t min") ∧
      ascii "q1" = encodeRunes (Spec.runes "q1") ∧ ascii "q2" = encodeRunes (Spec.runes "q2") ∧
      ascii "q3" = encodeRunes (Spec.runes "q3") ∧ ascii "max" = encodeRunes (Spec.runes "max") := by decide +kernel
  obtain ⟨h1, h2, h3, h4, h5, h6, h7⟩ := h
  unfold timingRows Spec.timingTable
  rw [h1, h2, h3, h4, h5, h6, h7]
  rfl

theorem stall_texts (s : Says) (p : Tel.Tele α) :
    stallRows s p = (Spec.stallTable s p).map fun r => (encodeRunes r.1, encodeRunes r.2) := by
  have h : ascii "Stalls" = encodeRunes (Spec.runes "Stalls") ∧ ascii "min t" = encodeRunes (Spec.runes "min t") ∧
      ascii "max t" = encodeRunes (Spec.runes "max t") ∧
      ([0xE2, 0x88, 0x91] ++ ascii " t" : Bytes) = encodeRunes (Spec.runes "∑ t") ∧
      ascii "% t" = encodeRunes (Spec.runes "% t") := by decide +kernel
  obtain ⟨h1, h2, h3, h4, h5⟩ := h
  unfold stallRows Spec.stallTable
  rw [h1, h2, h3, h4, h5]
  rfl

theorem title_texts : ascii "# Frame Control:" = encodeRunes (Spec.runes "# Frame Control:") ∧
    ascii "# Frame Timing:" = encodeRunes (Spec.runes "# Frame Timing:") ∧
    ascii "# Output Stalls:" = encodeRunes (Spec.runes "# Output Stalls:") := by decide +kernel

theorem title_lengths : (Spec.runes "# Frame Control:").length = 16 ∧ (Spec.runes "# Frame Timing:").length = 15 ∧
    (Spec.runes "# Output Stalls:").length = 16 := by decide

theorem titles_printable {gr : Nat → Bool} (hgr : ∀ r, 0x20 ≤ r → r < 0x7F → Screen.Printable gr r) :
    (∀ r ∈ Spec.runes "# Frame Control:", Screen.Printable gr r) ∧ (∀ r ∈ Spec.runes "# Frame Timing:", Screen.Printable gr r) ∧
    ∀ r ∈ Spec.runes "# Output Stalls:", Screen.Printable gr r := by
  have h : (∀ r ∈ Spec.runes "# Frame Control:", 0x20 ≤ r ∧ r < 0x7F) ∧ (∀ r ∈ Spec.runes "# Frame Timing:", 0x20 ≤ r ∧ r < 0x7F) ∧
    ∀ r ∈ Spec.runes "# Output Stalls:", 0x20 ≤ r ∧ r < 0x7F := by decide
  exact ⟨fun r hr => hgr r (h.1 r hr).1 (h.1 r hr).2, fun r hr => hgr r (h.2.1 r hr).1 (h.2.1 r hr).2,
    fun r hr => hgr r (h.2.2 r hr).1 (h.2.2 r hr).2⟩

theorem key_fits {gr : Nat → Bool} (hgr : ∀ r, 0x20 ≤ r → r < 0x7F → Screen.Printable gr r) (hdt : Screen.Printable gr 0x2202)
    (hsum : Screen.Printable gr 0x2211) (s : Says) (p : Tel.Tele α) :
    ∀ r ∈ Spec.timingTable s p ++ Spec.stallTable s p, r.1.length ≤ 8 ∧ ∀ c ∈ r.1, Screen.Printable gr c := by
  have h : ∀ k ∈ ["estimate", "actual", "∂t min", "q1", "q2", "q3", "max", "Stalls", "min t", "max t", "∑ t", "% t"],
      (Spec.runes k).length ≤ 8 ∧ ∀ c ∈ Spec.runes k, (0x20 ≤ c ∧ c < 0x7F) ∨ c = 0x2202 ∨ c = 0x2211 := by decide
  have h' : ∀ k ∈ ["estimate", "actual", "∂t min", "q1", "q2", "q3", "max", "Stalls", "min t", "max t", "∑ t", "% t"],
      (Spec.runes k).length ≤ 8 ∧ ∀ c ∈ Spec.runes k, Screen.Printable gr c := by
    intro k hk
    refine ⟨(h k hk).1, fun c hc => ?_⟩
    rcases (h k hk).2 c hc with h | rfl | rfl
    · exact hgr c h.1 h.2
    · exact hdt
    · exact hsum
  intro r hr
  simp only [Spec.timingTable, Spec.stallTable, List.cons_append, List.nil_append, List.mem_cons, List.not_mem_nil, or_false] at hr
  rcases hr with rfl | rfl | rfl | rfl | rfl | rfl | rfl | rfl | rfl | rfl | rfl | rfl <;>
    exact h' _ (by simp)

/-! ### Presses -/

theorem flip_odd (b : Rect) (es : Events) (x : Bool) :
    (if es.countP (pressIn b 1) % 2 = 1 then !x else x) = xor x (Spec.odd b es) := by
  unfold Spec.odd
  generalize es.countP (pressIn b 1) = n
  rcases Nat.mod_two_eq_zero_or_one n with h | h <;> simp only [h] <;> cases x <;> rfl

theorem turn_eq (b : Rect) (es : Events) (o : Tel.Op) (p : Tel.Tele α) :
    (if es.countP (pressIn b 1) % 2 = 1 then p.op o else p) = Spec.turn b es o p := by
  unfold Spec.turn Spec.odd
  simp

theorem without_one (b : Rect) (es : Events) : strikeIf (pressIn b 1) es = Spec.without [b] es := by
  simp [Spec.without]

theorem without_without (bs cs : List Rect) (es : Events) : Spec.without cs (Spec.without bs es) = Spec.without (bs ++ cs) es := by
  unfold Spec.without
  rw [strike_strike]
  · simp
  · intro e
    rw [List.any_eq_false]
    intro b _
    rw [struck_not_in]
    simp

theorem odd_without {b : Rect} {bs : List Rect} (h : ∀ c ∈ bs, ∀ p, ¬ (Geom.Mem p c ∧ Geom.Mem p b)) (es : Events) :
    Spec.odd b (Spec.without bs es) = Spec.odd b es := by
  unfold Spec.odd Spec.without
  rw [count_strike _ _ _ ?_ (struck_not_in _ 1)]
  intro e he
  obtain ⟨c, hc, hp⟩ := List.any_eq_true.1 he
  exact press_apart (h c hc) e hp

/-- Presses taken by a box that covers another do not count for the other. -/
theorem odd_covered {b : Rect} {bs : List Rect} (h : ∃ c ∈ bs, ∀ p, Geom.Mem p b → Geom.Mem p c) (es : Events) :
    Spec.odd b (Spec.without bs es) = false := by
  obtain ⟨c, hc, hbc⟩ := h
  have hz : (Spec.without bs es).countP (pressIn b 1) = 0 := by
    rw [List.countP_eq_zero]
    intro e he
    obtain ⟨e0, -, rfl⟩ := List.mem_map.1 he
    split
    · rw [struck_not_in]; simp
    · next hn =>
      intro hp
      apply hn
      rw [List.any_eq_true]
      refine ⟨c, hc, ?_⟩
      unfold pressIn at hp ⊢
      simp only [Bool.and_eq_true, ptIn_iff] at hp ⊢
      exact ⟨hp.1, hbc _ hp.2⟩
  unfold Spec.odd
  rw [hz]
  rfl

/-! ### The panel -/

theorem stalls_keeps_timing (b : Rect) (es : Events) (p : Tel.Tele α) :
    (Spec.turn b es .stalls p).sw.timing = p.sw.timing ∧ (Spec.turn b es .stalls p).timing = p.timing := by
  unfold Spec.turn Tel.Tele.op Tel.Tele.setStalls Tel.Tele.trackStalls
  split
  · simp only
    split <;> exact ⟨rfl, rfl⟩
  · exact ⟨rfl, rfl⟩

/-- The number of rows under "# Frame Timing:" and under "# Output Stalls:". -/
def timingCount (p : Tel.Tele α) : Nat := if p.sw.timing then 7 else 0
def stallCount (p : Tel.Tele α) : Nat := if p.sw.stalls then 5 else 0

/-- The rows of a table that is switched on or not. -/
theorem maybe_rows (gr : Nat → Bool) (hsp : Screen.Printable gr 0x20) {w h y : Nat} (dw : Nat) (on : Bool)
    (l : List (List Nat × List Nat)) (F : on = true → ∀ r ∈ l, Fits gr w dw r) (v : VScreen) (R : Ready v w h (w - 1) y) :
    ∃ v', (if on then rows gr dw (l.map fun r => (encodeRunes r.1, encodeRunes r.2)) v else .ok v) = .ok v' ∧
      Ready v' w h (w - 1) (min (h - 1) (y + if on then l.length else 0)) ∧ v'.sc.cur.attr = v.sc.cur.attr ∧
      (y + (if on then l.length else 0) ≤ h → ∀ a b, a < w → b < h → v'.sc.look w a b =
        Spec.column w v.sc.cur.attr y (if on then l.map (Spec.entry dw) else []) (v.sc.look w) a b) := by
  cases on with
  | true =>
    obtain ⟨v', e, rest⟩ := rows_column gr hsp dw l (F rfl) v y R
    exact ⟨v', e, rest⟩
  | false =>
    refine ⟨v, rfl, ?_, rfl, fun _ a b _ _ => rfl⟩
    have := R.hy
    rw [show min (h - 1) (y + if false = true then l.length else 0) = y by simp; omega]
    exact R

/-- The panel on a screen of any height at all: where it is too short, lines are drawn one over the
other in the last row. -/
theorem fps_steps (gr : Nat → Bool) (hgr : ∀ r, 0x20 ≤ r → r < 0x7F → Screen.Printable gr r) (hdt : Screen.Printable gr 0x2202)
    (hsum : Screen.Printable gr 0x2211) {w h c y : Nat} (v : VScreen) (R : Ready v w h c y) (dw : Nat) (hdw : 1 ≤ dw)
    (hw : 17 + dw ≤ w) (sep : List Nat) (hs : ∀ r ∈ sep, Screen.Printable gr r) (hl : sep.length = dw) (s : Says) (ctl : Bool)
    (p : Tel.Tele α) (es : Events) (p1 p2 : Tel.Tele α) (es1 es2 : Events)
    (he1 : es1 = Spec.without [Spec.bar w dw 16 y] es)
    (hp1 : p1 = Spec.turn (Spec.bar w dw 15 (min (h - 1) (y + 1))) es1 .timing p)
    (he2 : es2 = Spec.without [Spec.bar w dw 15 (min (h - 1) (y + 1))] es1)
    (hp2 : p2 = Spec.turn (Spec.bar w dw 16 (min (h - 1) (y + 2 + timingCount p1))) es2 .stalls p1)
    (hT : p1.sw.timing = true → ∀ r ∈ Spec.timingTable s p1, r.2.length ≤ dw ∧ ∀ c ∈ r.2, Screen.Printable gr c)
    (hS : p2.sw.stalls = true → ∀ r ∈ Spec.stallTable s p2, r.2.length ≤ dw ∧ ∀ c ∈ r.2, Screen.Printable gr c) :
    ∃ v', fpsDetail gr dw (encodeRunes sep) s ctl p es v =
        .ok (xor ctl (Spec.odd (Spec.bar w dw 16 y) es), p2,
          Spec.without [Spec.bar w dw 16 (min (h - 1) (y + 2 + timingCount p1))] es2, v') ∧
      Ready v' w h (w - 1) (min (h - 1) (y + 3 + timingCount p1 + stallCount p2)) ∧ v'.sc.cur.attr = v.sc.cur.attr ∧
      (y + 3 + timingCount p1 + stallCount p2 ≤ h → ∀ a b, a < w → b < h → v'.sc.look w a b =
        Spec.column w v.sc.cur.attr y (Spec.statLines dw sep s p2) (v.sc.look w) a b) := by
  have hyh := R.hy
  have hsp : Screen.Printable gr 0x20 := hgr _ (by omega) (by omega)
  obtain ⟨t1, t2, t3⟩ := title_texts
  obtain ⟨n1, n2, n3⟩ := title_lengths
  obtain ⟨q1, q2, q3⟩ := titles_printable hgr
  have hks := key_fits (α := α) hgr hdt hsum s
  have FT : p1.sw.timing = true → ∀ r ∈ Spec.timingTable s p1, Fits gr w dw r := fun h r hr =>
    have hk := hks p1 r (by simp [hr])
    ⟨hk.2, (hT h r hr).2, (hT h r hr).1, by omega⟩
  have FS : p2.sw.stalls = true → ∀ r ∈ Spec.stallTable s p2, Fits gr w dw r := fun h r hr =>
    have hk := hks p2 r (by simp [hr])
    ⟨hk.2, (hS h r hr).2, (hS h r hr).1, by omega⟩
  obtain ⟨v1, e1, R1, A1, L1⟩ := head_line gr hsp v R dw hdw sep _ hs hl q1 (by omega)
  obtain ⟨v2, e2, R2, A2, L2⟩ := head_line gr hsp v1 R1 dw hdw sep _ hs hl q2 (by omega)
  rw [show min (h - 1) (min (h - 1) (y + 1) + 1) = min (h - 1) (y + 2) by omega] at R2
  obtain ⟨v3, e3, R3, A3, L3⟩ := maybe_rows gr hsp dw p1.sw.timing (Spec.timingTable s p1) FT v2 R2
  have c1 : (if p1.sw.timing = true then (Spec.timingTable s p1).length else 0) = timingCount p1 := rfl
  rw [c1, show min (h - 1) (min (h - 1) (y + 2) + timingCount p1) = min (h - 1) (y + 2 + timingCount p1) by omega] at R3
  rw [c1] at L3
  obtain ⟨v4, e4, R4, A4, L4⟩ := head_line gr hsp v3 R3 dw hdw sep _ hs hl q3 (by omega)
  rw [show min (h - 1) (min (h - 1) (y + 2 + timingCount p1) + 1) = min (h - 1) (y + 3 + timingCount p1) by omega] at R4
  obtain ⟨v5, e5, R5, A5, L5⟩ := maybe_rows gr hsp dw p2.sw.stalls (Spec.stallTable s p2) FS v4 R4
  have c2 : (if p2.sw.stalls = true then (Spec.stallTable s p2).length else 0) = stallCount p2 := rfl
  rw [c2, show min (h - 1) (min (h - 1) (y + 3 + timingCount p1) + stallCount p2) =
    min (h - 1) (y + 3 + timingCount p1 + stallCount p2) by omega] at R5
  rw [c2] at L5
  rw [n1] at e1
  rw [n2] at e2
  rw [n3] at e4
  refine ⟨v5, ?_, R5, A5.trans (A4.trans (A3.trans (A2.trans A1))), ?_⟩
  · have hop1 : (if es1.countP (pressIn (Spec.bar w dw 15 (min (h - 1) (y + 1))) 1) % 2 = 1 then p.setTiming (!p.sw.timing) else p) = p1 := by
      rw [hp1]
      exact turn_eq _ _ .timing p
    have hop2 : (if es2.countP (pressIn (Spec.bar w dw 16 (min (h - 1) (y + 2 + timingCount p1))) 1) % 2 = 1
        then p1.setStalls (!p1.sw.stalls) else p1) = p2 := by
      rw [hp2]
      exact turn_eq _ _ .stalls p1
    unfold fpsDetail frameTiming stallsDetail
    rw [t1, t2, t3, e1]
    simp only [Except.bind, countPressesIn_exact, Nat.zero_add]
    rw [e2]
    simp only [without_one]
    rw [← he1, hop1, timing_texts, e3]
    simp only
    rw [e4]
    simp only
    rw [← he2, hop2, stall_texts, e5, flip_odd]
  · intro hh a b ha hb
    have m1 : min (h - 1) (y + 1) = y + 1 := by omega
    have m2 : min (h - 1) (y + 2) = y + 2 := by omega
    have m3 : min (h - 1) (y + 2 + timingCount p1) = y + 2 + timingCount p1 := by omega
    rw [m1] at L2
    rw [m2] at L3
    rw [m3] at L4
    obtain ⟨k1, k2⟩ : p2.sw.timing = p1.sw.timing ∧ p2.timing = p1.timing := by
      rw [hp2]
      exact stalls_keeps_timing _ _ _
    have ktab : Spec.timingTable s p2 = Spec.timingTable s p1 := by
      unfold Spec.timingTable
      rw [k2]
    have hlen : (if p1.sw.timing = true then (Spec.timingTable s p1).map (Spec.entry dw) else []).length = timingCount p1 := by
      unfold timingCount
      split <;> simp [Spec.timingTable]
    unfold Spec.statLines
    rw [k1, ktab, column_append, column_append, column_append]
    simp only [List.length_append, List.length_cons, List.length_nil, hlen, Nat.zero_add]
    have d1 : ∀ a b, a < w → b < h → v2.sc.look w a b = Spec.column w v.sc.cur.attr y
        [Spec.head sep (Spec.runes "# Frame Control:"), Spec.head sep (Spec.runes "# Frame Timing:")] (v.sc.look w) a b := by
      intro a b ha hb
      rw [L2 a b ha hb, A1]
      exact lay_congr L1 _ _ _ _ a b ha hb
    have d2 : ∀ a b, a < w → b < h → v3.sc.look w a b = _ := fun a b ha hb =>
      (L3 (by omega) a b ha hb).trans (column_congr _ _ _ _ _ d1 a b ha hb)
    have d3 : ∀ a b, a < w → b < h → v4.sc.look w a b = _ := fun a b ha hb =>
      (L4 a b ha hb).trans (lay_congr d2 _ _ _ _ a b ha hb)
    have A34 : v4.sc.cur.attr = v.sc.cur.attr := A4.trans (A3.trans (A2.trans A1))
    have A33 : v3.sc.cur.attr = v.sc.cur.attr := A3.trans (A2.trans A1)
    have A32 : v2.sc.cur.attr = v.sc.cur.attr := A2.trans A1
    have hn2 : y + 2 + timingCount p1 + 1 = y + 3 + timingCount p1 := by omega
    by_cases hz : p2.sw.stalls = true
    · have hc : stallCount p2 = 5 := by unfold stallCount; rw [if_pos hz]
      have m4 : min (h - 1) (y + 3 + timingCount p1) = y + 3 + timingCount p1 := by omega
      rw [m4] at L5
      rw [L5 (by omega) a b ha hb, A34]
      rw [A32, A33] at d3
      have := column_congr v.sc.cur.attr (if p2.sw.stalls = true then (Spec.stallTable s p2).map (Spec.entry dw) else [])
        (y + 3 + timingCount p1) _ _ d3 a b ha hb
      rw [this, show y + (2 + timingCount p1 + 1) = y + 3 + timingCount p1 by omega,
        show y + (2 + timingCount p1) = y + 2 + timingCount p1 by omega]
      rfl
    · have hc : stallCount p2 = 0 := by unfold stallCount; rw [if_neg hz]
      rw [if_neg hz]
      have := L5 (by omega) a b ha hb
      rw [if_neg hz] at this
      rw [A32, A33] at d3
      rw [this]
      show v4.sc.look w a b = _
      rw [d3 a b ha hb, show y + (2 + timingCount p1) = y + 2 + timingCount p1 by omega]
      rfl

/-- **C122**: the panel on a screen with room for it.  An odd number of left presses on
"# Frame Timing:" switches the timing, one on "# Output Stalls:" the tracking of stalls, and one on
"# Frame Control:" a flag; these presses and no others are taken, each heading counting those in
its own place.  The panel then shows the three headings, and under the second and the third, if
they are switched on, the durations of frames and the stalls as they are after the presses; no
other cell changes. -/
theorem fps_drawn_partial (gr : Nat → Bool) (hgr : ∀ r, 0x20 ≤ r → r < 0x7F → Screen.Printable gr r) (hdt : Screen.Printable gr 0x2202)
    (hsum : Screen.Printable gr 0x2211) {w h c y : Nat} (v : VScreen) (R : Ready v w h c y) (dw : Nat) (hdw : 1 ≤ dw)
    (hw : 17 + dw ≤ w) (sep : List Nat) (hs : ∀ r ∈ sep, Screen.Printable gr r) (hl : sep.length = dw) (s : Says) (ctl : Bool)
    (p : Tel.Tele α) (es : Events) (b1 b2 b3 : Rect) (p' : Tel.Tele α)
    (hb1 : b1 = Spec.bar w dw 16 y) (hb2 : b2 = Spec.bar w dw 15 (y + 1))
    (hb3 : b3 = Spec.bar w dw 16 (y + 2 + if xor p.sw.timing (Spec.odd b2 es) then 7 else 0))
    (hp' : p' = Spec.turn b3 es .stalls (Spec.turn b2 es .timing p))
    (hv : ∀ r ∈ (if p'.sw.timing then Spec.timingTable s p' else []) ++ (if p'.sw.stalls then Spec.stallTable s p' else []),
      r.2.length ≤ dw ∧ ∀ c ∈ r.2, Screen.Printable gr c)
    (hh : y + (Spec.statLines dw sep s p').length ≤ h) :
    ∃ v', fpsDetail gr dw (encodeRunes sep) s ctl p es v =
        .ok (xor ctl (Spec.odd b1 es), p', Spec.without [b1, b2, b3] es, v') ∧
      (p'.sw.timing = xor p.sw.timing (Spec.odd b2 es) ∧ p'.sw.stalls = xor p.sw.stalls (Spec.odd b3 es)) ∧
      Ready v' w h (w - 1) (min (h - 1) (y + (Spec.statLines dw sep s p').length)) ∧
      ∀ a b, a < w → b < h → v'.sc.look w a b =
        Spec.column w v.sc.cur.attr y (Spec.statLines dw sep s p') (v.sc.look w) a b := by
  have hyh := R.hy
  have hflip : (Spec.turn b2 es .timing p).sw.timing = xor p.sw.timing (Spec.odd b2 es) := by
    unfold Spec.turn Tel.Tele.op Tel.Tele.setTiming
    cases Spec.odd b2 es <;> cases hq : p.sw.timing <;> simp [hq]
    split <;> rfl
  have hkeep : (Spec.turn b2 es .timing p).sw.stalls = p.sw.stalls := by
    unfold Spec.turn Tel.Tele.op Tel.Tele.setTiming
    cases Spec.odd b2 es <;> cases hq : p.sw.timing <;> simp
    split <;> rfl
  have hflip3 : p'.sw.stalls = xor p.sw.stalls (Spec.odd b3 es) := by
    rw [hp', ← hkeep]
    generalize Spec.turn b2 es .timing p = q
    unfold Spec.turn Tel.Tele.op Tel.Tele.setStalls Tel.Tele.trackStalls
    cases Spec.odd b3 es <;> cases hq : q.sw.stalls <;> simp [hq]
  have hk := stalls_keeps_timing b3 es (Spec.turn b2 es .timing p)
  rw [← hp'] at hk
  have hcount : (if xor p.sw.timing (Spec.odd b2 es) then 7 else 0) = timingCount (Spec.turn b2 es .timing p) := by
    unfold timingCount
    rw [hflip]
  have hlen : (Spec.statLines dw sep s p').length = 3 + timingCount (Spec.turn b2 es .timing p) + stallCount p' := by
    unfold Spec.statLines timingCount stallCount
    rw [hk.1]
    cases (Spec.turn b2 es .timing p).sw.timing <;> cases p'.sw.stalls <;> simp [Spec.timingTable, Spec.stallTable]
  rw [hlen] at hh ⊢
  have m1 : min (h - 1) (y + 1) = y + 1 := by omega
  have m2 : min (h - 1) (y + 2 + timingCount (Spec.turn b2 es .timing p)) = y + 2 + timingCount (Spec.turn b2 es .timing p) := by omega
  have hapart : ∀ x x' k k' r r' : Nat, r < r' → ∀ q, ¬ (Geom.Mem q (Spec.box x r k) ∧ Geom.Mem q (Spec.box x' r' k')) := by
    rintro x x' k k' r r' hr q ⟨h1, h2⟩
    unfold Geom.Mem Spec.box at h1 h2
    simp only at h1 h2
    omega
  have o2 : Spec.odd b2 (Spec.without [b1] es) = Spec.odd b2 es := by
    apply odd_without
    intro c hc
    rw [List.mem_singleton.1 hc, hb1, hb2]
    exact hapart _ _ _ _ _ _ (by omega)
  have o3 : Spec.odd b3 (Spec.without [b2] (Spec.without [b1] es)) = Spec.odd b3 es := by
    rw [without_without]
    apply odd_without
    intro c hc
    simp only [List.cons_append, List.nil_append, List.mem_cons, List.not_mem_nil, or_false] at hc
    rcases hc with rfl | rfl
    · rw [hb1, hb3]
      exact hapart _ _ _ _ _ _ (by omega)
    · rw [hb2, hb3]
      exact hapart _ _ _ _ _ _ (by omega)
  have u1 : Spec.turn b2 es .timing p = Spec.turn b2 (Spec.without [b1] es) .timing p := by
    unfold Spec.turn
    rw [o2]
  have u2 : p' = Spec.turn b3 (Spec.without [b2] (Spec.without [b1] es)) .stalls (Spec.turn b2 es .timing p) := by
    rw [hp']
    unfold Spec.turn
    rw [o3]
  have ktab : Spec.timingTable s p' = Spec.timingTable s (Spec.turn b2 es .timing p) := by
    unfold Spec.timingTable
    rw [hk.2]
  rw [hcount] at hb3
  obtain ⟨v', e, R', -, L⟩ := fps_steps gr hgr hdt hsum v R dw hdw hw sep hs hl s ctl p es (Spec.turn b2 es .timing p) p'
    (Spec.without [b1] es) (Spec.without [b2] (Spec.without [b1] es)) (by rw [hb1]) (by rw [m1, ← hb2]; exact u1)
    (by rw [m1, ← hb2]) (by rw [m2, ← hb3]; exact u2)
    (by
      intro ht r hr
      exact hv r (by rw [hk.1, if_pos ht, ktab]; exact List.mem_append_left _ hr))
    (by
      intro ht r hr
      exact hv r (by rw [if_pos ht]; exact List.mem_append_right _ hr))
  refine ⟨v', ?_, ⟨hk.1.trans hflip, hflip3⟩, ?_, L (by omega)⟩
  · rw [e, m2, ← hb1, ← hb3, without_without, without_without]
    rfl
  · rw [show y + (3 + timingCount (Spec.turn b2 es .timing p) + stallCount p') =
      y + 3 + timingCount (Spec.turn b2 es .timing p) + stallCount p' by omega]
    exact R'

/-! ### Where it fails -/

/-- Negation for **C122**: on a screen that ends with the row of the first heading, all headings
are drawn there and the first takes the presses: neither the timing nor the tracking of stalls can
be switched. -/
theorem short_stats_dead (gr : Nat → Bool) (hgr : ∀ r, 0x20 ≤ r → r < 0x7F → Screen.Printable gr r) (hdt : Screen.Printable gr 0x2202)
    (hsum : Screen.Printable gr 0x2211) {w h c : Nat} (v : VScreen) (R : Ready v w h c (h - 1)) (dw : Nat) (hdw : 1 ≤ dw)
    (hw : 17 + dw ≤ w) (sep : List Nat) (hs : ∀ r ∈ sep, Screen.Printable gr r) (hl : sep.length = dw) (s : Says) (ctl : Bool)
    (p : Tel.Tele α) (es : Events)
    (hv : ∀ r ∈ Spec.timingTable s p ++ Spec.stallTable s p, r.2.length ≤ dw ∧ ∀ c ∈ r.2, Screen.Printable gr c) :
    ∃ v', fpsDetail gr dw (encodeRunes sep) s ctl p es v =
      .ok (xor ctl (Spec.odd (Spec.bar w dw 16 (h - 1)) es), p, Spec.without [Spec.bar w dw 16 (h - 1)] es, v') := by
  have hyh := R.hy
  have m : ∀ k, min (h - 1) (h - 1 + k) = h - 1 := by omega
  have m2 : ∀ k, min (h - 1) (h - 1 + 2 + k) = h - 1 := by omega
  have hin : ∀ q, Geom.Mem q (Spec.bar w dw 15 (h - 1)) → Geom.Mem q (Spec.bar w dw 16 (h - 1)) := by
    intro q hq
    unfold Geom.Mem Spec.bar Spec.box at hq ⊢
    simp only at hq ⊢
    omega
  have o2 : Spec.odd (Spec.bar w dw 15 (h - 1)) (Spec.without [Spec.bar w dw 16 (h - 1)] es) = false :=
    odd_covered ⟨_, by simp, hin⟩ es
  have o3 : Spec.odd (Spec.bar w dw 16 (h - 1)) (Spec.without [Spec.bar w dw 16 (h - 1), Spec.bar w dw 15 (h - 1)] es) = false :=
    odd_covered ⟨Spec.bar w dw 16 (h - 1), by simp, fun _ h => h⟩ es
  obtain ⟨v', e, -⟩ := fps_steps gr hgr hdt hsum v R dw hdw hw sep hs hl s ctl p es p p
    (Spec.without [Spec.bar w dw 16 (h - 1)] es)
    (Spec.without [Spec.bar w dw 15 (h - 1)] (Spec.without [Spec.bar w dw 16 (h - 1)] es)) rfl
    (by rw [m]; unfold Spec.turn; rw [o2]; rfl) (by rw [m])
    (by rw [m2, without_without]; unfold Spec.turn; rw [List.singleton_append, o3]; rfl)
    (fun _ r hr => hv r (List.mem_append_left _ hr)) (fun _ r hr => hv r (List.mem_append_right _ hr))
  refine ⟨v', ?_⟩
  rw [e, m2, without_without, without_without]
  congr 4
  unfold Spec.without
  congr 1
  funext e
  simp only [List.cons_append, List.nil_append, List.any_cons, List.any_nil, Bool.or_false]
  cases h1 : pressIn (Spec.bar w dw 16 (h - 1)) 1 e with
  | true => simp
  | false =>
    have : pressIn (Spec.bar w dw 15 (h - 1)) 1 e = false := by
      by_contra hc
      have hc : pressIn (Spec.bar w dw 15 (h - 1)) 1 e = true := by simpa using hc
      unfold pressIn at hc h1
      simp only [Bool.and_eq_true, ptIn_iff] at hc
      have := (ptIn_iff _ _).2 (hin _ hc.2)
      rw [this, hc.1.1, hc.1.2] at h1
      simp at h1
    rw [this]
    rfl

/-- Negation for **C122**: with fewer columns the panel panics. -/
theorem narrow_stats_panic (gr : Nat → Bool) (hgr : ∀ r, 0x20 ≤ r → r < 0x7F → Screen.Printable gr r)
    {w h c y : Nat} (v : VScreen) (R : Ready v w h c y) (dw : Nat) (hw : w < 17 + dw) (sep : Bytes) (s : Says) (ctl : Bool)
    (p : Tel.Tele α) (es : Events) : fpsDetail gr dw sep s ctl p es v = .error .panic := by
  unfold fpsDetail frameTiming
  rw [title_texts.1, heading_panics gr v R dw sep _ (titles_printable hgr).1 (by rw [title_lengths.1]; omega)]
  rfl

/-- Negation for **C122**: "# Frame Control:" controls nothing: whatever the flag it switches is,
the panel draws, switches and takes the same. -/
theorem control_idle (gr : Nat → Bool) (dw : Int) (sep : Bytes) (s : Says) (p : Tel.Tele α) (es : Events) (v : VScreen) (c1 c2 : Bool) :
    (fpsDetail gr dw sep s c1 p es v).map Prod.snd = (fpsDetail gr dw sep s c2 p es v).map Prod.snd := by
  unfold fpsDetail frameTiming
  cases detailHeader gr dw sep v (ascii "# Frame Control:") with
  | error e => rfl
  | ok b =>
    simp only [Except.bind]
    cases detailHeader gr dw sep b.2 (ascii "# Frame Timing:") with
    | error e => rfl
    | ok b' =>
      simp only
      generalize (if (countPressesIn b'.1 1 0 (countPressesIn b.1 1 0 es).1).2 % 2 = 1 then p.setTiming (!p.sw.timing) else p) = p1
      cases (if p1.sw.timing = true then rows gr dw (timingRows s p1) b'.2 else Except.ok b'.2) with
      | error e => rfl
      | ok v1 =>
        simp only
        cases stallsDetail gr dw sep s p1 (countPressesIn b'.1 1 0 (countPressesIn b.1 1 0 es).1).1 v1 <;> rfl

/-! ### Examples -/

theorem gr0_sum : Screen.Printable gr0 0x2211 := printable_gr0 (by decide +kernel)

/-- A screen of 36 columns and 12 rows, the cursor where the overlay puts it. -/
def wide : VScreen := goto (blank 36 12) ⟨37, 2⟩

theorem wide_ready : Ready wide 36 12 35 1 :=
  goto_ready (blank_whole 36 12 (by omega) (by omega)) (blank_settled 36 12) ⟨37, 2⟩

/-- Numbers of one digit. -/
def digits : Says :=
  { estimate := Spec.runes "59", fps := fun _ => Spec.runes "60", ms := fun d => [0x30 + d.toNat], dur := fun d => [0x30 + d.toNat],
    num := fun n => [0x30 + n], pct := fun _ => Spec.runes "0.00%" }

def tele : Tel.Tele Unit :=
  { timing := { stats := { min := 1, q1 := 2, q2 := 3, q3 := 4, max := 5 }, ts := [0, 0], ds := [0, 0] }, usage := { data := [] } }

/-- A press on "# Frame Timing:" shows the durations. -/
example : ∃ v', fpsDetail gr0 16 (encodeRunes (List.replicate 16 0x2D)) digits false tele
      [entry (csiId 0x4D) (Mouse.reportArg 0 20 3)] wide =
    .ok (false, { tele with sw := { timing := true } }, Spec.without [Spec.bar 36 16 16 1, Spec.bar 36 16 15 2, Spec.bar 36 16 16 10]
      [entry (csiId 0x4D) (Mouse.reportArg 0 20 3)], v') ∧
    (List.range 12).map (fun b => (List.range 36).map fun a => ((v'.sc.look 36 a b).map (·.rune)).getD 0) =
      [List.replicate 36 0,
       List.replicate 3 0 ++ Spec.runes "# Frame Control: ----------------",
       List.replicate 4 0 ++ Spec.runes "# Frame Timing: ----------------",
       List.replicate 10 0 ++ Spec.runes "estimate               59" ++ [0],
       List.replicate 12 0 ++ Spec.runes "actual               60" ++ [0],
       List.replicate 12 0 ++ Spec.runes "∂t min                1" ++ [0],
       List.replicate 16 0 ++ Spec.runes "q1                2" ++ [0],
       List.replicate 16 0 ++ Spec.runes "q2                3" ++ [0],
       List.replicate 16 0 ++ Spec.runes "q3                4" ++ [0],
       List.replicate 15 0 ++ Spec.runes "max                5" ++ [0],
       List.replicate 3 0 ++ Spec.runes "# Output Stalls: ----------------",
       List.replicate 36 0] := by
  have o1 : Spec.odd (Spec.bar 36 16 16 1) [entry (csiId 0x4D) (Mouse.reportArg 0 20 3)] = false := by decide +kernel
  have o2 : Spec.odd (Spec.bar 36 16 15 2) [entry (csiId 0x4D) (Mouse.reportArg 0 20 3)] = true := by decide +kernel
  have o3 : Spec.odd (Spec.bar 36 16 16 10) [entry (csiId 0x4D) (Mouse.reportArg 0 20 3)] = false := by decide +kernel
  obtain ⟨v', h1, -, -, h2⟩ := fps_drawn_partial gr0 (fun r h1 h2 => gr0_printable r (Or.inl ⟨h1, h2⟩)) (gr0_printable _ (by simp)) gr0_sum
    wide wide_ready 16 (by omega) (by omega) (List.replicate 16 0x2D)
    (fun r hr => gr0_printable r (by rw [List.eq_of_mem_replicate hr]; left; omega)) (by simp) digits false tele
    [entry (csiId 0x4D) (Mouse.reportArg 0 20 3)] (Spec.bar 36 16 16 1) (Spec.bar 36 16 15 2) (Spec.bar 36 16 16 10)
    { tele with sw := { timing := true } } rfl rfl (by rw [o2]; rfl) (by unfold Spec.turn; rw [o2, o3]; rfl)
    (by
      intro r hr
      have : ∀ r ∈ Spec.timingTable digits { tele with sw := { timing := true } }, r.2.length ≤ 16 ∧ ∀ c ∈ r.2, 0x20 ≤ c ∧ c < 0x7F := by
        decide +kernel
      have := this r (by simpa using hr)
      exact ⟨this.1, fun c hc => gr0_printable c (Or.inl (this.2 c hc))⟩)
    (by decide +kernel)
  refine ⟨v', ?_, ?_⟩
  · refine Eq.trans h1 ?_
    rw [o1]
    rfl
  · have : (List.range 12).map (fun b => (List.range 36).map fun a => ((v'.sc.look 36 a b).map (·.rune)).getD 0) =
        (List.range 12).map (fun b => (List.range 36).map fun a => ((Spec.column 36 wide.sc.cur.attr 1
          (Spec.statLines 16 (List.replicate 16 0x2D) digits { tele with sw := { timing := true } }) (wide.sc.look 36) a b).map (·.rune)).getD 0) := by
      apply List.map_congr_left
      intro b hb
      apply List.map_congr_left
      intro a ha
      rw [h2 a b (by simpa using ha) (by simpa using hb)]
    rw [this]
    decide +kernel

/-- In a screen of 20 columns it panics. -/
example : fpsDetail gr0 16 (encodeRunes (List.replicate 16 0x2D)) digits false tele [] (goto (blank 20 12) ⟨21, 2⟩) = .error .panic :=
  narrow_stats_panic gr0 (fun r h1 h2 => gr0_printable r (Or.inl ⟨h1, h2⟩)) _
    (goto_ready (blank_whole 20 12 (by omega) (by omega)) (blank_settled 20 12) ⟨21, 2⟩) 16 (by omega) _ _ _ _ _

/-- In one of two rows, presses on the headings switch a flag nothing depends on. -/
example : ∃ v', fpsDetail gr0 16 (encodeRunes (List.replicate 16 0x2D)) digits false tele
      [entry (csiId 0x4D) (Mouse.reportArg 0 20 2)] (goto (blank 36 2) ⟨37, 2⟩) =
    .ok (true, tele, Spec.without [Spec.bar 36 16 16 1] [entry (csiId 0x4D) (Mouse.reportArg 0 20 2)], v') := by
  have o1 : Spec.odd (Spec.bar 36 16 16 1) [entry (csiId 0x4D) (Mouse.reportArg 0 20 2)] = true := by decide +kernel
  obtain ⟨v', h1⟩ := short_stats_dead gr0 (fun r h1 h2 => gr0_printable r (Or.inl ⟨h1, h2⟩)) (gr0_printable _ (by simp)) gr0_sum
    (w := 36) (h := 2) (c := 35) (goto (blank 36 2) ⟨37, 2⟩)
    (goto_ready (blank_whole 36 2 (by omega) (by omega)) (blank_settled 36 2) ⟨37, 2⟩) 16 (by omega) (by omega) (List.replicate 16 0x2D)
    (fun r hr => gr0_printable r (by rw [List.eq_of_mem_replicate hr]; left; omega)) (by simp) digits false tele
    [entry (csiId 0x4D) (Mouse.reportArg 0 20 2)]
    (by
      intro r hr
      have : ∀ r ∈ Spec.timingTable digits tele ++ Spec.stallTable digits tele, r.2.length ≤ 16 ∧ ∀ c ∈ r.2, 0x20 ≤ c ∧ c < 0x7F := by
        decide +kernel
      have := this r hr
      exact ⟨this.1, fun c hc => gr0_printable c (Or.inl (this.2 c hc))⟩)
  refine ⟨v', Eq.trans h1 ?_⟩
  rw [o1]
  rfl

end Anansi.Hud
