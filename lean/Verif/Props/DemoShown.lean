import Verif.Props.Demo
import Verif.Props.OverlayShown
import Verif.Props.Session
/-
C143: what is on the terminal while the demo command runs.
-/
set_option autoImplicit false

namespace Anansi
open Vt Geom Render

namespace Direct
open Anansi.Spec

/-- `platform.go:190-226` with `cmd/demo/main.go:40-115`: a frame of the demo, up to the flush.  `Clear` leaves nothing in
the buffer and no user cursor (`screen.go:35-43`).  `sus` is what `Suspend` returns. -/
def demoFrame {ε : Type} (sec ns : Nat) (sus : Option ε) (g : Grid) (es : Evq.Events) (d : Differ) (redraw : Option (Nat × Nat)) :
    Except Fault (Dem.Out ε × Differ) :=
  (begin d none redraw).bind fun d =>
  match Dem.update sec ns sus g es d.v.sc with
  | some o => .ok (o, { d with v := ⟨o.sc, d.v.buf.reset⟩, user := {} })
  | none => .error .panic

namespace Spec

/-- The colour that tells a place, both counted from one: green for the column, blue for the row, and red for the ruler. -/
def placeGlyph (r : Nat) (red : UInt8) (x y : Nat) : Glyph :=
  ⟨r, { bg := some (.direct red (UInt8.ofNat x) (UInt8.ofNat y)) }⟩

/-- What the demo means to show in column `x` of row `y`, counted from one, of `w` columns, when the ruler is at `s`: the
colour of the place, and on every sixteenth row the ruler, which runs on from row to row. -/
def demoGlyph (s w x y : Nat) : Glyph :=
  if y % 16 = 0 then
    let n := s + (y / 16 - 1) * w + (x - 1)
    placeGlyph (0x30 + n % 10) (UInt8.ofNat n) x y
  else placeGlyph 0x20 0 x y

/-- What it does show: in the first row what is meant for the last, and blanks below. -/
def demoSeen (s w h x y : Nat) : Glyph := if y = 1 then demoGlyph s w x h else blank

end Spec

/-! ### Jumps -/

theorem smooth_run (w : Nat) (hw : 1 ≤ w) : ∀ (n k : Nat) (a : Pt), (valid a = true → ¬ Awkward w a (ptOf w k)) →
    Smooth w a ((List.range' k n).map (ptOf w))
  | 0, _, _, _ => trivial
  | n + 1, k, a, h => by
    rw [List.range'_succ, List.map_cons]
    refine ⟨h, smooth_run w hw n (k + 1) _ fun _ => ?_⟩
    rintro (⟨h1, h2, -⟩ | ⟨h1, h2, h3⟩)
    · simp only [ptOf] at h1 h2
      by_cases hk : k % w + 1 = w
      · have : (k + 1) % w = 0 := by rw [← Nat.mod_add_div k w, Nat.add_right_comm, hk]; simp
        rw [this] at h1
        omega
      · have hlt := Nat.mod_lt k hw
        have : (k + 1) / w = k / w := by
          rw [Nat.succ_div, if_neg]
          · rfl
          · intro hd
            have := Nat.mod_eq_zero_of_dvd hd
            rw [Nat.add_mod] at this
            by_cases h1w : w = 1
            · subst h1w; omega
            rw [Nat.mod_eq_of_lt (show 1 < w by omega), Nat.mod_eq_of_lt (by omega)] at this
            omega
        rw [this] at h2
        exact h2 rfl
    · simp only [ptOf] at h1 h2 h3
      have hk : k % w + 1 = w := by omega
      have : (k + 1) % w = 0 := by rw [← Nat.mod_add_div k w, Nat.add_right_comm, hk]; simp
      rw [this] at h3
      exact h3 rfl

theorem points_all (w h : Nat) (f : Nat → Bool) (hf : ∀ i, i < w * h → f i = true) :
    points w h f = (List.range' 0 (w * h)).map (ptOf w) := by
  unfold points
  rw [List.filter_eq_self.2 fun i hi => hf i (List.mem_range.1 hi), List.range_eq_range']

theorem points_first (w h : Nat) (hh : 1 ≤ h) (f : Nat → Bool) (hf : ∀ i, i < w * h → f i = decide (i < w)) :
    points w h f = (List.range' 0 w).map (ptOf w) := by
  unfold points
  have hle : w ≤ w * h := Nat.le_mul_of_pos_right w hh
  rw [List.filter_congr fun i hi => hf i (List.mem_range.1 hi)]
  obtain ⟨k, hk⟩ := Nat.exists_eq_add_of_le hle
  rw [hk, List.range_add, List.filter_append, List.filter_eq_self.2 fun i hi => by simpa using hi,
    List.filter_eq_nil_iff.2 fun i hi => by
      obtain ⟨j, -, rfl⟩ := List.mem_map.1 hi
      simp, List.append_nil, List.range_eq_range']

theorem points_none (w h : Nat) (f : Nat → Bool) (hf : ∀ i, i < w * h → f i = false) : points w h f = [] := by
  unfold points
  rw [List.filter_eq_nil_iff.2 fun i hi => by simp [hf i (List.mem_range.1 hi)]]
  rfl

theorem stop_run (w n : Nat) (hw : 1 ≤ w) (hn : 1 ≤ n) (a : Pt) : (Spec.stop a ((List.range' 0 (w * n)).map (ptOf w))).x = w + 1 := by
  have hpos : 1 ≤ w * n := Nat.mul_pos hw hn
  obtain ⟨k, hk⟩ := Nat.exists_eq_add_of_le' hpos
  unfold Spec.stop
  rw [hk, List.range'_concat, List.map_append, List.map_singleton, List.getLast?_append, List.getLast?_singleton]
  simp only [Option.some_or, ptOf]
  have : k % w = w - 1 := by
    have e : k + 1 = w * n := by omega
    obtain ⟨m, rfl⟩ := Nat.exists_eq_add_of_le' hn
    rw [Nat.mul_add] at e
    rw [show k = w - 1 + w * m by omega, Nat.add_mul_mod_self_left, Nat.mod_eq_of_lt (by omega)]
  simp only [Nat.one_mul, Nat.zero_add]
  rw [this]
  omega

/-! ### One frame -/

/-- The demo's grid: nothing but the first row was ever written. -/
def GridOk (w h : Nat) (g : Grid) : Prop :=
  ∃ z : Nat × Nat, Grid.Whole g z ∧ (z.1 = 0 → z.2 = 0) ∧ ∀ j, w ≤ j → j < w * h → (g.resize (w, h)).1.cells[j]? = some {}

/-- What was drawn last, if known, is a frame of the demo. -/
def OldOk (w h : Nat) : Option Screen → Prop
  | none => True
  | some o => ∃ s, ∀ x y, x < w → y < h → o.look w x y = some (if y = 0 then Dem.Spec.pattern s w (x + 1) h else { rune := 0x20 })

/-- The cursor rests behind the last column. -/
def RestOk (w : Nat) (a : Pt) : Prop := valid a = true → a.x = w + 1

theorem pattern_glyph (s w x y : Nat) : Inked (ink (Dem.Spec.pattern s w x y)) (Spec.demoGlyph s w x y) := by
  unfold Dem.Spec.pattern Spec.demoGlyph Inked ink Spec.placeGlyph
  split
  · simp [Sgr.Style.build, Sgr.flagIf, Sgr.Colour.value]
  · simp [Sgr.Style.build, Sgr.flagIf, Sgr.Colour.value]

theorem pattern_rune (s w x y : Nat) : (Dem.Spec.pattern s w x y).rune ≠ 0 := by
  unfold Dem.Spec.pattern
  split <;> simp

/-- From one time to another all of the row changes, or nothing. -/
theorem pattern_change (s s' w h x x' : Nat) :
    ink (Dem.Spec.pattern s w x h) = ink (Dem.Spec.pattern s' w x h) ↔ ink (Dem.Spec.pattern s w x' h) = ink (Dem.Spec.pattern s' w x' h) := by
  have key : ∀ x, (ink (Dem.Spec.pattern s w x h) = ink (Dem.Spec.pattern s' w x h) ↔ (h % 16 = 0 → s % 1280 = s' % 1280)) := by
    intro x
    have i1 := pattern_glyph s w x h
    have i2 := pattern_glyph s' w x h
    have e1 : ink (Dem.Spec.pattern s w x h) = ((Spec.demoGlyph s w x h).rune, (Spec.demoGlyph s w x h).style.build) :=
      Prod.ext i1.1.symm i1.2.2
    have e2 : ink (Dem.Spec.pattern s' w x h) = ((Spec.demoGlyph s' w x h).rune, (Spec.demoGlyph s' w x h).style.build) :=
      Prod.ext i2.1.symm i2.2.2
    have e : ink (Dem.Spec.pattern s w x h) = ink (Dem.Spec.pattern s' w x h) ↔ Spec.demoGlyph s w x h = Spec.demoGlyph s' w x h := by
      rw [e1, e2, Prod.mk.injEq]
      constructor
      · rintro ⟨a, b⟩
        have := build_inj i1.2.1 i2.2.1 b
        rcases hg : Spec.demoGlyph s w x h with ⟨r, st⟩
        rcases hg' : Spec.demoGlyph s' w x h with ⟨r', st'⟩
        rw [hg, hg'] at a this
        simp only at a this
        rw [a, this]
      · intro h; rw [h]; exact ⟨rfl, rfl⟩
    rw [e]
    unfold Spec.demoGlyph Spec.placeGlyph
    by_cases hh : h % 16 = 0
    · simp only [hh, if_true, Glyph.mk.injEq, Sgr.Style.mk.injEq, true_and, Option.some.injEq, Sgr.Colour.direct.injEq, and_true, true_imp_iff]
      rw [← UInt8.toNat_inj, UInt8.toNat_ofNat', UInt8.toNat_ofNat']
      generalize (h / 16 - 1) * w = c
      omega
    · simp [hh]
  rw [key x, key x']

/-- The cells a frame of the demo writes are all, those of the first row, or none; and the cursor then rests behind the last
column. -/
theorem demo_smooth {w h : Nat} (hw : 1 ≤ w) (hh : 1 ≤ h) {old : Option Screen} {a : Pt} {sc : Screen} (O : OldOk w h old) (R : RestOk w a)
    {s : Nat} (hs : ∀ x y, x < w → y < h → sc.look w x y = some (if y = 0 then Dem.Spec.pattern s w (x + 1) h else { rune := 0x20 })) :
    Smooth w a (Spec.cells w h old sc) ∧ RestOk w (Spec.stop a (Spec.cells w h old sc)) := by
  have hidx : ∀ i, i < w * h → i % w < w ∧ i / w < h ∧ i / w * w + i % w = i := by
    intro i hi
    refine ⟨Nat.mod_lt _ hw, Nat.div_lt_of_lt_mul hi, ?_⟩
    rw [Nat.mul_comm]; exact Nat.div_add_mod i w
  have hlook : ∀ i, i < w * h → sc.grid.cells[i]? = some (if i < w then Dem.Spec.pattern s w (i % w + 1) h else { rune := 0x20 }) := by
    intro i hi
    obtain ⟨h1, h2, h3⟩ := hidx i hi
    have := hs _ _ h1 h2
    unfold Screen.look at this
    rw [h3] at this
    rw [this]
    congr 1
    simp only [Nat.div_eq_zero_iff_lt hw]
  have h11 : ∀ n, Smooth w a ((List.range' 0 n).map (ptOf w)) := by
    intro n
    refine smooth_run w hw n 0 a fun hv => ?_
    have hx := R hv
    simp only [ptOf, Awkward, Nat.zero_mod, hx]
    omega
  cases old with
  | none =>
    have : Spec.cells w h none sc = (List.range' 0 (w * h)).map (ptOf w) := by
      refine points_all w h _ fun i hi => ?_
      simp only [drawn, hlook i hi]
      rw [bne_iff_ne]
      intro hc
      have hr := congrArg Cell.rune (Option.some.inj hc)
      split at hr
      · exact pattern_rune _ _ _ _ hr
      · simp at hr
    rw [this]
    exact ⟨h11 _, fun _ => stop_run w h hw hh a⟩
  | some o =>
    obtain ⟨s', ho⟩ := O
    have hold : ∀ i, i < w * h → o.grid.cells[i]? = some (if i < w then Dem.Spec.pattern s' w (i % w + 1) h else { rune := 0x20 }) := by
      intro i hi
      obtain ⟨h1, h2, h3⟩ := hidx i hi
      have := ho _ _ h1 h2
      unfold Screen.look at this
      rw [h3] at this
      rw [this]
      congr 1
      simp only [Nat.div_eq_zero_iff_lt hw]
    have halt : ∀ i, i < w * h → altered o sc i =
        (decide (i < w) && decide (ink (Dem.Spec.pattern s' w (i % w + 1) h) ≠ ink (Dem.Spec.pattern s w (i % w + 1) h))) := by
      intro i hi
      simp only [altered, hold i hi, hlook i hi]
      by_cases hiw : i < w
      · simp only [hiw, if_true, Option.map_some, decide_true, Bool.true_and]
        rw [Bool.eq_iff_iff]
        simp
      · simp [hiw]
    by_cases hc : ink (Dem.Spec.pattern s' w 1 h) = ink (Dem.Spec.pattern s w 1 h)
    · have : Spec.cells w h (some o) sc = [] := by
        refine points_none w h _ fun i hi => ?_
        simp only [halt i hi]
        rw [decide_eq_false (p := ink _ ≠ ink _)]
        · simp
        · simp only [ne_eq, not_not]
          exact (pattern_change s' s w h _ 1).2 hc
      rw [this]
      exact ⟨trivial, R⟩
    · have : Spec.cells w h (some o) sc = (List.range' 0 w).map (ptOf w) := by
        refine points_first w h hh _ fun i hi => ?_
        simp only [halt i hi]
        rw [decide_eq_true (p := ink _ ≠ ink _)]
        · simp
        · intro hd
          exact hc ((pattern_change s' s w h _ 1).1 hd)
      rw [this]
      refine ⟨h11 _, fun _ => ?_⟩
      have := stop_run w 1 hw (Nat.le_refl 1) a
      rwa [Nat.mul_one] at this

/-- **C143**, a frame: whatever keys but Ctrl-C and Ctrl-Z there are, it is drawn, flushed and then seen. -/
theorem demo_frame_shown {ε : Type} (gr : Nat → Bool) (hsp : Printable gr 0x20) (hdg : ∀ k, k < 10 → Printable gr (0x30 + k))
    (sec ns : Nat) (sus : Option ε) (es : Evq.Events) {d : Differ} {t t1 : Term} {old : Option Screen} {a : Pt} {g : Grid}
    (Y : Synced d t old a) (O : OldOk t.w t.h old) (R : RestOk t.w a) (G : GridOk t.w t.h g)
    (redraw : Bool) (cell : Nat → Nat → Glyph) (x y : Nat) (pend : Bool) (ht1 : t1 = { t with cell, x, y, pend })
    (hr : redraw = false → t1 = t) (hb : (redraw = true ∨ old = none) → t.bce = true → t.style.bg = none) :
    ∃ o d1 d' ops, demoFrame sec ns sus g es d (if redraw then some (t1.w, t1.h) else none) = .ok (o, d1) ∧
      (o.res = .interrupt ↔ ∃ e ∈ es, Dem.Spec.key 0x03 e = true) ∧
      (o.suspended = true ↔ (∃ e ∈ es, Dem.Spec.key 0x1A e = true) ∧ ∀ e ∈ es, Dem.Spec.key 0x03 e = false) ∧
      (∀ f, o.res = .failed f ↔ o.suspended = true ∧ sus = some f) ∧
      d1.writeTo gr .ok = .ok (d', text ops, none) ∧
      (t1.run ops).w = t.w ∧ (t1.run ops).h = t.h ∧ (t1.run ops).bce = t.bce ∧
      (∀ x y, x < t.w → y < t.h → (t1.run ops).cell x y = Spec.demoSeen (10 * sec + ns / 100000000) t.w t.h (x + 1) (y + 1)) ∧
      (t1.run ops).vis = false ∧
      ∃ a', Synced d' (t1.run ops) (some d1.v.sc) a' ∧ OldOk t.w t.h (some d1.v.sc) ∧ RestOk t.w a' ∧ GridOk t.w t.h o.grid := by
  have hw1 : t1.w = t.w := by rw [ht1]
  have hh1 : t1.h = t.h := by rw [ht1]
  have hbc : t1.bce = t.bce := by rw [ht1]
  have hst : t1.style = t.style := by rw [ht1]
  obtain ⟨sc, e1, W0, -⟩ := reset_page Y
  let v0 : VScreen := ⟨{ sc with cur := d.real.cur }, d.v.buf.reset⟩
  have Y0 : Synced { d with v := v0, user := {} } t old a :=
    ⟨⟨W0.hw, W0.hh, W0.rect, W0.stride, W0.len, W0.cap⟩, Y.agree, Y.known, Y.rest, Y.pen⟩
  obtain ⟨d2, e2, Y2⟩ : ∃ d2, begin d none (if redraw then some (t1.w, t1.h) else none) = .ok d2 ∧
      Synced d2 t1 (if redraw then none else old) (if redraw then zp else a) := by
    unfold begin
    simp only [e1]
    cases redraw with
    | false => rw [hr rfl]; exact ⟨_, rfl, Y0⟩
    | true =>
      have Y1 := redraw_synced Y0 cell x y pend
      have Y2 := sizeTo_synced Y1 t.w t.h W0.hw W0.hh cell x y pend
      refine ⟨_, rfl, ?_⟩
      rw [hw1, hh1, ht1]
      exact Y2
  have O' : OldOk t1.w t1.h (if redraw then none else old) := by
    cases redraw with
    | false => rw [hw1, hh1]; exact O
    | true => trivial
  have R' : RestOk t1.w (if redraw then zp else a) := by
    cases redraw with
    | false => rw [hw1]; exact R
    | true => intro h; exact absurd (show valid zp = true from h) (by decide)
  obtain ⟨z, D, hz, hg0⟩ := G
  rw [← hw1, ← hh1] at hg0
  obtain ⟨o, k1, k2, k3, k4, k5, -⟩ := Dem.keys_exact sec ns sus es d2.v.sc Y2.whole D hz
  obtain ⟨g', sc', m1, m2, m3, m4, m5, m6, m7⟩ := Dem.frame_drawn (10 * sec + ns / 100000000) d2.v.sc Y2.whole D hz
  rw [m1] at k2
  injection k2 with k2
  rw [Prod.mk.injEq] at k2
  obtain ⟨rfl, rfl⟩ := k2
  have hw := Y2.whole.hw
  have hh := Y2.whole.hh
  have hlook : ∀ x y, x < t1.w → y < t1.h → o.sc.look t1.w x y =
      some (if y = 0 then Dem.Spec.pattern (10 * sec + ns / 100000000) t1.w (x + 1) t1.h else { rune := 0x20 }) := by
    intro x y hx hy
    by_cases hy0 : y = 0
    · subst hy0; rw [if_pos rfl]; exact m6 x hx
    · rw [if_neg hy0, m7 x y hx (by omega) hy, hg0]
      · rfl
      · have : t1.w ≤ y * t1.w := Nat.le_mul_of_pos_left _ (by omega)
        omega
      · have : (y + 1) * t1.w ≤ t1.h * t1.w := Nat.mul_le_mul_right _ hy
        rw [Nat.add_mul] at this
        rw [Nat.mul_comm t1.w]; omega
  obtain ⟨J, R2⟩ := demo_smooth hw hh O' R' hlook
  let pic : Term := { clearTerm t1.w t1.h with cell := fun x y => Spec.demoSeen (10 * sec + ns / 100000000) t1.w t1.h (x + 1) (y + 1) }
  have S : Shows pic o.sc t1.w t1.h := by
    refine ⟨rfl, rfl, fun x y hx hy => ⟨_, hlook x y hx hy, ?_⟩⟩
    show Inked _ (Spec.demoSeen _ _ _ _ _)
    unfold Spec.demoSeen
    by_cases hy0 : y = 0
    · rw [if_pos hy0, if_pos (by omega)]; exact pattern_glyph _ _ _ _
    · rw [if_neg hy0, if_neg (by omega)]; exact ⟨rfl, rfl, by decide⟩
  have hp : ∀ x y, Printable gr (pic.cell x y).rune := by
    intro x y
    show Printable gr (Spec.demoSeen _ _ _ _ _).rune
    unfold Spec.demoSeen Spec.demoGlyph Spec.placeGlyph
    split
    · split
      · exact hdg _ (Nat.mod_lt _ (by omega))
      · exact hsp
    · exact hsp
  have Z : Spec.Easy t1 (if redraw then none else old) (if redraw then zp else a) o.sc {} := by
    refine ⟨?_, ?_⟩
    · rw [show Spec.seen {} = false by decide, if_neg Bool.false_ne_true, List.append_nil]; exact J
    · rw [hbc, hst]
      intro h
      apply hb
      cases redraw with
      | true => exact Or.inl rfl
      | false => exact Or.inr h
  obtain ⟨d', ops, f1, f2, f3, f4, f5, -, f7⟩ := flushed gr hsp Y2 ⟨o.sc, d2.v.buf.reset⟩ m3 rfl pic S hp {} (fun h => absurd h (by decide)) Z
  refine ⟨o, { d2 with v := ⟨o.sc, d2.v.buf.reset⟩, user := {} }, d', ops, ?_, k3, k4, k5, f1, by rw [f2, hw1], by rw [f3, hh1], ?_, ?_, f5, _, f7, ?_, ?_, ?_⟩
  · unfold demoFrame
    rw [e2]
    show (match Dem.update sec ns sus g es d2.v.sc with | some o => _ | none => _) = _
    rw [k1]
  · rw [(Sess.run_frame ops t1).2.2.1, hbc]
  · intro x y hx hy
    rw [f4 x y (by rw [hw1]; exact hx) (by rw [hh1]; exact hy)]
    show Spec.demoSeen _ _ _ _ _ = _
    rw [hw1, hh1]
  · rw [← hw1, ← hh1]; exact ⟨_, hlook⟩
  · rw [← hw1]
    unfold Spec.rest
    rw [show Spec.seen {} = false by decide, if_neg Bool.false_ne_true]
    exact R2
  · rw [← hw1, ← hh1]
    refine ⟨_, m2, fun h => by simp only at h; omega, fun j hj hj2 => ?_⟩
    rw [Dem.resize_same m2, m5 j hj]
    exact hg0 j hj hj2

/-! ### The whole session -/

/-- A frame of the demo: its time, its input, and what something else wrote on the terminal before it, after which a
redraw is asked for. -/
structure DemoTurn where
  sec : Nat
  ns : Nat
  es : Evq.Events := []
  garbled : Option ((Nat → Nat → Glyph) × Nat × Nat × Bool) := none

/-- The terminal when the frame is drawn. -/
def DemoTurn.term (u : DemoTurn) (t : Term) : Term :=
  match u.garbled with
  | some (cell, x, y, pend) => { t with cell, x, y, pend }
  | none => t

/-- The redraw. -/
def DemoTurn.redraw (u : DemoTurn) (t : Term) : Option (Nat × Nat) := if u.garbled.isSome then some (t.w, t.h) else none

/-- Frame after frame: each is drawn; if there was a Ctrl-C that was the end, and nothing is flushed; otherwise it is
flushed, and then, with `s` the tenths of seconds, every cell is as `F s` says, and no cursor is seen. -/
def DemoShown (gr : Nat → Bool) (F : Nat → Nat → Nat → Glyph → Prop) : List DemoTurn → Grid → Differ → Term → Prop
  | [], _, _, _ => True
  | u :: l, g, d, t => ∃ (o : Dem.Out Unit) (d1 : Differ), demoFrame u.sec u.ns none g u.es d (u.redraw t) = .ok (o, d1) ∧
    ((∃ e ∈ u.es, Dem.Spec.key 0x03 e = true) → o.res = .interrupt) ∧
    ((∀ e ∈ u.es, Dem.Spec.key 0x03 e = false) → o.res = .ok ∧ ∃ d' ops, d1.writeTo gr .ok = .ok (d', text ops, none) ∧
      (∀ x y, x < t.w → y < t.h → F (10 * u.sec + u.ns / 100000000) (x + 1) (y + 1) (((u.term t).run ops).cell x y)) ∧
      ((u.term t).run ops).vis = false ∧ DemoShown gr F l o.grid d' ((u.term t).run ops))

theorem demo_from (gr : Nat → Bool) (hsp : Printable gr 0x20) (hdg : ∀ k, k < 10 → Printable gr (0x30 + k)) {w h : Nat}
    (F : Nat → Nat → Nat → Glyph → Prop) (hF : ∀ s x y, 1 ≤ y → F s x y (Spec.demoSeen s w h x y)) :
    ∀ (l : List DemoTurn) (g : Grid) (d : Differ) (t : Term) (old : Option Screen) (a : Pt), t.w = w → t.h = h →
    Synced d t old a → OldOk w h old → RestOk w a → GridOk w h g →
    (∀ u ∈ l, ∀ e ∈ u.es, Dem.Spec.key 0x1A e = false) →
    (t.bce = true → (old = none → t.style.bg = none) ∧ ∀ u ∈ l, u.garbled = none) → DemoShown gr F l g d t
  | [], _, _, _, _, _, _, _, _, _, _, _, _, _ => trivial
  | u :: l, g, d, t, old, a, rfl, rfl, Y, O, R, G, hz, hb => by
    have key : ∀ (cell : Nat → Nat → Glyph) (x y : Nat) (pend : Bool), u.term t = { t with cell, x, y, pend } →
        (u.garbled.isSome = false → u.term t = t) → DemoShown gr F (u :: l) g d t := by
      intro cell x y pend e1 e2
      obtain ⟨o, d1, d', ops, f1, f2, f3, f3', f4, f5, f6, f7, f8, f9, a', f10, f11, f12, f13⟩ :=
        demo_frame_shown gr hsp hdg u.sec u.ns (none : Option Unit) u.es Y O R G u.garbled.isSome cell x y pend e1 e2 (by
          intro h1 h2
          obtain ⟨h3, h4⟩ := hb h2
          rcases h1 with h1 | h1
          · rw [h4 u (by simp)] at h1; simp at h1
          · exact h3 h1)
      refine ⟨o, d1, ?_, f2.2, fun hn => ⟨?_, d', ops, f4, fun x y hx hy => ?_, f9, ?_⟩⟩
      · have : (u.term t).w = t.w ∧ (u.term t).h = t.h := by rw [e1]; exact ⟨rfl, rfl⟩
        rw [this.1, this.2] at f1
        exact f1
      · have h1 : o.res ≠ .interrupt := fun h => by
          obtain ⟨e, he, h⟩ := f2.1 h
          rw [hn e he] at h
          cases h
        cases hres : o.res with
        | ok => rfl
        | interrupt => exact absurd hres h1
        | failed f =>
          have := ((f3' f).1 hres).2
          cases this
      · rw [f8 x y hx hy]; exact hF _ _ _ (by omega)
      · refine demo_from gr hsp hdg F hF l o.grid d' _ _ a' f5 f6 f10 f11 f12 f13 (fun u hu => hz u (by simp [hu])) fun h2 => ⟨fun h => (Option.some_ne_none _ h).elim, fun u hu => ?_⟩
        rw [f7] at h2
        exact (hb h2).2 u (by simp [hu])
    cases hg : u.garbled with
    | none =>
      have e : u.term t = t := by unfold DemoTurn.term; rw [hg]
      exact key t.cell t.x t.y t.pend e fun _ => e
    | some q =>
      obtain ⟨cell, x, y, pend⟩ := q
      exact key cell x y pend (by unfold DemoTurn.term; rw [hg]) fun h => by rw [hg] at h; cases h

/-- The demo from its start. -/
def demoStart (gr : Nat → Bool) (F : Nat → Nat → Nat → Glyph → Prop) (t : Term) (l : List DemoTurn) : Prop :=
  DemoShown gr F l {} (sizeTo {} (t.w, t.h)) t

theorem demo_start (gr : Nat → Bool) (hsp : Printable gr 0x20) (hdg : ∀ k, k < 10 → Printable gr (0x30 + k)) (t : Term)
    (hw : 1 ≤ t.w) (hh : 1 ≤ t.h) (F : Nat → Nat → Nat → Glyph → Prop) (hF : ∀ s x y, 1 ≤ y → F s x y (Spec.demoSeen s t.w t.h x y))
    (l : List DemoTurn) (hz : ∀ u ∈ l, ∀ e ∈ u.es, Dem.Spec.key 0x1A e = false)
    (hb : t.bce = true → t.style.bg = none ∧ ∀ u ∈ l, u.garbled = none) : demoStart gr F t l := by
  have e : ({} : Differ).invalidate = {} := by decide +kernel
  have Y := new_synced t hw hh
  rw [← e] at Y
  exact demo_from gr hsp hdg F hF l _ _ t none zp rfl rfl Y trivial (fun h => absurd h (by decide))
    ⟨_, Dem.fresh_whole, fun _ => rfl, Dem.fresh_cells t.w t.h⟩ hz fun h => ⟨fun _ => (hb h).1, (hb h).2⟩

/-- **C143**: on a terminal of any size, whatever it shows at first, and whatever others write on it if a redraw is asked
for: after every frame of the demo until Ctrl-C the first row is coloured as the last was meant to be, with the ruler in it
if that has one, the other rows are blank, and no cursor is seen. -/
theorem demo_seen (gr : Nat → Bool) (hsp : Printable gr 0x20) (hdg : ∀ k, k < 10 → Printable gr (0x30 + k)) (t : Term)
    (hw : 1 ≤ t.w) (hh : 1 ≤ t.h) (l : List DemoTurn) (hz : ∀ u ∈ l, ∀ e ∈ u.es, Dem.Spec.key 0x1A e = false)
    (hb : t.bce = true → t.style.bg = none ∧ ∀ u ∈ l, u.garbled = none) :
    demoStart gr (fun s x y gl => gl = Spec.demoSeen s t.w t.h x y) t l :=
  demo_start gr hsp hdg t hw hh (fun s x y gl => gl = Spec.demoSeen s t.w t.h x y) (fun _ _ _ _ => rfl) l hz hb

/-- **C143** on a terminal of one row: every cell has the colour that tells its place.  Missing: several rows, where it is
false (`demo_unseen`), frames after Ctrl-Z, changes of size, and redraws where erasing colours. -/
theorem demo_shown_partial (gr : Nat → Bool) (hsp : Printable gr 0x20) (hdg : ∀ k, k < 10 → Printable gr (0x30 + k)) (t : Term)
    (hw : 1 ≤ t.w) (hh : t.h = 1) (l : List DemoTurn) (hz : ∀ u ∈ l, ∀ e ∈ u.es, Dem.Spec.key 0x1A e = false)
    (hb : t.bce = true → t.style.bg = none ∧ ∀ u ∈ l, u.garbled = none) :
    demoStart gr (fun s x y gl => y = 1 → gl = Spec.demoGlyph s t.w x y) t l := by
  refine demo_start gr hsp hdg t hw (by omega) _ (fun s x y _ h1 => ?_) l hz hb
  rw [h1, hh]
  rfl

/-- **C143 fails** on every terminal of two rows or more: in no frame has any cell below the first row its colour. -/
theorem demo_unseen (gr : Nat → Bool) (hsp : Printable gr 0x20) (hdg : ∀ k, k < 10 → Printable gr (0x30 + k)) (t : Term)
    (hw : 1 ≤ t.w) (hh : 2 ≤ t.h) (l : List DemoTurn) (hz : ∀ u ∈ l, ∀ e ∈ u.es, Dem.Spec.key 0x1A e = false)
    (hb : t.bce = true → t.style.bg = none ∧ ∀ u ∈ l, u.garbled = none) :
    demoStart gr (fun s x y gl => 2 ≤ y → gl ≠ Spec.demoGlyph s t.w x y) t l := by
  refine demo_start gr hsp hdg t hw (by omega) _ (fun s x y _ h2 => ?_) l hz hb
  unfold Spec.demoSeen Spec.demoGlyph Spec.placeGlyph
  rw [if_neg (by omega)]
  split <;> simp [blank]

/-! ### Examples -/

/-- A terminal of three by sixteen cells full of question marks. -/
def noisy (w h : Nat) : Term := { clearTerm w h with cell := fun _ _ => ⟨0x3F, {}⟩, vis := true }

/-- The hypotheses hold: three frames with keys, the second after something else wrote on the terminal, and a Ctrl-C. -/
def demoRun : List DemoTurn :=
  [{ sec := 3, ns := 250000000, es := [Evq.entry 0x78 []] },
   { sec := 3, ns := 300000000, garbled := some (fun _ _ => ⟨0x21, {}⟩, 2, 5, false) },
   { sec := 3, ns := 400000000 },
   { sec := 3, ns := 500000000, es := [Evq.entry 0x03 []] }]

example : (∀ u ∈ demoRun, ∀ e ∈ u.es, Dem.Spec.key 0x1A e = false) ∧
    ((noisy 3 16).bce = true → (noisy 3 16).style.bg = none ∧ ∀ u ∈ demoRun, u.garbled = none) ∧
    Printable Screen.ascii 0x20 ∧ ∀ k, k < 10 → Printable Screen.ascii (0x30 + k) := by
  refine ⟨by decide, fun h => absurd h (by decide), ⟨by decide, by decide, by decide, by decide, by decide⟩, ?_⟩
  have : ∀ k, k < 10 → (0x30 + k) ≠ 0x7F ∧ isEscape (0x30 + k) = false ∧ Screen.ascii (0x30 + k) = true := by decide
  intro k hk
  exact ⟨by omega, by omega, by omega, (this k hk).2.1, (this k hk).2.2⟩

/-- The first frame on a terminal of two cells, as it is written: hide, erase, go home, and two coloured blanks. -/
example : (match demoFrame (ε := Unit) 3 250000000 none {} [] (sizeTo {} (2, 1)) none with
    | .ok (_, d1) => (match d1.writeTo Screen.ascii .ok with | .ok (_, p, _) => some p | .error _ => none)
    | .error _ => none) =
    some [27, 91, 63, 50, 53, 108, 27, 91, 50, 74, 27, 91, 49, 59, 49, 72, 27, 91, 48, 59, 52, 56, 59, 50, 59, 48, 59, 49, 59,
      49, 109, 32, 27, 91, 52, 56, 59, 50, 59, 48, 59, 50, 59, 49, 109, 32] := by decide +kernel

end Direct
end Anansi
