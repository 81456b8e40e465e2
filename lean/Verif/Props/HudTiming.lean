import Verif.Model.HudTiming
import Verif.Props.HudRows
import Verif.Props.HudUpdate
/-
C104 The timing panel's controls pause the client and switch recording.
-/
set_option autoImplicit false

namespace Anansi.Hud
open Geom Evq Screen

namespace Spec

/-- What is seen when the text is put over the rest, from column `x` of row `y` on. -/
def lay (t : List Nat) (x y : Nat) (st : Attr) (f : Nat → Nat → Option Cell) (a b : Nat) : Option Cell :=
  if b = y ∧ x ≤ a ∧ a < x + t.length then some ⟨t.getD (a - x) 0, st⟩ else f a b

/-- A text as the code points of its characters. -/
def runes (s : String) : List Nat := s.toList.map (·.toNat)

/-- A key, a blank and a value on the right of `k` columns. -/
def pair (k : Nat) (key val : List Nat) : List Nat :=
  key ++ [0x20] ++ List.replicate (k - val.length) 0x20 ++ val

/-- The panel over what was there: the times in the rows `y` and `y + 1`, the control for
pausing in the row after, with the button that says what a press does, and the one for recording
in the last, or how far the replay is; `c` is the cursor before. -/
def panel (w dw y : Nat) (t : Theme) (c : Cursor) (last dt : List Nat) (paused : Bool)
    (replay recording : Option (List Nat)) (f : Nat → Nat → Option Cell) : Nat → Nat → Option Cell :=
  let f := lay (pair dw (runes "last") last) (w - dw - 6) y c.attr f
  let f := lay (pair dw (runes "∂t") dt) (w - dw - 4) (y + 1) c.attr f
  let f := lay (runes "paused ") (w - dw - 7) (y + 2) c.attr f
  let f := lay (button dw (if paused then runes "Resume" else runes "Pause")) (w - dw) (y + 2)
    (buttonCur t (box (w - dw) (y + 2) dw) c).attr f
  match replay with
  | some s => lay s (w - dw) (y + 3) 0 (lay (runes "replaying ") (w - dw - 10) (y + 3) 0 f)
  | none => lay (button dw (recording.getD (runes "Start"))) (w - dw) (y + 3)
      (buttonCur t (box (w - dw) (y + 3) dw) { attr := 0, attrKnown := true }).attr
      (lay (runes "recording ") (w - dw - 10) (y + 3) 0 f)

end Spec

theorem button_length (k : Nat) (hk : 5 ≤ k) (label : List Nat) : (Spec.button k label).length = k := by
  have := Lgv.fit_length (k - 4) label (by omega)
  unfold Spec.button
  simp only [List.length_append, List.length_replicate, List.length_cons, List.length_nil]
  omega

theorem buttonCur_same (t : Theme) (box : Rect) {c d : Cursor} (h1 : c.attr = d.attr) (h2 : c.attrKnown = d.attrKnown) :
    (buttonCur t box c).attr = (buttonCur t box d).attr := by
  have m := merge_same h1 h2 t.select
  unfold buttonCur
  split
  · exact (merge_same m.1 m.2 t.button).1
  · exact m.1

/-- A text and then a button in the value's box. -/
theorem key_button (gr : Nat → Bool) (hgr : ∀ r, 0x20 ≤ r → r < 0x7F → Screen.Printable gr r) (hel : Screen.Printable gr 0x2026)
    {w h c y : Nat} (v : VScreen) (R : Ready v w h c y) (dw : Nat) (hdw : 5 ≤ dw) (t : Theme) (key label : List Nat)
    (hk : ∀ r ∈ key, Screen.Printable gr r) (hl : ∀ r ∈ label, Screen.Printable gr r) (hw : key.length + dw ≤ w)
    (hk1 : 1 ≤ key.length) :
    ∃ v1 v2, (goto v ⟨((w - dw - key.length : Nat) : Int) + 1, (y : Int) + 1⟩).write gr (encodeRunes key) = .ok v1 ∧
      drawButton gr t (Spec.box (w - dw) y dw) (encodeRunes label) (goto v1 (Spec.box (w - dw) y dw).min) = .ok v2 ∧
      Ready v2 w h (w - 1) (min (h - 1) (y + 1)) ∧ v2.sc.cur.attr = 0 ∧ v2.sc.cur.attrKnown = true ∧
      ∀ a b, a < w → b < h → v2.sc.look w a b =
        Spec.lay (Spec.button dw label) (w - dw) y (buttonCur t (Spec.box (w - dw) y dw) v.sc.cur).attr
          (Spec.lay key (w - dw - key.length) y v.sc.cur.attr (v.sc.look w)) a b := by
  have hyh := R.hy
  have R1 := goto_at R.whole R.settled (x := w - dw - key.length) (y := y) (by omega) hyh
  obtain ⟨v1, e1, D1⟩ := drew_run gr key hk _ R1 (by omega)
  have R2 := goto_ready D1.whole D1.settled (Spec.box (w - dw) y dw).min
  obtain ⟨v2, e2, R3, A, K, L2⟩ := button_drawn gr (hgr _ (by omega) (by omega)) (hgr _ (by omega) (by omega))
    (hgr _ (by omega) (by omega)) hel (goto v1 (Spec.box (w - dw) y dw).min) R2.whole R2.settled t
    (w - dw) y dw hdw (by omega) hyh label hl
  refine ⟨v1, v2, e1, e2, ?_, A, K, ?_⟩
  · rw [show w - dw + dw - 1 = w - 1 from by omega] at R3
    exact R3
  · intro a b ha hb
    have hattr : (buttonCur t (Spec.box (w - dw) y dw) (goto v1 (Spec.box (w - dw) y dw).min).sc.cur).attr =
        (buttonCur t (Spec.box (w - dw) y dw) v.sc.cur).attr := by
      apply buttonCur_same
      · show v1.sc.cur.attr = _
        rw [D1.cur]; rfl
      · show v1.sc.cur.attrKnown = _
        rw [D1.cur]; rfl
    rw [L2 a b ha hb, hattr, goto_look, D1.look a b ha hb]
    unfold Spec.lay
    rw [button_length dw hdw]
    rfl

theorem paused_text : ascii "paused " = encodeRunes (Spec.runes "paused ") ∧
    ascii "paused" = encodeRunes (Spec.runes "paused") := by decide +kernel

/-- The control for pausing. -/
theorem pause_drawn (gr : Nat → Bool) (hgr : ∀ r, 0x20 ≤ r → r < 0x7F → Screen.Printable gr r) (hel : Screen.Printable gr 0x2026)
    {w h c y : Nat} (v : VScreen) (R : Ready v w h c y) (dw : Nat) (hdw : 5 ≤ dw) (t : Theme) (es : Events) (paused : Bool)
    (hw : 7 + dw ≤ w) :
    ∃ v', drawPause gr dw t paused es v =
        .ok (xor paused (Spec.odd (Spec.box (w - dw) y dw) es), strikeIf (pressIn (Spec.box (w - dw) y dw) 1) es, v') ∧
      Ready v' w h (w - 1) (min (h - 1) (y + 1)) ∧ v'.sc.cur.attr = 0 ∧ v'.sc.cur.attrKnown = true ∧
      ∀ a b, a < w → b < h → v'.sc.look w a b =
        Spec.lay (Spec.button dw (if xor paused (Spec.odd (Spec.box (w - dw) y dw) es) then Spec.runes "Resume" else Spec.runes "Pause"))
          (w - dw) y (buttonCur t (Spec.box (w - dw) y dw) v.sc.cur).attr
          (Spec.lay (Spec.runes "paused ") (w - dw - 7) y v.sc.cur.attr (v.sc.look w)) a b := by
  have hkey : ∀ r ∈ Spec.runes "paused", Screen.Printable gr r := fun r hr =>
    hgr r ((by decide : ∀ r ∈ Spec.runes "paused", 0x20 ≤ r) r hr) ((by decide : ∀ r ∈ Spec.runes "paused", r < 0x7F) r hr)
  have hkey' : ∀ r ∈ Spec.runes "paused ", Screen.Printable gr r := fun r hr =>
    hgr r ((by decide : ∀ r ∈ Spec.runes "paused ", 0x20 ≤ r) r hr) ((by decide : ∀ r ∈ Spec.runes "paused ", r < 0x7F) r hr)
  have hf : ∀ f : Bool, ∀ r ∈ (if f then Spec.runes "Resume" else Spec.runes "Pause"), Screen.Printable gr r := by
    intro f r hr
    have : ∀ f : Bool, ∀ r ∈ (if f then Spec.runes "Resume" else Spec.runes "Pause"), 0x20 ≤ r ∧ r < 0x7F := by decide
    exact hgr r (this f r hr).1 (this f r hr).2
  have hlab : ∀ f : Bool, (if f then ascii "Resume" else ascii "Pause") =
      encodeRunes (if f then Spec.runes "Resume" else Spec.runes "Pause") := by decide +kernel
  have hl7 : (Spec.runes "paused ").length = 7 := by decide
  have hl6 : (Spec.runes "paused").length = 6 := by decide
  have hx : (if es.countP (pressIn (Spec.box (w - dw) y dw) 1) % 2 = 1 then !paused else paused) =
      xor paused (Spec.odd (Spec.box (w - dw) y dw) es) := by
    unfold Spec.odd
    generalize es.countP (pressIn (Spec.box (w - dw) y dw) 1) = n
    rcases Nat.mod_two_eq_zero_or_one n with h | h <;> simp only [h] <;> cases paused <;> rfl
  obtain ⟨v1, v2, e1, e2, R2, A, K, L⟩ := key_button gr hgr hel v R dw hdw t (Spec.runes "paused ")
    (if xor paused (Spec.odd (Spec.box (w - dw) y dw) es) then Spec.runes "Resume" else Spec.runes "Pause") hkey' (hf _)
    (by omega) (by omega)
  refine ⟨v2, ?_, R2, A, K, by rw [hl7] at L; exact L⟩
  unfold drawPause
  rw [paused_text.2, kv_ok gr v R dw _ hkey (by omega), paused_text.1]
  simp only [Except.bind, countPressesIn_exact, Nat.zero_add]
  have hm : (Spec.box (w - dw - 1 - (Spec.runes "paused").length) y (Spec.runes "paused").length).min =
      ⟨((w - dw - (Spec.runes "paused ").length : Nat) : Int) + 1, (y : Int) + 1⟩ := by
    unfold Spec.box
    rw [hl6, hl7]
    congr 2
  rw [hm, e1]
  simp only
  rw [hx, hlab, e2]

/-- The control for recording, or how far the replay is. -/
theorem record_drawn (gr : Nat → Bool) (hgr : ∀ r, 0x20 ≤ r → r < 0x7F → Screen.Printable gr r) (hel : Screen.Printable gr 0x2026)
    {w h c y : Nat} (v : VScreen) (R : Ready v w h c y) (dw : Nat) (hdw : 5 ≤ dw) (t : Theme) (es : Events) (p : Timing)
    (replay recording : Option (List Nat)) (hrep : p.replay = replay.map encodeRunes) (hrec : p.recording = recording.map encodeRunes)
    (hp1 : ∀ s ∈ replay, s.length ≤ dw ∧ ∀ r ∈ s, Screen.Printable gr r) (hp2 : ∀ s ∈ recording, ∀ r ∈ s, Screen.Printable gr r)
    (hw : 10 + dw ≤ w) :
    ∃ v', drawRecord gr dw t p es v =
        .ok (!replay.isSome && Spec.odd (Spec.box (w - dw) y dw) es,
          if replay.isSome then es else strikeIf (pressIn (Spec.box (w - dw) y dw) 1) es, v') ∧
      Ready v' w h (w - 1) (min (h - 1) (y + 1)) ∧
      ∀ a b, a < w → b < h → v'.sc.look w a b =
        (match replay with
        | some s => Spec.lay s (w - dw) y v.sc.cur.attr (Spec.lay (Spec.runes "replaying ") (w - dw - 10) y v.sc.cur.attr (v.sc.look w)) a b
        | none => Spec.lay (Spec.button dw (recording.getD (Spec.runes "Start"))) (w - dw) y
            (buttonCur t (Spec.box (w - dw) y dw) v.sc.cur).attr
            (Spec.lay (Spec.runes "recording ") (w - dw - 10) y v.sc.cur.attr (v.sc.look w)) a b) := by
  have hyh := R.hy
  have hasc : ∀ s : String, (∀ r ∈ Spec.runes s, 0x20 ≤ r ∧ r < 0x7F) → ∀ r ∈ Spec.runes s, Screen.Printable gr r :=
    fun s h r hr => hgr r (h r hr).1 (h r hr).2
  have hk : ∀ r ∈ Spec.runes "replaying", Screen.Printable gr r := hasc _ (by decide)
  have hk1 : ∀ r ∈ Spec.runes "replaying ", Screen.Printable gr r := hasc _ (by decide)
  have hk2 : ∀ r ∈ Spec.runes "recording ", Screen.Printable gr r := hasc _ (by decide)
  have t0 : ascii "replaying" = encodeRunes (Spec.runes "replaying") := by decide +kernel
  have t1 : ascii "replaying " = encodeRunes (Spec.runes "replaying ") := by decide +kernel
  have t2 : ascii "recording " = encodeRunes (Spec.runes "recording ") := by decide +kernel
  have t3 : ascii "Start" = encodeRunes (Spec.runes "Start") := by decide +kernel
  have l0 : (Spec.runes "replaying").length = 9 := by decide
  have l1 : (Spec.runes "replaying ").length = 10 := by decide
  have l2 : (Spec.runes "recording ").length = 10 := by decide
  have emx : ∀ u : VScreen, u.sc.Whole w h → Emu.Settled u →
      Ready (goto u (Spec.box (w - dw) y dw).max) w h (w - 1) (min (h - 1) (y + 1)) := by
    intro u W S
    have : (Spec.box (w - dw) y dw).max = ⟨(w : Int) + 1, (y : Int) + 1 + 1⟩ := by
      show (⟨((w - dw : Nat) : Int) + dw + 1, (y : Int) + 1 + 1⟩ : Pt) = _
      rw [show ((w - dw : Nat) : Int) + dw + 1 = (w : Int) + 1 by omega]
    rw [this]
    exact goto_below W S
  have hm : (Spec.box (w - dw - 1 - (Spec.runes "replaying").length) y (Spec.runes "replaying").length).min =
      ⟨((w - dw - 10 : Nat) : Int) + 1, (y : Int) + 1⟩ := by
    unfold Spec.box
    rw [l0]
    congr 2
  obtain ⟨plast, pdt, ppaused, preplay, precording⟩ := p
  simp only at hrep hrec
  subst hrep hrec
  unfold drawRecord
  rw [t0, kv_ok gr v R dw _ hk (by omega)]
  simp only [Except.bind, countPressesIn_exact, Nat.zero_add]
  rw [hm]
  cases replay with
  | some s =>
    obtain ⟨hs1, hs2⟩ := hp1 s rfl
    simp only [Option.map_some]
    have R1 := goto_at R.whole R.settled (x := w - dw - 10) (y := y) (by omega) hyh
    obtain ⟨v1, e1, D1⟩ := drew_run gr (Spec.runes "replaying ") hk1 _ R1 (by omega)
    rw [t1, e1]
    simp only
    have R2 := goto_at D1.whole D1.settled (x := w - dw) (y := y) (by omega) hyh
    obtain ⟨v2, e2, D2⟩ := drew_run gr s hs2 _ R2 (by omega)
    have e2' : (goto v1 (Spec.box (w - dw) y dw).min).write gr (encodeRunes s) = .ok v2 := e2
    rw [e2']
    refine ⟨_, rfl, emx v2 D2.whole D2.settled, ?_⟩
    intro a b ha hb
    rw [goto_look, D2.look a b ha hb, goto_look, D1.look a b ha hb, goto_look]
    have hattr : (goto v1 ⟨((w - dw : Nat) : Int) + 1, (y : Int) + 1⟩).sc.cur.attr = v.sc.cur.attr := by
      show v1.sc.cur.attr = _
      rw [D1.cur]; rfl
    rw [hattr]
    rfl
  | none =>
    have hlab : ∀ r ∈ recording.getD (Spec.runes "Start"), Screen.Printable gr r := by
      cases recording with
      | none => exact hasc _ (by decide)
      | some s => exact hp2 s rfl
    have hlt : (recording.map encodeRunes).getD (ascii "Start") = encodeRunes (recording.getD (Spec.runes "Start")) := by
      cases recording with
      | none => exact t3
      | some s => rfl
    obtain ⟨v1, v2, e1, e2, R2, -, -, L⟩ := key_button gr hgr hel v R dw hdw t (Spec.runes "recording ")
      (recording.getD (Spec.runes "Start")) hk2 hlab (by omega) (by omega)
    rw [l2] at e1 L
    simp only [Option.map_none]
    rw [t2, e1]
    simp only
    rw [hlt, e2]
    refine ⟨_, rfl, emx v2 R2.whole R2.settled, ?_⟩
    intro a b ha hb
    rw [goto_look]
    exact L a b ha hb

theorem lay_congr {f g : Nat → Nat → Option Cell} {w h : Nat} (hfg : ∀ a b, a < w → b < h → f a b = g a b) (t : List Nat)
    (x y : Nat) (st : Attr) : ∀ a b, a < w → b < h → Spec.lay t x y st f a b = Spec.lay t x y st g a b := by
  intro a b ha hb
  unfold Spec.lay
  rw [hfg a b ha hb]

/-- **C104**: the timing panel on a screen with room for it, the cursor in the last column as the
overlay puts it: the client is paused or resumed exactly by an odd number of left presses on the
first button, and recording is switched exactly by an odd number on the second, unless a replay
runs; these presses and no others are taken; the panel shows the times, and on the buttons what a
press does; no other cell changes. -/
theorem timing_drawn (gr : Nat → Bool) (hgr : ∀ r, 0x20 ≤ r → r < 0x7F → Screen.Printable gr r) (hel : Screen.Printable gr 0x2026)
    (hdt : Screen.Printable gr 0x2202)
    {w h y : Nat} (v : VScreen) (R : Ready v w h (w - 1) y) (dw : Nat) (hdw : 5 ≤ dw) (t : Theme) (es : Events)
    (p : Timing) (last dt : List Nat) (replay recording : Option (List Nat))
    (hlast : p.last = encodeRunes last) (hdt' : p.dt = encodeRunes dt)
    (hrep : p.replay = replay.map encodeRunes) (hrec : p.recording = recording.map encodeRunes)
    (hp1 : ∀ s ∈ [last, dt] ++ replay.toList, s.length ≤ dw ∧ ∀ r ∈ s, Screen.Printable gr r)
    (hp2 : ∀ s ∈ recording, ∀ r ∈ s, Screen.Printable gr r) (hw : 10 + dw ≤ w) (hh : y + 4 ≤ h) :
    ∃ v', timingDetail gr dw t p es v =
        .ok (xor p.paused (Spec.odd (Spec.box (w - dw) (y + 2) dw) es),
          !replay.isSome && Spec.odd (Spec.box (w - dw) (y + 3) dw) es,
          Spec.without (Spec.box (w - dw) (y + 2) dw :: if replay.isSome then [] else [Spec.box (w - dw) (y + 3) dw]) es, v') ∧
      Ready v' w h (w - 1) (min (h - 1) (y + 4)) ∧
      ∀ a b, a < w → b < h → v'.sc.look w a b =
        Spec.panel w dw y t v.sc.cur last dt (xor p.paused (Spec.odd (Spec.box (w - dw) (y + 2) dw) es)) replay recording
          (v.sc.look w) a b := by
  have hsp : Screen.Printable gr 0x20 := hgr _ (by omega) (by omega)
  have hasc : ∀ s : String, (∀ r ∈ Spec.runes s, 0x20 ≤ r ∧ r < 0x7F) → ∀ r ∈ Spec.runes s, Screen.Printable gr r :=
    fun s h r hr => hgr r (h r hr).1 (h r hr).2
  have hk1 : ∀ r ∈ Spec.runes "last", Screen.Printable gr r := hasc _ (by decide)
  have hk2 : ∀ r ∈ Spec.runes "∂t", Screen.Printable gr r := by
    intro r hr
    have : Spec.runes "∂t" = [0x2202, 0x74] := by decide
    rw [this] at hr
    rcases List.mem_cons.1 hr with rfl | hr
    · exact hdt
    · rcases List.mem_singleton.1 hr with rfl
      exact hgr _ (by omega) (by omega)
  have t1 : ascii "last" = encodeRunes (Spec.runes "last") := by decide +kernel
  have t2 : ([0xE2, 0x88, 0x82] ++ ascii "t" : Bytes) = encodeRunes (Spec.runes "∂t") := by decide +kernel
  have l1 : (Spec.runes "last").length = 4 := by decide
  have l2 : (Spec.runes "∂t").length = 2 := by decide
  have m1 : min (h - 1) (y + 1) = y + 1 := by omega
  have m2 : min (h - 1) (y + 1 + 1) = y + 2 := by omega
  have m3 : min (h - 1) (y + 2 + 1) = y + 3 := by omega
  obtain ⟨v1, e1, R1, A1, K1, L1⟩ := row_drawn_partial gr hsp v R dw (Spec.runes "last") last hk1
    (hp1 last (by simp)).2 (hp1 last (by simp)).1 (by omega)
  rw [m1] at R1
  obtain ⟨v2, e2, R2, A2, K2, L2⟩ := row_drawn_partial gr hsp v1 R1 dw (Spec.runes "∂t") dt hk2
    (hp1 dt (by simp)).2 (hp1 dt (by simp)).1 (by omega)
  rw [m2] at R2
  obtain ⟨v3, e3, R3, A3, K3, L3⟩ := pause_drawn gr hgr hel v2 R2 dw hdw t es p.paused (by omega)
  rw [m3] at R3
  obtain ⟨v4, e4, R4, L4⟩ := record_drawn gr hgr hel v3 R3 dw hdw t
    (strikeIf (pressIn (Spec.box (w - dw) (y + 2) dw) 1) es) p replay recording hrep hrec
    (fun s hs => hp1 s (by simp only [Option.mem_def] at hs; subst hs; simp)) hp2 hw
  have hapart : ∀ q, ¬ (Geom.Mem q (Spec.box (w - dw) (y + 2) dw) ∧ Geom.Mem q (Spec.box (w - dw) (y + 3) dw)) := by
    rintro q ⟨h1, h2⟩
    unfold Geom.Mem Spec.box at h1 h2
    simp only at h1 h2
    omega
  have hodd : Spec.odd (Spec.box (w - dw) (y + 3) dw) (strikeIf (pressIn (Spec.box (w - dw) (y + 2) dw) 1) es) =
      Spec.odd (Spec.box (w - dw) (y + 3) dw) es := by
    unfold Spec.odd
    rw [count_strike _ _ _ (press_apart hapart) (struck_not_in _ 1)]
  refine ⟨v4, ?_, R4, ?_⟩
  · unfold timingDetail
    rw [t1, hlast, e1]
    simp only [Except.bind]
    rw [t2, hdt', e2]
    simp only
    rw [e3]
    simp only
    rw [e4, hodd]
    simp only
    congr 4
    unfold Spec.without
    cases replay with
    | some s => simp
    | none =>
      simp only [Option.isSome_none, Bool.false_eq_true, if_false, List.any_cons, List.any_nil, Bool.or_false]
      exact strike_strike _ _ _ (struck_not_in _ 1)
  · intro a b ha hb
    rw [L4 a b ha hb, A3]
    have c1 : ∀ a b, a < w → b < h → v1.sc.look w a b =
        Spec.lay (Spec.pair dw (Spec.runes "last") last) (w - dw - 6) y v.sc.cur.attr (v.sc.look w) a b := by
      intro a b ha hb
      rw [L1 a b ha hb, l1]
      unfold Spec.lay
      have hl : (Spec.pair dw (Spec.runes "last") last).length = 5 + dw := by
        have := (hp1 last (by simp)).1
        simp only [Spec.pair, List.length_append, l1, List.length_replicate, List.length_cons, List.length_nil]
        omega
      rw [hl, show w - dw - 2 - 4 = w - dw - 6 by omega]
      have : (b = y ∧ w - dw - 6 ≤ a ∧ a < w - 1) ↔ (b = y ∧ w - dw - 6 ≤ a ∧ a < w - dw - 6 + (5 + dw)) := by omega
      simp only [this]
      rfl
    have c2 : ∀ a b, a < w → b < h → v2.sc.look w a b =
        Spec.lay (Spec.pair dw (Spec.runes "∂t") dt) (w - dw - 4) (y + 1) v.sc.cur.attr
          (Spec.lay (Spec.pair dw (Spec.runes "last") last) (w - dw - 6) y v.sc.cur.attr (v.sc.look w)) a b := by
      intro a b ha hb
      rw [L2 a b ha hb, l2, c1 a b ha hb, A1]
      have hl : (Spec.pair dw (Spec.runes "∂t") dt).length = 3 + dw := by
        have := (hp1 dt (by simp)).1
        simp only [Spec.pair, List.length_append, l2, List.length_replicate, List.length_cons, List.length_nil]
        omega
      conv_rhs => unfold Spec.lay
      rw [hl, show w - dw - 2 - 2 = w - dw - 4 by omega]
      have : (b = y + 1 ∧ w - dw - 4 ≤ a ∧ a < w - 1) ↔ (b = y + 1 ∧ w - dw - 4 ≤ a ∧ a < w - dw - 4 + (3 + dw)) := by omega
      simp only [this]
      rfl
    have c3 : ∀ a b, a < w → b < h → v3.sc.look w a b = _ := fun a b ha hb =>
      (L3 a b ha hb).trans (lay_congr (lay_congr c2 _ _ _ _) _ _ _ _ a b ha hb)
    rw [A2, A1, buttonCur_same t _ (c := v2.sc.cur) (d := v.sc.cur) (A2.trans A1) (K2.trans K1)] at c3
    unfold Spec.panel
    cases replay with
    | some s => exact lay_congr (lay_congr c3 _ _ _ _) _ _ _ _ a b ha hb
    | none =>
      simp only
      rw [buttonCur_same t _ (c := v3.sc.cur) (d := { attr := 0, attrKnown := true }) A3 K3]
      exact lay_congr (lay_congr c3 _ _ _ _) _ _ _ _ a b ha hb

/-! ### Where it fails -/

/-- Negation for **C104**: on a screen one row too short both controls are drawn in the last row,
and the presses all go to the first: recording cannot be switched. -/
theorem short_record_dead (gr : Nat → Bool) (hgr : ∀ r, 0x20 ≤ r → r < 0x7F → Screen.Printable gr r) (hel : Screen.Printable gr 0x2026)
    (hdt : Screen.Printable gr 0x2202)
    {w h y : Nat} (v : VScreen) (R : Ready v w h (w - 1) y) (dw : Nat) (hdw : 5 ≤ dw) (t : Theme) (es : Events)
    (p : Timing) (last dt : List Nat) (recording : Option (List Nat))
    (hlast : p.last = encodeRunes last) (hdt' : p.dt = encodeRunes dt)
    (hrep : p.replay = none) (hrec : p.recording = recording.map encodeRunes)
    (hp1 : ∀ s ∈ [last, dt], s.length ≤ dw ∧ ∀ r ∈ s, Screen.Printable gr r)
    (hp2 : ∀ s ∈ recording, ∀ r ∈ s, Screen.Printable gr r) (hw : 10 + dw ≤ w) (hh : h = y + 3) :
    ∃ v', timingDetail gr dw t p es v =
        .ok (xor p.paused (Spec.odd (Spec.box (w - dw) (y + 2) dw) es), false,
          Spec.without [Spec.box (w - dw) (y + 2) dw] es, v') := by
  have hsp : Screen.Printable gr 0x20 := hgr _ (by omega) (by omega)
  have hk1 : ∀ r ∈ Spec.runes "last", Screen.Printable gr r := fun r hr =>
    hgr r ((by decide : ∀ r ∈ Spec.runes "last", 0x20 ≤ r ∧ r < 0x7F) r hr).1
      ((by decide : ∀ r ∈ Spec.runes "last", 0x20 ≤ r ∧ r < 0x7F) r hr).2
  have hk2 : ∀ r ∈ Spec.runes "∂t", Screen.Printable gr r := by
    intro r hr
    have : Spec.runes "∂t" = [0x2202, 0x74] := by decide
    rw [this] at hr
    rcases List.mem_cons.1 hr with rfl | hr
    · exact hdt
    · rcases List.mem_singleton.1 hr with rfl
      exact hgr _ (by omega) (by omega)
  have t1 : ascii "last" = encodeRunes (Spec.runes "last") := by decide +kernel
  have t2 : ([0xE2, 0x88, 0x82] ++ ascii "t" : Bytes) = encodeRunes (Spec.runes "∂t") := by decide +kernel
  have l1 : (Spec.runes "last").length = 4 := by decide
  have l2 : (Spec.runes "∂t").length = 2 := by decide
  have m1 : min (h - 1) (y + 1) = y + 1 := by omega
  have m2 : min (h - 1) (y + 1 + 1) = y + 2 := by omega
  have m3 : min (h - 1) (y + 2 + 1) = y + 2 := by omega
  obtain ⟨v1, e1, R1, -⟩ := row_drawn_partial gr hsp v R dw (Spec.runes "last") last hk1
    (hp1 last (by simp)).2 (hp1 last (by simp)).1 (by omega)
  rw [m1] at R1
  obtain ⟨v2, e2, R2, -⟩ := row_drawn_partial gr hsp v1 R1 dw (Spec.runes "∂t") dt hk2
    (hp1 dt (by simp)).2 (hp1 dt (by simp)).1 (by omega)
  rw [m2] at R2
  obtain ⟨v3, e3, R3, -⟩ := pause_drawn gr hgr hel v2 R2 dw hdw t es p.paused (by omega)
  rw [m3] at R3
  obtain ⟨v4, e4, -⟩ := record_drawn gr hgr hel v3 R3 dw hdw t
    (strikeIf (pressIn (Spec.box (w - dw) (y + 2) dw) 1) es) p none recording hrep hrec (by simp) hp2 hw
  refine ⟨v4, ?_⟩
  have hz : (strikeIf (pressIn (Spec.box (w - dw) (y + 2) dw) 1) es).countP (pressIn (Spec.box (w - dw) (y + 2) dw) 1) = 0 := by
    rw [List.countP_eq_zero]
    intro e he
    obtain ⟨e0, -, rfl⟩ := List.mem_map.1 he
    split
    · rw [struck_not_in]; simp
    · assumption
  unfold timingDetail
  rw [t1, hlast, e1]
  simp only [Except.bind]
  rw [t2, hdt', e2]
  simp only
  rw [e3]
  simp only
  rw [e4]
  simp only [Spec.odd, hz, Option.isSome_none, Bool.false_eq_true, if_false]
  rw [strike_strike _ _ _ (struck_not_in _ 1)]
  simp [Spec.without]

/-- Negation for **C104**: with fewer columns the panel panics. -/
theorem narrow_timing_panics (gr : Nat → Bool) (hgr : ∀ r, 0x20 ≤ r → r < 0x7F → Screen.Printable gr r) (hel : Screen.Printable gr 0x2026)
    (hdt : Screen.Printable gr 0x2202)
    {w h y : Nat} (v : VScreen) (R : Ready v w h (w - 1) y) (dw : Nat) (hdw : 5 ≤ dw) (t : Theme) (es : Events)
    (p : Timing) (last dt : List Nat) (hlast : p.last = encodeRunes last) (hdt' : p.dt = encodeRunes dt)
    (hp1 : ∀ s ∈ [last, dt], s.length ≤ dw ∧ ∀ r ∈ s, Screen.Printable gr r) (hw : w < 10 + dw) :
    timingDetail gr dw t p es v = .error .panic := by
  have hsp : Screen.Printable gr 0x20 := hgr _ (by omega) (by omega)
  have hasc : ∀ s : String, (∀ r ∈ Spec.runes s, 0x20 ≤ r ∧ r < 0x7F) → ∀ r ∈ Spec.runes s, Screen.Printable gr r :=
    fun s h r hr => hgr r (h r hr).1 (h r hr).2
  have hk1 : ∀ r ∈ Spec.runes "last", Screen.Printable gr r := hasc _ (by decide)
  have hk3 : ∀ r ∈ Spec.runes "paused", Screen.Printable gr r := hasc _ (by decide)
  have hk4 : ∀ r ∈ Spec.runes "replaying", Screen.Printable gr r := hasc _ (by decide)
  have hk2 : ∀ r ∈ Spec.runes "∂t", Screen.Printable gr r := by
    intro r hr
    have : Spec.runes "∂t" = [0x2202, 0x74] := by decide
    rw [this] at hr
    rcases List.mem_cons.1 hr with rfl | hr
    · exact hdt
    · rcases List.mem_singleton.1 hr with rfl
      exact hgr _ (by omega) (by omega)
  have t1 : ascii "last" = encodeRunes (Spec.runes "last") := by decide +kernel
  have t2 : ([0xE2, 0x88, 0x82] ++ ascii "t" : Bytes) = encodeRunes (Spec.runes "∂t") := by decide +kernel
  have t4 : ascii "replaying" = encodeRunes (Spec.runes "replaying") := by decide +kernel
  have l1 : (Spec.runes "last").length = 4 := by decide
  have l2 : (Spec.runes "∂t").length = 2 := by decide
  have l3 : (Spec.runes "paused").length = 6 := by decide
  have l4 : (Spec.runes "replaying").length = 9 := by decide
  unfold timingDetail
  rw [t1, hlast]
  by_cases h1 : w < 6 + dw
  · rw [row_panics gr v R dw _ _ hk1 (by omega)]
    rfl
  obtain ⟨v1, e1, R1, -⟩ := row_drawn_partial gr hsp v R dw (Spec.runes "last") last hk1
    (hp1 last (by simp)).2 (hp1 last (by simp)).1 (by omega)
  obtain ⟨v2, e2, R2, -⟩ := row_drawn_partial gr hsp v1 R1 dw (Spec.runes "∂t") dt hk2
    (hp1 dt (by simp)).2 (hp1 dt (by simp)).1 (by omega)
  rw [e1]
  simp only [Except.bind]
  rw [t2, hdt', e2]
  simp only
  by_cases h2 : w < 7 + dw
  · unfold drawPause
    rw [paused_text.2, kv_panics gr v2 R2 dw _ hk3 (by omega)]
    rfl
  obtain ⟨v3, e3, R3, -⟩ := pause_drawn gr hgr hel v2 R2 dw hdw t es p.paused (by omega)
  rw [e3]
  simp only
  unfold drawRecord
  rw [t4, kv_panics gr v3 R3 dw _ hk4 (by omega)]
  rfl

/-! ### Examples -/

theorem gr0_printable (r : Nat) (h : 0x20 ≤ r ∧ r < 0x7F ∨ r = 0x2026 ∨ r = 0x2202) : Screen.Printable gr0 r := by
  rcases h with h | rfl | rfl
  · apply printable_gr0
    obtain ⟨h1, h2⟩ := h
    have : ∀ r < 0x7F, 0x20 ≤ r → plainRune r ∧ gr0 r = true ∧ isEscape r = false ∧ r ≠ 0x0A ∧ r ≠ 0x0D := by
      decide +kernel
    exact this r h2 h1
  · exact printable_gr0 (by decide +kernel)
  · exact printable_gr0 (by decide +kernel)

/-- A screen of 30 columns and 6 rows, the cursor where the overlay puts it. -/
def thirty : VScreen := goto (blank 30 6) ⟨31, 2⟩

theorem thirty_ready : Ready thirty 30 6 29 1 := by
  have := goto_ready (blank_whole 30 6 (by omega) (by omega)) (blank_settled 30 6) ⟨31, 2⟩
  exact this

example : ∃ v', timingDetail gr0 16 {} { last := ascii "10:00:00", dt := ascii "16.0ms" }
      [entry (csiId 0x4D) (Mouse.reportArg 0 20 4), entry (csiId 0x4D) (Mouse.reportArg 0 20 5)] thirty =
    .ok (true, true, Spec.without [Spec.box 14 3 16, Spec.box 14 4 16]
      [entry (csiId 0x4D) (Mouse.reportArg 0 20 4), entry (csiId 0x4D) (Mouse.reportArg 0 20 5)], v') ∧
    (List.range 6).map (fun b => (List.range 30).map fun a => ((v'.sc.look 30 a b).map (·.rune)).getD 0) =
      [List.replicate 30 0,
       List.replicate 8 0 ++ Spec.runes "last         10:00:00" ++ [0],
       List.replicate 10 0 ++ Spec.runes "∂t           16.0ms" ++ [0],
       List.replicate 7 0 ++ Spec.runes "paused [    Resume    ]",
       List.replicate 4 0 ++ Spec.runes "recording [    Start     ]",
       List.replicate 30 0] := by
  obtain ⟨v', h1, -, h2⟩ := timing_drawn gr0 (fun r h1 h2 => gr0_printable r (Or.inl ⟨h1, h2⟩)) (gr0_printable _ (by simp))
    (gr0_printable _ (by simp)) thirty thirty_ready 16 (by omega) {}
    [entry (csiId 0x4D) (Mouse.reportArg 0 20 4), entry (csiId 0x4D) (Mouse.reportArg 0 20 5)]
    { last := ascii "10:00:00", dt := ascii "16.0ms" } (Spec.runes "10:00:00") (Spec.runes "16.0ms") none none
    (by decide +kernel) (by decide +kernel) rfl rfl (fun s hs => by
      have hl : ∀ s ∈ [Spec.runes "10:00:00", Spec.runes "16.0ms"], s.length ≤ 16 ∧ ∀ r ∈ s, 0x20 ≤ r ∧ r < 0x7F := by
        decide +kernel
      have := hl s (by simpa using hs)
      exact ⟨this.1, fun r hr => gr0_printable r (Or.inl (this.2 r hr))⟩) (by simp) (by omega) (by omega)
  refine ⟨v', ?_, ?_⟩
  · refine Eq.trans h1 ?_
    rw [show Spec.odd (Spec.box (30 - 16) (1 + 2) 16) [entry (csiId 0x4D) (Mouse.reportArg 0 20 4),
        entry (csiId 0x4D) (Mouse.reportArg 0 20 5)] = true by decide +kernel,
      show Spec.odd (Spec.box (30 - 16) (1 + 3) 16) [entry (csiId 0x4D) (Mouse.reportArg 0 20 4),
        entry (csiId 0x4D) (Mouse.reportArg 0 20 5)] = true by decide +kernel]
    rfl
  · have : (List.range 6).map (fun b => (List.range 30).map fun a => ((v'.sc.look 30 a b).map (·.rune)).getD 0) =
        (List.range 6).map (fun b => (List.range 30).map fun a => ((Spec.panel 30 16 1 {} thirty.sc.cur (Spec.runes "10:00:00")
          (Spec.runes "16.0ms") true none none (thirty.sc.look 30) a b).map (·.rune)).getD 0) := by
      apply List.map_congr_left
      intro b hb
      apply List.map_congr_left
      intro a ha
      rw [h2 a b (by simpa using ha) (by simpa using hb),
        show Spec.odd (Spec.box (30 - 16) (1 + 2) 16) [entry (csiId 0x4D) (Mouse.reportArg 0 20 4),
          entry (csiId 0x4D) (Mouse.reportArg 0 20 5)] = true by decide +kernel]
      rfl
    rw [this]
    decide +kernel

end Anansi.Hud
