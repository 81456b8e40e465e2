import Verif.Props.Erase
import Verif.Props.VCursor
import Verif.Props.SgrDecode
import Verif.Props.Differ
/-
C78: the virtual screen shows what a terminal would show.
-/
set_option autoImplicit false

namespace Anansi
open Vt Geom

namespace Spec

/-- What a program may write to a screen. -/
inductive Act
  /-- Text, carriage return, line feed, cursor motion, erasing everything, visibility. -/
  | op (o : Vt.Op)
  /-- `ESC [ … m` -/
  | sgr (l : List SgrParam)
  /-- `ESC [ H` -/
  | home
  /-- `ESC [ n H` -/
  | row (n : Nat)
  /-- `ESC [ 1 J`: erase from the top up to the cursor. -/
  | eraseAbove
  /-- `ESC [ 0 K`, `ESC [ 1 K`, `ESC [ 2 K`: erase the line from, up to, around the cursor. -/
  | eraseRight
  | eraseLeft
  | eraseLine

namespace Act

/-- Its bytes. -/
def bytes : Act → Bytes
  | .op o => o.bytes
  | .sgr l => csi (params (sgrCodes l)) 0x6D
  | .home => csi [] 0x48
  | .row n => csi (params [n]) 0x48
  | .eraseAbove => csi (params [1]) 0x4A
  | .eraseRight => csi (params [0]) 0x4B
  | .eraseLeft => csi (params [1]) 0x4B
  | .eraseLine => csi (params [2]) 0x4B

/-- A terminal with a region erased. -/
def erase (t : Term) (region : Nat → Nat → Bool) : Term :=
  { t with cell := fun a b => if region a b then t.erased else t.cell a b }

/-- Its effect on a terminal. -/
def after (t : Term) : Act → Term
  | .op o => t.step o
  | .sgr l => t.step (.sgr (sgrCodes l))
  | .home => t.step (.cup 1 1)
  | .row n => t.step (.cup n 1)
  | .eraseAbove => erase t fun a b => b < t.y || (b == t.y && a ≤ t.x)
  | .eraseRight => erase t fun a b => b == t.y && t.x ≤ a
  | .eraseLeft => erase t fun a b => b == t.y && a ≤ t.x
  | .eraseLine => erase t fun _ b => b == t.y

end Act

/-- How the emulated cursor relates to the terminal's: `exact`ly there; the terminal is
about to wrap and the emulator already has (`wrapped`); or somewhere else (`lost`), after
a write into the last cell. -/
inductive Phase
  | exact | wrapped | lost
deriving DecidableEq, Repr

/-- Erasing leaves plain blanks: the terminal does not colour them, or there is no
background colour to do it with. -/
def Plain (t : Term) : Prop := t.bce = false ∨ t.style.bg = none

namespace Act

/-- What the emulator gets right, and what it can be in what phase.  Text may flow over
line ends (but not off the end of the screen); after text has filled a line, the position
has to be set before the cursor is moved relative to it. -/
def Ok (gr : Nat → Bool) (t : Term) (ph : Phase) : Act → Prop
  | .op (.put r) => Printable gr r ∧ ph ≠ .lost
  | .op .cr => ph = .exact
  | .op .lf => ph = .exact ∧ t.y + 1 < t.h
  | .op (.up n) | .op (.down n) | .op (.forward n) | .op (.back n) =>
    ph = .exact ∧ n ≠ some 0 ∧ count n ≤ 2 ^ 32 - 1
  | .op (.cup r c) => r ≤ 2 ^ 32 - 1 ∧ c ≤ 2 ^ 32 - 1
  | .op .eraseAll => Plain t
  | .op (.sgr _) => False
  | .op .show_ => True
  | .op .hide => True
  | .sgr l => l ≠ [] ∧ ∀ p ∈ l, p.Known
  | .home => True
  | .row _ => False
  | .eraseAbove | .eraseRight | .eraseLeft | .eraseLine => ph = .exact ∧ Plain t

/-- The phase afterwards. -/
def next (t : Term) (ph : Phase) : Act → Phase
  | .op (.put r) =>
    let t' := t.step (.put r)
    if t'.pend = false then .exact else if t'.y + 1 < t'.h then .wrapped else .lost
  | .op (.cup _ _) => .exact
  | .home => .exact
  | _ => ph

/-- A sequence of acts that are all right. -/
def Flow (gr : Nat → Bool) : Term → Phase → List Act → Prop
  | _, _, [] => True
  | t, ph, a :: l => a.Ok gr t ph ∧ Flow gr (a.after t) (a.next t ph) l

/-- The terminal and the phase after a sequence. -/
def run : Term → Phase → List Act → Term × Phase
  | t, ph, [] => (t, ph)
  | t, ph, a :: l => run (a.after t) (a.next t ph) l

end Act

/-- The emulated screen is what the terminal shows: the same size, characters and
renditions (nothing written being a blank), current rendition and visibility, and the
cursor as the phase has it.  An unset cursor counts as being at the top left. -/
structure Emulates (sc : Screen) (t : Term) (ph : Phase) : Prop where
  whole : sc.Whole t.w t.h
  ok : t.Ok
  shows : Shows t sc t.w t.h
  clear : t.style.clear = false
  attr : sc.cur.attr = t.style.build
  vis : sc.cur.visible = t.vis
  pos : match ph with
    | .exact => t.pend = false ∧ sc.home.CurAt t.x t.y
    | .wrapped => t.pend = true ∧ t.x + 1 = t.w ∧ t.y + 1 < t.h ∧ sc.home.CurAt 0 (t.y + 1)
    | .lost => sc.home.OnScreen t.w t.h

/-- A call on a virtual screen: writing, setting the style, setting the position. -/
inductive ScreenCall
  | write (l : List Act)
  | style (l : List Sgr.Style)
  | move (p : Pt)

namespace ScreenCall

/-- The intended effect on a terminal. -/
def run (t : Term) (ph : Phase) : ScreenCall → Term × Phase
  | .write l => Act.run t ph l
  | .style l => (l.foldl (fun t s => { t with style := s }) t, ph)
  | .move p =>
    ({ t with x := min (t.w - 1) (p.x - 1).toNat, y := min (t.h - 1) (p.y - 1).toNat, pend := false },
      .exact)

def Ok (gr : Nat → Bool) (t : Term) (ph : Phase) : ScreenCall → Prop
  | .write l => Act.Flow gr t ph l
  | .style l => ∀ s ∈ l, s.clear = false
  | .move _ => True

def Session (gr : Nat → Bool) : Term → Phase → List ScreenCall → Prop
  | _, _, [] => True
  | t, ph, c :: l => c.Ok gr t ph ∧ Session gr (c.run t ph).1 (c.run t ph).2 l

def runs : Term → Phase → List ScreenCall → Term × Phase
  | t, ph, [] => (t, ph)
  | t, ph, c :: l => runs (c.run t ph).1 (c.run t ph).2 l

/-- The model's call. -/
def op : ScreenCall → VScreen.Op
  | .write l => .write (l.flatMap Act.bytes)
  | .style l => .sgr (l.map Sgr.Style.build)
  | .move p => .moveTo p

end ScreenCall
end Spec

open Spec

namespace Emu

theorem home_home (sc : Screen) : sc.home.home = sc.home := by
  unfold Screen.home
  by_cases h : sc.cur.pt = zp
  · rw [if_pos h, if_neg (by simp [zp])]
  · rw [if_neg h, if_neg h]

theorem process_home (gr : Nat → Bool) (sc : Screen) (ev : Event) :
    sc.processANSI gr ev = sc.home.processANSI gr ev := by
  unfold Screen.processANSI; rw [home_home]

theorem home_grid (sc : Screen) : sc.home.grid = sc.grid ∧ sc.home.cur.attr = sc.cur.attr ∧
    sc.home.cur.visible = sc.cur.visible := by
  unfold Screen.home; split <;> exact ⟨rfl, rfl, rfl⟩

theorem Emulates.home {sc : Screen} {t : Term} {ph : Phase} (E : Emulates sc t ph) :
    Emulates sc.home t ph := by
  obtain ⟨g, a, v⟩ := home_grid sc
  refine ⟨?_, E.ok, ?_, E.clear, a.trans E.attr, v.trans E.vis, ?_⟩
  · have W := E.whole
    exact ⟨W.hw, W.hh, by rw [g]; exact W.rect, by rw [g]; exact W.stride, by rw [g]; exact W.len,
      by rw [g]; exact W.cap⟩
  · obtain ⟨h1, h2, h3⟩ := E.shows
    refine ⟨h1, h2, fun x y hx hy => ?_⟩
    unfold Screen.look; rw [g]; exact h3 x y hx hy
  · rw [home_home]; exact E.pos

/-- Where the emulated cursor is. -/
theorem Emulates.on {sc : Screen} {t : Term} {ph : Phase} (E : Emulates sc t ph) :
    ∃ x y, x < t.w ∧ y < t.h ∧ sc.home.CurAt x y := by
  have p := E.pos
  have ⟨o1, o2⟩ := E.ok
  cases ph with
  | exact => exact ⟨_, _, o1, o2, p.2⟩
  | wrapped => exact ⟨0, t.y + 1, by omega, p.2.2.1, p.2.2.2⟩
  | lost => exact p

theorem rend_clear (ps : List Nat) (s : Sgr.Style) (h : s.clear = false) : (rend ps s).clear = false := by
  fun_induction rend ps s with
  | case1 s => exact h
  | case2 _ _ _ ih => exact ih h
  | case3 _ _ _ _ _ ih => exact ih h
  | case4 _ _ _ ih => exact ih h
  | case5 _ _ _ _ _ ih => exact ih h
  | case6 _ _ _ _ _ _ _ ih =>
    apply ih
    simp only [apply_ite Sgr.Style.clear, h, ite_self]

theorem rendition_clear (ps : List Nat) (s : Sgr.Style) (h : s.clear = false) :
    (rendition ps s).clear = false := by
  unfold rendition; split
  · rfl
  · exact rend_clear ps s h

/-- Clamping is what a terminal does. -/
theorem clamp_eq {sc : Screen} {w h : Nat} (W : sc.Whole w h) (p : Pt) :
    sc.clamp p = ⟨((min (w - 1) (p.x - 1).toNat : Nat) : Int) + 1, ((min (h - 1) (p.y - 1).toNat : Nat) : Int) + 1⟩ := by
  have hw := W.hw
  have hh := W.hh
  unfold Screen.clamp clampPointTo
  rw [W.rect]
  simp only
  refine Grid.pt_eq ?_ ?_ <;>
  · simp only
    repeat' split
    all_goals omega

/-- A new position. -/
theorem Emulates.moved {sc : Screen} {t : Term} {ph : Phase} (E : Emulates sc t ph) (x y : Nat)
    (hx : x < t.w) (hy : y < t.h) :
    Emulates { sc with cur := { sc.cur with pt := ⟨x + 1, y + 1⟩ } }
      { t with x := x, y := y, pend := false } .exact := by
  refine ⟨E.whole.cur _, ⟨hx, hy⟩, E.shows, E.clear, E.attr, E.vis, rfl, ?_⟩
  have : Screen.CurAt { sc with cur := { sc.cur with pt := ⟨x + 1, y + 1⟩ } } x y := rfl
  rw [Screen.home_at this]; exact this

theorem home_cur {sc : Screen} {x y : Nat} (h : sc.CurAt x y) : sc.home.CurAt x y := by
  rw [Screen.home_at h]; exact h

/-- An escape that only the cursor handles. -/
theorem cursor_event (gr : Nat → Bool) (sc : Screen) (hs : sc.home = sc) (e : Nat) (a : Bytes)
    (he : isEscape e = true) (h1 : e ≠ ED) (h2 : e ≠ EL) {cs : Cursor}
    (h : sc.cur.processEscape sc.clamp e a = some cs) :
    sc.processANSI gr (e, a) = .ok { sc with cur := cs } := by
  unfold Screen.processANSI
  simp only [hs, he, if_true]
  unfold Screen.processEscape
  rw [if_neg h1, if_neg h2, h]

theorem motion_step (clamp : Pt → Pt) (f : UInt8) (hf : 0x41 ≤ f.toNat ∧ f.toNat ≤ 0x44)
    (n : Option Nat) (h0 : n ≠ some 0) (hn : count n ≤ 2 ^ 32 - 1) (c : Cursor) :
    c.processEscape clamp (csiId f) (params n.toList) =
      some { c with pt := clamp (ptAdd c.pt
        ⟨(Cursor.moveOf (csiId f)).x * count n, (Cursor.moveOf (csiId f)).y * count n⟩) } := by
  have hid : csiId f = CUU ∨ csiId f = CUD ∨ csiId f = CUF ∨ csiId f = CUB := by
    simp only [csiId, CUU, CUD, CUF, CUB]
    have : (0x41 : UInt8).toNat = 65 := rfl
    have : (0x42 : UInt8).toNat = 66 := rfl
    have : (0x43 : UInt8).toNat = 67 := rfl
    have : (0x44 : UInt8).toNat = 68 := rfl
    omega
  unfold Cursor.processEscape
  rw [if_pos hid, params_one]
  cases n with
  | none => simp [count]
  | some n =>
    have h1 : 1 ≤ n := by
      rcases Nat.eq_zero_or_pos n with rfl | h
      · simp at h0
      · exact h
    have hc : count (some n) = n := by simp [count]; omega
    rw [hc] at hn ⊢
    have hd := decodeNumber_itoa n [] (by simp only [numMaxVal]; omega) (by intro d h; simp at h)
    rw [List.append_nil] at hd
    have hl : (itoaNat n).length > 0 := by
      obtain ⟨d, t, e, _⟩ := itoaNat_head n; rw [e]; simp
    dsimp only
    rw [if_pos hl, hd]
    simp

theorem cup_step (clamp : Pt → Pt) (r q : Nat) (hr : r ≤ 2 ^ 32 - 1) (hq : q ≤ 2 ^ 32 - 1) (c : Cursor) :
    c.processEscape clamp CUP (params [r, q]) = some { c with pt := clamp ⟨q, r⟩ } := by
  unfold Cursor.processEscape
  rw [if_neg (by decide), if_pos rfl]
  have hp : params [r, q] = itoaNat r ++ 0x3B :: itoaNat q := rfl
  have hn1 : noDigit (0x3B :: itoaNat q) := by intro d h; simp at h; subst h; simp
  have hn2 : noDigit [] := by intro d h; simp at h
  have hd : decodePoint (params [r, q]) = ⟨⟨(q : Int), (r : Int)⟩, (params [r, q]).length, none⟩ := by
    rw [hp]
    simp only [decodePoint]
    rw [decodeNumber_itoa r _ (by simp only [numMaxVal]; omega) hn1]
    simp only [if_true, List.drop_left]
    have := decodeNumber_sep_itoa q [] (by simp only [numMaxVal]; omega) hn2
    rw [List.append_nil] at this
    rw [this]; simp; omega
  dsimp only
  rw [if_pos (by rw [hp]; simp), hd]
  rfl

theorem mode_step (clamp : Pt → Pt) (on : Bool) (c : Cursor) :
    c.processEscape clamp (if on then SM else RM) (0x3F :: params [25]) = some { c with visible := on } := by
  have hp : params [25] = [0x32, 0x35] := by decide +kernel
  rw [hp]
  unfold Cursor.processEscape
  cases on with
  | true =>
    rw [if_neg (by decide), if_neg (by decide), if_neg (by decide), if_pos (by decide)]
    unfold Cursor.modes
    rw [if_pos (by decide)]
    have : ∀ v, Cursor.modeLoop true [0x32, 0x35] v = some true := by decide +kernel
    rw [List.drop_one, List.tail_cons, this]; rfl
  | false =>
    rw [if_neg (by decide), if_neg (by decide), if_neg (by decide), if_neg (by decide), if_pos (by decide)]
    unfold Cursor.modes
    rw [if_pos (by decide)]
    have : ∀ v, Cursor.modeLoop false [0x32, 0x35] v = some false := by decide +kernel
    rw [List.drop_one, List.tail_cons, this]; rfl

/-- Erasing a region. -/
theorem Emulates.erased {sc sc' : Screen} {t : Term} {ph : Phase} (E : Emulates sc t ph)
    (hs : sc.home = sc) (hp : Plain t) (region : Nat → Nat → Prop) (reg : Nat → Nat → Bool)
    (hr : ∀ a b, region a b ↔ reg a b = true)
    (h : Screen.Erased sc sc' t.w t.h region) : Emulates sc' (Act.erase t reg) ph := by
  have hcur := h.cur
  have hg : sc'.home.cur = sc.home.cur := by
    rw [hs]
    unfold Screen.home
    have : ¬ sc.cur.pt = zp := by
      intro e
      have := congrArg (fun s : Screen => s.cur.pt) hs
      simp only [Screen.home, e, if_true] at this
      simp [zp] at this
    rw [hcur, if_neg this, hcur]
  refine ⟨h.whole, E.ok, ⟨rfl, rfl, ?_⟩, E.clear, by rw [hcur]; exact E.attr,
    by rw [hcur]; exact E.vis, ?_⟩
  · intro x y hx hy
    by_cases hq : region x y
    · refine ⟨{}, h.inside x y hx hy hq, ?_⟩
      have : (Act.erase t reg).cell x y = t.erased := by
        show (if reg x y then _ else _) = _
        rw [if_pos ((hr x y).1 hq)]
      rw [this]
      have hb : t.erased = blank := by
        unfold Term.erased
        rcases hp with hp | hp
        · rw [hp]; rfl
        · rw [hp]; split <;> rfl
      rw [hb]
      exact ⟨rfl, rfl, by decide⟩
    · obtain ⟨c, h1, h2⟩ := E.shows.2.2 x y hx hy
      refine ⟨c, (h.outside x y hx hy hq).trans h1, ?_⟩
      have : (Act.erase t reg).cell x y = t.cell x y := by
        show (if reg x y then _ else _) = _
        rw [if_neg (fun k => hq ((hr x y).2 k))]
      rw [this]; exact h2
  · have p := E.pos
    cases ph with
    | exact => exact ⟨p.1, by unfold Screen.CurAt; rw [hg]; exact p.2⟩
    | wrapped => exact ⟨p.1, p.2.1, p.2.2.1, by unfold Screen.CurAt; rw [hg]; exact p.2.2.2⟩
    | lost =>
      obtain ⟨x, y, hx, hy, hc⟩ := p
      exact ⟨x, y, hx, hy, by unfold Screen.CurAt; rw [hg]; exact hc⟩

/-- Something that changes neither cells nor position. -/
theorem Emulates.attrs {sc : Screen} {t : Term} {ph : Phase} (E : Emulates sc t ph)
    (c : Cursor) (hc : c.pt = sc.cur.pt) (st : Sgr.Style) (vis : Bool) (hk : st.clear = false)
    (ha : c.attr = st.build) (hv : c.visible = vis) :
    Emulates { sc with cur := c } { t with style := st, vis := vis } ph := by
  have hh : ({ sc with cur := c } : Screen).home.cur.pt = sc.home.cur.pt := by
    unfold Screen.home
    simp only [hc]
    split
    · rfl
    · exact hc
  refine ⟨E.whole.cur c, E.ok, E.shows, hk, ha, hv, ?_⟩
  have p := E.pos
  cases ph with
  | exact => exact ⟨p.1, by unfold Screen.CurAt; rw [hh]; exact p.2⟩
  | wrapped => exact ⟨p.1, p.2.1, p.2.2.1, by unfold Screen.CurAt; rw [hh]; exact p.2.2.2⟩
  | lost =>
    obtain ⟨x, y, hx, hy, hc⟩ := p
    exact ⟨x, y, hx, hy, by unfold Screen.CurAt; rw [hh]; exact hc⟩

/-- A printable rune at a place where both are. -/
theorem put_step (gr : Nat → Bool) {sc : Screen} {t : Term} {x y : Nat} {r : Nat} (hr : Printable gr r)
    (W : sc.Whole t.w t.h) (S : Shows t sc t.w t.h) (hk : t.style.clear = false)
    (ha : sc.cur.attr = t.style.build) (hv : sc.cur.visible = t.vis)
    (hc : sc.CurAt x y) (hx : x < t.w) (hy : y < t.h) (t' : Term)
    (ht : t' = { t with
      cell := fun a b => if a = x ∧ b = y then ⟨r, t.style⟩ else t.cell a b
      x := if x + 1 < t.w then x + 1 else x
      y := y
      pend := !decide (x + 1 < t.w) }) :
    ∃ sc', sc.processANSI gr (r, []) = .ok sc' ∧
      Emulates sc' t' (if t'.pend = false then .exact else if t'.y + 1 < t'.h then .wrapped else .lost) := by
  obtain ⟨h1, h2, h3, h4, h5⟩ := hr
  have n1 : r ≠ 0x0A := by omega
  have n2 : r ≠ 0x0D := by omega
  unfold Screen.processANSI
  simp only [Screen.home_at hc, h4, n1, n2, h5, if_false, if_true, Bool.false_eq_true]
  rw [Screen.print_ok W hx hy hc]
  subst ht
  refine ⟨_, rfl, (W.cells (by simp)).cur _, ?_, ⟨rfl, rfl, ?_⟩, hk, ha, hv, ?_⟩
  · constructor
    · show (if x + 1 < t.w then x + 1 else x) < t.w
      split <;> omega
    · exact hy
  · intro a b hxa hyb
    simp only [Screen.look]
    rw [List.getElem?_set]
    by_cases hab : a = x ∧ b = y
    · obtain ⟨rfl, rfl⟩ := hab
      have : b * t.w + a < sc.grid.cells.length := lt_of_lt_of_le (Screen.idx_lt hx hy) W.cap
      refine ⟨⟨r, sc.cur.attr⟩, by simp [this], ?_⟩
      rw [if_pos ⟨rfl, rfl⟩]
      have : r ≠ 0 := by omega
      exact ⟨by simp [ink, this], hk, ha⟩
    · rw [if_neg hab]
      obtain ⟨c, e1, e2⟩ := S.2.2 a b hxa hyb
      refine ⟨c, ?_, e2⟩
      rw [if_neg]
      · exact e1
      · intro e
        obtain ⟨rfl, rfl⟩ := Grid.offset_inj hx hxa e
        exact hab ⟨rfl, rfl⟩
  · by_cases l1 : x + 1 < t.w
    · simp only [l1, decide_true, Bool.not_true, if_true]
      refine ⟨trivial, home_cur ?_⟩
      simp [Screen.CurAt]
    · by_cases l2 : y + 1 < t.h
      · simp only [l1, l2, decide_false, Bool.not_false, if_true, if_false, Bool.true_eq_false]
        refine ⟨trivial, by omega, trivial, home_cur ?_⟩
        simp [Screen.CurAt]
      · simp only [l1, l2, decide_false, Bool.not_false, if_false, Bool.true_eq_false]
        exact ⟨0, y, W.hw, hy, home_cur (by simp [Screen.CurAt])⟩

/-- One act. -/
theorem act_step (gr : Nat → Bool) {sc : Screen} {t : Term} {ph : Phase} (E : Emulates sc t ph)
    (hs : sc.home = sc) (a : Act) (h : a.Ok gr t ph) :
    ∃ ev sc', Delivers a.bytes [ev] ∧ sc.processANSI gr ev = .ok sc' ∧
      Emulates sc' (a.after t) (a.next t ph) := by
  obtain ⟨hx, hy⟩ := E.ok
  have W := E.whole
  have hw := W.hw
  have hh := W.hh
  -- a motion from the exact position
  have motion : ∀ (f : UInt8) (n : Option Nat) (hf : 0x41 ≤ f.toNat ∧ f.toNat ≤ 0x44) (d : Pt)
      (hd : Cursor.moveOf (csiId f) = d) (hn1 : csiId f ≠ ED) (hn2 : csiId f ≠ EL)
      (h : ph = .exact ∧ n ≠ some 0 ∧ count n ≤ 2 ^ 32 - 1) (x y : Nat)
      (ex : min (t.w - 1) ((t.x : Int) + 1 + d.x * count n - 1).toNat = x)
      (ey : min (t.h - 1) ((t.y : Int) + 1 + d.y * count n - 1).toNat = y),
      ∃ ev sc', Delivers (csi (params n.toList) f) [ev] ∧ sc.processANSI gr ev = .ok sc' ∧
        Emulates sc' { t with x := x, y := y, pend := false } .exact := by
    intro f n hf d hd hn1 hn2 h x y ex ey
    obtain ⟨rfl, h0, hn⟩ := h
    obtain ⟨hp, hc⟩ := E.pos
    rw [hs] at hc
    unfold Screen.CurAt at hc
    have he : isEscape (csiId f) = true := by
      unfold isEscape csiId
      simp only [Bool.and_eq_true, decide_eq_true_eq]; omega
    refine ⟨_, _, delivers_motion f (by omega) n.toList,
      cursor_event gr sc hs _ _ he hn1 hn2 (motion_step sc.clamp f hf n h0 hn sc.cur), ?_⟩
    rw [clamp_eq W, hc, hd]
    simp only [ptAdd]
    rw [ex, ey]
    exact Emulates.moved E x y (by omega) (by omega)
  have place : ∀ (p : Pt), Emulates { sc with cur := { sc.cur with pt := sc.clamp p } }
      { t with x := min (t.w - 1) (p.x - 1).toNat, y := min (t.h - 1) (p.y - 1).toNat, pend := false }
      .exact := by
    intro p
    rw [clamp_eq W]
    exact Emulates.moved E _ _ (by omega) (by omega)
  cases a with
  | op o =>
    cases o with
    | put r =>
      obtain ⟨h1, h2⟩ := h
      refine ⟨(r, []), ?_⟩
      cases ph with
      | lost => exact absurd rfl h2
      | exact =>
        obtain ⟨hp, hc⟩ := E.pos
        rw [hs] at hc
        obtain ⟨sc', e1, e2⟩ := put_step gr h1 W E.shows E.clear E.attr E.vis hc hx hy
          (t.step (.put r)) (by simp [Term.step, hp])
        exact ⟨sc', delivers_rune (plain_of_printable h1), e1, e2⟩
      | wrapped =>
        obtain ⟨hp, h3, h4, hc⟩ := E.pos
        rw [hs] at hc
        obtain ⟨sc', e1, e2⟩ := put_step gr h1 W E.shows E.clear E.attr E.vis hc (by omega) h4
          (t.step (.put r)) (by simp [Term.step, hp, Term.lineFeed, h4])
        exact ⟨sc', delivers_rune (plain_of_printable h1), e1, e2⟩
    | cr =>
      obtain rfl : ph = .exact := h
      obtain ⟨hp, hc⟩ := E.pos
      rw [hs] at hc
      refine ⟨(0x0D, []), _, delivers_rune (r := 0x0D) (by decide), ?_, Emulates.moved E 0 t.y (by omega) hy⟩
      unfold Screen.processANSI
      simp only [hs]
      rw [if_neg (by decide), if_neg (by decide), if_pos trivial]
      unfold Screen.CurAt at hc
      rw [hc]; rfl
    | lf =>
      obtain ⟨rfl, hl⟩ := h
      obtain ⟨hp, hc⟩ := E.pos
      rw [hs] at hc
      refine ⟨(0x0A, []), { sc with cur := { sc.cur with pt := ⟨t.x + 1, ((t.y + 1 : Nat) : Int) + 1⟩ } },
        delivers_rune (r := 0x0A) (by decide), ?_, ?_⟩
      · unfold Screen.processANSI
        simp only [hs]
        rw [if_neg (by decide), if_pos trivial, Screen.linefeed_ok W hx hy hc, if_pos hl]
        rfl
      · have := Emulates.moved E t.x (t.y + 1) hx hl
        show Emulates _ (t.step .lf) .exact
        have e : t.step .lf = { t with x := t.x, y := t.y + 1, pend := false } := by
          simp [Term.step, Term.lineFeed, hl]
        rw [e]; exact this
    | up n =>
      obtain rfl := h.1
      exact motion 0x41 n (by decide) ⟨0, -1⟩ (by decide) (by decide) (by decide) h t.x (t.y - count n)
        (by simp only; omega) (by simp only; omega)
    | down n =>
      obtain rfl := h.1
      exact motion 0x42 n (by decide) ⟨0, 1⟩ (by decide) (by decide) (by decide) h t.x (min (t.h - 1) (t.y + count n))
        (by simp only; omega) (by simp only; omega)
    | forward n =>
      obtain rfl := h.1
      exact motion 0x43 n (by decide) ⟨1, 0⟩ (by decide) (by decide) (by decide) h (min (t.w - 1) (t.x + count n)) t.y
        (by simp only; omega) (by simp only; omega)
    | back n =>
      obtain rfl := h.1
      exact motion 0x44 n (by decide) ⟨-1, 0⟩ (by decide) (by decide) (by decide) h (t.x - count n) t.y
        (by simp only; omega) (by simp only; omega)
    | cup r c =>
      obtain ⟨h1, h2⟩ := h
      refine ⟨(CUP, params [r, c]), _, delivers_motion 0x48 (by decide) [r, c],
        cursor_event gr sc hs _ _ (by decide) (by decide) (by decide) (cup_step sc.clamp r c h1 h2 sc.cur), ?_⟩
      have := place ⟨c, r⟩
      have e1 : ((c : Int) - 1).toNat = c - 1 := by omega
      have e2 : ((r : Int) - 1).toNat = r - 1 := by omega
      simp only [e1, e2] at this
      exact this
    | eraseAll =>
      obtain ⟨x, y, _, _, hc⟩ := Emulates.on E
      rw [hs] at hc
      obtain ⟨sc', e1, e2⟩ := Screen.erase_display_all gr W hc
      refine ⟨(ED, [0x32]), sc', ?_, e1, ?_⟩
      · have := delivers_motion 0x4A (by decide) [2]
        have e : params [2] = [0x32] := by decide +kernel
        rw [e] at this
        show Delivers (csi (params [2]) 0x4A) _
        rw [e]; exact this
      · exact Emulates.erased E hs h _ (fun _ _ => true) (by simp) e2
    | sgr ps => exact h.elim
    | show_ =>
      refine ⟨(SM, 0x3F :: params [25]), _, delivers_csi 0x68 _ (by decide) (by decide +kernel),
        cursor_event gr sc hs _ _ (by decide) (by decide) (by decide) (mode_step sc.clamp true sc.cur), ?_⟩
      exact Emulates.attrs E { sc.cur with visible := true } rfl t.style true E.clear E.attr rfl
    | hide =>
      refine ⟨(RM, 0x3F :: params [25]), _, delivers_csi 0x6C _ (by decide) (by decide +kernel),
        cursor_event gr sc hs _ _ (by decide) (by decide) (by decide) (mode_step sc.clamp false sc.cur), ?_⟩
      exact Emulates.attrs E { sc.cur with visible := false } rfl t.style false E.clear E.attr rfl
  | sgr l =>
    obtain ⟨h1, h2⟩ := h
    refine ⟨(SGR, params (sgrCodes l)), _, delivers_motion 0x6D (by decide) (sgrCodes l),
      cursor_event gr sc hs _ _ (by decide) (by decide) (by decide)
        (sgr_read_meaning_partial sc.clamp sc.cur t.style E.attr l h1 h2), ?_⟩
    exact Emulates.attrs E { sc.cur with attr := (rendition (sgrCodes l) t.style).build } rfl _ t.vis
      (rendition_clear _ _ E.clear) rfl E.vis
  | home =>
    refine ⟨(CUP, []), _, delivers_motion 0x48 (by decide) [], ?_, place ⟨1, 1⟩⟩
    refine cursor_event gr sc hs _ _ (by decide) (by decide) (by decide) ?_
    unfold Cursor.processEscape
    rw [if_neg (by decide), if_pos rfl, if_neg (by simp)]
  | row n => exact h.elim
  | eraseAbove =>
    obtain ⟨rfl, hp⟩ := h
    have hc := E.pos.2
    rw [hs] at hc
    obtain ⟨sc', e1, e2⟩ := Screen.erase_display_before gr W hx hy hc
    refine ⟨(ED, [0x31]), sc', ?_, e1, Emulates.erased E hs hp _ _ ?_ e2⟩
    · have := delivers_motion 0x4A (by decide) [1]
      have e : params [1] = [0x31] := by decide +kernel
      rw [e] at this
      show Delivers (csi (params [1]) 0x4A) _
      rw [e]; exact this
    · intro a b; simp [Screen.Upto]
  | eraseRight =>
    obtain ⟨rfl, hp⟩ := h
    have hc := E.pos.2
    rw [hs] at hc
    obtain ⟨sc', e1, e2⟩ := Screen.erase_line_after gr W hx hy hc
    refine ⟨(EL, [0x30]), sc', ?_, e1, Emulates.erased E hs hp _ _ ?_ e2⟩
    · have := delivers_motion 0x4B (by decide) [0]
      have e : params [0] = [0x30] := by decide +kernel
      rw [e] at this
      show Delivers (csi (params [0]) 0x4B) _
      rw [e]; exact this
    · intro a b; simp
  | eraseLeft =>
    obtain ⟨rfl, hp⟩ := h
    have hc := E.pos.2
    rw [hs] at hc
    obtain ⟨sc', e1, e2⟩ := Screen.erase_line_before gr W hx hy hc
    refine ⟨(EL, [0x31]), sc', ?_, e1, Emulates.erased E hs hp _ _ ?_ e2⟩
    · have := delivers_motion 0x4B (by decide) [1]
      have e : params [1] = [0x31] := by decide +kernel
      rw [e] at this
      show Delivers (csi (params [1]) 0x4B) _
      rw [e]; exact this
    · intro a b; simp
  | eraseLine =>
    obtain ⟨rfl, hp⟩ := h
    have hc := E.pos.2
    rw [hs] at hc
    obtain ⟨sc', e1, e2⟩ := Screen.erase_line_all gr W hy hc
    refine ⟨(EL, [0x32]), sc', ?_, e1, Emulates.erased E hs hp _ _ ?_ e2⟩
    · have := delivers_motion 0x4B (by decide) [2]
      have e : params [2] = [0x32] := by decide +kernel
      rw [e] at this
      show Delivers (csi (params [2]) 0x4B) _
      rw [e]; exact this
    · intro a b; simp

/-- A sequence of acts, as events. -/
theorem acts_steps (gr : Nat → Bool) : ∀ (l : List Act) {sc : Screen} {t : Term} {ph : Phase},
    Emulates sc t ph → Act.Flow gr t ph l →
    ∃ evs sc', Delivers (l.flatMap Act.bytes) evs ∧ sc.processAll gr evs = .ok sc' ∧
      Emulates sc' (Act.run t ph l).1 (Act.run t ph l).2
  | [], sc, t, ph, E, _ => ⟨[], sc, Delivers.nil, rfl, E⟩
  | a :: l, sc, t, ph, E, h => by
    obtain ⟨ev, sc1, e1, e2, e3⟩ := act_step gr (Emulates.home E) (home_home sc) a h.1
    obtain ⟨evs, sc2, g1, g2, g3⟩ := acts_steps gr l e3 h.2
    refine ⟨[ev] ++ evs, sc2, ?_, ?_, g3⟩
    · rw [List.flatMap_cons]; exact e1.append g1
    · simp only [List.singleton_append, Screen.processAll]
      rw [process_home, e2]
      exact g2

/-- Everything buffered was processed or skipped. -/
def Settled (v : VScreen) : Prop := v.buf.off = v.buf.buf.length

theorem write_step (gr : Nat → Bool) {v : VScreen} (S : Settled v) {u : Bytes} {evs : List Event}
    (hd : Delivers u evs) {sc' : Screen} (he : v.sc.processAll gr evs = .ok sc') :
    ∃ v', v.write gr u = .ok v' ∧ v'.sc = sc' ∧ Settled v' := by
  unfold Settled at S
  have hp : (v.buf.write u).process? = some (evs, ⟨v.buf.buf ++ u, v.buf.off + u.length⟩) := by
    unfold Buffer.process? Buffer.write
    simp only [List.length_append]
    rw [if_pos (by omega), List.drop_append, List.drop_of_length_le (by omega), S, Nat.sub_self,
      List.drop_zero, List.nil_append, hd.all]
    simp
  refine ⟨{ sc := sc', buf := (⟨v.buf.buf ++ u, v.buf.off + u.length⟩ : Buffer).discard }, ?_, rfl, ?_⟩
  · unfold VScreen.write VScreen.process
    simp only [hp, he, Except.bind]
  · unfold Settled Buffer.discard
    split
    · simp [S]
    · simp only [List.length_append]; omega

theorem style_step : ∀ (l : List Sgr.Style) {t : Term} {v : VScreen} {ph : Phase},
    Emulates v.sc t ph → (∀ s ∈ l, s.clear = false) →
    ∃ v' u, v.sgrLoop (l.map Sgr.Style.build) = (v', u.length) ∧ v'.buf = v.buf.write u ∧
      Emulates v'.sc (l.foldl (fun t s => { t with style := s }) t) ph
  | [], t, v, ph, E, _ => ⟨v, [], rfl, by simp [Buffer.write], E⟩
  | s :: l, t, v, ph, E, h => by
    obtain ⟨o1, e1, e2, e3⟩ := merge_sgr_shows v.sc.cur s (h s (by simp)) t (fun _ => ⟨E.clear, E.attr⟩)
    have E1 : Emulates { v.sc with cur := (v.sc.cur.mergeSGR s.build).1 } { t with style := s } ph := by
      rw [e3]
      exact Emulates.attrs E { v.sc.cur with attr := s.build, attrKnown := true } rfl s t.vis (h s (by simp)) rfl E.vis
    have hl := fun x hx => h x (List.mem_cons_of_mem s hx)
    rw [List.map_cons, VScreen.sgrLoop]
    simp only
    split
    · obtain ⟨v', u, g1, g2, g3⟩ := style_step l (v := ⟨{ v.sc with cur := (v.sc.cur.mergeSGR s.build).1 },
        v.buf.write (Sgr.append (v.sc.cur.mergeSGR s.build).2)⟩) E1 hl
      refine ⟨v', Sgr.append (v.sc.cur.mergeSGR s.build).2 ++ u, ?_, ?_, g3⟩
      · rw [g1, List.length_append]
      · rw [g2]; simp [Buffer.write]
    · obtain ⟨v', u, g1, g2, g3⟩ := style_step l (v := { v with sc := { v.sc with cur := (v.sc.cur.mergeSGR s.build).1 } }) E1 hl
      exact ⟨v', u, g1, g2, g3⟩

/-- One call. -/
theorem call_step (gr : Nat → Bool) {v : VScreen} {t : Term} {ph : Phase} (E : Emulates v.sc t ph)
    (S : Settled v) (c : ScreenCall) (h : c.Ok gr t ph) :
    ∃ v', v.op gr c.op = .ok v' ∧ Settled v' ∧ Emulates v'.sc (c.run t ph).1 (c.run t ph).2 := by
  cases c with
  | write l =>
    obtain ⟨evs, sc', g1, g2, g3⟩ := acts_steps gr l E h
    obtain ⟨v', e1, e2, e3⟩ := write_step gr S g1 g2
    exact ⟨v', e1, e3, by rw [e2]; exact g3⟩
  | style l =>
    obtain ⟨v', u, g1, g2, g3⟩ := style_step l E h
    unfold Settled at S ⊢
    simp only [ScreenCall.op, VScreen.op, VScreen.writeSGR, g1]
    split
    · exact ⟨_, rfl, by simp [Buffer.skip, g2, Buffer.write, S], g3⟩
    · next hl =>
      have : u = [] := List.length_eq_zero_iff.mp (by omega)
      exact ⟨_, rfl, by simp [g2, Buffer.write, S, this], g3⟩
  | move p =>
    refine ⟨_, rfl, S, ?_⟩
    have W := E.whole
    have hw := W.hw
    have hh := W.hh
    show Emulates (v.sc.to p) _ _
    unfold Screen.to
    rw [clamp_eq W]
    exact Emulates.moved E _ _ (by omega) (by omega)

end Emu

/-- C78, for sessions without the situations where it fails: whatever text, control
sequences, styles and positions are given to a virtual screen that agrees with a
terminal, in any number of calls, nothing panics or hangs, and afterwards the screen
holds what the terminal shows: every character and rendition, the cursor, the current
rendition and the visibility.  Missing, because it fails: scrolling, relative motion
after a full line (`wrap_then_return`), motions by zero (`zero_motion_screen`),
positions with the column left out (`row_ignored`), erasing below (C29), colouring of
erased cells, and the SGR codes of C74. -/
theorem emulation_partial (gr : Nat → Bool) : ∀ (l : List ScreenCall) (v : VScreen) (t : Term) (ph : Phase),
    Emulates v.sc t ph → Emu.Settled v → ScreenCall.Session gr t ph l →
    ∃ v', v.ops gr (l.map ScreenCall.op) = .ok v' ∧ Emu.Settled v' ∧
      Emulates v'.sc (ScreenCall.runs t ph l).1 (ScreenCall.runs t ph l).2
  | [], v, _, _, E, S, _ => ⟨v, rfl, S, E⟩
  | c :: l, v, t, ph, E, S, h => by
    obtain ⟨v1, e1, e2, e3⟩ := Emu.call_step gr E S c h.1
    obtain ⟨v2, g1, g2, g3⟩ := emulation_partial gr l v1 _ _ e3 e2 h.2
    refine ⟨v2, ?_, g2, g3⟩
    simp only [List.map_cons, VScreen.ops, e1]
    exact g1

/-- A terminal just cleared. -/
def clearTerm (w h : Nat) : Term :=
  { w, h, bce := false, cell := fun _ _ => blank, x := 0, y := 0, pend := false, style := {}, vis := false }

/-- Clearing a screen, whatever was on it and wherever its cursor was, blanks every cell
and makes it agree with a terminal just cleared, the cursor hidden at the top left. -/
theorem clear_emulates {sc : Screen} {w h : Nat} (W : sc.Whole w h) :
    ∃ sc', sc.clear = .ok sc' ∧ Emulates sc' (clearTerm w h) .exact := by
  have hn := Differ.whole_not_sub W
  have hw := W.hw
  have hh := W.hh
  unfold Screen.clear Grid.clear
  rw [hn]
  refine ⟨_, rfl, ⟨W.hw, W.hh, W.rect, W.stride, W.len, ?_⟩, ⟨hw, hh⟩, ⟨rfl, rfl, ?_⟩, rfl,
    show (0 : Attr) = Sgr.Style.build {} by decide, rfl, rfl, rfl⟩
  · simp only [List.length_append, List.length_replicate, W.len]
    exact Nat.le_add_right _ _
  · intro x y hx hy
    refine ⟨{}, ?_, rfl, rfl, show (0 : Attr) = Sgr.Style.build {} by decide⟩
    unfold Screen.look
    have := Screen.idx_lt hx hy
    simp only
    rw [List.getElem?_append_left (by rw [List.length_replicate, W.len]; exact this),
      List.getElem?_replicate, if_pos (by rw [W.len]; exact this)]

/-- A screen just made agrees with a terminal just cleared. -/
theorem fresh_emulates (w h : Nat) (hw : 1 ≤ w) (hh : 1 ≤ h) :
    Emulates (({} : Screen).resize (w, h)).1 (clearTerm w h) .exact := by
  obtain ⟨W, hz⟩ := Screen.whole_of_resize w h hw hh
  have hc : ∀ i, i < w * h → (({} : Screen).resize (w, h)).1.grid.cells[i]? = some {} := by
    intro i hi
    have h1 : ¬ Grid.sz (w, h) = size zr := by
      simp only [Grid.sz, size, zr, zp, Pt.mk.injEq]; omega
    have h2 : ({} : Grid).isSub = false := by decide
    have h4 : ({} : Grid).rect = zr := rfl
    have e : (({} : Grid).resize (w, h)).1.cells = List.replicate (w * h) {} := by
      unfold Grid.resize
      rw [if_neg h1]
      simp only [h2, List.length_nil, Bool.false_eq_true, if_false]
      rw [if_pos (by omega)]
      simp
    unfold Screen.resize
    split
    · show (({} : Grid).resize (w, h)).1.cells[i]? = _
      rw [e, List.getElem?_replicate, if_pos hi]
    · show (({} : Grid).resize (w, h)).1.cells[i]? = _
      rw [e, List.getElem?_replicate, if_pos hi]
  have ha : (({} : Screen).resize (w, h)).1.cur.attr = 0 ∧ (({} : Screen).resize (w, h)).1.cur.visible = false := by
    unfold Screen.resize; split
    · dsimp only; split <;> exact ⟨rfl, rfl⟩
    · exact ⟨rfl, rfl⟩
  refine ⟨W, ⟨hw, hh⟩, ⟨rfl, rfl, ?_⟩, rfl, ha.1.trans (show (0 : Attr) = Sgr.Style.build {} by decide), ha.2, rfl, ?_⟩
  · intro x y hx hy
    exact ⟨{}, hc _ (Screen.idx_lt hx hy), rfl, rfl, show (0 : Attr) = Sgr.Style.build {} by decide⟩
  · unfold Screen.home
    rw [if_pos hz]; rfl

/-- The screen after writing some acts to a fresh one of the given size. -/
def shown (w h : Nat) (l : List Act) : Except Fault VScreen :=
  ({ sc := (({} : Screen).resize (w, h)).1 } : VScreen).write Screen.ascii (l.flatMap Act.bytes)

/-- The rune in a cell, and where the cursor is. -/
def peek (v : Except Fault VScreen) (w a b : Nat) : Option (Nat × Pt) :=
  match v with
  | .ok v => (v.sc.look w a b).map fun c => (c.rune, v.sc.cur.pt)
  | .error _ => none

/-- The same of a terminal. -/
def watch (w h : Nat) (l : List Act) (a b : Nat) : Nat × Pt :=
  let t := l.foldl Act.after (clearTerm w h)
  ((t.cell a b).rune, ⟨t.x + 1, t.y + 1⟩)

/-- Violation: after a full line, a carriage return takes the emulator to the start of
the next line instead of the one just filled: `ab`, return, `c` on two columns shows `cb`
on a terminal, and `ab` over `c` on the virtual screen. -/
theorem wrap_then_return :
    let l : List Act := [.op (.put 0x61), .op (.put 0x62), .op .cr, .op (.put 0x63)]
    watch 2 2 l 0 0 = (0x63, ⟨2, 1⟩) ∧ peek (shown 2 2 l) 2 0 0 = some (0x61, ⟨2, 2⟩) ∧
      peek (shown 2 2 l) 2 0 1 = some (0x63, ⟨2, 2⟩) := by decide +kernel

/-- Violation: a motion by zero is a motion by one on a terminal and none here. -/
theorem zero_motion_screen :
    let l : List Act := [.op (.cup 2 1), .op (.up (some 0))]
    watch 2 2 l 0 0 = (0x20, ⟨1, 1⟩) ∧ peek (shown 2 2 l) 2 0 0 = some (0, ⟨1, 2⟩) := by decide +kernel

/-- Violation: a position with the column left out is ignored. -/
theorem row_ignored :
    let l : List Act := [.op (.put 0x61), .row 2, .op (.put 0x62)]
    watch 3 2 l 0 1 = (0x62, ⟨2, 2⟩) ∧ peek (shown 3 2 l) 3 0 1 = some (0, ⟨3, 1⟩) := by decide +kernel

/-- A session meeting the hypotheses: coloured text over a line end, erasing, moving,
and the position set by call. -/
def emuDemo : List ScreenCall :=
  [.write [.home, .sgr [.plain 1, .fgIndex 3], .op (.put 0x61), .op (.put 0x62), .op (.put 0x63)],
   .style [{ bold := true }], .move ⟨2, 1⟩,
   .write [.eraseRight, .op (.put 0x64), .op (.cup 2 1), .op (.up none), .op .lf, .op .show_]]

example : ScreenCall.Session Screen.ascii (clearTerm 2 2) .exact emuDemo := by
  simp only [emuDemo, ScreenCall.Session, ScreenCall.Ok, Act.Flow, Act.Ok, Plain, SgrParam.Known,
    List.forall_mem_cons, List.not_mem_nil, false_imp_iff, implies_true]
  have p : ∀ r, 0x61 ≤ r ∧ r ≤ 0x64 → Printable Screen.ascii r := by
    intro r hr
    have : r = 0x61 ∨ r = 0x62 ∨ r = 0x63 ∨ r = 0x64 := by omega
    rcases this with rfl | rfl | rfl | rfl <;> exact ⟨by decide, by decide, by decide, by decide, by decide⟩
  simp only [p 0x61 (by decide), p 0x62 (by decide), p 0x63 (by decide), p 0x64 (by decide), true_and]
  decide +kernel

end Anansi
