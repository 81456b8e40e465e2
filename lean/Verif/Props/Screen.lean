import Verif.Lemmas.Screen
/-
C27-C30: the screen emulator.
-/
set_option autoImplicit false

namespace Anansi.Screen
open Geom Grid

/-- A stand-in for `unicode.IsGraphic` used in examples. -/
def ascii (r : Nat) : Bool := 0x20 ≤ r && r < 0x7F

/-- A 3 x 2 screen showing `abc` / `def`, cursor on `e`. -/
def six : Screen :=
  { cur := { pt := ⟨2, 2⟩, attr := Sgr.bold },
    grid := { rect := ⟨⟨1, 1⟩, ⟨4, 3⟩⟩, stride := 3, len := 6,
              cells := [⟨97, 0⟩, ⟨98, 0⟩, ⟨99, 0⟩, ⟨100, 0⟩, ⟨101, 0⟩, ⟨102, 0⟩] } }

theorem six_whole : six.Whole 3 2 := ⟨by decide, by decide, by decide, rfl, rfl, by decide⟩

theorem six_on : six.CurAt 1 1 := rfl

/-! ### C27 -/

/-- Whole screens are what `Resize` makes of the zero screen. -/
theorem whole_of_resize (w h : Nat) (hw : 1 ≤ w) (hh : 1 ≤ h) :
    (({} : Screen).resize (w, h)).1.Whole w h ∧ (({} : Screen).resize (w, h)).1.cur.pt = zp := by
  have h1 : ¬ sz (w, h) = size zr := by
    simp only [sz, size, zr, zp, Pt.mk.injEq]; omega
  have h2 : ({} : Grid).isSub = false := by decide
  have h4 : ({} : Grid).rect = zr := rfl
  have h5 : zr.min = zp := rfl
  have hpos : 0 < w * h := Nat.mul_pos hw hh
  have e : ({} : Grid).resize (w, h) =
      ({ rect := ⟨⟨1, 1⟩, ptAdd ⟨1, 1⟩ (sz (w, h))⟩, stride := w, len := w * h,
         cells := List.replicate (w * h) {} }, true) := by
    unfold Grid.resize
    rw [if_neg h1]
    simp only [h2, h4, h5, if_true, List.length_nil, Bool.false_eq_true, if_false]
    rw [if_pos hpos]
    simp
  unfold Screen.resize
  simp only [e, if_true]
  refine ⟨⟨hw, hh, ?_, rfl, rfl, by simp⟩, ?_⟩
  · simp only [ptAdd, sz, Rect.mk.injEq, Pt.mk.injEq, true_and]; omega
  · split <;> rfl

theorem home_on {sc : Screen} {w h : Nat} (W : sc.Whole w h)
    (hc : sc.cur.pt = zp ∨ sc.OnScreen w h) : sc.home.Whole w h ∧ sc.home.OnScreen w h := by
  unfold home
  by_cases hz : sc.cur.pt = zp
  · rw [if_pos hz]
    exact ⟨W.cur _, 0, 0, W.hw, W.hh, rfl⟩
  · rw [if_neg hz]
    rcases hc with hc | hc
    · exact absurd hc hz
    · exact ⟨W, hc⟩

theorem linefeed_ok {sc : Screen} {w h x y : Nat} (W : sc.Whole w h) (hx : x < w) (hy : y < h)
    (hc : sc.CurAt x y) :
    sc.linefeed = .ok (if y + 1 < h then
      { sc with cur := { sc.cur with pt := ⟨x + 1, y + 1 + 1⟩ } } else sc) := by
  unfold CurAt at hc
  unfold linefeed
  have hm : sc.grid.rect.max.y = h + 1 := by rw [W.rect]
  by_cases hl : y + 1 < h
  · rw [if_pos hl, if_pos (by rw [hc, hm]; simp only; omega), hc]
  · rw [if_neg hl, if_neg (by rw [hc, hm]; simp only; omega)]
    unfold scrollBy
    rw [W.offset_out]
    · rfl
    · rintro ⟨a, b, e, ha, hb⟩
      rw [hc] at e
      simp only [ptAdd, Pt.mk.injEq] at e
      omega

theorem clamp_on {sc : Screen} {w h : Nat} (W : sc.Whole w h) (p : Pt) :
    ∃ x y : Nat, x < w ∧ y < h ∧ sc.clamp p = ⟨x + 1, y + 1⟩ := by
  have hw := W.hw
  have hh := W.hh
  refine ⟨((sc.clamp p).x - 1).toNat, ((sc.clamp p).y - 1).toNat, ?_, ?_, pt_eq ?_ ?_⟩ <;>
  · unfold clamp clampPointTo
    rw [W.rect]
    simp only
    repeat' split
    all_goals omega

theorem cursor_escape_pt (clamp : Pt → Pt) (cs cs' : Cursor) (e : Nat) (a : Bytes)
    (h : cs.processEscape clamp e a = some cs') :
    cs'.pt = cs.pt ∨ ∃ q, cs'.pt = clamp q := by
  unfold Cursor.processEscape at h
  split at h
  · split at h
    · simp only at h
      split at h
      · left; cases h; rfl
      · right; cases h; exact ⟨_, rfl⟩
    · right; cases h; exact ⟨_, rfl⟩
  · split at h
    · split at h
      · simp only at h
        split at h
        · left; cases h; rfl
        · right; cases h; exact ⟨_, rfl⟩
      · right; cases h; exact ⟨_, rfl⟩
    · split at h
      · simp only at h
        split at h <;> (left; cases h; rfl)
      · have hm : ∀ on, cs.modes on a = some cs' → cs'.pt = cs.pt := by
          intro on hh
          unfold Cursor.modes at hh
          split at hh
          · cases hk : Cursor.modeLoop on (a.drop 1) cs.visible with
            | none => rw [hk] at hh; simp at hh
            | some v => rw [hk] at hh; simp at hh; rw [← hh]
          · cases hh; rfl
        split at h
        · left; exact hm _ h
        · split at h
          · left; exact hm _ h
          · left; cases h; rfl

theorem print_ok {sc : Screen} {w h x y : Nat} (W : sc.Whole w h) (hx : x < w) (hy : y < h)
    (hc : sc.CurAt x y) (r : Nat) :
    sc.print r = .ok
      { cur := { sc.cur with pt :=
          if x + 1 < w then ⟨x + 1 + 1, y + 1⟩
          else if y + 1 < h then ⟨1, y + 1 + 1⟩ else ⟨1, y + 1⟩ },
        grid := { sc.grid with cells := sc.grid.cells.set (y * w + x) ⟨r, sc.cur.attr⟩ } } := by
  have hc' := hc
  unfold CurAt at hc
  unfold print
  rw [hc, W.offset_in hx hy]
  simp only [Except.bind]
  rw [if_pos (by rw [W.len]; exact idx_lt hx hy)]
  simp only
  have hm : sc.grid.rect.max.x = w + 1 := by rw [W.rect]
  have hn : sc.grid.rect.min.x = 1 := by rw [W.rect]
  by_cases hl : x + 1 < w
  · rw [if_neg (by rw [hc, hm]; simp only; omega), if_pos hl, hc]
  · rw [if_pos (by rw [hc, hm]; simp only; omega), if_neg hl]
    have W' := (W.cells (cs := sc.grid.cells.set (y * w + x) ⟨r, sc.cur.attr⟩) (by simp)).cur
      { sc.cur with pt := ⟨1, y + 1⟩ }
    have := linefeed_ok (x := 0) W' W.hw hy (by unfold CurAt; simp)
    simp only [hn, hc] at this ⊢
    rw [this]
    by_cases hl2 : y + 1 < h
    · simp only [hl2, if_true]; simp
    · simp only [hl2, if_false]

theorem escape_good {sc : Screen} {w h : Nat} (W : sc.Whole w h) (C : sc.OnScreen w h)
    (e : Nat) (a : Bytes) :
    (∃ sc', sc.processEscape e a = .ok sc' ∧ sc'.Whole w h ∧ sc'.OnScreen w h) ∨
      sc.processEscape e a = .error .hang := by
  obtain ⟨x, y, hx, hy, hc⟩ := C
  have clr : ∀ i m, m ≤ w * h → ∃ sc', sc.clearRegion i m = .ok sc' ∧ sc'.Whole w h ∧ sc'.OnScreen w h := by
    intro i m hm
    obtain ⟨cs, e, l, _⟩ := W.clearRegion i m hm
    exact ⟨_, e, W.cells l, x, y, hx, hy, hc⟩
  have same : ∃ sc', Except.ok sc = (Except.ok sc' : Except Fault Screen) ∧ sc'.Whole w h ∧ sc'.OnScreen w h :=
    ⟨sc, rfl, W, x, y, hx, hy, hc⟩
  have hoff : sc.offset sc.cur.pt = .ok (some (y * w + x)) := by
    unfold CurAt at hc; rw [hc]; exact W.offset_in hx hy
  have hi := idx_lt hx hy
  unfold processEscape
  split
  · left
    simp only [hoff, Except.bind]
    split
    · exact clr _ _ (by rw [W.len])
    · split
      · exact clr _ _ (by omega)
      · split
        · exact clr _ _ (by rw [W.len])
        · exact same
  · split
    · split
      · left
        have ho : ∀ p : Pt, ∃ o, sc.offset p = .ok o ∧ ∀ j, o = some j → j < w * h := by
          intro p
          by_cases hp : ∃ x y : Nat, p = ⟨x + 1, y + 1⟩ ∧ x < w ∧ y < h
          · obtain ⟨a, b, rfl, ha, hb⟩ := hp
            exact ⟨_, W.offset_in ha hb, fun j hj => by cases hj; exact idx_lt ha hb⟩
          · exact ⟨_, W.offset_out hp, fun j hj => by cases hj⟩
        simp only
        generalize (if a = [0x30] then sc.cur.pt else (⟨1, sc.cur.pt.y⟩ : Pt)) = lo
        generalize (if a = [0x31] then sc.cur.pt else (⟨_, sc.cur.pt.y⟩ : Pt)) = hi'
        obtain ⟨o1, e1, _⟩ := ho lo
        obtain ⟨o2, e2, b2⟩ := ho hi'
        rw [e1]; simp only [Except.bind]; rw [e2]; simp only
        split
        · rename_i j
          exact clr _ _ (by have := b2 _ rfl; omega)
        · exact same
      · left; exact same
    · split
      · rename_i cs' hcs
        left
        refine ⟨_, rfl, W.cur _, ?_⟩
        rcases cursor_escape_pt _ _ _ _ _ hcs with e1 | ⟨q, e1⟩
        · exact ⟨x, y, hx, hy, by unfold CurAt at hc ⊢; simp only; rw [e1, hc]⟩
        · obtain ⟨x', y', hx', hy', e2⟩ := clamp_on W q
          exact ⟨x', y', hx', hy', by unfold CurAt; simp only; rw [e1, e2]⟩
      · right; rfl

/-- **C27**, one event: whatever is fed to a whole screen whose cursor is unset or
on the screen, the call either never returns or leaves a whole screen of the same
size with the cursor on it; it never indexes outside the grid. -/
theorem screen_event_safe (gr : Nat → Bool) {sc : Screen} {w h : Nat} (W : sc.Whole w h)
    (hc : sc.cur.pt = zp ∨ sc.OnScreen w h) (ev : Event) :
    (∃ sc', sc.processANSI gr ev = .ok sc' ∧ sc'.Whole w h ∧ sc'.OnScreen w h) ∨
      sc.processANSI gr ev = .error .hang := by
  obtain ⟨W, C⟩ := home_on W hc
  unfold processANSI
  simp only
  generalize sc.home = sc at W C
  split
  · exact escape_good W C _ _
  · left
    obtain ⟨x, y, hx, hy, hc⟩ := C
    split
    · rw [linefeed_ok W hx hy hc]
      refine ⟨_, rfl, ?_, ?_⟩
      · split
        · exact W.cur _
        · exact W
      · split
        · exact ⟨x, y + 1, hx, by omega, by simp [CurAt]⟩
        · exact ⟨x, y, hx, hy, hc⟩
    · split
      · refine ⟨_, rfl, W.cur _, 0, y, W.hw, hy, ?_⟩
        unfold CurAt at hc ⊢; simp [hc]
      · split
        · rw [print_ok W hx hy hc]
          refine ⟨_, rfl, (W.cells (by simp)).cur _, ?_⟩
          by_cases h1 : x + 1 < w
          · exact ⟨x + 1, y, h1, hy, by simp [CurAt, h1]⟩
          · by_cases h2 : y + 1 < h
            · exact ⟨0, y + 1, W.hw, h2, by simp [CurAt, h1, h2]⟩
            · exact ⟨0, y, W.hw, hy, by simp [CurAt, h1, h2]⟩
        · exact ⟨sc, rfl, W, x, y, hx, hy, hc⟩

theorem screen_events_safe (gr : Nat → Bool) {w h : Nat} : ∀ (evs : List Event) (sc : Screen),
    sc.Whole w h → (sc.cur.pt = zp ∨ sc.OnScreen w h) →
    (∃ sc', sc.processAll gr evs = .ok sc' ∧ sc'.Whole w h ∧
        (sc'.cur.pt = zp ∨ sc'.OnScreen w h) ∧ (evs ≠ [] → sc'.OnScreen w h)) ∨
      sc.processAll gr evs = .error .hang
  | [], sc, W, hc => Or.inl ⟨sc, rfl, W, hc, by simp⟩
  | ev :: t, sc, W, hc => by
    unfold processAll
    rcases screen_event_safe gr W hc ev with ⟨sc1, e1, W1, C1⟩ | e1
    · rw [e1]; simp only [Except.bind]
      rcases screen_events_safe gr t sc1 W1 (Or.inr C1) with ⟨sc2, e2, W2, C2, D2⟩ | e2
      · left
        refine ⟨sc2, e2, W2, C2, fun _ => ?_⟩
        cases t with
        | nil => cases e2; exact C1
        | cons _ _ => exact D2 (by simp)
      · right; exact e2
    · right; rw [e1]; rfl

end Anansi.Screen

namespace Anansi.VScreen
open Geom Grid Screen

/-- State of a virtual screen between calls. -/
structure Safe (v : VScreen) (w h : Nat) : Prop where
  whole : v.sc.Whole w h
  cur : v.sc.cur.pt = zp ∨ v.sc.OnScreen w h
  off : v.buf.off ≤ v.buf.buf.length

/-- The loop only appends, so the count and the length grow together. -/
theorem sgrLoop_grow : ∀ (l : List Attr) (u : VScreen),
    (u.sgrLoop l).1.buf.off = u.buf.off ∧
      (u.sgrLoop l).1.buf.buf.length = u.buf.buf.length + (u.sgrLoop l).2
  | [], u => by simp [sgrLoop]
  | b :: l, u => by
    rw [sgrLoop]
    simp only
    split
    · have i := sgrLoop_grow l { sc := { cur := (u.sc.cur.mergeSGR b).1, grid := u.sc.grid },
                                 buf := u.buf.write (Sgr.append (u.sc.cur.mergeSGR b).2) }
      refine ⟨i.1, ?_⟩
      rw [i.2]; simp only [Buffer.write, List.length_append]; omega
    · exact sgrLoop_grow l _

theorem sgrLoop_safe {w h : Nat} : ∀ (l : List Attr) (v : VScreen), v.sc.Whole w h →
    (v.sc.cur.pt = zp ∨ v.sc.OnScreen w h) → v.buf.off ≤ v.buf.buf.length →
    (v.sgrLoop l).1.sc.Whole w h ∧
      ((v.sgrLoop l).1.sc.cur.pt = zp ∨ (v.sgrLoop l).1.sc.OnScreen w h) ∧
      (v.sgrLoop l).1.buf.off + (v.sgrLoop l).2 ≤ (v.sgrLoop l).1.buf.buf.length
  | [], v, W, hc, ho => ⟨W, hc, by simpa [sgrLoop] using ho⟩
  | a :: t, v, W, hc, ho => by
    have hp : (v.sc.cur.mergeSGR a).1.pt = v.sc.cur.pt := by
      unfold Cursor.mergeSGR; split <;> rfl
    have hc' : ({ v.sc with cur := (v.sc.cur.mergeSGR a).1 } : Screen).cur.pt = zp ∨
        ({ v.sc with cur := (v.sc.cur.mergeSGR a).1 } : Screen).OnScreen w h := by
      simpa only [OnScreen, CurAt, hp] using hc
    rw [sgrLoop]
    simp only
    split
    · have ih := sgrLoop_safe t
        ({ sc := { v.sc with cur := (v.sc.cur.mergeSGR a).1 },
           buf := v.buf.write (Sgr.append (v.sc.cur.mergeSGR a).2) } : VScreen)
        (W.cur _) hc' (by simp only [Buffer.write, List.length_append]; omega)
      refine ⟨ih.1, ih.2.1, ?_⟩
      obtain ⟨g1, g2⟩ := sgrLoop_grow t
        { sc := { v.sc with cur := (v.sc.cur.mergeSGR a).1 },
          buf := v.buf.write (Sgr.append (v.sc.cur.mergeSGR a).2) }
      rw [g1, g2]; simp only [Buffer.write, List.length_append]; omega
    · exact sgrLoop_safe t _ (W.cur _) hc' ho

/-- **C27**, all histories: any sequence of writes of any bytes, style writes and
cursor moves on a virtual screen either contains a write that never returns or
leaves a whole screen of the same size whose cursor is on the screen (or still
unset); nothing is ever indexed outside the grid or the buffer. -/
theorem screen_stays_safe (gr : Nat → Bool) {w h : Nat} : ∀ (l : List Op) (v : VScreen),
    v.Safe w h → (∃ v', v.ops gr l = .ok v' ∧ v'.Safe w h) ∨ v.ops gr l = .error .hang
  | [], v, s => Or.inl ⟨v, rfl, s⟩
  | o :: t, v, s => by
    unfold ops
    have one : (∃ v', v.op gr o = .ok v' ∧ v'.Safe w h) ∨ v.op gr o = .error .hang := by
      cases o with
      | write p =>
        unfold op write process
        simp only
        have hle : (v.buf.write p).off ≤ (v.buf.write p).buf.length := by
          have := s.off
          simp only [Buffer.write, List.length_append]; omega
        unfold Buffer.process?
        rw [if_pos hle]
        simp only
        rcases screen_events_safe gr (Anansi.process ((v.buf.write p).buf.drop (v.buf.write p).off)).events
          v.sc s.whole s.cur with ⟨sc', e, W, C, _⟩ | e
        · left
          rw [e]
          refine ⟨_, rfl, W, C, ?_⟩
          simp only [Buffer.discard]
          split
          · simp
          · simp only [List.length_append, List.length_take]; omega
        · right; rw [e]; rfl
      | sgr l =>
        left
        obtain ⟨h1, h2, h3⟩ := sgrLoop_safe l v s.whole s.cur s.off
        refine ⟨_, rfl, ?_⟩
        unfold writeSGR
        simp only
        split
        · exact ⟨h1, h2, by simpa [Buffer.skip] using h3⟩
        · exact ⟨h1, h2, by omega⟩
      | moveTo p =>
        left
        refine ⟨_, rfl, s.whole.cur _, Or.inr ?_, s.off⟩
        obtain ⟨x, y, hx, hy, e⟩ := clamp_on s.whole p
        exact ⟨x, y, hx, hy, e⟩
    rcases one with ⟨v', e, s'⟩ | e
    · rw [e]; simp only [Except.bind]
      exact screen_stays_safe gr t v' s'
    · right; rw [e]; rfl

/-- A fresh virtual screen, written to with text running over the end of the screen
and a cursor motion far outside. -/
example : Safe { sc := (({} : Screen).resize (3, 2)).1 } 3 2 :=
  ⟨(whole_of_resize 3 2 (by decide) (by decide)).1,
   Or.inl (whole_of_resize 3 2 (by decide) (by decide)).2, by decide⟩

example : (match ({ sc := (({} : Screen).resize (3, 2)).1 } : VScreen).ops ascii
      [.write [97, 98, 99, 100, 101, 102, 103, 0x1B, 0x5B, 57, 57], .write [0x41, 0x0A],   .moveTo ⟨-5, 70⟩] with
    | .ok v => v.sc.cur.pt == ⟨1, 2⟩
    | .error _ => false) = true := by decide +kernel

end Anansi.VScreen
