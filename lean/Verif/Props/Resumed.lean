import Verif.Props.TypedShown
/-
C138: a program that was suspended and continued shows its frames again.
-/
set_option autoImplicit false

namespace Anansi
open Vt Geom Render

namespace Direct
open Anansi.Spec

/-- The record is right after the screen was exited, when the rendition is plain and the cursor visible. -/
theorem exit_synced {d d' : Differ} {t : Term} {old : Option Screen} {a : Pt} (Y : Synced d t old a) (W : d'.v.sc.Whole t.w t.h)
    (hr : d'.real = { d.real with cur := { d.real.cur with attr := 0, attrKnown := true, visible := true, visKnown := true } }) :
    Synced d' { t with style := {}, vis := true } old a := by
  have z : ({} : Sgr.Style).build = 0 := by decide +kernel
  refine ⟨W, ⟨?_, ?_, ?_⟩, ?_, ?_, ?_⟩
  · rw [hr]; exact Y.agree.pos
  · intro _; rw [hr]; exact ⟨rfl, z.symm⟩
  · intro _; rw [hr]
  · have K := Y.known
    cases old with
    | none => rw [hr]; exact K
    | some o =>
      rw [hr]
      exact ⟨⟨K.1.hw, K.1.hh, K.1.rect, K.1.stride, K.1.len, K.1.cap⟩, K.2.1, K.2.2⟩
  · rw [hr]; exact Y.rest
  · rw [hr]; exact Or.inl rfl

/-- Fewer cells are the first of the same. -/
theorem shrink_cells {sc : Screen} {w h : Nat} (W : sc.Whole w h) (w' h' : Nat) (hle : w' * h' ≤ w * h) :
    (sc.resize (w', h')).1.grid.cells = sc.grid.cells := by
  have e : (sc.grid.resize (w', h')).1.cells = sc.grid.cells := by
    unfold Grid.resize
    split
    · rfl
    · split
      · rfl
      · simp only
        rw [if_neg]
        have := W.cap
        omega
  unfold Screen.resize
  split
  · exact e
  · exact e

theorem sizeTo_cells {d : Differ} {w h : Nat} (W : d.v.sc.Whole w h) (w' h' : Nat) (hle : w' * h' ≤ w * h) :
    (sizeTo d (w', h')).v.sc.grid.cells = d.v.sc.grid.cells ∧ (sizeTo d (w', h')).v.buf = d.v.buf ∧ (sizeTo d (w', h')).user = d.user := by
  have e := shrink_cells W w' h' hle
  unfold sizeTo Differ.resize
  simp only
  split
  · exact ⟨e, rfl, rfl⟩
  · exact ⟨e, rfl, rfl⟩

/-- What is set when the terminal is entered again: everything but its size and whether it erases with the background may
have changed, but its rendition is plain and its cursor visible. -/
theorem entered (s : Vts.Tty) : (s.run Sess.Spec.setOps).t =
    { s.t with style := {}, vis := true, cell := (s.run Sess.Spec.setOps).t.cell, x := (s.run Sess.Spec.setOps).t.x,
               y := (s.run Sess.Spec.setOps).t.y, pend := (s.run Sess.Spec.setOps).t.pend } := rfl

/-- A blank screen has nothing to write on a terminal just erased. -/
theorem blank_cells {sc : Screen} {w h : Nat} (hz : ∀ i, i < w * h → sc.grid.cells[i]? = some {}) : Spec.cells w h none sc = [] := by
  unfold Spec.cells points
  simp only [List.map_eq_nil_iff, List.filter_eq_nil_iff, List.mem_range]
  intro i hi
  simp [drawn, hz i hi]

/-- **C138**: a program whose screen shows what it drew is suspended in a frame, whatever that frame has drawn so far.
When it exits, the terminal's rendition is plain and its cursor visible.  Whatever others then do with the terminal, also
if its size changes, and even if not all could be written when exiting: once the mode is set and the screen entered again,
all later frames are shown as drawn.  Unless there are more cells than before, the rest of the frame in which it was
suspended erases the terminal and hides the cursor, and all later frames are shown as drawn.  Partial: what was drawn in
the frame before it was suspended is lost (the rest of that frame is taken to draw nothing), and more cells than before
may show what was drawn long ago. -/
theorem resumed_partial (gr : Nat → Bool) (hsp : Printable gr 0x20) {d : Differ} {t : Term} {old : Option Screen} {a : Pt}
    (Y : Synced d t old a) (v : VScreen) (W : v.sc.Whole t.w t.h) (user : Cursor) (out : Outp.Output) (f : Outp.File)
    (hf : out.file = some f) (y : Outp.Sys) :
    ∃ d' out' f' e ops rest, ({ d with v, user } : Differ).exit out y = .ok (d', out', e) ∧ out'.file = some f' ∧
      f'.written ++ rest = f.written ++ text ops ∧ (e = .nil → rest = []) ∧ t.run ops = { t with style := {}, vis := true } ∧
      ∀ s : Vts.Tty, s.t.bce = t.bce → 1 ≤ s.t.w → 1 ≤ s.t.h →
        (∀ l, PShown gr (d'.enter (some (s.t.w, s.t.h))) (s.run Sess.Spec.setOps).t none zp l) ∧
        (e = .nil → s.t.w * s.t.h ≤ t.w * t.h → ∃ d2 ops2,
          (d'.enter (some (s.t.w, s.t.h))).writeTo gr .ok = .ok (d2, text ops2, none) ∧
          ((s.run Sess.Spec.setOps).t.run ops2).w = s.t.w ∧ ((s.run Sess.Spec.setOps).t.run ops2).h = s.t.h ∧
          (∀ x y, x < s.t.w → y < s.t.h → ((s.run Sess.Spec.setOps).t.run ops2).cell x y = blank) ∧
          ((s.run Sess.Spec.setOps).t.run ops2).vis = false ∧
          ∀ l, PShown gr d2 ((s.run Sess.Spec.setOps).t.run ops2) (some (d'.enter (some (s.t.w, s.t.h))).v.sc) zp l) := by
  obtain ⟨d', out', f', e, ops, rest, h1, h2, h3, h4, h5, h6, h7, h8, h9, h10⟩ :=
    Sess.screen_exited { d with v, user } t.w t.h W out f hf y t Y.agree
  refine ⟨d', out', f', e, ops, rest, h1, h2, h3, h4, h6, fun s hb hw hh => ?_⟩
  have Y1 := exit_synced (d' := d') Y h9 h7
  have hE := entered s
  obtain ⟨t', ht'⟩ : ∃ t', t' = (s.run Sess.Spec.setOps).t := ⟨_, rfl⟩
  rw [← ht'] at hE ⊢
  have Y2 : Synced (sizeTo d' (s.t.w, s.t.h)) t' none zp := by
    have := sizeTo_synced Y1 s.t.w s.t.h hw hh t'.cell t'.x t'.y t'.pend
    rw [hE]
    simp only [hb]
    exact this
  have en : d'.enter (some (s.t.w, s.t.h)) = sizeTo d' (s.t.w, s.t.h) := rfl
  have w' : t'.w = s.t.w := by rw [hE]
  have h' : t'.h = s.t.h := by rw [hE]
  rw [en]
  refine ⟨fun l => synced_shown gr hsp l _ _ _ _ Y2, fun he hle => ?_⟩
  obtain ⟨c1, c2, c3⟩ := sizeTo_cells h9 s.t.w s.t.h hle
  have hz : ∀ i, i < t'.w * t'.h → (sizeTo d' (s.t.w, s.t.h)).v.sc.grid.cells[i]? = some {} := by
    intro i hi
    rw [w', h'] at hi
    rw [c1]
    have hi' : i < d'.v.sc.grid.cells.length := by have := h9.cap; omega
    have hm : d'.v.sc.grid.cells[i] ∈ d'.v.sc.grid.data := by
      unfold Grid.data
      rw [List.mem_take_iff_getElem]
      refine ⟨i, ?_, rfl⟩
      rw [h9.len]
      omega
    rw [List.getElem?_eq_getElem hi', h10 _ hm]
  have S : Shows (clearTerm t'.w t'.h) (sizeTo d' (s.t.w, s.t.h)).v.sc t'.w t'.h := by
    refine ⟨rfl, rfl, fun x y hx hy => ⟨{}, hz _ (Screen.idx_lt hx hy), ?_⟩⟩
    exact ⟨rfl, rfl, (by decide +kernel : (0 : Attr) = ({} : Sgr.Style).build)⟩
  have hs : Spec.seen {} = false := rfl
  have hc := blank_cells hz
  obtain ⟨d2, ops2, g1, g2, g3, g4, g5, g6, g7⟩ := flushed gr hsp Y2 _ Y2.whole (by rw [c2, h5, h4 he]) (clearTerm t'.w t'.h) S
    (fun x y => hsp) {} (fun h => by rw [hs] at h; cases h) ⟨by rw [hc, hs]; exact trivial, fun _ _ => by rw [hE]⟩
  have hr : Spec.rest t'.w t'.h none zp (sizeTo d' (s.t.w, s.t.h)).v.sc {} = zp := by
    unfold Spec.rest
    rw [hc, hs]
    rfl
  rw [hr] at g7
  have hd : ({ sizeTo d' (s.t.w, s.t.h) with v := (sizeTo d' (s.t.w, s.t.h)).v, user := {} } : Differ) = sizeTo d' (s.t.w, s.t.h) := by
    rw [← h8, ← c3]
  rw [hd] at g1
  refine ⟨d2, ops2, g1, g2.trans w', g3.trans h', fun x y hx hy => ?_, g5, fun l => synced_shown gr hsp l _ _ _ _ g7⟩
  rw [g4 x y (by omega) (by omega)]
  rfl

/-- The hypotheses hold for a program just started, on any terminal, after its frame drew a greeting. -/
example (t : Term) (hw : 1 ≤ t.w) (hh : 1 ≤ t.h) : ∃ v : VScreen, v.sc.Whole t.w t.h ∧ Synced (sizeTo {} (t.w, t.h)) t none zp := by
  have e : ({} : Differ).invalidate = {} := by decide +kernel
  have Y := new_synced t hw hh
  rw [← e] at Y
  exact ⟨_, Y.whole, Y⟩

/-- A file that takes everything. -/
def taker : Outp.Output := { file := some {} }

def calm : Outp.Sys := { first := ⟨100, .other⟩, second := ⟨0, .other⟩ }

/-- A frame that draws, is suspended and continued when the terminal has the given size, and draws again; what its
flush writes. -/
def nap (d : Differ) (first : List ScreenCall) (size : Option (Nat × Nat)) (after : List ScreenCall) : Except Fault (Differ × Bytes) :=
  (platFrame Screen.ascii d none none (first.map ScreenCall.op) {}).bind fun d =>
    (d.exit taker calm).bind fun r =>
      (platDraw (r.1.enter size) after).bind fun d => (d.writeTo Screen.ascii .ok).map fun r => (r.1, r.2.1)
where
  platDraw (d : Differ) (calls : List ScreenCall) : Except Fault Differ :=
    (d.v.ops Screen.ascii (calls.map ScreenCall.op)).map fun v => { d with v }

/-- Negation: what was drawn in the frame before the program was suspended is lost: the terminal is only erased. -/
theorem nap_loses :
    ((nap (sizeTo {} (4, 2)) below (some (4, 2)) []).map Prod.snd).toOption = some (text [.hide, .eraseAll]) ∧
    ((turn (sizeTo {} (4, 2)) none none below).map Prod.snd).toOption = some (text [.hide, .eraseAll, .cup 2 1, .sgr [0], .put 0x61, .put 0x62]) := by
  decide +kernel

/-- Negation: the terminal was narrowed before and is as wide again when the program is continued.  In the frame before,
nothing was drawn, and nothing is drawn in this one, but the terminal shows what was drawn when it was wide. -/
theorem nap_stale :
    ((turn (sizeTo {} (4, 2)) none none below).bind fun r => (turn r.1 (some (2, 2)) (some (2, 2)) []).bind fun r =>
      (nap r.1 [] (some (4, 2)) []).map Prod.snd).toOption = some (text [.hide, .eraseAll, .cup 2 1, .put 0x61, .put 0x62]) := by
  decide +kernel

end Direct
end Anansi
