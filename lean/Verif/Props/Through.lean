import Verif.Model.Through
import Verif.Props.RenderMore
/-
C108: screen updates written to a plain destination.
-/
set_option autoImplicit false

namespace Anansi.Thru
open Anansi.Vt Anansi.Geom Anansi.Render

/-- **C108**: the destination gets the first bytes of what is to be written and their number is
returned; there is no error exactly if there was nothing to write, or it took all without one. -/
theorem through_exact {α : Type} (a : α) (b : Bytes) (o : Took) (ho : o.n ≤ b.length) :
    ∃ out, through (some (a, b)) o = some out ∧ out.got <+: b ∧ out.n = out.got.length ∧ out.state = a ∧
      (b ≠ [] → out.n = o.n) ∧ (out.err = none ↔ b = [] ∨ (o.err = false ∧ out.got = b)) ∧
      (out.err = some .failed ↔ b ≠ [] ∧ o.err = true) := by
  unfold through flush
  by_cases hb : b = []
  · subst hb
    exact ⟨_, rfl, by simp⟩
  · have h1 : ¬ b.length < o.n := by omega
    simp only [Option.bind_some, if_neg hb, if_neg h1, Option.map_some]
    refine ⟨_, rfl, List.take_prefix _ _, rfl, rfl, fun _ => ?_, ?_, ?_⟩
    · simp; omega
    · cases he : o.err
      · by_cases hn : o.n = b.length
        · simp [hn, hb]
        · have : ¬ b.take o.n = b := by
            intro h
            have := congrArg List.length h
            simp at this; omega
          simp [hn, hb, this]
      · simp [hb]
    · cases he : o.err
      · by_cases hn : o.n = b.length <;> simp [hn]
      · simp [hb]

/-- A destination that claims to have taken more than it was given makes the call panic. -/
theorem overlong_panics {α : Type} (a : α) (b : Bytes) (o : Took) (hb : b ≠ []) (ho : b.length < o.n) :
    through (some (a, b)) o = none := by
  simp [through, flush, hb, ho]

/-- **C108**: when an update returns no error, the terminal that gets what was written shows the
screen, under the conditions of `update_shows_partial`. -/
theorem update_through_partial (gr : Nat → Bool) (t : Term) (sc prior : Screen) (w h : Nat)
    (W : sc.Whole w h) (tw : t.w = w) (th : t.h = h) (A : Agree prior.cur t)
    (hg : ∀ c ∈ sc.grid.data, Drawable gr c) (hsp : Printable gr 0x20)
    (hf : sc.shown = true → sc.OnScreen w h ∧ ∃ s : Sgr.Style, s.clear = false ∧ sc.cur.attr = s.build)
    (R : Ready t sc prior w h (if sc.shown then [sc.cur.pt] else [])) (o : Took) (out : Out Screen)
    (hu : update gr sc prior o = some out) (he : out.err = none) :
    ∃ ops, out.got = text ops ∧ out.n = (text ops).length ∧ Shows (t.run ops) sc w h ∧ (t.run ops).vis = sc.shown ∧
      out.state.Whole w h ∧ Shows (t.run ops) out.state w h ∧ Agree out.state.cur (t.run ops) := by
  obtain ⟨p, ops, h1, h2, h3, h4, h5, h6, _⟩ := update_again_partial gr t sc prior w h W tw th A hg hsp hf R
  unfold update at hu
  rw [h1] at hu
  by_cases ho : o.n ≤ (text ops).length
  · obtain ⟨out', k1, _, k3, k4, _, k6, _⟩ := through_exact p (text ops) o ho
    rw [k1] at hu
    cases hu
    have hgot : out.got = text ops := by
      rcases k6.1 he with hn | ⟨_, hk⟩
      · unfold through flush at k1
        simp only [Option.bind_some, if_pos hn, Option.map_some, Option.some.injEq] at k1
        rw [← k1, hn]
      · exact hk
    exact ⟨ops, hgot, by rw [k3, hgot], h5, h6, k4 ▸ h2, k4 ▸ h3, k4 ▸ h4⟩
  · by_cases hb : text ops = []
    · unfold through flush at hu
      simp only [Option.bind_some, if_pos hb, Option.map_some, Option.some.injEq] at hu
      cases hu
      exact ⟨ops, by rw [hb], by rw [hb], h5, h6, h2, h3, h4⟩
    · rw [overlong_panics p (text ops) o hb (by omega)] at hu
      cases hu

/-- **C108** for `WriteGrid` without styles. -/
theorem writeGrid_through_partial (gr : Nat → Bool) (t : Term) (sc prior : Screen) (w h : Nat)
    (W : sc.Whole w h) (tw : t.w = w) (th : t.h = h) (A : Agree prior.cur t)
    (hg : ∀ c ∈ sc.grid.data, Drawable gr c) (hsp : Printable gr 0x20) (R : Ready t sc prior w h [])
    (o : Took) (out : Out Screen) (hu : writeGrid gr sc.grid prior [] o = some out) (he : out.err = none) :
    ∃ ops, out.got = text ops ∧ Shows (t.run ops) sc w h ∧ Agree out.state.cur (t.run ops) ∧ out.state.grid = prior.grid := by
  obtain ⟨c, ops, h1, h2, h3, _⟩ := grid_ok W tw th A hg hsp R
  have htop : writeGridTop gr sc.grid prior [] = some ({ prior with cur := c }, text ops) := by
    unfold writeGridTop
    rw [if_neg (by rw [W.stride, W.rect]; simp [dx]), if_neg (by rw [W.rect]; simp)]
    exact h1
  unfold writeGrid through at hu
  rw [htop] at hu
  simp only [Option.bind_some, flush] at hu
  split at hu
  · rename_i hb
    cases hu
    exact ⟨ops, hb.symm, h3, h2, rfl⟩
  · split at hu
    · cases hu
    · rename_i hb hl
      cases hu
      simp only at he
      split at he
      · cases he
      · split at he
        · cases he
        · rename_i hn
          have : o.n = (text ops).length := by simpa using hn
          refine ⟨ops, ?_, h3, h2, rfl⟩
          simp [this]

/-- **C108** for `Cursor.ApplyTo`: when it returns no error, the terminal's cursor is shown or hidden
as asked for, at the place and with the attributes asked for if it is shown, and nothing else has
changed on the screen. -/
theorem applyTo_through_partial (t : Term) (sc : Screen) (cur : Cursor) (w h : Nat) (tw : t.w = w) (th : t.h = h)
    (A : Agree cur t) (J : Smooth w cur.pt (if sc.shown then [sc.cur.pt] else []))
    (hf : sc.shown = true → sc.OnScreen w h ∧ ∃ s : Sgr.Style, s.clear = false ∧ sc.cur.attr = s.build)
    (o : Took) (out : Out Cursor) (hu : applyTo sc.cur cur o = some out) (he : out.err = none) :
    ∃ ops, out.got = text ops ∧ (t.run ops).cell = t.cell ∧ (t.run ops).vis = sc.shown ∧ Agree out.state (t.run ops) ∧
      (sc.shown = true → (t.run ops).At sc.cur.pt ∧ sc.cur.attr = (t.run ops).style.build) := by
  obtain ⟨c, ops, h1, h2, _, _, h5, h6⟩ := apply_ok tw th A J hf
  obtain ⟨h7, h8⟩ := h6 (fun hs => by rw [if_pos hs])
  have done : out.got = text ops → out.state = c → ∃ ops, out.got = text ops ∧ (t.run ops).cell = t.cell ∧
      (t.run ops).vis = sc.shown ∧ Agree out.state (t.run ops) ∧
      (sc.shown = true → (t.run ops).At sc.cur.pt ∧ sc.cur.attr = (t.run ops).style.build) :=
    fun g1 g2 => ⟨ops, g1, h2, h5, g2 ▸ h7, fun hs => ⟨(h8 hs).1, (h8 hs).2.1⟩⟩
  unfold applyTo through at hu
  rw [h1] at hu
  simp only [Option.bind_some, flush] at hu
  split at hu
  · rename_i hb
    cases hu
    exact done hb.symm rfl
  · split at hu
    · cases hu
    · rename_i hb hl
      cases hu
      simp only at he
      split at he
      · cases he
      · split at he
        · cases he
        · rename_i hn
          have : o.n = (text ops).length := by simpa using hn
          refine done ?_ rfl
          simp [this]

/-- The hypotheses can be met: a first update of a two by two screen, all of it taken. -/
example (t : Term) (hw : t.w = 2) (hh : t.h = 2) (hb : t.bce = false) (out : Out Screen)
    (hu : update Screen.ascii demo1 {} { n := 38 } = some out) : ∃ ops, Shows (t.run ops) demo1 2 2 := by
  have he : (update Screen.ascii demo1 {} { n := 38 }).map (·.err) = some none := by decide +kernel
  rw [hu] at he
  obtain ⟨ops, _, _, h, _⟩ := update_through_partial Screen.ascii t demo1 {} 2 2 (demo_whole _ rfl) hw hh (agree_fresh t)
    demo_drawable.1 (ascii_printable _ (by decide)) (fun h => absurd h (by decide))
    (.full (0, 0) ⟨by decide, by decide, by decide, Or.inr rfl, by decide⟩ (fun _ => rfl) (by decide)
      (fun h => by simp [hb] at h) (by decide +kernel)) { n := 38 } out hu (by simpa using he)
  exact ⟨ops, h⟩

/-- **C108 fails**: the state returned does not depend on how much was written: after a failure
it is the one for a complete update. -/
theorem state_regardless (gr : Nat → Bool) (sc prior : Screen) (o o' : Took) (out out' : Out Screen)
    (h : update gr sc prior o = some out) (h' : update gr sc prior o' = some out') : out.state = out'.state := by
  unfold update through at h h'
  cases hr : sc.update gr prior with
  | none => rw [hr] at h; simp at h
  | some r =>
    rw [hr] at h h'
    simp only [Option.bind_some, Option.map_eq_some_iff] at h h'
    obtain ⟨_, _, rfl⟩ := h
    obtain ⟨_, _, rfl⟩ := h'
    rfl

/-- **C108 fails**: a first update whose write fails, with nothing taken; when it is tried once
more with the state returned, nothing at all is written. -/
theorem failed_never_shown : ∃ out, update Screen.ascii demo1 {} { n := 0, err := true } = some out ∧
    out.err = some .failed ∧ out.got = [] ∧ (demo1.update Screen.ascii {}).map (fun r => r.2.length) = some 38 ∧
    ∀ o, ∃ out', update Screen.ascii demo1 out.state o = some out' ∧ out'.err = none ∧ out'.got = [] := by
  have k1 : (demo1.update Screen.ascii {}).map (fun r => r.2.length) = some 38 := by decide +kernel
  have k2 : ((demo1.update Screen.ascii {}).bind fun r => (demo1.update Screen.ascii r.1).map (·.2)) = some [] := by
    decide +kernel
  cases hr : demo1.update Screen.ascii {} with
  | none => rw [hr] at k1; simp at k1
  | some r =>
    rw [hr] at k1 k2
    have hl : r.2.length = 38 := by simpa using k1
    have hne : r.2 ≠ [] := fun h => by rw [h] at hl; simp at hl
    refine ⟨{ n := 0, state := r.1, err := some .failed, got := [] }, ?_, rfl, rfl, by simp [hl], fun o => ?_⟩
    · unfold update
      rw [hr]
      simp [through, flush, hne]
    · simp only [Option.bind_some, Option.map_eq_some_iff] at k2
      obtain ⟨q, hq, hq2⟩ := k2
      refine ⟨{ n := 0, state := q.1, err := none, got := [] }, ?_, rfl, rfl⟩
      unfold update through flush
      simp [hq, hq2]

end Anansi.Thru
