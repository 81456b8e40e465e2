import Verif.Lemmas.SgrTerm
import Verif.Model.Render
/-
C63: attribute bytes have their standard meaning on a terminal, and the cursor's
attribute merging makes the terminal show the wanted attribute.
-/
set_option autoImplicit false

namespace Anansi
open Vt

theorem Vt.run_append (t : Term) (a b : List Op) : t.run (a ++ b) = (t.run a).run b := by
  simp [Term.run]

theorem Vt.text_append (a b : List Op) : text (a ++ b) = text a ++ text b := by simp [text]

theorem Vt.text_one (o : Op) : text [o] = o.bytes := by simp [text]

theorem sgrText_meaning (s : Sgr.Style) : ∃ ops, sgrText s.build = text ops ∧
    ∀ t : Term, t.run ops = { t with style := if s = {} then t.style else s.over t.style } := by
  by_cases h : s.build = 0
  · refine ⟨[], by simp [sgrText, h, text], fun t => ?_⟩
    rw [if_pos (Sgr.build_eq_zero h)]; rfl
  · obtain ⟨ps, h1, h2⟩ := Sgr.append_meaning s h
    refine ⟨[.sgr ps], by rw [sgrText, if_neg h, h1, text_one], fun t => ?_⟩
    have hn : s ≠ {} := by rintro rfl; exact h (by decide)
    rw [if_neg hn]; simp [Term.run, Term.step, h2]

/-- C63: the bytes of any style's attribute are one SGR control sequence; a terminal
reading them puts the style over its current rendition (over the default one if the
style says to clear) and changes nothing else. -/
theorem sgr_bytes_meaning (s : Sgr.Style) (h : s ≠ {}) :
    ∃ ps, Sgr.append s.build = text [.sgr ps] ∧
      ∀ t : Term, t.run [.sgr ps] = { t with style := s.over t.style } := by
  obtain ⟨ps, h1, h2⟩ := Sgr.append_meaning s (fun h0 => h (Sgr.build_eq_zero h0))
  exact ⟨ps, by rw [h1, text_one], fun t => by simp [Term.run, Term.step, h2]⟩

example : ({ bold := true, fg := some (.indexed 9) } : Sgr.Style) ≠ {} := by decide

/-- C63: the bytes of the difference of two attributes take a terminal showing the
first to one showing the second (nothing is sent if the difference is empty). -/
theorem sgr_diff_meaning (u v : Sgr.Style) (hu : u.clear = false) (hv : v.clear = false) :
    ∃ ops, sgrText (Sgr.diff u.build v.build) = text ops ∧
      ∀ t : Term, t.style = u → t.run ops = { t with style := v } := by
  rw [Sgr.diff_delta u v hv]
  obtain ⟨ops, h1, h2⟩ := sgrText_meaning (u.delta v)
  refine ⟨ops, h1, fun t ht => ?_⟩
  rw [h2]
  have hd := Sgr.delta_over u v hu hv
  split
  · rename_i he
    rw [he] at hd
    have : u = v := by
      rw [← hd]
      obtain ⟨c, b, d, i, n, k, m, f, g⟩ := u
      simp only at hu; subst hu
      cases f <;> cases g <;> simp [Sgr.Style.over]
    subst this; rw [ht]
  · rw [ht, hd]

example : ({ bold := true } : Sgr.Style).clear = false ∧
    ({ italic := true, bg := some (.direct 1 2 3) } : Sgr.Style).clear = false := ⟨rfl, rfl⟩

theorem build_clear_ne (v : Sgr.Style) : ({ v with clear := true } : Sgr.Style) ≠ {} := by
  intro h; have := congrArg Sgr.Style.clear h; simp at this

/-- C63: after merging an attribute into a tracked cursor and sending the bytes, the
terminal shows that attribute and the cursor knows it, whether or not the cursor knew
the terminal's rendition before. -/
theorem merge_sgr_shows (c : Cursor) (v : Sgr.Style) (hv : v.clear = false) (t : Term)
    (h : c.attrKnown = true → t.style.clear = false ∧ c.attr = t.style.build) :
    ∃ ops, sgrText (c.mergeSGR v.build).2 = text ops ∧ t.run ops = { t with style := v } ∧
      (c.mergeSGR v.build).1 = { c with attr := v.build, attrKnown := true } := by
  unfold Cursor.mergeSGR
  by_cases hk : c.attrKnown = true
  · obtain ⟨h1, h2⟩ := h hk
    rw [hk]
    simp only [Bool.not_true, Bool.false_eq_true, if_false]
    rw [h2]
    obtain ⟨ops, e1, e2⟩ := sgr_diff_meaning t.style v h1 hv
    refine ⟨ops, e1, e2 t rfl, ?_⟩
    obtain ⟨b, e, hb⟩ := Sgr.sgr_merge_diff t.style v
    rw [e, hb h1, ← hk, ← hv]
  · simp only [hk, Bool.not_false, if_true]
    rw [Sgr.build_or_clear]
    obtain ⟨ops, e1, e2⟩ := sgrText_meaning { v with clear := true }
    refine ⟨ops, e1, ?_, trivial⟩
    rw [e2, if_neg (build_clear_ne v)]
    congr 1
    obtain ⟨cl, b, d, i, n, k, m, f, g⟩ := v
    simp only at hv; subst hv
    cases f <;> cases g <;> simp [Sgr.Style.over]

example : ({} : Cursor).attrKnown = false ∧
    (({ attr := ({ bold := true } : Sgr.Style).build, attrKnown := true } : Cursor).mergeSGR 0).2 =
      Sgr.clear := by decide

/-- C63, the one exception: the documented reset sequence `SGRReset` is not `ESC [ 0 m`
but has a NUL byte as its parameter (`ansi/sgr.go`: `SGR.With(SGRCodeClear)`, whose
code is the number zero, not the digit). -/
theorem sgr_reset_sends_nul : ((escSeq SGR).map fun s => (s.with [0]).append) =
    some (some [0x1B, 0x5B, 0x00, 0x6D]) := by decide +kernel

end Anansi
