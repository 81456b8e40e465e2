import Verif.Model.Sprite
import Verif.Props.Pictures
/-
C139: a picture written in lines of text, or a part of it, is on the terminal.
-/
set_option autoImplicit false

namespace Anansi
open Vt Geom Render

namespace Direct
open Anansi.Spec

namespace Spec

/-- In column `x` of the line in row `y`, the columns being as wide as the pattern, the pattern is written. -/
def written (pat : List Nat) (lines : List (List Nat)) (x y : Nat) : Bool :=
  match lines[y]? with
  | some l => (l.drop (x * pat.length)).take pat.length == pat
  | none => false

/-- Of the lines, the part of `w` by `h` columns and rows from column `ax` and row `ay` on shows on the terminal, two by
four in a cell, from the top on the left; `n` is how many columns a line has.  The other cells are blank. -/
def Drawn (t : Term) (pat : List Nat) (lines : List (List Nat)) (n ax ay w h : Nat) : Prop :=
  ∀ x y : Nat, x < t.w → y < t.h →
    if 2 * x < min w (n - ax) ∧ 4 * y < min h (lines.length - ay) then
      0x2800 ≤ (t.cell x y).rune ∧ (t.cell x y).rune < 0x2900 ∧ (t.cell x y).style = {} ∧
        ∀ i j : Nat, i < 2 → j < 4 →
          Bitmap.dotOn (t.cell x y).rune i j =
            (decide (2 * x + i < min w (n - ax)) && decide (4 * y + j < min h (lines.length - ay)) &&
              written pat lines (ax + 2 * x + i) (ay + 4 * y + j))
    else t.cell x y = blank

end Spec

/-- What a part of a bitmap is. -/
theorem part_of (b : Bitmap) {n m : Nat} (hr : b.rect = ⟨⟨0, 0⟩, ⟨n, m⟩⟩) (ax ay w h : Nat) :
    let p := (b.subAt ⟨ax, ay⟩).subSize ⟨w, h⟩
    (ax < n ∧ ay < m ∧ p.rect = ⟨⟨ax, ay⟩, ⟨ax + min w (n - ax : Nat), ay + min h (m - ay : Nat)⟩⟩ ∧ p.bit = b.bit ∧ p.stride = b.stride) ∨
      (¬ (ax < n ∧ ay < m) ∧ p = {}) := by
  intro p
  by_cases hin : ax < n ∧ ay < m
  · left
    have i1 : ptIn ⟨ax, ay⟩ b.rect = true := by rw [ptIn_iff, hr]; unfold Mem; simp only; omega
    have e1 : b.subAt ⟨ax, ay⟩ = { b with rect := ⟨⟨ax, ay⟩, ⟨n, m⟩⟩ } := by
      unfold Bitmap.subAt Bitmap.subRect
      rw [if_neg (by simp [i1]), hr]
      simp
    have i2 : ptIn (⟨ax, ay⟩ : Pt) (⟨⟨ax, ay⟩, ⟨n, m⟩⟩ : Rect) = true := by rw [ptIn_iff]; unfold Mem; simp only; omega
    have e2 : p = { b with rect := ⟨⟨ax, ay⟩, ⟨ax + min w (n - ax : Nat), ay + min h (m - ay : Nat)⟩⟩ } := by
      show (b.subAt ⟨ax, ay⟩).subSize ⟨w, h⟩ = _
      rw [e1]
      unfold Bitmap.subSize Bitmap.subRect
      rw [if_neg (by simp [i2])]
      simp only [Bitmap.mk.injEq, true_and, Rect.mk.injEq, Pt.mk.injEq]
      constructor <;> split <;> omega
    rw [e2]
    exact ⟨hin.1, hin.2, rfl, rfl, rfl⟩
  · right
    refine ⟨hin, ?_⟩
    have i1 : ptIn ⟨ax, ay⟩ b.rect = false := by
      rw [Bool.eq_false_iff]
      intro h
      rw [ptIn_iff, hr] at h
      unfold Mem at h
      simp only at h
      omega
    have e1 : b.subAt ⟨ax, ay⟩ = {} := by
      unfold Bitmap.subAt Bitmap.subRect
      rw [if_pos (by simp [i1])]
    show (b.subAt ⟨ax, ay⟩).subSize ⟨w, h⟩ = _
    rw [e1]
    unfold Bitmap.subSize Bitmap.subRect
    rw [if_pos]
    have : ptIn ({} : Bitmap).rect.min ({} : Bitmap).rect = false := by decide +kernel
    simp [this]

/-- Lines that are all `n` patterns wide are a picture, as is every part of it; a terminal that shows the bitmap shows what
is written. -/
theorem sprite_made (pat first : List Nat) (lines : List (List Nat)) (hf : first ≠ []) (n : Nat) (hp : pat.length = 1 ∨ pat.length = 2)
    (hl : ∀ l ∈ first :: lines, l.length = n * pat.length) (ax ay w h : Nat) :
    ∃ b, Bitmap.sprite pat (first :: lines) ⟨ax, ay⟩ ⟨w, h⟩ = some b ∧ b.Made ∧ Grid.WF b.rect ∧
      ∀ t : Term, Spec.Pictured t b → Spec.Drawn t pat (first :: lines) n ax ay w h := by
  obtain ⟨d, hd⟩ := (Bitmap.parse_ok_partial pat first lines hf n).2 ⟨hp, hl⟩
  obtain ⟨b, e1, e2, e3⟩ := Bitmap.parse_load pat first lines hf n d hd
  refine ⟨(b.subAt ⟨ax, ay⟩).subSize ⟨w, h⟩, ?_, ((Bitmap.Made.load n d e1).sub _).sub _, ?_⟩
  · unfold Bitmap.sprite Bitmap.mustParse
    rw [hd]
    simp only [Option.bind_some]
    rw [e1]
    rfl
  obtain ⟨p, hpe⟩ : ∃ p, p = (b.subAt ⟨ax, ay⟩).subSize ⟨w, h⟩ := ⟨_, rfl⟩
  have P := part_of b e2 ax ay w h
  simp only at P
  rw [← hpe] at P ⊢
  have hlen : (first :: lines).length = lines.length + 1 := rfl
  rcases P with ⟨h1, h2, h3, h4, h5⟩ | ⟨h1, h2⟩
  · refine ⟨by rw [h3]; unfold Grid.WF; simp only; omega, fun t T x y hx hy => ?_⟩
    have T := T x y hx hy
    rw [hlen]
    have hc : ((2 * x : Int) < dx p.rect ∧ (4 * y : Int) < dy p.rect) ↔ (2 * x < min w (n - ax) ∧ 4 * y < min h (lines.length + 1 - ay)) := by
      rw [h3]
      unfold dx dy
      simp only
      omega
    by_cases hin : 2 * x < min w (n - ax) ∧ 4 * y < min h (lines.length + 1 - ay)
    · rw [if_pos (hc.2 hin)] at T
      rw [if_pos hin]
      refine ⟨T.1, T.2.1, T.2.2.1, fun i j hi hj => ?_⟩
      rw [T.2.2.2 i j hi hj, h3]
      simp only
      have hm : Mem ⟨(ax : Int) + 2 * x + i, (ay : Int) + 4 * y + j⟩ p.rect ↔
          (2 * x + i < min w (n - ax) ∧ 4 * y + j < min h (lines.length + 1 - ay)) := by
        rw [h3]
        unfold Mem
        simp only
        omega
      by_cases hd : 2 * x + i < min w (n - ax) ∧ 4 * y + j < min h (lines.length + 1 - ay)
      · have hg : p.get ⟨(ax : Int) + 2 * x + i, (ay : Int) + 4 * y + j⟩ = b.get ⟨(ax : Int) + 2 * x + i, (ay : Int) + 4 * y + j⟩ := by
          have m1 : ptIn (⟨(ax : Int) + 2 * x + i, (ay : Int) + 4 * y + j⟩ : Pt) p.rect = true := (ptIn_iff _ _).2 (hm.2 hd)
          have m2 : ptIn (⟨(ax : Int) + 2 * x + i, (ay : Int) + 4 * y + j⟩ : Pt) b.rect = true := by
            rw [ptIn_iff, e2]
            unfold Mem
            simp only
            omega
          unfold Bitmap.get Bitmap.index
          rw [m1, m2, h5]
          simp only [if_true]
          unfold Bitmap.bitAt
          rw [h4]
        have hrow : ay + 4 * y + j < (first :: lines).length := by rw [hlen]; omega
        have hb := e3 (ax + 2 * x + i) (ay + 4 * y + j) (by omega) _ (List.getElem?_eq_getElem hrow)
        unfold Bitmap.bitIn
        rw [hg]
        push_cast at hb
        rw [hb]
        unfold Spec.written
        rw [List.getElem?_eq_getElem hrow]
        unfold Bitmap.cellOf
        simp [hd.1, hd.2]
      · rw [Bitmap.bitIn_out (fun hh => hd (hm.1 hh))]
        symm
        rw [Bool.and_eq_false_iff]
        left
        rw [Bool.eq_false_iff]
        intro hh
        simp only [Bool.and_eq_true, decide_eq_true_eq] at hh
        exact hd hh
    · rw [if_neg (fun hh => hin (hc.1 hh))] at T
      rw [if_neg hin]
      exact T
  · subst h2
    refine ⟨by unfold Grid.WF; decide, fun t T x y hx hy => ?_⟩
    have T := T x y hx hy
    rw [hlen]
    rw [if_neg (by unfold dx dy; simp only; omega)] at T
    rw [if_neg (by omega)]
    exact T

/-! ### Sessions -/

/-- A frame: what happened before, whether there is a redraw, and a part of a picture written in lines. -/
structure SprTurn where
  before : Before
  redraw : Bool
  pat : List Nat
  lines : List (List Nat)
  cols : Nat
  ax : Nat
  ay : Nat
  w : Nat
  h : Nat

/-- The pattern has one or two characters; the first line is not empty; all lines are `cols` patterns wide. -/
def SprTurn.Ok (f : SprTurn) : Prop :=
  (f.pat.length = 1 ∨ f.pat.length = 2) ∧ (∀ l, f.lines.head? = some l → l ≠ []) ∧ f.lines ≠ [] ∧
    ∀ l ∈ f.lines, l.length = f.cols * f.pat.length

/-- Every frame parses and draws without a fault, and the terminal shows after its flush what is written, with the cursor
hidden; if only what differs is written, and this takes awkward jumps, nothing is said. -/
def SprShown (gr : Nat → Bool) : Differ → Term → Option Screen → Pt → List SprTurn → Prop
  | _, _, _, _, [] => True
  | d, t, old, a, f :: l =>
    let t1 := f.before.term t
    let old1 := if f.before.forgets f.redraw then none else old
    let a1 := if f.before.forgets f.redraw then zp else a
    f.before.Ok → f.Ok →
      ∃ b d1, Bitmap.sprite f.pat f.lines ⟨f.ax, f.ay⟩ ⟨f.w, f.h⟩ = some b ∧
        pictureFrame d f.before.winch (if f.before.redraws f.redraw then some (t1.w, t1.h) else none) b = .ok d1 ∧
        ((old1 ≠ none → Smooth t1.w a1 (Spec.cells t1.w t1.h old1 d1.v.sc)) → (old1 = none → t1.bce = true → t1.style.bg = none) →
          ∃ d' ops, d1.writeTo gr .ok = .ok (d', text ops, none) ∧ (t1.run ops).w = t1.w ∧ (t1.run ops).h = t1.h ∧
            Spec.Drawn (t1.run ops) f.pat f.lines f.cols f.ax f.ay f.w f.h ∧ (t1.run ops).vis = false ∧
            SprShown gr d' (t1.run ops) (some d1.v.sc) (Spec.stop a1 (Spec.cells t1.w t1.h old1 d1.v.sc)) l)

/-- The same frame with the bitmap. -/
def SprTurn.turn (f : SprTurn) : PicTurn :=
  ⟨f.before, f.redraw, (Bitmap.sprite f.pat f.lines ⟨f.ax, f.ay⟩ ⟨f.w, f.h⟩).getD {}⟩

theorem sprites_of_pictures (gr : Nat → Bool) : ∀ (l : List SprTurn) (d : Differ) (t : Term) (old : Option Screen) (a : Pt),
    PicShown gr d t old a (l.map SprTurn.turn) → SprShown gr d t old a l
  | [], _, _, _, _, _ => trivial
  | f :: l, d, t, old, a, P => by
    intro hb ho
    obtain ⟨hp, hf, hne, hl⟩ := ho
    obtain ⟨first, lines, e⟩ : ∃ first lines, f.lines = first :: lines := List.exists_cons_of_ne_nil hne
    obtain ⟨b, k1, k2, k3, k4⟩ := sprite_made f.pat first lines (hf first (by rw [e]; rfl)) f.cols hp (by rw [← e]; exact hl) f.ax f.ay f.w f.h
    rw [← e] at k1 k4
    have hpic : f.turn.pic = b := by unfold SprTurn.turn; rw [k1]; rfl
    obtain ⟨d1, g1, g2⟩ := P hb (by rw [hpic]; exact k2) (by rw [hpic]; exact k3)
    rw [hpic] at g1 g2
    refine ⟨b, d1, k1, g1, fun h1 h2 => ?_⟩
    obtain ⟨d', ops, m1, m2, m3, m4, m5, m6⟩ := g2 h1 h2
    exact ⟨d', ops, m1, m2, m3, k4 _ m4, m5, sprites_of_pictures gr l _ _ _ _ m6⟩

/-- **C139**: a program that draws parts of pictures written in lines of text, from entering the terminal on, whatever is
on the terminal then.  Partial: lines before which there are empty ones (`Bitmap.parse_accepts_uneven`), and frames that are
not drawn anew and take awkward jumps (see `animation_wrong`). -/
theorem sprites_shown_partial (gr : Nat → Bool) (hsp : Printable gr 0x20) (hbr : ∀ r, 0x2800 ≤ r → r < 0x2900 → Printable gr r)
    (t : Term) (hw : 1 ≤ t.w) (hh : 1 ≤ t.h) (l : List SprTurn) : SprShown gr (sizeTo {} (t.w, t.h)) t none zp l :=
  sprites_of_pictures gr l _ _ _ _ (pictures_shown_partial gr hsp hbr t hw hh _)

/-- Lines that are not a picture: the program panics, exactly if the pattern is not of one or two characters or a line
after the first is not as wide. -/
theorem sprite_panics (pat first : List Nat) (lines : List (List Nat)) (hf : first ≠ []) :
    Bitmap.mustParse pat (first :: lines) = none ↔
      ¬ ∃ n, (pat.length = 1 ∨ pat.length = 2) ∧ ∀ l ∈ first :: lines, l.length = n * pat.length := by
  have e : Bitmap.mustParse pat (first :: lines) = Bitmap.parse pat (first :: lines) := by
    unfold Bitmap.mustParse
    cases Bitmap.parse pat (first :: lines) <;> rfl
  rw [e]
  constructor
  · rintro h ⟨n, hn⟩
    obtain ⟨d, hd⟩ := (Bitmap.parse_ok_partial pat first lines hf n).2 hn
    rw [h] at hd
    cases hd
  · intro h
    cases hp : Bitmap.parse pat (first :: lines) with
    | none => rfl
    | some r => exact absurd ⟨r.1, (Bitmap.parse_ok_partial pat first lines hf r.1).1 ⟨r.2, hp⟩⟩ h

/-- A smile, of which the mouth is shown. -/
def smile : SprTurn where
  before := .same
  redraw := true
  pat := [0x23]
  lines := [[0x2E, 0x23, 0x2E, 0x23, 0x2E], [0x2E, 0x2E, 0x2E, 0x2E, 0x2E], [0x23, 0x2E, 0x2E, 0x2E, 0x23], [0x2E, 0x23, 0x23, 0x23, 0x2E]]
  cols := 5
  ax := 0
  ay := 2
  w := 4
  h := 9

example : smile.Ok ∧ smile.before.Ok := by
  refine ⟨⟨Or.inl rfl, ?_, by decide, by decide⟩, trivial⟩
  intro l hl
  cases hl
  decide

/-- Its runes. -/
example : (Bitmap.sprite smile.pat smile.lines ⟨smile.ax, smile.ay⟩ ⟨smile.w, smile.h⟩).bind (fun b =>
    (b.rune ⟨0, 2⟩).bind fun x => (b.rune ⟨2, 2⟩).map fun y => (x, y)) = some (0x2811, 0x2812) := by decide +kernel

end Direct
end Anansi
