import Verif.Model.Draw
import Mathlib.Tactic.Tauto
/-
C23, C61: styles.
-/
set_option autoImplicit false

namespace Anansi.StyleV

theorem styles_all_noop (ss : List StyleV) (h : ∀ s ∈ ss, s = .noop) : styles ss = .noop := by
  have : flatten ss = [] := by
    induction ss with
    | nil => rfl
    | cons s t ih =>
      rw [h s (by simp)]; exact ih (fun s' hs' => h s' (by simp [hs']))
  unfold styles; rw [this]

theorem styles_ne_noop (ss : List StyleV) (h : flatten ss ≠ []) : styles ss ≠ .noop := by
  unfold styles
  split
  · rename_i h'; exact absurd h' h
  · simp
  · simp

theorem apply_styles (ss : List StyleV) (h : flatten ss ≠ []) :
    (styles ss).apply = manyFn (flatten ss) := by
  unfold styles
  split
  · rename_i h'; exact absurd h' h
  · rename_i f h'; rw [h']; rfl
  · rename_i h'; rfl

/-- The functions a style value calls, in order. -/
def parts : StyleV → List StyleFn
  | .noop => []
  | .fn f => [f]
  | .many fs => fs

theorem flatten_eq (ss : List StyleV) : flatten ss = ss.flatMap parts := by
  induction ss with
  | nil => rfl
  | cons s t ih => cases s <;> simp [flatten, parts, ih]

theorem parts_styles (ss : List StyleV) : (styles ss).parts = ss.flatMap parts := by
  rw [← flatten_eq]
  unfold styles
  split <;> simp_all [parts]

end Anansi.StyleV

namespace Anansi

/-- A nested combination of styles, as a user writes it. -/
inductive Combo
  | noop
  | leaf (f : StyleFn)
  | comb (cs : List Combo)

namespace Combo

mutual
/-- Building the combination with the API. -/
def build : Combo → StyleV
  | .noop => .noop
  | .leaf f => .fn f
  | .comb cs => StyleV.styles (buildAll cs)
def buildAll : List Combo → List StyleV
  | [] => []
  | c :: cs => c.build :: buildAll cs
end

mutual
/-- What it should do to a rune and attribute: every part in turn. -/
def run (p : Pt) (pr : Nat) (pa : Attr) : Combo → Nat × Attr → Nat × Attr
  | .noop, ra => ra
  | .leaf f, ra => f p pr ra.1 pa ra.2
  | .comb cs, ra => runAll p pr pa cs ra
def runAll (p : Pt) (pr : Nat) (pa : Attr) : List Combo → Nat × Attr → Nat × Attr
  | [], ra => ra
  | c :: cs, ra => runAll p pr pa cs (c.run p pr pa ra)
end

mutual
/-- Does the combination contain any real style? -/
def real : Combo → Bool
  | .noop => false
  | .leaf _ => true
  | .comb cs => realAny cs
def realAny : List Combo → Bool
  | [] => false
  | c :: cs => c.real || realAny cs
end

mutual
theorem run_parts (p : Pt) (pr : Nat) (pa : Attr) : ∀ (c : Combo) (ra : Nat × Attr),
    c.run p pr pa ra = c.build.parts.foldl (fun ra f => f p pr ra.1 pa ra.2) ra
  | .noop, ra => by simp [run, build, StyleV.parts]
  | .leaf f, ra => by simp [run, build, StyleV.parts]
  | .comb cs, ra => by
    rw [run, build, StyleV.parts_styles]; exact runAll_parts p pr pa cs ra
theorem runAll_parts (p : Pt) (pr : Nat) (pa : Attr) : ∀ (cs : List Combo) (ra : Nat × Attr),
    runAll p pr pa cs ra =
      ((buildAll cs).flatMap StyleV.parts).foldl (fun ra f => f p pr ra.1 pa ra.2) ra
  | [], ra => by simp [runAll, buildAll]
  | c :: cs, ra => by
    rw [runAll, buildAll, List.flatMap_cons, List.foldl_append, ← run_parts p pr pa c ra]
    exact runAll_parts p pr pa cs _
end

mutual
theorem real_parts : ∀ (c : Combo), c.real = true ↔ c.build.parts ≠ []
  | .noop => by simp [real, build, StyleV.parts]
  | .leaf f => by simp [real, build, StyleV.parts]
  | .comb cs => by
    rw [real, build, StyleV.parts_styles]; exact realAny_parts cs
theorem realAny_parts : ∀ (cs : List Combo),
    realAny cs = true ↔ (buildAll cs).flatMap StyleV.parts ≠ []
  | [] => by simp [realAny, buildAll]
  | c :: cs => by
    rw [realAny, buildAll, List.flatMap_cons, Bool.or_eq_true, real_parts c, realAny_parts cs]
    simp only [ne_eq, List.append_eq_nil_iff]
    tauto
end

theorem apply_parts (v : StyleV) (h : v.parts ≠ []) (p : Pt) (pr r : Nat) (pa a : Attr) :
    v.apply p pr r pa a = v.parts.foldl (fun ra f => f p pr ra.1 pa ra.2) (r, a) := by
  cases v with
  | noop => simp [StyleV.parts] at h
  | fn f => rfl
  | many fs => rfl

/-- **C23**, for combinations with at least one real style: however nested, the
combined style applies its parts in order, the no-op parts doing nothing.
Missing: combinations of no-ops only, which drop the attribute
(`noop_drops_attr`). -/
theorem combined_style_partial (c : Combo) (h : c.real = true) (p : Pt) (pr r : Nat) (pa a : Attr) :
    c.build.apply p pr r pa a = c.run p pr pa (r, a) := by
  rw [run_parts, apply_parts _ ((real_parts c).1 h)]

example : (Combo.comb [.noop, .comb [.leaf (Style.fillRune 32), .noop], .leaf (Style.attr 5)]).real = true := by
  simp [Combo.real, Combo.realAny]

/-- **C23** The no-op style is an identity for combination, on either side. -/
theorem noop_identity (ss : List StyleV) :
    StyleV.styles (.noop :: ss) = StyleV.styles ss ∧ StyleV.styles (ss ++ [.noop]) = StyleV.styles ss := by
  constructor
  · rfl
  · unfold StyleV.styles
    rw [StyleV.flatten_eq, StyleV.flatten_eq]
    simp [StyleV.parts]

/-- **C23** Grouping does not matter. -/
theorem styles_assoc (xs ys zs : List StyleV) :
    StyleV.styles (xs ++ [StyleV.styles ys] ++ zs) = StyleV.styles (xs ++ ys ++ zs) := by
  have : StyleV.flatten (xs ++ [StyleV.styles ys] ++ zs) = StyleV.flatten (xs ++ ys ++ zs) := by
    simp [StyleV.flatten_eq, StyleV.parts_styles]
  unfold StyleV.styles at this ⊢
  rw [this]

/-- **C23 fails**: the no-op style alone, and any combination of no-ops, replaces the
attribute by zero. -/
theorem noop_drops_attr (p : Pt) (pr r : Nat) (pa a : Attr) (ha : a ≠ 0) :
    (Combo.comb [.noop, .noop]).build.apply p pr r pa a ≠ (Combo.comb [.noop, .noop]).run p pr pa (r, a) := by
  show (r, (0 : Attr)) ≠ (r, a)
  intro h; exact ha (by simpa using (Prod.mk.inj h).2.symm)

end Combo

/-! ### C61 -/
namespace Style

/-- **C61** A rune is kept exactly where nothing is drawn, attributes never change. -/
theorem transparentRunes_spec (p : Pt) (pr r : Nat) (pa a : Attr) :
    transparentRunes p pr r pa a = (if r = 0 then pr else r, a) := rfl

/-- **C61** A transparent attribute style keeps all bits outside of its mask; within
the mask it takes the drawn bits if there are any, otherwise the prior ones. -/
theorem transparentAttr_spec (m : Attr) (p : Pt) (pr r : Nat) (pa a : Attr) :
    let a' := (transparentAttr m p pr r pa a).2
    (transparentAttr m p pr r pa a).1 = r ∧ a' &&& ~~~m = a &&& ~~~m ∧
      a' &&& m = if a &&& m = 0 then pa &&& m else a &&& m := by
  simp only [transparentAttr]
  refine ⟨trivial, ?_, ?_⟩
  · split
    · ext i hi
      simp only [BitVec.getElem_and, BitVec.getElem_or, BitVec.getElem_not]
      cases a[i] <;> cases m[i] <;> simp
    · rfl
  · split
    · rename_i h
      ext i hi
      have := congrArg (·[i]) h
      simp only [BitVec.getElem_and, BitVec.getElem_or] at this ⊢
      revert this
      have hz : (0 : Attr)[i] = false := by simp
      rw [hz]
      cases a[i] <;> cases m[i] <;> simp
    · rfl

/-- The three attribute transparency styles, `style.go:131-143`. -/
def transparentBG : StyleFn := transparentAttr Sgr.bgMask
def transparentFG : StyleFn := transparentAttr (Sgr.fgMask ||| Sgr.attrMask)
def transparentBGFG : StyleFn := transparentAttr (Sgr.bgMask ||| Sgr.fgMask ||| Sgr.attrMask)

/-- **C61 fails**: the combined style is not the two single ones combined; drawing
a cell with only a background over a bold one loses the boldness. -/
theorem transparentBGFG_not_both :
    let a := Sgr.colorBG 1; let pa := Sgr.bold
    (StyleV.styles [.fn transparentBG, .fn transparentFG]).apply ⟨1, 1⟩ 0 65 pa a = (65, a ||| pa) ∧
      transparentBGFG ⟨1, 1⟩ 0 65 pa a = (65, a) := by
  decide +kernel

/-- **C61**, where the combined style does act as the two single ones: when the drawn
cell has both kinds of attribute, or neither.  Missing: cells with only one of them
(`transparentBGFG_not_both`). -/
theorem transparentBGFG_partial (p : Pt) (pr r : Nat) (pa a : Attr)
    (h : (a &&& Sgr.bgMask = 0 ∧ a &&& (Sgr.fgMask ||| Sgr.attrMask) = 0) ∨
      (a &&& Sgr.bgMask ≠ 0 ∧ a &&& (Sgr.fgMask ||| Sgr.attrMask) ≠ 0)) :
    transparentBGFG p pr r pa a =
      (StyleV.styles [.fn transparentBG, .fn transparentFG]).apply p pr r pa a := by
  have hand : ∀ x y : Attr, a &&& (x ||| y) = (a &&& x) ||| (a &&& y) := by
    intro x y; ext i hi
    simp only [BitVec.getElem_and, BitVec.getElem_or]
    cases a[i] <;> simp
  have hpa : ∀ x y : Attr, pa &&& (x ||| y) = (pa &&& x) ||| (pa &&& y) := by
    intro x y; ext i hi
    simp only [BitVec.getElem_and, BitVec.getElem_or]
    cases pa[i] <;> simp
  have hdis : (Sgr.bgMask &&& (Sgr.fgMask ||| Sgr.attrMask) : Attr) = 0 := by decide +kernel
  have hor : ∀ x y : Attr, x ||| y = 0 ↔ x = 0 ∧ y = 0 := by
    intro x y
    constructor
    · intro h
      have hb : ∀ (i : Nat) (hi : i < 64), x[i] = false ∧ y[i] = false := by
        intro i hi
        have := congrArg (·[i]) h
        simpa using this
      exact ⟨by ext i hi; simpa using (hb i hi).1, by ext i hi; simpa using (hb i hi).2⟩
    · rintro ⟨rfl, rfl⟩; rfl
  have assoc : (Sgr.bgMask ||| Sgr.fgMask ||| Sgr.attrMask : Attr) =
      Sgr.bgMask ||| (Sgr.fgMask ||| Sgr.attrMask) := BitVec.or_assoc _ _ _
  show transparentAttr _ p pr r pa a =
    transparentFG p pr (transparentBG p pr r pa a).1 pa (transparentBG p pr r pa a).2
  unfold transparentFG transparentBG transparentAttr
  rw [assoc]
  generalize Sgr.bgMask = B at *
  generalize (Sgr.fgMask ||| Sgr.attrMask : Attr) = F at *
  have hcomm : ∀ x : Attr, (x &&& B) &&& F = 0 := by
    intro x
    rw [BitVec.and_assoc, hdis]; simp
  have handr : ∀ x y : Attr, (x ||| y) &&& F = (x &&& F) ||| (y &&& F) := by
    intro x y; ext i hi
    simp only [BitVec.getElem_and, BitVec.getElem_or]
    cases F[i] <;> simp
  rcases h with ⟨h1, h2⟩ | ⟨h1, h2⟩
  · have h3 : a &&& (B ||| F) = 0 := by rw [hand, h1, h2]; rfl
    have h4 : (a ||| pa &&& B) &&& F = 0 := by
      rw [handr, h2, hcomm]; rfl
    simp only [h1, h3, h4, if_true, hpa, BitVec.or_assoc]
  · have h3 : ¬ a &&& (B ||| F) = 0 := by
      rw [hand, hor]; exact fun h => h1 h.1
    simp only [h1, h2, h3, if_false]

example : (Sgr.colorBG 1 ||| Sgr.bold) &&& Sgr.bgMask ≠ 0 ∧
    (Sgr.colorBG 1 ||| Sgr.bold) &&& (Sgr.fgMask ||| Sgr.attrMask) ≠ 0 := by decide +kernel

/-! ### The rune and attribute styles -/

/-- **C61**: an `AttrStyle` gives its attribute to every cell that has a rune, and leaves
cells without one alone, so that they still count as unstyled. -/
theorem attr_spec (as : Attr) (p : Pt) (pr r : Nat) (pa a : Attr) :
    (r ≠ 0 → attr as p pr r pa a = (r, as)) ∧ attr as p pr 0 pa a = (0, a) := by
  refine ⟨fun h => ?_, ?_⟩
  · unfold attr; rw [if_pos h]
  · unfold attr; rw [if_neg (by simp)]

/-- **C61**: an `AttrStyle` draws nothing where nothing is drawn, even with a default rune
for styled cells after it. -/
theorem attr_then_default (as : Attr) (fs : Nat) (p : Pt) (pr r : Nat) (pa : Attr) :
    (StyleV.styles [.fn (attr as), .fn (defaultRune fs)]).apply p pr r pa 0 = if r = 0 then (0, 0) else (r, as) := by
  show defaultRune fs p pr (attr as p pr r pa 0).1 pa (attr as p pr r pa 0).2 = _
  unfold defaultRune attr
  by_cases h : r = 0
  · simp [h]
  · simp [h]

/-- **C61**: a `ZeroRuneStyle` takes away the rune it is for together with its attribute, so
that the cell is not drawn, even with a default rune for styled cells after it; other cells
are as without it. -/
theorem zero_then_default (es fs : Nat) (p : Pt) (pr r : Nat) (pa a : Attr) :
    (StyleV.styles [.fn (zeroRune es), .fn (defaultRune fs)]).apply p pr r pa a =
      if r = es then (0, 0) else (StyleV.fn (defaultRune fs)).apply p pr r pa a := by
  show defaultRune fs p pr (zeroRune es p pr r pa a).1 pa (zeroRune es p pr r pa a).2 = _
  unfold zeroRune
  by_cases h : r = es
  · simp [h, defaultRune]
  · simp only [h, if_false]; rfl

/-- A styled empty braille cell is not drawn; a styled cell without a rune is, as a space. -/
example : (StyleV.styles [.fn (zeroRune 0x2800), .fn (defaultRune 32)]).apply ⟨1, 1⟩ 65 0x2800 0 Sgr.bold = (0, 0) ∧
    (StyleV.styles [.fn (zeroRune 0x2800), .fn (defaultRune 32)]).apply ⟨1, 1⟩ 65 0 0 Sgr.bold = (32, Sgr.bold) := by
  decide +kernel

/-- **C61**: a `FillRuneStyle` leaves no cell without a rune; a `DefaultRuneStyle` leaves only
unstyled ones without.  Neither changes an attribute, or a rune that is there. -/
theorem fill_spec (fs : Nat) (hf : fs ≠ 0) (p : Pt) (pr r : Nat) (pa a : Attr) :
    (fillRune fs p pr r pa a).1 ≠ 0 ∧ (fillRune fs p pr r pa a).2 = a ∧ (r ≠ 0 → (fillRune fs p pr r pa a).1 = r) ∧
    ((defaultRune fs p pr r pa a).1 = 0 ↔ r = 0 ∧ a = 0) ∧ (defaultRune fs p pr r pa a).2 = a ∧
    (r ≠ 0 → (defaultRune fs p pr r pa a).1 = r) := by
  unfold fillRune defaultRune
  by_cases h : r = 0 <;> by_cases h' : a = 0 <;> simp [h, h', hf]

end Style
end Anansi
