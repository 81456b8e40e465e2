import Verif.Model.SgrName
import Verif.Props.Sgr
import Verif.Lemmas.Repr
/-
Attributes as printed by `SGRAttr.String`: the words, and that different styles are printed
differently.
-/
set_option autoImplicit false

namespace Anansi.Sgr

namespace Spec

/-- The eight colours. -/
def hue : Nat → String
  | 0 => "black" | 1 => "red" | 2 => "green" | 3 => "yellow" | 4 => "blue" | 5 => "magenta" | 6 => "cyan"
  | _ => "white"

/-- The name of a colour: the eight colours, their bright versions, the number of any other indexed
colour, the components of a 24-bit colour. -/
def colourName : Colour → String
  | .indexed i =>
    if i.toNat < 8 then hue i.toNat
    else if i.toNat < 16 then "bright-" ++ hue (i.toNat - 8)
    else s!"color{i.toNat}"
  | .direct r g b => s!"rgb({r.toNat},{g.toNat},{b.toNat})"

/-- The words for a style. -/
def words (s : Style) : List String :=
  [(s.clear, "clear"), (s.bold, "bold"), (s.dim, "dim"), (s.italic, "italic"),
    (s.underscore, "underscore"), (s.negative, "negative"), (s.conceal, "conceal")].filterMap
      (fun p => if p.1 then some p.2 else none) ++
    (s.fg.map fun c => "fg:" ++ colourName c).toList ++ (s.bg.map fun c => "bg:" ++ colourName c).toList

/-- Words with blanks between them. -/
def spaced : List String → String
  | [] => ""
  | [x] => x
  | x :: t => x ++ " " ++ spaced t

end Spec

/-- The name of a colour. -/
theorem colour_printed (c : Colour) : colorString_ c.value = ascii (Spec.colourName c) := by
  cases c with
  | indexed i =>
    have hn : (Colour.indexed i).value.toNat = i.toNat := by
      simp only [Colour.value, BitVec.toNat_setWidth, UInt8.toNat_toBitVec]
      have := i.toNat_lt; omega
    unfold colorString_
    rw [if_neg (by exact indexed_not24 i), hn]
    by_cases h : i.toNat < 16
    · rw [if_pos (by simpa [colorNames] using h)]
      have : ∀ n < 16, colorNames[n]?.getD [] = ascii (if n < 8 then Spec.hue n
          else if n < 16 then "bright-" ++ Spec.hue (n - 8) else "") := by decide +kernel
      rw [this _ h]
      simp only [Spec.colourName, h, if_true]
    · rw [if_neg (by simpa [colorNames] using h)]
      simp only [Spec.colourName]
      rw [if_neg (by omega), if_neg h]
      rw [← ascii_repr, ← ascii_append]
      simp [toString]
  | direct r g b =>
    unfold colorString_
    rw [if_pos (by exact rgb_is24 r g b)]
    obtain ⟨h0, h1, h2⟩ := chan_rgb r g b
    have hm : ∀ x : UInt8, (colorString x).map (fun b => if b = 0x3B then (0x2C : UInt8) else b) =
        0x2C :: itoaNat x.toNat := by
      have : ∀ n < 256, (colorString (UInt8.ofNat n)).map (fun b => if b = 0x3B then (0x2C : UInt8) else b) =
        0x2C :: itoaNat n := by decide +kernel
      intro x
      have := this x.toNat x.toNat_lt
      simpa using this
    have e : ((appendRGB (rgb r g b)).drop 1).map (fun b => if b = 0x3B then (0x2C : UInt8) else b) =
        itoaNat r.toNat ++ 0x2C :: itoaNat g.toNat ++ 0x2C :: itoaNat b.toNat := by
      rw [List.map_drop]
      unfold appendRGB
      rw [h0, h1, h2, List.map_append, List.map_append, hm, hm, hm]; simp
    simp only [Colour.value]
    rw [e]
    simp only [Spec.colourName, ← ascii_repr]
    have c1 : (0x2C : UInt8) :: ascii g.toNat.repr = ascii ("," ++ g.toNat.repr) := by rw [ascii_append]; rfl
    have c2 : (0x2C : UInt8) :: ascii b.toNat.repr = ascii ("," ++ b.toNat.repr) := by rw [ascii_append]; rfl
    rw [c1, c2, ← ascii_append, ← ascii_append, ← ascii_append, ← ascii_append]
    congr 1
    simp [toString, String.append_assoc]

example : Spec.colourName (.indexed 9) = "bright-red" ∧ Spec.colourName (.indexed 200) = "color200" ∧
    Spec.colourName (.direct 1 20 255) = "rgb(1,20,255)" := by decide +kernel

theorem spaced_ascii (l : List String) : ascii (Spec.spaced l) = joinSpace (l.map ascii) := by
  induction l with
  | nil => rfl
  | cons x t ih =>
    cases t with
    | nil => rfl
    | cons y t =>
      have e : ascii " " = [0x20] := by decide
      simp only [Spec.spaced, List.map_cons, joinSpace, ascii_append, e] at ih ⊢
      rw [ih]; simp

theorem flag_word (s : Style) (i : Nat) (hi : i < 7) (m : Attr) (hm : m = 1#64 <<< i) (w : Bytes) :
    (if s.build &&& m ≠ 0 then [w] else []) = if s.flag i then [w] else [] := by
  have : (s.build &&& m ≠ 0) ↔ s.flag i = true := by
    rw [← build_bit s i hi]
    subst hm
    constructor
    · intro h
      by_contra hb
      apply h
      apply BitVec.eq_of_getLsbD_eq
      intro k hk
      simp only [BitVec.getLsbD_and, BitVec.getLsbD_shiftLeft, BitVec.getLsbD_one]
      by_cases hki : k = i
      · subst hki; simp [hb]
      · have : ¬ (k - i = 0 ∧ ¬ k < i) := by omega
        simp; intro _ _ _; omega
    · intro hb h
      have := congrArg (fun z => BitVec.getLsbD z i) h
      simp [hb] at this; omega
  simp only [this]

theorem parts_words (s : Style) : attrParts s.build = (Spec.words s).map ascii := by
  unfold attrParts
  rw [flag_word s 0 (by omega) clear (by decide), flag_word s 1 (by omega) bold (by decide),
    flag_word s 2 (by omega) dim (by decide), flag_word s 3 (by omega) italic (by decide),
    flag_word s 4 (by omega) underscore (by decide), flag_word s 5 (by omega) negative (by decide),
    flag_word s 6 (by omega) conceal (by decide), build_fg, build_bg]
  unfold Spec.words
  rw [List.map_append, List.map_append]
  congr 1
  · congr 1
    · simp only [Style.flag]
      cases s.clear <;> cases s.bold <;> cases s.dim <;> cases s.italic <;> cases s.underscore <;>
        cases s.negative <;> cases s.conceal <;> rfl
    · cases s.fg with
      | none => rfl
      | some c => simp [ascii_append, colour_printed]
  · cases s.bg with
    | none => rfl
    | some c => simp [ascii_append, colour_printed]

/-- **Attributes are printed as their words**, in a fixed order, with blanks between them. -/
theorem attr_printed (s : Style) : attrString s.build = ascii (Spec.spaced (Spec.words s)) := by
  rw [spaced_ascii, ← parts_words]; rfl

example : Spec.spaced (Spec.words { bold := true, conceal := true, fg := some (.indexed 3), bg := some (.direct 0 0 128) }) = "bold conceal fg:yellow bg:rgb(0,0,128)" := by decide +kernel

/-- No name of a colour contains a blank. -/
theorem colour_solid (c : Colour) : (0x20 : UInt8) ∉ colorString_ c.value := by
  rw [colour_printed]
  cases c with
  | indexed i =>
    have : ∀ n < 256, (0x20 : UInt8) ∉ ascii (Spec.colourName (.indexed (UInt8.ofNat n))) := by decide +kernel
    have := this i.toNat i.toNat_lt
    simpa using this
  | direct r g b =>
    have hr : ∀ x : UInt8, (0x20 : UInt8) ∉ ascii x.toNat.repr := by
      have : ∀ n < 256, (0x20 : UInt8) ∉ ascii (UInt8.ofNat n).toNat.repr := by decide +kernel
      intro x
      have := this x.toNat x.toNat_lt
      simpa using this
    have e1 : (0x20 : UInt8) ∉ ascii "rgb(" := by decide
    have e2 : (0x20 : UInt8) ∉ ascii "," := by decide
    have e3 : (0x20 : UInt8) ∉ ascii ")" := by decide
    have e : Spec.colourName (.direct r g b) =
        "rgb(" ++ r.toNat.repr ++ "," ++ g.toNat.repr ++ "," ++ b.toNat.repr ++ ")" := by
      simp [Spec.colourName, toString]
    rw [e]
    simp only [ascii_append, List.mem_append, not_or]
    exact ⟨⟨⟨⟨⟨⟨e1, hr r⟩, e2⟩, hr g⟩, e2⟩, hr b⟩, e3⟩

/-- **Different colours have different names.** -/
theorem colour_names_differ (c d : Colour) (h : colorString_ c.value = colorString_ d.value) : c = d := by
  rw [colour_printed, colour_printed] at h
  have hidx : ∀ n < 256, ∀ m < 256, ascii (Spec.colourName (.indexed (UInt8.ofNat n))) =
      ascii (Spec.colourName (.indexed (UInt8.ofNat m))) → n = m := by
    intro n hn m hm hh
    have hk : ∀ n < 16, ascii (Spec.colourName (.indexed (UInt8.ofNat n))) ≠ [] ∧
        ∀ m < 16, ascii (Spec.colourName (.indexed (UInt8.ofNat n))) =
          ascii (Spec.colourName (.indexed (UInt8.ofNat m))) → n = m := by decide +kernel
    have hc : ∀ n < 16, (ascii (Spec.colourName (.indexed (UInt8.ofNat n)))).take 5 ≠ ascii "color" := by
      decide +kernel
    have hb : ∀ n < 256, ¬ n < 16 → ascii (Spec.colourName (.indexed (UInt8.ofNat n))) = ascii "color" ++ itoaNat n := by
      intro n hn h16
      have e : (UInt8.ofNat n).toNat = n := by simp; omega
      simp only [Spec.colourName, e]
      rw [if_neg (by omega), if_neg h16, ← ascii_repr, ← ascii_append]; simp [toString]
    have ht : ∀ x, (ascii "color" ++ x).take 5 = ascii "color" := by
      intro x; exact List.take_left' (by decide)
    by_cases h1 : n < 16 <;> by_cases h2 : m < 16
    · exact (hk n h1).2 m h2 hh
    · rw [hb m hm h2] at hh
      exact absurd (by rw [hh, ht]) (hc n h1)
    · rw [hb n hn h1] at hh
      exact absurd (by rw [← hh, ht]) (hc m h2)
    · rw [hb n hn h1, hb m hm h2] at hh
      exact itoaNat_inj (List.append_cancel_left hh)
  have hdir : ∀ r g b, ascii (Spec.colourName (.direct r g b)) =
      ascii "rgb(" ++ (sepBy 0x2C [itoaNat r.toNat, itoaNat g.toNat, itoaNat b.toNat] ++ ascii ")") := by
    intro r g b
    have e : Spec.colourName (.direct r g b) =
        "rgb(" ++ (r.toNat.repr ++ ("," ++ (g.toNat.repr ++ ("," ++ (b.toNat.repr ++ ")"))))) := by
      simp [Spec.colourName, toString, String.append_assoc]
    have e2 : ascii "," = [0x2C] := by decide
    rw [e]; simp only [ascii_append, ascii_repr, sepBy, e2]; simp
  have hmix : ∀ (i r g b : UInt8), ascii (Spec.colourName (.indexed i)) ≠ ascii (Spec.colourName (.direct r g b)) := by
    intro i r g b hh
    have hn : ∀ n < 256, (ascii (Spec.colourName (.indexed (UInt8.ofNat n)))).take 4 ≠ ascii "rgb(" := by
      decide +kernel
    have := hn i.toNat i.toNat_lt
    rw [UInt8.ofNat_toNat, hh, hdir] at this
    exact this (List.take_left' (by decide))
  cases c with
  | indexed i =>
    cases d with
    | indexed j =>
      have := hidx i.toNat i.toNat_lt j.toNat j.toNat_lt (by simpa using h)
      rw [UInt8.toNat_inj.mp this]
    | direct r g b => exact absurd h (hmix i r g b)
  | direct r g b =>
    cases d with
    | indexed i => exact absurd h.symm (hmix i r g b)
    | direct r' g' b' =>
      rw [hdir, hdir] at h
      have h := List.append_cancel_right (List.append_cancel_left h)
      have hw : ∀ x : UInt8, itoaNat x.toNat ≠ [] ∧ (0x2C : UInt8) ∉ itoaNat x.toNat := by
        have : ∀ n < 256, itoaNat n ≠ [] ∧ (0x2C : UInt8) ∉ itoaNat n := by decide +kernel
        exact fun x => this _ x.toNat_lt
      have := sepBy_inj 0x2C _ _ (by simp only [List.mem_cons, List.not_mem_nil, or_false]; rintro x (rfl | rfl | rfl) <;> exact hw _)
        (by simp only [List.mem_cons, List.not_mem_nil, or_false]; rintro x (rfl | rfl | rfl) <;> exact hw _) h
      simp only [List.cons.injEq, and_true] at this
      obtain ⟨a, b, c⟩ := this
      rw [UInt8.toNat_inj.mp (itoaNat_inj a), UInt8.toNat_inj.mp (itoaNat_inj b), UInt8.toNat_inj.mp (itoaNat_inj c)]

theorem joinSpace_sepBy (l : List Bytes) : joinSpace l = sepBy 0x20 l := by
  induction l with
  | nil => rfl
  | cons x t ih =>
    cases t with
    | nil => rfl
    | cons y t => simp only [joinSpace, sepBy] at ih ⊢; rw [ih]

theorem parts_solid (s : Style) : ∀ x ∈ attrParts s.build, x ≠ [] ∧ (0x20 : UInt8) ∉ x := by
  intro x hx
  unfold attrParts at hx
  rw [build_fg, build_bg] at hx
  simp only [List.mem_append] at hx
  have hi : ∀ {p : Prop} [Decidable p] {w : Bytes}, w ≠ [] ∧ (0x20 : UInt8) ∉ w →
      x ∈ (if p then [w] else []) → x ≠ [] ∧ (0x20 : UInt8) ∉ x := by
    intro p _ w hw hm
    split at hm
    · simp at hm; rw [hm]; exact hw
    · simp at hm
  rcases hx with (((((((h | h) | h) | h) | h) | h) | h) | h) | h
  · exact hi (by decide) h
  · exact hi (by decide) h
  · exact hi (by decide) h
  · exact hi (by decide) h
  · exact hi (by decide) h
  · exact hi (by decide) h
  · exact hi (by decide) h
  · cases hf : s.fg with
    | none => simp [hf] at h
    | some c =>
      simp [hf] at h; rw [h]
      have e : (0x20 : UInt8) ∉ ascii "fg:" := by decide
      exact ⟨by simp [ascii], by simp only [List.mem_append, not_or]; exact ⟨e, colour_solid c⟩⟩
  · cases hf : s.bg with
    | none => simp [hf] at h
    | some c =>
      simp [hf] at h; rw [h]
      have e : (0x20 : UInt8) ∉ ascii "bg:" := by decide
      exact ⟨by simp [ascii], by simp only [List.mem_append, not_or]; exact ⟨e, colour_solid c⟩⟩

theorem flag_mem (s : Style) (i : Nat) (hi : i < 7) (w : Bytes)
    (hw : w = ([ascii "clear", ascii "bold", ascii "dim", ascii "italic", ascii "underscore", ascii "negative",
      ascii "conceal"])[i]?.getD []) : w ∈ attrParts s.build ↔ s.flag i = true := by
  rw [parts_words]
  unfold Spec.words
  have hfg : ∀ c : Option Colour, w ∉ ((c.map fun c => "fg:" ++ Spec.colourName c).toList).map ascii := by
    intro c
    cases c with
    | none => simp
    | some c =>
      have : ∀ i < 7, (([ascii "clear", ascii "bold", ascii "dim", ascii "italic", ascii "underscore", ascii "negative",
        ascii "conceal"])[i]?.getD []).take 3 ≠ ascii "fg:" := by decide
      simp only [Option.map_some, Option.toList_some, List.map_cons, List.map_nil, List.mem_singleton]
      intro hh
      apply this i hi
      rw [← hw, hh, ascii_append]; exact List.take_left' (by decide)
  have hbg : ∀ c : Option Colour, w ∉ ((c.map fun c => "bg:" ++ Spec.colourName c).toList).map ascii := by
    intro c
    cases c with
    | none => simp
    | some c =>
      have : ∀ i < 7, (([ascii "clear", ascii "bold", ascii "dim", ascii "italic", ascii "underscore", ascii "negative",
        ascii "conceal"])[i]?.getD []).take 3 ≠ ascii "bg:" := by decide
      simp only [Option.map_some, Option.toList_some, List.map_cons, List.map_nil, List.mem_singleton]
      intro hh
      apply this i hi
      rw [← hw, hh, ascii_append]; exact List.take_left' (by decide)
  rw [List.map_append, List.map_append, List.mem_append, List.mem_append]
  simp only [hfg, hbg, or_false]
  have key : ∀ i < 7, ∀ a b c d e f g : Bool, ((([ascii "clear", ascii "bold", ascii "dim", ascii "italic",
      ascii "underscore", ascii "negative", ascii "conceal"])[i]?.getD []) ∈
      (([(a, "clear"), (b, "bold"), (c, "dim"), (d, "italic"), (e, "underscore"), (f, "negative"),
        (g, "conceal")].filterMap (fun p => if p.1 then some p.2 else none)).map ascii) ↔
      ([a, b, c, d, e, f, g])[i]?.getD false = true) := by decide +kernel
  rw [hw, key i hi]
  match i, hi with
  | 0, _ => rfl
  | 1, _ => rfl
  | 2, _ => rfl
  | 3, _ => rfl
  | 4, _ => rfl
  | 5, _ => rfl
  | 6, _ => rfl

theorem fg_mem (s : Style) (c : Colour) : ascii "fg:" ++ colorString_ c.value ∈ attrParts s.build ↔ s.fg = some c := by
  rw [parts_words]
  have h3 : (ascii "fg:" ++ colorString_ c.value).take 3 = ascii "fg:" := List.take_left' (by decide)
  unfold Spec.words
  rw [List.map_append, List.map_append, List.mem_append, List.mem_append]
  have n1 : ascii "fg:" ++ colorString_ c.value ∉ (([(s.clear, "clear"), (s.bold, "bold"), (s.dim, "dim"), (s.italic, "italic"),
    (s.underscore, "underscore"), (s.negative, "negative"), (s.conceal, "conceal")].filterMap
      (fun p => if p.1 then some p.2 else none)).map ascii) := by
    intro hm
    have key : ∀ a b c d e f g : Bool, ∀ w ∈ (([(a, "clear"), (b, "bold"), (c, "dim"), (d, "italic"), (e, "underscore"), (f, "negative"),
        (g, "conceal")].filterMap (fun p => if p.1 then some p.2 else none)).map ascii), w.take 3 ≠ ascii "fg:" := by
      decide +kernel
    exact key _ _ _ _ _ _ _ _ hm h3
  have n2 : ascii "fg:" ++ colorString_ c.value ∉ ((s.bg.map fun c => "bg:" ++ Spec.colourName c).toList).map ascii := by
    cases s.bg with
    | none => simp
    | some d =>
      simp only [Option.map_some, Option.toList_some, List.map_cons, List.map_nil, List.mem_singleton, ascii_append]
      intro hh
      have := congrArg (List.take 3) hh
      rw [h3, List.take_left' (by decide)] at this
      exact absurd this (by decide)
  simp only [n1, n2, false_or, or_false]
  cases s.fg with
  | none => simp
  | some d =>
    simp only [Option.map_some, Option.toList_some, List.map_cons, List.map_nil, List.mem_singleton, ascii_append,
      Option.some.injEq, ← colour_printed]
    constructor
    · intro h; exact (colour_names_differ _ _ (List.append_cancel_left h)).symm
    · intro h; rw [h]

theorem bg_mem (s : Style) (c : Colour) : ascii "bg:" ++ colorString_ c.value ∈ attrParts s.build ↔ s.bg = some c := by
  rw [parts_words]
  have h3 : (ascii "bg:" ++ colorString_ c.value).take 3 = ascii "bg:" := List.take_left' (by decide)
  unfold Spec.words
  rw [List.map_append, List.map_append, List.mem_append, List.mem_append]
  have n1 : ascii "bg:" ++ colorString_ c.value ∉ (([(s.clear, "clear"), (s.bold, "bold"), (s.dim, "dim"), (s.italic, "italic"),
    (s.underscore, "underscore"), (s.negative, "negative"), (s.conceal, "conceal")].filterMap
      (fun p => if p.1 then some p.2 else none)).map ascii) := by
    intro hm
    have key : ∀ a b c d e f g : Bool, ∀ w ∈ (([(a, "clear"), (b, "bold"), (c, "dim"), (d, "italic"), (e, "underscore"), (f, "negative"),
        (g, "conceal")].filterMap (fun p => if p.1 then some p.2 else none)).map ascii), w.take 3 ≠ ascii "bg:" := by
      decide +kernel
    exact key _ _ _ _ _ _ _ _ hm h3
  have n2 : ascii "bg:" ++ colorString_ c.value ∉ ((s.fg.map fun c => "fg:" ++ Spec.colourName c).toList).map ascii := by
    cases s.fg with
    | none => simp
    | some d =>
      simp only [Option.map_some, Option.toList_some, List.map_cons, List.map_nil, List.mem_singleton, ascii_append]
      intro hh
      have := congrArg (List.take 3) hh
      rw [h3, List.take_left' (by decide)] at this
      exact absurd this (by decide)
  simp only [n1, n2, false_or]
  cases s.bg with
  | none => simp
  | some d =>
    simp only [Option.map_some, Option.toList_some, List.map_cons, List.map_nil, List.mem_singleton, ascii_append,
      Option.some.injEq, ← colour_printed]
    constructor
    · intro h; exact (colour_names_differ _ _ (List.append_cancel_left h)).symm
    · intro h; rw [h]

/-- **Different styles are printed differently**, so the printed form determines the style. -/
theorem attr_names_differ (s t : Style) (h : attrString s.build = attrString t.build) : s = t := by
  unfold attrString at h
  rw [joinSpace_sepBy, joinSpace_sepBy] at h
  have hp := sepBy_inj 0x20 _ _ (parts_solid s) (parts_solid t) h
  have hf : ∀ i, i < 7 → s.flag i = t.flag i := by
    intro i hi
    have h1 := flag_mem s i hi _ rfl
    have h2 := flag_mem t i hi _ rfl
    rw [hp, h2] at h1
    cases hs : s.flag i <;> cases ht : t.flag i <;> simp_all
  have ofg : s.fg = t.fg := by
    apply Option.ext; intro c
    rw [← fg_mem s c, ← fg_mem t c, hp]
  have obg : s.bg = t.bg := by
    apply Option.ext; intro c
    rw [← bg_mem s c, ← bg_mem t c, hp]
  have f0 := hf 0 (by omega)
  have f1 := hf 1 (by omega)
  have f2 := hf 2 (by omega)
  have f3 := hf 3 (by omega)
  have f4 := hf 4 (by omega)
  have f5 := hf 5 (by omega)
  have f6 := hf 6 (by omega)
  cases s; cases t
  simp only [Style.flag] at *
  subst f0 f1 f2 f3 f4 f5 f6 ofg obg
  rfl

example : attrString (Style.build { bold := true }) ≠ attrString (Style.build { dim := true }) := by decide +kernel

end Anansi.Sgr
