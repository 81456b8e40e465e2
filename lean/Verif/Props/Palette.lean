import Verif.Model.Palette
import Verif.Props.Colors
import Verif.Lemmas.SgrTerm
import Verif.Lemmas.Utf8
/-
The palette command: what its listing shows on a terminal, which controls it quotes, how its
columns line up, and which models it knows.
-/
set_option autoImplicit false

namespace Anansi.Pal
open Sgr Col Vt

/-! ### Specification -/

/-- What a stream of text and renditions shows: the characters with their renditions, and the
ends of lines. -/
def Spec.inked : Style → List Op → List (Option Glyph)
  | _, [] => []
  | s, .put r :: t => some ⟨r, s⟩ :: Spec.inked s t
  | s, .lf :: t => none :: Spec.inked s t
  | s, .sgr ps :: t => Spec.inked (rendition ps s) t
  | s, _ :: t => Spec.inked s t

/-- Text in one rendition. -/
def Spec.words (s : Style) (text : String) : List (Option Glyph) :=
  text.toList.map fun c => if c = '\n' then none else some ⟨c.toNat, s⟩

/-- The same for bytes. -/
def Spec.bytes (s : Style) (b : Bytes) : List (Option Glyph) :=
  b.map fun x => if x = 0x0A then none else some ⟨x.toNat, s⟩

/-- The control that selects a foreground. -/
def Spec.fgControl : Colour → Bytes
  | .indexed i =>
    if i.toNat < 8 then csi (params [30 + i.toNat]) 0x6D
    else if i.toNat < 16 then csi (params [90 + (i.toNat - 8)]) 0x6D
    else csi (params [38, 5, i.toNat]) 0x6D
  | .direct r g b => csi (params [38, 2, r.toNat, g.toNat, b.toNat]) 0x6D

/-- The control that selects a background. -/
def Spec.bgControl : Colour → Bytes
  | .indexed i =>
    if i.toNat < 8 then csi (params [40 + i.toNat]) 0x6D
    else if i.toNat < 16 then csi (params [100 + (i.toNat - 8)]) 0x6D
    else csi (params [48, 5, i.toNat]) 0x6D
  | .direct r g b => csi (params [48, 2, r.toNat, g.toNat, b.toNat]) 0x6D

/-- A control that consists of escape and printable text, between quotes. -/
def Spec.inQuotes (b : Bytes) : Bytes := ascii "\"\\x1b" ++ b.tail ++ ascii "\""

/-- Text in a field. -/
def Spec.field (w : Nat) (b : Bytes) : Bytes := b ++ List.replicate (w - b.length) 0x20

/-- A number in a field of three, with at least one space before it. -/
def Spec.number (n : Nat) : Bytes := if n < 10 then 0x20 :: 0x20 :: itoaNat n else 0x20 :: itoaNat n

/-- The line of a colour: its number; samples of it as a foreground and as a background; and the
controls for these. -/
def Spec.line (w n : Nat) (k : Colour) : List (Option Glyph) :=
  Spec.bytes {} (Spec.number n) ++ Spec.words {} " " ++
  Spec.words { fg := some k } "[ fg ]" ++ Spec.words { bg := some k } "[ bg ]" ++
  Spec.words {} " fg_ctl:" ++ Spec.bytes {} (Spec.field w (Spec.inQuotes (Spec.fgControl k))) ++
  Spec.words {} " bg_ctl:" ++ Spec.bytes {} (Spec.field w (Spec.inQuotes (Spec.bgControl k))) ++
  Spec.words {} "\n"

/-- A section of the listing. -/
structure Spec.Section where
  heading : String
  off : Nat
  colours : List Colour

/-- Colours by number. -/
def Spec.numbers (a b : Nat) : List Colour := (List.range' a (b - a)).map fun i => .indexed (UInt8.ofNat i)

/-- A theme. -/
def Spec.theme (l : List Rgb) : List Colour := l.map fun x => .direct x.1 x.2.1 x.2.2

/-- The sections of the listing. -/
def Spec.sections (themes : Bool) : List Spec.Section :=
  [⟨"Palette3:\n", 0, Spec.numbers 0 8⟩, ⟨"Palette4 (Palette3 + ...):\n", 8, Spec.numbers 8 16⟩] ++
  (if themes then
    [⟨"VGAPalette:\n", 0, Spec.theme vGAPalette⟩, ⟨"CMDPalette:\n", 0, Spec.theme cMDPalette⟩,
     ⟨"TermnialAppPalette:\n", 0, Spec.theme termnialAppPalette⟩, ⟨"PuTTYPalette:\n", 0, Spec.theme puTTYPalette⟩,
     ⟨"MIRCPalette:\n", 0, Spec.theme mIRCPalette⟩, ⟨"XTermPalette:\n", 0, Spec.theme xTermPalette⟩,
     ⟨"XPalette:\n", 0, Spec.theme xPalette⟩, ⟨"UbuntuPalette:\n", 0, Spec.theme ubuntuPalette⟩]
   else []) ++
  [⟨"Palette8 (Palette4 + ...):\n", 16, Spec.numbers 16 256⟩]

/-- The lines of colours numbered from `n` on, as `shade` has them shown. -/
def Spec.rows (shade : Colour → Colour) (w : Nat) : Nat → List Colour → List (Option Glyph)
  | _, [] => []
  | n, k :: ks => Spec.line w n (shade k) ++ Spec.rows shade w (n + 1) ks

/-- The whole listing on a terminal that showed the rendition `st` before: that is the one of
the first two lines, as nothing is reset before the first colour. -/
def Spec.page (st : Style) (shade : Colour → Colour) (w : Nat) (name : String) (themes : Bool) :
    List (Option Glyph) :=
  match Spec.sections themes with
  | [] => []
  | s :: rest =>
    Spec.words st ("using \"" ++ name ++ "\" model (pass -model to change)\n") ++
    Spec.words st s.heading ++ Spec.rows shade w s.off s.colours ++
    rest.flatMap fun s => Spec.words {} "\n" ++ Spec.words {} s.heading ++ Spec.rows shade w s.off s.colours

/-- The names of the models. -/
def Spec.names : List String := ["id", "3", "4", "8", "24", "canon"]

/-- The width of a control in the listing. -/
def Spec.width (name : String) : Nat :=
  if name = "3" ∨ name = "4" then 12 else if name = "8" ∨ name = "id" then 16 else 24

/-- The components of a colour, those of the 256 by the standard definitions. -/
def Spec.rgb : Colour → Rgb
  | .indexed i => table.getD i.toNat (0, 0, 0)
  | .direct r g b => (r, g, b)

/-- Every colour is shown as one of the first `n`: as one of the same components if there is one,
and else as one that is closest, up to 3 in the squared distance. -/
def Spec.Nearest (n : Nat) (shade : Colour → Colour) : Prop :=
  ∀ k, ∃ i : UInt8, shade k = .indexed i ∧ i.toNat < n ∧
    (∀ j : UInt8, j.toNat < n →
      Col.Spec.dist (Spec.rgb k) (Spec.rgb (.indexed i)) ≤ Col.Spec.dist (Spec.rgb k) (Spec.rgb (.indexed j)) + 3) ∧
    ((∃ j : UInt8, j.toNat < n ∧ Spec.rgb (.indexed j) = Spec.rgb k) → Spec.rgb (.indexed i) = Spec.rgb k)

/-- As what colours are shown by the model of a name. -/
def Spec.Shade (name : String) (shade : Colour → Colour) : Prop :=
  (name = "id" → ∀ k, shade k = k) ∧
  (name = "3" → Spec.Nearest 8 shade) ∧
  (name = "4" → Spec.Nearest 16 shade) ∧
  (name = "8" → Spec.Nearest 256 shade) ∧
  (name = "24" → ∀ k, shade k = .direct (Spec.rgb k).1 (Spec.rgb k).2.1 (Spec.rgb k).2.2) ∧
  (name = "canon" → ∀ k, Spec.rgb (shade k) = Spec.rgb k ∧ ((∃ i, k = .indexed i) → shade k = k) ∧
    ((∃ i, Spec.rgb (.indexed i) = Spec.rgb k) → ∃ i, shade k = .indexed i))

/-! ### Text -/

/-- Bytes as operations. -/
def ops (b : Bytes) : List Op := b.map fun x => if x = 0x0A then .lf else .put x.toNat

theorem text_ops (b : Bytes) (h : ∀ x ∈ b, x.toNat < 0x80) : text (ops b) = b := by
  induction b with
  | nil => rfl
  | cons x b ih =>
    have hx : x.toNat < 0x80 := h x (by simp)
    have hb := ih fun y hy => h y (by simp [hy])
    have e : text (ops (x :: b)) = (if x = 0x0A then Op.lf else Op.put x.toNat).bytes ++ text (ops b) := by
      simp [ops, text]
    rw [e, hb]
    by_cases h10 : x = 0x0A
    · subst h10; rfl
    · rw [if_neg h10]
      show encodeRune x.toNat ++ b = _
      rw [encodeRune_ascii hx]; simp

theorem inked_append_ops (s : Style) (b : Bytes) (t : List Op) :
    Spec.inked s (ops b ++ t) = Spec.bytes s b ++ Spec.inked s t := by
  induction b with
  | nil => rfl
  | cons x b ih =>
    simp only [ops, List.map_cons, List.cons_append, Spec.bytes] at ih ⊢
    by_cases h : x = 0x0A
    · rw [if_pos h, if_pos h]; simp only [Spec.inked, ih]
    · rw [if_neg h, if_neg h]; simp only [Spec.inked, ih]

theorem text_append' (a b : List Op) : text (a ++ b) = text a ++ text b := by simp [text]

/-- Whatever rendition came before, the bytes show `g` and leave rendition `s'` if they did
rendition `s`. -/
def Shows (b : Bytes) (s : Style) (g : List (Option Glyph)) (s' : Style) : Prop :=
  ∃ o, b = text o ∧ ∀ t, Spec.inked s (o ++ t) = g ++ Spec.inked s' t

theorem Shows.append {a b : Bytes} {s s' s'' : Style} {g g' : List (Option Glyph)} (ha : Shows a s g s')
    (hb : Shows b s' g' s'') : Shows (a ++ b) s (g ++ g') s'' := by
  obtain ⟨o, e, h⟩ := ha
  obtain ⟨o', e', h'⟩ := hb
  refine ⟨o ++ o', by rw [text_append', e, e'], fun t => ?_⟩
  rw [List.append_assoc, h, h', List.append_assoc]

theorem shows_bytes (b : Bytes) (s : Style) (h : ∀ x ∈ b, x.toNat < 0x80) : Shows b s (Spec.bytes s b) s :=
  ⟨ops b, (text_ops b h).symm, inked_append_ops s b⟩

theorem shows_nil (s : Style) : Shows [] s [] s := ⟨[], rfl, fun _ => rfl⟩

theorem shows_style (v s : Style) (h : v.build ≠ 0) : Shows (Sgr.append v.build) s [] (v.over s) := by
  obtain ⟨ps, e, h'⟩ := append_meaning v h
  refine ⟨[.sgr ps], by rw [e]; simp [text], fun t => ?_⟩
  simp only [List.cons_append, List.nil_append, Spec.inked, h']

theorem bytes_append (s : Style) (a b : Bytes) : Spec.bytes s (a ++ b) = Spec.bytes s a ++ Spec.bytes s b := by
  simp [Spec.bytes]

theorem words_ascii (s : Style) (t : String) (h : ∀ c ∈ t.toList, c.toNat < 0x80) :
    Spec.words s t = Spec.bytes s (ascii t) := by
  unfold Spec.words Spec.bytes ascii
  rw [List.map_map]
  apply List.map_congr_left
  intro c hc
  have h1 := h c hc
  have h2 : (UInt8.ofNat c.toNat).toNat = c.toNat := by
    rw [UInt8.toNat_ofNat']; omega
  have h3 : c = '\n' ↔ UInt8.ofNat c.toNat = 0x0A := by
    constructor
    · rintro rfl; rfl
    · intro e
      have := congrArg UInt8.toNat e
      rw [h2] at this
      apply Char.toNat_inj.mp
      exact this
  simp only [Function.comp, h2, h3]

theorem ascii_low (t : String) (h : ∀ c ∈ t.toList, c.toNat < 0x80) : ∀ x ∈ ascii t, x.toNat < 0x80 := by
  intro x hx
  obtain ⟨c, hc, e⟩ := List.mem_map.mp hx
  rw [← e, UInt8.toNat_ofNat']
  have := h c hc
  omega

/-- Text of a program in one rendition. -/
theorem shows_words (t : String) (s : Style) (h : ∀ c ∈ t.toList, c.toNat < 0x80) :
    Shows (ascii t) s (Spec.words s t) s := by
  rw [words_ascii s t h]
  exact shows_bytes _ s (ascii_low t h)

/-! ### Controls -/

theorem params_range : ∀ ns : List Nat, ∀ x ∈ params ns, 0x30 ≤ x.toNat ∧ x.toNat ≤ 0x3B := by
  intro ns
  induction ns with
  | nil => intro x hx; simp [params] at hx
  | cons n t ih =>
    have hn : ∀ x ∈ itoaNat n, 0x30 ≤ x.toNat ∧ x.toNat ≤ 0x3B := fun x hx => by
      have := itoaNat_digits n x hx; omega
    cases t with
    | nil => exact hn
    | cons m t =>
      intro x hx
      rw [params_cons n (m :: t) (by simp)] at hx
      rcases List.mem_append.mp hx with h | h
      · exact hn x h
      · rcases List.mem_cons.mp h with h | h
        · subst h; decide
        · exact ih x h

theorem fg_build (k : Colour) : ({ fg := some k } : Style).build = colorFG k.value := by
  simp [Style.build, flagIf]

theorem bg_build (k : Colour) : ({ bg := some k } : Style).build = colorBG k.value := by
  simp [Style.build, flagIf]

theorem fg_ne (k : Colour) : ({ fg := some k } : Style).build ≠ 0 ∧ ({ fg := some k } : Style).build ≠ clear := by
  have h := build_fg { fg := some k }
  constructor <;> intro e <;> rw [e] at h
  · have : fg (0 : Attr) = none := by decide
    rw [this] at h; simp at h
  · have : fg clear = none := by decide
    rw [this] at h; simp at h

theorem bg_ne (k : Colour) : ({ bg := some k } : Style).build ≠ 0 ∧ ({ bg := some k } : Style).build ≠ clear := by
  have h := build_bg { bg := some k }
  constructor <;> intro e <;> rw [e] at h
  · have : bg (0 : Attr) = none := by decide
    rw [this] at h; simp at h
  · have : bg clear = none := by decide
    rw [this] at h; simp at h

theorem fg_control (k : Colour) : Sgr.append (colorFG k.value) = Spec.fgControl k := by
  rw [← fg_build, append_build _ (fg_ne k).1 (fg_ne k).2, args_groups]
  simp only [Style.groups, Bool.false_eq_true, if_false, List.nil_append, Option.map_some, Option.map_none,
    Option.toList_some, Option.toList_none, List.append_nil, List.map_cons, List.map_nil, joinArgs, List.flatMap_nil]
  cases k with
  | direct r g b => rfl
  | indexed i =>
    simp only [fgCodes, Spec.fgControl, Nat.lt_succ_iff]
    split
    · rfl
    · split <;> rfl

theorem bg_control (k : Colour) : Sgr.append (colorBG k.value) = Spec.bgControl k := by
  rw [← bg_build, append_build _ (bg_ne k).1 (bg_ne k).2, args_groups]
  simp only [Style.groups, Bool.false_eq_true, if_false, List.nil_append, Option.map_some, Option.map_none,
    Option.toList_some, Option.toList_none, List.append_nil, List.map_cons, List.map_nil, joinArgs, List.flatMap_nil]
  cases k with
  | direct r g b => rfl
  | indexed i =>
    simp only [bgCodes, Spec.bgControl, Nat.lt_succ_iff]
    split
    · rfl
    · split <;> rfl

theorem quote_plain (t : Bytes) (h : ∀ x ∈ t, 0x30 ≤ x.toNat ∧ x.toNat ≤ 0x3B) : t.flatMap quoteByte = t := by
  induction t with
  | nil => rfl
  | cons x t ih =>
    have hx := h x (by simp)
    rw [List.flatMap_cons, ih fun y hy => h y (by simp [hy])]
    have : quoteByte x = [x] := by
      unfold quoteByte
      have h1 : x ≠ 0x22 := by rintro rfl; revert hx; decide
      have h2 : x ≠ 0x5C := by rintro rfl; revert hx; decide
      rw [if_neg (by simp [h1, h2]), if_pos]
      constructor
      · rw [UInt8.le_iff_toNat_le]; show 32 ≤ _; omega
      · rw [UInt8.lt_iff_toNat_lt]; show _ < 127; omega
    rw [this]; rfl

/-- A control is quoted by spelling out its escape. -/
theorem quote_csi (ns : List Nat) : quote (csi (params ns) 0x6D) = Spec.inQuotes (csi (params ns) 0x6D) := by
  unfold quote csi Spec.inQuotes
  have e1 : ascii "\"\\x1b" = [0x22, 0x5C, 0x78, 0x31, 0x62] := by decide +kernel
  have e2 : ascii "\"" = [0x22] := by decide +kernel
  have e3 : quoteByte 0x1B = [0x5C, 0x78, 0x31, 0x62] := by decide
  have e4 : quoteByte 0x5B = [0x5B] := by decide
  have e5 : quoteByte 0x6D = [0x6D] := by decide
  rw [e1, e2]
  simp only [List.flatMap_cons, List.flatMap_append, List.flatMap_nil, e3, e4, e5, quote_plain _ (params_range ns)]
  simp

theorem control_csi (k : Colour) : (∃ ns, Spec.fgControl k = csi (params ns) 0x6D) ∧
    ∃ ns, Spec.bgControl k = csi (params ns) 0x6D := by
  cases k with
  | direct r g b => exact ⟨⟨_, rfl⟩, ⟨_, rfl⟩⟩
  | indexed i =>
    constructor
    · unfold Spec.fgControl; dsimp only
      split
      · exact ⟨_, rfl⟩
      · split <;> exact ⟨_, rfl⟩
    · unfold Spec.bgControl; dsimp only
      split
      · exact ⟨_, rfl⟩
      · split <;> exact ⟨_, rfl⟩

theorem inQuotes_low (ns : List Nat) : ∀ x ∈ Spec.inQuotes (csi (params ns) 0x6D), x.toNat < 0x80 := by
  unfold Spec.inQuotes csi
  have e1 : ascii "\"\\x1b" = [0x22, 0x5C, 0x78, 0x31, 0x62] := by decide +kernel
  have e2 : ascii "\"" = [0x22] := by decide +kernel
  rw [e1, e2]
  intro x hx
  simp only [List.tail_cons, List.cons_append, List.nil_append, List.mem_cons, List.mem_append, List.not_mem_nil,
    or_false] at hx
  have hp := params_range ns x
  rcases hx with h | h | h | h | h | h | (h | h) | h
  all_goals first | (subst h; decide) | (have := hp h; omega)

theorem field_low (w : Nat) (b : Bytes) (h : ∀ x ∈ b, x.toNat < 0x80) : ∀ x ∈ Spec.field w b, x.toNat < 0x80 := by
  intro x hx
  rcases List.mem_append.mp hx with h' | h'
  · exact h x h'
  · rw [(List.mem_replicate.mp h').2]; decide

theorem itoa_len (n : Nat) (h : n < 1000) : (itoaNat n).length = if n < 10 then 1 else if n < 100 then 2 else 3 := by
  have key : ∀ n : Fin 1000, (itoaNat n).length = if n.val < 10 then 1 else if n.val < 100 then 2 else 3 := by
    decide +kernel
  exact key ⟨n, h⟩

theorem number_eq (n : Nat) : number n = Spec.number n := by
  unfold number Spec.number
  by_cases h : n < 10
  · rw [if_pos h, List.length_cons, itoa_len n (by omega), if_pos h]; rfl
  · rw [if_neg h]
    have h2 : 2 ≤ (itoaNat n).length := by
      have h1 : (itoaNat (n / 10)).length ≠ 0 := by simpa using itoaNat_ne_nil (n / 10)
      rw [itoaNat, if_neg h, List.length_append, List.length_singleton]
      omega
    have : 3 - (0x20 :: itoaNat n).length = 0 := by rw [List.length_cons]; omega
    rw [this]; rfl

theorem number_low (n : Nat) : ∀ x ∈ Spec.number n, x.toNat < 0x80 := by
  intro x hx
  have : x = 0x20 ∨ x ∈ itoaNat n := by
    unfold Spec.number at hx
    split at hx <;> simp at hx <;> tauto
  rcases this with h | h
  · subst h; decide
  · have := itoaNat_digits n x h; omega

/-! ### Lines -/

theorem clear_shows (s : Style) : Shows (Sgr.append Sgr.clear) s [] {} := by
  have h := shows_style { clear := true } s (by decide)
  have e : ({ clear := true } : Style).build = Sgr.clear := by decide
  rw [e] at h
  exact h

theorem line_shows (f : Flag) (n : Nat) (c : Color) (k : Colour) (hk : f.model c = k.value) (s : Style) :
    Shows (line f n c) s (Spec.line (ctlWidth f.name) n k) {} := by
  unfold line
  dsimp only
  rw [hk]
  have hf := shows_style { fg := some k } {} (fg_ne k).1
  have hb := shows_style { bg := some k } {} (bg_ne k).1
  rw [fg_build] at hf
  rw [bg_build] at hb
  have ef : ({ fg := some k } : Style).over {} = { fg := some k } := by simp [Style.over]
  have eb : ({ bg := some k } : Style).over {} = { bg := some k } := by simp [Style.over]
  rw [ef] at hf
  rw [eb] at hb
  obtain ⟨⟨nf, cf⟩, ⟨nb, cb⟩⟩ := control_csi k
  have qf : padRight (ctlWidth f.name) (quote (Sgr.append (colorFG k.value))) =
      Spec.field (ctlWidth f.name) (Spec.inQuotes (Spec.fgControl k)) := by
    rw [fg_control, cf, quote_csi]; rfl
  have qb : padRight (ctlWidth f.name) (quote (Sgr.append (colorBG k.value))) =
      Spec.field (ctlWidth f.name) (Spec.inQuotes (Spec.bgControl k)) := by
    rw [bg_control, cb, quote_csi]; rfl
  rw [qf, qb, number_eq]
  have lf : ∀ x ∈ Spec.field (ctlWidth f.name) (Spec.inQuotes (Spec.fgControl k)), x.toNat < 0x80 :=
    field_low _ _ (by rw [cf]; exact inQuotes_low nf)
  have lb : ∀ x ∈ Spec.field (ctlWidth f.name) (Spec.inQuotes (Spec.bgControl k)), x.toNat < 0x80 :=
    field_low _ _ (by rw [cb]; exact inQuotes_low nb)
  have h := (((((((((((((clear_shows s).append (shows_bytes _ {} (number_low n))).append
    (shows_words " " {} (by decide +kernel))).append hf).append
    (shows_words "[ fg ]" { fg := some k } (by decide +kernel))).append (clear_shows _)).append hb).append
    (shows_words "[ bg ]" { bg := some k } (by decide +kernel))).append (clear_shows _)).append
    (shows_words " fg_ctl:" {} (by decide +kernel))).append (shows_bytes _ {} lf)).append
    (shows_words " bg_ctl:" {} (by decide +kernel))).append (shows_bytes _ {} lb)).append
    (shows_words "\n" {} (by decide +kernel))
  simp only [List.append_nil, List.nil_append] at h
  unfold Spec.line
  exact h

theorem lines_show (f : Flag) (shade : Colour → Colour) (hs : ∀ k, f.model k.value = (shade k).value) :
    ∀ (ks : List Colour) (n : Nat), Shows (lines f n (ks.map Colour.value)) {}
      (Spec.rows shade (ctlWidth f.name) n ks) {} := by
  intro ks
  induction ks with
  | nil => intro n; exact shows_nil _
  | cons k ks ih => intro n; exact (line_shows f n _ _ (hs k) _).append (ih (n + 1))

/-- The first line resets the rendition. -/
theorem lines_show_from (f : Flag) (shade : Colour → Colour) (hs : ∀ k, f.model k.value = (shade k).value)
    (ks : List Colour) (n : Nat) (hk : ks ≠ []) (s : Style) : Shows (lines f n (ks.map Colour.value)) s
      (Spec.rows shade (ctlWidth f.name) n ks) {} := by
  cases ks with
  | nil => exact absurd rfl hk
  | cons k ks => exact (line_shows f n _ _ (hs k) _).append (lines_show f shade hs ks (n + 1))

/-- An entry is the one of a section. -/
def Entry (p : Ent) (x : Spec.Section) : Prop :=
  title p = ascii x.heading ∧ (∀ c ∈ x.heading.toList, c.toNat < 0x80) ∧ p.off = x.off ∧
  p.pal = x.colours.map Colour.value

theorem palettes_show (f : Flag) (shade : Colour → Colour) (hs : ∀ k, f.model k.value = (shade k).value) :
    ∀ (ps : List Ent) (xs : List Spec.Section) (i : Nat), List.Forall₂ Entry ps xs → 0 < i →
    Shows (palettes f i ps) {} (xs.flatMap fun s => Spec.words {} "\n" ++ Spec.words {} s.heading ++
      Spec.rows shade (ctlWidth f.name) s.off s.colours) {} := by
  intro ps xs i h
  induction h generalizing i with
  | nil => intro _; exact shows_nil _
  | cons hx _ ih =>
    rename_i p x ps xs
    intro hi
    obtain ⟨h1, h2, h3, h4⟩ := hx
    rw [palettes, if_pos hi, h1, h3, h4, List.flatMap_cons]
    exact ((((shows_words "\n" {} (by decide +kernel)).append (shows_words _ {} h2)).append
      (lines_show f shade hs _ _))).append (ih (i + 1) (by omega))

theorem entry_direct (nm : String) (l : List Rgb) (h : title ⟨ascii nm, [], 0, []⟩ = ascii (nm ++ ":\n") ∧
    ∀ c ∈ (nm ++ ":\n").toList, c.toNat < 0x80) :
    Entry ⟨ascii nm, [], 0, direct l⟩ ⟨nm ++ ":\n", 0, Spec.theme l⟩ := by
  refine ⟨h.1, h.2, rfl, ?_⟩
  simp only [direct, Spec.theme, List.map_map]
  rfl

theorem numbers_pal : palette3 = (Spec.numbers 0 8).map Colour.value ∧
    palette4.drop 8 = (Spec.numbers 8 16).map Colour.value ∧
    palette8.drop 16 = (Spec.numbers 16 256).map Colour.value := by
  refine ⟨by decide +kernel, by decide +kernel, by decide +kernel⟩

theorem entries (t : Bool) : List.Forall₂ Entry (listed t) (Spec.sections t) := by
  have e1 : Entry ⟨ascii "Palette3", [], 0, palette3⟩ ⟨"Palette3:\n", 0, Spec.numbers 0 8⟩ :=
    ⟨by decide +kernel, by decide +kernel, rfl, numbers_pal.1⟩
  have e2 : Entry ⟨ascii "Palette4", ascii "Palette3 + ...", 8, palette4.drop 8⟩
      ⟨"Palette4 (Palette3 + ...):\n", 8, Spec.numbers 8 16⟩ :=
    ⟨by decide +kernel, by decide +kernel, rfl, numbers_pal.2.1⟩
  have e3 : Entry ⟨ascii "Palette8", ascii "Palette4 + ...", 16, palette8.drop 16⟩
      ⟨"Palette8 (Palette4 + ...):\n", 16, Spec.numbers 16 256⟩ :=
    ⟨by decide +kernel, by decide +kernel, rfl, numbers_pal.2.2⟩
  cases t with
  | false => exact .cons e1 (.cons e2 (.cons e3 .nil))
  | true =>
    exact .cons e1 (.cons e2 (.cons (entry_direct "VGAPalette" _ (by decide +kernel))
      (.cons (entry_direct "CMDPalette" _ (by decide +kernel))
      (.cons (entry_direct "TermnialAppPalette" _ (by decide +kernel))
      (.cons (entry_direct "PuTTYPalette" _ (by decide +kernel))
      (.cons (entry_direct "MIRCPalette" _ (by decide +kernel))
      (.cons (entry_direct "XTermPalette" _ (by decide +kernel))
      (.cons (entry_direct "XPalette" _ (by decide +kernel))
      (.cons (entry_direct "UbuntuPalette" _ (by decide +kernel)) (.cons e3 .nil))))))))))

theorem page_shows (f : Flag) (shade : Colour → Colour) (hs : ∀ k, f.model k.value = (shade k).value)
    (name : String) (hn : name ∈ Spec.names) (hf : f.name = ascii name) (t : Bool) (st : Style) :
    Shows (page f t) st (Spec.page st shade (ctlWidth f.name) name t) {} := by
  have h0 : ascii "using " ++ quote (ascii name) ++ ascii " model (pass -model to change)\n" =
      ascii ("using \"" ++ name ++ "\" model (pass -model to change)\n") ∧
      ∀ c ∈ ("using \"" ++ name ++ "\" model (pass -model to change)\n").toList, c.toNat < 0x80 := by
    revert name
    have : ∀ name ∈ Spec.names, ascii "using " ++ quote (ascii name) ++ ascii " model (pass -model to change)\n" =
      ascii ("using \"" ++ name ++ "\" model (pass -model to change)\n") ∧
      ∀ c ∈ ("using \"" ++ name ++ "\" model (pass -model to change)\n").toList, c.toNat < 0x80 := by
      decide +kernel
    intro name hn _
    exact this name hn
  have he := entries t
  unfold page Spec.page
  have hf' : ascii "using " ++ quote f.name ++ ascii " model (pass -model to change)\n" =
      ascii ("using \"" ++ name ++ "\" model (pass -model to change)\n") := by rw [hf, h0.1]
  rw [hf']
  have hd : ∃ p ps x xs, listed t = p :: ps ∧ Spec.sections t = x :: xs ∧ x.colours ≠ [] := by
    cases t with
    | false => exact ⟨_, _, _, _, rfl, rfl, by decide⟩
    | true => exact ⟨_, _, _, _, rfl, rfl, by decide⟩
  obtain ⟨p, ps, x, xs, e1, e2, hc⟩ := hd
  rw [e1, e2] at he ⊢
  obtain ⟨⟨h1, h2, h3, h4⟩, hr⟩ := List.forall₂_cons.mp he
  dsimp only
  rw [palettes, if_neg (Nat.lt_irrefl 0), List.nil_append, h1, h3, h4]
  have h := (((shows_words _ st h0.2).append (shows_words _ st h2)).append
    (lines_show_from f shade hs _ x.off hc st)).append (palettes_show f shade hs ps xs 1 hr (by omega))
  simp only [List.append_assoc] at h ⊢
  exact h

/-! ### Models -/

theorem index_value (i : UInt8) : (Colour.indexed i).value = BitVec.ofNat 32 i.toNat := by
  apply BitVec.eq_of_toNat_eq
  simp [Colour.value]

theorem comps_value (k : Colour) : comps k.value = Spec.rgb k := by
  cases k with
  | direct r g b => exact comps_rgb r g b
  | indexed i => rw [index_value, comps_index _ i.toNat_lt]; rfl

theorem pal8_get (i : Nat) (h : i < 256) : palette8[i]? = some (Colour.indexed (UInt8.ofNat i)).value := by
  unfold palette8
  rw [List.getElem?_map, List.getElem?_range h, index_value, UInt8.toNat_ofNat', Nat.mod_eq_of_lt h]
  rfl

theorem nearest (n : Nat) (hn : 0 < n) (h256 : n ≤ 256) : ∃ shade : Colour → Colour,
    (∀ k, paletteConvert (palette8.take n) k.value = (shade k).value) ∧ Spec.Nearest n shade := by
  have hlen : (palette8.take n).length = n := by simp [palette8, h256]
  have hne : palette8.take n ≠ [] := by
    intro e; rw [e] at hlen; simp at hlen; omega
  have hget : ∀ i (h : i < (palette8.take n).length),
      (palette8.take n)[i] = (Colour.indexed (UInt8.ofNat i)).value := by
    intro i h
    have hi : i < n := by rw [hlen] at h; exact h
    have := pal8_get i (by omega)
    rw [List.getElem_take]
    exact (List.getElem?_eq_some_iff.mp this).2
  have hin : ∀ k : Colour, index (palette8.take n) k.value < n := by
    intro k
    obtain ⟨h, _⟩ := index_spec (palette8.take n) k.value hne
    rw [hlen] at h; exact h
  refine ⟨fun k => .indexed (UInt8.ofNat (index (palette8.take n) k.value)), ?_, ?_⟩
  · intro k
    have h : index (palette8.take n) k.value < (palette8.take n).length := by rw [hlen]; exact hin k
    unfold paletteConvert
    rw [if_neg hne, List.getD_eq_getElem?_getD, List.getElem?_eq_getElem h, Option.getD_some, hget]
  · intro k
    refine ⟨_, rfl, ?_, ?_, ?_⟩
    · have := hin k
      rw [UInt8.toNat_ofNat', Nat.mod_eq_of_lt (by omega)]
      exact this
    · intro j hj
      obtain ⟨h, hq⟩ := index_nearest_partial (palette8.take n) k.value hne
      have hjl : j.toNat < (palette8.take n).length := by rw [hlen]; exact hj
      have := hq _ (List.getElem_mem hjl)
      rw [hget, hget, comps_value, comps_value, comps_value] at this
      simpa using this
    · rintro ⟨j, hj, e⟩
      have hjl : j.toNat < (palette8.take n).length := by rw [hlen]; exact hj
      have htab : ∀ i : UInt8, Spec.rgb (.indexed i) ∈ table := by
        intro i
        have hi : i.toNat < table.length := by rw [table_length]; exact i.toNat_lt
        simp only [Spec.rgb]
        rw [List.getD_eq_getElem?_getD, List.getElem?_eq_getElem hi]
        exact List.getElem_mem hi
      obtain ⟨h, hx⟩ := index_exact_partial (palette8.take n) k.value hne (by
        intro q hq
        obtain ⟨i, hi, eq⟩ := List.getElem_of_mem hq
        rw [← eq, hget, comps_value, comps_value, ← e]
        exact table_apart _ (htab _) _ (htab _))
        ⟨_, List.getElem_mem hjl, by rw [hget, comps_value, comps_value, ← e]; simp⟩
      rw [hget, comps_value, comps_value] at hx
      exact hx

theorem canon_shade : ∃ shade : Colour → Colour, (∀ k, canon k.value = (shade k).value) ∧
    ∀ k, Spec.rgb (shade k) = Spec.rgb k ∧ ((∃ i, k = .indexed i) → shade k = k) ∧
    ((∃ i, Spec.rgb (.indexed i) = Spec.rgb k) → ∃ i, shade k = .indexed i) := by
  have key : ∀ k : Colour, ∃ k' : Colour, canon k.value = k'.value ∧ ((∃ i, k = .indexed i) → k' = k) ∧
      ((∃ i, Spec.rgb (.indexed i) = Spec.rgb k) → ∃ i, k' = .indexed i) := by
    intro k
    cases k with
    | indexed i =>
      refine ⟨.indexed i, ?_, fun _ => rfl, fun _ => ⟨i, rfl⟩⟩
      apply canon_other
      intro x _ e
      have := index_not24 i.toNat i.toNat_lt
      rw [← index_value, e] at this
      exact rgb_is24 x.1 x.2.1 x.2.2 this
    | direct r g b =>
      by_cases h : ∃ i, Spec.rgb (.indexed i) = Spec.rgb (.direct r g b)
      · obtain ⟨i, hi⟩ := h
        obtain ⟨j, hj, e⟩ := canon_alias i.toNat i.toNat_lt
        have e2 : to24 (BitVec.ofNat 32 i.toNat) = (Colour.direct r g b).value := by
          unfold to24
          rw [if_neg (by rw [index_not24 i.toNat i.toNat_lt]; simp), ← index_value, comps_value, hi]
          rfl
        rw [e2] at e
        refine ⟨.indexed (UInt8.ofNat j), ?_, ?_, fun _ => ⟨_, rfl⟩⟩
        · rw [e, index_value, UInt8.toNat_ofNat', Nat.mod_eq_of_lt hj]
        · rintro ⟨_, h⟩; cases h
      · refine ⟨.direct r g b, ?_, fun _ => rfl, fun h' => absurd h' h⟩
        apply canon_other
        intro x hx e
        apply h
        obtain ⟨i, hi, ex⟩ := List.getElem_of_mem hx
        rw [table_length] at hi
        refine ⟨UInt8.ofNat i, ?_⟩
        rw [← comps_value, ← comps_value, e, comps_rgb, index_value, UInt8.toNat_ofNat', Nat.mod_eq_of_lt hi,
          comps_index i hi, List.getD_eq_getElem?_getD, List.getElem?_eq_getElem (by rw [table_length]; exact hi),
          Option.getD_some, ex]
  choose shade h using key
  refine ⟨shade, fun k => (h k).1, fun k => ⟨?_, (h k).2⟩⟩
  rw [← comps_value, ← comps_value, ← (h k).1, canon_same]

/-- The model of a name does with every colour what is said of the name. -/
theorem model_shades (name : String) (hn : name ∈ Spec.names) : ∃ m shade, get models (ascii name) = some m ∧
    (∀ k : Colour, m k.value = (shade k).value) ∧ Spec.Shade name shade := by
  obtain ⟨s3, h3, n3⟩ := nearest 8 (by omega) (by omega)
  obtain ⟨s4, h4, n4⟩ := nearest 16 (by omega) (by omega)
  obtain ⟨s8, h8, n8⟩ := nearest 256 (by omega) (by omega)
  obtain ⟨sc, hc, nc⟩ := canon_shade
  have e8 : palette8.take 256 = palette8 := List.take_of_length_le (by simp [palette8])
  rw [e8] at h8
  simp only [Spec.names, List.mem_cons, List.not_mem_nil, or_false] at hn
  rcases hn with h | h | h | h | h | h <;> subst h
  · exact ⟨id, id, rfl, fun _ => rfl, by simp [Spec.Shade]⟩
  · exact ⟨_, s3, rfl, h3, by simp [Spec.Shade, n3]⟩
  · exact ⟨_, s4, rfl, h4, by simp [Spec.Shade, n4]⟩
  · exact ⟨_, s8, rfl, h8, by simp [Spec.Shade, n8]⟩
  · refine ⟨to24, fun k => .direct (Spec.rgb k).1 (Spec.rgb k).2.1 (Spec.rgb k).2.2, rfl, ?_, by simp [Spec.Shade]⟩
    intro k
    cases k with
    | direct r g b =>
      unfold to24
      rw [if_pos (by exact rgb_is24 r g b)]
      rfl
    | indexed i =>
      unfold to24
      rw [if_neg (by rw [index_value, index_not24 i.toNat i.toNat_lt]; simp), comps_value]
      rfl
  · exact ⟨canon, sc, rfl, hc, ⟨by simp, by simp, by simp, by simp, by simp, fun _ => nc⟩⟩

theorem width_eq (name : String) (hn : name ∈ Spec.names) : ctlWidth (ascii name) = Spec.width name := by
  have : ∀ name ∈ Spec.names, ctlWidth (ascii name) = Spec.width name := by decide +kernel
  exact this name hn

/-- Only the six names are known. -/
theorem get_known (s : Bytes) : (get models s).isSome ↔ ∃ n ∈ Spec.names, s = ascii n := by
  constructor
  · intro h
    unfold get at h
    rw [Option.isSome_map] at h
    obtain ⟨kv, hkv⟩ := Option.isSome_iff_exists.mp h
    have h1 := List.find?_some hkv
    have h2 := List.mem_of_find?_eq_some hkv
    have h3 : s = kv.1 := (of_decide_eq_true h1).symm
    simp only [models, List.mem_cons, List.not_mem_nil, or_false] at h2
    rcases h2 with h | h | h | h | h | h <;> subst h <;> exact ⟨_, by simp [Spec.names], h3⟩
  · rintro ⟨n, hn, rfl⟩
    obtain ⟨m, _, h, _⟩ := model_shades n hn
    rw [h]; rfl

/-! ### The command -/

/-- **C118**: setting the model fails for any name but the six and then leaves the flag as it is;
otherwise the flag has that name and the model of that name. -/
theorem set_spec (order : List Bytes) (f : Flag) (s : Bytes) :
    ((¬ ∃ n ∈ Spec.names, s = ascii n) → (f.set order s).1 = f ∧ (f.set order s).2 =
      some (ascii "no such color model, valid choices:[" ++ quoted order ++ ascii "]")) ∧
    (∀ n ∈ Spec.names, s = ascii n → (f.set order s).2 = none ∧ (f.set order s).1.name = s ∧
      ∃ shade, Spec.Shade n shade ∧ ∀ k : Colour, (f.set order s).1.model k.value = (shade k).value) := by
  constructor
  · intro h
    have : get models s = none := by
      rw [← get_known] at h
      simpa using h
    unfold Flag.set
    rw [this]
    exact ⟨rfl, rfl⟩
  · rintro n hn rfl
    obtain ⟨m, shade, h1, h2, h3⟩ := model_shades n hn
    unfold Flag.set
    rw [h1]
    exact ⟨rfl, rfl, shade, h3, h2⟩

theorem parse_spec (order : List Bytes) : ∀ (asked : List Bytes) (f : Flag),
    ((∃ s ∈ asked, ¬ ∃ n ∈ Spec.names, s = ascii n) → parse order f asked =
      .error (ascii "no such color model, valid choices:[" ++ quoted order ++ ascii "]")) ∧
    ((∀ s ∈ asked, ∃ n ∈ Spec.names, s = ascii n) → ∃ g, parse order f asked = .ok g ∧
      (asked = [] → g = f) ∧ ∀ n ∈ Spec.names, asked.getLast? = some (ascii n) → g.name = ascii n ∧
      ∃ shade, Spec.Shade n shade ∧ ∀ k : Colour, g.model k.value = (shade k).value) := by
  intro asked
  induction asked with
  | nil => intro f; exact ⟨by simp, fun _ => ⟨f, rfl, fun _ => rfl, by simp⟩⟩
  | cons s ss ih =>
    intro f
    obtain ⟨hbad, hgood⟩ := set_spec order f s
    constructor
    · rintro ⟨x, hx, hu⟩
      by_cases hs : ∃ n ∈ Spec.names, s = ascii n
      · obtain ⟨n, hn, e⟩ := hs
        obtain ⟨h1, _⟩ := hgood n hn e
        have : x ∈ ss := by
          rcases List.mem_cons.mp hx with h | h
          · exact absurd ⟨n, hn, h ▸ e⟩ hu
          · exact h
        rw [parse]
        generalize f.set order s = r at h1
        obtain ⟨g, o⟩ := r
        dsimp only at h1
        subst h1
        exact (ih g).1 ⟨x, this, hu⟩
      · obtain ⟨_, h2⟩ := hbad hs
        rw [parse]
        generalize f.set order s = r at h2
        obtain ⟨g, o⟩ := r
        dsimp only at h2
        subst h2
        rfl
    · intro hall
      obtain ⟨n, hn, e⟩ := hall s (by simp)
      obtain ⟨h1, h2, h3⟩ := hgood n hn e
      rw [parse]
      generalize f.set order s = r at h1 h2 h3
      obtain ⟨g, o⟩ := r
      dsimp only at h1 h2 h3
      subst h1
      obtain ⟨g', e1, e2, e3⟩ := (ih g).2 fun x hx => hall x (by simp [hx])
      refine ⟨g', e1, by simp, fun n' hn' hl => ?_⟩
      cases ss with
      | nil =>
        rw [e2 rfl, h2]
        simp only [List.getLast?_singleton, Option.some.injEq] at hl
        refine ⟨hl, ?_⟩
        have : n' = n := by
          have hinj : ∀ a ∈ Spec.names, ∀ b ∈ Spec.names, ascii a = ascii b → a = b := by decide +kernel
          exact hinj _ hn' _ hn (by rw [← hl, e])
        rw [this]; exact h3
      | cons y ys =>
        apply e3 n' hn'
        rw [← hl, List.getLast?_cons_cons]

/-- **C118**: asked for an unknown model the command ends with an error that lists the names;
otherwise, whatever the terminal showed before, what it prints shows the listing, by the last model
asked for or else by `id`: sections for the first eight colours, the next eight, the themes if
asked for, and the other 240; on every line the number of the colour, one sample with the colour
in the foreground and nothing else, one with it in the background and nothing else, and, quoted,
the controls for these. -/
theorem listing (order asked : List Bytes) (themes : Bool) :
    ((∃ s ∈ asked, ¬ ∃ n ∈ Spec.names, s = ascii n) → main order asked themes =
      .error (ascii "no such color model, valid choices:[" ++ quoted order ++ ascii "]")) ∧
    ((∀ s ∈ asked, ∃ n ∈ Spec.names, s = ascii n) → ∃ b, main order asked themes = .ok b ∧
      ∀ n ∈ Spec.names, asked.getLast?.getD (ascii "id") = ascii n →
        ∃ shade, Spec.Shade n shade ∧ ∀ st, ∃ o, b = text o ∧
          Spec.inked st o = Spec.page st shade (Spec.width n) n themes) := by
  obtain ⟨h1, h2⟩ := parse_spec order asked Flag.initial
  constructor
  · intro h
    unfold main
    rw [h1 h]
  · intro h
    obtain ⟨g, e1, e2, e3⟩ := h2 h
    refine ⟨page g themes, by unfold main; rw [e1], fun n hn hl => ?_⟩
    have hg : g.name = ascii n ∧ ∃ shade, Spec.Shade n shade ∧ ∀ k : Colour, g.model k.value = (shade k).value := by
      cases ha : asked.getLast? with
      | none =>
        rw [ha] at hl
        have hinj : ∀ a ∈ Spec.names, ascii "id" = ascii a → a = "id" := by decide +kernel
        have hid := hinj n hn hl
        rw [e2 (List.getLast?_eq_none_iff.mp ha), hid]
        exact ⟨rfl, id, by simp [Spec.Shade], fun _ => rfl⟩
      | some x =>
        rw [ha] at hl
        exact e3 n hn (by rw [ha]; exact congrArg some hl)
    obtain ⟨hname, shade, hs, hm⟩ := hg
    refine ⟨shade, hs, fun st => ?_⟩
    obtain ⟨o, eo, ho⟩ := page_shows g shade hm n hn hname themes st
    refine ⟨o, eo, ?_⟩
    have := ho []
    rw [List.append_nil, Spec.inked, List.append_nil, hname, width_eq n hn] at this
    exact this

/-- Colour 196 by `24`, the last asked for, in the last section, on a terminal that showed bold. -/
example : ∃ shade, Spec.Shade "24" shade ∧ shade (.indexed 196) = .direct 255 0 0 ∧
    Spec.line 24 196 (shade (.indexed 196)) =
      Spec.words {} " 196 " ++ Spec.words { fg := some (.direct 255 0 0) } "[ fg ]" ++
      Spec.words { bg := some (.direct 255 0 0) } "[ bg ]" ++
      Spec.words {} " fg_ctl:\"\\x1b[38;2;255;0;0m\"     bg_ctl:\"\\x1b[48;2;255;0;0m\"    \n" := by
  obtain ⟨_, shade, _, _, h⟩ := model_shades "24" (by decide)
  have e := h.2.2.2.2.1 rfl (.indexed 196)
  refine ⟨shade, h, ?_, ?_⟩
  · rw [e]; decide +kernel
  · rw [e]; decide +kernel

/-- Without themes, the 256 colours are listed once each, by number. -/
theorem all_listed : (Spec.sections false).flatMap (fun x => (List.range' x.off x.colours.length).zip x.colours) =
    (List.range 256).map fun i => (i, Colour.indexed (UInt8.ofNat i)) := by decide +kernel

/-! ### Columns -/

theorem inQuotes_length (ns : List Nat) : (Spec.inQuotes (csi (params ns) 0x6D)).length =
    (csi (params ns) 0x6D).length + 5 := by
  unfold Spec.inQuotes csi
  have e1 : ascii "\"\\x1b" = [0x22, 0x5C, 0x78, 0x31, 0x62] := by decide +kernel
  have e2 : ascii "\"" = [0x22] := by decide +kernel
  rw [e1, e2]
  simp

/-- How long the quoted controls are. -/
theorem quoted_lengths (k : Colour) :
    (Spec.inQuotes (Spec.fgControl k)).length = (Spec.fgControl k).length + 5 ∧
    (Spec.inQuotes (Spec.bgControl k)).length = (Spec.bgControl k).length + 5 := by
  obtain ⟨⟨a, ha⟩, ⟨b, hb⟩⟩ := control_csi k
  rw [ha, hb, inQuotes_length, inQuotes_length]
  exact ⟨rfl, rfl⟩

theorem indexed_lengths (i : UInt8) : (Spec.fgControl (.indexed i)).length ≤ 11 ∧
    (Spec.bgControl (.indexed i)).length ≤ 11 ∧
    (i.toNat < 16 → (Spec.fgControl (.indexed i)).length ≤ 7 ∧ (Spec.bgControl (.indexed i)).length ≤ 7) := by
  have key : ∀ n : Fin 256, (Spec.fgControl (.indexed (UInt8.ofNat n))).length ≤ 11 ∧
    (Spec.bgControl (.indexed (UInt8.ofNat n))).length ≤ 11 ∧
    ((UInt8.ofNat n).toNat < 16 → (Spec.fgControl (.indexed (UInt8.ofNat n))).length ≤ 7 ∧
      (Spec.bgControl (.indexed (UInt8.ofNat n))).length ≤ 7) := by decide +kernel
  have := key ⟨i.toNat, i.toNat_lt⟩
  rw [show UInt8.ofNat (Fin.val ⟨i.toNat, i.toNat_lt⟩) = i by simp] at this
  exact this

theorem direct_lengths (r g b : UInt8) : (Spec.fgControl (.direct r g b)).length ≤ 19 ∧
    (Spec.bgControl (.direct r g b)).length ≤ 19 := by
  have h : ∀ x : UInt8, (itoaNat x.toNat).length ≤ 3 := by
    intro x
    have := x.toNat_lt
    rw [itoa_len _ (by omega)]
    split
    · omega
    · split <;> omega
  have h1 := h r
  have h2 := h g
  have h3 := h b
  have e1 : (itoaNat 38).length = 2 := by decide +kernel
  have e2 : (itoaNat 48).length = 2 := by decide +kernel
  have e3 : (itoaNat 2).length = 1 := by decide +kernel
  constructor
  · simp only [Spec.fgControl, csi, params, List.length_cons, List.length_append, List.length_nil, e1, e3]
    omega
  · simp only [Spec.bgControl, csi, params, List.length_cons, List.length_append, List.length_nil, e2, e3]
    omega

theorem any_lengths (k : Colour) : (Spec.fgControl k).length ≤ 19 ∧ (Spec.bgControl k).length ≤ 19 := by
  cases k with
  | indexed i => have := indexed_lengths i; omega
  | direct r g b => exact direct_lengths r g b

theorem controls_fit (name : String) (hn : name ∈ Spec.names) (shade : Colour → Colour) (hs : Spec.Shade name shade)
    (k : Colour) (h : name ≠ "id" ∨ ∃ i, k = .indexed i) :
    (Spec.inQuotes (Spec.fgControl (shade k))).length ≤ Spec.width name ∧
    (Spec.inQuotes (Spec.bgControl (shade k))).length ≤ Spec.width name := by
  obtain ⟨q1, q2⟩ := quoted_lengths (shade k)
  rw [q1, q2]
  have hany := any_lengths (shade k)
  obtain ⟨h0, h3, h4, h8, _, _⟩ := hs
  simp only [Spec.names, List.mem_cons, List.not_mem_nil, or_false] at hn
  rcases hn with e | e | e | e | e | e <;> subst e
  · obtain ⟨i, hi⟩ := h.resolve_left (by simp)
    rw [h0 rfl k, hi]
    have := indexed_lengths i
    have hw : Spec.width "id" = 16 := by decide
    omega
  · obtain ⟨i, hi, hlt, _⟩ := h3 rfl k
    rw [hi]
    have := (indexed_lengths i).2.2 (by omega)
    have hw : Spec.width "3" = 12 := by decide
    omega
  · obtain ⟨i, hi, hlt, _⟩ := h4 rfl k
    rw [hi]
    have := (indexed_lengths i).2.2 hlt
    have hw : Spec.width "4" = 12 := by decide
    omega
  · obtain ⟨i, hi, hlt, _⟩ := h8 rfl k
    rw [hi]
    have := indexed_lengths i
    have hw : Spec.width "8" = 16 := by decide
    omega
  · have hw : Spec.width "24" = 24 := by decide
    omega
  · have hw : Spec.width "canon" = 24 := by decide
    omega

theorem field_length (w : Nat) (b : Bytes) (h : b.length ≤ w) : (Spec.field w b).length = w := by
  unfold Spec.field; simp; omega

theorem number_length (n : Nat) (h : n < 1000) : (Spec.number n).length = if n < 100 then 3 else 4 := by
  unfold Spec.number
  by_cases h1 : n < 10
  · rw [if_pos h1, List.length_cons, List.length_cons, itoa_len n h, if_pos h1, if_pos (by omega)]
  · rw [if_neg h1, List.length_cons, itoa_len n h, if_neg h1]
    split <;> rfl

/-- **C118** (part proved): the lines of colours with numbers below 100 have their columns at the
same places, for any model but `id` and for numbered colours by that one, too; those of numbers
from 100 on are all one further to the right.
Missing: all in the same place, see `shifted` and `themes_shifted`. -/
theorem columns_partial (name : String) (hn : name ∈ Spec.names) (shade : Colour → Colour)
    (hs : Spec.Shade name shade) (k : Colour) (h : name ≠ "id" ∨ ∃ i, k = .indexed i) (n : Nat) (hlt : n < 1000) :
    ∃ a b c, Spec.line (Spec.width name) n (shade k) =
        a ++ Spec.words {} " fg_ctl:" ++ b ++ Spec.words {} " bg_ctl:" ++ c ++ Spec.words {} "\n" ∧
      a.length = (if n < 100 then 16 else 17) ∧ b.length = Spec.width name ∧ c.length = Spec.width name := by
  obtain ⟨hf, hb⟩ := controls_fit name hn shade hs k h
  refine ⟨_, _, _, rfl, ?_, ?_, ?_⟩
  · have e : (Spec.bytes {} (Spec.number n) ++ Spec.words {} " " ++ Spec.words { fg := some (shade k) } "[ fg ]" ++
        Spec.words { bg := some (shade k) } "[ bg ]").length = (Spec.number n).length + 13 := by
      simp only [Spec.bytes, Spec.words, List.length_append, List.length_map]
      have e1 : " ".toList.length = 1 := by decide
      have e2 : "[ fg ]".toList.length = 6 := by decide
      have e3 : "[ bg ]".toList.length = 6 := by decide
      rw [e1, e2, e3]
    rw [e, number_length n hlt]
    split <;> rfl
  · rw [Spec.bytes, List.length_map, field_length _ _ hf]
  · rw [Spec.bytes, List.length_map, field_length _ _ hb]

example : ("3" : String) ∈ Spec.names ∧ Spec.width "3" = 12 ∧
    (∃ shade, Spec.Shade "3" shade ∧ ("3" ≠ "id" ∨ ∃ i, (Colour.direct 1 2 3) = .indexed i)) := by
  obtain ⟨_, shade, _, _, h⟩ := model_shades "3" (by decide)
  exact ⟨by decide, by decide, shade, h, .inl (by decide)⟩

/-- The code violates the claim about columns: the line of colour 100 has its samples one column
further to the right than the line of colour 99. -/
theorem shifted : ¬ ∀ a b : Nat, a < 256 → b < 256 →
    (Spec.line 16 a (.indexed (UInt8.ofNat a))).length = (Spec.line 16 b (.indexed (UInt8.ofNat b))).length := by
  intro h
  have := h 99 100 (by omega) (by omega)
  revert this
  decide +kernel

/-- The code violates the claim about columns: by `id`, the lines of colours of a theme are as
long as their controls. -/
theorem themes_shifted : ∃ x ∈ Spec.sections true, x.heading = "VGAPalette:\n" ∧ ∃ a b : Colour, a ∈ x.colours ∧
    b ∈ x.colours ∧ (Spec.line (Spec.width "id") 0 a).length ≠ (Spec.line (Spec.width "id") 15 b).length := by
  refine ⟨⟨"VGAPalette:\n", 0, Spec.theme vGAPalette⟩, by simp [Spec.sections], rfl, .direct 0 0 0,
    .direct 255 255 255, by decide +kernel, by decide +kernel, by decide +kernel⟩

namespace Spec

/-- The value of a lower case hexadecimal digit. -/
def hexValue (b : UInt8) : Option Nat :=
  if 0x30 ≤ b.toNat ∧ b.toNat ≤ 0x39 then some (b.toNat - 0x30)
  else if 0x61 ≤ b.toNat ∧ b.toNat ≤ 0x66 then some (b.toNat - 0x61 + 10)
  else none

/-- The byte meant by a letter after a backslash, in Go's string literals. -/
def escape (b : UInt8) : Option UInt8 :=
  if b = 0x61 then some 7 else if b = 0x62 then some 8 else if b = 0x66 then some 12
  else if b = 0x6E then some 10 else if b = 0x72 then some 13 else if b = 0x74 then some 9
  else if b = 0x76 then some 11 else if b = 0x5C then some 0x5C else if b = 0x22 then some 0x22
  else none

/-- Reading a string literal of Go from after its first quote: the bytes it means, if it is one. -/
def literal : Bytes → Option Bytes
  | [] => none
  | [b] => if b = 0x22 then some [] else none
  | b :: e :: t =>
    if b = 0x22 then none
    else if b = 0x5C then
      if e = 0x78 then
        match t with
        | h :: l :: u => (hexValue h).bind fun x => (hexValue l).bind fun y => (literal u).map (UInt8.ofNat (x * 16 + y) :: ·)
        | _ => none
      else (escape e).bind fun x => (literal t).map (x :: ·)
    else (literal (e :: t)).map (b :: ·)

/-- Reading a string literal of Go. -/
def unquote : Bytes → Option Bytes
  | b :: t => if b = 0x22 then literal t else none
  | [] => none

end Spec

/-- How a byte is quoted. -/
def quotedAs (b : UInt8) : Bytes → Prop
  | [x] => x = b ∧ b ≠ 0x22 ∧ b ≠ 0x5C
  | [x, e] => x = 0x5C ∧ e ≠ 0x78 ∧ Spec.escape e = some b
  | [x, e, h, l] => x = 0x5C ∧ e = 0x78 ∧ (Spec.hexValue h).isSome ∧ (Spec.hexValue l).isSome ∧
      UInt8.ofNat ((Spec.hexValue h).getD 0 * 16 + (Spec.hexValue l).getD 0) = b
  | _ => False

instance (b : UInt8) (l : Bytes) : Decidable (quotedAs b l) := by
  unfold quotedAs
  split <;> infer_instance

theorem quoteByte_as (b : UInt8) : quotedAs b (quoteByte b) := by
  have h : ∀ n : Fin 256, quotedAs (UInt8.ofNat n.val) (quoteByte (UInt8.ofNat n.val)) := by decide +kernel
  have := h ⟨b.toNat, b.toNat_lt⟩
  simpa using this

theorem literal_quoteByte (b : UInt8) (t : Bytes) (ht : t ≠ []) :
    Spec.literal (quoteByte b ++ t) = (Spec.literal t).map (b :: ·) := by
  have h := quoteByte_as b
  generalize quoteByte b = q at h
  unfold quotedAs at h
  split at h
  · obtain ⟨rfl, h1, h2⟩ := h
    obtain ⟨e, u, rfl⟩ := List.exists_cons_of_ne_nil ht
    rcases u with _ | ⟨x, _ | ⟨y, u⟩⟩ <;> simp [Spec.literal, h1, h2]
  · obtain ⟨rfl, h1, h2⟩ := h
    show Spec.literal (0x5C :: _ :: t) = _
    rcases t with _ | ⟨x, _ | ⟨y, u⟩⟩ <;> simp [Spec.literal, h1, h2]
  · obtain ⟨rfl, rfl, h1, h2, h3⟩ := h
    obtain ⟨x, h1⟩ := Option.isSome_iff_exists.mp h1
    obtain ⟨y, h2⟩ := Option.isSome_iff_exists.mp h2
    rw [h1, h2] at h3
    show Spec.literal (0x5C :: 0x78 :: _ :: _ :: t) = _
    rw [Spec.literal, if_neg (by decide), if_pos rfl, if_pos rfl]
    simp only [h1, h2, Option.bind_some]
    rw [← h3]
    rfl
  · exact h.elim

/-- **C118**: controls are quoted so that they can be read back: what is printed is a string
literal of Go that means the same bytes, whatever they are. -/
theorem quote_read (s : Bytes) : Spec.unquote (quote s) = some s := by
  unfold quote Spec.unquote
  simp only [if_true]
  induction s with
  | nil => rfl
  | cons b s ih =>
    rw [List.flatMap_cons, List.append_assoc, literal_quoteByte b _ (by simp), ih]
    rfl

example : quote [0x1B, 0x22, 0x5C, 0x6D] = ascii "\"\\x1b\\\"\\\\m\"" := by decide +kernel

end Anansi.Pal
