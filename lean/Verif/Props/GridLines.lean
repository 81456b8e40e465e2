import Verif.Model.GridLines
import Verif.Props.Stream
import Verif.Props.SgrMeaning
import Verif.Props.Grid
import Verif.Lemmas.SgrOver
/-
C100: a grid written as lines of text is read back as the same grid.
-/
set_option autoImplicit false

namespace Anansi.Gln
open Sgr Geom Vt

namespace Spec

/-- A part of a line: a character, or a change of the rendition. -/
inductive Bit
  | rune (r : Nat)
  | sgr (s : Style)

/-- Its bytes. -/
def Bit.bytes : Bit → Bytes
  | .rune r => encodeRune r
  | .sgr s => append s.build

/-- The characters of cells: all but the control characters; zero, "nothing drawn", may be
written too. -/
def cellRune (r : Nat) : Prop := validRune r = true ∧ (r = 0 ∨ (0x20 ≤ r ∧ r ≠ 0x7F ∧ ¬ (0x80 ≤ r ∧ r < 0xA0)))
instance (r : Nat) : Decidable (cellRune r) := by unfold cellRune; infer_instance

/-- What lines may be made of: such characters, and renditions other than the concealed one, which
`DecodeSGR` does not know, and the empty one, which is written like `clear`. -/
def Bit.Ok : Bit → Prop
  | .rune r => cellRune r
  | .sgr s => s ≠ {} ∧ s.conceal = false

/-- The cells of a line and the rendition after it. -/
def cellsOf : Style → List Bit → List (Nat × Style) × Style
  | u, [] => ([], u)
  | u, .rune r :: t => ((r, u) :: (cellsOf u t).1, (cellsOf u t).2)
  | u, .sgr s :: t => cellsOf (s.over u) t

/-- A cell as it is stored. -/
def cell (c : Nat × Style) : Cell := ⟨c.1, c.2.build⟩

/-- What a terminal prints for operations that print or change the rendition, and the
rendition afterwards. -/
def printed : Style → List Op → Option (List Glyph × Style)
  | u, [] => some ([], u)
  | u, .put r :: t => (printed u t).map fun p => (⟨r, u⟩ :: p.1, p.2)
  | u, .sgr ps :: t => printed (rendition ps u) t
  | _, _ :: _ => none

/-- What is printed for lines, one after the other. -/
def printedRows : Style → List (List Op) → Option (List (List Glyph))
  | _, [] => some []
  | u, l :: t => (printed u l).bind fun p => (printedRows p.2 t).map fun q => p.1 :: q

end Spec
open Spec

/-! ### Reading -/

theorem parse_fuel (n : Nat) : ∀ (m k : Nat) (u : Attr) (b : Bytes), b.length ≤ n → b.length ≤ m → b.length ≤ k →
    parseAux m u b = parseAux k u b := by
  induction n with
  | zero =>
    intro m k u b hn _ _
    have : b = [] := List.length_eq_zero_iff.mp (by omega)
    subst this
    cases m <;> cases k <;> simp [parseAux]
  | succ n ih =>
    intro m k u b hn hm hk
    by_cases hb : b = []
    · subst hb; cases m <;> cases k <;> simp [parseAux]
    · have hp : 0 < b.length := List.length_pos_iff.mpr hb
      obtain ⟨m, rfl⟩ : ∃ m', m = m' + 1 := ⟨m - 1, by omega⟩
      obtain ⟨k, rfl⟩ : ∃ k', k = k' + 1 := ⟨k - 1, by omega⟩
      obtain ⟨h1, h2, h3, h4⟩ := decodeEscape_progress b hb
      rw [parseAux, parseAux, if_neg hb, if_neg hb]
      simp only
      have l1 : ((decodeEscape b).buf.drop (decodeEscape b).n).length = b.length - (decodeEscape b).n := by
        rw [List.length_drop, h1]
      split
      · rename_i he
        split
        · have := h3 (by rw [he]; decide)
          exact ih _ _ _ _ (by omega) (by omega) (by omega)
        · rfl
      · split
        · split
          · rfl
          · rw [ih m k]
            · rw [List.length_drop]; omega
            · rw [List.length_drop]; omega
            · rw [List.length_drop]; omega
        · rfl

/-- The loop of `parseGridLine`, without a count of iterations. -/
theorem parse_eq (u : Attr) (b : Bytes) (hb : b ≠ []) : parseLine u b =
    (let d := decodeEscape b
     let q := d.buf.drop d.n
     if d.e = SGR then
       if (decode d.arg).err = none then parseLine (merge u (decode d.arg).val) q else none
     else if d.e = 0 then
       if (decodeRune q).1 ≠ 0 ∧ isControl (decodeRune q).1 then none
       else (parseLine u (q.drop (decodeRune q).2)).map fun t => (⟨(decodeRune q).1, u⟩ :: t.1, t.2)
     else none) := by
  have hp : 0 < b.length := List.length_pos_iff.mpr hb
  obtain ⟨h1, h2, h3, h4⟩ := decodeEscape_progress b hb
  have l1 : ((decodeEscape b).buf.drop (decodeEscape b).n).length = b.length - (decodeEscape b).n := by
    rw [List.length_drop, h1]
  obtain ⟨n, hn⟩ : ∃ n, b.length = n + 1 := ⟨b.length - 1, by omega⟩
  unfold parseLine
  rw [hn, parseAux, if_neg hb]
  simp only
  split
  · rename_i he
    split
    · have := h3 (by rw [he]; decide)
      exact parse_fuel n _ _ _ _ (by omega) (by omega) (by omega)
    · rfl
  · split
    · split
      · rfl
      · rw [parse_fuel n n]
        · rw [List.length_drop]; omega
        · rw [List.length_drop]; omega
        · exact le_refl _
    · rfl

theorem parse_nil (u : Attr) : parseLine u [] = some ([], u) := rfl

theorem decode_plain {r : Nat} (h : plainRune r) (rest : Bytes) :
    encodeRune r ++ rest ≠ [] ∧ decodeEscape (encodeRune r ++ rest) = ⟨0, [], 0, encodeRune r ++ rest⟩ := by
  have ⟨hv, h1, h2⟩ := plain_intro h
  have hd := decodeRune_encodeRune r hv rest
  have hne : encodeRune r ++ rest ≠ [] := by
    have := encodeRune_length_pos r
    intro h; rw [(List.append_eq_nil_iff.mp h).1] at this; simp at this
  have ha : ansiDecodeRune (encodeRune r ++ rest) = (r, (encodeRune r).length) :=
    ansiDecodeRune_not_esc hd h1
  have hhead : (encodeRune r ++ rest).head? ≠ some 0x1B := by
    intro h; rw [head_esc_decode h] at hd; simp at hd; exact h1 hd.1.symm
  refine ⟨hne, ?_⟩
  unfold introducer at h2
  unfold decodeEscape
  rw [ha]
  simp only
  rw [if_neg h1, if_neg (by omega), if_neg (by omega)]
  unfold decodeEscapeNone; rw [if_neg hhead]

theorem parse_rune (u : Attr) {r : Nat} (h : plainRune r) (rest : Bytes) :
    parseLine u (encodeRune r ++ rest) =
      if r ≠ 0 ∧ isControl r then none else (parseLine u rest).map fun t => (⟨r, u⟩ :: t.1, t.2) := by
  obtain ⟨h1, h2⟩ := decode_plain h rest
  rw [parse_eq u _ h1, h2]
  have hd := decodeRune_encodeRune r h.1 rest
  simp only [List.drop_zero, hd, List.drop_left]
  rw [if_neg (by decide)]
  rfl

theorem parse_sgr (u s : Style) (h1 : s ≠ {}) (h2 : s.conceal = false) (rest : Bytes) :
    parseLine u.build (append s.build ++ rest) = parseLine (s.over u).build rest := by
  obtain ⟨arg, e1, e2⟩ := sgr_roundtrip_partial s h2 rest
  have hne : append s.build ++ rest ≠ [] := by
    obtain ⟨a, _, e⟩ := sgr_frame s
    rw [e]; simp
  rw [parse_eq _ _ hne, e1]
  rw [if_neg h1] at e2
  simp only [if_true, e2, List.drop_left, merge_over]

theorem cell_plain {r : Nat} (h : cellRune r) : plainRune r ∧ ¬ (r ≠ 0 ∧ isControl r) := by
  obtain ⟨h1, h2⟩ := h
  refine ⟨⟨h1, ?_⟩, ?_⟩
  · unfold startsEscape; omega
  · unfold isControl
    simp only [Bool.or_eq_true, Bool.and_eq_true, decide_eq_true_eq]; omega

/-- **C100**: a line made of characters and SGR sequences, whatever follows, is read as the cells
it shows. -/
theorem line_read (l : List Bit) (hl : ∀ b ∈ l, b.Ok) : ∀ (u : Style) (rest : Bytes),
    parseLine u.build (l.flatMap Bit.bytes ++ rest) =
      (parseLine (cellsOf u l).2.build rest).map fun t => ((cellsOf u l).1.map cell ++ t.1, t.2) := by
  induction l with
  | nil => intro u rest; simp [cellsOf]
  | cons b l ih =>
    intro u rest
    have ih := ih fun c hc => hl c (List.mem_cons_of_mem _ hc)
    have hb := hl b List.mem_cons_self
    rw [List.flatMap_cons, List.append_assoc]
    cases b with
    | rune r =>
      obtain ⟨h1, h2⟩ := cell_plain hb
      rw [show (Bit.rune r).bytes = encodeRune r from rfl, parse_rune _ h1, if_neg h2, ih]
      simp [cellsOf, cell, Option.map_map, Function.comp_def]
    | sgr s =>
      rw [show (Bit.sgr s).bytes = append s.build from rfl, parse_sgr u s hb.1 hb.2, ih]
      rfl

/-- Two bold letters, and a green one on the default background. -/
example : ∀ b ∈ [Bit.sgr { bold := true }, .rune 0x41, .rune 0x42, .sgr { clear := true, fg := some (.indexed 2) }, .rune 0x43],
    b.Ok := by simp [Bit.Ok]; decide
example : parseLine 0 ([Bit.sgr { bold := true }, .rune 0x41, .rune 0x42,
      .sgr { clear := true, fg := some (.indexed 2) }, .rune 0x43].flatMap Bit.bytes) =
    some ([⟨0x41, Sgr.bold⟩, ⟨0x42, Sgr.bold⟩, ⟨0x43, ({ fg := some (.indexed 2) } : Style).build⟩],
      ({ fg := some (.indexed 2) } : Style).build) := by decide +kernel

/-- **C100**: a line with a control character other than NUL in it is not cellsOf, whatever is around. -/
theorem control_panics (l : List Bit) (hl : ∀ b ∈ l, b.Ok) (u : Style) (r : Nat) (hr : 0 < r)
    (hc : r < 0x20 ∨ (0x7F ≤ r ∧ r < 0xA0)) (he : ¬ startsEscape r) (rest : Bytes) :
    parseLine u.build (l.flatMap Bit.bytes ++ (encodeRune r ++ rest)) = none := by
  rw [line_read l hl, parse_rune _ ⟨by unfold validRune; simp; omega, he⟩, if_pos]
  · rfl
  · refine ⟨by omega, ?_⟩
    unfold isControl
    simp only [Bool.or_eq_true, Bool.and_eq_true, decide_eq_true_eq]; omega

example : (0x0A : Nat) < 0x20 ∧ ¬ startsEscape 0x0A := by decide

/-- **C100**: nor is a line with a control sequence other than SGR in it. -/
theorem escape_panics (l : List Bit) (hl : ∀ b ∈ l, b.Ok) (u : Style) (f : UInt8) (arg : Bytes)
    (hf : 0x40 ≤ f.toNat ∧ f.toNat ≤ 0x7E) (hm : f ≠ 0x6D) (ha : ∀ b ∈ arg, 0x20 ≤ b.toNat ∧ b.toNat ≤ 0x3F)
    (rest : Bytes) :
    parseLine u.build (l.flatMap Bit.bytes ++ (0x1B :: 0x5B :: (arg ++ f :: rest))) = none := by
  rw [line_read l hl, parse_eq _ _ (by simp), decodeEscape_csi arg f rest ha hf]
  have h1 : csiId f ≠ SGR := by
    unfold SGR csiId
    intro h
    apply hm
    have : f.toNat = 0x6D := by have e : (0x6D : UInt8).toNat = 0x6D := rfl; omega
    exact UInt8.toNat_inj.mp this
  have h2 : csiId f ≠ 0 := by unfold csiId; omega
  simp only [if_neg h1, if_neg h2]
  rfl

/-! ### Writing -/

/-- The bits of a row of cells, and the rendition after it. -/
def bits (fill : Nat) : Style → List (Nat × Style) → List Bit
  | _, [] => []
  | u, c :: t =>
    (if c.2 ≠ u then [.sgr (u.delta c.2)] else []) ++ .rune (if c.1 = 0 then fill else c.1) :: bits fill c.2 t

def lastStyle : Style → List (Nat × Style) → Style
  | u, [] => u
  | _, c :: t => lastStyle c.2 t

/-- A cell as it is written. -/
def Spec.filled (fill : Nat) (c : Nat × Style) : Nat × Style := (if c.1 = 0 then fill else c.1, c.2)

theorem build_inj {u v : Style} (hu : u.clear = false) (hv : v.clear = false) (h : u.build = v.build) : u = v := by
  have h1 := diff_delta u v hv
  rw [← h, sgr_diff_self u hu] at h1
  have h2 := build_eq_zero h1.symm
  have hd := delta_over u v hu hv
  rw [h2] at hd
  rw [← hd]
  obtain ⟨c, b, d, i, n, k, m, f, g⟩ := u
  simp only at hu; subst hu
  cases f <;> cases g <;> simp [Style.over]

theorem delta_ne {u v : Style} (hu : u.clear = false) (hv : v.clear = false) (h : v ≠ u) : u.delta v ≠ {} := by
  intro h2
  have hd := delta_over u v hu hv
  rw [h2] at hd
  apply h
  rw [← hd]
  obtain ⟨c, b, d, i, n, k, m, f, g⟩ := u
  simp only at hu; subst hu
  cases f <;> cases g <;> simp [Style.over]

theorem delta_conceal {u v : Style} (h : v.conceal = false) : (u.delta v).conceal = false := by
  unfold Style.delta
  split <;> simp [h]

theorem read_bits (fill : Nat) (row : List (Nat × Style)) : ∀ (u : Style), u.clear = false →
    (∀ c ∈ row, c.2.clear = false) → cellsOf u (bits fill u row) = (row.map (filled fill), lastStyle u row) := by
  induction row with
  | nil => intro u _ _; rfl
  | cons c t ih =>
    intro u hu h
    have hc := h c List.mem_cons_self
    have ih := ih c.2 hc fun d hd => h d (List.mem_cons_of_mem _ hd)
    by_cases he : c.2 = u
    · simp only [bits, ne_eq, he, not_true_eq_false, if_false, List.nil_append, cellsOf, lastStyle, List.map_cons, filled]
      rw [he] at ih
      rw [ih]
    · simp only [bits, ne_eq, he, not_false_eq_true, if_true, List.cons_append, List.nil_append, cellsOf, lastStyle,
        List.map_cons, filled, delta_over u c.2 hu hc, ih]

theorem bits_ok (fill : Nat) (hf : cellRune fill) (row : List (Nat × Style)) : ∀ (u : Style), u.clear = false →
    (∀ c ∈ row, c.2.clear = false ∧ c.2.conceal = false ∧ cellRune c.1) → ∀ b ∈ bits fill u row, b.Ok := by
  induction row with
  | nil => intro u _ _ b hb; simp [bits] at hb
  | cons c t ih =>
    intro u hu h b hb
    obtain ⟨h1, h2, h3⟩ := h c List.mem_cons_self
    simp only [bits, List.mem_append, List.mem_cons] at hb
    rcases hb with hb | rfl | hb
    · split at hb
      · rename_i he
        simp only [List.mem_singleton] at hb
        subst hb
        exact ⟨delta_ne hu h1 he, delta_conceal h2⟩
      · simp at hb
    · show cellRune _
      split
      · exact hf
      · exact h3
    · exact ih c.2 h1 (fun d hd => h d (List.mem_cons_of_mem _ hd)) b hb

theorem lineLoop_bits (g : Grid) (fill : Nat) (row : List (Nat × Style)) : ∀ (i : Nat) (u : Style), u.clear = false →
    (∀ c ∈ row, c.2.clear = false) → i + row.length ≤ g.len →
    (∀ a, (h : a < row.length) → g.cells[i + a]? = some (cell row[a])) →
    lineLoop g fill row.length i u.build = some ((bits fill u row).flatMap Bit.bytes, (lastStyle u row).build) := by
  induction row with
  | nil => intro i u _ _ _ _; rfl
  | cons c t ih =>
    intro i u hu h hl hg
    have hc := h c List.mem_cons_self
    rw [List.length_cons] at hl
    have h0 := hg 0 (by simp)
    simp only [Nat.add_zero, List.getElem_cons_zero] at h0
    have ih := ih (i + 1) c.2 hc (fun d hd => h d (List.mem_cons_of_mem _ hd)) (by omega) (fun a ha => by
      have := hg (a + 1) (by simpa using ha)
      rw [show i + 1 + a = i + (a + 1) by omega, this]; simp)
    rw [List.length_cons, lineLoop, if_pos (by omega), h0]
    simp only [Option.bind_some]
    by_cases he : c.2 = u
    · have e1 : ¬ ((cell c).attr ≠ u.build) := by simp [cell, he]
      rw [if_neg e1]
      simp only [he] at ih
      simp only [ih, Option.map_some, bits, he, ne_eq, not_true_eq_false, if_false, List.nil_append, List.flatMap_cons,
        lastStyle, Bit.bytes]
      rfl
    · have e1 : (cell c).attr ≠ u.build := fun e => he (build_inj hc hu e)
      have e2 : diff u.build (cell c).attr = (u.delta c.2).build := diff_delta u c.2 hc
      rw [if_pos e1]
      simp only [e2, merge_over, delta_over u c.2 hu hc, ih, Option.map_some, bits, ne_eq, he, not_false_eq_true, if_true,
        List.cons_append, List.nil_append, List.flatMap_cons, lastStyle, Bit.bytes, List.append_assoc]
      rfl

def rowsText (fill : Nat) : Style → List (List (Nat × Style)) → List Bytes
  | _, [] => []
  | u, row :: t => (bits fill u row).flatMap Bit.bytes :: rowsText fill (lastStyle u row) t

theorem lastStyle_clear (row : List (Nat × Style)) : ∀ u : Style, u.clear = false → (∀ c ∈ row, c.2.clear = false) →
    (lastStyle u row).clear = false := by
  induction row with
  | nil => intro u hu _; exact hu
  | cons c t ih => intro u _ h; exact ih c.2 (h c List.mem_cons_self) fun d hd => h d (List.mem_cons_of_mem _ hd)

/-- The grid's bounds are `w` columns and `h` rows, and the cell in column `a` of row `b` is
`c a b`. -/
structure Spec.Holds (g : Grid) (w h : Nat) (c : Nat → Nat → Nat × Style) : Prop where
  size : size g.rect = ⟨w, h⟩
  shows : ∀ a b, a < w → b < h → g.Shows (g.at_ a b) (cell (c a b))

def row (w : Nat) (c : Nat → Nat → Nat × Style) (b : Nat) : List (Nat × Style) := (List.range w).map (c · b)

theorem row_length (w : Nat) (c : Nat → Nat → Nat × Style) (b : Nat) : (row w c b).length = w := by simp [row]

theorem row_mem {w : Nat} {c : Nat → Nat → Nat × Style} {b : Nat} {x : Nat × Style} (h : x ∈ row w c b) :
    ∃ a, a < w ∧ c a b = x := by
  simpa [row] using h

theorem offset_row {g : Grid} {w h : Nat} {c : Nat → Nat → Nat × Style} (H : Holds g w h c) (hw : 1 ≤ w) {b : Nat} (hb : b < h) :
    ∃ i, g.offset0? ⟨g.rect.min.x, g.rect.min.y + b⟩ = some i ∧ i + w ≤ g.len ∧
      ∀ a, (ha : a < (row w c b).length) → g.cells[i + a]? = some (cell (row w c b)[a]) := by
  obtain ⟨i, h1, h2, h3⟩ := H.shows 0 b (by omega) hb
  have hp : g.at_ 0 b = ⟨g.rect.min.x, g.rect.min.y + b⟩ := by simp [Grid.at_, ptAdd]
  rw [hp] at h1
  have ho : g.offset0? ⟨g.rect.min.x, g.rect.min.y + b⟩ = some i := by unfold Grid.offset0?; rw [h1]; rfl
  have hi : i = (g.rect.min.y + b - 1).toNat * g.stride + (g.rect.min.x - 1).toNat ∧ 1 ≤ g.rect.min.x := by
    unfold Grid.cellOffset? at h1
    split at h1
    · simp at h1
    · split at h1
      · simp at h1
      · rename_i hx
        simp only [Option.some.injEq] at h1
        exact ⟨h1.symm, by simp only at hx; omega⟩
  have key : ∀ a, a < w → i + a < g.len ∧ g.cells[i + a]? = some (cell (c a b)) := by
    intro a ha
    obtain ⟨j, j1, j2, j3⟩ := H.shows a b ha hb
    have hp : g.at_ a b = ⟨g.rect.min.x + a, g.rect.min.y + b⟩ := by simp [Grid.at_, ptAdd]
    rw [hp] at j1
    have hj : j = i + a := by
      unfold Grid.cellOffset? at j1
      split at j1
      · simp at j1
      · split at j1
        · simp at j1
        · simp only [Option.some.injEq] at j1
          rw [← j1, hi.1]
          omega
    rw [← hj]; exact ⟨j2, j3⟩
  refine ⟨i, ho, ?_, ?_⟩
  · have := (key (w - 1) (by omega)).1; omega
  · intro a ha
    rw [row_length] at ha
    rw [(key a ha).2]; simp [row]

theorem lines_text {g : Grid} {w h : Nat} {c : Nat → Nat → Nat × Style} (H : Holds g w h c) (hw : 1 ≤ w) (fill : Nat)
    (hc : ∀ a b, a < w → b < h → (c a b).2.clear = false) : ∀ (k b : Nat) (u : Style), u.clear = false → b + k = h →
    linesLoop g fill k (g.rect.min.y + b) u.build = some (rowsText fill u ((List.range' b k).map (row w c))) := by
  intro k
  induction k with
  | zero => intro b u _ _; rfl
  | succ k ih =>
    intro b u hu hk
    obtain ⟨i, h1, h2, h3⟩ := offset_row H hw (b := b) (by omega)
    have hr : ∀ x ∈ row w c b, x.2.clear = false := by
      intro x hx
      obtain ⟨a, ha, rfl⟩ := row_mem hx
      exact hc a b ha (by omega)
    have hdx : (dx g.rect).toNat = w := by
      have := congrArg Pt.x H.size
      simp only [Geom.size] at this
      unfold dx; omega
    have hl := lineLoop_bits g fill (row w c b) i u hu hr (by rw [row_length]; omega) h3
    rw [row_length] at hl
    rw [linesLoop, h1, hdx]
    simp only [Option.bind_some, hl]
    have := ih (b + 1) (lastStyle u (row w c b)) (lastStyle_clear _ u hu hr) (by omega)
    rw [show g.rect.min.y + (b : Int) + 1 = g.rect.min.y + ((b + 1 : Nat) : Int) by omega, this]
    rw [List.range'_succ]
    rfl

theorem parse_text (fill : Nat) (hf : cellRune fill) (w : Nat) (rows : List (List (Nat × Style))) :
    ∀ (u : Style) (stride : Int) (cs : List Cell), u.clear = false → (stride = -1 ∧ rows ≠ [] ∨ stride = w) →
    (∀ r ∈ rows, r.length = w ∧ ∀ c ∈ r, c.2.clear = false ∧ c.2.conceal = false ∧ cellRune c.1) →
    parseLines u.build stride cs (rowsText fill u rows) =
      some ((w : Int), cs ++ rows.flatten.map fun c => cell (filled fill c)) := by
  induction rows with
  | nil =>
    intro u stride cs _ hs _
    have : stride = w := by simpa using hs
    simp [rowsText, parseLines, this]
  | cons r t ih =>
    intro u stride cs hu hs h
    obtain ⟨h1, h2⟩ := h r List.mem_cons_self
    have hcl : ∀ c ∈ r, c.2.clear = false := fun c hc => (h2 c hc).1
    have hl := line_read (bits fill u r) (bits_ok fill hf r u hu h2) u []
    rw [List.append_nil, read_bits fill r u hu hcl, parse_nil] at hl
    simp only [Option.map_some, List.append_nil] at hl
    rw [rowsText, parseLines, hl]
    simp only [Option.bind_some, List.length_map, h1]
    have ih := ih (lastStyle u r) w (cs ++ (r.map (filled fill)).map cell) (lastStyle_clear r u hu hcl) (Or.inr rfl)
      fun x hx => h x (List.mem_cons_of_mem _ hx)
    rcases hs with ⟨rfl, _⟩ | rfl
    · rw [if_pos (by decide), ih]
      simp [Function.comp_def]
    · rw [if_neg (by omega), if_neg (by simp), ih]
      simp [Function.comp_def]

theorem flat_get (w h : Nat) (c : Nat → Nat → Nat × Style) {a b : Nat} (ha : a < w) (hb : b < h) :
    (((List.range' 0 h).map (row w c)).flatten)[b * w + a]? = some (c a b) := by
  have key : ∀ (k s b : Nat), b < k → (((List.range' s k).map (row w c)).flatten)[b * w + a]? = some (c a (s + b)) := by
    intro k
    induction k with
    | zero => intro s b hb; omega
    | succ k ih =>
      intro s b hb
      rw [List.range'_succ, List.map_cons, List.flatten_cons]
      cases b with
      | zero =>
        rw [Nat.zero_mul, Nat.zero_add, List.getElem?_append_left (by rw [row_length]; exact ha)]
        simp [row, ha]
      | succ b =>
        rw [List.getElem?_append_right (by rw [row_length, Nat.succ_mul]; omega), row_length,
          show (b + 1) * w + a - w = b * w + a by rw [Nat.succ_mul]; omega, ih (s + 1) b (by omega)]
        congr 2; omega
  have := key h 0 b hb
  rwa [Nat.zero_add] at this

theorem flat_length (w h : Nat) (c : Nat → Nat → Nat × Style) :
    ((List.range' 0 h).map (row w c)).flatten.length = h * w := by
  have key : ∀ k s, ((List.range' s k).map (row w c)).flatten.length = k * w := by
    intro k
    induction k with
    | zero => intro s; simp
    | succ k ih =>
      intro s
      rw [List.range'_succ, List.map_cons, List.flatten_cons, List.length_append, ih, row_length, Nat.succ_mul]; omega
  exact key h 0

/-- **C100** (grids of characters, without the concealed rendition: see `conceal_lost`): the lines
that `GridLines` makes of a grid are read back by `ParseGridLines` as a whole grid of the same size
with the same cells, the cells with nothing in them holding the fill character.  The grid may be
a part of another one. -/
theorem lines_roundtrip_partial {g : Grid} {w h : Nat} {c : Nat → Nat → Nat × Style} (H : Holds g w h c) (hw : 1 ≤ w)
    (hh : 1 ≤ h) (fill : Nat) (hf : cellRune fill)
    (hc : ∀ a b, a < w → b < h → (c a b).2.clear = false ∧ (c a b).2.conceal = false ∧ cellRune (c a b).1) :
    ∃ ls g', gridLines g fill = some ls ∧ ls.length = h ∧ parseGrid ls = some g' ∧ g'.Whole (w, h) ∧
      Holds g' w h fun a b => filled fill (c a b) := by
  have hdy : (dy g.rect).toNat = h := by
    have := congrArg Pt.y H.size
    simp only [Geom.size] at this
    unfold dy; omega
  have hl := lines_text H hw fill (fun a b ha hb => (hc a b ha hb).1) h 0 {} rfl (by omega)
  have hp := parse_text fill hf w ((List.range' 0 h).map (row w c)) {} (-1) [] rfl
    (Or.inl ⟨rfl, by simp; omega⟩) (fun r hr => by
      obtain ⟨b, hb, rfl⟩ := List.mem_map.1 hr
      rw [List.mem_range'_1] at hb
      refine ⟨row_length w c b, fun x hx => ?_⟩
      obtain ⟨a, ha, rfl⟩ := row_mem hx
      exact hc a b ha (by omega))
  rw [show (({} : Style).build : Attr) = 0 by decide] at hl hp
  have htl : ∀ (rows : List (List (Nat × Style))) (u : Style), (rowsText fill u rows).length = rows.length := by
    intro rows
    induction rows with
    | nil => intro u; rfl
    | cons r t ih => intro u; simp [rowsText, ih]
  have hlen := flat_length w h c
  refine ⟨rowsText fill {} ((List.range' 0 h).map (row w c)), ⟨⟨⟨1, 1⟩, ⟨1 + w, 1 + h⟩⟩, w, h * w, ((List.range' 0 h).map (row w c)).flatten.map fun c => cell (filled fill c)⟩,
    ?_, ?_, ?_, ⟨?_, ?_, rfl, Or.inl rfl, ?_⟩, ⟨?_, ?_⟩⟩
  · unfold gridLines
    rw [hdy]
    simpa using hl
  · rw [htl]; simp
  · unfold parseGrid
    rw [hp]
    simp only [Option.bind_some, List.nil_append, List.length_map, hlen]
    rw [if_neg (by omega)]
    have hd : (((h * w : Nat) : Int)).tdiv (w : Int) = h := by
      rw [Int.natCast_mul, Int.mul_tdiv_cancel _ (by omega)]
    rw [hd]
    unfold rect
    rw [if_neg (by omega), if_neg (by omega), if_neg (by omega), if_neg (by omega), if_neg (by omega)]
    rfl
  · simp [Geom.size, Grid.sz]
  · exact Nat.mul_comm h w
  · simp only [List.length_map, hlen]; exact le_refl _
  · simp [Geom.size]
  · intro a b ha hb
    have hlt : b * w + a < h * w := by
      calc b * w + a < b * w + w := by omega
        _ = (b + 1) * w := by rw [Nat.succ_mul]
        _ ≤ h * w := Nat.mul_le_mul_right w hb
    refine ⟨b * w + a, ?_, hlt, ?_⟩
    · have := Grid.cellOffset_mk (g := ⟨⟨⟨1, 1⟩, ⟨1 + w, 1 + h⟩⟩, w, h * w, ((List.range' 0 h).map (row w c)).flatten.map fun c => cell (filled fill c)⟩)
        (x := a) (y := b) (by unfold Mem; simp only; omega)
      simp only [Grid.at_, ptAdd] at this ⊢
      rw [show ((1 : Int) + a) = a + 1 by omega, show ((1 : Int) + b) = b + 1 by omega]
      exact this
    · rw [List.getElem?_map, flat_get w h c ha hb]; rfl

/-- A grid of two rows, the middle columns of one of four columns: bold "ab", then nothing and a
green "c". -/
def demoGrid : Grid :=
  ({ rect := ⟨⟨1, 1⟩, ⟨5, 3⟩⟩, stride := 4, len := 8,
     cells := [⟨0x78, 0⟩, ⟨0x61, Sgr.bold⟩, ⟨0x62, Sgr.bold⟩, ⟨0x78, 0⟩, ⟨0x78, 0⟩, ⟨0, 0⟩,
       ⟨0x63, ({ fg := some (.indexed 2) } : Style).build⟩, ⟨0x78, 0⟩] } : Grid).subRect ⟨⟨2, 1⟩, ⟨4, 3⟩⟩
def demoCell (a b : Nat) : Nat × Style :=
  if b = 0 then (if a = 0 then (0x61, { bold := true }) else (0x62, { bold := true }))
  else if a = 0 then (0, {}) else (0x63, { fg := some (.indexed 2) })
theorem demo_holds : Holds demoGrid 2 2 demoCell := by
  refine ⟨by decide, ?_⟩
  intro a b ha hb
  have : (a = 0 ∨ a = 1) ∧ (b = 0 ∨ b = 1) := by omega
  rcases this with ⟨rfl | rfl, rfl | rfl⟩
  · exact ⟨1, by decide +kernel⟩
  · exact ⟨5, by decide +kernel⟩
  · exact ⟨2, by decide +kernel⟩
  · exact ⟨6, by decide +kernel⟩
example : ∀ a < 2, ∀ b < 2, (demoCell a b).2.clear = false ∧ (demoCell a b).2.conceal = false ∧ cellRune (demoCell a b).1 := by
  decide +kernel
example : gridLines demoGrid 0x2E = some [[0x1B, 0x5B, 0x31, 0x6D, 0x61, 0x62],
    [0x1B, 0x5B, 0x30, 0x6D, 0x2E, 0x1B, 0x5B, 0x33, 0x32, 0x6D, 0x63]] := by decide +kernel

/-- **C100**: so grids with the same lines are of the same size and have the same cells, up to
the fill character. -/
theorem lines_faithful_partial {g g' : Grid} {w h w' h' : Nat} {c c' : Nat → Nat → Nat × Style} (H : Holds g w h c)
    (H' : Holds g' w' h' c') (hs : 1 ≤ w ∧ 1 ≤ h) (hs' : 1 ≤ w' ∧ 1 ≤ h') (fill : Nat) (hf : cellRune fill)
    (hc : ∀ a b, a < w → b < h → (c a b).2.clear = false ∧ (c a b).2.conceal = false ∧ cellRune (c a b).1)
    (hc' : ∀ a b, a < w' → b < h' → (c' a b).2.clear = false ∧ (c' a b).2.conceal = false ∧ cellRune (c' a b).1)
    (he : gridLines g fill = gridLines g' fill) :
    w = w' ∧ h = h' ∧ ∀ a b, a < w → b < h → filled fill (c a b) = filled fill (c' a b) := by
  obtain ⟨ls, k, a1, _, a3, _, a5⟩ := lines_roundtrip_partial H hs.1 hs.2 fill hf hc
  obtain ⟨ls', k', b1, _, b3, _, b5⟩ := lines_roundtrip_partial H' hs'.1 hs'.2 fill hf hc'
  rw [he, b1] at a1
  obtain rfl := Option.some.inj a1
  rw [a3] at b3
  obtain rfl := Option.some.inj b3
  have hz := a5.size.symm.trans b5.size
  rw [Pt.mk.injEq] at hz
  have hw : w = w' := by omega
  have hh : h = h' := by omega
  subst hw hh
  refine ⟨rfl, rfl, fun a b ha hb => ?_⟩
  obtain ⟨i, i1, i2, i3⟩ := a5.shows a b ha hb
  obtain ⟨j, j1, j2, j3⟩ := b5.shows a b ha hb
  rw [i1] at j1
  obtain rfl : i = j := by simpa using j1
  rw [i3] at j3
  have := Option.some.inj j3
  unfold cell at this
  rw [Cell.mk.injEq] at this
  exact Prod.ext this.1 (build_inj (hc a b ha hb).1 (hc' a b ha hb).1 this.2)

/-! ### What the lines show -/

theorem rendition_of {ps : List Nat} {s : Style} (h : ∀ t : Term, t.run [.sgr ps] = { t with style := s.over t.style })
    (u : Style) : rendition ps u = s.over u := by
  have := congrArg Term.style (h ⟨1, 1, false, fun _ _ => blank, 0, 0, false, u, true⟩)
  exact this

/-- The glyph of a cell. -/
def Spec.glyph (c : Nat × Style) : Glyph := ⟨c.1, c.2⟩

theorem bits_printed (fill : Nat) (row : List (Nat × Style)) : ∀ u : Style, u.clear = false → (∀ c ∈ row, c.2.clear = false) →
    ∃ ops, (bits fill u row).flatMap Bit.bytes = text ops ∧
      printed u ops = some (row.map fun c => glyph (filled fill c), lastStyle u row) := by
  induction row with
  | nil => intro u _ _; exact ⟨[], rfl, rfl⟩
  | cons c t ih =>
    intro u hu h
    have hc := h c List.mem_cons_self
    obtain ⟨ops, h1, h2⟩ := ih c.2 hc fun d hd => h d (List.mem_cons_of_mem _ hd)
    by_cases he : c.2 = u
    · refine ⟨.put (if c.1 = 0 then fill else c.1) :: ops, ?_, ?_⟩
      · simp only [bits, ne_eq, he, not_true_eq_false, if_false, List.nil_append, List.flatMap_cons, Bit.bytes, text,
          Op.bytes]
        rw [he] at h1
        rw [h1]; rfl
      · rw [he] at h2
        simp only [printed, h2, Option.map_some, List.map_cons, lastStyle, he, glyph, filled]
    · obtain ⟨ps, e1, e2⟩ := sgr_bytes_meaning (u.delta c.2) (delta_ne hu hc he)
      refine ⟨.sgr ps :: .put (if c.1 = 0 then fill else c.1) :: ops, ?_, ?_⟩
      · simp only [bits, ne_eq, he, not_false_eq_true, if_true, List.cons_append, List.nil_append, List.flatMap_cons,
          Bit.bytes, text, h1, e1]
        simp
        rfl
      · simp only [printed, rendition_of e2, delta_over u c.2 hu hc, h2, Option.map_some, List.map_cons, lastStyle,
          glyph, filled]

/-- **C100**: printed on a terminal, the lines show the cells of the grid in their renditions, the
concealed one included; nothing but characters and SGR sequences is in them. -/
theorem lines_printed {g : Grid} {w h : Nat} {c : Nat → Nat → Nat × Style} (H : Holds g w h c) (hw : 1 ≤ w) (fill : Nat)
    (hc : ∀ a b, a < w → b < h → (c a b).2.clear = false) :
    ∃ opss : List (List Op), gridLines g fill = some (opss.map text) ∧
      printedRows {} opss = some ((List.range h).map fun b => (List.range w).map fun a => glyph (filled fill (c a b))) := by
  have hdy : (dy g.rect).toNat = h := by
    have := congrArg Pt.y H.size
    simp only [Geom.size] at this
    unfold dy; omega
  have hl := lines_text H hw fill hc h 0 {} rfl (by omega)
  rw [show (({} : Style).build : Attr) = 0 by decide] at hl
  have key : ∀ (k s : Nat) (u : Style), u.clear = false → s + k = h →
      ∃ opss : List (List Op), rowsText fill u ((List.range' s k).map (row w c)) = opss.map text ∧
        printedRows u opss = some ((List.range' s k).map fun b => (List.range w).map fun a => glyph (filled fill (c a b))) := by
    intro k
    induction k with
    | zero => intro s u _ _; exact ⟨[], rfl, rfl⟩
    | succ k ih =>
      intro s u hu hk
      have hr : ∀ x ∈ row w c s, x.2.clear = false := by
        intro x hx
        obtain ⟨a, ha, rfl⟩ := row_mem hx
        exact hc a s ha (by omega)
      obtain ⟨ops, h1, h2⟩ := bits_printed fill (row w c s) u hu hr
      obtain ⟨opss, h3, h4⟩ := ih (s + 1) (lastStyle u (row w c s)) (lastStyle_clear _ u hu hr) (by omega)
      refine ⟨ops :: opss, ?_, ?_⟩
      · rw [List.range'_succ, List.map_cons, rowsText, h1, h3, List.map_cons]
      · rw [printedRows, h2, List.range'_succ]
        simp only [Option.bind_some, h4, Option.map_some, List.map_cons]
        simp [row, Function.comp_def]
  obtain ⟨opss, h1, h2⟩ := key h 0 {} rfl (by omega)
  refine ⟨opss, ?_, by rw [h2, ← List.range_eq_range']⟩
  unfold gridLines
  rw [hdy, ← h1]
  simpa using hl

/-- `AttrsToCtls` shows its attributes: a space in each one, after a reset. -/
theorem ctls_printed (rows : List (List Style)) (hne : rows ≠ []) (hc : ∀ r ∈ rows, ∀ s ∈ r, s.clear = false) (u : Style) :
    ∃ opss : List (List Op), attrsToCtls (rows.map (·.map Style.build)) = opss.map text ∧
      printedRows u opss = some (rows.map (·.map fun s => ⟨0x20, s⟩)) := by
  have hrow : ∀ (r : List Style) (u : Style), u.clear = false → (∀ s ∈ r, s.clear = false) →
      ∃ (ops : List Op) (v : Style), v.clear = false ∧ ctlsRow u.build (r.map Style.build) = (text ops, v.build) ∧
        printed u ops = some (r.map fun s => ⟨0x20, s⟩, v) := by
    intro r
    induction r with
    | nil => intro u hu _; exact ⟨[], u, hu, rfl, rfl⟩
    | cons s t ih =>
      intro u hu h
      have hs := h s List.mem_cons_self
      obtain ⟨ops, v, h1, h2, h3⟩ := ih s hs fun d hd => h d (List.mem_cons_of_mem _ hd)
      by_cases he : s = u
      · refine ⟨.put 0x20 :: ops, v, h1, ?_, ?_⟩
        · rw [List.map_cons, ctlsRow, he, sgr_diff_self u hu]
          rw [he] at h2
          simp only [ne_eq, not_true_eq_false, if_false, h2]
          rfl
        · rw [he] at h3
          simp only [printed, h3, he, Option.map_some, List.map_cons]
      · obtain ⟨ps, e1, e2⟩ := sgr_bytes_meaning (u.delta s) (delta_ne hu hs he)
        have hd : diff u.build s.build ≠ 0 := by
          rw [diff_delta u s hs]; exact fun e => delta_ne hu hs he (build_eq_zero e)
        refine ⟨.sgr ps :: .put 0x20 :: ops, v, h1, ?_, ?_⟩
        · rw [List.map_cons, ctlsRow]
          rw [diff_delta u s hs] at hd
          simp only [diff_delta u s hs, merge_over, delta_over u s hu hs]
          rw [if_pos hd, if_pos hd, h2, e1, text_one]
          simp only [text, List.flatMap_cons]
          rfl
        · simp only [printed, rendition_of e2, delta_over u s hu hs, h3, Option.map_some, List.map_cons]
  have hrest : ∀ (rows : List (List Style)) (u : Style), u.clear = false → (∀ r ∈ rows, ∀ s ∈ r, s.clear = false) →
      ∃ opss : List (List Op), ctlsRows [] u.build (rows.map (·.map Style.build)) = opss.map text ∧
        printedRows u opss = some (rows.map (·.map fun s => ⟨0x20, s⟩)) := by
    intro rows
    induction rows with
    | nil => intro u _ _; exact ⟨[], rfl, rfl⟩
    | cons r t ih =>
      intro u hu h
      obtain ⟨ops, v, h1, h2, h3⟩ := hrow r u hu (h r List.mem_cons_self)
      obtain ⟨opss, h4, h5⟩ := ih v h1 fun x hx => h x (List.mem_cons_of_mem _ hx)
      refine ⟨ops :: opss, ?_, ?_⟩
      · rw [List.map_cons, ctlsRows, h2]
        simp only [h4, List.nil_append, List.map_cons]
      · simp only [printedRows, h3, Option.bind_some, h5, Option.map_some, List.map_cons]
  cases rows with
  | nil => exact absurd rfl hne
  | cons r t =>
    obtain ⟨ops, v, h1, h2, h3⟩ := hrow r {} rfl (hc r List.mem_cons_self)
    obtain ⟨opss, h4, h5⟩ := hrest t v h1 fun x hx => hc x (List.mem_cons_of_mem _ hx)
    rw [show (({} : Style).build : Attr) = 0 by decide] at h2
    refine ⟨(.sgr [0] :: ops) :: opss, ?_, ?_⟩
    · unfold attrsToCtls
      rw [List.map_cons, ctlsRows, h2]
      simp only [h4, List.map_cons]
      rw [show append (0 : Attr) = text [.sgr [0]] by decide +kernel, ← text_append]
      rfl
    · have e : rendition [0] u = {} := by simp [rendition, rend]
      simp only [printedRows, printed, e, h3, Option.bind_some, h5, Option.map_some, List.map_cons]

example : attrsToCtls [[Sgr.bold, Sgr.bold], [0]] =
    [[0x1B, 0x5B, 0x30, 0x6D, 0x1B, 0x5B, 0x31, 0x6D, 0x20, 0x20], [0x1B, 0x5B, 0x30, 0x6D, 0x20]] := by decide +kernel

/-! ### Where the functions fail -/

/-- No lines cannot be read, nor can lines without cells: `ParseGridLines` panics (a rectangle
with a negative width, a division by zero). -/
theorem empty_panics : parseGrid [] = none ∧ ∀ n, parseGrid (List.replicate (n + 1) []) = none := by
  refine ⟨by decide, fun n => ?_⟩
  have : ∀ n, parseLines 0 0 [] (List.replicate n []) = some (0, []) := by
    intro n
    induction n with
    | zero => rfl
    | succ n ih => rw [List.replicate_succ, parseLines, parse_nil]; simpa using ih
  unfold parseGrid
  rw [List.replicate_succ, parseLines, parse_nil]
  simp only [Option.bind_some, List.length_nil, List.append_nil]
  rw [if_pos (by decide), show ((0 : Nat) : Int) = 0 from rfl, this]
  rfl

/-- Lines of different lengths cannot be read. -/
theorem ragged_panics (l l' : List Bit) (hl : ∀ b ∈ l, b.Ok) (hl' : ∀ b ∈ l', b.Ok)
    (hn : (cellsOf {} l).1.length ≠ (cellsOf (cellsOf {} l).2 l').1.length) (rest : List Bytes) :
    parseGrid (l.flatMap Bit.bytes :: l'.flatMap Bit.bytes :: rest) = none := by
  have h1 := line_read l hl {} []
  have h2 := line_read l' hl' (cellsOf {} l).2 []
  rw [List.append_nil, parse_nil] at h1 h2
  rw [show (({} : Style).build : Attr) = 0 by decide] at h1
  unfold parseGrid
  rw [parseLines, h1]
  simp only [Option.map_some, Option.bind_some, List.append_nil, List.length_map]
  rw [if_pos (by decide), parseLines, h2]
  simp only [Option.map_some, Option.bind_some, List.append_nil, List.length_map]
  rw [if_neg (by omega), if_pos (by omega)]
  rfl

example : (cellsOf {} [.rune 0x41]).1.length ≠ (cellsOf (cellsOf {} [.rune 0x41]).2 [.rune 0x41, .rune 0x42]).1.length := by
  decide

/-- The concealed rendition is lost. -/
theorem conceal_lost : ∃ g ls g', Holds g 1 1 (fun _ _ => (0x41, { conceal := true })) ∧ gridLines g 0x2E = some ls ∧
    parseGrid ls = some g' ∧ ¬ Holds g' 1 1 (fun _ _ => (0x41, { conceal := true })) := by
  refine ⟨⟨⟨⟨1, 1⟩, ⟨2, 2⟩⟩, 1, 1, [⟨0x41, Sgr.conceal⟩]⟩, _, ⟨⟨⟨1, 1⟩, ⟨2, 2⟩⟩, 1, 1, [⟨0x41, 0⟩]⟩, ⟨by decide, ?_⟩, rfl,
    by decide +kernel, ?_⟩
  · intro a b ha hb
    obtain rfl : a = 0 := by omega
    obtain rfl : b = 0 := by omega
    exact ⟨0, by decide +kernel⟩
  · intro H
    obtain ⟨i, h1, h2, h3⟩ := H.shows 0 0 (by omega) (by omega)
    obtain rfl : i = 0 := by simpa using h2
    revert h3
    decide +kernel

/-- A cell with the character U+009B is written as the beginning of a control sequence, which
swallows what follows. -/
theorem c1_cells_lost : ∃ g ls, Holds g 2 1 (fun a _ => (if a = 0 then 0x9B else 0x6D, {})) ∧ gridLines g 0x2E = some ls ∧
    parseGrid ls = none := by
  refine ⟨⟨⟨⟨1, 1⟩, ⟨3, 2⟩⟩, 2, 2, [⟨0x9B, 0⟩, ⟨0x6D, 0⟩]⟩, _, ⟨by decide, ?_⟩, rfl, by decide +kernel⟩
  intro a b ha hb
  obtain rfl : b = 0 := by omega
  have : a = 0 ∨ a = 1 := by omega
  rcases this with rfl | rfl
  · exact ⟨0, by decide +kernel⟩
  · exact ⟨1, by decide +kernel⟩

/-! ### Rows -/

theorem rows_loop (g : Grid) (i : Nat) : ∀ n,
    i + n * g.stride ≤ g.cells.length →
    rowsLoop g n i = some ((List.range n).map fun b => (g.cells.drop (i + b * g.stride)).take g.stride) := by
  intro n
  induction n generalizing i with
  | zero => intro _; rfl
  | succ n ih =>
    intro h
    rw [Nat.succ_mul] at h
    rw [rowsLoop, if_pos (by omega), ih (i + g.stride) (by omega)]
    rw [List.range_succ_eq_map]
    simp only [Option.map_some, List.map_cons, List.map_map, Nat.zero_mul, Nat.add_zero]
    congr 2
    apply List.map_congr_left
    intro b _
    simp only [Function.comp, Nat.succ_mul]
    rw [show i + g.stride + b * g.stride = i + (b * g.stride + g.stride) by omega]

/-- **C100** (grids as wide as their store: see `sub_rows_overrun`): `GridRowData` gives the rows. -/
theorem rows_partial {g : Grid} {w h : Nat} {c : Nat → Nat → Nat × Style} (H : Holds g w h c) (hw : 1 ≤ w) (hh : 1 ≤ h)
    (hs : g.stride = w) :
    gridRows g = some ((List.range h).map fun b => (List.range w).map fun a => cell (c a b)) := by
  have hdy : (dy g.rect).toNat = h := by
    have := congrArg Pt.y H.size
    simp only [Geom.size] at this
    unfold dy; omega
  have hof : ∀ b, b < h → ∃ i, g.cellOffset? ⟨g.rect.min.x, g.rect.min.y + b⟩ = some (some i) := by
    intro b hb
    obtain ⟨i, h1, _⟩ := H.shows 0 b (by omega) hb
    exact ⟨i, by simpa [Grid.at_, ptAdd] using h1⟩
  obtain ⟨i0, o1, o2, o3⟩ := offset_row H hw (b := 0) (by omega)
  have hrow : ∀ b, b < h → g.offset0? ⟨g.rect.min.x, g.rect.min.y + b⟩ = some (i0 + b * w) := by
    intro b hb
    obtain ⟨i, e⟩ := hof b hb
    obtain ⟨j, e0⟩ := hof 0 (by omega)
    have ej : j = i0 := by
      unfold Grid.offset0? at o1
      rw [e0] at o1
      simpa using o1
    have val : ∀ b i, g.cellOffset? ⟨g.rect.min.x, g.rect.min.y + (b : Nat)⟩ = some (some i) →
        i = (g.rect.min.y + b - 1).toNat * w + (g.rect.min.x - 1).toNat ∧ 1 ≤ g.rect.min.y + b := by
      intro b i h1
      unfold Grid.cellOffset? at h1
      split at h1
      · simp at h1
      · split at h1
        · simp at h1
        · rename_i hx
          simp only [Option.some.injEq] at h1
          simp only at hx
          rw [← h1, hs]
          exact ⟨rfl, by omega⟩
    have v1 := val b i e
    have v0 := val 0 j e0
    unfold Grid.offset0?
    rw [e]
    simp only [Option.map_some, Option.getD_some, Option.some.injEq]
    have hn : (g.rect.min.y + (b : Nat) - 1).toNat = (g.rect.min.y + (0 : Nat) - 1).toNat + b := by omega
    rw [v1.1, ← ej, v0.1, hn, Nat.add_mul]
    omega
  obtain ⟨i, p1, p2, p3⟩ := offset_row H hw (b := h - 1) (by omega)
  rw [hrow (h - 1) (by omega)] at p1
  obtain rfl := Option.some.inj p1
  have hcap : i0 + h * w ≤ g.cells.length := by
    have := p3 (w - 1) (by rw [row_length]; omega)
    have := (List.getElem?_eq_some_iff.1 this).1
    have e : h * w = (h - 1) * w + w := by rw [← Nat.succ_mul]; congr 1; omega
    omega
  unfold gridRows
  have o1' : g.offset0? g.rect.min = some i0 := by simpa using o1
  rw [o1', hdy]
  simp only [Option.bind_some]
  rw [rows_loop g i0 h (by rw [hs]; exact hcap), hs]
  congr 1
  apply List.map_congr_left
  intro b hb
  rw [List.mem_range] at hb
  obtain ⟨j, q1, q2, q3⟩ := offset_row H hw hb
  rw [hrow b hb] at q1
  obtain rfl := Option.some.inj q1
  apply List.ext_getElem?
  intro a
  rw [List.getElem?_take]
  by_cases ha : a < w
  · rw [if_pos ha, List.getElem?_drop, q3 a (by rw [row_length]; exact ha)]
    simp [row, ha]
  · rw [if_neg ha]
    simp [ha]

example : Holds ⟨⟨⟨1, 1⟩, ⟨2, 2⟩⟩, 1, 1, [⟨0x41, 0⟩]⟩ 1 1 (fun _ _ => (0x41, {})) := by
  refine ⟨by decide, fun a b ha hb => ?_⟩
  obtain rfl : a = 0 := by omega
  obtain rfl : b = 0 := by omega
  exact ⟨0, by decide +kernel⟩

/-- `GridRowData` of a part of a grid gives rows as long as those of the whole grid, with cells
outside of the part, and panics on a part in the lower right corner. -/
theorem sub_rows_overrun : (gridRows (demoGrid.subRect ⟨⟨2, 1⟩, ⟨4, 2⟩⟩)).map (·.map (·.map Cell.rune)) = some [[0x61, 0x62, 0x78, 0x78]] ∧
    gridRows demoGrid = none := by decide +kernel

/-- `RunesToLines` changes its rows, and with them the grid they come from: filled once, the
cells stay filled, and a second call with another fill character makes the same lines. -/
theorem runes_lines_stick (rows : List (List Nat)) (z z' : Nat) (hz : z ≠ 0) :
    (∀ r ∈ (runesToLines rows z).2, ∀ x ∈ r, x ≠ 0) ∧
      runesToLines (runesToLines rows z).2 z' = runesToLines rows z := by
  have h : ∀ r ∈ (runesToLines rows z).2, ∀ x ∈ r, x ≠ 0 := by
    intro r hr x hx
    unfold runesToLines at hr
    obtain ⟨r0, _, rfl⟩ := List.mem_map.1 hr
    obtain ⟨y, _, rfl⟩ := List.mem_map.1 hx
    split
    · exact hz
    · assumption
  refine ⟨h, ?_⟩
  have hid : ((runesToLines rows z).2.map fun row => row.map fun r => if r = 0 then z' else r) = (runesToLines rows z).2 := by
    conv => rhs; rw [← List.map_id (runesToLines rows z).2]
    apply List.map_congr_left
    intro r hr
    conv => rhs; rw [id, ← List.map_id r]
    apply List.map_congr_left
    intro x hx
    rw [if_neg (h r hr x hx)]; rfl
  unfold runesToLines at hid ⊢
  simp only at hid ⊢
  rw [hid]

/-- The lines are the rows in UTF-8, with the fill character in the empty cells. -/
example : runesToLines [[0x41, 0], [0, 0xE9]] 0x2E = ([[0x41, 0x2E], [0x2E, 0xC3, 0xA9]], [[0x41, 0x2E], [0x2E, 0xE9]]) := by
  decide +kernel

end Anansi.Gln
