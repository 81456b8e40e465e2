import Verif.Lemmas.SgrMerge
import Verif.Lemmas.Decode
import Verif.Lemmas.Num
/-
Helper lemmas: text of an encoded attribute, and decoding it argument by argument.
-/
set_option linter.unusedSimpArgs false
set_option autoImplicit false

namespace Anansi.Sgr

/-- Bit tests on a built attribute. -/
theorem low_bits_fg (c : Color) (i : Nat) (h : i < 7) : (colorFG c).getLsbD i = false := by
  unfold colorFG; rw [fgSet_val]; unfold colorMask fgShift
  simp only [BitVec.getLsbD_or, BitVec.getLsbD_and, BitVec.getLsbD_shiftLeft]
  interval_cases i <;> simp

theorem low_bits_bg (c : Color) (i : Nat) (h : i < 7) : (colorBG c).getLsbD i = false := by
  unfold colorBG; rw [bgSet_val]; unfold colorMask bgShift
  simp only [BitVec.getLsbD_or, BitVec.getLsbD_and, BitVec.getLsbD_shiftLeft]
  interval_cases i <;> simp

/-- The `i`th flag of a style. -/
def Style.flag (s : Style) : Nat → Bool
  | 0 => s.clear | 1 => s.bold | 2 => s.dim | 3 => s.italic | 4 => s.underscore
  | 5 => s.negative | 6 => s.conceal | _ => false

theorem build_bit (s : Style) (i : Nat) (h : i < 7) : s.build.getLsbD i = s.flag i := by
  have fb : ∀ (b : Bool) (x : Attr), (flagIf b x).getLsbD i = (b && x.getLsbD i) := by
    intro b x; cases b <;> simp [flagIf]
  unfold Style.build
  cases s.fg <;> cases s.bg <;> simp only [BitVec.getLsbD_or, fb, low_bits_fg _ _ h,
    low_bits_bg _ _ h, BitVec.ofNat_eq_ofNat, BitVec.getLsbD_zero, Bool.or_false, Sgr.clear,
    Sgr.bold, Sgr.dim, Sgr.italic, Sgr.underscore, Sgr.negative, Sgr.conceal] <;>
  · clear fb
    interval_cases i <;> simp [Style.flag]

theorem build_test (s : Style) (i : Nat) (h : i < 7) :
    (s.build &&& (1#64 <<< i) ≠ 0) = (s.flag i = true) := by
  rw [and_bit_ne_zero _ _ (by omega), build_bit s i h]

/-- Arguments joined by semicolons. -/
def joinArgs : List Bytes → Bytes
  | [] => []
  | x :: xs => x ++ xs.flatMap (fun b => 0x3B :: b)

theorem addAll_false (l : List Bytes) (p : Bytes) :
    l.foldl addArg (false, p) = (false, p ++ l.flatMap (fun b => 0x3B :: b)) := by
  induction l generalizing p with
  | nil => simp
  | cons x xs ih => simp [addArg, ih]

theorem addAll_true (l : List Bytes) (p : Bytes) :
    l.foldl addArg (true, p) = (l.isEmpty, p ++ joinArgs l) := by
  cases l with
  | nil => simp [joinArgs]
  | cons x xs => simp [addArg, addAll_false, joinArgs]

/-- The flag arguments. -/
def Style.flagArgs (s : Style) : List Bytes :=
  flagCodes.filterMap (fun ib => if s.flag ib.1 then some [ib.2] else none)

def Style.args (s : Style) : List Bytes :=
  s.flagArgs ++ (s.fg.map (fun c => appendFG c.value)).toList ++
    (s.bg.map (fun c => appendBG c.value)).toList

theorem foldl_filterMap_flags (s : Style) (l : List (Nat × UInt8)) (h : ∀ p ∈ l, p.1 < 7)
    (st : Bool × Bytes) :
    l.foldl (fun st ib => if s.build &&& (1#64 <<< ib.1) ≠ 0 then addArg st [ib.2] else st) st =
    (l.filterMap (fun ib => if s.flag ib.1 then some [ib.2] else none)).foldl addArg st := by
  induction l generalizing st with
  | nil => rfl
  | cons x xs ih =>
    have hx := build_test s x.1 (h x (by simp))
    simp only [List.foldl_cons, List.filterMap_cons]
    rw [ih (fun p hp => h p (by simp [hp]))]
    simp only [hx]
    cases hf : s.flag x.1 <;> simp

theorem append_build (s : Style) (h : s.build ≠ 0) (h' : s.build ≠ clear) :
    append s.build = 0x1B :: 0x5B :: (joinArgs s.args ++ [0x6D]) := by
  unfold append
  rw [if_neg (not_or.mpr ⟨h, h'⟩)]
  have hp : escAppend SGR = [0x1B, 0x5B, 0x6D] := by decide
  simp only [hp]
  have : appendFlags s.build (true, [0x1B, 0x5B]) = s.flagArgs.foldl addArg (true, [0x1B, 0x5B]) :=
    foldl_filterMap_flags s flagCodes (by decide) _
  simp only [List.length_cons, List.length_nil, List.take_succ_cons, List.take_zero,
    List.drop_succ_cons, List.drop_zero, this, build_fg, build_bg]
  have e : s.args.foldl addArg (true, [0x1B, 0x5B]) = (s.args.isEmpty, [0x1B, 0x5B] ++ joinArgs s.args) :=
    addAll_true _ _
  have hc : (0x1B :: 0x5B :: (joinArgs s.args ++ [0x6D]) : Bytes) =
      (s.args.foldl addArg (true, [0x1B, 0x5B])).2 ++ [0x6D] := by rw [e]; simp
  rw [hc]
  unfold Style.args
  cases s.fg <;> cases s.bg <;> simp [List.foldl_append]

/-! ### Decoding -/

/-- What may follow an argument. -/
def SepHead (rest : Bytes) : Prop := rest = [] ∨ ∃ r, rest = 0x3B :: r

theorem uint8Loop_itoa (m n : Nat) (rest : Bytes) (h : m ≤ 255) :
    uint8Loop 0 n (itoaNat m ++ rest) = uint8Loop m (n + (itoaNat m).length) rest := by
  induction m using Nat.strongRecOn generalizing n rest with
  | _ m ih =>
    rw [itoaNat]
    have hd : ∀ d, d < 10 → digitByte d ≠ 0x3B ∧ isDigit (digitByte d) = true := by
      intro d hd
      have := digitByte_toNat hd
      refine ⟨?_, ?_⟩
      · intro h; rw [h] at this
        have : (0x3B : UInt8).toNat = 0x3B := rfl
        omega
      · unfold isDigit; rw [this]; simp; omega
    split
    · rename_i hlt
      have ⟨h1, h2⟩ := hd m hlt
      simp only [List.singleton_append, uint8Loop, h1, if_false, h2, if_true, digitByte_toNat hlt,
        Nat.add_sub_cancel_left, Nat.mul_zero, Nat.zero_add, List.length_singleton]
      rw [if_neg (by omega)]
    · rename_i hge
      have ⟨h1, h2⟩ := hd (m % 10) (by omega)
      rw [List.append_assoc, ih (m / 10) (by omega) _ _ (by omega)]
      simp only [List.singleton_append, uint8Loop, h1, if_false, h2, if_true,
        digitByte_toNat (show m % 10 < 10 by omega), Nat.add_sub_cancel_left, List.length_append,
        List.length_singleton]
      rw [if_neg (by omega)]
      congr 1; omega

theorem decodeUint8_end (i : UInt8) : decodeUint8 (itoaNat i.toNat) = ⟨i, (itoaNat i.toNat).length, none⟩ := by
  have hi := i.toNat_lt
  unfold decodeUint8
  rw [if_neg (itoaNat_ne_nil _)]
  have := uint8Loop_itoa i.toNat 0 [] (by omega)
  rw [List.append_nil] at this
  rw [this]; simp [uint8Loop]

theorem decodeUint8_sep (i : UInt8) (r : Bytes) :
    decodeUint8 (itoaNat i.toNat ++ 0x3B :: r) = ⟨i, (itoaNat i.toNat).length + 1, none⟩ := by
  have hi := i.toNat_lt
  unfold decodeUint8
  rw [if_neg (by simp)]
  rw [uint8Loop_itoa i.toNat 0 _ (by omega)]; simp [uint8Loop]

/-- One argument: decoding its text has a known effect, wherever it stands. -/
def Good (t : Bytes) (e : Attr → Attr) : Prop :=
  ∀ (attr : Attr) (n : Nat) (rest : Bytes), SepHead rest →
    decodeLoop attr n (t ++ rest) = decodeLoop (e attr) (n + t.length) rest

theorem decodeLoop_cons (attr : Attr) (n : Nat) (c : UInt8) (t : Bytes) :
    decodeLoop attr n (c :: t) =
    if c = 0x3B then decodeLoop attr (n + 1) t
    else if c = 0x30 ∧ (∃ d ∈ t.head?, isDigit d) then decodeLoop attr (n + 1) t
    else if (0x30 ≤ c.toNat ∧ c.toNat ≤ 0x38) ∧ (t = [] ∨ t.head? = some 0x3B) then
      decodeLoop (applyDigit attr c) (n + (if t = [] then 1 else 2)) (t.drop 1)
    else if c = 0x33 then
      let d := decodeColor t
      if d.err ≠ none then ⟨attr, n + 1 + d.n, d.err⟩
      else decodeLoop (sansFG attr ||| colorFG d.val) (n + 1 + d.n) (t.drop d.n)
    else if c = 0x34 then
      let d := decodeColor t
      if d.err ≠ none then ⟨attr, n + 1 + d.n, d.err⟩
      else decodeLoop (sansBG attr ||| colorBG d.val) (n + 1 + d.n) (t.drop d.n)
    else if c = 0x39 then
      let d := decodeClassicColor 8 t
      if d.err ≠ none then ⟨attr, n + 1 + d.n, d.err⟩
      else decodeLoop (sansFG attr ||| colorFG d.val) (n + 1 + d.n) (t.drop d.n)
    else if c = 0x31 then
      match t with
      | c1 :: t1 =>
        if c1 ≠ 0x30 ∨ t1 = [] then ⟨attr, n + 1, some .sgrInvalid⟩
        else
          let d := decodeClassicColor 8 t1
          if d.err ≠ none then ⟨attr, n + 2 + d.n, d.err⟩
          else decodeLoop (sansBG attr ||| colorBG d.val) (n + 2 + d.n) (t1.drop d.n)
      | [] => ⟨attr, n + 1, some .sgrInvalid⟩
    else ⟨attr, n, some .sgrInvalid⟩ := by
  rw [decodeLoop.eq_def]; rfl

theorem decodeLoop_sep (attr : Attr) (n : Nat) (r : Bytes) :
    decodeLoop attr n (0x3B :: r) = decodeLoop attr (n + 1) r := by
  rw [decodeLoop_cons, if_pos rfl]

theorem good_digit (c : UInt8) (h : 0x30 ≤ c.toNat ∧ c.toNat ≤ 0x38) :
    Good [c] (fun a => applyDigit a c) := by
  intro attr n rest hr
  have h1 : c ≠ 0x3B := by rintro rfl; simp at h
  have h2 : ¬ (c = 0x30 ∧ ∃ d ∈ rest.head?, isDigit d = true) := by
    rintro ⟨_, d, hd, hd'⟩
    rcases hr with rfl | ⟨r, rfl⟩
    · simp at hd
    · simp at hd; subst hd; revert hd'; decide
  have h3 : rest = [] ∨ rest.head? = some 0x3B := by
    rcases hr with rfl | ⟨r, rfl⟩ <;> simp
  rw [List.singleton_append, decodeLoop_cons]
  rw [if_neg h1, if_neg h2, if_pos ⟨h, h3⟩]
  rcases hr with rfl | ⟨r, rfl⟩
  · simp
  · rw [decodeLoop_sep]; simp

theorem classic_good (off : Nat) (v : UInt8) (hv : v.toNat < 8) (rest : Bytes) (hr : SepHead rest) :
    decodeClassicColor off ((0x30 + v) :: rest) = ⟨BitVec.ofNat 32 (off + v.toNat), 1, none⟩ := by
  have hb : (0x30 + v).toNat = 0x30 + v.toNat := by
    rw [UInt8.toNat_add]; simp; omega
  have h3 : rest = [] ∨ rest.head? = some 0x3B := by
    rcases hr with rfl | ⟨r, rfl⟩ <;> simp
  unfold decodeClassicColor
  simp only [hb]
  rw [if_pos (by omega), if_pos h3]
  congr 2; omega

/-- Decoded colour text, ready for a continuation. -/
def ColourDec (d : Dec Color) (t rest : Bytes) (v : Color) : Prop :=
  d.err = none ∧ d.val = v ∧
    ((d.n = t.length) ∨ (∃ r, rest = 0x3B :: r ∧ d.n = t.length + 1))

theorem cont {d : Dec Color} {t rest : Bytes} {v : Color} (h : ColourDec d t rest v)
    (attr : Attr) (n : Nat) :
    decodeLoop attr (n + d.n) ((t ++ rest).drop d.n) = decodeLoop attr (n + t.length) rest := by
  obtain ⟨_, _, h | ⟨r, hr, h⟩⟩ := h
  · rw [h]; simp
  · subst hr
    rw [h, decodeLoop_sep]
    have : t ++ 0x3B :: r = (t ++ [0x3B]) ++ r := by simp
    rw [this, List.drop_left' (by simp)]
    congr 1

theorem itoa_dec (i : UInt8) (rest : Bytes) (hr : SepHead rest) :
    ∃ k, decodeUint8 (itoaNat i.toNat ++ rest) = ⟨i, k, none⟩ ∧
      (k = (itoaNat i.toNat).length ∨ (∃ r, rest = 0x3B :: r ∧ k = (itoaNat i.toNat).length + 1)) := by
  rcases hr with rfl | ⟨r, rfl⟩
  · rw [List.append_nil]; exact ⟨_, decodeUint8_end i, Or.inl rfl⟩
  · exact ⟨_, decodeUint8_sep i r, Or.inr ⟨r, rfl, rfl⟩⟩

theorem number_dec (i : UInt8) (rest : Bytes) (hr : SepHead rest) :
    ColourDec (decodeColor (([0x38, 0x3B, 0x35] ++ colorString i) ++ rest))
      ([0x38, 0x3B, 0x35] ++ colorString i) rest (i.toBitVec.setWidth 32) := by
  obtain ⟨k, hk, hk'⟩ := itoa_dec i rest hr
  have hne : itoaNat i.toNat ++ rest ≠ [] := by simp [itoaNat_ne_nil]
  simp only [List.cons_append, List.nil_append, colorString, decodeColor, if_true,
    decodeExtendedColor, decodeColorNumber, show ¬ ((0x35 : UInt8) = 0x32) by decide, if_false,
    hne, ne_eq, not_false_eq_true, and_self, hk, Dec.shift]
  refine ⟨rfl, rfl, ?_⟩
  rcases hk' with h | ⟨r, hr, h⟩
  · left; simp; omega
  · right; exact ⟨r, hr, by simp; omega⟩

theorem rgb_dec (r g b : UInt8) (rest : Bytes) (hr : SepHead rest) :
    ColourDec (decodeColor (([0x38, 0x3B, 0x32] ++ (colorString r ++ colorString g ++ colorString b)) ++ rest))
      ([0x38, 0x3B, 0x32] ++ (colorString r ++ colorString g ++ colorString b)) rest (rgb r g b) := by
  obtain ⟨k, hk, hk'⟩ := itoa_dec b rest hr
  have h1 : decodeUint8 (itoaNat r.toNat ++ 0x3B :: (itoaNat g.toNat ++ 0x3B :: (itoaNat b.toNat ++ rest)))
     = _ := decodeUint8_sep r _
  have h2 : decodeUint8 (itoaNat g.toNat ++ 0x3B :: (itoaNat b.toNat ++ rest)) = _ :=
    decodeUint8_sep g _
  have hne : itoaNat r.toNat ++ 0x3B :: (itoaNat g.toNat ++ 0x3B :: (itoaNat b.toNat ++ rest)) ≠ [] := by simp
  have d1 : ∀ (x y : Bytes), List.drop (x.length + 1) (x ++ 0x3B :: y) = y := by
    intro x y
    have : x ++ 0x3B :: y = (x ++ [0x3B]) ++ y := by simp
    rw [this, List.drop_left' (by simp)]
  simp only [List.cons_append, List.nil_append, colorString, decodeColor, if_true,
    decodeExtendedColor, decodeRGBColor, List.append_assoc, hne, ne_eq, not_false_eq_true, and_self,
    h1, not_true_eq_false, if_false, d1, h2, hk, Dec.shift]
  refine ⟨rfl, rfl, ?_⟩
  rcases hk' with h | ⟨r, hr, h⟩
  · left; simp; omega
  · right; exact ⟨r, hr, by simp; omega⟩

theorem chan0_indexed (i : UInt8) : chan (i.toBitVec.setWidth 32) 0 = i := by
  apply UInt8.toBitVec_inj.mp
  simp only [chan]
  apply BitVec.eq_of_getLsbD_eq; intro k hk
  simp only [BitVec.getLsbD_setWidth, BitVec.getLsbD_ushiftRight]
  interval_cases k <;> simp

theorem chan_rgb (r g b : UInt8) : chan (rgb r g b) 0 = r ∧ chan (rgb r g b) 1 = g ∧
    chan (rgb r g b) 2 = b := by
  refine ⟨?_, ?_, ?_⟩ <;>
  · apply UInt8.toBitVec_inj.mp
    simp only [chan, rgb, color24]
    apply BitVec.eq_of_getLsbD_eq; intro k hk
    simp only [BitVec.getLsbD_setWidth, BitVec.getLsbD_ushiftRight, BitVec.getLsbD_or,
      BitVec.getLsbD_shiftLeft]
    interval_cases k <;> simp

theorem indexed_not24 (i : UInt8) : ¬ (i.toBitVec.setWidth 32 &&& color24 ≠ 0) := by
  simp only [ne_eq, Decidable.not_not]
  unfold color24; bits32

theorem rgb_is24 (r g b : UInt8) : rgb r g b &&& color24 ≠ 0 := by
  intro h
  have := congrArg (fun z => BitVec.getLsbD z 24) h
  simp [rgb, color24] at this

theorem indexed_le (i : UInt8) (k : Nat) (hk : k < 2 ^ 32) :
    (i.toBitVec.setWidth 32 ≤ BitVec.ofNat 32 k) = (i.toNat ≤ k) := by
  have hi := i.toNat_lt
  rw [BitVec.le_def]
  simp [Nat.mod_eq_of_lt hk]
  rw [Nat.mod_eq_of_lt (by omega)]

theorem ofNat_indexed (i : UInt8) : BitVec.ofNat 32 i.toNat = i.toBitVec.setWidth 32 := by
  apply BitVec.eq_of_toNat_eq
  have hi := i.toNat_lt
  simp

theorem bright_byte (i : UInt8) (h : 8 ≤ i.toNat) :
    0x30 + i - 8 = 0x30 + (i - 8) ∧ (i - 8).toNat = i.toNat - 8 := by
  refine ⟨?_, ?_⟩
  · rw [UInt8.sub_eq_add_neg, UInt8.sub_eq_add_neg, UInt8.add_assoc]
  · rw [UInt8.toNat_sub_of_le]; rfl
    rw [UInt8.le_iff_toNat_le]; exact h

theorem good_fg (c : Colour) :
    Good (appendFG c.value) (fun a => sansFG a ||| colorFG c.value) := by
  intro attr n rest hr
  cases c with
  | direct r g b =>
    simp only [Colour.value, appendFG, rgb_is24, ne_eq, not_false_eq_true, if_true, appendRGB,
      chan_rgb]
    have hd := rgb_dec r g b rest hr
    have e : [0x33, 0x38, 0x3B, 0x32] ++ (colorString r ++ colorString g ++ colorString b) ++ rest =
      0x33 :: (([0x38, 0x3B, 0x32] ++ (colorString r ++ colorString g ++ colorString b)) ++ rest) := by simp
    rw [e, decodeLoop_cons, if_neg (by decide), if_neg (by simp), if_neg (by simp), if_pos (by decide)]
    simp only [hd.1, ne_eq, not_true_eq_false, if_false, hd.2.1]
    rw [cont hd]; simp; congr 1; omega
  | indexed i =>
    have hi := i.toNat_lt
    simp only [Colour.value, appendFG, indexed_not24, if_false, chan0_indexed]
    have h7 := indexed_le i 7 (by decide)
    have h15 := indexed_le i 15 (by decide)
    have h255 := indexed_le i 255 (by decide)
    simp only [BitVec.ofNat_eq_ofNat, h7, h15, h255]
    split
    · rename_i hle
      have hd := classic_good 0 i (by omega) rest hr
      have hb : (0x30 + i).toNat = 0x30 + i.toNat := by
        rw [UInt8.toNat_add]; simp; omega
      have h38 : (0x30 + i) ≠ 0x38 := by
        intro h; rw [h] at hb; simp at hb; omega
      have hnd : (0x30 + i) ≠ 0x3B := by
        intro h; rw [h] at hb; simp at hb; omega
      simp only [List.cons_append, List.nil_append]
      rw [decodeLoop_cons, if_neg (by decide), if_neg (by simp), if_neg (by simp [hnd]),
        if_pos (by decide)]
      simp only [decodeColor, h38, if_false, hd, Nat.zero_add, ofNat_indexed]
      simp
    · split
      · rename_i hgt hle
        have ⟨hb1, hb2⟩ := bright_byte i (by omega)
        have hd := classic_good 8 (i - 8) (by omega) rest hr
        rw [hb2, show 8 + (i.toNat - 8) = i.toNat by omega, ofNat_indexed] at hd
        have hb : (0x30 + (i - 8)).toNat = 0x30 + (i.toNat - 8) := by
          rw [UInt8.toNat_add, hb2]; simp; omega
        have hnd : (0x30 + (i - 8)) ≠ 0x3B := by
          intro h; rw [h] at hb; simp at hb; omega
        rw [hb1]
        simp only [List.cons_append, List.nil_append]
        rw [decodeLoop_cons, if_neg (by decide), if_neg (by simp), if_neg (by simp [hnd]),
          if_neg (by decide), if_neg (by decide), if_pos (by decide)]
        simp only [hd]
        simp
      · rw [if_pos (by omega)]
        have hd := number_dec i rest hr
        have e : [0x33, 0x38, 0x3B, 0x35] ++ colorString i ++ rest =
          0x33 :: (([0x38, 0x3B, 0x35] ++ colorString i) ++ rest) := by simp
        rw [e, decodeLoop_cons, if_neg (by decide), if_neg (by simp), if_neg (by simp), if_pos (by decide)]
        simp only [hd.1, ne_eq, not_true_eq_false, if_false, hd.2.1]
        rw [cont hd]; simp; congr 1; omega

theorem good_bg (c : Colour) :
    Good (appendBG c.value) (fun a => sansBG a ||| colorBG c.value) := by
  intro attr n rest hr
  cases c with
  | direct r g b =>
    simp only [Colour.value, appendBG, rgb_is24, ne_eq, not_false_eq_true, if_true, appendRGB,
      chan_rgb]
    have hd := rgb_dec r g b rest hr
    have e : [0x34, 0x38, 0x3B, 0x32] ++ (colorString r ++ colorString g ++ colorString b) ++ rest =
      0x34 :: (([0x38, 0x3B, 0x32] ++ (colorString r ++ colorString g ++ colorString b)) ++ rest) := by simp
    rw [e, decodeLoop_cons, if_neg (by decide), if_neg (by simp), if_neg (by simp), if_neg (by decide), if_pos (by decide)]
    simp only [hd.1, ne_eq, not_true_eq_false, if_false, hd.2.1]
    rw [cont hd]; simp; congr 1; omega
  | indexed i =>
    have hi := i.toNat_lt
    simp only [Colour.value, appendBG, indexed_not24, if_false, chan0_indexed]
    have h7 := indexed_le i 7 (by decide)
    have h15 := indexed_le i 15 (by decide)
    have h255 := indexed_le i 255 (by decide)
    simp only [BitVec.ofNat_eq_ofNat, h7, h15, h255]
    split
    · rename_i hle
      have hd := classic_good 0 i (by omega) rest hr
      have hb : (0x30 + i).toNat = 0x30 + i.toNat := by
        rw [UInt8.toNat_add]; simp; omega
      have h38 : (0x30 + i) ≠ 0x38 := by
        intro h; rw [h] at hb; simp at hb; omega
      have hnd : (0x30 + i) ≠ 0x3B := by
        intro h; rw [h] at hb; simp at hb; omega
      simp only [List.cons_append, List.nil_append]
      rw [decodeLoop_cons, if_neg (by decide), if_neg (by simp), if_neg (by simp [hnd]),
        if_neg (by decide), if_pos (by decide)]
      simp only [decodeColor, h38, if_false, hd, Nat.zero_add, ofNat_indexed]
      simp
    · split
      · rename_i hgt hle
        have ⟨hb1, hb2⟩ := bright_byte i (by omega)
        have hd := classic_good 8 (i - 8) (by omega) rest hr
        rw [hb2, show 8 + (i.toNat - 8) = i.toNat by omega, ofNat_indexed] at hd
        rw [hb1]
        simp only [List.cons_append, List.nil_append]
        rw [decodeLoop_cons, if_neg (by decide), if_neg (by simp), if_neg (by simp),
          if_neg (by decide), if_neg (by decide), if_neg (by decide), if_pos (by decide)]
        simp only [hd]
        simp
      · rw [if_pos (by omega)]
        have hd := number_dec i rest hr
        have e : [0x34, 0x38, 0x3B, 0x35] ++ colorString i ++ rest =
          0x34 :: (([0x38, 0x3B, 0x35] ++ colorString i) ++ rest) := by simp
        rw [e, decodeLoop_cons, if_neg (by decide), if_neg (by simp), if_neg (by simp), if_neg (by decide), if_pos (by decide)]
        simp only [hd.1, ne_eq, not_true_eq_false, if_false, hd.2.1]
        rw [cont hd]; simp; congr 1; omega

end Anansi.Sgr

namespace Anansi.Sgr

/-- Decoding a list of good arguments applies their effects in order. -/
theorem decode_items (l : List (Bytes × (Attr → Attr))) (h : ∀ p ∈ l, Good p.1 p.2)
    (attr : Attr) (n : Nat) :
    decodeLoop attr n ((l.map Prod.fst).flatMap (fun b => 0x3B :: b)) =
      ⟨l.foldl (fun a p => p.2 a) attr,
        n + ((l.map Prod.fst).flatMap (fun b => 0x3B :: b)).length, none⟩ := by
  induction l generalizing attr n with
  | nil => simp [decodeLoop.eq_def]
  | cons x xs ih =>
    have hx := h x (by simp)
    simp only [List.map_cons, List.flatMap_cons, List.cons_append, decodeLoop_sep]
    rw [hx]
    · rw [ih (fun p hp => h p (by simp [hp]))]
      simp; omega
    · cases xs with
      | nil => left; rfl
      | cons y ys => right; simp only [List.map_cons, List.flatMap_cons, List.cons_append]; exact ⟨_, rfl⟩

theorem decode_join (l : List (Bytes × (Attr → Attr))) (h : ∀ p ∈ l, Good p.1 p.2) :
    decode (joinArgs (l.map Prod.fst)) =
      ⟨l.foldl (fun a p => p.2 a) 0, (joinArgs (l.map Prod.fst)).length, none⟩ := by
  unfold decode
  cases l with
  | nil => simp [joinArgs, decodeLoop.eq_def]
  | cons x xs =>
    have hx := h x (by simp)
    simp only [joinArgs, List.map_cons]
    rw [hx]
    · rw [decode_items _ (fun p hp => h p (by simp [hp]))]
      simp
    · cases xs with
      | nil => left; rfl
      | cons y ys => right; simp only [List.map_cons, List.flatMap_cons, List.cons_append]; exact ⟨_, rfl⟩

/-- Flag arguments with their effects. -/
def Style.flagItems (s : Style) : List (Bytes × (Attr → Attr)) :=
  flagCodes.filterMap (fun ib => if s.flag ib.1 then some ([ib.2], fun a => applyDigit a ib.2) else none)

def Style.items (s : Style) : List (Bytes × (Attr → Attr)) :=
  s.flagItems ++ (s.fg.map (fun c => (appendFG c.value, fun a => sansFG a ||| colorFG c.value))).toList ++
    (s.bg.map (fun c => (appendBG c.value, fun a => sansBG a ||| colorBG c.value))).toList

theorem args_items (s : Style) : s.items.map Prod.fst = s.args := by
  unfold Style.items Style.args Style.flagItems Style.flagArgs
  simp only [List.map_append, List.map_filterMap]
  congr 1
  · congr 1
    · congr 1; funext ib
      cases s.flag ib.1 <;> simp
    · cases s.fg <;> rfl
  · cases s.bg <;> rfl

theorem items_good (s : Style) : ∀ p ∈ s.items, Good p.1 p.2 := by
  intro p hp
  unfold Style.items at hp
  simp only [List.mem_append] at hp
  rcases hp with (hp | hp) | hp
  · unfold Style.flagItems at hp
    rw [List.mem_filterMap] at hp
    obtain ⟨ib, hib, he⟩ := hp
    have hr : ∀ q ∈ flagCodes, 0x30 ≤ q.2.toNat ∧ q.2.toNat ≤ 0x38 := by decide
    split at he
    · simp at he; subst he; exact good_digit _ (hr ib hib)
    · simp at he
  · cases hf : s.fg with
    | none => simp [hf] at hp
    | some c => simp [hf] at hp; subst hp; exact good_fg c
  · cases hf : s.bg with
    | none => simp [hf] at hp
    | some c => simp [hf] at hp; subst hp; exact good_bg c

theorem sansFG_of_zero {a : Attr} (h : a &&& fgMask = 0) : sansFG a = a := by
  apply attr_ext <;> simp only [sansFG, and_mask_comm, mask_nfg_cl, mask_nfg_at, mask_nfg_fg,
    mask_nfg_bg, mask_nfg_jk, and_z, h]

theorem sansBG_of_zero {a : Attr} (h : a &&& bgMask = 0) : sansBG a = a := by
  apply attr_ext <;> simp only [sansBG, and_mask_comm, mask_nbg_cl, mask_nbg_at, mask_nbg_bg,
    mask_nbg_fg, mask_nbg_jk, and_z, h]

theorem fold_flagItems (s : Style) (hc : s.conceal = false) :
    s.flagItems.foldl (fun a p => p.2 a) 0 = { s with fg := none, bg := none }.build := by
  unfold Style.flagItems flagCodes Style.flag Style.build
  simp only [hc]
  cases s.clear <;> cases s.bold <;> cases s.dim <;> cases s.italic <;> cases s.underscore <;>
    cases s.negative <;> rfl

theorem fold_items (s : Style) (hc : s.conceal = false) :
    s.items.foldl (fun a p => p.2 a) 0 = s.build := by
  unfold Style.items
  rw [List.foldl_append, List.foldl_append, fold_flagItems s hc]
  have hb : s.build = ({ s with fg := none, bg := none }.build |||
      (match s.fg with | some c => colorFG c.value | none => 0)) |||
      (match s.bg with | some c => colorBG c.value | none => 0) := by
    unfold Style.build; simp only [or_z]; cases s.fg <;> cases s.bg <;> rfl
  have z1 : { s with fg := none, bg := none }.build &&& fgMask = 0 := build_fgMask _
  have z2 : { s with fg := none, bg := none }.build &&& bgMask = 0 := build_bgMask _
  rw [hb]
  cases s.fg with
  | none =>
    cases s.bg with
    | none => simp only [Option.map_none, Option.toList_none, List.foldl_nil, or_z]
    | some b =>
      simp only [Option.map_none, Option.toList_none, List.foldl_nil, or_z, Option.map_some,
        Option.toList_some, List.foldl_cons, sansBG_of_zero z2]
  | some f =>
    cases s.bg with
    | none =>
      simp only [Option.map_none, Option.toList_none, List.foldl_nil, or_z, Option.map_some,
        Option.toList_some, List.foldl_cons, sansFG_of_zero z1]
    | some b =>
      have z3 : ({ s with fg := none, bg := none }.build ||| colorFG f.value) &&& bgMask = 0 := by
        rw [or_and, z2, colorFG_bgm, or_z]
      simp only [List.foldl_nil, Option.map_some,
        Option.toList_some, List.foldl_cons, sansFG_of_zero z1, sansBG_of_zero z3]

/-- Argument bytes of an encoded attribute. -/
theorem colorString_range (i : UInt8) : ∀ b ∈ colorString i, 0x20 ≤ b.toNat ∧ b.toNat ≤ 0x3F := by
  intro b hb
  simp only [colorString, List.mem_cons] at hb
  rcases hb with rfl | hb
  · decide
  · have := itoaNat_digits _ b hb; omega

theorem low_digit (i : UInt8) (h : i.toNat ≤ 7) : (0x30 + i).toNat = 0x30 + i.toNat := by
  rw [UInt8.toNat_add]; simp; omega

theorem fg_range (c : Colour) : ∀ b ∈ appendFG c.value, 0x20 ≤ b.toNat ∧ b.toNat ≤ 0x3F := by
  cases c with
  | direct r g b =>
    simp only [Colour.value, appendFG, rgb_is24, ne_eq, not_false_eq_true, if_true, appendRGB, chan_rgb]
    intro x hx
    simp only [List.mem_append] at hx
    rcases hx with hx | (hx | hx) | hx
    · revert x; decide
    all_goals exact colorString_range _ x hx
  | indexed i =>
    have hi := i.toNat_lt
    simp only [Colour.value, appendFG, indexed_not24, if_false, chan0_indexed]
    simp only [BitVec.ofNat_eq_ofNat, indexed_le i 7 (by decide), indexed_le i 15 (by decide), indexed_le i 255 (by decide)]
    split
    · have := low_digit i (by omega)
      intro b hb; simp at hb; rcases hb with rfl | rfl
      · decide
      · omega
    · split
      · have ⟨hb1, hb2⟩ := bright_byte i (by omega)
        have := low_digit (i - 8) (by omega)
        rw [hb1]
        intro b hb; simp at hb; rcases hb with rfl | rfl
        · decide
        · omega
      · rw [if_pos (by omega)]
        intro x hx
        simp only [List.mem_append] at hx
        rcases hx with hx | hx
        · revert x; decide
        · exact colorString_range _ x hx

theorem bg_range (c : Colour) : ∀ b ∈ appendBG c.value, 0x20 ≤ b.toNat ∧ b.toNat ≤ 0x3F := by
  cases c with
  | direct r g b =>
    simp only [Colour.value, appendBG, rgb_is24, ne_eq, not_false_eq_true, if_true, appendRGB, chan_rgb]
    intro x hx
    simp only [List.mem_append] at hx
    rcases hx with hx | (hx | hx) | hx
    · revert x; decide
    all_goals exact colorString_range _ x hx
  | indexed i =>
    have hi := i.toNat_lt
    simp only [Colour.value, appendBG, indexed_not24, if_false, chan0_indexed]
    simp only [BitVec.ofNat_eq_ofNat, indexed_le i 7 (by decide), indexed_le i 15 (by decide), indexed_le i 255 (by decide)]
    split
    · have := low_digit i (by omega)
      intro b hb; simp at hb; rcases hb with rfl | rfl
      · decide
      · omega
    · split
      · have ⟨hb1, hb2⟩ := bright_byte i (by omega)
        have := low_digit (i - 8) (by omega)
        rw [hb1]
        intro b hb; simp at hb; rcases hb with rfl | rfl | rfl
        · decide
        · decide
        · omega
      · rw [if_pos (by omega)]
        intro x hx
        simp only [List.mem_append] at hx
        rcases hx with hx | hx
        · revert x; decide
        · exact colorString_range _ x hx

theorem args_range (s : Style) : ∀ a ∈ s.args, ∀ b ∈ a, 0x20 ≤ b.toNat ∧ b.toNat ≤ 0x3F := by
  intro a ha
  unfold Style.args at ha
  simp only [List.mem_append] at ha
  rcases ha with (ha | ha) | ha
  · unfold Style.flagArgs at ha
    rw [List.mem_filterMap] at ha
    obtain ⟨ib, hib, he⟩ := ha
    have hr : ∀ q ∈ flagCodes, 0x20 ≤ q.2.toNat ∧ q.2.toNat ≤ 0x3F := by decide
    split at he
    · simp at he; subst he; simpa using hr ib hib
    · simp at he
  · cases hf : s.fg with
    | none => simp [hf] at ha
    | some c => simp [hf] at ha; subst ha; exact fg_range c
  · cases hf : s.bg with
    | none => simp [hf] at ha
    | some c => simp [hf] at ha; subst ha; exact bg_range c

theorem join_range (l : List Bytes) (h : ∀ a ∈ l, ∀ b ∈ a, 0x20 ≤ b.toNat ∧ b.toNat ≤ 0x3F) :
    ∀ b ∈ joinArgs l, 0x20 ≤ b.toNat ∧ b.toNat ≤ 0x3F := by
  cases l with
  | nil => simp [joinArgs]
  | cons x xs =>
    intro b hb
    simp only [joinArgs, List.mem_append, List.mem_flatMap, List.mem_cons] at hb
    rcases hb with hb | ⟨a, ha, rfl | hb⟩
    · exact h x (by simp) b hb
    · decide
    · exact h a (by simp [ha]) b hb

/-- Lengths. -/
theorem appendFG_length (c : Color) : (appendFG c).length = fgSize c := by
  unfold appendFG fgSize appendRGB rgbSize
  split
  · simp; omega
  · split
    · simp
    · split
      · simp
      · split
        · simp; omega
        · simp

theorem appendBG_length (c : Color) : (appendBG c).length = bgSize c := by
  unfold appendBG bgSize appendRGB rgbSize
  split
  · simp; omega
  · split
    · simp
    · split
      · simp
      · split
        · simp; omega
        · simp

end Anansi.Sgr
