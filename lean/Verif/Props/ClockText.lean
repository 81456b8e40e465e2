import Verif.Model.ClockText
import Verif.Props.StateText
import Verif.Props.HudPanels
/-
C151: the clock and the profiling sign of the overlay's header say the time and whether there is profiling, and the header does not
move with them.
-/
set_option autoImplicit false

namespace Anansi.Hud
open Geom Evq

namespace Spec

/-- The number that digits stand for. -/
def number (b : Bytes) : Nat := b.foldl (fun a x => 10 * a + (x.toNat - 0x30)) 0

/-- Two characters between "0" and "9", or however many. -/
def Digits (n : Nat) (b : Bytes) : Prop := b.length = n ∧ ∀ x ∈ b, 0x30 ≤ x.toNat ∧ x.toNat ≤ 0x39

/-- A text comes before another in a dictionary, at the first place where they differ. -/
def Before (a b : Bytes) : Prop := ∃ i : Nat, (∀ j < i, a[j]? = b[j]?) ∧ ∃ x y : UInt8, a[i]? = some x ∧ b[i]? = some y ∧ x.toNat < y.toNat

end Spec

theorem fixed_length : ∀ w n, (fixed w n).length = w
  | 0, _ => rfl
  | w + 1, n => by simp [fixed, fixed_length w]

theorem digit_byte (d : Nat) (h : d < 10) : (UInt8.ofNat (0x30 + d)).toNat = 0x30 + d := by
  rw [UInt8.toNat_ofNat']; omega

theorem fixed_digits : ∀ w n, Spec.Digits w (fixed w n)
  | 0, _ => ⟨rfl, by simp [fixed]⟩
  | w + 1, n => by
    refine ⟨fixed_length _ _, fun x hx => ?_⟩
    unfold fixed at hx
    rcases List.mem_append.1 hx with h | h
    · exact (fixed_digits w _).2 x h
    · rw [List.mem_singleton] at h
      rw [h, digit_byte _ (Nat.mod_lt _ (by omega))]
      omega

theorem fixed_number : ∀ w n, n < 10 ^ w → Spec.number (fixed w n) = n
  | 0, n, h => by
    have : n = 0 := by simpa using h
    subst this; rfl
  | w + 1, n, h => by
    have hd : n / 10 < 10 ^ w := by
      rw [Nat.div_lt_iff_lt_mul (by omega)]
      rw [Nat.pow_succ] at h
      exact h
    have ih := fixed_number w (n / 10) hd
    unfold Spec.number at ih
    unfold Spec.number fixed
    rw [List.foldl_append, ih]
    simp only [List.foldl_cons, List.foldl_nil]
    rw [digit_byte _ (Nat.mod_lt _ (by omega))]
    omega

theorem before_append {a b : Bytes} (r s : Bytes) (h : Spec.Before a b) : Spec.Before (a ++ r) (b ++ s) := by
  obtain ⟨i, h1, x, y, h2, h3, h4⟩ := h
  have la := (List.getElem?_eq_some_iff.1 h2).1
  have lb := (List.getElem?_eq_some_iff.1 h3).1
  refine ⟨i, fun j hj => ?_, x, y, ?_, ?_, h4⟩
  · rw [List.getElem?_append_left (by omega), List.getElem?_append_left (by omega)]; exact h1 j hj
  · rw [List.getElem?_append_left la]; exact h2
  · rw [List.getElem?_append_left lb]; exact h3

theorem append_before (p : Bytes) {a b : Bytes} (h : Spec.Before a b) : Spec.Before (p ++ a) (p ++ b) := by
  obtain ⟨i, h1, x, y, h2, h3, h4⟩ := h
  refine ⟨p.length + i, fun j hj => ?_, x, y, ?_, ?_, h4⟩
  · by_cases hl : j < p.length
    · rw [List.getElem?_append_left hl, List.getElem?_append_left hl]
    · rw [List.getElem?_append_right (by omega), List.getElem?_append_right (by omega)]
      exact h1 _ (by omega)
  · rw [List.getElem?_append_right (by omega), Nat.add_sub_cancel_left]; exact h2
  · rw [List.getElem?_append_right (by omega), Nat.add_sub_cancel_left]; exact h3

theorem before_irrefl (a : Bytes) : ¬ Spec.Before a a := by
  rintro ⟨i, -, x, y, h1, h2, h3⟩
  rw [h1] at h2
  injection h2 with h2
  subst h2
  omega

theorem before_asymm {a b : Bytes} (h : Spec.Before a b) : ¬ Spec.Before b a := by
  obtain ⟨i, h1, x, y, h2, h3, h4⟩ := h
  rintro ⟨k, g1, u, v, g2, g3, g4⟩
  rcases Nat.lt_trichotomy i k with hik | hik | hik
  · have := g1 i hik
    rw [h2, h3] at this
    injection this with this
    subst this; omega
  · subst hik
    rw [h3] at g2
    rw [h2] at g3
    injection g2 with g2
    injection g3 with g3
    subst g2; subst g3; omega
  · have := h1 k hik
    rw [g2, g3] at this
    injection this with this
    subst this; omega

theorem fixed_before : ∀ w n m, n < m → m < 10 ^ w → Spec.Before (fixed w n) (fixed w m)
  | 0, n, m, h, h' => by
    have : m = 0 := by simpa using h'
    omega
  | w + 1, n, m, h, h' => by
    have hd : m / 10 < 10 ^ w := by
      rw [Nat.div_lt_iff_lt_mul (by omega)]
      rw [Nat.pow_succ] at h'
      exact h'
    unfold fixed
    by_cases hq : n / 10 < m / 10
    · exact before_append _ _ (fixed_before w _ _ hq hd)
    · have he : n / 10 = m / 10 := by omega
      rw [he]
      refine append_before _ ⟨0, fun j hj => by omega, _, _, rfl, rfl, ?_⟩
      rw [digit_byte _ (Nat.mod_lt _ (by omega)), digit_byte _ (Nat.mod_lt _ (by omega))]
      omega

/-- **C151**: the clock has two digits of hours, minutes and seconds each and six of microseconds; together they are the time of the
day, cut off to microseconds. -/
theorem clock_text (ns : Nat) (h : ns < 86400000000000) : ∃ H M S U, clockString ns = H ++ [0x3A] ++ M ++ [0x3A] ++ S ++ [0x2E] ++ U ∧
    Spec.Digits 2 H ∧ Spec.Digits 2 M ∧ Spec.Digits 2 S ∧ Spec.Digits 6 U ∧
    Spec.number H < 24 ∧ Spec.number M < 60 ∧ Spec.number S < 60 ∧
    ((Spec.number H * 60 + Spec.number M) * 60 + Spec.number S) * 1000000 + Spec.number U = ns / 1000 := by
  refine ⟨_, _, _, _, rfl, fixed_digits _ _, fixed_digits _ _, fixed_digits _ _, fixed_digits _ _, ?_⟩
  rw [fixed_number 2 (ns / 3600000000000) (by omega), fixed_number 2 (ns / 60000000000 % 60) (by omega),
    fixed_number 2 (ns / 1000000000 % 60) (by omega), fixed_number 6 (ns / 1000 % 1000000) (by omega)]
  omega

theorem clock_before {a b : Nat} (hb : b < 86400000000000) (h : a / 1000 < b / 1000) : Spec.Before (clockString a) (clockString b) := by
  unfold clockString
  simp only [List.append_assoc]
  by_cases h1 : a / 3600000000000 < b / 3600000000000
  · exact before_append _ _ (fixed_before 2 _ _ h1 (by omega))
  rw [show a / 3600000000000 = b / 3600000000000 by omega]
  refine append_before _ (append_before _ ?_)
  by_cases h2 : a / 60000000000 % 60 < b / 60000000000 % 60
  · exact before_append _ _ (fixed_before 2 _ _ h2 (by omega))
  rw [show a / 60000000000 % 60 = b / 60000000000 % 60 by omega]
  refine append_before _ (append_before _ ?_)
  by_cases h3 : a / 1000000000 % 60 < b / 1000000000 % 60
  · exact before_append _ _ (fixed_before 2 _ _ h3 (by omega))
  rw [show a / 1000000000 % 60 = b / 1000000000 % 60 by omega]
  refine append_before _ (append_before _ ?_)
  exact fixed_before 6 _ _ (by omega) (by omega)

theorem clock_same {a b : Nat} (h : a / 1000 = b / 1000) : clockString a = clockString b := by
  unfold clockString
  rw [show a / 3600000000000 = b / 3600000000000 by omega, show a / 60000000000 % 60 = b / 60000000000 % 60 by omega,
    show a / 1000000000 % 60 = b / 1000000000 % 60 by omega, h]

/-- **C151**: two clocks of a day read the same just if the times agree to the microsecond. -/
theorem clock_tells (a b : Nat) (ha : a < 86400000000000) (hb : b < 86400000000000) : clockString a = clockString b ↔ a / 1000 = b / 1000 := by
  refine ⟨fun h => ?_, clock_same⟩
  rcases Nat.lt_trichotomy (a / 1000) (b / 1000) with k | k | k
  · have := clock_before hb k
    rw [h] at this
    exact absurd this (before_irrefl _)
  · exact k
  · have := clock_before ha k
    rw [h] at this
    exact absurd this (before_irrefl _)

/-- **C151**: within a day the clocks are in the order of the dictionary just as the times are. -/
theorem clock_order (a b : Nat) (ha : a < 86400000000000) (hb : b < 86400000000000) :
    Spec.Before (clockString a) (clockString b) ↔ a / 1000 < b / 1000 := by
  refine ⟨fun h => ?_, clock_before hb⟩
  rcases Nat.lt_trichotomy (a / 1000) (b / 1000) with k | k | k
  · exact k
  · rw [clock_same k] at h
    exact absurd h (before_irrefl _)
  · exact absurd (clock_before ha k) (before_asymm h)

theorem clock_length (ns : Nat) : (clockString ns).length = 15 := by simp [clockString, fixed_length]

theorem clock_bytes (ns : Nat) : ∀ x ∈ clockString ns, 0x20 ≤ x.toNat ∧ x.toNat < 0x7F := by
  intro x hx
  simp only [clockString, List.mem_append, List.mem_singleton] at hx
  have hd : ∀ w n, x ∈ fixed w n → 0x20 ≤ x.toNat ∧ x.toNat < 0x7F := fun w n h => by
    have := (fixed_digits w n).2 x h; omega
  rcases hx with (((((h | h) | h) | h) | h) | h) | h
  · exact hd _ _ h
  · rw [h]; decide
  · exact hd _ _ h
  · rw [h]; decide
  · exact hd _ _ h
  · rw [h]; decide
  · exact hd _ _ h

/-- **C151**: the profiling segment is one character, which tells whether there is profiling, and if so, the quarter of the second; it
never fails. -/
theorem prof_tells (a b : Bool) (m n : Nat) (hm : m < 1000000000) (hn : n < 1000000000) :
    (∃ r, profString a m = some (encodeRune r)) ∧
    (profString a m = profString b n ↔ a = b ∧ (a = true → m / 250000000 = n / 250000000)) := by
  have key : ∀ k, k < 1000000000 → k / 1000000 / 250 = k / 250000000 ∧ k / 250000000 < 4 := by intro k hk; omega
  obtain ⟨m1, m2⟩ := key m hm
  obtain ⟨n1, n2⟩ := key n hn
  unfold profString sign
  rw [m1, n1]
  generalize m / 250000000 = i at m2 ⊢
  generalize n / 250000000 = j at n2 ⊢
  have h : ∀ i < 4, ∀ j < 4, ∀ a b : Bool,
      (Option.map encodeRune (if a then [0x25F4, 0x25F7, 0x25F6, 0x25F5][i]? else some 0x2299) =
        Option.map encodeRune (if b then [0x25F4, 0x25F7, 0x25F6, 0x25F5][j]? else some 0x2299) ↔ a = b ∧ (a = true → i = j)) := by
    decide +kernel
  refine ⟨?_, h i m2 j n2 a b⟩
  cases a
  · exact ⟨_, rfl⟩
  · rw [if_pos rfl, List.getElem?_eq_getElem (show i < [0x25F4, 0x25F7, 0x25F6, 0x25F5].length from m2)]
    exact ⟨_, rfl⟩

/-- The places of texts are those of texts of the same lengths. -/
theorem lefts_lengths : ∀ (l l' : List (List Nat)) (e : Nat), l.map List.length = l'.map List.length → Spec.lefts e l = Spec.lefts e l'
  | [], [], _, _ => rfl
  | [], _ :: _, _, h => by simp at h
  | _ :: _, [], _, h => by simp at h
  | t :: l, t' :: l', e, h => by
    simp only [List.map_cons, List.cons.injEq] at h
    unfold Spec.lefts
    rw [h.1, lefts_lengths l l' _ h.2]

theorem boxes_lengths (l l' : List (List Nat)) (e : Nat) (h : l.map List.length = l'.map List.length) : Spec.boxes e l = Spec.boxes e l' := by
  unfold Spec.boxes
  have hz : ∀ (x : List Nat) (l l' : List (List Nat)), l.map List.length = l'.map List.length →
      (List.zip x l).map (fun p => Spec.box p.1 0 p.2.length) = (List.zip x l').map (fun p => Spec.box p.1 0 p.2.length) := by
    intro x
    induction x with
    | nil => intros; rfl
    | cons a x ih =>
      intro l l' h
      cases l <;> cases l' <;> simp only [List.map_cons, List.map_nil, List.cons.injEq, reduceCtorEq] at h
      · rfl
      · simp only [List.zip_cons_cons, List.map_cons, List.cons.injEq]
        exact ⟨by rw [h.1], ih _ _ h.2⟩
  rw [lefts_lengths l l' e h]
  exact hz _ _ _ h

/-- **C151**: the header does not move with the time or the profiling: for two times, and two states of the profilers, and the same
other texts, the segments are at the same places, where they are pressed, and take the same room; outside the clock and the sign the
same characters are shown. -/
theorem header_stays {ε : Type} (E E' : Env ε) (m : Mouse.MState × Pt) (t t' : Nat) (a a' : Bool)
    (h1 : E.time = clockString t) (h1' : E'.time = clockString t')
    (h2 : profString a (t % 1000000000) = some E.prof) (h2' : profString a' (t' % 1000000000) = some E'.prof)
    (fps size flushed mouse : List Nat) (h3 : Spec.texts E m = E.time :: encodeRunes fps :: E.prof :: [size, flushed, mouse].map encodeRunes)
    (h3' : Spec.texts E' m = E'.time :: encodeRunes fps :: E'.prof :: [size, flushed, mouse].map encodeRunes) :
    ∃ l l' : List (List Nat), Spec.texts E m = l.map encodeRunes ∧ Spec.texts E' m = l'.map encodeRunes ∧
      Spec.room l = Spec.room l' ∧ ∀ e, Spec.boxes e l = Spec.boxes e l' ∧
        ∀ x, ¬ (e ≤ x + 15 ∧ x < e) → x + 18 + fps.length ≠ e → Spec.at_ e x l = Spec.at_ e x l' := by
  obtain ⟨⟨r, hr⟩, -⟩ := prof_tells a a (t % 1000000000) 0 (Nat.mod_lt _ (by omega)) (by omega)
  obtain ⟨⟨r', hr'⟩, -⟩ := prof_tells a' a' (t' % 1000000000) 0 (Nat.mod_lt _ (by omega)) (by omega)
  rw [hr] at h2
  rw [hr'] at h2'
  injection h2 with h2
  injection h2' with h2'
  have c : ∀ t, clockString t = encodeRunes ((clockString t).map UInt8.toNat) := fun t =>
    (ascii_runes _ fun x hx => by have := clock_bytes t x hx; omega).symm
  have e1 : ∀ r, encodeRune r = encodeRunes [r] := fun r => by simp [encodeRunes]
  refine ⟨(clockString t).map UInt8.toNat :: fps :: [r] :: [size, flushed, mouse],
    (clockString t').map UInt8.toNat :: fps :: [r'] :: [size, flushed, mouse], ?_, ?_, ?_, fun e => ⟨boxes_lengths _ _ _ ?_, fun x hx hx' => ?_⟩⟩
  · rw [h3]; simp only [List.map_cons, List.map_nil]; rw [← c, ← e1, h1, ← h2]
  · rw [h3']; simp only [List.map_cons, List.map_nil]; rw [← c, ← e1, h1', ← h2']
  · simp only [Spec.room, List.length_map, clock_length, List.length_singleton]
  · simp only [List.map_cons, List.length_map, clock_length, List.length_singleton]
  · unfold Spec.at_
    simp only [List.length_map, clock_length]
    rw [if_neg (by omega), if_neg (by omega)]
    unfold Spec.at_
    by_cases hf : e - 15 - 1 - fps.length ≤ x ∧ x < e - 15 - 1
    · rw [if_pos hf, if_pos hf]
    · rw [if_neg hf, if_neg hf]
      unfold Spec.at_
      simp only [List.length_singleton]
      rw [if_neg (by omega), if_neg (by omega)]

/-- The other three texts made of ASCII only. -/
theorem header_bytes (m : Mouse.MState) (p : Pt) (n : Nat) (r : Rect) (t : Bytes) (ht : mouseString m p = some t) :
    ∀ b ∈ [sizeString r, flushedString n, t], b ≠ [] ∧ ∀ x ∈ b, 0x20 ≤ x.toNat ∧ x.toNat < 0x7F := by
  have hp : ∀ q : Pt, ∀ x ∈ ptString q, 0x20 ≤ x.toNat ∧ x.toNat < 0x7F := by
    intro q x hx
    rcases point_bytes q x hx with h | h
    · have : ∀ x ∈ ascii "(,)-", 0x20 ≤ x.toNat ∧ x.toNat < 0x7F := by decide
      exact this x h
    · omega
  intro b hb
  simp only [List.mem_cons, List.not_mem_nil, or_false] at hb
  rcases hb with rfl | rfl | rfl
  · exact ⟨by simp [sizeString, ptString], hp _⟩
  · refine ⟨by simp [flushedString], fun x hx => ?_⟩
    unfold flushedString at hx
    simp only [List.mem_append, List.mem_cons, List.mem_replicate] at hx
    rcases hx with (h | h) | h | h
    · have : ∀ x ∈ ascii "W:", 0x20 ≤ x.toNat ∧ x.toNat < 0x7F := by decide
      exact this x h
    · rw [h.2]; decide
    · rw [h]; decide
    · have := Anansi.itoaNat_digits n x h; omega
  · unfold Evq.mouseString at ht
    rw [Option.map_eq_some_iff] at ht
    obtain ⟨k, hk, rfl⟩ := ht
    refine ⟨by simp [ptString], fun x hx => ?_⟩
    simp only [List.mem_append] at hx
    rcases hx with (h | h) | h
    · exact (Evq.name_bytes _ _ hk x h).2
    · have : ∀ x ∈ ascii "@", 0x20 ≤ x.toNat ∧ x.toNat < 0x7F := by decide
      exact this x h
    · exact hp _ x h

/-- **C151**: the header as it is made in a frame can be drawn, as the theorems about the overlay ask for: none of its six texts is
empty, all their characters are printable if the signs for profiling and those of the frame rate are, and the room it takes is known. -/
theorem header_ready {ε : Type} (E : Env ε) (hgr : ∀ r, 0x20 ≤ r → r < 0x7F → Screen.Printable E.gr r)
    (hsg : ∀ r ∈ [0x2299, 0x25F4, 0x25F7, 0x25F6, 0x25F5], Screen.Printable E.gr r) (m : Mouse.MState) (p : Pt) (t n : Nat) (a : Bool) (r : Rect)
    (fps : List Nat) (hf : fps ≠ [] ∧ ∀ x ∈ fps, Screen.Printable E.gr x)
    (h1 : E.time = clockString t) (h2 : E.fps = encodeRunes fps) (h3 : profString a (t % 1000000000) = some E.prof)
    (h4 : E.size = sizeString r) (h5 : E.flushed = flushedString n) (h6 : mouseString m p = some (E.mouse (m, p))) :
    ∃ l, Spec.texts E (m, p) = l.map encodeRunes ∧ (∀ t ∈ l, t ≠ [] ∧ ∀ x ∈ t, Screen.Printable E.gr x) ∧
      Spec.room l = 22 + fps.length + E.size.length + E.flushed.length + (E.mouse (m, p)).length := by
  have hs : ∀ b ∈ [sizeString r, flushedString n, E.mouse (m, p)], b ≠ [] ∧ ∀ x ∈ b, 0x20 ≤ x.toNat ∧ x.toNat < 0x7F :=
    header_bytes m p n r _ h6
  have c : ∀ b : Bytes, (∀ x ∈ b, 0x20 ≤ x.toNat ∧ x.toNat < 0x7F) → b = encodeRunes (b.map UInt8.toNat) := fun b hb =>
    (ascii_runes _ fun x hx => by have := hb x hx; omega).symm
  have pr : ∀ b : Bytes, (∀ x ∈ b, 0x20 ≤ x.toNat ∧ x.toNat < 0x7F) → ∀ x ∈ b.map UInt8.toNat, Screen.Printable E.gr x := by
    intro b hb x hx
    obtain ⟨y, hy, rfl⟩ := List.mem_map.1 hx
    exact hgr _ (hb y hy).1 (hb y hy).2
  have e1 : ∀ r, encodeRune r = encodeRunes [r] := fun r => by simp [encodeRunes]
  obtain ⟨g, hg, hp⟩ : ∃ g, g ∈ [0x2299, 0x25F4, 0x25F7, 0x25F6, 0x25F5] ∧ E.prof = encodeRunes [g] := by
    have hlt : t % 1000000000 / 1000000 / 250 < 4 := by omega
    unfold profString sign at h3
    generalize t % 1000000000 / 1000000 / 250 = i at h3 hlt
    rcases (by omega : i = 0 ∨ i = 1 ∨ i = 2 ∨ i = 3) with rfl | rfl | rfl | rfl <;> cases a <;> injection h3 with h3 <;> rw [← h3]
    all_goals first
      | exact ⟨0x2299, by decide, e1 _⟩
      | exact ⟨0x25F4, by decide, e1 _⟩
      | exact ⟨0x25F7, by decide, e1 _⟩
      | exact ⟨0x25F6, by decide, e1 _⟩
      | exact ⟨0x25F5, by decide, e1 _⟩
  obtain ⟨s1, s2⟩ := hs _ (List.mem_cons_self ..)
  obtain ⟨f1, f2⟩ := hs (flushedString n) (by simp)
  obtain ⟨m1, m2⟩ := hs (E.mouse (m, p)) (by simp)
  refine ⟨[(clockString t).map UInt8.toNat, fps, [g], (sizeString r).map UInt8.toNat, (flushedString n).map UInt8.toNat,
    (E.mouse (m, p)).map UInt8.toNat], ?_, ?_, ?_⟩
  · unfold Spec.texts
    simp only [List.map_cons, List.map_nil]
    rw [← c _ (clock_bytes t), ← c _ s2, ← c _ f2, ← c _ m2, h1, h2, hp, h4, h5]
  · intro x hx
    simp only [List.mem_cons, List.not_mem_nil, or_false] at hx
    rcases hx with rfl | rfl | rfl | rfl | rfl | rfl
    · refine ⟨fun h => ?_, pr _ (clock_bytes t)⟩
      have := congrArg List.length h
      rw [List.length_map, clock_length] at this
      cases this
    · exact hf
    · refine ⟨by simp, fun x hx => ?_⟩
      rw [List.mem_singleton.1 hx]
      exact hsg g hg
    · exact ⟨by simpa using s1, pr _ s2⟩
    · exact ⟨by simpa using f1, pr _ f2⟩
    · exact ⟨by simpa using m1, pr _ m2⟩
  · simp only [Spec.room, List.length_map, clock_length, List.length_singleton, h4, h5]
    omega

/-- A time in the afternoon: the nanoseconds are cut off. -/
example : clockString 54245123456789 = ascii "15:04:05.123456" := by decide +kernel
example : Spec.Before (clockString 35999999999999) (clockString 36000000000000) := (clock_order _ _ (by omega) (by omega)).2 (by omega)
example : profString true 600000000 = some (encodeRune 0x25F6) ∧ profString false 600000000 = some (encodeRune 0x2299) := by decide +kernel

/-- The hypotheses of `header_ready` hold, with a frame rate of 60; the header takes 54 columns. -/
def envC : Env Unit :=
  ⟨fun _ => true, fun es v => (es, v, none), fun h es v => .ok (h, es, v, none), {}, clockString 54245123456789, ascii "FPS:60/s", encodeRune 0x25F4,
    sizeString ⟨⟨1, 1⟩, ⟨81, 25⟩⟩, flushedString 912, fun q => (mouseString q.1 q.2).getD []⟩

example : envC.time = clockString 54245123456789 ∧ envC.fps = encodeRunes ("FPS:60/s".toList.map Char.toNat) ∧
    profString true (54245123456789 % 1000000000) = some envC.prof ∧ envC.size = sizeString ⟨⟨1, 1⟩, ⟨81, 25⟩⟩ ∧ envC.flushed = flushedString 912 ∧
    mouseString 0 ⟨3, 4⟩ = some (envC.mouse (0, ⟨3, 4⟩)) := by decide +kernel
example : 22 + 8 + envC.size.length + envC.flushed.length + (envC.mouse (0, ⟨3, 4⟩)).length = 54 := by decide +kernel

/-- The hypotheses of `header_stays`. -/
example : ∃ (E E' : Env Unit), E.time = clockString 54245123456789 ∧ E'.time = clockString 7 ∧ profString true (54245123456789 % 1000000000) = some E.prof ∧
    profString false (7 % 1000000000) = some E'.prof ∧
    Spec.texts E (0, ⟨0, 0⟩) = E.time :: encodeRunes [0x46] :: E.prof :: [[0x53], [0x57], [0x4D]].map encodeRunes ∧
    Spec.texts E' (0, ⟨0, 0⟩) = E'.time :: encodeRunes [0x46] :: E'.prof :: [[0x53], [0x57], [0x4D]].map encodeRunes := by
  refine ⟨⟨gr0, fun es v => (es, v, none), fun h es v => .ok (h, es, v, none), {}, clockString 54245123456789, ascii "F", encodeRune 0x25F4, ascii "S", ascii "W",
      fun _ => ascii "M"⟩,
    ⟨gr0, fun es v => (es, v, none), fun h es v => .ok (h, es, v, none), {}, clockString 7, ascii "F", encodeRune 0x2299, ascii "S", ascii "W", fun _ => ascii "M"⟩,
    rfl, rfl, by decide +kernel, by decide +kernel, by decide +kernel, by decide +kernel⟩

end Anansi.Hud
