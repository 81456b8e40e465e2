import Verif.Model.VCursor
import Verif.Spec.VCursor
import Verif.Lemmas.SgrOver
import Verif.Lemmas.Render
import Verif.Props.RenderMore
import Verif.Props.Stream
/-
C36 and C37: the virtual cursor.
-/
set_option autoImplicit false

namespace Anansi
open Vt Geom Render

/-- The invariant: the tracked cursor agrees with the terminal, and has a valid position
exactly when it is known. -/
structure Follows (c : Cursor) (t : Term) (k : Bool) : Prop where
  ok : k = true → valid c.pt = true
  un : k = false → c.pt.y ≤ 0
  agree : Agree c t

theorem Follows.at {c : Cursor} {t : Term} (F : Follows c t true) (h : t.pend = false) : t.At c.pt := by
  rcases F.agree.pos (F.ok rfl) with h1 | h1
  · exact h1
  · have := h1.2.1; rw [h] at this; simp at this

theorem Follows.invalid {c : Cursor} {t : Term} (F : Follows c t false) : valid c.pt = false := by
  have := F.un rfl
  simp only [valid, Bool.and_eq_false_iff, decide_eq_false_iff_not]; omega

theorem valid_of_le {p : Pt} (h : p.y ≤ 0) : ¬ valid p = true := by
  simp only [valid, Bool.and_eq_true, decide_eq_true_eq]; omega

theorem at_valid {t : Term} {p : Pt} (h : t.At p) : valid p = true := near_valid (Or.inl h)

/-- Replace the point by one where the terminal is. -/
theorem Follows.moved {c : Cursor} {t t' : Term} {k : Bool} (F : Follows c t k) (p : Pt)
    (h : t'.At p ∨ t'.Past p) (hs : t'.style = t.style) (hv : t'.vis = t.vis) :
    Follows { c with pt := p } t' true :=
  ⟨fun _ => near_valid h, fun h => by simp at h, fun _ => h,
    fun h => by rw [hs]; exact F.agree.attr h, fun h => by rw [hv]; exact F.agree.vis h⟩

/-- A point without knowledge of the position. -/
theorem Follows.lost {c : Cursor} {t t' : Term} {k : Bool} (F : Follows c t k) (p : Pt)
    (h : p.y ≤ 0) (hs : t'.style = t.style) (hv : t'.vis = t.vis) :
    Follows { c with pt := p } t' false :=
  ⟨fun h => by simp at h, fun _ => h, fun h' => absurd h' (valid_of_le h),
    fun h => by rw [hs]; exact F.agree.attr h, fun h => by rw [hv]; exact F.agree.vis h⟩

theorem step_vis_style (t : Term) (o : Vt.Op) :
    (∀ ps, o ≠ .sgr ps) → o ≠ .show_ → o ≠ .hide → (t.step o).style = t.style ∧ (t.step o).vis = t.vis := by
  intro h1 h2 h3
  cases o <;> simp_all [Term.step, Term.lineFeed]
  · constructor <;> split <;> (try split) <;> rfl
  · constructor <;> split <;> rfl

theorem params_one (n : Option Nat) : params n.toList = match n with | none => [] | some n => itoaNat n := by
  cases n <;> rfl

theorem motion_event (f : UInt8) (hf : 0x41 ≤ f.toNat ∧ f.toNat ≤ 0x44) (n : Option Nat) (h0 : n ≠ some 0)
    (hn : count n ≤ 2 ^ 32 - 1) (gr : Nat → Bool) (c : Cursor) :
    c.processANSI gr (csiId f, params n.toList) =
      some { c with pt := ptAdd c.pt ⟨(Cursor.moveOf (csiId f)).x * count n, (Cursor.moveOf (csiId f)).y * count n⟩ } := by
  have he : isEscape (csiId f) = true := by
    unfold isEscape csiId
    simp only [Bool.and_eq_true, decide_eq_true_eq]; omega
  have hid : csiId f = CUU ∨ csiId f = CUD ∨ csiId f = CUF ∨ csiId f = CUB := by
    simp only [csiId, CUU, CUD, CUF, CUB]
    have : (0x41 : UInt8).toNat = 65 := rfl
    have : (0x42 : UInt8).toNat = 66 := rfl
    have : (0x43 : UInt8).toNat = 67 := rfl
    have : (0x44 : UInt8).toNat = 68 := rfl
    omega
  unfold Cursor.processANSI
  simp only [he, if_true]
  unfold Cursor.processEscape
  rw [if_pos hid, params_one]
  cases n with
  | none => simp [count]
  | some n =>
    have h1 : 1 ≤ n := by rcases Nat.eq_zero_or_pos n with rfl | h; · simp at h0
                          exact h
    have hc : count (some n) = n := by simp [count]; omega
    rw [hc] at hn ⊢
    have hd := decodeNumber_itoa n [] (by simp only [numMaxVal]; omega) (by intro d h; simp at h)
    rw [List.append_nil] at hd
    have hl : (itoaNat n).length > 0 := by
      obtain ⟨d, t, e, _⟩ := itoaNat_head n; rw [e]; simp
    dsimp only
    rw [if_pos hl, hd]
    simp


theorem plain_of_printable {gr : Nat → Bool} {r : Nat} (h : Printable gr r) : plainRune r := by
  obtain ⟨h1, h2, h3, h4, h5⟩ := h
  refine ⟨?_, ?_⟩
  · unfold validRune
    simp only [Bool.or_eq_true, Bool.and_eq_true, decide_eq_true_eq]; omega
  · unfold startsEscape; omega

theorem delivers_rune {r : Nat} (h : plainRune r) : Delivers (encodeRune r) [(r, [])] := by
  have ⟨h1, h2, h3⟩ := plain_intro h
  exact fun rest => process_rune r h1 h2 h3 rest

theorem delivers_motion (f : UInt8) (hf : 0x40 ≤ f.toNat ∧ f.toNat ≤ 0x7E) (l : List Nat) :
    Delivers (csi (params l) f) [(csiId f, params l)] := by
  refine delivers_csi f _ hf ?_
  induction l with
  | nil => simp [params]
  | cons a t ih =>
    cases t with
    | nil => exact itoaNat_range a
    | cons b t =>
      intro x hx
      simp only [params, List.mem_append, List.mem_cons] at hx
      rcases hx with h | rfl | h
      · exact itoaNat_range a x h
      · decide
      · exact ih x h

/-- One bit: it is decoded as a whole whatever follows, its bytes are those of terminal
operations with the bit's effect, and the tracker follows. -/
theorem bit_follow (gr : Nat → Bool) (t : Term) (c : Cursor) (k : Bool) (b : Bit)
    (tw : t.w ≤ 2 ^ 32 - 1) (th : t.h ≤ 2 ^ 32 - 1) (F : Follows c t k) (h : b.Ok gr t k) :
    ∃ ev c' ops, Delivers b.bytes [ev] ∧ c.processANSI gr ev = some c' ∧ b.bytes = text ops ∧
      t.run ops = b.after t ∧ Follows c' (b.after t) (b.known k) := by
  cases b with
  | style s =>
    obtain ⟨h1, h2⟩ := h
    obtain ⟨ps, e1, e2⟩ := sgr_bytes_meaning s h1
    obtain ⟨arg, hr, ha⟩ := sgr_frame s
    obtain ⟨arg', g1, g2⟩ := Sgr.sgr_roundtrip_partial s h2 []
    have g3 := decodeEscape_csi arg 0x6D [] hr (by decide)
    have : arg' = arg := by
      rw [List.append_nil, ha] at g1
      rw [g3] at g1
      simp only [EscRes.mk.injEq] at g1
      exact g1.2.1.symm
    subst this
    rw [if_neg h1] at g2
    refine ⟨(csiId 0x6D, arg'), { c with attr := Sgr.merge c.attr s.build }, [.sgr ps], ?_, ?_, e1, e2 t, ?_⟩
    · show Delivers (Sgr.append s.build) _
      rw [ha]; exact delivers_csi 0x6D arg' (by decide) hr
    · have hm : csiId 0x6D = SGR := rfl
      rw [hm]
      unfold Cursor.processANSI
      dsimp only
      rw [if_pos (by decide)]
      unfold Cursor.processEscape
      rw [if_neg (by decide), if_neg (by decide), if_pos rfl, g2]
      rfl
    · refine ⟨F.ok, F.un, F.agree.pos, fun hk => ?_, F.agree.vis⟩
      obtain ⟨a1, a2⟩ := F.agree.attr hk
      refine ⟨?_, ?_⟩
      · show (s.over t.style).clear = false
        unfold Sgr.Style.over
        by_cases hc : s.clear = true <;> simp [hc, a1]
      · show Sgr.merge c.attr s.build = (s.over t.style).build
        rw [a2, Sgr.merge_over]
  | op o =>
    have one : ∀ o : Vt.Op, (Bit.op o).bytes = text [o] := fun o => (text_one o).symm
    cases o with
    | put r =>
      obtain ⟨h1, h2⟩ := h
      refine ⟨(r, []), _, [.put r], delivers_rune (plain_of_printable h1), h1.process c, one _, rfl, ?_⟩
      show Follows _ (t.step (.put r)) k
      have ⟨s1, s2⟩ := step_vis_style t (.put r) (by simp) (by simp) (by simp)
      cases k with
      | false =>
        exact F.lost _ (F.un rfl) s1 s2
      | true =>
        have hp := h2 rfl
        obtain ⟨⟨hx, hy⟩, _, e⟩ := F.at hp
        refine F.moved _ ?_ s1 s2
        rw [e]
        have st : t.step (.put r) = t.printed t.x t.y ⟨r, t.style⟩ := by
          simp [Term.step, Term.printed, hp]
        rw [st]
        by_cases hw : t.x + 1 < t.w
        · left
          refine ⟨?_, ?_, ?_⟩
          · simp only [Term.Ok, Term.printed, if_pos hw]; exact ⟨hw, hy⟩
          · simp [Term.printed, hw]
          · simp only [Term.printed, if_pos hw, Pt.mk.injEq, and_true]; push_cast; omega
        · right
          refine ⟨?_, ?_, ?_, ?_⟩
          · simp only [Term.Ok, Term.printed, if_neg hw]; exact ⟨hx, hy⟩
          · simp [Term.printed, hw]
          · simp only [Term.printed, if_neg hw]; omega
          · simp only [Term.printed, Pt.mk.injEq, and_true]; omega
    | cr =>
      refine ⟨(0x0D, []), { c with pt := ⟨1, c.pt.y⟩ }, [.cr], ?_, ?_, one _, rfl, ?_⟩
      · exact delivers_rune (r := 0x0D) (by decide)
      · rfl
      · show Follows _ (t.step .cr) k
        cases k with
        | false => exact F.lost _ (F.un rfl) rfl rfl
        | true =>
          refine F.moved _ (Or.inl ?_) rfl rfl
          rcases F.agree.pos (F.ok rfl) with ⟨⟨hx, hy⟩, _, e⟩ | ⟨⟨hx, hy⟩, _, _, e⟩ <;>
          · refine ⟨⟨by simp only [Term.step]; omega, hy⟩, rfl, ?_⟩
            have : c.pt.y = t.y + 1 := by rw [e]
            rw [this]; rfl
    | lf =>
      obtain ⟨rfl, hp, hy⟩ := h
      obtain ⟨⟨hx, _⟩, _, e⟩ := F.at hp
      have st : t.step .lf = { t with y := t.y + 1, pend := false } := by
        simp [Term.step, Term.lineFeed, hy]
      refine ⟨(0x0A, []), { c with pt := ⟨c.pt.x, c.pt.y + 1⟩ }, [.lf], delivers_rune (r := 0x0A) (by decide), rfl,
        one _, rfl, ?_⟩
      show Follows _ (t.step .lf) true
      rw [st]
      refine F.moved _ (Or.inl ⟨⟨hx, hy⟩, rfl, ?_⟩) rfl rfl
      rw [e]; simp
    | up n =>
      obtain ⟨rfl, hp, h0, hy⟩ := h
      obtain ⟨⟨hx, hy'⟩, _, e⟩ := F.at hp
      refine ⟨_, _, [.up n], delivers_motion 0x41 (by decide) n.toList, motion_event 0x41 (by decide) n h0 (by omega) gr c,
        one _, rfl, F.moved _ (Or.inl ⟨⟨hx, ?_⟩, rfl, ?_⟩) rfl rfl⟩
      · simp only [Bit.after, Term.step]; omega
      · have : Cursor.moveOf (csiId 0x41) = ⟨0, -1⟩ := by decide
        rw [e, this]; simp only [ptAdd, Bit.after, Term.step, Pt.mk.injEq]; omega
    | down n =>
      obtain ⟨rfl, hp, h0, hy⟩ := h
      obtain ⟨⟨hx, hy'⟩, _, e⟩ := F.at hp
      refine ⟨_, _, [.down n], delivers_motion 0x42 (by decide) n.toList, motion_event 0x42 (by decide) n h0 (by omega) gr c,
        one _, rfl, F.moved _ (Or.inl ⟨⟨hx, ?_⟩, rfl, ?_⟩) rfl rfl⟩
      · simp only [Bit.after, Term.step]; omega
      · have : Cursor.moveOf (csiId 0x42) = ⟨0, 1⟩ := by decide
        rw [e, this]; simp only [ptAdd, Bit.after, Term.step, Pt.mk.injEq]; omega
    | forward n =>
      obtain ⟨rfl, hp, h0, hy⟩ := h
      obtain ⟨⟨hx, hy'⟩, _, e⟩ := F.at hp
      refine ⟨_, _, [.forward n], delivers_motion 0x43 (by decide) n.toList, motion_event 0x43 (by decide) n h0 (by omega) gr c,
        one _, rfl, F.moved _ (Or.inl ⟨⟨?_, hy'⟩, rfl, ?_⟩) rfl rfl⟩
      · simp only [Bit.after, Term.step]; omega
      · have : Cursor.moveOf (csiId 0x43) = ⟨1, 0⟩ := by decide
        rw [e, this]; simp only [ptAdd, Bit.after, Term.step, Pt.mk.injEq]; omega
    | back n =>
      obtain ⟨rfl, hp, h0, hy⟩ := h
      obtain ⟨⟨hx, hy'⟩, _, e⟩ := F.at hp
      refine ⟨_, _, [.back n], delivers_motion 0x44 (by decide) n.toList, motion_event 0x44 (by decide) n h0 (by omega) gr c,
        one _, rfl, F.moved _ (Or.inl ⟨⟨?_, hy'⟩, rfl, ?_⟩) rfl rfl⟩
      · simp only [Bit.after, Term.step]; omega
      · have : Cursor.moveOf (csiId 0x44) = ⟨-1, 0⟩ := by decide
        rw [e, this]; simp only [ptAdd, Bit.after, Term.step, Pt.mk.injEq]; omega
    | cup r q =>
      obtain ⟨⟨hr1, hr2⟩, ⟨hq1, hq2⟩⟩ := h
      refine ⟨_, { c with pt := ⟨q, r⟩ }, [.cup r q], delivers_motion 0x48 (by decide) [r, q], ?_,
        one _, rfl, F.moved _ (Or.inl ⟨⟨?_, ?_⟩, rfl, ?_⟩) rfl rfl⟩
      · have hm : csiId 0x48 = CUP := rfl
        rw [hm]
        unfold Cursor.processANSI
        dsimp only
        rw [if_pos (by decide)]
        unfold Cursor.processEscape
        rw [if_neg (by decide), if_pos rfl]
        have hp : params [r, q] = itoaNat r ++ 0x3B :: itoaNat q := rfl
        have hn1 : noDigit (0x3B :: itoaNat q) := by intro d h; simp at h; subst h; simp
        have hn2 : noDigit [] := by intro d h; simp at h
        have hd : decodePoint (params [r, q]) = ⟨⟨(q : Int), (r : Int)⟩, (params [r, q]).length, none⟩ := by
          rw [hp]
          simp only [decodePoint]
          rw [decodeNumber_itoa r _ (by simp only [numMaxVal]; omega) hn1]
          simp only [if_true, List.drop_left]
          have := decodeNumber_sep_itoa q [] (by simp only [numMaxVal]; omega) hn2
          rw [List.append_nil] at this
          rw [this]; simp; omega
        dsimp only
        rw [if_pos (by rw [hp]; simp), hd]
        rfl
      · simp only [Bit.after, Term.step]; omega
      · simp only [Bit.after, Term.step]; omega
      · simp only [Bit.after, Term.step, Pt.mk.injEq]; omega
    | eraseAll =>
      refine ⟨(csiId 0x4A, params [2]), c, [.eraseAll], delivers_motion 0x4A (by decide) [2], rfl, one _, rfl, ?_⟩
      exact ⟨F.ok, F.un, F.agree.pos, F.agree.attr, F.agree.vis⟩
    | sgr ps => exact h.elim
    | show_ =>
      refine ⟨(csiId 0x68, 0x3F :: params [25]), { c with visible := true }, [.show_],
        delivers_csi 0x68 _ (by decide) (by decide +kernel), ?_, one _, rfl,
        F.ok, F.un, F.agree.pos, F.agree.attr, fun _ => rfl⟩
      have : params [25] = [0x32, 0x35] := by decide +kernel
      rw [this]
      unfold Cursor.processANSI
      dsimp only
      rw [if_pos (by decide)]
      unfold Cursor.processEscape
      rw [if_neg (by decide), if_neg (by decide), if_neg (by decide), if_pos (by decide)]
      unfold Cursor.modes
      rw [if_pos (by decide)]
      have : ∀ v, Cursor.modeLoop true [0x32, 0x35] v = some true := by decide +kernel
      rw [List.drop_one, List.tail_cons, this]; rfl
    | hide =>
      refine ⟨(csiId 0x6C, 0x3F :: params [25]), { c with visible := false }, [.hide],
        delivers_csi 0x6C _ (by decide) (by decide +kernel), ?_, one _, rfl,
        F.ok, F.un, F.agree.pos, F.agree.attr, fun _ => rfl⟩
      have : params [25] = [0x32, 0x35] := by decide +kernel
      rw [this]
      unfold Cursor.processANSI
      dsimp only
      rw [if_pos (by decide)]
      unfold Cursor.processEscape
      rw [if_neg (by decide), if_neg (by decide), if_neg (by decide), if_neg (by decide), if_pos (by decide)]
      unfold Cursor.modes
      rw [if_pos (by decide)]
      have : ∀ v, Cursor.modeLoop false [0x32, 0x35] v = some false := by decide +kernel
      rw [List.drop_one, List.tail_cons, this]; rfl


/-- The width and height never change. -/
theorem step_size (t : Term) (o : Vt.Op) : (t.step o).w = t.w ∧ (t.step o).h = t.h := by
  cases o <;> simp only [Term.step, Term.lineFeed, and_self]
  · constructor <;> split <;> (try split) <;> rfl
  · constructor <;> split <;> rfl

theorem Bit.after_size (t : Term) (b : Bit) : (b.after t).w = t.w ∧ (b.after t).h = t.h := by
  cases b with
  | op o => exact step_size t o
  | style s => exact ⟨rfl, rfl⟩

theorem bits_follow (gr : Nat → Bool) : ∀ (l : List Bit) (t : Term) (c : Cursor) (k : Bool),
    t.w ≤ 2 ^ 32 - 1 → t.h ≤ 2 ^ 32 - 1 → Follows c t k → Bit.Flow gr t k l →
    ∃ evs c' ops, Delivers (l.flatMap Bit.bytes) evs ∧ VCursor.processAll gr c evs = some c' ∧
      l.flatMap Bit.bytes = text ops ∧ t.run ops = l.foldl Bit.after t ∧
      Follows c' (l.foldl Bit.after t) (l.foldl Bit.known k)
  | [], t, c, k, _, _, F, _ => ⟨[], c, [], .nil, rfl, rfl, rfl, F⟩
  | b :: l, t, c, k, tw, th, F, h => by
    obtain ⟨h1, h2⟩ := h
    obtain ⟨ev, c1, o1, e1, e2, e3, e4, e5⟩ := bit_follow gr t c k b tw th F h1
    have ⟨s1, s2⟩ := Bit.after_size t b
    obtain ⟨evs, c2, o2, g1, g2, g3, g4, g5⟩ := bits_follow gr l (b.after t) c1 (b.known k)
      (by rw [s1]; exact tw) (by rw [s2]; exact th) e5 h2
    refine ⟨[ev] ++ evs, c2, o1 ++ o2, ?_, ?_, ?_, ?_, g5⟩
    · rw [List.flatMap_cons]; exact e1.append g1
    · simp only [List.singleton_append, VCursor.processAll, e2, Option.bind_some, g2]
    · rw [List.flatMap_cons, e3, g3, text_append]
    · rw [run_append, e4, g4]; rfl

/-- The model's call for a specification call. -/
def CurCall.op : CurCall → VCursor.Op
  | .bits l => .write (l.flatMap Bit.bytes)
  | .style l => .sgr (l.map Sgr.Style.build)
  | .move x y => .moveTo ⟨x + 1, y + 1⟩
  | .show_ => .show_
  | .hide => .hide

/-- Everything buffered was processed or skipped. -/
def VCursor.Settled (v : VCursor) : Prop := v.buf.off = v.buf.buf.length

theorem place_eq {c : Cursor} {t : Term} (h : t.At c.pt ∨ t.Past c.pt) : Bit.place t = c.pt := by
  rcases h with ⟨_, h1, h2⟩ | ⟨_, h1, _, h2⟩ <;> rw [h2] <;> simp [Bit.place, h1]

theorem style_follow : ∀ (l : List Sgr.Style) (t : Term) (v : VCursor) (k : Bool),
    Follows v.cur t k → (∀ s ∈ l, s.clear = false) →
    ∃ v' ops, v.sgrLoop (l.map Sgr.Style.build) = (v', (text ops).length) ∧
      v'.buf = v.buf.write (text ops) ∧ v'.real = v.real ∧
      t.run ops = l.foldl (fun t s => { t with style := s }) t ∧
      Follows v'.cur (l.foldl (fun t s => { t with style := s }) t) k
  | [], t, v, k, F, _ => ⟨v, [], rfl, by simp [Buffer.write, text], rfl, rfl, F⟩
  | s :: l, t, v, k, F, h => by
    obtain ⟨o1, e1, e2, e3⟩ := merge_sgr_shows v.cur s (h s (by simp)) t F.agree.attr
    have F1 : Follows (v.cur.mergeSGR s.build).1 { t with style := s } k := by
      rw [e3]
      exact ⟨F.ok, F.un, F.agree.pos, fun _ => ⟨h s (by simp), rfl⟩, F.agree.vis⟩
    obtain ⟨v', o2, g1, g2, g3, g4, g5⟩ := style_follow l { t with style := s }
      { v with cur := (v.cur.mergeSGR s.build).1, buf := v.buf.write (sgrText (v.cur.mergeSGR s.build).2) } k F1
      (fun x hx => h x (by simp [hx]))
    refine ⟨v', o1 ++ o2, ?_, ?_, g3, ?_, g5⟩
    · simp only [List.map_cons, VCursor.sgrLoop]
      rw [g1, e1, text_append, List.length_append]
    · rw [g2, text_append]
      simp only [Buffer.write, e1, List.append_assoc]
    · rw [run_append, e2, g4]; rfl

/-- One call. -/
theorem call_follow (gr : Nat → Bool) (t : Term) (v : VCursor) (k : Bool) (c : CurCall)
    (tw : t.w ≤ 2 ^ 32 - 1) (th : t.h ≤ 2 ^ 32 - 1) (F : Follows v.cur t k) (S : v.Settled)
    (h : c.Ok gr t k) :
    ∃ v' ops, v.op gr c.op = some v' ∧ v'.Settled ∧ v'.buf.buf = v.buf.buf ++ text ops ∧
      v'.real = v.real ∧ t.run ops = c.after t ∧ Follows v'.cur (c.after t) (c.known k) := by
  unfold VCursor.Settled at S ⊢
  cases c with
  | bits l =>
    obtain ⟨evs, c', ops, g1, g2, g3, g4, g5⟩ := bits_follow gr l t v.cur k tw th F h
    have hp : (v.buf.write (l.flatMap Bit.bytes)).process? =
        some (evs, ⟨v.buf.buf ++ text ops, v.buf.off + (text ops).length⟩) := by
      unfold Buffer.process? Buffer.write
      simp only [List.length_append]
      rw [if_pos (by omega), List.drop_append, List.drop_of_length_le (by omega), S, Nat.sub_self,
        List.drop_zero, List.nil_append, g1.all]
      simp [g3]
    refine ⟨{ v with cur := c', buf := ⟨v.buf.buf ++ text ops, v.buf.off + (text ops).length⟩ }, ops, ?_, ?_, rfl, rfl,
      g4, g5⟩
    · simp only [CurCall.op, VCursor.op, VCursor.write, hp, Option.bind_some, g2, Option.map_some]
    · simp [S]
  | style l =>
    obtain ⟨v', ops, g1, g2, g3, g4, g5⟩ := style_follow l t v k F h
    simp only [CurCall.op, VCursor.op, VCursor.writeSGR, g1]
    split
    · exact ⟨_, ops, rfl, by simp [Buffer.skip, g2, Buffer.write, S], by simp [Buffer.skip, g2, Buffer.write], g3, g4, g5⟩
    · next hl =>
      have : text ops = [] := List.length_eq_zero_iff.mp (by omega)
      refine ⟨_, ops, rfl, by simp [g2, Buffer.write, S, this], by simp [g2, Buffer.write], g3, g4, g5⟩
  | move x y =>
    obtain ⟨hx, hy, hj⟩ := h
    have hj' : valid v.cur.pt = true → ¬ Awkward t.w v.cur.pt ⟨x + 1, y + 1⟩ := by
      intro hv
      cases k with
      | false => rw [F.invalid] at hv; simp at hv
      | true =>
        have := hj rfl
        rwa [place_eq (F.agree.pos hv)] at this
    obtain ⟨q, ops, e1, e2, e3⟩ := cursor_to t v.cur x y hx hy (by
        intro hv
        rcases F.agree.pos hv with h | h
        · exact Or.inl h
        · refine Or.inr ⟨h, fun hrow => ?_⟩
          by_contra hne
          exact hj' hv (Or.inr ⟨by rw [h.2.2.2], hrow.symm, by dsimp only; omega⟩))
      (fun hv hver => hj' hv (Or.inl hver))
    refine ⟨{ v with cur := { v.cur with pt := ⟨x + 1, y + 1⟩ }, buf := (v.buf.write (text ops)).skip (text ops).length },
      ops, ?_, ?_, rfl, rfl, e3, ?_⟩
    · simp only [CurCall.op, VCursor.op, VCursor.to, VCursor.emit, e1, Option.bind_some, e2, Option.map_some]
    · simp [Buffer.write, Buffer.skip, S]
    · exact F.moved _ (Or.inl ⟨⟨hx, hy⟩, rfl, rfl⟩) rfl rfl
  | show_ =>
    obtain ⟨c', s, b, g1, g2, g3⟩ := show_text v.cur
    have hop : v.op gr CurCall.show_.op = some { v with cur := c', buf := (v.buf.write b).skip b.length } := by
      simp only [CurCall.op, VCursor.op, VCursor.show_, VCursor.emit, g1, Option.bind_some, g2, Option.map_some]
    rcases g3 with ⟨h1, h2, rfl, rfl⟩ | ⟨rfl, rfl⟩
    · have hv : t.vis = true := by rw [F.agree.vis h1, h2]
      have ht : ({ t with vis := true } : Term) = t := by rw [← hv]
      refine ⟨_, [], hop, by simp [Buffer.write, Buffer.skip, S], rfl, rfl, ht.symm, ?_⟩
      show Follows _ { t with vis := true } k
      rw [ht]; exact F
    · exact ⟨_, [.show_], hop, by simp [Buffer.write, Buffer.skip, S], rfl, rfl, rfl,
        F.ok, F.un, F.agree.pos, F.agree.attr, fun _ => rfl⟩
  | hide =>
    obtain ⟨c', s, b, g1, g2, g3⟩ := hide_text v.cur
    have hop : v.op gr CurCall.hide.op = some { v with cur := c', buf := (v.buf.write b).skip b.length } := by
      simp only [CurCall.op, VCursor.op, VCursor.hide, VCursor.emit, g1, Option.bind_some, g2, Option.map_some]
    rcases g3 with ⟨h1, h2, rfl, rfl⟩ | ⟨rfl, rfl⟩
    · have hv : t.vis = false := by rw [F.agree.vis h1, h2]
      have ht : ({ t with vis := false } : Term) = t := by rw [← hv]
      refine ⟨_, [], hop, by simp [Buffer.write, Buffer.skip, S], rfl, rfl, ht.symm, ?_⟩
      show Follows _ { t with vis := false } k
      rw [ht]; exact F
    · exact ⟨_, [.hide], hop, by simp [Buffer.write, Buffer.skip, S], rfl, rfl, rfl,
        F.ok, F.un, F.agree.pos, F.agree.attr, fun _ => rfl⟩

theorem CurCall.after_size (t : Term) (c : CurCall) : (c.after t).w = t.w ∧ (c.after t).h = t.h := by
  cases c with
  | bits l =>
    show (l.foldl Bit.after t).w = t.w ∧ (l.foldl Bit.after t).h = t.h
    induction l generalizing t with
    | nil => exact ⟨rfl, rfl⟩
    | cons b l ih =>
      have ⟨h1, h2⟩ := Bit.after_size t b
      have ⟨h3, h4⟩ := ih (b.after t)
      exact ⟨by rw [List.foldl_cons, h3, h1], by rw [List.foldl_cons, h4, h2]⟩
  | style l =>
    show (l.foldl _ t).w = t.w ∧ (l.foldl _ t).h = t.h
    induction l generalizing t with
    | nil => exact ⟨rfl, rfl⟩
    | cons b l ih => exact ih _
  | move x y => exact ⟨rfl, rfl⟩
  | show_ => exact ⟨rfl, rfl⟩
  | hide => exact ⟨rfl, rfl⟩

/-- **C36** (sessions the tracker can follow): after any such session of text, raw
control sequences, styles, moves and visibility changes, the buffered bytes are those of
terminal operations that take the terminal where the calls say, and the tracked cursor
agrees with it about position, attributes and visibility.
Missing from the full property, because it fails: `Apply` (`apply_counts_twice`), moves
straight up or down and back from the margin (C31), text that wraps
(`wrap_not_followed`), relative motion or line feeds from an unknown position
(`newline_from_unknown`), motions by zero (`zero_motion`). -/
theorem session_follow_partial (gr : Nat → Bool) : ∀ (l : List CurCall) (t : Term) (v : VCursor) (k : Bool),
    t.w ≤ 2 ^ 32 - 1 → t.h ≤ 2 ^ 32 - 1 → Follows v.cur t k → v.Settled → CurCall.Session gr t k l →
    ∃ v' ops, v.ops gr (l.map CurCall.op) = some v' ∧ v'.buf.buf = v.buf.buf ++ text ops ∧
      t.run ops = l.foldl CurCall.after t ∧ Agree v'.cur (t.run ops) ∧ v'.real = v.real ∧ v'.Settled ∧
      Follows v'.cur (t.run ops) (l.foldl CurCall.known k)
  | [], t, v, k, _, _, F, S, _ => ⟨v, [], rfl, by simp [text], rfl, F.agree, rfl, S, F⟩
  | c :: l, t, v, k, tw, th, F, S, h => by
    obtain ⟨v1, o1, e1, e2, e3, e4, e5, e6⟩ := call_follow gr t v k c tw th F S h.1
    have ⟨s1, s2⟩ := CurCall.after_size t c
    obtain ⟨v2, o2, g1, g2, g3, g4, g5, g6, g7⟩ := session_follow_partial gr l (c.after t) v1 (c.known k)
      (by rw [s1]; exact tw) (by rw [s2]; exact th) e6 e2 h.2
    refine ⟨v2, o1 ++ o2, ?_, ?_, ?_, ?_, ?_, g6, ?_⟩
    · simp only [List.map_cons, VCursor.ops, e1, Option.bind_some, g1]
    · rw [g2, e3, text_append, List.append_assoc]
    · rw [run_append, e5, g3]; rfl
    · rw [run_append, e5]; exact g4
    · rw [g5, e4]
    · rw [run_append, e5]; exact g7

end Anansi
