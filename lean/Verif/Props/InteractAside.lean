import Verif.Props.InteractEdit
/-
`interact` while the value of a variable that is not the last word is edited: what the terminal shows (C149).
-/
set_option autoImplicit false

namespace Anansi

namespace Itr
open Edl Evq

variable {gr : Nat → Bool} {cmd : List Bytes} {ts : List Spec.Item} {w h y : Nat}

theorem drawWord_same {st s0 : St} (i j : Nat) (wd : Bytes) (v : VScreen) (ha : st.argi = s0.argi) (hv : st.val[j]? = s0.val[j]?) :
    st.drawWord gr i j wd v = s0.drawWord gr i j wd v := by
  unfold St.drawWord
  rw [ha, hv]

/-- A word that is neither pressed nor being edited, drawn at any column. -/
theorem word_quiet (hsp : Screen.Printable gr 0x20) (heq : Screen.Printable gr 0x3D)
    (world : List (List Bytes) → Outcome) (f : Full) {s0 : St} {w0 : Nat} (S : Setup gr cmd s0 ts w0) (ha : f.s.argi = s0.argi)
    (i : Nat) (hval : f.s.val[Spec.slot cmd i]? = s0.val[Spec.slot cmd i]?) (hi : i < ts.length) (c : Sh) {x : Nat}
    (R : Hud.Ready c.v w h x y) (B : c.v.sc.cur.attr = 0 ∧ c.v.sc.cur.attrKnown = true) (hx : x + (Spec.cells i ts[i]).length < w)
    (hp : ∀ e ∈ c.es, ¬ Spec.press e) (he : f.s.edid ≠ i + 1) :
    ∃ v', f.word gr world i (Spec.slot cmd i) (encodeRunes ts[i].text) c = .ok (f, Spec.slot cmd (i + 1), ⟨c.es, v', c.user⟩) ∧
      Ink c.v v' w h x y (Spec.cells i ts[i]) ∧ v'.buf.buf = (if Spec.style i ts[i].var ≠ 0 then ends else []) := by
  obtain ⟨v', e, I, b⟩ := drawWord_ok gr hsp heq s0 i (Spec.slot cmd i) ts[i] (S.plain _ (List.getElem_mem hi)) (S.var i hi)
    (fun hv => S.shows.vals i hi hv) c.v R hx (Or.inr B)
  refine ⟨v', ?_, I, b⟩
  obtain ⟨n1, n2⟩ := no_press (d := Hud.Spec.box (x + Spec.gap i) y ts[i].text.length) hp
  unfold Full.word
  rw [drawWord_same i _ _ _ ha hval, e]
  simp only [Except.bind, countPressesIn_exact, n1, n2, Nat.zero_add, Nat.zero_mod, Nat.zero_ne_one, if_false, ha, S.next i hi]
  rw [if_neg (fun h => he h.1)]

/-- The words from the `i`-th on, neither pressed nor being edited, drawn from any column on. -/
theorem words_onward (hsp : Screen.Printable gr 0x20) (heq : Screen.Printable gr 0x3D)
    (world : List (List Bytes) → Outcome) (f : Full) {s0 : St} {w0 : Nat} (S : Setup gr cmd s0 ts w0) (ha : f.s.argi = s0.argi) :
    ∀ (n i x : Nat) (c : Sh), (∀ j, Spec.slot cmd i ≤ j → f.s.val[j]? = s0.val[j]?) → i + n = ts.length → Hud.Ready c.v w h x y → c.v.sc.cur.attr = 0 ∧ c.v.sc.cur.attrKnown = true →
    x + (Spec.line i (ts.drop i)).length < w → (∀ e ∈ c.es, ¬ Spec.press e) → (∀ m, i ≤ m → f.s.edid ≠ m + 1) →
    ∃ v', drawWords gr world ((ts.drop i).map fun t => encodeRunes t.text) i (Spec.slot cmd i) f c = .ok (f, ⟨c.es, v', c.user⟩) ∧
      (∃ x', Hud.Ready v' w h x' y ∧ v'.sc.cur.attr = 0) ∧ (0 < n → 0 < i → v'.buf.buf = if Spec.styled ts then ends else []) ∧
      ∀ a b, a < w → b < h → v'.sc.look w a b =
        if b = y ∧ x ≤ a ∧ a < x + (Spec.line i (ts.drop i)).length then (Spec.line i (ts.drop i))[a - x]? else c.v.sc.look w a b
  | 0, i, x, c, _, hn, R, B, _, _, _ => by
    have : ts.drop i = [] := List.drop_eq_nil_of_le (by omega)
    rw [this]
    refine ⟨c.v, rfl, ⟨x, R, B.1⟩, fun h => absurd h (by omega), fun a b _ _ => by rw [if_neg (by simp [Spec.line])]⟩
  | n + 1, i, x, c, hval, hn, R, B, hx, hp, he => by
    have hi : i < ts.length := by omega
    have hmono : Spec.slot cmd i ≤ Spec.slot cmd (i + 1) := by
      rw [← S.next i hi]
      split <;> omega
    rw [List.drop_eq_getElem_cons hi] at hx ⊢
    simp only [Spec.line, List.length_append] at hx ⊢
    obtain ⟨v1, e1, I1, b1⟩ := word_quiet hsp heq world f S ha i (hval _ (Nat.le_refl _)) hi c R B (by omega) hp (he i (Nat.le_refl i))
    obtain ⟨v2, e2, W2, b2, L2⟩ := words_onward hsp heq world f S ha n (i + 1) _ ⟨c.es, v1, c.user⟩
      (fun j hj => hval j (by omega)) (by omega) I1.ready ⟨I1.attr, I1.known⟩
      (by omega) hp (fun m hm => he m (by omega))
    refine ⟨v2, ?_, W2, fun _ h0 => ?_, fun a b ha hb => ?_⟩
    · rw [List.map_cons, drawWords, e1]
      simp only [Except.bind]
      exact e2
    · cases n with
      | succ n => exact b2 (by omega) (by omega)
      | zero =>
        have hd : ts.drop (i + 1) = [] := List.drop_eq_nil_of_le (by omega)
        rw [hd] at e2
        simp only [List.map_nil, drawWords] at e2
        injection e2 with e2
        have hv2 : v1 = v2 := congrArg (fun q : Full × Sh => q.2.v) e2
        rw [← hv2, b1]
        unfold Spec.styled
        have hl : ts.getLast? = some ts[i] := by
          rw [List.getLast?_eq_getElem?, show ts.length - 1 = i by omega, List.getElem?_eq_getElem hi]
        rw [hl]
        unfold Spec.style
        by_cases hv : ts[i].var = true
        · simp only [hv, if_true, Bool.true_or]
          rw [if_pos (by decide)]
        · have h1 : (ts.length == 1) = false := by simp; omega
          simp only [hv, if_false, show ¬ i = 0 by omega, ne_eq, not_true_eq_false, h1, Bool.or_self, Bool.false_eq_true]
    · rw [L2 a b ha hb, I1.look a b ha hb]
      by_cases g1 : b = y ∧ x + (Spec.cells i ts[i]).length ≤ a ∧ a < x + (Spec.cells i ts[i]).length + (Spec.line (i + 1) (ts.drop (i + 1))).length
      · rw [if_pos g1, if_pos (by omega), List.getElem?_append_right (by omega)]
        congr 1
        omega
      · rw [if_neg g1]
        by_cases g2 : b = y ∧ x ≤ a ∧ a < x + (Spec.cells i ts[i]).length
        · rw [if_pos g2, if_pos (by omega), List.getElem?_append_left (by omega)]
        · rw [if_neg g2, if_neg (by omega)]

/-- A line is drawn on a screen with nothing pending: what it leaves. -/
theorem draw_inked (hsp : Screen.Printable gr 0x20) (l : EditLine) (s : Anansi.Spec.Line) (es : Events) (v : VScreen) {x0 bx n : Nat}
    (R : Hud.Ready v w h x0 y) (ha : v.sc.cur.attr = 0) (hk : v.sc.cur.attrKnown = true) (hold : Holds l s)
    (hp : ∀ r ∈ s.text, Screen.Printable gr r) (hmin : l.box.min = ⟨bx + 1, y + 1⟩) (hdx : Geom.dx l.box = n) (hn : 1 ≤ n)
    (hv : 0 ≤ l.view) (hne : s.text ≠ []) (hfit : bx + n + 1 < w) (hn2 : n = 1 → s.text.length ≤ 1) :
    ∃ (fr : Frame) (lo hi : Nat), l.draw gr es v {} = .ok fr ∧ fr.line = { l with view := lo } ∧ fr.input = es ∧ lo < hi ∧ hi - lo ≤ n ∧
      lo ≤ s.cur ∧ s.cur ≤ hi ∧ hi ≤ s.text.length ∧ (s.text.length ≤ n → lo = 0 ∧ hi = s.text.length) ∧
      fr.user = { visible := true, pt := ⟨bx + 1 + (s.cur - lo : Nat), y + 1⟩ } ∧
      Hud.Ready fr.out w h (bx + (hi - lo) + if s.cur = hi then 1 else 0) y ∧ fr.out.sc.cur.attr = 0 ∧ fr.out.sc.cur.attrKnown = true ∧
      ∀ a b, a < w → b < h → fr.out.sc.look w a b =
        if b = y ∧ bx ≤ a ∧ a < bx + (hi - lo) then some ⟨s.text.getD (lo + (a - bx)) 0, 0⟩
        else if b = y ∧ a = bx + (hi - lo) ∧ s.cur = hi then some ⟨0x20, 0⟩
        else v.sc.look w a b := by
  obtain ⟨lo, hi, w1, w2, w3, w4, w5, w6, w7, w8, w9, w10, w11⟩ := window_ok l s n hold hn hdx hv
  have hlen : 0 < s.text.length := List.length_pos_iff.mpr hne
  have hok : s.cur ≤ s.text.length := hold.ok
  have hshown := shown_text l s hold lo hi _ _ w1 w2 w3 w4
  have hpos : 0 < hi - lo := by
    by_cases hc : s.text.length ≤ n
    · have := w8 hc; omega
    · have := w11 (by omega)
      by_cases h1 : n = 1
      · have := hn2 h1; omega
      · omega
  have hcur : s.cur ≤ hi := by
    by_cases hc : s.cur < s.text.length
    · have := w9 hc; omega
    · have := w10 (by omega); omega
  generalize hseg : (s.text.take hi).drop lo = seg at hshown
  have hseglen : seg.length = hi - lo := by rw [← hseg]; simp; omega
  have hsegp : ∀ r ∈ seg, Screen.Printable gr r := by
    intro r hr
    rw [← hseg] at hr
    exact hp r (List.mem_of_mem_take (List.mem_of_mem_drop hr))
  have hsegget : ∀ k, k < hi - lo → seg[k]? = some (s.text.getD (lo + k) 0) := by
    intro k hk
    rw [← hseg, List.getElem?_drop, List.getElem?_take, if_pos (by omega), List.getD_eq_getElem _ _ (by omega), List.getElem?_eq_getElem (by omega)]
  have R1 : Hud.Ready ({ v with sc := v.sc.to l.box.min } : VScreen) w h bx y := by
    rw [hmin]; exact Hud.goto_at R.whole R.settled (by omega) R.hy
  obtain ⟨v1, e1, I1, -⟩ := ink_plain gr seg hsegp { v with sc := v.sc.to l.box.min } R1 (by omega) ha hk
  rw [List.map_congr_left (g := fun r => (⟨r, 0⟩ : Cell)) (fun _ _ => rfl)] at I1
  have hil := I1.look
  have hir := I1.ready
  rw [List.length_map, hseglen] at hil hir
  have hput : ({ l with view := (lo : Int) } : EditLine).put gr (encodeRunes seg) v = .ok v1 := by
    unfold EditLine.put
    rw [if_pos (by have := encodeRunes_len seg; omega)]
    exact e1
  have hmark : ({ l with view := (lo : Int) } : EditLine).mark {} = { visible := true, pt := ⟨bx + 1 + (s.cur - lo : Nat), y + 1⟩ } := by
    unfold EditLine.mark
    simp only [hmin, hold.cur]
    congr 2
    omega
  have hx1 : v1.sc.cur.pt.x = bx + (hi - lo : Nat) + 1 := by
    have : v1.sc.cur.pt = _ := hir.cur
    rw [this]; push_cast; rfl
  have hl1 : ∀ a b, a < w → b < h → v1.sc.look w a b =
      if b = y ∧ bx ≤ a ∧ a < bx + (hi - lo) then some ⟨s.text.getD (lo + (a - bx)) 0, 0⟩ else v.sc.look w a b := by
    intro a b ha' hb'
    rw [hil a b ha' hb']
    by_cases hin : b = y ∧ bx ≤ a ∧ a < bx + (hi - lo)
    · rw [if_pos hin, if_pos hin, List.getElem?_map, hsegget _ (by omega)]
      rfl
    · rw [if_neg hin, if_neg hin]
      rfl
  rw [w1] at hshown
  by_cases hend : s.cur = hi
  · obtain ⟨v2, e2, I2, -⟩ := ink_plain gr [0x20] (by simpa using hsp) v1 hir (by simp; omega) I1.attr I1.known
    have hl2 := I2.look
    have hr2 := I2.ready
    simp only [List.map_cons, List.map_nil, List.length_singleton] at hl2 hr2
    have hb : blank gr (({ l with view := (lo : Int) } : EditLine).mark {}) v1 = .ok v2 := by
      unfold blank
      rw [if_pos (by rw [hmark, hx1]; simp only; omega), one_rune]
      exact e2
    refine ⟨⟨{ l with view := (lo : Int) }, es, v2, ({ l with view := (lo : Int) } : EditLine).mark {}⟩, lo, hi, ?_, rfl, rfl, by omega, w5, w6, hcur, w4, w8, hmark, ?_, I2.attr, I2.known, ?_⟩
    · unfold EditLine.draw
      simp only [w1, hshown, hput, Except.bind, hb]
      rfl
    · rw [if_pos hend]; exact hr2
    · intro a b ha' hb'
      show v2.sc.look w a b = _
      rw [hl2 a b ha' hb', hl1 a b ha' hb']
      by_cases g1 : b = y ∧ bx + (hi - lo) ≤ a ∧ a < bx + (hi - lo) + 1
      · rw [if_pos g1, if_neg (by omega), if_pos ⟨g1.1, by omega, hend⟩, show a - (bx + (hi - lo)) = 0 by omega]
        rfl
      · rw [if_neg g1]
        by_cases g2 : b = y ∧ bx ≤ a ∧ a < bx + (hi - lo)
        · rw [if_pos g2, if_pos g2]
        · rw [if_neg g2, if_neg g2, if_neg (by omega)]
  · have hb : blank gr (({ l with view := (lo : Int) } : EditLine).mark {}) v1 = .ok v1 := by
      unfold blank
      rw [if_neg (by rw [hmark, hx1]; simp only; omega)]
    refine ⟨⟨{ l with view := (lo : Int) }, es, v1, ({ l with view := (lo : Int) } : EditLine).mark {}⟩, lo, hi, ?_, rfl, rfl, by omega, w5, w6, hcur, w4, w8, hmark, ?_, I1.attr, I1.known, ?_⟩
    · unfold EditLine.draw
      simp only [w1, hshown, hput, Except.bind, hb]
      rfl
    · rw [if_neg hend]; exact hir
    · intro a b ha' hb'
      show v1.sc.look w a b = _
      rw [hl1 a b ha' hb']
      by_cases g2 : b = y ∧ bx ≤ a ∧ a < bx + (hi - lo)
      · rw [if_pos g2, if_pos g2]
      · rw [if_neg g2, if_neg g2, if_neg (fun h => hend h.2.2)]

/-- A word is a variable, its value is edited, and the edit goes on: the words up to it are drawn, then the line, then the others. -/
theorem edit_core_any {ε : Type} (hsp : Screen.Printable gr 0x20) (heq : Screen.Printable gr 0x3D) (hz : gr 0x1A = false)
    (world : List (List Bytes) → Outcome) (suspend : Option ε) (hud : Bool) (f : Full) (S : Setup gr cmd f.s ts w)
    (es : Events) (v : VScreen) (W : v.sc.Whole w h) (hh : rowOf hud + 2 ≤ h)
    (k : Nat) (hk : k < ts.length) (hv : ts[k].var = true)
    (hkeys : ∀ e ∈ es, isRune [0x03] e = false)
    (hp : ∀ e ∈ es, Spec.press e → Geom.Mem e.pt (Spec.place (rowOf hud) ts k))
    (hch : Hud.Spec.odd (Spec.place (rowOf hud) ts k) es = true ∧ f.s.edid = 0 ∨
      Hud.Spec.odd (Spec.place (rowOf hud) ts k) es = false ∧ f.s.edid = k + 1 ∧ f.s.ed.state = .ready)
    (l : EditLine)
    (hl : l = ((Spec.begun cmd f.s (rowOf hud) ts k (Hud.Spec.odd (Spec.place (rowOf hud) ts k) es)).handleAll gr es).1)
    (hr : l.state = .ready)
    (hsz : f.s.size = ((w : Int), ((h - (rowOf hud + 2) : Nat) : Int))) (A : Area f.out w (h - (rowOf hud + 2))) :
    ∃ (v3 : VScreen) (es3 : Events), Hud.Ready v3 w h (Spec.line 0 (ts.take (k + 1))).length (rowOf hud) ∧ v3.sc.cur.attr = 0 ∧
      v3.sc.cur.attrKnown = true ∧ (∀ e ∈ es3, ¬ Spec.press e) ∧
      (∀ a b, a < w → b < h → v3.sc.look w a b =
        if b = rowOf hud ∧ a < (Spec.line 0 (ts.take (k + 1))).length then (Spec.line 0 (ts.take (k + 1)))[a]? else some {}) ∧
      ∀ (fr : Frame) (q : Sh), l.draw gr es3 v3 {} = .ok fr → fr.line.state = .ready →
        drawWords gr world ((ts.drop (k + 1)).map fun t => encodeRunes t.text) (k + 1) (Spec.slot cmd (k + 1))
          { f with s := { f.s with edid := k + 1, ed := fr.line } } ⟨fr.input, fr.out, fr.user⟩ =
          .ok ({ f with s := { f.s with edid := k + 1, ed := fr.line } }, q) → q.v.sc.Whole w h →
        ∃ o : Out ε, f.update gr world suspend hud es v = .ok o ∧
          o.f = { f with s := { f.s with edid := k + 1, ed := fr.line } } ∧ o.c.user = q.user ∧ o.c.v.sc.Whole w h ∧ o.c.v.buf = q.v.buf ∧
          (o.c.es = q.es ∧ o.c.v.sc.cur = q.v.sc.cur) ∧
          ∀ a b, a < w → b < h → o.c.v.sc.look w a b =
            if rowOf hud < b ∧ b + 1 < h then f.out.sc.look w a (b - (rowOf hud + 1)) else q.v.sc.look w a b := by
  have hed : ∀ m < k, f.s.edid ≠ m + 1 := by
    intro m hm
    rcases hch with ⟨-, h⟩ | ⟨-, h, -⟩ <;> omega
  obtain ⟨k1, k2⟩ := keys_left es hkeys
  obtain ⟨sc1, e1, W1, c1, L1⟩ := cleared_blank W
  obtain ⟨R, B, -⟩ := begun_ready W1 v.buf c1 hud (show rowOf hud < h by omega)
  have W2 : (sc1.to ⟨1, if hud then 2 else 1⟩).Whole w h := R.whole
  obtain ⟨v2, e2, R1, B1, L2⟩ := words_idle_upto (y := rowOf hud) hsp heq world f S k (by omega) k 0
    ⟨strikeIf (isRune [0x1A]) es, ⟨sc1.to ⟨1, if hud then 2 else 1⟩, v.buf.reset⟩, {}⟩ (by omega) (by simpa [Spec.line] using R) B
    (fun m _ hm => hed m hm) (fun m _ hm => by
      show Hud.Spec.odd _ (strikeIf _ es) = false
      rw [odd_suspend]
      have : es.countP (pressIn (Spec.place (rowOf hud) ts m) 1) = 0 := by
        rw [List.countP_eq_zero]
        intro e he hq
        obtain ⟨p1, p2⟩ := press_of hq
        exact places_apart ts _ m k hm hk e.pt ⟨p2, hp e he p1⟩
      unfold Hud.Spec.odd
      rw [this]; rfl) (fun m l h1 h2 p => places_apart ts _ m l h1 h2 p)
  have hslot : Spec.slot cmd 0 = 0 := by simp [Spec.slot]
  rw [hslot, List.drop_zero, ← S.cmd_eq, List.drop_eq_getElem_cons hk, List.map_cons] at e2
  simp only [drawWords] at e2
  obtain ⟨v3, e3, I3, -⟩ := S.draw hsp heq k hk v2 R1 B1
  -- the word
  generalize hE : Hud.Spec.without [Spec.place (rowOf hud) ts k]
    (Hud.Spec.without ((List.range' 0 k).map (Spec.place (rowOf hud) ts)) (strikeIf (isRune [0x1A]) es)) = E
  have hodd : Hud.Spec.odd (Spec.place (rowOf hud) ts k)
      (Hud.Spec.without ((List.range' 0 k).map (Spec.place (rowOf hud) ts)) (strikeIf (isRune [0x1A]) es)) =
      Hud.Spec.odd (Spec.place (rowOf hud) ts k) es := by
    rw [Hud.odd_without, odd_suspend]
    intro c hc p hm
    obtain ⟨m, hm', rfl⟩ := List.mem_map.1 hc
    have := List.mem_range'_1.1 hm'
    exact places_apart ts _ m k (by omega) hk p hm
  have hcount : (List.countP (pressIn (Spec.place (rowOf hud) ts k) 1)
      (Hud.Spec.without ((List.range' 0 k).map (Spec.place (rowOf hud) ts)) (strikeIf (isRune [0x1A]) es)) % 2 = 1) =
      (Hud.Spec.odd (Spec.place (rowOf hud) ts k) es = true) := by
    rw [← hodd]
    unfold Hud.Spec.odd
    simp
  -- no presses are left
  have hE1 : ∀ e ∈ E, ¬ Spec.press e := by
    intro e he hpr
    rw [← hE] at he
    rcases strike_mem he with ⟨a1, a2⟩ | a
    · rcases strike_mem a1 with ⟨b1, -⟩ | b
      · rcases strike_mem b1 with ⟨c1, -⟩ | c
        · have := in_press hpr (hp e c1 hpr)
          simp only [List.any_cons, List.any_nil, Bool.or_false] at a2
          rw [this] at a2; cases a2
        · exact none_not_press c hpr
      · exact none_not_press b hpr
    · exact none_not_press a hpr
  have hE2 : ∀ L : EditLine, (L.handleAll gr E).1 = (L.handleAll gr es).1 := by
    intro L
    have hm : ∀ (bs : List Rect) (e : Ev), (bs.any fun b => pressIn b 1 e) = true → ∀ l : EditLine, (l.handle gr e).1 = l := by
      intro bs e he l
      obtain ⟨b, -, hb⟩ := List.any_eq_true.1 he
      exact handle_mouse gr l e (press_of hb).1.1
    rw [← hE]
    unfold Hud.Spec.without
    rw [handleAll_strike gr _ _ (fun e _ he => hm _ e he), handleAll_strike gr _ _ (fun e _ he => hm _ e he),
      handleAll_strike gr _ _ (fun e _ he l => handle_suspend gr hz l e he)]
  have hslotv : f.s.argi[Spec.slot cmd k]? = some k := (S.var k hk).2 hv
  generalize hl0 : Spec.begun cmd f.s (rowOf hud) ts k (Hud.Spec.odd (Spec.place (rowOf hud) ts k) es) = l0 at hl
  have hr0 : l0.state = .ready := by
    rw [← hl0]
    rcases hch with ⟨a1, a2⟩ | ⟨a1, a2, a3⟩
    · rw [a1]; rfl
    · rw [a1]; exact a3
  have hsplit : Spec.line 0 (ts.take (k + 1)) = Spec.line 0 (ts.take k) ++ Spec.cells k ts[k] := line_succ ts k hk
  have hleft : ∀ e ∈ (l0.handleAll gr E).2, ¬ Spec.press e := by
    intro e he
    rcases handleAll_left gr E l0 e he with h | h
    · exact hE1 e h
    · exact none_not_press h
  refine ⟨v3, (l0.handleAll gr E).2, by rw [hsplit, List.length_append]; exact I3.ready, I3.attr, I3.known, hleft, fun a b ha hb => ?_,
    fun fr q d1 hfr hq d11 => ?_⟩
  · have hlk : (⟨sc1.to ⟨1, if hud then 2 else 1⟩, v.buf.reset⟩ : VScreen).sc.look w a b = some {} := by
      rw [← L1 a b ha hb]; rfl
    rw [I3.look a b ha hb, L2 a b ha hb, hlk]
    have hsl := congrArg List.length hsplit
    rw [List.length_append] at hsl
    by_cases h1 : b = rowOf hud ∧ a < (Spec.line 0 (ts.take (k + 1))).length
    · rw [if_pos h1]
      by_cases h2 : (Spec.line 0 (ts.take k)).length ≤ a
      · rw [if_pos (by omega), hsplit, List.getElem?_append_right h2]
      · rw [if_neg (by omega), if_pos (by simp [Spec.line]; omega), hsplit, List.getElem?_append_left (by omega)]
    · rw [if_neg h1, if_neg (by omega), if_neg (by simp [Spec.line]; omega)]
  have hup : l0.update gr E v3 {} = .ok fr := by
    unfold EditLine.update
    rw [if_neg (by simp [hr0])]
    show (if (l0.handleAll gr E).1.state ≠ .ready then _ else _) = _
    rw [hE2, ← hl, if_neg (by simp [hr])]
    exact d1
  have hword : f.word gr world k (Spec.slot cmd k) (encodeRunes ts[k].text)
      ⟨Hud.Spec.without ((List.range' 0 k).map (Spec.place (rowOf hud) ts)) (strikeIf (isRune [0x1A]) es), v2, {}⟩ =
      .ok ({ f with s := { f.s with edid := k + 1, ed := fr.line } }, Spec.slot cmd (k + 1), ⟨fr.input, fr.out, fr.user⟩) := by
    unfold Full.word
    rw [e3]
    simp only [Except.bind, countPressesIn_exact, Nat.zero_add, Hud.without_one, S.next k hk, hE, hcount]
    rcases hch with ⟨a1, a2⟩ | ⟨a1, a2, a3⟩
    · rw [a1] at hl0
      simp only [a1, if_true, hslotv, a2, ne_eq]
      simp only [show ¬ (0 = k + 1) by omega, not_false_eq_true, if_true, if_false, and_self]
      have hl1 : ({ f.s.ed.reset with box := Spec.place (rowOf hud) ts k, buf := f.s.val[Spec.slot cmd k]?.getD [] } : EditLine) = l0 := by
        rw [← hl0]; rfl
      rw [hl1, hup]
      simp only [hfr]
    · rw [a1] at hl0
      simp only [a1, Bool.false_eq_true, if_false, a2, hslotv, and_self, if_true, false_and]
      have hl1 : ({ f.s.ed with box := Spec.place (rowOf hud) ts k } : EditLine) = l0 := by
        rw [← hl0]; rfl
      rw [hl1, hup]
      simp only [hfr]
  rw [hword] at e2
  replace e2 := e2.trans hq
  obtain ⟨v4, e4, W4, C4, B4, L4⟩ := overlay_drawn hud q.v f.out d11 hh A
  have hfit : ({ f with s := { f.s with edid := k + 1, ed := fr.line } } : Full).fit gr world hud (Geom.dx (sc1.to ⟨1, if hud then 2 else 1⟩).grid.rect) (Geom.dy (sc1.to ⟨1, if hud then 2 else 1⟩).grid.rect) =
      .ok { f with s := { f.s with edid := k + 1, ed := fr.line } } := by
    have hx : Geom.dx (sc1.to ⟨1, if hud then 2 else 1⟩).grid.rect = w := by rw [W2.rect]; simp [Geom.dx]
    have hy : Geom.dy (sc1.to ⟨1, if hud then 2 else 1⟩).grid.rect = h := by rw [W2.rect]; simp [Geom.dy]
    unfold Full.fit
    rw [hx, hy]
    simp only
    rw [if_pos]
    rw [hsz]
    cases hud <;> simp [rowOf] at hh ⊢ <;> omega
  have hu : ∃ o, f.update gr world suspend hud es v = .ok o ∧ o.f = { f with s := { f.s with edid := k + 1, ed := fr.line } } ∧ o.c.v = v4 ∧ o.c.user = q.user ∧
      o.c.es = q.es := by
    unfold Full.update
    simp only [k1, k2]
    rw [e1]
    simp only [Except.bind] at e2 ⊢
    rw [e2]
    simp only
    rw [hfit]
    simp only
    rw [e4]
    exact ⟨_, rfl, rfl, rfl, rfl, rfl⟩
  obtain ⟨o, o1, o2, o3, o4, o5⟩ := hu
  refine ⟨o, o1, o2, o4, by rw [o3]; exact W4, by rw [o3, B4], ⟨o5, by rw [o3, C4]⟩, fun a b ha hb => ?_⟩
  rw [o3, L4 a b ha hb]


/-- Where the words after an edited one are written, when the characters from `lo` to `hi` of its text are shown: behind them, and
behind the blank of a cursor at their end. -/
def Spec.resume (ts : List Spec.Item) (k cur lo hi : Nat) : Nat := Spec.start ts k + (hi - lo) + if cur = hi then 1 else 0

/-- A frame in which a variable is edited, and the edit goes on: the screen. -/
theorem edit_drawn_any {ε : Type} (hsp : Screen.Printable gr 0x20) (heq : Screen.Printable gr 0x3D) (hz : gr 0x1A = false)
    (world : List (List Bytes) → Outcome) (suspend : Option ε) (hud : Bool) (f : Full) (S : Setup gr cmd f.s ts w)
    (hroom : (Spec.line 0 ts).length + 1 < w)
    (es : Events) (v : VScreen) (W : v.sc.Whole w h) (hh : rowOf hud + 2 ≤ h)
    (k : Nat) (hk : k < ts.length) (hv : ts[k].var = true)
    (hkeys : ∀ e ∈ es, isRune [0x03] e = false)
    (hp : ∀ e ∈ es, Spec.press e → Geom.Mem e.pt (Spec.place (rowOf hud) ts k))
    (hch : Hud.Spec.odd (Spec.place (rowOf hud) ts k) es = true ∧ f.s.edid = 0 ∨
      Hud.Spec.odd (Spec.place (rowOf hud) ts k) es = false ∧ f.s.edid = k + 1 ∧ f.s.ed.state = .ready)
    (l : EditLine)
    (hl : l = ((Spec.begun cmd f.s (rowOf hud) ts k (Hud.Spec.odd (Spec.place (rowOf hud) ts k) es)).handleAll gr es).1)
    (hr : l.state = .ready) (s : Anansi.Spec.Line) (hold : Holds l s) (hne : s.text ≠ [])
    (hpr : ∀ r ∈ s.text, Screen.Printable gr r) (hview : 0 ≤ f.s.ed.view)
    (hw1 : 1 ≤ ts[k].text.length) (hw2 : ts[k].text.length = 1 → s.text.length ≤ 1)
    (hsz : f.s.size = ((w : Int), ((h - (rowOf hud + 2) : Nat) : Int))) (A : Area f.out w (h - (rowOf hud + 2))) :
    ∃ (o : Out ε) (lo hi : Nat), f.update gr world suspend hud es v = .ok o ∧
      o.f = { f with s := { f.s with edid := k + 1, ed := { l with view := lo } } } ∧
      lo < hi ∧ hi - lo ≤ ts[k].text.length ∧ lo ≤ s.cur ∧ s.cur ≤ hi ∧ hi ≤ s.text.length ∧
      (s.text.length ≤ ts[k].text.length → lo = 0 ∧ hi = s.text.length) ∧
      o.c.user = { visible := true, pt := ⟨Spec.start ts k + 1 + (s.cur - lo : Nat), rowOf hud + 1⟩ } ∧
      o.c.v.sc.Whole w h ∧ (k + 1 < ts.length → o.c.v.buf.buf = if Spec.styled ts then ends else []) ∧
      ((∀ e ∈ o.c.es, ¬ Spec.press e) ∧ Emu.Settled o.c.v ∧ o.c.v.sc.cur.attr = 0) ∧
      ∀ a b, a < w → b < h → o.c.v.sc.look w a b =
        if b = rowOf hud ∧ Spec.resume ts k s.cur lo hi ≤ a ∧
            a < Spec.resume ts k s.cur lo hi + (Spec.line (k + 1) (ts.drop (k + 1))).length then
          (Spec.line (k + 1) (ts.drop (k + 1)))[a - Spec.resume ts k s.cur lo hi]?
        else if b = rowOf hud ∧ Spec.start ts k ≤ a ∧ a < Spec.start ts k + (hi - lo) then some ⟨s.text.getD (lo + (a - Spec.start ts k)) 0, 0⟩
        else if b = rowOf hud ∧ a = Spec.start ts k + (hi - lo) ∧ s.cur = hi then some ⟨0x20, 0⟩
        else if b = rowOf hud ∧ a < (Spec.line 0 (ts.take (k + 1))).length then (Spec.line 0 (ts.take (k + 1)))[a]?
        else if rowOf hud < b ∧ b + 1 < h then f.out.sc.look w a (b - (rowOf hud + 1)) else some {} := by
  have hbox : l.box = Spec.place (rowOf hud) ts k := by
    rw [hl, (Typ.handleAll_keep gr es _).1]
    unfold Spec.begun
    split <;> rfl
  have hview : 0 ≤ l.view := by
    rw [hl, (Typ.handleAll_keep gr es _).2]
    unfold Spec.begun
    split
    · exact Int.le_refl 0
    · exact hview
  obtain ⟨v3, es3, R3, A3, K3, hes3, L3, fin⟩ := edit_core_any hsp heq hz world suspend hud f S es v W hh k hk hv hkeys hp hch l hl hr hsz A
  have hbx : l.box.min = ⟨(Spec.start ts k : Nat) + 1, (rowOf hud : Nat) + 1⟩ := by
    rw [hbox]; rfl
  have hdx : Geom.dx l.box = (ts[k].text.length : Nat) := by
    rw [hbox]
    unfold Spec.place Hud.Spec.box Geom.dx
    rw [List.getElem?_eq_getElem hk]
    simp
  have hsplit : (Spec.line 0 (ts.take (k + 1))).length = (Spec.line 0 (ts.take k)).length + (Spec.cells k ts[k]).length := by
    rw [line_succ ts k hk, List.length_append]
  have hlen : (Spec.line 0 ts).length = (Spec.line 0 (ts.take (k + 1))).length + (Spec.line (k + 1) (ts.drop (k + 1))).length := by
    conv => lhs; rw [← List.take_append_drop (k + 1) ts, line_append]
    rw [List.length_append, List.length_take, Nat.zero_add, Nat.min_eq_left (by omega)]
  have hcl : Spec.gap k + ts[k].text.length ≤ (Spec.cells k ts[k]).length := by
    unfold Spec.cells
    simp only [List.length_append, List.length_replicate, List.length_map]
    omega
  have hst : Spec.start ts k + ts[k].text.length ≤ (Spec.line 0 (ts.take (k + 1))).length := by
    unfold Spec.start
    omega
  obtain ⟨fr, lo, hi, d1, d2, d3, d4, d5, d6, d7, d8, d9, d10, R4, A4, K4, L4⟩ :=
    draw_inked hsp l s es3 v3 R3 A3 K3 hold hpr hbx hdx hw1 hview hne (by omega) hw2
  have hfe : fr.line.state = .ready := by rw [d2]; exact hr
  have hre : (if s.cur = hi then 1 else 0) ≤ 1 := by split <;> omega
  obtain ⟨v5, e5, ⟨x5, R5, A5⟩, B5, L5⟩ := words_onward hsp heq world { f with s := { f.s with edid := k + 1, ed := fr.line } }
    S rfl (ts.length - (k + 1)) (k + 1) _ ⟨fr.input, fr.out, fr.user⟩ (fun _ _ => rfl) (by omega) R4 ⟨A4, K4⟩ (by omega)
    (by rw [show (⟨fr.input, fr.out, fr.user⟩ : Sh).es = es3 from d3]; exact hes3) (fun m hm h => by
      have h' : k + 1 = m + 1 := h
      omega)
  obtain ⟨o, o1, o2, o3, o4, o5, ⟨o7, o8⟩, o6⟩ := fin fr _ d1 hfe e5 R5.whole
  refine ⟨o, lo, hi, o1, by rw [o2, d2], d4, d5, d6, d7, d8, d9, by rw [o3]; exact d10, o4, fun hm => by rw [o5]; exact B5 (by omega) (by omega),
    ⟨by rw [o7]; exact (by show ∀ e ∈ fr.input, _; rw [d3]; exact hes3), by unfold Emu.Settled; rw [o5]; exact R5.settled, by rw [o8]; exact A5⟩, ?_⟩
  intro a b ha hb
  rw [o6 a b ha hb]
  show (if _ then _ else v5.sc.look w a b) = _
  rw [L5 a b ha hb]
  show (if _ then _ else if _ then _ else fr.out.sc.look w a b) = _
  rw [L4 a b ha hb, L3 a b ha hb]
  unfold Spec.resume
  by_cases g1 : rowOf hud < b ∧ b + 1 < h
  · rw [if_pos g1, if_neg (by omega), if_neg (by omega), if_neg (by omega), if_neg (by omega), if_pos g1]
  · rw [if_neg g1, if_neg g1]

/-- Such a frame when the text is empty: the screen is that of a frame without an edit, with the cursor where the name begins. -/
theorem edit_empty_any {ε : Type} (hsp : Screen.Printable gr 0x20) (heq : Screen.Printable gr 0x3D) (hz : gr 0x1A = false)
    (world : List (List Bytes) → Outcome) (suspend : Option ε) (hud : Bool) (f : Full) (S : Setup gr cmd f.s ts w)
    (es : Events) (v : VScreen) (W : v.sc.Whole w h) (hh : rowOf hud + 2 ≤ h)
    (k : Nat) (hk : k < ts.length) (hv : ts[k].var = true)
    (hkeys : ∀ e ∈ es, isRune [0x03] e = false)
    (hp : ∀ e ∈ es, Spec.press e → Geom.Mem e.pt (Spec.place (rowOf hud) ts k))
    (hch : Hud.Spec.odd (Spec.place (rowOf hud) ts k) es = true ∧ f.s.edid = 0 ∨
      Hud.Spec.odd (Spec.place (rowOf hud) ts k) es = false ∧ f.s.edid = k + 1 ∧ f.s.ed.state = .ready)
    (l : EditLine)
    (hl : l = ((Spec.begun cmd f.s (rowOf hud) ts k (Hud.Spec.odd (Spec.place (rowOf hud) ts k) es)).handleAll gr es).1)
    (hr : l.state = .ready) (hold : Holds l ⟨[], 0⟩) (hview : 0 ≤ f.s.ed.view) (hw1 : 1 ≤ ts[k].text.length)
    (hsz : f.s.size = ((w : Int), ((h - (rowOf hud + 2) : Nat) : Int))) (A : Area f.out w (h - (rowOf hud + 2))) :
    ∃ o : Out ε, f.update gr world suspend hud es v = .ok o ∧
      o.f = { f with s := { f.s with edid := k + 1, ed := { l with view := 0 } } } ∧
      o.c.user = { visible := true, pt := ⟨Spec.start ts k + 1, rowOf hud + 1⟩ } ∧
      o.c.v.sc.Whole w h ∧ (k + 1 < ts.length → o.c.v.buf.buf = if Spec.styled ts then ends else []) ∧
      ((∀ e ∈ o.c.es, ¬ Spec.press e) ∧ Emu.Settled o.c.v ∧ o.c.v.sc.cur.attr = 0) ∧
      ∀ a b, a < w → b < h → o.c.v.sc.look w a b =
        if b = rowOf hud ∧ a < (Spec.line 0 ts).length then (Spec.line 0 ts)[a]?
        else if rowOf hud < b ∧ b + 1 < h then f.out.sc.look w a (b - (rowOf hud + 1)) else some {} := by
  have hbox : l.box = Spec.place (rowOf hud) ts k := by
    rw [hl, (Typ.handleAll_keep gr es _).1]
    unfold Spec.begun
    split <;> rfl
  have hview : 0 ≤ l.view := by
    rw [hl, (Typ.handleAll_keep gr es _).2]
    unfold Spec.begun
    split
    · exact Int.le_refl 0
    · exact hview
  obtain ⟨v3, es3, R3, A3, K3, hes3, L3, fin⟩ := edit_core_any hsp heq hz world suspend hud f S es v W hh k hk hv hkeys hp hch l hl hr hsz A
  have hbx : l.box.min = ⟨(Spec.start ts k : Nat) + 1, (rowOf hud : Nat) + 1⟩ := by
    rw [hbox]; rfl
  have hdx : Geom.dx l.box = (ts[k].text.length : Nat) := by
    rw [hbox]
    unfold Spec.place Hud.Spec.box Geom.dx
    rw [List.getElem?_eq_getElem hk]
    simp
  have hsplit : (Spec.line 0 (ts.take (k + 1))).length = (Spec.line 0 (ts.take k)).length + (Spec.cells k ts[k]).length := by
    rw [line_succ ts k hk, List.length_append]
  have hlen : (Spec.line 0 ts).length = (Spec.line 0 (ts.take (k + 1))).length + (Spec.line (k + 1) (ts.drop (k + 1))).length := by
    conv => lhs; rw [← List.take_append_drop (k + 1) ts, line_append]
    rw [List.length_append, List.length_take, Nat.zero_add, Nat.min_eq_left (by omega)]
  have hcl : Spec.gap k + ts[k].text.length ≤ (Spec.cells k ts[k]).length := by
    unfold Spec.cells
    simp only [List.length_append, List.length_replicate, List.length_map]
    omega
  have hall : Spec.line 0 ts = Spec.line 0 (ts.take (k + 1)) ++ Spec.line (k + 1) (ts.drop (k + 1)) := by
    conv => lhs; rw [← List.take_append_drop (k + 1) ts, line_append]
    rw [List.length_take, Nat.zero_add, Nat.min_eq_left (by omega)]
  have hfits := S.fits
  obtain ⟨lo, hi, w1, w2, w3, w4, w5, w6, w7, w8, -⟩ := window_ok l ⟨[], 0⟩ ts[k].text.length hold hw1 hdx hview
  have hshown := shown_text l _ hold lo hi _ _ w1 w2 w3 w4
  obtain ⟨rfl, rfl⟩ : lo = 0 ∧ hi = 0 := w8 (by simp)
  have hbytes : l.shown l.window.1 l.window.2 = [] := by rw [hshown]; rfl
  have hcur : l.cur = 0 := by rw [hold.cur]; rfl
  have hx : v3.sc.cur.pt.x = ((Spec.line 0 (ts.take (k + 1))).length : Int) + 1 := by
    have : v3.sc.cur.pt = _ := R3.cur
    rw [this]
  have hmark : ({ l with view := 0 } : EditLine).mark {} = { visible := true, pt := ⟨Spec.start ts k + 1, rowOf hud + 1⟩ } := by
    unfold EditLine.mark
    simp only [hbx, hcur]
    congr 2
  have hdraw : l.draw gr es3 v3 {} = .ok ⟨{ l with view := 0 }, es3, v3, ({ l with view := 0 } : EditLine).mark {}⟩ := by
    unfold EditLine.draw EditLine.put
    rw [w1, Nat.cast_zero] at hbytes
    simp only [w1, Nat.cast_zero, hbytes, List.length_nil, Nat.lt_irrefl, gt_iff_lt, if_false, Except.bind]
    have hno : ¬ v3.sc.cur.pt.x = (({ l with view := 0 } : EditLine).mark {}).pt.x := by
      rw [hx, hmark]
      simp only
      unfold Spec.start
      push_cast
      omega
    simp only [blank, if_neg hno]
    rfl
  obtain ⟨v5, e5, ⟨x5, R5, A5⟩, B5, L5⟩ := words_onward hsp heq world { f with s := { f.s with edid := k + 1, ed := { l with view := 0 } } }
    S rfl (ts.length - (k + 1)) (k + 1) _ ⟨es3, v3, ({ l with view := 0 } : EditLine).mark {}⟩
    (fun _ _ => rfl) (by omega) R3 ⟨A3, K3⟩ (by omega) hes3 (fun m hm h => by
      have h' : k + 1 = m + 1 := h
      omega)
  obtain ⟨o, o1, o2, o3, o4, o5, ⟨o7, o8⟩, o6⟩ := fin _ _ hdraw hr e5 R5.whole
  refine ⟨o, o1, o2, by rw [o3]; exact hmark, o4, fun hm => by rw [o5]; exact B5 (by omega) (by omega),
    ⟨by rw [o7]; exact hes3, by unfold Emu.Settled; rw [o5]; exact R5.settled, by rw [o8]; exact A5⟩, ?_⟩
  intro a b ha hb
  rw [o6 a b ha hb]
  show (if _ then _ else v5.sc.look w a b) = _
  rw [L5 a b ha hb]
  show (if _ then _ else if _ then _ else v3.sc.look w a b) = _
  rw [L3 a b ha hb]
  by_cases g1 : rowOf hud < b ∧ b + 1 < h
  · rw [if_pos g1, if_neg (by omega), if_pos g1]
  · rw [if_neg g1, if_neg g1]
    by_cases g2 : b = rowOf hud ∧ (Spec.line 0 (ts.take (k + 1))).length ≤ a ∧ a < (Spec.line 0 ts).length
    · rw [if_pos (by omega), if_pos ⟨g2.1, g2.2.2⟩, hall, List.getElem?_append_right g2.2.1]
    · rw [if_neg (by omega)]
      by_cases g3 : b = rowOf hud ∧ a < (Spec.line 0 (ts.take (k + 1))).length
      · rw [if_pos g3, if_pos (by omega), hall, List.getElem?_append_left g3.2]
      · rw [if_neg g3, if_neg (by omega)]

end Itr

open Vt Geom Render

namespace Direct
open Anansi.Spec

variable {gr : Nat → Bool} {cmd : List Bytes} {ts : List Itr.Spec.Item}

namespace Spec

/-- The first row while the text of the word `k` is edited and words follow it: the characters from `lo` to `hi` of the text stand
where the name does, in no style; a cursor after them has a blank; the words that follow come directly behind; and the rest of the row is
the words up to the edited one. -/
def aside (ts : List Itr.Spec.Item) (k : Nat) (text : List Nat) (cur lo hi x : Nat) : Glyph :=
  let c := Itr.Spec.start ts k
  let e := c + (hi - lo) + if cur = hi then 1 else 0
  let after := words (k + 1) (ts.drop (k + 1))
  if e ≤ x ∧ x < e + after.length then after.getD (x - e) blank
  else if c ≤ x ∧ x < c + (hi - lo) then ⟨text.getD (lo + (x - c)) 0, {}⟩
  else if x = c + (hi - lo) ∧ cur = hi then blank
  else (words 0 (ts.take (k + 1))).getD x blank

/-- The terminal shows a text being edited in the place of a word, `n` columns wide: a part around the cursor, all of it if it fits; the
other words; the area below; and its cursor, which is to be seen, at its place in the text. -/
def Aside (ts : List Itr.Spec.Item) (k n : Nat) (s : Anansi.Spec.Line) (area : Nat → Nat → Glyph) (t : Term) : Prop :=
  ∃ lo hi, lo < hi ∧ hi - lo ≤ n ∧ lo ≤ s.cur ∧ s.cur ≤ hi ∧ hi ≤ s.text.length ∧ (s.text.length ≤ n → lo = 0 ∧ hi = s.text.length) ∧
    (∀ x y, x < t.w → y < t.h → t.cell x y =
      if y = 0 then aside ts k s.text s.cur lo hi x else if y + 1 < t.h then area x (y - 1) else blank) ∧
    t.vis = true ∧ t.x = Itr.Spec.start ts k + (s.cur - lo) ∧ t.y = 0 ∧ t.pend = false

end Spec

/-- A frame with nothing left in the buffer, a first row, the output below it and a cursor in the first row is shown. -/
theorem row_flushed (hsp : Printable gr 0x20) {d2 : Differ} {t1 : Term} {old : Option Screen} {a : Pt}
    (Y2 : Synced d2 t1 old a) (v : VScreen) (W : v.sc.Whole t1.w t1.h) (hb : v.buf.buf = []) (row : Nat → Glyph)
    (hrow : ∀ x, Printable gr (row x).rune ∧ (x < t1.w → ∃ c, v.sc.look t1.w x 0 = some c ∧ Inked (ink c) (row x)))
    {out : VScreen} {area : Nat → Nat → Glyph} (F : Filled gr out t1.w (t1.h - 2) area) (hh : 2 ≤ t1.h)
    (hrest : ∀ x y, x < t1.w → y < t1.h → y ≠ 0 → v.sc.look t1.w x y = if y + 1 < t1.h then out.sc.look t1.w x (y - 1) else some {})
    (user : Cursor) (col : Nat) (hcol : col < t1.w) (hu : user = { visible := true, pt := ⟨(col : Int) + 1, 1⟩ })
    (hs : Spec.Easy t1 old a v.sc user) :
    ∃ d' ops, ({ d2 with v, user } : Differ).writeTo gr .ok = .ok (d', text ops, none) ∧ (t1.run ops).w = t1.w ∧ (t1.run ops).h = t1.h ∧
      (∀ x y, x < t1.w → y < t1.h → (t1.run ops).cell x y = if y = 0 then row x else if y + 1 < t1.h then area x (y - 1) else blank) ∧
      (t1.run ops).vis = true ∧ (t1.run ops).x = col ∧ (t1.run ops).y = 0 ∧ (t1.run ops).pend = false ∧
      Synced d' (t1.run ops) (some v.sc) user.pt := by
  have hz0 : (0 : Attr) = Sgr.Style.build {} := by decide
  let g : Nat → Nat → Glyph := fun x y =>
    if y = 0 then row x else if y + 1 < t1.h ∧ x < t1.w then area x (y - 1) else blank
  have key : ∀ x y, Printable gr (g x y).rune ∧ (x < t1.w → y < t1.h → ∃ c, v.sc.look t1.w x y = some c ∧ Inked (ink c) (g x y)) := by
    intro x y
    show Printable gr (if y = 0 then _ else _ : Glyph).rune ∧ (_ → _ → ∃ c, _ ∧ Inked (ink c) (if y = 0 then _ else _))
    by_cases h0 : y = 0
    · rw [if_pos h0]
      refine ⟨(hrow x).1, fun hx _ => ?_⟩
      rw [h0]
      exact (hrow x).2 hx
    · rw [if_neg h0]
      by_cases h1 : y + 1 < t1.h ∧ x < t1.w
      · rw [if_pos h1]
        obtain ⟨c, c1, c2, c3⟩ := F x (y - 1) h1.2 (by omega)
        refine ⟨c3, fun hx hy => ⟨c, ?_, c2⟩⟩
        rw [hrest x y hx hy h0, if_pos h1.1]
        exact c1
      · rw [if_neg h1]
        refine ⟨hsp, fun hx hy => ⟨{}, ?_, ⟨rfl, rfl, hz0⟩⟩⟩
        rw [hrest x y hx hy h0, if_neg (by omega)]
  let pic : Term := { clearTerm t1.w t1.h with cell := g }
  have P : Shows pic v.sc t1.w t1.h := ⟨rfl, rfl, fun x y hx hy => (key x y).2 hx hy⟩
  have hpt : user.pt = ⟨((col : Nat) : Int) + 1, ((0 : Nat) : Int) + 1⟩ := by
    rw [hu]
    rfl
  have hseen : Direct.Spec.seen user = true := by
    rw [Direct.Spec.seen, hpt, hu]
    simp [valid]
  obtain ⟨d', ops, h1, h2, h3, h4, h5, h6, h7⟩ := flushed gr hsp Y2 v W hb pic P (fun x y => (key x y).1) user
    (fun _ => ⟨⟨_, _, by omega, by omega, hpt⟩, {}, rfl, by rw [hu]; exact hz0⟩) hs
  have hat := (h6 hseen).1
  rw [hpt] at hat
  obtain ⟨-, k5, k6⟩ := hat
  have g1 := congrArg Pt.x k6
  have g2 := congrArg Pt.y k6
  simp only at g1 g2
  refine ⟨d', ops, h1, h2, h3, fun x y hx hy => ?_, by rw [h5]; exact hseen, by omega, by omega, k5, ?_⟩
  · rw [h4 x y hx hy]
    show (if y = 0 then _ else if y + 1 < t1.h ∧ x < t1.w then _ else _ : Glyph) = _
    by_cases h0 : y = 0
    · rw [if_pos h0, if_pos h0]
    · rw [if_neg h0, if_neg h0]
      by_cases h1 : y + 1 < t1.h
      · rw [if_pos h1, if_pos ⟨h1, hx⟩]
      · rw [if_neg h1, if_neg (fun h => h1 h.1)]
  · rw [show Spec.rest t1.w t1.h old a v.sc user = user.pt by
      unfold Spec.rest; rw [if_pos hseen]] at h7
    exact h7

/-- **C149**: while the value of a variable before the last word is edited, its text is not empty, and the last word is not a variable, the
frame is shown: the text over the name of the variable, the words that follow directly behind it, the output, and the cursor. -/
theorem interact_aside_shown {ε : Type} (hsp : Printable gr 0x20) (heq : Printable gr 0x3D) (hz : gr 0x1A = false)
    {d : Differ} {t t1 : Term} {old : Option Screen} {a : Pt}
    (Y : Synced d t old a) (redraw : Bool) (cell : Nat → Nat → Glyph) (x y : Nat) (pend : Bool) (ht1 : t1 = { t with cell, x, y, pend })
    (hrd : redraw = false → t1 = t) (world : List (List Bytes) → Itr.Outcome) (sus : Option ε) (f : Itr.Full)
    (S : Itr.Setup gr cmd f.s ts t1.w) (hroom : (Itr.Spec.line 0 ts).length + 1 < t1.w)
    (hpl : ∀ t ∈ ts, (∀ r ∈ t.text, Printable gr r) ∧ ∀ r ∈ t.val, Printable gr r)
    (es : Evq.Events) (hh : 2 ≤ t1.h)
    (k : Nat) (hk : k < ts.length) (hmore : k + 1 < ts.length) (hv : ts[k].var = true) (hplain : Itr.Spec.styled ts = false)
    (hkeys : ∀ e ∈ es, Evq.isRune [0x03] e = false)
    (hp : ∀ e ∈ es, Itr.Spec.press e → Geom.Mem e.pt (Itr.Spec.place 0 ts k))
    (hch : Hud.Spec.odd (Itr.Spec.place 0 ts k) es = true ∧ f.s.edid = 0 ∨
      Hud.Spec.odd (Itr.Spec.place 0 ts k) es = false ∧ f.s.edid = k + 1 ∧ f.s.ed.state = .ready)
    (l : Edl.EditLine)
    (hl : l = ((Itr.Spec.begun cmd f.s 0 ts k (Hud.Spec.odd (Itr.Spec.place 0 ts k) es)).handleAll gr es).1)
    (hr : l.state = .ready) (s : Anansi.Spec.Line) (hold : Edl.Holds l s) (hne : s.text ≠ [])
    (hpr : ∀ r ∈ s.text, Printable gr r) (hview : 0 ≤ f.s.ed.view)
    (hw1 : 1 ≤ ts[k].text.length) (hw2 : ts[k].text.length = 1 → s.text.length ≤ 1)
    (hsz : f.s.size = ((t1.w : Int), ((t1.h - 2 : Nat) : Int))) (A : Itr.Area f.out t1.w (t1.h - 2))
    (area : Nat → Nat → Glyph) (F : Filled gr f.out t1.w (t1.h - 2) area) :
    ∃ o d1, itrFrame gr world sus f es d none (if redraw then some (t1.w, t1.h) else none) = .ok (o, d1) ∧
      (∃ m : Nat, o.f = { f with s := { f.s with edid := k + 1, ed := { l with view := m } } }) ∧
      (Spec.Easy t1 (if redraw then none else old) (if redraw then zp else a) d1.v.sc d1.user →
        ∃ d' ops, d1.writeTo gr .ok = .ok (d', text ops, none) ∧ (t1.run ops).w = t1.w ∧ (t1.run ops).h = t1.h ∧
          Spec.Aside ts k ts[k].text.length s area (t1.run ops) ∧
          Synced d' (t1.run ops) (some d1.v.sc) d1.user.pt) := by
  obtain ⟨d2, b1, W, Y2⟩ := begun Y redraw cell x y pend ht1 hrd
  obtain ⟨o, lo, hi, o1, o2, o3, o4, o5, o6, o7, o8, o9, o10, o11, -, o12⟩ :=
    Itr.edit_drawn_any (printed hsp) (printed heq) hz world sus false f S hroom es d2.v W hh k hk hv hkeys hp hch l hl hr s hold hne
      (fun r h => printed (hpr r h)) hview hw1 hw2 hsz A
  have hrow : Itr.rowOf false = 0 := rfl
  rw [hrow] at o9 o12
  refine ⟨o, { d2 with v := o.c.v, user := o.c.user }, ?_, ⟨lo, o2⟩, fun hs => ?_⟩
  · unfold itrFrame
    rw [b1]
    show (f.update gr world sus false es d2.v).map _ = _
    rw [o1]
    rfl
  have hl1 := same_line hsp heq (ts.take (k + 1)) 0 (fun t ht => hpl t (List.mem_of_mem_take ht))
  have hl2 := same_line hsp heq (ts.drop (k + 1)) (k + 1) (fun t ht => hpl t (List.mem_of_mem_drop ht))
  have hll1 := hl1.length_eq
  have hll2 := hl2.length_eq
  have hz0 : (0 : Attr) = Sgr.Style.build {} := by decide
  have hstart : Itr.Spec.start ts k + ts[k].text.length < t1.w := by
    have hfit := S.fits
    have h1 := Itr.line_succ ts k hk
    have h2 : (Itr.Spec.line 0 ts).length = (Itr.Spec.line 0 (ts.take (k + 1))).length + (Itr.Spec.line (k + 1) (ts.drop (k + 1))).length := by
      conv => lhs; rw [← List.take_append_drop (k + 1) ts, Itr.line_append]
      rw [List.length_append, List.length_take, Nat.zero_add, Nat.min_eq_left (by omega)]
    rw [h1, List.length_append] at h2
    unfold Itr.Spec.cells at h2
    simp only [List.length_append, List.length_replicate, List.length_map] at h2
    unfold Itr.Spec.start
    omega
  obtain ⟨d', ops, h1, h2, h3, h4, h5, h6, h7, h8, h9⟩ := row_flushed hsp Y2 o.c.v o10 (by rw [o11 hmore, hplain]; rfl)
    (Spec.aside ts k s.text s.cur lo hi) (fun x => by
      unfold Spec.aside
      unfold Itr.Spec.resume at o12
      simp only
      rw [← hll2]
      generalize he : Itr.Spec.start ts k + (hi - lo) + (if s.cur = hi then 1 else 0) = e at o12
      by_cases g1 : e ≤ x ∧ x < e + (Itr.Spec.line (k + 1) (ts.drop (k + 1))).length
      · rw [if_pos g1]
        have G := same_get hsp hl2 (x - e)
        refine ⟨G.2, fun hx => ⟨(Itr.Spec.line (k + 1) (ts.drop (k + 1))).getD (x - e) {}, ?_, G.1⟩⟩
        have hin : x - e < (Itr.Spec.line (k + 1) (ts.drop (k + 1))).length := by omega
        rw [o12 x 0 hx (by omega), if_pos ⟨rfl, g1⟩, List.getD_eq_getElem _ _ hin, List.getElem?_eq_getElem hin]
      · rw [if_neg g1]
        by_cases g2 : Itr.Spec.start ts k ≤ x ∧ x < Itr.Spec.start ts k + (hi - lo)
        · rw [if_pos g2]
          have hin : lo + (x - Itr.Spec.start ts k) < s.text.length := by omega
          have hm : Printable gr (s.text.getD (lo + (x - Itr.Spec.start ts k)) 0) := by
            rw [List.getD_eq_getElem _ _ hin]
            exact hpr _ (List.getElem_mem hin)
          refine ⟨hm, fun hx => ⟨⟨s.text.getD (lo + (x - Itr.Spec.start ts k)) 0, 0⟩,
            by rw [o12 x 0 hx (by omega), if_neg (fun h => g1 h.2), if_pos ⟨rfl, g2⟩], ?_, rfl, hz0⟩⟩
          have := hm.c0
          simp only [ink]
          rw [if_neg (by omega)]
        · rw [if_neg g2]
          by_cases g3 : x = Itr.Spec.start ts k + (hi - lo) ∧ s.cur = hi
          · rw [if_pos g3]
            refine ⟨hsp, fun hx => ⟨⟨0x20, 0⟩, by rw [o12 x 0 hx (by omega), if_neg (fun h => g1 h.2), if_neg (fun h => g2 h.2), if_pos ⟨rfl, g3⟩],
              rfl, rfl, hz0⟩⟩
          · rw [if_neg g3]
            have G := same_get hsp hl1 x
            refine ⟨G.2, fun hx => ⟨(Itr.Spec.line 0 (ts.take (k + 1))).getD x {}, ?_, G.1⟩⟩
            rw [o12 x 0 hx (by omega), if_neg (fun h => g1 h.2), if_neg (fun h => g2 h.2), if_neg (fun h => g3 h.2)]
            by_cases hx1 : x < (Itr.Spec.line 0 (ts.take (k + 1))).length
            · rw [if_pos ⟨rfl, hx1⟩, List.getD_eq_getElem _ _ hx1, List.getElem?_eq_getElem hx1]
            · rw [if_neg (fun h => hx1 h.2), if_neg (by omega), List.getD_eq_default _ _ (by omega)])
    F hh (fun x y hx hy h0 => by
      rw [o12 x y hx hy, if_neg (fun h => h0 h.1), if_neg (fun h => h0 h.1), if_neg (fun h => h0 h.1), if_neg (fun h => h0 h.1)]
      by_cases g : y + 1 < t1.h
      · rw [if_pos (by omega), if_pos g]
      · rw [if_neg (by omega), if_neg g])
    o.c.user (Itr.Spec.start ts k + (s.cur - lo)) (by omega) (by
      rw [o9]
      simp only [Cursor.mk.injEq, Pt.mk.injEq, and_true]
      refine ⟨?_, by simp⟩
      push_cast
      omega) hs
  refine ⟨d', ops, h1, h2, h3, ⟨lo, hi, o3, o4, o5, o6, o7, o8, fun x y hx hy => ?_, h5, h6, h7, h8⟩, h9⟩
  rw [h2] at hx
  rw [h3] at hy ⊢
  exact h4 x y hx hy

/-- **C149**: while such a text is empty, the frame is shown as it would be without an edit, with the cursor at the beginning of the name. -/
theorem interact_aside_empty {ε : Type} (hsp : Printable gr 0x20) (heq : Printable gr 0x3D) (hz : gr 0x1A = false)
    {d : Differ} {t t1 : Term} {old : Option Screen} {a : Pt}
    (Y : Synced d t old a) (redraw : Bool) (cell : Nat → Nat → Glyph) (x y : Nat) (pend : Bool) (ht1 : t1 = { t with cell, x, y, pend })
    (hrd : redraw = false → t1 = t) (world : List (List Bytes) → Itr.Outcome) (sus : Option ε) (f : Itr.Full)
    (S : Itr.Setup gr cmd f.s ts t1.w)
    (hpl : ∀ t ∈ ts, (∀ r ∈ t.text, Printable gr r) ∧ ∀ r ∈ t.val, Printable gr r)
    (es : Evq.Events) (hh : 2 ≤ t1.h)
    (k : Nat) (hk : k < ts.length) (hmore : k + 1 < ts.length) (hv : ts[k].var = true) (hplain : Itr.Spec.styled ts = false)
    (hkeys : ∀ e ∈ es, Evq.isRune [0x03] e = false)
    (hp : ∀ e ∈ es, Itr.Spec.press e → Geom.Mem e.pt (Itr.Spec.place 0 ts k))
    (hch : Hud.Spec.odd (Itr.Spec.place 0 ts k) es = true ∧ f.s.edid = 0 ∨
      Hud.Spec.odd (Itr.Spec.place 0 ts k) es = false ∧ f.s.edid = k + 1 ∧ f.s.ed.state = .ready)
    (l : Edl.EditLine)
    (hl : l = ((Itr.Spec.begun cmd f.s 0 ts k (Hud.Spec.odd (Itr.Spec.place 0 ts k) es)).handleAll gr es).1)
    (hr : l.state = .ready) (hold : Edl.Holds l ⟨[], 0⟩) (hview : 0 ≤ f.s.ed.view) (hw1 : 1 ≤ ts[k].text.length)
    (hsz : f.s.size = ((t1.w : Int), ((t1.h - 2 : Nat) : Int))) (A : Itr.Area f.out t1.w (t1.h - 2))
    (area : Nat → Nat → Glyph) (F : Filled gr f.out t1.w (t1.h - 2) area) :
    ∃ o d1, itrFrame gr world sus f es d none (if redraw then some (t1.w, t1.h) else none) = .ok (o, d1) ∧
      o.f = { f with s := { f.s with edid := k + 1, ed := { l with view := 0 } } } ∧
      (Spec.Easy t1 (if redraw then none else old) (if redraw then zp else a) d1.v.sc d1.user →
        ∃ d' ops, d1.writeTo gr .ok = .ok (d', text ops, none) ∧ (t1.run ops).w = t1.w ∧ (t1.run ops).h = t1.h ∧
          (∀ x y, x < t1.w → y < t1.h → (t1.run ops).cell x y =
            if y = 0 then (Spec.words 0 ts).getD x blank else if y + 1 < t1.h then area x (y - 1) else blank) ∧
          (t1.run ops).vis = true ∧ (t1.run ops).x = Itr.Spec.start ts k ∧ (t1.run ops).y = 0 ∧ (t1.run ops).pend = false ∧
          Synced d' (t1.run ops) (some d1.v.sc) d1.user.pt) := by
  obtain ⟨d2, b1, W, Y2⟩ := begun Y redraw cell x y pend ht1 hrd
  obtain ⟨o, o1, o2, o9, o10, o11, -, o12⟩ :=
    Itr.edit_empty_any (printed hsp) (printed heq) hz world sus false f S es d2.v W hh k hk hv hkeys hp hch l hl hr hold hview hw1 hsz A
  have hrow : Itr.rowOf false = 0 := rfl
  rw [hrow] at o9 o12
  refine ⟨o, { d2 with v := o.c.v, user := o.c.user }, ?_, o2, fun hs => ?_⟩
  · unfold itrFrame
    rw [b1]
    show (f.update gr world sus false es d2.v).map _ = _
    rw [o1]
    rfl
  have hl1 := same_line hsp heq ts 0 hpl
  have hll1 := hl1.length_eq
  have hstart : Itr.Spec.start ts k + ts[k].text.length < t1.w := by
    have hfit := S.fits
    have h1 := Itr.line_succ ts k hk
    have h2 : (Itr.Spec.line 0 ts).length = (Itr.Spec.line 0 (ts.take (k + 1))).length + (Itr.Spec.line (k + 1) (ts.drop (k + 1))).length := by
      conv => lhs; rw [← List.take_append_drop (k + 1) ts, Itr.line_append]
      rw [List.length_append, List.length_take, Nat.zero_add, Nat.min_eq_left (by omega)]
    rw [h1, List.length_append] at h2
    unfold Itr.Spec.cells at h2
    simp only [List.length_append, List.length_replicate, List.length_map] at h2
    unfold Itr.Spec.start
    omega
  exact row_flushed hsp Y2 o.c.v o10 (by rw [o11 hmore, hplain]; rfl)
    (fun x => (Spec.words 0 ts).getD x blank) (fun x => by
      have G := same_get hsp hl1 x
      refine ⟨G.2, fun hx => ⟨(Itr.Spec.line 0 ts).getD x {}, ?_, G.1⟩⟩
      rw [o12 x 0 hx (by omega)]
      by_cases hx1 : x < (Itr.Spec.line 0 ts).length
      · rw [if_pos ⟨rfl, hx1⟩, List.getD_eq_getElem _ _ hx1, List.getElem?_eq_getElem hx1]
      · rw [if_neg (fun h => hx1 h.2), if_neg (by omega), List.getD_eq_default _ _ (by omega)])
    F hh (fun x y hx hy h0 => by
      rw [o12 x y hx hy, if_neg (fun h => h0 h.1)]
      by_cases g : y + 1 < t1.h
      · rw [if_pos (by omega), if_pos g]
      · rw [if_neg (by omega), if_neg g])
    o.c.user (Itr.Spec.start ts k) (by omega) (by rw [o9]; rfl) hs

/-- **C149**, where it fails: while the value of a variable is edited and the last word is another variable, the frame writes the end
of a style and nothing else, whatever is typed. -/
theorem aside_unseen {ε : Type} (hsp : Printable gr 0x20) (heq : Printable gr 0x3D) (hz : gr 0x1A = false)
    {d : Differ} {t : Term} {old : Option Screen} {a : Pt} (Y : Synced d t old a) (world : List (List Bytes) → Itr.Outcome)
    (sus : Option ε) (f : Itr.Full) (S : Itr.Setup gr cmd f.s ts t.w) (hroom : (Itr.Spec.line 0 ts).length + 1 < t.w)
    (es : Evq.Events) (hh : 2 ≤ t.h)
    (k : Nat) (hk : k < ts.length) (hmore : k + 1 < ts.length) (hv : ts[k].var = true) (hstyled : Itr.Spec.styled ts = true)
    (hkeys : ∀ e ∈ es, Evq.isRune [0x03] e = false)
    (hp : ∀ e ∈ es, Itr.Spec.press e → Geom.Mem e.pt (Itr.Spec.place 0 ts k))
    (hch : Hud.Spec.odd (Itr.Spec.place 0 ts k) es = true ∧ f.s.edid = 0 ∨
      Hud.Spec.odd (Itr.Spec.place 0 ts k) es = false ∧ f.s.edid = k + 1 ∧ f.s.ed.state = .ready)
    (l : Edl.EditLine)
    (hl : l = ((Itr.Spec.begun cmd f.s 0 ts k (Hud.Spec.odd (Itr.Spec.place 0 ts k) es)).handleAll gr es).1)
    (hr : l.state = .ready) (s : Anansi.Spec.Line) (hold : Edl.Holds l s)
    (hpr : ∀ r ∈ s.text, Printable gr r) (hview : 0 ≤ f.s.ed.view)
    (hw1 : 1 ≤ ts[k].text.length) (hw2 : ts[k].text.length = 1 → s.text.length ≤ 1)
    (hsz : f.s.size = ((t.w : Int), ((t.h - 2 : Nat) : Int))) (A : Itr.Area f.out t.w (t.h - 2)) :
    ∃ o d1 d', itrFrame gr world sus f es d none none = .ok (o, d1) ∧ o.f.s.edid = k + 1 ∧
      d1.writeTo gr .ok = .ok (d', Itr.ends, none) := by
  obtain ⟨d2, b1, W, -⟩ := begun Y false t.cell t.x t.y t.pend rfl (fun _ => rfl)
  obtain ⟨o, o1, o2, o3, o4⟩ : ∃ o, f.update gr world sus false es d2.v = .ok o ∧ o.f.s.edid = k + 1 ∧ o.c.v.sc.Whole t.w t.h ∧
      o.c.v.buf.buf = Itr.ends := by
    by_cases hne : s.text = []
    · obtain ⟨text, cur⟩ := s
      simp only at hne
      subst hne
      obtain rfl : cur = 0 := Nat.le_zero.mp hold.ok
      obtain ⟨o, o1, o2, -, o4, o5, -⟩ := Itr.edit_empty_any (printed hsp) (printed heq) hz world sus false f S es d2.v W hh k hk hv
        hkeys hp hch l hl hr hold hview hw1 hsz A
      exact ⟨o, o1, by rw [o2], o4, by rw [o5 hmore, hstyled]; rfl⟩
    · obtain ⟨o, lo, hi, o1, o2, -, -, -, -, -, -, -, o4, o5, -⟩ := Itr.edit_drawn_any (printed hsp) (printed heq) hz world sus false f S hroom es
        d2.v W hh k hk hv hkeys hp hch l hl hr s hold hne (fun r h => printed (hpr r h)) hview hw1 hw2 hsz A
      exact ⟨o, o1, by rw [o2], o4, by rw [o5 hmore, hstyled]; rfl⟩
  obtain ⟨d', g1, -⟩ := leftover_written gr { d2 with v := o.c.v, user := o.c.user } o3 (by rw [o4]; decide)
  refine ⟨o, { d2 with v := o.c.v, user := o.c.user }, d', ?_, o2, ?_⟩
  · unfold itrFrame
    rw [show begin d none none = .ok d2 from b1]
    show (f.update gr world sus false es d2.v).map _ = _
    rw [o1]
    rfl
  · rw [← o4]; exact g1

/-- **C149**, where it fails: the words that follow a text being edited do not keep their places; they begin behind the part of the text that
is shown, wherever that ends. -/
theorem aside_moved (k : Nat) (hk : k < ts.length) (text : List Nat) (cur lo hi i : Nat)
    (hi' : (Spec.words 0 (ts.take (k + 1))).length + i < (Spec.words 0 ts).length) :
    Spec.aside ts k text cur lo hi (Itr.Spec.start ts k + (hi - lo) + (if cur = hi then 1 else 0) + i) =
      (Spec.words 0 ts).getD ((Spec.words 0 (ts.take (k + 1))).length + i) blank := by
  have hs : Spec.words 0 ts = Spec.words 0 (ts.take (k + 1)) ++ Spec.words (k + 1) (ts.drop (k + 1)) := by
    conv => lhs; rw [← List.take_append_drop (k + 1) ts, words_append]
    rw [List.length_take, Nat.zero_add, Nat.min_eq_left (by omega)]
  have hlen := congrArg List.length hs
  rw [List.length_append] at hlen
  unfold Spec.aside
  simp only
  rw [if_pos (by omega), hs, List.getD_append_right _ _ _ _ (by omega)]
  congr 1
  omega

/-! ### Examples -/

/-- `interact rm '$xy' z` on a terminal of 14 columns and 5 rows, after its first frame. -/
def cmdA : List Bytes := [ascii "rm", ascii "$xy", ascii "z"]
def startA : Itr.Full := ⟨(({} : Itr.St).setCmd cmdA).getD {}, {}⟩
def stepA (f : Itr.Full) (es : Evq.Events) : Itr.Full := match f.update (ε := Unit) Itr.grX Itr.worldX none false es (sizeTo {} (14, 5)).v with
  | .ok o => o.f | .error _ => {}
def fA : Itr.Full := stepA startA []
def tsA : List Itr.Spec.Item := [⟨false, [0x72, 0x6D], []⟩, ⟨true, [0x24, 0x78, 0x79], []⟩, ⟨false, [0x7A], []⟩]

theorem setupA : Itr.Setup Itr.grX cmdA fA.s tsA 14 := by
  refine ⟨⟨by decide +kernel, by decide +kernel, by decide +kernel, by decide +kernel, ?_⟩, ⟨by decide +kernel, by decide +kernel, ?_⟩, ?_,
    by decide +kernel⟩
  · rw [show fA.s.runs = [] by decide +kernel]
    simp
  · intro i h hv
    have : i = 0 ∨ i = 1 ∨ i = 2 := by simp [tsA] at h; omega
    rcases this with rfl | rfl | rfl
    · cases hv
    · rw [show tsA[1] = (⟨true, [0x24, 0x78, 0x79], []⟩ : Itr.Spec.Item) from rfl]
      decide +kernel
    · cases hv
  · intro t ht
    simp only [tsA, List.mem_cons, List.not_mem_nil, or_false] at ht
    rcases ht with rfl | rfl | rfl <;> refine ⟨fun r hr => ?_, fun r hr => ?_⟩ <;>
      simp only [List.mem_cons, List.not_mem_nil, or_false] at hr
    all_goals
      apply Itr.printX
      omega

def lineA (es : Evq.Events) : Edl.EditLine :=
  ((Itr.Spec.begun cmdA fA.s 0 tsA 1 (Hud.Spec.odd (Itr.Spec.place 0 tsA 1) es)).handleAll Itr.grX es).1

/-- The hypotheses of `interact_aside_shown` about the command and the keys hold. -/
example : Itr.Setup Itr.grX cmdA fA.s tsA 14 ∧ (Itr.Spec.line 0 tsA).length + 1 < 14 ∧ 1 + 1 < tsA.length ∧ tsA[1].var = true ∧
    Itr.Spec.styled tsA = false ∧ (∀ e ∈ keysE, Evq.isRune [0x03] e = false) ∧
    (∀ e ∈ keysE, Itr.Spec.press e → Geom.Mem e.pt (Itr.Spec.place 0 tsA 1)) ∧
    Hud.Spec.odd (Itr.Spec.place 0 tsA 1) keysE = true ∧ fA.s.edid = 0 ∧ (lineA keysE).state = .ready ∧
    Edl.Holds (lineA keysE) ⟨[0x61], 1⟩ ∧ 0 ≤ fA.s.ed.view ∧ fA.s.size = (14, 3) ∧ Itr.Area fA.out 14 3 := by
  refine ⟨setupA, by decide +kernel, by decide, rfl, rfl, by decide, ?_, by decide +kernel, by decide +kernel, by decide +kernel,
    ⟨by decide +kernel, by decide, by decide +kernel, Nat.le_refl 1⟩, by decide +kernel, by decide +kernel,
    ⟨by decide +kernel, by decide +kernel, by decide +kernel⟩⟩
  intro e he hp
  simp only [keysE, List.mem_cons, List.not_mem_nil, or_false] at he
  rcases he with rfl | rfl
  · unfold Geom.Mem; decide +kernel
  · exact absurd hp.1 (by decide)

/-- Those of `interact_aside_empty` hold for a press alone. -/
example : Hud.Spec.odd (Itr.Spec.place 0 tsA 1) [Itr.clickX 5 1] = true ∧ (lineA [Itr.clickX 5 1]).state = .ready ∧
    Edl.Holds (lineA [Itr.clickX 5 1]) ⟨[], 0⟩ :=
  ⟨by decide +kernel, by decide +kernel, ⟨by decide +kernel, by decide, by decide +kernel, Nat.le_refl 0⟩⟩

/-- Those of `aside_unseen` about the words: a last word that is a variable. -/
example : Itr.Spec.styled (tsA.take 2 ++ [⟨true, [0x24, 0x7A], []⟩]) = true := rfl

/-- While the first character is typed into `$xy`, `z` moves two columns to the left, over the name. -/
example : ((List.range 10).map fun x => (Spec.aside tsA 1 [0x61] 1 0 1 x).rune) =
    [0x72, 0x6D, 0x20, 0x61, 0x20, 0x20, 0x7A, 0x20, 0x20, 0x20] ∧
    ((List.range 10).map fun x => ((Spec.words 0 tsA).getD x blank).rune) =
    [0x72, 0x6D, 0x20, 0x24, 0x78, 0x79, 0x20, 0x7A, 0x20, 0x20] := by decide +kernel

end Direct
end Anansi
