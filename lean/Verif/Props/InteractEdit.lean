import Mathlib.Data.List.GetD
import Verif.Props.InteractOver
import Verif.Props.TypedShown
import Verif.Props.Typing
/-
`interact` while a value is edited: what the terminal shows (C149).
-/
set_option autoImplicit false

namespace Anansi

/-- What was processed before does not matter to a write. -/
theorem VScreen.write_settled (gr : Nat → Bool) (v : VScreen) (S : Emu.Settled v) (b : Bytes) :
    v.write gr b = ({ v with buf := .empty } : VScreen).write gr b := by
  unfold Emu.Settled at S
  unfold VScreen.write VScreen.process
  have e1 : (v.buf.write b).process? = some ((Anansi.process b).events, ⟨v.buf.buf ++ (Anansi.process b).done ++ (Anansi.process b).rest, v.buf.buf.length + (Anansi.process b).done.length⟩) := by
    unfold Buffer.process? Buffer.write
    simp only [S, List.length_append]
    rw [if_pos (by omega)]
    simp
  have e2 : (Buffer.write .empty b).process? = some ((Anansi.process b).events, ⟨(Anansi.process b).done ++ (Anansi.process b).rest, (Anansi.process b).done.length⟩) := by
    unfold Buffer.process? Buffer.write Buffer.empty
    simp
  simp only [e1, e2]
  have : Buffer.discard ⟨v.buf.buf ++ (Anansi.process b).done ++ (Anansi.process b).rest, v.buf.buf.length + (Anansi.process b).done.length⟩ =
      Buffer.discard ⟨(Anansi.process b).done ++ (Anansi.process b).rest, (Anansi.process b).done.length⟩ := by
    have h1 : ∀ (x y : Bytes), Buffer.discard ⟨x ++ y, x.length⟩ = ⟨y, 0⟩ := by
      intro x y
      unfold Buffer.discard
      cases x with
      | nil => simp
      | cons a x => simp
    rw [h1, ← List.length_append, h1]
  rw [this]

namespace Itr
open Edl Evq

variable {gr : Nat → Bool} {cmd : List Bytes} {ts : List Spec.Item} {w h : Nat}

theorem draw_settled (gr : Nat → Bool) (l : EditLine) (es : Events) (v : VScreen) (u : Cursor) (S : Emu.Settled v)
    (hb : 0 < (l.shown l.window.1 l.window.2).length) : l.draw gr es v u = l.draw gr es { v with buf := .empty } u := by
  unfold EditLine.draw EditLine.put
  simp only [if_pos hb]
  rw [VScreen.write_settled gr { v with sc := v.sc.to l.box.min } S]

/-- The last word is a variable, its value is edited, and the edit goes on: the words are drawn, then the line. -/
theorem edit_core {ε : Type} (hsp : Screen.Printable gr 0x20) (heq : Screen.Printable gr 0x3D) (hz : gr 0x1A = false)
    (world : List (List Bytes) → Outcome) (suspend : Option ε) (hud : Bool) (f : Full) (S : Setup gr cmd f.s ts w)
    (es : Events) (v : VScreen) (W : v.sc.Whole w h) (hh : rowOf hud + 2 ≤ h)
    (k : Nat) (hk : k < ts.length) (hlast : ts.length = k + 1) (hv : ts[k].var = true)
    (hkeys : ∀ e ∈ es, isRune [0x03] e = false)
    (hp : ∀ e ∈ es, Spec.press e → Geom.Mem e.pt (Spec.place (rowOf hud) ts k))
    (hch : Hud.Spec.odd (Spec.place (rowOf hud) ts k) es = true ∧ f.s.edid = 0 ∨
      Hud.Spec.odd (Spec.place (rowOf hud) ts k) es = false ∧ f.s.edid = k + 1 ∧ f.s.ed.state = .ready)
    (l : EditLine)
    (hl : l = ((Spec.begun cmd f.s (rowOf hud) ts k (Hud.Spec.odd (Spec.place (rowOf hud) ts k) es)).handleAll gr es).1)
    (hr : l.state = .ready)
    (hsz : f.s.size = ((w : Int), ((h - (rowOf hud + 2) : Nat) : Int))) (A : Area f.out w (h - (rowOf hud + 2))) :
    ∃ (v3 : VScreen) (es3 : Events), Hud.Ready v3 w h (Spec.line 0 ts).length (rowOf hud) ∧ v3.sc.cur.attr = 0 ∧ v3.buf.buf = ends ∧
      (∀ a b, a < w → b < h → v3.sc.look w a b =
        if b = rowOf hud ∧ a < (Spec.line 0 ts).length then (Spec.line 0 ts)[a]? else some {}) ∧
      ∀ fr : Frame, l.draw gr es3 v3 {} = .ok fr → fr.out.sc.Whole w h → fr.line.state = .ready →
        ∃ o : Out ε, f.update gr world suspend hud es v = .ok o ∧
          o.f = { f with s := { f.s with edid := k + 1, ed := fr.line } } ∧ o.c.user = fr.user ∧ o.c.v.sc.Whole w h ∧ o.c.v.buf = fr.out.buf ∧
          ∀ a b, a < w → b < h → o.c.v.sc.look w a b =
            if rowOf hud < b ∧ b + 1 < h then f.out.sc.look w a (b - (rowOf hud + 1)) else fr.out.sc.look w a b := by
  have hed : ∀ m < k, f.s.edid ≠ m + 1 := by
    intro m hm
    rcases hch with ⟨-, h⟩ | ⟨-, h, -⟩ <;> omega
  obtain ⟨k1, k2⟩ := keys_left es hkeys
  obtain ⟨sc1, e1, W1, c1, L1⟩ := cleared_blank W
  obtain ⟨R, B, -⟩ := begun_ready W1 v.buf c1 hud (show rowOf hud < h by omega)
  have W2 : (sc1.to ⟨1, if hud then 2 else 1⟩).Whole w h := R.whole
  obtain ⟨v2, e2, R1, B1, L2⟩ := words_idle_upto (y := rowOf hud) hsp heq world f S k (by omega) k 0
    ⟨strikeIf (isRune [0x1A]) es, ⟨sc1.to ⟨1, if hud then 2 else 1⟩, v.buf.reset⟩, {}⟩ (by omega) (by simpa [Spec.line] using R) B
    (fun m _ hm => hed m hm) (fun m _ hm => by
      show Hud.Spec.odd _ (strikeIf _ es) = false
      rw [odd_suspend]
      have : es.countP (pressIn (Spec.place (rowOf hud) ts m) 1) = 0 := by
        rw [List.countP_eq_zero]
        intro e he hq
        obtain ⟨p1, p2⟩ := press_of hq
        exact places_apart ts _ m k hm hk e.pt ⟨p2, hp e he p1⟩
      unfold Hud.Spec.odd
      rw [this]; rfl) (fun m l h1 h2 p => places_apart ts _ m l h1 h2 p)
  have hslot : Spec.slot cmd 0 = 0 := by simp [Spec.slot]
  rw [hslot, List.drop_zero, ← S.cmd_eq, List.drop_eq_getElem_cons hk, List.map_cons, ← hlast, List.drop_length] at e2
  simp only [List.map_nil, drawWords] at e2
  obtain ⟨v3, e3, I3, b3⟩ := S.draw hsp heq k hk v2 R1 B1
  -- the word
  generalize hE : Hud.Spec.without [Spec.place (rowOf hud) ts k]
    (Hud.Spec.without ((List.range' 0 k).map (Spec.place (rowOf hud) ts)) (strikeIf (isRune [0x1A]) es)) = E
  have hodd : Hud.Spec.odd (Spec.place (rowOf hud) ts k)
      (Hud.Spec.without ((List.range' 0 k).map (Spec.place (rowOf hud) ts)) (strikeIf (isRune [0x1A]) es)) =
      Hud.Spec.odd (Spec.place (rowOf hud) ts k) es := by
    rw [Hud.odd_without, odd_suspend]
    intro c hc p hm
    obtain ⟨m, hm', rfl⟩ := List.mem_map.1 hc
    have := List.mem_range'_1.1 hm'
    exact places_apart ts _ m k (by omega) hk p hm
  have hcount : (List.countP (pressIn (Spec.place (rowOf hud) ts k) 1)
      (Hud.Spec.without ((List.range' 0 k).map (Spec.place (rowOf hud) ts)) (strikeIf (isRune [0x1A]) es)) % 2 = 1) =
      (Hud.Spec.odd (Spec.place (rowOf hud) ts k) es = true) := by
    rw [← hodd]
    unfold Hud.Spec.odd
    simp
  have hE2 : ∀ L : EditLine, (L.handleAll gr E).1 = (L.handleAll gr es).1 := by
    intro L
    have hm : ∀ (bs : List Rect) (e : Ev), (bs.any fun b => pressIn b 1 e) = true → ∀ l : EditLine, (l.handle gr e).1 = l := by
      intro bs e he l
      obtain ⟨b, -, hb⟩ := List.any_eq_true.1 he
      exact handle_mouse gr l e (press_of hb).1.1
    rw [← hE]
    unfold Hud.Spec.without
    rw [handleAll_strike gr _ _ (fun e _ he => hm _ e he), handleAll_strike gr _ _ (fun e _ he => hm _ e he),
      handleAll_strike gr _ _ (fun e _ he l => handle_suspend gr hz l e he)]
  have hslotv : f.s.argi[Spec.slot cmd k]? = some k := (S.var k hk).2 hv
  generalize hl0 : Spec.begun cmd f.s (rowOf hud) ts k (Hud.Spec.odd (Spec.place (rowOf hud) ts k) es) = l0 at hl
  have hr0 : l0.state = .ready := by
    rw [← hl0]
    rcases hch with ⟨a1, a2⟩ | ⟨a1, a2, a3⟩
    · rw [a1]; rfl
    · rw [a1]; exact a3
  have hlen : (Spec.line 0 ts).length = (Spec.line 0 (ts.take k)).length + (Spec.cells k ts[k]).length := by
    have := line_succ ts k hk
    rw [← hlast, List.take_length] at this
    rw [this, List.length_append]
  have hst : Spec.style k ts[k].var ≠ 0 := by
    rw [hv]; unfold Spec.style; rw [if_pos rfl]; decide
  rw [if_pos hst] at b3
  refine ⟨v3, (l0.handleAll gr E).2, by rw [hlen]; exact I3.ready, I3.attr, b3, fun a b ha hb => ?_, fun fr d1 d11 hfr => ?_⟩
  · have hlk : (⟨sc1.to ⟨1, if hud then 2 else 1⟩, v.buf.reset⟩ : VScreen).sc.look w a b = some {} := by
      rw [← L1 a b ha hb]; rfl
    rw [I3.look a b ha hb, L2 a b ha hb, hlk]
    have hsplit : Spec.line 0 ts = Spec.line 0 (ts.take k) ++ Spec.cells k ts[k] := by
      have := line_succ ts k hk
      rwa [← hlast, List.take_length] at this
    by_cases h1 : b = rowOf hud ∧ a < (Spec.line 0 ts).length
    · rw [if_pos h1]
      by_cases h2 : (Spec.line 0 (ts.take k)).length ≤ a
      · rw [if_pos (by omega), hsplit, List.getElem?_append_right h2]
      · rw [if_neg (by omega), if_pos (by simp [Spec.line]; omega), hsplit, List.getElem?_append_left (by omega)]
    · rw [if_neg h1, if_neg (by omega), if_neg (by simp [Spec.line]; omega)]
  have hup : l0.update gr E v3 {} = .ok fr := by
    unfold EditLine.update
    rw [if_neg (by simp [hr0])]
    show (if (l0.handleAll gr E).1.state ≠ .ready then _ else _) = _
    rw [hE2, ← hl, if_neg (by simp [hr])]
    exact d1
  have hword : f.word gr world k (Spec.slot cmd k) (encodeRunes ts[k].text)
      ⟨Hud.Spec.without ((List.range' 0 k).map (Spec.place (rowOf hud) ts)) (strikeIf (isRune [0x1A]) es), v2, {}⟩ =
      .ok ({ f with s := { f.s with edid := k + 1, ed := fr.line } }, Spec.slot cmd (k + 1), ⟨fr.input, fr.out, fr.user⟩) := by
    unfold Full.word
    rw [e3]
    simp only [Except.bind, countPressesIn_exact, Nat.zero_add, Hud.without_one, S.next k hk, hE, hcount]
    rcases hch with ⟨a1, a2⟩ | ⟨a1, a2, a3⟩
    · rw [a1] at hl0
      simp only [a1, if_true, hslotv, a2, ne_eq]
      simp only [show ¬ (0 = k + 1) by omega, not_false_eq_true, if_true, if_false, and_self]
      have hl1 : ({ f.s.ed.reset with box := Spec.place (rowOf hud) ts k, buf := f.s.val[Spec.slot cmd k]?.getD [] } : EditLine) = l0 := by
        rw [← hl0]; rfl
      rw [hl1, hup]
      simp only [hfr]
    · rw [a1] at hl0
      simp only [a1, Bool.false_eq_true, if_false, a2, hslotv, and_self, if_true, false_and]
      have hl1 : ({ f.s.ed with box := Spec.place (rowOf hud) ts k } : EditLine) = l0 := by
        rw [← hl0]; rfl
      rw [hl1, hup]
      simp only [hfr]
  rw [hword] at e2
  obtain ⟨v4, e4, W4, -, B4, L4⟩ := overlay_drawn hud fr.out f.out d11 hh A
  have hfit : ({ f with s := { f.s with edid := k + 1, ed := fr.line } } : Full).fit gr world hud (Geom.dx (sc1.to ⟨1, if hud then 2 else 1⟩).grid.rect) (Geom.dy (sc1.to ⟨1, if hud then 2 else 1⟩).grid.rect) =
      .ok { f with s := { f.s with edid := k + 1, ed := fr.line } } := by
    have hx : Geom.dx (sc1.to ⟨1, if hud then 2 else 1⟩).grid.rect = w := by rw [W2.rect]; simp [Geom.dx]
    have hy : Geom.dy (sc1.to ⟨1, if hud then 2 else 1⟩).grid.rect = h := by rw [W2.rect]; simp [Geom.dy]
    unfold Full.fit
    rw [hx, hy]
    simp only
    rw [if_pos]
    rw [hsz]
    cases hud <;> simp [rowOf] at hh ⊢ <;> omega
  have hu : ∃ o, f.update gr world suspend hud es v = .ok o ∧ o.f = { f with s := { f.s with edid := k + 1, ed := fr.line } } ∧ o.c.v = v4 ∧ o.c.user = fr.user := by
    unfold Full.update
    simp only [k1, k2]
    rw [e1]
    simp only [Except.bind] at e2 ⊢
    rw [e2]
    simp only
    rw [hfit]
    simp only
    rw [e4]
    exact ⟨_, rfl, rfl, rfl, rfl⟩
  obtain ⟨o, o1, o2, o3, o4⟩ := hu
  refine ⟨o, o1, o2, o4, by rw [o3]; exact W4, by rw [o3, B4], fun a b ha hb => ?_⟩
  rw [o3, L4 a b ha hb]

/-- A frame in which the last word is a variable whose value is edited, and the edit goes on: the screen. -/
theorem edit_drawn {ε : Type} (hsp : Screen.Printable gr 0x20) (heq : Screen.Printable gr 0x3D) (hz : gr 0x1A = false)
    (world : List (List Bytes) → Outcome) (suspend : Option ε) (hud : Bool) (f : Full) (S : Setup gr cmd f.s ts w)
    (es : Events) (v : VScreen) (W : v.sc.Whole w h) (hh : rowOf hud + 2 ≤ h)
    (k : Nat) (hk : k < ts.length) (hlast : ts.length = k + 1) (hv : ts[k].var = true)
    (hkeys : ∀ e ∈ es, isRune [0x03] e = false)
    (hp : ∀ e ∈ es, Spec.press e → Geom.Mem e.pt (Spec.place (rowOf hud) ts k))
    (hch : Hud.Spec.odd (Spec.place (rowOf hud) ts k) es = true ∧ f.s.edid = 0 ∨
      Hud.Spec.odd (Spec.place (rowOf hud) ts k) es = false ∧ f.s.edid = k + 1 ∧ f.s.ed.state = .ready)
    (l : EditLine)
    (hl : l = ((Spec.begun cmd f.s (rowOf hud) ts k (Hud.Spec.odd (Spec.place (rowOf hud) ts k) es)).handleAll gr es).1)
    (hr : l.state = .ready) (s : Anansi.Spec.Line) (hold : Holds l s) (hne : s.text ≠ [])
    (hpr : ∀ r ∈ s.text, Screen.Printable gr r) (hview : 0 ≤ f.s.ed.view)
    (hw1 : 1 ≤ ts[k].text.length) (hw2 : ts[k].text.length = 1 → s.text.length ≤ 1)
    (hsz : f.s.size = ((w : Int), ((h - (rowOf hud + 2) : Nat) : Int))) (A : Area f.out w (h - (rowOf hud + 2))) :
    ∃ (o : Out ε) (lo hi : Nat), f.update gr world suspend hud es v = .ok o ∧
      o.f = { f with s := { f.s with edid := k + 1, ed := { l with view := lo } } } ∧
      0 < hi - lo ∧ hi - lo ≤ ts[k].text.length ∧ lo ≤ s.cur ∧ s.cur ≤ hi ∧ hi ≤ s.text.length ∧
      (s.text.length ≤ ts[k].text.length → lo = 0 ∧ hi = s.text.length) ∧
      o.c.user = { visible := true, pt := ⟨Spec.start ts k + 1 + (s.cur - lo : Nat), rowOf hud + 1⟩ } ∧
      o.c.v.sc.Whole w h ∧ o.c.v.buf = .empty ∧
      ∀ a b, a < w → b < h → o.c.v.sc.look w a b =
        if b = rowOf hud ∧ Spec.start ts k ≤ a ∧ a < Spec.start ts k + (hi - lo) then some ⟨s.text.getD (lo + (a - Spec.start ts k)) 0, 0⟩
        else if b = rowOf hud ∧ a = Spec.start ts k + (hi - lo) ∧ s.cur = hi then some ⟨0x20, 0⟩
        else if b = rowOf hud ∧ a < (Spec.line 0 ts).length then (Spec.line 0 ts)[a]?
        else if rowOf hud < b ∧ b + 1 < h then f.out.sc.look w a (b - (rowOf hud + 1)) else some {} := by
  have hbox : l.box = Spec.place (rowOf hud) ts k := by
    rw [hl, (Typ.handleAll_keep gr es _).1]
    unfold Spec.begun
    split <;> rfl
  have hview : 0 ≤ l.view := by
    rw [hl, (Typ.handleAll_keep gr es _).2]
    unfold Spec.begun
    split
    · exact Int.le_refl 0
    · exact hview
  obtain ⟨v3, es3, R3, A3, -, L3, fin⟩ := edit_core hsp heq hz world suspend hud f S es v W hh k hk hlast hv hkeys hp hch l hl hr hsz A
  have hbx : l.box.min = ⟨(Spec.start ts k : Nat) + 1, (rowOf hud : Nat) + 1⟩ := by
    rw [hbox]; rfl
  have hdx : Geom.dx l.box = (ts[k].text.length : Nat) := by
    rw [hbox]
    unfold Spec.place Hud.Spec.box Geom.dx
    rw [List.getElem?_eq_getElem hk]
    simp
  have hlen : (Spec.line 0 ts).length = (Spec.line 0 (ts.take k)).length + (Spec.cells k ts[k]).length := by
    have := line_succ ts k hk
    rw [← hlast, List.take_length] at this
    rw [this, List.length_append]
  have hcl : Spec.gap k + ts[k].text.length ≤ (Spec.cells k ts[k]).length := by
    unfold Spec.cells
    simp only [List.length_append, List.length_replicate, List.length_map]
    omega
  have hstart : Spec.start ts k + ts[k].text.length < w := by
    have := S.fits
    unfold Spec.start
    omega
  obtain ⟨fr, lo, hi, d1, -, d3, d4, d5, d6, d7, d8, d9, d10, d11, d12, d13⟩ :=
    draw_shows_full gr hsp.graphic l s es3 { v3 with buf := .empty } {} hold hpr R3.whole rfl hbx hdx hw1 (show rowOf hud < h by omega)
      hview hne (by omega) hw2
  have hlen0 : 0 < s.text.length := List.length_pos_iff.mpr hne
  have hshown : 0 < (l.shown l.window.1 l.window.2).length := by
    obtain ⟨lo', hi', w1, w2, w3, w4, w5, w6, w7, w8, w9, w10, w11⟩ := window_ok l s ts[k].text.length hold hw1 hdx hview
    have hpos : 0 < hi' - lo' := by
      by_cases hc : s.text.length ≤ ts[k].text.length
      · have := w8 hc; omega
      · have := w11 (by omega)
        by_cases h1 : ts[k].text.length = 1
        · have := hw2 h1; omega
        · omega
    rw [shown_text l s hold lo' hi' _ _ w1 w2 w3 w4]
    have h1 := encodeRunes_len ((s.text.take hi').drop lo')
    have h2 : ((s.text.take hi').drop lo').length = hi' - lo' := by simp; omega
    omega
  obtain ⟨o, o1, o2, o3, o4, o5, o6⟩ := fin fr (by rw [draw_settled gr l _ v3 {} R3.settled hshown]; exact d1) d11 (by rw [d10]; exact hr)
  refine ⟨o, lo, hi, o1, by rw [o2, d10], d3, d4, d5, d6, d7, d8, by rw [o3, d9], o4, by rw [o5]; exact d12, ?_⟩
  intro a b ha hb
  rw [o6 a b ha hb, d13 a b ha hb]
  show (if _ then _ else if _ then some (⟨_, v3.sc.cur.attr⟩ : Cell) else if _ then some (⟨0x20, v3.sc.cur.attr⟩ : Cell) else v3.sc.look w a b) = _
  rw [A3, L3 a b ha hb]
  by_cases g1 : rowOf hud < b ∧ b + 1 < h
  · rw [if_pos g1, if_neg (by omega), if_neg (by omega), if_neg (by omega), if_pos g1]
  · rw [if_neg g1, if_neg g1]

/-- Such a frame when the text is empty leaves the sequence that ends the style of the word. -/
theorem edit_empty_left {ε : Type} (hsp : Screen.Printable gr 0x20) (heq : Screen.Printable gr 0x3D) (hz : gr 0x1A = false)
    (world : List (List Bytes) → Outcome) (suspend : Option ε) (hud : Bool) (f : Full) (S : Setup gr cmd f.s ts w)
    (es : Events) (v : VScreen) (W : v.sc.Whole w h) (hh : rowOf hud + 2 ≤ h)
    (k : Nat) (hk : k < ts.length) (hlast : ts.length = k + 1) (hv : ts[k].var = true)
    (hkeys : ∀ e ∈ es, isRune [0x03] e = false)
    (hp : ∀ e ∈ es, Spec.press e → Geom.Mem e.pt (Spec.place (rowOf hud) ts k))
    (hch : Hud.Spec.odd (Spec.place (rowOf hud) ts k) es = true ∧ f.s.edid = 0 ∨
      Hud.Spec.odd (Spec.place (rowOf hud) ts k) es = false ∧ f.s.edid = k + 1 ∧ f.s.ed.state = .ready)
    (l : EditLine)
    (hl : l = ((Spec.begun cmd f.s (rowOf hud) ts k (Hud.Spec.odd (Spec.place (rowOf hud) ts k) es)).handleAll gr es).1)
    (hr : l.state = .ready) (hold : Holds l ⟨[], 0⟩) (hview : 0 ≤ f.s.ed.view) (hw1 : 1 ≤ ts[k].text.length)
    (hsz : f.s.size = ((w : Int), ((h - (rowOf hud + 2) : Nat) : Int))) (A : Area f.out w (h - (rowOf hud + 2))) :
    ∃ o : Out ε, f.update gr world suspend hud es v = .ok o ∧
      o.f = { f with s := { f.s with edid := k + 1, ed := { l with view := 0 } } } ∧ o.c.v.sc.Whole w h ∧ o.c.v.buf.buf = ends := by
  have hbox : l.box = Spec.place (rowOf hud) ts k := by
    rw [hl, (Typ.handleAll_keep gr es _).1]
    unfold Spec.begun
    split <;> rfl
  have hview : 0 ≤ l.view := by
    rw [hl, (Typ.handleAll_keep gr es _).2]
    unfold Spec.begun
    split
    · exact Int.le_refl 0
    · exact hview
  obtain ⟨v3, es3, R3, A3, B3, L3, fin⟩ := edit_core hsp heq hz world suspend hud f S es v W hh k hk hlast hv hkeys hp hch l hl hr hsz A
  have hbx : l.box.min = ⟨(Spec.start ts k : Nat) + 1, (rowOf hud : Nat) + 1⟩ := by
    rw [hbox]; rfl
  have hdx : Geom.dx l.box = (ts[k].text.length : Nat) := by
    rw [hbox]
    unfold Spec.place Hud.Spec.box Geom.dx
    rw [List.getElem?_eq_getElem hk]
    simp
  have hlen : (Spec.line 0 ts).length = (Spec.line 0 (ts.take k)).length + (Spec.cells k ts[k]).length := by
    have := line_succ ts k hk
    rw [← hlast, List.take_length] at this
    rw [this, List.length_append]
  have hcl : Spec.gap k + ts[k].text.length ≤ (Spec.cells k ts[k]).length := by
    unfold Spec.cells
    simp only [List.length_append, List.length_replicate, List.length_map]
    omega
  obtain ⟨lo, hi, w1, w2, w3, w4, w5, w6, w7, w8, -⟩ := window_ok l ⟨[], 0⟩ ts[k].text.length hold hw1 hdx hview
  have hshown := shown_text l _ hold lo hi _ _ w1 w2 w3 w4
  obtain ⟨rfl, rfl⟩ : lo = 0 ∧ hi = 0 := w8 (by simp)
  have hbytes : l.shown l.window.1 l.window.2 = [] := by rw [hshown]; rfl
  have hcur : l.cur = 0 := by rw [hold.cur]; rfl
  have hx : v3.sc.cur.pt.x = ((Spec.line 0 ts).length : Int) + 1 := by
    have : v3.sc.cur.pt = _ := R3.cur
    rw [this]
  have hdraw : l.draw gr es3 v3 {} = .ok ⟨{ l with view := 0 }, es3, v3, ({ l with view := 0 } : EditLine).mark {}⟩ := by
    unfold EditLine.draw EditLine.put
    rw [w1, Nat.cast_zero] at hbytes
    simp only [w1, Nat.cast_zero, hbytes, List.length_nil, Nat.lt_irrefl, gt_iff_lt, if_false, Except.bind]
    have hno : ¬ v3.sc.cur.pt.x = (({ l with view := 0 } : EditLine).mark {}).pt.x := by
      rw [hx]
      unfold EditLine.mark
      simp only [hbx, hcur]
      unfold Spec.start
      push_cast
      omega
    simp only [blank, if_neg hno]
    rfl
  obtain ⟨o, o1, o2, -, o4, o5, -⟩ := fin _ hdraw R3.whole hr
  exact ⟨o, o1, o2, o4, by rw [o5]; exact B3⟩

/-- A frame in which Enter or Escape ends such an edit leaves the sequence that ends the style of the word. -/
theorem edit_ends_left {ε : Type} (hsp : Screen.Printable gr 0x20) (heq : Screen.Printable gr 0x3D) (hz : gr 0x1A = false)
    (world : List (List Bytes) → Outcome) (suspend : Option ε) (hud : Bool) (f : Full) (S : Setup gr cmd f.s ts w)
    (es : Events) (v : VScreen) (W : v.sc.Whole w h) (hh : rowOf hud + 2 ≤ h)
    (k : Nat) (hk : k < ts.length) (hlast : ts.length = k + 1) (hv : ts[k].var = true)
    (hkeys : ∀ e ∈ es, isRune [0x03] e = false)
    (hp : ∀ e ∈ es, Spec.press e → Geom.Mem e.pt (Spec.place (rowOf hud) ts k))
    (hed : ∀ m < k, f.s.edid ≠ m + 1)
    (hch : Hud.Spec.odd (Spec.place (rowOf hud) ts k) es = true ∧ f.s.edid ≠ k + 1 ∨
      Hud.Spec.odd (Spec.place (rowOf hud) ts k) es = false ∧ f.s.edid = k + 1 ∧ f.s.ed.state = .ready)
    (o : Out ε) (ho : f.update gr world suspend hud es v = .ok o) (l : EditLine)
    (hl : l = ((Spec.begun cmd f.s (rowOf hud) ts k (Hud.Spec.odd (Spec.place (rowOf hud) ts k) es)).handleAll gr es).1)
    (hr : l.state ≠ .ready) : o.c.v.buf.buf = ends := by
  obtain ⟨k1, k2⟩ := keys_left es hkeys
  obtain ⟨sc, q, f1, v1, h1, h2, -, u4', -, u6, -⟩ := update_parts ho
  obtain ⟨sc1, e1, W1, c1, -⟩ := cleared_blank W
  rw [h1] at e1
  injection e1 with e1
  subst e1
  rw [k1] at h2
  simp only [k2] at h2
  obtain ⟨R, B, -⟩ := begun_ready W1 v.buf c1 hud (show rowOf hud < h by omega)
  -- the words before
  obtain ⟨v2, e2, R1, B1, -⟩ := words_idle_upto (y := rowOf hud) hsp heq world f S k (by omega) k 0
    ⟨strikeIf (isRune [0x1A]) es, ⟨sc.to ⟨1, if hud then 2 else 1⟩, v.buf.reset⟩, {}⟩ (by omega) (by simpa [Spec.line] using R) B
    (fun m _ hm => hed m hm) (fun m _ hm => by
      show Hud.Spec.odd _ (strikeIf _ es) = false
      rw [odd_suspend]
      have : es.countP (pressIn (Spec.place (rowOf hud) ts m) 1) = 0 := by
        rw [List.countP_eq_zero]
        intro e he hq
        obtain ⟨p1, p2⟩ := press_of hq
        exact places_apart ts _ m k hm hk e.pt ⟨p2, hp e he p1⟩
      unfold Hud.Spec.odd
      rw [this]; rfl) (fun m l h1 h2 p => places_apart ts _ m l h1 h2 p)
  have hslot : Spec.slot cmd 0 = 0 := by simp [Spec.slot]
  rw [hslot, List.drop_zero, ← S.cmd_eq] at e2
  rw [e2, List.drop_eq_getElem_cons hk, List.map_cons] at h2
  simp only [drawWords] at h2
  obtain ⟨r, w1, w2⟩ := bind_ok h2
  -- the word
  unfold Full.word at w1
  obtain ⟨v3, e3, -, b3⟩ := S.draw hsp heq k hk v2 R1 B1
  obtain ⟨d, hd, w1⟩ := bind_ok w1
  rw [e3] at hd
  injection hd with hd
  subst hd
  simp only [countPressesIn_exact, Nat.zero_add, Hud.without_one, S.next k hk] at w1
  generalize hE : Hud.Spec.without [Spec.place (rowOf hud) ts k]
    (Hud.Spec.without ((List.range' 0 k).map (Spec.place (rowOf hud) ts)) (strikeIf (isRune [0x1A]) es)) = E at w1
  have hodd : Hud.Spec.odd (Spec.place (rowOf hud) ts k)
      (Hud.Spec.without ((List.range' 0 k).map (Spec.place (rowOf hud) ts)) (strikeIf (isRune [0x1A]) es)) =
      Hud.Spec.odd (Spec.place (rowOf hud) ts k) es := by
    rw [Hud.odd_without, odd_suspend]
    intro c hc p hm
    obtain ⟨m, hm', rfl⟩ := List.mem_map.1 hc
    have := List.mem_range'_1.1 hm'
    exact places_apart ts _ m k (by omega) hk p hm
  have hcount : (List.countP (pressIn (Spec.place (rowOf hud) ts k) 1)
      (Hud.Spec.without ((List.range' 0 k).map (Spec.place (rowOf hud) ts)) (strikeIf (isRune [0x1A]) es)) % 2 = 1) =
      (Hud.Spec.odd (Spec.place (rowOf hud) ts k) es = true) := by
    rw [← hodd]
    unfold Hud.Spec.odd
    simp
  simp only [hcount] at w1
  have hE2 : ∀ L : EditLine, (L.handleAll gr E).1 = (L.handleAll gr es).1 := by
    intro L
    have hm : ∀ (bs : List Rect) (e : Ev), (bs.any fun b => pressIn b 1 e) = true → ∀ l : EditLine, (l.handle gr e).1 = l := by
      intro bs e he l
      obtain ⟨b, -, hb⟩ := List.any_eq_true.1 he
      exact handle_mouse gr l e (press_of hb).1.1
    rw [← hE]
    unfold Hud.Spec.without
    rw [handleAll_strike gr _ _ (fun e _ he => hm _ e he), handleAll_strike gr _ _ (fun e _ he => hm _ e he),
      handleAll_strike gr _ _ (fun e _ he l => handle_suspend gr hz l e he)]
  have hslotv : f.s.argi[Spec.slot cmd k]? = some k := (S.var k hk).2 hv
  -- the line that is edited
  generalize hl0 : Spec.begun cmd f.s (rowOf hud) ts k (Hud.Spec.odd (Spec.place (rowOf hud) ts k) es) = l0 at hl
  have key : Edits gr world f k (Spec.slot cmd k) E v3 l0 r := by
    rcases hch with ⟨a1, a2⟩ | ⟨a1, a2, a3⟩
    · rw [a1] at hl0
      simp only [a1, if_true, hslotv, a2, if_false, ne_eq, not_false_eq_true, and_self] at w1
      exact edits_of (j' := Spec.slot cmd (k + 1)) { f.s with edid := k + 1 }
        { state := .ready, box := Spec.place (rowOf hud) ts k, buf := f.s.val[Spec.slot cmd k]?.getD [], cur := 0, view := 0 }
        rfl (by rw [← hl0]; rfl) w1
    · rw [a1] at hl0
      simp only [a1, Bool.false_eq_true, if_false, a2, hslotv, and_self, if_true, false_and] at w1
      rw [show f.s = { f.s with edid := k + 1 } by rw [← a2]] at w1
      exact edits_of (j' := Spec.slot cmd (k + 1)) { f.s with edid := k + 1 } { f.s.ed with box := Spec.place (rowOf hud) ts k }
        rfl (by rw [← hl0]; rfl) w1
  obtain ⟨fr, u1, u2, u3, u4, u5⟩ := key
  have hr0 : l0.state = .ready := by
    rw [← hl0]
    rcases hch with ⟨a1, a2⟩ | ⟨a1, a2, a3⟩
    · rw [a1]; rfl
    · rw [a1]; exact a3
  have hfr : fr.out = v3 := by
    unfold EditLine.update at u1
    rw [if_neg (by simp [hr0])] at u1
    replace u1 : (if (l0.handleAll gr E).1.state ≠ .ready then _ else _) = Except.ok fr := u1
    rw [hE2, ← hl, if_pos hr] at u1
    injection u1 with u1
    rw [← u1]
  rw [← hlast, List.drop_length] at w2
  simp only [List.map_nil, drawWords] at w2
  injection w2 with w2
  have hq : q.2.v = v3 := by rw [← w2, u2]; exact hfr
  have hst : Spec.style k ts[k].var ≠ 0 := by
    rw [hv]; unfold Spec.style; rw [if_pos rfl]; decide
  rw [if_pos hst] at b3
  rw [hq] at u4'
  have hb : v1.buf = v3.buf := by
    unfold overlay at u4'
    generalize (⟨1, if hud then 3 else 2⟩ : Pt) = p at u4'
    simp only at u4'
    split at u4'
    · split at u4'
      · cases u4'
      · injection u4' with u4'; rw [← u4']
    · injection u4' with u4'; rw [← u4']
  rw [u6]
  show v1.buf.buf = _
  rw [hb]; exact b3

end Itr

open Vt Geom Render

namespace Direct
open Anansi.Spec

variable {gr : Nat → Bool} {cmd : List Bytes} {ts : List Itr.Spec.Item}

namespace Spec

/-- The first row while the text of the last word, `k`, is edited, of which the characters from `lo` to `hi` are shown: they stand
where the name does, in no style; a cursor after them has a blank; and the rest of the row is the words. -/
def editing (ts : List Itr.Spec.Item) (k : Nat) (text : List Nat) (cur lo hi x : Nat) : Glyph :=
  let c := Itr.Spec.start ts k
  if c ≤ x ∧ x < c + (hi - lo) then ⟨text.getD (lo + (x - c)) 0, {}⟩
  else if x = c + (hi - lo) ∧ cur = hi then blank
  else (words 0 ts).getD x blank

/-- The terminal shows a text being edited over the last word, `n` columns wide: a part around the cursor, all of it if it fits; the
other words; the area below; and its cursor, which is to be seen, at its place in the text. -/
def Editing (ts : List Itr.Spec.Item) (k n : Nat) (s : Anansi.Spec.Line) (area : Nat → Nat → Glyph) (t : Term) : Prop :=
  ∃ lo hi, lo < hi ∧ hi - lo ≤ n ∧ lo ≤ s.cur ∧ s.cur ≤ hi ∧ hi ≤ s.text.length ∧ (s.text.length ≤ n → lo = 0 ∧ hi = s.text.length) ∧
    (∀ x y, x < t.w → y < t.h → t.cell x y =
      if y = 0 then editing ts k s.text s.cur lo hi x else if y + 1 < t.h then area x (y - 1) else blank) ∧
    t.vis = true ∧ t.x = Itr.Spec.start ts k + (s.cur - lo) ∧ t.y = 0 ∧ t.pend = false

end Spec

/-- **C149**: while the value of the last word is edited and its text is not empty, the frame is shown: the text over the name of
the variable, the other words, the output, and the cursor. -/
theorem interact_edit_shown {ε : Type} (hsp : Printable gr 0x20) (heq : Printable gr 0x3D) (hz : gr 0x1A = false)
    {d : Differ} {t t1 : Term} {old : Option Screen} {a : Pt}
    (Y : Synced d t old a) (redraw : Bool) (cell : Nat → Nat → Glyph) (x y : Nat) (pend : Bool) (ht1 : t1 = { t with cell, x, y, pend })
    (hrd : redraw = false → t1 = t) (world : List (List Bytes) → Itr.Outcome) (sus : Option ε) (f : Itr.Full)
    (S : Itr.Setup gr cmd f.s ts t1.w) (hpl : ∀ t ∈ ts, (∀ r ∈ t.text, Printable gr r) ∧ ∀ r ∈ t.val, Printable gr r)
    (es : Evq.Events) (hh : 2 ≤ t1.h)
    (k : Nat) (hk : k < ts.length) (hlast : ts.length = k + 1) (hv : ts[k].var = true)
    (hkeys : ∀ e ∈ es, Evq.isRune [0x03] e = false)
    (hp : ∀ e ∈ es, Itr.Spec.press e → Geom.Mem e.pt (Itr.Spec.place 0 ts k))
    (hch : Hud.Spec.odd (Itr.Spec.place 0 ts k) es = true ∧ f.s.edid = 0 ∨
      Hud.Spec.odd (Itr.Spec.place 0 ts k) es = false ∧ f.s.edid = k + 1 ∧ f.s.ed.state = .ready)
    (l : Edl.EditLine)
    (hl : l = ((Itr.Spec.begun cmd f.s 0 ts k (Hud.Spec.odd (Itr.Spec.place 0 ts k) es)).handleAll gr es).1)
    (hr : l.state = .ready) (s : Anansi.Spec.Line) (hold : Edl.Holds l s) (hne : s.text ≠ [])
    (hpr : ∀ r ∈ s.text, Printable gr r) (hview : 0 ≤ f.s.ed.view)
    (hw1 : 1 ≤ ts[k].text.length) (hw2 : ts[k].text.length = 1 → s.text.length ≤ 1)
    (hsz : f.s.size = ((t1.w : Int), ((t1.h - 2 : Nat) : Int))) (A : Itr.Area f.out t1.w (t1.h - 2))
    (area : Nat → Nat → Glyph) (F : Filled gr f.out t1.w (t1.h - 2) area) :
    ∃ o d1, itrFrame gr world sus f es d none (if redraw then some (t1.w, t1.h) else none) = .ok (o, d1) ∧
      (∃ m : Nat, o.f = { f with s := { f.s with edid := k + 1, ed := { l with view := m } } }) ∧
      (Spec.Easy t1 (if redraw then none else old) (if redraw then zp else a) d1.v.sc d1.user →
        ∃ d' ops, d1.writeTo gr .ok = .ok (d', text ops, none) ∧ (t1.run ops).w = t1.w ∧ (t1.run ops).h = t1.h ∧
          Spec.Editing ts k ts[k].text.length s area (t1.run ops) ∧
          Synced d' (t1.run ops) (some d1.v.sc) d1.user.pt) := by
  obtain ⟨d2, b1, W, Y2⟩ := begun Y redraw cell x y pend ht1 hrd
  obtain ⟨o, lo, hi, o1, o2, o3, o4, o5, o6, o7, o8, o9, o10, o11, o12⟩ :=
    Itr.edit_drawn (printed hsp) (printed heq) hz world sus false f S es d2.v W hh k hk hlast hv hkeys hp hch l hl hr s hold hne
      (fun r h => printed (hpr r h)) hview hw1 hw2 hsz A
  have hrow : Itr.rowOf false = 0 := rfl
  rw [hrow] at o9 o12
  refine ⟨o, { d2 with v := o.c.v, user := o.c.user }, ?_, ⟨lo, o2⟩, fun hs => ?_⟩
  · unfold itrFrame
    rw [b1]
    show (f.update gr world sus false es d2.v).map _ = _
    rw [o1]
    rfl
  have hline := same_line hsp heq ts 0 hpl
  have hll := hline.length_eq
  have hz0 : (0 : Attr) = Sgr.Style.build {} := by decide
  let g : Nat → Nat → Glyph := fun x y =>
    if y = 0 then Spec.editing ts k s.text s.cur lo hi x else if y + 1 < t1.h ∧ x < t1.w then area x (y - 1) else blank
  have key : ∀ x y, Printable gr (g x y).rune ∧ (x < t1.w → y < t1.h → ∃ c, o.c.v.sc.look t1.w x y = some c ∧ Inked (ink c) (g x y)) := by
    intro x y
    have hblank : Inked (ink ({} : Cell)) blank := ⟨rfl, rfl, hz0⟩
    show Printable gr (if y = 0 then _ else _ : Glyph).rune ∧ (_ → _ → ∃ c, _ ∧ Inked (ink c) (if y = 0 then _ else _))
    by_cases h0 : y = 0
    · rw [if_pos h0]
      unfold Spec.editing
      simp only
      by_cases h1 : Itr.Spec.start ts k ≤ x ∧ x < Itr.Spec.start ts k + (hi - lo)
      · rw [if_pos h1]
        have hin : lo + (x - Itr.Spec.start ts k) < s.text.length := by omega
        have hm : Printable gr (s.text.getD (lo + (x - Itr.Spec.start ts k)) 0) := by
          rw [List.getD_eq_getElem _ _ hin]
          exact hpr _ (List.getElem_mem hin)
        refine ⟨hm, fun hx hy => ⟨⟨s.text.getD (lo + (x - Itr.Spec.start ts k)) 0, 0⟩, by rw [o12 x y hx hy, if_pos ⟨h0, h1⟩], ?_, rfl, hz0⟩⟩
        have := hm.c0
        simp only [ink]
        rw [if_neg (by omega)]
      · rw [if_neg h1]
        by_cases h2 : x = Itr.Spec.start ts k + (hi - lo) ∧ s.cur = hi
        · rw [if_pos h2]
          refine ⟨hsp, fun hx hy => ⟨⟨0x20, 0⟩, by rw [o12 x y hx hy, if_neg (fun h => h1 h.2), if_pos ⟨h0, h2⟩], rfl, rfl, hz0⟩⟩
        · rw [if_neg h2]
          have G := same_get hsp hline x
          refine ⟨G.2, fun hx hy => ⟨(Itr.Spec.line 0 ts).getD x {}, ?_, G.1⟩⟩
          rw [o12 x y hx hy, if_neg (fun h => h1 h.2), if_neg (fun h => h2 h.2)]
          by_cases hx1 : x < (Itr.Spec.line 0 ts).length
          · rw [if_pos ⟨h0, hx1⟩, List.getD_eq_getElem _ _ hx1, List.getElem?_eq_getElem hx1]
          · rw [if_neg (fun h => hx1 h.2), if_neg (by omega), List.getD_eq_default _ _ (by omega)]
    · rw [if_neg h0]
      by_cases h1 : y + 1 < t1.h ∧ x < t1.w
      · rw [if_pos h1]
        obtain ⟨c, c1, c2, c3⟩ := F x (y - 1) h1.2 (by omega)
        refine ⟨c3, fun hx hy => ⟨c, ?_, c2⟩⟩
        rw [o12 x y hx hy, if_neg (fun h => h0 h.1), if_neg (fun h => h0 h.1), if_neg (fun h => h0 h.1), if_pos (by omega)]
        exact c1
      · rw [if_neg h1]
        refine ⟨hsp, fun hx hy => ⟨{}, ?_, hblank⟩⟩
        rw [o12 x y hx hy, if_neg (fun h => h0 h.1), if_neg (fun h => h0 h.1), if_neg (fun h => h0 h.1), if_neg (by omega)]
  let pic : Term := { clearTerm t1.w t1.h with cell := g }
  have P : Shows pic o.c.v.sc t1.w t1.h := ⟨rfl, rfl, fun x y hx hy => (key x y).2 hx hy⟩
  have hfit := S.fits
  have hstart : Itr.Spec.start ts k + ts[k].text.length < t1.w := by
    have h1 := Itr.line_succ ts k hk
    rw [← hlast, List.take_length] at h1
    rw [h1, List.length_append] at hfit
    unfold Itr.Spec.cells at hfit
    simp only [List.length_append, List.length_replicate, List.length_map] at hfit
    unfold Itr.Spec.start
    omega
  have hpt : o.c.user.pt = ⟨((Itr.Spec.start ts k + (s.cur - lo) : Nat) : Int) + 1, ((0 : Nat) : Int) + 1⟩ := by
    rw [o9]
    simp only [Pt.mk.injEq, and_true]
    push_cast
    omega
  have hseen : Direct.Spec.seen o.c.user = true := by
    rw [Direct.Spec.seen, hpt, o9]
    simp [valid]
    omega
  obtain ⟨d', ops, h1, h2, h3, h4, h5, h6, h7⟩ := flushed gr hsp Y2 o.c.v o10 (by rw [o11]; rfl) pic P (fun x y => (key x y).1) o.c.user
    (fun _ => ⟨⟨_, _, by omega, by omega, hpt⟩, {}, rfl, by rw [o9]; exact hz0⟩) hs
  have hat := (h6 hseen).1
  rw [hpt] at hat
  refine ⟨d', ops, h1, h2, h3, ⟨lo, hi, by omega, o4, o5, o6, o7, o8, fun x y hx hy => ?_, by rw [h5]; exact hseen, ?_⟩, ?_⟩
  · rw [h2] at hx
    rw [h3] at hy ⊢
    rw [h4 x y hx hy]
    show (if y = 0 then _ else if y + 1 < t1.h ∧ x < t1.w then _ else _ : Glyph) = _
    by_cases h0 : y = 0
    · rw [if_pos h0, if_pos h0]
    · rw [if_neg h0, if_neg h0]
      by_cases h1 : y + 1 < t1.h
      · rw [if_pos h1, if_pos ⟨h1, hx⟩]
      · rw [if_neg h1, if_neg (fun h => h1 h.1)]
  · obtain ⟨-, k5, k6⟩ := hat
    have g1 := congrArg Pt.x k6
    have g2 := congrArg Pt.y k6
    simp only at g1 g2
    exact ⟨by omega, by omega, k5⟩
  · rw [show Spec.rest t1.w t1.h (if redraw then none else old) (if redraw then zp else a) o.c.v.sc o.c.user = o.c.user.pt by
      unfold Spec.rest; rw [if_pos hseen]] at h7
    exact h7

/-- **C149**, where it fails: while the text is empty, as it is when the edit of a variable without a value begins, the frame writes
the end of a style and nothing else; neither the words nor the cursor are shown. -/
theorem edit_begins_unseen {ε : Type} (hsp : Printable gr 0x20) (heq : Printable gr 0x3D) (hz : gr 0x1A = false)
    {d : Differ} {t : Term} {old : Option Screen} {a : Pt} (Y : Synced d t old a) (world : List (List Bytes) → Itr.Outcome)
    (sus : Option ε) (f : Itr.Full) (S : Itr.Setup gr cmd f.s ts t.w) (es : Evq.Events) (hh : 2 ≤ t.h)
    (k : Nat) (hk : k < ts.length) (hlast : ts.length = k + 1) (hv : ts[k].var = true)
    (hkeys : ∀ e ∈ es, Evq.isRune [0x03] e = false)
    (hp : ∀ e ∈ es, Itr.Spec.press e → Geom.Mem e.pt (Itr.Spec.place 0 ts k))
    (hch : Hud.Spec.odd (Itr.Spec.place 0 ts k) es = true ∧ f.s.edid = 0 ∨
      Hud.Spec.odd (Itr.Spec.place 0 ts k) es = false ∧ f.s.edid = k + 1 ∧ f.s.ed.state = .ready)
    (l : Edl.EditLine)
    (hl : l = ((Itr.Spec.begun cmd f.s 0 ts k (Hud.Spec.odd (Itr.Spec.place 0 ts k) es)).handleAll gr es).1)
    (hr : l.state = .ready) (hold : Edl.Holds l ⟨[], 0⟩) (hview : 0 ≤ f.s.ed.view) (hw1 : 1 ≤ ts[k].text.length)
    (hsz : f.s.size = ((t.w : Int), ((t.h - 2 : Nat) : Int))) (A : Itr.Area f.out t.w (t.h - 2)) :
    ∃ o d1 d', itrFrame gr world sus f es d none none = .ok (o, d1) ∧ o.f.s.edid = k + 1 ∧
      d1.writeTo gr .ok = .ok (d', Itr.ends, none) := by
  obtain ⟨d2, b1, W, -⟩ := begun Y false t.cell t.x t.y t.pend rfl (fun _ => rfl)
  obtain ⟨o, o1, o2, o3, o4⟩ := Itr.edit_empty_left (printed hsp) (printed heq) hz world sus false f S es d2.v W hh k hk hlast hv hkeys hp
    hch l hl hr hold hview hw1 hsz A
  obtain ⟨d', g1, -⟩ := leftover_written gr { d2 with v := o.c.v, user := o.c.user } o3 (by rw [o4]; decide)
  refine ⟨o, { d2 with v := o.c.v, user := o.c.user }, d', ?_, by rw [o2], ?_⟩
  · unfold itrFrame
    rw [show begin d none none = .ok d2 from b1]
    show (f.update gr world sus false es d2.v).map _ = _
    rw [o1]
    rfl
  · rw [← o4]; exact g1

/-- **C149**, where it fails: when Enter takes the text, or Escape drops it, the frame writes the end of a style and nothing else: the
terminal goes on showing the text being edited, and the cursor in it. -/
theorem edit_ends_unseen {ε : Type} (hsp : Printable gr 0x20) (heq : Printable gr 0x3D) (hz : gr 0x1A = false) (hc : cmd ≠ [])
    (d : Differ) (t : Term) (W : d.v.sc.Whole t.w t.h) (redraw : Bool) (world : List (List Bytes) → Itr.Outcome)
    (sus : Option ε) (f : Itr.Full) (n : Nat × Nat) (F : Itr.Fits cmd f n) (S : Itr.Setup gr cmd f.s ts t.w) (es : Evq.Events) (hh : 2 ≤ t.h)
    (k : Nat) (hk : k < ts.length) (hlast : ts.length = k + 1) (hv : ts[k].var = true)
    (hkeys : ∀ e ∈ es, Evq.isRune [0x03] e = false)
    (hp : ∀ e ∈ es, Itr.Spec.press e → Geom.Mem e.pt (Itr.Spec.place 0 ts k)) (hed : ∀ m < k, f.s.edid ≠ m + 1)
    (hch : Hud.Spec.odd (Itr.Spec.place 0 ts k) es = true ∧ f.s.edid ≠ k + 1 ∨
      Hud.Spec.odd (Itr.Spec.place 0 ts k) es = false ∧ f.s.edid = k + 1 ∧ f.s.ed.state = .ready)
    (hr : ((Itr.Spec.begun cmd f.s 0 ts k (Hud.Spec.odd (Itr.Spec.place 0 ts k) es)).handleAll gr es).1.state ≠ .ready)
    (o : Itr.Out ε) (d1 : Differ) (h : itrFrame gr world sus f es d none (if redraw then some (t.w, t.h) else none) = .ok (o, d1)) :
    ∃ d', d1.writeTo gr .ok = .ok (d', text [.sgr [0]], none) ∧ (t.run [.sgr [0]]).cell = t.cell ∧ (t.run [.sgr [0]]).vis = t.vis ∧
      (t.run [.sgr [0]]).x = t.x ∧ (t.run [.sgr [0]]).y = t.y := by
  obtain ⟨d2, b1, W2⟩ := begun_whole d W redraw
  unfold itrFrame at h
  rw [b1] at h
  have h' : (f.update gr world sus false es d2.v).map (fun o => (o, ({ d2 with v := o.c.v, user := o.c.user } : Differ))) = .ok (o, d1) := h
  cases hu : f.update gr world sus false es d2.v with
  | error e => rw [hu] at h'; cases h'
  | ok o' =>
    rw [hu] at h'
    injection h' with h'
    obtain ⟨rfl, rfl⟩ := Prod.mk.inj h'
    have k := Itr.edit_ends_left (printed hsp) (printed heq) hz world sus false f S es d2.v W2 hh k hk hlast hv hkeys hp hed hch o' hu _ rfl hr
    rcases Itr.frame_safe (ε := ε) gr world sus false hc F es d2.v W2 hh with ⟨o2, e2, -, -, W'⟩ | e2
    · rw [hu] at e2
      injection e2 with e2
      subst e2
      obtain ⟨d', m1, -⟩ := leftover_written gr { d2 with v := o'.c.v, user := o'.c.user } W' (by
        show o'.c.v.buf.buf ≠ []
        rw [k]; decide)
      refine ⟨d', ?_, rfl, rfl, rfl, rfl⟩
      rw [m1]
      show Except.ok (d', o'.c.v.buf.buf, none) = _
      rw [k]
      have : text [.sgr [0]] = Itr.ends := by decide +kernel
      rw [this]
    · rw [hu] at e2; cases e2

theorem words_length : ∀ (ts : List Itr.Spec.Item) (i : Nat), (Spec.words i ts).length = (Itr.Spec.line i ts).length
  | [], _ => rfl
  | t :: ts, i => by
    simp only [Spec.words, Itr.Spec.line, List.length_append, words_length ts (i + 1)]
    congr 1
    unfold Spec.word Itr.Spec.cells Itr.Spec.gap Spec.coloured Spec.uncoloured
    simp only [List.length_append, List.length_replicate, List.length_map]
    by_cases h0 : i = 0 <;> by_cases h1 : t.var = true <;> by_cases h2 : t.val = [] <;> simp [h0, h1, h2]

theorem words_append (a b : List Itr.Spec.Item) : ∀ i, Spec.words i (a ++ b) = Spec.words i a ++ Spec.words (i + a.length) b := by
  induction a with
  | nil => intro i; simp [Spec.words]
  | cons t a ih =>
    intro i
    simp only [List.cons_append, Spec.words, ih, List.append_assoc, List.length_cons]
    rw [show i + 1 + a.length = i + (a.length + 1) by omega]

/-- The name of a variable in its place. -/
theorem name_at (k : Nat) (hk : k < ts.length) (hv : ts[k].var = true) (i : Nat) (hi : i < ts[k].text.length) :
    (Spec.words 0 ts).getD (Itr.Spec.start ts k + i) blank = ⟨ts[k].text.getD i 0, { fg := some (.indexed 6) }⟩ := by
  have hs : Spec.words 0 ts = Spec.words 0 (ts.take k) ++ (Spec.word k ts[k] ++ Spec.words (k + 1) (ts.drop (k + 1))) := by
    conv => lhs; rw [← List.take_append_drop k ts, List.drop_eq_getElem_cons hk, words_append]
    simp only [Spec.words, List.length_take, Nat.zero_add]
    rw [Nat.min_eq_left (by omega)]
  have hlen := words_length (ts.take k) 0
  rw [hs]
  unfold Itr.Spec.start
  rw [List.getD_append_right _ _ _ _ (by omega), hlen]
  unfold Spec.word Itr.Spec.gap Spec.coloured
  rw [if_pos hv]
  by_cases h0 : k = 0
  · simp only [h0, if_true, List.nil_append, List.append_assoc]
    subst h0
    rw [List.getD_append _ _ _ _ (by simp; omega)]
    simp only [Nat.add_zero, Nat.add_sub_cancel_left]
    rw [List.getD_eq_getElem _ _ (by simpa using hi), List.getD_eq_getElem _ _ hi]
    simp
  · simp only [h0, if_false, List.append_assoc]
    rw [List.getD_append_right _ _ _ _ (by simp; omega), List.getD_append _ _ _ _ (by simp; omega)]
    rw [List.getD_eq_getElem _ _ (by simp; omega), List.getD_eq_getElem _ _ hi]
    simp only [List.getElem_map, Glyph.mk.injEq, and_true]
    congr 1
    simp
    omega

/-- **C149**, where it fails: behind a text shorter than the name the rest of the name is still to be seen, so that by the characters
shown one text cannot be told from another: every beginning of the name, with the cursor before it, looks like the name. -/
theorem edit_alike (k : Nat) (hk : k < ts.length) (hv : ts[k].var = true) (m : Nat) (h1 : 1 ≤ m) (h2 : m ≤ ts[k].text.length) (x : Nat) :
    (Spec.editing ts k (ts[k].text.take m) 0 0 m x).rune = ((Spec.words 0 ts).getD x blank).rune := by
  unfold Spec.editing
  simp only [Nat.sub_zero, Nat.zero_add]
  by_cases hx : Itr.Spec.start ts k ≤ x ∧ x < Itr.Spec.start ts k + m
  · rw [if_pos hx]
    have := name_at k hk hv (x - Itr.Spec.start ts k) (by omega)
    rw [show Itr.Spec.start ts k + (x - Itr.Spec.start ts k) = x by omega] at this
    rw [this]
    simp only
    rw [List.getD_eq_getElem _ _ (by simp; omega), List.getD_eq_getElem _ _ (by omega), List.getElem_take]
  · rw [if_neg hx, if_neg (by omega)]

/-- **C149**, where it fails: behind a text shorter than the name, and the cursor not at its end, stands the next character of the name. -/
theorem edit_residue (k : Nat) (hk : k < ts.length) (hv : ts[k].var = true) (s : List Nat) (cur : Nat) (h1 : cur < s.length)
    (h2 : s.length < ts[k].text.length) :
    Spec.editing ts k s cur 0 s.length (Itr.Spec.start ts k + s.length) = ⟨ts[k].text.getD s.length 0, { fg := some (.indexed 6) }⟩ := by
  unfold Spec.editing
  simp only [Nat.sub_zero]
  rw [if_neg (by omega), if_neg (by omega)]
  exact name_at k hk hv s.length h2

/-! ### Examples -/

/-- `interact rm '$xy'` on a terminal of 12 columns and 5 rows, after its first frame. -/
def cmdE : List Bytes := [ascii "rm", ascii "$xy"]
def startE : Itr.Full := ⟨(({} : Itr.St).setCmd cmdE).getD {}, {}⟩
def fE : Itr.Full := match Itr.stepX (.ok startE) [] with | .ok o => o.f | .error _ => {}
def tsE : List Itr.Spec.Item := [⟨false, [0x72, 0x6D], []⟩, ⟨true, [0x24, 0x78, 0x79], []⟩]

theorem setupE : Itr.Setup Itr.grX cmdE fE.s tsE 12 := by
  refine ⟨⟨by decide +kernel, by decide +kernel, by decide +kernel, by decide +kernel, ?_⟩, ⟨by decide +kernel, by decide +kernel, ?_⟩, ?_,
    by decide +kernel⟩
  · rw [show fE.s.runs = [] by decide +kernel]
    simp
  · intro i h hv
    have : i = 0 ∨ i = 1 := by simp [tsE] at h; omega
    rcases this with rfl | rfl
    · cases hv
    · rw [show tsE[1] = (⟨true, [0x24, 0x78, 0x79], []⟩ : Itr.Spec.Item) from rfl]
      decide +kernel
  · intro t ht
    simp only [tsE, List.mem_cons, List.not_mem_nil, or_false] at ht
    rcases ht with rfl | rfl <;> refine ⟨fun r hr => ?_, fun r hr => ?_⟩ <;>
      simp only [List.mem_cons, List.not_mem_nil, or_false] at hr
    all_goals
      apply Itr.printX
      omega

/-- A press on the variable, and "a" typed. -/
def keysE : Evq.Events := [Itr.clickX 5 1, Itr.Spec.typed 0x61]
def lineE (es : Evq.Events) : Edl.EditLine :=
  ((Itr.Spec.begun cmdE fE.s 0 tsE 1 (Hud.Spec.odd (Itr.Spec.place 0 tsE 1) es)).handleAll Itr.grX es).1

/-- The hypotheses of `interact_edit_shown` about the command and the keys hold. -/
example : Itr.Setup Itr.grX cmdE fE.s tsE 12 ∧ tsE.length = 2 ∧ tsE[1].var = true ∧ (∀ e ∈ keysE, Evq.isRune [0x03] e = false) ∧
    (∀ e ∈ keysE, Itr.Spec.press e → Geom.Mem e.pt (Itr.Spec.place 0 tsE 1)) ∧
    Hud.Spec.odd (Itr.Spec.place 0 tsE 1) keysE = true ∧ fE.s.edid = 0 ∧ (lineE keysE).state = .ready ∧
    Edl.Holds (lineE keysE) ⟨[0x61], 1⟩ ∧ 0 ≤ fE.s.ed.view ∧ fE.s.size = (12, 3) ∧ Itr.Area fE.out 12 3 := by
  refine ⟨setupE, rfl, rfl, by decide, ?_, by decide +kernel, by decide +kernel, by decide +kernel,
    ⟨by decide +kernel, by decide, by decide +kernel, Nat.le_refl 1⟩, by decide +kernel, by decide +kernel,
    ⟨by decide +kernel, by decide +kernel, by decide +kernel⟩⟩
  intro e he hp
  simp only [keysE, List.mem_cons, List.not_mem_nil, or_false] at he
  rcases he with rfl | rfl
  · unfold Geom.Mem; decide +kernel
  · exact absurd hp.1 (by decide)

/-- Those of `edit_begins_unseen` hold for a press alone. -/
example : Hud.Spec.odd (Itr.Spec.place 0 tsE 1) [Itr.clickX 5 1] = true ∧ (lineE [Itr.clickX 5 1]).state = .ready ∧
    Edl.Holds (lineE [Itr.clickX 5 1]) ⟨[], 0⟩ :=
  ⟨by decide +kernel, by decide +kernel, ⟨by decide +kernel, by decide, by decide +kernel, Nat.le_refl 0⟩⟩

/-- What frames write: a press on the variable shows nothing; typing "a" shows the words, the "a" in place of the "$" with the rest
of the name behind the blank at the cursor, and the cursor; an arrow key brings back the "x" of the name; Enter
shows nothing. -/
def framesE : Itr.Full → Differ → List Evq.Events → Option (List Bytes)
  | _, _, [] => some []
  | f, d, es :: rest => do
    let r ← (itrFrame (ε := Unit) Itr.grX Itr.worldX none f es d none none).toOption
    let q ← (r.2.writeTo Itr.grX .ok).toOption
    (framesE r.1.f q.1 rest).map (q.2.1 :: ·)

/-- The left arrow. -/
def leftE : Evq.Ev := ⟨.escape, CUB, [], 0, ⟨0, 0⟩⟩

example : framesE startE (sizeTo {} (12, 5)) [[], [Itr.clickX 5 1], [Itr.Spec.typed 0x61], [leftE], [Itr.Spec.typed 0x0D]] =
    some [Itr.ends, Itr.ends, ascii ("\x1b[?25l\x1b[2J\x1b[1;1H\x1b[0;32mrm\x1b[0m a \x1b[36my\r\n\x1b[0mDefine varia\r\nbles to run" ++
      "\x1b[1;5H\x1b[?25h"), ascii "\x1b[?25l\x1b[36mx\x1b[2D\x1b[0m\x1b[?25h", Itr.ends] := by decide +kernel

end Direct
end Anansi
