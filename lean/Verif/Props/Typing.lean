import Verif.Props.Frame
import Verif.Props.InputDecode
import Verif.Props.EditLineView
import Verif.Spec.Render
/-
C129: what is typed is what the edit line holds.
-/
set_option autoImplicit false

namespace Anansi
namespace Typ
open Evq Frm

variable {σ ε : Type}

namespace Spec

/-- A key pressed while a line is edited: a character; backspace; an arrow; or one of the
keys the platform keeps, Ctrl-L and Ctrl-K. -/
inductive Stroke
  | char (r : Nat)
  | back
  | left
  | right
  | up
  | down
  | redraw
  | hud
deriving DecidableEq, Repr

/-- What a terminal sends for it. -/
def Stroke.bytes : Stroke → Bytes
  | .char r => encodeRune r
  | .back => [0x7F]
  | .left => [0x1B, 0x5B, 0x44]
  | .right => [0x1B, 0x5B, 0x43]
  | .up => [0x1B, 0x5B, 0x41]
  | .down => [0x1B, 0x5B, 0x42]
  | .redraw => [0x0C]
  | .hud => [0x0B]

/-- What it does to the text. -/
def Stroke.key : Stroke → Anansi.Spec.Key
  | .char r => .type r
  | .back => .back
  | .left => .move (-1)
  | .right => .move 1
  | .up => .move 0
  | .down => .move 0
  | .redraw => .other
  | .hud => .other

/-- The characters are graphic, and none that begin or stand for escape sequences. -/
def Stroke.Ok (gr : Nat → Bool) : Stroke → Prop
  | .char r => gr r = true ∧ plainRune r ∧ isEscape r = false
  | _ => True

/-- What the keys leave of a text. -/
def edited (s : Anansi.Spec.Line) (ks : List Stroke) : Anansi.Spec.Line := (ks.map Stroke.key).foldl Anansi.Spec.Line.press s

/-- What the polls of a frame bring: nothing when there is no input, or all the bytes there
are until there are no more for now, in pieces cut anywhere. -/
inductive Sent : List Poll → Bytes → Prop
  | none (l : List Poll) (h : ∀ q ∈ l, Frm.Spec.Poll.reads q = false) : Sent l []
  | some (a b : List Poll) (cs : List Inp.Chunk) (ha : ∀ q ∈ a, Frm.Spec.Poll.reads q = false) (hb : ∀ q ∈ b, Frm.Spec.Poll.reads q = false) :
      Sent (a ++ .input (cs.map (fun c => .data c.1 c.2.1 c.2.2) ++ [.nothing]) true true :: b)
        (cs.flatMap fun c => c.1 :: c.2.1)

/-- A client with an edit line: as long as the line is active, every frame updates it with
the events of the frame, on some screen and with some user cursor, and leaves the events the
line leaves. -/
def Edits (gr : Nat → Bool) (line : σ → Edl.EditLine) (on : σ → View → VScreen × Cursor)
    (client : σ → View → Left σ ε) : Prop :=
  ∀ s v f, (line s).state = .ready → (line s).update gr v.events (on s v).1 (on s v).2 = .ok f →
    line (client s v).state = f.line ∧ (client s v).events = f.input

/-- Drawing the line does not panic in any of the frames. -/
def Fine (gr : Nat → Bool) (line : σ → Edl.EditLine) (on : σ → View → VScreen × Cursor)
    (client : σ → View → Left σ ε) : σ → List View → Prop
  | _, [] => True
  | s, v :: vs => ((line s).update gr v.events (on s v).1 (on s v).2).toOption.isSome = true ∧
      Fine gr line on client (client s v).state vs

instance decFine (gr : Nat → Bool) (line : σ → Edl.EditLine) (on : σ → View → VScreen × Cursor)
    (client : σ → View → Left σ ε) : ∀ s vs, Decidable (Fine gr line on client s vs)
  | _, [] => isTrue trivial
  | s, v :: vs => by
    have := decFine gr line on client (client s v).state vs
    unfold Fine; infer_instance

/-- The state of a client that has seen some frames. -/
def seen (client : σ → View → Left σ ε) (s : σ) (vs : List View) : σ := vs.foldl (fun s v => (client s v).state) s

end Spec
open Typ.Spec (Stroke Sent Edits Fine seen edited)

/-! ### Decoding -/

/-- The strokes as items of the input. -/
def item : Stroke → InItem
  | .char r => .rune r
  | .back => .rune 0x7F
  | .left => .csi false [] 0x44
  | .right => .csi false [] 0x43
  | .up => .csi false [] 0x41
  | .down => .csi false [] 0x42
  | .redraw => .rune 0x0C
  | .hud => .rune 0x0B

theorem item_bytes (k : Stroke) : (item k).bytes = k.bytes := by
  cases k <;> rfl

theorem item_ok (gr : Nat → Bool) (k : Stroke) (h : k.Ok gr) : (item k).Ok := by
  cases k with
  | char r => exact h.2.1
  | back => show plainRune 0x7F; decide
  | redraw => show plainRune 0x0C; decide
  | hud => show plainRune 0x0B; decide
  | _ => exact ⟨by simp, by decide, by decide⟩

/-- The entry of a stroke. -/
def ev (k : Stroke) : Ev := entry (item k).event.1 (item k).event.2

theorem ev_char (r : Nat) (this : isEscape r = false) : ev (.char r) = ⟨.rune, r, [], 0, ⟨0, 0⟩⟩ := by
  unfold ev item InItem.event entry
  have hm : ¬ (r = csiId 0x4D ∨ r = csiId 0x6D) := by
    simp [isEscape, csiId] at this ⊢
    omega
  simp [this, hm]

/-! ### Reading -/

theorem loop_reads (cs : List Inp.Chunk) : ∀ (s : Inp.Input) (n : Nat) (q : Inp.Input × Nat × Inp.Err × List Inp.Avail),
    s.readLoop n (cs.map (fun c => Inp.Avail.data c.1 c.2.1 c.2.2) ++ [.nothing]) = some q →
      q.1.buf = s.buf ++ cs.flatMap (fun c => c.1 :: c.2.1) ∧ q.2.1 = n + (cs.flatMap fun c => c.1 :: c.2.1).length := by
  induction cs with
  | nil =>
    intro s n q h
    simp only [List.map_nil, List.nil_append, Inp.Input.readLoop] at h
    split at h
    · simp only [Option.some.injEq] at h; subst h; simp
    · split at h
      · simp only [Option.some.injEq] at h; subst h; simp
      · simp at h
  | cons c cs ih =>
    intro s n q h
    simp only [List.map_cons, List.cons_append, Inp.Input.readLoop] at h
    obtain ⟨a, b⟩ := ih _ _ _ h
    simp only at a
    refine ⟨by rw [a]; simp, by rw [b]; simp; omega⟩

theorem setNonblock_ok (s : Inp.Input) : (s.setNonblock true true true).2 = true ∧ (s.setNonblock true true true).1.buf = s.buf := by
  unfold Inp.Input.setNonblock
  split
  · exact ⟨rfl, rfl⟩
  · unfold Inp.Input.setFlags
    simp only
    have hfd : ∀ t : Inp.Input, t.fd.buf = t.buf := by intro t; unfold Inp.Input.fd; split <;> rfl
    split
    · exact ⟨rfl, rfl⟩
    · simp [Inp.Input.setfl, hfd]

theorem readAny_reads (cs : List Inp.Chunk) (s : Inp.Input) (q : Inp.Input × Nat × Inp.Err × List Inp.Avail)
    (h : s.readAny (cs.map (fun c => Inp.Avail.data c.1 c.2.1 c.2.2) ++ [.nothing]) true true = some q) :
    q.1.buf = s.buf ++ cs.flatMap (fun c => c.1 :: c.2.1) ∧ q.2.1 = (cs.flatMap fun c => c.1 :: c.2.1).length := by
  obtain ⟨h1, h2⟩ := setNonblock_ok s
  unfold Inp.Input.readAny at h
  simp only [h1, Bool.not_true, Bool.false_eq_true, if_false] at h
  cases hl : ({ (s.setNonblock true true true).1 with ateof := false } : Inp.Input).readLoop 0
      (cs.map (fun c => Inp.Avail.data c.1 c.2.1 c.2.2) ++ [.nothing]) with
  | none => rw [hl] at h; simp at h
  | some t =>
    rw [hl] at h
    obtain ⟨a, b⟩ := loop_reads cs _ _ _ hl
    obtain ⟨t1, tn, te, tl⟩ := t
    simp only at a b
    rw [h2] at a
    rw [Nat.zero_add] at b
    cases te <;> simp only [Option.some.injEq] at h <;> subst h <;> exact ⟨a, b⟩

theorem typed_noread (l : List Poll) (h : ∀ q ∈ l, Frm.Spec.Poll.reads q = false) (inp : Inp.Input) : Frm.Spec.typed inp l = some (inp, []) := by
  induction l with
  | nil => rfl
  | cons q l ih =>
    have := ih (fun q hq => h q (by simp [hq]))
    cases q with
    | stop _ => exact this
    | resize _ => exact this
    | input av g s => simp [Frm.Spec.Poll.reads] at h

theorem item_ne_nil (i : InItem) : i.bytes ≠ [] := by
  cases i with
  | rune r => exact encodeRune_ne_nil r
  | csi c a f => simp [InItem.bytes]
  | str c r b t => cases t <;> simp [InItem.bytes, c1Bytes, encodeRune_ne_nil]
  | esc f => simp [InItem.bytes]

theorem drain_all (is : List InItem) (h : ∀ i ∈ is, i.Ok) (s : Inp.Input) (hs : s.buf = is.flatMap InItem.bytes) :
    s.drain = ({ s with buf := [] }, is.map InItem.event) := by
  have := Inp.drain_items is h s [] (by rw [hs]; simp)
  rw [this, Inp.drain_stop ({ s with buf := [] } : Inp.Input) { s with buf := [] } (by simp [Inp.Input.decode])]
  simp

/-- What is typed in a frame. -/
theorem typed_items (l : List Poll) (b : Bytes) (h : Sent l b) (is : List InItem) (hk : ∀ i ∈ is, i.Ok)
    (hb : b = is.flatMap InItem.bytes) (inp inp' : Inp.Input) (es : Events)
    (h0 : inp.buf = []) (ht : Frm.Spec.typed inp l = some (inp', es)) :
    inp'.buf = [] ∧ es = is.map fun i => entry i.event.1 i.event.2 := by
  have hempty : is.flatMap InItem.bytes = [] → is = [] := by
    intro h
    cases is with
    | nil => rfl
    | cons k ks =>
      simp only [List.flatMap_cons, List.append_eq_nil_iff] at h
      exact absurd h.1 (item_ne_nil k)
  cases h with
  | none _ h =>
    rw [typed_noread _ h] at ht
    simp only [Option.some.injEq, Prod.mk.injEq] at ht
    rw [hempty hb.symm]
    exact ⟨by rw [← ht.1]; exact h0, ht.2.symm⟩
  | some a c cs ha hc =>
    rw [Frm.typed_append, typed_noread a ha] at ht
    simp only [Option.bind_some, List.nil_append] at ht
    rw [Frm.Spec.typed] at ht
    cases hr : inp.readAny (cs.map (fun c => Inp.Avail.data c.1 c.2.1 c.2.2) ++ [.nothing]) true true with
    | none => rw [hr] at ht; simp at ht
    | some q =>
      obtain ⟨e1, e2⟩ := readAny_reads cs inp q hr
      obtain ⟨q1, qn, qe, ql⟩ := q
      simp only at e1 e2
      rw [hr] at ht
      simp only at ht
      rw [h0, List.nil_append, hb] at e1
      rw [typed_noread c hc] at ht
      by_cases hn : 0 < qn
      · rw [if_pos hn, drain_all is hk q1 e1] at ht
        simp only [Option.map_some, List.append_nil, Option.some.injEq, Prod.mk.injEq] at ht
        refine ⟨by rw [← ht.1], ?_⟩
        rw [← ht.2]
        simp [Function.comp_def]
      · rw [if_neg hn] at ht
        simp only [Option.map_some, List.append_nil, Option.some.injEq, Prod.mk.injEq] at ht
        have : cs.flatMap (fun c => c.1 :: c.2.1) = [] := List.length_eq_zero_iff.1 (by omega)
        rw [hb] at this
        rw [hempty this] at e1 ⊢
        exact ⟨by rw [← ht.1, e1]; rfl, ht.2.symm⟩

theorem items_bytes (ks : List Stroke) : (ks.map item).flatMap InItem.bytes = ks.flatMap Stroke.bytes := by
  rw [List.flatMap_map]
  congr 1; funext k; exact item_bytes k

theorem typed_strokes (gr : Nat → Bool) (l : List Poll) (b : Bytes) (h : Sent l b) (ks : List Stroke)
    (hk : ∀ k ∈ ks, k.Ok gr) (hb : b = ks.flatMap Stroke.bytes) (inp inp' : Inp.Input) (es : Events)
    (h0 : inp.buf = []) (ht : Frm.Spec.typed inp l = some (inp', es)) : inp'.buf = [] ∧ es = ks.map ev := by
  have := typed_items l b h (ks.map item) (by simpa using fun k hk' => item_ok gr k (hk k hk'))
    (by rw [items_bytes, hb]) inp inp' es h0 ht
  rw [List.map_map] at this
  exact this

theorem sent_once (l : List Poll) (b : Bytes) (h : Sent l b) : l.countP Frm.Spec.Poll.reads ≤ 1 := by
  have hz : ∀ l : List Poll, (∀ q ∈ l, Frm.Spec.Poll.reads q = false) → l.countP Frm.Spec.Poll.reads = 0 := by
    intro l h
    rw [List.countP_eq_zero]
    intro q hq; simp [h q hq]
  cases h with
  | none _ h => simp [hz _ h]
  | some a c cs ha hc => simp [hz _ ha, hz _ hc, List.countP_cons, Frm.Spec.Poll.reads]

/-! ### Editing -/

theorem press_filter (f : Ev → Anansi.Spec.Key) (p : Ev → Bool) (es : Events) (h : ∀ e ∈ es, p e = false → f e = .other) :
    ∀ s : Anansi.Spec.Line, ((es.filter p).map f).foldl Anansi.Spec.Line.press s = (es.map f).foldl Anansi.Spec.Line.press s ∧
      (s.SimpleAll ((es.filter p).map f) ↔ s.SimpleAll (es.map f)) := by
  induction es with
  | nil => intro s; exact ⟨rfl, Iff.rfl⟩
  | cons e es ih =>
    intro s
    have ih := ih (fun e he => h e (by simp [he]))
    by_cases hp : p e = true
    · simp only [List.filter_cons, hp, if_true, List.map_cons, List.foldl_cons, Anansi.Spec.Line.SimpleAll]
      exact ⟨(ih _).1, and_congr Iff.rfl (ih _).2⟩
    · have hf := h e (by simp) (by simpa using hp)
      have hpress : s.press .other = s := rfl
      simp only [List.filter_cons, hp, Bool.false_eq_true, if_false, List.map_cons, List.foldl_cons,
        Anansi.Spec.Line.SimpleAll, hf, hpress, Anansi.Spec.Line.Simple, true_and]
      exact ih s

/-- The controls are not graphic. -/
def Ctl (gr : Nat → Bool) : Prop :=
  gr 0x0B = false ∧ gr 0x0C = false ∧ gr 0x0D = false ∧ gr 0x7F = false ∧ gr 0x12 = false ∧ gr 0 = false

theorem keyOf_ev (gr : Nat → Bool) (hc : Ctl gr) (k : Stroke) (h : k.Ok gr) : Edl.keyOf gr (ev k) = k.key := by
  obtain ⟨c1, c2, c3, c4, c5, _⟩ := hc
  cases k with
  | char r => rw [ev_char r h.2.2]; simp [Edl.keyOf, h.1, Stroke.key]
  | back => show (if gr 0x7F then _ else _) = _; rw [c4]; rfl
  | redraw => show (if gr 0x0C then _ else _) = _; rw [c2]; rfl
  | hud => show (if gr 0x0B then _ else _) = _; rw [c1]; rfl
  | _ => rfl

/-- The strokes are there to be seen. -/
theorem live_ev (ks : List Stroke) (gr : Nat → Bool) (h : ∀ k ∈ ks, k.Ok gr) : ∀ e ∈ ks.map ev, e.kind ≠ .none := by
  intro e he
  rw [List.mem_map] at he
  obtain ⟨k, hk, rfl⟩ := he
  cases k with
  | char r => rw [ev_char r (h _ hk).2.2]; simp
  | _ => decide

/-- The line takes every stroke that reaches it. -/
theorem handle_takes (gr : Nat → Bool) (hc : Ctl gr) (l : Edl.EditLine) (k : Stroke) (h : k.Ok gr)
    (ho : Frm.Spec.ownKey (ev k) = false) : (l.handle gr (ev k)).2.kind = .none := by
  obtain ⟨c1, c2, c3, c4, c5, _⟩ := hc
  cases k with
  | char r =>
    rw [ev_char r h.2.2]
    simp [Edl.EditLine.handle, Edl.EditLine.handleGraphicRune, h.1, Ev.struck]
  | back =>
    have : ev .back = ⟨.rune, 0x7F, [], 0, ⟨0, 0⟩⟩ := rfl
    rw [this]
    simp [Edl.EditLine.handle, Edl.EditLine.handleGraphicRune, Edl.EditLine.handleControlRune, c4, Ev.struck]
  | redraw => exact absurd ho (by decide)
  | hud => exact absurd ho (by decide)
  | left => rfl
  | right => rfl
  | up => rfl
  | down => rfl

theorem handleAll_takes (gr : Nat → Bool) (es : Events)
    (h : ∀ e ∈ es, e.kind ≠ .none → ∀ l : Edl.EditLine, (l.handle gr e).2.kind = .none) :
    ∀ l : Edl.EditLine, Frm.Spec.live (l.handleAll gr es).2 = [] := by
  induction es with
  | nil => intro l; rfl
  | cons e es ih =>
    intro l
    have e1 : (l.handle gr e).2.kind = .none := by
      by_cases hk : e.kind = .none
      · simp [Edl.EditLine.handle, hk]
      · exact h e (by simp) hk l
    rw [Edl.EditLine.handleAll]
    have := ih (fun e he => h e (by simp [he])) (l.handle gr e).1
    simp only [Frm.Spec.live] at this ⊢
    rw [List.filter_cons_of_neg (by simp [e1])]
    exact this

/-- What an active line makes of the events of a frame. -/
theorem frame_edits (gr : Nat → Bool) (hgr : ∀ r, gr r = true → validRune r = true) (hc : Ctl gr) (l : Edl.EditLine)
    (s : Anansi.Spec.Line) (ks : List Stroke) (hk : ∀ k ∈ ks, k.Ok gr) (es : Events)
    (he : Frm.Spec.live es = (ks.map ev).filter fun e => !Frm.Spec.ownKey e) (h : Edl.Holds l s)
    (hs : s.SimpleAll (ks.map Stroke.key)) :
    Edl.Holds (l.handleAll gr es).1 (edited s ks) ∧ Frm.Spec.live (l.handleAll gr es).2 = [] := by
  have hkeys : (ks.map ev).map (Edl.keyOf gr) = ks.map Stroke.key := by
    rw [List.map_map]
    exact List.map_congr_left fun k hk' => keyOf_ev gr hc k (hk k hk')
  have f1 := press_filter (Edl.keyOf gr) (fun e => decide (e.kind ≠ .none)) es (by
    intro e _ hn
    have : e.kind = .none := by simpa using hn
    simp [Edl.keyOf, this]) s
  have f2 := press_filter (Edl.keyOf gr) (fun e => !Frm.Spec.ownKey e) (ks.map ev) (by
    intro e he ho
    rw [List.mem_map] at he
    obtain ⟨k, hk', rfl⟩ := he
    have ho : Frm.Spec.ownKey (ev k) = true := by simpa using ho
    rw [keyOf_ev gr hc k (hk k hk')]
    cases k with
    | char r =>
      have hO := hk _ hk'
      rw [ev_char r hO.2.2] at ho
      obtain ⟨c1, c2, c3, c4, c5, _⟩ := hc
      have hg := hO.1
      simp only [Frm.Spec.ownKey, decide_true, Bool.true_and, Bool.or_eq_true, decide_eq_true_eq] at ho
      rcases ho with (rfl | rfl) | rfl <;> simp_all
    | redraw => rfl
    | hud => rfl
    | _ => exact absurd ho (by decide)) s
  have hl : es.filter (fun e => decide (e.kind ≠ .none)) = Frm.Spec.live es := rfl
  rw [hl, he, f2.1, hkeys] at f1
  rw [f2.2, hkeys] at f1
  have := Edl.session_holds_partial gr hgr es l s h (f1.2.1 hs)
  rw [← f1.1] at this
  refine ⟨this, handleAll_takes gr es ?_ l⟩
  intro e hm hn l
  have : e ∈ Frm.Spec.live es := by simp [Frm.Spec.live, hm, hn]
  rw [he, List.mem_filter, List.mem_map] at this
  obtain ⟨⟨k, hk', rfl⟩, ho⟩ := this
  exact handle_takes gr hc l k (hk k hk') (by simpa using ho)

theorem handleAll_ready (gr : Nat → Bool) (es : Events)
    (h : ∀ e ∈ es, e.kind = .rune → gr e.esc = false → e.esc ≠ 0x0D ∧ e.esc ≠ 0x1B) :
    ∀ l : Edl.EditLine, (l.handleAll gr es).1.state = l.state := by
  induction es with
  | nil => intro l; rfl
  | cons e es ih =>
    intro l
    rw [Edl.EditLine.handleAll]
    have := ih (fun e he => h e (by simp [he])) (l.handle gr e).1
    show ((l.handle gr e).1.handleAll gr es).1.state = _
    rw [this, Edl.handle_state]
    rw [if_neg (fun c => (h e (by simp) c.1 c.2.1).1 c.2.2), if_neg (fun c => (h e (by simp) c.1 c.2.1).2 c.2.2)]

theorem ev_ready (gr : Nat → Bool) (k : Stroke) (h : k.Ok gr) (hk : (ev k).kind = .rune) (hg : gr (ev k).esc = false) :
    (ev k).esc ≠ 0x0D ∧ (ev k).esc ≠ 0x1B := by
  cases k with
  | char r =>
    rw [ev_char r h.2.2] at hg
    have := h.1
    simp_all
  | back => decide
  | redraw => decide
  | hud => decide
  | _ => exact absurd hk (by decide)

/-- The strokes of a frame, given to an active line. -/
theorem update_edits (gr : Nat → Bool) (hgr : ∀ r, gr r = true → validRune r = true) (hc : Ctl gr) (l : Edl.EditLine)
    (s : Anansi.Spec.Line) (ks : List Stroke) (hk : ∀ k ∈ ks, k.Ok gr) (es : Events)
    (he : Frm.Spec.live es = (ks.map ev).filter fun e => !Frm.Spec.ownKey e) (h : Edl.Holds l s) (hr : l.state = .ready)
    (hs : s.SimpleAll (ks.map Stroke.key)) (v : VScreen) (u : Cursor) (f : Edl.Frame) (hf : l.update gr es v u = .ok f) :
    Edl.Holds f.line (edited s ks) ∧ f.line.state = .ready ∧ Frm.Spec.live f.input = [] := by
  obtain ⟨a, b⟩ := frame_edits gr hgr hc l s ks hk es he h hs
  have c : (l.handleAll gr es).1.state = .ready := by
    rw [handleAll_ready gr es ?_ l, hr]
    intro e hm hkd
    have : e ∈ Frm.Spec.live es := by simp [Frm.Spec.live, hm, hkd]
    rw [he, List.mem_filter, List.mem_map] at this
    obtain ⟨⟨k, hk', rfl⟩, ho⟩ := this
    exact ev_ready gr k (hk k hk') hkd
  unfold Edl.EditLine.update at hf
  rw [if_neg (by simp [hr])] at hf
  simp only at hf
  rw [if_neg (by simp [c])] at hf
  obtain ⟨d1, d2⟩ := Edl.draw_line gr _ _ _ _ _ hf
  rw [d1, d2]
  exact ⟨a.view _, c, b⟩

/-! ### Frames -/

theorem edited_append (s : Anansi.Spec.Line) (a b : List Stroke) : edited s (a ++ b) = edited (edited s a) b := by
  simp [edited]

theorem simple_append (a b : List Anansi.Spec.Key) : ∀ s : Anansi.Spec.Line,
    s.SimpleAll (a ++ b) ↔ s.SimpleAll a ∧ (a.foldl Anansi.Spec.Line.press s).SimpleAll b := by
  induction a with
  | nil => intro s; simp [Anansi.Spec.Line.SimpleAll]
  | cons k a ih => intro s; simp only [List.cons_append, Anansi.Spec.Line.SimpleAll, List.foldl_cons, ih, and_assoc]

theorem polls_client (l : List Poll) : ∀ (p : Plat σ) (err : Option (Err ε)) (r : Plat σ × Option (Err ε)),
    p.polls err l = some r → r.1.client = p.client := by
  induction l with
  | nil => intro p err r h; simp only [Plat.polls, Option.some.injEq] at h; rw [← h]
  | cons q l ih =>
    intro p err r h
    simp only [Plat.polls, Option.bind_eq_some_iff] at h
    obtain ⟨r1, h1, h2⟩ := h
    rw [ih _ _ _ h2]
    cases q with
    | stop sig => simp only [Plat.poll, Option.some.injEq] at h1; rw [← h1]
    | resize sz => simp only [Plat.poll, Option.some.injEq] at h1; rw [← h1]
    | input av g s =>
      simp only [Plat.poll] at h1
      split at h1
      · simp at h1
      · split at h1 <;> simp only [Option.some.injEq] at h1 <;> rw [← h1]

/-- What a frame leaves is what the client leaves. -/
theorem frame_left (client : σ → View → Left σ ε) (p p' : Plat σ) (f : Frm.Frame ε) (w : View)
    (h : p.frame client f = .next p' w) :
    p'.client = (client p.client w).state ∧ p'.events = (client p.client w).events := by
  unfold Plat.frame at h
  split at h
  · simp at h
  split at h
  · simp at h
  rename_i q1 e1 hq
  have hc := polls_client _ _ _ _ hq
  simp only at hc
  simp only at h
  split at h
  · simp at h
  · simp only [Done.next.injEq] at h
    rw [← h.1, ← h.2, ← hc]
    exact ⟨rfl, rfl⟩

/-- **C129**: a program with an edit line, run by the platform.  Keys are typed, in any
number and mixture; their bytes arrive in frames, some with input and some without, the
bytes of a frame in pieces cut anywhere.  After any number of frames the line is active and
holds the text and cursor that the keys typed until then give.  Missing, because it fails:
backspace in the middle of a text (`Edl.backspace_middle`), a frame with two reads
(`Frm.second_read_drops`), a character cut by the end of a frame (`cut_char_lost`), and
characters that stand for escapes (`private_char_moves`). -/
theorem typing_edits_partial (gr : Nat → Bool) (hgr : ∀ r, gr r = true → validRune r = true) (hc : Ctl gr)
    (line : σ → Edl.EditLine) (on : σ → View → VScreen × Cursor) (client : σ → View → Left σ ε)
    (hl : Edits gr line on client)
    (fs : List (Frm.Frame ε × List Stroke))
    (hs : ∀ x ∈ fs, Sent x.1.polls (x.2.flatMap Stroke.bytes) ∧ ∀ k ∈ x.2, k.Ok gr) :
    ∀ (p : Plat σ) (s : Anansi.Spec.Line), Frm.Spec.live p.events = [] → p.input.buf = [] →
      (line p.client).state = .ready → Edl.Holds (line p.client) s →
      s.SimpleAll ((fs.flatMap (·.2)).map Stroke.key) →
      Fine gr line on client p.client (p.run client (fs.map (·.1))).1 →
      let vs := (p.run client (fs.map (·.1))).1
      (line (seen client p.client vs)).state = .ready ∧
        Edl.Holds (line (seen client p.client vs)) (edited s ((fs.take vs.length).flatMap (·.2))) := by
  induction fs with
  | nil => intro p s _ _ hr hh _ _; exact ⟨hr, hh⟩
  | cons x fs ih =>
    obtain ⟨f, ks⟩ := x
    intro p s h0 hb hr hh hsim hfine
    have ih := ih (fun x hx => hs x (by simp [hx]))
    obtain ⟨hsent, hok⟩ := hs (f, ks) (by simp)
    simp only at hsent hok
    simp only [List.flatMap_cons, List.map_append, simple_append] at hsim
    -- a frame that is shown to the client
    have step : ∀ w, ((line p.client).update gr w.events (on p.client w).1 (on p.client w).2).toOption.isSome = true →
        ((∃ p', p.frame client f = .next p' w) ∨ ∃ e, p.frame client f = .stop (some w) e) →
        (line (client p.client w).state).state = .ready ∧
        Edl.Holds (line (client p.client w).state) (edited s ks) ∧ Frm.Spec.live (client p.client w).events = [] ∧
        ∀ p', p.frame client f = .next p' w → p'.input.buf = [] ∧ p'.client = (client p.client w).state ∧
          p'.events = (client p.client w).events := by
      intro w hu hw
      obtain ⟨inp, es, e1, e2, e3⟩ := Frm.frame_events client p f w h0 (sent_once _ _ hsent) hw
      obtain ⟨t1, t2⟩ := typed_strokes gr _ _ hsent ks hok rfl _ _ _ hb e1
      rw [t2] at e2
      cases g1 : (line p.client).update gr w.events (on p.client w).1 (on p.client w).2 with
      | error x => rw [g1] at hu; simp [Except.toOption] at hu
      | ok fr =>
      obtain ⟨g2, g3⟩ := hl p.client w fr hr g1
      obtain ⟨q1, q2, q3⟩ := update_edits gr hgr hc _ s ks hok _ e2 hh hr hsim.1 _ _ _ g1
      rw [g2, g3]
      refine ⟨q2, q1, q3, ?_⟩
      intro p' hp
      obtain ⟨l1, l2⟩ := frame_left client p p' f w hp
      refine ⟨by rw [(e3 p' hp).1]; exact t1, ?_, ?_⟩
      · exact l1
      · rw [l2, g3]
    by_cases ht : f.time = 0
    · simp only [List.map_cons, Plat.run, ht, if_true]; exact ⟨hr, hh⟩
    cases hf : p.frame client f with
    | hang => simp only [List.map_cons, Plat.run, ht, hf, if_false]; exact ⟨hr, hh⟩
    | stop w e =>
      simp only [List.map_cons, Plat.run, ht, hf, if_false] at hfine ⊢
      cases w with
      | none => exact ⟨hr, hh⟩
      | some w =>
        obtain ⟨a, b, _⟩ := step w hfine.1 (.inr ⟨e, hf⟩)
        simpa [seen] using ⟨a, b⟩
    | next p' w =>
      simp only [List.map_cons, Plat.run, ht, hf, if_false] at hfine
      obtain ⟨a, b, c, d⟩ := step w hfine.1 (.inl ⟨p', hf⟩)
      obtain ⟨d1, d2, d3⟩ := d p' hf
      have := ih p' (edited s ks) (by rw [d3]; exact c) d1 (by rw [d2]; exact a) (by rw [d2]; exact b) hsim.2
        (by rw [d2]; exact hfine.2)
      simp only [List.map_cons, Plat.run, ht, hf, if_false, List.length_cons, List.take_succ_cons, List.flatMap_cons,
        edited_append]
      rw [d2] at this
      exact this

/-- The same for keys typed into an empty line. -/
theorem typing_typed (gr : Nat → Bool) (hgr : ∀ r, gr r = true → validRune r = true) (hc : Ctl gr)
    (line : σ → Edl.EditLine) (on : σ → View → VScreen × Cursor) (client : σ → View → Left σ ε)
    (hl : Edits gr line on client)
    (fs : List (Frm.Frame ε × List Nat))
    (hs : ∀ x ∈ fs, Sent x.1.polls (encodeRunes x.2) ∧ ∀ r ∈ x.2, gr r = true ∧ plainRune r ∧ isEscape r = false)
    (p : Plat σ) (he : Frm.Spec.live p.events = []) (hb : p.input.buf = [])
    (h0 : (line p.client).buf = [] ∧ (line p.client).cur = 0 ∧ (line p.client).state = .ready)
    (hf : Fine gr line on client p.client (p.run client (fs.map (·.1))).1) :
    let vs := (p.run client (fs.map (·.1))).1
    (line (seen client p.client vs)).buf = encodeRunes ((fs.take vs.length).flatMap (·.2)) ∧
      (line (seen client p.client vs)).cur = ((fs.take vs.length).flatMap (·.2)).length := by
  have hm : ∀ l : List Nat, (l.map Stroke.char).flatMap Stroke.bytes = encodeRunes l := by
    intro l; rw [List.flatMap_map]; rfl
  have simple : ∀ (l : List Nat) (s : Anansi.Spec.Line), s.SimpleAll ((l.map Stroke.char).map Stroke.key) := by
    intro l
    induction l with
    | nil => intro s; trivial
    | cons r l ih => intro s; exact ⟨trivial, ih _⟩
  have typed : ∀ (l t : List Nat), edited ⟨t, t.length⟩ (l.map Stroke.char) = ⟨t ++ l, (t ++ l).length⟩ := by
    intro l
    induction l with
    | nil => intro t; simp [edited]
    | cons r l ih =>
      intro t
      have := ih (t ++ [r])
      simp only [edited, List.map_cons, List.foldl_cons, Stroke.key, Anansi.Spec.Line.press] at this ⊢
      simpa using this
  have flat : ∀ l : List (Frm.Frame ε × List Nat), (l.map fun x => (x.1, x.2.map Stroke.char)).flatMap (·.2) =
      (l.flatMap (·.2)).map Stroke.char := by
    intro l; simp [List.flatMap_map, List.map_flatMap]
  have h := typing_edits_partial gr hgr hc line on client hl (fs.map fun x => (x.1, x.2.map Stroke.char))
    (by
      intro x hx
      rw [List.mem_map] at hx
      obtain ⟨y, hy, rfl⟩ := hx
      obtain ⟨a, b⟩ := hs y hy
      refine ⟨by simpa only [hm] using a, ?_⟩
      intro k hk
      simp only [List.mem_map] at hk
      obtain ⟨r, hr, rfl⟩ := hk
      exact b r hr) p ⟨[], 0⟩ he hb h0.2.2
    ⟨h0.1, by simp, h0.2.1, Nat.le_refl 0⟩ (by rw [flat]; exact simple _ _) (by rw [List.map_map]; exact hf)
  rw [List.map_map] at h
  obtain ⟨_, h⟩ := h
  have e : (fun x : Frm.Frame ε × List Stroke => x.1) ∘ (fun x : Frm.Frame ε × List Nat => (x.1, x.2.map Stroke.char)) = fun x => x.1 := rfl
  rw [e, ← List.map_take, flat] at h
  have t := typed ((fs.take (p.run client (fs.map (·.1))).1.length).flatMap (·.2)) []
  rw [show (⟨[], 0⟩ : Anansi.Spec.Line) = ⟨[], ([] : List Nat).length⟩ from rfl, t] at h
  refine ⟨h.buf, ?_⟩
  rw [h.cur]; rfl

theorem handleAll_append (gr : Nat → Bool) (a b : Events) : ∀ l : Edl.EditLine,
    (l.handleAll gr (a ++ b)).1 = ((l.handleAll gr a).1.handleAll gr b).1 := by
  induction a with
  | nil => intro l; rfl
  | cons e a ih => intro l; simp only [List.cons_append, Edl.EditLine.handleAll]; exact ih _

theorem handleAll_live (gr : Nat → Bool) (es : Events) : ∀ l : Edl.EditLine,
    (l.handleAll gr (Frm.Spec.live es)).1 = (l.handleAll gr es).1 := by
  induction es with
  | nil => intro l; rfl
  | cons e es ih =>
    intro l
    by_cases hk : e.kind = .none
    · have : Frm.Spec.live (e :: es) = Frm.Spec.live es := List.filter_cons_of_neg (by simp [hk])
      rw [this, ih]
      simp [Edl.EditLine.handleAll, Edl.EditLine.handle, hk]
    · have : Frm.Spec.live (e :: es) = e :: Frm.Spec.live es := List.filter_cons_of_pos (by simp [hk])
      rw [this]
      simp only [Edl.EditLine.handleAll]
      exact ih _

/-- **C129**, the end: when the keys of a last frame are followed by Enter, the line is done,
with the text that all the keys give. -/
theorem typing_enters_partial (gr : Nat → Bool) (hgr : ∀ r, gr r = true → validRune r = true) (hc : Ctl gr)
    (line : σ → Edl.EditLine) (on : σ → View → VScreen × Cursor) (client : σ → View → Left σ ε)
    (hl : Edits gr line on client) (f : Frm.Frame ε) (ks : List Stroke) (hk : ∀ k ∈ ks, k.Ok gr)
    (hs : Sent f.polls (ks.flatMap Stroke.bytes ++ [0x0D])) (p : Plat σ) (s : Anansi.Spec.Line)
    (he : Frm.Spec.live p.events = []) (hb : p.input.buf = []) (hr : (line p.client).state = .ready)
    (hh : Edl.Holds (line p.client) s) (hsim : s.SimpleAll (ks.map Stroke.key)) (p' : Plat σ) (v : View)
    (hf : p.frame client f = .next p' v) :
    (line p'.client).state = .done ∧ Edl.Holds (line p'.client) (edited s ks) := by
  have hown : Frm.Spec.ownKey (entry 0x0D []) = false := by decide
  have hent : entry 0x0D [] = ⟨.rune, 0x0D, [], 0, ⟨0, 0⟩⟩ := by decide
  obtain ⟨inp, es, e1, e2, e3⟩ := Frm.frame_events client p f v he (sent_once _ _ hs) (.inl ⟨p', hf⟩)
  obtain ⟨t1, t2⟩ := typed_items _ _ hs (ks.map item ++ [.rune 0x0D])
    (by
      intro i hi
      simp only [List.mem_append, List.mem_map, List.mem_singleton] at hi
      rcases hi with ⟨k, hk', rfl⟩ | rfl
      · exact item_ok gr k (hk k hk')
      · show plainRune 0x0D; decide)
    (by rw [List.flatMap_append, items_bytes]; rfl) _ _ _ hb e1
  have t2 : es = ks.map ev ++ [entry 0x0D []] := by
    rw [t2, List.map_append, List.map_map]; rfl
  rw [t2, List.filter_append, List.filter_cons_of_pos (by rw [hown]; rfl), List.filter_nil] at e2
  -- the keys before Enter
  obtain ⟨a, _⟩ := frame_edits gr hgr hc (line p.client) s ks hk ((ks.map ev).filter fun e => !Frm.Spec.ownKey e)
    (by
      show List.filter _ (List.filter _ _) = _
      rw [List.filter_eq_self]
      intro e he
      simpa using live_ev ks gr hk e (List.mem_of_mem_filter he)) hh hsim
  have hall : ((line p.client).handleAll gr v.events).1 =
      (((line p.client).handleAll gr ((ks.map ev).filter fun e => !Frm.Spec.ownKey e)).1.handle gr (entry 0x0D [])).1 := by
    rw [← handleAll_live, e2, handleAll_append]
    rfl
  have hst : ((line p.client).handleAll gr v.events).1.state = .done := by
    rw [hall, Edl.handle_state, hent, if_pos ⟨rfl, hc.2.2.1, rfl⟩]
  have hup : (line p.client).update gr v.events (on p.client v).1 (on p.client v).2 =
      .ok ⟨((line p.client).handleAll gr v.events).1, ((line p.client).handleAll gr v.events).2, (on p.client v).1, (on p.client v).2⟩ := by
    unfold Edl.EditLine.update
    rw [if_neg (by simp [hr])]
    simp only
    rw [if_pos (by simp [hst])]
  have hline := (hl p.client v _ hr hup).1
  rw [(frame_left client p p' f v hf).1, hline]
  refine ⟨hst, ?_⟩
  simp only [hall]
  have hkey : Edl.keyOf gr (entry 0x0D []) = .other := by rw [hent]; simp [Edl.keyOf, hc.2.2.1]
  have := Edl.handle_holds_partial gr hgr _ _ (entry 0x0D []) a (by rw [hkey]; trivial)
  rwa [hkey] at this

/-! ### Showing -/

/-- Keys leave the box and the view of a line as they were. -/
theorem handleAll_keep (gr : Nat → Bool) (es : Events) (l : Edl.EditLine) :
    (l.handleAll gr es).1.box = l.box ∧ (l.handleAll gr es).1.view = l.view := by
  have one : ∀ (l : Edl.EditLine) (e : Ev), (l.handle gr e).1.box = l.box ∧ (l.handle gr e).1.view = l.view := by
    intro l e
    have g1 : (l.handleGraphicRune gr e).1.box = l.box ∧ (l.handleGraphicRune gr e).1.view = l.view := by
      unfold Edl.EditLine.handleGraphicRune; split <;> exact ⟨rfl, rfl⟩
    have g2 : ∀ (l : Edl.EditLine) (e : Ev), (l.handleControlRune e).1.box = l.box ∧ (l.handleControlRune e).1.view = l.view := by
      intro l e
      have hdel : l.delete.box = l.box ∧ l.delete.view = l.view := by
        unfold Edl.EditLine.delete; split <;> exact ⟨rfl, rfl⟩
      unfold Edl.EditLine.handleControlRune
      repeat' split
      all_goals first | exact ⟨rfl, rfl⟩ | exact hdel
    have g3 : ∀ (l : Edl.EditLine) (e : Ev), (l.handleArrowKeys e).1.box = l.box ∧ (l.handleArrowKeys e).1.view = l.view := by
      intro l e
      unfold Edl.EditLine.handleArrowKeys
      repeat' split
      all_goals exact ⟨rfl, rfl⟩
    unfold Edl.EditLine.handle
    simp only
    split
    · exact ⟨rfl, rfl⟩
    split
    · exact g1
    split
    · exact ⟨(g2 _ _).1.trans g1.1, (g2 _ _).2.trans g1.2⟩
    · exact ⟨(g3 _ _).1.trans ((g2 _ _).1.trans g1.1), (g3 _ _).2.trans ((g2 _ _).2.trans g1.2)⟩
  induction es generalizing l with
  | nil => exact ⟨rfl, rfl⟩
  | cons e es ih =>
    rw [Edl.EditLine.handleAll]
    exact ⟨(ih _).1.trans (one l e).1, (ih _).2.trans (one l e).2⟩

/-- The keys that edit leave a line active. -/
theorem handleAll_stays (gr : Nat → Bool) (l : Edl.EditLine) (ks : List Stroke) (hk : ∀ k ∈ ks, k.Ok gr) (es : Events)
    (he : Frm.Spec.live es = (ks.map ev).filter fun e => !Frm.Spec.ownKey e) (hr : l.state = .ready) :
    (l.handleAll gr es).1.state = .ready := by
  rw [handleAll_ready gr es ?_ l, hr]
  intro e hm hkd
  have : e ∈ Frm.Spec.live es := by simp [Frm.Spec.live, hm, hkd]
  rw [he, List.mem_filter, List.mem_map] at this
  obtain ⟨⟨k, hk', rfl⟩, ho⟩ := this
  exact ev_ready gr k (hk k hk') hkd

/-- **C129**, on the terminal: an active line with a box on a whole screen, something to show
and a column to spare.  After the keys of a frame, a terminal that shows the screen and has its
cursor where the user's is (which is what a flush gives, C35) has in the box the part of the
edited text around the cursor, all of it if it fits, and the cursor at its place in the text. -/
theorem typing_shown_partial (gr : Nat → Bool) (hgr : ∀ r, gr r = true → validRune r = true) (hc : Ctl gr)
    (hsp : gr 0x20 = true) (l : Edl.EditLine)
    (s : Anansi.Spec.Line) (ks : List Stroke) (hk : ∀ k ∈ ks, k.Ok gr) (es : Events)
    (he : Frm.Spec.live es = (ks.map ev).filter fun e => !Frm.Spec.ownKey e) (h : Edl.Holds l s) (hr : l.state = .ready)
    (hs : s.SimpleAll (ks.map Stroke.key)) (v : VScreen) (u : Cursor) {w h' bx by_ bw : Nat}
    (hp : ∀ r ∈ (edited s ks).text, Screen.Printable gr r) (W : v.sc.Whole w h') (hb : v.buf = .empty)
    (hmin : l.box.min = ⟨bx + 1, by_ + 1⟩) (hdx : Geom.dx l.box = bw) (hbw : 1 ≤ bw) (hy : by_ < h') (hv : 0 ≤ l.view)
    (hne : (edited s ks).text ≠ []) (hfit : bx + min (edited s ks).text.length bw < w)
    (hbw2 : bw = 1 → (edited s ks).text.length ≤ 1) :
    ∃ (f : Edl.Frame) (lo hi : Nat), l.update gr es v u = .ok f ∧ lo ≤ (edited s ks).cur ∧ (edited s ks).cur ≤ hi ∧
      hi ≤ (edited s ks).text.length ∧ ((edited s ks).text.length ≤ bw → lo = 0 ∧ hi = (edited s ks).text.length) ∧
      ∀ t : Vt.Term, Anansi.Shows t f.out.sc w h' → t.At f.user.pt →
        (∀ i (_ : lo + i < hi), some (t.cell (bx + i) by_).rune = (edited s ks).text[lo + i]?) ∧
        (t.x, t.y) = (bx + ((edited s ks).cur - lo), by_) ∧ f.user.visible = true := by
  obtain ⟨a, b⟩ := frame_edits gr hgr hc l s ks hk es he h hs
  have keep := handleAll_keep gr es l
  have c := handleAll_stays gr l ks hk es he hr
  obtain ⟨f, lo, hi, d1, d2, d3, d4, d5, d6, d7, d8, d9, d10⟩ :=
    Edl.draw_shows_partial gr hsp (l.handleAll gr es).1 (edited s ks) (l.handleAll gr es).2 v u (bx := bx) (by_ := by_) (bw := bw) a hp W hb
      (by rw [keep.1]; exact hmin) (by rw [keep.1]; exact hdx) hbw hy (by rw [keep.2]; exact hv) hne hfit hbw2
  refine ⟨f, lo, hi, ?_, d5, d6, d7, d8, ?_⟩
  · unfold Edl.EditLine.update
    rw [if_neg (by simp [hr])]
    simp only
    rw [if_neg (by simp [c])]
    exact d1
  · intro t ht hat
    refine ⟨?_, ?_, by rw [d9]⟩
    · intro i hi'
      have hl : i < min (edited s ks).text.length bw := by omega
      obtain ⟨cell, g1, g2⟩ := ht.2.2 (bx + i) by_ (by omega) hy
      rw [d10 _ _ (by omega) hy, if_pos ⟨rfl, by omega, by omega⟩] at g1
      have e1 : bx + i - bx = i := by omega
      rw [e1] at g1
      simp only [Option.some.injEq] at g1
      have hlt : lo + i < (edited s ks).text.length := by omega
      rw [g2.1, ← g1]
      have hpr := hp _ (List.getElem_mem hlt)
      rw [List.getElem?_eq_getElem hlt, List.getD_eq_getElem?_getD, List.getElem?_eq_getElem hlt]
      simp only [ink, Option.getD_some]
      rw [if_neg]
      intro h0
      rw [h0] at hpr
      have := hpr.graphic
      rw [hc.2.2.2.2.2] at this
      exact Bool.noConfusion this
    · have := hat.2.2
      rw [d9] at this
      simp only [Pt.mk.injEq] at this
      have h1 := this.1
      have h2 := this.2
      simp only [Prod.mk.injEq]
      omega

/-! ### Witnesses -/

/-- The graphic characters of ASCII and some more. -/
def grT (r : Nat) : Bool := decide (0x20 ≤ r ∧ r < 0x7F ∨ 0xA0 ≤ r ∧ r < 0xD800 ∨ 0xE000 ≤ r ∧ r < 0x110000)

theorem grT_ok : (∀ r, grT r = true → validRune r = true) ∧ Ctl grT := by
  refine ⟨?_, by decide, by decide, by decide, by decide, by decide, by decide⟩
  intro r h
  simp [grT] at h
  simp [validRune]
  omega

/-- A program that is one edit line of three columns on a screen of four. -/
def editor (l : Edl.EditLine) (v : View) : Left Edl.EditLine Unit :=
  match l.update grT v.events Edl.zs {} with
  | .ok f => { state := f.line, events := f.input, paused := v.paused, size := v.size, hud := v.hud, err := none }
  | .error _ => { state := l, events := [], paused := v.paused, size := v.size, hud := v.hud, err := none }

theorem editor_edits : Edits grT id (fun _ _ => (Edl.zs, {})) editor := by
  intro l v f _ h
  unfold editor
  simp only [id_eq] at h
  rw [h]
  exact ⟨rfl, rfl⟩

/-- "a", the left arrow, cut in two, and Ctrl-L; a frame without input; and "é". -/
def framesT : List (Frm.Frame Unit × List Stroke) :=
  [({ time := 1, polls := [.resize none, .input [.data 0x61 [0x1B] true, .data 0x5B [0x44, 0x0C] false, .nothing] true true] },
      [.char 0x61, .left, .redraw]),
   ({ time := 2 }, []),
   ({ time := 3, polls := [.input [.data 0xC3 [] true, .data 0xA9 [] false, .nothing] true true] }, [.char 0xE9])]

/-- A line with its box. -/
def lineT : Edl.EditLine := { ({} : Edl.EditLine).reset with box := ⟨⟨1, 1⟩, ⟨4, 2⟩⟩ }

theorem framesT_sent : ∀ x ∈ framesT, Sent x.1.polls (x.2.flatMap Stroke.bytes) ∧ ∀ k ∈ x.2, k.Ok grT := by
  intro x hx
  simp only [framesT, List.mem_cons, List.not_mem_nil, or_false] at hx
  rcases hx with rfl | rfl | rfl
  · refine ⟨?_, ?_⟩
    · exact Sent.some [.resize none] [] [(0x61, [0x1B], true), (0x5B, [0x44, 0x0C], false)] (by simp [Frm.Spec.Poll.reads]) (by simp)
    · intro k hk
      simp only [List.mem_cons, List.not_mem_nil, or_false] at hk
      rcases hk with rfl | rfl | rfl
      · exact ⟨by decide, by decide, by decide⟩
      · trivial
      · trivial
  · exact ⟨Sent.none _ (by simp), by simp⟩
  · refine ⟨?_, ?_⟩
    · exact Sent.some [] [] [(0xC3, [], true), (0xA9, [], false)] (by simp) (by simp)
    · intro k hk
      simp only [List.mem_cons, List.not_mem_nil, or_false] at hk
      subst hk
      exact ⟨by decide, by decide, by decide⟩

/-- After them the line holds "éa" with the cursor between. -/
example : ∃ l : Edl.EditLine, Edl.Holds l ⟨[0xE9, 0x61], 1⟩ ∧
    l = seen editor lineT (({ client := lineT } : Plat Edl.EditLine).run editor (framesT.map (·.1))).1 := by
  have h := typing_edits_partial grT grT_ok.1 grT_ok.2 id _ editor editor_edits framesT framesT_sent
    { client := lineT } ⟨[], 0⟩ rfl rfl rfl ⟨rfl, by simp, rfl, Nat.le_refl 0⟩
    (by simp [framesT, Anansi.Spec.Line.SimpleAll, Anansi.Spec.Line.Simple, Stroke.key])
    (by decide +kernel)
  have e : (({ client := lineT } : Plat Edl.EditLine).run editor (framesT.map (·.1))).1.length = 3 := by decide +kernel
  simp only [e] at h
  exact ⟨_, h.2, rfl⟩

/-- A last frame: "b", and Enter. -/
example : ∃ p' v, ({ client := { lineT with buf := [0x61], cur := 1 } } : Plat Edl.EditLine).frame editor
      { time := 1, polls := [.input [.data 0x62 [0x0D] false, .nothing] true true] } = .next p' v ∧
    p'.client.state = .done ∧ Edl.Holds p'.client ⟨[0x61, 0x62], 2⟩ := by
  cases h : ({ client := { lineT with buf := [0x61], cur := 1 } } : Plat Edl.EditLine).frame editor
      { time := 1, polls := [.input [.data 0x62 [0x0D] false, .nothing] true true] } with
  | next p' v =>
    have := typing_enters_partial grT grT_ok.1 grT_ok.2 id _ editor editor_edits _ [.char 0x62]
      (by intro k hk; simp only [List.mem_singleton] at hk; subst hk; exact ⟨by decide, by decide, by decide⟩)
      (Sent.some [] [] [(0x62, [0x0D], false)] (by simp) (by simp)) _ ⟨[0x61], 1⟩ rfl rfl rfl
      ⟨by decide +kernel, by decide, rfl, by unfold Anansi.Spec.Line.Ok; decide⟩ ⟨trivial, trivial⟩ p' v h
    exact ⟨p', v, rfl, this⟩
  | hang =>
    exfalso
    have : (match ({ client := { lineT with buf := [0x61], cur := 1 } } : Plat Edl.EditLine).frame editor
      { time := 1, polls := [.input [.data 0x62 [0x0D] false, .nothing] true true] } with | .next _ _ => true | _ => false) = true := by
      decide +kernel
    rw [h] at this; simp at this
  | stop v e =>
    exfalso
    have : (match ({ client := { lineT with buf := [0x61], cur := 1 } } : Plat Edl.EditLine).frame editor
      { time := 1, polls := [.input [.data 0x62 [0x0D] false, .nothing] true true] } with | .next _ _ => true | _ => false) = true := by
      decide +kernel
    rw [h] at this; simp at this

/-- "a" and "é" typed on the screen of four columns: both are in view. -/
example : ∃ f, lineT.update grT [ev (.char 0x61), ev (.char 0xE9)] Edl.zs {} = .ok f ∧
    ∀ t : Vt.Term, Anansi.Shows t f.out.sc 4 2 → t.At f.user.pt →
      (t.cell 0 0).rune = 0x61 ∧ (t.cell 1 0).rune = 0xE9 ∧ (t.x, t.y) = (2, 0) := by
  have hed : edited ⟨[], 0⟩ [.char 0x61, .char 0xE9] = ⟨[0x61, 0xE9], 2⟩ := rfl
  obtain ⟨f, lo, hi, h1, h2, h3, h4, h5, h6⟩ := typing_shown_partial grT grT_ok.1 grT_ok.2 (by decide) lineT ⟨[], 0⟩
    [.char 0x61, .char 0xE9]
    (by
      intro k hk
      simp only [List.mem_cons, List.not_mem_nil, or_false] at hk
      rcases hk with rfl | rfl <;> exact ⟨by decide, by decide, by decide⟩)
    [ev (.char 0x61), ev (.char 0xE9)] (by decide +kernel) ⟨rfl, by simp, rfl, Nat.le_refl 0⟩ rfl
    ⟨trivial, trivial, trivial⟩ Edl.zs {} (w := 4) (h' := 2) (bx := 0) (by_ := 0) (bw := 3)
    (by
      intro r hr
      simp only [hed, List.mem_cons, List.not_mem_nil, or_false] at hr
      rcases hr with rfl | rfl <;> exact ⟨by decide, by decide, by decide, by decide, by decide⟩)
    Edl.zs_whole rfl rfl rfl (by decide) (by decide) (by decide) (by rw [hed]; decide) (by rw [hed]; decide) (by decide)
  rw [hed] at h2 h3 h4 h5 h6
  obtain ⟨rfl, rfl⟩ := h5 (by decide)
  refine ⟨f, h1, ?_⟩
  intro t ht hat
  obtain ⟨a, b, _⟩ := h6 t ht hat
  have a0 := a 0 (by decide)
  have a1 := a 1 (by decide)
  exact ⟨Option.some.inj a0, Option.some.inj a1, b⟩

/-- Negation for **C129**: a character cut by the end of a frame is lost. -/
theorem cut_char_lost :
    (seen editor lineT (({ client := lineT } : Plat Edl.EditLine).run editor
      [{ time := 1, polls := [.input [.data 0xC3 [] false, .nothing] true true] },
       { time := 2, polls := [.input [.data 0xA9 [] false, .nothing] true true] }]).1).buf ≠ encodeRune 0xE9 := by
  decide +kernel

/-- Negation for **C129**: a character of the private use area moves the cursor. -/
theorem private_char_moves : grT 0xEFC4 = true ∧
    (let l := seen editor lineT (({ client := lineT } : Plat Edl.EditLine).run editor
      [{ time := 1, polls := [.input [.data 0x61 (encodeRune 0xEFC4) false, .nothing] true true] }]).1
     l.buf = [0x61] ∧ l.cur = 0) := by
  decide +kernel

end Typ
end Anansi
