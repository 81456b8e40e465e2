import Verif.Props.InteractDraw
import Verif.Props.Render
import Verif.Props.Screen
/-
Part of C130: no session of the interact command panics, and what is shown of its output fits the screen.
-/
set_option autoImplicit false

namespace Anansi
namespace Itr
open Edl Evq VScreen Screen

/-! ### Going on or hanging -/

/-- It ends as said or it never ends. -/
def Goes {α : Type} (x : Except Fault α) (P : α → Prop) : Prop := (∃ a, x = .ok a ∧ P a) ∨ x = .error .hang

theorem Goes.ok {α : Type} {P : α → Prop} {a : α} (h : P a) : Goes (.ok a) P := Or.inl ⟨a, rfl, h⟩

theorem Goes.bind {α β : Type} {x : Except Fault α} {P : α → Prop} {g : α → Except Fault β} {Q : β → Prop}
    (h : Goes x P) (k : ∀ a, P a → Goes (g a) Q) : Goes (x.bind g) Q := by
  rcases h with ⟨a, rfl, ha⟩ | rfl
  · exact k a ha
  · exact Or.inr rfl

theorem Goes.map {α β : Type} {x : Except Fault α} {P : α → Prop} {g : α → β} {Q : β → Prop}
    (h : Goes x P) (k : ∀ a, P a → Q (g a)) : Goes (x.map g) Q := by
  rcases h with ⟨a, rfl, ha⟩ | rfl
  · exact Or.inl ⟨g a, rfl, k a ha⟩
  · exact Or.inr rfl

theorem op_goes (gr : Nat → Bool) {v : VScreen} {w h : Nat} (S : Safe v w h) (o : Op) : Goes (v.op gr o) (Safe · w h) := by
  have := screen_stays_safe gr [o] v S
  rcases hx : v.op gr o with e | v'
  · rw [ops, hx] at this
    rcases this with ⟨v', h1, -⟩ | h1
    · cases h1
    · exact Or.inr h1
  · rw [ops, hx] at this
    rcases this with ⟨v'', h1, h2⟩ | h1
    · injection h1 with h1
      subst h1
      exact Goes.ok h2
    · cases h1

theorem write_goes (gr : Nat → Bool) {v : VScreen} {w h : Nat} (S : Safe v w h) (p : Bytes) : Goes (v.write gr p) (Safe · w h) :=
  op_goes gr S (.write p)

theorem sgr_safe {v : VScreen} {w h : Nat} (S : Safe v w h) (l : List Attr) : Safe (v.writeSGR l) w h := by
  rcases op_goes (fun _ => false) S (.sgr l) with ⟨v', e, S'⟩ | e
  · injection e with e; rw [e]; exact S'
  · cases e

theorem to_safe {v : VScreen} {w h : Nat} (S : Safe v w h) (p : Pt) : Safe { v with sc := v.sc.to p } w h := by
  rcases op_goes (fun _ => false) S (.moveTo p) with ⟨v', e, S'⟩ | e
  · injection e with e; rw [e]; exact S'
  · cases e

/-! ### The output area -/

/-- What the command always keeps: its output area has the size last given to it. -/
structure Fits (cmd : List Bytes) (f : Full) (n : Nat × Nat) : Prop where
  inv : Inv cmd f.s
  grid : Grid.Whole f.out.sc.grid n
  size : f.s.size = ((n.1 : Int), (n.2 : Int))
  flat : n.1 = 0 → n.2 = 0

theorem area_of {o : VScreen} {w n : Nat} (W : Grid.Whole o.sc.grid (w, n)) (hw : 1 ≤ w) : Area o w n := by
  have hm : o.sc.grid.rect.min = ⟨1, 1⟩ := by
    rcases W.min with h | h
    · exact h
    · have := W.stride
      rw [h] at this
      simp at this
      omega
  have hs := W.size
  refine ⟨?_, W.stride, by rw [← W.len]; exact W.cap⟩
  have hr : o.sc.grid.rect = ⟨o.sc.grid.rect.min, ⟨o.sc.grid.rect.max.x, o.sc.grid.rect.max.y⟩⟩ := rfl
  rw [hr, hm]
  simp only [Geom.size, Grid.sz, Pt.mk.injEq, hm] at hs
  have h1 : o.sc.grid.rect.max.x = (w : Int) + 1 := by omega
  have h2 : o.sc.grid.rect.max.y = (n : Int) + 1 := by omega
  rw [h1, h2]

theorem clear_grid {sc : Screen} {n : Nat × Nat} (W : Grid.Whole sc.grid n) (hn : n.1 = 0 → n.2 = 0) :
    ∃ sc1, sc.clear = .ok sc1 ∧ Grid.Whole sc1.grid n ∧ sc1.cur = {} := by
  have hsub := Grid.whole_not_sub W hn
  refine ⟨{ cur := {}, grid := { sc.grid with cells := List.replicate sc.grid.len ({} : Cell) ++ sc.grid.cells.drop sc.grid.len } },
    ?_, ⟨W.size, W.len, W.stride, ?_, by simp⟩, rfl⟩
  · unfold Screen.clear Grid.clear
    rw [hsub]
    simp
  · rcases W.min with h | h
    · exact Or.inl h
    · right; rw [h]; rfl

theorem fresh_safe {sc : Screen} {w h : Nat} (W : sc.Whole w h) (hc : sc.cur = {}) (b : Buffer) : Safe ⟨sc, b.reset⟩ w h :=
  ⟨W, Or.inl (by rw [hc]; rfl), by simp [Buffer.reset]⟩

theorem print_goes (gr : Nat → Bool) (o : Outcome) (what : Shown) (v : VScreen) {n : Nat × Nat} (W : Grid.Whole v.sc.grid n)
    (hn : n.1 = 0 → n.2 = 0) (hpos : what ≠ .nothing → 1 ≤ n.1 ∧ 1 ≤ n.2) :
    Goes (print gr o what v) fun v' => Grid.Whole v'.sc.grid n := by
  obtain ⟨sc1, e, W1, hc⟩ := clear_grid W hn
  have hsafe : what ≠ .nothing → Safe ⟨sc1, v.buf.reset⟩ n.1 n.2 := by
    intro hw
    obtain ⟨h1, h2⟩ := hpos hw
    exact fresh_safe (W1.toScreen h1 h2 _) hc _
  have hgrid : ∀ v' : VScreen, Safe v' n.1 n.2 → Grid.Whole v'.sc.grid n := fun v' S => S.whole.toGrid
  unfold print
  rw [e]
  simp only [Except.bind]
  cases what with
  | nothing => exact Goes.ok W1
  | prompt =>
    have S := to_safe (hsafe (by simp)) ⟨1, 1⟩
    rcases write_goes gr S (ascii "Define variables to run") with ⟨v', e', S'⟩ | e'
    · exact Or.inl ⟨v', e', hgrid _ S'⟩
    · exact Or.inr e'
  | ran a =>
    have S := to_safe (hsafe (by simp)) ⟨1, 1⟩
    refine Goes.bind (write_goes gr S _) fun v1 S1 => ?_
    refine Goes.bind (P := (Safe · n.1 n.2)) ?_ fun v2 S2 => ?_
    · unfold complain
      cases o.err with
      | none => exact Goes.ok S1
      | some e => exact Goes.map (write_goes gr (sgr_safe S1 _) _) fun v3 S3 => sgr_safe S3 _
    · rcases write_goes gr S2 o.out with ⟨v', e', S'⟩ | e'
      · exact Or.inl ⟨v', e', hgrid _ S'⟩
      · exact Or.inr e'

theorem run_goes (gr : Nat → Bool) (world : List (List Bytes) → Outcome) {cmd : List Bytes} (hc : cmd ≠ []) {f : Full}
    {n : Nat × Nat} (F : Fits cmd f n) : Goes (Full.runCmd gr world f) fun f' => Fits cmd f' n ∧ Cur cmd f'.s := by
  obtain ⟨t, e, I, hcur, hsz, -⟩ := runCmd_some cmd f.s F.inv hc
  unfold Full.runCmd
  rw [e]
  simp only
  refine Goes.map (print_goes gr _ _ _ F.grid F.flat ?_) fun o W => ⟨⟨I, W, by rw [hsz]; exact F.size, F.flat⟩, hcur⟩
  intro hne
  unfold Cur Spec.display at hcur
  rw [hsz, F.size] at hcur
  by_cases h0 : (n.1 : Int) ≤ 0 ∨ (n.2 : Int) ≤ 0
  · simp only at hcur
    rw [if_pos h0] at hcur
    exact absurd hcur hne
  · omega

theorem inv_edit {cmd : List Bytes} {s : St} (I : Inv cmd s) (a : Nat) (l : EditLine) : Inv cmd { s with edid := a, ed := l } :=
  ⟨I.words, I.argi, I.arg, I.val, I.runs⟩

theorem inv_set {cmd : List Bytes} {s : St} (I : Inv cmd s) (a : Nat) (l : EditLine) (vals : List Bytes) (h : vals.length = s.val.length) :
    Inv cmd { s with edid := a, ed := l, val := vals } :=
  ⟨I.words, I.argi, I.arg, by show vals.length = _; rw [h]; exact I.val, I.runs⟩

theorem drawWord_goes (gr : Nat → Bool) (s : St) (i j : Nat) (w : Bytes) (v : VScreen) {a b : Nat} (S : Safe v a b) :
    Goes (s.drawWord gr i j w v) fun d => Safe d.2 a b := by
  have h1 : ∀ (x : Attr) (u : VScreen), Safe u a b → Safe (if x ≠ 0 then u.writeSGR [x] else u) a b := by
    intro x u S
    split
    · exact sgr_safe S _
    · exact S
  have h2 : ∀ (x : Attr) (u : VScreen), Safe u a b → Safe (if x ≠ 0 then u.writeSGR [Sgr.clear] else u) a b := by
    intro x u S
    split
    · exact sgr_safe S _
    · exact S
  have h3 : ∀ (val : Bytes) (r : Rect) (u : VScreen), Safe u a b →
      Goes (if val ≠ [] then (u.write gr (encodeRune 0x3D)).bind fun v => ((v.writeSGR [blueFG]).write gr val).map fun v => (r, v.writeSGR [Sgr.clear])
        else .ok (r, u)) fun d => Safe d.2 a b := by
    intro val r u S
    split
    · refine Goes.bind (write_goes gr S _) fun v3 S3 => ?_
      exact Goes.map (write_goes gr (sgr_safe S3 _) _) fun v4 S4 => sgr_safe S4 _
    · exact Goes.ok S
  unfold St.drawWord
  refine Goes.bind (P := (Safe · a b)) ?_ fun v1 S1 => ?_
  · split
    · exact write_goes gr S _
    · exact Goes.ok S
  · refine Goes.bind (write_goes gr (h1 _ _ S1) _) fun v2 S2 => ?_
    exact h3 _ _ _ (h2 _ _ S2)

theorem editline_goes (gr : Nat → Bool) (l : EditLine) (es : Events) (v : VScreen) (u : Cursor) {a b : Nat} (S : Safe v a b) :
    Goes (l.update gr es v u) fun fr => Safe fr.out a b := by
  unfold EditLine.update
  split
  · exact Goes.ok S
  · simp only
    split
    · exact Goes.ok S
    · unfold EditLine.draw
      refine Goes.map (P := (Safe · a b)) (Goes.bind (P := (Safe · a b)) ?_ fun v1 S1 => ?_) fun v2 S2 => S2
      · unfold EditLine.put
        split
        · exact write_goes gr (to_safe S _) _
        · exact Goes.ok S
      · unfold blank
        split
        · exact write_goes gr S1 _
        · exact Goes.ok S1

theorem word_goes (gr : Nat → Bool) (world : List (List Bytes) → Outcome) {cmd : List Bytes} (hc : cmd ≠ []) {f : Full}
    {n : Nat × Nat} (F : Fits cmd f n) (i j : Nat) (w : Bytes) (c : Sh) {a b : Nat} (S : Safe c.v a b) :
    Goes (f.word gr world i j w c) fun r => Fits cmd r.1 n ∧ Safe r.2.2.v a b := by
  unfold Full.word
  refine Goes.bind (drawWord_goes gr f.s i j w c.v S) fun d Sd => ?_
  have key : ∀ (s : St), Inv cmd s → s.size = f.s.size → Fits cmd { f with s } n := fun s I h => ⟨I, F.grid, by rw [← F.size]; exact h, F.flat⟩
  have hs : ∃ e, (if (countPressesIn d.1 1 0 c.es).2 % 2 = 1 then { f.s with edid := if f.s.edid = i + 1 then 0 else i + 1 } else f.s) =
      { f.s with edid := e, ed := f.s.ed } := by
    split
    · exact ⟨_, rfl⟩
    · exact ⟨f.s.edid, rfl⟩
  obtain ⟨e, hs⟩ := hs
  simp only
  rw [hs]
  split
  · refine Goes.bind (editline_goes gr _ _ d.2 _ Sd) fun fr Sf => ?_
    have hexit : ∀ s : St, Inv cmd s → s.size = f.s.size → Goes (Full.exit gr world { f with s }) fun f' => Fits cmd f' n := by
      intro s I h
      unfold Full.exit
      rcases run_goes gr world hc (key { s with ed := s.ed.reset, edid := 0 } (inv_edit I _ _) h) with ⟨f', e', F', -⟩ | e'
      · exact Or.inl ⟨f', e', F'⟩
      · exact Or.inr e'
    cases fr.line.state with
    | ready => exact Goes.ok ⟨key _ (inv_edit F.inv _ _) rfl, Sf⟩
    | done =>
      refine Goes.map (hexit _ (inv_set F.inv e fr.line _ ?_) rfl) fun f' F' => ⟨F', Sf⟩
      split <;> simp
    | canceled =>
      exact Goes.map (hexit _ (inv_edit F.inv e fr.line) rfl) fun f' F' => ⟨F', Sf⟩
  · exact Goes.ok ⟨key _ (inv_edit F.inv _ _) rfl, Sd⟩

theorem words_goes (gr : Nat → Bool) (world : List (List Bytes) → Outcome) {cmd : List Bytes} (hc : cmd ≠ []) {n : Nat × Nat} {a b : Nat}
    (ws : List Bytes) : ∀ (i j : Nat) (f : Full) (c : Sh), Fits cmd f n → Safe c.v a b →
      Goes (drawWords gr world ws i j f c) fun r => Fits cmd r.1 n ∧ Safe r.2.v a b := by
  induction ws with
  | nil => intro i j f c F S; exact Goes.ok ⟨F, S⟩
  | cons w ws ih =>
    intro i j f c F S
    simp only [drawWords]
    exact Goes.bind (word_goes gr world hc F i j w c S) fun r h => ih _ _ _ _ h.1 h.2

theorem fit_goes (gr : Nat → Bool) (world : List (List Bytes) → Outcome) (hud : Bool) {cmd : List Bytes} (hc : cmd ≠ []) {f : Full}
    {n : Nat × Nat} (F : Fits cmd f n) {w h : Nat} (hw : 1 ≤ w) (hh : rowOf hud + 2 ≤ h) :
    Goes (f.fit gr world hud w h) fun f' => Fits cmd f' (w, h - (rowOf hud + 2)) := by
  have hsz : ((h : Int) - if hud then 3 else 2) = ((h - (rowOf hud + 2) : Nat) : Int) := by
    cases hud <;> simp [rowOf] at hh ⊢ <;> omega
  unfold Full.fit
  simp only
  rw [hsz]
  by_cases h1 : f.s.size = ((w : Int), ((h - (rowOf hud + 2) : Nat) : Int))
  · rw [if_pos h1]
    have hn : n = (w, h - (rowOf hud + 2)) := by
      have := F.size
      rw [h1] at this
      rcases n with ⟨p, q⟩
      simp only [Prod.mk.injEq] at this ⊢
      omega
    rw [hn] at F
    exact Goes.ok F
  · rw [if_neg h1, if_neg (by
      have := Int.mul_nonneg (Int.natCast_nonneg w) (Int.natCast_nonneg (h - (rowOf hud + 2)))
      omega)]
    have hg := (Grid.whole_resize (t := (w, h - (rowOf hud + 2))) F.grid F.flat).1
    rcases run_goes gr world hc (f := ⟨{ f.s with size := ((w : Int), ((h - (rowOf hud + 2) : Nat) : Int)) },
        { f.out with sc := (f.out.sc.resize (((w : Int)).toNat, (((h - (rowOf hud + 2) : Nat) : Int)).toNat)).1 }⟩)
        (n := (w, h - (rowOf hud + 2)))
        ⟨⟨F.inv.words, F.inv.argi, F.inv.arg, F.inv.val, F.inv.runs⟩, by
          simp only [Int.toNat_natCast]
          unfold Screen.resize
          split
          · exact hg
          · exact hg, rfl, fun h0 => absurd h0 (by simp only; omega)⟩ with ⟨f', e', F', -⟩ | e'
    · exact Or.inl ⟨f', e', F'⟩
    · exact Or.inr e'

/-- **C130**, no frame of a command panics, whatever the events and the outcomes of running it, on a screen
with room for the words: at worst it hangs.  Afterwards the output area has the room below the words but
for one row, so that the frames after it are as `idle_shown` tells. -/
theorem frame_safe {ε : Type} (gr : Nat → Bool) (world : List (List Bytes) → Outcome) (suspend : Option ε) (hud : Bool)
    {cmd : List Bytes} (hc : cmd ≠ []) {f : Full} {n : Nat × Nat} (F : Fits cmd f n) (es : Events) (v : VScreen) {w h : Nat}
    (W : v.sc.Whole w h) (hh : rowOf hud + 2 ≤ h) :
    Goes (f.update gr world suspend hud es v) fun o => Fits cmd o.f (w, h - (rowOf hud + 2)) ∧
      Area o.f.out w (h - (rowOf hud + 2)) ∧ o.c.v.sc.Whole w h := by
  obtain ⟨sc1, e1, W1, c1, -⟩ := cleared_blank W
  have S : Safe (⟨sc1.to ⟨1, if hud then 2 else 1⟩, v.buf.reset⟩ : VScreen) w h := to_safe (fresh_safe W1 c1 v.buf) _
  unfold Full.update
  simp only
  rw [e1]
  simp only [Except.bind]
  refine Goes.bind (words_goes gr world hc f.s.cmd 0 0 f ⟨_, _, {}⟩ F S) fun q hq => ?_
  have hx : Geom.dx (sc1.to ⟨1, if hud then 2 else 1⟩).grid.rect = w := by rw [S.whole.rect]; simp [Geom.dx]
  have hy : Geom.dy (sc1.to ⟨1, if hud then 2 else 1⟩).grid.rect = h := by rw [S.whole.rect]; simp [Geom.dy]
  rw [hx, hy]
  refine Goes.bind (fit_goes gr world hud hc hq.1 W.hw hh) fun f1 F1 => ?_
  have A := area_of F1.grid W.hw
  obtain ⟨v2, e2, W2, -⟩ := overlay_drawn hud q.2.v f1.out hq.2.whole hh A
  rw [e2]
  exact Goes.ok ⟨F1, A, W2⟩

/-- A frame to be: whether the HUD is shown, the events and the output. -/
structure Turn where
  hud : Bool
  es : Events
  v : VScreen

/-- Frames one after the other. -/
def session (gr : Nat → Bool) (world : List (List Bytes) → Outcome) : Full → List Turn → Except Fault Full
  | f, [] => .ok f
  | f, t :: ts => (f.update (ε := Unit) gr world none t.hud t.es t.v).bind fun o => session gr world o.f ts

/-- A screen with room for the words and a row below them. -/
def Turn.Room (t : Turn) : Prop := ∃ w h, t.v.sc.Whole w h ∧ rowOf t.hud + 2 ≤ h

/-- **C130**, no session panics: after any frames, on screens of any sizes with room for the words, with any
events, and whatever comes of running the command, what is shown is up to date and in an area of the
size last given; or one of the frames has hung. -/
theorem session_safe (gr : Nat → Bool) (world : List (List Bytes) → Outcome) (cmd : List Bytes) (hc : cmd ≠ []) (ts : List Turn)
    (hr : ∀ t ∈ ts, t.Room) :
    ∃ s, ({} : St).setCmd cmd = some s ∧ Goes (session gr world ⟨s, {}⟩ ts) fun f => (∃ n, Fits cmd f n) ∧ Cur cmd f.s := by
  obtain ⟨s, h1, I, hcur, hsz, -⟩ := setCmd_start cmd
  refine ⟨s, h1, ?_⟩
  have F : Fits cmd ⟨s, {}⟩ (0, 0) := ⟨I, ⟨rfl, rfl, rfl, Or.inr rfl, by simp⟩, hsz, fun _ => rfl⟩
  have hall : ∀ (ts : List Turn) (f : Full) (n : Nat × Nat), (∀ t ∈ ts, t.Room) → Fits cmd f n → Cur cmd f.s →
      Goes (session gr world f ts) fun f => (∃ n, Fits cmd f n) ∧ Cur cmd f.s := by
    intro ts
    induction ts with
    | nil => intro f n _ F C; exact Goes.ok ⟨⟨n, F⟩, C⟩
    | cons t ts ih =>
      intro f n hr F C
      obtain ⟨w, h, W, hh⟩ := hr t (by simp)
      rw [session]
      rcases frame_safe (ε := Unit) gr world none t.hud hc F t.es t.v W hh with ⟨o, e, F', -⟩ | e
      · obtain ⟨x, hx⟩ := frame_told gr world none t.hud f t.es t.v W o e
        obtain ⟨-, C', -⟩ := update_inv cmd f.s o.f.s ⟨t.hud, w, h, x⟩ F.inv C hx
        rw [e]
        exact ih _ _ (fun t ht => hr t (by simp [ht])) F' C'
      · rw [e]; exact Or.inr rfl
  exact hall ts _ _ hr F hcur

/-- Frames: the first; a press on the variable; a value typed and Enter; a smaller screen with the HUD. -/
def turnsX : List Turn :=
  [⟨false, [], vX⟩, ⟨false, [clickX 4 1], vX⟩, ⟨false, [Spec.typed 0x7A, Spec.typed 0x0D], vX⟩,
   ⟨true, [], { sc := (({} : Screen).resize (2, 3)).1 }⟩]

example : cmdX ≠ [] ∧ (∀ t ∈ turnsX, t.Room) ∧
    (match session grX worldX startX turnsX with
      | .ok f => f.s.val == [[0x7A]] && f.s.size == (2, 0) && f.s.shown == .nothing
      | .error _ => false) = true := by
  refine ⟨by decide, ?_, by decide +kernel⟩
  intro t ht
  simp only [turnsX, List.mem_cons, List.not_mem_nil, or_false] at ht
  rcases ht with rfl | rfl | rfl | rfl
  · exact ⟨12, 5, wholeX, by decide⟩
  · exact ⟨12, 5, wholeX, by decide⟩
  · exact ⟨12, 5, wholeX, by decide⟩
  · exact ⟨2, 3, (whole_of_resize 2 3 (by decide) (by decide)).1, by decide⟩

/-- Negation of the rest of `session_safe`: a command whose output has two question marks in a mode
sequence (`ESC [ ? ? h`) hangs the program which shows it, on its first frame. -/
theorem output_hangs :
    ∃ s, ({} : St).setCmd [ascii "ls"] = some s ∧
      (match session grX (fun _ => { status := ascii "ok", out := [0x1B, 0x5B, 0x3F, 0x3F, 0x68] }) ⟨s, {}⟩ [⟨false, [], vX⟩] with
        | .error .hang => true
        | _ => false) = true :=
  ⟨_, rfl, by decide +kernel⟩

end Itr
end Anansi
