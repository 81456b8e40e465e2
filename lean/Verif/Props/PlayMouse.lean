import Verif.Model.PlayMouse
import Verif.Props.Events
import Verif.Props.RenderMore
/-
C113 A replay marks where the recorded mouse is.
-/
set_option autoImplicit false

namespace Anansi
namespace Rpl
open Geom Evq

/-- The last mouse event in the input of a frame: its state and place. -/
def Spec.mouseIn (b : Bytes) : Option (Mouse.MState × Pt) :=
  ((decodeBytes [] b).filter fun e => e.kind = .mouse).getLast?.map fun e => (e.ms, e.pt)

/-- The background colours of the marks: white without a button, red for the left, green for the
middle and blue for the right one, magenta and cyan for the wheel, and yellow. -/
def Spec.colour : Nat → UInt8
  | 0 => 7
  | 1 => 1
  | 2 => 2
  | 3 => 4
  | 4 => 5
  | 5 => 6
  | _ => 3

/-- The mark for a button: a bold white X on its colour. -/
def Spec.cell (button : Nat) : Cell :=
  ⟨0x58, ({ clear := true, bold := true, fg := some (.indexed 7), bg := some (.indexed (Spec.colour button)) } : Sgr.Style).build⟩

theorem button_cell (ms : Mouse.MState) :
    buttonAttrs[(Mouse.buttonID ms).toNat]? = some (Spec.cell (Mouse.buttonID ms).toNat).attr := by
  revert ms
  decide +kernel

/-- Drawing the mark: it is drawn in its cell if that is on the screen, and nowhere else; never a
panic. -/
theorem draw_mark (m : Mark) (sc : Screen) (w h : Nat) (W : sc.Whole w h) :
    ∃ g, m.draw sc.grid = some g ∧ { sc with grid := g }.Whole w h ∧
      ∀ x y, x < w → y < h → { sc with grid := g }.look w x y =
        if m.pt = ⟨x + 1, y + 1⟩ then some (Spec.cell (Mouse.buttonID m.ms).toNat) else sc.look w x y := by
  unfold Mark.draw
  by_cases h0 : m.ms ≠ 0 ∨ m.pt ≠ ⟨0, 0⟩
  · rw [if_pos h0]
    by_cases hin : ∃ x y : Nat, x < w ∧ y < h ∧ m.pt = ⟨x + 1, y + 1⟩
    · obtain ⟨x, y, hx, hy, hp⟩ := hin
      have hm : Mem ⟨(x : Int) + 1, (y : Int) + 1⟩ sc.grid.rect := by rw [W.rect]; unfold Mem; simp only; omega
      rw [hp, Grid.cellOffset_mk hm, W.stride]
      have hlt := Screen.idx_lt hx hy
      simp only
      rw [if_pos (by rw [W.len]; exact hlt), button_cell]
      refine ⟨_, rfl, ⟨W.hw, W.hh, W.rect, rfl, W.len, by simpa using W.cap⟩, fun x' y' hx' hy' => ?_⟩
      have hcap := W.cap
      simp only [Screen.look, Option.map_some]
      by_cases he : x' = x ∧ y' = y
      · obtain ⟨rfl, rfl⟩ := he
        rw [if_pos rfl, List.getElem?_set_self (by omega)]
        rfl
      · have hne : y * w + x ≠ y' * w + x' := by
          intro e
          have h1 : (y * w + x) % w = (y' * w + x') % w := by rw [e]
          rw [Nat.mul_add_mod_self_right, Nat.mul_add_mod_self_right, Nat.mod_eq_of_lt hx, Nat.mod_eq_of_lt hx'] at h1
          subst h1
          have : y * w = y' * w := by omega
          exact he ⟨rfl, (Nat.eq_of_mul_eq_mul_right (by omega) this).symm⟩
        rw [List.getElem?_set_ne hne, if_neg]
        intro e
        injection e with e1 e2
        exact he ⟨by omega, by omega⟩
    · have hno : ¬ Mem m.pt sc.grid.rect := by
        intro hm
        rw [W.rect] at hm
        unfold Mem at hm
        simp only at hm
        refine hin ⟨(m.pt.x - 1).toNat, (m.pt.y - 1).toNat, by omega, by omega, ?_⟩
        cases hp : m.pt
        rw [hp] at hm
        simp only at hm ⊢
        congr 1 <;> omega
      have ho : sc.grid.cellOffset? m.pt = some none := by
        unfold Grid.cellOffset?
        rw [if_pos (by rw [ptIn_iff]; exact hno)]
      rw [ho]
      refine ⟨_, rfl, W, fun x y hx hy => ?_⟩
      rw [if_neg (fun e => hin ⟨x, y, hx, hy, e⟩)]
  · rw [if_neg h0]
    refine ⟨_, rfl, W, fun x y _ _ => ?_⟩
    have : m.pt = ⟨0, 0⟩ := by
      by_contra hne
      exact h0 (Or.inr hne)
    rw [this, if_neg]
    intro e
    injection e with e1 e2
    omega

theorem frame_eq (m : Mark) (b : Bytes) : m.frame (decodeBytes [] b) = match Spec.mouseIn b with
    | some x => ⟨x.1, x.2, 15⟩
    | none => if m.decay > 0 then { m with decay := m.decay - 1, ms := if m.decay = 1 then 3 else m.ms } else m := by
  unfold Mark.frame
  rw [lastMouse_exact, Option.or_none]
  rw [← Spec.mouseIn]
  cases Spec.mouseIn b with
  | some x => rfl
  | none =>
    simp only
    by_cases h : m.decay > 0
    · rw [if_pos h, if_pos h]
      by_cases h1 : m.decay = 1
      · simp [h1]
      · rw [if_neg (by omega), if_neg h1]
    · rw [if_neg h, if_neg h]

theorem frames_append (l₁ l₂ : List Bytes) : ∀ m : Mark, m.frames (l₁ ++ l₂) = (m.frames l₁).frames l₂ := by
  induction l₁ with
  | nil => intro m; rfl
  | cons b l ih => intro m; exact ih _

/-- Frames without a mouse: the mark stays, and loses its colour after a while. -/
theorem frames_quiet (l : List Bytes) (hl : ∀ b ∈ l, Spec.mouseIn b = none) : ∀ m : Mark, 0 < m.decay →
    (m.frames l).pt = m.pt ∧ (m.frames l).ms = (if l.length < m.decay then m.ms else 3) ∧
      (m.frames l).decay = m.decay - l.length := by
  induction l with
  | nil => intro m h; exact ⟨rfl, by simp [Mark.frames, h], rfl⟩
  | cons b l ih =>
    intro m h
    have hb := hl b (List.mem_cons_self ..)
    have ih := ih (fun b' hb' => hl b' (List.mem_cons_of_mem _ hb'))
    have hf : m.frame (decodeBytes [] b) = { m with decay := m.decay - 1, ms := if m.decay = 1 then 3 else m.ms } := by
      rw [frame_eq, hb]
      simp only
      rw [if_pos h]
    rw [Mark.frames, hf]
    by_cases h1 : m.decay = 1
    · have key : ∀ (l : List Bytes) (q : Mark), (∀ b ∈ l, Spec.mouseIn b = none) → q.decay = 0 → q.frames l = q := by
        intro l
        induction l with
        | nil => intro q _ _; rfl
        | cons b l ih2 =>
          intro q hq h0
          have : q.frame (decodeBytes [] b) = q := by
            rw [frame_eq, hq b (List.mem_cons_self ..)]
            simp only
            rw [if_neg (by omega)]
          rw [Mark.frames, this]
          exact ih2 q (fun b' hb' => hq b' (List.mem_cons_of_mem _ hb')) h0
      rw [key l _ (fun b' hb' => hl b' (List.mem_cons_of_mem _ hb')) (by simp [h1])]
      refine ⟨rfl, ?_, ?_⟩
      · simp [h1]
      · simp [h1]
    · obtain ⟨g1, g2, g3⟩ := ih { m with decay := m.decay - 1, ms := if m.decay = 1 then 3 else m.ms } (by simp only; omega)
      refine ⟨g1, ?_, ?_⟩
      · rw [g2]
        simp only [if_neg h1, List.length_cons]
        by_cases hh : l.length < m.decay - 1
        · rw [if_pos hh, if_pos (by omega)]
        · rw [if_neg hh, if_neg (by omega)]
      · rw [g3]; simp only [List.length_cons]; omega

/-- **C113**: after playing any frames, of which the last with a mouse event has its last one at a
place with a state, the frame drawn by the client has a mark there, if that is on the screen, and is as
the client drew it everywhere else.  The mark has the colour of the button in that frame and in the
fourteen after it, and the colour for no button from then on. -/
theorem marked (pre : List Bytes) (b : Bytes) (rest : List Bytes) (ms : Mouse.MState) (pt : Pt) (hb : Spec.mouseIn b = some (ms, pt))
    (hr : ∀ c ∈ rest, Spec.mouseIn c = none) (sc : Screen) (w h : Nat) (W : sc.Whole w h) :
    ∃ g, (({} : Mark).frames (pre ++ b :: rest)).draw sc.grid = some g ∧ { sc with grid := g }.Whole w h ∧
      ∀ x y, x < w → y < h → { sc with grid := g }.look w x y =
        if pt = ⟨x + 1, y + 1⟩ then some (Spec.cell (if rest.length < 15 then (Mouse.buttonID ms).toNat else 0))
        else sc.look w x y := by
  have h1 : ({} : Mark).frames (pre ++ b :: rest) = (⟨ms, pt, 15⟩ : Mark).frames rest := by
    rw [frames_append, Mark.frames, frame_eq, hb]
  obtain ⟨q1, q2, _⟩ := frames_quiet rest hr ⟨ms, pt, 15⟩ (Nat.succ_pos 14)
  obtain ⟨g, d1, d2, d3⟩ := draw_mark (({} : Mark).frames (pre ++ b :: rest)) sc w h W
  refine ⟨g, d1, d2, fun x y hx hy => ?_⟩
  rw [d3 x y hx hy, h1, q1, q2]
  simp only
  by_cases hl : rest.length < 15
  · rw [if_pos hl, if_pos hl]
  · rw [if_neg hl, if_neg hl]
    rfl

/-- **C113**: as long as there was no mouse event, there is no mark. -/
theorem unmarked (l : List Bytes) (hl : ∀ c ∈ l, Spec.mouseIn c = none) (g : Grid) : (({} : Mark).frames l).draw g = some g := by
  have key : ∀ (l : List Bytes), (∀ b ∈ l, Spec.mouseIn b = none) → ({} : Mark).frames l = {} := by
    intro l
    induction l with
    | nil => intro _; rfl
    | cons b l ih =>
      intro hq
      have : ({} : Mark).frame (decodeBytes [] b) = {} := by
        rw [frame_eq, hq b (List.mem_cons_self ..)]
        rfl
      rw [Mark.frames, this]
      exact ih (fun b' hb' => hq b' (List.mem_cons_of_mem _ hb'))
  rw [key l hl]
  rfl

/-- **C113**: marks tell the buttons apart. -/
theorem marks_differ (i j : Nat) (hi : i ≤ 6) (hj : j ≤ 6) (h : Spec.cell i = Spec.cell j) : i = j := by
  have key : ∀ i : Fin 7, ∀ j : Fin 7, Spec.cell i = Spec.cell j → i = j := by decide +kernel
  have := key ⟨i, by omega⟩ ⟨j, by omega⟩ h
  simpa using this

/-- Negation for **C113**: the X of the mark for no button cannot be told from its background, both
being white. -/
theorem mark_white_on_white : Sgr.fg (Spec.cell 0).attr = Sgr.bg (Spec.cell 0).attr ∧ Sgr.fg (Spec.cell 0).attr ≠ none := by
  decide +kernel

/-- A press of the left button at column 2 of row 1, and a frame without input. -/
example : Spec.mouseIn [0x1B, 0x5B, 0x3C, 0x30, 0x3B, 0x32, 0x3B, 0x31, 0x4D] = some (0, ⟨2, 1⟩) ∧ Spec.mouseIn [] = none := by
  decide +kernel

end Rpl
end Anansi
