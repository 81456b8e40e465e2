import Verif.Model.Builtin
import Verif.Spec.Display
import Verif.Props.Terminfo
/-
**C125**: the control functions of the builtin terminfo entries, and the maps of strings by name.
-/
set_option autoImplicit false

namespace Anansi
namespace Tin
open Disp

/-! ### The maps -/

namespace Spec

/-- Names of keys and the numbers of the capabilities (`term.h`) they stand for. -/
def keyCaps : List (String × Nat) :=
  [("F1", /- key_f1 -/ 66), ("F2", /- key_f2 -/ 68), ("F3", /- key_f3 -/ 69), ("F4", /- key_f4 -/ 70), ("F5", /- key_f5 -/ 71),
    ("F6", /- key_f6 -/ 72), ("F7", /- key_f7 -/ 73), ("F8", /- key_f8 -/ 74), ("F9", /- key_f9 -/ 75),
    ("F10", /- key_f10 -/ 67), ("F11", /- key_f11 -/ 216), ("F12", /- key_f12 -/ 217), ("Insert", /- key_ic -/ 77),
    ("Delete", /- key_dc -/ 59), ("Home", /- key_home -/ 76), ("End", /- key_end -/ 164), ("PageUp", /- key_ppage -/ 82),
    ("PageDown", /- key_npage -/ 81), ("Up", /- key_up -/ 87), ("Down", /- key_down -/ 61), ("Left", /- key_left -/ 79),
    ("Right", /- key_right -/ 83)]

/-- Names of functions and the numbers of their capabilities. -/
def funcCaps : List (String × Nat) :=
  [("EnterCA", /- enter_ca_mode -/ 28), ("ExitCA", /- exit_ca_mode -/ 40), ("ShowCursor", /- cursor_normal -/ 16),
    ("HideCursor", /- cursor_invisible -/ 13), ("ClearScreen", /- clear_screen -/ 5), ("SGR0", /- exit_attribute_mode -/ 39),
    ("Underline", /- enter_underline_mode -/ 36), ("Bold", /- enter_bold_mode -/ 27), ("Blink", /- enter_blink_mode -/ 26),
    ("Reverse", /- enter_reverse_mode -/ 34), ("EnterKeypad", /- keypad_xmit -/ 89), ("ExitKeypad", /- keypad_local -/ 88)]

end Spec

/-- The function of a builtin entry called `name`: what `FuncMap` has for it. -/
def Known.fn (k : Known) (name : String) : Bytes := (k.entry.funcMap.lookup name).getD []

/-- **C125**: of an entry that is read, the maps have for each name the string of the capability
of that name (under the conditions of `readFrom_partial`). -/
theorem maps_named_partial (e : Spec.Entry) (h : e.Ok) (ks : Nat → List Nat)
    (hall : ∀ i ∈ Spec.keys ++ Spec.funcs, i < e.strs.length)
    (hlast : (∃ i ∈ Spec.keys ++ Spec.funcs, e.strs[i]? = some none) → ∃ o, e.strs.getLast? = some (some o) ∧ o < 256) :
    ∃ ti, readFrom e.compile ks = some ti ∧ ti.keyMap = Spec.keyCaps.map (fun x => (x.1, e.value x.2)) ∧
      ti.funcMap = Spec.funcCaps.map (fun x => (x.1, e.value x.2)) ++
        [("EnterMouse", text [.set 1000, .set 1002, .set 1015, .set 1006]),
          ("ExitMouse", text [.reset 1006, .reset 1015, .reset 1002, .reset 1000])] := by
  refine ⟨_, readFrom_partial e h ks hall hlast, rfl, ?_⟩
  have h1 : tiMouseEnter = text [.set 1000, .set 1002, .set 1015, .set 1006] := by decide +kernel
  have h2 : tiMouseLeave = text [.reset 1006, .reset 1015, .reset 1002, .reset 1000] := by decide +kernel
  rw [← h1, ← h2]
  rfl

/-- **C125**: for every name a builtin entry is found for, it is one of the six entries, and each
of the six is found by its own name. -/
theorem builtin_known (term n : Bytes) (h : getBuiltin term = .builtin n) : ∃ k : Known, k.name = n := by
  have hn : n ∈ builtins := by
    unfold getBuiltin at h
    split at h
    · exact absurd h (by simp)
    · split at h
      · simp only [Loaded.builtin.injEq] at h; subst h; assumption
      · split at h
        · rename_i c hc
          simp only [Loaded.builtin.injEq] at h
          subst h
          have := List.mem_of_find?_eq_some hc
          revert this
          have : ∀ c ∈ compatTable, c.2 ∈ builtins := by decide +kernel
          exact this c
        · exact absurd h (by simp)
  have : ∀ n ∈ builtins, ∃ k ∈ Known.all, k.name = n := by decide +kernel
  obtain ⟨k, -, hk⟩ := this n hn
  exact ⟨k, hk⟩

/-- **C125**: the entry of each known terminal is builtin. -/
theorem known_builtin (k : Known) : getBuiltin k.name = .builtin k.name := by
  cases k <;> decide +kernel

/-! ### The functions on a terminal -/

theorem run_append (t : Tty) (a b : List Op) : t.run (a ++ b) = (t.run a).run b := List.foldl_append

theorem step_keeps (t : Tty) (o : Op) (ho : o.Draws) (ha : t.alt = true) :
    (t.step o).alt = true ∧ (t.step o).main = t.main ∧ (t.step o).saved = t.saved := by
  cases o <;> simp_all [Tty.step, Tty.draw, Op.Draws]

theorem run_keeps (ds : List Op) : ∀ (t : Tty), (∀ d ∈ ds, d.Draws) → t.alt = true →
    (t.run ds).alt = true ∧ (t.run ds).main = t.main ∧ (t.run ds).saved = t.saved := by
  induction ds with
  | nil => intro t _ ha; exact ⟨ha, rfl, rfl⟩
  | cons d ds ih =>
    intro t hd ha
    obtain ⟨h1, h2, h3⟩ := step_keeps t d (hd d (by simp)) ha
    obtain ⟨h4, h5, h6⟩ := ih (t.step d) (fun x hx => hd x (by simp [hx])) h1
    exact ⟨h4, h5.trans h2, h6.trans h3⟩

/-- **C125**: for all entries but that of the Linux console: between `EnterCA` and `ExitCA` the
other screen is shown and nothing that is drawn reaches the main one, and afterwards the main
screen, the cursor, the renditions and the character sets are what they were; and the next
`EnterCA` shows a blank screen. -/
theorem screen_kept_partial (k : Known) (hk : k ≠ .linux) : ∃ es xs : List Op,
    k.fn "EnterCA" = text es ∧ k.fn "ExitCA" = text xs ∧
    ∀ (t : Tty) (ds : List Op), t.alt = false → (∀ d ∈ ds, d.Draws) →
      ((t.run (es ++ ds)).alt = true ∧ (t.run (es ++ ds)).main = t.main) ∧
      ((t.run (es ++ ds ++ xs)).alt = false ∧ (t.run (es ++ ds ++ xs)).main = t.main ∧ (t.run (es ++ ds ++ xs)).cur = t.cur) ∧
      ∀ a b, ((t.run (es ++ ds ++ xs ++ es)).shown a b).1 = 0x20 := by
  have old : ∀ (t : Tty) (ds : List Op), t.alt = false → (∀ d ∈ ds, d.Draws) →
      let es : List Op := [.save, .set 47]
      let xs : List Op := [.all, .reset 47, .restore]
      ((t.run (es ++ ds)).alt = true ∧ (t.run (es ++ ds)).main = t.main) ∧
      ((t.run (es ++ ds ++ xs)).alt = false ∧ (t.run (es ++ ds ++ xs)).main = t.main ∧ (t.run (es ++ ds ++ xs)).cur = t.cur) ∧
      ∀ a b, ((t.run (es ++ ds ++ xs ++ es)).shown a b).1 = 0x20 := by
    intro t ds ha hd es xs
    obtain ⟨h1, h2, h3⟩ := run_keeps ds (t.run es) hd rfl
    simp only [run_append]
    generalize (t.run es).run ds = u at h1 h2 h3
    refine ⟨⟨h1, h2⟩, ⟨?_, ?_, ?_⟩, ?_⟩ <;>
      simp_all [es, xs, Tty.run, Tty.step, Tty.draw, Tty.shown, Tty.blank]
  have new : ∀ (t : Tty) (ds pre : List Op), t.alt = false → (∀ d ∈ ds, d.Draws) → pre = [] ∨ pre = [.noMargins] →
      let es : List Op := [.set 1049]
      let xs : List Op := pre ++ [.reset 1049]
      ((t.run (es ++ ds)).alt = true ∧ (t.run (es ++ ds)).main = t.main) ∧
      ((t.run (es ++ ds ++ xs)).alt = false ∧ (t.run (es ++ ds ++ xs)).main = t.main ∧ (t.run (es ++ ds ++ xs)).cur = t.cur) ∧
      ∀ a b, ((t.run (es ++ ds ++ xs ++ es)).shown a b).1 = 0x20 := by
    intro t ds pre ha hd hp es xs
    obtain ⟨h1, h2, h3⟩ := run_keeps ds (t.run es) hd rfl
    simp only [run_append]
    generalize (t.run es).run ds = u at h1 h2 h3
    rcases hp with hp | hp <;> subst hp <;> refine ⟨⟨h1, h2⟩, ⟨?_, ?_, ?_⟩, ?_⟩ <;>
      simp_all [es, xs, Tty.run, Tty.step, Tty.draw, Tty.shown, Tty.blank]
  cases k with
  | linux => exact absurd rfl hk
  | eterm => exact ⟨_, _, by decide +kernel, by decide +kernel, fun t ds h1 h2 => old t ds h1 h2⟩
  | rxvt256color => exact ⟨_, _, by decide +kernel, by decide +kernel, fun t ds h1 h2 => old t ds h1 h2⟩
  | rxvtUnicode => exact ⟨_, _, by decide +kernel, by decide +kernel, fun t ds h1 h2 => new t ds [.noMargins] h1 h2 (Or.inr rfl)⟩
  | screen => exact ⟨_, _, by decide +kernel, by decide +kernel, fun t ds h1 h2 => new t ds [] h1 h2 (Or.inl rfl)⟩
  | xterm => exact ⟨_, _, by decide +kernel, by decide +kernel, fun t ds h1 h2 => new t ds [] h1 h2 (Or.inl rfl)⟩

/-- Negation for **C125**: for the Linux console both are empty, so that what is drawn between
them stays on the main screen. -/
theorem linux_not_kept : Known.linux.fn "EnterCA" = text [] ∧ Known.linux.fn "ExitCA" = text [] ∧
    ∀ (t : Tty) (r : Nat), t.alt = false → (t.run ([] ++ [.put r] ++ [])).main t.cur.x t.cur.y = (r, t.cur.pen) := by
  refine ⟨by decide +kernel, by decide +kernel, ?_⟩
  intro t r ha
  simp [Tty.run, Tty.step, Tty.draw, ha]

/-- **C125**: `ClearScreen` erases the whole screen shown and takes the cursor to its first cell,
and changes nothing else. -/
theorem screen_cleared (k : Known) : ∃ ops : List Op, k.fn "ClearScreen" = text ops ∧
    ∀ t : Tty, t.run ops = { t.draw (fun _ _ _ => t.blank) with cur := { t.cur with x := 0, y := 0 } } := by
  have h2 : ∀ t : Tty, t.run [.home, .all] = { t.draw (fun _ _ _ => t.blank) with cur := { t.cur with x := 0, y := 0 } } := by
    intro t
    cases ha : t.alt <;> simp [Tty.run, Tty.step, Tty.draw, Tty.blank, ha]
  have h0 : ∀ t : Tty, t.run [.home, .below] = { t.draw (fun _ _ _ => t.blank) with cur := { t.cur with x := 0, y := 0 } } := by
    intro t
    have : ∀ b : Nat, (0 < b ∨ b = 0) = True := by intro b; simp; omega
    cases ha : t.alt <;> simp [Tty.run, Tty.step, Tty.draw, Tty.blank, ha, this]
  cases k with
  | linux => exact ⟨_, by decide +kernel, h0⟩
  | screen => exact ⟨_, by decide +kernel, h0⟩
  | _ => exact ⟨_, by decide +kernel, h2⟩

/-- What `SGR0` does to the character sets: on some terminals G0 is used again, on some it is
ASCII again. -/
def Spec.plainSets (k : Known) (s : Sets) : Sets :=
  match k with
  | .eterm | .rxvt256color | .screen => { s with shifted := false }
  | .rxvtUnicode | .xterm => { s with g0 := 0x42 }
  | .linux => s

/-- **C125**: `SGR0` takes all renditions, colours and fonts back, and changes nothing else but
the character sets. -/
theorem renditions_off (k : Known) : ∃ ops : List Op, k.fn "SGR0" = text ops ∧
    ∀ t : Tty, t.run ops = { t with cur := { t.cur with pen := .plain, sets := Spec.plainSets k t.cur.sets } } := by
  cases k with
  | eterm => exact ⟨[.sgr [], .unshift], by decide +kernel, fun t => rfl⟩
  | rxvt256color => exact ⟨[.sgr [], .unshift], by decide +kernel, fun t => rfl⟩
  | screen => exact ⟨[.sgr [], .unshift], by decide +kernel, fun t => rfl⟩
  | rxvtUnicode => exact ⟨[.sgr [], .designate 0x42], by decide +kernel, fun t => rfl⟩
  | xterm => exact ⟨[.designate 0x42, .sgr []], by decide +kernel, fun t => rfl⟩
  | linux => exact ⟨[.sgr [0, 10]], by decide +kernel, fun t => rfl⟩

/-- **C125**: `Bold`, `Underline`, `Blink` and `Reverse` switch on that rendition, and change
nothing else. -/
theorem rendition_on (k : Known) (name : String) (p : Nat)
    (h : (name, p) ∈ [("Bold", 1), ("Underline", 4), ("Blink", 5), ("Reverse", 7)]) :
    ∃ ops : List Op, k.fn name = text ops ∧
      ∀ t : Tty, t.run ops = { t with cur := { t.cur with pen := { t.cur.pen with
        on := fun q => q == p || t.cur.pen.on q } } } := by
  have hs : k.fn name = text [.sgr [p]] ∧ 1 ≤ p ∧ p ≤ 9 := by
    simp only [List.mem_cons, Prod.mk.injEq, List.not_mem_nil, or_false] at h
    rcases h with ⟨h1, h2⟩ | ⟨h1, h2⟩ | ⟨h1, h2⟩ | ⟨h1, h2⟩ <;> subst h1 h2 <;> cases k <;> decide +kernel
  obtain ⟨h1, h2, h3⟩ := hs
  refine ⟨_, h1, ?_⟩
  intro t
  have : (fun q => if q = p then true else t.cur.pen.on q) = fun q => q == p || t.cur.pen.on q := by
    funext q
    by_cases hq : q = p <;> simp [hq]
  simp only [Tty.run, List.foldl_cons, List.foldl_nil, Tty.step, Pen.selects, Pen.select]
  rw [if_neg (by simp)]
  rw [if_neg (by omega), if_pos h3, this]

/-- **C125**: `ShowCursor` and `HideCursor` make the cursor visible and invisible (mode 25), and
change neither the screens nor the cursor's place and rendition. -/
theorem cursor_shown (k : Known) (on : Bool) : ∃ ops : List Op,
    k.fn (if on then "ShowCursor" else "HideCursor") = text ops ∧
    ∀ t : Tty, (t.run ops).priv 25 = on ∧ (∀ p, p ≠ 25 → p ≠ 12 → (t.run ops).priv p = t.priv p) ∧
      (t.run ops).cur = t.cur ∧ (t.run ops).alt = t.alt ∧ (t.run ops).main = t.main ∧ (t.run ops).other = t.other := by
  have fin : ∀ ops : List Op, (∀ t : Tty, (t.run ops).priv 25 = on ∧ (∀ p, p ≠ 25 → p ≠ 12 → (t.run ops).priv p = t.priv p) ∧
      (t.run ops).cur = t.cur ∧ (t.run ops).alt = t.alt ∧ (t.run ops).main = t.main ∧ (t.run ops).other = t.other) →
      k.fn (if on then "ShowCursor" else "HideCursor") = text ops → ∃ ops : List Op,
      k.fn (if on then "ShowCursor" else "HideCursor") = text ops ∧
      ∀ t : Tty, (t.run ops).priv 25 = on ∧ (∀ p, p ≠ 25 → p ≠ 12 → (t.run ops).priv p = t.priv p) ∧
      (t.run ops).cur = t.cur ∧ (t.run ops).alt = t.alt ∧ (t.run ops).main = t.main ∧ (t.run ops).other = t.other :=
    fun ops h1 h2 => ⟨ops, h2, h1⟩
  have hide : ∀ ops : List Op, ops = [.reset 25] ∨ ops = [.reset 25, .shape 1] → on = false → ∀ t : Tty, (t.run ops).priv 25 = on ∧
      (∀ p, p ≠ 25 → p ≠ 12 → (t.run ops).priv p = t.priv p) ∧
      (t.run ops).cur = t.cur ∧ (t.run ops).alt = t.alt ∧ (t.run ops).main = t.main ∧ (t.run ops).other = t.other := by
    intro ops h hon t
    subst hon
    rcases h with h | h <;> subst h <;> refine ⟨by simp [Tty.run, Tty.step], ?_, rfl, rfl, rfl, rfl⟩ <;>
      intro p h1 h2 <;> simp [Tty.run, Tty.step, h1]
  have show_ : ∀ ops : List Op, ops = [.set 25] ∨ ops = [.set 25, .shape 0] ∨ ops = [.setStd 34, .set 25] ∨
      ops = [.reset 12, .set 25] → on = true → ∀ t : Tty, (t.run ops).priv 25 = on ∧
      (∀ p, p ≠ 25 → p ≠ 12 → (t.run ops).priv p = t.priv p) ∧
      (t.run ops).cur = t.cur ∧ (t.run ops).alt = t.alt ∧ (t.run ops).main = t.main ∧ (t.run ops).other = t.other := by
    intro ops h hon t
    subst hon
    rcases h with h | h | h | h <;> subst h <;> refine ⟨by simp [Tty.run, Tty.step], ?_, rfl, rfl, rfl, rfl⟩ <;>
      intro p h1 h2 <;> simp [Tty.run, Tty.step, h1, h2]
  cases on
  · cases k with
    | linux => exact fin [.reset 25, .shape 1] (hide _ (by simp) rfl) (by decide +kernel)
    | _ => exact fin [.reset 25] (hide _ (by simp) rfl) (by decide +kernel)
  · cases k with
    | linux => exact fin [.set 25, .shape 0] (show_ _ (by simp) rfl) (by decide +kernel)
    | screen => exact fin [.setStd 34, .set 25] (show_ _ (by simp) rfl) (by decide +kernel)
    | xterm => exact fin [.reset 12, .set 25] (show_ _ (by simp) rfl) (by decide +kernel)
    | _ => exact fin [.set 25] (show_ _ (by simp) rfl) (by decide +kernel)

/-- Entries with functions for the keypad and the mouse. -/
def Spec.hasMouse : Known → Bool
  | .eterm | .linux => false
  | _ => true

/-- Entries whose keypad functions change the cursor keys, too (mode 1). -/
def Spec.cursorKeys : Known → Bool
  | .screen | .xterm => true
  | _ => false

/-- **C125**: `EnterKeypad` and `ExitKeypad` switch the keypad's application mode on and off,
and that of the cursor keys (mode 1) on terminals where it comes with it, and change nothing
else; where there is none, they are empty. -/
theorem keypad_switched (k : Known) (on : Bool) : ∃ ops : List Op,
    k.fn (if on then "EnterKeypad" else "ExitKeypad") = text ops ∧
    ∀ t : Tty, t.run ops = { t with
      keypad := if Spec.hasMouse k then on else t.keypad
      priv := fun p => if Spec.cursorKeys k ∧ p = 1 then on else t.priv p } := by
  cases k with
  | eterm => exact ⟨[], by cases on <;> decide +kernel, fun t => by simp [Tty.run, Spec.hasMouse, Spec.cursorKeys]⟩
  | linux => exact ⟨[], by cases on <;> decide +kernel, fun t => by simp [Tty.run, Spec.hasMouse, Spec.cursorKeys]⟩
  | rxvt256color => exact ⟨[.keypad on], by cases on <;> decide +kernel, fun t => by simp [Tty.run, Tty.step, Spec.hasMouse, Spec.cursorKeys]⟩
  | rxvtUnicode => exact ⟨[.keypad on], by cases on <;> decide +kernel, fun t => by simp [Tty.run, Tty.step, Spec.hasMouse, Spec.cursorKeys]⟩
  | screen => exact ⟨[if on then .set 1 else .reset 1, .keypad on], by cases on <;> decide +kernel, fun t => by
      cases on <;> simp [Tty.run, Tty.step, Spec.hasMouse, Spec.cursorKeys]⟩
  | xterm => exact ⟨[if on then .set 1 else .reset 1, .keypad on], by cases on <;> decide +kernel, fun t => by
      cases on <;> simp [Tty.run, Tty.step, Spec.hasMouse, Spec.cursorKeys]⟩

theorem mouse_modes (t : Tty) : t.run [.set 1000, .set 1002, .set 1015, .set 1006] = { t with
      priv := fun p => if p ∈ [1000, 1002, 1006, 1015] then true else t.priv p } ∧
    t.run [.reset 1006, .reset 1015, .reset 1002, .reset 1000] = { t with
      priv := fun p => if p ∈ [1000, 1002, 1006, 1015] then false else t.priv p } := by
  constructor
  · simp only [Tty.run, List.foldl_cons, List.foldl_nil, Tty.step]
    simp only [show ¬ (1000 = 47) from by decide, show ¬ (1002 = 47) from by decide, show ¬ (1015 = 47) from by decide,
      show ¬ (1006 = 47) from by decide, show ¬ (1000 = 1049) from by decide, show ¬ (1002 = 1049) from by decide,
      show ¬ (1015 = 1049) from by decide, show ¬ (1006 = 1049) from by decide, if_false]
    congr 1
    funext p
    simp only [List.mem_cons, List.not_mem_nil, or_false]
    split_ifs <;> first | rfl | omega
  · simp only [Tty.run, List.foldl_cons, List.foldl_nil, Tty.step]
    simp only [show ¬ (1000 = 47) from by decide, show ¬ (1002 = 47) from by decide, show ¬ (1015 = 47) from by decide,
      show ¬ (1006 = 47) from by decide, show ¬ (1000 = 1049) from by decide, show ¬ (1002 = 1049) from by decide,
      show ¬ (1015 = 1049) from by decide, show ¬ (1006 = 1049) from by decide, if_false]
    congr 1
    funext p
    simp only [List.mem_cons, List.not_mem_nil, or_false]
    split_ifs <;> first | rfl | omega

/-- **C125**: `EnterMouse` and `ExitMouse` set and reset the modes of reporting presses (1000) and
drags (1002) in the two extended forms (1006, 1015), and change nothing else; of the entries of
Eterm and the Linux console they are empty. -/
theorem mouse_switched (k : Known) (on : Bool) : ∃ ops : List Op,
    k.fn (if on then "EnterMouse" else "ExitMouse") = text ops ∧
    ∀ t : Tty, t.run ops = if Spec.hasMouse k then { t with
      priv := fun p => if p ∈ [1000, 1002, 1006, 1015] then on else t.priv p } else t := by
  have no : Spec.hasMouse k = false → ∀ t : Tty, t.run [] = if Spec.hasMouse k then { t with
      priv := fun p => if p ∈ [1000, 1002, 1006, 1015] then on else t.priv p } else t := by
    intro h t; rw [h]; rfl
  have yes : Spec.hasMouse k = true → ∀ t : Tty, t.run (if on then [.set 1000, .set 1002, .set 1015, .set 1006] else
      [.reset 1006, .reset 1015, .reset 1002, .reset 1000]) = if Spec.hasMouse k then { t with
      priv := fun p => if p ∈ [1000, 1002, 1006, 1015] then on else t.priv p } else t := by
    intro h t
    rw [if_pos h]
    cases on
    · exact (mouse_modes t).2
    · exact (mouse_modes t).1
  cases k with
  | eterm => exact ⟨[], by cases on <;> decide +kernel, no rfl⟩
  | linux => exact ⟨[], by cases on <;> decide +kernel, no rfl⟩
  | _ => exact ⟨_, by cases on <;> decide +kernel, yes rfl⟩

/-- A terminal with something on its screen. -/
def tty0 : Tty where
  w := 80
  h := 24
  bce := true
  main := fun a b => (0x41 + a + b, .plain)
  other := fun _ _ => (0x58, .plain)
  alt := false
  cur := ⟨3, 4, (Pen.plain.select 44).select 1, ⟨0x42, 0x30, true⟩⟩
  saved := ⟨0, 0, .plain, ⟨0x42, 0x42, false⟩⟩
  priv := fun p => p == 25
  std := fun _ => false
  keypad := false
  shape := 0
  margins := none

example : tty0.alt = false ∧ (∀ d ∈ ([.move 2 2, .sgr [31], .put 0x21, .all, .set 7] : List Op), d.Draws) ∧
    (tty0.run [.save, .set 47, .move 2 2, .put 0x21]).main 1 1 = tty0.main 1 1 := ⟨rfl, by simp [Op.Draws], rfl⟩

example : ("Blink", 5) ∈ [("Bold", 1), ("Underline", 4), ("Blink", 5), ("Reverse", 7)] := by decide

example : getBuiltin (str "xterm-256color") = .builtin (str "xterm") ∧
    getBuiltin (str "rxvt") = .builtin (str "rxvt-unicode") := by decide +kernel

example : (readFrom small.compile fun _ => []).map (fun t => (t.keyMap.lookup "Home", t.keyMap.lookup "F1")) =
    some (some [0x1B, 0x41], some []) := by decide +kernel

end Tin
end Anansi
