import Verif.Model.Interact
import Mathlib.Tactic.Linarith
import Mathlib.Tactic.Ring
/-
C103: the interact command runs exactly the command line with its variables filled in.
-/
set_option autoImplicit false

namespace Anansi
namespace Itr
open Edl

namespace Spec

/-- A word that names a variable begins with a dollar sign. -/
def isVar (w : Bytes) : Bool := w.head? == some 0x24

/-- A word as it is run when it is no variable: a backslash that only guards a dollar sign goes. -/
def literal : Bytes → Bytes
  | 0x5C :: 0x24 :: t => 0x24 :: t
  | w => w

/-- The command line with the variables filled in, in order. -/
def expand : List Bytes → List Bytes → List Bytes
  | [], _ => []
  | w :: ws, vs => if isVar w then vs.headD [] :: expand ws vs.tail else literal w :: expand ws vs

/-- The names of the variables. -/
def names (cmd : List Bytes) : List Bytes := (cmd.filter isVar).map (·.drop 1)

/-- How many variables come before word `i`. -/
def slot (cmd : List Bytes) (i : Nat) : Nat := ((cmd.take i).filter isVar).length

/-- The value of the variable that word `i` names. -/
def value (cmd vals : List Bytes) (i : Nat) : Bytes := vals[slot cmd i]?.getD []

/-- What is to be seen: nothing without room, a prompt while a value is missing, otherwise the
command's outcome. -/
def display (cmd vals : List Bytes) (size : Int × Int) : Shown :=
  if size.1 ≤ 0 ∨ size.2 ≤ 0 then .nothing
  else if [] ∈ vals then .prompt else .ran (expand cmd vals)

/-- Word `i` was chosen before and no word before it has been pressed. -/
def held (s : St) (x : Nat → In) (i : Nat) : Prop := s.edid = i + 1 ∧ ∀ k < i, (x k).pressed = false

/-- Word `i` is chosen: a press chooses it or gives it up. -/
def chosen (s : St) (x : Nat → In) (i : Nat) : Prop := (x i).pressed = true ↔ ¬ held s x i

/-- The edit line after this update's input: a press begins anew with the value so far. -/
def edited (cmd : List Bytes) (s : St) (x : Nat → In) (i : Nat) : EditLine :=
  (x i).upd (if (x i).pressed then { box := ⟨⟨1, 1⟩, ⟨1, 1⟩⟩, buf := value cmd s.val i } else s.ed)

end Spec

/-- The places of the variables among the words from the `i`-th on. -/
def places : Nat → List Bytes → List Nat
  | _, [] => []
  | i, w :: ws => if Spec.isVar w then i :: places (i + 1) ws else places (i + 1) ws

theorem prefix_var (w : Bytes) : ([0x24] : Bytes).isPrefixOf w = Spec.isVar w := by
  cases w with
  | nil => rfl
  | cons b t => simp [List.isPrefixOf, Spec.isVar, eq_comm]

theorem prefix_esc (w : Bytes) (h : ([0x5C, 0x24] : Bytes).isPrefixOf w = true) :
    Spec.isVar w = false ∧ Spec.literal w = w.drop 1 := by
  obtain ⟨t, rfl⟩ := List.isPrefixOf_iff_prefix.1 h
  exact ⟨rfl, rfl⟩

theorem prefix_plain (w : Bytes) (h : ¬ ([0x5C, 0x24] : Bytes).isPrefixOf w = true) :
    Spec.literal w = w := by
  unfold Spec.literal
  split
  · exact absurd (by simp [List.isPrefixOf]) h
  · rfl

theorem setWords_eq (ws pre : List Bytes) (s : St) (hc : s.cmd = pre ++ ws) :
    setWords pre.length ws s = { s with
      cmd := pre ++ ws.map Spec.literal,
      argi := s.argi ++ places pre.length ws,
      arg := s.arg ++ Spec.names ws,
      val := s.val ++ List.replicate (Spec.names ws).length [] } := by
  induction ws generalizing pre s with
  | nil => simp [setWords, places, Spec.names, ← hc]
  | cons w ws ih =>
    unfold setWords
    by_cases h1 : ([0x5C, 0x24] : Bytes).isPrefixOf w = true
    · obtain ⟨hv, hl⟩ := prefix_esc w h1
      rw [if_pos h1]
      have := ih (pre ++ [w.drop 1]) { s with cmd := s.cmd.set pre.length (w.drop 1) }
        (by simp [hc])
      simp only [List.length_append, List.length_cons, List.length_nil, Nat.zero_add] at this
      rw [this]
      simp [places, hv, Spec.names, hl]
    · rw [if_neg h1, prefix_var]
      have hl := prefix_plain w h1
      by_cases h2 : Spec.isVar w = true
      · rw [if_pos h2]
        have := ih (pre ++ [w]) { s with argi := s.argi ++ [pre.length], arg := s.arg ++ [w.drop 1], val := s.val ++ [[]] }
          (by simp [hc])
        simp only [List.length_append, List.length_cons, List.length_nil, Nat.zero_add] at this
        rw [this]
        simp [places, h2, Spec.names, hl, List.replicate_succ]
      · rw [if_neg h2]
        have := ih (pre ++ [w]) s (by simp [hc])
        simp only [List.length_append, List.length_cons, List.length_nil, Nat.zero_add] at this
        rw [this]
        simp [places, h2, Spec.names, hl]

theorem names_cons (w : Bytes) (ws : List Bytes) :
    (Spec.names (w :: ws)).length = (if Spec.isVar w then 1 else 0) + (Spec.names ws).length := by
  unfold Spec.names
  by_cases h : Spec.isVar w = true <;> simp [h]; omega

theorem putVals_eq (ws pre vals : List Bytes) (h : vals.length = (Spec.names ws).length) :
    putVals (places pre.length ws) vals (pre ++ ws.map Spec.literal) = some (pre ++ Spec.expand ws vals) := by
  induction ws generalizing pre vals with
  | nil =>
    have : vals = [] := List.length_eq_zero_iff.1 (by simpa [Spec.names] using h)
    subst this
    simp [putVals, Spec.expand, places]
  | cons w ws ih =>
    rw [names_cons] at h
    by_cases hv : Spec.isVar w = true
    · rw [if_pos hv] at h
      obtain ⟨v, vs, rfl⟩ : ∃ v vs, vals = v :: vs := by
        cases vals with
        | nil => simp at h; omega
        | cons v vs => exact ⟨v, vs, rfl⟩
      have := ih (pre ++ [v]) vs (by simp at h; omega)
      simp only [List.length_append, List.length_cons, List.length_nil, Nat.zero_add] at this
      simp only [places, hv, if_true, putVals, List.map_cons, Spec.expand, List.headD_cons, List.tail_cons]
      rw [if_pos (by simp), List.set_append_right _ _ (le_refl _)]
      simpa using this
    · rw [if_neg hv] at h
      have := ih (pre ++ [Spec.literal w]) vals (by omega)
      simp only [List.length_append, List.length_cons, List.length_nil, Nat.zero_add] at this
      simpa [places, hv, Spec.expand] using this

/-- What stays as `setCmd` has set it. -/
structure Inv (cmd : List Bytes) (s : St) : Prop where
  words : s.cmd = cmd.map Spec.literal
  argi : s.argi = places 0 cmd
  arg : s.arg = Spec.names cmd
  val : s.val.length = (Spec.names cmd).length
  runs : ∀ a ∈ s.runs, ∃ vals : List Bytes, vals.length = (Spec.names cmd).length ∧ [] ∉ vals ∧
    a = Spec.expand cmd vals

theorem expand_length (cmd vals : List Bytes) : (Spec.expand cmd vals).length = cmd.length := by
  induction cmd generalizing vals with
  | nil => rfl
  | cons w ws ih => unfold Spec.expand; split <;> simp [ih]

/-- What is seen when the command is run anew; no word at all and room for output is a panic. -/
theorem runCmd_eq (cmd : List Bytes) (s : St) (h : Inv cmd s) :
    s.runCmd = if cmd = [] ∧ 0 < s.size.1 ∧ 0 < s.size.2 then none
      else some { s with
        shown := Spec.display cmd s.val s.size,
        runs := match Spec.display cmd s.val s.size with
          | .ran a => a :: s.runs
          | _ => s.runs } := by
  unfold St.runCmd Spec.display
  by_cases h1 : s.size.1 ≤ 0 ∨ s.size.2 ≤ 0
  · rw [if_pos h1, if_neg (by omega)]
    simp [h1]
  · rw [if_neg h1]
    simp only [if_neg h1]
    by_cases h2 : [] ∈ s.val
    · have : s.haveAllArgVals = false := by simpa [St.haveAllArgVals] using h2
      have hc : cmd ≠ [] := by
        rintro rfl
        have := h.val
        simp [Spec.names] at this
        simp [this] at h2
      simp [this, h2, hc]
    · have ha : s.haveAllArgVals = true := by
        simp only [St.haveAllArgVals, List.all_eq_true, decide_eq_true_eq]
        rintro v hv rfl; exact h2 hv
      have hp := putVals_eq cmd [] s.val h.val
      simp only [List.length_nil, List.nil_append] at hp
      rw [ha, h.argi, h.words, hp]
      simp only [Bool.not_true, Bool.false_eq_true, if_false, if_neg h2]
      have hl := expand_length cmd s.val
      cases he : Spec.expand cmd s.val with
      | nil =>
        have : cmd = [] := List.length_eq_zero_iff.1 (by rw [← hl, he]; rfl)
        simp [this]; omega
      | cons a args =>
        have : cmd ≠ [] := by rintro rfl; simp [Spec.expand] at he
        simp [this, h.words]

theorem places_ge (o : Nat) (cmd : List Bytes) : ∀ k ∈ places o cmd, o ≤ k := by
  induction cmd generalizing o with
  | nil => simp [places]
  | cons w ws ih =>
    intro k hk
    unfold places at hk
    split at hk
    · rcases List.mem_cons.1 hk with rfl | hk
      · exact le_refl _
      · have := ih _ k hk; omega
    · have := ih _ k hk; omega

theorem slot_succ (w : Bytes) (ws : List Bytes) (i : Nat) :
    Spec.slot (w :: ws) (i + 1) = (if Spec.isVar w then 1 else 0) + Spec.slot ws i := by
  unfold Spec.slot
  by_cases h : Spec.isVar w = true <;> simp [h]; omega

theorem slot_next (cmd : List Bytes) (i : Nat) (hi : i < cmd.length) :
    Spec.slot cmd (i + 1) = Spec.slot cmd i + if Spec.isVar cmd[i] then 1 else 0 := by
  unfold Spec.slot
  rw [List.take_succ_eq_append_getElem hi, List.filter_append, List.length_append]
  by_cases h : Spec.isVar cmd[i] = true <;> simp only [List.filter_cons, h, List.filter_nil] <;> rfl

theorem slot_mono (cmd : List Bytes) (i k : Nat) (h : i ≤ k) : Spec.slot cmd i ≤ Spec.slot cmd k := by
  unfold Spec.slot
  exact ((List.take_sublist_take_left h).filter _).length_le

theorem slot_lt (cmd : List Bytes) (i k : Nat) (hk : k ≤ cmd.length) (h : i < k)
    (hv : Spec.isVar (cmd[i]'(by omega)) = true) : Spec.slot cmd i < Spec.slot cmd k := by
  have h1 := slot_next cmd i (by omega)
  rw [if_pos hv] at h1
  have := slot_mono cmd (i + 1) k h
  omega

theorem slot_all (cmd : List Bytes) : Spec.slot cmd cmd.length = (Spec.names cmd).length := by
  simp [Spec.slot, Spec.names]

theorem places_slot (o : Nat) (cmd : List Bytes) (i : Nat) (hi : i < cmd.length) :
    (places o cmd)[Spec.slot cmd i]? = some (o + i) ↔ Spec.isVar cmd[i] = true := by
  induction cmd generalizing o i with
  | nil => simp at hi
  | cons w ws ih =>
    cases i with
    | zero =>
      simp only [Spec.slot, List.take_zero, List.filter_nil, List.length_nil, Nat.add_zero,
        List.getElem_cons_zero]
      unfold places
      by_cases h : Spec.isVar w = true
      · simp [h]
      · simp only [h, if_false, iff_false, Bool.false_eq_true]
        intro hc
        have := places_ge (o + 1) ws o (List.mem_of_getElem? hc)
        omega
    | succ i =>
      have := ih (o + 1) i (by simpa using hi)
      rw [slot_succ]
      simp only [List.getElem_cons_succ]
      rw [← this, show o + (i + 1) = o + 1 + i by omega]
      by_cases h : Spec.isVar w = true
      · simp [places, h, Nat.add_comm 1]
      · simp [places, h]

/-- What is seen belongs to the present values and size. -/
def Cur (cmd : List Bytes) (s : St) : Prop := s.shown = Spec.display cmd s.val s.size

theorem runCmd_some (cmd : List Bytes) (s : St) (h : Inv cmd s) (hc : cmd ≠ []) :
    ∃ t, s.runCmd = some t ∧ Inv cmd t ∧ Cur cmd t ∧ t.size = s.size ∧ t.val = s.val ∧
      t.edid = s.edid ∧ t.ed = s.ed := by
  have hr := runCmd_eq cmd s h
  rw [if_neg (by simp [hc])] at hr
  refine ⟨_, hr, ⟨h.words, h.argi, h.arg, h.val, ?_⟩, rfl, rfl, rfl, rfl, rfl⟩
  intro a ha
  unfold Spec.display at ha
  simp only at ha
  split at ha
  · next b hb =>
    rcases List.mem_cons.1 ha with rfl | ha
    · split at hb
      · exact absurd hb (by simp)
      · split at hb
        · exact absurd hb (by simp)
        · next hn => exact ⟨s.val, h.val, hn, by simpa using hb.symm⟩
    · exact h.runs a ha
  · exact h.runs a ha

/-- One word. -/
theorem word_eq (cmd : List Bytes) (s : St) (i : Nat) (x : In) (h : Inv cmd s) (hcur : Cur cmd s)
    (hi : i < cmd.length) :
    ∃ t, s.word i (Spec.slot cmd i) x = some (t, Spec.slot cmd (i + 1)) ∧ Inv cmd t ∧ Cur cmd t ∧
      t.size = s.size ∧
      t.val = (if Spec.isVar cmd[i] = true ∧ (x.pressed = true ↔ s.edid ≠ i + 1) ∧
          (x.upd (if x.pressed then { box := ⟨⟨1, 1⟩, ⟨1, 1⟩⟩, buf := Spec.value cmd s.val i } else s.ed)).state = .done ∧
          (x.upd (if x.pressed then { box := ⟨⟨1, 1⟩, ⟨1, 1⟩⟩, buf := Spec.value cmd s.val i } else s.ed)).buf ≠ []
        then s.val.set (Spec.slot cmd i)
          (x.upd (if x.pressed then { box := ⟨⟨1, 1⟩, ⟨1, 1⟩⟩, buf := Spec.value cmd s.val i } else s.ed)).buf
        else s.val) ∧
      t.edid = (if (x.pressed = true ↔ s.edid ≠ i + 1) then
          (if Spec.isVar cmd[i] = true ∧
            (x.upd (if x.pressed then { box := ⟨⟨1, 1⟩, ⟨1, 1⟩⟩, buf := Spec.value cmd s.val i } else s.ed)).state ≠ .ready
            then 0 else i + 1)
        else if x.pressed then 0 else s.edid) ∧
      t.ed = (if Spec.isVar cmd[i] = true ∧ (x.pressed = true ↔ s.edid ≠ i + 1) then
          (if (x.upd (if x.pressed then { box := ⟨⟨1, 1⟩, ⟨1, 1⟩⟩, buf := Spec.value cmd s.val i } else s.ed)).state = .ready
            then x.upd (if x.pressed then { box := ⟨⟨1, 1⟩, ⟨1, 1⟩⟩, buf := Spec.value cmd s.val i } else s.ed)
            else { box := ⟨⟨1, 1⟩, ⟨1, 1⟩⟩ })
        else s.ed) := by
  have hc : cmd ≠ [] := by rintro rfl; simp at hi
  have hv := places_slot 0 cmd i hi
  rw [Nat.zero_add, ← h.argi] at hv
  have hn := slot_next cmd i hi
  obtain ⟨pr, upd⟩ := x
  simp only
  unfold St.word
  by_cases hvar : Spec.isVar cmd[i] = true
  · have hv' := hv.2 hvar
    simp only [hv', hvar, if_true, true_and, and_true] at hn ⊢
    have hred : ∀ s : St, Inv cmd s → ∀ (e : EditLine) (d : Nat), Inv cmd { s with ed := e, edid := d } :=
      fun s h _ _ => ⟨h.words, h.argi, h.arg, h.val, h.runs⟩
    have hset : ∀ s : St, Inv cmd s → ∀ (j : Nat) (b : Bytes), Inv cmd { s with val := s.val.set j b } :=
      fun s h j b => ⟨h.words, h.argi, h.arg, by simpa using h.val, h.runs⟩
    have hpend : ∀ (e : EditLine), ∃ t : St,
        (match e.state with
          | .ready => some (({ s with ed := e, edid := i + 1 } : St), Spec.slot cmd i + 1)
          | .done => ({ s with ed := e, edid := i + 1, val := if e.buf ≠ [] then s.val.set (Spec.slot cmd i) e.buf else s.val } : St).exit.map (·, Spec.slot cmd i + 1)
          | .canceled => ({ s with ed := e, edid := i + 1 } : St).exit.map (·, Spec.slot cmd i + 1)) =
          some (t, Spec.slot cmd i + 1) ∧ Inv cmd t ∧ Cur cmd t ∧ t.size = s.size ∧
        t.val = (if e.state = .done ∧ e.buf ≠ [] then s.val.set (Spec.slot cmd i) e.buf else s.val) ∧
        t.edid = (if e.state ≠ .ready then 0 else i + 1) ∧
        t.ed = (if e.state = .ready then e else { box := ⟨⟨1, 1⟩, ⟨1, 1⟩⟩ }) := by
      intro e
      cases hs : e.state with
      | ready => exact ⟨_, rfl, hred s h e (i + 1), hcur, rfl, by simp, by simp, by simp⟩
      | done =>
        have hi' : Inv cmd { s with ed := ({ box := ⟨⟨1, 1⟩, ⟨1, 1⟩⟩ } : EditLine), edid := 0, val := if e.buf ≠ [] then s.val.set (Spec.slot cmd i) e.buf else s.val } := by
          by_cases hb : e.buf ≠ []
          · simp only [if_pos hb]; exact hred _ (hset s h _ _) _ _
          · simp only [if_neg hb]; exact hred s h _ _
        obtain ⟨t, h1, h2, h3, h4, h5, h6, h7⟩ := runCmd_some cmd _ hi' hc
        refine ⟨t, ?_, h2, h3, h4, ?_, ?_, ?_⟩
        · simp only [St.exit, EditLine.reset, h1, Option.map_some]
        · rw [h5]; simp
        · rw [h6]; simp
        · rw [h7]; simp
      | canceled =>
        obtain ⟨t, h1, h2, h3, h4, h5, h6, h7⟩ := runCmd_some cmd _ (hred s h { box := ⟨⟨1, 1⟩, ⟨1, 1⟩⟩ } 0) hc
        refine ⟨t, ?_, h2, h3, h4, ?_, ?_, ?_⟩
        · simp only [St.exit, EditLine.reset, h1, Option.map_some]
        · rw [h5]; simp
        · rw [h6]; simp
        · rw [h7]; simp
    rw [hn]
    cases pr with
    | true =>
      by_cases he : s.edid = i + 1
      · refine ⟨{ s with edid := 0 }, ?_, ⟨h.words, h.argi, h.arg, h.val, h.runs⟩, hcur, rfl, ?_, ?_, ?_⟩ <;> simp [he]
      · obtain ⟨t, h1, h2, h3, h4, h5, h6, h7⟩ := hpend (upd { box := ⟨⟨1, 1⟩, ⟨1, 1⟩⟩, buf := Spec.value cmd s.val i })
        refine ⟨t, ?_, h2, h3, h4, ?_, ?_, ?_⟩
        · rw [← h1]
          simp only [he, EditLine.reset, Spec.value, ne_eq, not_false_eq_true, and_true, if_true, if_false, true_and]
          rfl
        · simpa [he] using h5
        · simpa [he] using h6
        · simpa [he] using h7
    | false =>
      by_cases he : s.edid = i + 1
      · obtain ⟨t, h1, h2, h3, h4, h5, h6, h7⟩ := hpend (upd s.ed)
        refine ⟨t, ?_, h2, h3, h4, ?_, ?_, ?_⟩
        · rw [← h1]
          simp only [he, Bool.false_eq_true, ne_eq, not_true_eq_false, and_self, if_true, if_false, true_and]
          rfl
        · simpa [he] using h5
        · simpa [he] using h6
        · simpa [he] using h7
      · refine ⟨s, ?_, h, hcur, rfl, ?_, ?_, ?_⟩ <;> simp [he]
  · have hv' : ¬ s.argi[Spec.slot cmd i]? = some i := fun hc => hvar (hv.1 hc)
    simp only [hvar, Bool.false_eq_true, if_false, Nat.add_zero] at hn
    simp only [hv', hvar, if_false, and_false, false_and, Bool.false_eq_true]
    refine ⟨_, by rw [hn], ?_, ?_, ?_, ?_, ?_, ?_⟩
    all_goals cases pr <;> simp
    · exact h
    · exact ⟨h.words, h.argi, h.arg, h.val, h.runs⟩
    · exact hcur
    · exact hcur

/-- How things stand when word `i` is next, having begun with `s`. -/
structure At (cmd : List Bytes) (s : St) (x : Nat → In) (i : Nat) (t : St) : Prop where
  inv : Inv cmd t
  cur : Cur cmd t
  size : t.size = s.size
  val : ∀ m (hm : m < cmd.length), Spec.isVar cmd[m] = true →
    (m < i ∧ Spec.chosen s x m ∧ (Spec.edited cmd s x m).state = .done ∧ (Spec.edited cmd s x m).buf ≠ [] →
      Spec.value cmd t.val m = (Spec.edited cmd s x m).buf) ∧
    (¬ (m < i ∧ Spec.chosen s x m ∧ (Spec.edited cmd s x m).state = .done ∧ (Spec.edited cmd s x m).buf ≠ []) →
      Spec.value cmd t.val m = Spec.value cmd s.val m)
  past : ∀ m (hm : m < cmd.length), m < i → (t.edid = m + 1 ↔ Spec.chosen s x m ∧
    (∀ k, m < k → k < i → (x k).pressed = false) ∧
    (Spec.isVar cmd[m] = true → (Spec.edited cmd s x m).state = .ready))
  next : ∀ m, i ≤ m → (t.edid = m + 1 ↔ s.edid = m + 1 ∧ ∀ k < i, (x k).pressed = false)
  same : ∀ m, i ≤ m → t.edid = m + 1 → t.ed = s.ed
  line : ∀ m (hm : m < cmd.length), m < i → Spec.isVar cmd[m] = true → t.edid = m + 1 →
    t.ed = Spec.edited cmd s x m

theorem at_step (cmd : List Bytes) (s t t' : St) (x : Nat → In) (i : Nat) (hi : i < cmd.length)
    (h : At cmd s x i t) (hw : t.word i (Spec.slot cmd i) (x i) = some (t', Spec.slot cmd (i + 1))) :
    At cmd s x (i + 1) t' := by
  classical
  obtain ⟨u, h1, h2, h3, h4, h5, h6, h7⟩ := word_eq cmd t i (x i) h.inv h.cur hi
  rw [hw] at h1
  obtain rfl : t' = u := by simpa using h1
  have hheld : t.edid = i + 1 ↔ Spec.held s x i := h.next i (le_refl _)
  have hch : ((x i).pressed = true ↔ t.edid ≠ i + 1) ↔ Spec.chosen s x i := by
    unfold Spec.chosen; rw [← hheld]
  have hlen : Spec.isVar cmd[i] = true → Spec.slot cmd i < t.val.length := by
    intro hv
    rw [h.inv.val, ← slot_all]
    exact slot_lt cmd i _ (le_refl _) hi hv
  have hed : Spec.isVar cmd[i] = true → Spec.chosen s x i →
      (x i).upd (if (x i).pressed then { box := ⟨⟨1, 1⟩, ⟨1, 1⟩⟩, buf := Spec.value cmd t.val i } else t.ed) =
        Spec.edited cmd s x i := by
    intro hv hc
    unfold Spec.edited
    rw [(h.val i hi hv).2 (by omega)]
    by_cases hp : (x i).pressed = true
    · simp [hp]
    · have : t.edid = i + 1 := by
        by_contra hne
        exact hp ((hch.2 hc).2 hne)
      simp [hp, h.same i (le_refl _) this]
  generalize (x i).upd (if (x i).pressed then { box := ⟨⟨1, 1⟩, ⟨1, 1⟩⟩, buf := Spec.value cmd t.val i } else t.ed) = e at h5 h6 h7 hed
  simp only [hch] at h5 h6 h7
  have hpf : ∀ k, (x k).pressed = false ↔ ¬ (x k).pressed = true := by simp
  refine ⟨h2, h3, h4.trans h.size, ?_, ?_, ?_, ?_, ?_⟩
  · intro m hm hv
    by_cases hmi : m = i
    · subst hmi
      constructor
      · rintro ⟨-, hc, hd, hb⟩
        rw [← hed hv hc] at hd hb ⊢
        rw [h5, if_pos ⟨hv, hc, hd, hb⟩]
        simp [Spec.value, hlen hv]
      · intro hn
        rw [← (h.val m hm hv).2 (by omega), h5, if_neg]
        rintro ⟨-, hc, hd, hb⟩
        rw [hed hv hc] at hd hb
        exact hn ⟨by omega, hc, hd, hb⟩
    · have : Spec.value cmd t'.val m = Spec.value cmd t.val m := by
        rw [h5]
        split
        · next hx =>
          unfold Spec.value
          rw [List.getElem?_set_ne]
          rcases Nat.lt_or_gt_of_ne hmi with hlt | hlt
          · have := slot_lt cmd m i (by omega) hlt hv; omega
          · have := slot_lt cmd i m (by omega) hlt hx.1; omega
        · rfl
      rw [this]
      have hiff : m < i + 1 ↔ m < i := by omega
      simp only [hiff]
      exact h.val m hm hv
  · intro m hm hmi
    by_cases hmi' : m = i
    · subst hmi'
      rw [h6]
      by_cases hc : Spec.chosen s x m
      · rw [if_pos hc]
        by_cases hv : Spec.isVar cmd[m] = true
        · rw [hed hv hc]
          by_cases hs : (Spec.edited cmd s x m).state = .ready
          · simp only [hv, hs, hc, true_and, ne_eq, not_true_eq_false, if_false, true_iff, implies_true, and_true]
            intro k h1 h2; omega
          · simp [hv, hs]
        · simp only [hv, hc, false_and, if_false, true_and, false_implies, and_true, true_iff, Bool.false_eq_true]
          intro k h1 h2; omega
      · rw [if_neg hc]
        simp only [hc, false_and, iff_false]
        by_cases hp : (x m).pressed = true
        · simp [hp]
        · rw [if_neg hp]
          intro hh
          exact hc (hch.1 (by simp [hp, hh]))
    · have hlt : m < i := by omega
      have hp := h.past m hm hlt
      rw [h6]
      by_cases hpr : (x i).pressed = true
      · have : ¬ (∀ k, m < k → k < i + 1 → (x k).pressed = false) := by
          intro hh; have := hh i hlt (by omega); simp [hpr] at this
        simp only [this, false_and, and_false, iff_false, hpr, if_true]
        split
        · split <;> omega
        · omega
      · have hall : (∀ k, m < k → k < i + 1 → (x k).pressed = false) ↔ (∀ k, m < k → k < i → (x k).pressed = false) := by
          constructor
          · exact fun hh k h1 h2 => hh k h1 (by omega)
          · intro hh k h1 h2
            by_cases hk : k = i
            · subst hk; simpa using hpr
            · exact hh k h1 (by omega)
        rw [hall, ← hp]
        by_cases hc : Spec.chosen s x i
        · rw [if_pos hc]
          have : t.edid = i + 1 := by
            by_contra hne
            exact hpr ((hch.2 hc).2 hne)
          constructor
          · intro hh; split at hh <;> omega
          · intro hh; omega
        · rw [if_neg hc, if_neg hpr]
  · intro m hm
    have hn := h.next m (by omega)
    rw [h6]
    by_cases hpr : (x i).pressed = true
    · have : ¬ (∀ k < i + 1, (x k).pressed = false) := by
        intro hh; have := hh i (by omega); simp [hpr] at this
      simp only [this, and_false, iff_false, hpr, if_true]
      split
      · split <;> omega
      · omega
    · have hall : (∀ k < i + 1, (x k).pressed = false) ↔ (∀ k < i, (x k).pressed = false) := by
        constructor
        · exact fun hh k h1 => hh k (by omega)
        · intro hh k h1
          by_cases hk : k = i
          · subst hk; simpa using hpr
          · exact hh k (by omega)
      rw [hall, ← hn]
      by_cases hc : Spec.chosen s x i
      · rw [if_pos hc]
        have : t.edid = i + 1 := by
          by_contra hne
          exact hpr ((hch.2 hc).2 hne)
        constructor
        · intro hh; split at hh <;> omega
        · intro hh; omega
      · rw [if_neg hc, if_neg hpr]
  · intro m hm he
    have hnc : ¬ Spec.chosen s x i := by
      intro hc
      rw [h6, if_pos hc] at he
      split at he <;> omega
    rw [h6, if_neg hnc] at he
    rw [h7, if_neg (by simp [hnc])]
    split at he
    · omega
    · exact h.same m (by omega) he
  · intro m hm hmi hv he
    by_cases hmi' : m = i
    · subst hmi'
      by_cases hc : Spec.chosen s x m
      · rw [h6, if_pos hc] at he
        rw [h7, if_pos ⟨hv, hc⟩]
        by_cases hs : e.state = .ready
        · rw [if_pos hs, hed hv hc]
        · rw [if_pos ⟨hv, hs⟩] at he; omega
      · rw [h6, if_neg hc] at he
        split at he
        · omega
        · next hp => exact absurd (hch.1 (by simp [hp, he])) hc
    · have hnc : ¬ Spec.chosen s x i := by
        intro hc
        rw [h6, if_pos hc] at he
        split at he <;> omega
      rw [h6, if_neg hnc] at he
      rw [h7, if_neg (by simp [hnc])]
      split at he
      · omega
      · exact h.line m hm (by omega) hv he

theorem words_at (cmd : List Bytes) (s t : St) (x : Nat → In) (n i : Nat) (hn : i + n = cmd.length)
    (h : At cmd s x i t) : ∃ u, words x n i (Spec.slot cmd i) t = some u ∧ At cmd s x cmd.length u := by
  induction n generalizing i t with
  | zero => exact ⟨t, rfl, by rw [← hn]; exact h⟩
  | succ n ih =>
    obtain ⟨u, h1, -⟩ := word_eq cmd t i (x i) h.inv h.cur (by omega)
    obtain ⟨v, h3, h4⟩ := ih u (i + 1) (by omega) (at_step cmd s t u x i (by omega) h h1)
    exact ⟨v, by simp [words, h1, h3], h4⟩

/-- The words of one update. -/
theorem words_all (cmd : List Bytes) (s : St) (x : Nat → In) (h : Inv cmd s) (hc : Cur cmd s) :
    ∃ u, words x s.cmd.length 0 0 s = some u ∧ At cmd s x cmd.length u := by
  have h0 : At cmd s x 0 s := by
    refine ⟨h, hc, rfl, ?_, ?_, ?_, ?_, ?_⟩
    · intro m hm hv; simp
    · intro m hm h0; omega
    · intro m hm; simp
    · intro m hm _; rfl
    · intro m hm h0; omega
  have := words_at cmd s s x cmd.length 0 (by omega) h0
  rw [h.words, List.length_map]
  simpa [Spec.slot] using this

/-- One update: the overlay's state, the size of the screen, the input. -/
structure Upd where
  hud : Bool := false
  w : Int
  h : Int
  x : Nat → In := fun _ => {}

namespace Spec

/-- The rows above the output area, with the blank row. -/
def top (u : Upd) : Int := if u.hud then 3 else 2

/-- A screen that has these rows. -/
def fits (u : Upd) : Prop := 0 ≤ u.w ∧ top u ≤ u.h

/-- The size of the output area after the updates. -/
def area (us : List Upd) : Int × Int :=
  match us.getLast? with
  | none => (0, 0)
  | some u => (u.w, u.h - top u)

end Spec

/-- The updates one after another. -/
def play (s : St) : List Upd → Option St
  | [] => some s
  | u :: us => (s.update u.hud u.w u.h u.x).bind fun s => play s us

/-- The program: the command line is set, then updates come. -/
def run (cmd : List Bytes) (us : List Upd) : Option St := (({} : St).setCmd cmd).bind fun s => play s us

theorem setWords_same (ws : List Bytes) : ∀ (i : Nat) (s t : St), s.cmd = t.cmd → s.argi = t.argi → s.arg = t.arg → s.val = t.val →
    s.size = t.size →
    (setWords i ws s).cmd = (setWords i ws t).cmd ∧ (setWords i ws s).argi = (setWords i ws t).argi ∧
    (setWords i ws s).arg = (setWords i ws t).arg ∧ (setWords i ws s).val = (setWords i ws t).val ∧
    (setWords i ws s).size = (setWords i ws t).size := by
  induction ws with
  | nil => intro i s t h1 h2 h3 h4 h5; exact ⟨h1, h2, h3, h4, h5⟩
  | cons w ws ih =>
    intro i s t h1 h2 h3 h4 h5
    unfold setWords
    split
    · exact ih _ _ _ (by simp [h1]) h2 h3 h4 h5
    · split
      · exact ih _ _ _ h1 (by simp [h2]) (by simp [h3]) (by simp [h4]) h5
      · exact ih _ _ _ h1 h2 h3 h4 h5

/-- Setting a command line forgets the one before: its words, its variables and their values. -/
theorem setCmd_forgets (s : St) (cmd : List Bytes) :
    (s.setCmd cmd).map (fun t => (t.cmd, t.argi, t.arg, t.val, t.shown)) =
      (({ size := s.size } : St).setCmd cmd).map (fun t => (t.cmd, t.argi, t.arg, t.val, t.shown)) := by
  unfold St.setCmd
  obtain ⟨h1, h2, h3, h4, h5⟩ := setWords_same cmd 0 { s with cmd := cmd, argi := [], arg := [], val := [] }
    { ({ size := s.size } : St) with cmd := cmd, argi := [], arg := [], val := [] } rfl rfl rfl rfl rfl
  generalize setWords 0 cmd { s with cmd := cmd, argi := [], arg := [], val := [] } = a at *
  generalize setWords 0 cmd { ({ size := s.size } : St) with cmd := cmd, argi := [], arg := [], val := [] } = b at *
  unfold St.runCmd St.haveAllArgVals
  rw [h1, h2, h4, h5]
  split
  · simp [h1, h2, h3, h4]
  · split
    · simp [h1, h2, h3, h4]
    · cases putVals b.argi b.val b.cmd with
      | none => rfl
      | some l => cases l <;> simp [h1, h2, h3, h4]

example : (({ cmd := [[0x24, 0x61]], argi := [0], arg := [[0x61]], val := [[0x62]], size := (80, 24) } : St).setCmd [[0x6C, 0x73]]).map
    (·.shown) = some (.ran [[0x6C, 0x73]]) := by decide +kernel

theorem setCmd_start (cmd : List Bytes) : ∃ s, ({} : St).setCmd cmd = some s ∧ Inv cmd s ∧ Cur cmd s ∧
    s.size = (0, 0) ∧ s.edid = 0 ∧ s.val = List.replicate (Spec.names cmd).length [] ∧ s.runs = [] := by
  have h1 := setWords_eq cmd [] { cmd := cmd } rfl
  have h2 : ({} : St).setCmd cmd = St.runCmd (setWords 0 cmd { cmd := cmd }) := rfl
  simp only [List.length_nil, List.nil_append] at h1
  rw [h2, h1]
  refine ⟨_, by unfold St.runCmd; simp; rfl, ⟨rfl, rfl, rfl, by simp, by simp⟩, ?_, rfl, rfl, rfl, rfl⟩
  simp [Cur, Spec.display]

theorem update_step (cmd : List Bytes) (s : St) (u : Upd) (h : Inv cmd s) (hc : Cur cmd s) :
    ∃ t, At cmd s u.x cmd.length t ∧
      s.update u.hud u.w u.h u.x =
        (if t.size = (u.w, u.h - Spec.top u) then some t
         else if u.w * (u.h - Spec.top u) < 0 then none
         else ({ t with size := (u.w, u.h - Spec.top u) } : St).runCmd) := by
  obtain ⟨t, h1, h2⟩ := words_all cmd s u.x h hc
  refine ⟨t, h2, ?_⟩
  unfold St.update
  rw [h1]
  rfl

theorem update_inv (cmd : List Bytes) (s s' : St) (u : Upd) (h : Inv cmd s) (hc : Cur cmd s)
    (hu : s.update u.hud u.w u.h u.x = some s') :
    Inv cmd s' ∧ Cur cmd s' ∧ s'.size = (u.w, u.h - Spec.top u) ∧
      ∃ t, At cmd s u.x cmd.length t ∧ s'.val = t.val ∧ s'.edid = t.edid ∧ s'.ed = t.ed := by
  obtain ⟨t, h1, h2⟩ := update_step cmd s u h hc
  rw [hu] at h2
  split at h2
  · next hs =>
    obtain rfl : s' = t := by simpa using h2
    exact ⟨h1.inv, h1.cur, hs, s', h1, rfl, rfl, rfl⟩
  · split at h2
    · exact absurd h2 (by simp)
    · have hi : Inv cmd { t with size := (u.w, u.h - Spec.top u) } :=
        ⟨h1.inv.words, h1.inv.argi, h1.inv.arg, h1.inv.val, h1.inv.runs⟩
      by_cases hne : cmd = []
      · have hr := runCmd_eq cmd _ hi
        rw [← h2] at hr
        split at hr
        · exact absurd hr (by simp)
        · next hp =>
          have hemp : ({ t with size := (u.w, u.h - Spec.top u) } : St).size.1 ≤ 0 ∨
              ({ t with size := (u.w, u.h - Spec.top u) } : St).size.2 ≤ 0 := by
            by_contra hh; exact hp ⟨hne, by omega, by omega⟩
          have hd : Spec.display cmd t.val (u.w, u.h - Spec.top u) = .nothing := if_pos hemp
          simp only [hd, Option.some.injEq] at hr
          subst hr
          exact ⟨⟨h1.inv.words, h1.inv.argi, h1.inv.arg, h1.inv.val, h1.inv.runs⟩, hd.symm, rfl, t, h1, rfl, rfl, rfl⟩
      · obtain ⟨v, k1, k2, k3, k4, k5, k6, k7⟩ := runCmd_some cmd _ hi hne
        rw [k1] at h2
        obtain rfl : s' = v := by simpa using h2
        exact ⟨k2, k3, k4, t, h1, k5, k6, k7⟩

theorem play_inv (cmd : List Bytes) (us : List Upd) (s s' : St) (h : Inv cmd s) (hc : Cur cmd s)
    (hp : play s us = some s') : Inv cmd s' ∧ Cur cmd s' ∧ (us ≠ [] → s'.size = Spec.area us) := by
  induction us generalizing s with
  | nil =>
    obtain rfl : s = s' := by simpa [play] using hp
    exact ⟨h, hc, by simp⟩
  | cons u us ih =>
    unfold play at hp
    obtain ⟨t, h1, h2⟩ := Option.bind_eq_some_iff.1 hp
    obtain ⟨k1, k2, k3, -⟩ := update_inv cmd s t u h hc h1
    obtain ⟨m1, m2, m3⟩ := ih t k1 k2 h2
    refine ⟨m1, m2, fun _ => ?_⟩
    by_cases hus : us = []
    · subst hus
      obtain rfl : t = s' := by simpa [play] using h2
      simp [Spec.area, k3]
    · rw [m3 hus]
      simp [Spec.area, List.getLast?_cons_of_ne_nil hus]

theorem run_inv (cmd : List Bytes) (us : List Upd) (s : St) (hr : run cmd us = some s) :
    Inv cmd s ∧ Cur cmd s ∧ s.size = Spec.area us := by
  obtain ⟨t, h1, h2, h3, h4, -⟩ := setCmd_start cmd
  unfold run at hr
  rw [h1] at hr
  obtain ⟨k1, k2, k3⟩ := play_inv cmd us t s h2 h3 hr
  refine ⟨k1, k2, ?_⟩
  by_cases hus : us = []
  · subst hus
    obtain rfl : t = s := by simpa [play] using hr
    exact h4
  · exact k3 hus

/-- Whatever the user has done, the output area shows the command with the present values: nothing
without room, a prompt while a value is missing, otherwise the outcome of the command line with every
variable replaced and every guarded dollar sign freed.  Every command that was ever run was the
command line with values for all its variables. -/
theorem shows_present (cmd : List Bytes) (us : List Upd) (s : St) (hr : run cmd us = some s) :
    s.shown = Spec.display cmd s.val (Spec.area us) ∧
    s.arg = Spec.names cmd ∧ s.val.length = (Spec.names cmd).length ∧
    ∀ a ∈ s.runs, ∃ vals : List Bytes, vals.length = (Spec.names cmd).length ∧ [] ∉ vals ∧
      a = Spec.expand cmd vals := by
  obtain ⟨h1, h2, h3⟩ := run_inv cmd us s hr
  exact ⟨by rw [← h3]; exact h2, h1.arg, h1.val, h1.runs⟩

/-- At first no variable has a value and nothing has been run. -/
theorem starts_empty (cmd : List Bytes) : ∃ s, run cmd [] = some s ∧
    s.val = List.replicate (Spec.names cmd).length [] ∧ s.edid = 0 ∧ s.runs = [] := by
  obtain ⟨t, h1, -, -, -, h2, h3, h4⟩ := setCmd_start cmd
  exact ⟨t, by simp [run, h1, play], h3, h2, h4⟩

/-- What an update does to the values: the variable whose edit is completed with some text gets that
text; all others stay.  The edit that goes on is that of the last chosen word. -/
theorem values_edited (cmd : List Bytes) (us : List Upd) (u : Upd) (s s' : St)
    (hr : run cmd us = some s) (hr' : run cmd (us ++ [u]) = some s') (i : Nat) (hi : i < cmd.length) :
    (Spec.isVar cmd[i] = true →
      (Spec.chosen s u.x i ∧ (Spec.edited cmd s u.x i).state = .done ∧ (Spec.edited cmd s u.x i).buf ≠ [] →
        Spec.value cmd s'.val i = (Spec.edited cmd s u.x i).buf) ∧
      (¬ (Spec.chosen s u.x i ∧ (Spec.edited cmd s u.x i).state = .done ∧ (Spec.edited cmd s u.x i).buf ≠ []) →
        Spec.value cmd s'.val i = Spec.value cmd s.val i) ∧
      (s'.edid = i + 1 → s'.ed = Spec.edited cmd s u.x i)) ∧
    (s'.edid = i + 1 ↔ Spec.chosen s u.x i ∧
      (∀ k, i < k → k < cmd.length → (u.x k).pressed = false) ∧
      (Spec.isVar cmd[i] = true → (Spec.edited cmd s u.x i).state = .ready)) := by
  have hplay : ∀ (us : List Upd) (t : St), play t (us ++ [u]) = (play t us).bind fun s => s.update u.hud u.w u.h u.x := by
    intro us
    induction us with
    | nil => intro t; simp [play]
    | cons v vs ih => intro t; simp [play, ih, Option.bind_assoc]
  obtain ⟨h1, h2, -⟩ := run_inv cmd us s hr
  have hu : s.update u.hud u.w u.h u.x = some s' := by
    unfold run at hr hr'
    obtain ⟨t, k1, k2⟩ := Option.bind_eq_some_iff.1 hr
    rw [k1] at hr'
    simpa [hplay, k2] using hr'
  obtain ⟨-, -, -, t, ha, hv, he, hl⟩ := update_inv cmd s s' u h1 h2 hu
  rw [hv, he, hl]
  refine ⟨fun hvar => ⟨?_, ?_, ha.line i hi hi hvar⟩, ha.past i hi hi⟩
  · rintro ⟨c1, c2, c3⟩
    exact (ha.val i hi hvar).1 ⟨hi, c1, c2, c3⟩
  · intro hn
    exact (ha.val i hi hvar).2 (fun hx => hn hx.2)

/-- With a command and screens that have room for the rows above the output, nothing fails. -/
theorem runs_on (cmd : List Bytes) (us : List Upd) (hc : cmd ≠ []) (hf : ∀ u ∈ us, Spec.fits u) :
    ∃ s, run cmd us = some s := by
  obtain ⟨t, h1, h2, h3, -⟩ := setCmd_start cmd
  have : ∀ us : List Upd, (∀ u ∈ us, Spec.fits u) → ∀ t, Inv cmd t → Cur cmd t → ∃ s, play t us = some s := by
    intro us
    induction us with
    | nil => exact fun _ t _ _ => ⟨t, rfl⟩
    | cons u us ih =>
      intro hf t hi hcur
      obtain ⟨v, k1, k2⟩ := update_step cmd t u hi hcur
      obtain ⟨w, hw⟩ : ∃ w, t.update u.hud u.w u.h u.x = some w := by
        rw [k2]
        split
        · exact ⟨_, rfl⟩
        · rw [if_neg]
          · obtain ⟨w, hw, -⟩ := runCmd_some cmd { v with size := (u.w, u.h - Spec.top u) }
              ⟨k1.inv.words, k1.inv.argi, k1.inv.arg, k1.inv.val, k1.inv.runs⟩ hc
            exact ⟨w, hw⟩
          · obtain ⟨f1, f2⟩ := hf u (by simp)
            have := mul_nonneg f1 (sub_nonneg.2 f2)
            omega
      obtain ⟨m1, m2, -⟩ := update_inv cmd t w u hi hcur hw
      obtain ⟨z, hz⟩ := ih (fun u hu => hf u (by simp [hu])) w m1 m2
      exact ⟨z, by simp [play, hw, hz]⟩
  obtain ⟨s, hs⟩ := this us hf t h2 h3
  exact ⟨s, by simp [run, h1, hs]⟩

/-- A value that is there cannot be taken away again. -/
theorem value_never_emptied (cmd : List Bytes) (us : List Upd) (u : Upd) (s s' : St)
    (hr : run cmd us = some s) (hr' : run cmd (us ++ [u]) = some s') (i : Nat) (hi : i < cmd.length)
    (hv : Spec.isVar cmd[i] = true) (hne : Spec.value cmd s.val i ≠ []) : Spec.value cmd s'.val i ≠ [] := by
  obtain ⟨h1, -⟩ := values_edited cmd us u s s' hr hr' i hi
  obtain ⟨h2, h3, -⟩ := h1 hv
  by_cases hc : Spec.chosen s u.x i ∧ (Spec.edited cmd s u.x i).state = .done ∧ (Spec.edited cmd s u.x i).buf ≠ []
  · rw [h2 hc]; exact hc.2.2
  · rw [h3 hc]; exact hne

theorem words_idle (x : Nat → In) (hx : ∀ k, (x k).pressed = false) (n i j : Nat) (s : St) (he : s.edid = 0) :
    words x n i j s = some s := by
  induction n generalizing i j with
  | zero => rfl
  | succ n ih =>
    have : s.word i j (x i) = some (s, if s.argi[j]? = some i then j + 1 else j) := by
      unfold St.word
      simp [hx, he]
    simp [words, this, ih]

theorem play_snoc (u : Upd) (us : List Upd) (t : St) :
    play t (us ++ [u]) = (play t us).bind fun s => s.update u.hud u.w u.h u.x := by
  induction us generalizing t with
  | nil => simp [play]
  | cons v vs ih => simp [play, ih, Option.bind_assoc]

theorem run_snoc (cmd : List Bytes) (us : List Upd) (u : Upd) (s : St) (hr : run cmd us = some s) :
    run cmd (us ++ [u]) = s.update u.hud u.w u.h u.x := by
  unfold run at hr ⊢
  obtain ⟨t, k1, k2⟩ := Option.bind_eq_some_iff.1 hr
  simp [k1, play_snoc, k2]

/-- An update without presses, without an edit and without a change of size changes nothing; in
particular the command is not run again. -/
theorem idle (cmd : List Bytes) (us : List Upd) (u : Upd) (s : St) (hr : run cmd us = some s)
    (hx : ∀ k, (u.x k).pressed = false) (he : s.edid = 0) (hs : Spec.area us = (u.w, u.h - Spec.top u)) :
    run cmd (us ++ [u]) = some s := by
  rw [run_snoc cmd us u s hr]
  obtain ⟨-, -, h3⟩ := run_inv cmd us s hr
  unfold St.update
  rw [words_idle u.x hx _ _ _ s he, Option.bind_some]
  exact if_pos (by rw [h3, hs]; rfl)

/-- The code falls short: a change of the screen's size alone runs the command again, whatever effects
it has. -/
theorem resize_reruns (cmd : List Bytes) (us : List Upd) (u : Upd) (s : St) (hr : run cmd us = some s)
    (hc : cmd ≠ []) (hx : ∀ k, (u.x k).pressed = false) (he : s.edid = 0)
    (hs : Spec.area us ≠ (u.w, u.h - Spec.top u)) (hw : 0 < u.w) (hh : Spec.top u < u.h) (hv : [] ∉ s.val) :
    ∃ s', run cmd (us ++ [u]) = some s' ∧ s'.runs = Spec.expand cmd s.val :: s.runs := by
  obtain ⟨h1, -, h3⟩ := run_inv cmd us s hr
  have hup : s.update u.hud u.w u.h u.x = ({ s with size := (u.w, u.h - Spec.top u) } : St).runCmd := by
    unfold St.update
    rw [words_idle u.x hx _ _ _ s he, Option.bind_some]
    have hp := mul_pos hw (sub_pos.2 hh)
    exact (if_neg (by rw [h3]; exact hs)).trans (if_neg (by change ¬ u.w * (u.h - Spec.top u) < 0; omega))
  rw [run_snoc cmd us u s hr, hup, runCmd_eq cmd { s with size := (u.w, u.h - Spec.top u) } ⟨h1.words, h1.argi, h1.arg, h1.val, h1.runs⟩, if_neg (by simp [hc])]
  refine ⟨_, rfl, ?_⟩
  have hd : Spec.display cmd s.val (u.w, u.h - Spec.top u) = .ran (Spec.expand cmd s.val) := by
    unfold Spec.display
    rw [if_neg (by simp only; omega), if_neg hv]
  simp [hd]

/-- The code falls short: without a command line there is no program to run, and the first update with
room for output panics. -/
theorem empty_panics (u : Upd) (hw : 0 < u.w) (hh : Spec.top u < u.h) : run [] [u] = none := by
  obtain ⟨t, h1, h2, h3, h4, -⟩ := setCmd_start []
  obtain ⟨v, k1, k2⟩ := update_step [] t u h2 h3
  have hp := mul_pos hw (sub_pos.2 hh)
  have hn : t.update u.hud u.w u.h u.x = none := by
    rw [k2, k1.size, h4, if_neg (by simp only [Prod.mk.injEq]; omega), if_neg (by omega),
      runCmd_eq [] { v with size := (u.w, u.h - Spec.top u) } ⟨k1.inv.words, k1.inv.argi, k1.inv.arg, k1.inv.val, k1.inv.runs⟩, if_pos ⟨rfl, hw, by simp only; omega⟩]
  simp [run, h1, play, hn]

/-- The code falls short: on a screen without room for the rows above the output, the output area is
given a negative height, which panics. -/
theorem small_screen_panics (cmd : List Bytes) (u : Upd) (hw : 0 < u.w) (hh : u.h < Spec.top u) :
    run cmd [u] = none := by
  obtain ⟨t, h1, h2, h3, h4, -⟩ := setCmd_start cmd
  obtain ⟨v, k1, k2⟩ := update_step cmd t u h2 h3
  have hp := mul_pos hw (sub_pos.2 hh)
  have hm : u.w * (u.h - Spec.top u) = - (u.w * (Spec.top u - u.h)) := by ring
  have hn : t.update u.hud u.w u.h u.x = none := by
    rw [k2, k1.size, h4, if_neg (by simp only [Prod.mk.injEq]; omega), if_pos (by omega)]
  simp [run, h1, play, hn]

/-- An input that presses word `i` and completes its edit with `b`. -/
def sample (i : Nat) (st : EState) (b : Bytes) : Nat → In :=
  fun k => if k = i then { pressed := true, upd := fun e => { e with state := st, buf := e.buf ++ b } } else {}

/-- The code falls short: giving up an edit runs the command again. -/
theorem cancel_reruns :
    (run [ascii "rm", ascii "$x"] [{ w := 9, h := 9, x := sample 1 .done (ascii "a") }]).map (·.runs) =
      some [[ascii "rm", ascii "a"]] ∧
    (run [ascii "rm", ascii "$x"] [{ w := 9, h := 9, x := sample 1 .done (ascii "a") },
      { w := 9, h := 9, x := sample 1 .canceled (ascii "b") }]).map (·.runs) =
      some [[ascii "rm", ascii "a"], [ascii "rm", ascii "a"]] := by
  decide +kernel

/-- The output area ends a row above the bottom of the screen: drawn from row `top` on, its last row is
the last but one. -/
theorem last_row_unused (cmd : List Bytes) (us : List Upd) (u : Upd) (s : St)
    (hr : run cmd (us ++ [u]) = some s) : s.size.1 = u.w ∧ Spec.top u + s.size.2 - 1 = u.h - 1 := by
  obtain ⟨-, -, h3⟩ := run_inv cmd _ s hr
  rw [h3]
  simp [Spec.area]

example : run [ascii "grep", ascii "$pat", ascii "\\$HOME", ascii "$file"]
    [{ w := 9, h := 9, x := sample 1 .done (ascii "x") }, { hud := true, w := 9, h := 9, x := sample 3 .done (ascii "f") }] ≠ none ∧
    (run [ascii "grep", ascii "$pat", ascii "\\$HOME", ascii "$file"]
      [{ w := 9, h := 9, x := sample 1 .done (ascii "x") }]).map (·.shown) = some .prompt ∧
    (run [ascii "grep", ascii "$pat", ascii "\\$HOME", ascii "$file"]
      [{ w := 9, h := 9, x := sample 1 .done (ascii "x") }, { hud := true, w := 9, h := 9, x := sample 3 .done (ascii "f") }]).map (·.shown) =
      some (.ran [ascii "grep", ascii "x", ascii "$HOME", ascii "f"]) := by decide +kernel
example : Spec.fits { w := 80, h := 24 } ∧ Spec.fits { hud := true, w := 80, h := 3 } := by
  simp [Spec.fits, Spec.top]
example : Spec.value [ascii "rm", ascii "$x"] [ascii "a"] 1 = ascii "a" := by decide +kernel
example : ((run [ascii "rm", ascii "$x"] [{ w := 9, h := 9, x := sample 1 .ready (ascii "a") }]).map (·.edid)) = some 2 := by
  decide +kernel

end Itr
end Anansi
