import Verif.Model.LogView
import Verif.Props.Log
import Verif.Lemmas.Runes
import Mathlib.Tactic.SplitIfs
/-
C51 Log view stays within the log; C68 Truncated text fits.
-/
set_option autoImplicit false

namespace Anansi

/-! ### What a log viewer should show -/
namespace Spec

/-- The finished lines of a text, without the newlines; `acc` is the beginning of the current
line, reversed. -/
def linesFrom : Bytes → Bytes → List Bytes
  | _, [] => []
  | acc, c :: r => if c = 0x0A then acc.reverse :: linesFrom [] r else linesFrom (c :: acc) r

def linesOf (b : Bytes) : List Bytes := linesFrom [] b

/-- The lines `start` to `e` of a text, counting from 1. -/
def window (b : Bytes) (start e : Nat) : List Bytes := ((linesOf b).take e).drop (start - 1)

end Spec

namespace Lgv
open Logs

/-! ### The loops -/

/-- The loop is done when its condition fails: the fuel is enough. -/
theorem growEnd_loop (lines n s : Int) (f : Nat) : ∀ e, lines - e ≤ f →
    growEnd lines n s f e = if e < lines ∧ e - s + 1 < n then growEnd lines n s f (e + 1) else e := by
  induction f with
  | zero => intro e h; rw [growEnd, growEnd]; split_ifs <;> omega
  | succ f ih =>
    intro e h
    rw [growEnd]
    by_cases hc : e < lines ∧ e - s + 1 < n
    · rw [if_pos hc, if_pos hc]
      conv_rhs => rw [growEnd]
      exact ih (e + 1) (by omega)
    · rw [if_neg hc, if_neg hc]

theorem growEnd_val (lines n s : Int) (f : Nat) : ∀ e, lines - e ≤ f → e ≤ lines → e - s + 1 ≤ n →
    growEnd lines n s f e = min lines (s + n - 1) := by
  induction f with
  | zero => intro e h1 h2 h3; rw [growEnd]; omega
  | succ f ih =>
    intro e h1 h2 h3
    rw [growEnd]
    by_cases hc : e < lines ∧ e - s + 1 < n
    · rw [if_pos hc]; exact ih _ (by omega) (by omega) (by omega)
    · rw [if_neg hc]; omega

/-- Likewise for the start. -/
theorem growStart_loop (n e : Int) (f : Nat) : ∀ s : Int, s - 1 ≤ f →
    growStart n e f s = if s > 1 ∧ e - s + 1 < n then growStart n e f (s - 1) else s := by
  induction f with
  | zero => intro s h; rw [growStart, growStart]; split_ifs <;> omega
  | succ f ih =>
    intro s h
    rw [growStart]
    by_cases hc : s > 1 ∧ e - s + 1 < n
    · rw [if_pos hc, if_pos hc]
      conv_rhs => rw [growStart]
      exact ih (s - 1) (by omega)
    · rw [if_neg hc, if_neg hc]

theorem growStart_val (n e : Int) (f : Nat) : ∀ s : Int, s - 1 ≤ f → 1 ≤ s → e - s + 1 ≤ n →
    growStart n e f s = max 1 (e - n + 1) := by
  induction f with
  | zero => intro s h1 h2 h3; rw [growStart]; omega
  | succ f ih =>
    intro s h1 h2 h3
    rw [growStart]
    by_cases hc : s > 1 ∧ e - s + 1 < n
    · rw [if_pos hc]; exact ih _ (by omega) (by omega) (by omega)
    · rw [if_neg hc]; omega

/-! ### The window -/

/-- The view follows the end, or is at an existing line. -/
def View.Within (v : View) (lines : Int) : Prop := 0 ≤ v.line ∧ v.line ≤ lines

/-- **C51**: whatever the scrolling, the position is afterwards at an existing line or
following the end. -/
theorem scroll_within (v : View) (lines delta : Int) (h : 1 ≤ lines) : (v.scrollBy lines delta).Within lines := by
  unfold View.Within View.scrollBy
  simp only
  split_ifs <;> omega

/-- Scrolling from an existing line goes as far as asked, unless the top or the end is
there. -/
theorem scroll_moves (v : View) (lines delta : Int) (h : 1 ≤ v.line) (h1 : 1 ≤ v.line + delta)
    (h2 : v.line + delta < lines) : (v.scrollBy lines delta).line = v.line + delta := by
  unfold View.scrollBy
  simp only
  split_ifs <;> omega

/-- **C51**: scrolling to the last line or beyond follows the end again; and at any other line
the view is kept from following the end. -/
theorem scroll_follows (v : View) (lines delta : Int) (h : 1 ≤ lines) :
    (v.scrollBy lines delta).line = 0 ↔ lines ≤ (if v.line = 0 then lines else v.line) + delta := by
  unfold View.scrollBy
  simp only
  split_ifs <;> omega

/-- **C51**: so after that new lines are shown as they come. -/
theorem follow_shows_last (v : View) (lines delta lines' n : Int) (h : 1 ≤ lines) (hd : lines ≤ v.line + delta) (h1 : 1 ≤ v.line) :
    ((v.scrollBy lines delta).window lines' n).2.2 = lines' := by
  have := (scroll_follows v lines delta h).mpr (by rw [if_neg (by omega)]; exact hd)
  unfold View.window
  rw [if_pos this]
  split <;> rfl

/-- From line 3 of 10, to the last line; 2 more come. -/
example : ((({ line := 3 } : View).scrollBy 10 7).window 12 5).2 = (8, 12) := by decide

/-- **C51**: the window is within the existing lines, is as long as the view (or the log, if
shorter), holds the line the view is at, or the last one if it follows the end; and the view
stays at an existing line. -/
theorem window_within (v : View) (lines n : Int) (hl : 1 ≤ lines) (hn : 1 ≤ n) (hv : v.Within lines) :
    1 ≤ (v.window lines n).2.1 ∧ (v.window lines n).2.1 ≤ (v.window lines n).2.2 ∧
    (v.window lines n).2.2 ≤ lines ∧
    (v.window lines n).2.2 - (v.window lines n).2.1 + 1 = min n lines ∧
    (v.line = 0 → (v.window lines n).2.2 = lines) ∧
    (v.line ≠ 0 → (v.window lines n).2.1 ≤ v.line ∧ v.line ≤ (v.window lines n).2.2) ∧
    (v.window lines n).1.Within lines := by
  obtain ⟨h0, h1⟩ := hv
  unfold View.window View.Within
  by_cases hz : v.line = 0
  · rw [if_pos hz]
    split_ifs <;> exact ⟨by simp only; omega, by simp only; omega, by simp only; omega, by simp only; omega, fun _ => rfl, fun h => absurd hz h, by simp only; omega, by simp only; omega⟩
  · rw [if_neg hz]
    simp only
    rw [growEnd_val _ _ _ _ _ (by omega) h1 (by omega), growStart_val _ _ _ _ (by omega) (by omega) (by omega)]
    exact ⟨by omega, by omega, by omega, by omega, fun h => absurd h hz, fun _ => by omega, by omega, by omega⟩

/-! ### What is shown -/

/-- The pieces between line ends, whatever they are. -/
def segs (c : Bytes) : Nat → List Nat → List Bytes
  | _, [] => []
  | off, e :: es => (c.drop off).take (e - off) :: segs c (e + 1) es

theorem segs_take (c : Bytes) (es : List Nat) : ∀ off m, segs c off (es.take m) = (segs c off es).take m := by
  induction es with
  | nil => intro off m; simp [segs]
  | cons e es ih =>
    intro off m
    cases m with
    | zero => rfl
    | succ m => rw [List.take_succ_cons, segs, segs, List.take_succ_cons, ih]

theorem segs_drop (c : Bytes) (es : List Nat) : ∀ off k, k ≤ es.length →
    (segs c off es).drop k = segs c (if 0 < k then es.getD (k - 1) 0 + 1 else off) (es.drop k) := by
  induction es with
  | nil => intro off k hk; simp only [List.length_nil] at hk; have : k = 0 := by omega
           subst this; rfl
  | cons e es ih =>
    intro off k hk
    cases k with
    | zero => rfl
    | succ k =>
      rw [segs, List.drop_succ_cons, List.drop_succ_cons, ih (e + 1) k (by simpa using hk), if_pos (Nat.succ_pos k)]
      congr 1
      cases k with
      | zero => rfl
      | succ k => rw [if_pos (Nat.succ_pos k)]; rfl

theorem segs_shift (c : Bytes) (k : Nat) (es : List Nat) : ∀ off,
    segs c (off + k) (es.map (· + k)) = segs (c.drop k) off es := by
  induction es with
  | nil => intro off; rfl
  | cons e es ih =>
    intro off
    rw [List.map_cons, segs, segs, List.drop_drop, Nat.add_comm k off, Nat.add_sub_add_right,
      show e + k + 1 = e + 1 + k from by omega, ih]

theorem linesFrom_append (a b : Bytes) (ha : ∀ x ∈ a, x ≠ 0x0A) : ∀ acc,
    Spec.linesFrom acc (a ++ 0x0A :: b) = (acc.reverse ++ a) :: Spec.linesFrom [] b := by
  induction a with
  | nil => intro acc; simp [Spec.linesFrom]
  | cons x a ih =>
    intro acc
    rw [List.cons_append, Spec.linesFrom, if_neg (ha x (by simp)), ih (fun y hy => ha y (List.mem_cons_of_mem x hy))]
    simp

theorem linesFrom_none (a : Bytes) (ha : ∀ x ∈ a, x ≠ 0x0A) : ∀ acc, Spec.linesFrom acc a = [] := by
  induction a with
  | nil => intro acc; rfl
  | cons x a ih =>
    intro acc
    rw [Spec.linesFrom, if_neg (ha x (by simp)), ih (fun y hy => ha y (List.mem_cons_of_mem x hy))]

theorem segs_newlines (n : Nat) : ∀ c : Bytes, c.length ≤ n → segs c 0 (newlines c) = Spec.linesOf c := by
  induction n with
  | zero =>
    intro c h
    have : c = [] := List.length_eq_zero_iff.mp (by omega)
    subst this; rfl
  | succ n ih =>
    intro c h
    cases hi : indexNL c with
    | none =>
      rw [newlines_none c hi, Spec.linesOf, linesFrom_none, segs]
      intro x hx
      unfold indexNL at hi
      rw [List.findIdx?_eq_none_iff] at hi
      simpa using hi x hx
    | some i =>
      obtain ⟨hl, hn⟩ := newlines_first c i hi
      rw [hn, segs, Nat.sub_zero, List.drop_zero]
      have := segs_shift c (i + 1) (newlines (c.drop (i + 1))) 0
      rw [Nat.zero_add] at this
      rw [this, ih _ (by simp; omega)]
      unfold indexNL at hi
      rw [List.findIdx?_eq_some_iff_getElem] at hi
      obtain ⟨_, h1, h2⟩ := hi
      have e : c = c.take i ++ 0x0A :: c.drop (i + 1) := by
        conv_lhs => rw [← List.take_append_drop i c, List.drop_eq_getElem_cons hl]
        have : c[i] = 0x0A := by simpa using h1
        rw [this]
      unfold Spec.linesOf
      conv_rhs => rw [e]
      rw [linesFrom_append]
      · rfl
      · intro x hx
        obtain ⟨j, hj, rfl⟩ := List.mem_iff_getElem.mp hx
        rw [List.length_take] at hj
        rw [List.getElem_take]
        simpa using h2 j (by omega)

/-- There is a line for every line end. -/
theorem linesOf_length (c : Bytes) : (Spec.linesOf c).length = (newlines c).length := by
  rw [← segs_newlines _ c (Nat.le_refl _)]
  have : ∀ (es : List Nat) off, (segs c off es).length = es.length := by
    intro es
    induction es with
    | nil => intro off; rfl
    | cons e es ih => intro off; rw [segs, List.length_cons, ih, List.length_cons]
  exact this _ _

/-- Going through line ends in order stays within the text. -/
theorem cut_ok (c : Bytes) (es : List Nat) : ∀ off, (∀ x ∈ es, off ≤ x) → es.Pairwise (· < ·) →
    (∀ x ∈ es, x < c.length) → cut c off es = some (segs c off es) := by
  induction es with
  | nil => intro off _ _ _; rfl
  | cons e es ih =>
    intro off h1 h2 h3
    rw [List.pairwise_cons] at h2
    rw [cut, if_pos ⟨h1 e (by simp), Nat.le_of_lt (h3 e (by simp))⟩,
      ih (e + 1) (fun x hx => h2.1 x hx) h2.2 (fun x hx => h3 x (List.mem_cons_of_mem e hx))]
    rfl

theorem newlines_sorted (c : Bytes) : (newlines c).Pairwise (· < ·) :=
  List.Pairwise.filter _ List.pairwise_lt_range

/-- **C51**: for a window within the log, the slices taken of the log are in bounds, and are
the lines of the window. -/
theorem shown_lines (s : Sink) (hs : s.Exact) (start e : Nat) (h1 : 1 ≤ start) (h2 : start ≤ e)
    (h3 : e ≤ s.eols.length) : shown s start e = some (Spec.window s.buf start e) := by
  unfold shown
  rw [if_neg (by omega)]
  simp only
  unfold Spec.window
  rw [← segs_newlines _ s.buf (Nat.le_refl _), ← hs]
  have e1 : ((start : Int) - 1).toNat = start - 1 := by omega
  have e2 : ((e : Int) - (start - 1)).toNat = e - (start - 1) := by omega
  rw [e1, e2, ← segs_take, segs_drop _ _ _ _ (by rw [List.length_take]; omega), List.drop_take]
  have e3 : (if (start : Int) > 1 then s.eols.getD ((start : Int) - 2).toNat 0 + 1 else 0) =
      (if 0 < start - 1 then (s.eols.take e).getD (start - 1 - 1) 0 + 1 else 0) := by
    by_cases h : start = 1
    · rw [if_neg (by omega), if_neg (by omega)]
    · rw [if_pos (by omega), if_pos (by omega), show ((start : Int) - 2).toNat = start - 1 - 1 from by omega,
        List.getD_eq_getElem?_getD, List.getD_eq_getElem?_getD, List.getElem?_take, if_pos (by omega)]
  rw [e3]
  apply cut_ok
  · intro x hx
    by_cases h : start = 1
    · rw [if_neg (by omega)]; omega
    · rw [if_pos (by omega)]
      have hx' := List.mem_of_mem_take hx
      obtain ⟨j, hj, rfl⟩ := List.mem_iff_getElem.mp hx'
      rw [List.length_drop] at hj
      rw [List.getElem_drop, List.getD_eq_getElem?_getD, List.getElem?_take, if_pos (by omega),
        List.getElem?_eq_getElem (by omega)]
      have hp : s.eols.Pairwise (· < ·) := by rw [hs]; exact newlines_sorted _
      have := List.pairwise_iff_getElem.mp hp (start - 1 - 1) (start - 1 + j) (by omega) (by omega) (by omega)
      simp only [Option.getD_some]
      omega
  · exact List.Pairwise.sublist ((List.take_sublist _ _).trans (List.drop_sublist _ _)) (by rw [hs]; exact newlines_sorted _)
  · intro x hx
    apply newlines_lt
    rw [← hs]
    exact List.mem_of_mem_drop (List.mem_of_mem_take hx)

/-- A viewer as it can be after its first frame, or before: a number of lines of at least 1 (0
is for the default), and a position. -/
def View.Good (v : View) (lines : Nat) : Prop := 0 ≤ v.viewLines ∧ v.Within lines

/-- The height of the view in a frame. -/
def View.height (v : View) (presses : Nat) : Nat :=
  if xor v.expanded (presses % 2 = 1) then (if v.viewLines = 0 then 10 else v.viewLines.toNat) else 1

/-- **C51**: a frame of the log viewer on a log of whole lines, whatever the presses and the
scrolling, does not panic, and shows consecutive lines of the log, as many as the view is high
(or as there are). -/
theorem update_shows (v : View) (s : Sink) (presses : Nat) (delta : Int) (hs : s.Exact)
    (hv : v.Good s.eols.length) :
    ∃ v' start e, v.update s presses delta = some (v', Spec.window s.buf start e) ∧ v'.Good s.eols.length ∧
      e ≤ s.eols.length ∧ (s.eols ≠ [] → 1 ≤ start ∧ start ≤ e) ∧ (s.eols = [] → e = 0) ∧
      e + 1 - start = min (v.height presses) s.eols.length := by
  obtain ⟨hvl, hw⟩ := hv
  have key : ∀ (u : View) (n : Int), (u.viewLines : Int) ≥ 1 → u.Within s.eols.length → 1 ≤ n →
      ∃ v' start e, (if (s.eols.length : Int) ≤ 0 then some (u, []) else
        let u := if delta ≠ 0 then u.scrollBy s.eols.length delta else u
        let r := u.window s.eols.length n
        (shown s r.2.1 r.2.2).map fun l => (r.1, l)) = some (v', Spec.window s.buf start e) ∧
        v'.Good s.eols.length ∧ e ≤ s.eols.length ∧ (s.eols ≠ [] → 1 ≤ start ∧ start ≤ e) ∧
        (s.eols = [] → e = 0) ∧ (e : Int) + 1 - start = min n s.eols.length ∧ start ≤ e + 1 := by
    intro u n hu huw hn
    by_cases hz : (s.eols.length : Int) ≤ 0
    · rw [if_pos hz]
      have : s.eols = [] := List.length_eq_zero_iff.mp (by omega)
      refine ⟨u, 1, 0, by simp [Spec.window], ⟨by omega, huw⟩, by omega, fun h => absurd this h, fun _ => rfl, ?_, by omega⟩
      rw [this, List.length_nil]; omega
    · rw [if_neg hz]
      simp only
      generalize hu2 : (if delta ≠ 0 then u.scrollBy s.eols.length delta else u) = u2
      have hu2w : u2.Within s.eols.length := by
        rw [← hu2]
        by_cases hd : delta ≠ 0
        · rw [if_pos hd]; exact scroll_within _ _ _ (by omega)
        · rw [if_neg hd]; exact huw
      have hu2v : u2.viewLines = u.viewLines := by
        rw [← hu2]
        by_cases hd : delta ≠ 0
        · rw [if_pos hd]; rfl
        · rw [if_neg hd]
      obtain ⟨w1, w2, w3, w4, _, _, w7⟩ := window_within u2 s.eols.length n (by omega) hn hu2w
      have hwv : (u2.window s.eols.length n).1.viewLines = u2.viewLines := by
        unfold View.window
        split_ifs <;> rfl
      generalize u2.window s.eols.length n = r at *
      have a1 : r.2.1 = ((r.2.1.toNat : Nat) : Int) := by omega
      have a2 : r.2.2 = ((r.2.2.toNat : Nat) : Int) := by omega
      refine ⟨r.1, r.2.1.toNat, r.2.2.toNat, ?_, ⟨by omega, w7⟩, by omega, fun _ => by omega,
        fun h => by rw [h] at hz; simp at hz, by omega, by omega⟩
      have := shown_lines s hs r.2.1.toNat r.2.2.toNat (by omega) (by omega) (by omega)
      rw [← a1, ← a2] at this
      rw [this]
      rfl
  unfold View.update View.height
  simp only
  obtain ⟨v', start, e, k1, k2, k3, k4, k5, k6, k8⟩ := key (v.begin presses)
    (if (v.begin presses).expanded then (v.begin presses).viewLines else 1)
    (by unfold View.begin; simp only; split_ifs <;> omega) hw
    (by unfold View.begin; simp only; split_ifs <;> omega)
  refine ⟨v', start, e, k1, k2, k3, k4, k5, ?_⟩
  have : ((e + 1 - start : Nat) : Int) = e + 1 - start := by omega
  have k7 := this.trans k6
  unfold View.begin at k7
  by_cases h1 : v.viewLines = 0 <;> by_cases h2 : presses % 2 = 1 <;> cases h3 : v.expanded <;>
    simp [h1, h2, h3] at k7 ⊢ <;> omega

/-- The call is a write of whole lines. -/
def Act.Writes : Act → Prop
  | .frame _ _ => True
  | .call (.write p) => WholeLines p
  | .call (.read _) => False

/-- Writing whole lines only adds lines. -/
theorem write_grows (s s' : Sink) (p : Bytes) (h : s.Exact) (h' : s'.Exact) (hb : s'.buf = s.buf ++ p) :
    s.eols.length ≤ s'.eols.length := by
  rw [h, h', hb, newlines_append, List.length_append]; omega

/-- **C51**: whatever scrolling is requested, and whatever is logged in between, no frame
panics, and every frame shows consecutive existing lines, not more than the view is high; as
long as nothing is read out of the log. -/
theorem run_shows_partial (acts : List Act) : ∀ (v : View) (s : Sink), s.Exact → v.Good s.eols.length →
    (∀ a ∈ acts, a.Writes) →
    ∃ v' s' fr, run v s acts = some (v', s', fr) ∧ s'.Exact ∧ v'.Good s'.eols.length ∧
      ∀ f ∈ fr, ∃ (pre : List Bytes) (post : List Bytes), pre ++ f ++ post = Spec.linesOf s'.buf := by
  induction acts with
  | nil => intro v s hs hv _; exact ⟨v, s, [], rfl, hs, hv, fun f hf => by cases hf⟩
  | cons a acts ih =>
    intro v s hs hv ha
    have ha1 := ha a (by simp)
    have ha2 := fun x hx => ha x (List.mem_cons_of_mem a hx)
    cases a with
    | frame p d =>
      obtain ⟨v1, st, e, u1, u2, _⟩ := update_shows v s p d hs hv
      obtain ⟨v2, s2, fr, r1, r2, r3, r4⟩ := ih v1 s hs u2 ha2
      have hpre : ∃ q, s2.buf = s.buf ++ q := by
        have : ∀ (acts : List Act) (v : View) (s : Sink) v' s' fr, run v s acts = some (v', s', fr) →
            (∀ a ∈ acts, a.Writes) → s.Exact → ∃ q, s'.buf = s.buf ++ q := by
          intro acts
          induction acts with
          | nil =>
            intro v s v' s' fr h _ _
            simp only [run, Option.some.injEq, Prod.mk.injEq] at h
            exact ⟨[], by rw [← h.2.1, List.append_nil]⟩
          | cons a acts ih =>
            intro v s v' s' fr h hw hs
            have hw2 := fun x hx => hw x (List.mem_cons_of_mem a hx)
            cases a with
            | frame p d =>
              rw [run] at h
              obtain ⟨r, _, h⟩ := Option.bind_eq_some_iff.mp h
              obtain ⟨q, hq, h⟩ := Option.map_eq_some_iff.mp h
              simp only [Prod.mk.injEq] at h
              obtain ⟨q1, q2, q3⟩ := q
              obtain ⟨_, rfl, _⟩ := h
              exact ih _ _ _ _ _ hq hw2 hs
            | call c =>
              cases c with
              | read k => exact absurd (hw _ (List.mem_cons_self ..)) (by simp [Act.Writes])
              | write p =>
                rw [run] at h
                obtain ⟨s1, h1, h⟩ := Option.bind_eq_some_iff.mp h
                obtain ⟨s1', e1, x1, b1⟩ := write_exact s p hs (hw (.call (.write p)) (List.mem_cons_self ..))
                rw [Sink.call, e1] at h1
                cases h1
                obtain ⟨q, hq⟩ := ih _ _ _ _ _ h hw2 x1
                exact ⟨p ++ q, by rw [hq, b1, List.append_assoc]⟩
        exact this _ _ _ _ _ _ r1 ha2 hs
      refine ⟨v2, s2, Spec.window s.buf st e :: fr, ?_, r2, r3, ?_⟩
      · rw [run, u1]; simp only [Option.bind_some]; rw [r1]; rfl
      · intro f hf
        rcases List.mem_cons.mp hf with rfl | hf
        · obtain ⟨q, hq⟩ := hpre
          have hlo : ∃ z, Spec.linesOf s2.buf = Spec.linesOf s.buf ++ z := by
            rw [hq]
            have : ∀ (a : Bytes) acc, ∃ z, Spec.linesFrom acc (a ++ q) = Spec.linesFrom acc a ++ z := by
              intro a
              induction a with
              | nil => intro acc; exact ⟨_, by rw [Spec.linesFrom, List.nil_append, List.nil_append]⟩
              | cons x a ih =>
                intro acc
                rw [List.cons_append, Spec.linesFrom, Spec.linesFrom]
                by_cases hx : x = 0x0A
                · rw [if_pos hx, if_pos hx]
                  obtain ⟨z, hz⟩ := ih []
                  exact ⟨z, by rw [hz, List.cons_append]⟩
                · rw [if_neg hx, if_neg hx]; exact ih _
            exact this _ _
          obtain ⟨z, hz⟩ := hlo
          refine ⟨((Spec.linesOf s.buf).take e).take (st - 1), (Spec.linesOf s.buf).drop e ++ z, ?_⟩
          unfold Spec.window
          rw [List.take_append_drop, ← List.append_assoc, List.take_append_drop, hz]
        · exact r4 f hf
    | call c =>
      cases c with
      | read k => exact absurd ha1 (by simp [Act.Writes])
      | write p =>
        obtain ⟨s1, e1, x1, b1⟩ := write_exact s p hs ha1
        have hg : v.Good s1.eols.length := by
          have := write_grows s s1 p hs x1 b1
          obtain ⟨g1, g2, g3⟩ := hv
          exact ⟨g1, g2, by omega⟩
        obtain ⟨v2, s2, fr, r1, r2, r3, r4⟩ := ih v s1 x1 hg ha2
        exact ⟨v2, s2, fr, by rw [run, Sink.call, e1]; exact r1, r2, r3, r4⟩

/-- Four lines logged, the view expanded to two lines, scrolled up by one. -/
def four : Sink := ⟨[0x61, 0x0A, 0x62, 0x62, 0x0A, 0x0A, 0x64, 0x0A], [1, 4, 5, 7]⟩

example : four.Exact ∧ (⟨2, true, 0⟩ : View).Good four.eols.length ∧
    (⟨2, true, 0⟩ : View).update four 0 (-2) = some (⟨2, true, 2⟩, [[0x62, 0x62], []]) ∧
    Spec.window four.buf 2 3 = [[0x62, 0x62], []] := by
  refine ⟨by unfold Sink.Exact; decide, ⟨by decide, by decide, by decide⟩, by decide, by decide⟩

example : ∃ r, run {} {} [.call (.write [0x61, 0x0A]), .frame 1 0, .call (.write [0x62, 0x0A, 0x63, 0x0A]), .frame 0 (-1)]
    = some r ∧ r.2.2 = [[[0x61]], [[0x61], [0x62], [0x63]]] := ⟨_, rfl, by decide⟩

/-- Negation for **C51**: after lines have been read out of the log, a view that was scrolled
up may be at a line that is not there any more, and the frame panics. -/
theorem read_out_panics : ∃ (v : View) (s : Sink), s.Exact ∧ v.Good s.eols.length ∧
    ∃ v', v.update s 0 1 = some (v', [[0x64]]) ∧ (s.read 7).1.Exact ∧ (s.read 7).1.eols ≠ [] ∧
      v'.update (s.read 7).1 0 0 = none :=
  ⟨⟨1, true, 3⟩, ⟨[0x61, 0x0A, 0x62, 0x62, 0x0A, 0x0A, 0x64, 0x0A, 0x65, 0x0A], [1, 4, 5, 7, 9]⟩,
    by unfold Sink.Exact; decide, ⟨by decide, by decide, by decide⟩, ⟨1, true, 4⟩, by decide, by unfold Sink.Exact; decide, by decide, by decide⟩

/-- Negation for **C51**: with a negative number of lines (the field is exported) a frame
panics. -/
theorem negative_view_panics : ∃ (v : View), four.Exact ∧ v.Within four.eols.length ∧ v.update four 0 0 = none :=
  ⟨⟨-1, true, 0⟩, by unfold Sink.Exact; decide, ⟨by decide, by decide⟩, by decide⟩

/-! ### Truncated text -/

/-- What a text cut to a width of `w` cells should be. -/
def Spec.fit (w : Nat) (rs : List Nat) : List Nat := if rs.length ≤ w then rs else rs.take (w - 1) ++ [0x2026]

/-- **C68**: a text of valid runes is written whole if it fits the width; otherwise as many
runes as fit before an ellipsis. -/
theorem truncated_fits (w : Nat) (rs : List Nat) (hw1 : 1 ≤ w) (h : ∀ r ∈ rs, validRune r = true) :
    truncated w (encodeRunes rs) = encodeRunes (Spec.fit w rs) := by
  unfold truncated Spec.fit
  rw [runeCount_encodeRunes rs h]
  by_cases hw : rs.length ≤ w
  · rw [if_neg (by omega), if_pos hw]
  · rw [if_pos (by omega), if_neg hw, dropLastRunes_encodeRunes _ rs h (by omega), encodeRunes_append]
    congr 2
    rw [show rs.length - ((rs.length : Int) - w + 1).toNat = w - 1 from by omega]

/-- **C68**: so it is never wider than a width of at least one. -/
theorem fit_length (w : Nat) (rs : List Nat) (hw : 1 ≤ w) : (Spec.fit w rs).length ≤ w := by
  unfold Spec.fit
  split_ifs
  · assumption
  · simp; omega

/-- "abcd" in three cells. -/
example : truncated 3 (encodeRunes [0x61, 0x62, 0x63, 0x64]) = encodeRunes [0x61, 0x62, 0x2026] := by decide

/-- Negation for **C68**: in no cells, there is still the ellipsis. -/
theorem no_room_ellipsis : truncated 0 [0x61] = encodeRunes [0x2026] := by decide

end Lgv
end Anansi
