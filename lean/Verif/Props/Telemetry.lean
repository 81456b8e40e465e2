import Verif.Model.Telemetry
import Mathlib.Data.List.Sort
import Mathlib.Algebra.BigOperators.Group.List.Basic
import Mathlib.Tactic.Linarith
/-
C82: frame timing statistics.  C83: timing at any frame rate.  C84: stall statistics.
-/
set_option autoImplicit false

namespace Anansi
namespace Tel

namespace Spec

/-- The times between consecutive times. -/
def gaps : List Int → List Int
  | a :: b :: l => (b - a) :: gaps (b :: l)
  | _ => []

/-- The times a round is about: its frames, after the last frame before, if there was one. -/
def times (prev : Int) (l : List Int) : List Int := if prev = 0 then l else prev :: l

/-- The least of some durations. -/
def Least (m : Int) (l : List Int) : Prop := m ∈ l ∧ ∀ d ∈ l, m ≤ d

/-- The greatest of some durations. -/
def Greatest (m : Int) (l : List Int) : Prop := m ∈ l ∧ ∀ d ∈ l, d ≤ m

/-- Quartile number `k`: at most `k` quarters of the durations are less, and at least `k`
quarters are not greater. -/
def Quartile (k : Nat) (m : Int) (l : List Int) : Prop :=
  4 * l.countP (· < m) ≤ k * l.length ∧ k * l.length ≤ 4 * l.countP (· ≤ m)

instance (k : Nat) (m : Int) (l : List Int) : Decidable (Quartile k m l) := by unfold Quartile; infer_instance

end Spec
open Spec

/-! ### C82 -/

/-- The durations of a round as stored: the code puts a zero for the first frame ever. -/
def stored (prev : Int) (l : List Int) : List Int := if prev = 0 then 0 :: gaps l else gaps (prev :: l)

/-- A step of the first pass. -/
def step (s : Stats) (d : Int) : Stats :=
  if s.elapsed = 0 then { s with min := d, max := d, elapsed := d }
  else { s with elapsed := s.elapsed + d,
                min := if s.min > d then d else s.min,
                max := if s.max < d then d else s.max }

theorem pass_prev (l : List Int) : ∀ (prev : Int) (s : Stats), prev ≠ 0 → (∀ t ∈ l, t ≠ 0) →
    pass prev s l = (gaps (prev :: l), (gaps (prev :: l)).foldl step s) := by
  induction l with
  | nil => intros; rfl
  | cons t l ih =>
    intro prev s hp hl
    have h := ih t (step s (t - prev)) (hl t (by simp)) (fun x hx => hl x (List.mem_cons_of_mem _ hx))
    unfold pass
    simp only [if_neg hp]
    unfold step at h
    rw [h]
    rfl

theorem pass_stored (prev t : Int) (l : List Int) (s : Stats) (hl : ∀ x ∈ t :: l, x ≠ 0) :
    pass prev s (t :: l) = (stored prev (t :: l), (stored prev (t :: l)).foldl step s) := by
  by_cases hp : prev = 0
  · have h := pass_prev l t (step s 0) (hl t (by simp)) (fun x hx => hl x (List.mem_cons_of_mem _ hx))
    unfold pass stored
    simp only [if_pos hp]
    unfold step at h
    rw [h]
    rfl
  · rw [pass_prev _ prev s hp hl]
    unfold stored
    rw [if_neg hp]

theorem gaps_length (l : List Int) : ∀ a, (gaps (a :: l)).length = l.length := by
  induction l with
  | nil => intro a; rfl
  | cons b l ih => intro a; simp [gaps, ih b]

theorem gaps_sum (l : List Int) : ∀ a, (gaps (a :: l)).sum = (a :: l).getLast (by simp) - a := by
  induction l with
  | nil => intro a; simp [gaps]
  | cons b l ih =>
    intro a
    simp only [gaps, List.sum_cons, ih b]
    rw [List.getLast_cons (List.cons_ne_nil b l)]
    omega

theorem stored_length (prev t : Int) (l : List Int) : (stored prev (t :: l)).length = (t :: l).length := by
  unfold stored
  split
  · simp [gaps_length]
  · exact gaps_length _ _

theorem fold_time (l : List Int) : ∀ s : Stats, (l.foldl step s).time = s.time := by
  induction l with
  | nil => intro s; rfl
  | cons d l ih => intro s; rw [List.foldl_cons, ih]; unfold step; split <;> rfl

/-- The pass over positive durations, once it has begun. -/
theorem fold_pos (l : List Int) : ∀ (s : Stats), 0 < s.elapsed → (∀ d ∈ l, 0 < d) →
    (l.foldl step s).elapsed = s.elapsed + l.sum ∧
    Least (l.foldl step s).min (s.min :: l) ∧ Greatest (l.foldl step s).max (s.max :: l) := by
  induction l with
  | nil => intro s _ _; simp [Least, Greatest]
  | cons d l ih =>
    intro s hs hl
    have hd := hl d (by simp)
    have e : step s d = { s with elapsed := s.elapsed + d,
                                 min := if s.min > d then d else s.min,
                                 max := if s.max < d then d else s.max } := by
      unfold step; rw [if_neg (by omega)]
    have e1 : (step s d).elapsed = s.elapsed + d := by rw [e]
    have e2 : ((step s d).min = d ∨ (step s d).min = s.min) ∧ (step s d).min ≤ d ∧ (step s d).min ≤ s.min := by
      rw [e]; simp only; split <;> omega
    have e3 : ((step s d).max = d ∨ (step s d).max = s.max) ∧ d ≤ (step s d).max ∧ s.max ≤ (step s d).max := by
      rw [e]; simp only; split <;> omega
    obtain ⟨h1, ⟨h2, h3⟩, h4, h5⟩ := ih (step s d) (by rw [e1]; omega)
      (fun x hx => hl x (List.mem_cons_of_mem _ hx))
    rw [List.foldl_cons]
    refine ⟨?_, ⟨?_, ?_⟩, ?_, ?_⟩
    · rw [h1, e1, List.sum_cons]; omega
    · rcases List.mem_cons.1 h2 with h2 | h2
      · rw [h2]; rcases e2.1 with h | h <;> rw [h] <;> simp
      · simp [h2]
    · intro x hx
      have hm := h3 (step s d).min (by simp)
      rcases List.mem_cons.1 hx with rfl | hx
      · omega
      · rcases List.mem_cons.1 hx with rfl | hx
        · omega
        · exact h3 x (List.mem_cons_of_mem _ hx)
    · rcases List.mem_cons.1 h4 with h4 | h4
      · rw [h4]; rcases e3.1 with h | h <;> rw [h] <;> simp
      · simp [h4]
    · intro x hx
      have hm := h5 (step s d).max (by simp)
      rcases List.mem_cons.1 hx with rfl | hx
      · omega
      · rcases List.mem_cons.1 hx with rfl | hx
        · omega
        · exact h5 x (List.mem_cons_of_mem _ hx)

/-- The pass from the start over positive durations. -/
theorem fold_start (d : Int) (l : List Int) (s : Stats) (hs : s.elapsed = 0) (hl : ∀ x ∈ d :: l, 0 < x) :
    ((d :: l).foldl step s).elapsed = (d :: l).sum ∧
    Least ((d :: l).foldl step s).min (d :: l) ∧ Greatest ((d :: l).foldl step s).max (d :: l) := by
  have hd := hl d (by simp)
  have e : step s d = { s with min := d, max := d, elapsed := d } := by unfold step; rw [if_pos hs]
  have h := fold_pos l (step s d) (by rw [e]; exact hd) (fun x hx => hl x (List.mem_cons_of_mem _ hx))
  rw [List.foldl_cons, List.sum_cons]
  rw [e] at h ⊢
  exact h

/-- Position `j` in a sorted list, counted. -/
theorem sorted_count (l : List Int) (hs : l.Pairwise (· ≤ ·)) : ∀ (j : Nat) (m : Int), l[j]? = some m →
    l.countP (· < m) ≤ j ∧ j < l.countP (· ≤ m) := by
  induction l with
  | nil => intro j m h; simp at h
  | cons a l ih =>
    intro j m h
    obtain ⟨ha, hl⟩ := List.pairwise_cons.1 hs
    cases j with
    | zero =>
      simp only [List.getElem?_cons_zero, Option.some.injEq] at h
      subst h
      refine ⟨?_, ?_⟩
      · rw [Nat.le_zero, List.countP_eq_zero]
        intro x hx
        rcases List.mem_cons.1 hx with rfl | hx
        · simp
        · have := ha x hx; simpa using this
      · exact List.countP_pos_iff.2 ⟨a, by simp, by simp⟩
    | succ j =>
      rw [List.getElem?_cons_succ] at h
      obtain ⟨h1, h2⟩ := ih hl j m h
      have ham : a ≤ m := ha m (List.mem_of_getElem? h)
      rw [List.countP_cons, List.countP_cons]
      simp only [decide_eq_true_eq, if_pos ham]
      refine ⟨?_, by omega⟩
      split <;> omega

/-- Filling part of a round. -/
theorem fill (l : List Int) : ∀ (td : Timing), td.i + l.length < td.ts.length →
    td.updates l = some ({ td with i := td.i + l.length,
                                   ts := td.ts.take td.i ++ l ++ td.ts.drop (td.i + l.length) },
      List.replicate l.length false) := by
  induction l with
  | nil => intro td _; simp [Timing.updates]
  | cons t l ih =>
    intro td h
    simp only [List.length_cons] at h
    have hu : td.update t = some ({ td with ts := td.ts.set td.i t, i := td.i + 1 }, false) := by
      unfold Timing.update
      rw [if_pos (by omega)]
      simp only [List.length_set]
      rw [Nat.mod_eq_of_lt (by omega), if_pos (by omega)]
    have hi := ih { td with ts := td.ts.set td.i t, i := td.i + 1 } (by simp only [List.length_set]; omega)
    unfold Timing.updates
    rw [hu, Option.bind_some, hi]
    simp only [Option.map_some, List.length_cons, List.replicate_succ, Option.some.injEq, Prod.mk.injEq,
      and_true, Timing.mk.injEq, true_and]
    refine ⟨by omega, ?_⟩
    rw [List.set_eq_take_append_cons_drop, if_pos (by omega)]
    have hlen : (td.ts.take td.i).length = td.i := by simp; omega
    generalize td.ts.take td.i = A at hlen ⊢
    rw [List.take_append, List.drop_append, hlen]
    rw [List.take_of_length_le (by omega : A.length ≤ td.i + 1),
      List.drop_eq_nil_of_le (by omega : A.length ≤ td.i + 1 + l.length)]
    rw [show td.i + 1 - td.i = 1 by omega, show td.i + 1 + l.length - td.i = l.length + 1 by omega]
    simp only [List.take_succ_cons, List.take_zero, List.drop_succ_cons, List.drop_drop, List.nil_append,
      List.append_assoc, List.cons_append]
    rw [show td.i + 1 + l.length = td.i + (l.length + 1) by omega]

theorem updates_append (a b : List Int) : ∀ td : Timing, td.updates (a ++ b) =
    (td.updates a).bind fun r => (r.1.updates b).map fun q => (q.1, r.2 ++ q.2) := by
  induction a with
  | nil => intro td; cases h : td.updates b <;> simp [Timing.updates, h]
  | cons t a ih =>
    intro td
    simp only [List.cons_append, Timing.updates]
    cases h : td.update t with
    | none => rfl
    | some r =>
      simp only [Option.bind_some, ih]
      cases r.1.updates a with
      | none => rfl
      | some q =>
        simp only [Option.bind_some, Option.map_some]
        cases q.1.updates b <;> rfl

/-- The durations of a round, sorted. -/
def sorted (prev : Int) (l : List Int) : List Int := (stored prev l).insertionSort (· ≤ ·)

/-- A whole round. -/
theorem round (td : Timing) (l : List Int) (t : Int) (hi : td.i = 0) (ht : td.ts.length = l.length + 1)
    (hd : td.ds.length = l.length + 1) (hz : ∀ x ∈ l ++ [t], x ≠ 0) :
    ∃ q1 q2 q3 : Int,
      td.updates (l ++ [t]) = some (⟨{ ((stored td.stats.time (l ++ [t])).foldl step { time := t }) with q1 := q1, q2 := q2, q3 := q3 },
        0, l ++ [t], sorted td.stats.time (l ++ [t])⟩,
        List.replicate l.length false ++ [true]) ∧
      (sorted td.stats.time (l ++ [t]))[1 * (td.ts.length / 4)]? = some q1 ∧
      (sorted td.stats.time (l ++ [t]))[2 * (td.ts.length / 4)]? = some q2 ∧
      (sorted td.stats.time (l ++ [t]))[3 * (td.ts.length / 4)]? = some q3 := by
  have hpass : pass td.stats.time { time := t } (l ++ [t]) =
      (stored td.stats.time (l ++ [t]), (stored td.stats.time (l ++ [t])).foldl step { time := t }) := by
    cases l with
    | nil => exact pass_stored _ _ _ _ hz
    | cons a l => exact pass_stored _ _ _ _ hz
  have hst : (stored td.stats.time (l ++ [t])).length = l.length + 1 := by
    cases l with
    | nil => exact stored_length _ _ _
    | cons a l => rw [List.cons_append, stored_length]; simp
  have hl : (sorted td.stats.time (l ++ [t])).length = l.length + 1 := by
    unfold sorted; rw [List.length_insertionSort, hst]
  have g : ∀ k, k < 4 → ∃ q, (sorted td.stats.time (l ++ [t]))[k * (td.ts.length / 4)]? = some q := by
    intro k hk
    have : k * (td.ts.length / 4) < (sorted td.stats.time (l ++ [t])).length := by
      rw [hl, ht]
      have h3 : k * ((l.length + 1) / 4) ≤ 3 * ((l.length + 1) / 4) := Nat.mul_le_mul_right _ (by omega)
      omega
    exact ⟨_, List.getElem?_eq_getElem this⟩
  obtain ⟨q1, h1⟩ := g 1 (by omega)
  obtain ⟨q2, h2⟩ := g 2 (by omega)
  obtain ⟨q3, h3⟩ := g 3 (by omega)
  refine ⟨q1, q2, q3, ?_, h1, h2, h3⟩
  have hu : ({ td with i := l.length, ts := l ++ td.ts.drop l.length } : Timing).update t =
      some ({ ts := l ++ [t], i := 0, ds := sorted td.stats.time (l ++ [t]),
              stats := { ((stored td.stats.time (l ++ [t])).foldl step { time := t }) with q1 := q1, q2 := q2, q3 := q3 } }, true) := by
    obtain ⟨x, hx⟩ : ∃ x, td.ts.drop l.length = [x] := by
      have : (td.ts.drop l.length).length = 1 := by simp; omega
      exact List.length_eq_one_iff.1 this
    unfold Timing.update
    simp only [hx, List.length_append, List.length_singleton]
    rw [if_pos (by omega), List.set_append_right _ _ (by omega), Nat.sub_self, List.set_cons_zero]
    simp only [List.length_append, List.length_singleton, Nat.mod_self, Nat.lt_irrefl, gt_iff_lt, if_false]
    rw [if_neg (by omega), hpass]
    simp only
    rw [show td.ds.drop (l.length + 1) = [] from List.drop_eq_nil_of_le (by omega), List.append_nil,
      show (stored td.stats.time (l ++ [t])).insertionSort (· ≤ ·) = sorted td.stats.time (l ++ [t]) from rfl, hl, ← ht, h1, h2, h3]
  rw [updates_append, fill l td (by omega)]
  simp only [hi, List.take_zero, List.nil_append, Nat.zero_add, Option.bind_some]
  unfold Timing.updates
  rw [hu]
  rfl

theorem sorted_perm (prev : Int) (l : List Int) : (sorted prev l).Perm (stored prev l) := List.perm_insertionSort _ _

theorem sorted_sorted (prev : Int) (l : List Int) : (sorted prev l).Pairwise (· ≤ ·) := by
  exact List.pairwise_insertionSort _ _

/-- The statistics of a round of frames after which the clock moved on. -/
theorem fold_stored (prev : Int) (l : List Int) (t : Int) (h2 : 2 ≤ (times prev (l ++ [t])).length)
    (hp : ∀ d ∈ gaps (times prev (l ++ [t])), 0 < d) (s : Stats) (hs : s.elapsed = 0) :
    ((stored prev (l ++ [t])).foldl step s).elapsed = (gaps (times prev (l ++ [t]))).sum ∧
    Least ((stored prev (l ++ [t])).foldl step s).min (gaps (times prev (l ++ [t]))) ∧
    Greatest ((stored prev (l ++ [t])).foldl step s).max (gaps (times prev (l ++ [t]))) := by
  unfold stored times at *
  by_cases h0 : prev = 0
  · simp only [if_pos h0] at *
    rw [List.foldl_cons]
    have e : (step s 0).elapsed = 0 := by unfold step; rw [if_pos hs]
    cases hg : gaps (l ++ [t]) with
    | nil =>
      exfalso
      cases l with
      | nil => simp at h2
      | cons a l =>
        have := gaps_length (l ++ [t]) a
        rw [List.cons_append] at hg
        rw [hg] at this
        simp at this
    | cons d g => rw [hg] at hp; exact fold_start d g _ e hp
  · simp only [if_neg h0] at *
    cases hg : gaps (prev :: (l ++ [t])) with
    | nil => exfalso; have := gaps_length (l ++ [t]) prev; rw [hg] at this; simp at this
    | cons d g => rw [hg] at hp; exact fold_start d g _ hs hp

/-- **C82**: a round is complete with every `n`-th frame, and with no other; then the
statistics describe the frames of the round, if the clock moved on with every frame: the time is the
last frame's, `Elapsed` the time from the first to the last (from the last frame of the
round before, when there is one), `Min` and `Max` the least and the greatest of the
times between frames. -/
theorem timing_round_partial (td : Timing) (l : List Int) (t : Int) (hi : td.i = 0)
    (ht : td.ts.length = (l ++ [t]).length) (hd : td.ds.length = (l ++ [t]).length)
    (hz : ∀ x ∈ l ++ [t], x ≠ 0) (h2 : 2 ≤ (times td.stats.time (l ++ [t])).length)
    (hp : ∀ d ∈ gaps (times td.stats.time (l ++ [t])), 0 < d) :
    ∃ td', td.updates (l ++ [t]) = some (td', List.replicate l.length false ++ [true]) ∧
      (td'.i = 0 ∧ td'.ts.length = td.ts.length ∧ td'.ds.length = td.ds.length) ∧
      td'.stats.time = t ∧
      (∃ t₀, (times td.stats.time (l ++ [t])).head? = some t₀ ∧ td'.stats.elapsed = t - t₀) ∧
      Least td'.stats.min (gaps (times td.stats.time (l ++ [t]))) ∧
      Greatest td'.stats.max (gaps (times td.stats.time (l ++ [t]))) ∧
      (td.stats.time ≠ 0 → td'.ds.Perm (gaps (times td.stats.time (l ++ [t])))) ∧ td'.ds.Pairwise (· ≤ ·) := by
  simp only [List.length_append, List.length_singleton] at ht hd
  obtain ⟨q1, q2, q3, h, _⟩ := round td l t hi ht hd hz
  obtain ⟨f1, f2, f3⟩ := fold_stored td.stats.time l t h2 hp { time := t } rfl
  refine ⟨_, h, ⟨rfl, by simp [ht], ?_⟩, fold_time _ _, ?_, f2, f3, ?_, sorted_sorted _ _⟩
  · show (sorted td.stats.time (l ++ [t])).length = _
    rw [(sorted_perm _ _).length_eq, hd]
    cases l with
    | nil => exact stored_length _ _ _
    | cons a l => rw [List.cons_append, stored_length]; simp
  · show ∃ t₀, _ ∧ ((stored td.stats.time (l ++ [t])).foldl step { time := t }).elapsed = _
    rw [f1]
    unfold times
    split
    · cases l with
      | nil => exact ⟨t, rfl, by simp [gaps]⟩
      | cons a l => exact ⟨a, rfl, by rw [List.cons_append, gaps_sum]; simp⟩
    · exact ⟨_, rfl, by rw [gaps_sum]; simp⟩
  · intro h0
    have := sorted_perm td.stats.time (l ++ [t])
    unfold stored at this
    unfold times
    rw [if_neg h0] at this ⊢
    exact this

/-- **C82**: and `Q1`, `Q2` and `Q3` are the quartiles of the times between frames, if the
number of frames in a round is a multiple of four. -/
theorem timing_quartiles_partial (td : Timing) (l : List Int) (t : Int) (hi : td.i = 0)
    (ht : td.ts.length = (l ++ [t]).length) (hd : td.ds.length = (l ++ [t]).length)
    (hz : ∀ x ∈ l ++ [t], x ≠ 0) (h4 : 4 ∣ td.ts.length)
    (hp : ∀ d ∈ gaps (times td.stats.time (l ++ [t])), 0 < d) :
    ∃ td' fs, td.updates (l ++ [t]) = some (td', fs) ∧
      Quartile 1 td'.stats.q1 (gaps (times td.stats.time (l ++ [t]))) ∧
      Quartile 2 td'.stats.q2 (gaps (times td.stats.time (l ++ [t]))) ∧
      Quartile 3 td'.stats.q3 (gaps (times td.stats.time (l ++ [t]))) := by
  simp only [List.length_append, List.length_singleton] at ht hd
  obtain ⟨q1, q2, q3, h, h1, h2, h3⟩ := round td l t hi ht hd hz
  have key : ∀ (k : Nat) (m : Int), 1 ≤ k → k ≤ 3 →
      (sorted td.stats.time (l ++ [t]))[k * (td.ts.length / 4)]? = some m →
      Quartile k m (gaps (times td.stats.time (l ++ [t]))) := by
    intro k m hk1 hk3 hm
    obtain ⟨c1, c2⟩ := sorted_count _ (sorted_sorted _ _) _ _ hm
    rw [(sorted_perm _ _).countP_eq] at c1 c2
    obtain ⟨q, hq⟩ := h4
    have e : td.ts.length / 4 = q := by omega
    rw [e] at c1 c2
    unfold stored times at *
    by_cases h0 : td.stats.time = 0
    · simp only [if_pos h0] at *
      have hlen : (gaps (l ++ [t])).length + 1 = 4 * q := by
        cases l with
        | nil => simp at ht; omega
        | cons a l => rw [List.cons_append, gaps_length]; simp at ht ⊢; omega
      have hmpos : 0 < m := by
        by_contra hn
        have : (gaps (l ++ [t])).countP (· ≤ m) = 0 := by
          rw [List.countP_eq_zero]
          intro x hx
          have := hp x hx
          simp only [decide_eq_true_eq]; omega
        rw [List.countP_cons, this] at c2
        have : 1 ≤ k * q := Nat.mul_pos hk1 (by omega)
        split at c2 <;> omega
      rw [List.countP_cons] at c1 c2
      simp only [decide_eq_true_eq, if_pos hmpos, if_pos (le_of_lt hmpos)] at c1 c2
      unfold Quartile
      have hkq : k * (gaps (l ++ [t])).length + k = 4 * (k * q) := by
        have : k * ((gaps (l ++ [t])).length + 1) = k * (4 * q) := by rw [hlen]
        linarith
      omega
    · simp only [if_neg h0] at *
      have hlen : (gaps (td.stats.time :: (l ++ [t]))).length = 4 * q := by rw [gaps_length]; simp; omega
      unfold Quartile
      rw [hlen]
      have hkq : k * (4 * q) = 4 * (k * q) := Nat.mul_left_comm _ _ _
      omega
  exact ⟨_, _, h, key 1 _ (by omega) (by omega) h1, key 2 _ (by omega) (by omega) h2, key 3 _ (by omega) (by omega) h3⟩

/-- **C82** in any number of rounds: the flags, and no panic. -/
theorem timing_rounds (n : Nat) (rs : List (List Int)) (hr : ∀ l ∈ rs, l.length = n + 1 ∧ ∀ x ∈ l, x ≠ 0) :
    ∀ td : Timing, td.i = 0 → td.ts.length = n + 1 → td.ds.length = n + 1 →
    ∃ td', td.updates rs.flatten = some (td', (List.replicate rs.length (List.replicate n false ++ [true])).flatten) ∧
      td'.i = 0 ∧ td'.ts.length = n + 1 ∧ td'.ds.length = n + 1 := by
  induction rs with
  | nil => intro td h1 h2 h3; exact ⟨td, rfl, h1, h2, h3⟩
  | cons l rs ih =>
    intro td h1 h2 h3
    obtain ⟨hl, hz⟩ := hr l (by simp)
    obtain ⟨a, t, rfl⟩ : ∃ a t, l = a ++ [t] := by
      rcases List.eq_nil_or_concat l with rfl | ⟨a, t, rfl⟩
      · simp at hl
      · exact ⟨a, t, by simp⟩
    have ha : a.length = n := by simpa using hl
    obtain ⟨q1, q2, q3, h, _⟩ := round td a t h1 (by omega) (by omega) hz
    have hs : (sorted td.stats.time (a ++ [t])).length = n + 1 := by
      rw [(sorted_perm _ _).length_eq, ← ha]
      cases a with
      | nil => exact stored_length _ _ _
      | cons x a => rw [List.cons_append, stored_length]; simp
    obtain ⟨td', i1, i2⟩ := ih (fun l hl => hr l (List.mem_cons_of_mem _ hl))
      ⟨_, 0, a ++ [t], sorted td.stats.time (a ++ [t])⟩ rfl (by simp [ha]) hs
    refine ⟨td', ?_, i2⟩
    rw [List.flatten_cons, updates_append, h, Option.bind_some, i1, ha]
    rfl

/-- Two rounds of four frames each. -/
example : (({ ts := [0, 0, 0, 0], ds := [0, 0, 0, 0] } : Timing).updates [10, 12, 15, 16, 18, 22, 30, 31]).map
    (fun r => (r.1.stats, r.2)) =
    some (⟨31, 15, 1, 8, 2, 4, 8⟩, [false, false, false, true, false, false, false, true]) := by decide +kernel

/-- The hypotheses hold for the second round. -/
example : (∀ d ∈ gaps (times 16 [18, 22, 30, 31]), 0 < d) ∧ Quartile 2 4 (gaps (times 16 [18, 22, 30, 31])) := by
  decide +kernel

/-- **C82** is violated at the default rate, of 15 frames in a round: `Q3` is not the third
quartile. -/
theorem quartile_default_rate : ∃ td : Timing, ∃ l : List Int, td.ts.length = 60 / 4 ∧ l.length = 60 / 4 ∧
    ∃ td' fs, td.updates l = some (td', fs) ∧ ¬ Quartile 3 td'.stats.q3 (gaps (times td.stats.time l)) := by
  refine ⟨{ stats := { time := 1 }, ts := List.replicate 15 0, ds := List.replicate 15 0 },
    [2, 4, 7, 11, 16, 22, 29, 37, 46, 56, 67, 79, 92, 106, 121], rfl, rfl, _, _,
    (by decide +kernel : _ = some (⟨⟨121, 120, 1, 15, 4, 7, 10⟩, 0,
      [2, 4, 7, 11, 16, 22, 29, 37, 46, 56, 67, 79, 92, 106, 121],
      [1, 2, 3, 4, 5, 6, 7, 8, 9, 10, 11, 12, 13, 14, 15]⟩, List.replicate 14 false ++ [true])), ?_⟩
  decide +kernel

/-- **C82** is violated with two frames at one time at the start: `Min` is not the least. -/
theorem leading_gap_lost : ∃ td : Timing, ∃ l : List Int, td.i = 0 ∧ td.ts.length = l.length ∧
    (∀ d ∈ gaps (times td.stats.time l), 0 ≤ d) ∧
    ∃ td' fs, td.updates l = some (td', fs) ∧ ¬ Least td'.stats.min (gaps (times td.stats.time l)) := by
  refine ⟨{ stats := { time := 5 }, ts := [0, 0], ds := [0, 0] }, [5, 8], rfl, rfl, by decide +kernel, _, _,
    (by decide +kernel : _ = some (⟨⟨8, 3, 3, 3, 0, 0, 0⟩, 0, [5, 8], [0, 3]⟩, [false, true])), ?_⟩
  intro h
  exact absurd (h.2 0 (by decide +kernel)) (by decide +kernel)

/-! ### C83 -/

/-- Any number of frames from the start of a round. -/
theorem updates_flags (n : Nat) : ∀ (m : Nat) (l : List Int), l.length ≤ m → (∀ x ∈ l, x ≠ 0) →
    ∀ td : Timing, td.i = 0 → td.ts.length = n + 1 → td.ds.length = n + 1 →
    ∃ td' fs, td.updates l = some (td', fs) ∧ fs.length = l.length ∧
      ∀ k : Nat, fs[k]? = some true ↔ k < l.length ∧ (k + 1) % (n + 1) = 0 := by
  intro m
  induction m with
  | zero =>
    intro l hl _ td _ _ _
    have : l = [] := List.length_eq_zero_iff.1 (by omega)
    subst this
    exact ⟨td, [], rfl, rfl, by simp⟩
  | succ m ih =>
    intro l hl hz td h1 h2 h3
    by_cases hn : l.length < n + 1
    · refine ⟨_, _, fill l td (by omega), by simp, ?_⟩
      intro k
      simp only [List.getElem?_replicate]
      constructor
      · intro h; split at h <;> simp at h
      · rintro ⟨ha, hb⟩
        rw [Nat.mod_eq_of_lt (by omega)] at hb
        omega
    · obtain ⟨a, ha⟩ : ∃ a, a = l.take n := ⟨_, rfl⟩
      obtain ⟨t, b, hb⟩ : ∃ t b, l.drop n = t :: b := by
        cases h : l.drop n with
        | nil => have := congrArg List.length h; simp at this; omega
        | cons t b => exact ⟨t, b, rfl⟩
      have hal : a.length = n := by rw [ha]; simp; omega
      have hlab : l = (a ++ [t]) ++ b := by
        rw [ha, List.append_assoc, List.singleton_append, ← hb, List.take_append_drop]
      have hll : l.length = n + 1 + b.length := by rw [hlab]; simp [hal]; omega
      obtain ⟨q1, q2, q3, h, _⟩ := round td a t h1 (by omega) (by omega)
        (fun x hx => hz x (by rw [hlab]; exact List.mem_append_left _ hx))
      have hs : (sorted td.stats.time (a ++ [t])).length = n + 1 := by
        rw [(sorted_perm _ _).length_eq, ← hal]
        cases a with
        | nil => exact stored_length _ _ _
        | cons x a => rw [List.cons_append, stored_length]; simp
      obtain ⟨td', fs, i1, i2, i3⟩ := ih b (by omega)
        (fun x hx => hz x (by rw [hlab]; exact List.mem_append_right _ hx))
        ⟨_, 0, a ++ [t], sorted td.stats.time (a ++ [t])⟩ rfl (by simp [hal]) hs
      refine ⟨td', (List.replicate n false ++ [true]) ++ fs, ?_, ?_, ?_⟩
      · conv_lhs => rw [hlab]
        rw [updates_append, h, Option.bind_some, i1, hal]
        rfl
      · simp [i2, hll]; omega
      · intro k
        rcases Nat.lt_trichotomy k n with hk | hk | hk
        · rw [List.getElem?_append_left (by simp; omega), List.getElem?_append_left (by simpa using hk),
            List.getElem?_replicate, if_pos hk, Nat.mod_eq_of_lt (by omega)]
          simp
        · subst hk
          rw [List.getElem?_append_left (by simp), List.getElem?_append_right (by simp)]
          simp; omega
        · rw [List.getElem?_append_right (by simp; omega)]
          simp only [List.length_append, List.length_replicate, List.length_singleton]
          rw [i3]
          have e : k + 1 = (k - (n + 1) + 1) + (n + 1) := by omega
          rw [show (k + 1) % (n + 1) = (k - (n + 1) + 1) % (n + 1) by
            conv_lhs => rw [e, Nat.add_mod_right]]
          constructor
          · rintro ⟨x, y⟩; exact ⟨by omega, y⟩
          · rintro ⟨x, y⟩; exact ⟨by omega, y⟩

/-- **C83**: with a frame rate of at least four, the tick is the rate's period, and any number
of frames is timed without a panic; a round is complete every quarter of a second's
frames. -/
theorem frame_rate_timed_partial (fps : Nat) (h : 4 ≤ fps) :
    ∃ d td, frameRate fps = some (d, td) ∧ d * fps ≤ 1000000000 ∧ 1000000000 < (d + 1) * fps ∧
      ∀ l : List Int, (∀ x ∈ l, x ≠ 0) → ∃ td' fs, td.updates l = some (td', fs) ∧ fs.length = l.length ∧
        ∀ k : Nat, fs[k]? = some true ↔ k < l.length ∧ (k + 1) % (fps / 4) = 0 := by
  have e : ((fps : Int) / 4).toNat = fps / 4 := by omega
  have h0 : (0 : Int) < fps := by omega
  refine ⟨_, _, by unfold frameRate; rw [if_neg (by omega)], Int.ediv_mul_le _ (by omega),
    Int.lt_ediv_add_one_mul_self _ h0, ?_⟩
  intro l hl
  obtain ⟨n, hn⟩ : ∃ n, fps / 4 = n + 1 := ⟨fps / 4 - 1, by omega⟩
  rw [hn]
  exact updates_flags n l.length l (le_refl _) hl _ rfl (by simp [e, hn]) (by simp [e, hn])

example : (frameRate 60).map (fun r => (r.1, r.2.ts.length)) = some (16666666, 15) := by decide +kernel

/-- **C83** is violated by frame rates below four: the first frame timed panics. -/
theorem frame_rate_low (fps : Nat) (h0 : 0 < fps) (h : fps < 4) :
    ∃ d td, frameRate fps = some (d, td) ∧ ∀ t, td.update t = none := by
  refine ⟨_, _, by unfold frameRate; rw [if_neg (by omega)], ?_⟩
  intro t
  have e : ((fps : Int) / 4).toNat = 0 := by omega
  unfold Timing.update
  rw [if_neg (by simp [e])]

/-- **C83**: and a frame rate of zero panics itself. -/
theorem frame_rate_zero : frameRate 0 = none := by decide +kernel

/-- **C83**: setting the frame rate panics exactly for rates that are not positive. -/
theorem frame_rate_panics_iff (fps : Int) : frameRate fps = none ↔ fps ≤ 0 := by
  unfold frameRate
  split <;> simp [*]

/-- **C82**: timing that was switched off and on again starts afresh: whatever was timed
before, it goes on like new timing data of the same length. -/
theorem timing_reset_fresh (td : Timing) (l : List Int) :
    td.reset.updates l =
      ({ ts := List.replicate td.ts.length 0, ds := List.replicate td.ds.length 0 } : Timing).updates l := by
  unfold Timing.reset
  rw [List.map_const', List.map_const']

/-! ### C84 -/

theorem stall_loop (l : List Int) : ∀ s : Stalls,
    (stallLoop s l).n = s.n ∧ (stallLoop s l).time = s.time ∧ (stallLoop s l).sum = s.sum + l.sum ∧
    Least (stallLoop s l).min (s.min :: l) ∧ Greatest (stallLoop s l).max (s.max :: l) := by
  induction l with
  | nil => intro s; simp [stallLoop, Least, Greatest]
  | cons d l ih =>
    intro s
    obtain ⟨s', hs'⟩ : ∃ s' : Stalls, s' = { s with
      min := if s.min > d then d else s.min
      max := if s.max < d then d else s.max
      sum := s.sum + d } := ⟨_, rfl⟩
    have e2 : (s'.min = d ∨ s'.min = s.min) ∧ s'.min ≤ d ∧ s'.min ≤ s.min := by
      rw [hs']; simp only; split <;> omega
    have e3 : (s'.max = d ∨ s'.max = s.max) ∧ d ≤ s'.max ∧ s.max ≤ s'.max := by
      rw [hs']; simp only; split <;> omega
    have e4 : s'.n = s.n ∧ s'.time = s.time ∧ s'.sum = s.sum + d := by rw [hs']; exact ⟨rfl, rfl, rfl⟩
    obtain ⟨k1, k2, h1, ⟨h2, h3⟩, h4, h5⟩ := ih s'
    rw [show stallLoop s (d :: l) = stallLoop s' l by rw [hs']; rfl]
    refine ⟨k1.trans e4.1, k2.trans e4.2.1, ?_, ⟨?_, ?_⟩, ?_, ?_⟩
    · rw [h1, e4.2.2, List.sum_cons]; omega
    · rcases List.mem_cons.1 h2 with h2 | h2
      · rw [h2]; rcases e2.1 with h | h <;> rw [h] <;> simp
      · simp [h2]
    · intro x hx
      have hm := h3 s'.min (by simp)
      rcases List.mem_cons.1 hx with rfl | hx
      · omega
      · rcases List.mem_cons.1 hx with rfl | hx
        · omega
        · exact h3 x (List.mem_cons_of_mem _ hx)
    · rcases List.mem_cons.1 h4 with h4 | h4
      · rw [h4]; rcases e3.1 with h | h <;> rw [h] <;> simp
      · simp [h4]
    · intro x hx
      have hm := h5 s'.max (by simp)
      rcases List.mem_cons.1 hx with rfl | hx
      · omega
      · rcases List.mem_cons.1 hx with rfl | hx
        · omega
        · exact h5 x (List.mem_cons_of_mem _ hx)

/-- **C84**: the statistics of any stalls are their number, the sum of them all, the least
and the greatest; all zero when there are none. -/
theorem stalls_described (t : Int) (l : List Int) :
    (stallsUpdate t l).n = l.length ∧ (stallsUpdate t l).time = t ∧ (stallsUpdate t l).sum = l.sum ∧
    (l ≠ [] → Least (stallsUpdate t l).min l ∧ Greatest (stallsUpdate t l).max l) ∧
    (l = [] → (stallsUpdate t l).min = 0 ∧ (stallsUpdate t l).max = 0) := by
  cases l with
  | nil => exact ⟨rfl, rfl, rfl, fun h => absurd rfl h, fun _ => ⟨rfl, rfl⟩⟩
  | cons d l =>
    obtain ⟨h1, h2, h3, h4, h5⟩ := stall_loop l { n := l.length + 1, time := t, min := d, max := d, sum := d }
    exact ⟨h1, h2, by rw [List.sum_cons]; exact h3, fun _ => ⟨h4, h5⟩, fun h => by simp at h⟩

example : stallsUpdate 9 [4, 2, 7] = ⟨3, 9, 2, 7, 13⟩ := by decide +kernel

end Tel
end Anansi
