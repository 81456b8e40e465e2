import Verif.Model.TeleLog
import Verif.Props.Telemetry
/-
C119: what is logged of frame times.  C120: what is counted and logged of stalls.  C121: the log of
resource usage and the text of the log.
-/
set_option autoImplicit false

namespace Anansi
namespace Tel
open Spec

variable {α : Type}

/-! ### Frames never panic -/

/-- Telemetry as it is made, and as it stays: `platform.go:66-70`. -/
structure Sound (p : Tele α) : Prop where
  i : p.timing.i < p.timing.ts.length
  ds : p.timing.ds.length = p.timing.ts.length
  use : p.usage.i < p.usage.data.length

theorem pass_length (l : List Int) : ∀ (a : Int) (s : Stats), (pass a s l).1.length = l.length := by
  induction l with
  | nil => intros; rfl
  | cons t l ih => intro a s; unfold pass; simp [ih]

theorem update_steps (td : Timing) (hi : td.i < td.ts.length) (hd : td.ds.length = td.ts.length) (t : Int) :
    ∃ td', td.update t = some (td', decide ((td.i + 1) % td.ts.length = 0)) ∧ td'.i = (td.i + 1) % td.ts.length ∧
      td'.ts = td.ts.set td.i t ∧ td'.ds.length = td.ds.length := by
  unfold Timing.update
  rw [if_pos hi]
  simp only [List.length_set]
  by_cases h : (td.i + 1) % td.ts.length > 0
  · rw [if_pos h]
    rw [decide_eq_false (by omega)]
    exact ⟨_, rfl, rfl, rfl, rfl⟩
  · rw [if_neg h, if_neg (by omega)]
    have hl : (((pass td.stats.time { time := t } (td.ts.set td.i t)).1 ++ td.ds.drop td.ts.length).insertionSort (· ≤ ·)).length =
        td.ts.length := by
      rw [List.length_insertionSort, List.length_append, pass_length, List.length_set, List.length_drop]
      omega
    generalize ((pass td.stats.time { time := t } (td.ts.set td.i t)).1 ++ td.ds.drop td.ts.length).insertionSort (· ≤ ·) = ds at hl ⊢
    rw [List.getElem?_eq_getElem (l := ds) (i := 1 * (ds.length / 4)) (by omega),
      List.getElem?_eq_getElem (l := ds) (i := 2 * (ds.length / 4)) (by omega),
      List.getElem?_eq_getElem (l := ds) (i := 3 * (ds.length / 4)) (by omega)]
    rw [decide_eq_true (by omega)]
    exact ⟨_, rfl, rfl, rfl, by simp only; omega⟩

theorem usage_steps (u : Usage α) (h : u.i < u.data.length) (t : Int) (use : Option α) :
    (u.update t use).2 = use.isSome ∧ (u.update t use).1.i < (u.update t use).1.data.length := by
  have hne : u.data ≠ [] := by rintro e; simp [e] at h
  unfold Usage.update
  rw [if_neg hne]
  cases use with
  | none => exact ⟨rfl, h⟩
  | some x => exact ⟨rfl, by simp only [List.length_set]; exact Nat.mod_lt _ (by omega)⟩

theorem deltas_some (u : Usage α) (h : u.i < u.data.length) (over : List Int) : ∃ ds, u.deltas over = some ds := by
  unfold Usage.deltas
  rw [if_neg (by omega)]
  simp only
  have : (if u.i = 0 then u.data.length - 1 else u.i - 1) < u.data.length := by split <;> omega
  rw [List.getElem?_eq_getElem this]
  simp only
  exact ⟨_, (apply_ite some _ _ _).symm⟩

/-- What is collected in a frame, given the timing. -/
def collected (p : Tele α) (t : Int) (use : Option α) (r : Timing × Bool) : Tele α :=
  { p with
    t := t
    usage := (p.usage.update t use).1
    timing := r.1
    collTiming := p.collTiming || (p.sw.logTiming && r.2)
    blocks := p.blocks.map fun b => b.stalls r.2
    collStalls := match p.blocks with
      | some b => if p.sw.logStalls then some (.shared b.len) else p.collStalls
      | none => p.collStalls
    stats := match p.blocks with
      | some b => if p.sw.stalls then Tel.stallsUpdate t (b.mem.take b.len) else p.stats
      | none => p.stats
    pct := match p.blocks with
      | some b => if p.sw.stalls then
          (if p.stats.time = 0 then none else
            some ((Tel.stallsUpdate t (b.mem.take b.len)).sum, (Tel.stallsUpdate t (b.mem.take b.len)).time - p.stats.time))
        else p.pct
      | none => p.pct }

theorem update_eq (p : Tele α) (t : Int) (use : Option α) : p.update t use =
    if (p.usage.update t use).2 = true then
      if (p.sw.timing || p.sw.logTiming) = true then (p.timing.update t).map fun r => (collected p t use r, true)
      else some ({ p with t := t, usage := (p.usage.update t use).1 }, true)
    else some ({ p with t := t, usage := (p.usage.update t use).1 }, false) := by
  unfold Tele.update
  dsimp only
  congr 1
  congr 1
  congr 1
  funext r
  unfold collected
  obtain ⟨td, fl⟩ := r
  obtain ⟨⟨s1, s2, s3, s4⟩, cfg, tm, st, pc, bl, t0, ct, cs, lu, us, fi, lg⟩ := p
  cases s3 <;> cases fl <;> cases bl <;> cases s4 <;> cases s2 <;> simp [Tele.stallsUpdate]

theorem Sound.update {p : Tele α} (S : Sound p) (t : Int) (use : Option α) :
    ∃ q, p.update t use = some (q, use.isSome) ∧ Sound q := by
  obtain ⟨h1, h2⟩ := usage_steps p.usage S.use t use
  obtain ⟨td, e, e1, e2, e3⟩ := update_steps p.timing S.i S.ds t
  have htd : td.i < td.ts.length ∧ td.ds.length = td.ts.length := by
    have := S.i
    rw [e1, e2, List.length_set]
    exact ⟨Nat.mod_lt _ (by omega), by rw [e3, S.ds]⟩
  rw [update_eq, h1, e]
  cases use with
  | none => exact ⟨_, rfl, ⟨S.i, S.ds, h2⟩⟩
  | some x =>
    simp only [Option.isSome_some, if_true]
    split
    · exact ⟨_, rfl, ⟨htd.1, htd.2, h2⟩⟩
    · exact ⟨_, rfl, ⟨S.i, S.ds, h2⟩⟩

theorem Sound.op {p : Tele α} (S : Sound p) (o : Op) : Sound (p.op o) := by
  cases o with
  | timing =>
    unfold Tele.op Tele.setTiming
    dsimp only
    split
    · split
      · refine ⟨?_, ?_, S.use⟩
        · have := S.i
          simp only [Timing.reset, List.length_map]; omega
        · simp only [Timing.reset, List.length_map]; exact S.ds
      · exact ⟨S.i, S.ds, S.use⟩
    · exact S
  | stalls =>
    unfold Tele.op Tele.setStalls
    dsimp only
    split <;> exact ⟨S.i, S.ds, S.use⟩
  | logTiming => exact ⟨S.i, S.ds, S.use⟩
  | logStalls => exact ⟨S.i, S.ds, S.use⟩
  | load sw => exact ⟨S.i, S.ds, S.use⟩
  | client on => exact ⟨S.i, S.ds, S.use⟩

theorem Sound.ops {p : Tele α} (S : Sound p) (l : List Op) : Sound (l.foldl Tele.op p) := by
  induction l generalizing p with
  | nil => exact S
  | cons o l ih => exact ih (S.op o)

theorem Sound.flush {p : Tele α} (S : Sound p) (d : Option Int) : Sound (p.flush d) := by
  cases d <;> exact ⟨S.i, S.ds, S.use⟩

theorem logRest_same (p : Tele α) : (logRest p).timing = p.timing ∧ (logRest p).usage = p.usage ∧ (logRest p).sw = p.sw ∧
    (logRest p).blocks = p.blocks ∧ (logRest p).collTiming = false ∧ (logRest p).collStalls = none ∧
    (logRest p).stats = p.stats ∧ (logRest p).lastUse = p.lastUse ∧ (logRest p).cfgLog = p.cfgLog ∧ (logRest p).file = p.file := by
  unfold logRest
  cases h1 : p.collTiming <;> cases h2 : p.collStalls <;> simp [h1, h2]

theorem logRest_log (p : Tele α) : (logRest p).log = p.log ++ ((if p.collTiming then [.timing p.t p.timing.ds] else []) ++
    match p.collStalls with
    | some r => [.stalls p.t (r.get p.blocks)]
    | none => []) := by
  unfold logRest
  cases h1 : p.collTiming <;> cases h2 : p.collStalls <;> simp [h2]

/-- What `logData` does: perhaps resource usage, then the rest. -/
theorem logData_eq (cost : Entry α × Entry α → Int × Int × Int) (p : Tele α) :
    p.logData cost = if p.file = true ∧ p.t - p.lastUse ≥ 1000000000 then
      (p.usage.deltas windows).map fun ds =>
        logRest { p with lastUse := p.t, log := p.log ++ if ds = [] then [] else [.usage p.t (ds.map cost)] }
    else some (logRest p) := by
  unfold Tele.logData
  dsimp only
  by_cases h1 : p.file = true
  · by_cases h2 : p.t - p.lastUse ≥ 1000000000
    · rw [if_pos h1, if_pos h2, if_pos ⟨h1, h2⟩]
      congr 1
      funext ds
      by_cases hd : ds = []
      · rw [if_pos hd, if_pos hd, List.append_nil]
      · rw [if_neg hd, if_neg hd]
    · rw [if_pos h1, if_neg h2, if_neg (fun h => h2 h.2)]
  · rw [if_neg h1, if_neg (fun h => h1 h.1)]

theorem Sound.log {p : Tele α} (S : Sound p) (cost : Entry α × Entry α → Int × Int × Int) :
    ∃ q, p.logData cost = some q ∧ Sound q := by
  rw [logData_eq]
  split
  · obtain ⟨ds, e⟩ := deltas_some p.usage S.use windows
    rw [e]
    refine ⟨_, rfl, ?_⟩
    obtain ⟨h1, h2, -⟩ := logRest_same { p with lastUse := p.t, log := p.log ++ if ds = [] then [] else [.usage p.t (ds.map cost)] }
    exact ⟨by rw [h1]; exact S.i, by rw [h1]; exact S.ds, by rw [h2]; exact S.use⟩
  · refine ⟨_, rfl, ?_⟩
    obtain ⟨h1, h2, -⟩ := logRest_same p
    exact ⟨by rw [h1]; exact S.i, by rw [h1]; exact S.ds, by rw [h2]; exact S.use⟩

theorem Sound.frame {p : Tele α} (S : Sound p) (cost : Entry α × Entry α → Int × Int × Int) (f : TFrame α) :
    ∃ q, p.frame cost f = some (q, f.use.isSome) ∧ Sound q := by
  obtain ⟨q, e, Q⟩ := S.update f.t f.use
  unfold Tele.frame
  rw [e, Option.bind_some]
  simp only
  cases hu : f.use with
  | none => exact ⟨q, rfl, Q⟩
  | some x =>
    simp only [Option.isSome_some, if_true]
    have R := (Q.ops f.ops).flush f.stall
    split
    · obtain ⟨r, e2, R2⟩ := R.log cost
      rw [e2]
      exact ⟨r, rfl, R2⟩
    · exact ⟨_, rfl, R⟩

/-- **C119**: telemetry as it is made never panics, whatever is done to its switches: all frames
are run, up to one for which the system gives no resource usage. -/
theorem frames_run {p : Tele α} (S : Sound p) (cost : Entry α × Entry α → Int × Int × Int) (fs : List (TFrame α)) :
    ∃ q, p.frames cost fs = some q ∧ Sound q := by
  induction fs generalizing p with
  | nil => exact ⟨p, rfl, S⟩
  | cons f fs ih =>
    obtain ⟨q, e, Q⟩ := S.frame cost f
    unfold Tele.frames
    rw [e, Option.bind_some]
    simp only
    split
    · exact ih Q
    · exact ⟨q, rfl, Q⟩

/-! ### Invariants -/

/-- What each step keeps, frames keep. -/
theorem frames_keep (cost : Entry α × Entry α → Int × Int × Int) (I : Tele α → Prop) (P : Op → Prop)
    (hu : ∀ p t use q ok, I p → p.update t use = some (q, ok) → I q)
    (ho : ∀ p o, P o → I p → I (p.op o)) (hf : ∀ p d, I p → I (p.flush d))
    (hl : ∀ p q, I p → p.logData cost = some q → I q) :
    ∀ (fs : List (TFrame α)) (p q : Tele α), (∀ f ∈ fs, ∀ o ∈ f.ops, P o) → I p → p.frames cost fs = some q → I q := by
  have hops : ∀ (l : List Op) (p : Tele α), (∀ o ∈ l, P o) → I p → I (l.foldl Tele.op p) := by
    intro l
    induction l with
    | nil => intro p _ h; exact h
    | cons o l ih => intro p hp h; exact ih _ (fun x hx => hp x (List.mem_cons_of_mem _ hx)) (ho p o (hp o (by simp)) h)
  intro fs
  induction fs with
  | nil => intro p q _ h e; cases e; exact h
  | cons f fs ih =>
    intro p q hP h e
    unfold Tele.frames Tele.frame at e
    cases h1 : p.update f.t f.use with
    | none => rw [h1] at e; cases e
    | some r =>
      obtain ⟨r, ok⟩ := r
      have I1 := hu _ _ _ _ _ h h1
      rw [h1] at e
      simp only [Option.bind_some] at e
      cases ok with
      | false => simp at e; subst e; exact I1
      | true =>
        simp only [if_true] at e
        have I2 := hf _ f.stall (hops f.ops r (hP f (by simp)) I1)
        cases hlog : f.logs with
        | false =>
          simp only [hlog, Bool.false_eq_true, if_false, Option.bind_some, if_true] at e
          exact ih _ _ (fun g hg => hP g (List.mem_cons_of_mem _ hg)) I2 e
        | true =>
          simp only [hlog, if_true] at e
          cases h2 : ((List.foldl Tele.op r f.ops).flush f.stall).logData cost with
          | none => rw [h2] at e; cases e
          | some s =>
            rw [h2] at e
            simp only [Option.map_some, Option.bind_some, if_true] at e
            exact ih _ _ (fun g hg => hP g (List.mem_cons_of_mem _ hg)) (hl _ _ I2 h2) e

namespace Spec

/-- Frame times. -/
def isTiming : Logged → Bool
  | .timing _ _ => true
  | _ => false

/-- Stalls. -/
def isStalls : Logged → Bool
  | .stalls _ _ => true
  | _ => false

/-- All that a user and a platform's own saved states do: nothing sets `Telemetry.LogTiming`. -/
def byUser : Op → Prop
  | .load sw => sw.logTiming = false
  | .client on => on = false
  | _ => True

/-- Nothing that switches timing on. -/
def untimed : Op → Prop
  | .timing => False
  | .load sw => sw.timing = false ∧ sw.logTiming = false
  | .client on => on = false
  | _ => True

end Spec

theorem update_cases {p q : Tele α} {t : Int} {use : Option α} {ok : Bool} (h : p.update t use = some (q, ok)) :
    q = { p with t := t, usage := (p.usage.update t use).1 } ∨
      ((p.sw.timing || p.sw.logTiming) = true ∧ ∃ r, p.timing.update t = some r ∧ q = collected p t use r) := by
  rw [update_eq] at h
  split at h
  · split at h
    · rename_i h2
      cases hr : p.timing.update t with
      | none => rw [hr] at h; cases h
      | some r => rw [hr] at h; cases h; exact Or.inr ⟨h2, r, rfl, rfl⟩
    · cases h; exact Or.inl rfl
  · cases h; exact Or.inl rfl

theorem log_cases {cost : Entry α × Entry α → Int × Int × Int} {p q : Tele α} (h : p.logData cost = some q) :
    ∃ (lu : Int) (us : List Logged), q = logRest { p with lastUse := lu, log := p.log ++ us } ∧
      ((lu = p.lastUse ∧ us = []) ∨ (p.file = true ∧ p.t - p.lastUse ≥ 1000000000 ∧ lu = p.t ∧ (us = [] ∨ ∃ ds, us = [.usage p.t ds]))) := by
  rw [logData_eq] at h
  split at h
  · rename_i hc
    cases hd : p.usage.deltas windows with
    | none => rw [hd] at h; cases h
    | some ds =>
      rw [hd] at h
      cases h
      refine ⟨p.t, _, rfl, Or.inr ⟨hc.1, hc.2, rfl, ?_⟩⟩
      by_cases he : ds = []
      · exact Or.inl (if_pos he)
      · exact Or.inr ⟨_, if_neg he⟩
  · cases h
    exact ⟨p.lastUse, [], by simp, Or.inl ⟨rfl, rfl⟩⟩

/-! ### C119 -/

/-- Negation for **C119**: whatever a user does, with timing to be logged by the configuration
(`-platform.timing.log`) or by the overlay's button, no frame times are ever logged: both set the
configuration's field, and what is logged depends on the telemetry's.  States saved meanwhile do
not set it, either. -/
theorem timing_never_logged (cost : Entry α × Entry α → Int × Int × Int) (fs : List (TFrame α)) (p q : Tele α)
    (h0 : p.sw.logTiming = false) (h1 : p.collTiming = false) (h2 : p.log = [])
    (hops : ∀ f ∈ fs, ∀ o ∈ f.ops, byUser o) (hq : p.frames cost fs = some q) :
    q.sw.logTiming = false ∧ ∀ e ∈ q.log, isTiming e = false := by
  have key := frames_keep cost (fun p => p.sw.logTiming = false ∧ p.collTiming = false ∧ ∀ e ∈ p.log, isTiming e = false) byUser
    ?_ ?_ ?_ ?_ fs p q hops ⟨h0, h1, by simp [h2]⟩ hq
  · exact ⟨key.1, key.2.2⟩
  · rintro p t use q ok ⟨i1, i2, i3⟩ h
    rcases update_cases h with rfl | ⟨-, r, -, rfl⟩
    · exact ⟨i1, i2, i3⟩
    · exact ⟨i1, by show (p.collTiming || (p.sw.logTiming && r.2)) = false; rw [i1, i2]; rfl, i3⟩
  · rintro p o ho ⟨i1, i2, i3⟩
    cases o with
    | timing =>
      unfold Tele.op Tele.setTiming
      dsimp only
      split
      · split <;> exact ⟨i1, i2, i3⟩
      · exact ⟨i1, i2, i3⟩
    | stalls =>
      unfold Tele.op Tele.setStalls
      dsimp only
      split <;> exact ⟨i1, i2, i3⟩
    | logTiming => exact ⟨i1, i2, i3⟩
    | logStalls => exact ⟨i1, i2, i3⟩
    | load sw => exact ⟨ho, i2, i3⟩
    | client on => exact ⟨ho, i2, i3⟩
  · rintro p (_ | d) h <;> exact h
  · rintro p q ⟨i1, i2, i3⟩ h
    obtain ⟨lu, us, rfl, hus⟩ := log_cases h
    obtain ⟨-, -, e3, -, e5, -⟩ := logRest_same { p with lastUse := lu, log := p.log ++ us }
    refine ⟨by rw [e3]; exact i1, e5, ?_⟩
    rw [logRest_log]
    simp only [i2, Bool.false_eq_true, if_false, List.nil_append]
    intro e he
    rcases List.mem_append.1 he with he | he
    · rcases List.mem_append.1 he with he | he
      · exact i3 e he
      · rcases hus with ⟨-, rfl⟩ | ⟨-, -, -, rfl | ⟨ds, rfl⟩⟩
        · simp at he
        · simp at he
        · simp only [List.mem_singleton] at he; subst he; rfl
    · cases hcs : p.collStalls with
      | none => simp [hcs] at he
      | some r => simp only [hcs, List.mem_singleton] at he; subst he; rfl

namespace Spec

/-- What leaves timing alone. -/
def keepsTiming (o : Op) : Prop := o = .stalls ∨ o = .logTiming ∨ o = .logStalls

/-- The entries of some rounds, each of the same number of frames: at the time of the last frame,
the times between frames, sorted, from the last frame of the round before (`prev`); for the very
first frame, before which there is none, zero. -/
def rounds : Int → List (List Int) → List Logged
  | _, [] => []
  | prev, l :: ls =>
    .timing (l.getLastD 0) (((if prev = 0 then [0] else []) ++ gaps (times prev l)).insertionSort (· ≤ ·)) :: rounds (l.getLastD 0) ls

end Spec

theorem collected_ops {p : Tele α} (l : List Op) (h : ∀ o ∈ l, keepsTiming o) :
    (l.foldl Tele.op p).timing = p.timing ∧ (l.foldl Tele.op p).sw.logTiming = p.sw.logTiming ∧
    (l.foldl Tele.op p).sw.timing = p.sw.timing ∧
    (l.foldl Tele.op p).collTiming = p.collTiming ∧ (l.foldl Tele.op p).log = p.log ∧ (l.foldl Tele.op p).t = p.t ∧
    (l.foldl Tele.op p).usage = p.usage := by
  induction l generalizing p with
  | nil => exact ⟨rfl, rfl, rfl, rfl, rfl, rfl, rfl⟩
  | cons o l ih =>
    obtain ⟨a, b, b2, c, d, e, f⟩ := ih (p := p.op o) fun x hx => h x (List.mem_cons_of_mem _ hx)
    rw [List.foldl_cons, a, b, b2, c, d, e, f]
    rcases h o (by simp) with rfl | rfl | rfl
    · unfold Tele.op Tele.setStalls
      dsimp only
      split <;> exact ⟨rfl, rfl, rfl, rfl, rfl, rfl, rfl⟩
    · exact ⟨rfl, rfl, rfl, rfl, rfl, rfl, rfl⟩
    · exact ⟨rfl, rfl, rfl, rfl, rfl, rfl, rfl⟩

/-- A frame while timing is logged. -/
theorem frame_timed (cost : Entry α × Entry α → Int × Int × Int) {p : Tele α} (S : Sound p) (hl : p.sw.logTiming = true)
    (hc : p.collTiming = false) (f : TFrame α) (hu : f.use.isSome = true) (ho : ∀ o ∈ f.ops, keepsTiming o) (hlog : f.logs = true) :
    ∃ q r, p.timing.update f.t = some r ∧ p.frame cost f = some (q, true) ∧ Sound q ∧ q.sw.logTiming = true ∧ q.collTiming = false ∧
      q.timing = r.1 ∧
      q.log.filter isTiming = p.log.filter isTiming ++ if r.2 then [.timing f.t r.1.ds] else [] := by
  obtain ⟨q, hq, Q⟩ := S.frame cost f
  rw [hu] at hq
  obtain ⟨td, htd, -⟩ := update_steps p.timing S.i S.ds f.t
  generalize decide ((p.timing.i + 1) % p.timing.ts.length = 0) = fl at htd
  refine ⟨q, _, htd, hq, Q, ?_⟩
  have hup : p.update f.t f.use = some (collected p f.t f.use (td, fl), true) := by
    rw [update_eq, (usage_steps p.usage S.use f.t f.use).1, hu, htd, hl]
    simp
  unfold Tele.frame at hq
  rw [hup] at hq
  simp only [Option.bind_some, if_true, hlog] at hq
  obtain ⟨e1, e2, -, e4, e5, e6, e7⟩ := collected_ops (p := collected p f.t f.use (td, fl)) f.ops ho
  generalize hx : List.foldl Tele.op (collected p f.t f.use (td, fl)) f.ops = x at hq e1 e2 e4 e5 e6 e7
  have hfl : (x.flush f.stall).timing = x.timing ∧ (x.flush f.stall).sw = x.sw ∧ (x.flush f.stall).collTiming = x.collTiming ∧
      (x.flush f.stall).log = x.log ∧ (x.flush f.stall).t = x.t := by
    cases f.stall <;> exact ⟨rfl, rfl, rfl, rfl, rfl⟩
  generalize x.flush f.stall = y at hq hfl
  cases hld : y.logData cost with
  | none => rw [hld] at hq; cases hq
  | some z =>
    rw [hld] at hq
    cases hq
    obtain ⟨lu, us, rfl, hus⟩ := log_cases hld
    obtain ⟨g1, -, g3, -, g5, -⟩ := logRest_same { y with lastUse := lu, log := y.log ++ us }
    have hct : y.collTiming = fl := by
      rw [hfl.2.2.1, e4]
      show (p.collTiming || (p.sw.logTiming && fl)) = fl
      rw [hc, hl]; simp
    have htm : y.timing = td := by rw [hfl.1, e1]; rfl
    have ht : y.t = f.t := by rw [hfl.2.2.2.2, e6]; rfl
    refine ⟨by rw [g3]; show y.sw.logTiming = true; rw [hfl.2.1, e2]; exact hl, g5, by rw [g1]; exact htm, ?_⟩
    rw [logRest_log]
    simp only [List.filter_append, hct, ht, htm, hfl.2.2.2.1, e5]
    have h1 : us.filter isTiming = [] := by
      rcases hus with ⟨-, rfl⟩ | ⟨-, -, -, rfl | ⟨ds, rfl⟩⟩ <;> rfl
    rw [h1, List.append_nil]
    show p.log.filter isTiming ++ _ = _
    congr 1
    cases fl <;> cases y.collStalls <;> simp [isTiming]

theorem frames_append (cost : Entry α × Entry α → Int × Int × Int) (a b : List (TFrame α)) : ∀ (p : Tele α) (_ : Sound p),
    (∀ f ∈ a, f.use.isSome = true) → p.frames cost (a ++ b) = (p.frames cost a).bind fun q => q.frames cost b := by
  induction a with
  | nil => intro p _ _; rfl
  | cons f a ih =>
    intro p S h
    obtain ⟨q, hq, Q⟩ := S.frame cost f
    rw [h f (by simp)] at hq
    rw [List.cons_append, Tele.frames, Tele.frames, hq]
    simp only [Option.bind_some, if_true]
    exact ih q Q fun g hg => h g (List.mem_cons_of_mem _ hg)

/-- Frames within a round while timing is logged: nothing is logged of it. -/
theorem frames_timed (cost : Entry α × Entry α → Int × Int × Int) (fs : List (TFrame α)) : ∀ {p : Tele α} (_ : Sound p)
    (_ : p.sw.logTiming = true) (_ : p.collTiming = false)
    (_ : ∀ f ∈ fs, f.use.isSome = true ∧ f.logs = true ∧ ∀ o ∈ f.ops, keepsTiming o) {td : Timing}
    (_ : p.timing.updates (fs.map (·.t)) = some (td, List.replicate fs.length false)),
    ∃ q, p.frames cost fs = some q ∧ Sound q ∧ q.sw.logTiming = true ∧ q.collTiming = false ∧ q.timing = td ∧
      q.log.filter isTiming = p.log.filter isTiming := by
  induction fs with
  | nil =>
    intro p S hl hc _ td htd
    simp only [List.map_nil, Timing.updates, Option.some.injEq, Prod.mk.injEq] at htd
    exact ⟨p, rfl, S, hl, hc, htd.1, rfl⟩
  | cons f fs ih =>
    intro p S hl hc hfs td htd
    obtain ⟨hu, hlog, ho⟩ := hfs f (by simp)
    obtain ⟨q, r, hr, hq, Q, q1, q2, q3, q4⟩ := frame_timed cost S hl hc f hu ho hlog
    simp only [List.map_cons, Timing.updates, hr, Option.bind_some] at htd
    cases hrest : r.1.updates (fs.map (·.t)) with
    | none => rw [hrest] at htd; cases htd
    | some x =>
      rw [hrest] at htd
      simp only [Option.map_some, Option.some.injEq, Prod.mk.injEq, List.length_cons, List.replicate_succ, List.cons.injEq] at htd
      obtain ⟨rfl, hf, hx⟩ := htd
      obtain ⟨q', hq', Q', p1, p2, p3, p4⟩ := ih Q q1 q2 (fun g hg => hfs g (List.mem_cons_of_mem _ hg))
        (td := x.1) (by rw [q3, hrest, ← hx])
      refine ⟨q', ?_, Q', p1, p2, p3, ?_⟩
      · unfold Tele.frames
        rw [hq]
        simpa using hq'
      · rw [p4, q4, hf]
        simp

theorem stored_eq (prev : Int) (l : List Int) : stored prev l = (if prev = 0 then [0] else []) ++ gaps (times prev l) := by
  unfold stored times
  split <;> rfl

/-- **C119**, as far as it is so: with the telemetry's own switch set, by the client, and the worker
in time, while nothing switches timing off or on and no state is loaded, each round of frames is
logged once, at its end, with the times between its frames, and nothing else is logged of timing.
What is missing is that the configuration and the overlay cannot set this switch
(`timing_never_logged`) and that switching the panel off spoils what is logged
(`zeros_logged`). -/
theorem timing_logged_partial (cost : Entry α × Entry α → Int × Int × Int) (rs : List (List (TFrame α))) :
    ∀ (p : Tele α) (_ : Sound p) (_ : p.sw.logTiming = true) (_ : p.collTiming = false) (_ : p.timing.i = 0)
      (_ : ∀ l ∈ rs, l.length = p.timing.ts.length)
      (_ : ∀ l ∈ rs, ∀ f ∈ l, f.t ≠ 0 ∧ f.use.isSome = true ∧ f.logs = true ∧ ∀ o ∈ f.ops, keepsTiming o),
    ∃ q, p.frames cost rs.flatten = some q ∧ q.timing.i = 0 ∧
      q.log.filter isTiming = p.log.filter isTiming ++ rounds p.timing.stats.time (rs.map fun l => l.map (·.t)) := by
  induction rs with
  | nil => intro p _ _ _ hi _ _; exact ⟨p, rfl, hi, by simp [rounds]⟩
  | cons l rs ih =>
    intro p S hl hc hi hlen hfs
    have hl0 := hlen l (by simp)
    obtain ⟨a, f, rfl⟩ : ∃ a f, l = a ++ [f] := by
      rcases List.eq_nil_or_concat l with rfl | ⟨a, f, rfl⟩
      · have := S.i; simp at hl0; omega
      · exact ⟨a, f, by simp⟩
    simp only [List.length_append, List.length_singleton] at hl0
    have hF := hfs (a ++ [f]) (by simp)
    obtain ⟨q1, q2, q3, hround, -⟩ := round p.timing (a.map (·.t)) f.t hi (by simp; omega) (by rw [S.ds]; simp; omega) (by
      intro x hx
      have : x ∈ (a ++ [f]).map (·.t) := by simpa using hx
      obtain ⟨g, hg, rfl⟩ := List.mem_map.1 this
      exact (hF g hg).1)
    have hfill := fill (a.map (·.t)) p.timing (by simp; omega)
    rw [updates_append, hfill] at hround
    simp only [Option.bind_some, List.length_map] at hround
    rw [List.length_map] at hfill
    obtain ⟨x, hx, X, x1, x2, x3, x4⟩ := frames_timed cost a S hl hc
      (fun g hg => ⟨(hF g (by simp [hg])).2.1, (hF g (by simp [hg])).2.2⟩) hfill
    rw [← x3] at hround
    obtain ⟨y, r, hr, hy, Y, y1, y2, y3, y4⟩ := frame_timed cost X x1 x2 f (hF f (by simp)).2.1 (hF f (by simp)).2.2.2 (hF f (by simp)).2.2.1
    simp only [Timing.updates, hr, Option.bind_some, Option.map_some, Option.some.injEq, Prod.mk.injEq] at hround
    obtain ⟨hr1, hr2⟩ := hround
    have hr2 : r.2 = true := by
      have := congrArg List.getLast? hr2
      simpa using this
    have hyt : y.timing = _ := y3.trans hr1
    have hlen' : y.timing.ts.length = p.timing.ts.length := by rw [hyt]; simp; omega
    obtain ⟨q, hq, hqi, hql⟩ := ih y Y y1 y2 (by rw [hyt]) (fun l hl => by rw [hlen']; exact hlen l (List.mem_cons_of_mem _ hl))
      (fun l hl => hfs l (List.mem_cons_of_mem _ hl))
    refine ⟨q, ?_, hqi, ?_⟩
    · rw [List.flatten_cons, frames_append cost _ _ p S (fun g hg => (hF g hg).2.1),
        frames_append cost _ _ p S (fun g hg => (hF g (by simp [hg])).2.1), hx]
      simp only [Option.bind_some, Tele.frames, hy, if_true]
      exact hq
    · rw [hql, y4, x4, hr2, if_pos rfl, List.append_assoc]
      congr 1
      simp only [List.map_cons, rounds, List.singleton_append]
      have e1 : (List.map (·.t) (a ++ [f])).getLastD 0 = f.t := by simp
      have e2 : y.timing.stats.time = f.t := by rw [hyt]; simp only; rw [fold_time]
      rw [e1, e2, ← stored_eq, hr1]
      simp [sorted]

/-- New telemetry with rounds of `n` frames. -/
def made (n : Nat) : Tele Unit :=
  { timing := { ts := List.replicate n 0, ds := List.replicate n 0 }, usage := { data := List.replicate 600 { use := () } } }

/-- The durations of resource usage, as all zero. -/
def cost0 : Entry Unit × Entry Unit → Int × Int × Int := fun _ => (0, 0, 0)

/-- A frame at a time. -/
def at_ (t : Int) (ops : List Op := []) (stall : Option Int := none) (logs : Bool := true) : TFrame Unit :=
  { t, use := some (), ops, stall, logs }

theorem made_sound (n : Nat) (h : 0 < n) : Sound (made n) := 
  ⟨by show 0 < (List.replicate n (0 : Int)).length; rw [List.length_replicate]; exact h, rfl,
    by show 0 < (List.replicate 600 ({ use := () } : Entry Unit)).length; rw [List.length_replicate]; omega⟩

/-- The user asks for timing to be logged and switches the panel on: in two rounds nothing is
logged; the client sets the telemetry's switch: each round is logged. -/
example : ((made 2).frames cost0 [at_ 10 [.logTiming, .timing], at_ 12, at_ 15, at_ 16]).map (·.log) = some [] ∧
    ((made 2).frames cost0 [at_ 10 [.client true], at_ 12, at_ 15, at_ 16, at_ 20]).map (·.log) =
      some [.timing 15 [0, 3], .timing 20 [1, 4]] := by decide +kernel

example : rounds 0 [[12, 15], [16, 20]] = [.timing 15 [0, 3], .timing 20 [1, 4]] := by decide +kernel

/-- Negation for **C119**: switching the panel off in the frame that ends a round, while timing is
logged, logs zeros. -/
theorem zeros_logged : ((made 2).frames cost0 [at_ 10 [.client true, .timing], at_ 12, at_ 15 [.timing]]).map (·.log) =
    some [.timing 15 [0, 0]] := by decide +kernel

/-- Negation for **C119**: when the worker is late by a round, a round is lost. -/
theorem late_lost : ((made 2).frames cost0 [at_ 10 [.client true], at_ 12, at_ 15 [] none false, at_ 16 [] none false, at_ 20]).map (·.log) =
    some [.timing 20 [1, 4]] := by decide +kernel

/-! ### Switching the panel -/

/-- **C119**: the panel switched off and on again starts afresh, unless logging is asked for by the
configuration: the timing is as new. -/
theorem panel_afresh (p : Tele α) (h : p.sw.timing = true) (hc : p.cfgLog = false) :
    ((p.op .timing).op .timing).sw = p.sw ∧
      ((p.op .timing).op .timing).timing =
        { ts := List.replicate p.timing.ts.length 0, ds := List.replicate p.timing.ds.length 0 } := by
  obtain ⟨⟨s1, s2, s3, s4⟩, cfg, tm, st, pc, bl, t0, ct, cs, lu, us, fi, lg⟩ := p
  simp only at h hc
  subst h hc
  simp [Tele.op, Tele.setTiming, Timing.reset]

/-- Negation for **C119**: if it is, the time switched off counts as a frame. -/
theorem pause_counted : ((made 2).frames cost0 [at_ 10 [.logTiming, .timing], at_ 12, at_ 15 [.timing], at_ 16, at_ 900 [.timing], at_ 901,
    at_ 902]).map (·.timing.ds) = some [1, 886] := by decide +kernel

/-- **C119**: the rate shown is the measured one exactly while timing is on or logged. -/
theorem measured_iff (p : Tele α) : p.measured = true ↔ p.sw.timing = true ∨ p.sw.logTiming = true := by
  unfold Tele.measured
  simp

/-! ### C120 -/

/-- Negation for **C120**: while stalls are not tracked, nothing is shown or logged of them, also
when they are to be logged, or a loaded state says that they are tracked. -/
theorem untracked_nothing (cost : Entry α × Entry α → Int × Int × Int) (fs : List (TFrame α)) (p q : Tele α)
    (h0 : p.blocks = none) (h1 : p.collStalls = none) (h2 : p.log = []) (h3 : p.stats = {})
    (hops : ∀ f ∈ fs, ∀ o ∈ f.ops, o ≠ .stalls) (hq : p.frames cost fs = some q) :
    q.stats = {} ∧ ∀ e ∈ q.log, isStalls e = false := by
  have key := frames_keep cost (fun p => p.blocks = none ∧ p.collStalls = none ∧ p.stats = {} ∧ ∀ e ∈ p.log, isStalls e = false)
    (· ≠ .stalls) ?_ ?_ ?_ ?_ fs p q hops ⟨h0, h1, h3, by simp [h2]⟩ hq
  · exact key.2.2
  · rintro p t use q ok ⟨i1, i2, i3, i4⟩ h
    rcases update_cases h with rfl | ⟨-, r, -, rfl⟩
    · exact ⟨i1, i2, i3, i4⟩
    · simp only [collected, i1, i2, i3]
      exact ⟨rfl, trivial, trivial, i4⟩
  · rintro p o ho ⟨i1, i2, i3, i4⟩
    cases o with
    | timing =>
      unfold Tele.op Tele.setTiming
      dsimp only
      split
      · split <;> exact ⟨i1, i2, i3, i4⟩
      · exact ⟨i1, i2, i3, i4⟩
    | stalls => exact absurd rfl ho
    | logTiming => exact ⟨i1, i2, i3, i4⟩
    | logStalls => exact ⟨i1, i2, i3, i4⟩
    | load sw => exact ⟨i1, i2, i3, i4⟩
    | client on => exact ⟨i1, i2, i3, i4⟩
  · rintro p (_ | d) ⟨i1, i2, i3, i4⟩
    · exact ⟨i1, i2, i3, i4⟩
    · exact ⟨by simp [Tele.flush, i1], i2, i3, i4⟩
  · rintro p q ⟨i1, i2, i3, i4⟩ h
    obtain ⟨lu, us, rfl, hus⟩ := log_cases h
    obtain ⟨-, -, -, e4, -, e6, e7, -⟩ := logRest_same { p with lastUse := lu, log := p.log ++ us }
    refine ⟨by rw [e4]; exact i1, e6, by rw [e7]; exact i3, ?_⟩
    rw [logRest_log]
    simp only [i2, List.append_nil]
    intro e he
    rcases List.mem_append.1 he with he | he
    · rcases List.mem_append.1 he with he | he
      · exact i4 e he
      · rcases hus with ⟨-, rfl⟩ | ⟨-, -, -, rfl | ⟨ds, rfl⟩⟩
        · simp at he
        · simp at he
        · simp only [List.mem_singleton] at he; subst he; rfl
    · cases hct : p.collTiming <;> simp [hct] at he
      subst he; rfl

/-- Negation for **C120**: while timing is off, nothing is shown or logged of stalls, also when
they are tracked. -/
theorem untimed_nothing (cost : Entry α × Entry α → Int × Int × Int) (fs : List (TFrame α)) (p q : Tele α)
    (h0 : p.sw.timing = false ∧ p.sw.logTiming = false) (h1 : p.collStalls = none) (h2 : p.log = []) (h3 : p.stats = {})
    (hops : ∀ f ∈ fs, ∀ o ∈ f.ops, untimed o) (hq : p.frames cost fs = some q) :
    q.stats = {} ∧ ∀ e ∈ q.log, isStalls e = false := by
  have key := frames_keep cost (fun p => (p.sw.timing = false ∧ p.sw.logTiming = false) ∧ p.collStalls = none ∧ p.stats = {} ∧
      ∀ e ∈ p.log, isStalls e = false) untimed ?_ ?_ ?_ ?_ fs p q hops ⟨h0, h1, h3, by simp [h2]⟩ hq
  · exact key.2.2
  · rintro p t use q ok ⟨i1, i2, i3, i4⟩ h
    rcases update_cases h with rfl | ⟨hm, r, -, rfl⟩
    · exact ⟨i1, i2, i3, i4⟩
    · rw [i1.1, i1.2] at hm; cases hm
  · rintro p o ho ⟨i1, i2, i3, i4⟩
    cases o with
    | timing => exact ho.elim
    | stalls =>
      unfold Tele.op Tele.setStalls
      dsimp only
      split
      · exact ⟨i1, by simp [Tele.trackStalls, i2], i3, i4⟩
      · exact ⟨i1, by simp [Tele.trackStalls, i2], rfl, i4⟩
    | logTiming => exact ⟨i1, i2, i3, i4⟩
    | logStalls => exact ⟨i1, i2, i3, i4⟩
    | load sw => exact ⟨ho, i2, i3, i4⟩
    | client on => exact ⟨⟨i1.1, ho⟩, i2, i3, i4⟩
  · rintro p (_ | d) h <;> exact h
  · rintro p q ⟨i1, i2, i3, i4⟩ h
    obtain ⟨lu, us, rfl, hus⟩ := log_cases h
    obtain ⟨-, -, e3, -, -, e6, e7, -⟩ := logRest_same { p with lastUse := lu, log := p.log ++ us }
    refine ⟨by rw [e3]; exact i1, e6, by rw [e7]; exact i3, ?_⟩
    rw [logRest_log]
    simp only [i2, List.append_nil]
    intro e he
    rcases List.mem_append.1 he with he | he
    · rcases List.mem_append.1 he with he | he
      · exact i4 e he
      · rcases hus with ⟨-, rfl⟩ | ⟨-, -, -, rfl | ⟨ds, rfl⟩⟩
        · simp at he
        · simp at he
        · simp only [List.mem_singleton] at he; subst he; rfl
    · cases hct : p.collTiming <;> simp [hct] at he
      subst he; rfl

/-- A user who has stalls logged, with timing on, but not tracked; and one who has them tracked and
logged, but timing off: the stalls of two frames are neither shown nor logged. -/
example : ((made 4).frames cost0 [at_ 10 [.logStalls, .timing], at_ 20 [] (some 5), at_ 30 [] (some 5), at_ 40]).map (fun q => (q.stats, q.log)) =
      some ({}, []) ∧
    ((made 4).frames cost0 [at_ 10 [.logStalls, .stalls], at_ 20 [] (some 5), at_ 30 [] (some 5), at_ 40]).map (fun q => (q.stats, q.log)) =
      some ({}, []) := by decide +kernel

namespace Spec

/-- What leaves timing and stalls alone. -/
def quiet (o : Op) : Prop := o = .logTiming ∨ o = .logStalls

/-- The stalls of the frames from the last one that ended a round on, where rounds have `n` frames
and the first frame is number `i` of its round. -/
def pending (n i : Nat) (fs : List (TFrame α)) : List Int :=
  (fs.drop (n * ((i + fs.length) / n) - 1 - i)).filterMap (·.stall)

end Spec

theorem pending_snoc (n i : Nat) (hi : i < n) (fs : List (TFrame α)) (f : TFrame α) :
    pending n i (fs ++ [f]) = (if (i + fs.length + 1) % n = 0 then [] else pending n i fs) ++ f.stall.toList := by
  have hn : 0 < n := by omega
  have hd := Nat.div_add_mod (i + fs.length) n
  have hm := Nat.mod_lt (i + fs.length) hn
  have hfm : [f].filterMap (·.stall) = f.stall.toList := by cases h : f.stall <;> simp [h]
  unfold pending
  rw [List.length_append, List.length_singleton, ← Nat.add_assoc]
  by_cases h : (i + fs.length + 1) % n = 0
  · have h2 := Nat.div_add_mod (i + fs.length + 1) n
    rw [h] at h2
    rw [if_pos h, show n * ((i + fs.length + 1) / n) - 1 - i = fs.length by omega, List.drop_left, hfm]
    rfl
  · have h3 : (i + fs.length + 1) / n = (i + fs.length) / n := by
      rw [Nat.succ_div, if_neg (fun hdvd => h (Nat.mod_eq_zero_of_dvd hdvd)), Nat.add_zero]
    rw [if_neg h, h3, List.drop_append_of_le_length (by omega), List.filterMap_append, hfm]

theorem pending_length (n i : Nat) (hi : i < n) (fs : List (TFrame α)) :
    (pending n i fs).length ≤ (i + fs.length) % n + 1 ∧ (i + fs.length < n → (pending n i fs).length ≤ fs.length) := by
  have hd := Nat.div_add_mod (i + fs.length) n
  have hl : (pending n i fs).length ≤ fs.length - (n * ((i + fs.length) / n) - 1 - i) := by
    unfold pending
    refine le_trans (List.length_filterMap_le _ _) ?_
    rw [List.length_drop]
  constructor
  · by_cases h : i + fs.length < n
    · rw [Nat.mod_eq_of_lt h]; omega
    · have : 1 ≤ (i + fs.length) / n := (Nat.one_le_div_iff (by omega)).2 (by omega)
      have : n * 1 ≤ n * ((i + fs.length) / n) := Nat.mul_le_mul_left _ this
      omega
  · intro h; omega

/-- Tracking and timing are on, `fs` frames after tracking began. -/
structure Steady (n i : Nat) (fs : List (TFrame α)) (p : Tele α) : Prop where
  sound : Sound p
  len : p.timing.ts.length = n
  idx : p.timing.i = (i + fs.length) % n
  on : (p.sw.timing || p.sw.logTiming) = true
  stalls : p.sw.stalls = true
  blocks : ∃ b, p.blocks = some b ∧ b.cap = n ∧ b.len ≤ b.mem.length ∧ b.mem.take b.len = pending n i fs

theorem quiet_ops {p : Tele α} (l : List Op) (h : ∀ o ∈ l, quiet o) :
    (l.foldl Tele.op p).timing = p.timing ∧ (l.foldl Tele.op p).sw.logTiming = p.sw.logTiming ∧
    (l.foldl Tele.op p).sw.timing = p.sw.timing ∧ (l.foldl Tele.op p).sw.stalls = p.sw.stalls ∧
    (l.foldl Tele.op p).blocks = p.blocks ∧ (l.foldl Tele.op p).collStalls = p.collStalls ∧
    (l.foldl Tele.op p).log = p.log ∧ (l.foldl Tele.op p).t = p.t ∧ (l.foldl Tele.op p).stats = p.stats ∧
    (l.foldl Tele.op p).pct = p.pct := by
  induction l generalizing p with
  | nil => exact ⟨rfl, rfl, rfl, rfl, rfl, rfl, rfl, rfl, rfl, rfl⟩
  | cons o l ih =>
    have := ih (p := p.op o) fun x hx => h x (List.mem_cons_of_mem _ hx)
    rw [List.foldl_cons]
    rcases h o (by simp) with rfl | rfl <;> exact this

namespace Spec

/-- What is logged of stalls in the frame after `fs`: those pending; but if the frame ends a round
and stalls itself, its stall is in the place of the first. -/
def loggedStalls (n i : Nat) (fs : List (TFrame α)) (f : TFrame α) : List Int :=
  match f.stall, pending n i fs with
  | some d, _ :: l => if (i + fs.length + 1) % n = 0 then d :: l else pending n i fs
  | _, _ => pending n i fs

end Spec

theorem logRest_pct (p : Tele α) : (logRest p).pct = p.pct := by
  unfold logRest
  cases h1 : p.collTiming <;> cases h2 : p.collStalls <;> simp [h2]

/-- A frame while tracking and timing are on. -/
theorem frame_steady (cost : Entry α × Entry α → Int × Int × Int) {n i : Nat} (hi : i < n) {fs : List (TFrame α)} {p : Tele α}
    (S : Steady n i fs p) (f : TFrame α) (hu : f.use.isSome = true) (ho : ∀ o ∈ f.ops, quiet o) :
    ∃ q, p.frame cost f = some (q, true) ∧ Steady n i (fs ++ [f]) q ∧ q.stats = Tel.stallsUpdate f.t (pending n i fs) ∧
      (q.pct = if p.stats.time = 0 then none else some ((pending n i fs).sum, f.t - p.stats.time)) ∧
      (f.logs = true → p.sw.logStalls = true →
        q.log.filter isStalls = p.log.filter isStalls ++ [.stalls f.t (loggedStalls n i fs f)]) := by
  obtain ⟨q, hq, Q⟩ := S.sound.frame cost f
  rw [hu] at hq
  obtain ⟨td, htd, htd1, htd2, -⟩ := update_steps p.timing S.sound.i S.sound.ds f.t
  rw [S.len, S.idx, Nat.mod_add_mod] at htd htd1
  obtain ⟨b, hb, hcap, hmem, htake⟩ := S.blocks
  have hblen : b.len = (pending n i fs).length := by
    rw [← htake, List.length_take]; omega
  have hplen := pending_length n i hi fs
  obtain ⟨fl, hfl⟩ : ∃ fl, fl = decide ((i + fs.length + 1) % n = 0) := ⟨_, rfl⟩
  rw [← hfl] at htd
  have hup : p.update f.t f.use = some (collected p f.t f.use (td, fl), true) := by
    rw [update_eq, (usage_steps p.usage S.sound.use f.t f.use).1, hu, htd, S.on]
    simp
  have hq0 := hq
  unfold Tele.frame at hq
  rw [hup] at hq
  simp only [Option.bind_some, if_true] at hq
  obtain ⟨e1, e2, e3, e4, e5, e6, e7, e8, e9, e10⟩ := quiet_ops (p := collected p f.t f.use (td, fl)) f.ops ho
  generalize List.foldl Tele.op (collected p f.t f.use (td, fl)) f.ops = x at hq e1 e2 e3 e4 e5 e6 e7 e8 e9 e10
  -- the buffer after the collection and after the flush
  have hbs : (b.stalls fl).cap = n ∧ (b.stalls fl).mem = b.mem ∧
      (b.stalls fl).len = if (i + fs.length + 1) % n = 0 then 0 else b.len := by
    unfold Blocks.stalls
    by_cases h : (i + fs.length + 1) % n = 0
    · rw [if_pos (by rw [hfl, decide_eq_true h]; simp)]
      exact ⟨hcap, rfl, by rw [if_pos h]⟩
    · have hm := Nat.mod_lt (i + fs.length) (show 0 < n by omega)
      have hne : ¬ (i + fs.length) % n = n - 1 := by
        intro hc
        apply h
        rw [← Nat.mod_add_mod, hc, show n - 1 + 1 = n by omega, Nat.mod_self]
      have : ¬ b.len = b.cap := by omega
      rw [if_neg (by rw [hfl, decide_eq_false h]; simpa using this)]
      exact ⟨hcap, rfl, by rw [if_neg h]⟩
  have hxb : x.blocks = some (b.stalls fl) := by
    rw [e5]; show p.blocks.map _ = _; rw [hb]; rfl
  have hlen' : (b.stalls fl).len ≤ b.mem.length ∧ (b.stalls fl).len < n := by
    rw [hbs.2.2]
    split
    · exact ⟨by omega, by omega⟩
    · rename_i h
      have hm := Nat.mod_lt (i + fs.length) (show 0 < n by omega)
      have hne : ¬ (i + fs.length) % n = n - 1 := by
        intro hc
        apply h
        rw [← Nat.mod_add_mod, hc, show n - 1 + 1 = n by omega, Nat.mod_self]
      exact ⟨hmem, by omega⟩
  have hkeep : (b.stalls fl).mem.take (b.stalls fl).len = if (i + fs.length + 1) % n = 0 then [] else pending n i fs := by
    rw [hbs.2.1, hbs.2.2]
    split
    · rfl
    · exact htake
  have hy : ∃ c, (x.flush f.stall).blocks = some c ∧ c.cap = n ∧ c.len ≤ c.mem.length ∧ c.mem.take c.len = pending n i (fs ++ [f]) ∧
      c.mem.take b.len = loggedStalls n i fs f := by
    rw [pending_snoc n i hi, ← hkeep]
    unfold loggedStalls
    cases hst : f.stall with
    | none =>
      refine ⟨b.stalls fl, hxb, hbs.1, by rw [hbs.2.1]; exact hlen'.1, by simp, ?_⟩
      rw [hbs.2.1, htake]
    | some d =>
      refine ⟨(b.stalls fl).record d, by simp [Tele.flush, hxb], ?_⟩
      have hrec : (b.stalls fl).record d = { b.stalls fl with
          mem := b.mem.take (b.stalls fl).len ++ d :: b.mem.drop ((b.stalls fl).len + 1), len := (b.stalls fl).len + 1 } := by
        unfold Blocks.record
        rw [if_pos (by rw [hbs.1]; exact hlen'.2), hbs.2.1]
      rw [hrec]
      have htl : (b.mem.take (b.stalls fl).len).length = (b.stalls fl).len := by rw [List.length_take]; omega
      refine ⟨hbs.1, by simp only [List.length_append, List.length_cons, htl]; omega, ?_, ?_⟩
      · simp only [Option.toList_some]
        rw [hbs.2.1, List.take_append, htl, List.take_of_length_le (by rw [htl]; omega),
          show (b.stalls fl).len + 1 - (b.stalls fl).len = 1 by omega]
        rfl
      · simp only
        by_cases h : (i + fs.length + 1) % n = 0
        · rw [hbs.2.2, if_pos h]
          simp only [List.take_zero, List.nil_append, Nat.zero_add]
          rw [← htake]
          cases hbl : b.len with
          | zero => simp
          | succ k =>
            cases hm : b.mem with
            | nil => rw [hm] at hmem; simp at hmem; omega
            | cons y ys => simp [h]
        · rw [hbs.2.2, if_neg h, List.take_append, List.take_of_length_le (by rw [List.length_take]; omega)]
          have : b.len - (b.mem.take b.len).length = 0 := by rw [List.length_take]; omega
          rw [this, List.take_zero, List.append_nil, htake]
          cases hp : pending n i fs <;> simp [h]
  obtain ⟨c, hc, hccap, hclen, hctake, hclog⟩ := hy
  have hfl : (x.flush f.stall).timing = x.timing ∧ (x.flush f.stall).sw = x.sw ∧ (x.flush f.stall).collStalls = x.collStalls ∧
      (x.flush f.stall).log = x.log ∧ (x.flush f.stall).t = x.t ∧ (x.flush f.stall).stats = x.stats ∧ (x.flush f.stall).pct = x.pct := by
    cases f.stall <;> exact ⟨rfl, rfl, rfl, rfl, rfl, rfl, rfl⟩
  generalize x.flush f.stall = y at hq hfl hc
  have hyst : y.stats = Tel.stallsUpdate f.t (pending n i fs) := by
    rw [hfl.2.2.2.2.2.1, e9, ← htake]
    simp only [collected, hb, S.stalls, if_true]
  have hypct : y.pct = if p.stats.time = 0 then none else some ((pending n i fs).sum, f.t - p.stats.time) := by
    have hd := stalls_described f.t (pending n i fs)
    rw [hfl.2.2.2.2.2.2, e10]
    simp only [collected, hb, S.stalls, if_true, htake, hd.2.1, hd.2.2.1]
  have hytm : y.timing = td := by rw [hfl.1, e1]; rfl
  have hyon : (y.sw.timing || y.sw.logTiming) = true := by rw [hfl.2.1, e2, e3]; exact S.on
  have hysl : y.sw.stalls = true := by rw [hfl.2.1, e4]; exact S.stalls
  have hlen2 : td.ts.length = n := by rw [htd2, List.length_set]; exact S.len
  have hidx : td.i = (i + (fs ++ [f]).length) % n := by
    rw [htd1, List.length_append, List.length_singleton, Nat.add_assoc]
  refine ⟨q, hq0, ?_⟩
  cases hlog : f.logs with
  | false =>
    simp only [hlog, Bool.false_eq_true, if_false, Option.some.injEq, Prod.mk.injEq, and_true] at hq
    subst hq
    exact ⟨⟨Q, by rw [hytm]; exact hlen2, by rw [hytm]; exact hidx, hyon, hysl, c, hc, hccap, hclen, hctake⟩, hyst, hypct, by simp⟩
  | true =>
    simp only [hlog, if_true] at hq
    cases hld : y.logData cost with
    | none => rw [hld] at hq; cases hq
    | some z =>
      rw [hld] at hq
      cases hq
      obtain ⟨lu, us, rfl, hus⟩ := log_cases hld
      obtain ⟨g1, -, g3, g4, -, -, g7, -⟩ := logRest_same { y with lastUse := lu, log := y.log ++ us }
      have g8 := logRest_pct { y with lastUse := lu, log := y.log ++ us }
      refine ⟨⟨Q, by rw [g1]; show y.timing.ts.length = n; rw [hytm]; exact hlen2, by rw [g1]; show y.timing.i = _; rw [hytm]; exact hidx,
        by rw [g3]; exact hyon, by rw [g3]; exact hysl, c, by rw [g4]; exact hc, hccap, hclen, hctake⟩, by rw [g7]; exact hyst,
        by rw [g8]; exact hypct, fun _ hls => ?_⟩
      have hcs : y.collStalls = some (.shared b.len) := by
        rw [hfl.2.2.1, e6]
        simp only [collected, hb, hls, if_true]
      have hyt : y.t = f.t := by rw [hfl.2.2.2.2.1, e8]; rfl
      have hylog : y.log = p.log := by rw [hfl.2.2.2.1, e7]; rfl
      rw [logRest_log]
      simp only [hcs, hc, Ref.get, hclog, hyt, hylog, List.filter_append]
      have h1 : us.filter isStalls = [] := by
        rcases hus with ⟨-, rfl⟩ | ⟨-, -, -, rfl | ⟨ds, rfl⟩⟩ <;> rfl
      have h2 : (if y.collTiming = true then [Logged.timing f.t y.timing.ds] else []).filter isStalls = [] := by
        cases y.collTiming <;> rfl
      rw [h1, h2, List.append_nil, List.nil_append]
      rfl

theorem frames_steady (cost : Entry α × Entry α → Int × Int × Int) {n i : Nat} (hi : i < n) (rest : List (TFrame α)) :
    ∀ {fs : List (TFrame α)} {p : Tele α}, Steady n i fs p →
    (∀ f ∈ rest, f.use.isSome = true ∧ ∀ o ∈ f.ops, quiet o) →
    ∃ q, p.frames cost rest = some q ∧ Steady n i (fs ++ rest) q := by
  induction rest with
  | nil => intro fs p S _; exact ⟨p, rfl, by rw [List.append_nil]; exact S⟩
  | cons f rest ih =>
    intro fs p S h
    obtain ⟨q, hq, Q, -⟩ := frame_steady cost hi S f (h f (by simp)).1 (h f (by simp)).2
    obtain ⟨r, hr, R⟩ := ih Q fun g hg => h g (List.mem_cons_of_mem _ hg)
    refine ⟨r, ?_, by rw [List.append_assoc] at R; exact R⟩
    unfold Tele.frames
    rw [hq]
    exact hr

theorem steady_start {p : Tele α} (S : Sound p) (hm : p.measured = true) :
    Steady p.timing.ts.length p.timing.i [] (p.setStalls true) := by
  have hn := S.i
  refine ⟨⟨S.i, S.ds, S.use⟩, rfl, (Nat.mod_eq_of_lt hn).symm, hm, rfl, { cap := p.timing.ts.length }, ?_, rfl, le_refl _, by simp [pending]⟩
  show (if p.timing.ts.length = 0 then none else _) = _
  rw [if_neg (by omega)]

/-- **C120**, the panel: tracking is switched on while timing is on, at any frame of a round; then
in each frame what is shown is the number, the sum, the least and the greatest of the stalls of
the frames from the last one that ended a round on; none is missing. -/
theorem stalls_counted (cost : Entry α × Entry α → Int × Int × Int) {p : Tele α} (S : Sound p) (hm : p.measured = true)
    (fs : List (TFrame α)) (f : TFrame α) (h : ∀ g ∈ fs ++ [f], g.use.isSome = true ∧ ∀ o ∈ g.ops, quiet o) :
    let l := pending p.timing.ts.length p.timing.i fs
    ∃ q r, (p.setStalls true).frames cost fs = some q ∧ q.frame cost f = some (r, true) ∧
      r.stats.n = l.length ∧ r.stats.time = f.t ∧ r.stats.sum = l.sum ∧
      (l ≠ [] → Least r.stats.min l ∧ Greatest r.stats.max l) := by
  intro l
  obtain ⟨q, hq, Q⟩ := frames_steady cost S.i fs (steady_start S hm) fun g hg => h g (by simp [hg])
  rw [List.nil_append] at Q
  obtain ⟨r, hr, -, hst, -⟩ := frame_steady cost S.i Q f (h f (by simp)).1 (h f (by simp)).2
  have hd := stalls_described f.t l
  refine ⟨q, r, hq, hr, ?_⟩
  rw [hst]
  exact ⟨hd.1, hd.2.1, hd.2.2.1, hd.2.2.2.1⟩

/-- **C120**, the log, exactly: if stalls are to be logged at the beginning of a frame, one line is
logged in it, of all the stalls from the frame that ended the last round on; if the frame itself
ends a round and stalls, its stall takes the place of the first of them. -/
theorem stalls_logged (cost : Entry α × Entry α → Int × Int × Int) {p : Tele α} (S : Sound p) (hm : p.measured = true)
    (fs : List (TFrame α)) (f : TFrame α) (h : ∀ g ∈ fs ++ [f], g.use.isSome = true ∧ ∀ o ∈ g.ops, quiet o) (hl : f.logs = true) :
    ∃ q r, (p.setStalls true).frames cost fs = some q ∧ q.frame cost f = some (r, true) ∧
      (q.sw.logStalls = true → r.log.filter isStalls =
        q.log.filter isStalls ++ [.stalls f.t (loggedStalls p.timing.ts.length p.timing.i fs f)]) := by
  obtain ⟨q, hq, Q⟩ := frames_steady cost S.i fs (steady_start S hm) fun g hg => h g (by simp [hg])
  rw [List.nil_append] at Q
  obtain ⟨r, hr, -, -, -, hst⟩ := frame_steady cost S.i Q f (h f (by simp)).1 (h f (by simp)).2
  exact ⟨q, r, hq, hr, hst hl⟩

/-- **C120**, as far as it is so: a stall is in the line logged in the frame after, unless it is the
only one from the last round on, and that frame ends a round and stalls.  That it is in no other
line is not so (`stall_logged_again`). -/
theorem stall_logged_partial (n i : Nat) (hi : i < n) (fs : List (TFrame α)) (g f : TFrame α) (d : Int) (hd : g.stall = some d) :
    d ∈ loggedStalls n i (fs ++ [g]) f ∨
      (f.stall.isSome = true ∧ (i + fs.length + 2) % n = 0 ∧ pending n i (fs ++ [g]) = [d]) := by
  have hp := pending_snoc n i hi fs g
  rw [hd, Option.toList_some] at hp
  generalize (if (i + fs.length + 1) % n = 0 then [] else pending n i fs) = l at hp
  unfold loggedStalls
  rw [hp]
  cases hf : f.stall with
  | none => left; simp
  | some x =>
    cases l with
    | nil =>
      simp only [List.nil_append, List.length_append, List.length_singleton]
      by_cases h : (i + (fs.length + 1) + 1) % n = 0
      · right; exact ⟨rfl, by rw [← h]; congr 1, trivial⟩
      · left; rw [if_neg h]; simp
    | cons y l =>
      left
      simp only [List.cons_append]
      split <;> simp

/-- Tracking, timing and logging of stalls on; the second frame stalls for 5 and the third for 7. -/
example : ((made 4).frames cost0 [at_ 10 [.timing, .stalls, .logStalls], at_ 20 [] (some 5), at_ 30 [] (some 7), at_ 40]).map
    (fun q => (q.stats, q.log.getLast?)) = some (⟨2, 40, 5, 7, 12⟩, some (.stalls 40 [5, 7])) := by decide +kernel

/-- The frames of a round of four, the first of which was the last of the round before: the
stalls pending. -/
example : pending 4 0 [at_ 10, at_ 20 [] (some 5), at_ 30 [] (some 7), at_ 40 [] (some 9), at_ 50 [] (some 2)] = [9, 2] := by
  decide +kernel

/-- Negation for **C120**: a stall is logged again in each frame to the end of the round. -/
theorem stall_logged_again : ((made 4).frames cost0 [at_ 10 [.timing, .stalls, .logStalls], at_ 20 [] (some 5), at_ 30, at_ 40]).map
    (·.log) = some [.stalls 20 [], .stalls 30 [5], .stalls 40 [5]] := by decide +kernel

/-- Negation for **C120**: a stall in the frame that ends a round takes the place of the one in
the frame before, which is not logged at all. -/
theorem stall_lost : ((made 2).frames cost0 [at_ 10 [.timing, .stalls, .logStalls], at_ 20 [] (some 5), at_ 30 [] (some 7), at_ 40]).map
    (·.log) = some [.stalls 20 [], .stalls 30 [7], .stalls 40 [7]] := by decide +kernel

/-- Negation for **C120**: the share of the time spent in stalls is of the stalls of the whole round
but of the time of one frame: it is more than all of it. -/
theorem share_above_all : ((made 4).frames cost0 [at_ 10 [.timing, .stalls], at_ 20 [] (some 6), at_ 30 [] (some 6), at_ 40]).map
    (·.pct) = some (some (12, 10)) := by decide +kernel

/-! ### C121 -/

namespace Spec

/-- The times of the lines of resource usage. -/
def usageTimes (l : List Logged) : List Int :=
  l.filterMap fun e => match e with
    | .usage t _ => some t
    | _ => none

end Spec

/-- **C121**: lines of resource usage are at least a second apart, whatever is done. -/
theorem usage_apart (cost : Entry α × Entry α → Int × Int × Int) (fs : List (TFrame α)) (p q : Tele α) (h0 : p.log = [])
    (hq : p.frames cost fs = some q) : (usageTimes q.log).Pairwise fun a b => a + 1000000000 ≤ b := by
  have key := frames_keep cost (fun p => (usageTimes p.log).Pairwise (fun a b => a + 1000000000 ≤ b) ∧ ∀ t ∈ usageTimes p.log, t ≤ p.lastUse)
    (fun _ => True) ?_ ?_ ?_ ?_ fs p q (fun _ _ _ _ => trivial) ⟨by rw [h0]; exact List.Pairwise.nil, by simp [h0, usageTimes]⟩ hq
  · exact key.1
  · rintro p t use q ok h e
    rcases update_cases e with rfl | ⟨-, r, -, rfl⟩ <;> exact h
  · rintro p o - h
    cases o with
    | timing =>
      unfold Tele.op Tele.setTiming
      dsimp only
      split
      · split <;> exact h
      · exact h
    | stalls =>
      unfold Tele.op Tele.setStalls
      dsimp only
      split <;> exact h
    | logTiming => exact h
    | logStalls => exact h
    | load sw => exact h
    | client on => exact h
  · rintro p (_ | d) h <;> exact h
  · rintro p q ⟨i1, i2⟩ h
    obtain ⟨lu, us, rfl, hus⟩ := log_cases h
    obtain ⟨-, -, -, -, -, -, -, e8, -⟩ := logRest_same { p with lastUse := lu, log := p.log ++ us }
    rw [e8, logRest_log]
    have hrest : usageTimes ((if p.collTiming = true then [Logged.timing p.t p.timing.ds] else []) ++
        match p.collStalls with | some r => [.stalls p.t (r.get p.blocks)] | none => []) = [] := by
      cases p.collTiming <;> cases p.collStalls <;> rfl
    have hu : usageTimes (p.log ++ us ++ ((if p.collTiming = true then [Logged.timing p.t p.timing.ds] else []) ++
        match p.collStalls with | some r => [.stalls p.t (r.get p.blocks)] | none => [])) = usageTimes p.log ++ usageTimes us := by
      unfold usageTimes at hrest ⊢
      rw [List.filterMap_append, hrest, List.append_nil, List.filterMap_append]
    show (usageTimes (p.log ++ us ++ _)).Pairwise _ ∧ ∀ t ∈ usageTimes (p.log ++ us ++ _), t ≤ lu
    rw [hu]
    rcases hus with ⟨rfl, rfl⟩ | ⟨-, h2, rfl, rfl | ⟨ds, rfl⟩⟩
    · simp only [usageTimes, List.filterMap_nil, List.append_nil]; exact ⟨i1, i2⟩
    · simp only [usageTimes, List.filterMap_nil, List.append_nil]
      exact ⟨i1, fun t ht => by have := i2 t ht; omega⟩
    · show (usageTimes p.log ++ [p.t]).Pairwise _ ∧ ∀ t ∈ usageTimes p.log ++ [p.t], t ≤ p.t
      constructor
      · rw [List.pairwise_append]
        refine ⟨i1, by simp, ?_⟩
        intro a ha b hb
        have := i2 a ha
        simp only [List.mem_singleton] at hb
        omega
      · intro t ht
        rcases List.mem_append.1 ht with ht | ht
        · have := i2 t ht; omega
        · simp only [List.mem_singleton] at ht; omega

/-- Frames half a second apart, with a log file: a line of resource usage each second. -/
example : (({ made 4 with file := true } : Tele Unit).frames cost0
    ((List.range 7).map fun k => at_ (1000000000 + 500000000 * k))).map (fun q => usageTimes q.log) =
    some [2000000000, 3000000000, 4000000000] := by decide +kernel

namespace Spec

/-- JSON, without what is not needed here. -/
inductive Json where
  | num (i : Int)
  | str (s : String)
  | arr (l : List Json)
  | obj (l : List (String × Json))

mutual
/-- The shortest text. -/
def Json.text : Json → Bytes
  | .num i => itoa i
  | .str s => ascii "\"" ++ ascii s ++ ascii "\""
  | .arr l => ascii "[" ++ Json.items l ++ ascii "]"
  | .obj l => ascii "{" ++ Json.fields l ++ ascii "}"

/-- Some, with commas between. -/
def Json.items : List Json → Bytes
  | [] => []
  | [j] => j.text
  | j :: k :: l => j.text ++ ascii "," ++ Json.items (k :: l)

/-- Names and values, with commas between. -/
def Json.fields : List (String × Json) → Bytes
  | [] => []
  | [(s, j)] => ascii "\"" ++ ascii s ++ ascii "\":" ++ j.text
  | (s, j) :: k :: l => ascii "\"" ++ ascii s ++ ascii "\":" ++ j.text ++ ascii "," ++ Json.fields (k :: l)
end

/-- What is logged, as JSON. -/
def json (unix : Int → Int) : Logged → Json
  | .usage t ds => .obj [("t", .num (unix t)), ("name", .str "rusage_delta"),
      ("data", .arr (ds.map fun d => .obj [("dt", .num d.1), ("utime", .num d.2.1), ("stime", .num d.2.2)]))]
  | .timing t ds => .obj [("t", .num (unix t)), ("name", .str "timing"), ("data", .arr (ds.map .num))]
  | .stalls t ds => .obj [("t", .num (unix t)), ("name", .str "stalls"), ("stalls", .arr (ds.map .num))]

end Spec

/-- The texts as bytes. -/
theorem ascii_texts :
    ascii "{\"t\":" = [0x7B, 0x22, 0x74, 0x22, 0x3A] ∧
    ascii ",\"name\":\"rusage_delta\",\"data\":[" = [0x2C, 0x22, 0x6E, 0x61, 0x6D, 0x65, 0x22, 0x3A, 0x22, 0x72, 0x75, 0x73, 0x61, 0x67, 0x65, 0x5F, 0x64, 0x65, 0x6C, 0x74, 0x61, 0x22, 0x2C, 0x22, 0x64, 0x61, 0x74, 0x61, 0x22, 0x3A, 0x5B] ∧
    ascii "]}\n" = [0x5D, 0x7D, 0x0A] ∧
    ascii ",\"name\":\"timing\",\"data\":" = [0x2C, 0x22, 0x6E, 0x61, 0x6D, 0x65, 0x22, 0x3A, 0x22, 0x74, 0x69, 0x6D, 0x69, 0x6E, 0x67, 0x22, 0x2C, 0x22, 0x64, 0x61, 0x74, 0x61, 0x22, 0x3A] ∧
    ascii "}\n" = [0x7D, 0x0A] ∧
    ascii ",\"name\":\"stalls\",\"stalls\":" = [0x2C, 0x22, 0x6E, 0x61, 0x6D, 0x65, 0x22, 0x3A, 0x22, 0x73, 0x74, 0x61, 0x6C, 0x6C, 0x73, 0x22, 0x2C, 0x22, 0x73, 0x74, 0x61, 0x6C, 0x6C, 0x73, 0x22, 0x3A] ∧
    ascii "{\"dt\":" = [0x7B, 0x22, 0x64, 0x74, 0x22, 0x3A] ∧
    ascii ",\"utime\":" = [0x2C, 0x22, 0x75, 0x74, 0x69, 0x6D, 0x65, 0x22, 0x3A] ∧
    ascii ",\"stime\":" = [0x2C, 0x22, 0x73, 0x74, 0x69, 0x6D, 0x65, 0x22, 0x3A] ∧
    ascii "}" = [0x7D] ∧
    ascii "{" = [0x7B] ∧
    ascii "\"" = [0x22] ∧
    ascii "\":" = [0x22, 0x3A] ∧
    ascii "," = [0x2C] ∧
    ascii "[" = [0x5B] ∧
    ascii "]" = [0x5D] ∧
    ascii "t" = [0x74] ∧
    ascii "name" = [0x6E, 0x61, 0x6D, 0x65] ∧
    ascii "data" = [0x64, 0x61, 0x74, 0x61] ∧
    ascii "stalls" = [0x73, 0x74, 0x61, 0x6C, 0x6C, 0x73] ∧
    ascii "rusage_delta" = [0x72, 0x75, 0x73, 0x61, 0x67, 0x65, 0x5F, 0x64, 0x65, 0x6C, 0x74, 0x61] ∧
    ascii "timing" = [0x74, 0x69, 0x6D, 0x69, 0x6E, 0x67] ∧
    ascii "dt" = [0x64, 0x74] ∧
    ascii "utime" = [0x75, 0x74, 0x69, 0x6D, 0x65] ∧
    ascii "stime" = [0x73, 0x74, 0x69, 0x6D, 0x65] := by
  decide +kernel

theorem durations_items (d : Int) (l : List Int) : itoa d ++ moreDurations l = Json.items ((d :: l).map .num) := by
  induction l generalizing d with
  | nil => simp [moreDurations, Json.items, Json.text]
  | cons e l ih =>
    simp only [moreDurations, List.map_cons, Json.items, Json.text]
    rw [← List.map_cons, ← ih e]
    simp

theorem durations_text (l : List Int) : durations l = (Json.arr (l.map .num)).text := by
  cases l with
  | nil => simp [durations, Json.text, Json.items]
  | cons d l => rw [durations, durations_items, Json.text]

theorem usages_items (l : List (Int × Int × Int)) : ∀ k, usages k l = (if k > 0 ∧ l ≠ [] then ascii "," else []) ++
    Json.items (l.map fun d => .obj [("dt", .num d.1), ("utime", .num d.2.1), ("stime", .num d.2.2)]) := by
  induction l with
  | nil => intro k; simp [usages, Json.items]
  | cons d l ih =>
    intro k
    rw [usages, ih (k + 1)]
    cases l with
    | nil =>
      by_cases hk : k > 0 <;> simp [hk, Json.items, Json.text, Json.fields, ascii_texts]
    | cons e l =>
      by_cases hk : k > 0 <;> simp [hk, Json.items, Json.text, Json.fields, ascii_texts]

/-- **C121**: each entry is a line of JSON: the time, the name, and the data. -/
theorem line_json (unix : Int → Int) (e : Logged) : e.text unix = (json unix e).text ++ [0x0A] := by
  cases e with
  | usage t ds =>
    simp only [Logged.text, json, Json.text, Json.fields]
    rw [usages_items]
    simp [ascii_texts]
  | timing t ds =>
    simp only [Logged.text, json, Json.text, Json.fields]
    rw [durations_text]
    simp [ascii_texts, Json.text]
  | stalls t ds =>
    simp only [Logged.text, json, Json.text, Json.fields]
    rw [durations_text]
    simp [ascii_texts, Json.text]

example : (Logged.timing 5 [0, -3]).text (· + 2) = ascii "{\"t\":7,\"name\":\"timing\",\"data\":[0,-3]}\n" := by decide +kernel

/-- What an operation does to the stalls collected. -/
theorem op_coll (p : Tele α) (o : Op) : (p.op o).t = p.t ∧
    (o = .stalls → (p.op o).collStalls = p.collStalls.map fun r => .own (r.get p.blocks)) ∧
    (o ≠ .stalls → (p.op o).collStalls = p.collStalls ∧ (p.op o).blocks = p.blocks) := by
  cases o with
  | timing =>
    unfold Tele.op Tele.setTiming
    dsimp only
    split
    · split <;> simp
    · simp
  | stalls =>
    unfold Tele.op Tele.setStalls
    dsimp only
    split <;> simp [Tele.trackStalls]
  | logTiming => simp [Tele.op]
  | logStalls => simp [Tele.op]
  | load sw => simp [Tele.op]
  | client on => simp [Tele.op]

theorem ops_t (l : List Op) (p : Tele α) : (l.foldl Tele.op p).t = p.t := by
  induction l generalizing p with
  | nil => rfl
  | cons o l ih => rw [List.foldl_cons, ih, (op_coll p o).1]

theorem ops_own (l : List Op) (p : Tele α) (x : List Int) (h : p.collStalls = some (.own x)) :
    (l.foldl Tele.op p).collStalls = some (.own x) := by
  induction l generalizing p with
  | nil => exact h
  | cons o l ih =>
    rw [List.foldl_cons]
    apply ih
    by_cases ho : o = .stalls
    · rw [(op_coll p o).2.1 ho, h]; rfl
    · rw [((op_coll p o).2.2 ho).1, h]

theorem ops_switch (l : List Op) (p : Tele α) (r : Ref) (h : p.collStalls = some r) (hs : Op.stalls ∈ l) :
    (l.foldl Tele.op p).collStalls = some (.own (r.get p.blocks)) := by
  induction l generalizing p with
  | nil => cases hs
  | cons o l ih =>
    rw [List.foldl_cons]
    by_cases ho : o = .stalls
    · apply ops_own
      rw [(op_coll p o).2.1 ho, h]; rfl
    · obtain ⟨h1, h2⟩ := (op_coll p o).2.2 ho
      rw [ih (p.op o) (h1.trans h) (by rcases List.mem_cons.mp hs with e | e; exact absurd e.symm ho; exact e), h2]

/-- **C120**: switching the tracking of stalls off or on in a frame loses nothing of what was
collected in it: whatever else is done to the switches then, and whether the flush stalls or not, one
line is logged, of the stalls the output had recorded when the frame began. -/
theorem switched_logged (cost : Entry α × Entry α → Int × Int × Int) {p : Tele α} (S : Sound p) (hm : p.measured = true)
    (b : Blocks) (hb : p.blocks = some b) (hl : p.sw.logStalls = true) (f : TFrame α) (hu : f.use.isSome = true)
    (hf : f.logs = true) (hs : Op.stalls ∈ f.ops) :
    ∃ q, p.frame cost f = some (q, true) ∧
      q.log.filter isStalls = p.log.filter isStalls ++ [.stalls f.t (b.mem.take b.len)] := by
  obtain ⟨td, e, -, -, -⟩ := update_steps p.timing S.i S.ds f.t
  have hm' : (p.sw.timing || p.sw.logTiming) = true := hm
  obtain ⟨h1, h2⟩ := usage_steps p.usage S.use f.t f.use
  unfold Tele.frame
  rw [update_eq, h1, hu, if_pos rfl, if_pos hm', e, Option.map_some, Option.bind_some]
  simp only [if_true, hf]
  generalize hc : collected p f.t f.use _ = c
  have c1 : c.collStalls = some (.shared b.len) := by rw [← hc]; simp [collected, hb, hl]
  have c2 : ∃ w, c.blocks = some (b.stalls w) := by rw [← hc]; exact ⟨_, by simp only [collected, hb, Option.map_some]; rfl⟩
  have c3 : c.log = p.log := by rw [← hc]; rfl
  have c4 : c.t = f.t := by rw [← hc]; rfl
  have c5 : Sound c := by
    obtain ⟨q, e', Q⟩ := S.update f.t f.use
    rw [update_eq, h1, hu, if_pos rfl, if_pos hm', e, Option.map_some, hc] at e'
    cases e'
    exact Q
  obtain ⟨w, c2⟩ := c2
  have hg : (Ref.shared b.len).get c.blocks = b.mem.take b.len := by
    rw [c2]
    unfold Ref.get Blocks.stalls
    dsimp only
    split <;> rfl
  have d1 := ops_switch f.ops c _ c1 hs
  rw [hg] at d1
  have d5 := (c5.ops f.ops).flush f.stall
  have fl : ∀ x : Tele α, (x.flush f.stall).t = x.t ∧ (x.flush f.stall).log = x.log ∧ (x.flush f.stall).collStalls = x.collStalls := by
    intro x
    unfold Tele.flush
    split <;> simp
  have ol : ∀ (l : List Op) (x : Tele α), (l.foldl Tele.op x).log = x.log := by
    intro l
    induction l with
    | nil => intro x; rfl
    | cons o l ih =>
      intro x
      rw [List.foldl_cons, ih]
      cases o <;> simp only [Tele.op, Tele.setTiming, Tele.setStalls, Tele.trackStalls] <;> repeat (first | rfl | split)
  generalize hy : (f.ops.foldl Tele.op c).flush f.stall = y at d5
  have y1 : y.collStalls = some (.own (b.mem.take b.len)) := by rw [← hy, (fl _).2.2, d1]
  have y2 : y.t = f.t := by rw [← hy, (fl _).1, ops_t, c4]
  have y3 : y.log = p.log := by rw [← hy, (fl _).2.1, ol, c3]
  have rest : ∀ x : Tele α, x.collStalls = some (.own (b.mem.take b.len)) → x.t = f.t →
      (logRest x).log.filter isStalls = x.log.filter isStalls ++ [.stalls f.t (b.mem.take b.len)] := by
    intro x hx ht
    unfold logRest
    by_cases h : x.collTiming = true
    · rw [if_pos h]
      simp only [hx, ht, Ref.get, List.filter_append]
      simp [isStalls]
    · rw [if_neg h]
      simp only [hx, ht, Ref.get, List.filter_append]
      simp [isStalls]
  rw [logData_eq]
  split
  · obtain ⟨ds, e⟩ := deltas_some y.usage d5.use windows
    rw [e, Option.map_some, Option.map_some]
    refine ⟨_, rfl, ?_⟩
    rw [rest]
    · simp only [List.filter_append, y3]
      by_cases hd : ds = []
      · simp [hd]
      · simp [hd, isStalls]
    · exact y1
    · exact y2
  · exact ⟨_, rfl, by rw [rest y y1 y2, y3]⟩

/-- **C121**: a line of resource usage is over the last one to eight seconds, in nanoseconds. -/
theorem usage_line (cost : Entry α × Entry α → Int × Int × Int) {p : Tele α} (S : Sound p) (hf : p.file = true)
    (ht : p.lastUse + 1000000000 ≤ p.t) :
    ∃ q ds, p.logData cost = some q ∧
      p.usage.deltas [1000000000, 2000000000, 3000000000, 4000000000, 5000000000, 6000000000, 7000000000, 8000000000] = some ds ∧
      (q.log.filterMap fun e => match e with | .usage t l => some (t, l) | _ => none) =
        (p.log.filterMap fun e => match e with | .usage t l => some (t, l) | _ => none) ++
          (if ds = [] then [] else [(p.t, ds.map cost)]) := by
  have hw : windows = [1000000000, 2000000000, 3000000000, 4000000000, 5000000000, 6000000000, 7000000000, 8000000000] := by
    decide
  obtain ⟨ds, e⟩ := deltas_some p.usage S.use windows
  rw [logData_eq, if_pos ⟨hf, by omega⟩, e, Option.map_some]
  refine ⟨_, ds, rfl, by rw [← hw, e], ?_⟩
  unfold logRest
  dsimp only
  by_cases h : p.collTiming = true <;> rcases hc : p.collStalls with _ | r <;> by_cases hd : ds = [] <;>
    simp [h, hd, List.filterMap_append]

end Tel
end Anansi
