import Verif.Model.Profile
import Verif.Props.Sized
/-
C88: profiling runs between entering and leaving, into its file.
-/
set_option autoImplicit false

namespace Anansi
namespace Pfl
open Szd (File)

/-- What is always so. -/
structure Inv (c : Ctx) : Prop where
  /-- a running profiler is known to be running, and writes to the file of the context -/
  running : ∀ h, c.running = some h → c.active = true ∧ c.f = some h
  file : c.active = true → c.f.isSome = true
  /-- the file of the context is the only one that is open -/
  opened : c.opened = c.f.toList
  fresh : ∀ h, c.f = some h → h < c.next

theorem put_inv (c : Ctx) (h : Nat) (x : File) (i : Inv c) : Inv (c.put h x) := ⟨i.1, i.2, i.3, i.4⟩

theorem startOn_inv (c : Ctx) (h : Nat) (o : Calls) (hf : c.f = some h) (i : Inv c) : Inv (c.startOn h o).1 := by
  unfold Ctx.startOn
  split
  · exact i
  split
  · exact i
  simp only
  split
  · exact put_inv _ _ _ i
  split
  · exact put_inv _ _ _ (put_inv _ _ _ i)
  · refine ⟨?_, ?_, i.3, i.4⟩
    · intro g hg
      simp only at hg ⊢
      exact ⟨trivial, hf.trans hg⟩
    · intro _; simp only [Ctx.put]; rw [hf]; rfl

theorem created_inv (c : Ctx) (hf : c.f = none) (i : Inv c) : Inv c.created := by
  have ha : c.active = false := by
    cases h : c.active with
    | false => rfl
    | true => have := i.file h; rw [hf] at this; simp at this
  refine ⟨?_, ?_, ?_, ?_⟩
  · intro h hr
    have := (i.running h hr).1
    rw [ha] at this; simp at this
  · intro _; rfl
  · simp only [Ctx.created]
    rw [i.opened, hf]; rfl
  · intro h hh
    simp only [Ctx.created, Option.some.injEq] at hh ⊢
    omega

theorem start_inv (c : Ctx) (o : Calls) (i : Inv c) : Inv (c.start o).1 := by
  unfold Ctx.start
  split
  · rename_i h hf; exact startOn_inv c h o hf i
  · rename_i hf
    split
    · exact startOn_inv _ _ _ rfl (created_inv c hf i)
    · exact i

theorem emit_inv (c : Ctx) (b : Bytes) (i : Inv c) : Inv (c.emit b) := by
  unfold Ctx.emit
  split
  · exact put_inv _ _ _ i
  · exact i

theorem emit_same (c : Ctx) (b : Bytes) : (c.emit b).active = c.active ∧ (c.emit b).f = c.f ∧
    (c.emit b).opened = c.opened ∧ (c.emit b).next = c.next ∧ (c.emit b).running = c.running := by
  unfold Ctx.emit
  split <;> exact ⟨rfl, rfl, rfl, rfl, rfl⟩

theorem stop_inv (c : Ctx) (o : Calls) (i : Inv c) : Inv (c.stop o).1 := by
  have j := emit_inv c o.last i
  unfold Ctx.stop
  split
  · exact i
  simp only
  split
  · exact ⟨by intro h hh; simp at hh, j.2, j.3, j.4⟩
  · exact ⟨by intro h hh; simp at hh, by intro h; simp at h, j.3, j.4⟩

theorem stop_stops (c : Ctx) (o : Calls) (i : Inv c) : (c.stop o).1.running = none := by
  unfold Ctx.stop
  split
  · rename_i h
    cases hr : c.running with
    | none => rfl
    | some g => have := (i.running g hr).1; simp [this] at h
  simp only
  split <;> rfl

theorem stop_file (c : Ctx) (o : Calls) : (c.stop o).1.f = c.f := by
  unfold Ctx.stop
  split
  · rfl
  simp only
  split <;> exact (emit_same c o.last).2.1

theorem create_inv (c : Ctx) (o : Calls) (i : Inv c) : Inv (c.create o).1 := by
  have hs : ∀ s : Ctx × Bool, Inv s.1 → s.1.running = none → (s.2 = true → s.1.active = false) →
      Inv (if !s.2 then s
        else if !o.namedOk then (s.1, false)
        else
          Ctx.start (match s.1.f with
            | some g => { s.1.created with opened := s.1.created.opened.erase g }
            | none => s.1.created) o).1 := by
    intro s is hr ha
    split
    · exact is
    split
    · exact is
    rename_i h1 _
    have ha := ha (by simpa using h1)
    apply start_inv
    split
    · rename_i g hg
      have hlt := is.fresh g hg
      refine ⟨?_, ?_, ?_, ?_⟩
      · intro h hh
        have hh : s.1.running = some h := hh
        rw [hr] at hh; simp at hh
      · intro _; rfl
      · simp only [Ctx.created]
        rw [is.opened, hg]
        have hne : s.1.next ≠ g := by omega
        simp [hne, List.erase_cons]
      · intro h hh
        simp only [Ctx.created, Option.some.injEq] at hh ⊢
        omega
    · rename_i hg
      exact created_inv _ hg is
  unfold Ctx.create
  by_cases ha : c.active = true
  · rw [if_pos ha]
    exact hs _ (stop_inv c o i) (stop_stops c o i) (by
      unfold Ctx.stop
      rw [if_neg (by simp [ha])]
      simp only
      split <;> simp)
  · rw [if_neg ha]
    have ha : c.active = false := by simpa using ha
    refine hs _ i ?_ (fun _ => ha)
    cases hr : c.running with
    | none => rfl
    | some g => have := (i.running g hr).1; rw [ha] at this; simp at this

theorem op_inv (c : Ctx) (x : Op) (i : Inv c) : Inv (c.op x) := by
  cases x with
  | enter o => simp only [Ctx.op, Ctx.enter]; split; exact i; exact start_inv c o i
  | exit o => simp only [Ctx.op, Ctx.exit]; split; exact i; exact stop_inv c o i
  | start o => exact start_inv c o i
  | stop o => exact stop_inv c o i
  | create o => exact create_inv c o i
  | emit b => exact emit_inv c b i

theorem run_inv (l : List Op) : ∀ c : Ctx, Inv c → Inv (c.run l) := by
  induction l with
  | nil => intro c i; exact i
  | cons x l ih => intro c i; exact ih _ (op_inv c x i)

theorem init_inv : Inv {} := ⟨by intro h hh; simp at hh, by simp, rfl, by intro h hh; simp at hh⟩

/-- **C88**: after any history, however system calls went: if the profiler runs, then into the file
of the context, which is open; and no other file has been left open. -/
theorem profile_file (l : List Op) (h : Nat) (hr : (({} : Ctx).run l).running = some h) :
    (({} : Ctx).run l).active = true ∧ (({} : Ctx).run l).f = some h ∧ (({} : Ctx).run l).opened = [h] := by
  have i := run_inv l {} init_inv
  have := i.running h hr
  exact ⟨this.1, this.2, by rw [i.opened, this.2]; rfl⟩

/-- **C88**: when the context is left, the profiler does not run any more: after any history, whatever
fails. -/
theorem exit_stops (l : List Op) (o : Calls) : ((({} : Ctx).run l).exit o).1.running = none := by
  have i := run_inv l {} init_inv
  unfold Ctx.exit
  split
  · rename_i hf
    cases hr : (({} : Ctx).run l).running with
    | none => rfl
    | some g =>
      have := (i.running g hr).2
      rw [this] at hf; simp at hf
  · exact stop_stops _ o i

/-- Syncing the file, if it comes to that, succeeds. -/
def Spec.synced : Op → Bool
  | .enter o => o.syncOk
  | .exit o => o.syncOk
  | .start o => o.syncOk
  | .stop o => o.syncOk
  | .create o => o.syncOk
  | .emit _ => true

/-- The profiler runs just when the context says it does. -/
def Spec.True (c : Ctx) : Prop := c.active = c.running.isSome

theorem start_true (c : Ctx) (o : Calls) (ht : Spec.True c) : Spec.True (c.start o).1 := by
  have h : ∀ (c : Ctx) (h : Nat), Spec.True c → Spec.True (c.startOn h o).1 := by
    intro c h ht
    unfold Ctx.startOn
    split
    · exact ht
    split
    · exact ht
    simp only
    split
    · exact ht
    split
    · exact ht
    · rfl
  unfold Ctx.start
  split
  · exact h _ _ ht
  · split
    · exact h _ _ ht
    · exact ht

theorem stop_true (c : Ctx) (o : Calls) (hs : o.syncOk = true) (ht : Spec.True c) : Spec.True (c.stop o).1 := by
  unfold Ctx.stop
  split
  · exact ht
  · simp only [hs]; rfl

theorem op_true (c : Ctx) (x : Op)
    (hs : Spec.synced x = true) (ht : Spec.True c) : Spec.True (c.op x) := by
  cases x with
  | enter o => simp only [Ctx.op, Ctx.enter]; split; exact ht; exact start_true c o ht
  | exit o => simp only [Ctx.op, Ctx.exit]; split; exact ht; exact stop_true c o hs ht
  | start o => exact start_true c o ht
  | stop o => exact stop_true c o hs ht
  | create o =>
    simp only [Ctx.op, Ctx.create]
    have h1 : Spec.True (if c.active then c.stop o else (c, true)).1 := by
      split
      · exact stop_true c o hs ht
      · exact ht
    generalize (if c.active then c.stop o else (c, true)) = s at *
    split
    · exact h1
    split
    · exact h1
    apply start_true
    split <;> exact h1
  | emit b =>
    simp only [Ctx.op]
    obtain ⟨h1, _, _, _, h2⟩ := emit_same c b
    unfold Spec.True
    rw [h1, h2]; exact ht

/-- **C88**: after any history in which syncing files succeeds, the profiler runs if and only if the
context says so; and entering without an error a context with a file leaves it running. (What is
missing: it should be so when syncing fails too.) -/
theorem enter_runs_partial (l : List Op)
    (hl : ∀ x ∈ l, Spec.synced x = true) :
    (({} : Ctx).run l).active = (({} : Ctx).run l).running.isSome ∧
    ∀ o h, (({} : Ctx).run l).f = some h → ((({} : Ctx).run l).enter o).2 = true → ((({} : Ctx).run l).enter o).1.running = some h := by
  have ht : Spec.True (({} : Ctx).run l) := by
    have : ∀ (l : List Op) (c : Ctx), (∀ x ∈ l, Spec.synced x = true) → Spec.True c → Spec.True (c.run l) := by
      intro l
      induction l with
      | nil => intro c _ h; exact h
      | cons x l ih =>
        intro c hl h
        exact ih _ (fun y hy => hl y (by simp [hy])) (op_true c x (hl x (by simp)) h)
    exact this l {} hl rfl
  have i := run_inv l {} init_inv
  refine ⟨ht, ?_⟩
  generalize ({} : Ctx).run l = c at *
  intro o h hf hok
  unfold Ctx.enter at hok ⊢
  rw [hf] at hok ⊢
  simp only [Option.isNone_some, Bool.false_eq_true, if_false, Ctx.start, hf] at hok ⊢
  unfold Ctx.startOn at hok ⊢
  by_cases ha : c.active = true
  · rw [if_pos ha]
    have hr : c.running.isSome = true := by rw [← ht]; exact ha
    obtain ⟨g, hg⟩ := Option.isSome_iff_exists.1 hr
    have := (i.running g hg).2
    rw [hf] at this
    simp only [hg]; exact this.symm
  · rw [if_neg ha] at hok ⊢
    split at hok
    · simp at hok
    rename_i h1
    rw [if_neg h1]
    simp only at hok ⊢
    split at hok
    · simp at hok
    rename_i h2
    rw [if_neg h2]
    split at hok
    · simp at hok
    rename_i h3
    rw [if_neg h3]

theorem emits_data (h : Nat) (l : List Bytes) : ∀ c : Ctx, c.running = some h → (c.files h).pos = (c.files h).data.length →
    ((c.run (l.map .emit)).files h).data = (c.files h).data ++ l.flatten ∧ (c.run (l.map .emit)).running = some h ∧
    ((c.run (l.map .emit)).files h).pos = ((c.run (l.map .emit)).files h).data.length ∧ (c.run (l.map .emit)).active = c.active := by
  induction l with
  | nil => intro c h1 h2; simp [Ctx.run, h1, h2]
  | cons b l ih =>
    intro c h1 h2
    have e : c.run ((b :: l).map .emit) = (c.emit b).run (l.map .emit) := rfl
    have e2 : c.emit b = c.put h ((c.files h).write b) := by unfold Ctx.emit; rw [h1]
    have e3 : (c.emit b).files h = (c.files h).write b := by rw [e2]; simp [Ctx.put]
    have e4 : ((c.files h).write b).data = (c.files h).data ++ b ∧ ((c.files h).write b).pos = ((c.files h).write b).data.length := by
      by_cases hb : b = []
      · subst hb; unfold File.write; simp [h2]
      · rw [Szd.write_eq _ _ hb, h2]; simp [Szd.upto]
    have hr : (c.emit b).running = some h := by rw [(emit_same c b).2.2.2.2]; exact h1
    obtain ⟨a1, a2, a3, a4⟩ := ih (c.emit b) hr (by rw [e3]; exact e4.2)
    rw [e]
    refine ⟨?_, a2, a3, a4.trans (emit_same c b).1⟩
    rw [a1, e3, e4.1]; simp

/-- **C88**: whatever was in the file, after entering, profiling and leaving it holds what the profiler wrote
meanwhile, and nothing else. -/
theorem profile_exact (c : Ctx) (h : Nat) (hf : c.f = some h) (ha : c.active = false)
    (o o' : Calls) (ho : (c.enter o).2 = true) (l : List Bytes) :
    ((((c.enter o).1.run (l.map .emit)).exit o').1.files h).data = l.flatten ++ o'.last := by
  have he : (c.enter o).1 = { (c.put h ⟨[], 0⟩) with running := some h, active := true } := by
    unfold Ctx.enter at ho ⊢
    rw [hf] at ho ⊢
    simp only [Option.isNone_some, Bool.false_eq_true, if_false, Ctx.start, hf] at ho ⊢
    unfold Ctx.startOn at ho ⊢
    rw [if_neg (by simp [ha])] at ho ⊢
    split at ho
    · simp at ho
    rename_i h1
    rw [if_neg h1]
    simp only at ho ⊢
    split at ho
    · simp at ho
    rename_i h2
    rw [if_neg h2]
    split at ho
    · simp at ho
    rename_i h3
    rw [if_neg h3]
    simp only [Ctx.put, File.seek, if_true, hf]
    congr 1
    funext i
    split <;> rfl
  have hs : ((c.enter o).1.files h) = ⟨[], 0⟩ := by rw [he]; simp [Ctx.put]
  obtain ⟨a1, a2, a3, a4⟩ := emits_data h l (c.enter o).1 (by rw [he]) (by rw [hs]; rfl)
  rw [hs] at a1
  have a4 : ((c.enter o).1.run (l.map .emit)).active = true := by rw [a4, he]
  have hfile : ((c.enter o).1.run (l.map .emit)).f = some h := by
    have : ∀ (l : List Bytes) (c : Ctx), (c.run (l.map .emit)).f = c.f := by
      intro l
      induction l with
      | nil => intro c; rfl
      | cons b l ih => intro c; exact (ih (c.emit b)).trans (emit_same c b).2.1
    rw [this, he]; exact hf
  generalize (c.enter o).1.run (l.map .emit) = d at *
  have hd : ((d.emit o'.last).files h).data = l.flatten ++ o'.last := by
    have := (emits_data h [o'.last] d a2 a3).1
    have e : d.run ([o'.last].map .emit) = d.emit o'.last := rfl
    rw [e] at this
    rw [this, a1]; simp
  unfold Ctx.exit
  rw [hfile]
  simp only [Option.isNone_some, Bool.false_eq_true, if_false]
  unfold Ctx.stop
  rw [if_neg (by simp [a4])]
  simp only
  split <;> exact hd

/-! ### Profiles written at the end -/

/-- **C88**: a profile written without an error when leaving is all that is in its file, whatever was
there before. -/
theorem snapshot_exact (s : Snap) (f : File) (o : SnapCalls) (hf : s.f = some f) (ha : s.active = true) (ho : (s.exit o).2 = true) :
    ∃ b g, o.profile = some b ∧ (s.exit o).1 = { active := false, f := some g } ∧ g.data = b := by
  unfold Snap.exit Snap.stop take at *
  simp only [hf, ha, Option.isNone_some, Bool.false_eq_true, if_false, Bool.not_true] at ho ⊢
  split at ho
  · simp at ho
  rename_i h1
  simp only [if_neg h1]
  split at ho
  · simp at ho
  rename_i h2
  simp only [if_neg h2]
  cases hp : o.profile with
  | none => rw [hp] at ho; simp at ho
  | some b =>
    refine ⟨b, _, rfl, rfl, ?_⟩
    by_cases hb : b = []
    · subst hb; simp [File.write]
    · simp only; rw [Szd.write_eq _ _ hb]; simp [File.seek, Szd.upto]

/-- **C88**: leaving writes every profile there is and stops the profilers, whatever fails. -/
theorem config_exit (c : Config) (ic : Inv c.cpu) (it : Inv c.trace) (o1 o2 : Calls) (os : List SnapCalls) :
    (c.exit o1 o2 os).1.cpu.running = none ∧ (c.exit o1 o2 os).1.trace.running = none ∧
    (c.exit o1 o2 os).1.snaps.length = c.snaps.length ∧
    ∀ (i : Nat) (s : Snap), c.snaps[i]? = some s → (c.exit o1 o2 os).1.snaps[i]? = some (s.exit (os[i]?.getD { profile := none })).1 := by
  have hx : ∀ (c : Ctx) (o : Calls), Inv c → (c.exit o).1.running = none := by
    intro c o i
    unfold Ctx.exit
    split
    · rename_i hf
      cases hr : c.running with
      | none => rfl
      | some g =>
        have := (i.running g hr).2
        rw [this] at hf; simp at hf
    · exact stop_stops _ o i
  have hl : ∀ (l : List Snap) (os : List SnapCalls), (exitSnaps l os).1.length = l.length ∧
      ∀ (i : Nat) (s : Snap), l[i]? = some s → (exitSnaps l os).1[i]? = some (s.exit (os[i]?.getD { profile := none })).1 := by
    intro l
    induction l with
    | nil => intro os; exact ⟨rfl, by intro i s h; simp at h⟩
    | cons x l ih =>
      intro os
      refine ⟨by simp [exitSnaps, (ih os.tail).1], ?_⟩
      intro i s h
      cases i with
      | zero =>
        simp only [List.getElem?_cons_zero, Option.some.injEq] at h
        subst h
        cases os <;> simp [exitSnaps]
      | succ i =>
        simp only [List.getElem?_cons_succ] at h
        have := (ih os.tail).2 i s h
        cases os with
        | nil => simpa [exitSnaps] using this
        | cons o os => simpa [exitSnaps] using this
  exact ⟨hx _ _ ic, hx _ _ it, (hl _ _).1, (hl _ _).2⟩

/-- Each of the profiles written at the end is left without an error. -/
def Spec.exitsOk : List Snap → List SnapCalls → Prop
  | [], _ => _root_.True
  | s :: l, os => (s.exit (os.headD { profile := none })).2 = true ∧ Spec.exitsOk l os.tail

/-- **C88**: leaving returns an error exactly if leaving any of the profiles does. -/
theorem config_exit_error (c : Config) (o1 o2 : Calls) (os : List SnapCalls) :
    (c.exit o1 o2 os).2 = true ↔
      (c.cpu.exit o1).2 = true ∧ (c.trace.exit o2).2 = true ∧ Spec.exitsOk c.snaps os := by
  have hl : ∀ (l : List Snap) (os : List SnapCalls), (exitSnaps l os).2 = true ↔ Spec.exitsOk l os := by
    intro l
    induction l with
    | nil => intro os; simp [exitSnaps, Spec.exitsOk]
    | cons x l ih =>
      intro os
      unfold exitSnaps Spec.exitsOk
      simp only [Bool.and_eq_true, ih]
      exact and_comm
  unfold Config.exit
  simp only [Bool.and_eq_true, hl]
  constructor
  · rintro ⟨⟨a, b⟩, d⟩; exact ⟨d, b, a⟩
  · rintro ⟨d, b, a⟩; exact ⟨⟨a, b⟩, d⟩

/-- The profiles written at the end after entering them one after the other up to the first
that fails. -/
def Spec.entered : List Snap → List SnapCalls → List Snap
  | [], _ => []
  | s :: l, os =>
    (s.enter (os.headD { profile := none })).1 ::
      if (s.enter (os.headD { profile := none })).2 then Spec.entered l os.tail else l

/-- **C88**: entering goes from one profile to the next up to the first that fails, and
leaves those after it as they were. -/
theorem config_enter_order (c : Config) (o1 o2 : Calls) (os : List SnapCalls) :
    (c.enter o1 o2 os).1.cpu = (c.cpu.enter o1).1 ∧
    (c.enter o1 o2 os).1.trace = (if (c.cpu.enter o1).2 then (c.trace.enter o2).1 else c.trace) ∧
    (c.enter o1 o2 os).1.snaps =
      (if (c.cpu.enter o1).2 && (c.trace.enter o2).2 then Spec.entered c.snaps os else c.snaps) ∧
    ((c.enter o1 o2 os).2 = true → (c.cpu.enter o1).2 = true ∧ (c.trace.enter o2).2 = true ∧
      ∀ (i : Nat) (s : Snap), c.snaps[i]? = some s → (s.enter (os[i]?.getD { profile := none })).2 = true) := by
  have h1 : ∀ (l : List Snap) (os : List SnapCalls), (enterSnaps l os).1 = Spec.entered l os := by
    intro l
    induction l with
    | nil => intro os; rfl
    | cons x l ih =>
      intro os
      unfold enterSnaps Spec.entered
      simp only
      rw [← ih]
      generalize x.enter (os.headD { profile := none }) = y
      cases y.2 <;> rfl
  have h2 : ∀ (l : List Snap) (os : List SnapCalls), (enterSnaps l os).2 = true →
      ∀ (i : Nat) (s : Snap), l[i]? = some s → (s.enter (os[i]?.getD { profile := none })).2 = true := by
    intro l
    induction l with
    | nil => intro os _ i s h; simp at h
    | cons x l ih =>
      intro os he i s h
      unfold enterSnaps at he
      simp only at he
      cases hx : (x.enter (os.headD { profile := none })).2 with
      | false => rw [hx] at he; simp at he
      | true =>
        simp only [hx, Bool.not_true, Bool.false_eq_true, if_false] at he
        cases i with
        | zero =>
          simp only [List.getElem?_cons_zero, Option.some.injEq] at h
          subst h
          cases os <;> simpa using hx
        | succ i =>
          simp only [List.getElem?_cons_succ] at h
          have := ih os.tail he i s h
          cases os <;> simpa using this
  unfold Config.enter
  cases ha : (c.cpu.enter o1).2 with
  | false => simp [ha]
  | true =>
    cases hb : (c.trace.enter o2).2 with
    | false => simp [ha, hb]
    | true =>
      simp only [ha, hb, Bool.not_true, Bool.false_eq_true, if_false, Bool.and_self, if_true, true_and]
      exact ⟨h1 _ _, h2 _ _⟩

/-! ### Examples and negations -/

/-- Entered, profiled, left, and again: only the second profile is in the file. -/
example : ((({} : Ctx).run [.start {}, .emit [1, 2, 3], .exit { last := [4] }, .enter {}, .emit [5], .exit {}]).files 0) = ⟨[5], 1⟩ := by
  decide +kernel

example : ({ active := true, f := some ⟨[1, 2, 3], 2⟩ } : Snap).exit { profile := some [7] } =
    ({ active := false, f := some ⟨[7], 1⟩ }, true) := by decide +kernel

/-- Negation for **C88**: if syncing the file fails, the context says that profiling runs when it does
not, and entering it again does not start it: nothing more is recorded, without an error. -/
theorem sync_failure_sticks :
    let c := ({} : Ctx).run [.start {}, .emit [1], .exit { syncOk := false }]
    c.active = true ∧ c.running = none ∧ (c.enter {}).2 = true ∧ (c.enter {}).1.running = none ∧
      (((c.enter {}).1.run [.emit [2]]).files 0).data = [1] := by decide +kernel

/-- Negation for **C88**: if tracing cannot be started, entering fails with CPU profiling left running. -/
theorem enter_failure_leaves : ∃ c : Config, c.cpu.running = none ∧
    (c.enter {} { seekOk := false } []).2 = false ∧ (c.enter {} { seekOk := false } []).1.cpu.running = some 0 :=
  ⟨{ cpu := { f := some 0, next := 1, opened := [0] }, trace := { f := some 0, next := 1, opened := [0] } },
    by decide +kernel⟩

end Pfl
end Anansi
