import Verif.Model.PlatNew
import Verif.Props.Config
import Verif.Props.Telemetry
/-
C111 A new platform opens the files asked for and has the frame rate asked for.
-/
set_option autoImplicit false

namespace Anansi
namespace Pnw
open Cfg (Config)

/-- The order in which the files are opened. -/
def Spec.order : List Cfg.Opt := [.telemetryLog, .logFile, .cpuProfile, .traceFile, .memProfile]

/-- The error for a file that cannot be created. -/
def Spec.errOf : Cfg.Opt → Err
  | .telemetryLog => .telemetry
  | .logFile => .log
  | .cpuProfile => .cpu
  | .traceFile => .trace
  | .memProfile => .mem

/-- The file in use for a purpose. -/
def Spec.used (p : Plat) (w : World) : Cfg.Opt → Option Nat
  | .telemetryLog => p.telemetry
  | .logFile => w.logs.f
  | .cpuProfile => p.cpu
  | .traceFile => p.trace
  | .memProfile => p.heap.head?

/-- The configurations among the options. -/
def Spec.configs (opts : List Opt) : List Config :=
  opts.filterMap fun x => match x with
    | .config c => some c
    | .pointer c => some c
    | .frameRate _ => none

/-- The configurations that count, in order: that of the command line unless it was parsed by
someone else before or there is a `Config` among the options, and then all among the options. -/
def Spec.given (parsed : Bool) (flags : Config) (opts : List Opt) : List Config :=
  (if parsed = false ∧ opts.all (fun x => match x with | .config _ => false | _ => true) then [flags] else []) ++
    Spec.configs opts

/-- The frame rate: the last one asked for, or 60. -/
def Spec.rate (opts : List Opt) : Int :=
  ((opts.filterMap fun x => match x with | .frameRate n => some n | _ => none).getLast?).getD 60

/-- Before anything: files are given out in order. -/
structure World.Ok (w : World) : Prop where
  opened : ∀ h ∈ w.opened, h < w.next
  log : ∀ h, w.logs.f = some h → h < w.next

theorem log_f (s : Lgs.Sink) (m : Bytes) : (s.log m).f = s.f := by
  unfold Lgs.Sink.log
  cases hf : s.f with
  | none => simp [hf]
  | some h => simp only; split <;> [split; skip] <;> simp [Lgs.Sink.append, hf]

theorem start_f (s : Lgs.Sink) : s.start.f = s.f := by
  unfold Lgs.Sink.start
  split <;> rfl

/-- What holds after the files `done` were opened, from a given world on. -/
structure Opened (nm : Cfg.Opt → Bytes) (p0 : Plat) (w0 : World) (done : List Cfg.Opt) (p : Plat) (w : World) : Prop where
  use : ∀ i k, done[i]? = some k → Spec.used p w k = some (w0.next + i) ∧ w.name (w0.next + i) = nm k
  rest : ∀ k, k ∉ done → Spec.used p w k = Spec.used p0 w0 k
  heap : p.heap = (Spec.used p w .memProfile).toList
  next : w.next = w0.next + done.length
  opened : ∀ h, h ∈ w.opened ↔ (h ∈ w0.opened ∧ ¬ (Cfg.Opt.logFile ∈ done ∧ w0.logs.f = some h)) ∨ (w0.next ≤ h ∧ h < w.next)
  same : p.config = p0.config ∧ p.tick = p0.tick ∧ p.fps = p0.fps ∧ p.timing = p0.timing ∧ p.timingEnabled = p0.timingEnabled
  names : ∀ h, h < w0.next → w.name h = w0.name h

/-- A step of `setup`, for one of the files. -/
structure IsStep (o : Calls) (k : Cfg.Opt) (f : Plat → World → (Plat × World) × Option Err) : Prop where
  unset : ∀ p w, p.config.get k = [] → f p w = ((p, w), none)
  fails : ∀ p w, p.config.get k ≠ [] → o.createOk (p.config.get k) = false → f p w = ((p, w), some (Spec.errOf k))
  opens : ∀ p w, p.config.get k ≠ [] → o.createOk (p.config.get k) = true → (k = .memProfile → p.heap = []) →
    o.closeOk = true →
    ∃ p' w', f p w = ((p', w'), none) ∧
      (∀ j, Spec.used p' w' j = if j = k then some w.next else Spec.used p w j) ∧
      (p'.heap = if k = .memProfile then [w.next] else p.heap) ∧
      w'.next = w.next + 1 ∧
      (∀ h, w'.name h = if h = w.next then p.config.get k else w.name h) ∧
      (∀ h, h ∈ w'.opened ↔ (h ∈ w.opened ∨ h = w.next) ∧ (k = .logFile → w.logs.f ≠ some h)) ∧
      p'.config = p.config ∧ p'.tick = p.tick ∧ p'.fps = p.fps ∧ p'.timing = p.timing ∧ p'.timingEnabled = p.timingEnabled

theorem step_telemetry (o : Calls) : IsStep o .telemetryLog (setupTelemetry o) where
  unset p w h := by
    unfold setupTelemetry
    have : p.config.telemetryLogFileName = [] := h
    simp [this]
  fails p w h hc := by
    unfold setupTelemetry
    have h' : p.config.telemetryLogFileName ≠ [] := h
    have hc' : o.createOk p.config.telemetryLogFileName = false := hc
    simp [h', hc', Spec.errOf]
  opens p w h hc _ _ := by
    unfold setupTelemetry
    have h' : p.config.telemetryLogFileName ≠ [] := h
    have hc' : o.createOk p.config.telemetryLogFileName = true := hc
    simp only [ne_eq, h', not_false_eq_true, if_true, hc', Bool.not_true, Bool.false_eq_true, if_false]
    refine ⟨_, _, rfl, ?_, rfl, rfl, fun _ => rfl, ?_, rfl, rfl, rfl, rfl, rfl⟩
    · intro j; cases j <;> simp [Spec.used, log_f, World.create]
    · intro x; simp [World.create]

theorem step_log (o : Calls) : IsStep o .logFile (setupLog o) where
  unset p w h := by
    unfold setupLog
    have : p.config.logFileName = [] := h
    simp [this]
  fails p w h hc := by
    unfold setupLog
    have h' : p.config.logFileName ≠ [] := h
    have hc' : o.createOk p.config.logFileName = false := hc
    simp [h', hc', Spec.errOf]
  opens p w h hc _ ho := by
    unfold setupLog
    have h' : p.config.logFileName ≠ [] := h
    have hc' : o.createOk p.config.logFileName = true := hc
    simp only [ne_eq, h', not_false_eq_true, if_true, hc', Bool.not_true, Bool.false_eq_true, if_false, ho, Bool.and_false]
    refine ⟨_, _, rfl, ?_, rfl, rfl, fun _ => rfl, ?_, rfl, rfl, rfl, rfl, rfl⟩
    · intro j
      cases j <;> simp only [Spec.used, World.create, reduceCtorEq, if_false, if_true]
      unfold Lgs.Sink.setFile
      split
      · assumption
      · simp [start_f]
    · intro x
      simp only [World.create, List.mem_filter, List.mem_append, List.mem_singleton, true_implies]
      exact ⟨fun a => ⟨a.1, of_decide_eq_true a.2⟩, fun a => ⟨a.1, decide_eq_true a.2⟩⟩

theorem step_cpu (o : Calls) : IsStep o .cpuProfile (setupCpu o) where
  unset p w h := by
    unfold setupCpu
    have : p.config.cpuProfileName = [] := h
    simp [this]
  fails p w h hc := by
    unfold setupCpu
    have h' : p.config.cpuProfileName ≠ [] := h
    have hc' : o.createOk p.config.cpuProfileName = false := hc
    simp [h', hc', Spec.errOf]
  opens p w h hc _ _ := by
    unfold setupCpu
    have h' : p.config.cpuProfileName ≠ [] := h
    have hc' : o.createOk p.config.cpuProfileName = true := hc
    simp only [ne_eq, h', not_false_eq_true, if_true, hc', Bool.not_true, Bool.false_eq_true, if_false]
    refine ⟨_, _, rfl, ?_, rfl, rfl, fun _ => rfl, ?_, rfl, rfl, rfl, rfl, rfl⟩
    · intro j; cases j <;> simp [Spec.used, World.create]
    · intro x; simp [World.create]

theorem step_trace (o : Calls) : IsStep o .traceFile (setupTrace o) where
  unset p w h := by
    unfold setupTrace
    have : p.config.traceFileName = [] := h
    simp [this]
  fails p w h hc := by
    unfold setupTrace
    have h' : p.config.traceFileName ≠ [] := h
    have hc' : o.createOk p.config.traceFileName = false := hc
    simp [h', hc', Spec.errOf]
  opens p w h hc _ _ := by
    unfold setupTrace
    have h' : p.config.traceFileName ≠ [] := h
    have hc' : o.createOk p.config.traceFileName = true := hc
    simp only [ne_eq, h', not_false_eq_true, if_true, hc', Bool.not_true, Bool.false_eq_true, if_false]
    refine ⟨_, _, rfl, ?_, rfl, rfl, fun _ => rfl, ?_, rfl, rfl, rfl, rfl, rfl⟩
    · intro j; cases j <;> simp [Spec.used, World.create]
    · intro x; simp [World.create]

theorem step_mem (o : Calls) : IsStep o .memProfile (setupMem o) where
  unset p w h := by
    unfold setupMem
    have : p.config.memProfileName = [] := h
    simp [this]
  fails p w h hc := by
    unfold setupMem
    have h' : p.config.memProfileName ≠ [] := h
    have hc' : o.createOk p.config.memProfileName = false := hc
    simp [h', hc', Spec.errOf]
  opens p w h hc hh _ := by
    unfold setupMem
    have h' : p.config.memProfileName ≠ [] := h
    have hc' : o.createOk p.config.memProfileName = true := hc
    have hh := hh rfl
    simp only [ne_eq, h', not_false_eq_true, if_true, hc', Bool.not_true, Bool.false_eq_true, if_false]
    refine ⟨_, _, rfl, ?_, ?_, rfl, fun _ => rfl, ?_, rfl, rfl, rfl, rfl, rfl⟩
    · intro j; cases j <;> simp [Spec.used, World.create, hh]
    · simp [hh, World.create]
    · intro x; simp [World.create]

/-- The files asked for among `ks`, in order, and those of them before the first that cannot be
created. -/
def Spec.wanted (nm : Cfg.Opt → Bytes) (ks : List Cfg.Opt) : List Cfg.Opt := ks.filter (nm · ≠ [])

def Spec.created (o : Calls) (nm : Cfg.Opt → Bytes) (ks : List Cfg.Opt) : List Cfg.Opt :=
  (Spec.wanted nm ks).takeWhile fun k => o.createOk (nm k)

/-- After the steps for `ks`. -/
def After (o : Calls) (nm : Cfg.Opt → Bytes) (p0 : Plat) (w0 : World) (ks : List Cfg.Opt) (r : (Plat × World) × Option Err) : Prop :=
  r.2 = ((Spec.wanted nm ks)[(Spec.created o nm ks).length]?).map Spec.errOf ∧
    Opened nm p0 w0 (Spec.created o nm ks) r.1.1 r.1.2

theorem takeWhile_all {α : Type} (f : α → Bool) : ∀ l : List α, l[(l.takeWhile f).length]? = none → l.takeWhile f = l
  | [], _ => rfl
  | a :: l, h => by
    rw [List.takeWhile_cons] at h ⊢
    split
    · rename_i hf
      rw [if_pos hf] at h
      rw [takeWhile_all f l (by simpa using h)]
    · rename_i hf
      rw [if_neg hf] at h
      simp at h

theorem takeWhile_fail {α : Type} (f : α → Bool) (b : α) : ∀ l : List α, l[(l.takeWhile f).length]? ≠ none →
    (l ++ [b]).takeWhile f = l.takeWhile f ∧ (l ++ [b])[(l.takeWhile f).length]? = l[(l.takeWhile f).length]?
  | [], h => by simp at h
  | a :: l, h => by
    rw [List.takeWhile_cons] at h
    rw [List.cons_append, List.takeWhile_cons, List.takeWhile_cons]
    split
    · rename_i hf
      rw [if_pos hf] at h
      obtain ⟨h1, h2⟩ := takeWhile_fail f b l (by simpa using h)
      rw [h1]
      simpa using h2
    · simp

theorem after_step {o : Calls} {nm : Cfg.Opt → Bytes} {p0 : Plat} {w0 : World} {ks : List Cfg.Opt} {r : (Plat × World) × Option Err}
    (h : After o nm p0 w0 ks r) {k : Cfg.Opt} (hk : k ∉ ks) (hnm : ∀ k, nm k = p0.config.get k) (hm : p0.heap = [])
    (ok : w0.Ok) (ho : o.closeOk = true) {f : Plat → World → (Plat × World) × Option Err} (hf : IsStep o k f) :
    After o nm p0 w0 (ks ++ [k]) (andThen r f) := by
  obtain ⟨h1, h2⟩ := h
  have hw : Spec.wanted nm (ks ++ [k]) = Spec.wanted nm ks ++ (if nm k = [] then [] else [k]) := by
    unfold Spec.wanted
    rw [List.filter_append]
    by_cases hn : nm k = [] <;> simp [hn]
  have hcfg : p0.config = r.1.1.config := h2.same.1.symm
  have hget : r.1.1.config.get k = nm k := by rw [← hcfg, hnm]
  by_cases hx : (Spec.wanted nm ks)[(Spec.created o nm ks).length]? = none
  · have hall := takeWhile_all _ _ hx
    rw [hx] at h1
    have e : andThen r f = f r.1.1 r.1.2 := by unfold andThen; rw [h1]; rfl
    rw [e]
    by_cases hn : nm k = []
    · rw [hf.unset _ _ (by rw [hget]; exact hn)]
      rw [if_pos hn, List.append_nil] at hw
      unfold After Spec.created
      rw [hw]
      exact ⟨by rw [← Spec.created, hx]; rfl, h2⟩
    · rw [if_neg hn] at hw
      have hc' : Spec.created o nm ks = Spec.wanted nm ks := hall
      cases hc : o.createOk (nm k) with
      | false =>
        rw [hf.fails _ _ (by rw [hget]; exact hn) (by rw [hget]; exact hc)]
        have hcr : Spec.created o nm (ks ++ [k]) = Spec.created o nm ks := by
          unfold Spec.created
          rw [hw, List.takeWhile_append, if_pos (by rw [hall]), List.takeWhile_cons]
          simp [hc, hall]
        unfold After
        rw [hcr]
        refine ⟨?_, h2⟩
        rw [hw, hc']
        simp
      | true =>
        have hcr : Spec.created o nm (ks ++ [k]) = Spec.created o nm ks ++ [k] := by
          unfold Spec.created
          rw [hw, List.takeWhile_append, if_pos (by rw [hall]), List.takeWhile_cons]
          simp [hc, hall]
        have hkd : k ∉ Spec.created o nm ks := fun hm => by
          rw [hc'] at hm
          exact hk (List.mem_filter.mp hm).1
        have hheap : k = .memProfile → r.1.1.heap = [] := by
          intro e
          subst e
          rw [h2.heap, h2.rest _ hkd]
          simp [Spec.used, hm]
        obtain ⟨p', w', g1, g2, g3, g4, g5, g6, g7⟩ := hf.opens r.1.1 r.1.2 (by rw [hget]; exact hn) (by rw [hget]; exact hc) hheap ho
        rw [g1]
        unfold After
        rw [hcr]
        refine ⟨?_, ?_⟩
        · rw [hw, hc']
          simp
        · constructor
          · intro i j hi
            rw [List.getElem?_append] at hi
            split at hi
            · rename_i hl
              have hjk : j ≠ k := fun e => hkd (by rw [← e]; exact List.mem_of_getElem? hi)
              obtain ⟨u1, u2⟩ := h2.use i j hi
              refine ⟨by rw [g2, if_neg hjk, u1], ?_⟩
              rw [g5, if_neg (by rw [h2.next]; omega), u2]
            · rename_i hl
              have hi0 : i - (Spec.created o nm ks).length = 0 := by
                by_contra hne
                obtain ⟨m, hm'⟩ := Nat.exists_eq_succ_of_ne_zero hne
                rw [hm'] at hi
                simp at hi
              rw [hi0] at hi
              simp only [List.getElem?_cons_zero, Option.some.injEq] at hi
              subst hi
              have : w0.next + i = r.1.2.next := by rw [h2.next]; omega
              rw [this]
              exact ⟨by rw [g2, if_pos rfl], by rw [g5, if_pos rfl, hget]⟩
          · intro j hj
            simp only [List.mem_append, List.mem_singleton, not_or] at hj
            rw [g2, if_neg hj.2, h2.rest j hj.1]
          · rw [g3]
            by_cases hkm : k = .memProfile
            · rw [if_pos hkm, g2, if_pos hkm.symm]; rfl
            · rw [if_neg hkm, g2, if_neg (fun e => hkm e.symm), h2.heap]
          · rw [g4, h2.next]; simp; omega
          · intro x
            rw [g6, h2.opened, g4]
            have hn1 := h2.next
            simp only [List.mem_append, List.mem_singleton]
            by_cases hkl : k = .logFile
            · subst hkl
              have hlf : r.1.2.logs.f = w0.logs.f := h2.rest _ hkd
              rw [hlf]
              have hx1 := ok.log x
              constructor
              · rintro ⟨(⟨a, b⟩ | a) | a, c⟩
                · exact Or.inl ⟨a, fun d => c rfl d.2⟩
                · exact Or.inr (by omega)
                · exact Or.inr (by omega)
              · rintro (⟨a, b⟩ | a)
                · exact ⟨Or.inl (Or.inl ⟨a, fun d => b ⟨Or.inr rfl, d.2⟩⟩), fun _ d => b ⟨Or.inr rfl, d⟩⟩
                · refine ⟨?_, fun _ d => by have := hx1 d; omega⟩
                  by_cases hx2 : x = r.1.2.next
                  · exact Or.inr hx2
                  · exact Or.inl (Or.inr (by omega))
            · have e1 : ∀ q : Prop, (k = Cfg.Opt.logFile → q) ↔ True := fun q => ⟨fun _ => trivial, fun _ e => absurd e hkl⟩
              have e2 : (Cfg.Opt.logFile = k) ↔ False := ⟨fun e => hkl e.symm, False.elim⟩
              rw [e1, e2]
              constructor
              · rintro ⟨(a | a) | a, _⟩
                · exact Or.inl (by simpa using a)
                · exact Or.inr (by omega)
                · exact Or.inr (by omega)
              · rintro (a | a)
                · exact ⟨Or.inl (Or.inl (by simpa using a)), trivial⟩
                · refine ⟨?_, trivial⟩
                  by_cases hx2 : x = r.1.2.next
                  · exact Or.inr hx2
                  · exact Or.inl (Or.inr (by omega))
          · obtain ⟨s1, s2, s3, s4, s5⟩ := h2.same
            obtain ⟨q1, q2, q3, q4, q5⟩ := g7
            exact ⟨q1.trans s1, q2.trans s2, q3.trans s3, q4.trans s4, q5.trans s5⟩
          · intro x hx2
            rw [g5, if_neg (by rw [h2.next]; omega), h2.names x hx2]
  · obtain ⟨t1, t2⟩ := takeWhile_fail (fun k => o.createOk (nm k)) k _ hx
    have hr : r.2 ≠ none := by
      rw [h1]
      intro e
      exact hx (by simpa using e)
    have e : andThen r f = r := by
      unfold andThen
      split
      · rename_i hh; exact absurd hh hr
      · rfl
    rw [e]
    unfold After
    by_cases hn : nm k = []
    · rw [if_pos hn, List.append_nil] at hw
      unfold Spec.created
      rw [hw]
      exact ⟨h1, h2⟩
    · rw [if_neg hn] at hw
      have hcr : Spec.created o nm (ks ++ [k]) = Spec.created o nm ks := by
        unfold Spec.created
        rw [hw, t1]
      rw [hcr, hw]
      refine ⟨?_, h2⟩
      rw [h1]
      exact congrArg _ t2.symm

/-- `setup` opens the files in order until one fails. -/
theorem setup_after (o : Calls) (p : Plat) (w : World) (hm : p.heap = []) (ok : w.Ok) (ho : o.closeOk = true) :
    After o p.config.get { p with timingEnabled := p.config.logTiming } w Spec.order (setup o p w) := by
  have h0 : After o p.config.get { p with timingEnabled := p.config.logTiming } w []
      (({ p with timingEnabled := p.config.logTiming }, w), none) := by
    refine ⟨rfl, ⟨fun i k h => by simp [Spec.created, Spec.wanted] at h, fun _ _ => rfl, by simp [Spec.used, hm], rfl, ?_,
      ⟨rfl, rfl, rfl, rfl, rfl⟩, fun _ _ => rfl⟩⟩
    intro h
    have := ok.opened h
    simp [Spec.created, Spec.wanted]
  have h1 := after_step h0 (k := .telemetryLog) (by simp) (fun _ => rfl) hm ok ho (step_telemetry o)
  have h2 := after_step h1 (k := .logFile) (by simp) (fun _ => rfl) hm ok ho (step_log o)
  have h3 := after_step h2 (k := .cpuProfile) (by simp) (fun _ => rfl) hm ok ho (step_cpu o)
  have h4 := after_step h3 (k := .traceFile) (by simp) (fun _ => rfl) hm ok ho (step_trace o)
  exact after_step h4 (k := .memProfile) (by simp) (fun _ => rfl) hm ok ho (step_mem o)

/-- After the options: the configurations are merged, the last frame rate stays. -/
def Applied (opts : List Opt) (p q : Plat) : Prop :=
  p.applyAll opts = some q ∧ q.config = (Spec.configs opts).foldl Config.merge p.config ∧
    ((∀ n, Opt.frameRate n ∉ opts) → q.tick = p.tick ∧ q.fps = p.fps ∧ q.timing = p.timing) ∧
    ((∃ n, Opt.frameRate n ∈ opts) → q.tick = 1000000000 / Spec.rate opts ∧ q.fps = (Spec.rate opts).toNat ∧
      q.timing = (Spec.rate opts / 4).toNat) ∧
    q.heap = p.heap ∧ q.telemetry = p.telemetry ∧ q.cpu = p.cpu ∧ q.trace = p.trace

theorem applyAll_spec (opts : List Opt) (hr : ∀ n, Opt.frameRate n ∈ opts → 0 < n) : ∀ p : Plat, ∃ q, Applied opts p q := by
  induction opts with
  | nil => intro p; exact ⟨p, rfl, rfl, fun _ => ⟨rfl, rfl, rfl⟩, fun ⟨n, h⟩ => by simp at h, rfl, rfl, rfl, rfl⟩
  | cons x l ih =>
    intro p
    have ih := ih (fun n h => hr n (List.mem_cons_of_mem _ h))
    have cfg : ∀ c, (∀ n, x ≠ .frameRate n) → p.apply x = some { p with config := p.config.merge c } →
        Spec.configs [x] = [c] → ∃ q, Applied (x :: l) p q := by
      intro c hx h1 h2
      obtain ⟨q, g1, g2, g3, g4, g5⟩ := ih { p with config := p.config.merge c }
      refine ⟨q, ?_, ?_, ?_, ?_, g5⟩
      · rw [Plat.applyAll, h1]; exact g1
      · have : Spec.configs (x :: l) = c :: Spec.configs l := by
          have : Spec.configs (x :: l) = Spec.configs [x] ++ Spec.configs l := by
            unfold Spec.configs
            rw [← List.filterMap_append]
            rfl
          rw [this, h2]; rfl
        rw [this]
        exact g2
      · exact fun h => g3 fun n hn => h n (List.mem_cons_of_mem _ hn)
      · rintro ⟨n, hn⟩
        have hn' : Opt.frameRate n ∈ l := by
          rcases List.mem_cons.mp hn with e | e
          · exact absurd e.symm (hx n)
          · exact e
        have : Spec.rate (x :: l) = Spec.rate l := by
          unfold Spec.rate
          cases x with
          | config c => rfl
          | pointer c => rfl
          | frameRate n => exact absurd rfl (hx n)
        rw [this]
        exact g4 ⟨n, hn'⟩
    cases x with
    | config c => exact cfg c (by simp) rfl rfl
    | pointer c => exact cfg c (by simp) rfl rfl
    | frameRate n =>
      have hn := hr n (List.mem_cons_self ..)
      have e : p.apply (.frameRate n) = some { p with
          tick := 1000000000 / n
          fps := n.toNat
          timing := (n / 4).toNat } := by
        unfold Plat.apply Tel.frameRate
        simp only
        rw [if_neg (by omega)]
        simp
      obtain ⟨q, g1, g2, g3, g4, g5⟩ := ih { p with
          tick := 1000000000 / n
          fps := n.toNat
          timing := (n / 4).toNat }
      refine ⟨q, by rw [Plat.applyAll, e]; exact g1, g2, fun h => absurd (List.mem_cons_self ..) (h n), fun _ => ?_, g5⟩
      by_cases hl : ∃ m, Opt.frameRate m ∈ l
      · have : Spec.rate (.frameRate n :: l) = Spec.rate l := by
          obtain ⟨m, hm⟩ := hl
          unfold Spec.rate
          have hne : (l.filterMap fun x => match x with | .frameRate n => some n | _ => none) ≠ [] := by
            apply List.ne_nil_of_mem (a := m)
            exact List.mem_filterMap.mpr ⟨_, hm, rfl⟩
          rw [List.filterMap_cons]
          simp only
          rw [List.getLast?_cons_of_ne_nil hne]
        rw [this]
        exact g4 hl
      · have : Spec.rate (.frameRate n :: l) = n := by
          unfold Spec.rate
          have hnil : (l.filterMap fun x => match x with | .frameRate n => some n | _ => none) = [] := by
            rw [List.filterMap_eq_nil_iff]
            intro y hy
            cases y with
            | config c => rfl
            | pointer c => rfl
            | frameRate m => exact absurd ⟨m, hy⟩ hl
          rw [List.filterMap_cons, hnil]
          rfl
        rw [this]
        exact g3 fun m hm => hl ⟨m, hm⟩

theorem hasConfig_eq (opts : List Opt) :
    (!hasConfig opts) = opts.all (fun x => match x with | .config _ => false | _ => true) := by
  induction opts with
  | nil => rfl
  | cons x l ih => cases x <;> simp [hasConfig, ih]

/-- **C111**: what a new platform has, whatever options there are: the files for which a name was
given, each with the first name given for it, are opened anew in a fixed order up to the first
that cannot be created, which makes for the error; each is used for its purpose, and no other file is
opened or closed, except that the new log file replaces the old one; the platform ticks, keeps
estimates and timings as the last frame rate says. -/
theorem new_exact (o : Calls) (parsed : Bool) (flags : Config) (opts : List Opt) (w : World) (ok : w.Ok)
    (hn : o.notifyOk = true) (ho : o.closeOk = true) (hr : ∀ n, Opt.frameRate n ∈ opts → 0 < n) :
    let nm := fun k => Cfg.Spec.first ((Spec.given parsed flags opts).map fun c => c.get k)
    let done := Spec.created o nm Spec.order
    ∃ p w', new o parsed flags opts w = some ((p, w'), ((Spec.wanted nm Spec.order)[done.length]?).map Spec.errOf) ∧
      (∀ i k, done[i]? = some k → Spec.used p w' k = some (w.next + i) ∧ w'.name (w.next + i) = nm k) ∧
      (∀ k, k ∉ done → Spec.used p w' k = if k = .logFile then w.logs.f else none) ∧
      p.heap.length ≤ 1 ∧
      (∀ h, h ∈ w'.opened ↔ (h ∈ w.opened ∧ ¬ (Cfg.Opt.logFile ∈ done ∧ w.logs.f = some h)) ∨
        (w.next ≤ h ∧ h < w.next + done.length)) ∧
      p.tick = 1000000000 / Spec.rate opts ∧ p.fps = (Spec.rate opts).toNat ∧ p.timing = (Spec.rate opts / 4).toNat ∧
      (p.timingEnabled = true ↔ ∃ c ∈ Spec.given parsed flags opts, c.logTiming = true) := by
  intro nm done
  let p0 : Plat := if !parsed && !hasConfig opts then { config := Config.merge {} flags } else {}
  have hp0 : p0.tick = 1000000000 / 60 ∧ p0.fps = 60 ∧ p0.timing = 60 / 4 ∧ p0.heap = [] ∧ p0.telemetry = none ∧ p0.cpu = none ∧
      p0.trace = none := by
    dsimp only [p0]
    split <;> exact ⟨rfl, rfl, rfl, rfl, rfl, rfl, rfl⟩
  obtain ⟨q, g1, g2, g3, g4, g5, g6, g7, g8⟩ := applyAll_spec opts hr p0
  have hnew : new o parsed flags opts w = some (setup o q w) := by
    unfold new
    rw [hn]
    simp only [Bool.not_true, Bool.false_eq_true, if_false]
    show Option.map _ (p0.applyAll opts) = _
    rw [g1]
    rfl
  have hmerge : ∀ c : Config, ∀ k, (Config.merge {} c).get k = c.get k := by
    intro c k
    rw [Cfg.merge_get, if_pos (by cases k <;> rfl)]
  have hcfg : q.config = (Spec.given parsed flags opts).foldl Config.merge {} := by
    rw [g2]
    unfold Spec.given
    rw [← hasConfig_eq]
    dsimp only [p0]
    by_cases hb : (!parsed && !hasConfig opts) = true
    · rw [if_pos hb, if_pos (by simpa using hb)]
      rfl
    · rw [if_neg hb, if_neg (by simpa using hb)]
      rfl
  have hget : q.config.get = nm := by
    funext k
    have := Cfg.new_first none (Spec.given parsed flags opts) k
    simp only [Option.toList_none, List.nil_append] at this
    rw [hcfg]
    exact this
  obtain ⟨a1, a2⟩ := setup_after o q w (g5.trans hp0.2.2.2.1) ok ho
  rw [hget] at a1 a2
  refine ⟨(setup o q w).1.1, (setup o q w).1.2, by rw [hnew, ← a1], a2.use, ?_, ?_, ?_, ?_⟩
  · intro k hk
    rw [a2.rest k hk]
    cases k <;> simp [Spec.used, g5, g6, g7, g8, hp0]
  · rw [a2.heap]
    cases Spec.used (setup o q w).1.1 (setup o q w).1.2 .memProfile <;> simp
  · intro h
    rw [a2.opened, a2.next]
  · obtain ⟨s1, s2, s3, s4, s5⟩ := a2.same
    simp only at s2 s3 s4 s5
    rw [s2, s3, s4, s5]
    have ht : q.config.logTiming = true ↔ ∃ c ∈ Spec.given parsed flags opts, c.logTiming = true := by
      rw [hcfg]
      have key : ∀ (l : List Config) (a : Config), (l.foldl Config.merge a).logTiming = true ↔ a.logTiming = true ∨
          ∃ c ∈ l, c.logTiming = true := by
        intro l
        induction l with
        | nil => intro a; simp
        | cons b l ih =>
          intro a
          rw [List.foldl_cons, ih, Cfg.merge_timing]
          simp [or_assoc]
      rw [key]
      simp
    by_cases hf : ∃ n, Opt.frameRate n ∈ opts
    · obtain ⟨r1, r2, r3⟩ := g4 hf
      exact ⟨r1, r2, r3, ht⟩
    · have hf' : ∀ n, Opt.frameRate n ∉ opts := fun n h => hf ⟨n, h⟩
      obtain ⟨r1, r2, r3⟩ := g3 hf'
      have : Spec.rate opts = 60 := by
        unfold Spec.rate
        have hnil : (opts.filterMap fun x => match x with | .frameRate n => some n | _ => none) = [] := by
          rw [List.filterMap_eq_nil_iff]
          intro y hy
          cases y with
          | config c => rfl
          | pointer c => rfl
          | frameRate m => exact absurd hy (hf' m)
        rw [hnil]
        rfl
      rw [this, r1, r2, r3, hp0.1, hp0.2.1, hp0.2.2.1]
      exact ⟨rfl, rfl, rfl, ht⟩

/-- **C111**: if nothing fails, the files in use are exactly those named, each open, and different
from each other and from all before. -/
theorem new_uses (o : Calls) (parsed : Bool) (flags : Config) (opts : List Opt) (w : World) (ok : w.Ok)
    (hn : o.notifyOk = true) (ho : o.closeOk = true) (hr : ∀ n, Opt.frameRate n ∈ opts → 0 < n)
    (hc : ∀ nm, o.createOk nm = true) :
    ∃ p w', new o parsed flags opts w = some ((p, w'), none) ∧ ∀ k,
      match Cfg.Spec.first ((Spec.given parsed flags opts).map fun c => c.get k) with
      | [] => Spec.used p w' k = if k = .logFile then w.logs.f else none
      | nm => ∃ h, Spec.used p w' k = some h ∧ h ∈ w'.opened ∧ w.next ≤ h ∧ w'.name h = nm ∧
          ∀ j, Spec.used p w' j = some h → j = k := by
  obtain ⟨p, w', h1, h2, h3, h4, h5, _⟩ := new_exact o parsed flags opts w ok hn ho hr
  generalize hnm : (fun k => Cfg.Spec.first ((Spec.given parsed flags opts).map fun c => c.get k)) = nm at h1 h2 h3 h5
  have hdone : Spec.created o nm Spec.order = Spec.wanted nm Spec.order := by
    unfold Spec.created
    apply takeWhile_all
    have : ∀ l : List Cfg.Opt, l.takeWhile (fun k => o.createOk (nm k)) = l := by
      intro l
      induction l with
      | nil => rfl
      | cons a l ih => rw [List.takeWhile_cons, if_pos (hc _), ih]
    rw [this]
    simp
  rw [hdone] at h1 h2 h3 h5
  refine ⟨p, w', by rw [h1]; simp, fun k => ?_⟩
  have hk : Cfg.Spec.first ((Spec.given parsed flags opts).map fun c => c.get k) = nm k := by rw [← hnm]
  rw [hk]
  have hmem : k ∈ Spec.order := by cases k <;> decide
  have hw : k ∈ Spec.wanted nm Spec.order ↔ nm k ≠ [] := by
    unfold Spec.wanted
    simp [hmem]
  have hnd : (Spec.wanted nm Spec.order).Nodup := List.Nodup.filter _ (by decide)
  split
  · rename_i he
    exact h3 k (fun hh => hw.mp hh he)
  · rename_i hne
    obtain ⟨i, hi, hik⟩ := List.mem_iff_getElem.mp (hw.mpr hne)
    have hik' : (Spec.wanted nm Spec.order)[i]? = some k := by rw [List.getElem?_eq_getElem hi, hik]
    obtain ⟨u1, u2⟩ := h2 i k hik'
    refine ⟨w.next + i, u1, (h5 _).mpr (Or.inr (by omega)), by omega, u2, fun j hj => ?_⟩
    by_cases hjw : j ∈ Spec.wanted nm Spec.order
    · obtain ⟨m, hm, hmj⟩ := List.mem_iff_getElem.mp hjw
      have hmj' : (Spec.wanted nm Spec.order)[m]? = some j := by rw [List.getElem?_eq_getElem hm, hmj]
      have := (h2 m j hmj').1
      rw [hj] at this
      have : i = m := by simpa using this
      subst this
      rw [← hik, ← hmj]
    · have := h3 j hjw
      rw [hj] at this
      split at this
      · have := ok.log _ this.symm
        omega
      · cases this

/-- **C111**: `New` panics exactly if a frame rate is not positive (and the terminal's input can be
set up). -/
theorem new_panics_iff (o : Calls) (parsed : Bool) (flags : Config) (opts : List Opt) (w : World) (hn : o.notifyOk = true) :
    new o parsed flags opts w = none ↔ ∃ n, Opt.frameRate n ∈ opts ∧ n ≤ 0 := by
  have key : ∀ (l : List Opt) (p : Plat), p.applyAll l = none ↔ ∃ n, Opt.frameRate n ∈ l ∧ n ≤ 0 := by
    intro l
    induction l with
    | nil => intro p; simp [Plat.applyAll]
    | cons x l ih =>
      intro p
      cases x with
      | config c => simp [Plat.applyAll, Plat.apply, ih]
      | pointer c => simp [Plat.applyAll, Plat.apply, ih]
      | frameRate n =>
        by_cases h : n ≤ 0
        · simp only [Plat.applyAll, Plat.apply, Tel.frameRate, if_pos h, Option.map_none, Option.bind_none, true_iff]
          exact ⟨n, List.mem_cons_self .., h⟩
        · simp only [Plat.applyAll, Plat.apply, Tel.frameRate, if_neg h, Option.map_some, Option.bind_some, ih, List.mem_cons,
            Opt.frameRate.injEq]
          constructor
          · rintro ⟨m, h1, h2⟩; exact ⟨m, Or.inr h1, h2⟩
          · rintro ⟨m, h1 | h1, h2⟩
            · omega
            · exact ⟨m, h1, h2⟩
  unfold new
  rw [hn]
  simp only [Bool.not_true, Bool.false_eq_true, if_false, Option.map_eq_none_iff]
  exact key _ _

/-- Negation for **C111**: files that were opened before the error stay open, though the platform
is not returned. -/
theorem failed_leaves_open : ∃ p w', new { createOk := fun nm => nm ≠ [2] } true {} [.config { cpuProfileName := [1], memProfileName := [2] }]
      {} = some ((p, w'), some .mem) ∧ w'.opened = [0] := ⟨_, _, rfl, rfl⟩

/-- Negation for **C111**: a configuration given by pointer does not keep the flags of the command
line from being used, and they come first; one given by value does. -/
theorem pointer_overridden :
    (∃ p w', new {} false { logFileName := [1] } [.pointer { logFileName := [2] }] {} = some ((p, w'), none) ∧ w'.name 0 = [1]) ∧
    (∃ p w', new {} false { logFileName := [1] } [.config { logFileName := [2] }] {} = some ((p, w'), none) ∧ w'.name 0 = [2]) :=
  ⟨⟨_, _, rfl, rfl⟩, _, _, rfl, rfl⟩

/-- Two options with files and a frame rate. -/
example : ∃ p w', new {} true {} [.config { logFileName := [1], memProfileName := [5] }, .frameRate 30,
      .pointer { logFileName := [2], traceFileName := [3] }] {} = some ((p, w'), none) ∧
    w'.logs.f = some 0 ∧ w'.name 0 = [1] ∧ p.trace = some 1 ∧ w'.name 1 = [3] ∧ p.heap = [2] ∧ w'.name 2 = [5] ∧
    p.cpu = none ∧ p.tick = 33333333 ∧ p.timing = 7 := ⟨_, _, rfl, rfl, rfl, rfl, rfl, rfl, rfl, rfl, rfl, rfl⟩

example : ({} : World).Ok := ⟨by simp, by simp⟩

/-! ### C112 -/

/-- The lines that `MustRun` logs. -/
def Spec.lines (due fatal : Bytes → Bytes) (f : Failure) : Bytes :=
  match f.code with
  | none => fatal f.text
  | some c => if c = 0 then due f.text ++ fatal f.text else due f.text

/-- **C112**: without an error `MustRun` does nothing; with one the process ends, with the error's
code if it has one that is not zero, and with status 1 otherwise. -/
theorem mustRun_status (due fatal : Bytes → Bytes) (s : Lgs.Sink) :
    mustRun due fatal s none = (s, none) ∧
    ∀ f : Failure, (mustRun due fatal s (some f)).2 = some (match f.code with
      | some c => if c = 0 then 1 else (c % 256).toNat
      | none => 1) := by
  refine ⟨rfl, fun f => ?_⟩
  unfold mustRun
  obtain ⟨code, text⟩ := f
  cases code with
  | none => rfl
  | some c => by_cases h : c = 0 <;> simp [h, status]

/-- **C112**: a process that ends because of a signal has a status that tells which, and that is
neither 0 nor 1. -/
theorem signal_status (due fatal : Bytes → Bytes) (s : Lgs.Sink) (text : Bytes) (n : Nat) (h1 : 1 ≤ n) (h2 : n ≤ 64) :
    (mustRun due fatal s (some ⟨some (sigCode n), text⟩)).2 = some (256 - n) := by
  rw [(mustRun_status due fatal s).2]
  unfold sigCode
  simp only
  rw [if_neg (by omega)]
  congr 1
  omega

/-- Negation for **C112**: an error whose code is a multiple of 256 ends the process with status 0. -/
theorem status_zero (due fatal : Bytes → Bytes) (s : Lgs.Sink) (text : Bytes) :
    (mustRun due fatal s (some ⟨some 256, text⟩)).2 = some 0 := by
  rw [(mustRun_status due fatal s).2]
  rfl

theorem log_direct (s : Lgs.Sink) (h : Nat) (p : Bytes) (hf : s.f = some h) (hd : s.direct = true) (ho : h ∉ s.closed) :
    (s.log p).files h = s.files h ++ p ∧ (s.log p).f = some h ∧ (s.log p).direct = true ∧ (s.log p).closed = s.closed := by
  unfold Lgs.Sink.log
  rw [hf]
  simp [hd, ho, Lgs.Sink.append, hf]

theorem mustRun_direct (due fatal : Bytes → Bytes) (s : Lgs.Sink) (h : Nat) (f : Failure) (hf : s.f = some h)
    (hd : s.direct = true) (ho : h ∉ s.closed) :
    (mustRun due fatal s (some f)).1.files h = s.files h ++ Spec.lines due fatal f := by
  unfold mustRun Spec.lines
  obtain ⟨code, text⟩ := f
  cases code with
  | none => exact (log_direct s h _ hf hd ho).1
  | some c =>
    obtain ⟨g1, g2, g3, g4⟩ := log_direct s h (due text) hf hd ho
    by_cases hc : c = 0
    · simp only [hc, ne_eq, not_true_eq_false, if_false, if_true]
      rw [(log_direct _ h _ g2 g3 (by rw [g4]; exact ho)).1, g1, List.append_assoc]
    · simp only [ne_eq, hc, not_false_eq_true, if_true, if_false]
      exact g1

/-- **C112**: after a run, when the log's worker was stopped, the error is in the log file, after
all lines that were pending. -/
theorem reported_partial (due fatal : Bytes → Bytes) (s : Lgs.Sink) (h : Nat) (f : Failure) (hf : s.f = some h) (hw : s.w = true)
    (ha : s.alive = true) (ho : h ∉ s.closed) :
    (mustRun due fatal s.stop (some f)).1.files h = s.files h ++ s.fbuf ++ Spec.lines due fatal f := by
  have hs : s.stop = { s.append h s.fbuf with
      fbuf := []
      w := false
      alive := false
      direct := true } := by
    unfold Lgs.Sink.stop Lgs.Sink.wake
    simp [hf, hw, ha, ho]
  have hs1 : s.stop.files h = s.files h ++ s.fbuf := by rw [hs]; simp [Lgs.Sink.append]
  rw [mustRun_direct due fatal s.stop h f (by rw [hs]; exact hf) (by rw [hs]) (by rw [hs]; exact ho), hs1]

example : let s : Lgs.Sink := { f := some 0, w := true, alive := true, fbuf := [1] }
    (mustRun id id s.stop (some ⟨none, [2]⟩)).1.files 0 = [1, 2] := by decide +kernel

/-- Negation for **C112**: without a log file the error is nowhere but in the memory of the process
that ends (importing the platform sends the log there). -/
theorem error_only_in_memory (due fatal : Bytes → Bytes) (s : Lgs.Sink) (f : Failure) (hf : s.f = none) :
    (mustRun due fatal s (some f)).1.files = s.files := by
  have key : ∀ (s : Lgs.Sink) (p : Bytes), s.f = none → (s.log p).files = s.files := by
    intro s p h
    unfold Lgs.Sink.log
    rw [h]
  unfold mustRun
  obtain ⟨code, text⟩ := f
  cases code with
  | none => exact key s _ hf
  | some c =>
    simp only
    split
    · exact key s _ hf
    · exact (key _ _ ((log_f s _).trans hf)).trans (key s _ hf)

/-- Negation for **C112**: even with a log file, the error of a platform that could not be set up does not
get there, nor does anything logged since the file was set: it waits for the worker, which was
started already, to be told to write it. -/
theorem setup_error_lost (due fatal : Bytes → Bytes) (text : Bytes) :
    ∃ p w', new { createOk := fun nm => nm ≠ [2] } true {} [.config { logFileName := [1], cpuProfileName := [2] }] {} =
        some ((p, w'), some .cpu) ∧ w'.logs.f = some 0 ∧
      ∀ i, (mustRun due fatal w'.logs (some ⟨none, text⟩)).1.files i = [] :=
  ⟨_, _, rfl, rfl, fun _ => rfl⟩

end Pnw
end Anansi
