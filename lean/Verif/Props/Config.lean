import Verif.Model.Config
/-
C59 Platform configuration merging keeps the first setting.
-/
set_option autoImplicit false

namespace Anansi
namespace Cfg

/-- An option with a value that can be unset. -/
inductive Opt
  | logFile | cpuProfile | traceFile | memProfile | telemetryLog
deriving DecidableEq, Repr

/-- The value of an option; empty is unset. -/
def Config.get (c : Config) : Opt → Bytes
  | .logFile => c.logFileName
  | .cpuProfile => c.cpuProfileName
  | .traceFile => c.traceFileName
  | .memProfile => c.memProfileName
  | .telemetryLog => c.telemetryLogFileName

/-- The first value that is set. -/
def Spec.first (vs : List Bytes) : Bytes := (vs.find? (· ≠ [])).getD []

theorem merge_get (a b : Config) (o : Opt) : (a.merge b).get o = if a.get o = [] then b.get o else a.get o := by
  have key : ∀ x y : Bytes, pick x y = if x = [] then y else x := by
    intro x y
    unfold pick
    by_cases h1 : x = [] <;> by_cases h2 : y = [] <;> simp [h1, h2]
  cases o <;> exact key _ _

theorem merge_timing (a b : Config) : (a.merge b).logTiming = (a.logTiming || b.logTiming) := by
  show (if b.logTiming then true else a.logTiming) = _
  cases a.logTiming <;> cases b.logTiming <;> rfl

/-- **C59**: what is set is kept, what is unset is taken from the other (the timing flag
`StartTiming` is missing here, see `start_timing_dropped`). -/
theorem merge_keeps_partial (a b : Config) :
    (∀ o, a.get o ≠ [] → (a.merge b).get o = a.get o) ∧
    (∀ o, a.get o = [] → (a.merge b).get o = b.get o) ∧
    (a.logTiming = true → (a.merge b).logTiming = true) ∧
    (a.logTiming = false → (a.merge b).logTiming = b.logTiming) := by
  refine ⟨fun o h => ?_, fun o h => ?_, fun h => ?_, fun h => ?_⟩
  · rw [merge_get, if_neg h]
  · rw [merge_get, if_pos h]
  · rw [merge_timing, h]; rfl
  · rw [merge_timing, h]; rfl

theorem merge_start (a b : Config) : (a.merge b).startTiming = a.startTiming := rfl

theorem ext_get (a b : Config) (h : ∀ o, a.get o = b.get o) (h1 : a.logTiming = b.logTiming)
    (h2 : a.startTiming = b.startTiming) : a = b := by
  have e1 := h .logFile
  have e2 := h .cpuProfile
  have e3 := h .traceFile
  have e4 := h .memProfile
  have e5 := h .telemetryLog
  simp only [Config.get] at e1 e2 e3 e4 e5
  cases a; cases b
  simp only at *
  subst e1 e2 e3 e4 e5 h1 h2
  rfl

/-- **C59**: merging is associative. -/
theorem merge_assoc (a b c : Config) : (a.merge b).merge c = a.merge (b.merge c) := by
  apply ext_get
  · intro o
    simp only [merge_get]
    by_cases h1 : a.get o = []
    · rw [if_pos h1, if_pos h1]
    · rw [if_neg h1, if_neg h1, if_neg h1]
  · simp only [merge_timing, Bool.or_assoc]
  · simp only [merge_start]

/-- **C59**: the configuration of a new platform has for each option the first value that is
set, the command line coming first, and then the options in order. -/
theorem new_first (flags : Option Config) (opts : List Config) (o : Opt) :
    (new flags opts).get o = Spec.first ((flags.toList ++ opts).map fun c => c.get o) := by
  have key : ∀ (l : List Config) (a : Config), (l.foldl Config.merge a).get o =
      if a.get o = [] then Spec.first (l.map fun c => c.get o) else a.get o := by
    intro l
    induction l with
    | nil => intro a; simp [Spec.first]
    | cons b l ih =>
      intro a
      rw [List.foldl_cons, ih, merge_get, List.map_cons]
      unfold Spec.first
      by_cases h1 : a.get o = []
      · rw [if_pos h1, if_pos h1]
        by_cases h2 : b.get o = []
        · rw [if_pos h2, List.find?_cons_of_neg (by simp [h2])]
        · rw [if_neg h2, List.find?_cons_of_pos (by simp [h2])]; rfl
      · rw [if_neg h1, if_neg h1, if_neg h1]
  have h0 : ∀ o, ({} : Config).get o = [] := by intro o; cases o <;> rfl
  unfold new
  cases flags with
  | none => simp only; rw [key, if_pos (h0 o)]; rfl
  | some f =>
    simp only
    have := key (f :: opts) {}
    rw [if_pos (h0 o)] at this
    exact this

example : (new (some { logFileName := [1] }) [{ logFileName := [2], traceFileName := [3] }, { traceFileName := [4] }])
    = { logFileName := [1], traceFileName := [3] } := by decide

/-- Negation for **C59**: the flag `StartTiming` (`-platform.timing`) of another configuration
is never taken over. -/
theorem start_timing_dropped : ∃ a b : Config, a.startTiming = false ∧ b.startTiming = true ∧
    (a.merge b).startTiming = false := ⟨{}, { startTiming := true }, rfl, rfl, by decide⟩

/-- So no platform ever has it. -/
theorem start_timing_never (flags : Option Config) (opts : List Config) : (new flags opts).startTiming = false := by
  have key : ∀ (l : List Config) (a : Config), (l.foldl Config.merge a).startTiming = a.startTiming := by
    intro l
    induction l with
    | nil => intro a; rfl
    | cons b l ih => intro a; rw [List.foldl_cons, ih, merge_start]
  unfold new
  rw [key]
  cases flags with
  | none => rfl
  | some f => exact merge_start _ _

end Cfg
end Anansi
