import Verif.Model.ReplayText
import Verif.Props.Replay
/-
C116: how long a replay is said to be, and how its frames are shown.
-/
set_option autoImplicit false

namespace Anansi
namespace Rpl

theorem duration_eq {τ : Type} (ns : τ → Int) (f g : Frame τ) (l : List (Frame τ)) :
    duration ns (f :: (l ++ [g])) = timeSub (g.ns ns) (f.ns ns) := by
  have : (f :: (l ++ [g])).getLast (by simp) = g := List.getLast_concat (l := f :: l)
  rw [duration, this]

/-- **C116**: if every frame has a time, and they are at most 292 years apart, the duration is the time from the
first to the last.  (What is missing: frames without a time should not count.) -/
theorem duration_partial {τ : Type} (ns : τ → Int) (f g : Frame τ) (l : List (Frame τ)) (a b : τ) (hf : f.t = some a) (hg : g.t = some b)
    (h : |ns b - ns a| < 2 ^ 63) : duration ns (f :: l ++ [g]) = ns b - ns a := by
  rw [List.cons_append, duration_eq]
  unfold Frame.ns timeSub
  rw [hf, hg]
  simp only
  rw [abs_lt] at h
  omega

/-- **C116**: a single frame takes no time. -/
theorem duration_single {τ : Type} (ns : τ → Int) (f : Frame τ) : duration ns [f] = 0 := by
  simp [duration, timeSub]

/-- Negation for **C116**: the duration of every session that is recorded and read back is the largest there is, 292
years, as the first frame has no time: for all sessions that end after the year 292. -/
theorem duration_max {τ : Type} [DecidableEq τ] (fmt : τ → List Nat) (parse : Bytes → Option (Option τ)) (ht : Times fmt parse) (ns : τ → Int)
    (l : Session τ) (x : τ × List InItem) (hl : ∀ y ∈ l ++ [x], ∀ i ∈ y.2, i.Ok ∧ Spec.Plain i) (hx : 2 ^ 63 - 1 ≤ ns x.1)
    (full : Bool) (b : UInt8) (bs : Bytes) (hb : recorded fmt (l ++ [x]) = b :: bs) :
    ∃ frames, readInputReplay parse [.data b bs full, .eof] = some frames ∧ duration ns frames = 2 ^ 63 - 1 := by
  have key : ∃ y m, l ++ [x] = y :: m := by
    cases l with
    | nil => exact ⟨x, [], rfl⟩
    | cons y l => exact ⟨y, l ++ [x], rfl⟩
  obtain ⟨y, m, hm⟩ := key
  have h := session_partial fmt parse ht y m (by rw [← hm]; exact hl) full b bs (by rw [← hm]; exact hb)
  refine ⟨_, h, ?_⟩
  rw [← hm, List.map_append, List.map_cons, List.map_nil, duration_eq]
  simp only [Frame.ns, timeSub]
  omega

/-- Negation for **C116**: what was typed is not shown: frames that differ in it only have the same text. -/
theorem string_no_bytes {τ : Type} (time : Option τ → Bytes) (q : Bytes → Bytes) (f : Frame τ) (e : Option Bytes) (b c : Bytes)
    (hb : b ≠ []) (hc : c ≠ []) : ({ f with b } : Frame τ).string time q e = ({ f with b := c } : Frame τ).string time q e := by
  unfold Frame.string
  have h1 : ¬ b.length = 0 := by simpa using hb
  have h2 : ¬ c.length = 0 := by simpa using hc
  simp only [h1, h2, if_false]

/-- **C116**: the text tells whether anything was typed: it ends in "mark" exactly if not.  (What is missing: what was typed.) -/
theorem string_mark_partial {τ : Type} (time : Option τ → Bytes) (q : Bytes → Bytes) (hq : ∀ b, ∃ c, q b = c ++ [0x22]) (f : Frame τ) (e : Option Bytes) :
    markText <:+ f.string time q e ↔ f.b = [] := by
  unfold Frame.string
  constructor
  · intro h
    by_contra hb
    have h1 : ¬ f.b.length = 0 := by simpa using hb
    rw [if_neg h1] at h
    obtain ⟨c, hc⟩ := hq f.m
    obtain ⟨p, hp⟩ := h
    rw [hc] at hp
    have := congrArg List.getLast? hp
    have e1 : (p ++ markText).getLast? = some 0x6B := by
      rw [show markText = [0x20, 0x6D, 0x61, 0x72] ++ [0x6B] from rfl, ← List.append_assoc, List.getLast?_concat]
    have e2 : ∀ x : Bytes, (x ++ (0x20 :: (c ++ [0x22]))).getLast? = some 0x22 := by
      intro x
      rw [← List.cons_append, ← List.append_assoc, List.getLast?_concat]
    rw [e1, e2] at this
    simp at this
  · intro hb
    rw [hb]
    exact ⟨_, rfl⟩

/-- A recording of an "h" at the time "a" and an "i" at the time "b", a second later in our time: the replay is said to take 292
years. -/
example : let ns : Fin 4 → Int := fun t => 63677836800000000000 + 1000000000 * t.val
    (readInputReplay letterOf [avail (record fmt' 0 none [0x68] ++ record fmt' 1 none [0x69]) false, .eof]).map (duration ns) =
      some 9223372036854775807 := by decide +kernel

example : duration (τ := Int) id [{ t := some 5 }, {}, { t := some 9 }] = 4 := by decide +kernel

end Rpl
end Anansi
