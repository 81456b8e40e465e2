import Verif.Model.OpenTerm
/-
C117: which files a terminal is opened with.
-/
set_option autoImplicit false

namespace Anansi
namespace Opn

namespace Spec

/-- Which of the two are to be opened: those that are not terminals; and whether all that can be had. -/
def need (o : Calls) (inn out : Nat) : Bool := (o.isTerminal inn || o.readOk) && (o.isTerminal out || o.writeOk)

end Spec
open Spec

/-- **C117**: files are returned exactly if each given file is a terminal or the process' terminal can be opened
in its place.  A file that is a terminal is kept, the others are replaced by the process' terminal, newly opened, the one for
reading and the other for writing, and nothing else is opened; nothing is closed. -/
theorem opens (o : Calls) (w : Files) (inn out : Nat) (i j : Nat) (w' : Files) (h : openTermFiles o w inn out = (w', some (i, j))) :
    need o inn out = true ∧ w'.closed = w.closed ∧
    (if o.isTerminal inn then i = inn else (i, false) ∈ w'.opened ∧ w'.name i = tty ∧ w.next ≤ i) ∧
    (if o.isTerminal out then j = out else (j, true) ∈ w'.opened ∧ w'.name j = tty ∧ w.next ≤ j) ∧
    w'.opened.length = w.opened.length + (if o.isTerminal inn then 0 else 1) + (if o.isTerminal out then 0 else 1) ∧
    w.opened <+: w'.opened ∧ ∀ k < w.next, w'.name k = w.name k := by
  unfold openTermFiles openIn openOut Files.open at h
  cases hi : o.isTerminal inn <;> cases ho : o.isTerminal out <;> cases hr : o.readOk <;> cases hw : o.writeOk <;>
    simp [hi, ho, hr, hw, need] at h ⊢ <;> obtain ⟨rfl, rfl, rfl⟩ := h <;> simp
  all_goals (intro k hk; first | (rw [if_neg (by omega), if_neg (by omega)]) | (intro h; omega))

/-- **C117**: otherwise there is an error, every file that was opened is closed again, once, and the given ones are left
open. -/
theorem fails (o : Calls) (w : Files) (inn out : Nat) (hin : inn < w.next) (hout : out < w.next) (w' : Files) (h : openTermFiles o w inn out = (w', none)) :
    need o inn out = false ∧ w'.closed = w.closed ++ (w'.opened.drop w.opened.length).map Prod.fst ∧
    w.opened <+: w'.opened ∧ (inn ∉ w.closed → inn ∉ w'.closed) ∧ (out ∉ w.closed → out ∉ w'.closed) := by
  unfold openTermFiles openIn openOut Files.open at h
  cases hi : o.isTerminal inn <;> cases ho : o.isTerminal out <;> cases hr : o.readOk <;> cases hw : o.writeOk <;>
    simp [hi, ho, hr, hw, need] at h ⊢ <;> subst h <;> simp [Files.close]
  constructor <;> intro h <;> exact ⟨h, by omega⟩

/-- **C117**: one or the other. -/
theorem opens_iff (o : Calls) (w : Files) (inn out : Nat) : (openTermFiles o w inn out).2.isSome = need o inn out := by
  unfold openTermFiles openIn openOut Files.open
  cases hi : o.isTerminal inn <;> cases ho : o.isTerminal out <;> cases hr : o.readOk <;> cases hw : o.writeOk <;>
    simp [hi, ho, hr, hw, need]

/-- **C117**: the files of the standard terminal are standard terminal files. -/
theorem standard (o : Calls) (w : Files) (h0 : w.name 0 = stdin) (h1 : w.name 1 = stdout) (hn : 3 ≤ w.next) (i j : Nat) (w' : Files)
    (h : openTerm o w = (w', some (i, j))) : isStandard (w'.name i) = true ∧ isStandard (w'.name j) = true := by
  obtain ⟨_, _, hi, hj, _, _, hk⟩ := opens o w 0 1 i j w' h
  constructor
  · split at hi
    · rw [hi, hk 0 (by omega), h0]; decide
    · rw [hi.2.1]; decide
  · split at hj
    · rw [hj, hk 1 (by omega), h1]; decide
    · rw [hj.2.1]; decide

/-- Input from a pipe, output to a terminal: the process' terminal is opened for reading. -/
example : let o : Calls := ⟨fun h => h = 1, true, true⟩
    let r := openTerm o ⟨3, fun i => if i = 0 then stdin else if i = 1 then stdout else stderr, [], []⟩
    r.2 = some (3, 1) ∧ r.1.opened = [(3, false)] ∧ r.1.closed = [] ∧ isStandard (r.1.name 3) = true := by decide +kernel

/-- Both from elsewhere, and no writing: what was opened for reading is closed. -/
example : let o : Calls := ⟨fun _ => false, true, false⟩
    let r := openTerm o ⟨3, fun _ => [], [], []⟩
    r.2 = none ∧ r.1.opened = [(3, false)] ∧ r.1.closed = [3] := by decide +kernel

end Opn
end Anansi
