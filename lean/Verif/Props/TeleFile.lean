import Verif.Model.TeleFile
/-
Telemetry is written to the file that is chosen at the time, whatever files are chosen one after
the other, and no handle is left open.
-/
set_option autoImplicit false

namespace Anansi
namespace TFile

/-! ### Specification -/

namespace Spec

/-- The files, and the one that is chosen. -/
structure Store where
  disk : Bytes → Option Bytes
  cur : Option Bytes := none

/-- More at the end of the chosen file, if there is one. -/
def Store.add (s : Store) (b : Bytes) : Store :=
  match s.cur with
  | some nm => { s with disk := fun n => if n = nm then some ((s.disk n).getD [] ++ b) else s.disk n }
  | none => s

/-- Several texts, of each as many bytes as can be written. -/
def Store.addAll (s : Store) (l : List (Bytes × Nat)) : Store :=
  l.foldl (fun s x => s.add (x.1.take x.2)) s

/-- An empty file. -/
def Store.empty (s : Store) (nm : Bytes) : Store :=
  { s with disk := fun n => if n = nm then some [] else s.disk n }

/-- What a step should do: a file that can be created is empty, what is logged meanwhile still goes
to the file before, and then the new one is the chosen one. -/
def Store.step (s : Store) : Step → Store
  | .log t n => s.add (t.take n)
  | .create nm true _ mid => { (s.empty nm).addAll mid with cur := some nm }
  | .create _ false _ mid => s.addAll mid

/-- What steps should do. -/
def Store.run (s : Store) (l : List Step) : Store := l.foldl Store.step s

/-- A file can be closed without an error, and nothing is logged while the chosen file is chosen
again. -/
def fits (cur : Option Bytes) : Step → Prop
  | .log _ _ => True
  | .create nm true closeOk mid => closeOk = true ∧ (mid = [] ∨ cur ≠ some nm)
  | .create _ false _ _ => True

/-- That holds for all steps. -/
def Fits (s : Store) : List Step → Prop
  | [] => True
  | x :: l => fits s.cur x ∧ Fits (s.step x) l

end Spec

/-! ### Proof -/

/-- The handle of the chosen file is at its end, and only it and perhaps another are open. -/
structure Inv (ext : Option Nat) (c : Coll) (s : Spec.Store) : Prop where
  disk : c.disk = s.disk
  cur : match c.f with
    | none => s.cur = none
    | some i => ∃ nm d, s.cur = some nm ∧ s.disk nm = some d ∧
        c.handles[i]? = some { name := nm, off := d.length, isOpen := true }
  only : ∀ k h, c.handles[k]? = some h → h.isOpen = true → c.f = some k ∨ ext = some k

theorem writeAt_end (d b : Bytes) : writeAt d d.length b = d ++ b := by
  simp [writeAt]

theorem logData_inv {ext : Option Nat} {c : Coll} {s : Spec.Store} (h : Inv ext c s) (t : Bytes) (n : Nat) :
    Inv ext (c.logData t n) (s.add (t.take n)) ∧ (c.logData t n).f = c.f ∧
    (∀ k, c.f ≠ some k → (c.logData t n).handles[k]? = c.handles[k]?) := by
  have hc := h.cur
  cases hf : c.f with
  | none =>
    rw [hf] at hc
    have e : c.logData t n = c := by simp [Coll.logData, hf]
    have e2 : s.add (t.take n) = s := by simp only [Spec.Store.add, hc]
    rw [e, e2]
    exact ⟨h, hf, fun _ _ => rfl⟩
  | some i =>
    rw [hf] at hc
    obtain ⟨nm, d, hs, hd, hh⟩ := hc
    have hi : i < c.handles.length := by
      rcases Nat.lt_or_ge i c.handles.length with g | g
      · exact g
      · rw [List.getElem?_eq_none g] at hh; exact absurd hh (by simp)
    by_cases hb : t.take n = []
    · have e : c.logData t n = { c with buf := t } := by
        simp [Coll.logData, hf, Coll.writeTo, hh, hb]
      have e2 : s.add (t.take n) = s := by
        simp only [Spec.Store.add, hs, hb, List.append_nil]
        have : (fun k => if k = nm then some ((s.disk k).getD []) else s.disk k) = s.disk := by
          funext k
          by_cases hk : k = nm
          · subst hk; simp [hd]
          · simp [hk]
        rw [this, ← hs]
      rw [e, e2]
      exact ⟨⟨h.disk, h.cur, h.only⟩, hf, fun _ _ => rfl⟩
    · have e : c.logData t n = { c with
          disk := fun k => if k = nm then some (writeAt ((c.disk k).getD []) d.length (t.take n)) else c.disk k
          handles := c.handles.set i { name := nm, off := d.length + (t.take n).length, isOpen := true }
          buf := t.drop n } := by
        simp [Coll.logData, hf, Coll.writeTo, hh, hb]
      have e2 : s.add (t.take n) =
          { s with disk := fun k => if k = nm then some ((s.disk k).getD [] ++ t.take n) else s.disk k } := by
        simp only [Spec.Store.add, hs]
      rw [e, e2]
      refine ⟨⟨?_, ?_, ?_⟩, hf, ?_⟩
      · funext k
        by_cases hk : k = nm
        · subst hk
          simp [h.disk, hd, writeAt_end]
        · simp [hk, h.disk]
      · show match c.f with
          | none => _
          | some i => _
        rw [hf]
        refine ⟨nm, d ++ t.take n, hs, ?_, ?_⟩
        · simp [hd]
        · simp [hi]
      · intro k g hk ho
        by_cases hki : i = k
        · subst hki; exact .inl hf
        · refine h.only k g ?_ ho
          rw [← hk]
          exact (List.getElem?_set_ne hki).symm
      · intro k hk
        exact List.getElem?_set_ne (fun e => hk (by rw [e]))

theorem logAll_inv {ext : Option Nat} (l : List (Bytes × Nat)) {c : Coll} {s : Spec.Store} (h : Inv ext c s) :
    Inv ext (c.logAll l) (s.addAll l) ∧ (c.logAll l).f = c.f ∧
    (∀ k, c.f ≠ some k → (c.logAll l).handles[k]? = c.handles[k]?) := by
  induction l generalizing c s with
  | nil => exact ⟨h, rfl, fun _ _ => rfl⟩
  | cons x l ih =>
    obtain ⟨h1, h2, h3⟩ := logData_inv h x.1 x.2
    obtain ⟨g1, g2, g3⟩ := ih h1
    refine ⟨g1, g2.trans h2, fun k hk => ?_⟩
    exact (g3 k (by rw [h2]; exact hk)).trans (h3 k hk)

theorem add_cur (s : Spec.Store) (b : Bytes) : (s.add b).cur = s.cur := by
  unfold Spec.Store.add; split <;> simp_all

theorem addAll_cur (l : List (Bytes × Nat)) (s : Spec.Store) : (s.addAll l).cur = s.cur := by
  induction l generalizing s with
  | nil => rfl
  | cons x l ih => exact (ih _).trans (add_cur _ _)

theorem addAll_other (l : List (Bytes × Nat)) (s : Spec.Store) (nm : Bytes) (h : s.cur ≠ some nm) :
    (s.addAll l).disk nm = s.disk nm := by
  induction l generalizing s with
  | nil => rfl
  | cons x l ih =>
    refine (ih _ (by rw [add_cur]; exact h)).trans ?_
    show (s.add (x.1.take x.2)).disk nm = s.disk nm
    unfold Spec.Store.add
    split
    · rename_i m hm
      have : nm ≠ m := fun e => h (by rw [hm, e])
      simp [this]
    · rfl

/-- Putting the new handle in the place of the old one. -/
theorem swap_inv {c : Coll} {s : Spec.Store} {i : Nat} {nm : Bytes} (hd : c.disk = s.disk)
    (hn : s.disk nm = some []) (hi : c.handles[i]? = some { name := nm })
    (hf : ∀ j, c.f = some j → j ≠ i ∧ ∃ h, c.handles[j]? = some h ∧ h.isOpen = true)
    (only : ∀ k h, c.handles[k]? = some h → h.isOpen = true → c.f = some k ∨ some i = some k) :
    Inv none (c.swap i true).1 { s with cur := some nm } ∧ (c.swap i true).2 = true := by
  cases hcf : c.f with
  | none =>
    have e : c.swap i true = ({ c with f := some i }, true) := by simp only [Coll.swap, hcf]
    rw [e]
    refine ⟨⟨hd, ⟨nm, [], rfl, hn, hi⟩, ?_⟩, rfl⟩
    intro k h hk ho
    rcases only k h hk ho with g | g
    · rw [hcf] at g; exact absurd g (by simp)
    · exact .inl g
  | some j =>
    obtain ⟨hne, h, hj, ho⟩ := hf j hcf
    have e : c.swap i true = ({ c with handles := c.handles.set j { h with isOpen := false }, f := some i }, true) := by
      simp [Coll.swap, hcf, Coll.close, hj, ho]
    rw [e]
    refine ⟨⟨hd, ⟨nm, [], rfl, hn, ?_⟩, ?_⟩, rfl⟩
    · rw [List.getElem?_set_ne hne]; exact hi
    · intro k g hk hg
      by_cases hkj : j = k
      · subst hkj
        have hl : j < c.handles.length := by
          rcases Nat.lt_or_ge j c.handles.length with g | g
          · exact g
          · rw [List.getElem?_eq_none g] at hj; exact absurd hj (by simp)
        have : (c.handles.set j { h with isOpen := false })[j]? = some { h with isOpen := false } := by
          simp [hl]
        rw [this] at hk
        injection hk with hk
        rw [← hk] at hg
        exact absurd hg (by simp)
      · rw [List.getElem?_set_ne hkj] at hk
        rcases only k g hk hg with a | a
        · rw [hcf] at a; injection a with a; exact absurd a hkj
        · exact .inl a

theorem create_inv {c : Coll} {s : Spec.Store} (h : Inv none c s) (nm : Bytes) (mid : List (Bytes × Nat))
    (hm : mid = [] ∨ s.cur ≠ some nm) :
    Inv none (c.create nm true true mid).1 (s.step (.create nm true true mid)) ∧ (c.create nm true true mid).2 = true := by
  have hidx : ∀ j, c.f = some j → j < c.handles.length ∧ ∃ h, c.handles[j]? = some h ∧ h.isOpen = true := by
    intro j hj
    have hc := h.cur
    rw [hj] at hc
    obtain ⟨m, d, _, _, hh⟩ := hc
    refine ⟨?_, _, hh, rfl⟩
    rcases Nat.lt_or_ge j c.handles.length with g | g
    · exact g
    · rw [List.getElem?_eq_none g] at hh; exact absurd hh (by simp)
  have hnew : (c.osCreate nm).2.handles[c.handles.length]? = some { name := nm } := by
    simp [Coll.osCreate]
  have hold : ∀ k, k < c.handles.length → (c.osCreate nm).2.handles[k]? = c.handles[k]? := by
    intro k hk; simp [Coll.osCreate, List.getElem?_append_left hk]
  have hgt : ∀ k h, (c.osCreate nm).2.handles[k]? = some h → k < c.handles.length ∨ k = c.handles.length := by
    intro k h hk
    rcases Nat.lt_or_ge k (c.osCreate nm).2.handles.length with g | g
    · have e : (c.osCreate nm).2.handles.length = c.handles.length + 1 := by simp [Coll.osCreate]
      rw [e] at g
      rcases Nat.lt_succ_iff_lt_or_eq.mp g with a | a
      · exact .inl a
      · exact .inr a
    · rw [List.getElem?_eq_none g] at hk; exact absurd hk (by simp)
  have honly : ∀ k g, (c.osCreate nm).2.handles[k]? = some g → g.isOpen = true →
      c.f = some k ∨ some c.handles.length = some k := by
    intro k g hk hg
    rcases hgt k g hk with a | a
    · rw [hold k a] at hk
      rcases h.only k g hk hg with b | b
      · exact .inl b
      · exact absurd b (by simp)
    · exact .inr (by rw [a])
  have hdisk : (c.osCreate nm).2.disk = (s.empty nm).disk := by
    simp [Coll.osCreate, Spec.Store.empty, h.disk]
  have hcr : c.create nm true true mid = ((c.osCreate nm).2.logAll mid).swap c.handles.length true := by
    simp [Coll.create, Coll.osCreate]
  rw [hcr]
  show Inv none _ { (s.empty nm).addAll mid with cur := some nm } ∧ _
  rcases hm with hm | hm
  · subst hm
    refine swap_inv hdisk ?_ hnew ?_ honly
    · show (s.empty nm).disk nm = some []
      simp [Spec.Store.empty]
    · intro j hj
      obtain ⟨a, g, b, e⟩ := hidx j hj
      exact ⟨by omega, g, (hold j a).trans b, e⟩
  · have hinv : Inv (some c.handles.length) (c.osCreate nm).2 (s.empty nm) := by
      refine ⟨hdisk, ?_, honly⟩
      have hc := h.cur
      show match c.f with
        | none => s.cur = none
        | some i => _
      cases hf : c.f with
      | none => rw [hf] at hc; exact hc
      | some i =>
        rw [hf] at hc
        obtain ⟨m, d, h1, h2, h3⟩ := hc
        have : m ≠ nm := fun e => hm (by rw [h1, e])
        refine ⟨m, d, h1, ?_, (hold i (hidx i hf).1).trans h3⟩
        simp [Spec.Store.empty, this, h2]
    obtain ⟨g1, g2, g3⟩ := logAll_inv mid hinv
    have hff : (c.osCreate nm).2.f = c.f := rfl
    have hne : ∀ j, c.f = some j → j ≠ c.handles.length := fun j hj => by have := (hidx j hj).1; omega
    refine swap_inv g1.disk ?_ ?_ ?_ g1.only
    · refine (addAll_other mid _ nm (by exact hm)).trans ?_
      simp [Spec.Store.empty]
    · rw [g3 _ (by rw [hff]; intro e; exact hne _ e rfl)]
      exact hnew
    · intro j hj
      have hj' : c.f = some j := by rw [← hff, ← g2]; exact hj
      refine ⟨hne j hj', ?_⟩
      have hc := g1.cur
      rw [hj] at hc
      obtain ⟨m, d, _, _, h3⟩ := hc
      exact ⟨_, h3, rfl⟩

theorem step_inv {c : Coll} {s : Spec.Store} (h : Inv none c s) (x : Step) (hx : Spec.fits s.cur x) :
    Inv none (c.step x) (s.step x) := by
  cases x with
  | log t n => exact (logData_inv h t n).1
  | create nm a b mid =>
    cases a with
    | false => exact (logAll_inv mid h).1
    | true =>
      obtain ⟨hb, hm⟩ := hx
      subst hb
      exact (create_inv h nm mid hm).1

theorem run_inv (l : List Step) {c : Coll} {s : Spec.Store} (h : Inv none c s) (hl : Spec.Fits s l) :
    Inv none (c.run l) (s.run l) := by
  induction l generalizing c s with
  | nil => exact h
  | cons x l ih => exact ih (step_inv h x hl.1) hl.2

/-- Of a list with one element that satisfies something, that element is left. -/
theorem filter_one {α : Type} (p : α → Bool) (l : List α) (i : Nat) (a : α) (hi : l[i]? = some a) (ha : p a = true)
    (h : ∀ k b, l[k]? = some b → p b = true → k = i) : l.filter p = [a] := by
  induction l generalizing i with
  | nil => simp at hi
  | cons x l ih =>
    cases i with
    | zero =>
      simp at hi
      subst hi
      have : l.filter p = [] := by
        rw [List.filter_eq_nil_iff]
        intro b hb
        obtain ⟨k, hk⟩ := List.getElem?_of_mem hb
        intro hp
        have := h (k + 1) b (by simpa using hk) hp
        omega
      simp [ha, this]
    | succ i =>
      have hx : p x = false := by
        cases e : p x with
        | false => rfl
        | true => have := h 0 x (by simp) e; omega
      rw [List.filter_cons, hx]
      refine ih i (by simpa using hi) fun k b hk hb => ?_
      have := h (k + 1) b (by simpa using hk) hb
      omega

theorem inv_open {c : Coll} {s : Spec.Store} (h : Inv none c s) :
    (c.handles.filter (·.isOpen)).map (·.name) = s.cur.toList := by
  have hc := h.cur
  cases hf : c.f with
  | none =>
    rw [hf] at hc
    rw [hc]
    have : c.handles.filter (·.isOpen) = [] := by
      rw [List.filter_eq_nil_iff]
      intro b hb ho
      obtain ⟨k, hk⟩ := List.getElem?_of_mem hb
      rcases h.only k b hk ho with g | g
      · rw [hf] at g; exact absurd g (by simp)
      · exact absurd g (by simp)
    simp [this]
  | some i =>
    rw [hf] at hc
    obtain ⟨nm, d, h1, _, h3⟩ := hc
    have := filter_one (·.isOpen) c.handles i _ h3 rfl fun k b hk hb => by
      rcases h.only k b hk hb with g | g
      · rw [hf] at g; injection g with g; exact g.symm
      · exact absurd g (by simp)
    rw [this, h1]
    rfl

/-- **Telemetry is written where it should be.**  Files being chosen one after the other, some of
which cannot be created, texts being logged at any time, also while a file is chosen, and each text
getting through in full or in part: every file holds exactly what was logged while it was chosen
last, in order, other files are untouched, and exactly the chosen file is open. -/
theorem telemetry_written_partial (disk : Bytes → Option Bytes) (l : List Step)
    (h : Spec.Fits { disk := disk } l) :
    let c := Coll.run { disk := disk } l
    let s := Spec.Store.run { disk := disk } l
    c.disk = s.disk ∧ (c.handles.filter (·.isOpen)).map (·.name) = s.cur.toList := by
  have : Inv none (Coll.run { disk := disk } l) (Spec.Store.run { disk := disk } l) :=
    run_inv l ⟨rfl, rfl, by intro k h hk; simp at hk⟩ h
  exact ⟨this.disk, inv_open this⟩

example : Spec.Fits { disk := fun _ => none } [.create [97] true true [], .log [1, 2] 2, .create [98] true true [([3], 1)],
    .create [99] false true [([4], 1)], .log [5, 6] 1, .create [98] true true [], .log [7] 1] := by
  simp [Spec.Fits, Spec.fits, Spec.Store.step, Spec.Store.empty, Spec.Store.addAll, Spec.Store.add]

/-! ### The chosen file is chosen again -/

/-- **Choosing the chosen file again can spoil it.**  The file is emptied before the lock is taken:
a text logged just then is written where the old text ended, after zeros. -/
theorem same_name_spoils (disk : Bytes → Option Bytes) (nm old t : Bytes) (ht : t ≠ []) (ho : old ≠ []) :
    (Coll.run { disk := disk } [.create nm true true [], .log old old.length, .create nm true true [(t, t.length)]]).disk nm =
      some (List.replicate old.length 0 ++ t) ∧
    (Spec.Store.run { disk := disk } [.create nm true true [], .log old old.length, .create nm true true [(t, t.length)]]).disk nm =
      some t := by
  constructor
  · simp [Coll.run, Coll.step, Coll.create, Coll.osCreate, Coll.logAll, Coll.swap, Coll.close, Coll.logData, Coll.writeTo,
      writeAt, ht, ho]
  · simp [Spec.Store.run, Spec.Store.step, Spec.Store.add, Spec.Store.addAll, Spec.Store.empty]

/-! ### A file that cannot be closed -/

/-- The collector's handle is closed. -/
def Dead (c : Coll) : Prop := ∃ i h, c.f = some i ∧ c.handles[i]? = some h ∧ h.isOpen = false

theorem dead_logData {c : Coll} (h : Dead c) (t : Bytes) (n : Nat) : ∃ b, c.logData t n = { c with buf := b } := by
  obtain ⟨i, g, h1, h2, h3⟩ := h
  exact ⟨t, by simp [Coll.logData, h1, Coll.writeTo, h2, h3]⟩

theorem dead_logAll (l : List (Bytes × Nat)) {c : Coll} (h : Dead c) : ∃ b, c.logAll l = { c with buf := b } := by
  induction l generalizing c with
  | nil => exact ⟨c.buf, rfl⟩
  | cons x l ih =>
    obtain ⟨b, hb⟩ := dead_logData h x.1 x.2
    obtain ⟨b2, hb2⟩ := ih (c := { c with buf := b }) (by obtain ⟨i, g, h1⟩ := h; exact ⟨i, g, h1⟩)
    refine ⟨b2, ?_⟩
    show (c.logData x.1 x.2).logAll l = _
    rw [hb, hb2]

/-- What a step does then: nothing, or a file is emptied, and an error. -/
theorem dead_step {c : Coll} (h : Dead c) (x : Step) :
    Dead (c.step x) ∧ (c.step x).f = c.f ∧
    (c.step x).handles.filter (·.isOpen) = c.handles.filter (·.isOpen) ∧
    (∀ nm, (c.step x).disk nm = c.disk nm ∨ (c.step x).disk nm = some []) ∧
    (∀ nm a b mid, x = .create nm a b mid → (c.create nm a b mid).2 = false) := by
  obtain ⟨i, g, h1, h2, h3⟩ := h
  have hd : Dead c := ⟨i, g, h1, h2, h3⟩
  cases x with
  | log t n =>
    obtain ⟨b, hb⟩ := dead_logData hd t n
    show Dead (c.logData t n) ∧ (c.logData t n).f = _ ∧ (c.logData t n).handles.filter _ = _ ∧ (∀ nm, (c.logData t n).disk nm = _ ∨ _) ∧ _
    rw [hb]
    exact ⟨⟨i, g, h1, h2, h3⟩, rfl, rfl, fun _ => .inl rfl, fun _ _ _ _ e => by cases e⟩
  | create nm a b mid =>
    have hi : i < c.handles.length := by
      rcases Nat.lt_or_ge i c.handles.length with k | k
      · exact k
      · rw [List.getElem?_eq_none k] at h2; exact absurd h2 (by simp)
    cases a with
    | false =>
      obtain ⟨b', hb⟩ := dead_logAll mid hd
      have e : c.create nm false b mid = ({ c with buf := b' }, false) := by simp [Coll.create, hb]
      refine ⟨?_, ?_, ?_, ?_, ?_⟩
      · show Dead (c.create nm false b mid).1
        rw [e]; exact ⟨i, g, h1, h2, h3⟩
      · show (c.create nm false b mid).1.f = _
        rw [e]
      · show (c.create nm false b mid).1.handles.filter _ = _
        rw [e]
      · intro m
        show (c.create nm false b mid).1.disk m = _ ∨ _
        rw [e]; exact .inl rfl
      · intro nm' a' b'' mid' he
        injection he with e1 e2 e3 e4
        rw [← e1, ← e2, ← e3, ← e4, e]
    | true =>
      have hd2 : Dead (c.osCreate nm).2 := ⟨i, g, h1, by simp [Coll.osCreate, List.getElem?_append_left hi, h2], h3⟩
      obtain ⟨b', hb⟩ := dead_logAll mid hd2
      have hgi : c.handles[i] = g := by
        rw [List.getElem?_eq_getElem hi] at h2
        exact Option.some.inj h2
      have e : c.create nm true b mid =
          ({ c with
             disk := fun n => if n = nm then some [] else c.disk n
             handles := c.handles ++ [{ name := nm, isOpen := false }]
             buf := b' }, false) := by
        have hq : ((c.handles ++ [({ name := nm } : Handle)])[i]?) = some g := by
          rw [List.getElem?_append_left hi]; exact h2
        have e0 : c.create nm true b mid = ((c.osCreate nm).2.logAll mid).swap c.handles.length b := by
          simp [Coll.create, Coll.osCreate]
        rw [e0, hb]
        simp [Coll.swap, Coll.osCreate, h1, Coll.close, hq, h3]
      refine ⟨?_, ?_, ?_, ?_, ?_⟩
      · show Dead (c.create nm true b mid).1
        rw [e]
        exact ⟨i, g, h1, by simp [List.getElem?_append_left hi, h2], h3⟩
      · show (c.create nm true b mid).1.f = _
        rw [e]
      · show (c.create nm true b mid).1.handles.filter _ = _
        rw [e]; simp
      · intro m
        show (c.create nm true b mid).1.disk m = _ ∨ (c.create nm true b mid).1.disk m = _
        rw [e]
        by_cases hm : m = nm
        · exact .inr (by simp [hm])
        · exact .inl (by simp [hm])
      · intro nm' a' b'' mid' he
        injection he with e1 e2 e3 e4
        rw [← e1, ← e2, ← e3, ← e4, e]

theorem dead_run (l : List Step) {c : Coll} (h : Dead c) :
    Dead (c.run l) ∧ (c.run l).f = c.f ∧ (c.run l).handles.filter (·.isOpen) = c.handles.filter (·.isOpen) ∧
    (∀ nm, (c.run l).disk nm = c.disk nm ∨ (c.run l).disk nm = some []) := by
  induction l generalizing c with
  | nil => exact ⟨h, rfl, rfl, fun _ => .inl rfl⟩
  | cons x l ih =>
    obtain ⟨a1, a2, a3, a4, _⟩ := dead_step h x
    obtain ⟨b1, b2, b3, b4⟩ := ih a1
    refine ⟨b1, b2.trans a2, b3.trans a3, fun nm => ?_⟩
    rcases b4 nm with g | g
    · rcases a4 nm with k | k
      · exact .inl (g.trans k)
      · exact .inr (g.trans k)
    · exact .inr g

/-- **After a file could not be closed, telemetry is never written again.**  The collector keeps the
closed handle: whatever is logged and chosen from then on, nothing is written to any file (files that
are chosen are emptied, all the same), the next file is refused too, and nothing is open. -/
theorem stuck_after_close (disk : Bytes → Option Bytes) (l : List Step) (h : Spec.Fits { disk := disk } l)
    (hc : (Spec.Store.run { disk := disk } l).cur ≠ none) (nm : Bytes) (more : List Step) :
    let c := (Coll.run { disk := disk } (l ++ [.create nm true false []]))
    let e := c.run more
    (∀ n, e.disk n = c.disk n ∨ e.disk n = some []) ∧ e.handles.filter (·.isOpen) = [] ∧
    (∀ nm a b mid, (e.create nm a b mid).2 = false) := by
  have hinv : Inv none (Coll.run { disk := disk } l) (Spec.Store.run { disk := disk } l) :=
    run_inv l ⟨rfl, rfl, by intro k h hk; simp at hk⟩ h
  obtain ⟨c0, h0⟩ : ∃ c0, c0 = Coll.run { disk := disk } l := ⟨_, rfl⟩
  have hrun : Coll.run { disk := disk } (l ++ [.create nm true false []]) = (c0.create nm true false []).1 := by
    rw [h0]
    simp [Coll.run, Coll.step]
  rw [← h0] at hinv
  have hcur := hinv.cur
  cases hf : c0.f with
  | none => rw [hf] at hcur; exact absurd hcur hc
  | some i =>
    rw [hf] at hcur
    obtain ⟨m, d, _, _, h3⟩ := hcur
    have hi : i < c0.handles.length := by
      rcases Nat.lt_or_ge i c0.handles.length with k | k
      · exact k
      · rw [List.getElem?_eq_none k] at h3; exact absurd h3 (by simp)
    have hq : (c0.handles ++ [({ name := nm } : Handle)])[i]? = some { name := m, off := d.length, isOpen := true } := by
      rw [List.getElem?_append_left hi]; exact h3
    have e : (c0.create nm true false []).1 =
        { c0 with
          disk := fun n => if n = nm then some [] else c0.disk n
          handles := (c0.handles.set i { name := m, off := d.length, isOpen := false }) ++ [{ name := nm, isOpen := false }] } := by
      have hs : (c0.handles ++ [({ name := nm } : Handle)]).set i { name := m, off := d.length, isOpen := false } =
          c0.handles.set i { name := m, off := d.length, isOpen := false } ++ [{ name := nm }] := by
        rw [List.set_append_left _ _ hi]
      have hl : (c0.handles.set i { name := m, off := d.length, isOpen := false }).length = c0.handles.length := by simp
      have hn : (c0.handles.set i { name := m, off := d.length, isOpen := false } ++ [({ name := nm } : Handle)])[c0.handles.length]? = some { name := nm } := by
        rw [List.getElem?_append_right (by simp)]
        simp
      simp only [Coll.create, Bool.not_true, Bool.false_eq_true, if_false, Coll.osCreate, Coll.logAll, List.foldl_nil, Coll.swap, hf, Coll.close, hq, if_true, hs, hn]
      congr 1
      rw [List.set_append_right _ _ (by simp)]
      simp
    have hdead : Dead (c0.create nm true false []).1 := by
      rw [e]
      refine ⟨i, { name := m, off := d.length, isOpen := false }, hf, ?_, rfl⟩
      rw [List.getElem?_append_left (by simpa using hi)]
      simp [hi]
    have hop : (c0.create nm true false []).1.handles.filter (·.isOpen) = [] := by
      rw [e]
      rw [List.filter_eq_nil_iff]
      intro b hb ho
      rcases List.mem_append.mp hb with hb | hb
      · obtain ⟨k, hk⟩ := List.getElem?_of_mem hb
        by_cases hki : i = k
        · subst hki
          have : (c0.handles.set i { name := m, off := d.length, isOpen := false })[i]? = some { name := m, off := d.length, isOpen := false } := by
            simp [hi]
          rw [this] at hk
          injection hk with hk
          rw [← hk] at ho
          exact absurd ho (by simp)
        · rw [List.getElem?_set_ne hki] at hk
          rcases hinv.only k b hk ho with g | g
          · rw [hf] at g; injection g with g; exact hki g
          · exact absurd g (by simp)
      · rw [List.mem_singleton.mp hb] at ho
        exact absurd ho (by simp)
    intro c e'
    have hc' : c = (c0.create nm true false []).1 := hrun
    obtain ⟨r1, _, r3, r4⟩ := dead_run more (c := c) (by rw [hc']; exact hdead)
    refine ⟨r4, ?_, ?_⟩
    · show (c.run more).handles.filter _ = []
      rw [r3, hc']; exact hop
    · intro nm' a b mid
      exact (dead_step r1 (.create nm' a b mid)).2.2.2.2 nm' a b mid rfl

example : Spec.Fits { disk := fun _ => none } [.create [97] true true []] ∧
    (Spec.Store.run { disk := fun _ => none } [.create [97] true true []]).cur ≠ none := by
  simp [Spec.Fits, Spec.fits, Spec.Store.run, Spec.Store.step]

end TFile
end Anansi
