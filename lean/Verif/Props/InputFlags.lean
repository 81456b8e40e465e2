import Verif.Model.Input
import Mathlib.Tactic.ByContra
/-
C42 Input file flags are restored.
-/
set_option autoImplicit false

namespace Anansi
namespace Inp

/-- What stays the same from entering to leaving: all but the settable flags, and what is
needed to restore those. -/
structure Same (o s : Input) : Prop where
  file : s.file = o.file
  old : s.oldFlags = o.oldFlags
  polled : s.polled = o.polled
  rest : s.flags &&& ~~~SETFL_MASK = o.flags &&& ~~~SETFL_MASK

theorem Same.refl (s : Input) : Same s s := ⟨rfl, rfl, rfl, rfl⟩

theorem Same.trans {a b c : Input} (h : Same a b) (h' : Same b c) : Same a c :=
  ⟨h'.1.trans h.1, h'.2.trans h.2, h'.3.trans h.3, h'.4.trans h.4⟩

theorem nonblock_in_mask (v : BitVec 64) : v &&& ~~~O_NONBLOCK &&& ~~~SETFL_MASK = v &&& ~~~SETFL_MASK := by
  rw [BitVec.and_assoc]; rfl

theorem set_rest (v w : BitVec 64) :
    ((v &&& ~~~SETFL_MASK) ||| (w &&& SETFL_MASK)) &&& ~~~SETFL_MASK = v &&& ~~~SETFL_MASK := by
  apply BitVec.eq_of_getLsbD_eq
  intro i hi
  simp only [BitVec.getLsbD_and, BitVec.getLsbD_or, BitVec.getLsbD_not]
  cases v.getLsbD i <;> cases w.getLsbD i <;> cases SETFL_MASK.getLsbD i <;> simp

theorem set_same (v w : BitVec 64) (h : v &&& ~~~SETFL_MASK = w &&& ~~~SETFL_MASK) :
    (v &&& ~~~SETFL_MASK) ||| (w &&& SETFL_MASK) = w := by
  rw [h]
  apply BitVec.eq_of_getLsbD_eq
  intro i hi
  simp only [BitVec.getLsbD_and, BitVec.getLsbD_or, BitVec.getLsbD_not, hi, decide_true, Bool.true_and]
  cases w.getLsbD i <;> cases SETFL_MASK.getLsbD i <;> rfl

theorem fd_same (s : Input) : Same s s.fd := by
  unfold Input.fd
  split
  · exact ⟨rfl, rfl, rfl, nonblock_in_mask _⟩
  · exact .refl s

theorem setfl_same (s : Input) (v : BitVec 64) : Same s (s.setfl v) := ⟨rfl, rfl, rfl, set_rest _ _⟩

theorem setFlags_same (s : Input) (g t : Bool) : Same s (s.setFlags g t).1 := by
  unfold Input.setFlags
  by_cases hf : s.file = false
  · simp only [hf, Bool.not_false, if_true]; exact .refl s
  · have hf : s.file = true := by simpa using hf
    simp only [hf, Bool.not_true, Bool.false_eq_true, if_false]
    cases g
    · exact fd_same s
    · cases t
      · exact (fd_same s).trans (fd_same _)
      · exact ((fd_same s).trans (fd_same _)).trans (setfl_same _ _)

theorem setNonblock_same (s : Input) (b g t : Bool) : Same s (s.setNonblock b g t).1 := by
  unfold Input.setNonblock
  split
  · exact .refl s
  · exact Same.trans (b := { s with nonblock := b }) ⟨rfl, rfl, rfl, rfl⟩ (setFlags_same _ g t)

theorem setAsync_same (s : Input) (b g t o : Bool) : Same s (s.setAsync b g t o).1 := by
  unfold Input.setAsync
  split
  · exact .refl s
  · have h : Same s (({ s with async := b } : Input).setFlags g t).1 :=
      Same.trans (b := { s with async := b }) ⟨rfl, rfl, rfl, rfl⟩ (setFlags_same _ g t)
    simp only
    split
    · exact h
    · split
      · exact h.trans (fd_same _)
      · exact h

theorem readMore_same (s : Input) (av : List Avail) (g t : Bool) {r : Input × Nat × Err × List Avail}
    (h : s.readMore av g t = some r) : Same s r.1 := by
  unfold Input.readMore at h
  split at h
  · cases h
  · rename_i b full err av' _
    simp only at h
    split at h
    · split at h
      · injection h with h; subst h; exact ⟨rfl, rfl, rfl, rfl⟩
      · injection h with h; subst h; exact ⟨rfl, rfl, rfl, rfl⟩
    · have hs : Same s (({ s with buf := s.buf ++ b, full := full, ateof := false } : Input).setNonblock
          false g t).1 :=
        Same.trans (b := { s with buf := s.buf ++ b, full := full, ateof := false }) ⟨rfl, rfl, rfl, rfl⟩
          (setNonblock_same _ _ g t)
      split at h
      · injection h with h; subst h; exact hs
      · injection h with h; subst h; exact hs
    · injection h with h; subst h; exact ⟨rfl, rfl, rfl, rfl⟩
    · injection h with h; subst h; exact ⟨rfl, rfl, rfl, rfl⟩

theorem readLoop_same (av : List Avail) : ∀ (s : Input) (n : Nat) {r : Input × Nat × Err × List Avail},
    s.readLoop n av = some r → Same s r.1 ∧ r.1.flags = s.flags := by
  induction av with
  | nil =>
    intro s n r h
    simp only [Input.readLoop] at h
    split at h
    · injection h with h; subst h; exact ⟨⟨rfl, rfl, rfl, rfl⟩, rfl⟩
    · cases h
  | cons a l ih =>
    intro s n r h
    cases a with
    | data b t full =>
      simp only [Input.readLoop] at h
      have := ih _ _ h
      exact ⟨Same.trans (b := { s with buf := s.buf ++ b :: t, full := full }) ⟨rfl, rfl, rfl, rfl⟩ this.1, this.2⟩
    | nothing =>
      simp only [Input.readLoop] at h
      split at h
      · injection h with h; subst h; exact ⟨⟨rfl, rfl, rfl, rfl⟩, rfl⟩
      · have := ih _ _ h
        exact ⟨Same.trans (b := { s with full := false }) ⟨rfl, rfl, rfl, rfl⟩ this.1, this.2⟩
    | eof =>
      simp only [Input.readLoop] at h
      injection h with h; subst h; exact ⟨⟨rfl, rfl, rfl, rfl⟩, rfl⟩
    | fail =>
      simp only [Input.readLoop] at h
      injection h with h; subst h; exact ⟨⟨rfl, rfl, rfl, rfl⟩, rfl⟩

theorem readAny_after (s : Input) (av : List Avail) (g t : Bool) {r : Input × Nat × Err × List Avail}
    (h : s.readAny av g t = some r) :
    Same (s.setNonblock true g t).1 r.1 ∧ r.1.flags = (s.setNonblock true g t).1.flags := by
  unfold Input.readAny at h
  simp only at h
  split at h
  · injection h with h; subst h; exact ⟨.refl _, rfl⟩
  · split at h
    · cases h
    all_goals
      rename_i hl
      have := readLoop_same _ _ _ hl
      injection h with h; subst h
      exact ⟨⟨this.1.1, this.1.2, this.1.3, this.1.4⟩, this.2⟩

theorem decode_same (s : Input) : Same s s.decode.1 ∧ s.decode.1.flags = s.flags := by
  unfold Input.decode
  simp only
  repeat' split
  all_goals exact ⟨⟨rfl, rfl, rfl, rfl⟩, rfl⟩

theorem op_same (s : Input) (o : Op) {s' : Input} (h : s.op o = some s') : Same s s' := by
  cases o with
  | notify on g t w => injection h with h; subst h; exact setAsync_same s on g t w
  | readMore av g t =>
    simp only [Input.op, Option.map_eq_some_iff] at h
    obtain ⟨r, h1, rfl⟩ := h
    exact readMore_same s av g t h1
  | readAny av g t =>
    simp only [Input.op, Option.map_eq_some_iff] at h
    obtain ⟨r, h1, rfl⟩ := h
    exact (setNonblock_same s true g t).trans (readAny_after s av g t h1).1
  | decode => injection h with h; subst h; exact (decode_same s).1

theorem ops_same (l : List Op) : ∀ (s : Input) {s' : Input}, s.ops l = some s' → Same s s' := by
  induction l with
  | nil => intro s s' h; injection h with h; subst h; exact .refl s
  | cons o l ih =>
    intro s s' h
    simp only [Input.ops, Option.bind_eq_some_iff] at h
    obtain ⟨m, h1, h2⟩ := h
    exact (op_same s o h1).trans (ih m h2)

/-- **C42**, first part: after entering, any operations with any outcomes, and leaving,
the file has exactly the flags it had before — unless Go's `os.File` found it in
non-blocking mode when the process began (`polled`). -/
theorem flags_restored_partial (s s' : Input) (l : List Op) (hp : s.polled = false)
    (he : (s.enter true true).1.ops l = some s') :
    (s'.exit true).1.flags = s.flags ∧ (s'.exit true).2 = true := by
  have h := ops_same l _ he
  by_cases hf : s.file = false
  · have h1 : (s.enter true true).1.file = false := by
      unfold Input.enter Input.setFlags; simp [hf]
    have h2 : s'.file = false := by rw [h.1, h1]
    -- without a file there are no flags to change
    have h3 : ∀ (l : List Op) (s s' : Input), s.file = false → s.ops l = some s' → s'.flags = s.flags := by
      intro l
      induction l with
      | nil => intro s s' _ h; injection h with h; subst h; rfl
      | cons o l ih =>
        intro s s' hf h
        simp only [Input.ops, Option.bind_eq_some_iff] at h
        obtain ⟨m, h1, h2⟩ := h
        have hsf : ∀ (x : Input) (g t : Bool), x.file = false → (x.setFlags g t).1 = x := by
          intro x g t hx; unfold Input.setFlags; simp [hx]
        have hsf' : ∀ (x : Input) (g t : Bool), x.file = false → (x.setFlags g t).1.flags = x.flags := by
          intro x g t hx; rw [hsf x g t hx]
        have hm : m.flags = s.flags := by
          cases o with
          | notify on g t w =>
            injection h1 with h1; subst h1
            unfold Input.setAsync
            split
            · rfl
            · simp only [hsf { s with async := on } g t hf]
              split
              · rfl
              · split
                · rename_i hx; simp [hf] at hx
                · rfl
          | readMore av g t =>
            simp only [Input.op, Option.map_eq_some_iff] at h1
            obtain ⟨r, h1, rfl⟩ := h1
            unfold Input.readMore at h1
            split at h1
            · cases h1
            · simp only at h1
              split at h1
              · split at h1 <;> (injection h1 with h1; subst h1; rfl)
              · unfold Input.setNonblock at h1
                split at h1
                · simp at h1; subst h1; rfl
                · simp only at h1
                  split at h1
                  · injection h1 with h1; subst h1; simp only; rw [hsf' _ g t (by exact hf)]
                  · injection h1 with h1; subst h1; simp only; rw [hsf' _ g t (by exact hf)]
              · injection h1 with h1; subst h1; rfl
              · injection h1 with h1; subst h1; rfl
          | readAny av g t =>
            simp only [Input.op, Option.map_eq_some_iff] at h1
            obtain ⟨r, h1, rfl⟩ := h1
            rw [(readAny_after s av g t h1).2]
            unfold Input.setNonblock
            split
            · rfl
            · simp only [hsf { s with nonblock := true } g t hf]
          | decode => injection h1 with h1; subst h1; exact (decode_same s).2
        rw [ih m s' ((op_same s o h1).1.trans hf) h2, hm]
    unfold Input.exit
    simp only [h2, Bool.not_false, if_true]
    refine ⟨?_, trivial⟩
    rw [h3 l _ _ h1 he]
    unfold Input.enter Input.setFlags; simp [hf]
  · have hf : s.file = true := by simpa using hf
    have e1 : (s.enter true true).1.file = true ∧ (s.enter true true).1.oldFlags = s.flags ∧
        (s.enter true true).1.polled = false ∧
        (s.enter true true).1.flags &&& ~~~SETFL_MASK = s.flags &&& ~~~SETFL_MASK := by
      unfold Input.enter Input.setFlags Input.fd Input.setfl
      simp only [hf, hp, Bool.not_true, Bool.false_eq_true, if_false, if_true]
      exact ⟨trivial, trivial, trivial, set_rest _ _⟩
    unfold Input.exit
    have h1 : s'.file = true := h.1.trans e1.1
    simp only [h1, Bool.not_true, Bool.false_eq_true, if_false]
    have h2 : s'.polled = false := h.3.trans e1.2.2.1
    unfold Input.fd
    simp only [h2, Bool.false_eq_true, if_false]
    unfold Input.setfl
    simp only
    rw [h.2.trans e1.2.1]
    refine ⟨set_same _ _ (h.4.trans e1.2.2.2), trivial⟩

/-- A terminal opened for reading and writing, a session with notifications, both kinds of
reads and failures in between: the flags are as before. -/
example : (({ flags := 0x8002 } : Input).enter true true).1.ops
      [.notify true true true true, .readAny [.data 0x41 [] true] true true, .decode,
        .readMore [.nothing] true false, .notify false true true true] =
      some { flags := 0xA802, oldFlags := 0x8002, ateof := false, full := false } := by decide

/-- Negation for **C42**: a file in non-blocking mode from the start is left in blocking
mode, whatever is done in between. -/
theorem polled_not_restored (s s' : Input) (l : List Op) (hp : s.polled = true) (hf : s.file = true)
    (hn : s.nonblocking = true) (he : (s.enter true true).1.ops l = some s') :
    (s'.exit true).1.flags = s.flags &&& ~~~O_NONBLOCK ∧ (s'.exit true).1.flags ≠ s.flags := by
  have h := ops_same l _ he
  have e1 : (s.enter true true).1.file = true ∧ (s.enter true true).1.oldFlags = s.flags &&& ~~~O_NONBLOCK ∧
      (s.enter true true).1.polled = true ∧
      (s.enter true true).1.flags &&& ~~~SETFL_MASK = s.flags &&& ~~~SETFL_MASK := by
    unfold Input.enter Input.setFlags Input.fd Input.setfl
    simp only [hf, hp, Bool.not_true, Bool.false_eq_true, if_false, if_true]
    refine ⟨trivial, trivial, trivial, ?_⟩
    rw [set_rest, nonblock_in_mask, nonblock_in_mask]
  have hx : (s'.exit true).1.flags = s.flags &&& ~~~O_NONBLOCK := by
    unfold Input.exit
    simp only [h.1.trans e1.1, Bool.not_true, Bool.false_eq_true, if_false]
    unfold Input.fd
    simp only [h.3.trans e1.2.2.1, if_true]
    unfold Input.setfl
    simp only
    rw [h.2.trans e1.2.1]
    apply set_same
    rw [nonblock_in_mask, nonblock_in_mask, h.4.trans e1.2.2.2]
  refine ⟨hx, ?_⟩
  rw [hx]
  intro hc
  unfold Input.nonblocking at hn
  rw [← hc, BitVec.and_assoc] at hn
  rw [show (~~~O_NONBLOCK &&& O_NONBLOCK) = 0 from rfl] at hn
  simp at hn

/-- Negation: an input whose flags were read but could not be set on entering sets all
settable flags to zero on leaving, here `O_APPEND`. -/
theorem failed_enter_clears :
    ((({ flags := 0x8402 } : Input).enter true false).1.exit true).1.flags = 0x8002 := by decide

/-- While the file is not in non-blocking mode, reading more waits until there is
something, and takes it. -/
theorem read_more_waits_partial (s : Input) (k : Nat) (b : UInt8) (t : Bytes) (full : Bool) (av : List Avail)
    (g o : Bool) (h : s.nonblocking = false) :
    s.readMore (List.replicate k .nothing ++ .data b t full :: av) g o =
      some ({ s with buf := s.buf ++ b :: t, full := full, ateof := false }, t.length + 1, .nil, av) := by
  have hr : fileRead false (List.replicate k .nothing ++ .data b t full :: av) = some (b :: t, full, .nil, av) := by
    induction k with
    | zero => rfl
    | succ k ih => rw [List.replicate_succ, List.cons_append]; exact ih
  unfold Input.readMore
  rw [h, hr]; rfl

/-- The flag for non-blocking mode, once set, stays. -/
theorem nonblock_flag_sticks (s : Input) (g t : Bool) (hp : s.polled = false) (hn : s.nonblocking = true) :
    (s.setFlags g t).1.nonblocking = true := by
  have hb : (s.flags &&& O_NONBLOCK) ≠ 0 := by simpa [Input.nonblocking] using hn
  have hbit : s.flags.getLsbD 11 = true := by
    by_contra hc
    apply hb
    apply BitVec.eq_of_getLsbD_eq
    intro i hi
    rw [BitVec.getLsbD_and]
    have : O_NONBLOCK.getLsbD i = decide (i = 11) := by
      have : ∀ i < 64, O_NONBLOCK.getLsbD i = decide (i = 11) := by decide
      exact this i hi
    rw [this]
    by_cases h : i = 11
    · subst h; simp at hc; simp [hc]
    · simp [h]
  have hgo : ∀ v : BitVec 64, v.getLsbD 11 = true → (v &&& O_NONBLOCK) ≠ 0 := by
    intro v hv h0
    have : (v &&& O_NONBLOCK).getLsbD 11 = false := by rw [h0]; rfl
    rw [BitVec.getLsbD_and, hv] at this
    exact absurd this (by decide)
  unfold Input.setFlags Input.fd
  simp only [hp, Bool.false_eq_true, if_false]
  split
  · exact hn
  · split
    · exact hn
    · split
      · exact hn
      · unfold Input.nonblocking Input.setfl
        simp only [decide_eq_true_eq]
        apply hgo
        rw [BitVec.getLsbD_or, BitVec.getLsbD_and, BitVec.getLsbD_and]
        have : (s.buildFlags s.flags).getLsbD 11 = true := by
          unfold Input.buildFlags
          simp only
          split <;> split <;> simp only [BitVec.getLsbD_or, hbit, Bool.true_or]
        rw [this]
        have : SETFL_MASK.getLsbD 11 = true := by decide
        rw [this]; simp

theorem setNonblock_sticks (s : Input) (b g t : Bool) (hp : s.polled = false) (hn : s.nonblocking = true) :
    (s.setNonblock b g t).1.nonblocking = true := by
  unfold Input.setNonblock
  split
  · exact hn
  · exact nonblock_flag_sticks { s with nonblock := b } g t hp hn

/-- Negation for **C42**, second part: once the file is in non-blocking mode, as it is after
any successful `ReadAny`, no operation makes reads wait again: `ReadMore`, told to block,
returns at once with no byte and "would block" when there is nothing to read. -/
theorem read_more_never_waits (s s' : Input) (l : List Op) (av : List Avail)
    (hp : s.polled = false) (hn : s.nonblocking = true) (hl : s.ops l = some s') :
    ∃ s'', s'.readMore (.nothing :: av) true true = some (s'', 0, .wouldBlock, av) ∧
      s''.nonblock = false ∧ s''.nonblocking = true := by
  have key : ∀ (l : List Op) (s s' : Input), s.polled = false → s.nonblocking = true → s.ops l = some s' →
      s'.polled = false ∧ s'.nonblocking = true := by
    intro l
    induction l with
    | nil => intro s s' hp hn h; injection h with h; subst h; exact ⟨hp, hn⟩
    | cons o l ih =>
      intro s s' hp hn h
      simp only [Input.ops, Option.bind_eq_some_iff] at h
      obtain ⟨m, h1, h2⟩ := h
      refine ih m s' ((op_same s o h1).3.trans hp) ?_ h2
      have hflags : ∀ x y : Input, x.flags = y.flags → y.nonblocking = true → x.nonblocking = true := by
        intro x y hxy hy; unfold Input.nonblocking at hy ⊢; rw [hxy]; exact hy
      cases o with
      | notify on g t w =>
        injection h1 with h1; subst h1
        unfold Input.setAsync
        split
        · exact hn
        · have := nonblock_flag_sticks { s with async := on } g t hp hn
          simp only
          split
          · exact this
          · split
            · unfold Input.fd
              rw [if_neg (by rw [(setFlags_same { s with async := on } g t).3]; simp [hp])]; exact this
            · exact this
      | readMore av g t =>
        simp only [Input.op, Option.map_eq_some_iff] at h1
        obtain ⟨r, h1, rfl⟩ := h1
        unfold Input.readMore at h1
        split at h1
        · cases h1
        · rename_i b full err av' _
          simp only at h1
          split at h1
          · split at h1 <;> (injection h1 with h1; subst h1; exact hflags _ s rfl hn)
          · have := setNonblock_sticks { s with buf := s.buf ++ b, full := full, ateof := false } false g t hp
              (hflags _ s rfl hn)
            split at h1 <;> (injection h1 with h1; subst h1; exact this)
          · injection h1 with h1; subst h1; exact hflags _ s rfl hn
          · injection h1 with h1; subst h1; exact hflags _ s rfl hn
      | readAny av g t =>
        simp only [Input.op, Option.map_eq_some_iff] at h1
        obtain ⟨r, h1, rfl⟩ := h1
        exact hflags _ _ (readAny_after s av g t h1).2 (setNonblock_sticks s true g t hp hn)
      | decode => injection h1 with h1; subst h1; exact hflags _ s (decode_same s).2 hn
  obtain ⟨hp', hn'⟩ := key l s s' hp hn hl
  have hs := setNonblock_sticks { s' with buf := s'.buf ++ [], full := false, ateof := false } false true true hp'
    (by unfold Input.nonblocking at hn' ⊢; exact hn')
  refine ⟨(({ s' with buf := s'.buf ++ [], full := false, ateof := false } : Input).setNonblock false true true).1,
    ?_, ?_, hs⟩
  · unfold Input.readMore
    simp only [hn', fileRead, if_true]
    have : (({ s' with buf := s'.buf ++ [], full := false, ateof := false } : Input).setNonblock false true true).2
        = true := by
      unfold Input.setNonblock Input.setFlags
      split
      · rfl
      · simp only
        split
        · rfl
        · simp
    rw [this]
    rfl
  · unfold Input.setNonblock
    split
    · rename_i h; exact h.symm
    · unfold Input.setFlags
      simp only
      split
      · rfl
      · simp only [Bool.not_true, Bool.false_eq_true, if_false]
        unfold Input.setfl Input.fd
        simp only [hp', Bool.false_eq_true, if_false]

/-- After `ReadAny` the file is in non-blocking mode. -/
example : ∃ s, ({ flags := 0x8002 } : Input).ops [.readAny [.data 0x41 [] true, .nothing] true true] = some s ∧
    s.nonblocking = true ∧ s.buf = [0x41] := ⟨_, rfl, rfl, rfl⟩

end Inp
end Anansi
