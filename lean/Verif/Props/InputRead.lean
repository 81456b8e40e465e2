import Verif.Props.InputFlags
/-
C64 Reading input loses no byte.
-/
set_option autoImplicit false

namespace Anansi
namespace Inp

/-- The bytes the terminal offers. -/
def offered : List Avail → Bytes
  | [] => []
  | .data b t _ :: l => b :: t ++ offered l
  | _ :: l => offered l

theorem fileRead_takes (nb : Bool) (av : List Avail) : ∀ {b : Bytes} {full : Bool} {e : Err} {av' : List Avail},
    fileRead nb av = some (b, full, e, av') →
    ∃ took, av = took ++ av' ∧ offered took = b ∧ (b ≠ [] → e = .nil) := by
  induction av with
  | nil =>
    intro b full e av' h
    simp only [fileRead] at h
    split at h
    · simp only [Option.some.injEq, Prod.mk.injEq] at h
      obtain ⟨rfl, rfl, rfl, rfl⟩ := h
      exact ⟨[], rfl, rfl, fun h => absurd rfl h⟩
    · cases h
  | cons a l ih =>
    intro b full e av' h
    cases a with
    | data c t f =>
      simp only [fileRead, Option.some.injEq, Prod.mk.injEq] at h
      obtain ⟨rfl, rfl, rfl, rfl⟩ := h
      exact ⟨[.data c t f], rfl, by simp [offered], fun _ => rfl⟩
    | nothing =>
      simp only [fileRead] at h
      split at h
      · simp only [Option.some.injEq, Prod.mk.injEq] at h
        obtain ⟨rfl, rfl, rfl, rfl⟩ := h
        exact ⟨[.nothing], rfl, rfl, fun h => absurd rfl h⟩
      · obtain ⟨took, h1, h2, h3⟩ := ih h
        exact ⟨.nothing :: took, by rw [h1]; rfl, h2, h3⟩
    | eof =>
      simp only [fileRead, Option.some.injEq, Prod.mk.injEq] at h
      obtain ⟨rfl, rfl, rfl, rfl⟩ := h
      exact ⟨[.eof], rfl, rfl, fun h => absurd rfl h⟩
    | fail =>
      simp only [fileRead, Option.some.injEq, Prod.mk.injEq] at h
      obtain ⟨rfl, rfl, rfl, rfl⟩ := h
      exact ⟨[.fail], rfl, rfl, fun h => absurd rfl h⟩

theorem fd_buf (s : Input) : s.fd.buf = s.buf := by unfold Input.fd; split <;> rfl

theorem setFlags_buf (s : Input) (g t : Bool) : (s.setFlags g t).1.buf = s.buf := by
  unfold Input.setFlags
  simp only
  repeat' split
  all_goals simp only [Input.setfl, fd_buf]

theorem setNonblock_buf (s : Input) (b g t : Bool) : (s.setNonblock b g t).1.buf = s.buf := by
  unfold Input.setNonblock
  split
  · rfl
  · exact setFlags_buf _ g t

/-- **C64** for `ReadMore`: it takes some of what the terminal offers, appends exactly
those bytes to the buffer, in order, and returns how many there are.  If there are any,
the error is nil. -/
theorem read_more_keeps (s : Input) (av : List Avail) (g o : Bool) (s' : Input) (n : Nat) (e : Err)
    (av' : List Avail) (h : s.readMore av g o = some (s', n, e, av')) :
    ∃ took, av = took ++ av' ∧ s'.buf = s.buf ++ offered took ∧ n = (offered took).length ∧
      (n ≠ 0 → e = .nil) := by
  unfold Input.readMore at h
  split at h
  · cases h
  · rename_i b full err av1 hr
    obtain ⟨took, h1, h2, h3⟩ := fileRead_takes _ av hr
    have hn : b.length ≠ 0 → err = .nil := fun hb => h3 (by rintro rfl; exact hb rfl)
    simp only at h
    split at h
    · have hb : b = [] := by by_contra hc; have := h3 hc; simp at this
      subst hb
      split at h <;>
      · simp only [Option.some.injEq, Prod.mk.injEq] at h
        obtain ⟨rfl, rfl, rfl, rfl⟩ := h
        exact ⟨took, h1, by rw [h2], by rw [h2], fun h => absurd rfl h⟩
    · have hb : b = [] := by by_contra hc; have := h3 hc; simp at this
      subst hb
      have hs := setNonblock_buf { s with buf := s.buf ++ [], full := full, ateof := false } false g o
      split at h <;>
      · simp only [Option.some.injEq, Prod.mk.injEq] at h
        obtain ⟨rfl, rfl, rfl, rfl⟩ := h
        exact ⟨took, h1, by rw [h2]; exact hs, by rw [h2]; try rfl, fun h => absurd rfl h⟩
    · simp only [Option.some.injEq, Prod.mk.injEq] at h
      obtain ⟨rfl, rfl, rfl, rfl⟩ := h
      exact ⟨took, h1, by rw [h2], by rw [h2], fun _ => rfl⟩
    · simp only [Option.some.injEq, Prod.mk.injEq] at h
      obtain ⟨rfl, rfl, rfl, rfl⟩ := h
      exact ⟨took, h1, by rw [h2], by rw [h2], hn⟩

theorem readLoop_keeps (av : List Avail) : ∀ (s : Input) (n : Nat) {s' : Input} {m : Nat} {e : Err}
    {av' : List Avail}, s.readLoop n av = some (s', m, e, av') →
    ∃ took, av = took ++ av' ∧ s'.buf = s.buf ++ offered took ∧ m = n + (offered took).length := by
  induction av with
  | nil =>
    intro s n s' m e av' h
    simp only [Input.readLoop] at h
    split at h
    · simp only [Option.some.injEq, Prod.mk.injEq] at h
      obtain ⟨rfl, rfl, rfl, rfl⟩ := h
      exact ⟨[], rfl, by simp [offered], rfl⟩
    · cases h
  | cons a l ih =>
    intro s n s' m e av' h
    cases a with
    | data b t full =>
      simp only [Input.readLoop] at h
      obtain ⟨took, h1, h2, h3⟩ := ih _ _ h
      refine ⟨.data b t full :: took, by rw [h1]; rfl, ?_, ?_⟩
      · rw [h2]; simp [offered]
      · rw [h3]; simp [offered]; omega
    | nothing =>
      simp only [Input.readLoop] at h
      split at h
      · simp only [Option.some.injEq, Prod.mk.injEq] at h
        obtain ⟨rfl, rfl, rfl, rfl⟩ := h
        exact ⟨[.nothing], rfl, by simp [offered], rfl⟩
      · obtain ⟨took, h1, h2, h3⟩ := ih _ _ h
        exact ⟨.nothing :: took, by rw [h1]; rfl, h2, h3⟩
    | eof =>
      simp only [Input.readLoop, Option.some.injEq, Prod.mk.injEq] at h
      obtain ⟨rfl, rfl, rfl, rfl⟩ := h
      exact ⟨[.eof], rfl, by simp [offered], rfl⟩
    | fail =>
      simp only [Input.readLoop, Option.some.injEq, Prod.mk.injEq] at h
      obtain ⟨rfl, rfl, rfl, rfl⟩ := h
      exact ⟨[.fail], rfl, by simp [offered], rfl⟩

/-- **C64** for `ReadAny`: the same. -/
theorem read_any_keeps (s : Input) (av : List Avail) (g o : Bool) (s' : Input) (n : Nat) (e : Err)
    (av' : List Avail) (h : s.readAny av g o = some (s', n, e, av')) :
    ∃ took, av = took ++ av' ∧ s'.buf = s.buf ++ offered took ∧ n = (offered took).length := by
  unfold Input.readAny at h
  have hs := setNonblock_buf s true g o
  simp only at h
  split at h
  · simp only [Option.some.injEq, Prod.mk.injEq] at h
    obtain ⟨rfl, rfl, rfl, rfl⟩ := h
    exact ⟨[], rfl, by simp [offered, hs], rfl⟩
  · split at h
    · cases h
    all_goals
      rename_i hl
      obtain ⟨took, h1, h2, h3⟩ := readLoop_keeps _ _ _ hl
      simp only [Option.some.injEq, Prod.mk.injEq] at h
      obtain ⟨rfl, rfl, rfl, rfl⟩ := h
      exact ⟨took, h1, by rw [h2]; simp only [hs], by omega⟩

/-- A file in non-blocking mode after `setNonblock(true)` succeeded. -/
theorem setNonblock_nonblocking (s : Input) (hf : s.file = true) (hn : s.nonblock = false) :
    (s.setNonblock true true true).1.nonblocking = true ∧ (s.setNonblock true true true).2 = true := by
  unfold Input.setNonblock
  rw [if_neg (by rw [hn]; decide)]
  unfold Input.setFlags
  simp only [hf, Bool.not_true, Bool.false_eq_true, if_false]
  refine ⟨?_, trivial⟩
  unfold Input.nonblocking Input.setfl
  simp only [decide_eq_true_eq]
  intro h0
  have hb : ∀ v w : BitVec 64, v.getLsbD 11 = true →
      (((w &&& ~~~SETFL_MASK) ||| (v &&& SETFL_MASK)) &&& O_NONBLOCK).getLsbD 11 = true := by
    intro v w hv
    simp only [BitVec.getLsbD_and, BitVec.getLsbD_or, hv]
    have : SETFL_MASK.getLsbD 11 = true := by decide
    rw [this]
    have : O_NONBLOCK.getLsbD 11 = true := by decide
    rw [this]; simp
  have hbf : ∀ (x : Input) (v : BitVec 64), x.nonblock = true → (x.buildFlags v).getLsbD 11 = true := by
    intro x v hx
    have h : O_NONBLOCK.getLsbD 11 = true := by decide
    unfold Input.buildFlags
    simp only [hx, if_true]
    split <;> simp only [BitVec.getLsbD_or, h, Bool.or_true, Bool.true_or]
  have hfd : ∀ x : Input, x.fd.nonblock = x.nonblock := by intro x; unfold Input.fd; split <;> rfl
  have := hb _ (({ s with nonblock := true } : Input).fd.fd.flags)
    (hbf ({ s with nonblock := true } : Input).fd ({ s with nonblock := true } : Input).fd.flags (hfd _))
  rw [show ((({ s with nonblock := true } : Input).fd.fd.flags &&& ~~~SETFL_MASK) |||
    (({ s with nonblock := true } : Input).fd.buildFlags ({ s with nonblock := true } : Input).fd.flags &&&
      SETFL_MASK)) &&& O_NONBLOCK = 0 by rw [hf]; exact h0] at this
  exact absurd this (by decide)

/-- **C64** for `ReadAny`: on a file it takes all there is without waiting: all bytes up
to the point where there is nothing for the time being, at the end or at an error. -/
theorem read_any_all (s : Input) (ds : List (UInt8 × Bytes × Bool)) (av : List Avail)
    (hf : s.file = true) (hn : s.nonblock = false) :
    ∃ s', s.readAny (ds.map (fun d => Avail.data d.1 d.2.1 d.2.2) ++ .nothing :: av) true true =
        some (s', (ds.flatMap fun d => d.1 :: d.2.1).length, .nil, av) ∧
      s'.buf = s.buf ++ (ds.flatMap fun d => d.1 :: d.2.1) ∧ s'.ateof = false := by
  obtain ⟨hnb, hok⟩ := setNonblock_nonblocking s hf hn
  have key : ∀ (ds : List (UInt8 × Bytes × Bool)) (x : Input) (n : Nat), x.nonblocking = true →
      ∃ f, x.readLoop n (ds.map (fun d => Avail.data d.1 d.2.1 d.2.2) ++ .nothing :: av) =
        some ({ x with buf := x.buf ++ (ds.flatMap fun d => d.1 :: d.2.1), full := f },
          n + (ds.flatMap fun d => d.1 :: d.2.1).length, .wouldBlock, av) := by
    intro ds
    induction ds with
    | nil =>
      intro x n hx
      exact ⟨false, by simp [Input.readLoop, hx]⟩
    | cons d ds ih =>
      intro x n hx
      have hx' : ({ x with buf := x.buf ++ d.1 :: d.2.1, full := d.2.2 } : Input).nonblocking = true := hx
      obtain ⟨f, hi⟩ := ih _ (n + (d.2.1.length + 1)) hx'
      refine ⟨f, ?_⟩
      simp only [List.map_cons, List.cons_append, Input.readLoop]
      rw [hi]
      simp; omega
  have hx : ({ (s.setNonblock true true true).1 with ateof := false } : Input).nonblocking = true := hnb
  obtain ⟨f, hk⟩ := key ds _ 0 hx
  unfold Input.readAny
  simp only [hok, Bool.not_true, Bool.false_eq_true, if_false, hk]
  refine ⟨_, by rw [Nat.zero_add], ?_, rfl⟩
  simp only [setNonblock_buf]

/-- Two reads' worth of bytes, then nothing. -/
example : ({ flags := 2 } : Input).readAny [.data 0x41 [0x42] true, .data 0x43 [] false, .nothing, .data 0x44 [] false]
    true true = some ({ flags := 0x802, nonblock := true, buf := [0x41, 0x42, 0x43] }, 3, .nil,
      [.data 0x44 [] false]) := by decide

end Inp
end Anansi
