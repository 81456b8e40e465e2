import Verif.Model.Log
/-
C50 Log sink indexes lines exactly.
-/
set_option autoImplicit false

namespace Anansi
namespace Logs

/-- The positions of the newlines in some bytes. -/
def newlines (b : Bytes) : List Nat := (List.range b.length).filter fun i => b.getD i 0 = 0x0A

/-- Some bytes are whole lines. -/
def WholeLines (p : Bytes) : Prop := p = [] ∨ p.getLast? = some 0x0A
instance (p : Bytes) : Decidable (WholeLines p) := by unfold WholeLines; infer_instance

/-! ### Newlines -/

theorem newlines_append (a b : Bytes) : newlines (a ++ b) = newlines a ++ (newlines b).map (· + a.length) := by
  unfold newlines
  rw [List.length_append, List.range_add, List.filter_append, List.filter_map]
  congr 1
  · apply List.filter_congr
    intro i hi
    rw [List.mem_range] at hi
    rw [List.getD_eq_getElem?_getD, List.getD_eq_getElem?_getD, List.getElem?_append_left hi]
  · rw [show (fun x => a.length + x) = (fun x => x + a.length) from by funext x; omega]
    congr 1
    apply List.filter_congr
    intro i _
    simp only [Function.comp]
    rw [List.getD_eq_getElem?_getD, List.getD_eq_getElem?_getD, List.getElem?_append_right (by omega),
      Nat.add_sub_cancel]

theorem newlines_nil : newlines [] = [] := rfl

theorem newlines_lt (b : Bytes) : ∀ i ∈ newlines b, i < b.length := by
  intro i hi
  exact List.mem_range.mp (List.mem_filter.mp hi).1

theorem newlines_at (b : Bytes) : ∀ i ∈ newlines b, b.getD i 0 = 0x0A := by
  intro i hi
  simpa using (List.mem_filter.mp hi).2

theorem newlines_none (b : Bytes) (h : indexNL b = none) : newlines b = [] := by
  unfold indexNL at h
  rw [List.findIdx?_eq_none_iff] at h
  unfold newlines
  rw [List.filter_eq_nil_iff]
  intro i hi
  rw [List.mem_range] at hi
  have := h (b.getD i 0) (by
    rw [List.getD_eq_getElem?_getD, List.getElem?_eq_getElem hi]
    exact List.getElem_mem hi)
  simpa using this

theorem newlines_first (b : Bytes) (i : Nat) (h : indexNL b = some i) :
    i < b.length ∧ newlines b = i :: (newlines (b.drop (i + 1))).map (· + (i + 1)) := by
  unfold indexNL at h
  rw [List.findIdx?_eq_some_iff_getElem] at h
  obtain ⟨hi, h1, h2⟩ := h
  refine ⟨hi, ?_⟩
  have e : b = b.take i ++ ([0x0A] ++ b.drop (i + 1)) := by
    conv_lhs => rw [← List.take_append_drop i b, List.drop_eq_getElem_cons hi]
    have : b[i] = 0x0A := by simpa using h1
    rw [this]; rfl
  have ht : newlines (b.take i) = [] := by
    unfold newlines
    rw [List.filter_eq_nil_iff]
    intro j hj
    rw [List.mem_range] at hj
    simp only [List.length_take] at hj
    have hji : j < i := by omega
    have := h2 j hji
    rw [List.getD_eq_getElem?_getD, List.getElem?_take, if_pos hji, List.getElem?_eq_getElem (by omega)]
    simpa using this
  have hl : (b.take i).length = i := by simp; omega
  conv_lhs => rw [e]
  rw [newlines_append, ht, hl, List.nil_append, newlines_append, List.map_append]
  have : newlines [(0x0A : UInt8)] = [0] := by decide
  rw [this]
  simp only [List.map_cons, List.map_nil, Nat.zero_add, List.singleton_append, List.map_map, List.length_singleton]
  congr 1
  apply List.map_congr_left
  intro x _
  simp only [Function.comp]; omega

/-- What the loop finds: the newlines, and the end of an unfinished line. -/
theorem eolLoop_spec (base : Nat) (p : Bytes) (f : Nat) : ∀ off, p.length - off ≤ f → off ≤ p.length →
    eolLoop base p f off = (newlines (p.drop off)).map (· + (base + off)) ++
      (if WholeLines (p.drop off) then [] else [base + p.length]) := by
  induction f with
  | zero =>
    intro off h1 h2
    have : p.drop off = [] := List.drop_eq_nil_of_le (by omega)
    rw [this, if_pos (show WholeLines [] from Or.inl rfl)]
    rfl
  | succ f ih =>
    intro off h1 h2
    rw [eolLoop]
    by_cases hlt : off < p.length
    · rw [if_pos hlt]
      cases hi : indexNL (p.drop off) with
      | none =>
        simp only
        rw [newlines_none _ hi]
        have hw : ¬ WholeLines (p.drop off) := by
          rintro (h | h)
          · have := congrArg List.length h
            simp at this; omega
          · unfold indexNL at hi
            rw [List.findIdx?_eq_none_iff] at hi
            have := hi 0x0A (List.mem_of_getLast? h)
            simp at this
        rw [if_neg hw]
        rfl
      | some i =>
        simp only
        obtain ⟨hl, hn⟩ := newlines_first _ _ hi
        simp only [List.length_drop] at hl
        rw [hn, ih (off + i + 1) (by omega) (by omega), List.drop_drop]
        have hd : off + (i + 1) = off + i + 1 := by omega
        rw [hd]
        have hww : WholeLines (p.drop (off + i + 1)) ↔ WholeLines (p.drop off) := by
          have hsplit : p.drop off = (p.drop off).take (i + 1) ++ p.drop (off + i + 1) := by
            conv_lhs => rw [← List.take_append_drop (i + 1) (p.drop off), List.drop_drop, hd]
          by_cases hnil : p.drop (off + i + 1) = []
          · constructor
            · intro _
              right
              rw [hnil, List.append_nil] at hsplit
              have hlen : (p.drop off).length = i + 1 := by
                have := congrArg List.length hnil
                simp at this ⊢; omega
              unfold indexNL at hi
              rw [List.findIdx?_eq_some_iff_getElem] at hi
              obtain ⟨hi1, hi2, _⟩ := hi
              rw [List.getLast?_eq_getElem?, hlen]
              simp only [Nat.add_sub_cancel]
              rw [List.getElem?_eq_getElem hi1]
              simpa using hi2
            · intro _; exact Or.inl hnil
          · have hne : p.drop off ≠ [] := by
              intro hc
              have := congrArg List.length hc
              simp at this; omega
            have hg : (p.drop off).getLast? = (p.drop (off + i + 1)).getLast? := by
              conv_lhs => rw [hsplit]
              rw [List.getLast?_append]
              cases hgl : (p.drop (off + i + 1)).getLast? with
              | none => rw [List.getLast?_eq_none_iff] at hgl; exact absurd hgl hnil
              | some x => rfl
            unfold WholeLines
            rw [hg]
            simp [hnil, hne]
        have hw2 : (if WholeLines (p.drop (off + i + 1)) then [] else [base + p.length]) =
            (if WholeLines (p.drop off) then [] else [base + p.length]) := by
          by_cases hh : WholeLines (p.drop off)
          · rw [if_pos hh, if_pos (hww.mpr hh)]
          · rw [if_neg hh, if_neg (fun h => hh (hww.mp h))]
        rw [hw2, List.map_cons, List.cons_append, List.map_map]
        congr 1
        · omega
        · congr 1
          apply List.map_congr_left
          intro x _
          simp only [Function.comp]; omega
    · rw [if_neg hlt]
      have : p.drop off = [] := List.drop_eq_nil_of_le (by omega)
      rw [this, if_pos (show WholeLines [] from Or.inl rfl)]
      rfl

/-! ### The memory buffer -/

/-- The recorded line ends are the newlines of the buffer. -/
def Sink.Exact (s : Sink) : Prop := s.eols = newlines s.buf

theorem unwind_exact (s : Sink) (h : s.Exact) : s.unwind = some s.eols := by
  unfold Sink.unwind
  cases hl : s.eols.getLast? with
  | none => rfl
  | some i =>
    have hm : i ∈ newlines s.buf := by rw [← h]; exact List.mem_of_getLast? hl
    simp only
    rw [if_pos (newlines_lt _ _ hm), if_neg (by rw [newlines_at _ _ hm]; simp)]

/-- **C50**: writing whole lines keeps the index exact, appends the bytes and does not
panic. -/
theorem write_exact (s : Sink) (p : Bytes) (h : s.Exact) (hp : WholeLines p) :
    ∃ s', s.write p = some s' ∧ s'.Exact ∧ s'.buf = s.buf ++ p := by
  unfold Sink.write
  by_cases h0 : p.length = 0
  · rw [if_pos h0]
    have : p = [] := List.length_eq_zero_iff.mp h0
    exact ⟨s, rfl, h, by rw [this, List.append_nil]⟩
  · rw [if_neg h0, unwind_exact s h]
    refine ⟨_, rfl, ?_, rfl⟩
    unfold Sink.Exact
    simp only
    rw [eolLoop_spec _ _ _ 0 (by omega) (by omega), List.drop_zero, if_pos hp, List.append_nil, newlines_append, h]
    rfl

theorem dropWhile_newlines (b : Bytes) (n : Nat) (hn : n ≤ b.length) :
    ((newlines b).dropWhile (· < n)).map (· - n) = newlines (b.drop n) := by
  have e : b = b.take n ++ b.drop n := (List.take_append_drop n b).symm
  have hl : (b.take n).length = n := by simp; omega
  conv_lhs => rw [e]
  rw [newlines_append, hl]
  rw [List.dropWhile_append_of_pos]
  · have : ∀ l : List Nat, (l.map (· + n)).dropWhile (fun x => decide (x < n)) = l.map (· + n) := by
      intro l
      cases l with
      | nil => rfl
      | cons a l =>
        rw [List.map_cons, List.dropWhile_cons_of_neg (by simp)]
    rw [this, List.map_map]
    conv_rhs => rw [← List.map_id (newlines (b.drop n))]
    apply List.map_congr_left
    intro x _
    simp
  · intro x hx
    have := newlines_lt _ _ hx
    rw [hl] at this
    simpa using this

/-- **C50**: a read of any size keeps the index exact, and returns the first bytes. -/
theorem read_exact (s : Sink) (k : Nat) (h : s.Exact) :
    (s.read k).1.Exact ∧ (s.read k).2 ++ (s.read k).1.buf = s.buf ∧ (s.read k).2.length = min k s.buf.length := by
  unfold Sink.read
  refine ⟨?_, by simp, by simp⟩
  unfold Sink.Exact
  simp only
  rw [h, dropWhile_newlines _ _ (Nat.min_le_right _ _)]

/-- The call writes whole lines, if it writes. -/
def Call.Whole : Call → Prop
  | .write p => WholeLines p
  | .read _ => True

/-- **C50**: after any sequence of writes of whole lines and partial reads, in which
nothing panics, the recorded line ends are exactly the newline positions of the buffered
text.  (The `log` package only writes whole lines.) -/
theorem calls_exact_partial (cs : List Call) : ∀ (s : Sink), s.Exact → (∀ c ∈ cs, c.Whole) →
    ∃ s', s.calls cs = some s' ∧ s'.Exact := by
  induction cs with
  | nil => intro s h _; exact ⟨s, rfl, h⟩
  | cons c cs ih =>
    intro s h hc
    have h1 := hc c (by simp)
    have h2 := fun x hx => hc x (List.mem_cons_of_mem c hx)
    cases c with
    | write p =>
      obtain ⟨s', e, hs, _⟩ := write_exact s p h h1
      obtain ⟨s'', e2, hs2⟩ := ih s' hs h2
      exact ⟨s'', by rw [Sink.calls, Sink.call, e]; exact e2, hs2⟩
    | read k =>
      obtain ⟨s'', e2, hs2⟩ := ih (s.read k).1 (read_exact s k h).1 h2
      exact ⟨s'', by rw [Sink.calls, Sink.call]; exact e2, hs2⟩

/-- The empty sink. -/
theorem empty_exact : ({} : Sink).Exact := rfl

/-- Two lines written, five bytes read. -/
example : ∃ s', ({} : Sink).calls [.write [0x61, 0x0A], .write [0x62, 0x0A, 0x63, 0x0A], .read 3] = some s' ∧
    s'.Exact ∧ s' = ⟨[0x0A, 0x63, 0x0A], [0, 2]⟩ :=
  ⟨_, rfl, by unfold Sink.Exact; decide, by decide⟩

/-- The state after an unfinished line: the last line end recorded is the end of the
buffer. -/
def Sink.Implicit (s : Sink) : Prop := s.eols.getLast? = some s.buf.length

/-- Negation for **C50**: after a write that does not end in a newline, the index is not
that of the newlines, and ... -/
theorem unfinished_implicit (s : Sink) (p : Bytes) (h : s.Exact) (hp : ¬ WholeLines p) :
    ∃ s', s.write p = some s' ∧ s'.Implicit ∧ ¬ s'.Exact := by
  have h0 : ¬ p.length = 0 := fun hh => hp (Or.inl (List.length_eq_zero_iff.mp hh))
  unfold Sink.write
  rw [if_neg h0, unwind_exact s h]
  have hi : Sink.Implicit ⟨s.buf ++ p, s.eols ++ eolLoop s.buf.length p p.length 0⟩ := by
    unfold Sink.Implicit
    simp only
    rw [eolLoop_spec _ _ _ 0 (by omega) (by omega), List.drop_zero, if_neg hp, ← List.append_assoc,
      List.getLast?_concat, List.length_append]
  refine ⟨_, rfl, hi, ?_⟩
  intro he
  have hm : (s.buf ++ p).length ∈ newlines (s.buf ++ p) := by
    rw [← show _ = newlines (s.buf ++ p) from he]; exact List.mem_of_getLast? hi
  exact absurd (newlines_lt _ _ hm) (Nat.lt_irrefl _)

/-- ... whatever is read then, it stays so, and ... -/
theorem implicit_read (s : Sink) (k : Nat) (h : s.Implicit) : (s.read k).1.Implicit := by
  unfold Sink.Implicit Sink.read at *
  simp only
  rw [List.getLast?_eq_some_iff] at h
  obtain ⟨ys, hy⟩ := h
  rw [hy, List.getLast?_map]
  have : ∀ l : List Nat, ((l ++ [s.buf.length]).dropWhile (fun x => decide (x < min k s.buf.length))).getLast? = some s.buf.length := by
    intro l
    induction l with
    | nil => rw [List.nil_append, List.dropWhile_cons_of_neg (by simp; omega)]; rfl
    | cons a l ih =>
      rw [List.cons_append]
      by_cases ha : a < min k s.buf.length
      · rw [List.dropWhile_cons_of_pos (by simpa using ha)]; exact ih
      · rw [List.dropWhile_cons_of_neg (by simpa using ha), ← List.cons_append, List.getLast?_concat]
  rw [this]
  simp

/-- ... every further write panics. -/
theorem implicit_panics (s : Sink) (p : Bytes) (h : s.Implicit) (hp : p ≠ []) : s.write p = none := by
  unfold Sink.write Sink.unwind
  rw [if_neg (fun hh => hp (List.length_eq_zero_iff.mp hh)), h]
  simp

/-- A concrete history that panics: "a" and, after a read of everything, "b". -/
theorem unfinished_panics : ({} : Sink).calls [.write [0x61], .read 9, .write [0x62]] = none := by decide

end Logs
end Anansi
