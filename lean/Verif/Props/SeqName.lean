import Verif.Model.SeqName
import Verif.Props.Sequences
import Verif.Props.EscName
/-
C140: sequences that print alike are written alike.
-/
set_option autoImplicit false

namespace Anansi
open Spec

/-- Every sequence that can be built carries all the arguments it was given. -/
theorem build_rep {id : Nat} {calls : List Call} {s : Seq} (h : build id calls = some s) :
    SeqRep s id (allBytes calls) (allInts calls) ∧ ((0xEF80 < id ∧ id < 0xEFFF) ∨ allInts calls = []) ∧ ((0x0000 < id ∧ id < 0x001F) ∨ (0xEF00 < id ∧ id < 0xEFFF)) := by
  have nn : ∀ calls : List Call, calls.foldl (fun s c => s.bind fun s =>
        match c with
        | .bytes bs => some (s.with bs)
        | .ints is => s.withInts is) (none : Option Seq) = none := by
    intro calls
    induction calls with
    | nil => rfl
    | cons c t ih => exact ih
  have aux : ∀ (calls : List Call) (s s' : Seq) (bs : List UInt8) (is : List Int), SeqRep s id bs is →
      calls.foldl (fun s c => s.bind fun s =>
        match c with
        | .bytes bs => some (s.with bs)
        | .ints is => s.withInts is) (some s) = some s' →
        SeqRep s' id (bs ++ allBytes calls) (is ++ allInts calls) ∧ ((0xEF80 < id ∧ id < 0xEFFF) ∨ allInts calls = []) := by
    intro calls
    induction calls with
    | nil => intro s s' bs is h e; cases e; exact ⟨by simpa [allBytes, allInts] using h, Or.inr rfl⟩
    | cons c t ih =>
      intro s s' bs is h e
      cases c with
      | bytes b => simpa [allBytes, allInts] using ih _ _ _ _ (h.with b) e
      | ints l =>
        rw [List.foldl_cons] at e
        simp only [Option.bind_some] at e
        cases e1 : s.withInts l with
        | none => rw [e1, nn] at e; cases e
        | some s1 =>
          rw [e1] at e
          have r1 : SeqRep s1 id bs (is ++ l) ∧ ((0xEF80 < id ∧ id < 0xEFFF) ∨ l = []) := by
            by_cases hl : l = []
            · subst hl
              unfold Seq.withInts at e1
              rw [if_pos rfl, Option.some.injEq] at e1
              rw [← e1, List.append_nil]
              exact ⟨h, Or.inr rfl⟩
            · by_cases hid : 0xEF80 < id ∧ id < 0xEFFF
              · obtain ⟨s2, e2, r2⟩ := h.withInts hid l
                rw [e1, Option.some.injEq] at e2
                rw [e2]
                exact ⟨r2, Or.inl hid⟩
              · unfold Seq.withInts at e1
                rw [if_neg hl, if_pos (by rw [h.id]; omega)] at e1
                cases e1
          obtain ⟨r2, h2⟩ := ih _ _ _ _ r1.1 e
          refine ⟨by simpa [allBytes, allInts] using r2, ?_⟩
          rcases r1.2 with h3 | h3
          · exact Or.inl h3
          · rcases h2 with h2 | h2
            · exact Or.inl h2
            · exact Or.inr (by subst h3; simpa [allInts] using h2)
  by_cases hid : (0x0000 < id ∧ id < 0x001F) ∨ (0xEF00 < id ∧ id < 0xEFFF)
  · obtain ⟨s0, h0, r0⟩ := escSeq_rep hid
    unfold build at h
    rw [h0] at h
    obtain ⟨r, h1⟩ := aux calls s0 s [] [] r0 h
    exact ⟨by simpa using r, h1, hid⟩
  · unfold build escSeq at h
    rw [if_neg hid] at h
    exact absurd ((nn calls).symm.trans h) (by simp)

/-- All the names of controls, each with the quote that follows. -/
def quotedNames : List Bytes := controls.map fun id => (escString (fun _ => []) id).getD [] ++ [0x22]

theorem names_prefix : quotedNames.Pairwise fun a b => a.isPrefixOf b = false ∧ b.isPrefixOf a = false := by decide +kernel

/-- A name, with the quote that follows it, is not the beginning of another. -/
theorem name_prefix (q : Nat → Bytes) (a b : Nat) (ha : Control a) (hb : Control b) (n m : Bytes) (hn : escString q a = some n)
    (hm : escString q b = some m) (h : n ++ [0x22] <+: m ++ [0x22]) : a = b := by
  rw [control_quote q (fun _ => []) a ha] at hn
  rw [control_quote q (fun _ => []) b hb] at hm
  by_contra hne
  obtain ⟨i, hi, ei⟩ := List.mem_iff_getElem.1 (mem_controls a ha)
  obtain ⟨j, hj, ej⟩ := List.mem_iff_getElem.1 (mem_controls b hb)
  have hij : i ≠ j := by rintro rfl; exact hne (ei.symm.trans ej)
  have P := List.pairwise_iff_getElem.1 names_prefix
  have g : ∀ k (hk : k < controls.length) (x : Bytes), escString (fun _ => []) controls[k] = some x →
      quotedNames[k]'(by unfold quotedNames; rw [List.length_map]; exact hk) = x ++ [0x22] := by
    intro k hk x hx
    simp only [quotedNames, List.getElem_map, hx, Option.getD_some]
  have hp : (n ++ [0x22]).isPrefixOf (m ++ [0x22]) = true := List.isPrefixOf_iff_prefix.2 h
  have gi := g i hi n (by rw [ei]; exact hn)
  have gj := g j hj m (by rw [ej]; exact hm)
  have len : quotedNames.length = controls.length := by unfold quotedNames; rw [List.length_map]
  rcases Nat.lt_or_gt_of_ne hij with hlt | hlt
  · have := (P i j (by omega) (by omega) hlt).1
    rw [gi, gj, hp] at this
    cases this
  · have := (P j i (by omega) (by omega) hlt).2
    rw [gi, gj, hp] at this
    cases this

/-- What comes first, when what follows it begins with the same byte. -/
theorem split_prefix {n m x y : Bytes} {c : UInt8} (h : n ++ c :: x = m ++ c :: y) (hl : n.length ≤ m.length) : n ++ [c] <+: m ++ [c] := by
  have h1 : n ++ [c] <+: m ++ [c] ++ y := ⟨x, by simpa using h⟩
  exact List.prefix_of_prefix_length_le h1 (List.prefix_append _ _) (by simpa using hl)

namespace Spec

/-- What `%q` does: quoted strings begin with their quote and tell what was quoted; a quoted rune begins with another
quote, and is not the beginning of another quoted rune. -/
structure Quoting (quote : Bytes → Bytes) (quoteRune : Nat → Bytes) (valid : Nat → Prop) : Prop where
  str : ∀ p, (quote p).head? = some 0x22
  tells : ∀ p p', quote p = quote p' → p = p'
  rune : ∀ r, (quoteRune r).head? = some 0x27
  first : ∀ r r', valid r → valid r' → quoteRune r <+: quoteRune r' → r = r'

end Spec

/-- What is printed of a sequence: the name of its identifier and, quoted, all its argument bytes and numbers, in the order
in which they were given. -/
theorem seq_string (quote : Bytes → Bytes) (quoteRune : Nat → Bytes) {id : Nat} {calls : List Call} {s : Seq} (h : build id calls = some s) :
    ∃ n, escString quoteRune id = some n ∧
      s.string quote quoteRune = some (n ++ quote (allBytes calls ++ joinInts (allInts calls))) := by
  obtain ⟨r, -, hid⟩ := build_rep h
  have hn : (escString quoteRune id).isSome := by
    by_cases hc : Control id
    · obtain ⟨n, hn, -⟩ := control_string quoteRune id hc
      rw [hn]; rfl
    · rw [other_string quoteRune id hc]; rfl
  obtain ⟨n, hn⟩ := Option.isSome_iff_exists.1 hn
  refine ⟨n, hn, ?_⟩
  unfold Seq.string
  rw [if_neg (by rw [r.id]; omega), r.argNums, r.id, hn, r.argByteList]
  rfl

/-- **C140**: sequences that print alike have the same identifier and the same arguments, and so are written alike.  Printing
never panics. -/
theorem printed_tells (quote : Bytes → Bytes) (quoteRune : Nat → Bytes) (valid : Nat → Prop) (Q : Spec.Quoting quote quoteRune valid)
    {id id' : Nat} (hv : valid id) (hv' : valid id') {calls calls' : List Call} {s s' : Seq} (h : build id calls = some s)
    (h' : build id' calls' = some s') :
    (s.string quote quoteRune).isSome ∧
      (s.string quote quoteRune = s'.string quote quoteRune →
        id = id' ∧ allBytes calls ++ joinInts (allInts calls) = allBytes calls' ++ joinInts (allInts calls') ∧ s.append = s'.append) := by
  obtain ⟨n, e1, e2⟩ := seq_string quote quoteRune h
  obtain ⟨n', e1', e2'⟩ := seq_string quote quoteRune h'
  refine ⟨by rw [e2]; rfl, fun heq => ?_⟩
  rw [e2, e2', Option.some.injEq] at heq
  obtain ⟨x, hx⟩ : ∃ x, quote (allBytes calls ++ joinInts (allInts calls)) = 0x22 :: x := by
    have := Q.str (allBytes calls ++ joinInts (allInts calls))
    cases hq : quote (allBytes calls ++ joinInts (allInts calls)) with
    | nil => rw [hq] at this; cases this
    | cons a t => rw [hq] at this; cases this; exact ⟨t, rfl⟩
  obtain ⟨x', hx'⟩ : ∃ x, quote (allBytes calls' ++ joinInts (allInts calls')) = 0x22 :: x := by
    have := Q.str (allBytes calls' ++ joinInts (allInts calls'))
    cases hq : quote (allBytes calls' ++ joinInts (allInts calls')) with
    | nil => rw [hq] at this; cases this
    | cons a t => rw [hq] at this; cases this; exact ⟨t, rfl⟩
  have heq' := heq
  rw [hx, hx'] at heq'
  have key : ∀ (a b : Nat) (n m x y : Bytes), valid a → valid b → escString quoteRune a = some n → escString quoteRune b = some m →
      n ++ 0x22 :: x = m ++ 0x22 :: y → n.length ≤ m.length → a = b := by
    intro a b n m x y va vb ha hb hh hl
    have hpre := split_prefix hh hl
    have hpre' : n <+: m := by
      have h1 : n <+: m ++ [0x22] := (List.prefix_append _ _).trans hpre
      exact List.prefix_of_prefix_length_le h1 (List.prefix_append _ _) hl
    have hhead : ∀ c, n.head? = some c → m.head? = some c := by
      intro c hc
      obtain ⟨t, ht⟩ := hpre'
      rw [← ht, List.head?_append, hc]
      rfl
    have ne : ∀ c n, Control c → escString quoteRune c = some n → ∃ d, n.head? = some d ∧ d ≠ 0x27 := by
      intro c n hc hn
      obtain ⟨k, hk, h1⟩ := control_string quoteRune c hc
      rw [hn, Option.some.injEq] at hk
      subst hk
      cases n with
      | nil =>
        exfalso
        have hall : ∀ z ∈ controls, escString (fun _ => []) z ≠ some [] := by decide +kernel
        exact hall c (mem_controls c hc) (by rw [← control_quote quoteRune _ c hc, hn])
      | cons d t => exact ⟨d, rfl, fun hd => h1 (by rw [hd]; rfl)⟩
    by_cases ca : Control a <;> by_cases cb : Control b
    · exact name_prefix quoteRune a b ca cb n m ha hb hpre
    · obtain ⟨d, g1, g2⟩ := ne a n ca ha
      rw [other_string quoteRune b cb, Option.some.injEq] at hb
      have := hhead d g1
      rw [← hb, Q.rune b, Option.some.injEq] at this
      exact absurd this.symm g2
    · obtain ⟨d, g1, g2⟩ := ne b m cb hb
      rw [other_string quoteRune a ca, Option.some.injEq] at ha
      have := hhead 0x27 (by rw [← ha]; exact Q.rune a)
      rw [g1, Option.some.injEq] at this
      exact absurd this g2
    · rw [other_string quoteRune a ca, Option.some.injEq] at ha
      rw [other_string quoteRune b cb, Option.some.injEq] at hb
      subst ha hb
      exact Q.first a b va vb hpre'
  have hid : id = id' := by
    rcases Nat.le_total n.length n'.length with hl | hl
    · exact key _ _ _ _ _ _ hv hv' e1 e1' heq' hl
    · exact (key _ _ _ _ _ _ hv' hv e1' e1 heq'.symm hl).symm
  subst hid
  rw [e1, Option.some.injEq] at e1'
  subst e1'
  have hargs := Q.tells _ _ (List.append_cancel_left heq)
  obtain ⟨r, hi, hid⟩ := build_rep h
  obtain ⟨r', hi', -⟩ := build_rep h'
  refine ⟨rfl, hargs, ?_⟩
  by_cases hc : 0xEF80 < id ∧ id < 0xEFFF
  · have a1 : s.append = some ([0x1B, 0x5B] ++ (allBytes calls ++ joinInts (allInts calls)) ++ [UInt8.ofNat (id % 128)]) := by
      rw [Seq.append, r.id, if_neg (by omega), if_neg (by omega), if_pos hc, r.argNums, r.argByteList]
      simp
    have a2 : s'.append = some ([0x1B, 0x5B] ++ (allBytes calls' ++ joinInts (allInts calls')) ++ [UInt8.ofNat (id % 128)]) := by
      rw [Seq.append, r'.id, if_neg (by omega), if_neg (by omega), if_pos hc, r'.argNums, r'.argByteList]
      simp
    rw [a1, a2, hargs]
  · have z : allInts calls = [] := by rcases hi with hi | hi; exacts [absurd hi hc, hi]
    have z' : allInts calls' = [] := by rcases hi' with hi | hi; exacts [absurd hi hc, hi]
    have hb : allBytes calls = allBytes calls' := by
      rw [z, z'] at hargs
      exact List.append_cancel_right hargs
    unfold Seq.append
    rw [r.id, r'.id, r.argByteList, r'.argByteList, hb]
    by_cases h2 : 0xEF00 < id ∧ id < 0xEF7F
    · simp only [if_pos h2, if_neg hc]
    · have h3 : ¬ (0xEF20 < id ∧ id < 0xEF2F) := by omega
      simp only [if_neg h2, if_neg h3, if_neg hc]

/-- And control sequences that are written alike print alike. -/
theorem written_prints (quote : Bytes → Bytes) (quoteRune : Nat → Bytes) {id id' : Nat} (hc : 0xEF80 < id ∧ id < 0xEFFF)
    (hc' : 0xEF80 < id' ∧ id' < 0xEFFF) {calls calls' : List Call} {s s' : Seq} (h : build id calls = some s)
    (h' : build id' calls' = some s') (hw : s.append = s'.append) :
    id = id' ∧ s.string quote quoteRune = s'.string quote quoteRune := by
  have a1 := seq_build_csi hc calls
  have a2 := seq_build_csi hc' calls'
  rw [h, Option.bind_some] at a1
  rw [h', Option.bind_some] at a2
  rw [a1, a2, Option.some.injEq] at hw
  obtain ⟨h1, h2⟩ := List.append_inj' hw rfl
  rw [List.append_assoc, List.append_assoc] at h1
  have h1 := List.append_cancel_left h1
  have hid : id = id' := by
    rw [List.cons.injEq] at h2
    have := congrArg UInt8.toNat h2.1
    simp only [UInt8.toNat_ofNat'] at this
    omega
  subst hid
  obtain ⟨n, e1, e2⟩ := seq_string quote quoteRune h
  obtain ⟨n', e1', e2'⟩ := seq_string quote quoteRune h'
  rw [e1, Option.some.injEq] at e1'
  subst e1'
  exact ⟨rfl, by rw [e2, e2', h1]⟩

/-- Not so others: an escape sequence with a bracket for an argument is written like a control sequence. -/
theorem esc_like_csi (quote : Bytes → Bytes) (quoteRune : Nat → Bytes) :
    ∃ s s', build 0xEF6D [.bytes [0x5B, 0x31]] = some s ∧ build SGR [.ints [1]] = some s' ∧ s.append = s'.append ∧
      s.append = some [0x1B, 0x5B, 0x31, 0x6D] ∧ s.string quote quoteRune ≠ s'.string quote quoteRune := by
  obtain ⟨s, hs⟩ : ∃ s, build 0xEF6D [.bytes [0x5B, 0x31]] = some s := ⟨_, rfl⟩
  obtain ⟨s', hs'⟩ : ∃ s, build SGR [.ints [1]] = some s := ⟨_, rfl⟩
  have w : (build 0xEF6D [.bytes [0x5B, 0x31]]).bind Seq.append = some [0x1B, 0x5B, 0x31, 0x6D] := by decide +kernel
  have w' : (build SGR [.ints [1]]).bind Seq.append = some [0x1B, 0x5B, 0x31, 0x6D] := by decide +kernel
  rw [hs, Option.bind_some] at w
  rw [hs', Option.bind_some] at w'
  refine ⟨s, s', hs, hs', w.trans w'.symm, w, fun he => ?_⟩
  obtain ⟨n, e1, e2⟩ := seq_string quote quoteRune hs
  obtain ⟨n', e1', e2'⟩ := seq_string quote quoteRune hs'
  have k : escString quoteRune 0xEF6D = some (ascii "ESC+m") := by
    rw [control_quote quoteRune (fun _ => []) _ (by unfold Control; omega)]; decide +kernel
  have k' : escString quoteRune SGR = some (ascii "CSI+m") := by
    rw [control_quote quoteRune (fun _ => []) _ (by unfold Control SGR csiId; decide)]; decide +kernel
  rw [k, Option.some.injEq] at e1
  rw [k', Option.some.injEq] at e1'
  rw [e2, e2', ← e1, ← e1', Option.some.injEq] at he
  have := congrArg List.head? he
  rw [List.head?_append, List.head?_append, (by decide +kernel : (ascii "ESC+m").head? = some 0x45),
    (by decide +kernel : (ascii "CSI+m").head? = some 0x43)] at this
  simp at this

/-- Quoting without escapes: what is between the quotes is of fixed width for runes. -/
example : Spec.Quoting (fun p => 0x22 :: p) (fun r => 0x27 :: List.replicate r 0 ++ [0x27]) (fun _ => True) := by
  refine ⟨fun p => rfl, fun p p' h => (List.cons.inj h).2, fun r => rfl, fun r r' _ _ h => ?_⟩
  have h := List.cons_prefix_cons.1 h |>.2
  obtain ⟨t, ht⟩ := h
  rcases Nat.lt_trichotomy r r' with hl | hl | hl
  · have := congrArg (fun l => l[r]?) ht
    simp [List.getElem?_append, hl] at this
  · exact hl
  · have := congrArg List.length ht
    simp at this
    omega

example : (build SGR [.ints [38, 5], .bytes [0x3F]]).bind (Seq.string (fun p => 0x22 :: p ++ [0x22]) fun _ => []) =
    some (ascii "CSI+m\"?38;5\"") := by decide +kernel

end Anansi
