import Verif.Spec.Context
import Mathlib.Tactic.ByContra
/-
C38 and C39: contexts and terminal runs.
-/
set_option autoImplicit false

namespace Anansi
namespace Ctx

/-! ### C38: calling order -/

theorem replies_length (v : Env) : ∀ (l : List Ev) (tr : List Ev), (replies v tr l).length = l.length
  | [], _ => rfl
  | _ :: l, tr => by simp [replies, replies_length v l]

/-- **C38**, entering: the contexts are entered in order, up to and including the first
that fails, whose failure is the result; all of them when none fails. -/
theorem enter_order (v : Env) : ∀ (l : List Nat) (tr : List Ev),
    enterAll v tr l = (tr ++ (l.map Ev.enter).take
        ((replies v tr (l.map Ev.enter)).findIdx (· ≠ .ok) + 1),
      firstFailure (replies v tr (l.map Ev.enter)))
  | [], tr => by simp [enterAll, replies, firstFailure]
  | i :: l, tr => by
    simp only [enterAll, List.map_cons, replies, firstFailure, List.find?_cons, List.findIdx_cons]
    cases h : v.reply tr (.enter i) with
    | ok =>
      simp only [ne_eq, not_true_eq_false, decide_false, cond_false]
      rw [enter_order v l]
      simp [firstFailure]
    | err e => simp
    | panic e => simp

/-- When none fails they are all entered, in order. -/
theorem enter_all (v : Env) (l : List Nat) (tr : List Ev)
    (h : ∀ r ∈ replies v tr (l.map Ev.enter), r = .ok) : enterAll v tr l = (tr ++ l.map Ev.enter, .ok) := by
  rw [enter_order]
  have h1 : (replies v tr (l.map Ev.enter)).findIdx (· ≠ .ok) = l.length := by
    rw [List.findIdx_eq_length_of_false (by intro x hx; simp [h x hx]), replies_length, List.length_map]
  have h2 : firstFailure (replies v tr (l.map Ev.enter)) = .ok := by
    unfold firstFailure
    rw [List.find?_eq_none.mpr (by intro x hx; simp [h x hx])]; rfl
  rw [h1, h2, List.take_of_length_le (by simp)]

theorem exitLoop_order (v : Env) : ∀ (l : List Nat) (tr : List Ev) (r : Res),
    (∀ x ∈ replies v tr (l.map Ev.exit), ∀ e, x ≠ .panic e) →
    exitLoop v tr r l = (tr ++ l.map Ev.exit,
      if r = .ok then firstFailure (replies v tr (l.map Ev.exit)) else r)
  | [], tr, r, _ => by
    simp only [exitLoop, List.map_nil, List.append_nil, replies, firstFailure, List.find?_nil, Option.getD_none]
    split
    · next h => rw [h]
    · rfl
  | i :: l, tr, r, h => by
    simp only [List.map_cons, replies, List.mem_cons, forall_eq_or_imp] at h
    have hx : ∀ r', v.reply tr (.exit i) = r' → (∀ e, r' ≠ .panic e) →
        exitLoop v tr r (i :: l) = exitLoop v (tr ++ [.exit i]) (if r = .ok then r' else r) l := by
      intro r' h1 h2
      cases r' with
      | ok => simp only [exitLoop, h1]
      | err e => simp only [exitLoop, h1]
      | panic e => exact absurd rfl (h2 e)
    rw [hx _ rfl h.1, exitLoop_order v l _ _ h.2]
    simp only [List.map_cons, replies, firstFailure, List.find?_cons, List.append_assoc, List.singleton_append,
      Prod.mk.injEq, true_and]
    by_cases hr : r = .ok
    · simp only [hr, if_true]
      by_cases h1 : v.reply tr (.exit i) = .ok
      · simp [h1]
      · simp [h1]
    · simp [hr]

/-- **C38**, exiting: every context is exited, in reverse order, whatever fails, and the
first error is the one returned. -/
theorem exit_order (v : Env) (l : List Nat) (tr : List Ev)
    (h : ∀ x ∈ replies v tr (l.reverse.map Ev.exit), ∀ e, x ≠ .panic e) :
    exitAll v tr l = (tr ++ (l.map Ev.exit).reverse,
      firstFailure (replies v tr (l.map Ev.exit).reverse)) := by
  unfold exitAll
  rw [exitLoop_order v _ tr .ok h, if_pos rfl, ← List.map_reverse]

/-- A context whose `Exit` panics keeps the remaining ones from being exited. -/
theorem exit_panic_stops : ∃ v tr l, exitAll v tr l = (tr ++ [.exit 2], .panic 7) ∧ l = [1, 2] :=
  ⟨⟨fun _ e => if e = .exit 2 then .panic 7 else .ok, fun _ => false⟩, [], [1, 2], by decide, rfl⟩

example : exitAll ⟨fun _ e => if e = .exit 2 ∨ e = .exit 1 then .err 5 else .ok, fun _ => false⟩ [] [1, 2, 3] =
    ([.exit 3, .exit 2, .exit 1], .err 5) := by decide

/-! ### C38: combining -/

variable {grow : Nat → Nat → Nat}

theorem getD_lt {h : Heap} {a : Nat} (ha : a < h.length) : h.getD a [] = h[a] := by
  simp [List.getD_eq_getElem?_getD, ha]

theorem slice_append {h g : Heap} {a n : Nat} (ha : a < h.length) : slice (h ++ g) a n = slice h a n := by
  unfold slice
  rw [List.getD_eq_getElem?_getD, List.getD_eq_getElem?_getD, List.getElem?_append_left ha]

theorem Cx.Ok.more {h g : Heap} {x : Cx} (H : x.Ok h) : x.Ok (h ++ g) ∧ x.den (h ++ g) = x.den h := by
  cases x with
  | nil => exact ⟨trivial, rfl⟩
  | leaf i => exact ⟨trivial, rfl⟩
  | many arr len cap =>
    obtain ⟨h1, h2, h3⟩ := H
    refine ⟨⟨by simp; omega, ?_, h3⟩, slice_append h1⟩
    rw [List.getD_eq_getElem?_getD, List.getElem?_append_left h1, ← List.getD_eq_getElem?_getD]; exact h2

theorem append_spec {h : Heap} {arr len cap : Nat} (H : (Cx.many arr len cap).Ok h) (xs : List Nat) :
    (append grow h arr len cap xs).2.Ok (append grow h arr len cap xs).1 ∧
    (append grow h arr len cap xs).2.den (append grow h arr len cap xs).1 = slice h arr len ++ xs ∧
    (∀ x : Cx, x.Ok h → x.Ok (append grow h arr len cap xs).1) ∧
    (∀ x : Cx, x.Ok h → ¬ (Cx.many arr len cap).Longer x →
      x.den (append grow h arr len cap xs).1 = x.den h) ∧
    (∃ arr' len' cap', (append grow h arr len cap xs).2 = .many arr' len' cap' ∧
      (arr' = arr ∧ len ≤ len' ∨ h.length ≤ arr')) := by
  obtain ⟨h1, h2, h3⟩ := H
  have hl : ((h.getD arr []).take len).length = len := by rw [List.length_take]; omega
  unfold append
  split
  · next hf =>
    dsimp only
    have e : ∀ b, b ≠ arr → (h.set arr (((h.getD arr []).take len ++ xs) ++ (h.getD arr []).drop (len + xs.length))).getD b [] = h.getD b [] := by
      intro b hb
      rw [List.getD_eq_getElem?_getD, List.getElem?_set_ne (Ne.symm hb), ← List.getD_eq_getElem?_getD]
    have e' : (h.set arr (((h.getD arr []).take len ++ xs) ++ (h.getD arr []).drop (len + xs.length))).getD arr [] =
        ((h.getD arr []).take len ++ xs) ++ (h.getD arr []).drop (len + xs.length) := by
      rw [List.getD_eq_getElem?_getD, List.getElem?_set_self h1]; rfl
    have el : (((h.getD arr []).take len ++ xs) ++ (h.getD arr []).drop (len + xs.length)).length = cap := by
      simp only [List.length_append, hl, List.length_drop, h2]; omega
    refine ⟨⟨by simpa using h1, by rw [e', el], hf⟩, ?_, ?_, ?_, _, _, _, rfl, Or.inl ⟨rfl, by omega⟩⟩
    · simp only [Cx.den, slice, e']
      rw [List.take_append_of_le_length (by simp only [List.length_append, hl]; omega),
        List.take_of_length_le (by simp only [List.length_append, hl]; omega)]
    · intro x hx
      cases x with
      | nil => trivial
      | leaf i => trivial
      | many b n c =>
        obtain ⟨q1, q2, q3⟩ := hx
        refine ⟨by simpa using q1, ?_, q3⟩
        by_cases hb : b = arr
        · subst hb; rw [e', el, ← q2, h2]
        · rw [e b hb, q2]
    · intro x hx hn
      cases x with
      | nil => rfl
      | leaf i => rfl
      | many b n c =>
        obtain ⟨q1, q2, q3⟩ := hx
        simp only [Cx.den, slice]
        by_cases hb : b = arr
        · subst hb
          have : n ≤ len := by
            by_contra hc
            exact hn ⟨rfl, by omega⟩
          rw [e', List.append_assoc, List.take_append_of_le_length (by rw [hl]; exact this), List.take_take,
            Nat.min_eq_left this]
        · rw [e b hb]
  · next hf =>
    dsimp only
    refine ⟨⟨by simp, ?_, by omega⟩, ?_, fun x hx => hx.more.1, fun x hx _ => hx.more.2, _, _, _, rfl, Or.inr (Nat.le_refl _)⟩
    · rw [List.getD_eq_getElem?_getD, List.getElem?_concat_length]
      simp only [Option.getD_some, List.length_append, hl, List.length_replicate]; omega
    · simp only [Cx.den, slice]
      rw [List.getD_eq_getElem?_getD, List.getElem?_concat_length]
      simp only [Option.getD_some]
      rw [List.take_append_of_le_length (by simp only [List.length_append, hl]; omega),
        List.take_of_length_le (by simp only [List.length_append, hl]; omega)]

/-- One step of combining. -/
theorem combine_spec {h : Heap} {a b : Cx} (Ha : a.Ok h) (Hb : b.Ok h) :
    (combine grow h a b).2.Ok (combine grow h a b).1 ∧
    (combine grow h a b).2.den (combine grow h a b).1 = a.den h ++ b.den h ∧
    (∀ x : Cx, x.Ok h → x.Ok (combine grow h a b).1) ∧
    (∀ x : Cx, x.Ok h → ¬ a.Longer x → x.den (combine grow h a b).1 = x.den h) ∧
    (∀ x : Cx, x.Ok h → (combine grow h a b).2.Longer x → (Cx.first [a, b]).Longer x) := by
  have many : ∀ arr len cap xs, (Cx.many arr len cap).Ok h → ∀ x : Cx, x.Ok h →
      (append grow h arr len cap xs).2.Longer x → (Cx.many arr len cap).Longer x := by
    intro arr len cap xs H x hx hl
    obtain ⟨arr', len', cap', e, h'⟩ := (append_spec (grow := grow) H xs).2.2.2.2
    rw [e] at hl
    cases x with
    | nil => exact hl
    | leaf i => exact hl
    | many b n c =>
      obtain ⟨q1, q2⟩ := hl
      rcases h' with ⟨r1, r2⟩ | r1
      · exact ⟨by rw [← q1, r1], by omega⟩
      · have := hx.1; omega
  cases a with
  | nil =>
    cases b with
    | nil => exact ⟨trivial, rfl, fun _ h => h, fun _ _ _ => rfl, fun x _ h => h⟩
    | leaf i => exact ⟨trivial, rfl, fun _ h => h, fun _ _ _ => rfl, fun x _ h => h⟩
    | many arr len cap => exact ⟨Hb, rfl, fun _ h => h, fun _ _ _ => rfl, fun x _ h => h⟩
  | leaf i =>
    cases b with
    | nil => exact ⟨trivial, rfl, fun _ h => h, fun _ _ _ => rfl, fun x _ h => h⟩
    | leaf j =>
      refine ⟨⟨by simp [combine], by simp [combine], Nat.le_refl _⟩, by simp [combine, Cx.den, slice], fun x hx => hx.more.1,
        fun x hx _ => hx.more.2, fun x hx hl => ?_⟩
      cases x with
      | nil => exact hl
      | leaf i => exact hl
      | many b n c => have := hl.1; have := hx.1; omega
    | many arr len cap =>
      have H : (Cx.many h.length 1 1).Ok (h ++ [[i]]) := ⟨by simp, by simp, Nat.le_refl _⟩
      obtain ⟨e1, e2, e3, e4, arr', len', cap', e5, e6⟩ := append_spec (grow := grow) H (slice h arr len)
      refine ⟨e1, ?_, fun x hx => e3 x hx.more.1, fun x hx _ => ?_, fun x hx hl => ?_⟩
      · simp only [combine]
        rw [e2]
        simp [slice, Cx.den]
      · simp only [combine]
        rw [e4 x hx.more.1 ?_, hx.more.2]
        intro hl
        cases x with
        | nil => exact hl
        | leaf i => exact hl
        | many b n c => have := hl.1; have := hx.1; omega
      · simp only [combine] at hl
        rw [e5] at hl
        cases x with
        | nil => exact hl
        | leaf i => exact hl
        | many b n c =>
          have := hl.1; have := hx.1
          simp only [List.length_append, List.length_singleton] at e6
          omega
  | many arr len cap =>
    cases b with
    | nil => exact ⟨Ha, by simp [combine, Cx.den], fun _ h => h, fun _ _ _ => rfl, fun x _ h => h⟩
    | leaf j =>
      obtain ⟨e1, e2, e3, e4, _⟩ := append_spec (grow := grow) Ha [j]
      exact ⟨e1, e2, e3, e4, many arr len cap [j] Ha⟩
    | many arr' len' cap' =>
      obtain ⟨e1, e2, e3, e4, _⟩ := append_spec (grow := grow) Ha (slice h arr' len')
      exact ⟨e1, e2, e3, e4, many arr len cap _ Ha⟩

theorem first_pair (a b : Cx) (l : List Cx) : Cx.first (a :: b :: l) = Cx.first (Cx.first [a, b] :: l) := by
  cases a <;> cases b <;> rfl

theorem longer_first {a x : Cx} {l : List Cx} (h : a.Longer x) : (Cx.first (a :: l)).Longer x := by
  cases a with
  | many arr len cap => exact h
  | nil => cases x <;> exact h.elim
  | leaf i => cases x <;> exact h.elim

theorem flatMap_same {α β : Type} {f g : α → List β} : ∀ {l : List α}, (∀ a ∈ l, f a = g a) → l.flatMap f = l.flatMap g
  | [], _ => rfl
  | a :: l, h => by
    rw [List.flatMap_cons, List.flatMap_cons, h a (by simp), flatMap_same fun b hb => h b (by simp [hb])]

/-- **C38**, combining: the result stands for all the given contexts in order, whatever
their nesting, and nothing built before changes.  Both are limited to values which are not
longer slices of the array of the first one given: see `combine_clobbers` for why. -/
theorem combine_partial (grow : Nat → Nat → Nat) (h : Heap) (cs : List Cx) (Hcs : ∀ c ∈ cs, c.Ok h) :
    (contexts grow h cs).2.Ok (contexts grow h cs).1 ∧
    ((∀ c ∈ cs, ¬ (Cx.first cs).Longer c) →
      (contexts grow h cs).2.den (contexts grow h cs).1 = cs.flatMap (Cx.den h)) ∧
    (∀ x : Cx, x.Ok h → x.Ok (contexts grow h cs).1 ∧
      (¬ (Cx.first cs).Longer x → x.den (contexts grow h cs).1 = x.den h)) := by
  cases cs with
  | nil => exact ⟨trivial, fun _ => rfl, fun x hx => ⟨hx, fun _ => rfl⟩⟩
  | cons a cs =>
    simp only [contexts]
    induction cs generalizing h a with
    | nil =>
      refine ⟨Hcs a (by simp), fun _ => by simp, fun x hx => ⟨hx, fun _ => rfl⟩⟩
    | cons b cs ih =>
      obtain ⟨e1, e2, e3, e4, e5⟩ := combine_spec (grow := grow) (Hcs a (by simp)) (Hcs b (by simp))
      obtain ⟨g1, g2, g3⟩ := ih (combine grow h a b).1 (combine grow h a b).2 (by
        intro c hc
        rcases List.mem_cons.mp hc with rfl | hc
        · exact e1
        · exact e3 c (Hcs c (by simp [hc])))
      have key : ∀ x : Cx, x.Ok h → ¬ (Cx.first (a :: b :: cs)).Longer x →
          ¬ (Cx.first ((combine grow h a b).2 :: cs)).Longer x := by
        intro x hx hn hl
        apply hn
        rw [first_pair]
        by_cases hnil : (combine grow h a b).2 = .nil
        · have : a = .nil ∧ b = .nil := by
            cases a with
            | nil => cases b <;> simp_all [combine]
            | leaf i => cases b <;> simp [combine, append] at hnil; split at hnil <;> simp at hnil
            | many arr len cap =>
              cases b with
              | nil => simp [combine] at hnil
              | leaf j => simp only [combine, append] at hnil; split at hnil <;> simp at hnil
              | many _ _ _ => simp only [combine, append] at hnil; split at hnil <;> simp at hnil
          rw [hnil] at hl
          rw [this.1, this.2]; exact hl
        · have hf : Cx.first ((combine grow h a b).2 :: cs) = (combine grow h a b).2 := by
            cases hc : (combine grow h a b).2 with
            | nil => exact absurd hc hnil
            | leaf i => rfl
            | many _ _ _ => rfl
          rw [hf] at hl
          exact longer_first (e5 x hx hl)
      refine ⟨g1, fun hn => ?_, fun x hx => ⟨(g3 x (e3 x hx)).1, fun hn => ?_⟩⟩
      · show ((cs.foldl _ _ : Heap × Cx)).2.den _ = _
        rw [List.foldl_cons]
        rw [g2 ?_, List.flatMap_cons, e2, List.flatMap_cons, List.flatMap_cons, List.append_assoc]
        · congr 2
          apply flatMap_same
          intro c hc
          exact e4 c (Hcs c (by simp [hc])) (fun hl => hn c (by simp [hc]) (longer_first hl))
        · intro c hc
          rcases List.mem_cons.mp hc with rfl | hc
          · intro hl
            cases hq : (combine grow h a b).2 with
            | nil => rw [hq] at hl; generalize Cx.first _ = z at hl; cases z <;> exact hl
            | leaf i => rw [hq] at hl; exact hl
            | many _ _ _ => rw [hq] at hl; exact absurd hl.2 (by omega)
          · exact key c (Hcs c (by simp [hc])) (hn c (by simp [hc]))
      · rw [List.foldl_cons, (g3 x (e3 x hx)).2 (key x hx hn)]
        exact e4 x hx (fun hl => hn (longer_first hl))

/-- Three contexts, two of them combined before. -/
example : (contexts (fun c _ => 2 * c) [[5, 6]] [.many 0 2 2, .nil, .leaf 7]).2.den
    (contexts (fun c _ => 2 * c) [[5, 6]] [.many 0 2 2, .nil, .leaf 7]).1 = [5, 6, 7] := by decide

/-- Negation for **C38**: combining can change combinations built before.  When the
runtime makes room for four contexts on appending the third, as Go's does, combining
three contexts first with a fourth and then with a fifth turns the first of these results
into the second. -/
theorem combine_clobbers (grow : Nat → Nat → Nat) (hg : grow 2 3 = 4) :
    ∃ h1 abc h2 abcd h3 abce, contexts grow [] [.leaf 1, .leaf 2, .leaf 3] = (h1, abc) ∧
      contexts grow h1 [abc, .leaf 4] = (h2, abcd) ∧ abcd.den h2 = [1, 2, 3, 4] ∧
      contexts grow h2 [abc, .leaf 5] = (h3, abce) ∧ abce.den h3 = [1, 2, 3, 5] ∧
      abcd.den h3 = [1, 2, 3, 5] := by
  refine ⟨[[1, 2], [1, 2, 3, 0]], .many 1 3 4, [[1, 2], [1, 2, 3, 4]], .many 1 4 4, [[1, 2], [1, 2, 3, 5]], .many 1 4 4,
    ?_, ?_, ?_, ?_, ?_, ?_⟩ <;> simp [contexts, combine, append, hg, Cx.den, slice]

end Ctx
end Anansi
