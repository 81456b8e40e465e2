import Verif.Props.Context
/-
C39: running functions with and without a terminal's context.
-/
set_option autoImplicit false

namespace Anansi
namespace Ctx

/-- Under a run the context stays what it is. -/
def Keeps (a b : Term) : Prop := a.under = true →
  b.under = true ∧ b.ctx.getD base = a.ctx.getD base ∧ ∀ l, a.ctx = some l → b.ctx = some l

theorem Keeps.trans {a b c : Term} (h : Keeps a b) (g : Keeps b c) : Keeps a c := fun u => by
  obtain ⟨h1, h2, h3⟩ := h u
  obtain ⟨g1, g2, g3⟩ := g h1
  exact ⟨g1, by rw [g2, h2], fun l hl => g3 l (h3 l hl)⟩

theorem Keeps.refl (a : Term) : Keeps a a := fun u => ⟨u, rfl, fun _ h => h⟩

theorem Keeps.active {a b : Term} (h : Keeps a b) (x : Bool) : Keeps a { b with active := x } := h

theorem Keeps.init (a : Term) : Keeps a ({ a with active := true, under := true } : Term).init :=
  fun _ => ⟨rfl, rfl, fun l hl => by simp [Term.init, hl]⟩

theorem run_under (v : Env) : ∀ (p : Prog) (s : List Ev × Term), Keeps s.2 (run v p s).1.2
  | .ret r, s => Keeps.refl _
  | .user n w p, s => run_under v p (s.1 ++ [.user n w], s.2)
  | .runWith body k, s => by
    simp only [run]
    split
    · exact (run_under v body s).trans (run_under v (k _) _)
    · generalize hb : (if (enterAll v s.1 ({ s.2 with active := true, under := true } : Term).init.list).2 = .ok then _ else _ : (List Ev × Term) × Res) = b
      have hb' : Keeps s.2 b.1.2 := by
        rw [← hb]
        split
        · exact (Keeps.init s.2).trans (run_under v body (_, _))
        · exact Keeps.init s.2
      refine Keeps.trans (b := { b.1.2 with active := false, under := s.2.under && b.1.2.under }) ?_
        (run_under v (k _) (_, _))
      intro u
      obtain ⟨h1, h2, h3⟩ := hb' u
      exact ⟨by simp [u, h1], h2, h3⟩
  | .runWithout body k, s => by
    simp only [run]
    split
    · split
      · split
        · refine Keeps.trans (b := { (run v body (_, { s.2 with active := false })).1.2 with active := _ }) ?_
            (run_under v (k _) (_, _))
          exact Keeps.active (Keeps.trans (b := { s.2 with active := false }) (Keeps.refl _) (run_under v body (_, _))) _
        · exact Keeps.trans (b := { s.2 with active := false }) (Keeps.refl _)
            ((run_under v body (_, _)).trans (run_under v (k _) _))
      · exact run_under v (k (exitAll v s.1 s.2.list).2) ((exitAll v s.1 s.2.list).1, s.2)
    · exact (run_under v body s).trans (run_under v (k _) _)
  | .addContext cs k, s => by
    simp only [run]
    split
    · exact run_under v (k _) s
    · next h => intro u; exact absurd u h

/-- The trace only grows. -/
theorem enterAll_mono (v : Env) (l : List Nat) (tr : List Ev) : tr <+: (enterAll v tr l).1 := by
  rw [enter_order]; exact List.prefix_append _ _

theorem exitLoop_mono (v : Env) : ∀ (l : List Nat) (tr : List Ev) (r : Res), tr <+: (exitLoop v tr r l).1
  | [], tr, _ => List.prefix_rfl
  | i :: l, tr, r => by
    simp only [exitLoop]
    cases v.reply tr (.exit i) with
    | panic e => exact List.prefix_append _ _
    | ok => exact (List.prefix_append _ _).trans (exitLoop_mono v l _ _)
    | err e => exact (List.prefix_append _ _).trans (exitLoop_mono v l _ _)

theorem closeLoop_mono (v : Env) : ∀ (l : List Nat) (tr : List Ev) (r : Res), ∃ cs, (closeLoop v tr r l).1 = tr ++ cs ∧
    (∀ e ∈ cs, e.isClose = true)
  | [], tr, _ => ⟨[], by simp [closeLoop], by simp⟩
  | i :: l, tr, r => by
    simp only [closeLoop]
    split
    · cases v.reply tr (.close i) with
      | panic e => exact ⟨[.close i], rfl, by simp [Ev.isClose]⟩
      | ok =>
        obtain ⟨cs, h1, h2⟩ := closeLoop_mono v l (tr ++ [.close i]) (if r = .ok then .ok else r)
        exact ⟨.close i :: cs, by simp only [h1]; simp, by simpa [Ev.isClose] using h2⟩
      | err e =>
        obtain ⟨cs, h1, h2⟩ := closeLoop_mono v l (tr ++ [.close i]) (if r = .ok then .err e else r)
        exact ⟨.close i :: cs, by simp only [h1]; simp, by simpa [Ev.isClose] using h2⟩
    · exact closeLoop_mono v l tr r

theorem closeLoop_all (v : Env) (hc : ∀ tr i e, v.reply tr (.close i) ≠ .panic e) :
    ∀ (l : List Nat) (tr : List Ev) (r : Res), (closeLoop v tr r l).1 = tr ++ (l.filter v.closes).map Ev.close
  | [], tr, _ => by simp [closeLoop]
  | i :: l, tr, r => by
    simp only [closeLoop]
    split
    · next h =>
      cases hr : v.reply tr (.close i) with
      | panic e => exact absurd hr (hc tr i e)
      | ok => simp only [closeLoop_all v hc l]; simp [h]
      | err e => simp only [closeLoop_all v hc l]; simp [h]
    · next h => rw [closeLoop_all v hc l]; simp [h]

theorem run_mono (v : Env) : ∀ (p : Prog) (s : List Ev × Term), s.1 <+: (run v p s).1.1
  | .ret r, s => List.prefix_rfl
  | .user n w p, s => (List.prefix_append s.1 [.user n w]).trans (run_mono v p (s.1 ++ [.user n w], s.2))
  | .runWith body k, s => by
    simp only [run]
    split
    · exact (run_mono v body s).trans (run_mono v (k _) _)
    · refine List.IsPrefix.trans ?_ (run_mono v (k _) (_, _))
      obtain ⟨cs, h1, _⟩ := closeLoop_mono v ({ s.2 with active := true, under := true } : Term).init.list.reverse
        (exitAll v _ _).1 .ok
      show _ <+: (closeAll v _ _).1
      unfold closeAll
      rw [h1]
      refine List.IsPrefix.trans ?_ (List.prefix_append _ _)
      refine List.IsPrefix.trans ?_ (exitLoop_mono v _ _ _)
      refine (enterAll_mono v ({ s.2 with active := true, under := true } : Term).init.list _).trans ?_
      split
      · exact run_mono v body (_, _)
      · exact List.prefix_rfl
  | .runWithout body k, s => by
    simp only [run]
    split
    · split
      · have h1 := (exitLoop_mono v s.2.list.reverse s.1 .ok).trans (run_mono v body (_, { s.2 with active := false }))
        split
        · exact (h1.trans (enterAll_mono v _ _)).trans (run_mono v (k _) (_, _))
        · exact h1.trans (run_mono v (k _) _)
      · exact (exitLoop_mono v _ _ _).trans (run_mono v (k _) (_, _))
    · exact (run_mono v body s).trans (run_mono v (k _) _)
  | .addContext cs k, s => by
    simp only [run]
    split
    · exact run_mono v (k _) s
    · exact run_mono v (k .ok) (s.1, { s.2 with ctx := some (s.2.ctx.getD base ++ cs) })

/-- The contexts of a terminal, the standard ones unless others were added. -/
def Term.contexts (t : Term) : List Nat := t.ctx.getD base

theorem exits_return {v : Env} (hv : v.ExitsReturn) : ∀ (l tr : List Ev), (∀ e ∈ l, ∃ i, e = Ev.exit i) →
    ∀ x ∈ replies v tr l, ∀ e, x ≠ Res.panic e
  | [], _, _ => by simp [replies]
  | e :: l, tr, h => by
    intro x hx
    rcases List.mem_cons.mp hx with rfl | hx
    · obtain ⟨i, rfl⟩ := h e (by simp)
      exact hv tr i
    · exact exits_return hv l _ (fun e he => h e (by simp [he])) x hx

theorem exitAll_trace {v : Env} (hv : v.ExitsReturn) (l : List Nat) (tr : List Ev) :
    (exitAll v tr l).1 = tr ++ l.reverse.map Ev.exit := by
  rw [exit_order v l tr (exits_return hv _ _ (by simp))]
  simp

/-- **C39**: running within the context.  Whatever entering does, whatever the function
does (including nested runs, runs without, failures and panics), and whatever exiting
returns, every context is exited in reverse order after everything the function did, then
those that can be closed are closed, and the terminal is no longer active.  The function
is run only if entering succeeded. -/
theorem with_exits (v : Env) (hv : v.ExitsReturn) (body : Prog) (tr : List Ev) (t : Term)
    (ha : t.active = false) :
    ∃ did closed, (run v (.runWith body .ret) (tr, t)).1.1 =
        (enterAll v tr t.contexts).1 ++ did ++ t.contexts.reverse.map Ev.exit ++ closed ∧
      (∀ e ∈ closed, e.isClose = true) ∧
      ((∀ tr i e, v.reply tr (.close i) ≠ .panic e) →
        closed = (t.contexts.reverse.filter v.closes).map Ev.close) ∧
      ((enterAll v tr t.contexts).2 ≠ .ok → did = []) ∧
      (run v (.runWith body .ret) (tr, t)).1.2.active = false ∧
      (run v (.runWith body .ret) (tr, t)).1.2.under = t.under ∧
      (run v (.runWith body .ret) (tr, t)).1.2.contexts = t.contexts := by
  simp only [run, ha, Bool.false_eq_true, if_false]
  have hlist : ({ t with active := true, under := true } : Term).init.list = t.contexts := rfl
  rw [hlist]
  generalize hb : (if (enterAll v tr t.contexts).2 = .ok then _ else _ : (List Ev × Term) × Res) = b
  have hb' : (∃ did, b.1.1 = (enterAll v tr t.contexts).1 ++ did ∧ ((enterAll v tr t.contexts).2 ≠ .ok → did = [])) ∧
      b.1.2.under = true ∧ b.1.2.ctx = some t.contexts := by
    rw [← hb]
    split
    · next h =>
      have hk := run_under v body ((enterAll v tr t.contexts).1, ({ t with active := true, under := true } : Term).init) rfl
      obtain ⟨did, hd⟩ := run_mono v body ((enterAll v tr t.contexts).1, ({ t with active := true, under := true } : Term).init)
      exact ⟨⟨did, hd.symm, fun h' => absurd h h'⟩, hk.1, hk.2.2 _ rfl⟩
    · exact ⟨⟨[], by simp, fun _ => rfl⟩, rfl, rfl⟩
  obtain ⟨⟨did, hd, hd0⟩, hu, hc⟩ := hb'
  have hl : b.1.2.list = t.contexts := by simp [Term.list, hc]
  rw [hl]
  obtain ⟨cs, h1, h2⟩ := closeLoop_mono v t.contexts.reverse (exitAll v b.1.1 t.contexts).1 .ok
  rw [exitAll_trace hv, hd] at h1
  refine ⟨did, cs, ?_, h2, ?_, hd0, trivial, by simp [hu], ?_⟩
  · show (closeAll v _ _).1 = _
    unfold closeAll
    rw [exitAll_trace hv, hd, h1]
  · intro hp
    have := closeLoop_all v hp t.contexts.reverse (exitAll v b.1.1 t.contexts).1 .ok
    rw [exitAll_trace hv, hd, h1] at this
    exact List.append_cancel_left this
  · show b.1.2.ctx.getD base = _
    rw [hc]; rfl

theorem closeLoop_result (v : Env) (hc : ∀ tr i e, v.reply tr (.close i) ≠ .panic e) :
    ∀ (l : List Nat) (tr : List Ev) (r : Res), (closeLoop v tr r l).2 =
      if r = .ok then firstFailure (replies v tr ((l.filter v.closes).map Ev.close)) else r
  | [], tr, r => by
    simp only [closeLoop, List.filter_nil, List.map_nil, replies, firstFailure, List.find?_nil, Option.getD_none]
    split
    · next h => rw [h]
    · rfl
  | i :: l, tr, r => by
    simp only [closeLoop]
    split
    · next h =>
      rw [List.filter_cons_of_pos h, List.map_cons, replies]
      cases hr : v.reply tr (.close i) with
      | panic e => exact absurd hr (hc tr i e)
      | ok => simp only [closeLoop_result v hc l]; by_cases h : r = .ok <;> simp [h, firstFailure]
      | err e => simp only [closeLoop_result v hc l]; by_cases h : r = .ok <;> simp [h, firstFailure]
    · next h =>
      rw [List.filter_cons_of_neg h]
      exact closeLoop_result v hc l tr r

theorem Res.andThen_keep {r d : Res} (hr : r ≠ .ok) (hd : ∀ e, d ≠ .panic e) : r.andThen d = r := by
  cases d with
  | ok => rfl
  | err e => simp [Res.andThen, hr]
  | panic e => exact absurd rfl (hd e)

theorem Res.andThen_ok (d : Res) : Res.ok.andThen d = d := by
  cases d <;> simp [Res.andThen]

theorem firstFailure_returns {l : List Res} (h : ∀ x ∈ l, ∀ e, x ≠ .panic e) (e : Nat) : firstFailure l ≠ .panic e := by
  unfold firstFailure
  cases hf : l.find? (· ≠ .ok) with
  | none => simp
  | some x => exact h x (List.mem_of_find?_eq_some hf) e

theorem closes_return {v : Env} (hv : ∀ tr i e, v.reply tr (.close i) ≠ .panic e) : ∀ (l tr : List Ev),
    (∀ e ∈ l, ∃ i, e = Ev.close i) → ∀ x ∈ replies v tr l, ∀ e, x ≠ Res.panic e
  | [], _, _ => by simp [replies]
  | e :: l, tr, h => by
    intro x hx
    rcases List.mem_cons.mp hx with rfl | hx
    · obtain ⟨i, rfl⟩ := h e (by simp)
      exact hv tr i
    · exact closes_return hv l _ (fun e he => h e (by simp [he])) x hx

theorem replies_append (v : Env) : ∀ (a tr b : List Ev), replies v tr (a ++ b) = replies v tr a ++ replies v (tr ++ a) b
  | [], tr, b => by simp [replies]
  | e :: a, tr, b => by simp [replies, replies_append v a]

theorem firstFailure_append (a b : List Res) : firstFailure (a ++ b) =
    if firstFailure a = .ok then firstFailure b else firstFailure a := by
  unfold firstFailure
  rw [List.find?_append]
  cases h : a.find? (· ≠ .ok) with
  | none => simp
  | some x =>
    have := List.find?_some h
    simp only [decide_eq_true_eq] at this
    simp [this]

/-- **C39**, the result: a failure of entering or of the function, panics included, is
reported whatever exiting and closing return; without one, the first error of exiting, in
the order of the calls, or else of closing. -/
theorem with_result (v : Env) (hv : v.ExitsReturn) (hc : ∀ tr i e, v.reply tr (.close i) ≠ .panic e)
    (body : Prog) (tr : List Ev) (t : Term) (ha : t.active = false) (main : Res) (tr1 : List Ev)
    (hm : (∃ t1, (enterAll v tr t.contexts).2 = .ok ∧
        run v body ((enterAll v tr t.contexts).1, { active := true, under := true, ctx := some t.contexts }) =
          ((tr1, t1), main)) ∨
      ((enterAll v tr t.contexts).2 ≠ .ok ∧ enterAll v tr t.contexts = (tr1, main))) :
    (run v (.runWith body .ret) (tr, t)).2 = if main = .ok then
      firstFailure (replies v tr1 (t.contexts.reverse.map Ev.exit ++
        (t.contexts.reverse.filter v.closes).map Ev.close)) else main := by
  simp only [run, ha, Bool.false_eq_true, if_false]
  have hlist : ({ t with active := true, under := true } : Term).init.list = t.contexts := rfl
  have hinit : ({ t with active := true, under := true } : Term).init =
    { active := true, under := true, ctx := some t.contexts } := rfl
  rw [hlist, hinit]
  generalize hb : (if (enterAll v tr t.contexts).2 = .ok then _ else _ : (List Ev × Term) × Res) = b
  have hb' : b.1.1 = tr1 ∧ b.2 = main ∧ b.1.2.list = t.contexts := by
    rw [← hb]
    rcases hm with ⟨t1, h1, h2⟩ | ⟨h1, h2⟩
    · have hk := run_under v body ((enterAll v tr t.contexts).1, { active := true, under := true, ctx := some t.contexts }) rfl
      rw [if_pos h1]
      refine ⟨by rw [h2], by rw [h2], ?_⟩
      have := hk.2.2 _ rfl
      simp [Term.list, this]
    · rw [if_neg h1, h2]
      exact ⟨rfl, rfl, rfl⟩
  obtain ⟨b1, b2, b3⟩ := hb'
  rw [b1, b2, b3]
  have hE : ∀ e, (exitAll v tr1 t.contexts).2 ≠ .panic e := by
    rw [exit_order v _ _ (exits_return hv _ _ (by simp))]
    exact firstFailure_returns (exits_return hv _ _ (by simp))
  have hC : ∀ tr e, (closeAll v tr t.contexts).2 ≠ .panic e := by
    intro tr
    rw [closeAll, closeLoop_result v hc, if_pos rfl]
    exact firstFailure_returns (closes_return hc _ _ (by
      intro e he; simp only [List.mem_map] at he; obtain ⟨i, _, rfl⟩ := he; exact ⟨i, rfl⟩))
  by_cases h : main = .ok
  · rw [if_pos h, h, Res.andThen_ok, replies_append, firstFailure_append]
    have he : (exitAll v tr1 t.contexts).2 = firstFailure (replies v tr1 (t.contexts.reverse.map Ev.exit)) := by
      rw [exit_order v _ _ (exits_return hv _ _ (by simp)), List.map_reverse]
    rw [← he]
    split
    · next h2 =>
      rw [h2, Res.andThen_ok, closeAll, closeLoop_result v hc, if_pos rfl, exitAll_trace hv]
    · next h2 => exact Res.andThen_keep h2 (hC _)
  · rw [if_neg h, Res.andThen_keep h hE, Res.andThen_keep h (hC _)]

/-! ### Bracketing -/

theorem watch_append (i : Nat) (a b : List Ev) : watch i (a ++ b) = b.foldl (watch1 i) (watch i a) := by
  simp [watch, List.foldl_append]

theorem watch_enter {i : Nat} {tr : List Ev} {l : List Nat} (hl : l.Nodup) (hi : i ∈ l)
    (h : watch i tr = some false) : watch i (tr ++ l.map Ev.enter) = some true := by
  have other : ∀ (l : List Nat) (b : Bool), i ∉ l → (l.map Ev.enter).foldl (watch1 i) (some b) = some b := by
    intro l
    induction l with
    | nil => intros; rfl
    | cons j l ih =>
      intro b hn
      simp only [List.mem_cons, not_or] at hn
      simp only [List.map_cons, List.foldl_cons, watch1, if_neg hn.1]
      exact ih b hn.2
  rw [watch_append, h]
  induction l with
  | nil => simp at hi
  | cons j l ih =>
    simp only [List.nodup_cons] at hl
    simp only [List.map_cons, List.foldl_cons, watch1]
    by_cases e : i = j
    · subst e
      simp only [if_true, Bool.false_eq_true, if_false]
      exact other l true hl.1
    · rw [if_neg e]
      exact ih hl.2 (by simpa [e] using hi)

theorem watch_exit {i : Nat} {tr : List Ev} {l : List Nat} (hl : l.Nodup) (hi : i ∈ l)
    (h : watch i tr = some true) : watch i (tr ++ l.reverse.map Ev.exit) = some false := by
  have other : ∀ (l : List Nat) (b : Bool), i ∉ l → (l.map Ev.exit).foldl (watch1 i) (some b) = some b := by
    intro l
    induction l with
    | nil => intros; rfl
    | cons j l ih =>
      intro b hn
      simp only [List.mem_cons, not_or] at hn
      simp only [List.map_cons, List.foldl_cons, watch1, if_neg hn.1]
      exact ih b hn.2
  rw [watch_append, h]
  have hl' : l.reverse.Nodup := List.pairwise_reverse.mpr (hl.imp Ne.symm)
  have hi' : i ∈ l.reverse := by simpa using hi
  generalize l.reverse = m at hl' hi'
  clear hl hi
  induction m with
  | nil => simp at hi'
  | cons j l ih =>
    simp only [List.nodup_cons] at hl'
    simp only [List.map_cons, List.foldl_cons, watch1]
    by_cases e : i = j
    · subst e
      simp only [if_true]
      exact other l false hl'.1
    · rw [if_neg e]
      exact ih hl'.2 (by simpa [e] using hi')

theorem watch_close {i : Nat} {tr cs : List Ev} (hc : ∀ e ∈ cs, e.isClose = true)
    (h : watch i tr = some false) : watch i (tr ++ cs) = some false := by
  rw [watch_append, h]
  induction cs with
  | nil => rfl
  | cons e l ih =>
    have := hc e (by simp)
    cases e <;> simp [Ev.isClose] at this
    simp only [List.foldl_cons, watch1, Bool.false_eq_true, if_false, ite_self]
    exact ih (fun e he => hc e (by simp [he]))

theorem Calm.exits {v : Env} (hv : v.Calm) : v.ExitsReturn := fun tr i e => by rw [hv]; simp

theorem Calm.replies {v : Env} (hv : v.Calm) : ∀ (l tr : List Ev), ∀ r ∈ replies v tr l, r = .ok
  | [], _ => by simp [Ctx.replies]
  | e :: l, tr => by
    intro r hr
    rcases List.mem_cons.mp hr with rfl | hr
    · exact hv _ _
    · exact Calm.replies hv l _ r hr

theorem Calm.enter {v : Env} (hv : v.Calm) (l : List Nat) (tr : List Ev) :
    enterAll v tr l = (tr ++ l.map Ev.enter, .ok) := enter_all v l tr (Calm.replies hv _ _)

theorem Calm.exit {v : Env} (hv : v.Calm) (l : List Nat) (tr : List Ev) :
    exitAll v tr l = (tr ++ l.reverse.map Ev.exit, .ok) := by
  rw [exit_order v l tr (exits_return (Calm.exits hv) _ _ (by simp))]
  unfold firstFailure
  rw [List.find?_eq_none.mpr (by intro x hx; simp [Calm.replies hv _ _ x hx])]
  simp

/-- The bracketing invariant. -/
structure Inv (l : List Nat) (on : Bool) (s : List Ev × Term) : Prop where
  act : s.2.active = on
  ctx : s.2.ctx.getD base = l
  got : on = true → s.2.ctx = some l ∧ s.2.under = true
  seen : ∀ i ∈ l, watch i s.1 = some on

theorem fine_ok (v : Env) : ∀ (p : Prog) (s : List Ev × Term), p.Fine → (run v p s).2 = .ok
  | .ret r, s, h => h
  | .user n w p, s, h => fine_ok v p _ h
  | .runWith body k, s, h => by
    simp only [run]; split <;> exact fine_ok v (k _) _ (h _)
  | .runWithout body k, s, h => by
    simp only [run]; repeat' split
    all_goals exact fine_ok v (k _) _ (h _)
  | .addContext cs k, s, h => by
    simp only [run]; split <;> exact fine_ok v (k _) _ (h _)

theorem run_bracket (v : Env) (hv : v.Calm) (l : List Nat) (hl : l.Nodup) : ∀ (p : Prog) (on : Bool)
    (s : List Ev × Term), p.Tagged on → p.WithoutFine → Inv l on s → Inv l on (run v p s).1
  | .ret r, on, s, _, _, I => I
  | .user n w p, on, s, h, hw, I => by
    refine run_bracket v hv l hl p on _ h.2 hw ⟨I.act, I.ctx, I.got, fun i hi => ?_⟩
    rw [watch_append, I.seen i hi, h.1]
    simp [watch1]
  | .runWith body k, on, s, h, hw, I => by
    simp only [run]
    split
    · next ha =>
      rw [I.act] at ha
      refine run_bracket v hv l hl (k _) on _ (h.2 _) (hw.2 _) ?_
      rw [ha] at I ⊢
      exact run_bracket v hv l hl body true s h.1 hw.1 I
    · next ha =>
      have hon : on = false := by rw [← I.act]; simpa using ha
      subst hon
      have hlist : ({ s.2 with active := true, under := true } : Term).init.list = l := I.ctx
      rw [hlist, Calm.enter hv]
      simp only [if_true]
      have I1 : Inv l true (s.1 ++ l.map Ev.enter, ({ s.2 with active := true, under := true } : Term).init) :=
        ⟨rfl, I.ctx, fun _ => ⟨by simp [Term.init, I.ctx], rfl⟩, fun i hi => watch_enter hl hi (I.seen i hi)⟩
      have I2 := run_bracket v hv l hl body true _ h.1 hw.1 I1
      generalize run v body _ = b at I2 ⊢
      refine run_bracket v hv l hl (k _) false _ (h.2 _) (hw.2 _) ⟨rfl, I2.ctx, by simp, fun i hi => ?_⟩
      have hb : b.1.2.list = l := by simp [Term.list, (I2.got rfl).1]
      obtain ⟨cs, h1, h2⟩ := closeLoop_mono v l.reverse (exitAll v b.1.1 l).1 .ok
      show watch i (closeAll v _ _).1 = _
      rw [hb, closeAll, h1, Calm.exit hv]
      exact watch_close h2 (watch_exit hl hi (I2.seen i hi))
  | .runWithout body k, on, s, h, hw, I => by
    simp only [run]
    split
    · next ha =>
      have hon : on = true := by rw [← I.act]; exact ha
      subst hon
      have hs : s.2.list = l := by simp [Term.list, (I.got rfl).1]
      rw [hs, Calm.exit hv]
      simp only [if_true]
      have I1 : Inv l false (s.1 ++ l.reverse.map Ev.exit, { s.2 with active := false }) :=
        ⟨rfl, I.ctx, by simp, fun i hi => watch_exit hl hi (I.seen i hi)⟩
      have I2 := run_bracket v hv l hl body false _ h.1 hw.2.1 I1
      have hf := fine_ok v body (s.1 ++ l.reverse.map Ev.exit, { s.2 with active := false }) hw.1
      have hk := run_under v body (s.1 ++ l.reverse.map Ev.exit, { s.2 with active := false }) (I.got rfl).2
      rw [if_pos hf]
      generalize run v body _ = b at I2 hk ⊢
      have hc := hk.2.2 l (I.got rfl).1
      have hb : b.1.2.list = l := by simp [Term.list, hc]
      rw [hb, Calm.enter hv]
      exact run_bracket v hv l hl (k _) true _ (h.2 _) (hw.2.2 _) ⟨rfl, I2.ctx, fun _ => ⟨hc, hk.1⟩,
        fun i hi => watch_enter hl hi (I2.seen i hi)⟩
    · next ha =>
      have hon : on = false := by rw [← I.act]; simpa using ha
      subst hon
      exact run_bracket v hv l hl (k _) false _ (h.2 _) (hw.2.2 _)
        (run_bracket v hv l hl body false s h.1 hw.2.1 I)
  | .addContext cs k, on, s, h, _, _ => h.elim

/-- **C39**, nesting: when context methods succeed and functions run without the context
return no error, then throughout any program, however its runs are nested and whatever its
functions return or panic with, no context is entered while entered or exited while not;
none is closed while entered; everything directly under a `RunWith` happens with all the
contexts entered, and everything else with none of them. -/
theorem runs_bracketed_partial (v : Env) (hv : v.Calm) (p : Prog) (t : Term) (ha : t.active = false)
    (hl : t.contexts.Nodup) (ht : p.Tagged false) (hw : p.WithoutFine) :
    (∀ i ∈ t.contexts, watch i (run v p ([], t)).1.1 = some false) ∧ (run v p ([], t)).1.2.active = false := by
  have I := run_bracket v hv t.contexts hl p false ([], t) ht hw ⟨ha, rfl, by simp, fun _ _ => rfl⟩
  exact ⟨I.seen, I.act⟩

/-- A program with nested runs, a run without, failures and panics that meets the
hypotheses of `runs_bracketed_partial`. -/
example : ∃ p : Prog, p.Tagged false ∧ p.WithoutFine ∧
    p = .user 0 false (.runWith (.user 1 true (.runWith (.user 2 true (.ret (.panic 3))) fun _ =>
      .runWithout (.user 4 false (.runWith (.user 5 true (.ret .ok)) fun _ => .ret .ok)) fun r => .ret r)) .ret) :=
  ⟨_, by simp [Prog.Tagged], by simp [Prog.WithoutFine, Prog.Fine], rfl⟩

/-! ### Closing -/

theorem enterAll_new (v : Env) (l : List Nat) (tr : List Ev) :
    ∃ d, (enterAll v tr l).1 = tr ++ d ∧ ∀ e ∈ d, e.isClose = false := by
  rw [enter_order]
  refine ⟨_, rfl, fun e he => ?_⟩
  have := List.mem_of_mem_take he
  simp only [List.mem_map] at this
  obtain ⟨i, _, rfl⟩ := this; rfl

theorem exitLoop_new (v : Env) : ∀ (l : List Nat) (tr : List Ev) (r : Res),
    ∃ d, (exitLoop v tr r l).1 = tr ++ d ∧ ∀ e ∈ d, e.isClose = false
  | [], tr, _ => ⟨[], by simp [exitLoop], by simp⟩
  | i :: l, tr, r => by
    simp only [exitLoop]
    cases v.reply tr (.exit i) with
    | panic e => exact ⟨[.exit i], rfl, by simp [Ev.isClose]⟩
    | ok =>
      obtain ⟨d, h1, h2⟩ := exitLoop_new v l (tr ++ [.exit i]) (if r = .ok then .ok else r)
      exact ⟨.exit i :: d, by simp only [h1]; simp, by simpa [Ev.isClose] using h2⟩
    | err e =>
      obtain ⟨d, h1, h2⟩ := exitLoop_new v l (tr ++ [.exit i]) (if r = .ok then .err e else r)
      exact ⟨.exit i :: d, by simp only [h1]; simp, by simpa [Ev.isClose] using h2⟩

/-- No `Close` in what is new. -/
def Quiet (a b : List Ev) : Prop := ∃ d, b = a ++ d ∧ ∀ e ∈ d, e.isClose = false

theorem Quiet.trans {a b c : List Ev} (h : Quiet a b) (g : Quiet b c) : Quiet a c := by
  obtain ⟨d, rfl, h⟩ := h
  obtain ⟨d', rfl, g⟩ := g
  exact ⟨d ++ d', by simp, by
    intro e he
    rcases List.mem_append.mp he with he | he
    · exact h e he
    · exact g e he⟩

theorem Quiet.refl (a : List Ev) : Quiet a a := ⟨[], by simp, by simp⟩

theorem Quiet.user (a : List Ev) (n : Nat) (w : Bool) : Quiet a (a ++ [.user n w]) :=
  ⟨_, rfl, by simp [Ev.isClose]⟩

/-- Without any `RunWith` nothing is closed. -/
theorem noWith_quiet (v : Env) : ∀ (p : Prog) (s : List Ev × Term), p.NoWith → Quiet s.1 (run v p s).1.1
  | .ret r, s, _ => Quiet.refl _
  | .user n w p, s, h => (Quiet.user s.1 n w).trans (noWith_quiet v p (s.1 ++ [.user n w], s.2) h)
  | .runWith body k, s, h => h.elim
  | .runWithout body k, s, h => by
    simp only [run]
    split
    · split
      · have h1 : Quiet s.1 (exitAll v s.1 s.2.list).1 := exitLoop_new v _ _ _
        have h2 := h1.trans (noWith_quiet v body ((exitAll v s.1 s.2.list).1, { s.2 with active := false }) h.1)
        split
        · have h3 : Quiet _ _ := enterAll_new v
            (run v body ((exitAll v s.1 s.2.list).1, { s.2 with active := false })).1.2.list
            (run v body ((exitAll v s.1 s.2.list).1, { s.2 with active := false })).1.1
          exact (h2.trans h3).trans (noWith_quiet v (k _) (_, _) (h.2 _))
        · exact h2.trans (noWith_quiet v (k _) _ (h.2 _))
      · have h1 : Quiet s.1 (exitAll v s.1 s.2.list).1 := exitLoop_new v _ _ _
        exact h1.trans (noWith_quiet v (k _) (_, _) (h.2 _))
    · exact (noWith_quiet v body s h.1).trans (noWith_quiet v (k _) _ (h.2 _))
  | .addContext cs k, s, h => by
    simp only [run]
    split
    · exact noWith_quiet v (k _) s (h _)
    · exact noWith_quiet v (k .ok) (s.1, { s.2 with ctx := some (s.2.ctx.getD base ++ cs) }) (h _)

/-- In an active terminal, without any `RunWithout`, nothing is closed and the terminal
stays active. -/
theorem noWithout_quiet (v : Env) : ∀ (p : Prog) (s : List Ev × Term), p.NoWithout → s.2.active = true →
    Quiet s.1 (run v p s).1.1 ∧ (run v p s).1.2.active = true
  | .ret r, s, _, ha => ⟨Quiet.refl _, ha⟩
  | .user n w p, s, h, ha => by
    obtain ⟨h1, h2⟩ := noWithout_quiet v p (s.1 ++ [.user n w], s.2) h ha
    exact ⟨(Quiet.user s.1 n w).trans h1, h2⟩
  | .runWith body k, s, h, ha => by
    simp only [run, ha, if_true]
    obtain ⟨h1, h2⟩ := noWithout_quiet v body s h.1 ha
    obtain ⟨h3, h4⟩ := noWithout_quiet v (k (run v body s).2) (run v body s).1 (h.2 _) h2
    exact ⟨h1.trans h3, h4⟩
  | .runWithout body k, s, h, ha => h.elim
  | .addContext cs k, s, h, ha => by
    simp only [run]
    split
    · exact noWithout_quiet v (k _) s (h _) ha
    · exact noWithout_quiet v (k .ok) (s.1, { s.2 with ctx := some (s.2.ctx.getD base ++ cs) }) (h _) ha

/-- In an active terminal with calm contexts, when functions run without the context return
no error and run nothing with it, nothing is closed and the terminal stays active. -/
theorem flat_quiet (v : Env) (hv : v.Calm) : ∀ (p : Prog) (s : List Ev × Term), p.Flat → p.WithoutFine →
    s.2.active = true → Quiet s.1 (run v p s).1.1 ∧ (run v p s).1.2.active = true
  | .ret r, s, _, _, ha => ⟨Quiet.refl _, ha⟩
  | .user n w p, s, h, hw, ha => by
    obtain ⟨h1, h2⟩ := flat_quiet v hv p (s.1 ++ [.user n w], s.2) h hw ha
    exact ⟨(Quiet.user s.1 n w).trans h1, h2⟩
  | .runWith body k, s, h, hw, ha => by
    simp only [run, ha, if_true]
    obtain ⟨h1, h2⟩ := flat_quiet v hv body s h.1 hw.1 ha
    obtain ⟨h3, h4⟩ := flat_quiet v hv (k (run v body s).2) (run v body s).1 (h.2 _) (hw.2 _) h2
    exact ⟨h1.trans h3, h4⟩
  | .runWithout body k, s, h, hw, ha => by
    simp only [run, ha, if_true]
    rw [if_pos (by rw [Calm.exit hv])]
    have h1 : Quiet s.1 (exitAll v s.1 s.2.list).1 := exitLoop_new v _ _ _
    have h2 := h1.trans (noWith_quiet v body ((exitAll v s.1 s.2.list).1, { s.2 with active := false }) h.1)
    rw [if_pos (fine_ok v body _ hw.1)]
    generalize run v body _ = b at h2 ⊢
    have h3 : Quiet b.1.1 (enterAll v b.1.1 b.1.2.list).1 := enterAll_new v _ _
    obtain ⟨g1, g2⟩ := flat_quiet v hv (k (enterAll v b.1.1 b.1.2.list).2)
      ((enterAll v b.1.1 b.1.2.list).1,
        { b.1.2 with active := decide ((enterAll v b.1.1 b.1.2.list).2 = .ok) || b.1.2.active }) (h.2 _) (hw.2.2 _)
      (by rw [Calm.enter hv]; simp)
    exact ⟨(h2.trans h3).trans g1, g2⟩
  | .addContext cs k, s, h, hw, ha => by
    simp only [run]
    split
    · exact flat_quiet v hv (k _) s (h _) (hw _) ha
    · exact flat_quiet v hv (k .ok) (s.1, { s.2 with ctx := some (s.2.ctx.getD base ++ cs) }) (h _) (hw _) ha

/-- **C39**, `Close`: a run closes contexts only at its very end, when everything else has
happened, if its function uses no `RunWithout`, whatever fails; or if contexts do not
fail and functions run without the context return no error and start no run within it.
Otherwise not: see `close_inside_without`. -/
theorem closes_last_partial (v : Env) (body : Prog) (tr : List Ev) (t : Term) (ha : t.active = false)
    (h : body.NoWithout ∨ (v.Calm ∧ body.Flat ∧ body.WithoutFine)) :
    ∃ did closed, (run v (.runWith body .ret) (tr, t)).1.1 = tr ++ did ++ closed ∧
      (∀ e ∈ did, e.isClose = false) ∧ ∀ e ∈ closed, e.isClose = true := by
  simp only [run, ha, Bool.false_eq_true, if_false]
  have h0 : Quiet tr (enterAll v tr ({ t with active := true, under := true } : Term).init.list).1 := enterAll_new v _ _
  generalize hb : (if (enterAll v tr ({ t with active := true, under := true } : Term).init.list).2 = .ok then _ else _ : (List Ev × Term) × Res) = b
  have hq : Quiet tr b.1.1 := by
    rw [← hb]
    split
    · rcases h with h | ⟨hv, h1, h2⟩
      · exact h0.trans (noWithout_quiet v body (_, ({ t with active := true, under := true } : Term).init) h rfl).1
      · exact h0.trans (flat_quiet v hv body (_, ({ t with active := true, under := true } : Term).init) h1 h2 rfl).1
    · exact h0
  have hx : Quiet b.1.1 (exitAll v b.1.1 b.1.2.list).1 := exitLoop_new v _ _ _
  obtain ⟨d, e1, e2⟩ := hq.trans hx
  obtain ⟨cs, h1, h2⟩ := closeLoop_mono v ({ t with active := true, under := true } : Term).init.list.reverse
    (exitAll v b.1.1 b.1.2.list).1 .ok
  exact ⟨d, cs, by show (closeAll v _ _).1 = _; rw [closeAll, h1, e1], e2, h2⟩

/-- One closable context. -/
def one : Term := { ctx := some [9] }
/-- Everything succeeds. -/
def calm : Env := ⟨fun _ _ => .ok, fun _ => true⟩

/-- Negation for **C39**: a run nested in a run without the context closes the context
long before the outermost run ends, and the context is entered again after that. -/
theorem close_inside_without : (run calm (.runWith (.runWithout (.runWith (.ret .ok) .ret) .ret) .ret) ([], one)).1.1 =
    [.enter 9, .exit 9, .enter 9, .exit 9, .close 9, .enter 9, .exit 9, .close 9] := rfl

/-- A context is exited twice in a row when a function run without it fails: why
`runs_bracketed_partial` asks for these functions to return no error. -/
theorem exit_twice : (run calm (.runWith (.runWithout (.ret (.err 1)) .ret) .ret) ([], one)).1.1 =
    [.enter 9, .exit 9, .exit 9, .close 9] := rfl

/-- Contexts can only be added outside of any run: under one, adding panics and changes
nothing. -/
theorem add_context_under (v : Env) (cs : List Nat) (tr : List Ev) (t : Term) :
    run v (.addContext cs .ret) (tr, t) =
      if t.under then ((tr, t), .panic 0) else ((tr, { t with ctx := some (t.contexts ++ cs) }), .ok) := by
  simp only [run]; split <;> rfl

end Ctx
end Anansi
