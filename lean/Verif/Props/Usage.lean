import Verif.Model.Telemetry
import Mathlib.Data.List.Induction
import Mathlib.Data.List.Chain
import Mathlib.Tactic.Linarith
/-
C85: resource use is reported over the windows asked for.
-/
set_option autoImplicit false

namespace Anansi
namespace Tel

variable {α : Type}

namespace Spec

/-- Taking samples one after the other; every system call succeeds. -/
def sample (u : Usage α) (l : List (Entry α)) : Usage α := l.foldl (fun u e => (u.update e.t (some e.use)).1) u

/-- How old a sample is. -/
def age (latest e : Entry α) : Int := latest.t - e.t

/-- A window is covered by some samples when one is older. -/
def covered (latest : Entry α) (older : List (Entry α)) (o : Int) : Bool := older.any fun e => age latest e > o

/-- The longest part of a window there are samples for: from the oldest sample in it.  The samples
are newest first. -/
def longest (latest : Entry α) (older : List (Entry α)) (o : Int) : Option (Entry α × Entry α) :=
  ((older.filter fun e => age latest e ≤ o).getLast?).map fun e => (latest, e)

end Spec
open Spec

/-- What is in a ring after some samples. -/
structure Ring (z : Entry α) (n : Nat) (l : List (Entry α)) (u : Usage α) : Prop where
  len : u.data.length = n
  idx : u.i = l.length % n
  mem : ∀ k, k < n → k < l.length → u.data[(l.length - 1 - k) % n]? = l[l.length - 1 - k]?
  rest : ∀ x, l.length ≤ x → x < n → u.data[x]? = some z

theorem ring_sample (z : Entry α) (n : Nat) (hn : 0 < n) (l : List (Entry α)) :
    Ring z n l (sample { data := List.replicate n z } l) := by
  induction l using List.reverseRecOn with
  | nil =>
    refine ⟨by simp [sample], by simp [sample], by simp, ?_⟩
    intro x _ hx
    simp [sample, List.getElem?_replicate, hx]
  | append_singleton l e ih =>
    obtain ⟨u, hu⟩ : ∃ u, u = sample { data := List.replicate n z } l := ⟨_, rfl⟩
    rw [← hu] at ih
    have hne : u.data ≠ [] := by intro h; have := ih.len; rw [h] at this; simp at this; omega
    have e1 : sample { data := List.replicate n z } (l ++ [e]) =
        { i := (u.i + 1) % n, data := u.data.set u.i e } := by
      unfold sample at hu ⊢
      rw [List.foldl_append, ← hu]
      simp only [List.foldl_cons, List.foldl_nil, Usage.update, if_neg hne, ih.len]
    have hi : u.i < n := by rw [ih.idx]; exact Nat.mod_lt _ hn
    rw [e1]
    refine ⟨by simp [ih.len], by simp [ih.idx], ?_, ?_⟩
    · intro k hk hkl
      simp only [List.length_append, List.length_singleton] at hkl ⊢
      cases k with
      | zero =>
        rw [show l.length + 1 - 1 - 0 = l.length by omega, ih.idx]
        rw [List.getElem?_set_self (by rw [ih.len]; exact Nat.mod_lt _ hn)]
        simp
      | succ k =>
        rw [show l.length + 1 - 1 - (k + 1) = l.length - 1 - k by omega, List.getElem?_set_ne, ih.mem k (by omega) (by omega),
          List.getElem?_append_left (by omega)]
        rw [ih.idx]
        intro hh
        have h1 := Nat.div_add_mod l.length n
        have h2 := Nat.div_add_mod (l.length - 1 - k) n
        rw [hh] at h1
        have h3 : n * (l.length / n) - n * ((l.length - 1 - k) / n) = k + 1 := by omega
        rw [← Nat.mul_sub] at h3
        have : n ∣ k + 1 := ⟨_, h3.symm⟩
        have := Nat.le_of_dvd (by omega) this
        omega
    · intro x hx hxn
      simp only [List.length_append, List.length_singleton] at hx
      rw [List.getElem?_set_ne, ih.rest x (by omega) hxn]
      rw [ih.idx, Nat.mod_eq_of_lt (by omega)]
      omega

/-- The loop on a list of entries. -/
def walk (latest : Entry α) : List (Entry α) → Option (Entry α) → List Int → List (Entry α × Entry α)
  | [], _, _ => []
  | _, _, [] => []
  | e :: h, oldest, o :: os =>
    if e.t = 0 ∨ latest.t - e.t > o then
      (match oldest with
        | some x => if x.t ≠ 0 then [(latest, x)] else []
        | none => []) ++ walk latest h (some e) os
    else walk latest h (some e) (o :: os)

theorem deltasFrom_walk (u : Usage α) (j : Nat) (latest : Entry α) (h : List (Entry α)) :
    ∀ (k : Nat) (old : Option (Entry α)) (os : List Int), (∀ i, i < h.length → u.back j (k + i) = h[i]?) →
    u.deltasFrom j latest h.length k old os = walk latest h old os := by
  induction h with
  | nil => intro k old os _; cases os <;> rfl
  | cons e h ih =>
    intro k old os hb
    cases os with
    | nil => rfl
    | cons o os =>
      have h0 : u.back j k = some e := by have := hb 0 (by simp); simpa using this
      have hs : ∀ i, i < h.length → u.back j (k + 1 + i) = h[i]? := by
        intro i hi
        have := hb (i + 1) (by simpa using hi)
        rw [show k + 1 + i = k + (i + 1) by omega, this]; simp
      unfold Usage.deltasFrom walk
      rw [List.length_cons]
      simp only [h0]
      rw [ih _ _ _ hs, ih _ _ _ hs]
      rfl

/-- The samples kept before the latest one, newest first. -/
def Spec.kept (n : Nat) (l : List (Entry α)) : List (Entry α) := (l.reverse.drop 1).take (n - 1)

/-- `computeDeltas` after some samples. -/
theorem deltas_walk (z : Entry α) (n : Nat) (hn : 0 < n) (l : List (Entry α)) (e : Entry α) (he : e.t ≠ 0)
    (over : List Int) :
    (sample { data := List.replicate n z } (l ++ [e])).deltas over =
      some (walk e (kept n (l ++ [e]) ++ List.replicate (n - 1 - l.length) z) none over) := by
  have R := ring_sample z n hn (l ++ [e])
  generalize sample { data := List.replicate n z } (l ++ [e]) = u at R
  have hm : (l ++ [e]).length = l.length + 1 := by simp
  have hj : (if u.i = 0 then n - 1 else u.i - 1) = l.length % n := by
    rw [R.idx, hm]
    have h1 := Nat.div_add_mod l.length n
    have h2 := Nat.mod_lt l.length hn
    by_cases hc : l.length % n + 1 = n
    · have : (l.length + 1) % n = 0 := by
        rw [← h1, Nat.add_assoc, hc, ← Nat.mul_succ, Nat.mul_mod_right]
      rw [if_pos this]; omega
    · have : (l.length + 1) % n = l.length % n + 1 := by
        rw [Nat.add_mod, Nat.mod_eq_of_lt (a := l.length % n + 1 % n)]
        · rw [Nat.mod_eq_of_lt (a := 1)]; omega
        · rw [Nat.mod_eq_of_lt (a := 1)] <;> omega
      rw [this, if_neg (by omega)]; omega
  have hlat : u.data[l.length % n]? = some e := by
    have := R.mem 0 hn (by omega)
    rw [hm] at this
    simpa using this
  have hk : (kept n (l ++ [e]) ++ List.replicate (n - 1 - l.length) z).length = n - 1 := by
    simp [kept]; omega
  have hb : ∀ i, i < n - 1 → u.back (l.length % n) (1 + i) =
      (kept n (l ++ [e]) ++ List.replicate (n - 1 - l.length) z)[i]? := by
    intro i hi
    have hkl : (kept n (l ++ [e])).length = min (n - 1) l.length := by simp [kept]
    have hmod := Nat.mod_lt l.length hn
    have hdm := Nat.div_add_mod l.length n
    generalize hr' : l.length % n = r at hmod hdm ⊢
    generalize l.length / n = q at hdm
    by_cases hil : i < l.length
    · rw [List.getElem?_append_left (by omega)]
      have hm1 := R.mem (1 + i) (by omega) (by omega)
      rw [hm] at hm1
      have hr : (kept n (l ++ [e]))[i]? = (l ++ [e])[l.length + 1 - 1 - (1 + i)]? := by
        simp only [kept, List.reverse_append, List.reverse_cons, List.reverse_nil, List.nil_append,
          List.singleton_append, List.drop_succ_cons, List.drop_zero]
        rw [List.getElem?_take_of_lt hi, List.getElem?_reverse hil, List.getElem?_append_left (by omega)]
        congr 1; omega
      rw [hr, ← hm1]
      unfold Usage.back
      rw [R.len]
      split
      · next hlt =>
        have e0 : (l.length + 1 - 1 - (1 + i)) % n = n + r - (1 + i) := by
          have hq0 : 0 < q := by
            by_contra h0
            have : q = 0 := by omega
            rw [this] at hdm; omega
          obtain ⟨q', rfl⟩ : ∃ q', q = q' + 1 := ⟨q - 1, by omega⟩
          rw [Nat.mul_succ] at hdm
          have e1 : l.length + 1 - 1 - (1 + i) = n * q' + (n + r - (1 + i)) := by omega
          rw [e1, Nat.mul_add_mod, Nat.mod_eq_of_lt (by omega)]
        rw [e0]
      · next hge =>
        have e0 : (l.length + 1 - 1 - (1 + i)) % n = r - (1 + i) := by
          have e1 : l.length + 1 - 1 - (1 + i) = n * q + (r - (1 + i)) := by omega
          rw [e1, Nat.mul_add_mod, Nat.mod_eq_of_lt (by omega)]
        rw [e0]
    · rw [List.getElem?_append_right (by omega), List.getElem?_replicate, if_pos (by omega)]
      have hln : l.length % n = l.length := Nat.mod_eq_of_lt (by omega)
      unfold Usage.back
      rw [← hr', hln, if_pos (by omega), R.len]
      exact R.rest _ (by rw [hm]; omega) (by omega)
  unfold Usage.deltas
  simp only [R.len]
  rw [if_neg (by omega), hj, hlat]
  simp only [if_neg he]
  congr 1
  rw [← deltasFrom_walk u (l.length % n) e _ 1 none over (by rw [hk]; exact hb), hk]

theorem walk_zeros (latest z : Entry α) (hz : z.t = 0) (k : Nat) : ∀ os : List Int,
    walk latest (List.replicate k z) (some z) os = [] := by
  induction k with
  | zero => intro os; cases os <;> rfl
  | succ k ih =>
    intro os
    cases os with
    | nil => rfl
    | cons o os =>
      rw [List.replicate_succ]
      unfold walk
      simp [hz, ih]

/-- The loop over samples close to each other. -/
theorem walk_dense (latest : Entry α) (δ : Int) (z : Entry α) (hz : z.t = 0) (zs : Nat) (h : List (Entry α)) :
    ∀ (P : List (Entry α)) (a : Int) (os : List Int),
    (∀ e ∈ P ++ h, e.t ≠ 0) → (∀ e ∈ P, age latest e ≤ a) → (∀ o ∈ os, a ≤ o) →
    List.IsChain (fun x y => x ≤ y ∧ y ≤ x + δ) (a :: h.map (age latest)) →
    os.Pairwise (fun x y => x + δ ≤ y) → 0 ≤ δ →
    walk latest (h ++ List.replicate zs z) P.getLast? os =
      (os.filter (covered latest h)).filterMap (longest latest (P ++ h)) ++
        if zs = 0 ∨ ∀ o ∈ os, covered latest h o = true then [] else ((P ++ h).getLast?.map fun e => (latest, e)).toList := by
  induction h with
  | nil =>
    intro P a os ht _ _ _ _ _
    have hc : ∀ o, covered latest ([] : List (Entry α)) o = false := fun _ => rfl
    have hf : os.filter (covered latest ([] : List (Entry α))) = [] := List.filter_eq_nil_iff.2 (by simp [hc])
    rw [hf, List.nil_append, List.filterMap_nil, List.nil_append, List.append_nil]
    cases os with
    | nil => rw [if_pos (.inr (by simp))]; cases zs <;> rfl
    | cons o os =>
      cases zs with
      | zero => rfl
      | succ k =>
        rw [if_neg (by rintro (h | h); · omega
                       · simpa [hc] using h o (by simp)), List.replicate_succ]
        unfold walk
        rw [if_pos (.inl hz), walk_zeros latest z hz, List.append_nil]
        cases hl : P.getLast? with
        | none => rfl
        | some x =>
          have := ht x (by simpa using List.mem_of_getLast? hl)
          simp [this]
  | cons e h ih =>
    intro P a os ht hP ho hch hpw hδ
    rw [List.map_cons, List.isChain_cons_cons] at hch
    obtain ⟨⟨c1, c2⟩, c3⟩ := hch
    have het := ht e (by simp)
    have hP' : ∀ x ∈ P ++ [e], age latest x ≤ age latest e := by
      intro x hx
      rcases List.mem_append.1 hx with hx | hx
      · have := hP x hx; omega
      · rw [List.mem_singleton] at hx; subst hx; exact le_refl _
    have ht' : ∀ x ∈ P ++ [e] ++ h, x.t ≠ 0 := by simpa using ht
    have hlast : (P ++ [e]).getLast? = some e := by simp
    have happ : P ++ e :: h = P ++ [e] ++ h := by simp
    cases os with
    | nil => cases zs <;> simp [walk]
    | cons o os =>
      obtain ⟨p1, p2⟩ := List.pairwise_cons.1 hpw
      rw [List.cons_append]
      unfold walk
      by_cases hgt : latest.t - e.t > o
      · rw [if_pos (.inr hgt)]
        have hgt' : age latest e > o := hgt
        have hle : ∀ o' ∈ os, age latest e ≤ o' := by
          intro o' h'
          have := p1 o' h'
          have := ho o (by simp)
          omega
        have I := ih (P ++ [e]) (age latest e) os ht' hP' hle c3 p2 hδ
        rw [hlast] at I
        rw [I]
        have hcov : covered latest (e :: h) o = true := by
          unfold covered; rw [List.any_cons]; simp [hgt']
        have hcov' : ∀ o' ∈ os, covered latest (e :: h) o' = covered latest h o' := by
          intro o' h'
          unfold covered
          rw [List.any_cons]
          have := hle o' h'
          simp [this]
        have hlong : longest latest (P ++ e :: h) o = P.getLast?.map fun x => (latest, x) := by
          unfold longest
          congr 2
          rw [List.filter_append, List.filter_eq_self.2, List.filter_eq_nil_iff.2, List.append_nil]
          · intro x hx
            have hxa : age latest e ≤ age latest x := by
              rcases List.mem_cons.1 hx with rfl | hx
              · exact le_refl _
              · have hp : List.Pairwise (· ≤ ·) (age latest e :: h.map (age latest)) :=
                  List.isChain_iff_pairwise.1 (c3.imp (fun _ _ h => h.1))
                exact (List.pairwise_cons.1 hp).1 _ (List.mem_map.2 ⟨x, hx, rfl⟩)
            simp only [decide_eq_true_eq]; omega
          · intro x hx
            have := hP x hx
            have := ho o (by simp)
            simp only [decide_eq_true_eq]; omega
        have hfil : (o :: os).filter (covered latest (e :: h)) = o :: os.filter (covered latest h) := by
          rw [List.filter_cons, hcov, if_pos rfl, List.filter_congr hcov']
        have hall : (∀ o' ∈ o :: os, covered latest (e :: h) o' = true) ↔ ∀ o' ∈ os, covered latest h o' = true := by
          rw [List.forall_mem_cons]
          constructor
          · rintro ⟨_, hh⟩ o' h'; rw [← hcov' o' h']; exact hh o' h'
          · intro hh; exact ⟨hcov, fun o' h' => by rw [hcov' o' h']; exact hh o' h'⟩
        rw [hfil, List.filterMap_cons, hlong, ← happ]
        simp only [hall]
        cases hl : P.getLast? with
        | none => simp
        | some x =>
          have := ht x (List.mem_append_left _ (List.mem_of_getLast? hl))
          simp [this]
      · rw [if_neg (by push Not; exact ⟨het, by omega⟩)]
        have hge : age latest e ≤ o := by unfold age; omega
        have hle : ∀ o' ∈ o :: os, age latest e ≤ o' := by
          intro o' h'
          rcases List.mem_cons.1 h' with rfl | h'
          · exact hge
          · have := p1 o' h'; omega
        have I := ih (P ++ [e]) (age latest e) (o :: os) ht' hP' hle c3 hpw hδ
        rw [hlast] at I
        have hcov' : ∀ o' ∈ o :: os, covered latest (e :: h) o' = covered latest h o' := by
          intro o' h'
          unfold covered
          rw [List.any_cons]
          have := hle o' h'
          simp [this]
        have hall : (∀ o' ∈ o :: os, covered latest (e :: h) o' = true) ↔
            ∀ o' ∈ o :: os, covered latest h o' = true :=
          ⟨fun hh o' h' => by rw [← hcov' o' h']; exact hh o' h', fun hh o' h' => by rw [hcov' o' h']; exact hh o' h'⟩
        rw [I, List.filter_congr hcov', ← happ]
        simp only [hall]

/-- Every entry reported is a real sample. -/
theorem walk_sound (latest : Entry α) (h : List (Entry α)) : ∀ (old : Option (Entry α)) (os : List Int) (d : Entry α × Entry α),
    d ∈ walk latest h old os → d.1 = latest ∧ d.2.t ≠ 0 ∧ (d.2 ∈ h ∨ old = some d.2) := by
  induction h with
  | nil => intro old os d hd; cases os <;> simp [walk] at hd
  | cons e h ih =>
    intro old os d hd
    cases os with
    | nil => simp [walk] at hd
    | cons o os =>
      have key : ∀ os', d ∈ walk latest h (some e) os' → d.1 = latest ∧ d.2.t ≠ 0 ∧ (d.2 ∈ e :: h ∨ old = some d.2) := by
        intro os' hd
        obtain ⟨h1, h2, h3⟩ := ih _ _ _ hd
        refine ⟨h1, h2, .inl ?_⟩
        rcases h3 with h3 | h3
        · exact List.mem_cons_of_mem _ h3
        · injection h3 with h3; rw [h3]; simp
      unfold walk at hd
      split at hd
      · rcases List.mem_append.1 hd with hd | hd
        · cases old with
          | none => simp at hd
          | some x =>
            simp only at hd
            split at hd
            · next hx =>
              rw [List.mem_singleton] at hd
              subst hd
              exact ⟨rfl, hx, .inr rfl⟩
            · simp at hd
        · exact key _ hd
      · exact key _ hd

/-- **C85**: every difference reported is between the latest sample and a sample taken
before which is still kept, whatever the windows and the samples. -/
theorem usage_sound (z : Entry α) (hz : z.t = 0) (n : Nat) (hn : 0 < n) (l : List (Entry α)) (e : Entry α)
    (he : e.t ≠ 0) (over : List Int) :
    ∃ ds, (sample { data := List.replicate n z } (l ++ [e])).deltas over = some ds ∧
      ∀ d ∈ ds, d.1 = e ∧ d.2 ∈ kept n (l ++ [e]) := by
  refine ⟨_, deltas_walk z n hn l e he over, ?_⟩
  intro d hd
  obtain ⟨h1, h2, h3⟩ := walk_sound _ _ _ _ _ hd
  refine ⟨h1, ?_⟩
  rcases h3 with h3 | h3
  · rcases List.mem_append.1 h3 with h3 | h3
    · exact h3
    · rw [(List.mem_replicate.1 h3).2] at h2; exact absurd hz h2
  · simp at h3

/-- **C85**: with samples at most `δ` apart and windows at least `δ` apart, what is reported is,
for every window there are older samples than, the longest difference in the window, and,
while the ring is not full, one difference over everything there is. -/
theorem usage_windows_partial (z : Entry α) (hz : z.t = 0) (n : Nat) (hn : 0 < n) (l : List (Entry α)) (e : Entry α)
    (ht : ∀ x ∈ l ++ [e], x.t ≠ 0) (δ : Int) (hδ : 0 ≤ δ)
    (hs : (l ++ [e]).IsChain fun x y => x.t ≤ y.t ∧ y.t ≤ x.t + δ)
    (over : List Int) (h0 : ∀ o ∈ over, 0 ≤ o) (ho : over.Pairwise fun x y => x + δ ≤ y) :
    (sample { data := List.replicate n z } (l ++ [e])).deltas over =
      some ((over.filter (covered e (kept n (l ++ [e])))).filterMap (longest e (kept n (l ++ [e]))) ++
        if n ≤ l.length + 1 ∨ ∀ o ∈ over, covered e (kept n (l ++ [e])) o = true then []
        else ((kept n (l ++ [e])).getLast?.map fun x => (e, x)).toList) := by
  rw [deltas_walk z n hn l e (ht e (by simp)) over]
  have hk : kept n (l ++ [e]) = l.reverse.take (n - 1) := by simp [kept]
  have W := walk_dense e δ z hz (n - 1 - l.length) (kept n (l ++ [e])) [] 0 over ?_ (by simp) h0 ?_ ho hδ
  · simp only [List.getLast?_nil, List.nil_append] at W
    rw [W]
    congr 3
    rw [show (n - 1 - l.length = 0) ↔ n ≤ l.length + 1 by omega]
  · intro x hx
    rw [List.nil_append, hk] at hx
    exact ht x (by have := List.mem_of_mem_take hx; simp at this; simp [this])
  · have hr : List.IsChain (fun x y : Entry α => y.t ≤ x.t ∧ x.t ≤ y.t + δ) (e :: l.reverse) := by
      have := List.isChain_reverse.2 hs
      simpa using this
    have h1 : List.IsChain (fun x y : Int => x ≤ y ∧ y ≤ x + δ) ((e :: l.reverse).map (age e)) := by
      rw [List.isChain_map]
      exact hr.imp (fun x y h => by unfold age; omega)
    have h2 := h1.take n
    obtain ⟨m, rfl⟩ : ∃ m, n = m + 1 := ⟨n - 1, by omega⟩
    rw [List.map_cons, List.take_succ_cons, ← List.map_take] at h2
    rw [hk, Nat.add_sub_cancel]
    have : age e e = 0 := by unfold age; omega
    rwa [this] at h2

/-- Seven samples in a ring of six, with windows 2 and 4 (and 9, not covered). -/
example : (sample { data := List.replicate 6 (⟨0, 0⟩ : Entry Nat) }
    [⟨3, 1⟩, ⟨4, 2⟩, ⟨5, 3⟩, ⟨6, 4⟩, ⟨8, 5⟩, ⟨9, 6⟩, ⟨10, 7⟩]).deltas [2, 4, 9] =
    some [(⟨10, 7⟩, ⟨8, 5⟩), (⟨10, 7⟩, ⟨6, 4⟩)] := by decide +kernel

example : ([⟨3, 1⟩, ⟨4, 2⟩, ⟨5, 3⟩, ⟨6, 4⟩, ⟨8, 5⟩, ⟨9, 6⟩, ⟨10, 7⟩] : List (Entry Nat)).IsChain
    (fun x y => x.t ≤ y.t ∧ y.t ≤ x.t + 2) ∧ ([2, 4, 9] : List Int).Pairwise (fun x y => x + 2 ≤ y) := by
  decide +kernel

/-- **C85** is violated with samples further apart than the windows: a difference is over
more than its window. -/
theorem usage_window_exceeded : ∃ (l : List (Entry Nat)) (over : List Int),
    ∃ d1 d2, (sample { data := List.replicate 6 (⟨0, 0⟩ : Entry Nat) } l).deltas over = some [d1, d2] ∧
      ∃ o, over[1]? = some o ∧ over.getLast? = some o ∧ o < age d2.1 d2.2 :=
  ⟨[⟨10, 1⟩, ⟨20, 2⟩, ⟨30, 3⟩, ⟨55, 4⟩, ⟨60, 5⟩, ⟨61, 6⟩], [10, 20], (⟨61, 6⟩, ⟨55, 4⟩), (⟨61, 6⟩, ⟨30, 3⟩),
    by decide +kernel, 20, rfl, rfl, by decide +kernel⟩

end Tel
end Anansi
