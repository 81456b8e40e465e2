import Verif.Model.Line
import Verif.Props.Bitmap
import Mathlib.Tactic.Linarith
import Mathlib.Tactic.Ring
/-
C77: lines drawn on a bitmap.
-/
set_option autoImplicit false

namespace Anansi

namespace Spec

/-- A straight digital line from one point to another: it starts and ends where it
should, is as short as a joined line can be, each point is a neighbour (sideways,
up/down or diagonally) of the one before, and each is within half a pixel (along the
axis in which the line is shorter) of the ideal line. -/
structure IsLine (fr dst : Pt) (ps : List Pt) : Prop where
  first : ps.head? = some fr
  last : ps.getLast? = some dst
  length : ps.length = max (dst.x - fr.x).natAbs (dst.y - fr.y).natAbs + 1
  joined : ∀ i p q, ps[i]? = some p → ps[i + 1]? = some q →
    max (q.x - p.x).natAbs (q.y - p.y).natAbs = 1
  straight : ∀ p ∈ ps,
    2 * ((p.y - fr.y) * (dst.x - fr.x) - (p.x - fr.x) * (dst.y - fr.y)).natAbs ≤
      max (dst.x - fr.x).natAbs (dst.y - fr.y).natAbs

end Spec

namespace Line

/-- Exchanges the axes. -/
def swap (p : Pt) : Pt := ⟨p.y, p.x⟩

theorem swap_swap (p : Pt) : swap (swap p) = p := rfl

theorem swap_inj {p q : Pt} : swap p = swap q ↔ p = q :=
  ⟨fun h => by have := congrArg swap h; exact this, fun h => h ▸ rfl⟩

def swapVars (v : LoopVars) : LoopVars := ⟨swap v.p, -v.err⟩

theorem round_mk (dx dy sx sy x y e : Int) :
    round dx dy sx sy ⟨⟨x, y⟩, e⟩ =
      ⟨⟨if e * 2 > -dy then x + sx else x, if e * 2 < dx then y + sy else y⟩,
        e - (if e * 2 > -dy then dy else 0) + (if e * 2 < dx then dx else 0)⟩ := by
  simp only [round]
  by_cases h1 : e * 2 > -dy <;> by_cases h2 : e * 2 < dx <;> simp [h1, h2]

theorem round_swap (dx dy sx sy : Int) (v : LoopVars) :
    round dy dx sy sx (swapVars v) = swapVars (round dx dy sx sy v) := by
  obtain ⟨⟨x, y⟩, e⟩ := v
  show round dy dx sy sx ⟨⟨y, x⟩, -e⟩ = _
  rw [round_mk, round_mk]
  have e1 : (-e * 2 > -dx) = (e * 2 < dx) := propext (by omega)
  have e2 : (-e * 2 < dy) = (e * 2 > -dy) := propext (by omega)
  simp only [swapVars, swap, e1, e2, LoopVars.mk.injEq, true_and]
  split <;> split <;> omega

theorem loop_swap (dx dy sx sy : Int) (dst : Pt) (n : Nat) : ∀ v : LoopVars,
    loop dy dx sy sx (swap dst) n (swapVars v) = (loop dx dy sx sy dst n v).map (List.map swap) := by
  induction n with
  | zero =>
    intro v
    by_cases h : v.p = dst
    · simp [loop, swapVars, h]
    · simp [loop, swapVars, h, swap_inj]
  | succ n ih =>
    intro v
    by_cases h : v.p = dst
    · simp [loop, swapVars, h]
    · have h' : ¬ (swapVars v).p = swap dst := fun e => h (swap_inj.1 e)
      simp only [loop]
      rw [if_neg h, if_neg h', round_swap, ih]
      cases loop dx dy sx sy dst n (round dx dy sx sy v) <;> rfl

theorem points_swap (n : Nat) (fr dst : Pt) :
    points n (swap fr) (swap dst) = (points n fr dst).map (List.map swap) := by
  simp only [points]
  have := loop_swap (abs (dst.x - fr.x)) (abs (dst.y - fr.y)) (if fr.x ≥ dst.x then -1 else 1)
    (if fr.y ≥ dst.y then -1 else 1) dst n ⟨fr, abs (dst.x - fr.x) - abs (dst.y - fr.y)⟩
  have e : swapVars ⟨fr, abs (dst.x - fr.x) - abs (dst.y - fr.y)⟩ =
      ⟨swap fr, abs (dst.y - fr.y) - abs (dst.x - fr.x)⟩ := by
    simp only [swapVars]; congr 1; omega
  rw [e] at this
  show (loop (abs (dst.y - fr.y)) (abs (dst.x - fr.x)) (if fr.y ≥ dst.y then -1 else 1)
    (if fr.x ≥ dst.x then -1 else 1) (swap dst) n
    ⟨swap fr, abs (dst.y - fr.y) - abs (dst.x - fr.x)⟩).map _ = _
  rw [this]
  cases loop (abs (dst.x - fr.x)) (abs (dst.y - fr.y)) (if fr.x ≥ dst.x then -1 else 1)
    (if fr.y ≥ dst.y then -1 else 1) dst n ⟨fr, abs (dst.x - fr.x) - abs (dst.y - fr.y)⟩ <;> rfl

theorem _root_.Anansi.Spec.IsLine.swap {fr dst : Pt} {ps : List Pt} (h : Spec.IsLine fr dst ps) :
    Spec.IsLine (swap fr) (swap dst) (ps.map swap) where
  first := by rw [List.head?_map, h.first]; rfl
  last := by rw [List.getLast?_map, h.last]; rfl
  length := by rw [List.length_map, h.length, Nat.max_comm]; rfl
  joined := by
    intro i p q hp hq
    rw [List.getElem?_map] at hp hq
    cases hp' : ps[i]? with
    | none => rw [hp'] at hp; cases hp
    | some p' =>
      cases hq' : ps[i + 1]? with
      | none => rw [hq'] at hq; cases hq
      | some q' =>
        rw [hp'] at hp; rw [hq'] at hq
        cases hp; cases hq
        have := h.joined i p' q' hp' hq'
        rw [Nat.max_comm]; exact this
  straight := by
    intro p hp
    obtain ⟨q, hq, rfl⟩ := List.mem_map.1 hp
    have := h.straight q hq
    rw [Nat.max_comm]
    have e : ((Line.swap q).y - (Line.swap fr).y) * ((Line.swap dst).x - (Line.swap fr).x) -
        ((Line.swap q).x - (Line.swap fr).x) * ((Line.swap dst).y - (Line.swap fr).y) =
        -((q.y - fr.y) * (dst.x - fr.x) - (q.x - fr.x) * (dst.y - fr.y)) := by
      simp only [Line.swap]; ring
    rw [e, Int.natAbs_neg]
    exact this

/-- Where the line is after `a` steps along and `b` across: within half a step. -/
def Near (dx dy a b : Int) : Prop := -dx ≤ 2 * (b * dx - a * dy) ∧ 2 * (b * dx - a * dy) < dx

theorem near_step {dx dy a b : Int} (h0 : 0 ≤ dy) (h : dy ≤ dx) (hn : Near dx dy a b) (hp : 0 < dx)
    (fx fy sx sy : Int) :
    ∃ b', Near dx dy (a + 1) b' ∧
      round dx dy sx sy ⟨⟨fx + sx * a, fy + sy * b⟩, b * dx - a * dy + dx - dy⟩ =
        ⟨⟨fx + sx * (a + 1), fy + sy * b'⟩, b' * dx - (a + 1) * dy + dx - dy⟩ := by
  obtain ⟨l, u⟩ := hn
  have h1 : (b * dx - a * dy + dx - dy) * 2 > -dy := by
    rcases Int.lt_or_eq_of_le h with h | rfl
    · omega
    · have e : b * dy - a * dy = (b - a) * dy := by ring
      rw [e] at l u ⊢
      have : b - a = 0 := by
        rcases Int.lt_trichotomy (b - a) 0 with h | h | h
        · nlinarith
        · exact h
        · nlinarith
      rw [this]; omega
  by_cases h2 : (b * dx - a * dy + dx - dy) * 2 < dx
  · refine ⟨b + 1, ?_, ?_⟩
    · have e : (b + 1) * dx - (a + 1) * dy = b * dx - a * dy + dx - dy := by ring
      unfold Near; rw [e]; omega
    · simp only [round]
      rw [if_pos h1, if_pos h2]
      simp only [LoopVars.mk.injEq, Pt.mk.injEq]
      refine ⟨⟨by ring, by ring⟩, by ring⟩
  · refine ⟨b, ?_, ?_⟩
    · have e : b * dx - (a + 1) * dy = b * dx - a * dy - dy := by ring
      unfold Near; rw [e]; omega
    · simp only [round]
      rw [if_pos h1, if_neg h2]
      simp only [LoopVars.mk.injEq, Pt.mk.injEq]
      refine ⟨⟨by ring, trivial⟩, by ring⟩

theorem near_end {dx dy b : Int} (hn : Near dx dy dx b) : b = dy := by
  obtain ⟨l, u⟩ := hn
  have e : b * dx - dx * dy = (b - dy) * dx := by ring
  rw [e] at l u
  have hp : 0 < dx := by omega
  rcases Int.lt_trichotomy (b - dy) 0 with h | h | h
  · nlinarith
  · omega
  · nlinarith

theorem loop_near {dx dy : Int} (h0 : 0 ≤ dy) (h : dy ≤ dx) (hp : 0 < dx)
    (fx fy : Int) {sx : Int} (sy : Int) (hs : sx ≠ 0) (n : Nat) :
    ∀ (fuel : Nat) (a b : Int), n ≤ fuel → a + n = dx → Near dx dy a b →
      ∃ bs : List Int, bs.length = n ∧
        loop dx dy sx sy ⟨fx + sx * dx, fy + sy * dy⟩ fuel
          ⟨⟨fx + sx * a, fy + sy * b⟩, b * dx - a * dy + dx - dy⟩ =
          some (bs.mapIdx fun i c => ⟨fx + sx * (a + 1 + i), fy + sy * c⟩) ∧
        ∀ (i : Nat) (c : Int), bs[i]? = some c → Near dx dy (a + 1 + i) c := by
  induction n with
  | zero =>
    intro fuel a b _ ha hn
    have ha' : a = dx := by omega
    rw [ha'] at hn ⊢
    have := near_end hn
    rw [this]
    refine ⟨[], rfl, ?_, by simp⟩
    cases fuel <;> simp [loop]
  | succ n ih =>
    intro fuel a b hf ha hn
    obtain ⟨fuel, rfl⟩ : ∃ m, fuel = m + 1 := ⟨fuel - 1, by omega⟩
    obtain ⟨b', hn', hr⟩ := near_step h0 h hn hp fx fy sx sy
    obtain ⟨bs, hl, he, hi⟩ := ih fuel (a + 1) b' (by omega) (by omega) hn'
    refine ⟨b' :: bs, by simp [hl], ?_, ?_⟩
    · have hne : ¬ (⟨fx + sx * a, fy + sy * b⟩ : Pt) = ⟨fx + sx * dx, fy + sy * dy⟩ := by
        intro e
        have e := (Pt.mk.inj e).1
        have : sx * a = sx * dx := by omega
        have := Int.eq_of_mul_eq_mul_left hs this
        omega
      simp only [loop]
      rw [if_neg hne, hr, he]
      simp only [Option.map_some, List.mapIdx_cons]
      congr 2
      · simp
      · congr 1
        funext i c
        have : a + 1 + ((i : Int) + 1) = a + 1 + 1 + i := by ring
        simp [this]
    · intro i c hc
      cases i with
      | zero => simp at hc; subst hc; simpa using hn'
      | succ i =>
        have := hi i c (by simpa using hc)
        have e : a + 1 + ((i + 1 : Nat) : Int) = a + 1 + 1 + i := by push_cast; ring
        rw [e]; exact this

theorem near_next {dx dy a b c : Int} (h0 : 0 ≤ dy) (h : dy ≤ dx) (hn : Near dx dy a b)
    (hm : Near dx dy (a + 1) c) : c = b ∨ c = b + 1 := by
  obtain ⟨l, u⟩ := hn
  obtain ⟨l', u'⟩ := hm
  have hp : 0 < dx := by omega
  have e : c * dx - (a + 1) * dy = (b * dx - a * dy) + (c - b) * dx - dy := by ring
  rw [e] at l' u'
  have h1 : -dx < (c - b) * dx := by omega
  have h2 : (c - b) * dx < 2 * dx := by omega
  have h3 : -1 < c - b := by
    by_contra hc
    nlinarith
  have h4 : c - b < 2 := by
    by_contra hc
    nlinarith
  omega

theorem abs_eq (n : Int) : abs n = n.natAbs := by unfold abs; split <;> omega

theorem points_major {fr dst : Pt} {n : Nat} (h : (dst.y - fr.y).natAbs ≤ (dst.x - fr.x).natAbs)
    (hf : (dst.x - fr.x).natAbs ≤ n) :
    ∃ ps, points n fr dst = some ps ∧ Spec.IsLine fr dst ps := by
  rcases Nat.eq_zero_or_pos (dst.x - fr.x).natAbs with hz | hpos
  · have : fr = dst := by
      obtain ⟨x, y⟩ := fr; obtain ⟨x', y'⟩ := dst
      simp only [Pt.mk.injEq] at *; omega
    subst this
    refine ⟨[fr], by cases n <;> simp [points, loop], rfl, rfl, by simp, ?_, ?_⟩
    · intro i p q _ hq; simp at hq
    · intro p hp; simp at hp; subst hp; simp
  · obtain ⟨fx, fy⟩ := fr
    obtain ⟨tx, ty⟩ := dst
    simp only at h hf hpos
    simp only [points, abs_eq]
    generalize hdx : ((tx - fx).natAbs : Int) = dx
    generalize hdy : ((ty - fy).natAbs : Int) = dy
    generalize hsx : (if fx ≥ tx then (-1 : Int) else 1) = sx
    generalize hsy : (if fy ≥ ty then (-1 : Int) else 1) = sy
    have hs1 : sx = 1 ∨ sx = -1 := by rw [← hsx]; split <;> simp
    have hs2 : sy = 1 ∨ sy = -1 := by rw [← hsy]; split <;> simp
    have htx : tx = fx + sx * dx := by rw [← hsx, ← hdx]; split <;> omega
    have hty : ty = fy + sy * dy := by rw [← hsy, ← hdy]; split <;> omega
    have hk : max (tx - fx).natAbs (ty - fy).natAbs = dx.toNat := by omega
    obtain ⟨bs, hl, he, hi⟩ := loop_near (dx := dx) (dy := dy) (by omega) (by omega) (by omega) fx fy
      sy (show sx ≠ 0 by omega) dx.toNat n 0 0 (by omega) (by omega) (by unfold Near; omega)
    simp only [Int.mul_zero, Int.add_zero, Int.zero_mul, Int.sub_self, Int.zero_add, ← htx, ← hty] at he hi
    rw [he]
    refine ⟨_, rfl, ?_⟩
    have near : ∀ (i : Nat) (c : Int), (0 :: bs)[i]? = some c → Near dx dy i c := by
      intro i c hc
      cases i with
      | zero => simp at hc; subst hc; unfold Near; simp; omega
      | succ i =>
        have := hi i c (by simpa using hc)
        have e : ((i + 1 : Nat) : Int) = 1 + i := by push_cast; ring
        rw [e]; exact this
    have hps : ((⟨fx, fy⟩ : Pt) :: bs.mapIdx fun i c => ⟨fx + sx * (1 + i), fy + sy * c⟩) =
        (0 :: bs).mapIdx fun i c => ⟨fx + sx * i, fy + sy * c⟩ := by
      rw [List.mapIdx_cons]
      congr 1
      · simp
      · congr 1; funext i c
        have e : ((i + 1 : Nat) : Int) = 1 + i := by push_cast; ring
        rw [e]
    show Spec.IsLine _ _ ((⟨fx, fy⟩ : Pt) :: bs.mapIdx fun i c => ⟨fx + sx * (1 + i), fy + sy * c⟩)
    rw [hps]
    have get : ∀ (i : Nat) (p : Pt),
        ((0 :: bs).mapIdx fun i c => (⟨fx + sx * i, fy + sy * c⟩ : Pt))[i]? = some p →
        ∃ c, (0 :: bs)[i]? = some c ∧ p = ⟨fx + sx * i, fy + sy * c⟩ := by
      intro i p hp
      rw [List.getElem?_mapIdx] at hp
      cases hc : (0 :: bs)[i]? with
      | none => rw [hc] at hp; cases hp
      | some c => rw [hc] at hp; exact ⟨c, rfl, (Option.some.inj hp).symm⟩
    refine ⟨by simp, ?_, ?_, ?_, ?_⟩
    · rw [List.getLast?_eq_getElem?, List.length_mapIdx, List.length_cons, hl, Nat.add_sub_cancel,
        List.getElem?_mapIdx]
      have hlt : dx.toNat < (0 :: bs).length := by simp [hl]
      rw [List.getElem?_eq_getElem hlt]
      have hn := near _ _ (List.getElem?_eq_getElem hlt)
      have hd : (dx.toNat : Int) = dx := by omega
      rw [hd] at hn
      simp only [Option.map_some, Option.some.injEq, Pt.mk.injEq]
      rw [near_end hn, hd]
      exact ⟨htx.symm, hty.symm⟩
    · simp only; rw [hk]; simp [hl]
    · intro i p q hp hq
      obtain ⟨c, hc, rfl⟩ := get _ _ hp
      obtain ⟨d, hd, rfl⟩ := get _ _ hq
      have h1 := near _ _ hc
      have h2 := near _ _ hd
      push_cast at h2
      have h3 := near_next (by omega) (by omega) h1 h2
      simp only
      have e1 : fx + sx * ((i + 1 : Nat) : Int) - (fx + sx * i) = sx := by push_cast; ring
      have e2 : fy + sy * d - (fy + sy * c) = sy * (d - c) := by ring
      rw [e1, e2]
      rcases h3 with rfl | rfl <;> rcases hs1 with rfl | rfl <;> rcases hs2 with rfl | rfl <;> omega
    · intro p hp
      obtain ⟨i, hp⟩ := List.mem_iff_getElem?.1 hp
      obtain ⟨c, hc, rfl⟩ := get _ _ hp
      have hn := near _ _ hc
      simp only
      rw [hk]
      have e : (fy + sy * c - fy) * (tx - fx) - (fx + sx * i - fx) * (ty - fy) =
          sx * sy * (c * dx - i * dy) := by
        rw [htx, hty]; ring
      rw [e]
      obtain ⟨l, u⟩ := hn
      rcases hs1 with rfl | rfl <;> rcases hs2 with rfl | rfl <;> omega

/-- **C77** Drawing a line always ends, within as many rounds as the line is long, having
set the points of a straight joined line between the two points, ends included. -/
theorem points_line (fr dst : Pt) {n : Nat}
    (hf : max (dst.x - fr.x).natAbs (dst.y - fr.y).natAbs ≤ n) :
    ∃ ps, points n fr dst = some ps ∧ Spec.IsLine fr dst ps := by
  rcases Nat.le_total (dst.y - fr.y).natAbs (dst.x - fr.x).natAbs with h | h
  · exact points_major h (by omega)
  · obtain ⟨ps, h1, h2⟩ := points_major (fr := swap fr) (dst := swap dst) (n := n) h
      (show (dst.y - fr.y).natAbs ≤ n by omega)
    refine ⟨ps.map swap, ?_, h2.swap⟩
    have := points_swap n (swap fr) (swap dst)
    rw [swap_swap, swap_swap, h1] at this
    exact this

example : points 3 ⟨1, 1⟩ ⟨4, 2⟩ = some [⟨1, 1⟩, ⟨2, 1⟩, ⟨3, 2⟩, ⟨4, 2⟩] := by decide
example : points 2 ⟨1, 1⟩ ⟨4, 2⟩ = none := by decide
example : points 4 ⟨0, 0⟩ ⟨-2, -4⟩ = some [⟨0, 0⟩, ⟨0, -1⟩, ⟨-1, -2⟩, ⟨-1, -3⟩, ⟨-2, -4⟩] := by decide

theorem setAll_get (val : Bool) (ps : List Pt) : ∀ {b : Bitmap}, Bitmap.Made b →
    ∃ bits, setAll val ps b = some { b with bit := bits } ∧ bits.length = b.bit.length ∧
      ∀ q, ({ b with bit := bits } : Bitmap).get q =
        if q ∈ ps ∧ Geom.Mem q b.rect then some val else b.get q := by
  induction ps with
  | nil => intro b _; exact ⟨b.bit, rfl, rfl, by simp⟩
  | cons p ps ih =>
    intro b m
    obtain ⟨bits, h1, h2, h3, h4⟩ := Bitmap.set_get m p val
    obtain ⟨bits', g1, g2, g3⟩ := ih (m.write bits h2)
    refine ⟨bits', ?_, g2.trans h2, ?_⟩
    · simp only [setAll, h1]; exact g1
    · intro q
      rw [g3 q]
      by_cases hm : Geom.Mem q b.rect
      · by_cases hq : q ∈ ps
        · rw [if_pos ⟨hq, hm⟩, if_pos ⟨List.mem_cons_of_mem _ hq, hm⟩]
        · rw [if_neg (fun h => hq h.1)]
          by_cases e : q = p
          · subst e; rw [if_pos ⟨List.mem_cons_self, hm⟩]; exact h3 hm
          · rw [if_neg (fun h => (List.mem_cons.1 h.1).elim e hq)]
            exact h4 q (Or.inl e)
      · rw [if_neg (fun h => hm h.2), if_neg (fun h => hm h.2)]
        by_cases e : q = p
        · subst e; exact h4 q (Or.inr hm)
        · exact h4 q (Or.inl e)

/-- **C77** Drawing a line on a canvas never panics, and sets the points of the line that
are on the canvas, and nothing else. -/
theorem drawLine_sets {b : Bitmap} (m : Bitmap.Made b) (fr dst : Pt) (val : Bool) {n : Nat}
    (hf : max (dst.x - fr.x).natAbs (dst.y - fr.y).natAbs ≤ n) :
    ∃ ps bits, Spec.IsLine fr dst ps ∧
      drawLine n b fr dst val = some { b with bit := bits } ∧ bits.length = b.bit.length ∧
      ∀ q, ({ b with bit := bits } : Bitmap).get q =
        if q ∈ ps ∧ Geom.Mem q b.rect then some val else b.get q := by
  obtain ⟨ps, h1, h2⟩ := points_line fr dst hf
  obtain ⟨bits, g⟩ := setAll_get val ps m
  exact ⟨ps, bits, h2, by simp only [drawLine, h1]; exact g.1, g.2⟩

example : drawLine 3 (Bitmap.resize 4 2) ⟨0, 0⟩ ⟨3, 1⟩ true =
    some { Bitmap.resize 4 2 with bit := [true, true, false, false, false, false, true, true] } := by
  decide

/-- The length of a line's points in one direction. -/
theorem _root_.Anansi.Spec.IsLine.steps {fr dst : Pt} {ps : List Pt} (h : Spec.IsLine fr dst ps)
    (i k : Nat) (p q : Pt) (hp : ps[i]? = some p) (hq : ps[i + k]? = some q) :
    (q.x - p.x).natAbs ≤ k ∧ (q.y - p.y).natAbs ≤ k := by
  induction k generalizing q with
  | zero => rw [Nat.add_zero, hp] at hq; cases hq; omega
  | succ k ih =>
    have hlt : i + k < ps.length := by
      have := (List.getElem?_eq_some_iff.1 hq).1; omega
    have h1 := ih _ (List.getElem?_eq_getElem hlt)
    have h2 := h.joined (i + k) _ _ (List.getElem?_eq_getElem hlt) hq
    omega

/-- **C77** A line stays in the box spanned by its ends along its longer axis: the points
are met in order, one for each coordinate. -/
theorem line_order {fr dst : Pt} {ps : List Pt} (h : Spec.IsLine fr dst ps) (i : Nat) (p : Pt)
    (hp : ps[i]? = some p) (hx : (dst.y - fr.y).natAbs ≤ (dst.x - fr.x).natAbs) :
    (p.x - fr.x).natAbs = i ∧ (dst.x - p.x).natAbs = (dst.x - fr.x).natAbs - i := by
  have hi := (List.getElem?_eq_some_iff.1 hp).1
  have hl := h.length
  have h0 : ps[0]? = some fr := by rw [← List.head?_eq_getElem?]; exact h.first
  have h1 : ps[i + (ps.length - 1 - i)]? = some dst := by
    have : i + (ps.length - 1 - i) = ps.length - 1 := by omega
    rw [this, ← List.getLast?_eq_getElem?]; exact h.last
  have a := h.steps 0 i fr p h0 (by simpa using hp)
  have b := h.steps i _ p dst hp h1
  omega

end Line
end Anansi
