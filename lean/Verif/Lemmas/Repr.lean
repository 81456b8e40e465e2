import Verif.Lemmas.Num
import Verif.Model.EscName
/-
Numbers and texts in decimal notation, and texts put together from words.
-/
set_option autoImplicit false

namespace Anansi

/-- The decimal notation of a number is the usual one. -/
theorem itoaNat_repr (n : Nat) : (itoaNat n).map UInt8.toNat = n.repr.toList.map Char.toNat := by
  rw [Nat.toList_repr]
  have hd : ∀ n, n < 10 → [digitByte n].map UInt8.toNat = [n.digitChar].map Char.toNat := by decide
  induction n using Nat.strongRecOn with
  | _ n ih =>
    rw [itoaNat]
    split
    · rename_i h
      rw [Nat.toDigits_of_lt_base h]; exact hd n h
    · rename_i h
      rw [Nat.toDigits_of_base_le (by omega) (by omega), List.map_append, List.map_append, ih _ (by omega), hd _ (by omega)]

theorem ascii_append (a b : String) : ascii (a ++ b) = ascii a ++ ascii b := by simp [ascii]

theorem ascii_repr (n : Nat) : ascii n.repr = itoaNat n := by
  have h := congrArg (List.map UInt8.ofNat) (itoaNat_repr n)
  rw [List.map_map, List.map_map] at h
  have e : (UInt8.ofNat ∘ UInt8.toNat) = id := by funext x; simp
  rw [e, List.map_id] at h
  rw [h]; rfl

theorem itoaNat_inj : ∀ {a b : Nat}, itoaNat a = itoaNat b → a = b := by
  have hd : ∀ x y, x < 10 → y < 10 → digitByte x = digitByte y → x = y := by
    intro x y hx hy h
    have := congrArg UInt8.toNat h
    rw [digitByte_toNat hx, digitByte_toNat hy] at this; omega
  intro a
  induction a using Nat.strongRecOn with
  | _ a ih =>
    intro b h
    have ha := itoaNat_ne_nil (a / 10)
    have hb := itoaNat_ne_nil (b / 10)
    rw [itoaNat, itoaNat.eq_def b] at h
    split at h
    · split at h
      · exact hd a b (by assumption) (by assumption) (by simpa using h)
      · have := congrArg List.length h
        simp at this; exact absurd this hb
    · split at h
      · have := congrArg List.length h
        simp at this; exact absurd this ha
      · obtain ⟨h1, h2⟩ := List.append_inj' h rfl
        have e1 := ih (a / 10) (by omega) h1
        have e2 := hd (a % 10) (b % 10) (by omega) (by omega) (by simpa using h2)
        omega

/-- Words with a separator between them. -/
def sepBy (s : UInt8) : List Bytes → Bytes
  | [] => []
  | [x] => x
  | x :: t => x ++ s :: sepBy s t

theorem split_inj {s : UInt8} {x y a b : Bytes} (hx : s ∉ x) (hy : s ∉ y) (h : x ++ s :: a = y ++ s :: b) :
    x = y ∧ a = b := by
  induction x generalizing y with
  | nil =>
    cases y with
    | nil => simpa using h
    | cons c y => simp at h; exact absurd (by simp [h.1]) hy
  | cons c x ih =>
    cases y with
    | nil => simp at h; exact absurd (by simp [h.1]) hx
    | cons d y =>
      simp only [List.cons_append, List.cons.injEq] at h
      obtain ⟨h1, h2⟩ := ih (fun hh => hx (List.mem_cons_of_mem _ hh)) (fun hh => hy (List.mem_cons_of_mem _ hh)) h.2
      exact ⟨by rw [h.1, h1], h2⟩

/-- Texts put together from words without the separator are read back. -/
theorem sepBy_inj (s : UInt8) : ∀ xs ys : List Bytes, (∀ x ∈ xs, x ≠ [] ∧ s ∉ x) → (∀ y ∈ ys, y ≠ [] ∧ s ∉ y) →
    sepBy s xs = sepBy s ys → xs = ys := by
  intro xs
  induction xs with
  | nil =>
    intro ys _ hy h
    match ys with
    | [] => rfl
    | [y] => exact absurd h.symm (hy y (by simp)).1
    | y :: z :: t => simp [sepBy] at h
  | cons x t ih =>
    intro ys hx hy h
    have hxs := hx x (by simp)
    match t, ys with
    | [], [] => exact absurd h hxs.1
    | u :: t, [] => simp [sepBy] at h
    | [], [y] => simpa [sepBy] using h
    | [], y :: z :: w =>
      simp only [sepBy] at h
      exact absurd (by rw [h]; simp) hxs.2
    | u :: t, [y] =>
      simp only [sepBy] at h
      exact absurd (by rw [← h]; simp) (hy y (by simp)).2
    | u :: t, y :: z :: w =>
      simp only [sepBy] at h
      obtain ⟨h1, h2⟩ := split_inj hxs.2 (hy y (by simp)).2 h
      rw [h1, ih (z :: w) (fun a ha => hx a (List.mem_cons_of_mem _ ha)) (fun a ha => hy a (List.mem_cons_of_mem _ ha)) h2]

end Anansi
