import Verif.Py.Basic
/-! Facts on Python slices with non-negative bounds. -/
namespace Py
variable {α : Type}

theorem length_slice (s : List α) (a b : Nat) : (slice s a b).length = min b s.length - a := by simp [slice]

theorem slice_append (s : List α) {a b c : Nat} (h1 : a ≤ b) (h2 : b ≤ c) : slice s a b ++ slice s b c = slice s a c := by
  unfold slice
  apply List.ext_getElem?
  intro i
  simp only [List.getElem?_append, List.getElem?_drop, List.getElem?_take, List.length_drop, List.length_take]
  by_cases h : i < min b s.length - a
  · rw [if_pos h, if_pos (by omega), if_pos (by omega)]
  · rw [if_neg h]
    by_cases hb : b ≤ s.length
    · rw [show b + (i - (min b s.length - a)) = a + i by omega]
    · have e1 : s[a + i]? = none := List.getElem?_eq_none (by omega)
      have e2 : s[b + (i - (min b s.length - a))]? = none := List.getElem?_eq_none (by omega)
      rw [e1, e2]; simp

theorem slice_self (s : List α) (a : Nat) : slice s a a = [] := by simp [slice]

theorem slice_full (s : List α) : slice s 0 s.length = s := by simp [slice]

theorem slice_to_end (s : List α) (a : Nat) : slice s a s.length = s.drop a := by simp [slice]

theorem slice_zero (s : List α) (b : Nat) : slice s 0 b = s.take b := by simp [slice]

theorem slice_eq_nil {s : List α} {a b : Nat} (hb : b ≤ s.length) : slice s a b = [] ↔ b ≤ a := by
  rw [← List.length_eq_zero_iff, length_slice]; omega

end Py
