import Mathlib.Tactic.Linarith
import Mathlib.Tactic.NormNum
import Mathlib.Tactic.Push
import Mathlib.Tactic.FieldSimp
import Verif.Spec.Edit
import Verif.Model.Distance
/-! The table computes the least script cost; scripts form a metric. -/
namespace Distance
open Py Spec
variable {α : Type} [DecidableEq α]

/-- textbook recursion (on reversed prefixes) -/
def rec (cost : α → α → Rat) : List α → List α → Rat
  | [], b => (b.length : Rat)
  | a, [] => (a.length : Rat)
  | x :: a, y :: b => min (min (rec cost a (y :: b) + 1) (rec cost (x :: a) b + 1)) (rec cost a b + cost x y)
  termination_by a b => a.length + b.length

omit [DecidableEq α] in
theorem rec_nil_left (cost : α → α → Rat) (b : List α) : rec cost [] b = (b.length : Rat) := by
  unfold rec; rfl
omit [DecidableEq α] in
theorem rec_nil_right (cost : α → α → Rat) (a : List α) : rec cost a [] = (a.length : Rat) := by
  cases a <;> unfold rec <;> rfl
omit [DecidableEq α] in
theorem rec_cons (cost : α → α → Rat) (x y : α) (a b : List α) :
    rec cost (x :: a) (y :: b) =
      min (min (rec cost a (y :: b) + 1) (rec cost (x :: a) b + 1)) (rec cost a b + cost x y) := by
  conv_lhs => unfold rec

/-- the row of `rec` values for the reversed prefix `a` of s1 against all prefixes of s2 -/
def rowSpec (cost : α → α → Rat) (a : List α) : List α → List α → List Rat
  | acc, [] => [rec cost a acc]
  | acc, y :: ys => rec cost a acc :: rowSpec cost a (y :: acc) ys

omit [DecidableEq α] in
theorem rowSpec_eq (cost : α → α → Rat) (a acc rest : List α) :
    ∃ t, rowSpec cost a acc rest = rec cost a acc :: t := by
  cases rest <;> simp [rowSpec]

omit [DecidableEq α] in
theorem innerRow_spec (cost : α → α → Rat) (c1 : α) (a acc rest : List α) :
    rec cost (c1 :: a) acc :: innerRow cost c1 (rowSpec cost a acc rest) (rec cost (c1 :: a) acc) rest
      = rowSpec cost (c1 :: a) acc rest := by
  induction rest generalizing acc with
  | nil => simp [rowSpec, innerRow]
  | cons y ys ih =>
    obtain ⟨t, ht⟩ := rowSpec_eq cost a (y :: acc) ys
    simp only [rowSpec]
    rw [ht]
    simp only [innerRow]
    rw [← rec_cons, ← ht, ih]

omit [DecidableEq α] in
theorem outerRows_spec (cost : α → α → Rat) (s2 s1 a : List α) :
    outerRows cost s2 a.length (rowSpec cost a [] s2) s1 = rowSpec cost (s1.reverse ++ a) [] s2 := by
  induction s1 generalizing a with
  | nil => simp [outerRows]
  | cons c1 s1 ih =>
    simp only [outerRows]
    have h : ((a.length : Rat) + 1) = rec cost (c1 :: a) [] := by
      rw [rec_nil_right]; simp
    rw [h, innerRow_spec]
    have := ih (c1 :: a)
    simp only [List.length_cons] at this
    rw [this]; simp

omit [DecidableEq α] in
theorem rowSpec_nil (cost : α → α → Rat) (acc s2 : List α) :
    rowSpec cost [] acc s2 = ((List.range' acc.length (s2.length + 1)).map (fun n : Nat => (n : Rat))) := by
  induction s2 generalizing acc with
  | nil => simp [rowSpec, rec_nil_left]
  | cons y ys ih =>
    simp only [rowSpec, ih, rec_nil_left]
    rfl

omit [DecidableEq α] in
theorem getLastD_rowSpec (cost : α → α → Rat) (a acc s2 : List α) :
    (rowSpec cost a acc s2).getLastD 0 = rec cost a (s2.reverse ++ acc) := by
  induction s2 generalizing acc with
  | nil => simp [rowSpec]
  | cons y ys ih =>
    have h := ih (y :: acc)
    obtain ⟨t, ht⟩ := rowSpec_eq cost a (y :: acc) ys
    simp only [rowSpec]
    rw [ht] at h ⊢
    simp at h ⊢
    exact h

omit [DecidableEq α] in
theorem tableDistance_eq_rec (cost : α → α → Rat) (s1 s2 : List α) :
    tableDistance cost s1 s2 = rec cost s1.reverse s2.reverse := by
  unfold tableDistance
  split
  · rename_i h
    have : s2 = [] := List.length_eq_zero_iff.1 h
    subst this; simp [rec_nil_right]
  · have h := outerRows_spec cost s2 s1 []
    rw [rowSpec_nil] at h
    simp only [List.length_nil] at h
    rw [List.range_eq_range', h, getLastD_rowSpec]
    simp

/-! ### scripts -/

omit [DecidableEq α] in
theorem script_append {sub : α → α → Rat} {a b a' b' : List α} {w w' : Rat}
    (h : Script sub a b w) (h' : Script sub a' b' w') : Script sub (a ++ a') (b ++ b') (w + w') := by
  induction h with
  | done => simpa using h'
  | insert y _ ih => have := Script.insert y ih; simpa [add_right_comm] using this
  | delete x _ ih => have := Script.delete x ih; simpa [add_right_comm] using this
  | keep x _ ih => exact Script.keep x ih
  | subst x y hne _ ih => have := Script.subst x y hne ih; simpa [add_right_comm] using this

omit [DecidableEq α] in
theorem script_reverse {sub : α → α → Rat} {a b : List α} {w : Rat} (h : Script sub a b w) :
    Script sub a.reverse b.reverse w := by
  induction h with
  | done => exact Script.done
  | insert y _ ih =>
    have := script_append ih (Script.insert y Script.done); simpa using this
  | delete x _ ih =>
    have := script_append ih (Script.delete x Script.done); simpa using this
  | keep x _ ih =>
    have := script_append ih (Script.keep x Script.done); simpa using this
  | subst x y hne _ ih =>
    have := script_append ih (Script.subst x y hne Script.done); simpa using this

omit [DecidableEq α] in
theorem script_nil_left {sub : α → α → Rat} (b : List α) : Script sub [] b (b.length : Rat) := by
  induction b with
  | nil => simpa using Script.done
  | cons y b ih => have := Script.insert y ih; simpa using this

omit [DecidableEq α] in
theorem script_nil_right {sub : α → α → Rat} (a : List α) : Script sub a [] (a.length : Rat) := by
  induction a with
  | nil => simpa using Script.done
  | cons y b ih => have := Script.delete y ih; simpa using this

/-- a cost function with free diagonal -/
abbrev diag (sub : α → α → Rat) (x y : α) : Rat := if x = y then 0 else sub x y

theorem rec_script (sub : α → α → Rat) (a b : List α) : Script sub a b (rec (diag sub) a b) := by
  match a, b with
  | [], b => rw [rec_nil_left]; exact script_nil_left b
  | x :: a, [] => rw [rec_nil_right]; exact script_nil_right _
  | x :: a, y :: b =>
    rw [rec_cons]
    have h1 := Script.delete x (rec_script sub a (y :: b))
    have h2 := Script.insert y (rec_script sub (x :: a) b)
    have h3 : Script sub (x :: a) (y :: b) (rec (diag sub) a b + diag sub x y) := by
      by_cases h : x = y
      · subst h; simp only [diag, if_true, add_zero]; exact Script.keep x (rec_script sub a b)
      · simp only [diag, if_neg h]; exact Script.subst x y h (rec_script sub a b)
    rcases min_choice (min (rec (diag sub) a (y :: b) + 1) (rec (diag sub) (x :: a) b + 1))
        (rec (diag sub) a b + diag sub x y) with h | h
    · rw [h]
      rcases min_choice (rec (diag sub) a (y :: b) + 1) (rec (diag sub) (x :: a) b + 1) with h | h
      · rw [h]; exact h1
      · rw [h]; exact h2
    · rw [h]; exact h3
  termination_by a.length + b.length

theorem rec_least (sub : α → α → Rat) {a b : List α} {w : Rat} (h : Script sub a b w) :
    rec (diag sub) a b ≤ w := by
  have del : ∀ x (a b : List α), rec (diag sub) (x :: a) b ≤ rec (diag sub) a b + 1 := by
    intro x a b
    cases b with
    | nil => rw [rec_nil_right, rec_nil_right]; simp
    | cons y b => rw [rec_cons]; exact le_trans (min_le_left _ _) (min_le_left _ _)
  have ins : ∀ y (a b : List α), rec (diag sub) a (y :: b) ≤ rec (diag sub) a b + 1 := by
    intro x a b
    cases a with
    | nil => rw [rec_nil_left, rec_nil_left]; simp
    | cons y b => rw [rec_cons]; exact le_trans (min_le_left _ _) (min_le_right _ _)
  induction h with
  | done => simp [rec_nil_left]
  | @insert y a b w _ ih => have := ins y a b; linarith
  | @delete x a b w _ ih => have := del x a b; linarith
  | @keep x a b w _ ih =>
    rw [rec_cons]; refine le_trans (min_le_right _ _) ?_; simp [diag]; exact ih
  | @subst x y a b w hne _ ih =>
    rw [rec_cons]; refine le_trans (min_le_right _ _) ?_; simp only [diag, if_neg hne]; linarith

/-- the table's last cell is the least script cost -/
theorem tableDistance_least (sub : α → α → Rat) (s1 s2 : List α) :
    IsLeastCost sub s1 s2 (tableDistance (diag sub) s1 s2) := by
  rw [tableDistance_eq_rec]
  constructor
  · have := script_reverse (rec_script sub s1.reverse s2.reverse); simpa using this
  · intro w h; exact rec_least sub (script_reverse h)

omit [DecidableEq α] in
theorem least_unique {sub : α → α → Rat} {a b : List α} {d d' : Rat}
    (h : IsLeastCost sub a b d) (h' : IsLeastCost sub a b d') : d = d' :=
  le_antisymm (h.2 _ h'.1) (h'.2 _ h.1)

omit [DecidableEq α] in
theorem script_swap {sub : α → α → Rat} (hs : ∀ x y, sub x y = sub y x) {a b : List α} {w : Rat}
    (h : Script sub a b w) : Script sub b a w := by
  induction h with
  | done => exact Script.done
  | insert y _ ih => exact Script.delete y ih
  | delete x _ ih => exact Script.insert x ih
  | keep x _ ih => exact Script.keep x ih
  | subst x y hne _ ih => rw [hs]; exact Script.subst y x (Ne.symm hne) ih

omit [DecidableEq α] in
theorem least_swap {sub : α → α → Rat} (hs : ∀ x y, sub x y = sub y x) {a b : List α} {d : Rat}
    (h : IsLeastCost sub a b d) : IsLeastCost sub b a d :=
  ⟨script_swap hs h.1, fun w hw => h.2 w (script_swap hs hw)⟩

omit [DecidableEq α] in
theorem script_self (sub : α → α → Rat) (a : List α) : Script sub a a 0 := by
  induction a with
  | nil => exact Script.done
  | cons x a ih => exact Script.keep x ih

omit [DecidableEq α] in
theorem script_nonneg {sub : α → α → Rat} (hp : ∀ x y, x ≠ y → 0 ≤ sub x y) {a b : List α} {w : Rat}
    (h : Script sub a b w) : 0 ≤ w := by
  induction h with
  | done => exact le_refl _
  | insert y _ ih => linarith
  | delete x _ ih => linarith
  | keep x _ ih => exact ih
  | subst x y hne _ ih => have := hp x y hne; linarith

omit [DecidableEq α] in
theorem script_zero {sub : α → α → Rat} (hp : ∀ x y, x ≠ y → 0 < sub x y) {a b : List α} {w : Rat}
    (h : Script sub a b w) (hw : w = 0) : a = b := by
  have hp' : ∀ x y, x ≠ y → 0 ≤ sub x y := fun x y h => le_of_lt (hp x y h)
  induction h with
  | done => rfl
  | insert y h _ => have := script_nonneg hp' h; exfalso; linarith
  | delete x h _ => have := script_nonneg hp' h; exfalso; linarith
  | keep x _ ih => rw [ih hw]
  | subst x y hne h _ => have := script_nonneg hp' h; have := hp x y hne; exfalso; linarith

/-- scripts compose, at no more than the summed cost -/
theorem script_trans {sub : α → α → Rat} (hp : ∀ x y, x ≠ y → 0 ≤ sub x y)
    (ht : ∀ x y z, x ≠ y → y ≠ z → x ≠ z → sub x z ≤ sub x y + sub y z)
    {a b c : List α} {w w' : Rat} (h : Script sub a b w) (h' : Script sub b c w') :
    ∃ v, Script sub a c v ∧ v ≤ w + w' := by
  induction h' generalizing a w with
  | done => exact ⟨w, h, by simp⟩
  | insert z _ ih =>
    obtain ⟨v, hv, hl⟩ := ih h
    exact ⟨v + 1, Script.insert z hv, by linarith⟩
  | @delete y b c w' h' ih =>
    -- `y` is removed from the head of the middle text
    generalize hm : y :: b = m at h
    induction h with
    | done => cases hm
    | @insert y' a b' w h _ =>
      cases hm
      obtain ⟨v, hv, hl⟩ := ih h
      exact ⟨v, hv, by linarith⟩
    | @delete x a b' w h ih2 =>
      obtain ⟨v, hv, hl⟩ := ih2 hm
      exact ⟨v + 1, Script.delete x hv, by linarith⟩
    | @keep x a b' w h _ =>
      cases hm
      obtain ⟨v, hv, hl⟩ := ih h
      exact ⟨v + 1, Script.delete _ hv, by linarith⟩
    | @subst x y' a b' w hne h _ =>
      cases hm
      obtain ⟨v, hv, hl⟩ := ih h
      have := hp _ _ hne
      exact ⟨v + 1, Script.delete _ hv, by linarith⟩
  | @keep y b c w' h' ih =>
    generalize hm : y :: b = m at h
    induction h with
    | done => cases hm
    | @insert y' a b' w h _ =>
      cases hm
      obtain ⟨v, hv, hl⟩ := ih h
      exact ⟨v + 1, Script.insert _ hv, by linarith⟩
    | @delete x a b' w h ih2 =>
      obtain ⟨v, hv, hl⟩ := ih2 hm
      exact ⟨v + 1, Script.delete x hv, by linarith⟩
    | @keep x a b' w h _ =>
      cases hm
      obtain ⟨v, hv, hl⟩ := ih h
      exact ⟨v, Script.keep _ hv, by linarith⟩
    | @subst x y' a b' w hne h _ =>
      cases hm
      obtain ⟨v, hv, hl⟩ := ih h
      exact ⟨_, Script.subst _ _ hne hv, by linarith⟩
  | @subst y z b c w' hyz h' ih =>
    generalize hm : y :: b = m at h
    induction h with
    | done => cases hm
    | @insert y' a b' w h _ =>
      cases hm
      obtain ⟨v, hv, hl⟩ := ih h
      have := hp _ _ hyz
      exact ⟨v + 1, Script.insert _ hv, by linarith⟩
    | @delete x a b' w h ih2 =>
      obtain ⟨v, hv, hl⟩ := ih2 hm
      exact ⟨v + 1, Script.delete x hv, by linarith⟩
    | @keep x a b' w h _ =>
      cases hm
      obtain ⟨v, hv, hl⟩ := ih h
      exact ⟨_, Script.subst _ _ hyz hv, by linarith⟩
    | @subst x y' a b' w hne h _ =>
      cases hm
      obtain ⟨v, hv, hl⟩ := ih h
      by_cases hxz : x = z
      · subst hxz
        have h1 := hp _ _ hne
        have h2 := hp _ _ hyz
        exact ⟨_, Script.keep _ hv, by linarith⟩
      · have := ht _ _ _ hne hyz hxz
        exact ⟨_, Script.subst _ _ hxz hv, by linarith⟩

omit [DecidableEq α] in
/-- cheaper substitutions give cheaper scripts -/
theorem script_mono {sub sub' : α → α → Rat} (hs : ∀ x y, x ≠ y → sub x y ≤ sub' x y) {a b : List α} {w : Rat}
    (h : Script sub' a b w) : ∃ v, Script sub a b v ∧ v ≤ w := by
  induction h with
  | done => exact ⟨0, Script.done, le_refl _⟩
  | insert y _ ih => obtain ⟨v, hv, hl⟩ := ih; exact ⟨v + 1, Script.insert y hv, by linarith⟩
  | delete x _ ih => obtain ⟨v, hv, hl⟩ := ih; exact ⟨v + 1, Script.delete x hv, by linarith⟩
  | keep x _ ih => obtain ⟨v, hv, hl⟩ := ih; exact ⟨v, Script.keep x hv, hl⟩
  | subst x y hne _ ih =>
    obtain ⟨v, hv, hl⟩ := ih
    have := hs x y hne
    exact ⟨_, Script.subst x y hne hv, by linarith⟩

/-! ### unit cost: scripts and chains of single edits -/

/-- every substitution costs 1 -/
abbrev unit : α → α → Rat := fun _ _ => 1

theorem edit_script {a b : List α} (h : Edit a b) : ∃ w, Script unit a b w ∧ w ≤ 1 := by
  cases h with
  | insert u v x =>
    exact ⟨_, script_append (script_self _ u) (Script.insert x (script_self _ v)), by norm_num⟩
  | delete u v x =>
    exact ⟨_, script_append (script_self _ u) (Script.delete x (script_self _ v)), by norm_num⟩
  | replace u v x y =>
    by_cases hxy : x = y
    · subst hxy; exact ⟨0, script_self _ _, by norm_num⟩
    · exact ⟨_, script_append (script_self _ u) (Script.subst x y hxy (script_self _ v)), by norm_num [unit]⟩

theorem edits_script {n : Nat} {a b : List α} (h : Edits n a b) : ∃ w, Script unit a b w ∧ w ≤ (n : Rat) := by
  induction h with
  | refl a => exact ⟨0, script_self _ a, by simp⟩
  | step _ he ih =>
    obtain ⟨w, hw, hl⟩ := ih
    obtain ⟨w', hw', hl'⟩ := edit_script he
    obtain ⟨v, hv, hl''⟩ := script_trans (by intros; simp [unit]) (by intros; norm_num [unit]) hw hw'
    exact ⟨v, hv, by push_cast; linarith⟩

omit [DecidableEq α] in
theorem edit_cons (x : α) {a b : List α} (h : Edit a b) : Edit (x :: a) (x :: b) := by
  cases h with
  | insert u v y => exact Edit.insert (x :: u) v y
  | delete u v y => exact Edit.delete (x :: u) v y
  | replace u v y z => exact Edit.replace (x :: u) v y z

omit [DecidableEq α] in
theorem edits_cons (x : α) {n : Nat} {a b : List α} (h : Edits n a b) : Edits n (x :: a) (x :: b) := by
  induction h with
  | refl a => exact Edits.refl _
  | step _ he ih => exact Edits.step ih (edit_cons x he)

omit [DecidableEq α] in
theorem script_edits {a b : List α} {w : Rat} (h : Script unit a b w) : ∃ n : Nat, w = (n : Rat) ∧ Edits n a b := by
  induction h with
  | done => exact ⟨0, by simp, Edits.refl _⟩
  | insert y _ ih =>
    obtain ⟨n, hn, he⟩ := ih
    exact ⟨n + 1, by push_cast; linarith, Edits.step he (Edit.insert [] _ y)⟩
  | delete x _ ih =>
    obtain ⟨n, hn, he⟩ := ih
    exact ⟨n + 1, by push_cast; linarith, Edits.step (edits_cons x he) (Edit.delete [] _ x)⟩
  | keep x _ ih =>
    obtain ⟨n, hn, he⟩ := ih
    exact ⟨n, hn, edits_cons x he⟩
  | subst x y hne _ ih =>
    obtain ⟨n, hn, he⟩ := ih
    refine ⟨n + 1, by simp only [unit]; push_cast; linarith, Edits.step (edits_cons x he) (Edit.replace [] _ x y)⟩

/-! ### bounds -/

omit [DecidableEq α] in
theorem script_length_le {sub : α → α → Rat} (hp : ∀ x y, x ≠ y → 0 ≤ sub x y) {a b : List α} {w : Rat}
    (h : Script sub a b w) : (a.length : Rat) - b.length ≤ w ∧ (b.length : Rat) - a.length ≤ w := by
  induction h with
  | done => simp
  | insert y _ ih => push_cast [List.length_cons]; constructor <;> linarith [ih.1, ih.2]
  | delete x _ ih => push_cast [List.length_cons]; constructor <;> linarith [ih.1, ih.2]
  | keep x _ ih => push_cast [List.length_cons]; constructor <;> linarith [ih.1, ih.2]
  | subst x y hne _ ih =>
    have := hp x y hne
    push_cast [List.length_cons]; constructor <;> linarith [ih.1, ih.2]

theorem exists_script_le_max {sub : α → α → Rat} (hp : ∀ x y, x ≠ y → sub x y ≤ 1) (a b : List α) :
    ∃ w, Script sub a b w ∧ w ≤ (max a.length b.length : Nat) := by
  match a, b with
  | [], b => exact ⟨_, script_nil_left b, by simp⟩
  | x :: a, [] => exact ⟨_, script_nil_right _, by simp⟩
  | x :: a, y :: b =>
    obtain ⟨w, hw, hl⟩ := exists_script_le_max hp a b
    have he : ((max (x :: a).length (y :: b).length : Nat) : Rat) = ((max a.length b.length : Nat) : Rat) + 1 := by
      have : max (x :: a).length (y :: b).length = max a.length b.length + 1 := by simp
      rw [this]; push_cast; rfl
    by_cases h : x = y
    · subst h; exact ⟨w, Script.keep x hw, by rw [he]; linarith⟩
    · have := hp x y h
      exact ⟨_, Script.subst x y h hw, by rw [he]; linarith⟩

end Distance
