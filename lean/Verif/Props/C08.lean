import Mathlib.Algebra.BigOperators.Group.Finset.Basic
import Mathlib.Algebra.Order.BigOperators.Ring.Finset
import Mathlib.Tactic.Linarith
import Mathlib.Tactic.Positivity
import Mathlib.Tactic.Ring
import Mathlib.Tactic.FieldSimp
import Mathlib.Algebra.Order.Field.Basic
import Verif.Model.Distance
/-! C08: jaccard and cosine distances. -/
namespace Props
open Py Distance
variable {α : Type} [DecidableEq α]

/-! ### Jaccard -/

/-- C08 (a): empty input gives 1; -/
theorem C08_jaccard_empty (s1 s2 : List α) (h : s1 = [] ∨ s2 = []) :
    jaccardDistance List.toFinset s1 s2 = .ok 1 := by
  simp [jaccardDistance, h]

/-- C08 (b): it never raises and is symmetric. -/
theorem C08_jaccard_symm (s1 s2 : List α) :
    jaccardDistance List.toFinset s1 s2 = jaccardDistance List.toFinset s2 s1 ∧
    ∃ r, jaccardDistance List.toFinset s1 s2 = .ok r := by
  constructor
  · simp only [jaccardDistance, Finset.union_comm, Finset.inter_comm, or_comm]
  · by_cases h : s1 = [] ∨ s2 = []
    · exact ⟨1, C08_jaccard_empty s1 s2 h⟩
    · simp only [jaccardDistance, h, if_false]
      have : (s1.toFinset ∪ s2.toFinset).card ≠ 0 := by
        simp; tauto
      rw [if_neg this]; exact ⟨_, rfl⟩

/-- C08 (c): for non-empty strings it is one minus (distinct shared characters / distinct characters), lies in
    [0,1], is 0 exactly when the same characters occur in both and 1 exactly when none is shared. -/
theorem C08_jaccard_range (s1 s2 : List α) (h1 : s1 ≠ []) (h2 : s2 ≠ []) :
    ∃ r : Rat, jaccardDistance List.toFinset s1 s2 = .ok r ∧ 0 ≤ r ∧ r ≤ 1 ∧
      (r = 0 ↔ ∀ c, c ∈ s1 ↔ c ∈ s2) ∧ (r = 1 ↔ ∀ c, c ∈ s1 → c ∉ s2) ∧
      r * ((s1.dedup ++ s2.dedup.filter (fun c => c ∉ s1)).length : Rat) =
        ((s1.dedup ++ s2.dedup.filter (fun c => c ∉ s1)).length : Rat) - ((s1.dedup.filter (fun c => c ∈ s2)).length : Rat) := by
  have hpos : 0 < (s1.toFinset ∪ s2.toFinset).card := by
    rw [Finset.card_pos]
    obtain ⟨x, hx⟩ := List.exists_mem_of_ne_nil s1 h1
    exact ⟨x, by simp [hx]⟩
  have hq : (0 : Rat) < ((s1.toFinset ∪ s2.toFinset).card : Rat) := by exact_mod_cast hpos
  have hsub : s1.toFinset ∩ s2.toFinset ⊆ s1.toFinset ∪ s2.toFinset :=
    fun x hx => Finset.mem_union_left _ (Finset.mem_inter.1 hx).1
  have hle : (s1.toFinset ∩ s2.toFinset).card ≤ (s1.toFinset ∪ s2.toFinset).card := Finset.card_le_card hsub
  have hleq : ((s1.toFinset ∩ s2.toFinset).card : Rat) ≤ ((s1.toFinset ∪ s2.toFinset).card : Rat) := by
    exact_mod_cast hle
  refine ⟨1 - ((s1.toFinset ∩ s2.toFinset).card : Rat) / ((s1.toFinset ∪ s2.toFinset).card : Rat), ?_, ?_, ?_, ?_, ?_, ?_⟩
  · simp only [jaccardDistance, h1, h2, or_self, if_false]
    rw [if_neg (by omega)]
  · have := (div_le_one hq).2 hleq; linarith
  · have : (0 : Rat) ≤ ((s1.toFinset ∩ s2.toFinset).card : Rat) / ((s1.toFinset ∪ s2.toFinset).card : Rat) := by positivity
    linarith
  · constructor
    · intro h
      have : ((s1.toFinset ∩ s2.toFinset).card : Rat) / ((s1.toFinset ∪ s2.toFinset).card : Rat) = 1 := by linarith
      rw [div_eq_one_iff_eq (ne_of_gt hq)] at this
      have hc : (s1.toFinset ∩ s2.toFinset).card = (s1.toFinset ∪ s2.toFinset).card := by exact_mod_cast this
      have he := Finset.eq_of_subset_of_card_le hsub (le_of_eq hc.symm)
      intro c
      have : c ∈ s1.toFinset ∩ s2.toFinset ↔ c ∈ s1.toFinset ∪ s2.toFinset := by rw [he]
      simp at this; tauto
    · intro h
      have : s1.toFinset = s2.toFinset := by ext c; simp [h c]
      rw [this] at hq ⊢
      simp only [Finset.inter_self, Finset.union_self] at hq ⊢
      rw [div_self (ne_of_gt hq)]; simp
  · constructor
    · intro h c hc1 hc2
      have : ((s1.toFinset ∩ s2.toFinset).card : Rat) / ((s1.toFinset ∪ s2.toFinset).card : Rat) = 0 := by linarith
      rw [div_eq_zero_iff] at this
      have h0 : (s1.toFinset ∩ s2.toFinset).card = 0 := by
        rcases this with h | h
        · exact_mod_cast h
        · linarith
      rw [Finset.card_eq_zero] at h0
      have : c ∈ s1.toFinset ∩ s2.toFinset := by simp [hc1, hc2]
      rw [h0] at this; simp at this
    · intro h
      have : s1.toFinset ∩ s2.toFinset = ∅ := by
        ext c; simp; exact h c
      rw [this]; simp
  · have e1 : (s1.dedup ++ s2.dedup.filter (fun c => c ∉ s1)).length = (s1.toFinset ∪ s2.toFinset).card := by
      rw [Finset.card_union]
      have a1 : s1.toFinset.card = s1.dedup.length := List.card_toFinset s1
      have a2 : s2.toFinset.card = s2.dedup.length := List.card_toFinset s2
      have a3 : (s1.toFinset ∩ s2.toFinset).card = (s2.dedup.filter (fun c => c ∈ s1)).length := by
        have : s1.toFinset ∩ s2.toFinset = (s2.dedup.filter (fun c => c ∈ s1)).toFinset := by
          ext c; simp [and_comm]
        rw [this, List.toFinset_card_of_nodup ((List.nodup_dedup s2).filter _)]
      have a4 := List.length_eq_length_filter_add (l := s2.dedup) (fun c => decide (c ∈ s1))
      have a5 : (List.filter (fun c => !decide (c ∈ s1)) s2.dedup) = (List.filter (fun c => decide (c ∉ s1)) s2.dedup) := by
        congr 1; funext c; simp
      rw [a5] at a4
      rw [List.length_append, a1, a2, a3]
      omega
    have e2 : (s1.dedup.filter (fun c => c ∈ s2)).length = (s1.toFinset ∩ s2.toFinset).card := by
      have : s1.toFinset ∩ s2.toFinset = (s1.dedup.filter (fun c => c ∈ s2)).toFinset := by
        ext c; simp
      rw [this, List.toFinset_card_of_nodup ((List.nodup_dedup s1).filter _)]
    rw [e1, e2]
    field_simp

example : jaccardDistance List.toFinset "가나다".toList "나다라".toList = .ok (1/2) := by decide +kernel

/-! ### cosine -/

private theorem counter_sum (s : List α) (f : α → Nat → Nat) :
    ((Dict.counter s).map (fun e => f e.1 e.2)).sum = ∑ c ∈ s.toFinset, f c (s.count c) := by
  have hk : (Dict.keys (Dict.counter s)).toFinset = s.toFinset := by
    ext c; simp only [List.mem_toFinset]; exact Dict.mem_keys_counter s c
  rw [← hk, List.sum_toFinset _ (Dict.wf_counter s)]
  congr 1
  simp only [Dict.keys, List.map_map]
  apply List.map_congr_left
  rintro ⟨c, n⟩ he
  have := Dict.get?_of_mem (Dict.wf_counter s) he
  have h2 := Dict.getD_counter s c
  simp only [Dict.getD, this, Option.getD_some] at h2
  simp [h2]

private theorem dotProduct_eq (s1 s2 : List α) (S : Finset α) (hS : s1.toFinset ⊆ S) :
    dotProduct (Dict.counter s1) (Dict.counter s2) = ∑ c ∈ S, s1.count c * s2.count c := by
  have : dotProduct (Dict.counter s1) (Dict.counter s2) =
      ((Dict.counter s1).map (fun e => e.2 * Dict.getD (Dict.counter s2) e.1 0)).sum := by
    unfold dotProduct
    generalize Dict.counter s1 = d
    have : ∀ n, List.foldl (fun prod (e : α × Nat) => prod + e.2 * Dict.getD (Dict.counter s2) e.1 0) n d =
        n + (d.map (fun e => e.2 * Dict.getD (Dict.counter s2) e.1 0)).sum := by
      induction d with
      | nil => simp
      | cons a d ih => intro n; simp [ih]; omega
    simpa using this 0
  rw [this, counter_sum s1 (fun c n => n * Dict.getD (Dict.counter s2) c 0)]
  simp only [Dict.getD_counter]
  apply Finset.sum_subset hS
  intro c _ hc
  have : s1.count c = 0 := by simpa [List.count_eq_zero] using hc
  simp [this]

private theorem squareSum_eq (s : List α) (S : Finset α) (hS : s.toFinset ⊆ S) :
    squareSum (Dict.counter s) = ∑ c ∈ S, s.count c ^ 2 := by
  unfold squareSum
  rw [counter_sum s (fun _ n => n ^ 2)]
  apply Finset.sum_subset hS
  intro c _ hc
  have : s.count c = 0 := by simpa [List.count_eq_zero] using hc
  simp [this]

/-- C08 (d): empty input gives 2. -/
theorem C08_cosine_empty (s1 s2 : List α) (h : s1 = [] ∨ s2 = []) : cosineDistance s1 s2 = 2 := by
  simp [cosineDistance, h]

/-- C08: the value for non-empty strings: one minus the inner product of the two character count vectors over the product of their norms -/
theorem C08_cosine_value (s1 s2 : List α) (h1 : s1 ≠ []) (h2 : s2 ≠ []) :
    cosineDistance s1 s2 = 1 - (∑ c ∈ s1.toFinset ∪ s2.toFinset, (s1.count c : ℝ) * s2.count c) /
      Real.sqrt ((∑ c ∈ s1.toFinset ∪ s2.toFinset, (s1.count c : ℝ) ^ 2) *
        (∑ c ∈ s1.toFinset ∪ s2.toFinset, (s2.count c : ℝ) ^ 2)) := by
  simp only [cosineDistance, h1, h2, or_self, if_false]
  rw [dotProduct_eq s1 s2 _ Finset.subset_union_left, squareSum_eq s1 _ Finset.subset_union_left,
    squareSum_eq s2 _ Finset.subset_union_right]
  push_cast
  rfl

/-- C08 (e): it is symmetric. -/
theorem C08_cosine_symm (s1 s2 : List α) : cosineDistance s1 s2 = cosineDistance s2 s1 := by
  by_cases h : s1 = [] ∨ s2 = []
  · rw [C08_cosine_empty s1 s2 h, C08_cosine_empty s2 s1 (Or.comm.1 h)]
  · have h1 : s1 ≠ [] := fun e => h (Or.inl e)
    have h2 : s2 ≠ [] := fun e => h (Or.inr e)
    rw [C08_cosine_value s1 s2 h1 h2, C08_cosine_value s2 s1 h2 h1, Finset.union_comm]
    simp only [mul_comm]

/-- C08 (f): for non-empty strings it is one minus the cosine of the character count vectors, in [0,1], and 0
    exactly when the character counts are proportional. -/
theorem C08_cosine_range (s1 s2 : List α) (h1 : s1 ≠ []) (h2 : s2 ≠ []) :
    0 ≤ cosineDistance s1 s2 ∧ cosineDistance s1 s2 ≤ 1 ∧
    (cosineDistance s1 s2 = 0 ↔ ∃ m n : Nat, 0 < m ∧ 0 < n ∧ ∀ c, m * s1.count c = n * s2.count c) := by
  rw [C08_cosine_value s1 s2 h1 h2]
  set S := s1.toFinset ∪ s2.toFinset with hS
  set P : ℝ := ∑ c ∈ S, (s1.count c : ℝ) * s2.count c with hP
  set A : ℝ := ∑ c ∈ S, (s1.count c : ℝ) ^ 2 with hA
  set B : ℝ := ∑ c ∈ S, (s2.count c : ℝ) ^ 2 with hB
  have posOf : ∀ s : List α, s ≠ [] → s.toFinset ⊆ S → 0 < ∑ c ∈ S, (s.count c : ℝ) ^ 2 := by
    intro s hs hsub
    obtain ⟨x, hx⟩ := List.exists_mem_of_ne_nil s hs
    apply Finset.sum_pos' (fun i _ => by positivity)
    refine ⟨x, hsub (by simpa using hx), ?_⟩
    have : 0 < s.count x := List.count_pos_iff.2 hx
    have : (0 : ℝ) < (s.count x : ℝ) := by exact_mod_cast this
    positivity
  have pA : 0 < A := posOf s1 h1 Finset.subset_union_left
  have pB : 0 < B := posOf s2 h2 Finset.subset_union_right
  have pP : 0 ≤ P := Finset.sum_nonneg (fun i _ => by positivity)
  have cs : P ^ 2 ≤ A * B := Finset.sum_mul_sq_le_sq_mul_sq S _ _
  have pAB : 0 < A * B := mul_pos pA pB
  have psq : 0 < Real.sqrt (A * B) := Real.sqrt_pos.2 pAB
  have hle : P ≤ Real.sqrt (A * B) := Real.le_sqrt_of_sq_le cs
  refine ⟨?_, ?_, ?_⟩
  · have := (div_le_one psq).2 hle; linarith
  · have : 0 ≤ P / Real.sqrt (A * B) := by positivity
    linarith
  · constructor
    · intro h
      have hd : P / Real.sqrt (A * B) = 1 := by linarith
      rw [div_eq_one_iff_eq (ne_of_gt psq)] at hd
      have hsq : P ^ 2 = A * B := by rw [hd, Real.sq_sqrt (le_of_lt pAB)]
      have hlag : ∑ c ∈ S, (B * (s1.count c : ℝ) - P * s2.count c) ^ 2 = 0 := by
        have : ∑ c ∈ S, (B * (s1.count c : ℝ) - P * s2.count c) ^ 2 = B ^ 2 * A - 2 * B * P * P + P ^ 2 * B := by
          have e1 : B ^ 2 * A = ∑ c ∈ S, B ^ 2 * (s1.count c : ℝ) ^ 2 := by rw [hA, Finset.mul_sum]
          have e2 : 2 * B * P * P = ∑ c ∈ S, 2 * B * P * ((s1.count c : ℝ) * s2.count c) := by
            rw [← Finset.mul_sum]
          have e3 : P ^ 2 * B = ∑ c ∈ S, P ^ 2 * (s2.count c : ℝ) ^ 2 := by rw [← Finset.mul_sum]
          rw [e1, e2, e3, ← Finset.sum_sub_distrib, ← Finset.sum_add_distrib]
          apply Finset.sum_congr rfl
          intro c _; ring
        rw [this]
        have : B ^ 2 * A - 2 * B * P * P + P ^ 2 * B = B * (A * B - P ^ 2) := by ring
        rw [this, hsq]; ring
      rw [Finset.sum_eq_zero_iff_of_nonneg (fun i _ => sq_nonneg _)] at hlag
      refine ⟨∑ c ∈ S, s2.count c ^ 2, ∑ c ∈ S, s1.count c * s2.count c, ?_, ?_, ?_⟩
      · have : (0 : ℝ) < ((∑ c ∈ S, s2.count c ^ 2 : Nat) : ℝ) := by push_cast; exact pB
        exact_mod_cast this
      · have hPpos : 0 < P := by rw [hd]; exact psq
        have : (0 : ℝ) < ((∑ c ∈ S, s1.count c * s2.count c : Nat) : ℝ) := by push_cast; exact hPpos
        exact_mod_cast this
      · intro c
        by_cases hc : c ∈ S
        · have h0 := hlag c hc
          have : B * (s1.count c : ℝ) = P * s2.count c := by
            have := pow_eq_zero_iff (two_ne_zero) |>.1 h0; linarith
          have : ((∑ c ∈ S, s2.count c ^ 2 : Nat) : ℝ) * (s1.count c : ℝ) =
              ((∑ c ∈ S, s1.count c * s2.count c : Nat) : ℝ) * s2.count c := by push_cast; exact this
          exact_mod_cast this
        · have c1 : s1.count c = 0 := by
            rw [List.count_eq_zero]; intro h; exact hc (by simp [hS, h])
          have c2 : s2.count c = 0 := by
            rw [List.count_eq_zero]; intro h; exact hc (by simp [hS, h])
          simp [c1, c2]
    · rintro ⟨m, n, hm, hn, hprop⟩
      have hmr : (0 : ℝ) < m := by exact_mod_cast hm
      have hnr : (0 : ℝ) < n := by exact_mod_cast hn
      have e : ∀ c, (s1.count c : ℝ) = (n / m : ℝ) * s2.count c := by
        intro c
        have : (m : ℝ) * s1.count c = n * s2.count c := by exact_mod_cast hprop c
        field_simp; linarith
      have eA : A = (n / m : ℝ) ^ 2 * B := by
        rw [hA, hB, Finset.mul_sum]; apply Finset.sum_congr rfl; intro c _; rw [e c]; ring
      have eP : P = (n / m : ℝ) * B := by
        rw [hP, hB, Finset.mul_sum]; apply Finset.sum_congr rfl; intro c _; rw [e c]; ring
      have : Real.sqrt (A * B) = P := by
        rw [eA, eP]
        have : (n / m : ℝ) ^ 2 * B * B = ((n / m : ℝ) * B) ^ 2 := by ring
        rw [this, Real.sqrt_sq (by positivity)]
      rw [this, div_self (by rw [eP]; positivity)]; simp

/-- C08: it is 1 exactly when no character is shared. -/
theorem C08_cosine_one (s1 s2 : List α) (h1 : s1 ≠ []) (h2 : s2 ≠ []) : cosineDistance s1 s2 = 1 ↔ ∀ c, c ∈ s1 → c ∉ s2 := by
  rw [C08_cosine_value s1 s2 h1 h2]
  set S := s1.toFinset ∪ s2.toFinset with hS
  have posOf : ∀ s : List α, s ≠ [] → s.toFinset ⊆ S → 0 < ∑ c ∈ S, (s.count c : ℝ) ^ 2 := by
    intro s hs hsub
    obtain ⟨x, hx⟩ := List.exists_mem_of_ne_nil s hs
    apply Finset.sum_pos' (fun i _ => by positivity)
    refine ⟨x, hsub (by simpa using hx), ?_⟩
    have : 0 < s.count x := List.count_pos_iff.2 hx
    have : (0 : ℝ) < (s.count x : ℝ) := by exact_mod_cast this
    positivity
  have psq : Real.sqrt ((∑ c ∈ S, (s1.count c : ℝ) ^ 2) * (∑ c ∈ S, (s2.count c : ℝ) ^ 2)) ≠ 0 :=
    ne_of_gt (Real.sqrt_pos.2 (mul_pos (posOf s1 h1 Finset.subset_union_left) (posOf s2 h2 Finset.subset_union_right)))
  rw [sub_eq_self, div_eq_zero_iff, or_iff_left psq, Finset.sum_eq_zero_iff_of_nonneg (fun i _ => by positivity)]
  constructor
  · intro h c hc1 hc2
    have := h c (by simp [hS, hc1])
    rw [mul_eq_zero, Nat.cast_eq_zero, Nat.cast_eq_zero, List.count_eq_zero, List.count_eq_zero] at this
    tauto
  · intro h c _
    rw [mul_eq_zero, Nat.cast_eq_zero, Nat.cast_eq_zero, List.count_eq_zero, List.count_eq_zero]
    have := h c
    tauto

example : ∃ m n : Nat, 0 < m ∧ 0 < n ∧ ∀ c, m * ("가나".toList).count c = n * ("나가나가".toList).count c := by
  refine ⟨2, 1, by decide, by decide, ?_⟩
  intro c
  simp only [show "가나".toList = ['가', '나'] from rfl, show "나가나가".toList = ['나', '가', '나', '가'] from rfl,
    List.count_cons, List.count_nil, beq_iff_eq]
  split <;> split <;> omega

end Props
