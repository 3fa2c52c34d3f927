import Verif.Props.C53
import Verif.Props.C64
import Mathlib.Tactic.Linarith
import Mathlib.Tactic.FieldSimp
import Mathlib.Analysis.SpecialFunctions.Log.Basic
/-! C66: the range of the branching entropy, in terms of the accessor variety. -/
namespace Props
open Py WX

private theorem sum_le {α : Type} (l : List α) (f g : α → ℝ) (h : ∀ a ∈ l, f a ≤ g a) : (l.map f).sum ≤ (l.map g).sum := by
  induction l with
  | nil => simp
  | cons a l ih =>
    simp only [List.map_cons, List.sum_cons]
    exact add_le_add (h a (by simp)) (ih (fun b hb => h b (by simp [hb])))

private theorem sum_lt {α : Type} (l : List α) (f g : α → ℝ) (h : ∀ a ∈ l, f a ≤ g a) (hs : ∃ a ∈ l, f a < g a) :
    (l.map f).sum < (l.map g).sum := by
  induction l with
  | nil => simp at hs
  | cons a l ih =>
    simp only [List.map_cons, List.sum_cons]
    obtain ⟨b, hb, hlt⟩ := hs
    rcases List.mem_cons.1 hb with rfl | hb
    · exact add_lt_add_of_lt_of_le hlt (sum_le l f g (fun c hc => h c (by simp [hc])))
    · exact add_lt_add_of_le_of_lt (h a (by simp)) (ih (fun c hc => h c (by simp [hc])) ⟨b, hb, hlt⟩)

private theorem sum_neg {α : Type} (l : List α) (f : α → ℝ) : (l.map (fun a => -f a)).sum = -(l.map f).sum := by
  induction l with
  | nil => simp
  | cons a l ih => simp only [List.map_cons, List.sum_cons, ih]; ring

private theorem sum_cast (ns : List Nat) : ((ns.sum : ℕ) : ℝ) = (ns.map (fun n : Nat => (n : ℝ))).sum := by
  induction ns with
  | nil => simp
  | cons a l ih => simp [ih]

private theorem sum_pos {ns : List Nat} (h : ∀ n ∈ ns, 0 < n) (hne : ns ≠ []) : 0 < ns.sum := by
  cases ns with
  | nil => exact absurd rfl hne
  | cons a l => have := h a (by simp); simp only [List.sum_cons]; omega

private theorem le_sum {ns : List Nat} {n : Nat} (h : n ∈ ns) : n ≤ ns.sum := List.le_sum_of_mem h

/-- Shannon entropy of positive counts is not negative -/
theorem shannon_nonneg {ns : List Nat} (h : ∀ n ∈ ns, 0 < n) : 0 ≤ shannon ns := by
  unfold shannon
  have : (ns.map (fun n : Nat => (n : ℝ) / ((ns.sum : ℕ) : ℝ) * Real.log ((n : ℝ) / ((ns.sum : ℕ) : ℝ)))).sum ≤ (ns.map (fun _ : Nat => (0 : ℝ))).sum := by
    apply sum_le
    intro n hn
    have h1 : (0 : ℝ) < n := by exact_mod_cast h n hn
    have h2 : (n : ℝ) ≤ (ns.sum : ℕ) := by exact_mod_cast le_sum hn
    have h3 : (0 : ℝ) < (ns.sum : ℕ) := lt_of_lt_of_le h1 h2
    exact mul_nonpos_of_nonneg_of_nonpos (div_nonneg h1.le h3.le) (Real.log_nonpos (div_nonneg h1.le h3.le) ((div_le_one h3).2 h2))
  simp only [List.map_const', List.sum_replicate, nsmul_zero] at this
  linarith

/-- it vanishes only when there is at most one count -/
theorem shannon_eq_zero {ns : List Nat} (h : ∀ n ∈ ns, 0 < n) : shannon ns = 0 ↔ ns.length ≤ 1 := by
  constructor
  · intro h0
    by_contra hl
    have : (ns.map (fun n : Nat => (n : ℝ) / ((ns.sum : ℕ) : ℝ) * Real.log ((n : ℝ) / ((ns.sum : ℕ) : ℝ)))).sum < (ns.map (fun _ : Nat => (0 : ℝ))).sum := by
      have key : ∀ n ∈ ns, n < ns.sum := by
        intro n hn
        obtain ⟨a, b, rfl⟩ := List.append_of_mem hn
        have : (a ++ b) ≠ [] := by
          intro e
          have := List.append_eq_nil_iff.1 e
          apply hl; rw [this.1, this.2]; simp
        have := sum_pos (ns := a ++ b) (fun m hm => h m (by rcases List.mem_append.1 hm with h | h <;> simp [h])) this
        simp only [List.sum_append, List.sum_cons] at this ⊢; omega
      obtain ⟨n, hn⟩ := List.exists_mem_of_ne_nil ns (by rintro rfl; simp at hl)
      have hneg : ∀ n ∈ ns, (n : ℝ) / ((ns.sum : ℕ) : ℝ) * Real.log ((n : ℝ) / ((ns.sum : ℕ) : ℝ)) < 0 := by
        intro n hn
        have h1 : (0 : ℝ) < n := by exact_mod_cast h n hn
        have h2 : (n : ℝ) < (ns.sum : ℕ) := by exact_mod_cast key n hn
        have h3 : (0 : ℝ) < (ns.sum : ℕ) := lt_trans h1 h2
        exact mul_neg_of_pos_of_neg (div_pos h1 h3) (Real.log_neg (div_pos h1 h3) ((div_lt_one h3).2 h2))
      exact sum_lt _ _ _ (fun n hn => (hneg n hn).le) ⟨n, hn, hneg n hn⟩
    simp only [List.map_const', List.sum_replicate, nsmul_zero] at this
    unfold shannon at h0
    linarith
  · intro hl
    match ns, hl with
    | [], _ => simp [shannon]
    | [n], _ =>
      have : (n : ℝ) ≠ 0 := by have := h n (by simp); exact_mod_cast this.ne'
      simp [shannon, this]

private theorem gibbs {ns : List Nat} (h : ∀ n ∈ ns, 0 < n) (hne : ns ≠ []) :
    shannon ns - Real.log ns.length = (ns.map (fun n : Nat => (n : ℝ) / ((ns.sum : ℕ) : ℝ) * Real.log (((ns.sum : ℕ) : ℝ) / (ns.length * n)))).sum ∧
    (ns.map (fun n : Nat => (n : ℝ) / ((ns.sum : ℕ) : ℝ) * (((ns.sum : ℕ) : ℝ) / (ns.length * n) - 1))).sum = 0 := by
  obtain ⟨S, hS⟩ : ∃ S : ℝ, ((ns.sum : ℕ) : ℝ) = S := ⟨_, rfl⟩
  obtain ⟨L, hL⟩ : ∃ L : ℝ, ((ns.length : ℕ) : ℝ) = L := ⟨_, rfl⟩
  have hSp : 0 < S := by rw [← hS]; exact_mod_cast sum_pos h hne
  have hLp : 0 < L := by rw [← hL]; exact_mod_cast List.length_pos_iff.2 hne
  have hp : (ns.map (fun n : Nat => (n : ℝ) / S)).sum = 1 := by
    have : (ns.map (fun n : Nat => (n : ℝ) / S)).sum = (ns.map (fun n : Nat => (n : ℝ))).sum / S := by
      simp only [div_eq_mul_inv]
      rw [List.sum_map_mul_right]
    rw [this, ← sum_cast, hS, div_self hSp.ne']
  unfold shannon
  rw [hS, hL]
  constructor
  · have e : ∀ n ∈ ns, (n : ℝ) / S * Real.log (S / (L * n)) = -((n : ℝ) / S * Real.log ((n : ℝ) / S)) + (n : ℝ) / S * (-Real.log L) := by
      intro n hn
      have h1 : (0 : ℝ) < n := by exact_mod_cast h n hn
      rw [Real.log_div hSp.ne' (by positivity), Real.log_mul hLp.ne' h1.ne', Real.log_div h1.ne' hSp.ne']
      ring
    rw [List.map_congr_left e, List.sum_map_add, List.sum_map_mul_right, hp, sum_neg]
    ring
  · have e : ∀ n ∈ ns, (n : ℝ) / S * (S / (L * n) - 1) = 1 / L + -((n : ℝ) / S) := by
      intro n hn
      have h1 : (0 : ℝ) < n := by exact_mod_cast h n hn
      field_simp
      ring
    rw [List.map_congr_left e, List.sum_map_add, sum_neg, hp]
    simp only [List.map_const', List.sum_replicate, nsmul_eq_mul, hL]
    field_simp
    ring

/-- at most the logarithm of the number of counts -/
theorem shannon_le {ns : List Nat} (h : ∀ n ∈ ns, 0 < n) : shannon ns ≤ Real.log ns.length := by
  by_cases hne : ns = []
  · subst hne; simp [shannon]
  · obtain ⟨h1, h2⟩ := gibbs h hne
    have hS : (0 : ℝ) < (ns.sum : ℕ) := by exact_mod_cast sum_pos h hne
    have hL : (0 : ℝ) < ns.length := by exact_mod_cast List.length_pos_iff.2 hne
    have := sum_le ns (fun n : Nat => (n : ℝ) / ((ns.sum : ℕ) : ℝ) * Real.log (((ns.sum : ℕ) : ℝ) / (ns.length * n)))
      (fun n : Nat => (n : ℝ) / ((ns.sum : ℕ) : ℝ) * (((ns.sum : ℕ) : ℝ) / (ns.length * n) - 1)) (by
        intro n hn
        have hn' : (0 : ℝ) < n := by exact_mod_cast h n hn
        exact mul_le_mul_of_nonneg_left (Real.log_le_sub_one_of_pos (by positivity)) (by positivity))
    rw [h2, ← h1] at this
    linarith

/-- and it reaches that bound only when all the counts are equal -/
theorem shannon_max {ns : List Nat} (h : ∀ n ∈ ns, 0 < n) : shannon ns = Real.log ns.length ↔ ∀ a ∈ ns, ∀ b ∈ ns, a = b := by
  by_cases hne : ns = []
  · subst hne; simp [shannon]
  have hS : (0 : ℝ) < (ns.sum : ℕ) := by exact_mod_cast sum_pos h hne
  have hL : (0 : ℝ) < ns.length := by exact_mod_cast List.length_pos_iff.2 hne
  obtain ⟨h1, h2⟩ := gibbs h hne
  constructor
  · intro heq
    have hall : ∀ n ∈ ns, (ns.length : ℝ) * n = (ns.sum : ℕ) := by
      by_contra hc
      push Not at hc
      obtain ⟨n, hn, hx⟩ := hc
      have := sum_lt ns (fun n : Nat => (n : ℝ) / ((ns.sum : ℕ) : ℝ) * Real.log (((ns.sum : ℕ) : ℝ) / (ns.length * n)))
        (fun n : Nat => (n : ℝ) / ((ns.sum : ℕ) : ℝ) * (((ns.sum : ℕ) : ℝ) / (ns.length * n) - 1)) (by
          intro n hn
          have hn' : (0 : ℝ) < n := by exact_mod_cast h n hn
          exact mul_le_mul_of_nonneg_left (Real.log_le_sub_one_of_pos (by positivity)) (by positivity)) ⟨n, hn, by
          have hn' : (0 : ℝ) < n := by exact_mod_cast h n hn
          refine mul_lt_mul_of_pos_left (Real.log_lt_sub_one_of_pos (by positivity) ?_) (by positivity)
          intro e
          rw [div_eq_one_iff_eq (by positivity)] at e
          exact hx e.symm⟩
      rw [h2, ← h1, heq] at this
      simp at this
    intro a ha b hb
    have := (hall a ha).trans (hall b hb).symm
    have := mul_left_cancel₀ hL.ne' this
    exact_mod_cast this
  · intro heq
    obtain ⟨a, ha⟩ := List.exists_mem_of_ne_nil ns hne
    have hrep : ns = List.replicate ns.length a := List.eq_replicate_iff.2 ⟨rfl, fun b hb => heq b hb a ha⟩
    have hsum : ns.sum = ns.length * a := by conv_lhs => rw [hrep, List.sum_replicate, smul_eq_mul]
    have hz : (ns.map (fun n : Nat => (n : ℝ) / ((ns.sum : ℕ) : ℝ) * Real.log (((ns.sum : ℕ) : ℝ) / (ns.length * n)))).sum = 0 := by
      have : ∀ n ∈ ns, (n : ℝ) / ((ns.sum : ℕ) : ℝ) * Real.log (((ns.sum : ℕ) : ℝ) / (ns.length * n)) = 0 := by
        intro n hn
        have e : n = a := heq n hn a ha
        subst e
        have hn' : (0 : ℝ) < n := by exact_mod_cast h n hn
        rw [hsum]
        push_cast
        rw [div_self (by positivity), Real.log_one, mul_zero]
      rw [List.map_congr_left this]; simp
    rw [hz] at h1
    linarith

private theorem entropy_shannon (l : Dict Str Nat) : (if l = [] then 0 else entropy l) = shannon (l.map (·.2)) := by
  by_cases h : l = []
  · subst h; simp [shannon]
  · rw [if_neg h]
    unfold entropy shannon
    rw [if_neg h]
    dsimp only
    rw [List.map_map, neg_one_mul]; rfl

private theorem ext_pos {p : Params} {s : State} (h : Trained p s) (w : Str) :
    (∀ n ∈ (leftExt s w).map (·.2), 0 < n) ∧ (∀ n ∈ (rightExt s w).map (·.2), 0 < n) := by
  obtain ⟨b1, b2⟩ := wx_boundary_pos h
  obtain ⟨c1, c2⟩ := C53_positive p s h
  rw [leftExt_eq s h.good, rightExt_eq s h.good]
  constructor <;>
  · intro n hn
    obtain ⟨e, he, rfl⟩ := List.mem_map.1 hn
    rcases List.mem_append.1 he with he | he
    · have := (List.mem_filter.1 he).1
      first | exact (c1 _ this).1 | exact (c2 _ this).1
    · have := (List.mem_filter.1 he).1
      first | exact b1 _ this | exact b2 _ this

/-- the counts of the left neighbours of `w`: of `c w` inside words, and of `c | w` across a word boundary -/
def leftCounts (s : State) (w : Str) : List Nat :=
  (s.R.filter (fun e => decide (w <:+ e.1 ∧ e.1.length = w.length + 1))).map (·.2) ++ (s.aR.filter (fun e => decide ((' ' :: w) <:+ e.1 ∧ e.1.length = w.length + 2))).map (·.2)

/-- the counts of the right neighbours of `w`: of `w c` inside words, and of `w | c` across a word boundary -/
def rightCounts (s : State) (w : Str) : List Nat :=
  (s.L.filter (fun e => decide (w <+: e.1 ∧ e.1.length = w.length + 1))).map (·.2) ++ (s.aL.filter (fun e => decide ((w ++ [' ']) <+: e.1 ∧ e.1.length = w.length + 2))).map (·.2)

private theorem counts_eq {p : Params} {s : State} (h : Trained p s) (w : Str) :
    (leftExt s w).map (·.2) = leftCounts s w ∧ (rightExt s w).map (·.2) = rightCounts s w := by
  have hg := h.good
  rw [leftExt_eq s hg, rightExt_eq s hg, List.map_append, List.map_append]
  unfold leftCounts rightCounts
  have key : ∀ (d : Dict Str Nat) (q r : Str × Nat → Bool), (∀ e ∈ d, q e = r e) → (d.filter q).map (·.2) = (d.filter r).map (·.2) :=
    fun d q r hqr => by rw [List.filter_congr hqr]
  refine ⟨?_, ?_⟩
  · rw [key s.R _ _ (fun e _ => decide_eq_decide.2 ?_), key s.aR _ _ (fun e he => decide_eq_decide.2 ?_)]
    · obtain ⟨k, n⟩ := e
      obtain ⟨v, c, rfl, _⟩ := hg.shR k (List.mem_map.2 ⟨_, he, rfl⟩)
      dsimp only
      constructor
      · rintro ⟨h1, h2⟩
        have h2 : v = w := by simpa using h2
        subst h2
        exact ⟨⟨[c], rfl⟩, by simp⟩
      · rintro ⟨⟨t, h1⟩, h2⟩
        have h3 : t.length = 1 := by
          have := congrArg List.length h1
          simp at this h2; omega
        obtain ⟨d, rfl⟩ := List.length_eq_one_iff.1 h3
        simp only [List.singleton_append, List.cons.injEq] at h1
        obtain ⟨_, _, rfl⟩ := h1
        exact ⟨by simp; omega, rfl⟩
    · obtain ⟨k, n⟩ := e
      dsimp only
      constructor
      · rintro ⟨h1, h2⟩
        match k, h1, h2 with
        | [], h1, _ => simp at h1
        | a :: k, _, h2 => rw [← h2]; exact ⟨⟨[a], rfl⟩, by simp⟩
      · rintro ⟨⟨t, h1⟩, h2⟩
        subst h1
        have h3 : t.length = 1 := by simp at h2; omega
        obtain ⟨d, rfl⟩ := List.length_eq_one_iff.1 h3
        exact ⟨by simp, rfl⟩
  · rw [key s.L _ _ (fun e _ => decide_eq_decide.2 ?_), key s.aL _ _ (fun e he => decide_eq_decide.2 ?_)]
    · obtain ⟨k, n⟩ := e
      obtain ⟨v, c, rfl, _⟩ := hg.shL k (List.mem_map.2 ⟨_, he, rfl⟩)
      dsimp only
      constructor
      · rintro ⟨h1, h2⟩
        have h2 : v = w := by simpa using h2
        subst h2
        exact ⟨⟨[c], by simp⟩, by simp⟩
      · rintro ⟨⟨t, h1⟩, h2⟩
        have h3 : t.length = 1 := by
          have := congrArg List.length h1
          simp at this h2; omega
        obtain ⟨d, rfl⟩ := List.length_eq_one_iff.1 h3
        have := (List.append_inj' (show w ++ [' ', d] = v ++ [' ', c] by simpa using h1) rfl).1
        subst this
        exact ⟨by simp, by simp⟩
    · obtain ⟨k, n⟩ := e
      dsimp only
      constructor
      · rintro ⟨h1, h2⟩
        rcases List.eq_nil_or_concat k with rfl | ⟨l, a, rfl⟩
        · simp at h1
        · have : l = w := by simpa using h2
          subst this
          exact ⟨⟨[a], by simp⟩, by simp⟩
      · rintro ⟨⟨t, h1⟩, h2⟩
        subst h1
        have h3 : t.length = 1 := by simp at h2; omega
        obtain ⟨d, rfl⟩ := List.length_eq_one_iff.1 h3
        exact ⟨by simp, by simp⟩

/-- **C66** On each side the branching entropy of a word lies between 0 and the logarithm of its accessor variety; it is 0
    exactly when there is at most one kind of neighbour and reaches the bound exactly when all neighbours are equally
    frequent. This holds for every extractor reached by any sequence of trainings. -/
theorem C66_left (p : Params) (s : State) (h : Trained p s) (w : Str) :
    0 ≤ (branchingEntropy s w).1 ∧ (branchingEntropy s w).1 ≤ Real.log (accessorVariety s w).1 ∧
      ((branchingEntropy s w).1 = 0 ↔ (accessorVariety s w).1 ≤ 1) ∧
      ((branchingEntropy s w).1 = Real.log (accessorVariety s w).1 ↔ ∀ a ∈ leftCounts s w, ∀ b ∈ leftCounts s w, a = b) := by
  have hp := (ext_pos h w).1
  have e : (branchingEntropy s w).1 = shannon ((leftExt s w).map (·.2)) := entropy_shannon _
  have hl : (accessorVariety s w).1 = ((leftExt s w).map (·.2)).length := by simp [accessorVariety]
  rw [e, hl]
  refine ⟨shannon_nonneg hp, shannon_le hp, shannon_eq_zero hp, (shannon_max hp).trans ?_⟩
  rw [(counts_eq h w).1]

theorem C66_right (p : Params) (s : State) (h : Trained p s) (w : Str) :
    0 ≤ (branchingEntropy s w).2 ∧ (branchingEntropy s w).2 ≤ Real.log (accessorVariety s w).2 ∧
      ((branchingEntropy s w).2 = 0 ↔ (accessorVariety s w).2 ≤ 1) ∧
      ((branchingEntropy s w).2 = Real.log (accessorVariety s w).2 ↔ ∀ a ∈ rightCounts s w, ∀ b ∈ rightCounts s w, a = b) := by
  have hp := (ext_pos h w).2
  have e : (branchingEntropy s w).2 = shannon ((rightExt s w).map (·.2)) := entropy_shannon _
  have hl : (accessorVariety s w).2 = ((rightExt s w).map (·.2)).length := by simp [accessorVariety]
  rw [e, hl]
  refine ⟨shannon_nonneg hp, shannon_le hp, shannon_eq_zero hp, (shannon_max hp).trans ?_⟩
  rw [(counts_eq h w).2]

/-- a trained extractor with a word that has two equally frequent right neighbours: the bound is reached -/
example : ∃ s, Trained { minFrequency := 1 } s ∧ accessorVariety s "a".toList = (0, 2) ∧
    rightCounts s "a".toList = [1, 1] :=
  ⟨⟨[("a".toList, 2), ("ab".toList, 1), ("ac".toList, 1)], [("b".toList, 1), ("c".toList, 1)], [], []⟩,
    .step ["ab".toList, "ac".toList] 0 true .fresh (by decide +kernel), by decide +kernel, by decide +kernel⟩

end Props
