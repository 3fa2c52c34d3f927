import Verif.Model.Pmi
import Verif.Spec.Pmi
import Mathlib.Tactic.Linarith
import Mathlib.Tactic.FieldSimp
import Mathlib.Tactic.Positivity
import Mathlib.Algebra.BigOperators.Ring.Finset
import Mathlib.Algebra.BigOperators.Field
import Mathlib.Algebra.Order.BigOperators.Group.Finset
/-! C67: pointwise mutual information. -/
namespace Props
open Py Pmi Spec Finset

/-- the value of the matrix at a position (0 where nothing is stored) -/
noncomputable def valueAt (X : Csr) (i j : Nat) : ℝ := (X.entries.map (fun e => if e.1 = i ∧ e.2.1 = j then e.2.2 else 0)).sum

/-- a count matrix: every position stored at most once and inside the shape, stored values positive -/
structure CountMatrix (X : Csr) : Prop where
  nodup : (X.entries.map (fun e => (e.1, e.2.1))).Nodup
  inside : ∀ e ∈ X.entries, e.1 < X.rows ∧ e.2.1 < X.cols
  pos : ∀ e ∈ X.entries, 0 < e.2.2

private theorem sum_range_list (n : Nat) (f : Nat → ℝ) : ((List.range n).map f).sum = ∑ i ∈ range n, f i := by
  induction n with
  | zero => simp
  | succ n ih => rw [List.range_succ, Finset.sum_range_succ, List.map_append, List.sum_append, ih]; simp

private theorem row_eq (X : Csr) (h : ∀ e ∈ X.entries, e.1 < X.rows ∧ e.2.1 < X.cols) (i : Nat) :
    rowSum X i = ∑ j ∈ range X.cols, valueAt X i j := by
  unfold rowSum valueAt
  generalize X.cols = m at h
  generalize X.entries = es at h
  induction es with
  | nil => simp
  | cons e es ih =>
    simp only [List.map_cons, List.sum_cons, Finset.sum_add_distrib]
    rw [ih (fun e he => h e (by simp [he]))]
    congr 1
    have := (h e (by simp)).2
    by_cases hi : e.1 = i
    · simp [hi, this]
    · simp [hi]

private theorem col_eq (X : Csr) (h : ∀ e ∈ X.entries, e.1 < X.rows ∧ e.2.1 < X.cols) (j : Nat) :
    colSum X j = ∑ i ∈ range X.rows, valueAt X i j := by
  unfold colSum valueAt
  generalize X.rows = n at h
  generalize X.entries = es at h
  induction es with
  | nil => simp
  | cons e es ih =>
    simp only [List.map_cons, List.sum_cons, Finset.sum_add_distrib]
    rw [ih (fun e he => h e (by simp [he]))]
    congr 1
    have := (h e (by simp)).1
    by_cases hi : e.2.1 = j
    · simp [hi, this]
    · simp [hi]

private theorem total_eq (X : Csr) (h : ∀ e ∈ X.entries, e.1 < X.rows ∧ e.2.1 < X.cols) :
    total X = mass (valueAt X) X.rows X.cols := by
  unfold mass
  rw [show total X = ∑ i ∈ range X.rows, rowSum X i by
    unfold total rowSum
    generalize X.rows = n at h
    generalize X.entries = es at h
    induction es with
    | nil => simp
    | cons e es ih =>
      simp only [List.map_cons, List.sum_cons, Finset.sum_add_distrib]
      rw [ih (fun e he => h e (by simp [he]))]
      congr 1
      have := (h e (by simp)).1
      simp [this]]
  exact Finset.sum_congr rfl (fun i _ => row_eq X h i)

private theorem at_of_mem {X : Csr} (h : CountMatrix X) {e : Nat × Nat × ℝ} (he : e ∈ X.entries) : valueAt X e.1 e.2.1 = e.2.2 := by
  have hn := h.nodup
  unfold valueAt
  generalize X.entries = es at he hn
  induction es with
  | nil => simp at he
  | cons a es ih =>
    rw [List.map_cons, List.nodup_cons] at hn
    have zero : ∀ (b : Nat × Nat × ℝ), (b.1, b.2.1) ∉ es.map (fun e => (e.1, e.2.1)) →
        (es.map (fun e => if e.1 = b.1 ∧ e.2.1 = b.2.1 then e.2.2 else 0)).sum = 0 := by
      intro b hb
      apply List.sum_eq_zero
      intro x hx
      obtain ⟨c, hc, rfl⟩ := List.mem_map.1 hx
      rw [if_neg]
      rintro ⟨h1, h2⟩
      exact hb (List.mem_map.2 ⟨c, hc, by rw [h1, h2]⟩)
    rw [List.map_cons, List.sum_cons]
    rcases List.mem_cons.1 he with rfl | he
    · rw [zero _ hn.1]; simp
    · rw [ih he hn.2, if_neg]
      · simp
      · rintro ⟨h1, h2⟩
        exact hn.1 (List.mem_map.2 ⟨e, he, by rw [h1, h2]⟩)

private theorem mem_of_at {X : Csr} (h : CountMatrix X) {i j : Nat} (hp : valueAt X i j ≠ 0) : (i, j, valueAt X i j) ∈ X.entries := by
  by_contra hc
  apply hp
  unfold valueAt
  apply List.sum_eq_zero
  intro x hx
  obtain ⟨e, he, rfl⟩ := List.mem_map.1 hx
  rw [if_neg]
  rintro ⟨rfl, rfl⟩
  rw [at_of_mem h he] at hc
  exact hc he

private theorem at_nonneg {X : Csr} (h : CountMatrix X) (i j : Nat) : 0 ≤ valueAt X i j := by
  unfold valueAt
  apply List.sum_nonneg
  intro x hx
  obtain ⟨e, he, rfl⟩ := List.mem_map.1 hx
  have := h.pos e he
  split
  · exact this.le
  · exact le_refl _

private theorem mass_pos {X : Csr} (h : CountMatrix X) (hne : X.entries ≠ []) : 0 < mass (valueAt X) X.rows X.cols := by
  rw [← total_eq X h.inside]
  unfold total
  have hp := h.pos
  generalize X.entries = es at hne hp
  cases es with
  | nil => exact absurd rfl hne
  | cons e es =>
    rw [List.map_cons, List.sum_cons]
    refine add_pos_of_pos_of_nonneg (hp e (by simp)) (List.sum_nonneg ?_)
    intro x hx
    obtain ⟨e, he, rfl⟩ := List.mem_map.1 hx
    exact (hp e (by simp [he])).le

private theorem rowProb_eq {X : Csr} (h : CountMatrix X) : rowProb X = (List.range X.rows).map (rowMarginal (valueAt X) X.rows X.cols) := by
  unfold rowProb
  apply List.map_congr_left
  intro i _
  rw [row_eq X h.inside, total_eq X h.inside]
  unfold rowMarginal joint
  rw [Finset.sum_div]

private theorem colProb_eq {X : Csr} (h : CountMatrix X) : colProb X = (List.range X.cols).map (colMarginal (valueAt X) X.rows X.cols) := by
  unfold colProb
  apply List.map_congr_left
  intro i _
  rw [col_eq X h.inside, total_eq X h.inside]
  unfold colMarginal joint
  rw [Finset.sum_div]

private theorem rowMarginal_pos {X : Csr} (h : CountMatrix X) {i j : Nat} (hj : j < X.cols) (hp : 0 < valueAt X i j) (hne : X.entries ≠ []) :
    0 < rowMarginal (valueAt X) X.rows X.cols i := by
  unfold rowMarginal joint
  have hm := mass_pos h hne
  exact Finset.sum_pos' (fun k _ => div_nonneg (at_nonneg h i k) hm.le) ⟨j, Finset.mem_range.2 hj, div_pos hp hm⟩

/-- the distribution over the contexts that `pmi` uses: the given one or the column marginal, tempered when `β < 1` -/
noncomputable def contextDist (X : Csr) (py : Option (Nat → ℝ)) (β : ℝ) : Nat → ℝ :=
  let q := py.getD (colMarginal (valueAt X) X.rows X.cols)
  open Classical in if β < 1 then tempered β q X.cols else q

private theorem smooth_eq (β : ℝ) (q : Nat → ℝ) (m : Nat) : smooth β ((List.range m).map q) =
    (List.range m).map (open Classical in if β < 1 then tempered β q m else q) := by
  unfold smooth
  split
  · dsimp only
    rw [List.map_map, List.map_map]
    apply List.map_congr_left
    intro j _
    simp only [Function.comp, tempered]
    congr 1
    rw [← sum_range_list, List.map_map]
    rfl
  · rfl

private theorem getD_asDiag (n : Nat) (q : Nat → ℝ) (α : ℝ) {i : Nat} (hi : i < n) :
    (asDiag ((List.range n).map q) α).getD i 0 = (open Classical in if q i = 0 then 0 else 1 / (q i + α)) := by
  unfold asDiag
  simp [List.getD, hi]

private theorem getD_dist (X : Csr) (h : CountMatrix X) (py : Option (Nat → ℝ)) (β : ℝ) :
    smooth β ((py.map (fun q => (List.range X.cols).map q)).getD (colProb X)) = (List.range X.cols).map (contextDist X py β) := by
  unfold contextDist
  cases py with
  | none => simp only [Option.map_none, Option.getD_none]; rw [colProb_eq h, smooth_eq]
  | some q => simp only [Option.map_some, Option.getD_some]; rw [smooth_eq]

private theorem mem_exp {X : Csr} (h : CountMatrix X) (q : Nat → ℝ) (hq : ∀ j < X.cols, 0 ≤ q j) {α : ℝ} (hα : 0 ≤ α) (i j : Nat) (v : ℝ) :
    (i, j, v) ∈ (expPmi X (asDiag (rowProb X) 0) (asDiag ((List.range X.cols).map q) α)).entries ↔
      i < X.rows ∧ j < X.cols ∧ 0 < valueAt X i j ∧ q j ≠ 0 ∧
        v = joint (valueAt X) X.rows X.cols i j / (rowMarginal (valueAt X) X.rows X.cols i * (q j + α)) ∧ 0 < v := by
  unfold expPmi
  dsimp only
  rw [List.mem_filter, List.mem_map, rowProb_eq h, total_eq X h.inside]
  constructor
  · rintro ⟨⟨e, he, heq⟩, hv⟩
    simp only [decide_eq_true_eq] at hv
    obtain ⟨hi, hj⟩ := h.inside e he
    have hpos := h.pos e he
    have hm := mass_pos h (List.ne_nil_of_mem he)
    rw [getD_asDiag _ _ _ hi, getD_asDiag _ _ _ hj] at heq
    cases heq
    have hval := at_of_mem h he
    have hr := rowMarginal_pos h hj (by rw [hval]; exact hpos) (List.ne_nil_of_mem he)
    rw [if_neg hr.ne'] at hv ⊢
    by_cases hz : q e.2.1 = 0
    · rw [if_pos hz] at hv; simp at hv
    rw [if_neg hz]
    have hqp : 0 < q e.2.1 := lt_of_le_of_ne (hq _ hj) (Ne.symm hz)
    refine ⟨hi, hj, by rw [hval]; exact hpos, hz, ?_, by positivity⟩
    unfold joint
    rw [hval]
    have h1 : q e.2.1 + α ≠ 0 := by positivity
    have h2 := hr.ne'
    field_simp
    ring
  · rintro ⟨hi, hj, hp, hz, rfl, hv⟩
    have he := mem_of_at h hp.ne'
    have hr := rowMarginal_pos h hj hp (List.ne_nil_of_mem he)
    have hqp : 0 < q j := lt_of_le_of_ne (hq _ hj) (Ne.symm hz)
    have hm := mass_pos h (List.ne_nil_of_mem he)
    refine ⟨⟨_, he, ?_⟩, ?_⟩
    · dsimp only
      rw [getD_asDiag _ _ _ hi, getD_asDiag _ _ _ hj, if_neg hr.ne', if_neg hz]
      congr 2
      unfold joint
      have h1 : q j + α ≠ 0 := by positivity
      have h2 := hr.ne'
      field_simp
      ring
    · simp only [decide_eq_true_eq]; exact hv.ne'

private theorem dist_nonneg {X : Csr} (h : CountMatrix X) (py : Option (Nat → ℝ)) (hpy : ∀ q ∈ py, ∀ j < X.cols, 0 ≤ q j) (β : ℝ)
    (hm : 0 ≤ mass (valueAt X) X.rows X.cols) : ∀ j < X.cols, 0 ≤ contextDist X py β j := by
  intro j hj
  unfold contextDist
  have h0 : ∀ k < X.cols, 0 ≤ py.getD (colMarginal (valueAt X) X.rows X.cols) k := by
    intro k hk
    cases py with
    | none =>
      simp only [Option.getD_none]
      unfold colMarginal joint
      exact Finset.sum_nonneg (fun i _ => div_nonneg (at_nonneg h i k) hm)
    | some q => exact hpy q rfl k hk
  split
  · unfold tempered
    exact div_nonneg (Real.rpow_nonneg (h0 j hj) _) (Finset.sum_nonneg (fun k hk => Real.rpow_nonneg (h0 k (Finset.mem_range.1 hk)) _))
  · exact h0 j hj

/-- the threshold in the code is `exp(min_pmi)` -/
private theorem thr_eq (m : ℝ) : (open Classical in if m = 0 then 1 else Real.exp m) = Real.exp m := by
  split
  · rename_i h; rw [h, Real.exp_zero]
  · rfl

private theorem exp_nodup {X : Csr} (h : CountMatrix X) (dx dy : List ℝ) (f : Nat × Nat × ℝ → Bool) (g : Nat × Nat × ℝ → ℝ) :
    ((((expPmi X dx dy).entries.filter f).map (fun e => (e.1, e.2.1, g e))).map (fun e => (e.1, e.2.1))).Nodup := by
  have e1 : (((expPmi X dx dy).entries.filter f).map (fun e => (e.1, e.2.1, g e))).map (fun e => (e.1, e.2.1)) =
      ((expPmi X dx dy).entries.filter f).map (fun e => (e.1, e.2.1)) := by rw [List.map_map]; rfl
  rw [e1]
  refine List.Nodup.sublist ((List.filter_sublist).map _) ?_
  unfold expPmi
  dsimp only
  refine List.Nodup.sublist ((List.filter_sublist).map _) ?_
  rw [List.map_map]
  exact h.nodup

/-- **C67** `pmi(X, py, min_pmi, alpha, beta)` on a non-empty count matrix: the entry at (i, j) is stored exactly when the count is
    positive, the context has positive probability and `log(p_xy / (p_x (p_y + alpha)))` is at least `min_pmi`, and the stored value is
    that logarithm; no position is stored twice. `p_x` is the row marginal of the joint distribution; `p_y` is the given context
    distribution or the column marginal, raised to `beta` and renormalised when `beta < 1`; both are returned. -/
theorem C67_pmi (X : Csr) (h : CountMatrix X) (hne : X.entries ≠ []) (py : Option (Nat → ℝ)) (hpy : ∀ q ∈ py, ∀ j < X.cols, 0 ≤ q j)
    (minPmi α β : ℝ) (hα : 0 ≤ α) (hβ : 0 < β ∧ β ≤ 1) :
    ∃ R, pmi X (py.map (fun q => (List.range X.cols).map q)) minPmi α β =
        .ok (R, (List.range X.rows).map (rowMarginal (valueAt X) X.rows X.cols), (List.range X.cols).map (contextDist X py β)) ∧
      R.rows = X.rows ∧ R.cols = X.cols ∧ (R.entries.map (fun e => (e.1, e.2.1))).Nodup ∧
      ∀ i j v, (i, j, v) ∈ R.entries ↔ i < X.rows ∧ j < X.cols ∧ 0 < valueAt X i j ∧ contextDist X py β j ≠ 0 ∧
        minPmi ≤ pmiValue (valueAt X) X.rows X.cols (contextDist X py β) α i j ∧
        v = pmiValue (valueAt X) X.rows X.cols (contextDist X py β) α i j := by
  have hm := mass_pos h hne
  have hd := dist_nonneg h py hpy β hm.le
  unfold pmi
  rw [if_neg (not_not.2 hβ)]
  dsimp only
  rw [getD_dist X h, if_neg (by simp), thr_eq]
  refine ⟨logarithmAndPpmi (expPmi X (asDiag (rowProb X) 0) (asDiag ((List.range X.cols).map (contextDist X py β)) α)) (Real.exp minPmi),
    by rw [← rowProb_eq h], rfl, rfl, exp_nodup h _ _ _ _, ?_⟩
  intro i j v
  unfold logarithmAndPpmi
  dsimp only
  rw [List.mem_map]
  constructor
  · rintro ⟨⟨i', j', x⟩, he, heq⟩
    cases heq
    rw [List.mem_filter, mem_exp h _ hd hα] at he
    obtain ⟨⟨h1, h2, h3, h4, rfl, h6⟩, h7⟩ := he
    simp only [decide_eq_true_eq] at h7
    refine ⟨h1, h2, h3, h4, ?_, rfl⟩
    unfold pmiValue
    exact (Real.le_log_iff_exp_le h6).2 h7
  · rintro ⟨h1, h2, h3, h4, h5, rfl⟩
    have hr := rowMarginal_pos h h2 h3 hne
    have hq : 0 < contextDist X py β j := lt_of_le_of_ne (hd j h2) (Ne.symm h4)
    have hpos : 0 < joint (valueAt X) X.rows X.cols i j / (rowMarginal (valueAt X) X.rows X.cols i * (contextDist X py β j + α)) := by
      unfold joint; positivity
    refine ⟨(i, j, _), ?_, rfl⟩
    rw [List.mem_filter, mem_exp h _ hd hα]
    refine ⟨⟨h1, h2, h3, h4, rfl, hpos⟩, ?_⟩
    simp only [decide_eq_true_eq]
    exact (Real.le_log_iff_exp_le hpos).1 h5

private theorem marginals_sum {X : Csr} (h : CountMatrix X) (hne : X.entries ≠ []) :
    (∑ i ∈ range X.rows, rowMarginal (valueAt X) X.rows X.cols i = 1) ∧ (∑ j ∈ range X.cols, colMarginal (valueAt X) X.rows X.cols j = 1) := by
  have hm := mass_pos h hne
  have e : ∑ i ∈ range X.rows, rowMarginal (valueAt X) X.rows X.cols i = 1 := by
    unfold rowMarginal joint
    simp only [← Finset.sum_div]
    exact div_self hm.ne'
  refine ⟨e, ?_⟩
  rw [← e]
  unfold rowMarginal colMarginal
  exact Finset.sum_comm

/-- the returned `px` and `py` are probability distributions, whatever the smoothing exponent -/
theorem C67_distributions (X : Csr) (h : CountMatrix X) (hne : X.entries ≠ []) (minPmi α β : ℝ) (hβ : 0 < β ∧ β ≤ 1) :
    ∃ R px py, pmi X none minPmi α β = .ok (R, px, py) ∧ px.length = X.rows ∧ py.length = X.cols ∧ px.sum = 1 ∧ py.sum = 1 ∧
      (∀ v ∈ px, 0 ≤ v) ∧ ∀ v ∈ py, 0 ≤ v := by
  have hm := mass_pos h hne
  have hd := dist_nonneg h none (by simp) β hm.le
  obtain ⟨s1, s2⟩ := marginals_sum h hne
  unfold pmi
  rw [if_neg (not_not.2 hβ)]
  dsimp only
  have e := getD_dist X h none β
  simp only [Option.map_none] at e
  rw [e, if_neg (by simp)]
  refine ⟨_, _, _, rfl, by simp [rowProb], by simp, ?_, ?_, ?_, ?_⟩
  · rw [rowProb_eq h, sum_range_list, s1]
  · rw [sum_range_list]
    unfold contextDist
    simp only [Option.getD_none]
    split
    · unfold tempered
      rw [← Finset.sum_div]
      refine div_self (ne_of_gt ?_)
      obtain ⟨j, hj, hpos⟩ : ∃ j ∈ range X.cols, 0 < colMarginal (valueAt X) X.rows X.cols j := by
        by_contra hc
        push Not at hc
        have := Finset.sum_nonpos hc
        rw [s2] at this
        exact absurd this (by norm_num)
      have h0 : ∀ k, 0 ≤ colMarginal (valueAt X) X.rows X.cols k :=
        fun k => Finset.sum_nonneg (fun i _ => div_nonneg (at_nonneg h i k) hm.le)
      exact Finset.sum_pos' (fun k _ => Real.rpow_nonneg (h0 k) _) ⟨j, hj, Real.rpow_pos_of_pos hpos _⟩
    · exact s2
  · rw [rowProb_eq h]
    intro v hv
    obtain ⟨i, _, rfl⟩ := List.mem_map.1 hv
    exact Finset.sum_nonneg (fun k _ => div_nonneg (at_nonneg h i k) hm.le)
  · intro v hv
    obtain ⟨j, hj, rfl⟩ := List.mem_map.1 hv
    exact hd j (List.mem_range.1 hj)

/-- the matrix with every count multiplied by `c` -/
noncomputable def scaled (c : ℝ) (X : Csr) : Csr := ⟨X.rows, X.cols, X.entries.map (fun e => (e.1, e.2.1, c * e.2.2))⟩

private theorem list_mul (c : ℝ) (es : List (Nat × Nat × ℝ)) (P : Nat × Nat × ℝ → Prop) [DecidablePred P] (hP : ∀ a b x y, P (a, b, x) ↔ P (a, b, y)) :
    ((es.map (fun e => (e.1, e.2.1, c * e.2.2))).map (fun e => if P e then e.2.2 else 0)).sum = c * (es.map (fun e => if P e then e.2.2 else 0)).sum := by
  induction es with
  | nil => simp
  | cons e es ih =>
    simp only [List.map_cons, List.sum_cons] at ih ⊢
    rw [ih, mul_add]
    congr 1
    by_cases h : P e
    · rw [if_pos h, if_pos ((hP _ _ _ _).1 (show P (e.1, e.2.1, e.2.2) from h))]
    · rw [if_neg h, if_neg (fun h' => h ((hP _ _ _ _).1 h')), mul_zero]

/-- **C67** Only proportions matter: multiplying every count by the same positive number changes nothing in the result. -/
theorem C67_scale (X : Csr) (c : ℝ) (hc : 0 < c) (py : Option (List ℝ)) (minPmi α β : ℝ) :
    pmi (scaled c X) py minPmi α β = pmi X py minPmi α β := by
  have ht : total (scaled c X) = c * total X := by
    have := list_mul c X.entries (fun _ => True) (by simp)
    simpa [total, scaled] using this
  have hr : rowProb (scaled c X) = rowProb X := by
    unfold rowProb
    apply List.map_congr_left
    intro i _
    rw [ht, show rowSum (scaled c X) i = c * rowSum X i from list_mul c X.entries (fun e => e.1 = i) (by simp), mul_div_mul_left _ _ hc.ne']
  have hcol : colProb (scaled c X) = colProb X := by
    unfold colProb
    apply List.map_congr_left
    intro i _
    rw [ht, show colSum (scaled c X) i = c * colSum X i from list_mul c X.entries (fun e => e.2.1 = i) (by simp), mul_div_mul_left _ _ hc.ne']
  have he : ∀ dx dy, expPmi (scaled c X) dx dy = expPmi X dx dy := by
    intro dx dy
    unfold expPmi
    rw [ht]
    simp only [scaled, List.map_map]
    congr 2
    apply List.map_congr_left
    intro e _
    simp only [Function.comp]
    rw [mul_div_mul_left _ _ hc.ne']
  unfold pmi
  rw [hr, hcol]
  simp only [he]
  rfl

/-- rows and columns exchanged -/
def transposed (X : Csr) : Csr := ⟨X.cols, X.rows, X.entries.map (fun e => (e.2.1, e.1, e.2.2))⟩

private theorem at_transposed (X : Csr) (i j : Nat) : valueAt (transposed X) i j = valueAt X j i := by
  unfold valueAt transposed
  rw [List.map_map]
  congr 1
  apply List.map_congr_left
  intro e _
  simp only [Function.comp, and_comm]

private theorem counts_transposed {X : Csr} (h : CountMatrix X) : CountMatrix (transposed X) where
  nodup := by
    have : ((transposed X).entries.map (fun e => (e.1, e.2.1))) = (X.entries.map (fun e => (e.1, e.2.1))).map Prod.swap := by
      simp only [transposed, List.map_map]; rfl
    rw [this]
    exact h.nodup.map Prod.swap_injective
  inside := by
    intro e he
    obtain ⟨a, ha, rfl⟩ := List.mem_map.1 he
    exact (h.inside a ha).symm
  pos := by
    intro e he
    obtain ⟨a, ha, rfl⟩ := List.mem_map.1 he
    exact h.pos a ha

/-- **C67** Without smoothing the measure is symmetric: the result for the transposed matrix is the transposed result. -/
theorem C67_symmetric (X : Csr) (h : CountMatrix X) (hne : X.entries ≠ []) (minPmi : ℝ) :
    ∃ R S px py, pmi X none minPmi 0 1 = .ok (R, px, py) ∧ pmi (transposed X) none minPmi 0 1 = .ok (S, py, px) ∧
      ∀ i j v, (i, j, v) ∈ R.entries ↔ (j, i, v) ∈ S.entries := by
  have ht := counts_transposed h
  have hne' : (transposed X).entries ≠ [] := by simpa [transposed] using hne
  obtain ⟨R, h1, _, _, _, h2⟩ := C67_pmi X h hne none (by simp) minPmi 0 1 (le_refl _) (by norm_num)
  obtain ⟨S, h3, _, _, _, h4⟩ := C67_pmi (transposed X) ht hne' none (by simp) minPmi 0 1 (le_refl _) (by norm_num)
  have hmass : mass (valueAt (transposed X)) X.cols X.rows = mass (valueAt X) X.rows X.cols := by
    unfold mass
    rw [Finset.sum_comm]
    simp only [at_transposed]
  have hjoint : ∀ i j, joint (valueAt (transposed X)) X.cols X.rows i j = joint (valueAt X) X.rows X.cols j i := by
    intro i j; unfold joint; rw [hmass, at_transposed]
  have hrow : rowMarginal (valueAt (transposed X)) X.cols X.rows = colMarginal (valueAt X) X.rows X.cols := by
    funext i; unfold rowMarginal colMarginal; simp only [hjoint]
  have hcol : colMarginal (valueAt (transposed X)) X.cols X.rows = rowMarginal (valueAt X) X.rows X.cols := by
    funext i; unfold rowMarginal colMarginal; simp only [hjoint]
  have hc1 : contextDist X none 1 = colMarginal (valueAt X) X.rows X.cols := by unfold contextDist; simp
  have hc2 : contextDist (transposed X) none 1 = rowMarginal (valueAt X) X.rows X.cols := by
    unfold contextDist
    simp only [Option.getD_none, lt_irrefl, if_false]
    exact hcol
  rw [hc1] at h1 h2
  rw [hc2] at h3 h4
  refine ⟨R, S, _, _, h1, ?_, ?_⟩
  · rw [← hrow]; exact h3
  · intro i j v
    rw [h2, h4]
    have hval : pmiValue (valueAt (transposed X)) (transposed X).rows (transposed X).cols (rowMarginal (valueAt X) X.rows X.cols) 0 j i =
        pmiValue (valueAt X) X.rows X.cols (colMarginal (valueAt X) X.rows X.cols) 0 i j := by
      show pmiValue (valueAt (transposed X)) X.cols X.rows _ 0 j i = _
      unfold pmiValue
      rw [hjoint, hrow, add_zero, add_zero, mul_comm]
    rw [hval, at_transposed]
    show _ ↔ j < X.cols ∧ i < X.rows ∧ _
    have hm := mass_pos h hne
    constructor
    · rintro ⟨a, b, c, _, e, f⟩
      exact ⟨b, a, c, (rowMarginal_pos h b c hne).ne', e, f⟩
    · rintro ⟨b, a, c, _, e, f⟩
      have := rowMarginal_pos ht (i := j) (j := i) a (by rw [at_transposed]; exact c) hne'
      have : 0 < rowMarginal (valueAt (transposed X)) X.cols X.rows j := this
      rw [hrow] at this
      exact ⟨a, b, c, this.ne', e, f⟩

/-- a smoothing exponent outside (0, 1] is refused by both functions -/
theorem C67_beta (X : Csr) (py : Option (List ℝ)) (minPmi α β : ℝ) (hβ : ¬ (0 < β ∧ β ≤ 1)) :
    pmi X py minPmi α β = .error .assertion ∧ pmiMemoryFriendly X py minPmi α β = .error .assertion := by
  unfold pmi pmiMemoryFriendly
  exact ⟨if_pos hβ, if_pos hβ⟩

/-- **C67** `pmi_memory_friendly` works only on a matrix of a single column: on every other matrix it fails its own assertion, whatever
    context distribution of shape (1, k) it is given. On a single column, with the computed distribution, it refuses a smoothing exponent
    below 1; in the remaining cases it returns the entries of `pmi` that are strictly above the threshold. -/
theorem C67_memory_friendly (X : Csr) (minPmi α β : ℝ) :
    (X.cols ≠ 1 → ∀ py, pmiMemoryFriendly X py minPmi α β = .error .assertion) ∧
    (X.cols = 1 → 0 < β ∧ β < 1 → pmiMemoryFriendly X none minPmi α β = .error .typeError) ∧
    (X.cols = 1 → CountMatrix X → X.entries ≠ [] → 0 ≤ α → 0 < β ∧ β ≤ 1 →
      ∀ py : Option (Nat → ℝ), (∀ q ∈ py, 0 ≤ q 0) → (py = none → β = 1) →
      ∃ R S px py', pmi X (py.map (fun q => [q 0])) minPmi α β = .ok (R, px, py') ∧
        pmiMemoryFriendly X (py.map (fun q => [q 0])) minPmi α β = .ok (S, px, py') ∧
        ∀ e, e ∈ S.entries ↔ e ∈ R.entries ∧ minPmi < e.2.2) := by
  refine ⟨fun hc py => ?_, fun hc hβ => ?_, fun hc h hne hα hβ py hpy hn => ?_⟩
  · unfold pmiMemoryFriendly
    split
    · rfl
    · exact if_pos (Ne.symm hc)
  · unfold pmiMemoryFriendly
    rw [if_neg (not_not.2 ⟨hβ.1, hβ.2.le⟩), if_neg (not_not.2 hc.symm), if_pos ⟨rfl, hβ.2⟩]
  · have hpy' : ∀ q ∈ py, ∀ j < X.cols, 0 ≤ q j := by
      intro q hq j hj
      have : j = 0 := by omega
      exact this ▸ hpy q hq
    have hone : py.map (fun q => [q 0]) = py.map (fun q => (List.range X.cols).map q) := by
      rw [hc]; rfl
    rw [hone]
    obtain ⟨R, h1, _, _, _, h2⟩ := C67_pmi X h hne py hpy' minPmi α β hα hβ
    have hm := mass_pos h hne
    have hd := dist_nonneg h py hpy' β hm.le
    refine ⟨R, ⟨X.rows, X.cols, ((expPmi X (asDiag (rowProb X) 0) (asDiag ((List.range X.cols).map (contextDist X py β)) α)).entries.filter
        (open Classical in fun e => decide (e.2.2 > Real.exp minPmi))).map (fun e => (e.1, e.2.1, Real.log e.2.2))⟩,
      _, _, h1, ?_, ?_⟩
    · unfold pmiMemoryFriendly
      have hno : ¬ (py.map (fun q => (List.range X.cols).map q) = none ∧ β < 1) := by
        rintro ⟨a, b⟩
        rw [Option.map_eq_none_iff] at a
        rw [hn a] at b
        exact lt_irrefl _ b
      rw [if_neg (not_not.2 hβ), if_neg (not_not.2 hc.symm), if_neg hno]
      dsimp only
      rw [getD_dist X h, if_neg (by simp), thr_eq, rowProb_eq h]
    · rintro ⟨i, j, v⟩
      rw [h2, List.mem_map]
      constructor
      · rintro ⟨⟨i', j', x⟩, he, heq⟩
        cases heq
        rw [List.mem_filter, mem_exp h _ hd hα] at he
        obtain ⟨⟨a1, a2, a3, a4, rfl, a6⟩, a7⟩ := he
        simp only [decide_eq_true_eq] at a7
        have := (Real.lt_log_iff_exp_lt a6).2 a7
        exact ⟨⟨a1, a2, a3, a4, this.le, rfl⟩, this⟩
      · rintro ⟨⟨a1, a2, a3, a4, a5, rfl⟩, a7⟩
        dsimp only at a7
        have hr := rowMarginal_pos h a2 a3 hne
        have hq : 0 < contextDist X py β j := lt_of_le_of_ne (hd j a2) (Ne.symm a4)
        have hpos : 0 < joint (valueAt X) X.rows X.cols i j / (rowMarginal (valueAt X) X.rows X.cols i * (contextDist X py β j + α)) := by
          unfold joint; positivity
        refine ⟨(i, j, _), ?_, rfl⟩
        rw [List.mem_filter, mem_exp h _ hd hα]
        refine ⟨⟨a1, a2, a3, a4, rfl, hpos⟩, ?_⟩
        simp only [decide_eq_true_eq]
        exact (Real.lt_log_iff_exp_lt hpos).1 a7

/-- a 2 x 2 count matrix -/
example : CountMatrix ⟨2, 2, [(0, 0, 3), (1, 0, 1), (1, 1, 2)]⟩ where
  nodup := by simp
  inside := by simp
  pos := by
    intro e he
    simp only [List.mem_cons, List.not_mem_nil, or_false] at he
    rcases he with rfl | rfl | rfl <;> norm_num

end Props
