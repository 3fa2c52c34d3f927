import Verif.Props.C30_C32
/-! C30: the counts of `WordExtractor` when it prunes during training. -/
namespace Props
open Py WX

/-- a count that grows by the occurrences in each sentence and is thrown away where the table is pruned and the count is
    below `m` -/
def prunedRun (m : Int) : Nat → List (Nat × Bool) → Nat
  | c, [] => c
  | c, (n, pruned) :: rest => prunedRun m (if pruned = true ∧ ((c + n : Nat) : Int) < m then 0 else c + n) rest

/-- the table is pruned after the `i`-th sentence: a sentence of two or more words whose index is a multiple of
    `num_for_pruning` -/
def prunes (k : Int) (i : Nat) (sent : Str) : Bool := decide (0 < k ∧ k ∣ (i : Int) ∧ 2 ≤ (splitWs sent).length)

private theorem step (p : Params) (k : Int) (s : State) (hg : Good s) (x : Str × Nat) (w : Str) :
    Dict.getD (trainSent p k s x).L w 0 = (if prunes k x.2 x.1 = true ∧ ((Dict.getD s.L w 0 + prefixCount p.maxLeft (splitWs x.1) w : Nat) : Int) < p.minFrequency
      then 0 else Dict.getD s.L w 0 + prefixCount p.maxLeft (splitWs x.1) w) ∧
    Dict.getD (trainSent p k s x).R w 0 = (if prunes k x.2 x.1 = true ∧ ((Dict.getD s.R w 0 + suffixCount p.maxRight (splitWs x.1) w : Nat) : Int) < p.minFrequency
      then 0 else Dict.getD s.R w 0 + suffixCount p.maxRight (splitWs x.1) w) := by
  have n1 : Dict.getD (incAll s.L (leftKeys p (splitWs x.1))) w 0 = Dict.getD s.L w 0 + prefixCount p.maxLeft (splitWs x.1) w := by
    rw [getD_incAll]; unfold leftKeys; rw [count_left]
  have n2 : Dict.getD (incAll s.R (rightKeys p (splitWs x.1))) w 0 = Dict.getD s.R w 0 + suffixCount p.maxRight (splitWs x.1) w := by
    rw [getD_incAll]; unfold rightKeys; rw [count_right]
  unfold trainSent
  dsimp only
  by_cases hl : (splitWs x.1).length ≤ 1
  · rw [if_pos hl]
    have : ¬ prunes k x.2 x.1 = true := by
      unfold prunes; rw [decide_eq_true_iff]; rintro ⟨_, _, h⟩; omega
    rw [if_neg (fun h => this h.1), if_neg (fun h => this h.1)]
    exact ⟨n1, n2⟩
  · rw [if_neg hl]
    by_cases hc : k > 0 ∧ (x.2 : Int) % k = 0
    · rw [if_pos hc]
      have hp : prunes k x.2 x.1 = true := by
        unfold prunes; rw [decide_eq_true_iff]
        exact ⟨hc.1, Int.dvd_of_emod_eq_zero hc.2, by omega⟩
      constructor
      · show Dict.getD (pruneMin _ (incAll s.L _)) w 0 = _
        rw [getD_pruneMin (wf_incAll hg.wL _), n1]
        by_cases h : ((Dict.getD s.L w 0 + prefixCount p.maxLeft (splitWs x.1) w : Nat) : Int) < p.minFrequency
        · rw [if_neg (by omega), if_pos ⟨hp, h⟩]
        · rw [if_pos (by omega), if_neg (fun h' => h h'.2)]
      · show Dict.getD (pruneMin _ (incAll s.R _)) w 0 = _
        rw [getD_pruneMin (wf_incAll hg.wR _), n2]
        by_cases h : ((Dict.getD s.R w 0 + suffixCount p.maxRight (splitWs x.1) w : Nat) : Int) < p.minFrequency
        · rw [if_neg (by omega), if_pos ⟨hp, h⟩]
        · rw [if_pos (by omega), if_neg (fun h' => h h'.2)]
    · rw [if_neg hc]
      have : ¬ prunes k x.2 x.1 = true := by
        unfold prunes; rw [decide_eq_true_iff]; rintro ⟨h1, h2, _⟩
        exact hc ⟨h1, Int.emod_eq_zero_of_dvd h2⟩
      rw [if_neg (fun h => this h.1), if_neg (fun h => this h.1)]
      exact ⟨n1, n2⟩

theorem wx_fold_pruned (p : Params) (k : Int) (w : Str) (xs : List (Str × Nat)) (s : State) (hg : Good s) :
    Dict.getD (xs.foldl (trainSent p k) s).L w 0 = prunedRun p.minFrequency (Dict.getD s.L w 0)
      (xs.map (fun x => (prefixCount p.maxLeft (splitWs x.1) w, prunes k x.2 x.1))) ∧
    Dict.getD (xs.foldl (trainSent p k) s).R w 0 = prunedRun p.minFrequency (Dict.getD s.R w 0)
      (xs.map (fun x => (suffixCount p.maxRight (splitWs x.1) w, prunes k x.2 x.1))) := by
  induction xs generalizing s with
  | nil => exact ⟨rfl, rfl⟩
  | cons x xs ih =>
    obtain ⟨i1, i2⟩ := ih (trainSent p k s x) (hg.trainSent p k x)
    obtain ⟨e1, e2⟩ := step p k s hg x w
    rw [e1] at i1
    rw [e2] at i2
    exact ⟨i1, i2⟩

theorem wx_run_append (m : Int) (c : Nat) (a b : List (Nat × Bool)) : prunedRun m c (a ++ b) = prunedRun m (prunedRun m c a) b := by
  induction a generalizing c with
  | nil => rfl
  | cons x a ih => exact ih _

theorem wx_last_prune {d : Dict Str Nat} (hw : d.WF) (m : Int) (w : Str) :
    Dict.getD (pruneMin m d) w 0 = prunedRun m (Dict.getD d w 0) [(0, true)] := by
  rw [getD_pruneMin hw]
  simp only [prunedRun, Nat.add_zero, true_and]
  by_cases h : ((Dict.getD d w 0 : Nat) : Int) < m
  · rw [if_neg (by omega), if_pos h]
  · rw [if_pos (by omega), if_neg h]

/-- **C30** Exact counts with pruning, from any earlier training: each word's count is that of a counter run over the sentences,
    reset at every pruning that finds it below `min_frequency`, and once more at the end. -/
theorem C30_pruned_exact (p : Params) (s0 : State) (h0 : Trained p s0) (sents : List Str) (k : Int) (hne : sents ≠ []) :
    ∃ s, train p s0 sents k true = .ok s ∧ ∀ w,
      Dict.getD s.L w 0 = prunedRun p.minFrequency (Dict.getD s0.L w 0)
        (sents.zipIdx.map (fun x => (prefixCount p.maxLeft (splitWs x.1) w, prunes k x.2 x.1)) ++ [(0, true)]) ∧
      Dict.getD s.R w 0 = prunedRun p.minFrequency (Dict.getD s0.R w 0)
        (sents.zipIdx.map (fun x => (suffixCount p.maxRight (splitWs x.1) w, prunes k x.2 x.1)) ++ [(0, true)]) := by
  refine ⟨_, wx_train_ok p s0 sents k true hne, fun w => ?_⟩
  rw [if_pos rfl]
  dsimp only
  have hg := h0.good.foldl p k sents.zipIdx
  obtain ⟨e1, e2⟩ := wx_fold_pruned p k w sents.zipIdx s0 h0.good
  rw [wx_last_prune hg.wL, wx_last_prune hg.wR, wx_run_append, wx_run_append, e1, e2]
  exact ⟨rfl, rfl⟩

/-- pruning at every sentence loses what was seen once before: 가 is counted twice without pruning and never with it -/
example : (match train { minFrequency := 2 } {} ["가나 다라".toList, "가나 다라".toList] 0 with
      | .ok s => some (Dict.getD s.L "가".toList 0) | .error _ => none) = some 2 ∧
    (match train { minFrequency := 2 } {} ["가나 다라".toList, "가나 다라".toList] 1 with
      | .ok s => some (Dict.getD s.L "가".toList 0) | .error _ => none) = some 0 ∧
    prunedRun 2 0 [(1, prunes 1 0 "가나 다라".toList), (1, prunes 1 1 "가나 다라".toList), (0, true)] = 0 := by
  refine ⟨?_, ?_, ?_⟩ <;> decide +kernel

end Props
