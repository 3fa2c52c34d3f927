import Verif.Model.Feed
import Verif.Proofs.WordExtractor
import Mathlib.Tactic.NormNum
/-! C30-C32: the WordExtractor's counts, cohesion scores and accessor tables. -/
namespace Props
open Py WX

/-- the whitespace tokens of a corpus -/
def tokensOf (sents : List Str) : List Str := sents.flatMap splitWs

/-- tokens of length ≥ 2 with prefix `w` (of length 1 … maxLeft+1) -/
def prefixCount (maxLeft : Int) (tokens : List Str) (w : Str) : Nat :=
  tokens.countP (fun t => decide (2 ≤ t.length ∧ w ≠ [] ∧ (w.length : Int) ≤ maxLeft + 1 ∧ w <+: t))

/-- tokens of length ≥ 2 with proper suffix `w` (of length 1 … maxRight) -/
def suffixCount (maxRight : Int) (tokens : List Str) (w : Str) : Nat :=
  tokens.countP (fun t => decide (2 ≤ t.length ∧ w ≠ [] ∧ (w.length : Int) ≤ maxRight ∧ w <:+ t ∧ w.length < t.length))

private theorem leftKeys_eq (p : Params) (sents : List (Str × Nat)) :
    sents.flatMap (fun si => leftKeys p (splitWs si.1)) =
      (tokensOf (sents.map (·.1))).flatMap (fun word => if word.length ≤ 1 then [] else lefts p.maxLeft word) := by
  unfold tokensOf
  induction sents with
  | nil => rfl
  | cons x xs ih => rw [List.flatMap_cons, ih]; simp [leftKeys]

private theorem rightKeys_eq (p : Params) (sents : List (Str × Nat)) :
    sents.flatMap (fun si => rightKeys p (splitWs si.1)) =
      (tokensOf (sents.map (·.1))).flatMap (fun word => if word.length ≤ 1 then [] else rights p.maxRight word) := by
  unfold tokensOf
  induction sents with
  | nil => rfl
  | cons x xs ih => rw [List.flatMap_cons, ih]; simp [rightKeys]

theorem count_left (p : Params) (ts : List Str) (w : Str) :
    (ts.flatMap (fun word => if word.length ≤ 1 then [] else lefts p.maxLeft word)).count w = prefixCount p.maxLeft ts w := by
  apply count_flatMap_indicator
  · intro t _; split
    · exact List.nodup_nil
    · exact nodup_lefts _ _
  · intro t _
    rw [decide_eq_true_iff]
    split
    · rename_i h; simp; omega
    · rename_i h; rw [mem_lefts]; exact ⟨fun h' => ⟨by omega, h'⟩, fun h' => h'.2⟩

theorem count_right (p : Params) (ts : List Str) (w : Str) :
    (ts.flatMap (fun word => if word.length ≤ 1 then [] else rights p.maxRight word)).count w = suffixCount p.maxRight ts w := by
  apply count_flatMap_indicator
  · intro t _; split
    · exact List.nodup_nil
    · exact nodup_rights _ _
  · intro t _
    rw [decide_eq_true_iff]
    split
    · rename_i h; simp; omega
    · rename_i h; rw [mem_rights]; exact ⟨fun h' => ⟨by omega, h'⟩, fun h' => h'.2⟩

private theorem zipIdx_fst (sents : List Str) : sents.zipIdx.map (·.1) = sents := by simp

theorem wx_train_ok (p : Params) (s : State) (sents : List Str) (k : Int) (c : Bool) (hne : sents ≠ []) :
    train p s sents k c = .ok ⟨pruneMin p.minFrequency (sents.zipIdx.foldl (trainSent p k) (if c then s else {})).L,
      pruneMin p.minFrequency (sents.zipIdx.foldl (trainSent p k) (if c then s else {})).R,
      pruneOne (sents.zipIdx.foldl (trainSent p k) (if c then s else {})).aL,
      pruneOne (sents.zipIdx.foldl (trainSent p k) (if c then s else {})).aR⟩ := by
  unfold train
  have : ¬ (sents.length ≤ 0) := by have := List.length_pos_iff.2 hne; omega
  rw [if_neg this]

private theorem get?_inc (ks : List Str) (w : Str) :
    Dict.get? (incAll [] ks) w = if 0 < ks.count w then some (ks.count w) else none := by
  have h1 := getD_incAll [] ks w
  have h2 := mem_keys_incAll [] ks w
  rw [← Dict.isSome_get?_iff] at h2
  simp only [Dict.getD, Dict.get?_nil, Option.getD_none, Nat.zero_add] at h1
  cases hg : Dict.get? (incAll [] ks) w with
  | none =>
    rw [hg] at h2; simp at h2
    rw [if_neg (by rw [List.count_pos_iff]; exact h2)]
  | some v =>
    rw [hg] at h2 h1; simp at h2 h1
    rw [if_pos (by rw [List.count_pos_iff]; exact h2), h1]

/-- **C30** Training a fresh extractor (or any extractor with `cumulate=False`) without intermediate pruning: the left
    table holds `w` exactly when its prefix count is positive and reaches `min_frequency`, with that count; likewise the
    right table with proper suffixes. -/
theorem C30_counts (p : Params) (s0 : State) (sents : List Str) (k : Int) (c : Bool) (hne : sents ≠ []) (hk : k ≤ 0)
    (hfresh : c = false ∨ s0 = {}) :
    ∃ s, train p s0 sents k c = .ok s ∧ ∀ w,
      Dict.get? s.L w = (if 0 < prefixCount p.maxLeft (tokensOf sents) w ∧ p.minFrequency ≤ prefixCount p.maxLeft (tokensOf sents) w
        then some (prefixCount p.maxLeft (tokensOf sents) w) else none) ∧
      Dict.get? s.R w = (if 0 < suffixCount p.maxRight (tokensOf sents) w ∧ p.minFrequency ≤ suffixCount p.maxRight (tokensOf sents) w
        then some (suffixCount p.maxRight (tokensOf sents) w) else none) ∧
      WX.frequency s w = (Dict.getD s.L w 0, Dict.getD s.R w 0) := by
  refine ⟨_, wx_train_ok p s0 sents k c hne, fun w => ?_⟩
  have h0 : (if c = true then s0 else {}) = ({} : State) := by
    rcases hfresh with h | h
    · simp [h]
    · subst h; split <;> rfl
  rw [h0]
  obtain ⟨e1, e2⟩ := foldl_trainSent_noprune p hk sents.zipIdx {}
  have n1 := count_left p (tokensOf sents) w
  have n2 := count_right p (tokensOf sents) w
  refine ⟨?_, ?_, rfl⟩
  · show Dict.get? (pruneMin _ (List.foldl _ (_ : State) _).L) w = _
    rw [get?_pruneMin (((good_init.foldl p k _)).wL), e1, leftKeys_eq, zipIdx_fst, get?_inc, n1]
    by_cases hp : 0 < prefixCount p.maxLeft (tokensOf sents) w
    · by_cases hm : p.minFrequency ≤ prefixCount p.maxLeft (tokensOf sents) w <;> simp [hp, hm, Option.filter]
    · simp [hp]
  · show Dict.get? (pruneMin _ (List.foldl _ (_ : State) _).R) w = _
    rw [get?_pruneMin (((good_init.foldl p k _)).wR), e2, rightKeys_eq, zipIdx_fst, get?_inc, n2]
    by_cases hp : 0 < suffixCount p.maxRight (tokensOf sents) w
    · by_cases hm : p.minFrequency ≤ suffixCount p.maxRight (tokensOf sents) w <;> simp [hp, hm, Option.filter]
    · simp [hp]

example : ["aab ab".toList] ≠ [] ∧ prefixCount 10 (tokensOf ["aab ab".toList]) ['a'] = 2 ∧
    suffixCount 6 (tokensOf ["aab ab".toList]) "ab".toList = 1 := by decide +kernel

/-- **C30** The tables do not depend on the order of the sentences (as mappings). -/
theorem C30_order (p : Params) (sents sents' : List Str) (hp : sents.Perm sents') (hne : sents ≠ []) :
    ∃ s s', train p {} sents = .ok s ∧ train p {} sents' = .ok s' ∧
      ∀ w, Dict.get? s.L w = Dict.get? s'.L w ∧ Dict.get? s.R w = Dict.get? s'.R w := by
  obtain ⟨s, e, h⟩ := C30_counts p {} sents 0 true hne (by omega) (Or.inr rfl)
  have hne' : sents' ≠ [] := fun h => hne (by subst h; exact List.perm_nil.1 hp)
  obtain ⟨s', e', h'⟩ := C30_counts p {} sents' 0 true hne' (by omega) (Or.inr rfl)
  refine ⟨s, s', e, e', fun w => ?_⟩
  have ht : (tokensOf sents).Perm (tokensOf sents') := hp.flatMap_right _
  have n1 : prefixCount p.maxLeft (tokensOf sents) w = prefixCount p.maxLeft (tokensOf sents') w := ht.countP_eq _
  have n2 : suffixCount p.maxRight (tokensOf sents) w = suffixCount p.maxRight (tokensOf sents') w := ht.countP_eq _
  rw [(h w).1, (h' w).1, (h w).2.1, (h' w).2.1, n1, n2]
  exact ⟨rfl, rfl⟩

example : ["ab cd".toList, "ab".toList].Perm ["ab".toList, "ab cd".toList] ∧ ["ab cd".toList, "ab".toList] ≠ [] :=
  ⟨List.Perm.swap _ _ _, by decide⟩

theorem wx_fold_counts (p : Params) (s0 : State) (sents : List Str) {k : Int} (hk : k ≤ 0) (w : Str) :
    Dict.getD (sents.zipIdx.foldl (trainSent p k) s0).L w 0 = Dict.getD s0.L w 0 + prefixCount p.maxLeft (tokensOf sents) w ∧
    Dict.getD (sents.zipIdx.foldl (trainSent p k) s0).R w 0 = Dict.getD s0.R w 0 + suffixCount p.maxRight (tokensOf sents) w := by
  obtain ⟨e1, e2⟩ := foldl_trainSent_noprune p hk sents.zipIdx s0
  have n1 := count_left p (tokensOf sents) w
  have n2 := count_right p (tokensOf sents) w
  rw [leftKeys_eq, zipIdx_fst] at e1
  rw [rightKeys_eq, zipIdx_fst] at e2
  rw [e1, e2, getD_incAll, n1, getD_incAll, n2]
  exact ⟨rfl, rfl⟩

/-- **C30** Cumulative training adds the new counts to the stored ones and prunes below `min_frequency`. -/
theorem C30_cumulate (p : Params) (s0 : State) (hs : s0.L.WF ∧ s0.R.WF) (sents : List Str) (k : Int) (hne : sents ≠ []) (hk : k ≤ 0) :
    ∃ s, train p s0 sents k true = .ok s ∧ ∀ w,
      Dict.getD s.L w 0 = (if p.minFrequency ≤ ((Dict.getD s0.L w 0 + prefixCount p.maxLeft (tokensOf sents) w : Nat) : Int)
        then Dict.getD s0.L w 0 + prefixCount p.maxLeft (tokensOf sents) w else 0) ∧
      Dict.getD s.R w 0 = (if p.minFrequency ≤ ((Dict.getD s0.R w 0 + suffixCount p.maxRight (tokensOf sents) w : Nat) : Int)
        then Dict.getD s0.R w 0 + suffixCount p.maxRight (tokensOf sents) w else 0) := by
  refine ⟨_, wx_train_ok p s0 sents k true hne, fun w => ?_⟩
  obtain ⟨e1, e2⟩ := foldl_trainSent_noprune p hk sents.zipIdx s0
  have n1 := count_left p (tokensOf sents) w
  have n2 := count_right p (tokensOf sents) w
  rw [leftKeys_eq, zipIdx_fst] at e1
  rw [rightKeys_eq, zipIdx_fst] at e2
  constructor
  · show Dict.getD (pruneMin _ (List.foldl _ s0 _).L) w 0 = _
    rw [e1, getD_pruneMin (wf_incAll hs.1 _), getD_incAll, n1]
  · show Dict.getD (pruneMin _ (List.foldl _ s0 _).R) w 0 = _
    rw [e2, getD_pruneMin (wf_incAll hs.2 _), getD_incAll, n2]

example : (⟨[("ab".toList, 3)], [], [], []⟩ : State).L.WF ∧ (⟨[("ab".toList, 3)], [], [], []⟩ : State).R.WF := by
  unfold Dict.WF; decide

private theorem prune_le_fold (p : Params) (k : Int) (sis : List (Str × Nat)) (s : State) (hg : Good s) (w : Str) :
    Dict.getD (sis.foldl (trainSent p k) s).L w 0 ≤ Dict.getD s.L w 0 + (sis.flatMap (fun si => leftKeys p (splitWs si.1))).count w ∧
    Dict.getD (sis.foldl (trainSent p k) s).R w 0 ≤ Dict.getD s.R w 0 + (sis.flatMap (fun si => rightKeys p (splitWs si.1))).count w := by
  induction sis generalizing s with
  | nil => simp
  | cons x xs ih =>
    obtain ⟨i1, i2⟩ := ih (trainSent p k s x) (hg.trainSent p k x)
    rw [List.foldl_cons, List.flatMap_cons, List.flatMap_cons, List.count_append, List.count_append]
    have a1 : Dict.getD (trainSent p k s x).L w 0 ≤ Dict.getD s.L w 0 + (leftKeys p (splitWs x.1)).count w := by
      rw [← getD_incAll]
      unfold trainSent; dsimp only; split
      · exact Nat.le_refl _
      · split
        · show Dict.getD (pruneMin _ (incAll s.L _)) w 0 ≤ _
          rw [getD_pruneMin (wf_incAll hg.wL _)]; split <;> omega
        · exact Nat.le_refl _
    have a2 : Dict.getD (trainSent p k s x).R w 0 ≤ Dict.getD s.R w 0 + (rightKeys p (splitWs x.1)).count w := by
      rw [← getD_incAll]
      unfold trainSent; dsimp only; split
      · exact Nat.le_refl _
      · split
        · show Dict.getD (pruneMin _ (incAll s.R _)) w 0 ≤ _
          rw [getD_pruneMin (wf_incAll hg.wR _)]; split <;> omega
        · exact Nat.le_refl _
    omega

/-- **C30** With pruning during training every stored count is at least `min_frequency` and never above the true count. -/
theorem C30_pruned (p : Params) (sents : List Str) (k : Int) (hne : sents ≠ []) :
    ∃ s, train p {} sents k true = .ok s ∧ ∀ w,
      Dict.getD s.L w 0 ≤ prefixCount p.maxLeft (tokensOf sents) w ∧ Dict.getD s.R w 0 ≤ suffixCount p.maxRight (tokensOf sents) w ∧
      (∀ n, Dict.get? s.L w = some n → p.minFrequency ≤ n) ∧ (∀ n, Dict.get? s.R w = some n → p.minFrequency ≤ n) := by
  refine ⟨_, wx_train_ok p {} sents k true hne, fun w => ?_⟩
  obtain ⟨e1, e2⟩ := prune_le_fold p k sents.zipIdx {} good_init w
  have hg := good_init.foldl p k sents.zipIdx
  have n1 := count_left p (tokensOf sents) w
  have n2 := count_right p (tokensOf sents) w
  rw [leftKeys_eq, zipIdx_fst, n1] at e1
  rw [rightKeys_eq, zipIdx_fst, n2] at e2
  have z : Dict.getD ({} : State).L w 0 = 0 := rfl
  have z' : Dict.getD ({} : State).R w 0 = 0 := rfl
  rw [z, Nat.zero_add] at e1
  rw [z', Nat.zero_add] at e2
  refine ⟨?_, ?_, ?_, ?_⟩
  · show Dict.getD (pruneMin _ (List.foldl _ ({} : State) _).L) w 0 ≤ _
    rw [getD_pruneMin hg.wL]; split
    · exact e1
    · exact Nat.zero_le _
  · show Dict.getD (pruneMin _ (List.foldl _ ({} : State) _).R) w 0 ≤ _
    rw [getD_pruneMin hg.wR]; split
    · exact e2
    · exact Nat.zero_le _
  · intro n hn
    have hm : (w, n) ∈ pruneMin p.minFrequency (sents.zipIdx.foldl (trainSent p k) {}).L := Dict.mem_of_get? hn
    have := (List.mem_filter.1 hm).2
    simpa using this
  · intro n hn
    have hm : (w, n) ∈ pruneMin p.minFrequency (sents.zipIdx.foldl (trainSent p k) {}).R := Dict.mem_of_get? hn
    have := (List.mem_filter.1 hm).2
    simpa using this

/-- **C30** An empty corpus is refused with `ValueError`. -/
theorem C30_empty (p : Params) (s : State) (k : Int) (c : Bool) : train p s [] k c = .error .valueError := rfl

/-! ## C31 -/

/-- the states reachable from a fresh extractor by `train` calls with any arguments, successful ones and ones that fail while the corpus is being read -/
inductive Trained (p : Params) : State → Prop where
  | fresh : Trained p {}
  | step {s s' : State} (sents : List Str) (k : Int) (c : Bool) : Trained p s → train p s sents k c = .ok s' → Trained p s'
  | feed {s : State} (corpus : Feed.Corpus) (k : Int) (c : Bool) : Trained p s → Trained p (Feed.wordTrain p s corpus k c).1

theorem Trained.good {p : Params} {s : State} (h : Trained p s) : Good s := by
  induction h with
  | fresh => exact good_init
  | step sents k c _ e ih => exact ih.train e
  | @feed s0 corpus k c _ ih =>
    have h0 : Good (if c = true then s0 else {}) := by split; exact ih; exact good_init
    have h1 := h0.foldl p k (corpus.pass 0).sents.zipIdx
    unfold Feed.wordTrain
    split
    · exact ih
    · dsimp only
      split
      · exact h1
      · exact (h1.prune p.minFrequency).pruneA

private theorem side (t : Dict Str Nat) (freq len : Nat) (key : Str) (hlen : 1 < len) (hle : freq ≤ Dict.getD t key 0) :
    ∃ x, cohesionSide t freq key len = .ok x ∧ 0 ≤ x ∧ x ≤ 1 ∧ (freq = 0 → x = 0) ∧
      (freq ≠ 0 → x ^ (len - 1) * ((Dict.getD t key 0 : Nat) : ℝ) = (freq : ℝ)) := by
  unfold cohesionSide
  split
  · rename_i h; exact ⟨0, rfl, le_refl _, zero_le_one, fun _ => rfl, fun h' => absurd h h'⟩
  · rename_i h
    cases hg : Dict.get? t key with
    | none => rw [Dict.getD, hg] at hle; simp at hle; omega
    | some n =>
      rw [Dict.getD, hg] at hle; simp at hle
      cases n with
      | zero => omega
      | succ n =>
        have hn : (0 : ℝ) < ((n + 1 : Nat) : ℝ) := by exact_mod_cast Nat.succ_pos n
        have hl : (0 : ℝ) ≤ 1 / ((len : ℝ) - 1) := by
          apply div_nonneg zero_le_one
          have : (1 : ℝ) < len := by exact_mod_cast hlen
          linarith
        have hq : (0 : ℝ) ≤ (freq : ℝ) / ((n + 1 : Nat) : ℝ) := div_nonneg (Nat.cast_nonneg _) hn.le
        refine ⟨_, rfl, ?_, ?_, fun h' => absurd h' h, fun _ => ?_⟩
        · exact Real.rpow_nonneg hq _
        · apply Real.rpow_le_one hq _ hl
          rw [div_le_one hn]
          exact_mod_cast hle
        · have hne : ((len : ℝ) - 1) ≠ 0 := by
            have : (1 : ℝ) < len := by exact_mod_cast hlen
            linarith
          rw [← Real.rpow_natCast, ← Real.rpow_mul hq, Nat.cast_sub hlen.le, Nat.cast_one, one_div, inv_mul_cancel₀ hne, Real.rpow_one]
          simp only [Dict.getD, hg, Option.getD_some]
          exact div_mul_cancel₀ _ hn.ne'

/-- **C31** In every trained state `cohesion_score(w)` returns (no `KeyError`, no `ZeroDivisionError`) a pair in [0,1] for
    every string; for `|w| ≥ 2` each component `x` is the one with `x^(|w|-1) · count(first char) = count(w)` (0 if `w` is
    not counted). -/
theorem C31_cohesion (p : Params) (s : State) (h : Trained p s) (w : Str) :
    ∃ l r, cohesion s w = .ok (l, r) ∧ 0 ≤ l ∧ l ≤ 1 ∧ 0 ≤ r ∧ r ≤ 1 ∧
      (w.length ≤ 1 → l = 0 ∧ r = 0) ∧
      (2 ≤ w.length → l ^ (w.length - 1) * ((Dict.getD s.L (w.take 1) 0 : Nat) : ℝ) = ((Dict.getD s.L w 0 : Nat) : ℝ) ∧
        r ^ (w.length - 1) * ((Dict.getD s.R (w.drop (w.length - 1)) 0 : Nat) : ℝ) = ((Dict.getD s.R w 0 : Nat) : ℝ)) := by
  have hg := h.good
  unfold cohesion
  split
  · rename_i hw; exact ⟨0, 0, rfl, le_refl _, zero_le_one, le_refl _, zero_le_one, fun _ => ⟨rfl, rfl⟩, fun h => by omega⟩
  · rename_i hw
    have hne : w ≠ [] := by rintro rfl; simp at hw
    obtain ⟨x, ex, x0, x1, xz, xp⟩ := side s.L (frequency s w).1 w.length (w.take 1) (by omega) (hg.mL w hne)
    obtain ⟨y, ey, y0, y1, yz, yp⟩ := side s.R (frequency s w).2 w.length (w.drop (w.length - 1)) (by omega) (hg.mR w hne)
    refine ⟨x, y, ?_, x0, x1, y0, y1, fun h => absurd h hw, fun _ => ⟨?_, ?_⟩⟩
    · simp only [ex, ey]
    · by_cases hz : (frequency s w).1 = 0
      · rw [xz hz, zero_pow (by omega), zero_mul]
        have : Dict.getD s.L w 0 = 0 := hz
        rw [this]; simp
      · exact xp hz
    · by_cases hz : (frequency s w).2 = 0
      · rw [yz hz, zero_pow (by omega), zero_mul]
        have : Dict.getD s.R w 0 = 0 := hz
        rw [this]; simp
      · exact yp hz

/-- a trained state exists that counts a word -/
example : ∃ s, Trained { minFrequency := 1 } s ∧ Dict.getD s.L "ab".toList 0 = 2 :=
  ⟨⟨[(['a'], 2), (['a', 'b'], 2)], [(['b'], 2)], [("ab a".toList, 2), ("b a".toList, 2)], [("b ab".toList, 2), ("b a".toList, 2)]⟩,
    .step ["ab ab".toList] 0 true .fresh (by decide +kernel), by decide +kernel⟩

/-! ## C32 -/

private theorem get?_appendTo (d : Dict Str (List Str)) (k w k' : Str) :
    Dict.get? (appendTo d k w) k' = if k = k' then some (Dict.getD d k' [] ++ [w]) else Dict.get? d k' := by
  unfold appendTo; rw [Dict.get?_set]; split
  · rename_i h; subst h; rfl
  · rfl

private theorem foldl_appendTo (f : Str → Str) (ws : List Str) (d : Dict Str (List Str)) (hd : ∀ k, Dict.get? d k ≠ some []) (k : Str) :
    Dict.getD (ws.foldl (fun d w => appendTo d (f w) w) d) k [] = Dict.getD d k [] ++ ws.filter (fun w => decide (f w = k)) ∧
    (Dict.get? (ws.foldl (fun d w => appendTo d (f w) w) d) k ≠ some []) := by
  induction ws generalizing d with
  | nil => exact ⟨by simp, hd k⟩
  | cons w ws ih =>
    rw [List.foldl_cons]
    obtain ⟨i1, i2⟩ := ih (appendTo d (f w) w) (by
      intro k'; rw [get?_appendTo]; split
      · simp
      · exact hd k')
    refine ⟨?_, i2⟩
    rw [i1]
    simp only [Dict.getD, get?_appendTo, List.filter_cons]
    by_cases h : f w = k <;> simp [h]

private theorem wf_appendTo {d : Dict Str (List Str)} (h : d.WF) (k w : Str) : (appendTo d k w).WF := h.set _ _

private theorem wf_foldl_appendTo (f : Str → Str) (ws : List Str) {d : Dict Str (List Str)} (h : d.WF) :
    (ws.foldl (fun d w => appendTo d (f w) w) d).WF := by
  induction ws generalizing d with
  | nil => exact h
  | cons w ws ih => exact ih (wf_appendTo h _ _)

private theorem get?_extensions (parse : Str → Str) (ws ws' : List Str) (k : Str) :
    Dict.get? (extensions parse ws ws') k =
      (if ws.filter (fun w => decide (parse w = k)) ++ ws'.filter (fun w => decide (parse (noBlank w) = k)) = [] then none
       else some (ws.filter (fun w => decide (parse w = k)) ++ ws'.filter (fun w => decide (parse (noBlank w) = k)))) := by
  unfold extensions
  have h1 := fun k => foldl_appendTo parse ws [] (by simp) k
  have h2 := foldl_appendTo (fun w => parse (noBlank w)) ws' (ws.foldl (fun d w => appendTo d (parse w) w) []) (fun k => (h1 k).2) k
  obtain ⟨a, b⟩ := h2
  rw [(h1 k).1] at a
  simp only [Dict.getD, Dict.get?_nil, Option.getD_none, List.nil_append] at a
  generalize hh : ws.filter (fun w => decide (parse w = k)) ++ ws'.filter (fun w => decide (parse (noBlank w) = k)) = l at a ⊢
  cases hg : Dict.get? (ws'.foldl (fun d w => appendTo d (parse (noBlank w)) w) (ws.foldl (fun d w => appendTo d (parse w) w) [])) k with
  | none => rw [hg] at a; simp at a; simp [← a]
  | some v =>
    rw [hg] at a b; simp at a b
    subst a; simp [b]

private theorem wf_extensions (parse : Str → Str) (ws ws' : List Str) : (extensions parse ws ws').WF :=
  wf_foldl_appendTo _ _ (wf_foldl_appendTo _ _ Dict.wf_nil)

/-- one stage of the table -/
private theorem get?_stage {α : Type} (g : Str → List Str → α) (es : Dict Str (List Str)) (wf : es.WF) (be : Dict Str α) (k : Str) :
    Dict.get? (es.foldl (fun be e => Dict.set be e.1 (g e.1 e.2)) be) k =
      match Dict.get? es k with
      | some l => some (g k l)
      | none => Dict.get? be k := by
  induction es generalizing be with
  | nil => rfl
  | cons e es ih =>
    obtain ⟨a, l⟩ := e
    have wf' := wf
    simp only [Dict.WF, Dict.keys, List.map_cons, List.nodup_cons] at wf'
    rw [List.foldl_cons, ih wf'.2, Dict.get?_cons, Dict.get?_set]
    by_cases h : a = k
    · subst h
      have : Dict.get? es a = none := by rw [Dict.get?_eq_none_iff]; exact wf'.1
      simp [this]
    · simp only [if_neg h]

private theorem get?_table {α : Type} (score : Dict Str Nat → α) (parse : Str → Str) (m : Int) (counter counterA : Dict Str Nat) (k : Str)
    (F : List Str) (hk : 1 ≤ k.length)
    (hF : ∀ i : Nat, (ofLength counter ((i : Int) + 2)).filter (fun w => decide (parse w = k)) ++
        (ofLength counterA ((i : Int) + 3)).filter (fun w => decide (parse (noBlank w) = k)) = if i + 1 = k.length then F else []) :
    Dict.get? (entropyTable score parse m counter counterA) k =
      if F = [] ∨ ¬ (k.length : Int) + 1 < m then none else some (score (extFreq counter counterA F)) := by
  unfold entropyTable
  have step : ∀ (i : Nat) (be : Dict Str α),
      Dict.get? ((extensions parse (ofLength counter ((i : Int) + 2)) (ofLength counterA ((i : Int) + 3))).foldl
        (fun be e => Dict.set be e.1 (score (extFreq counter counterA e.2))) be) k =
      if i + 1 = k.length ∧ F ≠ [] then some (score (extFreq counter counterA F)) else Dict.get? be k := by
    intro i be
    rw [get?_stage (fun _ l => score (extFreq counter counterA l)) _ (wf_extensions _ _ _), get?_extensions, hF i]
    by_cases h1 : i + 1 = k.length
    · by_cases h2 : F = [] <;> simp [h1, h2]
    · simp [h1]
  have main : ∀ (n : Nat),
      Dict.get? ((List.range n).foldl (fun be (i : Nat) =>
        (extensions parse (ofLength counter ((i : Int) + 2)) (ofLength counterA ((i : Int) + 3))).foldl
          (fun be e => Dict.set be e.1 (score (extFreq counter counterA e.2))) be) []) k =
      if k.length ≤ n ∧ F ≠ [] then some (score (extFreq counter counterA F)) else none := by
    intro n
    induction n with
    | zero => rw [if_neg (by omega)]; rfl
    | succ n ih =>
      rw [List.range_succ, List.foldl_append, List.foldl_cons, List.foldl_nil, step, ih]
      by_cases hF0 : F = []
      · simp [hF0]
      · by_cases h1 : n + 1 = k.length
        · rw [if_pos ⟨h1, hF0⟩, if_pos ⟨by omega, hF0⟩]
        · rw [if_neg (fun h => h1 h.1)]
          by_cases h2 : k.length ≤ n
          · rw [if_pos ⟨h2, hF0⟩, if_pos ⟨by omega, hF0⟩]
          · rw [if_neg (fun h => h2 h.1), if_neg (fun h => by omega)]
  rw [main]
  by_cases hF0 : F = []
  · simp [hF0]
  · by_cases hkm : (k.length : Int) + 1 < m
    · rw [if_pos ⟨by omega, hF0⟩, if_neg (fun h => h.elim hF0 (fun h => h hkm))]
    · rw [if_neg (fun h => by omega), if_pos (Or.inr hkm)]

private theorem ofList_eq_self {ν : Type} (xs : Dict Str ν) (h : xs.WF) : Dict.ofList xs = xs := by
  have : ∀ (ys zs : Dict Str ν), (zs ++ ys).WF → ys.foldl (fun d e => Dict.set d e.1 e.2) zs = zs ++ ys := by
    intro ys
    induction ys with
    | nil => intro zs _; simp
    | cons y ys ih =>
      intro zs hw
      rw [List.foldl_cons]
      have hs : Dict.set zs y.1 y.2 = zs ++ [y] := by
        have hn : y.1 ∉ Dict.keys zs := by
          intro hm
          simp only [Dict.WF, Dict.keys, List.map_append, List.map_cons, List.nodup_append] at hw
          exact hw.2.2 _ hm _ (by simp) rfl
        clear hw ih
        induction zs with
        | nil => rfl
        | cons z zs ihz =>
          have h1 : z.1 ≠ y.1 := fun e => hn (by simp [Dict.keys, e])
          have h2 : y.1 ∉ Dict.keys zs := fun hm => hn (by simp only [Dict.keys, List.map_cons, List.mem_cons]; exact Or.inr hm)
          obtain ⟨z1, z2⟩ := z
          simp only [Dict.set, if_neg h1, ihz h2, List.cons_append]
      rw [hs, ih _ (by simpa using hw)]; simp
  exact this xs [] h

private theorem foldl_set_append {ν : Type} (ys zs : Dict Str ν) (hw : (zs ++ ys).WF) :
    ys.foldl (fun d e => Dict.set d e.1 e.2) zs = zs ++ ys := by
  have h1 := ofList_eq_self (zs ++ ys) hw
  have h2 := ofList_eq_self zs (hw.sublist (List.sublist_append_left zs ys))
  unfold Dict.ofList at h1 h2
  rw [List.foldl_append, h2] at h1
  exact h1

/-- the dictionary built from the extension list is the filtered tables side by side -/
private theorem extFreq_eq (A B : Dict Str Nat) (wA : A.WF) (wB : B.WF) (bA : ∀ k ∈ Dict.keys A, ' ' ∉ k) (bB : ∀ k ∈ Dict.keys B, ' ' ∈ k)
    (f g : Str × Nat → Bool) :
    extFreq A B ((A.filter f).map (·.1) ++ (B.filter g).map (·.1)) = A.filter f ++ B.filter g ∧ Dict.WF (A.filter f ++ B.filter g) := by
  have hwf : Dict.WF (A.filter f ++ B.filter g) := by
    simp only [Dict.WF, Dict.keys, List.map_append]
    rw [List.nodup_append]
    refine ⟨wA.filter f, wB.filter g, ?_⟩
    rintro a ha b hb rfl
    exact bA a ((List.filter_sublist.map _).subset ha) (bB a ((List.filter_sublist.map _).subset hb))
  refine ⟨?_, hwf⟩
  unfold extFreq
  rw [List.map_append, List.map_map, List.map_map]
  have e1 : (A.filter f).map ((fun ext => (ext, if ' ' ∈ ext then Dict.getD B ext 0 else Dict.getD A ext 0)) ∘ (·.1)) = A.filter f := by
    conv => rhs; rw [← List.map_id (A.filter f)]
    apply List.map_congr_left
    rintro ⟨k, v⟩ hm
    have hm' := (List.mem_filter.1 hm).1
    have : ' ' ∉ k := bA k (List.mem_map.2 ⟨_, hm', rfl⟩)
    simp only [Function.comp, id, if_neg this, Dict.getD, Dict.get?_of_mem wA hm', Option.getD_some]
  have e2 : (B.filter g).map ((fun ext => (ext, if ' ' ∈ ext then Dict.getD B ext 0 else Dict.getD A ext 0)) ∘ (·.1)) = B.filter g := by
    conv => rhs; rw [← List.map_id (B.filter g)]
    apply List.map_congr_left
    rintro ⟨k, v⟩ hm
    have hm' := (List.mem_filter.1 hm).1
    have : ' ' ∈ k := bB k (List.mem_map.2 ⟨_, hm', rfl⟩)
    simp only [Function.comp, id, if_pos this, Dict.getD, Dict.get?_of_mem wB hm', Option.getD_some]
  rw [e1, e2, ofList_eq_self _ hwf]

private theorem keys_filter (d : Dict Str Nat) (q : Str → Bool) : (d.map (·.1)).filter q = (d.filter (fun kv => q kv.1)).map (·.1) := by
  rw [List.filter_map]; rfl

private theorem left_stage (s : State) (hg : Good s) (w : Str) (i : Nat) :
    (ofLength s.R ((i : Int) + 2)).filter (fun x => decide (x.drop 1 = w)) ++
      (ofLength s.aR ((i : Int) + 3)).filter (fun x => decide ((noBlank x).drop 1 = w)) =
    if i + 1 = w.length then
      (s.R.filter (fun kv => decide ((kv.1.length : Int) - 1 = w.length ∧ kv.1.drop 1 = w))).map (·.1) ++
      (s.aR.filter (fun kv => decide ((kv.1.length : Int) - 2 = w.length ∧ kv.1.drop 2 = w))).map (·.1)
    else [] := by
  unfold ofLength
  rw [List.filter_filter, List.filter_filter, keys_filter, keys_filter]
  have c1 : s.R.filter (fun kv => decide (kv.1.drop 1 = w) && decide ((kv.1.length : Int) = (i : Int) + 2)) =
      if i + 1 = w.length then s.R.filter (fun kv => decide ((kv.1.length : Int) - 1 = w.length ∧ kv.1.drop 1 = w)) else [] := by
    split
    · rename_i h
      apply List.filter_congr
      intro kv _
      rw [Bool.eq_iff_iff, Bool.and_eq_true, decide_eq_true_iff, decide_eq_true_iff, decide_eq_true_iff]
      constructor
      · rintro ⟨a, b⟩; exact ⟨by omega, a⟩
      · rintro ⟨a, b⟩; exact ⟨b, by omega⟩
    · rename_i h
      rw [List.filter_eq_nil_iff]
      rintro kv _ hk
      rw [Bool.and_eq_true, decide_eq_true_iff, decide_eq_true_iff] at hk
      have := congrArg List.length hk.1
      rw [List.length_drop] at this; omega
  have c2 : s.aR.filter (fun kv => decide ((noBlank kv.1).drop 1 = w) && decide ((kv.1.length : Int) = (i : Int) + 3)) =
      if i + 1 = w.length then s.aR.filter (fun kv => decide ((kv.1.length : Int) - 2 = w.length ∧ kv.1.drop 2 = w)) else [] := by
    have hshape : ∀ kv ∈ s.aR, (noBlank kv.1).drop 1 = kv.1.drop 2 ∧ 2 ≤ kv.1.length := by
      intro kv hkv
      obtain ⟨v, c, e, hv, hc⟩ := hg.shR kv.1 (List.mem_map.2 ⟨_, hkv, rfl⟩)
      rw [e]
      refine ⟨?_, by simp⟩
      have : v.filter (fun c => decide (c ≠ ' ')) = v := by
        rw [List.filter_eq_self]; intro a ha; simp; rintro rfl; exact hv ha
      simp [noBlank, hc] at this ⊢; exact this
    split
    · rename_i h
      apply List.filter_congr
      intro kv hkv
      obtain ⟨e, _⟩ := hshape kv hkv
      rw [Bool.eq_iff_iff, Bool.and_eq_true, decide_eq_true_iff, decide_eq_true_iff, decide_eq_true_iff, e]
      constructor
      · rintro ⟨a, b⟩; exact ⟨by omega, a⟩
      · rintro ⟨a, b⟩; exact ⟨b, by omega⟩
    · rename_i h
      rw [List.filter_eq_nil_iff]
      rintro kv hkv hk
      obtain ⟨e, _⟩ := hshape kv hkv
      rw [Bool.and_eq_true, decide_eq_true_iff, decide_eq_true_iff, e] at hk
      have := congrArg List.length hk.1
      rw [List.length_drop] at this; omega
  rw [c1, c2]
  split <;> simp

private theorem right_stage (s : State) (hg : Good s) (w : Str) (i : Nat) :
    (ofLength s.L ((i : Int) + 2)).filter (fun x => decide (x.dropLast = w)) ++
      (ofLength s.aL ((i : Int) + 3)).filter (fun x => decide ((noBlank x).dropLast = w)) =
    if i + 1 = w.length then
      (s.L.filter (fun kv => decide ((kv.1.length : Int) - 1 = w.length ∧ kv.1.dropLast = w))).map (·.1) ++
      (s.aL.filter (fun kv => decide ((kv.1.length : Int) - 2 = w.length ∧ kv.1.take (kv.1.length - 2) = w))).map (·.1)
    else [] := by
  unfold ofLength
  rw [List.filter_filter, List.filter_filter, keys_filter, keys_filter]
  have c1 : s.L.filter (fun kv => decide (kv.1.dropLast = w) && decide ((kv.1.length : Int) = (i : Int) + 2)) =
      if i + 1 = w.length then s.L.filter (fun kv => decide ((kv.1.length : Int) - 1 = w.length ∧ kv.1.dropLast = w)) else [] := by
    split
    · rename_i h
      apply List.filter_congr
      intro kv _
      rw [Bool.eq_iff_iff, Bool.and_eq_true, decide_eq_true_iff, decide_eq_true_iff, decide_eq_true_iff]
      constructor
      · rintro ⟨a, b⟩; exact ⟨by omega, a⟩
      · rintro ⟨a, b⟩; exact ⟨b, by omega⟩
    · rename_i h
      rw [List.filter_eq_nil_iff]
      rintro kv _ hk
      rw [Bool.and_eq_true, decide_eq_true_iff, decide_eq_true_iff] at hk
      have := congrArg List.length hk.1
      rw [List.length_dropLast] at this; omega
  have c2 : s.aL.filter (fun kv => decide ((noBlank kv.1).dropLast = w) && decide ((kv.1.length : Int) = (i : Int) + 3)) =
      if i + 1 = w.length then s.aL.filter (fun kv => decide ((kv.1.length : Int) - 2 = w.length ∧ kv.1.take (kv.1.length - 2) = w)) else [] := by
    have hshape : ∀ kv ∈ s.aL, (noBlank kv.1).dropLast = kv.1.take (kv.1.length - 2) ∧ 2 ≤ kv.1.length := by
      intro kv hkv
      obtain ⟨v, c, e, hv, hc⟩ := hg.shL kv.1 (List.mem_map.2 ⟨_, hkv, rfl⟩)
      rw [e]
      refine ⟨?_, by simp⟩
      have : v.filter (fun c => decide (c ≠ ' ')) = v := by
        rw [List.filter_eq_self]; intro a ha; simp; rintro rfl; exact hv ha
      have e2 : noBlank (v ++ [' ', c]) = v ++ [c] := by
        unfold noBlank; rw [List.filter_append, this]; simp [hc]
      rw [e2]; simp
    split
    · rename_i h
      apply List.filter_congr
      intro kv hkv
      obtain ⟨e, _⟩ := hshape kv hkv
      rw [Bool.eq_iff_iff, Bool.and_eq_true, decide_eq_true_iff, decide_eq_true_iff, decide_eq_true_iff, e]
      constructor
      · rintro ⟨a, b⟩; exact ⟨by omega, a⟩
      · rintro ⟨a, b⟩; exact ⟨b, by omega⟩
    · rename_i h
      rw [List.filter_eq_nil_iff]
      rintro kv hkv hk
      obtain ⟨e, _⟩ := hshape kv hkv
      rw [Bool.and_eq_true, decide_eq_true_iff, decide_eq_true_iff, e] at hk
      have := congrArg List.length hk.1
      rw [List.length_take] at this; omega
  rw [c1, c2]
  split <;> simp

theorem leftExt_eq (s : State) (hg : Good s) (w : Str) : leftExt s w =
    s.R.filter (fun kv => decide ((kv.1.length : Int) - 1 = w.length ∧ kv.1.drop 1 = w)) ++
    s.aR.filter (fun kv => decide ((kv.1.length : Int) - 2 = w.length ∧ kv.1.drop 2 = w)) := by
  unfold leftExt
  apply foldl_set_append
  refine (extFreq_eq s.R s.aR hg.wR hg.waR hg.bR ?_ _ _).2
  intro k hk; obtain ⟨v, c, e, _⟩ := hg.shR k hk; rw [e]; simp

theorem rightExt_eq (s : State) (hg : Good s) (w : Str) : rightExt s w =
    s.L.filter (fun kv => decide ((kv.1.length : Int) - 1 = w.length ∧ kv.1.dropLast = w)) ++
    s.aL.filter (fun kv => decide ((kv.1.length : Int) - 2 = w.length ∧ kv.1.take (kv.1.length - 2) = w)) := by
  unfold rightExt
  apply foldl_set_append
  refine (extFreq_eq s.L s.aL hg.wL hg.waL hg.bL ?_ _ _).2
  intro k hk; obtain ⟨v, c, e, _⟩ := hg.shL k hk; rw [e]; simp

private theorem get?_left_table {α : Type} (score : Dict Str Nat → α) (p : Params) (s : State) (hg : Good s) (w : Str)
    (h1 : 1 ≤ w.length) :
    Dict.get? (entropyTable score (fun e => e.drop 1) (p.maxRight + 1) s.R s.aR) w =
      if leftExt s w = [] ∨ ¬ (w.length : Int) < p.maxRight then none else some (score (leftExt s w)) := by
  rw [get?_table score (fun e => e.drop 1) (p.maxRight + 1) s.R s.aR w _ h1 (fun i => left_stage s hg w i),
    (extFreq_eq s.R s.aR hg.wR hg.waR hg.bR (by intro k hk; obtain ⟨v, c, e, _⟩ := hg.shR k hk; rw [e]; simp) _ _).1, leftExt_eq s hg]
  simp only [List.append_eq_nil_iff, List.map_eq_nil_iff, Int.add_lt_add_iff_right]

private theorem get?_right_table {α : Type} (score : Dict Str Nat → α) (p : Params) (s : State) (hg : Good s) (w : Str)
    (h1 : 1 ≤ w.length) :
    Dict.get? (entropyTable score (fun e => e.dropLast) (p.maxLeft + 1) s.L s.aL) w =
      if rightExt s w = [] ∨ ¬ (w.length : Int) < p.maxLeft then none else some (score (rightExt s w)) := by
  rw [get?_table score (fun e => e.dropLast) (p.maxLeft + 1) s.L s.aL w _ h1 (fun i => right_stage s hg w i),
    (extFreq_eq s.L s.aL hg.wL hg.waL hg.bL (by intro k hk; obtain ⟨v, c, e, _⟩ := hg.shL k hk; rw [e]; simp) _ _).1, rightExt_eq s hg]
  simp only [List.append_eq_nil_iff, List.map_eq_nil_iff, Int.add_lt_add_iff_right]

private theorem wf_entropyTable {α : Type} (score : Dict Str Nat → α) (parse : Str → Str) (m : Int) (A B : Dict Str Nat) :
    (entropyTable score parse m A B).WF := by
  unfold entropyTable
  have inner : ∀ (es : Dict Str (List Str)) (be : Dict Str α), be.WF → (es.foldl (fun be e => Dict.set be e.1 (score (extFreq A B e.2))) be).WF := by
    intro es
    induction es with
    | nil => intro be h; exact h
    | cons e es ih => intro be h; exact ih _ (h.set _ _)
  have outer : ∀ (is : List Nat) (be : Dict Str α), be.WF → (is.foldl (fun be (i : Nat) =>
      (extensions parse (ofLength A ((i : Int) + 2)) (ofLength B ((i : Int) + 3))).foldl
        (fun be e => Dict.set be e.1 (score (extFreq A B e.2))) be) be).WF := by
    intro is
    induction is with
    | nil => intro be h; exact h
    | cons i is ih => intro be h; exact ih _ (inner _ _ h)
  exact outer _ _ Dict.wf_nil

private theorem get?_map_pair {α : Type} (l : Dict Str α) (g : Str → α → α × α) (k : Str) :
    Dict.get? (l.map (fun e => (e.1, g e.1 e.2))) k = (Dict.get? l k).map (g k) := by
  induction l with
  | nil => rfl
  | cons e l ih =>
    obtain ⟨a, b⟩ := e
    simp only [List.map_cons, Dict.get?_cons, ih]
    by_cases h : a = k
    · subst h; simp
    · simp [h]

private theorem get?_merge {α : Type} [Zero α] (l r : Dict Str α) (wr : r.WF) (k : Str) :
    Dict.getD (merge l r) k (0, 0) = (Dict.getD l k 0, Dict.getD r k 0) := by
  have key : ∀ (r' : Dict Str α) (be : Dict Str (α × α)), r'.WF →
      Dict.get? (r'.foldl (fun be e => if Dict.has l e.1 then be else Dict.set be e.1 (0, e.2)) be) k =
        (if Dict.has l k then Dict.get? be k else match Dict.get? r' k with | some v => some (0, v) | none => Dict.get? be k) := by
    intro r'
    induction r' with
    | nil => intro be _; split <;> rfl
    | cons e r' ih =>
      intro be w'
      obtain ⟨a, v⟩ := e
      have w2 := w'
      simp only [Dict.WF, Dict.keys, List.map_cons, List.nodup_cons] at w2
      rw [List.foldl_cons, ih _ w2.2]
      by_cases ha : a = k
      · subst ha
        have hn : Dict.get? r' a = none := by rw [Dict.get?_eq_none_iff]; exact w2.1
        by_cases hl : Dict.has l a = true
        · simp only [hl, if_true]
        · simp only [Bool.not_eq_true] at hl
          simp only [hl, Bool.false_eq_true, if_false, hn, Dict.get?_cons, if_true, Dict.get?_set]
      · have : Dict.get? ((fun be e => if Dict.has l e.1 then be else Dict.set be e.1 ((0 : α), e.2)) be (a, v)) k = Dict.get? be k := by
          dsimp only; split
          · rfl
          · rw [Dict.get?_set, if_neg ha]
        rw [this, Dict.get?_cons, if_neg ha]
  unfold merge
  rw [Dict.getD, key r _ wr, get?_map_pair l (fun k v => (v, Dict.getD r k 0))]
  simp only [Dict.getD, Dict.has]
  cases hl : Dict.get? l k with
  | some v => simp
  | none =>
    cases hr : Dict.get? r k with
    | none => simp
    | some v => simp

private theorem batch_all {α : Type} [Zero α] (score : Dict Str Nat → α) (p : Params) (s : State) (hg : Good s) (w : Str)
    (h1 : 1 ≤ w.length) :
    Dict.getD (allBranching score p s) w (0, 0) =
      (if leftExt s w = [] ∨ ¬ (w.length : Int) < p.maxRight then 0 else score (leftExt s w),
       if rightExt s w = [] ∨ ¬ (w.length : Int) < p.maxLeft then 0 else score (rightExt s w)) := by
  unfold allBranching
  rw [get?_merge _ _ (wf_entropyTable _ _ _ _ _)]
  simp only [Dict.getD]
  rw [get?_left_table score p s hg w h1, get?_right_table score p s hg w h1]
  by_cases a : leftExt s w = [] ∨ ¬ (w.length : Int) < p.maxRight <;> by_cases b : rightExt s w = [] ∨ ¬ (w.length : Int) < p.maxLeft <;>
    simp only [a, b, if_true, if_false, Option.getD_none, Option.getD_some]

private theorem batch_eq {α : Type} [Zero α] (score : Dict Str Nat → α) (p : Params) (s : State) (hg : Good s) (w : Str)
    (h1 : 1 ≤ w.length) (hr : (w.length : Int) < p.maxRight) (hl : (w.length : Int) < p.maxLeft) :
    Dict.getD (allBranching score p s) w (0, 0) =
      (if leftExt s w = [] then 0 else score (leftExt s w), if rightExt s w = [] then 0 else score (rightExt s w)) := by
  rw [batch_all score p s hg w h1]
  simp only [hr, hl, not_true_eq_false, or_false]

/-- **C32** What the batch tables hold for every word, whatever its length: each side is the single-word value if the word is shorter
    than that side's limit (left values come from the right table and `max_right_length`, right values from the left one), and 0 if not
    - so for longer words batch and single query can disagree. -/
theorem C32_batch (p : Params) (s : State) (h : Trained p s) (w : Str) (h1 : w ≠ []) :
    Dict.getD (allAccessorVariety p s) w (0, 0) =
      (if (w.length : Int) < p.maxRight then (accessorVariety s w).1 else 0, if (w.length : Int) < p.maxLeft then (accessorVariety s w).2 else 0) ∧
    Dict.getD (allBranching entropy p s) w (0, 0) =
      (if (w.length : Int) < p.maxRight then (branchingEntropy s w).1 else 0, if (w.length : Int) < p.maxLeft then (branchingEntropy s w).2 else 0) := by
  unfold allAccessorVariety accessorVariety branchingEntropy
  rw [batch_all List.length p s h.good w (List.length_pos_iff.2 h1), batch_all entropy p s h.good w (List.length_pos_iff.2 h1)]
  refine ⟨Prod.ext ?_ ?_, Prod.ext ?_ ?_⟩ <;> dsimp only
  · by_cases a : leftExt s w = [] <;> by_cases b : (w.length : Int) < p.maxRight <;> simp [a, b]
  · by_cases a : rightExt s w = [] <;> by_cases b : (w.length : Int) < p.maxLeft <;> simp [a, b]
  · by_cases a : leftExt s w = [] <;> by_cases b : (w.length : Int) < p.maxRight <;> simp [a, b]
  · by_cases a : rightExt s w = [] <;> by_cases b : (w.length : Int) < p.maxLeft <;> simp [a, b]

/-- **C32** In every trained state the batch accessor-variety table and the single-word query agree on every non-empty word
    shorter than both limits (absent meaning (0, 0)). -/
theorem C32_accessor_variety (p : Params) (s : State) (h : Trained p s) (w : Str) (h1 : w ≠ [])
    (hr : (w.length : Int) < p.maxRight) (hl : (w.length : Int) < p.maxLeft) :
    Dict.getD (allAccessorVariety p s) w (0, 0) = accessorVariety s w := by
  unfold allAccessorVariety accessorVariety
  rw [batch_eq List.length p s h.good w (List.length_pos_iff.2 h1) hr hl]
  by_cases a : leftExt s w = [] <;> by_cases b : rightExt s w = [] <;> simp [a, b]

/-- **C32** The same for branching entropy. -/
theorem C32_branching_entropy (p : Params) (s : State) (h : Trained p s) (w : Str) (h1 : w ≠ [])
    (hr : (w.length : Int) < p.maxRight) (hl : (w.length : Int) < p.maxLeft) :
    Dict.getD (allBranching entropy p s) w (0, 0) = branchingEntropy s w := by
  rw [batch_eq entropy p s h.good w (List.length_pos_iff.2 h1) hr hl]
  rfl

/-- **C32** What the number is: the left accessor variety of a word is the number of right-table entries that are one character
    longer and end in it plus the number of `c w` pairs (character before a word start, blank, `w`). -/
theorem C32_meaning (p : Params) (s : State) (h : Trained p s) (w : Str) :
    accessorVariety s w =
      ((s.R.map (·.1)).countP (fun k => decide (k.length = w.length + 1 ∧ w <:+ k)) +
        (s.aR.map (·.1)).countP (fun k => decide (k.length = w.length + 2 ∧ w <:+ k)),
       (s.L.map (·.1)).countP (fun k => decide (k.length = w.length + 1 ∧ w <+: k)) +
        (s.aL.map (·.1)).countP (fun k => decide (k.length = w.length + 2 ∧ w <+: k))) := by
  have hg := h.good
  unfold accessorVariety
  rw [leftExt_eq s hg, rightExt_eq s hg, List.length_append, List.length_append, List.countP_map, List.countP_map, List.countP_map,
    List.countP_map, List.countP_eq_length_filter, List.countP_eq_length_filter, List.countP_eq_length_filter, List.countP_eq_length_filter]
  refine Prod.ext ?_ ?_ <;> dsimp only <;> congr 2 <;> apply List.filter_congr <;> intro kv _ <;>
    rw [Function.comp, Bool.eq_iff_iff, decide_eq_true_iff, decide_eq_true_iff]
  · constructor
    · rintro ⟨a, b⟩; exact ⟨by omega, b ▸ List.drop_suffix _ _⟩
    · rintro ⟨a, b⟩; exact ⟨by omega, by rw [List.suffix_iff_eq_drop] at b; rw [b, a]; simp⟩
  · constructor
    · rintro ⟨a, b⟩; exact ⟨by omega, b ▸ List.drop_suffix _ _⟩
    · rintro ⟨a, b⟩; exact ⟨by omega, by rw [List.suffix_iff_eq_drop] at b; rw [b, a]; simp⟩
  · constructor
    · rintro ⟨a, b⟩; exact ⟨by omega, b ▸ List.dropLast_prefix _⟩
    · rintro ⟨a, b⟩; exact ⟨by omega, by rw [List.prefix_iff_eq_take] at b; rw [List.dropLast_eq_take, a]; exact b.symm⟩
  · constructor
    · rintro ⟨a, b⟩; exact ⟨by omega, b ▸ List.take_prefix _ _⟩
    · rintro ⟨a, b⟩; exact ⟨by omega, by rw [List.prefix_iff_eq_take] at b; rw [a]; exact b.symm⟩

/-- a trained state with a non-trivial table, within the limits of C32 -/
example : ∃ s, Trained { minFrequency := 1 } s ∧ Dict.getD (allAccessorVariety { minFrequency := 1 } s) ['a'] (0, 0) = (1, 1) :=
  ⟨⟨[(['a'], 2), (['a', 'b'], 2)], [(['b'], 2)], [("ab a".toList, 2), ("b a".toList, 2)], [("b ab".toList, 2), ("b a".toList, 2)]⟩,
    .step ["ab ab".toList] 0 true .fresh (by decide +kernel), by decide +kernel⟩

end Props
