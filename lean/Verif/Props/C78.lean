import Verif.Proofs.NewsNoun5
import Verif.Props.C55
import Mathlib.Tactic.Positivity
import Mathlib.Algebra.Order.BigOperators.Group.List
/-!
C78: `NewsNounExtractor.predict` is the mean score of what follows the word, weighted by the occurrences; its frequency is the number of
occurrences, and its proportions are shares of occurrences, between 0 and 1.
-/
namespace Props
open Py Nested NewsNoun NewsNounSpec

theorem C78_predict (p : Params) (s s' : State) (sents : List Str) (h : train p s sents = .ok s') :
    ∃ t, s'.trained = some t ∧ ∀ l,
      predict s'.rScores t l =
        { score := mean (Dict.get? s.rScores) (corpusOf sents p.maxLeft p.maxRight) l
          frequency := freq (corpusOf sents p.maxLeft p.maxRight) l
          featureProportion := ((seen (Dict.get? s.rScores) (corpusOf sents p.maxLeft p.maxRight) l).length : Rat) /
            (num (corpusOf sents p.maxLeft p.maxRight) l (· ≠ []) : Rat)
          eojeolProportion := share (corpusOf sents p.maxLeft p.maxRight) l (· = [])
          nPositiveFeature := different (corpusOf sents p.maxLeft p.maxRight) l (fun r => decide (0 < Dict.getD s.rScores r 0))
          uniquePositiveFeatureProportion :=
            (different (corpusOf sents p.maxLeft p.maxRight) l (fun r => decide (0 < Dict.getD s.rScores r 0)) : Rat) /
              (different (corpusOf sents p.maxLeft p.maxRight) l (fun r => Dict.has s.rScores r) : Rat) } := by
  by_cases he : sents = []
  · subst he; cases h
  · rw [train_ok p s sents he] at h
    cases h
    exact ⟨_, rfl, fun l => predict_eq p sents s.rScores l⟩

private theorem sum_le_card (xs : List Rat) (hi : Rat) (h : ∀ x ∈ xs, x ≤ hi) : xs.sum ≤ xs.length * hi := by
  induction xs with
  | nil => simp
  | cons x xs ih =>
    have h1 := h x (by simp)
    have h2 := ih (fun y hy => h y (by simp [hy]))
    rw [List.sum_cons, List.length_cons]; push_cast; linarith

private theorem card_le_sum (xs : List Rat) (lo : Rat) (h : ∀ x ∈ xs, lo ≤ x) : xs.length * lo ≤ xs.sum := by
  induction xs with
  | nil => simp
  | cons x xs ih =>
    have h1 := h x (by simp)
    have h2 := ih (fun y hy => h y (by simp [hy]))
    rw [List.sum_cons, List.length_cons]; push_cast; linarith

private theorem mean_bounds (rs : Str → Option Rat) (c : Corpus) (l : Str) (lo hi : Rat) (h : ∀ r y, rs r = some y → lo ≤ y ∧ y ≤ hi) :
    (seen rs c l ≠ [] → lo ≤ mean rs c l ∧ mean rs c l ≤ hi) ∧ (seen rs c l = [] → mean rs c l = 0) := by
  constructor
  · intro hne
    have hpos : (0 : Rat) < ((seen rs c l).length : Rat) := by
      have := List.length_pos_iff.2 hne
      exact_mod_cast this
    have hb : ∀ y ∈ seen rs c l, lo ≤ y ∧ y ≤ hi := by
      intro y hy
      obtain ⟨r, _, hr⟩ := List.mem_filterMap.1 hy
      exact h r y hr
    unfold mean
    constructor
    · rw [le_div_iff₀ hpos, mul_comm]; exact card_le_sum _ _ (fun y hy => (hb y hy).1)
    · rw [div_le_iff₀ hpos, mul_comm]; exact sum_le_card _ _ (fun y hy => (hb y hy).2)
  · intro he; unfold mean; rw [he]; simp

private theorem ratio_unit (a b : Nat) (h : a ≤ b) : (0 : Rat) ≤ (a : Rat) / (b : Rat) ∧ (a : Rat) / (b : Rat) ≤ 1 := by
  refine ⟨by positivity, ?_⟩
  by_cases hb : b = 0
  · subst hb; simp
  · have : (0 : Rat) < (b : Rat) := by exact_mod_cast Nat.pos_of_ne_zero hb
    rw [div_le_iff₀ this, one_mul]; exact_mod_cast h

/-- a predictor file never gives the empty right part a score: a line is stripped before it is split at the tab -/
theorem C78_no_empty_right_part (parseFloat : Str → Option Rat) (files : List (Option (List Str))) :
    Dict.get? (V1.loadPredictors parseFloat files) [] = none := by
  cases h : Dict.get? (V1.loadPredictors parseFloat files) [] with
  | none => rfl
  | some y =>
    exfalso
    obtain ⟨⟨_, line, _, _, _, s, hs, _⟩, _⟩ := (C55_v1_load parseFloat files [] y).1 h
    rw [List.nil_append] at hs
    have hpre : strip line <+: lstrip line := by
      unfold strip rstrip
      have := List.dropWhile_suffix (l := (lstrip line).reverse) isSpace
      simpa using List.reverse_prefix.2 this
    rw [hs] at hpre
    obtain ⟨t, ht⟩ := hpre
    have hb : isSpace '\t' = false := by
      have h0 := List.head?_dropWhile_not isSpace line
      have h1 : (line.dropWhile isSpace) = '\t' :: (s ++ t) := by
        have : lstrip line = line.dropWhile isSpace := rfl
        rw [← this, ← ht]; rfl
      rw [h1] at h0
      simpa using h0
    exact absurd hb (by decide)

/-- the bounds, for an object whose scores do not mention the empty right part (see `C78_no_empty_right_part`) and lie between `lo` and `hi` -/
theorem C78_bounds (p : Params) (s s' : State) (sents : List Str) (h : train p s sents = .ok s') (hempty : Dict.get? s.rScores [] = none)
    (lo hi : Rat) (hb : ∀ r y, Dict.get? s.rScores r = some y → lo ≤ y ∧ y ≤ hi) :
    ∃ t, s'.trained = some t ∧ ∀ l,
      ((∃ r ∈ rests (corpusOf sents p.maxLeft p.maxRight) l, Dict.has s.rScores r = true) →
        lo ≤ (predict s'.rScores t l).score ∧ (predict s'.rScores t l).score ≤ hi) ∧
      ((∀ r ∈ rests (corpusOf sents p.maxLeft p.maxRight) l, Dict.has s.rScores r = false) → (predict s'.rScores t l).score = 0) ∧
      0 ≤ (predict s'.rScores t l).frequency ∧
      0 ≤ (predict s'.rScores t l).featureProportion ∧ (predict s'.rScores t l).featureProportion ≤ 1 ∧
      0 ≤ (predict s'.rScores t l).eojeolProportion ∧ (predict s'.rScores t l).eojeolProportion ≤ 1 ∧
      0 ≤ (predict s'.rScores t l).uniquePositiveFeatureProportion ∧ (predict s'.rScores t l).uniquePositiveFeatureProportion ≤ 1 := by
  obtain ⟨t, ht, hp⟩ := C78_predict p s s' sents h
  refine ⟨t, ht, fun l => ?_⟩
  rw [hp l]
  obtain ⟨c, hc⟩ : ∃ c, corpusOf sents p.maxLeft p.maxRight = c := ⟨_, rfl⟩
  rw [hc]
  have hm := mean_bounds (Dict.get? s.rScores) c l lo hi hb
  have hfeat : (seen (Dict.get? s.rScores) c l).length ≤ num c l (· ≠ []) := by
    unfold seen num
    rw [List.length_filterMap_eq_countP]
    apply List.countP_mono_left
    intro r _ hr
    have : r ≠ [] := by
      rintro rfl
      rw [hempty] at hr; simp at hr
    simpa using this
  have hshare : num c l (· = []) ≤ freq c l := List.countP_le_length
  have hdiff : different c l (fun r => decide (0 < Dict.getD s.rScores r 0)) ≤ different c l (fun r => Dict.has s.rScores r) := by
    unfold different
    apply List.Subperm.length_le
    apply (List.nodup_dedup _).subperm
    intro r hr
    rw [List.mem_dedup, List.mem_filter] at hr ⊢
    refine ⟨hr.1, ?_⟩
    have := of_decide_eq_true hr.2
    unfold Dict.getD at this
    unfold Dict.has
    cases hg : Dict.get? s.rScores r with
    | none => rw [hg] at this; simp at this
    | some v => rfl
  refine ⟨?_, ?_, ?_, (ratio_unit _ _ hfeat).1, (ratio_unit _ _ hfeat).2, (ratio_unit _ _ hshare).1, (ratio_unit _ _ hshare).2,
    (ratio_unit _ _ hdiff).1, (ratio_unit _ _ hdiff).2⟩
  · rintro ⟨r, hr, hk⟩
    apply hm.1
    intro he
    obtain ⟨y, hy⟩ := Option.isSome_iff_exists.1 hk
    have : y ∈ seen (Dict.get? s.rScores) c l := List.mem_filterMap.2 ⟨r, hr, hy⟩
    rw [he] at this; simp at this
  · intro hk
    apply hm.2
    unfold seen
    rw [List.filterMap_eq_nil_iff]
    intro r hr
    have := hk r hr
    cases hg : Dict.get? s.rScores r with
    | none => rfl
    | some v => unfold Dict.has at this; rw [hg] at this; simp at this
  · show (0 : Int) ≤ ((freq c l : Nat) : Int)
    exact Int.natCast_nonneg _

/-! ### the statements are about something -/

section
private def rs : Dict Str Rat := [("은".toList, 1/2), ("을".toList, 1), ("었다".toList, -1)]
private def S : State := ⟨rs, josaOf rs, [], [], none⟩
private def sents : List Str := ["학교은 학교을 학교은 학교 학교까지 먹었다".toList]

example : (match train {} S sents with | .ok s => s.trained.map (fun t => predict s.rScores t "학교".toList) | .error _ => none) =
    some ⟨2/3, 5, 3/4, 1/5, 2, 1⟩ := by decide +kernel
example : (match train {} S sents with | .ok s => s.trained.map (fun t => (predict s.rScores t "먹".toList).score) | .error _ => none) =
    some (-1) := by decide +kernel
example : Dict.get? S.rScores [] = none := by decide +kernel
example : rests (corpusOf sents 10 7) "학교".toList = ["은".toList, "을".toList, "은".toList, [], "까지".toList] := by decide +kernel
end

end Props
