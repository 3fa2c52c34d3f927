import Verif.Props.C46
/-! C46: `LRNounExtractor_v2.predict` for words with little evidence, and before training. -/
namespace Props
open Py Nested

/-- a right part that counts as a start: not a positive or common one that is the tail of a longer positive feature -/
def Start (F : V2.Features) (word r : Str) : Prop := r ≠ [] ∧ ¬ ((r ∈ F.pos ∨ r ∈ F.common) ∧ LongerFeature F.pos word r)

/-- two right parts that begin with different characters -/
def TwoStarts (F : V2.Features) (word : Str) (row : List (Str × Int)) : Prop :=
  ∃ x ∈ row, ∃ y ∈ row, Start F word x.1 ∧ Start F word y.1 ∧ x.1.head? ≠ y.1.head?

private theorem mem_firstChars {F : V2.Features} {word : Str} {row : List (Str × Int)} {c : Char} :
    c ∈ V2.firstChars F word row ↔ ∃ x ∈ row, Start F word x.1 ∧ x.1.head? = some c := by
  unfold V2.firstChars
  rw [List.mem_dedup, List.mem_filterMap]
  constructor
  · rintro ⟨⟨r, n⟩, hm, h⟩
    refine ⟨(r, n), hm, ?_⟩
    cases r with
    | nil => cases h
    | cons d r =>
      dsimp only at h
      split at h
      · split at h
        · cases h
        · rename_i h2
          cases h
          exact ⟨⟨by simp, fun hh => h2 (v2longer.2 hh.2)⟩, rfl⟩
      · rename_i h1
        cases h
        refine ⟨⟨by simp, fun hh => h1 ?_⟩, rfl⟩
        simpa using hh.1
  · rintro ⟨⟨r, n⟩, hm, ⟨h1, h2⟩, h3⟩
    refine ⟨(r, n), hm, ?_⟩
    cases r with
    | nil => exact absurd rfl h1
    | cons d r =>
      simp only [List.head?_cons, Option.some.injEq] at h3
      subst h3
      dsimp only
      split
      · rename_i ha
        rw [if_neg]
        intro hl
        exact h2 ⟨by simpa using ha, v2longer.1 hl⟩
      · rfl

private theorem two_iff {F : V2.Features} {word : Str} {row : List (Str × Int)} :
    2 ≤ (V2.firstChars F word row).length ↔ TwoStarts F word row := by
  have hnd : (V2.firstChars F word row).Nodup := List.nodup_dedup _
  constructor
  · intro h
    cases hl : V2.firstChars F word row with
    | nil => rw [hl] at h; simp at h
    | cons a l => cases l with
      | nil => rw [hl] at h; simp at h
      | cons b l =>
        rw [hl] at hnd
        have hab : a ≠ b := by rintro rfl; simp at hnd
        obtain ⟨x, hx, sx, ex⟩ := mem_firstChars.1 (show a ∈ V2.firstChars F word row by rw [hl]; simp)
        obtain ⟨y, hy, sy, ey⟩ := mem_firstChars.1 (show b ∈ V2.firstChars F word row by rw [hl]; simp)
        exact ⟨x, hx, y, hy, sx, sy, by rw [ex, ey]; simpa using hab⟩
  · rintro ⟨x, hx, y, hy, sx, sy, e⟩
    obtain ⟨a, ha⟩ : ∃ a, x.1.head? = some a := by
      cases h : x.1 with
      | nil => exact absurd h sx.1
      | cons a _ => exact ⟨a, rfl⟩
    obtain ⟨b, hb⟩ : ∃ b, y.1.head? = some b := by
      cases h : y.1 with
      | nil => exact absurd h sy.1
      | cons a _ => exact ⟨a, rfl⟩
    have h1 := mem_firstChars.2 ⟨x, hx, sx, ha⟩
    have h2 := mem_firstChars.2 ⟨y, hy, sy, hb⟩
    have hab : a ≠ b := fun h => e (by rw [ha, hb, h])
    cases hl : V2.firstChars F word row with
    | nil => rw [hl] at h1; cases h1
    | cons c l => cases l with
      | nil => rw [hl] at h1 h2; simp at h1 h2; exact absurd (h1.trans h2.symm) hab
      | cons d l => simp

/-- the word stands mostly alone: it has a positive or common right part, at least 30 % of its occurrences have no right
    part, and the common ones weigh at least as much as the negative ones -/
def MostlyAlone (P C N U E : Int) : Prop := (0 < C ∨ 0 < P) ∧ (3/10 : Rat) ≤ (E : Rat) / ((P + C + N + U + E : Int) : Rat) ∧ N ≤ C

open Classical in
/-- C46 (v2): with at most `min_num_of_features` right parts as evidence (`P`, `C`, `N`, `U`, `E`: the totals of the
    positive, common, negative, unknown and empty right parts). Nothing counted: score 0. Often without right part
    (strictly more than `max_frequency_when_noun_is_eojeol`) and not more negative than positive: the ordinary score.
    Otherwise a word that stands mostly alone, or whose right parts begin with two different characters, is scored by the
    share of positive, common and empty right parts; any other word has score 0. -/
theorem C46_v2_few (p : V2.Params) (s : V2.State) (g : LR.State) (hg : s.lrgraph = some g) (word : Str) (m : Rat)
    (hev : (((LR.getR g word (-1)).filter (fun rc => decide (Evidence s.feats word rc.1))).length : Int) ≤ p.minNumOfFeatures)
    (P C N U E : Int) (hP : P = totalOf (LR.getR g word (-1)) (PosPart s.feats word)) (hC : C = totalOf (LR.getR g word (-1)) (CommonPart s.feats word))
    (hN : N = totalOf (LR.getR g word (-1)) (NegPart s.feats word)) (hU : U = totalOf (LR.getR g word (-1)) (UnknownPart s.feats word))
    (hE : E = totalOf (LR.getR g word (-1)) (fun r => r = [])) (base : Rat)
    (hbase : base = if P + N = 0 then 0 else ((P - N : Int) : Rat) / ((P + N : Int) : Rat)) :
    ∃ support score, V2.predict p s word m = .ok (support, score) ∧
      (if P + C + N + U + E = 0 then score = 0 ∧ support = ((if m ≤ base then P else N) + C + E : Int)
       else if p.maxFrequencyWhenNounIsEojeol < E ∧ N ≤ P then score = base ∧ support = ((if m ≤ base then P else N) + C + E : Int)
       else if MostlyAlone P C N U E ∨ TwoStarts s.feats word (LR.getR g word (-1)) then
         score = ((P + C + E : Int) : Rat) / ((P + C + N + U + E : Int) : Rat) ∧ support = (P + C + E : Int)
       else score = 0 ∧ support = ((if m ≤ base then P else N) + C + E : Int)) := by
  obtain ⟨e1, e2, e3, e4, e5⟩ := C46_v2_totals s.feats word (LR.getR g word (-1))
  have hlen : (V2.nonemptyFeatures s.feats word (LR.getR g word (-1))).length =
      ((LR.getR g word (-1)).filter (fun rc => decide (Evidence s.feats word rc.1))).length := by
    unfold V2.nonemptyFeatures
    rw [List.filter_map, List.length_map]
    congr 1
    apply List.filter_congr
    intro rc _
    rw [Bool.eq_iff_iff, decide_eq_true_iff]
    unfold Evidence
    rw [← v2longer, ← v2longer]
    simp
  have hb : V2.baseScore (V2.tally s.feats word (LR.getR g word (-1))) = base := by
    unfold V2.baseScore
    rw [e1, e2, ← hP, ← hN, hbase]
  have hs : V2.baseSupport (V2.tally s.feats word (LR.getR g word (-1))) m = (if m ≤ base then P else N) + C + E := by
    unfold V2.baseSupport
    rw [hb, e1, e2, e3, e5, ← hP, ← hN, ← hC, ← hE]
    by_cases h : m ≤ base
    · rw [if_pos h, if_pos h]; ring
    · rw [if_neg h, if_neg h]; ring
  unfold V2.predict
  rw [hg]
  refine ⟨_, _, rfl, ?_⟩
  unfold V2.predictRow
  dsimp only
  rw [if_neg (show ¬ (((V2.nonemptyFeatures s.feats word (LR.getR g word (-1))).length : Int) > p.minNumOfFeatures) by rw [hlen]; omega)]
  rw [hb, hs, e1, e2, e3, e4, e5, ← hP, ← hN, ← hC, ← hE, ← hU]
  by_cases c1 : P + C + N + U + E = 0
  · rw [if_pos c1, if_pos c1]; exact ⟨rfl, rfl⟩
  rw [if_neg c1, if_neg c1]
  by_cases c2 : p.maxFrequencyWhenNounIsEojeol < E ∧ N ≤ P
  · rw [if_pos c2, if_pos (show E > p.maxFrequencyWhenNounIsEojeol ∧ P ≥ N from c2)]; exact ⟨rfl, rfl⟩
  rw [if_neg c2, if_neg (show ¬ (E > p.maxFrequencyWhenNounIsEojeol ∧ P ≥ N) from c2)]
  by_cases c3 : MostlyAlone P C N U E
  · rw [if_pos (Or.inl c3), if_pos (show (C > 0 ∨ P > 0) ∧ (E : Rat) / ((P + C + N + U + E : Int) : Rat) ≥ 3/10 ∧ C ≥ N from c3)]
    exact ⟨rfl, rfl⟩
  rw [if_neg (show ¬ ((C > 0 ∨ P > 0) ∧ (E : Rat) / ((P + C + N + U + E : Int) : Rat) ≥ 3/10 ∧ C ≥ N) from c3)]
  by_cases c4 : TwoStarts s.feats word (LR.getR g word (-1))
  · rw [if_pos (Or.inr c4), if_pos (show (V2.firstChars s.feats word (LR.getR g word (-1))).length ≥ 2 from two_iff.2 c4)]
    exact ⟨rfl, rfl⟩
  · rw [if_neg (not_or.2 ⟨c3, c4⟩), if_neg (show ¬ (V2.firstChars s.feats word (LR.getR g word (-1))).length ≥ 2 from fun h => c4 (two_iff.1 h))]
    exact ⟨rfl, rfl⟩

/-- C46 (v2): before training there is no graph and `predict` and `extract` raise AttributeError. -/
theorem C46_v2_untrained (p : V2.Params) (s : V2.State) (h : s.lrgraph = none) (word : Str) (m f : Rat)
    (entLt : List Int → Rat → Bool) (enum : Nat → List Str → List Str) (b : Bool) :
    V2.predict p s word m = .error .attributeError ∧ V2.extract p entLt enum s m f b = .error .attributeError := by
  unfold V2.predict V2.extract
  rw [h]; exact ⟨rfl, rfl⟩

/-- the three kinds of word: boundary of the frequency limit, mostly alone, two starts -/
private def st (row : List (Str × Int)) : V2.State :=
  { feats := { pos := ["은".toList], neg := ["다".toList], common := ["에".toList] }, lrgraph := some { lr := [("가나".toList, row)] } }

example : V2.predict {} (st [([], 31), ("은".toList, 3)]) "가나".toList = .ok (34, 1) ∧
    V2.predict {} (st [([], 30), ("다".toList, 1), ("은".toList, 3)]) "가나".toList = .ok (33, 1/2) ∧
    V2.predict { minNumOfFeatures := 2 } (st [([], 30), ("다".toList, 1), ("은".toList, 3)]) "가나".toList = .ok (33, 33/34) ∧
    V2.predict {} (st [("에".toList, 1), ("라".toList, 3)]) "가나".toList = .ok (1, 1/4) ∧
    V2.predict {} (st [("라".toList, 3)]) "가나".toList = .ok (0, 0) := by
  refine ⟨?_, ?_, ?_, ?_, ?_⟩ <;> decide +kernel

end Props
