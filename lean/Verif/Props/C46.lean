import Verif.Model.NounV2
import Verif.Proofs.NounV1
import Verif.Proofs.EojeolCounter
import Mathlib.Algebra.Order.Field.Rat
import Mathlib.Tactic.Linarith
import Mathlib.Tactic.Positivity
import Mathlib.Tactic.FieldSimp
/-! C46: noun prediction. `LRNounExtractor.predict` is the mean of the coefficients of the known right parts, weighted by
their counts, with the share of known ones; `LRNounExtractor_v2.predict` compares the positive and the negative right
parts, with score in [-1, 1] and a support of at most the total count of the word's right parts. -/
set_option linter.unusedSimpArgs false
namespace Props
open Py Nested

/-! ### what the scores mean -/

/-- some non-empty suffix of the word, put before the right part, is a feature -/
def LongerFeature (features : List Str) (word r : Str) : Prop := ∃ v, v ≠ [] ∧ v <:+ word ∧ v ++ r ∈ features

/-- the total count of the right parts with a property -/
noncomputable def totalOf (row : List (Str × Int)) (P : Str → Prop) : Int :=
  open Classical in ((row.filter (fun rc => decide (P rc.1))).map (·.2)).sum

/-- the right part is a usable one: not empty, and not the tail of a longer positive or negative feature -/
def Usable (F : V2.Features) (word r : Str) : Prop := r ≠ [] ∧ ¬ LongerFeature F.pos word r ∧ ¬ LongerFeature F.neg word r
/-- usable and positive (and not common) -/
def PosPart (F : V2.Features) (word r : Str) : Prop := Usable F word r ∧ r ∉ F.common ∧ r ∈ F.pos
/-- usable and negative (and neither common nor positive) -/
def NegPart (F : V2.Features) (word r : Str) : Prop := Usable F word r ∧ r ∉ F.common ∧ r ∉ F.pos ∧ r ∈ F.neg
/-- usable and common -/
def CommonPart (F : V2.Features) (word r : Str) : Prop := Usable F word r ∧ r ∈ F.common
/-- usable and unknown -/
def UnknownPart (F : V2.Features) (word r : Str) : Prop := Usable F word r ∧ r ∉ F.common ∧ r ∉ F.pos ∧ r ∉ F.neg

theorem v2longer {features : List Str} {word r : Str} :
    V2.existLonger features word r = true ↔ LongerFeature features word r := by
  unfold V2.existLonger LongerFeature
  rw [List.any_eq_true]
  constructor
  · rintro ⟨e, he, h⟩
    rw [List.mem_range] at he
    refine ⟨word.drop e, ?_, List.drop_suffix _ _, by simpa using h⟩
    intro hh
    have := congrArg List.length hh
    rw [List.length_drop, List.length_nil] at this; omega
  · rintro ⟨v, hv, ⟨u, rfl⟩, h⟩
    refine ⟨u.length, ?_, by simpa using h⟩
    have := List.length_pos_iff.2 hv
    rw [List.mem_range, List.length_append]; omega

private theorem v1longer {coef : Dict Str Rat} {word r : Str} :
    V1.existLonger coef word r = true ↔ LongerFeature (Dict.keys coef) word r := by
  unfold V1.existLonger LongerFeature
  rw [List.any_eq_true]
  constructor
  · rintro ⟨e, he, h⟩
    rw [List.mem_range] at he
    refine ⟨word.drop e, ?_, List.drop_suffix _ _, (Dict.isSome_get?_iff _ _).1 h⟩
    intro hh
    have := congrArg List.length hh
    rw [List.length_drop, List.length_nil] at this; omega
  · rintro ⟨v, hv, ⟨u, rfl⟩, h⟩
    refine ⟨u.length, ?_, ?_⟩
    · have := List.length_pos_iff.2 hv
      rw [List.mem_range, List.length_append]; omega
    · rw [List.drop_left]; exact (Dict.isSome_get?_iff _ _).2 h

theorem totalOf_nil (P : Str → Prop) : totalOf [] P = 0 := rfl

theorem totalOf_cons (f : Str × Int) (row : List (Str × Int)) (P : Str → Prop) [Decidable (P f.1)] :
    totalOf (f :: row) P = (if P f.1 then f.2 else 0) + totalOf row P := by
  unfold totalOf
  rw [List.filter_cons]
  by_cases h : P f.1 <;> simp [h]

theorem totalOf_nonneg {row : List (Str × Int)} (h : ∀ rc ∈ row, 0 ≤ rc.2) (P : Str → Prop) : 0 ≤ totalOf row P := by
  classical
  induction row with
  | nil => exact le_refl _
  | cons f row ih =>
    rw [totalOf_cons]
    have := ih (fun x hx => h x (by simp [hx]))
    have := h f (by simp)
    split <;> omega

/-- C46 (v2): the five totals the prediction is made of. -/
theorem C46_v2_totals (F : V2.Features) (word : Str) (row : List (Str × Int)) :
    (V2.tally F word row).pos = totalOf row (PosPart F word) ∧ (V2.tally F word row).neg = totalOf row (NegPart F word) ∧
    (V2.tally F word row).common = totalOf row (CommonPart F word) ∧ (V2.tally F word row).unk = totalOf row (UnknownPart F word) ∧
    (V2.tally F word row).fin = totalOf row (fun r => r = []) := by
  classical
  suffices h : ∀ t : V2.Tally, row.foldl (V2.tallyStep F word) t =
      ⟨t.pos + totalOf row (PosPart F word), t.common + totalOf row (CommonPart F word), t.neg + totalOf row (NegPart F word),
       t.unk + totalOf row (UnknownPart F word), t.fin + totalOf row (fun r => r = [])⟩ by
    have := h {}
    unfold V2.tally
    rw [this]
    simp
  induction row with
  | nil => intro t; simp [totalOf_nil]
  | cons f row ih =>
    intro t
    rw [List.foldl_cons, ih]
    simp only [totalOf_cons]
    have hl1 := @v2longer F.pos word f.1
    have hl2 := @v2longer F.neg word f.1
    unfold V2.tallyStep PosPart CommonPart NegPart UnknownPart Usable
    simp only [List.contains_iff_mem]
    by_cases h0 : f.1 = []
    · simp [h0, add_assoc]
    · by_cases h1 : LongerFeature F.pos word f.1
      · simp [h0, h1, hl1.2 h1]
      · have e1 : ¬ V2.existLonger F.pos word f.1 = true := fun h => h1 (hl1.1 h)
        by_cases h2 : LongerFeature F.neg word f.1
        · simp [h0, h2, hl2.2 h2]
        · have e2 : ¬ V2.existLonger F.neg word f.1 = true := fun h => h2 (hl2.1 h)
          by_cases h3 : f.1 ∈ F.common
          · simp [h0, h1, h2, e1, e2, h3, add_assoc]
          · by_cases h4 : f.1 ∈ F.pos
            · simp [h0, h1, h2, e1, e2, h3, h4, add_assoc]
            · by_cases h5 : f.1 ∈ F.neg
              · simp [h0, h1, h2, e1, e2, h3, h4, h5, add_assoc]
              · simp [h0, h1, h2, e1, e2, h3, h4, h5, add_assoc]

private theorem totals_le (F : V2.Features) (word : Str) {row : List (Str × Int)} (h : ∀ rc ∈ row, 0 ≤ rc.2) :
    totalOf row (PosPart F word) + totalOf row (NegPart F word) + totalOf row (CommonPart F word) +
      totalOf row (UnknownPart F word) + totalOf row (fun r => r = []) ≤ (row.map (·.2)).sum := by
  classical
  induction row with
  | nil => simp [totalOf_nil]
  | cons f row ih =>
    simp only [totalOf_cons, List.map_cons, List.sum_cons]
    have := ih (fun x hx => h x (by simp [hx]))
    have hf := h f (by simp)
    generalize totalOf row (PosPart F word) = a at *
    generalize totalOf row (NegPart F word) = b at *
    generalize totalOf row (CommonPart F word) = c at *
    generalize totalOf row (UnknownPart F word) = d at *
    generalize totalOf row (fun r => r = []) = e at *
    unfold PosPart NegPart CommonPart UnknownPart Usable
    by_cases h0 : f.1 = []
    · simp only [h0, ne_eq, not_true_eq_false, false_and, if_false, if_true]; omega
    · by_cases h3 : f.1 ∈ F.common
      · simp only [h0, h3, not_true_eq_false, false_and, and_false, if_false, and_true]; split <;> omega
      · by_cases h4 : f.1 ∈ F.pos
        · simp only [h0, h3, h4, not_true_eq_false, not_false_eq_true, false_and, and_false, if_false, and_true, true_and]; split <;> omega
        · by_cases h5 : f.1 ∈ F.neg
          · simp only [h0, h3, h4, h5, not_true_eq_false, not_false_eq_true, false_and, and_false, if_false, and_true, true_and]; split <;> omega
          · simp only [h0, h3, h4, h5, not_true_eq_false, not_false_eq_true, false_and, and_false, if_false, and_true, true_and]; split <;> omega

private theorem ratio_bounds {a b : Int} (ha : 0 ≤ a) (hb : 0 ≤ b) (h : a + b ≠ 0) :
    -1 ≤ ((a - b : Int) : Rat) / ((a + b : Int) : Rat) ∧ ((a - b : Int) : Rat) / ((a + b : Int) : Rat) ≤ 1 := by
  have hp : (0 : Rat) < ((a + b : Int) : Rat) := by
    have : 0 < a + b := by omega
    exact_mod_cast this
  have ha' : (0 : Rat) ≤ (a : Rat) := by exact_mod_cast ha
  have hb' : (0 : Rat) ≤ (b : Rat) := by exact_mod_cast hb
  rw [le_div_iff₀ hp, div_le_iff₀ hp]
  push_cast
  constructor <;> linarith

private theorem share_bounds {a b : Int} (ha : 0 ≤ a) (hab : a ≤ b) (h : b ≠ 0) :
    0 ≤ (a : Rat) / (b : Rat) ∧ (a : Rat) / (b : Rat) ≤ 1 := by
  have hp : (0 : Rat) < (b : Rat) := by
    have : 0 < b := by omega
    exact_mod_cast this
  have ha' : (0 : Rat) ≤ (a : Rat) := by exact_mod_cast ha
  have hab' : (a : Rat) ≤ (b : Rat) := by exact_mod_cast hab
  rw [div_le_iff₀ hp]
  exact ⟨div_nonneg ha' hp.le, by linarith⟩

theorem v2_row (p : V2.Params) (F : V2.Features) (word : Str) {row : List (Str × Int)} (h : ∀ rc ∈ row, 0 ≤ rc.2) (m : Rat) :
    0 ≤ (V2.predictRow p F word row m).1 ∧ (V2.predictRow p F word row m).1 ≤ (row.map (·.2)).sum ∧
    -1 ≤ (V2.predictRow p F word row m).2 ∧ (V2.predictRow p F word row m).2 ≤ 1 := by
  obtain ⟨e1, e2, e3, e4, e5⟩ := C46_v2_totals F word row
  have n1 := totalOf_nonneg h (PosPart F word)
  have n2 := totalOf_nonneg h (NegPart F word)
  have n3 := totalOf_nonneg h (CommonPart F word)
  have n4 := totalOf_nonneg h (UnknownPart F word)
  have n5 := totalOf_nonneg h (fun r => r = [])
  have hle := totals_le F word h
  rw [← e1, ← e2, ← e3, ← e4, ← e5] at hle
  rw [← e1] at n1; rw [← e2] at n2; rw [← e3] at n3; rw [← e4] at n4; rw [← e5] at n5
  unfold V2.predictRow
  dsimp only
  generalize hT : V2.tally F word row = T at *
  have hs : 0 ≤ V2.baseSupport T m ∧ V2.baseSupport T m ≤ (row.map (·.2)).sum := by
    unfold V2.baseSupport; split <;> constructor <;> omega
  have hb : -1 ≤ V2.baseScore T ∧ V2.baseScore T ≤ 1 := by
    unfold V2.baseScore
    split
    · constructor <;> norm_num
    · exact ratio_bounds n1 n2 (by assumption)
  have h0 : (-1 : Rat) ≤ 0 ∧ (0 : Rat) ≤ 1 := by constructor <;> norm_num
  have hsh : T.pos + T.common + T.neg + T.unk + T.fin ≠ 0 →
      -1 ≤ ((T.pos + T.common + T.fin : Int) : Rat) / ((T.pos + T.common + T.neg + T.unk + T.fin : Int) : Rat) ∧
      ((T.pos + T.common + T.fin : Int) : Rat) / ((T.pos + T.common + T.neg + T.unk + T.fin : Int) : Rat) ≤ 1 := by
    intro hne
    obtain ⟨a, b⟩ := share_bounds (a := T.pos + T.common + T.fin) (b := T.pos + T.common + T.neg + T.unk + T.fin) (by omega) (by omega) hne
    exact ⟨by linarith, b⟩
  split
  · exact ⟨hs.1, hs.2, hb⟩
  split
  · exact ⟨hs.1, hs.2, h0⟩
  rename_i _ hne
  split
  · exact ⟨hs.1, hs.2, hb⟩
  split
  · exact ⟨by dsimp only; omega, by dsimp only; omega, hsh hne⟩
  split
  · exact ⟨by dsimp only; omega, by dsimp only; omega, hsh hne⟩
  · exact ⟨hs.1, hs.2, h0⟩

/-- C46 (v2): with a graph without negative counts, `predict` returns a score in [-1, 1] and a support between 0 and the
    total count of the word's right parts. -/
theorem C46_v2_bounds (p : V2.Params) (s : V2.State) (g : LR.State) (hg : s.lrgraph = some g) (word : Str) (m : Rat)
    (hpos : ∀ rc ∈ LR.getR g word (-1), 0 ≤ rc.2) :
    ∃ support score, V2.predict p s word m = .ok (support, score) ∧ -1 ≤ score ∧ score ≤ 1 ∧
      0 ≤ support ∧ support ≤ (((LR.getR g word (-1)).map (·.2)).sum : Int) := by
  unfold V2.predict
  rw [hg]
  obtain ⟨h1, h2, h3, h4⟩ := v2_row p s.feats word hpos m
  refine ⟨_, _, rfl, h3, h4, ?_, ?_⟩
  · exact_mod_cast h1
  · exact_mod_cast h2

/-- C46 (v2): the right parts counted as evidence: known as positive (negative) and not the tail of a longer positive
    (negative) feature. -/
def Evidence (F : V2.Features) (word r : Str) : Prop :=
  (r ∈ F.pos ∧ ¬ LongerFeature F.pos word r) ∨ (r ∈ F.neg ∧ ¬ LongerFeature F.neg word r)

open Classical in
/-- C46 (v2): with more than `min_num_of_features` right parts as evidence, the score is the difference of the positive
    and the negative totals relative to their sum (0 when both are 0), and the support adds the undecided ones to the
    winning side. -/
theorem C46_v2_evidence (p : V2.Params) (s : V2.State) (g : LR.State) (hg : s.lrgraph = some g) (word : Str) (m : Rat)
    (hev : p.minNumOfFeatures < (((LR.getR g word (-1)).filter (fun rc => decide (Evidence s.feats word rc.1))).length : Int)) :
    ∃ support score, V2.predict p s word m = .ok (support, score) ∧
      score = (if totalOf (LR.getR g word (-1)) (PosPart s.feats word) + totalOf (LR.getR g word (-1)) (NegPart s.feats word) = 0 then (0 : Rat)
        else ((totalOf (LR.getR g word (-1)) (PosPart s.feats word) : Rat) - totalOf (LR.getR g word (-1)) (NegPart s.feats word)) /
          (totalOf (LR.getR g word (-1)) (PosPart s.feats word) + totalOf (LR.getR g word (-1)) (NegPart s.feats word))) ∧
      support = ((if m ≤ score then totalOf (LR.getR g word (-1)) (PosPart s.feats word) else totalOf (LR.getR g word (-1)) (NegPart s.feats word)) : Rat)
        + totalOf (LR.getR g word (-1)) (CommonPart s.feats word) + totalOf (LR.getR g word (-1)) (fun r => r = []) := by
  obtain ⟨e1, e2, e3, e4, e5⟩ := C46_v2_totals s.feats word (LR.getR g word (-1))
  have hlen : (V2.nonemptyFeatures s.feats word (LR.getR g word (-1))).length =
      ((LR.getR g word (-1)).filter (fun rc => decide (Evidence s.feats word rc.1))).length := by
    unfold V2.nonemptyFeatures
    rw [List.filter_map, List.length_map]
    congr 1
    apply List.filter_congr
    intro rc _
    rw [Bool.eq_iff_iff, decide_eq_true_iff]
    unfold Evidence
    rw [← v2longer, ← v2longer]
    simp
  unfold V2.predict
  rw [hg]
  refine ⟨_, _, rfl, ?_⟩
  unfold V2.predictRow
  dsimp only
  rw [hlen, if_pos hev]
  dsimp only
  unfold V2.baseSupport V2.baseScore
  rw [e1, e2, e3, e5]
  refine ⟨by push_cast; rfl, ?_⟩
  simp only [ge_iff_le, Int.cast_sub, Int.cast_add]
  generalize (if totalOf (LR.getR g word (-1)) (PosPart s.feats word) + totalOf (LR.getR g word (-1)) (NegPart s.feats word) = 0 then (0 : Rat)
        else ((totalOf (LR.getR g word (-1)) (PosPart s.feats word) : Rat) - totalOf (LR.getR g word (-1)) (NegPart s.feats word)) /
          (totalOf (LR.getR g word (-1)) (PosPart s.feats word) + totalOf (LR.getR g word (-1)) (NegPart s.feats word))) = sc
  by_cases h : m ≤ sc
  · rw [if_pos h, if_pos h]; push_cast; ring
  · rw [if_neg h, if_neg h]; push_cast; ring

/-! ### v1 -/

private def mean_step (coef : Dict Str Rat) (word : Str) (a : Rat × Int × Int) (f : Str × Int) : Rat × Int × Int :=
  match Dict.get? coef f.1 with
    | some c => if V1.existLonger coef word f.1 then a else (a.1 + (f.2 : Rat) * c, a.2.1 + f.2, a.2.2)
    | none => (a.1, a.2.1, a.2.2 + f.2)

/-- the right part has a coefficient and no longer feature covers it -/
def KnownPart (coef : Dict Str Rat) (word r : Str) : Prop := r ∈ Dict.keys coef ∧ ¬ LongerFeature (Dict.keys coef) word r

/-- the sum of count times coefficient over the known right parts -/
noncomputable def weightedSum (coef : Dict Str Rat) (word : Str) (row : List (Str × Int)) : Rat :=
  open Classical in ((row.filter (fun rc => decide (KnownPart coef word rc.1))).map (fun rc => (rc.2 : Rat) * Dict.getD coef rc.1 0)).sum

theorem v1_tally (coef : Dict Str Rat) (word : Str) (row : List (Str × Int)) :
    V1.tally coef word row = (weightedSum coef word row, totalOf row (KnownPart coef word), totalOf row (fun r => r ∉ Dict.keys coef)) := by
  classical
  suffices h : ∀ a, row.foldl (mean_step coef word) a = (a.1 + weightedSum coef word row, a.2.1 + totalOf row (KnownPart coef word),
      a.2.2 + totalOf row (fun r => r ∉ Dict.keys coef)) by
    have := h (0, 0, 0)
    have e : V1.tally coef word row = row.foldl (mean_step coef word) (0, 0, 0) := rfl
    rw [e, this]; simp
  induction row with
  | nil => intro a; simp [totalOf_nil, weightedSum]
  | cons f row ih =>
    intro a
    rw [List.foldl_cons, ih]
    have hws : weightedSum coef word (f :: row) = (if KnownPart coef word f.1 then (f.2 : Rat) * Dict.getD coef f.1 0 else 0) + weightedSum coef word row := by
      unfold weightedSum
      rw [List.filter_cons]
      by_cases h : KnownPart coef word f.1 <;> simp [h]
    rw [hws, totalOf_cons, totalOf_cons]
    have hk : f.1 ∈ Dict.keys coef ↔ (Dict.get? coef f.1).isSome = true := (Dict.isSome_get?_iff _ _).symm
    unfold mean_step KnownPart
    cases hc : Dict.get? coef f.1 with
    | none =>
      have hn : f.1 ∉ Dict.keys coef := fun h => by rw [hk, hc] at h; cases h
      simp [hn, add_assoc]
    | some c =>
      have hy : f.1 ∈ Dict.keys coef := by rw [hk, hc]; rfl
      by_cases hl : LongerFeature (Dict.keys coef) word f.1
      · simp [hy, hl, v1longer.2 hl]
      · have hl' : ¬ V1.existLonger coef word f.1 = true := fun h => hl (v1longer.1 h)
        have hd : Dict.getD coef f.1 0 = c := by show (Dict.get? coef f.1).getD 0 = c; rw [hc]; rfl
        simp [hy, hl, hl', hd, add_assoc]

private theorem weightedSum_le (coef : Dict Str Rat) (word : Str) {row : List (Str × Int)} (h : ∀ rc ∈ row, 0 ≤ rc.2) (lo hi : Rat)
    (hlo : ∀ r c, (r, c) ∈ coef → lo ≤ c ∧ c ≤ hi) :
    lo * (totalOf row (KnownPart coef word) : Rat) ≤ weightedSum coef word row ∧
    weightedSum coef word row ≤ hi * (totalOf row (KnownPart coef word) : Rat) := by
  classical
  induction row with
  | nil => simp [totalOf_nil, weightedSum]
  | cons f row ih =>
    have hws : weightedSum coef word (f :: row) = (if KnownPart coef word f.1 then (f.2 : Rat) * Dict.getD coef f.1 0 else 0) + weightedSum coef word row := by
      unfold weightedSum
      rw [List.filter_cons]
      by_cases h : KnownPart coef word f.1 <;> simp [h]
    obtain ⟨i1, i2⟩ := ih (fun x hx => h x (by simp [hx]))
    have hf : (0 : Rat) ≤ (f.2 : Rat) := by exact_mod_cast h f (by simp)
    rw [hws, totalOf_cons]
    by_cases hk : KnownPart coef word f.1
    · obtain ⟨c, hc⟩ := Option.isSome_iff_exists.1 ((Dict.isSome_get?_iff _ _).2 hk.1)
      have hd : Dict.getD coef f.1 0 = c := by show (Dict.get? coef f.1).getD 0 = c; rw [hc]; rfl
      obtain ⟨c1, c2⟩ := hlo f.1 c (Dict.mem_of_get? hc)
      rw [if_pos hk, if_pos hk, hd]
      push_cast
      constructor <;> nlinarith
    · rw [if_neg hk, if_neg hk]
      push_cast
      constructor <;> linarith

/-- C46 (v1): for a word with more than `min_num_of_features` right parts, `predict` returns the mean of the coefficients
    of its known right parts weighted by their counts (0 without known ones), which lies between the smallest and the
    largest coefficient, and the share of the known ones among the known and the unknown, in [0, 1]. -/
theorem C46_v1_mean (p : V1.Params) (s : V1.State) (g : LR.State) (hg : s.lrgraph = some g) (word : Str)
    (hlen : p.minNumOfFeatures < (((LR.getR g word (-1)).filter (fun rc => rc.1 ≠ [])).length : Int))
    (hpos : ∀ rc ∈ LR.getR g word (-1), 0 ≤ rc.2) (lo hi : Rat) (hc : ∀ r c, (r, c) ∈ s.coefficient → lo ≤ c ∧ c ≤ hi) :
    ∃ score ratio row, row = (LR.getR g word (-1)).filter (fun rc => rc.1 ≠ []) ∧ V1.predict p s word = .ok (score, ratio) ∧
      score * totalOf row (KnownPart s.coefficient word) = (if totalOf row (KnownPart s.coefficient word) = 0 then 0 else weightedSum s.coefficient word row) ∧
      (totalOf row (KnownPart s.coefficient word) = 0 → score = 0) ∧
      (totalOf row (KnownPart s.coefficient word) ≠ 0 → lo ≤ score ∧ score ≤ hi) ∧
      ratio * (totalOf row (KnownPart s.coefficient word) + totalOf row (fun r => r ∉ Dict.keys s.coefficient)) = totalOf row (KnownPart s.coefficient word) ∧
      0 ≤ ratio ∧ ratio ≤ 1 := by
  set row := (LR.getR g word (-1)).filter (fun rc => rc.1 ≠ []) with hrow
  have hp' : ∀ rc ∈ row, 0 ≤ rc.2 := fun rc h => hpos rc (List.mem_filter.1 h).1
  refine ⟨(V1.predictFeatures s.coefficient row word).1, (V1.predictFeatures s.coefficient row word).2, row, rfl, ?_⟩
  have hpred : V1.predict p s word = .ok (V1.predictFeatures s.coefficient row word) := by
    unfold V1.predict
    rw [hg]
    have e : V1.rFeatures g word = row := rfl
    dsimp only
    rw [e, if_pos hlen]
  refine ⟨hpred, ?_⟩
  have ht := v1_tally s.coefficient word row
  have n1 := totalOf_nonneg hp' (KnownPart s.coefficient word)
  have n2 := totalOf_nonneg hp' (fun r => r ∉ Dict.keys s.coefficient)
  obtain ⟨w1, w2⟩ := weightedSum_le s.coefficient word hp' lo hi hc
  unfold V1.predictFeatures
  rw [ht]
  dsimp only
  generalize totalOf row (KnownPart s.coefficient word) = K at *
  generalize totalOf row (fun r => r ∉ Dict.keys s.coefficient) = U at *
  generalize weightedSum s.coefficient word row = W at *
  have hKU : ∀ h : K + U ≠ 0, (0 : Rat) < ((K + U : Int) : Rat) := fun h => by
    have : 0 < K + U := by omega
    exact_mod_cast this
  refine ⟨?_, ?_, ?_, ?_, ?_⟩
  · by_cases hK : K = 0
    · rw [if_pos hK, if_pos hK]; simp
    · rw [if_neg hK, if_neg hK]
      have : (K : Rat) ≠ 0 := by exact_mod_cast hK
      field_simp
  · intro hK; rw [if_pos hK]
  · intro hK
    rw [if_neg hK]
    have : (0 : Rat) < (K : Rat) := by
      have : 0 < K := by omega
      exact_mod_cast this
    rw [le_div_iff₀ this, div_le_iff₀ this]
    exact ⟨w1, w2⟩
  · by_cases h : K + U = 0
    · have hK : K = 0 := by omega
      rw [if_pos h, hK]; simp
    · rw [if_neg h]
      have := (hKU h).ne'
      push_cast at this ⊢
      field_simp
  · by_cases h : K + U = 0
    · rw [if_pos h]; constructor <;> norm_num
    · rw [if_neg h]
      exact share_bounds n1 (by omega) h

/-- C46 (v1): a word with at most `min_num_of_features` right parts gets (0, 0). -/
theorem C46_v1_few (p : V1.Params) (s : V1.State) (g : LR.State) (hg : s.lrgraph = some g) (word : Str)
    (hlen : (((LR.getR g word (-1)).filter (fun rc => rc.1 ≠ [])).length : Int) ≤ p.minNumOfFeatures) :
    V1.predict p s word = .ok (0, 0) := by
  unfold V1.predict
  rw [hg]
  have e : V1.rFeatures g word = (LR.getR g word (-1)).filter (fun rc => rc.1 ≠ []) := rfl
  dsimp only
  rw [e, if_neg (by omega)]
  exact V1.subwordScore_nil _ _ _

/-! ### concrete cases -/

private def v2F : V2.Features := ⟨["는".toList, "를".toList, "에서는".toList], ["다".toList, "었다".toList], ["은".toList]⟩
private def v2g : LR.State := { lr := [("학교".toList, [([], 2), ("는".toList, 3), ("를".toList, 2), ("에서는".toList, 1), ("다".toList, 2)])] }

/-- the hypotheses are met: three positive right parts and a negative one, score (6-2)/8, support 6+2 -/
example : (({} : V2.Params).minNumOfFeatures < 4) ∧
    V2.predict {} { feats := v2F, lrgraph := some v2g } "학교".toList = .ok (8, 1/2) := by decide +kernel
/-- too few right parts: the exception branches -/
example : V2.predict {} { feats := v2F, lrgraph := some { lr := [("아이엠텍".toList, [("은".toList, 2), ([], 2)])] } } "아이엠텍".toList = .ok (4, 1) := by
  decide +kernel
example : V1.predict {} { coefficient := [("는".toList, 1), ("다".toList, -1)], lrgraph := some v2g } "학교".toList = .ok (1/5, 5/8) := by
  decide +kernel

end Props
