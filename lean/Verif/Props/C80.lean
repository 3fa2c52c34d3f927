import Verif.Props.C55
import Verif.Proofs.NewsNoun5
/-!
C80: the limits of `NewsNounExtractor`'s interface. `min_feature_proportion` is compared with the frequency, so no value in [0, 1) has any
effect; a non-empty `base_noun_dictionary` cannot be used at all; extracting before training is an AttributeError; an extraction after a
training can only raise ZeroDivisionError, and only with all three thresholds out of range.
-/
namespace Props
open Py Nested NewsNoun NewsNounSpec

private theorem thresholds_congr (mns m₁ m₂ : Rat) (h₁ : 0 ≤ m₁ ∧ m₁ < 1) (h₂ : 0 ≤ m₂ ∧ m₂ < 1) (d : Dict Str Score) :
    thresholds mns m₁ d = thresholds mns m₂ d := by
  unfold thresholds
  apply List.filter_congr
  intro e _
  have : decide ((e.2.frequency : Rat) > m₁) = decide ((e.2.frequency : Rat) > m₂) := by
    have key : ∀ m : Rat, 0 ≤ m ∧ m < 1 → ((e.2.frequency : Rat) > m ↔ 1 ≤ e.2.frequency) := by
      intro m hm
      constructor
      · intro h
        have : (0 : Rat) < (e.2.frequency : Rat) := lt_of_le_of_lt hm.1 h
        have : (0 : Int) < e.2.frequency := by exact_mod_cast this
        omega
      · intro h
        have : (1 : Rat) ≤ (e.2.frequency : Rat) := by exact_mod_cast h
        exact lt_of_lt_of_le hm.2 this
    rw [decide_eq_decide, key m₁ h₁, key m₂ h₂]
  rw [this]

/-- the documented threshold on the feature proportion does nothing -/
theorem C80_min_feature_proportion (s : State) (minNounScore : Rat) (minFrequency : Int) (given : List Str) (m₁ m₂ : Rat)
    (h₁ : 0 ≤ m₁ ∧ m₁ < 1) (h₂ : 0 ≤ m₂ ∧ m₂ < 1) :
    extract s minNounScore minFrequency given m₁ = extract s minNounScore minFrequency given m₂ := by
  unfold extract
  cases s.trained with
  | none => rfl
  | some t => simp only [thresholds_congr minNounScore m₁ m₂ h₁ h₂]

private theorem splitOnGo_head (sep : Char) (s : Str) : ∀ cur, (splitOnGo sep cur s).headD [] = cur ++ s.takeWhile (· ≠ sep) := by
  induction s with
  | nil => intro cur; simp [splitOnGo]
  | cons c s ih =>
    intro cur
    by_cases h : c = sep
    · rw [splitOnGo, if_pos h]; simp [h]
    · rw [splitOnGo, if_neg h, ih]; simp [h]

/-- C80: the constructor. The scores are the largest ones the files give (C55), the particles are 는 and the right parts scored above 0.1, and the
    predicate words are the first fields of the lines of the two dictionary files (none of a file that cannot be read). -/
theorem C80_base_dictionary (parseFloat : Str → Option Rat) (files : List (Option (List Str))) (verbFile adjFile : Option (List Str))
    (base : Dict Str Value) :
    (base ≠ [] → construct parseFloat files verbFile adjFile base = .error .nameError) ∧
    (base = [] → ∃ s, construct parseFloat files verbFile adjFile base = .ok s ∧ s.nouns = [] ∧ s.trained = none ∧
      (∀ r y, Dict.get? s.rScores r = some y ↔ Gives parseFloat files r y ∧ ∀ x, Gives parseFloat files r x → x ≤ y) ∧
      (∀ r, r ∈ s.josa ↔ r = "는".toList ∨ ∃ y, (r, y) ∈ s.rScores ∧ 1/10 < y) ∧
      (∀ v, v ∈ s.verbs ↔ ∃ lines line, (verbFile = some lines ∨ adjFile = some lines) ∧ line ∈ lines ∧ v = (strip line).takeWhile (· ≠ '\t'))) := by
  constructor
  · intro h; unfold construct; rw [if_pos h]
  · intro h
    subst h
    refine ⟨_, rfl, rfl, rfl, fun r y => C55_v1_load parseFloat files r y, ?_, ?_⟩
    · intro r
      simp only [josaOf, List.mem_append, List.mem_map, List.mem_filter, List.mem_singleton, decide_eq_true_eq, gt_iff_lt]
      constructor
      · rintro (⟨⟨a, y⟩, ⟨h1, h2⟩, rfl⟩ | h)
        · exact Or.inr ⟨y, h1, h2⟩
        · exact Or.inl h
      · rintro (h | ⟨y, h1, h2⟩)
        · exact Or.inr h
        · exact Or.inl ⟨(r, y), ⟨h1, h2⟩, rfl⟩
    · intro v
      have hload : ∀ f : Option (List Str), v ∈ loadDictionary f ↔ ∃ lines line, f = some lines ∧ line ∈ lines ∧ v = (strip line).takeWhile (· ≠ '\t') := by
        intro f
        cases f with
        | none => exact ⟨fun h => by (cases h), fun ⟨_, _, h, _⟩ => by (cases h)⟩
        | some lines =>
          show v ∈ lines.map _ ↔ _
          rw [List.mem_map]
          constructor
          · rintro ⟨line, hl, rfl⟩
            exact ⟨lines, line, rfl, hl, by unfold splitOn; rw [splitOnGo_head]; rfl⟩
          · rintro ⟨_, line, h, hl, rfl⟩
            cases h
            exact ⟨line, hl, by unfold splitOn; rw [splitOnGo_head]; rfl⟩
      show v ∈ loadDictionary verbFile ++ loadDictionary adjFile ↔ _
      rw [List.mem_append, hload, hload]
      constructor
      · rintro (⟨a, b, h1, h2⟩ | ⟨a, b, h1, h2⟩)
        · exact ⟨a, b, Or.inl h1, h2⟩
        · exact ⟨a, b, Or.inr h1, h2⟩
      · rintro ⟨a, b, h1 | h1, h2⟩
        · exact Or.inl ⟨a, b, h1, h2⟩
        · exact Or.inr ⟨a, b, h1, h2⟩

theorem C80_extract_first (s : State) (h : s.trained = none) (minNounScore : Rat) (minFrequency : Int) (given : List Str) (m : Rat) :
    extract s minNounScore minFrequency given m = .error .attributeError := by
  unfold extract; rw [h]

private theorem mapM_error {α β : Type} (f : α → PyM β) (l : List α) (e : PyErr) (h : l.mapM f = .error e) : ∃ a ∈ l, f a = .error e := by
  induction l with
  | nil => cases h
  | cons a l ih =>
    rw [List.mapM_cons] at h
    cases ha : f a with
    | error e' => rw [ha] at h; cases h; exact ⟨a, by simp, ha⟩
    | ok b =>
      rw [ha, bok] at h
      cases hl : l.mapM f with
      | error e' =>
        rw [hl] at h; cases h
        obtain ⟨c, hc, hf⟩ := ih hl
        exact ⟨c, List.mem_cons_of_mem _ hc, hf⟩
      | ok bs => rw [hl] at h; cases h

private theorem map_error {α β : Type} (x : PyM α) (f : α → β) (e : PyErr) (h : x.map f = .error e) : x = .error e := by
  cases x with
  | error e' => cases h; rfl
  | ok a => cases h

private theorem isNJsubJ_error (x : Ctx) (l : Str) (e : PyErr) (h : x.isNJsubJ l = .error e) : e = .zeroDivision := by
  unfold Ctx.isNJsubJ at h
  simp only at h
  repeat' split at h
  all_goals (first | (cases h; rfl) | cases h)

private theorem findNsubJ_error (x : Ctx) (l : Str) (e : PyErr) (h : x.findNsubJ l = .error e) : e = .zeroDivision := by
  unfold Ctx.findNsubJ at h
  simp only at h
  split at h
  · cases h; rfl
  · cases h

private theorem postGo_error (x : Ctx) (es : List (Str × Int)) (nd : Dict Str Value) (e : PyErr) (h : postGo x es nd = .error e) : e = .zeroDivision := by
  induction es generalizing nd with
  | nil => cases h
  | cons a es ih =>
    unfold postGo at h
    simp only at h
    split at h
    · exact ih _ h
    · cases hj : Ctx.isNJsubJ { x with nouns := nd } a.1 with
      | error e' => rw [hj] at h; cases h; exact isNJsubJ_error _ _ _ hj
      | ok b =>
        rw [hj, bok] at h
        split at h
        · exact ih _ h
        · split at h
          · exact ih _ h
          · exact ih _ h

private theorem post_error (x : Ctx) (e : PyErr) (h : postprocessing x = .error e) : e = .zeroDivision := by
  unfold postprocessing at h
  cases h1 : x.scores.mapM (fun e => (x.isNJsubJ e.1).map (fun b => (e.1, b))) with
  | error e' =>
    rw [h1] at h; cases h
    obtain ⟨a, _, ha⟩ := mapM_error _ _ _ h1
    exact isNJsubJ_error _ _ _ (map_error _ _ _ ha)
  | ok nj =>
    rw [h1, bok] at h
    simp only at h
    cases h2 : x.scores.mapM (fun e => (x.findNsubJ e.1).map (fun l0s => if ((nj.filter (·.2)).map (·.1)).contains e.1 then [] else l0s)) with
    | error e' =>
      rw [h2] at h; cases h
      obtain ⟨a, _, ha⟩ := mapM_error _ _ _ h2
      exact findNsubJ_error _ _ _ (map_error _ _ _ ha)
    | ok ns => rw [h2, bok] at h; cases h

private theorem extract_error (s : State) (t : Trained) (hs : s.trained = some t) (mns : Rat) (mf : Int) (given : List Str) (m : Rat) (e : PyErr)
    (h : extract s mns mf given m = .error e) : e = .zeroDivision := by
  unfold extract at h
  rw [hs] at h
  simp only at h
  cases h1 : postprocessing (Ctx.mk s.rScores s.josa s.verbs t (preEojeolAnalysis s t mf) (thresholds mns m (scoreAll s t (candidates s t mf given))) []) with
  | error e' => rw [h1] at h; cases h; exact post_error _ _ h1
  | ok post =>
    rw [h1, bok] at h
    cases h2 : postGo (Ctx.mk s.rScores s.josa s.verbs t (preEojeolAnalysis s t mf) (thresholds mns m (scoreAll s t (candidates s t mf given))) post) (wholeEojeols t mf) (preEojeolAnalysis s t mf) with
    | error e' => rw [h2] at h; cases h; exact postGo_error _ _ _ _ h2
    | ok nd => rw [h2, bok] at h; cases h

/-- training and extracting end normally, or the corpus is empty, or all three thresholds are out of range -/
theorem C80_raises (p : Params) (s : State) (sents : List Str) (minFrequency : Int) (minNounScore : Rat) (given : List Str) (m : Rat) (e : PyErr)
    (h : trainExtract p s sents minFrequency minNounScore given m = .error e) :
    (sents = [] ∧ e = .valueError) ∨ (minFrequency < 1 ∧ minNounScore < 0 ∧ m < 0 ∧ e = .zeroDivision) := by
  by_cases he : sents = []
  · subst he
    left; refine ⟨rfl, ?_⟩
    unfold trainExtract at h
    have : train p s [] = .error .valueError := rfl
    rw [this] at h
    cases h; rfl
  · right
    unfold trainExtract at h
    rw [train_ok p s sents he, bok] at h
    by_contra hc
    have hpos : 1 ≤ minFrequency ∨ 0 ≤ minNounScore ∨ 0 ≤ m := by
      by_contra hn
      push Not at hn
      exact hc ⟨by omega, hn.2.1, hn.2.2, extract_error _ _ rfl _ _ _ _ _ h⟩
    obtain ⟨nouns, _, _, h1, _⟩ := extract_exact p sents { s with trained := some (trained p sents) } rfl minNounScore minFrequency given m hpos
    rw [h1] at h
    cases h

/-- and an empty corpus always raises ValueError, whatever the thresholds -/
theorem C80_empty (p : Params) (s : State) (sents : List Str) (minFrequency : Int) (minNounScore : Rat) (given : List Str) (m : Rat) :
    trainExtract p s sents minFrequency minNounScore given m = .error .valueError ↔ sents = [] := by
  constructor
  · intro h
    rcases C80_raises p s sents minFrequency minNounScore given m _ h with h | h
    · exact h.1
    · exact absurd h.2.2.2 (by decide)
  · rintro rfl; rfl

/-! ### the statements are about something -/

section
private def rs : Dict Str Rat := [("은".toList, 1/2), ("을".toList, 1), ("이".toList, 3/4)]
private def S : State := ⟨rs, josaOf rs, [], [], none⟩
-- a third of the rests has a score, and the word is still a noun with `min_feature_proportion=0.6`
private def sents : List Str := ["바다은 바다을 바다이".toList, ("바다까지 ".toList ++ "바다부터 ".toList ++ "바다까지 ".toList) ++ ("바다부터 ".toList ++ "바다까지 ".toList ++ "바다까지".toList)]

example : (match trainExtract {} S sents with
    | .ok s => s.nouns.map (fun e => (String.ofList e.1, match e.2 with | .count _ => 0 | .score v => v.featureProportion))
    | .error _ => []) = [("바다", 1/3)] := by decide +kernel
example : trainExtract {} S sents 3 (2/5) [] (9/10) = trainExtract {} S sents 3 (2/5) [] 0 := by decide +kernel
-- the remaining exception is reachable: a given word that never occurs, with thresholds that let it pass
example : trainExtract {} ⟨rs, josaOf rs, [], [("바다".toList, .count 3)], none⟩ sents (-1) (-1) ["바다은".toList, "바다를은".toList] (-1)
    = .error .zeroDivision := by decide +kernel
end

end Props
