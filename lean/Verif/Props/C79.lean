import Verif.Proofs.NewsNoun5
/-!
C79: which words `NewsNounExtractor.extract` returns, exactly. With any of the three thresholds non-negative an extraction after a training
never raises, and its table is: the table of earlier extractions, the candidates that pass all filters (`NewsNounSpec.Accept`, read in
order because a filter may look at the candidates accepted so far) and the whole eojeols that are compounds (`AddCompound`). Every value in
the table is the current prediction.
-/
namespace Props
open Py Nested NewsNoun NewsNounSpec

theorem C79_extract (p : Params) (s₀ s : State) (sents : List Str) (ht : train p s₀ sents = .ok s)
    (minNounScore : Rat) (minFrequency : Int) (given : List Str) (minFeatureProportion : Rat)
    (hpos : 1 ≤ minFrequency ∨ 0 ≤ minNounScore ∨ 0 ≤ minFeatureProportion)
    (c : Corpus) (hc : c = corpusOf sents p.maxLeft p.maxRight) (x : Sit)
    (hx : x = start c (Dict.get? s.rScores) (· ∈ s.josa) (· ∈ s.verbs) (· ∈ Dict.keys s.nouns) minNounScore minFrequency given minFeatureProportion) :
    ∃ s' kept comps t, extract s minNounScore minFrequency given minFeatureProportion = .ok s' ∧ s.trained = some t ∧
      Nouns x (scoredWords c (Dict.get? s.rScores) minNounScore minFrequency given minFeatureProportion) (wholeWords x minFrequency) kept comps ∧
      (∀ w, (x.T w ∨ w ∈ kept ∨ w ∈ comps → Dict.get? s'.nouns w = some (.score (predict s.rScores t w))) ∧
        (¬ (x.T w ∨ w ∈ kept ∨ w ∈ comps) → Dict.get? s'.nouns w = none)) ∧
      s' = { s with nouns := s'.nouns } := by
  have he : sents ≠ [] := by rintro rfl; cases ht
  rw [train_ok p s₀ sents he] at ht
  cases ht
  subst hc hx
  obtain ⟨nouns, kept, comps, h1, h2, h3, h4⟩ := extract_exact p sents { s₀ with trained := some (trained p sents) } rfl minNounScore minFrequency given
    minFeatureProportion hpos
  exact ⟨_, kept, comps, trained p sents, h1, rfl, ⟨h2, h3⟩, h4, rfl⟩

/-- the lists `kept` and `comps` of `C79_extract` are determined by the situation -/
theorem C79_unique {P : List Str → Str → Prop} {k ws o₁ o₂ : List Str} (h₁ : Scan P k ws o₁) (h₂ : Scan P k ws o₂) : o₁ = o₂ := by
  induction h₁ with
  | done k => cases h₂; rfl
  | keep hP _ ih => cases h₂ with
    | keep _ h => exact ih h
    | skip hn _ => exact absurd hP hn
  | skip hn _ ih => cases h₂ with
    | keep hP _ => exact absurd hP hn
    | skip _ h => exact ih h

/-- an accepted word was a candidate, and it is accepted by the rules for the words accepted before it -/
private theorem scan_mem {P : List Str → Str → Prop} {k ws out : List Str} (h : Scan P k ws out) :
    ∀ w ∈ out, w ∈ k ∨ w ∈ ws ∧ ∃ k', k' <+: out ∧ P k' w := by
  have hpre : ∀ {k ws out}, Scan P k ws out → k <+: out := by
    intro k ws out h
    induction h with
    | done k => exact List.prefix_refl _
    | keep _ _ ih => exact (List.prefix_append _ _).trans ih
    | skip _ _ ih => exact ih
  induction h with
  | done k => intro w hw; exact Or.inl hw
  | @keep k w ws out hP hs ih =>
    intro v hv
    rcases ih v hv with h | ⟨h, k', hk, hp⟩
    · rcases List.mem_append.1 h with h | h
      · exact Or.inl h
      · have : v = w := by simpa using h
        subst this
        exact Or.inr ⟨by simp, k, (List.prefix_append _ _).trans (hpre hs), hP⟩
    · exact Or.inr ⟨List.mem_cons_of_mem _ h, k', hk, hp⟩
  | skip _ _ ih =>
    intro v hv
    rcases ih v hv with h | ⟨h, k', hk, hp⟩
    · exact Or.inl h
    · exact Or.inr ⟨List.mem_cons_of_mem _ h, k', hk, hp⟩

/-- no noun of an earlier extraction is dropped, whatever the corpus of the last training is; every value is renewed -/
theorem C79_kept (p : Params) (s₀ s s' : State) (sents : List Str) (ht : train p s₀ sents = .ok s)
    (minNounScore : Rat) (minFrequency : Int) (given : List Str) (minFeatureProportion : Rat)
    (hpos : 1 ≤ minFrequency ∨ 0 ≤ minNounScore ∨ 0 ≤ minFeatureProportion)
    (he : extract s minNounScore minFrequency given minFeatureProportion = .ok s') :
    (∀ w, w ∈ Dict.keys s₀.nouns → w ∈ Dict.keys s'.nouns) ∧
      ∃ t, s.trained = some t ∧ ∀ w v, Dict.get? s'.nouns w = some v → v = .score (predict s.rScores t w) := by
  obtain ⟨s'', kept, comps, t, h1, h2, h3, h4, h5⟩ := C79_extract p s₀ s sents ht minNounScore minFrequency given minFeatureProportion hpos _ rfl _ rfl
  rw [he] at h1
  cases h1
  have hn : s.nouns = s₀.nouns := by
    have hne : sents ≠ [] := by rintro rfl; cases ht
    rw [train_ok p s₀ sents hne] at ht
    cases ht; rfl
  constructor
  · intro w hw
    rw [← Dict.isSome_get?_iff, (h4 w).1 (Or.inl (Or.inl (by rw [hn]; exact hw)))]; rfl
  · refine ⟨t, h2, fun w v hv => ?_⟩
    by_cases hw : (start (corpusOf sents p.maxLeft p.maxRight) (Dict.get? s.rScores) (· ∈ s.josa) (· ∈ s.verbs) (· ∈ Dict.keys s.nouns) minNounScore
        minFrequency given minFeatureProportion).T w ∨ w ∈ kept ∨ w ∈ comps
    · rw [(h4 w).1 hw] at hv; exact (Option.some.inj hv).symm
    · rw [(h4 w).2 hw] at hv; cases hv

/-- in an installed package the verb files are missing: a first extraction returns nothing but candidates above all thresholds and compounds
    of at least four characters that nearly always stand alone -/
theorem C79_returned (p : Params) (s₀ s s' : State) (sents : List Str) (ht : train p s₀ sents = .ok s) (hv : s₀.verbs = []) (hn : s₀.nouns = [])
    (minNounScore : Rat) (minFrequency : Int) (given : List Str) (minFeatureProportion : Rat)
    (hpos : 1 ≤ minFrequency ∨ 0 ≤ minNounScore ∨ 0 ≤ minFeatureProportion)
    (he : extract s minNounScore minFrequency given minFeatureProportion = .ok s') (w : Str) (hw : w ∈ Dict.keys s'.nouns) :
    ∃ t v, s.trained = some t ∧ v = predict s.rScores t w ∧ Dict.get? s'.nouns w = some (.score v) ∧ minFrequency ≤ v.frequency ∧ 2 ≤ w.length ∧
      ((minNounScore < v.score ∧ minFeatureProportion < v.frequency ∧ Dict.get? s.rScores w = none ∧ (given = [] ∨ w ∈ given)) ∨
        (99/100 ≤ v.eojeolProportion ∧ 4 ≤ w.length)) := by
  obtain ⟨s'', kept, comps, t, h1, h2, h3, h4, h5⟩ := C79_extract p s₀ s sents ht minNounScore minFrequency given minFeatureProportion hpos _ rfl _ rfl
  rw [he] at h1
  cases h1
  have hne : sents ≠ [] := by rintro rfl; cases ht
  rw [train_ok p s₀ sents hne] at ht
  cases ht
  simp only at h2 h4 h3
  cases h2
  have hmem : (start (corpusOf sents p.maxLeft p.maxRight) (Dict.get? s₀.rScores) (· ∈ s₀.josa) (· ∈ s₀.verbs) (· ∈ Dict.keys s₀.nouns) minNounScore
        minFrequency given minFeatureProportion).T w ∨ w ∈ kept ∨ w ∈ comps := by
    by_contra hc
    rw [← Dict.isSome_get?_iff, (h4 w).2 hc] at hw
    cases hw
  have hval := (h4 w).1 hmem
  refine ⟨trained p sents, _, rfl, rfl, hval, ?_⟩
  rw [predict_eq]
  have hT : ¬ (start (corpusOf sents p.maxLeft p.maxRight) (Dict.get? s₀.rScores) (· ∈ s₀.josa) (· ∈ s₀.verbs) (· ∈ Dict.keys s₀.nouns) minNounScore
        minFrequency given minFeatureProportion).T w := by
    rintro (h | ⟨v, _, _, _, _, h⟩)
    · rw [hn] at h; cases h
    · rw [hv] at h
      rcases h with h | ⟨_, h⟩ <;> cases h
  rcases hmem with h | h | h
  · exact absurd h hT
  · rcases scan_mem h3.1 w h with h | ⟨h, _⟩
    · cases h
    · unfold scoredWords at h
      obtain ⟨hg, hs⟩ := List.mem_filter.1 h
      obtain ⟨a, b, d, e, f⟩ := @of_decide_eq_true _ (Classical.propDecidable _) hs
      refine ⟨a, f, Or.inl ⟨d, ?_, b, ?_⟩⟩
      · push_cast; exact e
      · rw [mem_firsts] at hg
        by_cases hg0 : given = []
        · exact Or.inl hg0
        · rw [if_neg hg0] at hg; exact Or.inr hg
  · rcases scan_mem h3.2 w h with h | ⟨h, k', _, hp⟩
    · cases h
    · unfold wholeWords at h
      obtain ⟨a, b, d⟩ := @of_decide_eq_true _ (Classical.propDecidable _) (List.mem_filter.1 h).2
      have h4 := hp.2.2.2.2.2.1
      exact ⟨b, by omega, Or.inr ⟨d, h4⟩⟩

/-- the defaults of `train_extract` -/
theorem C79_defaults (p : Params) (s₀ : State) (sents : List Str) : trainExtract p s₀ sents = trainExtract p s₀ sents (minFrequency := 3) (minNounScore := 4/10) (given := []) (minFeatureProportion := 6/10) := by
  have h1 : (4/10 : Rat) = 2/5 := by norm_num
  have h2 : (6/10 : Rat) = 3/5 := by norm_num
  rw [h1, h2]

/-- `train_extract` is a training and then an extraction -/
theorem C79_train_extract (p : Params) (s₀ : State) (sents : List Str) (minFrequency : Int) (minNounScore : Rat) (given : List Str) (minFeatureProportion : Rat) :
    trainExtract p s₀ sents minFrequency minNounScore given minFeatureProportion =
      match train p s₀ sents with
      | .ok s => extract s minNounScore minFrequency given minFeatureProportion
      | .error e => .error e := by
  unfold trainExtract
  cases train p s₀ sents <;> rfl

/-! ### the statements are about something -/

section
private def rs : Dict Str Rat := [("은".toList, 1/2), ("을".toList, 1), ("이".toList, 3/4), ("었다".toList, -1)]
private def S : State := ⟨rs, josaOf rs, [], [], none⟩
private def sents : List Str := ["학교은 학교을 학교이 학생은 학생을 학생이 학교 먹었다 먹었다 먹었다".toList, "학교학생 학교학생 학교학생 학생학교은 학생학교을 학생학교은".toList]

-- 학교 and 학생학교 are accepted candidates, 학교학생 is a compound; 학생 is rejected (half of its rests begin with ㅎ)
example : (match trainExtract {} S sents with | .ok s => (Dict.keys s.nouns).map String.ofList | .error _ => []) = ["학교학생", "학교", "학생학교"] := by
  decide +kernel
-- a second extraction on another corpus keeps the words
example : (match trainExtract {} S sents with
    | .ok s => (match trainExtract {} s ["바다은 바다을 바다이 바다은".toList] with | .ok s => (Dict.keys s.nouns).map String.ofList | .error _ => [])
    | .error _ => []) = ["학교학생", "학교", "학생학교", "바다"] := by
  decide +kernel
end

end Props
