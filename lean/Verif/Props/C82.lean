import Verif.Model.NewsTrain
import Verif.Props.C70
import Verif.Props.C54Nouns
import Verif.Props.C21Checkpoints
import Verif.Props.C56
import Verif.Props.C61
import Verif.Props.C72
import Verif.Props.C74
/-! C82: `NewsPOSExtractor.train_extract` (and `ChatPOSExtractor.train_extract`) from the sentences to the tagged words. -/
set_option linter.unusedSimpArgs false
set_option linter.unusedVariables false
namespace Props
open Py NewsPos PosSpec Spec

/-! ### specification -/

/-- the text whose eojeols are tagged: normalised, unless `ensure_normalized=False` -/
def newsText (p : TrainParams) : Str → Str := if p.ensureNormalized then Normalizer.normalizeSentForLrgraph else id

/-- how often `w` is an eojeol of the text -/
def newsOccurs (p : TrainParams) (sents : List Str) (w : Str) : Nat := (eojeolsOf (newsText p) sents).count w

/-- how often `w` is counted as an eojeol of the text: in front of every 500000th sentence a count below `min_eojeol_frequency` is forgotten (C21) -/
def newsCount (p : TrainParams) (sents : List Str) (w : Str) : Nat :=
  (forgetful p.minEojeolFrequency 500000 0 0 (sents.map (fun s => (splitWs (newsText p s)).count w))).toNat

/-- the eojeols are not filtered while they are counted -/
def NewsUnfiltered (p : TrainParams) (sents : List Str) : Prop := p.minEojeolFrequency ≤ 1 ∨ sents.length ≤ 500000

/-- how often `w` is an eojeol of the normalised sentences, which is where the predicators are looked for -/
def normCount (sents : List Str) (w : Str) : Nat := (eojeolsOf Normalizer.normalizeSentForLrgraph sents).count w

/-- the eojeol table: the eojeols of at most 19 characters that are frequent enough, with the number of their occurrences -/
def NewsTable (p : TrainParams) (sents : List Str) (E : Dict Str Nat) : Prop :=
  Dict.WF E ∧ ∀ w n, (w, n) ∈ E ↔ n = newsCount p sents w ∧ 1 ≤ n ∧ p.minEojeolFrequency ≤ n ∧ w.length ≤ 19

/-- a stem of the dictionaries -/
def NewsStem (D : Dictionaries) (x : Str) : Prop := x ∈ D.adjectives ∨ x ∈ D.verbs

/-- a noun that is not forgotten for being the beginning of a stem -/
def NewsNounKept (D : Dictionaries) (nouns : List Str) (n : Str) : Prop :=
  n ∈ nouns ∧ ¬ ∃ x, NewsStem D x ∧ (x.dropLast = n ∨ (x.dropLast ∉ nouns ∧ x.dropLast.dropLast = n))

/-- the words among which predicators are looked for -/
def NewsCand (p : TrainParams) (sents : List Str) (w : Str) (n : Nat) : Prop :=
  n = normCount sents w ∧ w.length ≤ 15 ∧ 2 ≤ n ∧ p.minEojeolFrequency ≤ n ∧ p.minPredicatorFrequency < n ∧ ∀ c ∈ w, Syllable c

/-- a predicator known after training: a frequent word of the normalised text, written in complete syllables, that is not noun + particle, with lemmas of
    dictionary stems (verb stems for verbs, adjective stems that are no verb stems for adjectives) and known endings that conjugate to it -/
structure NewsPredicator (D : Dictionaries) (p : TrainParams) (sents : List Str) (s : State) (stem : Str → Prop) (w : Str) (n : Nat) (ls : List (Str × Str)) : Prop where
  cand : NewsCand p sents w n
  noNoun : ¬ ∃ a j, a ≠ [] ∧ j ≠ [] ∧ NewsNounKept D s.nouns a ∧ j ∈ s.josas ∧ w = a ++ j
  some : ls ≠ []
  nodup : ls.Nodup
  lemmas : ∀ q ∈ ls, stem q.1 ∧ q.2 ∈ s.eomis ∧ ∃ b, Lemma.conjugate q.1 q.2 = .ok b ∧ w ∈ b

/-- the settings of the noun extractor: two thresholds and two switches of the news extractor's own parameters (soynlp/pos/_news_pos.py:99-107), neither
    particles nor compounds are learnt, and the rest are the noun extractor's defaults -/
def newsNounParams (p : TrainParams) : V2.Params :=
  { extractPosFeature := false, extractCompound := false, ensureNormalized := p.ensureNormalized, verbose := p.verbose
    minNumOfFeatures := p.minNumOfNounFeatures, maxFrequencyWhenNounIsEojeol := p.maxFrequencyWhenNounIsEojeol }

/-- the thresholds an ending has to reach -/
def newsThresholds (p : TrainParams) : Pred.Thresholds :=
  { numFeatures := p.minNumOfEomiFeatures, eomiScore := p.minEomiScore, eomiFrequency := p.minEomiFrequency }

/-- the nouns known after training: those the noun extractor finds (C54_nouns) in the counted eojeols, without compounds -/
def NewsNouns (D : Dictionaries) (p : TrainParams) (s : State) : Prop :=
  ∃ c d, Dict.WF c ∧ (∀ w (k : Int), (w, k) ∈ c ↔ ∃ n : Nat, k = n ∧ (w, n) ∈ s.eojeols) ∧ V2Table (newsNounParams p) D.feats c p.minNounScore d ∧
    ∀ w, w ∈ s.nouns ↔ ∃ x, V2Noun (newsNounParams p) D.feats c d [] p.minNounScore p.minNounFrequency w x

/-- the predicators known after training, and the endings: `nouns` and `stems` are the nouns kept and the stems of the dictionaries, `eomis` the endings of the
    dictionary and those learnt (C59) from the eojeols counted at least twice that no noun begins, `words` the words looked at and `rd` their readings as stem and
    ending. A word is reported with its readings that are not taken back (C56); endings that are given up are forgotten. -/
structure NewsReadings (D : Dictionaries) (p : TrainParams) (sents : List Str) (s : State) (nouns stems eomis words : List Str) (rd : Str → List (Str × Str)) : Prop where
  knownNouns : ∀ n, n ∈ nouns ↔ NewsNounKept D s.nouns n
  knownStems : ∀ x, x ∈ stems ↔ NewsStem D x
  startEomis : ∀ y, y ∈ eomis ↔ y ∈ D.eomis ∨ p.extractEomi = true ∧ ∃ c, Dict.WF c ∧
    (∀ w n, Dict.get? c w = some n ↔ n = (normCount sents w : Int) ∧ w.length ≤ 15 ∧ max p.minEojeolFrequency 2 ≤ n ∧ 2 ≤ w.length ∧
      ∀ a b, w = a ++ b → 2 ≤ a.length → a ∉ nouns) ∧ EomiLearnt c stems nouns (newsThresholds p) y
  candidates : words.Nodup ∧ ∀ w, w ∈ words ↔ NewsCand p sents w (normCount sents w)
  readings : ∀ w ∈ words, Readings nouns s.josas stems eomis w (rd w)
  other : ∀ w, w ∉ words → Dict.get? s.adjectives w = none ∧ Dict.get? s.verbs w = none
  word : ∀ w ∈ words, (Dict.get? s.adjectives w = none ∧ Dict.get? s.verbs w = none) ∨
    ∃ as vs, predKept nouns rd words w (as ++ vs) ∧ (as ++ vs).Nodup ∧ (∀ q ∈ as, q.1 ∉ D.verbs) ∧ (∀ q ∈ vs, q.1 ∈ D.verbs) ∧
      Dict.get? s.adjectives w = (if as = [] then none else some (normCount sents w, as)) ∧
      Dict.get? s.verbs w = (if vs = [] then none else some (normCount sents w, vs))
  complete : ∀ w ∈ words, (∃ q ∈ rd w, ¬ TakenBack nouns q.2 (occurrences rd words q.2) w ∧
      ((∃ q' ∈ rd w, q' ≠ q ∧ ¬ TakenBack nouns q'.2 (occurrences rd words q'.2) w) ∨ TakenOnce nouns rd words w)) →
    Dict.get? s.adjectives w ≠ none ∨ Dict.get? s.verbs w ≠ none
  lost : ∀ w ∈ words, ∀ q ∈ rd w, (∀ q' ∈ rd w, q' ≠ q → TakenBack nouns q'.2 (occurrences rd words q'.2) w) →
    (∃ q' ∈ rd w, TakenBack nouns q'.2 (occurrences rd words q'.2) w) →
    (∀ q' ∈ rd w, TakenBack nouns q'.2 (occurrences rd words q'.2) w → 2 ≤ (rd w).countP (fun l => decide (l.2 = q'.2))) →
    Dict.get? s.adjectives w = none ∧ Dict.get? s.verbs w = none
  kept : ∀ e, e ∈ s.eomis ↔ e ∈ eomis ∧ ¬ GivenUp nouns e (occurrences rd words e)

/-- what training leaves -/
structure NewsTrained (D : Dictionaries) (p : TrainParams) (sents : List Str) (s : State) : Prop where
  eojeols : NewsTable p sents s.eojeols
  wordLike : WordLike s.eojeols
  /-- a stored count is at most the number of occurrences -/
  bounded : ∀ w n, (w, n) ∈ s.eojeols → 1 ≤ n ∧ p.minEojeolFrequency ≤ n ∧ n ≤ newsOccurs p sents w ∧ w.length ≤ 19
  adjectives : ∀ w n ls, Dict.get? s.adjectives w = some (n, ls) → NewsPredicator D p sents s (fun x => x ∈ D.adjectives ∧ x ∉ D.verbs) w n ls
  verbs : ∀ w n ls, Dict.get? s.verbs w = some (n, ls) → NewsPredicator D p sents s (· ∈ D.verbs) w n ls
  stems : s.adjectiveStems = D.adjectives ∧ s.verbStems = D.verbs
  josas : s.josas = if D.feats.pos ++ D.feats.common = [] then D.josas else D.feats.pos ++ D.feats.common
  adverbs : ∀ a, a ∈ s.adverbs ↔ a ∈ D.adverbs ∨ ∃ x, NewsStem D (x ++ ['하']) ∧ a = x ++ ['히']
  nouns : NewsNouns D p s
  predicators : ∃ nouns stems eomis words rd, NewsReadings D p sents s nouns stems eomis words rd

/-! ### the noun extractor -/

private theorem construct_counter (p : TrainParams) (sents : List Str) (hne : sents ≠ []) :
    ∃ c, EC.construct (V2.counterParams (nounParams p) p.minEojeolFrequency) (some sents) = .ok c ∧ c.counter.WF ∧
      (∀ w n, (w, n) ∈ c.counter → 1 ≤ n ∧ p.minEojeolFrequency ≤ n ∧ n ≤ (newsOccurs p sents w : Int) ∧ (w.length : Int) ≤ 19 ∧ w ∈ eojeolsOf (newsText p) sents) ∧
      (∀ w n, (w, n) ∈ c.counter ↔ n = (newsCount p sents w : Int) ∧ 1 ≤ n ∧ p.minEojeolFrequency ≤ n ∧ (w.length : Int) ≤ 19) := by
  have hpre : (V2.counterParams (nounParams p) p.minEojeolFrequency).preprocess = newsText p := by
    unfold V2.counterParams V2.preprocess newsText nounParams
    dsimp only
    cases p.ensureNormalized <;> rfl
  obtain ⟨c, hc, hw, hb, hm⟩ := C21_bounds (V2.counterParams (nounParams p) p.minEojeolFrequency) sents hne
  rw [hpre] at hb hm
  refine ⟨c, hc, hw, ?_, ?_⟩
  · intro w n h
    obtain ⟨h1, h2, h3, h4⟩ := hm w n h
    refine ⟨h2, h1, ?_, h3, h4⟩
    have := (hb w).2
    unfold EC.getitem at this
    rw [Dict.getD, Dict.get?_of_mem hw h] at this
    exact this
  · intro w n
    obtain ⟨c', hc', hx⟩ := C21_checkpoints (V2.counterParams (nounParams p) p.minEojeolFrequency) sents hne w
    rw [hc] at hc'
    cases hc'
    dsimp only at hx
    have e1 : (V2.counterParams (nounParams p) p.minEojeolFrequency).maxLength = 19 := rfl
    have e2 : (V2.counterParams (nounParams p) p.minEojeolFrequency).minCount = p.minEojeolFrequency := rfl
    have e3 : (V2.counterParams (nounParams p) p.minEojeolFrequency).checkpoint.toNat = 500000 := rfl
    rw [hpre, e1, e2, e3] at hx
    have hnn := (forgetful_bounds p.minEojeolFrequency 500000 0 0 (Int.le_refl 0) (sents.map (fun s => (splitWs (newsText p s)).count w))).1
    unfold newsCount
    generalize forgetful p.minEojeolFrequency 500000 0 0 (sents.map (fun s => (splitWs (newsText p s)).count w)) = x at hx hnn ⊢
    have hxn : ((x.toNat : Nat) : Int) = x := Int.toNat_of_nonneg hnn
    rw [hxn]
    constructor
    · intro h
      obtain ⟨h1, h2, h3, h4⟩ := hm w n h
      unfold EC.getitem at hx
      rw [Dict.getD, Dict.get?_of_mem hw h] at hx
      dsimp only [Option.getD] at hx
      split at hx
      · exact ⟨hx, h2, h1, h3⟩
      · omega
    · rintro ⟨h1, h2, h3, h4⟩
      subst h1
      rw [if_pos ⟨h4, h3⟩] at hx
      unfold EC.getitem Dict.getD at hx
      cases hg : Dict.get? c.counter w with
      | none => rw [hg] at hx; dsimp only [Option.getD] at hx; omega
      | some k => rw [hg] at hx; dsimp only [Option.getD] at hx; subst hx; exact Dict.mem_of_get? hg

/-- the count is the number of occurrences when nothing is filtered while counting, and never more -/
theorem C82_counts (p : TrainParams) (sents : List Str) (w : Str) :
    newsCount p sents w ≤ newsOccurs p sents w ∧ (NewsUnfiltered p sents → newsCount p sents w = newsOccurs p sents w) := by
  have hs : newsOccurs p sents w = (sents.map (fun s => (splitWs (newsText p s)).count w)).sum := by
    unfold newsOccurs eojeolsOf
    induction sents with
    | nil => rfl
    | cons s sents ih => rw [List.flatMap_cons, List.count_append, List.map_cons, List.sum_cons, ih]
  have hb := forgetful_bounds p.minEojeolFrequency 500000 0 0 (Int.le_refl 0) (sents.map (fun s => (splitWs (newsText p s)).count w))
  unfold newsCount
  rw [hs]
  refine ⟨by omega, fun hu => ?_⟩
  rw [forgetful_eq _ _ _ _ (Int.le_refl 0) _ (by
    rcases hu with h | h
    · exact .inr (.inl h)
    · exact .inr (.inr (by rw [List.length_map]; omega)))]
  omega

private theorem natCounts_mem {d : Dict Str Int} (hw : d.WF) (hp : ∀ kv ∈ d, 0 < kv.2) :
    Dict.WF (natCounts d) ∧ ∀ w n, (w, n) ∈ natCounts d ↔ (w, (n : Int)) ∈ d := by
  constructor
  · show ((natCounts d).map Prod.fst).Nodup
    unfold natCounts
    rw [List.map_map]
    exact hw
  · intro w n
    unfold natCounts
    rw [List.mem_map]
    constructor
    · rintro ⟨⟨v, k⟩, hm, he⟩
      cases he
      have := hp _ hm
      dsimp only at this ⊢
      rwa [Int.toNat_of_nonneg (by omega)]
    · intro hm
      exact ⟨(w, (n : Int)), hm, by simp⟩

private theorem noun_part (D : Dictionaries) (o : Orders) (hn : ∀ i l, (o.nouns i l).Perm l) (p : TrainParams) (sents : List Str) (hne : sents ≠ []) :
    ∃ c, EC.construct (V2.counterParams (nounParams p) p.minEojeolFrequency) (some sents) = .ok c ∧ c.counter.WF ∧
      (p.verbose = true → c.counter = [] → trainNounExtractor D o p sents = .error .zeroDivision) ∧
      (¬ (p.verbose = true ∧ c.counter = []) → ∃ n nouns, trainNounExtractor D o p sents = .ok (n, nouns) ∧ n.feats = D.feats ∧
        (∃ d, V2Table (nounParams p) D.feats c.counter p.minNounScore d ∧
          ∀ w, w ∈ Dict.keys nouns ↔ ∃ x, V2Noun (nounParams p) D.feats c.counter d [] p.minNounScore p.minNounFrequency w x) ∧
        ∃ E, eojeolTable n = .ok E ∧ Dict.WF E ∧ ∀ w k, (w, k) ∈ E ↔ (w, (k : Int)) ∈ c.counter) := by
  obtain ⟨c, s', hc, hw, hp, hsum, ht, ht'⟩ := (C54_sentences (nounParams p) { feats := D.feats } sents p.minEojeolFrequency).2 hne (show (1 : Int) < 10 by decide) (show (0 : Int) < 9 by decide)
  have hz : Dict.sumI c.counter = 0 ↔ c.counter = [] := by
    constructor
    · intro h
      cases hcc : c.counter with
      | nil => rfl
      | cons x xs =>
        exfalso
        rw [hcc] at h hp
        have h1 := hp x (by simp)
        have : ∀ l : List (Str × Int), (∀ kv ∈ l, 0 < kv.2) → 0 ≤ (l.map Prod.snd).sum := by
          intro l
          induction l with
          | nil => simp
          | cons y ys ih =>
            intro hl
            have a := hl y (by simp)
            have b := ih (fun z hz => hl z (by simp [hz]))
            rw [List.map_cons, List.sum_cons]
            omega
        have h2 := this xs (fun z hz => hp z (by simp [hz]))
        have h3 : Dict.sumI (x :: xs) = x.2 + (xs.map Prod.snd).sum := by
          show ((x :: xs).map Prod.snd).sum = _
          rw [List.map_cons, List.sum_cons]
        omega
    · intro h; rw [h]; rfl
  obtain ⟨d, g, hg, htab, hE⟩ := C54_extract (nounParams p) { feats := D.feats } s' c hw hp hsum ht o.entLt o.nouns hn p.minNounScore p.minNounFrequency false
  obtain ⟨_, h2, h3⟩ := hE (.ok []) rfl
  have hun : trainNounExtractor D o p sents = V2.extract (nounParams p) o.entLt o.nouns s' p.minNounScore p.minNounFrequency false := by
    unfold trainNounExtractor
    rw [ht']
  have hlr : LR.toLrgraph c 10 9 = .ok g := by
    unfold V2.trainWithEojeolCounter at ht
    have e1 : (nounParams p).maxLeft = 10 := rfl
    have e2 : (nounParams p).maxRight = 9 := rfl
    rw [e1, e2] at ht
    cases hx : LR.toLrgraph c 10 9 with
    | error e => rw [hx] at ht; cases ht
    | ok g' =>
      rw [hx] at ht
      dsimp only at ht
      unfold V2.trainWithLrgraph at ht
      split at ht
      · split at ht
        · cases ht; cases hg; rfl
        · cases ht
      · cases ht; cases hg; rfl
  refine ⟨c, hc, hw, ?_, ?_⟩
  · intro hv h0
    rw [hun]
    exact h2 [] rfl hv (hz.2 h0)
  · intro hv
    obtain ⟨n, nouns, q1, q2, q3, q4, _, _, _, _, _, _, _, q5⟩ := h3 [] rfl (fun h => hv ⟨h.1, hz.1 h.2⟩)
    obtain ⟨g'', r1, r2, _⟩ := q5 rfl
    obtain ⟨c2, b1, b2, _, b4⟩ := C26_back c hw 10 9 false g hlr true
    have hb : LR.toEojeolCounter g'' true = .ok c2 := by
      rw [← b1]
      unfold LR.toEojeolCounter
      dsimp only
      rw [if_pos rfl, if_pos rfl, r2]
    have hp2 : ∀ kv ∈ c2.counter, 0 < kv.2 := fun kv hk => hp kv ((b4 kv.1 kv.2).1 hk).1
    obtain ⟨n1, n2⟩ := natCounts_mem b2 hp2
    refine ⟨n, nouns, hun.trans q1, q4, ?_, natCounts c2.counter, ?_, n1, ?_⟩
    · obtain ⟨d', g', comps, _, k2, _, k4, _, k6⟩ := C54_nouns (nounParams p) rfl { feats := D.feats } s' c hw hp hsum ht o.entLt o.nouns hn p.minNounScore
        p.minNounFrequency false (by
          intro e he
          obtain ⟨⟨w, k⟩, hm, rfl⟩ := List.mem_map.1 he
          obtain ⟨c', hc', _, hm', _⟩ := construct_counter p sents hne
          rw [hc] at hc'
          cases hc'
          obtain ⟨_, _, _, _, h5⟩ := hm' _ _ hm
          obtain ⟨sent, _, hs⟩ := List.mem_flatMap.1 h5
          exact (Py.splitWs_words _ w hs).2) n nouns q1
      have hcs : comps = [] := k4 rfl
      subst hcs
      refine ⟨d', k2, fun w => ?_⟩
      rw [← Dict.isSome_get?_iff, Option.isSome_iff_exists]
      exact exists_congr (fun x => k6 w x)
    · unfold eojeolTable
      rw [r1]
      dsimp only
      rw [hb]; rfl
    · intro w k
      rw [n2, b4]
      constructor
      · exact fun h => h.1
      · intro h
        obtain ⟨c', hc', _, hm, _⟩ := construct_counter p sents hne
        rw [hc] at hc'
        cases hc'
        obtain ⟨_, _, _, h4, h5⟩ := hm _ _ h
        refine ⟨h, ?_, h4⟩
        obtain ⟨sent, _, hs⟩ := List.mem_flatMap.1 h5
        have := (Py.splitWs_words _ w hs).1
        exact List.length_pos_iff.2 this

/-! ### the predicator extractor -/

private theorem decomposeList_korean {c : Char} {d : Lemma.Jamo} (h : Lemma.decomposeList c = .ok d) : Korean c := by
  by_contra hk
  unfold Lemma.decomposeList at h
  rw [Hangle.decompose_nonkorean hk] at h
  cases h

/-- what can be conjugated ends, resp. begins, with a Korean character -/
theorem korean_of_conjugate {stem eomi : Str} {b : List Str} (h : Lemma.conjugate stem eomi = .ok b) :
    (∃ c, stem.getLast? = some c ∧ Korean c) ∧ ∃ c, eomi.head? = some c ∧ Korean c := by
  unfold Lemma.conjugate at h
  cases eomi with
  | nil => cases h
  | cons e0 es =>
    dsimp only at h
    cases hl : stem.getLast? with
    | none => rw [hl] at h; cases h
    | some last =>
      rw [hl] at h
      dsimp only at h
      cases h1 : Lemma.decomposeList last with
      | error e => rw [h1] at h; cases h
      | ok ll =>
        rw [h1] at h
        dsimp only at h
        cases h2 : Lemma.decomposeList e0 with
        | error e => rw [h2] at h; cases h
        | ok rf => exact ⟨⟨last, rfl, decomposeList_korean h1⟩, e0, rfl, decomposeList_korean h2⟩

private theorem learn_entLt (e1 e2 : List Int → Rat → Bool) (enumS : List Str → List Str) (enumL : List (Str × Str) → List (Str × Str))
    (t : Pred.Thresholds) (doEomi : Bool) (s : Pred.State) :
    Pred.learn e1 enumS enumL t doEomi false s = Pred.learn e2 enumS enumL t doEomi false s := by
  unfold Pred.learn
  split
  · rfl
  · split
    · rfl
    · split
      · rfl
      · simp

/-- the state of the predicator extractor when it starts to extract -/
private structure PredReady (D : Dictionaries) (p : TrainParams) (feats : V2.Features) (nouns : List Str) (sents : List Str) (s : Pred.State) (ec : EC.State) : Prop where
  nouns : ∀ n, n ∈ s.nouns ↔ NewsNounKept D nouns n
  josas : s.josas = if feats.pos ++ feats.common = [] then D.josas else feats.pos ++ feats.common
  adjectives : s.adjectives = D.adjectives
  verbs : s.verbs = D.verbs
  stems : ∀ x, x ∈ s.stems ↔ NewsStem D x
  verbose : s.verbose = p.verbose
  counter : s.counter = some ec
  wf : ec.counter.WF
  mem : ∀ w n, (w, n) ∈ ec.counter ↔ n = (normCount sents w : Int) ∧ w.length ≤ 15 ∧ max p.minEojeolFrequency 2 ≤ n
  count : s.countOfEojeols = 0 ↔ ec.counter = []

private theorem pred_counted (D : Dictionaries) (p : TrainParams) (feats : V2.Features) (nouns : List Str) (sents : List Str) (hne : sents ≠ []) :
    ∃ s ec, Pred.trainWithSentences (predExtractor D p feats nouns) sents p.minEojeolFrequency = .ok s ∧ PredReady D p feats nouns sents s ec ∧ s.eomis = D.eomis := by
  obtain ⟨c1, c2, c3, c4, c5⟩ := C56_construct D.josas D.adjectives D.verbs D.eomis nouns (some (feats.pos ++ feats.common)) none none none p.verbose false
  have c2a : (predExtractor D p feats nouns).adjectives = D.adjectives := congrArg Prod.fst c2
  have c2b : (predExtractor D p feats nouns).verbs = D.verbs := congrArg Prod.snd c2
  obtain ⟨s, ec, h1, h2, h3, h4⟩ := (C56_train_sentences (predExtractor D p feats nouns) sents p.minEojeolFrequency).2 hne
  have hen : (predExtractor D p feats nouns).ensureNormalized = false := rfl
  rw [hen] at h4
  simp only [Bool.false_eq_true, if_false] at h4
  have h1' := h1
  unfold Pred.trainWithSentences at h1'
  cases hcc : EC.construct (Pred.counterParams (predExtractor D p feats nouns) p.minEojeolFrequency) (some sents) with
  | error e => rw [hcc] at h1'; cases h1'
  | ok c =>
    rw [hcc] at h1'
    have hs : (Pred.trainWithEojeolCounter (predExtractor D p feats nouns) c).1 = s := Except.ok.inj h1'
    have f1 : s.nouns = (predExtractor D p feats nouns).nouns := by rw [← hs]; rfl
    have f2 : s.josas = (predExtractor D p feats nouns).josas := by rw [← hs]; rfl
    have f3 : s.stems = (predExtractor D p feats nouns).stems := by rw [← hs]; rfl
    have f4 : s.adjectives = D.adjectives := by rw [← c2a, ← hs]; rfl
    have f5 : s.verbs = D.verbs := by rw [← c2b, ← hs]; rfl
    have f6 : s.eomis = (predExtractor D p feats nouns).eomis := by rw [← hs]; rfl
    have f7 : s.verbose = p.verbose := by rw [← hs]; rfl
    have f8 : s.countOfEojeols = Dict.sumI ec.counter := by
      have : s.counter = some (Pred.trainWithEojeolCounter (predExtractor D p feats nouns) c).2 := by rw [← hs]; rfl
      rw [this] at h2
      rw [← Option.some.inj h2, ← hs]; rfl
    have hst : ∀ x, x ∈ s.stems ↔ NewsStem D x := by
      intro x
      rw [f3]
      refine (c1 x).trans ?_
      show x ∈ (predExtractor D p feats nouns).adjectives ∨ x ∈ (predExtractor D p feats nouns).verbs ↔ _
      rw [c2a, c2b]; rfl
    refine ⟨s, ec, h1, ⟨?_, ?_, f4, f5, hst, f7, h2, h3, ?_, ?_⟩, ?_⟩
    · intro n
      rw [f1]
      refine (c5 n).trans ?_
      unfold NewsNounKept
      have : ∀ x, x ∈ (predExtractor D p feats nouns).stems ↔ NewsStem D x := by intro x; rw [← f3, hst]
      constructor
      · rintro ⟨a, b⟩
        exact ⟨a, fun ⟨x, hx, h⟩ => b ⟨x, (this x).2 hx, h⟩⟩
      · rintro ⟨a, b⟩
        exact ⟨a, fun ⟨x, hx, h⟩ => b ⟨x, (this x).1 hx, h⟩⟩
    · rw [f2]
      refine c3.trans ?_
      cases feats.pos ++ feats.common with
      | nil => rfl
      | cons a l => rfl
    · intro w n
      rw [h4]
      unfold normCount
      constructor
      · rintro ⟨h1, h2, h3, h4⟩
        exact ⟨h3, h2, h4⟩
      · rintro ⟨h1, h2, h3⟩
        refine ⟨List.count_pos_iff.1 ?_, h2, h1, h3⟩
        have := Int.le_trans (Int.le_max_right _ _) h3
        omega
    · rw [f8]
      constructor
      · intro h
        cases hl : ec.counter with
        | nil => rfl
        | cons x xs =>
          exfalso
          have hpos : ∀ kv ∈ ec.counter, 2 ≤ kv.2 := fun kv hk => Int.le_trans (Int.le_max_right _ _) ((h4 kv.1 kv.2).1 hk).2.2.2
          rw [hl] at h hpos
          have : ∀ l : List (Str × Int), (∀ kv ∈ l, 2 ≤ kv.2) → 0 ≤ (l.map Prod.snd).sum := by
            intro l
            induction l with
            | nil => simp
            | cons y ys ih =>
              intro hl
              have a := hl y (by simp)
              have b := ih (fun z hz => hl z (by simp [hz]))
              rw [List.map_cons, List.sum_cons]
              omega
          have h2 := this xs (fun z hz => hpos z (by simp [hz]))
          have h3 : Dict.sumI (x :: xs) = x.2 + (xs.map Prod.snd).sum := by
            show ((x :: xs).map Prod.snd).sum = _
            rw [List.map_cons, List.sum_cons]
          have := hpos x (by simp)
          omega
      · intro h; rw [h]; rfl
    · rw [f6]; exact c4

private theorem pred_learnt (D : Dictionaries) (o : Orders) (hS : ∀ l, (o.stems l).Perm l) (hL : ∀ l, (o.lemmas l).Perm l) (p : TrainParams)
    (feats : V2.Features) (nouns : List Str) (sents : List Str) (s : Pred.State) (ec : EC.State) (hr : PredReady D p feats nouns sents s ec) (he : s.eomis = D.eomis) :
    ((∃ s', Pred.learn o.entLt o.stems o.lemmas (thresholds p) p.extractEomi false s = .ok s') ↔
      ¬ (p.extractEomi = true ∧ ∃ x, NewsStem D x ∧ ∃ e, Lemma.conjugateStem x = .error e)) ∧
    (∀ s', Pred.learn o.entLt o.stems o.lemmas (thresholds p) p.extractEomi false s = .ok s' → PredReady D p feats nouns sents s' ec ∧ s'.nouns = s.nouns ∧
      ∀ y, y ∈ s'.eomis ↔ y ∈ D.eomis ∨ p.extractEomi = true ∧ ∃ c2, LearnEojeols s.nouns ec.counter c2 ∧ EomiLearnt c2 s.stems s.nouns (thresholds p) y) := by
  classical
  have hp : ∀ kv ∈ ec.counter, 0 < kv.2 := fun kv hk => by
    have := Int.le_trans (Int.le_max_right _ _) ((hr.mem kv.1 kv.2).1 hk).2.2
    omega
  let ent : List Int → Rat → Bool := fun cs x => decide (countEntropy cs < (x : ℝ))
  have hent : ∀ cs x, ent cs x = true ↔ countEntropy cs < (x : ℝ) := fun cs x => decide_eq_true_iff
  rw [learn_entLt o.entLt ent]
  obtain ⟨r1, r2⟩ := C61_raises ent o.stems hS o.lemmas hL (thresholds p) s ec hr.counter hr.wf hp p.extractEomi false
  constructor
  · constructor
    · rintro ⟨s', hs'⟩ ⟨h1, x, hx, e, he⟩
      obtain ⟨e', he'⟩ := r2 h1 ⟨x, (hr.stems x).2 hx, e, he⟩
      rw [hs'] at he'; cases he'
    · intro h
      cases hl : Pred.learn ent o.stems o.lemmas (thresholds p) p.extractEomi false s with
      | ok s' => exact ⟨s', rfl⟩
      | error e =>
        obtain ⟨h1, x, hx, he⟩ := r1 e hl
        exact absurd ⟨h1, x, (hr.stems x).1 hx, e, he⟩ h
  · intro s' hs'
    obtain ⟨l1, c2, l2, l3, l4⟩ := C61_learn ent hent o.stems hS o.lemmas hL (thresholds p) s ec hr.counter hr.wf hp p.extractEomi false (by simp) s' hs'
    have hstm : ∀ x, x ∈ s'.stems ↔ x ∈ s.stems := by intro x; rw [l4]; simp
    refine ⟨⟨?_, ?_, ?_, ?_, ?_, ?_, ?_, hr.wf, hr.mem, ?_⟩, ?_, ?_⟩
    · rw [l1]; exact hr.nouns
    · rw [l1]; exact hr.josas
    · rw [l1]; exact hr.adjectives
    · rw [l1]; exact hr.verbs
    · intro x; rw [hstm, hr.stems]
    · rw [l1]; exact hr.verbose
    · rw [l1]; exact hr.counter
    · rw [l1]; exact hr.count
    · rw [l1]
    · intro y
      rw [l3, he]
      constructor
      · rintro (h | ⟨h, h'⟩)
        · exact .inl h
        · exact .inr ⟨h, c2, l2, h'⟩
      · rintro (h | ⟨h, c3, h3, h'⟩)
        · exact .inl h
        · refine .inr ⟨h, ?_⟩
          obtain ⟨d, x, t1, t2, t3⟩ := h'
          have hc : ∀ w n, Dict.get? c3 w = some n ↔ Dict.get? c2 w = some n := fun w n => by rw [h3.2, l2.2]
          have hsp : ∀ l r n, EomiSplit 10 9 c3 l r n ↔ EomiSplit 10 9 c2 l r n := by
            intro l r n; unfold EomiSplit; rw [hc]
          refine ⟨d, x, ⟨t1.wf, ?_, ?_⟩, ?_, t3⟩
          · intro r; rw [t1.cands]; simp only [hsp]
          · intro r v hv
            obtain ⟨col, u1, u2, u3⟩ := t1.entry r v hv
            refine ⟨col, u1, ?_, u3⟩
            intro l n
            rw [u2, hsp]
            unfold EomiTaken
            simp only [hsp]
          · unfold EomiEntry Props.Reading at t2 ⊢
            simp only [hsp] at t2
            exact t2

private theorem natEntries_get? (d : Dict Str Pred.Entry) (w : Str) :
    Dict.get? (natEntries d) w = (Dict.get? d w).map (fun e => (e.1.toNat, e.2)) := by
  induction d with
  | nil => rfl
  | cons x xs ih =>
    have : natEntries (x :: xs) = (x.1, (x.2.1.toNat, x.2.2)) :: natEntries xs := rfl
    rw [this, Dict.get?_cons, Dict.get?_cons, ih]
    split
    · rfl
    · rfl

/-- the candidates of the predicator extractor -/
private theorem pred_cands {D : Dictionaries} {p : TrainParams} {feats : V2.Features} {nouns sents : List Str} {s : Pred.State} {ec : EC.State}
    (hr : PredReady D p feats nouns sents s ec) :
    ∃ cands, PredCands s [] p.minPredicatorFrequency cands ∧ Dict.WF cands ∧ (∀ w (n : Int), (w, n) ∈ cands → NewsCand p sents w n.toNat ∧ 0 ≤ n) ∧
      (∀ w, NewsCand p sents w (normCount sents w) → (w, (normCount sents w : Int)) ∈ cands) ∧
      (∀ kv ∈ cands, ∀ c ∈ kv.1, Syllable c) := by
  refine ⟨_, .inr ⟨rfl, ec, hr.counter, rfl⟩, hr.wf.filter _, ?_, ?_, ?_⟩
  · intro w n h
    obtain ⟨h1, h2⟩ := List.mem_filter.1 h
    obtain ⟨g1, g2, g3⟩ := (hr.mem w n).1 h1
    have h2 := of_decide_eq_true h2
    dsimp only at h2
    have g4 := Int.le_trans (Int.le_max_right _ _) g3
    have g5 := Int.le_trans (Int.le_max_left _ _) g3
    exact ⟨⟨by omega, g2, by omega, by omega, by have := h2.1; omega, h2.2⟩, by omega⟩
  · rintro w ⟨_, h2, h3, h4, h5, h6⟩
    exact List.mem_filter.2 ⟨(hr.mem w _).2 ⟨rfl, h2, Int.max_le.2 ⟨h4, by omega⟩⟩, decide_eq_true ⟨h5, h6⟩⟩
  · intro kv h
    exact (of_decide_eq_true (List.mem_filter.1 h).2).2

private theorem pred_extract_ok {D : Dictionaries} {o : Orders} (hL : ∀ l, (o.lemmas l).Perm l) {p : TrainParams} {feats : V2.Features} {nouns sents : List Str}
    {s : Pred.State} {ec : EC.State} (hr : PredReady D p feats nouns sents s ec) :
    (∃ r, Pred.extract o.lemmas s [] p.minPredicatorFrequency = .ok r) ↔ ¬ (p.verbose = true ∧ ec.counter = []) := by
  obtain ⟨cands, h1, h2, h3, h3', h4⟩ := pred_cands hr
  rw [C56_total o.lemmas hL s [] cands p.minPredicatorFrequency h1 h2]
  rw [hr.verbose, hr.count]
  exact ⟨fun h => h.2, fun h => ⟨fun kv hk => .inr (h4 kv hk), h⟩⟩

private theorem pred_result {D : Dictionaries} {o : Orders} (hL : ∀ l, (o.lemmas l).Perm l) {p : TrainParams} {feats : V2.Features} {nouns sents : List Str}
    {s s' : Pred.State} {ec : EC.State} (hr : PredReady D p feats nouns sents s ec) {adj vb : Dict Str Pred.Entry}
    (h : Pred.extract o.lemmas s [] p.minPredicatorFrequency = .ok (s', adj, vb)) :
    PredReady D p feats nouns sents s' ec ∧ (∃ cands rd, PredResult s s' cands adj vb rd ∧ Dict.WF cands ∧
      ∀ w (n : Int), (w, n) ∈ cands ↔ n = normCount sents w ∧ NewsCand p sents w (normCount sents w)) ∧
    ∀ w n ls, (Dict.get? (natEntries adj) w = some (n, ls) ∨ Dict.get? (natEntries vb) w = some (n, ls)) →
      NewsCand p sents w n ∧ ¬ NounJosa s.nouns s.josas w ∧ ls ≠ [] ∧ ls.Nodup ∧
      ∀ q ∈ ls, q.2 ∈ s'.eomis ∧ (∃ b, Lemma.conjugate q.1 q.2 = .ok b ∧ w ∈ b) ∧
        (Dict.get? (natEntries vb) w = some (n, ls) → q.1 ∈ D.verbs) ∧
        (Dict.get? (natEntries adj) w = some (n, ls) → q.1 ∈ D.adjectives ∧ q.1 ∉ D.verbs) := by
  obtain ⟨cands, h1, h2, h3, h3', h4⟩ := pred_cands hr
  obtain ⟨rd, R⟩ := C56_extract o.lemmas hL s s' [] cands p.minPredicatorFrequency h1 h2 (fun x hx => by
    rw [hr.adjectives, hr.verbs]; exact (hr.stems x).1 hx) adj vb h
  obtain ⟨r1, r2, r3, r4, r5, r6⟩ := R.rest
  refine ⟨⟨by rw [r1]; exact hr.nouns, by rw [r2]; exact hr.josas, by rw [r4]; exact hr.adjectives, by rw [r5]; exact hr.verbs,
    by rw [r3]; exact hr.stems, ?_, by rw [r6]; exact hr.counter, hr.wf, hr.mem, ?_⟩, ⟨cands, rd, R, h2, ?_⟩, ?_⟩
  · have : s'.verbose = s.verbose := by
      obtain ⟨a, _, hs', _⟩ := pred_extract_split h1 h
      rw [hs']
    rw [this]; exact hr.verbose
  · have : s'.countOfEojeols = s.countOfEojeols := by
      obtain ⟨a, _, hs', _⟩ := pred_extract_split h1 h
      rw [hs']
    rw [this]; exact hr.count
  · intro w n
    constructor
    · intro hm
      obtain ⟨a, b⟩ := h3 w n hm
      have hn : n.toNat = normCount sents w := a.1
      rw [hn] at a
      exact ⟨by omega, a⟩
    · rintro ⟨rfl, hm⟩; exact h3' w hm
  · intro w n ls hl
    have hback : ∀ d : Dict Str Pred.Entry, Dict.get? (natEntries d) w = some (n, ls) → ∃ k, Dict.get? d w = some (k, ls) ∧ k.toNat = n := by
      intro d hd
      rw [natEntries_get?] at hd
      cases hx : Dict.get? d w with
      | none => rw [hx] at hd; cases hd
      | some e =>
        rw [hx] at hd
        have := Option.some.inj hd
        obtain ⟨k, l⟩ := e
        cases this
        exact ⟨k, rfl, rfl⟩
    obtain ⟨k, hk, hkn⟩ : ∃ k, (Dict.get? adj w = some (k, ls) ∨ Dict.get? vb w = some (k, ls)) ∧ k.toNat = n := by
      rcases hl with hl | hl
      · obtain ⟨k, a, b⟩ := hback _ hl; exact ⟨k, .inl a, b⟩
      · obtain ⟨k, a, b⟩ := hback _ hl; exact ⟨k, .inr a, b⟩
    obtain ⟨s1, s2, s3, s4, s5⟩ := C56_sound _ s s' cands adj vb rd R w k ls hk
    obtain ⟨hcand, hnn⟩ := h3 w k s1
    rw [hkn] at hcand
    refine ⟨hcand, s2, s3, s4, ?_⟩
    intro q hq
    obtain ⟨t1, t2, t3, t4, t5⟩ := s5 q hq
    refine ⟨?_, t3, ?_, ?_⟩
    · -- the reading was not taken back, so its ending was not given up
      rw [R.eomis]
      refine ⟨t2, fun hg => ?_⟩
      rcases R.word w k s1 with ⟨e1, e2⟩ | ⟨as, vs, u1, u2, u3, u4, u5, u6⟩
      · rcases hk with hk | hk
        · rw [e1] at hk; cases hk
        · rw [e2] at hk; cases hk
      · have hmem : q ∈ as ++ vs := by
          rcases hk with hk | hk
          · rw [u5] at hk
            split at hk
            · cases hk
            · have : as = ls := congrArg Prod.snd (Option.some.inj hk)
              rw [this]; simp [hq]
          · rw [u6] at hk
            split at hk
            · cases hk
            · have : vs = ls := congrArg Prod.snd (Option.some.inj hk)
              rw [this]; simp [hq]
        obtain ⟨v1, v2⟩ := (u1 q).1 hmem
        apply v2
        refine ⟨?_, .inl hg⟩
        unfold occurrences
        rw [List.mem_flatMap]
        refine ⟨w, List.mem_map.2 ⟨(w, k), s1, rfl⟩, ?_⟩
        rw [List.mem_replicate]
        refine ⟨?_, rfl⟩
        have : 0 < (rd w).countP (fun p => decide (p.2 = q.2)) := by
          rw [List.countP_pos_iff]; exact ⟨q, v1, by simp⟩
        omega
    · intro hv
      obtain ⟨k', a, b⟩ := hback _ hv
      have hk' : k' = k := by
        have := (C56_sound _ s s' cands adj vb rd R w k' ls (.inr a)).1
        have e1 := Dict.get?_of_mem h2 this
        rw [Dict.get?_of_mem h2 s1] at e1
        exact (Option.some.inj e1).symm
      rw [hk'] at a
      rw [← hr.verbs]; exact t4 a
    · intro hv
      obtain ⟨k', a, b⟩ := hback _ hv
      have hk' : k' = k := by
        have := (C56_sound _ s s' cands adj vb rd R w k' ls (.inl a)).1
        have e1 := Dict.get?_of_mem h2 this
        rw [Dict.get?_of_mem h2 s1] at e1
        exact (Option.some.inj e1).symm
      rw [hk'] at a
      have hnv := t5 a
      rw [hr.verbs] at hnv
      exact ⟨((hr.stems q.1).1 t1).resolve_right hnv, hnv⟩

private theorem adverbs_part (D : Dictionaries) (a v : List Str) :
    ((∃ out, allAdverbs D a v = .ok out) ↔ [] ∉ a ∧ [] ∉ v) ∧
    ∀ out, allAdverbs D a v = .ok out → ∀ x, x ∈ out ↔ x ∈ D.adverbs ∨ ∃ y, (y ++ ['하'] ∈ a ∨ y ++ ['하'] ∈ v) ∧ x = y ++ ['히'] := by
  have key : ∀ l : List Str, ((∃ out, stemToAdverb l = .ok out) ↔ [] ∉ l) ∧ ∀ out, stemToAdverb l = .ok out → ∀ x, x ∈ out ↔ ∃ y, y ++ ['하'] ∈ l ∧ x = y ++ ['히'] := by
    intro l
    obtain ⟨k1, k2⟩ := C72_stem_to_adverb l [['히']]
    by_cases hn : [] ∈ l
    · have := k1.2 ⟨hn, by simp⟩
      refine ⟨⟨fun ⟨o, ho⟩ => by (rw [this] at ho; cases ho), fun h => absurd hn h⟩, fun out ho => by (rw [this] at ho; cases ho)⟩
    · obtain ⟨out, ho, hm⟩ := k2 (fun h => hn h.1)
      refine ⟨⟨fun _ => hn, fun _ => ⟨out, ho⟩⟩, ?_⟩
      intro out' ho' x
      rw [ho] at ho'
      cases ho'
      rw [hm]
      constructor
      · rintro ⟨q, z, h1, h2, h3⟩
        rw [List.mem_singleton] at h2
        exact ⟨q, h1, by rw [h3, h2]⟩
      · rintro ⟨q, h1, h2⟩; exact ⟨q, ['히'], h1, by simp, h2⟩
  obtain ⟨ka1, ka2⟩ := key a
  obtain ⟨kv1, kv2⟩ := key v
  unfold allAdverbs
  cases ha : stemToAdverb a with
  | error e =>
    have hna : ¬ [] ∉ a := fun h => by obtain ⟨o, ho⟩ := ka1.2 h; rw [ha] at ho; cases ho
    refine ⟨⟨?_, fun h => absurd h.1 hna⟩, ?_⟩
    · rintro ⟨o, ho⟩; cases ho
    · intro out ho; cases ho
  | ok oa =>
    have hna := ka1.1 ⟨oa, ha⟩
    cases hv : stemToAdverb v with
    | error e =>
      have hnv : ¬ [] ∉ v := fun h => by obtain ⟨o, ho⟩ := kv1.2 h; rw [hv] at ho; cases ho
      refine ⟨⟨?_, fun h => absurd h.2 hnv⟩, ?_⟩
      · rintro ⟨o, ho⟩; cases ho
      · intro out ho; cases ho
    | ok ov =>
      refine ⟨⟨fun _ => ⟨hna, kv1.1 ⟨ov, hv⟩⟩, fun _ => ⟨_, rfl⟩⟩, ?_⟩
      intro out ho x
      cases ho
      rw [List.mem_append, List.mem_append, ka2 oa ha, kv2 ov hv]
      constructor
      · rintro ((h | ⟨y, h1, h2⟩) | ⟨y, h1, h2⟩)
        · exact .inl h
        · exact .inr ⟨y, .inl h1, h2⟩
        · exact .inr ⟨y, .inr h1, h2⟩
      · rintro (h | ⟨y, h1 | h1, h2⟩)
        · exact .inl (.inl h)
        · exact .inl (.inr ⟨y, h1, h2⟩)
        · exact .inr ⟨y, h1, h2⟩

/-! ### the claims -/

section
variable (D : Dictionaries) (o : Orders) (hn : ∀ i l, (o.nouns i l).Perm l) (hS : ∀ l, (o.stems l).Perm l) (hL : ∀ l, (o.lemmas l).Perm l)
  (p : TrainParams) (sents : List Str)
include hn hS hL

/-- C82 (a): what training leaves, whatever the order in which sets are enumerated -/
theorem C82_trained (s : State) (h : train D o p sents = .ok s) : NewsTrained D p sents s := by
  have hne : sents ≠ [] := by
    rintro rfl
    unfold train trainNounExtractor at h
    rw [(C54_sentences (nounParams p) { feats := D.feats } [] p.minEojeolFrequency).1 rfl] at h
    cases h
  obtain ⟨c, hc, hcw, n1, n2⟩ := noun_part D o hn p sents hne
  obtain ⟨c', hc', _, hmem, hun⟩ := construct_counter p sents hne
  rw [hc] at hc'
  cases hc'
  unfold train at h
  by_cases hv : p.verbose = true ∧ c.counter = []
  · rw [n1 hv.1 hv.2] at h; cases h
  obtain ⟨n, nouns, hN, hfe, ⟨dN, hdN, hnN⟩, E, hE, hEw, hEm⟩ := n2 hv
  rw [hN] at h
  dsimp only at h
  unfold trainPredicatorExtractor at h
  rw [hfe] at h
  obtain ⟨s0, ec, p1, p2, p3⟩ := pred_counted D p D.feats (Dict.keys nouns) sents hne
  rw [p1] at h
  dsimp only at h
  obtain ⟨l1, l2⟩ := pred_learnt D o hS hL p D.feats (Dict.keys nouns) sents s0 ec p2 p3
  cases hl : Pred.learn o.entLt o.stems o.lemmas (thresholds p) p.extractEomi false s0 with
  | error e => rw [hl] at h; cases h
  | ok s1 =>
    rw [hl] at h
    dsimp only at h
    obtain ⟨hr1, hnou, heo⟩ := l2 s1 hl
    cases hx : Pred.extract o.lemmas s1 [] p.minPredicatorFrequency with
    | error e => rw [hx] at h; cases h
    | ok r =>
      obtain ⟨q, adj, vb⟩ := r
      rw [hx] at h
      dsimp only at h
      obtain ⟨hr2, ⟨cands, rd, R, hcw2, hcm⟩, hres⟩ := pred_result hL hr1 hx
      cases ha : allAdverbs D q.adjectives q.verbs with
      | error e => rw [ha] at h; cases h
      | ok adv =>
        rw [ha] at h
        dsimp only at h
        rw [hE] at h
        have h := (Except.ok.inj h).symm
        have hadv := (adverbs_part D q.adjectives q.verbs).2 adv ha
        subst h
        have hnj : ∀ w, ¬ NounJosa s1.nouns s1.josas w → ¬ ∃ a j, a ≠ [] ∧ j ≠ [] ∧ NewsNounKept D (Dict.keys nouns) a ∧ j ∈ q.josas ∧ w = a ++ j := by
          rintro w hw ⟨a, j, h1, h2, h3, h4, h5⟩
          refine hw ⟨a, j, h1, h2, (hr1.nouns a).2 h3, ?_, h5⟩
          rw [hr1.josas, ← hr2.josas]; exact h4
        refine ⟨?_, ⟨hEw, ?_⟩, ?_, ?_, ?_, ⟨hr2.adjectives, hr2.verbs⟩, hr2.josas, ?_, ?_, ?_⟩
        · refine ⟨hEw, fun w k => ?_⟩
          dsimp only
          rw [hEm, hun]
          constructor
          · rintro ⟨a, b, c, d⟩; exact ⟨by omega, by omega, c, by omega⟩
          · rintro ⟨a, b, c, d⟩; exact ⟨by omega, by omega, c, by omega⟩
        · intro w hw
          obtain ⟨⟨w', k⟩, hm, he⟩ := List.mem_map.1 hw
          dsimp only at he hm
          subst he
          obtain ⟨_, _, _, _, h5⟩ := hmem _ _ ((hEm _ _).1 hm)
          obtain ⟨sent, _, hs⟩ := List.mem_flatMap.1 h5
          exact Py.splitWs_words _ _ hs
        · intro w k hm
          obtain ⟨a1, a2, a3, a4, _⟩ := hmem _ _ ((hEm _ _).1 hm)
          exact ⟨by omega, a2, by omega, by omega⟩
        · intro w k ls hw
          obtain ⟨b1, b2, b3, b4, b5⟩ := hres w k ls (.inl hw)
          exact ⟨b1, hnj w b2, b3, b4, fun x hx => ⟨(b5 x hx).2.2.2 hw, (b5 x hx).1, (b5 x hx).2.1⟩⟩
        · intro w k ls hw
          obtain ⟨b1, b2, b3, b4, b5⟩ := hres w k ls (.inr hw)
          exact ⟨b1, hnj w b2, b3, b4, fun x hx => ⟨(b5 x hx).2.2.1 hw, (b5 x hx).1, (b5 x hx).2.1⟩⟩
        · intro a
          dsimp only
          rw [hadv, hr2.adjectives, hr2.verbs]
          rfl
        · refine ⟨c.counter, dN, hcw, ?_, hdN, hnN⟩
          intro w k
          dsimp only
          constructor
          · intro hk
            have := (hmem w k hk).1
            refine ⟨k.toNat, by omega, ?_⟩
            rw [hEm, Int.toNat_of_nonneg (by omega)]; exact hk
          · rintro ⟨n, rfl, hn⟩; exact (hEm _ _).1 hn
        · have hnat : ∀ (d : Dict Str Pred.Entry) w (ls : List (Str × Str)), Dict.get? d w = (if ls = [] then none else some ((normCount sents w : Int), ls)) →
              Dict.get? (natEntries d) w = (if ls = [] then none else some (normCount sents w, ls)) := by
            intro d w ls hd
            rw [natEntries_get?, hd]
            split
            · rfl
            · show some (((normCount sents w : Int)).toNat, ls) = _
              rw [Int.toNat_natCast]
          have hnone : ∀ (d : Dict Str Pred.Entry) w, Dict.get? (natEntries d) w = none ↔ Dict.get? d w = none := by
            intro d w; rw [natEntries_get?, Option.map_eq_none_iff]
          have hkeys : ∀ w, w ∈ Dict.keys cands ↔ NewsCand p sents w (normCount sents w) := by
            intro w
            constructor
            · intro hw
              obtain ⟨⟨w', k⟩, hm, he⟩ := List.mem_map.1 hw
              dsimp only at he
              subst he
              exact ((hcm _ _).1 hm).2
            · intro hw; exact List.mem_map.2 ⟨_, (hcm w _).2 ⟨rfl, hw⟩, rfl⟩
          refine ⟨s1.nouns, s0.stems, s1.eomis, Dict.keys cands, rd, ⟨hr1.nouns, p2.stems, ?_, ⟨hcw2, hkeys⟩, ?_, ?_, ?_, ?_, ?_, R.eomis⟩⟩
          · intro y
            rw [heo, hnou]
            refine or_congr Iff.rfl (and_congr Iff.rfl (exists_congr (fun c2 => ?_)))
            unfold LearnEojeols
            rw [and_assoc]
            refine and_congr Iff.rfl (and_congr ?_ Iff.rfl)
            refine forall_congr' (fun w => forall_congr' (fun k => iff_congr Iff.rfl ?_))
            rw [← Dict.mem_iff_get? p2.wf, p2.mem]
            constructor
            · rintro ⟨⟨a, b, c⟩, d, e⟩; exact ⟨a, b, c, d, e⟩
            · rintro ⟨a, b, c, d, e⟩; exact ⟨⟨a, b, c⟩, d, e⟩
          · intro w hw
            have hR := R.readings w hw
            rw [hr1.josas, ← hr2.josas] at hR
            refine ⟨hR.nodup, fun q => ?_⟩
            rw [hR.mem]
            unfold Spec.Reading
            rw [hr1.stems, p2.stems]
          · intro w hw
            dsimp only
            rw [hnone, hnone]; exact R.other w hw
          · intro w hw
            dsimp only
            rcases R.word w _ ((hcm w _).2 ⟨rfl, (hkeys w).1 hw⟩) with h | ⟨as, vs, u1, u2, u3, u4, u5, u6⟩
            · exact .inl ⟨(hnone _ _).2 h.1, (hnone _ _).2 h.2⟩
            · refine .inr ⟨as, vs, u1, u2, fun q hq => ?_, fun q hq => ?_, hnat _ _ _ u5, hnat _ _ _ u6⟩
              · have := u3 q hq; rwa [hr1.verbs] at this
              · have := u4 q hq; rwa [hr1.verbs] at this
          · intro w hw h1
            dsimp only
            rw [Ne, Ne, hnone, hnone]
            exact R.complete w hw h1
          · intro w hw q hq h1 h2 h3
            dsimp only
            rw [hnone, hnone]
            exact R.lost w hw q hq h1 h2 h3

/-- C82 (b): when training succeeds: the corpus is not empty; a talkative extractor needs an eojeol that is frequent enough and one that occurs at least twice
    in the normalised sentences (else it divides by zero); to learn endings every dictionary stem must be conjugable; no stem is empty -/
theorem C82_succeeds :
    (∃ s, train D o p sents = .ok s) ↔ sents ≠ [] ∧
      (p.verbose = true → (∃ w, 1 ≤ newsCount p sents w ∧ p.minEojeolFrequency ≤ newsCount p sents w ∧ w.length ≤ 19) ∧
        ∃ w, 2 ≤ normCount sents w ∧ p.minEojeolFrequency ≤ normCount sents w ∧ w.length ≤ 15) ∧
      (p.extractEomi = true → ∀ x, NewsStem D x → ∃ out, Lemma.conjugateStem x = .ok out) ∧ ¬ NewsStem D [] := by
  by_cases hne : sents = []
  · subst hne
    constructor
    · rintro ⟨s, h⟩
      unfold train trainNounExtractor at h
      rw [(C54_sentences (nounParams p) { feats := D.feats } [] p.minEojeolFrequency).1 rfl] at h
      cases h
    · rintro ⟨h, _⟩; exact absurd rfl h
  obtain ⟨c, hc, hcw, n1, n2⟩ := noun_part D o hn p sents hne
  obtain ⟨c', hc', _, hmem, hun⟩ := construct_counter p sents hne
  rw [hc] at hc'
  cases hc'
  have hcne : ¬ (p.verbose = true ∧ c.counter = []) ↔
      (p.verbose = true → ∃ w, 1 ≤ newsCount p sents w ∧ p.minEojeolFrequency ≤ newsCount p sents w ∧ w.length ≤ 19) := by
    constructor
    · intro h hv
      cases hl : c.counter with
      | nil => exact absurd ⟨hv, hl⟩ h
      | cons x xs =>
        obtain ⟨w, k⟩ := x
        obtain ⟨a1, a2, a3, a4⟩ := (hun w k).1 (by rw [hl]; simp)
        exact ⟨w, by omega, by omega, by omega⟩
    · rintro h ⟨hv, h0⟩
      obtain ⟨w, a1, a2, a3⟩ := h hv
      have := (hun w (newsCount p sents w : Int)).2 ⟨rfl, by omega, a2, by omega⟩
      rw [h0] at this; cases this
  unfold train
  by_cases hv : p.verbose = true ∧ c.counter = []
  · rw [n1 hv.1 hv.2]
    constructor
    · rintro ⟨s, h⟩; cases h
    · rintro ⟨_, h2, _⟩
      exact absurd hv (hcne.2 (fun hv' => (h2 hv').1))
  obtain ⟨n, nouns, hN, hfe, ⟨dN, hdN, hnN⟩, E, hE, hEw, hEm⟩ := n2 hv
  have hv1 := hcne.1 hv
  rw [hN]
  dsimp only
  unfold trainPredicatorExtractor
  rw [hfe]
  obtain ⟨s0, ec, p1, p2, p3⟩ := pred_counted D p D.feats (Dict.keys nouns) sents hne
  rw [p1]
  dsimp only
  obtain ⟨l1, l2⟩ := pred_learnt D o hS hL p D.feats (Dict.keys nouns) sents s0 ec p2 p3
  have hene : ¬ (p.verbose = true ∧ ec.counter = []) ↔
      (p.verbose = true → ∃ w, 2 ≤ normCount sents w ∧ p.minEojeolFrequency ≤ normCount sents w ∧ w.length ≤ 15) := by
    constructor
    · intro h hv
      cases hl : ec.counter with
      | nil => exact absurd ⟨hv, hl⟩ h
      | cons x xs =>
        obtain ⟨w, k⟩ := x
        obtain ⟨a1, a2, a3⟩ := (p2.mem w k).1 (by rw [hl]; simp)
        have a4 := Int.le_trans (Int.le_max_right _ _) a3
        have a5 := Int.le_trans (Int.le_max_left _ _) a3
        exact ⟨w, by omega, by omega, a2⟩
    · rintro h ⟨hv, h0⟩
      obtain ⟨w, a1, a2, a3⟩ := h hv
      have := (p2.mem w (normCount sents w : Int)).2 ⟨rfl, a3, Int.max_le.2 ⟨a2, by omega⟩⟩
      rw [h0] at this; cases this
  have hstem : ¬ (p.extractEomi = true ∧ ∃ x, NewsStem D x ∧ ∃ e, Lemma.conjugateStem x = .error e) ↔
      (p.extractEomi = true → ∀ x, NewsStem D x → ∃ out, Lemma.conjugateStem x = .ok out) := by
    constructor
    · intro h h1 x hx
      cases he : Lemma.conjugateStem x with
      | ok out => exact ⟨out, rfl⟩
      | error e => exact absurd ⟨h1, x, hx, e, he⟩ h
    · rintro h ⟨h1, x, hx, e, he⟩
      obtain ⟨out, ho⟩ := h h1 x hx
      rw [ho] at he; cases he
  rw [hstem] at l1
  cases hl : Pred.learn o.entLt o.stems o.lemmas (thresholds p) p.extractEomi false s0 with
  | error e =>
    dsimp only
    constructor
    · rintro ⟨s, h⟩; cases h
    · rintro ⟨_, _, h3, _⟩
      obtain ⟨s', hs'⟩ := l1.2 h3
      rw [hl] at hs'; cases hs'
  | ok s1 =>
    have hst := l1.1 ⟨s1, hl⟩
    dsimp only
    obtain ⟨hr1, hnou, heo⟩ := l2 s1 hl
    have hxk := pred_extract_ok hL hr1
    rw [hene] at hxk
    cases hx : Pred.extract o.lemmas s1 [] p.minPredicatorFrequency with
    | error e =>
      dsimp only
      constructor
      · rintro ⟨s, h⟩; cases h
      · rintro ⟨_, h2, _⟩
        obtain ⟨r, hr⟩ := hxk.2 (fun hv => (h2 hv).2)
        rw [hx] at hr; cases hr
    | ok r =>
      have hv2 := hxk.1 ⟨r, hx⟩
      obtain ⟨q, adj, vb⟩ := r
      dsimp only
      obtain ⟨hr2, ⟨cands, rd, R, hcw2, hcm⟩, hres⟩ := pred_result hL hr1 hx
      obtain ⟨ad1, ad2⟩ := adverbs_part D q.adjectives q.verbs
      cases ha : allAdverbs D q.adjectives q.verbs with
      | error e =>
        dsimp only
        constructor
        · rintro ⟨s, h⟩; cases h
        · rintro ⟨_, _, _, h4⟩
          obtain ⟨out, ho⟩ := ad1.2 ⟨fun h => h4 (.inl (hr2.adjectives ▸ h)), fun h => h4 (.inr (hr2.verbs ▸ h))⟩
          rw [ha] at ho; cases ho
      | ok adv =>
        dsimp only
        rw [hE]
        obtain ⟨e1, e2⟩ := ad1.1 ⟨adv, ha⟩
        rw [hr2.adjectives] at e1
        rw [hr2.verbs] at e2
        exact ⟨fun _ => ⟨hne, fun hv => ⟨hv1 hv, hv2 hv⟩, hst, fun h => h.elim e1 e2⟩, fun _ => ⟨_, rfl⟩⟩

omit hn hS hL in
private theorem trained_korean {s : State} (h : NewsTrained D p sents s) : KoreanLemmas s.adjectives ∧ KoreanLemmas s.verbs := by
  constructor
  · rintro w ⟨n, ls⟩ hw q hq
    obtain ⟨b, hb, _⟩ := ((h.adjectives w n ls hw).lemmas q hq).2.2
    exact korean_of_conjugate hb
  · rintro w ⟨n, ls⟩ hw q hq
    obtain ⟨b, hb, _⟩ := ((h.verbs w n ls hw).lemmas q hq).2.2
    exact korean_of_conjugate hb

/-- a talkative extractor that could be trained has counted something, so that printing the statistics does not fail -/
private theorem trained_total (s : State) (h : train D o p sents = .ok s) (hv : p.verbose = true) : (Dict.values s.eojeols).sum ≠ 0 := by
  have hne : sents ≠ [] := by
    rintro rfl
    unfold train trainNounExtractor at h
    rw [(C54_sentences (nounParams p) { feats := D.feats } [] p.minEojeolFrequency).1 rfl] at h
    cases h
  obtain ⟨c, hc, hcw, n1, n2⟩ := noun_part D o hn p sents hne
  obtain ⟨c', hc', _, hmem, hun⟩ := construct_counter p sents hne
  rw [hc] at hc'
  cases hc'
  unfold train at h
  by_cases h0 : c.counter = []
  · rw [n1 hv h0] at h; cases h
  obtain ⟨n, nouns, hN, -, -, E, hE, hEw, hEm⟩ := n2 (fun hc => h0 hc.2)
  rw [hN] at h
  dsimp only at h
  rw [hE] at h
  have hs : s.eojeols = E := by
    cases h1 : trainPredicatorExtractor D o p n.feats (Dict.keys nouns) sents with
    | error e => rw [h1] at h; cases h
    | ok x =>
      rw [h1] at h
      obtain ⟨q, adj, vb⟩ := x
      dsimp only at h
      cases h2 : allAdverbs D q.adjectives q.verbs with
      | error e => rw [h2] at h; cases h
      | ok a => rw [h2] at h; cases h; rfl
  rw [hs]
  cases hcc : c.counter with
  | nil => exact absurd hcc h0
  | cons x xs =>
    obtain ⟨w, k⟩ := x
    have hk := hmem w k (by rw [hcc]; exact List.mem_cons_self)
    have hk' : 0 < k := by omega
    have hE' : (w, k.toNat) ∈ E := (hEm w k.toNat).2 (by rw [hcc, Int.toNat_of_nonneg (by omega)]; exact List.mem_cons_self)
    intro hz
    have := List.sum_eq_zero_iff.1 hz k.toNat (List.mem_map.2 ⟨_, hE', rfl⟩)
    omega

/-- C82 (c): after a successful training `extract` always succeeds, for both extractors: `train_extract` fails only as `train` does -/
theorem C82_extracts (s : State) (h : train D o p sents = .ok s) :
    (∃ s' t, trainExtract D o p sents = .ok (s', t)) ∧ ∃ s' t, chatTrainExtract D o p sents = .ok (s', t) := by
  have T := C82_trained D o hn hS hL p sents s h
  obtain ⟨k1, k2⟩ := trained_korean D p sents T
  unfold trainExtract chatTrainExtract
  rw [h]
  have hp : ∀ f : State → PyM (State × WordTags), (∃ s' t, f s = .ok (s', t)) → ∃ s' t, printing p.verbose f s = .ok (s', t) := by
    rintro f ⟨s', t, hf⟩
    unfold printing
    rw [hf]
    dsimp only
    rw [if_neg (fun hc => trained_total D o hn hS hL p sents s h hc.1 hc.2)]
    exact ⟨_, _, rfl⟩
  exact ⟨hp _ (C72_total s T.wordLike k1 k2), hp _ (C74_total D.josas s k1 k2)⟩
end

/-- a lemma of `w`: its conjugation gives `w`, or `w` is a predicator `u` behind a known word `a`, and the lemma is one of `u` with `a` in front of the stem -/
def NewsLemma (w : Str) (q : Str × Str) : Prop :=
  (∃ b, Lemma.conjugate q.1 q.2 = .ok b ∧ w ∈ b) ∨
  ∃ a u stem b, w = a ++ u ∧ 2 ≤ a.length ∧ q.1 = a ++ stem ∧ Lemma.conjugate stem q.2 = .ok b ∧ u ∈ b

section
variable (D : Dictionaries) (o : Orders) (hn : ∀ i l, (o.nouns i l).Perm l) (hS : ∀ l, (o.stems l).Perm l) (hL : ∀ l, (o.lemmas l).Perm l)
  (p : TrainParams) (sents : List Str) (s' : State) (t : WordTags) (h : trainExtract D o p sents = .ok (s', t))
include h

omit h in
private theorem of_trainExtract (h : trainExtract D o p sents = .ok (s', t)) : ∃ s, train D o p sents = .ok s ∧ extract s = .ok (s', t) := by
  unfold trainExtract at h
  cases ht : train D o p sents with
  | error e => rw [ht] at h; cases h
  | ok s =>
    rw [ht] at h
    refine ⟨s, rfl, ?_⟩
    dsimp only at h
    unfold printing at h
    cases hx : extract s with
    | error e => rw [hx] at h; cases h
    | ok r =>
      rw [hx] at h
      dsimp only at h
      split at h
      · cases h
      · exact h

include hn hS hL

/-- C82 (d): whatever is returned as adjective or verb carries lemmas, each of which is a lemma of the word, with a known ending -/
theorem C82_lemmas (w : Str) (n : Nat) (l : Option (List (Str × Str))) (hw : Dict.get? t.adjective w = some (n, l) ∨ Dict.get? t.verb w = some (n, l)) :
    ∃ ls, l = some ls ∧ ls ≠ [] ∧ ∀ q ∈ ls, NewsLemma w q ∧ q.2 ∈ t.eomi := by
  obtain ⟨s, h1, h2⟩ := of_trainExtract D o p sents s' t h
  have T := C82_trained D o hn hS hL p sents s h1
  have he := (C71_stems T.wordLike h2).1
  have hcomp : ∀ (new : Str → Prop) (base : Dict Str Entry) ls, (∀ w n ls, Dict.get? base w = some (n, ls) → ∀ q ∈ ls, q.2 ∈ s.eomis ∧ ∃ b, Lemma.conjugate q.1 q.2 = .ok b ∧ w ∈ b) →
      CompoundLemmas s new base w ls → ls ≠ [] ∧ ∀ q ∈ ls, NewsLemma w q ∧ q.2 ∈ t.eomi := by
    rintro new base ls hb ⟨a, b, e, ⟨⟨r1, r2, r3, r4, r5⟩, _⟩, g1, g2, g3⟩
    refine ⟨g2, fun q hq => ?_⟩
    obtain ⟨stem, k1, k2, _, _⟩ := (g3 q).1 hq
    obtain ⟨x1, x2, x3, x4⟩ := hb b e.1 e.2 g1 (stem, q.2) k1
    exact ⟨.inr ⟨a, b, stem, x2, r1, r2, k2, x3, x4⟩, by rw [he]; exact x1⟩
  rcases hw with hw | hw
  · obtain ⟨ls, e1, e2⟩ := C71_adjective T.wordLike h2 w n l hw
    refine ⟨ls, e1, ?_⟩
    rcases e2 with ⟨m, hm⟩ | ⟨_, hc | hk⟩
    · have P := T.adjectives w m ls hm
      exact ⟨P.some, fun q hq => ⟨.inl (P.lemmas q hq).2.2, by rw [he]; exact (P.lemmas q hq).2.1⟩⟩
    · exact hcomp _ _ ls (fun w n ls hb q hq => ((T.adjectives w n ls hb).lemmas q hq).2) hc
    · exact ⟨hk.1, fun q hq => ⟨.inl (hk.2.1 q hq).2.2.2, (hk.2.1 q hq).2.1⟩⟩
  · obtain ⟨ls, e1, e2⟩ := C71_verb T.wordLike h2 w n l hw
    refine ⟨ls, e1, ?_⟩
    rcases e2 with ⟨m, hm⟩ | ⟨_, hc | hk⟩
    · have P := T.verbs w m ls hm
      exact ⟨P.some, fun q hq => ⟨.inl (P.lemmas q hq).2.2, by rw [he]; exact (P.lemmas q hq).2.1⟩⟩
    · exact hcomp _ _ ls (fun w n ls hb q hq => ((T.verbs w n ls hb).lemmas q hq).2) hc
    · exact ⟨hk.1, fun q hq => ⟨.inl (hk.2.1 q hq).2.2.2, (hk.2.1 q hq).2.1⟩⟩

/-- C82 (e): the frequencies are those of the corpus: exactly for adverbs and for what is not recognised, which has between 2 and 19 characters; adjectives, verbs and
    nouns that occur alone are counted at least as often as they do; and every eojeol of the corpus (frequent and short enough) is reported as irrecognizable or explained (C69) -/
theorem C82_frequencies : ∃ s, train D o p sents = .ok s ∧
    (∀ w n, Dict.get? t.adverb w = some n ↔ (w ∈ D.adverbs ∨ ∃ x, NewsStem D (x ++ ['하']) ∧ w = x ++ ['히']) ∧
      n = newsCount p sents w ∧ 1 ≤ n ∧ p.minEojeolFrequency ≤ n ∧ w.length ≤ 19) ∧
    (∀ w n, (w, n) ∈ t.irrecognizable → n = newsCount p sents w ∧ 1 ≤ n ∧ p.minEojeolFrequency ≤ n ∧ 2 ≤ w.length ∧ w.length ≤ 19) ∧
    (∀ w n l, Dict.get? t.adjective w = some (n, l) ∨ Dict.get? t.verb w = some (n, l) → 1 ≤ newsCount p sents w ∧ newsCount p sents w ≤ n ∧ w.length ≤ 19) ∧
    (∀ w n, Dict.get? t.noun w = some n ∨ Dict.get? t.confusedNouns w = some n → w ∈ s.nouns → w.length ≤ 19 → p.minEojeolFrequency ≤ newsCount p sents w →
      newsCount p sents w ≤ n) ∧
    (∀ w, 1 ≤ newsCount p sents w → p.minEojeolFrequency ≤ newsCount p sents w → w.length ≤ 19 → In t.irrecognizable w ∨ Explained s t w) := by
  obtain ⟨s, h1, h2⟩ := of_trainExtract D o p sents s' t h
  have T := C82_trained D o hn hS hL p sents s h1
  obtain ⟨_, TE⟩ := T.eojeols
  have hin : ∀ w, In s.eojeols w → (w, newsCount p sents w) ∈ s.eojeols ∧ 1 ≤ newsCount p sents w ∧ w.length ≤ 19 := by
    intro w hw
    obtain ⟨⟨w', k⟩, hm, e⟩ := List.mem_map.1 hw
    dsimp only at e hm
    subst e
    obtain ⟨a1, a2, a3, a4⟩ := (TE _ _).1 hm
    rw [← a1]
    exact ⟨hm, a2, a4⟩
  have hget : ∀ w, In s.eojeols w → Dict.getD s.eojeols w 0 = newsCount p sents w := by
    intro w hw
    rw [Dict.getD, Dict.get?_of_mem T.wordLike.1 (hin w hw).1]; rfl
  refine ⟨s, h1, ?_, ?_, ?_, ?_, ?_⟩
  · intro w n
    rw [C70_adverb T.wordLike h2, ← T.adverbs, ← TE]
    by_cases hw : w ∈ s.adverbs
    · rw [if_pos hw, ← Dict.mem_iff_get? T.wordLike.1]
      exact ⟨fun h => ⟨hw, h⟩, fun h => h.2⟩
    · rw [if_neg hw]
      exact ⟨fun h => by (cases h), fun h => absurd h.1 hw⟩
  · intro w n hw
    obtain ⟨a1, a2, _⟩ := C69_irrecognizable T.wordLike h2 w n hw
    obtain ⟨b1, b2, b3, b4⟩ := (TE _ _).1 a1
    exact ⟨b1, b2, b3, a2, b4⟩
  · intro w n l hw
    have : In s.eojeols w ∧ Dict.getD s.eojeols w 0 ≤ n := by
      rcases hw with hw | hw
      · exact ⟨(C70_adjective T.wordLike h2 w n l hw).1, (C70_adjective T.wordLike h2 w n l hw).2.1⟩
      · exact ⟨(C70_verb T.wordLike h2 w n l hw).1, (C70_verb T.wordLike h2 w n l hw).2.1⟩
    obtain ⟨b1, b2, b3⟩ := hin w this.1
    exact ⟨b2, by rw [← hget w this.1]; exact this.2, b3⟩
  · intro w n hw hs hl hf
    have := (C70_noun T.wordLike h2 w n hw).1 hs
    by_cases h0 : newsCount p sents w = 0
    · omega
    · have hm := (TE w (newsCount p sents w)).2 ⟨rfl, by omega, hf, hl⟩
      rw [Dict.getD, Dict.get?_of_mem T.wordLike.1 hm] at this
      exact this
  · intro w a1 a2 a3
    have hm := (TE w (newsCount p sents w)).2 ⟨rfl, a1, a2, a3⟩
    by_cases hi : In t.irrecognizable w
    · exact .inl hi
    · exact .inr (C69_coverage T.wordLike h2 w (List.mem_map.2 ⟨_, hm, rfl⟩) hi)
end

/-! ### a concrete corpus -/

/-- a small dictionary -/
def demoDict : Dictionaries :=
  { feats := { pos := ["는".toList, "에".toList, "를".toList], common := ["은".toList] }, josas := ["이".toList], adjectives := ["예쁘".toList, "조용하".toList]
    verbs := ["먹".toList, "가".toList], eomis := ["는다".toList, "다".toList, "ㄴ다".toList], adverbs := ["너무".toList] }
def demoOrders : Orders := { entLt := fun _ _ => false, nouns := fun _ => id, stems := id, lemmas := id }
def demoTrain : TrainParams := { minNumOfEomiFeatures := 1 }
def demoCorpus : List Str :=
  ["학교는 너무 조용하다".toList, "학교에 간다! 간다".toList, "학교를 조용히 먹는다".toList, "학교 조용하다 먹는다 먹는다 뭐지".toList]

/-- the noun, the predicators, both adverbs (one of them from a stem) and the word nobody knows are told apart and counted -/
example : (match trainExtract demoDict demoOrders demoTrain demoCorpus with
    | .ok (_, t) => t.noun == [("학교".toList, 4)] && t.verb.map (fun (e : Str × (Nat × Option (List (Str × Str)))) => (e.1, e.2.1)) == [("간다".toList, 2), ("먹는다".toList, 3)]
        && t.adjective.map (fun (e : Str × (Nat × Option (List (Str × Str)))) => (e.1, e.2.1)) == [("조용하다".toList, 2)]
        && t.adverb == [("너무".toList, 1), ("조용히".toList, 1)] && t.irrecognizable == [("뭐지".toList, 1)]
    | .error _ => false) = true := by decide +kernel

/-- nothing is filtered while it is counted -/
example : NewsUnfiltered demoTrain demoCorpus := by unfold NewsUnfiltered; decide

/-- a sentence in which no eojeol is repeated: the extractor, talkative by default, divides by zero -/
example : (match trainExtract demoDict demoOrders demoTrain ["학교는 너무 조용하다".toList] with | .error .zeroDivision => true | _ => false) = true := by decide +kernel

/-- silenced, it works -/
example : (match trainExtract demoDict demoOrders { demoTrain with verbose := false } ["학교는 너무 조용하다".toList] with | .ok _ => true | _ => false) = true := by decide +kernel
end Props
